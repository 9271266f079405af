/-
Specification side: kinds of histories of operations on a packet object.
-/
import Verif.Model.Packets

namespace Verif.Spec
variable {C T : Type}

/-- What the user sees of a result. -/
def outOf {α : Type} (f : α → Backend.Out T) : Except Err α → Backend.Out T
  | .ok v => f v
  | .error e => .raised e

/-- Reading operations. -/
def IsRead : Backend.Op T → Prop
  | .read _ => True
  | .init _ => True
  | _ => False

/-- The tensors an operation brings in (the data of a transform, an assigned value) satisfy `P`. -/
def OpIn (P : T → Prop) : Backend.Op T → Prop
  | .set _ t => P t
  | .transform x _ => P x
  | _ => True

/-- A history of reads and of assignments to coefficients already in the tree. -/
def AssignsPresent (B : Backend C T) : Pkt C T → List (Backend.Op T) → Prop
  | _, [] => True
  | st, .read k :: ops => AssignsPresent B (B.step st (.read k)).2 ops
  | st, .init ks :: ops => AssignsPresent B (B.step st (.init ks)).2 ops
  | st, .set k t :: ops => (st.data k).isSome ∧ AssignsPresent B (B.step st (.set k t)).2 ops
  | _, .transform _ _ :: _ => False
  | _, .reconstruct :: _ => False

end Verif.Spec
