/-
Specification side: kinds of histories of dictionary operations on a packet object.
-/
import Verif.Spec.History
import Verif.Model.PacketDict

namespace Verif.Spec
variable {C T : Type}

/-- Operations that look coefficients up or throw coefficients away; nothing is assigned, transformed
or reconstructed. -/
def LooksUp : Backend.DictOp T → Prop
  | .base op => IsRead op
  | .setdefault _ _ => False
  | _ => True

/-- The operation throws the root away. -/
def DropsRoot : Backend.DictOp T → Prop
  | .del k => k = []
  | .pop k _ => k = []
  | _ => False

/-- What reading the keys `ks` leaves in the tree: the root and, for every node on the way to a key,
all its children. -/
def Expanded (al : List Char) (ks : List Key) (q : Key) : Prop :=
  q = [] ∨ ∃ k ∈ ks, ∃ p c, q = p ++ [c] ∧ c ∈ al ∧ p <+: k ∧ p ≠ k

/-- What a dictionary method that reads a key shows: the value read; `fallback` instead of a KeyError;
any other exception. -/
def sees (fallback : Backend.DictOut T) : Backend.Out T → Backend.DictOut T
  | .raised .keyError => fallback
  | o => .base o

/-- A default argument that was or was not given: without one the result is `None`. -/
def orNothing : Option T → Backend.DictOut T
  | some t => .base (.value t)
  | none => .none

/-- A default argument that was or was not given: without one the KeyError is raised. -/
def orRaise : Option T → Backend.DictOut T
  | some t => .base (.value t)
  | none => .base (.raised .keyError)

end Verif.Spec
