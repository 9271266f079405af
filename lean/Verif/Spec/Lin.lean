/-
Specification side: linear combinations of tensors and of results of calls that may raise.
-/
import Verif.Torch.Tensor

namespace Verif.Spec
variable {R : Type}

/-- `z = c * x + y` entry by entry; all three tensors agree in shape, dtype and device. -/
structure Lin [Zero R] [Mul R] [Add R] (c : R) (x y z : Tensor R) : Prop where
  md₁ : y.md = x.md
  md₂ : z.md = x.md
  shape₁ : y.shape = x.shape
  shape₂ : z.shape = x.shape
  get : ∀ i, z.get i = c * x.get i + y.get i

/-- Three calls either all raise the same exception or all succeed with related results. -/
inductive Three {α : Type} (P : α → α → α → Prop) :
    Except Err α → Except Err α → Except Err α → Prop where
  | ok {x y z : α} : P x y z → Three P (.ok x) (.ok y) (.ok z)
  | err (e : Err) : Three P (.error e) (.error e) (.error e)

/-- Three calls of methods of objects that were in the same state: related results (or the same
exception), and the same state afterwards. -/
structure ThreeSt {α S : Type} (P : α → α → α → Prop) (r s t : Except Err α × S) : Prop where
  out : Three P r.1 s.1 t.1
  state₁ : s.2 = r.2
  state₂ : t.2 = r.2

/-- Three lists of equal length, related entry by entry. -/
inductive Forall₃ {α : Type} (P : α → α → α → Prop) : List α → List α → List α → Prop where
  | nil : Forall₃ P [] [] []
  | cons {x y z : α} {xs ys zs : List α} : P x y z → Forall₃ P xs ys zs →
      Forall₃ P (x :: xs) (y :: ys) (z :: zs)

end Verif.Spec
