/-
Specification side: the filter bank held by four filter tensors.  Nothing here refers to the model of the
code.
-/
import Verif.Spec.Orth

namespace Verif.Spec
variable {R : Type}

/-- The taps of a filter of length `F` held in a rank-one tensor. -/
def taps [Zero R] (F : Nat) (t : Tensor R) : List R := (List.range F).map fun i => t.get [i]

/-- The tensor is a filter of length `F`. -/
def IsFilter [Zero R] (md : Meta) (F : Nat) (t : Tensor R) : Prop := t.md = md ∧ t.shape = [F]

end Verif.Spec
