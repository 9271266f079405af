import Verif.Spec.Local

/-!
Specification side: which samples a boundary-matrix coefficient depends on.
-/

namespace Verif.Spec

/-- The coefficient `r` of level `s` of the boundary-matrix transform with `F` taps is computed from the samples
`2^s r - (2^s - 1) (F/2 - 1), …, 2^s r + (2^s - 1) F/2`; they all lie in the window `lo ≤ t < hi`. -/
def MatInside (F s lo hi r : Nat) : Prop :=
  lo + (2 ^ s - 1) * (F / 2 - 1) ≤ 2 ^ s * r ∧ 2 ^ s * r + (2 ^ s - 1) * (F / 2) < hi

end Verif.Spec
