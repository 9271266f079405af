import Verif.Spec.LocalPoly

/-!
Specification side: polynomials along one axis, counted by the number of their coefficients, so that "fewer than 0
coefficients" is the zero polynomial.
-/

namespace Verif.Spec
variable {R : Type}

/-- Seen as a function of its `i`-th coordinate, with the others fixed, `X` is a polynomial of degree below `N` at the
positions of level `s` that belong to the windows; `N = 0` says that it is 0 there. -/
def AxisPolyLt [Semiring R] (F s : Nat) (ws : List Window) (i N : Nat) (X : List Nat → R) : Prop :=
  ∀ js, InsideN F s ws js → ∃ Q : Polynomial R, Q.degree < (N : WithBot Nat) ∧
    ∀ t : Nat, InsideN F s ws (js.set i t) → X (js.set i t) = Q.eval (t : R)

end Verif.Spec
