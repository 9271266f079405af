/-
Specification side: images and volumes that are polynomials along one axis.
-/
import Verif.Spec.Local

namespace Verif.Spec
variable {R : Type}

/-- Every window ends inside the signal. -/
def EndsInside : List Window → List Nat → Prop
  | [], [] => True
  | w :: ws, n :: ns => w.hi ≤ n ∧ EndsInside ws ns
  | _, _ => False

/-- Seen as a function of its `i`-th coordinate, with the others fixed, `X` is a polynomial of degree at most `d` at
the positions of level `s` that belong to the windows (for `s = 0` these are the samples in the windows).  The polynomial
may be a different one on every line. -/
def AxisPoly [Semiring R] (F s : Nat) (ws : List Window) (i d : Nat) (X : List Nat → R) : Prop :=
  ∀ js, InsideN F s ws js → ∃ Q : Polynomial R, Q.natDegree ≤ d ∧
    ∀ t : Nat, InsideN F s ws (js.set i t) → X (js.set i t) = Q.eval (t : R)

/-- Every detail band that is high pass along the `i`-th axis is 0 in the windows, and the approximation is still a
polynomial of degree at most `d` along it. -/
structure Flattened [Semiring R] (F : Nat) (ws : List Window) (i d : Nat) (c : Coeffs R) (ax idx : List Nat) : Prop where
  detail : ∀ s, s + 1 < c.items.length → ∀ e bs t, c.items[c.items.length - 1 - s]? = some e → HoldsBand e bs t →
    bs[i]? = some true → ∀ ks, InsideN F (s + 1) ws ks → plane t ax idx ks = 0
  approx : ∃ a, c.items[0]? = some (.tensor a) ∧ AxisPoly F (c.items.length - 1) ws i d (plane a ax idx)

end Verif.Spec
