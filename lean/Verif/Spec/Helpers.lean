/-
Specification side of C56: the form of two-dimensional coefficient containers and row-major order.  Of the
model only the container types are used.
-/
import Verif.Spec.Energy

namespace Verif.Spec
variable {R : Type}

/-- The container of a two-dimensional transform: an approximation and `L` triples. -/
def IsCoeffs2 [Zero R] (L : Nat) (c : Coeffs R) : Prop :=
  ∃ a ds, c.items = .tensor a :: ds ∧ ds.length = L ∧ ∀ e ∈ ds, ∃ h v d, e = .tuple h v d

/-- `u` lists the entries of `t` in lexicographic order of their positions. -/
structure RowMajor [Zero R] (t u : Tensor R) : Prop where
  md : u.md = t.md
  shape : u.shape = [prodL t.shape]
  get : ∃ pos : List Nat → Nat, (∀ i, InB t.shape i → pos i < prodL t.shape ∧ u.get [pos i] = t.get i) ∧
    (∀ k, k < prodL t.shape → ∃ i, InB t.shape i ∧ pos i = k) ∧
    ∀ i j, InB t.shape i → InB t.shape j → List.Lex (· < ·) i j → pos i < pos j

end Verif.Spec
