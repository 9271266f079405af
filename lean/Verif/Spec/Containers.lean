/-
Specification side: which coefficient containers a multidimensional transform returns.
Of the model only the container types `Entry` and `Coeffs` (Model/Util.lean) are used.
-/
import Verif.Spec.DwtNd
import Verif.Model.Util

namespace Verif.Spec
variable {R : Type}

/-- The entry is a `(horizontal, vertical, diagonal)` tuple: horizontal details are high pass along the
first axis only, vertical ones along the second axis only, diagonal ones along both. -/
def IsTuple [Zero R] (P : List Bool → Tensor R → Prop) (e : Entry R) : Prop :=
  ∃ h v d, e = .tuple h v d ∧ P [true, false] h ∧ P [false, true] v ∧ P [true, true] d

/-- The detail keys of a three-dimensional transform. -/
def keys3 : List String := ["aad", "ada", "add", "daa", "dad", "dda", "ddd"]

/-- The entry is a dictionary with exactly the keys `keys`, every key naming its band. -/
def IsDict [Zero R] (keys : List String) (P : List Bool → Tensor R → Prop) (e : Entry R) : Prop :=
  ∃ kv, e = .dict kv ∧ kv.map Prod.fst = keys ∧ ∀ q ∈ kv, P (bandOfKey q.1) q.2

/-- The container holds the textbook coefficients of `x` along the axes `ax`: a Python tuple with the
level-`L` approximation first and then the details of level `L, L-1, …, 1`, each entry of the form
`D`. -/
structure IsDwtN [NonUnitalNonAssocSemiring R] (D : (List Bool → Tensor R → Prop) → Entry R → Prop)
    (m : Mode) (w : Wavelet R) (ax : List Nat) (L : Nat) (x : Tensor R) (c : Coeffs R) : Prop where
  kind : c.isList = false
  length : c.items.length = L + 1
  approx : ∃ t, c.items[0]? = some (.tensor t) ∧ IsApprox m w ax x L t
  detail : ∀ s, s < L → ∃ e, c.items[L - s]? = some e ∧ D (IsBand m w ax x s) e

/-- Coefficients of a two-dimensional transform. -/
abbrev IsDwt2 [NonUnitalNonAssocSemiring R] := IsDwtN (R := R) IsTuple

/-- Coefficients of a three-dimensional transform. -/
abbrev IsDwt3 [NonUnitalNonAssocSemiring R] := IsDwtN (R := R) (IsDict keys3)

end Verif.Spec
