/-
Specification side: cyclic shifts.
Of the model only the container type `Coeffs` (Model/Util.lean) is used.
-/
import Verif.Spec.Local
import Verif.Spec.IdwtNd

namespace Verif.Spec
variable {R : Type}

/-- The indices `ks`, each moved by its distance in `ds` on a circle with the number of points given in `ps`. -/
def rollIx : List Nat → List Nat → List Nat → List Nat
  | p :: ps, d :: ds, k :: ks => (k + d) % p :: rollIx ps ds ks
  | _, _, _ => []

/-- `y` is `x` with the indices along the axes `ax` moved by `ds` on circles of `ps` points. -/
structure Rolled [Zero R] (ax ps ds : List Nat) (x y : Tensor R) : Prop where
  md : y.md = x.md
  shape : y.shape = x.shape
  get : ∀ idx, InB x.shape idx → y.get idx = x.get (setMany idx ax (rollIx ps ds (sizes ax idx)))

/-- The coefficients `c'` of a signal with `ns` samples along the axes `ax` are those of `c` moved around the circle: the
approximation by `ds` on the circles of `n / 2^L` points (`L` levels), the details of entry `q + 1` (with `L - q - 1` levels
before it) by `2^q` times `ds` on circles of `n / 2^(L - q)` points. -/
structure CoeffsRolled [Zero R] (ax ns ds : List Nat) (c c' : Coeffs R) : Prop where
  kind : c'.isList = c.isList
  length : c'.items.length = c.items.length
  approx : ∃ t t', c.items[0]? = some (.tensor t) ∧ c'.items[0]? = some (.tensor t') ∧
    Rolled ax (ns.map (· / 2 ^ (c.items.length - 1))) ds t t'
  detail : ∀ q e e', c.items[q + 1]? = some e → c'.items[q + 1]? = some e' → ∀ bs t t', HoldsBand e bs t →
    HoldsBand e' bs t' → Rolled ax (ns.map (· / 2 ^ (c.items.length - 1 - q))) (ds.map (2 ^ q * ·)) t t'

/-- Signals of `n` samples whose `L` levels are transforms on a circle: the length is divisible by `2^L`, and there is one level
only or the filters have two or three taps (longer filters make the first level longer than half a round). -/
def OnCircle (F L n : Nat) : Prop := 0 < n ∧ 2 ^ L ∣ n ∧ (L ≤ 1 ∨ F ≤ 3)

end Verif.Spec
