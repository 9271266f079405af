/-
Specification side: rescaled filters and coefficients.
Of the model only the container types `Entry` and `Coeffs` (Model/Util.lean) are used.
-/
import Verif.Spec.Local
import Verif.Spec.IdwtNd

namespace Verif.Spec
variable {R : Type}

/-- The filters of `w'` are those of `w` multiplied by `α` (analysis low pass), `β` (analysis high pass), `γ` (synthesis low
pass) and `δ` (synthesis high pass). -/
structure ScaledBank [Mul R] (α β γ δ : R) (w w' : Wavelet R) : Prop where
  decLo : w'.decLo = w.decLo.map fun a => α * a
  decHi : w'.decHi = w.decHi.map fun a => β * a
  recLo : w'.recLo = w.recLo.map fun a => γ * a
  recHi : w'.recHi = w.recHi.map fun a => δ * a

/-- `y` is `c` times `x`. -/
structure Times [Mul R] [Zero R] (c : R) (x y : Tensor R) : Prop where
  md : y.md = x.md
  shape : y.shape = x.shape
  get : ∀ idx, InB x.shape idx → y.get idx = c * x.get idx

/-- The factor of the band `bs` in the level which has `s` levels before it (towards the signal): the signal has been filtered
`s` times with the low-pass filter along every axis, and then once with the filters of the band. -/
def bandFactor [Monoid R] (α β : R) (s : Nat) (bs : List Bool) : R :=
  α ^ (bs.length * s + bs.count false) * β ^ bs.count true

/-- The coefficients `c'` are those of `c` times powers of `α` and `β`: the approximation carries a factor `α` per axis and
level, every detail the factor of its band and level (the last entry is the level closest to the signal). -/
structure CoeffsScaled [CommSemiring R] (n : Nat) (α β : R) (c c' : Coeffs R) : Prop where
  kind : c'.isList = c.isList
  length : c'.items.length = c.items.length
  approx : ∃ t t', c.items[0]? = some (.tensor t) ∧ c'.items[0]? = some (.tensor t') ∧ Times (α ^ (n * (c.items.length - 1))) t t'
  detail : ∀ q e e', c.items[q + 1]? = some e → c'.items[q + 1]? = some e' → ∀ bs t t', HoldsBand e bs t →
    HoldsBand e' bs t' → bs.length = n ∧ Times (bandFactor α β (c.items.length - 2 - q) bs) t t'

/-- The same for the details a reconstruction gets: every band of every entry of `es'` is the band of `es` times the factor of
its band and level. -/
def DetailsScaled [CommSemiring R] (n : Nat) (α β : R) : List (Entry R) → List (Entry R) → Prop
  | [], [] => True
  | e :: es, e' :: es' => (∀ bs : List Bool, bs.length = n →
      Option.Rel (Times (bandFactor α β es.length bs)) (bandGet e bs) (bandGet e' bs)) ∧ DetailsScaled n α β es es'
  | _, _ => False

end Verif.Spec
