/-
Specification side: wavelet transforms of signals on all integer positions along several axes.
Of the model only the container types `Entry` and `Coeffs` (Model/Util.lean) are used.
-/
import Verif.Spec.ZeroMode
import Verif.Spec.Containers
import Verif.Spec.Local

namespace Verif.Spec
variable {R : Type}

/-- One analysis step along every axis of a signal on all integer positions. -/
def analysisZN [NonUnitalNonAssocSemiring R] : List (List R) → (List ℤ → R) → List ℤ → R
  | f :: fs, E, k :: ks => analysisZ f (fun j => analysisZN fs (fun js => E (j :: js)) ks) k
  | _, E, _ => E []

/-- Level-`s` approximation of a signal on all integer positions along `n` axes. -/
def approxZN [NonUnitalNonAssocSemiring R] (w : Wavelet R) (n : Nat) (E : List ℤ → R) : Nat → List ℤ → R
  | 0 => E
  | s + 1 => analysisZN (bandFilt w.decLo w.decHi (lowBand n)) (approxZN w n E s)

/-- Level-`s+1` details in the band `bs` of a signal on all integer positions along `n` axes. -/
def detailZN [NonUnitalNonAssocSemiring R] (w : Wavelet R) (n : Nat) (E : List ℤ → R) (s : Nat) (bs : List Bool) : List ℤ → R :=
  analysisZN (bandFilt w.decLo w.decHi bs) (approxZN w n E s)

/-- The plane of `t` along the axes `ax` through `idx`, continued by zeros. -/
def planeZ [Zero R] (t : Tensor R) (ax idx : List Nat) : List ℤ → R := extN .zero (sizes ax t.shape) (plane t ax idx)

/-- Every plane of `t` along the axes `ax`, continued by zeros, is `g` of the plane of `x` continued by zeros.  (The planes go
through positions that are legal in the other axes.) -/
def OfInfinite [Zero R] (g : (List ℤ → R) → List ℤ → R) (ax : List Nat) (x t : Tensor R) : Prop :=
  ∀ idx Ks ks, Ks.length = ax.length → InB (setMany t.shape ax Ks) idx → ks.length = ax.length →
    planeZ t ax idx ks = g (planeZ x ax idx) ks

/-- The container holds the coefficients of the infinite signals: the approximation first and then the details of level
`L, L-1, …, 1`, each entry of the form `D`. -/
structure IsZeroN [NonUnitalNonAssocSemiring R] (D : (List Bool → Tensor R → Prop) → Entry R → Prop) (w : Wavelet R)
    (ax : List Nat) (L : Nat) (x : Tensor R) (c : Coeffs R) : Prop where
  kind : c.isList = false
  length : c.items.length = L + 1
  approx : ∃ t, c.items[0]? = some (.tensor t) ∧ OfInfinite (fun E => approxZN w ax.length E L) ax x t
  detail : ∀ s, s < L → ∃ e, c.items[L - s]? = some e ∧
    D (fun bs t => OfInfinite (fun E => detailZN w ax.length E s bs) ax x t) e

/-- `y` is `x` with `δ a` zeros in front and possibly further zeros behind along every axis `a` of `ax`. -/
structure LaterByN [Zero R] (ax : List Nat) (δ : Nat → Nat) (x y : Tensor R) : Prop where
  md : y.md = x.md
  shape : y.shape = setMany x.shape ax (sizes ax y.shape)
  room : ∀ a ∈ ax, x.shape.getD a 0 + δ a ≤ y.shape.getD a 0
  get : ∀ idx, InB y.shape idx → y.get idx = planeZ x ax idx (ax.map fun a => (idx.getD a 0 : ℤ) - δ a)

/-- The coefficients `c'` are the coefficients `c` delayed by `d` at the coarsest level, twice as much at the next one and so
on, and continued by zeros. -/
structure CoeffsLaterBy [Zero R] (ax : List Nat) (d : Nat → Nat) (c c' : Coeffs R) : Prop where
  kind : c'.isList = c.isList
  length : c'.items.length = c.items.length
  approx : ∃ t t', c.items[0]? = some (.tensor t) ∧ c'.items[0]? = some (.tensor t') ∧ LaterByN ax d t t'
  detail : ∀ q e e', c.items[q + 1]? = some e → c'.items[q + 1]? = some e' → ∀ bs t t', HoldsBand e bs t →
    HoldsBand e' bs t' → LaterByN ax (fun a => 2 ^ q * d a) t t'

end Verif.Spec
