/-
Specification side: wavelet filter banks and the textbook perfect reconstruction condition.
Nothing here refers to the model of the code.
-/
import Mathlib.Algebra.Polynomial.Eval.Coeff
import Mathlib.Algebra.Polynomial.Coeff
import Mathlib.Algebra.BigOperators.NatAntidiagonal
import Mathlib.Algebra.Field.Basic
import Mathlib.Algebra.CharZero.Defs
import Mathlib.Data.List.GetD

namespace Verif
open Polynomial

/-- A wavelet as ptwt sees it: its filter bank, the four filters in the pywt order
`(dec_lo, dec_hi, rec_lo, rec_hi)`.  Models `constants.py:31-48` (`Wavelet` protocol); the
name and the redundant lengths are dropped (`__len__` is `len(dec_lo)`, line 46-48). -/
structure Wavelet (R : Type) where
  decLo : List R
  decHi : List R
  recLo : List R
  recHi : List R

/-- `len(wavelet)`, `constants.py:46-48`. -/
def Wavelet.len {R : Type} (w : Wavelet R) : Nat := w.decLo.length

namespace Spec
variable {R : Type}

/-- A filter (list of taps) as a function on ℤ, zero outside its support. -/
def tap [Zero R] (h : List R) (i : ℤ) : R := if 0 ≤ i then h.getD i.toNat 0 else 0

/-- The polynomial (z-transform in `X = z⁻¹`) of a filter. -/
noncomputable def poly [Semiring R] (h : List R) : R[X] :=
  ∑ i ∈ Finset.range h.length, C (h.getD i 0) * X ^ i

/-- All four filters have the length `F`. -/
def HasLen (w : Wavelet R) (F : Nat) : Prop :=
  w.decLo.length = F ∧ w.decHi.length = F ∧ w.recLo.length = F ∧ w.recHi.length = F

/-- The no-distortion half of the perfect reconstruction condition,
`H₀(z) F₀(z) + H₁(z) F₁(z) = 2 z^{-(F-1)}` (Strang & Nguyen, Theorem 4.1). -/
def NoDistortion [CommRing R] (w : Wavelet R) (F : Nat) : Prop :=
  poly w.decLo * poly w.recLo + poly w.decHi * poly w.recHi = C 2 * X ^ (F - 1)

/-- The alias cancellation half, `H₀(-z) F₀(z) + H₁(-z) F₁(z) = 0`. -/
def AliasFree [CommRing R] (w : Wavelet R) : Prop :=
  (poly w.decLo).comp (-X) * poly w.recLo + (poly w.decHi).comp (-X) * poly w.recHi = 0

/-- A perfect reconstruction filter bank of filter length `F`. -/
structure PRBank [CommRing R] (w : Wavelet R) (F : Nat) : Prop where
  len : HasLen w F
  noDistortion : NoDistortion w F
  aliasFree : AliasFree w

end Spec
end Verif
