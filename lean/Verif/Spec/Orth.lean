/-
Specification side: orthogonal filter banks, the rows of a filter matrix on a finite interval, and
what it means for a matrix to be orthogonal.  Nothing here refers to the model of the code.
-/
import Verif.Spec.Wavelet
import Verif.Torch.Tensor
import Mathlib.LinearAlgebra.LinearIndependent.Defs
import Mathlib.Data.Real.Basic
import Mathlib.Algebra.Order.Field.Basic

namespace Verif.Spec
variable {R : Type}

/-- The dot product of two vectors with `n` entries. -/
def dot [NonUnitalNonAssocSemiring R] (n : Nat) (u v : Nat → R) : R :=
  ∑ j ∈ Finset.range n, u j * v j

/-- An orthogonal (paraunitary) filter bank of even length `F`: the double shifts of the analysis
filters are orthonormal, and the synthesis filters are the time-reversed analysis filters. -/
structure OrthBank [CommRing R] (w : Wavelet R) (F : Nat) : Prop where
  len : HasLen w F
  two_le : 2 ≤ F
  even : F % 2 = 0
  lo_lo : ∀ m : ℤ, (∑ k ∈ Finset.range F, tap w.decLo k * tap w.decLo (k + 2 * m)) = if m = 0 then 1 else 0
  hi_hi : ∀ m : ℤ, (∑ k ∈ Finset.range F, tap w.decHi k * tap w.decHi (k + 2 * m)) = if m = 0 then 1 else 0
  lo_hi : ∀ m : ℤ, (∑ k ∈ Finset.range F, tap w.decLo k * tap w.decHi (k + 2 * m)) = 0
  recLo : w.recLo = w.decLo.reverse
  recHi : w.recHi = w.decHi.reverse

/-- Row `r` of the two-channel filter matrix on `n` samples: the low-pass rows come first; row `i` of
a channel is the filter, reversed, with its last tap at sample `2 i + F/2`. -/
def filterRow [Zero R] (w : Wavelet R) (F n r j : Nat) : R :=
  if r < n / 2 then tap w.decLo ((F / 2 : ℕ) + 2 * (r : ℤ) - j)
  else tap w.decHi ((F / 2 : ℕ) + 2 * ((r : ℤ) - (n / 2 : ℕ)) - j)

/-- The number of a row within its channel. -/
def rowShift (n r : Nat) : Nat := if r < n / 2 then r else r - n / 2

/-- The filter of row `r` sticks out of the interval `[0, n)`. -/
def Truncated (F n r : Nat) : Prop := 2 * rowShift n r + 1 < F / 2 ∨ n ≤ 2 * rowShift n r + F / 2

/-- The rows that are cut off by the boundary are linearly independent. -/
def BoundaryIndep (w : Wavelet ℝ) (F n : Nat) : Prop :=
  LinearIndepOn ℝ (fun r : ℕ => fun j : Fin n => filterRow w F n r j) {r | r < n ∧ Truncated F n r}

/-- The first `n` rows of `M`, read up to column `n`, are orthonormal. -/
def OrthonormalRows [NonAssocSemiring R] (n : Nat) (M : Nat → Nat → R) : Prop :=
  ∀ r s, r < n → s < n → dot n (M r) (M s) = if r = s then 1 else 0

/-- The first `n` columns of `M`, read up to row `n`, are orthonormal. -/
def OrthonormalCols [NonAssocSemiring R] (n : Nat) (M : Nat → Nat → R) : Prop :=
  OrthonormalRows n fun i j => M j i

/-- What `torch.linalg.qr(X)` (reduced mode) guarantees about its first factor in exact arithmetic: it
has orthonormal columns, as many as the smaller size of `X`, and `X` is the product of it and some
matrix. -/
def IsReducedQr (qr : Tensor ℝ → Tensor ℝ) : Prop :=
  ∀ (X : Tensor ℝ) (m n : Nat), X.shape = [m, n] →
    (qr X).shape = [m, min m n] ∧ (qr X).md = X.md ∧
    (∀ a b, a < min m n → b < min m n →
      dot m (fun i => (qr X).get [i, a]) (fun i => (qr X).get [i, b]) = if a = b then 1 else 0) ∧
    ∃ T : Nat → Nat → ℝ, ∀ i j, i < m → j < n →
      X.get [i, j] = ∑ k ∈ Finset.range (min m n), (qr X).get [i, k] * T k j

end Verif.Spec
