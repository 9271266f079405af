/-
Specification side: the rows cut off at one end of a long interval.  The definitions do not mention the
length of the interval.
-/
import Verif.Spec.Orth

namespace Verif.Spec

/-- The `F / 4` pairs of rows cut off at the left end are linearly independent: pair `i` reads the two
filters backwards from tap `F/2 + 2 i`, starting at the first sample. -/
def LeftIndep (w : Wavelet ℝ) (F : Nat) : Prop :=
  ∀ a b : ℕ → ℝ,
    (∀ j : ℕ, ∑ i ∈ Finset.range (F / 4), (a i * tap w.decLo ((F / 2 : ℕ) + 2 * (i : ℤ) - j) +
      b i * tap w.decHi ((F / 2 : ℕ) + 2 * (i : ℤ) - j)) = 0) →
    ∀ i, i < F / 4 → a i = 0 ∧ b i = 0

/-- The `F / 4` pairs of rows cut off at the right end are linearly independent; samples and pairs are
counted from the right. -/
def RightIndep (w : Wavelet ℝ) (F : Nat) : Prop :=
  ∀ a b : ℕ → ℝ,
    (∀ j : ℕ, ∑ i ∈ Finset.range (F / 4), (a i * tap w.decLo ((F / 2 : ℕ) - 1 - 2 * (i : ℤ) + j) +
      b i * tap w.decHi ((F / 2 : ℕ) - 1 - 2 * (i : ℤ) + j)) = 0) →
    ∀ i, i < F / 4 → a i = 0 ∧ b i = 0

/-- The high-pass filter is the low-pass filter read backwards with alternating signs, up to a
factor `s` (all orthogonal wavelets of pywt are of this form, with `s = 1` or `s = -1`). -/
def AlternatingFlip (w : Wavelet ℝ) (F : Nat) (s : ℝ) : Prop :=
  ∀ k, k < F → tap w.decHi (k : ℤ) = s * (-1) ^ k * tap w.decLo ((F - 1 - k : ℕ) : ℤ)

end Verif.Spec
