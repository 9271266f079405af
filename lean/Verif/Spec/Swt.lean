/-
Specification side: the textbook stationary (undecimated, "à trous") wavelet transform of a
periodic signal and its inverse.  Nothing here refers to the model of the code.
-/
import Verif.Spec.Line

namespace Verif.Spec
variable {R : Type}

/-- Filter the `n`-periodic signal `x` with the dilated filter `h`:
`c(k) = ∑ᵢ h[i] x(k + d (F/2 - i))`, positions modulo `n`. -/
def swtStep [NonUnitalNonAssocSemiring R] (h : List R) (d n : Nat) (x : Nat → R) (k : Nat) : R :=
  ∑ i ∈ Finset.range h.length,
    h.getD i 0 * ext .periodic n x ((k : ℤ) + d * ((h.length / 2 : ℕ) : ℤ) - d * i)

/-- Level-`s` approximation of the stationary transform (level 0 is the signal); the dilation of
level `s + 1` is `2^s`. -/
def swtA [NonUnitalNonAssocSemiring R] (w : Wavelet R) (n : Nat) (x : Nat → R) : Nat → Nat → R
  | 0 => x
  | s + 1 => swtStep w.decLo (2 ^ s) n (swtA w n x s)

/-- Level-`s+1` detail of the stationary transform. -/
def swtD [NonUnitalNonAssocSemiring R] (w : Wavelet R) (n : Nat) (x : Nat → R) (s : Nat) :
    Nat → R :=
  swtStep w.decHi (2 ^ s) n (swtA w n x s)

/-- One inverse step: the average of the two filtered bands,
`y(m) = ½ ∑ⱼ f₀[j] lo(m + d (F/2 - 1 - j)) + f₁[j] hi(m + d (F/2 - 1 - j))`, positions modulo
`n`. -/
def iswtStep [Field R] (f₀ f₁ : List R) (d n : Nat) (lo hi : Nat → R) (m : Nat) : R :=
  (∑ j ∈ Finset.range f₀.length,
    (f₀.getD j 0 * ext .periodic n lo ((m : ℤ) + d * ((f₀.length / 2 : ℕ) : ℤ) - d - d * j)
      + f₁.getD j 0 * ext .periodic n hi ((m : ℤ) + d * ((f₀.length / 2 : ℕ) : ℤ) - d - d * j))) / 2

/-- The inverse stationary transform of an approximation and details, coarsest first. -/
def iswtFrom [Field R] (f₀ f₁ : List R) (n : Nat) : (lo : Nat → R) → List (Nat → R) → Nat → R
  | lo, [] => lo
  | lo, hi :: rest => iswtFrom f₀ f₁ n (iswtStep f₀ f₁ (2 ^ rest.length) n lo hi) rest

/-- A coefficient list `[a_L, d_L, …, d_1]` with the textbook stationary coefficients along axis
`a`; every coefficient tensor has the size of the input. -/
structure IsSwt [NonUnitalNonAssocSemiring R] (w : Wavelet R) (a L : Nat) (x : Tensor R)
    (cs : List (Tensor R)) : Prop where
  length : cs.length = L + 1
  approx : ∀ t, cs[0]? = some t →
    AlongAxis a (x.shape.getD a 0) (fun v => swtA w (x.shape.getD a 0) v L) x t
  detail : ∀ s d, s < L → cs[L - s]? = some d →
    AlongAxis a (x.shape.getD a 0) (fun v => swtD w (x.shape.getD a 0) v s) x d

/-- Both pads need the same number of rounds of at most `n` samples each. -/
def SameRounds (n l r : Nat) : Prop :=
  ∃ k, k * n ≤ l ∧ l ≤ (k + 1) * n ∧ k * n ≤ r ∧ r ≤ (k + 1) * n

/-- The wrap-around of levels `1 … L` is harmless: the dilated filter is not longer than twice the
signal, or the dilation divides the length. -/
def WrapOk (n F L : Nat) : Prop := ∀ s, s < L → 2 ^ s * (F / 2) ≤ n ∨ 2 ^ s ∣ n

/-- `z` is `x` cyclically shifted by `c` along axis `a`: `z[k] = x[(k + c) mod n]`. -/
def Shifted [Zero R] (a c : Nat) (x z : Tensor R) : Prop :=
  AlongAxis a (x.shape.getD a 0) (fun v k => v ((k + c) % x.shape.getD a 0)) x z

end Verif.Spec
