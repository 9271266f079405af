/-
Specification side: where the coefficients of the decimated transform stand among those of the stationary transform.
Nothing here refers to the model of the code.
-/
import Verif.Spec.Swt
import Verif.Spec.Local

namespace Verif.Spec
variable {R : Type}

/-- The coefficient `k` of level `s` of the decimated transform with `F` taps stands at this position among the
coefficients of level `s` of the stationary transform. -/
def swtPos (F s k : Nat) : Nat := 2 ^ s * k - (2 ^ s - 1) * (F / 2 - 1)

/-- Every coefficient of `t`, a band of level `s` of a decimated transform along axis `a`, that is computed from samples
inside the signal of length `n` only is an entry of the band `u` of a stationary transform; `c` is the position of the
first sample of the decimated signal in the stationary one. -/
def SampledAt [Zero R] (F s n c a : Nat) (t u : Tensor R) : Prop :=
  ∀ idx, InB t.shape idx → Inside F s 0 n (idx.getD a 0) →
    t.get idx = u.get (idx.set a ((swtPos F s (idx.getD a 0) + c) % n))

/-- All coefficients of the band `t` of level 1 of a decimated transform with `F` taps are entries of the band `u` of a
stationary transform of a signal of period `n`: the coefficient `k` stands at `2 k - (F/2 - 1) + c`, modulo `n`. -/
def SampledAll [Zero R] (F n c a : Nat) (t u : Tensor R) : Prop :=
  ∀ idx, InB t.shape idx → ∀ p, InB u.shape (idx.set a p) →
    (n : ℤ) ∣ (p : ℤ) - (2 * (idx.getD a 0 : ℤ) - ((F / 2 : ℕ) - 1) + c) → t.get idx = u.get (idx.set a p)

/-- The band `u` of level 1 of a stationary transform with `F` taps consists of entries of `t` (the positions whose
distance from `F/2 - 1` is even) and `t'` in turn. -/
def Interleaved [Zero R] (F a : Nat) (t t' u : Tensor R) : Prop :=
  ∀ idx, InB u.shape idx → ∀ k,
    (idx.getD a 0 + (F / 2 - 1) = 2 * k →
      InB t.shape (idx.set a k) ∧ u.get idx = t.get (idx.set a k)) ∧
    (idx.getD a 0 + (F / 2 - 1) = 2 * k + 1 →
      InB t'.shape (idx.set a k) ∧ u.get idx = t'.get (idx.set a k))

end Verif.Spec
