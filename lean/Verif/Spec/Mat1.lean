/-
Specification side: the boundary-wavelet transform of a line by a family of square matrices, one per
even length.  Nothing here refers to the model of the code.
-/
import Verif.Spec.Wavelet
import Verif.Spec.Dwt
import Verif.Spec.Line

namespace Verif.Spec
variable {R : Type}

/-- The next even number. -/
def evenLen (n : Nat) : Nat := n + n % 2

/-- A signal of length `n`, extended by one sample if `n` is odd. -/
def evenExt [Zero R] (m : Mode) (n : Nat) (v : Nat → R) (j : Nat) : R := ext m n v (j : ℤ)

/-- Row `i` of the matrix times the (extended) signal. -/
def rowTimes [NonUnitalNonAssocSemiring R] (m : Mode) (M : Nat → Nat → R) (n : Nat) (v : Nat → R)
    (i : Nat) : R := ∑ j ∈ Finset.range (evenLen n), M i j * evenExt m n v j

/-- The approximation: the first half of the product. -/
def stepLo [NonUnitalNonAssocSemiring R] (m : Mode) (A : Nat → Nat → Nat → R) (n : Nat) (v : Nat → R) :
    Nat → R := rowTimes m (A (evenLen n)) n v

/-- The details: the second half of the product. -/
def stepHi [NonUnitalNonAssocSemiring R] (m : Mode) (A : Nat → Nat → Nat → R) (n : Nat) (v : Nat → R)
    (i : Nat) : R := rowTimes m (A (evenLen n)) n v (evenLen n / 2 + i)

/-- The length of the approximation at level `s`. -/
def mLen (n : Nat) : Nat → Nat
  | 0 => n
  | s + 1 => mLen (evenLen n / 2) s

/-- The approximation at level `s` of a signal of length `n`. -/
def mA [NonUnitalNonAssocSemiring R] (m : Mode) (A : Nat → Nat → Nat → R) (n : Nat) (v : Nat → R) :
    Nat → Nat → R
  | 0 => v
  | s + 1 => mA m A (evenLen n / 2) (stepLo m A n v) s

/-- The details of level `s + 1` of a signal of length `n`. -/
def mD [NonUnitalNonAssocSemiring R] (m : Mode) (A : Nat → Nat → Nat → R) (n : Nat) (v : Nat → R) :
    Nat → Nat → R
  | 0 => stepHi m A n v
  | s + 1 => mD m A (evenLen n / 2) (stepLo m A n v) s

/-- The number of levels that are computed: at most `L`, stopping when the signal gets shorter than the
filters. -/
def mLevels (F : Nat) : Nat → Nat → Nat
  | 0, _ => 0
  | L + 1, n => if n < F then 0 else mLevels F L (evenLen n / 2) + 1

/-- `x'` is `x`, extended by one sample along axis `a` if the length is odd. -/
def EvenPadded [Zero R] (m : Mode) (a : Nat) (x x' : Tensor R) : Prop :=
  (x.shape.getD a 0 % 2 = 0 ∧ x' = x) ∨ (x.shape.getD a 0 % 2 = 1 ∧ Extended m x a 0 1 x')

/-- A coefficient list `[cA_L, cD_L, …, cD_1]` of the lines of `x` along axis `a`. -/
structure IsMatDwt [NonUnitalNonAssocSemiring R] (m : Mode) (A : Nat → Nat → Nat → R) (a L : Nat)
    (x : Tensor R) (cs : List (Tensor R)) : Prop where
  length : cs.length = L + 1
  approx : ∀ t, cs[0]? = some t → AlongAxis a (mLen (x.shape.getD a 0) L)
    (fun v => mA m A (x.shape.getD a 0) v L) x t
  detail : ∀ s d, s < L → cs[L - s]? = some d →
    AlongAxis a (mLen (x.shape.getD a 0) (s + 1)) (fun v => mD m A (x.shape.getD a 0) v s) x d

/-- None of the first `k` levels has an odd length. -/
def PadFree (n k : Nat) : Prop := ∀ s, s < k → mLen n s % 2 = 0

/-- The vector `u` holds the coefficients of `v` one after the other: `[cA_k, cD_k, …, cD_1]`. -/
structure Packed [NonUnitalNonAssocSemiring R] (m : Mode) (A : Nat → Nat → Nat → R) (n : Nat) (v : Nat → R)
    (k : Nat) (u : Nat → R) : Prop where
  approx : ∀ i, i < mLen n k → u i = mA m A n v k i
  detail : ∀ s i, s < k → i < mLen n (s + 1) → u (mLen n (s + 1) + i) = mD m A n v s i

end Verif.Spec
