/-
Specification side: discrete convolution, its three crops, Kronecker products, matrices acting on
one axis.  Nothing here refers to the model of the code.
-/
import Verif.Spec.Line

namespace Verif.Spec
variable {R : Type}

/-- Discrete convolution of a filter and a signal of length `n` at position `k`. -/
def convAt [NonUnitalNonAssocSemiring R] (f : List R) (n : Nat) (x : Nat → R) (k : ℤ) : R :=
  ∑ c ∈ Finset.range n, tap f (k - c) * x c

/-- The parts of a convolution (`numpy.convolve`, `scipy.signal.convolve`). -/
inductive ConvMode where
  | full | same | valid
  deriving DecidableEq

/-- The first position kept. -/
def ConvMode.first (m : ConvMode) (F : Nat) : Nat :=
  match m with
  | .full => 0
  | .same => (F - 1) / 2
  | .valid => F - 1

/-- The number of positions kept. -/
def ConvMode.count (m : ConvMode) (F n : Nat) : Nat :=
  match m with
  | .full => n + F - 1
  | .same => n
  | .valid => n + 1 - F

/-- The mode strings of ptwt; `sameshift` is `same` (it only changes the sampling). -/
def ConvMode.Named (s : String) (m : ConvMode) : Prop :=
  (s = "full" ∧ m = .full) ∨ ((s = "same" ∨ s = "sameshift") ∧ m = .same) ∨ (s = "valid" ∧ m = .valid)

/-- The first position a strided version samples. -/
def strideStart (s : String) : Nat := if s = "sameshift" then 1 else 0

/-- The number of samples `start, start + stride, …` below `count`. -/
def strideCount (start count stride : Nat) : Nat := (count - start + stride - 1) / stride

/-- The value of a filter of size `fh × fw` at any integer position, zero outside. -/
def tap2 [Zero R] (fh fw : Nat) (f : Nat → Nat → R) (k l : ℤ) : R :=
  if 0 ≤ k ∧ k < fh ∧ 0 ≤ l ∧ l < fw then f k.toNat l.toNat else 0

/-- Two-dimensional discrete convolution of a filter `f` of size `fh × fw` and an image of size
`h × w` at position `(k, l)`. -/
def convAt2 [NonUnitalNonAssocSemiring R] (fh fw : Nat) (f : Nat → Nat → R) (h w : Nat)
    (x : Nat → Nat → R) (k l : ℤ) : R :=
  ∑ r ∈ Finset.range h, ∑ c ∈ Finset.range w, tap2 fh fw f (k - r) (l - c) * x r c

/-- The Kronecker product of `a` and a `p × q` matrix `b`. -/
def kronecker [Mul R] (p q : Nat) (a b : Nat → Nat → R) (i j : Nat) : R :=
  a (i / p) (j / q) * b (i % p) (j % q)

/-- Multiply every line along axis `a` by the `m × n` matrix `M`. -/
def MulAlong [NonUnitalNonAssocSemiring R] (M : Nat → Nat → R) (m n a : Nat) (x z : Tensor R) : Prop :=
  AlongAxis a m (fun v i => ∑ j ∈ Finset.range n, M i j * v j) x z

/-- `x` is the natural number `k` rounded to a floating point number of `p` significant bits: to the
nearest one, ties to the even significand. -/
def RoundsTo (p k x : Nat) : Prop :=
  k < 2 ^ p ∧ x = k ∨
  ∃ e q, 1 ≤ e ∧ 2 ^ (p + e - 1) ≤ k ∧ k < 2 ^ (p + e) ∧ x = q * 2 ^ e ∧
    (2 * |(k : ℤ) - x| < 2 ^ e ∨ 2 * |(k : ℤ) - x| = 2 ^ e ∧ q % 2 = 0)

/-- The dtypes an operand of the given dtype may be converted to in a mixed operation. -/
def widenings : DType → List DType
  | .bool => [.bool, .int32, .int64, .float16, .bfloat16, .float32, .float64, .complex64, .complex128]
  | .int32 => [.int32, .int64, .float16, .bfloat16, .float32, .float64, .complex64, .complex128]
  | .int64 => [.int64, .float16, .bfloat16, .float32, .float64, .complex64, .complex128]
  | .float16 => [.float16, .float32, .float64, .complex64, .complex128]
  | .bfloat16 => [.bfloat16, .float32, .float64, .complex64, .complex128]
  | .float32 => [.float32, .float64, .complex64, .complex128]
  | .float64 => [.float64, .complex128]
  | .complex64 => [.complex64, .complex128]
  | .complex128 => [.complex128]

/-- `c` is the dtype of an operation on the dtypes `a` and `b`: the least one both may be converted
to. -/
def Promoted (a b c : DType) : Prop :=
  c ∈ widenings a ∧ c ∈ widenings b ∧ ∀ d ∈ widenings a, d ∈ widenings b → d ∈ widenings c

instance (a b c : DType) : Decidable (Promoted a b c) := by unfold Promoted; infer_instance

end Verif.Spec
