/-
Specification side of C74: floating point arithmetic.  A machine computes with rounded products and sums, in an order that
is not specified; each operation has a relative error of at most `u` (the unit roundoff: 2^-24 for float32, 2^-53 for
float64).  Overflow and underflow are excluded.  Nothing here refers to the model of the code except the tensors.
-/
import Verif.Spec.Bounds
import Verif.Torch.Conv
import Mathlib.Data.Int.Log
import Mathlib.Algebra.Order.Round

namespace Verif.Spec
variable {R : Type}

/-- The number `v` is a possible result of evaluating the sum of products `∑ a b` over the list of pairs in floating point
arithmetic: the products are rounded, added in any order and with any bracketing, and every sum is rounded.  (A fused
multiply-add is a product without rounding error followed by a sum.) -/
inductive Rounded [Ring R] [LinearOrder R] (u : R) : List (R × R) → R → Prop where
  | empty : Rounded u [] 0
  | product (a b δ : R) : |δ| ≤ u → Rounded u [(a, b)] (a * b * (1 + δ))
  | sum (l l' : List (R × R)) (v v' δ : R) : l ≠ [] → l' ≠ [] → Rounded u l v → Rounded u l' v' → |δ| ≤ u →
      Rounded u (l ++ l') ((v + v') * (1 + δ))
  | perm (l l' : List (R × R)) (v : R) : l.Perm l' → Rounded u l v → Rounded u l' v

/-- The products that make up the entry `[b, o, k]` of a one-dimensional convolution with stride `s` and dilation `d`. -/
def convTerms [Zero R] (x w : Tensor R) (s d b o k : Nat) : List (R × R) :=
  (List.range (w.shape.getD 1 0)).flatMap fun c =>
    (List.range (w.shape.getD 2 0)).map fun j => (w.get [o, c, j], x.get [b, c, s * k + d * j])

/-- The products that make up the entry `[b, o, m]` of a one-dimensional transposed convolution with stride `s`. -/
def convTransposeTerms [Zero R] (x w : Tensor R) (s b o m : Nat) : List (R × R) :=
  (List.range (w.shape.getD 0 0)).flatMap fun c =>
    ((List.range (x.shape.getD 2 0)).filter fun k => s * k ≤ m ∧ m - s * k < w.shape.getD 2 0).map fun k =>
      (w.get [c, o, m - s * k], x.get [b, c, k])

/-- The number-crunching routines of the one-dimensional transforms. -/
structure Kernels (R : Type) [Zero R] where
  /-- conversion of a filter tap to the data type of the data -/
  tap : DType → R → R
  /-- `torch.nn.functional.conv1d` with stride and dilation -/
  conv : Tensor R → Tensor R → Nat → Nat → Except Err (Tensor R)
  /-- `torch.nn.functional.conv_transpose1d` with stride -/
  convTranspose : Tensor R → Tensor R → Nat → Except Err (Tensor R)

/-- The routine `f` accepts what the exact routine accepts; entry `[b, o, k]` of its result is a floating point evaluation
of the sum of the products `terms b o k`. -/
def FloatResult [Ring R] [LinearOrder R] (u : R) (terms : Nat → Nat → Nat → List (R × R))
    (exact : Except Err (Tensor R)) (f : Except Err (Tensor R)) : Prop :=
  match exact with
  | .error e => f = .error e
  | .ok r => ∃ r', f = .ok r' ∧ r'.md = r.md ∧ r'.shape = r.shape ∧
      ∀ b o k, InB r.shape [b, o, k] → Rounded u (terms b o k) (r'.get [b, o, k])

/-- Routines in floating point arithmetic with unit roundoff `u`. -/
structure FloatKernels [Ring R] [LinearOrder R] (u : R) (K : Kernels R) : Prop where
  unit : 0 ≤ u
  tap : ∀ dt a, ∃ δ, |δ| ≤ u ∧ K.tap dt a = a * (1 + δ)
  conv : ∀ x w s d, FloatResult u (convTerms x w s d) (Tensor.conv1d x w s d) (K.conv x w s d)
  convTranspose : ∀ x w s,
    FloatResult u (convTransposeTerms x w s) (Tensor.convTranspose1d x w s) (K.convTranspose x w s)

/-- Exact routines. -/
def exactKernels (R : Type) [NonUnitalNonAssocSemiring R] : Kernels R := ⟨fun _ a => a, Tensor.conv1d, Tensor.convTranspose1d⟩

/-- A number rounded to `p` significant binary digits (to the nearest such number; the exponent is not limited). -/
def flRound [Field R] [LinearOrder R] [FloorRing R] (p : Nat) (y : R) : R :=
  (round (y / 2 ^ (Int.log 2 |y| - p + 1)) : ℤ) * 2 ^ (Int.log 2 |y| - p + 1)

/-- A sum of products evaluated from left to right, rounding every product and every partial sum with `rnd`. -/
def seqDot [Semiring R] (rnd : R → R) : List (R × R) → R
  | [] => 0
  | p :: l => l.foldl (fun acc q => rnd (acc + rnd (q.1 * q.2))) (rnd (p.1 * p.2))

/-- The routines which evaluate every sum from left to right with the rounding `rnd`. -/
def seqKernels [Semiring R] (rnd : R → R) : Kernels R where
  tap _ := rnd
  conv x w s d := (Tensor.conv1d x w s d).map fun r => Tensor.ofFn r.md r.shape fun i =>
    seqDot rnd (convTerms x w s d (i.getD 0 0) (i.getD 1 0) (i.getD 2 0))
  convTranspose x w s := (Tensor.convTranspose1d x w s).map fun r => Tensor.ofFn r.md r.shape fun i =>
    seqDot rnd (convTransposeTerms x w s (i.getD 0 0) (i.getD 1 0) (i.getD 2 0))

/-- The tensor of the absolute values. -/
def absT [Ring R] [LinearOrder R] [AddLeftMono R] (x : Tensor R) : Tensor R where
  md := x.md
  shape := x.shape
  get i := |x.get i|
  supp i h := by rw [x.supp i h, abs_zero]

/-- The filter bank of the absolute values of the taps, multiplied by `g`. -/
def absW [Ring R] [LinearOrder R] (g : R) (w : Wavelet R) : Wavelet R :=
  ⟨w.decLo.map fun a => g * |a|, w.decHi.map fun a => g * |a|, w.recLo.map fun a => g * |a|, w.recHi.map fun a => g * |a|⟩

/-- Four tensors of the same form: the entries of `t` are bounded by those of `lo`, and the entries of `t'` differ from
those of `t` by no more than `hi` from `lo`. -/
structure CloseBy [Ring R] [LinearOrder R] (t' t lo hi : Tensor R) : Prop where
  md : t'.md = t.md ∧ lo.md = t.md ∧ hi.md = t.md
  shape : t'.shape = t.shape ∧ lo.shape = t.shape ∧ hi.shape = t.shape
  bound : ∀ i, |t.get i| ≤ lo.get i
  error : ∀ i, |t'.get i - t.get i| ≤ hi.get i - lo.get i

/-- Four lists of tensors, entry by entry. -/
inductive CloseList [Ring R] [LinearOrder R] : List (Tensor R) → List (Tensor R) → List (Tensor R) → List (Tensor R) → Prop
  | nil : CloseList [] [] [] []
  | cons {t' t lo hi : Tensor R} {ts' ts los his : List (Tensor R)} : CloseBy t' t lo hi → CloseList ts' ts los his →
      CloseList (t' :: ts') (t :: ts) (lo :: los) (hi :: his)

end Verif.Spec
