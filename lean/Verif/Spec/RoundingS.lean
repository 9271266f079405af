/-
Specification side of C76: floating point arithmetic in the stationary transform and in wavelet packets.  As in
`Spec/Rounding.lean`, every entry a routine returns is a floating point evaluation, in whatever order, of the right sum of
products.
-/
import Verif.Spec.RoundingN
import Verif.Torch.Conv1g
import Verif.Model.Packets

namespace Verif.Spec
variable {R : Type}

/-- The products that make up the entry `[b, c, m]` of the transposed convolution of the inverse stationary transform: one
filter per channel, dilation `d`, padding `p`. -/
def convTransposeGTerms [Zero R] (x w : Tensor R) (d p b c m : Nat) : List (R × R) :=
  (List.range (w.shape.getD 2 0)).flatMap fun j =>
    ((List.range (x.shape.getD 2 0)).filter fun k => k + d * j = m + p).map fun k => (w.get [c, 0, j], x.get [b, c, k])

/-- The routine `f` computes the mean over axis 1: the sum is evaluated in floating point arithmetic, divided by the number
of terms and rounded. -/
def FloatMean [Field R] [LinearOrder R] (u : R) (x : Tensor R) (f : Except Err (Tensor R)) : Prop :=
  match Tensor.mean1 x with
  | .error e => f = .error e
  | .ok r => ∃ r', f = .ok r' ∧ r'.md = r.md ∧ r'.shape = r.shape ∧
      ∀ i, InB r.shape i → ∃ v δ, |δ| ≤ u ∧
        Rounded u ((List.range (x.shape.getD 1 0)).map fun k => (1, x.get (i.headD 0 :: k :: i.tail))) v ∧
        r'.get i = v / (x.shape.getD 1 0 : R) * (1 + δ)

/-- The number-crunching routines of the stationary transforms. -/
structure KernelsS (R : Type) [Zero R] extends Kernels R where
  /-- `torch.nn.functional.conv_transpose1d` with dilation, padding and one group per channel -/
  convTransposeG : Tensor R → Tensor R → Nat → Nat → Except Err (Tensor R)
  /-- `torch.mean` over axis 1 -/
  mean : Tensor R → Except Err (Tensor R)

/-- Routines in floating point arithmetic with unit roundoff `u`. -/
structure FloatKernelsS [Field R] [LinearOrder R] (u : R) (K : KernelsS R) : Prop where
  base : FloatKernels u K.toKernels
  convTransposeG : ∀ x w d p,
    FloatResult u (convTransposeGTerms x w d p) (Tensor.convTranspose1dG x w d p) (K.convTransposeG x w d p)
  mean : ∀ x, FloatMean u x (K.mean x)

/-- Exact routines. -/
def exactKernelsS (R : Type) [Field R] : KernelsS R := ⟨exactKernels R, Tensor.convTranspose1dG, Tensor.mean1⟩

/-- The routines which evaluate every sum from left to right with the rounding `rnd`. -/
def seqKernelsS [Field R] (rnd : R → R) : KernelsS R where
  toKernels := seqKernels rnd
  convTransposeG x w d p := (Tensor.convTranspose1dG x w d p).map fun r => Tensor.ofFn r.md r.shape fun i =>
    seqDot rnd (convTransposeGTerms x w d p (i.getD 0 0) (i.getD 1 0) (i.getD 2 0))
  mean x := (Tensor.mean1 x).map fun r => Tensor.ofFn r.md r.shape fun i =>
    rnd (seqDot rnd ((List.range (x.shape.getD 1 0)).map fun k => (1, x.get (i.headD 0 :: k :: i.tail))) /
      (x.shape.getD 1 0 : R))

/-- The bound of an inverse stationary transform: `b₀`, `b₁` the norms of the two filters, `A` the bound of the
approximation, then the bounds of the details, coarsest first. -/
def iswtBound [Field R] (b₀ b₁ : R) (A : R) : List R → R
  | [] => A
  | D :: Ds => iswtBound b₀ b₁ ((b₀ * A + b₁ * D) / 2) Ds

/-- Four operations on a packet object of the same form. -/
inductive CloseOp [Ring R] [LinearOrder R] : Backend.Op (Tensor R) → Backend.Op (Tensor R) → Backend.Op (Tensor R) →
    Backend.Op (Tensor R) → Prop
  | read (k : Key) : CloseOp (.read k) (.read k) (.read k) (.read k)
  | init (ks : List Key) : CloseOp (.init ks) (.init ks) (.init ks) (.init ks)
  | set (k : Key) {t' t lo hi : Tensor R} : CloseBy t' t lo hi →
      CloseOp (.set k t') (.set k t) (.set k lo) (.set k hi)
  | transform {t' t lo hi : Tensor R} (L : Option Int) : CloseBy t' t lo hi →
      CloseOp (.transform t' L) (.transform t L) (.transform lo L) (.transform hi L)
  | reconstruct : CloseOp .reconstruct .reconstruct .reconstruct .reconstruct

/-- Four histories of operations, one by one. -/
inductive CloseOps [Ring R] [LinearOrder R] : List (Backend.Op (Tensor R)) → List (Backend.Op (Tensor R)) →
    List (Backend.Op (Tensor R)) → List (Backend.Op (Tensor R)) → Prop
  | nil : CloseOps [] [] [] []
  | cons {o' o lo hi : Backend.Op (Tensor R)} {os' os los his : List (Backend.Op (Tensor R))} : CloseOp o' o lo hi →
      CloseOps os' os los his → CloseOps (o' :: os') (o :: os) (lo :: los) (hi :: his)

/-- Four outcomes of an operation: all four raise the same, or all four return nothing, or all four return tensors. -/
inductive CloseOut [Ring R] [LinearOrder R] : Backend.Out (Tensor R) → Backend.Out (Tensor R) → Backend.Out (Tensor R) →
    Backend.Out (Tensor R) → Prop
  | value {t' t lo hi : Tensor R} : CloseBy t' t lo hi → CloseOut (.value t') (.value t) (.value lo) (.value hi)
  | done : CloseOut .done .done .done .done
  | raised (e : Err) : CloseOut (.raised e) (.raised e) (.raised e) (.raised e)

/-- Four lists of outcomes, one by one. -/
inductive CloseOuts [Ring R] [LinearOrder R] : List (Backend.Out (Tensor R)) → List (Backend.Out (Tensor R)) →
    List (Backend.Out (Tensor R)) → List (Backend.Out (Tensor R)) → Prop
  | nil : CloseOuts [] [] [] []
  | cons {o' o lo hi : Backend.Out (Tensor R)} {os' os los his : List (Backend.Out (Tensor R))} : CloseOut o' o lo hi →
      CloseOuts os' os los his → CloseOuts (o' :: os') (o :: os) (lo :: los) (hi :: his)

end Verif.Spec
