/-
Specification side of C75: floating point arithmetic in the multidimensional transforms.  As in `Spec/Rounding.lean`,
every entry a routine returns is a floating point evaluation, in whatever order, of the right sum of products.
-/
import Verif.Spec.Rounding
import Verif.Spec.Rel

namespace Verif.Spec
variable {R : Type}

/-- All multi-indices of a box. -/
def boxIdx : List Nat → List (List Nat)
  | [] => [[]]
  | n :: ns => (List.range n).flatMap fun j => (boxIdx ns).map (j :: ·)

/-- The products that make up the entry `b :: o :: ks` of a convolution with stride `s` over any number of axes. -/
def convTermsN [Zero R] (x w : Tensor R) (s b o : Nat) (ks : List Nat) : List (R × R) :=
  (List.range (w.shape.getD 1 0)).flatMap fun c => (boxIdx (w.shape.drop 2)).map fun js =>
    (w.get (o :: c :: js), x.get (b :: c :: List.zipWith (fun k j => s * k + j) ks js))

/-- The positions of a box of sizes `Ns` which a transposed convolution with stride `s` and kernel sizes `Fs` spreads to
the position `ms`: `0 ≤ m - s k < F` on every axis. -/
def contribIdx (s : Nat) : List Nat → List Nat → List Nat → List (List Nat)
  | m :: ms, N :: Ns, F :: Fs =>
    ((List.range N).filter fun k => s * k ≤ m ∧ m - s * k < F).flatMap fun k => (contribIdx s ms Ns Fs).map (k :: ·)
  | _, _, _ => [[]]

/-- The products that make up the entry `b :: o :: ms` of a transposed convolution with stride `s`. -/
def convTransposeTermsN [Zero R] (x w : Tensor R) (s b o : Nat) (ms : List Nat) : List (R × R) :=
  (List.range (w.shape.getD 0 0)).flatMap fun c => (contribIdx s ms (x.shape.drop 2) (w.shape.drop 2)).map fun ks =>
    (w.get (c :: o :: List.zipWith (fun m k => m - s * k) ms ks), x.get (b :: c :: ks))

/-- The number-crunching routines of the transforms over several axes. -/
structure KernelsN (R : Type) [Zero R] where
  /-- conversion of a filter tap to the data type of the data -/
  tap : DType → R → R
  /-- product of two filter taps (the filters are outer products) -/
  mul : R → R → R
  /-- `torch.nn.functional.conv2d`, `conv3d` (the first argument is the number of axes) with stride -/
  conv : Nat → Tensor R → Tensor R → Nat → Except Err (Tensor R)
  /-- `torch.nn.functional.conv_transpose2d`, `conv_transpose3d` with stride -/
  convTranspose : Nat → Tensor R → Tensor R → Nat → Except Err (Tensor R)

/-- The exact convolution over `n` axes. -/
def exactConv [NonUnitalNonAssocSemiring R] (n : Nat) (x w : Tensor R) (s : Nat) : Except Err (Tensor R) :=
  if x.rank = n + 2 then Tensor.convNd x w s else .error .runtimeError

/-- The exact transposed convolution over `n` axes. -/
def exactConvTranspose [NonUnitalNonAssocSemiring R] (n : Nat) (x w : Tensor R) (s : Nat) : Except Err (Tensor R) :=
  if x.rank = n + 2 then Tensor.convTransposeNd x w s else .error .runtimeError

/-- The routine `f` accepts what the exact routine accepts; entry `b :: o :: ks` of its result is a floating point
evaluation of the sum of the products `terms b o ks`. -/
def FloatResultN [Ring R] [LinearOrder R] (u : R) (terms : Nat → Nat → List Nat → List (R × R))
    (exact : Except Err (Tensor R)) (f : Except Err (Tensor R)) : Prop :=
  match exact with
  | .error e => f = .error e
  | .ok r => ∃ r', f = .ok r' ∧ r'.md = r.md ∧ r'.shape = r.shape ∧
      ∀ b o ks, InB r.shape (b :: o :: ks) → Rounded u (terms b o ks) (r'.get (b :: o :: ks))

/-- Routines in floating point arithmetic with unit roundoff `u`. -/
structure FloatKernelsN [Ring R] [LinearOrder R] (u : R) (K : KernelsN R) : Prop where
  unit : 0 ≤ u
  tap : ∀ dt a, ∃ δ, |δ| ≤ u ∧ K.tap dt a = a * (1 + δ)
  mul : ∀ a b, ∃ δ, |δ| ≤ u ∧ K.mul a b = a * b * (1 + δ)
  conv : ∀ n x w s, FloatResultN u (convTermsN x w s) (exactConv n x w s) (K.conv n x w s)
  convTranspose : ∀ n x w s,
    FloatResultN u (convTransposeTermsN x w s) (exactConvTranspose n x w s) (K.convTranspose n x w s)

/-- Exact routines. -/
def exactKernelsN (R : Type) [NonUnitalNonAssocSemiring R] : KernelsN R :=
  ⟨fun _ a => a, fun a b => a * b, exactConv, exactConvTranspose⟩

/-- The routines which evaluate every sum from left to right with the rounding `rnd`. -/
def seqKernelsN [Semiring R] (rnd : R → R) : KernelsN R where
  tap _ := rnd
  mul a b := rnd (a * b)
  conv n x w s := (exactConv n x w s).map fun r => Tensor.ofFn r.md r.shape fun i =>
    seqDot rnd (convTermsN x w s (i.headD 0) (i.tail.headD 0) i.tail.tail)
  convTranspose n x w s := (exactConvTranspose n x w s).map fun r => Tensor.ofFn r.md r.shape fun i =>
    seqDot rnd (convTransposeTermsN x w s (i.headD 0) (i.tail.headD 0) i.tail.tail)

/-- Four entries of coefficient containers of the same form, tensor by tensor as in `CloseBy`. -/
inductive CloseEntry [Ring R] [LinearOrder R] : Entry R → Entry R → Entry R → Entry R → Prop
  | tensor {t' t lo hi : Tensor R} : CloseBy t' t lo hi → CloseEntry (.tensor t') (.tensor t) (.tensor lo) (.tensor hi)
  | tuple {a' a al ah b' b bl bh c' c cl ch : Tensor R} : CloseBy a' a al ah → CloseBy b' b bl bh → CloseBy c' c cl ch →
      CloseEntry (.tuple a' b' c') (.tuple a b c) (.tuple al bl cl) (.tuple ah bh ch)
  | dict {kv' kv kl kh : List (String × Tensor R)} : kv'.map Prod.fst = kv.map Prod.fst → kl.map Prod.fst = kv.map Prod.fst →
      kh.map Prod.fst = kv.map Prod.fst →
      CloseList (kv'.map Prod.snd) (kv.map Prod.snd) (kl.map Prod.snd) (kh.map Prod.snd) →
      CloseEntry (.dict kv') (.dict kv) (.dict kl) (.dict kh)
  | other : CloseEntry .other .other .other .other

/-- Four lists of entries, one by one. -/
inductive CloseEntries [Ring R] [LinearOrder R] : List (Entry R) → List (Entry R) → List (Entry R) → List (Entry R) → Prop
  | nil : CloseEntries [] [] [] []
  | cons {t' t lo hi : Entry R} {ts' ts los his : List (Entry R)} : CloseEntry t' t lo hi →
      CloseEntries ts' ts los his → CloseEntries (t' :: ts') (t :: ts) (lo :: los) (hi :: his)

/-- Four coefficient containers of the same form. -/
structure CloseCoeffs [Ring R] [LinearOrder R] (c' c lo hi : Coeffs R) : Prop where
  kind : c'.isList = c.isList ∧ lo.isList = c.isList ∧ hi.isList = c.isList
  items : CloseEntries c'.items c.items lo.items hi.items

end Verif.Spec
