/-
Model of examples/network_compression/wavelet_linear.py: the wavelet layer of a compressed neural
network.  The weights are parameters; dropout multiplies the entries of its argument with a mask.
-/
import Verif.Model.Conv1

namespace Verif
open Tensor
variable {R : Type}

/-- the extension modes known to `pywt.dwt_coeff_len`. -/
def pywtModes : List String :=
  ["zero", "constant", "symmetric", "periodic", "smooth", "periodization", "reflect", "antisymmetric",
    "antireflect"]

/-- `pywt.dwt_coeff_len(data_len, filter_len, mode)`, called at
`examples/network_compression/wavelet_linear.py:62-76`: ValueError for unknown modes and for lengths
below one. -/
def dwtCoeffLen (n F : Nat) (mode : String) : Except Err Nat :=
  if mode ∉ pywtModes then .error .valueError
  else if n < 1 ∨ F < 1 then .error .valueError
  else if mode = "periodization" then .ok ((n + 1) / 2)
  else .ok ((n + F - 1) / 2)

/-- the loop of `_get_coefficient_lengths`, `examples/network_compression/wavelet_linear.py:62-76`: the
entries appended to `coefficient_len_lst`, whose last entry is `n`. -/
def coefficientLengthsLoop (F : Nat) (mode : String) : Nat → Nat → Except Err (List Nat)
  | 0, _ => .ok []
  | s + 1, n => do
    let m ← dwtCoeffLen n F mode
    let r ← coefficientLengthsLoop F mode s m
    pure (m :: r)

/-- `_get_coefficient_lengths`, `examples/network_compression/wavelet_linear.py:62-76`; `F` is
`wavelet.filter_bank.dec_lo.shape[-1]`. -/
def getCoefficientLengths (depth scales F : Nat) (mode : String) : Except Err (List Nat) := do
  let l ← coefficientLengthsLoop F mode scales depth
  match l.getLast? with
  | none => .error .indexError   -- `[][-1]`
  | some k => pure (l ++ [k])

/-- `torch.cat(ts, -1)`; RuntimeError for an empty list. -/
def catLast [Zero R] : List (Tensor R) → Except Err (Tensor R)
  | [] => .error .runtimeError
  | [t] => .ok t
  | t :: ts => do
    let r ← catLast ts
    cat2 t r (t.rank - 1)

/-- `WaveletDecomposition1D.forward`, `examples/network_compression/wavelet_linear.py:101-124`.
`wavedec` is called with its default mode and axis. -/
def layerDecompose [NonUnitalNonAssocSemiring R] (w : Wavelet R) (scales : Nat) (lens : List Nat)
    (x : Tensor R) : Except Err (Tensor R) := do
  let x1 ← x.unsqueeze1
  let cs ← wavedec x1 w (some "reflect") (some scales) (.int (-1))
  let c ← catLast cs
  if cs.map (fun t => t.sizeFromEnd 1) = lens.reverse then pure c.squeeze1
  else .error .assertionError

/-- `l[i]` for a non-negative index; IndexError behind the end. -/
def listIndex (l : List Nat) (i : Nat) : Except Err Nat :=
  match l[i]? with
  | some v => .ok v
  | none => .error .indexError

/-- the loop of `WaveletReconstruction1D.forward`, `examples/network_compression/wavelet_linear.py:127-151`
(lines 143-149): the first argument is the number of remaining rounds.  (`x` has at least one axis.) -/
def layerSegments [Zero R] (lens : List Nat) (x : Tensor R) :
    Nat → (s start : Nat) → Except Err (List (Tensor R))
  | 0, _, _ => .ok []
  | k + 1, s, start => do
    let len ← listIndex lens.reverse s
    let next ← listIndex lens s
    let rest ← layerSegments lens x k (s + 1) next
    pure (x.slice (x.rank - 1) start (start + len) :: rest)

/-- `WaveletReconstruction1D.forward`, `examples/network_compression/wavelet_linear.py:127-151`. -/
def layerReconstruct [NonUnitalNonAssocSemiring R] (w : Wavelet R) (scales : Nat) (lens : List Nat)
    (x : Tensor R) : Except Err (Tensor R) := do
  let cs ← layerSegments lens x (scales + 1) 0 0
  waverec cs w .none

/-- `torch.mm(a, b)`: RuntimeError unless both are matrices of fitting sizes with equal dtype and device. -/
def mm [NonUnitalNonAssocSemiring R] (a b : Tensor R) : Except Err (Tensor R) :=
  match a.shape, b.shape with
  | [n, k], [k', m] =>
    if k = k' ∧ a.md = b.md then
      .ok (ofFn a.md [n, m] fun i =>
        ∑ j ∈ Finset.range k, a.get [i.getD 0 0, j] * b.get [j, i.getD 1 0])
    else .error .runtimeError
  | _, _ => .error .runtimeError

/-- `MMDropoutDiagonal.forward`, `examples/network_compression/wavelet_linear.py:89-98`: `ones` is the
weight vector, `mask` what dropout multiplies the entries of the diagonal matrix with (1 everywhere in
evaluation mode; 0 or `1 / (1 - p)` in training mode). -/
def mmDropoutDiagonal [NonUnitalNonAssocSemiring R] (md : Meta) (ones : List R) (mask : Nat → Nat → R)
    (x : Tensor R) : Except Err (Tensor R) :=
  mm x (ofFn md [ones.length, ones.length] fun i =>
    mask (i.getD 0 0) (i.getD 1 0) * if i.getD 0 0 = i.getD 1 0 then ones.getD (i.getD 0 0) 0 else 0)

/-- `Permutator.forward`, `examples/network_compression/wavelet_linear.py:79-86`: row `i` of `self.perm` is
row `σ i` of the identity matrix. -/
def permutator [NonAssocSemiring R] (md : Meta) (n : Nat) (σ : Nat → Nat) (x : Tensor R) :
    Except Err (Tensor R) :=
  mm x (ofFn md [n, n] fun i => if σ (i.getD 0 0) = i.getD 1 0 then 1 else 0)

/-- The parameters of a `WaveletLayer`, `examples/network_compression/wavelet_linear.py:14-59`: the diagonals
`B`, `G`, `S` and the permutation `P`, all on one device (`md`, dtype float32 as created). -/
structure LayerWeights (R : Type) where
  md : Meta
  b : List R
  g : List R
  s : List R
  perm : Nat → Nat

/-- The dropout masks of one call of the layer. -/
structure LayerMasks (R : Type) where
  b : Nat → Nat → R
  g : Nat → Nat → R
  s : Nat → Nat → R

/-- A constructed `WaveletLayer`, `examples/network_compression/wavelet_linear.py:14-59`. -/
structure WaveletLayer (R : Type) where
  wavelet : Wavelet R
  scales : Nat
  lens : List Nat
  weights : LayerWeights R

/-- `WaveletLayer.__init__`, `examples/network_compression/wavelet_linear.py:23-56`: all weights are one, the
permutation `σ` is drawn. -/
def layerInit [One R] (depth : Nat) (w : Wavelet R) (scales : Nat) (mode : String) (md : Meta)
    (σ : Nat → Nat) : Except Err (WaveletLayer R) := do
  let lens ← getCoefficientLengths depth scales w.decLo.length mode
  pure ⟨w, scales, lens, ⟨md, List.replicate depth 1, List.replicate lens.sum 1,
    List.replicate depth 1, σ⟩⟩

/-- `WaveletLayer.forward`, `examples/network_compression/wavelet_linear.py:58-59`. -/
def layerForward [NonAssocSemiring R] (l : WaveletLayer R) (m : LayerMasks R) (x : Tensor R) :
    Except Err (Tensor R) := do
  let y ← mmDropoutDiagonal l.weights.md l.weights.b m.b x
  let c ← layerDecompose l.wavelet l.scales l.lens y
  let p ← permutator l.weights.md l.weights.g.length l.weights.perm c
  let q ← mmDropoutDiagonal l.weights.md l.weights.g m.g p
  let r ← layerReconstruct l.wavelet l.scales l.lens q
  mmDropoutDiagonal l.weights.md l.weights.s m.s r

end Verif
