/-
Model of the wavelet losses of src/ptwt/wavelets_learnable.py in exact arithmetic.
-/
import Verif.Torch.Conv
import Verif.Spec.Wavelet

namespace Verif
open Tensor
variable {R : Type}

/-- The four filters of a `ProductFilter`, `wavelets_learnable.py:167-219`; rank-one tensors. -/
structure FilterTensors (R : Type) [Zero R] where
  decLo : Tensor R
  decHi : Tensor R
  recLo : Tensor R
  recHi : Tensor R

/-- `a ⊙ b` for a binary operation on tensors of the same rank with torch broadcasting of axes of size one;
RuntimeError for other shapes.  (torch promotes dtypes; the model requires equal ones.) -/
def broadcast2 [Zero R] (f : R → R → R) (a b : Tensor R) : Except Err (Tensor R) :=
  if a.md = b.md ∧ AllPairs (fun m n => m = n ∨ m = 1 ∨ n = 1) a.shape b.shape then
    .ok (ofFn a.md (List.zipWith (fun m n => if m = 1 then n else m) a.shape b.shape) fun i =>
      f (a.get (List.zipWith (fun n k => if n = 1 then 0 else k) a.shape i))
        (b.get (List.zipWith (fun n k => if n = 1 then 0 else k) b.shape i)))
  else .error .runtimeError

/-- `torch.sum(err * err)`. -/
def sumSq [NonUnitalNonAssocSemiring R] (t : Tensor R) : R := boxSum t.shape fun i => t.get i * t.get i

/-- `[torch.pow(m1, n) for n in range(length)][::-1]`, `wavelets_learnable.py:43-74` (lines 56-60) and
`wavelets_learnable.py:76-114` (lines 90-94). -/
def signMask [Ring R] (md : Meta) (len : Nat) : Tensor R :=
  ofFn md [len] fun i => (-1) ^ (len - 1 - i.getD 0 0)

/-- `torch.nn.functional.conv1d(a.unsqueeze(0).unsqueeze(0), torch.flip(b, [-1]).unsqueeze(0).unsqueeze(0),
padding=pad)`, `wavelets_learnable.py:116-164` (lines 139-151); `padding` adds zeros on both sides. -/
def polyMul [NonUnitalNonAssocSemiring R] (a b : Tensor R) (pad : Nat) : Except Err (Tensor R) := do
  let x ← padAxis .constant a.unsqueeze0.unsqueeze0 2 pad pad
  conv1d x (b.flip 0).unsqueeze0.unsqueeze0 1 1

/-- `WaveletFilter.pf_alias_cancellation_loss`, `wavelets_learnable.py:43-74`. -/
def pfAliasLoss [Ring R] (b : FilterTensors R) : Except Err (R × Tensor R × Tensor R) := do
  let mask := signMask b.decLo.md (b.decLo.shape.getD 0 0)
  let p ← broadcast2 (· * ·) mask b.decHi
  let e1 ← broadcast2 (· - ·) b.recLo p
  let q ← broadcast2 (fun m x => -1 * m * x) mask b.decLo
  let e2 ← broadcast2 (· - ·) b.recHi q
  pure (sumSq e1 + sumSq e2, e1, e2)

/-- `WaveletFilter.alias_cancellation_loss`, `wavelets_learnable.py:76-114`. -/
def aliasLoss [Ring R] (b : FilterTensors R) : Except Err (R × Tensor R × Tensor R) := do
  let mask := signMask b.decLo.md (b.decLo.shape.getD 0 0)
  let lo ← broadcast2 (· * ·) b.decLo mask
  let pLo ← polyMul lo b.recLo (b.decLo.shape.getD 0 0 - 1)
  let hi ← broadcast2 (· * ·) b.decHi mask
  let pHi ← polyMul hi b.recHi (b.decHi.shape.getD 0 0 - 1)
  let p ← broadcast2 (· + ·) pLo pHi
  let zeros := ofFn p.md p.shape fun _ => 0
  let e ← broadcast2 (· - ·) p zeros
  pure (sumSq e, p, zeros)

/-- `WaveletFilter.perfect_reconstruction_loss`, `wavelets_learnable.py:116-164`. -/
def reconstructionLoss [Ring R] (b : FilterTensors R) : Except Err (R × Tensor R × Tensor R) := do
  let pLo ← polyMul b.decLo b.recLo (b.decLo.shape.getD 0 0 - 1)
  let pHi ← polyMul b.decHi b.recHi (b.decHi.shape.getD 0 0 - 1)
  let p ← broadcast2 (· + ·) pLo pHi
  let two := ofFn p.md p.shape fun i => if i.getD 2 0 = p.shape.getD 2 0 / 2 then 2 else 0
  let e ← broadcast2 (· - ·) p two
  pure (sumSq e, p, two)

/-- `ProductFilter.product_filter_loss` and `ProductFilter.wavelet_loss`,
`wavelets_learnable.py:213-219`. -/
def productFilterLoss [Ring R] (b : FilterTensors R) : Except Err R := do
  let p ← reconstructionLoss b
  let a ← aliasLoss b
  pure (p.1 + a.1)

/-- The dtype of `torch.cat` of a floating point tensor with a float32 one (torch's default dtype). -/
def promote32 : DType → DType
  | .float64 => .float64
  | .complex64 => .complex64
  | .complex128 => .complex128
  | _ => .float32

/-- `SoftOrthogonalWavelet.rec_lo_orthogonality_loss`, `wavelets_learnable.py:225-255`.  The appended
zeros have torch's default dtype, taken to be float32. -/
def recLoOrthogonalityLoss [Ring R] (b : FilterTensors R) : Except Err R := do
  let n := b.decLo.shape.getD 0 0
  let padded := ofFn { b.decLo.md with dtype := promote32 b.decLo.md.dtype } [n + n] fun i => b.decLo.get i
  let res ← conv1d padded.unsqueeze0.unsqueeze0 b.decLo.unsqueeze0.unsqueeze0 2 1
  let test := ofFn res.md res.shape fun i => if i.getD 2 0 = 0 then 1 else 0
  let err ← broadcast2 (· - ·) res test
  pure (sumSq err)

/-- `SoftOrthogonalWavelet.filt_bank_orthogonality_loss`, `wavelets_learnable.py:257-272`. -/
def filtBankOrthogonalityLoss [Ring R] (b : FilterTensors R) : Except Err R := do
  let e0 ← broadcast2 (· - ·) b.decLo (b.recLo.flip 0)
  let e1 ← broadcast2 (· - ·) b.decHi (b.recHi.flip 0)
  pure (sumSq e0 + sumSq e1)

/-- `SoftOrthogonalWavelet.wavelet_loss`, `wavelets_learnable.py:274-276`. -/
def softWaveletLoss [Ring R] (b : FilterTensors R) : Except Err R := do
  let p ← productFilterLoss b
  let o ← filtBankOrthogonalityLoss b
  pure (p + o)

end Verif
