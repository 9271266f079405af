/-
The programs of `Model/Conv1.lean` with the number-crunching routines as parameters: the model of
src/ptwt/conv_transform.py for arithmetic with rounding.
-/
import Verif.Model.Conv1
import Verif.Spec.Rounding

namespace Verif
open Tensor Spec
variable {R : Type}

/-- `_get_filter_tensors` / `_create_tensor`, `_util.py:129-141`: a filter as a `[1, F]` tensor whose taps are converted to
the dtype of the data. -/
def createTensorF [Zero R] (K : Kernels R) (f : List R) (flip : Bool) (md : Meta) : Tensor R :=
  createTensor (f.map (K.tap md.dtype)) flip md

/-- The loop of `wavedec`, `conv_transform.py:69-143`; as `wavedecLoop`. -/
def wavedecLoopF [NonUnitalNonAssocSemiring R] (K : Kernels R) (w : Wavelet R) (mode : Option String)
    (filt : Tensor R) : Nat → Tensor R → Except Err (Tensor R × List (Tensor R))
  | 0, resLo => .ok (resLo, [])
  | L + 1, resLo => do
    let p ← fwtPad resLo w mode 1
    let res ← K.conv p filt 2 1
    match split1 res with
    | [lo, hi] => do
      let r ← wavedecLoopF K w mode filt L lo
      pure (r.1, hi.squeeze1 :: r.2)
    | _ => .error .valueError   -- unpacking error

/-- `wavedec`, `conv_transform.py:69-143`; as `wavedec`. -/
def wavedecF [NonUnitalNonAssocSemiring R] (K : Kernels R) (data : Tensor R) (w : Wavelet R)
    (mode : Option String) (level : Option Int) (axis : AxisHint) :
    Except Err (List (Tensor R)) := do
  let p ← preprocessTensor data 1 axis true
  let filt ← construct1dFilt (createTensorF K w.decLo true p.1.md) (createTensorF K w.decHi true p.1.md)
  let level ← resolveLevel level (p.1.sizeFromEnd 1) w.len
  let r ← wavedecLoopF K w mode filt level p.1
  let c ← postprocessCoeffs (Coeffs.ofList (assemble r)) 1 p.2 axis
  pure c.toList

/-- The loop of `waverec`, `conv_transform.py:146-204`; as `waverecLoop`. -/
def waverecLoopF [NonUnitalNonAssocSemiring R] (K : Kernels R) (filt : Tensor R) (F : Nat) :
    Tensor R → List (Tensor R) → Except Err (Tensor R)
  | resLo, [] => .ok resLo
  | resLo, hi :: rest => do
    let st ← stack1 [resLo, hi]
    let r ← K.convTranspose st filt 2
    let p ← recPads F r.squeeze1 rest
    waverecLoopF K filt F (cropAxis r.squeeze1 (r.squeeze1.rank - 1) p.2 p.1) rest

/-- `waverec`, `conv_transform.py:146-204`; as `waverec`. -/
def waverecF [NonUnitalNonAssocSemiring R] (K : Kernels R) (coeffs : List (Tensor R)) (w : Wavelet R)
    (axis : AxisHint) : Except Err (Tensor R) := do
  let p ← preprocessCoeffs (Coeffs.ofList coeffs) 1 axis false
  let md ← checkSameDeviceDtype p.1
  let filt ← stack0 [createTensorF K w.recLo false md, createTensorF K w.recHi false md]
  match p.1.toList with
  | [] => .error .indexError
  | lo :: his => do
    let r ← waverecLoopF K filt w.recLo.length lo his
    postprocessTensor r 1 p.2 axis

end Verif
