/-
The programs of `Model/Conv2.lean` and `Model/Conv3.lean` with the number-crunching routines as parameters: the model of
src/ptwt/conv_transform_2.py and conv_transform_3.py for arithmetic with rounding.
-/
import Verif.Model.Conv3
import Verif.Spec.RoundingN

namespace Verif
open Tensor Spec
variable {R : Type}

/-- `_create_tensor`, `_util.py:129-141`; as `createTensorF`. -/
def createTensorFN [Zero R] (K : KernelsN R) (f : List R) (flip : Bool) (md : Meta) : Tensor R :=
  createTensor (f.map (K.tap md.dtype)) flip md

/-- `_outer`, `_util.py:154-160`; as `outer`, with the product `K.mul`. -/
def outerF [Zero R] (K : KernelsN R) (a b : Tensor R) : Tensor R :=
  ofFn a.md [prodL a.shape, prodL b.shape] fun i =>
    K.mul (a.get (unravel a.shape (i.getD 0 0))) (b.get (unravel b.shape (i.getD 1 0)))

/-- `_construct_2d_filt`, `_util.py:886-907`; as `construct2dFilt`. -/
def construct2dFiltF [Zero R] (K : KernelsN R) (lo hi : Tensor R) : Except Err (Tensor R) :=
  let ll := outerF K lo lo
  let lh := outerF K hi lo
  let hl := outerF K lo hi
  let hh := outerF K hi hi
  unsqueezeFilt (stack0 [ll, lh, hl, hh])

/-- `_construct_3d_filt`, `_util.py:910-936`; as `construct3dFilt`. -/
def construct3dFiltF [Zero R] (K : KernelsN R) (lo hi : Tensor R) : Except Err (Tensor R) := do
  let dimSize := lo.sizeFromEnd 1
  let size := [dimSize, dimSize, dimSize]
  let lll ← (outerF K lo (outerF K lo lo)).reshape size
  let llh ← (outerF K lo (outerF K lo hi)).reshape size
  let lhl ← (outerF K lo (outerF K hi lo)).reshape size
  let lhh ← (outerF K lo (outerF K hi hi)).reshape size
  let hll ← (outerF K hi (outerF K lo lo)).reshape size
  let hlh ← (outerF K hi (outerF K lo hi)).reshape size
  let hhl ← (outerF K hi (outerF K hi lo)).reshape size
  let hhh ← (outerF K hi (outerF K hi hi)).reshape size
  unsqueezeFilt (stack0 [lll, llh, lhl, lhh, hll, hlh, hhl, hhh])

/-- The loop of `wavedec2`, `conv_transform_2.py:74-157`; as `wavedec2Loop`. -/
def wavedec2LoopF [NonUnitalNonAssocSemiring R] (K : KernelsN R) (w : Wavelet R) (mode : Option String)
    (filt : Tensor R) : Nat → Tensor R → Except Err (Tensor R × List (Entry R))
  | 0, ll => .ok (ll, [])
  | L + 1, ll => do
    let p ← fwtPad ll w mode 2
    let res ← K.conv 2 p filt 2
    match split1 res with
    | [ll, lh, hl, hh] => do
      let r ← wavedec2LoopF K w mode filt L ll
      pure (r.1, .tuple lh.squeeze1 hl.squeeze1 hh.squeeze1 :: r.2)
    | _ => .error .valueError   -- unpacking error

/-- `wavedec2`, `conv_transform_2.py:74-157`; as `wavedec2`. -/
def wavedec2F [NonUnitalNonAssocSemiring R] (K : KernelsN R) (data : Tensor R) (w : Wavelet R)
    (mode : Option String) (level : Option Int) (axes : AxisHint) : Except Err (Coeffs R) := do
  let p ← preprocessTensor data 2 axes true
  let filt ← construct2dFiltF K (createTensorFN K w.decLo true p.1.md) (createTensorFN K w.decHi true p.1.md)
  let level ← resolveLevelN level [p.1.sizeFromEnd 1, p.1.sizeFromEnd 2] w.len
  let r ← wavedec2LoopF K w mode filt level p.1
  postprocessCoeffs (assemble2 r) 2 p.2 axes

/-- One step of the loop of `waverec2`, `conv_transform_2.py:160-253` (lines 209-249); as `waverec2Step`. -/
def waverec2StepF [NonUnitalNonAssocSemiring R] (K : KernelsN R) (filt : Tensor R) (F : Nat) (ll : Tensor R)
    (e : Entry R) (rest : List (Entry R)) : Except Err (Tensor R) :=
  match e with
  | .tuple h v d =>
    if h.shape = ll.shape ∧ v.shape = ll.shape ∧ d.shape = ll.shape then do
      let st ← stack1 [ll, h, v, d]
      let r ← K.convTranspose 2 st filt 2
      let p ← recPads2 F r.squeeze1 rest
      pure (crop2 r.squeeze1 p)
    else .error .valueError
  | _ => .error .valueError

/-- The loop of `waverec2`, `conv_transform_2.py:160-253`; as `waverec2Loop`. -/
def waverec2LoopF [NonUnitalNonAssocSemiring R] (K : KernelsN R) (filt : Tensor R) (F : Nat) :
    Tensor R → List (Entry R) → Except Err (Tensor R)
  | ll, [] => .ok ll
  | ll, e :: rest => do
    let r ← waverec2StepF K filt F ll e rest
    waverec2LoopF K filt F r rest

/-- `waverec2`, `conv_transform_2.py:160-253`; as `waverec2`. -/
def waverec2F [NonUnitalNonAssocSemiring R] (K : KernelsN R) (coeffs : Coeffs R) (w : Wavelet R)
    (axes : AxisHint) : Except Err (Tensor R) := do
  let p ← preprocessCoeffs coeffs 2 axes false
  let md ← checkSameDeviceDtype p.1
  let filt ← construct2dFiltF K (createTensorFN K w.recLo false md) (createTensorFN K w.recHi false md)
  let ll ← headTensor p.1
  let r ← waverec2LoopF K filt w.recLo.length ll p.1.items.tail
  postprocessTensor r 2 p.2 axes

/-- The loop of `wavedec3`, `conv_transform_3.py:76-145`; as `wavedec3Loop`. -/
def wavedec3LoopF [NonUnitalNonAssocSemiring R] (K : KernelsN R) (w : Wavelet R) (mode : Option String)
    (filt : Tensor R) : Nat → Tensor R → Except Err (Tensor R × List (Entry R))
  | 0, lll => .ok (lll, [])
  | L + 1, lll => do
    let t ← ensureChannel3 lll
    let p ← fwtPad t w mode 3
    let res ← K.conv 3 p filt 2
    match (split1 res).map Tensor.squeeze1 with
    | [lll, llh, lhl, lhh, hll, hlh, hhl, hhh] => do
      let r ← wavedec3LoopF K w mode filt L lll
      pure (r.1, .dict [("aad", llh), ("ada", lhl), ("add", lhh), ("daa", hll), ("dad", hlh),
        ("dda", hhl), ("ddd", hhh)] :: r.2)
    | _ => .error .valueError   -- unpacking error

/-- `wavedec3`, `conv_transform_3.py:76-145`; as `wavedec3`. -/
def wavedec3F [NonUnitalNonAssocSemiring R] (K : KernelsN R) (data : Tensor R) (w : Wavelet R)
    (mode : Option String) (level : Option Int) (axes : AxisHint) : Except Err (Coeffs R) := do
  let p ← preprocessTensor data 3 axes true
  let filt ← construct3dFiltF K (createTensorFN K w.decLo true p.1.md) (createTensorFN K w.decHi true p.1.md)
  let level ← resolveLevelN level [p.1.sizeFromEnd 1, p.1.sizeFromEnd 2, p.1.sizeFromEnd 3] w.len
  let r ← wavedec3LoopF K w mode filt level p.1
  postprocessCoeffs ⟨false, .tensor r.1 :: r.2.reverse⟩ 3 p.2 axes

/-- One step of the loop of `waverec3`, `conv_transform_3.py:148-251` (lines 194-249); as `waverec3Step`. -/
def waverec3StepF [NonUnitalNonAssocSemiring R] (K : KernelsN R) (filt : Tensor R) (F : Nat) (lll : Tensor R)
    (e : Entry R) (rest : List (Entry R)) : Except Err (Tensor R) :=
  match e with
  | .dict kv =>
    if kv.length = 7 ∧ ∀ p ∈ kv, p.2.shape = lll.shape then do
      let bs ← bands3 lll kv
      let st ← stack1 bs
      let r ← K.convTranspose 3 st filt 2
      let p ← recPads3 F r.squeeze1 rest
      pure (crop3 r.squeeze1 p)
    else .error .valueError
  | _ => .error .valueError

/-- The loop of `waverec3`, `conv_transform_3.py:148-251`; as `waverec3Loop`. -/
def waverec3LoopF [NonUnitalNonAssocSemiring R] (K : KernelsN R) (filt : Tensor R) (F : Nat) :
    Tensor R → List (Entry R) → Except Err (Tensor R)
  | lll, [] => .ok lll
  | lll, e :: rest => do
    let r ← waverec3StepF K filt F lll e rest
    waverec3LoopF K filt F r rest

/-- `waverec3`, `conv_transform_3.py:148-251`; as `waverec3`. -/
def waverec3F [NonUnitalNonAssocSemiring R] (K : KernelsN R) (coeffs : Coeffs R) (w : Wavelet R)
    (axes : AxisHint) : Except Err (Tensor R) := do
  let p ← preprocessCoeffs coeffs 3 axes false
  let md ← checkSameDeviceDtype p.1
  let filt ← construct3dFiltF K (createTensorFN K w.recLo false md) (createTensorFN K w.recHi false md)
  let lll ← headTensor p.1
  let r ← waverec3LoopF K filt w.recLo.length lll p.1.items.tail
  postprocessTensor r 3 p.2 axes

end Verif
