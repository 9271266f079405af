/-
The programs of `Model/SepConv.lean`, `Model/Swt.lean`, `Model/Packet1.lean` and `Model/Packet2.lean` with the
number-crunching routines as parameters: the model of src/ptwt/separable_conv_transform.py, stationary_transform.py and
packets.py for arithmetic with rounding.
-/
import Verif.Model.SepConv
import Verif.Model.Swt
import Verif.Model.Packet2
import Verif.Model.Rounded
import Verif.Model.RoundedN
import Verif.Spec.RoundingS

namespace Verif
open Tensor Spec
variable {R : Type}

/-! ### separable transforms -/

/-- `_separable_conv_dwtn_`, `separable_conv_transform.py:38-72`; as `sepDwtn`. -/
def sepDwtnF [NonUnitalNonAssocSemiring R] (K : Kernels R) (w : Wavelet R) (mode : Option String) :
    Nat → String → Tensor R → Except Err (List (String × Tensor R))
  | 0, key, t => .ok [(key, t)]
  | n + 1, key, t => do
    let res ← wavedecF K t w mode (some 1) (.int (-((key.length : Int) + 1)))
    match res with
    | [resA, resD] => do
      let a ← sepDwtnF K w mode n ("a" ++ key) resA
      let d ← sepDwtnF K w mode n ("d" ++ key) resD
      pure (a ++ d)
    | _ => .error .valueError   -- unpacking error

/-- The body of the loop of `_separable_conv_wavedecn`, `separable_conv_transform.py:114-153`; as `sepStep`. -/
def sepStepF [NonUnitalNonAssocSemiring R] (K : Kernels R) (w : Wavelet R) (mode : Option String) (n : Nat)
    (approx : Tensor R) : Except Err (Tensor R × Entry R) := do
  let kv ← sepDwtnF K w mode (approx.rank - 1) "" approx
  let p ← dictPop kv (aKey n)
  pure (p.1, .dict p.2)

/-- The loop of `_separable_conv_wavedecn`, `separable_conv_transform.py:114-153`; as `sepDecLoop`. -/
def sepDecLoopF [NonUnitalNonAssocSemiring R] (K : Kernels R) (w : Wavelet R) (mode : Option String) (n : Nat) :
    Nat → Tensor R → Except Err (Tensor R × List (Entry R))
  | 0, t => .ok (t, [])
  | L + 1, t => do
    let q ← sepStepF K w mode n t
    let r ← sepDecLoopF K w mode n L q.1
    pure (r.1, q.2 :: r.2)

/-- `_separable_conv_wavedecn`, `separable_conv_transform.py:114-153`; as `sepWavedecn`. -/
def sepWavedecnF [NonUnitalNonAssocSemiring R] (K : Kernels R) (input : Tensor R) (w : Wavelet R)
    (mode : Option String) (level : Option Int) : Except Err (Coeffs R) := do
  let l ← sepLevel level input.shape.tail w.len
  let r ← sepDecLoopF K w mode (input.rank - 1) l input
  pure ⟨false, .tensor r.1 :: r.2.reverse⟩

/-- `_fswavedecn`, `separable_conv_transform.py:351-398`; as `fswavedecn`. -/
def fswavedecnF [NonUnitalNonAssocSemiring R] (K : Kernels R) (data : Tensor R) (w : Wavelet R) (ndim : Nat)
    (mode : Option String) (level : Option Int) (axes : AxisHint) : Except Err (Coeffs R) := do
  let axes : AxisHint := match axes with
    | .none => .seq ((List.range ndim).map fun (k : Nat) => (k : Int) - (ndim : Int))
    | a => a
  let p ← preprocessTensor data ndim axes false
  let coeffs ← sepWavedecnF K p.1 w mode level
  postprocessCoeffs coeffs ndim p.2 axes

/-- The reconstruction of one pair of bands, `separable_conv_transform.py:75-111` (lines 92-106); as `sepRec1`. -/
def sepRec1F [NonUnitalNonAssocSemiring R] (K : Kernels R) (w : Wavelet R) (k : Nat) (coeffA coeffD : Tensor R) :
    Except Err (Tensor R) := do
  let a ← cropTo coeffA coeffD.shape
  let ta ← transposeLast a k
  let td ← transposeLast coeffD k
  let fa ← flatLast ta
  let fd ← flatLast td
  let r ← waverecF K [fa, fd] w .none
  let r ← r.reshape (ta.shape.dropLast ++ [r.shape.getLastD 0])
  transposeLast r k

/-- The loop of `_separable_conv_idwtn`, `separable_conv_transform.py:75-111` (lines 90-110); as `idwtnLoop`. -/
def idwtnLoopF [NonUnitalNonAssocSemiring R] (K : Kernels R) (w : Wavelet R) (inDict : List (String × Tensor R)) :
    List String → List (String × Tensor R) → Except Err (Tensor R ⊕ List (String × Tensor R))
  | [], done => .ok (.inr done)
  | key :: keys, done => do
    let d ← dictGet inDict ("d" ++ keyTail key)
    let a ← dictGet inDict key
    let r ← sepRec1F K w key.length a d
    if keyTail key = "" then pure (.inl r)
    else idwtnLoopF K w inDict keys (done ++ [(keyTail key, r)])

/-- `_separable_conv_idwtn`, `separable_conv_transform.py:75-111`; as `sepIdwtn`. -/
def sepIdwtnF [NonUnitalNonAssocSemiring R] (K : Kernels R) (w : Wavelet R) :
    Nat → List (String × Tensor R) → Except Err (Tensor R)
  | 0, _ => .error .recursionError
  | n + 1, kv => do
    let ks ← aKeys kv
    let r ← idwtnLoopF K w kv ks []
    match r with
    | .inl t => pure t
    | .inr done => sepIdwtnF K w n done

/-- The loop of `_separable_conv_waverecn`, `separable_conv_transform.py:156-184` (lines 180-183); as `sepRecLoop`. -/
def sepRecLoopF [NonUnitalNonAssocSemiring R] (K : Kernels R) (w : Wavelet R) :
    Tensor R → List (Entry R) → Except Err (Tensor R) × List (Entry R)
  | t, [] => (.ok t, [])
  | t, .dict kv :: rest =>
    match maxKeyLen kv with
    | .error e => (.error e, .dict kv :: rest)
    | .ok n =>
      match sepIdwtnF K w n (dictSet kv (aKey n) t) with
      | .error e => (.error e, .dict (dictSet kv (aKey n) t) :: rest)
      | .ok r => ((sepRecLoopF K w r rest).1, .dict (dictSet kv (aKey n) t) :: (sepRecLoopF K w r rest).2)
  | _, e :: rest => (.error .valueError, e :: rest)

/-- `_separable_conv_waverecn`, `separable_conv_transform.py:156-184`; as `sepWaverecn`. -/
def sepWaverecnF [NonUnitalNonAssocSemiring R] (K : Kernels R) (coeffs : Coeffs R) (w : Wavelet R) :
    Except Err (Tensor R) × Coeffs R :=
  match coeffs.items with
  | .tensor t :: rest =>
    if rest.all Entry.isDict then
      ((sepRecLoopF K w t rest).1, ⟨coeffs.isList, .tensor t :: (sepRecLoopF K w t rest).2⟩)
    else (.error .valueError, coeffs)
  | [] => (.error .indexError, coeffs)
  | _ => (.error .valueError, coeffs)

/-- `_fswaverecn`, `separable_conv_transform.py:401-446`: the result and the caller's coefficients as they are afterwards;
as `fswaverecn`. -/
def fswaverecnF [NonUnitalNonAssocSemiring R] (K : Kernels R) (coeffs : Coeffs R) (w : Wavelet R) (ndim : Nat)
    (axes : AxisHint) : Except Err (Tensor R) × Coeffs R :=
  match preprocessCoeffs coeffs ndim axes false with
  | .error e => (.error e, coeffs)
  | .ok p =>
    match checkSameDeviceDtype p.1 with
    | .error e => (.error e, coeffs)
    | .ok _ =>
      ((sepWaverecnF K p.1 w).1 >>= fun r => postprocessTensor r ndim p.2 axes,
        if preAliases coeffs ndim axes then (sepWaverecnF K p.1 w).2 else coeffs)

/-! ### stationary transforms -/

/-- The loop of `swt`, `stationary_transform.py:56-110` (lines 96-105); as `swtLoop`. -/
def swtLoopF [NonUnitalNonAssocSemiring R] (K : Kernels R) (filt : Tensor R) (F : Nat) :
    Nat → Nat → Tensor R → Except Err (Tensor R × List (Tensor R))
  | 0, _, resLo => .ok (resLo, [])
  | L + 1, s, resLo => do
    let p ← circularPad resLo [2 ^ s * (F / 2 - 1), 2 ^ s * (F / 2)]
    let res ← K.conv p filt 1 (2 ^ s)
    match split1 res with
    | [lo, hi] => do
      let r ← swtLoopF K filt F L (s + 1) lo
      pure (r.1, hi.squeeze1 :: r.2)
    | _ => .error .valueError   -- unpacking error

/-- `swt`, `stationary_transform.py:56-110`; as `swt`. -/
def swtF [NonUnitalNonAssocSemiring R] (K : Kernels R) (data : Tensor R) (w : Wavelet R) (level : Option Int)
    (axis : AxisHint) : Except Err (List (Tensor R)) := do
  let p ← preprocessTensor data 1 axis true
  let filt ← stack0 [createTensorF K w.decLo true p.1.md, createTensorF K w.decHi true p.1.md]
  let r ← swtLoopF K filt w.decLo.length (swtLevel level (p.1.sizeFromEnd 1)) 0 p.1
  let c ← postprocessCoeffs (Coeffs.ofList (assemble r)) 1 p.2 axis
  pure c.toList

/-- The loop of `iswt`, `stationary_transform.py:113-160` (lines 143-156); as `iswtLoop`. -/
def iswtLoopF [NonUnitalNonAssocSemiring R] (K : KernelsS R) (filt : Tensor R) (F : Nat) :
    Tensor R → List (Tensor R) → Except Err (Tensor R)
  | resLo, [] => .ok resLo
  | resLo, hi :: rest => do
    let st ← stack1 [resLo, hi]
    let p ← circularPad st [2 ^ rest.length * (F / 2), 2 ^ rest.length * (F / 2 - 1)]
    let y ← K.convTransposeG p filt (2 ^ rest.length)
      (2 ^ rest.length * (F / 2) + 2 ^ rest.length * (F / 2 - 1))
    let r ← K.mean y
    iswtLoopF K filt F r rest

/-- `iswt`, `stationary_transform.py:113-160`; as `iswt`. -/
def iswtF [NonUnitalNonAssocSemiring R] (K : KernelsS R) (coeffs : List (Tensor R)) (w : Wavelet R)
    (axis : AxisHint) : Except Err (Tensor R) := do
  let p ← preprocessCoeffs (Coeffs.ofList coeffs) 1 axis false
  let md ← checkSameDeviceDtype p.1
  let filt ← stack0 [createTensorF K.toKernels w.recLo false md, createTensorF K.toKernels w.recHi false md]
  match p.1.toList with
  | [] => .error .indexError
  | lo :: his => do
    let r ← iswtLoopF K filt w.recLo.length lo his
    postprocessTensor r 1 p.2 axis

/-! ### packets -/

/-- `self._get_wavedec(data.shape[self.axis])(data)`, `packets.py:312-316` and `packets.py:240-256`; as `packetDec1`. -/
def packetDec1F [NonUnitalNonAssocSemiring R] (K : Kernels R) (w : Wavelet R) (mode : Option String) (axis : Int)
    (t : Tensor R) : Except Err (List (Tensor R)) := do
  let _ ← sizeAt t axis
  wavedecF K t w mode (some 1) (.int axis)

/-- `self._get_waverec(data_a.shape[self.axis])([data_a, data_d])`, `packets.py:190-238` and `packets.py:258-272`; as
`packetSyn1`. -/
def packetSyn1F [NonUnitalNonAssocSemiring R] (K : Kernels R) (w : Wavelet R) (axis : Int) (ts : List (Tensor R)) :
    Except Err (Tensor R) :=
  match ts with
  | [] => .error .valueError
  | t :: _ => do
    let _ ← sizeAt t axis
    waverecF K ts w (.int axis)

/-- `WaveletPacket`, `packets.py:67-359`, with `mode != "boundary"`; as `packet1`. -/
def packet1F [NonUnitalNonAssocSemiring R] (K : Kernels R) (w : Wavelet R) (mode : Option String) (axis : Int) :
    Backend Unit (Tensor R) where
  alphabet := ['a', 'd']
  nodes := fun l => getGraycodeOrder l 'a' 'd'
  dec := fun _ t => (packetDec1F K w mode axis t, ())
  syn := fun _ ts => (packetSyn1F K w axis ts, ())
  fit := fit1 axis
  defaultLevel := packetLevel1 w axis

/-- `_expand_node`, `packets.py:528-539`, with the transform of `_get_wavedec`, `packets.py:541-572`, for a padding mode; as
`packetDec2`. -/
def packetDec2F [NonUnitalNonAssocSemiring R] (K : Kernels R) (KN : KernelsN R) (w : Wavelet R) (mode : Option String)
    (axes : List Int) (separable : Bool) (t : Tensor R) : Except Err (List (Tensor R)) := do
  let _ ← planeSizes axes t
  if separable then do
    let c ← fswavedecnF K t w 2 mode (some 1) (.seq axes)
    unpackFsdict c
  else do
    let c ← wavedec2F KN t w mode (some 1) (.seq axes)
    unpack2 c

/-- The synthesis step of `reconstruct`, `packets.py:480-526` (lines 503-510), with the transform of `_get_waverec`,
`packets.py:574-592`, for a padding mode; as `packetSyn2`. -/
def packetSyn2F [NonUnitalNonAssocSemiring R] (K : Kernels R) (KN : KernelsN R) (w : Wavelet R) (axes : List Int)
    (separable : Bool) (ts : List (Tensor R)) : Except Err (Tensor R) :=
  match ts with
  | [a, h, v, d] => do
    let _ ← planeSizes axes a
    if separable then
      (fswaverecnF K ⟨false, [.tensor a, .dict [("ad", h), ("da", v), ("dd", d)]]⟩ w 2 (.seq axes)).1
    else waverec2F KN ⟨false, [.tensor a, .tuple h v d]⟩ w (.seq axes)
  | _ => .error .valueError

/-- `WaveletPacket2D`, `packets.py:362-771`, with `mode != "boundary"`; as `packet2`. -/
def packet2F [NonUnitalNonAssocSemiring R] (K : Kernels R) (KN : KernelsN R) (w : Wavelet R) (mode : Option String)
    (axes : List Int) (separable : Bool) : Backend Unit (Tensor R) where
  alphabet := ['a', 'h', 'v', 'd']
  nodes := getNaturalOrder2
  dec := fun _ t => (packetDec2F K KN w mode axes separable t, ())
  syn := fun _ ts => (packetSyn2F K KN w axes separable ts, ())
  fit := fit2 axes
  defaultLevel := packetLevel2 w axes

end Verif
