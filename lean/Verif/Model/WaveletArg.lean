/-
The representations of a wavelet the transforms accept (C53): a name or a `pywt.Wavelet`, an object with the
attributes of the protocol `Wavelet` (for example the learnable wavelets), or a `WaveletTensorTuple`.  Only
the automatic level tells them apart; every other use goes through `_get_filter_tensors`, `_get_len` or
`dec_len`, which agree.  The definitions below are the transforms with that one dependence made explicit.
-/
import Verif.Model.SepConv
import Verif.Model.Conv3
import Verif.Model.MatN

namespace Verif
open Tensor
variable {R : Type}

/-- The argument `wavelet`: `Union[Wavelet, str]` after `_as_wavelet`, `_util.py:71-84`: a `pywt.Wavelet`
(also given by its name), an object of the protocol `Wavelet`, `constants.py:30-46`, or a `WaveletTensorTuple`,
`constants.py:49-82`. -/
inductive WaveletArg (R : Type) where
  | pywt (w : Wavelet R)
  | object (w : Wavelet R)
  | tuple (w : Wavelet R)

/-- The four filters, `_get_filter_tensors`, `_util.py:95-126`: the attribute `filter_bank`, or the tuple
itself; `WaveletTensorTuple.filter_bank`, `constants.py:68-72`, is the tuple too. -/
def WaveletArg.bank : WaveletArg R → Wavelet R
  | .pywt w => w
  | .object w => w
  | .tuple w => w

/-- `WaveletTensorTuple.from_wavelet`, `constants.py:75-82`; the conversion of the dtype is not modelled. -/
def fromWavelet (w : Wavelet R) : WaveletArg R := .tuple w

/-- Python's `len(wavelet)`: the number of filter taps for `pywt.Wavelet` and protocol objects
(`Wavelet.__len__`, `constants.py:44-46`), the number of components for a named tuple. -/
def WaveletArg.pyLen : WaveletArg R → Nat
  | .pywt w => w.len
  | .object w => w.len
  | .tuple _ => 4

/-- `pywt.dwtn_max_level(shape, wavelet)` (external): a wavelet which is neither a string nor a
`pywt.Wavelet` is either not iterable (protocol objects) or an iterable of wavelets, one per axis, whose
number (four for a `WaveletTensorTuple`) must be that of the axes; both are ValueErrors.  The level of
`wavedec2` and `wavedec3`: `conv_transform_2.py:137-138` and `conv_transform_3.py:116-119`. -/
def resolveLevelArg (level : Option Int) (ns : List Nat) (a : WaveletArg R) : Except Err Nat :=
  match level with
  | some l => .ok l.toNat
  | none =>
    match a with
    | .pywt w => dwtnMaxLevel ns w.len
    | .object _ => .error .valueError
    | .tuple _ => .error .valueError

/-- `wavedec2`, `conv_transform_2.py:74-157`. -/
def wavedec2Arg [NonUnitalNonAssocSemiring R] (data : Tensor R) (a : WaveletArg R)
    (mode : Option String) (level : Option Int) (axes : AxisHint) : Except Err (Coeffs R) := do
  let p ← preprocessDeconstruction data a.bank 2 axes
  let level ← resolveLevelArg level [p.1.sizeFromEnd 1, p.1.sizeFromEnd 2] a
  let r ← wavedec2Loop a.bank mode p.2.2 level p.1
  postprocessCoeffs (assemble2 r) 2 p.2.1 axes

/-- `wavedec3`, `conv_transform_3.py:76-145`. -/
def wavedec3Arg [NonUnitalNonAssocSemiring R] (data : Tensor R) (a : WaveletArg R)
    (mode : Option String) (level : Option Int) (axes : AxisHint) : Except Err (Coeffs R) := do
  let p ← preprocessDeconstruction data a.bank 3 axes
  let level ← resolveLevelArg level [p.1.sizeFromEnd 1, p.1.sizeFromEnd 2, p.1.sizeFromEnd 3] a
  let r ← wavedec3Loop a.bank mode p.2.2 level p.1
  postprocessCoeffs ⟨false, .tensor r.1 :: r.2.reverse⟩ 3 p.2.1 axes

/-- `_separable_conv_wavedecn`, `separable_conv_transform.py:114-153`. -/
def sepWavedecnArg [NonUnitalNonAssocSemiring R] (input : Tensor R) (a : WaveletArg R)
    (mode : Option String) (level : Option Int) : Except Err (Coeffs R) := do
  let l ← sepLevel level input.shape.tail a.pyLen
  let r ← sepDecLoop a.bank mode (input.rank - 1) l input
  pure ⟨false, .tensor r.1 :: r.2.reverse⟩

/-- `_fswavedecn`, `separable_conv_transform.py:351-398`; `fswavedec2` and `fswavedec3` are `ndim = 2, 3`. -/
def fswavedecnArg [NonUnitalNonAssocSemiring R] (data : Tensor R) (a : WaveletArg R) (ndim : Nat)
    (mode : Option String) (level : Option Int) (axes : AxisHint) : Except Err (Coeffs R) := do
  let axes : AxisHint := match axes with
    | .none => .seq ((List.range ndim).map fun (k : Nat) => (k : Int) - (ndim : Int))
    | a => a
  let p ← preprocessTensor data ndim axes false
  let coeffs ← sepWavedecnArg p.1 a mode level
  postprocessCoeffs coeffs ndim p.2 axes

/-- The bookkeeping of `MatrixWavedec.__call__`, `matmul_transform.py:356-430` (lines 390-407); `wlen` is
`len(self.wavelet)`, line 398. -/
def decPrepareArg [Field R] [DecidableEq R] (la : LinAlg R) (wlen : Nat) (cfg : DecCfg R) (md : Meta) (n : Nat)
    (st : DecState R) : Except Err Unit × DecState R :=
  let rebuild := decide (st.inputLength ≠ some n)
  let st := { st with inputLength := some n }
  match st.level with
  | none =>
    match matAutoLevel n wlen with
    | .error e => (.error e, st)
    | .ok l => decEnsure la cfg md l n true { st with level := some l }
  | some l =>
    if l ≤ 0 then (.error .valueError, st) else decEnsure la cfg md l n rebuild st

/-- `MatrixWavedec.__call__`, `matmul_transform.py:356-430`, of an object created with the wavelet `a`, whose
filters are `cfg.wavelet`. -/
def decCallArg [Field R] [DecidableEq R] (la : LinAlg R) (a : WaveletArg R) (cfg : DecCfg R) (st : DecState R)
    (x : Tensor R) : Except Err (List (Tensor R)) × DecState R :=
  match decInput cfg x with
  | .error e => (.error e, st)
  | .ok p =>
    match decPrepareArg la a.pyLen cfg p.1.md (p.1.sizeFromEnd 1) st with
    | (.error e, st) => (.error e, st)
    | (.ok _, st) => (decApply cfg st.mats st.padList p.1 p.2, st)

/-- The bookkeeping of `MatrixWavedec2.__call__`, `matmul_transform_2.py:451-567` (lines 477-498), and
`MatrixWavedec3.__call__`, `matmul_transform_3.py:194-290` (lines 215-243); `wlen` is `len(self.wavelet)`. -/
def decPrepareNArg [Field R] [DecidableEq R] (la : LinAlg R) (wlen : Nat) (cfg : DecCfgN R) (md : Meta)
    (sizes : List Nat) (st : DecStateN R) : Except Err Unit × DecStateN R :=
  let rebuild := decide (st.shape ≠ some sizes)
  let st := { st with shape := some sizes }
  match st.level with
  | none =>
    match matAutoLevelN sizes wlen with
    | .error e => (.error e, st)
    | .ok l => decEnsureN la cfg md l sizes true { st with level := some l }
  | some l =>
    if l ≤ 0 then (.error .valueError, st) else decEnsureN la cfg md l sizes rebuild st

/-- `MatrixWavedec2.__call__`, `matmul_transform_2.py:451-567` (`ndim = 2`), and
`MatrixWavedec3.__call__`, `matmul_transform_3.py:194-290` (`ndim = 3`), of an object created with the wavelet
`a`, whose filters are `cfg.wavelet`. -/
def decCallNArg [Field R] [DecidableEq R] (ndim : Nat) (la : LinAlg R) (a : WaveletArg R) (cfg : DecCfgN R)
    (st : DecStateN R) (x : Tensor R) : Except Err (Coeffs R) × DecStateN R :=
  match preprocessTensor x ndim (.seq cfg.axes) false with
  | .error e => (.error e, st)
  | .ok p =>
    match decPrepareNArg la a.pyLen cfg p.1.md p.1.shape.tail st with
    | (.error e, st) => (.error e, st)
    | (.ok _, st) => (decApplyN ndim cfg st p.1 p.2, st)

end Verif
