/-
Model of src/ptwt/_util.py (pre- and postprocessing, padding helpers, filter construction).
Python exceptions are `Except Err`.  Filter length is assumed to be ≥ 2 wherever Python
computes `2*F-3` (no wavelet has fewer taps); theorems state this guard.
-/
import Verif.Torch.Conv
import Verif.Spec.Wavelet
import Verif.Spec.Axes

namespace Verif
open Tensor
variable {R : Type}

/-! ### Coefficient containers -/

/-- Elements of a coefficient container: a tensor, a `WaveletDetailTuple2d` (constants.py:172-189),
a `WaveletDetailDict` (constants.py:192-209, insertion ordered), or any other object. -/
inductive Entry (R : Type) [Zero R] where
  | tensor (t : Tensor R)
  | tuple (h v d : Tensor R)
  | dict (kv : List (String × Tensor R))
  | other

/-- A coefficient container: a Python list (`isList`) or tuple of entries. -/
structure Coeffs (R : Type) [Zero R] where
  isList : Bool
  items : List (Entry R)

/-- A Python list of tensors. -/
def Coeffs.ofList [Zero R] (ts : List (Tensor R)) : Coeffs R := ⟨true, ts.map .tensor⟩

/-- The tensors of a flat list (entries that are no tensors do not occur where it is used). -/
def Coeffs.toList [Zero R] (c : Coeffs R) : List (Tensor R) :=
  c.items.filterMap fun | .tensor t => some t | _ => none

/-! ### Axes and modes -/

/-- `ExtendedPyTorchBoundaryMode`, `_util.py:31-33`. -/
inductive ExtMode where
  | torch (m : PadMode)
  | symmetric
  deriving DecidableEq

/-- `_translate_boundary_strings`, `_util.py:50-68` (table 36-44). -/
def translateBoundaryStrings (mode : Option String) : Except Err ExtMode :=
  match mode with
  | Option.none => .ok (.torch .reflect)
  | some s =>
    if s = "constant" then .ok (.torch .replicate)
    else if s = "zero" then .ok (.torch .constant)
    else if s = "reflect" then .ok (.torch .reflect)
    else if s = "periodic" then .ok (.torch .circular)
    else if s = "symmetric" then .ok .symmetric
    else .error .valueError

/-- `_is_dtype_supported`, `_util.py:150-151`, `constants.py:26`. -/
def isDtypeSupported (d : DType) : Bool := d = .float32 || d = .float64

/-- `_get_default_axes`, `_util.py:830-852` (for n ≥ 1; ValueError otherwise):
`tuple(range(-n, 0))`. -/
def getDefaultAxes (n : Nat) : Except Err (List Int) :=
  if n < 1 then .error .valueError
  else .ok ((List.range n).map fun (k : Nat) => (k : Int) - (n : Int))

/-- `_check_axes_argument`, `_util.py:302-304`. -/
def checkAxesArgument (axes : List Int) : Except Err Unit :=
  if axes.Nodup then .ok () else .error .valueError

/-- `_ensure_axes`, `_util.py:817-827`. -/
def ensureAxes (axes : AxisHint) (dim : Nat) : Except Err (List Int) :=
  match axes with
  | .none => getDefaultAxes dim
  | .int a => if dim ≠ 1 then .error .valueError else .ok [a]
  | .seq as => do
    if as.length ≠ dim then throw .valueError
    checkAxesArgument as
    pure as

/-- `_get_transpose_order`, `_util.py:351-357`. -/
def getTransposeOrder (axes : List Int) (rank : Nat) : List Int × List Int :=
  let axes := axes.map fun (a : Int) => if a < 0 then a + (rank : Int) else a
  let allAxes := (List.range rank).map fun (k : Nat) => (k : Int)
  (allAxes.filter fun a => a ∉ axes, axes)

/-- `_swap_axes`, `_util.py:360-363`. -/
def swapAxes [Zero R] (data : Tensor R) (axes : List Int) : Except Err (Tensor R) := do
  checkAxesArgument axes
  let (front, back) := getTransposeOrder axes data.rank
  data.permute (front ++ back)

/-- `torch.argsort(torch.tensor(l)).tolist()` for distinct values: positions ordered by value. -/
def argsort (l : List Int) : List Nat :=
  (List.range l.length).mergeSort fun i j => decide (l.getD i 0 ≤ l.getD j 0)

/-- `_undo_swap_axes`, `_util.py:366-370`. -/
def undoSwapAxes [Zero R] (data : Tensor R) (axes : List Int) : Except Err (Tensor R) := do
  checkAxesArgument axes
  let (front, back) := getTransposeOrder axes data.rank
  data.permute ((argsort (front ++ back)).map fun (k : Nat) => (k : Int))

/-- `_fold_axes(data, keep_no)[0]`, `_util.py:271-286` (rank > keep_no at every call). -/
def foldAxes [Zero R] (data : Tensor R) (keep : Nat) : Except Err (Tensor R) :=
  let k := data.shape.length - keep
  data.reshape (prodL (data.shape.take k) :: data.shape.drop k)

/-- `_unfold_axes`, `_util.py:289-291`. -/
def unfoldAxes [Zero R] (data : Tensor R) (ds : List Nat) (keep : Nat) : Except Err (Tensor R) :=
  data.reshape (ds.take (ds.length - keep) ++ data.shape.drop (data.shape.length - keep))

/-! ### Tree map and checks -/

/-- One element of the loop of `_coeff_tree_map`, `_util.py:394-450`. -/
def Entry.mapM [Zero R] (f : Tensor R → Except Err (Tensor R)) : Entry R → Except Err (Entry R)
  | .tensor t => do let t ← f t; pure (.tensor t)
  | .tuple h v d => do
    let h ← f h
    let v ← f v
    let d ← f d
    pure (.tuple h v d)
  | .dict kv => do
    let kv ← kv.mapM fun (k, t) => do let t ← f t; pure (k, t)
    pure (.dict kv)
  | .other => .error .valueError

/-- `_coeff_tree_map`, `_util.py:394-450`.  `coeffs[0]` of an empty container is an IndexError;
applying the function to a first element that is no tensor is modelled as a TypeError (all callers
run `_check_if_tensor(coeffs[0])` before, except the tuple/list distinction below). -/
def coeffTreeMap [Zero R] (c : Coeffs R) (f : Tensor R → Except Err (Tensor R)) :
    Except Err (Coeffs R) :=
  match c.items with
  | [] => .error .indexError
  | .tensor a :: rest => do
    let approx ← f a
    let res ← rest.mapM (Entry.mapM f)
    match res with
    | [] => pure ⟨c.isList, [.tensor approx]⟩
    | .tensor _ :: _ => pure ⟨true, .tensor approx :: res⟩
    | _ => pure ⟨false, .tensor approx :: res⟩
  | _ :: _ => .error .typeError

/-- `_check_if_tensor(coeffs[0])`, `_util.py:294-299`. -/
def headTensor [Zero R] (c : Coeffs R) : Except Err (Tensor R) :=
  match c.items with
  | [] => .error .indexError
  | .tensor t :: _ => .ok t
  | _ :: _ => .error .valueError

/-- `_check_same_device`, `_util.py:307-312`. -/
def checkSameDevice [Zero R] (dev : Nat) (t : Tensor R) : Except Err (Tensor R) :=
  if dev = t.md.device then .ok t else .error .valueError

/-- `_check_same_dtype`, `_util.py:315-318`. -/
def checkSameDtype [Zero R] (d : DType) (t : Tensor R) : Except Err (Tensor R) :=
  if d = t.md.dtype then .ok t else .error .valueError

/-- `_check_same_device_dtype`, `_util.py:321-348`. -/
def checkSameDeviceDtype [Zero R] (c : Coeffs R) : Except Err Meta := do
  let h ← headTensor c
  let _ ← coeffTreeMap c (checkSameDevice h.md.device)
  let _ ← coeffTreeMap c (checkSameDtype h.md.dtype)
  pure h.md

/-! ### Pre- and postprocessing of dimensions -/

/-- the axis swap inside `_preprocess_coeffs`, `_util.py:493-570` (lines 550-553). -/
def preSwap [Zero R] (coeffs : Coeffs R) (axes dflt : List Int) : Except Err (Coeffs R) :=
  if axes ≠ dflt then coeffTreeMap coeffs (swapAxes · axes) else .ok coeffs

/-- the folding inside `_preprocess_coeffs`, `_util.py:493-570` (lines 555-564). -/
def preFold [Zero R] (coeffs : Coeffs R) (ds : List Nat) (ndim : Nat) : Except Err (Coeffs R) :=
  if ds.length < ndim then .error .valueError
  else if ds.length = ndim then coeffTreeMap coeffs (fun t => .ok t.unsqueeze0)
  else if ndim + 1 < ds.length then coeffTreeMap coeffs (foldAxes · ndim)
  else .ok coeffs

/-- the channel axis inside `_preprocess_coeffs`, `_util.py:493-570` (lines 566-568). -/
def preChannel [Zero R] (coeffs : Coeffs R) (addChannel : Bool) : Except Err (Coeffs R) :=
  if addChannel then coeffTreeMap coeffs Tensor.unsqueeze1 else .ok coeffs

/-- `_preprocess_coeffs`, `_util.py:493-570`. -/
def preprocessCoeffs [Zero R] (coeffs : Coeffs R) (ndim : Nat) (axes : AxisHint)
    (addChannel : Bool) : Except Err (Coeffs R × List Nat) :=
  if ndim = 0 then .error .valueError else do
  let h ← headTensor coeffs
  if isDtypeSupported h.md.dtype = false then .error .valueError else do
  let axes ← ensureAxes axes ndim
  let dflt ← getDefaultAxes ndim
  let coeffs ← preSwap coeffs axes dflt
  let h ← headTensor coeffs
  let coeffs ← preFold coeffs h.shape ndim
  let coeffs ← preChannel coeffs addChannel
  .ok (coeffs, h.shape)

/-- the unfolding inside `_postprocess_coeffs`, `_util.py:613-676` (lines 660-669). -/
def postUnfold [Zero R] (coeffs : Coeffs R) (ds : List Nat) (ndim : Nat) : Except Err (Coeffs R) :=
  if ds.length < ndim then .error .valueError
  else if ds.length = ndim then coeffTreeMap coeffs (fun t => .ok t.squeeze0)
  else if ndim + 1 < ds.length then coeffTreeMap coeffs (unfoldAxes · ds ndim)
  else .ok coeffs

/-- the axis swap inside `_postprocess_coeffs`, `_util.py:613-676` (lines 671-674). -/
def postSwap [Zero R] (coeffs : Coeffs R) (axes dflt : List Int) : Except Err (Coeffs R) :=
  if axes ≠ dflt then coeffTreeMap coeffs (undoSwapAxes · axes) else .ok coeffs

/-- `_postprocess_coeffs`, `_util.py:613-676`. -/
def postprocessCoeffs [Zero R] (coeffs : Coeffs R) (ndim : Nat) (ds : List Nat)
    (axes : AxisHint) : Except Err (Coeffs R) :=
  if ndim = 0 then .error .valueError else do
  let axes ← ensureAxes axes ndim
  let coeffs ← postUnfold coeffs ds ndim
  let dflt ← getDefaultAxes ndim
  postSwap coeffs axes dflt

/-- `_preprocess_tensor`, `_util.py:679-714`. -/
def preprocessTensor [Zero R] (data : Tensor R) (ndim : Nat) (axes : AxisHint)
    (addChannel : Bool) : Except Err (Tensor R × List Nat) := do
  let (c, ds) ← preprocessCoeffs (Coeffs.ofList [data]) ndim axes addChannel
  let t ← headTensor c
  pure (t, ds)

/-- `_postprocess_tensor`, `_util.py:717-743`. -/
def postprocessTensor [Zero R] (data : Tensor R) (ndim : Nat) (ds : List Nat)
    (axes : AxisHint) : Except Err (Tensor R) := do
  let c ← postprocessCoeffs (Coeffs.ofList [data]) ndim ds axes
  headTensor c

/-! ### Filters -/

/-- `_create_tensor`, `_util.py:129-141`: a filter as a `[1, F]` tensor, optionally flipped.
Rounding to `dtype` is not modelled. -/
def createTensor [Zero R] (f : List R) (flip : Bool) (md : Meta) : Tensor R :=
  ofFn md [1, f.length] fun i =>
    if flip then f.getD (f.length - 1 - i.getD 1 0) 0 else f.getD (i.getD 1 0) 0

/-- `_outer`, `_util.py:154-160`: outer product of the flattened arguments. -/
def outer [Mul R] [Zero R] (a b : Tensor R) : Tensor R :=
  ofFn a.md [prodL a.shape, prodL b.shape] fun i =>
    a.get (unravel a.shape (i.getD 0 0)) * b.get (unravel b.shape (i.getD 1 0))

/-- `filt.unsqueeze(1)` of a stack of filters. -/
def unsqueezeFilt [Zero R] (t : Except Err (Tensor R)) : Except Err (Tensor R) := do
  let t ← t
  t.unsqueeze1

/-- `_construct_1d_filt`, `_util.py:881-883`. -/
def construct1dFilt [Zero R] (lo hi : Tensor R) : Except Err (Tensor R) := stack0 [lo, hi]

/-- `_construct_2d_filt`, `_util.py:886-907`. -/
def construct2dFilt [Mul R] [Zero R] (lo hi : Tensor R) : Except Err (Tensor R) :=
  let ll := outer lo lo
  let lh := outer hi lo
  let hl := outer lo hi
  let hh := outer hi hi
  unsqueezeFilt (stack0 [ll, lh, hl, hh])

/-- `_construct_3d_filt`, `_util.py:910-936`. -/
def construct3dFilt [Mul R] [Zero R] (lo hi : Tensor R) : Except Err (Tensor R) := do
  let dimSize := lo.sizeFromEnd 1
  let size := [dimSize, dimSize, dimSize]
  let lll ← (outer lo (outer lo lo)).reshape size
  let llh ← (outer lo (outer lo hi)).reshape size
  let lhl ← (outer lo (outer hi lo)).reshape size
  let lhh ← (outer lo (outer hi hi)).reshape size
  let hll ← (outer hi (outer lo lo)).reshape size
  let hlh ← (outer hi (outer lo hi)).reshape size
  let hhl ← (outer hi (outer hi lo)).reshape size
  let hhh ← (outer hi (outer hi hi)).reshape size
  unsqueezeFilt (stack0 [lll, llh, lhl, lhh, hll, hlh, hhl, hhh])

/-- `_construct_nd_filt`, `_util.py:870-878`. -/
def constructNdFilt [Mul R] [Zero R] (lo hi : Tensor R) (n : Nat) : Except Err (Tensor R) :=
  if n = 1 then construct1dFilt lo hi
  else if n = 2 then construct2dFilt lo hi
  else if n = 3 then construct3dFilt lo hi
  else .error .notImplementedError

/-- `_preprocess_deconstruction`, `_util.py:855-867`; returns data, original shape and the
decomposition filter tensor (`dec_lo`, `dec_hi` are only used for their length by the callers). -/
def preprocessDeconstruction [Mul R] [Zero R] (data : Tensor R) (w : Wavelet R) (ndim : Nat)
    (axes : AxisHint) : Except Err (Tensor R × List Nat × Tensor R) := do
  let p ← preprocessTensor data ndim axes true
  let decFilt ← constructNdFilt (createTensor w.decLo true p.1.md)
    (createTensor w.decHi true p.1.md) ndim
  pure (p.1, p.2, decFilt)

/-! ### Padding -/

/-- `_get_pad`, `_util.py:198-228` (F ≥ 2): `(padl, padr)`. -/
def getPad (dataLen filtLen : Nat) : Nat × Nat :=
  ((2 * filtLen - 3) / 2, (2 * filtLen - 3) / 2 + dataLen % 2)

/-- `_get_padding_n`, `_util.py:807-814`. -/
def getPaddingN [Zero R] (data : Tensor R) (w : Wavelet R) (n : Nat) : List Nat :=
  (List.range n).flatMap fun i =>
    let p := getPad (data.sizeFromEnd (i + 1)) w.len
    [p.1, p.2]

/-- pairs of a flat list (`more_itertools.grouper(padding, 2)`). -/
def grouper2 : List Nat → List (Nat × Nat)
  | a :: b :: rest => (a, b) :: grouper2 rest
  | _ => []

/-- `_group_for_symmetric`, `_util.py:802-804`. -/
def groupForSymmetric (padding : List Nat) : List (Nat × Nat) := (grouper2 padding).reverse

/-- the left end in the base case of `_pad_symmetric_1d`, `_util.py:163-180` (lines 175-177). -/
def symCatLeft [Zero R] (signal : Tensor R) (padl : Nat) : Except Err (Tensor R) :=
  if 0 < padl then cat2 ((signal.slice 0 0 padl).flip 0) signal 0 else .ok signal

/-- the base case of `_pad_symmetric_1d`, `_util.py:163-180`: concatenate the flipped ends. -/
def padSymBase [Zero R] (signal : Tensor R) (padl padr : Nat) : Except Err (Tensor R) := do
  let n := signal.shape.getD 0 0
  let s ← symCatLeft signal padl
  if 0 < padr then cat2 s ((signal.slice 0 (n - padr) n).flip 0) 0 else pure s

/-- the left step of `_pad_symmetric_1d`, `_util.py:163-180` (lines 167-169); `rec` is the recursive
call. -/
def symGrowLeft [Zero R] (rec : Tensor R → Nat → Nat → Except Err (Tensor R)) (signal : Tensor R)
    (padl dimlen : Nat) : Except Err (Tensor R × Nat) :=
  if padl > dimlen then do
    let s ← rec signal dimlen 0
    pure (s, padl - dimlen)
  else pure (signal, padl)

/-- the right step of `_pad_symmetric_1d`, `_util.py:163-180` (lines 170-172). -/
def symGrowRight [Zero R] (rec : Tensor R → Nat → Nat → Except Err (Tensor R)) (signal : Tensor R)
    (padr dimlen : Nat) : Except Err (Tensor R × Nat) :=
  if padr > dimlen then do
    let s ← rec signal 0 dimlen
    pure (s, padr - dimlen)
  else pure (signal, padr)

/-- `_pad_symmetric_1d`, `_util.py:163-180`, pads axis 0.  The first argument bounds the recursion
depth; running out of it is Python's RecursionError. -/
def padSymmetric1dFuel [Zero R] : Nat → Tensor R → Nat → Nat → Except Err (Tensor R)
  | 0, _, _, _ => .error .recursionError
  | fuel + 1, signal, padl, padr =>
    let dimlen := signal.shape.getD 0 0
    if padl > dimlen ∨ padr > dimlen then do
      let sl ← symGrowLeft (padSymmetric1dFuel fuel) signal padl dimlen
      let sr ← symGrowRight (padSymmetric1dFuel fuel) sl.1 padr dimlen
      padSymmetric1dFuel fuel sr.1 sl.2 sr.2
    else padSymBase signal padl padr

/-- `_pad_symmetric_1d` with enough recursion budget for every non-empty signal (C06 proves that
this budget suffices; Python's own limit of 1000 frames is reached only for pads > 2^990 n). -/
def padSymmetric1d [Zero R] (signal : Tensor R) (padl padr : Nat) : Except Err (Tensor R) :=
  padSymmetric1dFuel (padl + padr + 2) signal padl padr

/-- the loop of `_pad_symmetric`, `_util.py:183-195`; `pads` is already reversed, `axis` is the
axis of its head. -/
def padSymmetricLoop [Zero R] : Tensor R → List (Nat × Nat) → Nat → Except Err (Tensor R)
  | signal, [], _ => .ok signal
  | signal, (l, r) :: rest, axis => do
    let s := signal.transpose 0 axis
    let s ← padSymmetric1d s l r
    padSymmetricLoop (s.transpose axis 0) rest (axis - 1)

/-- `_pad_symmetric`, `_util.py:183-195`. -/
def padSymmetric [Zero R] (signal : Tensor R) (padLists : List (Nat × Nat)) :
    Except Err (Tensor R) :=
  if signal.rank < padLists.length then .error .valueError
  else padSymmetricLoop signal padLists.reverse (signal.rank - 1)

/-- Common body of `_fwt_pad`, `conv_transform.py:33-66`, `_fwt_pad2`, `conv_transform_2.py:34-71`,
and `_fwt_pad3`, `conv_transform_3.py:34-73`, with a given `padding` (last axis first). -/
def fwtPadWith [NonUnitalNonAssocSemiring R] (data : Tensor R) (mode : Option String)
    (padding : List Nat) : Except Err (Tensor R) := do
  let m ← translateBoundaryStrings mode
  match m with
  | .symmetric => padSymmetric data (groupForSymmetric padding)
  | .torch pm => data.pad pm padding

/-- `_fwt_pad`, `conv_transform.py:33-66`, `_fwt_pad2`, `conv_transform_2.py:34-71`, and `_fwt_pad3`,
`conv_transform_3.py:34-73`, with `padding=None`; `n` is the number of padded axes. -/
def fwtPad [NonUnitalNonAssocSemiring R] (data : Tensor R) (w : Wavelet R) (mode : Option String)
    (n : Nat) : Except Err (Tensor R) :=
  fwtPadWith data mode (getPaddingN data w n)

/-- `_adjust_padding_at_reconstruction`, `_util.py:231-244`; returns `(pad_end, pad_start)`. -/
def adjustPadding (resSize coeffSize padEnd padStart : Nat) : Except Err (Nat × Nat) :=
  let pred : Int := (resSize : Int) - (padStart + padEnd)
  if (coeffSize : Int) = pred then .ok (padEnd, padStart)
  else if (coeffSize : Int) = pred - 1 then .ok (padEnd + 1, padStart)
  else .error .assertionError

/-- `t[..., padl:]` if `padl > 0`, then `t[..., :-padr]` if `padr > 0`, along axis `a`; the
crops of `conv_transform.py:196-199`.  Python slices saturate, as does `Tensor.slice`. -/
def cropAxis [Zero R] (t : Tensor R) (a padl padr : Nat) : Tensor R :=
  let t := if 0 < padl then t.slice a padl (t.shape.getD a 0) else t
  if 0 < padr then t.slice a 0 (t.shape.getD a 0 - padr) else t

end Verif
