/-
Model of `WaveletPacket2D` of src/ptwt/packets.py: the transforms the packet object calls.  The state
machine is that of Model/Packets.lean.
-/
import Verif.Model.PacketMat
import Verif.Model.Conv2
import Verif.Model.SepConv
import Verif.Model.MatN

namespace Verif
open Tensor
variable {R : Type}

/-- `_swap_axes(t, self.axes).shape[-2:]`, `packets.py:436-467` (line 463), `packets.py:480-526` (lines 492 and
507) and `packets.py:528-539` (line 530). -/
def planeSizes [Zero R] (axes : List Int) (t : Tensor R) : Except Err (List Nat) := do
  let s ← swapAxes t axes
  pure (s.shape.drop (s.rank - 2))

/-- One cut of `reconstruct`, `packets.py:480-526` (lines 514-518 and 519-523): drop the last sample along the
dimension `-k` if there is one more than in the node. -/
def cutDim [Zero R] (k : Nat) (r old : Tensor R) : Except Err (Tensor R) :=
  if r.sizeFromEnd k = old.sizeFromEnd k then .ok r
  else if r.sizeFromEnd k = old.sizeFromEnd k + 1 then .ok (r.slice (r.rank - k) 0 (r.sizeFromEnd k - 1))
  else .error .assertionError

/-- The cut of `reconstruct`, `packets.py:480-526` (lines 512-524). -/
def fit2 [Zero R] (axes : List Int) (r old : Tensor R) : Except Err (Tensor R) := do
  let r ← swapAxes r axes
  let old ← swapAxes old axes
  let r ← cutDim 1 r old
  let r ← cutDim 2 r old
  undoSwapAxes r axes

/-- `pywt.dwt_max_level(min(_swap_axes(data, self.axes).shape[-2:]), self.wavelet.dec_len)`,
`packets.py:436-467` and `packets.py:480-526` (lines 492-493). -/
def packetLevel2 [Zero R] (w : Wavelet R) (axes : List Int) (t : Tensor R) : Except Err Int := do
  let ns ← planeSizes axes t
  let l ← dwtMaxLevel (min (ns.getD 0 0) (ns.getD 1 0)) w.len
  pure l

/-- The unpacking `result_a, (result_h, result_v, result_d) = result` of `_expand_node`,
`packets.py:528-539`. -/
def unpack2 [Zero R] (c : Coeffs R) : Except Err (List (Tensor R)) :=
  match c.items with
  | [.tensor a, .tuple h v d] => .ok [a, h, v, d]
  | [_, _] => .error .valueError
  | _ => .error .assertionError

/-- `_transform_fsdict_to_tuple_func`, `packets.py:594-609`, followed by the unpacking in `_expand_node`,
`packets.py:528-539`. -/
def unpackFsdict [Zero R] (c : Coeffs R) : Except Err (List (Tensor R)) :=
  match c.items with
  | [.tensor a, .dict kv] => do
    let h ← dictGet kv "ad"
    let v ← dictGet kv "da"
    let d ← dictGet kv "dd"
    pure [a, h, v, d]
  | [_, _] => .error .typeError
  | _ => .error .assertionError

/-- `_expand_node`, `packets.py:528-539`, with the transform of `_get_wavedec`, `packets.py:541-572`, for a padding
mode. -/
def packetDec2 [NonUnitalNonAssocSemiring R] (w : Wavelet R) (mode : Option String) (axes : List Int)
    (separable : Bool) (t : Tensor R) : Except Err (List (Tensor R)) := do
  let _ ← planeSizes axes t
  if separable then do
    let c ← fswavedec2 t w mode (some 1) (.seq axes)
    unpackFsdict c
  else do
    let c ← wavedec2 t w mode (some 1) (.seq axes)
    unpack2 c

/-- The synthesis step of `reconstruct`, `packets.py:480-526` (lines 503-510), with the transform of
`_get_waverec`, `packets.py:574-592`, for a padding mode, and `_transform_tuple_to_fsdict_func`,
`packets.py:611-620`; there are always four children. -/
def packetSyn2 [NonUnitalNonAssocSemiring R] (w : Wavelet R) (axes : List Int) (separable : Bool)
    (ts : List (Tensor R)) : Except Err (Tensor R) :=
  match ts with
  | [a, h, v, d] => do
    let _ ← planeSizes axes a
    if separable then
      (fswaverec2 ⟨false, [.tensor a, .dict [("ad", h), ("da", v), ("dd", d)]]⟩ w (.seq axes)).1
    else waverec2 ⟨false, [.tensor a, .tuple h v d]⟩ w (.seq axes)
  | _ => .error .valueError

/-- `WaveletPacket2D`, `packets.py:362-771`, with `mode != "boundary"`: nothing is cached.  `axes` is
`self.axes`, the checked axis argument, line 424. -/
def packet2 [NonUnitalNonAssocSemiring R] (w : Wavelet R) (mode : Option String) (axes : List Int)
    (separable : Bool) : Backend Unit (Tensor R) where
  alphabet := ['a', 'h', 'v', 'd']
  nodes := getNaturalOrder2
  dec := fun _ t => (packetDec2 w mode axes separable t, ())
  syn := fun _ ts => (packetSyn2 w axes separable ts, ())
  fit := fit2 axes
  defaultLevel := packetLevel2 w axes

/-! ### Boundary matrices -/

/-- A `MatrixWavedec2` object as callable, with the unpacking of its result. -/
def decObj2 [Field R] [DecidableEq R] (la : LinAlg R) (s : DecCfgN R × DecStateN R) (x : Tensor R) :
    Except Err (Coeffs R) × (DecCfgN R × DecStateN R) :=
  ((decCallN 2 la s.1 s.2 x).1, (s.1, (decCallN 2 la s.1 s.2 x).2))

/-- A `MatrixWaverec2` object as callable. -/
def recObj2 [Field R] [DecidableEq R] (la : LinAlg R) (s : RecCfgN R × RecStateN R) (c : Coeffs R) :
    Except Err (Tensor R) × (RecCfgN R × RecStateN R) :=
  ((recCallN 2 la s.1 s.2 c).1, (s.1, (recCallN 2 la s.1 s.2 c).2))

/-- `matrix_wavedec2_dict` and `matrix_waverec2_dict`, `packets.py:422-423`. -/
structure MatCache2 (R : Type) where
  decs : PMap (List Nat) (DecCfgN R × DecStateN R)
  recs : PMap (List Nat) (RecCfgN R × RecStateN R)

/-- `_expand_node`, `packets.py:528-539`, with the transform of `_get_wavedec`, `packets.py:541-572`, for
`mode = "boundary"`. -/
def packetMatDec2 [Field R] [DecidableEq R] (la : LinAlg R) (w : Wavelet R) (orth : String) (axes : List Int)
    (separable : Bool) (c : MatCache2 R) (t : Tensor R) : Except Err (List (Tensor R)) × MatCache2 R :=
  match planeSizes axes t with
  | .error e => (.error e, c)
  | .ok ns =>
    let r := callKeyed (decInitN 2 w (some 1) (.seq axes) orth separable (some "zero")) (decObj2 la) c.decs ns t
    (r.1.bind unpack2, { c with decs := r.2 })

/-- The synthesis step of `reconstruct`, `packets.py:480-526` (lines 503-510), with the transform of
`_get_waverec`, `packets.py:574-592`, for `mode = "boundary"`. -/
def packetMatSyn2 [Field R] [DecidableEq R] (la : LinAlg R) (w : Wavelet R) (orth : String) (axes : List Int)
    (separable : Bool) (c : MatCache2 R) (ts : List (Tensor R)) : Except Err (Tensor R) × MatCache2 R :=
  match ts with
  | [a, h, v, d] =>
    match planeSizes axes a with
    | .error e => (.error e, c)
    | .ok ns =>
      let r := callKeyed (recInitN 2 w (.seq axes) orth separable) (recObj2 la) c.recs ns
        ⟨false, [.tensor a, .tuple h v d]⟩
      (r.1, { c with recs := r.2 })
  | _ => (.error .valueError, c)

/-- `WaveletPacket2D`, `packets.py:362-771`, with `mode = "boundary"`. -/
def packetMat2 [Field R] [DecidableEq R] (la : LinAlg R) (w : Wavelet R) (orth : String) (axes : List Int)
    (separable : Bool) : Backend (MatCache2 R) (Tensor R) where
  alphabet := ['a', 'h', 'v', 'd']
  nodes := getNaturalOrder2
  dec := packetMatDec2 la w orth axes separable
  syn := packetMatSyn2 la w orth axes separable
  fit := fit2 axes
  defaultLevel := packetLevel2 w axes

/-- The dictionaries of a new object, `packets.py:422-423`. -/
def MatCache2.empty : MatCache2 R := ⟨fun _ => none, fun _ => none⟩

/-! ### Constructors -/

/-- The argument checks of `WaveletPacket.__init__`, `packets.py:71-147` (lines 136-141): the value of
`self.axis`. -/
def packetInit1 (axes : AxisHint) (orth : String) : Except Err Int :=
  match ensureAxes axes 1 with
  | .error e => .error e
  | .ok as =>
    if isOrthogonalizeMethodSupported orth = false then .error .notImplementedError
    else .ok (as.headD 0)

/-- The argument checks of `WaveletPacket2D.__init__`, `packets.py:370-434` (lines 424-428): the value of
`self.axes`. -/
def packetInit2 (axes : AxisHint) (orth : String) : Except Err (List Int) :=
  match ensureAxes axes 2 with
  | .error e => .error e
  | .ok as => if isOrthogonalizeMethodSupported orth = false then .error .notImplementedError else .ok as

end Verif
