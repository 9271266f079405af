/-
Model of `WaveletPacket` of src/ptwt/packets.py with `mode="boundary"`: every node is expanded by a
`MatrixWavedec` and rebuilt by a `MatrixWaverec` object, kept in dictionaries keyed by the length of the
node.
-/
import Verif.Model.Packet1
import Verif.Model.Mat1

namespace Verif
open Tensor
variable {R : Type}

/-- `if key not in d.keys(): d[key] = Constructor(…)` followed by a call of `d[key]`, which may change the
object; `packets.py:240-256`, `packets.py:258-272`, `packets.py:541-572`, `packets.py:574-592`.  If the
constructor raises, nothing is stored. -/
def callKeyed {K S α β : Type} [DecidableEq K] (mk : Except Err S) (call : S → α → Except Err β × S)
    (d : PMap K S) (key : K) (arg : α) : Except Err β × PMap K S :=
  match d key with
  | some s => ((call s arg).1, d.set key (call s arg).2)
  | none =>
    match mk with
    | .error e => (.error e, d)
    | .ok s => ((call s arg).1, d.set key (call s arg).2)

/-- A `MatrixWavedec` object as callable. -/
def decObj [Field R] [DecidableEq R] (la : LinAlg R) (s : DecCfg R × DecState R) (x : Tensor R) :
    Except Err (List (Tensor R)) × (DecCfg R × DecState R) :=
  ((decCall la s.1 s.2 x).1, (s.1, (decCall la s.1 s.2 x).2))

/-- A `MatrixWaverec` object as callable. -/
def recObj [Field R] [DecidableEq R] (la : LinAlg R) (s : RecCfg R × RecState R) (cs : List (Tensor R)) :
    Except Err (Tensor R) × (RecCfg R × RecState R) :=
  ((recCall la s.1 s.2 cs).1, (s.1, (recCall la s.1 s.2 cs).2))

/-- `_matrix_wavedec_dict` and `_matrix_waverec_dict`, `packets.py:133-134`. -/
structure MatCache1 (R : Type) where
  decs : PMap Nat (DecCfg R × DecState R)
  recs : PMap Nat (RecCfg R × RecState R)

/-- The unpacking `res_lo, res_hi = …` of `_expand_node`, `packets.py:312-316`: another number of
coefficients (a node shorter than the filters is returned as it is) is a ValueError. -/
def unpackPair {T : Type} (r : Except Err (List T)) : Except Err (List T) :=
  match r with
  | .error e => .error e
  | .ok vs => if vs.length = 2 then .ok vs else .error .valueError

/-- `self._get_wavedec(data.shape[self.axis])(data)` and the unpacking of the result,
`packets.py:312-316` and `packets.py:240-256`. -/
def packetMatDec1 [Field R] [DecidableEq R] (la : LinAlg R) (w : Wavelet R) (orth : String) (axis : Int)
    (c : MatCache1 R) (t : Tensor R) : Except Err (List (Tensor R)) × MatCache1 R :=
  match sizeAt t axis with
  | .error e => (.error e, c)
  | .ok n =>
    let r := callKeyed (decInit w (some 1) (.int axis) orth (some "zero")) (decObj la) c.decs n t
    (unpackPair r.1, { c with decs := r.2 })

/-- `self._get_waverec(data_a.shape[self.axis])([data_a, data_d])`, `packets.py:190-238` and
`packets.py:258-272`; there are always two children. -/
def packetMatSyn1 [Field R] [DecidableEq R] (la : LinAlg R) (w : Wavelet R) (orth : String) (axis : Int)
    (c : MatCache1 R) (ts : List (Tensor R)) : Except Err (Tensor R) × MatCache1 R :=
  match ts with
  | [a, d] =>
    match sizeAt a axis with
    | .error e => (.error e, c)
    | .ok n =>
      let r := callKeyed (recInit w (.int axis) orth) (recObj la) c.recs n [a, d]
      (r.1, { c with recs := r.2 })
  | _ => (.error .valueError, c)

/-- `WaveletPacket`, `packets.py:67-359`, with `mode = "boundary"`. -/
def packetMat1 [Field R] [DecidableEq R] (la : LinAlg R) (w : Wavelet R) (orth : String) (axis : Int) :
    Backend (MatCache1 R) (Tensor R) where
  alphabet := ['a', 'd']
  nodes := fun l => getGraycodeOrder l 'a' 'd'
  dec := packetMatDec1 la w orth axis
  syn := packetMatSyn1 la w orth axis
  fit := fit1 axis
  defaultLevel := packetLevel1 w axis

/-- The dictionaries of a new object, `packets.py:133-134`. -/
def MatCache1.empty : MatCache1 R := ⟨fun _ => none, fun _ => none⟩

end Verif
