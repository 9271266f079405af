/-
Model of `WaveletPacket` of src/ptwt/packets.py with a padding mode (the sparse-matrix mode
`boundary` is modelled in Model/PacketMat.lean).
-/
import Verif.Model.Packets
import Verif.Model.Conv1

namespace Verif
open Tensor
variable {R : Type}

/-- `t.shape[a]` for a possibly negative axis. -/
def sizeAt [Zero R] (t : Tensor R) (a : Int) : Except Err Nat :=
  match normAxis t.rank a with
  | .ok k => .ok (t.shape.getD k 0)
  | .error e => .error e

/-- the cut in `reconstruct`, `packets.py:190-238` (lines 228-236): swap the axis to the end, drop the
last sample, swap back. -/
def fit1 [Zero R] (axis : Int) (r old : Tensor R) : Except Err (Tensor R) := do
  let n ← sizeAt r axis
  let m ← sizeAt old axis
  let a ← normAxis r.rank axis
  if n = m then pure r
  else if n = m + 1 then
    pure (((r.transpose a (r.rank - 1)).slice (r.rank - 1) 0 (n - 1)).transpose (r.rank - 1) a)
  else .error .assertionError

/-- `self._get_wavedec(data.shape[self.axis])(data)`, `packets.py:312-316` and `packets.py:240-256`. -/
def packetDec1 [NonUnitalNonAssocSemiring R] (w : Wavelet R) (mode : Option String) (axis : Int)
    (t : Tensor R) : Except Err (List (Tensor R)) := do
  let _ ← sizeAt t axis
  wavedec t w mode (some 1) (.int axis)

/-- `self._get_waverec(data_a.shape[self.axis])([data_a, data_d])`, `packets.py:190-238` and
`packets.py:258-272`. -/
def packetSyn1 [NonUnitalNonAssocSemiring R] (w : Wavelet R) (axis : Int) (ts : List (Tensor R)) :
    Except Err (Tensor R) :=
  match ts with
  | [] => .error .valueError
  | t :: _ => do
    let _ ← sizeAt t axis
    waverec ts w (.int axis)

/-- `pywt.dwt_max_level(data.shape[self.axis], self.wavelet.dec_len)`, `packets.py:149-177`. -/
def packetLevel1 [Zero R] (w : Wavelet R) (axis : Int) (t : Tensor R) : Except Err Int := do
  let n ← sizeAt t axis
  let l ← dwtMaxLevel n w.len
  pure l

/-- `WaveletPacket`, `packets.py:67-359`, with `mode != "boundary"`: nothing is cached. `axis` is
`self.axis`, the single axis of the (checked) axis argument, line 136. -/
def packet1 [NonUnitalNonAssocSemiring R] (w : Wavelet R) (mode : Option String) (axis : Int) :
    Backend Unit (Tensor R) where
  alphabet := ['a', 'd']
  nodes := fun l => getGraycodeOrder l 'a' 'd'
  dec := fun _ t => (packetDec1 w mode axis t, ())
  syn := fun _ ts => (packetSyn1 w axis ts, ())
  fit := fit1 axis
  defaultLevel := packetLevel1 w axis

end Verif
