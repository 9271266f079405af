/-
Model of `generate_frequency_packet_image` in examples/deepfake_analysis/packet_plot.py: the packets of a level, given in
natural order, as one image in frequency order.  Numpy arrays are modelled as tensors.
-/
import Verif.Model.PacketOrder

namespace Verif
open Tensor
variable {R : Type}

/-- `packet_array[index]` with a non-negative index, `examples/deepfake_analysis/packet_plot.py:32`: IndexError for arrays
without axes and behind the end. -/
def selectFirst [Zero R] (t : Tensor R) (k : Nat) : Except Err (Tensor R) :=
  match t.shape with
  | [] => .error .indexError
  | n :: s => if k < n then .ok (ofFn t.md s fun i => t.get (k :: i)) else .error .indexError

/-- The work of `np.concatenate` along axis `a`, called at `examples/deepfake_analysis/packet_plot.py:34-35`: ValueError if
the other sizes differ. -/
def npConcatGo [Zero R] (a : Nat) : Tensor R → List (Tensor R) → Except Err (Tensor R)
  | t, [] => .ok t
  | t, u :: us =>
    match cat2 t u a with
    | .error _ => .error .valueError
    | .ok r => npConcatGo a r us

/-- `np.concatenate(ts, -1)`, `examples/deepfake_analysis/packet_plot.py:34`: ValueError for the empty list and for arrays
without axes. -/
def npConcatLast [Zero R] : List (Tensor R) → Except Err (Tensor R)
  | [] => .error .valueError
  | t :: ts => if t.rank = 0 then .error .valueError else npConcatGo (t.rank - 1) t ts

/-- `np.concatenate(ts, 0)`, `examples/deepfake_analysis/packet_plot.py:35`; errors as for `npConcatLast`. -/
def npConcatFirst [Zero R] : List (Tensor R) → Except Err (Tensor R)
  | [] => .error .valueError
  | t :: ts => if t.rank = 0 then .error .valueError else npConcatGo 0 t ts

/-- `packet_array[wp_natural_path.index(row_path)]`, `examples/deepfake_analysis/packet_plot.py:31-32`: ValueError if the
path is not in the list. -/
def packetOfPath [Zero R] (packets : Tensor R) (natural : List Key) (path : Key) : Except Err (Tensor R) :=
  match natural.idxOf? path with
  | none => .error .valueError
  | some k => selectFirst packets k

/-- one pass of the outer loop, `examples/deepfake_analysis/packet_plot.py:28-34`. -/
def packetRow [Zero R] (packets : Tensor R) (natural : List Key) (paths : List Key) : Except Err (Tensor R) := do
  let row ← paths.mapM (packetOfPath packets natural)
  npConcatLast row

/-- `generate_frequency_packet_image`, `examples/deepfake_analysis/packet_plot.py:13-35` (non-negative degrees). -/
def generateFrequencyPacketImage [Zero R] (packets : Tensor R) (degree : Nat) : Except Err (Tensor R) := do
  let image ← (getFreqOrder2 degree).mapM (packetRow packets (getNaturalOrder2 degree))
  npConcatFirst image

end Verif
