/-
Model of src/ptwt/conv_transform.py.
-/
import Verif.Model.Util
import Verif.Model.Pywt

namespace Verif
open Tensor
variable {R : Type}

/-- The loop of `wavedec`, `conv_transform.py:69-143`: returns the final `res_lo` and the details
in the order they were appended (finest first). -/
def wavedecLoop [NonUnitalNonAssocSemiring R] (w : Wavelet R) (mode : Option String)
    (filt : Tensor R) : Nat → Tensor R → Except Err (Tensor R × List (Tensor R))
  | 0, resLo => .ok (resLo, [])
  | L + 1, resLo => do
    let p ← fwtPad resLo w mode 1
    let res ← conv1d p filt 2 1
    match split1 res with
    | [lo, hi] => do
      let r ← wavedecLoop w mode filt L lo
      pure (r.1, hi.squeeze1 :: r.2)
    | _ => .error .valueError   -- unpacking error

/-- The list assembled at `conv_transform.py:133-136`: details reversed, approximation first. -/
def assemble [Zero R] (r : Tensor R × List (Tensor R)) : List (Tensor R) :=
  (r.2 ++ [r.1.squeeze1]).reverse

/-- the level default of `wavedec`, `conv_transform.py:69-143` (lines 121-123).  `range(level)` is
empty for negative levels. -/
def resolveLevel (level : Option Int) (n F : Nat) : Except Err Nat :=
  match level with
  | some l => .ok l.toNat
  | none => dwtMaxLevel n F

/-- `wavedec`, `conv_transform.py:69-143`.  `range(level)` is empty for negative levels. -/
def wavedec [NonUnitalNonAssocSemiring R] (data : Tensor R) (w : Wavelet R)
    (mode : Option String) (level : Option Int) (axis : AxisHint) :
    Except Err (List (Tensor R)) := do
  let p ← preprocessDeconstruction data w 1 axis
  let level ← resolveLevel level (p.1.sizeFromEnd 1) w.len
  let r ← wavedecLoop w mode p.2.2 level p.1
  let c ← postprocessCoeffs (Coeffs.ofList (assemble r)) 1 p.2.1 axis
  pure c.toList

/-- the pads `(padr, padl)` removed by one step of `waverec`, `conv_transform.py:146-204` (lines
191-196); `rest` are the details of the following steps.
Simplification: at least two taps (for one tap the pads of the code are negative). -/
def recPads [Zero R] (F : Nat) (r : Tensor R) (rest : List (Tensor R)) : Except Err (Nat × Nat) :=
  match rest with
  | [] => .ok ((2 * F - 3) / 2, (2 * F - 3) / 2)
  | next :: _ =>
    adjustPadding (r.sizeFromEnd 1) (next.sizeFromEnd 1) ((2 * F - 3) / 2) ((2 * F - 3) / 2)

/-- The loop of `waverec`, `conv_transform.py:146-204`: `resLo` is the current approximation, the
list the remaining details; `coeffs[c_pos + 2]` is the head of what remains after this step. -/
def waverecLoop [NonUnitalNonAssocSemiring R] (filt : Tensor R) (F : Nat) :
    Tensor R → List (Tensor R) → Except Err (Tensor R)
  | resLo, [] => .ok resLo
  | resLo, hi :: rest => do
    let st ← stack1 [resLo, hi]
    let r ← convTranspose1d st filt 2
    let p ← recPads F r.squeeze1 rest
    waverecLoop filt F (cropAxis r.squeeze1 (r.squeeze1.rank - 1) p.2 p.1) rest

/-- `waverec`, `conv_transform.py:146-204`. -/
def waverec [NonUnitalNonAssocSemiring R] (coeffs : List (Tensor R)) (w : Wavelet R)
    (axis : AxisHint) : Except Err (Tensor R) := do
  let p ← preprocessCoeffs (Coeffs.ofList coeffs) 1 axis false
  let md ← checkSameDeviceDtype p.1
  let filt ← stack0 [createTensor w.recLo false md, createTensor w.recHi false md]
  match p.1.toList with
  | [] => .error .indexError
  | lo :: his => do
    let r ← waverecLoop filt w.recLo.length lo his
    postprocessTensor r 1 p.2 axis

end Verif
