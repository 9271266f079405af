/-
Model of src/ptwt/stationary_transform.py.
-/
import Verif.Model.Conv1
import Verif.Torch.Conv1g

namespace Verif
open Tensor
variable {R : Type}

/-- the loop of `_circular_pad`, `stationary_transform.py:24-53` (lines 40-51); `n` is
`trailing_dimension`, the size before any padding.  The first argument bounds the number of rounds;
running out of it (only possible for `n = 0`, where Python loops forever) is modelled as a
RecursionError. -/
def circularPadLoop [NonUnitalNonAssocSemiring R] (n : Nat) :
    Nat → Tensor R → List Nat → Except Err (Tensor R)
  | 0, _, _ => .error .recursionError
  | fuel + 1, x, pads =>
    if pads.any (fun p => 0 < p) then do
      let x ← x.pad .circular (pads.map fun p => min n p)
      circularPadLoop n fuel x (pads.map fun p => p - n)
    else .ok x

/-- `_circular_pad`, `stationary_transform.py:24-53`.  (`max(p - n, 0)` is natural subtraction.) -/
def circularPad [NonUnitalNonAssocSemiring R] (x : Tensor R) (pads : List Nat) :
    Except Err (Tensor R) :=
  let n := x.sizeFromEnd 1
  if pads.any (fun p => n < p) then circularPadLoop n (pads.sum + 1) x pads
  else x.pad .circular pads

/-- The loop of `swt`, `stationary_transform.py:56-110` (lines 96-105): `s` is `current_level`, the
first argument the number of remaining iterations.  Returns the last `res_lo` and the details in the
order they were appended.  Filter length `F ≥ 2` (`F // 2 - 1` is negative otherwise). -/
def swtLoop [NonUnitalNonAssocSemiring R] (filt : Tensor R) (F : Nat) :
    Nat → Nat → Tensor R → Except Err (Tensor R × List (Tensor R))
  | 0, _, resLo => .ok (resLo, [])
  | L + 1, s, resLo => do
    let p ← circularPad resLo [2 ^ s * (F / 2 - 1), 2 ^ s * (F / 2)]
    let res ← conv1d p filt 1 (2 ^ s)
    match split1 res with
    | [lo, hi] => do
      let r ← swtLoop filt F L (s + 1) lo
      pure (r.1, hi.squeeze1 :: r.2)
    | _ => .error .valueError   -- unpacking error

/-- the level default of `swt`, `stationary_transform.py:56-110` (lines 91-92); `range(level)` is
empty for negative levels. -/
def swtLevel (level : Option Int) (n : Nat) : Nat :=
  match level with
  | some l => l.toNat
  | none => swtMaxLevel n

/-- `swt`, `stationary_transform.py:56-110`. -/
def swt [NonUnitalNonAssocSemiring R] (data : Tensor R) (w : Wavelet R) (level : Option Int)
    (axis : AxisHint) : Except Err (List (Tensor R)) := do
  let p ← preprocessTensor data 1 axis true
  let filt ← stack0 [createTensor w.decLo true p.1.md, createTensor w.decHi true p.1.md]
  let r ← swtLoop filt w.decLo.length (swtLevel level (p.1.sizeFromEnd 1)) 0 p.1
  let c ← postprocessCoeffs (Coeffs.ofList (assemble r)) 1 p.2 axis
  pure c.toList

/-- The loop of `iswt`, `stationary_transform.py:113-160` (lines 143-156): the second list holds the
remaining details, so `len(coeffs[1:]) - c_pos - 1` is the length of its tail. -/
def iswtLoop [Semiring R] [Div R] (filt : Tensor R) (F : Nat) :
    Tensor R → List (Tensor R) → Except Err (Tensor R)
  | resLo, [] => .ok resLo
  | resLo, hi :: rest => do
    let st ← stack1 [resLo, hi]
    let p ← circularPad st [2 ^ rest.length * (F / 2), 2 ^ rest.length * (F / 2 - 1)]
    let y ← convTranspose1dG p filt (2 ^ rest.length)
      (2 ^ rest.length * (F / 2) + 2 ^ rest.length * (F / 2 - 1))
    let r ← mean1 y
    iswtLoop filt F r rest

/-- `iswt`, `stationary_transform.py:113-160`. -/
def iswt [Semiring R] [Div R] (coeffs : List (Tensor R)) (w : Wavelet R) (axis : AxisHint) :
    Except Err (Tensor R) := do
  let p ← preprocessCoeffs (Coeffs.ofList coeffs) 1 axis false
  let md ← checkSameDeviceDtype p.1
  let filt ← stack0 [createTensor w.recLo false md, createTensor w.recHi false md]
  match p.1.toList with
  | [] => .error .indexError
  | lo :: his => do
    let r ← iswtLoop filt w.recLo.length lo his
    postprocessTensor r 1 p.2 axis

end Verif
