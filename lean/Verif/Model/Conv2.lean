/-
Model of src/ptwt/conv_transform_2.py.
-/
import Verif.Model.Util
import Verif.Model.Pywt

namespace Verif
open Tensor
variable {R : Type}

/-- the level default of `wavedec2`, `conv_transform_2.py:74-157` (lines 137-138), and of `wavedec3`,
`conv_transform_3.py:76-145` (lines 116-119).  `range(level)` is empty for negative levels. -/
def resolveLevelN (level : Option Int) (ns : List Nat) (F : Nat) : Except Err Nat :=
  match level with
  | some l => .ok l.toNat
  | none => dwtnMaxLevel ns F

/-- The loop of `wavedec2`, `conv_transform_2.py:74-157`: returns the final `res_ll` and the detail
tuples in the order they were appended (finest first). -/
def wavedec2Loop [NonUnitalNonAssocSemiring R] (w : Wavelet R) (mode : Option String)
    (filt : Tensor R) : Nat → Tensor R → Except Err (Tensor R × List (Entry R))
  | 0, ll => .ok (ll, [])
  | L + 1, ll => do
    let p ← fwtPad ll w mode 2
    let res ← conv2d p filt 2
    match split1 res with
    | [ll, lh, hl, hh] => do
      let r ← wavedec2Loop w mode filt L ll
      pure (r.1, .tuple lh.squeeze1 hl.squeeze1 hh.squeeze1 :: r.2)
    | _ => .error .valueError   -- unpacking error

/-- The tuple assembled at the end of `wavedec2`, `conv_transform_2.py:74-157` (lines 151-153). -/
def assemble2 [Zero R] (r : Tensor R × List (Entry R)) : Coeffs R :=
  ⟨false, .tensor r.1.squeeze1 :: r.2.reverse⟩

/-- `wavedec2`, `conv_transform_2.py:74-157`. -/
def wavedec2 [NonUnitalNonAssocSemiring R] (data : Tensor R) (w : Wavelet R)
    (mode : Option String) (level : Option Int) (axes : AxisHint) : Except Err (Coeffs R) := do
  let p ← preprocessDeconstruction data w 2 axes
  let level ← resolveLevelN level [p.1.sizeFromEnd 1, p.1.sizeFromEnd 2] w.len
  let r ← wavedec2Loop w mode p.2.2 level p.1
  postprocessCoeffs (assemble2 r) 2 p.2.1 axes

/-- the tensor `coeffs[c_pos + 2][0]` in the loop of `waverec2`, `conv_transform_2.py:160-253`
(lines 234-240), used for its last two sizes only.  For a detail which is a tensor (malformed input)
`t[0]` has the last two sizes of `t`; indexing a dict with 0 is a KeyError. -/
def nextRef2 [Zero R] : Entry R → Except Err (Tensor R)
  | .tuple h _ _ => .ok h
  | .tensor t => .ok t
  | .dict _ => .error .keyError
  | .other => .error .typeError

/-- the pads of one step of `waverec2`, `conv_transform_2.py:160-253` (lines 230-240):
`((padr, padl), (padb, padt))`; `rest` are the details of the following steps.
Simplification: at least two taps (for one tap the pads of the code are negative). -/
def recPads2 [Zero R] (F : Nat) (r : Tensor R) (rest : List (Entry R)) :
    Except Err ((Nat × Nat) × (Nat × Nat)) :=
  match rest with
  | [] => .ok (((2 * F - 3) / 2, (2 * F - 3) / 2), ((2 * F - 3) / 2, (2 * F - 3) / 2))
  | next :: _ => do
    let t ← nextRef2 next
    let x ← adjustPadding (r.sizeFromEnd 1) (t.sizeFromEnd 1) ((2 * F - 3) / 2) ((2 * F - 3) / 2)
    let y ← adjustPadding (r.sizeFromEnd 2) (t.sizeFromEnd 2) ((2 * F - 3) / 2) ((2 * F - 3) / 2)
    pure (x, y)

/-- the crops of one step of `waverec2`, `conv_transform_2.py:160-253` (lines 242-249). -/
def crop2 [Zero R] (r : Tensor R) (p : (Nat × Nat) × (Nat × Nat)) : Tensor R :=
  cropAxis (cropAxis r (r.rank - 2) p.2.2 p.2.1) (r.rank - 1) p.1.2 p.1.1

/-- One step of the loop of `waverec2`, `conv_transform_2.py:160-253` (lines 209-249). -/
def waverec2Step [NonUnitalNonAssocSemiring R] (filt : Tensor R) (F : Nat) (ll : Tensor R)
    (e : Entry R) (rest : List (Entry R)) : Except Err (Tensor R) :=
  match e with
  | .tuple h v d =>
    if h.shape = ll.shape ∧ v.shape = ll.shape ∧ d.shape = ll.shape then do
      let st ← stack1 [ll, h, v, d]
      let r ← convTranspose2d st filt 2
      let p ← recPads2 F r.squeeze1 rest
      pure (crop2 r.squeeze1 p)
    else .error .valueError
  | _ => .error .valueError

/-- The loop of `waverec2`, `conv_transform_2.py:160-253`. -/
def waverec2Loop [NonUnitalNonAssocSemiring R] (filt : Tensor R) (F : Nat) :
    Tensor R → List (Entry R) → Except Err (Tensor R)
  | ll, [] => .ok ll
  | ll, e :: rest => do
    let r ← waverec2Step filt F ll e rest
    waverec2Loop filt F r rest

/-- `waverec2`, `conv_transform_2.py:160-253`. -/
def waverec2 [NonUnitalNonAssocSemiring R] (coeffs : Coeffs R) (w : Wavelet R)
    (axes : AxisHint) : Except Err (Tensor R) := do
  let p ← preprocessCoeffs coeffs 2 axes false
  let md ← checkSameDeviceDtype p.1
  let filt ← construct2dFilt (createTensor w.recLo false md) (createTensor w.recHi false md)
  let ll ← headTensor p.1
  let r ← waverec2Loop filt w.recLo.length ll p.1.items.tail
  postprocessTensor r 2 p.2 axes

end Verif
