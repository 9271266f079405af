/-
Model of src/ptwt/conv_transform_3.py.
-/
import Verif.Model.Conv2

namespace Verif
open Tensor
variable {R : Type}

/-- the channel axis added at the start of every step of `wavedec3`, `conv_transform_3.py:76-145`
(lines 124-125). -/
def ensureChannel3 [Zero R] (t : Tensor R) : Except Err (Tensor R) :=
  if t.rank = 4 then t.unsqueeze1 else .ok t

/-- The loop of `wavedec3`, `conv_transform_3.py:76-145`: returns the final `res_lll` and the detail
dictionaries in the order they were appended (finest first). -/
def wavedec3Loop [NonUnitalNonAssocSemiring R] (w : Wavelet R) (mode : Option String)
    (filt : Tensor R) : Nat → Tensor R → Except Err (Tensor R × List (Entry R))
  | 0, lll => .ok (lll, [])
  | L + 1, lll => do
    let t ← ensureChannel3 lll
    let p ← fwtPad t w mode 3
    let res ← conv3d p filt 2
    match (split1 res).map Tensor.squeeze1 with
    | [lll, llh, lhl, lhh, hll, hlh, hhl, hhh] => do
      let r ← wavedec3Loop w mode filt L lll
      pure (r.1, .dict [("aad", llh), ("ada", lhl), ("add", lhh), ("daa", hll), ("dad", hlh),
        ("dda", hhl), ("ddd", hhh)] :: r.2)
    | _ => .error .valueError   -- unpacking error

/-- `wavedec3`, `conv_transform_3.py:76-145`. -/
def wavedec3 [NonUnitalNonAssocSemiring R] (data : Tensor R) (w : Wavelet R)
    (mode : Option String) (level : Option Int) (axes : AxisHint) : Except Err (Coeffs R) := do
  let p ← preprocessDeconstruction data w 3 axes
  let level ← resolveLevelN level [p.1.sizeFromEnd 1, p.1.sizeFromEnd 2, p.1.sizeFromEnd 3] w.len
  let r ← wavedec3Loop w mode p.2.2 level p.1
  postprocessCoeffs ⟨false, .tensor r.1 :: r.2.reverse⟩ 3 p.2.1 axes

/-- `d[key]` for an insertion-ordered dictionary with distinct keys. -/
def dictGet [Zero R] (kv : List (String × Tensor R)) (key : String) : Except Err (Tensor R) :=
  match kv.find? fun p => p.1 = key with
  | some p => .ok p.2
  | none => .error .keyError

/-- the tensor `coeff_dicts[c_pos + 1]["aad"]` in the loop of `waverec3`,
`conv_transform_3.py:148-251` (lines 228-237).  Indexing a tuple or a tensor with a string is a
TypeError (IndexError for a tensor, merged here). -/
def nextRef3 [Zero R] : Entry R → Except Err (Tensor R)
  | .dict kv => dictGet kv "aad"
  | _ => .error .typeError

/-- the pads `(end, start)` of the last, second last and third last axis in one step of `waverec3`,
`conv_transform_3.py:148-251` (lines 222-237).
Simplification: at least two taps (for one tap the pads of the code are negative). -/
def recPads3 [Zero R] (F : Nat) (r : Tensor R) (rest : List (Entry R)) :
    Except Err ((Nat × Nat) × (Nat × Nat) × (Nat × Nat)) :=
  match rest with
  | [] => .ok (((2 * F - 3) / 2, (2 * F - 3) / 2), ((2 * F - 3) / 2, (2 * F - 3) / 2),
      ((2 * F - 3) / 2, (2 * F - 3) / 2))
  | next :: _ => do
    let t ← nextRef3 next
    let x ← adjustPadding (r.sizeFromEnd 1) (t.sizeFromEnd 1) ((2 * F - 3) / 2) ((2 * F - 3) / 2)
    let y ← adjustPadding (r.sizeFromEnd 2) (t.sizeFromEnd 2) ((2 * F - 3) / 2) ((2 * F - 3) / 2)
    let z ← adjustPadding (r.sizeFromEnd 3) (t.sizeFromEnd 3) ((2 * F - 3) / 2) ((2 * F - 3) / 2)
    pure (x, y, z)

/-- the crops of one step of `waverec3`, `conv_transform_3.py:148-251` (lines 238-249). -/
def crop3 [Zero R] (r : Tensor R) (p : (Nat × Nat) × (Nat × Nat) × (Nat × Nat)) : Tensor R :=
  cropAxis (cropAxis (cropAxis r (r.rank - 2) p.2.1.2 p.2.1.1) (r.rank - 1) p.1.2 p.1.1)
    (r.rank - 3) p.2.2.2 p.2.2.1

/-- the eight bands stacked by one step of `waverec3`, `conv_transform_3.py:148-251`
(lines 205-217). -/
def bands3 [Zero R] (lll : Tensor R) (kv : List (String × Tensor R)) :
    Except Err (List (Tensor R)) := do
  let aad ← dictGet kv "aad"
  let ada ← dictGet kv "ada"
  let add ← dictGet kv "add"
  let daa ← dictGet kv "daa"
  let dad ← dictGet kv "dad"
  let dda ← dictGet kv "dda"
  let ddd ← dictGet kv "ddd"
  pure [lll, aad, ada, add, daa, dad, dda, ddd]

/-- One step of the loop of `waverec3`, `conv_transform_3.py:148-251` (lines 194-249). -/
def waverec3Step [NonUnitalNonAssocSemiring R] (filt : Tensor R) (F : Nat) (lll : Tensor R)
    (e : Entry R) (rest : List (Entry R)) : Except Err (Tensor R) :=
  match e with
  | .dict kv =>
    if kv.length = 7 ∧ ∀ p ∈ kv, p.2.shape = lll.shape then do
      let bs ← bands3 lll kv
      let st ← stack1 bs
      let r ← convTranspose3d st filt 2
      let p ← recPads3 F r.squeeze1 rest
      pure (crop3 r.squeeze1 p)
    else .error .valueError
  | _ => .error .valueError

/-- The loop of `waverec3`, `conv_transform_3.py:148-251`. -/
def waverec3Loop [NonUnitalNonAssocSemiring R] (filt : Tensor R) (F : Nat) :
    Tensor R → List (Entry R) → Except Err (Tensor R)
  | lll, [] => .ok lll
  | lll, e :: rest => do
    let r ← waverec3Step filt F lll e rest
    waverec3Loop filt F r rest

/-- `waverec3`, `conv_transform_3.py:148-251`. -/
def waverec3 [NonUnitalNonAssocSemiring R] (coeffs : Coeffs R) (w : Wavelet R)
    (axes : AxisHint) : Except Err (Tensor R) := do
  let p ← preprocessCoeffs coeffs 3 axes false
  let md ← checkSameDeviceDtype p.1
  let filt ← construct3dFilt (createTensor w.recLo false md) (createTensor w.recHi false md)
  let lll ← headTensor p.1
  let r ← waverec3Loop filt w.recLo.length lll p.1.items.tail
  postprocessTensor r 3 p.2 axes

end Verif
