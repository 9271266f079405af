/-
Model of src/ptwt/separable_conv_transform.py.
Dictionaries are insertion-ordered lists of key-value pairs with distinct keys.
-/
import Verif.Model.Conv1
import Verif.Model.Conv3

namespace Verif
open Tensor
variable {R : Type}

/-- `_separable_conv_dwtn_`, `separable_conv_transform.py:38-72`: the entries added to `rec_dict`, in
insertion order.  The first argument is `axis_total - len(key)`; `wavedec` keeps the number of axes, so
it decreases by one in every call. -/
def sepDwtn [NonUnitalNonAssocSemiring R] (w : Wavelet R) (mode : Option String) :
    Nat → String → Tensor R → Except Err (List (String × Tensor R))
  | 0, key, t => .ok [(key, t)]
  | n + 1, key, t => do
    let res ← wavedec t w mode (some 1) (.int (-((key.length : Int) + 1)))
    match res with
    | [resA, resD] => do
      let a ← sepDwtn w mode n ("a" ++ key) resA
      let d ← sepDwtn w mode n ("d" ++ key) resD
      pure (a ++ d)
    | _ => .error .valueError   -- unpacking error

/-- `int(np.log2(n / d))` for `n, d ≥ 1` as used for a number of levels, in exact arithmetic: a negative
logarithm truncates to a number `≤ 0`, which `range` treats as 0. -/
def truncLog2 (n d : Nat) : Nat := if n < d then 0 else Nat.log2 (n / d)

/-- the level default of `_separable_conv_wavedecn`, `separable_conv_transform.py:114-153`
(lines 140-144): an axis of length 0 gives `int(-inf)`, an OverflowError.  (The minimum is taken after the
truncation here, which makes no difference since truncation is monotone.) -/
def sepLevel (level : Option Int) (ns : List Nat) (F : Nat) : Except Err Nat :=
  match level with
  | some l => .ok l.toNat
  | none =>
    match ns with
    | [] => .error .valueError   -- min of an empty list
    | n :: ns =>
      if F = 1 then .error .zeroDivisionError
      else if 0 ∈ n :: ns then .error .overflowError
      else .ok ((ns.map fun n => truncLog2 n (F - 1)).foldl min (truncLog2 n (F - 1)))

/-- `level_dict.pop(key)`: the value and the remaining dictionary. -/
def dictPop [Zero R] (kv : List (String × Tensor R)) (key : String) :
    Except Err (Tensor R × List (String × Tensor R)) := do
  let t ← dictGet kv key
  pure (t, kv.filter fun p => p.1 ≠ key)

/-- `"a" * n`. -/
def aKey (n : Nat) : String := String.ofList (List.replicate n 'a')

/-- the body of the loop of `_separable_conv_wavedecn`, `separable_conv_transform.py:114-153`
(lines 146-151), for an input with `n` axes after the batch axis. -/
def sepStep [NonUnitalNonAssocSemiring R] (w : Wavelet R) (mode : Option String) (n : Nat)
    (approx : Tensor R) : Except Err (Tensor R × Entry R) := do
  let kv ← sepDwtn w mode (approx.rank - 1) "" approx
  let p ← dictPop kv (aKey n)
  pure (p.1, .dict p.2)

/-- The loop of `_separable_conv_wavedecn`, `separable_conv_transform.py:114-153`: the final
approximation and the dictionaries in the order they were appended. -/
def sepDecLoop [NonUnitalNonAssocSemiring R] (w : Wavelet R) (mode : Option String) (n : Nat) :
    Nat → Tensor R → Except Err (Tensor R × List (Entry R))
  | 0, t => .ok (t, [])
  | L + 1, t => do
    let q ← sepStep w mode n t
    let r ← sepDecLoop w mode n L q.1
    pure (r.1, q.2 :: r.2)

/-- `_separable_conv_wavedecn`, `separable_conv_transform.py:114-153`. -/
def sepWavedecn [NonUnitalNonAssocSemiring R] (input : Tensor R) (w : Wavelet R)
    (mode : Option String) (level : Option Int) : Except Err (Coeffs R) := do
  let l ← sepLevel level input.shape.tail w.len
  let r ← sepDecLoop w mode (input.rank - 1) l input
  pure ⟨false, .tensor r.1 :: r.2.reverse⟩

/-- `_fswavedecn`, `separable_conv_transform.py:351-398`. -/
def fswavedecn [NonUnitalNonAssocSemiring R] (data : Tensor R) (w : Wavelet R) (ndim : Nat)
    (mode : Option String) (level : Option Int) (axes : AxisHint) : Except Err (Coeffs R) := do
  let axes : AxisHint := match axes with
    | .none => .seq ((List.range ndim).map fun (k : Nat) => (k : Int) - (ndim : Int))
    | a => a
  let p ← preprocessTensor data ndim axes false
  let coeffs ← sepWavedecn p.1 w mode level
  postprocessCoeffs coeffs ndim p.2 axes

/-- `fswavedec2`, `separable_conv_transform.py:187-231`. -/
def fswavedec2 [NonUnitalNonAssocSemiring R] (data : Tensor R) (w : Wavelet R)
    (mode : Option String) (level : Option Int) (axes : AxisHint) : Except Err (Coeffs R) :=
  fswavedecn data w 2 mode level axes

/-- `fswavedec3`, `separable_conv_transform.py:234-278`. -/
def fswavedec3 [NonUnitalNonAssocSemiring R] (data : Tensor R) (w : Wavelet R)
    (mode : Option String) (level : Option Int) (axes : AxisHint) : Except Err (Coeffs R) :=
  fswavedecn data w 3 mode level axes

/-! ### Synthesis -/

/-- `t[tuple(slice(0, d) for d in ds)]`: crops the leading axes; IndexError if there are more slices
than axes. -/
def cropTo [Zero R] (t : Tensor R) (ds : List Nat) : Except Err (Tensor R) :=
  if t.rank < ds.length then .error .indexError
  else .ok (ofFn t.md ((List.range t.rank).map fun i =>
    if i < ds.length then min (ds.getD i 0) (t.shape.getD i 0) else t.shape.getD i 0) t.get)

/-- `t.transpose(-1, -k)` (also `t.transpose(-k, -1)`); IndexError if there is no axis `-k`. -/
def transposeLast [Zero R] (t : Tensor R) (k : Nat) : Except Err (Tensor R) :=
  if 1 ≤ k ∧ k ≤ t.rank then .ok (t.transpose (t.rank - 1) (t.rank - k)) else .error .indexError

/-- `t.reshape(-1, t.shape[-1])`: the size `-1` is ambiguous, a RuntimeError, if the last axis has
size 0. -/
def flatLast [Zero R] (t : Tensor R) : Except Err (Tensor R) :=
  if t.shape.getLastD 0 = 0 then .error .runtimeError
  else t.reshape [prodL t.shape.dropLast, t.shape.getLastD 0]

/-- the reconstruction of one pair of bands in the loop of `_separable_conv_idwtn`,
`separable_conv_transform.py:75-111` (lines 92-106). -/
def sepRec1 [NonUnitalNonAssocSemiring R] (w : Wavelet R) (k : Nat) (coeffA coeffD : Tensor R) :
    Except Err (Tensor R) := do
  let a ← cropTo coeffA coeffD.shape
  let ta ← transposeLast a k
  let td ← transposeLast coeffD k
  let fa ← flatLast ta
  let fd ← flatLast td
  let r ← waverec [fa, fd] w .none
  let r ← r.reshape (ta.shape.dropLast ++ [r.shape.getLastD 0])
  transposeLast r k

/-- `key[1:]`. -/
def keyTail (key : String) : String := String.ofList key.toList.tail

/-- the loop of `_separable_conv_idwtn`, `separable_conv_transform.py:75-111` (lines 90-110): over the
keys starting with `a`; either the reconstruction (early return) or `done_dict`. -/
def idwtnLoop [NonUnitalNonAssocSemiring R] (w : Wavelet R) (inDict : List (String × Tensor R)) :
    List String → List (String × Tensor R) → Except Err (Tensor R ⊕ List (String × Tensor R))
  | [], done => .ok (.inr done)
  | key :: keys, done => do
    let d ← dictGet inDict ("d" ++ keyTail key)
    let a ← dictGet inDict key
    let r ← sepRec1 w key.length a d
    if keyTail key = "" then pure (.inl r)
    else idwtnLoop w inDict keys (done ++ [(keyTail key, r)])

/-- the keys starting with `a`, `separable_conv_transform.py:90`; `x[0]` of an empty key is an
IndexError. -/
def aKeys [Zero R] (kv : List (String × Tensor R)) : Except Err (List String) :=
  if kv.any fun p => p.1 = "" then .error .indexError
  else .ok ((kv.map Prod.fst).filter fun k => k.toList.head? = some 'a')

/-- `_separable_conv_idwtn`, `separable_conv_transform.py:75-111`.  In every recursive call all keys are
shorter by one; without any key starting with `a` the recursion does not end (RecursionError).  The first
argument bounds the depth, callers start with the length of the longest key. -/
def sepIdwtn [NonUnitalNonAssocSemiring R] (w : Wavelet R) :
    Nat → List (String × Tensor R) → Except Err (Tensor R)
  | 0, _ => .error .recursionError
  | n + 1, kv => do
    let ks ← aKeys kv
    let r ← idwtnLoop w kv ks []
    match r with
    | .inl t => pure t
    | .inr done => sepIdwtn w n done

/-- `level_dict[key] = t`. -/
def dictSet [Zero R] (kv : List (String × Tensor R)) (key : String) (t : Tensor R) :
    List (String × Tensor R) :=
  if kv.any fun p => p.1 = key then kv.map fun p => if p.1 = key then (key, t) else p
  else kv ++ [(key, t)]

/-- `max(map(len, keys))`; ValueError for an empty dictionary. -/
def maxKeyLen [Zero R] (kv : List (String × Tensor R)) : Except Err Nat :=
  match kv with
  | [] => .error .valueError
  | p :: kv => .ok ((kv.map fun q => q.1.length).foldl max p.1.length)

/-- The loop of `_separable_conv_waverecn`, `separable_conv_transform.py:156-184` (lines 180-183), together with the
dictionaries as they are afterwards: every dictionary that was reached received the key `"a…a"`. -/
def sepRecLoop [NonUnitalNonAssocSemiring R] (w : Wavelet R) :
    Tensor R → List (Entry R) → Except Err (Tensor R) × List (Entry R)
  | t, [] => (.ok t, [])
  | t, .dict kv :: rest =>
    match maxKeyLen kv with
    | .error e => (.error e, .dict kv :: rest)
    | .ok n =>
      match sepIdwtn w n (dictSet kv (aKey n) t) with
      | .error e => (.error e, .dict (dictSet kv (aKey n) t) :: rest)
      | .ok r => ((sepRecLoop w r rest).1, .dict (dictSet kv (aKey n) t) :: (sepRecLoop w r rest).2)
  | _, e :: rest => (.error .valueError, e :: rest)

/-- Is the entry a dictionary? -/
def Entry.isDict [Zero R] : Entry R → Bool
  | .dict _ => true
  | _ => false

/-- `_separable_conv_waverecn`, `separable_conv_transform.py:156-184`: the result and the argument as it
is afterwards. -/
def sepWaverecn [NonUnitalNonAssocSemiring R] (coeffs : Coeffs R) (w : Wavelet R) :
    Except Err (Tensor R) × Coeffs R :=
  match coeffs.items with
  | .tensor t :: rest =>
    if rest.all Entry.isDict then
      ((sepRecLoop w t rest).1, ⟨coeffs.isList, .tensor t :: (sepRecLoop w t rest).2⟩)
    else (.error .valueError, coeffs)
  | [] => (.error .indexError, coeffs)
  | _ => (.error .valueError, coeffs)

/-- `_preprocess_coeffs` (`_util.py:493-570`) returns its argument itself, not a copy: the axes are the
default ones and the tensors have exactly one batch axis. -/
def preAliases [Zero R] (coeffs : Coeffs R) (ndim : Nat) (axes : AxisHint) : Bool :=
  match ensureAxes axes ndim, getDefaultAxes ndim, headTensor coeffs with
  | .ok a, .ok d, .ok t => a = d ∧ t.rank = ndim + 1
  | _, _, _ => false

/-- `_fswaverecn`, `separable_conv_transform.py:401-446`: the result and the caller's coefficients as they
are afterwards.  `_preprocess_coeffs` hands the caller's own container on or a fresh copy of it.
(Simplification: no dictionary object occurs twice in the container.) -/
def fswaverecn [NonUnitalNonAssocSemiring R] (coeffs : Coeffs R) (w : Wavelet R) (ndim : Nat)
    (axes : AxisHint) : Except Err (Tensor R) × Coeffs R :=
  match preprocessCoeffs coeffs ndim axes false with
  | .error e => (.error e, coeffs)
  | .ok p =>
    match checkSameDeviceDtype p.1 with
    | .error e => (.error e, coeffs)
    | .ok _ =>
      ((sepWaverecn p.1 w).1 >>= fun r => postprocessTensor r ndim p.2 axes,
        if preAliases coeffs ndim axes then (sepWaverecn p.1 w).2 else coeffs)

/-- `fswaverec2`, `separable_conv_transform.py:281-313`. -/
def fswaverec2 [NonUnitalNonAssocSemiring R] (coeffs : Coeffs R) (w : Wavelet R) (axes : AxisHint) :
    Except Err (Tensor R) × Coeffs R := fswaverecn coeffs w 2 axes

/-- `fswaverec3`, `separable_conv_transform.py:316-348`. -/
def fswaverec3 [NonUnitalNonAssocSemiring R] (coeffs : Coeffs R) (w : Wavelet R) (axes : AxisHint) :
    Except Err (Tensor R) × Coeffs R := fswaverecn coeffs w 3 axes

end Verif
