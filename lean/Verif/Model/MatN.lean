/-
Model of the two- and three-dimensional matrix transforms: `MatrixWavedec2`, `MatrixWaverec2`
(src/ptwt/matmul_transform_2.py), `MatrixWavedec3` and `MatrixWaverec3`
(src/ptwt/matmul_transform_3.py).  As in the one-dimensional case the objects are state machines: a
call maps the attributes to a result or an exception and the new attributes.  Lists of sizes, pads and
matrices have one entry per axis, in the order of the axes (height, width or depth, height, width).
-/
import Verif.Model.Mat1
import Verif.Model.Conv3
import Verif.Model.SepConv

namespace Verif
open Tensor
variable {R : Type}

/-! ### The matrices of the non-separable two-dimensional transform -/

/-- Concatenation of the four matrices in `_construct_a_2`, `matmul_transform_2.py:57-97`
(line 96). -/
def cat4 (a b c d : Coo R) : Except Err (Coo R) := do
  let m ← a.cat0 b
  let m ← m.cat0 c
  m.cat0 d

/-- Row `k` of the filter tensor, `dec_filt.squeeze(1)[k]`, `_construct_a_2`,
`matmul_transform_2.py:57-97` (line 91). -/
def filtBand [Zero R] (filt : Tensor R) (k : Nat) : Tensor R :=
  Tensor.ofFn filt.md (filt.shape.drop 2) fun i => filt.get (k :: 0 :: i)

/-- The common body of `_construct_a_2`, `matmul_transform_2.py:57-97`, and of `_construct_s_2`,
`matmul_transform_2.py:100-150`: the matrices of the four two-dimensional filters on top of each
other. -/
def fourChannel [NonAssocSemiring R] [DecidableEq R] (lo hi : List R) (flip : Bool) (md : Meta)
    (height width : Nat) (mode : String) : Except Err (Coo R) := do
  let filt ← construct2dFilt (createTensor lo flip md) (createTensor hi flip md)
  match (List.range (filt.shape.getD 0 0)).map (filtBand filt) with
  | [ll, lh, hl, hh] => do
    let a ← constructStridedConv2dMatrix ll height width 2 mode
    let b ← constructStridedConv2dMatrix lh height width 2 mode
    let c ← constructStridedConv2dMatrix hl height width 2 mode
    let d ← constructStridedConv2dMatrix hh height width 2 mode
    cat4 a b c d
  | _ => .error .valueError   -- unpacking error

/-- `_construct_a_2`, `matmul_transform_2.py:57-97`. -/
def constructA2 [NonAssocSemiring R] [DecidableEq R] (w : Wavelet R) (md : Meta) (height width : Nat)
    (mode : String) : Except Err (Coo R) :=
  fourChannel w.decLo w.decHi false md height width mode

/-- `_construct_s_2`, `matmul_transform_2.py:100-150`. -/
def constructS2 [NonAssocSemiring R] [DecidableEq R] (w : Wavelet R) (md : Meta) (height width : Nat)
    (mode : String) : Except Err (Coo R) := do
  let m ← fourChannel w.recLo w.recHi true md height width mode
  pure m.coalesce.transpose

/-- `construct_boundary_a2`, `matmul_transform_2.py:154-190`. -/
def constructBoundaryA2 [Field R] [DecidableEq R] (la : LinAlg R) (w : Wavelet R) (md : Meta)
    (height width : Nat) (method : String) : Except Err (Coo R) := do
  let a ← constructA2 w md height width "sameshift"
  orthogonalize la a (w.decLo.length ^ 2) method

/-- `construct_boundary_s2`, `matmul_transform_2.py:194-231`. -/
def constructBoundaryS2 [Field R] [DecidableEq R] (la : LinAlg R) (w : Wavelet R) (md : Meta)
    (height width : Nat) (method : String) : Except Err (Coo R) := do
  let s ← constructS2 w md height width "sameshift"
  let o ← orthogonalize la s.transpose (w.recLo.length ^ 2) method
  pure o.transpose

/-! ### Analysis: the objects -/

/-- The attributes of `MatrixWavedec2`, `matmul_transform_2.py:245-567`, and of `MatrixWavedec3`,
`matmul_transform_3.py:66-290`, that no method changes.  `MatrixWavedec3` is always separable. -/
structure DecCfgN (R : Type) where
  wavelet : Wavelet R
  axes : List Int
  orth : String
  oddMode : Option String
  separable : Bool

/-- The attributes of `MatrixWavedec2`, `matmul_transform_2.py:245-567`, and of `MatrixWavedec3`,
`matmul_transform_3.py:66-290`, that calls change.  Separable matrices come one per axis, a
non-separable level is a list of one matrix. -/
structure DecStateN (R : Type) where
  level : Option Int
  shape : Option (List Nat)
  mats : List (List (Coo R))
  padList : List (List Bool)
  padded : Bool
  sizeList : List (List Nat)

/-- `MatrixWavedec2.__init__`, `matmul_transform_2.py:284-344` (`ndim = 2`), and
`MatrixWavedec3.__init__`, `matmul_transform_3.py:80-131` (`ndim = 3`, `separable = True`). -/
def decInitN (ndim : Nat) (w : Wavelet R) (level : Option Int) (axes : AxisHint) (orth : String)
    (separable : Bool) (oddMode : Option String) : Except Err (DecCfgN R × DecStateN R) :=
  match ensureAxes axes ndim with
  | .error e => .error e
  | .ok as =>
    if isOrthogonalizeMethodSupported orth = false then .error .notImplementedError
    else if w.decLo.length ≠ w.recLo.length then .error .valueError
    else .ok (⟨w, as, orth, oddMode, separable⟩, ⟨level, none, [], [], false, []⟩)

/-- The padded sizes of `_matrix_pad_2`, `matmul_transform_2.py:234-242`, and of `_matrix_pad_3`,
`matmul_transform_3.py:50-63`. -/
def matrixPadSizes (sizes : List Nat) : List Nat := sizes.map fun n => if n % 2 ≠ 0 then n + 1 else n

/-- The pad flags of `_matrix_pad_2`, `matmul_transform_2.py:234-242` (which returns them as
`(width, height)`; here one per axis in the order of the axes), and of `_matrix_pad_3`,
`matmul_transform_3.py:50-63`. -/
def matrixPadFlags (sizes : List Nat) : List Bool := sizes.map fun n => decide (n % 2 ≠ 0)

/-- The matrices of one level in `MatrixWavedec2._construct_analysis_matrices`,
`matmul_transform_2.py:385-449` (lines 419-446), and
`MatrixWavedec3._construct_analysis_matrices`, `matmul_transform_3.py:133-192` (lines 173-183). -/
def levelMatsA [Field R] [DecidableEq R] (la : LinAlg R) (cfg : DecCfgN R) (md : Meta)
    (sizes : List Nat) : Except Err (List (Coo R)) :=
  if cfg.separable then sizes.mapM fun n => constructBoundaryA la cfg.wavelet md n cfg.orth
  else do
    let m ← constructBoundaryA2 la cfg.wavelet md (sizes.getD 0 0) (sizes.getD 1 0) cfg.orth
    pure [m]

/-- The loop of `MatrixWavedec2._construct_analysis_matrices`, `matmul_transform_2.py:385-449`, and of
`MatrixWavedec3._construct_analysis_matrices`, `matmul_transform_3.py:133-192`: `k` levels remain.
The warning on stderr is not modelled. -/
def decBuildLoopN [Field R] [DecidableEq R] (la : LinAlg R) (cfg : DecCfgN R) (md : Meta) :
    Nat → List Nat → DecStateN R → Except Err Unit × DecStateN R
  | 0, sizes, st => (.ok (), { st with sizeList := st.sizeList ++ [sizes] })
  | k + 1, sizes, st =>
    if ∃ n ∈ sizes, n < cfg.wavelet.decLo.length then
      (.ok (), { st with sizeList := st.sizeList ++ [sizes] })
    else
      let st := { st with
        padded := st.padded || (matrixPadFlags sizes).any id
        padList := st.padList ++ [matrixPadFlags sizes]
        sizeList := st.sizeList ++ [matrixPadSizes sizes] }
      match levelMatsA la cfg md (matrixPadSizes sizes) with
      | .error e => (.error e, st)
      | .ok ms => decBuildLoopN la cfg md k ((matrixPadSizes sizes).map fun n => n / 2)
          { st with mats := st.mats ++ [ms] }

/-- `MatrixWavedec2._construct_analysis_matrices`, `matmul_transform_2.py:385-449`, and
`MatrixWavedec3._construct_analysis_matrices`, `matmul_transform_3.py:133-192`. -/
def decBuildN [Field R] [DecidableEq R] (la : LinAlg R) (cfg : DecCfgN R) (md : Meta) (level : Int)
    (sizes : List Nat) (st : DecStateN R) : Except Err Unit × DecStateN R :=
  decBuildLoopN la cfg md level.toNat sizes
    { st with mats := [], sizeList := [], padList := [], padded := false }

/-- `int(np.min([np.log2(n / (wlen - 1)), …]))`, `MatrixWavedec2.__call__`,
`matmul_transform_2.py:451-567` (lines 487-490), and `MatrixWavedec3.__call__`,
`matmul_transform_3.py:194-290` (lines 226-235), in exact arithmetic: truncation is monotone, so the
truncated minimum is the minimum of the truncated logarithms. -/
def matAutoLevelN : List Nat → Nat → Except Err Int
  | [], _ => .error .valueError   -- np.min of nothing
  | [n], F => matAutoLevel n F
  | n :: ns, F => do
    let a ← matAutoLevel n F
    let b ← matAutoLevelN ns F
    pure (min a b)

/-- Rebuilding the matrices in `MatrixWavedec2.__call__`, `matmul_transform_2.py:451-567` (lines
495-498), and `MatrixWavedec3.__call__`, `matmul_transform_3.py:194-290` (lines 240-243). -/
def decEnsureN [Field R] [DecidableEq R] (la : LinAlg R) (cfg : DecCfgN R) (md : Meta) (level : Int)
    (sizes : List Nat) (rebuild : Bool) (st : DecStateN R) : Except Err Unit × DecStateN R :=
  if st.mats.isEmpty ∨ rebuild = true then decBuildN la cfg md level sizes st else (.ok (), st)

/-- The bookkeeping of `MatrixWavedec2.__call__`, `matmul_transform_2.py:451-567` (lines 477-498), and
`MatrixWavedec3.__call__`, `matmul_transform_3.py:194-290` (lines 215-243). -/
def decPrepareN [Field R] [DecidableEq R] (la : LinAlg R) (cfg : DecCfgN R) (md : Meta)
    (sizes : List Nat) (st : DecStateN R) : Except Err Unit × DecStateN R :=
  let rebuild := decide (st.shape ≠ some sizes)
  let st := { st with shape := some sizes }
  match st.level with
  | none =>
    match matAutoLevelN sizes cfg.wavelet.len with
    | .error e => (.error e, st)
    | .ok l => decEnsureN la cfg md l sizes true { st with level := some l }
  | some l =>
    if l ≤ 0 then (.error .valueError, st) else decEnsureN la cfg md l sizes rebuild st

/-! ### Analysis: one step -/

/-- The padding tuple of a list of pad flags, last axis first: `(0, 1)` per padded axis.
`MatrixWavedec2.__call__`, `matmul_transform_2.py:451-567` (lines 500-511), and
`MatrixWavedec3.__call__`, `matmul_transform_3.py:194-290` (lines 249-251). -/
def oddPadding (pads : List Bool) : List Nat := pads.reverse.flatMap fun p => [0, if p then 1 else 0]

/-- `_add_padding` of `MatrixWavedec2.__call__`, `matmul_transform_2.py:451-567` (lines 500-511). -/
def addPadding2 [NonUnitalNonAssocSemiring R] (oddMode : Option String) (t : Tensor R)
    (pads : List Bool) : Except Err (Tensor R) :=
  if pads.any id then fwtPadWith t oddMode (oddPadding pads) else .ok t

/-- `a, b = torch.split(t, size, dim=a)`: exactly two pieces, as unpacked everywhere in
`MatrixWavedec2.__call__`, `matmul_transform_2.py:451-567` (lines 525-527), and
`MatrixWavedec3.__call__`, `matmul_transform_3.py:194-290` (line 272).  A size of 0 is a RuntimeError
unless the axis is empty; another number of pieces is a ValueError. -/
def splitTwo [Zero R] (t : Tensor R) (a size : Nat) : Except Err (Tensor R × Tensor R) :=
  let n := t.shape.getD a 0
  if size = 0 ∧ n ≠ 0 then .error .runtimeError
  else if size < n ∧ n ≤ 2 * size then .ok (t.slice a 0 size, t.slice a size n)
  else .error .valueError

/-- One step of the separable loop of `MatrixWavedec2.__call__`, `matmul_transform_2.py:451-567` (lines
517-529). -/
def mat2Step [NonUnitalNonAssocSemiring R] (oddMode : Option String) (mats : List (Coo R))
    (pads : List Bool) (size : List Nat) (ll : Tensor R) : Except Err (Tensor R × Entry R) :=
  match mats with
  | [row, col] => do
    let ll ← addPadding2 oddMode ll pads
    let t ← batchMm col (ll.transpose 1 2)
    let t ← batchMm row (t.transpose 1 2)
    let ad ← splitTwo t 1 (size.getD 0 0 / 2)
    let a ← splitTwo ad.1 2 (size.getD 1 0 / 2)
    let d ← splitTwo ad.2 2 (size.getD 1 0 / 2)
    pure (a.1, .tuple a.2 d.1 d.2)
  | _ => .error .valueError

/-- `_split_rec` of `MatrixWavedec3.__call__`, `matmul_transform_3.py:194-290` (lines 262-274); `k` is
`depth - len(key)`.  All keys are different, so inserting appends. -/
def splitRec [Zero R] : Nat → String → Tensor R → List (String × Tensor R) →
    Except Err (List (String × Tensor R))
  | k, key, t, d =>
    let d := if key = "" then d else d ++ [(key, t)]
    match k with
    | 0 => .ok d
    | k + 1 => do
      let p ← splitTwo t (t.rank - (key.length + 1)) (t.sizeFromEnd (key.length + 1) / 2)
      let d ← splitRec k ("a" ++ key) p.1 d
      splitRec k ("d" ++ key) p.2 d

/-- The multiplications of `MatrixWavedec3.__call__`, `matmul_transform_3.py:194-290` (lines 259-260),
and of `MatrixWaverec3.__call__`, `matmul_transform_3.py:408-475` (lines 472-473), with the matrices
`mats[::-1]`; the first one acts on dimension `-k`. -/
def mulDims [NonUnitalNonAssocSemiring R] : Nat → List (Coo R) → Tensor R → Except Err (Tensor R)
  | _, [], t => .ok t
  | k, m :: ms, t => do
    let t ← batchDimMm m t (-(k : Int))
    mulDims (k + 1) ms t

/-- One step of the loop of `MatrixWavedec3.__call__`, `matmul_transform_3.py:194-290` (lines
248-285). -/
def mat3Step [NonUnitalNonAssocSemiring R] (oddMode : Option String) (mats : List (Coo R))
    (pads : List Bool) (_size : List Nat) (lll : Tensor R) : Except Err (Tensor R × Entry R) := do
  let t ← fwtPadWith lll oddMode (oddPadding pads)
  let t ← mulDims 1 mats.reverse t
  let d ← splitRec 3 "" t []
  let lll ← dictGet d "aaa"
  pure (lll, .dict (d.filter fun p => p.1.length = 3 ∧ p.1 ≠ "aaa"))

/-- The loop over the matrices: `MatrixWavedec2.__call__`, `matmul_transform_2.py:451-567` (lines
516-529), and `MatrixWavedec3.__call__`, `matmul_transform_3.py:194-290` (lines 247-285). -/
def matLoopN [Zero R]
    (step : List (Coo R) → List Bool → List Nat → Tensor R → Except Err (Tensor R × Entry R)) :
    List (List (Coo R)) → List (List Bool) → List (List Nat) → Tensor R →
    Except Err (Tensor R × List (Entry R))
  | [], _, _, t => .ok (t, [])
  | ms :: mats, p :: ps, s :: ss, t => do
    let q ← step ms p s t
    let r ← matLoopN step mats ps ss q.1
    pure (r.1, q.2 :: r.2)
  | _ :: _, _, _, _ => .error .indexError

/-- `t.transpose(2, 1).reshape([batch, -1])`, `MatrixWavedec2.__call__`, `matmul_transform_2.py:451-567`
(lines 531 and 541), and `MatrixWaverec2.__call__`, `matmul_transform_2.py:737-844` (lines 817-822). -/
def flatCols [Zero R] (t : Tensor R) (B : Nat) : Except Err (Tensor R) :=
  (t.transpose 1 2).reshapeInfer [B] []

/-- `t.T.reshape(batch, width, height).transpose(2, 1)`, `MatrixWavedec2.__call__`,
`matmul_transform_2.py:451-567` (lines 537-539, 551-553 and 560), and `MatrixWaverec2.__call__`,
`matmul_transform_2.py:737-844` (line 829). -/
def unflatCols [Zero R] (t : Tensor R) (B height width : Nat) : Except Err (Tensor R) := do
  let u ← t.matT.reshape [B, width, height]
  pure (u.transpose 1 2)

/-- The padding in the non-separable loop of `MatrixWavedec2.__call__`, `matmul_transform_2.py:451-567`
(lines 536-541). -/
def nonsepPad [NonUnitalNonAssocSemiring R] (oddMode : Option String) (pads : List Bool)
    (size : List Nat) (B : Nat) (ll : Tensor R) : Except Err (Tensor R) :=
  if pads.any id then do
    let t ← unflatCols ll B (size.getD 0 0 - (if pads.getD 0 false then 1 else 0))
      (size.getD 1 0 - (if pads.getD 1 false then 1 else 0))
    let t ← addPadding2 oddMode t pads
    let f ← flatCols t B
    pure f.matT
  else .ok ll

/-- `torch.split(t, size)` of the rows into pieces of `size` rows (the last one may be smaller); used
for the four subbands in `MatrixWavedec2.__call__`, `matmul_transform_2.py:451-567` (lines 544-546). -/
def splitRows [Zero R] (t : Tensor R) (size : Nat) : Except Err (List (Tensor R)) :=
  let n := t.shape.getD 0 0
  if size = 0 ∧ n ≠ 0 then .error .runtimeError
  else if size = 0 then .ok [t]
  else .ok ((List.range ((n + size - 1) / size)).map fun k => t.slice 0 (k * size) ((k + 1) * size))

/-- One step of the non-separable loop of `MatrixWavedec2.__call__`, `matmul_transform_2.py:451-567`
(lines 533-559).  A number of pieces different from four is a TypeError when the tuple is built. -/
def mat2NonsepStep [NonUnitalNonAssocSemiring R] (oddMode : Option String) (B : Nat)
    (mats : List (Coo R)) (pads : List Bool) (size : List Nat) (ll : Tensor R) :
    Except Err (Tensor R × Entry R) :=
  match mats with
  | [m] => do
    let ll ← nonsepPad oddMode pads size B ll
    let c ← m.mmDense ll
    let ps ← splitRows c (size.getD 0 0 / 2 * (size.getD 1 0 / 2))
    match ps with
    | [ll, lh, hl, hh] => do
      let lh ← unflatCols lh B (size.getD 0 0 / 2) (size.getD 1 0 / 2)
      let hl ← unflatCols hl B (size.getD 0 0 / 2) (size.getD 1 0 / 2)
      let hh ← unflatCols hh B (size.getD 0 0 / 2) (size.getD 1 0 / 2)
      pure (ll, .tuple lh hl hh)
    | _ => .error .typeError
  | _ => .error .typeError

/-- The non-separable branch of `MatrixWavedec2.__call__`, `matmul_transform_2.py:451-567` (lines
531-560).  Line 560 reads the variable `size` of the loop, which does not exist if there was no
level. -/
def mat2Nonsep [NonUnitalNonAssocSemiring R] (oddMode : Option String) (st : DecStateN R)
    (y : Tensor R) : Except Err (Tensor R × List (Entry R)) := do
  let B := y.shape.getD 0 0
  let f ← flatCols y B
  let r ← matLoopN (mat2NonsepStep oddMode B) st.mats st.padList st.sizeList f.matT
  match st.mats, st.sizeList[st.mats.length - 1]? with
  | _ :: _, some size => do
    let ll ← unflatCols r.1 B (size.getD 0 0 / 2) (size.getD 1 0 / 2)
    pure (ll, r.2)
  | _, _ => .error .unboundLocalError

/-- The transform with given matrices: `MatrixWavedec2.__call__`, `matmul_transform_2.py:451-567` (lines
513-567), and `MatrixWavedec3.__call__`, `matmul_transform_3.py:194-290` (lines 245-290). -/
def decApplyN [NonUnitalNonAssocSemiring R] (ndim : Nat) (cfg : DecCfgN R) (st : DecStateN R)
    (y : Tensor R) (ds : List Nat) : Except Err (Coeffs R) := do
  let r ← if ndim = 3 then matLoopN (mat3Step cfg.oddMode) st.mats st.padList st.sizeList y
    else if cfg.separable then matLoopN (mat2Step cfg.oddMode) st.mats st.padList st.sizeList y
    else mat2Nonsep cfg.oddMode st y
  postprocessCoeffs ⟨false, .tensor r.1 :: r.2.reverse⟩ ndim ds (.seq cfg.axes)

/-- `MatrixWavedec2.__call__`, `matmul_transform_2.py:451-567` (`ndim = 2`), and
`MatrixWavedec3.__call__`, `matmul_transform_3.py:194-290` (`ndim = 3`). -/
def decCallN [Field R] [DecidableEq R] (ndim : Nat) (la : LinAlg R) (cfg : DecCfgN R)
    (st : DecStateN R) (x : Tensor R) : Except Err (Coeffs R) × DecStateN R :=
  match preprocessTensor x ndim (.seq cfg.axes) false with
  | .error e => (.error e, st)
  | .ok p =>
    match decPrepareN la cfg p.1.md p.1.shape.tail st with
    | (.error e, st) => (.error e, st)
    | (.ok _, st) => (decApplyN ndim cfg st p.1 p.2, st)

/-! ### Synthesis -/

/-- The attributes of `MatrixWaverec2`, `matmul_transform_2.py:570-844`, and of `MatrixWaverec3`,
`matmul_transform_3.py:293-475`, that no method changes.  `MatrixWaverec3` is always separable. -/
structure RecCfgN (R : Type) where
  wavelet : Wavelet R
  axes : List Int
  orth : String
  separable : Bool

/-- The attributes of `MatrixWaverec2`, `matmul_transform_2.py:570-844`, and of `MatrixWaverec3`,
`matmul_transform_3.py:293-475`, that calls change. -/
structure RecStateN (R : Type) where
  level : Option Nat
  shape : Option (List Nat)
  mats : List (List (Coo R))
  padded : Bool

/-- `MatrixWaverec2.__init__`, `matmul_transform_2.py:586-637`, and `MatrixWaverec3.__init__`,
`matmul_transform_3.py:297-335`. -/
def recInitN (ndim : Nat) (w : Wavelet R) (axes : AxisHint) (orth : String) (separable : Bool) :
    Except Err (RecCfgN R × RecStateN R) :=
  match ensureAxes axes ndim with
  | .error e => .error e
  | .ok as =>
    if isOrthogonalizeMethodSupported orth = false then .error .notImplementedError
    else if w.decLo.length ≠ w.recLo.length then .error .valueError
    else .ok (⟨w, as, orth, separable⟩, ⟨none, none, [], false⟩)

/-- The matrices of one level in `MatrixWaverec2._construct_synthesis_matrices`,
`matmul_transform_2.py:677-735` (lines 706-733), and `MatrixWaverec3._construct_synthesis_matrices`,
`matmul_transform_3.py:337-390` (lines 373-383). -/
def levelMatsS [Field R] [DecidableEq R] (la : LinAlg R) (cfg : RecCfgN R) (md : Meta)
    (sizes : List Nat) : Except Err (List (Coo R)) :=
  if cfg.separable then sizes.mapM fun n => constructBoundaryS la cfg.wavelet md n cfg.orth
  else do
    let m ← constructBoundaryS2 la cfg.wavelet md (sizes.getD 0 0) (sizes.getD 1 0) cfg.orth
    pure [m]

/-- The loop of `MatrixWaverec2._construct_synthesis_matrices`, `matmul_transform_2.py:677-735`, and of
`MatrixWaverec3._construct_synthesis_matrices`, `matmul_transform_3.py:337-390`. -/
def recBuildLoopN [Field R] [DecidableEq R] (la : LinAlg R) (cfg : RecCfgN R) (md : Meta) :
    Nat → List Nat → RecStateN R → Except Err Unit × RecStateN R
  | 0, _, st => (.ok (), st)
  | k + 1, sizes, st =>
    if ∃ n ∈ sizes, n < cfg.wavelet.recLo.length then (.ok (), st)
    else
      let st := { st with padded := st.padded || (matrixPadFlags sizes).any id }
      match levelMatsS la cfg md (matrixPadSizes sizes) with
      | .error e => (.error e, st)
      | .ok ms => recBuildLoopN la cfg md k ((matrixPadSizes sizes).map fun n => n / 2)
          { st with mats := st.mats ++ [ms] }

/-- The bookkeeping of `MatrixWaverec2.__call__`, `matmul_transform_2.py:737-844` (lines 763-780), and
`MatrixWaverec3.__call__`, `matmul_transform_3.py:408-475` (lines 432-450). -/
def recPrepareN [Field R] [DecidableEq R] (la : LinAlg R) (cfg : RecCfgN R) (md : Meta) (level : Nat)
    (sizes : List Nat) (st : RecStateN R) : Except Err Unit × RecStateN R :=
  if st.mats.isEmpty ∨ st.level ≠ some level ∨ st.shape ≠ some sizes then
    recBuildLoopN la cfg md level sizes ⟨some level, some sizes, [], false⟩
  else (.ok (), st)

/-- The tensor `coefficients[k][0]` in `MatrixWaverec2.__call__`, `matmul_transform_2.py:737-844` (lines
761 and 835), used for its last two sizes: the first one of a tuple; `t[0]` of a tensor has the last
sizes of `t` (IndexError if there is no `t[0]`); indexing a dictionary with 0 is a KeyError. -/
def firstRef2 [Zero R] : Entry R → Except Err (Tensor R)
  | .tuple h _ _ => .ok h
  | .tensor t => if t.shape.getD 0 0 = 0 then .error .indexError else .ok t
  | .dict _ => .error .keyError
  | .other => .error .typeError

/-- The signal shape read off the coefficients: `MatrixWaverec2.__call__`,
`matmul_transform_2.py:737-844` (line 761), and `MatrixWaverec3.__call__`,
`matmul_transform_3.py:408-475` (lines 425-430). -/
def recShape [Zero R] (ndim : Nat) (c : Coeffs R) : Except Err (List Nat) :=
  match c.items.getLast? with
  | none => .error .indexError
  | some e =>
    if ndim = 3 then
      match e with
      | .dict kv => do
        let t ← dictGet kv "ddd"
        pure ([t.sizeFromEnd 3, t.sizeFromEnd 2, t.sizeFromEnd 1].map (· * 2))
      | _ => .error .valueError
    else do
      let t ← firstRef2 e
      pure ([t.sizeFromEnd 2, t.sizeFromEnd 1].map (· * 2))

/-- The product of one separable step of `MatrixWaverec2.__call__`, `matmul_transform_2.py:737-844`
(lines 802-813). -/
def rec2Mul [NonUnitalNonAssocSemiring R] (mats : List (Coo R)) (ll lh hl hh : Tensor R) :
    Except Err (Tensor R) :=
  match mats with
  | [row, col] => do
    let a ← cat2 ll lh 2
    let d ← cat2 hl hh 2
    let c ← cat2 a d 1
    let t ← batchMm col (c.transpose 1 2)
    batchMm row (t.transpose 1 2)
  | _ => .error .valueError

/-- The product of one non-separable step of `MatrixWaverec2.__call__`, `matmul_transform_2.py:737-844`
(lines 815-830). -/
def rec2MulNonsep [NonUnitalNonAssocSemiring R] (mats : List (Coo R)) (B : Nat)
    (ll lh hl hh : Tensor R) : Except Err (Tensor R) :=
  match mats with
  | [m] => do
    let h := ll.sizeFromEnd 2
    let w := ll.sizeFromEnd 1
    let a ← flatCols ll B
    let b ← flatCols lh B
    let c ← flatCols hl B
    let d ← flatCols hh B
    let ab ← cat2 a b 1
    let abc ← cat2 ab c 1
    let t ← cat2 abc d 1
    let t ← m.mmDense t.matT
    unflatCols t B (h * 2) (w * 2)
  | _ => .error .valueError

/-- The removal of the padding in `MatrixWaverec2.__call__`, `matmul_transform_2.py:737-844` (lines
834-840); `pred` are the sizes the step produces. -/
def rec2Crop [Zero R] (pred : List Nat) (ll : Tensor R) (rest : List (Entry R)) : Except Err (Tensor R) :=
  match rest with
  | [] => .ok ll
  | next :: _ => do
    let t ← firstRef2 next
    let ll := if pred.getD 0 0 ≠ t.sizeFromEnd 2 then ll.slice 1 0 (ll.shape.getD 1 0 - 1) else ll
    let ll := if pred.getD 1 0 ≠ t.sizeFromEnd 1 then ll.slice 2 0 (ll.shape.getD 2 0 - 1) else ll
    pure ll

/-- One step of the loop of `MatrixWaverec2.__call__`, `matmul_transform_2.py:737-844` (lines
785-840); `mats` is the matrix entry of this step, if it exists.  (The rank is always 3 after
preprocessing, so that the branch of line 808 is not taken.)  Without separability the bands are flattened
before the matrix is looked up, and flattening fails for an empty batch. -/
def mrec2Step [NonUnitalNonAssocSemiring R] (separable : Bool) (B : Nat) (mats : Option (List (Coo R)))
    (ll : Tensor R) (e : Entry R) (rest : List (Entry R)) : Except Err (Tensor R) :=
  match e with
  | .tuple lh hl hh =>
    if lh.shape = ll.shape ∧ hl.shape = ll.shape ∧ hh.shape = ll.shape then
      match mats with
      | none => .error (if separable = false ∧ B = 0 then .runtimeError else .indexError)
      | some ms => do
        let pred := [ll.sizeFromEnd 2 * 2, ll.sizeFromEnd 1 * 2]
        let t ← if separable then rec2Mul ms ll lh hl hh else rec2MulNonsep ms B ll lh hl hh
        rec2Crop pred t rest
    else .error .valueError
  | _ => .error .valueError

/-- The loop of `MatrixWaverec2.__call__`, `matmul_transform_2.py:737-844` (lines 784-840); the first
list is the reversed matrix list from the current position on. -/
def mrec2Loop [NonUnitalNonAssocSemiring R] (separable : Bool) (B : Nat) :
    List (List (Coo R)) → Tensor R → List (Entry R) → Except Err (Tensor R)
  | _, ll, [] => .ok ll
  | ms, ll, e :: rest => do
    let r ← mrec2Step separable B ms.head? ll e rest
    mrec2Loop separable B ms.tail r rest

/-- `t[:, :s[1], :s[2], :s[3]]` for the shape `s`, `MatrixWaverec3._cat_coeff_recursive`,
`matmul_transform_3.py:392-406` (line 400). -/
def cropTo3 [Zero R] (t : Tensor R) (s : List Nat) : Except Err (Tensor R) :=
  if t.rank < 4 ∨ s.length < 4 then .error .indexError
  else .ok (((t.slice 1 0 (s.getD 1 0)).slice 2 0 (s.getD 2 0)).slice 3 0 (s.getD 3 0))

/-- The loop of `MatrixWaverec3._cat_coeff_recursive`, `matmul_transform_3.py:392-406` (lines
395-405), over the keys that begin with `a`: the concatenation of the last remaining letter, or the new
dictionary. -/
def catRound [Zero R] (input : List (String × Tensor R)) :
    List (String × Tensor R) → List (String × Tensor R) →
    Except Err (Tensor R ⊕ List (String × Tensor R))
  | [], done => .ok (.inr done)
  | (key, a) :: todo, done => do
    let rest := String.ofList key.toList.tail
    let d ← dictGet input ("d" ++ rest)
    let a ← cropTo3 a d.shape
    let ax ← normAxis a.rank (-(key.length : Int))
    let c ← cat2 a d ax
    if rest = "" then pure (.inl c) else catRound input todo (dictSet done rest c)

/-- `MatrixWaverec3._cat_coeff_recursive`, `matmul_transform_3.py:392-406`.  Every call shortens the
keys; with no keys left the recursion does not end (RecursionError).  The first argument bounds the
number of calls and is larger than the longest key.  A key that is the empty string is an IndexError
(`x[0]`). -/
def catRec [Zero R] : Nat → List (String × Tensor R) → Except Err (Tensor R)
  | 0, _ => .error .recursionError
  | k + 1, d =>
    if d.any (fun p => p.1 = "") then .error .indexError
    else do
      let r ← catRound d (d.filter fun p => p.1.toList.head? = some 'a') []
      match r with
      | .inl t => .ok t
      | .inr d => catRec k d

/-- One more than the length of the longest key. -/
def keyBound [Zero R] (d : List (String × Tensor R)) : Nat := (d.map fun p => p.1.length).foldr max 0 + 1

/-- The check of the detail shapes in `MatrixWaverec3.__call__`, `matmul_transform_3.py:408-475` (lines
460-467): all tensors of the dictionary have the shape of the first one. -/
def sameShapes [Zero R] : List (String × Tensor R) → Bool
  | [] => true
  | p :: ps => ps.all fun q => decide (q.2.shape = p.2.shape)

/-- One step of the loop of `MatrixWaverec3.__call__`, `matmul_transform_3.py:408-475` (lines
454-473). -/
def mrec3Step [NonUnitalNonAssocSemiring R] (mats : Option (List (Coo R))) (lll : Tensor R)
    (e : Entry R) : Except Err (Tensor R) :=
  match e with
  | .dict kv =>
    if kv.length = 7 then
      if sameShapes kv then do
        let d := dictSet kv "aaa" lll
        let t ← catRec (keyBound d + 1) d
        match mats with
        | none => .error .indexError
        | some ms => mulDims 1 ms.reverse t
      else .error .valueError
    else .error .valueError
  | _ => .error .valueError

/-- The loop of `MatrixWaverec3.__call__`, `matmul_transform_3.py:408-475` (lines 453-473); the number
is `level - c_pos`, so that the matrices of the step are those at position `level - 1 - c_pos`. -/
def mrec3Loop [NonUnitalNonAssocSemiring R] (mats : List (List (Coo R))) :
    Nat → Tensor R → List (Entry R) → Except Err (Tensor R)
  | _, lll, [] => .ok lll
  | k, lll, e :: rest => do
    let r ← mrec3Step mats[k - 1]? lll e
    mrec3Loop mats (k - 1) r rest

/-- The transform with given matrices: `MatrixWaverec2.__call__`, `matmul_transform_2.py:737-844` (lines
782-844), and `MatrixWaverec3.__call__`, `matmul_transform_3.py:408-475` (lines 452-475). -/
def recApplyN [NonUnitalNonAssocSemiring R] (ndim : Nat) (cfg : RecCfgN R) (mats : List (List (Coo R)))
    (c : Coeffs R) (ds : List Nat) : Except Err (Tensor R) := do
  let ll ← headTensor c
  let r ← if ndim = 3 then mrec3Loop mats (c.items.length - 1) ll c.items.tail
    else mrec2Loop cfg.separable (ll.shape.getD 0 0) mats.reverse ll c.items.tail
  postprocessTensor r ndim ds (.seq cfg.axes)

/-- The input of `MatrixWaverec2.__call__`, `matmul_transform_2.py:737-844` (lines 757-761), and of
`MatrixWaverec3.__call__`, `matmul_transform_3.py:408-475` (lines 421-430): folded coefficients, shape,
common dtype and device, and the sizes of the signal. -/
def recInputN [Zero R] (ndim : Nat) (cfg : RecCfgN R) (coeffs : Coeffs R) :
    Except Err (Coeffs R × List Nat × Meta × List Nat) := do
  let p ← preprocessCoeffs coeffs ndim (.seq cfg.axes) false
  let md ← checkSameDeviceDtype p.1
  let s ← recShape ndim p.1
  pure (p.1, p.2, md, s)

/-- `MatrixWaverec2.__call__`, `matmul_transform_2.py:737-844` (`ndim = 2`), and
`MatrixWaverec3.__call__`, `matmul_transform_3.py:408-475` (`ndim = 3`). -/
def recCallN [Field R] [DecidableEq R] (ndim : Nat) (la : LinAlg R) (cfg : RecCfgN R)
    (st : RecStateN R) (coeffs : Coeffs R) : Except Err (Tensor R) × RecStateN R :=
  match recInputN ndim cfg coeffs with
  | .error e => (.error e, st)
  | .ok (c, ds, md, s) =>
    match recPrepareN la cfg md (c.items.length - 1) s st with
    | (.error e, st) => (.error e, st)
    | (.ok _, st) => (recApplyN ndim cfg st.mats c ds, st)

end Verif
