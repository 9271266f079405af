/-
Model of the one-dimensional matrix transforms `MatrixWavedec` and `MatrixWaverec` of
src/ptwt/matmul_transform.py.  The objects are state machines: a call maps the attributes to a result
or an exception and the new attributes (an exception keeps the assignments made before it).
-/
import Verif.Model.Orth
import Verif.Torch.Tensor

namespace Verif
open Tensor
variable {R : Type}

/-- `_is_orthogonalize_method_supported`, `_util.py:144-147`. -/
def isOrthogonalizeMethodSupported (s : String) : Bool := s = "qr" || s = "gramschmidt"

/-- The attributes of `MatrixWavedec` that no method changes, `matmul_transform.py:250-254`. -/
structure DecCfg (R : Type) where
  wavelet : Wavelet R
  axis : Int
  orth : String
  oddMode : Option String

/-- The attributes of `MatrixWavedec` that calls change, `matmul_transform.py:251-260`. -/
structure DecState (R : Type) where
  level : Option Int
  inputLength : Option Nat
  mats : List (Coo R)
  padList : List Bool
  padded : Bool
  sizeList : List Nat

/-- `MatrixWavedec.__init__`, `matmul_transform.py:212-266`. -/
def decInit (w : Wavelet R) (level : Option Int) (axis : AxisHint) (orth : String)
    (oddMode : Option String) : Except Err (DecCfg R × DecState R) :=
  match ensureAxes axis 1 with
  | .error e => .error e
  | .ok [] => .error .indexError
  | .ok (a :: _) =>
    if isOrthogonalizeMethodSupported orth = false then .error .notImplementedError
    else if w.decLo.length ≠ w.recLo.length then .error .valueError
    else .ok (⟨w, a, orth, oddMode⟩, ⟨level, none, [], [], false, []⟩)

/-- The loop of `MatrixWavedec._construct_analysis_matrices`, `matmul_transform.py:310-354` (lines
322-354): `k` levels remain, `curr` is `curr_length`.  The warning on stderr is not modelled. -/
def decBuildLoop [Field R] [DecidableEq R] (la : LinAlg R) (cfg : DecCfg R) (md : Meta) :
    Nat → Nat → DecState R → Except Err Unit × DecState R
  | 0, curr, st => (.ok (), { st with sizeList := st.sizeList ++ [curr] })
  | k + 1, curr, st =>
    if curr < cfg.wavelet.decLo.length then (.ok (), { st with sizeList := st.sizeList ++ [curr] })
    else
      let c := if curr % 2 ≠ 0 then curr + 1 else curr
      let st := { st with
        padded := st.padded || decide (curr % 2 ≠ 0)
        padList := st.padList ++ [decide (curr % 2 ≠ 0)]
        sizeList := st.sizeList ++ [c] }
      match constructBoundaryA la cfg.wavelet md c cfg.orth with
      | .error e => (.error e, st)
      | .ok a => decBuildLoop la cfg md k (c / 2) { st with mats := st.mats ++ [a] }

/-- `MatrixWavedec._construct_analysis_matrices`, `matmul_transform.py:310-354`; `level` and `n` are the
attributes `level` and `input_length`, which are set at the only call. -/
def decBuild [Field R] [DecidableEq R] (la : LinAlg R) (cfg : DecCfg R) (md : Meta) (level : Int)
    (n : Nat) (st : DecState R) : Except Err Unit × DecState R :=
  decBuildLoop la cfg md level.toNat n { st with mats := [], sizeList := [], padList := [], padded := false }

/-- `int(np.log2(length / (wlen - 1)))`, `matmul_transform.py:356-430` (lines 398-399), in exact
arithmetic: truncation towards zero of the logarithm. -/
def matAutoLevel (n F : Nat) : Except Err Int :=
  if F = 0 then .error .valueError            -- int(nan)
  else if F = 1 then .error .zeroDivisionError
  else if n = 0 then .error .overflowError    -- int(-inf)
  else if F - 1 ≤ n then .ok (Nat.log2 (n / (F - 1)))
  else .ok (-(Nat.log2 ((F - 1) / n) : Int))

/-- The matrices are (re)built if there are none or if `rebuild`; part of `MatrixWavedec.__call__`,
`matmul_transform.py:356-430` (lines 404-407). -/
def decEnsure [Field R] [DecidableEq R] (la : LinAlg R) (cfg : DecCfg R) (md : Meta) (level : Int)
    (n : Nat) (rebuild : Bool) (st : DecState R) : Except Err Unit × DecState R :=
  if st.mats.isEmpty ∨ rebuild = true then decBuild la cfg md level n st else (.ok (), st)

/-- The bookkeeping of `MatrixWavedec.__call__`, `matmul_transform.py:356-430` (lines 390-407). -/
def decPrepare [Field R] [DecidableEq R] (la : LinAlg R) (cfg : DecCfg R) (md : Meta) (n : Nat)
    (st : DecState R) : Except Err Unit × DecState R :=
  let rebuild := decide (st.inputLength ≠ some n)
  let st := { st with inputLength := some n }
  match st.level with
  | none =>
    match matAutoLevel n cfg.wavelet.len with
    | .error e => (.error e, st)
    | .ok l => decEnsure la cfg md l n true { st with level := some l }
  | some l =>
    if l ≤ 0 then (.error .valueError, st) else decEnsure la cfg md l n rebuild st

/-- The padding of odd coefficients inside the loop of `MatrixWavedec.__call__`,
`matmul_transform.py:356-430` (lines 412-421). -/
def decPad [NonUnitalNonAssocSemiring R] (oddMode : Option String) (pad : Bool) (lo : Tensor R) :
    Except Err (Tensor R) :=
  if pad then do
    let u ← lo.matT.unsqueeze1
    let u ← fwtPadWith u oddMode [0, 1]
    pure u.squeeze1.matT
  else .ok lo

/-- The loop of `MatrixWavedec.__call__`, `matmul_transform.py:356-430` (lines 411-424); the last
approximation and the details in the order they are appended.  `torch.split` into halves returns two
tensors only for an even, positive number of rows (ValueError at the unpacking otherwise). -/
def matDecLoop [NonUnitalNonAssocSemiring R] (oddMode : Option String) :
    List (Coo R) → List Bool → Tensor R → Except Err (Tensor R × List (Tensor R))
  | [], _, lo => .ok (lo, [])
  | _ :: _, [], _ => .error .indexError
  | A :: mats, p :: ps, lo => do
    let lo ← decPad oddMode p lo
    let c ← A.mmDense lo
    let m := c.shape.getD 0 0
    if m % 2 = 0 ∧ 0 < m then do
      let r ← matDecLoop oddMode mats ps (c.slice 0 0 (m / 2))
      pure (r.1, c.slice 0 (m / 2) m :: r.2)
    else .error .valueError

/-- The padding of odd inputs in `MatrixWavedec.__call__`, `matmul_transform.py:356-430` (lines
381-388). -/
def decPadInput [NonUnitalNonAssocSemiring R] (oddMode : Option String) (y : Tensor R) :
    Except Err (Tensor R) :=
  if y.sizeFromEnd 1 % 2 ≠ 0 then fwtPadWith y oddMode [0, 1] else .ok y

/-- The transform with given matrices, `MatrixWavedec.__call__`, `matmul_transform.py:356-430` (lines
409-430). -/
def decApply [NonUnitalNonAssocSemiring R] (cfg : DecCfg R) (mats : List (Coo R)) (pads : List Bool)
    (y : Tensor R) (ds : List Nat) : Except Err (List (Tensor R)) := do
  let r ← matDecLoop cfg.oddMode mats pads y.matT
  let c ← postprocessCoeffs (Coeffs.ofList ((r.2 ++ [r.1]).reverse.map matT)) 1 ds (.int cfg.axis)
  pure c.toList

/-- The part of `MatrixWavedec.__call__`, `matmul_transform.py:356-430` (lines 374-388), that does not
touch the attributes. -/
def decInput [NonUnitalNonAssocSemiring R] (cfg : DecCfg R) (x : Tensor R) :
    Except Err (Tensor R × List Nat) := do
  let p ← preprocessTensor x 1 (.int cfg.axis) false
  let y ← decPadInput cfg.oddMode p.1
  pure (y, p.2)

/-- `MatrixWavedec.__call__`, `matmul_transform.py:356-430`. -/
def decCall [Field R] [DecidableEq R] (la : LinAlg R) (cfg : DecCfg R) (st : DecState R)
    (x : Tensor R) : Except Err (List (Tensor R)) × DecState R :=
  match decInput cfg x with
  | .error e => (.error e, st)
  | .ok p =>
    match decPrepare la cfg p.1.md (p.1.sizeFromEnd 1) st with
    | (.error e, st) => (.error e, st)
    | (.ok _, st) => (decApply cfg st.mats st.padList p.1 p.2, st)

/-- The product loop of `MatrixWavedec.sparse_fwt_operator`, `matmul_transform.py:269-308` (lines
299-303). -/
def fwtOperatorLoop [NonAssocSemiring R] : Coo R → List (Coo R) → Except Err (Coo R)
  | acc, [] => .ok acc
  | acc, M :: rest => do
    let M ← catSparseIdentity M acc.rows
    let acc ← M.mm acc
    fwtOperatorLoop acc rest

/-- `MatrixWavedec.sparse_fwt_operator`, `matmul_transform.py:269-308`. -/
def sparseFwtOperator [NonAssocSemiring R] (st : DecState R) : Except Err (Coo R) :=
  match st.mats with
  | [] => .error .valueError
  | [A] => .ok A
  | A :: rest => if st.padded then .error .notImplementedError else fwtOperatorLoop A rest

/-- The attributes of `MatrixWaverec` that no method changes, `matmul_transform.py:545-547`. -/
structure RecCfg (R : Type) where
  wavelet : Wavelet R
  axis : List Int
  orth : String

/-- The attributes of `MatrixWaverec` that calls change, `matmul_transform.py:548-551`. -/
structure RecState (R : Type) where
  level : Option Nat
  inputLength : Option Nat
  mats : List (Coo R)
  padded : Bool

/-- `MatrixWaverec.__init__`, `matmul_transform.py:516-557`. -/
def recInit (w : Wavelet R) (axis : AxisHint) (orth : String) : Except Err (RecCfg R × RecState R) :=
  match ensureAxes axis 1 with
  | .error e => .error e
  | .ok as =>
    if isOrthogonalizeMethodSupported orth = false then .error .notImplementedError
    else if w.decLo.length ≠ w.recLo.length then .error .valueError
    else .ok (⟨w, as, orth⟩, ⟨none, none, [], false⟩)

/-- The loop of `MatrixWaverec._construct_synthesis_matrices`, `matmul_transform.py:603-642` (lines
615-642).  (`size_list` is not read anywhere and is left out.) -/
def recBuildLoop [Field R] [DecidableEq R] (la : LinAlg R) (cfg : RecCfg R) (md : Meta) :
    Nat → Nat → RecState R → Except Err Unit × RecState R
  | 0, _, st => (.ok (), st)
  | k + 1, curr, st =>
    if curr < cfg.wavelet.recLo.length then (.ok (), st)
    else
      let c := if curr % 2 ≠ 0 then curr + 1 else curr
      let st := { st with padded := st.padded || decide (curr % 2 ≠ 0) }
      match constructBoundaryS la cfg.wavelet md c cfg.orth with
      | .error e => (.error e, st)
      | .ok s => recBuildLoop la cfg md k (c / 2) { st with mats := st.mats ++ [s] }

/-- The bookkeeping of `MatrixWaverec.__call__`, `matmul_transform.py:644-703` (lines 664-677). -/
def recPrepare [Field R] [DecidableEq R] (la : LinAlg R) (cfg : RecCfg R) (md : Meta) (level n : Nat)
    (st : RecState R) : Except Err Unit × RecState R :=
  if st.mats.isEmpty ∨ st.level ≠ some level ∨ st.inputLength ≠ some n then
    recBuildLoop la cfg md level n ⟨some level, some n, [], false⟩
  else (.ok (), st)

/-- The removal of the padding in the loop of `MatrixWaverec.__call__`, `matmul_transform.py:644-703`
(lines 690-699); `next` is the next detail, if there is one. -/
def recCrop [Zero R] (lo : Tensor R) : Option (Tensor R) → Except Err (Tensor R)
  | none => .ok lo
  | some nx =>
    let pred := lo.shape.getD 0 0
    let next := nx.shape.getD 0 0
    if next ≠ pred then
      let lo := lo.slice 0 0 (pred - 1)
      if lo.shape.getD 0 0 = next then .ok lo else .error .assertionError
    else .ok lo

/-- The loop of `MatrixWaverec.__call__`, `matmul_transform.py:644-703` (lines 683-699); the first list
is the reversed matrix list from the current position on. -/
def matRecLoop [NonUnitalNonAssocSemiring R] :
    List (Coo R) → Tensor R → List (Tensor R) → Except Err (Tensor R)
  | _, lo, [] => .ok lo
  | ms, lo, hi :: rest =>
    if lo.shape ≠ hi.shape then .error .valueError
    else do
      let l ← cat2 lo hi 0
      match ms with
      | [] => .error .indexError
      | M :: ms => do
        let l ← M.mmDense l
        let l ← recCrop l rest.head?
        matRecLoop ms l rest

/-- The input of `MatrixWaverec.__call__`, `matmul_transform.py:644-703` (lines 661-662): folded
coefficients, shape, common dtype and device. -/
def recInput [Zero R] (cfg : RecCfg R) (coeffs : Coeffs R) :
    Except Err (List (Tensor R) × List Nat × Meta) := do
  let p ← preprocessCoeffs coeffs 1 (.seq cfg.axis) false
  let md ← checkSameDeviceDtype p.1
  pure (p.1.toList, p.2, md)

/-- The transform with given matrices, `MatrixWaverec.__call__`, `matmul_transform.py:644-703` (lines
679-703). -/
def recApply [NonUnitalNonAssocSemiring R] (cfg : RecCfg R) (mats : List (Coo R))
    (coeffs : List (Tensor R)) (ds : List Nat) : Except Err (Tensor R) :=
  match coeffs.map matT with
  | [] => .error .indexError
  | lo :: his => do
    let r ← matRecLoop mats.reverse lo his
    postprocessTensor r.matT 1 ds (.seq cfg.axis)

/-- `MatrixWaverec.__call__`, `matmul_transform.py:644-703`. -/
def recCall [Field R] [DecidableEq R] (la : LinAlg R) (cfg : RecCfg R) (st : RecState R)
    (coeffs : List (Tensor R)) : Except Err (Tensor R) × RecState R :=
  match recInput cfg (Coeffs.ofList coeffs) with
  | .error e => (.error e, st)
  | .ok (cs, ds, md) =>
    match recPrepare la cfg md (cs.length - 1) ((cs.getLast?.map fun c => c.sizeFromEnd 1).getD 0 * 2) st with
    | (.error e, st) => (.error e, st)
    | (.ok _, st) => (recApply cfg st.mats cs ds, st)

/-- The product loop of `MatrixWaverec.sparse_ifwt_operator`, `matmul_transform.py:560-601` (lines
590-596); the list is `ifwt_matrix_list[:-1][::-1]`. -/
def ifwtOperatorLoop [NonAssocSemiring R] : Coo R → List (Coo R) → Except Err (Coo R)
  | acc, [] => .ok acc
  | acc, M :: rest => do
    let acc ← catSparseIdentity acc M.rows
    let acc ← M.mm acc
    ifwtOperatorLoop acc rest

/-- `MatrixWaverec.sparse_ifwt_operator`, `matmul_transform.py:560-601`. -/
def sparseIfwtOperator [NonAssocSemiring R] (st : RecState R) : Except Err (Coo R) :=
  match st.mats.reverse with
  | [] => .error .valueError
  | [A] => .ok A
  | A :: rest => if st.padded then .error .notImplementedError else ifwtOperatorLoop A rest

end Verif
