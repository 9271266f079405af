/-
What `MatrixWaverec3.__call__` (src/ptwt/matmul_transform_3.py) does to the coefficients it is given: line
469 writes the approximation into the detail dictionaries, which are the caller's own if preprocessing
handed them on.
-/
import Verif.Model.MatN
import Verif.Model.SepConv

namespace Verif
variable {R : Type}

/-- The detail entries after the loop of `MatrixWaverec3.__call__`, `matmul_transform_3.py:408-475` (lines
453-473): every dictionary the loop reaches and accepts holds the approximation under `aaa`; an error
ends the loop.  (Simplification: no dictionary object occurs twice in the container.) -/
def mrec3Entries [NonUnitalNonAssocSemiring R] (mats : List (List (Coo R))) :
    Nat → Tensor R → List (Entry R) → List (Entry R)
  | _, _, [] => []
  | k, lll, e :: rest =>
    match e with
    | .dict kv =>
      if kv.length = 7 ∧ sameShapes kv = true then
        match mrec3Step mats[k - 1]? lll e with
        | .error _ => .dict (dictSet kv "aaa" lll) :: rest
        | .ok r => .dict (dictSet kv "aaa" lll) :: mrec3Entries mats (k - 1) r rest
      else e :: rest
    | _ => e :: rest

/-- The coefficients `MatrixWaverec3.__call__` works on, after lines 452-473 of
`matmul_transform_3.py:408-475`. -/
def mrec3Container [NonUnitalNonAssocSemiring R] (mats : List (List (Coo R))) (c : Coeffs R) : Coeffs R :=
  match c.items with
  | .tensor t :: rest => ⟨c.isList, .tensor t :: mrec3Entries mats rest.length t rest⟩
  | _ => c

/-- The caller's coefficients after `MatrixWaverec3.__call__`, `matmul_transform_3.py:408-475`: an error
before line 452 leaves them as they are, and so does a preprocessing that makes copies. -/
def recArgs3 [Field R] [DecidableEq R] (la : LinAlg R) (cfg : RecCfgN R) (st : RecStateN R)
    (coeffs : Coeffs R) : Coeffs R :=
  match recInputN 3 cfg coeffs with
  | .error _ => coeffs
  | .ok (c, _, md, s) =>
    match recPrepareN la cfg md (c.items.length - 1) s st with
    | (.error _, _) => coeffs
    | (.ok _, st) => if preAliases coeffs 3 (.seq cfg.axes) then mrec3Container st.mats c else coeffs

end Verif
