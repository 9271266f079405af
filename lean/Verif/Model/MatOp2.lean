/-
Model of the operator matrices of the two-dimensional matrix transforms: the properties
`sparse_fwt_operator` of `MatrixWavedec2` and `sparse_ifwt_operator` of `MatrixWaverec2`
(src/ptwt/matmul_transform_2.py).  The loops are literally those of the one-dimensional classes.
-/
import Verif.Model.MatN

namespace Verif
variable {R : Type}

/-- `MatrixWavedec2.sparse_fwt_operator`, `matmul_transform_2.py:347-383`.  Without `separable` every
entry of the list of matrices is one matrix. -/
def sparseFwtOperator2 [NonAssocSemiring R] (cfg : DecCfgN R) (st : DecStateN R) : Except Err (Coo R) :=
  if cfg.separable then .error .notImplementedError
  else match st.mats.flatten with
    | [] => .error .valueError
    | [A] => .ok A
    | A :: rest => if st.padded then .error .notImplementedError else fwtOperatorLoop A rest

/-- `MatrixWaverec2.sparse_ifwt_operator`, `matmul_transform_2.py:640-675`. -/
def sparseIfwtOperator2 [NonAssocSemiring R] (cfg : RecCfgN R) (st : RecStateN R) : Except Err (Coo R) :=
  if cfg.separable then .error .notImplementedError
  else match st.mats.flatten.reverse with
    | [] => .error .valueError
    | [A] => .ok A
    | A :: rest => if st.padded then .error .notImplementedError else ifwtOperatorLoop A rest

end Verif
