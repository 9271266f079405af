/-
Model of the orthogonalisation of filter matrices: `_orth_by_qr` and `_orth_by_gram_schmidt` of
src/ptwt/sparse_math.py, and the matrix constructions of src/ptwt/matmul_transform.py.
-/
import Verif.Model.SparseMath
import Verif.Model.Util
import Mathlib.Algebra.Field.Basic

namespace Verif
open Tensor
variable {R : Type}

/-- The numerical routines the orthogonalisation calls: the square root inside `torch.native_norm` and
the first factor of `torch.linalg.qr` (reduced mode). -/
structure LinAlg (R : Type) [Zero R] where
  sqrt : R → R
  qr : Tensor R → Tensor R

/-- `torch.unique_consecutive(l, return_counts=True)`. -/
def uniqueConsecutive : List Nat → List (Nat × Nat)
  | [] => []
  | a :: l =>
    match uniqueConsecutive l with
    | [] => [(a, 1)]
    | (b, c) :: r => if a = b then (b, c + 1) :: r else (a, 1) :: (b, c) :: r

/-- `_get_to_orthogonalize`, `matmul_transform.py:121-136`. -/
def getToOrthogonalize [AddCommMonoid R] (A : Coo R) (filtLen : Nat) : List Nat :=
  ((uniqueConsecutive (A.coalesce.ents.map fun e => e.1)).filter fun u => u.2 ≠ filtLen).map fun u => u.1

/-- The value of the one-by-one product in `_orth_by_gram_schmidt`, `sparse_math.py:314-347`
(lines 336-340): 0 if nothing is stored; `.item()` of several values is a RuntimeError. -/
def itemOrZero [AddCommMonoid R] (A : Coo R) : Except Err R :=
  match A.coalesce.ents with
  | [] => .ok 0
  | [e] => .ok e.2.2
  | _ => .error .runtimeError

/-- The inner loop of `_orth_by_gram_schmidt`, `sparse_math.py:314-347` (lines 333-341): the sum of the
projections of the current row on the rows in `done`. -/
def gsInner [Semiring R] (A cur : Coo R) : List Nat → Coo R → Except Err (Coo R)
  | [], s => .ok s
  | d :: ds, s => do
    let row := A.selectRow d
    let p ← cur.mm row.transpose
    let c ← itemOrZero p
    let s ← s.addInplace (row.mapVals fun v => c * v)
    gsInner A cur ds s

/-- `torch.native_norm(A)` of a sparse matrix: the norm of the coalesced values. -/
def sparseNorm [Semiring R] (la : LinAlg R) (A : Coo R) : R :=
  la.sqrt (A.coalesce.ents.map fun e => e.2.2 * e.2.2).sum

/-- The loop of `_orth_by_gram_schmidt`, `sparse_math.py:314-347` (lines 330-346).  Division by a zero
norm gives non-finite numbers in the code; the theorems exclude it. -/
def gsLoop [Field R] (la : LinAlg R) : Coo R → List Nat → List Nat → Except Err (Coo R)
  | A, _, [] => .ok A
  | A, done, k :: ks => do
    let cur := A.selectRow k
    let s ← gsInner A cur done cur.zerosLike
    let o ← cur.sub s
    let length := sparseNorm la o
    let A ← sparseReplaceRow A k (o.mapVals fun v => v / length)
    gsLoop la A (done ++ [k]) ks

/-- `_orth_by_gram_schmidt`, `sparse_math.py:314-347`. -/
def orthByGramSchmidt [Field R] (la : LinAlg R) (A : Coo R) (rows : List Nat) : Except Err (Coo R) :=
  gsLoop la A [] rows

/-- The final loop of `_orth_by_qr`, `sparse_math.py:253-311` (lines 298-310): `pos` counts the rows of
`q`, `rows` are the remaining `rows_to_orthogonalize` (IndexError if there are too few). -/
def qrLoop [Semiring R] (A Q : Coo R) : Nat → Nat → List Nat → Coo R → Except Err (Coo R)
  | 0, _, _, acc => .ok acc
  | _ + 1, _, [], _ => .error .indexError
  | m + 1, pos, r :: rs, acc => do
    let row := (Q.selectRow pos).coalesce
    let addition ← Coo.mk? A.md A.rows A.cols
      (row.ents.map fun e => ((e.1 : Int) + r, (e.2.1 : Int), e.2.2))
    let acc ← acc.addInplace addition
    qrLoop A Q m (pos + 1) rs acc

/-- `_orth_by_qr`, `sparse_math.py:253-311`.  The selection matrix is built without a size (line 276),
so its size is inferred from the indices. -/
def orthByQr [Semiring R] [DecidableEq R] (la : LinAlg R) (A : Coo R) (rows : List Nat) :
    Except Err (Coo R) := do
  let selection := Coo.infer A.md (rows.mapIdx fun (k r : Nat) => (k, r, (1 : R)))
  let sel ← selection.mm A
  let q := la.qr sel.toDense.matT
  let Q ← Coo.ofDense q.matT
  let removal ← Coo.mk? A.md A.rows A.cols
    ((List.range A.rows).map fun (i : Nat) => ((i : Int), (i : Int), if i ∈ rows then (0 : R) else 1))
  let result ← removal.mm A
  let result ← qrLoop A Q Q.rows 0 rows result
  pure result.coalesce

/-- `orthogonalize`, `matmul_transform.py:139-165`. -/
def orthogonalize [Field R] [DecidableEq R] (la : LinAlg R) (A : Coo R) (filtLen : Nat)
    (method : String) : Except Err (Coo R) :=
  let rows := getToOrthogonalize A filtLen
  if rows = [] then .ok A
  else if method = "qr" then orthByQr la A rows
  else if method = "gramschmidt" then orthByGramSchmidt la A rows
  else .error .valueError

/-- `_construct_a`, `matmul_transform.py:47-81`.  The filters are used as they are (`flip=False`);
`squeeze` leaves filters of at least two taps alone. -/
def constructA [NonAssocSemiring R] (w : Wavelet R) (md : Meta) (length : Nat) (mode : String) :
    Except Err (Coo R) := do
  let lo ← constructStridedConvMatrix md w.decLo length 2 mode
  let hi ← constructStridedConvMatrix md w.decHi length 2 mode
  lo.cat0 hi

/-- `_construct_s`, `matmul_transform.py:84-118`.  The filters are flipped. -/
def constructS [NonAssocSemiring R] (w : Wavelet R) (md : Meta) (length : Nat) (mode : String) :
    Except Err (Coo R) := do
  let lo ← constructStridedConvMatrix md w.recLo.reverse length 2 mode
  let hi ← constructStridedConvMatrix md w.recHi.reverse length 2 mode
  let m ← lo.cat0 hi
  pure m.transpose

/-- `construct_boundary_a`, `matmul_transform.py:434-463`. -/
def constructBoundaryA [Field R] [DecidableEq R] (la : LinAlg R) (w : Wavelet R) (md : Meta)
    (length : Nat) (method : String) : Except Err (Coo R) := do
  let a ← constructA w md length "sameshift"
  orthogonalize la a w.decLo.length method

/-- `construct_boundary_s`, `matmul_transform.py:467-499`. -/
def constructBoundaryS [Field R] [DecidableEq R] (la : LinAlg R) (w : Wavelet R) (md : Meta)
    (length : Nat) (method : String) : Except Err (Coo R) := do
  let s ← constructS w md length "sameshift"
  let o ← orthogonalize la s.transpose w.recLo.length method
  pure o.transpose

end Verif
