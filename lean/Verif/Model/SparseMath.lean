/-
Model of src/ptwt/sparse_math.py (the orthogonalisation functions are in Model/Orth.lean).
-/
import Verif.Torch.Sparse

namespace Verif
open Tensor
variable {R : Type}

/-- `_dense_kron`, `sparse_math.py:11-29`.  Dense matrices are functions here; `to_sparse` drops
zeros. -/
def denseKron [NonUnitalNonAssocSemiring R] [DecidableEq R] (A B : Coo R) : Except Err (Coo R) :=
  if A.md.device ≠ B.md.device then .error .runtimeError
  else Coo.ofDense (Tensor.ofFn ⟨Coo.promote A.md.dtype B.md.dtype, A.md.device⟩
    [A.rows * B.rows, A.cols * B.cols] fun i =>
      A.den (i.getD 0 0 / B.rows) (i.getD 1 0 / B.cols) *
        B.den (i.getD 0 0 % B.rows) (i.getD 1 0 % B.cols))

/-- `sparse_kron`, `sparse_math.py:32-96`.  In the case of a factor without stored entries the result
is a float32 matrix whatever the dtype of the factors is (lines 64-71). -/
def sparseKron [NonUnitalNonAssocSemiring R] (A B : Coo R) : Except Err (Coo R) :=
  if A.md.device ≠ B.md.device then .error .valueError
  else
    let a := A.coalesce
    let b := B.coalesce
    if a.ents = [] ∨ b.ents = [] then
      Coo.mk? ⟨.float32, a.md.device⟩ (a.rows * b.rows) (a.cols * b.cols) [(0, 0, 0)]
    else
      Coo.mk? ⟨Coo.promote a.md.dtype b.md.dtype, a.md.device⟩ (a.rows * b.rows) (a.cols * b.cols)
        (a.ents.flatMap fun e => b.ents.map fun f =>
          ((e.1 * b.rows + f.1 : Nat), (e.2.1 * b.cols + f.2.1 : Nat), e.2.2 * f.2.2))

/-- A natural number rounded to `p` significant bits, ties to even: the value of an integer index
stored in a floating point tensor. -/
def roundBits (p k : Nat) : Nat :=
  if k < 2 ^ p then k
  else
    let e := Nat.log2 k + 1 - p
    let q := k / 2 ^ e
    let r := k % 2 ^ e
    if 2 ^ e < 2 * r ∨ 2 * r = 2 ^ e ∧ q % 2 = 1 then (q + 1) * 2 ^ e else q * 2 ^ e

/-- Precision of the floating point dtypes; 64 for the others (no rounding). -/
def mantissaBits : DType → Nat
  | .float16 => 11
  | .bfloat16 => 8
  | .float32 => 24
  | .float64 => 53
  | _ => 64

/-- `cat_sparse_identity_matrix`, `sparse_math.py:99-151`.  The extra indices have the dtype of the
matrix (lines 128-139), `torch.cat` promotes all indices to it (line 146), and
`torch.sparse_coo_tensor` converts them back to integers (line 148): they are rounded to the
precision of the dtype.  `dim` and `is_sparse` (line 116) hold by typing. -/
def catSparseIdentity [NonAssocSemiring R] (A : Coo R) (newLength : Int) : Except Err (Coo R) :=
  if A.rows ≠ A.cols then .error .valueError
  else if newLength < A.rows then .error .valueError
  else if newLength = A.rows then .ok A
  else
    let rd := roundBits (mantissaBits A.md.dtype)
    .ok (Coo.infer A.md
      ((A.coalesce.ents.map fun e => (rd e.1, rd e.2.1, e.2.2)) ++
        (List.range (newLength.toNat - A.rows)).map fun k => (rd (A.rows + k), rd (A.rows + k), 1)))

/-- `sparse_diag`, `sparse_math.py:154-201`.  The masks of lines 184 and 188 are no-ops if they are not
needed.  `torch.max` of an empty tensor (lines 184, 188) is a RuntimeError. -/
def sparseDiag (md : Meta) (diagonal : List R) (off : Int) (rows cols : Nat) :
    Except Err (Coo R) :=
  if diagonal = [] then .error .runtimeError
  else
    let ents := diagonal.mapIdx fun k v =>
      (k + (if off < 0 then off.natAbs else 0), k + (if 0 < off then off.toNat else 0), v)
    let ents := ents.filter fun e => e.1 < rows
    if ents = [] then .error .runtimeError
    else
      let ents := ents.filter fun e => e.2.1 < cols
      Coo.mk? md rows cols (ents.map fun e => ((e.1 : Int), (e.2.1 : Int), e.2.2))

/-- `sparse_replace_row`, `sparse_math.py:204-250`, for a one-row sparse matrix `row` and an index
that `diag[row_index]` accepts (IndexError otherwise, line 232). -/
def sparseReplaceRow [NonAssocSemiring R] (A : Coo R) (rowIndex : Int) (row : Coo R) :
    Except Err (Coo R) := do
  let A := A.coalesce
  if A.cols ≠ row.cols then throw .valueError
  let k ← normAxis A.rows rowIndex
  let removal ← Coo.mk? A.md A.rows A.cols
    ((List.range A.rows).map fun (i : Nat) => ((i : Int), (i : Int), if i = k then (0 : R) else 1))
  let addition ← Coo.mk? A.md A.rows A.cols
    (row.coalesce.ents.map fun e => ((e.1 : Int) + rowIndex, (e.2.1 : Int), e.2.2))
  let m ← removal.mm A
  m.add addition

/-- First and last row of the full convolution that a padding mode keeps, the case distinction of
`construct_conv_matrix`, `sparse_math.py:350-405` (lines 374-388). -/
def convRange (mode : String) (F n : Nat) : Except Err (Int × Int) :=
  if mode = "full" then .ok (0, n + F - 1)
  else if mode = "same" ∨ mode = "sameshift" then
    .ok (((F / 2 : Nat) : Int) - 1 + (F % 2 : Nat), ((F / 2 : Nat) : Int) - 1 + (F % 2 : Nat) + n - 1)
  else if mode = "valid" then .ok (F - 1, n - 1)
  else .error .valueError

/-- `construct_conv_matrix`, `sparse_math.py:350-405`, of a filter given by its taps.  `torch.stack` of
an empty list (line 401) is a RuntimeError. -/
def constructConvMatrix [Zero R] (md : Meta) (f : List R) (n : Nat) (mode : String) :
    Except Err (Coo R) := do
  let s ← convRange mode f.length n
  let lst := (Coo.grid n f.length).filter fun q =>   -- the pairs (col, row)
    s.1 ≤ ((q.2 + q.1 : Nat) : Int) ∧ ((q.2 + q.1 : Nat) : Int) ≤ s.2
  if lst = [] then throw .runtimeError
  pure (Coo.infer md (lst.map fun q =>
    ((((q.2 + q.1 : Nat) : Int) - s.1).toNat, q.1, f.getD q.2 0)))

/-- Column `i` of a two-dimensional filter, `filter[:, i]`. -/
def filterColumn [Zero R] (f : Tensor R) (i : Nat) : List R :=
  (List.range (f.shape.getD 0 0)).map fun r => f.get [r, i]

/-- Index of the first diagonal and number of block rows, the case distinction of
`construct_conv2d_matrix`, `sparse_math.py:408-479` (lines 447-458). -/
def kronRange (mode : String) (kc cols : Nat) : Except Err (Int × Int) :=
  if mode = "full" then .ok (0, cols + kc - 1)
  else if mode = "same" ∨ mode = "sameshift" then
    .ok (((kc / 2 : Nat) : Int) - 1 + (kc % 2 : Nat), cols)
  else if mode = "valid" then .ok (kc - 1, cols - kc + 1)
  else .error .valueError

/-- The loop of `construct_conv2d_matrix`, `sparse_math.py:408-479` (lines 474-477). -/
def conv2dLoop (kron : Coo R → Coo R → Except Err (Coo R)) (diag : Int → Except Err (Coo R)) :
    Int → Coo R → List (Coo R) → Except Err (Coo R)
  | _, acc, [] => .ok acc
  | d, acc, b :: bs => do
    let D ← diag (d - 1)
    let K ← kron D b
    let acc ← acc.addInplace K
    conv2dLoop kron diag (d - 1) acc bs

/-- `construct_conv2d_matrix`, `sparse_math.py:408-479`, of a two-dimensional filter.  `torch.ones` of
a negative size (line 466) is a RuntimeError, and so is `torch.max` of no entries for size 0.  A
filter without columns is an IndexError at `block_matrix_list[0]` (line 472).  In `+=` (line 477) a float64
summand is cast to the dtype of the first one. -/
def constructConv2dMatrix [NonAssocSemiring R] [DecidableEq R] (f : Tensor R) (rows cols : Nat)
    (mode : String) (fullySparse : Bool) : Except Err (Coo R) := do
  let kron := if fullySparse then sparseKron else denseKron
  let kc := f.sizeFromEnd 1
  let s ← kronRange mode kc cols
  let blocks ← (List.range kc).mapM fun i => constructConvMatrix f.md (filterColumn f i) rows mode
  let diag := fun d => sparseDiag f.md (List.replicate (min s.2 cols).toNat (1 : R)) d s.2.toNat cols
  let D ← diag s.1
  match blocks with
  | [] => throw .indexError
  | b :: bs => do
    let K ← kron D b
    conv2dLoop kron diag s.1 K bs

/-- `torch.arange(start, stop, stride)` for a positive stride and `start ≤ stop`. -/
def arange (start stop stride : Nat) : List Nat :=
  (List.range ((stop - start + stride - 1) / stride)).map fun k => start + stride * k

/-- `construct_strided_conv_matrix`, `sparse_math.py:482-516`. -/
def constructStridedConvMatrix [NonAssocSemiring R] (md : Meta) (f : List R) (n stride : Nat)
    (mode : String) : Except Err (Coo R) := do
  let C ← constructConvMatrix md f n mode
  if stride = 0 then throw .runtimeError
  let sel := arange (if mode = "sameshift" then 1 else 0) C.rows stride
  let S ← Coo.mk? md sel.length C.rows (sel.mapIdx fun (k v : Nat) => ((k : Int), (v : Int), (1 : R)))
  S.mm C

/-- `construct_strided_conv2d_matrix`, `sparse_math.py:519-587`.  A step of 0 in the slices
(line 571) is a ValueError; negative sizes have already raised in `construct_conv2d_matrix`. -/
def constructStridedConv2dMatrix [NonAssocSemiring R] [DecidableEq R] (f : Tensor R)
    (rows cols stride : Nat) (mode : String) : Except Err (Coo R) := do
  let fh := f.shape.getD 0 0
  let fw := f.shape.getD 1 0
  let out : Nat × Nat ←
    (if mode = "full" then pure (fh + rows - 1, fw + cols - 1)
    else if mode = "valid" then pure (rows + 1 - fh, cols + 1 - fw)
    else if mode = "same" ∨ mode = "sameshift" then pure (rows, cols)
    else throw .valueError)
  let C ← constructConv2dMatrix f rows cols mode true
  if stride = 0 then throw .valueError
  let start := if mode = "sameshift" then 1 else 0
  let sel := (arange start out.2 stride).flatMap fun c =>
    (arange start out.1 stride).map fun r => c * out.1 + r
  let S ← Coo.mk? C.md sel.length C.rows (sel.mapIdx fun (k v : Nat) => ((k : Int), (v : Int), (1 : R)))
  S.mm C

/-- `batch_mm`, `sparse_math.py:590-613`, for a sparse matrix.  IndexError for a batch of rank < 2. -/
def batchMm [NonUnitalNonAssocSemiring R] (A : Coo R) (X : Tensor R) : Except Err (Tensor R) := do
  if X.rank < 2 then throw .indexError
  if A.cols ≠ X.shape.getD 1 0 then throw .valueError
  let v ← (X.transpose 0 1).reshapeInfer [A.cols] []
  let y ← A.mmDense v
  let z ← y.reshapeInfer [A.rows, X.shape.getD 0 0] []
  pure (z.transpose 1 0)

/-- `_batch_dim_mm`, `sparse_math.py:616-636`. -/
def batchDimMm [NonUnitalNonAssocSemiring R] (A : Coo R) (X : Tensor R) (dim : Int) :
    Except Err (Tensor R) := do
  let d ← normAxis X.rank dim
  let p := X.transpose d (X.rank - 1)
  let v ← p.reshapeInfer [] [X.shape.getD d 0]
  let y ← A.mmDense v.matT
  let z ← y.matT.reshape (p.shape.dropLast ++ [A.rows])
  pure (z.transpose (X.rank - 1) d)

end Verif
