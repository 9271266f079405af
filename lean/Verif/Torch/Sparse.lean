/-
Trusted semantics of the sparse COO matrices of torch and of the sparse primitives ptwt uses.

A sparse matrix is a size, meta data and a list of stored entries `(row, column, value)` within the
size; the matrix it denotes has at every position the sum of the values stored there (`den`).
Stored zeros are stored entries.
-/
import Verif.Torch.Tensor
import Mathlib.Algebra.BigOperators.Group.List.Basic
import Mathlib.Tactic.Ring

namespace Verif

/-- A two-dimensional `torch.sparse_coo` tensor. -/
structure Coo (R : Type) where
  md : Meta
  rows : Nat
  cols : Nat
  ents : List (Nat × Nat × R)
  bound : ∀ e ∈ ents, e.1 < rows ∧ e.2.1 < cols

namespace Coo
variable {R : Type}

/-- The matrix a COO tensor denotes: duplicate entries are summed. -/
def den [AddCommMonoid R] (A : Coo R) (i j : Nat) : R :=
  (A.ents.map fun e => if e.1 = i ∧ e.2.1 = j then e.2.2 else 0).sum

/-- There is a stored entry at the position (possibly a stored zero). -/
def Stored (A : Coo R) (i j : Nat) : Prop := ∃ e ∈ A.ents, e.1 = i ∧ e.2.1 = j

instance (A : Coo R) (i j : Nat) : Decidable (A.Stored i j) := by unfold Stored; infer_instance

/-- `torch.sparse_coo_tensor(indices, values, size=(rows, cols))`: RuntimeError if an index is out of
range.  The indices are given as integers. -/
def mk? (md : Meta) (rows cols : Nat) (ents : List (Int × Int × R)) : Except Err (Coo R) :=
  if h : ∀ e ∈ ents, 0 ≤ e.1 ∧ e.1 < rows ∧ 0 ≤ e.2.1 ∧ e.2.1 < cols then
    .ok ⟨md, rows, cols, ents.map fun e => (e.1.toNat, e.2.1.toNat, e.2.2), by
      intro e he
      obtain ⟨e', he', rfl⟩ := List.mem_map.mp he
      have := h e' he'
      constructor <;> simp only <;> omega⟩
  else .error .runtimeError

/-- `torch.sparse_coo_tensor(indices, values)` without a size: the size is inferred as the largest
index plus one. -/
def infer (md : Meta) (ents : List (Nat × Nat × R)) : Coo R where
  md := md
  rows := (ents.map fun e => e.1 + 1).foldr max 0
  cols := (ents.map fun e => e.2.1 + 1).foldr max 0
  ents := ents
  bound := by
    have key : ∀ (l : List Nat) (k : Nat), k ∈ l → k ≤ l.foldr max 0 := by
      intro l
      induction l with
      | nil => intro k hk; cases hk
      | cons a l ih =>
        intro k hk
        rcases List.mem_cons.mp hk with rfl | hk
        · exact le_max_left _ _
        · exact le_trans (ih k hk) (le_max_right _ _)
    intro e he
    exact ⟨key _ _ (List.mem_map.mpr ⟨e, he, rfl⟩), key _ _ (List.mem_map.mpr ⟨e, he, rfl⟩)⟩

/-- All positions of a matrix in row-major order. -/
def grid (rows cols : Nat) : List (Nat × Nat) :=
  (List.range rows).flatMap fun i => (List.range cols).map fun j => (i, j)

theorem mem_grid {rows cols : Nat} {p : Nat × Nat} :
    p ∈ grid rows cols ↔ p.1 < rows ∧ p.2 < cols := by
  obtain ⟨i, j⟩ := p
  simp only [grid, List.mem_flatMap, List.mem_range, List.mem_map, Prod.mk.injEq]
  constructor
  · rintro ⟨a, ha, b, hb, rfl, rfl⟩; exact ⟨ha, hb⟩
  · rintro ⟨h1, h2⟩; exact ⟨i, h1, j, h2, rfl, rfl⟩

/-- A matrix stored at the positions satisfying `p`, in row-major order. -/
def ofFn (md : Meta) (rows cols : Nat) (p : Nat → Nat → Prop) [∀ i j, Decidable (p i j)]
    (f : Nat → Nat → R) : Coo R where
  md := md
  rows := rows
  cols := cols
  ents := ((grid rows cols).filter fun q => p q.1 q.2).map fun q => (q.1, q.2, f q.1 q.2)
  bound := by
    intro e he
    obtain ⟨q, hq, rfl⟩ := List.mem_map.mp he
    exact mem_grid.mp (List.mem_of_mem_filter hq)

/-- `A.coalesce()`: one entry per stored position, in row-major order. -/
def coalesce [AddCommMonoid R] (A : Coo R) : Coo R := ofFn A.md A.rows A.cols A.Stored A.den

/-- `A.transpose(0, 1)` / `A.T`. -/
def transpose (A : Coo R) : Coo R where
  md := A.md
  rows := A.cols
  cols := A.rows
  ents := A.ents.map fun e => (e.2.1, e.1, e.2.2)
  bound := by
    intro e he
    obtain ⟨e', he', rfl⟩ := List.mem_map.mp he
    exact (A.bound e' he').symm

/-- `torch.sparse.mm(A, B)` of two sparse matrices: RuntimeError if the sizes or the meta data do not
match; the result stores the positions reached by stored entries of the factors. -/
def mm [NonUnitalNonAssocSemiring R] (A B : Coo R) : Except Err (Coo R) :=
  if A.cols = B.rows ∧ A.md = B.md then
    .ok (ofFn A.md A.rows B.cols (fun i k => ∃ j < A.cols, A.Stored i j ∧ B.Stored j k)
      fun i k => ∑ j ∈ Finset.range A.cols, A.den i j * B.den j k)
  else .error .runtimeError

/-- The dtype of a sum or product of two tensors, `torch.promote_types(a, b)`. -/
def promote (a b : DType) : DType :=
  if a = b then a
  else if a = .complex64 ∨ b = .complex64 then
    if a = .float64 ∨ b = .float64 ∨ a = .complex128 ∨ b = .complex128 then .complex128 else .complex64
  else if a = .complex128 ∨ b = .complex128 then .complex128
  else if a = .float64 ∨ b = .float64 then .float64
  else if a = .float32 ∨ b = .float32 then .float32
  else if a = .float16 ∨ b = .float16 then
    if a = .bfloat16 ∨ b = .bfloat16 then .float32 else .float16
  else if a = .bfloat16 ∨ b = .bfloat16 then .bfloat16
  else if a = .int64 ∨ b = .int64 then .int64
  else .int32

/-- `A + B` of two sparse matrices: RuntimeError unless the sizes and devices agree; different dtypes
are promoted. -/
def add (A B : Coo R) : Except Err (Coo R) :=
  if h : A.rows = B.rows ∧ A.cols = B.cols ∧ A.md.device = B.md.device then
    .ok ⟨⟨promote A.md.dtype B.md.dtype, A.md.device⟩, A.rows, A.cols, A.ents ++ B.ents, by
      intro e he
      rcases List.mem_append.mp he with he | he
      · exact A.bound e he
      · have := B.bound e he; rw [h.1, h.2.1]; exact this⟩
  else .error .runtimeError

/-- `A += B`: as `A + B`, keeping the dtype of `A`. -/
def addInplace (A B : Coo R) : Except Err (Coo R) :=
  if h : A.rows = B.rows ∧ A.cols = B.cols ∧ A.md.device = B.md.device then
    .ok ⟨A.md, A.rows, A.cols, A.ents ++ B.ents, by
      intro e he
      rcases List.mem_append.mp he with he | he
      · exact A.bound e he
      · have := B.bound e he; rw [h.1, h.2.1]; exact this⟩
  else .error .runtimeError

/-- `torch.cat([A, B], 0)` of two sparse matrices: RuntimeError unless the column numbers and the meta
data agree. -/
def cat0 (A B : Coo R) : Except Err (Coo R) :=
  if h : A.cols = B.cols ∧ A.md = B.md then
    .ok ⟨A.md, A.rows + B.rows, A.cols,
      A.ents ++ B.ents.map fun e => (A.rows + e.1, e.2.1, e.2.2), by
      intro e he
      rcases List.mem_append.mp he with he | he
      · have := A.bound e he; omega
      · obtain ⟨e', he', rfl⟩ := List.mem_map.mp he
        have := B.bound e' he'; simp only; omega⟩
  else .error .runtimeError

/-- `A.to_dense()`. -/
def toDense [AddCommMonoid R] (A : Coo R) : Tensor R :=
  Tensor.ofFn A.md [A.rows, A.cols] fun i => A.den (i.getD 0 0) (i.getD 1 0)

/-- `T.to_sparse()` of a matrix: the nonzero entries in row-major order; RuntimeError for other
ranks (only matrices occur). -/
def ofDense [AddCommMonoid R] [DecidableEq R] (T : Tensor R) : Except Err (Coo R) :=
  match T.shape with
  | [m, n] => .ok (ofFn T.md m n (fun i j => T.get [i, j] ≠ 0) fun i j => T.get [i, j])
  | _ => .error .runtimeError

/-- `torch.sparse.mm(A, X)` / `A.mm(X)` of a sparse and a dense matrix. -/
def mmDense [NonUnitalNonAssocSemiring R] (A : Coo R) (X : Tensor R) : Except Err (Tensor R) :=
  match X.shape with
  | [n, k] =>
    if A.cols = n ∧ A.md = X.md then
      .ok (Tensor.ofFn X.md [A.rows, k] fun i =>
        ∑ j ∈ Finset.range n, A.den (i.getD 0 0) j * X.get [j, i.getD 1 0])
    else .error .runtimeError
  | _ => .error .runtimeError

/-- `A.select(0, k).unsqueeze(0)`: row `k` as a one-row matrix. -/
def selectRow (A : Coo R) (k : Nat) : Coo R where
  md := A.md
  rows := 1
  cols := A.cols
  ents := (A.ents.filter fun e => e.1 = k).map fun e => (0, e.2.1, e.2.2)
  bound := by
    intro e he
    obtain ⟨e', he', rfl⟩ := List.mem_map.mp he
    exact ⟨by simp, (A.bound e' (List.mem_of_mem_filter he')).2⟩

/-- A function applied to every stored value. -/
def mapVals (A : Coo R) (g : R → R) : Coo R where
  md := A.md
  rows := A.rows
  cols := A.cols
  ents := A.ents.map fun e => (e.1, e.2.1, g e.2.2)
  bound := by
    intro e he
    obtain ⟨e', he', rfl⟩ := List.mem_map.mp he
    exact A.bound e' he'

/-- `torch.zeros_like(A)` of a sparse matrix: nothing is stored. -/
def zerosLike (A : Coo R) : Coo R := ⟨A.md, A.rows, A.cols, [], by simp⟩

/-- `A - B` of two sparse matrices. -/
def sub [Neg R] (A B : Coo R) : Except Err (Coo R) := A.add (B.mapVals fun v => -v)

end Coo
end Verif

namespace Verif.Tensor
variable {R : Type} [Zero R]

/-- `t.reshape(pre + [-1] + post)`: the missing size is inferred; RuntimeError if it is ambiguous or
does not exist. -/
def reshapeInfer (t : Tensor R) (pre post : List Nat) : Except Err (Tensor R) :=
  if prodL pre * prodL post = 0 then .error .runtimeError
  else if prodL t.shape % (prodL pre * prodL post) = 0 then
    t.reshape (pre ++ prodL t.shape / (prodL pre * prodL post) :: post)
  else .error .runtimeError

/-- `t.T` of a matrix. -/
def matT (t : Tensor R) : Tensor R := t.transpose 0 1

end Verif.Tensor
