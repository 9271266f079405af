/-
Properties C32–C37: sparse convolution matrices, Kronecker products, the sparse helper functions and
batched matrix products (src/ptwt/sparse_math.py).
-/
import Verif.Lemmas.SparseRound
import Verif.Lemmas.Conv2dMat
import Verif.Lemmas.BatchMm

namespace Verif.Props
open Tensor Spec
variable {R : Type}

/-! ### C32: convolution matrices -/

/-- **C32.** For every non-empty filter `f`, length `n ≥ 1` (at least the filter length for `valid`)
and mode, `construct_conv_matrix(f, n, mode)` succeeds and multiplying it with the columns of any
dense matrix `X` gives the full / same / valid part of their discrete convolution with `f`. -/
theorem c32_conv_matrix [NonAssocSemiring R] (md : Meta) (f : List R) (n : Nat) (s : String)
    (m : ConvMode) (h : m.Named s) (hF : 1 ≤ f.length) (hn : 1 ≤ n) (hv : m = .valid → f.length ≤ n) :
    ∃ C, constructConvMatrix md f n s = .ok C ∧ C.md = md ∧ C.rows = m.count f.length n ∧ C.cols = n ∧
      ∀ (X : Tensor R) (k : Nat), X.shape = [n, k] → X.md = md → ∃ Y, C.mmDense X = .ok Y ∧
        Y.md = md ∧ Y.shape = [m.count f.length n, k] ∧
        ∀ i c, i < m.count f.length n → c < k →
          Y.get [i, c] = convAt f n (fun j => X.get [j, c]) ((m.first f.length + i : ℕ) : ℤ) := by
  obtain ⟨C, c0, c1, c2, c3, c4, _⟩ := constructConvMatrix_ok md f n h hF hn hv
  refine ⟨C, c0, c1, c2, c3, ?_⟩
  intro X k hX hmd
  obtain ⟨Y, y0, y1, y2, y3⟩ := Coo.mmDense_ok (A := C) (X := X) (k := k) (by rw [c3]; exact hX)
    (by rw [c1, hmd])
  refine ⟨Y, y0, y1.trans hmd, by rw [y2, c2], ?_⟩
  intro i c hi hc
  rw [y3 i c (by rw [c2]; exact hi) hc, c3]
  unfold convAt
  apply Finset.sum_congr rfl
  intro j hj
  rw [c4 i j hi (Finset.mem_range.mp hj)]
  push_cast
  rfl

/-- **C32.** The remaining sizes and modes are rejected: RuntimeError if there is nothing to keep,
ValueError for an unknown mode. -/
theorem c32_rejected [NonAssocSemiring R] (md : Meta) (f : List R) (n : Nat) (s : String) :
    (∀ m : ConvMode, m.Named s → (f.length = 0 ∨ n = 0 ∨ m = .valid ∧ n < f.length) →
      constructConvMatrix md f n s = .error .runtimeError) ∧
    ((∀ m : ConvMode, ¬ m.Named s) → constructConvMatrix md f n s = .error .valueError) :=
  ⟨fun _ hm hb => constructConvMatrix_bad md f n hm hb, fun h => constructConvMatrix_unknown md f n h⟩

example : ∃ C, constructConvMatrix ⟨.float32, 0⟩ [(1 : ℚ), 2, 3] 4 "same" = .ok C ∧ C.rows = 4 :=
  let ⟨C, h0, _, h2, _⟩ := c32_conv_matrix ⟨.float32, 0⟩ [(1 : ℚ), 2, 3] 4 "same" .same
    (Or.inr (Or.inl ⟨Or.inl rfl, rfl⟩)) (by decide) (by decide) (by decide)
  ⟨C, h0, h2⟩

/-! ### C33: strided convolution matrices -/

/-- **C33.** For every stride `≥ 1` the strided matrix samples the convolution at the positions
`0, stride, 2 stride, …` of the kept part, for `sameshift` at `1, 1 + stride, …`. -/
theorem c33_strided [NonAssocSemiring R] (md : Meta) (f : List R) (n stride : Nat) (s : String)
    (m : ConvMode) (h : m.Named s) (hF : 1 ≤ f.length) (hn : 1 ≤ n) (hst : 1 ≤ stride)
    (hv : m = .valid → f.length ≤ n) :
    ∃ C, constructStridedConvMatrix md f n stride s = .ok C ∧ C.md = md ∧ C.cols = n ∧
      C.rows = strideCount (strideStart s) (m.count f.length n) stride ∧
      ∀ (X : Tensor R) (k : Nat), X.shape = [n, k] → X.md = md → ∃ Y, C.mmDense X = .ok Y ∧
        Y.md = md ∧ Y.shape = [C.rows, k] ∧
        ∀ i c, i < C.rows → c < k →
          Y.get [i, c] = convAt f n (fun j => X.get [j, c])
            ((m.first f.length + (strideStart s + stride * i) : ℕ) : ℤ) := by
  obtain ⟨C, c0, c1, c2, c3, c4, _⟩ := constructStrided_ok md f n stride h hF hn hst hv
  refine ⟨C, c0, c1, c3, c2, ?_⟩
  intro X k hX hmd
  obtain ⟨Y, y0, y1, y2, y3⟩ := Coo.mmDense_ok (A := C) (X := X) (k := k) (by rw [c3]; exact hX)
    (by rw [c1, hmd])
  refine ⟨Y, y0, y1.trans hmd, y2, ?_⟩
  intro i c hi hc
  rw [y3 i c hi hc, c3]
  unfold convAt
  apply Finset.sum_congr rfl
  intro j hj
  rw [c4 i j hi (Finset.mem_range.mp hj)]
  push_cast
  rfl

/-- **C33.** The sampled positions are exactly those below the number of kept ones. -/
theorem c33_positions (start count stride i : Nat) (hs : 1 ≤ stride) :
    i < strideCount start count stride ↔ start + stride * i < count := by
  constructor
  · exact strideCount_lt hs
  · intro h
    unfold strideCount
    rw [Nat.lt_div_iff_mul_lt (by omega), Nat.mul_comm]
    omega

example : ∃ C, constructStridedConvMatrix ⟨.float32, 0⟩ [(1 : ℚ), 2, 3, 4] 7 2 "sameshift" = .ok C ∧
    C.rows = 3 :=
  let ⟨C, h0, _, _, h3, _⟩ := c33_strided ⟨.float32, 0⟩ [(1 : ℚ), 2, 3, 4] 7 2 "sameshift" .same
    (Or.inr (Or.inl ⟨Or.inr rfl, rfl⟩)) (by decide) (by decide) (by decide) (by decide)
  ⟨C, h0, h3⟩

/-! ### C34: Kronecker products -/

/-- **C34.** `sparse_kron(a, b)` of two matrices on one device is the Kronecker product, whatever
entries are stored (duplicates, stored zeros, none at all).  The dtype is the common one if both
matrices have stored entries. -/
theorem c34_sparse_kron [NonUnitalNonAssocSemiring R] (A B : Coo R) (hd : A.md.device = B.md.device)
    (hA : 0 < A.rows ∧ 0 < A.cols) (hB : 0 < B.rows ∧ 0 < B.cols) :
    ∃ K, sparseKron A B = .ok K ∧ K.rows = A.rows * B.rows ∧ K.cols = A.cols * B.cols ∧
      K.md.device = A.md.device ∧
      (∀ i j, K.den i j = kronecker B.rows B.cols A.den B.den i j) ∧
      ((∃ i j, A.Stored i j) → (∃ i j, B.Stored i j) → A.md = B.md → K.md = A.md) := by
  by_cases h1 : ∃ i j, A.Stored i j
  · by_cases h2 : ∃ i j, B.Stored i j
    · obtain ⟨K, k0, k1, k2, k3, k4, _⟩ := sparseKron_ok hd h1 h2
      refine ⟨K, k0, k2, k3, by rw [k1], k4, ?_⟩
      intro _ _ hm
      rw [k1, ← hm, promote_self]
    · obtain ⟨K, k0, k1, k2, k3, k4, _⟩ := sparseKron_zero (A := A) (B := B) hd
        (Or.inr (by push Not at h2; exact h2)) hA hB
      exact ⟨K, k0, k2, k3, by rw [k1], k4, fun _ h => absurd h h2⟩
  · obtain ⟨K, k0, k1, k2, k3, k4, _⟩ := sparseKron_zero (A := A) (B := B) hd
      (Or.inl (by push Not at h1; exact h1)) hA hB
    exact ⟨K, k0, k2, k3, by rw [k1], k4, fun h => absurd h h1⟩

/-- **C34.** Finding: if one of the matrices has no stored entries the dtype is lost, the result is
float32 also for float64 matrices. -/
theorem c34_zero_dtype [NonUnitalNonAssocSemiring R] (A B : Coo R) (hd : A.md.device = B.md.device)
    (hz : (∀ i j, ¬ A.Stored i j) ∨ ∀ i j, ¬ B.Stored i j)
    (hA : 0 < A.rows ∧ 0 < A.cols) (hB : 0 < B.rows ∧ 0 < B.cols) :
    ∃ K, sparseKron A B = .ok K ∧ K.md.dtype = .float32 := by
  obtain ⟨K, k0, k1, _⟩ := sparseKron_zero hd hz hA hB
  exact ⟨K, k0, by rw [k1]⟩

/-- **C34.** Otherwise the dtypes of the factors are promoted: the product has the least dtype both
may be converted to. -/
theorem c34_dtype [NonUnitalNonAssocSemiring R] (A B : Coo R) (hd : A.md.device = B.md.device)
    (hA : ∃ i j, A.Stored i j) (hB : ∃ i j, B.Stored i j) :
    ∃ K, sparseKron A B = .ok K ∧ Promoted A.md.dtype B.md.dtype K.md.dtype := by
  obtain ⟨K, k0, k1, _⟩ := sparseKron_ok hd hA hB
  exact ⟨K, k0, by rw [k1]; exact promote_spec _ _⟩

/-- **C34.** There is only one such dtype, and it does not depend on the order of the factors. -/
theorem c34_dtype_unique (a b : DType) : ∃! c, Promoted a b c ∧ Promoted b a c := by
  refine ⟨Coo.promote a b, ⟨promote_spec a b, ?_⟩, ?_⟩
  · obtain ⟨h1, h2, h3⟩ := promote_spec a b
    exact ⟨h2, h1, fun d h h' => h3 d h' h⟩
  · rintro c ⟨⟨h1, h2, h3⟩, _⟩
    obtain ⟨g1, g2, g3⟩ := promote_spec a b
    have e1 := h3 _ g1 g2
    have e2 := g3 _ h1 h2
    revert e1 e2
    generalize Coo.promote a b = d
    cases c <;> cases d <;> decide

example : Promoted .float32 .float64 .float64 ∧ Promoted .float16 .bfloat16 .float32 ∧
    Promoted .complex64 .float64 .complex128 ∧ Promoted .int64 .float16 .float16 := by decide

/-- **C34.** Matrices on different devices are rejected with a ValueError. -/
theorem c34_device [NonUnitalNonAssocSemiring R] (A B : Coo R) (hd : A.md.device ≠ B.md.device) :
    sparseKron A B = .error .valueError := sparseKron_device hd

/-- A matrix with duplicate entries and a stored zero: `[[3, 0], [0, 0], [0, 4]]`. -/
def dup : Coo ℚ := ⟨⟨.float64, 0⟩, 3, 2, [(0, 0, 1), (2, 1, 4), (0, 0, 2), (1, 1, 0)], by decide⟩

example : ∃ K, sparseKron dup dup = .ok K ∧ K.den 8 3 = 16 ∧ K.den 0 0 = 9 := by
  obtain ⟨K, h0, _, _, _, h, _⟩ := c34_sparse_kron dup dup rfl (by decide) (by decide)
  refine ⟨K, h0, ?_, ?_⟩
  · rw [h]; decide +kernel
  · rw [h]; decide +kernel

/-! ### C35: helpers -/

/-- **C35.** `cat_sparse_identity_matrix(A, N)` of a square `n × n` matrix and `N ≥ n` is the block
diagonal matrix of `A` and an identity, as long as all indices are exact in the dtype
(`N ≤ 2^24` for float32, `N ≤ 2^53` for float64). -/
theorem c35_identity [NonAssocSemiring R] (A : Coo R) (N : Nat) (hsq : A.rows = A.cols)
    (hN : A.rows ≤ N) (hp : N ≤ 2 ^ mantissaBits A.md.dtype) :
    ∃ C, catSparseIdentity A N = .ok C ∧ C.md = A.md ∧ C.rows = N ∧ C.cols = N ∧
      (∀ i j, i < A.rows → j < A.rows → C.den i j = A.den i j) ∧
      (∀ i j, A.rows ≤ i → i < N → A.rows ≤ j → j < N → C.den i j = if i = j then 1 else 0) ∧
      (∀ i j, i < A.rows → A.rows ≤ j → C.den i j = 0) ∧
      ∀ i j, A.rows ≤ i → j < A.rows → C.den i j = 0 := by
  obtain ⟨C, c0, c1, c2, c3, c4, _⟩ := catSparseIdentity_ok hsq hN hp
  refine ⟨C, c0, c1, c2, c3, ?_, ?_, ?_, ?_⟩
  · intro i j hi _; rw [c4, if_pos hi]
  · intro i j hi hi' _ _
    rw [c4, if_neg (by omega)]
    simp only [hi', and_true]
  · intro i j hi hj; rw [c4, if_pos hi, Coo.den_of_cols (by omega)]
  · intro i j hi hj; rw [c4, if_neg (by omega), if_neg (by omega)]

/-- **C35.** Finding: the indices are rounded to the precision of the dtype.  Beyond that precision the
odd rows of the identity block are lost (for float32 from row `2^24 + 1` on). -/
theorem c35_identity_lost [NonAssocSemiring R] (A : Coo R) (N i : Nat) (hsq : A.rows = A.cols)
    (hN : A.rows < N) (hi : 2 ^ mantissaBits A.md.dtype < i) (hodd : i % 2 = 1) :
    ∃ C, catSparseIdentity A N = .ok C ∧ ∀ j, C.den i j = 0 :=
  let ⟨C, h0, h⟩ := catSparseIdentity_lost hsq hN
  ⟨C, h0, fun j => h i j hi hodd⟩

/-- **C35.** The result for any size.  Let `rd` be the rounding of indices to the precision of the
dtype.  The entry at `(a, b)` of `A` is added at `(rd a, rd b)`, the ones at `(rd k, rd k)`, and the
result has size `rd (N - 1) + 1`. -/
theorem c35_identity_rounded [NonAssocSemiring R] (A : Coo R) (N : Nat) (hsq : A.rows = A.cols)
    (hN : A.rows < N) (rd : Nat → Nat) (hrd : ∀ k, RoundsTo (mantissaBits A.md.dtype) k (rd k)) :
    ∃ C, catSparseIdentity A N = .ok C ∧ C.md = A.md ∧ C.rows = rd (N - 1) + 1 ∧
      C.cols = rd (N - 1) + 1 ∧
      ∀ i j, C.den i j = (∑ a ∈ Finset.range A.rows, ∑ b ∈ Finset.range A.rows,
          if rd a = i ∧ rd b = j then A.den a b else 0) +
        ∑ k ∈ Finset.Ico A.rows N, if rd k = i ∧ rd k = j then 1 else 0 :=
  catSparseIdentity_rounded hsq hN rd hrd

/-- **C35.** There is one and only one such rounding. -/
theorem c35_rounding (p : Nat) (hp : 1 ≤ p) : ∃! rd : Nat → Nat, ∀ k, RoundsTo p k (rd k) :=
  ⟨roundBits p, fun _ => roundBits_spec,
    fun rd h => funext fun k => roundsTo_unique hp (h k) roundBits_spec⟩

/-- **C35.** The precisions. -/
theorem c35_precision : mantissaBits .float16 = 11 ∧ mantissaBits .bfloat16 = 8 ∧
    mantissaBits .float32 = 24 ∧ mantissaBits .float64 = 53 := ⟨rfl, rfl, rfl, rfl⟩

example : RoundsTo 24 (2 ^ 24 + 3) (2 ^ 24 + 4) :=
  Or.inr ⟨1, 2 ^ 23 + 2, by norm_num, by norm_num, by norm_num, by norm_num, Or.inr (by norm_num)⟩

/-- **C35.** Matrices that are not square, and smaller target sizes, are rejected. -/
theorem c35_identity_rejected [NonAssocSemiring R] (A : Coo R) (N : Int)
    (h : A.rows ≠ A.cols ∨ N < A.rows) : catSparseIdentity A N = .error .valueError :=
  catSparseIdentity_bad h

/-- **C35.** `sparse_diag(v, off, rows, cols)` has `v[k]` at `(k, k + off)` for `off ≥ 0` and at
`(k - off, k)` for `off < 0`, as far as these positions lie in the matrix, and nothing else; it fails
if and only if `v` is empty or the diagonal starts below the matrix. -/
theorem c35_diag [AddCommMonoid R] (md : Meta) (v : List R) (off : Int) (rows cols : Nat) :
    (v ≠ [] ∧ (-off).toNat < rows → ∃ D, sparseDiag md v off rows cols = .ok D ∧ D.md = md ∧
      D.rows = rows ∧ D.cols = cols ∧
      ∀ i j, i < rows → j < cols → D.den i j = if (j : ℤ) - i = off then v.getD (min i j) 0 else 0) ∧
    (v = [] ∨ rows ≤ (-off).toNat → sparseDiag md v off rows cols = .error .runtimeError) := by
  constructor
  · rintro ⟨h1, h2⟩
    obtain ⟨D, d0, d1, d2, d3, d4, _⟩ := sparseDiag_ok md v off rows cols h1 h2
    exact ⟨D, d0, d1, d2, d3, d4⟩
  · exact sparseDiag_bad md v off rows cols

/-- **C35.** `sparse_replace_row(A, k, row)` of a square matrix replaces row `k` by `row` and keeps all
other rows. -/
theorem c35_replace_row [NonAssocSemiring R] (A row : Coo R) (k : Nat) (hsq : A.rows = A.cols)
    (hr : row.rows = 1) (hc : row.cols = A.cols) (hk : k < A.rows) :
    ∃ C, sparseReplaceRow A k row = .ok C ∧ C.md = A.md ∧ C.rows = A.rows ∧ C.cols = A.cols ∧
      ∀ i j, C.den i j = if i = k then row.den 0 j else A.den i j := by
  obtain ⟨C, c0, c1, c2, c3, c4, _⟩ := sparseReplaceRow_ok hsq hr hc hk
  exact ⟨C, c0, c1, c2, c3, c4⟩

/-- **C35.** Finding: no row of a matrix that is not square can be replaced, although the documentation
asks for a matrix of any shape: RuntimeError. -/
theorem c35_replace_row_nonsquare [NonAssocSemiring R] (A row : Coo R) (k : Nat)
    (hsq : A.rows ≠ A.cols) (hr : row.rows = 1) (hc : row.cols = A.cols) (hk : k < A.rows) :
    sparseReplaceRow A k row = .error .runtimeError := sparseReplaceRow_nonsquare hsq hr hc hk

/-- A square matrix with duplicate entries, `[[3, 0], [0, 4]]`, and a row `[0, 7]`. -/
def dupS : Coo ℚ := ⟨⟨.float32, 0⟩, 2, 2, [(0, 0, 1), (1, 1, 4), (0, 0, 2)], by decide⟩
def row7 : Coo ℚ := ⟨⟨.float32, 0⟩, 1, 2, [(0, 1, 7)], by decide⟩

example : ∃ C, catSparseIdentity dupS 5 = .ok C ∧ C.den 0 0 = 3 ∧ C.den 4 4 = 1 := by
  obtain ⟨C, h0, _, _, _, h1, h2, _⟩ := c35_identity dupS 5 rfl (by decide) (by decide)
  refine ⟨C, h0, ?_, ?_⟩
  · rw [h1 0 0 (by decide) (by decide)]; decide +kernel
  · rw [h2 4 4 (by decide) (by decide) (by decide) (by decide)]; rfl

example : ∃ C, catSparseIdentity dupS (2 ^ 24 + 2 : ℕ) = .ok C ∧ ∀ j, C.den (2 ^ 24 + 1) j = 0 :=
  c35_identity_lost dupS _ _ rfl (by decide) (by decide) (by decide)

example : ∃ C, sparseReplaceRow dupS 1 row7 = .ok C ∧ C.den 1 1 = 7 ∧ C.den 0 0 = 3 := by
  obtain ⟨C, h0, _, _, _, h⟩ := c35_replace_row dupS row7 1 rfl rfl rfl (by decide)
  refine ⟨C, h0, ?_, ?_⟩
  · rw [h, if_pos rfl]; decide +kernel
  · rw [h, if_neg (by decide)]; decide +kernel

/-! ### C36: two-dimensional convolution matrices -/

theorem sum_blocks [AddCommMonoid R] (g : Nat → R) (h : Nat) :
    ∀ w, ∑ j ∈ Finset.range (w * h), g j = ∑ J ∈ Finset.range w, ∑ c ∈ Finset.range h, g (J * h + c)
  | 0 => by simp
  | w + 1 => by
    rw [Nat.succ_mul, Finset.sum_range_add, sum_blocks g h w, Finset.sum_range_succ]

theorem conv2_mul [NonAssocSemiring R] {C : Coo R} {md : Meta} {fh fw h w nH nW : Nat}
    {f : Nat → Nat → R} {p q : Nat → ℤ} (c1 : C.md = md) (c2 : C.rows = nW * nH) (c3 : C.cols = w * h)
    (c4 : ∀ I r J c, I < nW → r < nH → J < w → c < h →
        C.den (I * nH + r) (J * h + c) = tap2 fh fw f (p r - c) (q I - J))
    {V : Tensor R} {k : Nat} (hV : V.shape = [w * h, k]) (hmd : V.md = md) :
    ∃ Y, C.mmDense V = .ok Y ∧ Y.md = md ∧ Y.shape = [nW * nH, k] ∧
      ∀ I r κ, I < nW → r < nH → κ < k →
        Y.get [I * nH + r, κ] = convAt2 fh fw f h w (fun a b => V.get [b * h + a, κ]) (p r) (q I) := by
  obtain ⟨Y, y0, y1, y2, y3⟩ := Coo.mmDense_ok (A := C) (X := V) (k := k) (by rw [c3]; exact hV)
    (by rw [c1, hmd])
  refine ⟨Y, y0, y1.trans hmd, by rw [y2, c2], ?_⟩
  intro I r κ hI hr hκ
  rw [y3 _ κ (by rw [c2]; exact Coo.mul_add_lt hI hr) hκ, c3, sum_blocks, Finset.sum_comm]
  unfold convAt2
  apply Finset.sum_congr rfl
  intro c hc
  apply Finset.sum_congr rfl
  intro J hJ
  rw [c4 I r J c hI hr (Finset.mem_range.mp hJ) (Finset.mem_range.mp hc)]

/-- **C36.** `construct_conv2d_matrix(f, h, w, mode)` applied to images flattened in column-major order
(pixel `(a, b)` at `b * h + a`) gives the full / same / valid part of their two-dimensional
convolution with `f`, flattened in the same way, with either Kronecker product. -/
theorem c36_conv2d_matrix [NonAssocSemiring R] [DecidableEq R] (f : Tensor R) (fh fw h w : Nat)
    (s : String) (m : ConvMode) (fullySparse : Bool) (hs : f.shape = [fh, fw]) (hm : m.Named s)
    (h1 : 1 ≤ fh ∧ 1 ≤ fw ∧ 1 ≤ h ∧ 1 ≤ w) (hv : m = .valid → fh ≤ h ∧ fw ≤ w)
    (hsame : m = .same → fw / 2 < w) :
    ∃ C, constructConv2dMatrix f h w s fullySparse = .ok C ∧ C.md = f.md ∧
      ∀ (V : Tensor R) (k : Nat), V.shape = [w * h, k] → V.md = f.md → ∃ Y, C.mmDense V = .ok Y ∧
        Y.md = f.md ∧ Y.shape = [m.count fw w * m.count fh h, k] ∧
        ∀ I r κ, I < m.count fw w → r < m.count fh h → κ < k →
          Y.get [I * m.count fh h + r, κ] = convAt2 fh fw (fun a b => f.get [a, b]) h w
            (fun a b => V.get [b * h + a, κ]) ((m.first fh + r : ℕ) : ℤ) ((m.first fw + I : ℕ) : ℤ) := by
  obtain ⟨C, c0, c1, c2, c3, c4, _⟩ := constructConv2dMatrix_ok f fullySparse hs hm
    ⟨h1.1, h1.2.1, h1.2.2.1, h1.2.2.2, hv, hsame⟩
  refine ⟨C, c0, c1, ?_⟩
  intro V k hV hmd
  exact conv2_mul (p := fun r => ((m.first fh + r : ℕ) : ℤ)) (q := fun I => ((m.first fw + I : ℕ) : ℤ))
    c1 c2 c3 (by
      intro I r J c hI hr hJ hc
      rw [c4 I r J c hI hr hJ hc]
      push_cast
      rfl) hV hmd

/-- **C36.** The strided version samples both axes of the result at `0, stride, …` (`1, 1 + stride, …`
for `sameshift`). -/
theorem c36_strided [NonAssocSemiring R] [DecidableEq R] (f : Tensor R) (fh fw h w stride : Nat)
    (s : String) (m : ConvMode) (hs : f.shape = [fh, fw]) (hm : m.Named s)
    (h1 : 1 ≤ fh ∧ 1 ≤ fw ∧ 1 ≤ h ∧ 1 ≤ w) (hst : 1 ≤ stride) (hv : m = .valid → fh ≤ h ∧ fw ≤ w)
    (hsame : m = .same → fw / 2 < w) :
    let nH := strideCount (strideStart s) (m.count fh h) stride
    let nW := strideCount (strideStart s) (m.count fw w) stride
    ∃ C, constructStridedConv2dMatrix f h w stride s = .ok C ∧ C.md = f.md ∧
      ∀ (V : Tensor R) (k : Nat), V.shape = [w * h, k] → V.md = f.md → ∃ Y, C.mmDense V = .ok Y ∧
        Y.md = f.md ∧ Y.shape = [nW * nH, k] ∧
        ∀ I r κ, I < nW → r < nH → κ < k →
          Y.get [I * nH + r, κ] = convAt2 fh fw (fun a b => f.get [a, b]) h w
            (fun a b => V.get [b * h + a, κ])
            ((m.first fh + (strideStart s + stride * r) : ℕ) : ℤ)
            ((m.first fw + (strideStart s + stride * I) : ℕ) : ℤ) := by
  intro nH nW
  obtain ⟨C, c0, c1, c2, c3, c4, _⟩ := constructStrided2_ok f stride hs hm hst
    ⟨h1.1, h1.2.1, h1.2.2.1, h1.2.2.2, hv, hsame⟩
  refine ⟨C, c0, c1, ?_⟩
  intro V k hV hmd
  exact conv2_mul (p := fun r => ((m.first fh + (strideStart s + stride * r) : ℕ) : ℤ))
    (q := fun I => ((m.first fw + (strideStart s + stride * I) : ℕ) : ℤ)) c1 c2 c3 (by
      intro I r J c hI hr hJ hc
      rw [c4 I r J c hI hr hJ hc]
      push_cast
      rfl) hV hmd

/-- **C36.** Finding: `same` and `sameshift` always fail for images at most half as wide as the filter
(`w ≤ fw / 2`), although the convolution exists. -/
theorem c36_narrow [NonAssocSemiring R] [DecidableEq R] (f : Tensor R) (fh fw h w : Nat) (s : String)
    (fullySparse : Bool) (hs : f.shape = [fh, fw]) (hm : s = "same" ∨ s = "sameshift") (h2 : 2 ≤ fw)
    (hw : w ≤ fw / 2) : ∀ C, constructConv2dMatrix f h w s fullySparse ≠ .ok C :=
  constructConv2dMatrix_narrow f fullySparse hs (Or.inr (Or.inl ⟨hm, rfl⟩)) h2 hw

/-- **C36.** A filter without columns is an IndexError in every mode (input of at least two columns). -/
theorem c36_empty_filter [NonAssocSemiring R] [DecidableEq R] (f : Tensor R) (fh h w : Nat) (s : String) (m : ConvMode)
    (fullySparse : Bool) (hs : f.shape = [fh, 0]) (hm : m.Named s) (hw : 2 ≤ w) :
    constructConv2dMatrix f h w s fullySparse = .error .indexError :=
  constructConv2dMatrix_empty f fullySparse (by unfold Tensor.sizeFromEnd; rw [hs]; rfl) hm hw

/-- **C36.** An unknown mode is rejected with a ValueError. -/
theorem c36_unknown [NonAssocSemiring R] [DecidableEq R] (f : Tensor R) (h w : Nat) (s : String)
    (fullySparse : Bool) (hm : ∀ m : ConvMode, ¬ m.Named s) :
    constructConv2dMatrix f h w s fullySparse = .error .valueError :=
  constructConv2dMatrix_unknown f fullySparse hm

example : ∃ C, constructStridedConv2dMatrix
    (ofFn ⟨.float64, 0⟩ [2, 3] fun i => (1 + i.getD 0 0 * 3 + i.getD 1 0 : ℚ)) 5 4 2 "same" = .ok C ∧
    C.md = ⟨.float64, 0⟩ :=
  let ⟨C, h0, h1, _⟩ := c36_strided (ofFn ⟨.float64, 0⟩ [2, 3] fun i => (1 + i.getD 0 0 * 3 + i.getD 1 0 : ℚ))
    2 3 5 4 2 "same" .same rfl (Or.inr (Or.inl ⟨Or.inl rfl, rfl⟩)) (by decide) (by decide) (by decide)
    (by decide)
  ⟨C, h0, h1⟩

/-! ### C37: batched products -/

/-- **C37.** `_batch_dim_mm(A, X, dim)` multiplies every line of `X` along `dim` by `A` and carries all
other axes along. -/
theorem c37_batch_dim_mm [NonUnitalNonAssocSemiring R] (A : Coo R) (X : Tensor R) (dim : Int) (d : Nat)
    (hd : normAxis X.rank dim = .ok d) (hc : X.shape.getD d 0 = A.cols) (hn : 1 ≤ A.cols)
    (hm : A.md = X.md) :
    ∃ z, batchDimMm A X dim = .ok z ∧ MulAlong A.den A.rows A.cols d X z := by
  refine batchDimMm_ok hd ?_ hc hm hn
  unfold normAxis at hd
  split_ifs at hd <;> cases hd <;> omega

/-- **C37.** `batch_mm(A, X)` of a batch of `b ≥ 1` matrices of size `n × k` multiplies each of them by
`A` from the left. -/
theorem c37_batch_mm [NonUnitalNonAssocSemiring R] (A : Coo R) (X : Tensor R) (b k : Nat)
    (hs : X.shape = [b, A.cols, k]) (hb : 1 ≤ b) (hn : 1 ≤ A.cols) (hr : 1 ≤ A.rows)
    (hm : A.md = X.md) :
    ∃ z, batchMm A X = .ok z ∧ z.shape = [b, A.rows, k] ∧ MulAlong A.den A.rows A.cols 1 X z := by
  obtain ⟨z, z0, z1⟩ := batchMm_ok hs hm hn hr hb
  exact ⟨z, z0, by rw [z1.shape, hs]; rfl, z1⟩

/-- **C37.** Matrices that cannot be multiplied are rejected. -/
theorem c37_batch_mm_rejected [NonUnitalNonAssocSemiring R] (A : Coo R) (X : Tensor R)
    (hr : 2 ≤ X.rank) (hc : A.cols ≠ X.shape.getD 1 0) : batchMm A X = .error .valueError :=
  batchMm_bad hr hc

example : ∃ z, batchDimMm dup (ofFn ⟨.float64, 0⟩ [4, 2, 5] fun i => (i.getD 0 0 : ℚ)) (-2) = .ok z ∧
    MulAlong dup.den 3 2 1 (ofFn ⟨.float64, 0⟩ [4, 2, 5] fun i => (i.getD 0 0 : ℚ)) z :=
  c37_batch_dim_mm dup _ (-2) 1 rfl rfl (by decide) rfl

example : ∃ z, batchMm dup (ofFn ⟨.float64, 0⟩ [4, 2, 5] fun i => (i.getD 0 0 : ℚ)) = .ok z ∧
    z.shape = [4, 3, 5] :=
  let ⟨z, h0, h1, _⟩ := c37_batch_mm dup (ofFn ⟨.float64, 0⟩ [4, 2, 5] fun i => (i.getD 0 0 : ℚ)) 4 5 rfl
    (by decide) (by decide) (by decide) rfl
  ⟨z, h0, h1⟩

end Verif.Props
