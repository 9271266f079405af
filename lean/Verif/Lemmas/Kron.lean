/-
Kronecker products, diagonals, identity extension and row replacement of sparse matrices.
-/
import Verif.Lemmas.ConvMat

namespace Verif
open Tensor Spec
variable {R : Type}

theorem list_sum_map_mul [NonUnitalNonAssocSemiring R] {α : Type} (c : R) (g : α → R) :
    ∀ l : List α, (l.map fun a => c * g a).sum = c * (l.map g).sum
  | [] => by simp
  | a :: l => by simp [list_sum_map_mul c g l, mul_add]

theorem list_sum_mul_map [NonUnitalNonAssocSemiring R] {α : Type} (c : R) (g : α → R) :
    ∀ l : List α, (l.map fun a => g a * c).sum = (l.map g).sum * c
  | [] => by simp
  | a :: l => by simp [list_sum_mul_map c g l, add_mul]

theorem sum_flatMap' [AddCommMonoid R] {α β : Type} (g : β → R) (h : α → List β) :
    ∀ l : List α, ((l.flatMap h).map g).sum = (l.map fun a => ((h a).map g).sum).sum
  | [] => by simp
  | a :: l => by simp [sum_flatMap' g h l]

theorem divmod_unique {a b p i : Nat} (hb : b < p) : a * p + b = i ↔ a = i / p ∧ b = i % p := by
  constructor
  · rintro rfl
    have hp : 0 < p := by omega
    constructor
    · rw [Nat.add_comm, Nat.add_mul_div_right _ _ hp, Nat.div_eq_of_lt hb, Nat.zero_add]
    · rw [Nat.add_comm, Nat.add_mul_mod_self_right, Nat.mod_eq_of_lt hb]
  · rintro ⟨rfl, rfl⟩
    rw [Nat.mul_comm]; exact Nat.div_add_mod i p

theorem Coo.mul_add_lt {a b m p : Nat} (ha : a < m) (hb : b < p) : a * p + b < m * p := by
  calc a * p + b < a * p + p := by omega
    _ = (a + 1) * p := by ring
    _ ≤ m * p := Nat.mul_le_mul_right p ha

theorem Coo.ents_nil_of [AddCommMonoid R] {A : Coo R} (h : A.coalesce.ents = []) (i j : Nat) :
    A.den i j = 0 := by
  rw [← A.coalesce_den]
  unfold Coo.den
  rw [h]; rfl

theorem Coo.coalesce_ents_nil [AddCommMonoid R] (A : Coo R) :
    A.coalesce.ents = [] ↔ ∀ i j, ¬ A.Stored i j := by
  constructor
  · intro h i j hs
    obtain ⟨e, he, _⟩ := (A.coalesce_stored i j).mpr hs
    rw [h] at he; cases he
  · intro h
    rw [List.eq_nil_iff_forall_not_mem]
    intro e he
    exact h e.1 e.2.1 ((A.coalesce_stored _ _).mp ⟨e, he, rfl, rfl⟩)

theorem sparseKron_ok [NonUnitalNonAssocSemiring R] {A B : Coo R} (hd : A.md.device = B.md.device)
    (hA : ∃ i j, A.Stored i j) (hB : ∃ i j, B.Stored i j) :
    ∃ K, sparseKron A B = .ok K ∧ K.md = ⟨Coo.promote A.md.dtype B.md.dtype, A.md.device⟩ ∧
      K.rows = A.rows * B.rows ∧ K.cols = A.cols * B.cols ∧
      (∀ i j, K.den i j = kronecker B.rows B.cols A.den B.den i j) ∧
      ∀ i j, K.Stored i j ↔ A.Stored (i / B.rows) (j / B.cols) ∧ B.Stored (i % B.rows) (j % B.cols) := by
  have hA' : A.coalesce.ents ≠ [] := by
    rw [Ne, A.coalesce_ents_nil]; push Not; exact hA
  have hB' : B.coalesce.ents ≠ [] := by
    rw [Ne, B.coalesce_ents_nil]; push Not; exact hB
  set ents : List (Nat × Nat × R) := A.coalesce.ents.flatMap fun e => B.coalesce.ents.map fun f =>
    (e.1 * B.rows + f.1, e.2.1 * B.cols + f.2.1, e.2.2 * f.2.2) with hents
  have hb : ∀ e ∈ ents, e.1 < A.rows * B.rows ∧ e.2.1 < A.cols * B.cols := by
    intro e he
    rw [hents] at he
    simp only [List.mem_flatMap, List.mem_map] at he
    obtain ⟨a, ha, b, hb, rfl⟩ := he
    have h1 := A.coalesce.bound a ha
    have h2 := B.coalesce.bound b hb
    exact ⟨Coo.mul_add_lt h1.1 h2.1, Coo.mul_add_lt h1.2 h2.2⟩
  refine ⟨⟨⟨Coo.promote A.md.dtype B.md.dtype, A.md.device⟩, A.rows * B.rows, A.cols * B.cols, ents, hb⟩,
    ?_, rfl, rfl, rfl, ?_, ?_⟩
  · unfold sparseKron
    rw [if_neg (by simpa using hd)]
    simp only []
    rw [if_neg (by rintro (h | h); exacts [hA' h, hB' h])]
    rw [← Coo.mk?_ok hb]
    simp only [Coo.coalesce_rows, Coo.coalesce_cols, Coo.coalesce_md]
    congr 1
    rw [hents, List.map_flatMap]
    congr 1
    funext e
    rw [List.map_map]
    rfl
  · intro i j
    show (ents.map _).sum = _
    rw [hents, sum_flatMap']
    unfold kronecker
    rw [← A.coalesce_den, ← B.coalesce_den]
    unfold Coo.den
    rw [← list_sum_mul_map]
    congr 1
    apply List.map_congr_left
    intro a ha
    rw [← list_sum_map_mul, List.map_map]
    congr 1
    apply List.map_congr_left
    intro b hb
    have h2 := B.coalesce.bound b hb
    simp only [Function.comp_def]
    have h3 := divmod_unique (a := a.1) (i := i) h2.1
    have h4 := divmod_unique (a := a.2.1) (i := j) h2.2
    simp only [Coo.coalesce_rows, Coo.coalesce_cols] at h3 h4
    by_cases h5 : a.1 = i / B.rows ∧ a.2.1 = j / B.cols
    · by_cases h6 : b.1 = i % B.rows ∧ b.2.1 = j % B.cols
      · rw [if_pos ⟨h3.mpr ⟨h5.1, h6.1⟩, h4.mpr ⟨h5.2, h6.2⟩⟩, if_pos h5, if_pos h6]
      · rw [if_neg (fun h => h6 ⟨(h3.mp h.1).2, (h4.mp h.2).2⟩), if_neg h6, mul_zero]
    · rw [if_neg (fun h => h5 ⟨(h3.mp h.1).1, (h4.mp h.2).1⟩), if_neg h5, zero_mul]
  · intro i j
    rw [← A.coalesce_stored, ← B.coalesce_stored]
    constructor
    · rintro ⟨e, he, h1, h2⟩
      have he : e ∈ ents := he
      rw [hents] at he
      simp only [List.mem_flatMap, List.mem_map] at he
      obtain ⟨a, ha, b, hb, rfl⟩ := he
      have h5 := B.coalesce.bound b hb
      have h3 := (divmod_unique (a := a.1) (i := i) h5.1).mp h1
      have h4 := (divmod_unique (a := a.2.1) (i := j) h5.2).mp h2
      exact ⟨⟨a, ha, h3.1, h4.1⟩, ⟨b, hb, h3.2, h4.2⟩⟩
    · rintro ⟨⟨a, ha, h1, h2⟩, ⟨b, hb, h3, h4⟩⟩
      have h5 := B.coalesce.bound b hb
      refine ⟨_, List.mem_flatMap.mpr ⟨a, ha, List.mem_map.mpr ⟨b, hb, rfl⟩⟩, ?_, ?_⟩
      · exact (divmod_unique h5.1).mpr ⟨h1, h3⟩
      · exact (divmod_unique h5.2).mpr ⟨h2, h4⟩

theorem sparseKron_zero [NonUnitalNonAssocSemiring R] {A B : Coo R} (hd : A.md.device = B.md.device)
    (hz : (∀ i j, ¬ A.Stored i j) ∨ ∀ i j, ¬ B.Stored i j)
    (hA : 0 < A.rows ∧ 0 < A.cols) (hB : 0 < B.rows ∧ 0 < B.cols) :
    ∃ K, sparseKron A B = .ok K ∧ K.md = ⟨.float32, A.md.device⟩ ∧
      K.rows = A.rows * B.rows ∧ K.cols = A.cols * B.cols ∧
      (∀ i j, K.den i j = kronecker B.rows B.cols A.den B.den i j) ∧
      ∀ i j, K.Stored i j ↔ i = 0 ∧ j = 0 := by
  have hb : ∀ e ∈ [((0, 0, 0) : Nat × Nat × R)], e.1 < A.rows * B.rows ∧ e.2.1 < A.cols * B.cols := by
    intro e he
    rw [List.mem_singleton] at he
    subst he
    exact ⟨Nat.mul_pos hA.1 hB.1, Nat.mul_pos hA.2 hB.2⟩
  refine ⟨⟨⟨.float32, A.md.device⟩, A.rows * B.rows, A.cols * B.cols, [(0, 0, 0)], hb⟩,
    ?_, rfl, rfl, rfl, ?_, ?_⟩
  · unfold sparseKron
    rw [if_neg (by simpa using hd)]
    simp only []
    rw [if_pos (by rwa [A.coalesce_ents_nil, B.coalesce_ents_nil]), ← Coo.mk?_ok hb]
    rfl
  · intro i j
    have h0 : kronecker B.rows B.cols A.den B.den i j = 0 := by
      unfold kronecker
      rcases hz with h | h
      · rw [Coo.den_of_not_stored (h _ _), zero_mul]
      · rw [Coo.den_of_not_stored (h _ _), mul_zero]
    rw [h0]
    simp [Coo.den]
  · intro i j
    simp [Coo.Stored, eq_comm]

theorem sparseKron_device [NonUnitalNonAssocSemiring R] {A B : Coo R}
    (hd : A.md.device ≠ B.md.device) : sparseKron A B = .error .valueError := by
  unfold sparseKron; rw [if_pos hd]

theorem denseKron_ok [NonUnitalNonAssocSemiring R] [DecidableEq R] {A B : Coo R}
    (hd : A.md.device = B.md.device) :
    ∃ K, denseKron A B = .ok K ∧ K.md = ⟨Coo.promote A.md.dtype B.md.dtype, A.md.device⟩ ∧
      K.rows = A.rows * B.rows ∧ K.cols = A.cols * B.cols ∧
      (∀ i j, i < A.rows * B.rows → j < A.cols * B.cols →
        K.den i j = kronecker B.rows B.cols A.den B.den i j) := by
  unfold denseKron
  rw [if_neg (by simpa using hd)]
  refine ⟨_, rfl, rfl, rfl, rfl, ?_⟩
  intro i j hi hj
  rw [Coo.ofFn_den]
  have hg : ∀ {m n : Nat} {g : List Nat → R} {md : Meta}, i < m → j < n →
      (Tensor.ofFn md [m, n] g).get [i, j] = g [i, j] := by
    intro m n g md h1 h2
    rw [ofFn_get_of _ _ (by exact ⟨h1, h2, trivial⟩)]
  rw [hg hi hj]
  by_cases h0 : kronecker B.rows B.cols A.den B.den i j = 0
  · rw [if_neg (fun h => h.2.2 h0), h0]
  · rw [if_pos ⟨hi, hj, h0⟩]; rfl

/-! ### Diagonals -/

theorem sparseDiag_ok [AddCommMonoid R] (md : Meta) (d : List R) (off : Int) (m n : Nat)
    (hd : d ≠ []) (h : (-off).toNat < m) :
    ∃ D, sparseDiag md d off m n = .ok D ∧ D.md = md ∧ D.rows = m ∧ D.cols = n ∧
      (∀ i j, i < m → j < n → D.den i j = if (j : ℤ) - i = off then d.getD (min i j) 0 else 0) ∧
      ∀ i j, D.Stored i j ↔ i < m ∧ j < n ∧ (j : ℤ) - i = off ∧ min i j < d.length := by
  set e0 : List (Nat × Nat × R) := d.mapIdx fun k v =>
      (k + (if off < 0 then off.natAbs else 0), k + (if 0 < off then off.toNat else 0), v) with he0
  have hr : e0 = (List.range d.length).map fun k =>
      (k + (-off).toNat, k + off.toNat, d.getD k 0) := by
    apply List.ext_getElem?
    intro j
    rw [he0, List.getElem?_mapIdx, List.getElem?_map]
    by_cases hj : j < d.length
    · rw [List.getElem?_range hj, List.getElem?_eq_getElem hj]
      simp only [Option.map_some, Option.some.injEq, Prod.mk.injEq, List.getD_eq_getElem?_getD,
        List.getElem?_eq_getElem hj, Option.getD_some, and_true]
      constructor <;> split_ifs <;> omega
    · rw [List.getElem?_eq_none (by omega), List.getElem?_eq_none (by simp; omega)]
      rfl
  have hlen : 0 < d.length := List.length_pos_iff.mpr hd
  set e1 := e0.filter (fun e => decide (e.1 < m)) with he1
  have hne : e1 ≠ [] := by
    apply List.ne_nil_of_mem (a := ((-off).toNat, off.toNat, d.getD 0 0))
    rw [he1, hr, List.mem_filter]
    refine ⟨List.mem_map.mpr ⟨0, List.mem_range.mpr hlen, by simp⟩, by simpa using h⟩
  set e2 := e1.filter (fun e => decide (e.2.1 < n)) with he2
  have hb : ∀ e ∈ e2, e.1 < m ∧ e.2.1 < n := by
    intro e he
    rw [he2, List.mem_filter, he1, List.mem_filter] at he
    exact ⟨by simpa using he.1.2, by simpa using he.2⟩
  have e2r : e2 = ((List.range d.length).filter fun k =>
      decide (k + (-off).toNat < m ∧ k + off.toNat < n)).map fun k =>
      (k + (-off).toNat, k + off.toNat, d.getD k 0) := by
    rw [he2, he1, hr, List.filter_filter, List.filter_map]
    congr 1
    apply List.filter_congr
    intro k _
    simp [and_comm]
  refine ⟨⟨md, m, n, e2, hb⟩, ?_, rfl, rfl, rfl, ?_, ?_⟩
  · unfold sparseDiag
    rw [if_neg hd]
    simp only []
    rw [← he0, ← he1, if_neg hne, ← he2]
    exact Coo.mk?_ok hb
  · intro i j hi hj
    show (e2.map _).sum = _
    rw [e2r, List.map_map]
    have hc : (((List.range d.length).filter fun k =>
      decide (k + (-off).toNat < m ∧ k + off.toNat < n)).map ((fun e : Nat × Nat × R =>
        if e.1 = i ∧ e.2.1 = j then e.2.2 else 0) ∘ fun k => (k + (-off).toNat, k + off.toNat, d.getD k 0)))
        = ((List.range d.length).filter fun k =>
      decide (k + (-off).toNat < m ∧ k + off.toNat < n)).map fun q => if q = min i j then
          (if (j : ℤ) - i = off then d.getD q 0 else 0) else 0 := by
      apply List.map_congr_left
      intro q _
      simp only [Function.comp_def]
      by_cases ho : (j : ℤ) - i = off
      · rw [if_pos ho]
        congr 1
        apply propext
        omega
      · rw [if_neg (by omega), if_neg ho, ite_self]
    rw [hc, sum_ite_nodup _ _ (List.nodup_range.filter _)]
    simp only [List.mem_filter, List.mem_range, decide_eq_true_eq]
    by_cases ho : (j : ℤ) - i = off
    · simp only [ho, if_true]
      by_cases hl : min i j < d.length
      · rw [if_pos (by omega)]
      · rw [if_neg (fun h => hl h.1), List.getD_eq_getElem?_getD, List.getElem?_eq_none (by omega)]
        rfl
    · simp only [ho, if_false, ite_self]
  · intro i j
    show (∃ e ∈ e2, _) ↔ _
    rw [e2r]
    constructor
    · rintro ⟨e, he, rfl, rfl⟩
      obtain ⟨k, hk, rfl⟩ := List.mem_map.mp he
      simp only [List.mem_filter, List.mem_range, decide_eq_true_eq] at hk
      simp only; omega
    · rintro ⟨h1, h2, h3, h4⟩
      refine ⟨_, List.mem_map.mpr ⟨min i j, ?_, rfl⟩, ?_, ?_⟩
      · simp only [List.mem_filter, List.mem_range, decide_eq_true_eq]; omega
      · simp only; omega
      · simp only; omega

theorem sparseDiag_bad (md : Meta) (d : List R) (off : Int) (m n : Nat)
    (h : d = [] ∨ m ≤ (-off).toNat) : sparseDiag md d off m n = .error .runtimeError := by
  unfold sparseDiag
  by_cases hd : d = []
  · rw [if_pos hd]
  · have h' : m ≤ (-off).toNat := h.resolve_left hd
    rw [if_neg hd]
    simp only []
    rw [if_pos]
    rw [List.filter_eq_nil_iff]
    intro e he
    obtain ⟨k, hk, rfl⟩ := List.mem_mapIdx.mp he
    simp only [decide_eq_true_eq]
    split_ifs <;> omega

end Verif
