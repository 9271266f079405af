/-
Identity extension and row replacement of sparse matrices.
-/
import Verif.Lemmas.Kron

namespace Verif
open Tensor Spec
variable {R : Type}

theorem roundBits_small {p k : Nat} (h : k < 2 ^ p) : roundBits p k = k := by
  unfold roundBits; rw [if_pos h]

theorem roundBits_even {p k : Nat} (h : 2 ^ p ≤ k) : 2 ∣ roundBits p k := by
  unfold roundBits
  rw [if_neg (by omega)]
  have hk : k ≠ 0 := by
    have : 0 < 2 ^ p := by positivity
    omega
  have hp : p ≤ Nat.log2 k := (Nat.le_log2 hk).mpr h
  have h2 : 2 ∣ 2 ^ (Nat.log2 k + 1 - p) := dvd_pow_self 2 (by omega)
  simp only
  split_ifs
  · exact Dvd.dvd.mul_left h2 _
  · exact Dvd.dvd.mul_left h2 _

theorem catSparseIdentity_ok [NonAssocSemiring R] {A : Coo R} {N : Nat} (hsq : A.rows = A.cols)
    (hN : A.rows ≤ N) (hb : N ≤ 2 ^ mantissaBits A.md.dtype) :
    ∃ C, catSparseIdentity A N = .ok C ∧ C.md = A.md ∧ C.rows = N ∧ C.cols = N ∧
      (∀ i j, C.den i j = if i < A.rows then A.den i j else if i = j ∧ i < N then 1 else 0) ∧
      ∀ i j, C.Stored i j ↔ if i < A.rows then A.Stored i j else i = j ∧ i < N := by
  unfold catSparseIdentity
  rw [if_neg (by simpa using hsq), if_neg (by push_cast; omega)]
  by_cases he : N = A.rows
  · rw [if_pos (by exact_mod_cast he)]
    refine ⟨A, rfl, rfl, he.symm, hsq ▸ he.symm, ?_, ?_⟩
    · intro i j
      split_ifs with h1 h2
      · rfl
      · omega
      · exact Coo.den_of_rows (by omega)
    · intro i j
      split_ifs with h1
      · rfl
      · constructor
        · intro h; exact absurd h.lt.1 h1
        · intro h; omega
  · rw [if_neg (by exact_mod_cast he)]
    simp only [Int.toNat_natCast]
    set ents : List (Nat × Nat × R) := A.coalesce.ents ++
        (List.range (N - A.rows)).map fun k => (A.rows + k, A.rows + k, 1) with hents
    have e1 : (A.coalesce.ents.map fun e => (roundBits (mantissaBits A.md.dtype) e.1,
        roundBits (mantissaBits A.md.dtype) e.2.1, e.2.2)) ++
        ((List.range (N - A.rows)).map fun k => (roundBits (mantissaBits A.md.dtype) (A.rows + k),
          roundBits (mantissaBits A.md.dtype) (A.rows + k), (1 : R))) = ents := by
      rw [hents]
      congr 1
      · conv_rhs => rw [← List.map_id A.coalesce.ents]
        apply List.map_congr_left
        intro e he
        have h := A.coalesce.bound e he
        simp only [Coo.coalesce_rows, Coo.coalesce_cols] at h
        rw [roundBits_small (by omega), roundBits_small (by omega)]
        rfl
      · apply List.map_congr_left
        intro k hk
        have hk := List.mem_range.mp hk
        rw [roundBits_small (by omega)]
    rw [e1]
    have hmem : ∀ e ∈ ents, e.1 < N ∧ e.2.1 < N := by
      intro e he
      rcases List.mem_append.mp he with he | he
      · have h := A.coalesce.bound e he
        simp only [Coo.coalesce_rows, Coo.coalesce_cols] at h
        omega
      · obtain ⟨k, hk, rfl⟩ := List.mem_map.mp he
        have hk := List.mem_range.mp hk
        simp only; omega
    have hlast : ((N - 1, N - 1, 1) : Nat × Nat × R) ∈ ents := by
      apply List.mem_append_right
      refine List.mem_map.mpr ⟨N - 1 - A.rows, List.mem_range.mpr (by omega), ?_⟩
      rw [show A.rows + (N - 1 - A.rows) = N - 1 by omega]
    refine ⟨_, rfl, rfl,
      Coo.infer_rows _ _ (fun e he => (hmem e he).1) (Or.inr ⟨_, hlast, by simp only; omega⟩),
      Coo.infer_cols _ _ (fun e he => (hmem e he).2) (Or.inr ⟨_, hlast, by simp only; omega⟩), ?_, ?_⟩
    · intro i j
      show (ents.map _).sum = _
      rw [hents, List.map_append, List.sum_append]
      show A.coalesce.den i j + _ = _
      rw [Coo.coalesce_den, List.map_map]
      have hc : ((List.range (N - A.rows)).map ((fun e : Nat × Nat × R =>
          if e.1 = i ∧ e.2.1 = j then e.2.2 else 0) ∘ fun k => (A.rows + k, A.rows + k, (1 : R))))
          = (List.range (N - A.rows)).map fun q => if q = i - A.rows then
            (if i = j ∧ A.rows ≤ i then (1 : R) else 0) else 0 := by
        apply List.map_congr_left
        intro q _
        simp only [Function.comp_def]
        by_cases h : i = j ∧ A.rows ≤ i
        · rw [if_pos h]
          congr 1
          apply propext
          omega
        · rw [if_neg (by omega), if_neg h, ite_self]
      rw [hc, sum_ite_nodup _ _ List.nodup_range]
      simp only [List.mem_range]
      by_cases hi : i < A.rows
      · simp only [hi, if_true]
        rw [if_neg (show ¬ (i = j ∧ A.rows ≤ i) by omega), ite_self, add_zero]
      · rw [if_neg hi, Coo.den_of_rows (by omega), zero_add]
        by_cases h2 : i = j ∧ i < N
        · rw [if_pos h2, if_pos (by omega), if_pos (by omega)]
        · rw [if_neg h2]
          split_ifs
          · omega
          · rfl
          · rfl
    · intro i j
      show (∃ e ∈ ents, _) ↔ _
      constructor
      · rintro ⟨e, he, rfl, rfl⟩
        rcases List.mem_append.mp he with he | he
        · have h := A.coalesce.bound e he
          rw [if_pos (show e.1 < A.rows from h.1)]
          exact (A.coalesce_stored _ _).mp ⟨e, he, rfl, rfl⟩
        · obtain ⟨k, hk, rfl⟩ := List.mem_map.mp he
          have hk := List.mem_range.mp hk
          rw [if_neg (by simp only; omega)]
          exact ⟨rfl, by simp only; omega⟩
      · intro h
        split_ifs at h with hi
        · obtain ⟨e, he, h⟩ := (A.coalesce_stored _ _).mpr h
          exact ⟨e, List.mem_append_left _ he, h⟩
        · obtain ⟨rfl, h⟩ := h
          refine ⟨_, List.mem_append_right _ (List.mem_map.mpr ⟨i - A.rows,
            List.mem_range.mpr (by omega), rfl⟩), ?_, ?_⟩ <;> simp only <;> omega

/-- Indices beyond the precision of the dtype are lost. -/
theorem catSparseIdentity_lost [NonAssocSemiring R] {A : Coo R} {N : Nat} (hsq : A.rows = A.cols)
    (hN : A.rows < N) :
    ∃ C, catSparseIdentity A N = .ok C ∧
      ∀ i j, 2 ^ mantissaBits A.md.dtype < i → i % 2 = 1 → C.den i j = 0 := by
  unfold catSparseIdentity
  rw [if_neg (by simpa using hsq), if_neg (by push_cast; omega),
    if_neg (by push_cast; omega)]
  refine ⟨_, rfl, ?_⟩
  intro i j hi hodd
  apply Coo.den_of_not_stored
  rintro ⟨e, he, rfl, _⟩
  have key : ∀ k, e.1 = roundBits (mantissaBits A.md.dtype) k → False := by
    intro k hk
    by_cases hlt : k < 2 ^ mantissaBits A.md.dtype
    · rw [roundBits_small hlt] at hk; omega
    · have := roundBits_even (p := mantissaBits A.md.dtype) (k := k) (by omega)
      rw [← hk] at this
      omega
  rcases List.mem_append.mp he with he | he
  · obtain ⟨e', _, rfl⟩ := List.mem_map.mp he
    exact key _ rfl
  · obtain ⟨k, _, rfl⟩ := List.mem_map.mp he
    exact key _ rfl

theorem catSparseIdentity_bad [NonAssocSemiring R] {A : Coo R} {N : Int}
    (h : A.rows ≠ A.cols ∨ N < A.rows) : catSparseIdentity A N = .error .valueError := by
  unfold catSparseIdentity
  split_ifs with h1 h2 h3
  · rfl
  · rfl
  · exact absurd (h.resolve_left (by simpa using h1)) h2
  · exact absurd (h.resolve_left (by simpa using h1)) h2

/-! ### Replacing a row -/

theorem removal_ok [NonAssocSemiring R] (md : Meta) (n k : Nat) :
    ∃ D : Coo R, Coo.mk? md n n
      ((List.range n).map fun (i : Nat) => ((i : Int), (i : Int), if i = k then (0 : R) else 1)) = .ok D ∧
      D.md = md ∧ D.rows = n ∧ D.cols = n ∧
      (∀ i j, i < n → D.den i j = if i = j ∧ i ≠ k then 1 else 0) ∧
      ∀ i j, D.Stored i j ↔ i = j ∧ i < n := by
  set ents : List (Nat × Nat × R) := (List.range n).map fun i => (i, i, if i = k then (0 : R) else 1) with he
  have hb : ∀ e ∈ ents, e.1 < n ∧ e.2.1 < n := by
    intro e h
    obtain ⟨i, hi, rfl⟩ := List.mem_map.mp h
    exact ⟨List.mem_range.mp hi, List.mem_range.mp hi⟩
  refine ⟨⟨md, n, n, ents, hb⟩, ?_, rfl, rfl, rfl, ?_, ?_⟩
  · rw [← Coo.mk?_ok hb, he, List.map_map]
    rfl
  · intro i j hi
    show (ents.map _).sum = _
    rw [he, List.map_map]
    have hc : ((List.range n).map ((fun e : Nat × Nat × R =>
        if e.1 = i ∧ e.2.1 = j then e.2.2 else 0) ∘ fun i => (i, i, if i = k then (0 : R) else 1)))
        = (List.range n).map fun q => if q = i then (if i = j ∧ i ≠ k then (1 : R) else 0) else 0 := by
      apply List.map_congr_left
      intro q _
      simp only [Function.comp_def]
      by_cases hq : q = i
      · subst hq
        by_cases hj : q = j
        · subst hj
          by_cases hk : q = k <;> simp [hk]
        · simp [hj]
      · simp [hq]
    rw [hc, sum_ite_nodup _ _ List.nodup_range, if_pos (List.mem_range.mpr hi)]
  · intro i j
    constructor
    · rintro ⟨e, h, rfl, rfl⟩
      obtain ⟨i, hi, rfl⟩ := List.mem_map.mp h
      exact ⟨rfl, List.mem_range.mp hi⟩
    · rintro ⟨rfl, h⟩
      exact ⟨_, List.mem_map.mpr ⟨i, List.mem_range.mpr h, rfl⟩, rfl, rfl⟩

theorem promote_self (d : DType) : Coo.promote d d = d := by unfold Coo.promote; rw [if_pos rfl]

theorem sparseReplaceRow_ok [NonAssocSemiring R] {A row : Coo R} {k : Nat} (hsq : A.rows = A.cols)
    (hr : row.rows = 1) (hc : row.cols = A.cols) (hk : k < A.rows) :
    ∃ C, sparseReplaceRow A k row = .ok C ∧ C.md = A.md ∧ C.rows = A.rows ∧ C.cols = A.cols ∧
      (∀ i j, C.den i j = if i = k then row.den 0 j else A.den i j) ∧
      ∀ i j, C.Stored i j ↔ A.Stored i j ∨ (i = k ∧ row.Stored 0 j) := by
  obtain ⟨D, d0, d1, d2, d3, d4, d5⟩ := removal_ok (R := R) A.md A.rows k
  set ents : List (Nat × Nat × R) := row.coalesce.ents.map fun e => (e.1 + k, e.2.1, e.2.2) with he
  have h0 : ∀ e ∈ row.coalesce.ents, e.1 = 0 := by
    intro e h; have := row.coalesce.bound e h; simp only [Coo.coalesce_rows] at this; omega
  have hb : ∀ e ∈ ents, e.1 < A.rows ∧ e.2.1 < A.cols := by
    intro e h
    obtain ⟨e', h', rfl⟩ := List.mem_map.mp h
    have := row.coalesce.bound e' h'
    simp only [Coo.coalesce_cols] at this
    have := h0 e' h'
    simp only; omega
  set B : Coo R := ⟨A.md, A.rows, A.cols, ents, hb⟩ with hB
  have hBmk : Coo.mk? A.md A.rows A.cols
    (row.coalesce.ents.map fun e => ((e.1 : Int) + (k : Int), (e.2.1 : Int), e.2.2)) = .ok B := by
    rw [hB, ← Coo.mk?_ok hb, he, List.map_map]
    rfl
  have hBden : ∀ i j, B.den i j = if i = k then row.den 0 j else 0 := by
    intro i j
    show (ents.map _).sum = _
    rw [he, List.map_map]
    split_ifs with hi
    · rw [← row.coalesce_den]
      unfold Coo.den
      congr 1
      apply List.map_congr_left
      intro e h
      have := h0 e h
      simp only [Function.comp_def]
      congr 1
      apply propext
      omega
    · apply List.sum_eq_zero
      intro x hx
      obtain ⟨e, h, rfl⟩ := List.mem_map.mp hx
      have := h0 e h
      simp only [Function.comp_def]
      rw [if_neg (by omega)]
  have hBst : ∀ i j, B.Stored i j ↔ i = k ∧ row.Stored 0 j := by
    intro i j
    constructor
    · rintro ⟨e, h, rfl, rfl⟩
      obtain ⟨e', h', rfl⟩ := List.mem_map.mp h
      have := h0 e' h'
      exact ⟨by simp only; omega, (row.coalesce_stored _ _).mp ⟨e', h', this, rfl⟩⟩
    · rintro ⟨rfl, h⟩
      obtain ⟨e, h, h1, h2⟩ := (row.coalesce_stored _ _).mpr h
      exact ⟨_, List.mem_map.mpr ⟨e, h, rfl⟩, by simp only; omega, h2⟩
  obtain ⟨M, m0, m1, m2, m3, m4, m5⟩ := Coo.mm_ok (A := D) (B := A.coalesce) d3 d1
  obtain ⟨C, c0, c1, c2, c3, c4, c5⟩ := Coo.add_ok (A := M) (B := B) (by rw [m2, d2])
    m3 (by rw [m1, d1])
  refine ⟨C, ?_, ?_, by rw [c2, m2, d2], by rw [c3, m3, Coo.coalesce_cols], ?_, ?_⟩
  · unfold sparseReplaceRow
    have hn : normAxis A.rows (k : Int) = .ok k := by
      unfold normAxis
      rw [if_pos (by omega)]
      rfl
    simp only [bind, Except.bind, Coo.coalesce_rows, Coo.coalesce_cols, Coo.coalesce_md, hn]
    rw [if_neg (by simpa using hc.symm), ← hsq]
    simp only [pure, Except.pure, d0]
    rw [hsq] at hBmk ⊢
    rw [hBmk]
    simp only [m0, c0]
  · rw [c1, m1, d1, promote_self]
  · intro i j
    rw [c4, m4, hBden]
    by_cases hi : i < A.rows
    · rw [d3, Finset.sum_eq_single i]
      · rw [d4 i i hi, Coo.coalesce_den]
        by_cases hik : i = k
        · rw [if_neg (by simp [hik]), if_pos hik, if_pos hik, zero_mul, zero_add]
        · rw [if_pos ⟨rfl, hik⟩, if_neg hik, if_neg hik, one_mul, add_zero]
      · intro j' _ hj'
        rw [d4 i j' hi, if_neg (fun h => hj' h.1.symm), zero_mul]
      · intro h; exact absurd (Finset.mem_range.mpr hi) h
    · rw [if_neg (by omega), if_neg (by omega), Coo.den_of_rows (A := A) (by omega), add_zero]
      apply Finset.sum_eq_zero
      intro j' _
      rw [Coo.den_of_rows (A := D) (by omega), zero_mul]
  · intro i j
    rw [c5, m5, hBst]
    constructor
    · rintro (⟨j', hj', h1, h2⟩ | h)
      · obtain ⟨rfl, h3⟩ := (d5 _ _).mp h1
        exact Or.inl ((A.coalesce_stored _ _).mp h2)
      · exact Or.inr h
    · rintro (h | h)
      · exact Or.inl ⟨i, by rw [d3]; exact h.lt.1, (d5 _ _).mpr ⟨rfl, h.lt.1⟩, (A.coalesce_stored _ _).mpr h⟩
      · exact Or.inr h

theorem sparseReplaceRow_nonsquare [NonAssocSemiring R] {A row : Coo R} {k : Nat}
    (hsq : A.rows ≠ A.cols) (hr : row.rows = 1) (hc : row.cols = A.cols) (hk : k < A.rows) :
    sparseReplaceRow A k row = .error .runtimeError := by
  have hn : normAxis A.rows (k : Int) = .ok k := by
    unfold normAxis
    rw [if_pos (by omega)]
    rfl
  unfold sparseReplaceRow
  simp only [bind, Except.bind, Coo.coalesce_rows, Coo.coalesce_cols, Coo.coalesce_md, hn]
  rw [if_neg (by simpa using hc.symm)]
  cases h1 : Coo.mk? A.md A.rows A.cols
    ((List.range A.rows).map fun (i : Nat) => ((i : Int), (i : Int), if i = k then (0 : R) else 1)) with
  | error e =>
    unfold Coo.mk? at h1
    split_ifs at h1
    cases h1; rfl
  | ok D =>
    have hD : D.cols = A.cols := by
      unfold Coo.mk? at h1
      split_ifs at h1
      cases h1; rfl
    simp only
    cases h2 : Coo.mk? A.md A.rows A.cols
      (row.coalesce.ents.map fun e => ((e.1 : Int) + (k : Int), (e.2.1 : Int), e.2.2)) with
    | error e =>
      unfold Coo.mk? at h2
      split_ifs at h2
      cases h2; rfl
    | ok B =>
      simp only
      unfold Coo.mm
      rw [if_neg]
      rintro ⟨h, _⟩
      rw [hD] at h
      exact hsq h.symm

end Verif
