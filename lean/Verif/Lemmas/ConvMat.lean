/-
Convolution matrices.
-/
import Verif.Lemmas.Sparse
import Verif.Spec.Sparse
import Verif.Lemmas.Filter

namespace Verif
open Tensor Spec
variable {R : Type}

theorem tap_nat [Zero R] (f : List R) (k : Nat) : tap f (k : ℤ) = f.getD k 0 := by
  simp [tap]

theorem tap_neg' [Zero R] (f : List R) {i : ℤ} (h : i < 0) : tap f i = 0 := by
  unfold tap; rw [if_neg (by omega)]

theorem tap_large [Zero R] (f : List R) {i : ℤ} (h : (f.length : ℤ) ≤ i) : tap f i = 0 := by
  unfold tap
  rw [if_pos (by omega), List.getD_eq_getElem?_getD, List.getElem?_eq_none (by omega)]
  rfl

/-- The entries of the convolution matrix, for any window `[st, st + m)` of rows. -/
theorem convMat_gen [AddCommMonoid R] (md : Meta) (f : List R) (n st m : Nat)
    (hm : 1 ≤ m) (hn : 1 ≤ n) (hF : 1 ≤ f.length) (h1 : st + m ≤ n + f.length - 1)
    (h2 : ∃ t, t < f.length ∧ st ≤ t + (n - 1) ∧ t + (n - 1) < st + m) :
    let lst := (Coo.grid n f.length).filter fun q =>
      (st : ℤ) ≤ ((q.2 + q.1 : Nat) : Int) ∧ ((q.2 + q.1 : Nat) : Int) ≤ (st : ℤ) + m - 1
    let C := Coo.infer md (lst.map fun q => ((((q.2 + q.1 : Nat) : Int) - st).toNat, q.1, f.getD q.2 0))
    lst ≠ [] ∧ C.rows = m ∧ C.cols = n ∧
      (∀ i j, i < m → j < n → C.den i j = tap f (st + i - j)) ∧
      ∀ i j, C.Stored i j ↔ i < m ∧ j < n ∧ j ≤ st + i ∧ st + i < j + f.length := by
  intro lst C
  have hmem : ∀ q, q ∈ lst ↔ q.1 < n ∧ q.2 < f.length ∧ st ≤ q.2 + q.1 ∧ q.2 + q.1 < st + m := by
    intro q
    simp only [lst, List.mem_filter, Coo.mem_grid, decide_eq_true_eq]
    omega
  have hnd : lst.Nodup := (Coo.grid_nodup _ _).filter _
  obtain ⟨t, ht1, ht2, ht3⟩ := h2
  have hl : ((n - 1, t) : Nat × Nat) ∈ lst := (hmem _).mpr ⟨by simp only; omega, ht1, by simp only; omega, by simp only; omega⟩
  refine ⟨List.ne_nil_of_mem hl, ?_, ?_, ?_, ?_⟩
  · apply Coo.infer_rows
    · intro e he
      obtain ⟨q, hq, rfl⟩ := List.mem_map.mp he
      have := (hmem q).mp hq
      simp only; omega
    · right
      have hq : ((min (n - 1) (st + m - 1), st + m - 1 - min (n - 1) (st + m - 1)) : Nat × Nat) ∈ lst := by
        rw [hmem]; simp only; omega
      exact ⟨_, List.mem_map.mpr ⟨_, hq, rfl⟩, by simp only; omega⟩
  · apply Coo.infer_cols
    · intro e he
      obtain ⟨q, hq, rfl⟩ := List.mem_map.mp he
      exact ((hmem q).mp hq).1
    · right
      exact ⟨_, List.mem_map.mpr ⟨_, hl, rfl⟩, by simp only; omega⟩
  · intro i j hi hj
    show ((lst.map _).map _).sum = _
    rw [List.map_map]
    have hcong : (lst.map ((fun e : Nat × Nat × R => if e.1 = i ∧ e.2.1 = j then e.2.2 else 0) ∘
        fun q => ((((q.2 + q.1 : Nat) : Int) - st).toNat, q.1, f.getD q.2 0)))
        = lst.map fun q => if q = (j, st + i - j) then (if j ≤ st + i then f.getD q.2 0 else 0) else 0 := by
      apply List.map_congr_left
      intro q hq
      have hq := (hmem q).mp hq
      simp only [Function.comp_def, Prod.ext_iff]
      by_cases hj' : j ≤ st + i
      · simp only [hj', if_true]
        congr 1
        apply propext
        omega
      · rw [if_neg (by omega)]
        simp only [hj', if_false, ite_self]
    rw [hcong, sum_ite_nodup _ _ hnd]
    by_cases hj' : j ≤ st + i
    · have e : ((st : ℤ) + i - j) = ((st + i - j : ℕ) : ℤ) := by omega
      rw [e, tap_nat]
      simp only [hj', if_true]
      split_ifs with hin
      · rfl
      · rw [hmem] at hin
        simp only at hin
        rw [List.getD_eq_getElem?_getD, List.getElem?_eq_none (by omega)]
        rfl
    · rw [tap_neg' _ (by omega)]
      simp only [hj', if_false, ite_self]
  · intro i j
    constructor
    · rintro ⟨e, he, rfl, rfl⟩
      obtain ⟨q, hq, rfl⟩ := List.mem_map.mp he
      have := (hmem q).mp hq
      simp only; omega
    · intro h
      have hq : ((j, st + i - j) : Nat × Nat) ∈ lst := by rw [hmem]; simp only; omega
      exact ⟨_, List.mem_map.mpr ⟨_, hq, rfl⟩, by simp only; omega, rfl⟩

theorem convRange_named {s : String} {m : ConvMode} (h : m.Named s) {F n : Nat} (hF : 1 ≤ F)
    (hv : m = .valid → F ≤ n) :
    convRange s F n = .ok ((m.first F : ℤ),
      (m.first F : ℤ) + m.count F n - 1 + if m = .full then 1 else 0) := by
  unfold convRange
  rcases h with ⟨rfl, rfl⟩ | ⟨rfl | rfl, rfl⟩ | ⟨rfl, rfl⟩
  · simp only [if_true, ConvMode.first, ConvMode.count]
    congr 2; omega
  · simp [ConvMode.first, ConvMode.count]; omega
  · simp [ConvMode.first, ConvMode.count]; omega
  · have := hv rfl
    simp [ConvMode.first, ConvMode.count]; omega

theorem constructConvMatrix_ok [AddCommMonoid R] (md : Meta) (f : List R) (n : Nat) {s : String}
    {m : ConvMode} (h : m.Named s) (hF : 1 ≤ f.length) (hn : 1 ≤ n)
    (hv : m = .valid → f.length ≤ n) :
    ∃ C, constructConvMatrix md f n s = .ok C ∧ C.md = md ∧ C.rows = m.count f.length n ∧ C.cols = n ∧
      (∀ i j, i < m.count f.length n → j < n → C.den i j = tap f (m.first f.length + i - j)) ∧
      ∀ i j, C.Stored i j ↔ i < m.count f.length n ∧ j < n ∧ j ≤ m.first f.length + i ∧
        m.first f.length + i < j + f.length := by
  have hr := convRange_named (n := n) h hF hv
  obtain ⟨g0, g1, g2, g3, g4⟩ := convMat_gen md f n (m.first f.length) (m.count f.length n)
    (by cases m <;> simp only [ConvMode.count] <;> first | omega | (have := hv rfl; omega)) hn hF
    (by cases m <;> simp only [ConvMode.count, ConvMode.first] <;> first | omega | (have := hv rfl; omega))
    (by
      cases m
      · exact ⟨0, by simp only [ConvMode.count, ConvMode.first]; omega⟩
      · exact ⟨(f.length - 1) / 2, by simp only [ConvMode.count, ConvMode.first]; omega⟩
      · have := hv rfl
        exact ⟨0, by simp only [ConvMode.count, ConvMode.first]; omega⟩)
  refine ⟨_, ?_, rfl, g1, g2, g3, g4⟩
  unfold constructConvMatrix
  simp only [bind, Except.bind, hr]
  have hfil : ((Coo.grid n f.length).filter fun q =>
      (m.first f.length : ℤ) ≤ ((q.2 + q.1 : Nat) : Int) ∧
        ((q.2 + q.1 : Nat) : Int) ≤ (m.first f.length : ℤ) + m.count f.length n - 1
          + if m = .full then 1 else 0)
      = (Coo.grid n f.length).filter fun q =>
      (m.first f.length : ℤ) ≤ ((q.2 + q.1 : Nat) : Int) ∧
        ((q.2 + q.1 : Nat) : Int) ≤ (m.first f.length : ℤ) + m.count f.length n - 1 := by
    apply List.filter_congr
    intro q hq
    have := Coo.mem_grid.mp hq
    congr 1
    apply propext
    cases m <;> simp [ConvMode.first, ConvMode.count] <;> omega
  rw [hfil]
  rw [if_neg g0]
  rfl

theorem constructConvMatrix_bad [AddCommMonoid R] (md : Meta) (f : List R) (n : Nat) {s : String}
    {m : ConvMode} (h : m.Named s)
    (hb : f.length = 0 ∨ n = 0 ∨ m = .valid ∧ n < f.length) :
    constructConvMatrix md f n s = .error .runtimeError := by
  have key : ∀ s1 s2 : ℤ, (f.length = 0 ∨ n = 0 ∨ s2 < s1) →
      ((Coo.grid n f.length).filter fun q =>
        s1 ≤ ((q.2 + q.1 : Nat) : Int) ∧ ((q.2 + q.1 : Nat) : Int) ≤ s2) = [] := by
    intro s1 s2 hs
    rw [List.filter_eq_nil_iff]
    intro q hq
    have := Coo.mem_grid.mp hq
    simp only [decide_eq_true_eq]
    omega
  have hm : ∃ s1 s2, convRange s f.length n = .ok (s1, s2) ∧
      (f.length = 0 ∨ n = 0 ∨ s2 < s1) := by
    unfold convRange
    rcases h with ⟨rfl, rfl⟩ | ⟨rfl | rfl, rfl⟩ | ⟨rfl, rfl⟩
    · exact ⟨_, _, rfl, by rcases hb with h | h | h <;> first | omega | cases h.1⟩
    · exact ⟨_, _, rfl, by rcases hb with h | h | h <;> first | omega | cases h.1⟩
    · exact ⟨_, _, rfl, by rcases hb with h | h | h <;> first | omega | cases h.1⟩
    · exact ⟨_, _, rfl, by omega⟩
  obtain ⟨s1, s2, e, hs⟩ := hm
  unfold constructConvMatrix
  simp only [bind, Except.bind, e]
  rw [if_pos (key s1 s2 hs)]
  rfl

theorem constructConvMatrix_unknown [AddCommMonoid R] (md : Meta) (f : List R) (n : Nat) {s : String}
    (h : ∀ m, ¬ ConvMode.Named s m) : constructConvMatrix md f n s = .error .valueError := by
  have e : convRange s f.length n = .error .valueError := by
    unfold convRange
    rw [if_neg (fun h' => h .full (Or.inl ⟨h', rfl⟩)),
      if_neg (fun h' => h .same (Or.inr (Or.inl ⟨h', rfl⟩))),
      if_neg (fun h' => h .valid (Or.inr (Or.inr ⟨h', rfl⟩)))]
  unfold constructConvMatrix
  simp only [bind, Except.bind, e]

/-! ### Strided -/

theorem arange_length (a b s : Nat) : (arange a b s).length = strideCount a b s := by
  simp [arange, strideCount]

theorem arange_getElem? (a b s k : Nat) (h : k < strideCount a b s) :
    (arange a b s)[k]? = some (a + s * k) := by
  unfold arange strideCount at *
  rw [List.getElem?_map, List.getElem?_range h]
  rfl

theorem strideCount_lt {a b s k : Nat} (hs : 1 ≤ s) (h : k < strideCount a b s) : a + s * k < b := by
  unfold strideCount at h
  have h1 := (Nat.lt_div_iff_mul_lt (by omega)).mp h
  rw [Nat.mul_comm] at h1
  omega

/-- A selection matrix times a matrix picks rows. -/
theorem select_mm [NonAssocSemiring R] {md : Meta} {C : Coo R} (sel : List Nat) (hmd : C.md = md)
    (hsel : ∀ v ∈ sel, v < C.rows) :
    ∃ S T, Coo.mk? md sel.length C.rows (sel.mapIdx fun (k v : Nat) => ((k : Int), (v : Int), (1 : R))) = .ok S ∧
      S.mm C = .ok T ∧ T.md = md ∧ T.rows = sel.length ∧ T.cols = C.cols ∧
      (∀ k v j, sel[k]? = some v → T.den k j = C.den v j) ∧
      ∀ k v j, sel[k]? = some v → (T.Stored k j ↔ C.Stored v j) := by
  set ents : List (Nat × Nat × R) := sel.mapIdx fun (k v : Nat) => (k, v, (1 : R)) with hents
  have he : ∀ e ∈ ents, e.1 < sel.length ∧ e.2.1 < C.rows := by
    intro e he
    obtain ⟨k, hk, rfl⟩ := List.mem_mapIdx.mp he
    exact ⟨hk, hsel _ (List.getElem_mem hk)⟩
  have e1 := Coo.mk?_ok (md := md) he
  have e2 : (ents.map fun e => ((e.1 : Int), (e.2.1 : Int), e.2.2))
      = sel.mapIdx fun (k v : Nat) => ((k : Int), (v : Int), (1 : R)) := by
    rw [hents]
    apply List.ext_getElem?
    intro j
    rw [List.getElem?_map, List.getElem?_mapIdx, List.getElem?_mapIdx, Option.map_map]
    rfl
  rw [e2] at e1
  set S : Coo R := ⟨md, sel.length, C.rows, ents, he⟩ with hS
  obtain ⟨T, h1, h2, h3, h4, h5, h6⟩ := Coo.mm_ok (A := S) (B := C) rfl hmd.symm
  have hst : ∀ k v i, sel[k]? = some v → (S.Stored k i ↔ i = v) := by
    intro k v i hk
    constructor
    · rintro ⟨e, he, h1, h2⟩
      obtain ⟨k', hk', rfl⟩ := List.mem_mapIdx.mp he
      simp only at h1 h2
      subst h1 h2
      rw [List.getElem?_eq_getElem hk'] at hk
      exact Option.some.inj hk
    · rintro rfl
      obtain ⟨hk', rfl⟩ := List.getElem?_eq_some_iff.mp hk
      exact ⟨_, List.mem_mapIdx.mpr ⟨k, hk', rfl⟩, rfl, rfl⟩
  have hden : ∀ k v i, sel[k]? = some v → S.den k i = if i = v then 1 else 0 := by
    intro k v i hk
    obtain ⟨hk', rfl⟩ := List.getElem?_eq_some_iff.mp hk
    have hents2 : ents = (List.range sel.length).map fun k => (k, sel.getD k 0, (1 : R)) := by
      apply List.ext_getElem?
      intro j
      rw [hents, List.getElem?_mapIdx, List.getElem?_map]
      by_cases hj : j < sel.length
      · rw [List.getElem?_range hj, List.getElem?_eq_getElem hj]
        simp [List.getD_eq_getElem?_getD, hj]
      · rw [List.getElem?_eq_none (by omega), List.getElem?_eq_none (by simp; omega)]
        rfl
    show (ents.map _).sum = _
    rw [hents2, List.map_map]
    have hc : ((List.range sel.length).map ((fun e : Nat × Nat × R =>
        if e.1 = k ∧ e.2.1 = i then e.2.2 else 0) ∘ fun k => (k, sel.getD k 0, (1 : R))))
        = (List.range sel.length).map fun q => if q = k then (if i = sel.getD q 0 then (1 : R) else 0) else 0 := by
      apply List.map_congr_left
      intro q _
      simp only [Function.comp_def]
      by_cases hq : q = k
      · subst hq
        simp only [true_and, if_true, eq_comm]
      · simp [hq]
    rw [hc, sum_ite_nodup _ _ List.nodup_range, if_pos (by simpa using hk')]
    simp [List.getD_eq_getElem?_getD, hk']
  refine ⟨S, T, e1, h1, h2, h3, h4, ?_, ?_⟩
  · intro k v j hk
    have hv : v < C.rows := hsel v (List.mem_of_getElem? hk)
    rw [h5]
    show ∑ i ∈ Finset.range C.rows, _ = _
    rw [Finset.sum_eq_single v]
    · rw [hden k v v hk, if_pos rfl, one_mul]
    · intro i _ hi
      rw [hden k v i hk, if_neg hi, zero_mul]
    · intro h; exact absurd (Finset.mem_range.mpr hv) h
  · intro k v j hk
    have hv : v < C.rows := hsel v (List.mem_of_getElem? hk)
    rw [h6]
    constructor
    · rintro ⟨i, _, h7, h8⟩
      rw [(hst k v i hk).mp h7] at h8
      exact h8
    · intro h
      exact ⟨v, hv, (hst k v v hk).mpr rfl, h⟩

theorem constructStrided_ok [NonAssocSemiring R] (md : Meta) (f : List R) (n stride : Nat) {s : String}
    {m : ConvMode} (h : m.Named s) (hF : 1 ≤ f.length) (hn : 1 ≤ n) (hst : 1 ≤ stride)
    (hv : m = .valid → f.length ≤ n) :
    ∃ C, constructStridedConvMatrix md f n stride s = .ok C ∧ C.md = md ∧
      C.rows = strideCount (strideStart s) (m.count f.length n) stride ∧ C.cols = n ∧
      (∀ i j, i < C.rows → j < n →
        C.den i j = tap f (m.first f.length + (strideStart s + stride * i : ℕ) - j)) ∧
      ∀ i j, C.Stored i j ↔ i < C.rows ∧ j < n ∧ j ≤ m.first f.length + (strideStart s + stride * i) ∧
        m.first f.length + (strideStart s + stride * i) < j + f.length := by
  obtain ⟨C, e, c1, c2, c3, c4, c5⟩ := constructConvMatrix_ok md f n h hF hn hv
  obtain ⟨S, T, e1, e2, t1, t2, t3, t4, t5⟩ := select_mm (R := R) (md := md) (C := C)
    (arange (strideStart s) C.rows stride) c1 (by
      intro v hv
      obtain ⟨k, hk⟩ := List.getElem?_of_mem hv
      have hk' : k < strideCount (strideStart s) C.rows stride := by
        rw [← arange_length]
        exact (List.getElem?_eq_some_iff.mp hk).1
      rw [arange_getElem? _ _ _ _ hk'] at hk
      cases hk
      exact strideCount_lt hst hk')
  rw [arange_length, c2] at t2
  refine ⟨T, ?_, t1, t2, t3.trans c3, ?_, ?_⟩
  · unfold constructStridedConvMatrix
    simp only [bind, Except.bind, e]
    rw [if_neg (by omega)]
    have : (if s = "sameshift" then 1 else 0) = strideStart s := rfl
    simp only [this, pure, Except.pure, e1]
    exact e2
  · intro i j hi hj
    rw [t2] at hi
    have hlt := strideCount_lt hst hi
    rw [t4 i _ j (arange_getElem? _ _ _ _ (by rw [c2]; exact hi)), c4 _ _ hlt hj]
  · intro i j
    by_cases hi : i < T.rows
    · have hi' := hi
      rw [t2] at hi'
      have hlt := strideCount_lt hst hi'
      rw [t5 i _ j (arange_getElem? _ _ _ _ (by rw [c2]; exact hi')), c5]
      omega
    · constructor
      · intro h; exact absurd h.lt.1 hi
      · intro h; exact absurd h.1 hi

end Verif
