/-
The matrices denoted by the results of the sparse primitives.
-/
import Verif.Model.SparseMath
import Mathlib.Data.List.ProdSigma
import Mathlib.Algebra.BigOperators.Ring.Finset
import Mathlib.Algebra.BigOperators.Group.Finset.Piecewise
import Mathlib.Algebra.BigOperators.Group.List.Lemmas

namespace Verif
open Tensor
variable {R : Type}

theorem sum_ite_nodup [AddCommMonoid R] {α : Type} [DecidableEq α] (v : α → R) (p : α) :
    ∀ {l : List α}, l.Nodup → (l.map fun q => if q = p then v q else 0).sum = if p ∈ l then v p else 0
  | [], _ => by simp
  | a :: l, h => by
    have h' := List.nodup_cons.mp h
    rw [List.map_cons, List.sum_cons, sum_ite_nodup v p h'.2]
    by_cases ha : a = p
    · subst ha
      rw [if_pos rfl, if_neg h'.1, if_pos (by simp), add_zero]
    · rw [if_neg ha, zero_add]
      by_cases hl : p ∈ l
      · rw [if_pos hl, if_pos (by simp [hl])]
      · rw [if_neg hl, if_neg (by simp [hl, Ne.symm ha])]

namespace Coo

theorem grid_nodup (m n : Nat) : (grid m n).Nodup :=
  List.Nodup.product List.nodup_range List.nodup_range

@[simp] theorem ofFn_rows (md : Meta) (m n : Nat) (p : Nat → Nat → Prop) [∀ i j, Decidable (p i j)]
    (f : Nat → Nat → R) : (ofFn md m n p f).rows = m := rfl
@[simp] theorem ofFn_cols (md : Meta) (m n : Nat) (p : Nat → Nat → Prop) [∀ i j, Decidable (p i j)]
    (f : Nat → Nat → R) : (ofFn md m n p f).cols = n := rfl
@[simp] theorem ofFn_md (md : Meta) (m n : Nat) (p : Nat → Nat → Prop) [∀ i j, Decidable (p i j)]
    (f : Nat → Nat → R) : (ofFn md m n p f).md = md := rfl

theorem ofFn_den [AddCommMonoid R] (md : Meta) (m n : Nat) (p : Nat → Nat → Prop)
    [∀ i j, Decidable (p i j)] (f : Nat → Nat → R) (i j : Nat) :
    (ofFn md m n p f).den i j = if i < m ∧ j < n ∧ p i j then f i j else 0 := by
  unfold den ofFn
  simp only [List.map_map, Function.comp_def]
  have := sum_ite_nodup (R := R) (fun q : Nat × Nat => f q.1 q.2) (i, j)
    ((grid_nodup m n).filter fun q => decide (p q.1 q.2))
  simp only [Prod.ext_iff] at this
  rw [this]
  simp only [List.mem_filter, mem_grid, decide_eq_true_eq, and_assoc]

theorem ofFn_stored (md : Meta) (m n : Nat) (p : Nat → Nat → Prop)
    [∀ i j, Decidable (p i j)] (f : Nat → Nat → R) (i j : Nat) :
    (ofFn md m n p f).Stored i j ↔ i < m ∧ j < n ∧ p i j := by
  unfold Stored ofFn
  constructor
  · rintro ⟨e, he, rfl, rfl⟩
    obtain ⟨q, hq, rfl⟩ := List.mem_map.mp he
    have h := List.mem_filter.mp hq
    exact ⟨(mem_grid.mp h.1).1, (mem_grid.mp h.1).2, by simpa using h.2⟩
  · rintro ⟨h1, h2, h3⟩
    exact ⟨(i, j, f i j), List.mem_map.mpr ⟨(i, j),
      List.mem_filter.mpr ⟨mem_grid.mpr ⟨h1, h2⟩, by simpa using h3⟩, rfl⟩, rfl, rfl⟩

theorem den_of_not_stored [AddCommMonoid R] {A : Coo R} {i j : Nat} (h : ¬ A.Stored i j) :
    A.den i j = 0 := by
  unfold den
  apply List.sum_eq_zero
  intro x hx
  obtain ⟨e, he, rfl⟩ := List.mem_map.mp hx
  rw [if_neg]
  exact fun h' => h ⟨e, he, h'.1, h'.2⟩

theorem Stored.lt {A : Coo R} {i j : Nat} (h : A.Stored i j) : i < A.rows ∧ j < A.cols := by
  obtain ⟨e, he, rfl, rfl⟩ := h
  exact A.bound e he

theorem den_of_rows [AddCommMonoid R] {A : Coo R} {i j : Nat} (h : A.rows ≤ i) : A.den i j = 0 :=
  den_of_not_stored fun h' => absurd h'.lt.1 (by omega)

theorem den_of_cols [AddCommMonoid R] {A : Coo R} {i j : Nat} (h : A.cols ≤ j) : A.den i j = 0 :=
  den_of_not_stored fun h' => absurd h'.lt.2 (by omega)

@[simp] theorem coalesce_rows [AddCommMonoid R] (A : Coo R) : A.coalesce.rows = A.rows := rfl
@[simp] theorem coalesce_cols [AddCommMonoid R] (A : Coo R) : A.coalesce.cols = A.cols := rfl
@[simp] theorem coalesce_md [AddCommMonoid R] (A : Coo R) : A.coalesce.md = A.md := rfl

@[simp] theorem coalesce_den [AddCommMonoid R] (A : Coo R) (i j : Nat) :
    A.coalesce.den i j = A.den i j := by
  unfold coalesce
  rw [ofFn_den]
  split_ifs with h
  · rfl
  · by_cases hs : A.Stored i j
    · exact absurd ⟨hs.lt.1, hs.lt.2, hs⟩ h
    · exact (den_of_not_stored hs).symm

@[simp] theorem coalesce_stored [AddCommMonoid R] (A : Coo R) (i j : Nat) :
    A.coalesce.Stored i j ↔ A.Stored i j := by
  unfold coalesce
  rw [ofFn_stored]
  exact ⟨fun h => h.2.2, fun h => ⟨h.lt.1, h.lt.2, h⟩⟩

theorem transpose_den [AddCommMonoid R] (A : Coo R) (i j : Nat) :
    A.transpose.den i j = A.den j i := by
  unfold den transpose
  simp only [List.map_map, Function.comp_def, and_comm]

theorem transpose_stored (A : Coo R) (i j : Nat) : A.transpose.Stored i j ↔ A.Stored j i := by
  unfold Stored transpose
  constructor
  · rintro ⟨e, he, rfl, rfl⟩
    obtain ⟨e', he', rfl⟩ := List.mem_map.mp he
    exact ⟨e', he', rfl, rfl⟩
  · rintro ⟨e, he, rfl, rfl⟩
    exact ⟨_, List.mem_map.mpr ⟨e, he, rfl⟩, rfl, rfl⟩

theorem mk?_ok [AddCommMonoid R] {md : Meta} {m n : Nat} {ents : List (Nat × Nat × R)}
    (h : ∀ e ∈ ents, e.1 < m ∧ e.2.1 < n) :
    mk? md m n (ents.map fun e => ((e.1 : Int), (e.2.1 : Int), e.2.2)) = .ok ⟨md, m, n, ents, h⟩ := by
  unfold mk?
  rw [dif_pos (by
    intro e he
    obtain ⟨e', he', rfl⟩ := List.mem_map.mp he
    have := h e' he'
    simp only
    omega)]
  congr 2
  rw [List.map_map]
  conv_rhs => rw [← List.map_id ents]
  apply List.map_congr_left
  intro e _
  simp

theorem mk?_bad {md : Meta} {m n : Nat} {ents : List (Int × Int × R)}
    (h : ∃ e ∈ ents, ¬ (0 ≤ e.1 ∧ e.1 < m ∧ 0 ≤ e.2.1 ∧ e.2.1 < n)) :
    mk? md m n ents = .error .runtimeError := by
  unfold mk?
  rw [dif_neg]
  intro h'
  obtain ⟨e, he, h⟩ := h
  exact h (h' e he)

theorem mm_ok [NonUnitalNonAssocSemiring R] {A B : Coo R} (hc : A.cols = B.rows) (hm : A.md = B.md) :
    ∃ C, A.mm B = .ok C ∧ C.md = A.md ∧ C.rows = A.rows ∧ C.cols = B.cols ∧
      (∀ i k, C.den i k = ∑ j ∈ Finset.range A.cols, A.den i j * B.den j k) ∧
      ∀ i k, C.Stored i k ↔ ∃ j < A.cols, A.Stored i j ∧ B.Stored j k := by
  unfold mm
  rw [if_pos ⟨hc, hm⟩]
  refine ⟨_, rfl, rfl, rfl, rfl, ?_, ?_⟩
  · intro i k
    rw [ofFn_den]
    split_ifs with h
    · rfl
    · symm
      apply Finset.sum_eq_zero
      intro j hj
      by_cases h1 : A.Stored i j
      · by_cases h2 : B.Stored j k
        · exact absurd ⟨h1.lt.1, h2.lt.2, j, Finset.mem_range.mp hj, h1, h2⟩ h
        · rw [den_of_not_stored h2, mul_zero]
      · rw [den_of_not_stored h1, zero_mul]
  · intro i k
    rw [ofFn_stored]
    exact ⟨fun h => h.2.2, fun ⟨j, hj, h1, h2⟩ => ⟨h1.lt.1, h2.lt.2, j, hj, h1, h2⟩⟩

theorem add_ok [AddCommMonoid R] {A B : Coo R} (hr : A.rows = B.rows) (hc : A.cols = B.cols)
    (hd : A.md.device = B.md.device) :
    ∃ C, A.add B = .ok C ∧ C.md = ⟨promote A.md.dtype B.md.dtype, A.md.device⟩ ∧ C.rows = A.rows ∧
      C.cols = A.cols ∧ (∀ i j, C.den i j = A.den i j + B.den i j) ∧
      ∀ i j, C.Stored i j ↔ A.Stored i j ∨ B.Stored i j := by
  unfold add
  rw [dif_pos ⟨hr, hc, hd⟩]
  refine ⟨_, rfl, rfl, rfl, rfl, ?_, ?_⟩
  · intro i j
    unfold den
    simp only [List.map_append, List.sum_append]
  · intro i j
    unfold Stored
    simp only [List.mem_append]
    constructor
    · rintro ⟨e, he | he, h⟩
      · exact Or.inl ⟨e, he, h⟩
      · exact Or.inr ⟨e, he, h⟩
    · rintro (⟨e, he, h⟩ | ⟨e, he, h⟩)
      · exact ⟨e, Or.inl he, h⟩
      · exact ⟨e, Or.inr he, h⟩

theorem addInplace_ok [AddCommMonoid R] {A B : Coo R} (hr : A.rows = B.rows) (hc : A.cols = B.cols)
    (hd : A.md.device = B.md.device) :
    ∃ C, A.addInplace B = .ok C ∧ C.md = A.md ∧ C.rows = A.rows ∧
      C.cols = A.cols ∧ (∀ i j, C.den i j = A.den i j + B.den i j) ∧
      ∀ i j, C.Stored i j ↔ A.Stored i j ∨ B.Stored i j := by
  unfold addInplace
  rw [dif_pos ⟨hr, hc, hd⟩]
  refine ⟨_, rfl, rfl, rfl, rfl, ?_, ?_⟩
  · intro i j
    unfold den
    simp only [List.map_append, List.sum_append]
  · intro i j
    unfold Stored
    simp only [List.mem_append]
    constructor
    · rintro ⟨e, he | he, h⟩
      · exact Or.inl ⟨e, he, h⟩
      · exact Or.inr ⟨e, he, h⟩
    · rintro (⟨e, he, h⟩ | ⟨e, he, h⟩)
      · exact ⟨e, Or.inl he, h⟩
      · exact ⟨e, Or.inr he, h⟩

theorem cat0_ok [AddCommMonoid R] {A B : Coo R} (hc : A.cols = B.cols) (hm : A.md = B.md) :
    ∃ C, A.cat0 B = .ok C ∧ C.md = A.md ∧ C.rows = A.rows + B.rows ∧ C.cols = A.cols ∧
      (∀ i j, C.den i j = if i < A.rows then A.den i j else B.den (i - A.rows) j) ∧
      ∀ i j, C.Stored i j ↔ if i < A.rows then A.Stored i j else B.Stored (i - A.rows) j := by
  unfold cat0
  rw [dif_pos ⟨hc, hm⟩]
  refine ⟨_, rfl, rfl, rfl, rfl, ?_, ?_⟩
  · intro i j
    have key : ∀ i j, (List.map (fun e : Nat × Nat × R => if A.rows + e.1 = i ∧ e.2.1 = j then e.2.2 else 0)
        B.ents).sum = if i < A.rows then 0 else B.den (i - A.rows) j := by
      intro i j
      split_ifs with h
      · apply List.sum_eq_zero
        intro x hx
        obtain ⟨e, he, rfl⟩ := List.mem_map.mp hx
        rw [if_neg (by omega)]
      · unfold den
        congr 1
        apply List.map_congr_left
        intro e _
        have : (A.rows + e.1 = i ∧ e.2.1 = j) ↔ (e.1 = i - A.rows ∧ e.2.1 = j) := by omega
        simp only [this]
    show ((A.ents ++ _).map _).sum = _
    rw [List.map_append, List.sum_append, List.map_map]
    show A.den i j + _ = _
    have := key i j
    simp only [Function.comp_def] at this ⊢
    rw [this]
    split_ifs with h
    · rw [add_zero]
    · rw [den_of_rows (by omega), zero_add]
  · intro i j
    unfold Stored
    simp only [List.mem_append]
    split_ifs with h
    · constructor
      · rintro ⟨e, he | he, h1, h2⟩
        · exact ⟨e, he, h1, h2⟩
        · obtain ⟨e', he', rfl⟩ := List.mem_map.mp he
          simp only at h1; omega
      · rintro ⟨e, he, h⟩; exact ⟨e, Or.inl he, h⟩
    · constructor
      · rintro ⟨e, he | he, h1, h2⟩
        · have := A.bound e he; omega
        · obtain ⟨e', he', rfl⟩ := List.mem_map.mp he
          exact ⟨e', he', by simp only at h1; omega, h2⟩
      · rintro ⟨e, he, h1, h2⟩
        exact ⟨_, Or.inr (List.mem_map.mpr ⟨e, he, rfl⟩), by simp only; omega, h2⟩

/-- The rows and columns of an inferred size. -/
theorem infer_rows (md : Meta) (ents : List (Nat × Nat × R)) {m : Nat}
    (h1 : ∀ e ∈ ents, e.1 < m) (h2 : m = 0 ∨ ∃ e ∈ ents, e.1 + 1 = m) : (infer md ents).rows = m := by
  have key : ∀ (l : List Nat) (m : Nat), (∀ k ∈ l, k ≤ m) → (m = 0 ∨ m ∈ l) → l.foldr max 0 = m := by
    intro l
    induction l with
    | nil => intro m _ h; rcases h with rfl | h
             · rfl
             · cases h
    | cons a l ih =>
      intro m h1 h2
      rw [List.foldr_cons]
      rcases h2 with rfl | h2
      · rw [ih 0 (fun k hk => h1 k (by simp [hk])) (Or.inl rfl)]
        have := h1 a (by simp); omega
      · rcases List.mem_cons.mp h2 with rfl | h2
        · have hle : l.foldr max 0 ≤ m := by
            have : ∀ (l : List Nat), (∀ k ∈ l, k ≤ m) → l.foldr max 0 ≤ m := by
              intro l
              induction l with
              | nil => intro _; exact Nat.zero_le _
              | cons b l ih' =>
                intro h
                rw [List.foldr_cons]
                exact max_le (h b (by simp)) (ih' fun k hk => h k (by simp [hk]))
            exact this l fun k hk => h1 k (by simp [hk])
          exact max_eq_left hle
        · rw [ih m (fun k hk => h1 k (by simp [hk])) (Or.inr h2)]
          exact max_eq_right (h1 a (by simp))
  apply key
  · intro k hk
    obtain ⟨e, he, rfl⟩ := List.mem_map.mp hk
    exact h1 e he
  · rcases h2 with h | ⟨e, he, h⟩
    · exact Or.inl h
    · exact Or.inr (List.mem_map.mpr ⟨e, he, h⟩)

theorem infer_cols (md : Meta) (ents : List (Nat × Nat × R)) {n : Nat}
    (h1 : ∀ e ∈ ents, e.2.1 < n) (h2 : n = 0 ∨ ∃ e ∈ ents, e.2.1 + 1 = n) :
    (infer md ents).cols = n := by
  have := infer_rows md (ents.map fun e => (e.2.1, e.1, e.2.2)) (m := n)
    (by intro e he; obtain ⟨e', he', rfl⟩ := List.mem_map.mp he; exact h1 e' he')
    (by
      rcases h2 with h | ⟨e, he, h⟩
      · exact Or.inl h
      · exact Or.inr ⟨_, List.mem_map.mpr ⟨e, he, rfl⟩, h⟩)
  rw [← this]
  show _ = ((ents.map _).map _).foldr max 0
  rw [List.map_map]
  rfl

theorem mmDense_ok [NonUnitalNonAssocSemiring R] {A : Coo R} {X : Tensor R} {k : Nat}
    (hs : X.shape = [A.cols, k]) (hm : A.md = X.md) :
    ∃ Y, A.mmDense X = .ok Y ∧ Y.md = X.md ∧ Y.shape = [A.rows, k] ∧
      ∀ i c, i < A.rows → c < k → Y.get [i, c] = ∑ j ∈ Finset.range A.cols, A.den i j * X.get [j, c] := by
  unfold mmDense
  rw [hs]
  simp only []
  rw [if_pos ⟨trivial, hm⟩]
  refine ⟨_, rfl, rfl, rfl, ?_⟩
  intro i c hi hc
  rw [ofFn_get_of _ _ (by exact ⟨hi, hc, trivial⟩)]
  rfl

end Coo
end Verif
