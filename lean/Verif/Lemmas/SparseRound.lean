/-
Rounding of indices to floating point numbers: the identity extension of large matrices, and the dtype
of mixed products.
-/
import Verif.Lemmas.SparseHelpers

namespace Verif
open Tensor Spec
variable {R : Type}

theorem roundBits_spec {p k : Nat} : RoundsTo p k (roundBits p k) := by
  unfold roundBits
  by_cases h : k < 2 ^ p
  · rw [if_pos h]; exact Or.inl ⟨h, rfl⟩
  rw [if_neg h]
  right
  have hk : k ≠ 0 := by
    have : 0 < 2 ^ p := by positivity
    omega
  have hp : p ≤ Nat.log2 k := (Nat.le_log2 hk).mpr (by omega)
  have h1 : 2 ^ Nat.log2 k ≤ k := Nat.log2_self_le hk
  have h2 : k < 2 ^ (Nat.log2 k + 1) := Nat.lt_log2_self
  obtain ⟨e, he⟩ : ∃ e, Nat.log2 k + 1 = p + e := ⟨Nat.log2 k + 1 - p, by omega⟩
  simp only
  rw [show Nat.log2 k + 1 - p = e by omega]
  have hd := Nat.div_add_mod k (2 ^ e)
  have hm : k % 2 ^ e < 2 ^ e := Nat.mod_lt _ (by positivity)
  generalize k / 2 ^ e = q at *
  generalize k % 2 ^ e = r at *
  have hkz : (k : ℤ) = 2 ^ e * q + r := by rw [← hd]; push_cast; ring
  have hmz : (r : ℤ) < 2 ^ e := by exact_mod_cast hm
  split_ifs with hc
  · refine ⟨e, q + 1, by omega, by rw [show p + e - 1 = Nat.log2 k by omega]; exact h1, he ▸ h2, rfl, ?_⟩
    have : (k : ℤ) - ((q + 1) * 2 ^ e : ℕ) = - (2 ^ e - r) := by rw [hkz]; push_cast; ring
    rw [this, abs_neg, abs_of_pos (by omega)]
    rcases hc with hc | ⟨hc, hq⟩
    · left
      have : (2 : ℤ) ^ e < 2 * r := by exact_mod_cast hc
      omega
    · right
      have : (2 : ℤ) * r = 2 ^ e := by exact_mod_cast hc
      omega
  · refine ⟨e, q, by omega, by rw [show p + e - 1 = Nat.log2 k by omega]; exact h1, he ▸ h2, rfl, ?_⟩
    have : (k : ℤ) - (q * 2 ^ e : ℕ) = r := by rw [hkz]; push_cast; ring
    rw [this, abs_of_nonneg (by omega)]
    have h3 : 2 * r ≤ 2 ^ e := by by_contra hh; exact hc (Or.inl (by omega))
    rcases h3.lt_or_eq with h3 | h3
    · left; exact_mod_cast h3
    · right
      refine ⟨by exact_mod_cast h3, ?_⟩
      by_contra hq
      exact hc (Or.inr ⟨h3, by omega⟩)

theorem exp_unique {p k e e' : Nat} (h1 : 2 ^ (p + e - 1) ≤ k) (h2 : k < 2 ^ (p + e)) (he : 1 ≤ e)
    (h1' : 2 ^ (p + e' - 1) ≤ k) (h2' : k < 2 ^ (p + e')) (he' : 1 ≤ e') : e = e' := by
  have a := (Nat.pow_lt_pow_iff_right (a := 2) (by decide)).mp (lt_of_le_of_lt h1 h2')
  have b := (Nat.pow_lt_pow_iff_right (a := 2) (by decide)).mp (lt_of_le_of_lt h1' h2)
  omega

theorem near_mono {k k' q q' E : ℤ} (hE : 0 < E) (hk : k ≤ k')
    (h : 2 * |k - q * E| < E ∨ 2 * |k - q * E| = E ∧ q % 2 = 0)
    (h' : 2 * |k' - q' * E| < E ∨ 2 * |k' - q' * E| = E ∧ q' % 2 = 0) : q ≤ q' := by
  by_contra hq
  have hb : 2 * |k - q * E| ≤ E := by rcases h with h | h <;> omega
  have hb' : 2 * |k' - q' * E| ≤ E := by rcases h' with h | h <;> omega
  have a := neg_abs_le (k - q * E)
  have b := le_abs_self (k' - q' * E)
  have hmul : (q' + 1) * E ≤ q * E := mul_le_mul_of_nonneg_right (by omega) hE.le
  have e1 : (q' + 1) * E = q' * E + E := by ring
  -- all inequalities are equalities
  have heq : 2 * |k - q * E| = E := by omega
  have heq' : 2 * |k' - q' * E| = E := by omega
  have hqq : (q' + 1) * E = q * E := by omega
  have hq1 : q' + 1 = q := by
    exact mul_right_cancel₀ hE.ne' hqq
  rcases h with h | ⟨_, h⟩
  · omega
  · rcases h' with h' | ⟨_, h'⟩ <;> omega

theorem roundsTo_mono {p k k' x x' : Nat} (hp : 1 ≤ p) (hk : k ≤ k') (h : RoundsTo p k x) (h' : RoundsTo p k' x') :
    x ≤ x' := by
  -- bounds of the rounded value within a binade
  have up : ∀ {k e q : Nat}, k < 2 ^ (p + e) →
      (2 * |(k : ℤ) - (q * 2 ^ e : ℕ)| < 2 ^ e ∨ 2 * |(k : ℤ) - (q * 2 ^ e : ℕ)| = 2 ^ e ∧ q % 2 = 0) →
      q * 2 ^ e ≤ 2 ^ (p + e) := by
    intro k e q hk h
    have hE : (0 : ℤ) < 2 ^ e := by positivity
    have := near_mono (k := k) (k' := (2 ^ p : ℤ) * 2 ^ e) (q := q) (q' := 2 ^ p) hE
      (by rw [← pow_add]; exact_mod_cast hk.le)
      (by push_cast at h; rcases h with h | ⟨h, h2⟩
          · exact Or.inl h
          · exact Or.inr ⟨h, by exact_mod_cast h2⟩)
      (Or.inl (by simp))
    rw [pow_add]
    exact Nat.mul_le_mul_right _ (by exact_mod_cast this)
  have low : ∀ {k e q : Nat}, 1 ≤ p → 2 ^ (p + e - 1) ≤ k →
      (2 * |(k : ℤ) - (q * 2 ^ e : ℕ)| < 2 ^ e ∨ 2 * |(k : ℤ) - (q * 2 ^ e : ℕ)| = 2 ^ e ∧ q % 2 = 0) →
      2 ^ (p + e - 1) ≤ q * 2 ^ e := by
    intro k e q hp hk h
    have hE : (0 : ℤ) < 2 ^ e := by positivity
    rw [show p + e - 1 = (p - 1) + e by omega] at hk ⊢
    have := near_mono (k := (2 ^ (p - 1) : ℤ) * 2 ^ e) (k' := k) (q := 2 ^ (p - 1)) (q' := q) hE
      (by rw [← pow_add]; exact_mod_cast hk)
      (Or.inl (by simp))
      (by push_cast at h; rcases h with h | ⟨h, h2⟩
          · exact Or.inl h
          · exact Or.inr ⟨h, by exact_mod_cast h2⟩)
    rw [pow_add]
    exact Nat.mul_le_mul_right _ (by exact_mod_cast this)
  rcases h with ⟨h, rfl⟩ | ⟨e, q, he, h1, h2, rfl, h3⟩ <;>
    rcases h' with ⟨h', rfl⟩ | ⟨e', q', he', h1', h2', rfl, h3'⟩
  · exact hk
  · have a := low hp h1' h3'
    have b : 2 ^ p ≤ 2 ^ (p + e' - 1) := Nat.pow_le_pow_right (by decide) (by omega)
    omega
  · have b : 2 ^ p ≤ 2 ^ (p + e - 1) := Nat.pow_le_pow_right (by decide) (by omega)
    omega
  · have a := (Nat.pow_lt_pow_iff_right (a := 2) (by decide)).mp (lt_of_le_of_lt (h1.trans hk) h2')
    rcases (show e ≤ e' by omega).lt_or_eq with hlt | rfl
    · have b : 2 ^ (p + e) ≤ 2 ^ (p + e' - 1) := Nat.pow_le_pow_right (by decide) (by omega)
      exact (up h2 h3).trans (b.trans (low hp h1' h3'))
    · apply Nat.mul_le_mul_right
      have hE : (0 : ℤ) < 2 ^ e := by positivity
      have := near_mono (k := k) (k' := k') (q := q) (q' := q') hE (by exact_mod_cast hk)
        (by push_cast at h3; rcases h3 with h | ⟨h, h2⟩
            · exact Or.inl h
            · exact Or.inr ⟨h, by exact_mod_cast h2⟩)
        (by push_cast at h3'; rcases h3' with h | ⟨h, h2⟩
            · exact Or.inl h
            · exact Or.inr ⟨h, by exact_mod_cast h2⟩)
      exact_mod_cast this

theorem roundsTo_unique {p k x x' : Nat} (hp : 1 ≤ p) (h : RoundsTo p k x) (h' : RoundsTo p k x') :
    x = x' := le_antisymm (roundsTo_mono hp le_rfl h h') (roundsTo_mono hp le_rfl h' h)

theorem sum_grid {M : Type} [AddCommMonoid M] (r c : Nat) (f : Nat → Nat → M) :
    ((Coo.grid r c).map fun q => f q.1 q.2).sum = ∑ a ∈ Finset.range r, ∑ b ∈ Finset.range c, f a b := by
  have hl : ∀ (n : Nat) (g : Nat → M), ((List.range n).map g).sum = ∑ a ∈ Finset.range n, g a := by
    intro n g
    induction n with
    | zero => rfl
    | succ n ih => rw [List.range_succ, List.map_append, List.sum_append, ih, Finset.sum_range_succ]; simp
  unfold Coo.grid
  rw [List.map_flatMap, List.flatMap_def, List.sum_flatten, List.map_map]
  rw [← hl]
  congr 1
  apply List.map_congr_left
  intro a _
  simp only [Function.comp_def]
  rw [List.map_map, ← hl]
  rfl

theorem sum_filter_list {M α : Type} [AddCommMonoid M] (l : List α) (p : α → Bool) (f : α → M) :
    ((l.filter p).map f).sum = (l.map fun a => if p a then f a else 0).sum := by
  induction l with
  | nil => rfl
  | cons a l ih =>
    rw [List.filter_cons]
    split_ifs with h
    · simp [ih, h]
    · simp [ih, h]

theorem mantissaBits_pos (d : DType) : 1 ≤ mantissaBits d := by cases d <;> decide

/-- The rounded identity extension. -/
theorem catSparseIdentity_rounded [NonAssocSemiring R] {A : Coo R} {N : Nat} (hsq : A.rows = A.cols)
    (hN : A.rows < N) (rd : Nat → Nat) (hrd : ∀ k, RoundsTo (mantissaBits A.md.dtype) k (rd k)) :
    ∃ C, catSparseIdentity A N = .ok C ∧ C.md = A.md ∧ C.rows = rd (N - 1) + 1 ∧
      C.cols = rd (N - 1) + 1 ∧
      ∀ i j, C.den i j = (∑ a ∈ Finset.range A.rows, ∑ b ∈ Finset.range A.rows,
          if rd a = i ∧ rd b = j then A.den a b else 0) +
        ∑ k ∈ Finset.Ico A.rows N, if rd k = i ∧ rd k = j then 1 else 0 := by
  have hp := mantissaBits_pos A.md.dtype
  have hrb : roundBits (mantissaBits A.md.dtype) = rd := by
    funext k; exact roundsTo_unique hp roundBits_spec (hrd k)
  have hmono : ∀ {a b}, a ≤ b → rd a ≤ rd b := fun h => roundsTo_mono hp h (hrd _) (hrd _)
  unfold catSparseIdentity
  rw [if_neg (by simpa using hsq), if_neg (by push_cast; omega),
    if_neg (by push_cast; omega)]
  simp only [Int.toNat_natCast, hrb]
  have hmem : ∀ e ∈ (A.coalesce.ents.map fun e => (rd e.1, rd e.2.1, e.2.2)) ++
      ((List.range (N - A.rows)).map fun k => (rd (A.rows + k), rd (A.rows + k), (1 : R))),
      e.1 < rd (N - 1) + 1 ∧ e.2.1 < rd (N - 1) + 1 := by
    intro e he
    rcases List.mem_append.mp he with he | he
    · obtain ⟨e', he', rfl⟩ := List.mem_map.mp he
      have h := A.coalesce.bound e' he'
      simp only [Coo.coalesce_rows, Coo.coalesce_cols] at h
      exact ⟨Nat.lt_succ_of_le (hmono (by omega)), Nat.lt_succ_of_le (hmono (by omega))⟩
    · obtain ⟨k, hk, rfl⟩ := List.mem_map.mp he
      have hk := List.mem_range.mp hk
      exact ⟨Nat.lt_succ_of_le (hmono (by omega)), Nat.lt_succ_of_le (hmono (by omega))⟩
  have hlast : ((rd (N - 1), rd (N - 1), 1) : Nat × Nat × R) ∈
      (A.coalesce.ents.map fun e => (rd e.1, rd e.2.1, e.2.2)) ++
      ((List.range (N - A.rows)).map fun k => (rd (A.rows + k), rd (A.rows + k), (1 : R))) := by
    apply List.mem_append_right
    refine List.mem_map.mpr ⟨N - 1 - A.rows, List.mem_range.mpr (by omega), ?_⟩
    rw [show A.rows + (N - 1 - A.rows) = N - 1 by omega]
  refine ⟨_, rfl, rfl,
    Coo.infer_rows _ _ (fun e he => (hmem e he).1) (Or.inr ⟨_, hlast, rfl⟩),
    Coo.infer_cols _ _ (fun e he => (hmem e he).2) (Or.inr ⟨_, hlast, rfl⟩), ?_⟩
  intro i j
  show (List.map _ (_ ++ _)).sum = _
  rw [List.map_append, List.sum_append, List.map_map, List.map_map]
  congr 1
  · have h1 := sum_grid A.rows A.rows fun a b => if rd a = i ∧ rd b = j then A.den a b else 0
    rw [← h1]
    show (List.map _ (List.map _ (List.filter _ _))).sum = _
    rw [List.map_map, sum_filter_list, ← hsq]
    congr 1
    apply List.map_congr_left
    intro q _
    by_cases hs : A.Stored q.1 q.2
    · rw [if_pos (by simpa using hs)]
      rfl
    · rw [if_neg (by simpa using hs), Coo.den_of_not_stored hs, ite_self]
  · have hl : ∀ (n : Nat) (g : Nat → R), ((List.range n).map g).sum = ∑ a ∈ Finset.range n, g a := by
      intro n g
      induction n with
      | zero => rfl
      | succ n ih => rw [List.range_succ, List.map_append, List.sum_append, ih, Finset.sum_range_succ]; simp
    rw [hl, Finset.sum_Ico_eq_sum_range]
    rfl
theorem promote_spec (a b : DType) : Promoted a b (Coo.promote a b) := by
  cases a <;> cases b <;> decide +kernel

end Verif
