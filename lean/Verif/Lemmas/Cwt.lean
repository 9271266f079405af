/-
Circular convolution through the discrete Fourier transform, and the samples of the integrated wavelet.
-/
import Verif.Model.Cwt
import Verif.Spec.Cwt
import Verif.Lemmas.Index
import Mathlib.Algebra.Order.Floor.Ring

namespace Verif
open Tensor Spec

theorem unitRoot_add {n : Nat} (a b : ℤ) : unitRoot n (a + b) = unitRoot n a * unitRoot n b := by
  unfold unitRoot
  rw [← Complex.exp_add]
  congr 1
  push_cast
  ring

theorem unitRoot_mul {n : Nat} (k : ℕ) (a : ℤ) : unitRoot n (k * a) = unitRoot n a ^ k := by
  unfold unitRoot
  rw [← Complex.exp_nat_mul]
  congr 1
  push_cast
  ring

theorem unitRoot_eq_one {n : Nat} (hn : n ≠ 0) (a : ℤ) : unitRoot n a = 1 ↔ (n : ℤ) ∣ a := by
  unfold unitRoot
  rw [Complex.exp_eq_one_iff]
  have hn' : (n : ℂ) ≠ 0 := by exact_mod_cast hn
  have hpi : (2 * Real.pi * Complex.I : ℂ) ≠ 0 := Complex.two_pi_I_ne_zero
  constructor
  · rintro ⟨m, hm⟩
    refine ⟨m, ?_⟩
    have h1 : (2 * Real.pi * Complex.I : ℂ) * a = (2 * Real.pi * Complex.I) * (n * m) := by
      have := congrArg (fun z => z * (n : ℂ)) hm
      simp only [div_mul_cancel₀ _ hn'] at this
      rw [this]
      ring
    have h2 := mul_left_cancel₀ hpi h1
    exact_mod_cast h2
  · rintro ⟨m, rfl⟩
    refine ⟨m, ?_⟩
    push_cast
    field_simp

theorem unitRoot_sum {n : Nat} (hn : n ≠ 0) (a : ℤ) :
    ∑ k ∈ Finset.range n, unitRoot n (k * a) = if (n : ℤ) ∣ a then (n : ℂ) else 0 := by
  simp only [unitRoot_mul]
  by_cases h : (n : ℤ) ∣ a
  · rw [if_pos h, (unitRoot_eq_one hn a).2 h]
    simp
  · rw [if_neg h]
    have h1 : unitRoot n a ≠ 1 := fun h' => h ((unitRoot_eq_one hn a).1 h')
    have h2 : unitRoot n a ^ n = 1 := by
      rw [← unitRoot_mul]
      exact (unitRoot_eq_one hn _).2 (Dvd.intro _ rfl)
    rw [geom_sum_eq h1, h2, sub_self, zero_div]

/-- The convolution theorem without wrap-around. -/
theorem dft_conv {n N M : Nat} (hn : n ≠ 0) (hNM : N + M ≤ n + 1) (x h : Nat → ℂ) (hx : ∀ j, N ≤ j → x j = 0)
    (hh : ∀ l, M ≤ l → h l = 0) (m : Nat) (hm : m < n) :
    (∑ k ∈ Finset.range n, ((∑ l ∈ Finset.range n, h l * unitRoot n (-(l * k : ℤ))) *
        (∑ j ∈ Finset.range n, x j * unitRoot n (-(j * k : ℤ)))) * unitRoot n (k * m : ℤ)) / n
      = ∑ j ∈ Finset.range N, x j * (if j ≤ m then h (m - j) else 0) := by
  have hn' : (n : ℂ) ≠ 0 := by exact_mod_cast hn
  have e1 : ∀ k ∈ Finset.range n, ((∑ l ∈ Finset.range n, h l * unitRoot n (-(l * k : ℤ))) *
        (∑ j ∈ Finset.range n, x j * unitRoot n (-(j * k : ℤ)))) * unitRoot n (k * m : ℤ)
      = ∑ j ∈ Finset.range n, ∑ l ∈ Finset.range n, x j * h l * unitRoot n (k * ((m : ℤ) - j - l)) := by
    intro k _
    rw [Finset.sum_mul_sum, Finset.sum_comm, Finset.sum_mul]
    refine Finset.sum_congr rfl fun j _ => ?_
    rw [Finset.sum_mul]
    refine Finset.sum_congr rfl fun l _ => ?_
    have : (k : ℤ) * ((m : ℤ) - j - l) = -(l * k : ℤ) + -(j * k : ℤ) + (k * m : ℤ) := by ring
    rw [this, unitRoot_add, unitRoot_add]
    ring
  rw [Finset.sum_congr rfl e1, Finset.sum_comm]
  have e2 : ∀ j ∈ Finset.range n, (∑ k ∈ Finset.range n, ∑ l ∈ Finset.range n,
      x j * h l * unitRoot n (k * ((m : ℤ) - j - l)))
      = n * (if j < N then x j * (if j ≤ m then h (m - j) else 0) else 0) := by
    intro j hj
    have hj := Finset.mem_range.1 hj
    by_cases hjN : j < N
    · rw [if_pos hjN, Finset.sum_comm]
      have e3 : ∀ l ∈ Finset.range n, (∑ k ∈ Finset.range n, x j * h l * unitRoot n (k * ((m : ℤ) - j - l)))
          = if l = m - j ∧ j ≤ m then n * (x j * h l) else 0 := by
        intro l hl
        have hl := Finset.mem_range.1 hl
        rw [← Finset.mul_sum, unitRoot_sum hn]
        by_cases hlM : l < M
        · have : ((n : ℤ) ∣ (m : ℤ) - j - l) ↔ (l = m - j ∧ j ≤ m) := by
            constructor
            · intro hd
              have := Int.eq_zero_of_abs_lt_dvd hd (by rw [abs_lt]; omega)
              omega
            · rintro ⟨h1, h2⟩
              have : (m : ℤ) - j - l = 0 := by omega
              rw [this]
              exact dvd_zero _
          simp only [this]
          split
          · ring
          · ring
        · rw [hh l (by omega)]
          simp
      rw [Finset.sum_congr rfl e3]
      by_cases hjm : j ≤ m
      · simp only [hjm, and_true, if_true]
        rw [Finset.sum_ite_eq', if_pos (Finset.mem_range.2 (by omega))]
      · simp [hjm]
    · rw [if_neg hjN, hx j (by omega)]
      simp
  rw [Finset.sum_congr rfl e2, ← Finset.mul_sum, mul_div_cancel_left₀ _ hn']
  have hNn : ∑ j ∈ Finset.range n, (if j < N then x j * (if j ≤ m then h (m - j) else 0) else 0)
      = ∑ j ∈ Finset.range (max n N), (if j < N then x j * (if j ≤ m then h (m - j) else 0) else 0) := by
    apply Finset.sum_subset (Finset.range_subset_range.2 (le_max_left _ _))
    intro j _ hj
    have : m < j := by simp at hj; omega
    simp [not_le.2 this]
  rw [hNn, ← Finset.sum_filter]
  apply Finset.sum_congr _ fun _ _ => rfl
  ext j
  simp only [Finset.mem_filter, Finset.mem_range]
  omega

theorem nextFastLen_ge {n : Nat} (hn : n ≠ 0) : n ≤ nextFastLen n ∧ nextFastLen n ≠ 0 := by
  unfold nextFastLen
  rw [if_neg hn]
  exact ⟨Nat.le_pow_clog (by omega) n, by positivity⟩

theorem filter_range_lt (n b : Nat) : (List.range n).filter (fun k => k < b) = List.range (min n b) := by
  induction n with
  | zero => simp
  | succ n ih =>
    rw [List.range_succ, List.filter_append, ih]
    by_cases h : n < b
    · rw [show min (n + 1) b = n + 1 by omega, show min n b = n by omega, List.range_succ]
      simp [h]
    · rw [show min (n + 1) b = min n b by omega]
      simp [h]

/-- The number of samples. -/
noncomputable def sampleCount (s step range : ℝ) (len : Nat) : Nat :=
  min ⌈s * range + 1⌉₊ ⌈(len : ℝ) * (s * step)⌉₊

theorem lt_sampleCount (s step range : ℝ) (len : Nat) (k : Nat) :
    k < sampleCount s step range len ↔ (k : ℝ) < s * range + 1 ∧ (k : ℝ) < len * (s * step) := by
  unfold sampleCount
  rw [lt_min_iff, Nat.lt_ceil, Nat.lt_ceil]

theorem floor_lt_len {P : ℝ} (hP : 0 < P) (k len : Nat) :
    ⌊(k : ℝ) / P⌋ < (len : ℤ) ↔ k < ⌈(len : ℝ) * P⌉₊ := by
  rw [Int.floor_lt, Nat.lt_ceil, div_lt_iff₀ hP]
  push_cast
  exact Iff.rfl

theorem floor_toNat {P : ℝ} (hP : 0 < P) (k : Nat) : ⌊(k : ℝ) / P⌋ = (⌊(k : ℝ) / P⌋₊ : ℤ) := by
  rw [Int.natCast_floor_eq_floor]
  positivity

theorem cwtIndices_ok {s step range : ℝ} {len : Nat} (hP : 0 < s * step) (hr : 0 ≤ s * range) :
    cwtIndices s step range len
      = .ok ((List.range (sampleCount s step range len)).map fun k : ℕ => ⌊(k : ℝ) / (s * step)⌋) := by
  unfold cwtIndices
  rw [if_neg (by linarith), if_neg (by rintro (h | h) <;> linarith)]
  congr 1
  set P := s * step with hPd
  set n := ⌈s * range + 1⌉.toNat with hn
  have hn' : n = ⌈s * range + 1⌉₊ := by rw [hn, Int.ceil_toNat]
  have hn1 : 1 ≤ n := by
    rw [hn']
    exact Nat.one_le_ceil_iff.2 (by linarith)
  have hlast : ((List.range n).map fun k : ℕ => ⌊(k : ℝ) / P⌋).getLast?.getD 0 = ⌊((n - 1 : ℕ) : ℝ) / P⌋ := by
    rw [List.getLast?_map, List.getLast?_range, if_neg (by omega)]
    rfl
  simp only
  rw [hlast]
  have hcount : sampleCount s step range len = min n ⌈(len : ℝ) * P⌉₊ := by
    unfold sampleCount; rw [hn']
  rw [hcount]
  split
  · rw [List.filter_map, ← filter_range_lt]
    have hfil : List.filter ((fun k : ℤ => decide (k < (len : ℤ))) ∘ fun k : ℕ => ⌊(k : ℝ) / P⌋) (List.range n)
        = List.filter (fun k => decide (k < ⌈(len : ℝ) * P⌉₊)) (List.range n) := by
      apply List.filter_congr
      intro k _
      simp only [Function.comp_apply, decide_eq_decide]
      exact floor_lt_len hP k len
    rw [hfil]
  · rename_i h
    have h1 := (floor_lt_len hP (n - 1) len).1 (not_le.1 h)
    rw [show min n ⌈(len : ℝ) * P⌉₊ = n by omega]

theorem pyIndex_ok {l : List ℂ} {k : Nat} (h : k < l.length) : pyIndex l (k : ℤ) = .ok (l.getD k 0) := by
  unfold pyIndex
  rw [if_neg (by omega), Int.toNat_natCast, List.getElem?_eq_getElem h]
  simp only
  rw [if_neg (by omega)]
  congr 1
  simp [List.getD, h]

theorem mapM_map_ok {α β : Type} (f : α → Except Err β) (g : α → β) :
    ∀ l : List α, (∀ a ∈ l, f a = .ok (g a)) → l.mapM f = .ok (l.map g)
  | [], _ => rfl
  | a :: l, h => by
    rw [List.mapM_cons, h a List.mem_cons_self, mapM_map_ok f g l fun b hb => h b (List.mem_cons_of_mem _ hb)]
    rfl

/-- The samples. -/
noncomputable def samples (s step range : ℝ) (psi : List ℂ) : List ℂ :=
  (List.range (sampleCount s step range psi.length)).map fun k : ℕ => psi.getD ⌊(k : ℝ) / (s * step)⌋₊ 0

theorem samples_ok {s step range : ℝ} {psi : List ℂ} (hP : 0 < s * step) (_hr : 0 ≤ s * range) :
    ((List.range (sampleCount s step range psi.length)).map fun k : ℕ => ⌊(k : ℝ) / (s * step)⌋).mapM
      (pyIndex psi) = .ok (samples s step range psi) := by
  rw [mapM_map_ok _ (fun j : ℤ => psi.getD j.toNat 0)]
  · rw [List.map_map]
    unfold samples
    congr 1
  · intro j hj
    obtain ⟨k, hk, rfl⟩ := List.mem_map.1 hj
    have hk := ((lt_sampleCount _ _ _ _ _).1 (List.mem_range.1 hk)).2
    have h1 : ⌊(k : ℝ) / (s * step)⌋ < (psi.length : ℤ) :=
      (floor_lt_len hP k _).2 (by rw [Nat.lt_ceil]; exact hk)
    rw [floor_toNat hP] at h1 ⊢
    rw [pyIndex_ok (by exact_mod_cast h1), Int.toNat_natCast]

theorem samples_length (s step range : ℝ) (psi : List ℂ) :
    (samples s step range psi).length = sampleCount s step range psi.length := by simp [samples]

theorem samples_unique {s step range : ℝ} {psi : List ℂ} {g : Nat → ℂ} (hP : 0 < s * step)
    (hg : ∀ k, k < psi.length → psi.getD k 0 = g k) {h : List ℂ}
    (hs : Sampled s step range psi.length g h) : h = samples s step range psi := by
  have hl : h.length = (samples s step range psi).length := by
    rw [samples_length]
    by_contra hc
    rcases Nat.lt_or_gt_of_ne hc with hlt | hgt
    · exact absurd ((hs.length h.length).2 ((lt_sampleCount _ _ _ _ _).1 hlt)) (lt_irrefl _)
    · exact absurd ((lt_sampleCount s step range psi.length _).2 ((hs.length _).1 hgt)) (lt_irrefl _)
  apply List.ext_getElem hl
  intro k h1 h2
  have hv := hs.value k h1
  have hk := (hs.length k).1 h1
  have h3 : ⌊(k : ℝ) / (s * step)⌋₊ < psi.length := by
    have := (floor_lt_len hP k psi.length).2 (by rw [Nat.lt_ceil]; exact hk.2)
    rw [floor_toNat hP] at this
    exact_mod_cast this
  have e1 : h.getD k 0 = h[k] := by simp [List.getD, h1]
  rw [← e1, hv, ← hg _ h3]
  simp [samples]

theorem samples_sampled {s step range : ℝ} {psi : List ℂ} {g : Nat → ℂ} (hP : 0 < s * step)
    (hg : ∀ k, k < psi.length → psi.getD k 0 = g k) :
    Sampled s step range psi.length g (samples s step range psi) := by
  refine ⟨fun k => by rw [samples_length, lt_sampleCount], fun k hk => ?_⟩
  have hk' := hk
  rw [samples_length, lt_sampleCount] at hk
  have h3 : ⌊(k : ℝ) / (s * step)⌋₊ < psi.length := by
    have := (floor_lt_len hP k psi.length).2 (by rw [Nat.lt_ceil]; exact hk.2)
    rw [floor_toNat hP] at this
    exact_mod_cast this
  rw [← hg _ h3]
  unfold samples
  rw [samples_length] at hk'
  simp [List.getD, hk']

end Verif
