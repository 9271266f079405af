import Verif.Lemmas.Filter
import Verif.Spec.Dwt

/-! The perfect reconstruction identity for one decimated analysis/synthesis step. -/

namespace Verif.Spec
variable {R : Type}

theorem getD_eq_tap [Zero R] (h : List R) (j : ℕ) : h.getD j 0 = tap h (j : ℤ) := (tap_nat h j).symm

theorem sum_shift [CommRing R] (d : List R) (F : ℕ) (hd : d.length = F) (f : ℕ → R) (t : ℕ)
    (ht : t < F) :
    ∑ j ∈ Finset.range F, tap d j * f (t + j)
      = ∑ s ∈ Finset.range (2 * F), tap d ((s : ℤ) - t) * f s := by
  have e : ∑ s ∈ Finset.range (2 * F), tap d ((s : ℤ) - t) * f s
      = ∑ s ∈ Finset.Ico t (t + F), tap d ((s : ℤ) - t) * f s := by
    symm
    apply Finset.sum_subset
    · intro s hs
      rw [Finset.mem_Ico] at hs
      rw [Finset.mem_range]
      omega
    · intro s _ hs
      rw [Finset.mem_Ico, not_and_or, not_le, not_lt] at hs
      rcases hs with hs | hs
      · rw [tap_neg _ (by omega), zero_mul]
      · rw [tap_ge _ (by omega), zero_mul]
  rw [e, Finset.sum_Ico_eq_sum_range]
  rw [show t + F - t = F by omega]
  refine Finset.sum_congr rfl fun j _ => ?_
  congr 2
  push_cast; ring

theorem sum_parity [AddCommMonoid R] (G : ℤ → R) (F M K : ℕ)
    (h0 : ∀ t, t < 0 → G t = 0) (h1 : ∀ t, (F : ℤ) ≤ t → G t = 0) (hK : M < 2 * K)
    (hF : F ≤ M + 2) :
    ∑ k ∈ Finset.range K, G ((M : ℤ) - 2 * k)
      = ∑ t ∈ Finset.range F, if t % 2 = M % 2 then G t else 0 := by
  rw [← Finset.sum_filter]
  rw [← Finset.sum_filter_of_ne (s := Finset.range K)
    (p := fun k => 2 * k ≤ M ∧ M - 2 * k < F)]
  · refine Finset.sum_nbij' (fun k => M - 2 * k) (fun t => (M - t) / 2) ?_ ?_ ?_ ?_ ?_
    · intro k hk
      simp only [Finset.mem_filter, Finset.mem_range] at *
      omega
    · intro t ht
      simp only [Finset.mem_filter, Finset.mem_range] at *
      omega
    · intro k hk
      simp only [Finset.mem_filter, Finset.mem_range] at *
      omega
    · intro t ht
      simp only [Finset.mem_filter, Finset.mem_range] at *
      omega
    · intro k hk
      simp only [Finset.mem_filter, Finset.mem_range] at hk
      congr 1
      omega
  · intro k _ hne
    by_contra hc
    apply hne
    by_cases h2 : 2 * k ≤ M
    · apply h1
      omega
    · apply h0
      omega

/-- Perfect reconstruction of one step: any bi-infinite signal `e` is reproduced at every
position `m ≥ 0` covered by the available coefficients. -/
theorem synthesis_analysis [Field R] [CharZero R] {w : Wavelet R} {F : ℕ} (h : PRBank w F)
    (hF : 2 ≤ F) (e : ℤ → R) (m K : ℕ) (hK : m + F - 2 < 2 * K) :
    synthesis w.recLo w.recHi K (analysis w.decLo e) (analysis w.decHi e) ((m : ℤ) + F - 2) = e m := by
  obtain ⟨l1, l2, l3, l4⟩ := h.len
  set M := m + F - 2 with hM
  have hMz : (m : ℤ) + F - 2 = (M : ℤ) := by omega
  -- the summand as a function of the tap index
  let G : ℤ → R := fun t =>
    tap w.recLo t * ∑ j ∈ Finset.range F, tap w.decLo j * e ((M : ℤ) + 1 - t - j)
      + tap w.recHi t * ∑ j ∈ Finset.range F, tap w.decHi j * e ((M : ℤ) + 1 - t - j)
  have e1 : synthesis w.recLo w.recHi K (analysis w.decLo e) (analysis w.decHi e) ((m : ℤ) + F - 2)
      = ∑ k ∈ Finset.range K, G ((M : ℤ) - 2 * k) := by
    unfold synthesis
    refine Finset.sum_congr rfl fun k _ => ?_
    simp only [G, analysis, l1, l2, hMz]
    congr 1 <;> congr 1 <;> refine Finset.sum_congr rfl fun j _ => ?_
    · rw [getD_eq_tap]; congr 2; ring
    · rw [getD_eq_tap]; congr 2; ring
  rw [e1, sum_parity G F M K]
  · -- regroup by s = t + j
    have e2 : ∀ t ∈ Finset.range F, (if t % 2 = M % 2 then G t else 0)
        = ∑ s ∈ Finset.range (2 * F), e ((M : ℤ) + 1 - s) *
          (if t % 2 = M % 2 then (tap w.recLo t * tap w.decLo ((s : ℤ) - t)
              + tap w.recHi t * tap w.decHi ((s : ℤ) - t)) else 0) := by
      intro t ht
      rw [Finset.mem_range] at ht
      split_ifs with hp
      · simp only [G]
        have a := sum_shift w.decLo F l1 (fun s => e ((M : ℤ) + 1 - s)) t ht
        have b := sum_shift w.decHi F l2 (fun s => e ((M : ℤ) + 1 - s)) t ht
        simp only [Nat.cast_add, ← sub_sub] at a b
        rw [a, b, Finset.mul_sum, Finset.mul_sum, ← Finset.sum_add_distrib]
        refine Finset.sum_congr rfl fun s _ => ?_
        ring
      · simp
    rw [Finset.sum_congr rfl e2, Finset.sum_comm]
    simp_rw [← Finset.mul_sum, h.half (by omega : 1 ≤ F) M]
    rw [Finset.sum_eq_single (F - 1)]
    · rw [if_pos (by omega), mul_one]
      congr 1
      omega
    · intro s _ hs
      rw [if_neg (by omega), mul_zero]
    · intro hs
      rw [Finset.mem_range] at hs
      omega
  · intro t ht
    simp only [G, tap_neg _ ht, zero_mul, add_zero]
  · intro t ht
    simp only [G]
    rw [tap_ge w.recLo (by omega), tap_ge w.recHi (by omega)]
    simp
  · exact hK
  · omega

end Verif.Spec
