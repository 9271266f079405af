import Verif.Lemmas.Energy
import Verif.Lemmas.SwtTop
namespace Verif
open Tensor Spec
variable {R : Type}

theorem sum_cyc [AddCommMonoid R] {n : Nat} (hn : 0 < n) (G : Nat → R) (t : ℤ) :
    (∑ k ∈ Finset.range n, G ((k + t) % n).toNat) = ∑ k ∈ Finset.range n, G k := by
  have hz : (n : ℤ) ≠ 0 := by omega
  have hp : (0 : ℤ) < n := by omega
  refine Finset.sum_bij' (fun k _ => ((k + t) % n).toNat) (fun k _ => ((k - t) % n).toNat) ?_ ?_ ?_ ?_ ?_
  · intro k _
    have h1 := Int.emod_nonneg ((k : ℤ) + t) hz
    have h2 := Int.emod_lt_of_pos ((k : ℤ) + t) hp
    rw [Finset.mem_range]; omega
  · intro k _
    have h1 := Int.emod_nonneg ((k : ℤ) - t) hz
    have h2 := Int.emod_lt_of_pos ((k : ℤ) - t) hp
    rw [Finset.mem_range]; omega
  · intro k hk
    rw [Finset.mem_range] at hk
    rw [Int.toNat_of_nonneg (Int.emod_nonneg _ hz), Int.emod_sub_emod, add_sub_cancel_right,
      Int.emod_eq_of_lt (by omega) (by omega)]
    simp
  · intro k hk
    rw [Finset.mem_range] at hk
    rw [Int.toNat_of_nonneg (Int.emod_nonneg _ hz), Int.emod_add_emod, sub_add_cancel,
      Int.emod_eq_of_lt (by omega) (by omega)]
    simp
  · intro k _; rfl

/-- Moving a periodic shift to the other factor. -/
theorem sum_shift_adj [CommRing R] {n : Nat} (hn : 0 < n) (c x : Nat → R) (t : ℤ) :
    (∑ k ∈ Finset.range n, c k * ext .periodic n x (k + t)) = ∑ k ∈ Finset.range n, x k * ext .periodic n c (k - t) := by
  rw [← sum_cyc hn (fun k => x k * ext .periodic n c (k - t)) t]
  refine Finset.sum_congr rfl fun k hk => ?_
  rw [Finset.mem_range] at hk
  have h1 := Int.emod_nonneg ((k : ℤ) + t) (b := (n : ℤ)) (by omega)
  have e1 : ext .periodic n x (k + t) = x ((k + t) % n).toNat := rfl
  have e2 : ext .periodic n c ((((((k : ℤ) + t) % n).toNat : ℕ) : ℤ) - t) = c k := by
    rw [Int.toNat_of_nonneg h1, ext_periodic_congr (j := (k : ℤ))]
    · exact ext_inside _ _ hk
    · have := Int.emod_add_mul_ediv ((k : ℤ) + t) (n : ℤ)
      refine ⟨-(((k : ℤ) + t) / n), ?_⟩
      linarith
  show _ = x ((k + t) % n).toNat * _
  rw [e1, e2, mul_comm]

/-- One step of the stationary transform doubles the energy. -/
theorem swt_step_energy [Field R] [CharZero R] {w : Wavelet R} {F n d : Nat} (hl : HasLen w F)
    (hw : NoDistortion w F) (h0 : w.recLo = w.decLo.reverse) (h1 : w.recHi = w.decHi.reverse)
    (hF : 2 ≤ F) (he : F % 2 = 0) (hn : 0 < n) (x : Nat → R) :
    (∑ k ∈ Finset.range n, swtStep w.decLo d n x k ^ 2) + (∑ k ∈ Finset.range n, swtStep w.decHi d n x k ^ 2)
      = 2 * ∑ k ∈ Finset.range n, x k ^ 2 := by
  obtain ⟨l1, l2, l3, l4⟩ := id hl
  have hadj : ∀ h : List R, h.length = F → (∑ k ∈ Finset.range n, swtStep h d n x k ^ 2)
      = ∑ m ∈ Finset.range n, x m * ∑ j ∈ Finset.range F, h.reverse.getD j 0 *
          ext .periodic n (swtStep h d n x) ((m : ℤ) + d * ((F / 2 : ℕ) : ℤ) - d - d * j) := by
    intro h hh
    have e1 : ∀ k ∈ Finset.range n, swtStep h d n x k ^ 2 = ∑ i ∈ Finset.range F, h.getD i 0 *
        (swtStep h d n x k * ext .periodic n x ((k : ℤ) + (d * ((F / 2 : ℕ) : ℤ) - d * i))) := by
      intro k _
      rw [sq]
      conv_lhs => rw [show swtStep h d n x k * swtStep h d n x k = swtStep h d n x k * ∑ i ∈ Finset.range h.length,
        h.getD i 0 * ext .periodic n x ((k : ℤ) + d * ((h.length / 2 : ℕ) : ℤ) - d * i) from rfl]
      rw [Finset.mul_sum, hh]
      refine Finset.sum_congr rfl fun i _ => ?_
      rw [add_sub_assoc]
      ring
    rw [Finset.sum_congr rfl e1, Finset.sum_comm]
    simp only [← Finset.mul_sum, sum_shift_adj hn (swtStep h d n x) x]
    simp only [Finset.mul_sum]
    rw [Finset.sum_comm]
    refine Finset.sum_congr rfl fun m _ => ?_
    rw [← Finset.sum_range_reflect]
    refine Finset.sum_congr rfl fun j hj => ?_
    rw [Finset.mem_range] at hj
    have e2 : h.reverse.getD j 0 = h.getD (F - 1 - j) 0 := by
      rw [List.getD_eq_getElem _ _ (by rw [List.length_reverse, hh]; exact hj), List.getElem_reverse,
        List.getD_eq_getElem _ _ (by omega)]
      simp only [hh]
    rw [e2]
    have e3 : (m : ℤ) - (d * ((F / 2 : ℕ) : ℤ) - d * ((F - 1 - j : ℕ) : ℤ)) = (m : ℤ) + d * ((F / 2 : ℕ) : ℤ) - d - d * j := by
      obtain ⟨q, rfl⟩ : ∃ q, F = 2 * q := ⟨F / 2, by omega⟩
      rw [show 2 * q / 2 = q by omega, show ((2 * q - 1 - j : ℕ) : ℤ) = 2 * (q : ℤ) - 1 - j by omega]
      ring
    rw [e3]
    ring
  rw [hadj _ l1, hadj _ l2, ← Finset.sum_add_distrib, Finset.mul_sum]
  refine Finset.sum_congr rfl fun m hm => ?_
  have := iswtStep_swtStep (d := d) hl hw hF he hn x (Finset.mem_range.mp hm)
  unfold iswtStep at this
  rw [l3, Finset.sum_add_distrib, div_eq_iff two_ne_zero, h0, h1] at this
  rw [← mul_add, this]
  ring

/-- The weighted energies of all bands of the stationary transform. -/
theorem swt_energy_line [Field R] [CharZero R] {w : Wavelet R} {F n : Nat} (hl : HasLen w F)
    (hw : NoDistortion w F) (h0 : w.recLo = w.decLo.reverse) (h1 : w.recHi = w.decHi.reverse)
    (hF : 2 ≤ F) (he : F % 2 = 0) (hn : 0 < n) (x : Nat → R) : ∀ L : Nat,
    2 ^ L * (∑ k ∈ Finset.range n, x k ^ 2) = (∑ k ∈ Finset.range n, swtA w n x L k ^ 2) +
      ∑ s ∈ Finset.range L, 2 ^ (L - 1 - s) * ∑ k ∈ Finset.range n, swtD w n x s k ^ 2
  | 0 => by simp [swtA]
  | L + 1 => by
    have ih := swt_energy_line hl hw h0 h1 hF he hn x L
    have st := swt_step_energy (d := 2 ^ L) hl hw h0 h1 hF he hn (swtA w n x L)
    rw [pow_succ, mul_comm _ (2 : R), mul_assoc, ih, mul_add, ← st, Finset.sum_range_succ, Finset.mul_sum]
    have : ∀ s ∈ Finset.range L, 2 * (2 ^ (L - 1 - s) * ∑ k ∈ Finset.range n, swtD w n x s k ^ 2)
        = 2 ^ (L + 1 - 1 - s) * ∑ k ∈ Finset.range n, swtD w n x s k ^ 2 := by
      intro s hs
      rw [Finset.mem_range] at hs
      rw [← mul_assoc, show L + 1 - 1 - s = (L - 1 - s) + 1 by omega, pow_succ]
      ring
    rw [Finset.sum_congr rfl this, show L + 1 - 1 - L = 0 by omega, pow_zero, one_mul]
    show (∑ k ∈ Finset.range n, swtA w n x (L + 1) k ^ 2) + (∑ k ∈ Finset.range n, swtD w n x L k ^ 2) + _ = _
    ring

end Verif
