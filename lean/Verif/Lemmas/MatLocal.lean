import Verif.Props.Mat1
import Verif.Props.Local
import Verif.Lemmas.LocalPolyN
import Verif.Lemmas.PacketMatFun

/-!
The inner coefficients of the boundary-matrix transform are those of the convolution transform of the delayed signal.
-/

namespace Verif
open Tensor Spec

/-- An untruncated row is the filter. -/
theorem row_inner {h : List ℝ} {c k r : Nat} (hl : h.length = 2 * c) (h1 : c ≤ 2 * r + 1) (h2 : 2 * r + c < k) (e : Nat → ℝ) :
    (∑ j ∈ Finset.range k, tap h ((c : ℤ) + 2 * (r : ℤ) - j) * e j) =
      ∑ t ∈ Finset.range h.length, h.getD t 0 * e (2 * r + c - t) := by
  symm
  refine Finset.sum_of_injOn (fun t => 2 * r + c - t) ?_ ?_ ?_ ?_
  · intro a ha b hb hab
    simp only [Finset.coe_range, Set.mem_Iio] at ha hb hab
    omega
  · intro a ha
    simp only [Finset.coe_range, Set.mem_Iio] at ha ⊢
    omega
  · intro j hj hn
    rw [Finset.mem_range] at hj
    by_cases hlt : (c : ℤ) + 2 * (r : ℤ) - j < 0
    · rw [tap_neg _ hlt, zero_mul]
    · by_cases hge : (h.length : ℤ) ≤ (c : ℤ) + 2 * (r : ℤ) - j
      · rw [tap_ge _ hge, zero_mul]
      · refine absurd ⟨2 * r + c - j, ?_, ?_⟩ hn
        · simp only [Finset.coe_range, Set.mem_Iio]
          omega
        · show 2 * r + c - (2 * r + c - j) = j
          omega
  · intro t ht
    rw [Finset.mem_range] at ht
    have e1 : (c : ℤ) + 2 * (r : ℤ) - ((2 * r + c - t : ℕ) : ℤ) = (t : ℤ) := by omega
    show _ = tap h ((c : ℤ) + 2 * (r : ℤ) - ((2 * r + c - t : ℕ) : ℤ)) * e (2 * r + c - t)
    rw [e1, tap_nat]

theorem inside_ge {c s lo hi k : Nat} (hc : 1 ≤ c) (h : Inside (2 * c) s (lo + (c - 1)) hi k) : c - 1 ≤ k := by
  obtain ⟨h1, -⟩ := h
  obtain ⟨p, hp⟩ : ∃ p, 2 ^ s = p + 1 := ⟨2 ^ s - 1, by have := Nat.one_le_two_pow (n := s); omega⟩
  obtain ⟨d, rfl⟩ : ∃ d, c = d + 1 := ⟨c - 1, by omega⟩
  rw [hp] at h1
  have e2 : 2 * (d + 1) - 1 = 2 * d + 1 := by omega
  simp only [Nat.add_sub_cancel, e2] at h1 ⊢
  by_contra hlt
  have : (p + 1) * (k + 1) ≤ (p + 1) * d := Nat.mul_le_mul_left _ (by omega)
  nlinarith

/-- The position of a boundary-matrix coefficient whose samples lie in the window `lo ≤ t < hi`. -/
theorem matInside_iff {c s lo hi r : Nat} (hc : 1 ≤ c) :
    Inside (2 * c) s (lo + (c - 1)) (hi + (c - 1)) (r + (c - 1)) ↔
      lo + (2 ^ s - 1) * (c - 1) ≤ 2 ^ s * r ∧ 2 ^ s * r + (2 ^ s - 1) * c < hi := by
  obtain ⟨p, hp⟩ : ∃ p, 2 ^ s = p + 1 := ⟨2 ^ s - 1, by have := Nat.one_le_two_pow (n := s); omega⟩
  obtain ⟨d, rfl⟩ : ∃ d, c = d + 1 := ⟨c - 1, by omega⟩
  have e2 : 2 * (d + 1) - 1 = 2 * d + 1 := by omega
  unfold Inside
  simp only [hp, Nat.add_sub_cancel, e2]
  constructor
  · rintro ⟨h1, h2⟩
    constructor <;> nlinarith
  · rintro ⟨h1, h2⟩
    constructor <;> nlinarith

/-- The matrices have the filters in the rows that are not cut off. -/
def InnerRows (w : Wavelet ℝ) (F N : Nat) (A : Nat → Nat → Nat → ℝ) : Prop :=
  ∀ k, k % 2 = 0 → F ≤ k → k ≤ N → ∀ r j, r < k → j < k → ¬ Truncated F k r → A k r j = filterRow w F k r j

theorem rowTimes_inner {m : Mode} {w : Wavelet ℝ} {c N n : Nat} {A : Nat → Nat → Nat → ℝ} (hA : InnerRows w (2 * c) N A)
    (hw : w.len = 2 * c) (hhi : w.decHi.length = w.len) (hc : 1 ≤ c) (hF : 2 * c ≤ n) (hN : evenLen n ≤ N) (v : Nat → ℝ) {r : Nat}
    (h1 : c ≤ 2 * r + 1) (h2 : 2 * r + c < n) :
    stepLo m A n v r = (∑ t ∈ Finset.range w.decLo.length, w.decLo.getD t 0 * v (2 * r + c - t)) ∧
    stepHi m A n v r = ∑ t ∈ Finset.range w.decHi.length, w.decHi.getD t 0 * v (2 * r + c - t) := by
  have hev : evenLen n % 2 = 0 := by unfold evenLen; omega
  have hge : n ≤ evenLen n := by unfold evenLen; omega
  have hle : evenLen n ≤ n + 1 := by unfold evenLen; omega
  have hv : ∀ j, j < n → evenExt m n v j = v j := fun j hj => ext_inside m v hj
  have fin : ∀ h : List ℝ, h.length = 2 * c → (∑ t ∈ Finset.range h.length, h.getD t 0 * evenExt m n v (2 * r + c - t)) =
      ∑ t ∈ Finset.range h.length, h.getD t 0 * v (2 * r + c - t) := fun h _ =>
    Finset.sum_congr rfl fun t _ => by rw [hv _ (by omega)]
  have e2 : 2 * c / 2 = c := by omega
  constructor
  · rw [← fin _ hw, ← row_inner hw h1 (lt_of_lt_of_le h2 hge)]
    unfold stepLo rowTimes
    refine Finset.sum_congr rfl fun j hj => ?_
    rw [Finset.mem_range] at hj
    rw [hA _ hev (by omega) hN r j (by omega) hj (by unfold Truncated rowShift; split_ifs <;> omega)]
    unfold filterRow
    rw [if_pos (by omega), e2]
  · rw [← fin _ (hhi.trans hw), ← row_inner (hhi.trans hw) h1 (lt_of_lt_of_le h2 hge)]
    unfold stepHi rowTimes
    refine Finset.sum_congr rfl fun j hj => ?_
    rw [Finset.mem_range] at hj
    rw [hA _ hev (by omega) hN _ j (by omega) hj (by unfold Truncated rowShift; split_ifs <;> omega)]
    unfold filterRow
    rw [if_neg (by omega), e2]
    congr 2
    push_cast
    ring

theorem mat_inner {m m' : Mode} {w : Wavelet ℝ} {c N ny lo hi : Nat} {A : Nat → Nat → Nat → ℝ} (hA : InnerRows w (2 * c) N A)
    (hw : w.len = 2 * c) (hhi : w.decHi.length = w.len) (hc : 1 ≤ c) {y : Nat → ℝ} (hny : hi + (c - 1) ≤ ny) :
    ∀ (s : Nat) {s0 n L : Nat} {v : Nat → ℝ}, s ≤ mLevels (2 * c) L n → evenLen n ≤ N →
      (∀ t, Inside (2 * c) s0 (lo + (c - 1)) (hi + (c - 1)) (t + (c - 1)) → t < n ∧ v t = cA m w ny y s0 (t + (c - 1))) →
      (∀ r, Inside (2 * c) (s0 + s) (lo + (c - 1)) (hi + (c - 1)) (r + (c - 1)) →
        r < mLen n s ∧ mA m' A n v s r = cA m w ny y (s0 + s) (r + (c - 1))) ∧
      (s + 1 ≤ mLevels (2 * c) L n → ∀ r, Inside (2 * c) (s0 + s + 1) (lo + (c - 1)) (hi + (c - 1)) (r + (c - 1)) →
        r < mLen n (s + 1) ∧ mD m' A n v s r = cD m w ny y (s0 + s) (r + (c - 1))) := by
  have step : ∀ {s0 n : Nat} {v : Nat → ℝ}, 2 * c ≤ n → evenLen n ≤ N →
      (∀ t, Inside (2 * c) s0 (lo + (c - 1)) (hi + (c - 1)) (t + (c - 1)) → t < n ∧ v t = cA m w ny y s0 (t + (c - 1))) →
      ∀ r, Inside (2 * c) (s0 + 1) (lo + (c - 1)) (hi + (c - 1)) (r + (c - 1)) → r < evenLen n / 2 ∧
        stepLo m' A n v r = cA m w ny y (s0 + 1) (r + (c - 1)) ∧ stepHi m' A n v r = cD m w ny y s0 (r + (c - 1)) := by
    intro s0 n v hF hN hv r hr
    have hin : ∀ t, t < 2 * c → t ≤ 2 * r + c ∧
        Inside (2 * c) s0 (lo + (c - 1)) (hi + (c - 1)) ((2 * r + c - t) + (c - 1)) := by
      intro t ht
      obtain ⟨g1, g2⟩ := hr.step ht
      have := inside_ge hc g2
      have e : 2 * (r + (c - 1)) + 1 - t = (2 * r + c - t) + (c - 1) := by omega
      rw [e] at g2
      exact ⟨by omega, g2⟩
    have h1 : c ≤ 2 * r + 1 := by have := (hin (2 * c - 1) (by omega)).1; omega
    have h2 : 2 * r + c < n := by have := (hv _ (hin 0 (by omega)).2).1; omega
    obtain ⟨q1, q2⟩ := rowTimes_inner (m := m') hA hw hhi hc hF hN v h1 h2
    have hval : ∀ t, t < 2 * c → v (2 * r + c - t) = cA m w ny y s0 (2 * (r + (c - 1)) + 1 - t) := by
      intro t ht
      obtain ⟨g1, g2⟩ := hin t ht
      rw [(hv _ g2).2]
      congr 1
      omega
    refine ⟨by unfold evenLen; omega, ?_, ?_⟩
    · rw [q1]
      show _ = dwtStep m w.decLo (levelLen w.len ny s0) (cA m w ny y s0) (r + (c - 1))
      rw [hw, dwtStep_taps hw (by omega) hny hr]
      exact Finset.sum_congr rfl fun t ht => by rw [hval t (by rw [← hw]; exact Finset.mem_range.mp ht)]
    · rw [q2]
      show _ = dwtStep m w.decHi (levelLen w.len ny s0) (cA m w ny y s0) (r + (c - 1))
      rw [hw, dwtStep_taps (hhi.trans hw) (by omega) hny hr]
      exact Finset.sum_congr rfl fun t ht => by rw [hval t (by rw [← hw, ← hhi]; exact Finset.mem_range.mp ht)]
  intro s
  induction s with
  | zero =>
    intro s0 n L v _ hN hv
    refine ⟨fun r hr => hv r hr, fun hL r hr => ?_⟩
    have hF : 2 * c ≤ n := by
      by_contra hlt
      cases L with
      | zero => simp [mLevels] at hL
      | succ L => rw [mLevels, if_pos (by omega)] at hL; omega
    obtain ⟨p1, -, p3⟩ := step hF hN hv r hr
    exact ⟨p1, p3⟩
  | succ s ih =>
    intro s0 n L v hL hN hv
    cases L with
    | zero => simp [mLevels] at hL
    | succ L =>
      by_cases hF : n < 2 * c
      · rw [mLevels, if_pos hF] at hL; omega
      · rw [mLevels, if_neg hF] at hL ⊢
        have := ih (s0 := s0 + 1) (n := evenLen n / 2) (L := L) (v := stepLo m' A n v) (by omega)
          (by unfold evenLen at hN ⊢; omega) (fun t ht => by
            obtain ⟨p1, p2, -⟩ := step (by omega) hN hv t ht
            exact ⟨p1, p2⟩)
        rw [show s0 + 1 + s = s0 + (s + 1) by omega] at this
        exact ⟨this.1, fun h r hr => this.2 (by omega) r hr⟩

end Verif
