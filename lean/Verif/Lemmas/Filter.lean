import Verif.Spec.Wavelet
import Mathlib.Algebra.Polynomial.Eval.Degree
import Mathlib.Tactic.Ring
import Mathlib.Tactic.Linarith

/-! The polynomial perfect reconstruction condition in coefficient form. -/

namespace Verif.Spec
open Polynomial
variable {R : Type}

theorem poly_coeff [Semiring R] (h : List R) (n : ℕ) : (poly h).coeff n = h.getD n 0 := by
  classical
  unfold poly
  simp only [finsetSum_coeff, coeff_C_mul, coeff_X_pow, mul_ite, mul_one, mul_zero]
  rw [Finset.sum_ite_eq]
  split_ifs with hn
  · rfl
  · rw [Finset.mem_range, not_lt] at hn
    rw [List.getD_eq_default _ _ hn]

theorem tap_nat [Zero R] (h : List R) (n : ℕ) : tap h (n : ℤ) = h.getD n 0 := by
  simp [tap]

theorem tap_neg [Zero R] (h : List R) {i : ℤ} (hi : i < 0) : tap h i = 0 := by
  simp [tap, not_le.mpr hi]

theorem tap_ge [Zero R] (h : List R) {i : ℤ} (hi : (h.length : ℤ) ≤ i) : tap h i = 0 := by
  unfold tap
  split_ifs with h0
  · rw [List.getD_eq_default]; omega
  · rfl

theorem comp_neg_X_coeff' [CommRing R] (p : R[X]) (n : ℕ) :
    (p.comp (-X)).coeff n = (-1) ^ n * p.coeff n := by
  have : (-X : R[X]) = C (-1) * X := by simp
  rw [this, comp_C_mul_X_coeff, mul_comm]

/-- Coefficient form of a product of filter polynomials. -/
theorem poly_mul_coeff [CommRing R] (a b : List R) (s : ℕ) :
    (poly a * poly b).coeff s = ∑ t ∈ Finset.range (s + 1), b.getD t 0 * a.getD (s - t) 0 := by
  rw [mul_comm, coeff_mul, Finset.Nat.sum_antidiagonal_eq_sum_range_succ_mk]
  exact Finset.sum_congr rfl fun t _ => by rw [poly_coeff, poly_coeff]

theorem poly_alias_coeff [CommRing R] (a b : List R) (s : ℕ) :
    ((poly a).comp (-X) * poly b).coeff s
      = ∑ t ∈ Finset.range (s + 1), (-1) ^ (s - t) * (b.getD t 0 * a.getD (s - t) 0) := by
  rw [mul_comm, coeff_mul, Finset.Nat.sum_antidiagonal_eq_sum_range_succ_mk]
  refine Finset.sum_congr rfl fun t _ => ?_
  rw [poly_coeff, comp_neg_X_coeff', poly_coeff]; ring

/-- Sums over `range (s+1)` of `b[t] a[s-t]` as sums over `range F` of integer-indexed taps. -/
theorem sum_tap [CommRing R] (a b : List R) (F : ℕ) (hb : b.length = F) (s : ℕ) (g : ℕ → R) :
    ∑ t ∈ Finset.range (s + 1), g t * (b.getD t 0 * a.getD (s - t) 0)
      = ∑ t ∈ Finset.range F, g t * (tap b t * tap a ((s : ℤ) - t)) := by
  have e1 : ∑ t ∈ Finset.range (s + 1), g t * (b.getD t 0 * a.getD (s - t) 0)
      = ∑ t ∈ Finset.range (s + 1 + F), g t * (tap b t * tap a ((s : ℤ) - t)) := by
    rw [← Finset.sum_subset (s₁ := Finset.range (s + 1)) (s₂ := Finset.range (s + 1 + F))
      (f := fun t : ℕ => g t * (tap b t * tap a ((s : ℤ) - t)))]
    · refine Finset.sum_congr rfl fun t ht => ?_
      rw [Finset.mem_range] at ht
      rw [tap_nat, show ((s : ℤ) - t) = ((s - t : ℕ) : ℤ) by omega, tap_nat]
    · intro t ht
      rw [Finset.mem_range] at *
      omega
    · intro t _ ht
      rw [Finset.mem_range] at ht
      rw [tap_neg a (by omega)]; ring
  have e2 : ∑ t ∈ Finset.range F, g t * (tap b t * tap a ((s : ℤ) - t))
      = ∑ t ∈ Finset.range (s + 1 + F), g t * (tap b t * tap a ((s : ℤ) - t)) := by
    apply Finset.sum_subset
    · intro t ht
      rw [Finset.mem_range] at *
      omega
    · intro t _ ht
      rw [Finset.mem_range] at ht
      rw [tap_ge b (by omega)]; ring
  rw [e1, e2]

/-- No-distortion in coefficient form, for every integer lag. -/
theorem NoDistortion.coeff [CommRing R] {w : Wavelet R} {F : ℕ} (hl : HasLen w F)
    (h : NoDistortion w F) (hF : 1 ≤ F) (s : ℤ) :
    ∑ t ∈ Finset.range F, (tap w.recLo t * tap w.decLo (s - t) + tap w.recHi t * tap w.decHi (s - t))
      = if s = (F : ℤ) - 1 then 2 else 0 := by
  obtain ⟨h1, h2, h3, h4⟩ := hl
  rcases lt_or_ge s 0 with hs | hs
  · rw [if_neg (by omega)]
    apply Finset.sum_eq_zero
    intro t _
    rw [tap_neg w.decLo (by omega), tap_neg w.decHi (by omega)]; ring
  · obtain ⟨n, rfl⟩ := Int.eq_ofNat_of_zero_le hs
    have := congrArg (fun p => Polynomial.coeff p n) h
    simp only [coeff_add, poly_mul_coeff, coeff_C_mul, coeff_X_pow] at this
    have a := sum_tap w.decLo w.recLo F h3 n (fun _ => 1)
    have b := sum_tap w.decHi w.recHi F h4 n (fun _ => 1)
    simp only [one_mul] at a b
    rw [a, b, ← Finset.sum_add_distrib] at this
    rw [this]
    by_cases hn : n = F - 1
    · rw [if_pos hn, if_pos (by omega)]; ring
    · rw [if_neg hn, if_neg (by omega)]; ring

/-- Alias cancellation in coefficient form, for every integer lag. -/
theorem AliasFree.coeff [CommRing R] {w : Wavelet R} {F : ℕ} (hl : HasLen w F)
    (h : AliasFree w) (s : ℤ) :
    ∑ t ∈ Finset.range F,
      (-1 : R) ^ t * (tap w.recLo t * tap w.decLo (s - t) + tap w.recHi t * tap w.decHi (s - t)) = 0 := by
  obtain ⟨h1, h2, h3, h4⟩ := hl
  rcases lt_or_ge s 0 with hs | hs
  · apply Finset.sum_eq_zero
    intro t _
    rw [tap_neg w.decLo (by omega), tap_neg w.decHi (by omega)]; ring
  · obtain ⟨n, rfl⟩ := Int.eq_ofNat_of_zero_le hs
    have := congrArg (fun p => Polynomial.coeff p n) h
    simp only [coeff_add, poly_alias_coeff, coeff_zero] at this
    have key : ∀ (a b : List R), ∑ t ∈ Finset.range (n + 1),
        (-1) ^ (n - t) * (b.getD t 0 * a.getD (n - t) 0)
        = (-1) ^ n * ∑ t ∈ Finset.range (n + 1), (-1) ^ t * (b.getD t 0 * a.getD (n - t) 0) := by
      intro a b
      rw [Finset.mul_sum]
      refine Finset.sum_congr rfl fun t ht => ?_
      rw [Finset.mem_range] at ht
      have : (-1 : R) ^ n = (-1) ^ (n - t) * (-1) ^ t := by rw [← pow_add]; congr 1; omega
      have h2 : (-1 : R) ^ t * (-1) ^ t = 1 := by rw [← mul_pow]; simp
      rw [this, mul_assoc, ← mul_assoc ((-1 : R) ^ t), h2, one_mul]
    rw [key, key, ← mul_add, sum_tap w.decLo w.recLo F h3 n (fun t => (-1) ^ t),
      sum_tap w.decHi w.recHi F h4 n (fun t => (-1) ^ t), ← Finset.sum_add_distrib] at this
    have h2 : (-1 : R) ^ n * (-1) ^ n = 1 := by rw [← mul_pow]; simp
    have this2 := congrArg (fun z => (-1 : R) ^ n * z) this
    simp only [mul_zero, ← mul_assoc, h2, one_mul] at this2
    rw [← this2]
    refine Finset.sum_congr rfl fun t _ => ?_
    ring

/-- The two polynomial conditions combine to the parity-restricted identity that decimation
by two needs. -/
theorem PRBank.half [Field R] [CharZero R] {w : Wavelet R} {F : ℕ} (h : PRBank w F)
    (hF : 1 ≤ F) (p : ℕ) (s : ℤ) :
    ∑ t ∈ Finset.range F, (if t % 2 = p % 2 then
        (tap w.recLo t * tap w.decLo (s - t) + tap w.recHi t * tap w.decHi (s - t)) else 0)
      = if s = (F : ℤ) - 1 then 1 else 0 := by
  have a := h.noDistortion.coeff h.len hF s
  have b := h.aliasFree.coeff h.len s
  have two : (2 : R) ≠ 0 := by exact_mod_cast (two_ne_zero : (2 : ℕ) ≠ 0)
  apply mul_left_cancel₀ two
  have : ∀ t : ℕ, (2 : R) * (if t % 2 = p % 2 then
        (tap w.recLo t * tap w.decLo (s - t) + tap w.recHi t * tap w.decHi (s - t)) else 0)
      = (tap w.recLo t * tap w.decLo (s - t) + tap w.recHi t * tap w.decHi (s - t))
       + (-1) ^ p * ((-1 : R) ^ t *
        (tap w.recLo t * tap w.decLo (s - t) + tap w.recHi t * tap w.decHi (s - t))) := by
    intro t
    rcases Nat.even_or_odd t with ht | ht <;> rcases Nat.even_or_odd p with hp | hp
    · rw [if_pos (by rw [Nat.even_iff.mp ht, Nat.even_iff.mp hp]), ht.neg_one_pow, hp.neg_one_pow]
      ring
    · rw [if_neg (by rw [Nat.even_iff.mp ht, Nat.odd_iff.mp hp]; omega), ht.neg_one_pow,
        hp.neg_one_pow]
      ring
    · rw [if_neg (by rw [Nat.odd_iff.mp ht, Nat.even_iff.mp hp]; omega), ht.neg_one_pow,
        hp.neg_one_pow]
      ring
    · rw [if_pos (by rw [Nat.odd_iff.mp ht, Nat.odd_iff.mp hp]), ht.neg_one_pow, hp.neg_one_pow]
      ring
  rw [Finset.mul_sum, Finset.sum_congr rfl fun t _ => this t, Finset.sum_add_distrib, a,
    ← Finset.mul_sum, b]
  split_ifs <;> ring

end Verif.Spec
