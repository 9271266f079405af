/-
A time-reversed filter bank has perfect reconstruction iff the analysis filters and their double shifts
are orthonormal.
-/
import Verif.Lemmas.Filter
import Verif.Spec.Orth
import Mathlib.LinearAlgebra.Matrix.NonsingularInverse
import Mathlib.Algebra.Polynomial.Eval.Coeff
import Mathlib.Algebra.Polynomial.RingDivision
import Mathlib.Data.Matrix.Reflection
import Mathlib.Tactic.LinearCombination

namespace Verif
open Spec Polynomial Matrix
variable {R : Type}

theorem scalar_comm [CommRing R] [IsDomain R] {M N : Matrix (Fin 2) (Fin 2) R[X]} {c : R[X]} (hc : c ≠ 0)
    (h : M * N = c • (1 : Matrix (Fin 2) (Fin 2) R[X])) : N * M = c • (1 : Matrix (Fin 2) (Fin 2) R[X]) := by
  have hd : M.det * N.det = c ^ 2 := by
    rw [← Matrix.det_mul, h, Matrix.det_smul]
    simp
  have hM : M.det ≠ 0 := by
    intro h0
    rw [h0, zero_mul] at hd
    exact hc (pow_eq_zero_iff (two_ne_zero)|>.1 hd.symm)
  have h1 : M * (N * M - c • (1 : Matrix (Fin 2) (Fin 2) R[X])) = 0 := by
    rw [mul_sub, ← mul_assoc, h]
    simp
  have h2 : M.det • (N * M - c • (1 : Matrix (Fin 2) (Fin 2) R[X])) = 0 := by
    have := congrArg (fun Z => M.adjugate * Z) h1
    simp only [mul_zero, ← mul_assoc, Matrix.adjugate_mul] at this
    simpa using this
  have h3 : N * M - c • (1 : Matrix (Fin 2) (Fin 2) R[X]) = 0 := by
    rcases smul_eq_zero.1 h2 with h | h
    · exact absurd h hM
    · exact h
  exact sub_eq_zero.1 h3

/-- The cross-correlation of two filters. -/
def corr [CommRing R] (F : Nat) (u v : List R) (m : ℤ) : R :=
  ∑ k ∈ Finset.range F, tap u k * tap v (k + m)

theorem tap_reverse [CommRing R] {u : List R} {F : Nat} (hu : u.length = F) (t : ℤ) :
    tap u.reverse t = tap u ((F : ℤ) - 1 - t) := by
  by_cases h0 : t < 0
  · rw [tap_neg _ h0, tap_ge _ (by rw [hu]; omega)]
  · by_cases h1 : (F : ℤ) ≤ t
    · rw [tap_ge _ (by rw [List.length_reverse, hu]; exact h1), tap_neg _ (by omega)]
    · obtain ⟨n, rfl⟩ := Int.eq_ofNat_of_zero_le (not_lt.1 h0)
      have hn : n < F := by omega
      have : ((F : ℤ) - 1 - (n : ℤ)) = ((F - 1 - n : ℕ) : ℤ) := by omega
      rw [this, tap_nat, tap_nat, List.getD_eq_getElem?_getD, List.getD_eq_getElem?_getD,
        List.getElem?_reverse (by omega), hu]

theorem mul_reverse_coeff [CommRing R] {u v : List R} {F : Nat} (hu : u.length = F) (s : ℕ) :
    (poly v * poly u.reverse).coeff s = corr F u v ((s : ℤ) - (F - 1)) := by
  have h := sum_tap v u.reverse F (by simpa using hu) s (fun _ => 1)
  simp only [one_mul] at h
  rw [poly_mul_coeff, h]
  unfold corr
  rw [← Finset.sum_range_reflect]
  refine Finset.sum_congr rfl fun t ht => ?_
  have ht := Finset.mem_range.1 ht
  rw [tap_reverse hu]
  have h1 : (F : ℤ) - 1 - ((F - 1 - t : ℕ) : ℤ) = t := by omega
  have h2 : (s : ℤ) - ((F - 1 - t : ℕ) : ℤ) = t + ((s : ℤ) - (F - 1)) := by omega
  rw [h1, h2]

theorem corr_zero [CommRing R] {u v : List R} {F : Nat} (hv : v.length = F) {m : ℤ}
    (h : m ≤ -F ∨ (F : ℤ) ≤ m) : corr F u v m = 0 := by
  apply Finset.sum_eq_zero
  intro k hk
  have hk := Finset.mem_range.1 hk
  rcases h with h | h
  · rw [tap_neg v (by omega), mul_zero]
  · rw [tap_ge v (by omega), mul_zero]

theorem corr_pairs [CommRing R] {u v : List R} {F : Nat} (hv : v.length = F) (m : ℤ) :
    corr F u v m = ∑ k ∈ Finset.range F, ∑ l ∈ Finset.range F,
      if (l : ℤ) = k + m then tap u k * tap v l else 0 := by
  unfold corr
  refine Finset.sum_congr rfl fun k _ => ?_
  by_cases h : 0 ≤ (k : ℤ) + m ∧ (k : ℤ) + m < F
  · obtain ⟨n, hn⟩ := Int.eq_ofNat_of_zero_le h.1
    rw [hn]
    have : ∀ l : ℕ, (if (l : ℤ) = (n : ℤ) then tap u k * tap v l else 0)
        = if l = n then tap u k * tap v n else 0 := by
      intro l
      by_cases hl : l = n
      · subst hl; simp
      · rw [if_neg (by omega), if_neg hl]
    simp only [this]
    rw [Finset.sum_ite_eq', if_pos (Finset.mem_range.2 (by omega))]
  · rw [Finset.sum_eq_zero (fun l hl => by
      have := Finset.mem_range.1 hl
      rw [if_neg (by omega)])]
    have : (k : ℤ) + m < 0 ∨ (F : ℤ) ≤ k + m := by omega
    rcases this with h | h
    · rw [tap_neg v h, mul_zero]
    · rw [tap_ge v (by omega), mul_zero]

theorem corr_symm [CommRing R] {u v : List R} {F : Nat} (hu : u.length = F) (hv : v.length = F) (m : ℤ) :
    corr F u v m = corr F v u (-m) := by
  rw [corr_pairs hv, corr_pairs hu, Finset.sum_comm]
  refine Finset.sum_congr rfl fun k _ => Finset.sum_congr rfl fun l _ => ?_
  by_cases h : (k : ℤ) = l + m
  · rw [if_pos h, if_pos (by omega), mul_comm]
  · rw [if_neg h, if_neg (by omega)]

theorem half_iff [Field R] [CharZero R] {u v : List R} {F : Nat} (hu : u.length = F) (hv : v.length = F)
    (hF : 2 ≤ F) (he : F % 2 = 0) (d : R) :
    poly v * poly u.reverse - (poly v * poly u.reverse).comp (-X) = C (2 * d) * X ^ (F - 1) ↔
      ∀ m : ℤ, corr F u v (2 * m) = if m = 0 then d else 0 := by
  have two : (2 : R) ≠ 0 := by exact_mod_cast (two_ne_zero : (2 : ℕ) ≠ 0)
  have hco : ∀ n : ℕ, (poly v * poly u.reverse - (poly v * poly u.reverse).comp (-X)).coeff n
      = (1 - (-1) ^ n) * corr F u v ((n : ℤ) - (F - 1)) := by
    intro n
    rw [coeff_sub, comp_neg_X_coeff', mul_reverse_coeff hu]
    ring
  constructor
  · intro h m
    by_cases hm : 2 * m ≤ -F ∨ (F : ℤ) ≤ 2 * m
    · rw [corr_zero hv hm, if_neg (by omega)]
    · push Not at hm
      obtain ⟨n, hn⟩ : ∃ n : ℕ, (n : ℤ) = 2 * m + (F - 1) := ⟨(2 * m + (F - 1)).toNat, by omega⟩
      have h1 := congrArg (fun p => p.coeff n) h
      beta_reduce at h1
      rw [hco, coeff_C_mul, coeff_X_pow] at h1
      have hodd : Odd n := by rw [Nat.odd_iff]; omega
      have h2 : (n : ℤ) - (F - 1) = 2 * m := by omega
      rw [hodd.neg_one_pow, h2] at h1
      have h3 : (n = F - 1) ↔ m = 0 := by omega
      simp only [h3] at h1
      apply mul_left_cancel₀ two
      by_cases hm0 : m = 0
      · simp only [hm0, if_true] at h1 ⊢
        linear_combination h1
      · simp only [hm0, if_false] at h1 ⊢
        linear_combination h1
  · intro h
    ext n
    rw [hco, coeff_C_mul, coeff_X_pow]
    rcases Nat.even_or_odd n with hn | hn
    · rw [hn.neg_one_pow, if_neg (by have := Nat.even_iff.1 hn; omega)]
      ring
    · have := Nat.odd_iff.1 hn
      obtain ⟨m, hm⟩ : ∃ m : ℤ, (n : ℤ) - (F - 1) = 2 * m := ⟨((n : ℤ) - (F - 1)) / 2, by omega⟩
      rw [hn.neg_one_pow, hm, h m]
      have h3 : (n = F - 1) ↔ m = 0 := by omega
      simp only [h3]
      split <;> ring

theorem comp_comp_neg [CommRing R] (p : R[X]) : (p.comp (-X)).comp (-X) = p := by
  rw [comp_assoc]
  simp

theorem orth_iff [Field R] [CharZero R] {w : Wavelet R} {F : Nat} (hl : HasLen w F) (hF : 2 ≤ F)
    (he : F % 2 = 0) (hlo : w.recLo = w.decLo.reverse) (hhi : w.recHi = w.decHi.reverse) :
    (NoDistortion w F ∧ AliasFree w) ↔
      ((∀ m, corr F w.decLo w.decLo (2 * m) = if m = 0 then 1 else 0) ∧
       (∀ m, corr F w.decHi w.decHi (2 * m) = if m = 0 then 1 else 0) ∧
       (∀ m, corr F w.decLo w.decHi (2 * m) = 0)) := by
  obtain ⟨h1, h2, -, -⟩ := hl
  have two : (2 : R) ≠ 0 := by exact_mod_cast (two_ne_zero : (2 : ℕ) ≠ 0)
  have hc : (C (2 : R) * X ^ (F - 1) : R[X]) ≠ 0 := by
    rw [ne_eq, C_mul_X_pow_eq_monomial, monomial_eq_zero_iff]
    exact two
  have hoddF : Odd (F - 1) := by rw [Nat.odd_iff]; omega
  set H0 := poly w.decLo with hH0
  set H1 := poly w.decHi with hH1
  set G0 := poly w.recLo with hG0
  set G1 := poly w.recHi with hG1
  set M : Matrix (Fin 2) (Fin 2) R[X] := !![H0, H1; H0.comp (-X), H1.comp (-X)] with hM
  set N : Matrix (Fin 2) (Fin 2) R[X] := !![G0, -G0.comp (-X); G1, -G1.comp (-X)] with hN
  have hcc : (C (2 : R) * X ^ (F - 1) : R[X]).comp (-X) = -(C (2 : R) * X ^ (F - 1)) := by
    simp only [mul_comp, C_comp, pow_comp, X_comp, hoddF.neg_pow, mul_neg]
  have hMN : M * N = !![H0 * G0 + H1 * G1, -(H0 * G0.comp (-X) + H1 * G1.comp (-X));
      H0.comp (-X) * G0 + H1.comp (-X) * G1,
      -(H0.comp (-X) * G0.comp (-X) + H1.comp (-X) * G1.comp (-X))] := by
    rw [hM, hN, Matrix.mul_fin_two]
    congr 1
    funext i j
    fin_cases i <;> fin_cases j <;> simp <;> ring
  have hNM : N * M = !![H0 * G0 - (H0 * G0).comp (-X), H1 * G0 - (H1 * G0).comp (-X);
      H0 * G1 - (H0 * G1).comp (-X), H1 * G1 - (H1 * G1).comp (-X)] := by
    rw [hM, hN, Matrix.mul_fin_two]
    congr 1
    funext i j
    fin_cases i <;> fin_cases j <;> simp [mul_comp] <;> ring
  have hI : (C (2 : R) * X ^ (F - 1) : R[X]) • (1 : Matrix (Fin 2) (Fin 2) R[X])
      = !![C (2 : R) * X ^ (F - 1), 0; 0, C (2 : R) * X ^ (F - 1)] := by
    rw [Matrix.one_fin_two, Matrix.smul_of]
    congr 1
    funext i j
    fin_cases i <;> fin_cases j <;> simp
  have eqMN : M * N = (C (2 : R) * X ^ (F - 1) : R[X]) • (1 : Matrix (Fin 2) (Fin 2) R[X]) ↔
      (NoDistortion w F ∧ AliasFree w) := by
    rw [hMN, hI]
    unfold NoDistortion AliasFree
    rw [← hH0, ← hH1, ← hG0, ← hG1]
    constructor
    · intro h
      exact ⟨congrFun (congrFun h 0) 0, congrFun (congrFun h 1) 0⟩
    · rintro ⟨ha, hb⟩
      have h01 : -(H0 * G0.comp (-X) + H1 * G1.comp (-X)) = 0 := by
        have := congrArg (fun p => p.comp (-X)) hb
        simp only [add_comp, mul_comp, comp_comp_neg, zero_comp] at this
        rw [this, neg_zero]
      have h11 : -(H0.comp (-X) * G0.comp (-X) + H1.comp (-X) * G1.comp (-X))
          = C (2 : R) * X ^ (F - 1) := by
        have := congrArg (fun p => p.comp (-X)) ha
        beta_reduce at this
        rw [hcc, add_comp, mul_comp, mul_comp] at this
        rw [this, neg_neg]
      rw [ha, hb, h01, h11]
  have half : ∀ u v : List R, u.length = F → v.length = F → ∀ d : R,
      (poly v * poly u.reverse - (poly v * poly u.reverse).comp (-X) = C (2 * d) * X ^ (F - 1) ↔
      ∀ m : ℤ, corr F u v (2 * m) = if m = 0 then d else 0) := fun u v hu hv d => half_iff hu hv hF he d
  have eqNM : N * M = (C (2 : R) * X ^ (F - 1) : R[X]) • (1 : Matrix (Fin 2) (Fin 2) R[X]) ↔
      ((∀ m, corr F w.decLo w.decLo (2 * m) = if m = 0 then 1 else 0) ∧
       (∀ m, corr F w.decHi w.decHi (2 * m) = if m = 0 then 1 else 0) ∧
       (∀ m, corr F w.decLo w.decHi (2 * m) = 0)) := by
    have a1 := half w.decLo w.decLo h1 h1 1
    have a2 := half w.decHi w.decHi h2 h2 1
    have a3 := half w.decLo w.decHi h1 h2 0
    have a4 := half w.decHi w.decLo h2 h1 0
    rw [← hlo] at a1 a3
    rw [← hhi] at a2 a4
    rw [← hG0, ← hH0, mul_one] at a1
    rw [← hG1, ← hH1, mul_one] at a2
    rw [← hG0, ← hH1, mul_zero, C_0, zero_mul] at a3
    rw [← hG1, ← hH0, mul_zero, C_0, zero_mul] at a4
    simp only [ite_self] at a3 a4
    rw [← a1, ← a2, ← a3, hNM, hI]
    constructor
    · intro h
      exact ⟨congrFun (congrFun h 0) 0, congrFun (congrFun h 1) 1, congrFun (congrFun h 0) 1⟩
    · rintro ⟨b1, b2, b3⟩
      have b4 := a4.2 (by
        intro m
        have h5 := a3.1 b3 (-m)
        rw [corr_symm h2 h1, ← mul_neg, h5])
      rw [b1, b2, b3, b4]
  rw [← eqMN, ← eqNM]
  exact ⟨scalar_comm hc, scalar_comm hc⟩

end Verif
