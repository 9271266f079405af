import Verif.Spec.Dwt
import Mathlib.Tactic.Linarith
import Mathlib.Tactic.Ring
import Mathlib.Tactic.LinearCombination

/-! Lemmas about the infinite extensions of `Verif.Spec.Dwt`. -/

namespace Verif.Spec
variable {R : Type}

theorem emod_eq_of {i m q r : ℤ} (h : i = q * m + r) (h0 : 0 ≤ r) (h1 : r < m) : i % m = r := by
  subst h
  rw [Int.add_comm, Int.add_mul_emod_self_right]
  exact Int.emod_eq_of_lt h0 h1

theorem extIdx_lt {m : Mode} {n : Nat} (hn : 0 < n) {i : ℤ} {j : Nat} (h : extIdx m n i = some j) :
    j < n := by
  cases m with
  | zero =>
    simp only [extIdx] at h
    split_ifs at h with hc
    simp only [Option.some.injEq] at h; omega
  | constant =>
    simp only [extIdx] at h
    split_ifs at h <;> simp only [Option.some.injEq] at h <;> omega
  | periodic =>
    simp only [extIdx, Option.some.injEq] at h
    have h1 := Int.emod_nonneg i (b := (n : ℤ)) (by omega)
    have h2 := Int.emod_lt_of_pos i (b := (n : ℤ)) (by omega)
    omega
  | symmetric =>
    simp only [extIdx, Option.some.injEq] at h
    have h1 := Int.emod_nonneg i (b := 2 * (n : ℤ)) (by omega)
    have h2 := Int.emod_lt_of_pos i (b := 2 * (n : ℤ)) (by omega)
    split_ifs at h <;> omega
  | reflect =>
    simp only [extIdx] at h
    by_cases hc : n ≤ 1
    · rw [if_pos hc] at h
      simp only [Option.some.injEq] at h; omega
    · rw [if_neg hc] at h
      simp only [Option.some.injEq] at h
      have h1 := Int.emod_nonneg i (b := 2 * (n : ℤ) - 2) (by omega)
      have h2 := Int.emod_lt_of_pos i (b := 2 * (n : ℤ) - 2) (by omega)
      split_ifs at h <;> omega

theorem ext_congr [Zero R] {m : Mode} {n : Nat} (hn : 0 < n) {x y : Nat → R}
    (h : ∀ j, j < n → x j = y j) (i : ℤ) : ext m n x i = ext m n y i := by
  unfold ext
  cases hi : extIdx m n i with
  | none => rfl
  | some j => exact h j (extIdx_lt hn hi)

/-- Inside the signal every extension shows the signal. -/
theorem extIdx_inside (m : Mode) {n i : Nat} (h : i < n) : extIdx m n (i : ℤ) = some i := by
  cases m with
  | zero => simp only [extIdx]; rw [if_pos (by omega)]; simp
  | constant => simp only [extIdx]; rw [if_neg (by omega), if_pos (by omega)]; simp
  | periodic =>
    simp only [extIdx]
    rw [Int.emod_eq_of_lt (by omega) (by omega)]; simp
  | symmetric =>
    simp only [extIdx]
    rw [Int.emod_eq_of_lt (by omega) (by omega)]
    simp [h]
  | reflect =>
    simp only [extIdx]
    by_cases hc : n ≤ 1
    · rw [if_pos hc]; congr 1; omega
    · rw [if_neg hc]
      by_cases h2 : i < 2 * n - 2
      · rw [Int.emod_eq_of_lt (by omega) (by omega)]
        simp [h]
      · omega

theorem ext_inside [Zero R] (m : Mode) {n i : Nat} (x : Nat → R) (h : i < n) :
    ext m n x (i : ℤ) = x i := by
  unfold ext; rw [extIdx_inside m h]

/-- symmetric extension: reflection about -1/2. -/
theorem ext_symm_left [Zero R] {n : Nat} (hn : 0 < n) (x : Nat → R) (i : ℤ) :
    ext .symmetric n x (-1 - i) = ext .symmetric n x i := by
  have h1 := Int.emod_nonneg i (b := 2 * (n : ℤ)) (by omega)
  have h2 := Int.emod_lt_of_pos i (b := 2 * (n : ℤ)) (by omega)
  have h3 := Int.emod_add_mul_ediv i (2 * (n : ℤ))
  have h4 : (-1 - i) % (2 * (n : ℤ)) = 2 * (n : ℤ) - 1 - i % (2 * (n : ℤ)) := by
    apply emod_eq_of (q := - (i / (2 * (n : ℤ))) - 1)
    · linear_combination h3
    · omega
    · omega
  unfold ext
  simp only [extIdx, h4]
  congr 1
  split_ifs <;> omega

/-- symmetric extension: reflection about n - 1/2. -/
theorem ext_symm_right [Zero R] {n : Nat} (hn : 0 < n) (x : Nat → R) (i : ℤ) :
    ext .symmetric n x (2 * n - 1 - i) = ext .symmetric n x i := by
  rw [← ext_symm_left hn x i]
  have h4 : (2 * (n : ℤ) - 1 - i) % (2 * (n : ℤ)) = (-1 - i) % (2 * (n : ℤ)) := by
    rw [show 2 * (n : ℤ) - 1 - i = -1 - i + 2 * (n : ℤ) by ring, Int.add_emod_right]
  unfold ext
  simp only [extIdx, h4]

/-- A function with two reflection symmetries is the symmetric extension of the window between
them. -/
theorem ext_symm_unique [Zero R] {n : Nat} (hn : 0 < n) (e : ℤ → R)
    (h0 : ∀ i, e (-1 - i) = e i) (h1 : ∀ i, e (2 * n - 1 - i) = e i) (i : ℤ) :
    ext .symmetric n (fun j => e j) i = e i := by
  have hper : ∀ i, e (i + 2 * n) = e i := by
    intro i
    rw [← h1 (i + 2 * n), ← h0 i]; congr 1; ring
  have hperq : ∀ (q : ℕ) i, e (i + q * (2 * n)) = e i := by
    intro q
    induction q with
    | zero => intro i; simp
    | succ q ih =>
      intro i
      rw [show i + ((q + 1 : ℕ) : ℤ) * (2 * n) = (i + q * (2 * n)) + 2 * n by push_cast; ring, hper, ih]
  have hperz : ∀ (q : ℤ) i, e (i + q * (2 * n)) = e i := by
    intro q i
    rcases Int.eq_nat_or_neg q with ⟨k, rfl | rfl⟩
    · exact hperq k i
    · rw [← hperq k (i + -(k : ℤ) * (2 * n))]; congr 1; ring
  have h2 := Int.emod_nonneg i (b := 2 * (n : ℤ)) (by omega)
  have h3 := Int.emod_lt_of_pos i (b := 2 * (n : ℤ)) (by omega)
  have h4 := Int.emod_add_mul_ediv i (2 * (n : ℤ))
  have h5 : e i = e (i % (2 * n)) := by
    have := hperz (i / (2 * n)) (i % (2 * n))
    rw [mul_comm (i / (2 * (n : ℤ))), h4] at this
    exact this
  unfold ext
  simp only [extIdx]
  rw [h5]
  split_ifs with hc
  · congr 1; omega
  · rw [← h1]; congr 1; omega

theorem extIdx_symm_near {n : Nat} {i : ℤ} (h0 : -(n : ℤ) ≤ i) (h1 : i < 2 * n) :
    extIdx .symmetric n i = some (if i < 0 then (-1 - i).toNat
      else if i < n then i.toNat else (2 * n - 1 - i).toNat) := by
  simp only [extIdx]
  by_cases hi : i < 0
  · rw [emod_eq_of (q := -1) (r := i + 2 * n) (by ring) (by omega) (by omega)]
    congr 1; split_ifs <;> omega
  · rw [Int.emod_eq_of_lt (by omega) (by omega)]
    congr 1; split_ifs <;> omega

theorem extIdx_reflect_near {n : Nat} {i : ℤ} (h0 : -(n : ℤ) < i) (h1 : i < 2 * n - 1) :
    extIdx .reflect n i = some (if i < 0 then (-i).toNat
      else if i < n then i.toNat else (2 * n - 2 - i).toNat) := by
  simp only [extIdx]
  by_cases hn : n ≤ 1
  · rw [if_pos hn]; congr 1; split_ifs <;> omega
  · rw [if_neg hn]
    by_cases hi : i < 0
    · rw [emod_eq_of (q := -1) (r := i + (2 * n - 2)) (by ring) (by omega) (by omega)]
      congr 1; split_ifs <;> omega
    · by_cases hj : i < 2 * n - 2
      · rw [Int.emod_eq_of_lt (by omega) (by omega)]
        congr 1; split_ifs <;> omega
      · rw [emod_eq_of (q := 1) (r := 0) (by omega) (by omega) (by omega)]
        congr 1; split_ifs <;> omega

theorem extIdx_periodic_near {n : Nat} {i : ℤ} (h0 : -(n : ℤ) ≤ i) (h1 : i < 2 * n) :
    extIdx .periodic n i = some (if i < 0 then (i + n).toNat
      else if i < n then i.toNat else (i - n).toNat) := by
  simp only [extIdx]
  by_cases hi : i < 0
  · rw [emod_eq_of (q := -1) (r := i + n) (by ring) (by omega) (by omega)]
    congr 1; split_ifs <;> omega
  · by_cases hj : i < n
    · rw [Int.emod_eq_of_lt (by omega) (by omega)]
      congr 1; split_ifs <;> omega
    · rw [emod_eq_of (q := 1) (r := i - n) (by ring) (by omega) (by omega)]
      congr 1; split_ifs <;> omega

end Verif.Spec
