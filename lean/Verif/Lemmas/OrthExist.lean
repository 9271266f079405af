/-
The assumptions on the numerical routines and on the filters can be met.
-/
import Verif.Lemmas.OrthTop
import Mathlib.Analysis.InnerProductSpace.GramSchmidtOrtho
import Mathlib.Analysis.InnerProductSpace.PiL2
import Mathlib.Tactic.IntervalCases
import Mathlib.Tactic.FieldSimp
import Mathlib.Tactic.Linarith
import Mathlib.Tactic.LinearCombination
import Mathlib.Tactic.NormNum

namespace Verif
open Spec

open InnerProductSpace in
/-- Every matrix has a reduced QR decomposition. -/
theorem exists_qr (X : Tensor ℝ) (m n : Nat) : ∃ Q : Tensor ℝ,
    Q.shape = [m, min m n] ∧ Q.md = X.md ∧
    (∀ a b, a < min m n → b < min m n →
      dot m (fun i => Q.get [i, a]) (fun i => Q.get [i, b]) = if a = b then 1 else 0) ∧
    ∃ T : Nat → Nat → ℝ, ∀ i j, i < m → j < n →
      X.get [i, j] = ∑ k ∈ Finset.range (min m n), Q.get [i, k] * T k j := by
  classical
  set f : Fin m → EuclideanSpace ℝ (Fin m) := fun k =>
    if (k : ℕ) < n then (WithLp.toLp 2 fun i : Fin m => X.get [(i : ℕ), (k : ℕ)]) else 0 with hf
  have hcard : Module.finrank ℝ (EuclideanSpace ℝ (Fin m)) = Fintype.card (Fin m) := by simp
  set e := gramSchmidtOrthonormalBasis hcard f with he
  set ext : Nat → Nat → ℝ := fun k i => if hk : k < m then if hi : i < m then e ⟨k, hk⟩ ⟨i, hi⟩ else 0 else 0 with hext
  have hextv : ∀ (k i : Fin m), ext k i = e k i := by
    intro k i; simp [hext]
  set Q : Tensor ℝ := Tensor.ofFn X.md [m, min m n] fun i => ext (i.getD 1 0) (i.getD 0 0) with hQ
  have hQg : ∀ i k, i < m → k < min m n → Q.get [i, k] = ext k i := by
    intro i k hi hk
    rw [hQ, Tensor.ofFn_get_of _ _ (by exact ⟨hi, hk, trivial⟩)]
    rfl
  have hinner : ∀ u v : EuclideanSpace ℝ (Fin m), inner ℝ u v = ∑ i : Fin m, u i * v i := by
    intro u v
    rw [PiLp.inner_apply]
    refine Finset.sum_congr rfl fun i _ => ?_
    simp [mul_comm]
  refine ⟨Q, rfl, rfl, ?_, ?_⟩
  · intro a b ha hb
    have ha' : a < m := by omega
    have hb' : b < m := by omega
    have h1 := orthonormal_iff_ite.mp e.orthonormal ⟨a, ha'⟩ ⟨b, hb'⟩
    rw [hinner] at h1
    unfold dot
    rw [Finset.sum_range]
    simp only [Fin.mk.injEq] at h1
    rw [← h1]
    refine Finset.sum_congr rfl fun i _ => ?_
    simp only
    rw [hQg i a i.2 ha, hQg i b i.2 hb, ← hextv ⟨a, ha'⟩ i, ← hextv ⟨b, hb'⟩ i]
  · refine ⟨fun k j => if hk : k < m then inner ℝ (e ⟨k, hk⟩)
      (WithLp.toLp 2 fun i : Fin m => X.get [(i : ℕ), j] : EuclideanSpace ℝ (Fin m)) else 0, ?_⟩
    intro i j hi hj
    set c : EuclideanSpace ℝ (Fin m) := WithLp.toLp 2 fun i : Fin m => X.get [(i : ℕ), j] with hc
    have h1 := e.sum_repr' c
    have h2 : X.get [i, j] = ∑ k : Fin m, inner ℝ (e k) c * e k ⟨i, hi⟩ := by
      have h3 := congrArg (fun v : EuclideanSpace ℝ (Fin m) => v ⟨i, hi⟩) h1
      simp only at h3
      have h4 : c ⟨i, hi⟩ = X.get [i, j] := rfl
      rw [← h4, ← h3]
      simp
    rw [h2]
    have h5 : ∀ k : Fin m, inner ℝ (e k) c * e k ⟨i, hi⟩ =
        (fun k : ℕ => if k < min m n then ext k i * (if hk : k < m then inner ℝ (e ⟨k, hk⟩) c else 0) else 0) (k : ℕ) := by
      intro k
      simp only
      by_cases hk : (k : ℕ) < min m n
      · rw [if_pos hk, dif_pos k.2, mul_comm, hextv k ⟨i, hi⟩]
      · rw [if_neg hk]
        have hjk : (⟨j, by have := k.2; omega⟩ : Fin m) < k := by
          show j < (k : ℕ); have := k.2; omega
        have h6 := gramSchmidtOrthonormalBasis_inv_triangular hcard f hjk
        have h7 : f ⟨j, by have := k.2; omega⟩ = c := by
          simp only [hf]; rw [if_pos hj]
        rw [h7] at h6
        rw [h6, zero_mul]
    rw [Finset.sum_congr rfl fun k _ => h5 k, ← Finset.sum_range
      (fun k : ℕ => if k < min m n then ext k i * (if hk : k < m then inner ℝ (e ⟨k, hk⟩) c else 0) else 0),
      Finset.sum_ite, Finset.sum_const_zero, add_zero]
    have h8 : (Finset.range m).filter (fun k => k < min m n) = Finset.range (min m n) := by
      ext k; simp only [Finset.mem_filter, Finset.mem_range]; omega
    rw [h8]
    refine Finset.sum_congr rfl fun k hk => ?_
    rw [hQg i k hi (Finset.mem_range.mp hk)]

/-- There are exact numerical routines. -/
theorem exists_exactLinAlg : ∃ la : LinAlg ℝ, ExactLinAlg la := by
  classical
  choose q hq using exists_qr
  refine ⟨⟨Real.sqrt, fun X => q X (X.shape.getD 0 0) (X.shape.getD 1 0)⟩, rfl, ?_⟩
  intro X m n hs
  have := hq X m n
  simp only [hs, List.getD_cons_zero, List.getD_cons_succ]
  exact this

/-! ### Filters of length four -/

theorem four_lin {a b c d x y z t : ℝ} (hbc : b * b + c * c ≠ 0) (r0 : x * c + z * b = 0)
    (r1 : x * b + y * d - z * c - t * a = 0) (r2 : x * a + y * c + z * d + t * b = 0)
    (r3 : y * b - t * c = 0) : x = 0 ∧ y = 0 ∧ z = 0 ∧ t = 0 := by
  set D := b * b + c * c with hD
  set u := x * b - z * c with hu
  set v := y * c + t * b with hv
  have x1 : x * D = b * u := by rw [hD, hu]; linear_combination c * r0
  have z1 : z * D = -(c * u) := by rw [hD, hu]; linear_combination b * r0
  have y1 : y * D = c * v := by rw [hD, hv]; linear_combination b * r3
  have t1 : t * D = b * v := by rw [hD, hv]; linear_combination -c * r3
  have k1 : D * u = (a * b - c * d) * v := by
    have : u + y * d - t * a = 0 := by rw [hu]; linear_combination r1
    linear_combination D * this - d * y1 + a * t1
  have k2 : D * v = -((a * b - c * d) * u) := by
    have : v + x * a + z * d = 0 := by rw [hv]; linear_combination r2
    linear_combination D * this - a * x1 - d * z1
  have k3 : (D * D + (a * b - c * d) * (a * b - c * d)) * u = 0 := by
    linear_combination D * k1 + (a * b - c * d) * k2
  have hpos : 0 < D * D := mul_self_pos.mpr hbc
  have hu0 : u = 0 := by
    rcases mul_eq_zero.mp k3 with h | h
    · have := mul_self_nonneg (a * b - c * d); linarith
    · exact h
  have hv0 : v = 0 := by
    rw [hu0, mul_zero, neg_zero] at k2
    exact (mul_eq_zero.mp k2).resolve_left hbc
  rw [hu0, mul_zero] at x1
  rw [hu0, mul_zero, neg_zero] at z1
  rw [hv0, mul_zero] at y1 t1
  exact ⟨(mul_eq_zero.mp x1).resolve_right hbc, (mul_eq_zero.mp y1).resolve_right hbc,
    (mul_eq_zero.mp z1).resolve_right hbc, (mul_eq_zero.mp t1).resolve_right hbc⟩

/-- The rows cut off by the boundary are independent for every filter of length four whose middle taps
do not both vanish (db2 and sym2 for example). -/
theorem boundaryIndep_four {w : Wavelet ℝ} {a b c d s : ℝ} (h1 : w.decLo = [a, b, c, d])
    (h2 : w.decHi = [s * d, -(s * c), s * b, -(s * a)]) (hs : s ≠ 0) (hbc : b * b + c * c ≠ 0)
    {n : Nat} (hn : n % 2 = 0) (hn4 : 4 ≤ n) : BoundaryIndep w 4 n := by
  unfold BoundaryIndep
  set v : ℕ → Fin n → ℝ := fun r j => filterRow w 4 n r j with hv
  set p : Fin 4 → ℕ := fun k => [0, n / 2 - 1, n / 2, n - 1].getD k 0 with hp
  have hset : {r | r < n ∧ Truncated 4 n r} = Set.range p := by
    ext r
    simp only [Set.mem_ofPred_eq, Set.mem_range]
    unfold Truncated rowShift
    constructor
    · rintro ⟨h1, h2⟩
      split_ifs at h2 with h3
      · rcases h2 with h2 | h2
        · exact ⟨0, by simp [hp]; omega⟩
        · exact ⟨1, by simp [hp]; omega⟩
      · rcases h2 with h2 | h2
        · exact ⟨2, by simp [hp]; omega⟩
        · exact ⟨3, by simp [hp]; omega⟩
    · rintro ⟨k, rfl⟩
      have : p k = 0 ∨ p k = n / 2 - 1 ∨ p k = n / 2 ∨ p k = n - 1 := by
        fin_cases k <;> simp [hp]
      rcases this with h | h | h | h <;> rw [h] <;> split_ifs <;> omega
  have hinj : Function.Injective p := by
    intro x y
    fin_cases x <;> fin_cases y <;> simp [hp] <;> omega
  rw [hset, linearIndepOn_range_iff hinj, Fintype.linearIndependent_iff]
  intro g hg
  rw [Fin.sum_univ_four] at hg
  have hpe : p 0 = 0 ∧ p 1 = n / 2 - 1 ∧ p 2 = n / 2 ∧ p 3 = n - 1 := ⟨rfl, rfl, rfl, rfl⟩
  have ev : ∀ j (hj : j < n),
      g 0 * tap w.decLo (2 - j) + g 1 * tap w.decLo (n - j) + g 2 * tap w.decHi (2 - j) + g 3 * tap w.decHi (n - j) = 0 := by
    intro j hj
    have := congrFun hg ⟨j, hj⟩
    simp only [Function.comp_apply, hpe.1, hpe.2.1, hpe.2.2.1, hpe.2.2.2, Pi.add_apply, Pi.smul_apply,
      smul_eq_mul, hv, Pi.zero_apply] at this
    rw [← this]
    unfold filterRow
    rw [if_pos (by omega), if_pos (by omega), if_neg (by omega), if_neg (by omega)]
    congr 1
    · congr 1
      · congr 1
        · congr 2; omega
      · congr 2; omega
    · congr 2; omega
  have t0 : ∀ (f : List ℝ), f.length = 4 → ∀ i : ℤ, (i < 0 ∨ 4 ≤ i) → tap f i = 0 := by
    intro f hf i hi
    rcases hi with h | h
    · exact tap_neg' f h
    · exact tap_large f (by rw [hf]; exact_mod_cast h)
  have l1 : w.decLo.length = 4 := by rw [h1]; rfl
  have l2 : w.decHi.length = 4 := by rw [h2]; rfl
  have tl : ∀ k : ℕ, tap w.decLo (k : ℤ) = [a, b, c, d].getD k 0 := by
    intro k; rw [tap_nat, h1]
  have th : ∀ k : ℕ, tap w.decHi (k : ℤ) = [s * d, -(s * c), s * b, -(s * a)].getD k 0 := by
    intro k; rw [tap_nat, h2]
  have L0 := tl 0
  have L1 := tl 1
  have L2 := tl 2
  have L3 := tl 3
  have H0 := th 0
  have H1 := th 1
  have H2 := th 2
  have H3 := th 3
  simp only [Nat.cast_zero, Nat.cast_one, Nat.cast_ofNat, List.getD_cons_zero, List.getD_cons_succ] at L0 L1 L2 L3 H0 H1 H2 H3
  have hbc' : (b * b + c * c) ≠ 0 := hbc
  by_cases hn6 : n = 4
  · subst hn6
    have q0 := ev 0 (by norm_num)
    have q1 := ev 1 (by norm_num)
    have q2 := ev 2 (by norm_num)
    have q3 := ev 3 (by norm_num)
    norm_num at q0 q1 q2 q3
    rw [L2, H2, t0 _ l1 4 (Or.inr le_rfl), t0 _ l2 4 (Or.inr le_rfl)] at q0
    rw [L1, H1, L3, H3] at q1
    rw [L0, H0, L2, H2] at q2
    rw [t0 _ l1 (-1) (Or.inl (by norm_num)), t0 _ l2 (-1) (Or.inl (by norm_num)), L1, H1] at q3
    -- q0 : g0 c + g2 s b = 0 ; q3 : g1 b - g3 s c = 0
    set x := g 0
    set y := g 1
    set z := s * g 2 with hz
    set t := s * g 3 with ht
    have r0 : x * c + z * b = 0 := by rw [hz]; linear_combination q0
    have r1 : x * b + y * d - z * c - t * a = 0 := by rw [hz, ht]; linear_combination q1
    have r2 : x * a + y * c + z * d + t * b = 0 := by rw [hz, ht]; linear_combination q2
    have r3 : y * b - t * c = 0 := by rw [ht]; linear_combination q3
    obtain ⟨hx, hy, hz0, ht0⟩ := four_lin hbc r0 r1 r2 r3
    have h2' : g 2 = 0 := (mul_eq_zero.mp hz0).resolve_left hs
    have h3' : g 3 = 0 := (mul_eq_zero.mp ht0).resolve_left hs
    intro i
    fin_cases i
    · exact hx
    · exact hy
    · exact h2'
    · exact h3'
  · have q0 := ev 0 (by omega)
    have q1 := ev 1 (by omega)
    have q2 := ev (n - 2) (by omega)
    have q3 := ev (n - 1) (by omega)
    have i0 : ((2 : ℤ) - (0 : ℕ)) = 2 := by norm_num
    have i1 : ((2 : ℤ) - (1 : ℕ)) = 1 := by norm_num
    have i2 : ((n : ℤ) - (n - 2 : ℕ)) = 2 := by omega
    have i3 : ((n : ℤ) - (n - 1 : ℕ)) = 1 := by omega
    rw [i0, L2, H2, t0 _ l1 ((n : ℤ) - (0 : ℕ)) (Or.inr (by omega)), t0 _ l2 ((n : ℤ) - (0 : ℕ)) (Or.inr (by omega))] at q0
    rw [i1, L1, H1, t0 _ l1 ((n : ℤ) - (1 : ℕ)) (Or.inr (by omega)), t0 _ l2 ((n : ℤ) - (1 : ℕ)) (Or.inr (by omega))] at q1
    rw [i2, L2, H2, t0 _ l1 ((2 : ℤ) - (n - 2 : ℕ)) (Or.inl (by omega)), t0 _ l2 ((2 : ℤ) - (n - 2 : ℕ)) (Or.inl (by omega))] at q2
    rw [i3, L1, H1, t0 _ l1 ((2 : ℤ) - (n - 1 : ℕ)) (Or.inl (by omega)), t0 _ l2 ((2 : ℤ) - (n - 1 : ℕ)) (Or.inl (by omega))] at q3
    have key : ∀ x z : ℝ, x * c + z * (s * b) = 0 → x * b + z * (-(s * c)) = 0 → x = 0 ∧ z = 0 := by
      intro x z e1 e2
      have f1 : x * (b * b + c * c) = 0 := by linear_combination c * e1 + b * e2
      have f2 : (s * z) * (b * b + c * c) = 0 := by linear_combination b * e1 - c * e2
      exact ⟨(mul_eq_zero.mp f1).resolve_right hbc,
        (mul_eq_zero.mp ((mul_eq_zero.mp f2).resolve_right hbc)).resolve_left hs⟩
    obtain ⟨h0', h2'⟩ := key (g 0) (g 2) (by linear_combination q0) (by linear_combination q1)
    obtain ⟨h1', h3'⟩ := key (g 1) (g 3) (by linear_combination q2) (by linear_combination q3)
    intro i
    fin_cases i
    · exact h0'
    · exact h1'
    · exact h2'
    · exact h3'

/-- Filters of length two are never cut off. -/
theorem boundaryIndep_two {w : Wavelet ℝ} {n : Nat} (hn : n % 2 = 0) : BoundaryIndep w 2 n := by
  have : {r | r < n ∧ Truncated 2 n r} = ∅ := by
    ext r
    simp only [Set.mem_ofPred_eq, Set.mem_empty_iff_false, iff_false]
    unfold Truncated rowShift
    rintro ⟨h1, h2⟩
    split_ifs at h2 <;> omega
  unfold BoundaryIndep
  rw [this]
  exact linearIndepOn_empty ℝ _

/-- To check an orthogonal bank, finitely many shifts suffice. -/
theorem orthBank_of {R : Type} [CommRing R] {w : Wavelet R} {F : Nat} (len : HasLen w F) (h2 : 2 ≤ F)
    (he : F % 2 = 0)
    (ll : ∀ m : ℤ, -(F : ℤ) < 2 * m → 2 * m < F →
      (∑ k ∈ Finset.range F, tap w.decLo k * tap w.decLo (k + 2 * m)) = if m = 0 then 1 else 0)
    (hh : ∀ m : ℤ, -(F : ℤ) < 2 * m → 2 * m < F →
      (∑ k ∈ Finset.range F, tap w.decHi k * tap w.decHi (k + 2 * m)) = if m = 0 then 1 else 0)
    (lh : ∀ m : ℤ, -(F : ℤ) < 2 * m → 2 * m < F →
      (∑ k ∈ Finset.range F, tap w.decLo k * tap w.decHi (k + 2 * m)) = 0)
    (r1 : w.recLo = w.decLo.reverse) (r2 : w.recHi = w.decHi.reverse) : OrthBank w F := by
  have z : ∀ (f g : List R), g.length = F → ∀ m : ℤ, ¬ (-(F : ℤ) < 2 * m ∧ 2 * m < F) →
      (∑ k ∈ Finset.range F, tap f k * tap g (k + 2 * m)) = 0 := by
    intro f g hg m hm
    refine Finset.sum_eq_zero fun k hk => ?_
    have := Finset.mem_range.mp hk
    by_cases h : (k : ℤ) + 2 * m < 0
    · rw [tap_neg' g h, mul_zero]
    · rw [tap_large g (by rw [hg]; omega), mul_zero]
  refine ⟨len, h2, he, ?_, ?_, ?_, r1, r2⟩
  · intro m
    by_cases hm : -(F : ℤ) < 2 * m ∧ 2 * m < F
    · exact ll m hm.1 hm.2
    · rw [z _ _ len.1 m hm, if_neg (by omega)]
  · intro m
    by_cases hm : -(F : ℤ) < 2 * m ∧ 2 * m < F
    · exact hh m hm.1 hm.2
    · rw [z _ _ len.2.1 m hm, if_neg (by omega)]
  · intro m
    by_cases hm : -(F : ℤ) < 2 * m ∧ 2 * m < F
    · exact lh m hm.1 hm.2
    · exact z _ _ len.2.1 m hm

/-- An orthogonal bank with four rational taps. -/
noncomputable def bank4 : Wavelet ℝ where
  decLo := [12 / 25, 16 / 25, 12 / 25, -(9 / 25)]
  decHi := [-(9 / 25), -(12 / 25), 16 / 25, -(12 / 25)]
  recLo := [-(9 / 25), 12 / 25, 16 / 25, 12 / 25]
  recHi := [-(12 / 25), 16 / 25, -(12 / 25), -(9 / 25)]

theorem bank4_orth : OrthBank bank4 4 := by
  have key : ∀ m : ℤ, -((4 : ℕ) : ℤ) < 2 * m → 2 * m < ((4 : ℕ) : ℤ) → m = -1 ∨ m = 0 ∨ m = 1 := by
    intro m h1 h2; push_cast at h1 h2; omega
  refine orthBank_of ⟨rfl, rfl, rfl, rfl⟩ (by norm_num) rfl ?_ ?_ ?_ rfl rfl <;>
  · intro m h1 h2
    rcases key m h1 h2 with rfl | rfl | rfl <;>
      simp [Finset.sum_range_succ, tap, bank4] <;> norm_num

theorem bank4_indep {n : Nat} (hn : n % 2 = 0) (hn4 : 4 ≤ n) : BoundaryIndep bank4 4 n :=
  boundaryIndep_four (a := 12 / 25) (b := 16 / 25) (c := 12 / 25) (d := -(9 / 25)) (s := 1) rfl
    (by simp [bank4]) one_ne_zero (by norm_num) hn hn4

end Verif
