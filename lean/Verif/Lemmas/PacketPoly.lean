import Verif.Lemmas.LocalPolyN
import Verif.Spec.PacketPoly
import Mathlib.Algebra.Polynomial.Taylor

/-! A filter with `p` vanishing moments takes `p` coefficients from a polynomial. -/

namespace Verif.Spec
open Finset Polynomial
variable {R : Type} [CommRing R]

theorem lt_comb {N n : Nat} (c : Nat → R) (f : Nat → Nat → R) (A : Nat → Prop)
    (h : ∀ t, t < n → ∃ Q : R[X], Q.degree < (N : WithBot Nat) ∧ ∀ j : Nat, A j → f t j = Q.eval (j : R)) :
    ∃ Q : R[X], Q.degree < (N : WithBot Nat) ∧ ∀ j : Nat, A j → ∑ t ∈ range n, c t * f t j = Q.eval (j : R) := by
  induction n with
  | zero => exact ⟨0, by simp, fun j _ => by simp⟩
  | succ n ih =>
    obtain ⟨Q, hQ, h1⟩ := ih fun t ht => h t (by omega)
    obtain ⟨Q', hQ', h2⟩ := h n (by omega)
    refine ⟨Q + C (c n) * Q', ?_, fun j hj => ?_⟩
    · rw [degree_lt_iff_coeff_zero] at *
      intro m hm
      rw [coeff_add, coeff_C_mul, hQ m hm, hQ' m hm, mul_zero, add_zero]
    · rw [sum_range_succ, h1 j hj, h2 j hj]
      simp

theorem dwtN_paramLt {m : Mode} {F s N : Nat} (hF : 2 ≤ F) (A : Nat → Prop) :
    ∀ (ws : List Window) (fs : List (List R)) (ns : List Nat) (Y : Nat → List Nat → R) (ks : List Nat),
      fs.length = ws.length → (∀ f ∈ fs, f.length = F) → EndsInside ws ns →
      (∀ js, InsideN F s ws js → ∃ Q : R[X], Q.degree < (N : WithBot Nat) ∧ ∀ j : Nat, A j → Y j js = Q.eval (j : R)) →
      InsideN F (s + 1) ws ks →
      ∃ Q : R[X], Q.degree < (N : WithBot Nat) ∧ ∀ j : Nat, A j → dwtN m (fs.zip (levelLens F ns s)) (Y j) ks = Q.eval (j : R)
  | [], [], [], Y, [], _, _, _, hY, _ => by
    obtain ⟨Q, hQ, h⟩ := hY [] trivial
    exact ⟨Q, hQ, fun j hj => by simpa [dwtN] using h j hj⟩
  | w :: ws, f :: fs, n :: ns, Y, k :: ks, hl, hf, hg, hY, hk => by
    have hfl : f.length = F := hf f (by simp)
    obtain ⟨Q, hQ, h⟩ := lt_comb (N := N) (n := f.length) (fun t => f.getD t 0)
      (fun t j => dwtN m (fs.zip (levelLens F ns s)) (fun js => Y j ((2 * k + 1 - t) :: js)) ks) A (fun t ht =>
        dwtN_paramLt hF A ws fs ns (fun j js => Y j ((2 * k + 1 - t) :: js)) ks (by simpa using hl)
          (fun g hg => hf g (by simp [hg])) hg.2
          (fun js hjs => hY (_ :: js) ⟨(hk.1.step (by rw [← hfl]; exact ht)).2, hjs⟩) hk.2)
    refine ⟨Q, hQ, fun j hj => ?_⟩
    rw [← h j hj]
    exact dwtStep_taps hfl hF hg.1 hk.1
  | [], [], [], _, _ :: _, _, _, _, _, h => h.elim
  | [], [], _ :: _, _, _, _, _, h, _, _ => h.elim
  | [], _ :: _, _, _, _, h, _, _, _, _ => by simp at h
  | _ :: _, [], _, _, _, h, _, _, _, _ => by simp at h
  | _ :: _, _ :: _, [], _, _, _, _, h, _, _ => h.elim
  | _ :: _, _ :: _, _ :: _, _, [], _, _, _, _, h => h.elim

/-- A polynomial around `r`. -/
theorem eval_add_expand (P : R[X]) (r s : R) (N : Nat) (hP : P.degree < (N : WithBot Nat)) :
    P.eval (s + r) = ∑ m ∈ range N, (hasseDeriv m P).eval r * s ^ m := by
  rcases Nat.eq_zero_or_pos N with h | h
  · subst h
    have : P = 0 := by simpa using hP
    simp [this]
  · rw [← taylor_eval, eval_eq_sum_range' (n := N)]
    · simp only [taylor_coeff]
    · rw [natDegree_taylor]
      have h0 : P.natDegree ≤ N - 1 := by
        rw [natDegree_le_iff_coeff_eq_zero]
        intro k hk
        exact (degree_lt_iff_coeff_zero _ _).mp hP k (by omega)
      omega

theorem hasse_comp_degree {P : R[X]} {N m : Nat} (hP : P.degree < (N : WithBot Nat)) (hm : m < N) :
    ((hasseDeriv m P).comp (C 2 * X + C 1)).degree < ((N - m : Nat) : WithBot Nat) := by
  have h0 : P.natDegree ≤ N - 1 := by
    rw [natDegree_le_iff_coeff_eq_zero]
    intro k hk
    exact (degree_lt_iff_coeff_zero _ _).mp hP k (by omega)
  have h1 : (C (2 : R) * X + C 1).natDegree ≤ 1 := natDegree_linear_le
  have h2 : ((hasseDeriv m P).comp (C 2 * X + C 1)).natDegree ≤ N - 1 - m := by
    refine le_trans natDegree_comp_le ?_
    calc (hasseDeriv m P).natDegree * _ ≤ (hasseDeriv m P).natDegree * 1 := Nat.mul_le_mul_left _ h1
      _ ≤ P.natDegree - m := by simpa using natDegree_hasseDeriv_le P m
      _ ≤ N - 1 - m := by omega
  refine lt_of_le_of_lt degree_le_natDegree ?_
  rw [Nat.cast_withBot, Nat.cast_withBot, WithBot.coe_lt_coe]
  omega

/-- One step of a polynomial along the axis of the filter. -/
theorem step_lt {m : Mode} {h : List R} {F n s lo hi N p : Nat} (hl : h.length = F) (hF : 2 ≤ F) (hn : hi ≤ n)
    {x : Nat → R} {P : R[X]} (hP : P.degree < (N : WithBot Nat)) (hx : ∀ k, Inside F s lo hi k → x k = P.eval (k : R))
    (hp : VanishingMoments p h) :
    ∃ Q : R[X], Q.degree < ((N - p : Nat) : WithBot Nat) ∧
      ∀ k, Inside F (s + 1) lo hi k → dwtStep m h (levelLen F n s) x k = Q.eval (k : R) := by
  refine ⟨∑ i ∈ range N, C (∑ j ∈ range h.length, h.getD j 0 * (-(j : R)) ^ i) * (hasseDeriv i P).comp (C 2 * X + C 1), ?_, ?_⟩
  · rw [degree_lt_iff_coeff_zero]
    intro k hk
    rw [finsetSum_coeff]
    refine sum_eq_zero fun i hi => ?_
    rw [mem_range] at hi
    rw [coeff_C_mul]
    by_cases hip : i < p
    · have : ∑ j ∈ range h.length, h.getD j 0 * (-(j : R)) ^ i = (-1) ^ i * ∑ j ∈ range h.length, h.getD j 0 * (j : R) ^ i := by
        rw [mul_sum]
        refine sum_congr rfl fun j _ => ?_
        rw [neg_pow]
        ring
      rw [this, hp i hip, mul_zero, zero_mul]
    · rw [(degree_lt_iff_coeff_zero _ _).mp (hasse_comp_degree hP hi) k (by omega), mul_zero]
  · intro k hk
    rw [dwtStep_inside hl hF hn hx hk, eval_finsetSum]
    have e : ∀ j : Nat, P.eval (2 * (k : R) + 1 - j) = ∑ i ∈ range N, (hasseDeriv i P).eval (2 * (k : R) + 1) * (-(j : R)) ^ i := by
      intro j
      rw [← eval_add_expand P _ _ N hP]
      congr 1
      ring
    simp only [e, mul_sum]
    rw [sum_comm]
    refine sum_congr rfl fun i _ => ?_
    simp only [eval_mul, eval_C, eval_comp, eval_add, eval_X, eval_one, map_one, sum_mul]
    refine sum_congr rfl fun j _ => ?_
    ring

theorem VanishingMoments.zero (h : List R) : VanishingMoments 0 h := fun m hm => absurd hm (by omega)

/-- One step along all axes. -/
theorem dwtN_axisLt {m : Mode} {F s N p : Nat} (hF : 2 ≤ F) :
    ∀ (i : Nat) (ws : List Window) (fs : List (List R)) (ns : List Nat) (X : List Nat → R),
      fs.length = ws.length → (∀ f ∈ fs, f.length = F) → EndsInside ws ns → AxisPolyLt F s ws i N X →
      (∀ h, fs[i]? = some h → VanishingMoments p h) → i < ws.length →
      AxisPolyLt F (s + 1) ws i (N - p) (dwtN m (fs.zip (levelLens F ns s)) X)
  | 0, w :: ws, f :: fs, n :: ns, X, hl, hf, hg, hX, hp, _ => by
    have hfl : f.length = F := hf f (by simp)
    rintro (_ | ⟨k, ks⟩) hk
    · exact hk.elim
    · obtain ⟨P, hP, h⟩ : ∃ Q : R[X], Q.degree < (N : WithBot Nat) ∧ ∀ j : Nat, Inside F s w.lo w.hi j →
          dwtN m (fs.zip (levelLens F ns s)) (fun js => X (j :: js)) ks = Q.eval (j : R) := by
        refine dwtN_paramLt hF (fun j => Inside F s w.lo w.hi j) ws fs ns (fun j js => X (j :: js)) ks (by simpa using hl)
          (fun g hg => hf g (by simp [hg])) hg.2 (fun js hjs => ?_) hk.2
        by_cases hex : ∃ j0, Inside F s w.lo w.hi j0
        · obtain ⟨j0, hj0⟩ := hex
          obtain ⟨Q, hQ, h⟩ := hX (j0 :: js) ⟨hj0, hjs⟩
          exact ⟨Q, hQ, fun j hj => h j ⟨hj, hjs⟩⟩
        · exact ⟨0, by simp, fun j hj => absurd ⟨j, hj⟩ hex⟩
      obtain ⟨Q, hQ, h'⟩ := step_lt (m := m) hfl hF hg.1 hP h (hp f rfl)
      exact ⟨Q, hQ, fun t ht => h' t ht.1⟩
  | i + 1, w :: ws, f :: fs, n :: ns, X, hl, hf, hg, hX, hp, hi => by
    have hfl : f.length = F := hf f (by simp)
    have ih : ∀ j, Inside F s w.lo w.hi j → _ := fun j hj =>
      dwtN_axisLt (m := m) hF i ws fs ns (fun js => X (j :: js)) (by simpa using hl)
        (fun g hg => hf g (by simp [hg])) hg.2 (fun js hjs => by
          obtain ⟨Q, hQ, h⟩ := hX (j :: js) ⟨hj, hjs⟩
          exact ⟨Q, hQ, fun t ht => h t ⟨hj, ht⟩⟩) (fun h hh => hp h (by simpa using hh)) (by simpa using hi)
    rintro (_ | ⟨k, ks⟩) hk
    · exact hk.elim
    · obtain ⟨Q, hQ, h⟩ := lt_comb (N := N - p) (n := f.length) (fun t => f.getD t 0)
        (fun t j => dwtN m (fs.zip (levelLens F ns s)) (fun js => X ((2 * k + 1 - t) :: js)) (ks.set i j))
        (fun j => InsideN F (s + 1) ws (ks.set i j)) (fun t ht =>
          (ih _ (hk.1.step (by rw [← hfl]; exact ht)).2) ks hk.2)
      refine ⟨Q, hQ, fun t ht => ?_⟩
      rw [← h t ht.2]
      exact dwtStep_taps hfl hF hg.1 hk.1
  | _, [], _, _, _, _, _, _, _, _, h => by simp at h
  | _, _ :: _, [], _, _, h, _, _, _, _, _ => by simp at h
  | _, _ :: _, _ :: _, [], _, _, _, h, _, _, _ => h.elim

end Verif.Spec
