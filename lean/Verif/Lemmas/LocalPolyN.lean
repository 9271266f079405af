import Verif.Lemmas.LocalPoly
import Verif.Spec.LocalPoly

/-! Vanishing moments along one axis of several. -/

namespace Verif.Spec
open Finset Polynomial
variable {R : Type} [CommRing R]

theorem dwtStep_taps {m : Mode} {h : List R} {F n s lo hi k : Nat} (hl : h.length = F) (hF : 2 ≤ F) (hn : hi ≤ n)
    {x : Nat → R} (hk : Inside F (s + 1) lo hi k) :
    dwtStep m h (levelLen F n s) x k = ∑ t ∈ range h.length, h.getD t 0 * x (2 * k + 1 - t) := by
  unfold dwtStep analysis
  refine sum_congr rfl fun t ht => ?_
  obtain ⟨h1, h2⟩ := hk.step (t := t) (by rw [← hl]; exact mem_range.mp ht)
  have e1 : (2 * (k : ℤ) + 1 - t) = ((2 * k + 1 - t : ℕ) : ℤ) := by omega
  rw [e1, ext_inside m _ (by simpa using h2.lt hF (c := 0) (by simpa using hn))]

/-- A combination of polynomials. -/
theorem poly_comb {d n : Nat} (c : Nat → R) (f : Nat → Nat → R) (A : Nat → Prop)
    (h : ∀ t, t < n → ∃ Q : R[X], Q.natDegree ≤ d ∧ ∀ j : Nat, A j → f t j = Q.eval (j : R)) :
    ∃ Q : R[X], Q.natDegree ≤ d ∧ ∀ j : Nat, A j → ∑ t ∈ range n, c t * f t j = Q.eval (j : R) := by
  induction n with
  | zero => exact ⟨0, by simp, fun j _ => by simp⟩
  | succ n ih =>
    obtain ⟨Q, hQ, h1⟩ := ih fun t ht => h t (by omega)
    obtain ⟨Q', hQ', h2⟩ := h n (by omega)
    refine ⟨Q + C (c n) * Q', ?_, fun j hj => ?_⟩
    · exact natDegree_add_le_of_degree_le hQ (le_trans (natDegree_C_mul_le _ _) hQ')
    · rw [sum_range_succ, h1 j hj, h2 j hj]
      simp

/-- A parameter on which the samples depend polynomially. -/
theorem dwtN_param {m : Mode} {F s d : Nat} (hF : 2 ≤ F) (A : Nat → Prop) :
    ∀ (ws : List Window) (fs : List (List R)) (ns : List Nat) (Y : Nat → List Nat → R) (ks : List Nat),
      fs.length = ws.length → (∀ f ∈ fs, f.length = F) → EndsInside ws ns →
      (∀ js, InsideN F s ws js → ∃ Q : R[X], Q.natDegree ≤ d ∧ ∀ j : Nat, A j → Y j js = Q.eval (j : R)) →
      InsideN F (s + 1) ws ks →
      ∃ Q : R[X], Q.natDegree ≤ d ∧ ∀ j : Nat, A j → dwtN m (fs.zip (levelLens F ns s)) (Y j) ks = Q.eval (j : R)
  | [], [], [], Y, [], _, _, _, hY, _ => by
    obtain ⟨Q, hQ, h⟩ := hY [] trivial
    exact ⟨Q, hQ, fun j hj => by simpa [dwtN] using h j hj⟩
  | w :: ws, f :: fs, n :: ns, Y, k :: ks, hl, hf, hg, hY, hk => by
    have hfl : f.length = F := hf f (by simp)
    obtain ⟨Q, hQ, h⟩ := poly_comb (d := d) (n := f.length) (fun t => f.getD t 0)
      (fun t j => dwtN m (fs.zip (levelLens F ns s)) (fun js => Y j ((2 * k + 1 - t) :: js)) ks) A (fun t ht =>
        dwtN_param hF A ws fs ns (fun j js => Y j ((2 * k + 1 - t) :: js)) ks (by simpa using hl)
          (fun g hg => hf g (by simp [hg])) hg.2
          (fun js hjs => hY (_ :: js) ⟨(hk.1.step (by rw [← hfl]; exact ht)).2, hjs⟩) hk.2)
    refine ⟨Q, hQ, fun j hj => ?_⟩
    rw [← h j hj]
    exact dwtStep_taps hfl hF hg.1 hk.1
  | [], [], [], _, _ :: _, _, _, _, _, h => h.elim
  | [], [], _ :: _, _, _, _, _, h, _, _ => h.elim
  | [], _ :: _, _, _, _, h, _, _, _, _ => by simp at h
  | _ :: _, [], _, _, _, h, _, _, _, _ => by simp at h
  | _ :: _, _ :: _, [], _, _, _, _, h, _, _ => h.elim
  | _ :: _, _ :: _, _ :: _, _, [], _, _, _, _, h => h.elim

/-- One step of a polynomial along the axis of the filter. -/
theorem step_poly {m : Mode} {h : List R} {F n s lo hi d : Nat} (hl : h.length = F) (hF : 2 ≤ F) (hn : hi ≤ n)
    {x : Nat → R} {P : R[X]} (hP : P.natDegree ≤ d) (hx : ∀ k, Inside F s lo hi k → x k = P.eval (k : R)) :
    (∃ Q : R[X], Q.natDegree ≤ d ∧ ∀ k, Inside F (s + 1) lo hi k → dwtStep m h (levelLen F n s) x k = Q.eval (k : R)) ∧
    ∀ p, VanishingMoments p h → d < p → ∀ k, Inside F (s + 1) lo hi k → dwtStep m h (levelLen F n s) x k = 0 := by
  refine ⟨⟨∑ j ∈ range h.length, C (h.getD j 0) * P.comp (C 2 * X + C (1 - (j : R))), ?_, ?_⟩, ?_⟩
  · refine natDegree_sum_le_of_forall_le _ _ fun j _ => ?_
    refine le_trans (natDegree_C_mul_le _ _) ?_
    refine le_trans natDegree_comp_le ?_
    have : (C 2 * X + C (1 - (j : R))).natDegree ≤ 1 := natDegree_linear_le
    calc P.natDegree * _ ≤ P.natDegree * 1 := Nat.mul_le_mul_left _ this
      _ ≤ d := by simpa using hP
  · intro k hk
    rw [dwtStep_inside hl hF hn hx hk, eval_finset_sum]
    refine sum_congr rfl fun j _ => ?_
    simp only [eval_mul, eval_C, eval_comp, eval_add, eval_X]
    rw [show 2 * (k : R) + 1 - j = 2 * k + (1 - j) by ring]
  · intro p hp hd k hk
    rw [dwtStep_inside hl hF hn hx hk]
    have := hp.poly (P.comp (C (-1) * X + C (2 * (k : R) + 1))) (by
      refine lt_of_le_of_lt natDegree_comp_le (lt_of_le_of_lt ?_ hd)
      have : (C (-1 : R) * X + C (2 * (k : R) + 1)).natDegree ≤ 1 := natDegree_linear_le
      calc P.natDegree * _ ≤ P.natDegree * 1 := Nat.mul_le_mul_left _ this
        _ ≤ d := by simpa using hP)
    refine Eq.trans (sum_congr rfl fun j _ => ?_) this
    simp only [eval_mul, eval_C, eval_comp, eval_add, eval_X]
    rw [show 2 * (k : R) + 1 - j = -1 * j + (2 * k + 1) by ring]

/-- One step along all axes. -/
theorem dwtN_axisPoly {m : Mode} {F s d : Nat} (hF : 2 ≤ F) :
    ∀ (i : Nat) (ws : List Window) (fs : List (List R)) (ns : List Nat) (X : List Nat → R),
      fs.length = ws.length → (∀ f ∈ fs, f.length = F) → EndsInside ws ns → AxisPoly F s ws i d X →
      AxisPoly F (s + 1) ws i d (dwtN m (fs.zip (levelLens F ns s)) X) ∧
      ∀ h p, fs[i]? = some h → VanishingMoments p h → d < p → ∀ ks, InsideN F (s + 1) ws ks →
        dwtN m (fs.zip (levelLens F ns s)) X ks = 0
  | i, [], [], [], X, _, _, _, hX => by
    refine ⟨?_, fun h p hh => by simp at hh⟩
    rintro (_ | _) hk
    · obtain ⟨Q, hQ, h⟩ := hX [] trivial
      exact ⟨Q, hQ, fun t ht => by simpa [dwtN] using h t trivial⟩
    · exact hk.elim
  | 0, w :: ws, f :: fs, n :: ns, X, hl, hf, hg, hX => by
    have hfl : f.length = F := hf f (by simp)
    have key : ∀ ks, InsideN F (s + 1) ws ks → ∃ Q : R[X], Q.natDegree ≤ d ∧ ∀ j : Nat, Inside F s w.lo w.hi j →
        dwtN m (fs.zip (levelLens F ns s)) (fun js => X (j :: js)) ks = Q.eval (j : R) := by
      intro ks hk
      refine dwtN_param hF (fun j => Inside F s w.lo w.hi j) ws fs ns (fun j js => X (j :: js)) ks (by simpa using hl)
        (fun g hg => hf g (by simp [hg])) hg.2 (fun js hjs => ?_) hk
      by_cases hex : ∃ j0, Inside F s w.lo w.hi j0
      · obtain ⟨j0, hj0⟩ := hex
        obtain ⟨Q, hQ, h⟩ := hX (j0 :: js) ⟨hj0, hjs⟩
        exact ⟨Q, hQ, fun j hj => h j ⟨hj, hjs⟩⟩
      · exact ⟨0, by simp, fun j hj => absurd ⟨j, hj⟩ hex⟩
    refine ⟨?_, ?_⟩
    · rintro (_ | ⟨k, ks⟩) hk
      · exact hk.elim
      · obtain ⟨P, hP, h⟩ := key ks hk.2
        obtain ⟨⟨Q, hQ, h'⟩, -⟩ := step_poly (m := m) hfl hF hg.1 hP h
        exact ⟨Q, hQ, fun t ht => h' t ht.1⟩
    · intro h p hh hp hd ks hk
      simp only [List.getElem?_cons_zero, Option.some.injEq] at hh
      subst hh
      match ks, hk with
      | k :: ks, hk =>
        obtain ⟨P, hP, h⟩ := key ks hk.2
        exact (step_poly (m := m) hfl hF hg.1 hP h).2 p hp hd k hk.1
  | i + 1, w :: ws, f :: fs, n :: ns, X, hl, hf, hg, hX => by
    have hfl : f.length = F := hf f (by simp)
    have ih : ∀ j, Inside F s w.lo w.hi j → _ := fun j hj =>
      dwtN_axisPoly (m := m) hF i ws fs ns (fun js => X (j :: js)) (by simpa using hl)
        (fun g hg => hf g (by simp [hg])) hg.2 (fun js hjs => by
          obtain ⟨Q, hQ, h⟩ := hX (j :: js) ⟨hj, hjs⟩
          exact ⟨Q, hQ, fun t ht => h t ⟨hj, ht⟩⟩)
    refine ⟨?_, ?_⟩
    · rintro (_ | ⟨k, ks⟩) hk
      · exact hk.elim
      · obtain ⟨Q, hQ, h⟩ := poly_comb (d := d) (n := f.length) (fun t => f.getD t 0)
          (fun t j => dwtN m (fs.zip (levelLens F ns s)) (fun js => X ((2 * k + 1 - t) :: js)) (ks.set i j))
          (fun j => InsideN F (s + 1) ws (ks.set i j)) (fun t ht =>
            (ih _ (hk.1.step (by rw [← hfl]; exact ht)).2).1 ks hk.2)
        refine ⟨Q, hQ, fun t ht => ?_⟩
        rw [← h t ht.2]
        exact dwtStep_taps hfl hF hg.1 hk.1
    · intro h p hh hp hd ks hk
      match ks, hk with
      | k :: ks, hk =>
        refine Eq.trans (dwtStep_taps hfl hF hg.1 hk.1) (sum_eq_zero fun t ht => ?_)
        show f.getD t 0 * dwtN m (fs.zip (levelLens F ns s)) (fun js => X ((2 * k + 1 - t) :: js)) ks = 0
        rw [(ih _ (hk.1.step (by rw [← hfl]; exact mem_range.mp ht)).2).2 h p (by simpa using hh) hp hd ks hk.2,
          mul_zero]
  | _, [], [], _ :: _, _, _, _, h, _ => h.elim
  | _, [], _ :: _, _, _, h, _, _, _ => by simp at h
  | _, _ :: _, [], _, _, h, _, _, _ => by simp at h
  | _, _ :: _, _ :: _, [], _, _, _, h, _ => h.elim

theorem ends_length : ∀ {ws : List Window} {ns : List Nat}, EndsInside ws ns → ws.length = ns.length
  | [], [], _ => rfl
  | _ :: _, _ :: _, h => by simp [ends_length h.2]
  | [], _ :: _, h => h.elim
  | _ :: _, [], h => h.elim

theorem bandFilt_len {w : Wavelet R} (hhi : w.decHi.length = w.len) (bs : List Bool) :
    ∀ f ∈ bandFilt w.decLo w.decHi bs, f.length = w.len := by
  intro f hf
  obtain ⟨b, _, rfl⟩ := List.mem_map.mp hf
  cases b
  · rfl
  · exact hhi

theorem cAN_axisPoly {m : Mode} {w : Wavelet R} (hF : 2 ≤ w.len) (hhi : w.decHi.length = w.len) {i d : Nat}
    {ws : List Window} {ns : List Nat} (hg : EndsInside ws ns) {X : List Nat → R} (hX : AxisPoly w.len 0 ws i d X) :
    ∀ s, AxisPoly w.len s ws i d (cAN m w ns X s)
  | 0 => hX
  | s + 1 => (dwtN_axisPoly (m := m) hF i ws (bandFilt w.decLo w.decHi (lowBand ns.length)) ns _
      (by simp [bandFilt, lowBand, ends_length hg]) (bandFilt_len hhi _) hg (cAN_axisPoly hF hhi hg hX s)).1

theorem cDN_axisPoly {m : Mode} {w : Wavelet R} (hF : 2 ≤ w.len) (hhi : w.decHi.length = w.len) {i d p : Nat}
    {ws : List Window} {ns : List Nat} (hg : EndsInside ws ns) {X : List Nat → R} (hX : AxisPoly w.len 0 ws i d X)
    (hp : VanishingMoments p w.decHi) (hd : d < p) {bs : List Bool} (hb : bs.length = ws.length) (hi : bs[i]? = some true)
    {s : Nat} {ks : List Nat} (hk : InsideN w.len (s + 1) ws ks) : cDN m w ns X s bs ks = 0 :=
  (dwtN_axisPoly (m := m) hF i ws (bandFilt w.decLo w.decHi bs) ns _ (by simp [bandFilt, hb]) (bandFilt_len hhi _) hg
    (cAN_axisPoly hF hhi hg hX s)).2 w.decHi p (by simp [bandFilt, hi]) hp hd ks hk

end Verif.Spec
