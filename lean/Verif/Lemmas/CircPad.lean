import Verif.Lemmas.Pad
import Verif.Model.Swt
import Verif.Spec.Swt

/-! `_circular_pad` and the periodic extension. -/

namespace Verif
open Tensor Spec
variable {R : Type}

theorem ext_periodic_congr [Zero R] {n : Nat} {x : Nat → R} {i j : ℤ} (h : (n : ℤ) ∣ i - j) :
    ext .periodic n x i = ext .periodic n x j := by
  have e : i % n = j % n := Int.emod_eq_emod_iff_emod_sub_eq_zero.mpr (Int.emod_eq_zero_of_dvd h)
  unfold ext
  simp only [extIdx, e]

theorem ext_periodic_inj [Zero R] {n : Nat} {x : Nat → R} (hn : 0 < n)
    (hx : ∀ i j, i < n → j < n → x i = x j → i = j) {i j : ℤ}
    (h : ext .periodic n x i = ext .periodic n x j) : (n : ℤ) ∣ i - j := by
  simp only [ext, extIdx] at h
  have h1 := Int.emod_nonneg i (b := (n : ℤ)) (by omega)
  have h2 := Int.emod_lt_of_pos i (b := (n : ℤ)) (by omega)
  have h3 := Int.emod_nonneg j (b := (n : ℤ)) (by omega)
  have h4 := Int.emod_lt_of_pos j (b := (n : ℤ)) (by omega)
  have := hx _ _ (by omega) (by omega) h
  apply Int.dvd_of_emod_eq_zero
  rw [← Int.emod_eq_emod_iff_emod_sub_eq_zero]
  omega

theorem line_set [Zero R] (t : Tensor R) (a j : Nat) (idx : List Nat) :
    line t a (idx.set a j) = line t a idx := by
  funext k; simp only [line, List.set_set]

theorem Spec.Extended.size [Zero R] {m : Mode} {t u : Tensor R} {a l r : Nat} (ha : a < t.rank)
    (h : Extended m t a l r u) : u.shape.getD a 0 = l + t.shape.getD a 0 + r := by
  rw [h.shape]; exact getD_set_self ha

/-- Periodic extension of a periodic extension by whole periods. -/
theorem Spec.Extended.trans_periodic [Zero R] {t u v : Tensor R} {a l r l' r' : Nat}
    (ha : a < t.rank) (hn : 0 < t.shape.getD a 0) (hd : t.shape.getD a 0 ∣ l + r)
    (h1 : Extended .periodic t a l r u) (h2 : Extended .periodic u a l' r' v) :
    Extended .periodic t a (l' + l) (r + r') v := by
  set n := t.shape.getD a 0 with hnn
  have ha' : a < t.shape.length := ha
  have hu0 : u.shape.getD a 0 = l + n + r := h1.size ha
  have hvs : v.shape = t.shape.set a ((l' + l) + n + (r + r')) := by
    rw [h2.shape, hu0, h1.shape, List.set_set]; congr 1; omega
  refine ⟨h2.md.trans h1.md, hvs, ?_⟩
  intro idx hidx
  rw [h2.get idx hidx, hu0]
  rw [hvs] at hidx
  have hil : a < idx.length := by rw [hidx.length_eq, List.length_set]; exact ha'
  set i : ℤ := (idx.getD a 0 : ℤ) - l' with hi
  have hN : (0 : ℤ) < ((l + n + r : ℕ) : ℤ) := by omega
  have e1 := Int.emod_nonneg i (b := ((l + n + r : ℕ) : ℤ)) (by omega)
  have e2 := Int.emod_lt_of_pos i hN
  have e3 := Int.emod_add_mul_ediv i ((l + n + r : ℕ) : ℤ)
  set j := (i % ((l + n + r : ℕ) : ℤ)).toNat with hj
  show u.get (idx.set a j) = _
  have hin : InB u.shape (idx.set a j) := by
    have : u.shape.set a ((l' + l) + n + (r + r')) = t.shape.set a ((l' + l) + n + (r + r')) := by
      rw [h1.shape, List.set_set]
    rw [inB_set_iff (x := (l' + l) + n + (r + r')) _ (by rw [this]; exact hidx)]
    · rw [hu0]; omega
    · rw [h1.shape, List.length_set]; exact ha
  rw [h1.get _ hin, line_set, getD_set_self hil, ← hnn]
  apply ext_periodic_congr
  have hj' : (j : ℤ) = i - ((l + n + r : ℕ) : ℤ) * (i / ((l + n + r : ℕ) : ℤ)) := by omega
  obtain ⟨c, hc⟩ := hd
  have hc' : ((l + n + r : ℕ) : ℤ) = n * (c + 1) := by
    have : l + n + r = n * (c + 1) := by rw [Nat.mul_add, ← hc]; omega
    rw [this]; push_cast; ring
  rw [hj', hc', hi]
  refine ⟨-((c + 1) * (((idx.getD a 0 : ℤ) - l') / (n * (c + 1)))), ?_⟩
  push_cast; ring

theorem pad_circular_ok [NonUnitalNonAssocSemiring R] {t : Tensor R} {l r : Nat}
    (hr : 0 < t.rank) (hl : l ≤ t.shape.getD (t.rank - 1) 0) (hr' : r ≤ t.shape.getD (t.rank - 1) 0) :
    ∃ u, t.pad .circular [l, r] = .ok u ∧ Extended .periodic t (t.rank - 1) l r u := by
  obtain ⟨u, e, h⟩ := padAxis_ok (m := .circular) (t := t) (a := t.rank - 1) (l := l) (r := r)
    (by omega) ⟨hl, hr'⟩
  refine ⟨u, ?_, h⟩
  unfold Tensor.pad padLast
  simp only [bind, Except.bind, e]
  rfl

/-- The pads for which `_circular_pad` is the periodic extension. -/
def PadGood (n l r : Nat) : Prop := SameRounds n l r ∨ n ∣ min l r

theorem padGood_step {n p q : Nat} (hn : 0 < n) (h : PadGood n p q) :
    (p ≤ n ∧ q ≤ n) ∨ ((p = 0 ∨ n ≤ p) ∧ (q = 0 ∨ n ≤ q) ∧ PadGood n (p - n) (q - n)) := by
  by_cases hs : p ≤ n ∧ q ≤ n
  · exact Or.inl hs
  right
  rcases h with ⟨k, h1, h2, h3, h4⟩ | h
  · obtain ⟨k, rfl⟩ : ∃ k', k = k' + 1 := by
      refine ⟨k - 1, ?_⟩
      by_contra hk
      have : k = 0 := by omega
      subst this
      omega
    have e1 : (k + 1) * n = k * n + n := by ring
    have e2 : (k + 1 + 1) * n = k * n + n + n := by ring
    rw [e2] at h2 h4
    rw [e1] at h1 h3
    refine ⟨by omega, by omega, Or.inl ⟨k, by omega, by rw [e1]; omega, by omega, by rw [e1]; omega⟩⟩
  · have hm : ∃ m, min p q = n * m := h
    obtain ⟨m, hm⟩ := hm
    have hm' : m = 0 ∨ n ≤ n * m := by
      rcases Nat.eq_zero_or_pos m with h0 | h0
      · exact Or.inl h0
      · exact Or.inr (Nat.le_mul_of_pos_right n h0)
    rcases hm' with rfl | hm'
    · simp only [Nat.mul_zero] at hm
      refine ⟨by omega, by omega, Or.inr ?_⟩
      rw [show min (p - n) (q - n) = 0 by omega]; exact dvd_zero _
    · refine ⟨by omega, by omega, Or.inr ?_⟩
      rw [show min (p - n) (q - n) = min p q - n by omega]
      exact Nat.dvd_sub h (dvd_refl n)

theorem circularPadLoop_ok [NonUnitalNonAssocSemiring R] {t : Tensor R} (hr : 0 < t.rank)
    (hn : 0 < t.shape.getD (t.rank - 1) 0) :
    ∀ (fuel : Nat) {x : Tensor R} {L Rr p q : Nat}, Extended .periodic t (t.rank - 1) L Rr x →
      (t.shape.getD (t.rank - 1) 0 ∣ L + Rr ∨ p = 0 ∧ q = 0) →
      PadGood (t.shape.getD (t.rank - 1) 0) p q → p + q < fuel →
      ∃ u, circularPadLoop (t.shape.getD (t.rank - 1) 0) fuel x [p, q] = .ok u ∧
        Extended .periodic t (t.rank - 1) (p + L) (Rr + q) u
  | 0, _, _, _, _, _, _, _, _, h => absurd h (by omega)
  | fuel + 1, x, L, Rr, p, q, hx, hd, hg, hf => by
    set n := t.shape.getD (t.rank - 1) 0 with hnn
    by_cases hpq : p = 0 ∧ q = 0
    · obtain ⟨rfl, rfl⟩ := hpq
      refine ⟨x, ?_, by simpa using hx⟩
      unfold circularPadLoop
      rw [if_neg (by simp)]
    · have hd' : n ∣ L + Rr := hd.resolve_right hpq
      have hxr : x.rank = t.rank := hx.rank
      have hxs := hx.size (by omega)
      obtain ⟨y, ey, hy⟩ := pad_circular_ok (t := x) (l := min n p) (r := min n q) (by omega)
        (by rw [hxr, hxs]; omega) (by rw [hxr, hxs]; omega)
      rw [hxr] at hy
      have hty := hx.trans_periodic (by omega) hn hd' hy
      have hnext : (n ∣ (min n p + L) + (Rr + min n q) ∨ p - n = 0 ∧ q - n = 0) ∧
          PadGood n (p - n) (q - n) := by
        rcases padGood_step hn hg with hs | ⟨h1, h2, h3⟩
        · refine ⟨Or.inr (by omega), Or.inr ?_⟩
          rw [show min (p - n) (q - n) = 0 by omega]; exact dvd_zero _
        · refine ⟨Or.inl ?_, h3⟩
          have a1 : n ∣ min n p := by
            rcases h1 with h | h
            · rw [h]; simp
            · rw [min_eq_left h]
          have a2 : n ∣ min n q := by
            rcases h2 with h | h
            · rw [h]; simp
            · rw [min_eq_left h]
          rw [show min n p + L + (Rr + min n q) = (L + Rr) + (min n p + min n q) by omega]
          exact Dvd.dvd.add hd' (a1.add a2)
      obtain ⟨u, eu, hu⟩ := circularPadLoop_ok hr hn fuel hty hnext.1 hnext.2 (by omega)
      refine ⟨u, ?_, ?_⟩
      · unfold circularPadLoop
        rw [if_pos (by simp only [List.any_cons, List.any_nil, Bool.or_false, Bool.or_eq_true,
          decide_eq_true_eq]; omega)]
        simp only [List.map_cons, List.map_nil, bind, Except.bind, ey]
        exact eu
      · have e1 : p - n + (min n p + L) = p + L := by omega
        have e2 : Rr + min n q + (q - n) = Rr + q := by omega
        rw [e1, e2] at hu
        exact hu

theorem circularPad_ok [NonUnitalNonAssocSemiring R] {t : Tensor R} {p q : Nat} (hr : 0 < t.rank)
    (hn : 0 < t.shape.getD (t.rank - 1) 0) (hg : PadGood (t.shape.getD (t.rank - 1) 0) p q) :
    ∃ u, circularPad t [p, q] = .ok u ∧ Extended .periodic t (t.rank - 1) p q u := by
  have e : t.sizeFromEnd 1 = t.shape.getD (t.rank - 1) 0 := rfl
  unfold circularPad
  simp only [e]
  by_cases h : p ≤ t.shape.getD (t.rank - 1) 0 ∧ q ≤ t.shape.getD (t.rank - 1) 0
  · rw [if_neg (by simp only [List.any_cons, List.any_nil, Bool.or_false, Bool.or_eq_true,
      decide_eq_true_eq]; omega)]
    exact pad_circular_ok hr h.1 h.2
  · rw [if_pos (by simp only [List.any_cons, List.any_nil, Bool.or_false, Bool.or_eq_true,
      decide_eq_true_eq]; omega)]
    obtain ⟨u, eu, hu⟩ := circularPadLoop_ok hr hn ([p, q].sum + 1) (Extended.zero .periodic (t := t)
      (a := t.rank - 1) (by omega)) (Or.inl (by simp)) hg (by simp)
    exact ⟨u, eu, by simpa using hu⟩

/-! ### The pads for which it is not -/

/-- The loop keeps what it starts from in the middle. -/
theorem circularPadLoop_mid [NonUnitalNonAssocSemiring R] {n : Nat} (hn : 0 < n) :
    ∀ (fuel : Nat) {x : Tensor R} {p q : Nat}, 0 < x.rank → n ≤ x.shape.getD (x.rank - 1) 0 →
      p + q < fuel →
      ∃ u, circularPadLoop n fuel x [p, q] = .ok u ∧
        u.shape = x.shape.set (x.rank - 1) (p + x.shape.getD (x.rank - 1) 0 + q) ∧
        ∀ idx, InB x.shape idx →
          u.get (idx.set (x.rank - 1) (idx.getD (x.rank - 1) 0 + p)) = x.get idx
  | 0, _, _, _, _, _, h => absurd h (by omega)
  | fuel + 1, x, p, q, hr, hs, hf => by
    set a := x.rank - 1 with ha
    have ha' : a < x.shape.length := by have : x.rank = x.shape.length := rfl; omega
    by_cases hpq : p = 0 ∧ q = 0
    · obtain ⟨rfl, rfl⟩ := hpq
      refine ⟨x, ?_, ?_, ?_⟩
      · unfold circularPadLoop
        rw [if_neg (by simp)]
      · rw [Nat.zero_add, Nat.add_zero, set_getD_self ha']
      · intro idx hidx
        rw [Nat.add_zero, set_getD_self (by rw [hidx.length_eq]; exact ha')]
    · obtain ⟨y, ey, hy⟩ := pad_circular_ok (t := x) (l := min n p) (r := min n q) hr
        (by rw [← ha]; omega) (by rw [← ha]; omega)
      rw [← ha] at hy
      have hyr : y.rank = x.rank := hy.rank
      have hys := hy.size (a := a) (t := x) (by omega)
      obtain ⟨u, eu, hu, hg⟩ := circularPadLoop_mid hn fuel (x := y) (p := p - n) (q := q - n)
        (by omega) (by rw [hyr, ← ha, hys]; omega) (by omega)
      rw [hyr, ← ha] at hu hg
      refine ⟨u, ?_, ?_, ?_⟩
      · unfold circularPadLoop
        rw [if_pos (by simp only [List.any_cons, List.any_nil, Bool.or_false, Bool.or_eq_true,
          decide_eq_true_eq]; omega)]
        simp only [List.map_cons, List.map_nil, bind, Except.bind, ey]
        exact eu
      · rw [hu, hys, hy.shape, List.set_set]; congr 1; omega
      · intro idx hidx
        have hlt := hidx.getD_lt (d := a) ha'
        have hil : a < idx.length := by rw [hidx.length_eq]; exact ha'
        have hin : InB y.shape (idx.set a (idx.getD a 0 + min n p)) := by
          rw [inB_set_iff (x := x.shape.getD a 0)]
          · rw [hys]; omega
          · rw [hy.shape, List.length_set]; exact ha'
          · rw [hy.shape, List.set_set, set_getD_self ha']; exact hidx
        have := hg _ hin
        rw [List.set_set, getD_set_self hil,
          show idx.getD a 0 + min n p + (p - n) = idx.getD a 0 + p by omega, hy.get _ hin, line_set,
          getD_set_self hil, show ((idx.getD a 0 + min n p : ℕ) : ℤ) - (min n p : ℕ)
            = (idx.getD a 0 : ℕ) by omega, ext_inside _ _ hlt, line, set_getD_self hil] at this
        exact this

theorem padGood_zero_left {n q : Nat} : PadGood n 0 q := Or.inr (by simp)
theorem padGood_zero_right {n p : Nat} : PadGood n p 0 := Or.inr (by simp)

theorem padGood_up {n p q : Nat} (hp : n ≤ p) (hq : n ≤ q) (h : PadGood n (p - n) (q - n)) :
    PadGood n p q := by
  rcases h with ⟨k, h1, h2, h3, h4⟩ | h
  · left
    refine ⟨k + 1, ?_, ?_, ?_, ?_⟩
    · rw [Nat.add_mul]; omega
    · rw [Nat.add_mul (k + 1)]; omega
    · rw [Nat.add_mul]; omega
    · rw [Nat.add_mul (k + 1)]; omega
  · right
    rw [show min p q = min (p - n) (q - n) + n by omega]
    exact Dvd.dvd.add h (dvd_refl n)

theorem dvd_left_absurd {n p q L Rr c : Nat} (hp0 : 0 < p) (hpn : p < n) (hq : n < q)
    (hcz : (L : ℤ) + Rr = n * c)
    (h : (n : ℤ) ∣ ((0 : ℕ) : ℤ) - (min n p + L : ℕ)
      - (((min n p + L + n + (Rr + min n q) + (p - n - n) : ℕ) : ℤ) - (p + L : ℕ))) : False := by
  have h2 : (n : ℤ) ∣ p := by
    obtain ⟨e, he⟩ := h
    refine ⟨-e - c - 2, ?_⟩
    have : (n : ℤ) * (-e - c - 2) = - (n * e) - n * c - 2 * n := by ring
    rw [this, ← he, ← hcz]
    push_cast
    omega
  have := Int.le_of_dvd (by omega) h2
  omega

theorem dvd_right_absurd {n p q L Rr c : Nat} (hq0 : 0 < q) (hq : q < n) (hp : n < p)
    (hcz : (L : ℤ) + Rr = n * c)
    (h : (n : ℤ) ∣ ((min n p + L + n + (Rr + min n q) - 1 : ℕ) : ℤ) - (min n p + L : ℕ)
      - (((min n (p - n) - 1 + (p - n - n) : ℕ) : ℤ) - (p + L : ℕ))) : False := by
  have h2 : (n : ℤ) ∣ q := by
    obtain ⟨e, he⟩ := h
    refine ⟨e - c - 2, ?_⟩
    have : (n : ℤ) * (e - c - 2) = (n * e) - n * c - 2 * n := by ring
    rw [this, ← he, ← hcz]
    have : 1 ≤ min n p + L + n + (Rr + min n q) := by omega
    have : 1 ≤ min n (p - n) := by omega
    push_cast
    omega
  have := Int.le_of_dvd (by omega) h2
  omega

set_option maxHeartbeats 1000000 in
theorem circularPadLoop_bad [NonUnitalNonAssocSemiring R] {t : Tensor R} (hr : 0 < t.rank)
    (hn : 0 < t.shape.getD (t.rank - 1) 0) {idx₀ : List Nat} (hi₀ : InB t.shape idx₀)
    (hdist : ∀ i j, i < t.shape.getD (t.rank - 1) 0 → j < t.shape.getD (t.rank - 1) 0 →
      line t (t.rank - 1) idx₀ i = line t (t.rank - 1) idx₀ j → i = j) :
    ∀ (fuel : Nat) {x : Tensor R} {L Rr p q : Nat}, Extended .periodic t (t.rank - 1) L Rr x →
      t.shape.getD (t.rank - 1) 0 ∣ L + Rr →
      ¬ PadGood (t.shape.getD (t.rank - 1) 0) p q → p + q < fuel →
      ∃ u, circularPadLoop (t.shape.getD (t.rank - 1) 0) fuel x [p, q] = .ok u ∧
        ¬ Extended .periodic t (t.rank - 1) (p + L) (Rr + q) u
  | 0, _, _, _, _, _, _, _, _, h => absurd h (by omega)
  | fuel + 1, x, L, Rr, p, q, hx, hd, hg, hf => by
    set a := t.rank - 1 with ha
    set n := t.shape.getD a 0 with hnn
    have hat : a < t.rank := by omega
    have hat' : a < t.shape.length := hat
    have hp0 : 0 < p := by
      by_contra h0; have : p = 0 := by omega
      subst this; exact hg padGood_zero_left
    have hq0 : 0 < q := by
      by_contra h0; have : q = 0 := by omega
      subst this; exact hg padGood_zero_right
    have hnot : ¬ (p ≤ n ∧ q ≤ n) := by
      intro h; exact hg (Or.inl ⟨0, by omega, by omega, by omega, by omega⟩)
    have hxr : x.rank = t.rank := hx.rank
    have hxs := hx.size hat
    obtain ⟨y, ey, hy⟩ := pad_circular_ok (t := x) (l := min n p) (r := min n q) (by omega)
      (by rw [hxr, ← ha, hxs]; omega) (by rw [hxr, ← ha, hxs]; omega)
    rw [hxr, ← ha] at hy
    have hty := hx.trans_periodic hat hn hd hy
    have hyr : y.rank = t.rank := hty.rank
    have hys := hty.size hat
    have hgo : ∀ u, circularPadLoop n fuel y [p - n, q - n] = .ok u →
        circularPadLoop n (fuel + 1) x [p, q] = .ok u := by
      intro u eu
      unfold circularPadLoop
      rw [if_pos (by simp only [List.any_cons, List.any_nil, Bool.or_false, Bool.or_eq_true,
        decide_eq_true_eq]; omega)]
      simp only [List.map_cons, List.map_nil, bind, Except.bind, ey]
      exact eu
    by_cases hboth : n ≤ p ∧ n ≤ q
    · obtain ⟨u, eu, hu⟩ := circularPadLoop_bad hr hn hi₀ hdist fuel hty (by
        rw [min_eq_left hboth.1, min_eq_left hboth.2,
          show n + L + (Rr + n) = (L + Rr) + (n + n) by omega]
        exact Dvd.dvd.add hd (Dvd.dvd.add (dvd_refl n) (dvd_refl n))) (fun h => hg (padGood_up hboth.1 hboth.2 h)) (by omega)
      refine ⟨u, hgo u eu, ?_⟩
      rw [show p - n + (min n p + L) = p + L by omega,
        show Rr + min n q + (q - n) = Rr + q by omega] at hu
      exact hu
    · -- one pad ends inside a period, the other one goes on
      obtain ⟨fuel, rfl⟩ : ∃ f, fuel = f + 1 := ⟨fuel - 1, by omega⟩
      obtain ⟨z, ez, hz⟩ := pad_circular_ok (t := y) (l := min n (p - n)) (r := min n (q - n))
        (by omega) (by rw [hyr, ← ha, hys]; omega) (by rw [hyr, ← ha, hys]; omega)
      rw [hyr, ← ha] at hz
      have hzr : z.rank = t.rank := hz.rank.trans hyr
      have hzs := hz.size (by omega : a < y.rank)
      rw [hys] at hzs
      obtain ⟨u, eu, hu, hm⟩ := circularPadLoop_mid hn fuel (x := z) (p := p - n - n) (q := q - n - n)
        (by omega) (by rw [hzr, ← ha, hzs]; omega) (by omega)
      rw [hzr, ← ha] at hu hm
      refine ⟨u, hgo u ?_, ?_⟩
      · unfold circularPadLoop
        rw [if_pos (by simp only [List.any_cons, List.any_nil, Bool.or_false, Bool.or_eq_true,
          decide_eq_true_eq]; omega)]
        simp only [List.map_cons, List.map_nil, bind, Except.bind, ez]
        exact eu
      · intro hE
        have hil : a < idx₀.length := by rw [hi₀.length_eq]; exact hat'
        -- shapes along the axis
        have hset : ∀ {v : Tensor R} {c : Nat}, v.shape = t.shape.set a c → ∀ k, k < c →
            InB v.shape (idx₀.set a k) := by
          intro v c hv k hk
          rw [inB_set_iff (x := n)]
          · rw [hv, getD_set_self hat']; exact hk
          · rw [hv, List.length_set]; exact hat'
          · rw [hv, List.set_set, hnn, set_getD_self hat']; exact hi₀
        have hzsh : z.shape = t.shape.set a
            (min n (p - n) + (min n p + L + n + (Rr + min n q)) + min n (q - n)) := by
          rw [hz.shape, hys, hty.shape, List.set_set]
        -- a position of z, seen from y and from u
        have hpos : ∀ (k j : Nat), k < min n (p - n) + (min n p + L + n + (Rr + min n q)) + min n (q - n) →
            j < min n p + L + n + (Rr + min n q) →
            (((min n p + L + n + (Rr + min n q) : ℕ) : ℤ) ∣ ((k : ℤ) - (min n (p - n) : ℕ)) - j) →
            (n : ℤ) ∣ ((j : ℤ) - (min n p + L : ℕ)) - (((k + (p - n - n) : ℕ) : ℤ) - (p + L : ℕ)) := by
          intro k j hk hj hdv
          have hin := hset hzsh k hk
          have g1 := hz.get _ hin
          rw [line_set, getD_set_self hil, hys] at g1
          rw [ext_periodic_congr hdv, ext_inside _ _ hj] at g1
          have hin2 := hset hty.shape j (by omega)
          have g2 : line y a idx₀ j = _ := hty.get _ hin2
          rw [line_set, getD_set_self hil, ← hnn] at g2
          have g3 := hm _ hin
          rw [List.set_set, getD_set_self hil] at g3
          have hin3 := hset hE.shape (k + (p - n - n)) (by omega)
          have g4 := hE.get _ hin3
          rw [line_set, getD_set_self hil, ← hnn] at g4
          rw [g3, g1, g2] at g4
          exact ext_periodic_inj hn hdist g4
        obtain ⟨c, hc⟩ := hd
        have hcz : (L : ℤ) + Rr = n * c := by exact_mod_cast hc
        by_cases hpn : p < n
        · have hq : n < q := by omega
          have := hpos (min n p + L + n + (Rr + min n q)) 0 (by omega) (by omega)
            ⟨1, by push_cast; omega⟩
          exact dvd_left_absurd hp0 hpn hq hcz this
        · have hq : q < n := by omega
          have hp : n < p := by
            rcases Nat.lt_or_ge n p with h | h
            · exact h
            · exact absurd (⟨h, hq.le⟩ : p ≤ n ∧ q ≤ n) hnot
          have := hpos (min n (p - n) - 1) (min n p + L + n + (Rr + min n q) - 1) (by omega) (by omega)
            ⟨-1, by push_cast; omega⟩
          exact dvd_right_absurd hq0 hq hp hcz this

theorem circularPad_bad [NonUnitalNonAssocSemiring R] {t : Tensor R} {p q : Nat} (hr : 0 < t.rank)
    (hn : 0 < t.shape.getD (t.rank - 1) 0) {idx₀ : List Nat} (hi₀ : InB t.shape idx₀)
    (hdist : ∀ i j, i < t.shape.getD (t.rank - 1) 0 → j < t.shape.getD (t.rank - 1) 0 →
      line t (t.rank - 1) idx₀ i = line t (t.rank - 1) idx₀ j → i = j)
    (hg : ¬ PadGood (t.shape.getD (t.rank - 1) 0) p q) :
    ∃ u, circularPad t [p, q] = .ok u ∧ ¬ Extended .periodic t (t.rank - 1) p q u := by
  have e : t.sizeFromEnd 1 = t.shape.getD (t.rank - 1) 0 := rfl
  unfold circularPad
  simp only [e]
  have h : ¬ (p ≤ t.shape.getD (t.rank - 1) 0 ∧ q ≤ t.shape.getD (t.rank - 1) 0) := by
    intro h; exact hg (Or.inl ⟨0, by omega, by omega, by omega, by omega⟩)
  rw [if_pos (by simp only [List.any_cons, List.any_nil, Bool.or_false, Bool.or_eq_true,
      decide_eq_true_eq]; omega)]
  obtain ⟨u, eu, hu⟩ := circularPadLoop_bad hr hn hi₀ hdist ([p, q].sum + 1)
    (Extended.zero .periodic (t := t) (a := t.rank - 1) (by omega)) (by simp) hg (by simp)
  exact ⟨u, eu, by simpa using hu⟩

/-- The pads of `swt` and `iswt`. -/
theorem padGood_swt {n d g : Nat} (hn : 0 < n) (hg : 0 < g) (h : d * g ≤ n ∨ d ∣ n) :
    PadGood n (d * (g - 1)) (d * g) ∧ PadGood n (d * g) (d * (g - 1)) := by
  have key : SameRounds n (d * (g - 1)) (d * g) := by
    have hle : d * g = d * (g - 1) + d := by
      obtain ⟨g, rfl⟩ : ∃ g', g = g' + 1 := ⟨g - 1, by omega⟩
      simp [Nat.mul_add]
    rcases h with h | ⟨c, hc⟩
    · exact ⟨0, by omega, by omega, by omega, by omega⟩
    · refine ⟨d * (g - 1) / n, ?_, ?_, ?_, ?_⟩
      · exact Nat.div_mul_le_self _ _
      · rw [Nat.add_mul, Nat.one_mul]
        exact (Nat.lt_div_mul_add hn).le
      · rw [hle]; exact (Nat.div_mul_le_self _ _).trans (by omega)
      · set k := d * (g - 1) / n with hk
        have h1 : d * (g - 1) < k * n + n := Nat.lt_div_mul_add hn
        have h2 : d * (g - 1) < d * (k * c + c) := by
          have : d * (k * c + c) = k * n + n := by rw [hc]; ring
          omega
        have h3 : g - 1 < k * c + c := Nat.lt_of_mul_lt_mul_left h2
        have h4 : d * g ≤ d * (k * c + c) := Nat.mul_le_mul_left d (by omega)
        have : d * (k * c + c) = (k + 1) * n := by rw [hc]; ring
        omega
  refine ⟨Or.inl key, Or.inl ?_⟩
  obtain ⟨k, h1, h2, h3, h4⟩ := key
  exact ⟨k, h3, h4, h1, h2⟩

end Verif
