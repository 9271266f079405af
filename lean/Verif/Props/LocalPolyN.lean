import Verif.Lemmas.LocalPolyN
import Verif.Props.Local

/-! # C58, vanishing moments for images and volumes -/

namespace Verif.Props
open Verif Spec Tensor
variable {R : Type}

theorem ends_inB {F : Nat} (hF : 2 ≤ F) {s : Nat} : ∀ {ws : List Window} {ns ks : List Nat}, EndsInside ws ns →
    InsideN F s ws ks → InB (levelLens F ns s) ks
  | [], [], [], _, _ => trivial
  | _ :: _, _ :: _, _ :: _, hf, hk => ⟨by simpa using hk.1.lt hF (c := 0) (by simpa using hf.1), ends_inB hF hf.2 hk.2⟩
  | [], [], _ :: _, _, h => h.elim
  | _ :: _, _ :: _, [], _, h => h.elim
  | [], _ :: _, _, h, _ => h.elim
  | _ :: _, [], _, h, _ => h.elim

theorem flattened_of_isDwtN [CommRing R] {D : (List Bool → Tensor R → Prop) → Entry R → Prop} {m : Mode}
    {w : Wavelet R} (hF : 2 ≤ w.len) (hhi : w.decHi.length = w.len) {ax : List Nat} {L : Nat}
    {x : Tensor R} {c : Coeffs R}
    (hD : ∀ P e bs t, D P e → HoldsBand e bs t → P bs t ∧ bs.length = ax.length)
    (hn : ax.Nodup) (hlt : ∀ a ∈ ax, a < x.rank) (hc : IsDwtN D m w ax L x c) {idx : List Nat} (hi : InB x.shape idx)
    {i d p : Nat} {ws : List Window} (hfit : EndsInside ws (sizes ax x.shape)) (hp : VanishingMoments p w.decHi)
    (hd : d < p) (hX : AxisPoly w.len 0 ws i d (plane x ax idx)) : Flattened w.len ws i d c ax idx := by
  have hl := hc.length
  have hwl : ws.length = ax.length := by rw [ends_length hfit]; simp [sizes]
  refine ⟨?_, ?_⟩
  · intro s hs e bs t he hb hbi ks hk
    obtain ⟨e1, he1, hd1⟩ := hc.detail s (by omega)
    rw [hl, Nat.add_sub_cancel, he1] at he
    cases he
    obtain ⟨p1, hbl⟩ := hD _ _ _ _ hd1 hb
    rw [plane_along hn hlt p1 (by simp [levelLens, sizes]) hi (ends_inB hF hfit hk)]
    exact cDN_axisPoly hF hhi hfit hX hp hd (by rw [hbl, hwl]) hbi hk
  · obtain ⟨a, ha, p1⟩ := hc.approx
    refine ⟨a, ha, fun js hj => ?_⟩
    rw [hl, Nat.add_sub_cancel] at hj ⊢
    obtain ⟨Q, hQ, h⟩ := cAN_axisPoly (m := m) hF hhi hfit hX L js hj
    refine ⟨Q, hQ, fun t ht => ?_⟩
    rw [plane_along hn hlt p1 (by simp [levelLens, sizes]) hi (ends_inB hF hfit ht)]
    exact h t ht

/-- **C58.** Vanishing moments for images and volumes: if the high-pass filter annihilates polynomials of degree below `p`
and, inside a window, the samples are such a polynomial along the `i`-th of the transformed axes (a different one on every
line, and arbitrary along the other axes), then every detail band that is high pass along that axis is 0 wherever its
filter support lies in the window, at every level, whatever the samples and the boundary mode do elsewhere; the
approximation is again a polynomial of at most the same degree along that axis. -/
theorem c58_polynomial_nd [CommRing R] {x : Tensor R} {w : Wavelet R} {mode : Option String}
    {level : Option Int} {axes : AxisHint} {c : Coeffs R} (hF : 2 ≤ w.len) (hhi : w.decHi.length = w.len)
    {p d i : Nat} (hp : VanishingMoments p w.decHi) (hd : d < p) {idx : List Nat} (hi : InB x.shape idx)
    {ws : List Window} :
    ((wavedec2 x w mode level axes = .ok c ∨ fswavedec2 x w mode level axes = .ok c) →
      EndsInside ws (sizes (axesOf axes x.rank 2) x.shape) →
      AxisPoly w.len 0 ws i d (plane x (axesOf axes x.rank 2) idx) →
      Flattened w.len ws i d c (axesOf axes x.rank 2) idx) ∧
    ((wavedec3 x w mode level axes = .ok c ∧ 0 < levelsN level w.len (sizes (axesOf axes x.rank 3) x.shape) ∨
        fswavedec3 x w mode level axes = .ok c) →
      EndsInside ws (sizes (axesOf axes x.rank 3) x.shape) →
      AxisPoly w.len 0 ws i d (plane x (axesOf axes x.rank 3) idx) →
      Flattened w.len ws i d c (axesOf axes x.rank 3) idx) := by
  have fin : ∀ {n : Nat} {D : (List Bool → Tensor R → Prop) → Entry R → Prop} {L : Nat} {m' : Mode},
      GoodAxes axes x.rank n → (∀ P e bs t, D P e → HoldsBand e bs t → P bs t ∧ bs.length = n ∧ true ∈ bs) →
      IsDwtN D m' w (axesOf axes x.rank n) L x c →
      EndsInside ws (sizes (axesOf axes x.rank n) x.shape) →
      AxisPoly w.len 0 ws i d (plane x (axesOf axes x.rank n) idx) →
      Flattened w.len ws i d c (axesOf axes x.rank n) idx := by
    intro n D L m' hg hD hdwt hfit hX
    exact flattened_of_isDwtN hF hhi (fun P e bs t h hb => by
      have := hD P e bs t h hb; rw [goodAxes_length hg]; exact ⟨this.1, this.2.1⟩) (axesOf_nodup hg) (axesOf_lt hg)
      hdwt hi hfit hp hd hX
  refine ⟨?_, ?_⟩
  · rintro (hc | hc) hfit hX
    · obtain ⟨hg, -, m', -, -, h1⟩ := wavedec2_ok hF hhi hc
      exact fin hg holds_tuple h1 hfit hX
    · obtain ⟨hg, -, -, m', -, -, h1⟩ := fswavedecn_ok (n := 2) (by omega) hF hhi hc
      exact fin hg (holds_dict sepKeys2_ok) h1 hfit hX
  · rintro (⟨hc, hL⟩ | hc) hfit hX
    · obtain ⟨hg, -, m', -, -, h1⟩ := wavedec3_ok hF hhi hL hc
      exact fin hg (holds_dict keys3_ok) h1 hfit hX
    · obtain ⟨hg, -, -, m', -, -, h1⟩ := fswavedecn_ok (n := 3) (by omega) hF hhi hc
      exact fin hg (holds_dict sepKeys3_ok) h1 hfit hX

/-! ### The hypotheses can be met -/

/-- A ramp along the second axis whose slope and offset jump from row to row; the last three columns break it. -/
def exRamp : Tensor ℚ := ofFn ⟨.float64, 0⟩ [9, 11] fun i =>
  if i.getD 1 0 < 8 then (2 : ℚ) ^ (i.getD 0 0) * (i.getD 1 0) + 3 ^ (i.getD 0 0) else 5

/-- The bands that are high pass along the second axis vanish for `k ≤ 3` (and there are such positions), although the
rows have nothing to do with one another and the boundary is symmetric. -/
example : ∃ c h v e, wavedec2 exRamp spline (some "symmetric") (some 1) .none = .ok c ∧
    c.items[1]? = some (.tuple h v e) ∧ ∀ i k, 1 ≤ i → i ≤ 3 → 1 ≤ k → k ≤ 3 → v.get [i, k] = 0 ∧ e.get [i, k] = 0 := by
  obtain ⟨c, hc⟩ := (c16_wavedec2_succeeds_iff exRamp spline (some "symmetric") .symmetric (some 1) .none (.inl rfl)
    (by decide) rfl).mpr
    ⟨goodAxes_none (by decide) (by decide), .inr rfl, by
      intro s hs k hk
      have : s = 0 := by have : s < 1 := hs; omega
      subst this
      revert k
      show ∀ k ∈ [9, 11], 1 ≤ k
      decide⟩
  obtain ⟨-, -, m', -, -, h1⟩ := wavedec2_ok (by decide) rfl hc
  have hl : c.items.length = 2 := h1.length
  obtain ⟨e0, he0, h, v, e, rfl, -⟩ := h1.detail 0 (show 0 < 1 by omega)
  have hax : axesOf .none exRamp.rank 2 = [0, 1] := by decide
  have he1 : c.items[1]? = some (.tuple h v e) := he0
  have key := ((c58_polynomial_nd (c := c) (mode := some "symmetric") (level := some 1) (axes := .none) (x := exRamp)
    (w := spline) (p := 3) (d := 1) (i := 1) (idx := [0, 0]) (ws := [⟨0, 9, 0⟩, ⟨0, 8, 0⟩]) (by decide) rfl
    spline_moments (by decide) ⟨by decide, by decide, trivial⟩).1 (.inl hc) (by
      rw [hax]; exact ⟨by decide, by decide, trivial⟩) (by
      rw [hax]
      rintro (_ | ⟨a, _ | ⟨b, _ | ⟨_, _⟩⟩⟩) hj
      · exact hj.elim
      · exact hj.2.elim
      · refine ⟨Polynomial.C (2 ^ a) * Polynomial.X + Polynomial.C (3 ^ a), Polynomial.natDegree_linear_le, ?_⟩
        rintro t ⟨⟨-, h1⟩, ⟨-, h2⟩, -⟩
        simp only [pow_zero, Nat.one_mul] at h1 h2
        show exRamp.get [a, t] = _
        unfold exRamp
        rw [ofFn_get_of _ _ (by exact ⟨by omega, by omega, trivial⟩)]
        have : t < 8 := by omega
        simp [this]
      · exact hj.2.2.elim)).detail 0 (by omega)
  rw [hl, hax] at key
  refine ⟨c, h, v, e, hc, he1, fun i k hi1 hi2 hk1 hk2 => ?_⟩
  have hin : InsideN spline.len (0 + 1) [⟨0, 9, 0⟩, ⟨0, 8, 0⟩] [i, k] := by
    show Inside 4 1 0 9 i ∧ Inside 4 1 0 8 k ∧ True
    unfold Inside
    refine ⟨⟨?_, ?_⟩, ⟨?_, ?_⟩, trivial⟩ <;> omega
  exact ⟨key _ [false, true] v he1 (.inr (.inl ⟨rfl, rfl⟩)) rfl [i, k] hin,
    key _ [true, true] e he1 (.inr (.inr ⟨rfl, rfl⟩)) rfl [i, k] hin⟩

end Verif.Props
