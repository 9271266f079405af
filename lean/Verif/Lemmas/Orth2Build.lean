/-
The four-channel matrices of the non-separable two-dimensional transform, as they are constructed.
-/
import Verif.Lemmas.Orth2

namespace Verif
open Spec Tensor
variable {R : Type}

namespace Coo

theorem ext_ents {A B : Coo R} (h1 : A.md = B.md) (h2 : A.rows = B.rows) (h3 : A.cols = B.cols)
    (h4 : A.ents = B.ents) : A = B := by
  obtain ⟨a, b, c, d, e⟩ := A
  obtain ⟨a', b', c', d', e'⟩ := B
  simp only at h1 h2 h3 h4
  subst h1 h2 h3 h4
  rfl

/-- The matrix is stored in coalesced form. -/
def Coalesced [AddCommMonoid R] (A : Coo R) : Prop := A.coalesce = A

theorem coalesced_ofFn [AddCommMonoid R] (md : Meta) (m n : Nat) (p : Nat → Nat → Prop)
    [∀ i j, Decidable (p i j)] (f : Nat → Nat → R) : (ofFn md m n p f).Coalesced := by
  refine ext_ents rfl rfl rfl ?_
  rw [coalesce_ents]
  show _ = ((grid m n).filter fun q => p q.1 q.2).map fun q => (q.1, q.2, f q.1 q.2)
  have e : (grid m n).filter (fun q => decide ((ofFn md m n p f).Stored q.1 q.2)) = (grid m n).filter fun q => p q.1 q.2 := by
    apply List.filter_congr
    intro q hq
    have := mem_grid.mp hq
    rw [decide_eq_decide, ofFn_stored]
    exact ⟨fun h => h.2.2, fun h => ⟨this.1, this.2, h⟩⟩
  refine Eq.trans (congrArg _ e) ?_
  apply List.map_congr_left
  intro q hq
  obtain ⟨h1, h2⟩ := List.mem_filter.mp hq
  have := mem_grid.mp h1
  rw [ofFn_den, if_pos ⟨this.1, this.2, by simpa using h2⟩]

theorem coalesced_mm [NonUnitalNonAssocSemiring R] {A B C : Coo R} (h : A.mm B = .ok C) : C.Coalesced := by
  unfold mm at h
  split_ifs at h
  cases h
  exact coalesced_ofFn _ _ _ _ _

theorem grid_add (a b c : Nat) : grid (a + b) c = grid a c ++ (grid b c).map fun q => (a + q.1, q.2) := by
  unfold grid
  rw [List.range_add, List.flatMap_append, List.flatMap_map, List.map_flatMap]
  congr 1
  congr 1
  funext i
  rw [List.map_map]
  rfl

theorem coalesced_cat0 [AddCommMonoid R] {A B C : Coo R} (hA : A.Coalesced) (hB : B.Coalesced) (h : A.cat0 B = .ok C) :
    C.Coalesced := by
  by_cases hc : A.cols = B.cols ∧ A.md = B.md
  · obtain ⟨C', e, c1, c2, c3, c4, c5⟩ := cat0_ok hc.1 hc.2
    rw [h] at e
    cases e
    have he : C.ents = A.ents ++ B.ents.map fun e => (A.rows + e.1, e.2.1, e.2.2) := by
      unfold cat0 at h
      rw [dif_pos hc] at h
      cases h
      rfl
    refine ext_ents rfl rfl rfl ?_
    rw [coalesce_ents, he, c2, c3, grid_add, List.filter_append, List.map_append]
    congr 1
    · rw [← congrArg Coo.ents hA]
      rw [coalesce_ents]
      have e : (grid A.rows A.cols).filter (fun q => decide (C.Stored q.1 q.2)) =
          (grid A.rows A.cols).filter fun q => A.Stored q.1 q.2 := by
        apply List.filter_congr
        intro q hq
        have := mem_grid.mp hq
        rw [decide_eq_decide, c5, if_pos this.1]
      refine Eq.trans (congrArg _ e) ?_
      apply List.map_congr_left
      intro q hq
      have := mem_grid.mp (List.mem_of_mem_filter hq)
      rw [c4, if_pos this.1]
    · rw [← congrArg Coo.ents hB, coalesce_ents, List.filter_map, List.map_map, List.map_map, hc.1]
      have e : (grid B.rows B.cols).filter ((fun q => decide (C.Stored q.1 q.2)) ∘ fun q : Nat × Nat => (A.rows + q.1, q.2)) =
          (grid B.rows B.cols).filter fun q => B.Stored q.1 q.2 := by
        apply List.filter_congr
        intro q hq
        simp only [Function.comp]
        rw [decide_eq_decide, c5, if_neg (by omega), Nat.add_sub_cancel_left]
      refine Eq.trans (congrArg _ e) ?_
      apply List.map_congr_left
      intro q hq
      simp only [Function.comp]
      rw [c4, if_neg (by omega), Nat.add_sub_cancel_left]
  · unfold cat0 at h
    rw [dif_neg hc] at h
    cases h

end Coo

theorem cat4_coalesced [AddCommMonoid R] {a b c d M : Coo R} (ha : a.Coalesced) (hb : b.Coalesced) (hc : c.Coalesced)
    (hd : d.Coalesced) (h : cat4 a b c d = .ok M) : M.Coalesced := by
  unfold cat4 at h
  obtain ⟨m, h1, h⟩ := bind_ok_inv h
  obtain ⟨m', h2, h⟩ := bind_ok_inv h
  exact Coo.coalesced_cat0 (Coo.coalesced_cat0 (Coo.coalesced_cat0 ha hb h1) hc h2) hd h

theorem strided2_coalesced [NonAssocSemiring R] [DecidableEq R] {f : Tensor R} {h w s : Nat} {mode : String} {C : Coo R}
    (e : constructStridedConv2dMatrix f h w s mode = .ok C) : C.Coalesced := by
  unfold constructStridedConv2dMatrix at e
  obtain ⟨o, _, e⟩ := bind_ok_inv e
  obtain ⟨D, _, e⟩ := bind_ok_inv e
  by_cases hs : s = 0
  · rw [if_pos hs] at e
    cases e
  · rw [if_neg hs] at e
    obtain ⟨S, _, e⟩ := bind_ok_inv e
    exact Coo.coalesced_mm e

theorem fourChannel_coalesced [NonAssocSemiring R] [DecidableEq R] {lo hi : List R} {flip : Bool} {md : Meta} {h w : Nat}
    {mode : String} {C : Coo R} (e : fourChannel lo hi flip md h w mode = .ok C) : C.Coalesced := by
  unfold fourChannel at e
  obtain ⟨t, _, e⟩ := bind_ok_inv e
  split at e
  · obtain ⟨a, ha, e⟩ := bind_ok_inv e
    obtain ⟨b, hb, e⟩ := bind_ok_inv e
    obtain ⟨c, hc, e⟩ := bind_ok_inv e
    obtain ⟨d, hd, e⟩ := bind_ok_inv e
    exact cat4_coalesced (strided2_coalesced ha) (strided2_coalesced hb) (strided2_coalesced hc)
      (strided2_coalesced hd) e
  · cases e

/-! ### The raw matrix -/

theorem cat4_ok [AddCommMonoid R] {A : Nat → Coo R} {md : Meta} {q n : Nat}
    (h1 : ∀ b, b < 4 → (A b).md = md) (h2 : ∀ b, b < 4 → (A b).rows = q) (h3 : ∀ b, b < 4 → (A b).cols = n) :
    ∃ M, cat4 (A 0) (A 1) (A 2) (A 3) = .ok M ∧ M.md = md ∧ M.rows = 4 * q ∧ M.cols = n ∧
      (∀ b i j, b < 4 → i < q → M.den (b * q + i) j = (A b).den i j) ∧
      ∀ b i j, b < 4 → i < q → (M.Stored (b * q + i) j ↔ (A b).Stored i j) := by
  obtain ⟨M1, e1, a1, a2, a3, a4, a5⟩ := Coo.cat0_ok (A := A 0) (B := A 1)
    (by rw [h3 0 (by omega), h3 1 (by omega)]) (by rw [h1 0 (by omega), h1 1 (by omega)])
  obtain ⟨M2, e2, b1, b2, b3, b4, b5⟩ := Coo.cat0_ok (A := M1) (B := A 2)
    (by rw [a3, h3 0 (by omega), h3 2 (by omega)]) (by rw [a1, h1 0 (by omega), h1 2 (by omega)])
  obtain ⟨M3, e3, c1, c2, c3, c4, c5⟩ := Coo.cat0_ok (A := M2) (B := A 3)
    (by rw [b3, a3, h3 0 (by omega), h3 3 (by omega)]) (by rw [b1, a1, h1 0 (by omega), h1 3 (by omega)])
  have r0 := h2 0 (by omega)
  have r1 := h2 1 (by omega)
  have r2 := h2 2 (by omega)
  have r3 := h2 3 (by omega)
  have hm1 : M1.rows = 2 * q := by rw [a2, r0, r1]; omega
  have hm2 : M2.rows = 3 * q := by rw [b2, hm1, r2]; omega
  refine ⟨M3, ?_, by rw [c1, b1, a1, h1 0 (by omega)], by rw [c2, hm2, r3]; omega,
    by rw [c3, b3, a3, h3 0 (by omega)], ?_, ?_⟩
  · unfold cat4
    simp only [bind, Except.bind, e1, e2, e3]
  · intro b i j hb hi
    rw [c4, b4, a4, hm2, hm1, r0]
    interval_cases b
    · rw [if_pos (by omega), if_pos (by omega), if_pos (by omega)]; simp
    · rw [if_pos (by omega), if_pos (by omega), if_neg (by omega)]; simp
    · rw [if_pos (by omega), if_neg (by omega)]; simp
    · rw [if_neg (by omega)]; simp
  · intro b i j hb hi
    rw [c5, b5, a5, hm2, hm1, r0]
    interval_cases b
    · rw [if_pos (by omega), if_pos (by omega), if_pos (by omega)]; simp
    · rw [if_pos (by omega), if_pos (by omega), if_neg (by omega)]; simp
    · rw [if_pos (by omega), if_neg (by omega)]; simp
    · rw [if_neg (by omega)]; simp

/-- A channel of the filter bank. -/
def chan (lo hi : List R) (b : Nat) : List R := if b = 0 then lo else hi

theorem filterRow_chan [Zero R] {W : Wavelet R} {F n b r : Nat} (hb : b < 2) (hr : r < n / 2) (c : Nat) :
    filterRow W F n (b * (n / 2) + r) c = tap (chan W.decLo W.decHi b) ((F / 2 : ℕ) + 2 * (r : ℤ) - c) := by
  unfold filterRow chan
  interval_cases b
  · rw [if_pos (by omega), if_pos rfl]; simp
  · rw [if_neg (by omega), if_neg (by omega)]
    congr 2
    push_cast
    ring

theorem rowShift_chan {n b r : Nat} (hb : b < 2) (hr : r < n / 2) : rowShift n (b * (n / 2) + r) = r := by
  unfold rowShift
  interval_cases b
  · rw [if_pos (by omega)]; simp
  · rw [if_neg (by omega)]; simp

theorem filtBand_shape [Semiring R] {t : Tensor R} {md : Meta} {F o : Nat} {g : Bool → Nat → R}
    (ht : IsFilt t md 2 F bands2 g) : (filtBand t o).shape = [F, F] := by
  unfold filtBand
  rw [ht.shape]
  rfl

theorem filtBand_get [Semiring R] {t : Tensor R} {md : Meta} {F b i j : Nat} {g : Bool → Nat → R}
    (ht : IsFilt t md 2 F bands2 g) (hb : b < 4) (hi : i < F) (hj : j < F) :
    (filtBand t b).get [i, j] = g (decide (b % 2 = 1)) i * g (decide (b / 2 = 1)) j := by
  have hin : InB (List.replicate 2 F) [i, j] := ⟨hi, hj, trivial⟩
  unfold filtBand
  rw [ofFn_get_of _ _ (by rw [ht.shape]; exact hin)]
  have : bands2[b]? = some [decide (b % 2 = 1), decide (b / 2 = 1)] := by
    interval_cases b <;> rfl
  rw [ht.get b _ _ this hin]
  simp [filtProd]

theorem tap2_prod [Semiring R] {lo hi : List R} {F b : Nat} (h1 : lo.length = F) (h2 : hi.length = F)
    {f : Nat → Nat → R} (hf : ∀ i j, i < F → j < F → f i j =
      tapAt lo hi false F (decide (b % 2 = 1)) i * tapAt lo hi false F (decide (b / 2 = 1)) j) (hb : b < 4) (k l : ℤ) :
    tap2 F F f k l = tap (chan lo hi (b % 2)) k * tap (chan lo hi (b / 2)) l := by
  have key : ∀ c, c < 2 → (chan lo hi c).length = F ∧ ∀ (k : ℤ), 0 ≤ k → k < F →
      tap (chan lo hi c) k = tapAt lo hi false F (decide (c = 1)) k.toNat := by
    intro c hc
    constructor
    · unfold chan; split_ifs <;> assumption
    · intro k k0 k1
      unfold tap tapAt chan
      rw [if_pos k0]
      interval_cases c <;> simp
  obtain ⟨l1, g1⟩ := key (b % 2) (Nat.mod_lt _ (by omega))
  obtain ⟨l2, g2⟩ := key (b / 2) (by omega)
  unfold tap2
  split_ifs with h
  · rw [hf _ _ (by omega) (by omega), g1 k h.1 h.2.1, g2 l h.2.2.1 h.2.2.2]
  · by_cases hk : 0 ≤ k ∧ k < F
    · have hl : ¬ (0 ≤ l ∧ l < F) := fun hl => h ⟨hk.1, hk.2, hl.1, hl.2⟩
      by_cases hl0 : l < 0
      · rw [tap_neg' (chan lo hi (b / 2)) hl0, mul_zero]
      · rw [tap_large (chan lo hi (b / 2)) (i := l) (by rw [l2]; omega), mul_zero]
    · by_cases hk0 : k < 0
      · rw [tap_neg' (chan lo hi (b % 2)) hk0, zero_mul]
      · rw [tap_large (chan lo hi (b % 2)) (i := k) (by rw [l1]; omega), zero_mul]

/-- The raw four-channel matrix. -/
theorem constructA2_ok [Semiring R] [DecidableEq R] {W : Wavelet R} {F h w : Nat} (md : Meta)
    (hW : HasLen W F) (hF : F % 2 = 0) (h2 : 2 ≤ F) (hh : h % 2 = 0) (hw : w % 2 = 0) (hh2 : 2 ≤ h) (hwF : F / 2 < w) :
    ∃ C, constructA2 W md h w "sameshift" = .ok C ∧ C.md = md ∧ C.rows = h * w ∧ C.cols = h * w ∧
      (∀ k j, k < h * w → j < h * w → C.den k j = filterRow2 W F h w k j) ∧
      ∀ k j, k < h * w → j < h * w → (C.Stored k j ↔
        (j % h ≤ F / 2 + 2 * rowShift h (rowH h w k) ∧ F / 2 + 2 * rowShift h (rowH h w k) < j % h + F) ∧
        (j / h ≤ F / 2 + 2 * rowShift w (rowW h w k) ∧ F / 2 + 2 * rowShift w (rowW h w k) < j / h + F)) := by
  obtain ⟨t, et, ht⟩ := construct2d_ok hW.1 hW.2.1 false md
  have hnm : ConvMode.Named "sameshift" .same := Or.inr (Or.inl ⟨Or.inr rfl, rfl⟩)
  have hs : strideStart "sameshift" = 1 := rfl
  have hcount : ∀ n, n % 2 = 0 → strideCount (strideStart "sameshift") n 2 = n / 2 := by
    intro n hn; rw [hs]; unfold strideCount; omega
  have hband : ∀ b, ∃ C, b < 4 → constructStridedConv2dMatrix (filtBand t b) h w 2 "sameshift" = .ok C ∧ C.md = md ∧
      C.rows = h / 2 * (w / 2) ∧ C.cols = h * w ∧
      (∀ I r J c, I < w / 2 → r < h / 2 → J < w → c < h → C.den (I * (h / 2) + r) (J * h + c) =
        tap (chan W.decLo W.decHi (b % 2)) ((F / 2 : ℕ) + 2 * (r : ℤ) - c) *
        tap (chan W.decLo W.decHi (b / 2)) ((F / 2 : ℕ) + 2 * (I : ℤ) - J)) ∧
      ∀ I r J c, I < w / 2 → r < h / 2 → J < w → c < h → (C.Stored (I * (h / 2) + r) (J * h + c) ↔
        (c ≤ F / 2 + 2 * r ∧ F / 2 + 2 * r < c + F) ∧ (J ≤ F / 2 + 2 * I ∧ F / 2 + 2 * I < J + F)) := by
    intro b
    by_cases hb : b < 4
    · obtain ⟨C, e, c1, c2, c3, c4, c5⟩ := constructStrided2_ok (filtBand t b) (h := h) (w := w) 2
        (filtBand_shape ht (o := b)) hnm (by omega)
        ⟨by omega, by omega, by omega, by omega, by simp, fun _ => hwF⟩
      simp only [ConvMode.count, hcount h hh, hcount w hw] at c2 c4 c5
      refine ⟨C, fun _ => ⟨e, c1.trans ht.md, by rw [c2, Nat.mul_comm], by rw [c3, Nat.mul_comm], ?_, ?_⟩⟩
      · intro I r J c hI hr hJ hc
        rw [c4 I r J c hI hr hJ hc, tap2_prod hW.1 hW.2.1 (fun i j hi hj => filtBand_get ht hb hi hj) hb, hs]
        simp only [ConvMode.first]
        rw [cast_half hF h2, cast_half hF h2]
      · intro I r J c hI hr hJ hc
        rw [c5 I r J c hI hr hJ hc, hs]
        simp only [ConvMode.first]
        constructor
        · rintro ⟨⟨x1, x2⟩, x3, x4⟩; exact ⟨⟨by omega, by omega⟩, by omega, by omega⟩
        · rintro ⟨⟨x1, x2⟩, x3, x4⟩; exact ⟨⟨by omega, by omega⟩, by omega, by omega⟩
    · exact ⟨⟨md, 0, 0, [], by simp⟩, fun h => absurd h hb⟩
  choose A hA using hband
  obtain ⟨M, eM, m1, m2, m3, m4, m5⟩ := cat4_ok (A := A) (md := md) (q := h / 2 * (w / 2)) (n := h * w)
    (fun b hb => (hA b hb).2.1) (fun b hb => (hA b hb).2.2.1) (fun b hb => (hA b hb).2.2.2.1)
  have hpix : ∀ j, j < h * w → ∃ J c, J < w ∧ c < h ∧ j = J * h + c := by
    intro j hj
    refine ⟨j / h, j % h, ?_, Nat.mod_lt _ (by omega), ?_⟩
    · rw [Nat.div_lt_iff_lt_mul (by omega)]; rw [Nat.mul_comm]; exact hj
    · have := Nat.div_add_mod j h; rw [Nat.mul_comm] at this; omega
  refine ⟨M, ?_, m1, by rw [m2, quarter hh hw], m3, ?_, ?_⟩
  · unfold constructA2 fourChannel
    simp only [bind, Except.bind, et]
    have : (List.range (t.shape.getD 0 0)).map (filtBand t) =
        [filtBand t 0, filtBand t 1, filtBand t 2, filtBand t 3] := by
      rw [ht.shape]; rfl
    rw [this]
    simp only [(hA 0 (by omega)).1, (hA 1 (by omega)).1, (hA 2 (by omega)).1, (hA 3 (by omega)).1]
    exact eM
  · intro k j hk hj
    obtain ⟨b, I, r, hb, hI, hr, rfl⟩ := row_split hh hw hk
    obtain ⟨J, c, hJ, hc, rfl⟩ := hpix j hj
    have hlt : I * (h / 2) + r < h / 2 * (w / 2) := by
      rw [Nat.mul_comm (h / 2)]; exact Coo.mul_add_lt hI hr
    rw [m4 b _ _ hb hlt, (hA b hb).2.2.2.2.1 I r J c hI hr hJ hc]
    unfold filterRow2
    rw [rowH_eq hI hr, rowW_eq hI hr, pix_mod hc, pix_div hc,
      filterRow_chan (Nat.mod_lt _ (by omega)) hr, filterRow_chan (by omega) hI]
  · intro k j hk hj
    obtain ⟨b, I, r, hb, hI, hr, rfl⟩ := row_split hh hw hk
    obtain ⟨J, c, hJ, hc, rfl⟩ := hpix j hj
    have hlt : I * (h / 2) + r < h / 2 * (w / 2) := by
      rw [Nat.mul_comm (h / 2)]; exact Coo.mul_add_lt hI hr
    rw [m5 b _ _ hb hlt, (hA b hb).2.2.2.2.2 I r J c hI hr hJ hc, rowH_eq hI hr, rowW_eq hI hr, pix_mod hc, pix_div hc,
      rowShift_chan (Nat.mod_lt _ (by omega)) hr, rowShift_chan (by omega) hI]

/-! ### Which rows are orthogonalised -/

theorem count_pixels (h w : Nat) (p q : Nat → Bool) :
    ((List.range (h * w)).filter fun j => p (j % h) && q (j / h)).length =
      ((List.range h).filter p).length * ((List.range w).filter q).length := by
  induction w with
  | zero => simp
  | succ w ih =>
    have e1 : List.range (h * (w + 1)) = List.range (h * w) ++ (List.range h).map (h * w + ·) := by
      rw [Nat.mul_succ, List.range_add]
    rw [e1, List.filter_append, List.length_append, ih, List.range_succ, List.filter_append, List.length_append,
      List.filter_map, List.length_map, Nat.mul_add]
    congr 1
    have : ∀ c ∈ List.range h, ((fun j => p (j % h) && q (j / h)) ∘ fun x => h * w + x) c = (p c && q w) := by
      intro c hc
      have hc := List.mem_range.mp hc
      simp only [Function.comp]
      rw [Nat.mul_comm, pix_mod hc, pix_div hc]
    rw [List.filter_congr this]
    cases hq : q w
    · simp [hq]
    · simp [hq]

theorem toOrth2_mem [AddCommMonoid R] {A : Coo R} {F h w : Nat} (hF : F % 2 = 0) (h2 : 2 ≤ F) (hh : h % 2 = 0)
    (hw : w % 2 = 0) (hr : A.rows = h * w) (hc : A.cols = h * w)
    (hst : ∀ k j, k < h * w → j < h * w → (A.Stored k j ↔
        (j % h ≤ F / 2 + 2 * rowShift h (rowH h w k) ∧ F / 2 + 2 * rowShift h (rowH h w k) < j % h + F) ∧
        (j / h ≤ F / 2 + 2 * rowShift w (rowW h w k) ∧ F / 2 + 2 * rowShift w (rowW h w k) < j / h + F)))
    (k : Nat) : k ∈ getToOrthogonalize A (F ^ 2) ↔ k < h * w ∧ Truncated2 F h w k := by
  rw [getToOrthogonalize_eq, List.mem_filter, hr, List.mem_range, decide_eq_true_eq]
  refine and_congr_right fun hk => ?_
  have key : ∀ n r, n % 2 = 0 → r < n →
      let c := min (F / 2 + 2 * rowShift n r + 1) n - (F / 2 + 2 * rowShift n r + 1 - F)
      1 ≤ c ∧ c ≤ F ∧ (c ≠ F ↔ Truncated F n r) := by
    intro n r hn hr c
    have hsh : 2 * rowShift n r < n := by unfold rowShift; split_ifs <;> omega
    unfold Truncated
    refine ⟨?_, ?_, ?_⟩ <;> omega
  have hcnt : rowCount A k = (min (F / 2 + 2 * rowShift h (rowH h w k) + 1) h - (F / 2 + 2 * rowShift h (rowH h w k) + 1 - F)) *
      (min (F / 2 + 2 * rowShift w (rowW h w k) + 1) w - (F / 2 + 2 * rowShift w (rowW h w k) + 1 - F)) := by
    rw [← count_interval h (F / 2 + 2 * rowShift h (rowH h w k)) F,
      ← count_interval w (F / 2 + 2 * rowShift w (rowW h w k)) F, ← count_pixels]
    unfold rowCount
    rw [hc]
    congr 1
    apply List.filter_congr
    intro j hj
    rw [← Bool.decide_and, decide_eq_decide, hst k j hk (List.mem_range.mp hj)]
  obtain ⟨a1, a2, a3⟩ := key h _ hh (rowH_lt hh hw hk)
  obtain ⟨b1, b2, b3⟩ := key w _ hw (rowW_lt hh hw hk)
  unfold Truncated2
  rw [hcnt, ← a3, ← b3]
  generalize (min (F / 2 + 2 * rowShift h (rowH h w k) + 1) h - (F / 2 + 2 * rowShift h (rowH h w k) + 1 - F)) = x at a1 a2 ⊢
  generalize (min (F / 2 + 2 * rowShift w (rowW h w k) + 1) w - (F / 2 + 2 * rowShift w (rowW h w k) + 1 - F)) = y at b1 b2 ⊢
  constructor
  · rintro ⟨_, h⟩
    by_contra hc
    push Not at hc
    rw [hc.1, hc.2, pow_two] at h
    exact h rfl
  · intro h
    refine ⟨by positivity, fun e => ?_⟩
    rw [pow_two] at e
    have : x = F ∧ y = F := by
      constructor
      · nlinarith
      · nlinarith
    rcases h with h | h
    · exact h this.1
    · exact h this.2

theorem truncated2_last {F h w k : Nat} (hF : F % 2 = 0) (hh : h % 2 = 0) (hw : w % 2 = 0) (hk : k < h * w)
    (h' : Truncated2 F h w k) : Truncated2 F h w (h * w - 1) := by
  have hq := quarter hh hw
  have hh0 : 0 < h := Nat.pos_of_mul_pos_right (show 0 < h * w by omega)
  have hw0 : 0 < w := Nat.pos_of_mul_pos_left (show 0 < h * w by omega)
  have e : h * w - 1 = 3 * (h / 2 * (w / 2)) + ((w / 2 - 1) * (h / 2) + (h / 2 - 1)) := by
    have : (w / 2 - 1) * (h / 2) + (h / 2 - 1) + 1 = h / 2 * (w / 2) := by
      obtain ⟨a, ha⟩ : ∃ a, h / 2 = a + 1 := ⟨h / 2 - 1, by omega⟩
      obtain ⟨b, hb⟩ : ∃ b, w / 2 = b + 1 := ⟨w / 2 - 1, by omega⟩
      rw [ha, hb]; simp; ring
    omega
  have e1 : rowH h w (h * w - 1) = h - 1 := by
    rw [e, rowH_eq (by omega) (by omega)]; omega
  have e2 : rowW h w (h * w - 1) = w - 1 := by
    rw [e, rowW_eq (by omega) (by omega)]; omega
  unfold Truncated2
  rw [e1, e2]
  rcases h' with h' | h'
  · exact Or.inl (truncated_last hF hh (rowH_lt hh hw hk) h')
  · exact Or.inr (truncated_last hF hw (rowW_lt hh hw hk) h')

theorem boundaryA2_ok {la : LinAlg ℝ} (hla : ExactLinAlg la) {W : Wavelet ℝ} {F h w : Nat} (md : Meta)
    (hW : OrthBank W F) (hh : h % 2 = 0) (hw : w % 2 = 0) (hh2 : 2 ≤ h) (hwF : F / 2 < w)
    (hbh : BoundaryIndep W F h) (hbw : BoundaryIndep W F w) {method : String}
    (hm : method = "qr" ∨ method = "gramschmidt") :
    ∃ C, constructBoundaryA2 la W md h w method = .ok C ∧ C.md = md ∧ C.rows = h * w ∧ C.cols = h * w ∧
      OrthonormalRows (h * w) C.den ∧
      (∀ k j, k < h * w → j < h * w → ¬ Truncated2 F h w k → C.den k j = filterRow2 W F h w k j) ∧
      ∀ k, k < h * w → Truncated2 F h w k → vec (h * w) (C.den k) ∈
        Submodule.span ℝ ((fun s => vec (h * w) (filterRow2 W F h w s)) '' {s | s < h * w ∧ Truncated2 F h w s}) := by
  obtain ⟨A, e1, a1, a2, a3, a4, a5⟩ := constructA2_ok md hW.len hW.even hW.two_le hh hw hh2 hwF
  obtain ⟨C, e2, c1, c⟩ := orthogonalize_core hla (M := filterRow2 W F h w) (Tr := Truncated2 F h w) (L := F ^ 2) hm a2 a3 a4
    (toOrth2_mem hW.even hW.two_le hh hw a2 a3 a5) (fun _ _ h1 h2 h3 => filterRow2_full hW hh hw h1 h2 h3)
    (rows2_indep hW hh hw hbh hbw) (fun k h1 h2 => truncated2_last hW.even hh hw h1 h2)
  refine ⟨C, ?_, c1.trans a1, c⟩
  unfold constructBoundaryA2
  simp only [bind, Except.bind, e1, hW.len.1, e2]

theorem createTensor_flip [Zero R] (f : List R) (md : Meta) : createTensor f.reverse true md = createTensor f false md := by
  unfold createTensor
  rw [List.length_reverse]
  simp only [if_true, Bool.false_eq_true, if_false]
  refine Tensor.ext' rfl rfl ?_
  · intro idx hidx
    have hidx : InB [1, f.length] idx := hidx
    rw [ofFn_get_of _ _ hidx, ofFn_get_of _ _ hidx]
    match idx, hidx with
    | [a, b], ⟨_, hb, _⟩ =>
      simp only [List.getD_cons_succ, List.getD_cons_zero]
      rw [List.getD_eq_getElem?_getD, List.getElem?_reverse (by omega), List.getD_eq_getElem?_getD]
      congr 2
      omega

/-- For an orthogonal bank the synthesis matrix is the transposed analysis matrix. -/
theorem boundaryS2_eq [Field R] [DecidableEq R] (la : LinAlg R) {W : Wavelet R} {F : Nat} (md : Meta)
    (hW : OrthBank W F) (h w : Nat) (method : String) :
    constructBoundaryS2 la W md h w method = (constructBoundaryA2 la W md h w method).map Coo.transpose := by
  have e3 : W.recLo.length = W.decLo.length := by rw [hW.recLo, List.length_reverse]
  have e4 : fourChannel W.recLo W.recHi true md h w "sameshift" = fourChannel W.decLo W.decHi false md h w "sameshift" := by
    unfold fourChannel
    rw [hW.recLo, hW.recHi, createTensor_flip, createTensor_flip]
  unfold constructBoundaryS2 constructBoundaryA2 constructS2 constructA2
  rw [e3, e4]
  cases hM : fourChannel W.decLo W.decHi false md h w "sameshift" with
  | error e => rfl
  | ok M =>
    simp only [bind, Except.bind, pure, Except.pure, Coo.transpose_transpose]
    rw [fourChannel_coalesced hM]
    cases orthogonalize la M (W.decLo.length ^ 2) method <;> rfl

end Verif
