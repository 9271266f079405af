/-
Properties C19–C21: the separable transforms `fswavedec2/3` and `fswaverec2/3`
(src/ptwt/separable_conv_transform.py).
-/
import Verif.Lemmas.SepAlias
import Verif.Props.ConvNd

namespace Verif.Props
open Tensor Spec
variable {R : Type}

/-! ### C19: the separable transforms compute the coefficients of `wavedec2` and `wavedec3` -/

theorem fswavedecn_ok [Semiring R] {n : Nat} {x : Tensor R} {w : Wavelet R} {mode : Option String}
    {level : Option Int} {axes : AxisHint} {c : Coeffs R} (hn : 1 ≤ n) (hF : 2 ≤ w.len)
    (hhi : w.decHi.length = w.len) (hc : fswavedecn x w n mode level axes = .ok c) :
    GoodAxes axes x.rank n ∧ isDtypeSupported x.md.dtype = true ∧
    ¬ AutoEmpty level (sizes (axesOf axes x.rank n) x.shape) ∧
    ∃ m : Mode, (Selects mode m ∨ levelsN level w.len (sizes (axesOf axes x.rank n) x.shape) = 0) ∧
      LevelsAdmit m w.len (sizes (axesOf axes x.rank n) x.shape)
        (levelsN level w.len (sizes (axesOf axes x.rank n) x.shape)) ∧
      IsDwtN (IsDict (sepDetailKeys n)) m w (axesOf axes x.rank n)
        (levelsN level w.len (sizes (axesOf axes x.rank n) x.shape)) x c := by
  obtain ⟨h1, h2⟩ := fswavedecn_char (mode := mode) (x := x) (level := level) (h := axes) hn hF hhi
  have hg : GoodAxes axes x.rank n ∧ isDtypeSupported x.md.dtype = true := by
    by_contra hg
    obtain ⟨e, he⟩ := h1 hg
    rw [he] at hc; cases hc
  obtain ⟨h7, h8⟩ := h2 hg.1 hg.2
  have hae : ¬ AutoEmpty level (sizes (axesOf axes x.rank n) x.shape) := by
    intro h
    rw [h7 h] at hc; cases hc
  refine ⟨hg.1, hg.2, hae, ?_⟩
  obtain ⟨h3, h4, h5, h6⟩ := h8 hae
  by_cases hL : levelsN level w.len (sizes (axesOf axes x.rank n) x.shape) = 0
  · obtain ⟨c', e, hd⟩ := h3 hL .zero
    rw [e] at hc; cases hc
    exact ⟨.zero, Or.inr hL, fun s hs => absurd hs (by rw [hL]; exact Nat.not_lt_zero s), hd⟩
  · by_cases hm : ∃ m, Selects mode m
    · obtain ⟨m, hm⟩ := hm
      have ha := h5 m c hm hc
      obtain ⟨c', e, hd⟩ := h4 m hm ha
      rw [e] at hc; cases hc
      exact ⟨m, Or.inl hm, ha, hd⟩
    · push Not at hm
      rw [h6 (Nat.pos_of_ne_zero hL) hm] at hc; cases hc

/-- The coefficient tensors of a band are determined by the signal. -/
theorem alongAxes_unique [Zero R] {ax Ks : List Nat} {f : (List Nat → R) → List Nat → R} {x z z' : Tensor R}
    (h : AlongAxes ax Ks f x z) (h' : AlongAxes ax Ks f x z') : z = z' := by
  have hs : z.shape = z'.shape := h.shape.trans h'.shape.symm
  refine Tensor.ext' (h.md.trans h'.md.symm) hs ?_
  intro idx hidx
  rw [h.get idx hidx, h'.get idx (by rw [← hs]; exact hidx)]

/-- The naming of the detail bands in two dimensions: the tuple `(horizontal, vertical, diagonal)` of
`wavedec2` as a dictionary. -/
def asDict [Zero R] : Entry R → Entry R
  | .tuple h v d => .dict [("da", h), ("ad", v), ("dd", d)]
  | e => e

theorem isDwt_rename [NonUnitalNonAssocSemiring R] {m : Mode} {w : Wavelet R} {ax : List Nat} {L : Nat}
    {x : Tensor R} {c c' : Coeffs R} (h : IsDwt2 m w ax L x c)
    (h' : IsDwtN (IsDict ["da", "ad", "dd"]) m w ax L x c') : c' = ⟨c.isList, c.items.map asDict⟩ := by
  obtain ⟨il, items⟩ := c
  obtain ⟨il', items'⟩ := c'
  obtain ⟨k1, k2, ⟨t, k3, k4⟩, k5⟩ := h
  obtain ⟨l1, l2, ⟨t', l3, l4⟩, l5⟩ := h'
  simp only at k1 k2 k3 k5 l1 l2 l3 l5
  subst k1 l1
  congr 1
  apply List.ext_getElem?
  intro i
  rw [List.getElem?_map]
  rcases Nat.eq_zero_or_pos i with rfl | hi
  · rw [l3, k3, alongAxes_unique l4 k4]; rfl
  · by_cases hiL : i ≤ L
    · obtain ⟨e, he, hh, hv, hd, rfl, p1, p2, p3⟩ := k5 (L - i) (by omega)
      obtain ⟨e', he', kv, rfl, hk, hp⟩ := l5 (L - i) (by omega)
      rw [show L - (L - i) = i by omega] at he he'
      rw [he, he']
      match kv, hk with
      | [(a1, t1), (a2, t2), (a3, t3)], hk =>
        simp only [List.map_cons, List.map_nil, List.cons.injEq, and_true] at hk
        obtain ⟨rfl, rfl, rfl⟩ := hk
        have bda : bandOfKey "da" = [true, false] := by decide
        have bad : bandOfKey "ad" = [false, true] := by decide
        have bdd : bandOfKey "dd" = [true, true] := by decide
        have q1 : IsBand m w ax x (L - i) [true, false] t1 := by
          have := hp ("da", t1) (by simp)
          rwa [bda] at this
        have q2 : IsBand m w ax x (L - i) [false, true] t2 := by
          have := hp ("ad", t2) (by simp)
          rwa [bad] at this
        have q3 : IsBand m w ax x (L - i) [true, true] t3 := by
          have := hp ("dd", t3) (by simp)
          rwa [bdd] at this
        rw [alongAxes_unique q1 p1, alongAxes_unique q2 p2, alongAxes_unique q3 p3]
        rfl
    · rw [List.getElem?_eq_none (show items'.length ≤ i by omega), List.getElem?_eq_none (show items.length ≤ i by omega)]; rfl

/-- **C19.** `fswavedec2` is `wavedec2` up to the naming of the bands: it succeeds exactly if `wavedec2`
does, and returns the same tensors with `da` for horizontal, `ad` for vertical and `dd` for diagonal
details.  (Excluded is only an automatic level for an image with an empty side.) -/
theorem c19_fswavedec2 [Semiring R] (x : Tensor R) (w : Wavelet R) (mode : Option String)
    (level : Option Int) (axes : AxisHint) (hF : 2 ≤ w.len) (hhi : w.decHi.length = w.len)
    (hne : level = none → ∀ a ∈ axesOf axes x.rank 2, x.shape.getD a 0 ≠ 0) (c' : Coeffs R) :
    fswavedec2 x w mode level axes = .ok c' ↔
      ∃ c, wavedec2 x w mode level axes = .ok c ∧ c' = ⟨c.isList, c.items.map asDict⟩ := by
  have hae : ¬ AutoEmpty level (sizes (axesOf axes x.rank 2) x.shape) := by
    rintro ⟨h1, h2⟩
    obtain ⟨a, ha, e⟩ := List.mem_map.mp h2
    exact hne h1 a ha e
  constructor
  · intro h
    obtain ⟨hg, hd, -, m, hm, ha, hdwt⟩ := fswavedecn_ok (n := 2) (by omega) hF hhi h
    rw [sepDetailKeys2] at hdwt
    obtain ⟨h3, h4, -⟩ := (wavedec2_char (mode := mode) (x := x) (level := level) (h := axes) hF hhi).2 hg hd
    rcases hm with hm | hL
    · obtain ⟨c, ec, hc⟩ := h4 m hm ha
      exact ⟨c, ec, isDwt_rename hc hdwt⟩
    · obtain ⟨c, ec, hc⟩ := h3 hL m
      exact ⟨c, ec, isDwt_rename hc hdwt⟩
  · rintro ⟨c, hc, rfl⟩
    obtain ⟨hg, hd, m, hm, ha, hdwt⟩ := wavedec2_ok hF hhi hc
    obtain ⟨h3, h4, -⟩ := ((fswavedecn_char (n := 2) (mode := mode) (x := x) (level := level) (h := axes)
      (by omega) hF hhi).2 hg hd).2 hae
    rcases hm with hm | hL
    · obtain ⟨c', ec, hc'⟩ := h4 m hm ha
      rw [sepDetailKeys2] at hc'
      rw [← isDwt_rename hdwt hc']; exact ec
    · obtain ⟨c', ec, hc'⟩ := h3 hL m
      rw [sepDetailKeys2] at hc'
      rw [← isDwt_rename hdwt hc']; exact ec

/-- **C19.** The excluded case: with an automatic level and an empty side `fswavedec2` raises
OverflowError, while `wavedec2` returns the image. -/
theorem c19_empty_side [Semiring R] (x : Tensor R) (w : Wavelet R) (mode : Option String)
    (axes : AxisHint) (hF : 2 ≤ w.len) (hhi : w.decHi.length = w.len) (hg : GoodAxes axes x.rank 2)
    (hdt : x.md.dtype = .float32 ∨ x.md.dtype = .float64) (a : Nat) (ha : a ∈ axesOf axes x.rank 2)
    (h0 : x.shape.getD a 0 = 0) :
    fswavedec2 x w mode none axes = .error .overflowError ∧
      wavedec2 x w mode none axes = .ok ⟨false, [.tensor x]⟩ := by
  have hd : isDtypeSupported x.md.dtype = true := by unfold isDtypeSupported; simpa using hdt
  have hmem : 0 ∈ sizes (axesOf axes x.rank 2) x.shape := List.mem_map.mpr ⟨a, ha, h0⟩
  have hne : sizes (axesOf axes x.rank 2) x.shape ≠ [] := fun e => by rw [e] at hmem; cases hmem
  refine ⟨((fswavedecn_char (n := 2) (mode := mode) (x := x) (level := none) (h := axes)
      (by omega) hF hhi).2 hg hd).1 ⟨rfl, hmem⟩, ?_⟩
  have hL : levelsN none w.len (sizes (axesOf axes x.rank 2) x.shape) = 0 :=
    (autoLevelN_spec w.len hF _ hne).1 ⟨0, hmem, by omega⟩
  obtain ⟨c, ec, hc⟩ := ((wavedec2_char (mode := mode) (x := x) (level := none) (h := axes) hF hhi).2 hg hd).1
    hL .zero
  rw [ec]
  rw [hL] at hc
  obtain ⟨il, items⟩ := c
  obtain ⟨k1, k2, ⟨t, k3, k4⟩, -⟩ := hc
  simp only at k1 k2 k3
  subst k1
  match items, k2 with
  | [e], _ =>
    simp only [List.getElem?_cons_zero, Option.some.injEq] at k3
    subst k3
    have k4' : AlongAxes (axesOf axes x.rank 2) (levelLens w.len (sizes (axesOf axes x.rank 2) x.shape) 0)
      (fun X => cAN .zero w (sizes (axesOf axes x.rank 2) x.shape) X 0) x t := k4
    rw [levelLens_zero] at k4'
    rw [alongAxes_id hg.lt (fun X ks => rfl) k4']

/-- Two entries are equal as Python values, up to the insertion order of dictionaries. -/
inductive SameEntry [Zero R] : Entry R → Entry R → Prop
  | tensor (t : Tensor R) : SameEntry (.tensor t) (.tensor t)
  | dict (kv kv' : List (String × Tensor R)) (h : kv.Perm kv') (hn : (kv.map Prod.fst).Nodup) :
      SameEntry (.dict kv) (.dict kv')

theorem isDwt_same3 [NonUnitalNonAssocSemiring R] {m : Mode} {w : Wavelet R} {ax : List Nat} {L : Nat}
    {x : Tensor R} {c c' : Coeffs R} (h : IsDwt3 m w ax L x c)
    (h' : IsDwtN (IsDict (sepDetailKeys 3)) m w ax L x c') :
    c.isList = c'.isList ∧ List.Forall₂ SameEntry c.items c'.items := by
  obtain ⟨il, items⟩ := c
  obtain ⟨il', items'⟩ := c'
  obtain ⟨k1, k2, ⟨t, k3, k4⟩, k5⟩ := h
  obtain ⟨l1, l2, ⟨t', l3, l4⟩, l5⟩ := h'
  simp only at k1 k2 k3 k5 l1 l2 l3 l5
  subst k1 l1
  refine ⟨rfl, ?_⟩
  rw [List.forall₂_iff_get]
  refine ⟨by rw [k2, l2], ?_⟩
  intro i h1 h2
  simp only [List.get_eq_getElem]
  change i < items.length at h1
  change i < items'.length at h2
  have g1 : items[i]? = some items[i] := List.getElem?_eq_getElem h1
  have g2 : items'[i]? = some items'[i] := List.getElem?_eq_getElem h2
  rcases Nat.eq_zero_or_pos i with rfl | hi
  · rw [← Option.some.inj (k3.symm.trans (List.getElem?_eq_getElem h1)),
      ← Option.some.inj (l3.symm.trans (List.getElem?_eq_getElem h2)), alongAxes_unique l4 k4]
    exact .tensor t
  · obtain ⟨e, he, kv, rfl, hk, hp⟩ := k5 (L - i) (by omega)
    obtain ⟨e', he', kv', rfl, hk', hp'⟩ := l5 (L - i) (by omega)
    rw [show L - (L - i) = i by omega] at he he'
    rw [← Option.some.inj (he.symm.trans g1), ← Option.some.inj (he'.symm.trans g2)]
    have hn : (kv.map Prod.fst).Nodup := by rw [hk]; decide
    have hn' : (kv'.map Prod.fst).Nodup := by rw [hk', sepDetailKeys3]; decide
    refine .dict kv kv' ?_ hn
    rw [List.perm_ext_iff_of_nodup (List.Nodup.of_map _ hn) (List.Nodup.of_map _ hn')]
    have key : ∀ {l l' : List (String × Tensor R)}, (∀ k, k ∈ l.map Prod.fst → k ∈ l'.map Prod.fst) →
        (∀ q ∈ l, IsBand m w ax x (L - i) (bandOfKey q.1) q.2) →
        (∀ q ∈ l', IsBand m w ax x (L - i) (bandOfKey q.1) q.2) → ∀ q ∈ l, q ∈ l' := by
      intro l l' hkk hl hl' q hq
      obtain ⟨q', hq', e⟩ := List.mem_map.mp (hkk q.1 (List.mem_map_of_mem hq))
      have a := hl q hq
      have b := hl' q' hq'
      rw [e] at b
      have : q = q' := Prod.ext e.symm (alongAxes_unique a b)
      rw [this]; exact hq'
    intro q
    constructor
    · exact key (fun k hk1 => by rw [hk'] ; rw [hk] at hk1; exact (keys3_perm k).mp hk1) hp hp' q
    · exact key (fun k hk1 => by rw [hk] ; rw [hk'] at hk1; exact (keys3_perm k).mpr hk1) hp' hp q

/-- **C19.** With at least one level, `fswavedec3` succeeds exactly if `wavedec3` does, and both return
the same tensors under the same keys. -/
theorem c19_fswavedec3 [Semiring R] (x : Tensor R) (w : Wavelet R) (mode : Option String)
    (level : Option Int) (axes : AxisHint) (hF : 2 ≤ w.len) (hhi : w.decHi.length = w.len)
    (hL : 0 < levelsN level w.len (sizes (axesOf axes x.rank 3) x.shape)) :
    ((∃ c, wavedec3 x w mode level axes = .ok c) ↔ ∃ c', fswavedec3 x w mode level axes = .ok c') ∧
    ∀ c c', wavedec3 x w mode level axes = .ok c → fswavedec3 x w mode level axes = .ok c' →
      c.isList = c'.isList ∧ List.Forall₂ SameEntry c.items c'.items := by
  have hboth : ∀ c, wavedec3 x w mode level axes = .ok c → ∃ c', fswavedec3 x w mode level axes = .ok c' ∧
      c.isList = c'.isList ∧ List.Forall₂ SameEntry c.items c'.items := by
    intro c hc
    obtain ⟨hg, hd, m, hm, ha, hdwt⟩ := wavedec3_ok hF hhi hL hc
    have hae : ¬ AutoEmpty level (sizes (axesOf axes x.rank 3) x.shape) := by
      rintro ⟨rfl, h0⟩
      have hne : sizes (axesOf axes x.rank 3) x.shape ≠ [] := fun e => by rw [e] at h0; cases h0
      have : levelsN none w.len (sizes (axesOf axes x.rank 3) x.shape) = 0 :=
        (autoLevelN_spec w.len hF _ hne).1 ⟨0, h0, by omega⟩
      omega
    obtain ⟨-, h4, -⟩ := ((fswavedecn_char (n := 3) (mode := mode) (x := x) (level := level) (h := axes)
      (by omega) hF hhi).2 hg hd).2 hae
    obtain ⟨c', ec, hc'⟩ := h4 m hm ha
    exact ⟨c', ec, isDwt_same3 hdwt hc'⟩
  refine ⟨⟨fun ⟨c, hc⟩ => ?_, fun ⟨c', hc'⟩ => ?_⟩, ?_⟩
  · obtain ⟨c', ec, -⟩ := hboth c hc
    exact ⟨c', ec⟩
  · obtain ⟨hg, hd, -, m, hm, ha, hdwt⟩ := fswavedecn_ok (n := 3) (by omega) hF hhi hc'
    obtain ⟨h4, -⟩ := (wavedec3_char (mode := mode) (x := x) (level := level) (h := axes) hF hhi).2 hg hd hL
    rcases hm with hm | hm
    · obtain ⟨c, ec, -⟩ := h4 m hm ha
      exact ⟨c, ec⟩
    · omega
  · intro c c' hc hc'
    obtain ⟨c'', ec, h⟩ := hboth c hc
    rw [ec] at hc'; cases hc'
    exact h

/-- The hypotheses of C19 are met. -/
example : ∃ c', fswavedec2 exI haar (some "symmetric") (some 2) (.seq [2, -3]) = .ok c' ∧
    c'.items.length = 3 := by
  obtain ⟨c, hc⟩ := ex_wavedec2
  refine ⟨_, (c19_fswavedec2 exI haar _ _ _ (by decide) rfl (fun h => by cases h) _).mpr ⟨c, hc, rfl⟩, ?_⟩
  obtain ⟨m, -, hd⟩ := c16_wavedec2_textbook exI haar _ _ _ c (by decide) rfl hc
  show (c.items.map asDict).length = 3
  rw [List.length_map, hd.length]
  rfl

theorem ex_fswavedec3 : ∃ c', fswavedec3 exV haar (some "constant") (some 2) (.seq [1, -1, 0]) = .ok c' :=
  (c19_fswavedec3 exV haar _ _ _ (by decide) rfl (by decide)).1.mp ex_wavedec3

/-- An image with an empty side. -/
example : fswavedec2 (ofFn ⟨.float32, 0⟩ [0, 4] fun _ => (1 : ℚ)) haar none none .none
    = .error .overflowError :=
  (c19_empty_side _ haar none .none (by decide) rfl (goodAxes_none (by decide) (by decide)) (Or.inl rfl) 0
    (by decide) rfl).1

/-! ### C20: perfect reconstruction -/

theorem sep_reconstructs [Field R] [CharZero R] {n : Nat} {keys : List String} {x : Tensor R} {w : Wavelet R}
    {F : Nat} {m : Mode} {L : Nat} {axes : AxisHint} {c : Coeffs R} (hn : 1 ≤ n) (hk : AllDetails n keys)
    (hw : PRBank w F) (hF : 2 ≤ F) (he : F % 2 = 0) (hg : GoodAxes axes x.rank n)
    (hd : isDtypeSupported x.md.dtype = true)
    (ha : LevelsAdmit m F (sizes (axesOf axes x.rank n) x.shape) L)
    (hdwt : IsDwtN (IsDict keys) m w (axesOf axes x.rank n) L x c) :
    ∃ z, (fswaverecn c w n axes).1 = .ok z ∧
      Reconstructs (axesOf axes x.rank n) (c.items.length - 1) x z := by
  obtain ⟨z, c₀, t, ds, es, ez, h0, h1, -⟩ := fswaverecn_isDwt hn hk hw hF he hg hd ha hdwt
  refine ⟨z, ez, ?_⟩
  rw [hdwt.length, Nat.add_sub_cancel]
  exact reconstructs_of hg h0 h1

theorem fsrec_of_fsdec [Field R] [CharZero R] {n : Nat} {x : Tensor R} {w : Wavelet R} {F : Nat}
    {mode : Option String} {level : Option Int} {axes : AxisHint} {c : Coeffs R} (hn : 1 ≤ n)
    (hw : PRBank w F) (hF : 2 ≤ F) (he : F % 2 = 0)
    (hc : fswavedecn x w n mode level axes = .ok c) :
    ∃ z, (fswaverecn c w n axes).1 = .ok z ∧
      Reconstructs (axesOf axes x.rank n) (c.items.length - 1) x z := by
  have hFw : w.len = F := hw.len.1
  have hhi : w.decHi.length = w.len := by rw [hFw]; exact hw.len.2.1
  obtain ⟨hg, hd, -, m, -, ha, hdwt⟩ := fswavedecn_ok hn (by omega) hhi hc
  rw [hFw] at ha hdwt
  exact sep_reconstructs hn (allDetails_sep n) hw hF he hg hd ha hdwt

/-- **C20.** Whenever `fswavedec2` succeeds with an even-length perfect reconstruction bank, `fswaverec2`
succeeds on its result and returns the input, with at most one more sample along an odd axis. -/
theorem c20_perfect_reconstruction_2d [Field R] [CharZero R] (x : Tensor R) (w : Wavelet R) (F : Nat)
    (mode : Option String) (level : Option Int) (axes : AxisHint) (c : Coeffs R)
    (hw : PRBank w F) (hF : 2 ≤ F) (he : F % 2 = 0)
    (hc : fswavedec2 x w mode level axes = .ok c) :
    ∃ z, (fswaverec2 c w axes).1 = .ok z ∧
      Reconstructs (axesOf axes x.rank 2) (c.items.length - 1) x z :=
  fsrec_of_fsdec (by omega) hw hF he hc

/-- **C20** for `fswavedec3` and `fswaverec3`, for any number of levels (including none). -/
theorem c20_perfect_reconstruction_3d [Field R] [CharZero R] (x : Tensor R) (w : Wavelet R) (F : Nat)
    (mode : Option String) (level : Option Int) (axes : AxisHint) (c : Coeffs R)
    (hw : PRBank w F) (hF : 2 ≤ F) (he : F % 2 = 0)
    (hc : fswavedec3 x w mode level axes = .ok c) :
    ∃ z, (fswaverec3 c w axes).1 = .ok z ∧
      Reconstructs (axesOf axes x.rank 3) (c.items.length - 1) x z :=
  fsrec_of_fsdec (by omega) hw hF he hc

/-- **C20.** `fswaverec3` also inverts `wavedec3`. -/
theorem c20_fswaverec3_inverts_wavedec3 [Field R] [CharZero R] (x : Tensor R) (w : Wavelet R) (F : Nat)
    (mode : Option String) (level : Option Int) (axes : AxisHint) (c : Coeffs R)
    (hw : PRBank w F) (hF : 2 ≤ F) (he : F % 2 = 0)
    (hL : 0 < levelsN level F (sizes (axesOf axes x.rank 3) x.shape))
    (hc : wavedec3 x w mode level axes = .ok c) :
    ∃ z, (fswaverec3 c w axes).1 = .ok z ∧
      Reconstructs (axesOf axes x.rank 3) (c.items.length - 1) x z := by
  have hFw : w.len = F := hw.len.1
  have hhi : w.decHi.length = w.len := by rw [hFw]; exact hw.len.2.1
  obtain ⟨hg, hd, m, -, ha, hdwt⟩ := wavedec3_ok (by omega) hhi (by rw [hFw]; exact hL) hc
  rw [hFw] at ha hdwt
  exact sep_reconstructs (by omega) allDetails_keys3 hw hF he hg hd ha hdwt

/-- The hypotheses of C20 are met: two Haar levels along three odd and even axes. -/
example : ∃ c z, fswavedec3 exV haar (some "constant") (some 2) (.seq [1, -1, 0]) = .ok c ∧
    (fswaverec3 c haar (.seq [1, -1, 0])).1 = .ok z ∧ z.shape = [4, 2, 6] := by
  obtain ⟨c, hc⟩ := ex_fswavedec3
  obtain ⟨z, h1, h2⟩ := c20_perfect_reconstruction_3d exV haar 2 _ _ _ c haar_pr (by decide) rfl hc
  refine ⟨c, z, hc, h1, h2.shape ?_⟩
  obtain ⟨-, -, -, m, -, -, hd⟩ := fswavedecn_ok (n := 3) (by omega) (by decide) rfl hc
  rw [hd.length]
  exact (by decide : 0 < levelsN (some 2) haar.len
    (sizes (axesOf (.seq [1, -1, 0]) exV.rank 3) exV.shape) + 1 - 1)

/-! ### C21: what an inverse transform does to its argument

`waverec`, `waverec2` and `waverec3` are modelled as pure functions: they only build new containers.  The
separable inverse transforms write into dictionaries, which may be the caller's. -/

/-- **C21.** The caller's container is left as it was unless the axes are the default ones and the first
tensor has exactly one batch axis. -/
theorem c21_unchanged [NonUnitalNonAssocSemiring R] (c : Coeffs R) (t : Tensor R) (w : Wavelet R)
    (ndim : Nat) (axes : AxisHint) (ht : headTensor c = .ok t)
    (h : resolve axes ndim ≠ resolve .none ndim ∨ t.rank ≠ ndim + 1) :
    (fswaverecn c w ndim axes).2 = c := by
  have hp : preAliases c ndim axes = false := by
    unfold preAliases
    cases ea : ensureAxes axes ndim with
    | error e => rfl
    | ok a =>
      cases ed : getDefaultAxes ndim with
      | error e => rfl
      | ok d =>
        rw [ht]
        simp only [decide_eq_false_iff_not]
        rintro ⟨h1, h2⟩
        rcases h with h | h
        · exact h ((resolve_default ea ed).mp h1)
        · exact h h2
  unfold fswaverecn
  split
  · rfl
  · split
    · rfl
    · simp only [hp, Bool.false_eq_true, if_false]

theorem dicts_modified [Field R] [CharZero R] {ndim : Nat} {keys : List String} {x : Tensor R} {w : Wavelet R}
    {F L : Nat} {m : Mode} {c : Coeffs R} (hn : 1 ≤ ndim) (hk : AllDetails ndim keys)
    (hw : PRBank w F) (hF : 2 ≤ F) (he : F % 2 = 0) (hr : x.rank = ndim + 1)
    (hd : isDtypeSupported x.md.dtype = true)
    (ha : LevelsAdmit m F (sizes (axesOf .none x.rank ndim) x.shape) L)
    (hdwt : IsDwtN (IsDict keys) m w (axesOf .none x.rank ndim) L x c) :
    preAliases (fswaverecn c w ndim .none).2 ndim .none = true ∧
    (fswaverecn c w ndim .none).2.items.length = c.items.length ∧
    (fswaverecn c w ndim .none).2.items.head? = c.items.head? ∧
    ∀ i, 0 < i → i < c.items.length → ∃ kv t, c.items[i]? = some (.dict kv) ∧
      aKey ndim ∉ kv.map Prod.fst ∧
      (fswaverecn c w ndim .none).2.items[i]? = some (.dict (kv ++ [(aKey ndim, t)])) := by
  have hg : GoodAxes .none x.rank ndim := goodAxes_none hn (by omega)
  obtain ⟨z, c₀, t, ds, es, ez, -, -, ep, hga, e2⟩ := fswaverecn_isDwt hn hk hw hF he hg hd ha hdwt
  obtain ⟨t0, h0, ht0⟩ := hdwt.approx
  have hhead : headTensor c = .ok t0 := by
    unfold headTensor
    match hci : c.items with
    | [] => rw [hci] at h0; cases h0
    | e :: l =>
      rw [hci] at h0
      simp only [List.getElem?_cons_zero, Option.some.injEq] at h0
      rw [h0]
  have hrk : t0.rank = ndim + 1 := by
    rw [← hr]; unfold Tensor.rank; rw [ht0.shape, setMany_length]
  have hal : preAliases c ndim .none = true := by
    unfold preAliases
    rw [hhead]
    simp only [ensureAxes, getDefaultAxes_ok hn, hrk]
    simp
  have hcc := preprocess_alias ep hal
  simp only at hcc
  have htt : t = t0 := by
    rw [← hcc] at hhead
    cases hhead; rfl
  rw [e2, if_pos hal]
  refine ⟨?_, by rw [← hcc]; simp [hga.length_eq], by rw [← hcc]; rfl, ?_⟩
  · unfold preAliases
    simp only [headTensor, ensureAxes, getDefaultAxes_ok hn, htt, hrk]
    simp
  intro i hi hil
  have hil' : i < (⟨false, .tensor t :: ds⟩ : Coeffs R).items.length := by rw [hcc]; exact hil
  obtain ⟨j, rfl⟩ : ∃ j, i = j + 1 := ⟨i - 1, by omega⟩
  simp only [List.length_cons] at hil'
  have hj : j < es.length := by rw [← hga.length_eq]; omega
  obtain ⟨e, he', kv, u, rfl, hu, -⟩ := forall₂_getElem? hga (List.getElem?_eq_getElem hj)
  have hit : c.items[j + 1]? = some (.dict kv) := by rw [← hcc]; exact he'
  have hnk : aKey ndim ∉ kv.map Prod.fst := by
    have hlen := hdwt.length
    have hds : ds.length + 1 = c.items.length := by rw [← hcc]; rfl
    obtain ⟨e', he'', kv', rfl, hk', -⟩ := hdwt.detail (L - (j + 1)) (by omega)
    rw [show L - (L - (j + 1)) = j + 1 by omega, hit] at he''
    cases he''
    rw [hk', hk]
    rintro ⟨bs, hl, ht, e⟩
    rw [← keyOf_low] at e
    rw [← keyOf_inj e] at ht
    exact not_mem_lowBand ndim ht
  refine ⟨kv, u, hit, hnk, ?_⟩
  rw [List.getElem?_cons_succ, List.getElem?_eq_getElem hj, hu]
  unfold dictSet
  rw [if_neg]
  intro hany
  rw [List.any_eq_true] at hany
  obtain ⟨q, hq, hqe⟩ := hany
  exact hnk (List.mem_map.mpr ⟨q, hq, by simpa using hqe⟩)

/-- **C21, negative.** With default axes and one batch axis, `fswaverec2` and `fswaverec3` modify the
caller's coefficients: every detail dictionary gains a new entry, the approximation under the key
`aa` (`aaa`), behind its unchanged old entries. -/
theorem c21_dicts_modified [Field R] [CharZero R] (ndim : Nat) (hn : 1 ≤ ndim) (x : Tensor R) (w : Wavelet R)
    (F : Nat) (mode : Option String) (level : Option Int) (c : Coeffs R)
    (hw : PRBank w F) (hF : 2 ≤ F) (he : F % 2 = 0) (hr : x.rank = ndim + 1)
    (hc : fswavedecn x w ndim mode level .none = .ok c) :
    (fswaverecn c w ndim .none).2.items.length = c.items.length ∧
    (fswaverecn c w ndim .none).2.items.head? = c.items.head? ∧
    ∀ i, 0 < i → i < c.items.length → ∃ kv t, c.items[i]? = some (.dict kv) ∧
      aKey ndim ∉ kv.map Prod.fst ∧
      (fswaverecn c w ndim .none).2.items[i]? = some (.dict (kv ++ [(aKey ndim, t)])) := by
  have hFw : w.len = F := hw.len.1
  have hhi : w.decHi.length = w.len := by rw [hFw]; exact hw.len.2.1
  obtain ⟨hg, hd, -, m, -, ha, hdwt⟩ := fswavedecn_ok hn (by omega) hhi hc
  rw [hFw] at ha hdwt
  exact (dicts_modified hn (allDetails_sep ndim) hw hF he hr hd ha hdwt).2

/-- The container after `k` calls of the separable inverse transform. -/
def afterCalls [NonUnitalNonAssocSemiring R] (w : Wavelet R) (ndim : Nat) (axes : AxisHint) :
    Nat → Coeffs R → Coeffs R
  | 0, c => c
  | k + 1, c => afterCalls w ndim axes k (fswaverecn c w ndim axes).2

/-- **C21.** In spite of the modification every further call on the same object, however often, returns
what the first call returned (value or error), for every container whatsoever. -/
theorem c21_same_result [NonUnitalNonAssocSemiring R] (c : Coeffs R) (w : Wavelet R) (ndim : Nat)
    (axes : AxisHint) (k : Nat) :
    (fswaverecn (afterCalls w ndim axes k c) w ndim axes).1 = (fswaverecn c w ndim axes).1 := by
  induction k generalizing c with
  | zero => rfl
  | succ k ih =>
    rw [afterCalls, ih, fswaverecn_idem]

/-- … and the container does not change any more after the first call. -/
theorem c21_container_stable [NonUnitalNonAssocSemiring R] (c : Coeffs R) (w : Wavelet R) (ndim : Nat)
    (axes : AxisHint) (k : Nat) :
    afterCalls w ndim axes (k + 1) c = (fswaverecn c w ndim axes).2 := by
  induction k generalizing c with
  | zero => rfl
  | succ k ih =>
    rw [afterCalls, ih, fswaverecn_idem]

/-- **C21, negative.** The modification is observable: the coefficients of `wavedec3` are accepted by
`waverec3`; after a call of `fswaverec3` on them they are a ValueError for `waverec3`, for every input with
one batch axis and at least one level. -/
theorem c21_waverec3_fails_afterwards [Field R] [CharZero R] (x : Tensor R) (w : Wavelet R) (F : Nat)
    (mode : Option String) (level : Option Int) (c : Coeffs R)
    (hw : PRBank w F) (hF : 2 ≤ F) (he : F % 2 = 0) (hr : x.rank = 4)
    (hL : 0 < levelsN level F (sizes (axesOf .none x.rank 3) x.shape))
    (hc : wavedec3 x w mode level .none = .ok c) :
    (∃ z, waverec3 c w .none = .ok z) ∧
    waverec3 (fswaverec3 c w .none).2 w .none = .error .valueError := by
  have hFw : w.len = F := hw.len.1
  have hhi : w.decHi.length = w.len := by rw [hFw]; exact hw.len.2.1
  obtain ⟨z, ez, -⟩ := c17_perfect_reconstruction x w F mode level .none c hw hF he hL hc
  refine ⟨⟨z, ez⟩, ?_⟩
  obtain ⟨hg, hd, m, -, ha, hdwt⟩ := wavedec3_ok (by omega) hhi (by rw [hFw]; exact hL) hc
  rw [hFw] at ha hdwt
  set L := levelsN level F (sizes (axesOf .none x.rank 3) x.shape) with hLdef
  have hlen := hdwt.length
  obtain ⟨hal, h1, h2, h3⟩ := dicts_modified (by omega) allDetails_keys3 hw hF he hr hd ha hdwt
  obtain ⟨kv, t, hkv, -, hkv'⟩ := h3 1 (by omega) (by omega)
  have hkl : kv.length = 7 := by
    obtain ⟨e', he'', kv', rfl, hk', -⟩ := hdwt.detail (L - 1) (by omega)
    rw [show L - (L - 1) = 1 by omega, hkv] at he''
    cases he''
    have := congrArg List.length hk'
    rw [List.length_map] at this
    exact this
  -- the second call of the separable transform shows that the checks pass
  have hidem := fswaverecn_idem (w := w) c 3 .none
  obtain ⟨z', c₀, t', ds', es', ez', -⟩ := fswaverecn_isDwt (by omega) allDetails_keys3 hw hF he hg hd ha hdwt
  set c' := (fswaverecn c w 3 .none).2 with hc'
  have hok : (fswaverecn c' w 3 .none).1 = .ok z' := by rw [hidem]; exact ez'
  cases ep : preprocessCoeffs c' 3 .none false with
  | error e => unfold fswaverecn at hok; simp only [ep] at hok; cases hok
  | ok p =>
    cases ec : checkSameDeviceDtype p.1 with
    | error e => unfold fswaverecn at hok; simp only [ep, ec] at hok; cases hok
    | ok md =>
      have hp := preprocess_alias ep hal
      obtain ⟨filt, ef, -⟩ := construct3d_ok (lo := w.recLo) (hi := w.recHi) hw.len.2.2.1 hw.len.2.2.2 false md
      show waverec3 c' w .none = _
      unfold waverec3
      have hhead : ∃ t0, headTensor p.1 = .ok t0 := by
        unfold checkSameDeviceDtype at ec
        obtain ⟨t0, e0, -⟩ := bind_ok_inv ec
        exact ⟨t0, e0⟩
      obtain ⟨t0, e0⟩ := hhead
      simp only [bind, Except.bind, ep, ec, ef, e0]
      rw [hp]
      match hci : c'.items with
      | [] => rw [hci] at hkv'; cases hkv'
      | [_] => rw [hci] at hkv'; cases hkv'
      | e0 :: e1 :: l =>
        rw [hci] at hkv'
        simp only [List.getElem?_cons_succ, List.getElem?_cons_zero, Option.some.injEq] at hkv'
        subst hkv'
        rw [List.tail_cons, waverec3Loop]
        have hstep : waverec3Step filt w.recLo.length t0 (.dict (kv ++ [(aKey 3, t)])) l
            = .error .valueError := by
          unfold waverec3Step
          simp only
          rw [if_neg (by rintro ⟨h, -⟩; simp [hkl] at h)]
        rw [hstep]
        rfl

/-- A batch of volumes, for which the modification happens. -/
def exW : Tensor ℚ := ofFn ⟨.float64, 0⟩ [2, 3, 4, 5] fun i =>
  (i.getD 0 0 : ℚ) + 2 * (i.getD 1 0 : ℚ) + 3 * (i.getD 2 0 : ℚ) + 5 * (i.getD 3 0 : ℚ)

theorem ex_exW : ∃ c, wavedec3 exW haar none (some 1) .none = .ok c := by
  refine (c18_wavedec3_succeeds_iff exW haar none .reflect _ _ (Or.inr ⟨rfl, rfl⟩) (by decide) rfl
    (by decide)).mpr ⟨goodAxes_none (by decide) (by decide), Or.inr rfl, ?_⟩
  have hs : sizes (axesOf .none exW.rank 3) exW.shape = [3, 4, 5] := rfl
  rw [hs]
  intro s hs' k hk
  have : s = 0 := by
    have : levelsN (some 1) haar.len [3, 4, 5] = 1 := rfl
    omega
  subst this
  simp only [levelLens, levelLen, List.map_cons, List.map_nil, List.mem_cons, List.not_mem_nil, or_false] at hk
  rcases hk with rfl | rfl | rfl
  · exact (by decide : 2 - 2 + 3 % 2 < 3)
  · exact (by decide : 2 - 2 + 4 % 2 < 4)
  · exact (by decide : 2 - 2 + 5 % 2 < 5)

/-- The hypotheses of the negative parts of C21 are met. -/
example : ∃ c, wavedec3 exW haar none (some 1) .none = .ok c ∧
    waverec3 (fswaverec3 c haar .none).2 haar .none = .error .valueError := by
  obtain ⟨c, hc⟩ := ex_exW
  exact ⟨c, hc, (c21_waverec3_fails_afterwards exW haar 2 _ _ c haar_pr (by decide) rfl rfl
    (by decide) hc).2⟩

example : ∃ c kv t, fswavedec3 exW haar none (some 1) .none = .ok c ∧
    (fswaverec3 c haar .none).2.items[1]? = some (.dict (kv ++ [("aaa", t)])) := by
  obtain ⟨c, hc⟩ := (c19_fswavedec3 exW haar _ _ _ (by decide) rfl (by decide)).1.mp ex_exW
  obtain ⟨-, -, -, m, -, -, hd⟩ := fswavedecn_ok (n := 3) (by omega) (by decide) rfl hc
  have hl : 1 < c.items.length := by
    rw [hd.length]
    exact (by decide : 1 < levelsN (some 1) haar.len (sizes (axesOf .none exW.rank 3) exW.shape) + 1)
  obtain ⟨kv, t, -, -, h⟩ := (c21_dicts_modified 3 (by decide) exW haar 2 _ _ c haar_pr (by decide) rfl rfl
    hc).2.2 1 (by decide) hl
  exact ⟨c, kv, t, hc, h⟩

/-- … and those of the positive part: other axes. -/
example : ∃ c, fswavedec3 exV haar (some "constant") (some 2) (.seq [1, -1, 0]) = .ok c ∧
    (fswaverec3 c haar (.seq [1, -1, 0])).2 = c := by
  obtain ⟨c, hc⟩ := ex_fswavedec3
  obtain ⟨-, -, -, m, -, -, hd⟩ := fswavedecn_ok (n := 3) (by omega) (by decide) rfl hc
  obtain ⟨t, h0, -⟩ := hd.approx
  refine ⟨c, hc, c21_unchanged c t haar 3 _ ?_ (Or.inl (by decide))⟩
  unfold headTensor
  match hci : c.items with
  | [] => rw [hci] at h0; cases h0
  | e :: l =>
    rw [hci] at h0
    simp only [List.getElem?_cons_zero, Option.some.injEq] at h0
    rw [h0]

end Verif.Props
