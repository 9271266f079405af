import Verif.Lemmas.Packet2
import Verif.Lemmas.PacketsTop

/-! The two-dimensional packet object with a padding mode. -/

namespace Verif
open Tensor Spec Props
variable {R : Type}

theorem packetBand_length (sep : Bool) (c : Char) : (packetBand sep c).length = 2 := by
  unfold packetBand letterBand letterBandSwapped
  split_ifs <;> rfl

section
variable [Semiring R] {w : Wavelet R} {mode : Option String} {axes : List Int} {sep : Bool}

/-- The four bands of one level. -/
theorem dwt2_level_one {m : Mode} {ax : List Nat} {x : Tensor R} {c : Coeffs R} (hax : ax.length = 2)
    (h : IsDwt2 m w ax 1 x c) :
    ∃ a h v d : Tensor R, c.items = [.tensor a, .tuple h v d] ∧
      (∀ b t, (b, t) ∈ [([false, false], a), ([true, false], h), ([false, true], v), ([true, true], d)] →
        AlongAxes ax (nextLens w.len (sizes ax x.shape)) (bandN m w b (sizes ax x.shape)) x t) := by
  obtain ⟨-, hl, ⟨a, ha, hA⟩, hd⟩ := h
  obtain ⟨e, he, hh, vv, dd, rfl, hh1, hv1, hd1⟩ := hd 0 (by omega)
  obtain ⟨i0, i1, hi⟩ := List.length_eq_two.mp hl
  rw [hi] at ha he
  simp only [List.getElem?_cons_zero, Option.some.injEq] at ha
  simp only [Nat.sub_zero, List.getElem?_cons_succ, List.getElem?_cons_zero, Option.some.injEq] at he
  refine ⟨a, hh, vv, dd, by rw [hi, ha, he], ?_⟩
  have hns : (sizes ax x.shape).length = 2 := by simpa [sizes] using hax
  have e0 : levelLens w.len (sizes ax x.shape) 0 = sizes ax x.shape := levelLens_zero _ _
  have e1 : levelLens w.len (sizes ax x.shape) (0 + 1) = nextLens w.len (sizes ax x.shape) := by
    rw [levelLens_succ, e0]; rfl
  have hb : ∀ b t, IsBand m w ax x 0 b t →
      AlongAxes ax (nextLens w.len (sizes ax x.shape)) (bandN m w b (sizes ax x.shape)) x t := by
    intro b t hbt
    unfold IsBand at hbt
    rw [e1] at hbt
    have : (fun X => cDN m w (sizes ax x.shape) X 0 b) = bandN m w b (sizes ax x.shape) := by
      funext X
      unfold cDN
      rw [e0]; rfl
    rwa [this] at hbt
  have hA' : AlongAxes ax (nextLens w.len (sizes ax x.shape)) (bandN m w [false, false] (sizes ax x.shape)) x a := by
    unfold IsApprox at hA
    rw [show levelLens w.len (sizes ax x.shape) 1 = _ from e1] at hA
    have : (fun X => cAN m w (sizes ax x.shape) X 1) = bandN m w [false, false] (sizes ax x.shape) := by
      funext X
      show bandN m w (lowBand (sizes ax x.shape).length) (levelLens w.len (sizes ax x.shape) 0) X = _
      rw [e0, hns]; rfl
    rwa [this] at hA
  intro b t hbt
  simp only [List.mem_cons, Prod.mk.injEq, List.not_mem_nil, or_false] at hbt
  rcases hbt with ⟨rfl, rfl⟩ | ⟨rfl, rfl⟩ | ⟨rfl, rfl⟩ | ⟨rfl, rfl⟩
  · exact hA'
  · exact hb _ _ hh1
  · exact hb _ _ hv1
  · exact hb _ _ hd1

theorem planeSizes_ok_inv {t : Tensor R} {ns : List Nat} (h : planeSizes axes t = .ok ns) : ValidAxes t.rank axes := by
  by_contra hn
  obtain ⟨e, he⟩ := planeSizes_bad hn
  rw [he] at h; cases h

/-- What one expansion does when it succeeds. -/
theorem packetDec2_char (hF : 2 ≤ w.len) (hhi : w.decHi.length = w.len) {t : Tensor R} {vs : List (Tensor R)}
    (hd : packetDec2 w mode axes sep t = .ok vs) :
    GoodAxes (.seq axes) t.rank 2 ∧ isDtypeSupported t.md.dtype = true ∧ ∃ m : Mode, Selects mode m ∧
      (∀ n ∈ sizes (axesOf (.seq axes) t.rank 2) t.shape, m.Admits w.len n) ∧
      ∃ f : Char → Tensor R, vs = ['a', 'h', 'v', 'd'].map f ∧ ∀ c ∈ ['a', 'h', 'v', 'd'],
        AlongAxes (axesOf (.seq axes) t.rank 2) (nextLens w.len (sizes (axesOf (.seq axes) t.rank 2) t.shape))
          (bandN m w (packetBand sep c) (sizes (axesOf (.seq axes) t.rank 2) t.shape)) t (f c) := by
  unfold packetDec2 at hd
  obtain ⟨ns, -, hd⟩ := bind_ok_inv hd
  have key : ∀ c, wavedec2 t w mode (some 1) (.seq axes) = .ok c →
      GoodAxes (.seq axes) t.rank 2 ∧ isDtypeSupported t.md.dtype = true ∧ ∃ m : Mode, Selects mode m ∧
      (∀ n ∈ sizes (axesOf (.seq axes) t.rank 2) t.shape, m.Admits w.len n) ∧
      ∃ a h v d : Tensor R, c.items = [.tensor a, .tuple h v d] ∧
      (∀ b u, (b, u) ∈ [([false, false], a), ([true, false], h), ([false, true], v), ([true, true], d)] →
        AlongAxes (axesOf (.seq axes) t.rank 2) (nextLens w.len (sizes (axesOf (.seq axes) t.rank 2) t.shape))
          (bandN m w b (sizes (axesOf (.seq axes) t.rank 2) t.shape)) t u) := by
    intro c hc
    obtain ⟨hg, hdt, m, hm, ha, hdwt⟩ := wavedec2_ok hF hhi hc
    refine ⟨hg, hdt, m, hm.resolve_right (by simp [levelsN]), ?_, dwt2_level_one (axesOf_length hg) hdwt⟩
    intro n hn
    exact ha 0 (by simp [levelsN]) n (by rw [levelLens_zero]; exact hn)
  cases sep with
  | true =>
    rw [if_pos rfl] at hd
    obtain ⟨c', hc', hd⟩ := bind_ok_inv hd
    obtain ⟨c, hc, rfl⟩ := (c19_fswavedec2 t w mode (some 1) (.seq axes) hF hhi (fun h => by cases h) c').mp hc'
    obtain ⟨hg, hdt, m, hm, ha, a, h, v, d, hi, hb⟩ := key c hc
    refine ⟨hg, hdt, m, hm, ha, fun c => if c = 'h' then v else if c = 'v' then h else if c = 'd' then d else a, ?_, ?_⟩
    · unfold unpackFsdict at hd
      simp only [hi, List.map_cons, List.map_nil, asDict] at hd
      simp [dictGet, bind, Except.bind, pure, Except.pure] at hd
      simp [← hd]
    · intro c hcm
      simp only [List.mem_cons, List.not_mem_nil, or_false] at hcm
      rcases hcm with rfl | rfl | rfl | rfl
      · exact hb [false, false] a (by simp)
      · exact hb [false, true] v (by simp)
      · exact hb [true, false] h (by simp)
      · exact hb [true, true] d (by simp)
  | false =>
    rw [if_neg (by simp)] at hd
    obtain ⟨c, hc, hd⟩ := bind_ok_inv hd
    obtain ⟨hg, hdt, m, hm, ha, a, h, v, d, hi, hb⟩ := key c hc
    refine ⟨hg, hdt, m, hm, ha, fun c => if c = 'h' then h else if c = 'v' then v else if c = 'd' then d else a, ?_, ?_⟩
    · unfold unpack2 at hd
      simp only [hi] at hd
      cases hd
      simp
    · intro c hcm
      simp only [List.mem_cons, List.not_mem_nil, or_false] at hcm
      rcases hcm with rfl | rfl | rfl | rfl
      · exact hb [false, false] a (by simp)
      · exact hb [true, false] h (by simp)
      · exact hb [false, true] v (by simp)
      · exact hb [true, true] d (by simp)

/-- When one expansion succeeds. -/
theorem packetDec2_ok (hF : 2 ≤ w.len) (hhi : w.decHi.length = w.len) {m : Mode} (hm : Selects mode m) {t : Tensor R}
    (hdt : isDtypeSupported t.md.dtype = true) (hg : GoodAxes (.seq axes) t.rank 2)
    (ha : ∀ n ∈ sizes (axesOf (.seq axes) t.rank 2) t.shape, m.Admits w.len n) :
    ∃ vs, packetDec2 w mode axes sep t = .ok vs := by
  obtain ⟨-, h2⟩ := wavedec2_char (mode := mode) (x := t) (level := some 1) (h := .seq axes) hF hhi
  obtain ⟨-, h4, -, -⟩ := h2 hg hdt
  obtain ⟨c, hc, hdwt⟩ := h4 m hm (by
    intro s hs n hn
    have : s = 0 := by simpa [levelsN] using hs
    subst this
    rw [levelLens_zero] at hn
    exact ha n hn)
  obtain ⟨a, h, v, d, hi, -⟩ := dwt2_level_one (axesOf_length hg) hdwt
  unfold packetDec2
  simp only [bind, Except.bind, planeSizes_ok hg]
  cases sep with
  | true =>
    rw [if_pos rfl, (c19_fswavedec2 t w mode (some 1) (.seq axes) hF hhi (fun h => by cases h) _).mpr ⟨c, hc, rfl⟩]
    unfold unpackFsdict
    simp [hi, asDict, dictGet, bind, Except.bind, pure, Except.pure]
  | false =>
    rw [if_neg (by simp), hc]
    unfold unpack2
    simp [hi]

theorem packet2_step (hF : 2 ≤ w.len) (hhi : w.decHi.length = w.len) {m : Mode} (hm : Selects mode m) :
    Step2 axes (fun t : Tensor R => isDtypeSupported t.md.dtype = true) (fun ns => ∀ n ∈ ns, m.Admits w.len n)
      (bandN m w) (nextLens w.len) (packetBand sep) (packetDec2 w mode axes sep) where
  char := by
    intro t vs _ hd
    obtain ⟨hg, -, m', hm', ha, f, hf, h⟩ := packetDec2_char hF hhi hd
    cases selects_unique hm hm'
    exact ⟨hg, ha, f, hf, h⟩
  dom := by
    intro t vs ht hd v hv
    obtain ⟨hg, -, m', hm', ha, f, rfl, h⟩ := packetDec2_char hF hhi hd
    obtain ⟨c, hc, rfl⟩ := List.mem_map.mp hv
    rw [(h c hc).md]; exact ht
  ok := fun t ht hg ha => packetDec2_ok hF hhi hm ht hg ha
  congr := by
    intro ns hns ha c X Y hXY ks hks
    refine bandN_congr ha (by rw [packetBand_length, hns]) hXY ?_
    rw [hks.length_eq]; simp [nextLens]
  len := by intro ns; simp [nextLens]

theorem packet2_pure (hF : 2 ≤ w.len) (hhi : w.decHi.length = w.len) :
    (packet2 w mode axes sep).Pure (fun _ => True) (fun _ => True) (packetDec2 w mode axes sep)
      (packetSyn2 w axes sep) where
  decRes := fun _ _ _ _ => rfl
  decInv := fun _ _ _ _ => trivial
  decDom := fun _ _ _ _ _ _ => trivial
  synRes := fun _ _ _ _ => rfl
  synInv := fun _ _ _ _ => trivial
  synDom := fun _ _ _ _ => trivial
  fitDom := fun _ _ _ _ _ _ => trivial
  len := by
    intro t vs _ h
    obtain ⟨-, -, m, -, -, f, rfl, -⟩ := packetDec2_char hF hhi h
    rfl
  nodup := by simp [packet2]

theorem packet2_complete : (packet2 w mode axes sep).Complete :=
  ⟨fun l k => getNaturalOrder2_mem l k, fun l => getNaturalOrder2_nodup l⟩

end

section
variable [Field R] [CharZero R] {w : Wavelet R} {F : Nat} {mode : Option String} {axes : List Int} {sep : Bool}

/-- Synthesis undoes one expansion. -/
theorem packet2_roundtrip (hw : PRBank w F) (hF : 2 ≤ F) (he : F % 2 = 0) {x : Tensor R} {vs : List (Tensor R)}
    (hd : packetDec2 w mode axes sep x = .ok vs) : GoodAxes (.seq axes) x.rank 2 ∧
      ∃ z, packetSyn2 w axes sep vs = .ok z ∧ Reconstructs (axesOf (.seq axes) x.rank 2) 1 x z := by
  have hFw : w.len = F := hw.len.1
  have hhi : w.decHi.length = w.len := by rw [hFw]; exact hw.len.2.1
  obtain ⟨hg, -, m, -, -, f, hf, hal⟩ := packetDec2_char (by omega) hhi hd
  refine ⟨hg, ?_⟩
  have hps : ∀ c ∈ ['a', 'h', 'v', 'd'], ∃ ns, planeSizes axes (f c) = .ok ns := by
    intro c hc
    exact ⟨_, planeSizes_ok (by rw [(hal c hc).rank]; exact hg)⟩
  obtain ⟨ns, hns⟩ := hps 'a' (by simp)
  unfold packetDec2 at hd
  obtain ⟨-, -, hd⟩ := bind_ok_inv hd
  cases sep with
  | true =>
    rw [if_pos rfl] at hd
    obtain ⟨c', hc', hd⟩ := bind_ok_inv hd
    obtain ⟨c, hc, hcc⟩ := (c19_fswavedec2 x w mode (some 1) (.seq axes) (by omega) hhi (fun h => by cases h) c').mp hc'
    obtain ⟨-, hdt, m, -, ha, hdwt⟩ := wavedec2_ok (by omega) hhi hc
    obtain ⟨a, h, v, d, hi, -⟩ := dwt2_level_one (axesOf_length hg) hdwt
    rw [hFw] at ha hdwt
    have hdwt' : IsDwtN (IsDict ["ad", "da", "dd"]) m w (axesOf (.seq axes) x.rank 2) 1 x
        ⟨false, [.tensor a, .dict [("ad", v), ("da", h), ("dd", d)]]⟩ := by
      refine ⟨rfl, rfl, ?_, ?_⟩
      · obtain ⟨t, ht, hA⟩ := hdwt.approx
        rw [hi] at ht
        cases ht
        exact ⟨a, rfl, hA⟩
      · intro s hs
        have : s = 0 := by omega
        subst this
        obtain ⟨e, he, h', v', d', rfl, b1, b2, b3⟩ := hdwt.detail 0 (by simp [levelsN])
        rw [hi] at he
        simp only [levelsN, Int.toNat_one, Nat.sub_zero, List.getElem?_cons_succ, List.getElem?_cons_zero,
          Option.some.injEq, Entry.tuple.injEq] at he
        obtain ⟨rfl, rfl, rfl⟩ := he
        refine ⟨_, rfl, _, rfl, rfl, ?_⟩
        intro q hq
        simp only [List.mem_cons, List.not_mem_nil, or_false] at hq
        rcases hq with rfl | rfl | rfl
        · rw [show bandOfKey "ad" = [false, true] by decide]; exact b2
        · rw [show bandOfKey "da" = [true, false] by decide]; exact b1
        · rw [show bandOfKey "dd" = [true, true] by decide]; exact b3
    obtain ⟨z, ez, hz⟩ := sep_reconstructs (n := 2) (by omega) (by
      intro k
      rw [← allDetails_sep 2 k, sepDetailKeys2]
      simp only [List.mem_cons, List.not_mem_nil, or_false]
      tauto) hw hF he hg hdt (L := 1) ha hdwt'
    rw [hcc] at hd
    unfold unpackFsdict at hd
    simp only [hi, List.map_cons, List.map_nil, asDict] at hd
    simp [dictGet, bind, Except.bind, pure, Except.pure] at hd
    refine ⟨z, ?_, hz⟩
    have ha' : f 'a' = a := by
      have := hd.trans hf
      simp at this
      exact this.1.symm
    rw [← hd]
    unfold packetSyn2
    rw [ha'] at hns
    simp only [bind, Except.bind, hns, if_true]
    exact ez
  | false =>
    rw [if_neg (by simp)] at hd
    obtain ⟨c, hc, hd⟩ := bind_ok_inv hd
    obtain ⟨-, -, m, -, -, hdwt⟩ := wavedec2_ok (by omega) hhi hc
    obtain ⟨a, h, v, d, hi, -⟩ := dwt2_level_one (axesOf_length hg) hdwt
    obtain ⟨z, ez, hz⟩ := c15_perfect_reconstruction x w F mode (some 1) (.seq axes) c hw hF he hc
    unfold unpack2 at hd
    simp only [hi, Except.ok.injEq] at hd
    rw [hi] at hz
    refine ⟨z, ?_, hz⟩
    have ha : f 'a' = a := by
      have := hd.trans hf
      simp at this
      exact this.1.symm
    rw [← hd]
    unfold packetSyn2
    rw [← ha]
    simp only [bind, Except.bind, hns]
    rw [if_neg (by simp), ← ez, ha]
    obtain ⟨il, items⟩ := c
    simp only at hi
    subst hi
    rw [show il = false from hdwt.kind]

/-- The cut result is the node. -/
theorem packet2_inverts (hw : PRBank w F) (hF : 2 ≤ F) (he : F % 2 = 0) :
    Inverts (fun _ => True) (packetDec2 w mode axes sep) (packetSyn2 w axes sep) (fit2 axes) := by
  intro v vs _ h
  obtain ⟨hg, z, ez, hz⟩ := packet2_roundtrip hw hF he h
  exact ⟨z, ez, fit2_inverts hg hz⟩

end

end Verif
