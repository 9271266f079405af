import Verif.Lemmas.Line

/-! `wavedec` and `waverec` on the user's tensors. -/

namespace Verif
open Tensor Spec
variable {R : Type}

section
variable [Zero R]

theorem shows_of_alongAxis {h : AxisHint} {x y z t : Tensor R} {K : Nat} {f : (Nat → R) → Nat → R}
    (hg : GoodAxes h x.rank 1) (hy : Folded (axesOf h x.rank 1) x y)
    (hz : Folded (axesOf h x.rank 1) z t) (ha : AlongAxis (axis1 h x.rank) K f x z) :
    Shows t x.md (prodL (pick (batchAxes x.rank (axesOf h x.rank 1)) x.shape)) K
      (fun b => f (fun j => y.get [b, j])) := by
  have hax := axis1_lt hg
  have hzr : z.rank = x.rank := by unfold Tensor.rank; rw [ha.shape, List.length_set]
  have hnm : axis1 h x.rank ∉ batchAxes x.rank (axesOf h x.rank 1) :=
    not_mem_batchAxes (by rw [axesOf_one hg]; simp)
  have hzb : pick (batchAxes x.rank (axesOf h x.rank 1)) z.shape
      = pick (batchAxes x.rank (axesOf h x.rank 1)) x.shape := by
    rw [ha.shape, pick_set_not_mem hnm]
  have hza : pick (axesOf h x.rank 1) z.shape = [K] := by
    rw [ha.shape, axesOf_one hg]
    simp only [pick, List.map_cons, List.map_nil]
    rw [getD_set_self hax]
  have hp : IsPerm (batchAxes x.rank (axesOf h x.rank 1) ++ axesOf h x.rank 1) x.rank :=
    isPerm_axes hg.nodup hg.lt
  refine ⟨hz.md.trans ha.md, by rw [hz.shape, hzr, hzb, hza], ?_⟩
  intro b k hb hk
  set bs := pick (batchAxes x.rank (axesOf h x.rank 1)) x.shape with hbs
  have hub : InB bs (unravel bs b) := inB_unravel hb
  set pi := batchAxes x.rank (axesOf h x.rank 1) ++ axesOf h x.rank 1 with hpi
  have hbl := hg.batch_len
  have hul : (unravel bs b).length = (batchAxes x.rank (axesOf h x.rank 1)).length := by
    rw [hub.length_eq, hbs, pick_length]
  set idx := pick (invPerm pi) (unravel bs b ++ [k]) with hidx
  have hil : idx.length = x.rank := by rw [hidx, pick_length, hp.inv.len]
  have hpk : pick pi idx = unravel bs b ++ [k] :=
    hp.pick_pick_inv (by rw [List.length_append, hul]; simpa using hbl)
  have hin : InB z.shape idx := by
    rw [← hp.inB_pick hzr hil, hpk, hpi, pick_append, hzb, hza]
    exact hub.append ⟨hk, trivial⟩
  have hsplit : pick (batchAxes x.rank (axesOf h x.rank 1)) idx = unravel bs b ∧
      pick (axesOf h x.rank 1) idx = [k] := by
    rw [hpi, pick_append] at hpk
    exact List.append_inj hpk (by rw [pick_length, hul])
  have e := hz.get idx hin
  rw [hzr, hzb, hsplit.1, hsplit.2, ravel_unravel hb, ha.get idx hin] at e
  rw [e]
  have hin' := hin
  rw [ha.shape] at hin'
  rw [hy.line hg hin']
  have hb' : batchPos h x idx = b := by
    unfold batchPos
    rw [hsplit.1, ← hbs, ravel_unravel hb]
  have hk' : idx.getD (axis1 h x.rank) 0 = k := by
    have := hsplit.2
    rw [axesOf_one hg] at this
    simpa [pick] using this
  rw [hb', hk']

theorem checkSameDeviceDtype_ok {c : Coeffs R} {md : Meta} (h : c.WF fun t => t.md = md) :
    checkSameDeviceDtype c = .ok md := by
  obtain ⟨t, ht, hmd⟩ := h.headTensor
  obtain ⟨_, e1, _⟩ := coeffTreeMap_ok (P := fun _ _ => True) (f := checkSameDevice t.md.device)
    (h.imp fun u hu => ⟨u, by simp [checkSameDevice, hmd, hu], trivial⟩)
  obtain ⟨_, e2, _⟩ := coeffTreeMap_ok (P := fun _ _ => True) (f := checkSameDtype t.md.dtype)
    (h.imp fun u hu => ⟨u, by simp [checkSameDtype, hmd, hu], trivial⟩)
  unfold checkSameDeviceDtype
  simp only [bind, Except.bind, ht, e1, e2, pure, Except.pure]
  rw [hmd]

theorem withChannel_showsCh {h : AxisHint} {x y : Tensor R} (hg : GoodAxes h x.rank 1)
    (hy : Folded (axesOf h x.rank 1) x y) :
    ShowsCh (withChannel y) x.md (prodL (pick (batchAxes x.rank (axesOf h x.rank 1)) x.shape))
      (x.shape.getD (axis1 h x.rank) 0) (fun b j => y.get [b, j]) := by
  have hs := hy.shows hg
  refine ⟨(withChannel_md y).trans hy.md, withChannel_shape hs.shape, ?_⟩
  intro b k hb hk
  exact withChannel_get hs.shape b [k]

end

theorem preprocessDeconstruction1_ok [NonUnitalNonAssocSemiring R] {h : AxisHint} {x : Tensor R}
    {w : Wavelet R} (hg : GoodAxes h x.rank 1) (hdt : isDtypeSupported x.md.dtype = true)
    (hhi : w.decHi.length = w.len) :
    ∃ y filt, preprocessDeconstruction x w 1 h = .ok (withChannel y,
        pick (batchAxes x.rank (axesOf h x.rank 1) ++ axesOf h x.rank 1) x.shape, filt) ∧
      Folded (axesOf h x.rank 1) x y ∧ filt.md = x.md ∧ filt.shape = [2, 1, w.len] ∧
      ∀ o j, o < 2 → j < w.len →
        filt.get [o, 0, j] = (if o = 0 then w.decLo else w.decHi).getD (w.len - 1 - j) 0 := by
  obtain ⟨y, e, hy⟩ := preprocessTensor_ch hg hdt
  obtain ⟨filt, ef, f1, f2, f3⟩ := filt_ok w.decLo w.decHi w.len rfl hhi true x.md
  refine ⟨y, filt, ?_, hy, f1, f2, f3⟩
  unfold preprocessDeconstruction
  have hm : (withChannel y).md = x.md := by rw [withChannel_md, hy.md]
  simp only [bind, Except.bind, e, hm, constructNdFilt, construct1dFilt, if_true, ef]
  rfl

theorem assemble_getElem? [Zero R] (r : Tensor R) (ds : List (Tensor R)) :
    (assemble (r, ds))[0]? = some r.squeeze1 ∧
    ∀ s, s < ds.length → (assemble (r, ds))[ds.length - s]? = ds[s]? := by
  unfold assemble
  simp only [List.reverse_append, List.reverse_singleton, List.singleton_append]
  refine ⟨rfl, ?_⟩
  intro s hs
  obtain ⟨k, hk⟩ : ∃ k, ds.length - s = k + 1 := ⟨ds.length - s - 1, by omega⟩
  rw [hk, List.getElem?_cons_succ, List.getElem?_reverse (by omega)]
  congr 1; omega

theorem forall₂_getElem? {α β : Type} {P : α → β → Prop} {l : List α} {l' : List β}
    (h : List.Forall₂ P l l') {i : Nat} {b : β} (hi : l'[i]? = some b) : ∃ a, l[i]? = some a ∧ P a b := by
  induction h generalizing i with
  | nil => simp at hi
  | cons h1 _ ih =>
    cases i with
    | zero => simp only [List.getElem?_cons_zero, Option.some.injEq] at hi; subst hi; exact ⟨_, rfl, h1⟩
    | succ i => exact ih (by simpa using hi)

theorem forall₂_getElem?' {α β : Type} {P : α → β → Prop} {l : List α} {l' : List β}
    (h : List.Forall₂ P l l') {i : Nat} {a : α} (hi : l[i]? = some a) : ∃ b, l'[i]? = some b ∧ P a b := by
  induction h generalizing i with
  | nil => simp at hi
  | cons h1 _ ih =>
    cases i with
    | zero => simp only [List.getElem?_cons_zero, Option.some.injEq] at hi; subst hi; exact ⟨_, rfl, h1⟩
    | succ i => exact ih (by simpa using hi)

theorem wavedec_isDwt [NonUnitalNonAssocSemiring R] {m : Mode} {w : Wavelet R} {x : Tensor R}
    {level : Option Int} {h : AxisHint} {L : Nat} (hg : GoodAxes h x.rank 1)
    (hdt : isDtypeSupported x.md.dtype = true) (hF : 2 ≤ w.len) (hhi : w.decHi.length = w.len)
    (hL : resolveLevel level (x.shape.getD (axis1 h x.rank) 0) w.len = .ok L)
    (hadm : ∀ s, s < L → m.Admits w.len (levelLen w.len (x.shape.getD (axis1 h x.rank) 0) s)) :
    ∃ cs, wavedec x w (some m.name) level h = .ok cs ∧ IsDwt m w (axis1 h x.rank) L x cs := by
  obtain ⟨y, filt, e, hy, f1, f2, f3⟩ := preprocessDeconstruction1_ok (w := w) hg hdt hhi
  have hsc := withChannel_showsCh hg hy
  have hsz : (withChannel y).sizeFromEnd 1 = x.shape.getD (axis1 h x.rank) 0 := by
    unfold Tensor.sizeFromEnd; rw [hsc.shape]; rfl
  obtain ⟨r, ds, el, hr, hdl, hds⟩ := wavedecLoop_ok hF hhi f1 f2 f3 L hsc hadm
  set bs := pick (batchAxes x.rank (axesOf h x.rank 1)) x.shape with hbs
  have hbl := hg.batch_len
  -- all assembled tensors are folded
  have hall : ∀ t ∈ assemble (r, ds), ∃ ks, ks.length = 1 ∧ t.shape = prodL bs :: ks := by
    intro t ht
    unfold assemble at ht
    rw [List.mem_reverse, List.mem_append, List.mem_singleton] at ht
    rcases ht with ht | rfl
    · obtain ⟨s, hs⟩ := List.getElem?_of_mem ht
      exact ⟨[_], rfl, (hds s t hs).shape⟩
    · exact ⟨[_], rfl, hr.squeeze1.shape⟩
  obtain ⟨c', ep, rel⟩ := postprocessCoeffs_ok hg (c := Coeffs.ofList (assemble (r, ds)))
    (ds := pick (batchAxes x.rank (axesOf h x.rank 1) ++ axesOf h x.rank 1) x.shape) (bs := bs)
    (by rw [pick_length]; exact (isPerm_axes hg.nodup hg.lt).len)
    (by rw [take_pick hbl hg.axes_len])
    (ofList_wf (by simp [assemble]) hall)
  obtain ⟨us, rfl, hf⟩ := rel.ofList
  have hal := assemble_getElem? r ds
  refine ⟨us, ?_, ?_, ?_, ?_⟩
  · unfold wavedec
    simp only [bind, Except.bind, e, hsz, hL, el, ep, toList_ofList]
    rfl
  · rw [← hf.length_eq]; simp [assemble, hdl]
  · intro t ht
    obtain ⟨u, hu, h1, h2, h3⟩ := forall₂_getElem? hf ht
    rw [hal.1] at hu
    simp only [Option.some.injEq] at hu
    subst hu
    exact alongAxis_of_shows hg hy h1 h2 h3 hr.squeeze1
  · intro s d hs hd
    obtain ⟨u, hu, h1, h2, h3⟩ := forall₂_getElem? hf hd
    rw [← hdl, hal.2 s (by omega)] at hu
    exact alongAxis_of_shows hg hy h1 h2 h3 (hds s u hu)

theorem waverec_isDwt [Field R] [CharZero R] {m : Mode} {w : Wavelet R} {F : Nat} {x : Tensor R}
    {h : AxisHint} {L : Nat} {cs : List (Tensor R)} (hw : PRBank w F) (hF : 2 ≤ F) (he : F % 2 = 0)
    (hg : GoodAxes h x.rank 1) (hdt : isDtypeSupported x.md.dtype = true)
    (hadm : ∀ s, s < L → m.Admits F (levelLen F (x.shape.getD (axis1 h x.rank) 0) s))
    (hcs : IsDwt m w (axis1 h x.rank) L x cs) :
    ∃ z, waverec cs w h = .ok z ∧
      (L = 0 → z = x) ∧
      (0 < L → AlongAxis (axis1 h x.rank)
        (x.shape.getD (axis1 h x.rank) 0 + x.shape.getD (axis1 h x.rank) 0 % 2)
        (fun v k => ext m (x.shape.getD (axis1 h x.rank) 0) v (k : ℤ)) x z) := by
  have hFw : w.len = F := hw.len.1
  set n := x.shape.getD (axis1 h x.rank) 0 with hn
  set bs := pick (batchAxes x.rank (axesOf h x.rank 1)) x.shape with hbs
  have hbl := hg.batch_len
  have hax := axis1_lt hg
  have hnm : axis1 h x.rank ∉ batchAxes x.rank (axesOf h x.rank 1) :=
    not_mem_batchAxes (by rw [axesOf_one hg]; simp)
  obtain ⟨y, -, hy⟩ := preprocessTensor_ok hg hdt
  -- the coefficient list
  obtain ⟨c0, rest, rfl⟩ : ∃ c0 rest, cs = c0 :: rest := by
    cases cs with
    | nil => have := hcs.length; simp at this
    | cons a l => exact ⟨a, l, rfl⟩
  have hrl : rest.length = L := by have := hcs.length; simpa using this
  have h0 := hcs.approx c0 rfl
  have hrank : ∀ t ∈ c0 :: rest, t.rank = x.rank ∧ t.md = x.md := by
    intro t ht
    obtain ⟨i, hi⟩ := List.getElem?_of_mem ht
    rcases Nat.eq_zero_or_pos i with rfl | hpos
    · have := hcs.approx t hi
      exact ⟨by unfold Tensor.rank; rw [this.shape, List.length_set], this.md⟩
    · have hil : i < L + 1 := by rw [← hcs.length]; exact (List.getElem?_eq_some_iff.mp hi).1
      have := hcs.detail (L - i) t (by omega) (by rw [show L - (L - i) = i by omega]; exact hi)
      exact ⟨by unfold Tensor.rank; rw [this.shape, List.length_set], this.md⟩
  obtain ⟨c', ep, rel⟩ := preprocessCoeffs_ok hg (c := Coeffs.ofList (c0 :: rest))
    (ofList_wf (by simp) fun t ht => (hrank t ht).1) (headTensor_ofList c0 rest)
    (by rw [h0.md]; exact hdt)
  obtain ⟨us, rfl, hf⟩ := rel.ofList
  have hmds : ∀ u ∈ us, u.md = x.md := by
    intro u hu
    obtain ⟨i, hi⟩ := List.getElem?_of_mem hu
    obtain ⟨t, ht, h1, h2⟩ := forall₂_getElem? hf hi
    rw [h2.md]; exact (hrank t (List.mem_of_getElem? ht)).2
  cases hf with
  | @cons _ u0 _ us' hu0 hus =>
    have hck : checkSameDeviceDtype (Coeffs.ofList (u0 :: us')) = .ok x.md :=
      checkSameDeviceDtype_ok (ofList_wf (by simp) hmds)
    obtain ⟨filt, ef, f1, f2, f3⟩ := filt_ok w.recLo w.recHi F hw.len.2.2.1 hw.len.2.2.2 false x.md
    have s0 : Shows u0 x.md (prodL bs) (levelLen F n L) (fun b => cA m w n (fun j => y.get [b, j]) L) := by
      rw [hFw] at h0
      exact shows_of_alongAxis (f := fun v => cA m w n v L) hg hy hu0.2 h0
    have hul : us'.length = L := by rw [← hus.length_eq, hrl]
    have sd : ∀ s d, us'.reverse[s]? = some d → Shows d x.md (prodL bs) (levelLen F n (s + 1))
        (fun b => cD m w n (fun j => y.get [b, j]) s) := by
      intro s d hd
      have hsl : s < L := by
        have := (List.getElem?_eq_some_iff.mp hd).1
        rwa [List.length_reverse, hul] at this
      rw [List.getElem?_reverse (by omega), hul] at hd
      obtain ⟨t, ht, h1, h2⟩ := forall₂_getElem? hus hd
      have h3 := hcs.detail s t hsl (by
        rw [show L - s = (L - 1 - s) + 1 by omega, List.getElem?_cons_succ]; exact ht)
      rw [hFw] at h3
      exact shows_of_alongAxis (f := fun v => cD m w n v s) hg hy h2 h3
    obtain ⟨z0, ez, hz0, hz1⟩ := waverecLoop_ok hw hF he f1 f2 f3 L u0 us'.reverse hadm s0
      (by rw [List.length_reverse, hul]) sd
    rw [List.reverse_reverse] at ez
    have hzs : ∃ ks, ks.length = 1 ∧ z0.shape = prodL bs :: ks := by
      rcases Nat.eq_zero_or_pos L with hL | hL
      · exact ⟨[_], rfl, (hz0 hL).shape⟩
      · exact ⟨[_], rfl, (hz1 hL).shape⟩
    obtain ⟨ks, hk, hzsh⟩ := hzs
    have hc0s : pick (batchAxes x.rank (axesOf h x.rank 1)) c0.shape = bs := by
      rw [h0.shape, pick_set_not_mem hnm]
    obtain ⟨z, epz, hzr, hzb, hzf⟩ := postprocessTensor_ok hg (t := z0)
      (ds := pick (batchAxes x.rank (axesOf h x.rank 1) ++ axesOf h x.rank 1) c0.shape) (bs := bs)
      (by rw [pick_length]; exact (isPerm_axes hg.nodup hg.lt).len)
      (by rw [take_pick hbl hg.axes_len, hc0s]) hk hzsh
    refine ⟨z, ?_, ?_, ?_⟩
    · unfold waverec
      simp only [bind, Except.bind, ep, hck, ef, toList_ofList, hw.len.2.2.1, ez, epz]
    · intro hL
      have hzz : Folded (axesOf h x.rank 1) x z0 := by
        refine ⟨(hz0 hL).md, ?_, ?_⟩
        · rw [(hz0 hL).shape, axesOf_one hg]
          simp only [pick, List.map_cons, List.map_nil]
          rw [hbs, axesOf_one hg, hn]; rfl
        · intro idx hidx
          have hb : ravel bs (pick (batchAxes x.rank (axesOf h x.rank 1)) idx) < prodL bs := by
            apply ravel_lt
            rw [hbs]
            exact inB_pick_of rfl hidx batchAxes_lt
          have hlt := hidx.getD_lt (d := axis1 h x.rank) hax
          have e1 := (hz0 hL).get _ _ hb hlt
          rw [← hy.get idx hidx]
          rw [axesOf_one hg] at e1 ⊢
          simp only [pick, List.map_cons, List.map_nil] at e1 ⊢
          rw [hbs, axesOf_one hg] at e1
          exact e1
      exact (Folded.unique hg rfl hzr hzb.symm hzz hzf).symm
    · intro hL
      exact alongAxis_of_shows (f := fun v k => ext m n v (k : ℤ)) hg hy hzr hzb hzf (hz1 hL)

end Verif
