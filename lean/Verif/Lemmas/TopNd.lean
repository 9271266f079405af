import Verif.Lemmas.RecNd

/-! The multidimensional transforms on the user's tensors. -/

namespace Verif
open Tensor Spec
variable {R : Type}

/-- A way to hold the detail bands of one level in a container entry. -/
structure DetailKind [Zero R] (D : (List Bool → Tensor R → Prop) → Entry R → Prop) : Prop where
  trans : ∀ {S : Tensor R → Tensor R → Prop} {P Q : List Bool → Tensor R → Prop} {e e' : Entry R},
    EntryRel S e e' → D P e → (∀ bs t u, S t u → P bs t → Q bs u) → D Q e'
  all : ∀ {P : List Bool → Tensor R → Prop} {Q : Tensor R → Prop} {e : Entry R}, D P e →
    (∀ bs t, P bs t → Q t) → e.All Q
  notTensor : ∀ {P : List Bool → Tensor R → Prop} {e : Entry R}, D P e → ¬ ∃ t, e = .tensor t
  mono : ∀ {P Q : List Bool → Tensor R → Prop} {e : Entry R}, D P e → (∀ bs t, P bs t → Q bs t) → D Q e

theorem isTuple_kind [Zero R] : DetailKind (R := R) IsTuple := by
  refine ⟨?_, ?_, ?_, ?_⟩
  · rintro S P Q e e' hr ⟨h, v, d, rfl, h1, h2, h3⟩ hpq
    cases hr with
    | tuple a b c => exact ⟨_, _, _, rfl, hpq _ _ _ a h1, hpq _ _ _ b h2, hpq _ _ _ c h3⟩
  · rintro P Q e ⟨h, v, d, rfl, h1, h2, h3⟩ hpq
    exact ⟨hpq _ _ h1, hpq _ _ h2, hpq _ _ h3⟩
  · rintro P e ⟨h, v, d, rfl, -⟩ ⟨t, ht⟩
    cases ht
  · rintro P Q e ⟨h, v, d, rfl, h1, h2, h3⟩ hpq
    exact ⟨_, _, _, rfl, hpq _ _ h1, hpq _ _ h2, hpq _ _ h3⟩

theorem isDict_kind [Zero R] (keys : List String) : DetailKind (R := R) (IsDict keys) := by
  refine ⟨?_, ?_, ?_, ?_⟩
  · rintro S P Q e e' hr ⟨kv, rfl, hk, hp⟩ hpq
    cases hr with
    | @dict _ kv' hf =>
      refine ⟨kv', rfl, ?_, ?_⟩
      · rw [← hk]
        clear hp hk
        induction hf with
        | nil => rfl
        | cons h _ ih => simp only [List.map_cons, ih, h.1]
      · intro q hq
        obtain ⟨i, hi⟩ := List.getElem?_of_mem hq
        obtain ⟨a, ha, h1, h2⟩ := forall₂_getElem? hf hi
        rw [← h1]
        exact hpq _ _ _ h2 (hp a (List.mem_of_getElem? ha))
  · rintro P Q e ⟨kv, rfl, hk, hp⟩ hpq
    intro q hq
    exact hpq _ _ (hp q hq)
  · rintro P e ⟨kv, rfl, -⟩ ⟨t, ht⟩
    cases ht
  · rintro P Q e ⟨kv, rfl, hk, hp⟩ hpq
    exact ⟨kv, rfl, hk, fun q hq => hpq _ _ (hp q hq)⟩

section post
variable [NonUnitalNonAssocSemiring R] {D : (List Bool → Tensor R → Prop) → Entry R → Prop} {m : Mode}
  {w : Wavelet R} {x y : Tensor R} {h : AxisHint} {n L : Nat}

/-- Postprocessing turns the coefficients of the folded tensor into those of the user's tensor. -/
theorem container_post (hD : DetailKind D) (hg : GoodAxes h x.rank n)
    (hy : Folded (axesOf h x.rank n) x y) {t : Tensor R} {ds : List (Entry R)} (hdl : ds.length = L)
    (ht : ShowsN t x.md (prodL (pick (batchAxes x.rank (axesOf h x.rank n)) x.shape))
      (levelLens w.len (sizes (axesOf h x.rank n) x.shape) L)
      (fun b => cAN m w (sizes (axesOf h x.rank n) x.shape) (fun js => y.get (b :: js)) L))
    (hds : ∀ s e, ds[s]? = some e →
      D (fun bs u => ShowsN u x.md (prodL (pick (batchAxes x.rank (axesOf h x.rank n)) x.shape))
        (levelLens w.len (sizes (axesOf h x.rank n) x.shape) (s + 1))
        (fun b => cDN m w (sizes (axesOf h x.rank n) x.shape) (fun js => y.get (b :: js)) s bs)) e) :
    ∃ c', postprocessCoeffs ⟨false, .tensor t :: ds.reverse⟩ n
        (pick (batchAxes x.rank (axesOf h x.rank n) ++ axesOf h x.rank n) x.shape) h = .ok c' ∧
      IsDwtN D m w (axesOf h x.rank n) L x c' := by
  set ax := axesOf h x.rank n with hax
  set bs := pick (batchAxes x.rank ax) x.shape with hbs
  have hbl := hg.batch_len
  have hlen : ∀ s, (levelLens w.len (sizes ax x.shape) s).length = ax.length := by
    intro s; rw [levelLens_length]; simp [sizes]
  have hal : ax.length = n := hg.axes_len
  have hrev : ∀ s, s < L → ds.reverse[L - 1 - s]? = ds[s]? := by
    intro s hs
    rw [List.getElem?_reverse (by omega)]
    congr 1; omega
  obtain ⟨c', ep, rel⟩ := postprocessCoeffs_ok hg (c := ⟨false, .tensor t :: ds.reverse⟩)
    (ds := pick (batchAxes x.rank ax ++ ax) x.shape) (bs := bs)
    (by rw [pick_length]; exact (isPerm_axes hg.nodup hg.lt).len)
    (by rw [take_pick hbl hg.axes_len])
    (by
      refine ⟨⟨t, _, rfl⟩, ?_, ?_⟩
      · intro e he
        simp only [List.mem_cons, List.mem_reverse] at he
        rcases he with rfl | he
        · exact ⟨_, (hlen L).trans hal, ht.shape⟩
        · obtain ⟨s, hs⟩ := List.getElem?_of_mem he
          exact hD.all (hds s e hs) fun bs u hu => ⟨_, (hlen (s + 1)).trans hal, hu.shape⟩
      · intro e he
        simp only [List.tail_cons, List.mem_reverse] at he
        obtain ⟨s, hs⟩ := List.getElem?_of_mem he
        have := hD.notTensor (hds s e hs)
        simp only [Bool.false_eq_true, false_iff]
        exact this)
  refine ⟨c', ep, ?_⟩
  have hn := hg.nodup
  have hlt := hg.lt
  refine ⟨rel.kind.symm, ?_, ?_, ?_⟩
  · rw [← rel.items.length_eq]; simp [hdl]
  · obtain ⟨e', he', hr⟩ := forall₂_getElem?' rel.items (i := 0) (a := .tensor t) rfl
    cases hr with
    | tensor hp =>
      exact ⟨_, he', alongAxes_of_showsN hn hlt (hlen L) hy hp.1 hp.2.1 hp.2.2
        (f := fun X => cAN m w (sizes ax x.shape) X L) ht⟩
  · intro s hs
    obtain ⟨e, he⟩ : ∃ e, ds[s]? = some e := ⟨_, List.getElem?_eq_getElem (by omega)⟩
    obtain ⟨e', he', hr⟩ := forall₂_getElem?' rel.items (i := L - s) (a := e) (by
      rw [show L - s = (L - 1 - s) + 1 by omega]
      show ds.reverse[L - 1 - s]? = _
      rw [hrev s hs, he])
    refine ⟨e', he', hD.trans hr (hds s e he) ?_⟩
    intro bs' u z hp hu
    exact alongAxes_of_showsN hn hlt (hlen (s + 1)) hy hp.1 hp.2.1 hp.2.2
      (f := fun X => cDN m w (sizes ax x.shape) X s bs') hu

/-- Preprocessing turns the coefficients of the user's tensor into those of the folded tensor. -/
theorem container_pre (hD : DetailKind D) (hg : GoodAxes h x.rank n)
    (hy : Folded (axesOf h x.rank n) x y) (hdt : isDtypeSupported x.md.dtype = true) {c : Coeffs R}
    (hc : IsDwtN D m w (axesOf h x.rank n) L x c) :
    ∃ (c₀ : List Nat) (t : Tensor R) (ds : List (Entry R)), preprocessCoeffs c n h false = .ok (⟨false, .tensor t :: ds.reverse⟩,
        pick (batchAxes x.rank (axesOf h x.rank n) ++ axesOf h x.rank n) c₀) ∧
      c₀.length = x.rank ∧
      pick (batchAxes x.rank (axesOf h x.rank n)) c₀ = pick (batchAxes x.rank (axesOf h x.rank n)) x.shape ∧
      checkSameDeviceDtype ⟨false, .tensor t :: ds.reverse⟩ = .ok x.md ∧ ds.length = L ∧
      ShowsN t x.md (prodL (pick (batchAxes x.rank (axesOf h x.rank n)) x.shape))
        (levelLens w.len (sizes (axesOf h x.rank n) x.shape) L)
        (fun b => cAN m w (sizes (axesOf h x.rank n) x.shape) (fun js => y.get (b :: js)) L) ∧
      ∀ s e, ds[s]? = some e →
        D (fun bs u => ShowsN u x.md (prodL (pick (batchAxes x.rank (axesOf h x.rank n)) x.shape))
          (levelLens w.len (sizes (axesOf h x.rank n) x.shape) (s + 1))
          (fun b => cDN m w (sizes (axesOf h x.rank n) x.shape) (fun js => y.get (b :: js)) s bs)) e := by
  set ax := axesOf h x.rank n with hax
  have hn := hg.nodup
  have hlt := hg.lt
  have hlen : ∀ s, (levelLens w.len (sizes ax x.shape) s).length = ax.length := by
    intro s; rw [levelLens_length]; simp [sizes]
  obtain ⟨il, items⟩ := c
  obtain ⟨k1, k2, ⟨c0, k3, k4⟩, k5⟩ := hc
  simp only at k1 k2 k3 k5
  subst k1
  obtain ⟨rest, rfl⟩ : ∃ rest, items = .tensor c0 :: rest := by
    cases items with
    | nil => simp at k3
    | cons a l => simp at k3; exact ⟨l, by rw [k3]⟩
  have hrl : rest.length = L := by simpa using k2
  have hrank : ∀ {Ks f} {t : Tensor R}, AlongAxes ax Ks f x t → t.rank = x.rank := by
    intro Ks f t ht
    unfold Tensor.rank; rw [ht.shape, setMany_length]
  have hdet : ∀ s e, rest.reverse[s]? = some e → D (IsBand m w ax x s) e := by
    intro s e he
    have hs : s < L := by
      have := (List.getElem?_eq_some_iff.mp he).1
      rwa [List.length_reverse, hrl] at this
    obtain ⟨e', he', hd⟩ := k5 s hs
    rw [List.getElem?_reverse (by omega), hrl] at he
    rw [show L - s = (L - 1 - s) + 1 by omega, List.getElem?_cons_succ, he] at he'
    cases he'
    exact hd
  have hmem : ∀ e ∈ rest, ∃ s, D (IsBand m w ax x s) e := by
    intro e he
    obtain ⟨s, hs⟩ := List.getElem?_of_mem (List.mem_reverse.mpr he)
    exact ⟨s, hdet s e hs⟩
  have wf : ∀ Q : Tensor R → Prop, (∀ {Ks f} {t : Tensor R}, AlongAxes ax Ks f x t → Q t) →
      Coeffs.WF Q (⟨false, .tensor c0 :: rest⟩ : Coeffs R) := by
    intro Q hQ
    refine ⟨⟨c0, rest, rfl⟩, ?_, ?_⟩
    · intro e he
      rcases List.mem_cons.mp he with rfl | he
      · exact hQ k4
      · obtain ⟨s, hs⟩ := hmem e he
        exact hD.all hs fun bs t ht => hQ ht
    · intro e he
      obtain ⟨s, hs⟩ := hmem e he
      have := hD.notTensor hs
      simp only [Bool.false_eq_true, false_iff]
      exact this
  obtain ⟨c', ep, rel⟩ := preprocessCoeffs_ok hg (wf _ hrank) (t₀ := c0) rfl (by rw [k4.md]; exact hdt)
  obtain ⟨il', items'⟩ := c'
  have hk := rel.kind
  have hi := rel.items
  simp only at hk hi
  subst hk
  cases hi with
  | @cons _ e0 _ rest' hr0 hrs =>
    cases hr0 with
    | @tensor _ u0 hp0 =>
    have hwm : Coeffs.WF (fun u => u.md = x.md) (⟨false, .tensor u0 :: rest'⟩ : Coeffs R) := by
      -- transport the meta data through the relation
      refine ⟨⟨u0, rest', rfl⟩, ?_, ?_⟩
      · intro e he
        rcases List.mem_cons.mp he with rfl | he
        · exact hp0.2.md.trans k4.md
        · obtain ⟨i, hi⟩ := List.getElem?_of_mem he
          obtain ⟨e0, he0, hr⟩ := forall₂_getElem? hrs hi
          obtain ⟨s, hs⟩ := hmem e0 (List.mem_of_getElem? he0)
          have := hD.trans (Q := fun _ u => u.md = x.md) hr hs fun bs t u hp ht => hp.2.md.trans ht.md
          exact hD.all this fun _ _ h => h
      · intro e he
        obtain ⟨i, hi⟩ := List.getElem?_of_mem he
        obtain ⟨e0, he0, hr⟩ := forall₂_getElem? hrs hi
        obtain ⟨s, hs⟩ := hmem e0 (List.mem_of_getElem? he0)
        have := hD.notTensor hs
        rw [hr.tensor_iff] at this
        simp only [Bool.false_eq_true, false_iff]
        exact this
    have hul : rest'.length = L := by rw [← hrs.length_eq, hrl]
    refine ⟨c0.shape, u0, rest'.reverse, ?_, hrank k4, ?_, ?_, by rw [List.length_reverse, hul], ?_, ?_⟩
    · rw [List.reverse_reverse]; exact ep
    · rw [k4.shape, pick_setMany_disjoint batch_disjoint]
    · rw [List.reverse_reverse]; exact checkSameDeviceDtype_ok hwm
    · exact showsN_of_alongAxes hn hlt (hlen L) hy hp0.2 (f := fun X => cAN m w (sizes ax x.shape) X L) k4
    · intro s e he
      have hs : s < L := by
        have := (List.getElem?_eq_some_iff.mp he).1
        rwa [List.length_reverse, hul] at this
      rw [List.getElem?_reverse (by omega), hul] at he
      obtain ⟨e0, he0, hr⟩ := forall₂_getElem? hrs he
      have h0 := hdet s e0 (by rw [List.getElem?_reverse (by omega), hrl]; exact he0)
      refine hD.trans hr h0 ?_
      intro bs t u hp ht
      exact showsN_of_alongAxes hn hlt (hlen (s + 1)) hy hp.2
        (f := fun X => cDN m w (sizes ax x.shape) X s bs) ht

end post

theorem autoLevelN2 (F n1 n2 : Nat) : autoLevelN F [n1, n2] = min (autoLevel F n1) (autoLevel F n2) := rfl

theorem autoLevelN3 (F n1 n2 n3 : Nat) : autoLevelN F [n1, n2, n3]
    = min (autoLevel F n1) (min (autoLevel F n2) (autoLevel F n3)) := rfl

theorem resolveLevelN2 {level : Option Int} {F n1 n2 : Nat} (hF : 2 ≤ F) :
    resolveLevelN level [n2, n1] F = .ok (levelsN level F [n1, n2]) := by
  cases level with
  | some l => rfl
  | none =>
    simp only [resolveLevelN, dwtnMaxLevel, List.mapM_cons, List.mapM_nil, autoLevel_eq hF, bind, Except.bind,
      pure, Except.pure, List.foldl_cons, List.foldl_nil, levelsN, autoLevelN2]
    rw [min_comm]

theorem resolveLevelN3 {level : Option Int} {F n1 n2 n3 : Nat} (hF : 2 ≤ F) :
    resolveLevelN level [n3, n2, n1] F = .ok (levelsN level F [n1, n2, n3]) := by
  cases level with
  | some l => rfl
  | none =>
    simp only [resolveLevelN, dwtnMaxLevel, List.mapM_cons, List.mapM_nil, autoLevel_eq hF, bind, Except.bind,
      pure, Except.pure, List.foldl_cons, List.foldl_nil, levelsN, autoLevelN3]
    congr 1
    omega

theorem step2_selects [NonUnitalNonAssocSemiring R] {mode : Option String} {m : Mode}
    (h : Selects mode m) (w : Wavelet R) (filt : Tensor R) :
    step2 w mode filt = step2 w (some m.name) filt := by
  funext t
  unfold step2
  rw [fwtPad_selects h]

theorem step3_selects [NonUnitalNonAssocSemiring R] {mode : Option String} {m : Mode}
    (h : Selects mode m) (w : Wavelet R) (filt : Tensor R) :
    step3 w mode filt = step3 w (some m.name) filt := by
  funext t
  unfold step3
  simp only [fwtPad_selects h]

section two
variable [Semiring R] {w : Wavelet R} {x : Tensor R} {h : AxisHint} {level : Option Int} {mode : Option String}

theorem preprocessDeconstruction2_ok (hg : GoodAxes h x.rank 2) (hdt : isDtypeSupported x.md.dtype = true)
    (hhi : w.decHi.length = w.len) :
    ∃ y filt, preprocessDeconstruction x w 2 h = .ok (withChannel y,
        pick (batchAxes x.rank (axesOf h x.rank 2) ++ axesOf h x.rank 2) x.shape, filt) ∧
      Folded (axesOf h x.rank 2) x y ∧
      IsFilt filt x.md 2 w.len bands2 (tapAt w.decLo w.decHi true w.len) := by
  obtain ⟨y, e, hy⟩ := preprocessTensor_ch hg hdt
  obtain ⟨filt, ef, hf⟩ := construct2d_ok (lo := w.decLo) (hi := w.decHi) (F := w.len) rfl hhi true x.md
  refine ⟨y, filt, ?_, hy, hf⟩
  unfold preprocessDeconstruction
  have hm : (withChannel y).md = x.md := by rw [withChannel_md, hy.md]
  simp only [bind, Except.bind, e, hm, constructNdFilt, show ¬ (2 : Nat) = 1 by omega, if_false, if_true, ef]
  rfl

theorem preprocessDeconstruction3_ok (hg : GoodAxes h x.rank 3) (hdt : isDtypeSupported x.md.dtype = true)
    (hhi : w.decHi.length = w.len) :
    ∃ y filt, preprocessDeconstruction x w 3 h = .ok (withChannel y,
        pick (batchAxes x.rank (axesOf h x.rank 3) ++ axesOf h x.rank 3) x.shape, filt) ∧
      Folded (axesOf h x.rank 3) x y ∧
      IsFilt filt x.md 3 w.len bands3' (tapAt w.decLo w.decHi true w.len) := by
  obtain ⟨y, e, hy⟩ := preprocessTensor_ch hg hdt
  obtain ⟨filt, ef, hf⟩ := construct3d_ok (lo := w.decLo) (hi := w.decHi) (F := w.len) rfl hhi true x.md
  refine ⟨y, filt, ?_, hy, hf⟩
  unfold preprocessDeconstruction
  have hm : (withChannel y).md = x.md := by rw [withChannel_md, hy.md]
  simp only [bind, Except.bind, e, hm, constructNdFilt, show ¬ (3 : Nat) = 1 by omega,
    show ¬ (3 : Nat) = 2 by omega, if_false, if_true, ef]
  rfl

theorem sizes2 (hg : GoodAxes h x.rank 2) : ∃ n1 n2, sizes (axesOf h x.rank 2) x.shape = [n1, n2] := by
  have : (sizes (axesOf h x.rank 2) x.shape).length = 2 := by
    unfold sizes; rw [List.length_map]; exact hg.axes_len
  match sizes (axesOf h x.rank 2) x.shape, this with
  | [a, b], _ => exact ⟨a, b, rfl⟩

theorem sizes3 (hg : GoodAxes h x.rank 3) : ∃ n1 n2 n3, sizes (axesOf h x.rank 3) x.shape = [n1, n2, n3] := by
  have : (sizes (axesOf h x.rank 3) x.shape).length = 3 := by
    unfold sizes; rw [List.length_map]; exact hg.axes_len
  match sizes (axesOf h x.rank 3) x.shape, this with
  | [a, b, c], _ => exact ⟨a, b, c, rfl⟩

theorem sizes_len {n : Nat} (hg : GoodAxes h x.rank n) : (sizes (axesOf h x.rank n) x.shape).length = n := by
  unfold sizes; rw [List.length_map]; exact hg.axes_len

/-- `wavedec2` after preprocessing. -/
theorem wavedec2_unfold (hg : GoodAxes h x.rank 2) (hdt : isDtypeSupported x.md.dtype = true)
    (hF : 2 ≤ w.len) (hhi : w.decHi.length = w.len) (mode : Option String) :
    ∃ y filt, wavedec2 x w mode level h = (decLoop (step2 w mode filt)
          (levelsN level w.len (sizes (axesOf h x.rank 2) x.shape)) (withChannel y) >>= fun r =>
        postprocessCoeffs (assemble2 r) 2
          (pick (batchAxes x.rank (axesOf h x.rank 2) ++ axesOf h x.rank 2) x.shape) h) ∧
      Folded (axesOf h x.rank 2) x y ∧
      IsFilt filt x.md 2 w.len bands2 (tapAt w.decLo w.decHi true w.len) ∧
      ShowsChN (withChannel y) x.md (prodL (pick (batchAxes x.rank (axesOf h x.rank 2)) x.shape))
        (sizes (axesOf h x.rank 2) x.shape) (fun b js => y.get (b :: js)) := by
  obtain ⟨y, filt, e, hy, hf⟩ := preprocessDeconstruction2_ok (w := w) hg hdt hhi
  have hs := hy.showsN.withChannel
  refine ⟨y, filt, ?_, hy, hf, hs⟩
  obtain ⟨n1, n2, hn⟩ := sizes2 hg
  have h1 : (withChannel y).sizeFromEnd 1 = n2 := by
    unfold Tensor.sizeFromEnd; rw [hs.shape, hn]; rfl
  have h2 : (withChannel y).sizeFromEnd 2 = n1 := by
    unfold Tensor.sizeFromEnd; rw [hs.shape, hn]; rfl
  unfold wavedec2
  simp only [bind, Except.bind, e, h1, h2, resolveLevelN2 hF, hn, wavedec2Loop_eq]

/-- `wavedec3` after preprocessing. -/
theorem wavedec3_unfold (hg : GoodAxes h x.rank 3) (hdt : isDtypeSupported x.md.dtype = true)
    (hF : 2 ≤ w.len) (hhi : w.decHi.length = w.len) (mode : Option String) :
    ∃ y filt, wavedec3 x w mode level h = (decLoop (step3 w mode filt)
          (levelsN level w.len (sizes (axesOf h x.rank 3) x.shape)) (withChannel y) >>= fun r =>
        postprocessCoeffs ⟨false, .tensor r.1 :: r.2.reverse⟩ 3
          (pick (batchAxes x.rank (axesOf h x.rank 3) ++ axesOf h x.rank 3) x.shape) h) ∧
      Folded (axesOf h x.rank 3) x y ∧
      IsFilt filt x.md 3 w.len bands3' (tapAt w.decLo w.decHi true w.len) ∧
      ShowsChN (withChannel y) x.md (prodL (pick (batchAxes x.rank (axesOf h x.rank 3)) x.shape))
        (sizes (axesOf h x.rank 3) x.shape) (fun b js => y.get (b :: js)) := by
  obtain ⟨y, filt, e, hy, hf⟩ := preprocessDeconstruction3_ok (w := w) hg hdt hhi
  have hs := hy.showsN.withChannel
  refine ⟨y, filt, ?_, hy, hf, hs⟩
  obtain ⟨n1, n2, n3, hn⟩ := sizes3 hg
  have h1 : (withChannel y).sizeFromEnd 1 = n3 := by
    unfold Tensor.sizeFromEnd; rw [hs.shape, hn]; rfl
  have h2 : (withChannel y).sizeFromEnd 2 = n2 := by
    unfold Tensor.sizeFromEnd; rw [hs.shape, hn]; rfl
  have h3 : (withChannel y).sizeFromEnd 3 = n1 := by
    unfold Tensor.sizeFromEnd; rw [hs.shape, hn]; rfl
  unfold wavedec3
  simp only [bind, Except.bind, e, h1, h2, h3, resolveLevelN3 hF, hn, wavedec3Loop_eq]

theorem decLoop_unknown {step : Tensor R → Except Err (Tensor R × Entry R)} {er : Err} {L : Nat} {t : Tensor R}
    (hL : 0 < L) (h : step t = .error er) : decLoop step L t = .error er := by
  obtain ⟨k, rfl⟩ : ∃ k, L = k + 1 := ⟨L - 1, by omega⟩
  unfold decLoop
  simp only [bind, Except.bind, h]

/-- The complete behaviour of `wavedec2`. -/
theorem wavedec2_char (hF : 2 ≤ w.len) (hhi : w.decHi.length = w.len) :
    let ns := sizes (axesOf h x.rank 2) x.shape
    let L := levelsN level w.len ns
    (¬ (GoodAxes h x.rank 2 ∧ isDtypeSupported x.md.dtype = true) →
      ∃ e, wavedec2 x w mode level h = .error e) ∧
    (GoodAxes h x.rank 2 → isDtypeSupported x.md.dtype = true →
      (L = 0 → ∀ m, ∃ c, wavedec2 x w mode level h = .ok c ∧ IsDwt2 m w (axesOf h x.rank 2) L x c) ∧
      (∀ m, Selects mode m → LevelsAdmit m w.len ns L →
        ∃ c, wavedec2 x w mode level h = .ok c ∧ IsDwt2 m w (axesOf h x.rank 2) L x c) ∧
      (∀ m c, Selects mode m → wavedec2 x w mode level h = .ok c → LevelsAdmit m w.len ns L) ∧
      (0 < L → (∀ m, ¬ Selects mode m) → wavedec2 x w mode level h = .error .valueError)) := by
  intro ns L
  refine ⟨?_, fun hg hdt => ?_⟩
  · intro hn
    obtain ⟨e, he⟩ := preprocessTensor_err (ch := true) hn
    refine ⟨e, ?_⟩
    unfold wavedec2 preprocessDeconstruction
    simp only [bind, Except.bind, he]
  obtain ⟨y, filt, eu, hy, hf, hs⟩ := wavedec2_unfold (level := level) hg hdt hF hhi mode
  have hnl := sizes_len hg
  have hok : ∀ m : Mode, (Selects mode m ∨ L = 0) → LevelsAdmit m w.len ns L →
      ∃ c, wavedec2 x w mode level h = .ok c ∧ IsDwt2 m w (axesOf h x.rank 2) L x c := by
    intro m hm ha
    obtain ⟨r, ds, el, r0, r1, hdl, hds⟩ := decLoop_ok (fun _ _ _ h => h)
      (step2_ok (B := prodL (pick (batchAxes x.rank (axesOf h x.rank 2)) x.shape)) (m := m) hF hhi hf) L ns _ _
      hnl hs ha
    have hr : ShowsChN r x.md (prodL (pick (batchAxes x.rank (axesOf h x.rank 2)) x.shape))
        (levelLens w.len ns L) (fun b => cAN m w ns (fun js => y.get (b :: js)) L) := by
      rcases Nat.eq_zero_or_pos L with h0 | h0
      · rw [r0 h0, h0, levelLens_zero]; exact hs
      · exact r1 h0
    obtain ⟨c, ec, hc⟩ := container_post (m := m) (w := w) isTuple_kind hg hy hdl hr.squeeze1 hds
    refine ⟨c, ?_, hc⟩
    have el' : decLoop (step2 w mode filt) L (withChannel y) = .ok (r, ds) := by
      rcases hm with hm | hm
      · rw [step2_selects hm]; exact el
      · rw [hm] at el ⊢; exact el
    rw [eu, show levelsN level w.len (sizes (axesOf h x.rank 2) x.shape) = L from rfl, el']
    exact ec
  refine ⟨?_, ?_, ?_, ?_⟩
  · intro hL m
    exact hok m (Or.inr hL) fun s hs => absurd hs (by omega)
  · intro m hm ha
    exact hok m (Or.inl hm) ha
  · intro m c hm hc
    rw [eu, step2_selects hm] at hc
    cases ed : decLoop (step2 w (some m.name) filt) L (withChannel y) with
    | error e =>
      rw [show levelsN level w.len (sizes (axesOf h x.rank 2) x.shape) = L from rfl, ed] at hc
      cases hc
    | ok q =>
      exact decLoop_inv (fun _ _ _ h => h)
        (step2_ok (B := prodL (pick (batchAxes x.rank (axesOf h x.rank 2)) x.shape)) (m := m) hF hhi hf)
        (fun ns X t q hn ht hq => step2_inv hF hf hn ht hq) L ns _ _ q hnl hs ed
  · intro hL hm
    rw [eu, show levelsN level w.len (sizes (axesOf h x.rank 2) x.shape) = L from rfl,
      decLoop_unknown hL (er := .valueError) (by
        unfold step2; simp only [bind, Except.bind, fwtPad_unknown hm])]
    rfl

/-- The behaviour of `wavedec3` for at least one level. -/
theorem wavedec3_char (hF : 2 ≤ w.len) (hhi : w.decHi.length = w.len) :
    let ns := sizes (axesOf h x.rank 3) x.shape
    let L := levelsN level w.len ns
    (¬ (GoodAxes h x.rank 3 ∧ isDtypeSupported x.md.dtype = true) →
      ∃ e, wavedec3 x w mode level h = .error e) ∧
    (GoodAxes h x.rank 3 → isDtypeSupported x.md.dtype = true → 0 < L →
      (∀ m, Selects mode m → LevelsAdmit m w.len ns L →
        ∃ c, wavedec3 x w mode level h = .ok c ∧ IsDwt3 m w (axesOf h x.rank 3) L x c) ∧
      (∀ m c, Selects mode m → wavedec3 x w mode level h = .ok c → LevelsAdmit m w.len ns L) ∧
      ((∀ m, ¬ Selects mode m) → wavedec3 x w mode level h = .error .valueError)) := by
  intro ns L
  refine ⟨?_, fun hg hdt hL => ?_⟩
  · intro hn
    obtain ⟨e, he⟩ := preprocessTensor_err (ch := true) hn
    refine ⟨e, ?_⟩
    unfold wavedec3 preprocessDeconstruction
    simp only [bind, Except.bind, he]
  obtain ⟨y, filt, eu, hy, hf, hs⟩ := wavedec3_unfold (level := level) hg hdt hF hhi mode
  have hnl := sizes_len hg
  refine ⟨?_, ?_, ?_⟩
  · intro m hm ha
    obtain ⟨r, ds, el, -, r1, hdl, hds⟩ := decLoop_ok (fun _ _ _ h => Or.inr h)
      (step3_ok (B := prodL (pick (batchAxes x.rank (axesOf h x.rank 3)) x.shape)) (m := m) hF hhi hf) L ns _ _
      hnl (Or.inl hs) ha
    obtain ⟨c, ec, hc⟩ := container_post (m := m) (w := w) (isDict_kind keys3) hg hy hdl (r1 hL) hds
    refine ⟨c, ?_, hc⟩
    rw [eu, show levelsN level w.len (sizes (axesOf h x.rank 3) x.shape) = L from rfl, step3_selects hm, el]
    exact ec
  · intro m c hm hc
    rw [eu, step3_selects hm] at hc
    cases ed : decLoop (step3 w (some m.name) filt) L (withChannel y) with
    | error e =>
      rw [show levelsN level w.len (sizes (axesOf h x.rank 3) x.shape) = L from rfl, ed] at hc
      cases hc
    | ok q =>
      exact decLoop_inv (fun _ _ _ h => Or.inr h)
        (step3_ok (B := prodL (pick (batchAxes x.rank (axesOf h x.rank 3)) x.shape)) (m := m) hF hhi hf)
        (fun ns X t q hn ht hq => step3_inv hF hf hn ht hq) L ns _ _ q hnl (Or.inl hs) ed
  · intro hm
    rw [eu, show levelsN level w.len (sizes (axesOf h x.rank 3) x.shape) = L from rfl,
      decLoop_unknown hL (er := .valueError) (by
        obtain ⟨t', et, -⟩ := ensureChannel3_ok hnl (Or.inl hs)
        unfold step3; simp only [bind, Except.bind, et, fwtPad_unknown hm])]
    rfl

end two

section inv
variable [Field R] [CharZero R] {w : Wavelet R} {x : Tensor R} {h : AxisHint} {m : Mode} {L F : Nat}

/-- Postprocessing of a reconstruction. -/
theorem rec_post {n : Nat} (hg : GoodAxes h x.rank n) {y t z₀ : Tensor R} {c₀ : List Nat}
    (hy : Folded (axesOf h x.rank n) x y) (hcl : c₀.length = x.rank)
    (hcb : pick (batchAxes x.rank (axesOf h x.rank n)) c₀ = pick (batchAxes x.rank (axesOf h x.rank n)) x.shape)
    (ht : ShowsN t x.md (prodL (pick (batchAxes x.rank (axesOf h x.rank n)) x.shape))
        (levelLens F (sizes (axesOf h x.rank n) x.shape) L)
        (fun b => cAN m w (sizes (axesOf h x.rank n) x.shape) (fun js => y.get (b :: js)) L))
    (hz0 : L = 0 → z₀ = t)
    (hz1 : 0 < L → ShowsN z₀ x.md (prodL (pick (batchAxes x.rank (axesOf h x.rank n)) x.shape))
      ((sizes (axesOf h x.rank n) x.shape).map fun k => k + k % 2)
      (fun b ks => extN m (sizes (axesOf h x.rank n) x.shape) (fun js => y.get (b :: js))
        (ks.map fun (k : Nat) => (k : ℤ)))) :
    ∃ z, postprocessTensor z₀ n (pick (batchAxes x.rank (axesOf h x.rank n) ++ axesOf h x.rank n) c₀) h = .ok z ∧
      (L = 0 → z = x) ∧
      (0 < L → AlongAxes (axesOf h x.rank n) ((sizes (axesOf h x.rank n) x.shape).map fun k => k + k % 2)
        (fun X ks => extN m (sizes (axesOf h x.rank n) x.shape) X (ks.map fun (k : Nat) => (k : ℤ))) x z) := by
  set ax := axesOf h x.rank n with hax
  have hal : ax.length = n := hg.axes_len
  have hbl := hg.batch_len
  have hsh : ∃ ks : List Nat, ks.length = n ∧
      z₀.shape = prodL (pick (batchAxes x.rank ax) x.shape) :: ks := by
    rcases Nat.eq_zero_or_pos L with h0 | h0
    · refine ⟨_, ?_, by rw [hz0 h0]; exact ht.shape⟩
      rw [levelLens_length]; exact sizes_len hg
    · refine ⟨_, ?_, (hz1 h0).shape⟩
      rw [List.length_map]; exact sizes_len hg
  obtain ⟨ks, hkl, hks⟩ := hsh
  obtain ⟨z, ez, hzr, hzb, hzf⟩ := postprocessTensor_ok hg (t := z₀) (ds := pick (batchAxes x.rank ax ++ ax) c₀)
    (bs := pick (batchAxes x.rank ax) x.shape)
    (by rw [pick_length]; exact (isPerm_axes hg.nodup hg.lt).len)
    (by rw [take_pick hbl hg.axes_len, hcb]) hkl hks
  refine ⟨z, ez, ?_, ?_⟩
  · intro h0
    rw [hz0 h0] at hzf
    subst h0
    rw [levelLens_zero] at ht
    have := alongAxes_of_showsN hg.nodup hg.lt (by rw [sizes_len hg, hal]) hy hzr hzb hzf
      (f := fun X => cAN m w (sizes ax x.shape) X 0) ht
    exact alongAxes_id hg.lt (fun X ks => rfl) this
  · intro h0
    exact alongAxes_of_showsN hg.nodup hg.lt (by rw [List.length_map, sizes_len hg, hal]) hy hzr hzb hzf
      (f := fun X ks => extN m (sizes ax x.shape) X (ks.map fun (k : Nat) => (k : ℤ))) (hz1 h0)

theorem waverec2_isDwt (hw : PRBank w F) (hF : 2 ≤ F) (he : F % 2 = 0) (hg : GoodAxes h x.rank 2)
    (hdt : isDtypeSupported x.md.dtype = true) {c : Coeffs R}
    (ha : LevelsAdmit m F (sizes (axesOf h x.rank 2) x.shape) L)
    (hc : IsDwt2 m w (axesOf h x.rank 2) L x c) :
    ∃ z, waverec2 c w h = .ok z ∧ (L = 0 → z = x) ∧
      (0 < L → AlongAxes (axesOf h x.rank 2) ((sizes (axesOf h x.rank 2) x.shape).map fun k => k + k % 2)
        (fun X ks => extN m (sizes (axesOf h x.rank 2) x.shape) X (ks.map fun (k : Nat) => (k : ℤ))) x z) := by
  have hFw : w.len = F := hw.len.1
  obtain ⟨y, -, hy⟩ := preprocessTensor_ok hg hdt
  obtain ⟨c₀, t, ds, ep, hcl, hcb, hck, hdl, ht, hds⟩ := container_pre isTuple_kind hg hy hdt hc
  rw [hFw] at ht hds
  obtain ⟨filt, ef, hf⟩ := construct2d_ok (lo := w.recLo) (hi := w.recHi) hw.len.2.2.1 hw.len.2.2.2 false x.md
  obtain ⟨z₀, ez, h0, h1⟩ := recLoop_ok (m := m) hw hF he (rec2Step_ok hF hw.len.2.2.1 hw.len.2.2.2 hf)
    (sizes_len hg) L t ds ha ht hdl hds
  obtain ⟨z, epz, hz⟩ := rec_post hg hy hcl hcb ht h0 h1
  refine ⟨z, ?_, hz⟩
  unfold waverec2
  simp only [bind, Except.bind, ep, hck, ef, headTensor, hw.len.2.2.1, List.tail_cons, waverec2Loop_eq, ez]
  exact epz

theorem waverec3_isDwt (hw : PRBank w F) (hF : 2 ≤ F) (he : F % 2 = 0) (hg : GoodAxes h x.rank 3)
    (hdt : isDtypeSupported x.md.dtype = true) {c : Coeffs R}
    (ha : LevelsAdmit m F (sizes (axesOf h x.rank 3) x.shape) L)
    (hc : IsDwt3 m w (axesOf h x.rank 3) L x c) :
    ∃ z, waverec3 c w h = .ok z ∧ (L = 0 → z = x) ∧
      (0 < L → AlongAxes (axesOf h x.rank 3) ((sizes (axesOf h x.rank 3) x.shape).map fun k => k + k % 2)
        (fun X ks => extN m (sizes (axesOf h x.rank 3) x.shape) X (ks.map fun (k : Nat) => (k : ℤ))) x z) := by
  have hFw : w.len = F := hw.len.1
  obtain ⟨y, -, hy⟩ := preprocessTensor_ok hg hdt
  obtain ⟨c₀, t, ds, ep, hcl, hcb, hck, hdl, ht, hds⟩ := container_pre (isDict_kind keys3) hg hy hdt hc
  rw [hFw] at ht hds
  obtain ⟨filt, ef, hf⟩ := construct3d_ok (lo := w.recLo) (hi := w.recHi) hw.len.2.2.1 hw.len.2.2.2 false x.md
  obtain ⟨z₀, ez, h0, h1⟩ := recLoop_ok (m := m) hw hF he (rec3Step_ok hF hw.len.2.2.1 hw.len.2.2.2 hf)
    (sizes_len hg) L t ds ha ht hdl hds
  obtain ⟨z, epz, hz⟩ := rec_post hg hy hcl hcb ht h0 h1
  refine ⟨z, ?_, hz⟩
  unfold waverec3
  simp only [bind, Except.bind, ep, hck, ef, headTensor, hw.len.2.2.1, List.tail_cons, waverec3Loop_eq, ez]
  exact epz

end inv

section
variable [Zero R]

theorem sizes_setMany {ax l : List Nat} {Ks : List Nat} (hn : ax.Nodup) (hlt : ∀ a ∈ ax, a < l.length)
    (hk : Ks.length = ax.length) : sizes ax (setMany l ax Ks) = Ks := pick_setMany_self _ _ _ hn hlt hk

/-- The reconstruction agrees with the signal. -/
theorem alongAxes_ext {ax : List Nat} {m : Mode} {x z : Tensor R} (hn : ax.Nodup) (hlt : ∀ a ∈ ax, a < x.rank)
    (h : AlongAxes ax ((sizes ax x.shape).map fun k => k + k % 2)
      (fun X ks => extN m (sizes ax x.shape) X (ks.map fun (k : Nat) => (k : ℤ))) x z) :
    ∀ idx, InB x.shape idx → z.get idx = x.get idx := by
  intro idx hidx
  have hil : idx.length = x.rank := by rw [hidx.length_eq]; rfl
  have hin : InB z.shape idx := by
    rw [h.shape, inB_iff]
    refine ⟨by rw [setMany_length]; exact hidx.length_eq, ?_⟩
    intro d hd
    have h1 := hidx.getD_lt (d := d) (by rw [setMany_length] at hd; exact hd)
    refine lt_of_lt_of_le h1 ?_
    clear hil h1 hidx h
    have key : ∀ (ax l : List Nat), l.length = x.shape.length → x.shape.getD d 0 ≤ l.getD d 0 →
        x.shape.getD d 0 ≤ (setMany l ax ((sizes ax x.shape).map fun k => k + k % 2)).getD d 0 := by
      intro ax
      induction ax with
      | nil => intro l _ h; exact h
      | cons a ax ih =>
        intro l hl h
        show _ ≤ (setMany (l.set a (x.shape.getD a 0 + x.shape.getD a 0 % 2)) ax _).getD d 0
        apply ih _ (by rw [List.length_set]; exact hl)
        by_cases ha : a = d
        · subst ha
          rw [setMany_length] at hd
          rw [getD_set_self (by omega)]
          omega
        · rw [getD_set_ne ha]; exact h
    exact key ax _ rfl le_rfl
  rw [h.get idx hin, extN_inside]
  · unfold plane
    rw [if_pos (by simp [sizes]), show setMany idx ax (sizes ax idx) = idx from
      setMany_pick_self _ _ (by rw [hil]; exact hlt)]
  · exact inB_pick_of (r := x.rank) rfl hidx hlt

end

end Verif
