import Verif.Lemmas.Prepost

/-! Postprocessing, round trips and the single-tensor versions. -/

namespace Verif
open Tensor Spec
variable {R : Type} [Zero R]

/-- `u` is `t` with the leading axis unfolded to the batch shape `bs`. -/
structure Unfolded (bs ks : List Nat) (t u : Tensor R) : Prop where
  md : u.md = t.md
  shape : u.shape = bs ++ ks
  get : ∀ i j, InB bs i → InB ks j → u.get (i ++ j) = t.get (ravel bs i :: j)

theorem unfold_cases {n : Nat} {t : Tensor R} {ds bs ks : List Nat} (hn : n ≤ ds.length)
    (hbs : bs = ds.take (ds.length - n)) (hk : ks.length = n) (ht : t.shape = prodL bs :: ks) :
    (ds.length = n → Unfolded bs ks t t.squeeze0) ∧
    (ds.length = n + 1 → Unfolded bs ks t t) ∧
    (∃ u, unfoldAxes t ds n = .ok u ∧ Unfolded bs ks t u) := by
  have hbl : bs.length = ds.length - n := by rw [hbs, List.length_take]; omega
  refine ⟨?_, ?_, ?_⟩
  · intro h
    have hb : bs = [] := List.length_eq_zero_iff.mp (by omega)
    subst hb
    have e : t.squeeze0 = ofFn t.md ks fun i => t.get (0 :: i) := by
      unfold Tensor.squeeze0
      rw [ht]; rfl
    rw [e]
    refine ⟨rfl, rfl, ?_⟩
    intro i j hi hj
    cases i with
    | nil => rw [List.nil_append, ofFn_get_of _ _ hj]; rfl
    | cons _ _ => exact hi.elim
  · intro h
    obtain ⟨b, hb⟩ : ∃ b, bs = [b] := List.length_eq_one_iff.mp (by omega)
    rw [hb] at ht ⊢
    refine ⟨rfl, by simpa using ht, ?_⟩
    intro i j hi hj
    match i, hi with
    | [x], _ => simp [ravel]
  · unfold unfoldAxes
    have e : t.shape.drop (t.shape.length - n) = ks := by
      rw [ht, List.length_cons, hk, Nat.add_sub_cancel_left]; rfl
    rw [← hbs, e]
    obtain ⟨u, h1, h2, h3, h4⟩ := reshape_ok (t := t) (sh := bs ++ ks)
      (by rw [ht, prodL_append]; rfl)
    refine ⟨u, h1, h2, h3, ?_⟩
    intro i j hi hj
    apply h4
    · rw [ht]; exact ⟨ravel_lt hi, hj⟩
    · exact hi.append hj
    · rw [ht, ravel_append hi.length_eq]; rfl

theorem unswap_folded {h : AxisHint} {r n : Nat} (hg : GoodAxes h r n) {bs ks : List Nat}
    {t u z : Tensor R} (hbl : bs.length + n = r) (hk : ks.length = n)
    (ht : t.shape = prodL bs :: ks)
    (hu : Unfolded bs ks t u) (hmd : z.md = u.md) (hzl : z.shape.length = r)
    (hz : pick (batchAxes r (axesOf h r n) ++ axesOf h r n) z.shape = u.shape)
    (hget : ∀ idx, idx.length = r →
      z.get idx = u.get (pick (batchAxes r (axesOf h r n) ++ axesOf h r n) idx)) :
    z.rank = r ∧ pick (batchAxes r (axesOf h r n)) z.shape = bs ∧ Folded (axesOf h r n) z t := by
  have hblen := hg.batch_len
  have hzr : z.rank = r := hzl
  rw [pick_append, hu.shape] at hz
  obtain ⟨hz1, hz2⟩ := List.append_inj hz (by rw [pick_length]; omega)
  refine ⟨hzr, hz1, ?_⟩
  refine ⟨hu.md.symm.trans hmd.symm, ?_, ?_⟩
  · rw [hzr, hz1, hz2, ht]
  · intro idx hidx
    rw [hzr, hz1]
    have hb1 : InB bs (pick (batchAxes r (axesOf h r n)) idx) := by
      rw [← hz1]; exact inB_pick_of hzl hidx batchAxes_lt
    have hb2 : InB ks (pick (axesOf h r n) idx) := by
      rw [← hz2]; exact inB_pick_of hzl hidx hg.lt
    rw [hget idx (hidx.length_eq.trans hzl), pick_append, hu.get _ _ hb1 hb2]

theorem CoeffRel.refl' {P : Tensor R → Prop} {Q : Tensor R → Tensor R → Prop} {c : Coeffs R}
    (h : c.WF P) (hpq : ∀ t, P t → Q t t) : CoeffRel Q c c := by
  refine ⟨rfl, ?_⟩
  rw [List.forall₂_same]
  intro e he
  have := h.all e he
  cases e with
  | tensor t => exact .tensor (hpq _ this)
  | tuple a b c => exact .tuple (hpq _ this.1) (hpq _ this.2.1) (hpq _ this.2.2)
  | dict kv =>
    refine .dict ?_
    rw [List.forall₂_same]
    exact fun e he => ⟨rfl, hpq _ (this e he)⟩
  | other => exact this.elim

/-- `_postprocess_coeffs` on a well-formed container of folded tensors. -/
theorem postprocessCoeffs_ok {h : AxisHint} {r n : Nat} (hg : GoodAxes h r n) {c : Coeffs R}
    {ds bs : List Nat} (hds : ds.length = r) (hbs : bs = ds.take (r - n))
    (hc : c.WF fun t => ∃ ks, ks.length = n ∧ t.shape = prodL bs :: ks) :
    ∃ c', postprocessCoeffs c n ds h = .ok c' ∧
      CoeffRel (fun t z => z.rank = r ∧ pick (batchAxes r (axesOf h r n)) z.shape = bs ∧
        Folded (axesOf h r n) z t) c c' := by
  have hnp := hg.pos
  have hblen := hg.batch_len
  have hnr : n ≤ ds.length := by omega
  have hbl : bs.length + n = r := by rw [hbs, List.length_take]; omega
  have hbs' : bs = ds.take (ds.length - n) := by rw [hds]; exact hbs
  -- unfold
  have hun : ∃ c₁, postUnfold c ds n = Except.ok c₁ ∧
      CoeffRel (fun t u => ∃ ks, ks.length = n ∧ t.shape = prodL bs :: ks ∧ Unfolded bs ks t u) c c₁ := by
    unfold postUnfold
    rw [if_neg (by omega)]
    by_cases c1 : ds.length = n
    · rw [if_pos c1]
      apply coeffTreeMap_ok
      apply hc.imp
      rintro t ⟨ks, hk, ht⟩
      exact ⟨_, rfl, ks, hk, ht, (unfold_cases hnr hbs' hk ht).1 c1⟩
    · rw [if_neg c1]
      by_cases c2 : n + 1 < ds.length
      · rw [if_pos c2]
        apply coeffTreeMap_ok
        apply hc.imp
        rintro t ⟨ks, hk, ht⟩
        obtain ⟨u, h1, h2⟩ := (unfold_cases hnr hbs' hk ht).2.2
        exact ⟨u, h1, ks, hk, ht, h2⟩
      · rw [if_neg c2]
        refine ⟨c, rfl, CoeffRel.refl' hc ?_⟩
        rintro t ⟨ks, hk, ht⟩
        exact ⟨ks, hk, ht, (unfold_cases hnr hbs' hk ht).2.1 (by omega)⟩
  obtain ⟨c₁, e₁, r₁⟩ := hun
  have hw1 : c₁.WF fun u => ∃ t ks, ks.length = n ∧ t.shape = prodL bs :: ks ∧ Unfolded bs ks t u :=
    r₁.wf (hc.imp fun _ _ => trivial) fun t u ⟨ks, h⟩ => ⟨t, ks, h⟩
  have hur : ∀ {t u : Tensor R} {ks : List Nat}, ks.length = n → Unfolded bs ks t u → u.rank = r := by
    intro t u ks hk hu
    unfold Tensor.rank
    rw [hu.shape, List.length_append]; omega
  -- undo the swap
  have hsw : ∃ c₂, postSwap c₁ (resolve h n) ((List.range n).map (fun (k : Nat) => (k : Int) - (n : Int)))
        = Except.ok c₂ ∧
      CoeffRel (fun u z => z.md = u.md ∧ z.shape.length = r ∧
        pick (batchAxes r (axesOf h r n) ++ axesOf h r n) z.shape = u.shape ∧
        ∀ idx, idx.length = r →
          z.get idx = u.get (pick (batchAxes r (axesOf h r n) ++ axesOf h r n) idx)) c₁ c₂ := by
    unfold postSwap
    by_cases hd : resolve h n = (List.range n).map (fun (k : Nat) => (k : Int) - (n : Int))
    · rw [if_neg (by simpa using hd)]
      refine ⟨c₁, rfl, CoeffRel.refl' hw1 ?_⟩
      rintro u ⟨t, ks, hk, ht, hu⟩
      have hr := hur hk hu
      have e : batchAxes r (axesOf h r n) ++ axesOf h r n = List.range r := by
        unfold axesOf; rw [hd]; exact default_perm (by omega)
      rw [e]
      refine ⟨rfl, hr, ?_, ?_⟩
      · conv_lhs => rw [← hr]
        exact pick_range _
      · intro idx hidx
        rw [← hidx, pick_range]
    · rw [if_pos hd]
      apply coeffTreeMap_ok
      apply hw1.imp
      rintro u ⟨t, ks, hk, ht, hu⟩
      have hr := hur hk hu
      subst hr
      obtain ⟨z, h1, h2, h3, h4, h5⟩ := undoSwapAxes_ok hg.valid
      exact ⟨z, h1, h2, h3, h4, h5⟩
  obtain ⟨c₂, e₂, r₂⟩ := hsw
  refine ⟨c₂, ?_, r₁.comp ?_ r₂⟩
  · unfold postprocessCoeffs
    rw [if_neg (by omega)]
    simp only [bind, Except.bind, ensureAxes_ok hg, getDefaultAxes_ok hnp, e₁, e₂]
  · rintro t u z ⟨ks, hk, ht, hu⟩ ⟨z1, z2, z3, z4⟩
    exact unswap_folded hg hbl hk ht hu z1 z2 z3 z4

/-- A tensor is determined by its folded version, its rank and its batch shape. -/
theorem Folded.unique {h : AxisHint} {r n : Nat} (hg : GoodAxes h r n) {x z t : Tensor R}
    (hx : x.rank = r) (hz : z.rank = r)
    (hb : pick (batchAxes r (axesOf h r n)) x.shape = pick (batchAxes r (axesOf h r n)) z.shape)
    (h1 : Folded (axesOf h r n) x t) (h2 : Folded (axesOf h r n) z t) : x = z := by
  have hp : IsPerm (batchAxes r (axesOf h r n) ++ axesOf h r n) r := isPerm_axes hg.nodup hg.lt
  have hs : x.shape = z.shape := by
    apply hp.pick_inj hx hz
    rw [pick_append, pick_append, hb]
    have e := h1.shape.symm.trans h2.shape
    rw [hx, hz] at e
    rw [(List.cons.inj e).2]
  apply Tensor.ext' (h1.md.symm.trans h2.md) hs
  intro idx hidx
  rw [← h1.get idx hidx, ← h2.get idx (hs ▸ hidx), hx, hz, hs]

/-- `_preprocess_tensor` without channel axis. -/
theorem preprocessTensor_ok {h : AxisHint} {n : Nat} {x : Tensor R} (hg : GoodAxes h x.rank n)
    (hdt : isDtypeSupported x.md.dtype = true) :
    ∃ y, preprocessTensor x n h false
        = .ok (y, pick (batchAxes x.rank (axesOf h x.rank n) ++ axesOf h x.rank n) x.shape) ∧
      Folded (axesOf h x.rank n) x y := by
  obtain ⟨c', e, r⟩ := preprocessCoeffs_ok hg (c := Coeffs.ofList [x])
    (ofList_wf (by simp) (by simp)) (headTensor_ofList x []) hdt
  obtain ⟨us, rfl, hf⟩ := r.ofList
  cases hf with
  | cons hp hrest =>
    cases hrest
    refine ⟨_, ?_, hp.2⟩
    unfold preprocessTensor
    rw [e]; rfl

/-- Add a channel axis of size one at position 1. -/
def withChannel (y : Tensor R) : Tensor R :=
  match y.shape with
  | [] => y
  | s :: ss => ofFn y.md (s :: 1 :: ss) fun i => y.get (i.headD 0 :: i.tail.tail)

theorem unsqueeze1_ok {y : Tensor R} {s : Nat} {ss : List Nat} (hs : y.shape = s :: ss) :
    y.unsqueeze1 = .ok (withChannel y) := by
  unfold Tensor.unsqueeze1 withChannel
  rw [hs]

theorem withChannel_shape {y : Tensor R} {s : Nat} {ss : List Nat} (hs : y.shape = s :: ss) :
    (withChannel y).shape = s :: 1 :: ss := by
  unfold withChannel; rw [hs]; rfl

theorem withChannel_md (y : Tensor R) : (withChannel y).md = y.md := by
  unfold withChannel; split <;> rfl

theorem withChannel_get {y : Tensor R} {s : Nat} {ss : List Nat} (hs : y.shape = s :: ss)
    (b : Nat) (k : List Nat) : (withChannel y).get (b :: 0 :: k) = y.get (b :: k) := by
  by_cases hb : InB y.shape (b :: k)
  · unfold withChannel
    rw [hs] at hb
    rw [hs]
    show (ofFn _ _ _).get _ = _
    rw [ofFn_get_of _ _ (by exact ⟨hb.1, Nat.one_pos, hb.2⟩)]; rfl
  · rw [y.supp _ hb, (withChannel y).supp]
    rw [withChannel_shape hs]
    rw [hs] at hb
    rintro ⟨h1, _, h2⟩
    exact hb ⟨h1, h2⟩

/-- `_preprocess_tensor` with channel axis. -/
theorem preprocessTensor_ch {h : AxisHint} {n : Nat} {x : Tensor R} (hg : GoodAxes h x.rank n)
    (hdt : isDtypeSupported x.md.dtype = true) :
    ∃ y, preprocessTensor x n h true
        = .ok (withChannel y, pick (batchAxes x.rank (axesOf h x.rank n) ++ axesOf h x.rank n) x.shape) ∧
      Folded (axesOf h x.rank n) x y := by
  obtain ⟨y, e, hf⟩ := preprocessTensor_ok hg hdt
  refine ⟨y, ?_, hf⟩
  have key : ∀ (c : Coeffs R), preprocessCoeffs c n h true
      = (preprocessCoeffs c n h false).bind fun p => (preChannel p.1 true).bind fun c => .ok (c, p.2) := by
    intro c
    unfold preprocessCoeffs
    by_cases h0 : n = 0
    · simp [h0, Except.bind]
    · rw [if_neg h0, if_neg h0]
      simp only [bind, Except.bind]
      cases headTensor c with
      | error _ => rfl
      | ok t =>
        simp only
        split_ifs
        · rfl
        · cases ensureAxes h n with
          | error _ => rfl
          | ok as =>
            cases getDefaultAxes n with
            | error _ => rfl
            | ok d =>
              simp only
              cases preSwap c as d with
              | error _ => rfl
              | ok c1 =>
                simp only
                cases headTensor c1 with
                | error _ => rfl
                | ok t1 =>
                  simp only
                  cases preFold c1 t1.shape n with
                  | error _ => rfl
                  | ok c2 => simp only [preChannel]; rfl
  obtain ⟨c', e', r⟩ := preprocessCoeffs_ok hg (c := Coeffs.ofList [x])
    (ofList_wf (by simp) (by simp)) (headTensor_ofList x []) hdt
  obtain ⟨us, rfl, hfr⟩ := r.ofList
  cases hfr with
  | cons hp hrest =>
    cases hrest
    rename_i y'
    unfold preprocessTensor at e
    rw [e'] at e
    simp only [bind, Except.bind, headTensor_ofList, pure, Except.pure, Except.ok.injEq,
      Prod.mk.injEq] at e
    obtain ⟨rfl, -⟩ := e
    unfold preprocessTensor
    rw [key, e']
    have hs := hf.shape
    simp only [Except.bind, preChannel, if_true, coeffTreeMap, Coeffs.ofList, List.map_cons,
      List.map_nil, List.mapM_nil, unsqueeze1_ok hs, bind, pure, Except.pure, headTensor]

theorem postprocessTensor_ok {h : AxisHint} {r n : Nat} (hg : GoodAxes h r n) {t : Tensor R}
    {ds bs ks : List Nat} (hds : ds.length = r) (hbs : bs = ds.take (r - n))
    (hk : ks.length = n) (ht : t.shape = prodL bs :: ks) :
    ∃ z, postprocessTensor t n ds h = .ok z ∧ z.rank = r ∧
      pick (batchAxes r (axesOf h r n)) z.shape = bs ∧ Folded (axesOf h r n) z t := by
  obtain ⟨c', e, rel⟩ := postprocessCoeffs_ok hg (c := Coeffs.ofList [t]) hds hbs
    (ofList_wf (by simp) (by simpa using ⟨ks, hk, ht⟩))
  obtain ⟨us, rfl, hf⟩ := rel.ofList
  cases hf with
  | cons hp hrest =>
    cases hrest
    refine ⟨_, ?_, hp⟩
    unfold postprocessTensor
    rw [e]; rfl

theorem take_pick {ba ax s : List Nat} {r n : Nat} (h : ba.length + n = r) (hn : ax.length = n) :
    (pick (ba ++ ax) s).take (r - n) = pick ba s := by
  rw [pick_append, List.take_left']
  rw [pick_length]; omega

end Verif
