import Verif.Lemmas.TopNd
import Verif.Spec.IdwtNd

/-! The multidimensional synthesis on arbitrary coefficients. -/

namespace Verif
open Tensor Spec
variable {R : Type}

theorem synN_synthesisN [NonUnitalNonAssocSemiring R] (f₀ f₁ : List R) : ∀ (Ks : List Nat) (c : List Bool → List Nat → R)
    (ms : List ℤ), synN f₀ f₁ Ks c ms = synthesisN f₀ f₁ Ks c ms
  | [], _, [] => rfl
  | [], _, _ :: _ => rfl
  | _ :: _, _, [] => rfl
  | K :: Ks, c, m :: ms => by
    unfold synN synthesisN
    simp only [synN_synthesisN f₀ f₁ Ks]

/-- How a kind of detail entries relates bands and tensors. -/
structure RecKind [Zero R] (D : (List Bool → Tensor R → Prop) → Entry R → Prop) : Prop extends DetailKind D where
  high : ∀ {P : List Bool → Tensor R → Prop} {e : Entry R}, D P e → D (fun bs t => P bs t ∧ true ∈ bs) e
  get : ∀ {P : List Bool → Tensor R → Prop} {e : Entry R}, D P e → D (fun bs t => P bs t ∧ bandGet e bs = some t) e

theorem isTuple_band [Zero R] : RecKind (R := R) IsTuple := by
  refine ⟨isTuple_kind, ?_, ?_⟩
  · rintro P e ⟨h, v, d, rfl, h1, h2, h3⟩
    exact ⟨h, v, d, rfl, ⟨h1, by simp⟩, ⟨h2, by simp⟩, ⟨h3, by simp⟩⟩
  · rintro P e ⟨h, v, d, rfl, h1, h2, h3⟩
    exact ⟨h, v, d, rfl, ⟨h1, rfl⟩, ⟨h2, rfl⟩, ⟨h3, rfl⟩⟩

theorem find_of_nodup {β : Type} {f : String → List Bool} : ∀ {kv : List (String × β)}, (kv.map fun q => f q.1).Nodup →
    ∀ q ∈ kv, (kv.find? fun p => f p.1 == f q.1) = some q
  | p :: kv, hn, q, hq => by
    rw [List.map_cons, List.nodup_cons] at hn
    by_cases h : f p.1 = f q.1
    · rcases List.mem_cons.mp hq with rfl | hq
      · simp
      · exact absurd (h ▸ List.mem_map_of_mem (f := fun q => f q.1) hq) hn.1
    · rw [List.find?_cons_of_neg (by simpa using h)]
      rcases List.mem_cons.mp hq with rfl | hq
      · exact absurd rfl h
      · exact find_of_nodup hn.2 q hq

theorem isDict_band [Zero R] {keys : List String} (hn : (keys.map bandOfKey).Nodup)
    (ht : ∀ k ∈ keys, true ∈ bandOfKey k) : RecKind (R := R) (IsDict keys) := by
  refine ⟨isDict_kind keys, ?_, ?_⟩
  · rintro P e ⟨kv, rfl, hk, hp⟩
    exact ⟨kv, rfl, hk, fun q hq => ⟨hp q hq, ht _ (hk ▸ List.mem_map_of_mem (f := Prod.fst) hq)⟩⟩
  · rintro P e ⟨kv, rfl, hk, hp⟩
    refine ⟨kv, rfl, hk, fun q hq => ⟨hp q hq, ?_⟩⟩
    have : (kv.map fun q => bandOfKey q.1).Nodup := by
      rw [← hk, List.map_map] at hn
      exact hn
    unfold bandGet
    simp only [find_of_nodup (f := bandOfKey) this q hq]
    rfl

theorem isDict3_band [Zero R] : RecKind (R := R) (IsDict keys3) :=
  isDict_band (by decide) (by decide)

section loop
variable [NonUnitalNonAssocSemiring R] {f₀ f₁ : List R} {F : Nat} {md : Meta} {B n : Nat}
  {D : (List Bool → Tensor R → Prop) → Entry R → Prop}
  {step : Tensor R → Entry R → List (Entry R) → Except Err (Tensor R)}

/-- The bands that meet in one step. -/
def withLow (lo : List Nat → R) (hi : List Bool → List Nat → R) (bs : List Bool) : List Nat → R :=
  if true ∈ bs then hi bs else lo

theorem withLow_low (lo : List Nat → R) (hi : List Bool → List Nat → R) (n : Nat) : withLow lo hi (lowBand n) = lo := by
  unfold withLow lowBand
  rw [if_neg]
  intro h
  have := List.eq_of_mem_replicate h
  cases this

theorem recLoop_gen (hD : RecKind D) (hstep : RecStepOk step f₀ f₁ F md B n D) :
    ∀ (es : List (Entry R)) (ps : List (List Nat × (Nat → List Bool → List Nat → R))) (t : Tensor R) (Ks : List Nat)
      (lo : Nat → List Nat → R), Ks.length = n → (∀ p ∈ ps, p.1.length = n) → ShowsN t md B Ks lo →
      List.Forall₂ (fun e p => D (fun bs u => ShowsN u md B p.1 (fun b => p.2 b bs)) e) es ps →
      (ConsistentN F Ks (ps.map Prod.fst) →
        ∃ z, recLoop step t es = .ok z ∧ ShowsN z md B (idwtLenN F Ks (ps.map Prod.fst))
          (fun b => idwtN f₀ f₁ F (lo b) (ps.map fun p => (p.1, p.2 b)))) ∧
      (SizeClashN F Ks (ps.map Prod.fst) → recLoop step t es = .error .assertionError)
  | [], [], t, Ks, lo, _, _, ht, _ => ⟨fun _ => ⟨t, rfl, ht⟩, fun h => h.elim⟩
  | e :: es, (Ds, hi) :: ps, t, Ks, lo, hl, hps, ht, hes => by
    rw [List.forall₂_cons] at hes
    obtain ⟨he, hes⟩ := hes
    have hone : Ds = Ks → (∀ K ∈ Ks, 1 ≤ K) → _ := fun hd hK => by
      subst hd
      exact hstep Ds (fun b => withLow (lo b) (hi b)) t e hl hK
        (by simpa only [withLow_low] using ht)
        (hD.mono (hD.high he) fun bs u hu => by
          have : (fun b => withLow (lo b) (hi b) bs) = fun b => hi b bs := by
            funext b; unfold withLow; rw [if_pos hu.2]
          rw [this]; exact hu.1)
    have hval : ∀ b, synFrom f₀ f₁ F Ks (withLow (lo b) (hi b)) = fun ks => synthesisN f₀ f₁ Ks
        (fun bs => if true ∈ bs then hi b bs else lo b) (ks.map fun k => ((k + (F - 2) : ℕ) : ℤ)) := by
      intro b
      funext ks
      unfold synFrom
      rw [synN_synthesisN]
      rfl
    match es, ps, hes with
    | [], [], _ =>
      refine ⟨?_, fun h => h.elim⟩
      rintro ⟨rfl, hK⟩
      obtain ⟨⟨z, ez, hz⟩, -⟩ := hone rfl hK
      refine ⟨z, ?_, ?_⟩
      · simp only [recLoop, bind, Except.bind, ez]
      · simp only [hval] at hz
        exact hz
    | e' :: es, (Ns, hi') :: ps, hes =>
      have he' := (List.forall₂_cons.mp hes).1
      have hnl : Ns.length = n := hps (Ns, hi') (by simp)
      have ih := fun z (hz : ShowsN z md B Ns (fun b => synFrom f₀ f₁ F Ks (withLow (lo b) (hi b)))) =>
        recLoop_gen hD hstep (e' :: es) ((Ns, hi') :: ps) z Ns _ hnl (fun p hp => hps p (by simp [List.mem_cons.mp hp])) hz hes
      have hone' := fun (hd : Ds = Ks) (hK : ∀ K ∈ Ks, 1 ≤ K) => (hone hd hK).2 e' es Ns (fun bs b => hi' b bs) hnl he'
      refine ⟨?_, ?_⟩
      · rintro ⟨hd, hK, hf, hc⟩
        have hd : Ds = Ks := hd
        obtain ⟨z, ez, hz⟩ := (hone' hd hK).1 (by rw [hd]; exact hf)
        rw [hd] at hz
        obtain ⟨z', ez', hz'⟩ := (ih z hz).1 hc
        refine ⟨z', ?_, ?_⟩
        · rw [recLoop]
          simp only [bind, Except.bind, ez]
          exact ez'
        · simp only [hval] at hz'
          rw [← hd] at hz'
          exact hz'
      · rintro ⟨hd, hK, hf⟩
        have hd : Ds = Ks := hd
        rw [recLoop]
        rcases hf with hf | ⟨hf, hc⟩
        · have := (hone' hd hK).2 (by rw [hd]; exact hf)
          simp only [bind, Except.bind, this]
        · obtain ⟨z, ez, hz⟩ := (hone' hd hK).1 (by rw [hd]; exact hf)
          rw [hd] at hz
          simp only [bind, Except.bind, ez]
          exact (ih z hz).2 hc

end loop

section top
variable [NonUnitalNonAssocSemiring R] {w : Wavelet R} {F : Nat} {h : AxisHint} {md : Meta} {S : List Nat} {n : Nat}
  {D : (List Bool → Tensor R → Prop) → Entry R → Prop} {t0 : Tensor R} {es : List (Entry R)} {K0 : List Nat}
  {Kss : List (List Nat)}

theorem bandGet_rel {P : Tensor R → Tensor R → Prop} {e e' : Entry R} (h : EntryRel P e e') (bs : List Bool) :
    (bandGet e bs = none ∧ bandGet e' bs = none) ∨ ∃ t u, bandGet e bs = some t ∧ bandGet e' bs = some u ∧ P t u := by
  cases h with
  | tensor _ => exact Or.inl ⟨rfl, rfl⟩
  | tuple h1 h2 h3 =>
    unfold bandGet
    simp only
    split_ifs
    · exact Or.inr ⟨_, _, rfl, rfl, h1⟩
    · exact Or.inr ⟨_, _, rfl, rfl, h2⟩
    · exact Or.inr ⟨_, _, rfl, rfl, h3⟩
    · exact Or.inl ⟨rfl, rfl⟩
  | dict hf =>
    unfold bandGet
    simp only
    induction hf with
    | nil => exact Or.inl ⟨rfl, rfl⟩
    | @cons a b l l' hab _ ih =>
      by_cases hk : bandOfKey a.1 = bs
      · rw [List.find?_cons_of_pos (by simpa using hk), List.find?_cons_of_pos (by rw [← hab.1]; simpa using hk)]
        exact Or.inr ⟨_, _, rfl, rfl, hab.2⟩
      · rw [List.find?_cons_of_neg (by simpa using hk), List.find?_cons_of_neg (by rw [← hab.1]; simpa using hk)]
        exact ih

theorem bandGet_all {Q : Tensor R → Prop} {e : Entry R} {bs : List Bool} {t : Tensor R} (h : e.All Q)
    (hb : bandGet e bs = some t) : Q t := by
  cases e with
  | tensor _ => cases hb
  | other => cases hb
  | tuple a b c =>
    unfold bandGet at hb
    simp only at hb
    split_ifs at hb <;> cases hb
    · exact h.1
    · exact h.2.1
    · exact h.2.2
  | dict kv =>
    unfold bandGet at hb
    obtain ⟨q, hq, rfl⟩ := Option.map_eq_some_iff.mp hb
    exact h q (List.mem_of_find?_eq_some hq)

/-- The bands of a folded entry. -/
def foldedBand (u : Entry R) (b : Nat) (bs : List Bool) : List Nat → R :=
  match bandGet u bs with
  | some t => fun js => t.get (b :: js)
  | none => fun _ => 0

theorem uniform_shows (hg : GoodAxes h S.length n) {c u : Tensor R} {Ks : List Nat} (hk : Ks.length = n)
    (hc : Uniform md (setMany S (axesOf h S.length n) Ks) c) (hf : Folded (axesOf h S.length n) c u) :
    ShowsN u md (prodL (pick (batchAxes S.length (axesOf h S.length n)) S)) Ks (fun b js => u.get (b :: js)) := by
  have hr : c.rank = S.length := by unfold Tensor.rank; rw [hc.2, setMany_length]
  have := hf.showsN
  rw [hr, hc.1, hc.2, pick_setMany_disjoint batch_disjoint,
    sizes_setMany hg.nodup hg.lt (by rw [hk, hg.axes_len])] at this
  exact this

theorem uniform_plane (hg : GoodAxes h S.length n) {c u : Tensor R} {Ks : List Nat}
    (hc : Uniform md (setMany S (axesOf h S.length n) Ks) c) (hf : Folded (axesOf h S.length n) c u) {idx Zs : List Nat}
    (hi : InB (setMany S (axesOf h S.length n) Zs) idx) :
    plane c (axesOf h S.length n) idx = fun js => u.get
      (ravel (pick (batchAxes S.length (axesOf h S.length n)) S) (pick (batchAxes S.length (axesOf h S.length n)) idx) :: js) := by
  have hr : c.rank = S.length := by unfold Tensor.rank; rw [hc.2, setMany_length]
  have hb : pick (batchAxes S.length (axesOf h S.length n)) c.shape = pick (batchAxes S.length (axesOf h S.length n)) S := by
    rw [hc.2, pick_setMany_disjoint batch_disjoint]
  have hin : InB (pick (batchAxes S.length (axesOf h S.length n)) S) (pick (batchAxes S.length (axesOf h S.length n)) idx) := by
    have := inB_pick_of (r := S.length) (setMany_length S _ _) hi (batchAxes_lt (ax := axesOf h S.length n))
    rwa [pick_setMany_disjoint batch_disjoint] at this
  have := hf.plane hg.nodup (by rw [hr]; exact hg.lt) (idx := idx) (by rw [hr, hi.length_eq, setMany_length])
    (by rw [hr, hb]; exact hin)
  rw [this]
  unfold batchPosN
  rw [hr, hb]

/-- Everything the reconstructions do before and after their loops. -/
theorem rec_gen (hD : RecKind D) (hg : GoodAxes h S.length n) (hdt : isDtypeSupported md.dtype = true)
    (hK0 : K0.length = n) (hKl : ∀ Ks ∈ Kss, Ks.length = n)
    (h0 : Uniform md (setMany S (axesOf h S.length n) K0) t0)
    (hes : List.Forall₂ (fun e Ks => D (fun _ t => Uniform md (setMany S (axesOf h S.length n) Ks) t) e) es Kss) :
    ∃ u0 us c₀, preprocessCoeffs ⟨false, .tensor t0 :: es⟩ n h false = .ok (⟨false, .tensor u0 :: us⟩, c₀) ∧
      checkSameDeviceDtype ⟨false, .tensor u0 :: us⟩ = .ok md ∧
      ShowsN u0 md (prodL (pick (batchAxes S.length (axesOf h S.length n)) S)) K0 (fun b js => u0.get (b :: js)) ∧
      List.Forall₂ (fun e (p : List Nat × (Nat → List Bool → List Nat → R)) => D (fun bs u => ShowsN u md
          (prodL (pick (batchAxes S.length (axesOf h S.length n)) S)) p.1 (fun b => p.2 b bs)) e) us
        (List.zipWith (fun u Ks => (Ks, foldedBand u)) us Kss) ∧
      (List.zipWith (fun u Ks => (Ks, foldedBand u)) us Kss).map Prod.fst = Kss ∧
      ∀ (z₀ : Tensor R) (Zs : List Nat) (f : (List Nat → R) → List (List Nat × (List Bool → List Nat → R)) → List Nat → R), Zs.length = n → ShowsN z₀ md (prodL (pick (batchAxes S.length (axesOf h S.length n)) S)) Zs
          (fun b => f (fun js => u0.get (b :: js)) ((List.zipWith (fun u Ks => (Ks, foldedBand u)) us Kss).map fun p => (p.1, p.2 b))) →
        ∃ z, postprocessTensor z₀ n c₀ h = .ok z ∧ z.md = md ∧ z.shape = setMany S (axesOf h S.length n) Zs ∧
          ∀ idx, InB z.shape idx → z.get idx = f (plane t0 (axesOf h S.length n) idx)
            (List.zipWith (fun e Ks => (Ks, bandPlane e (axesOf h S.length n) idx)) es Kss)
            (sizes (axesOf h S.length n) idx) := by
  set ax := axesOf h S.length n with hax
  set B := prodL (pick (batchAxes S.length ax) S) with hB
  have hal : ax.length = n := hg.axes_len
  have hmem : ∀ e ∈ es, ∃ Ks, D (fun _ t => Uniform md (setMany S ax Ks) t) e := by
    intro e he
    obtain ⟨i, hi⟩ := List.getElem?_of_mem he
    obtain ⟨Ks, -, h2⟩ := forall₂_getElem?' hes hi
    exact ⟨Ks, h2⟩
  have wf : Coeffs.WF (fun t => t.rank = S.length) (⟨false, .tensor t0 :: es⟩ : Coeffs R) := by
    have hr : ∀ {Ks} {t : Tensor R}, Uniform md (setMany S ax Ks) t → t.rank = S.length := by
      intro Ks t ht
      unfold Tensor.rank; rw [ht.2, setMany_length]
    refine ⟨⟨t0, es, rfl⟩, ?_, ?_⟩
    · intro e he
      rcases List.mem_cons.mp he with rfl | he
      · exact hr h0
      · obtain ⟨Ks, hs⟩ := hmem e he
        exact hD.all hs fun _ _ ht => hr ht
    · intro e he
      obtain ⟨Ks, hs⟩ := hmem e he
      have := hD.notTensor hs
      simp only [Bool.false_eq_true, false_iff]
      exact this
  obtain ⟨c', ep, rel⟩ := preprocessCoeffs_ok hg wf (t₀ := t0) rfl (by rw [h0.1]; exact hdt)
  obtain ⟨il', items'⟩ := c'
  have hk := rel.kind
  have hi := rel.items
  simp only at hk hi
  subst hk
  cases hi with
  | @cons _ e0 _ us hr0 hrs =>
    cases hr0 with
    | @tensor _ u0 hp0 =>
    have hwm : Coeffs.WF (fun u => u.md = md) (⟨false, .tensor u0 :: us⟩ : Coeffs R) := by
      refine ⟨⟨u0, us, rfl⟩, ?_, ?_⟩
      · intro e he
        rcases List.mem_cons.mp he with rfl | he
        · exact hp0.2.md.trans h0.1
        · obtain ⟨i, hi⟩ := List.getElem?_of_mem he
          obtain ⟨e0, he0, hr⟩ := forall₂_getElem? hrs hi
          obtain ⟨s, hs⟩ := hmem e0 (List.mem_of_getElem? he0)
          have := hD.trans (Q := fun _ u => u.md = md) hr hs fun bs t u hp ht => hp.2.md.trans ht.1
          exact hD.all this fun _ _ h => h
      · intro e he
        obtain ⟨i, hi⟩ := List.getElem?_of_mem he
        obtain ⟨e0, he0, hr⟩ := forall₂_getElem? hrs hi
        obtain ⟨s, hs⟩ := hmem e0 (List.mem_of_getElem? he0)
        have := hD.notTensor hs
        rw [hr.tensor_iff] at this
        simp only [Bool.false_eq_true, false_iff]
        exact this
    refine ⟨u0, us, _, ep, checkSameDeviceDtype_ok hwm, uniform_shows hg hK0 h0 hp0.2, ?_, ?_, ?_⟩
    · -- the details
      clear ep rel hwm wf hmem
      induction hes generalizing us with
      | nil => cases hrs; exact .nil
      | @cons e Ks es Kss he _ ih =>
        cases hrs with
        | @cons _ u _ us hr hrs =>
          refine .cons ?_ (ih (fun Ks hKs => hKl Ks (by simp [hKs])) hrs)
          refine hD.mono (hD.get (hD.trans hr he (Q := fun _ u => ShowsN u md B Ks fun b js => u.get (b :: js)) ?_)) ?_
          · intro bs t u hp ht
            exact uniform_shows hg (hKl Ks (by simp)) ht hp.2
          · intro bs t ht
            have : (fun b => foldedBand u b bs) = fun b js => t.get (b :: js) := by
              funext b
              unfold foldedBand
              rw [ht.2]
            show ShowsN t md B Ks fun b => foldedBand u b bs
            rw [this]
            exact ht.1
    · clear ep rel hwm wf hmem hKl
      induction hes generalizing us with
      | nil => cases hrs; rfl
      | @cons e Ks es Kss he _ ih =>
        cases hrs with
        | @cons _ u _ us hr hrs => rw [List.zipWith_cons_cons, List.map_cons, ih hrs]
    · intro z₀ Zs f hZ hz
      obtain ⟨z, ez, hzr, hzb, hzf⟩ := postprocessTensor_ok hg (t := z₀) (ds := pick (batchAxes S.length ax ++ ax) t0.shape)
        (bs := pick (batchAxes S.length ax) S)
        (by rw [pick_length]; exact (isPerm_axes hg.nodup hg.lt).len)
        (by rw [take_pick hg.batch_len hg.axes_len, h0.2, pick_setMany_disjoint batch_disjoint]) hZ hz.shape
      have hp : IsPerm (batchAxes S.length ax ++ ax) S.length := isPerm_axes hg.nodup hg.lt
      have hzs : z.shape = setMany S ax Zs := by
        apply hp.pick_inj hzr (by rw [setMany_length])
        rw [pick_append, pick_append, pick_setMany_disjoint batch_disjoint, hzb,
          pick_setMany_self _ _ _ hg.nodup hg.lt (by rw [hZ, hal])]
        congr 1
        have e := hzf.shape
        rw [hz.shape, hzr] at e
        exact (List.cons.inj e).2.symm
      refine ⟨z, ez, hzf.md.symm.trans hz.md, hzs, ?_⟩
      intro idx hidx
      have hb : InB (pick (batchAxes S.length ax) S) (pick (batchAxes S.length ax) idx) := by
        rw [← hzb]
        exact inB_pick_of (r := S.length) hzr hidx batchAxes_lt
      have ha : InB Zs (pick ax idx) := by
        have := inB_pick_of (r := S.length) hzr hidx hg.lt
        rwa [hzs, pick_setMany_self _ _ _ hg.nodup hg.lt (by rw [hZ, hal])] at this
      rw [hzs] at hidx
      rw [← hzf.get idx (by rw [hzs]; exact hidx), hzr, hzb, hz.get _ _ (ravel_lt hb) ha,
        uniform_plane hg h0 hp0.2 hidx]
      congr 1
      clear ep rel hwm wf hz hKl
      induction hes generalizing us with
      | nil => cases hrs; rfl
      | @cons e Ks es Kss he hes ih =>
        cases hrs with
        | @cons _ u _ us hr hrs =>
          rw [List.zipWith_cons_cons, List.map_cons, List.zipWith_cons_cons,
            ih (fun e he => hmem e (by simp [he])) hrs]
          congr 2
          funext bs
          show foldedBand u _ bs = _
          unfold bandPlane foldedBand
          rcases bandGet_rel hr bs with ⟨h1, h2⟩ | ⟨t, v, h1, h2, hp'⟩
          · rw [h1, h2]
          · rw [h1, h2]
            simp only
            have hu : Uniform md (setMany S ax Ks) t :=
              bandGet_all (hD.all (Q := fun t => Uniform md (setMany S ax Ks) t) he fun _ _ h => h) h1
            rw [uniform_plane hg hu hp'.2 hidx]

end top

end Verif
