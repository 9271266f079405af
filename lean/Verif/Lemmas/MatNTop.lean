/-
The two- and three-dimensional matrix transforms on the user's tensors.
-/
import Verif.Lemmas.MatNBuild

namespace Verif
open Tensor Spec
variable {R : Type}

/-- The folded batch size of a tensor. -/
def batchOf [Zero R] (h : AxisHint) (n : Nat) (x : Tensor R) : Nat :=
  prodL (pick (batchAxes x.rank (axesOf h x.rank n)) x.shape)

theorem IsMatDwtN.lens_length {ns : List Nat} {n : Nat} (h : ns.length = n) (s : Nat) : (mLens ns s).length = n := by
  rw [mLens_length, h]

/-- An analysis call of a new object, given what the transform with the built matrices does. -/
theorem decCallN_core [Field R] [DecidableEq R] {la : LinAlg R} {cfg : DecCfgN R} {x : Tensor R} {n N F : Nat}
    {band : BandStep R} {Ms : List Nat → List (Coo R)} {level : Option Int}
    {D : (List Bool → Tensor R → Prop) → Entry R → Prop}
    (hD : DetailKind D) (hF : 2 ≤ F) (hlen : cfg.wavelet.decLo.length = F)
    (hg : GoodAxes (.seq cfg.axes) x.rank n) (hdt : isDtypeSupported x.md.dtype = true)
    (hM : DecBuilds la cfg x.md n F N Ms)
    (hN : ∀ k ∈ sizes (axesOf (.seq cfg.axes) x.rank n) x.shape, evenLen k ≤ N)
    (hl : ∀ l, level = some l → 1 ≤ l)
    (hn : level = none → ∀ k ∈ sizes (axesOf (.seq cfg.axes) x.rank n) x.shape, 0 < k)
    (happ : ∀ lv L (ns : List Nat) y ds (X : Nat → List Nat → R), ns = sizes (axesOf (.seq cfg.axes) x.rank n) x.shape →
      L = levelsN level F ns →
      ShowsN y x.md (batchOf (.seq cfg.axes) n x) ns X →
      ∃ (r : Tensor R) (es : List (Entry R)), decApplyN n cfg (builtStateN Ms F lv L ns) y ds =
          postprocessCoeffs ⟨false, .tensor r :: es.reverse⟩ n ds (.seq cfg.axes) ∧
        es.length = mLevelsN F L ns ∧
        ShowsN r x.md (batchOf (.seq cfg.axes) n x) (mLens ns (mLevelsN F L ns))
          (fun b => bandA band ns (X b) (mLevelsN F L ns)) ∧
        ∀ s e, es[s]? = some e → D (fun bs u => ShowsN u x.md (batchOf (.seq cfg.axes) n x) (mLens ns (s + 1))
          (fun b => bandD band ns (X b) s bs)) e) :
    ∃ lv c, decCallN n la cfg ⟨level, none, [], [], false, []⟩ x = (.ok c, builtStateN Ms F lv
        (levelsN level F (sizes (axesOf (.seq cfg.axes) x.rank n) x.shape))
        (sizes (axesOf (.seq cfg.axes) x.rank n) x.shape)) ∧
      (∀ l, level = some l → lv = some l) ∧
      IsBandDwtN D band (axesOf (.seq cfg.axes) x.rank n)
        (mLevelsN F (levelsN level F (sizes (axesOf (.seq cfg.axes) x.rank n) x.shape))
          (sizes (axesOf (.seq cfg.axes) x.rank n) x.shape)) x c := by
  obtain ⟨y, ey, hy⟩ := preprocessTensor_ok hg hdt
  have hsh := hy.showsN
  have hsl : (sizes (axesOf (.seq cfg.axes) x.rank n) x.shape).length = n := sizes_len hg
  set ns := sizes (axesOf (.seq cfg.axes) x.rank n) x.shape with hns
  obtain ⟨lv, hlv, hprep⟩ := decPrepareN_fresh (la := la) (cfg := cfg) (md := x.md) (n := n) (N := N) (Ms := Ms)
    (ns := ns) (st := ⟨level, none, [], [], false, []⟩) (by rw [hlen]; exact hF) (by rw [hlen]; exact hM) hsl hg.pos
    hN hl hn rfl
  rw [hlen] at hprep
  obtain ⟨r, ds, e1, h1, h2, h3⟩ := happ lv (levelsN level F ns) ns y
    (pick (batchAxes x.rank (axesOf (.seq cfg.axes) x.rank n) ++ axesOf (.seq cfg.axes) x.rank n) x.shape)
    _ rfl rfl hsh
  obtain ⟨c, ec, hc⟩ := coeffs_post (D := D) (lens := mLens ns) (n := n)
    (ca := fun s X => bandA band ns X s) (cd := fun s bs X => bandD band ns X s bs) hD
    (fun s => IsMatDwtN.lens_length hsl s) hg hy h1 h2 h3
  refine ⟨lv, c, ?_, hlv, hc⟩
  unfold decCallN
  have hts : y.shape.tail = ns := by rw [hsh.shape]; rfl
  simp only [ey, hsh.md, hts, hprep]
  rw [e1, ec]

/-- An analysis call of a new object. -/
theorem decCallN_ok [Field R] [DecidableEq R] {la : LinAlg R} {cfg : DecCfgN R} {x : Tensor R} {n N F : Nat}
    {band : BandStep R} {Ms : List Nat → List (Coo R)} {level : Option Int}
    {D : (List Bool → Tensor R → Prop) → Entry R → Prop}
    {step : List (Coo R) → List Bool → List Nat → Tensor R → Except Err (Tensor R × Entry R)}
    (hD : DetailKind D) (hF : 2 ≤ F) (hlen : cfg.wavelet.decLo.length = F)
    (hg : GoodAxes (.seq cfg.axes) x.rank n) (hdt : isDtypeSupported x.md.dtype = true)
    (hM : DecBuilds la cfg x.md n F N Ms)
    (hN : ∀ k ∈ sizes (axesOf (.seq cfg.axes) x.rank n) x.shape, evenLen k ≤ N)
    (hl : ∀ l, level = some l → 1 ≤ l)
    (hn : level = none → ∀ k ∈ sizes (axesOf (.seq cfg.axes) x.rank n) x.shape, 0 < k)
    (hstep : MStepOk step Ms band x.md (batchOf (.seq cfg.axes) n x) n F N D
      (fun ns X t => ShowsN t x.md (batchOf (.seq cfg.axes) n x) ns X))
    (happ : ∀ st y ds, decApplyN n cfg st y ds = (matLoopN step st.mats st.padList st.sizeList y).bind
      fun r => postprocessCoeffs ⟨false, .tensor r.1 :: r.2.reverse⟩ n ds (.seq cfg.axes)) :
    ∃ lv c, decCallN n la cfg ⟨level, none, [], [], false, []⟩ x = (.ok c, builtStateN Ms F lv
        (levelsN level F (sizes (axesOf (.seq cfg.axes) x.rank n) x.shape))
        (sizes (axesOf (.seq cfg.axes) x.rank n) x.shape)) ∧
      (∀ l, level = some l → lv = some l) ∧
      IsBandDwtN D band (axesOf (.seq cfg.axes) x.rank n)
        (mLevelsN F (levelsN level F (sizes (axesOf (.seq cfg.axes) x.rank n) x.shape))
          (sizes (axesOf (.seq cfg.axes) x.rank n) x.shape)) x c := by
  refine decCallN_core hD hF hlen hg hdt hM hN hl hn ?_
  intro lv L ns y ds X hns hL hsh
  have hsl : ns.length = n := by rw [hns]; exact sizes_len hg
  obtain ⟨r, es, e1, h1, h2, h3⟩ := matLoopN_ok hF hstep [mLens ns (mLevelsN F L ns)] L ns _ y hsl
    (by rw [hns]; exact hN) hsh
  refine ⟨r, es, ?_, h1, h2, h3⟩
  rw [happ]
  unfold builtStateN
  simp only
  rw [e1]
  rfl

theorem alongAxes_id' [Zero R] {ax : List Nat} {x z : Tensor R} (hlt : ∀ a ∈ ax, a < x.rank)
    (h : AlongAxes ax (sizes ax x.shape) (fun X => X) x z) : z = x :=
  alongAxes_id hlt (fun _ _ => rfl) h

/-- A synthesis call of a new object, with the state it leaves behind. -/
theorem recCallN_full [Field R] [DecidableEq R] {la : LinAlg R} {cfg : RecCfgN R} {x : Tensor R} {n N F L : Nat}
    {m : Mode} {band : BandStep R} {Ms : List Nat → List (Coo R)} {c : Coeffs R}
    {D : (List Bool → Tensor R → Prop) → Entry R → Prop} {St : List Nat → (Nat → List Nat → R) → Tensor R → Prop}
    {step : Option (List (Coo R)) → Tensor R → Entry R → List (Entry R) → Except Err (Tensor R)}
    (hD : DetailKind D) (hF : 2 ≤ F) (hlen : cfg.wavelet.recLo.length = F)
    (hg : GoodAxes (.seq cfg.axes) x.rank n) (hdt : isDtypeSupported x.md.dtype = true)
    (hM : RecBuilds la cfg x.md n F N Ms) (hMe : ∀ ns, Ms (ns.map evenLen) = Ms ns)
    (hN : ∀ k ∈ sizes (axesOf (.seq cfg.axes) x.rank n) x.shape, evenLen k ≤ N)
    (hSt : ∀ ns X t, ShowsN t x.md (batchOf (.seq cfg.axes) n x) ns X → St ns X t)
    (hstep : RStepOk step Ms m band x.md (batchOf (.seq cfg.axes) n x) n F N D St)
    (hloop : ∀ (mats : List (List (Coo R))) (c : Coeffs R) (ds : List Nat) (r : Tensor R) (es : List (Entry R)),
      es.length = mats.length → r.shape.getD 0 0 = batchOf (.seq cfg.axes) n x → c.items = .tensor r :: es →
      recApplyN n cfg mats c ds = (recLoopT step [] mats.reverse r es).bind
        fun r => postprocessTensor r n ds (.seq cfg.axes))
    (hlast : ∀ (c : Coeffs R) (e : Entry R) (ns : List Nat) (Y : List Bool → Nat → List Nat → R), ns.length = n →
      c.items.getLast? = some e →
      D (fun bs u => ShowsN u x.md (batchOf (.seq cfg.axes) n x) (halfLens ns) (Y bs)) e →
      recShape n c = .ok (ns.map evenLen))
    (hzero : ∀ (c : Coeffs R) (r : Tensor R), mLevelsN F L (sizes (axesOf (.seq cfg.axes) x.rank n) x.shape) = 0 →
      c.items = [.tensor r] →
      r.shape.getD 0 0 = batchOf (.seq cfg.axes) n x → ∃ s, recShape n c = .ok s)
    (hc : IsBandDwtN D band (axesOf (.seq cfg.axes) x.rank n)
        (mLevelsN F L (sizes (axesOf (.seq cfg.axes) x.rank n) x.shape)) x c) :
    ∃ z, (recCallN n la cfg ⟨none, none, [], false⟩ c).1 = .ok z ∧
      (mLevelsN F L (sizes (axesOf (.seq cfg.axes) x.rank n) x.shape) = 0 → z = x) ∧
      (0 < mLevelsN F L (sizes (axesOf (.seq cfg.axes) x.rank n) x.shape) →
        EvenPaddedN m (axesOf (.seq cfg.axes) x.rank n) x z) ∧
      (0 < mLevelsN F L (sizes (axesOf (.seq cfg.axes) x.rank n) x.shape) →
        (recCallN n la cfg ⟨none, none, [], false⟩ c).2 =
          ⟨some (mLevelsN F L (sizes (axesOf (.seq cfg.axes) x.rank n) x.shape)),
            some ((sizes (axesOf (.seq cfg.axes) x.rank n) x.shape).map evenLen),
            builtN Ms F L (sizes (axesOf (.seq cfg.axes) x.rank n) x.shape),
            (builtN matrixPadFlags F (mLevelsN F L (sizes (axesOf (.seq cfg.axes) x.rank n) x.shape))
              ((sizes (axesOf (.seq cfg.axes) x.rank n) x.shape).map evenLen)).any fun p => p.any id⟩) := by
  obtain ⟨y, ey, hy⟩ := preprocessTensor_ok hg hdt
  have hsl : (sizes (axesOf (.seq cfg.axes) x.rank n) x.shape).length = n := sizes_len hg
  set ax := axesOf (.seq cfg.axes) x.rank n with hax
  set ns := sizes ax x.shape with hns
  set k := mLevelsN F L ns with hk
  obtain ⟨c₀, t, ds, ep, hcl, hcb, eck, hdl, ht, hds⟩ := coeffs_pre (D := D) (lens := mLens ns) (n := n)
    (ca := fun s X => bandA band ns X s) (cd := fun s bs X => bandD band ns X s bs) hD
    (fun s => IsMatDwtN.lens_length hsl s) hg hy hdt hc
  rw [← hax] at ht hds hcb ep
  have hfin : FinOk D x.md (batchOf (.seq cfg.axes) n x) ns [] := Or.inl rfl
  obtain ⟨v, ev, v0, v1, _⟩ := matRecN_ok hF hstep L ns (fun b js => y.get (b :: js)) t ds [] hsl hN hdl
    (hSt _ _ _ ht) hds hfin
  have htb : t.shape.getD 0 0 = batchOf (.seq cfg.axes) n x := by rw [ht.shape]; rfl
  have hmats : (builtN Ms F L ns).length = ds.reverse.length := by
    rw [builtN_length, List.length_reverse, hdl]
  have hap := hloop (builtN Ms F L ns) ⟨false, .tensor t :: ds.reverse⟩
    (pick (batchAxes x.rank ax ++ ax) c₀) t ds.reverse hmats.symm htb rfl
  rw [ev] at hap
  -- the result after postprocessing
  have hal : ax.length = n := hg.axes_len
  have hbl := hg.batch_len
  have hsh : ∃ ks : List Nat, ks.length = n ∧
      v.shape = prodL (pick (batchAxes x.rank ax) x.shape) :: ks := by
    rcases Nat.eq_zero_or_pos k with h0 | h0
    · refine ⟨mLens ns k, ?_, by rw [v0 h0]; exact ht.shape⟩
      exact IsMatDwtN.lens_length hsl _
    · refine ⟨_, ?_, (v1 h0 rfl).shape⟩
      rw [List.length_map]; exact hsl
  obtain ⟨ks, hkl, hks⟩ := hsh
  obtain ⟨z, ez, hzr, hzb, hzf⟩ := postprocessTensor_ok hg (t := v) (ds := pick (batchAxes x.rank ax ++ ax) c₀)
    (bs := pick (batchAxes x.rank ax) x.shape)
    (by rw [pick_length]; exact (isPerm_axes hg.nodup hg.lt).len)
    (by rw [take_pick hbl hg.axes_len, hcb]) hkl hks
  have hres : recApplyN n cfg (builtN Ms F L ns) ⟨false, .tensor t :: ds.reverse⟩
      (pick (batchAxes x.rank ax ++ ax) c₀) = .ok z := by rw [hap]; exact ez
  have hlen1 : (Coeffs.items (R := R) ⟨false, .tensor t :: ds.reverse⟩).length - 1 = k := by
    simp [hdl]
  have hboth : (recCallN n la cfg ⟨none, none, [], false⟩ c).1 = .ok z ∧ (0 < k →
        (recCallN n la cfg ⟨none, none, [], false⟩ c).2 =
          ⟨some k, some (ns.map evenLen), builtN Ms F L ns,
            (builtN matrixPadFlags F k (ns.map evenLen)).any fun p => p.any id⟩) := by
    unfold recCallN recInputN
    simp only [bind, Except.bind, ep, eck]
    rcases Nat.eq_zero_or_pos k with h0 | h0
    · have hd0 : ds = [] := by rw [← List.length_eq_zero_iff, hdl]; exact h0
      obtain ⟨s, hs⟩ := hzero ⟨false, .tensor t :: ds.reverse⟩ t h0 (by rw [hd0]; rfl) htb
      simp only [hs, pure, Except.pure]
      rw [hlen1, h0, recPrepareN_zero rfl]
      simp only
      have : builtN Ms F L ns = [] := by rw [← List.length_eq_zero_iff, builtN_length]; exact h0
      rw [this] at hres
      exact ⟨hres, fun h => absurd h (by omega)⟩
    · obtain ⟨e, he⟩ : ∃ e, ds[0]? = some e := ⟨_, List.getElem?_eq_getElem (by omega)⟩
      have hde := hds 0 e he
      rw [mLens_succ, mLens_zero] at hde
      have hgl : (Coeffs.items (R := R) ⟨false, .tensor t :: ds.reverse⟩).getLast? = some e := by
        cases ds with
        | nil => simp at he
        | cons a l => simp at he; rw [he, List.reverse_cons, ← List.cons_append, List.getLast?_concat]
      have hs := hlast ⟨false, .tensor t :: ds.reverse⟩ e ns _ hsl hgl hde
      simp only [hs, pure, Except.pure]
      have hN' : ∀ q ∈ ns.map evenLen, evenLen q ≤ N := by
        intro q hq
        rw [List.mem_map] at hq
        obtain ⟨p, hp, rfl⟩ := hq
        rw [evenLen_of_even (evenLen_even p)]
        exact hN p hp
      have hpz := recPrepareN_fresh (la := la) (cfg := cfg) (md := x.md) (n := n) (N := N) (Ms := Ms)
        (ns := ns.map evenLen) (L := k) (st := ⟨none, none, [], false⟩) (by rw [hlen]; exact hF)
        (by rw [hlen]; exact hM) (by rw [List.length_map]; exact hsl) hN' rfl
      rw [hlen1, hpz]
      simp only
      rw [hlen]
      have hb : builtN Ms F k (ns.map evenLen) = builtN Ms F L ns := by
        have hkk : mLevelsN F k ns = k := by
          have h := builtN_levels (fun _ => ()) F L ns
          have := congrArg List.length h
          rwa [builtN_length, builtN_length] at this
        rw [builtN_even hMe (by rw [hkk]; exact h0), hk, builtN_levels]
      rw [hb]
      exact ⟨hres, fun _ => rfl⟩
  refine ⟨z, hboth.1, ?_, ?_, hboth.2⟩
  · intro h0
    rw [v0 h0] at hzf
    rw [h0, mLens_zero] at ht
    have := alongAxes_of_showsN hg.nodup hg.lt (by rw [hsl, hal]) hy hzr hzb hzf
      (f := fun X => X) ht
    exact alongAxes_id' hg.lt this
  · intro h0
    exact alongAxes_of_showsN hg.nodup hg.lt (by rw [List.length_map, hsl, hal]) hy hzr hzb hzf
      (f := fun X ks => extN m ns X (ks.map fun (k : Nat) => (k : ℤ))) (v1 h0 rfl)

/-- A synthesis call of a new object. -/
theorem recCallN_ok [Field R] [DecidableEq R] {la : LinAlg R} {cfg : RecCfgN R} {x : Tensor R} {n N F L : Nat}
    {m : Mode} {band : BandStep R} {Ms : List Nat → List (Coo R)} {c : Coeffs R}
    {D : (List Bool → Tensor R → Prop) → Entry R → Prop} {St : List Nat → (Nat → List Nat → R) → Tensor R → Prop}
    {step : Option (List (Coo R)) → Tensor R → Entry R → List (Entry R) → Except Err (Tensor R)}
    (hD : DetailKind D) (hF : 2 ≤ F) (hlen : cfg.wavelet.recLo.length = F)
    (hg : GoodAxes (.seq cfg.axes) x.rank n) (hdt : isDtypeSupported x.md.dtype = true)
    (hM : RecBuilds la cfg x.md n F N Ms) (hMe : ∀ ns, Ms (ns.map evenLen) = Ms ns)
    (hN : ∀ k ∈ sizes (axesOf (.seq cfg.axes) x.rank n) x.shape, evenLen k ≤ N)
    (hSt : ∀ ns X t, ShowsN t x.md (batchOf (.seq cfg.axes) n x) ns X → St ns X t)
    (hstep : RStepOk step Ms m band x.md (batchOf (.seq cfg.axes) n x) n F N D St)
    (hloop : ∀ (mats : List (List (Coo R))) (c : Coeffs R) (ds : List Nat) (r : Tensor R) (es : List (Entry R)),
      es.length = mats.length → r.shape.getD 0 0 = batchOf (.seq cfg.axes) n x → c.items = .tensor r :: es →
      recApplyN n cfg mats c ds = (recLoopT step [] mats.reverse r es).bind
        fun r => postprocessTensor r n ds (.seq cfg.axes))
    (hlast : ∀ (c : Coeffs R) (e : Entry R) (ns : List Nat) (Y : List Bool → Nat → List Nat → R), ns.length = n →
      c.items.getLast? = some e →
      D (fun bs u => ShowsN u x.md (batchOf (.seq cfg.axes) n x) (halfLens ns) (Y bs)) e →
      recShape n c = .ok (ns.map evenLen))
    (hzero : ∀ (c : Coeffs R) (r : Tensor R), mLevelsN F L (sizes (axesOf (.seq cfg.axes) x.rank n) x.shape) = 0 →
      c.items = [.tensor r] →
      r.shape.getD 0 0 = batchOf (.seq cfg.axes) n x → ∃ s, recShape n c = .ok s)
    (hc : IsBandDwtN D band (axesOf (.seq cfg.axes) x.rank n)
        (mLevelsN F L (sizes (axesOf (.seq cfg.axes) x.rank n) x.shape)) x c) :
    ∃ z, (recCallN n la cfg ⟨none, none, [], false⟩ c).1 = .ok z ∧
      (mLevelsN F L (sizes (axesOf (.seq cfg.axes) x.rank n) x.shape) = 0 → z = x) ∧
      (0 < mLevelsN F L (sizes (axesOf (.seq cfg.axes) x.rank n) x.shape) →
        EvenPaddedN m (axesOf (.seq cfg.axes) x.rank n) x z) := by
  obtain ⟨z, h1, h2, h3, _⟩ := recCallN_full hD hF hlen hg hdt hM hMe hN hSt hstep hloop hlast hzero hc
  exact ⟨z, h1, h2, h3⟩

end Verif
