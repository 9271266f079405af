/-
The one-dimensional matrix transform on the user's tensors.
-/
import Verif.Lemmas.Mat1Rec
import Verif.Lemmas.SwtTop

namespace Verif
open Tensor Spec
variable {R : Type}

theorem decInput_ok [NonUnitalNonAssocSemiring R] {cfg : DecCfg R} {m : Mode} {x : Tensor R}
    (hg : GoodAxes (.int cfg.axis) x.rank 1) (hdt : isDtypeSupported x.md.dtype = true)
    (hm : Selects cfg.oddMode m)
    (hf : x.shape.getD (axis1 (.int cfg.axis) x.rank) 0 % 2 = 1 →
      Props.Fits m (x.shape.getD (axis1 (.int cfg.axis) x.rank) 0) 0 1) :
    ∃ x' y, decInput cfg x = .ok (y, pick (batchAxes x.rank (axesOf (.int cfg.axis) x.rank 1) ++
        axesOf (.int cfg.axis) x.rank 1) x.shape) ∧
      EvenPadded m (axis1 (.int cfg.axis) x.rank) x x' ∧ x'.md = x.md ∧
      x'.shape = x.shape.set (axis1 (.int cfg.axis) x.rank) (evenLen (x.shape.getD (axis1 (.int cfg.axis) x.rank) 0)) ∧
      Folded (axesOf (.int cfg.axis) x'.rank 1) x' y := by
  obtain ⟨y, ey, hy⟩ := preprocessTensor_ok hg hdt
  have hsh := hy.shows hg
  set h : AxisHint := .int cfg.axis with hh
  set a := axis1 h x.rank with ha
  set n := x.shape.getD a 0 with hn
  have hax : a < x.shape.length := axis1_lt hg
  have hsz : y.sizeFromEnd 1 = n := by unfold Tensor.sizeFromEnd; rw [hsh.shape]; rfl
  by_cases ho : n % 2 = 0
  · refine ⟨x, y, ?_, Or.inl ⟨ho, rfl⟩, rfl, by rw [evenLen_of_even ho]; exact (set_getD_self hax).symm, hy⟩
    unfold decInput
    simp only [bind, Except.bind, ← hh, ey]
    unfold decPadInput
    rw [hsz, if_neg (by simpa using ho)]
    rfl
  · have ho' : n % 2 = 1 := by omega
    have hyr : y.rank = 2 := by unfold Tensor.rank; rw [hsh.shape]; rfl
    obtain ⟨u, eu, hu⟩ := Props.c08_mode_extension y cfg.oddMode m 0 1 hm (by omega)
      (by rw [hyr, hsh.shape]; exact hf ho')
    rw [hyr] at hu
    have hus := Extended.shows hsh (by omega) hu
    set x' : Tensor R := ofFn x.md (x.shape.set a (n + 1)) fun idx => evenExt m n (Spec.line x a idx) (idx.getD a 0) with hx'
    have hs' : x'.shape = x.shape.set a (n + 1) := rfl
    have hr' : x'.rank = x.rank := by unfold Tensor.rank; rw [hs', List.length_set]
    refine ⟨x', u, ?_, Or.inr ⟨ho', rfl, ?_, ?_⟩, rfl, ?_, ?_⟩
    · unfold decInput
      simp only [bind, Except.bind, ← hh, ey]
      unfold decPadInput
      rw [hsz, if_pos (by omega), eu]
      rfl
    · rw [hs', ← hn, Nat.zero_add]
    · intro idx hidx
      have hidx' : InB (x.shape.set a (n + 1)) idx := hidx
      rw [hx', ofFn_get_of _ _ hidx']
      simp only [Nat.cast_zero, sub_zero, evenExt, ← hn]
    · rw [hs']; congr 1; unfold evenLen; omega
    · rw [hr']
      have hnm : a ∉ batchAxes x.rank (axesOf h x.rank 1) := not_mem_batchAxes (by rw [axesOf_one hg]; simp [ha])
      have hpb : pick (batchAxes x.rank (axesOf h x.rank 1)) x'.shape
          = pick (batchAxes x.rank (axesOf h x.rank 1)) x.shape := by rw [hs', pick_set_not_mem hnm]
      refine ⟨hus.md, ?_, ?_⟩
      · rw [hr', hus.shape, hpb, axesOf_one hg, ← ha]
        simp only [pick, List.map_cons, List.map_nil]
        rw [hs', getD_set_self hax]
      · intro idx hidx
        have hidx' : InB (x.shape.set a (n + 1)) idx := hidx
        have hlt := inB_set_getD hax hidx'
        have hb : batchPos h x idx < prodL (pick (batchAxes x.rank (axesOf h x.rank 1)) x.shape) := by
          unfold batchPos
          apply ravel_lt
          have : InB (pick (batchAxes x.rank (axesOf h x.rank 1)) (x.shape.set a (n + 1)))
              (pick (batchAxes x.rank (axesOf h x.rank 1)) idx) :=
            inB_pick_of (r := x.rank) (by rw [List.length_set]; rfl) hidx' batchAxes_lt
          rwa [pick_set_not_mem hnm] at this
        rw [hr', hpb, show pick (axesOf h x.rank 1) idx = [idx.getD a 0] by rw [axesOf_one hg]; rfl]
        have := hus.get _ _ hb hlt
        unfold batchPos at this
        rw [this, hx', ofFn_get_of _ _ hidx', ha, hy.line hg hidx']
        rfl

/-- The transform with the matrices of a build. -/
theorem decApply_ok [NonUnitalNonAssocSemiring R] {cfg : DecCfg R} {m : Mode} {x y : Tensor R}
    {C : Nat → Coo R} {A : Nat → Nat → Nat → R} {F N L : Nat} (hF : 2 ≤ F)
    (hg : GoodAxes (.int cfg.axis) x.rank 1)
    (hm : Selects cfg.oddMode m) (hy : Folded (axesOf (.int cfg.axis) x.rank 1) x y)
    (hC : Family C A x.md F N)
    (hN : evenLen (x.shape.getD (axis1 (.int cfg.axis) x.rank) 0) ≤ N)
    {ds : List Nat} (hds : ds.length = x.rank)
    (hdt : ds.take (x.rank - 1) = pick (batchAxes x.rank (axesOf (.int cfg.axis) x.rank 1)) x.shape) :
    ∃ cs, decApply cfg (builtMats C F L (x.shape.getD (axis1 (.int cfg.axis) x.rank) 0))
        (builtPads F L (x.shape.getD (axis1 (.int cfg.axis) x.rank) 0)) y ds = .ok cs ∧
      IsMatDwt m A (axis1 (.int cfg.axis) x.rank)
        (mLevels F L (x.shape.getD (axis1 (.int cfg.axis) x.rank) 0)) x cs := by
  set h : AxisHint := .int cfg.axis with hh
  set a := axis1 h x.rank with ha
  set n := x.shape.getD a 0 with hn
  set k := mLevels F L n with hk
  set bs := pick (batchAxes x.rank (axesOf h x.rank 1)) x.shape with hbs
  obtain ⟨r, ds', e1, h1, h2, h3⟩ := matDecLoop_ok hm hF hC L n hN (hy.shows hg).matT
  have hlist : ∀ t ∈ (ds' ++ [r]).reverse.map matT, ∃ ks, ks.length = 1 ∧ t.shape = prodL bs :: ks := by
    intro t ht
    rw [List.mem_map] at ht
    obtain ⟨u, hu, rfl⟩ := ht
    rw [List.mem_reverse, List.mem_append, List.mem_singleton] at hu
    rcases hu with hu | rfl
    · obtain ⟨s, hs⟩ := List.getElem?_of_mem hu
      exact ⟨[_], rfl, (h3 s u hs).matT.shape⟩
    · exact ⟨[_], rfl, h2.matT.shape⟩
  obtain ⟨c', ep, rel⟩ := postprocessCoeffs_ok hg (c := Coeffs.ofList ((ds' ++ [r]).reverse.map matT))
    (ds := ds) (bs := bs) hds hdt.symm (ofList_wf (by simp) hlist)
  obtain ⟨us, rfl, hf⟩ := rel.ofList
  have hlen : us.length = k + 1 := by rw [← hf.length_eq]; simp [h1, hk]
  refine ⟨us, ?_, hlen, ?_, ?_⟩
  · unfold decApply
    simp only [bind, Except.bind, e1, ← hh, ep, toList_ofList]
    rfl
  · intro t ht
    obtain ⟨u, hu, q1, q2, q3⟩ := forall₂_getElem? hf ht
    have : u = r.matT := by simpa using hu.symm
    subst this
    exact alongAxis_of_shows (f := fun v => mA m A n v k) hg hy q1 q2 q3 h2.matT
  · intro s d hs hd
    obtain ⟨u, hu, q1, q2, q3⟩ := forall₂_getElem? hf hd
    rw [List.getElem?_map, List.reverse_append, List.reverse_singleton, List.singleton_append,
      show k - s = (k - 1 - s) + 1 by omega, List.getElem?_cons_succ,
      List.getElem?_reverse (by omega), h1, ← hk, show k - 1 - (k - 1 - s) = s by omega] at hu
    obtain ⟨d', hd', rfl⟩ := Option.map_eq_some_iff.mp hu
    exact alongAxis_of_shows (f := fun v => mD m A n v s) hg hy q1 q2 q3 (h3 s d' hd').matT

/-- The inverse transform with the matrices of a build. -/
theorem recApply_ok [CommRing R] {cfg : RecCfg R} {m : Mode} {x : Tensor R}
    {C : Nat → Coo R} {A : Nat → Nat → Nat → R} {F N L : Nat} (hF : 2 ≤ F)
    (hg : GoodAxes (.seq cfg.axis) x.rank 1) (hdt : isDtypeSupported x.md.dtype = true)
    (hC : Family C A x.md F N) (hA : ∀ k, k % 2 = 0 → F ≤ k → k ≤ N → OrthonormalCols k (A k))
    (hev : x.shape.getD (axis1 (.seq cfg.axis) x.rank) 0 % 2 = 0)
    (hN : x.shape.getD (axis1 (.seq cfg.axis) x.rank) 0 ≤ N) {cs : List (Tensor R)}
    (hcs : IsMatDwt m A (axis1 (.seq cfg.axis) x.rank)
        (mLevels F L (x.shape.getD (axis1 (.seq cfg.axis) x.rank) 0)) x cs) :
    ∃ us ds, recInput cfg (Coeffs.ofList cs) = .ok (us, ds, x.md) ∧ us.length = cs.length ∧
      (0 < mLevels F L (x.shape.getD (axis1 (.seq cfg.axis) x.rank) 0) →
        (us.getLast?.map fun c => c.sizeFromEnd 1).getD 0 * 2 = x.shape.getD (axis1 (.seq cfg.axis) x.rank) 0) ∧
      recApply cfg ((builtMats C F L (x.shape.getD (axis1 (.seq cfg.axis) x.rank) 0)).map Coo.transpose) us ds
        = .ok x := by
  set h : AxisHint := .seq cfg.axis with hh
  set a := axis1 h x.rank with ha
  set n := x.shape.getD a 0 with hn
  set k := mLevels F L n with hk
  have hax : a < x.shape.length := axis1_lt hg
  obtain ⟨c0, rest, rfl⟩ : ∃ c0 rest, cs = c0 :: rest := by
    cases cs with
    | nil => have := hcs.length; simp at this
    | cons a l => exact ⟨a, l, rfl⟩
  have hrl : rest.length = k := by have := hcs.length; simpa using this
  have h0 := hcs.approx c0 rfl
  have hd : ∀ i c, rest[i]? = some c → AlongAxis a (mLen n (k - 1 - i + 1)) (fun v => mD m A n v (k - 1 - i)) x c := by
    intro i c hc
    have hi : i < k := by rw [← hrl]; exact (List.getElem?_eq_some_iff.mp hc).1
    exact hcs.detail (k - 1 - i) c (by omega) (by
      rw [show k - (k - 1 - i) = i + 1 by omega, List.getElem?_cons_succ]; exact hc)
  have hall : ∀ c ∈ c0 :: rest, c.md = x.md ∧ c.rank = x.rank ∧
      pick (batchAxes x.rank (axesOf h x.rank 1)) c.shape = pick (batchAxes x.rank (axesOf h x.rank 1)) x.shape := by
    have key : ∀ {K : Nat} {f : (Nat → R) → Nat → R} {c : Tensor R}, AlongAxis a K f x c → c.md = x.md ∧
        c.rank = x.rank ∧ pick (batchAxes x.rank (axesOf h x.rank 1)) c.shape
          = pick (batchAxes x.rank (axesOf h x.rank 1)) x.shape := by
      intro K f c hc
      refine ⟨hc.md, by unfold Tensor.rank; rw [hc.shape, List.length_set], ?_⟩
      rw [hc.shape, pick_set_not_mem (not_mem_batchAxes (by rw [axesOf_one hg]; simp [ha]))]
    intro c hc
    rcases List.mem_cons.mp hc with rfl | hc
    · exact key h0
    · obtain ⟨i, hi⟩ := List.getElem?_of_mem hc
      exact key (hd i c hi)
  obtain ⟨y, ey, hy⟩ := preprocessTensor_ok hg hdt
  obtain ⟨c', ep, rel⟩ := preprocessCoeffs_ok hg (c := Coeffs.ofList (c0 :: rest))
    (ofList_wf (by simp) (fun t ht => (hall t ht).2.1))
    (headTensor_ofList c0 rest) (by rw [(hall c0 (by simp)).1]; exact hdt)
  obtain ⟨us, rfl, hf⟩ := rel.ofList
  have hmds : ∀ u ∈ us, u.md = x.md := by
    intro u hu
    obtain ⟨i, hi⟩ := List.getElem?_of_mem hu
    obtain ⟨t, ht, _, h2⟩ := forall₂_getElem? hf hi
    rw [h2.md]; exact (hall t (List.mem_of_getElem? ht)).1
  have hlen := hf.length_eq
  cases hf with
  | @cons _ u0 _ us' hu0 hus =>
    have hck : checkSameDeviceDtype (Coeffs.ofList (u0 :: us')) = .ok x.md :=
      checkSameDeviceDtype_ok (ofList_wf (by simp) hmds)
    have s0 := shows_of_alongAxis hg hy hu0.2 h0
    have hdet : ∀ s d, us'.reverse[s]? = some d →
        Shows d x.md (prodL (pick (batchAxes x.rank (axesOf h x.rank 1)) x.shape)) (mLen n (s + 1))
          (fun b => mD m A n (fun j => y.get [b, j]) s) := by
      intro s d hsd
      have hsl : s < us'.length := by
        have := (List.getElem?_eq_some_iff.mp hsd).1; simpa using this
      rw [List.getElem?_reverse hsl] at hsd
      obtain ⟨t, ht, _, h2⟩ := forall₂_getElem? hus hsd
      have hl' : us'.length = k := by rw [← hus.length_eq]; exact hrl
      have := shows_of_alongAxis hg hy h2 (hd _ t ht)
      rw [hl', show k - 1 - (k - 1 - s) = s by omega] at this
      exact this
    obtain ⟨u, eu, hu⟩ := matRecLoop_ok (m := m) hF hC hA L n (r := u0.matT) (ds := us'.reverse.map matT)
      (X := fun b j => y.get [b, j]) (fin := none) (by rw [evenLen_of_even hev]; exact hN) (Or.inr ⟨rfl, hev⟩)
      (by rw [List.length_map, List.length_reverse, ← hus.length_eq, hrl])
      s0.matT (by
        intro s d hsd
        rw [List.getElem?_map] at hsd
        obtain ⟨d', hd', rfl⟩ := Option.map_eq_some_iff.mp hsd
        exact (hdet s d' hd').matT)
    have huT := hu.matT
    have hbl := hg.batch_len
    obtain ⟨z, epz, hzr, hzb, hzf⟩ := postprocessTensor_ok hg (t := u.matT)
      (ds := pick (batchAxes x.rank (axesOf h x.rank 1) ++ axesOf h x.rank 1) c0.shape)
      (bs := pick (batchAxes x.rank (axesOf h x.rank 1)) x.shape)
      (by rw [pick_length]; exact (isPerm_axes hg.nodup hg.lt).len)
      (by rw [take_pick hbl hg.axes_len, (hall c0 (by simp)).2.2]) (ks := [n])
      rfl huT.shape
    have hzx : z = x := by
      have hal := alongAxis_of_shows (f := fun v => v) hg hy hzr hzb hzf huT
      have hzs : z.shape = x.shape := by rw [hal.shape]; exact set_getD_self hax
      refine Tensor.ext' hal.md hzs ?_
      intro idx hidx
      rw [hal.get idx hidx]
      show x.get (idx.set a (idx.getD a 0)) = _
      rw [set_getD_self (by rw [hidx.length_eq, hzs]; exact hax)]
    refine ⟨u0 :: us', pick (batchAxes x.rank (axesOf h x.rank 1) ++ axesOf h x.rank 1) c0.shape, ?_, by rw [← hlen], ?_, ?_⟩
    · unfold recInput
      simp only [bind, Except.bind, ← hh, ep, hck, toList_ofList]
      rfl
    · intro hk0
      have hne : us' ≠ [] := by
        intro e
        have := hus.length_eq
        rw [e, hrl] at this
        simp at this
        omega
      have hlast : us'.reverse[0]? = some (us'.getLast hne) := by
        rw [List.getElem?_reverse (by have := List.length_pos_iff.mpr hne; omega), Nat.sub_zero,
          List.getLast_eq_getElem]
        exact List.getElem?_eq_getElem _
      have hs := hdet 0 _ hlast
      rw [List.getLast?_cons, List.getLast?_eq_some_getLast hne]
      simp only [Option.getD_some, Option.map_some]
      unfold Tensor.sizeFromEnd
      rw [hs.shape]
      show evenLen n / 2 * 2 = n
      rw [evenLen_of_even hev]; omega
    · unfold recApply
      simp only [List.map_cons]
      rw [matRecLoop_eq]
      rw [List.map_reverse, List.reverse_reverse] at eu
      simp only [bind, Except.bind, eu, ← hh]
      exact epz.trans (by rw [hzx])

end Verif
