import Verif.Lemmas.MatSyn
import Verif.Lemmas.Mat1Build

/-! `MatrixWaverec` on arbitrary coefficients. -/

namespace Verif
open Tensor Spec
variable {R : Type}

theorem builtMats_mem {α : Type} {C : Nat → α} {F N : Nat} (hF : 2 ≤ F) : ∀ {L n : Nat}, evenLen n ≤ N →
    ∀ M ∈ builtMats C F L n, ∃ k, k % 2 = 0 ∧ F ≤ k ∧ k ≤ N ∧ M = C k
  | 0, _, _, M, h => by simp [builtMats] at h
  | L + 1, n, hN, M, h => by
    unfold builtMats at h
    split_ifs at h with hn
    · simp at h
    · rcases List.mem_cons.mp h with rfl | h
      · have := le_evenLen n
        exact ⟨_, evenLen_even n, by omega, hN, rfl⟩
      · exact builtMats_mem hF (evenLen_half_le (by omega) hN) M h

theorem isSyn_of_family [NonUnitalNonAssocSemiring R] {C : Nat → Coo R} {S : Nat → Nat → Nat → R} {md : Meta} {F N : Nat}
    (h : Family C S md F N) {d : Nat} (h1 : F ≤ 2 * d) (h2 : 2 * d ≤ N) : IsSyn S md (C (2 * d)) d :=
  ⟨h.md _ (by omega) h1 h2, h.rows _ (by omega) h1 h2, h.cols _ (by omega) h1 h2,
    fun i j hi hj => h.den _ i j (by omega) h1 h2 hi hj⟩

theorem chain_bounds {F : Nat} (hF : 2 ≤ F) : ∀ {n : Nat} {rs : List Nat}, HalfChain n rs → GeChain F n rs →
    ∀ d ∈ rs, F ≤ 2 * d ∧ 2 * d ≤ evenLen n
  | _, [], _, _, d, hd => by simp at hd
  | n, r :: rs, h, g, d, hd => by
    have e := h.1
    have g1 := g.1
    have := le_evenLen n
    rcases List.mem_cons.mp hd with rfl | hd
    · omega
    · have := chain_bounds hF h.2 g.2 d hd
      have : evenLen r ≤ 2 * r := by
        have : 1 ≤ r := by omega
        unfold evenLen; omega
      omega

theorem forall₂_syn [NonUnitalNonAssocSemiring R] {C : Nat → Coo R} {S : Nat → Nat → Nat → R} {md : Meta} {F N : Nat}
    (h : Family C S md F N) : ∀ (ps : List (Nat × (Nat → Nat → R))), (∀ d ∈ ps.map (·.1), F ≤ 2 * d ∧ 2 * d ≤ N) →
    List.Forall₂ (fun M (p : Nat × (Nat → Nat → R)) => IsSyn S md M p.1) ((ps.map (·.1)).map fun d => C (2 * d)) ps
  | [], _ => .nil
  | p :: ps, hb => .cons (isSyn_of_family h (hb p.1 (by simp)).1 (hb p.1 (by simp)).2)
      (forall₂_syn h ps fun d hd => hb d (by rw [List.map_cons]; exact List.mem_cons_of_mem _ hd))

theorem recCall_gen [Field R] [DecidableEq R] {la : LinAlg R} {cfg : RecCfg R} {F N : Nat} {md : Meta} {S : List Nat}
    {C : Nat → Coo R} {T : Nat → Nat → Nat → R} {c0 : Tensor R} {rest : List (Tensor R)} (hF : 2 ≤ F)
    (hlen : cfg.wavelet.recLo.length = F)
    (hg : GoodAxes (.seq cfg.axis) S.length 1) (hdt : isDtypeSupported md.dtype = true)
    (hcs : SameBut (axis1 (.seq cfg.axis) S.length) md S (c0 :: rest))
    (hC : ∀ k, k % 2 = 0 → F ≤ k → k ≤ N → constructBoundaryS la cfg.wavelet md k cfg.orth = .ok (C k))
    (hT : Family C T md F N) {ns : List Nat} (hns : rest.map (·.shape.getD (axis1 (.seq cfg.axis) S.length) 0) = ns)
    (hN : 2 * ns.getLast?.getD 0 ≤ N) :
    (Consistent 2 (c0.shape.getD (axis1 (.seq cfg.axis) S.length) 0) ns → LongEnough F ns →
      ∃ z, (recCall la cfg ⟨none, none, [], false⟩ (c0 :: rest)).1 = .ok z ∧ z.md = md ∧
        z.shape = S.set (axis1 (.seq cfg.axis) S.length)
          (idwtLen 2 (c0.shape.getD (axis1 (.seq cfg.axis) S.length) 0) ns) ∧
        ∀ idx, InB z.shape idx → z.get idx =
          matIdwt T (Spec.line c0 (axis1 (.seq cfg.axis) S.length) idx)
            (rest.map fun c => (c.shape.getD (axis1 (.seq cfg.axis) S.length) 0, Spec.line c (axis1 (.seq cfg.axis) S.length) idx))
            (idx.getD (axis1 (.seq cfg.axis) S.length) 0)) ∧
    (∀ z, (recCall la cfg ⟨none, none, [], false⟩ (c0 :: rest)).1 = .ok z →
      Consistent 2 (c0.shape.getD (axis1 (.seq cfg.axis) S.length) 0) ns ∧ LongEnough F ns) ∧
    (∀ d, ns.head? = some d → d ≠ c0.shape.getD (axis1 (.seq cfg.axis) S.length) 0 →
      (recCall la cfg ⟨none, none, [], false⟩ (c0 :: rest)).1 = .error .valueError) := by
  set h : AxisHint := .seq cfg.axis with hh
  set a := axis1 h S.length with ha
  -- before the loop
  have hrank : ∀ t ∈ c0 :: rest, t.rank = S.length := by
    intro t ht
    have := hcs.shape t ht
    unfold Tensor.rank; rw [this, List.length_set]
  obtain ⟨c', ep, rel⟩ := preprocessCoeffs_ok hg (c := Coeffs.ofList (c0 :: rest))
    (ofList_wf (by simp) hrank) (headTensor_ofList c0 rest)
    (by rw [hcs.md c0 (by simp)]; exact hdt)
  obtain ⟨us0, rfl, hf0⟩ := rel.ofList
  have hmds : ∀ u ∈ us0, u.md = md := by
    intro u hu
    obtain ⟨i, hi⟩ := List.getElem?_of_mem hu
    obtain ⟨t, ht, h1, h2⟩ := forall₂_getElem? hf0 hi
    rw [h2.md]; exact hcs.md t (List.mem_of_getElem? ht)
  cases hf0 with
  | @cons _ u0 _ us hu0 hus =>
  have hck : checkSameDeviceDtype (Coeffs.ofList (u0 :: us)) = .ok md :=
    checkSameDeviceDtype_ok (ofList_wf (by simp) hmds)
  have einp : recInput cfg (Coeffs.ofList (c0 :: rest)) = .ok (u0 :: us,
      pick (batchAxes S.length (axesOf h S.length 1) ++ axesOf h S.length 1) c0.shape, md) := by
    unfold recInput
    simp only [bind, Except.bind, ← hh, ep, hck, toList_ofList]
    rfl
  obtain ⟨ps, p1, p2, p3⟩ := forall₂_shows (md := md) hg (fun c hc => hcs.md c (by simp [hc]))
    (fun c hc => hcs.shape c (by simp [hc])) hus
  have s0 := sameBut_shows hg (hcs.md c0 (by simp)) (hcs.shape c0 (by simp)) hu0.2
  rw [← ha] at s0 p2 p3
  set B := prodL (pick (batchAxes S.length (axesOf h S.length 1)) S) with hB
  have hps : ps.map (·.1) = ns := p2.trans hns
  have hul : us.length = ns.length := by rw [p1.length_eq, ← hps, List.length_map]
  have hcols : List.Forall₂ (fun d p => Cols d md p.1 B p.2) (us.map matT) ps := by
    rw [List.forall₂_map_left_iff]
    exact p1.imp fun _ _ h => h.matT
  -- the matrices
  have hprep : ∃ st, recPrepare la cfg md us.length (((u0 :: us).getLast?.map fun c => c.sizeFromEnd 1).getD 0 * 2)
      ⟨none, none, [], false⟩ = (.ok (), st) ∧ st.mats = builtMats C F ns.length (2 * ns.getLast?.getD 0) := by
    cases hn : us.getLast? with
    | none =>
      rw [List.getLast?_eq_none_iff] at hn
      subst hn
      have : ns = [] := by rw [← List.length_eq_zero_iff, ← hul]; rfl
      subst this
      exact ⟨_, recPrepare_zero rfl, rfl⟩
    | some u =>
      have hsz : u.sizeFromEnd 1 = ns.getLast?.getD 0 := by
        have hne : us ≠ [] := by rintro rfl; simp at hn
        have hlast : us[us.length - 1]? = some u := by
          rw [← hn, List.getLast?_eq_getElem?]
        obtain ⟨p, hp, hsh⟩ := forall₂_getElem?' p1 hlast
        rw [hsh.sizeFromEnd, ← hps, List.getLast?_map, List.getLast?_eq_getElem?, ← p1.length_eq, hp]
        rfl
      have e1 : ((u0 :: us).getLast?.map fun c => c.sizeFromEnd 1).getD 0 * 2 = 2 * ns.getLast?.getD 0 := by
        rw [List.getLast?_cons, hn]
        simp only [Option.getD_some, Option.map_some, hsz]
        omega
      rw [e1, hul]
      refine ⟨_, recPrepare_fresh (N := N) (D := C) (by rw [hlen]; exact hF) (by rw [hlen]; exact hC)
        (by rw [evenLen_of_even (by omega)]; exact hN) rfl, ?_⟩
      rw [hlen]
  obtain ⟨st, eprep, hst⟩ := hprep
  have ecall : (recCall la cfg ⟨none, none, [], false⟩ (c0 :: rest)).1 =
      (matRecLoop (builtMats C F ns.length (2 * ns.getLast?.getD 0)).reverse u0.matT (us.map matT)).bind fun r =>
        postprocessTensor r.matT 1 (pick (batchAxes S.length (axesOf h S.length 1) ++ axesOf h S.length 1) c0.shape) h := by
    unfold recCall
    simp only [einp, List.length_cons, Nat.add_sub_cancel, eprep]
    unfold recApply
    simp only [List.map_cons, ← hst]
    rfl
  refine ⟨?_, ?_, ?_⟩
  · intro hc hle
    have hch : HalfChain (2 * ns.getLast?.getD 0) ns.reverse := halfChain_of_consistent hc
    have hge : GeChain F (2 * ns.getLast?.getD 0) ns.reverse := geChain_iff.mpr hle
    have hmats : (builtMats C F ns.length (2 * ns.getLast?.getD 0)).reverse = ns.map fun d => C (2 * d) := by
      have := builtMats_chain (C := C) hch hge
      rw [List.length_reverse] at this
      rw [this, List.map_reverse, List.reverse_reverse]
    have hsyn := forall₂_syn hT ps (fun d hd => by
      rw [hps] at hd
      have := chain_bounds hF hch hge d (List.mem_reverse.mpr hd)
      rw [evenLen_of_even (by omega)] at this
      exact ⟨this.1, le_trans this.2 hN⟩)
    rw [hps] at hsyn
    obtain ⟨z0, ez, hz⟩ := matRecLoop_gen (S := T) _ ps _ _ _ _ s0.matT hcols hsyn (by rw [hps]; exact hc)
    rw [hps] at hz
    have hz := hz.matT
    have hbl := hg.batch_len
    have hnm : a ∉ batchAxes S.length (axesOf h S.length 1) :=
      not_mem_batchAxes (by rw [axesOf_one hg]; simp [ha])
    have hcb : pick (batchAxes S.length (axesOf h S.length 1)) c0.shape
        = pick (batchAxes S.length (axesOf h S.length 1)) S := by
      rw [hcs.shape c0 (by simp), pick_set_not_mem hnm]
    obtain ⟨z, epz, hzr, hzb, hzf⟩ := postprocessTensor_ok hg (t := z0.matT)
      (ds := pick (batchAxes S.length (axesOf h S.length 1) ++ axesOf h S.length 1) c0.shape)
      (bs := pick (batchAxes S.length (axesOf h S.length 1)) S)
      (by rw [pick_length]; exact (isPerm_axes hg.nodup hg.lt).len)
      (by rw [take_pick hbl hg.axes_len, hcb]) (ks := [idwtLen 2 (c0.shape.getD a 0) ns])
      rfl hz.shape
    have hax : a < S.length := axis1_lt hg
    have hp : IsPerm (batchAxes S.length (axesOf h S.length 1) ++ axesOf h S.length 1) S.length :=
      isPerm_axes hg.nodup hg.lt
    have hzs : z.shape = S.set a (idwtLen 2 (c0.shape.getD a 0) ns) := by
      apply hp.pick_inj hzr (by rw [List.length_set])
      rw [pick_append, pick_append, pick_set_not_mem hnm, hzb]
      congr 1
      have e := hzf.shape
      rw [hz.shape, hzr] at e
      rw [axesOf_one hg] at e ⊢
      simp only [List.cons.injEq, pick, List.map_cons, List.map_nil, and_true] at e ⊢
      rw [getD_set_self hax]
      exact e.2.symm
    refine ⟨z, ?_, hzf.md.symm.trans hz.md, hzs, ?_⟩
    · rw [ecall, hmats, ez]; exact epz
    · intro idx hidx
      rw [← hzf.get idx hidx, hzr, hzb]
      rw [hzs] at hidx
      have hlt := inB_set_getD hax hidx
      have hb : ravel (pick (batchAxes S.length (axesOf h S.length 1)) S)
          (pick (batchAxes S.length (axesOf h S.length 1)) idx)
          < prodL (pick (batchAxes S.length (axesOf h S.length 1)) S) := by
        apply ravel_lt
        have := inB_pick_of (r := S.length) (by rw [List.length_set]) hidx
          (batchAxes_lt (ax := axesOf h S.length 1))
        rwa [pick_set_not_mem hnm] at this
      have := hz.get _ _ hb hlt
      rw [p3 _ idx hidx] at this
      rw [ha, sameBut_line hg (hcs.shape c0 (by simp)) hu0.2 hidx, ← ha, ← this]
      congr 2
      rw [axesOf_one hg]; rfl
  · intro z hz
    rw [ecall] at hz
    cases e1 : matRecLoop (builtMats C F ns.length (2 * ns.getLast?.getD 0)).reverse u0.matT (us.map matT) with
    | error e => rw [e1] at hz; cases hz
    | ok r =>
      obtain ⟨q1, q2⟩ := matRecLoop_conv _ ps _ _ r _ _ s0.matT hcols (by
        intro M hM
        obtain ⟨k, k1, k2, k3, rfl⟩ := builtMats_mem (N := N) hF (by rw [evenLen_of_even (by omega)]; exact hN) M (List.mem_reverse.mp hM)
        rw [hT.rows k k1 k2 k3, hT.cols k k1 k2 k3]
        exact ⟨rfl, by omega⟩) e1
      rw [hps] at q1
      refine ⟨q1, geChain_iff.mp (geChain_of_levels (halfChain_of_consistent q1) ?_)⟩
      rw [List.length_map, List.length_reverse, builtMats_length, hul] at q2
      rw [List.length_reverse]
      exact le_antisymm (mLevels_le _ _ _) q2
  · intro d hd hne
    rw [ecall]
    cases p1 with
    | nil => rw [← hps] at hd; simp at hd
    | @cons u p us ps hu hus' =>
      rw [List.map_cons, matRecLoop, if_pos]
      · rfl
      · have e1 := s0.matT.shape
        have e2 := hu.matT.shape
        rw [e1, e2]
        intro e
        rw [← hps] at hd
        have : p.1 = d := by simpa using hd
        exact hne (by rw [← this]; exact ((List.cons.inj e).1).symm)

end Verif
