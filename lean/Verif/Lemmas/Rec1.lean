import Verif.Lemmas.Top1

/-! `waverec` on arbitrary coefficient lists. -/

namespace Verif
open Tensor Spec
variable {R : Type}

/-- One step of the loop of `waverec`, before cropping. -/
theorem recStep_ok [NonUnitalNonAssocSemiring R] {f₀ f₁ : List R} {F : Nat} {filt : Tensor R}
    {md : Meta} {B K : Nat} {lo hi : Tensor R} {X Y : Nat → Nat → R} (hF : 2 ≤ F) (hK : 1 ≤ K)
    (h0 : f₀.length = F) (h1 : f₁.length = F)
    (hfm : filt.md = md) (hfs : filt.shape = [2, 1, F])
    (hfg : ∀ o j, o < 2 → j < F → filt.get [o, 0, j] = (if o = 0 then f₀ else f₁).getD j 0)
    (hlo : Shows lo md B K X) (hhi : Shows hi md B K Y) (rest : List (Tensor R)) :
    ∃ r, waverecLoop filt F lo (hi :: rest) = (recPads F r rest >>= fun p =>
        waverecLoop filt F (cropAxis r 1 p.2 p.1) rest) ∧
      r.sizeFromEnd 1 = (K - 1) * 2 + F ∧
      ∀ e, Shows (cropAxis r 1 (F - 2) (F - 2 + e)) md B (2 * K + 2 - F - e)
        (fun b k => synthesis f₀ f₁ K (X b) (Y b) ((k + (F - 2) : ℕ) : ℤ)) := by
  obtain ⟨st, r, es, er, hr⟩ := synthesisConv_ok f₀ f₁ (by omega) hK h0 h1 hlo hhi hfm hfs hfg
  refine ⟨r.squeeze1, ?_, hr.sizeFromEnd, ?_⟩
  · rw [waverecLoop]
    simp only [bind, Except.bind, es, er, hr.rank]
  · intro e
    have hc := hr.crop (l := F - 2) (r := F - 2 + e)
    rwa [show (K - 1) * 2 + F - (F - 2) - (F - 2 + e) = 2 * K + 2 - F - e by omega] at hc

theorem adjust_eq {F K n : Nat} (hF : 2 ≤ F) (hK : 1 ≤ K) :
    adjustPadding ((K - 1) * 2 + F) n (F - 2) (F - 2) =
      if n + F = 2 * K + 2 then .ok (F - 2, F - 2)
      else if n + F = 2 * K + 1 then .ok (F - 2 + 1, F - 2) else .error .assertionError := by
  unfold adjustPadding
  simp only
  by_cases h : n + F = 2 * K + 2
  · rw [if_pos h, if_pos (by push_cast; omega)]
  · rw [if_neg h, if_neg (by push_cast; omega)]
    by_cases h' : n + F = 2 * K + 1
    · rw [if_pos h', if_pos (by push_cast; omega)]
    · rw [if_neg h', if_neg (by push_cast; omega)]

/-- The loop of `waverec` computes the textbook inverse transform of consistent coefficients. -/
theorem waverecLoop_gen [NonUnitalNonAssocSemiring R] {f₀ f₁ : List R} {F : Nat} {filt : Tensor R}
    {md : Meta} {B : Nat} (hF : 2 ≤ F) (h0 : f₀.length = F) (h1 : f₁.length = F)
    (hfm : filt.md = md) (hfs : filt.shape = [2, 1, F])
    (hfg : ∀ o j, o < 2 → j < F → filt.get [o, 0, j] = (if o = 0 then f₀ else f₁).getD j 0) :
    ∀ (his : List (Tensor R)) (ps : List (Nat × (Nat → Nat → R))) (lo : Tensor R) (K : Nat)
      (X : Nat → Nat → R), Shows lo md B K X →
      List.Forall₂ (fun d p => Shows d md B p.1 p.2) his ps →
      Consistent F K (ps.map (·.1)) →
      ∃ z, waverecLoop filt F lo his = .ok z ∧ Shows z md B (idwtLen F K (ps.map (·.1)))
        (fun b => idwt f₀ f₁ F (X b) (ps.map fun p => (p.1, p.2 b)))
  | [], [], lo, K, X, hlo, _, _ => ⟨lo, rfl, hlo⟩
  | [hi], [p], lo, K, X, hlo, .cons hhi _, hc => by
    obtain ⟨d, Y⟩ := p
    obtain ⟨hd, hK⟩ : d = K ∧ 1 ≤ K := hc
    subst hd
    obtain ⟨r, e, -, hr⟩ := recStep_ok hF hK h0 h1 hfm hfs hfg hlo hhi []
    refine ⟨cropAxis r 1 (F - 2) (F - 2), ?_, ?_⟩
    · rw [e]
      simp only [recPads, bind, Except.bind, waverecLoop, show (2 * F - 3) / 2 = F - 2 by omega]
    · exact hr 0
  | hi :: hi' :: rest, p :: p' :: ps, lo, K, X, hlo, .cons hhi (.cons hhi' hrest), hc => by
    obtain ⟨d, Y⟩ := p
    obtain ⟨n, Y'⟩ := p'
    obtain ⟨hd, hK, hn, hc'⟩ : d = K ∧ 1 ≤ K ∧ (n + F = 2 * K + 2 ∨ n + F = 2 * K + 1) ∧
      Consistent F n (n :: ps.map (fun p : Nat × (Nat → Nat → R) => p.1)) := hc
    subst hd
    obtain ⟨r, e, hsz, hr⟩ := recStep_ok hF hK h0 h1 hfm hfs hfg hlo hhi (hi' :: rest)
    have hpad : (2 * F - 3) / 2 = F - 2 := by omega
    obtain ⟨ε, hε, hn'⟩ : ∃ ε, recPads F r (hi' :: rest) = .ok (F - 2 + ε, F - 2) ∧
        2 * d + 2 - F - ε = n := by
      simp only [recPads, hsz, hhi'.sizeFromEnd, hpad, adjust_eq hF hK]
      rcases hn with hn | hn
      · exact ⟨0, by rw [if_pos hn]; rfl, by omega⟩
      · exact ⟨1, by rw [if_neg (by omega), if_pos hn], by omega⟩
    have hlo' := hr ε
    rw [hn'] at hlo'
    obtain ⟨z, ez, hz⟩ := waverecLoop_gen hF h0 h1 hfm hfs hfg (hi' :: rest) ((n, Y') :: ps) _ n _ hlo'
      (.cons hhi' hrest) hc'
    refine ⟨z, ?_, hz⟩
    rw [e, hε]
    exact ez

theorem stack1_err [Zero R] {a b : Tensor R} {B K K' : Nat} (hs : a.shape = [B, K])
    (hs' : b.shape = [B, K']) (hne : K' ≠ K) : stack1 [a, b] = .error .runtimeError := by
  unfold stack1
  simp only [hs]
  rw [if_neg]
  simp [hs', hne]

theorem recStep_err [NonUnitalNonAssocSemiring R] {F : Nat} {filt : Tensor R}
    {md : Meta} {B K K' : Nat} {lo hi : Tensor R} {X Y : Nat → Nat → R}
    (hfs : filt.shape = [2, 1, F])
    (hlo : Shows lo md B K X) (hhi : Shows hi md B K' Y) (hK : ¬ (K' = K ∧ 1 ≤ K))
    (rest : List (Tensor R)) : waverecLoop filt F lo (hi :: rest) = .error .runtimeError := by
  rw [waverecLoop]
  by_cases hne : K' = K
  · subst hne
    obtain ⟨t, e, -, hs, -⟩ := stack1_two hlo.shape hhi.shape (hhi.md.trans hlo.md.symm)
    have : convTranspose1d t filt 2 = .error .runtimeError := by
      unfold convTranspose1d
      rw [hs, hfs]
      exact if_neg (by rintro ⟨-, -, -, h⟩; exact hK ⟨rfl, h⟩)
    simp only [bind, Except.bind, e, this]
  · simp only [bind, Except.bind, stack1_err hlo.shape hhi.shape hne]

/-- Inconsistent sizes make the loop of `waverec` fail, with an AssertionError exactly if a next
level has a wrong size. -/
theorem waverecLoop_genErr [NonUnitalNonAssocSemiring R] {f₀ f₁ : List R} {F : Nat} {filt : Tensor R}
    {md : Meta} {B : Nat} (hF : 2 ≤ F) (h0 : f₀.length = F) (h1 : f₁.length = F)
    (hfm : filt.md = md) (hfs : filt.shape = [2, 1, F])
    (hfg : ∀ o j, o < 2 → j < F → filt.get [o, 0, j] = (if o = 0 then f₀ else f₁).getD j 0) :
    ∀ (his : List (Tensor R)) (ps : List (Nat × (Nat → Nat → R))) (lo : Tensor R) (K : Nat)
      (X : Nat → Nat → R), Shows lo md B K X →
      List.Forall₂ (fun d p => Shows d md B p.1 p.2) his ps →
      ¬ Consistent F K (ps.map (·.1)) →
      (SizeClash F K (ps.map (·.1)) ∧ waverecLoop filt F lo his = .error .assertionError) ∨
      (¬ SizeClash F K (ps.map (·.1)) ∧ waverecLoop filt F lo his = .error .runtimeError)
  | [], [], lo, K, X, hlo, _, hc => absurd trivial hc
  | [hi], [p], lo, K, X, hlo, .cons hhi _, hc => by
    refine Or.inr ⟨id, recStep_err hfs hlo hhi hc []⟩
  | hi :: hi' :: rest, p :: p' :: ps, lo, K, X, hlo, .cons hhi (.cons hhi' hrest), hc => by
    obtain ⟨d, Y⟩ := p
    obtain ⟨n, Y'⟩ := p'
    by_cases hdK : d = K ∧ 1 ≤ K
    swap
    · exact Or.inr ⟨fun h => hdK ⟨h.1, h.2.1⟩, recStep_err hfs hlo hhi hdK _⟩
    obtain ⟨hd, hK⟩ := hdK
    subst hd
    have hpad : (2 * F - 3) / 2 = F - 2 := by omega
    obtain ⟨r, e, hsz, hr⟩ := recStep_ok hF hK h0 h1 hfm hfs hfg hlo hhi (hi' :: rest)
    by_cases hn : n + F = 2 * d + 2 ∨ n + F = 2 * d + 1
    · obtain ⟨ε, hε, hn'⟩ : ∃ ε, recPads F r (hi' :: rest) = .ok (F - 2 + ε, F - 2) ∧
          2 * d + 2 - F - ε = n := by
        simp only [recPads, hsz, hhi'.sizeFromEnd, hpad, adjust_eq hF hK]
        rcases hn with hn | hn
        · exact ⟨0, by rw [if_pos hn]; rfl, by omega⟩
        · exact ⟨1, by rw [if_neg (by omega), if_pos hn], by omega⟩
      have hlo' := hr ε
      rw [hn'] at hlo'
      have hc' : ¬ Consistent F n (n :: ps.map (·.1)) := fun h => hc ⟨rfl, hK, hn, h⟩
      have hsc : SizeClash F d (((d, Y) :: (n, Y') :: ps).map (·.1)) ↔
          SizeClash F n (((n, Y') :: ps).map (·.1)) := by
        show (d = d ∧ 1 ≤ d ∧ _) ↔ _
        constructor
        · rintro ⟨-, -, h | h⟩
          · exact absurd hn h
          · exact h.2
        · exact fun h => ⟨rfl, hK, Or.inr ⟨hn, h⟩⟩
      have ez := waverecLoop_genErr hF h0 h1 hfm hfs hfg (hi' :: rest) ((n, Y') :: ps) _ n _ hlo'
        (.cons hhi' hrest) hc'
      rw [hsc, e, hε]
      exact ez
    · refine Or.inl ⟨⟨rfl, hK, Or.inl hn⟩, ?_⟩
      rw [e]
      simp only [recPads, hsz, hhi'.sizeFromEnd, hpad, adjust_eq hF hK, bind, Except.bind]
      rw [if_neg fun h => hn (Or.inl h), if_neg fun h => hn (Or.inr h)]

section
variable [NonUnitalNonAssocSemiring R]

/-- Everything `waverec` does before its loop. -/
theorem waverec_pre {w : Wavelet R} {F : Nat} {h : AxisHint} {md : Meta} {S : List Nat}
    {c0 : Tensor R} {rest : List (Tensor R)}
    (h0 : w.recLo.length = F) (h1 : w.recHi.length = F)
    (hg : GoodAxes h S.length 1) (hdt : isDtypeSupported md.dtype = true)
    (hcs : SameBut (axis1 h S.length) md S (c0 :: rest)) :
    ∃ u0 us filt, (filt.md = md ∧ filt.shape = [2, 1, F] ∧
        ∀ o j, o < 2 → j < F → filt.get [o, 0, j] = (if o = 0 then w.recLo else w.recHi).getD j 0) ∧
      waverec (c0 :: rest) w h = (waverecLoop filt F u0 us >>= fun r => postprocessTensor r 1
        (pick (batchAxes S.length (axesOf h S.length 1) ++ axesOf h S.length 1) c0.shape) h) ∧
      c0.rank = S.length ∧ Folded (axesOf h S.length 1) c0 u0 ∧
      List.Forall₂ (fun c u => c.rank = S.length ∧ Folded (axesOf h S.length 1) c u) rest us := by
  have hrank : ∀ t ∈ c0 :: rest, t.rank = S.length := by
    intro t ht
    have := hcs.shape t ht
    unfold Tensor.rank; rw [this, List.length_set]
  obtain ⟨c', ep, rel⟩ := preprocessCoeffs_ok hg (c := Coeffs.ofList (c0 :: rest))
    (ofList_wf (by simp) hrank) (headTensor_ofList c0 rest)
    (by rw [hcs.md c0 (by simp)]; exact hdt)
  obtain ⟨us, rfl, hf⟩ := rel.ofList
  have hmds : ∀ u ∈ us, u.md = md := by
    intro u hu
    obtain ⟨i, hi⟩ := List.getElem?_of_mem hu
    obtain ⟨t, ht, h1, h2⟩ := forall₂_getElem? hf hi
    rw [h2.md]; exact hcs.md t (List.mem_of_getElem? ht)
  cases hf with
  | @cons _ u0 _ us' hu0 hus =>
    have hck : checkSameDeviceDtype (Coeffs.ofList (u0 :: us')) = .ok md :=
      checkSameDeviceDtype_ok (ofList_wf (by simp) hmds)
    obtain ⟨filt, ef, f1, f2, f3⟩ := filt_ok w.recLo w.recHi F h0 h1 false md
    refine ⟨u0, us', filt, ⟨f1, f2, f3⟩, ?_, hu0.1, hu0.2, hus⟩
    unfold waverec
    simp only [bind, Except.bind, ep, hck, ef, toList_ofList, h0]

theorem sameBut_shows {h : AxisHint} {md : Meta} {S : List Nat} {c u : Tensor R}
    (hg : GoodAxes h S.length 1) (hmd : c.md = md)
    (hs : c.shape = S.set (axis1 h S.length) (c.shape.getD (axis1 h S.length) 0))
    (hf : Folded (axesOf h S.length 1) c u) :
    Shows u md (prodL (pick (batchAxes S.length (axesOf h S.length 1)) S))
      (c.shape.getD (axis1 h S.length) 0) (fun b j => u.get [b, j]) := by
  have hr : c.rank = S.length := by unfold Tensor.rank; rw [hs, List.length_set]
  have := Folded.shows (h := h) (x := c) (y := u) (by rw [hr]; exact hg) (by rw [hr]; exact hf)
  rw [hr, hmd] at this
  have e : pick (batchAxes S.length (axesOf h S.length 1)) c.shape
      = pick (batchAxes S.length (axesOf h S.length 1)) S := by
    rw [hs, pick_set_not_mem (not_mem_batchAxes (by rw [axesOf_one hg]; simp))]
  rwa [e] at this

theorem sameBut_line {h : AxisHint} {S : List Nat} {c u : Tensor R} {K : Nat}
    (hg : GoodAxes h S.length 1)
    (hs : c.shape = S.set (axis1 h S.length) (c.shape.getD (axis1 h S.length) 0))
    (hf : Folded (axesOf h S.length 1) c u) {idx : List Nat}
    (hidx : InB (S.set (axis1 h S.length) K) idx) :
    Spec.line c (axis1 h S.length) idx =
      fun j => u.get [ravel (pick (batchAxes S.length (axesOf h S.length 1)) S)
        (pick (batchAxes S.length (axesOf h S.length 1)) idx), j] := by
  have hr : c.rank = S.length := by unfold Tensor.rank; rw [hs, List.length_set]
  have := Folded.line (h := h) (x := c) (y := u) (K := K) (by rw [hr]; exact hg)
    (by rw [hr]; exact hf) (idx := idx) (by
      rw [hr, hs, List.set_set]; exact hidx)
  rw [hr] at this
  rw [this]
  unfold batchPos
  have e : pick (batchAxes S.length (axesOf h S.length 1)) c.shape
      = pick (batchAxes S.length (axesOf h S.length 1)) S := by
    rw [hs, pick_set_not_mem (not_mem_batchAxes (by rw [axesOf_one hg]; simp))]
  rw [hr, e]

theorem forall₂_shows {h : AxisHint} {md : Meta} {S : List Nat} (hg : GoodAxes h S.length 1) :
    ∀ {rest us : List (Tensor R)}, (∀ c ∈ rest, c.md = md) →
      (∀ c ∈ rest, c.shape = S.set (axis1 h S.length) (c.shape.getD (axis1 h S.length) 0)) →
      List.Forall₂ (fun c u => c.rank = S.length ∧ Folded (axesOf h S.length 1) c u) rest us →
      ∃ ps : List (Nat × (Nat → Nat → R)),
        List.Forall₂ (fun d p => Shows d md (prodL (pick (batchAxes S.length (axesOf h S.length 1)) S)) p.1 p.2) us ps ∧
        ps.map (·.1) = rest.map (·.shape.getD (axis1 h S.length) 0) ∧
        ∀ K idx, InB (S.set (axis1 h S.length) K) idx →
          (ps.map fun p => (p.1, p.2 (ravel (pick (batchAxes S.length (axesOf h S.length 1)) S)
            (pick (batchAxes S.length (axesOf h S.length 1)) idx)))) =
          rest.map fun c => (c.shape.getD (axis1 h S.length) 0, Spec.line c (axis1 h S.length) idx)
  | [], [], _, _, _ => ⟨[], .nil, rfl, fun _ _ _ => rfl⟩
  | c :: rest, u :: us, hm, hs, .cons hf hr => by
    obtain ⟨ps, h1, h2, h3⟩ := forall₂_shows hg (fun c hc => hm c (by simp [hc]))
      (fun c hc => hs c (by simp [hc])) hr
    refine ⟨(c.shape.getD (axis1 h S.length) 0, fun b j => u.get [b, j]) :: ps,
      .cons (sameBut_shows hg (hm c (by simp)) (hs c (by simp)) hf.2) h1, by simp [h2], ?_⟩
    intro K idx hidx
    rw [List.map_cons, List.map_cons, h3 K idx hidx,
      sameBut_line hg (hs c (by simp)) hf.2 hidx]

theorem waverec_gen {w : Wavelet R} {F : Nat} {h : AxisHint} {md : Meta} {S : List Nat}
    {c0 : Tensor R} {rest : List (Tensor R)} (hF : 2 ≤ F)
    (h0 : w.recLo.length = F) (h1 : w.recHi.length = F)
    (hg : GoodAxes h S.length 1) (hdt : isDtypeSupported md.dtype = true)
    (hcs : SameBut (axis1 h S.length) md S (c0 :: rest)) :
    (Consistent F (c0.shape.getD (axis1 h S.length) 0) (rest.map (·.shape.getD (axis1 h S.length) 0)) →
      ∃ z, waverec (c0 :: rest) w h = .ok z ∧ z.md = md ∧
        z.shape = S.set (axis1 h S.length) (idwtLen F (c0.shape.getD (axis1 h S.length) 0)
          (rest.map (·.shape.getD (axis1 h S.length) 0))) ∧
        ∀ idx, InB z.shape idx → z.get idx =
          idwt w.recLo w.recHi F (Spec.line c0 (axis1 h S.length) idx)
            (rest.map fun c => (c.shape.getD (axis1 h S.length) 0, Spec.line c (axis1 h S.length) idx))
            (idx.getD (axis1 h S.length) 0)) ∧
    (¬ Consistent F (c0.shape.getD (axis1 h S.length) 0)
        (rest.map (·.shape.getD (axis1 h S.length) 0)) →
      (SizeClash F (c0.shape.getD (axis1 h S.length) 0) (rest.map (·.shape.getD (axis1 h S.length) 0))
        ∧ waverec (c0 :: rest) w h = .error .assertionError) ∨
      (¬ SizeClash F (c0.shape.getD (axis1 h S.length) 0) (rest.map (·.shape.getD (axis1 h S.length) 0))
        ∧ waverec (c0 :: rest) w h = .error .runtimeError)) := by
  obtain ⟨u0, us, filt, ⟨f1, f2, f3⟩, e, hr0, hf0, hf⟩ := waverec_pre h0 h1 hg hdt hcs
  set a := axis1 h S.length with ha
  obtain ⟨ps, p1, p2, p3⟩ := forall₂_shows (md := md) hg (fun c hc => hcs.md c (by simp [hc]))
    (fun c hc => hcs.shape c (by simp [hc])) hf
  have s0 := sameBut_shows hg (hcs.md c0 (by simp)) (hcs.shape c0 (by simp)) hf0
  rw [← ha] at s0 p2 p3
  constructor
  · intro hc
    rw [← p2] at hc ⊢
    obtain ⟨z0, ez, hz⟩ := waverecLoop_gen hF h0 h1 f1 f2 f3 us ps u0 _ _ s0 p1 hc
    have hbl := hg.batch_len
    have hnm : a ∉ batchAxes S.length (axesOf h S.length 1) :=
      not_mem_batchAxes (by rw [axesOf_one hg]; simp [ha])
    have hcb : pick (batchAxes S.length (axesOf h S.length 1)) c0.shape
        = pick (batchAxes S.length (axesOf h S.length 1)) S := by
      rw [hcs.shape c0 (by simp), pick_set_not_mem hnm]
    obtain ⟨z, epz, hzr, hzb, hzf⟩ := postprocessTensor_ok hg (t := z0)
      (ds := pick (batchAxes S.length (axesOf h S.length 1) ++ axesOf h S.length 1) c0.shape)
      (bs := pick (batchAxes S.length (axesOf h S.length 1)) S)
      (by rw [pick_length]; exact (isPerm_axes hg.nodup hg.lt).len)
      (by rw [take_pick hbl hg.axes_len, hcb]) (ks := [idwtLen F (c0.shape.getD a 0) (ps.map (·.1))])
      rfl hz.shape
    have hax : a < S.length := axis1_lt hg
    have hp : IsPerm (batchAxes S.length (axesOf h S.length 1) ++ axesOf h S.length 1) S.length :=
      isPerm_axes hg.nodup hg.lt
    have hzs : z.shape = S.set a (idwtLen F (c0.shape.getD a 0) (ps.map (·.1))) := by
      apply hp.pick_inj hzr (by rw [List.length_set])
      rw [pick_append, pick_append, pick_set_not_mem hnm, hzb]
      congr 1
      have e := hzf.shape
      rw [hz.shape, hzr] at e
      rw [axesOf_one hg] at e ⊢
      simp only [List.cons.injEq, pick, List.map_cons, List.map_nil, and_true] at e ⊢
      rw [getD_set_self hax]
      exact e.2.symm
    refine ⟨z, ?_, hzf.md.symm.trans hz.md, hzs, ?_⟩
    · rw [e, ez]; exact epz
    · intro idx hidx
      rw [← hzf.get idx hidx, hzr, hzb]
      rw [hzs] at hidx
      have hlt := inB_set_getD hax hidx
      have hb : ravel (pick (batchAxes S.length (axesOf h S.length 1)) S)
          (pick (batchAxes S.length (axesOf h S.length 1)) idx)
          < prodL (pick (batchAxes S.length (axesOf h S.length 1)) S) := by
        apply ravel_lt
        have := inB_pick_of (r := S.length) (by rw [List.length_set]) hidx
          (batchAxes_lt (ax := axesOf h S.length 1))
        rwa [pick_set_not_mem hnm] at this
      have := hz.get _ _ hb hlt
      rw [p3 _ idx hidx] at this
      rw [ha, sameBut_line hg (hcs.shape c0 (by simp)) hf0 hidx, ← ha, ← this]
      congr 2
      rw [axesOf_one hg]; rfl
  · intro hc
    rw [← p2] at hc ⊢
    rcases waverecLoop_genErr hF h0 h1 f1 f2 f3 us ps u0 _ _ s0 p1 hc with ⟨h2, h3⟩ | ⟨h2, h3⟩
    · exact Or.inl ⟨h2, by rw [e, h3]; rfl⟩
    · exact Or.inr ⟨h2, by rw [e, h3]; rfl⟩

end

end Verif
