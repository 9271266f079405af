import Verif.Lemmas.Swt
import Verif.Lemmas.Char1

/-! `iswt` on the user's tensors, perfect reconstruction and shift equivariance. -/

namespace Verif
open Tensor Spec
variable {R : Type}

theorem iswtFrom_congr [Field R] {n : Nat} (hn : 0 < n) (f₀ f₁ : List R) :
    ∀ {ds ds' : List (Nat → R)} {x x' : Nat → R}, (∀ j, j < n → x j = x' j) →
      List.Forall₂ (fun d d' => ∀ j, j < n → d j = d' j) ds ds' → ∀ m, m < n →
      iswtFrom f₀ f₁ n x ds m = iswtFrom f₀ f₁ n x' ds' m
  | [], _, x, x', hx, hd, m, hm => by cases hd; exact hx m hm
  | d :: ds, _, x, x', hx, hd, m, hm => by
    cases hd with
    | @cons _ d' _ ds' h1 h2 =>
      simp only [iswtFrom, h2.length_eq]
      exact iswtFrom_congr hn f₀ f₁ (fun j _ => iswtStep_congr hn hx h1 _ _ _ _) h2 m hm

/-- The textbook inverse inverts the textbook transform. -/
theorem iswtFrom_swt [Field R] [CharZero R] {w : Wavelet R} {F n : Nat} (hl : HasLen w F)
    (hw : NoDistortion w F) (hF : 2 ≤ F) (he : F % 2 = 0) (hn : 0 < n) (x : Nat → R) :
    ∀ (L : Nat) {m : Nat}, m < n →
      iswtFrom w.recLo w.recHi n (swtA w n x L) ((List.range L).reverse.map (swtD w n x)) m = x m
  | 0, m, _ => rfl
  | L + 1, m, hm => by
    rw [List.range_succ, List.reverse_append, List.reverse_singleton, List.singleton_append,
      List.map_cons, iswtFrom]
    simp only [List.length_map, List.length_reverse, List.length_range]
    rw [← iswtFrom_swt hl hw hF he hn x L hm]
    refine iswtFrom_congr hn _ _ (fun j hj => ?_) (by
      rw [List.forall₂_same]; intro _ _ _ _; rfl) m hm
    exact iswtStep_swtStep hl hw hF he hn (swtA w n x L) hj

section
variable [Field R]

theorem iswt_gen {w : Wavelet R} {F : Nat} {h : AxisHint} {md : Meta} {S : List Nat}
    {c0 : Tensor R} {rest : List (Tensor R)} (hF : 2 ≤ F) (he : F % 2 = 0)
    (h0 : w.recLo.length = F) (h1 : w.recHi.length = F)
    (hg : GoodAxes h S.length 1) (hdt : isDtypeSupported md.dtype = true)
    (hn : 0 < S.getD (axis1 h S.length) 0)
    (hw : WrapOk (S.getD (axis1 h S.length) 0) F rest.length)
    (hmd : ∀ c ∈ c0 :: rest, c.md = md) (hsh : ∀ c ∈ c0 :: rest, c.shape = S) :
    ∃ z, iswt (c0 :: rest) w h = .ok z ∧ z.md = md ∧ z.shape = S ∧
      ∀ idx, InB S idx → z.get idx =
        iswtFrom w.recLo w.recHi (S.getD (axis1 h S.length) 0)
          (Spec.line c0 (axis1 h S.length) idx)
          (rest.map fun c => Spec.line c (axis1 h S.length) idx)
          (idx.getD (axis1 h S.length) 0) := by
  have hax : axis1 h S.length < S.length := axis1_lt hg
  have hss : S = S.set (axis1 h S.length) (S.getD (axis1 h S.length) 0) := (set_getD_self hax).symm
  obtain ⟨c', ep, rel⟩ := preprocessCoeffs_ok hg (c := Coeffs.ofList (c0 :: rest))
    (ofList_wf (by simp) (by intro t ht; unfold Tensor.rank; rw [hsh t ht]))
    (headTensor_ofList c0 rest) (by rw [hmd c0 (by simp)]; exact hdt)
  obtain ⟨us, rfl, hf⟩ := rel.ofList
  have hmds : ∀ u ∈ us, u.md = md := by
    intro u hu
    obtain ⟨i, hi⟩ := List.getElem?_of_mem hu
    obtain ⟨t, ht, h1, h2⟩ := forall₂_getElem? hf hi
    rw [h2.md]; exact hmd t (List.mem_of_getElem? ht)
  cases hf with
  | @cons _ u0 _ us' hu0 hus =>
    have hck : checkSameDeviceDtype (Coeffs.ofList (u0 :: us')) = .ok md :=
      checkSameDeviceDtype_ok (ofList_wf (by simp) hmds)
    obtain ⟨filt, ef, f1, f2, f3⟩ := filt_ok w.recLo w.recHi F h0 h1 false md
    have hshape : ∀ c ∈ c0 :: rest, c.shape
        = S.set (axis1 h S.length) (c.shape.getD (axis1 h S.length) 0) := by
      intro c hc; rw [hsh c hc]; exact hss
    obtain ⟨ps, p1, p2, p3⟩ := forall₂_shows (md := md) hg (fun c hc => hmd c (by simp [hc]))
      (fun c hc => hshape c (by simp [hc])) hus
    have s0 := sameBut_shows hg (hmd c0 (by simp)) (hshape c0 (by simp)) hu0.2
    rw [hsh c0 (by simp)] at s0
    set a := axis1 h S.length with ha
    set n := S.getD a 0 with hnn
    have hps : ∀ p ∈ ps, p.1 = n := by
      intro p hp
      have : p.1 ∈ ps.map (·.1) := List.mem_map_of_mem hp
      rw [p2] at this
      obtain ⟨c, hc, hce⟩ := List.mem_map.mp this
      rw [← hce, hsh c (by simp [hc])]
    have p1' : List.Forall₂ (fun t Y => Shows t md (prodL (pick (batchAxes S.length
        (axesOf h S.length 1)) S)) n Y) us' (ps.map (·.2)) := by
      rw [List.forall₂_map_right_iff, List.forall₂_iff_zip]
      refine ⟨p1.length_eq, ?_⟩
      intro d p hdp
      rw [← hps p (List.of_mem_zip hdp).2]
      exact (List.forall₂_iff_zip.mp p1).2 hdp
    obtain ⟨z0, ez, hz⟩ := iswtLoop_ok w.recLo w.recHi hF he hn h0 f1 f2 f3 us' _ (by
      rw [← hus.length_eq]; exact hw) s0 p1'
    have hbl := hg.batch_len
    have hnm : a ∉ batchAxes S.length (axesOf h S.length 1) :=
      not_mem_batchAxes (by rw [axesOf_one hg]; simp [ha])
    obtain ⟨z, epz, hzr, hzb, hzf⟩ := postprocessTensor_ok hg (t := z0)
      (ds := pick (batchAxes S.length (axesOf h S.length 1) ++ axesOf h S.length 1) c0.shape)
      (bs := pick (batchAxes S.length (axesOf h S.length 1)) S)
      (by rw [pick_length]; exact (isPerm_axes hg.nodup hg.lt).len)
      (by rw [take_pick hbl hg.axes_len, hsh c0 (by simp)]) (ks := [n])
      rfl hz.shape
    have hp : IsPerm (batchAxes S.length (axesOf h S.length 1) ++ axesOf h S.length 1) S.length :=
      isPerm_axes hg.nodup hg.lt
    have hzs : z.shape = S := by
      apply hp.pick_inj hzr rfl
      rw [pick_append, pick_append, hzb]
      congr 1
      have e := hzf.shape
      rw [hz.shape, hzr] at e
      rw [axesOf_one hg] at e ⊢
      simp only [List.cons.injEq, pick, List.map_cons, List.map_nil, and_true] at e ⊢
      exact e.2.symm
    refine ⟨z, ?_, hzf.md.symm.trans hz.md, hzs, ?_⟩
    · unfold iswt
      simp only [bind, Except.bind, ep, hck, ef, toList_ofList, h0, ez]
      exact epz
    · intro idx hidx
      have hidx' : InB (S.set a n) idx := by rw [← hss]; exact hidx
      rw [← hzf.get idx (by rw [hzs]; exact hidx), hzr, hzb]
      have hlt := inB_set_getD hax hidx'
      have hb : ravel (pick (batchAxes S.length (axesOf h S.length 1)) S)
          (pick (batchAxes S.length (axesOf h S.length 1)) idx)
          < prodL (pick (batchAxes S.length (axesOf h S.length 1)) S) := by
        apply ravel_lt
        exact inB_pick_of (r := S.length) rfl hidx (batchAxes_lt (ax := axesOf h S.length 1))
      have := hz.get _ _ hb hlt
      have p3' := congrArg (List.map Prod.snd) (p3 _ idx hidx')
      simp only [List.map_map] at p3'
      have e1 : (List.map (fun Y : Nat → Nat → R => Y (ravel (pick (batchAxes S.length (axesOf h S.length 1)) S)
          (pick (batchAxes S.length (axesOf h S.length 1)) idx))) (ps.map (·.2)))
          = rest.map fun c => Spec.line c a idx := by
        rw [List.map_map]
        exact p3'
      rw [e1] at this
      rw [ha, sameBut_line hg (hshape c0 (by simp)) hu0.2 hidx', ← ha, ← this]
      congr 2
      rw [axesOf_one hg]; rfl

theorem iswt_swt [CharZero R] {w : Wavelet R} {F : Nat} {x : Tensor R} {h : AxisHint} {L : Nat}
    {cs : List (Tensor R)} (hl : HasLen w F) (hw : NoDistortion w F) (hF : 2 ≤ F) (he : F % 2 = 0)
    (hg : GoodAxes h x.rank 1) (hdt : isDtypeSupported x.md.dtype = true)
    (hn : 0 < x.shape.getD (axis1 h x.rank) 0)
    (hwr : WrapOk (x.shape.getD (axis1 h x.rank) 0) F L)
    (hcs : IsSwt w (axis1 h x.rank) L x cs) : iswt cs w h = .ok x := by
  set a := axis1 h x.rank with ha
  set n := x.shape.getD a 0 with hnn
  have hax : a < x.shape.length := axis1_lt hg
  obtain ⟨c0, rest, rfl⟩ : ∃ c0 rest, cs = c0 :: rest := by
    cases cs with
    | nil => have := hcs.length; simp at this
    | cons a l => exact ⟨a, l, rfl⟩
  have hrl : rest.length = L := by have := hcs.length; simpa using this
  have hss : x.shape.set a n = x.shape := set_getD_self hax
  have h0 := hcs.approx c0 rfl
  have hd : ∀ i c, rest[i]? = some c → AlongAxis a n (fun v => swtD w n v (L - 1 - i)) x c := by
    intro i c hc
    have hi : i < L := by rw [← hrl]; exact (List.getElem?_eq_some_iff.mp hc).1
    exact hcs.detail (L - 1 - i) c (by omega) (by
      rw [show L - (L - 1 - i) = i + 1 by omega, List.getElem?_cons_succ]; exact hc)
  have hall : ∀ c ∈ c0 :: rest, c.md = x.md ∧ c.shape = x.shape := by
    intro c hc
    rcases List.mem_cons.mp hc with rfl | hc
    · exact ⟨h0.md, by rw [h0.shape]; exact hss⟩
    · obtain ⟨i, hi⟩ := List.getElem?_of_mem hc
      have := hd i c hi
      exact ⟨this.md, by rw [this.shape]; exact hss⟩
  obtain ⟨z, ez, z1, z2, z3⟩ := iswt_gen (w := w) (h := h) (md := x.md) (S := x.shape) hF he hl.2.2.1
    hl.2.2.2 hg hdt hn (by rw [hrl]; exact hwr) (fun c hc => (hall c hc).1) (fun c hc => (hall c hc).2)
  rw [ez]
  congr 1
  refine Tensor.ext' z1 z2 ?_
  intro idx hidx
  rw [z2] at hidx
  rw [z3 idx hidx]
  have hlt : idx.getD a 0 < n := hidx.getD_lt hax
  have hil : a < idx.length := by rw [hidx.length_eq]; exact hax
  have hin : ∀ j, j < n → InB x.shape (idx.set a j) := by
    intro j hj
    rw [inB_set_iff hax (x := n) (by rw [hss]; exact hidx)]; exact hj
  have hline : ∀ {c : Tensor R} {f : (Nat → R) → Nat → R}, AlongAxis a n f x c → ∀ j, j < n →
      Spec.line c a idx j = f (Spec.line x a idx) j := by
    intro c f hc j hj
    have := hc.get (idx.set a j) (by rw [hc.shape, hss]; exact hin j hj)
    rw [line_set, getD_set_self hil] at this
    exact this
  have e := iswtFrom_swt hl hw hF he hn (Spec.line x a idx) L hlt
  rw [show x.get idx = Spec.line x a idx (idx.getD a 0) by
    simp only [Spec.line]; rw [set_getD_self hil], ← e]
  refine iswtFrom_congr hn _ _ (hline h0) ?_ _ hlt
  rw [List.forall₂_iff_get]
  refine ⟨by simp [hrl], ?_⟩
  intro i h1 h2 j hj
  have hi : i < rest.length := by simpa using h1
  have := hd i rest[i] (List.getElem?_eq_getElem hi)
  simp only [List.get_eq_getElem, List.getElem_map, List.getElem_reverse, List.getElem_range,
    List.length_range]
  exact hline this j hj

end

/-! ### Shifts -/

theorem ext_shift [Zero R] {n : Nat} (hn : 0 < n) (x : Nat → R) (c : Nat) (i : ℤ) :
    ext .periodic n (fun k => x ((k + c) % n)) i = ext .periodic n x (i + c) := by
  show x (((i % n).toNat + c) % n) = x ((i + c) % n).toNat
  congr 1
  have h1 := Int.emod_nonneg i (b := (n : ℤ)) (by omega)
  have h2 := Int.emod_nonneg (i + c) (b := (n : ℤ)) (by omega)
  have : ((((i % n).toNat + c) % n : ℕ) : ℤ) = (i + c) % n := by
    push_cast
    rw [Int.toNat_of_nonneg h1, Int.emod_add_emod]
  omega

theorem swtStep_shift [NonUnitalNonAssocSemiring R] {n : Nat} (hn : 0 < n) (h : List R) (d : Nat)
    (x : Nat → R) (c k : Nat) :
    swtStep h d n (fun k => x ((k + c) % n)) k = swtStep h d n x ((k + c) % n) := by
  unfold swtStep
  refine Finset.sum_congr rfl fun i _ => ?_
  congr 1
  rw [ext_shift hn]
  apply ext_periodic_congr
  have h1 := Int.emod_add_mul_ediv ((k + c : ℕ) : ℤ) (n : ℤ)
  refine ⟨((k + c : ℕ) : ℤ) / n, ?_⟩
  push_cast at h1 ⊢
  linarith

theorem swtA_cyc [NonUnitalNonAssocSemiring R] {n : Nat} (hn : 0 < n) (w : Wavelet R)
    (x : Nat → R) (c : Nat) : ∀ s, swtA w n (fun k => x ((k + c) % n)) s
      = if s = 0 then fun k => x ((k + c) % n) else fun k => swtA w n x s ((k + c) % n)
  | 0 => rfl
  | s + 1 => by
    rw [if_neg (by omega)]
    funext k
    rw [swtA_shift, swtA_shift, swtA_cyc hn w x c s]
    have : (if s = 0 then fun k => x ((k + c) % n) else fun k => swtA w n x s ((k + c) % n))
        = fun k => swtA w n x s ((k + c) % n) := by
      split_ifs with h
      · subst h; rfl
      · rfl
    rw [this]
    exact swtStep_shift hn _ _ _ _ _

theorem swtA_cyc' [NonUnitalNonAssocSemiring R] {n : Nat} (hn : 0 < n) (w : Wavelet R)
    (x : Nat → R) (c s : Nat) : swtA w n (fun k => x ((k + c) % n)) s
      = fun k => swtA w n x s ((k + c) % n) := by
  rw [swtA_cyc hn]
  split_ifs with h
  · subst h; rfl
  · rfl

theorem swtD_cyc [NonUnitalNonAssocSemiring R] {n : Nat} (hn : 0 < n) (w : Wavelet R)
    (x : Nat → R) (c s : Nat) : swtD w n (fun k => x ((k + c) % n)) s
      = fun k => swtD w n x s ((k + c) % n) := by
  funext k
  unfold swtD
  rw [swtA_cyc' hn]
  exact swtStep_shift hn _ _ _ _ _

theorem swtMaxLevel_pow (n : Nat) (hn : 0 < n) : 2 ^ swtMaxLevel n ∣ n ∧ ¬ 2 ^ (swtMaxLevel n + 1) ∣ n := by
  induction n using Nat.strong_induction_on with
  | _ n ih =>
    unfold swtMaxLevel
    split_ifs with h
    · obtain ⟨h1, h2⟩ := ih (n / 2) (by omega) (by omega)
      have e : n = 2 * (n / 2) := by omega
      constructor
      · rw [pow_succ, Nat.mul_comm]
        have := Nat.mul_dvd_mul_left 2 h1
        rwa [← e] at this
      · intro hd
        rw [pow_succ, Nat.mul_comm, e] at hd
        exact h2 (by
          have := Nat.dvd_of_mul_dvd_mul_left (by omega : 0 < 2) hd
          rwa [← e] at this)
    · constructor
      · simp
      · intro hd
        rw [Nat.zero_add, pow_one] at hd
        omega

theorem wrapOk_auto {n F : Nat} (hn : 0 < n) : WrapOk n F (swtMaxLevel n) := by
  intro s hs
  right
  exact (pow_dvd_pow 2 (by omega)).trans (swtMaxLevel_pow n hn).1

end Verif
