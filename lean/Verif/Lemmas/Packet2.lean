import Verif.Lemmas.Packet1
import Verif.Model.Packet2
import Verif.Spec.Packet2
import Verif.Props.Sep
import Verif.Props.Util

/-! The two-dimensional packet object: facts shared by all transforms, and padding modes. -/

namespace Verif
open Tensor Spec Props
variable {R : Type}

/-! ### Composition along several axes -/

theorem setMany_getD_mem : ∀ (l ax ks : List Nat) {d : Nat}, d ∈ ax → ax.Nodup → (∀ a ∈ ax, a < l.length) →
    ks.length = ax.length → ∀ l' : List Nat, l'.length = l.length →
    (setMany l ax ks).getD d 0 = (setMany l' ax ks).getD d 0
  | l, a :: ax, k :: ks, d, hd, hn, hlt, hk, l', hl => by
    rw [List.nodup_cons] at hn
    show (setMany (l.set a k) ax ks).getD d 0 = (setMany (l'.set a k) ax ks).getD d 0
    rcases List.mem_cons.mp hd with rfl | hd
    · rw [setMany_getD_not_mem _ _ _ hn.1, setMany_getD_not_mem _ _ _ hn.1,
        getD_set_self (hlt d (by simp)), getD_set_self (by rw [hl]; exact hlt d (by simp))]
    · exact setMany_getD_mem _ ax ks hd hn.2 (by intro b hb; rw [List.length_set]; exact hlt b (by simp [hb]))
        (by simpa using hk) _ (by simp [hl])

theorem setMany_setMany {l ax js ks : List Nat} (hn : ax.Nodup) (hlt : ∀ a ∈ ax, a < l.length)
    (hk : ks.length = ax.length) : setMany (setMany l ax js) ax ks = setMany l ax ks := by
  apply list_ext_getD (by simp [setMany_length])
  intro d _
  by_cases hd : d ∈ ax
  · exact setMany_getD_mem _ _ _ hd hn (by simpa [setMany_length] using hlt) hk _ (by simp [setMany_length])
  · rw [setMany_getD_not_mem _ _ _ hd, setMany_getD_not_mem _ _ _ hd, setMany_getD_not_mem _ _ _ hd]

theorem Spec.AlongAxes.rank [Zero R] {ax Ks : List Nat} {f : (List Nat → R) → List Nat → R} {x z : Tensor R}
    (h : AlongAxes ax Ks f x z) : z.rank = x.rank := by
  unfold Tensor.rank; rw [h.shape, setMany_length]

theorem inB_sizes {ax s idx : List Nat} (hlt : ∀ a ∈ ax, a < s.length) (h : InB s idx) :
    InB (sizes ax s) (sizes ax idx) := by
  rw [inB_iff] at h ⊢
  refine ⟨by simp [sizes], ?_⟩
  intro d hd
  have hd' : d < ax.length := by simpa [sizes] using hd
  have := h.2 (ax[d]) (hlt _ (List.getElem_mem hd'))
  simpa [sizes, List.getD_eq_getElem?_getD, List.getElem?_map, hd'] using this

/-- Positions in a plane are positions of the tensor. -/
theorem inB_setMany {ax s idx js Ks : List Nat} (hn : ax.Nodup) (hlt : ∀ a ∈ ax, a < s.length)
    (hK : Ks.length = ax.length) (h : InB (setMany s ax Ks) idx) (hj : InB (sizes ax s) js) :
    InB s (setMany idx ax js) := by
  have hl : idx.length = s.length := by rw [h.length_eq, setMany_length]
  have hjl : js.length = ax.length := by rw [hj.length_eq]; simp [sizes]
  rw [inB_iff] at h ⊢
  refine ⟨by rw [setMany_length]; exact hl, ?_⟩
  intro d hd
  by_cases hm : d ∈ ax
  · have e : sizes ax (setMany idx ax js) = js :=
      sizes_setMany hn (by rw [hl]; exact hlt) hjl
    rw [← e, inB_iff] at hj
    obtain ⟨i, hi, rfl⟩ := List.getElem_of_mem hm
    have := hj.2 i (by simpa [sizes] using hi)
    simpa [sizes, List.getD_eq_getElem?_getD, List.getElem?_map, hi] using this
  · rw [setMany_getD_not_mem _ _ _ hm]
    have := h.2 d (by rw [setMany_length]; exact hd)
    rwa [setMany_getD_not_mem _ _ _ hm] at this

/-- Two operations along the same axes compose. -/
theorem Spec.AlongAxes.comp [Zero R] {ax K K' : List Nat} {f g : (List Nat → R) → List Nat → R} {x y z : Tensor R}
    (hn : ax.Nodup) (hlt : ∀ a ∈ ax, a < x.rank) (hK : K.length = ax.length) (hK' : K'.length = ax.length)
    (h1 : AlongAxes ax K f x y) (h2 : AlongAxes ax K' g y z)
    (hg : ∀ X Y : List Nat → R, (∀ js, InB K js → X js = Y js) → ∀ ks, InB K' ks → g X ks = g Y ks) :
    AlongAxes ax K' (fun X => g (f X)) x z := by
  refine ⟨h2.md.trans h1.md, by rw [h2.shape, h1.shape, setMany_setMany hn hlt hK'], ?_⟩
  intro idx hidx
  rw [h2.get idx hidx]
  have hlty : ∀ a ∈ ax, a < y.shape.length := by
    intro a ha
    rw [h1.shape, setMany_length]; exact hlt a ha
  have hys : sizes ax y.shape = K := by rw [h1.shape]; exact sizes_setMany hn hlt hK
  have hzs : sizes ax z.shape = K' := by rw [h2.shape]; exact sizes_setMany hn hlty hK'
  have hil : idx.length = x.shape.length := by
    rw [hidx.length_eq, h2.shape, setMany_length, h1.shape, setMany_length]
  apply hg
  · intro js hjs
    have hjl : js.length = ax.length := by rw [hjs.length_eq, hK]
    have hin : InB y.shape (setMany idx ax js) := by
      rw [h2.shape] at hidx
      exact inB_setMany hn hlty hK' hidx (by rw [hys]; exact hjs)
    show (if js.length = ax.length then y.get (setMany idx ax js) else 0) = _
    rw [if_pos hjl, h1.get _ hin, sizes_setMany hn (by rw [hil]; exact hlt) hjl]
    congr 1
    funext is
    unfold plane
    split_ifs with hi
    · rw [setMany_setMany hn (by rw [hil]; exact hlt) hi]
    · rfl
  · rw [← hzs]
    refine inB_sizes ?_ hidx
    rw [h2.shape, setMany_length]; exact hlty

/-- Doing nothing, along several axes. -/
theorem Spec.AlongAxes.id [Zero R] {ax : List Nat} {x : Tensor R} (hlt : ∀ a ∈ ax, a < x.rank) :
    AlongAxes ax (sizes ax x.shape) (fun X => X) x x := by
  refine ⟨rfl, (setMany_self _ _ hlt).symm, ?_⟩
  intro idx hidx
  show _ = if (sizes ax idx).length = ax.length then x.get (setMany idx ax (sizes ax idx)) else 0
  rw [if_pos (by simp [sizes])]
  congr 1
  exact (setMany_self idx ax (by rw [hidx.length_eq]; exact hlt)).symm

/-! ### Trees -/

theorem getNaturalOrder2_mem (l : Nat) (k : Key) :
    k ∈ getNaturalOrder2 l ↔ k.length = l ∧ ∀ c ∈ k, c ∈ ['a', 'h', 'v', 'd'] := by
  unfold getNaturalOrder2
  exact mem_pyProduct _ l k

theorem getNaturalOrder2_nodup (l : Nat) : (getNaturalOrder2 l).Nodup := pyProduct_nodup (by decide) l

theorem pickBand_map {T : Type} {al : List Char} {f : Char → T} {c : Char} (hc : c ∈ al) :
    pickBand al (al.map f) c = .ok (f c) := by
  unfold pickBand
  have : (al.map f)[al.idxOf c]? = some (f c) := by
    rw [List.getElem?_map, List.getElem?_eq_getElem (List.idxOf_lt_length_of_mem hc)]
    simp
  rw [this]

/-- One analysis step of a two-dimensional packet tree, on the tensors in `Dom`: the four bands, as long as the
sizes satisfy `Adm`. -/
structure Step2 [Zero R] (axes : List Int) (Dom : Tensor R → Prop) (Adm : List Nat → Prop)
    (step : List Bool → List Nat → (List Nat → R) → List Nat → R) (next : List Nat → List Nat)
    (band : Char → List Bool) (dec : Tensor R → Except Err (List (Tensor R))) : Prop where
  char : ∀ t vs, Dom t → dec t = .ok vs → GoodAxes (.seq axes) t.rank 2 ∧
    Adm (sizes (axesOf (.seq axes) t.rank 2) t.shape) ∧
    ∃ f : Char → Tensor R, vs = ['a', 'h', 'v', 'd'].map f ∧ ∀ c ∈ ['a', 'h', 'v', 'd'],
      AlongAxes (axesOf (.seq axes) t.rank 2) (next (sizes (axesOf (.seq axes) t.rank 2) t.shape))
        (step (band c) (sizes (axesOf (.seq axes) t.rank 2) t.shape)) t (f c)
  dom : ∀ t vs, Dom t → dec t = .ok vs → ∀ v ∈ vs, Dom v
  ok : ∀ t, Dom t → GoodAxes (.seq axes) t.rank 2 → Adm (sizes (axesOf (.seq axes) t.rank 2) t.shape) →
    ∃ vs, dec t = .ok vs
  congr : ∀ ns, ns.length = 2 → Adm ns → ∀ c, ∀ X Y : List Nat → R, (∀ js, InB ns js → X js = Y js) →
    ∀ ks, InB (next ns) ks → step (band c) ns X ks = step (band c) ns Y ks
  len : ∀ ns, (next ns).length = ns.length

section
variable [Zero R] {axes : List Int} {Dom : Tensor R → Prop} {Adm : List Nat → Prop}
  {step : List Bool → List Nat → (List Nat → R) → List Nat → R} {next : List Nat → List Nat}
  {band : Char → List Bool} {dec : Tensor R → Except Err (List (Tensor R))}

theorem sizesAfter_length (hlen : ∀ ns, (next ns).length = ns.length) : ∀ (s : Nat) (ns : List Nat),
    (sizesAfter next ns s).length = ns.length
  | 0, _ => rfl
  | s + 1, ns => by rw [sizesAfter, sizesAfter_length hlen s, hlen]

theorem packetPlane_congr (h : Step2 axes Dom Adm step next band dec) : ∀ (k : Key) (ns : List Nat), ns.length = 2 →
    (∀ s, s < k.length → Adm (sizesAfter next ns s)) → ∀ X Y : List Nat → R, (∀ js, InB ns js → X js = Y js) →
    ∀ ks, InB (sizesAfter next ns k.length) ks → packetPlane step next band ns X k ks
      = packetPlane step next band ns Y k ks
  | [], _, _, _, X, Y, hXY, ks, hks => hXY ks hks
  | c :: k, ns, hl, ha, X, Y, hXY, ks, hks => by
    rw [packetPlane, packetPlane]
    refine packetPlane_congr h k (next ns) (by rw [h.len, hl]) (fun s hs => ha (s + 1) (by simpa using hs)) _ _ ?_ ks hks
    exact h.congr ns hl (ha 0 (by simp)) c X Y hXY

theorem axesOf_length {axes : List Int} {r : Nat} (h : GoodAxes (.seq axes) r 2) :
    (axesOf (.seq axes) r 2).length = 2 := by
  have := h.len
  simpa [axesOf] using this

theorem axesOf_nodup {ah : AxisHint} {r n : Nat} (h : GoodAxes ah r n) : (axesOf ah r n).Nodup := h.valid.distinct

theorem axesOf_lt {ah : AxisHint} {r n : Nat} (h : GoodAxes ah r n) : ∀ a ∈ axesOf ah r n, a < r := h.valid.lt

/-- Every packet coefficient is obtained step by step. -/
theorem walk2_textbook (h : Step2 axes Dom Adm step next band dec) : ∀ (k : Key) (x v : Tensor R), Dom x →
    (∀ c ∈ k, c ∈ ['a', 'h', 'v', 'd']) → (k = [] → GoodAxes (.seq axes) x.rank 2) →
    walk dec ['a', 'h', 'v', 'd'] x k = .ok v →
    AlongAxes (axesOf (.seq axes) x.rank 2)
      (sizesAfter next (sizes (axesOf (.seq axes) x.rank 2) x.shape) k.length)
      (fun X => packetPlane step next band (sizes (axesOf (.seq axes) x.rank 2) x.shape) X k) x v ∧
    ∀ s, s < k.length → Adm (sizesAfter next (sizes (axesOf (.seq axes) x.rank 2) x.shape) s)
  | [], x, v, _, _, hg, hw => by
    cases hw
    exact ⟨Spec.AlongAxes.id (axesOf_lt (hg rfl)), fun s hs => absurd hs (by simp)⟩
  | c :: k, x, v, hx, hc, _, hw => by
    rw [walk] at hw
    obtain ⟨vs, hd, hw⟩ := bind_ok_inv hw
    obtain ⟨y, hp, hw⟩ := bind_ok_inv hw
    obtain ⟨hg, hadm, f, rfl, hf⟩ := h.char x vs hx hd
    have hcm := hc c (by simp)
    rw [pickBand_map hcm] at hp
    cases hp
    have hy := hf c hcm
    have hyr := hy.rank
    have hl2 := axesOf_length hg
    have hns : (sizes (axesOf (.seq axes) x.rank 2) x.shape).length = 2 := by simpa [sizes] using hl2
    have hys : sizes (axesOf (.seq axes) x.rank 2) (f c).shape = next (sizes (axesOf (.seq axes) x.rank 2) x.shape) := by
      rw [hy.shape]
      exact sizes_setMany (axesOf_nodup hg) (axesOf_lt hg) (by rw [h.len, hns, hl2])
    obtain ⟨h1, h2⟩ := walk2_textbook h k (f c) v (h.dom x _ hx hd _ (List.mem_map_of_mem hcm))
      (fun c' hc' => hc c' (by simp [hc'])) (fun _ => by rw [hyr]; exact hg) hw
    rw [hyr, hys] at h1 h2
    constructor
    · exact hy.comp (axesOf_nodup hg) (axesOf_lt hg) (by rw [h.len, hns, hl2])
        (by rw [sizesAfter_length h.len, h.len, hns, hl2]) h1
        (packetPlane_congr h k _ (by rw [h.len, hns]) h2)
    · intro s hs
      cases s with
      | zero => exact hadm
      | succ s => exact h2 s (by simpa using hs)

/-- When a packet coefficient can be computed. -/
theorem walk2_ok (h : Step2 axes Dom Adm step next band dec) : ∀ (k : Key) (x : Tensor R), Dom x →
    (∀ c ∈ k, c ∈ ['a', 'h', 'v', 'd']) → GoodAxes (.seq axes) x.rank 2 →
    (∀ s, s < k.length → Adm (sizesAfter next (sizes (axesOf (.seq axes) x.rank 2) x.shape) s)) →
    ∃ v, walk dec ['a', 'h', 'v', 'd'] x k = .ok v
  | [], x, _, _, _, _ => ⟨x, rfl⟩
  | c :: k, x, hx, hc, hg, ha => by
    obtain ⟨vs, hd⟩ := h.ok x hx hg (ha 0 (by simp))
    obtain ⟨-, -, f, rfl, hf⟩ := h.char x vs hx hd
    have hcm := hc c (by simp)
    have hy := hf c hcm
    have hyr := hy.rank
    have hl2 := axesOf_length hg
    have hns : (sizes (axesOf (.seq axes) x.rank 2) x.shape).length = 2 := by simpa [sizes] using hl2
    have hys : sizes (axesOf (.seq axes) x.rank 2) (f c).shape = next (sizes (axesOf (.seq axes) x.rank 2) x.shape) := by
      rw [hy.shape]
      exact sizes_setMany (axesOf_nodup hg) (axesOf_lt hg) (by rw [h.len, hns, hl2])
    obtain ⟨v, hv⟩ := walk2_ok h k (f c) (h.dom x _ hx hd _ (List.mem_map_of_mem hcm))
      (fun c' hc' => hc c' (by simp [hc'])) (by rw [hyr]; exact hg) (by
        intro s hs
        rw [hyr, hys]
        exact ha (s + 1) (by simpa using hs))
    refine ⟨v, ?_⟩
    rw [walk]
    simp only [bind, Except.bind, hd, pickBand_map hcm, hv]

theorem walk2_dom (h : Step2 axes Dom Adm step next band dec) : ∀ (k : Key) {x v : Tensor R}, Dom x →
    walk dec ['a', 'h', 'v', 'd'] x k = .ok v → Dom v
  | [], _, _, hx, hw => by cases hw; exact hx
  | c :: k, x, v, hx, hw => by
    rw [walk] at hw
    obtain ⟨vs, hd, hw⟩ := bind_ok_inv hw
    obtain ⟨y, hp, hw⟩ := bind_ok_inv hw
    refine walk2_dom h k ?_ hw
    unfold pickBand at hp
    split at hp
    · cases hp
      exact h.dom x vs hx hd _ (List.mem_of_getElem? (by assumption))
    · cases hp

/-! ### Sizes and cuts -/

theorem planeSizes_ok {t : Tensor R} (h : GoodAxes (.seq axes) t.rank 2) :
    planeSizes axes t = .ok (sizes (axesOf (.seq axes) t.rank 2) t.shape) := by
  obtain ⟨u, e, -, hs, -⟩ := swapAxes_ok h.valid
  unfold planeSizes
  have hl := axesOf_length h
  have hr : u.shape.length = t.rank := by
    rw [hs, pick_length]; exact (isPerm_axes h.valid.distinct h.valid.lt).len
  simp only [bind, Except.bind, show swapAxes t axes = .ok u from e]
  congr 1
  have hb : u.shape = pick (batchAxes t.rank (axesOf (.seq axes) t.rank 2)) t.shape
      ++ pick (axesOf (.seq axes) t.rank 2) t.shape := by rw [hs]; exact pick_append ..
  have hbl : (pick (batchAxes t.rank (axesOf (.seq axes) t.rank 2)) t.shape).length = u.rank - 2 := by
    have := congrArg List.length hb
    rw [List.length_append, pick_length (l := t.shape) (ds := axesOf (.seq axes) t.rank 2), hl] at this
    show _ = u.shape.length - 2
    omega
  rw [hb, ← hbl, List.drop_left]
  rfl

theorem planeSizes_bad {t : Tensor R} (h : ¬ ValidAxes t.rank axes) : ∃ e, planeSizes axes t = .error e := by
  unfold planeSizes
  rw [swapAxes_err h]
  exact ⟨_, rfl⟩

/-- A cut to the size of the node, if there is at most one sample to cut. -/
theorem cutDim_spec {k n : Nat} {r old : Tensor R} (hk : 1 ≤ k) (hr : k ≤ r.rank) (ho : old.sizeFromEnd k = n)
    (hs : r.sizeFromEnd k = n + n % 2) : ∃ u, cutDim k r old = .ok u ∧ u.md = r.md ∧
      u.shape = r.shape.set (r.rank - k) n ∧ ∀ idx, InB u.shape idx → u.get idx = r.get idx := by
  have hpos : r.rank - k < r.shape.length := by unfold Tensor.rank at *; omega
  unfold cutDim
  rw [ho, hs]
  rcases Nat.mod_two_eq_zero_or_one n with h0 | h1
  · rw [h0, Nat.add_zero, if_pos rfl]
    refine ⟨r, rfl, rfl, ?_, fun _ _ => rfl⟩
    have : r.shape.getD (r.rank - k) 0 = n := by rw [h0] at hs; exact hs
    rw [← this, set_getD_self hpos]
  · rw [h1, if_neg (by omega), if_pos rfl]
    have hsz : r.shape.getD (r.rank - k) 0 = n + 1 := by rw [h1] at hs; exact hs
    have hss : (r.slice (r.rank - k) 0 (n + 1 - 1)).shape = r.shape.set (r.rank - k) n := by
      show r.shape.set _ (min _ _ - 0) = _
      rw [hsz, Nat.add_sub_cancel, Nat.min_eq_left (by omega), Nat.sub_zero]
    refine ⟨_, rfl, rfl, hss, ?_⟩
    intro idx hidx
    have e : (r.slice (r.rank - k) 0 (n + 1 - 1)).get idx
      = r.get (idx.set (r.rank - k) (idx.getD (r.rank - k) 0 + 0)) := ofFn_get_of _ _ hidx
    rw [e, Nat.add_zero, set_getD_self]
    rw [hidx.length_eq, hss, List.length_set]
    exact hpos

/-- The cut only looks at the sizes of the node it replaces. -/
theorem fit2_shape {r old old' : Tensor R} (h : old.shape = old'.shape) :
    fit2 axes r old = fit2 axes r old' := by
  have hr : old'.rank = old.rank := by unfold Tensor.rank; rw [h]
  by_cases hv : ValidAxes old.rank axes
  swap
  · unfold fit2
    rw [swapAxes_err hv, swapAxes_err (t := old') (by rw [hr]; exact hv)]
  obtain ⟨u, e, -, hs, -⟩ := swapAxes_ok hv
  obtain ⟨u', e', -, hs', -⟩ := swapAxes_ok (t := old') (axes := axes) (by rw [hr]; exact hv)
  have hu : u.shape = u'.shape := by rw [hs, hs', hr, h]
  have hc : ∀ k (t : Tensor R), cutDim k t u = cutDim k t u' := by
    intro k t
    unfold cutDim Tensor.sizeFromEnd
    rw [hu]
  unfold fit2
  rw [e, e']
  simp only [bind, Except.bind, hc]

/-- Cutting a reconstruction gives the signal. -/
theorem fit2_inverts {v z : Tensor R} (hg : GoodAxes (.seq axes) v.rank 2)
    (hz : Reconstructs (axesOf (.seq axes) v.rank 2) 1 v z) : fit2 axes z v = .ok v := by
  have hl := axesOf_length hg
  have hva : ValidAxes v.rank axes := hg.valid
  have hp := isPerm_axes hva.distinct hva.lt
  obtain ⟨vs, ev, hvs, hback⟩ := (c09_swap_undo v axes hva).1
  obtain ⟨vs', ev', hvmd, -, hvget⟩ := swapAxes_ok hva
  rw [ev] at ev'
  cases ev'
  have hzr : z.rank = v.rank := by
    unfold Tensor.rank; rw [hz.shape (by omega), setMany_length]
  obtain ⟨zs, ez, hzmd, hzs, hzget⟩ := swapAxes_ok (t := z) (axes := axes) (by rw [hzr]; exact hva)
  rw [hzr] at hzs hzget
  have hnd := hva.distinct
  have hlt := hva.lt
  have hax' : axesOf (.seq axes) v.rank 2 = axes.map (axisOf v.rank) := rfl
  rw [hax'] at hl hz
  generalize axes.map (axisOf v.rank) = ax at *
  obtain ⟨p, q, rfl⟩ := List.length_eq_two.mp hl
  set ax := [p, q] with hax
  set B := batchAxes v.rank ax with hB
  have hBl : B.length + 2 = v.rank := by
    have := hp.len
    rw [List.length_append, hl] at this
    exact this
  have hpq : p < v.rank ∧ q < v.rank := ⟨hlt p (by simp [hax]), hlt q (by simp [hax])⟩
  have hvs' : vs.shape = pick B v.shape ++ [v.shape.getD p 0, v.shape.getD q 0] := by
    rw [hvs, List.map_append]; rfl
  have hzsh : z.shape = setMany v.shape [p, q] ([p, q].map fun a => v.shape.getD a 0 + v.shape.getD a 0 % 2) :=
    hz.shape (by omega)
  have hzpq : pick [p, q] z.shape = [p, q].map fun a => v.shape.getD a 0 + v.shape.getD a 0 % 2 := by
    rw [hzsh]
    exact pick_setMany_self _ _ _ hnd hlt (by simp)
  have hzB : pick B z.shape = pick B v.shape := by
    rw [hzsh]
    exact pick_setMany_disjoint fun d hd => (by
      have := (List.mem_filter.mp hd).2
      simpa [hax] using this)
  have hzs' : zs.shape = pick B v.shape ++ [v.shape.getD p 0 + v.shape.getD p 0 % 2,
      v.shape.getD q 0 + v.shape.getD q 0 % 2] := by
    rw [hzs, pick_append, hzpq, hzB]; rfl
  have hbl : (pick B v.shape).length = B.length := pick_length ..
  have hzsr : zs.rank = B.length + 2 := by
    unfold Tensor.rank; rw [hzs']; simp [hbl]
  obtain ⟨u1, e1, u1md, u1s, u1g⟩ := cutDim_spec (k := 1) (n := v.shape.getD q 0) (r := zs) (old := vs) le_rfl
    (by omega) (by
      unfold Tensor.sizeFromEnd
      rw [hvs']
      simp [hbl, List.getD_eq_getElem?_getD, List.getElem?_append_right]) (by
      unfold Tensor.sizeFromEnd
      rw [hzs']
      simp [hbl, List.getD_eq_getElem?_getD, List.getElem?_append_right])
  have u1s' : u1.shape = pick B v.shape ++ [v.shape.getD p 0 + v.shape.getD p 0 % 2, v.shape.getD q 0] := by
    rw [u1s, hzsr, hzs', List.set_append_right _ _ (by rw [hbl]; omega), hbl]
    simp
  have hu1r : u1.rank = B.length + 2 := by
    unfold Tensor.rank; rw [u1s']; simp [hbl]
  obtain ⟨u2, e2, u2md, u2s, u2g⟩ := cutDim_spec (k := 2) (n := v.shape.getD p 0) (r := u1) (old := vs) (by omega)
    (by omega) (by
      unfold Tensor.sizeFromEnd
      rw [hvs']
      simp [hbl, List.getD_eq_getElem?_getD, List.getElem?_append_right]) (by
      unfold Tensor.sizeFromEnd
      rw [u1s']
      simp [hbl, List.getD_eq_getElem?_getD, List.getElem?_append_right])
  have u2s' : u2.shape = vs.shape := by
    rw [u2s, hu1r, u1s', hvs', List.set_append_right _ _ (by rw [hbl]; omega), hbl]
    simp
  have hle : ∀ i, InB u2.shape i → InB u1.shape i := by
    intro i hi
    rw [u2s', hvs', inB_iff] at hi
    rw [u1s', inB_iff]
    refine ⟨by rw [hi.1]; simp, fun d hd => ?_⟩
    have h1 := hi.2 d (by simpa using hd)
    refine lt_of_lt_of_le h1 ?_
    by_cases hdB : d < (pick B v.shape).length
    · simp [List.getD_eq_getElem?_getD, List.getElem?_append_left hdB]
    · have hge : (pick B v.shape).length ≤ d := Nat.le_of_not_lt hdB
      have e : ∀ l : List Nat, (pick B v.shape ++ l).getD d 0 = l.getD (d - (pick B v.shape).length) 0 := by
        intro l
        rw [List.getD_eq_getElem?_getD, List.getElem?_append_right hge, List.getD_eq_getElem?_getD]
      rw [e, e]
      rcases hj : d - (pick B v.shape).length with _ | _ | j <;> simp
  have hu : u2 = vs := by
    refine Tensor.ext' (by rw [u2md, u1md, hzmd, hz.md, hvmd]) u2s' ?_
    intro i hi
    rw [u2g i hi, u1g i (hle i hi)]
    have hil : i.length = v.rank := by
      rw [hi.length_eq, u2s', hvs']; simp [hbl, hBl]
    have hpi := hp.pick_pick_inv (l := i) hil
    have hjl : (pick (invPerm (B ++ [p, q])) i).length = v.rank := by rw [pick_length]; exact hp.inv.len
    have hin : InB v.shape (pick (invPerm (B ++ [p, q])) i) := by
      rw [u2s', hvs, ← hpi] at hi
      exact (hp.inB_pick rfl hjl).mp hi
    have k1 := hzget _ hjl
    have k2 := hvget _ hjl
    rw [hpi] at k1 k2
    rw [k1, k2, hz.get _ hin]
  unfold fit2
  simp only [bind, Except.bind, ez, ev, e1, e2, hu]
  exact hback

end

end Verif
