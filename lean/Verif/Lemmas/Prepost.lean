import Verif.Lemmas.Axes
import Verif.Lemmas.Tree

/-! Pre- and postprocessing of tensor dimensions. -/

namespace Verif
open Tensor Spec
variable {R : Type} [Zero R]

/-- `y` is `x` with its batch axes folded into one leading axis and the axes `ax` moved last. -/
structure Folded (ax : List Nat) (x y : Tensor R) : Prop where
  md : y.md = x.md
  shape : y.shape = prodL (pick (batchAxes x.rank ax) x.shape) :: pick ax x.shape
  get : ∀ idx, InB x.shape idx →
    y.get (ravel (pick (batchAxes x.rank ax) x.shape) (pick (batchAxes x.rank ax) idx) :: pick ax idx)
      = x.get idx

/-- `u` is `x` with the axes `ax` moved last. -/
structure Swapped (ax : List Nat) (x u : Tensor R) : Prop where
  md : u.md = x.md
  shape : u.shape = pick (batchAxes x.rank ax) x.shape ++ pick ax x.shape
  get : ∀ idx, idx.length = x.rank →
    u.get (pick (batchAxes x.rank ax) idx ++ pick ax idx) = x.get idx

theorem ensureAxes_ok {h : AxisHint} {r n : Nat} (hg : GoodAxes h r n) :
    ensureAxes h n = .ok (resolve h n) := by
  obtain ⟨hp, hl, hv⟩ := hg
  cases h with
  | none => simp only [ensureAxes, getDefaultAxes, resolve]; rw [if_neg (by omega)]
  | int a =>
    simp only [resolve, List.length_singleton] at hl
    simp [ensureAxes, resolve, ← hl]
  | seq as =>
    simp only [resolve] at hl hv
    simp only [ensureAxes, resolve]
    rw [if_neg (by simp [hl]), checkAxes_ok hv.nodup]
    rfl

theorem getDefaultAxes_ok {n : Nat} (h : 1 ≤ n) :
    getDefaultAxes n = .ok ((List.range n).map fun (k : Nat) => (k : Int) - (n : Int)) := by
  simp only [getDefaultAxes]; rw [if_neg (by omega)]

/-- For the default axes nothing moves. -/
theorem default_perm {r n : Nat} (h : n ≤ r) :
    batchAxes r (((List.range n).map fun (k : Nat) => (k : Int) - (n : Int)).map (axisOf r))
      ++ ((List.range n).map fun (k : Nat) => (k : Int) - (n : Int)).map (axisOf r) = List.range r := by
  have e : ((List.range n).map fun (k : Nat) => (k : Int) - (n : Int)).map (axisOf r)
      = (List.range n).map fun k => (r - n) + k := by
    rw [List.map_map]
    apply List.map_congr_left
    intro k hk
    rw [List.mem_range] at hk
    simp only [Function.comp, axisOf]
    rw [if_pos (by omega)]
    omega
  have hr : List.range r = List.range (r - n) ++ (List.range n).map fun k => (r - n) + k := by
    conv_lhs => rw [show r = (r - n) + n by omega]
    exact List.range_add
  rw [e]
  conv_rhs => rw [hr]
  congr 1
  unfold batchAxes
  rw [hr, List.filter_append]
  have h1 : (List.range (r - n)).filter
      (fun d => decide (d ∉ (List.range n).map fun k => (r - n) + k)) = List.range (r - n) := by
    rw [List.filter_eq_self]
    intro d hd
    rw [List.mem_range] at hd
    simp only [decide_eq_true_eq, List.mem_map, List.mem_range, not_exists, not_and]
    intro k _; omega
  have h2 : ((List.range n).map fun k => (r - n) + k).filter
      (fun d => decide (d ∉ (List.range n).map fun k => (r - n) + k)) = [] := by
    rw [List.filter_eq_nil_iff]
    intro d hd
    simp [hd]
  rw [h1, h2, List.append_nil]

theorem Swapped.of_ok {h : AxisHint} {n : Nat} {x : Tensor R} (hg : GoodAxes h x.rank n) :
    ∃ u, swapAxes x (resolve h n) = .ok u ∧ Swapped (axesOf h x.rank n) x u := by
  obtain ⟨u, h1, h2, h3, h4⟩ := swapAxes_ok hg.valid
  refine ⟨u, h1, h2, ?_, ?_⟩
  · rw [h3, pick_append]; rfl
  · intro idx hidx
    have := h4 idx hidx
    rwa [pick_append] at this

theorem Swapped.default {h : AxisHint} {n : Nat} {x : Tensor R} (hg : GoodAxes h x.rank n)
    (hd : resolve h n = (List.range n).map fun (k : Nat) => (k : Int) - (n : Int)) :
    Swapped (axesOf h x.rank n) x x := by
  have hle : n ≤ x.rank := by have := hg.valid.length_le; rw [hg.len] at this; exact this
  have e : batchAxes x.rank (axesOf h x.rank n) ++ axesOf h x.rank n = List.range x.rank := by
    unfold axesOf; rw [hd]; exact default_perm hle
  refine ⟨rfl, ?_, ?_⟩
  · rw [← pick_append, e]; exact (pick_range _).symm
  · intro idx hidx
    rw [← pick_append, e, ← hidx, pick_range]

theorem Spec.GoodAxes.nodup {h : AxisHint} {r n : Nat} (hg : GoodAxes h r n) : (axesOf h r n).Nodup :=
  hg.valid.distinct

theorem Spec.GoodAxes.lt {h : AxisHint} {r n : Nat} (hg : GoodAxes h r n) :
    ∀ a ∈ axesOf h r n, a < r := hg.valid.lt

theorem Spec.GoodAxes.axes_len {h : AxisHint} {r n : Nat} (hg : GoodAxes h r n) :
    (axesOf h r n).length = n := by simp [axesOf, hg.len]

theorem Spec.GoodAxes.batch_len {h : AxisHint} {r n : Nat} (hg : GoodAxes h r n) :
    (batchAxes r (axesOf h r n)).length + n = r := by
  have := batchAxes_length hg.nodup hg.lt
  rwa [hg.axes_len] at this

theorem inB_pick_of {r : Nat} {s i ds : List Nat} (hs : s.length = r) (hi : InB s i)
    (hlt : ∀ d ∈ ds, d < r) : InB (pick ds s) (pick ds i) := by
  rw [inB_iff]
  refine ⟨by simp, fun d hd => ?_⟩
  rw [pick_length] at hd
  rw [pick_getD _ _ hd, pick_getD _ _ hd]
  apply hi.getD_lt
  rw [hs]
  apply hlt
  rw [List.getD_eq_getElem _ _ hd]
  exact List.getElem_mem _

theorem batchAxes_lt {r : Nat} {ax : List Nat} : ∀ d ∈ batchAxes r ax, d < r := by
  intro d hd
  simp only [batchAxes, List.mem_filter, List.mem_range] at hd
  exact hd.1

/-- The three folding cases of `_preprocess_coeffs`. -/
theorem Folded.of_swapped {h : AxisHint} {n : Nat} {x u : Tensor R} (hg : GoodAxes h x.rank n)
    (hs : Swapped (axesOf h x.rank n) x u) :
    (x.rank = n → Folded (axesOf h x.rank n) x u.unsqueeze0) ∧
    (x.rank = n + 1 → Folded (axesOf h x.rank n) x u) ∧
    (∃ v, foldAxes u n = .ok v ∧ Folded (axesOf h x.rank n) x v) := by
  have hbl := hg.batch_len
  have hal := hg.axes_len
  set ax := axesOf h x.rank n with hax
  set ba := batchAxes x.rank ax with hba
  have hus : u.shape.length = x.rank := by rw [hs.shape, ← hba]; simp only [List.length_append, pick_length]; omega
  refine ⟨?_, ?_, ?_⟩
  · intro hr
    have hbn : ba = [] := List.length_eq_zero_iff.mp (by omega)
    refine ⟨?_, ?_, ?_⟩
    · show (ofFn _ _ _).md = _; rw [ofFn_md, hs.md]
    · show 1 :: u.shape = _
      rw [hs.shape, ← hba, hbn]; rfl
    · intro idx hidx
      rw [← hba, hbn]
      have h1 := hs.get idx hidx.length_eq
      rw [← hba, hbn] at h1
      show (ofFn _ _ _).get (0 :: pick ax idx) = _
      rw [ofFn_get_of]
      · exact h1
      · refine ⟨by omega, ?_⟩
        rw [hs.shape, ← hba, hbn]
        exact inB_pick_of rfl hidx hg.lt
  · intro hr
    obtain ⟨b, hb⟩ : ∃ b, ba = [b] := List.length_eq_one_iff.mp (by omega)
    refine ⟨hs.md, ?_, ?_⟩
    · rw [hs.shape, ← hba, hb]; simp [pick]
    · intro idx hidx
      have h1 := hs.get idx hidx.length_eq
      rw [← hba, hb] at h1 ⊢
      simpa [pick, ravel] using h1
  · have hk : u.shape.length - n = ba.length := by omega
    have ht : u.shape.take (u.shape.length - n) = pick ba x.shape := by
      rw [hk, hs.shape, ← hba]
      exact List.take_left' (by simp)
    have hd : u.shape.drop (u.shape.length - n) = pick ax x.shape := by
      rw [hk, hs.shape, ← hba]
      exact List.drop_left' (by simp)
    unfold foldAxes
    simp only [ht, hd]
    obtain ⟨v, h1, h2, h3, h4⟩ := reshape_ok (t := u)
      (sh := prodL (pick ba x.shape) :: pick ax x.shape)
      (by rw [hs.shape, prodL_append]; rfl)
    refine ⟨v, h1, h2.trans hs.md, h3, ?_⟩
    intro idx hidx
    rw [← hs.get idx hidx.length_eq]
    have hb1 : InB (pick ba x.shape) (pick ba idx) := inB_pick_of rfl hidx batchAxes_lt
    have hb2 : InB (pick ax x.shape) (pick ax idx) := inB_pick_of rfl hidx hg.lt
    apply h4
    · rw [hs.shape]; exact hb1.append hb2
    · exact ⟨ravel_lt hb1, hb2⟩
    · rw [hs.shape, ravel_append hb1.length_eq]; rfl

/-- `_preprocess_coeffs` on a well-formed container of rank-`r` tensors. -/
theorem preprocessCoeffs_ok {h : AxisHint} {r n : Nat} (hg : GoodAxes h r n) {c : Coeffs R}
    (hc : c.WF fun t => t.rank = r) {t₀ : Tensor R} (h0 : headTensor c = .ok t₀)
    (hdt : isDtypeSupported t₀.md.dtype = true) :
    ∃ c', preprocessCoeffs c n h false
        = .ok (c', pick (batchAxes r (axesOf h r n) ++ axesOf h r n) t₀.shape) ∧
      CoeffRel (fun x y => x.rank = r ∧ Folded (axesOf h r n) x y) c c' := by
  have hnp := hg.pos
  obtain ⟨t₀', h0', hr0⟩ := hc.headTensor
  obtain rfl : t₀' = t₀ := by rw [h0] at h0'; exact (Except.ok.inj h0').symm
  have hbl := hg.batch_len
  have hperm : IsPerm (batchAxes r (axesOf h r n) ++ axesOf h r n) r := isPerm_axes hg.nodup hg.lt
  -- the swap
  have hswap : ∃ c₁, preSwap c (resolve h n) ((List.range n).map (fun (k : Nat) => (k : Int) - (n : Int)))
        = Except.ok c₁ ∧
      CoeffRel (fun x y => x.rank = r ∧ Swapped (axesOf h r n) x y) c c₁ := by
    unfold preSwap
    by_cases hd : resolve h n = (List.range n).map (fun (k : Nat) => (k : Int) - (n : Int))
    · refine ⟨c, by rw [if_neg (by simpa using hd)], rfl, ?_⟩
      rw [List.forall₂_same]
      intro e he
      have := hc.all e he
      cases e with
      | tensor t => exact .tensor ⟨this, by have := this ▸ Swapped.default (x := t) (this.symm ▸ hg) hd; exact this⟩
      | tuple a b c =>
        obtain ⟨q1, q2, q3⟩ := this
        exact .tuple ⟨q1, by have := q1 ▸ Swapped.default (x := a) (q1.symm ▸ hg) hd; exact this⟩
          ⟨q2, by have := q2 ▸ Swapped.default (x := b) (q2.symm ▸ hg) hd; exact this⟩
          ⟨q3, by have := q3 ▸ Swapped.default (x := c) (q3.symm ▸ hg) hd; exact this⟩
      | dict kv =>
        refine .dict ?_
        rw [List.forall₂_same]
        intro e he
        have q := this e he
        exact ⟨rfl, q, by have := q ▸ Swapped.default (x := e.2) (q.symm ▸ hg) hd; exact this⟩
      | other => exact this.elim
    · rw [if_pos hd]
      apply coeffTreeMap_ok
      apply hc.imp
      rintro t rfl
      obtain ⟨u, h1, h2⟩ := Swapped.of_ok hg
      exact ⟨u, h1, rfl, h2⟩
  obtain ⟨c₁, e₁, r₁⟩ := hswap
  obtain ⟨t₁, h1, hr1, hs1⟩ := r₁.head h0
  have hshape : t₁.shape = pick (batchAxes r (axesOf h r n) ++ axesOf h r n) t₀'.shape := by
    rw [pick_append, hs1.shape, hr0]
  have hlen : t₁.shape.length = r := by rw [hshape, pick_length, hperm.len]
  -- the fold
  have hfold : ∃ c₂, preFold c₁ t₁.shape n = Except.ok c₂ ∧
      CoeffRel (fun x y => x.rank = r ∧ Folded (axesOf h r n) x y) c c₂ := by
    unfold preFold
    rw [hlen, if_neg (by omega)]
    have hw1 : c₁.WF fun u => ∃ x, x.rank = r ∧ Swapped (axesOf h r n) x u :=
      r₁.wf (hc.imp fun _ _ => trivial) fun t u h => ⟨t, h⟩
    by_cases c1 : r = n
    · rw [if_pos c1]
      obtain ⟨c₂, e₂, r₂⟩ := coeffTreeMap_ok (c := c₁) (f := fun t => .ok t.unsqueeze0)
        (P := fun u v => v = u.unsqueeze0) (hw1.imp fun t _ => ⟨_, rfl, rfl⟩)
      refine ⟨c₂, e₂, r₁.comp ?_ r₂⟩
      rintro x u v ⟨hx, hsw⟩ rfl
      refine ⟨hx, ?_⟩
      subst hx
      exact (Folded.of_swapped hg hsw).1 c1
    · rw [if_neg c1]
      by_cases c2 : n + 1 < r
      · rw [if_pos c2]
        obtain ⟨c₂, e₂, r₂⟩ := coeffTreeMap_ok (c := c₁) (f := fun t => foldAxes t n)
          (P := fun u v => foldAxes u n = .ok v) (hw1.imp fun t ⟨x, hx, hsw⟩ => by
            subst hx
            obtain ⟨v, hv, _⟩ := (Folded.of_swapped hg hsw).2.2
            exact ⟨v, hv, hv⟩)
        refine ⟨c₂, e₂, r₁.comp ?_ r₂⟩
        rintro x u v ⟨hx, hsw⟩ hv
        refine ⟨hx, ?_⟩
        subst hx
        obtain ⟨v', hv', hf⟩ := (Folded.of_swapped hg hsw).2.2
        rw [hv] at hv'
        cases hv'
        exact hf
      · rw [if_neg c2]
        refine ⟨c₁, rfl, r₁.kind, ?_⟩
        refine r₁.items.imp ?_
        intro e e' he
        have key : ∀ x u : Tensor R, x.rank = r ∧ Swapped (axesOf h r n) x u →
            x.rank = r ∧ Folded (axesOf h r n) x u := by
          rintro x u ⟨hx, hsw⟩
          refine ⟨hx, ?_⟩
          subst hx
          exact (Folded.of_swapped hg hsw).2.1 (by omega)
        cases he with
        | tensor h => exact .tensor (key _ _ h)
        | tuple a b c => exact .tuple (key _ _ a) (key _ _ b) (key _ _ c)
        | dict h => exact .dict (h.imp fun _ _ h => ⟨h.1, key _ _ h.2⟩)
  obtain ⟨c₂, e₂, r₂⟩ := hfold
  refine ⟨c₂, ?_, r₂⟩
  unfold preprocessCoeffs
  rw [hshape] at e₂
  rw [if_neg (by omega), h0]
  simp only [hdt, bind, Except.bind, ensureAxes_ok hg, getDefaultAxes_ok hnp, e₁, h1, hshape, e₂, preChannel,
    Bool.true_eq_false, if_false, Bool.false_eq_true]

end Verif
