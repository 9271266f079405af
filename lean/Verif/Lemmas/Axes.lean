import Verif.Lemmas.Index
import Verif.Model.Util
import Verif.Spec.Axes

/-! Axis swapping (`_swap_axes`, `_undo_swap_axes`). -/

namespace Verif
open Tensor Spec
variable {R : Type}

theorem axisOf_lt {r : Nat} {a : Int} (h : ValidAxis r a) : axisOf r a < r := by
  unfold axisOf; obtain ⟨h1, h2⟩ := h; split_ifs <;> omega

theorem axisOf_cast {r : Nat} {a : Int} (h : ValidAxis r a) :
    ((axisOf r a : Nat) : Int) = if a < 0 then a + r else a := by
  unfold axisOf; obtain ⟨h1, h2⟩ := h; split_ifs <;> omega

theorem isPerm_axes {r : Nat} {ax : List Nat} (hn : ax.Nodup) (hlt : ∀ a ∈ ax, a < r) :
    IsPerm (batchAxes r ax ++ ax) r := by
  have hnd : (batchAxes r ax ++ ax).Nodup := by
    rw [List.nodup_append]
    refine ⟨List.nodup_range.filter _, hn, ?_⟩
    intro a ha b hb hab
    simp only [batchAxes, List.mem_filter, decide_eq_true_eq] at ha
    exact ha.2 (hab ▸ hb)
  have hp : (batchAxes r ax ++ ax).Perm (List.range r) := by
    rw [List.perm_ext_iff_of_nodup hnd List.nodup_range]
    intro d
    simp only [batchAxes, List.mem_append, List.mem_filter, List.mem_range, decide_eq_true_eq]
    constructor
    · rintro (h | h)
      · exact h.1
      · exact hlt _ h
    · intro h
      by_cases hd : d ∈ ax
      · exact Or.inr hd
      · exact Or.inl ⟨h, hd⟩
  exact ⟨hnd, by rw [hp.length_eq, List.length_range], fun d hd => List.mem_range.mp (hp.mem_iff.mp hd)⟩

theorem Spec.ValidAxes.lt {r : Nat} {axes : List Int} (h : ValidAxes r axes) :
    ∀ a ∈ axes.map (axisOf r), a < r := by
  intro a ha
  obtain ⟨b, hb, rfl⟩ := List.mem_map.mp ha
  exact axisOf_lt (h.valid b hb)

theorem Spec.ValidAxes.isPerm {r : Nat} {axes : List Int} (h : ValidAxes r axes) :
    IsPerm (batchAxes r (axes.map (axisOf r)) ++ axes.map (axisOf r)) r :=
  isPerm_axes h.distinct h.lt

theorem Spec.ValidAxes.nodup {r : Nat} {axes : List Int} (h : ValidAxes r axes) : axes.Nodup :=
  List.Nodup.of_map _ h.distinct

theorem batchAxes_length {r : Nat} {ax : List Nat} (hn : ax.Nodup) (hlt : ∀ a ∈ ax, a < r) :
    (batchAxes r ax).length + ax.length = r := by
  have := (isPerm_axes hn hlt).len
  simpa using this

theorem Spec.ValidAxes.length_le {r : Nat} {axes : List Int} (h : ValidAxes r axes) :
    axes.length ≤ r := by
  have := batchAxes_length h.distinct h.lt
  simp at this; omega

theorem checkAxes_ok {axes : List Int} (h : axes.Nodup) : checkAxesArgument axes = .ok () :=
  if_pos h

theorem getTransposeOrder_eq {r : Nat} {axes : List Int} (h : ValidAxes r axes) :
    getTransposeOrder axes r =
      ((batchAxes r (axes.map (axisOf r))).map fun (k : Nat) => (k : Int),
       (axes.map (axisOf r)).map fun (k : Nat) => (k : Int)) := by
  have e : (axes.map fun (a : Int) => if a < 0 then a + (r : Int) else a)
      = (axes.map (axisOf r)).map fun (k : Nat) => (k : Int) := by
    rw [List.map_map]
    apply List.map_congr_left
    intro a ha
    exact (axisOf_cast (h.valid a ha)).symm
  unfold getTransposeOrder
  simp only [e]
  congr 1
  unfold batchAxes
  rw [List.filter_map]
  congr 1
  apply List.filter_congr
  intro d _
  simp

theorem mapM_normAxis {r : Nat} : ∀ {ds : List Nat}, (∀ d ∈ ds, d < r) →
    (ds.map fun (k : Nat) => (k : Int)).mapM (normAxis r) = Except.ok ds
  | [], _ => rfl
  | d :: ds, h => by
    have hd : d < r := h d (by simp)
    have ih := mapM_normAxis (r := r) (ds := ds) fun e he => h e (by simp [he])
    rw [List.map_cons, List.mapM_cons, ih]
    have : normAxis r (d : Int) = Except.ok d := by
      unfold normAxis
      rw [if_pos (by omega)]
      simp
    rw [this]; rfl

theorem permute_ok [Zero R] {t : Tensor R} {ds : List Nat} (h : IsPerm ds t.rank) :
    ∃ u, t.permute (ds.map fun (k : Nat) => (k : Int)) = .ok u ∧ u.md = t.md ∧
      u.shape = pick ds t.shape ∧
      ∀ idx, idx.length = t.rank → u.get (pick ds idx) = t.get idx := by
  refine ⟨ofFn t.md (pick ds t.shape) fun i =>
      t.get ((List.range t.rank).map fun d => i.getD (ds.idxOf d) 0), ?_, rfl, rfl, ?_⟩
  · unfold Tensor.permute
    rw [if_neg (by simp [h.len]), mapM_normAxis h.lt]
    show (if ds.Nodup then _ else _) = _
    rw [if_pos h.nodup]; rfl
  intro idx hidx
  have hr : t.shape.length = t.rank := rfl
  have e : ((List.range t.rank).map fun d => (pick ds idx).getD (ds.idxOf d) 0) = idx := by
    conv_rhs => rw [← pick_range idx, hidx]
    apply List.map_congr_left
    intro d hd
    exact h.getD_idxOf (List.mem_range.mp hd) idx
  by_cases hb : InB t.shape idx
  · rw [ofFn_get_of _ _ ((h.inB_pick hr hidx).mpr hb), e]
  · rw [t.supp _ hb, ofFn_get, if_neg]
    rwa [h.inB_pick hr hidx]

theorem argsort_eq {ds : List Nat} {r : Nat} (h : IsPerm ds r) :
    argsort (ds.map fun (k : Nat) => (k : Int)) = invPerm ds := by
  have hkey : ∀ i, i < r → (ds.map fun (k : Nat) => (k : Int)).getD i 0 = ((ds.getD i 0 : Nat) : Int) := by
    intro i hi
    have : i < ds.length := by rw [h.len]; exact hi
    simp [List.getD_eq_getElem?_getD, this]
  unfold argsort
  set l := ds.map fun (k : Nat) => (k : Int) with hl
  have hlen : l.length = r := by simp [hl, h.len]
  rw [hlen]
  have htot : ∀ a b : Nat, (decide (l.getD a 0 ≤ l.getD b 0) || decide (l.getD b 0 ≤ l.getD a 0)) = true := by
    intro a b
    rcases le_total (l.getD a 0) (l.getD b 0) with h1 | h1 <;> simp [-List.getD_eq_getElem?_getD, h1]
  have htr : ∀ a b c : Nat, decide (l.getD a 0 ≤ l.getD b 0) = true →
      decide (l.getD b 0 ≤ l.getD c 0) = true → decide (l.getD a 0 ≤ l.getD c 0) = true := by
    intro a b c h1 h2
    simp only [decide_eq_true_eq] at *
    exact le_trans h1 h2
  have hs := List.pairwise_mergeSort (le := fun i j => decide (l.getD i 0 ≤ l.getD j 0)) htr htot (List.range r)
  have hp := List.mergeSort_perm (List.range r) (fun i j => decide (l.getD i 0 ≤ l.getD j 0))
  have hp2 : (invPerm ds).Perm (List.range r) := h.inv.perm
  -- both are sorted by the key
  have hs2 : (invPerm ds).Pairwise fun i j => decide (l.getD i 0 ≤ l.getD j 0) = true := by
    rw [List.pairwise_iff_getElem]
    intro i j hi hj hij
    have hi' : i < r := by rw [h.inv.len] at hi; exact hi
    have hj' : j < r := by rw [h.inv.len] at hj; exact hj
    have g : ∀ k (hk : k < (invPerm ds).length) (hk' : k < r), l.getD ((invPerm ds)[k]) 0 = (k : Int) := by
      intro k hk hk'
      have hlt := List.idxOf_lt_length_of_mem (h.mem.mpr hk')
      have e1 : (invPerm ds)[k] = ds.idxOf k := by simp [invPerm]
      rw [e1, hkey _ (by rw [← h.len]; exact hlt), List.getD_eq_getElem _ _ hlt, List.getElem_idxOf]
    rw [g i hi hi', g j hj hj']
    simp; omega
  refine List.Perm.eq_of_pairwise ?_ hs hs2 (hp.trans hp2.symm)
  intro a b ha hb h1 h2
  have ha' : a < r := List.mem_range.mp (hp.mem_iff.mp ha)
  have hb' : b < r := List.mem_range.mp (hp2.mem_iff.mp hb)
  simp only [decide_eq_true_eq] at h1 h2
  have e := le_antisymm h1 h2
  rw [hkey a ha', hkey b hb'] at e
  have e' : ds.getD a 0 = ds.getD b 0 := by exact_mod_cast e
  rw [List.getD_eq_getElem _ _ (by rw [h.len]; exact ha'),
    List.getD_eq_getElem _ _ (by rw [h.len]; exact hb')] at e'
  exact (h.nodup.getElem_inj_iff).mp e'

theorem swapAxes_ok [Zero R] {t : Tensor R} {axes : List Int} (h : ValidAxes t.rank axes) :
    ∃ u, swapAxes t axes = .ok u ∧ u.md = t.md ∧
      u.shape = pick (batchAxes t.rank (axes.map (axisOf t.rank)) ++ axes.map (axisOf t.rank)) t.shape ∧
      ∀ idx, idx.length = t.rank →
        u.get (pick (batchAxes t.rank (axes.map (axisOf t.rank)) ++ axes.map (axisOf t.rank)) idx)
          = t.get idx := by
  unfold swapAxes
  rw [checkAxes_ok h.nodup, getTransposeOrder_eq h]
  obtain ⟨u, h1, h2, h3, h4⟩ := permute_ok (t := t) h.isPerm
  refine ⟨u, ?_, h2, h3, h4⟩
  rw [List.map_append] at h1
  exact h1

theorem undoSwapAxes_ok [Zero R] {t : Tensor R} {axes : List Int} (h : ValidAxes t.rank axes) :
    ∃ u, undoSwapAxes t axes = .ok u ∧ u.md = t.md ∧ u.shape.length = t.rank ∧
      pick (batchAxes t.rank (axes.map (axisOf t.rank)) ++ axes.map (axisOf t.rank)) u.shape
        = t.shape ∧
      ∀ idx, idx.length = t.rank →
        u.get idx =
          t.get (pick (batchAxes t.rank (axes.map (axisOf t.rank)) ++ axes.map (axisOf t.rank)) idx) := by
  unfold undoSwapAxes
  rw [checkAxes_ok h.nodup, getTransposeOrder_eq h]
  set ds := batchAxes t.rank (axes.map (axisOf t.rank)) ++ axes.map (axisOf t.rank) with hds
  have hp : IsPerm ds t.rank := h.isPerm
  obtain ⟨u, h1, h2, h3, h4⟩ := permute_ok (t := t) hp.inv
  refine ⟨u, ?_, h2, ?_, ?_, ?_⟩
  · rw [← argsort_eq hp, hds, List.map_append] at h1
    exact h1
  · rw [h3, pick_length, hp.inv.len]
  · rw [h3, hp.pick_pick_inv rfl]
  · intro idx hidx
    have := h4 (pick ds idx) (by rw [pick_length, hp.len])
    rwa [hp.pick_inv hidx] at this

end Verif
