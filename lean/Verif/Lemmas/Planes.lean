import Verif.Lemmas.Top1
import Verif.Lemmas.ConvNd

/-! From folded tensors back to operations along several axes of the user's tensor. -/

namespace Verif
open Tensor Spec
variable {R : Type}

theorem setMany_length : ∀ (l ax ks : List Nat), (setMany l ax ks).length = l.length
  | _, [], [] => rfl
  | _, [], _ :: _ => rfl
  | _, _ :: _, [] => rfl
  | l, a :: ax, k :: ks => by
    show (setMany (l.set a k) ax ks).length = _
    rw [setMany_length, List.length_set]

theorem setMany_getD_not_mem : ∀ (l ax ks : List Nat) {d : Nat}, d ∉ ax →
    (setMany l ax ks).getD d 0 = l.getD d 0
  | _, [], [], _, _ => rfl
  | _, [], _ :: _, _, _ => rfl
  | _, _ :: _, [], _, _ => rfl
  | l, a :: ax, k :: ks, d, h => by
    show (setMany (l.set a k) ax ks).getD d 0 = _
    rw [setMany_getD_not_mem _ _ _ (by simp at h; exact h.2), getD_set_ne (by simp at h; omega)]

theorem pick_setMany_self : ∀ (l ax ks : List Nat), ax.Nodup → (∀ a ∈ ax, a < l.length) →
    ks.length = ax.length → pick ax (setMany l ax ks) = ks
  | _, [], [], _, _, _ => rfl
  | l, a :: ax, k :: ks, hn, hlt, hl => by
    rw [List.nodup_cons] at hn
    show (setMany (l.set a k) ax ks).getD a 0 :: pick ax (setMany (l.set a k) ax ks) = _
    rw [pick_setMany_self _ ax ks hn.2 (by intro b hb; rw [List.length_set]; exact hlt b (by simp [hb]))
        (by simpa using hl),
      setMany_getD_not_mem _ _ _ hn.1, getD_set_self (hlt a (by simp))]

theorem pick_setMany_disjoint {l ds ax ks : List Nat} (h : ∀ d ∈ ds, d ∉ ax) :
    pick ds (setMany l ax ks) = pick ds l := by
  unfold pick
  apply List.map_congr_left
  intro d hd
  exact setMany_getD_not_mem _ _ _ (h d hd)

theorem batch_disjoint {r : Nat} {ax : List Nat} : ∀ d ∈ batchAxes r ax, d ∉ ax := by
  intro d hd h
  exact not_mem_batchAxes h hd

theorem setMany_pick_self : ∀ (l ax : List Nat), (∀ a ∈ ax, a < l.length) → setMany l ax (pick ax l) = l
  | _, [], _ => rfl
  | l, a :: ax, h => by
    show setMany (l.set a (l.getD a 0)) ax (pick ax l) = l
    rw [set_getD_self (h a (by simp))]
    exact setMany_pick_self l ax fun b hb => h b (by simp [hb])

section
variable [Zero R]

/-- The batch position of an index. -/
def batchPosN (ax : List Nat) (x : Tensor R) (idx : List Nat) : Nat :=
  ravel (pick (batchAxes x.rank ax) x.shape) (pick (batchAxes x.rank ax) idx)

theorem Folded.plane {ax : List Nat} {x y : Tensor R} (hn : ax.Nodup) (hlt : ∀ a ∈ ax, a < x.rank)
    (hf : Folded ax x y) {idx : List Nat} (hil : idx.length = x.rank)
    (hin : InB (pick (batchAxes x.rank ax) x.shape) (pick (batchAxes x.rank ax) idx)) :
    Spec.plane x ax idx = fun js => y.get (batchPosN ax x idx :: js) := by
  have hp : IsPerm (batchAxes x.rank ax ++ ax) x.rank := isPerm_axes hn hlt
  funext js
  unfold Spec.plane
  split_ifs with hl
  · have hpk : pick (batchAxes x.rank ax) (setMany idx ax js) = pick (batchAxes x.rank ax) idx :=
      pick_setMany_disjoint batch_disjoint
    have hpa : pick ax (setMany idx ax js) = js :=
      pick_setMany_self _ _ _ hn (by rw [hil]; exact hlt) hl
    by_cases hb : InB x.shape (setMany idx ax js)
    · rw [← hf.get _ hb, hpk, hpa]; rfl
    · rw [x.supp _ hb, y.supp]
      rw [hf.shape]
      rintro ⟨-, h2⟩
      apply hb
      rw [← hp.inB_pick rfl (by rw [setMany_length]; exact hil), pick_append, pick_append, hpk, hpa]
      exact hin.append h2
  · rw [y.supp]
    rw [hf.shape]
    rintro ⟨-, h2⟩
    apply hl
    rw [h2.length_eq, pick_length]

theorem batchPosN_lt {ax : List Nat} {x : Tensor R} {idx : List Nat}
    (hin : InB (pick (batchAxes x.rank ax) x.shape) (pick (batchAxes x.rank ax) idx)) :
    batchPosN ax x idx < prodL (pick (batchAxes x.rank ax) x.shape) := ravel_lt hin

theorem alongAxes_of_showsN {ax : List Nat} {x y z t : Tensor R} {Ks : List Nat}
    {f : (List Nat → R) → List Nat → R} (hn : ax.Nodup) (hlt : ∀ a ∈ ax, a < x.rank)
    (hkl : Ks.length = ax.length)
    (hy : Folded ax x y) (hzr : z.rank = x.rank)
    (hzb : pick (batchAxes x.rank ax) z.shape = pick (batchAxes x.rank ax) x.shape)
    (hz : Folded ax z t)
    (ht : ShowsN t x.md (prodL (pick (batchAxes x.rank ax) x.shape)) Ks
      (fun b => f (fun js => y.get (b :: js)))) :
    AlongAxes ax Ks f x z := by
  have hp : IsPerm (batchAxes x.rank ax ++ ax) x.rank := isPerm_axes hn hlt
  have hzs : z.shape = setMany x.shape ax Ks := by
    apply hp.pick_inj hzr (by rw [setMany_length]; rfl)
    rw [pick_append, pick_append, pick_setMany_disjoint batch_disjoint, hzb,
      pick_setMany_self _ _ _ hn hlt hkl]
    congr 1
    have e := hz.shape
    rw [ht.shape, hzr] at e
    exact (List.cons.inj e).2.symm
  refine ⟨hz.md.symm.trans ht.md, hzs, ?_⟩
  intro idx hidx
  have hil : idx.length = x.rank := by rw [hidx.length_eq]; exact hzr
  have hb : InB (pick (batchAxes x.rank ax) x.shape) (pick (batchAxes x.rank ax) idx) := by
    rw [← hzb]
    exact inB_pick_of (r := x.rank) hzr hidx batchAxes_lt
  have ha : InB Ks (pick ax idx) := by
    have := inB_pick_of (r := x.rank) hzr hidx hlt
    rwa [hzs, pick_setMany_self _ _ _ hn hlt hkl] at this
  rw [← hz.get idx hidx, hzr, hzb, hy.plane hn hlt hil hb]
  exact ht.get _ _ (ravel_lt hb) ha

theorem showsN_of_alongAxes {ax : List Nat} {x y z t : Tensor R} {Ks : List Nat}
    {f : (List Nat → R) → List Nat → R} (hn : ax.Nodup) (hlt : ∀ a ∈ ax, a < x.rank)
    (hkl : Ks.length = ax.length)
    (hy : Folded ax x y) (hz : Folded ax z t) (ha : AlongAxes ax Ks f x z) :
    ShowsN t x.md (prodL (pick (batchAxes x.rank ax) x.shape)) Ks
      (fun b => f (fun js => y.get (b :: js))) := by
  have hzr : z.rank = x.rank := by unfold Tensor.rank; rw [ha.shape, setMany_length]
  have hzb : pick (batchAxes x.rank ax) z.shape = pick (batchAxes x.rank ax) x.shape := by
    rw [ha.shape, pick_setMany_disjoint batch_disjoint]
  have hza : pick ax z.shape = Ks := by
    rw [ha.shape, pick_setMany_self _ _ _ hn hlt hkl]
  have hp : IsPerm (batchAxes x.rank ax ++ ax) x.rank := isPerm_axes hn hlt
  refine ⟨hz.md.trans ha.md, by rw [hz.shape, hzr, hzb, hza], ?_⟩
  intro b k hb hk
  set bs := pick (batchAxes x.rank ax) x.shape with hbs
  have hub : InB bs (unravel bs b) := inB_unravel hb
  set pi := batchAxes x.rank ax ++ ax with hpi
  have hul : (unravel bs b).length = (batchAxes x.rank ax).length := by
    rw [hub.length_eq, hbs, pick_length]
  set idx := pick (invPerm pi) (unravel bs b ++ k) with hidx
  have hil : idx.length = x.rank := by rw [hidx, pick_length, hp.inv.len]
  have hpk : pick pi idx = unravel bs b ++ k :=
    hp.pick_pick_inv (by
      rw [List.length_append, hul, hk.length_eq, hkl, ← List.length_append]
      exact hp.len)
  have hin : InB z.shape idx := by
    rw [← hp.inB_pick hzr hil, hpk, hpi, pick_append, hzb, hza]
    exact hub.append hk
  have hsplit : pick (batchAxes x.rank ax) idx = unravel bs b ∧ pick ax idx = k := by
    rw [hpi, pick_append] at hpk
    exact List.append_inj hpk (by rw [pick_length, hul])
  have e := hz.get idx hin
  rw [hzr, hzb, hsplit.1, hsplit.2, ravel_unravel hb, ha.get idx hin] at e
  rw [e, hy.plane hn hlt hil (by rw [hsplit.1]; exact hub)]
  have hb' : batchPosN ax x idx = b := by
    unfold batchPosN
    rw [hsplit.1, ← hbs, ravel_unravel hb]
  rw [hb']
  show f _ (pick ax idx) = _
  rw [hsplit.2]

theorem Folded.showsN {ax : List Nat} {x y : Tensor R} (hf : Folded ax x y) :
    ShowsN y x.md (prodL (pick (batchAxes x.rank ax) x.shape)) (sizes ax x.shape)
      (fun b js => y.get (b :: js)) :=
  ⟨hf.md, hf.shape, fun _ _ _ _ => rfl⟩

/-- A tensor arising by the identity along some axes is the same tensor. -/
theorem alongAxes_id {ax : List Nat} {x z : Tensor R} (hlt : ∀ a ∈ ax, a < x.rank)
    {f : (List Nat → R) → List Nat → R} (hf : ∀ X ks, f X ks = X ks)
    (h : AlongAxes ax (sizes ax x.shape) f x z) : z = x := by
  have hs : z.shape = x.shape := by rw [h.shape]; exact setMany_pick_self _ _ hlt
  refine Tensor.ext' h.md hs ?_
  intro i hi
  rw [h.get i hi, hf]
  unfold plane
  have hil : i.length = x.rank := by rw [hi.length_eq, hs]; rfl
  rw [if_pos (by simp [sizes]), show setMany i ax (sizes ax i) = i from
    setMany_pick_self _ _ (by rw [hil]; exact hlt)]

end

end Verif
