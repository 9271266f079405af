import Verif.Lemmas.Conv1

/-! From folded tensors back to operations along one axis of the user's tensor. -/

namespace Verif
open Tensor Spec
variable {R : Type}

theorem pick_set_not_mem {ds l : List Nat} {a k : Nat} (h : a ∉ ds) : pick ds (l.set a k) = pick ds l := by
  unfold pick
  apply List.map_congr_left
  intro d hd
  exact getD_set_ne fun e => h (e ▸ hd)

theorem not_mem_batchAxes {r a : Nat} {ax : List Nat} (h : a ∈ ax) : a ∉ batchAxes r ax := by
  simp [batchAxes, h]

theorem axesOf_one {h : AxisHint} {r : Nat} (hg : GoodAxes h r 1) : axesOf h r 1 = [axis1 h r] := by
  obtain ⟨a, ha⟩ := List.length_eq_one_iff.mp hg.axes_len
  rw [axis1, ha]; rfl

theorem axis1_lt {h : AxisHint} {r : Nat} (hg : GoodAxes h r 1) : axis1 h r < r :=
  hg.lt _ (by rw [axesOf_one hg]; simp)

section
variable [Zero R]

/-- The batch position of an index. -/
def batchPos (h : AxisHint) (x : Tensor R) (idx : List Nat) : Nat :=
  ravel (pick (batchAxes x.rank (axesOf h x.rank 1)) x.shape) (pick (batchAxes x.rank (axesOf h x.rank 1)) idx)

theorem Folded.shows {h : AxisHint} {x y : Tensor R} (hg : GoodAxes h x.rank 1)
    (hf : Folded (axesOf h x.rank 1) x y) :
    Shows y x.md (prodL (pick (batchAxes x.rank (axesOf h x.rank 1)) x.shape))
      (x.shape.getD (axis1 h x.rank) 0) (fun b j => y.get [b, j]) := by
  refine ⟨hf.md, ?_, fun _ _ _ _ => rfl⟩
  rw [hf.shape, axesOf_one hg]; rfl

theorem Folded.line {h : AxisHint} {x y : Tensor R} {K : Nat} (hg : GoodAxes h x.rank 1)
    (hf : Folded (axesOf h x.rank 1) x y) {idx : List Nat}
    (hidx : InB (x.shape.set (axis1 h x.rank) K) idx) :
    Spec.line x (axis1 h x.rank) idx = fun j => y.get [batchPos h x idx, j] := by
  funext j
  have ha : axis1 h x.rank < x.shape.length := axis1_lt hg
  have hil : idx.length = x.shape.length := by rw [hidx.length_eq, List.length_set]
  by_cases hj : j < x.shape.getD (axis1 h x.rank) 0
  · have hin : InB x.shape (idx.set (axis1 h x.rank) j) := (inB_set_iff ha hidx).mpr hj
    unfold Spec.line
    rw [← hf.get _ hin]
    unfold batchPos
    rw [pick_set_not_mem (not_mem_batchAxes (by rw [axesOf_one hg]; simp))]
    conv_lhs => rw [axesOf_one hg]
    rw [show pick [axis1 h x.rank] (idx.set (axis1 h x.rank) j) = [j] by
      simp only [pick, List.map_cons, List.map_nil]
      rw [getD_set_self (by omega)]]
    rw [axesOf_one hg]
  · unfold Spec.line
    rw [x.supp, y.supp]
    · rw [hf.shape, axesOf_one hg]
      simp only [pick, List.map_cons, List.map_nil]
      rintro ⟨_, h2, _⟩
      exact hj h2
    · rw [inB_set_iff ha hidx]; exact hj

/-- A tensor whose folded version shows `f` of the lines of the folded input is `f` along the axis. -/
theorem alongAxis_of_shows {h : AxisHint} {x y z t : Tensor R} {K : Nat} {f : (Nat → R) → Nat → R}
    (hg : GoodAxes h x.rank 1) (hy : Folded (axesOf h x.rank 1) x y) (hzr : z.rank = x.rank)
    (hzb : pick (batchAxes x.rank (axesOf h x.rank 1)) z.shape
      = pick (batchAxes x.rank (axesOf h x.rank 1)) x.shape)
    (hz : Folded (axesOf h x.rank 1) z t)
    (ht : Shows t x.md (prodL (pick (batchAxes x.rank (axesOf h x.rank 1)) x.shape)) K
      (fun b => f (fun j => y.get [b, j]))) :
    AlongAxis (axis1 h x.rank) K f x z := by
  have ha : axis1 h x.rank < x.shape.length := axis1_lt hg
  have hp : IsPerm (batchAxes x.rank (axesOf h x.rank 1) ++ axesOf h x.rank 1) x.rank :=
    isPerm_axes hg.nodup hg.lt
  have hnm : axis1 h x.rank ∉ batchAxes x.rank (axesOf h x.rank 1) :=
    not_mem_batchAxes (by rw [axesOf_one hg]; simp)
  have hzs : z.shape = x.shape.set (axis1 h x.rank) K := by
    apply hp.pick_inj hzr (by rw [List.length_set]; rfl)
    rw [pick_append, pick_append, pick_set_not_mem hnm, hzb]
    congr 1
    have e := hz.shape
    rw [ht.shape, hzr] at e
    rw [axesOf_one hg] at e ⊢
    simp only [List.cons.injEq, pick, List.map_cons, List.map_nil, and_true] at e ⊢
    rw [getD_set_self ha]
    exact e.2.symm
  refine ⟨hz.md.symm.trans ht.md, hzs, ?_⟩
  intro idx hidx
  have hidx' := hidx
  rw [hzs] at hidx'
  have hlt := inB_set_getD ha hidx'
  rw [← hz.get idx hidx, hzr, hzb, hy.line hg hidx']
  have hb : batchPos h x idx < prodL (pick (batchAxes x.rank (axesOf h x.rank 1)) x.shape) := by
    unfold batchPos
    apply ravel_lt
    have : InB (pick (batchAxes x.rank (axesOf h x.rank 1)) (x.shape.set (axis1 h x.rank) K))
        (pick (batchAxes x.rank (axesOf h x.rank 1)) idx) :=
      inB_pick_of (r := x.rank) (by rw [List.length_set]; rfl) hidx' batchAxes_lt
    rwa [pick_set_not_mem hnm] at this
  rw [← ht.get _ _ hb hlt]
  unfold batchPos
  congr 2
  rw [axesOf_one hg]; rfl

end

end Verif
