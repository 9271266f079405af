/-
Concrete cases for the theorems about the items of a batch (C61): one item of the batch, on its own.
-/
import Verif.Witness.PacketMat
import Verif.Props.Slice
import Verif.Props.SliceMat

namespace Verif.Witness
open Tensor Spec Props Backend

theorem at3 {R : Type} [Zero R] {x : Tensor R} {ax idx : List Nat} (h3 : x.rank = 3) (hl : idx.length = 3)
    (h : ∀ i, i < 3 → i ∉ ax → idx.getD i 0 < x.shape.getD i 0) : At x ax idx :=
  ⟨by rw [hl, h3], fun i hi hn => h i (by rw [h3] at hi; exact hi) hn⟩

/-- One item of a batch as a tensor of its own. -/
theorem solo {R : Type} [Zero R] {x : Tensor R} {h : AxisHint} {n : Nat} (hn : 1 ≤ n) (hg : GoodAxes h x.rank n) (idx : List Nat) :
    GoodAxes .none (alone x (axesOf h x.rank n) idx).rank n ∧
    At (alone x (axesOf h x.rank n) idx) (axesOf .none (alone x (axesOf h x.rank n) idx).rank n) (List.replicate n 0) ∧
    SamePlane (axesOf h x.rank n) (axesOf .none (alone x (axesOf h x.rank n) idx).rank n) idx (List.replicate n 0) x (alone x (axesOf h x.rank n) idx) := by
  obtain ⟨hr, h1, h2⟩ := alone_same x (axesOf h x.rank n) idx
  rw [hg.axes_len] at hr h1 h2
  have hax : axesOf .none (alone x (axesOf h x.rank n) idx).rank n = List.range n := by rw [hr]; exact axesOf_full n
  rw [hax]
  exact ⟨goodAxes_none hn (by rw [hr]), h1, h2⟩

theorem exI_at0 : At exI (axesOf (.int 0) exI.rank 1) [0, 1, 4] := at3 rfl rfl (by decide)
theorem exI_at1 : At exI (axesOf (.int (-2)) exI.rank 1) [2, 0, 4] := at3 rfl rfl (by decide)
theorem exI_at2 : At exI (axesOf (.seq [2, -3]) exI.rank 2) [0, 1, 0] := at3 rfl rfl (by decide)
theorem exV_at : At exV (axesOf (.seq [1, -1, 0]) exV.rank 3) [0, 0, 0] := at3 rfl rfl (by decide)

example := w1.imp fun cs h => c61_wavedec_alone exI lattice (some "zero") (some 3) (.int 0) (by decide) rfl [0, 1, 4] exI_at0 cs h
example := w2.imp fun cs h => c61_wavedec2_alone exI lattice (some "zero") (some 2) (.seq [2, -3]) (by decide) rfl [0, 1, 0] exI_at2 cs h.1
example := w3.imp fun cs h => c61_wavedec3_alone exV lattice (some "zero") (some 2) (.seq [1, -1, 0]) (by decide) rfl (by decide) [0, 0, 0] exV_at cs h.1
example := w3.imp fun cs h => c61_wavedec3 exV (alone exV (axesOf (.seq [1, -1, 0]) exV.rank 3) [0, 0, 0]) lattice (some "zero") (some 2) (.seq [1, -1, 0]) .none
  (by decide) rfl (solo (by decide) exV_axes _).1 (Or.inl rfl) (by decide) [0, 0, 0] [0, 0, 0] exV_at (solo (by decide) exV_axes _).2.1
  (solo (by decide) exV_axes _).2.2 cs h.1
example := f2.imp fun cs h => c61_fswavedec2 exI (alone exI (axesOf (.seq [2, -3]) exI.rank 2) [0, 1, 0]) lattice (some "zero") (some 2) (.seq [2, -3]) .none
  (by decide) rfl (solo (by decide) exI_axes _).1 (Or.inr rfl) [0, 1, 0] [0, 0] exI_at2 (solo (by decide) exI_axes _).2.1
  (solo (by decide) exI_axes _).2.2 cs h.1
example := f3.imp fun cs h => c61_fswavedec3 exV (alone exV (axesOf (.seq [1, -1, 0]) exV.rank 3) [0, 0, 0]) lattice (some "zero") (some 2) (.seq [1, -1, 0]) .none
  (by decide) rfl (solo (by decide) exV_axes _).1 (Or.inl rfl) [0, 0, 0] [0, 0, 0] exV_at (solo (by decide) exV_axes _).2.1
  (solo (by decide) exV_axes _).2.2 cs h.1
example := c61_swt exI (alone exI (axesOf (.int (-2)) exI.rank 1) [2, 0, 4]) lattice (some 2) (.int (-2)) .none (by decide) (by decide) rfl exI_axis1 (Or.inr rfl)
  (solo (by decide) exI_axis1 _).1 (Or.inr rfl)
  (by decide) sw_wrap [2, 0, 4] [0] exI_at1 (solo (by decide) exI_axis1 _).2.1 (solo (by decide) exI_axis1 _).2.2

/-! ### Coefficients -/

/-- Coefficients of a batch of three, with the last axis transformed. -/
def bat (k : Nat) : Tensor ℚ := ofFn ⟨.float64, 0⟩ [3, k] fun i => 5 * i.getD 0 0 + i.getD 1 0 + k
def itm (k : Nat) : Tensor ℚ := alone (bat k) [1] [2, 0]

theorem bat_at (k : Nat) : At (bat k) [1] [2, 0] := ⟨rfl, fun i hi hn => by
  have hi : i < 2 := hi
  rcases (by omega : i = 0 ∨ i = 1) with rfl | rfl
  · show 2 < 3; decide
  · exact absurd (by decide) hn⟩

theorem axis_last : GoodAxes (.int 1) 2 1 := ⟨by decide, rfl, ⟨by
  intro a ha
  have : a = 1 := by simpa [resolve] using ha
  subst this; exact ⟨by decide, by decide⟩, by decide⟩⟩

theorem bats_same (ks : List Nat) : List.Forall₂ (SamePlane [1] [0] [2, 0] [0]) (ks.map bat) (ks.map itm) := by
  rw [List.forall₂_map_left_iff, List.forall₂_map_right_iff, List.forall₂_same]
  exact fun k _ => (alone_same (bat k) [1] [2, 0]).2.2

/-- The lengths `3, 3, 4` fit a synthesis with filters of length 4. -/
example := c61_waverec lattice 4 (.int 1) .none ⟨.float64, 0⟩ ⟨.float64, 0⟩ [3, 7] [7] (bat 3) (itm 3) [bat 3, bat 4] [itm 3, itm 4] (by decide) rfl rfl
  axis_last (Or.inr rfl) (goodAxes_none (by decide) (by decide)) (Or.inr rfl)
  ⟨by simp [bat, ofFn], by simp [bat, ofFn, axis1, axesOf, resolve, axisOf]⟩
  ⟨by simp [itm, alone, bat, ofFn], by simp [itm, alone, bat, ofFn, sizes, axis1, axesOf, resolve, axisOf]⟩
  (by show Consistent 4 3 [3, 4]; unfold Consistent; simp [Consistent])
  [2, 0] [0] (bat_at 3) (alone_same (bat 3) [1] [2, 0]).2.1 (bats_same [3, 3, 4])

example := c61_iswt lattice 4 (.int 1) .none ⟨.float64, 0⟩ ⟨.float64, 0⟩ [3, 8] [8] (bat 8) (itm 8) [bat 8, bat 8] [itm 8, itm 8] (by decide) (by decide) rfl rfl
  axis_last (Or.inr rfl) (goodAxes_none (by decide) (by decide)) (Or.inr rfl) (by decide) (by unfold WrapOk; decide)
  (by simp [bat, ofFn]) (by simp [bat, ofFn]) (by simp [itm, alone, bat, ofFn]) (by simp [itm, alone, bat, ofFn, sizes])
  [2, 0] [0] (bat_at 8) (alone_same (bat 8) [1] [2, 0]).2.1 (bats_same [8, 8, 8])

/-! ### Images and volumes -/

/-- A band of a batch of images, the axes exchanged; every band has other values. -/
def bandI (b : Nat) (Ks : List Nat) : Tensor ℚ := ofFn ⟨.float64, 0⟩ [3, Ks.getD 1 0, Ks.getD 0 0] fun i => b + i.getD 0 0 * 5 + i.getD 1 0 + 2 * i.getD 2 0
def soloI (b : Nat) (Ks : List Nat) : Tensor ℚ := alone (bandI b Ks) [2, 1] [2, 0, 0]
/-- A band of a batch of volumes. -/
def bandV (b : Nat) (Ks : List Nat) : Tensor ℚ :=
  ofFn ⟨.float32, 1⟩ [2, Ks.getD 1 0, Ks.getD 2 0, Ks.getD 0 0] fun i => b + i.getD 0 0 * 5 + i.getD 1 0 + 2 * i.getD 3 0
def soloV (b : Nat) (Ks : List Nat) : Tensor ℚ := alone (bandV b Ks) [3, 1, 2] [1, 0, 0, 0]

def tup (f : Nat → List Nat → Tensor ℚ) (Ks : List Nat) : Entry ℚ := .tuple (f 0 Ks) (f 1 Ks) (f 2 Ks)
def dct (keys : List String) (f : Nat → List Nat → Tensor ℚ) (Ks : List Nat) : Entry ℚ := .dict (keys.zipIdx.map fun k => (k.1, f k.2 Ks))

theorem dct_is (keys : List String) (f : Nat → List Nat → Tensor ℚ) {Q : Tensor ℚ → Prop} (Ks : List Nat) (h : ∀ b, Q (f b Ks)) :
    IsDict keys (fun _ t => Q t) (dct keys f Ks) := by
  refine ⟨_, rfl, ?_, ?_⟩
  · rw [List.map_map]
    have : (Prod.fst ∘ fun k : String × Nat => (k.1, f k.2 Ks)) = Prod.fst := rfl
    rw [this, List.zipIdx_map_fst]
  · intro q hq
    obtain ⟨k, -, rfl⟩ := List.mem_map.mp hq
    exact h k.2

theorem dct_same (keys : List String) (f g : Nat → List Nat → Tensor ℚ) {P : Tensor ℚ → Tensor ℚ → Prop} (Ks : List Nat) (h : ∀ b, P (f b Ks) (g b Ks)) :
    SameEntries P (dct keys f Ks) (dct keys g Ks) := by
  refine .dict ?_
  rw [List.forall₂_map_left_iff, List.forall₂_map_right_iff, List.forall₂_same]
  exact fun k _ => ⟨rfl, h k.2⟩

theorem axI : axesOf (.seq [2, 1]) [3, 0, 0].length 2 = [2, 1] := by decide
theorem axI' : axesOf .none [0, 0].length 2 = [0, 1] := by decide
theorem axV : axesOf (.seq [3, 1, 2]) [2, 0, 0, 0].length 3 = [3, 1, 2] := by decide
theorem axV' : axesOf .none [0, 0, 0].length 3 = [0, 1, 2] := by decide
theorem goodI : GoodAxes (.seq [2, 1]) [3, 0, 0].length 2 := ⟨by decide, rfl, ⟨by
  intro a ha
  have : a = 2 ∨ a = 1 := by simpa [resolve] using ha
  rcases this with rfl | rfl <;> exact ⟨by decide, by decide⟩, by decide⟩⟩
theorem goodV : GoodAxes (.seq [3, 1, 2]) [2, 0, 0, 0].length 3 := ⟨by decide, rfl, ⟨by
  intro a ha
  have : a = 3 ∨ a = 1 ∨ a = 2 := by simpa [resolve] using ha
  rcases this with rfl | rfl | rfl <;> exact ⟨by decide, by decide⟩, by decide⟩⟩

theorem bandI_at (b : Nat) (Ks : List Nat) : At (bandI b Ks) [2, 1] [2, 0, 0] := at3 rfl rfl (by
  intro i hi hn
  rcases (by omega : i = 0 ∨ i = 1 ∨ i = 2) with rfl | rfl | rfl
  · show 2 < 3; decide
  · exact absurd (by decide) hn
  · exact absurd (by decide) hn)
theorem bandV_at (b : Nat) (Ks : List Nat) : At (bandV b Ks) [3, 1, 2] [1, 0, 0, 0] := ⟨rfl, fun i hi hn => by
  have hi : i < 4 := hi
  rcases (by omega : i = 0 ∨ i = 1 ∨ i = 2 ∨ i = 3) with rfl | rfl | rfl | rfl
  · show 1 < 2; decide
  · exact absurd (by decide) hn
  · exact absurd (by decide) hn
  · exact absurd (by decide) hn⟩

theorem soloI_at (b : Nat) (Ks : List Nat) : At (soloI b Ks) [0, 1] [0, 0] := (alone_same (bandI b Ks) [2, 1] [2, 0, 0]).2.1
theorem soloV_at (b : Nat) (Ks : List Nat) : At (soloV b Ks) [0, 1, 2] [0, 0, 0] := (alone_same (bandV b Ks) [3, 1, 2] [1, 0, 0, 0]).2.1
theorem soloI_same (b : Nat) (Ks : List Nat) : SamePlane [2, 1] [0, 1] [2, 0, 0] [0, 0] (bandI b Ks) (soloI b Ks) := (alone_same (bandI b Ks) [2, 1] [2, 0, 0]).2.2
theorem soloV_same (b : Nat) (Ks : List Nat) : SamePlane [3, 1, 2] [0, 1, 2] [1, 0, 0, 0] [0, 0, 0] (bandV b Ks) (soloV b Ks) :=
  (alone_same (bandV b Ks) [3, 1, 2] [1, 0, 0, 0]).2.2

theorem bandI_uni (b p q : Nat) : Uniform ⟨.float64, 0⟩ (setMany [3, 0, 0] [2, 1] [p, q]) (bandI b [p, q]) := ⟨rfl, rfl⟩
theorem soloI_uni (b p q : Nat) : Uniform ⟨.float64, 0⟩ (setMany [0, 0] [0, 1] [p, q]) (soloI b [p, q]) := ⟨rfl, rfl⟩
theorem bandV_uni (b p q r : Nat) : Uniform ⟨.float32, 1⟩ (setMany [2, 0, 0, 0] [3, 1, 2] [p, q, r]) (bandV b [p, q, r]) := ⟨rfl, rfl⟩
theorem soloV_uni (b p q r : Nat) : Uniform ⟨.float32, 1⟩ (setMany [0, 0, 0] [0, 1, 2] [p, q, r]) (soloV b [p, q, r]) := ⟨rfl, rfl⟩

theorem consI : ConsistentN 4 [3, 3] [[3, 3], [4, 3]] := by simp [ConsistentN, NextFits]
theorem consV : ConsistentN 4 [3, 3, 2] [[3, 3, 2], [4, 3, 1]] := by simp [ConsistentN, NextFits]
theorem covI : CoveredN 4 [3, 3] [[3, 2], [4, 2]] := by simp [CoveredN]
theorem covV : CoveredN 4 [3, 3, 2] [[3, 3, 2], [3, 4, 1]] := by simp [CoveredN]

example := c61_waverec2 lattice 4 (.seq [2, 1]) .none ⟨.float64, 0⟩ ⟨.float64, 0⟩ [3, 0, 0] [0, 0] (bandI 7 [3, 3]) (soloI 7 [3, 3])
  [tup bandI [3, 3], tup bandI [4, 3]] [tup soloI [3, 3], tup soloI [4, 3]] [3, 3] [[3, 3], [4, 3]] (by decide) rfl rfl goodI (Or.inr rfl)
  (goodAxes_none (by decide) (by decide)) (Or.inr rfl) (by decide) (by rw [axI]; exact bandI_uni 7 3 3) (by rw [axI']; exact soloI_uni 7 3 3)
  (by rw [axI]; exact .cons ⟨_, _, _, rfl, bandI_uni 0 3 3, bandI_uni 1 3 3, bandI_uni 2 3 3⟩ (.cons ⟨_, _, _, rfl, bandI_uni 0 4 3, bandI_uni 1 4 3, bandI_uni 2 4 3⟩ .nil))
  (by rw [axI']; exact .cons ⟨_, _, _, rfl, soloI_uni 0 3 3, soloI_uni 1 3 3, soloI_uni 2 3 3⟩ (.cons ⟨_, _, _, rfl, soloI_uni 0 4 3, soloI_uni 1 4 3, soloI_uni 2 4 3⟩ .nil))
  consI [2, 0, 0] [0, 0] (by rw [axI]; exact bandI_at _ _) (by rw [axI']; exact soloI_at _ _)
  (by
    rw [axI, axI']
    exact ⟨rfl, .cons (.tensor (soloI_same _ _)) (.cons (.tuple (soloI_same _ _) (soloI_same _ _) (soloI_same _ _))
      (.cons (.tuple (soloI_same _ _) (soloI_same _ _) (soloI_same _ _)) .nil))⟩)

example := c61_waverec3 lattice 4 (.seq [3, 1, 2]) .none ⟨.float32, 1⟩ ⟨.float32, 1⟩ [2, 0, 0, 0] [0, 0, 0] (bandV 7 [3, 3, 2]) (soloV 7 [3, 3, 2])
  [dct keys3 bandV [3, 3, 2], dct keys3 bandV [4, 3, 1]] [dct keys3 soloV [3, 3, 2], dct keys3 soloV [4, 3, 1]] [3, 3, 2] [[3, 3, 2], [4, 3, 1]]
  (by decide) rfl rfl goodV (Or.inl rfl)
  (goodAxes_none (by decide) (by decide)) (Or.inl rfl) (by decide) (by rw [axV]; exact bandV_uni 7 3 3 2) (by rw [axV']; exact soloV_uni 7 3 3 2)
  (by rw [axV]; exact .cons (dct_is _ _ _ fun b => bandV_uni b 3 3 2) (.cons (dct_is _ _ _ fun b => bandV_uni b 4 3 1) .nil))
  (by rw [axV']; exact .cons (dct_is _ _ _ fun b => soloV_uni b 3 3 2) (.cons (dct_is _ _ _ fun b => soloV_uni b 4 3 1) .nil))
  consV [1, 0, 0, 0] [0, 0, 0] (by rw [axV]; exact bandV_at _ _) (by rw [axV']; exact soloV_at _ _)
  (by
    rw [axV, axV']
    exact ⟨rfl, .cons (.tensor (soloV_same _ _)) (.cons (dct_same _ _ _ _ fun b => soloV_same _ _) (.cons (dct_same _ _ _ _ fun b => soloV_same _ _) .nil))⟩)

example := c61_fswaverec2 lattice 4 (.seq [2, 1]) .none ⟨.float64, 0⟩ ⟨.float64, 0⟩ [3, 0, 0] [0, 0] (bandI 7 [3, 3]) (soloI 7 [3, 3])
  [dct ["dd", "da", "ad"] bandI [3, 2], dct ["dd", "da", "ad"] bandI [4, 2]] [dct ["dd", "da", "ad"] soloI [3, 2], dct ["dd", "da", "ad"] soloI [4, 2]]
  [3, 3] [[3, 2], [4, 2]] ["dd", "da", "ad"] (by decide) rfl rfl goodI (Or.inr rfl)
  (goodAxes_none (by decide) (by decide)) (Or.inr rfl) (by decide) (by decide) (by rw [axI]; exact bandI_uni 7 3 3) (by rw [axI']; exact soloI_uni 7 3 3)
  (by rw [axI]; exact .cons (dct_is _ _ _ fun b => bandI_uni b 3 2) (.cons (dct_is _ _ _ fun b => bandI_uni b 4 2) .nil))
  (by rw [axI']; exact .cons (dct_is _ _ _ fun b => soloI_uni b 3 2) (.cons (dct_is _ _ _ fun b => soloI_uni b 4 2) .nil))
  covI [2, 0, 0] [0, 0] (by rw [axI]; exact bandI_at _ _) (by rw [axI']; exact soloI_at _ _)
  (by
    rw [axI, axI']
    exact ⟨rfl, .cons (.tensor (soloI_same _ _)) (.cons (dct_same _ _ _ _ fun b => soloI_same _ _) (.cons (dct_same _ _ _ _ fun b => soloI_same _ _) .nil))⟩)

example := c61_fswaverec3 lattice 4 (.seq [3, 1, 2]) .none ⟨.float32, 1⟩ ⟨.float32, 1⟩ [2, 0, 0, 0] [0, 0, 0] (bandV 7 [3, 3, 2]) (soloV 7 [3, 3, 2])
  [dct keys3 bandV [3, 3, 2], dct keys3 bandV [3, 4, 1]] [dct keys3 soloV [3, 3, 2], dct keys3 soloV [3, 4, 1]] [3, 3, 2] [[3, 3, 2], [3, 4, 1]] keys3
  (by decide) rfl rfl goodV (Or.inl rfl)
  (goodAxes_none (by decide) (by decide)) (Or.inl rfl) (by decide) (by decide) (by rw [axV]; exact bandV_uni 7 3 3 2) (by rw [axV']; exact soloV_uni 7 3 3 2)
  (by rw [axV]; exact .cons (dct_is _ _ _ fun b => bandV_uni b 3 3 2) (.cons (dct_is _ _ _ fun b => bandV_uni b 3 4 1) .nil))
  (by rw [axV']; exact .cons (dct_is _ _ _ fun b => soloV_uni b 3 3 2) (.cons (dct_is _ _ _ fun b => soloV_uni b 3 4 1) .nil))
  covV [1, 0, 0, 0] [0, 0, 0] (by rw [axV]; exact bandV_at _ _) (by rw [axV']; exact soloV_at _ _)
  (by
    rw [axV, axV']
    exact ⟨rfl, .cons (.tensor (soloV_same _ _)) (.cons (dct_same _ _ _ _ fun b => soloV_same _ _) (.cons (dct_same _ _ _ _ fun b => soloV_same _ _) .nil))⟩)

/-! ### Packets -/

theorem exX_at : At exX [axisOf exX.rank (-2)] [0, 1] := ⟨rfl, fun i hi hn => by
  have hi : i < 2 := hi
  rcases (by omega : i = 0 ∨ i = 1) with rfl | rfl
  · exact absurd (by decide) hn
  · decide⟩

theorem exX_solo : ∃ v, ((packet1 haar (some "symmetric") (-1)).run (empty ()) (.transform (alone exX [axisOf exX.rank (-2)] [0, 1]) (some 2) :: []
    ++ [.read ['d', 'a']])).1.getLast? = some (.value v) :=
  c25_readable haar (some "symmetric") (-1) .symmetric (Or.inl rfl) (by decide) rfl _ _ _ 2 (Or.inl rfl)
    ⟨by decide, by decide⟩ (Or.inr rfl) [] no_reads ['d', 'a'] (by decide) da (fun s _ => levelLen_pos (by decide) (by decide) s)

example : ∃ v v' : Tensor ℚ, SamePlane [axisOf exX.rank (-2)] [0] [0, 1] [0] v v' := by
  obtain ⟨v, h⟩ := p1 (empty ()) _ (reads ['d'] ['a', 'd']) (key := ['d', 'a']) (by decide) da
  obtain ⟨v', h'⟩ := exX_solo
  have hs := alone_same exX [axisOf exX.rank (-2)] [0, 1]
  exact ⟨v, v', c61_packet haar (some "symmetric") (-2) (-1) .symmetric (Or.inl rfl) (by decide) rfl (empty ()) (empty ()) exX
    (alone exX [axisOf exX.rank (-2)] [0, 1]) (some 2) (some 2) 2 2 (Or.inl rfl) (Or.inl rfl) ⟨by decide, by decide⟩ ⟨by decide, by decide⟩
    _ _ (reads ['d'] ['a', 'd']) no_reads ['d', 'a'] v v' h h' [0, 1] [0] exX_at hs.2.1 hs.2.2⟩

theorem exP_at : At exP (planeAxes [-2, -1] exP.rank) [1, 0, 0] := at3 rfl rfl (by decide)
/-- One image of the batch. -/
def oneP : Tensor ℚ := alone exP (planeAxes [-2, -1] exP.rank) [1, 0, 0]
theorem oneP_good : GoodAxes (.seq [0, 1]) oneP.rank 2 := ⟨by decide, rfl, ⟨by
  intro a ha
  have : a = 0 ∨ a = 1 := by simpa [resolve] using ha
  rcases this with rfl | rfl <;> exact ⟨by decide, by decide⟩, by decide⟩⟩
theorem oneP_ax : planeAxes [0, 1] oneP.rank = [0, 1] := by decide
theorem oneP_admit (n : Nat) : LevelsAdmit .symmetric haar.len (sizes (planeAxes [0, 1] oneP.rank) oneP.shape) n := by
  have : sizes (planeAxes [0, 1] oneP.rank) oneP.shape = sizes (planeAxes [-2, -1] exP.rank) exP.shape := by decide
  rw [this]
  exact exP_admit n

example (sep : Bool) : ∃ v v' : Tensor ℚ, SamePlane (planeAxes [-2, -1] exP.rank) [0, 1] [1, 0, 0] [0, 0] v v' := by
  obtain ⟨v, h⟩ := p2 sep (empty ()) _ (reads ['d'] ['a', 'd']) (key := ['h', 'v']) (by decide) hv
  obtain ⟨v', h'⟩ := c25_2d_readable haar (some "symmetric") [0, 1] sep .symmetric (Or.inl rfl) (by decide) rfl (empty ()) oneP (some 2) 2 (Or.inl rfl)
    oneP_good (Or.inr rfl) [] no_reads ['h', 'v'] (by decide) hv (oneP_admit _)
  have hs := alone_same exP (planeAxes [-2, -1] exP.rank) [1, 0, 0]
  have := c61_packet2 haar (some "symmetric") [-2, -1] [0, 1] sep .symmetric (Or.inl rfl) (by decide) rfl (empty ()) (empty ()) exP oneP
    (Or.inr rfl) (Or.inr rfl) (some 2) (some 2) 2 2 (Or.inl rfl) (Or.inl rfl) exP_good oneP_good
    _ _ (reads ['d'] ['a', 'd']) no_reads ['h', 'v'] v v' h h' [1, 0, 0] [0, 0] exP_at (by rw [oneP_ax]; exact hs.2.1) (by rw [oneP_ax]; exact hs.2.2)
  rw [oneP_ax] at this
  exact ⟨v, v', this⟩

/-! ### Matrices and the continuous transform -/

noncomputable def volM : Tensor ℝ := ofFn ⟨.float64, 0⟩ [2, 8, 7, 6] fun i => (i.getD 0 0 + i.getD 2 0 : ℝ)
theorem volM_axes : GoodAxes (.seq [3, 1, 2]) volM.rank 3 := ⟨by decide, rfl, ⟨by
  intro a ha
  have : a = 3 ∨ a = 1 ∨ a = 2 := by simpa [resolve] using ha
  rcases this with rfl | rfl | rfl <;> exact ⟨by decide, by decide⟩, by decide⟩⟩
theorem exPM_at : At exPM (axesOf (.seq [-2, -1]) exPM.rank 2) [1, 0, 0] := at3 rfl rfl (by
  intro i hi hn
  have ha : axesOf (.seq [-2, -1]) exPM.rank 2 = [1, 2] := by decide
  rw [ha] at hn
  rcases (by omega : i = 0 ∨ i = 1 ∨ i = 2) with rfl | rfl | rfl
  · show 1 < 2; decide
  · exact absurd (by decide) hn
  · exact absurd (by decide) hn)
theorem volM_at : At volM (axesOf (.seq [3, 1, 2]) volM.rank 3) [1, 0, 0, 0] := ⟨rfl, fun i hi hn => by
  have hi : i < 4 := hi
  have ha : axesOf (.seq [3, 1, 2]) volM.rank 3 = [3, 1, 2] := by decide
  rw [ha] at hn
  rcases (by omega : i = 0 ∨ i = 1 ∨ i = 2 ∨ i = 3) with rfl | rfl | rfl | rfl
  · show 1 < 2; decide
  · exact absurd (by decide) hn
  · exact absurd (by decide) hn
  · exact absurd (by decide) hn⟩

theorem solo_pos : ∀ k ∈ (alone exPM (axesOf (.seq [-2, -1]) exPM.rank 2) [1, 0, 0]).shape, 0 < k := by
  have : (alone exPM (axesOf (.seq [-2, -1]) exPM.rank 2) [1, 0, 0]).shape = [8, 7] := pm_sizes
  rw [this]; decide

example := c61_matrix2 la0_exact bank4_orth (x := exPM) (x' := alone exPM (axesOf (.seq [-2, -1]) exPM.rank 2) [1, 0, 0]) (axes := .seq [-2, -1]) (axes' := .none)
  (m := .symmetric) (mode := some "symmetric") (orth := "qr") (level := none) exPM_good (solo (by decide) exPM_good _).1 (Or.inr rfl) rfl pm_pos solo_pos (Or.inl rfl)
  (Or.inl rfl) (by rintro _ ⟨⟩) (fun k a b _ => ind4 k a b) [1, 0, 0] [0, 0] exPM_at (solo (by decide) exPM_good _).2.1 (solo (by decide) exPM_good _).2.2
example := c61_matrix2_nonsep la0_exact bank4_orth (x := exPM) (x' := alone exPM (axesOf (.seq [-2, -1]) exPM.rank 2) [1, 0, 0]) (axes := .seq [-2, -1])
  (axes' := .none) (m := .symmetric) (mode := some "symmetric") (orth := "qr") (level := some 1) exPM_good (solo (by decide) exPM_good _).1 (Or.inr rfl) rfl pm_pos
  solo_pos (Or.inl rfl) (Or.inl rfl) (by rintro _ ⟨⟩; norm_num) (fun k a b _ => ind4 k a b)
  (by
    have : sizes (axesOf (.seq [-2, -1]) exPM.rank 2) exPM.shape = [8, 7] := pm_sizes
    rw [this]; decide)
  [1, 0, 0] [0, 0] exPM_at (solo (by decide) exPM_good _).2.1 (solo (by decide) exPM_good _).2.2
example := c61_matrix3 la0_exact bank4_orth (x := volM) (x' := alone volM (axesOf (.seq [3, 1, 2]) volM.rank 3) [1, 0, 0, 0]) (axes := .seq [3, 1, 2])
  (axes' := .none) (m := .symmetric) (mode := some "symmetric") (orth := "qr") (level := some 2) volM_axes (solo (by decide) volM_axes _).1 (Or.inr rfl) rfl
  (Or.inl rfl) (Or.inl rfl) (by rintro _ ⟨⟩; norm_num) (by rintro ⟨⟩) (fun k a b _ => ind4 k a b)
  [1, 0, 0, 0] [0, 0, 0] volM_at (solo (by decide) volM_axes _).2.1 (solo (by decide) volM_axes _).2.2

theorem cwt_at : At cwtDemoData [cwtDemoData.rank - 1] [1, 0] := ⟨rfl, fun i hi hn => by
  have hi : i < 2 := hi
  rcases (by omega : i = 0 ∨ i = 1) with rfl | rfl
  · show 1 < 2; decide
  · exact absurd (by decide) hn⟩
/-- Every wavelet, the second signal of the batch. -/
example (k : CwtKind) (c : Bool) := c61_cwt (data := cwtDemoData) (data' := alone cwtDemoData [cwtDemoData.rank - 1] [1, 0]) (scales := [2, 1]) (w := cwtDemo k c)
  (T := 1) (p := 12) (.inr rfl) cwtDemo_grid (by simp) (by decide) (by decide) (by simp) rfl
  (by
    intro s hs
    simp only [List.mem_cons, List.not_mem_nil, or_false] at hs
    rcases hs with rfl | rfl <;> norm_num)
  [1, 0] [0] cwt_at (alone_same cwtDemoData [cwtDemoData.rank - 1] [1, 0]).2.1 (alone_same cwtDemoData [cwtDemoData.rank - 1] [1, 0]).2.2

end Verif.Witness
