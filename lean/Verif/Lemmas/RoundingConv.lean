import Verif.Lemmas.Rounding

/-! The floating point routines, and the transforms computed with them. -/

namespace Verif
open Tensor Spec
variable {R : Type} [Field R] [LinearOrder R] [IsStrictOrderedRing R]

theorem sum_range_list {M : Type} [AddCommMonoid M] (f : Nat → M) (n : Nat) :
    ∑ j ∈ Finset.range n, f j = ((List.range n).map f).sum := rfl

theorem sum_flatMap_list {M ι κ : Type} [AddCommMonoid M] (l : List ι) (f : ι → List κ) (g : κ → M) :
    ((l.flatMap f).map g).sum = (l.map fun i => ((f i).map g).sum).sum := by
  induction l with
  | nil => rfl
  | cons a l ih => simp [List.flatMap_cons, ih]

/-- The index pairs of a convolution. -/
def convIdx (C F : Nat) : List (Nat × Nat) := (List.range C).flatMap fun c => (List.range F).map fun j => (c, j)

theorem convIdx_length (C F : Nat) : (convIdx C F).length = C * F := by
  simp [convIdx, List.length_flatMap]

theorem sum_convIdx {M : Type} [AddCommMonoid M] (f : Nat → Nat → M) (C F : Nat) :
    ∑ c ∈ Finset.range C, ∑ j ∈ Finset.range F, f c j = ((convIdx C F).map fun p => f p.1 p.2).sum := by
  simp only [sum_range_list, convIdx, sum_flatMap_list, List.map_map, Function.comp_def]

/-- The rounded convolution and the exact convolution of the triples. -/
theorem float_conv {u τ G : R} {K : Kernels R} (hK : FloatKernels u K) (hτ : 1 ≤ τ) {x w : Tensor R}
    {y v : Tensor (R × R × R)} (hx : TRel Err3 x y) (hw : TRel (Tap3 τ G) w v) (s d : Nat) {C F : Nat}
    (hs : ∃ O, w.shape = [O, C, F]) (hG : (1 + u) ^ (C * F) * τ ≤ G) :
    Two (TRel Err3) (K.conv x w s d) (conv1d y v s d) := by
  have hk := hK.conv x w s d
  obtain ⟨O, hs⟩ := hs
  unfold FloatResult at hk
  unfold Tensor.conv1d at hk ⊢
  rw [hx.shape, hw.shape, hx.md, hw.md]
  rw [hs] at hk ⊢
  match hxs : x.shape with
  | [B, C', N] =>
    rw [hxs] at hk
    simp only at hk ⊢
    by_cases hc : C' = C ∧ x.md = w.md ∧ 1 ≤ F ∧ d * (F - 1) + 1 ≤ N ∧ 1 ≤ s
    · rw [if_pos hc] at hk ⊢
      simp only at hk
      obtain ⟨r', e, hm, hsh, hget⟩ := hk
      rw [e]
      refine .ok ⟨hm.symm, hsh.symm, fun i => ?_⟩
      by_cases hi : InB [B, O, (N - d * (F - 1) - 1) / s + 1] i
      · rw [ofFn_get_of _ _ hi]
        match i, hi with
        | [b, o, k], hi =>
          have h1 := hget b o k hi
          simp only
          rw [sum_convIdx]
          have e1 : C' = C := hc.1
          rw [e1]
          refine rounded_err3 (u := u) (τ := τ) (G := G) hK.unit hτ (convIdx C F) (fun p => w.get [o, p.1, p.2])
            (fun p => x.get [b, p.1, s * k + d * p.2]) _ _ (fun p _ => hw.get _) (fun p _ => hx.get _) ?_
            (le_of_eq (convIdx_length C F)) hG
          have e2 : convTerms x w s d b o k = (convIdx C F).map fun p => (w.get [o, p.1, p.2], x.get [b, p.1, s * k + d * p.2]) := by
            unfold convTerms convIdx
            rw [hs, List.map_flatMap]
            simp [List.map_map, Function.comp_def]
          rw [← e2]
          exact h1
      · rw [ofFn_get, if_neg hi, r'.supp i (by rw [hsh]; exact hi)]
        exact closed_err3.zero
    · rw [if_neg hc] at hk ⊢
      simp only at hk
      rw [hk]
      exact .err _
  | [] => rw [hxs] at hk; simp only at hk ⊢; rw [hk]; exact .err _
  | [_] => rw [hxs] at hk; simp only at hk ⊢; rw [hk]; exact .err _
  | [_, _] => rw [hxs] at hk; simp only at hk ⊢; rw [hk]; exact .err _
  | _ :: _ :: _ :: _ :: _ => rw [hxs] at hk; simp only at hk ⊢; rw [hk]; exact .err _

/-- The index pairs of a transposed convolution. -/
def convTIdx (C N F s m : Nat) : List (Nat × Nat) :=
  (List.range C).flatMap fun c => ((List.range N).filter fun k => s * k ≤ m ∧ m - s * k < F).map fun k => (c, k)

theorem sum_filter_list_if {M ι : Type} [AddCommMonoid M] (l : List ι) (p : ι → Prop) [DecidablePred p] (f : ι → M) :
    (l.map fun i => if p i then f i else 0).sum = ((l.filter fun i => p i).map f).sum := by
  induction l with
  | nil => rfl
  | cons a l ih =>
    by_cases h : p a <;> simp [h, ih]

theorem sum_convTIdx {M : Type} [AddCommMonoid M] (f : Nat → Nat → M) (C N F s m : Nat) :
    ∑ c ∈ Finset.range C, ∑ k ∈ Finset.range N, (if s * k ≤ m ∧ m - s * k < F then f c k else 0) =
      ((convTIdx C N F s m).map fun p => f p.1 p.2).sum := by
  simp only [sum_range_list, convTIdx, sum_flatMap_list, List.map_map, Function.comp_def]
  congr 1
  refine List.map_congr_left fun c _ => ?_
  exact sum_filter_list_if _ _ _

theorem convTIdx_length (C N F m : Nat) : (convTIdx C N F 2 m).length ≤ C * ((F + 1) / 2) := by
  unfold convTIdx
  rw [List.length_flatMap]
  simp only [List.length_map]
  rw [List.map_const', List.sum_replicate, List.length_range, smul_eq_mul]
  refine Nat.mul_le_mul_left _ ?_
  -- the indices lie in an interval of `(F + 1) / 2` numbers
  have h1 : ((List.range N).filter fun k => decide (2 * k ≤ m ∧ m - 2 * k < F)).length =
      (((List.range N).filter fun k => decide (2 * k ≤ m ∧ m - 2 * k < F)).toFinset).card :=
    (List.toFinset_card_of_nodup (List.nodup_range.filter _)).symm
  rw [h1]
  refine le_trans (Finset.card_le_card (t := Finset.Ico (m / 2 + 1 - (F + 1) / 2) (m / 2 + 1)) ?_) ?_
  · intro k hk
    simp only [List.mem_toFinset, List.mem_filter, decide_eq_true_eq] at hk
    simp only [Finset.mem_Ico]
    omega
  · rw [Nat.card_Ico]; omega

/-- The rounded transposed convolution and the exact one of the triples. -/
theorem float_convT {u τ G : R} {K : Kernels R} (hK : FloatKernels u K) (hτ : 1 ≤ τ) {x w : Tensor R}
    {y v : Tensor (R × R × R)} (hx : TRel Err3 x y) (hw : TRel (Tap3 τ G) w v) {C F : Nat}
    (hs : ∃ O, w.shape = [C, O, F]) (hG : (1 + u) ^ (C * ((F + 1) / 2)) * τ ≤ G) :
    Two (TRel Err3) (K.convTranspose x w 2) (convTranspose1d y v 2) := by
  have hk := hK.convTranspose x w 2
  obtain ⟨O, hs⟩ := hs
  unfold FloatResult at hk
  unfold Tensor.convTranspose1d at hk ⊢
  rw [hx.shape, hw.shape, hx.md, hw.md]
  rw [hs] at hk ⊢
  match hxs : x.shape with
  | [B, C', N] =>
    rw [hxs] at hk
    simp only at hk ⊢
    by_cases hc : C' = C ∧ x.md = w.md ∧ 1 ≤ F ∧ 1 ≤ N
    · rw [if_pos hc] at hk ⊢
      simp only at hk
      obtain ⟨r', e, hm, hsh, hget⟩ := hk
      rw [e]
      refine .ok ⟨hm.symm, hsh.symm, fun i => ?_⟩
      by_cases hi : InB [B, O, (N - 1) * 2 + F] i
      · rw [ofFn_get_of _ _ hi]
        match i, hi with
        | [b, o, m], hi =>
          have h1 := hget b o m hi
          simp only
          rw [sum_convTIdx (fun c k => v.get [c, o, m - 2 * k] * y.get [b, c, k])]
          have e1 : C' = C := hc.1
          rw [e1]
          refine rounded_err3 (u := u) (τ := τ) (G := G) hK.unit hτ (convTIdx C N F 2 m) (fun p => w.get [p.1, o, m - 2 * p.2])
            (fun p => x.get [b, p.1, p.2]) _ _ (fun p _ => hw.get _) (fun p _ => hx.get _) ?_
            (convTIdx_length C N F m) hG
          have e2 : convTransposeTerms x w 2 b o m =
              (convTIdx C N F 2 m).map fun p => (w.get [p.1, o, m - 2 * p.2], x.get [b, p.1, p.2]) := by
            unfold convTransposeTerms convTIdx
            rw [hs, hxs, List.map_flatMap]
            simp [List.map_map, Function.comp_def]
          rw [← e2]
          exact h1
      · rw [ofFn_get, if_neg hi, r'.supp i (by rw [hsh]; exact hi)]
        exact closed_err3.zero
    · rw [if_neg hc] at hk ⊢
      simp only at hk
      rw [hk]
      exact .err _
  | [] => rw [hxs] at hk; simp only at hk ⊢; rw [hk]; exact .err _
  | [_] => rw [hxs] at hk; simp only at hk ⊢; rw [hk]; exact .err _
  | [_, _] => rw [hxs] at hk; simp only at hk ⊢; rw [hk]; exact .err _
  | _ :: _ :: _ :: _ :: _ => rw [hxs] at hk; simp only at hk ⊢; rw [hk]; exact .err _

end Verif
