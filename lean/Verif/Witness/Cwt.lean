/-
Concrete cases for the theorems about the continuous transform (C47, C57, C69).
-/
import Verif.Witness.Setup
import Verif.Props.CwtShift
import Verif.Props.CwtLearn

namespace Verif.Witness
open Tensor Spec Props

example := c47_samples_exist (s := 3) (step := 1 / 2) (range := 8) (by norm_num) [1, -1, Complex.I]

/-- A wavelet with separate filters for analysis and synthesis. -/
noncomputable def bior : CwtWavelet := ⟨.discrete, false, fun _ => .five [1, -1] [1, 1] [0, 1], fun _ => 1⟩
example := c47_biorthogonal (data := cwtDemoData) (scales := [1]) (w := bior) (T := 1) (p := 12) rfl (by simp)
example (k : CwtKind) (c : Bool) := c47_no_scales (data := cwtDemoData) (w := cwtDemo k c) (T := 1) (p := 12) (.inr rfl) cwtDemo_grid (by simp)

theorem demo_pos : ∀ s ∈ ([2, 1] : List ℝ), 0 < s ∧ 1 < (([1, 1, -1, -1] : List ℂ).length : ℝ) *
    (s * (([0, 1, 2, 3] : List ℝ).getD 1 0 - ([0, 1, 2, 3] : List ℝ).getD 0 0)) := by
  intro s hs
  simp only [List.mem_cons, List.not_mem_nil, or_false] at hs
  rcases hs with rfl | rfl <;> norm_num

theorem demo_real : ∀ i, (cwtDemoData.get i).im = 0 := by
  intro i
  unfold cwtDemoData ofFn
  dsimp only
  split
  · exact Complex.natCast_im _
  · rfl

theorem psi_real : ∀ k, (([1, 1, -1, -1] : List ℂ).getD k 0).im = 0 := by
  intro k
  match k with
  | 0 | 1 | 2 | 3 => simp
  | k + 4 => simp

example (k : CwtKind) (c : Bool) := (c47_samples_exist (s := 2) (step := 1) (range := 3) (by norm_num) [1, 1, -1, -1]).exists.imp fun h hh =>
  c47_real (data := cwtDemoData) (w := cwtDemo k c) psi_real demo_real hh 5 2 [1, 0] 1
example (k : CwtKind) (c : Bool) := c47_scales_independent (data := cwtDemoData) (scales := [2, 1]) (w := cwtDemo k c) (T := 1) (p := 12) (.inr rfl)
  cwtDemo_grid (by simp) (by decide) demo_pos (k := 1) (s := 1) rfl
/-- Another batch, and the sum. -/
noncomputable def cwtSum : Tensor ℂ := ofFn cwtDemoData.md cwtDemoData.shape fun i => cwtDemoData.get i + (3 : ℝ) * cwtDemoData.get i
theorem cwtSum_get : ∀ i, cwtSum.get i = cwtDemoData.get i + (3 : ℝ) * cwtDemoData.get i := by
  intro i
  by_cases h : InB cwtDemoData.shape i
  · exact ofFn_get_of _ _ h
  · have h1 : cwtDemoData.get i = 0 := by
      unfold cwtDemoData ofFn
      dsimp only
      rw [if_neg (by exact h)]
    rw [h1]
    unfold cwtSum ofFn
    dsimp only
    rw [if_neg h]
    simp
example (k : CwtKind) (c : Bool) := c47_linear (x := cwtDemoData) (y := cwtDemoData) (z := cwtSum) (a := 3) (scales := [2, 1]) (w := cwtDemo k c) (T := 1)
  (p := 12) (.inr rfl) cwtDemo_grid (by simp) (by decide) (by simp) rfl rfl cwtSum_get demo_pos
example (k : CwtKind) (c : Bool) := c69_reach (data := cwtDemoData) (data' := cwtSum) (scales := [2, 1]) (w := cwtDemo k c) (T := 1) (p := 12) (.inr rfl)
  cwtDemo_grid (by simp) (by decide) (by simp) demo_pos rfl

/-! ### Learnable wavelets -/

noncomputable def lw : LearnWavelet := LearnWavelet.init .shannon (3 / 2) 1 (-20) 20 true fun _ => 1
theorem lw_par : lw.bandwidthPar ≠ 0 := (Real.sqrt_pos.mpr (by norm_num : (0 : ℝ) < 3 / 2)).ne'
theorem lw_up : 0 < lw.upper := by show (0 : ℝ) < 20; norm_num
example := c57_no_nan lw (Or.inl rfl) 12 (by decide) rfl lw_up lw_par
example := (c57_no_nan lw (Or.inl rfl) 12 (by decide) rfl lw_up lw_par).imp fun psi h => h.imp fun x h => c57_grid lw 12 (by decide) h.1
example := c57_differentiable lw (Or.inl rfl) (t := 3) (by norm_num)
example := (c57_differentiable lw (Or.inl rfl) (t := 3) (by norm_num)).imp fun f h => c57_hermitian lw 3 2 (h.1 lw.bandwidthPar lw.centerPar lw_par)

end Verif.Witness
