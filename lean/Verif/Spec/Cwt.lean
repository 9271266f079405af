/-
Specification side: the continuous wavelet transform of a sampled signal by convolution with the integrated
wavelet.  Nothing here refers to the model of the code.
-/
import Verif.Spec.Wavelet
import Verif.Torch.Tensor
import Mathlib.Analysis.SpecialFunctions.Pow.NNReal

namespace Verif.Spec

/-- The wavelet, given by its values on a grid with the given step, integrated from the left. -/
noncomputable def integral (psi : List ℂ) (step : ℝ) (k : Nat) : ℂ :=
  ∑ i ∈ Finset.range (k + 1), psi.getD i 0 * step

/-- `h` samples the function `g`, which is known at the grid points `0, …, len - 1`, at the points
`k / (s·step)`, `k = 0, 1, …` (rounded down), as long as they are in the range of the grid. -/
structure Sampled (s step range : ℝ) (len : Nat) (g : Nat → ℂ) (h : List ℂ) : Prop where
  length : ∀ k : Nat, k < h.length ↔ (k : ℝ) < s * range + 1 ∧ (k : ℝ) < len * (s * step)
  value : ∀ k, k < h.length → h.getD k 0 = g ⌊(k : ℝ) / (s * step)⌋₊

/-- The linear convolution of a signal with `N` samples with the reversed filter `h`. -/
noncomputable def linConv (h : List ℂ) (N : Nat) (v : Nat → ℂ) (m : Nat) : ℂ :=
  ∑ j ∈ Finset.range N, v j * tap h.reverse ((m : ℤ) - j)

/-- The coefficient of scale `s` at time `t`: minus the root of the scale times the difference of the
convolution, read in the middle. -/
noncomputable def cwtAt (h : List ℂ) (s : ℝ) (N : Nat) (v : Nat → ℂ) (t : Nat) : ℂ :=
  -(Real.sqrt s : ℂ) *
    (linConv h N v (t + (h.length - 2) / 2 + 1) - linConv h N v (t + (h.length - 2) / 2))

end Verif.Spec
