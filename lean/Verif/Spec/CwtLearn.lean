/-
Specification side of C57: the Shannon and the complex Morlet wavelet with bandwidth `B` and centre frequency `C`, as
documented by pywt, and equally spaced grids.  Nothing here refers to the model of the code.
-/
import Mathlib.Analysis.SpecialFunctions.Trigonometric.Sinc

namespace Verif.Spec

/-- The wave `e^{2π i C t}`. -/
noncomputable def carrier (C t : ℝ) : ℂ := Complex.exp ((2 * Real.pi * C * t : ℝ) * Complex.I)

/-- The Shannon wavelet `√B · sinc(π B t) · e^{2π i C t}`. -/
noncomputable def shannon (B C t : ℝ) : ℂ := (Real.sqrt B * Real.sinc (Real.pi * B * t) : ℝ) * carrier C t

/-- The complex Morlet wavelet `(π B)^{-1/2} · e^{-t²/B} · e^{2π i C t}`. -/
noncomputable def morlet (B C t : ℝ) : ℂ := ((Real.sqrt (Real.pi * B))⁻¹ * Real.exp (-t ^ 2 / B) : ℝ) * carrier C t

/-- `n` equally spaced points from `lo` to `hi`. -/
structure UniformGrid (lo hi : ℝ) (n : Nat) (x : List ℝ) : Prop where
  length : x.length = n
  first : x.getD 0 0 = lo
  last : x.getD (n - 1) 0 = hi
  step : ∀ k, k + 1 < n → (x.getD (k + 1) 0 - x.getD k 0) * (n - 1 : ℝ) = hi - lo

end Verif.Spec
