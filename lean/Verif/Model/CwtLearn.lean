/-
Model of the learnable continuous wavelets of src/ptwt/continuous_transform.py in exact arithmetic.  A value is
`none` where the floating point computation gives NaN.
-/
import Verif.Model.Cwt
import Mathlib.Analysis.SpecialFunctions.Trigonometric.Basic

namespace Verif
open Complex (I)
open Tensor

/-- The class of a learnable wavelet, `continuous_transform.py:233-318`: the base class, Shannon, Morlet. -/
inductive LearnClass where
  | base | shannon | morlet
  deriving DecidableEq, Repr

/-- A `_DifferentiableContinuousWavelet`, `continuous_transform.py:233-288`: the two parameters, which an optimiser may
change, and what pywt provides. -/
structure LearnWavelet where
  cls : LearnClass
  bandwidthPar : ℝ
  centerPar : ℝ
  lower : ℝ
  upper : ℝ
  complexCwt : Bool
  centralFrequency : Nat → ℝ

/-- `_DifferentiableContinuousWavelet.__init__`, `continuous_transform.py:239-253`: the parameters are the roots of the
frequencies of pywt (NaN for negative ones, which pywt does not provide). -/
noncomputable def LearnWavelet.init (cls : LearnClass) (bandwidthFrequency centerFrequency lower upper : ℝ)
    (complexCwt : Bool) (cf : Nat → ℝ) : LearnWavelet :=
  ⟨cls, Real.sqrt bandwidthFrequency, Real.sqrt centerFrequency, lower, upper, complexCwt, cf⟩

/-- The property `bandwidth`, `continuous_transform.py:263-266`. -/
def LearnWavelet.bandwidth (w : LearnWavelet) : ℝ := w.bandwidthPar * w.bandwidthPar

/-- The property `center`, `continuous_transform.py:268-271`. -/
def LearnWavelet.center (w : LearnWavelet) : ℝ := w.centerPar * w.centerPar

open Classical in
/-- `_ShannonWavelet.__call__` at one grid value, `continuous_transform.py:294-304`; NaN for a zero denominator (the
numerator is 0 as well). -/
noncomputable def shannonAt (w : LearnWavelet) (t : ℝ) : Option ℂ :=
  if Real.pi * w.bandwidth * t = 0 then none
  else some ((Real.sqrt w.bandwidth : ℂ) *
    ((Real.sin (Real.pi * w.bandwidth * t) / (Real.pi * w.bandwidth * t) : ℝ) : ℂ) *
    Complex.exp (I * 2 * Real.pi * w.center * t))

open Classical in
/-- `_ComplexMorletWavelet.__call__` at one grid value, `continuous_transform.py:310-318`; a zero bandwidth gives
`inf * 0` or `0 / 0`, both NaN. -/
noncomputable def morletAt (w : LearnWavelet) (t : ℝ) : Option ℂ :=
  if w.bandwidth = 0 then none
  else some (((1 / Real.sqrt (Real.pi * w.bandwidth) : ℝ) : ℂ) * ((Real.exp (-(t ^ 2) / w.bandwidth) : ℝ) : ℂ) *
    Complex.exp (I * 2 * Real.pi * w.center * t))

/-- `self(grid)`, `continuous_transform.py:255-261` and the two subclasses. -/
noncomputable def LearnWavelet.call (w : LearnWavelet) (grid : List ℝ) : Except Err (List (Option ℂ)) :=
  match w.cls with
  | .base => .error .notImplementedError
  | .shannon => .ok (grid.map (shannonAt w))
  | .morlet => .ok (grid.map (morletAt w))

/-- `torch.linspace(lo, hi, n)`: equally spaced from `lo` to `hi`, `[lo]` for one point. -/
noncomputable def linspace (lo hi : ℝ) (n : Nat) : List ℝ :=
  (List.range n).map fun k : Nat => lo + k * ((hi - lo) / ((n - 1 : Nat) : ℝ))

/-- `_DifferentiableContinuousWavelet.wavefun`, `continuous_transform.py:273-288`. -/
noncomputable def LearnWavelet.wavefun (w : LearnWavelet) (precision : Nat) :
    Except Err (List (Option ℂ) × List ℝ) := do
  let grid := linspace w.lower w.upper (2 ^ precision)
  let psi ← w.call grid
  pure (psi, grid)

/-- What `cwt` (`continuous_transform.py:27-156`) sees of a learnable wavelet with the given wave function: a complex or
real learnable wavelet.  (`getD 0`: with a NaN in the wave function Python returns NaNs, which is not modelled.) -/
noncomputable def LearnWavelet.asCwt (w : LearnWavelet) (psi : List (Option ℂ)) (x : List ℝ) : CwtWavelet where
  kind := .learnable
  complexCwt := w.complexCwt
  wavefun _ := .two (psi.map fun z => z.getD 0) x
  centralFrequency := w.centralFrequency

/-- `cwt` with a learnable wavelet, `continuous_transform.py:27-156`: the wave function is computed first
(`_integrate_wavelet`, lines 84 and 209). -/
noncomputable def cwtLearn (data : Tensor ℂ) (scales : List ℝ) (w : LearnWavelet) (samplingPeriod : ℝ) (precision : Nat) :
    Except Err (Tensor ℂ × List ℝ) := do
  let r ← w.wavefun precision
  cwt data scales (w.asCwt r.1 r.2) samplingPeriod precision

end Verif
