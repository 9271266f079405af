/-
Model of the continuous wavelet transform, src/ptwt/continuous_transform.py, in exact arithmetic: entries
are complex numbers, grid positions and scales are real numbers.  dtype promotion, the device moves of the
learnable wavelets and autograd are not modelled.
-/
import Verif.Torch.Fft
import Mathlib.Data.Nat.Log
import Mathlib.Analysis.SpecialFunctions.Pow.NNReal

namespace Verif
open Tensor

/-- The class of the wavelet object, `continuous_transform.py:72-75`: a `pywt.ContinuousWavelet`, a discrete
`pywt.Wavelet` or a learnable wavelet. -/
inductive CwtKind where
  | continuous | discrete | learnable
  deriving DecidableEq, Repr

/-- What `wavelet.wavefun(precision)` returns, `continuous_transform.py:159-226` (lines 209-226): two, three
or five arrays, of which the wavelet function(s) and the grid are used. -/
inductive WaveFun where
  | two (psi : List ℂ) (x : List ℝ)
  | three (psi : List ℂ) (x : List ℝ)
  | five (psiD psiR : List ℂ) (x : List ℝ)

/-- A wavelet as `cwt` sees it.  `wavefun` and `centralFrequency` stand for pywt. -/
structure CwtWavelet where
  kind : CwtKind
  complexCwt : Bool
  wavefun : Nat → WaveFun
  centralFrequency : Nat → ℝ

/-- `_integrate`, `continuous_transform.py:191-202`: cumulative sum times the step. -/
noncomputable def integrate (arr : List ℂ) (step : ℝ) : List ℂ :=
  (List.range arr.length).map fun k => (∑ i ∈ Finset.range (k + 1), arr.getD i 0) * step

/-- `x[1] - x[0]`. -/
noncomputable def gridStep : List ℝ → Except Err ℝ
  | x0 :: x1 :: _ => .ok (x1 - x0)
  | _ => .error .indexError

/-- `_integrate_wavelet`, `continuous_transform.py:159-226`: the integrals and the grid. -/
noncomputable def integrateWavelet (w : CwtWavelet) (precision : Nat) : Except Err (List (List ℂ) × List ℝ) :=
  match w.wavefun precision with
  | .two psi x => do
    let step ← gridStep x
    pure ([integrate psi step], x)
  | .three psi x => do
    let step ← gridStep x
    pure ([integrate psi step], x)
  | .five psiD psiR x => do
    let step ← gridStep x
    pure ([integrate psiD step, integrate psiR step], x)

/-- `_next_fast_len`, `continuous_transform.py:17-24`; `np.log2` is exact. -/
def nextFastLen (n : Nat) : Nat := if n = 0 then 0 else 2 ^ Nat.clog 2 n

/-- `t[j]` for an integer `j`, negative ones count from the end. -/
def pyIndex (l : List ℂ) (j : ℤ) : Except Err ℂ :=
  match l[(if j < 0 then j + l.length else j).toNat]? with
  | some v => if j < -l.length then .error .indexError else .ok v
  | none => .error .indexError

/-- The sample positions, `continuous_transform.py:27-156` (lines 104-111).  A NaN index (zero scale) is out
of range. -/
noncomputable def cwtIndices (scale step range : ℝ) (len : Nat) : Except Err (List ℤ) :=
  if scale * range + 1 < 0 then .error .runtimeError
  else if scale * range + 1 = 0 ∨ scale * step = 0 then .error .indexError
  else
    let j := (List.range ⌈scale * range + 1⌉.toNat).map fun k : ℕ => ⌊(k : ℝ) / (scale * step)⌋
    .ok (if (len : ℤ) ≤ j.getLast?.getD 0 then j.filter fun k => k < len else j)

/-- `fft_data`, recomputed if the size changes, `continuous_transform.py:27-156` (lines 118-122). -/
noncomputable def cachedFft (data : Tensor ℂ) (size : Nat) (cache : Option (Nat × Tensor ℂ)) :
    Except Err (Tensor ℂ) :=
  match cache with
  | some c => if size ≠ c.1 then fft data size else .ok c.2
  | none => fft data size

/-- The centre crop, `continuous_transform.py:27-156` (lines 130-134). -/
def cwtCrop (coef : Tensor ℂ) (N : Nat) : Except Err (Tensor ℂ) :=
  let L := coef.sizeFromEnd 1
  if N < L then .ok (coef.slice (coef.rank - 1) ((L - N) / 2) (L - (L - N + 1) / 2))
  else if L < N then .error .valueError
  else .ok coef

/-- `torch.diff(t, dim=-1)`. -/
noncomputable def diffLast (t : Tensor ℂ) : Tensor ℂ :=
  ofFn t.md (t.shape.set (t.rank - 1) (t.sizeFromEnd 1 - 1)) fun i =>
    t.get (i.set (t.rank - 1) (i.getD (t.rank - 1) 0 + 1)) - t.get i

/-- A rank-one tensor. -/
def vecTensor (md : Meta) (l : List ℂ) : Tensor ℂ := ofFn md [l.length] fun i => l.getD (i.getD 0 0) 0

/-- One scale, `continuous_transform.py:27-156` (lines 104-136): the coefficients and the new cache. -/
noncomputable def cwtScale (data : Tensor ℂ) (intPsi : List ℂ) (step range scale : ℝ)
    (cache : Option (Nat × Tensor ℂ)) : Except Err (Tensor ℂ × (Nat × Tensor ℂ)) := do
  let j ← cwtIndices scale step range intPsi.length
  let s ← j.mapM (pyIndex intPsi)
  let h := s.reverse
  let N := data.sizeFromEnd 1
  let size := nextFastLen (N + h.length - 1)
  let fd ← cachedFft data size cache
  let fw ← fft (vecTensor data.md h) size
  let conv ← ifft (ofFn fd.md fd.shape fun i => fw.get [i.getD (data.rank - 1) 0] * fd.get i)
  let d := diffLast (conv.slice (data.rank - 1) 0 (N + h.length - 1))
  let coef ← cwtCrop (ofFn d.md d.shape fun i => -(Real.sqrt scale : ℂ) * d.get i) N
  pure (coef, (size, fd))

/-- The loop over the scales, `continuous_transform.py:27-156` (lines 99-136). -/
noncomputable def cwtLoop (data : Tensor ℂ) (intPsi : List ℂ) (step range : ℝ) :
    List ℝ → Option (Nat × Tensor ℂ) → Except Err (List (Tensor ℂ))
  | [], _ => .ok []
  | s :: ss, cache => do
    let r ← cwtScale data intPsi step range s cache
    let rs ← cwtLoop data intPsi step range ss (some r.2)
    pure (r.1 :: rs)

/-- `cwt`, `continuous_transform.py:27-156`.  `int_psi, x = …` fails for the three values of a biorthogonal
wavelet; `int_psi` is conjugated for complex wavelets; the real part is taken for all others.  Data without
axes: IndexError (`data.shape[-1]`). -/
noncomputable def cwt (data : Tensor ℂ) (scales : List ℝ) (w : CwtWavelet) (samplingPeriod : ℝ)
    (precision : Nat) : Except Err (Tensor ℂ × List ℝ) := do
  let r ← integrateWavelet w precision
  match r.1 with
  | [intPsi] => do
    let cplx : Bool := w.kind ≠ .discrete && w.complexCwt
    let intPsi := if cplx then intPsi.map (starRingEnd ℂ) else intPsi
    let step ← gridStep r.2
    let out ← cwtLoop data intPsi step (r.2.getLast?.getD 0 - r.2.headD 0) scales none
    let t ← stack0 out
    pure (if cplx then t else ofFn t.md t.shape fun i => ((t.get i).re : ℂ),
      scales.map fun s => w.centralFrequency precision / s / samplingPeriod)
  | _ => .error .valueError

end Verif
