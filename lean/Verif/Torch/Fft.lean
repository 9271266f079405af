/-
Trusted semantics of the discrete Fourier transforms of torch in exact complex arithmetic.
-/
import Verif.Torch.Tensor
import Mathlib.Analysis.SpecialFunctions.Complex.Log

namespace Verif.Tensor

/-- `exp(2 π i a / n)`. -/
noncomputable def unitRoot (n : Nat) (a : ℤ) : ℂ := Complex.exp (2 * Real.pi * Complex.I * a / n)

/-- `torch.fft.fft(x, n, dim=-1)`: the last axis is cut off or filled up with zeros to `n` entries;
RuntimeError for `n = 0`, IndexError for a tensor without axes. -/
noncomputable def fft (x : Tensor ℂ) (n : Nat) : Except Err (Tensor ℂ) :=
  if x.rank = 0 then .error .indexError
  else if n = 0 then .error .runtimeError
  else .ok (ofFn x.md (x.shape.set (x.rank - 1) n) fun i =>
    ∑ j ∈ Finset.range n, x.get (i.set (x.rank - 1) j) * unitRoot n (-(j * i.getD (x.rank - 1) 0 : ℤ)))

/-- `torch.fft.ifft(x, dim=-1)`. -/
noncomputable def ifft (x : Tensor ℂ) : Except Err (Tensor ℂ) :=
  if x.rank = 0 then .error .indexError
  else
    let n := x.shape.getD (x.rank - 1) 0
    if n = 0 then .error .runtimeError
    else .ok (ofFn x.md x.shape fun i =>
      (∑ k ∈ Finset.range n, x.get (i.set (x.rank - 1) k) * unitRoot n (k * i.getD (x.rank - 1) 0 : ℤ)) / n)

end Verif.Tensor
