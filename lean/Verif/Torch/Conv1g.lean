/-
Trusted semantics of the grouped, dilated transposed convolution and of the mean used by the
stationary transform.
-/
import Verif.Torch.Conv
import Mathlib.Algebra.Field.Basic

namespace Verif.Tensor
variable {R : Type}

/-- `torch.nn.functional.conv_transpose1d(x, w, dilation=d, groups=C, padding=p)` with stride 1,
`x : [B, C, N]`, `w : [C, 1, F]`: every channel has its own filter, `y[m] = ∑ w[j] x[k]` over all
`k + d j = m + p`; the output length is `(N - 1) - 2 p + d (F - 1) + 1`, RuntimeError if that is not
positive. -/
def convTranspose1dG [NonUnitalNonAssocSemiring R] (x w : Tensor R) (d p : Nat) :
    Except Err (Tensor R) :=
  match x.shape, w.shape with
  | [B, C, N], [C', O, F] =>
    if C = C' ∧ O = 1 ∧ x.md = w.md ∧ 1 ≤ F ∧ 1 ≤ N ∧ 1 ≤ d ∧ 2 * p < N + d * (F - 1) then
      .ok (ofFn x.md [B, C, N + d * (F - 1) - 2 * p] fun i =>
        match i with
        | [b, c, m] => ∑ j ∈ Finset.range F, ∑ k ∈ Finset.range N,
            if k + d * j = m + p then w.get [c, 0, j] * x.get [b, c, k] else 0
        | _ => 0)
    else .error .runtimeError
  | _, _ => .error .runtimeError

/-- `torch.mean(x, 1)`: IndexError for rank < 2.  The mean over an empty axis (nan in torch) does
not occur and is 0 here. -/
def mean1 [Semiring R] [Div R] (x : Tensor R) : Except Err (Tensor R) :=
  match x.shape with
  | s :: c :: ss => .ok (ofFn x.md (s :: ss) fun i =>
      (∑ k ∈ Finset.range c, x.get (i.headD 0 :: k :: i.tail)) / (c : R))
  | _ => .error .indexError

end Verif.Tensor
