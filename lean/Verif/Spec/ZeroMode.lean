/-
Specification side: the wavelet transform of signals on all integers, and signals that are delayed or continued by zeros.
-/
import Verif.Spec.Line

namespace Verif.Spec
variable {R : Type}

/-- Filter a signal on the integers with `h` and keep every second output. -/
def analysisZ [NonUnitalNonAssocSemiring R] (h : List R) (e : ℤ → R) (k : ℤ) : R :=
  ∑ j ∈ Finset.range h.length, h.getD j 0 * e (2 * k + 1 - j)

/-- Level-`s` approximation of a signal on the integers. -/
def approxZ [NonUnitalNonAssocSemiring R] (w : Wavelet R) (e : ℤ → R) : Nat → ℤ → R
  | 0 => e
  | s + 1 => analysisZ w.decLo (approxZ w e s)

/-- Level-`s+1` details of a signal on the integers. -/
def detailZ [NonUnitalNonAssocSemiring R] (w : Wavelet R) (e : ℤ → R) (s : Nat) : ℤ → R :=
  analysisZ w.decHi (approxZ w e s)

/-- The line of `t` along axis `a` through `idx`, continued by zeros in both directions. -/
def lineZ [Zero R] (t : Tensor R) (a : Nat) (idx : List Nat) (j : ℤ) : R :=
  if 0 ≤ j ∧ j < t.shape.getD a 0 then t.get (idx.set a j.toNat) else 0

/-- `y` is `x` with `δ` zeros in front and possibly further zeros behind along axis `a`. -/
structure LaterBy [Zero R] (a δ : Nat) (x y : Tensor R) : Prop where
  md : y.md = x.md
  shape : y.shape = x.shape.set a (y.shape.getD a 0)
  room : x.shape.getD a 0 + δ ≤ y.shape.getD a 0
  get : ∀ idx, InB y.shape idx → y.get idx =
    if δ ≤ idx.getD a 0 ∧ idx.getD a 0 < x.shape.getD a 0 + δ then x.get (idx.set a (idx.getD a 0 - δ)) else 0

end Verif.Spec
