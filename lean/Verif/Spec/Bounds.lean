/-
Specification side of C70: bounds for numbers, and the norm that bounds what a filter does to them.
-/
import Verif.Spec.Rel
import Mathlib.Algebra.Order.Group.Unbundled.Abs
import Mathlib.Algebra.Order.Ring.Defs

namespace Verif.Spec
variable {R : Type}

/-- The number is at most `b` in absolute value. -/
def Dom [Ring R] [LinearOrder R] (a b : R) : Prop := |a| ≤ b

/-- The sum of the absolute values of the taps of a filter. -/
def l1 [Ring R] [LinearOrder R] (h : List R) : R := (h.map fun a => |a|).sum

/-- The norms of the filters of a band, one per axis: `true` is the high-pass filter. -/
def bandNorms [Ring R] [LinearOrder R] (w : Wavelet R) (bs : List Bool) : List R :=
  bs.map fun b => if b then l1 w.decHi else l1 w.decLo

/-- What an inverse transform makes of coefficients bounded by `A` (approximation) and `ds` (details, coarsest
first): every level multiplies the bound of what has been synthesised so far by `H` and adds `G` times the bound of
the details. -/
def idwtBound [Ring R] (H G A : R) (ds : List R) : R := ds.foldl (fun a d => H * a + G * d) A

end Verif.Spec
