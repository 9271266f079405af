/-
Specification side: one-dimensional wavelet packet coefficients.
-/
import Verif.Spec.Dwt
import Verif.Model.PacketOrder

namespace Verif.Spec
variable {R : Type} [NonUnitalNonAssocSemiring R]

/-- The packet coefficients of a signal `x` of length `n`: the letters of the key name, in order, the
filters applied; `a` is the low pass, `d` the high pass filter. -/
def packetLine (m : Mode) (w : Wavelet R) : Nat → (Nat → R) → Key → Nat → R
  | _, x, [] => x
  | n, x, c :: k =>
    packetLine m w (outLen w.len n) (dwtStep m (if c = 'a' then w.decLo else w.decHi) n x) k

end Verif.Spec
