/-
Specification side: one-dimensional wavelet packet coefficients with boundary matrices.
-/
import Verif.Spec.Mat1
import Verif.Model.PacketOrder

namespace Verif.Spec
variable {R : Type} [NonUnitalNonAssocSemiring R]

/-- The packet coefficients of a signal `x` of length `n` for a family `A` of square matrices, one per even
length: at each letter the signal, extended by one zero if its length is odd, is multiplied by the matrix
of its length; `a` keeps the first, `d` the second half of the product. -/
def matPacketLine (A : Nat → Nat → Nat → R) : Nat → (Nat → R) → Key → Nat → R
  | _, x, [] => x
  | n, x, c :: k =>
    matPacketLine A (evenLen n / 2) (if c = 'a' then stepLo .zero A n x else stepHi .zero A n x) k

end Verif.Spec
