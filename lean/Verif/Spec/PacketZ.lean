/-
Specification side: wavelet packets of signals on all integers, and the letters of packet keys.
-/
import Verif.Spec.ZeroModeN
import Verif.Spec.Packet2

namespace Verif.Spec
variable {R : Type}

/-- The packet coefficients of a signal on all integers: filter and keep every second output, letter by letter. -/
def packetZ [NonUnitalNonAssocSemiring R] (w : Wavelet R) : (ℤ → R) → Key → ℤ → R
  | e, [] => e
  | e, c :: k => packetZ w (analysisZ (if c = 'a' then w.decLo else w.decHi) e) k

/-- The packet coefficients of a two-dimensional signal on all integer positions; `band` says which filters a letter names. -/
def packetZN [NonUnitalNonAssocSemiring R] (w : Wavelet R) (band : Char → List Bool) : (List ℤ → R) → Key → List ℤ → R
  | E, [] => E
  | E, c :: k => packetZN w band (analysisZN (bandFilt w.decLo w.decHi (band c)) E) k

/-- How many high-pass filters the letters of a key name in all. -/
def highPasses (band : Char → List Bool) (key : Key) : Nat := (key.map fun c => (band c).count true).sum

end Verif.Spec
