/-
Specification side: coefficients that use different bands.
-/
import Verif.Spec.Inner

namespace Verif.Spec
variable {R : Type}

/-- No band is used by both: at every place one of the two tensors is 0. -/
def DisjointBands [Zero R] (cs ds : List (Tensor R)) : Prop :=
  ∀ (i : Nat) (c d : Tensor R), cs[i]? = some c → ds[i]? = some d → (∀ idx, c.get idx = 0) ∨ ∀ idx, d.get idx = 0

/-- The same for coefficient containers. -/
def DisjointCoeffs [Zero R] (c d : Coeffs R) : Prop :=
  ∀ (i : Nat) (e e' : Entry R), c.items[i]? = some e → d.items[i]? = some e' → DisjointBands (entryTensors e) (entryTensors e')

end Verif.Spec
