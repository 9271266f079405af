/-
Specification side: the energy of tensors and of coefficient containers.  Of the model only the container
types `Entry` and `Coeffs` are used.
-/
import Verif.Torch.Conv
import Verif.Model.Util
import Mathlib.Algebra.Ring.Basic

namespace Verif.Spec
open Tensor (boxSum)
variable {R : Type}

/-- The energy of a tensor: the sum of the squares of all entries (`boxSum` adds up the values at all
positions of a box with the given sizes). -/
def energy [CommRing R] (x : Tensor R) : R := boxSum x.shape fun i => x.get i ^ 2

/-- The tensors of an entry of a coefficient container. -/
def entryTensors [Zero R] : Entry R → List (Tensor R)
  | .tensor t => [t]
  | .tuple h v d => [h, v, d]
  | .dict kv => kv.map Prod.snd
  | .other => []

/-- The energy of an entry. -/
def entryEnergy [CommRing R] (e : Entry R) : R := ((entryTensors e).map energy).sum

/-- The energy of a coefficient container: the sum of the squares of all entries of all tensors. -/
def coeffEnergy [CommRing R] (c : Coeffs R) : R := (c.items.map entryEnergy).sum

/-- `keys` lists every word of length `l` over the letters exactly once. -/
def LevelKeys (letters : List Char) (l : Nat) (keys : List (List Char)) : Prop :=
  keys.Nodup ∧ ∀ key : List Char, key ∈ keys ↔ key.length = l ∧ ∀ c ∈ key, c ∈ letters

end Verif.Spec
