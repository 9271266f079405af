/-
Specification side: weighting the bands of a coefficient list or container.
-/
import Verif.Model.Util

namespace Verif.Spec
variable {R : Type}

/-- The tensor with every entry multiplied by `a`. -/
def scaleT [MulZeroClass R] (a : R) (t : Tensor R) : Tensor R := Tensor.ofFn t.md t.shape fun i => a * t.get i

/-- The list with the `k`-th tensor multiplied by `m k` (`start` is the number of the first one). -/
def weightList [MulZeroClass R] (m : Nat → R) : (start : Nat) → List (Tensor R) → List (Tensor R)
  | _, [] => []
  | k, t :: ts => scaleT (m k) t :: weightList m (k + 1) ts

/-- The place of a band in an entry of a container: a tensor of its own, one of the three tensors of a tuple, or the
tensor under a key of a dictionary. -/
inductive Place
  | single
  | first
  | second
  | third
  | key (s : String)
deriving DecidableEq

/-- The entry with each tensor multiplied by the weight of its place. -/
def weightEntry [MulZeroClass R] (m : Place → R) : Entry R → Entry R
  | .tensor t => .tensor (scaleT (m .single) t)
  | .tuple a b c => .tuple (scaleT (m .first) a) (scaleT (m .second) b) (scaleT (m .third) c)
  | .dict kv => .dict (kv.map fun p => (p.1, scaleT (m (.key p.1)) p.2))
  | .other => .other

/-- The entries, the `k`-th one weighted with `m k`. -/
def weightItems [MulZeroClass R] (m : Nat → Place → R) : (start : Nat) → List (Entry R) → List (Entry R)
  | _, [] => []
  | k, e :: es => weightEntry (m k) e :: weightItems m (k + 1) es

/-- The container with each band multiplied by its weight. -/
def weightCoeffs [MulZeroClass R] (m : Nat → Place → R) (c : Coeffs R) : Coeffs R :=
  ⟨c.isList, weightItems m 0 c.items⟩

/-- `z` is the sum of the tensors `zs`, all of which have its shape, dtype and device. -/
structure IsSum [AddCommMonoid R] (zs : List (Tensor R)) (z : Tensor R) : Prop where
  forms : ∀ t ∈ zs, t.md = z.md ∧ t.shape = z.shape
  get : ∀ i, (zs.map fun t => t.get i).sum = z.get i

end Verif.Spec
