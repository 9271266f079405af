/-
Specification side: coefficients of one and the same tensor with the transformed axes listed in another order.
-/
import Verif.Spec.Containers

namespace Verif.Spec
variable {R : Type}

/-- Exchange the horizontal and the vertical details of a tuple. -/
def exchange [Zero R] : Entry R → Entry R
  | .tuple h v d => .tuple v h d
  | e => e

/-- Exchange the horizontal and the vertical details of every level. -/
def exchangeAll [Zero R] (c : Coeffs R) : Coeffs R := ⟨c.isList, c.items.map exchange⟩

/-- `c'` is `c` with the bands renamed from the axis order `as` to the axis order `as'`: the approximations are equal;
on every level there are dictionaries with the same keys; and two keys which give every axis the same letter name equal
tensors. -/
structure Relabelled [Zero R] (as as' : List Int) (c c' : Coeffs R) : Prop where
  kind : c'.isList = c.isList
  length : c'.items.length = c.items.length
  approx : c'.items[0]? = c.items[0]?
  detail : ∀ i, 0 < i → i < c.items.length → ∃ kv kv', c.items[i]? = some (.dict kv) ∧ c'.items[i]? = some (.dict kv') ∧
    kv'.map Prod.fst = kv.map Prod.fst ∧
    ∀ k t k' t', (k, t) ∈ kv → (k', t') ∈ kv' → (as.zip k.toList).Perm (as'.zip k'.toList) → t' = t

end Verif.Spec
