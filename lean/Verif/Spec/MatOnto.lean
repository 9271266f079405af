/-
Specification side: coefficients of given sizes, with arbitrary values.
-/
import Verif.Spec.MatN
import Verif.Spec.IdwtNd

namespace Verif.Spec
variable {R : Type}

/-- A coefficient container with `L` levels of details and arbitrary values: a Python tuple; all tensors have the meta
data `md`, the approximation the shape `shape L`, the details of level `s + 1` the shape `shape (s + 1)`; each detail
entry is of the form `D`. -/
structure CoeffSizes [Zero R] (D : (List Bool → Tensor R → Prop) → Entry R → Prop) (md : Meta) (shape : Nat → List Nat)
    (L : Nat) (c : Coeffs R) : Prop where
  kind : c.isList = false
  length : c.items.length = L + 1
  approx : ∃ t, c.items[0]? = some (.tensor t) ∧ Uniform md (shape L) t
  detail : ∀ s, s < L → ∃ e, c.items[L - s]? = some e ∧ D (fun _ t => Uniform md (shape (s + 1)) t) e

end Verif.Spec
