/-
Specification side: the kinds of entries a coefficient container may have.
Of the model only the container types are used.
-/
import Verif.Spec.Containers

namespace Verif.Spec
variable {R : Type} [Zero R]

/-- The entry is a triple of tensors with the property `P`. -/
def TripleOf (P : Tensor R → Prop) (e : Entry R) : Prop := ∃ h v d, e = .tuple h v d ∧ P h ∧ P v ∧ P d

/-- The entry is a dictionary of tensors with the property `P`, whose items satisfy `Q`. -/
def DictOf (P : Tensor R → Prop) (Q : List (String × Tensor R) → Prop) (e : Entry R) : Prop :=
  ∃ kv, e = .dict kv ∧ (∀ p ∈ kv, P p.2) ∧ Q kv

/-- All tensors of the entry have the property `P` (an object of a foreign type does not count). -/
def TensorsOf (P : Tensor R → Prop) : Entry R → Prop
  | .tensor t => P t
  | .tuple h v d => P h ∧ P v ∧ P d
  | .dict kv => ∀ p ∈ kv, P p.2
  | .other => False

end Verif.Spec
