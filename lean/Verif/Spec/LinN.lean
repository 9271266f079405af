/-
Specification side: coefficient containers related tensor by tensor (for linear combinations of the
nested lists, tuples and dictionaries that the transforms take and return).
-/
import Verif.Spec.Lin
import Verif.Model.Util

namespace Verif.Spec
variable {R : Type} [Zero R]

/-- Entries of containers related tensor by tensor. -/
inductive Entry3 (P : Tensor R → Tensor R → Tensor R → Prop) : Entry R → Entry R → Entry R → Prop where
  | tensor {x y z : Tensor R} : P x y z → Entry3 P (.tensor x) (.tensor y) (.tensor z)
  | tuple {a b d a' b' d' a'' b'' d'' : Tensor R} : P a a' a'' → P b b' b'' → P d d' d'' →
      Entry3 P (.tuple a b d) (.tuple a' b' d') (.tuple a'' b'' d'')
  | dict {kv kv' kv'' : List (String × Tensor R)} :
      Forall₃ (fun e e' e'' => e'.1 = e.1 ∧ e''.1 = e.1 ∧ P e.2 e'.2 e''.2) kv kv' kv'' →
      Entry3 P (.dict kv) (.dict kv') (.dict kv'')
  | other : Entry3 P .other .other .other

/-- Containers related tensor by tensor. -/
structure Coeffs3 (P : Tensor R → Tensor R → Tensor R → Prop) (a b d : Coeffs R) : Prop where
  kind₁ : b.isList = a.isList
  kind₂ : d.isList = a.isList
  items : Forall₃ (Entry3 P) a.items b.items d.items

end Verif.Spec
