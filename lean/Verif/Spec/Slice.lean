/-
Specification side of C61: single lines, planes and boxes of two tensors that may have different shapes, ranks and
transformed axes.
-/
import Verif.Spec.DwtNd
import Verif.Model.Util

namespace Verif.Spec
variable {R : Type} [Zero R]

/-- `idx` names a line (plane, box) of `t` along the axes `ax`: it is a position of `t`, except that its coordinates
along `ax` do not matter. -/
structure At (t : Tensor R) (ax idx : List Nat) : Prop where
  len : idx.length = t.rank
  lt : ∀ i, i < t.rank → i ∉ ax → idx.getD i 0 < t.shape.getD i 0

/-- The plane of `t` along the axes `ax` through `idx` and the plane of `t'` along the axes `ax'` through `idx'` have the
same sizes and the same values.  Nothing is said about the rest of the two tensors. -/
structure SamePlane (ax ax' idx idx' : List Nat) (t t' : Tensor R) : Prop where
  sizes : sizes ax t.shape = sizes ax' t'.shape
  get : ∀ ks, InB (Spec.sizes ax t.shape) ks → t.get (setMany idx ax ks) = t'.get (setMany idx' ax' ks)

/-- Corresponding tensors of two entries of the same form (with the same keys) are related. -/
inductive SameEntries (P : Tensor R → Tensor R → Prop) : Entry R → Entry R → Prop
  | tensor {t u} : P t u → SameEntries P (.tensor t) (.tensor u)
  | tuple {h v d h' v' d'} : P h h' → P v v' → P d d' → SameEntries P (.tuple h v d) (.tuple h' v' d')
  | dict {kv kv' : List (String × Tensor R)} :
      List.Forall₂ (fun a b => a.1 = b.1 ∧ P a.2 b.2) kv kv' → SameEntries P (.dict kv) (.dict kv')

/-- Corresponding tensors of two containers of the same form are related. -/
structure SameCoeffs (P : Tensor R → Tensor R → Prop) (c c' : Coeffs R) : Prop where
  kind : c.isList = c'.isList
  items : List.Forall₂ (SameEntries P) c.items c'.items

end Verif.Spec
