/-
Specification side: inner products of tensors and of coefficient containers.  Of the model only the container
types `Entry` and `Coeffs` are used.
-/
import Verif.Spec.Energy

namespace Verif.Spec
open Tensor (boxSum)
variable {R : Type}

/-- The inner product of two tensors: the sum of the products of all entries at positions of the first (if the
second one is larger its remaining entries do not count). -/
def innerProd [CommRing R] (x y : Tensor R) : R := boxSum x.shape fun i => x.get i * y.get i

/-- The inner product of two lists of tensors. -/
def listDot [CommRing R] (cs ds : List (Tensor R)) : R := (List.zipWith innerProd cs ds).sum

/-- The inner product of two entries. -/
def entryDot [CommRing R] (e e' : Entry R) : R := listDot (entryTensors e) (entryTensors e')

/-- The inner product of two coefficient containers. -/
def coeffDot [CommRing R] (c d : Coeffs R) : R := (List.zipWith entryDot c.items d.items).sum

/-- Same device, dtype and shape. -/
def SameTensor [Zero R] (t u : Tensor R) : Prop := u.md = t.md ∧ u.shape = t.shape

/-- Entries of the same form: tensors of the same shapes in the same places. -/
def EntryForm [Zero R] : Entry R → Entry R → Prop
  | .tensor t, .tensor u => SameTensor t u
  | .tuple h v d, .tuple h' v' d' => SameTensor h h' ∧ SameTensor v v' ∧ SameTensor d d'
  | .dict kv, .dict kv' => List.Forall₂ (fun p q => p.1 = q.1 ∧ SameTensor p.2 q.2) kv kv'
  | _, _ => False

/-- Containers of the same form, with arbitrary values. -/
def SameForm [Zero R] (c d : Coeffs R) : Prop := c.isList = d.isList ∧ List.Forall₂ EntryForm c.items d.items

end Verif.Spec
