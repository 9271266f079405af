/-
Specification side: relating two runs of the same program over two coefficient rings.  A relation between
the numbers is lifted to tensors, filter banks, containers and to results of calls that may raise.
-/
import Verif.Spec.Lin
import Verif.Model.Util

namespace Verif.Spec
variable {R S : Type}

/-- A relation between the numbers of two rings that respects zero, sums and products. -/
structure Closed [NonUnitalNonAssocSemiring R] [NonUnitalNonAssocSemiring S] (P : R → S → Prop) : Prop where
  zero : P 0 0
  add : ∀ {a b c d}, P a b → P c d → P (a + c) (b + d)
  mul : ∀ {a b c d}, P a b → P c d → P (a * c) (b * d)

/-- Tensors of the same shape, dtype and device whose entries are related. -/
structure TRel [Zero R] [Zero S] (P : R → S → Prop) (x : Tensor R) (y : Tensor S) : Prop where
  md : y.md = x.md
  shape : y.shape = x.shape
  get : ∀ i, P (x.get i) (y.get i)

/-- Filter banks whose taps are related (in particular the filters have the same lengths). -/
structure WRel (P : R → S → Prop) (w : Wavelet R) (v : Wavelet S) : Prop where
  decLo : List.Forall₂ P w.decLo v.decLo
  decHi : List.Forall₂ P w.decHi v.decHi
  recLo : List.Forall₂ P w.recLo v.recLo
  recHi : List.Forall₂ P w.recHi v.recHi

/-- Two calls either raise the same exception or both succeed with related results. -/
inductive Two {α β : Type} (P : α → β → Prop) : Except Err α → Except Err β → Prop where
  | ok {x : α} {y : β} : P x y → Two P (.ok x) (.ok y)
  | err (e : Err) : Two P (.error e) (.error e)

/-- Entries of containers related tensor by tensor. -/
inductive Entry2 [Zero R] [Zero S] (P : Tensor R → Tensor S → Prop) : Entry R → Entry S → Prop where
  | tensor {x : Tensor R} {y : Tensor S} : P x y → Entry2 P (.tensor x) (.tensor y)
  | tuple {a b d : Tensor R} {a' b' d' : Tensor S} : P a a' → P b b' → P d d' →
      Entry2 P (.tuple a b d) (.tuple a' b' d')
  | dict {kv : List (String × Tensor R)} {kv' : List (String × Tensor S)} :
      List.Forall₂ (fun e e' => e'.1 = e.1 ∧ P e.2 e'.2) kv kv' → Entry2 P (.dict kv) (.dict kv')
  | other : Entry2 P .other .other

/-- Containers related tensor by tensor. -/
structure Coeffs2 [Zero R] [Zero S] (P : Tensor R → Tensor S → Prop) (a : Coeffs R) (b : Coeffs S) : Prop where
  kind : b.isList = a.isList
  items : List.Forall₂ (Entry2 P) a.items b.items

end Verif.Spec
