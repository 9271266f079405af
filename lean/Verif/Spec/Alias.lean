/-
Specification side: what a deprecated keyword means.  A keyword dictionary is a list of pairs with
distinct keys; its order has no meaning.
-/
import Mathlib.Data.List.Basic
import Mathlib.Data.List.Nodup

namespace Verif.Spec
variable {V : Type}

/-- The keyword `k` is given the value `v`. -/
def Given (kw : List (String × V)) (k : String) (v : V) : Prop := (k, v) ∈ kw

/-- The keyword `k` is given. -/
def IsGiven (kw : List (String × V)) (k : String) : Prop := ∃ v, Given kw k v

/-- A keyword dictionary. -/
def IsDict' (kw : List (String × V)) : Prop := (kw.map Prod.fst).Nodup

/-- Sensible aliases: no alias is listed twice, no new name is itself an alias. -/
structure GoodAliases (al : List (String × String)) : Prop where
  nodup : (al.map Prod.fst).Nodup
  fresh : ∀ p ∈ al, p.2 ∉ al.map Prod.fst

/-- No parameter is named twice: neither by an alias and its new name nor by two aliases. -/
def Unambiguous (al : List (String × String)) (kw : List (String × V)) : Prop :=
  ∀ a n, (a, n) ∈ al → IsGiven kw a → ¬ IsGiven kw n ∧ ∀ a', (a', n) ∈ al → IsGiven kw a' → a' = a

/-- `kw'` is `kw` with every alias replaced by the new name. -/
def Renamed (al : List (String × String)) (kw kw' : List (String × V)) : Prop :=
  ∀ k v, Given kw' k v ↔ k ∉ al.map Prod.fst ∧ (Given kw k v ∨ ∃ a, (a, k) ∈ al ∧ Given kw a v)

end Verif.Spec
