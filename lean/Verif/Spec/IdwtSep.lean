/-
Specification side: which sizes the separable inverse transform accepts for arbitrary coefficients.
Nothing of the model is used.
-/
import Verif.Spec.IdwtNd

namespace Verif.Spec

/-- The approximation reaches at least as far as the details along every axis at every level (`Ks` are the sizes of
the approximation that meets the next level); no detail is empty. -/
def CoveredN (F : Nat) : List Nat → List (List Nat) → Prop
  | _, [] => True
  | Ks, d :: rest => List.Forall₂ (fun D K => 1 ≤ D ∧ D ≤ K) d Ks ∧ CoveredN F (d.map fun D => 2 * D + 2 - F) rest

/-- The sizes of the result: those of the synthesis of the finest details. -/
def idwtLenSep (F : Nat) : List Nat → List (List Nat) → List Nat
  | Ks, [] => Ks
  | _, d :: rest => idwtLenSep F (d.map fun D => 2 * D + 2 - F) rest

/-- At some level the approximation is shorter than the (non-empty) details along some axis, and nothing is wrong
before. -/
def ShortN (F : Nat) : List Nat → List (List Nat) → Prop
  | _, [] => False
  | Ks, d :: rest => List.Forall₂ (fun D K => 1 ≤ D ∧ 1 ≤ K) d Ks ∧ ((∃ i, Ks.getD i 0 < d.getD i 0) ∨
      List.Forall₂ (fun D K => D ≤ K) d Ks ∧ ShortN F (d.map fun D => 2 * D + 2 - F) rest)

end Verif.Spec
