/-
Specification side: coefficients of several axes read backwards.
Of the model only the container types `Entry` and `Coeffs` (Model/Util.lean) are used.
-/
import Verif.Spec.Mirror
import Verif.Spec.IdwtSep

namespace Verif.Spec
variable {R : Type}

/-- The sizes of approximation and details fit together exactly: every level of details has the sizes `Ks` of the
approximation it meets, none is empty, and nothing of the synthesised signal is cut off. -/
def ExactFitN (F : Nat) : List Nat → List (List Nat) → Prop
  | _, [] => True
  | Ks, d :: rest => d = Ks ∧ (∀ K ∈ Ks, 1 ≤ K) ∧ ExactFitN F (Ks.map fun K => 2 * K + 2 - F) rest

/-- Every band of `e'` is the band of `e` read backwards along the axes `ax`, with a factor `δ` per high-pass letter. -/
def EntryFlipped [Semiring R] (ax : List Nat) (δ : R) (e e' : Entry R) : Prop :=
  ∀ bs : List Bool, Option.Rel (Flipped ax (δ ^ bs.count true)) (bandGet e bs) (bandGet e' bs)

end Verif.Spec
