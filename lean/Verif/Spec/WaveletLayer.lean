/-
Specification side: the coefficients of a one-dimensional transform written side by side into one row.
-/
import Verif.Spec.Line

namespace Verif.Spec
variable {R : Type}

/-- Length of the `k`-th entry of a coefficient list `[cA_S, cD_S, …, cD_1]`. -/
def bandLen (F d S : Nat) : Nat → Nat
  | 0 => levelLen F d S
  | k + 1 => levelLen F d (S - k)

/-- The column at which the `k`-th entry starts when all entries are written side by side. -/
def bandStart (F d S k : Nat) : Nat := ∑ j ∈ Finset.range k, bandLen F d S j

/-- The number of columns needed for all entries. -/
def rowWidth (F d S : Nat) : Nat := bandStart F d S (S + 1)

/-- The `k`-th entry of the coefficient list of a signal. -/
def bandVal [NonUnitalNonAssocSemiring R] (m : Mode) (w : Wavelet R) (d S : Nat) (v : Nat → R) :
    Nat → Nat → R
  | 0 => cA m w d v S
  | k + 1 => cD m w d v (S - k - 1)

/-- Every row of `c` contains the coefficients of the same row of `x`, side by side. -/
structure RowPacked [NonUnitalNonAssocSemiring R] (m : Mode) (w : Wavelet R) (S : Nat) (x c : Tensor R) :
    Prop where
  md : c.md = x.md
  shape : c.shape = [x.shape.getD 0 0, rowWidth w.len (x.shape.getD 1 0) S]
  get : ∀ b k j, b < x.shape.getD 0 0 → k ≤ S → j < bandLen w.len (x.shape.getD 1 0) S k →
    c.get [b, bandStart w.len (x.shape.getD 1 0) S k + j] =
      bandVal m w (x.shape.getD 1 0) S (fun i => x.get [b, i]) k j

end Verif.Spec
