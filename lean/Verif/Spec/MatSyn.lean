/-
Specification side: synthesis by a family of square matrices, one per even length, of arbitrary coefficients.
Nothing here refers to the model of the code except the container types.
-/
import Verif.Spec.Dwt
import Verif.Spec.IdwtNd
import Verif.Spec.MatNonsep

namespace Verif.Spec
variable {R : Type}

/-- One synthesis step: the matrix of size `2K` times the vector that holds the `K` approximation coefficients and then
the `K` details. -/
def matSynth [NonUnitalNonAssocSemiring R] (S : Nat → Nat → Nat → R) (K : Nat) (lo hi : Nat → R) (k : Nat) : R :=
  (∑ i ∈ Finset.range K, S (2 * K) k i * lo i) + ∑ i ∈ Finset.range K, S (2 * K) k (K + i) * hi i

/-- The inverse transform: repeat the step.  Every detail comes with its length, which is also the number of samples
that are used of what the steps before gave (a surplus last sample is dropped). -/
def matIdwt [NonUnitalNonAssocSemiring R] (S : Nat → Nat → Nat → R) :
    (lo : Nat → R) → (details : List (Nat × (Nat → R))) → Nat → R
  | lo, [] => lo
  | lo, (K, hi) :: rest => matIdwt S (matSynth S K lo hi) rest

/-- Every synthesised signal (cropped to the length of the next detail; the last one is not cropped) has at least `F`
samples. -/
def LongEnough (F : Nat) : List Nat → Prop
  | [] => True
  | [d] => F ≤ 2 * d
  | _ :: n :: rest => F ≤ n ∧ LongEnough F (n :: rest)

/-- One synthesis step along every axis. -/
def matSynthN [NonUnitalNonAssocSemiring R] (S : Nat → Nat → Nat → R) :
    List Nat → (List Bool → List Nat → R) → List Nat → R
  | K :: Ks, c, k :: ks =>
    matSynth S K (fun i => matSynthN S Ks (fun bs js => c (false :: bs) (i :: js)) ks)
      (fun i => matSynthN S Ks (fun bs js => c (true :: bs) (i :: js)) ks) k
  | _, c, _ => c [] []

/-- One synthesis step of images by one matrix for each pair of sizes: the four bands, each read column by column and
one after the other, are multiplied by the matrix; the product is read column by column. -/
def nonsepSynth [NonUnitalNonAssocSemiring R] (S : Nat → Nat → Nat → Nat → R) :
    List Nat → (List Bool → List Nat → R) → List Nat → R
  | [K, M], c, [k, l] =>
    ∑ i ∈ Finset.range (K * M), S (2 * K) (2 * M) (l * (2 * K) + k) i * c [false, false] [i % K, i / K]
      + ∑ i ∈ Finset.range (K * M), S (2 * K) (2 * M) (l * (2 * K) + k) (K * M + i) * c [true, false] [i % K, i / K]
      + ∑ i ∈ Finset.range (K * M), S (2 * K) (2 * M) (l * (2 * K) + k) (2 * (K * M) + i) * c [false, true] [i % K, i / K]
      + ∑ i ∈ Finset.range (K * M), S (2 * K) (2 * M) (l * (2 * K) + k) (3 * (K * M) + i) * c [true, true] [i % K, i / K]
  | _, _, _ => 0

/-- The inverse transform along several axes by repeating the step `syn`. -/
def idwtWith (syn : List Nat → (List Bool → List Nat → R) → List Nat → R) :
    (lo : List Nat → R) → (details : List (List Nat × (List Bool → List Nat → R))) → List Nat → R
  | lo, [] => lo
  | lo, (Ks, hi) :: rest => idwtWith syn (syn Ks fun bs => if true ∈ bs then hi bs else lo) rest

/-- Every synthesised signal has at least `F` samples along every axis. -/
def LongEnoughN (F : Nat) : List (List Nat) → Prop
  | [] => True
  | [d] => ∀ K ∈ d, F ≤ 2 * K
  | _ :: n :: rest => (∀ K ∈ n, F ≤ K) ∧ LongEnoughN F (n :: rest)

end Verif.Spec
