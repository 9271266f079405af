/-
Specification side: the non-separable boundary-wavelet transform of images.  An image with `h` rows and
`w` columns is read column by column as a vector of `h * w` entries: the pixel in row `c` and column `J`
is entry `J * h + c`.  One square matrix acts on this vector.  Of the model only the container types are
used.
-/
import Verif.Spec.Orth
import Verif.Spec.MatN

namespace Verif.Spec
variable {R : Type}

/-- The rows of the four-channel matrix come in four blocks of `h/2 * (w/2)` rows: low pass along both
axes; high pass along the height only; high pass along the width only; high pass along both.  Row `k`
uses this row of the two-channel matrix along the height … -/
def rowH (h w k : Nat) : Nat := k / (h / 2 * (w / 2)) % 2 * (h / 2) + k % (h / 2 * (w / 2)) % (h / 2)

/-- … and this row of the two-channel matrix along the width. -/
def rowW (h w k : Nat) : Nat := k / (h / 2 * (w / 2)) / 2 * (w / 2) + k % (h / 2 * (w / 2)) / (h / 2)

/-- Row `k` of the four-channel filter matrix on an image with `h` rows and `w` columns. -/
def filterRow2 [Mul R] [Zero R] (W : Wavelet R) (F h w k j : Nat) : R :=
  filterRow W F h (rowH h w k) (j % h) * filterRow W F w (rowW h w k) (j / h)

/-- The filter of row `k` sticks out of the image. -/
def Truncated2 (F h w k : Nat) : Prop := Truncated F h (rowH h w k) ∨ Truncated F w (rowW h w k)

/-- The number of a band: `[high along the height, high along the width]`. -/
def bandNo : List Bool → Nat
  | [a, b] => (if a then 1 else 0) + (if b then 2 else 0)
  | _ => 0

/-- One analysis step: the block of the matrix named by the letters of the band, times the image that is
extended to even sizes and read column by column; the product is read column by column. -/
def nonsepBand [NonUnitalNonAssocSemiring R] (m : Mode) (A : Nat → Nat → Nat → Nat → R) : BandStep R
  | bs, [h, w], X, [r, s] =>
    ∑ j ∈ Finset.range (evenLen h * evenLen w),
      A (evenLen h) (evenLen w)
        (bandNo bs * (evenLen h / 2 * (evenLen w / 2)) + s * (evenLen h / 2) + r) j *
      extN m [h, w] X [((j % evenLen h : ℕ) : ℤ), ((j / evenLen h : ℕ) : ℤ)]
  | _, _, _, _ => 0

/-- None of the first `k` levels has an odd size. -/
def PadFreeN (ns : List Nat) (k : Nat) : Prop := ∀ s, s < k → ∀ n ∈ mLens ns s, n % 2 = 0

/-- The vector `u` holds the coefficients of `k` levels of an image with sizes `ns` one after the other:
the approximation, then the three bands (high pass along the height, along the width, along both) of
level `k`, of level `k - 1`, …, of level 1, every band read column by column. -/
structure Packed2 [NonUnitalNonAssocSemiring R] (m : Mode) (A : Nat → Nat → Nat → Nat → R) (ns : List Nat)
    (X : List Nat → R) (k : Nat) (u : Nat → R) : Prop where
  approx : ∀ p q, mLens ns k = [p, q] → ∀ r s, r < p → s < q →
    u (s * p + r) = bandA (nonsepBand m A) ns X k [r, s]
  detail : ∀ l, l < k → ∀ p q, mLens ns (l + 1) = [p, q] → ∀ r s, r < p → s < q →
    u (1 * (p * q) + s * p + r) = bandD (nonsepBand m A) ns X l [true, false] [r, s] ∧
    u (2 * (p * q) + s * p + r) = bandD (nonsepBand m A) ns X l [false, true] [r, s] ∧
    u (3 * (p * q) + s * p + r) = bandD (nonsepBand m A) ns X l [true, true] [r, s]

/-- An image with sizes `[h, w]`, extended to even sizes and read column by column. -/
def flatEven [Zero R] (m : Mode) (h w : Nat) (X : List Nat → R) (j : Nat) : R :=
  extN m [h, w] X [((j % evenLen h : ℕ) : ℤ), ((j / evenLen h : ℕ) : ℤ)]

end Verif.Spec
