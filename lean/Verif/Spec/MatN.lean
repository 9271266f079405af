/-
Specification side: the boundary-wavelet transform along several axes, by one family of square matrices
applied along every axis.  Of the model only the container types are used.
-/
import Verif.Spec.Mat1
import Verif.Spec.Containers

namespace Verif.Spec
variable {R : Type}

/-- One analysis step along every axis: the half of the product named by the letters of the band
(`false` the approximation, `true` the details), one letter per axis. -/
def matBand [NonUnitalNonAssocSemiring R] (m : Mode) (A : Nat → Nat → Nat → R) :
    List Bool → List Nat → (List Nat → R) → List Nat → R
  | b :: bs, n :: ns, X, k :: ks =>
    (if b then stepHi m A n else stepLo m A n) (fun j => matBand m A bs ns (fun js => X (j :: js)) ks) k
  | _, _, X, _ => X []

/-- The sizes of the bands. -/
def halfLens (ns : List Nat) : List Nat := ns.map fun n => evenLen n / 2

/-- The sizes at level `s`. -/
def mLens (ns : List Nat) (s : Nat) : List Nat := ns.map fun n => mLen n s

/-- One analysis step: the letters of a band, the sizes and the samples of the signal determine the
samples of the band. -/
abbrev BandStep (R : Type) := List Bool → List Nat → (List Nat → R) → List Nat → R

/-- The approximation at level `s` of a signal with sizes `ns`: the step is repeated on the low-pass
band. -/
def bandA (band : BandStep R) (ns : List Nat) (X : List Nat → R) : Nat → List Nat → R
  | 0 => X
  | s + 1 => bandA band (halfLens ns) (band (lowBand ns.length) ns X) s

/-- The details of level `s + 1` in the band `bs`. -/
def bandD (band : BandStep R) (ns : List Nat) (X : List Nat → R) : Nat → List Bool → List Nat → R
  | 0, bs => band bs ns X
  | s + 1, bs => bandD band (halfLens ns) (band (lowBand ns.length) ns X) s bs

/-- The number of levels that are computed: at most `L`, stopping when some axis gets shorter than the
filters. -/
def mLevelsN (F : Nat) : Nat → List Nat → Nat
  | 0, _ => 0
  | L + 1, ns => if ∃ n ∈ ns, n < F then 0 else mLevelsN F L (halfLens ns) + 1

/-- The container holds coefficients of `x` along the axes `ax`: a Python tuple, first the
approximation `ca L` and then the details of level `L, L-1, …, 1`, each entry of the form `D`. -/
structure IsCoeffs [Zero R] (D : (List Bool → Tensor R → Prop) → Entry R → Prop) (ax : List Nat)
    (lens : Nat → List Nat) (ca : Nat → (List Nat → R) → List Nat → R)
    (cd : Nat → List Bool → (List Nat → R) → List Nat → R) (L : Nat) (x : Tensor R) (c : Coeffs R) :
    Prop where
  kind : c.isList = false
  length : c.items.length = L + 1
  approx : ∃ t, c.items[0]? = some (.tensor t) ∧ AlongAxes ax (lens L) (ca L) x t
  detail : ∀ s, s < L → ∃ e, c.items[L - s]? = some e ∧
    D (fun bs t => AlongAxes ax (lens (s + 1)) (cd s bs) x t) e

/-- The coefficients of the transform of `x` along the axes `ax` that repeats the step `band`. -/
def IsBandDwtN [Zero R] (D : (List Bool → Tensor R → Prop) → Entry R → Prop)
    (band : BandStep R) (ax : List Nat) (L : Nat) (x : Tensor R) (c : Coeffs R) : Prop :=
  IsCoeffs D ax (mLens (sizes ax x.shape)) (fun s X => bandA band (sizes ax x.shape) X s)
    (fun s bs X => bandD band (sizes ax x.shape) X s bs) L x c

/-- The coefficients of the boundary-wavelet transform of `x` along the axes `ax`. -/
def IsMatDwtN [NonUnitalNonAssocSemiring R] (D : (List Bool → Tensor R → Prop) → Entry R → Prop)
    (m : Mode) (A : Nat → Nat → Nat → R) (ax : List Nat) (L : Nat) (x : Tensor R) (c : Coeffs R) : Prop :=
  IsBandDwtN D (matBand m A) ax L x c

/-- The entry is a tuple of the three detail bands in the opposite orientation to `IsTuple`: the first
one is high pass along the second axis only. -/
def IsTupleSwapped [Zero R] (P : List Bool → Tensor R → Prop) (e : Entry R) : Prop :=
  ∃ h v d, e = .tuple h v d ∧ P [false, true] h ∧ P [true, false] v ∧ P [true, true] d

/-- The detail keys in the order in which the three-dimensional matrix transform inserts them. -/
def keysM3 : List String := ["daa", "ada", "dda", "aad", "dad", "add", "ddd"]

/-- `x'` is `x`, extended by one sample along each of the axes `ax` whose length is odd. -/
def EvenPaddedN [Zero R] (m : Mode) (ax : List Nat) (x x' : Tensor R) : Prop :=
  AlongAxes ax ((sizes ax x.shape).map evenLen)
    (fun X ks => extN m (sizes ax x.shape) X (ks.map fun (k : Nat) => (k : ℤ))) x x'

end Verif.Spec
