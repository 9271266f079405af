/-
Specification side: wavelet transforms along several axes of a tensor, as iterated one-dimensional
textbook transforms.  Nothing here refers to the model of the code.
-/
import Verif.Spec.Line
import Verif.Spec.Axes

namespace Verif.Spec
variable {R : Type}

/-- Extension along every axis. -/
def extN [Zero R] (m : Mode) : List Nat → (List Nat → R) → List ℤ → R
  | n :: ns, X, i :: is => ext m n (fun j => extN m ns (fun js => X (j :: js)) is) i
  | _, X, _ => X []

/-- One textbook analysis step along every axis; every axis comes with its filter and its size. -/
def dwtN [NonUnitalNonAssocSemiring R] (m : Mode) : List (List R × Nat) → (List Nat → R) → List Nat → R
  | (f, n) :: fs, X, k :: ks => dwtStep m f n (fun j => dwtN m fs (fun js => X (j :: js)) ks) k
  | _, X, _ => X []

/-- The filters of a band: `false` is the low-pass filter `lo`, `true` the high-pass filter `hi`, one
letter per axis. -/
def bandFilt (lo hi : List R) (bs : List Bool) : List (List R) := bs.map fun b => if b then hi else lo

/-- One analysis step along every axis, with the filters of the band `bs`, on a signal with sizes
`ns`. -/
def bandN [NonUnitalNonAssocSemiring R] (m : Mode) (w : Wavelet R) (bs : List Bool) (ns : List Nat)
    (X : List Nat → R) : List Nat → R :=
  dwtN m ((bandFilt w.decLo w.decHi bs).zip ns) X

/-- The band which is low pass along each of `n` axes. -/
def lowBand (n : Nat) : List Bool := List.replicate n false

/-- Sizes of the level-`s` coefficients. -/
def levelLens (F : Nat) (ns : List Nat) (s : Nat) : List Nat := ns.map fun n => levelLen F n s

/-- Level-`s` approximation coefficients of a signal with sizes `ns` (level 0 is the signal). -/
def cAN [NonUnitalNonAssocSemiring R] (m : Mode) (w : Wavelet R) (ns : List Nat) (X : List Nat → R) :
    Nat → List Nat → R
  | 0 => X
  | s + 1 => bandN m w (lowBand ns.length) (levelLens w.len ns s) (cAN m w ns X s)

/-- Level-`s+1` coefficients of the band `bs`. -/
def cDN [NonUnitalNonAssocSemiring R] (m : Mode) (w : Wavelet R) (ns : List Nat) (X : List Nat → R)
    (s : Nat) (bs : List Bool) : List Nat → R :=
  bandN m w bs (levelLens w.len ns s) (cAN m w ns X s)

/-- The sizes of the axes `ax`, or the positions along them. -/
def sizes (ax : List Nat) (l : List Nat) : List Nat := ax.map fun a => l.getD a 0

/-- The samples of `t` in the plane (box) along the axes `ax` through position `idx`; every sample is
addressed by one coordinate per axis. -/
def plane [Zero R] (t : Tensor R) (ax idx : List Nat) : List Nat → R :=
  fun js => if js.length = ax.length then t.get (setMany idx ax js) else 0

/-- `z` arises from `x` by applying the operation `f` (with output sizes `Ks`) to every plane of `x`
along the axes `ax`; all other axes are carried along. -/
structure AlongAxes [Zero R] (ax Ks : List Nat) (f : (List Nat → R) → List Nat → R) (x z : Tensor R) :
    Prop where
  md : z.md = x.md
  shape : z.shape = setMany x.shape ax Ks
  get : ∀ idx, InB z.shape idx → z.get idx = f (plane x ax idx) (sizes ax idx)

/-- The level-`s+1` coefficient tensor of the band `bs` of `x` along the axes `ax`. -/
def IsBand [NonUnitalNonAssocSemiring R] (m : Mode) (w : Wavelet R) (ax : List Nat) (x : Tensor R)
    (s : Nat) (bs : List Bool) (t : Tensor R) : Prop :=
  AlongAxes ax (levelLens w.len (sizes ax x.shape) (s + 1))
    (fun X => cDN m w (sizes ax x.shape) X s bs) x t

/-- The level-`L` approximation tensor of `x` along the axes `ax`. -/
def IsApprox [NonUnitalNonAssocSemiring R] (m : Mode) (w : Wavelet R) (ax : List Nat) (x : Tensor R)
    (L : Nat) (t : Tensor R) : Prop :=
  AlongAxes ax (levelLens w.len (sizes ax x.shape) L) (fun X => cAN m w (sizes ax x.shape) X L) x t

/-- The band named by a detail key: the `i`-th letter is `d` for high pass along the `i`-th axis and
`a` for low pass. -/
def bandOfKey (key : String) : List Bool := key.toList.map fun c => c == 'd'

/-- The automatic number of levels for several axes: the smallest of the automatic levels. -/
def autoLevelN (F : Nat) : List Nat → Nat
  | [] => 0
  | [n] => autoLevel F n
  | n :: ns => min (autoLevel F n) (autoLevelN F ns)

/-- The number of levels a `level` argument asks for: negative levels count as 0, `None` is
automatic. -/
def levelsN (level : Option Int) (F : Nat) (ns : List Nat) : Nat :=
  match level with
  | some l => l.toNat
  | none => autoLevelN F ns

/-- The levels below `L` admit the mode along every axis. -/
def LevelsAdmit (m : Mode) (F : Nat) (ns : List Nat) (L : Nat) : Prop :=
  ∀ s, s < L → ∀ k ∈ levelLens F ns s, m.Admits F k

end Verif.Spec
