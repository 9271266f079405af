/-
Specification side: mirrored signals and filters.
-/
import Verif.Spec.Local

namespace Verif.Spec
variable {R : Type}

/-- `y` is `c` times `x` read backwards along each of the axes `ax`. -/
structure Flipped [Mul R] [Zero R] (ax : List Nat) (c : R) (x y : Tensor R) : Prop where
  md : y.md = x.md
  shape : y.shape = x.shape
  get : ∀ idx, InB x.shape idx → y.get idx = c * x.get (setMany idx ax (ax.map fun a => x.shape.getD a 0 - 1 - idx.getD a 0))

/-- The analysis filters of `w'` are those of `w` read backwards, the high-pass filter multiplied by `ε`.  With `w' = w` and
`ε = 1` or `ε = -1` these are the wavelets with a symmetric low-pass and a symmetric or antisymmetric high-pass filter. -/
structure MirroredDec [Mul R] (ε : R) (w w' : Wavelet R) : Prop where
  lo : w'.decLo = w.decLo.reverse
  hi : w'.decHi = (w.decHi.map fun a => ε * a).reverse

/-- The lengths of the levels below `L` are even. -/
def EvenLevels (F n L : Nat) : Prop := ∀ s, s < L → levelLen F n s % 2 = 0

/-- The synthesis filters of `w'` are those of `w` read backwards, the high-pass filter multiplied by `ε`. -/
structure MirroredRec [Mul R] (ε : R) (w w' : Wavelet R) : Prop where
  lo : w'.recLo = w.recLo.reverse
  hi : w'.recHi = (w.recHi.map fun a => ε * a).reverse

/-- The lengths of approximation and details fit together exactly: the next level has the length of the synthesised signal,
nothing is cut off. -/
def ExactFit (F : Nat) : Nat → List Nat → Prop
  | _, [] => True
  | K, [d] => d = K ∧ 1 ≤ K
  | K, d :: n :: rest => d = K ∧ 1 ≤ K ∧ n + F = 2 * K + 2 ∧ ExactFit F n (n :: rest)

/-- The details of the coefficients `c'` are those of `c` read backwards, with a factor `ε` per high-pass letter of the band;
the approximation is read backwards. -/
structure CoeffsFlipped [Semiring R] (ax : List Nat) (ε : R) (c c' : Coeffs R) : Prop where
  kind : c'.isList = c.isList
  length : c'.items.length = c.items.length
  approx : ∃ t t', c.items[0]? = some (.tensor t) ∧ c'.items[0]? = some (.tensor t') ∧ Flipped ax 1 t t'
  detail : ∀ q e e', c.items[q + 1]? = some e → c'.items[q + 1]? = some e' → ∀ bs t t', HoldsBand e bs t →
    HoldsBand e' bs t' → Flipped ax (ε ^ bs.count true) t t'

end Verif.Spec
