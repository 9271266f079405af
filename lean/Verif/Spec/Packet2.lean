/-
Specification side: two-dimensional wavelet packet coefficients.
-/
import Verif.Spec.MatN
import Verif.Model.PacketOrder

namespace Verif.Spec
variable {R : Type}

/-- The filters a letter stands for, `true` for high pass, first along the first, then along the second of the
two axes, in the orientation of `wavedec2`: `h` is high pass along the first axis only. -/
def letterBand (c : Char) : List Bool :=
  if c = 'h' then [true, false] else if c = 'v' then [false, true] else if c = 'd' then [true, true]
  else [false, false]

/-- The other orientation: `h` is high pass along the second axis only. -/
def letterBandSwapped (c : Char) : List Bool :=
  if c = 'h' then [false, true] else if c = 'v' then [true, false] else if c = 'd' then [true, true]
  else [false, false]

/-- The orientation of the packet object: with `separable=True` it is the swapped one. -/
def packetBand (separable : Bool) (c : Char) : List Bool :=
  if separable then letterBandSwapped c else letterBand c

/-- The packet coefficients of a two-dimensional signal with sizes `ns`: the letters of the key name, in
order, the bands kept; `step` is one analysis step and `next` the sizes of its results. -/
def packetPlane (step : List Bool → List Nat → (List Nat → R) → List Nat → R) (next : List Nat → List Nat)
    (band : Char → List Bool) : List Nat → (List Nat → R) → Key → List Nat → R
  | _, X, [] => X
  | ns, X, c :: k => packetPlane step next band (next ns) (step (band c) ns X) k

/-- The sizes after `s` steps. -/
def sizesAfter (next : List Nat → List Nat) (ns : List Nat) : Nat → List Nat
  | 0 => ns
  | s + 1 => sizesAfter next (next ns) s

/-- The sizes of the bands of a padded transform with filters of length `F`. -/
def nextLens (F : Nat) (ns : List Nat) : List Nat := ns.map (outLen F)

end Verif.Spec
