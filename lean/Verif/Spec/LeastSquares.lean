/-
Specification side: squared distances between tensors and between coefficient containers.  Of the model only the
container types `Entry` and `Coeffs` are used.
-/
import Verif.Spec.Inner

namespace Verif.Spec
open Tensor (boxSum)
variable {R : Type}

/-- The squared distance of two tensors: the sum of the squared differences at all positions of the first. -/
def dist2 [CommRing R] (x y : Tensor R) : R := boxSum x.shape fun i => (x.get i - y.get i) ^ 2

/-- The squared distance of two lists of tensors. -/
def listDist [CommRing R] (cs ds : List (Tensor R)) : R := (List.zipWith dist2 cs ds).sum

/-- The squared distance of two entries. -/
def entryDist [CommRing R] (e e' : Entry R) : R := listDist (entryTensors e) (entryTensors e')

/-- The squared distance of two coefficient containers: all tensors count. -/
def coeffDist [CommRing R] (c d : Coeffs R) : R := (List.zipWith entryDist c.items d.items).sum

/-- `u` is `z`, cropped to the shape of `x`. -/
def CropOf [Zero R] (x z u : Tensor R) : Prop :=
  SameTensor x u ∧ ∀ i, InB x.shape i → u.get i = z.get i

/-- The squared distance of two lists of detail tensors of a stationary transform, coarsest level first; the
`k`-th level from the end has the weight `1 / 2 ^ k`, because its coefficients are that redundant. -/
def detailDist [Field R] : List (Tensor R) → List (Tensor R) → R
  | c :: cs, d :: ds => dist2 c d / 2 ^ (cs.length + 1) + detailDist cs ds
  | _, _ => 0

/-- The squared distance of two coefficient lists of a stationary transform: first the approximation, which has
the weight of the coarsest level, then the details. -/
def frameDist [Field R] : List (Tensor R) → List (Tensor R) → R
  | c :: cs, d :: ds => dist2 c d / 2 ^ cs.length + detailDist cs ds
  | _, _ => 0

/-- The inner product of two lists of detail tensors, with the same weights. -/
def detailDot [Field R] : List (Tensor R) → List (Tensor R) → R
  | c :: cs, d :: ds => innerProd c d / 2 ^ (cs.length + 1) + detailDot cs ds
  | _, _ => 0

/-- The inner product of two coefficient lists of a stationary transform, with the same weights. -/
def frameDot [Field R] : List (Tensor R) → List (Tensor R) → R
  | c :: cs, d :: ds => innerProd c d / 2 ^ cs.length + detailDot cs ds
  | _, _ => 0

end Verif.Spec
