/-
Specification side: what an axis argument means.
-/
import Verif.Torch.Tensor

namespace Verif

/-- The axis argument a user passes, `AxisHint` of `_util.py:47`: `int | Sequence[int] | None`. -/
inductive AxisHint where
  | none
  | int (a : Int)
  | seq (as : List Int)
  deriving DecidableEq, Repr

namespace Spec

/-- `a` is a legal (possibly negative) axis of a rank-`r` tensor. -/
def ValidAxis (r : Nat) (a : Int) : Prop := -(r : Int) ≤ a ∧ a < r

/-- The position a (possibly negative) axis denotes. -/
def axisOf (r : Nat) (a : Int) : Nat := if a < 0 then (a + r).toNat else a.toNat

/-- `axes` are legal and pairwise different axes of a rank-`r` tensor. -/
structure ValidAxes (r : Nat) (axes : List Int) : Prop where
  valid : ∀ a ∈ axes, ValidAxis r a
  distinct : (axes.map (axisOf r)).Nodup

/-- The axes an axis argument of an `n`-dimensional transform denotes: default are the last `n`. -/
def resolve (h : AxisHint) (n : Nat) : List Int :=
  match h with
  | .none => (List.range n).map fun (k : Nat) => (k : Int) - (n : Int)
  | .int a => [a]
  | .seq as => as

/-- The axis argument `h` is usable for an `n`-dimensional transform of a rank-`r` tensor. -/
structure GoodAxes (h : AxisHint) (r n : Nat) : Prop where
  pos : 1 ≤ n
  len : (resolve h n).length = n
  valid : ValidAxes r (resolve h n)

/-- The (non-negative) positions of the transformed axes. -/
def axesOf (h : AxisHint) (r n : Nat) : List Nat := (resolve h n).map (axisOf r)

/-- The position of the single transformed axis. -/
def axis1 (h : AxisHint) (r : Nat) : Nat := (axesOf h r 1).headD 0

/-- The remaining (batch) axes in increasing order. -/
def batchAxes (r : Nat) (ax : List Nat) : List Nat := (List.range r).filter fun d => d ∉ ax

/-- Replace the entries of `l` at the positions `ax` by `ks`. -/
def setMany (l : List Nat) : (ax ks : List Nat) → List Nat
  | a :: ax, k :: ks => setMany (l.set a k) ax ks
  | _, _ => l

end Spec
end Verif
