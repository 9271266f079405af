/-
Model of two helper functions: `_flatten_2d_coeff_lst` (src/ptwt/_util.py) and `_wpfreq` (src/ptwt/packets.py).
-/
import Verif.Model.Util
import Mathlib.Algebra.Field.Basic
import Mathlib.Algebra.GroupWithZero.Basic

namespace Verif
open Tensor
variable {R : Type}

/-- `t.flatten()`: one axis, row-major (a scalar becomes a vector with one entry). -/
def flattenAll [Zero R] (t : Tensor R) : Tensor R :=
  ofFn t.md [prodL t.shape] fun i => t.get (unravel t.shape (i.getD 0 0))

/-- `_process_tensor`, `_util.py:262-263`. -/
def processTensor [Zero R] (flat : Bool) (t : Tensor R) : Tensor R := if flat then flattenAll t else t

/-- The values over which `map(_process_tensor, coeff_tuple)` iterates, `_util.py:247-268` (line 267): the three
tensors of a tuple, the slices of a tensor along its first axis (TypeError for a scalar).  A dictionary is
iterated by its keys, which have no `flatten` (AttributeError); without flattening Python returns the keys, which
is not modelled (the model raises AttributeError as well). -/
def entryValues [Zero R] : Entry R → Except Err (List (Tensor R))
  | .tuple h v d => .ok [h, v, d]
  | .tensor t =>
    match t.shape with
    | [] => .error .typeError
    | n :: ns => .ok ((List.range n).map fun k => ofFn t.md ns fun i => t.get (k :: i))
  | .dict _ => .error .attributeError
  | .other => .error .typeError

/-- The loop over the levels, `_util.py:247-268` (lines 266-267). -/
def flattenLoop [Zero R] (flat : Bool) : List (Entry R) → Except Err (List (Tensor R))
  | [] => .ok []
  | e :: es => do
    let ts ← entryValues e
    let rest ← flattenLoop flat es
    pure (ts.map (processTensor flat) ++ rest)

/-- `_flatten_2d_coeff_lst`, `_util.py:247-268`.  Empty containers: IndexError; a first entry that is not a
tensor: AttributeError (only if flattening is asked for; otherwise Python returns the entry itself, which is
not modelled). -/
def flatten2dCoeffs [Zero R] (c : Coeffs R) (flat : Bool) : Except Err (List (Tensor R)) :=
  match c.items with
  | [] => .error .indexError
  | .tensor t :: es => do
    let rest ← flattenLoop flat es
    pure (processTensor flat t :: rest)
  | _ :: _ => .error .attributeError

/-- `_wpfreq`, `packets.py:49-64`: `int(2.0 ** level)` bins (none for a negative level); exact arithmetic. -/
def wpfreq [Field R] (fs : R) (level : Int) : List R :=
  (List.range (if level < 0 then 0 else 2 ^ level.toNat)).map fun n : Nat => fs / 2 * ((n : R) / 2 ^ level)

end Verif
