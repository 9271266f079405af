/-
Model of the static node orders of src/ptwt/packets.py.  Python strings are lists of characters;
string concatenation is list append and `"".join` of a tuple of characters is that list.
-/
import Verif.Torch.Tensor

namespace Verif

/-- A packet key: a Python string. -/
abbrev Key := List Char

/-- `itertools.product(alphabet, repeat=level)` (documented equivalent code). -/
def pyProduct (alphabet : List Char) : Nat → List Key
  | 0 => [[]]
  | level + 1 => (pyProduct alphabet level).flatMap fun p => alphabet.map fun c => p ++ [c]

/-- The loop of the loops `graycode_order = …`, `packets.py:301-310` and `packets.py:744-750`. -/
def graycodeLoop (x y : Char) : Nat → List Key
  | 0 => [[x], [y]]
  | k + 1 =>
    ((graycodeLoop x y k).map fun path => x :: path) ++
      (graycodeLoop x y k).reverse.map fun path => y :: path

/-- `WaveletPacket._get_graycode_order`, `packets.py:301-310`. -/
def getGraycodeOrder (level : Nat) (x y : Char) : List Key :=
  if level = 0 then [[]] else graycodeLoop x y (level - 1)


/-- `WaveletPacket.get_level`, `packets.py:274-298` (non-negative levels). -/
def getLevel (level : Nat) (order : String) : Except Err (List Key) :=
  if order = "freq" then .ok (getGraycodeOrder level 'a' 'd')
  else if order = "natural" then .ok (pyProduct ['a', 'd'] level)
  else .error .valueError

/-- `WaveletPacket2D.get_natural_order`, `packets.py:708-717`. -/
def getNaturalOrder2 (level : Nat) : List Key := pyProduct ['a', 'h', 'v', 'd'] level

/-- The table `expanded_paths` in `packets.py:752-757` (other keys: KeyError,
never looked up). -/
def expandedPaths (c : Char) : Char × Char :=
  if c = 'd' then ('h', 'h') else if c = 'h' then ('h', 'l') else if c = 'v' then ('l', 'h')
  else ('l', 'l')

/-- `_expand_2d_path`, `packets.py:752-757`. -/
def expand2dPath (path : Key) : Key × Key :=
  (path.map fun p => (expandedPaths p).1, path.map fun p => (expandedPaths p).2)

/-- A Python dict whose iteration order is never used: a partial map. -/
abbrev PMap (α β : Type) := α → Option β

/-- `d[k] = v`. -/
def PMap.set {α β : Type} [DecidableEq α] (d : PMap α β) (k : α) (v : β) : PMap α β :=
  fun k' => if k' = k then some v else d k'

/-- One pass of the loop filling `nodes_dict`, `packets.py:759-763`:
`nodes_dict.setdefault(row_path, {})[col_path] = node`. -/
def nodesDictStep (d : PMap Key (PMap Key Key)) (node : Key) : PMap Key (PMap Key Key) :=
  d.set (expand2dPath node).1
    (((d (expand2dPath node).1).getD fun _ => none).set (expand2dPath node).2 node)

/-- `nodes_dict` after the loop, `packets.py:759-763`. -/
def nodesDict (level : Nat) : PMap Key (PMap Key Key) :=
  (getNaturalOrder2 level).foldl nodesDictStep fun _ => none

/-- `WaveletPacket2D.get_freq_order`, `packets.py:720-771`; the inner `_get_graycode_order` (lines
744-750) has no special case for level 0. -/
def getFreqOrder2 (level : Nat) : List (List Key) :=
  let gray := graycodeLoop 'l' 'h' (level - 1)
  (gray.filterMap (nodesDict level)).map fun row => gray.filterMap row

/-- The result of `WaveletPacket2D.get_level`: a flat list or a grid. -/
inductive Nodes where
  | list (l : List Key)
  | grid (g : List (List Key))

/-- `WaveletPacket2D.get_level`, `packets.py:679-705`. -/
def getLevel2 (level : Nat) (order : String) : Except Err Nodes :=
  if order = "freq" then .ok (.grid (getFreqOrder2 level))
  else if order = "natural" then .ok (.list (getNaturalOrder2 level))
  else .error .valueError

end Verif
