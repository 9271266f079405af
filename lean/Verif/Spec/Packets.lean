/-
Specification side: what a wavelet packet tree contains.
-/
import Verif.Model.PacketOrder

namespace Verif.Spec
variable {T : Type}

/-- The coefficient of a single-level transform belonging to the letter `c` of the alphabet. -/
def pickBand (al : List Char) (vs : List T) (c : Char) : Except Err T :=
  match vs[al.idxOf c]? with
  | some v => .ok v
  | none => .error .valueError

/-- Follow a key from a node: single-level analysis steps, each keeping the band named by the next
letter. -/
def walk (dec : T → Except Err (List T)) (al : List Char) : T → Key → Except Err T
  | x, [] => .ok x
  | x, c :: k => do
    let vs ← dec x
    let v ← pickBand al vs c
    walk dec al v k

/-- What reading `key` yields after `transform(x, maxlevel=L)`. -/
def readResult (dec : T → Except Err (List T)) (al : List Char) (L : Int) (x : T) (key : Key) :
    Except Err T :=
  if key = [] then .ok x
  else if L < key.length then .error .keyError
  else if ∀ c ∈ key, c ∈ al then walk dec al x key
  else .error .valueError

/-- Rebuild the node `k` from the leaves `d` levels below: synthesise the rebuilt children and cut
every inner node to the size of the node it replaces; the root is not cut. -/
def rebuild (syn : List T → Except Err T) (fit : T → T → Except Err T) (al : List Char)
    (leaf old : Key → T) : Nat → Key → Except Err T
  | 0, k => .ok (leaf k)
  | d + 1, k => do
    let vs ← al.mapM fun c => rebuild syn fit al leaf old d (k ++ [c])
    let r ← syn vs
    if k = [] then .ok r else fit r (old k)

end Verif.Spec
