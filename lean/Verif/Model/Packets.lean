/-
Model of the packet classes of src/ptwt/packets.py as state machines.  `WaveletPacket` (67-359) and
`WaveletPacket2D` (362-668) share the code of `transform`, `initialize`, `__getitem__`,
`_expand_node` and `reconstruct` up to the alphabet and the transforms called; the shared part is
modelled once, over a `Backend` supplying the differences.  A method call returns its result or
exception together with the new state: Python keeps mutations made before an exception.
-/
import Verif.Model.PacketOrder

namespace Verif

/-- What the two packet classes differ in.  `C` is the type of the cached transform objects (the
`_matrix_wavedec_dict` and its kin), `T` that of tensors. -/
structure Backend (C T : Type) where
  /-- `self._filter_keys` in the order of the coefficients returned by the transform. -/
  alphabet : List Char
  /-- the nodes visited per level by `reconstruct`. -/
  nodes : Nat → List Key
  /-- one analysis step: `self._get_wavedec(shape)(data)`. -/
  dec : C → T → Except Err (List T) × C
  /-- one synthesis step: `self._get_waverec(shape)(coeffs)`. -/
  syn : C → List T → Except Err T × C
  /-- cut a reconstruction (first argument) to the size of the node it replaces (second). -/
  fit : T → T → Except Err T
  /-- the default of `maxlevel`. -/
  defaultLevel : T → Except Err Int

/-- The mutable part of a packet object: `self.data`, `self.maxlevel`, cached transforms.  The
iteration order of `self.data` is not modelled. -/
structure Pkt (C T : Type) where
  data : PMap Key T
  maxlevel : Option Int
  cache : C

variable {C T : Type}

/-- Sequencing of Python statements with state: an exception skips the rest and keeps the state. -/
def andThen {S α β : Type} (r : Except Err α × S) (f : α → S → Except Err β × S) : Except Err β × S :=
  match r.1 with
  | .error e => (.error e, r.2)
  | .ok a => f a r.2

namespace Backend
variable (B : Backend C T)

/-- the assignments `self.data[path + c] = …` of `_expand_node`, `packets.py:312-316, 528-539`. -/
def store (data : PMap Key T) (path : Key) : List (Char × T) → PMap Key T
  | [] => data
  | (c, t) :: rest => store (data.set (path ++ [c]) t) path rest

/-- the end of `_expand_node`, `packets.py:312-316, 528-539`, once `self[path]` is known; unpacking
a wrong number of coefficients is a ValueError. -/
def expandWith (st : Pkt C T) (path : Key) (d : T) : Except Err Unit × Pkt C T :=
  let r := B.dec st.cache d
  andThen (r.1, { st with cache := r.2 }) fun vs st =>
    if vs.length = B.alphabet.length then
      (.ok (), { st with data := store st.data path (B.alphabet.zip vs) })
    else (.error .valueError, st)

/-- `UserDict.__getitem__`: `self.data[key]`. -/
def lookup (st : Pkt C T) (key : Key) : Except Err T × Pkt C T :=
  match st.data key with
  | some v => (.ok v, st)
  | none => (.error .keyError, st)

/-- `__getitem__`, `packets.py:318-359` and `packets.py:622-668`; `_expand_node` (312-316, 528-539) calls it back on
the parent. -/
def getitem (st : Pkt C T) (key : Key) : Except Err T × Pkt C T :=
  match st.maxlevel with
  | none => (.error .valueError, st)
  | some L =>
    match st.data key with
    | some v => (.ok v, st)
    | none =>
      if L < key.length then (.error .keyError, st)
      else if h : key = [] then (.error .valueError, st)
      else if key.getLast h ∉ B.alphabet then (.error .valueError, st)
      else
        andThen (getitem st key.dropLast) fun d st =>
          andThen (B.expandWith st key.dropLast d) fun _ st => lookup st key
termination_by key.length
decreasing_by
  have : key.length ≠ 0 := by simpa using h
  simp only [List.length_dropLast]
  omega

/-- `transform`, `packets.py:149-177, 436-467`: `self.data` is replaced before the level is
computed. -/
def transform (st : Pkt C T) (x : T) (maxlevel : Option Int) : Except Err Unit × Pkt C T :=
  let st : Pkt C T := { st with data := PMap.set (fun _ => none) [] x }
  match maxlevel with
  | some L => (.ok (), { st with maxlevel := some L })
  | none =>
    match B.defaultLevel x with
    | .ok L => (.ok (), { st with maxlevel := some L })
    | .error e => (.error e, st)

/-- `initialize`, `packets.py:179-188, 469-478`: read the keys one after the other, stop at the first
exception. -/
def initKeys (st : Pkt C T) : List Key → Except Err Unit × Pkt C T
  | [] => (.ok (), st)
  | k :: ks =>
    andThen (B.getitem st k) fun _ st => initKeys st ks

/-- `UserDict.__setitem__`: `self.data[key] = item`. -/
def setitem (st : Pkt C T) (key : Key) (t : T) : Pkt C T := { st with data := st.data.set key t }

/-- the reads `self[node + c]` in `reconstruct`, `packets.py:190-238, 480-526`, after the check that
all children are present. -/
def readChildren (st : Pkt C T) (node : Key) : List Char → Except Err (List T) × Pkt C T
  | [] => (.ok [], st)
  | c :: cs =>
    andThen (B.getitem st (node ++ [c])) fun v st =>
      andThen (readChildren st node cs) fun vs st => (.ok (v :: vs), st)

/-- `if level > 0:` the cut in `reconstruct`, `packets.py:190-238, 480-526` (lines 228-236,
510-524); `self[node]` may be computed lazily. -/
def cut (st : Pkt C T) (level : Nat) (node : Key) (r : T) : Except Err T × Pkt C T :=
  if 0 < level then
    andThen (B.getitem st node) fun old st => (B.fit r old, st)
  else (.ok r, st)

/-- the body of the inner loop of `reconstruct`, `packets.py:190-238, 480-526`. -/
def recNode (st : Pkt C T) (level : Nat) (node : Key) : Except Err Unit × Pkt C T :=
  if B.alphabet.all fun c => (st.data (node ++ [c])).isSome then
    andThen (B.readChildren st node B.alphabet) fun vs st =>
      let q := B.syn st.cache vs
      andThen (q.1, { st with cache := q.2 }) fun r st =>
        andThen (B.cut st level node r) fun r st => (.ok (), setitem st node r)
  else (.error .keyError, st)

/-- the inner loop of `reconstruct`, `packets.py:190-238, 480-526`. -/
def recNodes (st : Pkt C T) (level : Nat) : List Key → Except Err Unit × Pkt C T
  | [] => (.ok (), st)
  | k :: ks =>
    andThen (B.recNode st level k) fun _ st => recNodes st level ks

/-- the outer loop of `reconstruct`, `packets.py:190-238, 480-526`: levels `L-1, …, 0`. -/
def recLevels (st : Pkt C T) : Nat → Except Err Unit × Pkt C T
  | 0 => (.ok (), st)
  | L + 1 =>
    andThen (B.recNodes st L (B.nodes L)) fun _ st => recLevels st L

/-- `reconstruct`, `packets.py:190-238, 480-526`.  With `maxlevel = None` the first thing read is
`self[""]`. -/
def reconstruct (st : Pkt C T) : Except Err Unit × Pkt C T :=
  match st.maxlevel with
  | some L => B.recLevels st L.toNat
  | none =>
    andThen (B.getitem st []) fun d st =>
      match B.defaultLevel d with
      | .error e => (.error e, st)
      | .ok L => B.recLevels { st with maxlevel := some L } L.toNat

/-- A freshly constructed object without data, `packets.py:71-147, 370-434`. -/
def empty (c : C) : Pkt C T := ⟨fun _ => none, none, c⟩

/-- `__init__` with data, `packets.py:71-147, 370-434` (the argument checks come before). -/
def fresh (c : C) (x : T) (maxlevel : Option Int) : Except Err Unit × Pkt C T :=
  B.transform (empty c) x maxlevel

/-- The operations a user performs on a packet object. -/
inductive Op (T : Type) where
  | read (k : Key)
  | init (ks : List Key)
  | set (k : Key) (t : T)
  | transform (x : T) (maxlevel : Option Int)
  | reconstruct

/-- The observable outcome of an operation. -/
inductive Out (T : Type) where
  | value (t : T)
  | done
  | raised (e : Err)

/-- What the user sees of a method call. -/
def observe {α : Type} (r : Except Err α × Pkt C T) (f : α → Out T) : Out T × Pkt C T :=
  match r.1 with
  | .ok v => (f v, r.2)
  | .error e => (.raised e, r.2)

/-- Perform one operation. -/
def step (st : Pkt C T) : Op T → Out T × Pkt C T
  | .read k => observe (B.getitem st k) .value
  | .init ks => observe (B.initKeys st ks) fun _ => .done
  | .set k t => (.done, setitem st k t)
  | .transform x L => observe (B.transform st x L) fun _ => .done
  | .reconstruct => observe (B.reconstruct st) fun _ => .done

/-- Perform a sequence of operations, recording the outcomes; exceptions are caught by the user. -/
def run (st : Pkt C T) : List (Op T) → List (Out T) × Pkt C T
  | [] => ([], st)
  | op :: ops =>
    let r := B.step st op
    let s := run r.2 ops
    (r.1 :: s.1, s.2)

end Backend
end Verif
