/-
The dictionary methods packet objects inherit from `collections.UserDict` (`BaseDict`,
packets.py:39-42; the classes at packets.py:67 and 362 derive from it).  Python's
`UserDict` and `MutableMapping` call `__getitem__`, `__delitem__` and `__contains__` of the object;
only `__getitem__` is overridden by the packet classes.
-/
import Verif.Model.Packets

namespace Verif
namespace Backend
variable {C T : Type} (B : Backend C T)

/-- `UserDict.__contains__`: `key in self.data`; used by `__getitem__` and `reconstruct`,
`packets.py:190-238, 318-359, 480-526, 622-668`. -/
def contains (st : Pkt C T) (key : Key) : Bool := (st.data key).isSome

/-- `UserDict.__delitem__` of the classes at `packets.py:67, 362`: `del self.data[key]`. -/
def delitem (st : Pkt C T) (key : Key) : Except Err Unit × Pkt C T :=
  match st.data key with
  | some _ => (.ok (), { st with data := fun k => if k = key then none else st.data k })
  | none => (.error .keyError, st)

/-- Operations on a packet object including the inherited dictionary methods. -/
inductive DictOp (T : Type) where
  | base (op : Op T)
  | del (k : Key)
  | contains (k : Key)
  | get (lazy : Bool) (k : Key) (default : Option T)
  | pop (k : Key) (default : Option T)
  | setdefault (k : Key) (t : T)

/-- What the user sees: an outcome of the base operations, a truth value or `None`. -/
inductive DictOut (T : Type) where
  | base (o : Out T)
  | flag (b : Bool)
  | none

/-- a default argument as a result: `None` if it was not given. -/
def orNone : Option T → DictOut T
  | some t => .base (.value t)
  | .none => .none

/-- `try: return self[key] except KeyError: …`, the pattern of `get`, `pop` and `setdefault` of
`MutableMapping`, with the lazily computing `__getitem__` of `packets.py:318-359, 622-668`; the two
continuations are the `else` and the `except` branch. -/
def tryRead (st : Pkt C T) (key : Key) (found : T → Pkt C T → DictOut T × Pkt C T)
    (missing : Pkt C T → DictOut T × Pkt C T) : DictOut T × Pkt C T :=
  let r := B.getitem st key
  match r.1 with
  | .ok v => found v r.2
  | .error .keyError => missing r.2
  | .error e => (.base (.raised e), r.2)

/-- what the user sees of a method of `packets.py:67, 362` that ends with `del self[key]`. -/
def deleted (o : Out T) (r : Except Err Unit × Pkt C T) : DictOut T × Pkt C T :=
  match r.1 with
  | .ok _ => (.base o, r.2)
  | .error e => (.base (.raised e), r.2)

/-- the `except KeyError` branch of `MutableMapping.pop` of the classes at `packets.py:67, 362`. -/
def popMissing (d : Option T) (st : Pkt C T) : DictOut T × Pkt C T :=
  match d with
  | some t => (.base (.value t), st)
  | .none => (.base (.raised .keyError), st)

/-- Perform one operation.  `get` of `Mapping` reads (and thus computes) the coefficient (`lazy`);
`UserDict.get` of newer Python versions looks first whether the key is present.  The classes are
those at `packets.py:67, 362`. -/
def dictStep (st : Pkt C T) : DictOp T → DictOut T × Pkt C T
  | .base op => let r := B.step st op; (.base r.1, r.2)
  | .del k => deleted .done (delitem st k)
  | .contains k => (.flag (contains st k), st)
  | .get lazy k d =>
    if lazy || contains st k then
      B.tryRead st k (fun v st => (.base (.value v), st)) fun st => (orNone d, st)
    else (orNone d, st)
  | .pop k d =>
    B.tryRead st k (fun v st => deleted (.value v) (delitem st k)) (popMissing d)
  | .setdefault k t =>
    B.tryRead st k (fun v st => (.base (.value v), st)) fun st => (.base (.value t), setitem st k t)

/-- A sequence of operations on an object of `packets.py:67, 362`, recording the outcomes. -/
def dictRun (st : Pkt C T) : List (DictOp T) → List (DictOut T) × Pkt C T
  | [] => ([], st)
  | op :: ops =>
    let r := B.dictStep st op
    let s := dictRun r.2 ops
    (r.1 :: s.1, s.2)

end Backend
end Verif
