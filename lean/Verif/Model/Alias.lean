/-
Model of the decorator `_deprecated_alias` of src/ptwt/_util.py and of the way Python binds arguments to
the parameters of the decorated functions.
-/
import Verif.Torch.Tensor

namespace Verif
variable {V Ret : Type}

/-- A keyword dictionary in insertion order (the keys of a Python dict are distinct). -/
abbrev Kwargs (V : Type) := List (String × V)

/-- `k in kwargs`. -/
def Kwargs.has (d : Kwargs V) (k : String) : Bool := (d.lookup k).isSome

/-- `d.pop(k)` (the remaining dict). -/
def Kwargs.del (d : Kwargs V) (k : String) : Kwargs V := d.filter fun p => p.1 ≠ k

/-- `d[k] = v`: an existing key keeps its place, a new one is appended. -/
def Kwargs.put (d : Kwargs V) (k : String) (v : V) : Kwargs V :=
  if d.has k then d.map fun p => if p.1 = k then (k, v) else p else d ++ [(k, v)]

/-- A Python signature without `*args` and `**kwargs`: positional-or-keyword parameters, then
keyword-only ones, each with its default if it has one.  All functions decorated in ptwt are of this kind
(e.g. `matmul_transform.py:212-220`, `packets.py:71-80`). -/
structure Signature (V : Type) where
  pos : List (String × Option V)
  kwOnly : List (String × Option V)

/-- The value of a parameter that gets no positional argument. -/
def bindKw (kw : Kwargs V) (p : String × Option V) : Except Err V :=
  match kw.lookup p.1 with
  | some v => .ok v
  | none => match p.2 with
    | some v => .ok v
    | none => .error .typeError

/-- Python's binding of the positional-or-keyword parameters. -/
def bindPos (kw : Kwargs V) : List (String × Option V) → List V → Except Err (List V)
  | [], [] => .ok []
  | [], _ :: _ => .error .typeError
  | p :: ps, [] => do
    let v ← bindKw kw p
    let vs ← bindPos kw ps []
    pure (v :: vs)
  | p :: ps, a :: as =>
    if kw.has p.1 then .error .typeError
    else do
      let vs ← bindPos kw ps as
      pure (a :: vs)

/-- The parameter names. -/
def Signature.names (s : Signature V) : List String := (s.pos ++ s.kwOnly).map Prod.fst

/-- Python's argument binding: the values of all parameters in order, or TypeError for an unknown keyword,
too many positional arguments, a parameter given twice or a missing one. -/
def bindArgs (s : Signature V) (args : List V) (kw : Kwargs V) : Except Err (List V) :=
  if ∃ p ∈ kw, p.1 ∉ s.names then .error .typeError
  else do
    let vs ← bindPos kw s.pos args
    let ks ← s.kwOnly.mapM (bindKw kw)
    pure (vs ++ ks)

/-- A call `f(*args, **kwargs)` of an undecorated function with body `body`. -/
def call (s : Signature V) (body : List V → Except Err Ret) (args : List V) (kw : Kwargs V) :
    Except Err Ret := do
  let vs ← bindArgs s args kw
  body vs

/-- `rename_kwargs`, `_util.py:764-789`: the new dictionary or the exception, and the DeprecationWarnings
that are issued, as pairs of alias and new name (in the default warning filter, which raises nothing). -/
def renameKwargs : List (String × String) → Kwargs V → Except Err (Kwargs V) × List (String × String)
  | [], kw => (.ok kw, [])
  | (a, n) :: rest, kw =>
    match kw.lookup a with
    | none => renameKwargs rest kw
    | some v =>
      if kw.has n then (.error .typeError, [])
      else
        let r := renameKwargs rest ((kw.del a).put n v)
        (r.1, (a, n) :: r.2)

/-- A call of a function decorated with `@_deprecated_alias(**aliases)`, `_util.py:791-797`, and the
warnings it issues (those of the body are not modelled). -/
def callAliased (aliases : List (String × String)) (s : Signature V) (body : List V → Except Err Ret)
    (args : List V) (kw : Kwargs V) : Except Err Ret × List (String × String) :=
  match renameKwargs aliases kw with
  | (.error e, w) => (.error e, w)
  | (.ok kw', w) => (call s body args kw', w)

end Verif
