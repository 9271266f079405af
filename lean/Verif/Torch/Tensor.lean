/-
Trusted semantics of the torch tensor primitives used by ptwt.

A tensor is a shape, an index function which vanishes outside the shape (so that Lean
equality of tensors is equality of shape, meta data and all entries), and the meta data
torch checks (dtype, device).  Strides, storage sharing and autograd are not modelled.
-/
import Mathlib.Algebra.BigOperators.Group.Finset.Basic
import Mathlib.Algebra.Ring.Basic
import Mathlib.Data.List.Perm.Basic

namespace Verif

/-- Python exception classes raised by ptwt, torch, numpy or pywt. -/
inductive Err where
  | valueError
  | runtimeError
  | assertionError
  | notImplementedError
  | keyError
  | typeError
  | indexError
  | recursionError
  | unboundLocalError
  | overflowError
  | zeroDivisionError
  | attributeError
  deriving DecidableEq, Repr

/-- torch dtypes (the ones that matter: the two supported ones and representatives of others). -/
inductive DType where
  | float16 | bfloat16 | float32 | float64 | int32 | int64 | complex64 | complex128 | bool
  deriving DecidableEq, Repr

/-- The data torch checks for compatibility: dtype and device (device numbered). -/
structure Meta where
  dtype : DType
  device : Nat
  deriving DecidableEq, Repr

/-- `InB shape idx`: `idx` is a valid full index for `shape`. -/
def InB : List Nat → List Nat → Prop
  | [], [] => True
  | s :: ss, i :: is => i < s ∧ InB ss is
  | _, _ => False

instance decInB : ∀ (s i : List Nat), Decidable (InB s i)
  | [], [] => isTrue trivial
  | s :: ss, i :: is =>
    match (inferInstance : Decidable (i < s)), decInB ss is with
    | isTrue h₁, isTrue h₂ => isTrue ⟨h₁, h₂⟩
    | isFalse h, _ => isFalse fun h' => h h'.1
    | _, isFalse h => isFalse fun h' => h h'.2
  | [], _ :: _ => isFalse id
  | _ :: _, [] => isFalse id

@[simp] theorem inB_nil_nil : InB [] [] := trivial
@[simp] theorem inB_cons_cons {s i : Nat} {ss is : List Nat} :
    InB (s :: ss) (i :: is) ↔ i < s ∧ InB ss is := Iff.rfl
@[simp] theorem not_inB_nil_cons {i : Nat} {is : List Nat} : ¬ InB [] (i :: is) := id
@[simp] theorem not_inB_cons_nil {s : Nat} {ss : List Nat} : ¬ InB (s :: ss) [] := id

/-- A torch tensor with entries in `R`. -/
structure Tensor (R : Type) [Zero R] where
  md : Meta
  shape : List Nat
  get : List Nat → R
  supp : ∀ i, ¬ InB shape i → get i = 0

namespace Tensor
variable {R : Type} [Zero R]

/-- Build a tensor from an arbitrary index function by cutting it off outside the shape. -/
def ofFn (md : Meta) (shape : List Nat) (f : List Nat → R) : Tensor R where
  md := md
  shape := shape
  get := fun i => if InB shape i then f i else 0
  supp := fun i h => by simp [h]

@[simp] theorem ofFn_md (md : Meta) (s : List Nat) (f : List Nat → R) :
    (ofFn md s f).md = md := rfl
@[simp] theorem ofFn_shape (md : Meta) (s : List Nat) (f : List Nat → R) :
    (ofFn md s f).shape = s := rfl
theorem ofFn_get (md : Meta) (s : List Nat) (f : List Nat → R) (i : List Nat) :
    (ofFn md s f).get i = if InB s i then f i else 0 := rfl
theorem ofFn_get_of (md : Meta) {s : List Nat} (f : List Nat → R) {i : List Nat} (h : InB s i) :
    (ofFn md s f).get i = f i := by simp [ofFn_get, h]

theorem ext' {a b : Tensor R} (hm : a.md = b.md) (hs : a.shape = b.shape)
    (hg : ∀ i, InB a.shape i → a.get i = b.get i) : a = b := by
  obtain ⟨am, as, ag, ap⟩ := a
  obtain ⟨bm, bs, bg, bp⟩ := b
  simp only at hm hs
  subst hm; subst hs
  have : ag = bg := by
    funext i
    by_cases h : InB as i
    · exact hg i h
    · rw [ap i h, bp i h]
  subst this
  rfl

/-- number of axes, `t.dim()` / `len(t.shape)`. -/
def rank (t : Tensor R) : Nat := t.shape.length

/-- `t.shape[-k]` for `k ≥ 1` (0 if out of range; torch raises IndexError there, callers
always have enough axes). -/
def sizeFromEnd (t : Tensor R) (k : Nat) : Nat := t.shape.getD (t.shape.length - k) 0

end Tensor

/-! ### Row-major index arithmetic -/

/-- number of entries of a shape (`numpy.prod`). -/
def prodL (s : List Nat) : Nat := s.foldr (· * ·) 1

@[simp] theorem prodL_nil : prodL [] = 1 := rfl
@[simp] theorem prodL_cons (a : Nat) (s : List Nat) : prodL (a :: s) = a * prodL s := rfl

/-- row-major linear index. -/
def ravel : List Nat → List Nat → Nat
  | _ :: ss, i :: is => i * prodL ss + ravel ss is
  | _, _ => 0

/-- inverse of `ravel`. -/
def unravel : List Nat → Nat → List Nat
  | [], _ => []
  | _ :: ss, k => (k / prodL ss) :: unravel ss (k % prodL ss)

namespace Tensor
variable {R : Type} [Zero R]

/-- `torch.reshape(t, shape)` with explicit (non-negative) sizes: row-major reinterpretation,
RuntimeError if the number of entries differs. -/
def reshape (t : Tensor R) (shape : List Nat) : Except Err (Tensor R) :=
  if prodL shape = prodL t.shape then
    .ok (ofFn t.md shape fun i => t.get (unravel t.shape (ravel shape i)))
  else .error .runtimeError

/-- Normalise a possibly negative axis for a tensor of rank `r`; IndexError if out of range. -/
def normAxis (r : Nat) (a : Int) : Except Err Nat :=
  if 0 ≤ a ∧ a < r then .ok a.toNat
  else if a < 0 ∧ -(r : Int) ≤ a then .ok (a + r).toNat
  else .error .indexError

/-- `torch.permute(t, dims)`: axis `k` of the result is axis `dims[k]` of `t`.
RuntimeError if the number of dims is wrong or dims repeat, IndexError if out of range
(the model returns the first failing check). -/
def permute (t : Tensor R) (dims : List Int) : Except Err (Tensor R) := do
  if dims.length ≠ t.rank then throw .runtimeError
  let ds ← dims.mapM (normAxis t.rank)
  if ds.Nodup then
    pure (ofFn t.md (ds.map fun d => t.shape.getD d 0) fun i =>
      t.get ((List.range t.rank).map fun d => i.getD (ds.idxOf d) 0))
  else throw .runtimeError

/-- `t.unsqueeze(0)`. -/
def unsqueeze0 (t : Tensor R) : Tensor R :=
  ofFn t.md (1 :: t.shape) fun i => t.get i.tail

/-- `t.unsqueeze(1)` (IndexError on rank 0). -/
def unsqueeze1 (t : Tensor R) : Except Err (Tensor R) :=
  match t.shape with
  | [] => .error .indexError
  | s :: ss => .ok (ofFn t.md (s :: 1 :: ss) fun i => t.get (i.headD 0 :: i.tail.tail))

/-- `t.squeeze(0)`: drops axis 0 iff it has size 1. -/
def squeeze0 (t : Tensor R) : Tensor R :=
  match t.shape with
  | 1 :: ss => ofFn t.md ss fun i => t.get (0 :: i)
  | _ => t

/-- `t.squeeze(1)`: drops axis 1 iff it has size 1 (no-op otherwise; IndexError for rank < 2
does not occur in ptwt and is modelled as a no-op). -/
def squeeze1 (t : Tensor R) : Tensor R :=
  match t.shape with
  | s :: 1 :: ss => ofFn t.md (s :: ss) fun i => t.get (i.headD 0 :: 0 :: i.tail)
  | _ => t

/-- `t.transpose(a, b)` for in-range axes. -/
def transpose (t : Tensor R) (a b : Nat) : Tensor R :=
  let sw : List Nat → List Nat := fun l => (l.set a (l.getD b 0)).set b (l.getD a 0)
  ofFn t.md (sw t.shape) fun i => t.get (sw i)

/-- slice `t[..., lo:hi, ...]` along axis `a` (0 ≤ lo ≤ hi ≤ size). -/
def slice (t : Tensor R) (a lo hi : Nat) : Tensor R :=
  ofFn t.md (t.shape.set a (min hi (t.shape.getD a 0) - lo)) fun i =>
    t.get (i.set a (i.getD a 0 + lo))

/-- `t.flip(a)`. -/
def flip (t : Tensor R) (a : Nat) : Tensor R :=
  ofFn t.md t.shape fun i => t.get (i.set a (t.shape.getD a 0 - 1 - i.getD a 0))

/-- `torch.cat([s, t], dim=a)`, RuntimeError unless shapes agree outside axis `a` and meta data
agree (torch would promote dtypes; ptwt only concatenates equal dtypes). -/
def cat2 (s t : Tensor R) (a : Nat) : Except Err (Tensor R) :=
  if s.md = t.md ∧ s.shape.length = t.shape.length ∧ s.shape.set a 0 = t.shape.set a 0 then
    .ok (ofFn s.md (s.shape.set a (s.shape.getD a 0 + t.shape.getD a 0)) fun i =>
      if i.getD a 0 < s.shape.getD a 0 then s.get i
      else t.get (i.set a (i.getD a 0 - s.shape.getD a 0)))
  else .error .runtimeError

/-- `torch.stack(ts, 0)`: RuntimeError on an empty list or different shapes/meta. -/
def stack0 : List (Tensor R) → Except Err (Tensor R)
  | [] => .error .runtimeError
  | t :: ts =>
    if ∀ u ∈ ts, u.shape = t.shape ∧ u.md = t.md then
      .ok (ofFn t.md ((ts.length + 1) :: t.shape) fun i =>
        match (t :: ts)[i.headD 0]? with
        | some u => u.get i.tail
        | none => 0)
    else .error .runtimeError

/-- `torch.stack(ts, 1)`. -/
def stack1 : List (Tensor R) → Except Err (Tensor R)
  | [] => .error .runtimeError
  | t :: ts =>
    match t.shape with
    | [] => .error .indexError
    | s :: ss =>
      if ∀ u ∈ ts, u.shape = t.shape ∧ u.md = t.md then
        .ok (ofFn t.md (s :: (ts.length + 1) :: ss) fun i =>
          match (t :: ts)[i.tail.headD 0]? with
          | some u => u.get (i.headD 0 :: i.tail.tail)
          | none => 0)
      else .error .runtimeError

/-- `torch.split(t, 1, 1)`: the list of the size-one slices along axis 1. -/
def split1 (t : Tensor R) : List (Tensor R) :=
  match t.shape with
  | s :: c :: ss => (List.range c).map fun j =>
      ofFn t.md (s :: 1 :: ss) fun i => t.get (i.headD 0 :: j :: i.tail.tail)
  | _ => []

end Tensor
end Verif
