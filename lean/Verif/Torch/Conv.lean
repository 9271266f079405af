/-
Trusted semantics of the torch convolution and padding primitives used by ptwt.
All sums are exact.
-/
import Verif.Torch.Tensor

namespace Verif.Tensor
variable {R : Type} [NonUnitalNonAssocSemiring R]

/-- `torch.nn.functional.conv1d(x, w, stride=s, dilation=d)` with `x : [B, C, N]`,
`w : [O, C, F]`, no padding, one group.  RuntimeError on mismatched channels or meta data, or
if the (dilated) kernel does not fit. -/
def conv1d (x w : Tensor R) (s d : Nat) : Except Err (Tensor R) :=
  match x.shape, w.shape with
  | [B, C, N], [O, C', F] =>
    if C = C' ∧ x.md = w.md ∧ 1 ≤ F ∧ d * (F - 1) + 1 ≤ N ∧ 1 ≤ s then
      .ok (ofFn x.md [B, O, (N - d * (F - 1) - 1) / s + 1] fun i =>
        match i with
        | [b, o, k] => ∑ c ∈ Finset.range C, ∑ j ∈ Finset.range F,
            w.get [o, c, j] * x.get [b, c, s * k + d * j]
        | _ => 0)
    else .error .runtimeError
  | _, _ => .error .runtimeError

/-- `p` holds between corresponding entries of two lists of the same length. -/
def AllPairs (p : Nat → Nat → Prop) : List Nat → List Nat → Prop
  | [], [] => True
  | a :: as, b :: bs => p a b ∧ AllPairs p as bs
  | _, _ => False

instance decAllPairs (p : Nat → Nat → Prop) [∀ a b, Decidable (p a b)] :
    ∀ (as bs : List Nat), Decidable (AllPairs p as bs)
  | [], [] => isTrue trivial
  | a :: as, b :: bs =>
    match (inferInstance : Decidable (p a b)), decAllPairs p as bs with
    | isTrue h₁, isTrue h₂ => isTrue ⟨h₁, h₂⟩
    | isFalse h, _ => isFalse fun h' => h h'.1
    | _, isFalse h => isFalse fun h' => h h'.2
  | [], _ :: _ => isFalse id
  | _ :: _, [] => isFalse id

/-- Sum over all indices of a box: `∑_{j₁<n₁} … ∑_{jₖ<nₖ} f [j₁, …, jₖ]`. -/
def boxSum {R : Type} [AddCommMonoid R] : List Nat → (List Nat → R) → R
  | [], f => f []
  | n :: ns, f => ∑ j ∈ Finset.range n, boxSum ns fun js => f (j :: js)

/-- `torch.nn.functional.conv2d/conv3d(x, w, stride=s)` for any number of spatial axes:
`x : [B, C, N…]`, `w : [O, C, F…]`, no padding, one group, no dilation. -/
def convNd (x w : Tensor R) (s : Nat) : Except Err (Tensor R) :=
  match x.shape, w.shape with
  | B :: C :: Ns, O :: C' :: Fs =>
    if C = C' ∧ x.md = w.md ∧ AllPairs (fun N F => 1 ≤ F ∧ F ≤ N) Ns Fs ∧ 1 ≤ s then
      .ok (ofFn x.md (B :: O :: List.zipWith (fun N F => (N - F) / s + 1) Ns Fs) fun i =>
        match i with
        | b :: o :: ks => ∑ c ∈ Finset.range C, boxSum Fs fun js =>
            w.get (o :: c :: js) * x.get (b :: c :: List.zipWith (fun k j => s * k + j) ks js)
        | _ => 0)
    else .error .runtimeError
  | _, _ => .error .runtimeError

/-- `torch.nn.functional.conv2d(x, w, stride=s)`. -/
def conv2d (x w : Tensor R) (s : Nat) : Except Err (Tensor R) :=
  if x.rank = 4 then convNd x w s else .error .runtimeError

/-- `torch.nn.functional.conv3d(x, w, stride=s)`. -/
def conv3d (x w : Tensor R) (s : Nat) : Except Err (Tensor R) :=
  if x.rank = 5 then convNd x w s else .error .runtimeError

/-- `torch.nn.functional.conv_transpose1d(x, w, stride=s)` with `x : [B, C, N]`,
`w : [C, O, F]`: `y[m] = ∑ₖ w[m - s k] x[k]`, output length `(N-1)s + F`. -/
def convTranspose1d (x w : Tensor R) (s : Nat) : Except Err (Tensor R) :=
  match x.shape, w.shape with
  | [B, C, N], [C', O, F] =>
    if C = C' ∧ x.md = w.md ∧ 1 ≤ F ∧ 1 ≤ N then
      .ok (ofFn x.md [B, O, (N - 1) * s + F] fun i =>
        match i with
        | [b, o, m] => ∑ c ∈ Finset.range C, ∑ k ∈ Finset.range N,
            if s * k ≤ m ∧ m - s * k < F then w.get [c, o, m - s * k] * x.get [b, c, k] else 0
        | _ => 0)
    else .error .runtimeError
  | _, _ => .error .runtimeError

/-- `torch.nn.functional.conv_transpose2d/3d(x, w, stride=s)` for any number of spatial axes,
`x : [B, C, N…]`, `w : [C, O, F…]`: `y[m] = ∑ₖ w[m - s k] x[k]` over all `k` with `s k ≤ m` (taps
outside of `w` are 0). -/
def convTransposeNd (x w : Tensor R) (s : Nat) : Except Err (Tensor R) :=
  match x.shape, w.shape with
  | B :: C :: Ns, C' :: O :: Fs =>
    if C = C' ∧ x.md = w.md ∧ AllPairs (fun N F => 1 ≤ N ∧ 1 ≤ F) Ns Fs then
      .ok (ofFn x.md (B :: O :: List.zipWith (fun N F => (N - 1) * s + F) Ns Fs) fun i =>
        match i with
        | b :: o :: ms => ∑ c ∈ Finset.range C, boxSum Ns fun ks =>
            if AllPairs (fun m k => s * k ≤ m) ms ks then
              w.get (c :: o :: List.zipWith (fun m k => m - s * k) ms ks) * x.get (b :: c :: ks)
            else 0
        | _ => 0)
    else .error .runtimeError
  | _, _ => .error .runtimeError

/-- `torch.nn.functional.conv_transpose2d(x, w, stride=s)`. -/
def convTranspose2d (x w : Tensor R) (s : Nat) : Except Err (Tensor R) :=
  if x.rank = 4 then convTransposeNd x w s else .error .runtimeError

/-- `torch.nn.functional.conv_transpose3d(x, w, stride=s)`. -/
def convTranspose3d (x w : Tensor R) (s : Nat) : Except Err (Tensor R) :=
  if x.rank = 5 then convTransposeNd x w s else .error .runtimeError

/-- The modes of `torch.nn.functional.pad`. -/
inductive PadMode where
  | replicate | constant | reflect | circular
  deriving DecidableEq, Repr

/-- Pad one axis.  `constant` pads zeros.  `replicate` needs a non-empty axis, `reflect` needs
`0 < n` and pads smaller than the axis, `circular` needs pads of at most the axis length;
RuntimeError otherwise. -/
def padAxis (m : PadMode) (t : Tensor R) (a l r : Nat) : Except Err (Tensor R) :=
  let n := t.shape.getD a 0
  let sh := t.shape.set a (l + n + r)
  match m with
  | .constant => .ok (ofFn t.md sh fun i =>
      let k := i.getD a 0
      if l ≤ k ∧ k < l + n then t.get (i.set a (k - l)) else 0)
  | .replicate =>
    if 1 ≤ n then .ok (ofFn t.md sh fun i =>
      let k := i.getD a 0
      t.get (i.set a (if k < l then 0 else if k < l + n then k - l else n - 1)))
    else .error .runtimeError
  | .reflect =>
    if l < n ∧ r < n then .ok (ofFn t.md sh fun i =>
      let k := i.getD a 0
      t.get (i.set a (if k < l then l - k else if k < l + n then k - l
        else 2 * (n - 1) - (k - l))))
    else .error .runtimeError
  | .circular =>
    if l ≤ n ∧ r ≤ n then .ok (ofFn t.md sh fun i =>
      let k := i.getD a 0
      t.get (i.set a (if k < l then n - l + k else if k < l + n then k - l
        else k - l - n)))
    else .error .runtimeError

/-- `torch.nn.functional.pad(t, padding, mode)` with `padding` a flat tuple listing
`(left, right)` of the last axis first.  torch pads the axes independently; the only rank/length
combinations torch accepts for the non-constant modes (3d tensor with 2 pads, 4d with 4, 5d
with 6) are the ones ptwt uses. -/
def padLast (m : PadMode) : Tensor R → List Nat → (a : Nat) → Except Err (Tensor R)
  | t, l :: r :: rest, a => do
    let t' ← padAxis m t (t.rank - a) l r
    padLast m t' rest (a + 1)
  | t, [], _ => .ok t
  | _, _ :: [], _ => .error .runtimeError   -- odd padding length

/-- `torch.nn.functional.pad(t, padding, mode)`. -/
def pad (m : PadMode) (t : Tensor R) (padding : List Nat) : Except Err (Tensor R) :=
  padLast m t padding 1

end Verif.Tensor
