import Verif.Spec.LinN
import Verif.Torch.Conv
import Verif.Model.Conv1
import Mathlib.Algebra.BigOperators.Ring.Finset

/-! Every tensor primitive the transforms use is linear in its data argument: control flow and
failures depend on shapes and meta data only. -/

namespace Verif.Spec
open Tensor
variable {R : Type}

section general
variable {α β : Type} {P : α → α → α → Prop} {Q : β → β → β → Prop}

theorem Three.bind {x y z : Except Err α} {f g h : α → Except Err β} (hx : Three P x y z)
    (hf : ∀ a b c, P a b c → Three Q (f a) (g b) (h c)) : Three Q (x >>= f) (y >>= g) (z >>= h) := by
  cases hx with
  | ok hp => exact hf _ _ _ hp
  | err e => exact .err e

theorem Three.refl {x : Except Err α} (h : ∀ a, P a a a) : Three P x x x := by
  cases x with
  | ok a => exact .ok (h a)
  | error e => exact .err e

theorem Three.imp {P' : α → α → α → Prop} {x y z : Except Err α} (hx : Three P x y z)
    (h : ∀ a b c, P a b c → P' a b c) : Three P' x y z := by
  cases hx with
  | ok hp => exact .ok (h _ _ _ hp)
  | err e => exact .err e

theorem Forall₃.append {xs ys zs xs' ys' zs' : List α} (h : Forall₃ P xs ys zs)
    (h' : Forall₃ P xs' ys' zs') : Forall₃ P (xs ++ xs') (ys ++ ys') (zs ++ zs') := by
  induction h with
  | nil => exact h'
  | cons h1 _ ih => exact .cons h1 ih

theorem Forall₃.reverse {xs ys zs : List α} (h : Forall₃ P xs ys zs) :
    Forall₃ P xs.reverse ys.reverse zs.reverse := by
  induction h with
  | nil => exact .nil
  | cons h1 _ ih =>
    simp only [List.reverse_cons]
    exact ih.append (.cons h1 .nil)

theorem Forall₃.map_range {f g h : Nat → α} (n : Nat) (hp : ∀ i, P (f i) (g i) (h i)) :
    Forall₃ P ((List.range n).map f) ((List.range n).map g) ((List.range n).map h) := by
  induction (List.range n) with
  | nil => exact .nil
  | cons a l ih => exact .cons (hp a) ih

theorem Three.mapM {f : α → Except Err β} {xs ys zs : List α}
    (h : Forall₃ (fun a b c => Three Q (f a) (f b) (f c)) xs ys zs) :
    Three (Forall₃ Q) (xs.mapM f) (ys.mapM f) (zs.mapM f) := by
  induction h with
  | nil => exact .ok .nil
  | cons h1 _ ih =>
    simp only [List.mapM_cons]
    exact Three.bind h1 fun a b c hp => Three.bind ih fun as bs cs hps => .ok (.cons hp hps)

theorem Forall₃.length {xs ys zs : List α} (h : Forall₃ P xs ys zs) :
    ys.length = xs.length ∧ zs.length = xs.length := by
  induction h with
  | nil => exact ⟨rfl, rfl⟩
  | cons _ _ ih => exact ⟨by simp [ih.1], by simp [ih.2]⟩

theorem Three.ite (p : Prop) [Decidable p]
    {a b d a' b' d' : Except Err α} (h : Three P a b d) (h' : Three P a' b' d') :
    Three P (if p then a else a') (if p then b else b') (if p then d else d') := by
  split_ifs
  · exact h
  · exact h'

end general

section prim
variable [CommSemiring R] {c : R} {x y z : Tensor R}

theorem Lin.ofFn (md : Meta) (s : List Nat) {f g h : List Nat → R}
    (e : ∀ i, h i = c * f i + g i) : Lin c (ofFn md s f) (ofFn md s g) (ofFn md s h) := by
  refine ⟨rfl, rfl, rfl, rfl, ?_⟩
  intro i
  simp only [ofFn_get]
  split_ifs
  · exact e i
  · simp

theorem Lin.rank (h : Lin c x y z) : y.rank = x.rank ∧ z.rank = x.rank := by
  unfold Tensor.rank; rw [h.shape₁, h.shape₂]; exact ⟨rfl, rfl⟩

theorem Lin.sizeFromEnd (h : Lin c x y z) (k : Nat) :
    y.sizeFromEnd k = x.sizeFromEnd k ∧ z.sizeFromEnd k = x.sizeFromEnd k := by
  unfold Tensor.sizeFromEnd; rw [h.shape₁, h.shape₂]; exact ⟨rfl, rfl⟩

/-- Destructure related tensors so that shapes and meta data are syntactically equal. -/
theorem Lin.elim {motive : Tensor R → Tensor R → Tensor R → Prop} (h : Lin c x y z)
    (m : ∀ (md : Meta) (s : List Nat) (f g k : List Nat → R) (hf hg hk),
      (∀ i, k i = c * f i + g i) → motive ⟨md, s, f, hf⟩ ⟨md, s, g, hg⟩ ⟨md, s, k, hk⟩) :
    motive x y z := by
  obtain ⟨xm, xs, xg, hx⟩ := x
  obtain ⟨ym, ys, yg, hy⟩ := y
  obtain ⟨zm, zs, zg, hz⟩ := z
  obtain ⟨h1, h2, h3, h4, h5⟩ := h
  simp only at h1 h2 h3 h4 h5
  subst h1; subst h2; subst h3; subst h4
  exact m _ _ _ _ _ hx hy hz h5

theorem Lin.reshape (h : Lin c x y z) (s : List Nat) :
    Three (Lin c) (x.reshape s) (y.reshape s) (z.reshape s) := by
  refine h.elim (motive := fun x y z => Three (Lin c) (x.reshape s) (y.reshape s) (z.reshape s)) ?_
  intro md s' f g k _ _ _ e
  unfold Tensor.reshape
  simp only
  split_ifs
  · exact .ok (Lin.ofFn _ _ fun i => e _)
  · exact .err _

theorem Lin.permute (h : Lin c x y z) (ds : List Int) :
    Three (Lin c) (x.permute ds) (y.permute ds) (z.permute ds) := by
  refine h.elim (motive := fun x y z => Three (Lin c) (x.permute ds) (y.permute ds) (z.permute ds)) ?_
  intro md s' f g k _ _ _ e
  unfold Tensor.permute
  refine Three.ite (ds.length ≠ s'.length) (.err _) ?_
  refine Three.bind (P := fun u v w => v = u ∧ w = u) (Three.refl fun _ => ⟨rfl, rfl⟩) ?_
  rintro v _ _ ⟨rfl, rfl⟩
  split_ifs
  · exact .ok (Lin.ofFn _ _ fun i => e _)
  · exact .err _

theorem Lin.unsqueeze0 (h : Lin c x y z) : Lin c x.unsqueeze0 y.unsqueeze0 z.unsqueeze0 := by
  refine h.elim (motive := fun x y z => Lin c x.unsqueeze0 y.unsqueeze0 z.unsqueeze0) ?_
  intro md s' f g k _ _ _ e
  exact Lin.ofFn _ _ fun i => e _

theorem Lin.unsqueeze1 (h : Lin c x y z) :
    Three (Lin c) x.unsqueeze1 y.unsqueeze1 z.unsqueeze1 := by
  refine h.elim (motive := fun x y z => Three (Lin c) x.unsqueeze1 y.unsqueeze1 z.unsqueeze1) ?_
  intro md s' f g k _ _ _ e
  cases s' with
  | nil => exact .err _
  | cons a l => exact .ok (Lin.ofFn _ _ fun i => e _)

theorem Lin.squeeze0 (h : Lin c x y z) : Lin c x.squeeze0 y.squeeze0 z.squeeze0 := by
  refine h.elim (motive := fun x y z => Lin c x.squeeze0 y.squeeze0 z.squeeze0) ?_
  intro md s' f g k hf hg hk e
  unfold Tensor.squeeze0
  simp only
  split
  · exact Lin.ofFn _ _ fun i => e _
  · exact ⟨rfl, rfl, rfl, rfl, e⟩

theorem Lin.squeeze1 (h : Lin c x y z) : Lin c x.squeeze1 y.squeeze1 z.squeeze1 := by
  refine h.elim (motive := fun x y z => Lin c x.squeeze1 y.squeeze1 z.squeeze1) ?_
  intro md s' f g k hf hg hk e
  unfold Tensor.squeeze1
  simp only
  split
  · exact Lin.ofFn _ _ fun i => e _
  · exact ⟨rfl, rfl, rfl, rfl, e⟩

theorem Lin.transpose (h : Lin c x y z) (a b : Nat) :
    Lin c (x.transpose a b) (y.transpose a b) (z.transpose a b) := by
  refine h.elim (motive := fun x y z => Lin c (x.transpose a b) (y.transpose a b) (z.transpose a b)) ?_
  intro md s' f g k _ _ _ e
  exact Lin.ofFn _ _ fun i => e _

theorem Lin.slice (h : Lin c x y z) (a lo hi : Nat) :
    Lin c (x.slice a lo hi) (y.slice a lo hi) (z.slice a lo hi) := by
  refine h.elim (motive := fun x y z => Lin c (x.slice a lo hi) (y.slice a lo hi) (z.slice a lo hi)) ?_
  intro md s' f g k _ _ _ e
  exact Lin.ofFn _ _ fun i => e _

theorem Lin.flip (h : Lin c x y z) (a : Nat) : Lin c (x.flip a) (y.flip a) (z.flip a) := by
  refine h.elim (motive := fun x y z => Lin c (x.flip a) (y.flip a) (z.flip a)) ?_
  intro md s' f g k _ _ _ e
  exact Lin.ofFn _ _ fun i => e _

theorem Lin.cat2 {x' y' z' : Tensor R} (h : Lin c x y z) (h' : Lin c x' y' z') (a : Nat) :
    Three (Lin c) (x.cat2 x' a) (y.cat2 y' a) (z.cat2 z' a) := by
  refine h.elim (motive := fun x y z => Three (Lin c) (x.cat2 x' a) (y.cat2 y' a) (z.cat2 z' a)) ?_
  intro md s f g k _ _ _ e
  refine h'.elim (motive := fun x' y' z' => Three (Lin c) (Tensor.cat2 ⟨md, s, f, _⟩ x' a)
    (Tensor.cat2 ⟨md, s, g, _⟩ y' a) (Tensor.cat2 ⟨md, s, k, _⟩ z' a)) ?_
  intro md' s' f' g' k' _ _ _ e'
  unfold Tensor.cat2
  simp only
  split_ifs
  · refine .ok (Lin.ofFn _ _ fun i => ?_)
    split_ifs
    · exact e _
    · exact e' _
  · exact .err _

theorem Lin.head_mem {xs ys zs : List (Tensor R)} (h : Forall₃ (Lin c) xs ys zs) {s : List Nat}
    {md : Meta} :
    ((∀ u ∈ ys, u.shape = s ∧ u.md = md) ↔ ∀ u ∈ xs, u.shape = s ∧ u.md = md) ∧
    ((∀ u ∈ zs, u.shape = s ∧ u.md = md) ↔ ∀ u ∈ xs, u.shape = s ∧ u.md = md) := by
  induction h with
  | nil => exact ⟨Iff.rfl, Iff.rfl⟩
  | cons h1 _ ih =>
    simp only [List.mem_cons, forall_eq_or_imp, h1.shape₁, h1.shape₂, h1.md₁, h1.md₂, ih.1, ih.2,
      and_self]

theorem Forall₃.getElem? {α : Type} {P : α → α → α → Prop} {xs ys zs : List α}
    (h : Forall₃ P xs ys zs) (k : Nat) :
    (xs[k]? = none ∧ ys[k]? = none ∧ zs[k]? = none) ∨
    ∃ x y z, xs[k]? = some x ∧ ys[k]? = some y ∧ zs[k]? = some z ∧ P x y z := by
  induction h generalizing k with
  | nil => exact Or.inl ⟨rfl, rfl, rfl⟩
  | cons h1 _ ih =>
    cases k with
    | zero => exact Or.inr ⟨_, _, _, rfl, rfl, rfl, h1⟩
    | succ k => exact ih k

theorem Lin.stack1 {xs ys zs : List (Tensor R)} (h : Forall₃ (Lin c) xs ys zs) :
    Three (Lin c) (stack1 xs) (stack1 ys) (stack1 zs) := by
  cases h with
  | nil => exact .err _
  | @cons x y z xs ys zs h1 h2 =>
    unfold Tensor.stack1
    have hl := h2.length
    have hm := Lin.head_mem h2 (s := x.shape) (md := x.md)
    simp only [h1.shape₁, h1.shape₂, h1.md₁, h1.md₂, hl.1, hl.2, hm.1, hm.2]
    cases x.shape with
    | nil => exact .err _
    | cons a l =>
      simp only
      split_ifs
      · refine .ok (Lin.ofFn _ _ fun i => ?_)
        rcases (Forall₃.cons h1 h2).getElem? (i.tail.headD 0) with ⟨e1, e2, e3⟩ | ⟨_, _, _, e1, e2, e3, hl⟩
        · rw [e1, e2, e3]; simp
        · rw [e1, e2, e3]; exact hl.get _
      · exact .err _

theorem Lin.split1 (h : Lin c x y z) : Forall₃ (Lin c) (split1 x) (split1 y) (split1 z) := by
  refine h.elim (motive := fun x y z => Forall₃ (Lin c) (Tensor.split1 x) (Tensor.split1 y) (Tensor.split1 z)) ?_
  intro md s f g k _ _ _ e
  unfold Tensor.split1
  simp only
  split
  · exact Forall₃.map_range _ fun j => Lin.ofFn _ _ fun i => e _
  · exact .nil

theorem lin_sum {ι : Type} (s : Finset ι) (w f g k : ι → R) (e : ∀ i, k i = c * f i + g i) :
    ∑ i ∈ s, w i * k i = c * ∑ i ∈ s, w i * f i + ∑ i ∈ s, w i * g i := by
  rw [Finset.mul_sum, ← Finset.sum_add_distrib]
  refine Finset.sum_congr rfl fun i _ => ?_
  rw [e]; ring

theorem lin_sum' {ι : Type} (s : Finset ι) (f g k : ι → R) (e : ∀ i, k i = c * f i + g i) :
    ∑ i ∈ s, k i = c * ∑ i ∈ s, f i + ∑ i ∈ s, g i := by
  rw [Finset.mul_sum, ← Finset.sum_add_distrib]
  exact Finset.sum_congr rfl fun i _ => e i

theorem Lin.conv1d (h : Lin c x y z) (w : Tensor R) (s d : Nat) :
    Three (Lin c) (conv1d x w s d) (conv1d y w s d) (conv1d z w s d) := by
  refine h.elim (motive := fun x y z => Three (Lin c) (Tensor.conv1d x w s d) (Tensor.conv1d y w s d) (Tensor.conv1d z w s d)) ?_
  intro md s' f g k _ _ _ e
  unfold Tensor.conv1d
  simp only
  split
  · split_ifs
    · refine .ok (Lin.ofFn _ _ fun i => ?_)
      split
      · exact lin_sum' _ _ _ _ fun a => lin_sum _ _ _ _ _ fun b => e _
      · simp
    · exact .err _
  · exact .err _

theorem lin_boxSum : ∀ (ns : List Nat) (f g k : List Nat → R) (_ : ∀ i, k i = c * f i + g i),
    boxSum ns k = c * boxSum ns f + boxSum ns g
  | [], _, _, _, e => e _
  | _ :: ns, _, _, _, e => lin_sum' _ _ _ _ fun _ => lin_boxSum ns _ _ _ fun _ => e _

theorem Lin.convNd (h : Lin c x y z) (w : Tensor R) (s : Nat) :
    Three (Lin c) (convNd x w s) (convNd y w s) (convNd z w s) := by
  refine h.elim (motive := fun x y z => Three (Lin c) (Tensor.convNd x w s) (Tensor.convNd y w s) (Tensor.convNd z w s)) ?_
  intro md s' f g k _ _ _ e
  unfold Tensor.convNd
  simp only
  split
  · split_ifs
    · refine .ok (Lin.ofFn _ _ fun i => ?_)
      split
      · exact lin_sum' _ _ _ _ fun a => lin_boxSum _ _ _ _ fun b => by rw [e]; ring
      · simp
    · exact .err _
  · exact .err _

theorem Lin.conv2d (h : Lin c x y z) (w : Tensor R) (s : Nat) :
    Three (Lin c) (conv2d x w s) (conv2d y w s) (conv2d z w s) := by
  have h1 : y.rank = x.rank := by unfold Tensor.rank; rw [h.shape₁]
  have h2 : z.rank = x.rank := by unfold Tensor.rank; rw [h.shape₂]
  unfold Tensor.conv2d
  rw [h1, h2]
  split_ifs
  · exact h.convNd w s
  · exact .err _

theorem Lin.conv3d (h : Lin c x y z) (w : Tensor R) (s : Nat) :
    Three (Lin c) (conv3d x w s) (conv3d y w s) (conv3d z w s) := by
  have h1 : y.rank = x.rank := by unfold Tensor.rank; rw [h.shape₁]
  have h2 : z.rank = x.rank := by unfold Tensor.rank; rw [h.shape₂]
  unfold Tensor.conv3d
  rw [h1, h2]
  split_ifs
  · exact h.convNd w s
  · exact .err _

theorem lin_ite (p : Prop) [Decidable p] (w f g k : R) (e : k = c * f + g) :
    (if p then w * k else 0) = c * (if p then w * f else 0) + (if p then w * g else 0) := by
  split_ifs
  · rw [e]; ring
  · simp

theorem Lin.convTranspose1d (h : Lin c x y z) (w : Tensor R) (s : Nat) :
    Three (Lin c) (convTranspose1d x w s) (convTranspose1d y w s) (convTranspose1d z w s) := by
  refine h.elim (motive := fun x y z => Three (Lin c) (Tensor.convTranspose1d x w s) (Tensor.convTranspose1d y w s) (Tensor.convTranspose1d z w s)) ?_
  intro md s' f g k _ _ _ e
  unfold Tensor.convTranspose1d
  simp only
  split
  · split_ifs
    · refine .ok (Lin.ofFn _ _ fun i => ?_)
      split
      · exact lin_sum' _ _ _ _ fun a => lin_sum' _ _ _ _ fun b => lin_ite _ _ _ _ _ (e _)
      · simp
    · exact .err _
  · exact .err _

theorem Lin.convTransposeNd (h : Lin c x y z) (w : Tensor R) (s : Nat) :
    Three (Lin c) (convTransposeNd x w s) (convTransposeNd y w s) (convTransposeNd z w s) := by
  refine h.elim (motive := fun x y z => Three (Lin c) (Tensor.convTransposeNd x w s) (Tensor.convTransposeNd y w s) (Tensor.convTransposeNd z w s)) ?_
  intro md s' f g k _ _ _ e
  unfold Tensor.convTransposeNd
  simp only
  split
  · split_ifs
    · refine .ok (Lin.ofFn _ _ fun i => ?_)
      split
      · exact lin_sum' _ _ _ _ fun a => lin_boxSum _ _ _ _ fun b => lin_ite _ _ _ _ _ (e _)
      · simp
    · exact .err _
  · exact .err _

theorem Lin.convTranspose2d (h : Lin c x y z) (w : Tensor R) (s : Nat) :
    Three (Lin c) (convTranspose2d x w s) (convTranspose2d y w s) (convTranspose2d z w s) := by
  have h1 : y.rank = x.rank := by unfold Tensor.rank; rw [h.shape₁]
  have h2 : z.rank = x.rank := by unfold Tensor.rank; rw [h.shape₂]
  unfold Tensor.convTranspose2d
  rw [h1, h2]
  split_ifs
  · exact h.convTransposeNd w s
  · exact .err _

theorem Lin.convTranspose3d (h : Lin c x y z) (w : Tensor R) (s : Nat) :
    Three (Lin c) (convTranspose3d x w s) (convTranspose3d y w s) (convTranspose3d z w s) := by
  have h1 : y.rank = x.rank := by unfold Tensor.rank; rw [h.shape₁]
  have h2 : z.rank = x.rank := by unfold Tensor.rank; rw [h.shape₂]
  unfold Tensor.convTranspose3d
  rw [h1, h2]
  split_ifs
  · exact h.convTransposeNd w s
  · exact .err _

theorem Lin.padAxis (h : Lin c x y z) (m : PadMode) (a l r : Nat) :
    Three (Lin c) (padAxis m x a l r) (padAxis m y a l r) (padAxis m z a l r) := by
  refine h.elim (motive := fun x y z => Three (Lin c) (Tensor.padAxis m x a l r) (Tensor.padAxis m y a l r) (Tensor.padAxis m z a l r)) ?_
  intro md s f g k _ _ _ e
  cases m with
  | constant =>
    refine .ok (Lin.ofFn _ _ fun i => ?_)
    simp only
    split_ifs
    · exact e _
    · simp
  | replicate =>
    unfold Tensor.padAxis
    simp only
    split_ifs
    · exact .ok (Lin.ofFn _ _ fun i => e _)
    · exact .err _
  | reflect =>
    unfold Tensor.padAxis
    simp only
    split_ifs
    · exact .ok (Lin.ofFn _ _ fun i => e _)
    · exact .err _
  | circular =>
    unfold Tensor.padAxis
    simp only
    split_ifs
    · exact .ok (Lin.ofFn _ _ fun i => e _)
    · exact .err _

theorem Lin.padLast (m : PadMode) : ∀ (ps : List Nat) (a : Nat) {x y z : Tensor R}, Lin c x y z →
    Three (Lin c) (padLast m x ps a) (padLast m y ps a) (padLast m z ps a)
  | [], _, _, _, _, h => .ok h
  | [_], _, _, _, _, _ => .err _
  | l :: r :: rest, a, x, y, z, h => by
    unfold Tensor.padLast
    rw [h.rank.1, h.rank.2]
    exact Three.bind (h.padAxis m _ l r) fun _ _ _ h' => Lin.padLast m rest (a + 1) h'

end prim

/-! ### The model's helpers -/

section helpers
variable [CommSemiring R] {c : R} {x y z : Tensor R}

theorem Lin.swapAxes (h : Lin c x y z) (axes : List Int) :
    Three (Lin c) (swapAxes x axes) (swapAxes y axes) (swapAxes z axes) := by
  unfold Verif.swapAxes
  rw [h.rank.1, h.rank.2]
  exact Three.bind (P := fun _ _ _ => True) (Three.refl fun _ => trivial)
    fun _ _ _ _ => h.permute _

theorem Lin.undoSwapAxes (h : Lin c x y z) (axes : List Int) :
    Three (Lin c) (undoSwapAxes x axes) (undoSwapAxes y axes) (undoSwapAxes z axes) := by
  unfold Verif.undoSwapAxes
  rw [h.rank.1, h.rank.2]
  exact Three.bind (P := fun _ _ _ => True) (Three.refl fun _ => trivial)
    fun _ _ _ _ => h.permute _

theorem Lin.foldAxes (h : Lin c x y z) (k : Nat) :
    Three (Lin c) (foldAxes x k) (foldAxes y k) (foldAxes z k) := by
  unfold Verif.foldAxes
  rw [h.shape₁, h.shape₂]
  exact h.reshape _

theorem Lin.unfoldAxes (h : Lin c x y z) (ds : List Nat) (k : Nat) :
    Three (Lin c) (unfoldAxes x ds k) (unfoldAxes y ds k) (unfoldAxes z ds k) := by
  unfold Verif.unfoldAxes
  rw [h.shape₁, h.shape₂]
  exact h.reshape _

theorem Lin.cropAxis (h : Lin c x y z) (a l r : Nat) :
    Lin c (cropAxis x a l r) (cropAxis y a l r) (cropAxis z a l r) := by
  unfold Verif.cropAxis
  simp only
  rw [h.shape₁, h.shape₂]
  split_ifs
  · have h' := h.slice a l (x.shape.getD a 0)
    rw [h'.shape₁, h'.shape₂]; exact h'.slice _ _ _
  · rw [h.shape₁, h.shape₂]; exact h.slice _ _ _
  · exact h.slice _ _ _
  · exact h

variable {P Q : Tensor R → Tensor R → Tensor R → Prop} {f g k : Tensor R → Except Err (Tensor R)}

theorem Entry3.mapM (hf : ∀ x y z, P x y z → Three Q (f x) (g y) (k z)) {a b d : Entry R}
    (h : Entry3 P a b d) : Three (Entry3 Q) (a.mapM f) (b.mapM g) (d.mapM k) := by
  cases h with
  | tensor h => exact Three.bind (hf _ _ _ h) fun _ _ _ h => .ok (.tensor h)
  | tuple h1 h2 h3 =>
    exact Three.bind (hf _ _ _ h1) fun _ _ _ h1 => Three.bind (hf _ _ _ h2) fun _ _ _ h2 =>
      Three.bind (hf _ _ _ h3) fun _ _ _ h3 => .ok (.tuple h1 h2 h3)
  | dict h =>
    refine Three.bind (P := Forall₃ (fun e e' e'' => e'.1 = e.1 ∧ e''.1 = e.1 ∧ Q e.2 e'.2 e''.2)) ?_
      fun _ _ _ h => .ok (.dict h)
    induction h with
    | nil => exact .ok .nil
    | cons h1 _ ih =>
      simp only [List.mapM_cons]
      refine Three.bind (P := fun e e' e'' => e'.1 = e.1 ∧ e''.1 = e.1 ∧ Q e.2 e'.2 e''.2) ?_
        fun _ _ _ h => Three.bind ih fun _ _ _ hs => .ok (.cons h hs)
      exact Three.bind (hf _ _ _ h1.2.2) fun _ _ _ h => .ok ⟨h1.1, h1.2.1, h⟩
  | other => exact .err _

theorem entries3_mapM (hf : ∀ x y z, P x y z → Three Q (f x) (g y) (k z)) {a b d : List (Entry R)}
    (h : Forall₃ (Entry3 P) a b d) :
    Three (Forall₃ (Entry3 Q)) (a.mapM (Entry.mapM f)) (b.mapM (Entry.mapM g)) (d.mapM (Entry.mapM k)) := by
  induction h with
  | nil => exact .ok .nil
  | cons h1 _ ih =>
    simp only [List.mapM_cons]
    exact Three.bind (h1.mapM hf) fun _ _ _ h => Three.bind ih fun _ _ _ hs => .ok (.cons h hs)

theorem Coeffs3.treeMap (hf : ∀ x y z, P x y z → Three Q (f x) (g y) (k z)) {a b d : Coeffs R}
    (h : Coeffs3 P a b d) : Three (Coeffs3 Q) (coeffTreeMap a f) (coeffTreeMap b g) (coeffTreeMap d k) := by
  obtain ⟨la, ia⟩ := a
  obtain ⟨lb, ib⟩ := b
  obtain ⟨ld, id'⟩ := d
  obtain ⟨h1, h2, h3⟩ := h
  simp only at h1 h2 h3
  subst h1; subst h2
  unfold coeffTreeMap
  cases h3 with
  | nil => exact .err _
  | cons h h' =>
    cases h with
    | tensor h =>
      refine Three.bind (hf _ _ _ h) fun _ _ _ h1 => Three.bind (entries3_mapM hf h') ?_
      intro u v w hr
      cases hr with
      | nil => exact .ok ⟨rfl, rfl, .cons (.tensor h1) .nil⟩
      | cons hr hrs =>
        cases hr with
        | tensor hr => exact .ok ⟨rfl, rfl, .cons (.tensor h1) (.cons (.tensor hr) hrs)⟩
        | tuple a b d => exact .ok ⟨rfl, rfl, .cons (.tensor h1) (.cons (.tuple a b d) hrs)⟩
        | dict a => exact .ok ⟨rfl, rfl, .cons (.tensor h1) (.cons (.dict a) hrs)⟩
        | other => exact .ok ⟨rfl, rfl, .cons (.tensor h1) (.cons .other hrs)⟩
    | tuple => exact .err _
    | dict => exact .err _
    | other => exact .err _

theorem Coeffs3.headTensor {a b d : Coeffs R} (h : Coeffs3 P a b d) :
    Three P (headTensor a) (headTensor b) (headTensor d) := by
  obtain ⟨la, ia⟩ := a
  obtain ⟨lb, ib⟩ := b
  obtain ⟨ld, id'⟩ := d
  obtain ⟨h1, h2, h3⟩ := h
  simp only at h1 h2 h3
  unfold Verif.headTensor
  cases h3 with
  | nil => exact .err _
  | cons h h' =>
    cases h with
    | tensor h => exact .ok h
    | tuple => exact .err _
    | dict => exact .err _
    | other => exact .err _

theorem Coeffs3.ofList {xs ys zs : List (Tensor R)} (h : Forall₃ P xs ys zs) :
    Coeffs3 P (Coeffs.ofList xs) (Coeffs.ofList ys) (Coeffs.ofList zs) := by
  refine ⟨rfl, rfl, ?_⟩
  unfold Coeffs.ofList
  induction h with
  | nil => exact .nil
  | cons h1 _ ih => exact .cons (.tensor h1) ih

theorem Coeffs3.toList {a b d : Coeffs R} (h : Coeffs3 P a b d) :
    Forall₃ P a.toList b.toList d.toList := by
  obtain ⟨la, ia⟩ := a
  obtain ⟨lb, ib⟩ := b
  obtain ⟨ld, id'⟩ := d
  have h3 := h.items
  simp only at h3
  unfold Coeffs.toList
  simp only
  clear h
  induction h3 with
  | nil => exact .nil
  | cons h1 _ ih =>
    cases h1 with
    | tensor h => exact .cons h ih
    | tuple => exact ih
    | dict => exact ih
    | other => exact ih

theorem lin_preprocessCoeffs {a b d : Coeffs R} (h : Coeffs3 (Lin c) a b d) (n : Nat) (axes : AxisHint)
    (ch : Bool) :
    Three (fun u v w => Coeffs3 (Lin c) u.1 v.1 w.1 ∧ v.2 = u.2 ∧ w.2 = u.2)
      (preprocessCoeffs a n axes ch) (preprocessCoeffs b n axes ch) (preprocessCoeffs d n axes ch) := by
  unfold preprocessCoeffs
  refine Three.ite _ (.err _) ?_
  refine Three.bind h.headTensor fun x y z hx => ?_
  rw [hx.md₁, hx.md₂]
  refine Three.ite _ (.err _) ?_
  refine Three.bind (P := fun u v w => v = u ∧ w = u) (Three.refl fun _ => ⟨rfl, rfl⟩) ?_
  rintro as _ _ ⟨rfl, rfl⟩
  refine Three.bind (P := fun u v w => v = u ∧ w = u) (Three.refl fun _ => ⟨rfl, rfl⟩) ?_
  rintro df _ _ ⟨rfl, rfl⟩
  refine Three.bind (P := Coeffs3 (Lin c)) ?_ fun a b d h => ?_
  · unfold preSwap
    exact Three.ite _ (h.treeMap fun _ _ _ h => h.swapAxes _) (.ok h)
  refine Three.bind h.headTensor fun x y z hx => ?_
  rw [hx.shape₁, hx.shape₂]
  refine Three.bind (P := Coeffs3 (Lin c)) ?_ fun a b d h => ?_
  · unfold preFold
    refine Three.ite _ (.err _) (Three.ite _ (h.treeMap fun _ _ _ h => .ok h.unsqueeze0)
      (Three.ite _ (h.treeMap fun _ _ _ h => h.foldAxes _) (.ok h)))
  refine Three.bind (P := Coeffs3 (Lin c)) ?_ fun a b d h => ?_
  · unfold preChannel
    exact Three.ite _ (h.treeMap fun _ _ _ h => h.unsqueeze1) (.ok h)
  exact .ok ⟨h, rfl, rfl⟩

theorem lin_postprocessCoeffs {a b d : Coeffs R} (h : Coeffs3 (Lin c) a b d) (n : Nat) (ds : List Nat)
    (axes : AxisHint) :
    Three (Coeffs3 (Lin c))
      (postprocessCoeffs a n ds axes) (postprocessCoeffs b n ds axes) (postprocessCoeffs d n ds axes) := by
  unfold postprocessCoeffs
  refine Three.ite _ (.err _) ?_
  refine Three.bind (P := fun u v w => v = u ∧ w = u) (Three.refl fun _ => ⟨rfl, rfl⟩) ?_
  rintro as _ _ ⟨rfl, rfl⟩
  refine Three.bind (P := Coeffs3 (Lin c)) ?_ fun a b d h => ?_
  · unfold postUnfold
    refine Three.ite _ (.err _) (Three.ite _ (h.treeMap fun _ _ _ h => .ok h.squeeze0)
      (Three.ite _ (h.treeMap fun _ _ _ h => h.unfoldAxes _ _) (.ok h)))
  refine Three.bind (P := fun u v w => v = u ∧ w = u) (Three.refl fun _ => ⟨rfl, rfl⟩) ?_
  rintro df _ _ ⟨rfl, rfl⟩
  unfold postSwap
  exact Three.ite _ (h.treeMap fun _ _ _ h => h.undoSwapAxes _) (.ok h)

theorem Lin.preprocessTensor (h : Lin c x y z) (n : Nat) (axes : AxisHint) (ch : Bool) :
    Three (fun u v w => Lin c u.1 v.1 w.1 ∧ v.2 = u.2 ∧ w.2 = u.2)
      (preprocessTensor x n axes ch) (preprocessTensor y n axes ch) (preprocessTensor z n axes ch) := by
  unfold Verif.preprocessTensor
  refine Three.bind (lin_preprocessCoeffs (Coeffs3.ofList (.cons h .nil)) n axes ch) ?_
  rintro ⟨u, du⟩ ⟨v, dv⟩ ⟨w, dw⟩ ⟨h1, h2, h3⟩
  exact Three.bind h1.headTensor fun _ _ _ h => .ok ⟨h, h2, h3⟩

theorem Lin.postprocessTensor (h : Lin c x y z) (n : Nat) (ds : List Nat) (axes : AxisHint) :
    Three (Lin c) (postprocessTensor x n ds axes) (postprocessTensor y n ds axes)
      (postprocessTensor z n ds axes) := by
  unfold Verif.postprocessTensor
  exact Three.bind (lin_postprocessCoeffs (Coeffs3.ofList (.cons h .nil)) n ds axes)
    fun _ _ _ h => h.headTensor

theorem Lin.preprocessDeconstruction (h : Lin c x y z) (w : Wavelet R) (n : Nat) (axes : AxisHint) :
    Three (fun u v t => Lin c u.1 v.1 t.1 ∧ v.2 = u.2 ∧ t.2 = u.2)
      (preprocessDeconstruction x w n axes) (preprocessDeconstruction y w n axes)
      (preprocessDeconstruction z w n axes) := by
  unfold Verif.preprocessDeconstruction
  refine Three.bind (h.preprocessTensor n axes true) ?_
  rintro ⟨u, du⟩ ⟨v, dv⟩ ⟨t, dt⟩ ⟨h1, h2, h3⟩
  simp only at h1 h2 h3 ⊢
  subst h2; subst h3
  rw [h1.md₁, h1.md₂]
  refine Three.bind (P := fun u v w => v = u ∧ w = u) (Three.refl fun _ => ⟨rfl, rfl⟩) ?_
  rintro f _ _ ⟨rfl, rfl⟩
  exact .ok ⟨h1, rfl, rfl⟩

/-! ### Symmetric padding -/

theorem Lin.symCatLeft (h : Lin c x y z) (l : Nat) :
    Three (Lin c) (symCatLeft x l) (symCatLeft y l) (symCatLeft z l) := by
  unfold Verif.symCatLeft
  exact Three.ite _ (((h.slice _ _ _).flip 0).cat2 h 0) (.ok h)

theorem Lin.padSymBase (h : Lin c x y z) (l r : Nat) :
    Three (Lin c) (padSymBase x l r) (padSymBase y l r) (padSymBase z l r) := by
  unfold Verif.padSymBase
  simp only
  rw [h.shape₁, h.shape₂]
  exact Three.bind (h.symCatLeft l) fun _ _ _ h' =>
    Three.ite _ (h'.cat2 ((h.slice _ _ _).flip 0) 0) (.ok h')

theorem Lin.padSymmetric1dFuel : ∀ (fuel : Nat) {x y z : Tensor R} (l r : Nat), Lin c x y z →
    Three (Lin c) (padSymmetric1dFuel fuel x l r) (padSymmetric1dFuel fuel y l r)
      (padSymmetric1dFuel fuel z l r)
  | 0, _, _, _, _, _, _ => .err _
  | fuel + 1, x, y, z, l, r, h => by
    unfold Verif.padSymmetric1dFuel
    simp only
    rw [h.shape₁, h.shape₂]
    refine Three.ite _ ?_ (h.padSymBase l r)
    refine Three.bind (P := fun u v w => Lin c u.1 v.1 w.1 ∧ v.2 = u.2 ∧ w.2 = u.2) ?_ ?_
    · unfold symGrowLeft
      exact Three.ite _ (Three.bind (Lin.padSymmetric1dFuel fuel _ _ h) fun _ _ _ h => .ok ⟨h, rfl, rfl⟩)
        (.ok ⟨h, rfl, rfl⟩)
    rintro ⟨x1, l1⟩ ⟨y1, l2⟩ ⟨z1, l3⟩ ⟨h1, h2, h3⟩
    simp only at h1 h2 h3 ⊢
    subst h2; subst h3
    refine Three.bind (P := fun u v w => Lin c u.1 v.1 w.1 ∧ v.2 = u.2 ∧ w.2 = u.2) ?_ ?_
    · unfold symGrowRight
      exact Three.ite _ (Three.bind (Lin.padSymmetric1dFuel fuel _ _ h1) fun _ _ _ h => .ok ⟨h, rfl, rfl⟩)
        (.ok ⟨h1, rfl, rfl⟩)
    rintro ⟨x2, r1⟩ ⟨y2, r2⟩ ⟨z2, r3⟩ ⟨h1, h2, h3⟩
    simp only at h1 h2 h3 ⊢
    subst h2; subst h3
    exact Lin.padSymmetric1dFuel fuel _ _ h1

theorem Lin.padSymmetricLoop : ∀ (ps : List (Nat × Nat)) (a : Nat) {x y z : Tensor R}, Lin c x y z →
    Three (Lin c) (padSymmetricLoop x ps a) (padSymmetricLoop y ps a) (padSymmetricLoop z ps a)
  | [], _, _, _, _, h => .ok h
  | (l, r) :: ps, a, x, y, z, h => by
    unfold Verif.padSymmetricLoop
    exact Three.bind (Lin.padSymmetric1dFuel _ l r (h.transpose 0 a)) fun _ _ _ h =>
      Lin.padSymmetricLoop ps (a - 1) (h.transpose a 0)

theorem Lin.fwtPad (h : Lin c x y z) (w : Wavelet R) (mode : Option String) (n : Nat) :
    Three (Lin c) (fwtPad x w mode n) (fwtPad y w mode n) (fwtPad z w mode n) := by
  unfold Verif.fwtPad fwtPadWith
  refine Three.bind (P := fun u v w => v = u ∧ w = u) (Three.refl fun _ => ⟨rfl, rfl⟩) ?_
  rintro m _ _ ⟨hm1, hm2⟩
  rw [hm1, hm2]
  have e1 : getPaddingN y w n = getPaddingN x w n := by
    unfold getPaddingN; simp only [(h.sizeFromEnd _).1]
  have e2 : getPaddingN z w n = getPaddingN x w n := by
    unfold getPaddingN; simp only [(h.sizeFromEnd _).2]
  simp only [e1, e2]
  cases m with
  | symmetric =>
    simp only
    unfold padSymmetric
    rw [h.rank.1, h.rank.2]
    exact Three.ite _ (.err _) (Lin.padSymmetricLoop _ _ h)
  | torch pm => exact Lin.padLast pm _ _ h

end helpers

/-! ### The 1d transforms -/

section
variable [CommSemiring R] {c : R} {x y z : Tensor R}

theorem lin_wavedecLoop (w : Wavelet R) (mode : Option String) (filt : Tensor R) :
    ∀ (L : Nat) {x y z : Tensor R}, Lin c x y z →
    Three (fun u v t => Lin c u.1 v.1 t.1 ∧ Forall₃ (Lin c) u.2 v.2 t.2)
      (wavedecLoop w mode filt L x) (wavedecLoop w mode filt L y) (wavedecLoop w mode filt L z)
  | 0, _, _, _, h => .ok ⟨h, .nil⟩
  | L + 1, x, y, z, h => by
    unfold wavedecLoop
    refine Three.bind (h.fwtPad w mode 1) fun _ _ _ h => Three.bind (h.conv1d filt 2 1) fun u v t h => ?_
    have hs := h.split1
    revert hs
    generalize split1 u = su
    generalize split1 v = sv
    generalize split1 t = st
    intro hs
    cases hs with
    | nil => exact .err _
    | cons h1 hs =>
      cases hs with
      | nil => exact .err _
      | cons h2 hs =>
        cases hs with
        | cons _ _ => exact .err _
        | nil =>
          simp only
          exact Three.bind (lin_wavedecLoop w mode filt L h1) fun _ _ _ h =>
            .ok ⟨h.1, .cons h2.squeeze1 h.2⟩

theorem lin_wavedec (h : Lin c x y z) (w : Wavelet R) (mode : Option String) (level : Option Int)
    (axis : AxisHint) :
    Three (Forall₃ (Lin c)) (wavedec x w mode level axis) (wavedec y w mode level axis)
      (wavedec z w mode level axis) := by
  unfold wavedec
  refine Three.bind (h.preprocessDeconstruction w 1 axis) ?_
  rintro ⟨x', du, f⟩ ⟨y', _, _⟩ ⟨z', _, _⟩ ⟨h, h2, h3⟩
  simp only [Prod.mk.injEq] at h h2 h3 ⊢
  obtain ⟨rfl, rfl⟩ := h2
  obtain ⟨rfl, rfl⟩ := h3
  rw [(h.sizeFromEnd 1).1, (h.sizeFromEnd 1).2]
  refine Three.bind (P := fun u v w => v = u ∧ w = u) (Three.refl fun _ => ⟨rfl, rfl⟩) ?_
  rintro L _ _ ⟨rfl, rfl⟩
  refine Three.bind (lin_wavedecLoop w mode _ _ h) fun u v t h => ?_
  refine Three.bind (lin_postprocessCoeffs (Coeffs3.ofList (P := Lin c) ?_) _ _ _) fun _ _ _ h => .ok h.toList
  unfold assemble
  exact (h.2.append (.cons h.1.squeeze1 .nil)).reverse

theorem lin_recPads (F : Nat) (h : Lin c x y z) {a b d : List (Tensor R)} (hs : Forall₃ (Lin c) a b d) :
    recPads F y b = recPads F x a ∧ recPads F z d = recPads F x a := by
  cases hs with
  | nil => exact ⟨rfl, rfl⟩
  | cons h1 _ =>
    simp only [recPads, (h.sizeFromEnd 1).1, (h.sizeFromEnd 1).2, (h1.sizeFromEnd 1).1,
      (h1.sizeFromEnd 1).2, and_self]

theorem lin_waverecLoop (filt : Tensor R) (F : Nat) {a b d : List (Tensor R)}
    (hs : Forall₃ (Lin c) a b d) : ∀ {x y z : Tensor R}, Lin c x y z →
    Three (Lin c) (waverecLoop filt F x a) (waverecLoop filt F y b) (waverecLoop filt F z d) := by
  induction hs with
  | nil => exact fun h => .ok h
  | @cons p q r a b d h1 hs ih =>
    intro x y z h
    unfold waverecLoop
    refine Three.bind (Lin.stack1 (.cons h (.cons h1 .nil))) fun _ _ _ h =>
      Three.bind (h.convTranspose1d filt 2) fun u v t h => ?_
    obtain ⟨e1, e2⟩ := lin_recPads F h.squeeze1 hs
    rw [e1, e2, h.squeeze1.rank.1, h.squeeze1.rank.2]
    refine Three.bind (P := fun u v w => v = u ∧ w = u) (Three.refl fun _ => ⟨rfl, rfl⟩) ?_
    rintro p _ _ ⟨rfl, rfl⟩
    exact ih (h.squeeze1.cropAxis _ _ _)

theorem lin_checkSameDeviceDtype {a b d : Coeffs R} (h : Coeffs3 (Lin c) a b d) :
    checkSameDeviceDtype b = checkSameDeviceDtype a ∧ checkSameDeviceDtype d = checkSameDeviceDtype a := by
  have : Three (fun u v w => v = u ∧ w = u) (checkSameDeviceDtype a) (checkSameDeviceDtype b)
      (checkSameDeviceDtype d) := by
    unfold checkSameDeviceDtype
    refine Three.bind h.headTensor fun x y z hx => ?_
    rw [hx.md₁, hx.md₂]
    refine Three.bind (P := fun _ _ _ => True) ((h.treeMap (Q := fun _ _ _ => True) ?_).imp fun _ _ _ _ => trivial) ?_
    · intro x' y' z' h'
      unfold checkSameDevice
      rw [h'.md₁, h'.md₂]
      exact Three.ite _ (.ok trivial) (.err _)
    intro _ _ _ _
    refine Three.bind (P := fun _ _ _ => True) ((h.treeMap (Q := fun _ _ _ => True) ?_).imp fun _ _ _ _ => trivial) ?_
    · intro x' y' z' h'
      unfold checkSameDtype
      rw [h'.md₁, h'.md₂]
      exact Three.ite _ (.ok trivial) (.err _)
    intro _ _ _ _
    exact .ok ⟨rfl, rfl⟩
  revert this
  generalize checkSameDeviceDtype a = u
  generalize checkSameDeviceDtype b = v
  generalize checkSameDeviceDtype d = w
  intro h
  cases h with
  | ok h => obtain ⟨rfl, rfl⟩ := h; exact ⟨rfl, rfl⟩
  | err e => exact ⟨rfl, rfl⟩

theorem lin_waverec {a b d : List (Tensor R)} (h : Forall₃ (Lin c) a b d) (w : Wavelet R)
    (axis : AxisHint) : Three (Lin c) (waverec a w axis) (waverec b w axis) (waverec d w axis) := by
  unfold waverec
  refine Three.bind (lin_preprocessCoeffs (Coeffs3.ofList h) 1 axis false) ?_
  rintro ⟨u, du⟩ ⟨v, dv⟩ ⟨t, dt⟩ ⟨h, h2, h3⟩
  simp only at h h2 h3 ⊢
  subst h2; subst h3
  rw [(lin_checkSameDeviceDtype h).1, (lin_checkSameDeviceDtype h).2]
  refine Three.bind (P := fun u v w => v = u ∧ w = u) (Three.refl fun _ => ⟨rfl, rfl⟩) ?_
  rintro md _ _ ⟨rfl, rfl⟩
  refine Three.bind (P := fun u v w => v = u ∧ w = u) (Three.refl fun _ => ⟨rfl, rfl⟩) ?_
  rintro f _ _ ⟨rfl, rfl⟩
  have hl := h.toList
  revert hl
  generalize u.toList = lu
  generalize v.toList = lv
  generalize t.toList = lt
  intro hl
  cases hl with
  | nil => exact .err _
  | cons h1 hs =>
    exact Three.bind (lin_waverecLoop _ _ hs h1) fun _ _ _ h => h.postprocessTensor _ _ _

end

end Verif.Spec
