import Verif.Spec.Rel
import Verif.Torch.Conv
import Verif.Model.Conv1
import Mathlib.Algebra.BigOperators.Ring.Finset

/-! Every tensor primitive the transforms use respects relations between two coefficient rings:
control flow and failures depend on shapes and meta data only, and the numbers are only added and
multiplied. -/

namespace Verif.Spec
open Tensor
variable {R S : Type}

section general
variable {α β γ δ : Type} {P : α → β → Prop} {Q : γ → δ → Prop}

theorem Two.bind {x : Except Err α} {y : Except Err β} {f : α → Except Err γ} {g : β → Except Err δ}
    (hx : Two P x y) (hf : ∀ a b, P a b → Two Q (f a) (g b)) : Two Q (x >>= f) (y >>= g) := by
  cases hx with
  | ok hp => exact hf _ _ hp
  | err e => exact .err e

theorem Two.refl_eq {x : Except Err α} : Two (fun u v => v = u) x x := by
  cases x with
  | ok a => exact .ok rfl
  | error e => exact .err e

theorem Two.eq_of {x y : Except Err α} (h : Two (fun u v => v = u) x y) : y = x := by
  cases h with
  | ok h => rw [h]
  | err e => rfl

theorem Two.imp {P' : α → β → Prop} {x : Except Err α} {y : Except Err β} (hx : Two P x y)
    (h : ∀ a b, P a b → P' a b) : Two P' x y := by
  cases hx with
  | ok hp => exact .ok (h _ _ hp)
  | err e => exact .err e

theorem Two.ite (p : Prop) [Decidable p] {a a' : Except Err α} {b b' : Except Err β} (h : Two P a b)
    (h' : Two P a' b') : Two P (if p then a else a') (if p then b else b') := by
  split_ifs
  · exact h
  · exact h'

theorem forall₂_reverse {xs : List α} {ys : List β} (h : List.Forall₂ P xs ys) :
    List.Forall₂ P xs.reverse ys.reverse := List.rel_reverse h

theorem forall₂_append {xs xs' : List α} {ys ys' : List β} (h : List.Forall₂ P xs ys)
    (h' : List.Forall₂ P xs' ys') : List.Forall₂ P (xs ++ xs') (ys ++ ys') := List.rel_append h h'

theorem forall₂_map_range {f : Nat → α} {g : Nat → β} (n : Nat) (hp : ∀ i, P (f i) (g i)) :
    List.Forall₂ P ((List.range n).map f) ((List.range n).map g) := by
  induction (List.range n) with
  | nil => exact .nil
  | cons a l ih => exact .cons (hp a) ih

theorem forall₂_getElem? {xs : List α} {ys : List β} (h : List.Forall₂ P xs ys) (k : Nat) :
    (xs[k]? = none ∧ ys[k]? = none) ∨ ∃ x y, xs[k]? = some x ∧ ys[k]? = some y ∧ P x y := by
  induction h generalizing k with
  | nil => exact Or.inl ⟨rfl, rfl⟩
  | cons h1 _ ih =>
    cases k with
    | zero => exact Or.inr ⟨_, _, rfl, rfl, h1⟩
    | succ k => exact ih k

theorem forall₂_map {f : α → γ} {g : β → δ} {xs : List α} {ys : List β} (h : List.Forall₂ P xs ys)
    (hf : ∀ a b, P a b → Q (f a) (g b)) : List.Forall₂ Q (xs.map f) (ys.map g) := by
  induction h with
  | nil => exact .nil
  | cons h1 _ ih => exact .cons (hf _ _ h1) ih

theorem forall₂_map_eq {f : α → γ} {g : β → γ} {xs : List α} {ys : List β} (h : List.Forall₂ P xs ys)
    (hf : ∀ a b, P a b → g b = f a) : ys.map g = xs.map f := by
  induction h with
  | nil => rfl
  | cons h1 _ ih => simp [ih, hf _ _ h1]

theorem forall₂_filter {p : α → Bool} {q : β → Bool} {xs : List α} {ys : List β}
    (h : List.Forall₂ P xs ys) (hf : ∀ a b, P a b → q b = p a) :
    List.Forall₂ P (xs.filter p) (ys.filter q) := by
  induction h with
  | nil => exact .nil
  | @cons a b _ _ h1 _ ih =>
    simp only [List.filter_cons, hf _ _ h1]
    split_ifs
    · exact .cons h1 ih
    · exact ih

theorem forall₂_any {p : α → Bool} {q : β → Bool} {xs : List α} {ys : List β}
    (h : List.Forall₂ P xs ys) (hf : ∀ a b, P a b → q b = p a) : ys.any q = xs.any p := by
  induction h with
  | nil => rfl
  | cons h1 _ ih => simp [ih, hf _ _ h1]

theorem forall₂_all {p : α → Bool} {q : β → Bool} {xs : List α} {ys : List β}
    (h : List.Forall₂ P xs ys) (hf : ∀ a b, P a b → q b = p a) : ys.all q = xs.all p := by
  induction h with
  | nil => rfl
  | cons h1 _ ih => simp [ih, hf _ _ h1]

theorem forall₂_tail {xs : List α} {ys : List β} (h : List.Forall₂ P xs ys) :
    List.Forall₂ P xs.tail ys.tail := by
  cases h with
  | nil => exact .nil
  | cons _ h => exact h

end general

/-- Make the shapes and meta data of related tensors syntactically equal. -/
macro "rel_cases " h:ident x:ident y:ident s:ident e:ident : tactic =>
  `(tactic| (obtain ⟨xm, xs, xg, hx⟩ := $x
             obtain ⟨ym, $s, yg, hy⟩ := $y
             obtain ⟨h1, h2, $e⟩ := $h
             simp only at h1 h2 $e:ident
             subst h1; subst h2))

section zero
variable [Zero R] [Zero S] {P : R → S → Prop} {x : Tensor R} {y : Tensor S}

theorem TRel.ofFn (h0 : P 0 0) (md : Meta) (s : List Nat) {f : List Nat → R} {g : List Nat → S}
    (e : ∀ i, P (f i) (g i)) : TRel P (ofFn md s f) (ofFn md s g) := by
  refine ⟨rfl, rfl, ?_⟩
  intro i
  simp only [ofFn_get]
  split_ifs
  · exact e i
  · exact h0

theorem TRel.rank (h : TRel P x y) : y.rank = x.rank := by
  unfold Tensor.rank; rw [h.shape]

theorem TRel.sizeFromEnd (h : TRel P x y) (k : Nat) : y.sizeFromEnd k = x.sizeFromEnd k := by
  unfold Tensor.sizeFromEnd; rw [h.shape]

theorem TRel.reshape (h0 : P 0 0) (h : TRel P x y) (s : List Nat) :
    Two (TRel P) (x.reshape s) (y.reshape s) := by
  unfold Tensor.reshape
  rw [h.shape, h.md]
  exact Two.ite _ (.ok (TRel.ofFn h0 _ _ fun i => h.get _)) (.err _)

theorem TRel.permute (h0 : P 0 0) (h : TRel P x y) (ds : List Int) :
    Two (TRel P) (x.permute ds) (y.permute ds) := by
  rel_cases h x y s' e
  unfold Tensor.permute
  refine Two.ite (ds.length ≠ s'.length) (.err _) ?_
  refine Two.bind Two.refl_eq ?_
  rintro v _ rfl
  split_ifs
  · exact .ok (TRel.ofFn h0 _ _ fun i => e _)
  · exact .err _

theorem TRel.unsqueeze0 (h0 : P 0 0) (h : TRel P x y) : TRel P x.unsqueeze0 y.unsqueeze0 := by
  rel_cases h x y s' e
  exact TRel.ofFn h0 _ _ fun i => e _

theorem TRel.unsqueeze1 (h0 : P 0 0) (h : TRel P x y) : Two (TRel P) x.unsqueeze1 y.unsqueeze1 := by
  rel_cases h x y s' e
  cases s' with
  | nil => exact .err _
  | cons a l => exact .ok (TRel.ofFn h0 _ _ fun i => e _)

theorem TRel.squeeze0 (h0 : P 0 0) (h : TRel P x y) : TRel P x.squeeze0 y.squeeze0 := by
  rel_cases h x y s' e
  unfold Tensor.squeeze0
  simp only
  split
  · exact TRel.ofFn h0 _ _ fun i => e _
  · exact ⟨rfl, rfl, e⟩

theorem TRel.squeeze1 (h0 : P 0 0) (h : TRel P x y) : TRel P x.squeeze1 y.squeeze1 := by
  rel_cases h x y s' e
  unfold Tensor.squeeze1
  simp only
  split
  · exact TRel.ofFn h0 _ _ fun i => e _
  · exact ⟨rfl, rfl, e⟩

theorem TRel.transpose (h0 : P 0 0) (h : TRel P x y) (a b : Nat) :
    TRel P (x.transpose a b) (y.transpose a b) := by
  rel_cases h x y s' e
  exact TRel.ofFn h0 _ _ fun i => e _

theorem TRel.slice (h0 : P 0 0) (h : TRel P x y) (a lo hi : Nat) :
    TRel P (x.slice a lo hi) (y.slice a lo hi) := by
  rel_cases h x y s' e
  exact TRel.ofFn h0 _ _ fun i => e _

theorem TRel.flip (h0 : P 0 0) (h : TRel P x y) (a : Nat) : TRel P (x.flip a) (y.flip a) := by
  rel_cases h x y s' e
  exact TRel.ofFn h0 _ _ fun i => e _

theorem TRel.cat2 (h0 : P 0 0) {x' : Tensor R} {y' : Tensor S} (h : TRel P x y) (h' : TRel P x' y')
    (a : Nat) : Two (TRel P) (x.cat2 x' a) (y.cat2 y' a) := by
  unfold Tensor.cat2
  rw [h.shape, h'.shape, h.md, h'.md]
  refine Two.ite _ (.ok (TRel.ofFn h0 _ _ fun i => ?_)) (.err _)
  split_ifs
  · exact h.get _
  · exact h'.get _

theorem TRel.head_mem {xs : List (Tensor R)} {ys : List (Tensor S)} (h : List.Forall₂ (TRel P) xs ys)
    {s : List Nat} {md : Meta} :
    (∀ u ∈ ys, u.shape = s ∧ u.md = md) ↔ ∀ u ∈ xs, u.shape = s ∧ u.md = md := by
  induction h with
  | nil => simp
  | cons h1 _ ih => simp only [List.mem_cons, forall_eq_or_imp, h1.shape, h1.md, ih]

theorem TRel.stack0 (h0 : P 0 0) {xs : List (Tensor R)} {ys : List (Tensor S)}
    (h : List.Forall₂ (TRel P) xs ys) : Two (TRel P) (stack0 xs) (stack0 ys) := by
  cases h with
  | nil => exact .err _
  | @cons x y xs ys h1 h2 =>
    unfold Tensor.stack0
    simp only [h1.shape, h1.md, ← h2.length_eq, TRel.head_mem h2 (s := x.shape) (md := x.md)]
    refine Two.ite _ (.ok (TRel.ofFn h0 _ _ fun i => ?_)) (.err _)
    rcases forall₂_getElem? (List.Forall₂.cons h1 h2) (i.headD 0) with ⟨e1, e2⟩ | ⟨_, _, e1, e2, hl⟩
    · rw [e1, e2]; exact h0
    · rw [e1, e2]; exact hl.get _

theorem TRel.stack1 (h0 : P 0 0) {xs : List (Tensor R)} {ys : List (Tensor S)}
    (h : List.Forall₂ (TRel P) xs ys) : Two (TRel P) (stack1 xs) (stack1 ys) := by
  cases h with
  | nil => exact .err _
  | @cons x y xs ys h1 h2 =>
    unfold Tensor.stack1
    simp only [h1.shape, h1.md, ← h2.length_eq, TRel.head_mem h2 (s := x.shape) (md := x.md)]
    cases x.shape with
    | nil => exact .err _
    | cons a l =>
      simp only
      refine Two.ite _ (.ok (TRel.ofFn h0 _ _ fun i => ?_)) (.err _)
      rcases forall₂_getElem? (List.Forall₂.cons h1 h2) (i.tail.headD 0) with ⟨e1, e2⟩ | ⟨_, _, e1, e2, hl⟩
      · rw [e1, e2]; exact h0
      · rw [e1, e2]; exact hl.get _

theorem TRel.split1 (h0 : P 0 0) (h : TRel P x y) : List.Forall₂ (TRel P) (split1 x) (split1 y) := by
  rel_cases h x y s' e
  unfold Tensor.split1
  simp only
  split
  · exact forall₂_map_range _ fun j => TRel.ofFn h0 _ _ fun i => e _
  · exact .nil

theorem TRel.swapAxes (h0 : P 0 0) (h : TRel P x y) (axes : List Int) :
    Two (TRel P) (swapAxes x axes) (swapAxes y axes) := by
  unfold Verif.swapAxes
  rw [h.rank]
  refine Two.bind Two.refl_eq ?_
  rintro _ _ _
  exact h.permute h0 _

theorem TRel.undoSwapAxes (h0 : P 0 0) (h : TRel P x y) (axes : List Int) :
    Two (TRel P) (undoSwapAxes x axes) (undoSwapAxes y axes) := by
  unfold Verif.undoSwapAxes
  rw [h.rank]
  refine Two.bind Two.refl_eq ?_
  rintro _ _ _
  exact h.permute h0 _

theorem TRel.foldAxes (h0 : P 0 0) (h : TRel P x y) (k : Nat) :
    Two (TRel P) (foldAxes x k) (foldAxes y k) := by
  unfold Verif.foldAxes
  rw [h.shape]
  exact h.reshape h0 _

theorem TRel.unfoldAxes (h0 : P 0 0) (h : TRel P x y) (ds : List Nat) (k : Nat) :
    Two (TRel P) (unfoldAxes x ds k) (unfoldAxes y ds k) := by
  unfold Verif.unfoldAxes
  rw [h.shape]
  exact h.reshape h0 _

theorem TRel.cropAxis (h0 : P 0 0) (h : TRel P x y) (a l r : Nat) :
    TRel P (cropAxis x a l r) (cropAxis y a l r) := by
  unfold Verif.cropAxis
  simp only
  rw [h.shape]
  split_ifs
  · have h' := h.slice h0 a l (x.shape.getD a 0)
    rw [h'.shape]; exact h'.slice h0 _ _ _
  · rw [h.shape]; exact h.slice h0 _ _ _
  · exact h.slice h0 _ _ _
  · exact h

theorem TRel.createTensor (h0 : P 0 0) {f : List R} {g : List S} (h : List.Forall₂ P f g) (flip : Bool)
    (md : Meta) : TRel P (createTensor f flip md) (createTensor g flip md) := by
  have key : ∀ k, P (f.getD k 0) (g.getD k 0) := by
    intro k
    simp only [List.getD_eq_getElem?_getD]
    rcases forall₂_getElem? h k with ⟨e1, e2⟩ | ⟨_, _, e1, e2, hl⟩
    · rw [e1, e2]; exact h0
    · rw [e1, e2]; exact hl
  unfold Verif.createTensor
  rw [← h.length_eq]
  refine TRel.ofFn h0 _ _ fun i => ?_
  split_ifs
  · exact key _
  · exact key _

theorem two_unsqueezeFilt (h0 : P 0 0) {t : Except Err (Tensor R)} {u : Except Err (Tensor S)}
    (h : Two (TRel P) t u) : Two (TRel P) (unsqueezeFilt t) (unsqueezeFilt u) := by
  unfold unsqueezeFilt
  exact Two.bind h fun _ _ h => h.unsqueeze1 h0

/-! ### Containers -/

variable {A B : Tensor R → Tensor S → Prop} {f : Tensor R → Except Err (Tensor R)}
  {g : Tensor S → Except Err (Tensor S)}

theorem Entry2.mapM (hf : ∀ x y, A x y → Two B (f x) (g y)) {a : Entry R} {b : Entry S}
    (h : Entry2 A a b) : Two (Entry2 B) (a.mapM f) (b.mapM g) := by
  cases h with
  | tensor h => exact Two.bind (hf _ _ h) fun _ _ h => .ok (.tensor h)
  | tuple h1 h2 h3 =>
    exact Two.bind (hf _ _ h1) fun _ _ h1 => Two.bind (hf _ _ h2) fun _ _ h2 =>
      Two.bind (hf _ _ h3) fun _ _ h3 => .ok (.tuple h1 h2 h3)
  | dict h =>
    refine Two.bind (P := List.Forall₂ (fun e e' => e'.1 = e.1 ∧ B e.2 e'.2)) ?_
      fun _ _ h => .ok (.dict h)
    induction h with
    | nil => exact .ok .nil
    | cons h1 _ ih =>
      simp only [List.mapM_cons]
      refine Two.bind (P := fun e e' => e'.1 = e.1 ∧ B e.2 e'.2) ?_
        fun _ _ h => Two.bind ih fun _ _ hs => .ok (.cons h hs)
      exact Two.bind (hf _ _ h1.2) fun _ _ h => .ok ⟨h1.1, h⟩
  | other => exact .err _

theorem entries2_mapM (hf : ∀ x y, A x y → Two B (f x) (g y)) {a : List (Entry R)} {b : List (Entry S)}
    (h : List.Forall₂ (Entry2 A) a b) :
    Two (List.Forall₂ (Entry2 B)) (a.mapM (Entry.mapM f)) (b.mapM (Entry.mapM g)) := by
  induction h with
  | nil => exact .ok .nil
  | cons h1 _ ih =>
    simp only [List.mapM_cons]
    exact Two.bind (h1.mapM hf) fun _ _ h => Two.bind ih fun _ _ hs => .ok (.cons h hs)

theorem Coeffs2.treeMap (hf : ∀ x y, A x y → Two B (f x) (g y)) {a : Coeffs R} {b : Coeffs S}
    (h : Coeffs2 A a b) : Two (Coeffs2 B) (coeffTreeMap a f) (coeffTreeMap b g) := by
  obtain ⟨la, ia⟩ := a
  obtain ⟨lb, ib⟩ := b
  obtain ⟨h1, h3⟩ := h
  simp only at h1 h3
  subst h1
  unfold coeffTreeMap
  cases h3 with
  | nil => exact .err _
  | cons h h' =>
    cases h with
    | tensor h =>
      refine Two.bind (hf _ _ h) fun _ _ h1 => Two.bind (entries2_mapM hf h') ?_
      intro u v hr
      cases hr with
      | nil => exact .ok ⟨rfl, .cons (.tensor h1) .nil⟩
      | cons hr hrs =>
        cases hr with
        | tensor hr => exact .ok ⟨rfl, .cons (.tensor h1) (.cons (.tensor hr) hrs)⟩
        | tuple a b d => exact .ok ⟨rfl, .cons (.tensor h1) (.cons (.tuple a b d) hrs)⟩
        | dict a => exact .ok ⟨rfl, .cons (.tensor h1) (.cons (.dict a) hrs)⟩
        | other => exact .ok ⟨rfl, .cons (.tensor h1) (.cons .other hrs)⟩
    | tuple => exact .err _
    | dict => exact .err _
    | other => exact .err _

theorem Coeffs2.headTensor {a : Coeffs R} {b : Coeffs S} (h : Coeffs2 A a b) :
    Two A (headTensor a) (headTensor b) := by
  obtain ⟨la, ia⟩ := a
  obtain ⟨lb, ib⟩ := b
  obtain ⟨h1, h3⟩ := h
  simp only at h1 h3
  unfold Verif.headTensor
  cases h3 with
  | nil => exact .err _
  | cons h h' =>
    cases h with
    | tensor h => exact .ok h
    | tuple => exact .err _
    | dict => exact .err _
    | other => exact .err _

theorem Coeffs2.ofList {xs : List (Tensor R)} {ys : List (Tensor S)} (h : List.Forall₂ A xs ys) :
    Coeffs2 A (Coeffs.ofList xs) (Coeffs.ofList ys) := by
  refine ⟨rfl, ?_⟩
  unfold Coeffs.ofList
  induction h with
  | nil => exact .nil
  | cons h1 _ ih => exact .cons (.tensor h1) ih

theorem Coeffs2.toList {a : Coeffs R} {b : Coeffs S} (h : Coeffs2 A a b) :
    List.Forall₂ A a.toList b.toList := by
  obtain ⟨la, ia⟩ := a
  obtain ⟨lb, ib⟩ := b
  have h3 := h.items
  simp only at h3
  unfold Coeffs.toList
  simp only
  clear h
  induction h3 with
  | nil => exact .nil
  | cons h1 _ ih =>
    cases h1 with
    | tensor h => exact .cons h ih
    | tuple => exact ih
    | dict => exact ih
    | other => exact ih

theorem rel_preprocessCoeffs (h0 : P 0 0) {a : Coeffs R} {b : Coeffs S} (h : Coeffs2 (TRel P) a b) (n : Nat)
    (axes : AxisHint) (ch : Bool) :
    Two (fun u v => Coeffs2 (TRel P) u.1 v.1 ∧ v.2 = u.2)
      (preprocessCoeffs a n axes ch) (preprocessCoeffs b n axes ch) := by
  unfold preprocessCoeffs
  refine Two.ite _ (.err _) ?_
  refine Two.bind h.headTensor fun x y hx => ?_
  rw [hx.md]
  refine Two.ite _ (.err _) ?_
  refine Two.bind Two.refl_eq ?_
  rintro as _ rfl
  refine Two.bind Two.refl_eq ?_
  rintro df _ rfl
  refine Two.bind (P := Coeffs2 (TRel P)) ?_ fun a b h => ?_
  · unfold preSwap
    exact Two.ite _ (h.treeMap fun _ _ h => h.swapAxes h0 _) (.ok h)
  refine Two.bind h.headTensor fun x y hx => ?_
  rw [hx.shape]
  refine Two.bind (P := Coeffs2 (TRel P)) ?_ fun a b h => ?_
  · unfold preFold
    refine Two.ite _ (.err _) (Two.ite _ (h.treeMap fun _ _ h => .ok (h.unsqueeze0 h0))
      (Two.ite _ (h.treeMap fun _ _ h => h.foldAxes h0 _) (.ok h)))
  refine Two.bind (P := Coeffs2 (TRel P)) ?_ fun a b h => ?_
  · unfold preChannel
    exact Two.ite _ (h.treeMap fun _ _ h => h.unsqueeze1 h0) (.ok h)
  exact .ok ⟨h, rfl⟩

theorem rel_postprocessCoeffs (h0 : P 0 0) {a : Coeffs R} {b : Coeffs S} (h : Coeffs2 (TRel P) a b) (n : Nat)
    (ds : List Nat) (axes : AxisHint) :
    Two (Coeffs2 (TRel P)) (postprocessCoeffs a n ds axes) (postprocessCoeffs b n ds axes) := by
  unfold postprocessCoeffs
  refine Two.ite _ (.err _) ?_
  refine Two.bind Two.refl_eq ?_
  rintro as _ rfl
  refine Two.bind (P := Coeffs2 (TRel P)) ?_ fun a b h => ?_
  · unfold postUnfold
    refine Two.ite _ (.err _) (Two.ite _ (h.treeMap fun _ _ h => .ok (h.squeeze0 h0))
      (Two.ite _ (h.treeMap fun _ _ h => h.unfoldAxes h0 _ _) (.ok h)))
  refine Two.bind Two.refl_eq ?_
  rintro df _ rfl
  unfold postSwap
  exact Two.ite _ (h.treeMap fun _ _ h => h.undoSwapAxes h0 _) (.ok h)

theorem TRel.preprocessTensor (h0 : P 0 0) (h : TRel P x y) (n : Nat) (axes : AxisHint) (ch : Bool) :
    Two (fun u v => TRel P u.1 v.1 ∧ v.2 = u.2)
      (preprocessTensor x n axes ch) (preprocessTensor y n axes ch) := by
  unfold Verif.preprocessTensor
  refine Two.bind (rel_preprocessCoeffs h0 (Coeffs2.ofList (.cons h .nil)) n axes ch) ?_
  rintro ⟨u, du⟩ ⟨v, dv⟩ ⟨h1, h2⟩
  exact Two.bind h1.headTensor fun _ _ h => .ok ⟨h, h2⟩

theorem TRel.postprocessTensor (h0 : P 0 0) (h : TRel P x y) (n : Nat) (ds : List Nat) (axes : AxisHint) :
    Two (TRel P) (postprocessTensor x n ds axes) (postprocessTensor y n ds axes) := by
  unfold Verif.postprocessTensor
  exact Two.bind (rel_postprocessCoeffs h0 (Coeffs2.ofList (.cons h .nil)) n ds axes)
    fun _ _ h => h.headTensor

/-! ### Symmetric padding -/

theorem TRel.symCatLeft (h0 : P 0 0) (h : TRel P x y) (l : Nat) :
    Two (TRel P) (symCatLeft x l) (symCatLeft y l) := by
  unfold Verif.symCatLeft
  exact Two.ite _ (((h.slice h0 _ _ _).flip h0 0).cat2 h0 h 0) (.ok h)

theorem TRel.padSymBase (h0 : P 0 0) (h : TRel P x y) (l r : Nat) :
    Two (TRel P) (padSymBase x l r) (padSymBase y l r) := by
  unfold Verif.padSymBase
  simp only
  rw [h.shape]
  exact Two.bind (h.symCatLeft h0 l) fun _ _ h' =>
    Two.ite _ (h'.cat2 h0 ((h.slice h0 _ _ _).flip h0 0) 0) (.ok h')

theorem TRel.padSymmetric1dFuel (h0 : P 0 0) : ∀ (fuel : Nat) {x : Tensor R} {y : Tensor S} (l r : Nat),
    TRel P x y → Two (TRel P) (padSymmetric1dFuel fuel x l r) (padSymmetric1dFuel fuel y l r)
  | 0, _, _, _, _, _ => .err _
  | fuel + 1, x, y, l, r, h => by
    unfold Verif.padSymmetric1dFuel
    simp only
    rw [h.shape]
    refine Two.ite _ ?_ (h.padSymBase h0 l r)
    refine Two.bind (P := fun u v => TRel P u.1 v.1 ∧ v.2 = u.2) ?_ ?_
    · unfold symGrowLeft
      exact Two.ite _ (Two.bind (TRel.padSymmetric1dFuel h0 fuel _ _ h) fun _ _ h => .ok ⟨h, rfl⟩)
        (.ok ⟨h, rfl⟩)
    rintro ⟨x1, l1⟩ ⟨y1, l2⟩ ⟨h1, h2⟩
    simp only at h1 h2 ⊢
    subst h2
    refine Two.bind (P := fun u v => TRel P u.1 v.1 ∧ v.2 = u.2) ?_ ?_
    · unfold symGrowRight
      exact Two.ite _ (Two.bind (TRel.padSymmetric1dFuel h0 fuel _ _ h1) fun _ _ h => .ok ⟨h, rfl⟩)
        (.ok ⟨h1, rfl⟩)
    rintro ⟨x2, r1⟩ ⟨y2, r2⟩ ⟨h1, h2⟩
    simp only at h1 h2 ⊢
    subst h2
    exact TRel.padSymmetric1dFuel h0 fuel _ _ h1

theorem TRel.padSymmetricLoop (h0 : P 0 0) : ∀ (ps : List (Nat × Nat)) (a : Nat) {x : Tensor R}
    {y : Tensor S}, TRel P x y → Two (TRel P) (padSymmetricLoop x ps a) (padSymmetricLoop y ps a)
  | [], _, _, _, h => .ok h
  | (l, r) :: ps, a, x, y, h => by
    unfold Verif.padSymmetricLoop
    exact Two.bind (TRel.padSymmetric1dFuel h0 _ l r (h.transpose h0 0 a)) fun _ _ h =>
      TRel.padSymmetricLoop h0 ps (a - 1) (h.transpose h0 a 0)

theorem rel_checkSameDeviceDtype {a : Coeffs R} {b : Coeffs S} (h : Coeffs2 (TRel P) a b) :
    checkSameDeviceDtype b = checkSameDeviceDtype a := by
  refine Two.eq_of ?_
  unfold checkSameDeviceDtype
  refine Two.bind h.headTensor fun x y hx => ?_
  rw [hx.md]
  refine Two.bind (P := fun _ _ => True) ((h.treeMap (B := fun _ _ => True) ?_).imp fun _ _ _ => trivial) ?_
  · intro x' y' h'
    unfold checkSameDevice
    rw [h'.md]
    exact Two.ite _ (.ok trivial) (.err _)
  intro _ _ _
  refine Two.bind (P := fun _ _ => True) ((h.treeMap (B := fun _ _ => True) ?_).imp fun _ _ _ => trivial) ?_
  · intro x' y' h'
    unfold checkSameDtype
    rw [h'.md]
    exact Two.ite _ (.ok trivial) (.err _)
  intro _ _ _
  exact .ok rfl

end zero

section ring
variable [NonUnitalNonAssocSemiring R] [NonUnitalNonAssocSemiring S] {P : R → S → Prop}
  {x : Tensor R} {y : Tensor S}

theorem Closed.sum (hc : Closed P) {ι : Type} (s : Finset ι) {f : ι → R} {g : ι → S}
    (e : ∀ i, P (f i) (g i)) : P (∑ i ∈ s, f i) (∑ i ∈ s, g i) := by
  classical
  induction s using Finset.induction_on with
  | empty => simpa using hc.zero
  | insert a s ha ih => rw [Finset.sum_insert ha, Finset.sum_insert ha]; exact hc.add (e a) ih

theorem Closed.boxSum (hc : Closed P) : ∀ (ns : List Nat) {f : List Nat → R} {g : List Nat → S}
    (_ : ∀ i, P (f i) (g i)), P (boxSum ns f) (boxSum ns g)
  | [], _, _, e => e _
  | _ :: ns, _, _, e => hc.sum _ fun _ => hc.boxSum ns fun _ => e _

theorem Closed.ite (hc : Closed P) (p : Prop) [Decidable p] {a : R} {b : S} (h : P a b) :
    P (if p then a else 0) (if p then b else 0) := by
  split_ifs
  · exact h
  · exact hc.zero

theorem TRel.outer (hc : Closed P) {x' : Tensor R} {y' : Tensor S} (h : TRel P x y) (h' : TRel P x' y') :
    TRel P (outer x x') (outer y y') := by
  unfold Verif.outer
  rw [h.md, h.shape, h'.shape]
  exact TRel.ofFn hc.zero _ _ fun i => hc.mul (h.get _) (h'.get _)

theorem rel_construct2dFilt (hc : Closed P) {x' : Tensor R} {y' : Tensor S} (h : TRel P x y)
    (h' : TRel P x' y') : Two (TRel P) (construct2dFilt x x') (construct2dFilt y y') := by
  unfold construct2dFilt
  exact two_unsqueezeFilt hc.zero (TRel.stack0 hc.zero (.cons (h.outer hc h) (.cons (h'.outer hc h)
    (.cons (h.outer hc h') (.cons (h'.outer hc h') .nil)))))

theorem rel_construct3dFilt (hc : Closed P) {x' : Tensor R} {y' : Tensor S} (h : TRel P x y)
    (h' : TRel P x' y') : Two (TRel P) (construct3dFilt x x') (construct3dFilt y y') := by
  unfold construct3dFilt
  simp only
  rw [h.sizeFromEnd]
  have o : ∀ {a b c : Tensor R} {a' b' c' : Tensor S} (s : List Nat), TRel P a a' → TRel P b b' → TRel P c c' →
      Two (TRel P) ((Verif.outer a (Verif.outer b c)).reshape s) ((Verif.outer a' (Verif.outer b' c')).reshape s) :=
    fun s ha hb hd => (ha.outer hc (hb.outer hc hd)).reshape hc.zero s
  exact Two.bind (o _ h h h) fun _ _ h1 => Two.bind (o _ h h h') fun _ _ h2 =>
    Two.bind (o _ h h' h) fun _ _ h3 => Two.bind (o _ h h' h') fun _ _ h4 =>
    Two.bind (o _ h' h h) fun _ _ h5 => Two.bind (o _ h' h h') fun _ _ h6 =>
    Two.bind (o _ h' h' h) fun _ _ h7 => Two.bind (o _ h' h' h') fun _ _ h8 =>
    two_unsqueezeFilt hc.zero (TRel.stack0 hc.zero (.cons h1 (.cons h2 (.cons h3 (.cons h4 (.cons h5
      (.cons h6 (.cons h7 (.cons h8 .nil)))))))))

theorem rel_constructNdFilt (hc : Closed P) {x' : Tensor R} {y' : Tensor S} (h : TRel P x y)
    (h' : TRel P x' y') (n : Nat) : Two (TRel P) (constructNdFilt x x' n) (constructNdFilt y y' n) := by
  unfold constructNdFilt construct1dFilt
  exact Two.ite _ (TRel.stack0 hc.zero (.cons h (.cons h' .nil))) (Two.ite _ (rel_construct2dFilt hc h h')
    (Two.ite _ (rel_construct3dFilt hc h h') (.err _)))

theorem TRel.preprocessDeconstruction (hc : Closed P) (h : TRel P x y) {w : Wavelet R} {v : Wavelet S}
    (hw : WRel P w v) (n : Nat) (axes : AxisHint) :
    Two (fun a b => TRel P a.1 b.1 ∧ b.2.1 = a.2.1 ∧ TRel P a.2.2 b.2.2)
      (preprocessDeconstruction x w n axes) (preprocessDeconstruction y v n axes) := by
  unfold Verif.preprocessDeconstruction
  refine Two.bind (h.preprocessTensor hc.zero n axes true) ?_
  rintro ⟨a, da⟩ ⟨b, db⟩ ⟨h1, h2⟩
  simp only at h1 h2 ⊢
  subst h2
  rw [h1.md]
  exact Two.bind (rel_constructNdFilt hc (TRel.createTensor hc.zero hw.decLo true _)
    (TRel.createTensor hc.zero hw.decHi true _) n) fun _ _ hf => .ok ⟨h1, rfl, hf⟩

theorem TRel.conv1d (hc : Closed P) (h : TRel P x y) {w : Tensor R} {v : Tensor S} (hw : TRel P w v) (s d : Nat) :
    Two (TRel P) (conv1d x w s d) (conv1d y v s d) := by
  unfold Tensor.conv1d
  rw [h.shape, hw.shape, h.md, hw.md]
  split
  · refine Two.ite _ (.ok (TRel.ofFn hc.zero _ _ fun i => ?_)) (.err _)
    split
    · exact hc.sum _ fun a => hc.sum _ fun b => hc.mul (hw.get _) (h.get _)
    · exact hc.zero
  · exact .err _

theorem TRel.convNd (hc : Closed P) (h : TRel P x y) {w : Tensor R} {v : Tensor S} (hw : TRel P w v) (s : Nat) :
    Two (TRel P) (convNd x w s) (convNd y v s) := by
  unfold Tensor.convNd
  rw [h.shape, hw.shape, h.md, hw.md]
  split
  · refine Two.ite _ (.ok (TRel.ofFn hc.zero _ _ fun i => ?_)) (.err _)
    split
    · exact hc.sum _ fun a => hc.boxSum _ fun b => hc.mul (hw.get _) (h.get _)
    · exact hc.zero
  · exact .err _

theorem TRel.conv2d (hc : Closed P) (h : TRel P x y) {w : Tensor R} {v : Tensor S} (hw : TRel P w v) (s : Nat) :
    Two (TRel P) (conv2d x w s) (conv2d y v s) := by
  unfold Tensor.conv2d
  rw [h.rank]
  exact Two.ite _ (h.convNd hc hw s) (.err _)

theorem TRel.conv3d (hc : Closed P) (h : TRel P x y) {w : Tensor R} {v : Tensor S} (hw : TRel P w v) (s : Nat) :
    Two (TRel P) (conv3d x w s) (conv3d y v s) := by
  unfold Tensor.conv3d
  rw [h.rank]
  exact Two.ite _ (h.convNd hc hw s) (.err _)

theorem TRel.convTranspose1d (hc : Closed P) (h : TRel P x y) {w : Tensor R} {v : Tensor S} (hw : TRel P w v)
    (s : Nat) : Two (TRel P) (convTranspose1d x w s) (convTranspose1d y v s) := by
  unfold Tensor.convTranspose1d
  rw [h.shape, hw.shape, h.md, hw.md]
  split
  · refine Two.ite _ (.ok (TRel.ofFn hc.zero _ _ fun i => ?_)) (.err _)
    split
    · exact hc.sum _ fun a => hc.sum _ fun b => hc.ite _ (hc.mul (hw.get _) (h.get _))
    · exact hc.zero
  · exact .err _

theorem TRel.convTransposeNd (hc : Closed P) (h : TRel P x y) {w : Tensor R} {v : Tensor S} (hw : TRel P w v)
    (s : Nat) : Two (TRel P) (convTransposeNd x w s) (convTransposeNd y v s) := by
  unfold Tensor.convTransposeNd
  rw [h.shape, hw.shape, h.md, hw.md]
  split
  · refine Two.ite _ (.ok (TRel.ofFn hc.zero _ _ fun i => ?_)) (.err _)
    split
    · exact hc.sum _ fun a => hc.boxSum _ fun b => hc.ite _ (hc.mul (hw.get _) (h.get _))
    · exact hc.zero
  · exact .err _

theorem TRel.convTranspose2d (hc : Closed P) (h : TRel P x y) {w : Tensor R} {v : Tensor S} (hw : TRel P w v)
    (s : Nat) : Two (TRel P) (convTranspose2d x w s) (convTranspose2d y v s) := by
  unfold Tensor.convTranspose2d
  rw [h.rank]
  exact Two.ite _ (h.convTransposeNd hc hw s) (.err _)

theorem TRel.convTranspose3d (hc : Closed P) (h : TRel P x y) {w : Tensor R} {v : Tensor S} (hw : TRel P w v)
    (s : Nat) : Two (TRel P) (convTranspose3d x w s) (convTranspose3d y v s) := by
  unfold Tensor.convTranspose3d
  rw [h.rank]
  exact Two.ite _ (h.convTransposeNd hc hw s) (.err _)

theorem TRel.padAxis (hc : Closed P) (h : TRel P x y) (m : PadMode) (a l r : Nat) :
    Two (TRel P) (padAxis m x a l r) (padAxis m y a l r) := by
  rel_cases h x y s e
  cases m with
  | constant =>
    refine .ok (TRel.ofFn hc.zero _ _ fun i => ?_)
    simp only
    split_ifs
    · exact e _
    · exact hc.zero
  | replicate => exact Two.ite _ (.ok (TRel.ofFn hc.zero _ _ fun i => e _)) (.err _)
  | reflect => exact Two.ite _ (.ok (TRel.ofFn hc.zero _ _ fun i => e _)) (.err _)
  | circular => exact Two.ite _ (.ok (TRel.ofFn hc.zero _ _ fun i => e _)) (.err _)

theorem TRel.padLast (hc : Closed P) (m : PadMode) : ∀ (ps : List Nat) (a : Nat) {x : Tensor R} {y : Tensor S},
    TRel P x y → Two (TRel P) (padLast m x ps a) (padLast m y ps a)
  | [], _, _, _, h => .ok h
  | [_], _, _, _, _ => .err _
  | l :: r :: rest, a, x, y, h => by
    unfold Tensor.padLast
    rw [h.rank]
    exact Two.bind (h.padAxis hc m _ l r) fun _ _ h' => TRel.padLast hc m rest (a + 1) h'

theorem WRel.len {w : Wavelet R} {v : Wavelet S} (hw : WRel P w v) : v.len = w.len := hw.decLo.length_eq.symm

theorem TRel.fwtPadWith (hc : Closed P) (h : TRel P x y) (mode : Option String) (ps : List Nat) :
    Two (TRel P) (fwtPadWith x mode ps) (fwtPadWith y mode ps) := by
  unfold Verif.fwtPadWith
  refine Two.bind Two.refl_eq ?_
  rintro _ m rfl
  cases m with
  | symmetric =>
    simp only
    unfold padSymmetric
    rw [h.rank]
    exact Two.ite _ (.err _) (TRel.padSymmetricLoop hc.zero _ _ h)
  | torch pm => exact TRel.padLast hc pm _ _ h

theorem TRel.fwtPad (hc : Closed P) (h : TRel P x y) {w : Wavelet R} {v : Wavelet S} (hw : WRel P w v)
    (mode : Option String) (n : Nat) : Two (TRel P) (fwtPad x w mode n) (fwtPad y v mode n) := by
  unfold Verif.fwtPad
  have e1 : getPaddingN y v n = getPaddingN x w n := by
    unfold getPaddingN; simp only [h.sizeFromEnd, hw.len]
  rw [e1]
  exact h.fwtPadWith hc mode _

/-! ### The 1d transforms -/

theorem rel_wavedecLoop (hc : Closed P) {w : Wavelet R} {v : Wavelet S} (hw : WRel P w v) (mode : Option String)
    {filt : Tensor R} {filt' : Tensor S} (hf : TRel P filt filt') :
    ∀ (L : Nat) {x : Tensor R} {y : Tensor S}, TRel P x y →
    Two (fun a b => TRel P a.1 b.1 ∧ List.Forall₂ (TRel P) a.2 b.2)
      (wavedecLoop w mode filt L x) (wavedecLoop v mode filt' L y)
  | 0, _, _, h => .ok ⟨h, .nil⟩
  | L + 1, x, y, h => by
    unfold wavedecLoop
    refine Two.bind (h.fwtPad hc hw mode 1) fun _ _ h => Two.bind (h.conv1d hc hf 2 1) fun a b h => ?_
    have hs := h.split1 hc.zero
    revert hs
    generalize split1 a = sa
    generalize split1 b = sb
    intro hs
    cases hs with
    | nil => exact .err _
    | cons h1 hs =>
      cases hs with
      | nil => exact .err _
      | cons h2 hs =>
        cases hs with
        | cons _ _ => exact .err _
        | nil =>
          simp only
          exact Two.bind (rel_wavedecLoop hc hw mode hf L h1) fun _ _ h =>
            .ok ⟨h.1, .cons (h2.squeeze1 hc.zero) h.2⟩

theorem rel_assemble (h0 : P 0 0) {a : Tensor R × List (Tensor R)} {b : Tensor S × List (Tensor S)}
    (h : TRel P a.1 b.1 ∧ List.Forall₂ (TRel P) a.2 b.2) :
    List.Forall₂ (TRel P) (assemble a) (assemble b) := by
  unfold assemble
  exact forall₂_reverse (forall₂_append h.2 (.cons (h.1.squeeze1 h0) .nil))

theorem rel_wavedec (hc : Closed P) (h : TRel P x y) {w : Wavelet R} {v : Wavelet S} (hw : WRel P w v)
    (mode : Option String) (level : Option Int) (axis : AxisHint) :
    Two (List.Forall₂ (TRel P)) (wavedec x w mode level axis) (wavedec y v mode level axis) := by
  unfold wavedec
  refine Two.bind (h.preprocessDeconstruction hc hw 1 axis) ?_
  rintro ⟨x', du, f⟩ ⟨y', _, f'⟩ ⟨h, h2, h3⟩
  simp only at h h2 h3 ⊢
  subst h2
  rw [h.sizeFromEnd, hw.len]
  refine Two.bind Two.refl_eq ?_
  rintro L _ rfl
  refine Two.bind (rel_wavedecLoop hc hw mode h3 _ h) fun a b h => ?_
  exact Two.bind (rel_postprocessCoeffs hc.zero (Coeffs2.ofList (rel_assemble hc.zero h)) _ _ _)
    fun _ _ h => .ok h.toList

theorem rel_recPads (F : Nat) (h : TRel P x y) {a : List (Tensor R)} {b : List (Tensor S)}
    (hs : List.Forall₂ (TRel P) a b) : recPads F y b = recPads F x a := by
  cases hs with
  | nil => rfl
  | cons h1 _ => simp only [recPads, h.sizeFromEnd, h1.sizeFromEnd]

theorem rel_waverecLoop (hc : Closed P) {filt : Tensor R} {filt' : Tensor S} (hf : TRel P filt filt') (F : Nat)
    {a : List (Tensor R)} {b : List (Tensor S)} (hs : List.Forall₂ (TRel P) a b) :
    ∀ {x : Tensor R} {y : Tensor S}, TRel P x y →
    Two (TRel P) (waverecLoop filt F x a) (waverecLoop filt' F y b) := by
  induction hs with
  | nil => exact fun h => .ok h
  | cons h1 hs ih =>
    intro x y h
    unfold waverecLoop
    refine Two.bind (TRel.stack1 hc.zero (.cons h (.cons h1 .nil))) fun _ _ h =>
      Two.bind (h.convTranspose1d hc hf 2) fun a b h => ?_
    rw [rel_recPads F (h.squeeze1 hc.zero) hs, (h.squeeze1 hc.zero).rank]
    refine Two.bind Two.refl_eq ?_
    rintro p _ rfl
    exact ih ((h.squeeze1 hc.zero).cropAxis hc.zero _ _ _)

theorem rel_recFilt (hc : Closed P) {w : Wavelet R} {v : Wavelet S} (hw : WRel P w v) (md : Meta) :
    Two (TRel P) (stack0 [createTensor w.recLo false md, createTensor w.recHi false md])
      (stack0 [createTensor v.recLo false md, createTensor v.recHi false md]) :=
  TRel.stack0 hc.zero (.cons (TRel.createTensor hc.zero hw.recLo false md)
    (.cons (TRel.createTensor hc.zero hw.recHi false md) .nil))

theorem rel_waverec (hc : Closed P) {a : List (Tensor R)} {b : List (Tensor S)} (h : List.Forall₂ (TRel P) a b)
    {w : Wavelet R} {v : Wavelet S} (hw : WRel P w v) (axis : AxisHint) :
    Two (TRel P) (waverec a w axis) (waverec b v axis) := by
  unfold waverec
  refine Two.bind (rel_preprocessCoeffs hc.zero (Coeffs2.ofList h) 1 axis false) ?_
  rintro ⟨c, du⟩ ⟨d, dv⟩ ⟨h, h2⟩
  simp only at h h2 ⊢
  subst h2
  rw [rel_checkSameDeviceDtype h]
  refine Two.bind Two.refl_eq ?_
  rintro md _ rfl
  refine Two.bind (rel_recFilt hc hw _) fun f f' hf => ?_
  rw [← hw.recLo.length_eq]
  have hl := h.toList
  revert hl
  generalize c.toList = lu
  generalize d.toList = lv
  intro hl
  cases hl with
  | nil => exact .err _
  | cons h1 hs =>
    exact Two.bind (rel_waverecLoop hc hf _ hs h1) fun _ _ h => h.postprocessTensor hc.zero _ _ _

end ring

end Verif.Spec
