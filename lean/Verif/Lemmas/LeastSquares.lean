/-
Squared distances: expansions into inner products, and the abstract least squares argument for a transform with an
adjoint that inverts it.
-/
import Verif.Spec.LeastSquares
import Verif.Lemmas.Adjoint
import Verif.Lemmas.Losses
import Mathlib.Tactic.Ring
import Mathlib.Tactic.LinearCombination
import Mathlib.Tactic.Linarith

namespace Verif
open Tensor Spec
variable {R : Type}

section ring
variable [CommRing R]

theorem innerProd_comm {x y : Tensor R} (h : y.shape = x.shape) : innerProd x y = innerProd y x := by
  unfold innerProd
  rw [h]
  exact boxSum_congr _ fun i _ => mul_comm _ _

theorem innerProd_crop {x y z u : Tensor R} (hy : SameTensor x y) (h : CropOf x z u) : innerProd y z = innerProd y u := by
  unfold innerProd
  rw [hy.2]
  exact boxSum_congr _ fun i hi => by rw [h.2 i hi]

theorem dist2_expand {x y : Tensor R} (h : y.shape = x.shape) :
    dist2 x y = innerProd x x - 2 * innerProd x y + innerProd y y := by
  unfold dist2 innerProd
  rw [h, sub_eq_add_neg, ← neg_mul, ← boxSum_mul, ← boxSum_add, ← boxSum_add]
  exact boxSum_congr _ fun i _ => by ring

theorem dist2_self (x : Tensor R) : dist2 x x = 0 := by
  rw [dist2_expand rfl]; ring

theorem dist2_comm {x y : Tensor R} (h : y.shape = x.shape) : dist2 x y = dist2 y x := by
  rw [dist2_expand h, dist2_expand h.symm, innerProd_comm h]; ring

theorem same_symm {t u : Tensor R} (h : SameTensor t u) : SameTensor u t := ⟨h.1.symm, h.2.symm⟩
theorem same_trans {t u v : Tensor R} (h : SameTensor t u) (h' : SameTensor u v) : SameTensor t v :=
  ⟨h'.1.trans h.1, h'.2.trans h.2⟩
theorem same_refl (t : Tensor R) : SameTensor t t := ⟨rfl, rfl⟩

theorem sames_symm {t u : List (Tensor R)} (h : List.Forall₂ SameTensor t u) : List.Forall₂ SameTensor u t :=
  h.flip.imp fun _ _ => same_symm
theorem sames_trans : ∀ {t u v : List (Tensor R)}, List.Forall₂ SameTensor t u → List.Forall₂ SameTensor u v →
    List.Forall₂ SameTensor t v
  | _, _, _, .nil, .nil => .nil
  | _, _, _, .cons h hs, .cons h' hs' => .cons (same_trans h h') (sames_trans hs hs')
theorem sames_refl (t : List (Tensor R)) : List.Forall₂ SameTensor t t := List.forall₂_same.mpr fun t _ => same_refl t

theorem listDist_expand : ∀ {cs ds : List (Tensor R)}, List.Forall₂ SameTensor cs ds →
    listDist cs ds = listDot cs cs - 2 * listDot cs ds + listDot ds ds := by
  intro cs ds h
  induction h with
  | nil => simp [listDist, listDot]
  | cons h hs ih =>
    unfold listDist listDot at ih ⊢
    simp only [List.zipWith_cons_cons, List.sum_cons]
    rw [ih, dist2_expand h.2]; ring

theorem listDot_comm : ∀ {cs ds : List (Tensor R)}, List.Forall₂ SameTensor cs ds → listDot cs ds = listDot ds cs := by
  intro cs ds h
  induction h with
  | nil => rfl
  | cons h hs ih =>
    unfold listDot at ih ⊢
    simp only [List.zipWith_cons_cons, List.sum_cons]
    rw [ih, innerProd_comm h.2]

/-- All tensors of a container, one list. -/
def coeffTensors (c : Coeffs R) : List (Tensor R) := c.items.flatMap entryTensors

theorem entryForm_tensors : ∀ {e e' : Entry R}, EntryForm e e' → List.Forall₂ SameTensor (entryTensors e) (entryTensors e')
  | .tensor _, .tensor _, h => .cons h .nil
  | .tuple _ _ _, .tuple _ _ _, h => .cons h.1 (.cons h.2.1 (.cons h.2.2 .nil))
  | .dict kv, .dict kv', h => by
    have h : List.Forall₂ (fun p q : String × Tensor R => p.1 = q.1 ∧ SameTensor p.2 q.2) kv kv' := h
    unfold entryTensors
    rw [List.forall₂_map_left_iff, List.forall₂_map_right_iff]
    exact h.imp fun _ _ h => h.2
  | .tensor _, .tuple _ _ _, h => h.elim
  | .tensor _, .dict _, h => h.elim
  | .tensor _, .other, h => h.elim
  | .tuple _ _ _, .tensor _, h => h.elim
  | .tuple _ _ _, .dict _, h => h.elim
  | .tuple _ _ _, .other, h => h.elim
  | .dict _, .tensor _, h => h.elim
  | .dict _, .tuple _ _ _, h => h.elim
  | .dict _, .other, h => h.elim
  | .other, .tensor _, h => h.elim
  | .other, .tuple _ _ _, h => h.elim
  | .other, .dict _, h => h.elim
  | .other, .other, h => h.elim

theorem form_tensors {c d : Coeffs R} (h : SameForm c d) : List.Forall₂ SameTensor (coeffTensors c) (coeffTensors d) := by
  obtain ⟨-, h⟩ := h
  unfold coeffTensors
  generalize c.items = l at h
  generalize d.items = l' at h
  induction h with
  | nil => exact .nil
  | cons h hs ih =>
    rw [List.flatMap_cons, List.flatMap_cons]
    exact List.rel_append (entryForm_tensors h) ih

theorem zipWith_flat {α β : Type} {f : β → β → R} {g : α → List β} {E : α → α → Prop} (hE : ∀ a b, E a b → (g a).length = (g b).length) :
    ∀ {l l' : List α}, List.Forall₂ E l l' →
      (List.zipWith (fun e e' => (List.zipWith f (g e) (g e')).sum) l l').sum = (List.zipWith f (l.flatMap g) (l'.flatMap g)).sum := by
  intro l l' h
  induction h with
  | nil => rfl
  | cons h hs ih =>
    rw [List.flatMap_cons, List.flatMap_cons, List.zipWith_append (hE _ _ h)]
    simp only [List.zipWith_cons_cons, List.sum_cons, List.sum_append]
    rw [ih]

theorem coeffDot_flat {c d : Coeffs R} (h : SameForm c d) : coeffDot c d = listDot (coeffTensors c) (coeffTensors d) :=
  zipWith_flat (fun _ _ h => (entryForm_tensors h).length_eq) h.2

theorem coeffDist_flat {c d : Coeffs R} (h : SameForm c d) : coeffDist c d = listDist (coeffTensors c) (coeffTensors d) :=
  zipWith_flat (fun _ _ h => (entryForm_tensors h).length_eq) h.2

theorem entryForm_symm : ∀ {e e' : Entry R}, EntryForm e e' → EntryForm e' e := by
  intro e e' h
  cases e <;> cases e' <;> try exact h.elim
  · exact same_symm h
  · exact ⟨same_symm h.1, same_symm h.2.1, same_symm h.2.2⟩
  · rename_i kv kv'
    have h : List.Forall₂ (fun p q : String × Tensor R => p.1 = q.1 ∧ SameTensor p.2 q.2) kv kv' := h
    exact h.flip.imp fun _ _ h => ⟨h.1.symm, same_symm h.2⟩

theorem entryForm_trans : ∀ {e e' e'' : Entry R}, EntryForm e e' → EntryForm e' e'' → EntryForm e e'' := by
  intro e e' e'' h h'
  cases e <;> cases e' <;> (try exact h.elim) <;> cases e'' <;> try exact h'.elim
  · exact same_trans h h'
  · exact ⟨same_trans h.1 h'.1, same_trans h.2.1 h'.2.1, same_trans h.2.2 h'.2.2⟩
  · rename_i kv kv' kv''
    have h : List.Forall₂ (fun p q : String × Tensor R => p.1 = q.1 ∧ SameTensor p.2 q.2) kv kv' := h
    have h' : List.Forall₂ (fun p q : String × Tensor R => p.1 = q.1 ∧ SameTensor p.2 q.2) kv' kv'' := h'
    show List.Forall₂ _ kv kv''
    clear * - h h'
    induction h generalizing kv'' with
    | nil => cases h'; exact .nil
    | cons h hs ih =>
      cases h' with
      | cons h1 h2 => exact .cons ⟨h.1.trans h1.1, same_trans h.2 h1.2⟩ (ih _ h2)

theorem form_symm {c d : Coeffs R} (h : SameForm c d) : SameForm d c :=
  ⟨h.1.symm, h.2.flip.imp fun _ _ => entryForm_symm⟩

theorem form_trans {c d e : Coeffs R} (h : SameForm c d) (h' : SameForm d e) : SameForm c e := by
  refine ⟨h.1.trans h'.1, ?_⟩
  obtain ⟨-, h⟩ := h
  obtain ⟨-, h'⟩ := h'
  revert h'
  generalize c.items = l₁ at h ⊢
  generalize d.items = l₂ at h ⊢
  generalize e.items = l₃
  intro h'
  induction h generalizing l₃ with
  | nil => cases h'; exact .nil
  | cons h hs ih =>
    cases h' with
    | cons h1 h2 => exact .cons (entryForm_trans h h1) (ih _ h2)

theorem crop_exists (x z : Tensor R) : ∃ u, CropOf x z u :=
  ⟨ofFn x.md x.shape z.get, ⟨rfl, rfl⟩, fun i hi => by rw [ofFn_get, if_pos hi]⟩

/-- The abstract situation: a decomposition `dec` that accepts all tensors like `x`, and a reconstruction `rec` that
accepts all coefficients of the form of `c`, is adjoint to it and inverts it. `dot` is the inner product of
coefficients and `dist` their squared distance. -/
structure Framed {C : Type} (x : Tensor R) (Form : C → Prop) (dec : Tensor R → Except Err C) (rec : C → Except Err (Tensor R))
    (dot dist : C → C → R) : Prop where
  dec_ok : ∀ y, SameTensor x y → ∃ cy, dec y = .ok cy ∧ Form cy
  adj : ∀ y cy d, SameTensor x y → dec y = .ok cy → Form d → ∃ z, rec d = .ok z ∧ z.md = x.md ∧ dot cy d = innerProd y z
  pr : ∀ y cy, SameTensor x y → dec y = .ok cy → ∃ z, rec cy = .ok z ∧ ∀ i, InB x.shape i → z.get i = y.get i
  expand : ∀ c d, Form c → Form d → dist c d = dot c c - 2 * dot c d + dot d d
  comm : ∀ c d, Form c → Form d → dot c d = dot d c

variable {C : Type} {x : Tensor R} {Form : C → Prop} {dec : Tensor R → Except Err C} {rec : C → Except Err (Tensor R)}
  {dot dist : C → C → R}

theorem Framed.dot_dec (h : Framed x Form dec rec dot dist) {y y' : Tensor R} {c c' : C} (hy : SameTensor x y)
    (hy' : SameTensor x y') (hc : dec y = .ok c) (hc' : dec y' = .ok c') : dot c c' = innerProd y y' := by
  obtain ⟨c₁, e, hf⟩ := h.dec_ok y' hy'
  rw [hc'] at e; cases e
  obtain ⟨z, ez, -, h1⟩ := h.adj y c c' hy hc hf
  obtain ⟨z', ez', h2⟩ := h.pr y' c' hy' hc'
  rw [ez] at ez'; cases ez'
  rw [h1]
  unfold innerProd
  rw [hy.2]
  exact boxSum_congr _ fun i hi => by rw [h2 i hi]

theorem Framed.dot_rec (h : Framed x Form dec rec dot dist) {y z u : Tensor R} {c d : C} (hy : SameTensor x y)
    (hc : dec y = .ok c) (hd : Form d) (hz : rec d = .ok z) (hu : CropOf x z u) : dot c d = innerProd y u := by
  obtain ⟨z', ez', -, h1⟩ := h.adj y c d hy hc hd
  rw [hz] at ez'; cases ez'
  rw [h1, innerProd_crop hy hu]

theorem Framed.best (h : Framed x Form dec rec dot dist) (d : C) (hd : Form d) :
    ∃ z, rec d = .ok z ∧ z.md = x.md ∧ ∃ u, CropOf x z u ∧ ∃ cu, dec u = .ok cu ∧ Form cu ∧
      ∀ y, SameTensor x y → ∃ cy, dec y = .ok cy ∧ Form cy ∧ dist d cy = dist d cu + dist2 u y := by
  obtain ⟨cx, ex, -⟩ := h.dec_ok x (same_refl x)
  obtain ⟨z, ez, hmd, -⟩ := h.adj x cx d (same_refl x) ex hd
  obtain ⟨u, hu⟩ := crop_exists x z
  obtain ⟨cu, eu, fu⟩ := h.dec_ok u hu.1
  refine ⟨z, ez, hmd, u, hu, cu, eu, fu, fun y hy => ?_⟩
  obtain ⟨cy, ey, fy⟩ := h.dec_ok y hy
  refine ⟨cy, ey, fy, ?_⟩
  have h1 := h.dot_rec hy ey hd ez hu
  have h2 := h.dot_rec hu.1 eu hd ez hu
  have h3 := h.dot_dec hy hy ey ey
  have h4 := h.dot_dec hu.1 hu.1 eu eu
  have h5 : y.shape = u.shape := hy.2.trans hu.1.2.symm
  rw [h.expand d cy hd fy, h.expand d cu hd fu, h.comm d cy hd fy, h.comm d cu hd fu, h1, h2, h3, h4, dist2_expand h5,
    innerProd_comm h5]
  ring

theorem Framed.isometry (h : Framed x Form dec rec dot dist) {y y' : Tensor R} (hy : SameTensor x y) (hy' : SameTensor x y') :
    ∃ c c', dec y = .ok c ∧ dec y' = .ok c' ∧ Form c ∧ Form c' ∧ dist c c' = dist2 y y' := by
  obtain ⟨c, ec, fc⟩ := h.dec_ok y hy
  obtain ⟨c', ec', fc'⟩ := h.dec_ok y' hy'
  refine ⟨c, c', ec, ec', fc, fc', ?_⟩
  rw [h.expand c c' fc fc', h.dot_dec hy hy ec ec, h.dot_dec hy hy' ec ec', h.dot_dec hy' hy' ec' ec',
    dist2_expand (hy'.2.trans hy.2.symm)]

end ring

section ordered
variable [Field R] [LinearOrder R] [IsStrictOrderedRing R]

theorem dist2_nonneg (x y : Tensor R) : 0 ≤ dist2 x y := by
  unfold dist2
  simp only [sq]
  exact boxSum_sq_nonneg _ _

theorem dist2_zero {x y : Tensor R} (h : SameTensor x y) (h0 : dist2 x y = 0) : x = y := by
  refine Tensor.ext' h.1.symm h.2.symm fun i hi => ?_
  unfold dist2 at h0
  simp only [sq] at h0
  exact sub_eq_zero.mp ((boxSum_sq_zero _ _).mp h0 i hi)

/-- The expansion of a sum of squares. -/
theorem quad_nonneg {a b c d : Tensor R} (hb : b.shape = a.shape) (hc : c.shape = a.shape) (hd : d.shape = a.shape) :
    0 ≤ dist2 a b + dist2 c d - 2 * (innerProd a c - innerProd a d - innerProd b c + innerProd b d) := by
  have h := boxSum_sq_nonneg a.shape fun i => a.get i - b.get i - (c.get i - d.get i)
  have e : (boxSum a.shape fun i => (a.get i - b.get i - (c.get i - d.get i)) ^ 2) =
      dist2 a b + dist2 c d - 2 * (innerProd a c - innerProd a d - innerProd b c + innerProd b d) := by
    have e1 : ∀ f : List Nat → R, - boxSum a.shape f = boxSum a.shape fun i => (-1) * f i := fun f => by
      rw [boxSum_mul]; ring
    unfold dist2 innerProd
    rw [hb, hc]
    simp only [sub_eq_add_neg, e1, ← boxSum_add, ← boxSum_mul]
    exact boxSum_congr _ fun i _ => by ring
  rw [← e]; simp only [sq]; exact h

theorem quads_nonneg : ∀ {a b c d : List (Tensor R)}, List.Forall₂ SameTensor a b → List.Forall₂ SameTensor a c →
    List.Forall₂ SameTensor a d →
    0 ≤ listDist a b + listDist c d - 2 * (listDot a c - listDot a d - listDot b c + listDot b d)
  | _, _, _, _, .nil, .nil, .nil => by simp [listDist, listDot]
  | _, _, _, _, .cons h hs, .cons h' hs', .cons h'' hs'' => by
    have h1 := quad_nonneg h.2 h'.2 h''.2
    have h2 := quads_nonneg hs hs' hs''
    unfold listDist listDot at h2 ⊢
    simp only [List.zipWith_cons_cons, List.sum_cons]
    linarith

variable {C : Type} {x : Tensor R} {Form : C → Prop} {dec : Tensor R → Except Err C} {rec : C → Except Err (Tensor R)}
  {dot dist : C → C → R}

theorem Framed.contract (h : Framed x Form dec rec dot dist)
    (hq : ∀ a b c d, Form a → Form b → Form c → Form d → 0 ≤ dist a b + dist c d - 2 * (dot a c - dot a d - dot b c + dot b d))
    (d d' : C) (hd : Form d) (hd' : Form d') :
    ∃ z z', rec d = .ok z ∧ rec d' = .ok z' ∧ z.md = x.md ∧ z'.md = x.md ∧
      ∃ u u', CropOf x z u ∧ CropOf x z' u' ∧ dist2 u u' ≤ dist d d' := by
  obtain ⟨z, ez, hmd, u, hu, cu, eu, fu, -⟩ := h.best d hd
  obtain ⟨z', ez', hmd', u', hu', cu', eu', fu', -⟩ := h.best d' hd'
  refine ⟨z, z', ez, ez', hmd, hmd', u, u', hu, hu', ?_⟩
  have h0 := hq d d' cu cu' hd hd' fu fu'
  rw [h.comm d cu hd fu, h.comm d cu' hd fu', h.comm d' cu hd' fu, h.comm d' cu' hd' fu', h.dot_rec hu.1 eu hd ez hu,
    h.dot_rec hu'.1 eu' hd ez hu, h.dot_rec hu.1 eu hd' ez' hu', h.dot_rec hu'.1 eu' hd' ez' hu', h.expand cu cu' fu fu',
    h.dot_dec hu.1 hu.1 eu eu, h.dot_dec hu.1 hu'.1 eu eu', h.dot_dec hu'.1 hu'.1 eu' eu'] at h0
  have hs : u'.shape = u.shape := hu'.1.2.trans hu.1.2.symm
  rw [innerProd_comm hs.symm] at h0
  rw [dist2_expand hs]
  linarith

theorem Framed.least (h : Framed x Form dec rec dot dist) (d : C) (hd : Form d) :
    ∃ z, rec d = .ok z ∧ z.md = x.md ∧ ∃ u, CropOf x z u ∧ ∃ cu, dec u = .ok cu ∧ Form cu ∧
      ∀ y, SameTensor x y → ∃ cy, dec y = .ok cy ∧ Form cy ∧ dist d cu ≤ dist d cy ∧ (dist d cy = dist d cu → y = u) := by
  obtain ⟨z, ez, hmd, u, hu, cu, eu, fu, h1⟩ := h.best d hd
  refine ⟨z, ez, hmd, u, hu, cu, eu, fu, fun y hy => ?_⟩
  obtain ⟨cy, ey, fy, h2⟩ := h1 y hy
  refine ⟨cy, ey, fy, ?_, fun h3 => ?_⟩
  · rw [h2]; exact le_add_of_nonneg_right (dist2_nonneg _ _)
  · refine (dist2_zero (same_trans (same_symm hu.1) hy) ?_).symm
    rw [h3] at h2
    linear_combination -h2

end ordered

end Verif
