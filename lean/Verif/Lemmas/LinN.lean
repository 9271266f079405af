import Verif.Lemmas.Lin
import Verif.Model.SepConv
import Verif.Model.Swt

/-! The two- and three-dimensional, separable and stationary transforms are linear in their data
argument (see `Lemmas/Lin`). -/

namespace Verif.Spec
open Tensor
variable {R : Type}

section gen
variable {α β : Type} {P : α → α → α → Prop} {Q : β → β → β → Prop}

theorem Three.pure_eq {x : Except Err α} : Three (fun u v w => v = u ∧ w = u) x x x :=
  Three.refl fun _ => ⟨rfl, rfl⟩

theorem Three.eq_of {x y z : Except Err α} (h : Three (fun u v w => v = u ∧ w = u) x y z) :
    y = x ∧ z = x := by
  cases h with
  | ok h => obtain ⟨rfl, rfl⟩ := h; exact ⟨rfl, rfl⟩
  | err e => exact ⟨rfl, rfl⟩

theorem Forall₃.map {f g k : α → β} {xs ys zs : List α}
    (h : Forall₃ P xs ys zs) (hf : ∀ a b c, P a b c → Q (f a) (g b) (k c)) :
    Forall₃ Q (xs.map f) (ys.map g) (zs.map k) := by
  induction h with
  | nil => exact .nil
  | cons h1 _ ih => exact .cons (hf _ _ _ h1) ih

theorem Forall₃.map_eq {f g k : α → β} {xs ys zs : List α}
    (h : Forall₃ P xs ys zs) (hf : ∀ a b c, P a b c → g b = f a ∧ k c = f a) :
    ys.map g = xs.map f ∧ zs.map k = xs.map f := by
  induction h with
  | nil => exact ⟨rfl, rfl⟩
  | cons h1 _ ih => simp [ih.1, ih.2, (hf _ _ _ h1).1, (hf _ _ _ h1).2]

theorem Forall₃.filter {p q r : α → Bool} {xs ys zs : List α}
    (h : Forall₃ P xs ys zs) (hf : ∀ a b c, P a b c → q b = p a ∧ r c = p a) :
    Forall₃ P (xs.filter p) (ys.filter q) (zs.filter r) := by
  induction h with
  | nil => exact .nil
  | @cons a b c _ _ _ h1 _ ih =>
    obtain ⟨e1, e2⟩ := hf _ _ _ h1
    simp only [List.filter_cons, e1, e2]
    split_ifs
    · exact .cons h1 ih
    · exact ih

theorem Forall₃.any {p q r : α → Bool} {xs ys zs : List α}
    (h : Forall₃ P xs ys zs) (hf : ∀ a b c, P a b c → q b = p a ∧ r c = p a) :
    ys.any q = xs.any p ∧ zs.any r = xs.any p := by
  induction h with
  | nil => exact ⟨rfl, rfl⟩
  | cons h1 _ ih => simp [ih.1, ih.2, (hf _ _ _ h1).1, (hf _ _ _ h1).2]

theorem Forall₃.all {p q r : α → Bool} {xs ys zs : List α}
    (h : Forall₃ P xs ys zs) (hf : ∀ a b c, P a b c → q b = p a ∧ r c = p a) :
    ys.all q = xs.all p ∧ zs.all r = xs.all p := by
  induction h with
  | nil => exact ⟨rfl, rfl⟩
  | cons h1 _ ih => simp [ih.1, ih.2, (hf _ _ _ h1).1, (hf _ _ _ h1).2]

theorem Forall₃.tail {xs ys zs : List α} (h : Forall₃ P xs ys zs) :
    Forall₃ P xs.tail ys.tail zs.tail := by
  cases h with
  | nil => exact .nil
  | cons _ h => exact h

theorem Forall₃.imp {P' : α → α → α → Prop} {xs ys zs : List α} (h : Forall₃ P xs ys zs)
    (hf : ∀ a b c, P a b c → P' a b c) : Forall₃ P' xs ys zs := by
  induction h with
  | nil => exact .nil
  | cons h1 _ ih => exact .cons (hf _ _ _ h1) ih

end gen

/-- Dictionaries related tensor by tensor. -/
abbrev Dict3 [Zero R] (P : Tensor R → Tensor R → Tensor R → Prop) (a b d : List (String × Tensor R)) : Prop :=
  Forall₃ (fun e e' e'' => e'.1 = e.1 ∧ e''.1 = e.1 ∧ P e.2 e'.2 e''.2) a b d

section dict
variable [Zero R] {P : Tensor R → Tensor R → Tensor R → Prop} {a b d : List (String × Tensor R)}

theorem Dict3.get (h : Dict3 P a b d) (key : String) :
    Three P (dictGet a key) (dictGet b key) (dictGet d key) := by
  unfold dictGet
  induction h with
  | nil => exact .err _
  | @cons x y z _ _ _ h1 _ ih =>
    obtain ⟨kx, x⟩ := x
    obtain ⟨ky, y⟩ := y
    obtain ⟨kz, z⟩ := z
    obtain ⟨e1, e2, h1⟩ := h1
    simp only at e1 e2 h1
    subst e1; subst e2
    by_cases e : kz = key
    · simp only [e, decide_true, List.find?_cons_of_pos]
      exact .ok h1
    · simp only [List.find?_cons, e, decide_false]
      exact ih

theorem Dict3.filterKey (h : Dict3 P a b d) (key : String) :
    Dict3 P (a.filter fun p => p.1 ≠ key) (b.filter fun p => p.1 ≠ key) (d.filter fun p => p.1 ≠ key) :=
  Forall₃.filter h fun _ _ _ h => by simp [h.1, h.2.1]

theorem Dict3.pop (h : Dict3 P a b d) (key : String) :
    Three (fun u v w => P u.1 v.1 w.1 ∧ Dict3 P u.2 v.2 w.2)
      (dictPop a key) (dictPop b key) (dictPop d key) := by
  unfold dictPop
  exact Three.bind (h.get key) fun _ _ _ h1 => .ok ⟨h1, h.filterKey key⟩

theorem Dict3.set (h : Dict3 P a b d) (key : String) {x y z : Tensor R} (hx : P x y z) :
    Dict3 P (dictSet a key x) (dictSet b key y) (dictSet d key z) := by
  unfold dictSet
  obtain ⟨e1, e2⟩ := Forall₃.any (p := fun p : String × Tensor R => decide (p.1 = key))
    (q := fun p => decide (p.1 = key)) (r := fun p => decide (p.1 = key)) h
    fun _ _ _ h => by simp [h.1, h.2.1]
  rw [e1, e2]
  split_ifs
  · refine Forall₃.map h ?_
    intro p q r hp
    obtain ⟨e1, e2, hp⟩ := hp
    simp only [e1, e2]
    split_ifs
    · exact ⟨rfl, rfl, hx⟩
    · exact ⟨e1, e2, hp⟩
  · exact h.append (.cons ⟨rfl, rfl, hx⟩ .nil)

theorem Dict3.keys (h : Dict3 P a b d) :
    b.map Prod.fst = a.map Prod.fst ∧ d.map Prod.fst = a.map Prod.fst :=
  Forall₃.map_eq h fun _ _ _ h => ⟨h.1, h.2.1⟩

theorem Dict3.aKeys (h : Dict3 P a b d) : aKeys b = aKeys a ∧ aKeys d = aKeys a := by
  unfold Verif.aKeys
  obtain ⟨e1, e2⟩ := Forall₃.any (p := fun p : String × Tensor R => decide (p.1 = ""))
    (q := fun p => decide (p.1 = "")) (r := fun p => decide (p.1 = "")) h
    fun _ _ _ h => by simp [h.1, h.2.1]
  rw [e1, e2, (Dict3.keys h).1, (Dict3.keys h).2]
  exact ⟨rfl, rfl⟩

theorem Dict3.maxKeyLen (h : Dict3 P a b d) : maxKeyLen b = maxKeyLen a ∧ maxKeyLen d = maxKeyLen a := by
  unfold Verif.maxKeyLen
  cases h with
  | nil => exact ⟨rfl, rfl⟩
  | cons h1 h =>
    obtain ⟨e1, e2⟩ := Forall₃.map_eq (f := fun q : String × Tensor R => q.1.length)
      (g := fun q => q.1.length) (k := fun q => q.1.length) h fun _ _ _ h => by simp [h.1, h.2.1]
    simp only [e1, e2, h1.1, h1.2.1, and_self]

end dict

section conv2
variable [CommSemiring R] {c : R} {x y z : Tensor R}

theorem lin_wavedec2Loop (w : Wavelet R) (mode : Option String) (filt : Tensor R) :
    ∀ (L : Nat) {x y z : Tensor R}, Lin c x y z →
    Three (fun u v t => Lin c u.1 v.1 t.1 ∧ Forall₃ (Entry3 (Lin c)) u.2 v.2 t.2)
      (wavedec2Loop w mode filt L x) (wavedec2Loop w mode filt L y) (wavedec2Loop w mode filt L z)
  | 0, _, _, _, h => .ok ⟨h, .nil⟩
  | L + 1, x, y, z, h => by
    unfold wavedec2Loop
    refine Three.bind (h.fwtPad w mode 2) fun _ _ _ h => Three.bind (h.conv2d filt 2) fun u v t h => ?_
    have hs := h.split1
    revert hs
    generalize split1 u = su
    generalize split1 v = sv
    generalize split1 t = st
    intro hs
    cases hs with
    | nil => exact .err _
    | cons h1 hs =>
    cases hs with
    | nil => exact .err _
    | cons h2 hs =>
    cases hs with
    | nil => exact .err _
    | cons h3 hs =>
    cases hs with
    | nil => exact .err _
    | cons h4 hs =>
    cases hs with
    | cons _ _ => exact .err _
    | nil =>
      simp only
      exact Three.bind (lin_wavedec2Loop w mode filt L h1) fun _ _ _ h =>
        .ok ⟨h.1, .cons (.tuple h2.squeeze1 h3.squeeze1 h4.squeeze1) h.2⟩

theorem lin_wavedec2 (h : Lin c x y z) (w : Wavelet R) (mode : Option String) (level : Option Int)
    (axes : AxisHint) :
    Three (Coeffs3 (Lin c)) (wavedec2 x w mode level axes) (wavedec2 y w mode level axes)
      (wavedec2 z w mode level axes) := by
  unfold wavedec2
  refine Three.bind (h.preprocessDeconstruction w 2 axes) ?_
  rintro ⟨x', p⟩ ⟨y', _⟩ ⟨z', _⟩ ⟨h, h2, h3⟩
  simp only at h h2 h3 ⊢
  subst h2; subst h3
  rw [(h.sizeFromEnd 1).1, (h.sizeFromEnd 1).2, (h.sizeFromEnd 2).1, (h.sizeFromEnd 2).2]
  refine Three.bind Three.pure_eq ?_
  rintro L _ _ ⟨rfl, rfl⟩
  refine Three.bind (lin_wavedec2Loop w mode _ _ h) fun u v t h => ?_
  exact lin_postprocessCoeffs (a := assemble2 u) (b := assemble2 v) (d := assemble2 t)
    ⟨rfl, rfl, .cons (.tensor h.1.squeeze1) h.2.reverse⟩ _ _ _

theorem lin_recPads2 (F : Nat) (h : Lin c x y z) {a b d : List (Entry R)}
    (hs : Forall₃ (Entry3 (Lin c)) a b d) :
    recPads2 F y b = recPads2 F x a ∧ recPads2 F z d = recPads2 F x a := by
  cases hs with
  | nil => exact ⟨rfl, rfl⟩
  | cons h1 _ =>
    refine Three.eq_of ?_
    unfold recPads2
    simp only
    refine Three.bind (α := Tensor R) (P := Lin c) ?_ fun u v t h' => ?_
    · cases h1 with
      | tensor h => exact .ok h
      | tuple h _ _ => exact .ok h
      | dict _ => exact .err _
      | other => exact .err _
    rw [(h.sizeFromEnd 1).1, (h.sizeFromEnd 1).2, (h.sizeFromEnd 2).1, (h.sizeFromEnd 2).2,
      (h'.sizeFromEnd 1).1, (h'.sizeFromEnd 1).2, (h'.sizeFromEnd 2).1, (h'.sizeFromEnd 2).2]
    exact Three.pure_eq

theorem Lin.crop2 (h : Lin c x y z) (p : (Nat × Nat) × (Nat × Nat)) :
    Lin c (crop2 x p) (crop2 y p) (crop2 z p) := by
  unfold Verif.crop2
  rw [h.rank.1, h.rank.2]
  exact (h.cropAxis _ _ _).cropAxis _ _ _

theorem lin_waverec2Step (filt : Tensor R) (F : Nat) (h : Lin c x y z) {e e' e'' : Entry R}
    (he : Entry3 (Lin c) e e' e'') {a b d : List (Entry R)} (hs : Forall₃ (Entry3 (Lin c)) a b d) :
    Three (Lin c) (waverec2Step filt F x e a) (waverec2Step filt F y e' b) (waverec2Step filt F z e'' d) := by
  unfold waverec2Step
  cases he with
  | tensor _ => exact .err _
  | dict _ => exact .err _
  | other => exact .err _
  | tuple h1 h2 h3 =>
    simp only [h.shape₁, h.shape₂, h1.shape₁, h1.shape₂, h2.shape₁, h2.shape₂, h3.shape₁, h3.shape₂]
    refine Three.ite _ ?_ (.err _)
    refine Three.bind (Lin.stack1 (.cons h (.cons h1 (.cons h2 (.cons h3 .nil))))) fun _ _ _ h =>
      Three.bind (h.convTranspose2d filt 2) fun u v t h => ?_
    obtain ⟨e1, e2⟩ := lin_recPads2 F h.squeeze1 hs
    rw [e1, e2]
    refine Three.bind Three.pure_eq ?_
    rintro p _ _ ⟨rfl, rfl⟩
    exact .ok (h.squeeze1.crop2 _)

theorem lin_waverec2Loop (filt : Tensor R) (F : Nat) {a b d : List (Entry R)}
    (hs : Forall₃ (Entry3 (Lin c)) a b d) : ∀ {x y z : Tensor R}, Lin c x y z →
    Three (Lin c) (waverec2Loop filt F x a) (waverec2Loop filt F y b) (waverec2Loop filt F z d) := by
  induction hs with
  | nil => exact fun h => .ok h
  | cons h1 hs ih =>
    intro x y z h
    unfold waverec2Loop
    exact Three.bind (lin_waverec2Step filt F h h1 hs) fun _ _ _ h => ih h

theorem lin_waverec2 {a b d : Coeffs R} (h : Coeffs3 (Lin c) a b d) (w : Wavelet R)
    (axes : AxisHint) : Three (Lin c) (waverec2 a w axes) (waverec2 b w axes) (waverec2 d w axes) := by
  unfold waverec2
  refine Three.bind (lin_preprocessCoeffs h 2 axes false) ?_
  rintro ⟨u, du⟩ ⟨v, dv⟩ ⟨t, dt⟩ ⟨h, h2, h3⟩
  simp only at h h2 h3 ⊢
  subst h2; subst h3
  rw [(lin_checkSameDeviceDtype h).1, (lin_checkSameDeviceDtype h).2]
  refine Three.bind Three.pure_eq ?_
  rintro md _ _ ⟨rfl, rfl⟩
  refine Three.bind Three.pure_eq ?_
  rintro f _ _ ⟨rfl, rfl⟩
  refine Three.bind h.headTensor fun _ _ _ h1 => ?_
  exact Three.bind (lin_waverec2Loop _ _ h.items.tail h1) fun _ _ _ h => h.postprocessTensor _ _ _

end conv2

section conv3
variable [CommSemiring R] {c : R} {x y z : Tensor R}

theorem Lin.ensureChannel3 (h : Lin c x y z) :
    Three (Lin c) (ensureChannel3 x) (ensureChannel3 y) (ensureChannel3 z) := by
  unfold Verif.ensureChannel3
  rw [h.rank.1, h.rank.2]
  exact Three.ite _ h.unsqueeze1 (.ok h)

theorem lin_wavedec3Loop (w : Wavelet R) (mode : Option String) (filt : Tensor R) :
    ∀ (L : Nat) {x y z : Tensor R}, Lin c x y z →
    Three (fun u v t => Lin c u.1 v.1 t.1 ∧ Forall₃ (Entry3 (Lin c)) u.2 v.2 t.2)
      (wavedec3Loop w mode filt L x) (wavedec3Loop w mode filt L y) (wavedec3Loop w mode filt L z)
  | 0, _, _, _, h => .ok ⟨h, .nil⟩
  | L + 1, x, y, z, h => by
    unfold wavedec3Loop
    refine Three.bind h.ensureChannel3 fun _ _ _ h => ?_
    refine Three.bind (h.fwtPad w mode 3) fun _ _ _ h => Three.bind (h.conv3d filt 2) fun u v t h => ?_
    have hs : Forall₃ (Lin c) ((split1 u).map Tensor.squeeze1) ((split1 v).map Tensor.squeeze1)
        ((split1 t).map Tensor.squeeze1) := h.split1.map fun _ _ _ h => h.squeeze1
    revert hs
    generalize (split1 u).map Tensor.squeeze1 = su
    generalize (split1 v).map Tensor.squeeze1 = sv
    generalize (split1 t).map Tensor.squeeze1 = st
    intro hs
    cases hs with
    | nil => exact .err _
    | cons h1 hs =>
    cases hs with
    | nil => exact .err _
    | cons h2 hs =>
    cases hs with
    | nil => exact .err _
    | cons h3 hs =>
    cases hs with
    | nil => exact .err _
    | cons h4 hs =>
    cases hs with
    | nil => exact .err _
    | cons h5 hs =>
    cases hs with
    | nil => exact .err _
    | cons h6 hs =>
    cases hs with
    | nil => exact .err _
    | cons h7 hs =>
    cases hs with
    | nil => exact .err _
    | cons h8 hs =>
    cases hs with
    | cons _ _ => exact .err _
    | nil =>
      simp only
      exact Three.bind (lin_wavedec3Loop w mode filt L h1) fun _ _ _ h =>
        .ok ⟨h.1, .cons (.dict (.cons ⟨rfl, rfl, h2⟩ (.cons ⟨rfl, rfl, h3⟩ (.cons ⟨rfl, rfl, h4⟩
          (.cons ⟨rfl, rfl, h5⟩ (.cons ⟨rfl, rfl, h6⟩ (.cons ⟨rfl, rfl, h7⟩
          (.cons ⟨rfl, rfl, h8⟩ .nil)))))))) h.2⟩

theorem lin_wavedec3 (h : Lin c x y z) (w : Wavelet R) (mode : Option String) (level : Option Int)
    (axes : AxisHint) :
    Three (Coeffs3 (Lin c)) (wavedec3 x w mode level axes) (wavedec3 y w mode level axes)
      (wavedec3 z w mode level axes) := by
  unfold wavedec3
  refine Three.bind (h.preprocessDeconstruction w 3 axes) ?_
  rintro ⟨x', p⟩ ⟨y', _⟩ ⟨z', _⟩ ⟨h, h2, h3⟩
  simp only at h h2 h3 ⊢
  subst h2; subst h3
  rw [(h.sizeFromEnd 1).1, (h.sizeFromEnd 1).2, (h.sizeFromEnd 2).1, (h.sizeFromEnd 2).2,
    (h.sizeFromEnd 3).1, (h.sizeFromEnd 3).2]
  refine Three.bind Three.pure_eq ?_
  rintro L _ _ ⟨rfl, rfl⟩
  refine Three.bind (lin_wavedec3Loop w mode _ _ h) fun u v t h => ?_
  exact lin_postprocessCoeffs (a := ⟨false, .tensor u.1 :: u.2.reverse⟩)
    (b := ⟨false, .tensor v.1 :: v.2.reverse⟩) (d := ⟨false, .tensor t.1 :: t.2.reverse⟩)
    ⟨rfl, rfl, .cons (.tensor h.1) h.2.reverse⟩ _ _ _

theorem lin_recPads3 (F : Nat) (h : Lin c x y z) {a b d : List (Entry R)}
    (hs : Forall₃ (Entry3 (Lin c)) a b d) :
    recPads3 F y b = recPads3 F x a ∧ recPads3 F z d = recPads3 F x a := by
  cases hs with
  | nil => exact ⟨rfl, rfl⟩
  | cons h1 _ =>
    refine Three.eq_of ?_
    unfold recPads3
    simp only
    refine Three.bind (α := Tensor R) (P := Lin c) ?_ fun u v t h' => ?_
    · cases h1 with
      | tensor h => exact .err _
      | tuple h _ _ => exact .err _
      | dict h => exact Dict3.get h _
      | other => exact .err _
    rw [(h.sizeFromEnd 1).1, (h.sizeFromEnd 1).2, (h.sizeFromEnd 2).1, (h.sizeFromEnd 2).2,
      (h.sizeFromEnd 3).1, (h.sizeFromEnd 3).2,
      (h'.sizeFromEnd 1).1, (h'.sizeFromEnd 1).2, (h'.sizeFromEnd 2).1, (h'.sizeFromEnd 2).2,
      (h'.sizeFromEnd 3).1, (h'.sizeFromEnd 3).2]
    exact Three.pure_eq

theorem Lin.crop3 (h : Lin c x y z) (p : (Nat × Nat) × (Nat × Nat) × (Nat × Nat)) :
    Lin c (crop3 x p) (crop3 y p) (crop3 z p) := by
  unfold Verif.crop3
  rw [h.rank.1, h.rank.2]
  exact ((h.cropAxis _ _ _).cropAxis _ _ _).cropAxis _ _ _

theorem lin_bands3 (h : Lin c x y z) {a b d : List (String × Tensor R)} (hd : Dict3 (Lin c) a b d) :
    Three (Forall₃ (Lin c)) (bands3 x a) (bands3 y b) (bands3 z d) := by
  unfold bands3
  exact Three.bind (hd.get _) fun _ _ _ h1 => Three.bind (hd.get _) fun _ _ _ h2 =>
    Three.bind (hd.get _) fun _ _ _ h3 => Three.bind (hd.get _) fun _ _ _ h4 =>
    Three.bind (hd.get _) fun _ _ _ h5 => Three.bind (hd.get _) fun _ _ _ h6 =>
    Three.bind (hd.get _) fun _ _ _ h7 =>
    .ok (.cons h (.cons h1 (.cons h2 (.cons h3 (.cons h4 (.cons h5 (.cons h6 (.cons h7 .nil))))))))

theorem Dict3.shapes {a b d : List (String × Tensor R)} (hd : Dict3 (Lin c) a b d) (s : List Nat) :
    ((∀ p ∈ b, p.2.shape = s) ↔ ∀ p ∈ a, p.2.shape = s) ∧
    ((∀ p ∈ d, p.2.shape = s) ↔ ∀ p ∈ a, p.2.shape = s) := by
  induction hd with
  | nil => simp
  | cons h1 _ ih =>
    simp only [List.forall_mem_cons, ih.1, ih.2, h1.2.2.shape₁, h1.2.2.shape₂, and_self]

theorem lin_waverec3Step (filt : Tensor R) (F : Nat) (h : Lin c x y z) {e e' e'' : Entry R}
    (he : Entry3 (Lin c) e e' e'') {a b d : List (Entry R)} (hs : Forall₃ (Entry3 (Lin c)) a b d) :
    Three (Lin c) (waverec3Step filt F x e a) (waverec3Step filt F y e' b) (waverec3Step filt F z e'' d) := by
  unfold waverec3Step
  cases he with
  | tensor _ => exact .err _
  | tuple _ _ _ => exact .err _
  | other => exact .err _
  | dict hd =>
    simp only [h.shape₁, h.shape₂, (Dict3.shapes hd x.shape).1, (Dict3.shapes hd x.shape).2,
      hd.length.1, hd.length.2]
    refine Three.ite _ ?_ (.err _)
    refine Three.bind (lin_bands3 h hd) fun _ _ _ h => Three.bind (Lin.stack1 h) fun _ _ _ h =>
      Three.bind (h.convTranspose3d filt 2) fun u v t h => ?_
    obtain ⟨e1, e2⟩ := lin_recPads3 F h.squeeze1 hs
    rw [e1, e2]
    refine Three.bind Three.pure_eq ?_
    rintro p _ _ ⟨rfl, rfl⟩
    exact .ok (h.squeeze1.crop3 _)

theorem lin_waverec3Loop (filt : Tensor R) (F : Nat) {a b d : List (Entry R)}
    (hs : Forall₃ (Entry3 (Lin c)) a b d) : ∀ {x y z : Tensor R}, Lin c x y z →
    Three (Lin c) (waverec3Loop filt F x a) (waverec3Loop filt F y b) (waverec3Loop filt F z d) := by
  induction hs with
  | nil => exact fun h => .ok h
  | cons h1 hs ih =>
    intro x y z h
    unfold waverec3Loop
    exact Three.bind (lin_waverec3Step filt F h h1 hs) fun _ _ _ h => ih h

theorem lin_waverec3 {a b d : Coeffs R} (h : Coeffs3 (Lin c) a b d) (w : Wavelet R)
    (axes : AxisHint) : Three (Lin c) (waverec3 a w axes) (waverec3 b w axes) (waverec3 d w axes) := by
  unfold waverec3
  refine Three.bind (lin_preprocessCoeffs h 3 axes false) ?_
  rintro ⟨u, du⟩ ⟨v, dv⟩ ⟨t, dt⟩ ⟨h, h2, h3⟩
  simp only at h h2 h3 ⊢
  subst h2; subst h3
  rw [(lin_checkSameDeviceDtype h).1, (lin_checkSameDeviceDtype h).2]
  refine Three.bind Three.pure_eq ?_
  rintro md _ _ ⟨rfl, rfl⟩
  refine Three.bind Three.pure_eq ?_
  rintro f _ _ ⟨rfl, rfl⟩
  refine Three.bind h.headTensor fun _ _ _ h1 => ?_
  exact Three.bind (lin_waverec3Loop _ _ h.items.tail h1) fun _ _ _ h => h.postprocessTensor _ _ _

end conv3

section sep
variable [CommSemiring R] {c : R} {x y z : Tensor R}

theorem lin_sepDwtn (w : Wavelet R) (mode : Option String) :
    ∀ (n : Nat) (key : String) {x y z : Tensor R}, Lin c x y z →
    Three (Dict3 (Lin c)) (sepDwtn w mode n key x) (sepDwtn w mode n key y) (sepDwtn w mode n key z)
  | 0, key, _, _, _, h => .ok (.cons ⟨rfl, rfl, h⟩ .nil)
  | n + 1, key, x, y, z, h => by
    unfold sepDwtn
    refine Three.bind (lin_wavedec h w mode _ _) fun _ _ _ hs => ?_
    cases hs with
    | nil => exact .err _
    | cons h1 hs =>
    cases hs with
    | nil => exact .err _
    | cons h2 hs =>
    cases hs with
    | cons _ _ => exact .err _
    | nil =>
      simp only
      exact Three.bind (lin_sepDwtn w mode n _ h1) fun _ _ _ ha =>
        Three.bind (lin_sepDwtn w mode n _ h2) fun _ _ _ hd => .ok (ha.append hd)

theorem lin_sepStep (w : Wavelet R) (mode : Option String) (n : Nat) (h : Lin c x y z) :
    Three (fun u v t => Lin c u.1 v.1 t.1 ∧ Entry3 (Lin c) u.2 v.2 t.2)
      (sepStep w mode n x) (sepStep w mode n y) (sepStep w mode n z) := by
  unfold sepStep
  rw [h.rank.1, h.rank.2]
  exact Three.bind (lin_sepDwtn w mode _ _ h) fun _ _ _ h => Three.bind (Dict3.pop h _) fun _ _ _ h =>
    .ok ⟨h.1, .dict h.2⟩

theorem lin_sepDecLoop (w : Wavelet R) (mode : Option String) (n : Nat) :
    ∀ (L : Nat) {x y z : Tensor R}, Lin c x y z →
    Three (fun u v t => Lin c u.1 v.1 t.1 ∧ Forall₃ (Entry3 (Lin c)) u.2 v.2 t.2)
      (sepDecLoop w mode n L x) (sepDecLoop w mode n L y) (sepDecLoop w mode n L z)
  | 0, _, _, _, h => .ok ⟨h, .nil⟩
  | L + 1, x, y, z, h => by
    unfold sepDecLoop
    exact Three.bind (lin_sepStep w mode n h) fun _ _ _ h1 =>
      Three.bind (lin_sepDecLoop w mode n L h1.1) fun _ _ _ h => .ok ⟨h.1, .cons h1.2 h.2⟩

theorem lin_sepWavedecn (h : Lin c x y z) (w : Wavelet R) (mode : Option String) (level : Option Int) :
    Three (Coeffs3 (Lin c)) (sepWavedecn x w mode level) (sepWavedecn y w mode level)
      (sepWavedecn z w mode level) := by
  unfold sepWavedecn
  rw [h.rank.1, h.rank.2, h.shape₁, h.shape₂]
  refine Three.bind Three.pure_eq ?_
  rintro L _ _ ⟨rfl, rfl⟩
  exact Three.bind (lin_sepDecLoop w mode _ _ h) fun _ _ _ h =>
    .ok ⟨rfl, rfl, .cons (.tensor h.1) h.2.reverse⟩

theorem lin_fswavedecn (h : Lin c x y z) (w : Wavelet R) (n : Nat) (mode : Option String)
    (level : Option Int) (axes : AxisHint) :
    Three (Coeffs3 (Lin c)) (fswavedecn x w n mode level axes) (fswavedecn y w n mode level axes)
      (fswavedecn z w n mode level axes) := by
  have key : ∀ axes : AxisHint, Three (Coeffs3 (Lin c))
      (preprocessTensor x n axes false >>= fun p => sepWavedecn p.1 w mode level >>= fun q =>
        postprocessCoeffs q n p.2 axes)
      (preprocessTensor y n axes false >>= fun p => sepWavedecn p.1 w mode level >>= fun q =>
        postprocessCoeffs q n p.2 axes)
      (preprocessTensor z n axes false >>= fun p => sepWavedecn p.1 w mode level >>= fun q =>
        postprocessCoeffs q n p.2 axes) := by
    intro axes
    refine Three.bind (h.preprocessTensor n axes false) ?_
    rintro ⟨u, du⟩ ⟨v, dv⟩ ⟨t, dt⟩ ⟨h, h2, h3⟩
    simp only at h h2 h3 ⊢
    subst h2; subst h3
    exact Three.bind (lin_sepWavedecn h w mode level) fun _ _ _ h => lin_postprocessCoeffs h _ _ _
  unfold fswavedecn
  exact key _

theorem Lin.cropTo (h : Lin c x y z) (ds : List Nat) :
    Three (Lin c) (cropTo x ds) (cropTo y ds) (cropTo z ds) := by
  unfold Verif.cropTo
  rw [h.rank.1, h.rank.2, h.shape₁, h.shape₂, h.md₁, h.md₂]
  exact Three.ite _ (.err _) (.ok (Lin.ofFn _ _ h.get))

theorem Lin.transposeLast (h : Lin c x y z) (k : Nat) :
    Three (Lin c) (transposeLast x k) (transposeLast y k) (transposeLast z k) := by
  unfold Verif.transposeLast
  rw [h.rank.1, h.rank.2]
  exact Three.ite _ (.ok (h.transpose _ _)) (.err _)

theorem Lin.flatLast (h : Lin c x y z) :
    Three (Lin c) (flatLast x) (flatLast y) (flatLast z) := by
  unfold Verif.flatLast
  rw [h.shape₁, h.shape₂]
  exact Three.ite _ (.err _) (h.reshape _)

theorem lin_sepRec1 (w : Wavelet R) (k : Nat) (h : Lin c x y z) {x' y' z' : Tensor R}
    (h' : Lin c x' y' z') :
    Three (Lin c) (sepRec1 w k x x') (sepRec1 w k y y') (sepRec1 w k z z') := by
  unfold sepRec1
  rw [h'.shape₁, h'.shape₂]
  refine Three.bind (h.cropTo _) fun _ _ _ h => Three.bind (h.transposeLast k) fun a b d ha =>
    Three.bind (h'.transposeLast k) fun _ _ _ hd => Three.bind ha.flatLast fun _ _ _ h1 =>
    Three.bind hd.flatLast fun _ _ _ h2 =>
    Three.bind (lin_waverec (.cons h1 (.cons h2 .nil)) w .none) fun _ _ _ h => ?_
  rw [ha.shape₁, ha.shape₂, h.shape₁, h.shape₂]
  exact Three.bind (h.reshape _) fun _ _ _ h => h.transposeLast k

/-- The two outcomes of the loop of the separable synthesis, related. -/
inductive SumLin (c : R) : Tensor R ⊕ List (String × Tensor R) → Tensor R ⊕ List (String × Tensor R) →
    Tensor R ⊕ List (String × Tensor R) → Prop where
  | inl {x y z : Tensor R} : Lin c x y z → SumLin c (.inl x) (.inl y) (.inl z)
  | inr {a b d : List (String × Tensor R)} : Dict3 (Lin c) a b d → SumLin c (.inr a) (.inr b) (.inr d)

theorem lin_idwtnLoop (w : Wavelet R) {a b d : List (String × Tensor R)} (h : Dict3 (Lin c) a b d) :
    ∀ (ks : List String) {a' b' d' : List (String × Tensor R)}, Dict3 (Lin c) a' b' d' →
    Three (SumLin c) (idwtnLoop w a ks a') (idwtnLoop w b ks b') (idwtnLoop w d ks d')
  | [], _, _, _, h' => .ok (.inr h')
  | key :: ks, _, _, _, h' => by
    unfold idwtnLoop
    refine Three.bind (h.get _) fun _ _ _ hd => Three.bind (h.get _) fun _ _ _ ha =>
      Three.bind (lin_sepRec1 w _ ha hd) fun _ _ _ hr => ?_
    exact Three.ite _ (.ok (.inl hr)) (lin_idwtnLoop w h ks (h'.append (.cons ⟨rfl, rfl, hr⟩ .nil)))

theorem lin_sepIdwtn (w : Wavelet R) :
    ∀ (n : Nat) {a b d : List (String × Tensor R)}, Dict3 (Lin c) a b d →
    Three (Lin c) (sepIdwtn w n a) (sepIdwtn w n b) (sepIdwtn w n d)
  | 0, _, _, _, _ => .err _
  | n + 1, a, b, d, h => by
    unfold sepIdwtn
    rw [(Dict3.aKeys h).1, (Dict3.aKeys h).2]
    refine Three.bind Three.pure_eq ?_
    rintro ks _ _ ⟨rfl, rfl⟩
    refine Three.bind (lin_idwtnLoop w h _ .nil) fun _ _ _ h => ?_
    cases h with
    | inl h => exact .ok h
    | inr h => exact lin_sepIdwtn w n h

theorem lin_sepRecLoop (w : Wavelet R) {a b d : List (Entry R)} (hs : Forall₃ (Entry3 (Lin c)) a b d) :
    ∀ {x y z : Tensor R}, Lin c x y z →
    Three (Lin c) (sepRecLoop w x a).1 (sepRecLoop w y b).1 (sepRecLoop w z d).1 ∧
    Forall₃ (Entry3 (Lin c)) (sepRecLoop w x a).2 (sepRecLoop w y b).2 (sepRecLoop w z d).2 := by
  induction hs with
  | nil => exact fun h => ⟨.ok h, .nil⟩
  | cons he hs ih =>
    intro x y z h
    cases he with
    | tensor he => exact ⟨.err _, .cons (.tensor he) hs⟩
    | tuple h1 h2 h3 => exact ⟨.err _, .cons (.tuple h1 h2 h3) hs⟩
    | other => exact ⟨.err _, .cons .other hs⟩
    | @dict kv kv' kv'' hd =>
      unfold sepRecLoop
      rw [(Dict3.maxKeyLen hd).1, (Dict3.maxKeyLen hd).2]
      cases e : maxKeyLen kv with
      | error e => exact ⟨.err _, .cons (.dict hd) hs⟩
      | ok n =>
        simp only
        have hset := Dict3.set hd (aKey n) h
        have hi := lin_sepIdwtn w n hset
        revert hi
        generalize sepIdwtn w n (dictSet kv (aKey n) x) = r1
        generalize sepIdwtn w n (dictSet kv' (aKey n) y) = r2
        generalize sepIdwtn w n (dictSet kv'' (aKey n) z) = r3
        intro hi
        cases hi with
        | err e => exact ⟨.err _, .cons (.dict hset) hs⟩
        | ok hr => exact ⟨(ih hr).1, .cons (.dict hset) (ih hr).2⟩

theorem lin_isDict {e e' e'' : Entry R} (h : Entry3 (Lin c) e e' e'') :
    e'.isDict = e.isDict ∧ e''.isDict = e.isDict := by
  cases h <;> exact ⟨rfl, rfl⟩

theorem lin_sepWaverecn {a b d : Coeffs R} (h : Coeffs3 (Lin c) a b d) (w : Wavelet R) :
    Three (Lin c) (sepWaverecn a w).1 (sepWaverecn b w).1 (sepWaverecn d w).1 ∧
    Coeffs3 (Lin c) (sepWaverecn a w).2 (sepWaverecn b w).2 (sepWaverecn d w).2 := by
  obtain ⟨la, ia⟩ := a
  obtain ⟨lb, ib⟩ := b
  obtain ⟨ld, id'⟩ := d
  obtain ⟨h1, h2, h3⟩ := h
  simp only at h1 h2 h3
  subst h1; subst h2
  unfold sepWaverecn
  simp only
  cases h3 with
  | nil => exact ⟨.err _, rfl, rfl, .nil⟩
  | cons he hs =>
    cases he with
    | tuple h1 h2 h3 => exact ⟨.err _, rfl, rfl, .cons (.tuple h1 h2 h3) hs⟩
    | dict h1 => exact ⟨.err _, rfl, rfl, .cons (.dict h1) hs⟩
    | other => exact ⟨.err _, rfl, rfl, .cons .other hs⟩
    | tensor he =>
      simp only
      obtain ⟨e1, e2⟩ := hs.all (p := Entry.isDict) (q := Entry.isDict) (r := Entry.isDict)
        fun _ _ _ h => lin_isDict h
      rw [e1, e2]
      split_ifs
      · obtain ⟨r1, r2⟩ := lin_sepRecLoop w hs he
        exact ⟨r1, rfl, rfl, .cons (.tensor he) r2⟩
      · exact ⟨.err _, rfl, rfl, .cons (.tensor he) hs⟩

theorem lin_preAliases {a b d : Coeffs R} (h : Coeffs3 (Lin c) a b d) (n : Nat) (axes : AxisHint) :
    preAliases b n axes = preAliases a n axes ∧ preAliases d n axes = preAliases a n axes := by
  unfold preAliases
  have hh := h.headTensor
  revert hh
  generalize headTensor a = ta
  generalize headTensor b = tb
  generalize headTensor d = td
  intro hh
  cases hh with
  | err e => exact ⟨rfl, rfl⟩
  | ok hh =>
    generalize ensureAxes axes n = u
    generalize getDefaultAxes n = v
    cases u <;> cases v <;> simp [hh.rank.1, hh.rank.2]

theorem lin_fswaverecn {a b d : Coeffs R} (h : Coeffs3 (Lin c) a b d) (w : Wavelet R) (n : Nat)
    (axes : AxisHint) :
    Three (Lin c) (fswaverecn a w n axes).1 (fswaverecn b w n axes).1 (fswaverecn d w n axes).1 ∧
    Coeffs3 (Lin c) (fswaverecn a w n axes).2 (fswaverecn b w n axes).2 (fswaverecn d w n axes).2 := by
  unfold fswaverecn
  rw [(lin_preAliases h n axes).1, (lin_preAliases h n axes).2]
  have hp := lin_preprocessCoeffs h n axes false
  revert hp
  generalize preprocessCoeffs a n axes false = pa
  generalize preprocessCoeffs b n axes false = pb
  generalize preprocessCoeffs d n axes false = pd
  intro hp
  cases hp with
  | err e => exact ⟨.err _, h⟩
  | @ok pa pb pd hp =>
    obtain ⟨pa, da⟩ := pa
    obtain ⟨pb, db⟩ := pb
    obtain ⟨pd, dd⟩ := pd
    obtain ⟨hp, h2, h3⟩ := hp
    simp only at hp h2 h3 ⊢
    subst h2; subst h3
    rw [(lin_checkSameDeviceDtype hp).1, (lin_checkSameDeviceDtype hp).2]
    cases checkSameDeviceDtype pa with
    | error e => exact ⟨.err _, h⟩
    | ok md =>
      simp only
      obtain ⟨r1, r2⟩ := lin_sepWaverecn hp w
      refine ⟨Three.bind r1 fun _ _ _ h => h.postprocessTensor _ _ _, ?_⟩
      split_ifs
      · exact r2
      · exact h

end sep

section swt
variable [CommSemiring R] {c : R} {x y z : Tensor R}

theorem Lin.pad (h : Lin c x y z) (m : PadMode) (ps : List Nat) :
    Three (Lin c) (x.pad m ps) (y.pad m ps) (z.pad m ps) := Lin.padLast m ps 1 h

theorem Lin.circularPadLoop (n : Nat) : ∀ (fuel : Nat) {x y z : Tensor R} (ps : List Nat), Lin c x y z →
    Three (Lin c) (circularPadLoop n fuel x ps) (circularPadLoop n fuel y ps) (circularPadLoop n fuel z ps)
  | 0, _, _, _, _, _ => .err _
  | fuel + 1, x, y, z, ps, h => by
    unfold Verif.circularPadLoop
    refine Three.ite _ ?_ (.ok h)
    exact Three.bind (h.pad _ _) fun _ _ _ h => Lin.circularPadLoop n fuel _ h

theorem Lin.circularPad (h : Lin c x y z) (ps : List Nat) :
    Three (Lin c) (circularPad x ps) (circularPad y ps) (circularPad z ps) := by
  unfold Verif.circularPad
  simp only
  rw [(h.sizeFromEnd 1).1, (h.sizeFromEnd 1).2]
  exact Three.ite _ (Lin.circularPadLoop _ _ _ h) (h.pad _ _)

theorem lin_swtLoop (filt : Tensor R) (F : Nat) :
    ∀ (L s : Nat) {x y z : Tensor R}, Lin c x y z →
    Three (fun u v t => Lin c u.1 v.1 t.1 ∧ Forall₃ (Lin c) u.2 v.2 t.2)
      (swtLoop filt F L s x) (swtLoop filt F L s y) (swtLoop filt F L s z)
  | 0, _, _, _, _, h => .ok ⟨h, .nil⟩
  | L + 1, s, x, y, z, h => by
    unfold swtLoop
    refine Three.bind (h.circularPad _) fun _ _ _ h => Three.bind (h.conv1d filt 1 _) fun u v t h => ?_
    have hs := h.split1
    revert hs
    generalize split1 u = su
    generalize split1 v = sv
    generalize split1 t = st
    intro hs
    cases hs with
    | nil => exact .err _
    | cons h1 hs =>
      cases hs with
      | nil => exact .err _
      | cons h2 hs =>
        cases hs with
        | cons _ _ => exact .err _
        | nil =>
          simp only
          exact Three.bind (lin_swtLoop filt F L _ h1) fun _ _ _ h =>
            .ok ⟨h.1, .cons h2.squeeze1 h.2⟩

theorem lin_swt (h : Lin c x y z) (w : Wavelet R) (level : Option Int) (axis : AxisHint) :
    Three (Forall₃ (Lin c)) (swt x w level axis) (swt y w level axis) (swt z w level axis) := by
  unfold swt
  refine Three.bind (h.preprocessTensor 1 axis true) ?_
  rintro ⟨u, du⟩ ⟨v, dv⟩ ⟨t, dt⟩ ⟨h, h2, h3⟩
  simp only at h h2 h3 ⊢
  subst h2; subst h3
  rw [h.md₁, h.md₂, (h.sizeFromEnd 1).1, (h.sizeFromEnd 1).2]
  refine Three.bind Three.pure_eq ?_
  rintro f _ _ ⟨rfl, rfl⟩
  refine Three.bind (lin_swtLoop _ _ _ _ h) fun u v t h => ?_
  refine Three.bind (lin_postprocessCoeffs (Coeffs3.ofList (P := Lin c) ?_) _ _ _) fun _ _ _ h => .ok h.toList
  unfold assemble
  exact (h.2.append (.cons h.1.squeeze1 .nil)).reverse

theorem Lin.convTranspose1dG (h : Lin c x y z) (w : Tensor R) (d p : Nat) :
    Three (Lin c) (convTranspose1dG x w d p) (convTranspose1dG y w d p) (convTranspose1dG z w d p) := by
  refine h.elim (motive := fun x y z => Three (Lin c) (Tensor.convTranspose1dG x w d p)
    (Tensor.convTranspose1dG y w d p) (Tensor.convTranspose1dG z w d p)) ?_
  intro md s f g k hf hg hk e
  unfold Tensor.convTranspose1dG
  simp only
  split
  · refine Three.ite _ (.ok (Lin.ofFn _ _ ?_)) (.err _)
    intro i
    split
    · refine lin_sum' _ _ _ _ fun j => lin_sum' _ _ _ _ fun l => ?_
      exact lin_ite _ _ _ _ _ (e _)
    · simp
  · exact .err _

end swt

section iswt
variable [Field R] {c : R} {x y z : Tensor R}

theorem Lin.mean1 (h : Lin c x y z) : Three (Lin c) (mean1 x) (mean1 y) (mean1 z) := by
  refine h.elim (motive := fun x y z => Three (Lin c) (Tensor.mean1 x)
    (Tensor.mean1 y) (Tensor.mean1 z)) ?_
  intro md s f g k hf hg hk e
  unfold Tensor.mean1
  simp only
  split
  · refine .ok (Lin.ofFn _ _ ?_)
    intro i
    rw [lin_sum' _ (fun j => f (i.headD 0 :: j :: i.tail)) (fun j => g (i.headD 0 :: j :: i.tail)) _
      fun j => e _]
    ring
  · exact .err _

theorem lin_iswtLoop (filt : Tensor R) (F : Nat) {a b d : List (Tensor R)}
    (hs : Forall₃ (Lin c) a b d) : ∀ {x y z : Tensor R}, Lin c x y z →
    Three (Lin c) (iswtLoop filt F x a) (iswtLoop filt F y b) (iswtLoop filt F z d) := by
  induction hs with
  | nil => exact fun h => .ok h
  | cons h1 hs ih =>
    intro x y z h
    unfold iswtLoop
    rw [hs.length.1, hs.length.2]
    exact Three.bind (Lin.stack1 (.cons h (.cons h1 .nil))) fun _ _ _ h =>
      Three.bind (h.circularPad _) fun _ _ _ h => Three.bind (h.convTranspose1dG filt _ _) fun _ _ _ h =>
      Three.bind h.mean1 fun _ _ _ h => ih h

theorem lin_iswt {a b d : List (Tensor R)} (h : Forall₃ (Lin c) a b d) (w : Wavelet R)
    (axis : AxisHint) : Three (Lin c) (iswt a w axis) (iswt b w axis) (iswt d w axis) := by
  unfold iswt
  refine Three.bind (lin_preprocessCoeffs (Coeffs3.ofList h) 1 axis false) ?_
  rintro ⟨u, du⟩ ⟨v, dv⟩ ⟨t, dt⟩ ⟨h, h2, h3⟩
  simp only at h h2 h3 ⊢
  subst h2; subst h3
  rw [(lin_checkSameDeviceDtype h).1, (lin_checkSameDeviceDtype h).2]
  refine Three.bind Three.pure_eq ?_
  rintro md _ _ ⟨rfl, rfl⟩
  refine Three.bind Three.pure_eq ?_
  rintro f _ _ ⟨rfl, rfl⟩
  have hl := h.toList
  revert hl
  generalize u.toList = lu
  generalize v.toList = lv
  generalize t.toList = lt
  intro hl
  cases hl with
  | nil => exact .err _
  | cons h1 hs =>
    exact Three.bind (lin_iswtLoop _ _ hs h1) fun _ _ _ h => h.postprocessTensor _ _ _

end iswt

end Verif.Spec
