import Verif.Lemmas.Rel
import Verif.Model.SepConv
import Verif.Model.Swt

/-! The two- and three-dimensional, separable and stationary transforms respect relations between two
coefficient rings (see `Lemmas/Rel`). -/

namespace Verif.Spec
open Tensor
variable {R S : Type}

/-- Dictionaries related tensor by tensor. -/
abbrev Dict2 [Zero R] [Zero S] (A : Tensor R → Tensor S → Prop) (a : List (String × Tensor R))
    (b : List (String × Tensor S)) : Prop :=
  List.Forall₂ (fun e e' => e'.1 = e.1 ∧ A e.2 e'.2) a b

section dict
variable [Zero R] [Zero S] {A : Tensor R → Tensor S → Prop} {a : List (String × Tensor R)}
  {b : List (String × Tensor S)}

theorem Dict2.get (h : Dict2 A a b) (key : String) : Two A (dictGet a key) (dictGet b key) := by
  unfold dictGet
  induction h with
  | nil => exact .err _
  | @cons x y _ _ h1 _ ih =>
    obtain ⟨kx, x⟩ := x
    obtain ⟨ky, y⟩ := y
    obtain ⟨e1, h1⟩ := h1
    simp only at e1 h1
    subst e1
    by_cases e : ky = key
    · simp only [e, decide_true, List.find?_cons_of_pos]
      exact .ok h1
    · simp only [List.find?_cons, e, decide_false]
      exact ih

theorem Dict2.filterKey (h : Dict2 A a b) (key : String) :
    Dict2 A (a.filter fun p => p.1 ≠ key) (b.filter fun p => p.1 ≠ key) :=
  forall₂_filter h fun _ _ h => by simp [h.1]

theorem Dict2.pop (h : Dict2 A a b) (key : String) :
    Two (fun u v => A u.1 v.1 ∧ Dict2 A u.2 v.2) (dictPop a key) (dictPop b key) := by
  unfold dictPop
  exact Two.bind (h.get key) fun _ _ h1 => .ok ⟨h1, h.filterKey key⟩

theorem Dict2.set (h : Dict2 A a b) (key : String) {x : Tensor R} {y : Tensor S} (hx : A x y) :
    Dict2 A (dictSet a key x) (dictSet b key y) := by
  unfold dictSet
  have e1 := forall₂_any (p := fun p : String × Tensor R => decide (p.1 = key))
    (q := fun p : String × Tensor S => decide (p.1 = key)) h fun _ _ h => by simp [h.1]
  rw [e1]
  split_ifs
  · refine forall₂_map h ?_
    intro p q hp
    obtain ⟨e1, hp⟩ := hp
    simp only [e1]
    split_ifs
    · exact ⟨rfl, hx⟩
    · exact ⟨e1, hp⟩
  · exact forall₂_append h (.cons ⟨rfl, hx⟩ .nil)

theorem Dict2.keys (h : Dict2 A a b) : b.map Prod.fst = a.map Prod.fst :=
  forall₂_map_eq h fun _ _ h => h.1

theorem Dict2.aKeys (h : Dict2 A a b) : aKeys b = aKeys a := by
  unfold Verif.aKeys
  have e1 := forall₂_any (p := fun p : String × Tensor R => decide (p.1 = ""))
    (q := fun p : String × Tensor S => decide (p.1 = "")) h fun _ _ h => by simp [h.1]
  rw [e1, Dict2.keys h]

theorem Dict2.maxKeyLen (h : Dict2 A a b) : maxKeyLen b = maxKeyLen a := by
  unfold Verif.maxKeyLen
  cases h with
  | nil => rfl
  | cons h1 h =>
    have e1 := forall₂_map_eq (f := fun q : String × Tensor R => q.1.length)
      (g := fun q : String × Tensor S => q.1.length) h fun _ _ h => by simp [h.1]
    simp only [e1, h1.1]

end dict

section ring
variable [NonUnitalNonAssocSemiring R] [NonUnitalNonAssocSemiring S] {P : R → S → Prop}
  {x : Tensor R} {y : Tensor S} {w : Wavelet R} {v : Wavelet S} {filt : Tensor R} {filt' : Tensor S}

theorem rel_wavedec2Loop (hc : Closed P) (hw : WRel P w v) (mode : Option String) (hf : TRel P filt filt') :
    ∀ (L : Nat) {x : Tensor R} {y : Tensor S}, TRel P x y →
    Two (fun a b => TRel P a.1 b.1 ∧ List.Forall₂ (Entry2 (TRel P)) a.2 b.2)
      (wavedec2Loop w mode filt L x) (wavedec2Loop v mode filt' L y)
  | 0, _, _, h => .ok ⟨h, .nil⟩
  | L + 1, x, y, h => by
    unfold wavedec2Loop
    refine Two.bind (h.fwtPad hc hw mode 2) fun _ _ h => Two.bind (h.conv2d hc hf 2) fun a b h => ?_
    have hs := h.split1 hc.zero
    revert hs
    generalize split1 a = sa
    generalize split1 b = sb
    intro hs
    cases hs with
    | nil => exact .err _
    | cons h1 hs =>
    cases hs with
    | nil => exact .err _
    | cons h2 hs =>
    cases hs with
    | nil => exact .err _
    | cons h3 hs =>
    cases hs with
    | nil => exact .err _
    | cons h4 hs =>
    cases hs with
    | cons _ _ => exact .err _
    | nil =>
      simp only
      exact Two.bind (rel_wavedec2Loop hc hw mode hf L h1) fun _ _ h =>
        .ok ⟨h.1, .cons (.tuple (h2.squeeze1 hc.zero) (h3.squeeze1 hc.zero) (h4.squeeze1 hc.zero)) h.2⟩

theorem rel_wavedec2 (hc : Closed P) (h : TRel P x y) (hw : WRel P w v)
    (mode : Option String) (level : Option Int) (axes : AxisHint) :
    Two (Coeffs2 (TRel P)) (wavedec2 x w mode level axes) (wavedec2 y v mode level axes) := by
  unfold wavedec2
  refine Two.bind (h.preprocessDeconstruction hc hw 2 axes) ?_
  rintro ⟨x', p, f⟩ ⟨y', _, f'⟩ ⟨h, h2, h3⟩
  simp only at h h2 h3 ⊢
  subst h2
  rw [h.sizeFromEnd, h.sizeFromEnd, hw.len]
  refine Two.bind Two.refl_eq ?_
  rintro L _ rfl
  refine Two.bind (rel_wavedec2Loop hc hw mode h3 _ h) fun a b h => ?_
  exact rel_postprocessCoeffs hc.zero (a := assemble2 a) (b := assemble2 b)
    ⟨rfl, .cons (.tensor (h.1.squeeze1 hc.zero)) (forall₂_reverse h.2)⟩ _ _ _

theorem rel_recPads2 (F : Nat) (h : TRel P x y) {a : List (Entry R)} {b : List (Entry S)}
    (hs : List.Forall₂ (Entry2 (TRel P)) a b) : recPads2 F y b = recPads2 F x a := by
  cases hs with
  | nil => rfl
  | cons h1 _ =>
    refine Two.eq_of ?_
    unfold recPads2
    simp only
    refine Two.bind (α := Tensor R) (β := Tensor S) (P := TRel P) ?_ fun u v h' => ?_
    · cases h1 with
      | tensor h => exact .ok h
      | tuple h _ _ => exact .ok h
      | dict _ => exact .err _
      | other => exact .err _
    rw [h.sizeFromEnd, h.sizeFromEnd, h'.sizeFromEnd, h'.sizeFromEnd]
    exact Two.refl_eq

theorem TRel.crop2 (hc : Closed P) (h : TRel P x y) (p : (Nat × Nat) × (Nat × Nat)) :
    TRel P (crop2 x p) (crop2 y p) := by
  unfold Verif.crop2
  rw [h.rank]
  exact (h.cropAxis hc.zero _ _ _).cropAxis hc.zero _ _ _

theorem rel_waverec2Step (hc : Closed P) (hf : TRel P filt filt') (F : Nat) (h : TRel P x y) {e : Entry R}
    {e' : Entry S} (he : Entry2 (TRel P) e e') {a : List (Entry R)} {b : List (Entry S)}
    (hs : List.Forall₂ (Entry2 (TRel P)) a b) :
    Two (TRel P) (waverec2Step filt F x e a) (waverec2Step filt' F y e' b) := by
  unfold waverec2Step
  cases he with
  | tensor _ => exact .err _
  | dict _ => exact .err _
  | other => exact .err _
  | tuple h1 h2 h3 =>
    simp only [h.shape, h1.shape, h2.shape, h3.shape]
    refine Two.ite _ ?_ (.err _)
    refine Two.bind (TRel.stack1 hc.zero (.cons h (.cons h1 (.cons h2 (.cons h3 .nil))))) fun _ _ h =>
      Two.bind (h.convTranspose2d hc hf 2) fun a b h => ?_
    rw [rel_recPads2 F (h.squeeze1 hc.zero) hs]
    refine Two.bind Two.refl_eq ?_
    rintro p _ rfl
    exact .ok ((h.squeeze1 hc.zero).crop2 hc _)

theorem rel_waverec2Loop (hc : Closed P) (hf : TRel P filt filt') (F : Nat) {a : List (Entry R)}
    {b : List (Entry S)} (hs : List.Forall₂ (Entry2 (TRel P)) a b) :
    ∀ {x : Tensor R} {y : Tensor S}, TRel P x y →
    Two (TRel P) (waverec2Loop filt F x a) (waverec2Loop filt' F y b) := by
  induction hs with
  | nil => exact fun h => .ok h
  | cons h1 hs ih =>
    intro x y h
    unfold waverec2Loop
    exact Two.bind (rel_waverec2Step hc hf F h h1 hs) fun _ _ h => ih h

theorem rel_waverec2 (hc : Closed P) {a : Coeffs R} {b : Coeffs S} (h : Coeffs2 (TRel P) a b) (hw : WRel P w v)
    (axes : AxisHint) : Two (TRel P) (waverec2 a w axes) (waverec2 b v axes) := by
  unfold waverec2
  refine Two.bind (rel_preprocessCoeffs hc.zero h 2 axes false) ?_
  rintro ⟨c, du⟩ ⟨d, dv⟩ ⟨h, h2⟩
  simp only at h h2 ⊢
  subst h2
  rw [rel_checkSameDeviceDtype h]
  refine Two.bind Two.refl_eq ?_
  rintro md _ rfl
  refine Two.bind (rel_construct2dFilt hc (TRel.createTensor hc.zero hw.recLo false _)
    (TRel.createTensor hc.zero hw.recHi false _)) fun f f' hf => ?_
  rw [← hw.recLo.length_eq]
  refine Two.bind h.headTensor fun _ _ h1 => ?_
  exact Two.bind (rel_waverec2Loop hc hf _ (forall₂_tail h.items) h1) fun _ _ h =>
    h.postprocessTensor hc.zero _ _ _

theorem TRel.ensureChannel3 (hc : Closed P) (h : TRel P x y) :
    Two (TRel P) (ensureChannel3 x) (ensureChannel3 y) := by
  unfold Verif.ensureChannel3
  rw [h.rank]
  exact Two.ite _ (h.unsqueeze1 hc.zero) (.ok h)

theorem rel_wavedec3Loop (hc : Closed P) (hw : WRel P w v) (mode : Option String) (hf : TRel P filt filt') :
    ∀ (L : Nat) {x : Tensor R} {y : Tensor S}, TRel P x y →
    Two (fun a b => TRel P a.1 b.1 ∧ List.Forall₂ (Entry2 (TRel P)) a.2 b.2)
      (wavedec3Loop w mode filt L x) (wavedec3Loop v mode filt' L y)
  | 0, _, _, h => .ok ⟨h, .nil⟩
  | L + 1, x, y, h => by
    unfold wavedec3Loop
    refine Two.bind (h.ensureChannel3 hc) fun _ _ h => ?_
    refine Two.bind (h.fwtPad hc hw mode 3) fun _ _ h => Two.bind (h.conv3d hc hf 2) fun a b h => ?_
    have hs : List.Forall₂ (TRel P) ((split1 a).map Tensor.squeeze1) ((split1 b).map Tensor.squeeze1) :=
      forall₂_map (h.split1 hc.zero) fun _ _ h => h.squeeze1 hc.zero
    revert hs
    generalize (split1 a).map Tensor.squeeze1 = sa
    generalize (split1 b).map Tensor.squeeze1 = sb
    intro hs
    cases hs with
    | nil => exact .err _
    | cons h1 hs =>
    cases hs with
    | nil => exact .err _
    | cons h2 hs =>
    cases hs with
    | nil => exact .err _
    | cons h3 hs =>
    cases hs with
    | nil => exact .err _
    | cons h4 hs =>
    cases hs with
    | nil => exact .err _
    | cons h5 hs =>
    cases hs with
    | nil => exact .err _
    | cons h6 hs =>
    cases hs with
    | nil => exact .err _
    | cons h7 hs =>
    cases hs with
    | nil => exact .err _
    | cons h8 hs =>
    cases hs with
    | cons _ _ => exact .err _
    | nil =>
      simp only
      exact Two.bind (rel_wavedec3Loop hc hw mode hf L h1) fun _ _ h =>
        .ok ⟨h.1, .cons (.dict (.cons ⟨rfl, h2⟩ (.cons ⟨rfl, h3⟩ (.cons ⟨rfl, h4⟩
          (.cons ⟨rfl, h5⟩ (.cons ⟨rfl, h6⟩ (.cons ⟨rfl, h7⟩ (.cons ⟨rfl, h8⟩ .nil)))))))) h.2⟩

theorem rel_wavedec3 (hc : Closed P) (h : TRel P x y) (hw : WRel P w v)
    (mode : Option String) (level : Option Int) (axes : AxisHint) :
    Two (Coeffs2 (TRel P)) (wavedec3 x w mode level axes) (wavedec3 y v mode level axes) := by
  unfold wavedec3
  refine Two.bind (h.preprocessDeconstruction hc hw 3 axes) ?_
  rintro ⟨x', p, f⟩ ⟨y', _, f'⟩ ⟨h, h2, h3⟩
  simp only at h h2 h3 ⊢
  subst h2
  rw [h.sizeFromEnd, h.sizeFromEnd, h.sizeFromEnd, hw.len]
  refine Two.bind Two.refl_eq ?_
  rintro L _ rfl
  refine Two.bind (rel_wavedec3Loop hc hw mode h3 _ h) fun a b h => ?_
  exact rel_postprocessCoeffs hc.zero (a := ⟨false, .tensor a.1 :: a.2.reverse⟩)
    (b := ⟨false, .tensor b.1 :: b.2.reverse⟩)
    ⟨rfl, .cons (.tensor h.1) (forall₂_reverse h.2)⟩ _ _ _

theorem rel_recPads3 (F : Nat) (h : TRel P x y) {a : List (Entry R)} {b : List (Entry S)}
    (hs : List.Forall₂ (Entry2 (TRel P)) a b) : recPads3 F y b = recPads3 F x a := by
  cases hs with
  | nil => rfl
  | cons h1 _ =>
    refine Two.eq_of ?_
    unfold recPads3
    simp only
    refine Two.bind (α := Tensor R) (β := Tensor S) (P := TRel P) ?_ fun u v h' => ?_
    · cases h1 with
      | tensor h => exact .err _
      | tuple h _ _ => exact .err _
      | dict h => exact Dict2.get h _
      | other => exact .err _
    simp only [h.sizeFromEnd, h'.sizeFromEnd]
    exact Two.refl_eq

theorem TRel.crop3 (hc : Closed P) (h : TRel P x y) (p : (Nat × Nat) × (Nat × Nat) × (Nat × Nat)) :
    TRel P (crop3 x p) (crop3 y p) := by
  unfold Verif.crop3
  rw [h.rank]
  exact ((h.cropAxis hc.zero _ _ _).cropAxis hc.zero _ _ _).cropAxis hc.zero _ _ _

theorem rel_bands3 (h : TRel P x y) {a : List (String × Tensor R)} {b : List (String × Tensor S)}
    (hd : Dict2 (TRel P) a b) : Two (List.Forall₂ (TRel P)) (bands3 x a) (bands3 y b) := by
  unfold bands3
  exact Two.bind (hd.get _) fun _ _ h1 => Two.bind (hd.get _) fun _ _ h2 =>
    Two.bind (hd.get _) fun _ _ h3 => Two.bind (hd.get _) fun _ _ h4 =>
    Two.bind (hd.get _) fun _ _ h5 => Two.bind (hd.get _) fun _ _ h6 =>
    Two.bind (hd.get _) fun _ _ h7 =>
    .ok (.cons h (.cons h1 (.cons h2 (.cons h3 (.cons h4 (.cons h5 (.cons h6 (.cons h7 .nil))))))))

theorem Dict2.shapes {a : List (String × Tensor R)} {b : List (String × Tensor S)}
    (hd : Dict2 (TRel P) a b) (s : List Nat) :
    (∀ p ∈ b, p.2.shape = s) ↔ ∀ p ∈ a, p.2.shape = s := by
  induction hd with
  | nil => simp
  | cons h1 _ ih => simp only [List.forall_mem_cons, ih, h1.2.shape]

theorem rel_waverec3Step (hc : Closed P) (hf : TRel P filt filt') (F : Nat) (h : TRel P x y) {e : Entry R}
    {e' : Entry S} (he : Entry2 (TRel P) e e') {a : List (Entry R)} {b : List (Entry S)}
    (hs : List.Forall₂ (Entry2 (TRel P)) a b) :
    Two (TRel P) (waverec3Step filt F x e a) (waverec3Step filt' F y e' b) := by
  unfold waverec3Step
  cases he with
  | tensor _ => exact .err _
  | tuple _ _ _ => exact .err _
  | other => exact .err _
  | dict hd =>
    simp only [h.shape, Dict2.shapes hd x.shape, ← hd.length_eq]
    refine Two.ite _ ?_ (.err _)
    refine Two.bind (rel_bands3 h hd) fun _ _ h => Two.bind (TRel.stack1 hc.zero h) fun _ _ h =>
      Two.bind (h.convTranspose3d hc hf 2) fun u v h => ?_
    rw [rel_recPads3 F (h.squeeze1 hc.zero) hs]
    refine Two.bind Two.refl_eq ?_
    rintro p _ rfl
    exact .ok ((h.squeeze1 hc.zero).crop3 hc _)

theorem rel_waverec3Loop (hc : Closed P) (hf : TRel P filt filt') (F : Nat) {a : List (Entry R)}
    {b : List (Entry S)} (hs : List.Forall₂ (Entry2 (TRel P)) a b) :
    ∀ {x : Tensor R} {y : Tensor S}, TRel P x y →
    Two (TRel P) (waverec3Loop filt F x a) (waverec3Loop filt' F y b) := by
  induction hs with
  | nil => exact fun h => .ok h
  | cons h1 hs ih =>
    intro x y h
    unfold waverec3Loop
    exact Two.bind (rel_waverec3Step hc hf F h h1 hs) fun _ _ h => ih h

theorem rel_waverec3 (hc : Closed P) {a : Coeffs R} {b : Coeffs S} (h : Coeffs2 (TRel P) a b) (hw : WRel P w v)
    (axes : AxisHint) : Two (TRel P) (waverec3 a w axes) (waverec3 b v axes) := by
  unfold waverec3
  refine Two.bind (rel_preprocessCoeffs hc.zero h 3 axes false) ?_
  rintro ⟨c, du⟩ ⟨d, dv⟩ ⟨h, h2⟩
  simp only at h h2 ⊢
  subst h2
  rw [rel_checkSameDeviceDtype h]
  refine Two.bind Two.refl_eq ?_
  rintro md _ rfl
  refine Two.bind (rel_construct3dFilt hc (TRel.createTensor hc.zero hw.recLo false _)
    (TRel.createTensor hc.zero hw.recHi false _)) fun f f' hf => ?_
  rw [← hw.recLo.length_eq]
  refine Two.bind h.headTensor fun _ _ h1 => ?_
  exact Two.bind (rel_waverec3Loop hc hf _ (forall₂_tail h.items) h1) fun _ _ h =>
    h.postprocessTensor hc.zero _ _ _

/-! ### Separable transforms -/

theorem rel_sepDwtn (hc : Closed P) (hw : WRel P w v) (mode : Option String) :
    ∀ (n : Nat) (key : String) {x : Tensor R} {y : Tensor S}, TRel P x y →
    Two (Dict2 (TRel P)) (sepDwtn w mode n key x) (sepDwtn v mode n key y)
  | 0, key, _, _, h => .ok (.cons ⟨rfl, h⟩ .nil)
  | n + 1, key, x, y, h => by
    unfold sepDwtn
    refine Two.bind (rel_wavedec hc h hw mode _ _) fun _ _ hs => ?_
    cases hs with
    | nil => exact .err _
    | cons h1 hs =>
    cases hs with
    | nil => exact .err _
    | cons h2 hs =>
    cases hs with
    | cons _ _ => exact .err _
    | nil =>
      simp only
      exact Two.bind (rel_sepDwtn hc hw mode n _ h1) fun _ _ ha =>
        Two.bind (rel_sepDwtn hc hw mode n _ h2) fun _ _ hd => .ok (forall₂_append ha hd)

theorem rel_sepStep (hc : Closed P) (hw : WRel P w v) (mode : Option String) (n : Nat) (h : TRel P x y) :
    Two (fun a b => TRel P a.1 b.1 ∧ Entry2 (TRel P) a.2 b.2) (sepStep w mode n x) (sepStep v mode n y) := by
  unfold sepStep
  rw [h.rank]
  exact Two.bind (rel_sepDwtn hc hw mode _ _ h) fun _ _ h => Two.bind (Dict2.pop h _) fun _ _ h =>
    .ok ⟨h.1, .dict h.2⟩

theorem rel_sepDecLoop (hc : Closed P) (hw : WRel P w v) (mode : Option String) (n : Nat) :
    ∀ (L : Nat) {x : Tensor R} {y : Tensor S}, TRel P x y →
    Two (fun a b => TRel P a.1 b.1 ∧ List.Forall₂ (Entry2 (TRel P)) a.2 b.2)
      (sepDecLoop w mode n L x) (sepDecLoop v mode n L y)
  | 0, _, _, h => .ok ⟨h, .nil⟩
  | L + 1, x, y, h => by
    unfold sepDecLoop
    exact Two.bind (rel_sepStep hc hw mode n h) fun _ _ h1 =>
      Two.bind (rel_sepDecLoop hc hw mode n L h1.1) fun _ _ h => .ok ⟨h.1, .cons h1.2 h.2⟩

theorem rel_sepWavedecn (hc : Closed P) (h : TRel P x y) (hw : WRel P w v) (mode : Option String)
    (level : Option Int) : Two (Coeffs2 (TRel P)) (sepWavedecn x w mode level) (sepWavedecn y v mode level) := by
  unfold sepWavedecn
  rw [h.rank, h.shape, hw.len]
  refine Two.bind Two.refl_eq ?_
  rintro L _ rfl
  exact Two.bind (rel_sepDecLoop hc hw mode _ _ h) fun _ _ h =>
    .ok ⟨rfl, .cons (.tensor h.1) (forall₂_reverse h.2)⟩

theorem rel_fswavedecn (hc : Closed P) (h : TRel P x y) (hw : WRel P w v) (n : Nat) (mode : Option String)
    (level : Option Int) (axes : AxisHint) :
    Two (Coeffs2 (TRel P)) (fswavedecn x w n mode level axes) (fswavedecn y v n mode level axes) := by
  have key : ∀ axes : AxisHint, Two (Coeffs2 (TRel P))
      (preprocessTensor x n axes false >>= fun p => sepWavedecn p.1 w mode level >>= fun q =>
        postprocessCoeffs q n p.2 axes)
      (preprocessTensor y n axes false >>= fun p => sepWavedecn p.1 v mode level >>= fun q =>
        postprocessCoeffs q n p.2 axes) := by
    intro axes
    refine Two.bind (h.preprocessTensor hc.zero n axes false) ?_
    rintro ⟨a, du⟩ ⟨b, dv⟩ ⟨h, h2⟩
    simp only at h h2 ⊢
    subst h2
    exact Two.bind (rel_sepWavedecn hc h hw mode level) fun _ _ h => rel_postprocessCoeffs hc.zero h _ _ _
  unfold fswavedecn
  exact key _

theorem TRel.cropTo (hc : Closed P) (h : TRel P x y) (ds : List Nat) :
    Two (TRel P) (cropTo x ds) (cropTo y ds) := by
  unfold Verif.cropTo
  rw [h.rank, h.shape, h.md]
  exact Two.ite _ (.err _) (.ok (TRel.ofFn hc.zero _ _ h.get))

theorem TRel.transposeLast (hc : Closed P) (h : TRel P x y) (k : Nat) :
    Two (TRel P) (transposeLast x k) (transposeLast y k) := by
  unfold Verif.transposeLast
  rw [h.rank]
  exact Two.ite _ (.ok (h.transpose hc.zero _ _)) (.err _)

theorem TRel.flatLast (hc : Closed P) (h : TRel P x y) : Two (TRel P) (flatLast x) (flatLast y) := by
  unfold Verif.flatLast
  rw [h.shape]
  exact Two.ite _ (.err _) (h.reshape hc.zero _)

theorem rel_sepRec1 (hc : Closed P) (hw : WRel P w v) (k : Nat) (h : TRel P x y) {x' : Tensor R}
    {y' : Tensor S} (h' : TRel P x' y') : Two (TRel P) (sepRec1 w k x x') (sepRec1 v k y y') := by
  unfold sepRec1
  rw [h'.shape]
  refine Two.bind (h.cropTo hc _) fun _ _ h => Two.bind (h.transposeLast hc k) fun a b ha =>
    Two.bind (h'.transposeLast hc k) fun _ _ hd => Two.bind (ha.flatLast hc) fun _ _ h1 =>
    Two.bind (hd.flatLast hc) fun _ _ h2 =>
    Two.bind (rel_waverec hc (.cons h1 (.cons h2 .nil)) hw .none) fun _ _ h => ?_
  rw [ha.shape, h.shape]
  exact Two.bind (h.reshape hc.zero _) fun _ _ h => h.transposeLast hc k

/-- The two outcomes of the loop of the separable synthesis, related. -/
inductive SumRel (P : R → S → Prop) : Tensor R ⊕ List (String × Tensor R) →
    Tensor S ⊕ List (String × Tensor S) → Prop where
  | inl {x : Tensor R} {y : Tensor S} : TRel P x y → SumRel P (.inl x) (.inl y)
  | inr {a : List (String × Tensor R)} {b : List (String × Tensor S)} : Dict2 (TRel P) a b →
      SumRel P (.inr a) (.inr b)

theorem rel_idwtnLoop (hc : Closed P) (hw : WRel P w v) {a : List (String × Tensor R)}
    {b : List (String × Tensor S)} (h : Dict2 (TRel P) a b) :
    ∀ (ks : List String) {a' : List (String × Tensor R)} {b' : List (String × Tensor S)},
    Dict2 (TRel P) a' b' → Two (SumRel P) (idwtnLoop w a ks a') (idwtnLoop v b ks b')
  | [], _, _, h' => .ok (.inr h')
  | key :: ks, _, _, h' => by
    unfold idwtnLoop
    refine Two.bind (h.get _) fun _ _ hd => Two.bind (h.get _) fun _ _ ha =>
      Two.bind (rel_sepRec1 hc hw _ ha hd) fun _ _ hr => ?_
    exact Two.ite _ (.ok (.inl hr)) (rel_idwtnLoop hc hw h ks (forall₂_append h' (.cons ⟨rfl, hr⟩ .nil)))

theorem rel_sepIdwtn (hc : Closed P) (hw : WRel P w v) :
    ∀ (n : Nat) {a : List (String × Tensor R)} {b : List (String × Tensor S)}, Dict2 (TRel P) a b →
    Two (TRel P) (sepIdwtn w n a) (sepIdwtn v n b)
  | 0, _, _, _ => .err _
  | n + 1, a, b, h => by
    unfold sepIdwtn
    rw [Dict2.aKeys h]
    refine Two.bind Two.refl_eq ?_
    rintro ks _ rfl
    refine Two.bind (rel_idwtnLoop hc hw h _ .nil) fun _ _ h => ?_
    cases h with
    | inl h => exact .ok h
    | inr h => exact rel_sepIdwtn hc hw n h

theorem rel_sepRecLoop (hc : Closed P) (hw : WRel P w v) {a : List (Entry R)} {b : List (Entry S)}
    (hs : List.Forall₂ (Entry2 (TRel P)) a b) :
    ∀ {x : Tensor R} {y : Tensor S}, TRel P x y →
    Two (TRel P) (sepRecLoop w x a).1 (sepRecLoop v y b).1 ∧
    List.Forall₂ (Entry2 (TRel P)) (sepRecLoop w x a).2 (sepRecLoop v y b).2 := by
  induction hs with
  | nil => exact fun h => ⟨.ok h, .nil⟩
  | cons he hs ih =>
    intro x y h
    cases he with
    | tensor he => exact ⟨.err _, .cons (.tensor he) hs⟩
    | tuple h1 h2 h3 => exact ⟨.err _, .cons (.tuple h1 h2 h3) hs⟩
    | other => exact ⟨.err _, .cons .other hs⟩
    | @dict kv kv' hd =>
      unfold sepRecLoop
      rw [Dict2.maxKeyLen hd]
      cases e : maxKeyLen kv with
      | error e => exact ⟨.err _, .cons (.dict hd) hs⟩
      | ok n =>
        simp only
        have hset := Dict2.set hd (aKey n) h
        have hi := rel_sepIdwtn hc hw n hset
        revert hi
        generalize sepIdwtn w n (dictSet kv (aKey n) x) = r1
        generalize sepIdwtn v n (dictSet kv' (aKey n) y) = r2
        intro hi
        cases hi with
        | err e => exact ⟨.err _, .cons (.dict hset) hs⟩
        | ok hr => exact ⟨(ih hr).1, .cons (.dict hset) (ih hr).2⟩

theorem rel_isDict {e : Entry R} {e' : Entry S} (h : Entry2 (TRel P) e e') : e'.isDict = e.isDict := by
  cases h <;> rfl

theorem rel_sepWaverecn (hc : Closed P) (hw : WRel P w v) {a : Coeffs R} {b : Coeffs S}
    (h : Coeffs2 (TRel P) a b) :
    Two (TRel P) (sepWaverecn a w).1 (sepWaverecn b v).1 ∧
    Coeffs2 (TRel P) (sepWaverecn a w).2 (sepWaverecn b v).2 := by
  obtain ⟨la, ia⟩ := a
  obtain ⟨lb, ib⟩ := b
  obtain ⟨h1, h3⟩ := h
  simp only at h1 h3
  subst h1
  unfold sepWaverecn
  simp only
  cases h3 with
  | nil => exact ⟨.err _, rfl, .nil⟩
  | cons he hs =>
    cases he with
    | tuple h1 h2 h3 => exact ⟨.err _, rfl, .cons (.tuple h1 h2 h3) hs⟩
    | dict h1 => exact ⟨.err _, rfl, .cons (.dict h1) hs⟩
    | other => exact ⟨.err _, rfl, .cons .other hs⟩
    | tensor he =>
      simp only
      rw [forall₂_all (p := Entry.isDict) (q := Entry.isDict) hs fun _ _ h => rel_isDict h]
      split_ifs
      · obtain ⟨r1, r2⟩ := rel_sepRecLoop hc hw hs he
        exact ⟨r1, rfl, .cons (.tensor he) r2⟩
      · exact ⟨.err _, rfl, .cons (.tensor he) hs⟩

theorem rel_preAliases {a : Coeffs R} {b : Coeffs S} (h : Coeffs2 (TRel P) a b) (n : Nat) (axes : AxisHint) :
    preAliases b n axes = preAliases a n axes := by
  unfold preAliases
  have hh := h.headTensor
  revert hh
  generalize headTensor a = ta
  generalize headTensor b = tb
  intro hh
  cases hh with
  | err e =>
    generalize ensureAxes axes n = u
    generalize getDefaultAxes n = v
    cases u <;> cases v <;> rfl
  | ok hh =>
    generalize ensureAxes axes n = u
    generalize getDefaultAxes n = v
    cases u <;> cases v <;> simp [hh.rank]

theorem rel_fswaverecn (hc : Closed P) {a : Coeffs R} {b : Coeffs S} (h : Coeffs2 (TRel P) a b) (hw : WRel P w v)
    (n : Nat) (axes : AxisHint) :
    Two (TRel P) (fswaverecn a w n axes).1 (fswaverecn b v n axes).1 ∧
    Coeffs2 (TRel P) (fswaverecn a w n axes).2 (fswaverecn b v n axes).2 := by
  unfold fswaverecn
  rw [rel_preAliases h n axes]
  have hp := rel_preprocessCoeffs hc.zero h n axes false
  revert hp
  generalize preprocessCoeffs a n axes false = pa
  generalize preprocessCoeffs b n axes false = pb
  intro hp
  cases hp with
  | err e => exact ⟨.err _, h⟩
  | @ok pa pb hp =>
    obtain ⟨pa, da⟩ := pa
    obtain ⟨pb, db⟩ := pb
    obtain ⟨hp, h2⟩ := hp
    simp only at hp h2 ⊢
    subst h2
    rw [rel_checkSameDeviceDtype hp]
    cases checkSameDeviceDtype pa with
    | error e => exact ⟨.err _, h⟩
    | ok md =>
      simp only
      obtain ⟨r1, r2⟩ := rel_sepWaverecn hc hw hp
      refine ⟨Two.bind r1 fun _ _ h => h.postprocessTensor hc.zero _ _ _, ?_⟩
      split_ifs
      · exact r2
      · exact h

/-! ### The stationary transform -/

theorem TRel.pad (hc : Closed P) (h : TRel P x y) (m : PadMode) (ps : List Nat) :
    Two (TRel P) (x.pad m ps) (y.pad m ps) := TRel.padLast hc m ps 1 h

theorem TRel.circularPadLoop (hc : Closed P) (n : Nat) : ∀ (fuel : Nat) {x : Tensor R} {y : Tensor S}
    (ps : List Nat), TRel P x y → Two (TRel P) (circularPadLoop n fuel x ps) (circularPadLoop n fuel y ps)
  | 0, _, _, _, _ => .err _
  | fuel + 1, x, y, ps, h => by
    unfold Verif.circularPadLoop
    refine Two.ite _ ?_ (.ok h)
    exact Two.bind (h.pad hc _ _) fun _ _ h => TRel.circularPadLoop hc n fuel _ h

theorem TRel.circularPad (hc : Closed P) (h : TRel P x y) (ps : List Nat) :
    Two (TRel P) (circularPad x ps) (circularPad y ps) := by
  unfold Verif.circularPad
  simp only
  rw [h.sizeFromEnd]
  exact Two.ite _ (TRel.circularPadLoop hc _ _ _ h) (h.pad hc _ _)

theorem rel_swtLoop (hc : Closed P) (hf : TRel P filt filt') (F : Nat) :
    ∀ (L s : Nat) {x : Tensor R} {y : Tensor S}, TRel P x y →
    Two (fun a b => TRel P a.1 b.1 ∧ List.Forall₂ (TRel P) a.2 b.2)
      (swtLoop filt F L s x) (swtLoop filt' F L s y)
  | 0, _, _, _, h => .ok ⟨h, .nil⟩
  | L + 1, s, x, y, h => by
    unfold swtLoop
    refine Two.bind (h.circularPad hc _) fun _ _ h => Two.bind (h.conv1d hc hf 1 _) fun a b h => ?_
    have hs := h.split1 hc.zero
    revert hs
    generalize split1 a = sa
    generalize split1 b = sb
    intro hs
    cases hs with
    | nil => exact .err _
    | cons h1 hs =>
      cases hs with
      | nil => exact .err _
      | cons h2 hs =>
        cases hs with
        | cons _ _ => exact .err _
        | nil =>
          simp only
          exact Two.bind (rel_swtLoop hc hf F L _ h1) fun _ _ h =>
            .ok ⟨h.1, .cons (h2.squeeze1 hc.zero) h.2⟩

theorem rel_swt (hc : Closed P) (h : TRel P x y) (hw : WRel P w v) (level : Option Int) (axis : AxisHint) :
    Two (List.Forall₂ (TRel P)) (swt x w level axis) (swt y v level axis) := by
  unfold swt
  refine Two.bind (h.preprocessTensor hc.zero 1 axis true) ?_
  rintro ⟨a, du⟩ ⟨b, dv⟩ ⟨h, h2⟩
  simp only at h h2 ⊢
  subst h2
  rw [h.md, h.sizeFromEnd, ← hw.decLo.length_eq]
  refine Two.bind (TRel.stack0 hc.zero (.cons (TRel.createTensor hc.zero hw.decLo true _)
    (.cons (TRel.createTensor hc.zero hw.decHi true _) .nil))) fun f f' hf => ?_
  refine Two.bind (rel_swtLoop hc hf _ _ _ h) fun a b h => ?_
  exact Two.bind (rel_postprocessCoeffs hc.zero (Coeffs2.ofList (rel_assemble hc.zero h)) _ _ _)
    fun _ _ h => .ok h.toList

theorem TRel.convTranspose1dG (hc : Closed P) (h : TRel P x y) (hf : TRel P filt filt') (d p : Nat) :
    Two (TRel P) (convTranspose1dG x filt d p) (convTranspose1dG y filt' d p) := by
  unfold Tensor.convTranspose1dG
  rw [h.shape, hf.shape, h.md, hf.md]
  split
  · refine Two.ite _ (.ok (TRel.ofFn hc.zero _ _ ?_)) (.err _)
    intro i
    split
    · exact hc.sum _ fun j => hc.sum _ fun l => hc.ite _ (hc.mul (hf.get _) (h.get _))
    · exact hc.zero
  · exact .err _

end ring

section iswt
variable [Semiring R] [Div R] [Semiring S] [Div S] {P : R → S → Prop}
  {x : Tensor R} {y : Tensor S} {w : Wavelet R} {v : Wavelet S} {filt : Tensor R} {filt' : Tensor S}

theorem TRel.mean1 (hc : Closed P) (hd : ∀ {a b} (n : Nat), P a b → P (a / (n : R)) (b / (n : S)))
    (h : TRel P x y) : Two (TRel P) (mean1 x) (mean1 y) := by
  unfold Tensor.mean1
  rw [h.shape, h.md]
  split
  · exact .ok (TRel.ofFn hc.zero _ _ fun i => hd _ (hc.sum _ fun j => h.get _))
  · exact .err _

theorem rel_iswtLoop (hc : Closed P) (hd : ∀ {a b} (n : Nat), P a b → P (a / (n : R)) (b / (n : S)))
    (hf : TRel P filt filt') (F : Nat) {a : List (Tensor R)} {b : List (Tensor S)}
    (hs : List.Forall₂ (TRel P) a b) : ∀ {x : Tensor R} {y : Tensor S}, TRel P x y →
    Two (TRel P) (iswtLoop filt F x a) (iswtLoop filt' F y b) := by
  induction hs with
  | nil => exact fun h => .ok h
  | cons h1 hs ih =>
    intro x y h
    unfold iswtLoop
    rw [← hs.length_eq]
    exact Two.bind (TRel.stack1 hc.zero (.cons h (.cons h1 .nil))) fun _ _ h =>
      Two.bind (h.circularPad hc _) fun _ _ h => Two.bind (h.convTranspose1dG hc hf _ _) fun _ _ h =>
      Two.bind (h.mean1 hc hd) fun _ _ h => ih h

theorem rel_iswt (hc : Closed P) (hd : ∀ {a b} (n : Nat), P a b → P (a / (n : R)) (b / (n : S)))
    {a : List (Tensor R)} {b : List (Tensor S)} (h : List.Forall₂ (TRel P) a b) (hw : WRel P w v)
    (axis : AxisHint) : Two (TRel P) (iswt a w axis) (iswt b v axis) := by
  unfold iswt
  refine Two.bind (rel_preprocessCoeffs hc.zero (Coeffs2.ofList h) 1 axis false) ?_
  rintro ⟨c, du⟩ ⟨d, dv⟩ ⟨h, h2⟩
  simp only at h h2 ⊢
  subst h2
  rw [rel_checkSameDeviceDtype h]
  refine Two.bind Two.refl_eq ?_
  rintro md _ rfl
  refine Two.bind (rel_recFilt hc hw _) fun f f' hf => ?_
  rw [← hw.recLo.length_eq]
  have hl := h.toList
  revert hl
  generalize c.toList = lu
  generalize d.toList = lv
  intro hl
  cases hl with
  | nil => exact .err _
  | cons h1 hs =>
    exact Two.bind (rel_iswtLoop hc hd hf _ hs h1) fun _ _ h => h.postprocessTensor hc.zero _ _ _

end iswt

end Verif.Spec
