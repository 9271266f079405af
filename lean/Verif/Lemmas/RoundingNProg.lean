import Verif.Lemmas.RoundingN
import Verif.Lemmas.Prepost2

/-! The transforms over two and three axes in floating point arithmetic. -/

namespace Verif
open Tensor Spec
variable {R : Type}

theorem stack0_shape [Zero R] {a : Tensor R} {l : List (Tensor R)} {t : Tensor R} (e : stack0 (a :: l) = .ok t) :
    t.shape = (l.length + 1) :: a.shape := by
  unfold stack0 at e
  simp only at e
  split_ifs at e
  cases e
  rfl

theorem unsqueezeFilt_shape [Zero R] {a : Tensor R} {l : List (Tensor R)} {t : Tensor R}
    (e : unsqueezeFilt (stack0 (a :: l)) = .ok t) : t.shape = (l.length + 1) :: 1 :: a.shape := by
  unfold unsqueezeFilt at e
  cases h : stack0 (a :: l) with
  | error _ => rw [h] at e; cases e
  | ok s =>
    rw [h] at e
    change s.unsqueeze1 = .ok t at e
    rw [unsqueeze1_ok (stack0_shape h)] at e
    cases e
    exact withChannel_shape (stack0_shape h)

theorem two_and {α β : Type} {P : α → β → Prop} {Q : α → Prop} {x : Except Err α} {y : Except Err β} (h : Two P x y)
    (hq : ∀ a, x = .ok a → Q a) : Two (fun a b => P a b ∧ Q a) x y := by
  cases h with
  | err e => exact .err e
  | ok h => exact .ok ⟨h, hq _ rfl⟩

theorem reshape_shape_ok [Zero R] {t : Tensor R} {s : List Nat} {r : Tensor R} (h : t.reshape s = .ok r) :
    r.shape = s := by
  unfold Tensor.reshape at h
  split_ifs at h
  cases h
  rfl

theorem outerF_shape [Zero R] (K : KernelsN R) (a b : Tensor R) :
    (outerF K a b).shape = [prodL a.shape, prodL b.shape] := rfl

/-! ### Exact routines -/

section exact
variable [NonUnitalNonAssocSemiring R]

theorem createTensorFN_exact (f : List R) (flip : Bool) (md : Meta) :
    createTensorFN (exactKernelsN R) f flip md = createTensor f flip md := by
  unfold createTensorFN
  rw [show f.map ((exactKernelsN R).tap md.dtype) = f from List.map_id' f]

theorem construct2dFiltF_exact (a b : Tensor R) : construct2dFiltF (exactKernelsN R) a b = construct2dFilt a b := rfl
theorem construct3dFiltF_exact (a b : Tensor R) : construct3dFiltF (exactKernelsN R) a b = construct3dFilt a b := rfl

theorem conv_exact2 (x w : Tensor R) (s : Nat) : (exactKernelsN R).conv 2 x w s = x.conv2d w s := rfl
theorem conv_exact3 (x w : Tensor R) (s : Nat) : (exactKernelsN R).conv 3 x w s = x.conv3d w s := rfl
theorem convT_exact2 (x w : Tensor R) (s : Nat) : (exactKernelsN R).convTranspose 2 x w s = x.convTranspose2d w s := rfl
theorem convT_exact3 (x w : Tensor R) (s : Nat) : (exactKernelsN R).convTranspose 3 x w s = x.convTranspose3d w s := rfl

theorem wavedec2LoopF_exact (w : Wavelet R) (mode : Option String) (filt : Tensor R) :
    ∀ (L : Nat) (x : Tensor R), wavedec2LoopF (exactKernelsN R) w mode filt L x = wavedec2Loop w mode filt L x
  | 0, _ => rfl
  | L + 1, x => by
    unfold wavedec2LoopF wavedec2Loop
    simp only [wavedec2LoopF_exact w mode filt L, conv_exact2]
    rfl

theorem wavedec3LoopF_exact (w : Wavelet R) (mode : Option String) (filt : Tensor R) :
    ∀ (L : Nat) (x : Tensor R), wavedec3LoopF (exactKernelsN R) w mode filt L x = wavedec3Loop w mode filt L x
  | 0, _ => rfl
  | L + 1, x => by
    unfold wavedec3LoopF wavedec3Loop
    simp only [wavedec3LoopF_exact w mode filt L, conv_exact3]
    rfl

theorem wavedec2F_exact (x : Tensor R) (w : Wavelet R) (mode : Option String) (level : Option Int) (axes : AxisHint) :
    wavedec2F (exactKernelsN R) x w mode level axes = wavedec2 x w mode level axes := by
  unfold wavedec2F wavedec2 preprocessDeconstruction constructNdFilt
  simp only [wavedec2LoopF_exact, createTensorFN_exact, construct2dFiltF_exact]
  rw [bind_assoc]
  refine bind_congr fun p => ?_
  rw [bind_assoc]
  rw [if_neg (by decide), if_pos trivial]
  rfl

theorem wavedec3F_exact (x : Tensor R) (w : Wavelet R) (mode : Option String) (level : Option Int) (axes : AxisHint) :
    wavedec3F (exactKernelsN R) x w mode level axes = wavedec3 x w mode level axes := by
  unfold wavedec3F wavedec3 preprocessDeconstruction constructNdFilt
  simp only [wavedec3LoopF_exact, createTensorFN_exact, construct3dFiltF_exact]
  rw [bind_assoc]
  refine bind_congr fun p => ?_
  rw [bind_assoc]
  rw [if_neg (by decide), if_neg (by decide), if_pos trivial]
  rfl

theorem waverec2LoopF_exact (filt : Tensor R) (F : Nat) :
    ∀ (hs : List (Entry R)) (x : Tensor R), waverec2LoopF (exactKernelsN R) filt F x hs = waverec2Loop filt F x hs
  | [], _ => rfl
  | h :: hs, x => by
    unfold waverec2LoopF waverec2Loop
    simp only [waverec2LoopF_exact filt F hs]
    rfl

theorem waverec3LoopF_exact (filt : Tensor R) (F : Nat) :
    ∀ (hs : List (Entry R)) (x : Tensor R), waverec3LoopF (exactKernelsN R) filt F x hs = waverec3Loop filt F x hs
  | [], _ => rfl
  | h :: hs, x => by
    unfold waverec3LoopF waverec3Loop
    simp only [waverec3LoopF_exact filt F hs]
    rfl

theorem waverec2F_exact (c : Coeffs R) (w : Wavelet R) (axes : AxisHint) :
    waverec2F (exactKernelsN R) c w axes = waverec2 c w axes := by
  unfold waverec2F waverec2
  simp only [waverec2LoopF_exact, createTensorFN_exact, construct2dFiltF_exact]

theorem waverec3F_exact (c : Coeffs R) (w : Wavelet R) (axes : AxisHint) :
    waverec3F (exactKernelsN R) c w axes = waverec3 c w axes := by
  unfold waverec3F waverec3
  simp only [waverec3LoopF_exact, createTensorFN_exact, construct3dFiltF_exact]

end exact

variable [Field R] [LinearOrder R] [IsStrictOrderedRing R]

theorem construct2dFiltF_rel {u g : R} {K : KernelsN R} (hK : FloatKernelsN u K) (f h : List R) (flip : Bool) (md : Meta) :
    Two (fun a b => TRel (Tap3 ((1 + u) ^ 3) (g ^ 2)) a b ∧ a.shape = [4, 1, f.length, f.length])
      (construct2dFiltF K (createTensorFN K f flip md) (createTensorFN K h flip md))
      (construct2dFilt (createTensor (f.map (tap3 g)) flip md) (createTensor (h.map (tap3 g)) flip md)) := by
  have hu := hK.unit
  have o : ∀ {a b : Tensor R} {p q : Tensor (R × R × R)}, TRel (Tap3 (1 + u) g) a p → TRel (Tap3 (1 + u) g) b q →
      TRel (Tap3 ((1 + u) ^ 3) (g ^ 2)) (outerF K a b) (outer p q) := fun ha hb => by
    have := outerF_rel hK (by linarith) (by linarith) ha hb
    rwa [show (1 + u) * (1 + u) * (1 + u) = (1 + u) ^ 3 by ring, show g * g = g ^ 2 by ring] at this
  have h1 := createTensorFN_rel (g := g) hK f flip md
  have h2 := createTensorFN_rel (g := g) hK h flip md
  refine two_and ?_ fun a ha => ?_
  · unfold construct2dFiltF construct2dFilt
    exact two_unsqueezeFilt (tap3_zero _ _) (TRel.stack0 (tap3_zero _ _) (.cons (o h1 h1) (.cons (o h2 h1)
      (.cons (o h1 h2) (.cons (o h2 h2) .nil)))))
  · rw [unsqueezeFilt_shape ha, outerF_shape, createTensorFN_shape]
    simp [prodL]

theorem construct3dFiltF_rel {u g : R} {K : KernelsN R} (hK : FloatKernelsN u K) (f h : List R) (flip : Bool) (md : Meta) :
    Two (fun a b => TRel (Tap3 ((1 + u) ^ 5) (g ^ 3)) a b ∧ a.shape = [8, 1, f.length, f.length, f.length])
      (construct3dFiltF K (createTensorFN K f flip md) (createTensorFN K h flip md))
      (construct3dFilt (createTensor (f.map (tap3 g)) flip md) (createTensor (h.map (tap3 g)) flip md)) := by
  have hu := hK.unit
  have o : ∀ (s : List Nat) {a b c : Tensor R} {p q r : Tensor (R × R × R)}, TRel (Tap3 (1 + u) g) a p →
      TRel (Tap3 (1 + u) g) b q → TRel (Tap3 (1 + u) g) c r →
      Two (fun a b => TRel (Tap3 ((1 + u) ^ 5) (g ^ 3)) a b ∧ a.shape = s) ((outerF K a (outerF K b c)).reshape s)
        ((outer p (outer q r)).reshape s) := fun s a b c p q r ha hb hc => by
    have h1 := outerF_rel hK (by linarith) (by linarith) hb hc
    have h2 : (1 : R) ≤ (1 + u) * (1 + u) * (1 + u) := by nlinarith [mul_nonneg hu hu]
    have h3 := outerF_rel hK (by linarith) h2 ha h1
    rw [show (1 + u) * ((1 + u) * (1 + u) * (1 + u)) * (1 + u) = (1 + u) ^ 5 by ring,
      show g * (g * g) = g ^ 3 by ring] at h3
    exact two_and (h3.reshape (tap3_zero _ _) s) fun _ h => reshape_shape_ok h
  have h1 := createTensorFN_rel (g := g) hK f flip md
  have h2 := createTensorFN_rel (g := g) hK h flip md
  have hs : (createTensorFN K f flip md).sizeFromEnd 1 = f.length := by
    simp [Tensor.sizeFromEnd, createTensorFN_shape, Tensor.rank]
  unfold construct3dFiltF construct3dFilt
  simp only
  rw [h1.sizeFromEnd, hs]
  refine Two.bind (o _ h1 h1 h1) fun a _ k1 => Two.bind (o _ h1 h1 h2) fun _ _ k2 =>
    Two.bind (o _ h1 h2 h1) fun _ _ k3 => Two.bind (o _ h1 h2 h2) fun _ _ k4 =>
    Two.bind (o _ h2 h1 h1) fun _ _ k5 => Two.bind (o _ h2 h1 h2) fun _ _ k6 =>
    Two.bind (o _ h2 h2 h1) fun _ _ k7 => Two.bind (o _ h2 h2 h2) fun _ _ k8 => ?_
  refine two_and (two_unsqueezeFilt (tap3_zero _ _) (TRel.stack0 (tap3_zero _ _) (.cons k1.1 (.cons k2.1 (.cons k3.1
    (.cons k4.1 (.cons k5.1 (.cons k6.1 (.cons k7.1 (.cons k8.1 .nil)))))))))) fun t ht => ?_
  rw [unsqueezeFilt_shape ht, k1.2]
  rfl

theorem wavedec2LoopF_rel {u g : R} {K : KernelsN R} (hK : FloatKernelsN u K) {w : Wavelet R} (hg : 1 ≤ g)
    (hG : (1 + u) ^ (w.len * w.len) * (1 + u) ^ 3 ≤ g ^ 2) (mode : Option String) {filt : Tensor R}
    {filt' : Tensor (R × R × R)} (hf : TRel (Tap3 ((1 + u) ^ 3) (g ^ 2)) filt filt')
    (hfs : filt.shape = [4, 1, w.len, w.len]) :
    ∀ (L : Nat) {x : Tensor R} {y : Tensor (R × R × R)}, TRel Err3 x y →
    Two (fun a b => TRel Err3 a.1 b.1 ∧ List.Forall₂ (Entry2 (TRel Err3)) a.2 b.2)
      (wavedec2LoopF K w mode filt L x) (wavedec2Loop (mapW (tap3 g) w) mode filt' L y)
  | 0, _, _, h => .ok ⟨h, .nil⟩
  | L + 1, x, y, h => by
    unfold wavedec2LoopF wavedec2Loop
    have hu := hK.unit
    have hc := closed_err3 (R := R)
    refine Two.bind (h.fwtPad hc (wrel_tap hg w) mode 2) fun _ _ h =>
      Two.bind (float_convN hK (one_le_pow₀ (by linarith)) h hf 2 2 ⟨4, hfs⟩ (by simpa using hG)) fun a b h => ?_
    have hs := h.split1 hc.zero
    revert hs
    generalize split1 a = sa
    generalize split1 b = sb
    intro hs
    cases hs with
    | nil => exact .err _
    | cons h1 hs =>
    cases hs with
    | nil => exact .err _
    | cons h2 hs =>
    cases hs with
    | nil => exact .err _
    | cons h3 hs =>
    cases hs with
    | nil => exact .err _
    | cons h4 hs =>
    cases hs with
    | cons _ _ => exact .err _
    | nil =>
      simp only
      exact Two.bind (wavedec2LoopF_rel hK hg hG mode hf hfs L h1) fun _ _ h =>
        .ok ⟨h.1, .cons (.tuple (h2.squeeze1 hc.zero) (h3.squeeze1 hc.zero) (h4.squeeze1 hc.zero)) h.2⟩

theorem mapW_len (g : R) (w : Wavelet R) : (mapW (tap3 g) w).len = w.len := by simp [Wavelet.len, mapW]

/-- `wavedec2` in floating point arithmetic and the exact `wavedec2` of the triples. -/
theorem wavedec2F_rel {u g : R} {K : KernelsN R} (hK : FloatKernelsN u K) {w : Wavelet R} (hg : 1 ≤ g)
    (hG : (1 + u) ^ (w.len * w.len + 3) ≤ g ^ 2) (mode : Option String) (level : Option Int) (axes : AxisHint)
    {x : Tensor R} {y : Tensor (R × R × R)} (h : TRel Err3 x y) :
    Two (Coeffs2 (TRel Err3)) (wavedec2F K x w mode level axes) (wavedec2 y (mapW (tap3 g) w) mode level axes) := by
  have hc := closed_err3 (R := R)
  unfold wavedec2F wavedec2 preprocessDeconstruction
  rw [bind_assoc]
  refine Two.bind (h.preprocessTensor hc.zero 2 axes true) ?_
  rintro ⟨x', p⟩ ⟨y', _⟩ ⟨h, h2⟩
  simp only at h h2 ⊢
  subst h2
  rw [bind_assoc]
  have hfilt : constructNdFilt (createTensor (mapW (tap3 g) w).decLo true y'.md)
      (createTensor (mapW (tap3 g) w).decHi true y'.md) 2 = construct2dFilt (createTensor (w.decLo.map (tap3 g)) true x'.md)
        (createTensor (w.decHi.map (tap3 g)) true x'.md) := by
    unfold constructNdFilt
    rw [if_neg (by decide), if_pos rfl, h.md]
    rfl
  rw [hfilt]
  refine Two.bind (construct2dFiltF_rel (g := g) hK w.decLo w.decHi true x'.md) ?_
  rintro f f' ⟨hf, hfs⟩
  simp only [pure_bind]
  rw [h.sizeFromEnd, h.sizeFromEnd, mapW_len]
  refine Two.bind Two.refl_eq ?_
  rintro L _ rfl
  refine Two.bind (wavedec2LoopF_rel hK hg (by rw [← pow_add]; exact hG) mode hf hfs _ h) fun a b h => ?_
  exact rel_postprocessCoeffs hc.zero (a := assemble2 a) (b := assemble2 b)
    ⟨rfl, .cons (.tensor (h.1.squeeze1 hc.zero)) (forall₂_reverse h.2)⟩ _ _ _

theorem waverec2StepF_rel {u g : R} {K : KernelsN R} (hK : FloatKernelsN u K) {F : Nat}
    (hG : (1 + u) ^ (4 * ((F + 1) / 2 * ((F + 1) / 2))) * (1 + u) ^ 3 ≤ g ^ 2) {filt : Tensor R}
    {filt' : Tensor (R × R × R)} (hf : TRel (Tap3 ((1 + u) ^ 3) (g ^ 2)) filt filt') (hfs : filt.shape = [4, 1, F, F])
    {x : Tensor R} {y : Tensor (R × R × R)} (h : TRel Err3 x y) {e : Entry R}
    {e' : Entry (R × R × R)} (he : Entry2 (TRel Err3) e e') {a : List (Entry R)} {b : List (Entry (R × R × R))}
    (hs : List.Forall₂ (Entry2 (TRel Err3)) a b) :
    Two (TRel Err3) (waverec2StepF K filt F x e a) (waverec2Step filt' F y e' b) := by
  unfold waverec2StepF waverec2Step
  have hu := hK.unit
  have hc := closed_err3 (R := R)
  cases he with
  | tensor _ => exact .err _
  | dict _ => exact .err _
  | other => exact .err _
  | tuple h1 h2 h3 =>
    simp only [h.shape, h1.shape, h2.shape, h3.shape]
    refine Two.ite _ ?_ (.err _)
    refine Two.bind (TRel.stack1 hc.zero (.cons h (.cons h1 (.cons h2 (.cons h3 .nil))))) fun _ _ h =>
      Two.bind (float_convTN hK (one_le_pow₀ (by linarith)) h hf 2 ⟨1, hfs⟩ (by simpa using hG)) fun a b h => ?_
    rw [rel_recPads2 F (h.squeeze1 hc.zero) hs]
    refine Two.bind Two.refl_eq ?_
    rintro p _ rfl
    exact .ok ((h.squeeze1 hc.zero).crop2 hc _)

theorem waverec2LoopF_rel {u g : R} {K : KernelsN R} (hK : FloatKernelsN u K) {F : Nat}
    (hG : (1 + u) ^ (4 * ((F + 1) / 2 * ((F + 1) / 2))) * (1 + u) ^ 3 ≤ g ^ 2) {filt : Tensor R}
    {filt' : Tensor (R × R × R)} (hf : TRel (Tap3 ((1 + u) ^ 3) (g ^ 2)) filt filt') (hfs : filt.shape = [4, 1, F, F])
    {a : List (Entry R)} {b : List (Entry (R × R × R))} (hs : List.Forall₂ (Entry2 (TRel Err3)) a b) :
    ∀ {x : Tensor R} {y : Tensor (R × R × R)}, TRel Err3 x y →
    Two (TRel Err3) (waverec2LoopF K filt F x a) (waverec2Loop filt' F y b) := by
  induction hs with
  | nil => exact fun h => .ok h
  | cons h1 hs ih =>
    intro x y h
    unfold waverec2LoopF waverec2Loop
    exact Two.bind (waverec2StepF_rel hK hG hf hfs h h1 hs) fun _ _ h => ih h

/-- `waverec2` in floating point arithmetic and the exact `waverec2` of the triples. -/
theorem waverec2F_rel {u g : R} {K : KernelsN R} (hK : FloatKernelsN u K) {w : Wavelet R}
    (hG : (1 + u) ^ (4 * ((w.recLo.length + 1) / 2 * ((w.recLo.length + 1) / 2)) + 3) ≤ g ^ 2) (axes : AxisHint)
    {a : Coeffs R} {b : Coeffs (R × R × R)} (h : Coeffs2 (TRel Err3) a b) :
    Two (TRel Err3) (waverec2F K a w axes) (waverec2 b (mapW (tap3 g) w) axes) := by
  have hc := closed_err3 (R := R)
  unfold waverec2F waverec2
  refine Two.bind (rel_preprocessCoeffs hc.zero h 2 axes false) ?_
  rintro ⟨c, du⟩ ⟨d, dv⟩ ⟨h, h2⟩
  simp only at h h2 ⊢
  subst h2
  rw [rel_checkSameDeviceDtype h]
  refine Two.bind Two.refl_eq ?_
  rintro md _ rfl
  refine Two.bind (construct2dFiltF_rel (g := g) hK w.recLo w.recHi false _) ?_
  rintro f f' ⟨hf, hfs⟩
  have hl : (mapW (tap3 g) w).recLo.length = w.recLo.length := by simp [mapW]
  rw [hl]
  refine Two.bind h.headTensor fun _ _ h1 => ?_
  exact Two.bind (waverec2LoopF_rel hK (by rw [← pow_add]; exact hG) hf hfs (forall₂_tail h.items) h1) fun _ _ h =>
    h.postprocessTensor hc.zero _ _ _

theorem wavedec3LoopF_rel {u g : R} {K : KernelsN R} (hK : FloatKernelsN u K) {w : Wavelet R} (hg : 1 ≤ g)
    (hG : (1 + u) ^ (w.len * (w.len * w.len)) * (1 + u) ^ 5 ≤ g ^ 3) (mode : Option String) {filt : Tensor R}
    {filt' : Tensor (R × R × R)} (hf : TRel (Tap3 ((1 + u) ^ 5) (g ^ 3)) filt filt')
    (hfs : filt.shape = [8, 1, w.len, w.len, w.len]) :
    ∀ (L : Nat) {x : Tensor R} {y : Tensor (R × R × R)}, TRel Err3 x y →
    Two (fun a b => TRel Err3 a.1 b.1 ∧ List.Forall₂ (Entry2 (TRel Err3)) a.2 b.2)
      (wavedec3LoopF K w mode filt L x) (wavedec3Loop (mapW (tap3 g) w) mode filt' L y)
  | 0, _, _, h => .ok ⟨h, .nil⟩
  | L + 1, x, y, h => by
    unfold wavedec3LoopF wavedec3Loop
    have hu := hK.unit
    have hc := closed_err3 (R := R)
    refine Two.bind (h.ensureChannel3 hc) fun _ _ h => ?_
    refine Two.bind (h.fwtPad hc (wrel_tap hg w) mode 3) fun _ _ h =>
      Two.bind (float_convN hK (one_le_pow₀ (by linarith)) h hf 3 2 ⟨8, hfs⟩ (by simpa using hG)) fun a b h => ?_
    have hs : List.Forall₂ (TRel Err3) ((split1 a).map Tensor.squeeze1) ((split1 b).map Tensor.squeeze1) :=
      forall₂_map (h.split1 hc.zero) fun _ _ h => h.squeeze1 hc.zero
    revert hs
    generalize (split1 a).map Tensor.squeeze1 = sa
    generalize (split1 b).map Tensor.squeeze1 = sb
    intro hs
    cases hs with
    | nil => exact .err _
    | cons h1 hs =>
    cases hs with
    | nil => exact .err _
    | cons h2 hs =>
    cases hs with
    | nil => exact .err _
    | cons h3 hs =>
    cases hs with
    | nil => exact .err _
    | cons h4 hs =>
    cases hs with
    | nil => exact .err _
    | cons h5 hs =>
    cases hs with
    | nil => exact .err _
    | cons h6 hs =>
    cases hs with
    | nil => exact .err _
    | cons h7 hs =>
    cases hs with
    | nil => exact .err _
    | cons h8 hs =>
    cases hs with
    | cons _ _ => exact .err _
    | nil =>
      simp only
      exact Two.bind (wavedec3LoopF_rel hK hg hG mode hf hfs L h1) fun _ _ h =>
        .ok ⟨h.1, .cons (.dict (.cons ⟨rfl, h2⟩ (.cons ⟨rfl, h3⟩ (.cons ⟨rfl, h4⟩
          (.cons ⟨rfl, h5⟩ (.cons ⟨rfl, h6⟩ (.cons ⟨rfl, h7⟩ (.cons ⟨rfl, h8⟩ .nil)))))))) h.2⟩

/-- `wavedec3` in floating point arithmetic and the exact `wavedec3` of the triples. -/
theorem wavedec3F_rel {u g : R} {K : KernelsN R} (hK : FloatKernelsN u K) {w : Wavelet R} (hg : 1 ≤ g)
    (hG : (1 + u) ^ (w.len * (w.len * w.len) + 5) ≤ g ^ 3) (mode : Option String) (level : Option Int) (axes : AxisHint)
    {x : Tensor R} {y : Tensor (R × R × R)} (h : TRel Err3 x y) :
    Two (Coeffs2 (TRel Err3)) (wavedec3F K x w mode level axes) (wavedec3 y (mapW (tap3 g) w) mode level axes) := by
  have hc := closed_err3 (R := R)
  unfold wavedec3F wavedec3 preprocessDeconstruction
  rw [bind_assoc]
  refine Two.bind (h.preprocessTensor hc.zero 3 axes true) ?_
  rintro ⟨x', p⟩ ⟨y', _⟩ ⟨h, h2⟩
  simp only at h h2 ⊢
  subst h2
  rw [bind_assoc]
  have hfilt : constructNdFilt (createTensor (mapW (tap3 g) w).decLo true y'.md)
      (createTensor (mapW (tap3 g) w).decHi true y'.md) 3 = construct3dFilt (createTensor (w.decLo.map (tap3 g)) true x'.md)
        (createTensor (w.decHi.map (tap3 g)) true x'.md) := by
    unfold constructNdFilt
    rw [if_neg (by decide), if_neg (by decide), if_pos rfl, h.md]
    rfl
  rw [hfilt]
  refine Two.bind (construct3dFiltF_rel (g := g) hK w.decLo w.decHi true x'.md) ?_
  rintro f f' ⟨hf, hfs⟩
  simp only [pure_bind]
  rw [h.sizeFromEnd, h.sizeFromEnd, h.sizeFromEnd, mapW_len]
  refine Two.bind Two.refl_eq ?_
  rintro L _ rfl
  refine Two.bind (wavedec3LoopF_rel hK hg (by rw [← pow_add]; exact hG) mode hf hfs _ h) fun a b h => ?_
  exact rel_postprocessCoeffs hc.zero (a := ⟨false, .tensor a.1 :: a.2.reverse⟩)
    (b := ⟨false, .tensor b.1 :: b.2.reverse⟩)
    ⟨rfl, .cons (.tensor h.1) (forall₂_reverse h.2)⟩ _ _ _

theorem waverec3StepF_rel {u g : R} {K : KernelsN R} (hK : FloatKernelsN u K) {F : Nat}
    (hG : (1 + u) ^ (8 * ((F + 1) / 2 * ((F + 1) / 2 * ((F + 1) / 2)))) * (1 + u) ^ 5 ≤ g ^ 3) {filt : Tensor R}
    {filt' : Tensor (R × R × R)} (hf : TRel (Tap3 ((1 + u) ^ 5) (g ^ 3)) filt filt')
    (hfs : filt.shape = [8, 1, F, F, F])
    {x : Tensor R} {y : Tensor (R × R × R)} (h : TRel Err3 x y) {e : Entry R}
    {e' : Entry (R × R × R)} (he : Entry2 (TRel Err3) e e') {a : List (Entry R)} {b : List (Entry (R × R × R))}
    (hs : List.Forall₂ (Entry2 (TRel Err3)) a b) :
    Two (TRel Err3) (waverec3StepF K filt F x e a) (waverec3Step filt' F y e' b) := by
  unfold waverec3StepF waverec3Step
  have hu := hK.unit
  have hc := closed_err3 (R := R)
  cases he with
  | tensor _ => exact .err _
  | tuple _ _ _ => exact .err _
  | other => exact .err _
  | dict hd =>
    simp only [h.shape, Dict2.shapes hd x.shape, ← hd.length_eq]
    refine Two.ite _ ?_ (.err _)
    refine Two.bind (rel_bands3 h hd) fun _ _ h => Two.bind (TRel.stack1 hc.zero h) fun _ _ h =>
      Two.bind (float_convTN hK (one_le_pow₀ (by linarith)) h hf 3 ⟨1, hfs⟩ (by simpa using hG)) fun u v h => ?_
    rw [rel_recPads3 F (h.squeeze1 hc.zero) hs]
    refine Two.bind Two.refl_eq ?_
    rintro p _ rfl
    exact .ok ((h.squeeze1 hc.zero).crop3 hc _)

theorem waverec3LoopF_rel {u g : R} {K : KernelsN R} (hK : FloatKernelsN u K) {F : Nat}
    (hG : (1 + u) ^ (8 * ((F + 1) / 2 * ((F + 1) / 2 * ((F + 1) / 2)))) * (1 + u) ^ 5 ≤ g ^ 3) {filt : Tensor R}
    {filt' : Tensor (R × R × R)} (hf : TRel (Tap3 ((1 + u) ^ 5) (g ^ 3)) filt filt')
    (hfs : filt.shape = [8, 1, F, F, F])
    {a : List (Entry R)} {b : List (Entry (R × R × R))} (hs : List.Forall₂ (Entry2 (TRel Err3)) a b) :
    ∀ {x : Tensor R} {y : Tensor (R × R × R)}, TRel Err3 x y →
    Two (TRel Err3) (waverec3LoopF K filt F x a) (waverec3Loop filt' F y b) := by
  induction hs with
  | nil => exact fun h => .ok h
  | cons h1 hs ih =>
    intro x y h
    unfold waverec3LoopF waverec3Loop
    exact Two.bind (waverec3StepF_rel hK hG hf hfs h h1 hs) fun _ _ h => ih h

/-- `waverec3` in floating point arithmetic and the exact `waverec3` of the triples. -/
theorem waverec3F_rel {u g : R} {K : KernelsN R} (hK : FloatKernelsN u K) {w : Wavelet R}
    (hG : (1 + u) ^ (8 * ((w.recLo.length + 1) / 2 * ((w.recLo.length + 1) / 2 * ((w.recLo.length + 1) / 2))) + 5) ≤ g ^ 3)
    (axes : AxisHint) {a : Coeffs R} {b : Coeffs (R × R × R)} (h : Coeffs2 (TRel Err3) a b) :
    Two (TRel Err3) (waverec3F K a w axes) (waverec3 b (mapW (tap3 g) w) axes) := by
  have hc := closed_err3 (R := R)
  unfold waverec3F waverec3
  refine Two.bind (rel_preprocessCoeffs hc.zero h 3 axes false) ?_
  rintro ⟨c, du⟩ ⟨d, dv⟩ ⟨h, h2⟩
  simp only at h h2 ⊢
  subst h2
  rw [rel_checkSameDeviceDtype h]
  refine Two.bind Two.refl_eq ?_
  rintro md _ rfl
  refine Two.bind (construct3dFiltF_rel (g := g) hK w.recLo w.recHi false _) ?_
  rintro f f' ⟨hf, hfs⟩
  have hl : (mapW (tap3 g) w).recLo.length = w.recLo.length := by simp [mapW]
  rw [hl]
  refine Two.bind h.headTensor fun _ _ h1 => ?_
  exact Two.bind (waverec3LoopF_rel hK (by rw [← pow_add]; exact hG) hf hfs (forall₂_tail h.items) h1) fun _ _ h =>
    h.postprocessTensor hc.zero _ _ _

end Verif
