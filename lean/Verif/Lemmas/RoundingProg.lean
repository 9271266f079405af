import Verif.Lemmas.RoundingConv

/-! The one-dimensional transforms in floating point arithmetic. -/

namespace Verif
open Tensor Spec
variable {R : Type}

theorem wavedecLoopF_exact [NonUnitalNonAssocSemiring R] (w : Wavelet R) (mode : Option String) (filt : Tensor R) :
    ∀ (L : Nat) (x : Tensor R), wavedecLoopF (exactKernels R) w mode filt L x = wavedecLoop w mode filt L x
  | 0, _ => rfl
  | L + 1, x => by
    unfold wavedecLoopF wavedecLoop
    simp only [wavedecLoopF_exact w mode filt L]
    rfl

theorem wavedecF_exact [NonUnitalNonAssocSemiring R] (x : Tensor R) (w : Wavelet R) (mode : Option String)
    (level : Option Int) (axis : AxisHint) : wavedecF (exactKernels R) x w mode level axis = wavedec x w mode level axis := by
  unfold wavedecF wavedec preprocessDeconstruction constructNdFilt createTensorF
  have ht : ∀ (l : List R) dt, l.map ((exactKernels R).tap dt) = l := fun l _ => List.map_id' l
  simp only [wavedecLoopF_exact, ht]
  cases preprocessTensor x 1 axis true with
  | error e => rfl
  | ok p =>
    simp only [bind, Except.bind, if_pos]
    cases construct1dFilt (createTensor w.decLo true p.1.md) (createTensor w.decHi true p.1.md) with
    | error e => rfl
    | ok f => rfl

theorem waverecLoopF_exact [NonUnitalNonAssocSemiring R] (filt : Tensor R) (F : Nat) :
    ∀ (hs : List (Tensor R)) (x : Tensor R), waverecLoopF (exactKernels R) filt F x hs = waverecLoop filt F x hs
  | [], _ => rfl
  | h :: hs, x => by
    unfold waverecLoopF waverecLoop
    simp only [waverecLoopF_exact filt F hs]
    rfl

theorem waverecF_exact [NonUnitalNonAssocSemiring R] (cs : List (Tensor R)) (w : Wavelet R) (axis : AxisHint) :
    waverecF (exactKernels R) cs w axis = waverec cs w axis := by
  unfold waverecF waverec createTensorF
  have ht : ∀ (l : List R) dt, l.map ((exactKernels R).tap dt) = l := fun l _ => List.map_id' l
  simp only [waverecLoopF_exact, ht]
  rfl

variable [Field R] [LinearOrder R] [IsStrictOrderedRing R]

/-- The triple of a tap: itself, its absolute value, and `g` times that. -/
def tap3 (g a : R) : R × R × R := (a, |a|, g * |a|)

/-- The triple of an input. -/
def in3 : ZeroHom R (R × R × R) := ⟨fun a => (a, |a|, |a|), by simp⟩

theorem err3_in (a : R) : Err3 a (in3 a) := by
  refine ⟨le_rfl, ?_⟩
  show |a - a| ≤ |a| - |a|
  simp

theorem trel_in (x : Tensor R) : TRel Err3 x (mapT in3 x) := ⟨rfl, rfl, fun i => err3_in _⟩

theorem err3_tap {g : R} (hg : 1 ≤ g) (a : R) : Err3 a (tap3 g a) := by
  refine ⟨le_rfl, ?_⟩
  show |a - a| ≤ g * |a| - |a|
  rw [sub_self, abs_zero]
  nlinarith [abs_nonneg a]

theorem wrel_tap {g : R} (hg : 1 ≤ g) (w : Wavelet R) : WRel Err3 w (mapW (tap3 g) w) := by
  have h : ∀ l : List R, List.Forall₂ Err3 l (l.map (tap3 g)) := fun l => by
    rw [List.forall₂_map_right_iff]
    exact List.forall₂_same.mpr fun a _ => err3_tap hg a
  exact ⟨h _, h _, h _, h _⟩

theorem tap3_rel {u g : R} {K : Kernels R} (hK : FloatKernels u K) (dt : DType) (a : R) :
    Tap3 (1 + u) g (K.tap dt a) (tap3 g a) := by
  obtain ⟨δ, hδ, e⟩ := hK.tap dt a
  refine ⟨le_rfl, ?_, rfl⟩
  show |K.tap dt a - a| ≤ (1 + u - 1) * |a|
  rw [e, show a * (1 + δ) - a = δ * a by ring, abs_mul, show (1 + u - 1 : R) = u by ring]
  exact mul_le_mul_of_nonneg_right hδ (abs_nonneg _)

theorem tap3_zero (τ G : R) : Tap3 τ G (0 : R) 0 := by
  refine ⟨by simp, by simp, by simp⟩

theorem createTensorF_rel {u g : R} {K : Kernels R} (hK : FloatKernels u K) (f : List R) (flip : Bool) (md : Meta) :
    TRel (Tap3 (1 + u) g) (createTensorF K f flip md) (createTensor (f.map (tap3 g)) flip md) := by
  refine TRel.createTensor (tap3_zero _ _) ?_ flip md
  rw [List.forall₂_map_left_iff, List.forall₂_map_right_iff]
  exact List.forall₂_same.mpr fun a _ => tap3_rel hK _ a

theorem stack_shape {K : Kernels R} {f h : List R} {flip : Bool} {md : Meta} {t : Tensor R}
    (e : stack0 [createTensorF K f flip md, createTensorF K h flip md] = .ok t) : t.shape = [2, 1, f.length] := by
  unfold stack0 at e
  simp only at e
  split_ifs at e
  cases e
  show 2 :: (createTensorF K f flip md).shape = _
  simp [createTensorF, createTensor]

theorem filt_rel {u g : R} {K : Kernels R} (hK : FloatKernels u K) (f h : List R) (flip : Bool) (md : Meta) :
    Two (fun a b => TRel (Tap3 (1 + u) g) a b ∧ a.shape = [2, 1, f.length])
      (stack0 [createTensorF K f flip md, createTensorF K h flip md])
      (stack0 [createTensor (f.map (tap3 g)) flip md, createTensor (h.map (tap3 g)) flip md]) := by
  have := TRel.stack0 (tap3_zero (1 + u) g) (.cons (createTensorF_rel (g := g) hK f flip md)
    (.cons (createTensorF_rel (g := g) hK h flip md) .nil))
  revert this
  generalize e : stack0 [createTensorF K f flip md, createTensorF K h flip md] = a
  generalize stack0 [createTensor (f.map (tap3 g)) flip md, createTensor (h.map (tap3 g)) flip md] = b
  intro hab
  cases hab with
  | err e' => exact .err e'
  | ok hab => exact .ok ⟨hab, stack_shape e⟩

theorem wavedecLoopF_rel {u g : R} {K : Kernels R} (hK : FloatKernels u K) {w : Wavelet R} (hg : 1 ≤ g)
    (hG : (1 + u) ^ w.len * (1 + u) ≤ g) (mode : Option String) {filt : Tensor R} {filt' : Tensor (R × R × R)}
    (hf : TRel (Tap3 (1 + u) g) filt filt') (hfs : filt.shape = [2, 1, w.len]) :
    ∀ (L : Nat) {x : Tensor R} {y : Tensor (R × R × R)}, TRel Err3 x y →
    Two (fun a b => TRel Err3 a.1 b.1 ∧ List.Forall₂ (TRel Err3) a.2 b.2)
      (wavedecLoopF K w mode filt L x) (wavedecLoop (mapW (tap3 g) w) mode filt' L y)
  | 0, _, _, h => .ok ⟨h, .nil⟩
  | L + 1, x, y, h => by
    unfold wavedecLoopF wavedecLoop
    have hu := hK.unit
    refine Two.bind (h.fwtPad closed_err3 (wrel_tap hg w) mode 1) fun _ _ h =>
      Two.bind (float_conv hK (by linarith) h hf 2 1 ⟨2, hfs⟩ (by rw [one_mul]; exact hG)) fun a b h => ?_
    have hs := h.split1 closed_err3.zero
    revert hs
    generalize split1 a = sa
    generalize split1 b = sb
    intro hs
    cases hs with
    | nil => exact .err _
    | cons h1 hs =>
      cases hs with
      | nil => exact .err _
      | cons h2 hs =>
        cases hs with
        | cons _ _ => exact .err _
        | nil =>
          simp only
          exact Two.bind (wavedecLoopF_rel hK hg hG mode hf hfs L h1) fun _ _ h =>
            .ok ⟨h.1, .cons (h2.squeeze1 closed_err3.zero) h.2⟩

/-- `wavedec` in floating point arithmetic and the exact `wavedec` of the triples. -/
theorem wavedecF_rel {u g : R} {K : Kernels R} (hK : FloatKernels u K) {w : Wavelet R}
    (hG : (1 + u) ^ (w.len + 1) ≤ g) (mode : Option String) (level : Option Int) (axis : AxisHint) {x : Tensor R}
    {y : Tensor (R × R × R)} (h : TRel Err3 x y) :
    Two (List.Forall₂ (TRel Err3)) (wavedecF K x w mode level axis) (wavedec y (mapW (tap3 g) w) mode level axis) := by
  have hu := hK.unit
  have hg : 1 ≤ g := (one_le_pow₀ (by linarith)).trans hG
  unfold wavedecF wavedec preprocessDeconstruction
  have hpre := h.preprocessTensor closed_err3.zero 1 axis true
  revert hpre
  generalize preprocessTensor x 1 axis true = px
  generalize preprocessTensor y 1 axis true = py
  intro hpre
  cases hpre with
  | err e => exact .err e
  | @ok p q hp =>
    obtain ⟨h1, h2⟩ := hp
    have hfilt : Two (fun a b => TRel (Tap3 (1 + u) g) a b ∧ a.shape = [2, 1, w.len])
        (construct1dFilt (createTensorF K w.decLo true p.1.md) (createTensorF K w.decHi true p.1.md))
        (constructNdFilt (createTensor (mapW (tap3 g) w).decLo true q.1.md)
          (createTensor (mapW (tap3 g) w).decHi true q.1.md) 1) := by
      unfold constructNdFilt construct1dFilt
      rw [if_pos rfl, h1.md]
      exact filt_rel hK w.decLo w.decHi true p.1.md
    simp only [bind, Except.bind, pure, Except.pure] at hfilt ⊢
    revert hfilt
    generalize construct1dFilt (createTensorF K w.decLo true p.1.md) (createTensorF K w.decHi true p.1.md) = fa
    generalize constructNdFilt (createTensor (mapW (tap3 g) w).decLo true q.1.md)
          (createTensor (mapW (tap3 g) w).decHi true q.1.md) 1 = fb
    intro hfilt
    cases hfilt with
    | err e => exact .err e
    | @ok fa fb hf =>
      obtain ⟨hf, hfs⟩ := hf
      simp only
      have hl : (mapW (tap3 g) w).len = w.len := by simp [Wavelet.len, mapW]
      rw [h1.sizeFromEnd, hl, h2]
      refine Two.bind (P := fun u v => v = u) Two.refl_eq ?_
      rintro L _ rfl
      refine Two.bind (wavedecLoopF_rel hK hg (by rw [← pow_succ]; exact hG) mode hf hfs _ h1) fun a b h => ?_
      exact Two.bind (rel_postprocessCoeffs closed_err3.zero (Coeffs2.ofList (rel_assemble closed_err3.zero h)) _ _ _)
        fun _ _ h => .ok h.toList

theorem waverecLoopF_rel {u g : R} {K : Kernels R} (hK : FloatKernels u K) {F : Nat}
    (hG : (1 + u) ^ (2 * ((F + 1) / 2)) * (1 + u) ≤ g) {filt : Tensor R} {filt' : Tensor (R × R × R)}
    (hf : TRel (Tap3 (1 + u) g) filt filt') (hfs : filt.shape = [2, 1, F])
    {a : List (Tensor R)} {b : List (Tensor (R × R × R))} (hs : List.Forall₂ (TRel Err3) a b) :
    ∀ {x : Tensor R} {y : Tensor (R × R × R)}, TRel Err3 x y →
    Two (TRel Err3) (waverecLoopF K filt F x a) (waverecLoop filt' F y b) := by
  induction hs with
  | nil => exact fun h => .ok h
  | cons h1 hs ih =>
    intro x y h
    unfold waverecLoopF waverecLoop
    have hu := hK.unit
    have hc := closed_err3 (R := R)
    refine Two.bind (TRel.stack1 hc.zero (.cons h (.cons h1 .nil))) fun _ _ h =>
      Two.bind (float_convT hK (by linarith) h hf ⟨1, hfs⟩ hG) fun a b h => ?_
    rw [rel_recPads F (h.squeeze1 hc.zero) hs, (h.squeeze1 hc.zero).rank]
    refine Two.bind (P := fun u v => v = u) Two.refl_eq ?_
    rintro p _ rfl
    exact ih ((h.squeeze1 hc.zero).cropAxis hc.zero _ _ _)

/-- `waverec` in floating point arithmetic and the exact `waverec` of the triples. -/
theorem waverecF_rel {u g : R} {K : Kernels R} (hK : FloatKernels u K) {w : Wavelet R}
    (hG : (1 + u) ^ (w.recLo.length + 2) ≤ g) (axis : AxisHint) {a : List (Tensor R)} {b : List (Tensor (R × R × R))}
    (h : List.Forall₂ (TRel Err3) a b) :
    Two (TRel Err3) (waverecF K a w axis) (waverec b (mapW (tap3 g) w) axis) := by
  have hu := hK.unit
  have hc := closed_err3 (R := R)
  have hg : (1 + u) ^ (2 * ((w.recLo.length + 1) / 2)) * (1 + u) ≤ g := by
    rw [← pow_succ]
    exact (pow_le_pow_right₀ (by linarith) (by omega)).trans hG
  unfold waverecF waverec
  refine Two.bind (rel_preprocessCoeffs hc.zero (Coeffs2.ofList h) 1 axis false) ?_
  rintro ⟨c, du⟩ ⟨d, dv⟩ ⟨h, h2⟩
  simp only at h h2 ⊢
  subst h2
  rw [rel_checkSameDeviceDtype h]
  refine Two.bind (P := fun u v => v = u) Two.refl_eq ?_
  rintro _ md rfl
  have hl : (mapW (tap3 g) w).recLo.length = w.recLo.length := by simp [mapW]
  rw [hl]
  refine Two.bind (filt_rel (g := g) hK w.recLo w.recHi false md) ?_
  rintro fa fb ⟨hf, hfs⟩
  have ht := h.toList
  revert ht
  generalize c.toList = cl
  generalize d.toList = dl
  intro ht
  cases ht with
  | nil => exact .err _
  | cons h1 h2 =>
    exact Two.bind (waverecLoopF_rel hK hg hf hfs h2 h1) fun _ _ h => h.postprocessTensor hc.zero _ _ _

end Verif
