/-
C74, C75, C76: the filter taps are converted to the dtype of the data and to no other one.
-/
import Verif.Lemmas.MdAll
import Verif.Props.RoundingS

namespace Verif
open Tensor Spec
variable {R : Type}

/-! ### The dtype the programs see -/

/-- The first tensor keeps its dtype and device. -/
theorem preprocessCoeffs_headMd [Zero R] {c : Coeffs R} {n : Nat} {ah : AxisHint} {ch : Bool} {p : Coeffs R × List Nat}
    (e : preprocessCoeffs c n ah ch = .ok p) :
    ∃ t u, headTensor c = .ok t ∧ headTensor p.1 = .ok u ∧ u.md = t.md := by
  unfold preprocessCoeffs at e
  split_ifs at e
  obtain ⟨t, et, e⟩ := bind_ok_inv e
  split_ifs at e
  obtain ⟨ax, -, e⟩ := bind_ok_inv e
  obtain ⟨df, -, e⟩ := bind_ok_inv e
  obtain ⟨c1, ec1, e⟩ := bind_ok_inv e
  obtain ⟨h1, eh1, e⟩ := bind_ok_inv e
  obtain ⟨c2, ec2, e⟩ := bind_ok_inv e
  obtain ⟨c3, ec3, e⟩ := bind_ok_inv e
  cases e
  have m1 : h1.md = t.md := by
    unfold preSwap at ec1
    split_ifs at ec1
    · obtain ⟨t', e', h'⟩ := coeffTreeMap_head et ec1
      rw [eh1] at h'
      cases h'
      exact swapAxes_md e'
    · cases ec1
      rw [et] at eh1
      cases eh1
      rfl
  obtain ⟨h2, eh2, m2⟩ : ∃ h2, headTensor c2 = .ok h2 ∧ h2.md = h1.md := by
    unfold preFold at ec2
    split_ifs at ec2
    · obtain ⟨t', e', h'⟩ := coeffTreeMap_head eh1 ec2
      cases e'
      exact ⟨_, h', rfl⟩
    · obtain ⟨t', e', h'⟩ := coeffTreeMap_head eh1 ec2
      exact ⟨_, h', reshape_md e'⟩
    · cases ec2
      exact ⟨_, eh1, rfl⟩
  unfold preChannel at ec3
  split_ifs at ec3
  · obtain ⟨t', e', h'⟩ := coeffTreeMap_head eh2 ec3
    exact ⟨t, t', et, h', (unsqueeze1_md e').trans (m2.trans m1)⟩
  · cases ec3
    exact ⟨t, h2, et, eh2, m2.trans m1⟩

theorem preprocessTensor_headMd [Zero R] {x : Tensor R} {n : Nat} {ah : AxisHint} {ch : Bool} {p : Tensor R × List Nat}
    (e : preprocessTensor x n ah ch = .ok p) : p.1.md = x.md := by
  unfold preprocessTensor at e
  obtain ⟨q, e1, e⟩ := bind_ok_inv e
  obtain ⟨t, e2, e⟩ := bind_ok_inv e
  cases e
  obtain ⟨t', u, h1, h2, h3⟩ := preprocessCoeffs_headMd e1
  rw [e2] at h2
  cases h2
  cases h1
  exact h3

theorem checkSame_headMd [Zero R] {c d : Coeffs R} {n : Nat} {ah : AxisHint} {ch : Bool} {ds : List Nat} {md : Meta}
    (e : preprocessCoeffs c n ah ch = .ok (d, ds)) (e2 : checkSameDeviceDtype d = .ok md) :
    ∃ t, headTensor c = .ok t ∧ md = t.md := by
  obtain ⟨t, u, h1, h2, h3⟩ := preprocessCoeffs_headMd e
  unfold checkSameDeviceDtype at e2
  obtain ⟨h4, eh4, e2⟩ := bind_ok_inv e2
  obtain ⟨_, _, e2⟩ := bind_ok_inv e2
  obtain ⟨_, _, e2⟩ := bind_ok_inv e2
  cases e2
  rw [h2] at eh4
  cases eh4
  exact ⟨t, h1, h3⟩

theorem bind_congr_ok {ε α β : Type} {x : Except ε α} {f g : α → Except ε β} (h : ∀ a, x = .ok a → f a = g a) :
    x >>= f = x >>= g := by
  cases x with
  | error e => rfl
  | ok a => exact h a rfl

/-! ### The loops do not convert taps -/

section
variable [NonUnitalNonAssocSemiring R]

theorem wavedecLoopF_tap (K : Kernels R) (tap' : DType → R → R) (w : Wavelet R) (mode : Option String) (filt : Tensor R) :
    ∀ L x, wavedecLoopF { K with tap := tap' } w mode filt L x = wavedecLoopF K w mode filt L x
  | 0, _ => rfl
  | L + 1, x => by
    unfold wavedecLoopF
    simp only [wavedecLoopF_tap K tap' w mode filt L]

theorem waverecLoopF_tap (K : Kernels R) (tap' : DType → R → R) (filt : Tensor R) (F : Nat) :
    ∀ his lo, waverecLoopF { K with tap := tap' } filt F lo his = waverecLoopF K filt F lo his
  | [], _ => by unfold waverecLoopF; rfl
  | h :: rest, lo => by
    unfold waverecLoopF
    simp only [waverecLoopF_tap K tap' filt F rest]

theorem wavedec2LoopF_tap (K : KernelsN R) (tap' : DType → R → R) (w : Wavelet R) (mode : Option String)
    (filt : Tensor R) :
    ∀ L x, wavedec2LoopF { K with tap := tap' } w mode filt L x = wavedec2LoopF K w mode filt L x
  | 0, _ => rfl
  | L + 1, x => by
    unfold wavedec2LoopF
    simp only [wavedec2LoopF_tap K tap' w mode filt L]

theorem waverec2LoopF_tap (K : KernelsN R) (tap' : DType → R → R) (filt : Tensor R) (F : Nat) :
    ∀ es lo, waverec2LoopF { K with tap := tap' } filt F lo es = waverec2LoopF K filt F lo es
  | [], _ => by unfold waverec2LoopF; rfl
  | h :: rest, lo => by
    unfold waverec2LoopF
    simp only [waverec2LoopF_tap K tap' filt F rest]
    rfl

theorem wavedec3LoopF_tap (K : KernelsN R) (tap' : DType → R → R) (w : Wavelet R) (mode : Option String)
    (filt : Tensor R) :
    ∀ L x, wavedec3LoopF { K with tap := tap' } w mode filt L x = wavedec3LoopF K w mode filt L x
  | 0, _ => rfl
  | L + 1, x => by
    unfold wavedec3LoopF
    simp only [wavedec3LoopF_tap K tap' w mode filt L]

theorem waverec3LoopF_tap (K : KernelsN R) (tap' : DType → R → R) (filt : Tensor R) (F : Nat) :
    ∀ es lo, waverec3LoopF { K with tap := tap' } filt F lo es = waverec3LoopF K filt F lo es
  | [], _ => by unfold waverec3LoopF; rfl
  | h :: rest, lo => by
    unfold waverec3LoopF
    simp only [waverec3LoopF_tap K tap' filt F rest]
    rfl

theorem swtLoopF_tap (K : Kernels R) (tap' : DType → R → R) (filt : Tensor R) (F : Nat) :
    ∀ L s x, swtLoopF { K with tap := tap' } filt F L s x = swtLoopF K filt F L s x
  | 0, _, _ => rfl
  | L + 1, s, x => by
    unfold swtLoopF
    simp only [swtLoopF_tap K tap' filt F L]

theorem iswtLoopF_tap (K : KernelsS R) (tap' : DType → R → R) (filt : Tensor R) (F : Nat) :
    ∀ his lo, iswtLoopF { K with tap := tap' } filt F lo his = iswtLoopF K filt F lo his
  | [], _ => by unfold iswtLoopF; rfl
  | h :: rest, lo => by
    unfold iswtLoopF
    simp only [iswtLoopF_tap K tap' filt F rest]

end

namespace Props
open Verif.Spec Tensor

section
variable [NonUnitalNonAssocSemiring R]

/-- **C74.** The taps of the filters are converted to the dtype of the data: how taps are rounded to any other dtype has no
influence on a transform, whatever the input. -/
theorem c74_own_dtype (K : Kernels R) (tap' : DType → R → R) (x : Tensor R) (h : tap' x.md.dtype = K.tap x.md.dtype)
    (w : Wavelet R) (mode : Option String) (level : Option Int) (axis : AxisHint) :
    wavedecF { K with tap := tap' } x w mode level axis = wavedecF K x w mode level axis := by
  unfold wavedecF
  refine bind_congr_ok fun p hp => ?_
  have hm := preprocessTensor_headMd hp
  simp only [createTensorF, hm, h, wavedecLoopF_tap]

/-- **C74.** In the inverse transform: to the dtype of the approximation coefficients. -/
theorem c74_own_dtype_waverec (K : Kernels R) (tap' : DType → R → R) (c0 : Tensor R) (cs : List (Tensor R))
    (h : tap' c0.md.dtype = K.tap c0.md.dtype) (w : Wavelet R) (axis : AxisHint) :
    waverecF { K with tap := tap' } (c0 :: cs) w axis = waverecF K (c0 :: cs) w axis := by
  unfold waverecF
  refine bind_congr_ok fun p hp => bind_congr_ok fun md hmd => ?_
  obtain ⟨t, h1, hm⟩ := checkSame_headMd (ds := p.2) hp hmd
  cases h1
  simp only [createTensorF, hm, h, waverecLoopF_tap]

/-- **C75.** The same over two axes. -/
theorem c75_own_dtype_wavedec2 (K : KernelsN R) (tap' : DType → R → R) (x : Tensor R)
    (h : tap' x.md.dtype = K.tap x.md.dtype) (w : Wavelet R) (mode : Option String) (level : Option Int) (axes : AxisHint) :
    wavedec2F { K with tap := tap' } x w mode level axes = wavedec2F K x w mode level axes := by
  unfold wavedec2F
  refine bind_congr_ok fun p hp => ?_
  have hm := preprocessTensor_headMd hp
  simp only [createTensorFN, hm, h, wavedec2LoopF_tap]
  rfl

/-- **C75.** The same over three axes. -/
theorem c75_own_dtype_wavedec3 (K : KernelsN R) (tap' : DType → R → R) (x : Tensor R)
    (h : tap' x.md.dtype = K.tap x.md.dtype) (w : Wavelet R) (mode : Option String) (level : Option Int) (axes : AxisHint) :
    wavedec3F { K with tap := tap' } x w mode level axes = wavedec3F K x w mode level axes := by
  unfold wavedec3F
  refine bind_congr_ok fun p hp => ?_
  have hm := preprocessTensor_headMd hp
  simp only [createTensorFN, hm, h, wavedec3LoopF_tap]
  rfl

/-- **C75.** The same for the inverse transforms over two and three axes, whatever the container holds. -/
theorem c75_own_dtype_waverec (K : KernelsN R) (tap' : DType → R → R) (b : Bool) (c0 : Tensor R) (es : List (Entry R))
    (h : tap' c0.md.dtype = K.tap c0.md.dtype) (w : Wavelet R) (axes : AxisHint) :
    waverec2F { K with tap := tap' } ⟨b, .tensor c0 :: es⟩ w axes = waverec2F K ⟨b, .tensor c0 :: es⟩ w axes ∧
    waverec3F { K with tap := tap' } ⟨b, .tensor c0 :: es⟩ w axes = waverec3F K ⟨b, .tensor c0 :: es⟩ w axes := by
  constructor
  · unfold waverec2F
    refine bind_congr_ok fun p hp => bind_congr_ok fun md hmd => ?_
    obtain ⟨t, h1, hm⟩ := checkSame_headMd (ds := p.2) hp hmd
    cases h1
    simp only [createTensorFN, hm, h, waverec2LoopF_tap]
    rfl
  · unfold waverec3F
    refine bind_congr_ok fun p hp => bind_congr_ok fun md hmd => ?_
    obtain ⟨t, h1, hm⟩ := checkSame_headMd (ds := p.2) hp hmd
    cases h1
    simp only [createTensorFN, hm, h, waverec3LoopF_tap]
    rfl

/-- **C76.** The same for the stationary transform. -/
theorem c76_own_dtype_swt (K : Kernels R) (tap' : DType → R → R) (x : Tensor R) (h : tap' x.md.dtype = K.tap x.md.dtype)
    (w : Wavelet R) (level : Option Int) (axis : AxisHint) :
    swtF { K with tap := tap' } x w level axis = swtF K x w level axis := by
  unfold swtF
  refine bind_congr_ok fun p hp => ?_
  have hm := preprocessTensor_headMd hp
  simp only [createTensorF, hm, h, swtLoopF_tap]

/-- **C76.** The same for the inverse stationary transform. -/
theorem c76_own_dtype_iswt (K : KernelsS R) (tap' : DType → R → R) (c0 : Tensor R) (cs : List (Tensor R))
    (h : tap' c0.md.dtype = K.tap c0.md.dtype) (w : Wavelet R) (axis : AxisHint) :
    iswtF { K with tap := tap' } (c0 :: cs) w axis = iswtF K (c0 :: cs) w axis := by
  unfold iswtF
  refine bind_congr_ok fun p hp => bind_congr_ok fun md hmd => ?_
  obtain ⟨t, h1, hm⟩ := checkSame_headMd (ds := p.2) hp hmd
  cases h1
  simp only [createTensorF, hm, h, iswtLoopF_tap]

end

/-- A case: for float64 data, a library that spoils taps converted to float32 computes the same; and for float32 data it does
not. -/
example : (∀ (w : Wavelet ℚ) (mode : Option String) (level : Option Int) (axis : AxisHint),
      wavedecF { exactKernels ℚ with tap := fun d y => if d = .float64 then y else 0 } (exX : Tensor ℚ) w mode level axis =
        wavedec exX w mode level axis) ∧
    ((fun d y => if d = DType.float64 then y else 0 : DType → ℚ → ℚ) .float32 ≠ (exactKernels ℚ).tap .float32) := by
  refine ⟨fun w mode level axis => ?_, fun e => ?_⟩
  · rw [c74_own_dtype, c74_exact.2.1]
    funext y
    exact if_pos rfl
  · exact absurd (congrFun e 1) (by simp [exactKernels])

end Props
end Verif
