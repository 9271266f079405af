/-
Properties C01–C05, C13, C14, C48: the one-dimensional convolution transforms
`wavedec` / `waverec` (src/ptwt/conv_transform.py).
-/
import Verif.Lemmas.Char1
import Verif.Lemmas.Lin
import Mathlib.Algebra.Field.Rat
import Mathlib.Tactic.NormNum

namespace Verif.Props
open Tensor Spec
variable {R : Type}

/-! ### A concrete filter bank for the examples: the Haar bank with rational taps -/

/-- The Haar filter bank, normalised to rational taps. -/
def haar : Wavelet ℚ := ⟨[1/2, 1/2], [-1/2, 1/2], [1, 1], [1, -1]⟩

theorem haar_pr : PRBank haar 2 := by
  refine ⟨⟨rfl, rfl, rfl, rfl⟩, ?_, ?_⟩
  · unfold NoDistortion
    simp only [poly, haar, List.length_cons, List.length_nil, Finset.sum_range_succ,
      Finset.sum_range_zero, List.getD_cons_zero, List.getD_cons_succ]
    have h2 : (Polynomial.C 2 : Polynomial ℚ) = 2 := rfl
    have h : (Polynomial.C (1/2) : Polynomial ℚ) + Polynomial.C (1/2) = 1 := by
      rw [← Polynomial.C_add]; norm_num
    simp only [zero_add, pow_zero, mul_one, pow_one, Polynomial.C_1, Polynomial.C_neg, one_mul,
      Nat.reduceSub, h2, show (-1 / 2 : ℚ) = -(1/2) by norm_num]
    linear_combination (2 * Polynomial.X) * h
  · unfold AliasFree
    simp only [poly, haar, List.length_cons, List.length_nil, Finset.sum_range_succ,
      Finset.sum_range_zero, List.getD_cons_zero, List.getD_cons_succ]
    simp only [zero_add, pow_zero, mul_one, pow_one, Polynomial.C_1, Polynomial.C_neg, one_mul,
      show (-1 / 2 : ℚ) = -(1/2) by norm_num, Polynomial.add_comp, Polynomial.mul_comp,
      Polynomial.C_comp, Polynomial.X_comp, Polynomial.neg_comp]
    ring

/-- An example signal of odd length inside a batch, transformed along axis 0. -/
def exX : Tensor ℚ := ofFn ⟨.float64, 0⟩ [3, 2] fun i => (i.getD 0 0 : ℚ) + 10 * (i.getD 1 0 : ℚ)

theorem exX_axes : GoodAxes (.int (-2)) exX.rank 1 :=
  ⟨le_rfl, rfl, ⟨by
    intro a ha
    simp only [resolve, List.mem_singleton] at ha
    subst ha
    exact ⟨by decide, by decide⟩, by decide⟩⟩

/-! ### C02: textbook coefficients -/

/-- **C02.** Whenever `wavedec` succeeds it returns the textbook coefficients of the extension its
mode names, `[cA_L, cD_L, …, cD_1]`, computed line by line along the chosen axis. -/
theorem c02_wavedec_textbook [NonUnitalNonAssocSemiring R] (x : Tensor R) (w : Wavelet R)
    (mode : Option String) (level : Option Int) (axis : AxisHint) (cs : List (Tensor R))
    (hF : 2 ≤ w.len) (hhi : w.decHi.length = w.len)
    (hcs : wavedec x w mode level axis = .ok cs) :
    ∃ m : Mode, (Selects mode m ∨ levels level w.len (x.shape.getD (axis1 axis x.rank) 0) = 0) ∧
      IsDwt m w (axis1 axis x.rank) (levels level w.len (x.shape.getD (axis1 axis x.rank) 0)) x cs := by
  obtain ⟨h1, h2⟩ := wavedec_char (mode := mode) (x := x) (level := level) (h := axis) hF hhi
  by_cases hg : GoodAxes axis x.rank 1 ∧ isDtypeSupported x.md.dtype = true
  · obtain ⟨h3, h4, h5, h6⟩ := h2 hg.1 hg.2
    by_cases hL : levels level w.len (x.shape.getD (axis1 axis x.rank) 0) = 0
    · obtain ⟨cs', e, hd⟩ := h3 hL .zero
      rw [e] at hcs; cases hcs
      exact ⟨.zero, Or.inr hL, hd⟩
    · by_cases hm : ∃ m, Selects mode m
      · obtain ⟨m, hm⟩ := hm
        refine ⟨m, Or.inl hm, ?_⟩
        by_cases ha : ∀ s, s < levels level w.len (x.shape.getD (axis1 axis x.rank) 0) →
            m.Admits w.len (levelLen w.len (x.shape.getD (axis1 axis x.rank) 0) s)
        · obtain ⟨cs', e, hd⟩ := h4 m hm ha
          rw [e] at hcs; cases hcs
          exact hd
        · push Not at ha
          rw [h5 m hm ha] at hcs; cases hcs
      · push Not at hm
        rw [h6 (by omega) hm] at hcs; cases hcs
  · obtain ⟨e, he⟩ := h1 hg
    rw [he] at hcs; cases hcs

/-- The mode of C02 is unique: different modes have different names. -/
theorem selects_unique {mode : Option String} {m m' : Mode} (h : Selects mode m) (h' : Selects mode m') :
    m = m' := by
  rcases h with rfl | ⟨rfl, rfl⟩ <;> rcases h' with h' | ⟨h', rfl⟩
  · revert h'; cases m <;> cases m' <;> simp [Mode.name]
  · cases h'
  · cases h'
  · rfl

/-! ### C03: sizes -/

/-- **C03.** Number of tensors, their shapes, and the recursion for the sizes. -/
theorem c03_wavedec_sizes [NonUnitalNonAssocSemiring R] (x : Tensor R) (w : Wavelet R)
    (mode : Option String) (level : Option Int) (axis : AxisHint) (cs : List (Tensor R))
    (hF : 2 ≤ w.len) (he : w.len % 2 = 0) (hhi : w.decHi.length = w.len)
    (hcs : wavedec x w mode level axis = .ok cs) :
    ∃ size : Nat → Nat,
      size 0 = x.shape.getD (axis1 axis x.rank) 0 ∧
      (∀ s, size (s + 1) = (size s + w.len - 1) / 2) ∧
      cs.length = levels level w.len (size 0) + 1 ∧
      (∀ t, cs[0]? = some t → t.shape = x.shape.set (axis1 axis x.rank) (size (levels level w.len (size 0)))) ∧
      ∀ s d, s < levels level w.len (size 0) → cs[levels level w.len (size 0) - s]? = some d →
        d.shape = x.shape.set (axis1 axis x.rank) (size (s + 1)) := by
  obtain ⟨m, -, hd⟩ := c02_wavedec_textbook x w mode level axis cs hF hhi hcs
  refine ⟨levelLen w.len (x.shape.getD (axis1 axis x.rank) 0), rfl, ?_, hd.length,
    fun t ht => (hd.approx t ht).shape, fun s d hs h => (hd.detail s d hs h).shape⟩
  intro s
  show outLen w.len _ = _
  unfold outLen
  omega

/-! ### C04: when `wavedec` succeeds -/

/-- **C04.** `wavedec` succeeds exactly if the axis argument and the dtype are legal and no level
meets a signal too short for the boundary mode. -/
theorem c04_wavedec_succeeds_iff [NonUnitalNonAssocSemiring R] (x : Tensor R) (w : Wavelet R)
    (mode : Option String) (m : Mode) (level : Option Int) (axis : AxisHint)
    (hm : Selects mode m) (hF : 2 ≤ w.len) (hhi : w.decHi.length = w.len) :
    (∃ cs, wavedec x w mode level axis = .ok cs) ↔
      GoodAxes axis x.rank 1 ∧ (x.md.dtype = .float32 ∨ x.md.dtype = .float64) ∧
      ∀ s, s < levels level w.len (x.shape.getD (axis1 axis x.rank) 0) →
        m.Admits w.len (levelLen w.len (x.shape.getD (axis1 axis x.rank) 0) s) := by
  have hdt : isDtypeSupported x.md.dtype = true ↔ (x.md.dtype = .float32 ∨ x.md.dtype = .float64) := by
    unfold isDtypeSupported; simp
  rw [← hdt]
  obtain ⟨h1, h2⟩ := wavedec_char (mode := mode) (x := x) (level := level) (h := axis) hF hhi
  constructor
  · rintro ⟨cs, hcs⟩
    by_cases hg : GoodAxes axis x.rank 1 ∧ isDtypeSupported x.md.dtype = true
    · refine ⟨hg.1, hg.2, ?_⟩
      obtain ⟨-, -, h5, -⟩ := h2 hg.1 hg.2
      by_contra ha
      push Not at ha
      rw [h5 m hm ha] at hcs; cases hcs
    · obtain ⟨e, he⟩ := h1 hg
      rw [he] at hcs; cases hcs
  · rintro ⟨hg, hd, ha⟩
    obtain ⟨-, h4, -, -⟩ := h2 hg hd
    obtain ⟨cs, e, -⟩ := h4 m hm ha
    exact ⟨cs, e⟩

theorem levelLen_pos {F n : Nat} (hF : 2 ≤ F) (hn : 1 ≤ n) : ∀ s, 1 ≤ levelLen F n s
  | 0 => hn
  | s + 1 => by
    have := levelLen_pos hF hn s
    show 1 ≤ outLen F _
    unfold outLen; omega

/-- **C04, total modes.** In the modes `zero`, `constant` and `symmetric` no non-empty signal and no
number of levels makes `wavedec` fail. -/
theorem c04_total_modes [NonUnitalNonAssocSemiring R] (x : Tensor R) (w : Wavelet R)
    (mode : Option String) (m : Mode) (level : Option Int) (axis : AxisHint)
    (hm : Selects mode m) (hF : 2 ≤ w.len) (hhi : w.decHi.length = w.len)
    (hg : GoodAxes axis x.rank 1) (hdt : x.md.dtype = .float32 ∨ x.md.dtype = .float64)
    (hn : 1 ≤ x.shape.getD (axis1 axis x.rank) 0)
    (htot : m = .zero ∨ m = .constant ∨ m = .symmetric) :
    ∃ cs, wavedec x w mode level axis = .ok cs := by
  rw [c04_wavedec_succeeds_iff x w mode m level axis hm hF hhi]
  refine ⟨hg, hdt, fun s _ => ?_⟩
  have := levelLen_pos hF hn s
  rcases htot with rfl | rfl | rfl
  · simp only [Mode.Admits]; omega
  · exact this
  · exact this

/-- **C04, partial modes.** `reflect` fails (with a RuntimeError) exactly if some level sees a signal
with `F-2 + n%2 ≥ n`. -/
theorem c04_reflect_fails_iff [NonUnitalNonAssocSemiring R] (x : Tensor R) (w : Wavelet R)
    (level : Option Int) (axis : AxisHint) (hF : 2 ≤ w.len) (hhi : w.decHi.length = w.len)
    (hg : GoodAxes axis x.rank 1) (hdt : x.md.dtype = .float32 ∨ x.md.dtype = .float64) :
    wavedec x w (some "reflect") level axis = .error .runtimeError ↔
      ∃ s, s < levels level w.len (x.shape.getD (axis1 axis x.rank) 0) ∧
        levelLen w.len (x.shape.getD (axis1 axis x.rank) 0) s ≤
          w.len - 2 + levelLen w.len (x.shape.getD (axis1 axis x.rank) 0) s % 2 := by
  have hd : isDtypeSupported x.md.dtype = true := by unfold isDtypeSupported; simpa using hdt
  obtain ⟨-, h2⟩ := wavedec_char (mode := some "reflect") (x := x) (level := level) (h := axis) hF hhi
  obtain ⟨-, h4, h5, -⟩ := h2 hg hd
  have hm : Selects (some "reflect") .reflect := Or.inl rfl
  constructor
  · intro he
    by_contra hc
    push Not at hc
    obtain ⟨cs, e, -⟩ := h4 .reflect hm fun s hs => hc s hs
    rw [e] at he; cases he
  · rintro ⟨s, hs, hle⟩
    exact h5 .reflect hm ⟨s, hs, by simp only [Mode.Admits]; omega⟩

/-- **C04, partial modes.** On non-empty signals `periodic` fails (with a RuntimeError) exactly if
some level sees a signal with `F-2 + n%2 > n`. -/
theorem c04_periodic_fails_iff [NonUnitalNonAssocSemiring R] (x : Tensor R) (w : Wavelet R)
    (level : Option Int) (axis : AxisHint) (hF : 2 ≤ w.len) (hhi : w.decHi.length = w.len)
    (hg : GoodAxes axis x.rank 1) (hdt : x.md.dtype = .float32 ∨ x.md.dtype = .float64)
    (hn : 1 ≤ x.shape.getD (axis1 axis x.rank) 0) :
    wavedec x w (some "periodic") level axis = .error .runtimeError ↔
      ∃ s, s < levels level w.len (x.shape.getD (axis1 axis x.rank) 0) ∧
        levelLen w.len (x.shape.getD (axis1 axis x.rank) 0) s <
          w.len - 2 + levelLen w.len (x.shape.getD (axis1 axis x.rank) 0) s % 2 := by
  have hd : isDtypeSupported x.md.dtype = true := by unfold isDtypeSupported; simpa using hdt
  obtain ⟨-, h2⟩ := wavedec_char (mode := some "periodic") (x := x) (level := level) (h := axis) hF hhi
  obtain ⟨-, h4, h5, -⟩ := h2 hg hd
  have hm : Selects (some "periodic") .periodic := Or.inl rfl
  constructor
  · intro he
    by_contra hc
    push Not at hc
    obtain ⟨cs, e, -⟩ := h4 .periodic hm fun s hs => ⟨hc s hs, levelLen_pos hF hn s⟩
    rw [e] at he; cases he
  · rintro ⟨s, hs, hle⟩
    exact h5 .periodic hm ⟨s, hs, by simp only [Mode.Admits]; omega⟩

/-- An unknown mode string is a ValueError as soon as a level is computed. -/
theorem c04_unknown_mode [NonUnitalNonAssocSemiring R] (x : Tensor R) (w : Wavelet R)
    (mode : Option String) (level : Option Int) (axis : AxisHint)
    (hm : ∀ m, ¬ Selects mode m) (hF : 2 ≤ w.len) (hhi : w.decHi.length = w.len)
    (hg : GoodAxes axis x.rank 1) (hdt : x.md.dtype = .float32 ∨ x.md.dtype = .float64)
    (hL : 0 < levels level w.len (x.shape.getD (axis1 axis x.rank) 0)) :
    wavedec x w mode level axis = .error .valueError := by
  have hd : isDtypeSupported x.md.dtype = true := by unfold isDtypeSupported; simpa using hdt
  obtain ⟨-, h2⟩ := wavedec_char (mode := mode) (x := x) (level := level) (h := axis) hF hhi
  exact (h2 hg hd).2.2.2 hL hm

/-- The hypotheses of C02–C04 are met by a batch of odd-length signals, two levels, Haar. -/
theorem ex_wavedec : ∃ cs, wavedec exX haar (some "symmetric") (some 2) (.int (-2)) = .ok cs :=
  c04_total_modes exX haar _ .symmetric _ _ (Or.inl rfl) (by decide) rfl exX_axes (Or.inr rfl)
    (by decide) (Or.inr (Or.inr rfl))

/-- … and both failure cases occur: reflecting 1 sample, wrapping 1 sample twice. -/
example : wavedec (ofFn ⟨.float32, 0⟩ [1] fun _ => (1 : ℚ)) haar (some "reflect") (some 1) .none
    = .error .runtimeError := by
  rw [c04_reflect_fails_iff _ _ _ _ (by decide) rfl ⟨le_rfl, rfl, ⟨by
    intro a ha
    have : a = -1 := by simpa [resolve] using ha
    subst this; exact ⟨by decide, by decide⟩, by decide⟩⟩ (Or.inl rfl)]
  exact ⟨0, by decide, by decide⟩

/-! ### C01: perfect reconstruction -/

/-- **C01.** Whenever `wavedec` succeeds with an even-length perfect reconstruction bank, `waverec`
succeeds on its result and returns the input: the same tensor if the length is even or no level was
computed, otherwise the input with one more sample, which continues it by the boundary extension. -/
theorem c01_perfect_reconstruction [Field R] [CharZero R] (x : Tensor R) (w : Wavelet R) (F : Nat)
    (mode : Option String) (level : Option Int) (axis : AxisHint) (cs : List (Tensor R))
    (hw : PRBank w F) (hF : 2 ≤ F) (he : F % 2 = 0)
    (hcs : wavedec x w mode level axis = .ok cs) :
    ∃ z, waverec cs w axis = .ok z ∧ z.md = x.md ∧
      (cs.length = 1 → z = x) ∧
      (x.shape.getD (axis1 axis x.rank) 0 % 2 = 0 → z = x) ∧
      (1 < cs.length → x.shape.getD (axis1 axis x.rank) 0 % 2 = 1 →
        z.shape = x.shape.set (axis1 axis x.rank) (x.shape.getD (axis1 axis x.rank) 0 + 1)) ∧
      ∀ idx, InB x.shape idx → z.get idx = x.get idx := by
  have hFw : w.len = F := hw.len.1
  have hhi : w.decHi.length = w.len := by rw [hFw]; exact hw.len.2.1
  set a := axis1 axis x.rank with ha
  set n := x.shape.getD a 0 with hn
  set L := levels level w.len n with hL
  obtain ⟨h1, h2⟩ := wavedec_char (mode := mode) (x := x) (level := level) (h := axis)
    (by omega : 2 ≤ w.len) hhi
  have hg : GoodAxes axis x.rank 1 ∧ isDtypeSupported x.md.dtype = true := by
    by_contra hg
    obtain ⟨e, he⟩ := h1 hg
    rw [he] at hcs; cases hcs
  obtain ⟨h3, h4, h5, h6⟩ := h2 hg.1 hg.2
  have hmode : ∃ m : Mode, IsDwt m w a L x cs ∧ ∀ s, s < L → m.Admits F (levelLen F n s) := by
    by_cases hL0 : L = 0
    · obtain ⟨cs', e, hd⟩ := h3 hL0 .zero
      rw [e] at hcs; cases hcs
      exact ⟨.zero, hd, fun s hs => absurd hs (by omega)⟩
    · by_cases hm : ∃ m, Selects mode m
      · obtain ⟨m, hm⟩ := hm
        by_cases hadm : ∀ s, s < L → m.Admits w.len (levelLen w.len n s)
        · obtain ⟨cs', e, hd⟩ := h4 m hm hadm
          rw [e] at hcs; cases hcs
          rw [hFw] at hadm
          exact ⟨m, hd, hadm⟩
        · push Not at hadm
          rw [h5 m hm hadm] at hcs; cases hcs
      · push Not at hm
        rw [h6 (Nat.pos_of_ne_zero hL0) hm] at hcs; cases hcs
  obtain ⟨m, hd, hadm⟩ := hmode
  obtain ⟨z, ez, hz0, hz1⟩ := waverec_isDwt hw hF he hg.1 hg.2 hadm hd
  have hax : a < x.shape.length := axis1_lt hg.1
  refine ⟨z, ez, ?_, ?_, ?_, ?_, ?_⟩
  · rcases Nat.eq_zero_or_pos L with h | h
    · rw [hz0 h]
    · exact (hz1 h).md
  · intro h
    exact hz0 (by have := hd.length; omega)
  · intro heven
    rcases Nat.eq_zero_or_pos L with h | h
    · exact hz0 h
    · have := hz1 h
      rw [← ha, ← hn, heven, Nat.add_zero] at this
      have hs : z.shape = x.shape := by rw [this.shape, hn, set_getD_self hax]
      apply Tensor.ext' this.md hs
      intro idx hidx
      rw [this.get idx hidx]
      rw [hs] at hidx
      have hlt : idx.getD a 0 < n := hidx.getD_lt hax
      rw [ext_inside m _ hlt]
      unfold line
      rw [set_getD_self (by rw [hidx.length_eq]; exact hax)]
  · intro hl hodd
    have := hz1 (by have := hd.length; omega)
    rw [this.shape, ← ha, ← hn, hodd]
  · intro idx hidx
    rcases Nat.eq_zero_or_pos L with h | h
    · rw [hz0 h]
    · have := hz1 h
      rw [← ha, ← hn] at this
      have hlt : idx.getD a 0 < n := hidx.getD_lt hax
      have hin : InB z.shape idx := by
        rw [this.shape]
        have h1 : InB (x.shape.set a (x.shape.getD a 0)) idx := by rw [set_getD_self hax]; exact hidx
        have h2 := (inB_set_iff (s := x.shape.set a (n + n % 2)) (a := a) (x := x.shape.getD a 0)
          (idx := idx) (j := idx.getD a 0) (by rw [List.length_set]; exact hax)
          (by rw [List.set_set]; exact h1)).mpr (by rw [getD_set_self hax]; omega)
        rwa [set_getD_self (by rw [hidx.length_eq]; exact hax)] at h2
      rw [this.get idx hin, ext_inside m _ hlt]
      unfold line
      rw [set_getD_self (by rw [hidx.length_eq]; exact hax)]

/-- The hypotheses of C01 are met: two Haar levels along axis 0 of an odd-length batch. -/
example : ∃ cs z, wavedec exX haar (some "symmetric") (some 2) (.int (-2)) = .ok cs ∧
    waverec cs haar (.int (-2)) = .ok z ∧ z.shape = [4, 2] := by
  obtain ⟨cs, hcs⟩ := ex_wavedec
  obtain ⟨z, h1, -, -, -, h2, -⟩ := c01_perfect_reconstruction exX haar 2 _ _ _ cs haar_pr (by decide)
    rfl hcs
  refine ⟨cs, z, hcs, h1, h2 ?_ rfl⟩
  obtain ⟨m, -, hd⟩ := c02_wavedec_textbook exX haar _ _ _ cs (by decide) rfl hcs
  rw [hd.length]
  exact (by decide : 1 < levels (some 2) haar.len (exX.shape.getD (axis1 (.int (-2)) exX.rank) 0) + 1)

/-! ### C05: linearity -/

/-- **C05.** `wavedec` is linear: on `x`, `y` and `z = c x + y` it raises the same exception three
times or returns coefficients with `dz = c dx + dy`, in equal shapes. -/
theorem c05_wavedec_linear [CommSemiring R] (c : R) (x y z : Tensor R) (h : Lin c x y z)
    (w : Wavelet R) (mode : Option String) (level : Option Int) (axis : AxisHint) :
    Three (Forall₃ (Lin c)) (wavedec x w mode level axis) (wavedec y w mode level axis)
      (wavedec z w mode level axis) :=
  lin_wavedec h w mode level axis

/-- **C05.** `waverec` is linear in the coefficient list. -/
theorem c05_waverec_linear [CommSemiring R] (c : R) (xs ys zs : List (Tensor R))
    (h : Forall₃ (Lin c) xs ys zs) (w : Wavelet R) (axis : AxisHint) :
    Three (Lin c) (waverec xs w axis) (waverec ys w axis) (waverec zs w axis) :=
  lin_waverec h w axis

/-- The hypothesis is met by every pair of equally shaped tensors: their combination exists. -/
theorem lin_exists [CommSemiring R] (c : R) (x y : Tensor R) (hm : y.md = x.md)
    (hs : y.shape = x.shape) : ∃ z, Lin c x y z := by
  refine ⟨ofFn x.md x.shape fun i => c * x.get i + y.get i, hm, rfl, hs, rfl, ?_⟩
  intro i
  rw [ofFn_get]
  split_ifs with h
  · rfl
  · rw [x.supp i h, y.supp i (by rwa [hs])]; simp

/-! ### C13: inconsistent coefficients -/

/-- **C13.** If some detail has a size which is neither the size reconstructed so far nor one less,
`waverec` raises AssertionError (`SizeClash` finds the first such detail; the coefficients agree
otherwise). -/
theorem c13_size_clash [NonUnitalNonAssocSemiring R] (w : Wavelet R) (F : Nat) (axis : AxisHint)
    (md : Meta) (S : List Nat) (c0 : Tensor R) (rest : List (Tensor R)) (hF : 2 ≤ F)
    (h0 : w.recLo.length = F) (h1 : w.recHi.length = F)
    (hg : GoodAxes axis S.length 1) (hdt : md.dtype = .float32 ∨ md.dtype = .float64)
    (hcs : SameBut (axis1 axis S.length) md S (c0 :: rest)) :
    waverec (c0 :: rest) w axis = .error .assertionError ↔
      SizeClash F (c0.shape.getD (axis1 axis S.length) 0)
        (rest.map (·.shape.getD (axis1 axis S.length) 0)) := by
  have hd : isDtypeSupported md.dtype = true := by unfold isDtypeSupported; simpa using hdt
  obtain ⟨g1, g2⟩ := waverec_gen hF h0 h1 hg hd hcs
  by_cases hc : Consistent F (c0.shape.getD (axis1 axis S.length) 0)
      (rest.map (·.shape.getD (axis1 axis S.length) 0))
  · obtain ⟨z, e, -⟩ := g1 hc
    constructor
    · intro h; rw [e] at h; cases h
    · intro h
      exfalso
      revert hc h
      generalize c0.shape.getD (axis1 axis S.length) 0 = K
      generalize (rest.map (·.shape.getD (axis1 axis S.length) 0)) = ds
      clear g1 g2 e
      induction ds generalizing K with
      | nil => exact fun _ h => h
      | cons d ds ih =>
        cases ds with
        | nil => exact fun _ h => h
        | cons n ds =>
          rintro ⟨-, -, hn, hc⟩ ⟨-, -, h | h⟩
          · exact h hn
          · exact ih n hc h.2
  · rcases g2 hc with ⟨h2, h3⟩ | ⟨h2, h3⟩
    · exact ⟨fun _ => h2, fun _ => h3⟩
    · constructor
      · intro h; rw [h3] at h; cases h
      · intro h; exact absurd h h2

/-- **C13, complement.** On consistent coefficients `waverec` succeeds and computes the textbook
inverse transform of every line. -/
theorem c13_waverec_textbook [NonUnitalNonAssocSemiring R] (w : Wavelet R) (F : Nat) (axis : AxisHint)
    (md : Meta) (S : List Nat) (c0 : Tensor R) (rest : List (Tensor R)) (hF : 2 ≤ F)
    (h0 : w.recLo.length = F) (h1 : w.recHi.length = F)
    (hg : GoodAxes axis S.length 1) (hdt : md.dtype = .float32 ∨ md.dtype = .float64)
    (hcs : SameBut (axis1 axis S.length) md S (c0 :: rest))
    (hc : Consistent F (c0.shape.getD (axis1 axis S.length) 0)
      (rest.map (·.shape.getD (axis1 axis S.length) 0))) :
    ∃ z, waverec (c0 :: rest) w axis = .ok z ∧ z.md = md ∧
      z.shape = S.set (axis1 axis S.length) (idwtLen F (c0.shape.getD (axis1 axis S.length) 0)
        (rest.map (·.shape.getD (axis1 axis S.length) 0))) ∧
      ∀ idx, InB z.shape idx → z.get idx =
        idwt w.recLo w.recHi F (line c0 (axis1 axis S.length) idx)
          (rest.map fun c => (c.shape.getD (axis1 axis S.length) 0, line c (axis1 axis S.length) idx))
          (idx.getD (axis1 axis S.length) 0) := by
  have hd : isDtypeSupported md.dtype = true := by unfold isDtypeSupported; simpa using hdt
  exact (waverec_gen hF h0 h1 hg hd hcs).1 hc

/-- A size clash: approximation and detail of size 2, next detail of size 7 (Haar). -/
example : waverec [ofFn ⟨.float32, 0⟩ [2] fun _ => (1 : ℚ), ofFn ⟨.float32, 0⟩ [2] fun _ => 1,
    ofFn ⟨.float32, 0⟩ [7] fun _ => 1] haar .none = .error .assertionError := by
  refine (c13_size_clash haar 2 .none ⟨.float32, 0⟩ [2] _ _ le_rfl rfl rfl ⟨le_rfl, rfl, ⟨by
    intro a ha
    have : a = -1 := by simpa [resolve] using ha
    subst this; exact ⟨by decide, by decide⟩, by decide⟩⟩ (Or.inl rfl) ⟨?_, ?_⟩).mpr ?_
  · intro c hc; simp only [List.mem_cons, List.not_mem_nil, or_false] at hc
    rcases hc with rfl | rfl | rfl <;> rfl
  · intro c hc; simp only [List.mem_cons, List.not_mem_nil, or_false] at hc
    rcases hc with rfl | rfl | rfl <;> rfl
  · refine ⟨rfl, by decide, Or.inl ?_⟩
    decide

/-! ### C14: odd filter lengths -/

theorem rest_sizes [NonUnitalNonAssocSemiring R] {m : Mode} {w : Wavelet R} {a L : Nat} {x c0 : Tensor R}
    {rest : List (Tensor R)} (ha : a < x.shape.length) (hd : IsDwt m w a L x (c0 :: rest)) :
    c0.shape.getD a 0 = levelLen w.len (x.shape.getD a 0) L ∧
    rest.map (·.shape.getD a 0) =
      ((List.range L).map fun s => levelLen w.len (x.shape.getD a 0) (s + 1)).reverse := by
  have hl : rest.length = L := by simpa using hd.length
  refine ⟨by rw [(hd.approx c0 rfl).shape, getD_set_self ha], ?_⟩
  apply List.ext_getElem (by simp [hl])
  intro i h1 h2
  simp only [List.length_map] at h1
  rw [List.getElem_reverse]
  simp only [List.getElem_map, List.length_map, List.length_range, List.getElem_range]
  rw [(hd.detail (L - 1 - i) rest[i] (by omega) (by
    rw [show L - (L - 1 - i) = i + 1 by omega, List.getElem?_cons_succ, List.getElem?_eq_getElem])).shape,
    getD_set_self ha]

theorem idwtLen_range (F n : Nat) : ∀ (L K : Nat), 1 ≤ L →
    idwtLen F K (((List.range L).map fun s => levelLen F n (s + 1)).reverse) = 2 * levelLen F n 1 + 2 - F
  | 1, K, _ => rfl
  | L + 2, K, _ => by
    rw [List.range_succ, List.map_append, List.map_singleton, List.reverse_append,
      List.reverse_singleton, List.singleton_append]
    have ih := idwtLen_range F n (L + 1) (levelLen F n (L + 1)) (by omega)
    rw [List.range_succ, List.map_append, List.map_singleton, List.reverse_append,
      List.reverse_singleton, List.singleton_append] at ih ⊢
    exact ih

/-- **C14.** With an odd filter length the last sample of an even-length signal is lost: every
multi-level transform of it is either rejected by `waverec` or reconstructed one sample too short. -/
theorem c14_odd_filter_loses_sample [NonUnitalNonAssocSemiring R] (x : Tensor R) (w : Wavelet R)
    (F : Nat) (mode : Option String) (level : Option Int) (axis : AxisHint) (cs : List (Tensor R))
    (hw : HasLen w F) (hF : 2 ≤ F) (hodd : F % 2 = 1)
    (hcs : wavedec x w mode level axis = .ok cs) (hlen : 1 < cs.length)
    (heven : x.shape.getD (axis1 axis x.rank) 0 % 2 = 0) :
    (∃ e, waverec cs w axis = .error e) ∨
    ∃ z, waverec cs w axis = .ok z ∧
      z.shape = x.shape.set (axis1 axis x.rank) (x.shape.getD (axis1 axis x.rank) 0 - 1) := by
  have hFw : w.len = F := hw.1
  have hhi : w.decHi.length = w.len := by rw [hFw]; exact hw.2.1
  obtain ⟨h1, -⟩ := wavedec_char (mode := mode) (x := x) (level := level) (h := axis)
    (by omega : 2 ≤ w.len) hhi
  have hg : GoodAxes axis x.rank 1 ∧ isDtypeSupported x.md.dtype = true := by
    by_contra hg
    obtain ⟨e, he⟩ := h1 hg
    rw [he] at hcs; cases hcs
  obtain ⟨m, -, hd⟩ := c02_wavedec_textbook x w mode level axis cs (by omega) hhi hcs
  have hax : axis1 axis x.rank < x.shape.length := axis1_lt hg.1
  set a := axis1 axis x.rank with ha
  set n := x.shape.getD a 0 with hn
  set L := levels level w.len n with hL
  obtain ⟨c0, rest, rfl⟩ : ∃ c0 rest, cs = c0 :: rest := by
    cases cs with
    | nil => simp at hlen
    | cons a l => exact ⟨a, l, rfl⟩
  have hrl : rest.length = L := by simpa using hd.length
  have hL1 : 1 ≤ L := by simp at hlen; omega
  have hsb : SameBut (axis1 axis x.shape.length) x.md x.shape (c0 :: rest) := by
    constructor
    · intro c hc
      obtain ⟨i, hi⟩ := List.getElem?_of_mem hc
      rcases Nat.eq_zero_or_pos i with rfl | hpos
      · exact (hd.approx c hi).md
      · have hil : i < L + 1 := by rw [← hd.length]; exact (List.getElem?_eq_some_iff.mp hi).1
        exact (hd.detail (L - i) c (by omega) (by rw [show L - (L - i) = i by omega]; exact hi)).md
    · intro c hc
      show _ = x.shape.set a (c.shape.getD a 0)
      obtain ⟨i, hi⟩ := List.getElem?_of_mem hc
      rcases Nat.eq_zero_or_pos i with rfl | hpos
      · rw [(hd.approx c hi).shape, getD_set_self hax]
      · have hil : i < L + 1 := by rw [← hd.length]; exact (List.getElem?_eq_some_iff.mp hi).1
        rw [(hd.detail (L - i) c (by omega) (by rw [show L - (L - i) = i by omega]; exact hi)).shape,
          getD_set_self hax]
  obtain ⟨g1, g2⟩ := waverec_gen hF hw.2.2.1 hw.2.2.2 (S := x.shape) hg.1 hg.2 hsb
  by_cases hc : Consistent F (c0.shape.getD (axis1 axis x.shape.length) 0)
      (rest.map (·.shape.getD (axis1 axis x.shape.length) 0))
  · right
    obtain ⟨z, ez, -, hzs, -⟩ := g1 hc
    refine ⟨z, ez, ?_⟩
    rw [hzs]
    have hs := rest_sizes (c0 := c0) (rest := rest) hax hd
    change x.shape.set a (idwtLen F (c0.shape.getD a 0) (rest.map (·.shape.getD a 0))) = _
    rw [hs.2, hFw, idwtLen_range F _ L _ hL1]
    congr 1
    show 2 * outLen F n + 2 - F = n - 1
    unfold outLen
    omega
  · left
    rcases g2 hc with ⟨-, h3⟩ | ⟨-, h3⟩
    · exact ⟨_, h3⟩
    · exact ⟨_, h3⟩

/-- A perfect reconstruction bank padded by a zero tap to the odd length 3. -/
def oddBank : Wavelet ℚ := ⟨[1/2, 1/2, 0], [-1/2, 1/2, 0], [1, 1, 0], [1, -1, 0]⟩

/-- C14 is not vacuous: a signal of length 4 comes back with length 3. -/
example : ∃ cs, wavedec (ofFn ⟨.float64, 0⟩ [4] fun i => (i.getD 0 0 : ℚ)) oddBank (some "zero") (some 1) .none
      = .ok cs ∧ 1 < cs.length := by
  have hg : GoodAxes .none (ofFn ⟨.float64, 0⟩ [4] fun i => (i.getD 0 0 : ℚ)).rank 1 :=
    ⟨le_rfl, rfl, ⟨by
      intro a ha
      have : a = -1 := by simpa [resolve] using ha
      subst this; exact ⟨by decide, by decide⟩, by decide⟩⟩
  obtain ⟨cs, h⟩ := c04_total_modes (ofFn ⟨.float64, 0⟩ [4] fun i => (i.getD 0 0 : ℚ)) oddBank
    (some "zero") .zero (some 1) .none (Or.inl rfl) (by decide) rfl hg (Or.inr rfl) (by decide)
    (Or.inl rfl)
  refine ⟨cs, h, ?_⟩
  obtain ⟨m, -, hd⟩ := c02_wavedec_textbook _ oddBank _ _ _ cs (by decide) rfl h
  rw [hd.length]; decide

/-! ### C48: automatic level -/

/-- **C48.** pywt's automatic level is the largest `L` with `(F-1) 2^L ≤ n`, 0 if there is none … -/
theorem c48_auto_level (F n : Nat) (hF : 2 ≤ F) :
    ∃ L, dwtMaxLevel n F = .ok L ∧ (n < F - 1 → L = 0) ∧ (F - 1 ≤ n → (F - 1) * 2 ^ L ≤ n) ∧
      ∀ L', (F - 1) * 2 ^ L' ≤ n → L' ≤ L := by
  refine ⟨autoLevel F n, autoLevel_eq hF, ?_, ?_, ?_⟩
  · intro h
    unfold autoLevel
    rw [Nat.findGreatest_eq_zero_iff]
    intro k _ _ hk
    have := Nat.mul_le_mul_left (F - 1) (Nat.one_le_two_pow (n := k))
    omega
  · intro h
    unfold autoLevel
    exact Nat.findGreatest_spec (P := fun L => (F - 1) * 2 ^ L ≤ n) (m := 0) (by omega) (by simpa using h)
  · intro L' h
    unfold autoLevel
    refine Nat.le_findGreatest (P := fun L => (F - 1) * 2 ^ L ≤ n) ?_ h
    have h1 : L' < 2 ^ L' := Nat.lt_two_pow_self
    have h2 : 2 ^ L' ≤ (F - 1) * 2 ^ L' := Nat.le_mul_of_pos_left _ (by omega)
    omega

/-- … `wavedec(level=None)` computes exactly that many levels … -/
theorem c48_wavedec_auto [NonUnitalNonAssocSemiring R] (x : Tensor R) (w : Wavelet R)
    (mode : Option String) (axis : AxisHint) (cs : List (Tensor R))
    (hF : 2 ≤ w.len) (hhi : w.decHi.length = w.len)
    (hcs : wavedec x w mode none axis = .ok cs) :
    ∃ L, dwtMaxLevel (x.shape.getD (axis1 axis x.rank) 0) w.len = .ok L ∧ cs.length = L + 1 := by
  obtain ⟨m, -, hd⟩ := c02_wavedec_textbook x w mode none axis cs hF hhi hcs
  exact ⟨_, autoLevel_eq hF, hd.length⟩

/-- … and no approximation on the way is shorter than `F-1`. -/
theorem c48_no_short_approximation (F n : Nat) (hF : 2 ≤ F) (h : F - 1 ≤ n) (s : Nat)
    (hs : s ≤ autoLevel F n) : F - 1 ≤ levelLen F n s := by
  have key : ∀ s, n ≤ 2 ^ s * levelLen F n s := by
    intro s
    induction s with
    | zero => simp [levelLen]
    | succ s ih =>
      have : levelLen F n s ≤ 2 * levelLen F n (s + 1) := by
        show _ ≤ 2 * outLen F _
        unfold outLen
        omega
      calc n ≤ 2 ^ s * levelLen F n s := ih
        _ ≤ 2 ^ s * (2 * levelLen F n (s + 1)) := Nat.mul_le_mul_left _ this
        _ = 2 ^ (s + 1) * levelLen F n (s + 1) := by ring
  have h1 : (F - 1) * 2 ^ autoLevel F n ≤ n := by
    unfold autoLevel
    exact Nat.findGreatest_spec (P := fun L => (F - 1) * 2 ^ L ≤ n) (m := 0) (by omega) (by simpa using h)
  have h2 : (F - 1) * 2 ^ s ≤ n :=
    le_trans (Nat.mul_le_mul_left _ (Nat.pow_le_pow_right (by omega) hs)) h1
  have h3 := key s
  have : (F - 1) * 2 ^ s ≤ levelLen F n s * 2 ^ s := by rw [Nat.mul_comm (levelLen F n s)]; omega
  exact Nat.le_of_mul_le_mul_right this (by positivity)

end Verif.Props
