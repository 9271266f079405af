/-
Concrete cases for the theorems about locality, sampled transforms, bounds, reconstruction from free coefficients, rounding
and sparse matrices (C33–C37, C53, C58, C59, C70, C73, C74).
-/
import Verif.Witness.Misc
import Verif.Props.Local
import Verif.Props.Sampled
import Verif.Props.RecGenN
import Verif.Props.RecGenSep
import Verif.Props.Rounding
import Verif.Props.Sparse
import Verif.Props.WaveletArg

namespace Verif.Witness
open Tensor Spec Props

/-! ### C58 -/

/-- A constant volume. -/
def cub (n : Nat) : Tensor ℚ := ofFn ⟨.float64, 0⟩ [n, n, n] fun _ => 5

theorem cub_axes (n : Nat) : axesOf .none (cub n).rank 3 = [0, 1, 2] := by
  show axesOf .none 3 3 = [0, 1, 2]
  decide

theorem cub_plane {n i j k : Nat} (hi : i < n) (hj : j < n) (hk : k < n) : plane (cub n) [0, 1, 2] [0, 0, 0] [i, j, k] = 5 := by
  unfold plane cub
  rw [if_pos (by rfl)]
  exact ofFn_get_of _ _ ⟨hi, hj, hk, trivial⟩

theorem lev1 (ns : List Nat) : 0 < levelsN (some 1) spline.len ns := by
  unfold levelsN
  exact Nat.one_pos

theorem cub_zero (n : Nat) : ∃ c, wavedec3 (cub n) spline (some "zero") (some 1) .none = .ok c :=
  (c18_wavedec3_succeeds_iff (cub n) spline (some "zero") .zero (some 1) .none (Or.inl rfl) (by decide) rfl (lev1 _)).mpr
    ⟨goodAxes_none (by decide) (le_refl 3), Or.inr rfl, fun s _ k _ => by
      show 4 ≤ 4 + k + k % 2
      omega⟩

theorem cub_wins : WindowsFit (2 ^ 1) [⟨0, 7, 1⟩, ⟨0, 7, 1⟩, ⟨0, 7, 0⟩] (sizes (axesOf .none (cub 7).rank 3) (cub 7).shape)
    (sizes (axesOf .none (cub 9).rank 3) (cub 9).shape) := by
  rw [cub_axes, cub_axes]
  exact ⟨by decide, by decide, by decide, by decide, by decide, by decide, trivial⟩

theorem cub_same : SameOn spline.len 0 (2 ^ 1) [⟨0, 7, 1⟩, ⟨0, 7, 1⟩, ⟨0, 7, 0⟩] (cub 7) (axesOf .none (cub 7).rank 3) [0, 0, 0]
    (cub 9) (axesOf .none (cub 9).rank 3) [0, 0, 0] := by
  rw [cub_axes, cub_axes]
  intro ks hks
  match ks, hks with
  | [i, j, k], ⟨h1, h2, h3, _⟩ =>
    have e1 : i < 7 := by have := h1.2; simp at this; omega
    have e2 : j < 7 := by have := h2.2; simp at this; omega
    have e3 : k < 7 := by have := h3.2; simp at this; omega
    rw [cub_plane e1 e2 e3]
    exact (cub_plane (n := 9) (by simp; omega) (by simp; omega) (by simp; omega)).symm

theorem in7 : InB (cub 7).shape [0, 0, 0] := ⟨by decide, by decide, by decide, trivial⟩
theorem in9 : InB (cub 9).shape [0, 0, 0] := ⟨by decide, by decide, by decide, trivial⟩

example := (cub_zero 7).imp fun _ h => (cub_zero 9).imp fun _ h' =>
  c58_wavedec3 (by decide) rfl (lev1 _) (lev1 _) h h' cub_wins in7 in9 cub_same

theorem cub_fs (n : Nat) : ∃ c, fswavedec3 (cub n) spline (some "zero") (some 1) .none = .ok c :=
  (c19_fswavedec3 (cub n) spline (some "zero") (some 1) .none (by decide) rfl (lev1 _)).1.mp (cub_zero n)
example := (cub_fs 7).imp fun _ h => (cub_fs 9).imp fun _ h' =>
  c58_fswavedec3 (by decide) rfl h h' cub_wins in7 in9 cub_same

/-- A constant image. -/
def sqr (n : Nat) : Tensor ℚ := ofFn ⟨.float64, 0⟩ [n, n] fun _ => 5

theorem sqr_axes (n : Nat) : axesOf .none (sqr n).rank 2 = [0, 1] := by
  show axesOf .none 2 2 = [0, 1]
  decide

theorem sqr_plane {n i j : Nat} (hi : i < n) (hj : j < n) : plane (sqr n) [0, 1] [0, 0] [i, j] = 5 := by
  unfold plane sqr
  rw [if_pos (by rfl)]
  exact ofFn_get_of _ _ ⟨hi, hj, trivial⟩

theorem sqr_fs (n : Nat) : ∃ c, fswavedec2 (sqr n) spline (some "zero") (some 1) .none = .ok c := by
  obtain ⟨c, hc⟩ := (c16_wavedec2_succeeds_iff (sqr n) spline (some "zero") .zero (some 1) .none (Or.inl rfl) (by decide) rfl).mpr
    ⟨goodAxes_none (by decide) (le_refl 2), Or.inr rfl, fun s _ k _ => by
      show 4 ≤ 4 + k + k % 2
      omega⟩
  exact ⟨_, (c19_fswavedec2 (sqr n) spline (some "zero") (some 1) .none (by decide) rfl (by simp) _).mpr ⟨c, hc, rfl⟩⟩

theorem in27 : InB (sqr 7).shape [0, 0] := ⟨by decide, by decide, trivial⟩
theorem in29 : InB (sqr 9).shape [0, 0] := ⟨by decide, by decide, trivial⟩
example := (sqr_fs 7).imp fun _ h => (sqr_fs 9).imp fun _ h' =>
  c58_fswavedec2 (ws := [⟨0, 7, 1⟩, ⟨0, 7, 0⟩]) (S := 1) (idx := [0, 0]) (idx' := [0, 0]) (by decide) rfl h h' (by
    rw [sqr_axes, sqr_axes]
    exact ⟨by decide, by decide, by decide, by decide, trivial⟩) in27 in29 (by
    rw [sqr_axes, sqr_axes]
    intro ks hks
    match ks, hks with
    | [i, j], ⟨h1, h2, _⟩ =>
      have e1 : i < 7 := by have := h1.2; simp at this; omega
      have e2 : j < 7 := by have := h2.2; simp at this; omega
      rw [sqr_plane e1 e2]
      exact (sqr_plane (n := 9) (by simp; omega) (by simp; omega)).symm)

theorem spline_sum : spline.decHi.sum = 0 := by norm_num [spline]

theorem cub_sym : ∃ c, wavedec3 (cub 7) spline (some "symmetric") (some 1) .none = .ok c :=
  (c18_wavedec3_succeeds_iff (cub 7) spline (some "symmetric") .symmetric (some 1) .none (Or.inl rfl) (by decide) rfl
    (lev1 _)).mpr ⟨goodAxes_none (by decide) (by decide), Or.inr rfl, fun s hs k hk => by
      have : s = 0 := by have : s < 1 := hs; omega
      subst this
      revert k
      show ∀ k ∈ [7, 7, 7], 1 ≤ k
      decide⟩

example := cub_sym.imp fun c h => (c58_constant_nd (c := c) (mode := some "symmetric") (m := .symmetric) (axes := .none) (level := some 1) (v := 5) (by decide) rfl spline_sum (Or.inl rfl) (by decide)
  in7).2 (Or.inl ⟨h, lev1 _⟩) (by
    rw [cub_axes]
    intro ks hks
    match ks, hks with
    | [i, j, k], ⟨h1, h2, h3, _⟩ => exact cub_plane h1 h2 h3)

theorem sqZ : ∃ cs, wavedec exSq spline (some "zero") (some 2) .none = .ok cs :=
  c04_total_modes exSq spline (some "zero") .zero (some 2) .none (.inl rfl) (by decide) rfl (goodAxes_none (by decide) (by decide))
    (.inr rfl) (by decide) (.inl rfl)
theorem sqS : ∃ cs, wavedec exSq spline (some "symmetric") (some 2) .none = .ok cs :=
  c04_total_modes exSq spline (some "symmetric") .symmetric (some 2) .none (.inl rfl) (by decide) rfl (goodAxes_none (by decide) (by decide))
    (.inr rfl) (by decide) (.inr (.inr rfl))

/-- The detail coefficient 2 of level 2 in the modes `zero` and `symmetric`. -/
example : ∃ cs ds d d', wavedec exSq spline (some "zero") (some 2) .none = .ok cs ∧
    wavedec exSq spline (some "symmetric") (some 2) .none = .ok ds ∧ cs[1]? = some d ∧ ds[1]? = some d' ∧
    d.get [1, 2] = d'.get [1, 2] := by
  obtain ⟨cs, hcs⟩ := sqZ
  obtain ⟨ds, hds⟩ := sqS
  obtain ⟨m, -, h1⟩ := c02_wavedec_textbook exSq spline _ _ _ cs (by decide) rfl hcs
  obtain ⟨m', -, h2⟩ := c02_wavedec_textbook exSq spline _ _ _ ds (by decide) rfl hds
  have l1 : cs.length = 3 := h1.length
  have l2 : ds.length = 3 := h2.length
  obtain ⟨d, g1⟩ : ∃ d, cs[1]? = some d := ⟨_, List.getElem?_eq_getElem (by omega)⟩
  obtain ⟨d', g2⟩ : ∃ d, ds[1]? = some d := ⟨_, List.getElem?_eq_getElem (by omega)⟩
  have hsh := (h1.detail 1 d (by decide) g1).shape
  refine ⟨cs, ds, d, d', hcs, hds, g1, g2, c58_mode_independent (by decide) rfl hcs hds (s := 1) (by omega)
    (by rw [l1]; exact g1) (by rw [l2]; exact g2) ?_ ?_⟩
  · rw [hsh]
    exact ⟨by decide, by decide, trivial⟩
  · decide

/-- A constant signal. -/
def five : Tensor ℚ := ofFn ⟨.float64, 0⟩ [8] fun _ => 5
theorem five_line : ∀ t, t < five.shape.getD (axis1 .none five.rank) 0 → line five (axis1 .none five.rank) [3] t = 5 :=
  fun t ht => by
    show five.get [t] = 5
    exact ofFn_get_of _ _ ⟨ht, trivial⟩
theorem in5 : InB five.shape [3] := ⟨by decide, trivial⟩
theorem fiveS : ∃ cs, wavedec five spline (some "symmetric") (some 2) .none = .ok cs :=
  c04_total_modes five spline (some "symmetric") .symmetric (some 2) .none (.inl rfl) (by decide) rfl (goodAxes_none (by decide) (by decide))
    (.inr rfl) (by decide) (.inr (.inr rfl))
theorem fiveW : ∃ cs, swt five spline (some 1) .none = .ok cs := by
  obtain ⟨cs, e, -⟩ := c24_size five spline (some 1) .none (goodAxes_none (by decide) (by decide)) (Or.inr rfl) (by decide) rfl rfl (by decide)
  exact ⟨cs, e⟩
example := fiveS.imp fun cs h => (c58_constant (cs := cs) (level := some 2) (by decide) rfl spline_sum (idx := [3]) in5 five_line).1 (some "symmetric") .symmetric
  (.inl rfl) (by decide) h
example := fiveW.imp fun cs h => (c58_constant (cs := cs) (level := some 1) (by decide) rfl spline_sum (idx := [3]) in5 five_line).2
  rfl (by unfold WrapOk; decide) h (goodAxes_none (by decide) (by decide)) (Or.inr rfl)

/-! ### C24, C73 -/

theorem wrM : WrapOk (exM.shape.getD (axis1 (.int (-2)) exM.rank) 0) 4 2 := by
  unfold WrapOk
  decide
example := c24_shift exM exM5 lazy4 (some 2) (.int (-2)) 5 exM_axes (Or.inr rfl) (by decide) rfl rfl (by decide) wrM exM_shifted

theorem perM (x : Tensor ℚ) (h : x.shape = [12, 2]) (hm : x.md = ⟨.float64, 0⟩) : ∃ cs, wavedec x lazy4 (some "periodic") (some 1) (.int (-2)) = .ok cs := by
  have hr : x.rank = exM.rank := by unfold Tensor.rank; rw [h]; rfl
  obtain ⟨-, h2⟩ := wavedec_char (mode := some "periodic") (x := x) (w := lazy4) (level := some 1) (h := .int (-2)) (by decide) rfl
  obtain ⟨cs, e, -⟩ := (h2 (hr ▸ exM_axes) (by rw [hm]; decide)).2.1 .periodic (Or.inl rfl) (by
    rw [hr, h]
    intro s hs
    have : s = 0 := by have : s < 1 := hs; omega
    subst this
    show 4 - 2 + 12 % 2 ≤ 12 ∧ 1 ≤ 12
    decide)
  exact ⟨cs, e⟩

theorem swM : ∃ ss, swt exM lazy4 (some 1) (.int (-2)) = .ok ss ∧ ss.length = 2 := by
  obtain ⟨ss, e, hl, -⟩ := c24_size exM lazy4 (some 1) (.int (-2)) exM_axes (Or.inr rfl) (by decide) rfl rfl (by decide)
  exact ⟨ss, e, hl⟩

theorem wrM1 {n : Nat} (h : n = 2) : WrapOk (exM.shape.getD (axis1 (.int (-2)) exM.rank) 0) lazy4.len (n - 1) := by
  subst h
  unfold WrapOk
  decide

example := (perM exM5 rfl rfl).imp fun cs h => swM.imp fun ss h' =>
  c73_first_level exM exM5 lazy4 (some 1) (some 1) (.int (-2)) 5 exM_axes (Or.inr rfl) (by decide) rfl rfl (by decide) exM_shifted cs ss h h'.1
    (wrM1 h'.2)

/-- The signals of `exM`, shifted by one sample. -/
def exM1 : Tensor ℚ :=
  ofFn ⟨.float64, 0⟩ [12, 2] fun i => (((i.getD 0 0 + 1) % 12 * ((i.getD 0 0 + 1) % 12) : ℕ) : ℚ) + 10 * (i.getD 1 0 : ℚ)

theorem exM_one : Shifted (axis1 (.int (-2)) exM.rank) 1 exM exM1 := by
  refine ⟨rfl, by decide, fun idx hidx => ?_⟩
  have hidx' : InB [12, 2] idx := hidx
  match idx, hidx' with
  | [i, j], ⟨hi, hj, _⟩ =>
    show exM1.get [i, j] = exM.get [(i + 1) % 12, j]
    rw [exM1, exM, ofFn_get_of _ _ (show InB [12, 2] [i, j] from ⟨hi, hj, trivial⟩), ofFn_get_of _ _ (show InB [12, 2] [(i + 1) % 12, j] from ⟨Nat.mod_lt _ (by decide), hj, trivial⟩)]
    simp

example := (perM exM rfl rfl).imp fun cs h => (perM exM1 rfl rfl).imp fun cs' h1 => swM.imp fun ss h' =>
  c73_interleaved exM exM1 lazy4 (some 1) (some 1) (.int (-2)) exM_axes (Or.inr rfl) (by decide) rfl rfl (by decide) exM_one cs cs' ss h h1 h'.1
    (wrM1 h'.2)

/-! ### C59 -/

example : waverec2 (container (cst [2, 3] 1) [.tuple (cst [2, 2] 2) (cst [2, 2] 3) (cst [2, 2] 4)]) haar .none = .error .valueError :=
  c59_waverec2_band_clash haar 2 .none ⟨.float64, 0⟩ [1, 1] (cst [2, 3] 1) [.tuple (cst [2, 2] 2) (cst [2, 2] 3) (cst [2, 2] 4)]
    [2, 3] [[2, 2]] rfl rfl (goodAxes_none (by decide) (by decide)) (Or.inr rfl) (by decide) (cst_uniform _ _)
    (.cons ⟨_, _, _, rfl, cst_uniform _ _, cst_uniform _ _, cst_uniform _ _⟩ .nil) [2, 2] rfl (by decide)

example : waverec3 (container (cst [2, 3, 1] 1) [cstDict [2, 3, 1] 2, cstDict [4, 7, 2] 3]) haar .none = .error .assertionError :=
  c59_waverec3_size_clash haar 2 .none ⟨.float64, 0⟩ [1, 1, 1] (cst [2, 3, 1] 1)
    [cstDict [2, 3, 1] 2, cstDict [4, 7, 2] 3] [2, 3, 1] [[2, 3, 1], [4, 7, 2]] le_rfl rfl rfl
    (goodAxes_none (by decide) (by decide)) (Or.inr rfl) (by decide) (cst_uniform _ _)
    (.cons (cstDict_ok _ _) (.cons (cstDict_ok _ _) .nil)) ⟨rfl, by decide, Or.inl (by simp [NextFits])⟩

example := c59_fswaverec3_textbook haar 2 .none ⟨.float64, 0⟩ [1, 1, 1] (cst [2, 4, 1] 1)
    [cstDict [2, 3, 1] 2, cstDict [4, 5, 2] 3] [2, 4, 1] [[2, 3, 1], [4, 5, 2]] keys3 le_rfl rfl rfl
    (goodAxes_none (by decide) (by decide)) (Or.inr rfl) (by decide) (by decide) (cst_uniform _ _)
    (.cons (cstDict_ok _ _) (.cons (cstDict_ok _ _) .nil)) ⟨by simp, by simp, trivial⟩

example := c59_waverec2_eq_fswaverec2 haar 2 (.seq [0, 2]) ⟨.float64, 0⟩ [1, 5, 1] (cst [2, 5, 3] 1)
    [.tuple (cst [2, 5, 3] 2) (cst [2, 5, 3] 3) (cst [2, 5, 3] 4),
      .tuple (cst [3, 5, 6] 5) (cst [3, 5, 6] 6) (cst [3, 5, 6] 7)] [2, 3] [[2, 3], [3, 6]] le_rfl rfl rfl
    ⟨by decide, rfl, by simp [ValidAxis, resolve], by decide⟩ (Or.inr rfl) (by decide) (cst_uniform _ _)
    (.cons ⟨_, _, _, rfl, cst_uniform _ _, cst_uniform _ _, cst_uniform _ _⟩
      (.cons ⟨_, _, _, rfl, cst_uniform _ _, cst_uniform _ _, cst_uniform _ _⟩ .nil))
    ⟨rfl, by decide, by simp [NextFits], rfl, by decide⟩

/-! ### C70 -/

theorem cst_abs (s : List Nat) (q : ℚ) (i : List Nat) : |(cst s q).get i| ≤ |q| := by
  unfold cst
  rw [ofFn_get]
  split_ifs
  · exact le_refl _
  · rw [abs_zero]; exact abs_nonneg _

theorem cst3 (a b c : ℚ) : SameBut (axis1 (.int (-1)) 2) ⟨.float64, 0⟩ [3, 0] [cst [3, 2] a, cst [3, 2] b, cst [3, 4] c] :=
  ⟨by intro t ht; simp only [List.mem_cons, List.not_mem_nil, or_false] at ht; rcases ht with rfl | rfl | rfl <;> rfl,
    by intro t ht; simp only [List.mem_cons, List.not_mem_nil, or_false] at ht; rcases ht with rfl | rfl | rfl <;> rfl⟩

theorem ax2 : GoodAxes (.int (-1)) 2 1 := ⟨by decide, rfl, ⟨by
  intro a ha
  have : a = -1 := by simpa [resolve] using ha
  subst this; exact ⟨by decide, by decide⟩, by decide⟩⟩

theorem cst_rec (a b c : ℚ) : ∃ z, waverec [cst [3, 2] a, cst [3, 2] b, cst [3, 4] c] haar (.int (-1)) = .ok z := by
  obtain ⟨z, h, -⟩ := c13_waverec_textbook haar 2 (.int (-1)) ⟨.float64, 0⟩ [3, 0] (cst [3, 2] a) [cst [3, 2] b, cst [3, 4] c] le_rfl rfl rfl
    ax2 (Or.inr rfl) (cst3 a b c) (by
      show Consistent 2 2 [2, 4]
      exact ⟨rfl, by decide, by decide, rfl, by decide⟩)
  exact ⟨z, h⟩

example := (cst_rec 1 2 3).imp fun z h => c70_waverec_bound haar 2 (.int (-1)) ⟨.float64, 0⟩ [3, 0] (cst [3, 2] 1) [cst [3, 2] 2, cst [3, 4] 3] z
  |1| [|2|, |3|] le_rfl rfl rfl ax2 (Or.inr rfl) (cst3 1 2 3) ⟨rfl, by decide, by decide, rfl, by decide⟩ (cst_abs _ _)
  (.cons (cst_abs _ _) (.cons (cst_abs _ _) .nil)) h

theorem cst_diff (s : List Nat) (q r : ℚ) (i : List Nat) : |(cst s q).get i - (cst s r).get i| ≤ |q - r| := by
  unfold cst
  rw [ofFn_get, ofFn_get]
  split_ifs
  · exact le_refl _
  · rw [sub_zero, abs_zero]; exact abs_nonneg _

example := (cst_rec 1 2 3).imp fun z h => (cst_rec 1 4 9).imp fun z' h' =>
  c70_waverec_sensitivity haar 2 (.int (-1)) ⟨.float64, 0⟩ [3, 0] (cst [3, 2] 1) (cst [3, 2] 1) [cst [3, 2] 2, cst [3, 4] 3]
  [cst [3, 2] 4, cst [3, 4] 9] z z' |1 - 1| [|2 - 4|, |3 - 9|] le_rfl rfl rfl ax2 (Or.inr rfl) (cst3 1 2 3) (cst3 1 4 9)
  ⟨rfl, by decide, by decide, rfl, by decide⟩ rfl (cst_diff _ _ _)
  (.cons (cst_diff _ _ _) (.cons (cst_diff _ _ _) .nil)) h h'

/-! ### C74 -/

theorem fl24 : FloatKernels ((1 : ℚ) / 2 ^ 24) (seqKernels (flRound 24)) := c74_binary 24
example := c74_dot (u := (1 : ℚ) / 8) (by norm_num) (.sum [(1, 2)] [(3, 4)] _ _ (1 / 9) (by decide) (by decide)
  (.product 1 2 (1 / 10) (by norm_num [abs_of_pos])) (.product 3 4 (-1 / 10) (by norm_num [abs_of_neg])) (by norm_num [abs_of_pos]))
example := c74_wavedec fl24 haar (le_refl _) exX (some "symmetric") (some 2) (.int (-2))
example := ex_wavedec.imp fun cs h => c74_wavedec_error fl24 haar (le_refl _) exX (some "symmetric") (some 2) (.int (-2)) 12 cs (by decide) rfl exX_le h
example := ex_wavedec.imp fun cs h =>
  (c01_perfect_reconstruction exX haar 2 (some "symmetric") (some 2) (.int (-2)) cs haar_pr le_rfl rfl h).imp fun z hz =>
    c74_compose fl24 haar 2 le_rfl ⟨rfl, rfl, rfl, rfl⟩ (le_refl _) exX (some "symmetric") (some 2) (.int (-2)) 12 cs z exX_le h hz.1
example : ∃ cs' cs, wavedecF (seqKernels (flRound 24)) exX haar (some "symmetric") (some 2) (.int (-2)) = .ok cs' ∧
    wavedec exX haar (some "symmetric") (some 2) (.int (-2)) = .ok cs ∧
    ∀ z, waverec cs haar (.int (-2)) = .ok z → ∃ z' zlo zhi, waverecF (seqKernels (flRound 24)) cs' haar (.int (-2)) = .ok z' ∧
      CloseBy z' z zlo zhi := by
  obtain ⟨cs, h⟩ := ex_wavedec
  obtain ⟨cs', lo, hi, h1, -, -, h4⟩ := (c74_wavedec fl24 haar (le_refl _) exX (some "symmetric") (some 2) (.int (-2))).2 cs h
  refine ⟨cs', cs, h1, h, fun z hz => ?_⟩
  obtain ⟨z', zlo, zhi, e, -, -, hc⟩ := (c74_waverec fl24 haar (le_refl _) (.int (-2)) h4).2 z hz
  exact ⟨z', zlo, zhi, e, hc⟩
example := c74_sequential (u := (1 : ℚ)) (rnd := id) (by norm_num) (fun y => ⟨0, by norm_num, by simp⟩)

/-! ### C33–C37, C53 -/

example := c33_positions 3 20 4 2 (by decide)
/-- The 2 × 3 matrix with the entries 5 and 7. -/
def coA (md : Meta) : Coo ℚ := ⟨md, 2, 3, [(0, 1, 5), (1, 2, 7)], by decide⟩
/-- A 2 × 3 matrix without stored entries. -/
def coZ (md : Meta) : Coo ℚ := ⟨md, 2, 3, [], by decide⟩
/-- A row of three entries. -/
def coR : Coo ℚ := ⟨⟨.float64, 0⟩, 1, 3, [(0, 2, 9)], by decide⟩

theorem coZ_none (md : Meta) : ∀ i j, ¬ (coZ md).Stored i j := by
  rintro i j ⟨e, he, -⟩
  cases he
theorem coA_some (md : Meta) : ∃ i j, (coA md).Stored i j := ⟨0, 1, _, List.mem_cons_self, rfl, rfl⟩

example := c34_zero_dtype (coA ⟨.float64, 0⟩) (coZ ⟨.float64, 0⟩) rfl (Or.inr (coZ_none _)) (by decide) (by decide)
example := c34_dtype (coA ⟨.float64, 0⟩) (coA ⟨.float32, 0⟩) rfl (coA_some _) (coA_some _)
example := c34_device (coA ⟨.float64, 0⟩) (coA ⟨.float64, 1⟩) (by decide)
theorem roundings (p : Nat) (hp : 1 ≤ p) : ∃ rd : Nat → Nat, ∀ k, RoundsTo p k (rd k) := (c35_rounding p hp).exists
example := (roundings 24 (by decide)).imp fun rd h => c35_identity_rounded dupS (2 ^ 24 + 3) rfl (by decide) rd h
example := c35_identity_rejected (coA ⟨.float64, 0⟩) 7 (Or.inl (by decide))
example := c35_identity_rejected dupS 1 (Or.inr (by decide))
example := c35_replace_row_nonsquare (coA ⟨.float64, 0⟩) coR 1 (by decide) rfl rfl (by decide)

/-- A filter of two rows and three columns. -/
def fil : Tensor ℚ := ofFn ⟨.float64, 0⟩ [2, 3] fun i => (1 + i.getD 0 0 * 3 + i.getD 1 0 : ℚ)
example := c36_conv2d_matrix fil 2 3 5 4 "same" .same true rfl (Or.inr (Or.inl ⟨Or.inl rfl, rfl⟩)) (by decide) (by decide) (by decide)
example := c36_narrow fil 2 3 5 1 "same" true rfl (Or.inl rfl) (by decide) (by decide)
example := c36_empty_filter (ofFn ⟨.float64, 0⟩ [2, 0] fun _ => (0 : ℚ)) 2 5 4 "full" .full true rfl (Or.inl ⟨rfl, rfl⟩) (by decide)
example := c36_unknown fil 5 4 "circular" true (by rintro m (⟨h, -⟩ | ⟨h | h, -⟩ | ⟨h, -⟩) <;> exact absurd h (by decide))
example := c37_batch_mm_rejected (coA ⟨.float64, 0⟩) (ofFn ⟨.float64, 0⟩ [4, 2, 5] fun i => (i.getD 0 0 : ℚ)) (by decide) (by decide)

example := c53_explicit_level exI (.pywt lattice) (.tuple lattice) rfl (some "zero") 2 (.seq [2, -3])

end Verif.Witness
