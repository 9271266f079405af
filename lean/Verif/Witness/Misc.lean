/-
Concrete cases for the theorems about helper functions, coefficient kinds, packet orders, losses and bounds
(C27, C29, C45, C56, C65, C70).
-/
import Verif.Witness.PacketMat
import Verif.Props.Helpers
import Verif.Props.Kinds
import Verif.Props.PacketOrder
import Verif.Props.Losses
import Verif.Props.Bounds
import Verif.Props.Sep

namespace Verif.Witness
open Tensor Spec Props

/-! ### C56 -/

/-- An image with two levels of details of different sizes. -/
def co2 (k : ℚ) : Coeffs ℚ := ⟨false, [.tensor (ofFn ⟨.float64, 0⟩ [2, 3] fun i => (i.getD 1 0 : ℚ)),
  .tuple (ofFn ⟨.float64, 0⟩ [2, 3] fun i => (i.getD 0 0 : ℚ)) (ofFn ⟨.float64, 0⟩ [2, 3] fun _ => k) (ofFn ⟨.float64, 0⟩ [2, 3] fun _ => 2),
  .tuple (ofFn ⟨.float64, 0⟩ [4, 5] fun i => (i.getD 0 0 : ℚ)) (ofFn ⟨.float64, 0⟩ [4, 5] fun _ => k) (ofFn ⟨.float64, 0⟩ [4, 5] fun _ => 2)]⟩

theorem co2_is (k : ℚ) : IsCoeffs2 2 (co2 k) := ⟨_, _, rfl, rfl, by
  intro e he
  rcases List.mem_cons.1 he with rfl | he
  · exact ⟨_, _, _, rfl⟩
  · rcases List.mem_cons.1 he with rfl | he
    · exact ⟨_, _, _, rfl⟩
    · cases he⟩

example := c56_flatten (co2_is 1)
example := w2.imp fun c h => c56_wavedec2 exI lattice (some "zero") (some 2) (.seq [2, -3]) c (by decide) rfl h.1
example := (c56_flatten (co2_is 1)).1.imp fun _ h => c56_lossless (co2_is 1) (co2_is 3) h.1
example := c56_flatten_errors true true (twoTaps 1 2) (twoTaps 1 2) (twoTaps 1 3) (twoTaps 1 4) []
  [.tuple (twoTaps 1 2) (twoTaps 1 2) (twoTaps 1 2)] [.other] (by
    intro e he
    obtain rfl := List.mem_singleton.1 he
    exact ⟨_, _, _, rfl⟩)
example : ∃ keys keys' : List Key, getLevel 2 "freq" = .ok keys ∧ getLevel 3 "freq" = .ok keys' ∧
    keys'[2 * 3]? = some (['d', 'a'] ++ [if 3 % 2 = 0 then 'a' else 'd']) :=
  ⟨_, _, rfl, rfl, (c56_children (1000 : ℚ) 2 rfl rfl (i := 3) (key := ['d', 'a']) rfl).1⟩

/-! ### C65 -/

theorem prL : PRBank lattice 4 := pr_of_orth lattice_orth

theorem r2 : ∃ c z, waverec2 c lattice (.seq [2, -3]) = .ok z := by
  obtain ⟨c, hc, -⟩ := w2
  obtain ⟨z, hz, -⟩ := c15_perfect_reconstruction exI lattice 4 (some "zero") (some 2) (.seq [2, -3]) c prL (by decide) (by decide) hc
  exact ⟨c, z, hz⟩

theorem r3 : ∃ c z, waverec3 c lattice (.seq [1, -1, 0]) = .ok z := by
  obtain ⟨c, hc, -⟩ := w3
  obtain ⟨z, hz, -⟩ := c17_perfect_reconstruction exV lattice 4 (some "zero") (some 2) (.seq [1, -1, 0]) c prL (by decide) (by decide) (by decide) hc
  exact ⟨c, z, hz⟩

theorem rf3 : ∃ c z, (fswaverecn c lattice 3 (.seq [1, -1, 0])).1 = .ok z := by
  obtain ⟨c, hc, -⟩ := f3
  obtain ⟨z, hz, -⟩ := c20_perfect_reconstruction_3d exV lattice 4 (some "zero") (some 2) (.seq [1, -1, 0]) c prL (by decide) (by decide) hc
  exact ⟨c, z, hz⟩

example := r2.imp fun _ h => h.imp fun _ h => c65_waverec2_accepts h
example := r3.imp fun _ h => h.imp fun _ h => c65_waverec3_accepts h
example := rf3.imp fun _ h => h.imp fun _ h => c65_fswaverec_accepts h

/-- A batch of images of sizes 9 and 7, transformed along the axes 2 and 0. -/
theorem m2 : ∃ dcfg dst rcfg rst c z,
    decInitN 2 bank4 (some 2) (.seq [2, -3]) "qr" true (some "zero") = .ok (dcfg, dst) ∧
    recInitN 2 bank4 (.seq [2, -3]) "qr" true = .ok (rcfg, rst) ∧
    (decCallN 2 la0 dcfg dst (Tensor.ofFn ⟨.float64, 0⟩ [7, 2, 9] fun i => (i.getD 1 0 : ℝ))).1 = .ok c ∧
    (recCallN 2 la0 rcfg rst c).1 = .ok z := by
  obtain ⟨dcfg, dst, rcfg, rst, C, c, z, h1, h2, _, h3, h4, h5, h6, _⟩ := c43_roundtrip2 la0_exact bank4_orth
    (x := Tensor.ofFn ⟨.float64, 0⟩ [7, 2, 9] fun i => (i.getD 1 0 : ℝ)) (axes := .seq [2, -3]) (m := .zero)
    (mode := some "zero") (orth := "qr") (level := some 2) exN_axes2 (Or.inr rfl)
    (by intro k hk; have : k = 7 ∨ k = 2 ∨ k = 9 := by simpa using hk
        omega) (Or.inl rfl) (Or.inl rfl)
    (by rintro _ ⟨⟩; norm_num) (fun k a b _ => bank4_indep a b) (L := 2) (by decide)
  exact ⟨dcfg, dst, rcfg, rst, c, z, h1, h2, h3, h5⟩

/-- A batch of two volumes, all sizes different. -/
theorem m3 : ∃ dcfg dst rcfg rst c z,
    decInitN 3 bank4 none .none "gramschmidt" true none = .ok (dcfg, dst) ∧
    recInitN 3 bank4 .none "gramschmidt" true = .ok (rcfg, rst) ∧
    (decCallN 3 la0 dcfg dst (Tensor.ofFn ⟨.float32, 0⟩ [2, 7, 6, 9] fun i => (i.getD 1 0 : ℝ))).1 = .ok c ∧
    (recCallN 3 la0 rcfg rst c).1 = .ok z := by
  obtain ⟨dcfg, dst, rcfg, rst, C, c, h1, h2, _, h3, h4, h5⟩ := c43_roundtrip3 la0_exact bank4_orth
    (x := Tensor.ofFn ⟨.float32, 0⟩ [2, 7, 6, 9] fun i => (i.getD 1 0 : ℝ)) (axes := .none) (m := .reflect)
    (mode := none) (orth := "gramschmidt") (level := none) exN_axes3 (Or.inl rfl)
    (Or.inr ⟨rfl, rfl⟩) (Or.inr rfl)
    (by rintro _ ⟨⟩) (fun _ => by decide) (fun k a b _ => bank4_indep a b) (L := 1) (by decide)
  obtain ⟨z, h6, h7, _⟩ := h5 (by omega)
  exact ⟨dcfg, dst, rcfg, rst, c, z, h1, h2, h3, h6⟩

theorem m2z : ∃ c, ∃ z, (recCallN 2 la0 ⟨bank4, [2, -3], "qr", true⟩ ⟨none, none, [], false⟩ c).1 = .ok z := by
  obtain ⟨_, _, _, _, c, z, -, h, -, hz⟩ := m2
  cases h
  exact ⟨c, z, hz⟩

theorem m3z : ∃ c, ∃ z, (recCallN 3 la0 ⟨bank4, [-3, -2, -1], "gramschmidt", true⟩ ⟨none, none, [], false⟩ c).1 = .ok z := by
  obtain ⟨_, _, _, _, c, z, -, h, -, hz⟩ := m3
  cases h
  exact ⟨c, z, hz⟩

example := m2z.imp fun _ h => h.imp fun _ h => c65_matrix2_accepts h
example := m3z.imp fun _ h => h.imp fun _ h => c65_matrix3_accepts h
example := c65_empty true bank4 .none la0 ⟨bank4, [-1], "qr"⟩ ⟨none, none, [], false⟩ ⟨bank4, [-2, -1], "qr", true⟩
  ⟨none, none, [], false⟩ 2 (by decide)
example (t : Tensor ℝ) := c65_first true (.tuple t t t) [] (fun _ h => by cases h) bank4 .none la0 ⟨bank4, [-2, -1], "qr", true⟩
  ⟨none, none, [], false⟩ 2 (by decide)

/-! ### C27, C29 -/

example := c27_unknown_order 3 "gray" (by decide) (by decide)
example := c29_freq_grid 3 (by decide)
example := c29_grid_complete 3 (by decide)

/-! ### C45 -/

theorem exBank_filters : AreFilters ⟨.float64, 0⟩ 2 exBank := ⟨⟨rfl, rfl⟩, ⟨rfl, rfl⟩, ⟨rfl, rfl⟩, ⟨rfl, rfl⟩⟩
theorem exBad_filters : AreFilters ⟨.float64, 0⟩ 2 exBadBank := ⟨⟨rfl, rfl⟩, ⟨rfl, rfl⟩, ⟨rfl, rfl⟩, ⟨rfl, rfl⟩⟩
theorem ok_of_some {α : Type} {e : Except Err α} {a : α} (h : e.toOption = some a) : e = .ok a := by
  cases e with
  | error _ => cases h
  | ok b => cases h; rfl
theorem exBank_zero : productFilterLoss exBank = .ok 0 := ok_of_some (by decide +kernel)
theorem exBank_soft : softWaveletLoss exBank = .ok 0 := ok_of_some (by decide +kernel)
theorem exBad_loss : productFilterLoss exBadBank = .ok 2 := ok_of_some (by decide +kernel)

example := c45_losses_nonneg ⟨.float64, 0⟩ 2 exBadBank exBad_filters (by decide)
example := c45_zero_iff_pr ⟨.float64, 0⟩ 2 exBank exBank_filters (by decide) 0 exBank_zero
example := c45_zero_iff_pr ⟨.float64, 0⟩ 2 exBadBank exBad_filters (by decide) 2 exBad_loss
theorem pr5 : PRBank (bankOf 2 exBank) 2 := (c45_zero_iff_pr ⟨.float64, 0⟩ 2 exBank exBank_filters (by decide) 0 exBank_zero).1 rfl
theorem dec5 : ∃ cs, wavedec exX (bankOf 2 exBank) (some "symmetric") (some 2) (.int (-2)) = .ok cs :=
  c04_total_modes exX (bankOf 2 exBank) _ .symmetric _ _ (Or.inl rfl) (by decide) rfl exX_axes (Or.inr rfl)
    (by decide) (Or.inr (Or.inr rfl))
example := dec5.imp fun cs h => c45_zero_loss_reconstructs ⟨.float64, 0⟩ 2 exBank exBank_filters (by decide) (by decide) exBank_zero
  exX (some "symmetric") (some 2) (.int (-2)) cs h
example := c45_soft_zero_iff_orthogonal ⟨.float64, 0⟩ 2 exBank exBank_filters (by decide) (by decide) 0 exBank_soft
example : ∃ r : ℚ × Tensor ℚ × Tensor ℚ, pfAliasLoss exBank = .ok r ∧
    (r.1 = 0 → ∃ p q, aliasLoss exBank = .ok (0, p, q)) := by
  obtain ⟨-, -, ⟨r, h, -⟩, -⟩ := c45_losses_nonneg ⟨.float64, 0⟩ 2 exBank exBank_filters (by decide)
  exact ⟨r, h, (c45_pf_alias ⟨.float64, 0⟩ 2 exBank exBank_filters (by decide) r.1 r.2.1 r.2.2 h).2⟩
example := c45_lowpass_orthogonality ⟨.float64, 0⟩ 2 exBank exBank_filters (by decide) (Or.inr rfl)

/-- The same filters in half precision. -/
def halfBank : FilterTensors ℚ :=
  let t : Tensor ℚ := ofFn ⟨.float16, 0⟩ [2] fun i => if i.getD 0 0 = 0 then 3/5 else 4/5
  ⟨t, t, t, t⟩
example := c45_lowpass_half_precision ⟨.float16, 0⟩ 2 halfBank ⟨⟨rfl, rfl⟩, ⟨rfl, rfl⟩, ⟨rfl, rfl⟩, ⟨rfl, rfl⟩⟩ (Or.inl rfl)

/-! ### C20, C22, C23, C24, C53 -/

example := f2.imp fun c h => c20_perfect_reconstruction_2d exI lattice 4 (some "zero") (some 2) (.seq [2, -3]) c prL (by decide) (by decide) h.1
example := w3.imp fun c h => c20_fswaverec3_inverts_wavedec3 exV lattice 4 (some "zero") (some 2) (.seq [1, -1, 0]) c prL (by decide) (by decide) (by decide) h.1

/-- Rows of five different samples. -/
def ramp : Tensor ℚ := ofFn ⟨.float64, 0⟩ [2, 5] fun i => (i.getD 1 0 : ℚ)
theorem ramp_line (j : Nat) (h : j < 5) : line ramp 1 [1, 0] j = (j : ℚ) := by
  unfold line ramp
  rw [ofFn_get_of _ _ (by exact ⟨by decide, h, trivial⟩)]
  rfl
example := c22_exact ramp 7 3 (by decide) (by decide) [1, 0] ⟨by decide, by decide, trivial⟩ (by
  intro i j hi hj h
  have h' : line ramp 1 [1, 0] i = line ramp 1 [1, 0] j := h
  rw [ramp_line i hi, ramp_line j hj] at h'
  exact_mod_cast h')
example := c24_level 24 (by decide) 5
example := c23_default_level exI lattice 4 (.int (-2)) lattice_orth.len prL.noDistortion (by decide) (by decide) exI_axis1 (by decide) (by decide)
example := c23_inverse_textbook lattice 4 (.int (-2)) exI.md exI.shape exI [bump exI, exI] (by decide) (by decide) rfl rfl
  exI_axis1 (by decide) (by decide) sw_wrap
  (by intro c hc; simp only [List.mem_cons, List.not_mem_nil, or_false] at hc; rcases hc with rfl | rfl | rfl <;> rfl)
  (by intro c hc; simp only [List.mem_cons, List.not_mem_nil, or_false] at hc; rcases hc with rfl | rfl | rfl <;> rfl)

end Verif.Witness
