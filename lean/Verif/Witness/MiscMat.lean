/-
Concrete cases for the theorems about boundary wavelets and the matrix classes (C21, C38–C43, C64, C66).
-/
import Verif.Witness.Misc
import Verif.Props.AxisOrder
import Verif.Props.MatAlias
import Verif.Props.MatN
import Verif.Props.MatSyn

namespace Verif.Witness
open Tensor Spec Props

/-! ### C38, C39 -/

example := c38_indep_two_four (w := bank4) (n := 6) rfl
example := c38_indep_length (n := 10) bank4_orth rfl (by decide)
example := c38_unknown_method la0 (F := 4) (n := 8) ⟨.float64, 0⟩ bank4_orth.len (by decide) rfl rfl (by decide) (method := "lu") (by decide) (by decide)
example := c39_transpose la0 ⟨.float64, 0⟩ bank4_orth 8 "qr"

example : BoundaryIndep bank4 4 10 := by
  obtain ⟨A, -, -, -, -, h1, -, -, h2⟩ := c38_orthonormal la0_exact ⟨.float64, 0⟩ bank4_orth (n := 10) rfl (by decide)
    (bank4_indep rfl (by decide)) (Or.inl rfl)
  exact c38_indep_necessary A.den h1 h2
theorem flip4 : AlternatingFlip bank4 4 1 := by
  intro k hk
  interval_cases k <;> norm_num [bank4, tap, show Int.toNat 3 = 3 from rfl, show Int.toNat 2 = 2 from rfl]
example := c38_indep_flip (n := 10) bank4_orth flip4 rfl (by decide)

/-! ### C40–C42 -/

/-- A batch of signals of length 16: two levels without padding. -/
noncomputable def sig16 (md : Meta) : Tensor ℝ := ofFn md [3, 16] fun i => (i.getD 1 0 : ℝ)

theorem ax16 : GoodAxes (.int (-1)) 2 1 := ⟨by decide, rfl, ⟨by
  intro a ha
  have : a = -1 := by simpa [resolve] using ha
  subst this; exact ⟨by decide, by decide⟩, by decide⟩⟩

theorem pf16 : PadFree 16 2 := by unfold PadFree; decide

example := c40_energy (x := sig16 ⟨.float64, 0⟩) (axis := .int (-1)) (level := some 2) la0_exact bank4_orth ax16 (Or.inr rfl) (m := .zero)
  (mode := some "zero") (Or.inl rfl) (orth := "qr") (Or.inl rfl) (by rintro _ ⟨⟩; norm_num) (by rintro ⟨⟩) rfl (fun k a b _ => bank4_indep a b) pf16

example := c40_bad_level la0 ⟨bank4, -1, "qr", none⟩ ⟨some 0, none, [], [], false, []⟩ (sig16 ⟨.float64, 0⟩) (l := 0) rfl (by decide)
example := c40_bad_input la0 ⟨bank4, -1, "qr", none⟩ ⟨some 2, none, [], [], false, []⟩ (sig16 ⟨.int64, 0⟩) (by
  rintro ⟨-, h | h⟩ <;> cases h)

example := c41_synthesis_operator (x := sig16 ⟨.float64, 0⟩) (axis := .int (-1)) (level := some 2) la0_exact bank4_orth ax16 (Or.inr rfl) (m := .zero)
  (mode := some "zero") (Or.inl rfl) (orth := "qr") (Or.inl rfl) (by rintro _ ⟨⟩; norm_num) (by rintro ⟨⟩) (fun h => absurd h (by decide))
  (fun k a b _ => bank4_indep a b) (n := 16) (k := 2) rfl rfl (by decide) pf16 (by show 16 ≤ 2 ^ 53; norm_num)

theorem synMats (md : Meta) : ∀ q, q % 2 = 0 → bank4.recLo.length ≤ q → ∃ A, constructBoundaryS la0 bank4 md q "qr" = .ok A := by
  intro q h1 h2
  have h2' : 4 ≤ q := h2
  obtain ⟨A, hA, _⟩ := c38_orthonormal la0_exact md bank4_orth h1 (by omega) (bank4_indep h1 h2') (Or.inl rfl)
  rw [boundaryS_eq la0 _ bank4_orth, hA]
  exact ⟨_, rfl⟩

theorem heads (l : List (Tensor ℝ)) (md : Meta) (h : ∀ c ∈ l, c.md = md) : ∀ c, l.head? = some c → c.md = md :=
  fun c hc => h c (List.mem_of_mem_head? hc)

example := c42_reuse_synthesis la0 (w := bank4) (axis := .int (-1)) (orth := "qr") ⟨.float64, 0⟩ rfl (synMats _)
  [[sig16 ⟨.float64, 0⟩, sig16 ⟨.float64, 0⟩], [sig, sig]] (by
    intro cs hcs
    simp only [List.mem_cons, List.not_mem_nil, or_false] at hcs
    rcases hcs with rfl | rfl <;> intro c hc <;> cases hc <;> rfl) [sig, sig] (by intro c hc; cases hc; rfl)

example := c42_dtype_cached (x := sig16 ⟨.float64, 0⟩) (x2 := sig16 ⟨.float32, 0⟩) (axis := .int (-1)) (l := 2) la0_exact bank4_orth ax16 (Or.inr rfl)
  ax16 (Or.inl rfl) (m := .zero) (mode := some "zero") (Or.inl rfl) (orth := "qr") (Or.inl rfl) (by norm_num) rfl (by decide)
  (fun h => absurd h (by decide)) (fun k a b _ => bank4_indep a b) (by decide)

/-! ### C21, C43 -/

noncomputable def vol : Tensor ℝ := ofFn ⟨.float64, 0⟩ [7, 6, 9] fun i => (i.getD 1 0 : ℝ)
theorem vol_axes : GoodAxes (.seq [0, 1, 2]) vol.rank 3 := ⟨by decide, rfl, ⟨by
  intro a ha
  have : a = 0 ∨ a = 1 ∨ a = 2 := by simpa [resolve] using ha
  rcases this with rfl | rfl | rfl <;> exact ⟨by decide, by decide⟩, by decide⟩⟩

example := m3z.imp fun c h => h.imp fun z h => c21_mat_same_result 3 la0 _ _ c z h 4
example := c43_no_level3 la0 ⟨bank4, [0, 1, 2], "qr", true⟩ ⟨none, none, [], false⟩ true vol vol_axes (Or.inr rfl)
example := c43_ctor 3 (Or.inr rfl) bank4 (some 2) (.seq [0, 2, 1]) "lu" true none
example := c43_bad_level 2 la0 ⟨bank4, [2, -3], "qr", none, true⟩ ⟨some (-1), none, [], [], false, []⟩
  (ofFn ⟨.float64, 0⟩ [7, 2, 9] fun i => (i.getD 1 0 : ℝ)) (l := -1) rfl (by decide)
example := c43_bad_input 2 la0 ⟨bank4, [2, -3], "qr", none, true⟩ ⟨some 1, none, [], [], false, []⟩
  (ofFn ⟨.int64, 0⟩ [7, 2, 9] fun i => (i.getD 1 0 : ℝ)) (by rintro ⟨-, h | h⟩ <;> cases h)

theorem mats43 (n : Nat) : MatricesExist n la0 bank4 ⟨.float64, 0⟩ "qr" true ∧ SynthesisMatricesExist n la0 bank4 ⟨.float64, 0⟩ "qr" true := by
  refine ⟨Or.inl ⟨rfl, fun q h1 h2 => ?_⟩, Or.inl ⟨rfl, fun q h1 h2 => synMats _ q h1 h2⟩⟩
  have h2' : 4 ≤ q := h2
  obtain ⟨A, hA, _⟩ := c38_orthonormal la0_exact ⟨.float64, 0⟩ bank4_orth h1 (by omega) (bank4_indep h1 h2') (Or.inl rfl)
  exact ⟨A, hA⟩

noncomputable def im (h w : Nat) : Tensor ℝ := ofFn ⟨.float64, 0⟩ [h, w] fun i => (i.getD 1 0 : ℝ)

example := c43_reuse 2 la0 (w := bank4) (l := 2) (axes := .none) (orth := "qr") (sep := true) (mode := none) ⟨.float64, 0⟩ (by norm_num) rfl
  (mats43 2).1 [im 12 10, im 7 9] (by
    intro y hy
    simp only [List.mem_cons, List.not_mem_nil, or_false] at hy
    rcases hy with rfl | rfl <;> rfl) (im 12 10) rfl

/-- Coefficients of one level. -/
noncomputable def lev (h w : Nat) : Coeffs ℝ := ⟨false, [.tensor (im h w), .tuple (im h w) (im h w) (im h w)]⟩
example := c43_reuse_synthesis 2 (Or.inl rfl) la0 (w := bank4) (axes := .none) (orth := "qr") (sep := true) ⟨.float64, 0⟩ rfl
  (mats43 2).2 [lev 4 6, lev 5 5] (by
    intro c hc
    simp only [List.mem_cons, List.not_mem_nil, or_false] at hc
    rcases hc with rfl | rfl <;> intro a rest h <;> cases h <;> rfl) (lev 4 6) (by intro a rest h; cases h; rfl)

/-! ### C64, C66 -/

theorem two64 : SameBut (axis1 (.int (-1)) 2) ⟨.float64, 0⟩ [3, 0] [im 3 3, im 3 3, im 3 5] :=
  ⟨by intro t ht; simp only [List.mem_cons, List.not_mem_nil, or_false] at ht; rcases ht with rfl | rfl | rfl <;> rfl,
    by intro t ht; simp only [List.mem_cons, List.not_mem_nil, or_false] at ht; rcases ht with rfl | rfl | rfl <;> rfl⟩
example := c64_matrix_accepts la0_exact bank4_orth (axis := .int (-1)) (orth := "qr") (S := [3, 0]) ax16 (Or.inr rfl) (Or.inl rfl) two64 rfl
  (fun k a b _ => bank4_indep a b)

example := c66_matrix3 la0_exact bank4_orth (x := vol) (as := [0, 1, 2]) (as' := [2, 0, 1]) (by decide) (m := .zero) (mode := some "zero")
  (orth := "qr") (level := some 1) vol_axes (Or.inr rfl) (Or.inl rfl) (Or.inl rfl) (by rintro _ ⟨⟩; norm_num) (by rintro ⟨⟩)
  (fun k a b _ => bank4_indep a b)

end Verif.Witness
