/-
Concrete cases that meet the hypotheses of the theorems: the shared data.  The modules of this directory contain, for
every theorem of `Verif.Props` that has hypotheses and no example of its own beside it, one `example` that applies the
theorem to concrete data; its type is the theorem's conclusion for that case.
-/
import Verif.Props.Adjoint
import Verif.Props.LeastSquares

namespace Verif.Witness
open Tensor Spec Props

/-- Another tensor of the same form. -/
def bump (x : Tensor ℚ) : Tensor ℚ := ofFn x.md x.shape fun i => x.get i + 1 + i.getD 0 0

theorem bump_same (x : Tensor ℚ) : SameTensor x (bump x) := ⟨rfl, rfl⟩

/-- Coefficients of the same shapes that do not come from a signal. -/
def ones (cs : List (Tensor ℚ)) : List (Tensor ℚ) := cs.map fun t => ofFn t.md t.shape fun _ => 1

theorem ones_same (cs : List (Tensor ℚ)) : List.Forall₂ SameTensor cs (ones cs) := by
  unfold ones
  rw [List.forall₂_map_right_iff, List.forall₂_same]
  exact fun t _ => ⟨rfl, rfl⟩

def onesC (c : Coeffs ℚ) : Coeffs ℚ := ⟨c.isList, c.items.map onesEntry⟩

theorem exI_axis0 : GoodAxes (.int 0) exI.rank 1 := ⟨by decide, rfl, ⟨by
  intro a ha
  have : a = 0 := by simpa [resolve] using ha
  subst this; exact ⟨by decide, by decide⟩, by decide⟩⟩

theorem exI_axis1 : GoodAxes (.int (-2)) exI.rank 1 := ⟨by decide, rfl, ⟨by
  intro a ha
  have : a = -2 := by simpa [resolve] using ha
  subst this; exact ⟨by decide, by decide⟩, by decide⟩⟩

/-- Three levels along the first axis of a batch, `lattice`, mode `zero`. -/
theorem w1 : ∃ cs, wavedec exI lattice (some "zero") (some 3) (.int 0) = .ok cs := by
  obtain ⟨-, h2⟩ := wavedec_char (mode := some "zero") (x := exI) (w := lattice) (level := some 3) (h := .int 0) (by decide) rfl
  obtain ⟨cs, e, -⟩ := (h2 exI_axis0 (by decide)).2.1 .zero (Or.inl rfl) (fun s _ => by
    show 4 ≤ 4 + _ + _ % 2
    omega)
  exact ⟨cs, e⟩

/-- Two levels along the last and the first axis of a batch. -/
theorem w2 : ∃ c, wavedec2 exI lattice (some "zero") (some 2) (.seq [2, -3]) = .ok c ∧ SameForm c (onesC c) := by
  obtain ⟨c, hc⟩ := exI_zero
  obtain ⟨-, -, m, -, -, hdwt⟩ := wavedec2_ok (by decide) rfl hc
  exact ⟨c, hc, ones_form (isDwtN_form (by rintro P e ⟨_, _, _, rfl, -⟩ h; cases h) hdwt)⟩

/-- Two levels along three axes in an unusual order. -/
theorem w3 : ∃ c, wavedec3 exV lattice (some "zero") (some 2) (.seq [1, -1, 0]) = .ok c ∧ SameForm c (onesC c) := by
  obtain ⟨c, hc⟩ := exV_zero
  obtain ⟨-, -, m, -, -, hdwt⟩ := wavedec3_ok (by decide) rfl (by decide) hc
  exact ⟨c, hc, ones_form (isDwtN_form (by rintro P e ⟨_, rfl, -⟩ h; cases h) hdwt)⟩

theorem f2 : ∃ c, fswavedec2 exI lattice (some "zero") (some 2) (.seq [2, -3]) = .ok c ∧ SameForm c (onesC c) := by
  obtain ⟨c0, h0⟩ := exI_zero
  obtain ⟨c, hc⟩ : ∃ c, fswavedec2 exI lattice (some "zero") (some 2) (.seq [2, -3]) = .ok c :=
    ⟨_, (c19_fswavedec2 exI lattice (some "zero") (some 2) (.seq [2, -3]) (by decide) rfl (by simp) _).mpr ⟨c0, h0, rfl⟩⟩
  obtain ⟨-, -, -, m, -, -, hdwt⟩ := fswavedecn_ok (n := 2) (by omega) (by decide) rfl hc
  exact ⟨c, hc, ones_form (isDwtN_form (by rintro P e ⟨_, rfl, -⟩ h; cases h) hdwt)⟩

theorem f3 : ∃ c, fswavedec3 exV lattice (some "zero") (some 2) (.seq [1, -1, 0]) = .ok c ∧ SameForm c (onesC c) := by
  obtain ⟨c, hc⟩ := (c19_fswavedec3 exV lattice (some "zero") (some 2) (.seq [1, -1, 0]) (by decide) rfl (by decide)).1.mp exV_zero
  obtain ⟨-, -, -, m, -, -, hdwt⟩ := fswavedecn_ok (n := 3) (by omega) (by decide) rfl hc
  exact ⟨c, hc, ones_form (isDwtN_form (by rintro P e ⟨_, rfl, -⟩ h; cases h) hdwt)⟩

theorem sw_wrap : WrapOk (exI.shape.getD (axis1 (.int (-2)) exI.rank) 0) 4
    (swtLevel (some 2) (exI.shape.getD (axis1 (.int (-2)) exI.rank) 0)) := by
  unfold WrapOk
  decide

/-- Two levels of the stationary transform. -/
theorem s1 : ∃ cs, swt exI lattice (some 2) (.int (-2)) = .ok cs := by
  obtain ⟨cs, e, -⟩ := c24_size exI lattice (some 2) (.int (-2)) exI_axis1 (by decide) (by decide) rfl rfl (by decide)
  exact ⟨cs, e⟩

end Verif.Witness
