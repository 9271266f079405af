/-
Concrete cases for the theorems about the convolution transforms and the helper functions
(C03, C04, C07–C14, C16, C46, C48).
-/
import Verif.Witness.Slice
import Verif.Props.Alias
import Verif.Props.Util

namespace Verif.Witness
open Tensor Spec Props

/-! ### One dimension -/

example := w1.imp fun cs h => c03_wavedec_sizes exI lattice (some "zero") (some 3) (.int 0) cs (by decide) rfl rfl h
example := c04_wavedec_succeeds_iff exI lattice (some "reflect") .reflect (some 3) (.int 0) (Or.inl rfl) (by decide) rfl
/-- The signal of length 2 is too short for the pads of a filter of length 4 in the second axis; 5 is not. -/
example := c04_periodic_fails_iff exI lattice (some 2) (.int (-2)) (by decide) rfl exI_axis1 (Or.inr rfl) (by decide)
example := c13_waverec_textbook lattice 4 (.int 1) ⟨.float64, 0⟩ [3, 7] (bat 3) [bat 3, bat 4] (by decide) rfl rfl axis_last (Or.inr rfl)
  ⟨by simp [bat, ofFn], by simp [bat, ofFn, axis1, axesOf, resolve, axisOf]⟩
  (by show Consistent 4 3 [3, 4]; simp [Consistent])

/-- Filters of odd length 3. -/
def odd3 : Wavelet ℚ := ⟨[1, 2, 1], [1, -2, 1], [1, 2, 1], [1, 2, -1]⟩
def sig6 : Tensor ℚ := ofFn ⟨.float32, 0⟩ [6, 2] fun i => i.getD 0 0 + i.getD 1 0
theorem sig6_axis : GoodAxes (.int 0) sig6.rank 1 := ⟨by decide, rfl, ⟨by
  intro a ha
  have : a = 0 := by simpa [resolve] using ha
  subst this; exact ⟨by decide, by decide⟩, by decide⟩⟩
example : ∃ cs, (∃ e, waverec cs odd3 (.int 0) = .error e) ∨ ∃ z, waverec cs odd3 (.int 0) = .ok z ∧ z.shape = [5, 2] := by
  obtain ⟨cs, h⟩ := c04_total_modes sig6 odd3 (some "symmetric") .symmetric (some 1) (.int 0) (Or.inl rfl) (by decide) rfl sig6_axis (Or.inl rfl) (by decide)
    (Or.inr (Or.inr rfl))
  obtain ⟨m, -, hd⟩ := c02_wavedec_textbook sig6 odd3 _ _ _ cs (by decide) rfl h
  exact ⟨cs, c14_odd_filter_loses_sample sig6 odd3 3 _ _ _ cs ⟨rfl, rfl, rfl, rfl⟩ (by decide) (by decide) h
    (by rw [hd.length]; decide) (by decide)⟩

example := c48_auto_level 8 100 (by decide)
example := c48_no_short_approximation 8 100 (by decide) (by decide) 3 (by decide)
example : ∃ cs L, wavedec sig6 haar (some "symmetric") none (.int 0) = .ok cs ∧ dwtMaxLevel 6 2 = .ok L ∧ cs.length = L + 1 := by
  obtain ⟨cs, h⟩ := c04_total_modes sig6 haar (some "symmetric") .symmetric none (.int 0) (Or.inl rfl) (by decide) rfl sig6_axis (Or.inl rfl) (by decide)
    (Or.inr (Or.inr rfl))
  obtain ⟨L, h1, h2⟩ := c48_wavedec_auto sig6 haar _ _ cs (by decide) rfl h
  exact ⟨cs, L, h, h1, h2⟩

/-! ### Images and volumes -/

example := w2.imp fun c h => c16_orientation exI lattice (some "zero") .zero (some 2) (.seq [2, -3]) c 2 0 (by decide) rfl (Or.inl rfl) (by decide)
  (by
    obtain ⟨-, -, m, -, -, hd⟩ := wavedec2_ok (by decide) rfl h.1
    rw [hd.length]; decide) h.1
example := c16_unknown_mode exI lattice (some "foo") (some 1) (.seq [2, -3]) (by
    rintro m (h | ⟨h, -⟩)
    · cases m <;> simp [Mode.name] at h
    · cases h) (by decide) rfl exI_axes (Or.inr rfl) (by decide)
theorem auto2 : ∃ c, wavedec2 exI haar (some "zero") none (.seq [2, -3]) = .ok c := by
  have key := wavedec2_char (mode := some "zero") (x := exI) (level := none) (h := .seq [2, -3]) (w := haar) (by decide) (by decide)
  obtain ⟨c, hc, -⟩ := ((key.2 exI_axes rfl).2.1) .zero (Or.inl rfl) (by
    intro s hs k hk
    show 4 ≤ 2 + k + k % 2
    have : 0 < k := by
      obtain ⟨n, hn, rfl⟩ := List.mem_map.mp hk
      exact levelLen_pos (by decide) (by clear hk; revert n; decide) s
    omega)
  exact ⟨c, hc⟩
example := auto2.imp fun c h => c48_wavedec2_auto exI haar (some "zero") (.seq [2, -3]) c (by decide) rfl h
theorem auto3 : ∃ c, wavedec3 exV haar (some "zero") none (.seq [1, -1, 0]) = .ok c := by
  have key := wavedec3_char (mode := some "zero") (x := exV) (level := none) (h := .seq [1, -1, 0]) (w := haar) (by decide) (by decide)
  obtain ⟨c, hc, -⟩ := (key.2 exV_axes rfl (by decide)).1 .zero (Or.inl rfl) (by
    intro s hs k hk
    show 4 ≤ 2 + k + k % 2
    have : 0 < k := by
      obtain ⟨n, hn, rfl⟩ := List.mem_map.mp hk
      exact levelLen_pos (by decide) (by clear hk; revert n; decide) s
    omega)
  exact ⟨c, hc⟩
example := auto3.imp fun c h => c48_wavedec3_auto exV haar (some "zero") (.seq [1, -1, 0]) c (by decide) rfl (by decide) h

/-! ### Helper functions -/

example := c07_empty_never_terminates (ofFn ⟨.float32, 0⟩ [0, 3] fun _ => (1 : ℚ)) 2 0 (by decide) rfl (Or.inl (by decide))
example := c08_mode_extension exI none .reflect 3 4 (Or.inr ⟨rfl, rfl⟩) (by decide) (by unfold Props.Fits; decide)
example := c08_mode_not_fitting exI (some "periodic") .periodic 6 0 (Or.inl rfl) (by decide) (by unfold Props.Fits; decide)
example := c08_unknown_mode exI "antisymmetric" [1, 1] (by decide) (by decide) (by decide) (by decide) (by decide)
example (x : Nat → ℚ) := c08_pictures 5 x 3 (by decide)
theorem swap_axes : ValidAxes exI.rank [-1, 0] := ⟨by
  intro a ha
  have : a = -1 ∨ a = 0 := by simpa using ha
  rcases this with rfl | rfl <;> exact ⟨by decide, by decide⟩, by decide⟩
example := c09_swap_undo exI [-1, 0] swap_axes
example := c09_bad_axes exI [-1, 2] fun h => absurd h.distinct (by decide)
example := c10_round_trip exI 2 (.seq [2, -3]) exI_axes (Or.inr rfl)
example := c10_round_trip_channel exI 2 (.seq [2, -3]) exI_axes (Or.inr rfl)
example (ch : Bool) := c10_too_small sig6 3 ch (by decide) (by decide) (Or.inl rfl)
example (ch : Bool) := c10_bad_axes exI 2 (.seq [1, -2]) ch fun h => absurd h.valid.distinct (by decide)

theorem wf_tree (t : Tensor ℚ) : (⟨false, [.tensor t, .dict [("ad", t), ("da", t)], .tuple t t t]⟩ : Coeffs ℚ).WF fun _ => True := by
  refine ⟨⟨t, _, rfl⟩, ?_, ?_⟩
  · intro e he
    simp only [List.mem_cons, List.not_mem_nil, or_false] at he
    rcases he with rfl | rfl | rfl
    · trivial
    · intro _ _; trivial
    · exact ⟨trivial, trivial, trivial⟩
  · intro e he
    simp only [List.tail_cons, List.mem_cons, List.not_mem_nil, or_false] at he
    rcases he with rfl | rfl <;> simp
example (f : Tensor ℚ → Except Err (Tensor ℚ)) := c12_tree_map _ f (wf_tree exI)
example := c12_unexpected_entry false exI [.tensor exI, .other] .ok (fun t => ⟨t, rfl⟩) (by simp)
example := c11_same_device_dtype _ exI (wf_tree exI) rfl
def half : Tensor ℚ := ofFn ⟨.float16, 0⟩ [6] fun i => i.getD 0 0
example := c11_wavedec_dtype half haar none none .none (by decide)
example := c11_waverec_dtype half [half] haar .none (by decide)
example := c11_waverec_mixed sig6 [sig6, ofFn ⟨.float64, 0⟩ [6, 2] fun _ => 1] haar (.int 0) sig6_axis (by decide) _ (List.mem_cons_of_mem _ List.mem_cons_self)
  (by decide)
example := w1.imp fun cs h => c11_wavedec_keeps_meta exI lattice (some "zero") (some 3) (.int 0) cs (by decide) rfl h

/-! ### Deprecated keywords -/

abbrev al1 : List (String × String) := [("boundary", "orthogonalization")]
abbrev kw1 : List (String × String) := [("boundary", "gramschmidt"), ("dtype", "float32")]
theorem kw1_dict : IsDict' kw1 := by simp [IsDict']
theorem kw1_unamb : Unambiguous al1 kw1 := by
  intro a n h _
  simp only [List.mem_singleton, Prod.mk.injEq] at h
  obtain ⟨rfl, rfl⟩ := h
  exact ⟨by simp [IsGiven, Given], fun a' h _ => by simpa using h⟩
example := c46_renamed_exists al1 kw1 exGood kw1_dict kw1_unamb
example := (c46_renamed_exists al1 kw1 exGood kw1_dict kw1_unamb).imp fun kw' h =>
  c46_alias_means_new_name al1 exSig Except.ok ["haar", "8"] kw1 kw' exGood kw1_dict h.1 kw1_unamb h.2 (fun a => a = "boundary" ∨ a = "dtype")
    (by
      intro a
      simp only [decide_eq_true_eq, IsGiven, Given]
      constructor
      · rintro (rfl | rfl) <;> simp
      · rintro ⟨v, h⟩
        simp at h
        tauto)
example := c46_no_alias al1 exSig Except.ok ["haar", "8"] [("dtype", "float32")] (by simp [IsDict']) (by simp [IsGiven, Given])
example := c46_both_names al1 exSig Except.ok ["haar", "8"] [("boundary", "gramschmidt"), ("orthogonalization", "qr")] exGood (by simp [IsDict'])
  (fun h => (h "boundary" "orthogonalization" (by simp) ⟨"gramschmidt", by simp [Given]⟩).1 ⟨"qr", by simp [Given]⟩)
example := c46_alias_and_positional al1 exSig Except.ok ["haar", "8", "cpu", "qr"] [("boundary", "gramschmidt")] "boundary" "orthogonalization" 3 exGood
  (by simp [IsDict']) (by simp) ⟨"gramschmidt", by simp [Given]⟩ (by decide) (by decide)

end Verif.Witness
