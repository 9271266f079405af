/- Concrete cases for the theorems of `Verif.Props.Bounds`, `Verif.Props.LinN` and `Verif.Props.Family` (C70, C54, C68). -/
import Verif.Witness.Setup
import Verif.Props.Bounds
import Verif.Props.Family
import Verif.Props.LinN

namespace Verif.Witness
open Tensor Spec Props

/-! ### C70 -/

def absT (x : Tensor ℚ) : Tensor ℚ := ofFn x.md x.shape fun i => |x.get i|

def absW (w : Wavelet ℚ) : Wavelet ℚ := ⟨w.decLo.map abs, w.decHi.map abs, w.recLo.map abs, w.recHi.map abs⟩

theorem absT_dom (x : Tensor ℚ) : TRel Dom x (absT x) := by
  refine ⟨rfl, rfl, fun i => ?_⟩
  unfold Dom absT
  rw [ofFn_get]
  split_ifs with h
  · exact le_refl _
  · rw [x.supp i h, abs_zero]

theorem absW_dom (w : Wavelet ℚ) : WRel Dom w (absW w) := by
  constructor <;>
    · show List.Forall₂ Dom _ (List.map abs _)
      rw [List.forall₂_map_right_iff, List.forall₂_same]
      exact fun _ _ => le_refl _

theorem abs_list (cs : List (Tensor ℚ)) : List.Forall₂ (TRel Dom) cs (cs.map absT) := by
  rw [List.forall₂_map_right_iff, List.forall₂_same]
  exact fun t _ => absT_dom t

def absE : Entry ℚ → Entry ℚ
  | .tensor t => .tensor (absT t)
  | .tuple h v d => .tuple (absT h) (absT v) (absT d)
  | .dict kv => .dict (kv.map fun q => (q.1, absT q.2))
  | .other => .other

theorem abs_coeffs (c : Coeffs ℚ) : Coeffs2 (TRel Dom) c ⟨c.isList, c.items.map absE⟩ := by
  refine ⟨rfl, ?_⟩
  rw [List.forall₂_map_right_iff, List.forall₂_same]
  intro e _
  cases e with
  | tensor t => exact .tensor (absT_dom t)
  | tuple a b d => exact .tuple (absT_dom a) (absT_dom b) (absT_dom d)
  | dict kv =>
    refine .dict ?_
    rw [List.forall₂_map_right_iff, List.forall₂_same]
    exact fun q _ => ⟨rfl, absT_dom _⟩
  | other => exact .other

example := w1.imp fun _ h => And.intro h (c70_wavedec_dominated (absT_dom exI) (absW_dom lattice) (some "zero") (some 3) (.int 0))
example := w1.imp fun cs h => And.intro h (c70_waverec_dominated (abs_list cs) (absW_dom lattice) (.int 0))
example := w2.imp fun _ h => And.intro h (c70_wavedec2_dominated (absT_dom exI) (absW_dom lattice) (some "zero") (some 2) (.seq [2, -3]))
example := w2.imp fun c h => And.intro h (c70_waverec2_dominated (abs_coeffs c) (absW_dom lattice) (.seq [2, -3]))
example := w3.imp fun _ h => And.intro h (c70_wavedec3_dominated (absT_dom exV) (absW_dom lattice) (some "zero") (some 2) (.seq [1, -1, 0]))
example := w3.imp fun c h => And.intro h (c70_waverec3_dominated (abs_coeffs c) (absW_dom lattice) (.seq [1, -1, 0]))
example := f3.imp fun _ h => And.intro h (c70_fswavedec_dominated (absT_dom exV) (absW_dom lattice) 3 (some "zero") (some 2) (.seq [1, -1, 0]))
example := f3.imp fun c h => And.intro h (c70_fswaverec_dominated (abs_coeffs c) (absW_dom lattice) 3 (.seq [1, -1, 0]))
example := s1.imp fun _ h => And.intro h (c70_swt_dominated (absT_dom exI) (absW_dom lattice) (some 2) (.int (-2)))
example := s1.imp fun cs h => And.intro h (c70_iswt_dominated (abs_list cs) (absW_dom lattice) (.int (-2)))

theorem abs_ops : List.Forall₂ (Op2 (TRel Dom))
    [.transform exI none, .read ['a', 'd'], .set ['d'] exI, .reconstruct, .read []]
    [.transform (absT exI) none, .read ['a', 'd'], .set ['d'] (absT exI), .reconstruct, .read []] :=
  .cons (.transform _ (absT_dom _)) (.cons (.read _) (.cons (.set _ (absT_dom _)) (.cons .reconstruct (.cons (.read _) .nil))))

example := c70_packet_dominated (absW_dom lattice) abs_ops (some "zero") 0
example := c70_packet2d_dominated (absW_dom lattice) abs_ops (some "zero") [2, -3] false

/-- The samples of the images are bounded. -/
theorem abs_bound {x : Tensor ℚ} {M : ℚ} (hM : 0 ≤ M) (h : (List.range (x.shape.getD 0 0)).all fun a =>
    (List.range (x.shape.getD 1 0)).all fun b => (List.range (x.shape.getD 2 0)).all fun c => |x.get [a, b, c]| ≤ M)
    (h3 : x.shape.length = 3) (i : List Nat) : |x.get i| ≤ M := by
  refine get_le_of hM (fun i hi => ?_) i
  obtain ⟨p, q, r, hs⟩ : ∃ p q r, x.shape = [p, q, r] := by
    match hx : x.shape, h3 with
    | [p, q, r], _ => exact ⟨p, q, r, rfl⟩
  rw [hs] at hi h
  match i, hi with
  | [a, b, c], hi =>
    simp only [List.all_eq_true, List.mem_range, List.getD_cons_zero, List.getD_cons_succ, decide_eq_true_eq] at h
    exact h a hi.1 b hi.2.1 c hi.2.2.1
example := w2.imp fun c h => c70_wavedec2_bound exI lattice _ _ _ c 1000 (by decide) rfl
  (abs_bound (by norm_num) (by decide +kernel) rfl) h.1
example := w3.imp fun c h => c70_wavedec3_bound exV lattice _ _ _ c 1000 (by decide) rfl (by decide)
  (abs_bound (by norm_num) (by decide +kernel) rfl) h.1

/-! ### C54 -/

def comb (x : Tensor ℚ) : Tensor ℚ := ofFn x.md x.shape fun i => 3 * x.get i + (bump x).get i

theorem comb_lin (x : Tensor ℚ) : Lin 3 x (bump x) (comb x) := by
  refine ⟨rfl, rfl, rfl, rfl, fun i => ?_⟩
  unfold comb
  rw [ofFn_get]
  split_ifs with h
  · rfl
  · rw [x.supp i h, (bump x).supp i h]; norm_num

theorem three_ok {α : Type} {P : α → α → α → Prop} {a b c : Except Err α} {u : α} (h : Three P a b c) (hu : a = .ok u) :
    ∃ v w, b = .ok v ∧ c = .ok w ∧ P u v w := by
  subst hu
  cases h with
  | ok h => exact ⟨_, _, rfl, rfl, h⟩

/-- Both directions: the coefficients of the three images are related, hence so are their reconstructions. -/
example := w2.imp fun _ h =>
  (three_ok (c54_wavedec2 exI _ _ (comb_lin exI) lattice (some "zero") (some 2) (.seq [2, -3])) h.1).imp fun d h' => h'.imp fun e h'' =>
    And.intro h'' (c54_waverec2 _ d e h''.2.2 lattice (.seq [2, -3]))
example := w3.imp fun _ h =>
  (three_ok (c54_wavedec3 exV _ _ (comb_lin exV) lattice (some "zero") (some 2) (.seq [1, -1, 0])) h.1).imp fun d h' => h'.imp fun e h'' =>
    And.intro h'' (c54_waverec3 _ d e h''.2.2 lattice (.seq [1, -1, 0]))
example := f3.imp fun _ h =>
  (three_ok (c54_fswavedec 3 exV _ _ (comb_lin exV) lattice (some "zero") (some 2) (.seq [1, -1, 0])) h.1).imp fun d h' => h'.imp fun e h'' =>
    And.intro h'' (c54_fswaverec 3 _ d e h''.2.2 lattice (.seq [1, -1, 0]))
example := s1.imp fun _ h =>
  (three_ok (c54_swt exI _ _ (comb_lin exI) lattice (some 2) (.int (-2))) h).imp fun d h' => h'.imp fun e h'' =>
    And.intro h'' (c54_iswt _ d e h''.2.2 lattice (.int (-2)))
example := w1.imp fun _ h =>
  (three_ok (c05_wavedec_linear 3 exI _ _ (comb_lin exI) lattice (some "zero") (some 3) (.int 0)) h).imp fun d h' => h'.imp fun e h'' =>
    And.intro h'' (c05_waverec_linear 3 _ d e h''.2.2 lattice (.int 0))

theorem comb_ops : Forall₃ (Op3 (Lin 3)) [.transform exI none, .read ['a', 'd'], .set ['d'] exI, .reconstruct, .read []]
    [.transform (bump exI) none, .read ['a', 'd'], .set ['d'] (bump exI), .reconstruct, .read []]
    [.transform (comb exI) none, .read ['a', 'd'], .set ['d'] (comb exI), .reconstruct, .read []] :=
  .cons (.transform _ (comb_lin _)) (.cons (.read _) (.cons (.set _ (comb_lin _)) (.cons .reconstruct (.cons (.read _) .nil))))

theorem comb_coeffs : Coeffs3 (Lin 3) ⟨true, [.tensor exI, .tuple exI exI exI, .dict [("aad", exI), ("ada", exI)]]⟩
    ⟨true, [.tensor (bump exI), .tuple (bump exI) (bump exI) (bump exI), .dict [("aad", bump exI), ("ada", bump exI)]]⟩
    ⟨true, [.tensor (comb exI), .tuple (comb exI) (comb exI) (comb exI), .dict [("aad", comb exI), ("ada", comb exI)]]⟩ :=
  ⟨rfl, rfl, .cons (.tensor (comb_lin _)) (.cons (.tuple (comb_lin _) (comb_lin _) (comb_lin _))
    (.cons (.dict (.cons ⟨rfl, rfl, comb_lin _⟩ (.cons ⟨rfl, rfl, comb_lin _⟩ .nil))) .nil))⟩

example := c54_packet haar (some "reflect") 0 _ _ _ comb_ops
example := c54_packet2 haar (some "reflect") [2, -3] true _ _ _ comb_ops
example (la : LinAlg ℚ) := c54_packet_boundary la haar "qr" 0 _ _ _ comb_ops
example (la : LinAlg ℚ) := c54_packet2_boundary la haar "gramschmidt" [2, -3] false _ _ _ comb_ops
example (la : LinAlg ℚ) (st : DecState ℚ) := c54_matrix_wavedec la ⟨haar, 0, "qr", some "zero"⟩ st _ _ _ (comb_lin exI)
example (la : LinAlg ℚ) (st : RecState ℚ) := c54_matrix_waverec la ⟨haar, [0], "qr"⟩ st _ _ _
  (.cons (comb_lin exI) (.cons (comb_lin exI) .nil))
example (la : LinAlg ℚ) (st : DecStateN ℚ) := c54_matrix_wavedec_nd 2 la ⟨haar, [2, -3], "qr", some "zero", true⟩ st _ _ _ (comb_lin exI)
example (la : LinAlg ℚ) (st : RecStateN ℚ) := c54_matrix_waverec_nd 2 la ⟨haar, [2, -3], "qr", true⟩ st _ _ _ comb_coeffs

/-! ### C68 -/

abbrev Diff : (ℝ → ℝ) → Prop := fun f => Differentiable ℝ f

theorem moving_list : FamList (FamT Diff) fun θ => [movingSignal θ, movingSignal θ] :=
  ⟨[movingSignal, movingSignal], fun f hf => by
    simp only [List.mem_cons, List.not_mem_nil, or_false, or_self] at hf
    rw [hf]; exact movingSignal_fam, fun _ => rfl⟩

theorem moving_coeffs : FamC (FamT Diff) fun θ => ⟨true, [.tensor (movingSignal θ), .tuple (movingSignal θ) (movingSignal θ) (movingSignal θ)]⟩ :=
  ⟨⟨true, fun _ => rfl⟩, ⟨[fun θ => .tensor (movingSignal θ), fun θ => .tuple (movingSignal θ) (movingSignal θ) (movingSignal θ)],
    fun f hf => by
      simp only [List.mem_cons, List.not_mem_nil, or_false] at hf
      rcases hf with rfl | rfl
      · exact .tensor movingSignal_fam
      · exact .tuple movingSignal_fam movingSignal_fam movingSignal_fam, fun _ => rfl⟩⟩

theorem moving_dict : FamC (FamT Diff) fun θ => ⟨true, [.tensor (movingSignal θ), .dict [("aad", movingSignal θ)]]⟩ :=
  ⟨⟨true, fun _ => rfl⟩, ⟨[fun θ => .tensor (movingSignal θ), fun θ => .dict ([("aad", movingSignal)].map fun p => (p.1, p.2 θ))],
    fun f hf => by
      simp only [List.mem_cons, List.not_mem_nil, or_false] at hf
      rcases hf with rfl | rfl
      · exact .tensor movingSignal_fam
      · refine .dict fun p hp => ?_
        simp only [List.mem_cons, List.not_mem_nil, or_false] at hp
        rw [hp]; exact movingSignal_fam, fun _ => rfl⟩⟩

theorem moving_ops : FamList (FamOp (FamT Diff)) fun θ => [.transform (movingSignal θ) (some 2), .read ['a', 'd'], .reconstruct] :=
  ⟨[fun θ => .transform (movingSignal θ) (some 2), fun _ => .read ['a', 'd'], fun _ => .reconstruct], fun f hf => by
    simp only [List.mem_cons, List.not_mem_nil, or_false] at hf
    rcases hf with rfl | rfl | rfl
    · exact .transform _ movingSignal_fam
    · exact .read _
    · exact .reconstruct, fun _ => rfl⟩

example := c68_wavedec c68_class_differentiable movingSignal_fam angleBank_fam (some "zero") (some 2) (.int (-1))
example := c68_waverec c68_class_differentiable moving_list angleBank_fam (.int (-1))
example := c68_wavedec2 c68_class_differentiable movingSignal_fam angleBank_fam (some "zero") (some 2) (.seq [-2, -1])
example := c68_waverec2 c68_class_differentiable moving_coeffs angleBank_fam (.seq [-2, -1])
example := c68_wavedec3 c68_class_differentiable movingSignal_fam angleBank_fam (some "zero") (some 2) (.seq [-2, -1, 0])
example := c68_waverec3 c68_class_differentiable moving_dict angleBank_fam (.seq [-2, -1, 0])
example := c68_fswavedec c68_class_differentiable movingSignal_fam angleBank_fam 2 (some "zero") (some 2) (.seq [-2, -1])
example := c68_fswaverec c68_class_differentiable moving_dict angleBank_fam 2 (.seq [-2, -1])
example := c68_swt c68_class_differentiable movingSignal_fam angleBank_fam (some 2) (.int (-1))
example := c68_iswt c68_class_differentiable (fun c => differentiable_const c) moving_list angleBank_fam (.int (-1))
example := c68_packet c68_class_differentiable angleBank_fam moving_ops (some "zero") (-1)
example := c68_packet2d c68_class_differentiable angleBank_fam moving_ops (some "zero") [-2, -1] true
example := (moving_ok 0).imp fun _ h => c68_success (c68_wavedec c68_class_differentiable movingSignal_fam angleBank_fam (some "zero")
  (some 2) (.int (-1))) h
/-- A filter of two taps. -/
noncomputable def movingFilter (a θ : ℝ) : Tensor ℝ := ofFn ⟨.float64, 0⟩ [2] fun i => Real.sin (θ + a * i.getD 0 0)

theorem movingFilter_fam (a : ℝ) : FamT Diff (movingFilter a) := by
  refine ⟨⟨.float64, 0⟩, [2], fun θ => ⟨rfl, rfl⟩, fun i => ?_⟩
  show Differentiable ℝ fun θ => if InB [2] i then Real.sin (θ + a * i.getD 0 0) else 0
  split_ifs
  · exact Real.differentiable_sin.comp (differentiable_id.add_const _)
  · exact differentiable_const 0

example := c68_losses c68_class_differentiable (fun c => differentiable_const c) (b := fun θ => ⟨movingFilter 1 θ, movingFilter 2 θ,
  movingFilter 3 θ, movingFilter 4 θ⟩) ⟨movingFilter_fam 1, movingFilter_fam 2, movingFilter_fam 3, movingFilter_fam 4⟩

end Verif.Witness
