import Verif.Spec.Inner
import Verif.Spec.LeastSquares
import Verif.Spec.Energy
import Verif.Props.LinN
import Verif.Lemmas.Nd
import Mathlib.Algebra.CharZero.Defs

/-! Polarisation: maps that are linear and preserve energies preserve inner products and distances. -/

namespace Verif
open Tensor Spec
variable {R : Type} [CommRing R] {k : R}

/-- `k x + y`. -/
def combT (k : R) (x y : Tensor R) : Tensor R := ofFn x.md x.shape fun i => k * x.get i + y.get i

theorem combT_lin (k : R) {x y : Tensor R} (h1 : y.md = x.md) (h2 : y.shape = x.shape) : Lin k x y (combT k x y) :=
  ⟨h1, rfl, h2, rfl, fun i => by
    unfold combT
    by_cases h : InB x.shape i
    · exact ofFn_get_of _ _ h
    · rw [x.supp i h, y.supp i (by rw [h2]; exact h)]
      simp [ofFn, h]⟩

theorem lin_energy {x y z : Tensor R} (h : Lin k x y z) :
    energy z = k ^ 2 * energy x + 2 * k * innerProd x y + energy y := by
  unfold energy innerProd
  rw [h.shape₂, h.shape₁, ← boxSum_mul, ← boxSum_mul, ← boxSum_add, ← boxSum_add]
  refine boxSum_congr _ fun i _ => ?_
  rw [h.get i]
  ring

theorem lin_dist {x y z : Tensor R} (h : Lin (-1) x y z) : dist2 x y = energy z := by
  unfold energy dist2
  rw [h.shape₂]
  refine boxSum_congr _ fun i _ => ?_
  rw [h.get i]
  ring

theorem list_energy {xs ys zs : List (Tensor R)} (h : Forall₃ (Lin k) xs ys zs) :
    (zs.map energy).sum = k ^ 2 * (xs.map energy).sum + 2 * k * listDot xs ys + (ys.map energy).sum := by
  induction h with
  | nil => simp [listDot]
  | cons h _ ih =>
    unfold listDot at ih ⊢
    simp only [List.map_cons, List.sum_cons, List.zipWith_cons_cons, ih, lin_energy h]
    ring

theorem list_dist {xs ys zs : List (Tensor R)} (h : Forall₃ (Lin (-1)) xs ys zs) : listDist xs ys = (zs.map energy).sum := by
  induction h with
  | nil => simp [listDist]
  | cons h _ ih =>
    unfold listDist at ih ⊢
    simp only [List.map_cons, List.sum_cons, List.zipWith_cons_cons, ih, lin_dist h]

theorem entry3_tensors {e e' e'' : Entry R} (h : Entry3 (Lin k) e e' e'') :
    Forall₃ (Lin k) (entryTensors e) (entryTensors e') (entryTensors e'') := by
  cases h with
  | tensor h => exact .cons h .nil
  | tuple h h' h'' => exact .cons h (.cons h' (.cons h'' .nil))
  | dict h =>
    rename_i kv kv' kv''
    show Forall₃ (Lin k) (kv.map Prod.snd) (kv'.map Prod.snd) (kv''.map Prod.snd)
    induction h with
    | nil => exact .nil
    | cons h _ ih => exact .cons h.2.2 ih
  | other => exact .nil

theorem coeffs_energy {a b d : Coeffs R} (h : Coeffs3 (Lin k) a b d) :
    coeffEnergy d = k ^ 2 * coeffEnergy a + 2 * k * coeffDot a b + coeffEnergy b := by
  unfold coeffEnergy coeffDot
  have := h.items
  generalize a.items = l₁ at this ⊢
  generalize b.items = l₂ at this ⊢
  generalize d.items = l₃ at this ⊢
  induction this with
  | nil => simp
  | cons h _ ih =>
    have e := list_energy (entry3_tensors h)
    simp only [List.map_cons, List.sum_cons, List.zipWith_cons_cons, ih]
    unfold entryEnergy entryDot
    rw [e]
    ring

theorem coeffs_dist {a b d : Coeffs R} (h : Coeffs3 (Lin (-1)) a b d) : coeffDist a b = coeffEnergy d := by
  unfold coeffEnergy coeffDist
  have := h.items
  generalize a.items = l₁ at this ⊢
  generalize b.items = l₂ at this ⊢
  generalize d.items = l₃ at this ⊢
  induction this with
  | nil => simp
  | cons h _ ih =>
    have e := list_dist (entry3_tensors h)
    simp only [List.map_cons, List.sum_cons, List.zipWith_cons_cons, ih]
    unfold entryEnergy entryDist
    rw [e]

/-- A linear map of tensors of one form which preserves energies preserves inner products and distances. -/
theorem polarise {α : Type} {E : α → R} {D Q : α → α → R} {P : R → α → α → α → Prop} [IsDomain R] [CharZero R]
    {f : Tensor R → Except Err α}
    (hE : ∀ k a b d, P k a b d → E d = k ^ 2 * E a + 2 * k * D a b + E b)
    (hQ : ∀ a b d, P (-1) a b d → Q a b = E d)
    (hf : ∀ k x y z, Lin k x y z → Three (P k) (f x) (f y) (f z))
    {x y : Tensor R} (h1 : y.md = x.md) (h2 : y.shape = x.shape)
    (hen : ∀ z : Tensor R, z.md = x.md → z.shape = x.shape → ∃ c, f z = .ok c ∧ E c = energy z) :
    ∃ c d, f x = .ok c ∧ f y = .ok d ∧ D c d = innerProd x y ∧ Q c d = dist2 x y ∧ E c = energy x ∧ E d = energy y := by
  obtain ⟨c, ec, hc⟩ := hen x rfl rfl
  obtain ⟨d, ed, hd⟩ := hen y h1 h2
  have key : ∀ k, ∃ e, P k c d e ∧ E e = energy (combT k x y) := by
    intro k
    obtain ⟨e, ee, he⟩ := hen (combT k x y) rfl rfl
    have := hf k x y _ (combT_lin k h1 h2)
    rw [ec, ed, ee] at this
    cases this with
    | ok h => exact ⟨e, h, he⟩
  refine ⟨c, d, ec, ed, ?_, ?_, hc, hd⟩
  · obtain ⟨e, p, he⟩ := key 1
    have h := hE 1 c d e p
    rw [he, hc, hd, lin_energy (combT_lin 1 h1 h2)] at h
    have h' : (2 : R) * (D c d - innerProd x y) = 0 := by linear_combination -h
    rcases mul_eq_zero.mp h' with h' | h'
    · exact absurd h' (by exact_mod_cast (two_ne_zero : (2 : Nat) ≠ 0))
    · exact sub_eq_zero.mp h'
  · obtain ⟨e, p, he⟩ := key (-1)
    rw [hQ c d e p, he, lin_dist (combT_lin (-1) h1 h2)]

end Verif
