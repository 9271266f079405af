/-
C83: why filters with more than three taps are restricted to one level.
-/
import Verif.Props.Roll

namespace Verif.Props
open Tensor Spec

/-- A bank of four taps. -/
def longBank : Wavelet Int := ⟨[1, 2, 0, 3], [1, 0, 0, 0], [1, 0, 0, 0], [1, 0, 0, 0]⟩

/-- The first two approximation coefficients. -/
def firstApprox : Except Err (List (Tensor Int)) → Option (Int × Int × List Nat)
  | .ok (t :: _) => some (t.get [0], t.get [1], t.shape)
  | _ => none

theorem firstApprox_some {r : Except Err (List (Tensor Int))} {v v' : Int} {s : List Nat} (h : firstApprox r = some (v, v', s)) :
    ∃ t ts, r = .ok (t :: ts) ∧ t.get [0] = v ∧ t.get [1] = v' ∧ t.shape = s := by
  match r, h with
  | .ok (t :: ts), h => simp only [firstApprox, Option.some.injEq, Prod.mk.injEq] at h; exact ⟨t, ts, rfl, h⟩

/-- **C83, the restriction is needed.** With four taps and two levels a roll by `2^L` samples does not roll the coefficients,
whatever the distance: here the approximation of the ramp of eight samples and that of the ramp rolled by four. -/
theorem c83_long_filters : ∃ (x y : Tensor Int) (w : Wavelet Int) (cs cs' : List (Tensor Int)) (t t' : Tensor Int),
    w.len = 4 ∧ x.shape = [8] ∧ Rolled [0] [8] [2 ^ 2 * 1] x y ∧
    wavedec x w (some "periodic") (some 2) (.int (-1)) = .ok cs ∧ wavedec y w (some "periodic") (some 2) (.int (-1)) = .ok cs' ∧
    cs[0]? = some t ∧ cs'[0]? = some t' ∧ ∀ d, ¬ Rolled [0] [8 / 2 ^ 2] [d] t t' := by
  set x : Tensor Int := ofFn ⟨.float64, 0⟩ [8] fun i => ((i.getD 0 0 : Nat) : Int) with hx
  have e1 : firstApprox (wavedec x longBank (some "periodic") (some 2) (.int (-1))) = some (138, 126, [4]) := by
    rw [hx]; decide +kernel
  have e2 : firstApprox (wavedec (rollT [0] [8] [4] x) longBank (some "periodic") (some 2) (.int (-1))) = some (90, 102, [4]) := by
    rw [hx]; decide +kernel
  obtain ⟨t, ts, h1, h2, h3, h4⟩ := firstApprox_some e1
  obtain ⟨t', ts', h1', h2', h3', h4'⟩ := firstApprox_some e2
  refine ⟨x, rollT [0] [8] [4] x, longBank, _, _, t, t', rfl, rfl, rollT_rolled _ _ _ _, h1, h1', rfl, rfl, fun d h => ?_⟩
  have := h.get [0] (by rw [h4]; exact ⟨by decide, trivial⟩)
  change t'.get [0] = t.get [(0 + d) % 2] at this
  rcases Nat.mod_two_eq_zero_or_one (0 + d) with e | e <;> rw [e, h2'] at this
  · rw [h2] at this; exact absurd this (by decide)
  · rw [h3] at this; exact absurd this (by decide)

end Verif.Props
