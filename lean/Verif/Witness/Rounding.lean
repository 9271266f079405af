import Verif.Props.RoundingS
import Verif.Props.WaveletLayer

/-! Further instances of C75, C76 and C77: float32 arithmetic (`p = 24`) from left to right. -/

namespace Verif.Witness
open Verif.Props Verif.Spec Tensor

theorem close_self (t : Tensor ℚ) : CloseBy t t (absT t) (absT t) :=
  ⟨⟨rfl, rfl, rfl⟩, ⟨rfl, rfl, rfl⟩, fun _ => le_rfl, fun _ => by simp⟩

/-- A history: transform, read, write, read, reconstruct. -/
def hist (x t : Tensor ℚ) : List (Backend.Op (Tensor ℚ)) :=
  [.transform x (some 2), .read ['a', 'd'], .set ['a', 'd'] t, .read ['a', 'd'], .reconstruct]

theorem hist_close (x t : Tensor ℚ) : CloseOps (hist x t) (hist x t) (hist (absT x) (absT t)) (hist (absT x) (absT t)) :=
  .cons (.transform _ (close_self _)) (.cons (.read _) (.cons (.set _ (close_self _)) (.cons (.read _)
    (.cons .reconstruct .nil))))

/-- A bound on the growth by one step that serves all cases below. -/
theorem grow {k m : Nat} (h : k ≤ m) : ((1 : ℚ) + 1 / 2 ^ 24) ^ k ≤ (1 + 1 / 2 ^ 24) ^ m :=
  pow_le_pow_right₀ (by norm_num) h

theorem grow2 {k m : Nat} (h : k ≤ m * 2) : ((1 : ℚ) + 1 / 2 ^ 24) ^ k ≤ ((1 + 1 / 2 ^ 24) ^ m) ^ 2 := by
  rw [← pow_mul]; exact grow h

theorem grow3 {k m : Nat} (h : k ≤ m * 3) : ((1 : ℚ) + 1 / 2 ^ 24) ^ k ≤ ((1 + 1 / 2 ^ 24) ^ m) ^ 3 := by
  rw [← pow_mul]; exact grow h

example := c76_packet (c74_binary (R := ℚ) 24) haar (grow (m := 4) (by decide)) (grow (by decide)) (some "symmetric") 0
  (hist_close exX exX)

example := c76_packet2d_separable (KN := seqKernelsN (flRound 24)) (c74_binary (R := ℚ) 24) haar (grow (m := 4) (by decide))
  (grow (by decide)) (some "symmetric") [0, 1] (hist_close exX exX)

example := c76_packet2d (K := seqKernels (flRound 24)) (c75_binary (R := ℚ) 24) haar (g := (1 + 1 / 2 ^ 24) ^ 10)
  (one_le_pow₀ (by norm_num)) (grow2 (by decide)) (grow2 (by decide)) (some "symmetric") [0, 1] (hist_close exX exX)

example := c76_iswt (c76_binary (R := ℚ) 24) haar (grow (m := 6) (by decide)) (.int 0)
  (.cons (close_self exX) (.cons (close_self exX) .nil))

/-- One level of coefficients in a tuple, and one in a dictionary. -/
def lev2 (t : Tensor ℚ) : Coeffs ℚ := ⟨false, [.tensor t, .tuple t t t]⟩

theorem lev2_close (t : Tensor ℚ) : CloseCoeffs (lev2 t) (lev2 t) (lev2 (absT t)) (lev2 (absT t)) :=
  ⟨⟨rfl, rfl, rfl⟩, .cons (.tensor (close_self t)) (.cons (.tuple (close_self t) (close_self t) (close_self t)) .nil)⟩

def levD (t : Tensor ℚ) : Coeffs ℚ := ⟨false, [.tensor t, .dict [("ad", t), ("da", t), ("dd", t)]]⟩

theorem levD_close (t : Tensor ℚ) : CloseCoeffs (levD t) (levD t) (levD (absT t)) (levD (absT t)) :=
  ⟨⟨rfl, rfl, rfl⟩, .cons (.tensor (close_self t)) (.cons (.dict rfl rfl rfl
    (.cons (close_self t) (.cons (close_self t) (.cons (close_self t) .nil)))) .nil)⟩

def levD3 (t : Tensor ℚ) : Coeffs ℚ := ⟨false, [.tensor t, .dict [("aad", t), ("ada", t), ("add", t), ("daa", t), ("dad", t),
  ("dda", t), ("ddd", t)]]⟩

theorem levD3_close (t : Tensor ℚ) : CloseCoeffs (levD3 t) (levD3 t) (levD3 (absT t)) (levD3 (absT t)) :=
  have h := close_self t
  ⟨⟨rfl, rfl, rfl⟩, .cons (.tensor h) (.cons (.dict rfl rfl rfl
    (.cons h (.cons h (.cons h (.cons h (.cons h (.cons h (.cons h .nil)))))))) .nil)⟩

example := c75_waverec2 (c75_binary (R := ℚ) 24) haar (g := (1 + 1 / 2 ^ 24) ^ 10) (grow2 (by decide)) .none (lev2_close exX)
example := c75_waverec3 (c75_binary (R := ℚ) 24) haar (g := (1 + 1 / 2 ^ 24) ^ 10) (grow3 (by decide)) .none (levD3_close exV)
example := c76_fswaverec (c74_binary (R := ℚ) 24) haar (grow (m := 4) (by decide)) 2 .none (levD_close exX)

-- C77: one scale, and a linear combination of inputs
example := c77_lengths 8 2 4 "periodization" (by decide) rfl
example : ∃ c, layerDecompose haar 1 [4, 4] layerX = .ok c ∧ layerReconstruct haar 1 [4, 4] c = .ok layerX := by
  obtain ⟨c, ec, -⟩ := (c77_decompose haar layerX 3 8 1 "zero" [4, 4] le_rfl rfl rfl (by decide) layer_lens1 rfl
    (Or.inl rfl)).2 (fun s hs => layer_admits s (by omega))
  exact ⟨c, ec, c77_one_scale haar layerX c 2 3 8 "zero" [4, 4] haar_pr le_rfl rfl (by decide) layer_lens1 rfl (Or.inl rfl)
    rfl ec⟩

example (l : WaveletLayer ℚ) (m : LayerMasks ℚ) := c77_linear l m 3 layerX
  (ofFn ⟨.float32, 0⟩ [3, 8] fun _ => 1) (ofFn ⟨.float32, 0⟩ [3, 8] fun i => 3 * layerX.get i + 1) (by
    refine ⟨rfl, rfl, rfl, rfl, ?_⟩
    intro i
    rw [ofFn_get, ofFn_get]
    split_ifs with h
    · rfl
    · rw [layerX.supp i h]; simp)

end Verif.Witness
