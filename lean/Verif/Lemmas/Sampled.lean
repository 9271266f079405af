import Verif.Spec.Sampled
import Verif.Lemmas.Local
import Verif.Lemmas.CircPad

/-! The decimated transform inside the stationary one. -/

namespace Verif.Spec
open Finset
variable {R : Type}

theorem swtPos_cast {F s k n : Nat} (hF : 2 ≤ F) (h : Inside F s 0 n k) :
    ((swtPos F s k : ℕ) : ℤ) = 2 ^ s * (k : ℤ) - (2 ^ s - 1) * ((F / 2 : ℕ) - 1) ∧ swtPos F s k < n := by
  obtain ⟨h1, h2⟩ := h
  unfold swtPos
  obtain ⟨p, hp⟩ : ∃ p, 2 ^ s = p + 1 := ⟨2 ^ s - 1, by have := Nat.one_le_two_pow (n := s); omega⟩
  have hpz : (2 ^ s : ℤ) = (p : ℤ) + 1 := by exact_mod_cast hp
  rw [hp] at h1 h2 ⊢
  rw [hpz]
  obtain ⟨g, hg⟩ : ∃ g, F / 2 = g + 1 := ⟨F / 2 - 1, by omega⟩
  obtain ⟨f, hf⟩ : ∃ f, F = f + 1 := ⟨F - 1, by omega⟩
  have hle : g + 1 ≤ f := by omega
  have e1 : (p + 1 - 1) * (F - 1) = p * f := by rw [hf]; simp
  have e2 : (p + 1 - 1) * (F / 2 - 1) = p * g := by rw [hg]; simp
  rw [e1] at h1
  rw [e2, hg]
  have h3 : p * (g + 1) ≤ p * f := Nat.mul_le_mul_left _ hle
  rw [Nat.mul_add] at h1 h2 h3
  have hle2 : p * g ≤ (p + 1) * k := by omega
  constructor
  · rw [Nat.cast_sub hle2]
    push_cast
    ring
  · omega

/-- One step on both sides. -/
theorem step_sampled [NonUnitalNonAssocSemiring R] {m : Mode} {h : List R} {F n s k : Nat} (hF : 2 ≤ F)
    (hh : h.length = F) {v u : Nat → R} (hvu : ∀ j, Inside F s 0 n j → v j = u (swtPos F s j))
    (hk : Inside F (s + 1) 0 n k) :
    dwtStep m h (levelLen F n s) v k = swtStep h (2 ^ s) n u (swtPos F (s + 1) k) := by
  unfold dwtStep analysis swtStep
  rw [hh]
  refine Finset.sum_congr rfl fun j hj => ?_
  have hj := Finset.mem_range.mp hj
  obtain ⟨h1, h2⟩ := hk.step hj
  have e1 : (2 * (k : ℤ) + 1 - j) = ((2 * k + 1 - j : ℕ) : ℤ) := by omega
  have h3 : 2 * k + 1 - j < levelLen F n s := by simpa using h2.lt hF (c := 0) (n := n) (by simp)
  obtain ⟨q1, -⟩ := swtPos_cast hF hk
  obtain ⟨q2, q3⟩ := swtPos_cast hF h2
  have e2 : ((swtPos F (s + 1) k : ℕ) : ℤ) + (2 ^ s : ℕ) * ((F / 2 : ℕ) : ℤ) - (2 ^ s : ℕ) * j =
      ((swtPos F s (2 * k + 1 - j) : ℕ) : ℤ) := by
    rw [q1, q2, ← e1, pow_succ]
    push_cast
    ring
  rw [e1, ext_inside m _ h3, hvu _ h2, e2, ext_inside .periodic _ q3]

theorem cA_sampled [NonUnitalNonAssocSemiring R] (m : Mode) (w : Wavelet R) (hF : 2 ≤ w.len) (n : Nat) (v : Nat → R) :
    ∀ s k, Inside w.len s 0 n k → cA m w n v s k = swtA w n v s (swtPos w.len s k)
  | 0, k, _ => by simp [cA, swtA, swtPos]
  | s + 1, k, hk => step_sampled hF rfl (cA_sampled m w hF n v s) hk

theorem cD_sampled [NonUnitalNonAssocSemiring R] (m : Mode) (w : Wavelet R) (hF : 2 ≤ w.len)
    (hhi : w.decHi.length = w.len) (n : Nat) (v : Nat → R) (s k : Nat) (hk : Inside w.len (s + 1) 0 n k) :
    cD m w n v s k = swtD w n v s (swtPos w.len (s + 1) k) :=
  step_sampled hF hhi (cA_sampled m w hF n v s) hk

/-- The first level of the periodic mode, without exception. -/
theorem step_sampledAll [NonUnitalNonAssocSemiring R] {h : List R} {n k p : Nat} (v : Nat → R)
    (hp : (n : ℤ) ∣ (p : ℤ) - (2 * (k : ℤ) - ((h.length / 2 : ℕ) - 1))) :
    dwtStep .periodic h n v k = swtStep h 1 n v p := by
  unfold dwtStep analysis swtStep
  refine Finset.sum_congr rfl fun j hj => ?_
  congr 1
  refine ext_periodic_congr ?_
  obtain ⟨q, hq⟩ := hp
  refine ⟨-q, ?_⟩
  rw [Nat.cast_one]
  linear_combination -hq

end Verif.Spec
