/-
C69: time behaviour of the continuous wavelet transform: delays and zero padding, the reach of a coefficient,
constant signals.
-/
import Verif.Props.Cwt

namespace Verif.Props
open Verif.Spec Tensor

theorem linConv_shift (h : List ℂ) {N N' d : Nat} {v v' : Nat → ℂ} (hN : d + N ≤ N')
    (hin : ∀ j, j < N → v' (j + d) = v j) (hout : ∀ j, j < N' → ¬ (d ≤ j ∧ j < d + N) → v' j = 0) (m : Nat) :
    linConv h N' v' (m + d) = linConv h N v m := by
  unfold linConv
  symm
  refine Finset.sum_of_injOn (fun j => j + d) (fun a _ b _ h => by simpa using h) ?_ ?_ ?_
  · intro j hj
    simp only [Finset.coe_range, Set.mem_Iio] at hj ⊢
    omega
  · intro j hj hn
    rw [Finset.mem_range] at hj
    rw [hout j hj, zero_mul]
    rintro ⟨h1, h2⟩
    refine hn ⟨j - d, ?_, ?_⟩
    · simp only [Finset.coe_range, Set.mem_Iio]; omega
    · show j - d + d = j; omega
  · intro j hj
    rw [Finset.mem_range] at hj
    show _ = v' (j + d) * _
    rw [hin j hj]
    congr 2
    push_cast
    ring

theorem cwtAt_shift (h : List ℂ) (s : ℝ) {N N' d : Nat} {v v' : Nat → ℂ} (hN : d + N ≤ N')
    (hin : ∀ j, j < N → v' (j + d) = v j) (hout : ∀ j, j < N' → ¬ (d ≤ j ∧ j < d + N) → v' j = 0) (t : Nat) :
    cwtAt h s N' v' (t + d) = cwtAt h s N v t := by
  unfold cwtAt
  rw [← linConv_shift h hN hin hout (t + (h.length - 2) / 2 + 1), ← linConv_shift h hN hin hout (t + (h.length - 2) / 2),
    show t + d + (h.length - 2) / 2 + 1 = t + (h.length - 2) / 2 + 1 + d by omega,
    show t + d + (h.length - 2) / 2 = t + (h.length - 2) / 2 + d by omega]

theorem linConv_congr (h : List ℂ) {N : Nat} {v v' : Nat → ℂ} {m : Nat}
    (hv : ∀ j, j < N → j ≤ m → m < j + h.length → v' j = v j) : linConv h N v' m = linConv h N v m := by
  unfold linConv
  refine Finset.sum_congr rfl fun j hj => ?_
  rw [Finset.mem_range] at hj
  by_cases h1 : j ≤ m ∧ m < j + h.length
  · rw [hv j hj h1.1 h1.2]
  · have : tap h.reverse ((m : ℤ) - j) = 0 := by
      unfold tap
      split_ifs with h2
      · rw [List.getD_eq_default]
        rw [List.length_reverse]
        omega
      · rfl
    rw [this, mul_zero, mul_zero]

/-- Where the window of the filter is inside of the signal, a constant signal is multiplied by the sum of the taps. -/
theorem linConv_const (h : List ℂ) {N : Nat} {v : Nat → ℂ} {c : ℂ} {m : Nat} (h1 : h.length ≤ m + 1) (h2 : m < N)
    (hv : ∀ j, j ≤ m → m < j + h.length → v j = c) : linConv h N v m = c * ∑ k ∈ Finset.range h.length, h.getD k 0 := by
  have e : linConv h N v m = linConv h N (fun _ => c) m :=
    linConv_congr h fun j _ h3 h4 => hv j h3 h4
  rw [e, Finset.mul_sum]
  unfold linConv
  symm
  refine Finset.sum_of_injOn (fun k => m + 1 - h.length + k) (fun a _ b _ h => by simpa using h) ?_ ?_ ?_
  · intro k hk
    simp only [Finset.coe_range, Set.mem_Iio] at hk ⊢
    omega
  · intro j hj hn
    rw [Finset.mem_range] at hj
    have : tap h.reverse ((m : ℤ) - j) = 0 := by
      unfold tap
      split_ifs with h3
      · rw [List.getD_eq_default]
        rw [List.length_reverse]
        by_contra hlt
        refine hn ⟨j - (m + 1 - h.length), ?_, ?_⟩
        · simp only [Finset.coe_range, Set.mem_Iio]; omega
        · show m + 1 - h.length + (j - (m + 1 - h.length)) = j; omega
      · rfl
    rw [this, mul_zero]
  · intro k hk
    rw [Finset.mem_range] at hk
    show _ = c * tap h.reverse ((m : ℤ) - (m + 1 - h.length + k : ℕ))
    congr 1
    unfold tap
    rw [if_pos (by omega)]
    have e1 : ((m : ℤ) - (m + 1 - h.length + k : ℕ)).toNat = h.length - 1 - k := by omega
    rw [e1, List.getD_eq_getElem?_getD, List.getD_eq_getElem?_getD, List.getElem?_reverse (by omega)]
    congr 2
    omega

/-- The number of samples of the scaled wavelet. -/
theorem _root_.Verif.Spec.Sampled.length_lt {s step range : ℝ} {len : Nat} {g : Nat → ℂ} {h : List ℂ} (hh : Sampled s step range len g h)
    (hr : 0 ≤ s * range) : (h.length : ℝ) < s * range + 2 := by
  by_cases h0 : h.length = 0
  · rw [h0]; push_cast; linarith
  · have := ((hh.length (h.length - 1)).1 (by omega)).1
    have e : ((h.length - 1 : ℕ) : ℝ) = (h.length : ℝ) - 1 := by
      rw [Nat.cast_sub (by omega), Nat.cast_one]
    rw [e] at this
    linarith

/-- The samples a coefficient depends on are within half of the length of the scaled wavelet. -/
theorem cwtAt_congr {s step range : ℝ} {len : Nat} {g : Nat → ℂ} {h : List ℂ} (hh : Sampled s step range len g h)
    (hr : 0 ≤ s * range) (h2 : 2 ≤ h.length) {N : Nat} {v v' : Nat → ℂ} {t : Nat}
    (hv : ∀ j, j < N → |(j : ℝ) - t| ≤ (s * range + 3) / 2 → v' j = v j) :
    cwtAt h s N v' t = cwtAt h s N v t := by
  have hlt := hh.length_lt hr
  have key : ∀ m, t + (h.length - 2) / 2 ≤ m → m ≤ t + (h.length - 2) / 2 + 1 →
      linConv h N v' m = linConv h N v m := by
    intro m h3 h4
    refine linConv_congr h fun j hj h5 h6 => hv j hj ?_
    have a1 : 2 * (j : ℝ) ≤ 2 * t + h.length := by
      have : 2 * j ≤ 2 * t + h.length := by omega
      exact_mod_cast this
    have a2 : 2 * (t : ℝ) ≤ 2 * j + (h.length + 1) := by
      have : 2 * t ≤ 2 * j + (h.length + 1) := by omega
      exact_mod_cast this
    rw [abs_le]
    constructor <;> linarith
  unfold cwtAt
  rw [key _ (by omega) (by omega), key _ (by omega) (by omega)]

theorem cwtAt_const {s step range : ℝ} {len : Nat} {g : Nat → ℂ} {h : List ℂ} (hh : Sampled s step range len g h)
    (hr : 0 ≤ s * range) (h2 : 2 ≤ h.length) {N : Nat} {v : Nat → ℂ} {c : ℂ} {t : Nat}
    (hlo : (s * range + 3) / 2 ≤ t) (hhi : t + (s * range + 3) / 2 < N)
    (hv : ∀ j : ℕ, |(j : ℝ) - t| ≤ (s * range + 3) / 2 → v j = c) :
    cwtAt h s N v t = 0 := by
  have hlt := hh.length_lt hr
  have b1 : h.length + 1 ≤ 2 * t := by
    have : (h.length : ℝ) + 1 < 2 * t + 1 := by linarith
    have : h.length + 1 < 2 * t + 1 := by exact_mod_cast this
    omega
  have b2 : 2 * t + (h.length + 1) < 2 * N := by
    have : 2 * (t : ℝ) + (h.length + 1) < 2 * N := by linarith
    exact_mod_cast this
  have key : ∀ m, t + (h.length - 2) / 2 ≤ m → m ≤ t + (h.length - 2) / 2 + 1 →
      linConv h N v m = c * ∑ k ∈ Finset.range h.length, h.getD k 0 := by
    intro m h3 h4
    refine linConv_const h (by omega) (by omega) fun j h5 h6 => hv j ?_
    have a1 : 2 * (j : ℝ) ≤ 2 * t + h.length := by
      have : 2 * j ≤ 2 * t + h.length := by omega
      exact_mod_cast this
    have a2 : 2 * (t : ℝ) ≤ 2 * j + (h.length + 1) := by
      have : 2 * t ≤ 2 * j + (h.length + 1) := by omega
      exact_mod_cast this
    rw [abs_le]
    constructor <;> linarith
  unfold cwtAt
  rw [key _ (by omega) (by omega), key _ (by omega) (by omega), sub_self, mul_zero]

/-- Data delayed by `d` samples and filled up with zeros to `N'` samples along the last axis. -/
structure Delayed (d N' : Nat) (data data' : Tensor ℂ) : Prop where
  shape : data'.shape = data.shape.set (data.rank - 1) N'
  room : d + data.shape.getD (data.rank - 1) 0 ≤ N'
  samples : ∀ i, InB data.shape i →
    data'.get (i.set (data.rank - 1) (i.getD (data.rank - 1) 0 + d)) = data.get i
  zeros : ∀ i, InB data'.shape i →
    ¬ (d ≤ i.getD (data.rank - 1) 0 ∧ i.getD (data.rank - 1) 0 < d + data.shape.getD (data.rank - 1) 0) →
    data'.get i = 0

section
variable {data data' : Tensor ℂ} {scales : List ℝ} {w : CwtWavelet} {T : ℝ} {p : Nat} {psi : List ℂ}
  {x : List ℝ} (hw : w.wavefun p = .two psi x ∨ w.wavefun p = .three psi x) (hx : x.Pairwise (· < ·))
  (hl : 2 ≤ x.length) (hr : 0 < data.rank) (hne : scales ≠ [])
  (hpos : ∀ s ∈ scales, 0 < s ∧ 1 < psi.length * (s * (x.getD 1 0 - x.getD 0 0)))
include hw hx hl hr hne hpos

/-- **C69.** Delays and zero padding: when the signal is delayed by `d` samples and filled up with zeros on both sides,
its coefficients are delayed by `d` samples and otherwise unchanged, at every scale. -/
theorem c69_delay {d N' : Nat} (hd : Delayed d N' data data') :
    ∃ t t' fs, cwt data scales w T p = .ok (t, fs) ∧ cwt data' scales w T p = .ok (t', fs) ∧
      ∀ k i, k < scales.length → InB data.shape i →
        t'.get (k :: i.set (data.rank - 1) (i.getD (data.rank - 1) 0 + d)) = t.get (k :: i) := by
  have hrk : data'.rank = data.rank := by
    show data'.shape.length = data.shape.length
    rw [hd.shape, List.length_set]
  have hlt : data.rank - 1 < data.shape.length := by show _ < data.rank; omega
  obtain ⟨t, fs, h1, -, h2, h3, h4⟩ := c47_coefficients (data := data) (T := T) hw hx hl hr hne rfl rfl hpos
  obtain ⟨t', fs', h1', -, h2', h3', h4'⟩ := c47_coefficients (data := data') (T := T) hw hx hl (by omega) hne rfl rfl hpos
  refine ⟨t, t', fs, h1, by rw [h1', h3', h3], fun k i hk hi => ?_⟩
  have hks : scales[k]? = some scales[k] := List.getElem?_eq_getElem hk
  obtain ⟨-, g2, -, -⟩ := grid_facts hx hl
  obtain ⟨h, hh, -⟩ := c47_samples_exist (range := x.getD (x.length - 1) 0 - x.getD 0 0)
    (mul_pos (hpos _ (List.getElem_mem hk)).1 g2) (usedPsi w psi)
  rw [usedPsi_length] at hh
  have hil := hi.length_eq
  have hi1 : data.rank - 1 < i.length := by omega
  have hiN := hi.getD_lt hlt
  have hset : InB (data.shape.set (data.rank - 1) (data.shape.getD (data.rank - 1) 0)) i := by
    rwa [set_getD_self hlt]
  have hroom := hd.room
  have hin' : ∀ j, j < N' → InB data'.shape (i.set (data.rank - 1) j) := by
    intro j hj
    rw [hd.shape]
    refine (inB_set_iff (a := data.rank - 1) (x := data.shape.getD (data.rank - 1) 0) (by simpa using hlt) ?_).2 ?_
    · rwa [List.set_set]
    · rwa [getD_set_self hlt]
  rw [h4 k _ h hks hh i hi, h4' k _ h hks hh _ (hin' _ (by omega)), hrk, getD_set_self hi1]
  congr 1
  rw [hd.shape, getD_set_self hlt]
  refine cwtAt_shift h _ hd.room (fun j hj => ?_) (fun j hj hout => ?_) _
  · simp only [List.set_set]
    have hij : InB data.shape (i.set (data.rank - 1) j) := (inB_set_iff hlt hset).2 hj
    have := hd.samples _ hij
    rwa [getD_set_self hi1, List.set_set] at this
  · simp only [List.set_set]
    refine hd.zeros _ (hin' j hj) ?_
    rwa [getD_set_self hi1]

/-- **C69.** The reach of a coefficient: signals which agree on all samples within half of the length of the scaled
wavelet (and a sample and a half for the rounding) of a point in time have the same coefficient there. -/
theorem c69_reach (hs : data'.shape = data.shape) :
    ∃ t t' fs, cwt data scales w T p = .ok (t, fs) ∧ cwt data' scales w T p = .ok (t', fs) ∧
      ∀ k s i, scales[k]? = some s → InB data.shape i →
        (∀ j, j < data.shape.getD (data.rank - 1) 0 →
          |(j : ℝ) - i.getD (data.rank - 1) 0| ≤ (s * (x.getD (x.length - 1) 0 - x.getD 0 0) + 3) / 2 →
          data'.get (i.set (data.rank - 1) j) = data.get (i.set (data.rank - 1) j)) →
        t'.get (k :: i) = t.get (k :: i) := by
  have hrk : data'.rank = data.rank := by
    show data'.shape.length = data.shape.length
    rw [hs]
  obtain ⟨t, fs, h1, -, h2, h3, h4⟩ := c47_coefficients (data := data) (T := T) hw hx hl hr hne rfl rfl hpos
  obtain ⟨t', fs', h1', -, h2', h3', h4'⟩ := c47_coefficients (data := data') (T := T) hw hx hl (by omega) hne rfl rfl hpos
  refine ⟨t, t', fs, h1, by rw [h1', h3', h3], fun k s i hks hi hv => ?_⟩
  obtain ⟨-, g2, -, g4⟩ := grid_facts hx hl
  obtain ⟨p1, p2⟩ := hpos _ (List.mem_of_getElem? hks)
  obtain ⟨h, hh, -⟩ := c47_samples_exist (range := x.getD (x.length - 1) 0 - x.getD 0 0)
    (mul_pos p1 g2) (usedPsi w psi)
  rw [usedPsi_length] at hh
  have hpr : 0 < s * (x.getD (x.length - 1) 0 - x.getD 0 0) := mul_pos p1 g4
  have hh2 : 1 < h.length := (hh.length 1).2 ⟨by push_cast; linarith, by push_cast; exact p2⟩
  rw [h4 k _ h hks hh i hi, h4' k _ h hks hh i (by rw [hs]; exact hi), hrk, hs]
  congr 1
  exact cwtAt_congr hh hpr.le hh2 hv

/-- **C69.** Constant signals: where the signal is constant within half of the length of the scaled wavelet (and a
sample and a half) of a point in time, and the signal reaches that far, the coefficient is zero. -/
theorem c69_constant : ∃ t fs, cwt data scales w T p = .ok (t, fs) ∧
      ∀ k s i c, scales[k]? = some s → InB data.shape i →
        (s * (x.getD (x.length - 1) 0 - x.getD 0 0) + 3) / 2 ≤ i.getD (data.rank - 1) 0 →
        i.getD (data.rank - 1) 0 + (s * (x.getD (x.length - 1) 0 - x.getD 0 0) + 3) / 2 <
          data.shape.getD (data.rank - 1) 0 →
        (∀ j : Nat, |(j : ℝ) - i.getD (data.rank - 1) 0| ≤ (s * (x.getD (x.length - 1) 0 - x.getD 0 0) + 3) / 2 →
          data.get (i.set (data.rank - 1) j) = c) →
        t.get (k :: i) = 0 := by
  obtain ⟨t, fs, h1, -, h2, h3, h4⟩ := c47_coefficients (data := data) (T := T) hw hx hl hr hne rfl rfl hpos
  refine ⟨t, fs, h1, fun k s i c hks hi hlo hhi hv => ?_⟩
  obtain ⟨-, g2, -, g4⟩ := grid_facts hx hl
  obtain ⟨p1, p2⟩ := hpos _ (List.mem_of_getElem? hks)
  obtain ⟨h, hh, -⟩ := c47_samples_exist (range := x.getD (x.length - 1) 0 - x.getD 0 0)
    (mul_pos p1 g2) (usedPsi w psi)
  rw [usedPsi_length] at hh
  have hpr : 0 < s * (x.getD (x.length - 1) 0 - x.getD 0 0) := mul_pos p1 g4
  have hh2 : 1 < h.length := (hh.length 1).2 ⟨by push_cast; linarith, by push_cast; exact p2⟩
  rw [h4 k _ h hks hh i hi, cwtAt_const hh hpr.le hh2 hlo hhi hv]
  unfold kept
  split <;> simp

end

/-! ### Non-vacuity -/

/-- The five samples of `cwtDemoData`, three samples later in a signal of ten samples. -/
noncomputable def cwtDemoLate : Tensor ℂ := ofFn { dtype := .float32, device := 0 } [2, 10] fun i =>
  if 3 ≤ i.getD 1 0 ∧ i.getD 1 0 < 8 then (i.getD 0 0 + (i.getD 1 0 - 3) : ℕ) else 0

theorem cwtDemo_delayed : Delayed 3 10 cwtDemoData cwtDemoLate where
  shape := rfl
  room := by decide
  samples := by
    intro i hi
    match i, hi with
    | [a, b], hi =>
      have h1 : a < 2 := hi.1
      have h2 : b < 5 := hi.2.1
      have h3 : InB [2, 10] [a, b + 3] := ⟨h1, by omega, trivial⟩
      show (if InB [2, 10] [a, b + 3] then (if 3 ≤ b + 3 ∧ b + 3 < 8 then ((a + (b + 3 - 3) : ℕ) : ℂ) else 0) else 0) =
        if InB [2, 5] [a, b] then ((a + b : ℕ) : ℂ) else 0
      rw [if_pos h3, if_pos (by omega), if_pos (show InB [2, 5] [a, b] from hi)]
      rfl
  zeros := by
    intro i hi hn
    show (if InB [2, 10] i then (if 3 ≤ i.getD 1 0 ∧ i.getD 1 0 < 8 then ((i.getD 0 0 + (i.getD 1 0 - 3) : ℕ) : ℂ)
      else 0) else 0) = 0
    rw [if_neg (c := 3 ≤ i.getD 1 0 ∧ i.getD 1 0 < 8) hn]
    split_ifs <;> rfl

example (k : CwtKind) (c : Bool) : ∃ t t' fs, cwt cwtDemoData [2, 1] (cwtDemo k c) 1 12 = .ok (t, fs) ∧
    cwt cwtDemoLate [2, 1] (cwtDemo k c) 1 12 = .ok (t', fs) ∧ t'.get [1, 0, 5] = t.get [1, 0, 2] := by
  obtain ⟨t, t', fs, h1, h2, h3⟩ := c69_delay (T := 1) (p := 12) (scales := [2, 1]) (w := cwtDemo k c) (.inr rfl)
    cwtDemo_grid (by simp) (by simp [cwtDemoData, Tensor.rank]) (by simp)
    (by
      intro s hs
      simp only [List.mem_cons, List.not_mem_nil, or_false] at hs
      rcases hs with rfl | rfl <;> norm_num) cwtDemo_delayed
  exact ⟨t, t', fs, h1, h2, h3 1 [0, 2] (by decide) (by decide)⟩

/-- A step: the coefficients of scale one vanish away from the jump and the ends. -/
noncomputable def cwtStep : Tensor ℂ := ofFn { dtype := .float32, device := 0 } [20] fun i => if i.getD 0 0 < 10 then 2 else 7

example (k : CwtKind) (c : Bool) : ∃ t fs, cwt cwtStep [1] (cwtDemo k c) 1 12 = .ok (t, fs) ∧
    t.get [0, 5] = 0 ∧ t.get [0, 14] = 0 := by
  have hpos : ∀ s ∈ ([1] : List ℝ), 0 < s ∧ 1 < (([1, 1, -1, -1] : List ℂ).length : ℝ) *
      (s * (([0, 1, 2, 3] : List ℝ).getD 1 0 - ([0, 1, 2, 3] : List ℝ).getD 0 0)) := by
    intro s hs
    simp only [List.mem_cons, List.not_mem_nil, or_false] at hs
    subst hs
    norm_num
  obtain ⟨t, fs, h1, h2⟩ := c69_constant (T := 1) (p := 12) (scales := [1]) (w := cwtDemo k c) (data := cwtStep)
    (.inr rfl) cwtDemo_grid (by simp) (by simp [cwtStep, Tensor.rank]) (by simp) hpos
  have e : (1 * (([0, 1, 2, 3] : List ℝ).getD (([0, 1, 2, 3] : List ℝ).length - 1) 0 -
      ([0, 1, 2, 3] : List ℝ).getD 0 0) + 3) / 2 = (3 : ℝ) := by norm_num
  refine ⟨t, fs, h1, h2 0 1 [5] 2 rfl (by decide) ?_ ?_ ?_, h2 0 1 [14] 7 rfl (by decide) ?_ ?_ ?_⟩
  · rw [e]; show (3 : ℝ) ≤ ((5 : ℕ) : ℝ); norm_num
  · rw [e]; show ((5 : ℕ) : ℝ) + 3 < ((20 : ℕ) : ℝ); norm_num
  · rw [e]
    intro j hj
    have hj' : |(j : ℝ) - (5 : ℕ)| ≤ 3 := hj
    rw [abs_le] at hj'
    have : j ≤ 8 := by
      have : (j : ℝ) ≤ (8 : ℕ) := by push_cast at hj' ⊢; linarith
      exact_mod_cast this
    show (if InB [20] [j] then (if j < 10 then (2 : ℂ) else 7) else 0) = 2
    rw [if_pos ⟨by omega, trivial⟩, if_pos (by omega)]
  · rw [e]; show (3 : ℝ) ≤ ((14 : ℕ) : ℝ); norm_num
  · rw [e]; show ((14 : ℕ) : ℝ) + 3 < ((20 : ℕ) : ℝ); norm_num
  · rw [e]
    intro j hj
    have hj' : |(j : ℝ) - (14 : ℕ)| ≤ 3 := hj
    rw [abs_le] at hj'
    have h3 : j ≤ 17 := by
      have : (j : ℝ) ≤ (17 : ℕ) := by push_cast at hj' ⊢; linarith
      exact_mod_cast this
    have h4 : 11 ≤ j := by
      have : ((11 : ℕ) : ℝ) ≤ j := by push_cast at hj' ⊢; linarith
      exact_mod_cast this
    show (if InB [20] [j] then (if j < 10 then (2 : ℂ) else 7) else 0) = 7
    rw [if_pos ⟨by omega, trivial⟩, if_neg (by omega)]

end Verif.Props
