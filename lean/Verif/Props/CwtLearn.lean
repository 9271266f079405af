/-
C57: the learnable continuous wavelets.
-/
import Verif.Model.CwtLearn
import Verif.Spec.CwtLearn
import Verif.Props.Cwt
import Mathlib.Analysis.SpecialFunctions.Sqrt
import Mathlib.Analysis.SpecialFunctions.ExpDeriv
import Mathlib.Analysis.SpecialFunctions.Trigonometric.Deriv

namespace Verif.Props
open Verif Spec Tensor

/-- **C57.** Whatever values the parameters take, bandwidth and centre frequency are not negative, and positive unless the
parameter is 0. A new object has the frequencies of pywt. -/
theorem c57_frequencies (w : LearnWavelet) :
    (0 ≤ w.bandwidth ∧ 0 ≤ w.center ∧ (w.bandwidth = 0 ↔ w.bandwidthPar = 0) ∧ (w.center = 0 ↔ w.centerPar = 0)) ∧
    ∀ cls B C lo hi cc cf, 0 ≤ B → 0 ≤ C →
      (LearnWavelet.init cls B C lo hi cc cf).bandwidth = B ∧ (LearnWavelet.init cls B C lo hi cc cf).center = C := by
  refine ⟨⟨mul_self_nonneg _, mul_self_nonneg _, mul_self_eq_zero, mul_self_eq_zero⟩, ?_⟩
  intro cls B C lo hi cc cf hB hC
  exact ⟨Real.mul_self_sqrt hB, Real.mul_self_sqrt hC⟩

theorem linspace_getD (lo hi : ℝ) {n k : Nat} (hk : k < n) :
    (linspace lo hi n).getD k 0 = lo + k * ((hi - lo) / ((n - 1 : Nat) : ℝ)) := by
  unfold linspace
  rw [List.getD_eq_getElem _ _ (by simpa using hk)]
  simp

/-- **C57.** The grid of `wavefun` has `2^precision` equally spaced points from the lower to the upper bound; it is
increasing if the bounds are. The values and the grid have the same length. -/
theorem c57_grid (w : LearnWavelet) (p : Nat) (hp : 1 ≤ p) {psi : List (Option ℂ)} {x : List ℝ}
    (h : w.wavefun p = .ok (psi, x)) :
    UniformGrid w.lower w.upper (2 ^ p) x ∧ psi.length = 2 ^ p ∧ (w.lower < w.upper → x.Pairwise (· < ·)) := by
  have hx : x = linspace w.lower w.upper (2 ^ p) ∧ psi.length = x.length := by
    unfold LearnWavelet.wavefun LearnWavelet.call at h
    cases hc : w.cls <;> rw [hc] at h <;>
      simp only [bind, Except.bind, pure, Except.pure, Except.ok.injEq, Prod.mk.injEq, reduceCtorEq] at h
    all_goals
      obtain ⟨rfl, rfl⟩ := h
      exact ⟨rfl, by simp⟩
  obtain ⟨rfl, hl⟩ := hx
  have h2 : 2 ≤ 2 ^ p := by
    calc 2 = 2 ^ 1 := rfl
      _ ≤ 2 ^ p := Nat.pow_le_pow_right (by omega) hp
  set n := 2 ^ p with hn
  have hn1 : ((n - 1 : Nat) : ℝ) = (n : ℝ) - 1 := by push_cast [Nat.cast_sub (by omega : 1 ≤ n)]; ring
  have hne : (n : ℝ) - 1 ≠ 0 := by
    have : (2 : ℝ) ≤ n := by exact_mod_cast h2
    linarith
  have hlen : (linspace w.lower w.upper n).length = n := by simp [linspace]
  refine ⟨⟨hlen, ?_, ?_, ?_⟩, by rw [hl, hlen], ?_⟩
  · rw [linspace_getD _ _ (by omega)]; simp
  · rw [linspace_getD _ _ (by omega), hn1]; field_simp; ring
  · intro k hk
    rw [linspace_getD _ _ hk, linspace_getD _ _ (by omega), hn1]
    push_cast
    field_simp
    ring
  · intro hb
    unfold linspace
    rw [List.pairwise_map]
    refine List.pairwise_lt_range.imp fun {a b} hab => ?_
    have hab' : (a : ℝ) < b := by exact_mod_cast hab
    have hs : 0 < (w.upper - w.lower) / ((n - 1 : Nat) : ℝ) := by
      rw [hn1]
      have : (2 : ℝ) ≤ n := by exact_mod_cast h2
      exact div_pos (by linarith) (by linarith)
    have := mul_lt_mul_of_pos_right hab' hs
    linarith

theorem carrier_eq (C t : ℝ) : Complex.exp (Complex.I * 2 * Real.pi * C * t) = carrier C t := by
  unfold carrier
  congr 1
  push_cast
  ring

theorem shannonAt_eq (w : LearnWavelet) (t : ℝ) :
    shannonAt w t = if w.bandwidthPar = 0 ∨ t = 0 then none else some (shannon w.bandwidth w.center t) := by
  classical
  have hz : Real.pi * w.bandwidth * t = 0 ↔ w.bandwidthPar = 0 ∨ t = 0 := by
    rw [mul_eq_zero, mul_eq_zero, (c57_frequencies w).1.2.2.1]
    simp [Real.pi_ne_zero]
  unfold shannonAt
  by_cases h : Real.pi * w.bandwidth * t = 0
  · rw [if_pos h, if_pos (hz.mp h)]
  · rw [if_neg h, if_neg fun h' => h (hz.mpr h')]
    unfold shannon
    rw [Real.sinc, if_neg h, carrier_eq]
    push_cast
    rfl

theorem morletAt_eq (w : LearnWavelet) (t : ℝ) :
    morletAt w t = if w.bandwidthPar = 0 then none else some (morlet w.bandwidth w.center t) := by
  classical
  unfold morletAt
  by_cases h : w.bandwidthPar = 0
  · rw [if_pos ((c57_frequencies w).1.2.2.1.mpr h), if_pos h]
  · rw [if_neg fun h' => h ((c57_frequencies w).1.2.2.1.mp h'), if_neg h]
    unfold morlet
    rw [carrier_eq, one_div]
    push_cast
    rfl

/-- **C57.** The values are those of the Shannon or the complex Morlet wavelet with the current bandwidth and centre
frequency. With bandwidth parameter 0 every value is NaN; the Shannon wavelet is also NaN at 0 (its value there is
`√B`). The base class raises NotImplementedError. -/
theorem c57_values (w : LearnWavelet) (p : Nat) :
    (w.cls = .shannon → ∃ psi x, w.wavefun p = .ok (psi, x) ∧ psi.length = x.length ∧ ∀ (k : Nat) (t : ℝ), x[k]? = some t →
      psi[k]? = some (if w.bandwidthPar = 0 ∨ t = 0 then none else some (shannon w.bandwidth w.center t))) ∧
    (w.cls = .morlet → ∃ psi x, w.wavefun p = .ok (psi, x) ∧ psi.length = x.length ∧ ∀ (k : Nat) (t : ℝ), x[k]? = some t →
      psi[k]? = some (if w.bandwidthPar = 0 then none else some (morlet w.bandwidth w.center t))) ∧
    (w.cls = .base → w.wavefun p = .error .notImplementedError) := by
  refine ⟨?_, ?_, ?_⟩
  · intro h
    refine ⟨_, _, by unfold LearnWavelet.wavefun LearnWavelet.call; rw [h]; rfl, by simp, fun k t ht => ?_⟩
    rw [List.getElem?_map, ht, ← shannonAt_eq]
    rfl
  · intro h
    refine ⟨_, _, by unfold LearnWavelet.wavefun LearnWavelet.call; rw [h]; rfl, by simp, fun k t ht => ?_⟩
    rw [List.getElem?_map, ht, ← morletAt_eq]
    rfl
  · intro h
    unfold LearnWavelet.wavefun LearnWavelet.call
    rw [h]
    rfl

/-- **C57.** On a symmetric grid (the bounds of pywt are `±20` for Shannon and `±8` for Morlet wavelets) with at least two
points no grid point is 0, so the Shannon wavelet has no NaN unless the bandwidth parameter is 0. -/
theorem c57_no_nan (w : LearnWavelet) (hc : w.cls = .shannon ∨ w.cls = .morlet) (p : Nat) (hp : 1 ≤ p)
    (hb : w.lower = -w.upper) (hu : 0 < w.upper) (hpar : w.bandwidthPar ≠ 0) :
    ∃ (psi : List ℂ) (x : List ℝ), w.wavefun p = .ok (psi.map some, x) ∧ psi.length = x.length ∧
      ∀ (k : Nat) (t : ℝ), x[k]? = some t → t ≠ 0 ∧ psi[k]? = some
        (if w.cls = .shannon then shannon w.bandwidth w.center t else morlet w.bandwidth w.center t) := by
  have h2 : 2 ≤ 2 ^ p := by
    calc 2 = 2 ^ 1 := rfl
      _ ≤ 2 ^ p := Nat.pow_le_pow_right (by omega) hp
  have hne : ∀ (k : Nat) (t : ℝ), (linspace w.lower w.upper (2 ^ p))[k]? = some t → t ≠ 0 := by
    intro k t ht h0
    obtain ⟨hk, e⟩ := List.getElem?_eq_some_iff.mp ht
    have hk' : k < 2 ^ p := by simpa [linspace] using hk
    have he := linspace_getD w.lower w.upper hk'
    rw [List.getD_eq_getElem _ _ hk, e, h0, hb] at he
    have hn1 : ((2 ^ p - 1 : Nat) : ℝ) ≠ 0 := by
      have : 2 ^ p - 1 ≠ 0 := by omega
      exact_mod_cast this
    have h3 : (2 : ℝ) * k = ((2 ^ p - 1 : Nat) : ℝ) := by
      field_simp at he
      have hu' := hu.ne'
      have : w.upper * (2 * k - ((2 ^ p - 1 : Nat) : ℝ)) = 0 := by linarith
      rcases mul_eq_zero.mp this with h | h
      · exact absurd h hu'
      · linarith
    have h4 : 2 * k = 2 ^ p - 1 := by exact_mod_cast h3
    have h5 : 2 ^ p % 2 = 0 := by
      obtain ⟨q, rfl⟩ : ∃ q, p = q + 1 := ⟨p - 1, by omega⟩
      rw [pow_succ]
      omega
    omega
  obtain ⟨v1, v2, -⟩ := c57_values w p
  set f : ℝ → ℂ := fun t => if w.cls = .shannon then shannon w.bandwidth w.center t else morlet w.bandwidth w.center t
    with hf
  have key : ∀ (psi : List (Option ℂ)) (x : List ℝ), w.wavefun p = .ok (psi, x) → psi.length = x.length →
      (∀ (k : Nat) (t : ℝ), x[k]? = some t → psi[k]? = some (some (f t))) → (∀ (k : Nat) (t : ℝ), x[k]? = some t → t ≠ 0) →
      ∃ (psi : List ℂ) (x : List ℝ), w.wavefun p = .ok (psi.map some, x) ∧ psi.length = x.length ∧
        ∀ (k : Nat) (t : ℝ), x[k]? = some t → t ≠ 0 ∧ psi[k]? = some (f t) := by
    intro psi x e hl hv h0
    refine ⟨x.map f, x, ?_, by simp, fun k t ht => ⟨h0 k t ht, by rw [List.getElem?_map, ht]; rfl⟩⟩
    rw [e]
    congr 2
    apply List.ext_getElem?
    intro k
    by_cases hk : k < x.length
    · rw [hv k _ (List.getElem?_eq_getElem hk), List.getElem?_map, List.getElem?_map, List.getElem?_eq_getElem hk]
      rfl
    · rw [List.getElem?_eq_none (by omega), List.getElem?_eq_none (by simpa using hk)]
  have hgrid : ∀ psi x, w.wavefun p = .ok (psi, x) → x = linspace w.lower w.upper (2 ^ p) := by
    intro psi x e
    unfold LearnWavelet.wavefun at e
    dsimp only at e
    cases hcall : w.call (linspace w.lower w.upper (2 ^ p)) with
    | error er => rw [hcall] at e; simp [bind, Except.bind] at e
    | ok r =>
      rw [hcall] at e
      simp only [bind, Except.bind, pure, Except.pure, Except.ok.injEq, Prod.mk.injEq] at e
      exact e.2.symm
  rcases hc with hc | hc
  · obtain ⟨psi, x, e, hl, hv⟩ := v1 hc
    have hx := hgrid psi x e
    refine key psi x e hl (fun k t ht => ?_) (fun k t ht => hne k t (hx ▸ ht))
    rw [hv k t ht, if_neg (by push Not; exact ⟨hpar, hne k t (hx ▸ ht)⟩), hf]
    simp only [if_pos hc]
  · obtain ⟨psi, x, e, hl, hv⟩ := v2 hc
    have hx := hgrid psi x e
    refine key psi x e hl (fun k t ht => ?_) (fun k t ht => hne k t (hx ▸ ht))
    rw [hv k t ht, if_neg hpar, hf]
    simp only [hc, reduceCtorEq, if_false]

/-- The wavelet with the current frequencies. -/
noncomputable def _root_.Verif.LearnWavelet.psi (w : LearnWavelet) (t : ℝ) : ℂ :=
  if w.cls = .shannon then shannon w.bandwidth w.center t else morlet w.bandwidth w.center t

theorem carrier_neg (C t : ℝ) : carrier C (-t) = starRingEnd ℂ (carrier C t) := by
  unfold carrier
  rw [← Complex.exp_conj]
  congr 1
  simp only [map_mul, Complex.conj_ofReal, Complex.conj_I]
  push_cast
  ring

theorem hermitian_spec (B C C' t : ℝ) :
    shannon B C (-t) = starRingEnd ℂ (shannon B C t) ∧ morlet B C (-t) = starRingEnd ℂ (morlet B C t) ∧
    ‖shannon B C t‖ = ‖shannon B C' t‖ ∧ ‖morlet B C t‖ = ‖morlet B C' t‖ := by
  have hc : ∀ C, ‖carrier C t‖ = 1 := fun C => Complex.norm_exp_ofReal_mul_I _
  refine ⟨?_, ?_, ?_, ?_⟩
  · unfold shannon
    rw [map_mul, Complex.conj_ofReal, carrier_neg, mul_neg, Real.sinc_neg]
  · unfold morlet
    rw [map_mul, Complex.conj_ofReal, carrier_neg, neg_sq]
  · unfold shannon; rw [norm_mul, norm_mul, hc, hc]
  · unfold morlet; rw [norm_mul, norm_mul, hc, hc]

/-- **C57.** The wavelet is Hermitian: the value at `-t` is the conjugate of the value at `t` (NaN if that is NaN), and
the modulus does not depend on the centre frequency. -/
theorem c57_hermitian (w : LearnWavelet) (t c : ℝ) {z : Option ℂ} (h : w.call [t] = .ok [z]) :
    w.call [-t] = .ok [z.map (starRingEnd ℂ)] ∧
    ∃ z', LearnWavelet.call { w with centerPar := c } [t] = .ok [z'] ∧ z'.map (‖·‖) = z.map (‖·‖) := by
  unfold LearnWavelet.call at h ⊢
  cases hc : w.cls with
  | base => rw [hc] at h; cases h
  | shannon =>
    rw [hc] at h
    simp only [List.map_cons, List.map_nil, Except.ok.injEq, List.cons.injEq, and_true] at h ⊢
    subst h
    refine ⟨?_, _, rfl, ?_⟩
    · rw [shannonAt_eq, shannonAt_eq, (hermitian_spec _ _ 0 t).1]
      simp only [neg_eq_zero]
      split <;> rfl
    · rw [shannonAt_eq, shannonAt_eq]
      split
      · rfl
      · simp only [Option.map_some, Option.some.injEq]
        exact (hermitian_spec _ _ _ t).2.2.1
  | morlet =>
    rw [hc] at h
    simp only [List.map_cons, List.map_nil, Except.ok.injEq, List.cons.injEq, and_true] at h ⊢
    subst h
    refine ⟨?_, _, rfl, ?_⟩
    · rw [morletAt_eq, morletAt_eq, (hermitian_spec _ _ 0 t).2.1]
      split <;> rfl
    · rw [morletAt_eq, morletAt_eq]
      split
      · rfl
      · simp only [Option.map_some, Option.some.injEq]
        exact (hermitian_spec _ _ _ t).2.2.2

/-- **C57.** The values are differentiable functions of both parameters at every point where they are defined, so
gradients exist: with respect to the bandwidth parameter wherever it is not 0, and to the centre parameter
everywhere. -/
theorem c57_differentiable (w : LearnWavelet) (hc : w.cls = .shannon ∨ w.cls = .morlet) {t : ℝ} (ht : t ≠ 0) :
    ∃ f : ℝ → ℝ → ℂ,
      (∀ b c, b ≠ 0 → LearnWavelet.call { w with bandwidthPar := b, centerPar := c } [t] = .ok [some (f b c)]) ∧
      (∀ b c, b ≠ 0 → DifferentiableAt ℝ (fun b => f b c) b) ∧ ∀ b c, DifferentiableAt ℝ (fun c => f b c) c := by
  have hcar : ∀ c, DifferentiableAt ℝ (fun c : ℝ => carrier (c * c) t) c := by
    intro c
    unfold carrier
    have h1 : DifferentiableAt ℝ (fun c : ℝ => ((2 * Real.pi * (c * c) * t : ℝ) : ℂ) * Complex.I) c := by
      refine DifferentiableAt.mul_const ?_ _
      exact Complex.ofRealCLM.differentiableAt.comp c (by fun_prop : DifferentiableAt ℝ (fun c : ℝ => 2 * Real.pi * (c * c) * t) c)
    exact h1.cexp
  rcases hc with hc | hc
  · refine ⟨fun b c => shannon (b * b) (c * c) t, ?_, ?_, ?_⟩
    · intro b c hb
      unfold LearnWavelet.call
      simp only [hc, List.map_cons, List.map_nil]
      rw [shannonAt_eq, if_neg (by push Not; exact ⟨hb, ht⟩)]
      rfl
    · intro b c hb
      unfold shannon
      refine DifferentiableAt.mul_const ?_ _
      refine Complex.ofRealCLM.differentiableAt.comp b ?_
      have hev : (fun b : ℝ => Real.sqrt (b * b) * Real.sinc (Real.pi * (b * b) * t)) =ᶠ[nhds b]
          fun b => Real.sqrt (b * b) * (Real.sin (Real.pi * (b * b) * t) / (Real.pi * (b * b) * t)) := by
        filter_upwards [isOpen_ne.mem_nhds hb] with y hy
        rw [Real.sinc, if_neg]
        exact mul_ne_zero (mul_ne_zero Real.pi_ne_zero (mul_self_ne_zero.mpr hy)) ht
      refine DifferentiableAt.congr_of_eventuallyEq ?_ hev
      have hne : Real.pi * (b * b) * t ≠ 0 := mul_ne_zero (mul_ne_zero Real.pi_ne_zero (mul_self_ne_zero.mpr hb)) ht
      have h1 : DifferentiableAt ℝ (fun b : ℝ => b * b) b := by fun_prop
      have h2 : DifferentiableAt ℝ (fun b : ℝ => Real.pi * (b * b) * t) b := by fun_prop
      exact (h1.sqrt (mul_self_ne_zero.mpr hb)).mul (h2.sin.div h2 hne)
    · intro b c
      unfold shannon
      exact (hcar c).const_mul _
  · refine ⟨fun b c => morlet (b * b) (c * c) t, ?_, ?_, ?_⟩
    · intro b c hb
      unfold LearnWavelet.call
      simp only [hc, List.map_cons, List.map_nil]
      rw [morletAt_eq, if_neg hb]
      rfl
    · intro b c hb
      unfold morlet
      refine DifferentiableAt.mul_const ?_ _
      refine Complex.ofRealCLM.differentiableAt.comp b ?_
      have hb2 : b * b ≠ 0 := mul_self_ne_zero.mpr hb
      have hp : Real.pi * (b * b) ≠ 0 := mul_ne_zero Real.pi_ne_zero hb2
      have h1 : DifferentiableAt ℝ (fun b : ℝ => b * b) b := by fun_prop
      have h2 : DifferentiableAt ℝ (fun b : ℝ => Real.pi * (b * b)) b := by fun_prop
      have hpos : 0 < Real.pi * (b * b) := mul_pos Real.pi_pos (lt_of_le_of_ne (mul_self_nonneg b) (Ne.symm hb2))
      exact ((h2.sqrt hp).inv (Real.sqrt_pos.mpr hpos).ne').mul (((differentiableAt_const (-t ^ 2)).div h1 hb2).exp)
    · intro b c
      unfold morlet
      exact (hcar c).const_mul _

/-- **C57.** `cwt` with a learnable wavelet on a symmetric grid, whatever the parameters have become (bandwidth not 0):
it succeeds for positive scales that leave two samples, and every entry is the coefficient of the data with the
(conjugated, if `complex_cwt`) Shannon or Morlet wavelet of the current frequencies. -/
theorem c57_cwt {data : Tensor ℂ} {scales : List ℝ} (w : LearnWavelet) {T : ℝ} {p : Nat}
    (hc : w.cls = .shannon ∨ w.cls = .morlet) (hp : 1 ≤ p) (hb : w.lower = -w.upper) (hu : 0 < w.upper)
    (hpar : w.bandwidthPar ≠ 0) (hr : 0 < data.rank) (hne : scales ≠ []) {step range : ℝ}
    (hst : step = 2 * w.upper / (2 ^ p - 1)) (hrg : range = 2 * w.upper)
    (hpos : ∀ s ∈ scales, 0 < s ∧ 1 < (2 : ℝ) ^ p * (s * step)) :
    ∃ t fs, cwtLearn data scales w T p = .ok (t, fs) ∧ t.shape = scales.length :: data.shape ∧
      fs = scales.map (fun s => w.centralFrequency p / s / T) ∧
      ∀ (psi : List ℂ), psi.length = 2 ^ p →
        (∀ k, k < 2 ^ p → psi.getD k 0 = if w.complexCwt then starRingEnd ℂ (w.psi (-w.upper + k * step))
          else w.psi (-w.upper + k * step)) →
        ∀ k s h, scales[k]? = some s → Sampled s step range (2 ^ p) (integral psi step) h →
          ∀ i, InB data.shape i →
            t.get (k :: i) = (fun z : ℂ => if w.complexCwt then z else (z.re : ℂ))
              (cwtAt h s (data.shape.getD (data.rank - 1) 0) (fun j => data.get (i.set (data.rank - 1) j))
                (i.getD (data.rank - 1) 0)) := by
  obtain ⟨psi, x, e, hl, hv⟩ := c57_no_nan w hc p hp hb hu hpar
  obtain ⟨hgr, hpl, hinc⟩ := c57_grid w p hp e
  have hinc := hinc (by rw [hb]; linarith)
  have h2 : 2 ≤ 2 ^ p := by
    calc 2 = 2 ^ 1 := rfl
      _ ≤ 2 ^ p := Nat.pow_le_pow_right (by omega) hp
  have h2r : (2 : ℝ) ≤ 2 ^ p := by exact_mod_cast h2
  have hden : ((2 : ℝ) ^ p - 1) ≠ 0 := by linarith
  have hplen : psi.length = 2 ^ p := by simpa using hpl
  have hstep : ∀ k, k + 1 < 2 ^ p → x.getD (k + 1) 0 - x.getD k 0 = step := by
    intro k hk
    have := hgr.step k hk
    rw [hb] at this
    push_cast at this
    rw [hst, eq_div_iff hden, this]
    ring
  have hx : ∀ k, k < 2 ^ p → x.getD k 0 = -w.upper + k * step := by
    intro k
    induction k with
    | zero => intro _; rw [hgr.first, hb]; simp
    | succ k ih =>
      intro hk
      have := hstep k hk
      rw [ih (by omega)] at this
      push_cast
      linarith
  set W := w.asCwt (psi.map some) x with hW
  have hwf : W.wavefun p = .two psi x := by
    rw [hW]
    unfold LearnWavelet.asCwt
    simp [Function.comp_def]
  have hrange : range = x.getD (x.length - 1) 0 - x.getD 0 0 := by
    rw [hgr.length, hgr.last, hgr.first, hb, hrg]; ring
  obtain ⟨t, fs, h1, -, h3, h4, h5⟩ := c47_coefficients (data := data) (scales := scales) (w := W) (T := T) (p := p)
    (.inl hwf) hinc (by rw [hgr.length]; exact h2) hr hne (step := step) (range := range)
    (hstep 0 (by omega)).symm hrange (by
      intro s hs
      rw [hplen]
      push_cast
      exact hpos s hs)
  refine ⟨t, fs, ?_, h3, h4, ?_⟩
  · unfold cwtLearn
    rw [e]
    exact h1
  · intro psi' hl' hval k s h hk hs i hi
    have hkc : keepsComplex W ↔ w.complexCwt = true := by
      unfold keepsComplex
      rw [hW]
      unfold LearnWavelet.asCwt
      simp
    have hused : usedPsi W psi = psi' := by
      apply List.ext_getElem
      · rw [usedPsi_length, hplen, hl']
      · intro j h1 h2
        have hj : j < 2 ^ p := by omega
        have hjx : j < x.length := by rw [hgr.length]; exact hj
        have hjp : j < psi.length := by omega
        have hpj : psi[j] = w.psi (-w.upper + j * step) := by
          have := (hv j _ (List.getElem?_eq_getElem hjx)).2
          rw [List.getElem?_eq_getElem hjp, ← List.getD_eq_getElem x 0 hjx, hx j hj] at this
          injection this
        have hv' := hval j hj
        rw [List.getD_eq_getElem _ _ h2] at hv'
        rw [hv']
        unfold usedPsi
        by_cases hcc : w.complexCwt = true
        · simp only [if_pos (hkc.mpr hcc), if_pos hcc, List.getElem_map, hpj]
        · simp only [if_neg fun h => hcc (hkc.mp h), if_neg hcc, hpj]
    have := h5 k s h hk (by rw [hused, hplen]; exact hs) i hi
    rw [this]
    unfold kept
    by_cases hcc : w.complexCwt = true
    · simp only [if_pos (hkc.mpr hcc), if_pos hcc]
    · simp only [if_neg fun h => hcc (hkc.mp h), if_neg hcc]

/-- A new Shannon wavelet `shan1.5-1.0` (bandwidth 1.5, centre 1, bounds ±20) and a batch of two signals. -/
example : ∃ t fs, cwtLearn (ofFn ⟨.float64, 0⟩ [2, 5] fun i => ((i.getD 1 0 : ℕ) : ℂ)) [10, 20]
    (LearnWavelet.init .shannon (3 / 2) 1 (-20) 20 true fun _ => 1) 1 12 = .ok (t, fs) ∧ t.shape = [2, 2, 5] := by
  obtain ⟨t, fs, h1, h2, -⟩ := c57_cwt (data := ofFn ⟨.float64, 0⟩ [2, 5] fun i => ((i.getD 1 0 : ℕ) : ℂ))
    (scales := [10, 20]) (LearnWavelet.init .shannon (3 / 2) 1 (-20) 20 true fun _ => 1) (T := 1) (p := 12)
    (Or.inl rfl) (by omega) rfl (by norm_num [LearnWavelet.init])
    (by
      show Real.sqrt (3 / 2) ≠ 0
      exact (Real.sqrt_pos.mpr (by norm_num)).ne')
    (by simp [Tensor.rank]) (by simp) rfl rfl (by
      intro s hs
      simp only [List.mem_cons, List.not_mem_nil, or_false] at hs
      rcases hs with rfl | rfl <;> norm_num [LearnWavelet.init])
  exact ⟨t, fs, h1, h2⟩

end Verif.Props
