/-
C47: the continuous wavelet transform.
-/
import Verif.Lemmas.CwtTop

namespace Verif.Props
open Verif Spec Tensor

/-- Whether the complex coefficients are returned. -/
def keepsComplex (w : CwtWavelet) : Prop := w.kind ≠ .discrete ∧ w.complexCwt = true

open Classical in
/-- The wavelet the data is compared with: conjugated if it is a complex one. -/
noncomputable def usedPsi (w : CwtWavelet) (psi : List ℂ) : List ℂ :=
  if keepsComplex w then psi.map (starRingEnd ℂ) else psi

open Classical in
/-- The result: the real part, except for complex wavelets. -/
noncomputable def kept (w : CwtWavelet) (z : ℂ) : ℂ := if keepsComplex w then z else (z.re : ℂ)

theorem cwt_unfold {data : Tensor ℂ} {scales : List ℝ} {w : CwtWavelet} {T : ℝ} {p : Nat} {psi : List ℂ}
    {x : List ℝ} (hw : w.wavefun p = .two psi x ∨ w.wavefun p = .three psi x) (hx : x.Pairwise (· < ·))
    (hl : 2 ≤ x.length) :
    cwt data scales w T p = (do
      let out ← cwtLoop data (integrate (usedPsi w psi) (x.getD 1 0 - x.getD 0 0)) (x.getD 1 0 - x.getD 0 0)
        (x.getD (x.length - 1) 0 - x.getD 0 0) scales none
      let t ← stack0 out
      pure (if (w.kind ≠ .discrete && w.complexCwt) then t else ofFn t.md t.shape fun i => ((t.get i).re : ℂ),
        scales.map fun s => w.centralFrequency p / s / T)) := by
  obtain ⟨h1, -, h3, -⟩ := grid_facts hx hl
  have hi : integrateWavelet w p = .ok ([integrate psi (x.getD 1 0 - x.getD 0 0)], x) := by
    unfold integrateWavelet
    rcases hw with hw | hw <;> rw [hw] <;> simp only [bind, Except.bind, pure, Except.pure, h1]
  have hpsi : (if (w.kind ≠ .discrete && w.complexCwt) = true then
      (integrate psi (x.getD 1 0 - x.getD 0 0)).map (starRingEnd ℂ) else integrate psi (x.getD 1 0 - x.getD 0 0))
      = integrate (usedPsi w psi) (x.getD 1 0 - x.getD 0 0) := by
    have hk : (w.kind ≠ .discrete && w.complexCwt) = true ↔ keepsComplex w := by
      unfold keepsComplex; simp
    unfold usedPsi
    by_cases h : keepsComplex w
    · rw [if_pos (hk.2 h), if_pos h, integrate_conj]
    · rw [if_neg fun h' => h (hk.1 h'), if_neg h]
  unfold cwt
  simp only [bind, Except.bind, hi, h1, h3]
  rw [hpsi]

theorem usedPsi_length (w : CwtWavelet) (psi : List ℂ) : (usedPsi w psi).length = psi.length := by
  unfold usedPsi; split <;> simp

/-- C47: for a sorted grid and positive scales that leave at least two samples, the result has one slice per
scale, and every entry is the coefficient of the data along the last axis with the sampled integral of the
wavelet. -/
theorem c47_coefficients {data : Tensor ℂ} {scales : List ℝ} {w : CwtWavelet} {T : ℝ} {p : Nat} {psi : List ℂ}
    {x : List ℝ} (hw : w.wavefun p = .two psi x ∨ w.wavefun p = .three psi x) (hx : x.Pairwise (· < ·))
    (hl : 2 ≤ x.length) (hr : 0 < data.rank) (hne : scales ≠ []) {step range : ℝ}
    (hst : step = x.getD 1 0 - x.getD 0 0) (hrg : range = x.getD (x.length - 1) 0 - x.getD 0 0)
    (hpos : ∀ s ∈ scales, 0 < s ∧ 1 < psi.length * (s * step)) :
    ∃ t fs, cwt data scales w T p = .ok (t, fs) ∧ t.md.device = data.md.device ∧ t.shape = scales.length :: data.shape ∧
      fs = scales.map (fun s => w.centralFrequency p / s / T) ∧
      ∀ k s h, scales[k]? = some s → Sampled s step range psi.length (integral (usedPsi w psi) step) h →
        ∀ i, InB data.shape i → t.get (k :: i) = kept w (cwtAt h s (data.shape.getD (data.rank - 1) 0)
          (fun j => data.get (i.set (data.rank - 1) j)) (i.getD (data.rank - 1) 0)) := by
  obtain ⟨-, h2, -, h4⟩ := grid_facts hx hl
  rw [← hst] at h2
  rw [← hrg] at h4
  obtain ⟨ts, hts, hlen, hv⟩ := cwtLoop_ok hr (psi := integrate (usedPsi w psi) step) (step := step)
    (range := range) scales none (fun _ _ h => by simp at h) (by
      intro s hs
      obtain ⟨hs0, hs1⟩ := hpos s hs
      refine ⟨by positivity, by positivity, ?_⟩
      rw [integrate_length, usedPsi_length]
      exact hs1)
  have hall : ∀ t ∈ ts, t.md = data.md ∧ t.shape = data.shape := by
    intro t ht
    obtain ⟨k, hk, rfl⟩ := List.mem_iff_getElem.1 ht
    have := hv k _ _ (List.getElem?_eq_getElem hk) (List.getElem?_eq_getElem (by omega))
    exact ⟨this.1, this.2.1⟩
  have htne : ts ≠ [] := by
    intro h
    rw [h] at hlen
    exact hne (List.length_eq_zero_iff.1 hlen.symm)
  obtain ⟨t, ht, htm, htsh, htg⟩ := stack0_ok htne hall
  have hk : (w.kind ≠ .discrete && w.complexCwt) = true ↔ keepsComplex w := by
    unfold keepsComplex; simp
  have hval : ∀ k s h, scales[k]? = some s → Sampled s step range psi.length (integral (usedPsi w psi) step) h →
      ∀ i, InB data.shape i → k < ts.length ∧ t.get (k :: i) = cwtAt h s (data.shape.getD (data.rank - 1) 0)
          (fun j => data.get (i.set (data.rank - 1) j)) (i.getD (data.rank - 1) 0) := by
    intro k s h hs hh i hi
    have hk : k < ts.length := by rw [hlen]; exact (List.getElem?_eq_some_iff.1 hs).1
    obtain ⟨hs0, hs1⟩ := hpos s (List.mem_of_getElem? hs)
    have := (hv k _ s (List.getElem?_eq_getElem hk) hs).2.2 i hi
    refine ⟨hk, ?_⟩
    rw [htg k _ i (List.getElem?_eq_getElem hk), this]
    have hu : h = samples s step range (integrate (usedPsi w psi) step) :=
      samples_unique (g := integral (usedPsi w psi) step) (mul_pos hs0 h2) (fun k hk => by
        rw [integrate_length] at hk
        exact integrate_getD _ _ hk) (by rw [integrate_length, usedPsi_length]; exact hh)
    rw [← hu]
  rw [cwt_unfold hw hx hl, ← hst, ← hrg]
  simp only [bind, Except.bind, pure, Except.pure, hts, ht]
  by_cases hc : keepsComplex w
  · rw [if_pos (hk.2 hc)]
    refine ⟨_, _, rfl, congrArg Meta.device htm, by rw [htsh, hlen], rfl, ?_⟩
    intro k s h hs hh i hi
    unfold kept
    rw [if_pos hc]
    exact (hval k s h hs hh i hi).2
  · rw [if_neg fun h => hc (hk.1 h)]
    refine ⟨_, _, rfl, congrArg Meta.device htm, by show t.shape = _; rw [htsh, hlen], rfl, ?_⟩
    intro k s h hs hh i hi
    obtain ⟨hk', hv'⟩ := hval k s h hs hh i hi
    unfold kept
    rw [if_neg hc, ofFn_get_of _ _ (by rw [htsh]; exact ⟨hk', hi⟩), hv']

/-- C47: the samples of `c47_coefficients` exist and are determined by the scale. -/
theorem c47_samples_exist {s step range : ℝ} (hs : 0 < s * step) (psi : List ℂ) :
    ∃! h, Sampled s step range psi.length (integral psi step) h := by
  have hg : ∀ k, k < (integrate psi step).length → (integrate psi step).getD k 0 = integral psi step k := by
    intro k hk
    rw [integrate_length] at hk
    exact integrate_getD _ _ hk
  refine ⟨samples s step range (integrate psi step), ?_, ?_⟩
  · have := samples_sampled (range := range) hs hg
    rwa [integrate_length] at this
  · intro h hh
    exact samples_unique hs hg (by rw [integrate_length]; exact hh)

/-- C47: positive scales of which one is too small to leave two samples are a ValueError. -/
theorem c47_too_small {data : Tensor ℂ} {scales : List ℝ} {w : CwtWavelet} {T : ℝ} {p : Nat} {psi : List ℂ}
    {x : List ℝ} (hw : w.wavefun p = .two psi x ∨ w.wavefun p = .three psi x) (hx : x.Pairwise (· < ·))
    (hl : 2 ≤ x.length) (hp : psi ≠ []) (hr : 0 < data.rank) (hN : data.shape.getD (data.rank - 1) 0 ≠ 0)
    (hpos : ∀ s ∈ scales, 0 < s)
    (hbad : ∃ s ∈ scales, psi.length * (s * (x.getD 1 0 - x.getD 0 0)) ≤ 1) :
    cwt data scales w T p = .error .valueError := by
  obtain ⟨-, h2, -, h4⟩ := grid_facts hx hl
  rw [cwt_unfold hw hx hl]
  have := cwtLoop_small hr (psi := integrate (usedPsi w psi) (x.getD 1 0 - x.getD 0 0))
    (step := x.getD 1 0 - x.getD 0 0) (range := x.getD (x.length - 1) 0 - x.getD 0 0)
    (by
      intro h
      have := congrArg List.length h
      rw [integrate_length, usedPsi_length] at this
      exact hp (List.length_eq_zero_iff.1 this)) hN scales none (fun _ _ h => by simp at h)
    (fun s hs => ⟨mul_pos (hpos s hs) h2, (mul_pos (hpos s hs) h4).le⟩) (by
      obtain ⟨s, hs, hb⟩ := hbad
      refine ⟨s, hs, fun hc => ?_⟩
      have := hc.2
      rw [integrate_length, usedPsi_length] at this
      linarith)
  simp only [bind, Except.bind, this]

/-- C47: a first scale that is not positive is an error; which one depends on how many sample positions
`arange(scale · range + 1)` has: negative, none, one at 0/0, or one. -/
theorem c47_nonpositive_scale {data : Tensor ℂ} {s : ℝ} {rest : List ℝ} {w : CwtWavelet} {T : ℝ} {p : Nat}
    {psi : List ℂ} {x : List ℝ} (hw : w.wavefun p = .two psi x ∨ w.wavefun p = .three psi x)
    (hx : x.Pairwise (· < ·)) (hl : 2 ≤ x.length) (hp : psi ≠ []) (hr : 0 < data.rank)
    (hN : data.shape.getD (data.rank - 1) 0 ≠ 0) {range : ℝ}
    (hrange : range = x.getD (x.length - 1) 0 - x.getD 0 0) :
    (s * range < -1 → cwt data (s :: rest) w T p = .error .runtimeError) ∧
    (s * range = -1 → cwt data (s :: rest) w T p = .error .indexError) ∧
    (s = 0 → cwt data (s :: rest) w T p = .error .indexError) ∧
    (-1 < s * range → s < 0 → cwt data (s :: rest) w T p = .error .valueError) := by
  obtain ⟨-, h2, -, h4⟩ := grid_facts hx hl
  rw [cwt_unfold hw hx hl]
  rw [← hrange] at h4 ⊢
  set step := x.getD 1 0 - x.getD 0 0 with hstep
  have hq : integrate (usedPsi w psi) step ≠ [] := by
    intro h
    have := congrArg List.length h
    rw [integrate_length, usedPsi_length] at this
    exact hp (List.length_eq_zero_iff.1 this)
  set q := integrate (usedPsi w psi) step
  refine ⟨fun h => ?_, fun h => ?_, fun h => ?_, fun h hs => ?_⟩
  · have : cwtIndices s step range q.length = .error .runtimeError := by
      unfold cwtIndices; rw [if_pos (by linarith)]
    simp only [cwtLoop, cwtScale, bind, Except.bind, this]
  · have : cwtIndices s step range q.length = .error .indexError := by
      unfold cwtIndices; rw [if_neg (by linarith), if_pos (.inl (by linarith))]
    simp only [cwtLoop, cwtScale, bind, Except.bind, this]
  · have : cwtIndices s step range q.length = .error .indexError := by
      unfold cwtIndices; rw [if_neg (by rw [h]; norm_num), if_pos (.inr (by rw [h, zero_mul]))]
    simp only [cwtLoop, cwtScale, bind, Except.bind, this]
  · have := cwtScale_one hr (c := none) (fun _ _ h => by simp at h) hN hq (cwtIndices_neg hs h2 h4 h hq)
    simp only [cwtLoop, bind, Except.bind, this]

/-- C47: a tensor without axes has no last axis to transform along, IndexError; no matter how many scales follow. -/
theorem c47_no_axes {data : Tensor ℂ} {s : ℝ} {rest : List ℝ} {w : CwtWavelet} {T : ℝ} {p : Nat}
    {psi : List ℂ} {x : List ℝ} (hw : w.wavefun p = .two psi x ∨ w.wavefun p = .three psi x)
    (hx : x.Pairwise (· < ·)) (hl : 2 ≤ x.length) (hr : data.rank = 0) (hs : 0 < s) :
    cwt data (s :: rest) w T p = .error .indexError := by
  obtain ⟨-, h2, -, h4⟩ := grid_facts hx hl
  rw [cwt_unfold hw hx hl]
  have hP := mul_pos hs h2
  have hR := (mul_pos hs h4).le
  have hf : ∀ n, cachedFft data n none = .error .indexError := fun n => by
    simp only [cachedFft, fft]; rw [if_pos hr]
  simp only [cwtLoop, cwtScale, bind, Except.bind, cwtIndices_ok hP hR, samples_ok hP hR, hf]

theorem cwtLoop_empty {data : Tensor ℂ} (hr : 0 < data.rank) {psi : List ℂ} {step range : ℝ} (hp : psi ≠ [])
    (hN : data.shape.getD (data.rank - 1) 0 = 0) :
    ∀ (scales : List ℝ) (c : Option (Nat × Tensor ℂ)), CacheOk data c →
      (∀ s ∈ scales, 0 < s * step ∧ 0 ≤ s * range) →
      (∃ s ∈ scales, ¬ (0 < s * range ∧ 1 < psi.length * (s * step))) →
      cwtLoop data psi step range scales c = .error .runtimeError
  | [], c, _, _, h => by obtain ⟨s, hs, _⟩ := h; simp at hs
  | s :: ss, c, hc, hall, hbad => by
    obtain ⟨hP, hrg⟩ := hall s List.mem_cons_self
    by_cases hg : 0 < s * range ∧ 1 < psi.length * (s * step)
    · obtain ⟨t, c', h1, hc', -, -, -⟩ := cwtScale_core hr hP hrg hc _ rfl (samples_two.2 hg)
      have h2 := cwtLoop_empty hr hp hN ss (some c') hc' (fun s hs => hall s (List.mem_cons_of_mem _ hs)) (by
        obtain ⟨s', hs', hb⟩ := hbad
        rcases List.mem_cons.1 hs' with rfl | hs'
        · exact absurd hg hb
        · exact ⟨s', hs', hb⟩)
      simp only [cwtLoop, bind, Except.bind, h1, h2]
    · have hlt : ¬ 2 ≤ (samples s step range psi).length := fun h => hg (samples_two.1 h)
      have := samples_pos hP hrg hp
      have h1 : (samples s step range psi).length = 1 := by omega
      have hz : nextFastLen (data.sizeFromEnd 1 + (samples s step range psi).reverse.length - 1) = 0 := by
        rw [show data.sizeFromEnd 1 = 0 from hN, List.length_reverse, h1]; rfl
      have hf : cachedFft data 0 c = .error .runtimeError := by
        rw [cachedFft_eq hc, fft, if_neg (by omega), if_pos rfl]
      simp only [cwtLoop, cwtScale, bind, Except.bind, cwtIndices_ok hP hrg, samples_ok hP hrg, hz, hf]

/-- C47: data whose last axis is empty: a scale with one sample is a RuntimeError (a transform of no points), not the ValueError of
`c47_too_small`; with larger scales the result is empty (`c47_coefficients`). -/
theorem c47_empty_axis {data : Tensor ℂ} {scales : List ℝ} {w : CwtWavelet} {T : ℝ} {p : Nat} {psi : List ℂ}
    {x : List ℝ} (hw : w.wavefun p = .two psi x ∨ w.wavefun p = .three psi x) (hx : x.Pairwise (· < ·))
    (hl : 2 ≤ x.length) (hp : psi ≠ []) (hr : 0 < data.rank) (hN : data.shape.getD (data.rank - 1) 0 = 0)
    (hpos : ∀ s ∈ scales, 0 < s)
    (hbad : ∃ s ∈ scales, psi.length * (s * (x.getD 1 0 - x.getD 0 0)) ≤ 1) :
    cwt data scales w T p = .error .runtimeError := by
  obtain ⟨-, h2, -, h4⟩ := grid_facts hx hl
  rw [cwt_unfold hw hx hl]
  have := cwtLoop_empty hr (psi := integrate (usedPsi w psi) (x.getD 1 0 - x.getD 0 0))
    (step := x.getD 1 0 - x.getD 0 0) (range := x.getD (x.length - 1) 0 - x.getD 0 0)
    (by
      intro h
      have := congrArg List.length h
      rw [integrate_length, usedPsi_length] at this
      exact hp (List.length_eq_zero_iff.1 this)) hN scales none (fun _ _ h => by simp at h)
    (fun s hs => ⟨mul_pos (hpos s hs) h2, (mul_pos (hpos s hs) h4).le⟩) (by
      obtain ⟨s, hs, hb⟩ := hbad
      refine ⟨s, hs, fun hc => ?_⟩
      have := hc.2
      rw [integrate_length, usedPsi_length] at this
      linarith)
  simp only [bind, Except.bind, this]

/-- C47: biorthogonal wavelets, which have two wavelet functions, are a ValueError. -/
theorem c47_biorthogonal {data : Tensor ℂ} {scales : List ℝ} {w : CwtWavelet} {T : ℝ} {p : Nat}
    {psiD psiR : List ℂ} {x : List ℝ} (hw : w.wavefun p = .five psiD psiR x) (hl : 2 ≤ x.length) :
    cwt data scales w T p = .error .valueError := by
  match x, hl with
  | a :: b :: r, _ =>
    unfold cwt integrateWavelet
    rw [hw]
    simp only [bind, Except.bind, pure, Except.pure, gridStep]

/-- C47: no scales are a RuntimeError. -/
theorem c47_no_scales {data : Tensor ℂ} {w : CwtWavelet} {T : ℝ} {p : Nat} {psi : List ℂ}
    {x : List ℝ} (hw : w.wavefun p = .two psi x ∨ w.wavefun p = .three psi x) (hx : x.Pairwise (· < ·))
    (hl : 2 ≤ x.length) : cwt data [] w T p = .error .runtimeError := by
  rw [cwt_unfold hw hx hl]
  rfl

theorem cwtAt_real {h : List ℂ} {s : ℝ} {N : Nat} {v : Nat → ℂ} {t : Nat} (hh : ∀ k, (h.getD k 0).im = 0)
    (hv : ∀ j, (v j).im = 0) : (cwtAt h s N v t).im = 0 := by
  have hrev : ∀ k, (h.reverse.getD k 0).im = 0 := by
    intro k
    by_cases hk : k < h.reverse.length
    · have hm : h.reverse.getD k 0 ∈ h := by
        rw [List.getD_eq_getElem _ _ hk]
        exact List.mem_reverse.1 (List.getElem_mem hk)
      obtain ⟨j, hj, he⟩ := List.mem_iff_getElem.1 hm
      rw [← he, ← List.getD_eq_getElem h 0 hj]
      exact hh j
    · rw [List.getD, List.getElem?_eq_none (by omega)]; rfl
  have hlin : ∀ m, (linConv h N v m).im = 0 := by
    intro m
    unfold linConv
    rw [Complex.im_sum]
    apply Finset.sum_eq_zero
    intro j _
    have : (tap h.reverse ((m : ℤ) - j)).im = 0 := by
      unfold tap; split
      · exact hrev _
      · rfl
    rw [Complex.mul_im, this, hv]
    ring
  unfold cwtAt
  rw [Complex.mul_im, Complex.sub_im, hlin, hlin]
  simp

/-- C47: for real data and a real wavelet taking the real part loses nothing. -/
theorem c47_real {data : Tensor ℂ} {psi : List ℂ} {s step range : ℝ} {h : List ℂ} {w : CwtWavelet}
    (hpsi : ∀ k, (psi.getD k 0).im = 0) (hd : ∀ i, (data.get i).im = 0)
    (hh : Sampled s step range psi.length (integral psi step) h) (N t : Nat) (i : List Nat) (a : Nat) :
    kept w (cwtAt h s N (fun j => data.get (i.set a j)) t) = cwtAt h s N (fun j => data.get (i.set a j)) t := by
  unfold kept
  split
  · rfl
  · apply Complex.ext
    · rfl
    · rw [cwtAt_real _ fun j => hd _]
      · rfl
      · intro k
        by_cases hk : k < h.length
        · rw [hh.value k hk]
          unfold integral
          rw [Complex.im_sum]
          apply Finset.sum_eq_zero
          intro j _
          rw [Complex.mul_im, hpsi]
          simp
        · rw [List.getD, List.getElem?_eq_none (by omega)]; rfl

/-- C47: the coefficients of a scale do not depend on the other scales or their order. -/
theorem c47_scales_independent {data : Tensor ℂ} {scales : List ℝ} {w : CwtWavelet} {T : ℝ} {p : Nat}
    {psi : List ℂ} {x : List ℝ} (hw : w.wavefun p = .two psi x ∨ w.wavefun p = .three psi x)
    (hx : x.Pairwise (· < ·)) (hl : 2 ≤ x.length) (hr : 0 < data.rank)
    (hpos : ∀ s ∈ scales, 0 < s ∧ 1 < psi.length * (s * (x.getD 1 0 - x.getD 0 0)))
    {k : Nat} {s : ℝ} (hk : scales[k]? = some s) :
    ∃ t fs t' fs', cwt data scales w T p = .ok (t, fs) ∧ cwt data [s] w T p = .ok (t', fs') ∧
      fs[k]? = fs'[0]? ∧ ∀ i, InB data.shape i → t.get (k :: i) = t'.get (0 :: i) := by
  have hne : scales ≠ [] := by rintro rfl; simp at hk
  have hsm := List.mem_of_getElem? hk
  obtain ⟨t, fs, h1, -, -, hf, hv⟩ := c47_coefficients (T := T) hw hx hl hr hne rfl rfl hpos
  obtain ⟨t', fs', h1', -, -, hf', hv'⟩ := c47_coefficients (data := data) (scales := [s]) (T := T) hw hx hl hr
    (by simp) rfl rfl (by simpa using hpos s hsm)
  refine ⟨t, fs, t', fs', h1, h1', by simp [hf, hf', hk], ?_⟩
  intro i hi
  obtain ⟨-, h2, -, -⟩ := grid_facts hx hl
  obtain ⟨h, hh, -⟩ := c47_samples_exist (range := x.getD (x.length - 1) 0 - x.getD 0 0)
    (mul_pos (hpos s hsm).1 h2) (usedPsi w psi)
  rw [usedPsi_length] at hh
  rw [hv k s h hk hh i hi, hv' 0 s h (by simp) hh i hi]

/-- C47: the transform is additive and commutes with real factors. -/
theorem c47_linear {x y z : Tensor ℂ} {a : ℝ} {scales : List ℝ} {w : CwtWavelet} {T : ℝ} {p : Nat} {psi : List ℂ}
    {g : List ℝ} (hw : w.wavefun p = .two psi g ∨ w.wavefun p = .three psi g) (hx : g.Pairwise (· < ·))
    (hl : 2 ≤ g.length) (hr : 0 < x.rank) (hne : scales ≠ []) (hy : y.shape = x.shape) (hz : z.shape = x.shape)
    (hsum : ∀ i, z.get i = x.get i + a * y.get i)
    (hpos : ∀ s ∈ scales, 0 < s ∧ 1 < psi.length * (s * (g.getD 1 0 - g.getD 0 0))) :
    ∃ cx cy cz fs, cwt x scales w T p = .ok (cx, fs) ∧ cwt y scales w T p = .ok (cy, fs) ∧
      cwt z scales w T p = .ok (cz, fs) ∧
      ∀ k i, k < scales.length → InB x.shape i → cz.get (k :: i) = cx.get (k :: i) + a * cy.get (k :: i) := by
  have hry : 0 < y.rank := by unfold Tensor.rank at *; rw [hy]; exact hr
  have hrz : 0 < z.rank := by unfold Tensor.rank at *; rw [hz]; exact hr
  obtain ⟨cx, fs, h1, -, -, hf, hv⟩ := c47_coefficients (T := T) hw hx hl hr hne rfl rfl hpos
  obtain ⟨cy, fs1, h2, -, -, hf1, hv1⟩ := c47_coefficients (T := T) hw hx hl hry hne rfl rfl hpos
  obtain ⟨cz, fs2, h3, -, -, hf2, hv2⟩ := c47_coefficients (T := T) hw hx hl hrz hne rfl rfl hpos
  refine ⟨cx, cy, cz, fs, h1, by rw [h2, hf, hf1], by rw [h3, hf, hf2], ?_⟩
  intro k i hk hi
  obtain ⟨-, hst, -, -⟩ := grid_facts hx hl
  have hks := List.getElem?_eq_getElem hk
  obtain ⟨h, hh, -⟩ := c47_samples_exist (range := g.getD (g.length - 1) 0 - g.getD 0 0)
    (mul_pos (hpos _ (List.mem_of_getElem? hks)).1 hst) (usedPsi w psi)
  rw [usedPsi_length] at hh
  have ery : y.rank = x.rank := by unfold Tensor.rank; rw [hy]
  have erz : z.rank = x.rank := by unfold Tensor.rank; rw [hz]
  rw [hv k _ h hks hh i hi, hv1 k _ h hks hh i (by rw [hy]; exact hi), hv2 k _ h hks hh i (by rw [hz]; exact hi)]
  rw [ery, erz, hy, hz]
  have hlin : ∀ (N : Nat) (b : Nat) (t : Nat), cwtAt h scales[k] N (fun j => z.get (i.set b j)) t
      = cwtAt h scales[k] N (fun j => x.get (i.set b j)) t + a * cwtAt h scales[k] N (fun j => y.get (i.set b j)) t := by
    intro N b t
    have hc : ∀ m, linConv h N (fun j => z.get (i.set b j)) m
        = linConv h N (fun j => x.get (i.set b j)) m + a * linConv h N (fun j => y.get (i.set b j)) m := by
      intro m
      unfold linConv
      rw [Finset.mul_sum, ← Finset.sum_add_distrib]
      refine Finset.sum_congr rfl fun j _ => ?_
      simp only [hsum]
      ring
    unfold cwtAt
    rw [hc, hc]
    ring
  rw [hlin]
  unfold kept
  split
  · rfl
  · apply Complex.ext <;> simp

/-! ### Non-vacuity -/

/-- A Haar-like wavelet on a grid of four points. -/
noncomputable def cwtDemo (k : CwtKind) (c : Bool) : CwtWavelet where
  kind := k
  complexCwt := c
  wavefun _ := .three [1, 1, -1, -1] [0, 1, 2, 3]
  centralFrequency _ := 1

noncomputable def cwtDemoData : Tensor ℂ :=
  ofFn { dtype := .float32, device := 0 } [2, 5] fun i => (i.getD 0 0 + i.getD 1 0 : ℕ)

theorem cwtDemo_grid : ([0, 1, 2, 3] : List ℝ).Pairwise (· < ·) := by
  simp only [List.pairwise_cons, List.mem_cons, List.not_mem_nil, or_false, forall_eq_or_imp, forall_eq]
  norm_num

/-- The hypotheses of `c47_coefficients` are met: two scales, two rows of five samples. -/
example (k : CwtKind) (c : Bool) : ∃ t fs, cwt cwtDemoData [2, 1] (cwtDemo k c) 1 12 = .ok (t, fs) ∧
    t.shape = [2, 2, 5] := by
  obtain ⟨t, fs, h, -, hs, -⟩ := c47_coefficients (data := cwtDemoData) (scales := [2, 1]) (w := cwtDemo k c)
    (T := 1) (p := 12) (.inr rfl) cwtDemo_grid (by simp) (by simp [cwtDemoData, Tensor.rank]) (by simp) rfl rfl
    (by
      intro s hs
      simp only [List.mem_cons, List.not_mem_nil, or_false] at hs
      rcases hs with rfl | rfl <;> norm_num)
  exact ⟨t, fs, h, hs⟩

/-- The hypotheses of `c47_too_small` are met. -/
example (k : CwtKind) (c : Bool) : cwt cwtDemoData [2, 1 / 8] (cwtDemo k c) 1 12 = .error .valueError :=
  c47_too_small (.inr rfl) cwtDemo_grid (by simp) (by simp) (by simp [cwtDemoData, Tensor.rank])
    (by simp [cwtDemoData, Tensor.rank]) (by simp) ⟨1 / 8, by simp, by norm_num⟩

/-- The hypotheses of `c47_nonpositive_scale` are met, in all four cases. -/
example (k : CwtKind) (c : Bool) :
    cwt cwtDemoData [-1, 2] (cwtDemo k c) 1 12 = .error .runtimeError ∧
    cwt cwtDemoData [-1 / 3, 2] (cwtDemo k c) 1 12 = .error .indexError ∧
    cwt cwtDemoData [0, 2] (cwtDemo k c) 1 12 = .error .indexError ∧
    cwt cwtDemoData [-1 / 6, 2] (cwtDemo k c) 1 12 = .error .valueError := by
  have h := fun s => c47_nonpositive_scale (data := cwtDemoData) (s := s) (rest := [2]) (w := cwtDemo k c)
    (T := 1) (p := 12) (.inr rfl) cwtDemo_grid (by simp) (by simp) (by simp [cwtDemoData, Tensor.rank])
    (by simp [cwtDemoData, Tensor.rank]) (range := 3) (by norm_num)
  exact ⟨(h _).1 (by norm_num), (h _).2.1 (by norm_num), (h _).2.2.1 rfl,
    (h _).2.2.2 (by norm_num) (by norm_num)⟩

/-- The hypotheses of `c47_no_axes` are met. -/
example (k : CwtKind) (c : Bool) (z : ℂ) :
    cwt (ofFn { dtype := .float32, device := 0 } [] fun _ => z) [2, -1] (cwtDemo k c) 1 12 = .error .indexError :=
  c47_no_axes (.inr rfl) cwtDemo_grid (by simp) rfl (by norm_num)

/-- The hypotheses of `c47_empty_axis` are met: the second scale is the one which fails. -/
example (k : CwtKind) (c : Bool) (z : ℂ) :
    cwt (ofFn { dtype := .float32, device := 0 } [2, 0] fun _ => z) [2, 1 / 8] (cwtDemo k c) 1 12 = .error .runtimeError :=
  c47_empty_axis (.inr rfl) cwtDemo_grid (by simp) (by simp) (by show 0 < 2; decide) rfl (by simp) ⟨1 / 8, by simp, by norm_num⟩

end Verif.Props
