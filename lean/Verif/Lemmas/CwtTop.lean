/-
One scale of the continuous wavelet transform, and the loop over the scales.
-/
import Verif.Lemmas.Cwt
import Verif.Lemmas.ConvNd
import Verif.Lemmas.Filter

namespace Verif
open Tensor Spec

theorem fft_ok {x : Tensor ℂ} {n : Nat} (hr : 0 < x.rank) (hn : n ≠ 0) :
    ∃ y, fft x n = .ok y ∧ y.md = x.md ∧ y.shape = x.shape.set (x.rank - 1) n ∧
      ∀ i, InB y.shape i → y.get i =
        ∑ j ∈ Finset.range n, x.get (i.set (x.rank - 1) j) * unitRoot n (-(j * i.getD (x.rank - 1) 0 : ℤ)) := by
  unfold fft
  rw [if_neg (by omega), if_neg hn]
  refine ⟨_, rfl, rfl, rfl, ?_⟩
  intro i hi
  exact ofFn_get_of _ _ hi

theorem ifft_ok {x : Tensor ℂ} {n : Nat} (hr : 0 < x.rank) (hx : x.shape.getD (x.rank - 1) 0 = n) (hn : n ≠ 0) :
    ∃ y, ifft x = .ok y ∧ y.md = x.md ∧ y.shape = x.shape ∧
      ∀ i, InB y.shape i → y.get i =
        (∑ k ∈ Finset.range n, x.get (i.set (x.rank - 1) k) * unitRoot n (k * i.getD (x.rank - 1) 0 : ℤ)) / n := by
  subst hx
  unfold ifft
  rw [if_neg (by omega)]
  simp only
  rw [if_neg hn]
  refine ⟨_, rfl, rfl, rfl, ?_⟩
  intro i hi
  exact ofFn_get_of _ _ hi

/-- The cache holds a transform of the data. -/
def CacheOk (data : Tensor ℂ) (c : Option (Nat × Tensor ℂ)) : Prop :=
  ∀ sz fd, c = some (sz, fd) → fft data sz = .ok fd

theorem cachedFft_eq {data : Tensor ℂ} {c : Option (Nat × Tensor ℂ)} (hc : CacheOk data c) (n : Nat) :
    cachedFft data n c = fft data n := by
  unfold cachedFft
  cases c with
  | none => rfl
  | some c =>
    simp only
    split
    · rfl
    · rename_i h
      rw [hc c.1 c.2 rfl |>.symm, ← not_not.1 h]

theorem vecTensor_get (md : Meta) (l : List ℂ) (k : Nat) : (vecTensor md l).get [k] = l.getD k 0 := by
  unfold vecTensor
  rw [ofFn_get]
  split
  · rfl
  · rename_i h
    have : ¬ k < l.length := fun hk => h ⟨hk, trivial⟩
    simp [List.getD, this]

theorem linConv_eq (h : List ℂ) (N : Nat) (v : Nat → ℂ) (m : Nat) :
    linConv h N v m = ∑ j ∈ Finset.range N, v j * (if j ≤ m then h.reverse.getD (m - j) 0 else 0) := by
  unfold linConv
  refine Finset.sum_congr rfl fun j _ => ?_
  congr 1
  split
  · rename_i hj
    rw [show (m : ℤ) - j = ((m - j : ℕ) : ℤ) by omega]
    simp [tap]
  · unfold tap
    rw [if_neg (by omega)]

/-- The product of the two transforms, transformed back. -/
theorem conv_ok {data : Tensor ℂ} (hr : 0 < data.rank) (h : List ℂ) {n : Nat} (hn : n ≠ 0)
    (hle : data.shape.getD (data.rank - 1) 0 + h.length ≤ n + 1) :
    ∃ fd fw conv, fft data n = .ok fd ∧ fft (vecTensor data.md h.reverse) n = .ok fw ∧
      ifft (ofFn fd.md fd.shape fun i => fw.get [i.getD (data.rank - 1) 0] * fd.get i) = .ok conv ∧
      conv.md = data.md ∧ conv.shape = data.shape.set (data.rank - 1) n ∧
      ∀ i, InB conv.shape i → conv.get i = linConv h (data.shape.getD (data.rank - 1) 0)
        (fun j => data.get (i.set (data.rank - 1) j)) (i.getD (data.rank - 1) 0) := by
  set a := data.rank - 1 with ha
  have har : a < data.shape.length := by unfold Tensor.rank at *; omega
  obtain ⟨fd, h1, hm1, hs1, hg1⟩ := fft_ok hr hn
  obtain ⟨fw, h2, hm2, hs2, hg2⟩ := fft_ok (x := vecTensor data.md h.reverse) (by simp [vecTensor, Tensor.rank]) hn
  rw [← ha] at hs1
  have hrk : fd.rank = data.rank := by unfold Tensor.rank; rw [hs1, List.length_set]
  obtain ⟨cv, h3, hm3, hs3, hg3⟩ := ifft_ok
    (x := ofFn fd.md fd.shape fun i => fw.get [i.getD a 0] * fd.get i) (n := n)
    (by show 0 < fd.rank; omega)
    (by show fd.shape.getD (fd.rank - 1) 0 = n
        rw [hrk, hs1, ← ha, getD_set_self har]) hn
  refine ⟨fd, fw, cv, h1, h2, h3, hm3.trans hm1, hs3.trans hs1, ?_⟩
  intro i hi
  have hsh : cv.shape = data.shape.set a n := hs3.trans hs1
  rw [hsh] at hi
  have hia : i.getD a 0 < n := inB_set_getD har hi
  rw [hg3 i (by rw [hsh]; exact hi)]
  have hra : (ofFn fd.md fd.shape fun i => fw.get [i.getD a 0] * fd.get i).rank - 1 = a := by
    show fd.rank - 1 = a
    rw [hrk]
  rw [hra]
  have hil : a < i.length := by rw [hi.length_eq, List.length_set]; exact har
  have key : ∀ k ∈ Finset.range n,
      (ofFn fd.md fd.shape fun i => fw.get [i.getD a 0] * fd.get i).get (i.set a k)
        = (∑ l ∈ Finset.range n, h.reverse.getD l 0 * unitRoot n (-(l * k : ℤ)))
          * (∑ j ∈ Finset.range n, data.get (i.set a j) * unitRoot n (-(j * k : ℤ))) := by
    intro k hk
    have hk := Finset.mem_range.1 hk
    have hin : InB fd.shape (i.set a k) := by
      rw [hs1]
      refine (inB_set_iff (x := n) (by rw [List.length_set]; exact har) ?_).2 ?_
      · rw [List.set_set]; exact hi
      · rw [getD_set_self har]; exact hk
    rw [ofFn_get_of _ _ hin, getD_set_self hil, hg1 _ hin]
    rw [hg2 [k] (by rw [hs2]; exact ⟨hk, trivial⟩)]
    congr 1
    · refine Finset.sum_congr rfl fun l _ => ?_
      have e : ([k].set ((vecTensor data.md h.reverse).rank - 1) l) = [l] := rfl
      rw [e, vecTensor_get]
      rfl
    · refine Finset.sum_congr rfl fun j _ => ?_
      rw [← ha, List.set_set, getD_set_self hil]
  rw [Finset.sum_congr rfl fun k hk => by rw [key k hk]]
  rw [dft_conv hn (N := data.shape.getD a 0) (M := h.length) hle (fun j => data.get (i.set a j))
    (fun l => h.reverse.getD l 0) ?_ ?_ _ hia, linConv_eq]
  · intro j hj
    apply data.supp
    intro hc
    have := (inB_set_iff har hi).1 hc
    omega
  · intro l hl
    simp [List.getD, hl]

theorem cwtScale_core {data : Tensor ℂ} (hr : 0 < data.rank) {psi : List ℂ} {s step range : ℝ}
    (hP : 0 < s * step) (hrg : 0 ≤ s * range) {c : Option (Nat × Tensor ℂ)} (hc : CacheOk data c) :
    ∀ h, h = samples s step range psi → 2 ≤ h.length →
    ∃ t c', cwtScale data psi step range s c = .ok (t, c') ∧ CacheOk data (some c') ∧
      t.md = data.md ∧ t.shape = data.shape ∧
      ∀ i, InB data.shape i → t.get i = cwtAt h s (data.shape.getD (data.rank - 1) 0)
        (fun j => data.get (i.set (data.rank - 1) j)) (i.getD (data.rank - 1) 0) := by
  intro h hh hM
  set a := data.rank - 1 with ha
  have har : a < data.shape.length := by unfold Tensor.rank at *; omega
  set N := data.shape.getD a 0 with hN
  have hNe : data.sizeFromEnd 1 = N := rfl
  set n := nextFastLen (N + h.length - 1) with hnd
  have hge := nextFastLen_ge (n := N + h.length - 1) (by omega)
  rw [← hnd] at hge
  obtain ⟨fd, fw, cv, h1, h2, h3, hm, hs, hg⟩ := conv_ok hr h hge.2 (by rw [← ha, ← hN]; omega)
  rw [← ha] at hs hg h3
  have hL : (cv.slice a 0 (N + h.length - 1)).shape = data.shape.set a (N + h.length - 1) := by
    show cv.shape.set a (min (N + h.length - 1) (cv.shape.getD a 0) - 0) = _
    rw [hs, getD_set_self har, List.set_set, Nat.min_eq_left hge.1, Nat.sub_zero]
  set sl := cv.slice a 0 (N + h.length - 1) with hsl
  have hslr : sl.rank = data.rank := by unfold Tensor.rank; rw [hL, List.length_set]
  have hslg : ∀ i, InB sl.shape i → sl.get i = linConv h N (fun j => data.get (i.set a j)) (i.getD a 0) := by
    intro i hi
    rw [hL] at hi
    have hin : InB cv.shape i := by
      rw [hs]
      have := (inB_set_iff (s := data.shape.set a n) (x := N + h.length - 1) (j := i.getD a 0)
        (by rw [List.length_set]; exact har) (by rw [List.set_set]; exact hi)).2
        (by rw [getD_set_self har]; have := inB_set_getD har hi; omega)
      rwa [set_getD_self (by rw [hi.length_eq, List.length_set]; exact har)] at this
    have : sl.get i = cv.get (i.set a (i.getD a 0 + 0)) := ofFn_get_of _ _ (by rw [← hL] at hi; exact hi)
    rw [this, Nat.add_zero, set_getD_self (by rw [hi.length_eq, List.length_set]; exact har), hg i hin]
  have hd : (diffLast sl).shape = data.shape.set a (N + h.length - 2) := by
    show sl.shape.set (sl.rank - 1) (sl.sizeFromEnd 1 - 1) = _
    rw [hslr, ← ha]
    unfold Tensor.sizeFromEnd
    rw [show sl.shape.length - 1 = a from by rw [ha, ← hslr]; rfl, hL, List.set_set, getD_set_self har]
    congr 1
  set d := diffLast sl with hdd
  have hdg : ∀ i, InB d.shape i → d.get i =
      linConv h N (fun j => data.get (i.set a j)) (i.getD a 0 + 1)
        - linConv h N (fun j => data.get (i.set a j)) (i.getD a 0) := by
    intro i hi
    have e : d.get i = sl.get (i.set (sl.rank - 1) (i.getD (sl.rank - 1) 0 + 1)) - sl.get i :=
      ofFn_get_of _ _ hi
    rw [hd] at hi
    have hil : a < i.length := by rw [hi.length_eq, List.length_set]; exact har
    have hlt := inB_set_getD har hi
    rw [e, hslr, ← ha, hslg, hslg, getD_set_self hil]
    · simp only [List.set_set]
    · rw [hL]
      have := (inB_set_iff (s := data.shape.set a (N + h.length - 1)) (x := N + h.length - 2) (j := i.getD a 0)
        (by rw [List.length_set]; exact har) (by rw [List.set_set]; exact hi)).2
        (by rw [getD_set_self har]; omega)
      rwa [set_getD_self hil] at this
    · rw [hL]
      exact (inB_set_iff (s := data.shape.set a (N + h.length - 1)) (x := N + h.length - 2)
        (by rw [List.length_set]; exact har) (by rw [List.set_set]; exact hi)).2
        (by rw [getD_set_self har]; omega)
  set co := (ofFn d.md d.shape fun i => -(Real.sqrt s : ℂ) * d.get i) with hco
  have hcos : co.shape = data.shape.set a (N + h.length - 2) := hd
  have hcor : co.rank = data.rank := by unfold Tensor.rank; rw [hcos, List.length_set]
  have hcoL : co.sizeFromEnd 1 = N + h.length - 2 := by
    unfold Tensor.sizeFromEnd
    rw [show co.shape.length - 1 = a from by rw [ha, ← hcor]; rfl, hcos, getD_set_self har]
  have hcom : co.md = data.md := hm
  have hcog : ∀ i, InB co.shape i → co.get i = -(Real.sqrt s : ℂ) *
      (linConv h N (fun j => data.get (i.set a j)) (i.getD a 0 + 1)
        - linConv h N (fun j => data.get (i.set a j)) (i.getD a 0)) := by
    intro i hi
    have e : co.get i = -(Real.sqrt s : ℂ) * d.get i := ofFn_get_of _ _ hi
    rw [e, hdg i hi]
  have hcrop : ∃ t, cwtCrop co N = .ok t ∧ t.md = data.md ∧ t.shape = data.shape ∧
      ∀ i, InB data.shape i → t.get i = cwtAt h s N (fun j => data.get (i.set a j)) (i.getD a 0) := by
    unfold cwtCrop
    simp only
    rw [hcoL]
    by_cases hlt : N < N + h.length - 2
    · rw [if_pos hlt]
      have hts : (co.slice (co.rank - 1) ((N + h.length - 2 - N) / 2)
          (N + h.length - 2 - (N + h.length - 2 - N + 1) / 2)).shape = data.shape := by
        show co.shape.set (co.rank - 1) (min (N + h.length - 2 - (N + h.length - 2 - N + 1) / 2)
          (co.shape.getD (co.rank - 1) 0) - (N + h.length - 2 - N) / 2) = _
        rw [hcor, ← ha, hcos, getD_set_self har, List.set_set]
        rw [show min (N + h.length - 2 - (N + h.length - 2 - N + 1) / 2) (N + h.length - 2)
          - (N + h.length - 2 - N) / 2 = N by omega, hN, set_getD_self har]
      refine ⟨_, rfl, hcom, hts, ?_⟩
      intro i hi
      have e : (co.slice (co.rank - 1) ((N + h.length - 2 - N) / 2)
          (N + h.length - 2 - (N + h.length - 2 - N + 1) / 2)).get i
          = co.get (i.set (co.rank - 1) (i.getD (co.rank - 1) 0 + (N + h.length - 2 - N) / 2)) :=
        ofFn_get_of _ _ (by have hi' := hi; rw [← hts] at hi'; exact hi')
      have hil : a < i.length := by rw [hi.length_eq]; exact har
      have hlt2 := hi.getD_lt har
      rw [e, hcor, ← ha, hcog, getD_set_self hil]
      · simp only [List.set_set]
        unfold cwtAt
        rw [show N + h.length - 2 - N = h.length - 2 by omega]
      · rw [hcos]
        refine (inB_set_iff (s := data.shape.set a (N + h.length - 2)) (x := N)
          (by rw [List.length_set]; exact har) (by rw [List.set_set, hN, set_getD_self har]; exact hi)).2 ?_
        rw [getD_set_self har]
        omega
    · rw [if_neg hlt, if_neg (by omega)]
      have hM2 : h.length = 2 := by omega
      have hcs : co.shape = data.shape := by
        rw [hcos, show N + h.length - 2 = N by omega, hN, set_getD_self har]
      refine ⟨_, rfl, hcom, hcs, ?_⟩
      intro i hi
      rw [hcog i (by rw [hcs]; exact hi)]
      unfold cwtAt
      rw [hM2]
      rfl
  obtain ⟨t, ht, htm, hts, htg⟩ := hcrop
  refine ⟨t, (n, fd), ?_, ?_, htm, hts, htg⟩
  · unfold cwtScale
    simp only [bind, Except.bind, pure, Except.pure]
    rw [cwtIndices_ok hP hrg]
    simp only
    rw [samples_ok hP hrg]
    simp only
    rw [← hh, List.length_reverse, hNe, ← hnd, cachedFft_eq hc, h1]
    simp only
    rw [h2]
    simp only
    rw [← ha, h3]
    simp only
    rw [← hsl, ← hdd, ← hco, ht]
  · intro sz fd' he
    obtain ⟨rfl, rfl⟩ := Prod.mk.inj (Option.some.inj he)
    exact h1

/-- A scale that leaves one sample is rejected. -/
theorem cwtScale_small {data : Tensor ℂ} (hr : 0 < data.rank) {psi : List ℂ} {s step range : ℝ}
    (hP : 0 < s * step) (hrg : 0 ≤ s * range) {c : Option (Nat × Tensor ℂ)} (hc : CacheOk data c)
    (hN : data.shape.getD (data.rank - 1) 0 ≠ 0) :
    ∀ h, h = samples s step range psi → h.length = 1 → cwtScale data psi step range s c = .error .valueError := by
  intro h hh hM
  set a := data.rank - 1 with ha
  have har : a < data.shape.length := by unfold Tensor.rank at *; omega
  set N := data.shape.getD a 0 with hNd
  have hNe : data.sizeFromEnd 1 = N := rfl
  set n := nextFastLen (N + h.length - 1) with hnd
  have hge := nextFastLen_ge (n := N + h.length - 1) (by omega)
  rw [← hnd] at hge
  obtain ⟨fd, fw, cv, h1, h2, h3, hm, hs, hg⟩ := conv_ok hr h hge.2 (by rw [← ha, ← hNd]; omega)
  rw [← ha] at hs hg h3
  have hL : (cv.slice a 0 (N + h.length - 1)).shape = data.shape.set a (N + h.length - 1) := by
    show cv.shape.set a (min (N + h.length - 1) (cv.shape.getD a 0) - 0) = _
    rw [hs, getD_set_self har, List.set_set, Nat.min_eq_left hge.1, Nat.sub_zero]
  set sl := cv.slice a 0 (N + h.length - 1) with hsl
  have hslr : sl.rank = data.rank := by unfold Tensor.rank; rw [hL, List.length_set]
  have hd : (diffLast sl).shape = data.shape.set a (N + h.length - 1 - 1) := by
    show sl.shape.set (sl.rank - 1) (sl.sizeFromEnd 1 - 1) = _
    rw [hslr, ← ha]
    unfold Tensor.sizeFromEnd
    rw [show sl.shape.length - 1 = a from by rw [ha, ← hslr]; rfl, hL, List.set_set, getD_set_self har]
  set d := diffLast sl with hdd
  set co := (ofFn d.md d.shape fun i => -(Real.sqrt s : ℂ) * d.get i) with hco
  have hcos : co.shape = data.shape.set a (N + h.length - 1 - 1) := hd
  have hcor : co.rank = data.rank := by unfold Tensor.rank; rw [hcos, List.length_set]
  have hcoL : co.sizeFromEnd 1 = N + h.length - 1 - 1 := by
    unfold Tensor.sizeFromEnd
    rw [show co.shape.length - 1 = a from by rw [ha, ← hcor]; rfl, hcos, getD_set_self har]
  have hcrop : cwtCrop co N = .error .valueError := by
    unfold cwtCrop
    simp only
    rw [hcoL, if_neg (by omega), if_pos (by omega)]
  unfold cwtScale
  simp only [bind, Except.bind, pure, Except.pure]
  rw [cwtIndices_ok hP hrg]
  simp only
  rw [samples_ok hP hrg]
  simp only
  rw [← hh, List.length_reverse, hNe, ← hnd, cachedFft_eq hc, h1]
  simp only
  rw [h2]
  simp only
  rw [← ha, h3]
  simp only
  rw [← hsl, ← hdd, ← hco, hcrop]

/-- A small negative scale has the one sample position 0. -/
theorem cwtIndices_neg {s step range : ℝ} (hs : s < 0) (h2 : 0 < step) (h4 : 0 < range) (h : -1 < s * range)
    {psi : List ℂ} (hp : psi ≠ []) : cwtIndices s step range psi.length = .ok [0] := by
  have hpl := List.length_pos_iff.2 hp
  have h5 : s * range < 0 := mul_neg_of_neg_of_pos hs h4
  have hc : ⌈s * range + 1⌉ = 1 := by
    rw [Int.ceil_eq_iff]; push_cast; constructor <;> linarith
  unfold cwtIndices
  rw [if_neg (by linarith), if_neg (by rintro (h | h); · linarith
                                       · exact (mul_neg_of_neg_of_pos hs h2).ne h), hc]
  have : (List.range (1 : ℤ).toNat).map (fun k : ℕ => ⌊(k : ℝ) / (s * step)⌋) = [0] := by
    simp [List.range_succ]
  rw [this]
  show Except.ok (if (psi.length : ℤ) ≤ ([0] : List ℤ).getLast?.getD 0 then _ else ([0] : List ℤ)) = _
  rw [if_neg (by simp only [List.getLast?_singleton, Option.getD_some]; push_cast; omega)]

/-- A scale with the one sample position 0 is rejected. -/
theorem cwtScale_one {data : Tensor ℂ} (hr : 0 < data.rank) {psi : List ℂ} {s step range : ℝ}
    {c : Option (Nat × Tensor ℂ)} (hc : CacheOk data c)
    (hN : data.shape.getD (data.rank - 1) 0 ≠ 0) (hp : psi ≠ [])
    (hI : cwtIndices s step range psi.length = .ok [0]) :
    cwtScale data psi step range s c = .error .valueError := by
  obtain ⟨z, zs, rfl⟩ := List.exists_cons_of_ne_nil hp
  set h : List ℂ := [z] with hh
  have hM : h.length = 1 := rfl
  have hS : ([0] : List ℤ).mapM (pyIndex (z :: zs)) = .ok [z] := by
    have h0 : pyIndex (z :: zs) 0 = .ok z := by
      unfold pyIndex
      simp
    simp only [List.mapM_cons, List.mapM_nil, h0, bind, Except.bind, pure, Except.pure]
  set a := data.rank - 1 with ha
  have har : a < data.shape.length := by unfold Tensor.rank at *; omega
  set N := data.shape.getD a 0 with hNd
  have hNe : data.sizeFromEnd 1 = N := rfl
  set n := nextFastLen (N + h.length - 1) with hnd
  have hge := nextFastLen_ge (n := N + h.length - 1) (by omega)
  rw [← hnd] at hge
  obtain ⟨fd, fw, cv, h1, h2, h3, hm, hs, hg⟩ := conv_ok hr h hge.2 (by rw [← ha, ← hNd]; omega)
  rw [← ha] at hs hg h3
  have hL : (cv.slice a 0 (N + h.length - 1)).shape = data.shape.set a (N + h.length - 1) := by
    show cv.shape.set a (min (N + h.length - 1) (cv.shape.getD a 0) - 0) = _
    rw [hs, getD_set_self har, List.set_set, Nat.min_eq_left hge.1, Nat.sub_zero]
  set sl := cv.slice a 0 (N + h.length - 1) with hsl
  have hslr : sl.rank = data.rank := by unfold Tensor.rank; rw [hL, List.length_set]
  have hd : (diffLast sl).shape = data.shape.set a (N + h.length - 1 - 1) := by
    show sl.shape.set (sl.rank - 1) (sl.sizeFromEnd 1 - 1) = _
    rw [hslr, ← ha]
    unfold Tensor.sizeFromEnd
    rw [show sl.shape.length - 1 = a from by rw [ha, ← hslr]; rfl, hL, List.set_set, getD_set_self har]
  set d := diffLast sl with hdd
  set co := (ofFn d.md d.shape fun i => -(Real.sqrt s : ℂ) * d.get i) with hco
  have hcos : co.shape = data.shape.set a (N + h.length - 1 - 1) := hd
  have hcor : co.rank = data.rank := by unfold Tensor.rank; rw [hcos, List.length_set]
  have hcoL : co.sizeFromEnd 1 = N + h.length - 1 - 1 := by
    unfold Tensor.sizeFromEnd
    rw [show co.shape.length - 1 = a from by rw [ha, ← hcor]; rfl, hcos, getD_set_self har]
  have hcrop : cwtCrop co N = .error .valueError := by
    unfold cwtCrop
    simp only
    rw [hcoL, if_neg (by omega), if_pos (by omega)]
  unfold cwtScale
  simp only [bind, Except.bind, pure, Except.pure]
  rw [hI]
  simp only
  rw [hS]
  simp only
  rw [show [z].reverse = h.reverse from rfl, List.length_reverse, hNe, ← hnd, cachedFft_eq hc, h1]
  simp only
  rw [h2]
  simp only
  rw [← ha, h3]
  simp only
  rw [← hsl, ← hdd, ← hco, hcrop]

theorem samples_two {s step range : ℝ} {psi : List ℂ} :
    2 ≤ (samples s step range psi).length ↔ 0 < s * range ∧ 1 < psi.length * (s * step) := by
  rw [samples_length, show 2 ≤ sampleCount s step range psi.length ↔ 1 < sampleCount s step range psi.length from
    Iff.rfl, lt_sampleCount]
  push_cast
  constructor
  · rintro ⟨h1, h2⟩; exact ⟨by linarith, h2⟩
  · rintro ⟨h1, h2⟩; exact ⟨by linarith, h2⟩

theorem samples_pos {s step range : ℝ} {psi : List ℂ} (hP : 0 < s * step) (hr : 0 ≤ s * range) (hp : psi ≠ []) :
    0 < (samples s step range psi).length := by
  rw [samples_length, lt_sampleCount]
  have : (0 : ℝ) < psi.length := by exact_mod_cast List.length_pos_iff.2 hp
  exact ⟨by push_cast; linarith, by push_cast; positivity⟩

theorem cwtLoop_ok {data : Tensor ℂ} (hr : 0 < data.rank) {psi : List ℂ} {step range : ℝ} :
    ∀ (scales : List ℝ) (c : Option (Nat × Tensor ℂ)), CacheOk data c →
      (∀ s ∈ scales, 0 < s * step ∧ 0 < s * range ∧ 1 < psi.length * (s * step)) →
      ∃ ts, cwtLoop data psi step range scales c = .ok ts ∧ ts.length = scales.length ∧
        ∀ (k : Nat) (t : Tensor ℂ) (s : ℝ), ts[k]? = some t → scales[k]? = some s → t.md = data.md ∧ t.shape = data.shape ∧
          ∀ i, InB data.shape i → t.get i = cwtAt (samples s step range psi) s
            (data.shape.getD (data.rank - 1) 0) (fun j => data.get (i.set (data.rank - 1) j))
            (i.getD (data.rank - 1) 0)
  | [], c, _, _ => ⟨[], rfl, rfl, fun k t s h _ => by simp at h⟩
  | s :: ss, c, hc, hall => by
    obtain ⟨hP, hrg, hlen⟩ := hall s List.mem_cons_self
    obtain ⟨t, c', h1, hc', htm, hts, htg⟩ :=
      cwtScale_core hr hP hrg.le hc _ rfl (samples_two.2 ⟨hrg, hlen⟩)
    obtain ⟨ts, h2, hl, hv⟩ := cwtLoop_ok hr ss (some c') hc' fun s hs => hall s (List.mem_cons_of_mem _ hs)
    refine ⟨t :: ts, ?_, by simp [hl], ?_⟩
    · simp only [cwtLoop, bind, Except.bind, pure, Except.pure, h1, h2]
    · intro k u s' hu hs'
      cases k with
      | zero =>
        simp only [List.getElem?_cons_zero, Option.some.injEq] at hu hs'
        subst hu hs'
        exact ⟨htm, hts, htg⟩
      | succ k =>
        simp only [List.getElem?_cons_succ] at hu hs'
        exact hv k u s' hu hs'

theorem cwtLoop_small {data : Tensor ℂ} (hr : 0 < data.rank) {psi : List ℂ} {step range : ℝ} (hp : psi ≠ [])
    (hN : data.shape.getD (data.rank - 1) 0 ≠ 0) :
    ∀ (scales : List ℝ) (c : Option (Nat × Tensor ℂ)), CacheOk data c →
      (∀ s ∈ scales, 0 < s * step ∧ 0 ≤ s * range) →
      (∃ s ∈ scales, ¬ (0 < s * range ∧ 1 < psi.length * (s * step))) →
      cwtLoop data psi step range scales c = .error .valueError
  | [], c, _, _, h => by obtain ⟨s, hs, _⟩ := h; simp at hs
  | s :: ss, c, hc, hall, hbad => by
    obtain ⟨hP, hrg⟩ := hall s List.mem_cons_self
    by_cases hg : 0 < s * range ∧ 1 < psi.length * (s * step)
    · obtain ⟨t, c', h1, hc', -, -, -⟩ := cwtScale_core hr hP hrg hc _ rfl (samples_two.2 hg)
      have h2 := cwtLoop_small hr hp hN ss (some c') hc' (fun s hs => hall s (List.mem_cons_of_mem _ hs)) (by
        obtain ⟨s', hs', hb⟩ := hbad
        rcases List.mem_cons.1 hs' with rfl | hs'
        · exact absurd hg hb
        · exact ⟨s', hs', hb⟩)
      simp only [cwtLoop, bind, Except.bind, h1, h2]
    · have hlt : ¬ 2 ≤ (samples s step range psi).length := fun h => hg (samples_two.1 h)
      have := samples_pos hP hrg hp
      have h1 := cwtScale_small hr hP hrg hc hN _ rfl (by omega : (samples s step range psi).length = 1)
      simp only [cwtLoop, bind, Except.bind, h1]

theorem integrate_length (psi : List ℂ) (step : ℝ) : (integrate psi step).length = psi.length := by
  simp [integrate]

theorem integrate_getD (psi : List ℂ) (step : ℝ) {k : Nat} (hk : k < psi.length) :
    (integrate psi step).getD k 0 = integral psi step k := by
  unfold integrate integral
  rw [← Finset.sum_mul]
  simp [List.getD, hk]

theorem map_getD_conj (psi : List ℂ) (i : Nat) :
    (psi.map (starRingEnd ℂ)).getD i 0 = starRingEnd ℂ (psi.getD i 0) := by
  by_cases h : i < psi.length
  · simp [List.getD, h]
  · simp [List.getD, h]

theorem integrate_conj (psi : List ℂ) (step : ℝ) :
    (integrate psi step).map (starRingEnd ℂ) = integrate (psi.map (starRingEnd ℂ)) step := by
  unfold integrate
  rw [List.map_map, List.length_map]
  apply List.map_congr_left
  intro k _
  simp only [Function.comp_apply, map_mul, map_sum, Complex.conj_ofReal, map_getD_conj]

theorem grid_facts {x : List ℝ} (hx : x.Pairwise (· < ·)) (hl : 2 ≤ x.length) :
    gridStep x = .ok (x.getD 1 0 - x.getD 0 0) ∧ 0 < x.getD 1 0 - x.getD 0 0 ∧
      x.getLast?.getD 0 - x.headD 0 = x.getD (x.length - 1) 0 - x.getD 0 0 ∧
      0 < x.getD (x.length - 1) 0 - x.getD 0 0 := by
  match x, hl with
  | a :: b :: r, _ =>
    refine ⟨rfl, ?_, ?_, ?_⟩
    · have := (List.pairwise_cons.1 hx).1 b (by simp)
      simpa using this
    · rw [List.getLast?_eq_getElem?]
      simp [List.getD]
    · have hm : (a :: b :: r).getD ((a :: b :: r).length - 1) 0 ∈ b :: r := by
        have e : (a :: b :: r).length - 1 = (b :: r).length - 1 + 1 := by simp
        rw [e, List.getD_cons_succ]
        have : (b :: r).length - 1 < (b :: r).length := by simp
        rw [List.getD_eq_getElem _ _ this]
        exact List.getElem_mem _
      have := (List.pairwise_cons.1 hx).1 _ hm
      simpa using this

end Verif
