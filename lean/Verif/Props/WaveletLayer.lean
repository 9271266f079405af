/-
Property C77: the wavelet layer of examples/network_compression/wavelet_linear.py.
-/
import Verif.Lemmas.WaveletLayer
import Verif.Lemmas.LinN
import Verif.Props.Swt
import Mathlib.Algebra.BigOperators.Ring.Finset

namespace Verif.Props
open Tensor Spec
variable {R : Type}

theorem lens_of_ok {F : Nat} {mode : String} {d S : Nat} {lens : List Nat} (hF : 2 ≤ F) (he : F % 2 = 0)
    (hp : mode ≠ "periodization") (h : getCoefficientLengths d S F mode = .ok lens) :
    1 ≤ S ∧ 1 ≤ d ∧
      lens = ((List.range S).map fun i => levelLen F d (i + 1)) ++ [levelLen F d S] := by
  have hS : 1 ≤ S := by
    by_contra hS
    obtain rfl : S = 0 := by omega
    cases h
  obtain ⟨S, rfl⟩ : ∃ t, S = t + 1 := ⟨S - 1, by omega⟩
  have hm : mode ∈ pywtModes := by
    by_contra hm
    unfold getCoefficientLengths coefficientLengthsLoop dwtCoeffLen at h
    simp only [hm, not_false_eq_true, if_true, bind, Except.bind] at h
    cases h
  have hd : 1 ≤ d := by
    by_contra hd
    obtain rfl : d = 0 := by omega
    unfold getCoefficientLengths coefficientLengthsLoop dwtCoeffLen at h
    rw [if_neg (by simpa using hm), if_pos (by omega)] at h
    simp only [bind, Except.bind] at h
    cases h
  refine ⟨hS, hd, ?_⟩
  rw [getCoefficientLengths_ok hm hp hF he hd hS] at h
  exact (Except.ok.inj h).symm

/-- **C77.** Constructing the layer computes, for every extension mode of pywt but `periodization`, the
lengths of the coefficients `wavedec` will return (finest first, the coarsest twice); it fails for no
scale, for no input columns and for unknown modes. -/
theorem c77_lengths (d S F : Nat) (mode : String) (hF : 2 ≤ F) (he : F % 2 = 0) :
    (S = 0 → getCoefficientLengths d S F mode = .error .indexError) ∧
    (1 ≤ S → d = 0 ∨ mode ∉ pywtModes → getCoefficientLengths d S F mode = .error .valueError) ∧
    (1 ≤ S → 1 ≤ d → mode ∈ pywtModes → mode ≠ "periodization" →
      ∃ lens, getCoefficientLengths d S F mode = .ok lens ∧
        lens.reverse = (List.range (S + 1)).map (bandLen F d S) ∧ lens.sum = rowWidth F d S) := by
  refine ⟨?_, ?_, ?_⟩
  · rintro rfl; rfl
  · intro hS h
    obtain ⟨S, rfl⟩ : ∃ t, S = t + 1 := ⟨S - 1, by omega⟩
    have : dwtCoeffLen d F mode = .error .valueError := by
      unfold dwtCoeffLen
      by_cases hm : mode ∈ pywtModes
      · rw [if_neg (by simpa using hm), if_pos]
        rcases h with h | h
        · omega
        · exact absurd hm h
      · rw [if_pos hm]
    unfold getCoefficientLengths coefficientLengthsLoop
    simp only [bind, Except.bind, this]
  · intro hS hd hm hp
    exact ⟨_, getCoefficientLengths_ok hm hp hF he hd hS, lens_reverse, lens_sum⟩

/-- **C77.** The decomposition of the layer writes the textbook coefficients of every row (with reflected
boundaries, whatever mode the layer was given) side by side; its shape assertion never fails.  It raises
RuntimeError exactly if a row or an approximation is too short for the reflection. -/
theorem c77_decompose [NonUnitalNonAssocSemiring R] (w : Wavelet R) (x : Tensor R) (B d S : Nat)
    (mode : String) (lens : List Nat) (hF : 2 ≤ w.len) (he : w.len % 2 = 0)
    (hhi : w.decHi.length = w.len) (hp : mode ≠ "periodization")
    (hl : getCoefficientLengths d S w.len mode = .ok lens) (hx : x.shape = [B, d])
    (hdt : x.md.dtype = .float32 ∨ x.md.dtype = .float64) :
    ((∃ s, s < S ∧ ¬ Mode.Admits .reflect w.len (levelLen w.len d s)) →
      layerDecompose w S lens x = .error .runtimeError) ∧
    ((∀ s, s < S → Mode.Admits .reflect w.len (levelLen w.len d s)) →
      ∃ c, layerDecompose w S lens x = .ok c ∧ RowPacked .reflect w S x c) := by
  obtain ⟨h1, h2⟩ := layerDecompose_char (S := S) (lens := lens) hF hhi hx hdt
  obtain ⟨-, -, h3⟩ := lens_of_ok hF he hp hl
  exact ⟨h1, fun h => (h2 h).2 (by rw [h3, lens_reverse])⟩

/-- **C77.** A layer constructed with mode `periodization` cannot be used with more than two filter taps:
its own shape assertion fails. -/
theorem c77_periodization [NonUnitalNonAssocSemiring R] (w : Wavelet R) (x : Tensor R) (B d S : Nat)
    (lens : List Nat) (hF : 4 ≤ w.len) (hhi : w.decHi.length = w.len)
    (hl : getCoefficientLengths d S w.len "periodization" = .ok lens) (hx : x.shape = [B, d])
    (hdt : x.md.dtype = .float32 ∨ x.md.dtype = .float64)
    (hadm : ∀ s, s < S → Mode.Admits .reflect w.len (levelLen w.len d s)) :
    layerDecompose w S lens x = .error .assertionError := by
  obtain ⟨-, h2⟩ := layerDecompose_char (S := S) (lens := lens) (by omega) hhi hx hdt
  refine (h2 hadm).1 ?_
  intro hrev
  have hS : 1 ≤ S := by
    by_contra hS
    obtain rfl : S = 0 := by omega
    cases hl
  obtain ⟨S, rfl⟩ : ∃ t, S = t + 1 := ⟨S - 1, by omega⟩
  have hhead : lens[0]? = some ((d + 1) / 2) := by
    unfold getCoefficientLengths coefficientLengthsLoop dwtCoeffLen at hl
    rw [if_neg (by decide)] at hl
    split_ifs at hl with h0 h00
    · cases hl
    · simp only [bind, Except.bind] at hl
      cases hr : coefficientLengthsLoop w.len "periodization" S ((d + 1) / 2) with
      | error e => rw [hr] at hl; cases hl
      | ok r =>
        rw [hr] at hl
        simp only [pure, Except.pure] at hl
        cases hg : ((d + 1) / 2 :: r).getLast? with
        | none => simp at hg
        | some k =>
          rw [hg] at hl
          have := Except.ok.inj hl
          rw [← this]; rfl
    · exact absurd rfl h00
  have h3 : lens[0]? = some (levelLen w.len d 1) := by
    rw [← lens.reverse_reverse, hrev, List.getElem?_reverse (by simp)]
    rw [List.getElem?_eq_getElem (by simp)]
    simp [bandLen]
  rw [h3] at hhead
  have := Option.some.inj hhead
  have h4 : levelLen w.len d 1 = outLen w.len d := rfl
  rw [h4] at this
  unfold outLen at this
  omega

/-- **C77.** With two or more scales the reconstruction of the layer never reads the last columns of its
argument (as many as the coarsest coefficients have, at least one): whatever stands there, the result is the
same.  (The loop advances to the wrong column.) -/
theorem c77_unread [NonUnitalNonAssocSemiring R] (w : Wavelet R) (q q' : Tensor R) (B d S F : Nat)
    (mode : String) (lens : List Nat) (hF : 2 ≤ F) (he : F % 2 = 0) (hS : 2 ≤ S)
    (hp : mode ≠ "periodization") (hl : getCoefficientLengths d S F mode = .ok lens)
    (hq : q.shape = [B, rowWidth F d S]) (hq' : q'.shape = [B, rowWidth F d S]) (hmd : q.md = q'.md)
    (h : ∀ b j, b < B → j + levelLen F d S < rowWidth F d S → q.get [b, j] = q'.get [b, j]) :
    1 ≤ levelLen F d S ∧ layerReconstruct w S lens q = layerReconstruct w S lens q' := by
  obtain ⟨-, hd, h3⟩ := lens_of_ok hF he hp hl
  exact ⟨levelLen_pos hF hd S, layerReconstruct_unread hF hS h3 hq hq' hmd h⟩

theorem row_split {F d S : Nat} : ∀ (K col : Nat), col < bandStart F d S K →
    ∃ k j, k < K ∧ j < bandLen F d S k ∧ col = bandStart F d S k + j
  | 0, col, h => by simp [bandStart] at h
  | K + 1, col, h => by
    have e : bandStart F d S (K + 1) = bandStart F d S K + bandLen F d S K := Finset.sum_range_succ _ _
    by_cases hc : col < bandStart F d S K
    · obtain ⟨k, j, h1, h2, h3⟩ := row_split K col hc
      exact ⟨k, j, by omega, h2, h3⟩
    · exact ⟨K, col - bandStart F d S K, by omega, by omega, by omega⟩

/-- **C77.** With one scale the reconstruction of the layer inverts its decomposition, for every perfect
reconstruction bank and even numbers of columns. -/
theorem c77_one_scale [Field R] [CharZero R] (w : Wavelet R) (x c : Tensor R) (F B d : Nat)
    (mode : String) (lens : List Nat) (hw : PRBank w F) (hF : 2 ≤ F) (he : F % 2 = 0)
    (hp : mode ≠ "periodization") (hl : getCoefficientLengths d 1 F mode = .ok lens)
    (hx : x.shape = [B, d]) (hdt : x.md.dtype = .float32 ∨ x.md.dtype = .float64) (hd : d % 2 = 0)
    (hc : layerDecompose w 1 lens x = .ok c) : layerReconstruct w 1 lens c = .ok x := by
  have hFw : w.len = F := hw.len.1
  have hhi : w.decHi.length = w.len := by rw [hFw]; exact hw.len.2.1
  obtain ⟨-, hd1, hlens⟩ := lens_of_ok hF he hp hl
  obtain ⟨c1, c2⟩ := c77_decompose w x B d 1 mode lens (by omega) (by omega) hhi hp (by rw [hFw]; exact hl)
    hx hdt
  have hadm : ∀ s, s < 1 → Mode.Admits .reflect w.len (levelLen w.len d s) := by
    by_contra hadm
    push Not at hadm
    rw [c1 hadm] at hc; cases hc
  obtain ⟨c', ec, hpk⟩ := c2 hadm
  rw [hc] at ec
  obtain rfl := Except.ok.inj ec
  have hr : x.rank = 2 := by simp [Tensor.rank, hx]
  have hax : axis1 .none x.rank = 1 := by rw [hr]; rfl
  have hn : x.shape.getD (axis1 .none x.rank) 0 = d := by rw [hax, hx]; rfl
  have hsup : isDtypeSupported x.md.dtype = true := by unfold isDtypeSupported; simpa using hdt
  obtain ⟨-, g2⟩ := wavedec_char (mode := some "reflect") (x := x) (level := some 1) (h := .none)
    (by omega : 2 ≤ w.len) hhi
  obtain ⟨-, g4, -, -⟩ := g2 (by rw [hr]; exact goodAxes_none (by omega)) hsup
  have hL : levels (some 1) w.len (x.shape.getD (axis1 .none x.rank) 0) = 1 := rfl
  rw [hL, hn, hax] at g4
  obtain ⟨cs, ecs, hdw⟩ := g4 .reflect (Or.inl rfl) hadm
  obtain ⟨z, ez, -, -, hz, -⟩ := c01_perfect_reconstruction x w F _ _ _ cs hw hF he ecs
  rw [hn] at hz
  rw [hz hd] at ez
  unfold layerReconstruct
  simp only [bind, Except.bind, layerSegments_ok hlens]
  rw [← ez]
  congr 1
  have hlen := hdw.length
  have hps := hpk.shape
  rw [hx, hFw] at hps
  simp only [List.getD_cons_zero, List.getD_cons_succ] at hps
  apply List.ext_getElem? 
  intro k
  rcases Nat.lt_or_ge k 2 with hk | hk
  · have hk1 : k ≤ 1 := by omega
    rw [List.getElem?_map, List.getElem?_range (by omega), List.getElem?_eq_getElem (by omega), Option.map_some]
    congr 1
    have hsh := segment_shape (d := d) (k := k) hF le_rfl hk1 hps
    have hstart : segStart F d k = bandStart F d 1 k := by
      have : k = 0 ∨ k = 1 := by omega
      rcases this with rfl | rfl
      · rfl
      · simp [segStart, bandStart, bandLen]
    have hcs : (cs[k]'(by omega)).md = x.md ∧ (cs[k]'(by omega)).shape = [B, bandLen F d 1 k] ∧
        ∀ b j, b < B → j < bandLen F d 1 k →
          (cs[k]'(by omega)).get [b, j] = bandVal .reflect w d 1 (fun i => x.get [b, i]) k j := by
      have : k = 0 ∨ k = 1 := by omega
      rcases this with rfl | rfl
      · have h := hdw.approx cs[0] (List.getElem?_eq_getElem _)
        rw [hx, hFw] at h
        have hs : (cs[0]).shape = [B, bandLen F d 1 0] := by rw [h.shape, hx]; rfl
        refine ⟨h.md, hs, ?_⟩
        intro b j hb hj
        rw [h.get _ (by rw [hs]; exact ⟨hb, hj, trivial⟩)]
        rfl
      · have h := hdw.detail 0 cs[1] (by omega) (List.getElem?_eq_getElem _)
        rw [hx, hFw] at h
        have hs : (cs[1]).shape = [B, bandLen F d 1 1] := by rw [h.shape, hx]; rfl
        refine ⟨h.md, hs, ?_⟩
        intro b j hb hj
        rw [h.get _ (by rw [hs]; exact ⟨hb, hj, trivial⟩)]
        rfl
    refine Tensor.ext' (show (c.slice _ _ _).md = _ from hpk.md.trans hcs.1.symm) (hsh.trans hcs.2.1.symm) ?_
    intro i hi
    rw [hsh] at hi
    match i, hi with
    | [b, j], hi =>
      obtain ⟨hb, hj, -⟩ := hi
      rw [segment_get hF le_rfl hk1 hps hb hj, hcs.2.2 b j hb hj, hstart]
      have := hpk.get b k j
      rw [hx, hFw] at this
      exact this hb hk1 hj
  · rw [List.getElem?_eq_none (by simp; omega), List.getElem?_eq_none (by omega)]

/-! ### The reconstruction is no inverse for two or more scales -/

theorem dwtStep_zero [NonUnitalNonAssocSemiring R] {m : Mode} {h : List R} {n : Nat} {v : Nat → R} {k : Nat}
    (hn : 1 ≤ n) (hv : ∀ j, j < n → v j = 0) : dwtStep m h n v k = 0 := by
  unfold dwtStep analysis
  refine Finset.sum_eq_zero fun j _ => ?_
  have : ext m n v (2 * (k : ℤ) + 1 - j) = 0 := by
    unfold ext
    cases he : extIdx m n (2 * (k : ℤ) + 1 - j) with
    | none => rfl
    | some i => exact hv i (extIdx_lt hn he)
  rw [this, mul_zero]

theorem twoTap_step [NonUnitalNonAssocSemiring R] {m : Mode} {a b : R} {n : Nat} {v : Nat → R} {k : Nat}
    (hk : 2 * k + 1 < n) : dwtStep m [a, b] n v k = a * v (2 * k + 1) + b * v (2 * k) := by
  unfold dwtStep analysis
  simp only [List.length_cons, List.length_nil, Finset.sum_range_succ, Finset.sum_range_zero, zero_add,
    List.getD_cons_zero, List.getD_cons_succ]
  have e1 : ext m n v (2 * (k : ℤ) + 1 - (0 : ℕ)) = v (2 * k + 1) := by
    rw [show (2 * (k : ℤ) + 1 - (0 : ℕ)) = ((2 * k + 1 : ℕ) : ℤ) by push_cast; ring]
    exact ext_inside m v hk
  have e2 : ext m n v (2 * (k : ℤ) + 1 - (1 : ℕ)) = v (2 * k) := by
    rw [show (2 * (k : ℤ) + 1 - (1 : ℕ)) = ((2 * k : ℕ) : ℤ) by push_cast; ring]
    exact ext_inside m v (by omega)
  rw [e1, e2]

theorem cA_zero [NonUnitalNonAssocSemiring R] {m : Mode} {w : Wavelet R} {d : Nat} {v : Nat → R}
    (hF : 2 ≤ w.len) (hd : 1 ≤ d) (h1 : ∀ k, k < levelLen w.len d 1 → cA m w d v 1 k = 0) :
    ∀ s k, k < levelLen w.len d (s + 1) → cA m w d v (s + 1) k = 0
  | 0, k, hk => h1 k hk
  | s + 1, k, _ => dwtStep_zero (levelLen_pos hF hd _) (cA_zero hF hd h1 s)

/-- All but the finest detail coefficients of a row vanish, and so do the finest ones but the last. -/
theorem row_zero [NonUnitalNonAssocSemiring R] {m : Mode} {w : Wavelet R} {d S : Nat} {v : Nat → R}
    (hF : w.len = 2) (hd : 1 ≤ d) (hS : 1 ≤ S)
    (h1 : ∀ k, k < levelLen w.len d 1 → cA m w d v 1 k = 0)
    (h2 : ∀ k, k + 1 < levelLen w.len d 1 → cD m w d v 0 k = 0) (k j : Nat) (hk : k ≤ S)
    (hj : j < bandLen w.len d S k)
    (hc : bandStart w.len d S k + j + levelLen w.len d S < rowWidth w.len d S) :
    bandVal m w d S v k j = 0 := by
  have hz := cA_zero (m := m) (w := w) (v := v) (by omega) hd h1
  have hp : 1 ≤ levelLen w.len d S := levelLen_pos (by omega) hd S
  rcases k with _ | k
  · show cA m w d v S j = 0
    obtain ⟨t, rfl⟩ : ∃ t, S = t + 1 := ⟨S - 1, by omega⟩
    exact hz t j hj
  · show cD m w d v (S - k - 1) j = 0
    rcases Nat.eq_zero_or_pos (S - k - 1) with h0 | h0
    · rw [h0]
      apply h2
      have hkS : k + 1 = S := by omega
      rw [hkS] at hc
      have e : rowWidth w.len d S = bandStart w.len d S S + bandLen w.len d S S := Finset.sum_range_succ _ _
      have e2 : bandLen w.len d S S = levelLen w.len d 1 := by
        rw [← hkS]
        show levelLen w.len d (k + 1 - k) = _
        rw [Nat.add_sub_cancel_left]
      omega
    · obtain ⟨t, ht⟩ : ∃ t, S - k - 1 = t + 1 := ⟨S - k - 2, by omega⟩
      rw [ht]
      exact dwtStep_zero (levelLen_pos (by omega) hd _) (hz t)

/-- **C77.** With two or more scales the reconstruction of the layer does not invert its decomposition: for
every two-tap filter bank there are different inputs whose coefficients are turned into the same output. -/
theorem c77_not_injective [CommRing R] (w : Wavelet R) (h0 h1 : R) (B d S : Nat) (md : Meta) (mode : String)
    (lens : List Nat) (hlo : w.decLo = [h0, h1]) (hhi : w.decHi.length = 2) (hne : h0 ≠ 0 ∨ h1 ≠ 0)
    (hp : mode ≠ "periodization") (hl : getCoefficientLengths d S 2 mode = .ok lens)
    (hdt : md.dtype = .float32 ∨ md.dtype = .float64) (hB : 1 ≤ B) (hS : 2 ≤ S) (hd : d % 2 = 0)
    (hadm : ∀ s, s < S → 2 ≤ levelLen 2 d s) :
    ∃ x y c c' : Tensor R, x ≠ y ∧ x.shape = [B, d] ∧ y.shape = [B, d] ∧ x.md = md ∧ y.md = md ∧
      layerDecompose w S lens x = .ok c ∧ layerDecompose w S lens y = .ok c' ∧
      layerReconstruct w S lens c = layerReconstruct w S lens c' := by
  have hF : w.len = 2 := by unfold Wavelet.len; rw [hlo]; rfl
  obtain ⟨-, hd1, hlens⟩ := lens_of_ok (F := 2) le_rfl rfl hp hl
  have hl1 : levelLen 2 d 1 = d / 2 := by show outLen 2 d = d / 2; unfold outLen; omega
  set x : Tensor R := ofFn md [B, d] fun i =>
    if i.getD 1 0 = d - 2 then h0 else if i.getD 1 0 = d - 1 then -h1 else 0 with hxd
  set y : Tensor R := ofFn md [B, d] fun _ => 0 with hyd
  have hadm' : ∀ s, s < S → Mode.Admits .reflect w.len (levelLen w.len d s) := by
    intro s hs
    have := hadm s hs
    rw [hF]
    show 2 - 2 + levelLen 2 d s % 2 < levelLen 2 d s
    omega
  obtain ⟨-, cx⟩ := c77_decompose w x B d S mode lens (by omega) (by omega) (by omega) hp
    (by rw [hF]; exact hl) rfl hdt
  obtain ⟨-, cy⟩ := c77_decompose w y B d S mode lens (by omega) (by omega) (by omega) hp
    (by rw [hF]; exact hl) rfl hdt
  obtain ⟨c, ec, pc⟩ := cx hadm'
  obtain ⟨c', ec', pc'⟩ := cy hadm'
  have hd2 : 2 ≤ d := hadm 0 (by omega)
  have hx0 : ∀ b i, b < B → x.get [b, i] = if i = d - 2 then h0 else if i = d - 1 then -h1 else 0 := by
    intro b i hb
    by_cases hin : i < d
    · rw [hxd, ofFn_get, if_pos ⟨hb, hin, trivial⟩]; rfl
    · rw [hxd, ofFn_get, if_neg (fun h => hin h.2.1), if_neg (by omega), if_neg (by omega)]
  refine ⟨x, y, c, c', ?_, rfl, rfl, rfl, rfl, ec, ec', ?_⟩
  · intro hxy
    have e : ∀ i, x.get [0, i] = 0 := by
      intro i
      rw [hxy, hyd, ofFn_get]
      split_ifs <;> rfl
    rcases hne with h | h
    · have := e (d - 2)
      rw [hx0 0 _ hB, if_pos rfl] at this
      exact h this
    · have := e (d - 1)
      rw [hx0 0 _ hB, if_neg (by omega), if_pos rfl] at this
      exact h (neg_eq_zero.mp this)
  · have sc := pc.shape
    have sc' := pc'.shape
    rw [hF] at sc sc'
    refine (c77_unread w c c' B d S 2 mode lens le_rfl rfl hS hp hl sc sc' (pc.md.trans pc'.md.symm) ?_).2
    intro b col hb hcol
    obtain ⟨k, j, hk, hj, rfl⟩ := row_split (F := 2) (d := d) (S := S) (S + 1) col (by
      show col < rowWidth 2 d S; omega)
    have zero : ∀ v : Nat → R, (∀ i, i < d → i + 2 < d → v i = 0) →
        (h0 * v (d - 1) + h1 * v (d - 2) = 0) → bandVal .reflect w d S v k j = 0 := by
      intro v hv1 hv2
      refine row_zero hF hd1 (by omega) ?_ ?_ k j (by omega) (by rw [hF]; exact hj) (by rw [hF]; exact hcol)
      · intro i hi
        rw [hF, hl1] at hi
        show dwtStep .reflect w.decLo d v i = 0
        rw [hlo, twoTap_step (by omega)]
        by_cases hlast : i + 1 = d / 2
        · rw [show 2 * i + 1 = d - 1 by omega, show 2 * i = d - 2 by omega]; exact hv2
        · rw [hv1 _ (by omega) (by omega), hv1 _ (by omega) (by omega)]; simp
      · intro i hi
        rw [hF, hl1] at hi
        show dwtStep .reflect w.decHi d v i = 0
        obtain ⟨a, b, hab⟩ : ∃ a b, w.decHi = [a, b] := by
          match hw : w.decHi, hhi with
          | [a, b], _ => exact ⟨a, b, rfl⟩
        rw [hab, twoTap_step (by omega), hv1 _ (by omega) (by omega), hv1 _ (by omega) (by omega)]
        simp
    have e1 : c.get [b, bandStart 2 d S k + j] = bandVal .reflect w d S (fun i => x.get [b, i]) k j := by
      have := pc.get b k j hb (by omega)
      rw [hF] at this
      exact this hj
    have e2 : c'.get [b, bandStart 2 d S k + j] = bandVal .reflect w d S (fun i => y.get [b, i]) k j := by
      have := pc'.get b k j hb (by omega)
      rw [hF] at this
      exact this hj
    rw [e1, e2]
    rw [zero _ ?_ ?_, zero _ ?_ ?_]
    · intro i _ _
      rw [hyd, ofFn_get]; split_ifs <;> rfl
    · have : ∀ i, y.get [b, i] = 0 := by
        intro i; rw [hyd, ofFn_get]; split_ifs <;> rfl
      simp only [this]; simp
    · intro i _ h
      simp only [hx0 b _ hb]
      rw [if_neg (by omega), if_neg (by omega)]
    · simp only [hx0 b _ hb]
      rw [if_neg (by omega), if_pos trivial, if_pos trivial]
      ring


/-! ### The whole layer -/

theorem mm_ok [NonUnitalNonAssocSemiring R] {a b : Tensor R} {n k m : Nat} (ha : a.shape = [n, k])
    (hb : b.shape = [k, m]) (hmd : a.md = b.md) :
    mm a b = .ok (ofFn a.md [n, m] fun i =>
      ∑ j ∈ Finset.range k, a.get [i.getD 0 0, j] * b.get [j, i.getD 1 0]) := by
  unfold mm
  rw [ha, hb]
  exact if_pos ⟨rfl, hmd⟩

theorem mm_clash [NonUnitalNonAssocSemiring R] {a b : Tensor R} {n k k' m : Nat} (ha : a.shape = [n, k])
    (hb : b.shape = [k', m]) (h : k ≠ k') : mm a b = .error .runtimeError := by
  unfold mm
  rw [ha, hb]
  exact if_neg fun hc => h hc.1

theorem diag_ok [NonUnitalNonAssocSemiring R] {md : Meta} {ones : List R} {mask : Nat → Nat → R}
    {x : Tensor R} {B n : Nat} (hx : x.shape = [B, n]) (hn : ones.length = n) (hmd : x.md = md) :
    ∃ y, mmDropoutDiagonal md ones mask x = .ok y ∧ y.md = x.md ∧ y.shape = [B, n] ∧
      ∀ b j, b < B → j < n → y.get [b, j] = x.get [b, j] * (mask j j * ones.getD j 0) := by
  subst hn
  unfold mmDropoutDiagonal
  rw [mm_ok hx rfl hmd]
  refine ⟨_, rfl, rfl, rfl, ?_⟩
  intro b j hb hj
  rw [ofFn_get, if_pos ⟨hb, hj, trivial⟩]
  simp only [List.getD_cons_zero, List.getD_cons_succ]
  rw [Finset.sum_eq_single j]
  · rw [ofFn_get, if_pos ⟨hj, hj, trivial⟩]
    simp
  · intro i hi hne
    rw [Finset.mem_range] at hi
    rw [ofFn_get, if_pos ⟨hi, hj, trivial⟩]
    simp [hne]
  · intro h
    exact absurd (Finset.mem_range.mpr hj) h

theorem perm_ok [NonAssocSemiring R] {md : Meta} {n : Nat} {σ : Nat → Nat} {x : Tensor R} {B : Nat}
    (hx : x.shape = [B, n]) (hmd : x.md = md) :
    ∃ y, permutator md n σ x = .ok y ∧ y.md = x.md ∧ y.shape = [B, n] ∧
      ∀ b j, b < B → j < n → y.get [b, j] =
        ∑ i ∈ Finset.range n, if σ i = j then x.get [b, i] else 0 := by
  unfold permutator
  rw [mm_ok hx rfl hmd]
  refine ⟨_, rfl, rfl, rfl, ?_⟩
  intro b j hb hj
  rw [ofFn_get, if_pos ⟨hb, hj, trivial⟩]
  simp only [List.getD_cons_zero, List.getD_cons_succ]
  refine Finset.sum_congr rfl fun i hi => ?_
  rw [Finset.mem_range] at hi
  rw [ofFn_get, if_pos ⟨hi, hj, trivial⟩]
  simp

/-- The layer fits rows of length `d`: its lengths come from the constructor, its weights have the sizes the
constructor gave them, and its filters have a common even length. -/
structure LayerFits (l : WaveletLayer R) (d : Nat) (mode : String) : Prop where
  taps : 2 ≤ l.wavelet.len ∧ l.wavelet.len % 2 = 0
  filters : l.wavelet.decHi.length = l.wavelet.len ∧ l.wavelet.recLo.length = l.wavelet.len ∧
    l.wavelet.recHi.length = l.wavelet.len
  notPeriodization : mode ≠ "periodization"
  lens : getCoefficientLengths d l.scales l.wavelet.len mode = .ok l.lens
  b : l.weights.b.length = d
  g : l.weights.g.length = l.lens.sum
  s : l.weights.s.length = d

/-- **C77.** A layer that has just been constructed fits rows of the given length. -/
theorem c77_init [Zero R] [One R] (d S : Nat) (w : Wavelet R) (mode : String) (md : Meta) (σ : Nat → Nat)
    (l : WaveletLayer R) (hF : 2 ≤ w.len ∧ w.len % 2 = 0)
    (hf : w.decHi.length = w.len ∧ w.recLo.length = w.len ∧ w.recHi.length = w.len)
    (hp : mode ≠ "periodization") (h : layerInit d w S mode md σ = .ok l) :
    LayerFits l d mode ∧ l.wavelet = w ∧ l.scales = S ∧ l.weights.md = md ∧ l.weights.perm = σ ∧
      (∀ j, j < d → l.weights.b.getD j 0 = 1 ∧ l.weights.s.getD j 0 = 1) ∧
      (∀ j, j < rowWidth w.len d S → l.weights.g.getD j 0 = 1) := by
  unfold layerInit at h
  cases hl : getCoefficientLengths d S w.decLo.length mode with
  | error e => rw [hl] at h; cases h
  | ok lens =>
    rw [hl] at h
    obtain rfl := Except.ok.inj h
    obtain ⟨-, -, h3⟩ := lens_of_ok hF.1 hF.2 hp hl
    refine ⟨⟨hF, hf, hp, hl, by simp, by simp, by simp⟩, rfl, rfl, rfl, rfl, ?_, ?_⟩
    · intro j hj
      simp [hj]
    · intro j hj
      have : lens.sum = rowWidth w.len d S := by rw [h3, lens_sum]
      simp [this, hj]

/-- **C77.** What the whole layer computes: it raises RuntimeError if a row is too short for the reflection,
or if rows have odd length; otherwise it maps rows to rows of the same length.  The entries are scaled, the
coefficients of the scaled rows are permuted and scaled, and the reconstruction of these is scaled. -/
theorem c77_forward [NonAssocSemiring R] (l : WaveletLayer R) (m : LayerMasks R) (x : Tensor R) (B d : Nat)
    (mode : String) (hfit : LayerFits l d mode) (hx : x.shape = [B, d]) (hmd : x.md = l.weights.md)
    (hdt : x.md.dtype = .float32 ∨ x.md.dtype = .float64) :
    ((∃ s, s < l.scales ∧ ¬ Mode.Admits .reflect l.wavelet.len (levelLen l.wavelet.len d s)) →
      layerForward l m x = .error .runtimeError) ∧
    (d % 2 = 1 → layerForward l m x = .error .runtimeError) ∧
    ((∀ s, s < l.scales → Mode.Admits .reflect l.wavelet.len (levelLen l.wavelet.len d s)) → d % 2 = 0 →
      ∃ y u c q r, layerForward l m x = .ok y ∧ y.md = x.md ∧ y.shape = x.shape ∧
        u.shape = x.shape ∧ u.md = x.md ∧ layerDecompose l.wavelet l.scales l.lens u = .ok c ∧
        q.md = c.md ∧ RowPacked .reflect l.wavelet l.scales u c ∧ q.shape = c.shape ∧
        layerReconstruct l.wavelet l.scales l.lens q = .ok r ∧ r.shape = x.shape ∧
        ∀ b, b < B →
          (∀ j, j < d → u.get [b, j] = x.get [b, j] * (m.b j j * l.weights.b.getD j 0)) ∧
          (∀ j, j < rowWidth l.wavelet.len d l.scales → q.get [b, j] =
            (∑ i ∈ Finset.range (rowWidth l.wavelet.len d l.scales),
              if l.weights.perm i = j then c.get [b, i] else 0) * (m.g j j * l.weights.g.getD j 0)) ∧
          (∀ j, j < d → y.get [b, j] = r.get [b, j] * (m.s j j * l.weights.s.getD j 0))) := by
  obtain ⟨hF, hf, hp, hl, hb, hg, hs⟩ := hfit
  obtain ⟨hS, hd1, hlens⟩ := lens_of_ok hF.1 hF.2 hp hl
  have hsum : l.lens.sum = rowWidth l.wavelet.len d l.scales := by
    conv_lhs => rw [hlens]
    exact lens_sum
  obtain ⟨u, eu, hum, hus, hug⟩ := diag_ok (mask := m.b) hx hb hmd
  obtain ⟨c1, c2⟩ := c77_decompose l.wavelet u B d l.scales mode l.lens hF.1 hF.2 hf.1 hp hl hus
    (by rw [hum]; exact hdt)
  have hbad : (∃ s, s < l.scales ∧ ¬ Mode.Admits .reflect l.wavelet.len (levelLen l.wavelet.len d s)) →
      layerForward l m x = .error .runtimeError := by
    intro h
    unfold layerForward
    simp only [bind, Except.bind, eu, c1 h]
  have hgood : (∀ s, s < l.scales → Mode.Admits .reflect l.wavelet.len (levelLen l.wavelet.len d s)) →
      ∃ c q r, layerForward l m x = mmDropoutDiagonal l.weights.md l.weights.s m.s r ∧
        layerDecompose l.wavelet l.scales l.lens u = .ok c ∧ q.md = c.md ∧ RowPacked .reflect l.wavelet l.scales u c ∧ q.shape = c.shape ∧
        layerReconstruct l.wavelet l.scales l.lens q = .ok r ∧ r.shape = [B, d + d % 2] ∧ r.md = x.md ∧
        ∀ b, b < B → ∀ j, j < rowWidth l.wavelet.len d l.scales → q.get [b, j] =
            (∑ i ∈ Finset.range (rowWidth l.wavelet.len d l.scales),
              if l.weights.perm i = j then c.get [b, i] else 0) * (m.g j j * l.weights.g.getD j 0) := by
    intro h
    obtain ⟨c, ec, hpk⟩ := c2 h
    have hcs : c.shape = [B, rowWidth l.wavelet.len d l.scales] := by
      rw [hpk.shape, hus]; rfl
    have hcm : c.md = x.md := hpk.md.trans hum
    obtain ⟨p, ep, hpm, hps, hpg⟩ := perm_ok (md := l.weights.md) (σ := l.weights.perm) hcs (hcm.trans hmd)
    obtain ⟨q, eq, hqm, hqs, hqg⟩ := diag_ok (mask := m.g) (md := l.weights.md) (ones := l.weights.g) hps
      (by rw [hg, hsum]) (hpm.trans (hcm.trans hmd))
    have hqx : q.md = x.md := hqm.trans (hpm.trans hcm)
    obtain ⟨r, er, hrm, hrs⟩ := layerReconstruct_ok (w := l.wavelet) hF.1 hF.2 hf.2.1 hf.2.2 hd1 hS hlens hqs
      (by rw [hqx]; exact hdt)
    refine ⟨c, q, r, ?_, ec, hqm.trans hpm, hpk, by rw [hqs, hcs], er, hrs, hrm.trans hqx, ?_⟩
    · unfold layerForward
      simp only [bind, Except.bind, eu, ec]
      rw [hg, hsum, ep]
      simp only [eq, er]
    · intro b hb j hj
      rw [hqg b j hb hj, hpg b j hb hj]
  refine ⟨hbad, ?_, ?_⟩
  · intro hodd
    by_cases h : ∀ s, s < l.scales → Mode.Admits .reflect l.wavelet.len (levelLen l.wavelet.len d s)
    · obtain ⟨c, q, r, e, -, -, -, -, -, hrs, -⟩ := hgood h
      rw [e]
      unfold mmDropoutDiagonal
      exact mm_clash hrs rfl (by omega)
    · push Not at h
      exact hbad h
  · intro h heven
    obtain ⟨c, q, r, e, ec, hqm, hpk, hqs, er, hrs, hrm, hq⟩ := hgood h
    rw [heven, Nat.add_zero] at hrs
    obtain ⟨y, ey, hym, hys, hyg⟩ := diag_ok (mask := m.s) (md := l.weights.md) (ones := l.weights.s) hrs hs
      (hrm.trans hmd)
    refine ⟨y, u, c, q, r, e.trans ey, hym.trans hrm, by rw [hys, hx], by rw [hus, hx], hum, ec, hqm, hpk, hqs, er,
      by rw [hrs, hx], ?_⟩
    intro b hb
    exact ⟨fun j hj => hug b j hb hj, hq b hb, fun j hj => hyg b j hb hj⟩

/-- **C77.** With one scale, unit weights, the identical permutation and no dropout (evaluation mode), the
layer returns its argument, for every perfect reconstruction bank. -/
theorem c77_identity [Field R] [CharZero R] (w : Wavelet R) (F B d : Nat) (mode : String) (md : Meta)
    (l : WaveletLayer R) (m : LayerMasks R) (x : Tensor R) (hw : PRBank w F) (hF : 2 ≤ F) (he : F % 2 = 0)
    (hp : mode ≠ "periodization") (hl : layerInit d w 1 mode md id = .ok l)
    (hm : ∀ j, m.b j j = 1 ∧ m.g j j = 1 ∧ m.s j j = 1) (hx : x.shape = [B, d]) (hmd : x.md = md)
    (hdt : md.dtype = .float32 ∨ md.dtype = .float64) (hd : d % 2 = 0)
    (hadm : Mode.Admits .reflect F d) : layerForward l m x = .ok x := by
  have hFw : w.len = F := hw.len.1
  obtain ⟨hfit, rfl, hsc, rfl, hperm, hbs, hg⟩ := c77_init d 1 w mode md id l ⟨by omega, by omega⟩
    ⟨by rw [hFw]; exact hw.len.2.1, by rw [hFw]; exact hw.len.2.2.1, by rw [hFw]; exact hw.len.2.2.2⟩ hp hl
  obtain ⟨-, -, h3⟩ := c77_forward l m x B d mode hfit hx hmd (by rw [hmd]; exact hdt)
  obtain ⟨y, u, c, q, r, ey, hym, hys, hus, hum, ec, hqm, hpk, hqs, er, hrs, hval⟩ := h3 (by
    rw [hsc, hFw]
    intro s hs
    obtain rfl : s = 0 := by omega
    exact hadm) hd
  have hlen := hfit.lens
  rw [hsc, hFw] at hlen
  rw [hsc] at hval ec er hpk
  have hux : u = x := by
    refine Tensor.ext' hum hus ?_
    intro i hi
    rw [hus, hx] at hi
    match i, hi with
    | [b, j], hi =>
      rw [(hval b hi.1).1 j hi.2.1, (hm j).1, (hbs j hi.2.1).1, one_mul, mul_one]
  rw [hux] at ec hpk
  have hqc : q = c := by
    refine Tensor.ext' hqm hqs ?_
    intro i hi
    rw [hqs, hpk.shape, hx] at hi
    match i, hi with
    | [b, j], hi =>
      have hj : j < rowWidth l.wavelet.len d 1 := hi.2.1
      rw [(hval b hi.1).2.1 j hj, (hm j).2.1, hg j hj, one_mul, mul_one, hperm]
      rw [Finset.sum_eq_single j]
      · exact if_pos rfl
      · intro i _ hne
        exact if_neg hne
      · intro h
        exact absurd (Finset.mem_range.mpr hj) h
  rw [hqc] at er
  have hrx : r = x := by
    have := c77_one_scale l.wavelet x c F B d mode l.lens hw hF he hp hlen hx (by rw [hmd]; exact hdt) hd ec
    rw [er] at this
    exact Except.ok.inj this
  rw [ey]
  congr 1
  refine Tensor.ext' hym hys ?_
  intro i hi
  rw [hys, hx] at hi
  match i, hi with
  | [b, j], hi =>
    rw [(hval b hi.1).2.2 j hi.2.1, (hm j).2.2, (hbs j hi.2.1).2, one_mul, mul_one, hrx]

theorem lin_mm [CommSemiring R] {c : R} {x y z : Tensor R} (h : Lin c x y z) (a : Tensor R) :
    Three (Lin c) (mm x a) (mm y a) (mm z a) := by
  refine h.elim (motive := fun x y z => Three (Lin c) (mm x a) (mm y a) (mm z a)) ?_
  intro md s f g k _ _ _ e
  unfold mm
  simp only
  split
  · refine Three.ite _ (.ok (Lin.ofFn _ _ fun i => ?_)) (.err _)
    rw [Finset.mul_sum, ← Finset.sum_add_distrib]
    refine Finset.sum_congr rfl fun j _ => ?_
    show k _ * _ = c * (f _ * _) + g _ * _
    rw [e]; ring
  · exact .err _

theorem lin_catLast [CommSemiring R] {c : R} {xs ys zs : List (Tensor R)} (h : Forall₃ (Lin c) xs ys zs) :
    Three (Lin c) (catLast xs) (catLast ys) (catLast zs) := by
  induction h with
  | nil => exact .err _
  | cons h1 h2 ih =>
    cases h2 with
    | nil => exact .ok h1
    | cons h3 h4 =>
      unfold catLast
      refine Three.bind ih fun a b d hr => ?_
      rw [h1.rank.1, h1.rank.2]
      exact h1.cat2 hr _

theorem lin_segments [CommSemiring R] {c : R} {x y z : Tensor R} (h : Lin c x y z) (lens : List Nat) :
    ∀ (k s start : Nat), Three (Forall₃ (Lin c)) (layerSegments lens x k s start)
      (layerSegments lens y k s start) (layerSegments lens z k s start)
  | 0, _, _ => .ok .nil
  | k + 1, s, start => by
    unfold layerSegments
    refine Three.bind Three.pure_eq ?_
    rintro n n1 n2 ⟨h1, h2⟩
    rw [h1, h2]
    refine Three.bind Three.pure_eq ?_
    rintro nx n3 n4 ⟨h1, h2⟩
    rw [h1, h2]
    refine Three.bind (lin_segments h lens k (s + 1) nx) fun a b d hr => ?_
    rw [h.rank.1, h.rank.2]
    exact .ok (.cons (h.slice _ _ _) hr)

theorem map_size_lin [CommSemiring R] {c : R} {xs ys zs : List (Tensor R)} (h : Forall₃ (Lin c) xs ys zs) :
    ys.map (fun t => t.sizeFromEnd 1) = xs.map (fun t => t.sizeFromEnd 1) ∧
      zs.map (fun t => t.sizeFromEnd 1) = xs.map (fun t => t.sizeFromEnd 1) := by
  induction h with
  | nil => exact ⟨rfl, rfl⟩
  | cons h1 _ ih => simp [ih.1, ih.2, (h1.sizeFromEnd 1).1, (h1.sizeFromEnd 1).2]

/-- **C77.** For fixed weights and dropout masks the layer is linear in its input, and whether it raises
depends on shape, dtype and device only. -/
theorem c77_linear [CommSemiring R] (l : WaveletLayer R) (m : LayerMasks R) (a : R) (x y z : Tensor R)
    (h : Lin a x y z) : Three (Lin a) (layerForward l m x) (layerForward l m y) (layerForward l m z) := by
  unfold layerForward
  refine Three.bind (lin_mm h _) fun _ _ _ h => ?_
  refine Three.bind (P := Lin a) ?_ fun _ _ _ h => ?_
  · unfold layerDecompose
    refine Three.bind h.unsqueeze1 fun _ _ _ h => ?_
    refine Three.bind (lin_wavedec h _ _ _ _) fun xs ys zs h => ?_
    refine Three.bind (lin_catLast h) fun _ _ _ hc => ?_
    rw [(map_size_lin h).1, (map_size_lin h).2]
    exact Three.ite _ (.ok hc.squeeze1) (.err _)
  refine Three.bind (lin_mm h _) fun _ _ _ h => ?_
  refine Three.bind (lin_mm h _) fun _ _ _ h => ?_
  refine Three.bind (P := Lin a) ?_ fun _ _ _ h => lin_mm h _
  unfold layerReconstruct
  exact Three.bind (lin_segments h _ _ _ _) fun _ _ _ h => lin_waverec h _ _


/-! ### The hypotheses are met -/

/-- A batch of three rows of length eight. -/
def layerX : Tensor ℚ := ofFn ⟨.float32, 0⟩ [3, 8] fun i => i.getD 0 0 + 2 * i.getD 1 0

theorem layer_lens : getCoefficientLengths 8 2 2 "zero" = .ok [4, 2, 2] := by decide

theorem layer_lens1 : getCoefficientLengths 8 1 2 "zero" = .ok [4, 4] := by decide

theorem layer_admits : ∀ s, s < 2 → Mode.Admits .reflect 2 (levelLen 2 8 s) := by
  intro s hs
  have : s = 0 ∨ s = 1 := by omega
  rcases this with rfl | rfl
  · show 2 - 2 + 8 % 2 < 8; decide
  · show 2 - 2 + 4 % 2 < 4; decide

example : ∃ c, layerDecompose haar 2 [4, 2, 2] layerX = .ok c ∧ c.shape = [3, 8] := by
  obtain ⟨c, ec, h⟩ := (c77_decompose haar layerX 3 8 2 "zero" [4, 2, 2] le_rfl rfl rfl (by decide) layer_lens rfl
    (Or.inl rfl)).2 layer_admits
  exact ⟨c, ec, h.shape.trans (by decide)⟩

-- a row of length one cannot be reflected
example : layerDecompose haar 1 [1, 1] (ofFn ⟨.float32, 0⟩ [3, 1] fun _ => (1 : ℚ)) = .error .runtimeError :=
  (c77_decompose haar _ 3 1 1 "zero" [1, 1] le_rfl rfl rfl (by decide) (by decide) rfl (Or.inl rfl)).1
    ⟨0, by decide, by show ¬ (2 - 2 + 1 % 2 < 1); decide⟩

example : layerDecompose lazy4 1 [4, 4] layerX = .error .assertionError :=
  c77_periodization lazy4 layerX 3 8 1 [4, 4] le_rfl rfl (by decide) rfl (Or.inl rfl) (by
    intro s hs
    obtain rfl : s = 0 := by omega
    show 4 - 2 + 8 % 2 < 8; decide)

/-- A row of eight coefficients. -/
def layerQ : Tensor ℚ := ofFn ⟨.float32, 0⟩ [1, 8] fun i => i.getD 1 0

/-- The same row with other numbers in the last two columns. -/
def layerQ' : Tensor ℚ := ofFn ⟨.float32, 0⟩ [1, 8] fun i => if i.getD 1 0 < 6 then i.getD 1 0 else 100

-- the last two columns are not read
example : layerReconstruct haar 2 [4, 2, 2] layerQ = layerReconstruct haar 2 [4, 2, 2] layerQ' := by
  have hw : rowWidth 2 8 2 = 8 := by decide
  have h1 : layerQ.shape = [1, rowWidth 2 8 2] := by rw [hw]; rfl
  have h2 : layerQ'.shape = [1, rowWidth 2 8 2] := by rw [hw]; rfl
  refine (c77_unread haar layerQ layerQ' 1 8 2 2 "zero" [4, 2, 2] le_rfl rfl le_rfl (by decide) layer_lens h1 h2
    rfl ?_).2
  intro b j hb hj
  have hj' : j + 2 < 8 := by rw [hw] at hj; exact hj
  unfold layerQ layerQ'
  rw [ofFn_get, ofFn_get, if_pos ⟨hb, by omega, trivial⟩, if_pos ⟨hb, by omega, trivial⟩]
  rw [if_pos (show ([b, j] : List Nat).getD 1 0 < 6 by show j < 6; omega)]

example : ∃ x y c c' : Tensor ℚ, x ≠ y ∧ x.shape = [3, 8] ∧ y.shape = [3, 8] ∧
    x.md = ⟨.float32, 0⟩ ∧ y.md = ⟨.float32, 0⟩ ∧
    layerDecompose haar 2 [4, 2, 2] x = .ok c ∧ layerDecompose haar 2 [4, 2, 2] y = .ok c' ∧
    layerReconstruct haar 2 [4, 2, 2] c = layerReconstruct haar 2 [4, 2, 2] c' :=
  c77_not_injective haar (1/2) (1/2) 3 8 2 ⟨.float32, 0⟩ "zero" [4, 2, 2] rfl rfl (Or.inl (by norm_num)) (by decide)
    layer_lens (Or.inl rfl) (by decide) le_rfl rfl (by
      intro s hs
      have : s = 0 ∨ s = 1 := by omega
      rcases this with rfl | rfl <;> decide)

example : ∃ l, layerInit 8 haar 1 "zero" ⟨.float32, 0⟩ id = .ok l ∧
    layerForward l ⟨fun _ _ => 1, fun _ _ => 1, fun _ _ => 1⟩ layerX = .ok layerX := by
  have h : layerInit 8 haar 1 "zero" ⟨.float32, 0⟩ id = .ok ⟨haar, 1, [4, 4], ⟨⟨.float32, 0⟩,
      List.replicate 8 1, List.replicate 8 1, List.replicate 8 1, id⟩⟩ := by
    unfold layerInit
    rw [show haar.decLo.length = 2 from rfl, layer_lens1]
    rfl
  exact ⟨_, h, c77_identity haar 2 3 8 "zero" ⟨.float32, 0⟩ _ _ layerX haar_pr le_rfl rfl (by decide) h
    (fun _ => ⟨rfl, rfl, rfl⟩) rfl rfl (Or.inl rfl) rfl (show 2 - 2 + 8 % 2 < 8 by decide)⟩

-- two scales and a reversing permutation
example : ∃ l y, layerInit 8 haar 2 "zero" ⟨.float32, 0⟩ (fun i => 7 - i) = .ok l ∧
    layerForward l ⟨fun _ _ => 2, fun _ _ => 0, fun _ _ => 1⟩ layerX = .ok y ∧ y.shape = [3, 8] := by
  have h : layerInit 8 haar 2 "zero" ⟨.float32, 0⟩ (fun i => 7 - i) = .ok ⟨haar, 2, [4, 2, 2], ⟨⟨.float32, 0⟩,
      List.replicate 8 1, List.replicate 8 1, List.replicate 8 1, fun i => 7 - i⟩⟩ := by
    unfold layerInit
    rw [show haar.decLo.length = 2 from rfl, layer_lens]
    rfl
  obtain ⟨hfit, -⟩ := c77_init 8 2 haar "zero" _ _ _ ⟨le_rfl, rfl⟩ ⟨rfl, rfl, rfl⟩ (by decide) h
  obtain ⟨y, u, c, q, r, ey, -, hys, -⟩ := (c77_forward _ ⟨fun _ _ => 2, fun _ _ => 0, fun _ _ => 1⟩ layerX 3 8 "zero"
    hfit rfl rfl (Or.inl rfl)).2.2 layer_admits rfl
  refine ⟨_, y, h, ey, ?_⟩
  rw [hys]; rfl

end Verif.Props
