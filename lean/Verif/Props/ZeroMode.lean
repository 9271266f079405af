/-
C80: in `zero` mode the transform is that of the signal continued by zeros to all integers; so zeros appended to a signal and
delays do what they do for infinite signals.
-/
import Verif.Spec.ZeroMode
import Verif.Props.Conv1

namespace Verif
open Tensor Spec
variable {R : Type} [NonUnitalNonAssocSemiring R]

theorem ext_zero_in {n : Nat} (v : Nat → R) {k : ℤ} (h : 0 ≤ k ∧ k < n) : ext .zero n v k = v k.toNat := by
  unfold ext
  rw [show extIdx .zero n k = some k.toNat from if_pos h]

theorem ext_zero_out {n : Nat} (v : Nat → R) {k : ℤ} (h : ¬ (0 ≤ k ∧ k < n)) : ext .zero n v k = 0 := by
  unfold ext
  rw [show extIdx .zero n k = none from if_neg h]

/-- All nonzero outputs of an analysis step are kept. -/
theorem ext_dwtStep {F n : Nat} (he : F % 2 = 0) (hF : 2 ≤ F) {h : List R} (hl : h.length = F) (v : Nat → R) (k : ℤ) :
    ext .zero (outLen F n) (dwtStep .zero h n v) k = analysisZ h (ext .zero n v) k := by
  by_cases hk : 0 ≤ k ∧ k < outLen F n
  · rw [ext_zero_in _ hk]
    unfold dwtStep analysis analysisZ
    rw [Int.toNat_of_nonneg hk.1]
  · rw [ext_zero_out _ hk]
    unfold analysisZ
    symm
    refine Finset.sum_eq_zero fun j hj => ?_
    rw [Finset.mem_range, hl] at hj
    rw [ext_zero_out, mul_zero]
    unfold outLen at hk
    omega

theorem ext_cA {w : Wavelet R} {n : Nat} (he : w.len % 2 = 0) (hF : 2 ≤ w.len) (v : Nat → R) :
    ∀ s, ext .zero (levelLen w.len n s) (cA .zero w n v s) = approxZ w (ext .zero n v) s
  | 0 => rfl
  | s + 1 => by
    funext k
    show ext .zero (outLen w.len (levelLen w.len n s)) (dwtStep .zero w.decLo (levelLen w.len n s) (cA .zero w n v s)) k = _
    rw [ext_dwtStep he hF rfl, ext_cA he hF v s]
    rfl

theorem ext_cD {w : Wavelet R} {n : Nat} (he : w.len % 2 = 0) (hF : 2 ≤ w.len) (hhi : w.decHi.length = w.len) (v : Nat → R)
    (s : Nat) : ext .zero (levelLen w.len n (s + 1)) (cD .zero w n v s) = detailZ w (ext .zero n v) s := by
  funext k
  show ext .zero (outLen w.len (levelLen w.len n s)) (dwtStep .zero w.decHi (levelLen w.len n s) (cA .zero w n v s)) k = _
  rw [ext_dwtStep he hF hhi, ext_cA he hF v s]
  rfl

theorem ext_line (t : Tensor R) (a : Nat) (idx : List Nat) : ext .zero (t.shape.getD a 0) (line t a idx) = lineZ t a idx := by
  funext j
  unfold lineZ
  by_cases h : 0 ≤ j ∧ j < t.shape.getD a 0
  · rw [ext_zero_in _ h, if_pos h]; rfl
  · rw [ext_zero_out _ h, if_neg h]

/-! ### Delays -/

theorem analysisZ_delay (h : List R) {e e' : ℤ → R} {δ : ℤ} (he : ∀ j, e' j = e (j - 2 * δ)) (k : ℤ) :
    analysisZ h e' k = analysisZ h e (k - δ) := by
  unfold analysisZ
  refine Finset.sum_congr rfl fun j _ => ?_
  rw [he]
  congr 2
  ring

theorem approxZ_delay (w : Wavelet R) {e e' : ℤ → R} {L : Nat} {d : ℤ} (he : ∀ j, e' j = e (j - 2 ^ L * d)) :
    ∀ s, s ≤ L → ∀ k, approxZ w e' s k = approxZ w e s (k - 2 ^ (L - s) * d)
  | 0, _, k => he k
  | s + 1, hs, k => by
    refine analysisZ_delay _ (δ := 2 ^ (L - (s + 1)) * d) (fun j => ?_) k
    rw [approxZ_delay w he s (by omega) j]
    congr 2
    rw [show L - s = (L - (s + 1)) + 1 by omega, pow_succ]
    ring

theorem detailZ_delay (w : Wavelet R) {e e' : ℤ → R} {L : Nat} {d : ℤ} (he : ∀ j, e' j = e (j - 2 ^ L * d)) {s : Nat}
    (hs : s < L) (k : ℤ) : detailZ w e' s k = detailZ w e s (k - 2 ^ (L - (s + 1)) * d) := by
  refine analysisZ_delay _ (δ := 2 ^ (L - (s + 1)) * d) (fun j => ?_) k
  rw [approxZ_delay w he s (by omega) j]
  congr 2
  rw [show L - s = (L - (s + 1)) + 1 by omega, pow_succ]
  ring

theorem levelLen_room {F : Nat} (hF : 2 ≤ F) {n n' d : Nat} : ∀ {L : Nat}, n + 2 ^ L * d ≤ n' → ∀ s, s ≤ L →
    levelLen F n s + 2 ^ (L - s) * d ≤ levelLen F n' s
  | L, h, 0, _ => h
  | L, h, s + 1, hs => by
    have ih := levelLen_room hF h s (by omega)
    have e : 2 ^ (L - s) * d = 2 * (2 ^ (L - (s + 1)) * d) := by
      rw [show L - s = (L - (s + 1)) + 1 by omega, pow_succ]
      ring
    rw [e] at ih
    show outLen F (levelLen F n s) + _ ≤ outLen F (levelLen F n' s)
    unfold outLen
    omega

/-- From lines to tensors. -/
theorem laterBy_of {a K K' δ D : Nat} {x y t t' : Tensor R} (ha : a < x.shape.length) (hxy : LaterBy a δ x y)
    {f f' : (Nat → R) → Nat → R} {g : (ℤ → R) → ℤ → R} (ht : AlongAxis a K f x t) (ht' : AlongAxis a K' f' y t')
    (hf : ∀ idx, ext .zero K (f (line x a idx)) = g (lineZ x a idx))
    (hf' : ∀ idx, ext .zero K' (f' (line y a idx)) = g (lineZ y a idx))
    (hg : ∀ e e' : ℤ → R, (∀ j, e' j = e (j - δ)) → ∀ k, g e' k = g e (k - D)) (hroom : K + D ≤ K') : LaterBy a D t t' := by
  have hys : y.shape.length = x.shape.length := by rw [hxy.shape]; simp
  have hay : a < y.shape.length := by omega
  have hts : t.shape.getD a 0 = K := by rw [ht.shape]; simp [List.getD, ha]
  have hts' : t'.shape.getD a 0 = K' := by rw [ht'.shape]; simp [List.getD, hay]
  refine ⟨by rw [ht'.md, ht.md, hxy.md], ?_, by rw [hts, hts']; exact hroom, fun idx hidx => ?_⟩
  · rw [hts', ht.shape, ht'.shape]
    conv_lhs => rw [hxy.shape]
    simp
  · have hi : InB (y.shape.set a K') idx := by rw [← ht'.shape]; exact hidx
    have hk : idx.getD a 0 < K' := by
      have := hidx.getD_lt (d := a) (by rw [ht'.shape]; simpa using hay)
      rwa [hts'] at this
    have hline : ∀ j, lineZ y a idx j = lineZ x a idx (j - δ) := by
      intro j
      unfold lineZ
      have hroom := hxy.room
      by_cases hj : 0 ≤ j ∧ j < y.shape.getD a 0
      · rw [if_pos hj]
        have hb : InB y.shape (idx.set a j.toNat) := (inB_set_iff hay hi).mpr (by omega)
        have hlen : a < idx.length := by rw [hi.length_eq]; simpa using hay
        rw [hxy.get _ hb]
        have e1 : (idx.set a j.toNat).getD a 0 = j.toNat := by simp [List.getD, hlen]
        rw [e1]
        by_cases h2 : δ ≤ j.toNat ∧ j.toNat < x.shape.getD a 0 + δ
        · rw [if_pos h2, if_pos (by omega), List.set_set]
          congr 2
          omega
        · rw [if_neg h2, if_neg (by omega)]
      · rw [if_neg hj, if_neg (by omega)]
    have e1 : t'.get idx = g (lineZ x a idx) ((idx.getD a 0 : ℤ) - D) := by
      rw [ht'.get idx hidx, ← hg _ _ hline, ← hf', ext_zero_in _ (by omega)]
      simp
    rw [e1, hts, ← hf]
    by_cases h2 : D ≤ idx.getD a 0 ∧ idx.getD a 0 < K + D
    · rw [if_pos h2, ext_zero_in _ (by omega)]
      have hlen : a < idx.length := by rw [hi.length_eq]; simpa using hay
      have hb : InB t.shape (idx.set a (idx.getD a 0 - D)) := by
        rw [ht.shape]
        have : InB (x.shape.set a K') idx := by
          rw [hxy.shape] at hi
          simpa using hi
        have h3 := (inB_set_iff (s := x.shape.set a K) (idx := idx) (a := a) (x := K') (j := idx.getD a 0 - D)
          (by simpa using ha) (by simpa using this)).mpr (by rw [getD_set_self ha]; omega)
        exact h3
      rw [ht.get _ hb]
      have e2 : (idx.set a (idx.getD a 0 - D)).getD a 0 = idx.getD a 0 - D := by simp [List.getD, hlen]
      rw [e2]
      have e3 : line x a (idx.set a (idx.getD a 0 - D)) = line x a idx := by
        funext j
        unfold line
        rw [List.set_set]
      rw [e3]
      congr 1
      omega
    · rw [if_neg h2, ext_zero_out _ (by omega)]

namespace Props

/-- **C80.** In `zero` mode `wavedec` computes the transform of the signal continued by zeros to all integers: every
coefficient is the one of the infinite signal, and the coefficients of the infinite signal that are not returned are zero. -/
theorem c80_zero_mode (x : Tensor R) (w : Wavelet R) (level : Option Int) (axis : AxisHint) (cs : List (Tensor R))
    (hF : 2 ≤ w.len) (he : w.len % 2 = 0) (hhi : w.decHi.length = w.len)
    (hcs : wavedec x w (some "zero") level axis = .ok cs) {a L : Nat} (ha : a = axis1 axis x.rank)
    (hL : L = levels level w.len (x.shape.getD a 0)) :
    cs.length = L + 1 ∧
    (∀ t, cs[0]? = some t → ∀ idx, (InB t.shape idx → t.get idx = approxZ w (lineZ x a idx) L (idx.getD a 0)) ∧
      ∀ k : ℤ, k < 0 ∨ t.shape.getD a 0 ≤ k → approxZ w (lineZ x a idx) L k = 0) ∧
    ∀ s t, s < L → cs[L - s]? = some t → ∀ idx, (InB t.shape idx → t.get idx = detailZ w (lineZ x a idx) s (idx.getD a 0)) ∧
      ∀ k : ℤ, k < 0 ∨ t.shape.getD a 0 ≤ k → detailZ w (lineZ x a idx) s k = 0 := by
  subst ha hL
  obtain ⟨h1, h2⟩ := wavedec_char (mode := some "zero") (x := x) (level := level) (h := axis) hF hhi
  have hg : GoodAxes axis x.rank 1 ∧ isDtypeSupported x.md.dtype = true := by
    by_contra hg
    obtain ⟨e, he⟩ := h1 hg
    rw [he] at hcs; cases hcs
  have hax : axis1 axis x.rank < x.shape.length := axis1_lt hg.1
  obtain ⟨-, h4, h5, -⟩ := h2 hg.1 hg.2
  have hm : Selects (some "zero") .zero := Or.inl rfl
  have hd : IsDwt .zero w (axis1 axis x.rank) (levels level w.len (x.shape.getD (axis1 axis x.rank) 0)) x cs := by
    by_cases hadm : ∀ s, s < levels level w.len (x.shape.getD (axis1 axis x.rank) 0) →
        Mode.zero.Admits w.len (levelLen w.len (x.shape.getD (axis1 axis x.rank) 0) s)
    · obtain ⟨cs', e, hd⟩ := h4 .zero hm hadm
      rw [e] at hcs; cases hcs
      exact hd
    · push Not at hadm
      rw [h5 .zero hm hadm] at hcs; cases hcs
  have key : ∀ {K : Nat} {f : (Nat → R) → Nat → R} {g : (ℤ → R) → ℤ → R} {t : Tensor R},
      AlongAxis (axis1 axis x.rank) K f x t →
      (∀ idx, ext .zero K (f (line x (axis1 axis x.rank) idx)) = g (lineZ x (axis1 axis x.rank) idx)) → ∀ idx,
      (InB t.shape idx → t.get idx = g (lineZ x (axis1 axis x.rank) idx) (idx.getD (axis1 axis x.rank) 0)) ∧
      ∀ k : ℤ, k < 0 ∨ t.shape.getD (axis1 axis x.rank) 0 ≤ k → g (lineZ x (axis1 axis x.rank) idx) k = 0 := by
    intro K f g t ht hf idx
    have hts : t.shape.getD (axis1 axis x.rank) 0 = K := by rw [ht.shape]; simp [List.getD, hax]
    refine ⟨fun hidx => ?_, fun k hk => ?_⟩
    · have hk := hidx.getD_lt (d := axis1 axis x.rank) (by rw [ht.shape]; simpa using hax)
      rw [hts] at hk
      rw [ht.get idx hidx, ← hf, ext_zero_in _ (by omega)]
      simp
    · rw [← hf, ext_zero_out _ (by omega)]
  refine ⟨hd.length, fun t ht => ?_, fun s t hs ht => ?_⟩
  · exact key (g := fun e => approxZ w e _) (hd.approx t ht) fun idx => by rw [ext_cA he hF, ext_line]
  · exact key (g := fun e => detailZ w e s) (hd.detail s t hs ht) fun idx => by rw [ext_cD he hF hhi, ext_line]

/-- **C80.** Delays and appended zeros in `zero` mode: let `y` be `x` with `2^L d` zeros in front and any number of zeros behind
(`d = 0`: zeros are only appended).  If `L` levels of `x` can be computed then those of `y` can, and its coefficients are those
of `x` with `2^(L-s) d` zeros in front at level `s`, and zeros behind. -/
theorem c80_delay (x y : Tensor R) (w : Wavelet R) (L d : Nat) (axis : AxisHint) (cs : List (Tensor R))
    (hF : 2 ≤ w.len) (he : w.len % 2 = 0) (hhi : w.decHi.length = w.len)
    (hxy : LaterBy (axis1 axis x.rank) (2 ^ L * d) x y)
    (hcs : wavedec x w (some "zero") (some L) axis = .ok cs) :
    ∃ cs', wavedec y w (some "zero") (some L) axis = .ok cs' ∧ cs'.length = cs.length ∧
      ∀ q t t', cs[q]? = some t → cs'[q]? = some t' → LaterBy (axis1 axis x.rank) (2 ^ (q - 1) * d) t t' := by
  obtain ⟨h1, h2⟩ := wavedec_char (mode := some "zero") (x := x) (level := some L) (h := axis) hF hhi
  have hg : GoodAxes axis x.rank 1 ∧ isDtypeSupported x.md.dtype = true := by
    by_contra hg
    obtain ⟨e, he⟩ := h1 hg
    rw [he] at hcs; cases hcs
  have hrk : y.rank = x.rank := by
    unfold Tensor.rank
    rw [hxy.shape]; simp
  obtain ⟨-, k2⟩ := wavedec_char (mode := some "zero") (x := y) (level := some L) (h := axis) hF hhi
  obtain ⟨-, h4, h5, -⟩ := h2 hg.1 hg.2
  obtain ⟨-, k4, -⟩ := k2 (by rw [hrk]; exact hg.1) (by rw [hxy.md]; exact hg.2)
  rw [hrk] at k4
  have hax : axis1 axis x.rank < x.shape.length := axis1_lt hg.1
  generalize axis1 axis x.rank = a at *
  have hl : ∀ n, levels (some (L : Int)) w.len n = L := fun n => rfl
  rw [hl] at h4 h5
  rw [hl] at k4
  have hm : Selects (some "zero") .zero := Or.inl rfl
  have hadm : ∀ s, s < L → Mode.zero.Admits w.len (levelLen w.len (x.shape.getD a 0) s) := by
    by_contra hadm
    push Not at hadm
    rw [h5 .zero hm hadm] at hcs; cases hcs
  obtain ⟨cs0, e, hd⟩ := h4 .zero hm hadm
  rw [e] at hcs; cases hcs
  have hroom := hxy.room
  obtain ⟨cs', e', hd'⟩ := k4 .zero hm fun s hs => by
    have h6 := hadm s hs
    have h7 := levelLen_room hF hroom s (by omega)
    simp only [Mode.Admits] at h6 ⊢
    omega
  refine ⟨cs', e', by rw [hd.length, hd'.length], fun q t t' hq hq' => ?_⟩
  have hz : ∀ (idx : List Nat) (e e' : ℤ → R), (∀ j, e' j = e (j - ((2 ^ L * d : Nat) : ℤ))) →
      ∀ j, e' j = e (j - 2 ^ L * (d : ℤ)) := fun _ e e' h j => by rw [h j]; push_cast; rfl
  match q, hq, hq' with
  | 0, hq, hq' =>
    have hr := levelLen_room hF hroom L le_rfl
    rw [Nat.sub_self] at hr
    refine laterBy_of (g := fun e => approxZ w e L) hax hxy (hd.approx t hq) (hd'.approx t' hq')
      (fun idx => by rw [ext_cA he hF, ext_line]) (fun idx => by rw [ext_cA he hF, ext_line]) (fun e e' h k => ?_) hr
    show approxZ w e' L k = approxZ w e L _
    rw [approxZ_delay w (hz [] e e' h) L le_rfl k]
    simp
  | q + 1, hq, hq' =>
    have hlt : q + 1 < cs.length := (List.getElem?_eq_some_iff.mp hq).1
    rw [hd.length] at hlt
    obtain ⟨s, hs, rfl⟩ : ∃ s, s < L ∧ q = L - (s + 1) := ⟨L - (q + 1), by omega, by omega⟩
    rw [show L - (s + 1) + 1 = L - s by omega] at hq hq'
    have hr := levelLen_room hF hroom (s + 1) (by omega)
    refine laterBy_of (g := fun e => detailZ w e s) hax hxy (hd.detail s t hs hq) (hd'.detail s t' hs hq')
      (fun idx => by rw [ext_cD he hF hhi, ext_line]) (fun idx => by rw [ext_cD he hF hhi, ext_line]) (fun e e' h k => ?_) hr
    show detailZ w e' s k = detailZ w e s _
    rw [detailZ_delay w (hz [] e e' h) hs k]
    simp

/-- Every tensor can be delayed and continued by zeros. -/
theorem laterBy_exists (x : Tensor R) {a δ n : Nat} (ha : a < x.shape.length) (hn : x.shape.getD a 0 + δ ≤ n) :
    ∃ y, LaterBy a δ x y ∧ y.shape = x.shape.set a n := by
  refine ⟨ofFn x.md (x.shape.set a n) fun idx =>
    if δ ≤ idx.getD a 0 ∧ idx.getD a 0 < x.shape.getD a 0 + δ then x.get (idx.set a (idx.getD a 0 - δ)) else 0,
    ⟨rfl, ?_, ?_, fun idx hidx => ofFn_get_of _ _ hidx⟩, rfl⟩
  · rw [ofFn_shape, getD_set_self ha]
  · rw [ofFn_shape, getD_set_self ha]
    exact hn

/-- A case: two levels of the Haar transform of a batch of signals of odd length along the second axis from the end; the
signals are delayed by eight samples and continued by zeros to length 20. -/
example : ∃ cs y cs', wavedec exX haar (some "zero") (some 2) (.int (-2)) = .ok cs ∧ LaterBy (axis1 (.int (-2)) exX.rank) 8 exX y ∧
    wavedec y haar (some "zero") (some 2) (.int (-2)) = .ok cs' ∧ cs'.length = cs.length ∧
    ∀ q t t', cs[q]? = some t → cs'[q]? = some t' → LaterBy (axis1 (.int (-2)) exX.rank) (2 ^ (q - 1) * 2) t t' := by
  have ha : axis1 (.int (-2)) exX.rank < exX.shape.length := axis1_lt exX_axes
  obtain ⟨cs, hcs⟩ := c04_total_modes exX haar (some "zero") .zero (some 2) (.int (-2)) (Or.inl rfl) (by decide) rfl exX_axes
    (by decide) (by decide) (Or.inl rfl)
  obtain ⟨y, hy, -⟩ := laterBy_exists exX (δ := 2 ^ 2 * 2) (n := 20) ha (by decide)
  obtain ⟨cs', h1, h2, h3⟩ := c80_delay exX y haar 2 2 (.int (-2)) cs (by decide) rfl rfl hy hcs
  exact ⟨cs, y, cs', hcs, hy, h1, h2, h3⟩

end Props
end Verif
