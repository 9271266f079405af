/-
C45: the losses of learnable filter banks.
-/
import Verif.Lemmas.Losses
import Verif.Lemmas.OrthPR
import Verif.Props.Conv1

namespace Verif.Props
open Verif Tensor Spec Polynomial
variable {R : Type}

/-- The bank holds four filters of length `F` with the same dtype and device. -/
def AreFilters [Zero R] (md : Meta) (F : Nat) (b : FilterTensors R) : Prop :=
  IsFilter md F b.decLo ∧ IsFilter md F b.decHi ∧ IsFilter md F b.recLo ∧ IsFilter md F b.recHi

/-- The filter bank (the taps) held by the four tensors; what `filter_bank` hands to the transforms. -/
def bankOf [Zero R] (F : Nat) (b : FilterTensors R) : Wavelet R :=
  ⟨taps F b.decLo, taps F b.decHi, taps F b.recLo, taps F b.recHi⟩

theorem bankOf_len [Zero R] (F : Nat) (b : FilterTensors R) : HasLen (bankOf F b) F :=
  ⟨taps_length _ _, taps_length _ _, taps_length _ _, taps_length _ _⟩

section
variable [Field R] [LinearOrder R] [IsStrictOrderedRing R]

/-- The polynomial equation behind a residual tensor. -/
theorem residual_zero {md : Meta} {F : Nat} (hF : 1 ≤ F) (P Q : R[X]) (hP : ∀ m, 2 * F - 1 ≤ m → P.coeff m = 0)
    (hQ : ∀ m, 2 * F - 1 ≤ m → Q.coeff m = 0) (t : Tensor R) (hs : t.shape = [1, 1, 2 * F - 1])
    (hg : ∀ m, m < 2 * F - 1 → t.get [0, 0, m] = P.coeff m - Q.coeff m) : sumSq t = 0 ↔ P = Q := by
  rw [sumSq_zero, hs]
  constructor
  · intro h
    ext m
    by_cases hm : m < 2 * F - 1
    · have := h [0, 0, m] ⟨by omega, by omega, hm, trivial⟩
      rw [hg m hm] at this
      exact sub_eq_zero.1 this
    · rw [hP m (by omega), hQ m (by omega)]
  · intro h i hi
    match i, hi with
    | [p, q, m], hi =>
      have h0 : p = 0 := by have := hi.1; omega
      have h1 : q = 0 := by have := hi.2.1; omega
      subst h0; subst h1
      rw [hg m hi.2.2.1, h, sub_self]

theorem polyMul_ok' {md : Meta} {F : Nat} {a b : Tensor R} (ha : IsFilter md F a)
    (hb : IsFilter md F b) (hF : 1 ≤ F) : ∃ t, polyMul a b (F - 1) = .ok t ∧ t.md = md ∧
      t.shape = [1, 1, 2 * F - 1] ∧
      ∀ m, m < 2 * F - 1 → t.get [0, 0, m] = (poly (taps F a) * poly (taps F b)).coeff m := by
  rw [polyMul_ok ha hb hF]
  refine ⟨_, rfl, rfl, rfl, fun m hm => ?_⟩
  rw [ofFn_get_of _ _ (by exact ⟨by omega, by omega, hm, trivial⟩)]
  rfl

theorem reconstructionLoss_spec {md : Meta} {F : Nat} {b : FilterTensors R} (hb : AreFilters md F b)
    (hF : 1 ≤ F) : ∃ l p q, reconstructionLoss b = .ok (l, p, q) ∧ 0 ≤ l ∧
      (l = 0 ↔ NoDistortion (bankOf F b) F) := by
  obtain ⟨h1, h2, h3, h4⟩ := hb
  unfold reconstructionLoss
  have s1 : b.decLo.shape.getD 0 0 = F := by rw [h1.2]; rfl
  have s2 : b.decHi.shape.getD 0 0 = F := by rw [h2.2]; rfl
  obtain ⟨tl, el, ml, sl, gl⟩ := polyMul_ok' h1 h3 hF
  obtain ⟨th, eh, mh, sh, gh⟩ := polyMul_ok' h2 h4 hF
  rw [s1, s2, el, eh]
  simp only [bind, Except.bind, pure, Except.pure]
  rw [broadcast2_same _ (ml.trans mh.symm) (sl.trans sh.symm)]
  simp only
  rw [broadcast2_same _ (by rfl) (by rfl)]
  simp only
  refine ⟨_, _, _, rfl, sumSq_nonneg _, ?_⟩
  have key := residual_zero (md := md) hF
    (poly (taps F b.decLo) * poly (taps F b.recLo) + poly (taps F b.decHi) * poly (taps F b.recHi))
    (C 2 * X ^ (F - 1))
    (fun m hm => by
      rw [coeff_add, poly_mul_coeff_ge _ _ (taps_length _ _) (taps_length _ _) hF hm,
        poly_mul_coeff_ge _ _ (taps_length _ _) (taps_length _ _) hF hm, add_zero])
    (fun m hm => by rw [coeff_C_mul, coeff_X_pow, if_neg (by omega), mul_zero])
  apply key
  · exact sl
  · intro m hm
    have hin : InB [1, 1, 2 * F - 1] [0, 0, m] := ⟨by omega, by omega, hm, trivial⟩
    simp only [ofFn_shape, ofFn_md, sl]
    rw [ofFn_get_of _ _ hin, ofFn_get_of _ _ hin, ofFn_get_of _ _ hin, gl m hm, gh m hm]
    simp only [List.getD_cons_succ, List.getD_cons_zero]
    rw [coeff_add, coeff_C_mul, coeff_X_pow]
    congr 1
    by_cases hmF : m = F - 1
    · rw [if_pos (by omega), if_pos hmF, mul_one]
    · rw [if_neg (by omega), if_neg hmF, mul_zero]

theorem aliasLoss_spec {md : Meta} {F : Nat} {b : FilterTensors R} (hb : AreFilters md F b)
    (hF : 1 ≤ F) : ∃ l p q, aliasLoss b = .ok (l, p, q) ∧ 0 ≤ l ∧ (l = 0 ↔ AliasFree (bankOf F b)) := by
  obtain ⟨h1, h2, h3, h4⟩ := hb
  unfold aliasLoss
  have s1 : b.decLo.shape.getD 0 0 = F := by rw [h1.2]; rfl
  have s2 : b.decHi.shape.getD 0 0 = F := by rw [h2.2]; rfl
  obtain ⟨lo, e1, f1, g1⟩ := masked_poly h1 hF
  obtain ⟨hi, e2, f2, g2⟩ := masked_poly h2 hF
  rw [s1, s2, h1.1]
  simp only [bind, Except.bind, pure, Except.pure, e1, e2]
  obtain ⟨tl, el, ml, sl, gl⟩ := polyMul_ok' f1 h3 hF
  obtain ⟨th, eh, mh, sh, gh⟩ := polyMul_ok' f2 h4 hF
  rw [el, eh]
  simp only
  rw [broadcast2_same _ (ml.trans mh.symm) (sl.trans sh.symm)]
  simp only
  rw [broadcast2_same _ (by rfl) (by rfl)]
  simp only
  refine ⟨_, _, _, rfl, sumSq_nonneg _, ?_⟩
  have key := residual_zero (md := md) hF
    (poly (taps F lo) * poly (taps F b.recLo) + poly (taps F hi) * poly (taps F b.recHi)) 0
    (fun m hm => by
      rw [coeff_add, poly_mul_coeff_ge _ _ (taps_length _ _) (taps_length _ _) hF hm,
        poly_mul_coeff_ge _ _ (taps_length _ _) (taps_length _ _) hF hm, add_zero])
    (fun m hm => coeff_zero m)
  rw [key _ (by exact sl)]
  · rw [g1, g2]
    unfold AliasFree bankOf
    simp only
    rw [mul_assoc, mul_assoc, ← mul_add]
    have hu : (C ((-1 : R) ^ (F - 1)) : R[X]) ≠ 0 := by
      rw [ne_eq, C_eq_zero]
      exact pow_ne_zero _ (neg_ne_zero.2 one_ne_zero)
    constructor
    · intro h
      exact (mul_eq_zero.1 h).resolve_left hu
    · intro h
      rw [h, mul_zero]
  · intro m hm
    have hin : InB [1, 1, 2 * F - 1] [0, 0, m] := ⟨by omega, by omega, hm, trivial⟩
    simp only [ofFn_shape, ofFn_md, sl]
    rw [ofFn_get_of _ _ hin, ofFn_get_of _ _ hin, ofFn_get_of _ _ hin, gl m hm, gh m hm]
    rw [coeff_add, coeff_zero]

theorem productFilterLoss_spec {md : Meta} {F : Nat} {b : FilterTensors R} (hb : AreFilters md F b)
    (hF : 1 ≤ F) : ∃ l, productFilterLoss b = .ok l ∧ 0 ≤ l ∧ (l = 0 ↔ PRBank (bankOf F b) F) := by
  obtain ⟨l1, p1, q1, e1, n1, z1⟩ := reconstructionLoss_spec hb hF
  obtain ⟨l2, p2, q2, e2, n2, z2⟩ := aliasLoss_spec hb hF
  refine ⟨l1 + l2, ?_, add_nonneg n1 n2, ?_⟩
  · unfold productFilterLoss
    simp only [bind, Except.bind, pure, Except.pure, e1, e2]
  · rw [add_eq_zero_iff_of_nonneg n1 n2, z1, z2]
    exact ⟨fun h => ⟨bankOf_len F b, h.1, h.2⟩, fun h => ⟨h.noDistortion, h.aliasFree⟩⟩

theorem flip_filter {md : Meta} {F : Nat} {t : Tensor R} (h : IsFilter md F t) :
    IsFilter md F (t.flip 0) ∧ ∀ i, i < F → (t.flip 0).get [i] = t.get [F - 1 - i] := by
  refine ⟨⟨h.1, h.2⟩, fun i hi => ?_⟩
  unfold Tensor.flip
  rw [ofFn_get_of _ _ (by rw [h.2]; simpa using hi)]
  simp [h.2]

theorem difference_zero {md : Meta} {F : Nat} {s t : Tensor R} (hs : IsFilter md F s) (ht : IsFilter md F t)
    (f : R → R → R) : ∃ e, broadcast2 f s t = .ok e ∧ e.shape = [F] ∧ e.md = md ∧ 0 ≤ sumSq e ∧
      (∀ i, i < F → e.get [i] = f (s.get [i]) (t.get [i])) ∧
      (sumSq e = 0 ↔ ∀ i, i < F → f (s.get [i]) (t.get [i]) = 0) := by
  rw [broadcast2_same _ (hs.1.trans ht.1.symm) (hs.2.trans ht.2.symm)]
  have hg : ∀ i, i < F → (ofFn s.md s.shape fun i => f (s.get i) (t.get i)).get [i]
      = f (s.get [i]) (t.get [i]) := by
    intro i hi
    rw [ofFn_get_of _ _ (by rw [hs.2]; simpa using hi)]
  refine ⟨_, rfl, hs.2, hs.1, sumSq_nonneg _, hg, ?_⟩
  rw [sumSq_zero]
  simp only [ofFn_shape, hs.2]
  constructor
  · intro h i hi
    rw [← hg i hi, hs.2]
    exact h [i] ⟨hi, trivial⟩
  · intro h i hi
    match i, hi with
    | [i], hi =>
      have := hg i hi.1
      rw [hs.2] at this
      rw [this, h i hi.1]

theorem taps_reverse_iff {md : Meta} {F : Nat} {s t : Tensor R} (ht : IsFilter md F t)
    (hs : IsFilter md F s) : taps F t = (taps F s).reverse ↔ ∀ i, i < F → s.get [i] - (t.flip 0).get [i] = 0 := by
  obtain ⟨-, hf⟩ := flip_filter ht
  constructor
  · intro h i hi
    rw [hf i hi]
    have h1 := congrArg (fun l => l.getD (F - 1 - i) 0) h
    beta_reduce at h1
    rw [taps_getD ht] at h1
    rw [h1, List.getD_eq_getElem?_getD, List.getElem?_reverse (by rw [taps_length]; omega), taps_length,
      ← List.getD_eq_getElem?_getD, taps_getD hs, show F - 1 - (F - 1 - i) = i by omega, sub_self]
  · intro h
    apply List.ext_getElem?
    intro i
    by_cases hi : i < F
    · rw [List.getElem?_reverse (by rw [taps_length]; omega), taps_length]
      have h1 := h (F - 1 - i) (by omega)
      rw [hf _ (by omega), show F - 1 - (F - 1 - i) = i by omega] at h1
      unfold taps
      rw [List.getElem?_map, List.getElem?_map, List.getElem?_range hi,
        List.getElem?_range (show F - 1 - i < F by omega)]
      simp only [Option.map_some, Option.some.injEq]
      exact (sub_eq_zero.1 h1).symm
    · rw [List.getElem?_eq_none (by rw [taps_length]; omega),
        List.getElem?_eq_none (by rw [List.length_reverse, taps_length]; omega)]

theorem filtBankOrthogonalityLoss_spec {md : Meta} {F : Nat} {b : FilterTensors R} (hb : AreFilters md F b) :
    ∃ l, filtBankOrthogonalityLoss b = .ok l ∧ 0 ≤ l ∧
      (l = 0 ↔ (bankOf F b).recLo = (bankOf F b).decLo.reverse ∧
        (bankOf F b).recHi = (bankOf F b).decHi.reverse) := by
  obtain ⟨h1, h2, h3, h4⟩ := hb
  obtain ⟨e0, q0, -, -, n0, -, z0⟩ := difference_zero h1 (flip_filter h3).1 (· - ·)
  obtain ⟨e1, q1, -, -, n1, -, z1⟩ := difference_zero h2 (flip_filter h4).1 (· - ·)
  refine ⟨sumSq e0 + sumSq e1, ?_, add_nonneg n0 n1, ?_⟩
  · unfold filtBankOrthogonalityLoss
    simp only [bind, Except.bind, pure, Except.pure, q0, q1]
  · rw [add_eq_zero_iff_of_nonneg n0 n1, z0, z1]
    unfold bankOf
    simp only
    rw [taps_reverse_iff h3 h1, taps_reverse_iff h4 h2]

/-! ### C45 -/

/-- The perfect-reconstruction loss, the alias-cancellation loss, their sum (`product_filter_loss`), the
orthogonality loss and the sum of all (`SoftOrthogonalWavelet.wavelet_loss`) are defined and non-negative
for every bank of four filters of one length. -/
theorem c45_losses_nonneg (md : Meta) (F : Nat) (b : FilterTensors R) (hb : AreFilters md F b) (hF : 1 ≤ F) :
    (∃ r, reconstructionLoss b = .ok r ∧ 0 ≤ r.1) ∧ (∃ r, aliasLoss b = .ok r ∧ 0 ≤ r.1) ∧
    (∃ r, pfAliasLoss b = .ok r ∧ 0 ≤ r.1) ∧
    (∃ l, productFilterLoss b = .ok l ∧ 0 ≤ l) ∧ (∃ l, filtBankOrthogonalityLoss b = .ok l ∧ 0 ≤ l) ∧
    (∃ l, softWaveletLoss b = .ok l ∧ 0 ≤ l) := by
  obtain ⟨l1, p1, q1, e1, n1, -⟩ := reconstructionLoss_spec hb hF
  obtain ⟨l2, p2, q2, e2, n2, -⟩ := aliasLoss_spec hb hF
  obtain ⟨l3, e3, n3, -⟩ := productFilterLoss_spec hb hF
  obtain ⟨l4, e4, n4, -⟩ := filtBankOrthogonalityLoss_spec hb
  refine ⟨⟨_, e1, n1⟩, ⟨_, e2, n2⟩, ?_, ⟨_, e3, n3⟩, ⟨_, e4, n4⟩, ⟨l3 + l4, ?_, add_nonneg n3 n4⟩⟩
  · obtain ⟨h1, h2, h3, h4⟩ := hb
    have hm : IsFilter md F (signMask (R := R) md F) := ⟨rfl, rfl⟩
    obtain ⟨p, ep, ps, pm, -, -, -⟩ := difference_zero hm h2 (· * ·)
    obtain ⟨q, eq, qs, qm, -, -, -⟩ := difference_zero hm h1 (fun m x => -1 * m * x)
    obtain ⟨r, er, -, -, nr, -, -⟩ := difference_zero h3 (⟨pm, ps⟩ : IsFilter md F p) (· - ·)
    obtain ⟨s, es, -, -, ns, -, -⟩ := difference_zero h4 (⟨qm, qs⟩ : IsFilter md F q) (· - ·)
    have s1 : b.decLo.shape.getD 0 0 = F := by rw [h1.2]; rfl
    refine ⟨(sumSq r + sumSq s, r, s), ?_, add_nonneg nr ns⟩
    unfold pfAliasLoss
    rw [s1, h1.1]
    simp only [bind, Except.bind, pure, Except.pure, ep, eq, er, es]
  · unfold softWaveletLoss
    simp only [bind, Except.bind, pure, Except.pure, e3, e4]

/-- `product_filter_loss()` vanishes iff the bank has perfect reconstruction. -/
theorem c45_zero_iff_pr (md : Meta) (F : Nat) (b : FilterTensors R) (hb : AreFilters md F b) (hF : 1 ≤ F)
    (l : R) (hl : productFilterLoss b = .ok l) : l = 0 ↔ PRBank (bankOf F b) F := by
  obtain ⟨l', e, -, z⟩ := productFilterLoss_spec hb hF
  rw [hl] at e
  cases e
  exact z

/-- With a bank of even length and zero `product_filter_loss()`, `waverec` undoes `wavedec`: for every
input, axis, mode and level for which `wavedec` succeeds. -/
theorem c45_zero_loss_reconstructs (md : Meta) (F : Nat) (b : FilterTensors R) (hb : AreFilters md F b)
    (hF : 2 ≤ F) (he : F % 2 = 0) (hl : productFilterLoss b = .ok 0) (x : Tensor R) (mode : Option String)
    (level : Option Int) (axis : AxisHint) (cs : List (Tensor R))
    (hcs : wavedec x (bankOf F b) mode level axis = .ok cs) :
    ∃ z, waverec cs (bankOf F b) axis = .ok z ∧ z.md = x.md ∧
      (x.shape.getD (axis1 axis x.rank) 0 % 2 = 0 → z = x) ∧
      ∀ idx, InB x.shape idx → z.get idx = x.get idx := by
  have hw := (c45_zero_iff_pr md F b hb (by omega) 0 hl).1 rfl
  obtain ⟨z, h1, h2, -, h3, -, h4⟩ := c01_perfect_reconstruction x (bankOf F b) F mode level axis cs hw hF he hcs
  exact ⟨z, h1, h2, h3, h4⟩

/-- The loss of the soft orthogonal wavelet vanishes iff the bank is orthogonal: the double shifts of the
analysis filters are orthonormal and the synthesis filters are the reversed analysis filters. -/
theorem c45_soft_zero_iff_orthogonal (md : Meta) (F : Nat) (b : FilterTensors R) (hb : AreFilters md F b)
    (hF : 2 ≤ F) (he : F % 2 = 0) (l : R) (hl : softWaveletLoss b = .ok l) :
    l = 0 ↔ OrthBank (bankOf F b) F := by
  obtain ⟨l1, e1, n1, z1⟩ := productFilterLoss_spec hb (by omega : 1 ≤ F)
  obtain ⟨l2, e2, n2, z2⟩ := filtBankOrthogonalityLoss_spec hb
  unfold softWaveletLoss at hl
  simp only [bind, Except.bind, pure, Except.pure, e1, e2] at hl
  cases hl
  rw [add_eq_zero_iff_of_nonneg n1 n2, z1, z2]
  constructor
  · rintro ⟨hp, hlo, hhi⟩
    obtain ⟨a1, a2, a3⟩ := (orth_iff (bankOf_len F b) hF he hlo hhi).1 ⟨hp.noDistortion, hp.aliasFree⟩
    exact ⟨bankOf_len F b, hF, he, a1, a2, a3, hlo, hhi⟩
  · intro h
    obtain ⟨a1, a2⟩ := (orth_iff (bankOf_len F b) hF he h.recLo h.recHi).2 ⟨h.lo_lo, h.hi_hi, h.lo_hi⟩
    exact ⟨⟨bankOf_len F b, a1, a2⟩, h.recLo, h.recHi⟩

/-- `pf_alias_cancellation_loss()` vanishes iff `F₀(z) = H₁(-z)` and `F₁(z) = -H₀(-z)`, up to the common sign
of the reversed mask; then the alias cancellation loss vanishes as well. -/
theorem c45_pf_alias (md : Meta) (F : Nat) (b : FilterTensors R) (hb : AreFilters md F b) (hF : 1 ≤ F)
    (l : R) (e1 e2 : Tensor R) (hl : pfAliasLoss b = .ok (l, e1, e2)) :
    (l = 0 ↔ ∀ n, n < F → b.recLo.get [n] = (-1) ^ (F - 1 - n) * b.decHi.get [n] ∧
      b.recHi.get [n] = -((-1) ^ (F - 1 - n) * b.decLo.get [n])) ∧
    (l = 0 → ∃ p q, aliasLoss b = .ok (0, p, q)) := by
  have hb' := hb
  obtain ⟨h1, h2, h3, h4⟩ := hb
  have hm : IsFilter md F (signMask (R := R) md F) := ⟨rfl, rfl⟩
  have hmg : ∀ i, i < F → (signMask (R := R) md F).get [i] = (-1) ^ (F - 1 - i) := by
    intro i hi
    unfold signMask
    rw [ofFn_get_of _ _ (by exact ⟨hi, trivial⟩)]
    rfl
  obtain ⟨p, ep, ps, pm, -, pg, -⟩ := difference_zero hm h2 (· * ·)
  obtain ⟨q, eq, qs, qm, -, qg, -⟩ := difference_zero hm h1 (fun m x => -1 * m * x)
  obtain ⟨r, er, -, -, nr, -, zr⟩ := difference_zero h3 (⟨pm, ps⟩ : IsFilter md F p) (· - ·)
  obtain ⟨s, es, -, -, ns, -, zs⟩ := difference_zero h4 (⟨qm, qs⟩ : IsFilter md F q) (· - ·)
  have s1 : b.decLo.shape.getD 0 0 = F := by rw [h1.2]; rfl
  unfold pfAliasLoss at hl
  rw [s1, h1.1] at hl
  simp only [bind, Except.bind, pure, Except.pure, ep, eq, er, es, Except.ok.injEq, Prod.mk.injEq] at hl
  obtain ⟨rfl, -, -⟩ := hl
  have key : sumSq r + sumSq s = 0 ↔ ∀ n, n < F → b.recLo.get [n] = (-1) ^ (F - 1 - n) * b.decHi.get [n] ∧
      b.recHi.get [n] = -((-1) ^ (F - 1 - n) * b.decLo.get [n]) := by
    rw [add_eq_zero_iff_of_nonneg nr ns, zr, zs]
    constructor
    · rintro ⟨ha, hc⟩ n hn
      have a1 := sub_eq_zero.1 (ha n hn)
      have a2 := sub_eq_zero.1 (hc n hn)
      rw [pg n hn, hmg n hn] at a1
      rw [qg n hn, hmg n hn] at a2
      exact ⟨a1, by rw [a2]; ring⟩
    · intro h
      refine ⟨fun n hn => ?_, fun n hn => ?_⟩
      · rw [pg n hn, hmg n hn, (h n hn).1, sub_self]
      · rw [qg n hn, hmg n hn, (h n hn).2]; ring
  refine ⟨key, fun h0 => ?_⟩
  have h := key.1 h0
  obtain ⟨l', p', q', e', n', z'⟩ := aliasLoss_spec hb' hF
  have : l' = 0 := by
    rw [z']
    have g : ∀ u v : Tensor R, IsFilter md F u → IsFilter md F v → ∀ c : R,
        (∀ n, n < F → u.get [n] = c * ((-1) ^ (F - 1 - n) * v.get [n])) →
        poly (taps F u) = C (c * (-1) ^ (F - 1)) * (poly (taps F v)).comp (-X) := by
      intro u v hu hv c huv
      ext n
      rw [coeff_C_mul, comp_neg_X_coeff', poly_coeff, poly_coeff, taps_getD hu, taps_getD hv]
      by_cases hn : n < F
      · rw [huv n hn]
        have e3 : (-1 : R) ^ (F - 1) = (-1) ^ (F - 1 - n) * (-1) ^ n := by
          rw [← pow_add]; congr 1; omega
        have e4 : (-1 : R) ^ n * (-1) ^ n = 1 := by rw [← mul_pow]; simp
        rw [e3]
        calc c * ((-1) ^ (F - 1 - n) * v.get [n])
            = c * ((-1) ^ (F - 1 - n) * v.get [n]) * ((-1 : R) ^ n * (-1) ^ n) := by rw [e4, mul_one]
          _ = _ := by ring
      · rw [u.supp _ (by rw [hu.2]; simpa using hn), v.supp _ (by rw [hv.2]; simpa using hn)]
        ring
    have a1 := g b.recLo b.decHi h3 h2 1 (fun n hn => by rw [one_mul]; exact (h n hn).1)
    have a2 := g b.recHi b.decLo h4 h1 (-1) (fun n hn => by rw [(h n hn).2]; ring)
    unfold AliasFree bankOf
    simp only
    rw [a1, a2]
    have : (C (-1 * (-1 : R) ^ (F - 1)) : R[X]) = -C (1 * (-1 : R) ^ (F - 1)) := by
      rw [← C_neg]; congr 1; ring
    rw [this]
    ring
  rw [this] at e'
  exact ⟨p', q', e'⟩

/-- `rec_lo_orthogonality_loss()` of a single- or double-precision bank vanishes iff the low-pass analysis
filter is orthonormal to its double shifts. -/
theorem c45_lowpass_orthogonality (md : Meta) (F : Nat) (b : FilterTensors R) (hb : AreFilters md F b)
    (hF : 1 ≤ F) (hd : md.dtype = .float32 ∨ md.dtype = .float64) :
    ∃ l, recLoOrthogonalityLoss b = .ok l ∧ 0 ≤ l ∧
      (l = 0 ↔ ∀ m : ℤ, (∑ k ∈ Finset.range F,
        tap (taps F b.decLo) k * tap (taps F b.decLo) (k + 2 * m)) = if m = 0 then 1 else 0) := by
  obtain ⟨h1, -, -, -⟩ := hb
  set h := b.decLo with hh
  have s1 : h.shape.getD 0 0 = F := by rw [h1.2]; rfl
  have hmd : ({ md with dtype := promote32 md.dtype } : Meta) = md := by
    obtain ⟨d, v⟩ := md
    simp only at hd
    rcases hd with rfl | rfl <;> rfl
  have hP : ∀ (t : Tensor R) (n : Nat), t.shape = [n] → t.unsqueeze0.unsqueeze0.shape = [1, 1, n] ∧
      t.unsqueeze0.unsqueeze0.md = t.md ∧ ∀ j, j < n → t.unsqueeze0.unsqueeze0.get [0, 0, j] = t.get [j] := by
    intro t n ht
    refine ⟨by simp [unsqueeze0, ht], rfl, fun j hj => ?_⟩
    unfold unsqueeze0
    rw [ofFn_get_of _ _ (by simp [ht, hj])]
    simp only [List.tail_cons]
    rw [ofFn_get_of _ _ (by simp [ht, hj])]
    rfl
  obtain ⟨c1, c2, c3⟩ := hP h F h1.2
  have hcorr : ∀ z : ℕ, (∑ j ∈ Finset.range F, h.get [j] * h.get [z + j]) = corr F (taps F h) (taps F h) z := by
    intro z
    unfold corr
    refine Finset.sum_congr rfl fun j _ => ?_
    have : (j : ℤ) + (z : ℤ) = ((z + j : ℕ) : ℤ) := by push_cast; ring
    rw [this, tap_nat, tap_nat, taps_getD h1, taps_getD h1]
  have hres : ∃ res, conv1d (ofFn { h.md with dtype := promote32 h.md.dtype } [F + F]
      fun i => h.get i).unsqueeze0.unsqueeze0 h.unsqueeze0.unsqueeze0 2 1 = .ok res ∧
      res.shape = [1, 1, F / 2 + 1] ∧
      ∀ k, k < F / 2 + 1 → res.get [0, 0, k] = corr F (taps F h) (taps F h) ((2 * k : ℕ) : ℤ) := by
    obtain ⟨d1, d2, d3⟩ := hP (ofFn { h.md with dtype := promote32 h.md.dtype } [F + F] fun i => h.get i)
      (F + F) rfl
    generalize hp : (ofFn { h.md with dtype := promote32 h.md.dtype } [F + F] fun i => h.get i) = pd at *
    have hpg : ∀ j, j < F + F → pd.get [j] = h.get [j] := by
      intro j hj
      rw [← hp, ofFn_get_of _ _ (by exact ⟨hj, trivial⟩)]
    have hpm : pd.md = h.md := by
      rw [← hp, ofFn_md, h1.1, hmd]
    unfold conv1d
    rw [d1, c1]
    simp only
    rw [if_pos ⟨trivial, by rw [d2, c2, hpm], hF, by omega, by omega⟩]
    have hlen : (F + F - 1 * (F - 1) - 1) / 2 + 1 = F / 2 + 1 := by
      congr 2; omega
    rw [hlen]
    refine ⟨_, rfl, rfl, fun k hk => ?_⟩
    rw [ofFn_get_of _ _ (by exact ⟨by omega, by omega, hk, trivial⟩)]
    simp only [Finset.sum_range_one]
    rw [← hcorr]
    refine Finset.sum_congr rfl fun j hj => ?_
    have hj := Finset.mem_range.1 hj
    rw [c3 j hj, one_mul, d3 _ (by omega), hpg _ (by omega)]
  obtain ⟨res, e1, e2, e3⟩ := hres
  refine ⟨sumSq (ofFn res.md res.shape fun i => res.get i -
    (ofFn res.md res.shape fun i => if i.getD 2 0 = 0 then 1 else 0).get i), ?_, sumSq_nonneg _, ?_⟩
  · unfold recLoOrthogonalityLoss
    rw [← hh, s1]
    simp only [bind, Except.bind, pure, Except.pure, e1]
    rw [broadcast2_same _ (by rfl) (by rfl)]
  · rw [sumSq_zero]
    simp only [ofFn_shape, e2]
    have hget : ∀ k, k < F / 2 + 1 → (ofFn res.md [1, 1, F / 2 + 1] fun i => res.get i -
        (ofFn res.md [1, 1, F / 2 + 1] fun i => if i.getD 2 0 = 0 then 1 else 0).get i).get [0, 0, k]
        = corr F (taps F h) (taps F h) ((2 * k : ℕ) : ℤ) - if k = 0 then 1 else 0 := by
      intro k hk
      have hin : InB [1, 1, F / 2 + 1] [0, 0, k] := ⟨by omega, by omega, hk, trivial⟩
      rw [ofFn_get_of _ _ hin, ofFn_get_of _ _ hin, e3 k hk]
      rfl
    constructor
    · intro H
      have pos : ∀ k : ℕ, corr F (taps F h) (taps F h) (2 * (k : ℤ)) = if k = 0 then 1 else 0 := by
        intro k
        by_cases hk : k < F / 2 + 1
        · have := H [0, 0, k] ⟨by omega, by omega, hk, trivial⟩
          rw [hget k hk] at this
          have := sub_eq_zero.1 this
          push_cast at this
          exact this
        · rw [corr_zero (taps_length _ _) (by right; omega), if_neg (by omega)]
      intro m
      change corr F (taps F h) (taps F h) (2 * m) = _
      rcases le_total 0 m with hm | hm
      · obtain ⟨k, rfl⟩ := Int.eq_ofNat_of_zero_le hm
        rw [pos k]
        simp
      · obtain ⟨k, hk⟩ := Int.eq_ofNat_of_zero_le (neg_nonneg.2 hm)
        have hmk : m = -(k : ℤ) := by omega
        rw [corr_symm (taps_length _ _) (taps_length _ _), hmk, show -(2 * -(k : ℤ)) = 2 * (k : ℤ) by ring,
          pos k]
        simp
    · intro H i hi
      match i, hi with
      | [p, q, k], hi =>
        have h0 : p = 0 := by have := hi.1; omega
        have h1 : q = 0 := by have := hi.2.1; omega
        subst h0; subst h1
        rw [hget k hi.2.2.1]
        have := H (k : ℤ)
        change corr F (taps F h) (taps F h) (2 * (k : ℤ)) = _ at this
        push_cast
        rw [this]
        simp

/-- For half-precision filters `rec_lo_orthogonality_loss()` raises RuntimeError, because the zeros that are
appended have the default dtype. -/
theorem c45_lowpass_half_precision (md : Meta) (F : Nat) (b : FilterTensors R) (hb : AreFilters md F b)
    (hd : md.dtype = .float16 ∨ md.dtype = .bfloat16) :
    recLoOrthogonalityLoss b = .error .runtimeError := by
  obtain ⟨h1, -, -, -⟩ := hb
  have s1 : b.decLo.shape.getD 0 0 = F := by rw [h1.2]; rfl
  have hmd : ({ md with dtype := promote32 md.dtype } : Meta) ≠ md := by
    obtain ⟨d, v⟩ := md
    simp only at hd
    rcases hd with rfl | rfl <;> simp [promote32]
  unfold recLoOrthogonalityLoss
  rw [s1, h1.1]
  simp only [bind, Except.bind]
  unfold conv1d
  have e1 : (ofFn { md with dtype := promote32 md.dtype } [F + F]
      fun i => b.decLo.get i).unsqueeze0.unsqueeze0.shape = [1, 1, F + F] := rfl
  have e2 : b.decLo.unsqueeze0.unsqueeze0.shape = [1, 1, F] := by simp [unsqueeze0, h1.2]
  rw [e1, e2]
  simp only
  rw [if_neg]
  rintro ⟨-, h, -⟩
  apply hmd
  have : b.decLo.unsqueeze0.unsqueeze0.md = md := h1.1
  rw [this] at h
  exact h

/-- Filters of different lengths (none of them a single tap, which torch would broadcast) are rejected with a
RuntimeError: by `pf_alias_cancellation_loss` and `alias_cancellation_loss` — hence by `wavelet_loss` — when the
two analysis filters differ in length, and by `filt_bank_orthogonality_loss` when a synthesis filter differs
from its analysis filter. -/
theorem c45_length_mismatch (md : Meta) (F G H K : Nat) (b : FilterTensors R) (h1 : IsFilter md F b.decLo)
    (h2 : IsFilter md G b.decHi) (h3 : IsFilter md H b.recLo) (h4 : IsFilter md K b.recHi)
    (hF : 2 ≤ F) (hG : 2 ≤ G) (hH : 2 ≤ H) (hK : 2 ≤ K) :
    (F ≠ G → pfAliasLoss b = .error .runtimeError ∧ aliasLoss b = .error .runtimeError) ∧
    (F ≠ H ∨ G ≠ K → filtBankOrthogonalityLoss b = .error .runtimeError) := by
  have clash : ∀ {m n : Nat} {u v : Tensor R} (f : R → R → R), IsFilter md m u → IsFilter md n v → 2 ≤ m → 2 ≤ n →
      m ≠ n → broadcast2 f u v = .error .runtimeError := by
    intro m n u v f hu hv hm hn hne
    unfold broadcast2
    rw [hu.2, hv.2, if_neg]
    rintro ⟨-, h, -⟩
    omega
  have hmask : IsFilter md F (signMask (R := R) md F) := ⟨rfl, rfl⟩
  have s1 : b.decLo.shape.getD 0 0 = F := by rw [h1.2]; rfl
  constructor
  · intro hne
    constructor
    · unfold pfAliasLoss
      simp only [s1, h1.1, bind, Except.bind]
      rw [clash _ hmask h2 hF hG hne]
    · unfold aliasLoss
      simp only [s1, h1.1, bind, Except.bind]
      rw [broadcast2_same _ (by rw [h1.1]; rfl) (by rw [h1.2]; rfl)]
      simp only
      have hpoly : ∀ (u v : Tensor R) (n : Nat), (∃ w, polyMul u v n = .ok w) ∨ polyMul u v n = .error .runtimeError := by
        intro u v n
        unfold polyMul padAxis
        simp only [bind, Except.bind]
        unfold conv1d
        split
        · split_ifs
          · exact Or.inl ⟨_, rfl⟩
          · exact Or.inr rfl
        · exact Or.inr rfl
      rcases hpoly (ofFn b.decLo.md b.decLo.shape fun i => b.decLo.get i * (signMask md F).get i) b.recLo (F - 1)
        with ⟨w, hw⟩ | hw
      · rw [hw]
        simp only
        rw [clash _ h2 hmask hG hF (Ne.symm hne)]
      · rw [hw]
  · intro hne
    unfold filtBankOrthogonalityLoss
    have f1 := (flip_filter h3).1
    have f2 := (flip_filter h4).1
    by_cases hFH : F = H
    · subst hFH
      rw [broadcast2_same _ (h1.1.trans f1.1.symm) (h1.2.trans f1.2.symm)]
      simp only [bind, Except.bind]
      rw [clash _ h2 f2 hG hK (by rcases hne with h | h; exacts [absurd rfl h, h])]
    · rw [clash _ h1 f1 hF hH hFH]
      rfl

end

/-! Non-vacuity: an orthogonal bank with two rational taps has zero loss; with one tap changed it has not. -/

/-- A filter of two taps. -/
def twoTaps (a b : ℚ) : Tensor ℚ := ofFn ⟨.float64, 0⟩ [2] fun i => if i.getD 0 0 = 0 then a else b

/-- An orthogonal bank. -/
def exBank : FilterTensors ℚ :=
  ⟨twoTaps (3/5) (4/5), twoTaps (-4/5) (3/5), twoTaps (4/5) (3/5), twoTaps (3/5) (-4/5)⟩

/-- The same with a wrong tap. -/
def exBadBank : FilterTensors ℚ := { exBank with recLo := twoTaps (4/5) (8/5) }

example : AreFilters ⟨.float64, 0⟩ 2 exBank ∧ AreFilters ⟨.float64, 0⟩ 2 exBadBank :=
  ⟨⟨⟨rfl, rfl⟩, ⟨rfl, rfl⟩, ⟨rfl, rfl⟩, ⟨rfl, rfl⟩⟩, ⟨⟨rfl, rfl⟩, ⟨rfl, rfl⟩, ⟨rfl, rfl⟩, ⟨rfl, rfl⟩⟩⟩
example : (productFilterLoss exBank).toOption = some 0 := by decide +kernel
example : (softWaveletLoss exBank).toOption = some 0 := by decide +kernel
example : ((pfAliasLoss exBank).toOption.map Prod.fst) = some 0 := by decide +kernel
example : (recLoOrthogonalityLoss exBank).toOption = some 0 := by decide +kernel
example : (productFilterLoss exBadBank).toOption = some 2 := by decide +kernel

/-- A filter of three taps. -/
def threeTaps (a b c : ℚ) : Tensor ℚ :=
  ofFn ⟨.float64, 0⟩ [3] fun i => if i.getD 0 0 = 0 then a else if i.getD 0 0 = 1 then b else c

example : aliasLoss ⟨twoTaps 1 1, threeTaps 1 (-2) 1, twoTaps 1 1, threeTaps 1 2 1⟩ = .error .runtimeError :=
  ((c45_length_mismatch ⟨.float64, 0⟩ 2 3 2 3 _ ⟨rfl, rfl⟩ ⟨rfl, rfl⟩ ⟨rfl, rfl⟩ ⟨rfl, rfl⟩
    (by decide) (by decide) (by decide) (by decide)).1 (by decide)).2

end Verif.Props
