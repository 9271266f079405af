import Verif.Lemmas.Local
import Verif.Lemmas.Packet2
import Verif.Spec.Swt
import Mathlib.Algebra.Polynomial.Eval.Defs
import Mathlib.Algebra.Polynomial.Degree.Lemmas
import Mathlib.Algebra.Polynomial.BigOperators

/-! Constant and polynomial signals. -/

namespace Verif.Spec
open Finset
variable {R : Type}

/-- The sum of the taps. -/
def tapSum [AddCommMonoid R] (h : List R) : R := ∑ j ∈ range h.length, h.getD j 0

section const
variable [CommSemiring R]

theorem ext_const {m : Mode} (hm : m ≠ .zero) {n : Nat} (hn : 0 < n) {x : Nat → R} {c : R} (hx : ∀ j, j < n → x j = c)
    (i : ℤ) : ext m n x i = c := by
  unfold ext
  cases h : extIdx m n i with
  | some j => exact hx j (extIdx_lt hn h)
  | none =>
    cases m with
    | zero => exact absurd rfl hm
    | constant => simp only [extIdx] at h; split_ifs at h
    | periodic => simp [extIdx] at h
    | symmetric => simp [extIdx] at h
    | reflect => simp only [extIdx] at h; split_ifs at h

theorem dwtN_const {m : Mode} (hm : m ≠ .zero) {c : R} :
    ∀ (fs : List (List R)) (ns ks : List Nat) (X : List Nat → R), ns.length = fs.length → ks.length = fs.length →
      (∀ n ∈ ns, 0 < n) → (∀ js, InB ns js → X js = c) → dwtN m (fs.zip ns) X ks = c * (fs.map tapSum).prod
  | [], ns, ks, X, hn, hk, _, hX => by
    simp only [List.zip_nil_left, dwtN, List.map_nil, List.prod_nil, mul_one]
    cases ns with
    | nil => exact hX [] trivial
    | cons => simp at hn
  | f :: fs, [], ks, X, hn, _, _, _ => by simp at hn
  | f :: fs, n :: ns, [], X, _, hk, _, _ => by simp at hk
  | f :: fs, n :: ns, k :: ks, X, hn, hk, hp, hX => by
    simp only [List.zip_cons_cons, dwtN, List.map_cons, List.prod_cons]
    unfold dwtStep analysis
    have : ∀ j, j < n → dwtN m (fs.zip ns) (fun js => X (j :: js)) ks = c * (fs.map tapSum).prod := fun j hj =>
      dwtN_const hm fs ns ks _ (by simpa using hn) (by simpa using hk) (fun a ha => hp a (by simp [ha]))
        fun js hjs => hX (j :: js) ⟨hj, hjs⟩
    simp only [ext_const hm (hp n (by simp)) this]
    rw [← sum_mul]
    unfold tapSum
    ring

theorem levelLen_pos {F n : Nat} (hF : 2 ≤ F) (hn : 0 < n) (s : Nat) : 0 < levelLen F n s := by
  have := levelLen_ge hF n s
  by_contra h
  have : levelLen F n s = 0 := by omega
  simp_all

theorem levelLens_pos {F : Nat} (hF : 2 ≤ F) {ns : List Nat} (hn : ∀ n ∈ ns, 0 < n) (s : Nat) :
    ∀ n ∈ levelLens F ns s, 0 < n := by
  intro n h
  obtain ⟨a, ha, rfl⟩ := List.mem_map.mp h
  exact levelLen_pos hF (hn a ha) s

theorem cAN_const {m : Mode} (hm : m ≠ .zero) {w : Wavelet R} (hF : 2 ≤ w.len) {ns : List Nat} (hn : ∀ n ∈ ns, 0 < n)
    {X : List Nat → R} {c : R} (hX : ∀ js, InB ns js → X js = c) :
    ∀ s ks, InB (levelLens w.len ns s) ks → cAN m w ns X s ks = c * tapSum w.decLo ^ (ns.length * s)
  | 0, ks, hk => by
    rw [levelLens_zero] at hk
    simp only [Nat.mul_zero, pow_zero, mul_one]
    exact hX ks hk
  | s + 1, ks, hk => by
    show dwtN m ((bandFilt w.decLo w.decHi (lowBand ns.length)).zip (levelLens w.len ns s)) _ ks = _
    rw [dwtN_const hm _ _ ks _ (by simp [bandFilt, lowBand, levelLens])
      (by rw [hk.length_eq]; simp [bandFilt, lowBand, levelLens]) (levelLens_pos hF hn s) (cAN_const hm hF hn hX s)]
    have : (List.map tapSum (bandFilt w.decLo w.decHi (lowBand ns.length))).prod = tapSum w.decLo ^ ns.length := by
      simp [bandFilt, lowBand]
    rw [this, mul_assoc, ← pow_add]
    ring_nf

theorem cDN_const {m : Mode} (hm : m ≠ .zero) {w : Wavelet R} (hF : 2 ≤ w.len) (hz : tapSum w.decHi = 0) {ns : List Nat}
    (hn : ∀ n ∈ ns, 0 < n) {X : List Nat → R} {c : R} (hX : ∀ js, InB ns js → X js = c) {bs : List Bool}
    (hb : true ∈ bs) (hl : bs.length = ns.length) {s : Nat} {ks : List Nat} (hk : ks.length = ns.length) :
    cDN m w ns X s bs ks = 0 := by
  unfold cDN bandN
  rw [dwtN_const hm _ _ ks _ (by simp [bandFilt, levelLens, hl]) (by simp [bandFilt, hl, hk]) (levelLens_pos hF hn s)
    (cAN_const hm hF hn hX s)]
  have : (0 : R) ∈ List.map tapSum (bandFilt w.decLo w.decHi bs) := by
    unfold bandFilt
    rw [List.map_map, List.mem_map]
    exact ⟨true, hb, by simpa using hz⟩
  rw [List.prod_eq_zero this, mul_zero]

end const

section swt
variable [CommSemiring R]

theorem swtStep_const {h : List R} {d n : Nat} (hn : 0 < n) {x : Nat → R} {c : R} (hx : ∀ j, j < n → x j = c) (k : Nat) :
    swtStep h d n x k = c * tapSum h := by
  unfold swtStep
  simp only [ext_const (m := .periodic) (by decide) hn hx]
  rw [← sum_mul, mul_comm]
  rfl

theorem swtA_const {w : Wavelet R} {n : Nat} (hn : 0 < n) {x : Nat → R} {c : R} (hx : ∀ j, j < n → x j = c) :
    ∀ s k, k < n → swtA w n x s k = c * tapSum w.decLo ^ s
  | 0, k, hk => by simpa [swtA] using hx k hk
  | s + 1, k, _ => by
    show swtStep w.decLo (2 ^ s) n (swtA w n x s) k = _
    rw [swtStep_const hn (swtA_const hn hx s), pow_succ, mul_assoc]

theorem swtD_const {w : Wavelet R} (hz : tapSum w.decHi = 0) {n : Nat} (hn : 0 < n) {x : Nat → R} {c : R}
    (hx : ∀ j, j < n → x j = c) (s k : Nat) : swtD w n x s k = 0 := by
  unfold swtD
  rw [swtStep_const hn (swtA_const hn hx s), hz, mul_zero]

end swt

section poly
open Polynomial
variable [CommRing R]

theorem VanishingMoments.poly {p : Nat} {h : List R} (hv : VanishingMoments p h) (Q : R[X]) (hQ : Q.natDegree < p) :
    ∑ j ∈ range h.length, h.getD j 0 * Q.eval (j : R) = 0 := by
  simp only [eval_eq_sum_range, mul_sum]
  rw [sum_comm]
  refine sum_eq_zero fun m hm => ?_
  have := hv m (by rw [mem_range] at hm; omega)
  have e : ∀ j, h.getD j 0 * (Q.coeff m * (j : R) ^ m) = Q.coeff m * (h.getD j 0 * (j : R) ^ m) := fun j => by ring
  simp only [e]
  rw [← mul_sum, this, mul_zero]

/-- An inner position of a level: the step is a plain convolution. -/
theorem dwtStep_inside {m : Mode} {h : List R} {F n s lo hi k : Nat} (hl : h.length = F) (hF : 2 ≤ F) (hn : hi ≤ n)
    {x : Nat → R} {P : R[X]} (hx : ∀ k, Inside F s lo hi k → x k = P.eval (k : R)) (hk : Inside F (s + 1) lo hi k) :
    dwtStep m h (levelLen F n s) x k = ∑ j ∈ range h.length, h.getD j 0 * P.eval (2 * (k : R) + 1 - j) := by
  unfold dwtStep analysis
  refine sum_congr rfl fun t ht => ?_
  obtain ⟨h1, h2⟩ := hk.step (t := t) (by rw [← hl]; exact mem_range.mp ht)
  have e1 : (2 * (k : ℤ) + 1 - t) = ((2 * k + 1 - t : ℕ) : ℤ) := by omega
  rw [e1, ext_inside m _ (by simpa using h2.lt hF (c := 0) (by simpa using hn)), hx _ h2]
  congr 2
  push_cast [h1]
  ring

theorem cA_poly {m : Mode} {w : Wavelet R} (hF : 2 ≤ w.len) {n lo hi : Nat} (hn : hi ≤ n) {v : Nat → R} {P : R[X]}
    (hv : ∀ t, lo ≤ t → t < hi → v t = P.eval (t : R)) :
    ∀ s, ∃ Q : R[X], Q.natDegree ≤ P.natDegree ∧ ∀ k, Inside w.len s lo hi k → cA m w n v s k = Q.eval (k : R)
  | 0 => ⟨P, le_refl _, fun k hk => hv k (by have := hk.1; simp at this; omega) (by have := hk.2; simp at this; omega)⟩
  | s + 1 => by
    obtain ⟨Q, hQ, hc⟩ := cA_poly (m := m) hF hn hv s
    refine ⟨∑ j ∈ range w.decLo.length, C (w.decLo.getD j 0) * Q.comp (C 2 * X + C (1 - (j : R))), ?_, ?_⟩
    · refine natDegree_sum_le_of_forall_le _ _ fun j _ => ?_
      refine le_trans (natDegree_C_mul_le _ _) ?_
      refine le_trans natDegree_comp_le ?_
      have : (C 2 * X + C (1 - (j : R))).natDegree ≤ 1 := natDegree_linear_le
      calc Q.natDegree * _ ≤ Q.natDegree * 1 := Nat.mul_le_mul_left _ this
        _ ≤ P.natDegree := by simpa using hQ
    · intro k hk
      show dwtStep m w.decLo (levelLen w.len n s) (cA m w n v s) k = _
      rw [dwtStep_inside (F := w.len) rfl hF hn hc hk, eval_finset_sum]
      refine sum_congr rfl fun j _ => ?_
      simp only [eval_mul, eval_C, eval_comp, eval_add, eval_X]
      rw [show 2 * (k : R) + 1 - j = 2 * k + (1 - j) by ring]

theorem cD_poly {m : Mode} {w : Wavelet R} (hF : 2 ≤ w.len) (hhi : w.decHi.length = w.len) {p : Nat}
    (hp : VanishingMoments p w.decHi) {n lo hi : Nat} (hn : hi ≤ n) {v : Nat → R} {P : R[X]} (hP : P.natDegree < p)
    (hv : ∀ t, lo ≤ t → t < hi → v t = P.eval (t : R)) {s k : Nat} (hk : Inside w.len (s + 1) lo hi k) :
    cD m w n v s k = 0 := by
  obtain ⟨Q, hQ, hc⟩ := cA_poly (m := m) hF hn hv s
  show dwtStep m w.decHi (levelLen w.len n s) (cA m w n v s) k = _
  rw [dwtStep_inside hhi hF hn hc hk]
  have := hp.poly (Q.comp (C (-1) * X + C (2 * (k : R) + 1))) (by
    refine lt_of_le_of_lt natDegree_comp_le (lt_of_le_of_lt ?_ hP)
    have : (C (-1 : R) * X + C (2 * (k : R) + 1)).natDegree ≤ 1 := natDegree_linear_le
    calc Q.natDegree * _ ≤ Q.natDegree * 1 := Nat.mul_le_mul_left _ this
      _ ≤ P.natDegree := by simpa using hQ)
  refine Eq.trans (sum_congr rfl fun j _ => ?_) this
  simp only [eval_mul, eval_C, eval_comp, eval_add, eval_X]
  rw [show 2 * (k : R) + 1 - j = -1 * j + (2 * k + 1) by ring]

end poly

end Verif.Spec
