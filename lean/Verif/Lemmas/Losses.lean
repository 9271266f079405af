/-
The tensor operations of the losses in terms of polynomials.
-/
import Verif.Model.Losses
import Verif.Spec.Losses
import Verif.Lemmas.Filter
import Mathlib.Algebra.Order.BigOperators.Ring.Finset

namespace Verif
open Tensor Spec Polynomial
variable {R : Type}

theorem allPairs_self {p : Nat → Nat → Prop} (h : ∀ n, p n n) : ∀ s : List Nat, AllPairs p s s
  | [] => trivial
  | n :: s => ⟨h n, allPairs_self h s⟩

theorem zipWith_self_shape : ∀ s : List Nat, List.zipWith (fun m n => if m = 1 then n else m) s s = s
  | [] => rfl
  | n :: s => by
    rw [List.zipWith_cons_cons, zipWith_self_shape s, ite_self]

theorem zipWith_index : ∀ (s i : List Nat), InB s i →
    List.zipWith (fun n k => if n = 1 then 0 else k) s i = i
  | [], [], _ => rfl
  | n :: s, k :: i, h => by
    rw [List.zipWith_cons_cons, zipWith_index s i h.2]
    congr 1
    have := h.1
    split <;> omega
  | [], _ :: _, h => absurd h (by simp)
  | _ :: _, [], h => absurd h (by simp)

theorem broadcast2_same [Zero R] (f : R → R → R) {a b : Tensor R} (hm : a.md = b.md)
    (hs : a.shape = b.shape) : broadcast2 f a b = .ok (ofFn a.md a.shape fun i => f (a.get i) (b.get i)) := by
  unfold broadcast2
  rw [← hs, if_pos ⟨hm, allPairs_self (fun n => Or.inl rfl) _⟩]
  congr 1
  refine Tensor.ext' rfl (zipWith_self_shape _) ?_
  intro i hi
  have hi' : InB a.shape i := by
    have h : (List.zipWith (fun m n => if m = 1 then n else m) a.shape a.shape) = a.shape :=
      zipWith_self_shape _
    simpa [h] using hi
  rw [ofFn_get_of _ _ (by exact hi), ofFn_get_of _ _ hi', zipWith_index _ _ hi']

theorem taps_getD [Zero R] {md : Meta} {F : Nat} {t : Tensor R} (h : IsFilter md F t) (i : Nat) :
    (taps F t).getD i 0 = t.get [i] := by
  unfold taps
  by_cases hi : i < F
  · simp [List.getD, hi]
  · rw [List.getD_eq_default _ _ (by simpa using hi), t.supp]
    rw [h.2]
    simpa using hi

theorem taps_length [Zero R] (F : Nat) (t : Tensor R) : (taps F t).length = F := by simp [taps]

theorem polyMul_ok [CommRing R] {md : Meta} {F : Nat} {a b : Tensor R} (ha : IsFilter md F a)
    (hb : IsFilter md F b) (hF : 1 ≤ F) :
    polyMul a b (F - 1) = .ok (ofFn md [1, 1, 2 * F - 1] fun i =>
      (poly (taps F a) * poly (taps F b)).coeff (i.getD 2 0)) := by
  obtain ⟨ham, has⟩ := ha
  obtain ⟨hbm, hbs⟩ := hb
  have hsa : a.unsqueeze0.unsqueeze0.shape = [1, 1, F] := by simp [unsqueeze0, has]
  have hsb : ((b.flip 0).unsqueeze0.unsqueeze0).shape = [1, 1, F] := by simp [unsqueeze0, Tensor.flip, hbs]
  unfold polyMul
  simp only [padAxis, bind, Except.bind]
  unfold conv1d
  simp only [ofFn_shape, hsa, hsb, List.set, List.getD_cons_succ, List.getD_cons_zero]
  rw [if_pos ⟨trivial, by simp [unsqueeze0, Tensor.flip, ham, hbm], hF, by omega, le_rfl⟩]
  congr 1
  have hlen : (F - 1 + F + (F - 1) - 1 * (F - 1) - 1) / 1 + 1 = 2 * F - 1 := by
    rw [Nat.div_one]; omega
  refine Tensor.ext' (by simp [unsqueeze0, ham]) (by simp only [ofFn_shape, hlen]) ?_
  intro i hi
  rw [ofFn_shape, hlen] at hi
  match i, hi with
  | [p, q, m], hi =>
    have h0 : p = 0 := by have := hi.1; omega
    have h1 : q = 0 := by have := hi.2.1; omega
    have hm : m < 2 * F - 1 := hi.2.2.1
    subst h0; subst h1
    rw [ofFn_get_of _ _ (by rw [hlen]; exact hi), ofFn_get_of _ _ hi]
    simp only [List.getD_cons_succ, List.getD_cons_zero, Finset.sum_range_one]
    rw [poly_mul_coeff]
    have e1 : ∀ j ∈ Finset.range F,
        ((b.flip 0).unsqueeze0.unsqueeze0).get [0, 0, j] *
          (ofFn a.unsqueeze0.unsqueeze0.md [1, 1, F - 1 + F + (F - 1)] fun i =>
            if F - 1 ≤ i.getD 2 0 ∧ i.getD 2 0 < F - 1 + F
            then a.unsqueeze0.unsqueeze0.get (i.set 2 (i.getD 2 0 - (F - 1))) else 0).get
              [0, 0, 1 * m + 1 * j]
          = (fun t => b.get [t] * (if t ≤ m then a.get [m - t] else 0)) (F - 1 - j) := by
      intro j hj
      have hj := Finset.mem_range.1 hj
      have hb1 : ((b.flip 0).unsqueeze0.unsqueeze0).get [0, 0, j] = b.get [F - 1 - j] := by
        unfold unsqueeze0 Tensor.flip
        rw [ofFn_get_of _ _ (by simp [hbs, hj]), ofFn_get_of _ _ (by simp [hbs, hj]),
          ofFn_get_of _ _ (by simp [hbs, hj])]
        simp [hbs]
      rw [hb1, ofFn_get_of _ _ (by refine ⟨by omega, by omega, by omega, trivial⟩)]
      simp only [List.getD_cons_succ, List.getD_cons_zero, List.set]
      congr 1
      by_cases hc : F - 1 - j ≤ m
      · rw [if_pos hc]
        by_cases hd : m + j < F - 1 + F
        · rw [if_pos ⟨by omega, by omega⟩]
          have hx : 1 * m + 1 * j - (F - 1) = m - (F - 1 - j) := by omega
          have hlt : m - (F - 1 - j) < F := by omega
          rw [hx]
          unfold unsqueeze0
          rw [ofFn_get_of _ _ (by simp [has, hlt])]
          simp only [List.tail_cons]
          rw [ofFn_get_of _ _ (by simp [has, hlt])]
          rfl
        · rw [if_neg (by omega), a.supp]
          rw [has]
          simp only [inB_cons_cons, inB_nil_nil, and_true]
          omega
      · rw [if_neg hc, if_neg (by omega)]
    rw [Finset.sum_congr rfl e1,
      Finset.sum_range_reflect (fun t => b.get [t] * (if t ≤ m then a.get [m - t] else 0)) F]
    have e2 : ∑ t ∈ Finset.range F, b.get [t] * (if t ≤ m then a.get [m - t] else 0)
        = ∑ t ∈ Finset.range (F + m + 1), b.get [t] * (if t ≤ m then a.get [m - t] else 0) := by
      apply Finset.sum_subset (Finset.range_subset_range.2 (by omega))
      intro t _ ht
      rw [b.supp [t] (by rw [hbs]; simpa using ht), zero_mul]
    have e3 : ∑ t ∈ Finset.range (m + 1), b.get [t] * (if t ≤ m then a.get [m - t] else 0)
        = ∑ t ∈ Finset.range (F + m + 1), b.get [t] * (if t ≤ m then a.get [m - t] else 0) := by
      apply Finset.sum_subset (Finset.range_subset_range.2 (by omega))
      intro t _ ht
      rw [if_neg (by simp at ht; omega), mul_zero]
    rw [e2, ← e3]
    refine Finset.sum_congr rfl fun t ht => ?_
    have := Finset.mem_range.1 ht
    rw [if_pos (by omega), taps_getD ⟨hbm, hbs⟩, taps_getD ⟨ham, has⟩]

/-- A sum of squares over a box. -/
theorem boxSum_sq_nonneg [Ring R] [LinearOrder R] [IsStrictOrderedRing R] :
    ∀ (s : List Nat) (f : List Nat → R), 0 ≤ boxSum s fun i => f i * f i
  | [], f => mul_self_nonneg _
  | n :: s, f => Finset.sum_nonneg fun j _ => boxSum_sq_nonneg s fun js => f (j :: js)

theorem boxSum_sq_zero [Ring R] [LinearOrder R] [IsStrictOrderedRing R] :
    ∀ (s : List Nat) (f : List Nat → R), (boxSum s fun i => f i * f i) = 0 ↔ ∀ i, InB s i → f i = 0
  | [], f => by
    constructor
    · intro h i hi
      cases i with
      | nil => exact mul_self_eq_zero.1 h
      | cons _ _ => exact absurd hi (by simp)
    · intro h
      have := h [] trivial
      simp [boxSum, this]
  | n :: s, f => by
    unfold boxSum
    rw [Finset.sum_eq_zero_iff_of_nonneg fun j _ => boxSum_sq_nonneg s fun js => f (j :: js)]
    constructor
    · intro h i hi
      match i, hi with
      | j :: js, hi =>
        exact (boxSum_sq_zero s fun js => f (j :: js)).1 (h j (Finset.mem_range.2 hi.1)) js hi.2
    · intro h j hj
      exact (boxSum_sq_zero s fun js => f (j :: js)).2 fun js hjs => h _ ⟨Finset.mem_range.1 hj, hjs⟩

theorem sumSq_nonneg [Ring R] [LinearOrder R] [IsStrictOrderedRing R] (t : Tensor R) : 0 ≤ sumSq t :=
  boxSum_sq_nonneg _ _

theorem sumSq_zero [Ring R] [LinearOrder R] [IsStrictOrderedRing R] (t : Tensor R) :
    sumSq t = 0 ↔ ∀ i, InB t.shape i → t.get i = 0 := boxSum_sq_zero _ _

theorem poly_mul_coeff_ge [CommRing R] (a b : List R) {F m : Nat} (ha : a.length = F) (hb : b.length = F)
    (hF : 1 ≤ F) (hm : 2 * F - 1 ≤ m) : (poly a * poly b).coeff m = 0 := by
  rw [poly_mul_coeff]
  apply Finset.sum_eq_zero
  intro t ht
  by_cases h : t < F
  · rw [List.getD_eq_default a _ (by omega), mul_zero]
  · rw [List.getD_eq_default b _ (by omega), zero_mul]

/-- The mask applied to a filter. -/
theorem masked_poly [CommRing R] {md : Meta} {F : Nat} {a : Tensor R} (ha : IsFilter md F a) (hF : 1 ≤ F) :
    ∃ t, broadcast2 (· * ·) a (signMask md F) = .ok t ∧ IsFilter md F t ∧
      poly (taps F t) = C ((-1) ^ (F - 1)) * (poly (taps F a)).comp (-X) := by
  have hs : (signMask (R := R) md F).shape = [F] := rfl
  rw [broadcast2_same _ (by rw [ha.1]; rfl) (by rw [ha.2]; rfl)]
  refine ⟨_, rfl, ⟨ha.1, ha.2⟩, ?_⟩
  ext n
  rw [coeff_C_mul, comp_neg_X_coeff', poly_coeff, poly_coeff, taps_getD ha,
    taps_getD (md := md) (by exact ⟨ha.1, ha.2⟩)]
  by_cases hn : n < F
  · rw [ofFn_get_of _ _ (by rw [ha.2]; simpa using hn)]
    unfold signMask
    rw [ofFn_get_of _ _ (by simpa using hn)]
    simp only [List.getD_cons_zero]
    have : (-1 : R) ^ (F - 1) = (-1) ^ (F - 1 - n) * (-1) ^ n := by
      rw [← pow_add]; congr 1; omega
    rw [this]
    have h2 : (-1 : R) ^ n * (-1) ^ n = 1 := by rw [← mul_pow]; simp
    calc a.get [n] * (-1) ^ (F - 1 - n) = (-1) ^ (F - 1 - n) * ((-1) ^ n * (-1) ^ n) * a.get [n] := by
          rw [h2]; ring
      _ = _ := by ring
  · rw [Tensor.supp _ _ (by simp only [ofFn_shape, ha.2]; simpa using hn),
      a.supp _ (by rw [ha.2]; simpa using hn)]
    ring

end Verif
