import Verif.Model.Rounded
import Verif.Lemmas.Rel
import Verif.Lemmas.Family
import Mathlib.Algebra.Order.Field.Basic
import Mathlib.Algebra.Order.BigOperators.Group.List
import Mathlib.Algebra.Ring.Prod
import Mathlib.Tactic.Linarith
import Mathlib.Tactic.Positivity

/-! Error analysis of the transforms in floating point arithmetic. -/

namespace Verif
open Tensor Spec
variable {R : Type} [Field R] [LinearOrder R] [IsStrictOrderedRing R]

/-- The sum of the products of the absolute values. -/
def absSum (l : List (R × R)) : R := (l.map fun p => |p.1| * |p.2|).sum

/-- The exact sum of the products. -/
def dotSum (l : List (R × R)) : R := (l.map fun p => p.1 * p.2).sum

theorem absSum_nonneg (l : List (R × R)) : 0 ≤ absSum l := by
  refine List.sum_nonneg fun a ha => ?_
  obtain ⟨p, -, rfl⟩ := List.mem_map.mp ha
  positivity

theorem abs_dotSum_le (l : List (R × R)) : |dotSum l| ≤ absSum l := by
  induction l with
  | nil => simp [dotSum, absSum]
  | cons p l ih =>
    simp only [dotSum, absSum, List.map_cons, List.sum_cons] at ih ⊢
    refine (abs_add_le _ _).trans (add_le_add ?_ ih)
    rw [abs_mul]

/-- The classical error bound for sums of products, in any order of summation. -/
theorem Spec.Rounded.error {u : R} (hu : 0 ≤ u) {l : List (R × R)} {v : R} (h : Rounded u l v) :
    |v - dotSum l| ≤ ((1 + u) ^ l.length - 1) * absSum l := by
  induction h with
  | empty => simp [dotSum]
  | product a b δ hδ =>
    simp only [dotSum, absSum, List.map_cons, List.map_nil, List.sum_cons, List.sum_nil, add_zero, List.length_singleton,
      pow_one, ← abs_mul]
    rw [show a * b * (1 + δ) - a * b = δ * (a * b) by ring, abs_mul, show 1 + u - 1 = u by ring]
    exact mul_le_mul_of_nonneg_right hδ (abs_nonneg _)
  | sum l l' v v' δ hl hl' _ _ hδ ih ih' =>
    have e1 : dotSum (l ++ l') = dotSum l + dotSum l' := by simp [dotSum]
    have e2 : absSum (l ++ l') = absSum l + absSum l' := by simp [absSum]
    have hn : 1 ≤ l.length := List.length_pos_iff.mpr hl
    have hn' : 1 ≤ l'.length := List.length_pos_iff.mpr hl'
    rw [e1, e2, List.length_append]
    have h1 : (1 : R) ≤ 1 + u := by linarith
    set A := absSum l
    set A' := absSum l'
    have hA : 0 ≤ A := absSum_nonneg l
    have hA' : 0 ≤ A' := absSum_nonneg l'
    have p1 : (1 + u) ^ l.length * (1 + u) ≤ (1 + u) ^ (l.length + l'.length) := by
      rw [← pow_succ]; exact pow_le_pow_right₀ h1 (by omega)
    have p2 : (1 + u) ^ l'.length * (1 + u) ≤ (1 + u) ^ (l.length + l'.length) := by
      rw [← pow_succ]; exact pow_le_pow_right₀ h1 (by omega)
    have q1 : |v| ≤ (1 + u) ^ l.length * A := by
      have h2 : |v| ≤ |v - dotSum l| + |dotSum l| := by
        have := abs_add_le (v - dotSum l) (dotSum l); simpa using this
      have h3 := abs_dotSum_le l
      nlinarith
    have q2 : |v'| ≤ (1 + u) ^ l'.length * A' := by
      have h2 : |v'| ≤ |v' - dotSum l'| + |dotSum l'| := by
        have := abs_add_le (v' - dotSum l') (dotSum l'); simpa using this
      have h3 := abs_dotSum_le l'
      nlinarith
    have e3 : (v + v') * (1 + δ) - (dotSum l + dotSum l') = (v - dotSum l) + (v' - dotSum l') + δ * (v + v') := by ring
    rw [e3]
    have r1 : |δ * (v + v')| ≤ u * (|v| + |v'|) := by
      rw [abs_mul]
      exact mul_le_mul hδ (abs_add_le _ _) (abs_nonneg _) hu
    have r2 : u * (|v| + |v'|) ≤ u * ((1 + u) ^ l.length * A + (1 + u) ^ l'.length * A') :=
      mul_le_mul_of_nonneg_left (add_le_add q1 q2) hu
    have r3 : |v - dotSum l + (v' - dotSum l') + δ * (v + v')| ≤
        |v - dotSum l| + |v' - dotSum l'| + |δ * (v + v')| :=
      (abs_add_le _ _).trans (add_le_add_left (abs_add_le _ _) _)
    have s1 := mul_le_mul_of_nonneg_right p1 hA
    have s2 := mul_le_mul_of_nonneg_right p2 hA'
    nlinarith
  | perm l l' v hp _ ih =>
    have e1 : dotSum l' = dotSum l := (hp.map _).sum_eq.symm
    have e2 : absSum l' = absSum l := (hp.map _).sum_eq.symm
    rw [e1, e2, ← hp.length_eq]
    exact ih

/-- The relation between a computed number and a triple: the exact number, a bound for its absolute value, and a bound
which in addition accounts for the errors committed so far. -/
def Err3 (a : R) (p : R × R × R) : Prop := |p.1| ≤ p.2.1 ∧ |a - p.1| ≤ p.2.2 - p.2.1

theorem Err3.bounds {a : R} {p : R × R × R} (h : Err3 a p) : 0 ≤ p.2.1 ∧ p.2.1 ≤ p.2.2 ∧ |a| ≤ p.2.2 := by
  have h0 := (abs_nonneg _).trans h.1
  have h1 := (abs_nonneg _).trans h.2
  refine ⟨h0, by linarith, ?_⟩
  have := abs_add_le (a - p.1) p.1
  rw [sub_add_cancel] at this
  linarith [h.1, h.2]

theorem closed_err3 : Closed (Err3 (R := R)) where
  zero := by simp [Err3]
  add := by
    intro a p c q h k
    refine ⟨(abs_add_le _ _).trans (add_le_add h.1 k.1), ?_⟩
    have e : a + c - (p + q).1 = (a - p.1) + (c - q.1) := by simp only [Prod.fst_add]; ring
    rw [e]
    simp only [Prod.snd_add, Prod.fst_add]
    linarith [abs_add_le (a - p.1) (c - q.1), h.2, k.2]
  mul := by
    intro a p c q h k
    obtain ⟨h0, h1, h2⟩ := h.bounds
    obtain ⟨k0, k1, k2⟩ := k.bounds
    refine ⟨?_, ?_⟩
    · simp only [Prod.fst_mul, Prod.snd_mul, abs_mul]
      exact mul_le_mul h.1 k.1 (abs_nonneg _) h0
    · have e : a * c - (p * q).1 = (a - p.1) * c + p.1 * (c - q.1) := by simp only [Prod.fst_mul]; ring
      rw [e]
      simp only [Prod.snd_mul, Prod.fst_mul]
      have r1 : |(a - p.1) * c| ≤ (p.2.2 - p.2.1) * q.2.2 := by
        rw [abs_mul]; exact mul_le_mul h.2 k2 (abs_nonneg _) (by linarith)
      have r2 : |p.1 * (c - q.1)| ≤ p.2.1 * (q.2.2 - q.2.1) := by
        rw [abs_mul]; exact mul_le_mul h.1 k.2 (abs_nonneg _) h0
      have := abs_add_le ((a - p.1) * c) (p.1 * (c - q.1))
      nlinarith

/-- The relation between a computed tap and a triple: it is known up to the factor `τ`, and the third component has room
for the errors of a convolution. -/
def Tap3 (τ G : R) (a : R) (p : R × R × R) : Prop :=
  |p.1| ≤ p.2.1 ∧ |a - p.1| ≤ (τ - 1) * p.2.1 ∧ p.2.2 = G * p.2.1

/-- A floating point evaluation of a sum of products of taps and data. -/
theorem rounded_err3 {ι : Type} {u τ G : R} (hu : 0 ≤ u) (hτ : 1 ≤ τ) (l : List ι) (a b : ι → R) (p q : ι → R × R × R)
    (ht : ∀ i ∈ l, Tap3 τ G (a i) (p i)) (hd : ∀ i ∈ l, Err3 (b i) (q i)) {v : R}
    (hv : Rounded u (l.map fun i => (a i, b i)) v) {n : Nat} (hn : l.length ≤ n) (hG : (1 + u) ^ n * τ ≤ G) :
    Err3 v ((l.map fun i => p i * q i).sum) := by
  have h1 : (1 : R) ≤ 1 + u := by linarith
  have hG' : (1 + u) ^ l.length * τ ≤ G :=
    (mul_le_mul_of_nonneg_right (pow_le_pow_right₀ h1 hn) (by linarith)).trans hG
  have hpw : (1 : R) ≤ (1 + u) ^ l.length := one_le_pow₀ h1
  have he := hv.error hu
  rw [List.length_map] at he
  set N := (1 + u) ^ l.length
  -- the sums of the bounds
  have key : ∀ l : List ι, (∀ i ∈ l, Tap3 τ G (a i) (p i)) → (∀ i ∈ l, Err3 (b i) (q i)) →
      ∃ B : R, 0 ≤ B ∧ absSum (l.map fun i => (a i, b i)) ≤ τ * B ∧
      |((l.map fun i => p i * q i).sum).1| ≤ ((l.map fun i => p i * q i).sum).2.1 ∧
      |dotSum (l.map fun i => (a i, b i)) - ((l.map fun i => p i * q i).sum).1| ≤
        τ * B - ((l.map fun i => p i * q i).sum).2.1 ∧ ((l.map fun i => p i * q i).sum).2.2 = G * B := by
    intro l
    induction l with
    | nil =>
      intro _ _
      refine ⟨0, le_rfl, ?_⟩
      simp [absSum, dotSum]
    | cons i l ih =>
      intro ht hd
      obtain ⟨B, hB, g1, g2, g3, g4⟩ := ih (fun j hj => ht j (List.mem_cons_of_mem _ hj))
        (fun j hj => hd j (List.mem_cons_of_mem _ hj))
      obtain ⟨t1, t2, t3⟩ := ht i List.mem_cons_self
      have hd := hd i List.mem_cons_self
      obtain ⟨d0, d1, d2⟩ := hd.bounds
      have t0 : 0 ≤ (p i).2.1 := (abs_nonneg _).trans t1
      have ta : |a i| ≤ τ * (p i).2.1 := by
        have := abs_add_le (a i - (p i).1) (p i).1
        rw [sub_add_cancel] at this
        linarith
      have c1 : |a i| * |b i| ≤ τ * (p i).2.1 * (q i).2.2 :=
        mul_le_mul ta d2 (abs_nonneg _) (mul_nonneg (by linarith) t0)
      have c2 : |(p i).1 * (q i).1| ≤ (p i).2.1 * (q i).2.1 := by
        rw [abs_mul]; exact mul_le_mul t1 hd.1 (abs_nonneg _) t0
      have c3 : |a i * b i - (p i).1 * (q i).1| ≤ τ * (p i).2.1 * (q i).2.2 - (p i).2.1 * (q i).2.1 := by
        rw [show a i * b i - (p i).1 * (q i).1 = (a i - (p i).1) * b i + (p i).1 * (b i - (q i).1) by ring]
        have r1 : |(a i - (p i).1) * b i| ≤ (τ - 1) * (p i).2.1 * (q i).2.2 := by
          rw [abs_mul]; exact mul_le_mul t2 d2 (abs_nonneg _) (mul_nonneg (by linarith) t0)
        have r2 : |(p i).1 * (b i - (q i).1)| ≤ (p i).2.1 * ((q i).2.2 - (q i).2.1) := by
          rw [abs_mul]; exact mul_le_mul t1 hd.2 (abs_nonneg _) t0
        have := abs_add_le ((a i - (p i).1) * b i) ((p i).1 * (b i - (q i).1))
        nlinarith
      refine ⟨(p i).2.1 * (q i).2.2 + B, add_nonneg (mul_nonneg t0 (d0.trans d1)) hB, ?_, ?_, ?_, ?_⟩
      · simp only [absSum, List.map_cons, List.sum_cons] at g1 ⊢
        nlinarith
      · simp only [List.map_cons, List.sum_cons, Prod.fst_add, Prod.snd_add, Prod.fst_mul, Prod.snd_mul]
        exact (abs_add_le _ _).trans (add_le_add c2 g2)
      · simp only [dotSum, List.map_cons, List.sum_cons, Prod.fst_add, Prod.snd_add, Prod.fst_mul, Prod.snd_mul] at g3 ⊢
        set D := (List.map (fun p => p.1 * p.2) (List.map (fun i => (a i, b i)) l)).sum
        have e : a i * b i + D - ((p i).1 * (q i).1 + (List.map (fun i => p i * q i) l).sum.1) =
            (a i * b i - (p i).1 * (q i).1) + (D - (List.map (fun i => p i * q i) l).sum.1) := by ring
        rw [e]
        have := abs_add_le (a i * b i - (p i).1 * (q i).1) (D - (List.map (fun i => p i * q i) l).sum.1)
        nlinarith
      · simp only [List.map_cons, List.sum_cons, Prod.snd_add, Prod.snd_mul]
        rw [g4, t3]; ring
  obtain ⟨B, hB, g1, g2, g3, g4⟩ := key l ht hd
  refine ⟨g2, ?_⟩
  rw [g4]
  set P := ((l.map fun i => p i * q i).sum).1
  set D := dotSum (l.map fun i => (a i, b i))
  have e : v - P = (v - D) + (D - P) := by ring
  rw [e]
  have r1 : (N - 1) * absSum (l.map fun i => (a i, b i)) ≤ (N - 1) * (τ * B) :=
    mul_le_mul_of_nonneg_left g1 (by linarith)
  have r2 : N * τ * B ≤ G * B := mul_le_mul_of_nonneg_right hG' hB
  have := abs_add_le (v - D) (D - P)
  nlinarith

end Verif
