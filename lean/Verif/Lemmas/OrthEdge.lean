/-
The rows cut off at the two ends: they are independent at one length iff at all lengths.
-/
import Verif.Spec.OrthEdge
import Verif.Lemmas.OrthExist

namespace Verif
open Spec

/-- A row cut off on the left and a row cut off on the right are orthogonal. -/
theorem cross_zero {f g : List ℝ} {F n c c' : Nat} (hf : f.length = F) (hg : g.length = F) (hc : c < n)
    (hc' : F ≤ c' + 1)
    (h : ∀ m : ℤ, 2 * m = (c' : ℤ) - c → (∑ k ∈ Finset.range F, tap f k * tap g (k + 2 * m)) = 0)
    (hp : ((c' : ℤ) - c) % 2 = 0) :
    (∑ j ∈ Finset.range n, tap f ((c : ℤ) - (j : ℕ)) * tap g ((c' : ℤ) - (j : ℕ))) = 0 := by
  have h1 := sum_shift (f := f) (g := g) (n := F + n) (c := F + c) (c' := (F : ℤ) + c')
    (by omega) (by omega)
  rw [Finset.sum_range_add] at h1
  rw [Finset.sum_eq_zero (s := Finset.range F) (fun j hj => by
    have := Finset.mem_range.mp hj
    rw [tap_large g (by rw [hg]; omega), mul_zero]), zero_add] at h1
  obtain ⟨m, hm⟩ : ∃ m : ℤ, 2 * m = (c' : ℤ) - c := ⟨((c' : ℤ) - c) / 2, by omega⟩
  have h2 := h m hm
  rw [hf] at h1
  have e1 : ((F : ℤ) + c' - ((F + c : ℕ) : ℤ)) = 2 * m := by push_cast; omega
  rw [e1, h2] at h1
  rw [← h1]
  refine Finset.sum_congr rfl fun j _ => ?_
  congr 2 <;> push_cast <;> ring

/-- the combination of the rows with numbers `P i`, `i < F / 4`. -/
def edgeSum (w : Wavelet ℝ) (F : Nat) (P : ℕ → ℕ) (a b : ℕ → ℝ) (j : ℕ) : ℝ :=
  ∑ i ∈ Finset.range (F / 4), (a i * tap w.decLo (((F / 2 + 2 * P i : ℕ) : ℤ) - j) +
      b i * tap w.decHi (((F / 2 + 2 * P i : ℕ) : ℤ) - j))

/-- Combinations of rows cut off on the left and on the right are orthogonal. -/
theorem edge_cross {w : Wavelet ℝ} {F n : Nat} (hw : OrthBank w F) (hn : n % 2 = 0) (hF : F ≤ n)
    (a b a' b' : ℕ → ℝ) :
    (∑ j ∈ Finset.range n, edgeSum w F (fun i => i) a b j *
      edgeSum w F (fun i => n / 2 - 1 - i) a' b' j) = 0 := by
  obtain ⟨l1, l2, _, _⟩ := hw.len
  have h2 := hw.two_le
  have he := hw.even
  have lh := hw.lo_hi
  have hl : ∀ m : ℤ, (∑ k ∈ Finset.range F, tap w.decHi k * tap w.decLo (k + 2 * m)) = 0 := by
    intro m
    have := hw.lo_hi (-m)
    set c : Nat := F + 2 * m.natAbs with hc
    have a1 := sum_shift (f := w.decLo) (g := w.decHi) (n := c + F + 2 * m.natAbs + 2) (c := c) (c' := c + 2 * (-m))
      (by rw [l1]; omega) (by omega)
    have a2 := sum_shift (f := w.decHi) (g := w.decLo) (n := c + F + 2 * m.natAbs + 2) (c := (c + 2 * (-m) : ℤ).toNat) (c' := c)
      (by rw [l2]; omega) (by omega)
    have e : (((c + 2 * (-m) : ℤ).toNat : ℕ) : ℤ) = c + 2 * (-m) := by omega
    rw [e] at a2
    rw [l1] at a1
    rw [l2] at a2
    have e1 : (c : ℤ) + 2 * -m - c = 2 * -m := by ring
    have e2 : (c : ℤ) - (c + 2 * -m) = 2 * m := by ring
    rw [e1, this] at a1
    rw [e2] at a2
    rw [← a2, ← a1]
    exact Finset.sum_congr rfl fun j _ => mul_comm _ _
  unfold edgeSum
  simp only [Finset.sum_mul_sum]
  rw [Finset.sum_comm]
  refine Finset.sum_eq_zero fun i hi => ?_
  rw [Finset.sum_comm]
  refine Finset.sum_eq_zero fun i' hi' => ?_
  have hi := Finset.mem_range.mp hi
  have hi' := Finset.mem_range.mp hi'
  have key : ∀ f g : List ℝ, f.length = F → g.length = F →
      (∀ m : ℤ, m ≠ 0 → (∑ k ∈ Finset.range F, tap f k * tap g (k + 2 * m)) = 0) →
      (∑ j ∈ Finset.range n, tap f (((F / 2 + 2 * i : ℕ) : ℤ) - (j : ℕ)) *
        tap g (((F / 2 + 2 * (n / 2 - 1 - i') : ℕ) : ℤ) - (j : ℕ))) = 0 := by
    intro f g hf hg h
    refine cross_zero hf hg (by omega) (by omega) (fun m hm => h m (by omega)) (by omega)
  have k1 := key _ _ l1 l1 (fun m hm => by rw [hw.lo_lo, if_neg hm])
  have k2 := key _ _ l1 l2 (fun m hm => hw.lo_hi m)
  have k3 := key _ _ l2 l1 (fun m hm => hl m)
  have k4 := key _ _ l2 l2 (fun m hm => by rw [hw.hi_hi, if_neg hm])
  have : ∀ x ∈ Finset.range n,
      (a i * tap w.decLo (((F / 2 + 2 * i : ℕ) : ℤ) - x) + b i * tap w.decHi (((F / 2 + 2 * i : ℕ) : ℤ) - x)) *
      (a' i' * tap w.decLo (((F / 2 + 2 * (n / 2 - 1 - i') : ℕ) : ℤ) - x) + b' i' * tap w.decHi (((F / 2 + 2 * (n / 2 - 1 - i') : ℕ) : ℤ) - x)) =
      a i * a' i' * (tap w.decLo (((F / 2 + 2 * i : ℕ) : ℤ) - x) * tap w.decLo (((F / 2 + 2 * (n / 2 - 1 - i') : ℕ) : ℤ) - x)) +
      a i * b' i' * (tap w.decLo (((F / 2 + 2 * i : ℕ) : ℤ) - x) * tap w.decHi (((F / 2 + 2 * (n / 2 - 1 - i') : ℕ) : ℤ) - x)) +
      (b i * a' i' * (tap w.decHi (((F / 2 + 2 * i : ℕ) : ℤ) - x) * tap w.decLo (((F / 2 + 2 * (n / 2 - 1 - i') : ℕ) : ℤ) - x)) +
      b i * b' i' * (tap w.decHi (((F / 2 + 2 * i : ℕ) : ℤ) - x) * tap w.decHi (((F / 2 + 2 * (n / 2 - 1 - i') : ℕ) : ℤ) - x))) := by
    intro x _; ring
  rw [Finset.sum_congr rfl this]
  simp only [Finset.sum_add_distrib, ← Finset.mul_sum]
  rw [k1, k2, k3, k4]
  ring

/-- The truncated rows, as pairs. -/
theorem boundaryIndep_iff_pairs {w : Wavelet ℝ} {F n : Nat} (hw : OrthBank w F) (hn : n % 2 = 0) (hF : F ≤ n) :
    BoundaryIndep w F n ↔ ∀ a b a' b' : ℕ → ℝ,
      (∀ j, j < n → edgeSum w F (fun i => i) a b j + edgeSum w F (fun i => n / 2 - 1 - i) a' b' j = 0) →
      ∀ i, i < F / 4 → a i = 0 ∧ b i = 0 ∧ a' i = 0 ∧ b' i = 0 := by
  have h2 := hw.two_le
  have he := hw.even
  unfold BoundaryIndep
  set v : ℕ → Fin n → ℝ := fun r j => filterRow w F n r j with hv
  set p : Fin (F / 4) × Fin 4 → ℕ := fun k =>
    [(k.1 : ℕ), n / 2 + k.1, n / 2 - 1 - k.1, n - 1 - k.1].getD k.2 0 with hp
  have p0 : ∀ i : Fin (F / 4), p (i, 0) = i := fun _ => rfl
  have p1 : ∀ i : Fin (F / 4), p (i, 1) = n / 2 + i := fun _ => rfl
  have p2 : ∀ i : Fin (F / 4), p (i, 2) = n / 2 - 1 - i := fun _ => rfl
  have p3 : ∀ i : Fin (F / 4), p (i, 3) = n - 1 - i := fun _ => rfl
  have hset : {r | r < n ∧ Truncated F n r} = Set.range p := by
    ext r
    simp only [Set.mem_ofPred_eq, Set.mem_range, Prod.exists]
    unfold Truncated rowShift
    constructor
    · rintro ⟨h1, h2⟩
      split_ifs at h2 with h3
      · rcases h2 with h2 | h2
        · exact ⟨⟨r, by omega⟩, 0, rfl⟩
        · exact ⟨⟨n / 2 - 1 - r, by omega⟩, 2, by rw [p2]; simp only []; omega⟩
      · rcases h2 with h2 | h2
        · exact ⟨⟨r - n / 2, by omega⟩, 1, by rw [p1]; simp only []; omega⟩
        · exact ⟨⟨n - 1 - r, by omega⟩, 3, by rw [p3]; simp only []; omega⟩
    · rintro ⟨i, k, rfl⟩
      have hi := i.2
      have : p (i, k) = i ∨ p (i, k) = n / 2 + i ∨ p (i, k) = n / 2 - 1 - i ∨ p (i, k) = n - 1 - i := by
        fin_cases k
        · exact Or.inl (p0 i)
        · exact Or.inr (Or.inl (p1 i))
        · exact Or.inr (Or.inr (Or.inl (p2 i)))
        · exact Or.inr (Or.inr (Or.inr (p3 i)))
      rcases this with h | h | h | h <;> rw [h] <;> split_ifs <;> omega
  have hinj : Function.Injective p := by
    rintro ⟨i, x⟩ ⟨k, y⟩ h
    have hi := i.2
    have hk := k.2
    have : x = y ∧ (i : ℕ) = k := by
      fin_cases x <;> fin_cases y <;>
        simp only [hp, List.getD_cons_zero, List.getD_cons_succ, Fin.zero_eta, Fin.mk_one, Fin.reduceFinMk, Fin.val_zero, Fin.val_one, Fin.val_two, Fin.isValue, List.getD_eq_getElem?_getD, Fin.val_ofNat] at h <;> simp at h ⊢ <;> omega
    rw [this.1, Fin.ext this.2]
  rw [hset, linearIndepOn_range_iff hinj, Fintype.linearIndependent_iff]
  have key : ∀ (g : Fin (F / 4) × Fin 4 → ℝ) (a b a' b' : ℕ → ℝ),
      (∀ i : Fin (F / 4), g (i, 0) = a i ∧ g (i, 1) = b i ∧ g (i, 2) = a' i ∧ g (i, 3) = b' i) →
      ((∑ x, g x • (v ∘ p) x = 0) ↔ ∀ j, j < n → edgeSum w F (fun i => i) a b j + edgeSum w F (fun i => n / 2 - 1 - i) a' b' j = 0) := by
    intro g a b a' b' hg
    have hs : ∀ j (hj : j < n), (∑ x, g x • (v ∘ p) x) ⟨j, hj⟩ =
        edgeSum w F (fun i => i) a b j + edgeSum w F (fun i => n / 2 - 1 - i) a' b' j := by
      intro j hj
      rw [Finset.sum_apply, Fintype.sum_prod_type]
      unfold edgeSum
      rw [← Finset.sum_add_distrib, Finset.sum_range]
      refine Finset.sum_congr rfl fun i _ => ?_
      have hi := i.2
      rw [Fin.sum_univ_four]
      simp only [Function.comp_apply, Pi.smul_apply, smul_eq_mul, (hg i).1, (hg i).2.1, (hg i).2.2.1, (hg i).2.2.2, p0, p1, p2, p3, hv]
      unfold filterRow
      rw [if_pos (by omega), if_neg (by omega), if_pos (by omega), if_neg (by omega)]
      have e1 : ((F / 2 : ℕ) : ℤ) + 2 * (((n / 2 + i : ℕ) : ℤ) - (n / 2 : ℕ)) - j = ((F / 2 + 2 * i : ℕ) : ℤ) - j := by omega
      have e2 : ((F / 2 : ℕ) : ℤ) + 2 * ((n / 2 - 1 - i : ℕ) : ℤ) - j = ((F / 2 + 2 * (n / 2 - 1 - i) : ℕ) : ℤ) - j := by omega
      have e3 : ((F / 2 : ℕ) : ℤ) + 2 * (((n - 1 - i : ℕ) : ℤ) - (n / 2 : ℕ)) - j = ((F / 2 + 2 * (n / 2 - 1 - i) : ℕ) : ℤ) - j := by omega
      have e0 : ((F / 2 : ℕ) : ℤ) + 2 * ((i : ℕ) : ℤ) - j = ((F / 2 + 2 * i : ℕ) : ℤ) - j := by omega
      rw [e0, e1, e2, e3]
      ring
    constructor
    · intro h j hj
      rw [← hs j hj, h]; rfl
    · intro h
      funext j
      rw [hs j j.2, h j j.2]; rfl
  constructor
  · intro h a b a' b' hab i hi
    set g : Fin (F / 4) × Fin 4 → ℝ := fun k => [a k.1, b k.1, a' k.1, b' k.1].getD k.2 0 with hg
    have := h g ((key g a b a' b' (fun i => ⟨rfl, rfl, rfl, rfl⟩)).mpr hab)
    exact ⟨this (⟨i, hi⟩, 0), this (⟨i, hi⟩, 1), this (⟨i, hi⟩, 2), this (⟨i, hi⟩, 3)⟩
  · intro h g hg
    set ex : Fin 4 → ℕ → ℝ := fun k i => if hi : i < F / 4 then g (⟨i, hi⟩, k) else 0 with hex
    have hexv : ∀ k (i : Fin (F / 4)), ex k i = g (i, k) := by
      intro k i; simp [hex]
    have := h (ex 0) (ex 1) (ex 2) (ex 3) ((key g _ _ _ _ (fun i =>
      ⟨(hexv 0 i).symm, (hexv 1 i).symm, (hexv 2 i).symm, (hexv 3 i).symm⟩)).mp hg)
    rintro ⟨i, k⟩
    have hi := this i i.2
    simp only [hexv] at hi
    fin_cases k
    · exact hi.1
    · exact hi.2.1
    · exact hi.2.2.1
    · exact hi.2.2.2

/-- The two ends do not interact. -/
theorem boundaryIndep_iff_edges {w : Wavelet ℝ} {F n : Nat} (hw : OrthBank w F) (hn : n % 2 = 0) (hF : F ≤ n) :
    BoundaryIndep w F n ↔ LeftIndep w F ∧ RightIndep w F := by
  obtain ⟨l1, l2, _, _⟩ := hw.len
  have h2 := hw.two_le
  have he := hw.even
  rw [boundaryIndep_iff_pairs hw hn hF]
  have eL : ∀ a b j, edgeSum w F (fun i => i) a b j =
      ∑ i ∈ Finset.range (F / 4), (a i * tap w.decLo ((F / 2 : ℕ) + 2 * (i : ℤ) - j) +
      b i * tap w.decHi ((F / 2 : ℕ) + 2 * (i : ℤ) - j)) := by
    intro a b j
    unfold edgeSum
    push_cast
    rfl
  have eR : ∀ a b j, j < n → edgeSum w F (fun i => n / 2 - 1 - i) a b (n - 1 - j) =
      ∑ i ∈ Finset.range (F / 4), (a i * tap w.decLo ((F / 2 : ℕ) - 1 - 2 * (i : ℤ) + j) +
      b i * tap w.decHi ((F / 2 : ℕ) - 1 - 2 * (i : ℤ) + j)) := by
    intro a b j hj
    unfold edgeSum
    refine Finset.sum_congr rfl fun i hi => ?_
    have hi := Finset.mem_range.mp hi
    have : (((F / 2 + 2 * (n / 2 - 1 - i) : ℕ) : ℤ) - ((n - 1 - j : ℕ) : ℤ)) = ((F / 2 : ℕ) : ℤ) - 1 - 2 * (i : ℤ) + j := by
      omega
    rw [this]
  have zL : ∀ a b j, n ≤ j → edgeSum w F (fun i => i) a b j = 0 := by
    intro a b j hj
    unfold edgeSum
    refine Finset.sum_eq_zero fun i hi => ?_
    have hi := Finset.mem_range.mp hi
    simp only []
    rw [tap_neg' _ (by omega), tap_neg' _ (by omega)]; ring
  have zR : ∀ (a b : ℕ → ℝ) (j : ℕ), n ≤ j →
      ∑ i ∈ Finset.range (F / 4), (a i * tap w.decLo ((F / 2 : ℕ) - 1 - 2 * (i : ℤ) + j) +
      b i * tap w.decHi ((F / 2 : ℕ) - 1 - 2 * (i : ℤ) + j)) = 0 := by
    intro a b j hj
    refine Finset.sum_eq_zero fun i hi => ?_
    have hi := Finset.mem_range.mp hi
    rw [tap_large _ (by rw [l1]; omega), tap_large _ (by rw [l2]; omega)]; ring
  have z0 : ∀ P j, edgeSum w F P (fun _ => 0) (fun _ => 0) j = 0 := by
    intro P j; unfold edgeSum; simp
  constructor
  · intro h
    constructor
    · intro a b hab i hi
      have := h a b (fun _ => 0) (fun _ => 0) (fun j _ => by rw [z0, eL, hab j, add_zero]) i hi
      exact ⟨this.1, this.2.1⟩
    · intro a b hab i hi
      have := h (fun _ => 0) (fun _ => 0) a b (fun j hj => by
        have e : j = n - 1 - (n - 1 - j) := by omega
        rw [z0, zero_add, e, eR _ _ _ (by omega), hab]) i hi
      exact this.2.2
  · rintro ⟨hl, hr⟩ a b a' b' h i hi
    set L := edgeSum w F (fun i => i) a b with hL
    set Q := edgeSum w F (fun i => n / 2 - 1 - i) a' b' with hQ
    have hx := edge_cross hw hn hF a b a' b'
    rw [← hL, ← hQ] at hx
    have hsq : ∑ j ∈ Finset.range n, L j * L j = 0 := by
      have e : ∀ j ∈ Finset.range n, L j * L j = -(L j * Q j) := by
        intro j hj
        have := h j (Finset.mem_range.mp hj)
        linear_combination L j * this
      rw [Finset.sum_congr rfl e, Finset.sum_neg_distrib, hx, neg_zero]
    have hL0 : ∀ j, j < n → L j = 0 := by
      intro j hj
      have := (Finset.sum_eq_zero_iff_of_nonneg (fun j _ => mul_self_nonneg (L j))).mp hsq j (Finset.mem_range.mpr hj)
      exact mul_self_eq_zero.mp this
    have hQ0 : ∀ j, j < n → Q j = 0 := by
      intro j hj
      have := h j hj
      rw [hL0 j hj, zero_add] at this
      exact this
    have r1 := hl a b (fun j => by
      rw [← eL, ← hL]
      by_cases hj : j < n
      · exact hL0 j hj
      · exact zL a b j (by omega)) i hi
    have r2 := hr a' b' (fun j => by
      by_cases hj : j < n
      · rw [← eR _ _ _ hj]; exact hQ0 _ (by omega)
      · exact zR a' b' j (by omega)) i hi
    exact ⟨r1.1, r1.2, r2.1, r2.2⟩
/-- the sign of `(-1)^z`. -/
def sgnZ (z : ℤ) : ℝ := if z % 2 = 0 then 1 else -1

theorem sgnZ_sq (z : ℤ) : sgnZ z * sgnZ z = 1 := by unfold sgnZ; split_ifs <;> norm_num

theorem flip_tap {w : Wavelet ℝ} {F : Nat} {s : ℝ} (l1 : w.decLo.length = F) (l2 : w.decHi.length = F)
    (h : AlternatingFlip w F s) (z : ℤ) :
    tap w.decHi z = s * sgnZ z * tap w.decLo ((F : ℤ) - 1 - z) := by
  by_cases h0 : z < 0
  · rw [tap_neg' _ h0, tap_large _ (by rw [l1]; omega), mul_zero]
  by_cases h1 : (F : ℤ) ≤ z
  · rw [tap_large _ (by rw [l2]; omega), tap_neg' _ (by omega), mul_zero]
  obtain ⟨k, rfl⟩ := Int.eq_ofNat_of_zero_le (not_lt.mp h0)
  have hk : k < F := by omega
  have e : ((F : ℤ) - 1 - (k : ℕ)) = ((F - 1 - k : ℕ) : ℤ) := by omega
  rw [h k hk, e]
  congr 2
  unfold sgnZ
  split_ifs with hm
  · exact (Nat.even_iff.mpr (by omega)).neg_one_pow
  · exact (Nat.odd_iff.mpr (by omega)).neg_one_pow

theorem flip_ne_zero {w : Wavelet ℝ} {F : Nat} {s : ℝ} (hw : OrthBank w F) (h : AlternatingFlip w F s) : s ≠ 0 := by
  rintro rfl
  have := hw.hi_hi 0
  rw [if_pos rfl] at this
  rw [Finset.sum_eq_zero (fun k hk => by
    rw [h k (Finset.mem_range.mp hk)]; ring)] at this
  exact zero_ne_one this

theorem rightIndep_of_left {w : Wavelet ℝ} {F : Nat} {s : ℝ} (hw : OrthBank w F) (h : AlternatingFlip w F s)
    (hl : LeftIndep w F) : RightIndep w F := by
  obtain ⟨l1, l2, _, _⟩ := hw.len
  have he := hw.even
  have hs := flip_ne_zero hw h
  intro a b hab i hi
  have := hl (fun i => s * b i) (fun i => -(s⁻¹ * a i)) (fun j => by
    have hj := hab j
    set z : ℤ := (F / 2 : ℕ) - 1 + j with hz
    have e : ∀ i ∈ Finset.range (F / 4), (s * b i * tap w.decLo ((F / 2 : ℕ) + 2 * (i : ℤ) - j) +
        -(s⁻¹ * a i) * tap w.decHi ((F / 2 : ℕ) + 2 * (i : ℤ) - j)) =
        sgnZ z * (a i * tap w.decLo ((F / 2 : ℕ) - 1 - 2 * (i : ℤ) + j) +
          b i * tap w.decHi ((F / 2 : ℕ) - 1 - 2 * (i : ℤ) + j)) := by
      intro i _
      rw [flip_tap l1 l2 h ((F / 2 : ℕ) + 2 * (i : ℤ) - j), flip_tap l1 l2 h ((F / 2 : ℕ) - 1 - 2 * (i : ℤ) + j)]
      have e1 : ((F : ℤ) - 1 - ((F / 2 : ℕ) + 2 * (i : ℤ) - j)) = (F / 2 : ℕ) - 1 - 2 * (i : ℤ) + j := by omega
      have e2 : ((F : ℤ) - 1 - ((F / 2 : ℕ) - 1 - 2 * (i : ℤ) + j)) = (F / 2 : ℕ) + 2 * (i : ℤ) - j := by omega
      have e3 : sgnZ ((F / 2 : ℕ) - 1 - 2 * (i : ℤ) + j) = sgnZ z := by unfold sgnZ; rw [hz]; congr 2; omega
      have e4 : sgnZ ((F / 2 : ℕ) + 2 * (i : ℤ) - j) = - sgnZ z := by
        unfold sgnZ
        rw [hz]
        split_ifs with h1 h2 h2
        · omega
        · norm_num
        · norm_num
        · omega
      rw [e1, e2, e3, e4]
      have h3 := sgnZ_sq z
      field_simp
      linear_combination (-(b i) * tap w.decLo ((F / 2 : ℕ) + 2 * (i : ℤ) - j) * s) * h3
    rw [Finset.sum_congr rfl e, ← Finset.mul_sum, hj, mul_zero]) i hi
  refine ⟨?_, (mul_eq_zero.mp this.1).resolve_left hs⟩
  have h2 := this.2
  rw [neg_eq_zero] at h2
  exact (mul_eq_zero.mp h2).resolve_left (inv_ne_zero hs)

theorem boundaryIndep_iff_left {w : Wavelet ℝ} {F n : Nat} {s : ℝ} (hw : OrthBank w F)
    (h : AlternatingFlip w F s) (hn : n % 2 = 0) (hF : F ≤ n) : BoundaryIndep w F n ↔ LeftIndep w F := by
  rw [boundaryIndep_iff_edges hw hn hF]
  exact ⟨fun h => h.1, fun hl => ⟨hl, rightIndep_of_left hw h hl⟩⟩

/-- Six taps. -/
theorem leftIndep_six {w : Wavelet ℝ} {h0 h1 h2 h3 h4 h5 s : ℝ} (hw : OrthBank w 6)
    (hlo : w.decLo = [h0, h1, h2, h3, h4, h5]) (hf : AlternatingFlip w 6 s) :
    LeftIndep w 6 ↔ h2 * h2 + h3 * h3 ≠ 0 := by
  obtain ⟨l1, l2, _, _⟩ := hw.len
  have hs := flip_ne_zero hw hf
  have tl : ∀ k : ℕ, tap w.decLo (k : ℤ) = [h0, h1, h2, h3, h4, h5].getD k 0 := by
    intro k; rw [tap_nat, hlo]
  have L0 := tl 0
  have L1 := tl 1
  have L2 := tl 2
  have L3 := tl 3
  have L4 := tl 4
  have L5 := tl 5
  have H0 := hf 0 (by norm_num)
  have H1 := hf 1 (by norm_num)
  have H2 := hf 2 (by norm_num)
  have H3 := hf 3 (by norm_num)
  norm_num at L0 L1 L2 L3 L4 L5 H0 H1 H2 H3
  rw [L5] at H0
  rw [L4] at H1
  rw [L3] at H2
  rw [L2] at H3
  constructor
  · intro h hz
    have h2z : h2 = 0 := by nlinarith [mul_self_nonneg h2, mul_self_nonneg h3]
    have h3z : h3 = 0 := by nlinarith [mul_self_nonneg h2, mul_self_nonneg h3]
    have ho := hw.lo_lo 2
    have ho0 := hw.lo_lo 0
    simp [Finset.sum_range_succ, tap, hlo] at ho ho0
    have key : ∀ a b : ℝ, a * h1 - s * b * h4 = 0 → a * h0 + s * b * h5 = 0 → a = 0 ∧ b = 0 := by
      intro a b e1 e2
      refine h (fun _ => a) (fun _ => b) (fun j => ?_) 0 (by norm_num)
      simp only [Nat.reduceDiv, Finset.sum_range_one, Nat.cast_zero, mul_zero, add_zero]
      by_cases hj : 4 ≤ j
      · rw [tap_neg' _ (by omega), tap_neg' _ (by omega)]; ring
      · interval_cases j
        · norm_num
          rw [L3, H3, h2z, h3z]; ring
        · norm_num
          rw [L2, H2, h2z, h3z]; ring
        · norm_num
          rw [L1, H1]; linear_combination e1
        · norm_num
          rw [L0, H0]; linear_combination e2
    have k1 := key h4 (s⁻¹ * h1) (by field_simp; ring) (by field_simp; linear_combination ho)
    have k2 := key h5 (-(s⁻¹ * h0)) (by field_simp; linear_combination ho) (by field_simp; ring)
    have z1 : h1 = 0 := (mul_eq_zero.mp k1.2).resolve_left (inv_ne_zero hs)
    have z0 : h0 = 0 := (mul_eq_zero.mp (neg_eq_zero.mp k2.2)).resolve_left (inv_ne_zero hs)
    rw [z0, z1, h2z, h3z, k1.1, k2.1] at ho0
    norm_num at ho0
  · intro hne a b hab i hi
    have hi : i = 0 := by omega
    subst hi
    have e0 := hab 0
    have e1 := hab 1
    simp only [Nat.reduceDiv, Finset.sum_range_one, Nat.cast_zero, mul_zero, add_zero] at e0 e1
    norm_num at e0 e1
    rw [L3, H3] at e0
    rw [L2, H2] at e1
    have f1 : a 0 * (h2 * h2 + h3 * h3) = 0 := by linear_combination h3 * e0 + h2 * e1
    have f2 : (s * b 0) * (h2 * h2 + h3 * h3) = 0 := by linear_combination h3 * e1 - h2 * e0
    exact ⟨(mul_eq_zero.mp f1).resolve_right hne,
      (mul_eq_zero.mp ((mul_eq_zero.mp f2).resolve_right hne)).resolve_left hs⟩

/-- Eight taps. -/
theorem leftIndep_eight {w : Wavelet ℝ} {h0 h1 h2 h3 h4 h5 h6 h7 : ℝ} (hw : OrthBank w 8)
    (hlo : w.decLo = [h0, h1, h2, h3, h4, h5, h6, h7])
    (hD : h1 * (h1 * h4 - h2 * h3) - h0 * (h1 * h5 - h3 * h3) ≠ 0) : LeftIndep w 8 := by
  obtain ⟨l1, l2, _, _⟩ := hw.len
  obtain ⟨g0, g1, g2, g3, g4, g5, g6, g7, hhi⟩ : ∃ g0 g1 g2 g3 g4 g5 g6 g7, w.decHi = [g0, g1, g2, g3, g4, g5, g6, g7] := by
    match h : w.decHi, l2 with
    | [g0, g1, g2, g3, g4, g5, g6, g7], _ => exact ⟨g0, g1, g2, g3, g4, g5, g6, g7, rfl⟩
  have tl : ∀ k : ℕ, tap w.decLo (k : ℤ) = [h0, h1, h2, h3, h4, h5, h6, h7].getD k 0 := by
    intro k; rw [tap_nat, hlo]
  have th : ∀ k : ℕ, tap w.decHi (k : ℤ) = [g0, g1, g2, g3, g4, g5, g6, g7].getD k 0 := by
    intro k; rw [tap_nat, hhi]
  have L0 := tl 0
  have L1 := tl 1
  have L2 := tl 2
  have L3 := tl 3
  have L4 := tl 4
  have L5 := tl 5
  have L6 := tl 6
  have H0 := th 0
  have H1 := th 1
  have H2 := th 2
  have H3 := th 3
  have H4 := th 4
  have H5 := th 5
  have H6 := th 6
  norm_num at L0 L1 L2 L3 L4 L5 L6 H0 H1 H2 H3 H4 H5 H6
  have a0 := hw.lo_lo 0
  have a1 := hw.lo_lo 1
  have a2 := hw.lo_lo 2
  have a3 := hw.lo_lo 3
  have b0 := hw.hi_hi 0
  have b1 := hw.hi_hi 1
  have c0 := hw.lo_hi 0
  have c1 := hw.lo_hi 1
  have c2 := hw.lo_hi 2
  have c3 := hw.lo_hi 3
  have d1 := hw.lo_hi (-1)
  simp [Finset.sum_range_succ, tap, hlo, hhi] at a0 a1 a2 a3 b0 b1 c0 c1 c2 c3 d1
  intro a b hab
  have q0 := hab 0
  have q1 := hab 1
  have q2 := hab 2
  have q3 := hab 3
  have q4 := hab 4
  have q5 := hab 5
  have q6 := hab 6
  simp only [Nat.reduceDiv, Finset.sum_range_succ, Finset.sum_range_zero, Nat.cast_zero, Nat.cast_one, mul_zero, add_zero, zero_add] at q0 q1 q2 q3 q4 q5 q6
  norm_num at q0 q1 q2 q3 q4 q5 q6
  rw [tap_neg' w.decLo (by norm_num : (-1 : ℤ) < 0), tap_neg' w.decHi (by norm_num : (-1 : ℤ) < 0)] at q5
  rw [tap_neg' w.decLo (by norm_num : (-2 : ℤ) < 0), tap_neg' w.decHi (by norm_num : (-2 : ℤ) < 0)] at q6
  simp only [L0, L1, L2, L3, L4, L5, L6, H0, H1, H2, H3, H4, H5, H6] at q0 q1 q2 q3 q4 q5 q6
  set x := a 0
  set y := b 0
  set z := a 1
  set t := b 1
  obtain ⟨p, hp⟩ : ∃ p, p = x * h5 + y * g5 + z * h7 + t * g7 := ⟨_, rfl⟩
  obtain ⟨q, hq⟩ : ∃ q, q = x * h6 + y * g6 := ⟨_, rfl⟩
  obtain ⟨r, hr⟩ : ∃ r, r = x * h7 + y * g7 := ⟨_, rfl⟩
  have s1 : q * h0 + r * h1 = 0 := by rw [hq, hr]; linear_combination x * a3 + y * c3
  have s3 : p * h1 + q * h2 + r * h3 = 0 := by
    rw [hp, hq, hr]; linear_combination x * a2 + y * c2 + z * a3 + t * c3 - h0 * q0
  have s5 : p * h3 + q * h4 + r * h5 = 0 := by
    rw [hp, hq, hr]; linear_combination x * a1 + y * c1 + z * a2 + t * c2 - h2 * q0 - h1 * q1 - h0 * q2
  have zp : p = 0 := by
    refine (mul_eq_zero.mp (?_ : p * (h1 * (h1 * h4 - h2 * h3) - h0 * (h1 * h5 - h3 * h3)) = 0)).resolve_right hD
    linear_combination (h2 * h5 - h3 * h4) * s1 + (h1 * h4 - h0 * h5) * s3 + (h0 * h3 - h1 * h2) * s5
  have zq : q = 0 := by
    refine (mul_eq_zero.mp (?_ : q * (h1 * (h1 * h4 - h2 * h3) - h0 * (h1 * h5 - h3 * h3)) = 0)).resolve_right hD
    linear_combination (h3 * h3 - h1 * h5) * s1 + (-(h1 * h3)) * s3 + (h1 * h1) * s5
  have zr : r = 0 := by
    refine (mul_eq_zero.mp (?_ : r * (h1 * (h1 * h4 - h2 * h3) - h0 * (h1 * h5 - h3 * h3)) = 0)).resolve_right hD
    linear_combination (h1 * h4 - h2 * h3) * s1 + (h0 * h3) * s3 + (-(h0 * h1)) * s5
  rw [zp] at hp
  rw [zq] at hq
  rw [zr] at hr
  have fx : x = 0 := by
    linear_combination (-h5) * hp - h6 * hq - h7 * hr + h4 * q0 + h3 * q1 + h2 * q2 + h1 * q3 + h0 * q4
      - x * a0 - y * c0 - z * a1 - t * c1
  have fy : y = 0 := by
    linear_combination (-g5) * hp - g6 * hq - g7 * hr + g4 * q0 + g3 * q1 + g2 * q2 + g1 * q3 + g0 * q4
      - x * c0 - y * b0 - z * d1 - t * b1
  have fz : z = 0 := by
    linear_combination (-h7) * hp + h6 * q0 + h5 * q1 + h4 * q2 + h3 * q3 + h2 * q4 + h1 * q5 + h0 * q6
      - x * a1 - y * d1 - z * a0 - t * c0
  have ft : t = 0 := by
    linear_combination (-g7) * hp + g6 * q0 + g5 * q1 + g4 * q2 + g3 * q3 + g2 * q4 + g1 * q5 + g0 * q6
      - x * c1 - y * b1 - z * c0 - t * b0
  intro i hi
  have : i = 0 ∨ i = 1 := by omega
  rcases this with rfl | rfl
  · exact ⟨fx, fy⟩
  · exact ⟨fz, ft⟩
/-- An orthogonal bank with six rational taps (a lattice of three rotations). -/
noncomputable def bank6 : Wavelet ℝ where
  decLo := [36 / 125, 48 / 125, 72 / 125, 21 / 125, -64 / 125, 48 / 125]
  decHi := [48 / 125, 64 / 125, 21 / 125, -72 / 125, 48 / 125, -36 / 125]
  recLo := [48 / 125, -64 / 125, 21 / 125, 72 / 125, 48 / 125, 36 / 125]
  recHi := [-36 / 125, 48 / 125, -72 / 125, 21 / 125, 64 / 125, 48 / 125]

/-- An orthogonal bank with eight rational taps (a lattice of four rotations). -/
noncomputable def bank8 : Wavelet ℝ where
  decLo := [144 / 625, 192 / 625, 144 / 625, -108 / 625, -319 / 625, 408 / 625, -144 / 625, 108 / 625]
  decHi := [-108 / 625, -144 / 625, -408 / 625, -319 / 625, 108 / 625, 144 / 625, -192 / 625, 144 / 625]
  recLo := [108 / 625, -144 / 625, 408 / 625, -319 / 625, -108 / 625, 144 / 625, 192 / 625, 144 / 625]
  recHi := [144 / 625, -192 / 625, 144 / 625, 108 / 625, -319 / 625, -408 / 625, -144 / 625, -108 / 625]

theorem bank6_orth : OrthBank bank6 6 := by
  have key : ∀ m : ℤ, -((6 : ℕ) : ℤ) < 2 * m → 2 * m < ((6 : ℕ) : ℤ) → m = -2 ∨ m = -1 ∨ m = 0 ∨ m = 1 ∨ m = 2 := by
    intro m h1 h2; push_cast at h1 h2; omega
  refine orthBank_of ⟨rfl, rfl, rfl, rfl⟩ (by norm_num) rfl ?_ ?_ ?_ rfl rfl <;>
  · intro m h1 h2
    rcases key m h1 h2 with rfl | rfl | rfl | rfl | rfl <;>
      simp [Finset.sum_range_succ, tap, bank6] <;> norm_num

theorem bank8_orth : OrthBank bank8 8 := by
  have key : ∀ m : ℤ, -((8 : ℕ) : ℤ) < 2 * m → 2 * m < ((8 : ℕ) : ℤ) →
      m = -3 ∨ m = -2 ∨ m = -1 ∨ m = 0 ∨ m = 1 ∨ m = 2 ∨ m = 3 := by
    intro m h1 h2; push_cast at h1 h2; omega
  refine orthBank_of ⟨rfl, rfl, rfl, rfl⟩ (by norm_num) rfl ?_ ?_ ?_ rfl rfl <;>
  · intro m h1 h2
    rcases key m h1 h2 with rfl | rfl | rfl | rfl | rfl | rfl | rfl <;>
      simp [Finset.sum_range_succ, tap, bank8] <;> norm_num

theorem bank6_flip : AlternatingFlip bank6 6 1 := by
  intro k hk
  interval_cases k <;> simp [tap, bank6] <;> norm_num

theorem bank8_flip : AlternatingFlip bank8 8 (-1) := by
  intro k hk
  interval_cases k <;> simp [tap, bank8] <;> norm_num

end Verif

