/-
Linear algebra of orthogonal filter matrices on an interval.
-/
import Verif.Spec.Orth
import Verif.Lemmas.ConvMat
import Mathlib.LinearAlgebra.LinearIndependent.Lemmas
import Mathlib.LinearAlgebra.Dimension.Constructions
import Mathlib.LinearAlgebra.Matrix.NonsingularInverse
import Mathlib.Data.Matrix.Mul
import Mathlib.Data.Real.Sqrt

namespace Verif
open Spec
variable {R : Type}

theorem sum_shift [CommRing R] {f g : List R} {n c : Nat} {c' : ℤ} (h1 : f.length ≤ c + 1)
    (h2 : c < n) :
    (∑ j ∈ Finset.range n, tap f (c - j) * tap g (c' - j)) =
      ∑ k ∈ Finset.range f.length, tap f k * tap g (k + (c' - c)) := by
  symm
  refine Finset.sum_of_injOn (fun k => c - k) ?_ ?_ ?_ ?_
  · intro a ha b hb h
    simp only [Finset.coe_range, Set.mem_Iio] at ha hb
    simp only at h; omega
  · intro a ha
    simp only [Finset.coe_range, Set.mem_Iio] at ha ⊢
    omega
  · intro j hj hn
    have : (c : ℤ) - j < 0 ∨ (f.length : ℤ) ≤ c - j := by
      by_contra hc
      push Not at hc
      apply hn
      exact ⟨c - j, by simp only [Finset.coe_range, Set.mem_Iio]; omega, by simp only; omega⟩
    rcases this with h | h
    · rw [tap_neg' f h, zero_mul]
    · rw [tap_large f h, zero_mul]
  · intro k hk
    have := Finset.mem_range.mp hk
    have e : ((c - k : ℕ) : ℤ) = c - k := by omega
    simp only [e]
    congr 2 <;> ring

theorem dot_comm [CommRing R] (n : Nat) (u v : Nat → R) : dot n u v = dot n v u := by
  unfold dot; exact Finset.sum_congr rfl fun j _ => mul_comm _ _

/-- A row inside the interval is a unit vector orthogonal to every other row. -/
theorem filterRow_full [CommRing R] {w : Wavelet R} {F n : Nat} (hw : OrthBank w F) (hn : n % 2 = 0)
    {r s : Nat} (hr : r < n) (hs : s < n) (hf : ¬ Truncated F n r) :
    dot n (filterRow w F n r) (filterRow w F n s) = if r = s then 1 else 0 := by
  obtain ⟨l1, l2, _, _⟩ := hw.len
  have h2 := hw.two_le
  have he := hw.even
  unfold Truncated at hf
  push Not at hf
  have hflip : ∀ m : ℤ, (∑ k ∈ Finset.range F, tap w.decHi k * tap w.decLo (k + 2 * m)) = 0 := by
    intro m
    have := hw.lo_hi (-m)
    set c : Nat := F + 2 * m.natAbs with hc
    have a1 := sum_shift (f := w.decLo) (g := w.decHi) (n := c + F + 2 * m.natAbs + 2) (c := c) (c' := c + 2 * (-m))
      (by rw [l1]; omega) (by omega)
    have a2 := sum_shift (f := w.decHi) (g := w.decLo) (n := c + F + 2 * m.natAbs + 2) (c := (c + 2 * (-m) : ℤ).toNat) (c' := c)
      (by rw [l2]; omega) (by omega)
    have e : (((c + 2 * (-m) : ℤ).toNat : ℕ) : ℤ) = c + 2 * (-m) := by omega
    rw [e] at a2
    rw [l1] at a1
    rw [l2] at a2
    have e1 : (c : ℤ) + 2 * -m - c = 2 * -m := by ring
    have e2 : (c : ℤ) - (c + 2 * -m) = 2 * m := by ring
    rw [e1, this] at a1
    rw [e2] at a2
    rw [← a2, ← a1]
    exact Finset.sum_congr rfl fun j _ => mul_comm _ _
  have key : ∀ (f g : List R) (i : ℕ) (i' : ℤ), f.length = F → F / 2 ≤ 2 * i + 1 → 2 * i + F / 2 < n →
      (∑ j ∈ Finset.range n, tap f ((F / 2 : ℕ) + 2 * (i : ℤ) - j) * tap g ((F / 2 : ℕ) + 2 * i' - j)) =
        ∑ k ∈ Finset.range F, tap f k * tap g (k + 2 * (i' - i)) := by
    intro f g i i' hl ha hb
    have := sum_shift (f := f) (g := g) (n := n) (c := F / 2 + 2 * i) (c' := (F / 2 : ℕ) + 2 * i')
      (by rw [hl]; omega) (by omega)
    rw [hl] at this
    have e : ((F / 2 + 2 * i : ℕ) : ℤ) = (F / 2 : ℕ) + 2 * (i : ℤ) := by push_cast; ring
    rw [e] at this
    rw [this]
    refine Finset.sum_congr rfl fun k _ => ?_
    congr 2; ring
  unfold rowShift at hf
  unfold dot filterRow
  by_cases h1 : r < n / 2
  · rw [if_pos h1] at hf
    simp only [if_pos h1]
    by_cases h3 : s < n / 2
    · simp only [if_pos h3]
      rw [key _ _ r s l1 hf.1 hf.2, hw.lo_lo]
      by_cases h : r = s
      · rw [if_pos h, if_pos (by omega)]
      · rw [if_neg h, if_neg (by omega)]
    · simp only [if_neg h3]
      rw [key _ _ r _ l1 hf.1 hf.2, hw.lo_hi, if_neg (by omega)]
  · rw [if_neg h1] at hf
    simp only [if_neg h1]
    have e : ((r : ℤ) - (n / 2 : ℕ)) = ((r - n / 2 : ℕ) : ℤ) := by omega
    simp only [e]
    by_cases h3 : s < n / 2
    · simp only [if_pos h3]
      rw [key _ _ _ s l2 hf.1 hf.2, hflip, if_neg (by omega)]
    · simp only [if_neg h3]
      rw [key _ _ _ _ l2 hf.1 hf.2, hw.hi_hi]
      by_cases h : r = s
      · rw [if_pos h, if_pos (by omega)]
      · rw [if_neg h, if_neg (by omega)]

/-- The vector of the first `n` entries. -/
def vec (n : Nat) (u : Nat → ℝ) : Fin n → ℝ := fun j => u j

theorem dot_vec (n : Nat) (u v : Nat → ℝ) : dot n u v = vec n u ⬝ᵥ vec n v := by
  unfold dot dotProduct vec
  rw [Finset.sum_range]

/-- A vector orthogonal to a set is orthogonal to its span. -/
theorem dot_span {n : Nat} {S : Set (Fin n → ℝ)} {u v : Fin n → ℝ} (h : ∀ s ∈ S, u ⬝ᵥ s = 0)
    (hv : v ∈ Submodule.span ℝ S) : u ⬝ᵥ v = 0 := by
  induction hv using Submodule.span_induction with
  | mem x hx => exact h x hx
  | zero => exact dotProduct_zero u
  | add x y _ _ hx hy => rw [dotProduct_add, hx, hy, add_zero]
  | smul a x _ hx => rw [dotProduct_smul, hx, smul_zero]

/-- Replacing the truncated rows by an orthonormal family in their span gives an orthogonal matrix. -/
theorem orthonormal_of_span {n : Nat} {A B : Nat → Nat → ℝ} {T : Set ℕ}
    (hfull : ∀ r s, r < n → s < n → r ∉ T → dot n (A r) (A s) = if r = s then 1 else 0)
    (hT : ∀ r ∈ T, r < n)
    (hsame : ∀ r, r < n → r ∉ T → vec n (B r) = vec n (A r))
    (hon : ∀ r ∈ T, ∀ s ∈ T, dot n (B r) (B s) = if r = s then 1 else 0)
    (hspan : ∀ r ∈ T, vec n (B r) ∈ Submodule.span ℝ ((fun r => vec n (A r)) '' T)) :
    OrthonormalRows n B := by
  have key : ∀ r s, r < n → r ∉ T → s ∈ T → dot n (B r) (B s) = 0 := by
    intro r s hr h1 h2
    rw [dot_vec, hsame r hr h1]
    refine dot_span ?_ (hspan s h2)
    rintro _ ⟨t, ht, rfl⟩
    show vec n (A r) ⬝ᵥ vec n (A t) = 0
    rw [← dot_vec, hfull r t hr (hT t ht) h1, if_neg]
    rintro rfl; exact h1 ht
  intro r s hr hs
  by_cases h1 : r ∈ T
  · by_cases h2 : s ∈ T
    · exact hon r h1 s h2
    · rw [dot_comm, key s r hs h2 h1, if_neg]
      rintro rfl; exact h2 h1
  · by_cases h2 : s ∈ T
    · rw [key r s hr h1 h2, if_neg]
      rintro rfl; exact h1 h2
    · rw [dot_vec, hsame r hr h1, hsame s hs h2, ← dot_vec, hfull r s hr hs h1]

/-- A square matrix with orthonormal rows has orthonormal columns. -/
theorem orthonormal_cols {n : Nat} {B : Nat → Nat → ℝ} (h : OrthonormalRows n B) :
    OrthonormalCols n B := by
  set M : Matrix (Fin n) (Fin n) ℝ := fun i j => B i j with hM
  have h1 : M * M.transpose = 1 := by
    ext i j
    rw [Matrix.mul_apply, Matrix.one_apply]
    have := h i j i.2 j.2
    unfold dot at this
    rw [Finset.sum_range] at this
    refine Eq.trans ?_ (this.trans (by simp only [Fin.ext_iff]))
    exact Finset.sum_congr rfl fun x _ => rfl
  have h2 := mul_eq_one_comm.mp h1
  intro r s hr hs
  have := congrFun (congrFun h2 ⟨r, hr⟩) ⟨s, hs⟩
  rw [Matrix.mul_apply, Matrix.one_apply] at this
  unfold dot
  rw [Finset.sum_range]
  refine Eq.trans ?_ (this.trans (by simp only [Fin.mk.injEq]))
  exact Finset.sum_congr rfl fun x _ => rfl

theorem sum_sq_zero {n : Nat} {v : Fin n → ℝ} (h : v ⬝ᵥ v = 0) : v = 0 := by
  funext i
  have := (Finset.sum_eq_zero_iff_of_nonneg (fun i _ => mul_self_nonneg (v i))).mp h i (Finset.mem_univ i)
  exact mul_self_eq_zero.mp this

/-- One step of Gram-Schmidt. -/
theorem gs_step {n : Nat} {A B : Nat → Nat → ℝ} {T : Set ℕ} {done : List Nat} {k : Nat}
    (hind : LinearIndepOn ℝ (fun r : ℕ => vec n (A r)) T) (hd : ∀ d ∈ done, d ∈ T) (hk : k ∈ T)
    (hkd : k ∉ done) (hnd : done.Nodup)
    (hsame : vec n (B k) = vec n (A k))
    (hon : ∀ r ∈ done, ∀ s ∈ done, dot n (B r) (B s) = if r = s then 1 else 0)
    (hspan : ∀ r ∈ done, vec n (B r) ∈ Submodule.span ℝ ((fun r => vec n (A r)) '' {r | r ∈ done}))
    {o : Nat → ℝ}
    (ho : vec n o = vec n (B k) - ∑ d ∈ done.toFinset, dot n (B k) (B d) • vec n (B d)) :
    let v := fun j => o j / Real.sqrt (dot n o o)
    dot n v v = 1 ∧ (∀ d ∈ done, dot n v (B d) = 0) ∧
      vec n v ∈ Submodule.span ℝ ((fun r => vec n (A r)) '' {r | r ∈ done ++ [k]}) := by
  intro v
  have hP : (∑ d ∈ done.toFinset, dot n (B k) (B d) • vec n (B d)) ∈
      Submodule.span ℝ ((fun r => vec n (A r)) '' {r | r ∈ done}) :=
    Submodule.sum_mem _ fun d h => Submodule.smul_mem _ _ (hspan d (by simpa using h))
  have hne : vec n o ≠ 0 := by
    intro h
    rw [h] at ho
    have h1 := (sub_eq_zero.mp ho.symm)
    rw [hsame] at h1
    rw [← h1] at hP
    have hk' : k ∉ {r | r ∈ done} := hkd
    have := (hind.mono (t := insert k {r | r ∈ done}) (by
      rintro x (rfl | hx)
      · exact hk
      · exact hd x hx)).notMem_span_of_insert hk'
    exact this hP
  have hpos : 0 < dot n o o := by
    rw [dot_vec]
    rcases lt_or_eq_of_le (show 0 ≤ vec n o ⬝ᵥ vec n o from Finset.sum_nonneg fun i _ => mul_self_nonneg _) with h | h
    · exact h
    · exact absurd (sum_sq_zero h.symm) hne
  have hsq : Real.sqrt (dot n o o) ≠ 0 := (Real.sqrt_pos.mpr hpos).ne'
  have hv : vec n v = (Real.sqrt (dot n o o))⁻¹ • vec n o := by
    funext j
    show o j / _ = _ * o j
    rw [div_eq_inv_mul]
  refine ⟨?_, ?_, ?_⟩
  · rw [dot_vec, hv, smul_dotProduct, dotProduct_smul, ← dot_vec]
    simp only [smul_eq_mul]
    have := Real.mul_self_sqrt hpos.le
    field_simp
    rw [sq, this]
  · intro d hdd
    rw [dot_vec, hv, smul_dotProduct]
    have : vec n o ⬝ᵥ vec n (B d) = 0 := by
      rw [ho, sub_dotProduct, sum_dotProduct, Finset.sum_eq_single d]
      · rw [smul_dotProduct, ← dot_vec, ← dot_vec, hon d hdd d hdd, if_pos rfl]
        simp
      · intro e he hne
        rw [smul_dotProduct, ← dot_vec, hon e (by simpa using he) d hdd, if_neg hne, smul_zero]
      · intro h; exact absurd (by simpa using hdd) h
    rw [this, smul_zero]
  · rw [hv, ho, hsame]
    refine Submodule.smul_mem _ _ (Submodule.sub_mem _ (Submodule.subset_span ⟨k, by simp, rfl⟩) ?_)
    refine Submodule.span_mono (Set.image_mono ?_) hP
    intro x hx
    simp only [Set.mem_ofPred_eq, List.mem_append] at hx ⊢
    exact Or.inl hx

/-- Orthonormal vectors in whose span `m` independent vectors lie are in the span of these. -/
theorem qr_span {n m : Nat} {a q : Fin m → Fin n → ℝ} (hind : LinearIndependent ℝ a)
    (ha : ∀ k, a k ∈ Submodule.span ℝ (Set.range q)) (k : Fin m) :
    q k ∈ Submodule.span ℝ (Set.range a) := by
  have hle : Submodule.span ℝ (Set.range a) ≤ Submodule.span ℝ (Set.range q) :=
    Submodule.span_le.mpr (by rintro _ ⟨k, rfl⟩; exact ha k)
  have h1 : Module.finrank ℝ (Submodule.span ℝ (Set.range q)) ≤ m := by
    have := finrank_range_le_card (R := ℝ) q
    simpa [Set.finrank] using this
  have h2 : Module.finrank ℝ (Submodule.span ℝ (Set.range a)) = m := by
    have := finrank_span_eq_card hind
    simpa using this
  have := Submodule.eq_of_le_of_finrank_le hle (by rw [h2]; exact h1)
  rw [this]
  exact Submodule.subset_span ⟨k, rfl⟩

end Verif
