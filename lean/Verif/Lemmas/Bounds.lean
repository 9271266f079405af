/-
Bounds for filters, transforms and their differences (C70).
-/
import Verif.Lemmas.FamilyPacket
import Verif.Props.Conv1
import Verif.Props.ConvNd
import Verif.Spec.Bounds
import Mathlib.Algebra.Order.BigOperators.Ring.Finset
import Mathlib.Algebra.Order.Ring.Abs
import Mathlib.Tactic.LinearCombination

namespace Verif.Props
open Verif.Spec Tensor
variable {R : Type} [CommRing R] [LinearOrder R] [IsStrictOrderedRing R]

theorem closed_dom : Closed (Dom (R := R)) where
  zero := by simp [Dom]
  add h h' := (abs_add_le _ _).trans (add_le_add h h')
  mul {a b c d} h h' := by
    unfold Dom at *
    rw [abs_mul]
    exact mul_le_mul h h' (abs_nonneg _) ((abs_nonneg _).trans h)

theorem l1_eq (h : List R) : l1 h = ∑ j ∈ Finset.range h.length, |h.getD j 0| := by
  unfold l1
  induction h with
  | nil => simp
  | cons a h ih => simp [Finset.sum_range_succ', ih, add_comm]

theorem l1_nonneg (h : List R) : 0 ≤ l1 h := by
  rw [l1_eq]; exact Finset.sum_nonneg fun _ _ => abs_nonneg _

theorem l1_diff {h h' : List R} (hl : h'.length = h.length) :
    l1 (List.zipWith (· - ·) h h') = ∑ j ∈ Finset.range h.length, |h.getD j 0 - h'.getD j 0| := by
  rw [l1_eq]
  have : (List.zipWith (· - ·) h h').length = h.length := by simp [hl]
  rw [this]
  refine Finset.sum_congr rfl fun j hj => ?_
  have hj := Finset.mem_range.1 hj
  simp [List.getD_eq_getElem?_getD, List.getElem?_zipWith, hj, hl]

theorem abs_ext_le {m : Mode} {n : Nat} {x : Nat → R} {M : R} (hx : ∀ j, |x j| ≤ M) (i : ℤ) : |ext m n x i| ≤ M := by
  unfold ext
  split
  · exact hx _
  · rw [abs_zero]; exact (abs_nonneg _).trans (hx 0)

theorem ext_sub {m : Mode} {n : Nat} (x x' : Nat → R) (i : ℤ) :
    ext m n x i - ext m n x' i = ext m n (fun j => x j - x' j) i := by
  unfold ext
  split <;> simp

theorem analysis_le (h : List R) {e : ℤ → R} {M : R} (he : ∀ i, |e i| ≤ M) (k : Nat) : |analysis h e k| ≤ l1 h * M := by
  unfold analysis
  refine (Finset.abs_sum_le_sum_abs _ _).trans ?_
  rw [l1_eq, Finset.sum_mul]
  refine Finset.sum_le_sum fun j _ => ?_
  rw [abs_mul]
  exact mul_le_mul_of_nonneg_left (he _) (abs_nonneg _)

theorem analysis_diff_le {h h' : List R} (hl : h'.length = h.length) {e e' : ℤ → R} {M δ : R} (he : ∀ i, |e' i| ≤ M)
    (hd : ∀ i, |e i - e' i| ≤ δ) (k : Nat) :
    |analysis h e k - analysis h' e' k| ≤ l1 h * δ + l1 (List.zipWith (· - ·) h h') * M := by
  unfold analysis
  rw [hl, ← Finset.sum_sub_distrib]
  refine (Finset.abs_sum_le_sum_abs _ _).trans ?_
  rw [l1_eq h, l1_diff hl, Finset.sum_mul, Finset.sum_mul, ← Finset.sum_add_distrib]
  refine Finset.sum_le_sum fun j _ => ?_
  have : ∀ a b c d : R, a * b - c * d = a * (b - d) + (a - c) * d := fun a b c d => by ring
  rw [this]
  refine (abs_add_le _ _).trans ?_
  rw [abs_mul, abs_mul]
  exact add_le_add (mul_le_mul_of_nonneg_left (hd _) (abs_nonneg _)) (mul_le_mul_of_nonneg_left (he _) (abs_nonneg _))

theorem cA_le {m : Mode} {w : Wavelet R} {n : Nat} {x : Nat → R} {M : R} (hx : ∀ j, |x j| ≤ M) :
    ∀ s k, |cA m w n x s k| ≤ l1 w.decLo ^ s * M
  | 0, k => by simpa [cA] using hx k
  | s + 1, k => by
    rw [pow_succ', mul_assoc]
    exact analysis_le _ (abs_ext_le (cA_le hx s)) k

theorem cD_le {m : Mode} {w : Wavelet R} {n : Nat} {x : Nat → R} {M : R} (hx : ∀ j, |x j| ≤ M) (s k : Nat) :
    |cD m w n x s k| ≤ l1 w.decHi * (l1 w.decLo ^ s * M) :=
  analysis_le _ (abs_ext_le (cA_le hx s)) k

/-- Two runs. -/
theorem cA_diff_le {m : Mode} {w w' : Wavelet R} (hl : w'.decLo.length = w.decLo.length) {n : Nat} {x x' : Nat → R}
    {M δ H η : R} (hx : ∀ j, |x' j| ≤ M) (hd : ∀ j, |x j - x' j| ≤ δ) (hH : l1 w.decLo ≤ H) (hH' : l1 w'.decLo ≤ H)
    (hη : l1 (List.zipWith (· - ·) w.decLo w'.decLo) ≤ η) :
    ∀ s k, |cA m w n x s k - cA m w' n x' s k| ≤ H ^ s * δ + s * H ^ (s - 1) * η * M
  | 0, k => by simpa [cA] using hd k
  | s + 1, k => by
    have hM : 0 ≤ M := (abs_nonneg _).trans (hx 0)
    have hH0 : 0 ≤ H := (l1_nonneg _).trans hH
    have ih := cA_diff_le (m := m) hl hx hd hH hH' hη (n := n) s
    have hlen : w'.len = w.len := hl
    have h1 : ∀ i, |ext m (levelLen w.len n s) (cA m w n x s) i - ext m (levelLen w.len n s) (cA m w' n x' s) i| ≤
        H ^ s * δ + s * H ^ (s - 1) * η * M :=
      fun i => by rw [ext_sub]; exact abs_ext_le ih i
    have h2 : ∀ i, |ext m (levelLen w.len n s) (cA m w' n x' s) i| ≤ H ^ s * M := fun i =>
      (abs_ext_le (cA_le hx s) i).trans
        (mul_le_mul_of_nonneg_right (pow_le_pow_left₀ (l1_nonneg _) hH' s) hM)
    have h3 := analysis_diff_le hl h2 h1 k
    show |analysis w.decLo _ k - analysis w'.decLo _ k| ≤ _
    rw [hlen]
    refine h3.trans ?_
    have e1 : 0 ≤ H ^ s * δ + s * H ^ (s - 1) * η * M := (abs_nonneg _).trans (ih 0)
    have e2 : 0 ≤ H ^ s * M := mul_nonneg (pow_nonneg hH0 _) hM
    refine (add_le_add (mul_le_mul_of_nonneg_right hH e1) (mul_le_mul_of_nonneg_right hη e2)).trans (le_of_eq ?_)
    rcases s with _ | s
    · simp
    · simp only [Nat.add_sub_cancel]
      push_cast
      ring

theorem cD_diff_le {m : Mode} {w w' : Wavelet R} (hl : w'.decLo.length = w.decLo.length)
    (hh : w'.decHi.length = w.decHi.length) {n : Nat} {x x' : Nat → R}
    {M δ H η G κ : R} (hx : ∀ j, |x' j| ≤ M) (hd : ∀ j, |x j - x' j| ≤ δ) (hH : l1 w.decLo ≤ H) (hH' : l1 w'.decLo ≤ H)
    (hη : l1 (List.zipWith (· - ·) w.decLo w'.decLo) ≤ η) (hG : l1 w.decHi ≤ G)
    (hκ : l1 (List.zipWith (· - ·) w.decHi w'.decHi) ≤ κ) (s k : Nat) :
    |cD m w n x s k - cD m w' n x' s k| ≤ G * (H ^ s * δ + s * H ^ (s - 1) * η * M) + κ * (H ^ s * M) := by
  have hM : 0 ≤ M := (abs_nonneg _).trans (hx 0)
  have hH0 : 0 ≤ H := (l1_nonneg _).trans hH
  have ih := cA_diff_le (m := m) hl hx hd hH hH' hη (n := n) s
  have hlen : w'.len = w.len := hl
  have h1 : ∀ i, |ext m (levelLen w.len n s) (cA m w n x s) i - ext m (levelLen w.len n s) (cA m w' n x' s) i| ≤
        H ^ s * δ + s * H ^ (s - 1) * η * M :=
    fun i => by rw [ext_sub]; exact abs_ext_le ih i
  have h2 : ∀ i, |ext m (levelLen w.len n s) (cA m w' n x' s) i| ≤ H ^ s * M := fun i =>
    (abs_ext_le (cA_le hx s) i).trans
      (mul_le_mul_of_nonneg_right (pow_le_pow_left₀ (l1_nonneg _) hH' s) hM)
  have h3 := analysis_diff_le hh h2 h1 k
  show |analysis w.decHi _ k - analysis w'.decHi _ k| ≤ _
  rw [hlen]
  refine h3.trans ?_
  have e1 : 0 ≤ H ^ s * δ + s * H ^ (s - 1) * η * M := (abs_nonneg _).trans (ih 0)
  have e2 : 0 ≤ H ^ s * M := mul_nonneg (pow_nonneg hH0 _) hM
  exact add_le_add (mul_le_mul_of_nonneg_right hG e1) (mul_le_mul_of_nonneg_right hκ e2)

/-- The taps that meet one output sample. -/
theorem taps_le (f : List R) (K : Nat) (m : ℤ) : ∑ k ∈ Finset.range K, |tap f (m - 2 * k)| ≤ l1 f := by
  classical
  rw [l1_eq]
  have h1 : ∑ k ∈ Finset.range K, |tap f (m - 2 * k)| =
      ∑ k ∈ (Finset.range K).filter (fun k : Nat => 0 ≤ m - 2 * (k : ℤ) ∧ (m - 2 * (k : ℤ)).toNat < f.length),
        |f.getD (m - 2 * (k : ℤ)).toNat 0| := by
    rw [Finset.sum_filter]
    refine Finset.sum_congr rfl fun k _ => ?_
    unfold tap
    by_cases h0 : 0 ≤ m - 2 * (k : ℤ)
    · by_cases h2 : (m - 2 * (k : ℤ)).toNat < f.length
      · rw [if_pos h0, if_pos ⟨h0, h2⟩]
      · rw [if_pos h0, if_neg (fun h => h2 h.2), List.getD_eq_default _ _ (by omega), abs_zero]
    · rw [if_neg h0, if_neg (fun h => h0 h.1), abs_zero]
  rw [h1, ← Finset.sum_image (s := (Finset.range K).filter (fun k : Nat => 0 ≤ m - 2 * (k : ℤ) ∧
    (m - 2 * (k : ℤ)).toNat < f.length)) (g := fun k : Nat => (m - 2 * (k : ℤ)).toNat) (f := fun j => |f.getD j 0|)]
  · refine Finset.sum_le_sum_of_subset_of_nonneg ?_ fun _ _ _ => abs_nonneg _
    intro j hj
    obtain ⟨k, hk, rfl⟩ := Finset.mem_image.1 hj
    exact Finset.mem_range.2 (Finset.mem_filter.1 hk).2.2
  · intro a ha b hb hab
    have h1 := (Finset.mem_filter.1 ha).2.1
    have h2 := (Finset.mem_filter.1 hb).2.1
    simp only at hab
    omega

theorem synthesis_le (f₀ f₁ : List R) (K : Nat) {lo hi : Nat → R} {A D : R} (hA : ∀ k, |lo k| ≤ A)
    (hD : ∀ k, |hi k| ≤ D) (m : ℤ) : |synthesis f₀ f₁ K lo hi m| ≤ l1 f₀ * A + l1 f₁ * D := by
  unfold synthesis
  rw [Finset.sum_add_distrib]
  refine (abs_add_le _ _).trans (add_le_add ?_ ?_)
  · refine (Finset.abs_sum_le_sum_abs _ _).trans (le_trans ?_
      (mul_le_mul_of_nonneg_right (taps_le f₀ K m) ((abs_nonneg _).trans (hA 0))))
    rw [Finset.sum_mul]
    refine Finset.sum_le_sum fun j _ => ?_
    rw [abs_mul]
    exact mul_le_mul_of_nonneg_left (hA _) (abs_nonneg _)
  · refine (Finset.abs_sum_le_sum_abs _ _).trans (le_trans ?_
      (mul_le_mul_of_nonneg_right (taps_le f₁ K m) ((abs_nonneg _).trans (hD 0))))
    rw [Finset.sum_mul]
    refine Finset.sum_le_sum fun j _ => ?_
    rw [abs_mul]
    exact mul_le_mul_of_nonneg_left (hD _) (abs_nonneg _)

theorem synthesis_sub (f₀ f₁ : List R) (K : Nat) (lo hi lo' hi' : Nat → R) (m : ℤ) :
    synthesis f₀ f₁ K lo hi m - synthesis f₀ f₁ K lo' hi' m =
      synthesis f₀ f₁ K (fun k => lo k - lo' k) (fun k => hi k - hi' k) m := by
  unfold synthesis
  rw [← Finset.sum_sub_distrib]
  exact Finset.sum_congr rfl fun k _ => by ring

theorem idwt_le (f₀ f₁ : List R) (F : Nat) : ∀ (ds : List (Nat × (Nat → R))) (Ds : List R) {lo : Nat → R} {A : R},
    (∀ k, |lo k| ≤ A) → List.Forall₂ (fun d D => ∀ k, |d.2 k| ≤ D) ds Ds →
    ∀ k, |idwt f₀ f₁ F lo ds k| ≤ idwtBound (l1 f₀) (l1 f₁) A Ds
  | [], _, lo, A, hA, h, k => by cases h; exact hA k
  | (K, hi) :: ds, _, lo, A, hA, h, k => by
    cases h with
    | cons hd h => exact idwt_le f₀ f₁ F ds _ (fun m => synthesis_le f₀ f₁ K hA hd _) h k

theorem idwt_diff_le (f₀ f₁ : List R) (F : Nat) : ∀ (ds ds' : List (Nat × (Nat → R))) (Ds : List R) {lo lo' : Nat → R}
    {A : R}, (∀ k, |lo k - lo' k| ≤ A) → ds'.map Prod.fst = ds.map Prod.fst →
    List.Forall₂ (fun (d : (Nat × (Nat → R)) × (Nat × (Nat → R))) D => ∀ k, |d.1.2 k - d.2.2 k| ≤ D) (ds.zip ds') Ds →
    ∀ k, |idwt f₀ f₁ F lo ds k - idwt f₀ f₁ F lo' ds' k| ≤ idwtBound (l1 f₀) (l1 f₁) A Ds
  | [], [], _, lo, lo', A, hA, _, h, k => by cases h; exact hA k
  | [], _ :: _, _, lo, lo', A, hA, hm, h, k => by simp at hm
  | _ :: _, [], _, lo, lo', A, hA, hm, h, k => by simp at hm
  | (K, hi) :: ds, (K', hi') :: ds', _, lo, lo', A, hA, hm, h, k => by
    cases h with
    | cons hd h =>
      simp only [List.map_cons, List.cons.injEq] at hm
      obtain ⟨rfl, hm⟩ := hm
      refine idwt_diff_le f₀ f₁ F ds ds' _ (fun m => ?_) hm h k
      rw [synthesis_sub]
      exact synthesis_le f₀ f₁ _ hA hd _

/-- Several axes. -/
theorem dwtN_le (m : Mode) : ∀ (fs : List (List R × Nat)) {X : List Nat → R} {M : R},
    (∀ i, i.length = fs.length → |X i| ≤ M) →
    ∀ ks, ks.length = fs.length → |dwtN m fs X ks| ≤ (fs.map fun f => l1 f.1).prod * M
  | [], X, M, hX, [], _ => by simpa [dwtN] using hX [] rfl
  | (f, n) :: fs, X, M, hX, k :: ks, hk => by
    rw [List.map_cons, List.prod_cons, mul_assoc]
    exact analysis_le f (abs_ext_le fun j => dwtN_le m fs (fun js hjs => hX (j :: js) (by simp [hjs])) ks
      (by simpa using hk)) k

theorem prod_band (w : Wavelet R) : ∀ (bs : List Bool) (ns : List Nat), ns.length = bs.length →
    (((bandFilt w.decLo w.decHi bs).zip ns).map fun f => l1 f.1).prod = (bandNorms w bs).prod
  | [], _, _ => by simp [bandFilt, bandNorms]
  | b :: bs, n :: ns, h => by
    have := prod_band w bs ns (by simpa using h)
    simp only [bandFilt, bandNorms, List.map_cons, List.zip_cons_cons, List.prod_cons] at this ⊢
    rw [this]
    cases b <;> rfl

theorem bandN_le {m : Mode} {w : Wavelet R} {bs : List Bool} {ns : List Nat} (hb : ns.length = bs.length)
    {X : List Nat → R} {M : R} (hX : ∀ i, i.length = ns.length → |X i| ≤ M) (ks : List Nat)
    (hk : ks.length = ns.length) : |bandN m w bs ns X ks| ≤ (bandNorms w bs).prod * M := by
  have h0 : ((bandFilt w.decLo w.decHi bs).zip ns).length = ns.length := by simp [bandFilt, hb]
  have := dwtN_le m ((bandFilt w.decLo w.decHi bs).zip ns) (fun i hi => hX i (hi.trans h0)) ks (hk.trans h0.symm)
  rwa [prod_band w bs ns hb] at this

theorem bandNorms_low (w : Wavelet R) (n : Nat) : (bandNorms w (lowBand n)).prod = l1 w.decLo ^ n := by
  simp [bandNorms, lowBand]

theorem cAN_le {m : Mode} {w : Wavelet R} {ns : List Nat} {X : List Nat → R} {M : R}
    (hX : ∀ i, i.length = ns.length → |X i| ≤ M) :
    ∀ s ks, ks.length = ns.length → |cAN m w ns X s ks| ≤ (l1 w.decLo ^ ns.length) ^ s * M
  | 0, ks, hk => by simpa [cAN] using hX ks hk
  | s + 1, ks, hk => by
    rw [pow_succ', mul_assoc, ← bandNorms_low]
    have h0 : (levelLens w.len ns s).length = ns.length := by simp [levelLens]
    rw [bandNorms_low w ns.length]
    have := bandN_le (m := m) (w := w) (bs := lowBand ns.length) (ns := levelLens w.len ns s) (by simp [levelLens, lowBand])
      (fun i hi => cAN_le (m := m) (w := w) hX s i (hi.trans h0)) ks (hk.trans h0.symm)
    rwa [bandNorms_low] at this

theorem cDN_le {m : Mode} {w : Wavelet R} {ns : List Nat} {X : List Nat → R} {M : R}
    (hX : ∀ i, i.length = ns.length → |X i| ≤ M) (s : Nat) (bs : List Bool) (hb : bs.length = ns.length) (ks : List Nat)
    (hk : ks.length = ns.length) :
    |cDN m w ns X s bs ks| ≤ (bandNorms w bs).prod * ((l1 w.decLo ^ ns.length) ^ s * M) := by
  have h0 : (levelLens w.len ns s).length = ns.length := by simp [levelLens]
  exact bandN_le (by simp [levelLens, hb]) (fun i hi => cAN_le hX s i (hi.trans h0)) ks (hk.trans h0.symm)

theorem get_le_of {t : Tensor R} {B : R} (hB : 0 ≤ B) (h : ∀ idx, InB t.shape idx → |t.get idx| ≤ B) (idx : List Nat) :
    |t.get idx| ≤ B := by
  by_cases hi : InB t.shape idx
  · exact h idx hi
  · rw [t.supp idx hi, abs_zero]; exact hB

theorem isApprox_le {m : Mode} {w : Wavelet R} {ax : List Nat} {x t : Tensor R} {M : R} (hx : ∀ i, |x.get i| ≤ M)
    {L : Nat} (h : IsApprox m w ax x L t) (idx : List Nat) : |t.get idx| ≤ (l1 w.decLo ^ ax.length) ^ L * M := by
  have hM : 0 ≤ M := (abs_nonneg _).trans (hx [])
  refine get_le_of (mul_nonneg (pow_nonneg (pow_nonneg (l1_nonneg _) _) _) hM) (fun i hi => ?_) idx
  rw [h.get i hi]
  have := cAN_le (m := m) (w := w) (ns := sizes ax x.shape) (X := plane x ax i) (M := M)
    (fun j _ => by unfold plane; split_ifs; · exact hx _
                   · rw [abs_zero]; exact hM) L (sizes ax i) (by simp [sizes])
  simpa [sizes] using this

theorem isBand_le {m : Mode} {w : Wavelet R} {ax : List Nat} {x t : Tensor R} {M : R} (hx : ∀ i, |x.get i| ≤ M)
    {s : Nat} {bs : List Bool} (hb : bs.length = ax.length) (h : IsBand m w ax x s bs t) (idx : List Nat) :
    |t.get idx| ≤ (bandNorms w bs).prod * ((l1 w.decLo ^ ax.length) ^ s * M) := by
  have hM : 0 ≤ M := (abs_nonneg _).trans (hx [])
  have hp : 0 ≤ (bandNorms w bs).prod := List.prod_nonneg fun a ha => by
    obtain ⟨b, -, rfl⟩ := List.mem_map.1 ha
    split_ifs <;> exact l1_nonneg _
  refine get_le_of (mul_nonneg hp (mul_nonneg (pow_nonneg (pow_nonneg (l1_nonneg _) _) _) hM)) (fun i hi => ?_) idx
  rw [h.get i hi]
  have := cDN_le (m := m) (w := w) (ns := sizes ax x.shape) (X := plane x ax i) (M := M)
    (fun j _ => by unfold plane; split_ifs; · exact hx _
                   · rw [abs_zero]; exact hM) s bs (by simp [sizes, hb]) (sizes ax i) (by simp [sizes])
  simpa [sizes] using this

end Verif.Props
