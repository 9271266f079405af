import Verif.Lemmas.Conv1
import Verif.Spec.DwtNd

/-! Tensor products of one-dimensional extensions, analysis and synthesis steps, on functions. -/

namespace Verif
open Tensor Spec
variable {R : Type}

/-- The product of the taps at the positions counted from the end of the filters of length `F`. -/
def filtRev [Semiring R] (F : Nat) : List (List R) → List Nat → R
  | f :: fs, j :: js => f.getD (F - 1 - j) 0 * filtRev F fs js
  | _, _ => 1

section ext
variable [Zero R]

theorem ext_map {S : Type} [Zero S] (m : Mode) (n : Nat) (X : Nat → R) (φ : R → S) (h0 : φ 0 = 0) (i : ℤ) :
    φ (ext m n X i) = ext m n (fun j => φ (X j)) i := by
  unfold ext
  cases extIdx m n i with
  | none => exact h0
  | some j => rfl

theorem extN_snoc (m : Mode) : ∀ (ns : List Nat) (n : Nat) (X : List Nat → R) (is : List ℤ) (i : ℤ),
    is.length = ns.length →
    extN m (ns ++ [n]) X (is ++ [i]) = extN m ns (fun js => ext m n (fun j => X (js ++ [j])) i) is
  | [], n, X, [], i, _ => rfl
  | n' :: ns, n, X, i' :: is, i, h => by
    simp only [List.cons_append, extN]
    congr 1
    funext j
    rw [extN_snoc m ns n _ is i (by simpa using h)]

end ext

section sums

theorem boxSum_congr [AddCommMonoid R] : ∀ (ns : List Nat) {f g : List Nat → R},
    (∀ js, InB ns js → f js = g js) → boxSum ns f = boxSum ns g
  | [], _, _, h => h [] trivial
  | n :: ns, f, g, h => by
    unfold boxSum
    refine Finset.sum_congr rfl fun j hj => boxSum_congr ns fun js hjs => h _ ⟨Finset.mem_range.mp hj, hjs⟩

theorem boxSum_zero [AddCommMonoid R] : ∀ (ns : List Nat), boxSum ns (fun _ => (0 : R)) = 0
  | [] => rfl
  | n :: ns => by unfold boxSum; simp [boxSum_zero ns]

theorem boxSum_add [AddCommMonoid R] : ∀ (ns : List Nat) (f g : List Nat → R),
    boxSum ns (fun js => f js + g js) = boxSum ns f + boxSum ns g
  | [], _, _ => rfl
  | n :: ns, f, g => by
    unfold boxSum
    rw [← Finset.sum_add_distrib]
    exact Finset.sum_congr rfl fun j _ => boxSum_add ns _ _

theorem boxSum_mul [NonUnitalNonAssocSemiring R] (c : R) : ∀ (ns : List Nat) (f : List Nat → R),
    boxSum ns (fun js => c * f js) = c * boxSum ns f
  | [], _ => rfl
  | n :: ns, f => by
    unfold boxSum
    rw [Finset.mul_sum]
    exact Finset.sum_congr rfl fun j _ => boxSum_mul c ns _

theorem boxSum_sum [AddCommMonoid R] {ι : Type} (s : Finset ι) : ∀ (ns : List Nat) (f : ι → List Nat → R),
    boxSum ns (fun js => ∑ i ∈ s, f i js) = ∑ i ∈ s, boxSum ns (f i)
  | [], _ => rfl
  | n :: ns, f => by
    unfold boxSum
    rw [Finset.sum_comm]
    exact Finset.sum_congr rfl fun j _ => boxSum_sum s ns _

end sums

/-- A multidimensional convolution with a product filter on the extended signal is one analysis step
along every axis. -/
theorem conv_dwtN [Semiring R] (m : Mode) {F : Nat} (hF : 2 ≤ F) :
    ∀ (fs : List (List R)) (ns ks : List Nat) (X : List Nat → R), (∀ f ∈ fs, f.length = F) →
      ns.length = fs.length → ks.length = fs.length →
      boxSum (fs.map fun _ => F) (fun js => filtRev F fs js *
        extN m ns X (List.zipWith (fun (k j : Nat) => (((2 * k + j : ℕ) : ℤ) - ((F - 2 : ℕ) : ℤ))) ks js))
      = dwtN m (fs.zip ns) X ks
  | [], [], [], X, _, _, _ => by simp [boxSum, filtRev, extN, dwtN]
  | f :: fs, n :: ns, k :: ks, X, hf, h1, h2 => by
    have hfl : f.length = F := hf f (by simp)
    have ih := fun X => conv_dwtN m hF fs ns ks X (fun g hg => hf g (by simp [hg])) (by simpa using h1) (by simpa using h2)
    simp only [List.map_cons, boxSum, List.zip_cons_cons, dwtN, filtRev, List.zipWith_cons_cons, extN]
    unfold dwtStep analysis
    rw [hfl, ← Finset.sum_range_reflect]
    refine Finset.sum_congr rfl fun j hj => ?_
    rw [Finset.mem_range] at hj
    simp only [mul_assoc]
    rw [boxSum_mul, show F - 1 - (F - 1 - j) = j by omega]
    congr 1
    rw [show ((2 * k + (F - 1 - j) : ℕ) : ℤ) - ((F - 2 : ℕ) : ℤ) = 2 * (k : ℤ) + 1 - j by omega]
    simp only [← ih]
    generalize 2 * (k : ℤ) + 1 - j = i
    unfold ext
    cases extIdx m n i with
    | none => simp only [mul_zero]; exact boxSum_zero _
    | some j' => rfl

/-! ### Synthesis -/

/-- Sum over all `n`-letter band names (`false` low pass, `true` high pass). -/
def bandSum [Add R] : Nat → (List Bool → R) → R
  | 0, f => f []
  | n + 1, f => bandSum n (fun bs => f (false :: bs)) + bandSum n (fun bs => f (true :: bs))

/-- Synthesis along every axis. -/
def synN [NonUnitalNonAssocSemiring R] (f₀ f₁ : List R) :
    List Nat → (List Bool → List Nat → R) → List ℤ → R
  | K :: Ks, c, m :: ms =>
    synthesis f₀ f₁ K (fun k => synN f₀ f₁ Ks (fun bs ks => c (false :: bs) (k :: ks)) ms)
      (fun k => synN f₀ f₁ Ks (fun bs ks => c (true :: bs) (k :: ks)) ms) m
  | _, c, _ => c [] []

/-- The product of the taps of the filters named by a band. -/
def filtTap [Semiring R] (f₀ f₁ : List R) : List Bool → List ℤ → R
  | b :: bs, i :: is => tap (if b then f₁ else f₀) i * filtTap f₀ f₁ bs is
  | _, _ => 1

theorem bandSum_congr [Add R] : ∀ (n : Nat) {f g : List Bool → R},
    (∀ bs, bs.length = n → f bs = g bs) → bandSum n f = bandSum n g
  | 0, _, _, h => h [] rfl
  | n + 1, _, _, h => by
    unfold bandSum
    rw [bandSum_congr n fun bs hb => h (false :: bs) (by simp [hb]),
      bandSum_congr n fun bs hb => h (true :: bs) (by simp [hb])]

theorem bandSum_zero [AddCommMonoid R] : ∀ (n : Nat), bandSum n (fun _ => (0 : R)) = 0
  | 0 => rfl
  | n + 1 => by simp [bandSum, bandSum_zero n]

theorem bandSum_add [AddCommMonoid R] : ∀ (n : Nat) (f g : List Bool → R),
    bandSum n (fun bs => f bs + g bs) = bandSum n f + bandSum n g
  | 0, _, _ => rfl
  | n + 1, f, g => by
    simp only [bandSum, bandSum_add n]
    exact add_add_add_comm _ _ _ _

theorem bandSum_mul [NonUnitalNonAssocSemiring R] (c : R) : ∀ (n : Nat) (f : List Bool → R),
    bandSum n (fun bs => c * f bs) = c * bandSum n f
  | 0, _ => rfl
  | n + 1, f => by simp only [bandSum, bandSum_mul c n, mul_add]

theorem bandSum_sum [AddCommMonoid R] {ι : Type} (s : Finset ι) : ∀ (n : Nat) (f : ι → List Bool → R),
    bandSum n (fun bs => ∑ i ∈ s, f i bs) = ∑ i ∈ s, bandSum n (f i)
  | 0, _ => rfl
  | n + 1, f => by simp only [bandSum, bandSum_sum s n, Finset.sum_add_distrib]

/-- Synthesis along every axis as one multidimensional sum. -/
theorem synN_eq [Semiring R] (f₀ f₁ : List R) :
    ∀ (Ks : List Nat) (c : List Bool → List Nat → R) (ms : List ℤ), ms.length = Ks.length →
      synN f₀ f₁ Ks c ms = bandSum Ks.length fun bs => boxSum Ks fun ks =>
        filtTap f₀ f₁ bs (List.zipWith (fun (m : ℤ) (k : Nat) => m - 2 * k) ms ks) * c bs ks
  | [], c, [], _ => by simp [synN, bandSum, boxSum, filtTap]
  | K :: Ks, c, m :: ms, h => by
    have ih := fun c => synN_eq f₀ f₁ Ks c ms (by simpa using h)
    simp only [synN, List.length_cons, bandSum, boxSum, filtTap, List.zipWith_cons_cons]
    unfold synthesis
    rw [Finset.sum_add_distrib, bandSum_sum, bandSum_sum]
    simp only [ih]
    congr 1
    · refine Finset.sum_congr rfl fun k _ => ?_
      rw [← bandSum_mul]
      apply bandSum_congr
      intro bs _
      rw [← boxSum_mul]
      apply boxSum_congr
      intro ks _
      simp [mul_assoc]
    · refine Finset.sum_congr rfl fun k _ => ?_
      rw [← bandSum_mul]
      apply bandSum_congr
      intro bs _
      rw [← boxSum_mul]
      apply boxSum_congr
      intro ks _
      simp [mul_assoc]

/-- Synthesis along the other axes commutes with an analysis step along the first. -/
theorem synN_dwtStep [CommSemiring R] (f₀ f₁ : List R) (m : Mode) (f : List R) (n k : Nat)
    (Ks : List Nat) (c : Nat → List Bool → List Nat → R) (ms : List ℤ) (h : ms.length = Ks.length) :
    synN f₀ f₁ Ks (fun bs ks => dwtStep m f n (fun j => c j bs ks) k) ms
      = dwtStep m f n (fun j => synN f₀ f₁ Ks (c j) ms) k := by
  rw [synN_eq _ _ _ _ _ h]
  simp only [synN_eq _ _ _ _ _ h]
  unfold dwtStep analysis
  simp only [Finset.mul_sum, boxSum_sum, bandSum_sum]
  refine Finset.sum_congr rfl fun j _ => ?_
  generalize 2 * (k : ℤ) + 1 - j = i
  simp only [mul_left_comm _ (f.getD j 0), boxSum_mul, bandSum_mul]
  congr 1
  unfold ext
  cases extIdx m n i with
  | none => simp only [mul_zero, boxSum_zero, bandSum_zero]
  | some j' => rfl

/-- Perfect reconstruction along every axis. -/
theorem synN_dwtN [Field R] [CharZero R] {m : Mode} {w : Wavelet R} {F : Nat} (hw : PRBank w F)
    (hF : 2 ≤ F) (he : F % 2 = 0) : ∀ (ns ms : List Nat) (X : List Nat → R),
      InB (ns.map fun n => n + n % 2) ms →
      synN w.recLo w.recHi (ns.map (outLen F))
        (fun bs ks => dwtN m ((bandFilt w.decLo w.decHi bs).zip ns) X ks)
        (ms.map fun k => ((k + (F - 2) : ℕ) : ℤ))
      = extN m ns X (ms.map fun (k : Nat) => (k : ℤ))
  | [], [], X, _ => by simp [synN, dwtN, bandFilt, extN]
  | n :: ns, k :: ms, X, h => by
    have ih := fun X => synN_dwtN (m := m) hw hF he ns ms X h.2
    have hl : (ms.map fun k => ((k + (F - 2) : ℕ) : ℤ)).length = (ns.map (outLen F)).length := by
      have := h.2.length_eq
      simpa using this
    have hk : k < n + n % 2 := h.1
    have h2K := two_outLen (n := n) hF he
    simp only [List.map_cons, synN, bandFilt, List.zip_cons_cons, dwtN, extN]
    have key : ∀ f : List R, (fun k' => synN w.recLo w.recHi (ns.map (outLen F))
          (fun bs ks => dwtStep m f n (fun j => dwtN m ((bandFilt w.decLo w.decHi bs).zip ns)
            (fun js => X (j :: js)) ks) k') (ms.map fun k => ((k + (F - 2) : ℕ) : ℤ)))
        = analysis f (ext m n fun j => extN m ns (fun js => X (j :: js)) (ms.map fun (k : Nat) => (k : ℤ))) := by
      intro f
      funext k'
      rw [synN_dwtStep _ _ _ _ _ _ _ _ _ hl]
      simp only [ih]
      rfl
    have k0 := key w.decLo
    have k1 := key w.decHi
    unfold bandFilt at k0 k1
    simp only [if_true, Bool.false_eq_true, if_false]
    rw [k0, k1]
    have := synthesis_analysis hw hF (ext m n fun j => extN m ns (fun js => X (j :: js))
      (ms.map fun (k : Nat) => (k : ℤ))) k (outLen F n) (by omega)
    rw [← this]
    congr 1
    omega

end Verif
