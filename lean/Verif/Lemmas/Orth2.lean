/-
The boundary matrices of the non-separable two-dimensional transform are orthogonal.
-/
import Verif.Lemmas.OrthTop
import Verif.Lemmas.OrthExist
import Verif.Lemmas.Conv2dMat
import Verif.Lemmas.ConvNd
import Verif.Spec.MatNonsep
import Verif.Model.MatN

namespace Verif
open Spec
variable {R : Type}

/-! ### Positions -/

theorem quarter {h w : Nat} (hh : h % 2 = 0) (hw : w % 2 = 0) : h * w = 4 * (h / 2 * (w / 2)) := by
  obtain ⟨a, rfl⟩ : ∃ a, h = 2 * a := ⟨h / 2, by omega⟩
  obtain ⟨b, rfl⟩ : ∃ b, w = 2 * b := ⟨w / 2, by omega⟩
  rw [Nat.mul_div_cancel_left _ (by omega), Nat.mul_div_cancel_left _ (by omega)]
  ring

/-- A row is given by its band and its position in the band. -/
theorem row_split {h w k : Nat} (hh : h % 2 = 0) (hw : w % 2 = 0) (hk : k < h * w) :
    ∃ b I r, b < 4 ∧ I < w / 2 ∧ r < h / 2 ∧ k = b * (h / 2 * (w / 2)) + (I * (h / 2) + r) := by
  have hq := quarter hh hw
  set q := h / 2 * (w / 2) with hqd
  have hq0 : 0 < q := by omega
  have hh0 : 0 < h / 2 := Nat.pos_of_mul_pos_right (hqd ▸ hq0)
  refine ⟨k / q, k % q / (h / 2), k % q % (h / 2), ?_, ?_, Nat.mod_lt _ hh0, ?_⟩
  · rw [Nat.div_lt_iff_lt_mul hq0]; omega
  · rw [Nat.div_lt_iff_lt_mul hh0]
    have := Nat.mod_lt k hq0
    rw [Nat.mul_comm]; exact this
  · have h1 := Nat.div_add_mod k q
    have h2 := Nat.div_add_mod (k % q) (h / 2)
    rw [Nat.mul_comm] at h1 h2
    omega

theorem row_lt {h w b I r : Nat} (hh : h % 2 = 0) (hw : w % 2 = 0) (hb : b < 4) (hI : I < w / 2) (hr : r < h / 2) :
    b * (h / 2 * (w / 2)) + (I * (h / 2) + r) < h * w := by
  rw [quarter hh hw, Nat.mul_comm (h / 2)]
  exact Coo.mul_add_lt hb (Coo.mul_add_lt hI hr)

theorem rowH_eq {h w b I r : Nat} (hI : I < w / 2) (hr : r < h / 2) :
    rowH h w (b * (h / 2 * (w / 2)) + (I * (h / 2) + r)) = b % 2 * (h / 2) + r := by
  have hlt : I * (h / 2) + r < h / 2 * (w / 2) := by
    rw [Nat.mul_comm (h / 2)]; exact Coo.mul_add_lt hI hr
  unfold rowH
  rw [Nat.add_comm (b * _), Nat.add_mul_div_right _ _ (by omega), Nat.add_mul_mod_self_right,
    Nat.div_eq_of_lt hlt, Nat.mod_eq_of_lt hlt, Nat.zero_add, Nat.add_comm (I * _), Nat.add_mul_mod_self_right,
    Nat.mod_eq_of_lt hr]

theorem rowW_eq {h w b I r : Nat} (hI : I < w / 2) (hr : r < h / 2) :
    rowW h w (b * (h / 2 * (w / 2)) + (I * (h / 2) + r)) = b / 2 * (w / 2) + I := by
  have hlt : I * (h / 2) + r < h / 2 * (w / 2) := by
    rw [Nat.mul_comm (h / 2)]; exact Coo.mul_add_lt hI hr
  unfold rowW
  rw [Nat.add_comm (b * _), Nat.add_mul_div_right _ _ (by omega), Nat.add_mul_mod_self_right,
    Nat.div_eq_of_lt hlt, Nat.mod_eq_of_lt hlt, Nat.zero_add, Nat.add_comm (I * _), Nat.add_mul_div_right _ _ (by omega),
    Nat.div_eq_of_lt hr, Nat.zero_add]

theorem rowH_lt {h w k : Nat} (hh : h % 2 = 0) (hw : w % 2 = 0) (hk : k < h * w) : rowH h w k < h := by
  obtain ⟨b, I, r, hb, hI, hr, rfl⟩ := row_split hh hw hk
  rw [rowH_eq hI hr]
  have : b % 2 < 2 := Nat.mod_lt _ (by omega)
  have := Coo.mul_add_lt this hr
  omega

theorem rowW_lt {h w k : Nat} (hh : h % 2 = 0) (hw : w % 2 = 0) (hk : k < h * w) : rowW h w k < w := by
  obtain ⟨b, I, r, hb, hI, hr, rfl⟩ := row_split hh hw hk
  rw [rowW_eq hI hr]
  have : b / 2 < 2 := by omega
  have := Coo.mul_add_lt this hI
  omega

/-- A row is determined by its rows along the height and along the width. -/
theorem row_inj {h w k k' : Nat} (hh : h % 2 = 0) (hw : w % 2 = 0) (hk : k < h * w) (hk' : k' < h * w)
    (e1 : rowH h w k = rowH h w k') (e2 : rowW h w k = rowW h w k') : k = k' := by
  obtain ⟨b, I, r, hb, hI, hr, rfl⟩ := row_split hh hw hk
  obtain ⟨b', I', r', hb', hI', hr', rfl⟩ := row_split hh hw hk'
  rw [rowH_eq hI hr, rowH_eq hI' hr'] at e1
  rw [rowW_eq hI hr, rowW_eq hI' hr'] at e2
  have inj : ∀ {n x y u v : Nat}, u < n → v < n → x * n + u = y * n + v → x = y ∧ u = v := by
    intro n x y u v hu hv h
    have h1 := congrArg (· / n) h
    have h2 := congrArg (· % n) h
    simp only [Nat.add_comm (_ * n), Nat.add_mul_div_right _ _ (show 0 < n by omega),
      Nat.add_mul_mod_self_right, Nat.div_eq_of_lt hu, Nat.div_eq_of_lt hv, Nat.mod_eq_of_lt hu,
      Nat.mod_eq_of_lt hv, Nat.zero_add] at h1 h2
    exact ⟨h1, h2⟩
  obtain ⟨x1, rfl⟩ := inj hr hr' e1
  obtain ⟨x2, rfl⟩ := inj hI hI' e2
  have : b = b' := by omega
  rw [this]

/-- Every pair of rows along the axes occurs. -/
theorem row_surj {h w a b : Nat} (hh : h % 2 = 0) (hw : w % 2 = 0) (ha : a < h) (hb : b < w) :
    ∃ k, k < h * w ∧ rowH h w k = a ∧ rowW h w k = b := by
  have hh0 : 0 < h / 2 := by omega
  have hw0 : 0 < w / 2 := by omega
  have h1 : a / (h / 2) < 2 := by rw [Nat.div_lt_iff_lt_mul hh0]; omega
  have h2 : b / (w / 2) < 2 := by rw [Nat.div_lt_iff_lt_mul hw0]; omega
  have hr := Nat.mod_lt a hh0
  have hI := Nat.mod_lt b hw0
  have aux : ∀ x y : Nat, x < 2 → (x + 2 * y) % 2 = x ∧ (x + 2 * y) / 2 = y := by omega
  refine ⟨(a / (h / 2) + 2 * (b / (w / 2))) * (h / 2 * (w / 2)) + (b % (w / 2) * (h / 2) + a % (h / 2)),
    row_lt hh hw (by omega) hI hr, ?_, ?_⟩
  · rw [rowH_eq hI hr, (aux _ _ h1).1, Nat.mul_comm]
    exact Nat.div_add_mod _ _
  · rw [rowW_eq hI hr, (aux _ _ h1).2, Nat.mul_comm]
    exact Nat.div_add_mod _ _

/-- Sums over the pixels. -/
theorem sum_pixels [AddCommMonoid R] (h w : Nat) (f : Nat → R) :
    ∑ j ∈ Finset.range (h * w), f j = ∑ J ∈ Finset.range w, ∑ c ∈ Finset.range h, f (J * h + c) := by
  rw [Nat.mul_comm]
  induction w with
  | zero => simp
  | succ w ih =>
    rw [Finset.sum_range_succ, ← ih, Nat.succ_mul, Finset.sum_range_add]

theorem pix_mod {h J c : Nat} (hc : c < h) : (J * h + c) % h = c := by
  rw [Nat.add_comm, Nat.add_mul_mod_self_right, Nat.mod_eq_of_lt hc]

theorem pix_div {h J c : Nat} (hc : c < h) : (J * h + c) / h = J := by
  rw [Nat.add_comm, Nat.add_mul_div_right _ _ (by omega), Nat.div_eq_of_lt hc, Nat.zero_add]

/-- The dot product of product vectors. -/
theorem dot_prod [CommSemiring R] (h w : Nat) (u u' v v' : Nat → R) :
    dot (h * w) (fun j => u (j % h) * v (j / h)) (fun j => u' (j % h) * v' (j / h)) =
      dot h u u' * dot w v v' := by
  unfold dot
  rw [sum_pixels, Finset.sum_mul_sum, Finset.sum_comm]
  refine Finset.sum_congr rfl fun c hc => Finset.sum_congr rfl fun J _ => ?_
  simp only [pix_mod (Finset.mem_range.mp hc), pix_div (Finset.mem_range.mp hc)]
  ring

theorem filterRow2_full [CommRing R] {W : Wavelet R} {F h w : Nat} (hW : OrthBank W F) (hh : h % 2 = 0) (hw : w % 2 = 0)
    {k k' : Nat} (hk : k < h * w) (hk' : k' < h * w) (hf : ¬ Truncated2 F h w k) :
    dot (h * w) (filterRow2 W F h w k) (filterRow2 W F h w k') = if k = k' then 1 else 0 := by
  unfold Truncated2 at hf
  push Not at hf
  have e := dot_prod h w (filterRow W F h (rowH h w k)) (filterRow W F h (rowH h w k'))
    (filterRow W F w (rowW h w k)) (filterRow W F w (rowW h w k'))
  rw [filterRow_full hW hh (rowH_lt hh hw hk) (rowH_lt hh hw hk') hf.1,
    filterRow_full hW hw (rowW_lt hh hw hk) (rowW_lt hh hw hk') hf.2] at e
  refine Eq.trans e ?_
  by_cases hkk : k = k'
  · subst hkk; simp
  · rw [if_neg hkk]
    by_cases h1 : rowH h w k = rowH h w k'
    · rw [if_neg (fun h2 => hkk (row_inj hh hw hk hk' h1 h2)), mul_zero]
    · rw [if_neg h1, zero_mul]

/-! ### Independence -/

/-- All rows of the one-dimensional matrix are independent. -/
theorem rows_indep {W : Wavelet ℝ} {F n : Nat} (hW : OrthBank W F) (hn : n % 2 = 0) (hb : BoundaryIndep W F n)
    (g : Nat → ℝ) (h0 : ∀ j, j < n → ∑ r ∈ Finset.range n, g r * filterRow W F n r j = 0) :
    ∀ r, r < n → g r = 0 := by
  classical
  have key : ∀ r, r < n → ¬ Truncated F n r → g r = 0 := by
    intro r hr ht
    have e : ∑ s ∈ Finset.range n, g s * dot n (filterRow W F n r) (filterRow W F n s) = 0 := by
      unfold dot
      simp only [Finset.mul_sum]
      rw [Finset.sum_comm]
      refine Finset.sum_eq_zero fun j hj => ?_
      have := h0 j (Finset.mem_range.mp hj)
      calc ∑ s ∈ Finset.range n, g s * (filterRow W F n r j * filterRow W F n s j)
          = filterRow W F n r j * ∑ s ∈ Finset.range n, g s * filterRow W F n s j := by
            rw [Finset.mul_sum]; exact Finset.sum_congr rfl fun s _ => by ring
        _ = 0 := by rw [this, mul_zero]
    rw [Finset.sum_congr rfl fun s hs => by
      rw [filterRow_full hW hn hr (Finset.mem_range.mp hs) ht]] at e
    simpa [hr] using e
  intro r hr
  by_cases ht : Truncated F n r
  · unfold BoundaryIndep at hb
    rw [linearIndepOn_iff'] at hb
    refine hb ((Finset.range n).filter fun r => Truncated F n r) g ?_ ?_ r ?_
    · intro s hs
      have := Finset.mem_filter.mp hs
      exact ⟨Finset.mem_range.mp this.1, this.2⟩
    · funext j
      rw [Finset.sum_apply]
      simp only [Pi.smul_apply, smul_eq_mul, Pi.zero_apply]
      rw [Finset.sum_filter]
      refine Eq.trans (Finset.sum_congr rfl fun s hs => ?_) (h0 j j.2)
      split_ifs with h
      · rfl
      · rw [key s (Finset.mem_range.mp hs) h, zero_mul]
    · exact Finset.mem_filter.mpr ⟨Finset.mem_range.mpr hr, ht⟩
  · exact key r hr ht

theorem rows2_sum {h w : Nat} (hh : h % 2 = 0) (hw : w % 2 = 0) (f : Nat → ℝ) (u v : Nat → ℝ) :
    ∃ G : Nat → Nat → ℝ, (∀ k, k < h * w → G (rowH h w k) (rowW h w k) = f k) ∧
      ∑ k ∈ Finset.range (h * w), f k * (u (rowH h w k) * v (rowW h w k)) =
        ∑ b ∈ Finset.range w, (∑ a ∈ Finset.range h, G a b * u a) * v b := by
  classical
  choose K hK using fun (p : Nat × Nat) => (show ∃ k, (p.1 < h ∧ p.2 < w) → k < h * w ∧ rowH h w k = p.1 ∧ rowW h w k = p.2 by
    by_cases hp : p.1 < h ∧ p.2 < w
    · obtain ⟨k, hk⟩ := row_surj hh hw hp.1 hp.2
      exact ⟨k, fun _ => hk⟩
    · exact ⟨0, fun h => absurd h hp⟩)
  refine ⟨fun a b => f (K (a, b)), ?_, ?_⟩
  · intro k hk
    have := hK (rowH h w k, rowW h w k) ⟨rowH_lt hh hw hk, rowW_lt hh hw hk⟩
    show f (K _) = f k
    rw [row_inj hh hw this.1 hk this.2.1 this.2.2]
  · have e : ∑ b ∈ Finset.range w, (∑ a ∈ Finset.range h, f (K (a, b)) * u a) * v b =
        ∑ p ∈ Finset.range h ×ˢ Finset.range w, f (K p) * (u p.1 * v p.2) := by
      rw [Finset.sum_product, Finset.sum_comm' (t' := Finset.range w) (s' := fun _ => Finset.range h) (by simp)]
      refine Finset.sum_congr rfl fun b _ => ?_
      rw [Finset.sum_mul]
      exact Finset.sum_congr rfl fun a _ => by ring
    rw [e]
    refine Finset.sum_bij' (fun k _ => (rowH h w k, rowW h w k)) (fun p _ => K p) ?_ ?_ ?_ ?_ ?_
    · intro k hk
      have hk := Finset.mem_range.mp hk
      exact Finset.mem_product.mpr ⟨Finset.mem_range.mpr (rowH_lt hh hw hk), Finset.mem_range.mpr (rowW_lt hh hw hk)⟩
    · intro p hp
      have hp := Finset.mem_product.mp hp
      exact Finset.mem_range.mpr (hK p ⟨Finset.mem_range.mp hp.1, Finset.mem_range.mp hp.2⟩).1
    · intro k hk
      have hk := Finset.mem_range.mp hk
      have := hK (rowH h w k, rowW h w k) ⟨rowH_lt hh hw hk, rowW_lt hh hw hk⟩
      exact row_inj hh hw this.1 hk this.2.1 this.2.2
    · intro p hp
      have hp := Finset.mem_product.mp hp
      have := hK p ⟨Finset.mem_range.mp hp.1, Finset.mem_range.mp hp.2⟩
      exact Prod.ext this.2.1 this.2.2
    · intro k hk
      have hk := Finset.mem_range.mp hk
      have := hK (rowH h w k, rowW h w k) ⟨rowH_lt hh hw hk, rowW_lt hh hw hk⟩
      simp only
      rw [row_inj hh hw this.1 hk this.2.1 this.2.2]

/-- The truncated rows of the four-channel matrix are independent. -/
theorem rows2_indep {W : Wavelet ℝ} {F h w : Nat} (hW : OrthBank W F) (hh : h % 2 = 0) (hw : w % 2 = 0)
    (hbh : BoundaryIndep W F h) (hbw : BoundaryIndep W F w) :
    LinearIndepOn ℝ (fun k : ℕ => fun j : Fin (h * w) => filterRow2 W F h w k j)
      {k | k < h * w ∧ Truncated2 F h w k} := by
  classical
  rw [linearIndepOn_iff']
  intro t g ht h0 i hi
  set f : Nat → ℝ := fun k => if k ∈ t then g k else 0 with hf
  have hsum : ∀ J c, J < w → c < h → ∑ k ∈ Finset.range (h * w),
      f k * (filterRow W F h (rowH h w k) c * filterRow W F w (rowW h w k) J) = 0 := by
    intro J c hJ hc
    have hlt : J * h + c < h * w := by rw [Nat.mul_comm h]; exact Coo.mul_add_lt hJ hc
    have := congrFun h0 ⟨J * h + c, hlt⟩
    rw [Finset.sum_apply] at this
    simp only [Pi.smul_apply, smul_eq_mul, Pi.zero_apply, filterRow2, pix_mod hc, pix_div hc] at this
    rw [← this, hf]
    simp only [ite_mul, zero_mul]
    rw [← Finset.sum_filter]
    refine Finset.sum_congr ?_ fun _ _ => rfl
    ext k
    rw [Finset.mem_filter, Finset.mem_range]
    exact ⟨fun h => h.2, fun h => ⟨(ht h).1, h⟩⟩
  obtain ⟨G, hG, -⟩ := rows2_sum hh hw f (fun _ => 0) (fun _ => 0)
  have hG2 : ∀ J c, J < w → c < h →
      ∑ b ∈ Finset.range w, (∑ a ∈ Finset.range h, G a b * filterRow W F h a c) * filterRow W F w b J = 0 := by
    intro J c hJ hc
    obtain ⟨G', hG', e⟩ := rows2_sum hh hw f (fun a => filterRow W F h a c) (fun b => filterRow W F w b J)
    rw [hsum J c hJ hc] at e
    rw [e]
    refine Finset.sum_congr rfl fun b hb => ?_
    congr 1
    refine Finset.sum_congr rfl fun a ha => ?_
    congr 1
    obtain ⟨k, hk, k1, k2⟩ := row_surj hh hw (Finset.mem_range.mp ha) (Finset.mem_range.mp hb)
    rw [← k1, ← k2, hG k hk, hG' k hk]
  have hlt := (ht hi).1
  have h1 : ∀ c, c < h → ∀ b, b < w → ∑ a ∈ Finset.range h, G a b * filterRow W F h a c = 0 := by
    intro c hc
    exact rows_indep hW hw hbw (fun b => ∑ a ∈ Finset.range h, G a b * filterRow W F h a c)
      (fun J hJ => hG2 J c hJ hc)
  have h2 : G (rowH h w i) (rowW h w i) = 0 :=
    rows_indep hW hh hbh (fun a => G a (rowW h w i)) (fun c hc => h1 c hc _ (rowW_lt hh hw hlt)) _ (rowH_lt hh hw hlt)
  rw [hG i hlt, hf] at h2
  simpa [hi] using h2

end Verif
