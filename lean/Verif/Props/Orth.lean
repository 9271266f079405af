/-
Properties C38 and C39: the boundary-orthogonalised analysis and synthesis matrices
(src/ptwt/matmul_transform.py, src/ptwt/sparse_math.py).
-/
import Verif.Lemmas.OrthTop
import Verif.Lemmas.OrthExist
import Verif.Lemmas.OrthEdge
import Verif.Lemmas.SparseHelpers
import Mathlib.LinearAlgebra.Dimension.OrzechProperty

namespace Verif.Props
open Tensor Spec

/-! ### C38: orthogonalisation -/

/-- **C38.** For every orthogonal filter bank, every even length `n ≥ 2` for which the rows cut off by
the boundary are linearly independent, and both methods, `construct_boundary_a` succeeds with an
`n × n` matrix of the requested dtype and device that has orthonormal rows and columns; the rows of
full support are the unchanged filter rows and the other rows are combinations of the cut-off rows. -/
theorem c38_orthonormal {la : LinAlg ℝ} (hla : ExactLinAlg la) {w : Wavelet ℝ} {F n : Nat} (md : Meta)
    (hw : OrthBank w F) (hn : n % 2 = 0) (hn2 : 2 ≤ n) (hb : BoundaryIndep w F n) {method : String}
    (hm : method = "qr" ∨ method = "gramschmidt") :
    ∃ A, constructBoundaryA la w md n method = .ok A ∧ A.md = md ∧ A.rows = n ∧ A.cols = n ∧
      OrthonormalRows n A.den ∧ OrthonormalCols n A.den ∧
      (∀ r j, r < n → j < n → ¬ Truncated F n r → A.den r j = filterRow w F n r j) ∧
      ∀ r, r < n → Truncated F n r → (fun j : Fin n => A.den r j) ∈
        Submodule.span ℝ ((fun s => fun j : Fin n => filterRow w F n s j) '' {s | s < n ∧ Truncated F n s}) := by
  obtain ⟨A, h1, h2, h3, h4, h5, h6, h7⟩ := boundaryA_ok hla md hw hn hn2 hb hm
  exact ⟨A, h1, h2, h3, h4, h5, orthonormal_cols h5, h6, h7⟩

/-- **C38.** Filters with two taps (Haar) and the filters with four taps built by the alternating flip
(Daubechies 2) satisfy the independence hypothesis for every even length `n ≥ F`. -/
theorem c38_indep_two_four {w : Wavelet ℝ} {n : Nat} (hn : n % 2 = 0) :
    BoundaryIndep w 2 n ∧
    ∀ a b c d s : ℝ, w.decLo = [a, b, c, d] → w.decHi = [s * d, -(s * c), s * b, -(s * a)] → s ≠ 0 →
      b * b + c * c ≠ 0 → 4 ≤ n → BoundaryIndep w 4 n :=
  ⟨boundaryIndep_two hn, fun _ _ _ _ _ h1 h2 hs hbc h4 => boundaryIndep_four h1 h2 hs hbc hn h4⟩

/-- **C38.** Whether the cut-off rows are independent does not depend on the length: it holds for one even
length `n ≥ F` iff it holds for all of them, and iff the `F / 4` pairs of rows at the left end and the `F / 4`
pairs at the right end are each independent. -/
theorem c38_indep_length {w : Wavelet ℝ} {F n : Nat} (hw : OrthBank w F) (hn : n % 2 = 0) (hF : F ≤ n) :
    (BoundaryIndep w F n ↔ LeftIndep w F ∧ RightIndep w F) ∧
    ∀ m, m % 2 = 0 → F ≤ m → (BoundaryIndep w F m ↔ BoundaryIndep w F n) :=
  ⟨boundaryIndep_iff_edges hw hn hF, fun m hm hFm => by
    rw [boundaryIndep_iff_edges hw hn hF, boundaryIndep_iff_edges hw hm hFm]⟩

/-- **C38.** If the high-pass filter is the alternating flip of the low-pass filter, the left end decides. -/
theorem c38_indep_flip {w : Wavelet ℝ} {F n : Nat} {s : ℝ} (hw : OrthBank w F) (hf : AlternatingFlip w F s)
    (hn : n % 2 = 0) (hF : F ≤ n) : BoundaryIndep w F n ↔ LeftIndep w F :=
  boundaryIndep_iff_left hw hf hn hF

/-- **C38.** Six taps (db3, sym3, coif1): independent at every length iff the two middle taps do not both
vanish. -/
theorem c38_indep_six {w : Wavelet ℝ} {h0 h1 h2 h3 h4 h5 s : ℝ} (hw : OrthBank w 6)
    (hlo : w.decLo = [h0, h1, h2, h3, h4, h5]) (hf : AlternatingFlip w 6 s) {n : Nat} (hn : n % 2 = 0)
    (h6 : 6 ≤ n) : BoundaryIndep w 6 n ↔ ¬ (h2 = 0 ∧ h3 = 0) := by
  rw [boundaryIndep_iff_left hw hf hn h6, leftIndep_six hw hlo hf]
  constructor
  · rintro h ⟨rfl, rfl⟩; simp at h
  · intro h h'
    exact h ⟨by nlinarith [mul_self_nonneg h2, mul_self_nonneg h3], by nlinarith [mul_self_nonneg h2, mul_self_nonneg h3]⟩

/-- **C38.** Eight taps (db4, sym4): independent at every length if a determinant of taps does not vanish. -/
theorem c38_indep_eight {w : Wavelet ℝ} {h0 h1 h2 h3 h4 h5 h6 h7 s : ℝ} (hw : OrthBank w 8)
    (hlo : w.decLo = [h0, h1, h2, h3, h4, h5, h6, h7]) (hf : AlternatingFlip w 8 s)
    (hD : h1 * (h1 * h4 - h2 * h3) - h0 * (h1 * h5 - h3 * h3) ≠ 0) {n : Nat} (hn : n % 2 = 0)
    (h8 : 8 ≤ n) : BoundaryIndep w 8 n :=
  (boundaryIndep_iff_left hw hf hn h8).mpr (leftIndep_eight hw hlo hD)

/-- The hypotheses are met: six and eight rational taps, every even length. -/
example {n : Nat} (hn : n % 2 = 0) :
    OrthBank bank6 6 ∧ (6 ≤ n → BoundaryIndep bank6 6 n) ∧ OrthBank bank8 8 ∧ (8 ≤ n → BoundaryIndep bank8 8 n) :=
  ⟨bank6_orth, fun h => (c38_indep_six bank6_orth rfl bank6_flip hn h).mpr (by norm_num),
    bank8_orth, fun h => c38_indep_eight bank8_orth rfl bank8_flip (by norm_num) hn h⟩

/-- **C38.** The independence hypothesis cannot be dropped: any matrix with orthonormal rows whose
boundary rows are combinations of the cut-off filter rows forces these to be independent. -/
theorem c38_indep_necessary {w : Wavelet ℝ} {F n : Nat} (M : Nat → Nat → ℝ) (hM : OrthonormalRows n M)
    (hs : ∀ r, r < n → Truncated F n r → (fun j : Fin n => M r j) ∈
      Submodule.span ℝ ((fun s => fun j : Fin n => filterRow w F n s j) '' {s | s < n ∧ Truncated F n s})) :
    BoundaryIndep w F n := by
  classical
  set T : Set ℕ := {s | s < n ∧ Truncated F n s} with hT
  have hfin : T.Finite := (Set.finite_lt_nat n).subset fun r h => h.1
  haveI : Fintype T := hfin.fintype
  set a : T → Fin n → ℝ := fun r j => filterRow w F n r j with ha
  set b : T → Fin n → ℝ := fun r j => M r j with hbdef
  have hbind : LinearIndependent ℝ b := by
    rw [Fintype.linearIndependent_iff]
    intro g hg i
    have h0 : (∑ k, g k • b k) ⬝ᵥ b i = 0 := by rw [hg, zero_dotProduct]
    rw [sum_dotProduct] at h0
    have h1 : ∀ k, (g k • b k) ⬝ᵥ b i = if k = i then g k else 0 := by
      intro k
      rw [smul_dotProduct]
      have := hM k i k.2.1 i.2.1
      rw [dot_vec] at this
      show g k • (vec n (M k) ⬝ᵥ vec n (M i)) = _
      rw [this]
      by_cases h : k = i
      · subst h; simp
      · rw [if_neg (fun h' => h (Subtype.ext h')), if_neg h, smul_zero]
    simp only [h1] at h0
    simpa using h0
  have himg : (fun s => fun j : Fin n => filterRow w F n s j) '' T = Set.range a := by
    ext v
    constructor
    · rintro ⟨s, hs, rfl⟩; exact ⟨⟨s, hs⟩, rfl⟩
    · rintro ⟨s, rfl⟩; exact ⟨s, s.2, rfl⟩
  have hle : Submodule.span ℝ (Set.range b) ≤ Submodule.span ℝ (Set.range a) := by
    rw [Submodule.span_le]
    rintro _ ⟨r, rfl⟩
    have := hs r r.2.1 r.2.2
    rw [himg] at this
    exact this
  have hcard : Fintype.card T = Set.finrank ℝ (Set.range b) := linearIndependent_iff_card_eq_finrank_span.mp hbind
  have hfr : Set.finrank ℝ (Set.range b) ≤ Set.finrank ℝ (Set.range a) := Submodule.finrank_mono hle
  have : LinearIndependent ℝ a := by
    rw [linearIndependent_iff_card_eq_finrank_span]
    exact le_antisymm (hcard ▸ hfr) (finrank_range_le_card a)
  exact this

/-- An orthogonal bank whose cut-off rows are dependent at every length. -/
noncomputable def sparseBank : Wavelet ℝ where
  decLo := [3 / 5, 0, 0, 4 / 5]
  decHi := [4 / 5, 0, 0, -(3 / 5)]
  recLo := [4 / 5, 0, 0, 3 / 5]
  recHi := [-(3 / 5), 0, 0, 4 / 5]

/-- **C38.** There are orthogonal banks for which the hypothesis fails, and for which no boundary
matrix of this kind exists. -/
theorem c38_dependent : OrthBank sparseBank 4 ∧ ∀ n, 4 ≤ n → n % 2 = 0 → ¬ BoundaryIndep sparseBank 4 n := by
  have key : ∀ m : ℤ, -((4 : ℕ) : ℤ) < 2 * m → 2 * m < ((4 : ℕ) : ℤ) → m = -1 ∨ m = 0 ∨ m = 1 := by
    intro m h1 h2; push_cast at h1 h2; omega
  constructor
  · refine orthBank_of ⟨rfl, rfl, rfl, rfl⟩ (by norm_num) rfl ?_ ?_ ?_ rfl rfl <;>
    · intro m h1 h2
      rcases key m h1 h2 with rfl | rfl | rfl <;>
        simp [Finset.sum_range_succ, tap, sparseBank] <;> norm_num
  · intro n hn4 hn hb
    have h0 : (0 : ℕ) ∈ {r | r < n ∧ Truncated 4 n r} := ⟨by omega, Or.inl (by unfold rowShift; split_ifs <;> omega)⟩
    have h1 : n / 2 ∈ {r | r < n ∧ Truncated 4 n r} := ⟨by omega, Or.inl (by unfold rowShift; split_ifs <;> omega)⟩
    have hl : LinearIndepOn ℝ (fun r : ℕ => fun j : Fin n => filterRow sparseBank 4 n r j) {0, n / 2} :=
      LinearIndepOn.mono hb (by
        rintro r (rfl | hr)
        · exact h0
        · rw [hr]; exact h1)
    have hne : (0 : ℕ) ≠ n / 2 := by omega
    have := (LinearIndepOn.pair_iff _ hne).mp hl (4 / 5) (-(3 / 5)) (by
      funext j
      have hj := j.2
      simp only [Pi.add_apply, Pi.smul_apply, Pi.zero_apply, smul_eq_mul]
      unfold filterRow
      rw [if_pos (by omega), if_neg (by omega)]
      by_cases hj2 : (j : ℕ) = 2
      · simp [hj2, tap, sparseBank]; ring
      · have hj' : (j : ℕ) = 0 ∨ (j : ℕ) = 1 ∨ 3 ≤ (j : ℕ) := by omega
        rcases hj' with h | h | h
        · simp [h, tap, sparseBank]
        · simp [h, tap, sparseBank]
        · have e : ¬ (j : ℕ) ≤ 2 := by omega
          simp [tap, e])
    have := this.1
    norm_num at this

/-- **C38.** Any other method name is a ValueError as soon as there is a row to orthogonalise, and is
ignored otherwise. -/
theorem c38_unknown_method {R : Type} [Field R] [DecidableEq R] (la : LinAlg R) {w : Wavelet R} {F n : Nat}
    (md : Meta) (hw : HasLen w F) (h2 : 2 ≤ F) (hF : F % 2 = 0) (hn : n % 2 = 0) (hn2 : 2 ≤ n)
    {method : String} (hm : method ≠ "qr") (hm' : method ≠ "gramschmidt") :
    ((∃ r, r < n ∧ Truncated F n r) →
      constructBoundaryA la w md n method = .error .valueError) ∧
    ((∀ r, r < n → ¬ Truncated F n r) →
      ∃ A, constructBoundaryA la w md n method = .ok A ∧ A.md = md ∧ A.rows = n ∧ A.cols = n ∧
        ∀ r j, r < n → j < n → A.den r j = filterRow w F n r j) := by
  obtain ⟨A, e1, a1, a2, a3, a4, a5⟩ := constructA_ok (w := w) md hw hF h2 hn hn2
  have hmem := toOrth_mem hF h2 hn a2 a3 a5
  have hred : constructBoundaryA la w md n method = orthogonalize la A F method := by
    unfold constructBoundaryA
    simp only [bind, Except.bind, e1, hw.1]
  rw [hred]
  unfold orthogonalize
  simp only
  constructor
  · rintro ⟨r, hr, ht⟩
    have : getToOrthogonalize A F ≠ [] := fun h => by
      have := (hmem r).mpr ⟨hr, ht⟩
      rw [h] at this
      cases this
    rw [if_neg this, if_neg hm, if_neg hm']
  · intro h
    have : getToOrthogonalize A F = [] := by
      rw [List.eq_nil_iff_forall_not_mem]
      intro r hr
      obtain ⟨h1, h2⟩ := (hmem r).mp hr
      exact h r h1 h2
    rw [if_pos this]
    exact ⟨A, rfl, a1, a2, a3, a4⟩

example : ∃ la, ExactLinAlg la ∧ ∃ A, constructBoundaryA la bank4 ⟨.float64, 0⟩ 10 "qr" = .ok A ∧
    OrthonormalRows 10 A.den := by
  obtain ⟨la, hla⟩ := exists_exactLinAlg
  obtain ⟨A, h1, _, _, _, h2, _⟩ := c38_orthonormal hla ⟨.float64, 0⟩ bank4_orth (n := 10) rfl (by norm_num)
    (bank4_indep rfl (by norm_num)) (Or.inl rfl)
  exact ⟨la, hla, A, h1, h2⟩

example : ∃ r, r < 10 ∧ Truncated 4 10 r := ⟨0, by decide, Or.inl (by decide)⟩

/-! ### C39: analysis and synthesis are inverse -/

/-- **C39.** For every orthogonal filter bank the synthesis matrix is the transposed analysis matrix,
for every length and method (and fails whenever the analysis matrix does). -/
theorem c39_transpose {R : Type} [Field R] [DecidableEq R] (la : LinAlg R) {w : Wavelet R} {F : Nat}
    (md : Meta) (hw : OrthBank w F) (n : Nat) (method : String) :
    (∀ A, constructBoundaryA la w md n method = .ok A → ∃ S, constructBoundaryS la w md n method = .ok S ∧
      S.md = A.md ∧ S.rows = A.cols ∧ S.cols = A.rows ∧ ∀ i j, S.den i j = A.den j i) ∧
    ∀ e, constructBoundaryA la w md n method = .error e → constructBoundaryS la w md n method = .error e := by
  rw [boundaryS_eq la md hw n method]
  constructor
  · intro A hA
    rw [hA]
    exact ⟨A.transpose, rfl, rfl, rfl, rfl, fun i j => Coo.transpose_den A i j⟩
  · intro e he
    rw [he]
    rfl

/-- **C39.** Their sparse products, in both orders, are identity matrices. -/
theorem c39_inverse {la : LinAlg ℝ} (hla : ExactLinAlg la) {w : Wavelet ℝ} {F n : Nat} (md : Meta)
    (hw : OrthBank w F) (hn : n % 2 = 0) (hn2 : 2 ≤ n) (hb : BoundaryIndep w F n) {method : String}
    (hm : method = "qr" ∨ method = "gramschmidt") :
    ∃ A S P Q, constructBoundaryA la w md n method = .ok A ∧ constructBoundaryS la w md n method = .ok S ∧
      S.mm A = .ok P ∧ A.mm S = .ok Q ∧ P.rows = n ∧ P.cols = n ∧ Q.rows = n ∧ Q.cols = n ∧
      ∀ i j, i < n → j < n →
        P.den i j = (if i = j then 1 else 0) ∧ Q.den i j = (if i = j then 1 else 0) := by
  obtain ⟨A, h1, h2, h3, h4, h5, h6, _⟩ := c38_orthonormal hla md hw hn hn2 hb hm
  obtain ⟨S, s1, s2, s3, s4, s5⟩ := (c39_transpose la md hw n method).1 A h1
  obtain ⟨P, p1, p2, p3, p4, p5⟩ := Coo.mm_ok (A := S) (B := A) (by rw [s4]) (by rw [s2])
  obtain ⟨Q, q1, q2, q3, q4, q5⟩ := Coo.mm_ok (A := A) (B := S) (by rw [s3]) (by rw [s2])
  refine ⟨A, S, P, Q, h1, s1, p1, q1, by rw [p3, s3, h4], by rw [p4, h4], by rw [q3, h3], by rw [q4, s4, h3], ?_⟩
  intro i j hi hj
  constructor
  · rw [p5.1, s4, h3, ← h6 i j hi hj]
    unfold dot
    exact Finset.sum_congr rfl fun k _ => by rw [s5]
  · rw [q5.1, h4, ← h5 i j hi hj]
    unfold dot
    exact Finset.sum_congr rfl fun k _ => by rw [s5]

example : ∃ la, ExactLinAlg la ∧ ∃ A S P, constructBoundaryA la bank4 ⟨.float64, 0⟩ 10 "gramschmidt" = .ok A ∧
    constructBoundaryS la bank4 ⟨.float64, 0⟩ 10 "gramschmidt" = .ok S ∧ S.mm A = .ok P ∧ P.rows = 10 := by
  obtain ⟨la, hla⟩ := exists_exactLinAlg
  obtain ⟨A, S, P, Q, h1, h2, h3, _, h4, _⟩ := c39_inverse hla ⟨.float64, 0⟩ bank4_orth (n := 10) rfl (by norm_num)
    (bank4_indep rfl (by norm_num)) (Or.inr rfl)
  exact ⟨la, hla, A, S, P, h1, h2, h3, h4⟩

end Verif.Props
