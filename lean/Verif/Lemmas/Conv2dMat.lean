/-
Two-dimensional convolution matrices.
-/
import Verif.Lemmas.Kron
import Verif.Lemmas.SepAlias
import Verif.Lemmas.PacketsRec

namespace Verif
open Tensor Spec
variable {R : Type}

theorem mapM_range_ok {α : Type} (g : Nat → Except Err α) (P : Nat → α → Prop) :
    ∀ n, (∀ i < n, ∃ a, g i = .ok a ∧ P i a) →
      ∃ l : List α, (List.range n).mapM g = .ok l ∧ l.length = n ∧
        ∀ i a, l[i]? = some a → P i a
  | 0, _ => ⟨[], rfl, rfl, by simp⟩
  | n + 1, h => by
    obtain ⟨l, h1, h2, h3⟩ := mapM_range_ok g P n fun i hi => h i (by omega)
    obtain ⟨a, h4, h5⟩ := h n (by omega)
    refine ⟨l ++ [a], ?_, by simp [h2], ?_⟩
    · rw [List.range_succ, List.mapM_append]
      simp only [bind, Except.bind, h1, List.mapM_cons, h4, List.mapM_nil, pure, Except.pure]
    · intro i b hb
      by_cases hi : i < n
      · rw [List.getElem?_append_left (by omega)] at hb
        exact h3 i b hb
      · have : i = n := by
          have := (List.getElem?_eq_some_iff.mp hb).1
          simp at this; omega
        subst this
        rw [List.getElem?_append_right (by omega), h2] at hb
        simp at hb
        subst hb
        exact h5

theorem conv2dLoop_ok [AddCommMonoid R] (kron : Coo R → Coo R → Except Err (Coo R))
    (diag : Int → Except Err (Coo R)) :
    ∀ (bs : List (Coo R)) (d : Int) (acc : Coo R) (K : Nat → Coo R),
      (∀ (l : Nat) b, bs[l]? = some b → ∃ D, diag (d - 1 - l) = .ok D ∧ kron D b = .ok (K l) ∧
        (K l).rows = acc.rows ∧ (K l).cols = acc.cols ∧ (K l).md.device = acc.md.device) →
      ∃ C, conv2dLoop kron diag d acc bs = .ok C ∧ C.md = acc.md ∧ C.rows = acc.rows ∧
        C.cols = acc.cols ∧
        (∀ i j, C.den i j = acc.den i j + ∑ l ∈ Finset.range bs.length, (K l).den i j) ∧
        ∀ i j, C.Stored i j ↔ acc.Stored i j ∨ ∃ l < bs.length, (K l).Stored i j
  | [], d, acc, K, _ => ⟨acc, rfl, rfl, rfl, rfl, by simp, by simp⟩
  | b :: bs, d, acc, K, h => by
    obtain ⟨D, h1, h2, h3, h4, h5⟩ := h 0 b rfl
    obtain ⟨acc', a0, a1, a2, a3, a4, a5⟩ := Coo.addInplace_ok (A := acc) (B := K 0) h3.symm h4.symm h5.symm
    obtain ⟨C, c0, c1, c2, c3, c4, c5⟩ := conv2dLoop_ok kron diag bs (d - 1) acc' (fun l => K (l + 1))
      (by
        intro l b' hb'
        obtain ⟨D', e1, e2, e3, e4, e5⟩ := h (l + 1) b' (by simpa using hb')
        refine ⟨D', ?_, e2, e3.trans a2.symm, e4.trans a3.symm, e5.trans (by rw [a1])⟩
        rw [← e1]; congr 1; push_cast; ring)
    refine ⟨C, ?_, c1.trans a1, c2.trans a2, c3.trans a3, ?_, ?_⟩
    · unfold conv2dLoop
      rw [show d - 1 - ((0 : ℕ) : ℤ) = d - 1 by simp] at h1
      simp only [bind, Except.bind, h1, h2, a0, c0]
    · intro i j
      rw [c4, a4, List.length_cons, Finset.sum_range_succ', add_comm (∑ _ ∈ _, _) (Coo.den _ _ _), add_assoc]
    · intro i j
      rw [c5, a5, List.length_cons]
      constructor
      · rintro ((h | h) | ⟨l, hl, h⟩)
        · exact Or.inl h
        · exact Or.inr ⟨0, by omega, h⟩
        · exact Or.inr ⟨l + 1, by omega, h⟩
      · rintro (h | ⟨l, hl, h⟩)
        · exact Or.inl (Or.inl h)
        · cases l with
          | zero => exact Or.inl (Or.inr h)
          | succ l => exact Or.inr ⟨l, by omega, h⟩

theorem kronRange_named {s : String} {m : ConvMode} (h : m.Named s) {F n : Nat} (hF : 1 ≤ F)
    (hv : m = .valid → F ≤ n) :
    kronRange s F n = .ok ((m.first F : ℤ), (m.count F n : ℤ)) := by
  unfold kronRange
  rcases h with ⟨rfl, rfl⟩ | ⟨rfl | rfl, rfl⟩ | ⟨rfl, rfl⟩
  · simp only [if_true, ConvMode.first, ConvMode.count]
    congr 2; omega
  · simp [ConvMode.first, ConvMode.count]; omega
  · simp [ConvMode.first, ConvMode.count]; omega
  · have := hv rfl
    simp [ConvMode.first, ConvMode.count]; omega

theorem filterColumn_length [Zero R] (f : Tensor R) (i : Nat) :
    (filterColumn f i).length = f.shape.getD 0 0 := by simp [filterColumn]

theorem tap_filterColumn [Zero R] (f : Tensor R) (i : Nat) (k : ℤ) :
    tap (filterColumn f i) k = if 0 ≤ k ∧ k < f.shape.getD 0 0 then f.get [k.toNat, i] else 0 := by
  by_cases h0 : 0 ≤ k
  · by_cases h1 : k < f.shape.getD 0 0
    · rw [if_pos ⟨h0, h1⟩]
      unfold tap filterColumn
      rw [if_pos h0, List.getD_eq_getElem?_getD, List.getElem?_map, List.getElem?_range (by omega)]
      rfl
    · rw [if_neg (fun h => h1 h.2), tap_large _ (by rw [filterColumn_length]; omega)]
  · rw [if_neg (fun h => h0 h.1), tap_neg' _ (by omega)]

/-- Sizes for which the two-dimensional convolution matrix exists. -/
def Conv2dOk (m : ConvMode) (fh fw h w : Nat) : Prop :=
  1 ≤ fh ∧ 1 ≤ fw ∧ 1 ≤ h ∧ 1 ≤ w ∧ (m = .valid → fh ≤ h ∧ fw ≤ w) ∧ (m = .same → fw / 2 < w)

theorem constructConv2dMatrix_ok [NonAssocSemiring R] [DecidableEq R] (f : Tensor R) {fh fw h w : Nat}
    {s : String} {m : ConvMode} (fs : Bool) (hs : f.shape = [fh, fw]) (hm : m.Named s)
    (hok : Conv2dOk m fh fw h w) :
    ∃ C, constructConv2dMatrix f h w s fs = .ok C ∧ C.md = f.md ∧
      C.rows = m.count fw w * m.count fh h ∧ C.cols = w * h ∧
      (∀ I r J c, I < m.count fw w → r < m.count fh h → J < w → c < h →
        C.den (I * m.count fh h + r) (J * h + c)
          = tap2 fh fw (fun a b => f.get [a, b]) (m.first fh + r - c) (m.first fw + I - J)) ∧
      (fs = true → ∀ I r J c, I < m.count fw w → r < m.count fh h → J < w → c < h →
        (C.Stored (I * m.count fh h + r) (J * h + c) ↔
          (c ≤ m.first fh + r ∧ m.first fh + r < c + fh) ∧
          (J ≤ m.first fw + I ∧ m.first fw + I < J + fw))) := by
  obtain ⟨o1, o2, o3, o4, o5, o6⟩ := hok
  have hkc : f.sizeFromEnd 1 = fw := by unfold Tensor.sizeFromEnd; rw [hs]; rfl
  have hfh : f.shape.getD 0 0 = fh := by rw [hs]; rfl
  have hr := kronRange_named (n := w) hm o2 (fun h => (o5 h).2)
  set d0 := m.first fw with hd0
  set kr := m.count fw w with hkr
  set br := m.count fh h with hbr
  have hbrpos : 1 ≤ br := by
    rw [hbr]; cases m <;> simp only [ConvMode.count] <;> first | omega | (have := o5 rfl; omega)
  have hkrpos : 1 ≤ kr := by
    rw [hkr]; cases m <;> simp only [ConvMode.count] <;> first | omega | (have := o5 rfl; omega)
  obtain ⟨blocks, b0, b1, b2⟩ := mapM_range_ok
    (fun i => constructConvMatrix f.md (filterColumn f i) h s)
    (fun i C => C.md = f.md ∧ C.rows = br ∧ C.cols = h ∧
      (∀ r c, r < br → c < h → C.den r c = tap (filterColumn f i) (m.first fh + r - c)) ∧
      (∀ r c, C.Stored r c ↔ r < br ∧ c < h ∧ c ≤ m.first fh + r ∧ m.first fh + r < c + fh)) fw
    (by
      intro i _
      obtain ⟨C, c0, c1, c2, c3, c4, c5⟩ := constructConvMatrix_ok f.md (filterColumn f i) h hm
        (by rw [filterColumn_length, hfh]; exact o1) o3
        (by intro hv; rw [filterColumn_length, hfh]; exact (o5 hv).1)
      rw [filterColumn_length, hfh] at c2 c4 c5
      exact ⟨C, c0, c1, c2, c3, c4, c5⟩)
  -- the diagonals
  have hdiag : ∀ l < fw, ∃ D : Coo R, sparseDiag f.md (List.replicate (min (kr : ℤ) w).toNat (1 : R))
      ((d0 : ℤ) - l) kr w = .ok D ∧ D.md = f.md ∧ D.rows = kr ∧ D.cols = w ∧
      (∀ I J, I < kr → J < w → D.den I J = if (J : ℤ) - I = (d0 : ℤ) - l then 1 else 0) ∧
      (∀ I J, D.Stored I J ↔ I < kr ∧ J < w ∧ (J : ℤ) - I = (d0 : ℤ) - l) ∧ ∃ I J, D.Stored I J := by
    intro l hl
    have hlen : (List.replicate (min (kr : ℤ) w).toNat (1 : R)).length = min kr w := by
      rw [List.length_replicate]; omega
    have hoff : (-((d0 : ℤ) - l)).toNat < kr ∧ ((d0 : ℤ) - l).toNat < w := by
      rw [hkr, hd0]
      cases m <;> simp only [ConvMode.count, ConvMode.first]
      · omega
      · have := o6 rfl; omega
      · have := o5 rfl; omega
    obtain ⟨D, e0, e1, e2, e3, e4, e5⟩ := sparseDiag_ok f.md
      (List.replicate (min (kr : ℤ) w).toNat (1 : R)) ((d0 : ℤ) - l) kr w
      (by intro h; rw [h] at hlen; simp at hlen; omega) hoff.1
    have hst : ∀ I J, D.Stored I J ↔ I < kr ∧ J < w ∧ (J : ℤ) - I = (d0 : ℤ) - l := by
      intro I J
      rw [e5, hlen]
      omega
    refine ⟨D, e0, e1, e2, e3, ?_, hst, ?_⟩
    · intro I J hI hJ
      rw [e4 I J hI hJ]
      congr 1
      rw [List.getD_eq_getElem?_getD, List.getElem?_replicate, if_pos (by omega)]
      rfl
    · exact ⟨(-((d0 : ℤ) - l)).toNat, ((d0 : ℤ) - l).toNat, (hst _ _).mpr ⟨hoff.1, hoff.2, by omega⟩⟩
  -- the Kronecker products
  have hkron : ∀ l < fw, ∃ D b K, sparseDiag f.md (List.replicate (min (kr : ℤ) w).toNat (1 : R))
      ((d0 : ℤ) - l) kr w = .ok D ∧ blocks[l]? = some b ∧
      (if fs then sparseKron else denseKron) D b = .ok K ∧ K.md = f.md ∧ K.rows = kr * br ∧
      K.cols = w * h ∧
      (∀ I r J c, I < kr → r < br → J < w → c < h → K.den (I * br + r) (J * h + c)
        = if (J : ℤ) - I = (d0 : ℤ) - l then tap (filterColumn f l) (m.first fh + r - c) else 0) ∧
      (fs = true → ∀ I r J c, I < kr → r < br → J < w → c < h → (K.Stored (I * br + r) (J * h + c)
        ↔ (J : ℤ) - I = (d0 : ℤ) - l ∧ c ≤ m.first fh + r ∧ m.first fh + r < c + fh)) := by
    intro l hl
    obtain ⟨D, e0, e1, e2, e3, e4, e5, e6⟩ := hdiag l hl
    have hbl : blocks[l]? = some (blocks[l]'(by omega)) := List.getElem?_eq_getElem (by omega)
    set b := blocks[l]'(by omega) with hb
    obtain ⟨q1, q2, q3, q4, q5⟩ := b2 l b hbl
    have hval : ∀ I r J c, I < kr → r < br → J < w → c < h →
        kronecker b.rows b.cols D.den b.den (I * br + r) (J * h + c)
        = if (J : ℤ) - I = (d0 : ℤ) - l then tap (filterColumn f l) (m.first fh + r - c) else 0 := by
      intro I r J c hI hr' hJ hc
      unfold kronecker
      rw [q2, q3]
      obtain ⟨u1, u2⟩ := (divmod_unique (a := I) (i := I * br + r) hr').mp rfl
      obtain ⟨u3, u4⟩ := (divmod_unique (a := J) (i := J * h + c) hc).mp rfl
      rw [← u1, ← u2, ← u3, ← u4, e4 I J hI hJ, q4 r c hr' hc]
      split_ifs
      · rw [one_mul]
      · rw [zero_mul]
    have hmd : (⟨Coo.promote D.md.dtype b.md.dtype, D.md.device⟩ : Meta) = f.md := by
      rw [e1, q1]
      unfold Coo.promote
      rw [if_pos rfl]
    cases fs with
    | true =>
      have hbst : ∃ i j, b.Stored i j := by
        refine ⟨0, min (m.first fh) (h - 1), ?_⟩
        rw [q5]
        cases m <;> simp only [ConvMode.first] <;> first | omega | (have := o5 rfl; omega)
      obtain ⟨K, k0, k1, k2, k3, k4, k5⟩ := sparseKron_ok (A := D) (B := b) (by rw [e1, q1]) e6 hbst
      refine ⟨D, b, K, e0, hbl, k0, k1.trans hmd, by rw [k2, e2, q2], by rw [k3, e3, q3], ?_, ?_⟩
      · intro I r J c hI hr' hJ hc
        rw [k4]; exact hval I r J c hI hr' hJ hc
      · intro _ I r J c hI hr' hJ hc
        rw [k5, q2, q3]
        obtain ⟨u1, u2⟩ := (divmod_unique (a := I) (i := I * br + r) hr').mp rfl
        obtain ⟨u3, u4⟩ := (divmod_unique (a := J) (i := J * h + c) hc).mp rfl
        rw [← u1, ← u2, ← u3, ← u4, e5, q5]
        simp only [hI, hJ, hr', hc, true_and]
    | false =>
      obtain ⟨K, k0, k1, k2, k3, k4⟩ := denseKron_ok (A := D) (B := b) (by rw [e1, q1])
      refine ⟨D, b, K, e0, hbl, k0, k1.trans hmd, by rw [k2, e2, q2], by rw [k3, e3, q3], ?_, ?_⟩
      · intro I r J c hI hr' hJ hc
        rw [k4 _ _ (by rw [e2, q2]; exact Coo.mul_add_lt hI hr') (by rw [e3, q3]; exact Coo.mul_add_lt hJ hc)]
        exact hval I r J c hI hr' hJ hc
      · intro hf; cases hf
  have hne : blocks ≠ [] := by intro h0; rw [h0] at b1; simp at b1; omega
  have hcase : ∃ bh bt, blocks = bh :: bt := List.exists_cons_of_ne_nil hne
  obtain ⟨bh, bt, hbl⟩ := hcase
  haveI : Nonempty (Coo R) := ⟨⟨f.md, 0, 0, [], by simp⟩⟩
  choose! Ds Bs Ks hK using hkron
  obtain ⟨k0, k1, k2, k3, k4, k5, k6, k7⟩ := hK 0 (by omega)
  have hbt : bt.length + 1 = fw := by rw [← b1, hbl]; rfl
  obtain ⟨C, c0, c1, c2, c3, c4, c5⟩ := conv2dLoop_ok (if fs then sparseKron else denseKron)
    (fun d => sparseDiag f.md (List.replicate (min (kr : ℤ) w).toNat (1 : R)) d kr w) bt d0 (Ks 0)
    (fun l => Ks (l + 1))
    (by
      intro l b hb
      have hl : l < bt.length := (List.getElem?_eq_some_iff.mp hb).1
      obtain ⟨j0, j1, j2, j3, j4, j5, _, _⟩ := hK (l + 1) (by omega)
      have : Bs (l + 1) = b := by
        rw [hbl, List.getElem?_cons_succ, hb] at j1
        exact (Option.some.inj j1).symm
      refine ⟨Ds (l + 1), ?_, this ▸ j2, j4.trans k4.symm, j5.trans k5.symm, by rw [j3, k3]⟩
      rw [← j0]
      congr 1
      push_cast
      ring)
  refine ⟨C, ?_, c1.trans k3, c2.trans k4, c3.trans k5, ?_, ?_⟩
  · unfold constructConv2dMatrix
    rw [hkc]
    simp only [bind, Except.bind, hr, b0, hbl, Int.toNat_natCast]
    rw [show (d0 : ℤ) - ((0 : ℕ) : ℤ) = d0 by simp] at k0
    rw [k0]
    have : Bs 0 = bh := by
      rw [hbl] at k1
      exact (Option.some.inj k1).symm
    rw [this] at k2
    simp only [k2]
    exact c0
  · intro I r J c hI hr' hJ hc
    rw [c4, add_comm, ← Finset.sum_range_succ' (fun l => (Ks l).den (I * br + r) (J * h + c)), hbt]
    have : ∀ l ∈ Finset.range fw, (Ks l).den (I * br + r) (J * h + c)
        = if (J : ℤ) - I = (d0 : ℤ) - l then tap (filterColumn f l) (m.first fh + r - c) else 0 := by
      intro l hl
      obtain ⟨_, _, _, _, _, _, j6, _⟩ := hK l (Finset.mem_range.mp hl)
      exact j6 I r J c hI hr' hJ hc
    rw [Finset.sum_congr rfl this]
    unfold tap2
    by_cases hin : 0 ≤ (d0 : ℤ) + I - J ∧ (d0 : ℤ) + I - J < fw
    · rw [Finset.sum_eq_single ((d0 : ℤ) + I - J).toNat]
      · rw [if_pos (by omega), tap_filterColumn, hfh]
        congr 1
        apply propext
        omega
      · intro l _ hl
        rw [if_neg (by omega)]
      · intro h'; exact absurd (Finset.mem_range.mpr (by omega)) h'
    · rw [if_neg (by omega)]
      apply Finset.sum_eq_zero
      intro l hl
      have := Finset.mem_range.mp hl
      rw [if_neg (by omega)]
  · intro hf I r J c hI hr' hJ hc
    have key : ∀ l < fw, ((Ks l).Stored (I * br + r) (J * h + c)
        ↔ (J : ℤ) - I = (d0 : ℤ) - l ∧ c ≤ m.first fh + r ∧ m.first fh + r < c + fh) := by
      intro l hl
      obtain ⟨_, _, _, _, _, _, _, j7⟩ := hK l hl
      exact j7 hf I r J c hI hr' hJ hc
    rw [c5]
    constructor
    · rintro (h' | ⟨l, hl, h'⟩)
      · have := (key 0 (by omega)).mp h'; omega
      · have := (key (l + 1) (by omega)).mp h'; omega
    · rintro ⟨h1, h2⟩
      obtain ⟨l, hl⟩ : ∃ l : ℕ, (l : ℤ) = (d0 : ℤ) + I - J := ⟨((d0 : ℤ) + I - J).toNat, by omega⟩
      have hl' : l < fw := by omega
      have := (key l hl').mpr ⟨by omega, h1⟩
      cases l with
      | zero => exact Or.inl this
      | succ l => exact Or.inr ⟨l, by omega, this⟩

theorem conv2dLoop_inv (kron : Coo R → Coo R → Except Err (Coo R))
    (diag : Int → Except Err (Coo R)) :
    ∀ (bs : List (Coo R)) (d : Int) (acc C : Coo R), conv2dLoop kron diag d acc bs = .ok C →
      ∀ l < bs.length, ∃ D, diag (d - 1 - l) = .ok D
  | [], _, _, _, _ => by simp
  | b :: bs, d, acc, C, h => by
    unfold conv2dLoop at h
    obtain ⟨D, h1, h⟩ := bind_ok_inv h
    obtain ⟨K, h2, h⟩ := bind_ok_inv h
    obtain ⟨acc', h3, h⟩ := bind_ok_inv h
    intro l hl
    cases l with
    | zero => exact ⟨D, by simpa using h1⟩
    | succ l =>
      obtain ⟨D', h4⟩ := conv2dLoop_inv kron diag bs (d - 1) acc' C h l (by simpa using hl)
      refine ⟨D', ?_⟩
      rw [← h4]; congr 1; push_cast; ring

/-- `same` and `sameshift` fail for images at most half as wide as the filter. -/
theorem constructConv2dMatrix_narrow [NonAssocSemiring R] [DecidableEq R] (f : Tensor R)
    {fh fw h w : Nat} {s : String} (fs : Bool) (hs : f.shape = [fh, fw])
    (hm : ConvMode.Named s .same) (h2 : 2 ≤ fw) (hw : w ≤ fw / 2) :
    ∀ C, constructConv2dMatrix f h w s fs ≠ .ok C := by
  intro C hC
  have hkc : f.sizeFromEnd 1 = fw := by unfold Tensor.sizeFromEnd; rw [hs]; rfl
  have hr := kronRange_named (n := w) hm (F := fw) (by omega) (by intro h; cases h)
  unfold constructConv2dMatrix at hC
  rw [hkc] at hC
  simp only [bind, Except.bind, hr, Int.toNat_natCast] at hC
  cases hb : (List.range fw).mapM fun i => constructConvMatrix f.md (filterColumn f i) h s with
  | error e => rw [hb] at hC; cases hC
  | ok blocks =>
    rw [hb] at hC
    have hlen : blocks.length = fw := by
      have h1 := mapM_ok_each hb
      obtain ⟨l, h2, h3, _⟩ := mapM_range_ok _ (fun _ _ => True) fw (fun i hi => by
        obtain ⟨b, hb⟩ := h1 i (List.mem_range.mpr hi)
        exact ⟨b, hb, trivial⟩)
      rw [hb] at h2
      cases h2
      exact h3
    cases blocks with
    | nil => simp at hlen; omega
    | cons b bs =>
      simp only at hC
      have hlen : bs.length + 1 = fw := hlen
      change (sparseDiag _ _ _ _ _ >>= fun D => (if fs = true then sparseKron else denseKron) D b >>=
        fun K => conv2dLoop _ _ _ K bs) = _ at hC
      obtain ⟨D, _, hC⟩ := bind_ok_inv hC
      obtain ⟨K, _, hC⟩ := bind_ok_inv hC
      obtain ⟨D', hD'⟩ := conv2dLoop_inv _ _ _ _ _ _ hC (bs.length - 1) (by omega)
      rw [sparseDiag_bad _ _ _ _ _ (Or.inr (by simp only [ConvMode.first, ConvMode.count]; omega))] at hD'
      cases hD'

/-- A filter without columns. -/
theorem constructConv2dMatrix_empty [NonAssocSemiring R] [DecidableEq R] (f : Tensor R)
    {h w : Nat} {s : String} {m : ConvMode} (fs : Bool) (hf : f.sizeFromEnd 1 = 0) (hm : m.Named s) (hw : 2 ≤ w) :
    constructConv2dMatrix f h w s fs = .error .indexError := by
  have hr : ∃ d k : ℤ, kronRange s 0 w = .ok (d, k) ∧ (-d).toNat < k.toNat ∧ 1 ≤ k := by
    unfold kronRange
    rcases hm with ⟨rfl, -⟩ | ⟨hs, -⟩ | ⟨rfl, -⟩
    · exact ⟨_, _, if_pos rfl, by omega, by omega⟩
    · rcases hs with rfl | rfl
      · exact ⟨_, _, rfl, by simp; omega, by simp; omega⟩
      · exact ⟨_, _, rfl, by simp; omega, by simp; omega⟩
    · exact ⟨_, _, rfl, by simp; omega, by simp⟩
  obtain ⟨d, k, e, h1, h2⟩ := hr
  obtain ⟨D, eD, -⟩ := sparseDiag_ok f.md (List.replicate (min k w).toNat (1 : R)) d k.toNat w
    (by rw [Ne, List.replicate_eq_nil_iff]; omega) h1
  unfold constructConv2dMatrix
  rw [hf]
  simp only [bind, Except.bind, e, List.range_zero, List.mapM_nil, pure, Except.pure, eD]
  rfl

theorem constructConv2dMatrix_unknown [NonAssocSemiring R] [DecidableEq R] (f : Tensor R)
    {h w : Nat} {s : String} (fs : Bool) (hm : ∀ m, ¬ ConvMode.Named s m) :
    constructConv2dMatrix f h w s fs = .error .valueError := by
  have e : kronRange s (f.sizeFromEnd 1) w = .error .valueError := by
    unfold kronRange
    rw [if_neg (fun h' => hm .full (Or.inl ⟨h', rfl⟩)),
      if_neg (fun h' => hm .same (Or.inr (Or.inl ⟨h', rfl⟩))),
      if_neg (fun h' => hm .valid (Or.inr (Or.inr ⟨h', rfl⟩)))]
  unfold constructConv2dMatrix
  simp only [bind, Except.bind, e]

/-! ### Strided -/

theorem flatMap_const_length {α β : Type} (g : α → List β) (n : Nat) :
    ∀ l : List α, (∀ a ∈ l, (g a).length = n) → (l.flatMap g).length = l.length * n
  | [], _ => by simp
  | a :: l, h => by
    rw [List.flatMap_cons, List.length_append, h a (by simp),
      flatMap_const_length g n l (fun b hb => h b (by simp [hb])), List.length_cons]
    ring

theorem flatMap_const_getElem? {α β : Type} (g : α → List β) (n : Nat) :
    ∀ (l : List α) (I r : Nat), (∀ a ∈ l, (g a).length = n) → r < n → ∀ a, l[I]? = some a →
      (l.flatMap g)[I * n + r]? = (g a)[r]?
  | [], _, _, _, _, _, h => by simp at h
  | a :: l, 0, r, h, hr, b, hb => by
    simp at hb
    subst hb
    rw [List.flatMap_cons, Nat.zero_mul, Nat.zero_add,
      List.getElem?_append_left (by rw [h a (by simp)]; exact hr)]
  | a :: l, I + 1, r, h, hr, b, hb => by
    rw [List.flatMap_cons, List.getElem?_append_right (by rw [h a (by simp)]; nlinarith),
      h a (by simp), show (I + 1) * n + r - n = I * n + r by rw [Nat.succ_mul]; omega]
    exact flatMap_const_getElem? g n l I r (fun b hb => h b (by simp [hb])) hr b (by simpa using hb)

theorem constructStrided2_ok [NonAssocSemiring R] [DecidableEq R] (f : Tensor R) {fh fw h w : Nat}
    {s : String} {m : ConvMode} (stride : Nat) (hs : f.shape = [fh, fw]) (hm : m.Named s)
    (hst : 1 ≤ stride) (hok : Conv2dOk m fh fw h w) :
    let nH := strideCount (strideStart s) (m.count fh h) stride
    let nW := strideCount (strideStart s) (m.count fw w) stride
    ∃ C, constructStridedConv2dMatrix f h w stride s = .ok C ∧ C.md = f.md ∧
      C.rows = nW * nH ∧ C.cols = w * h ∧
      (∀ I r J c, I < nW → r < nH → J < w → c < h →
        C.den (I * nH + r) (J * h + c)
          = tap2 fh fw (fun a b => f.get [a, b]) (m.first fh + (strideStart s + stride * r : ℕ) - c)
              (m.first fw + (strideStart s + stride * I : ℕ) - J)) ∧
      (∀ I r J c, I < nW → r < nH → J < w → c < h →
        (C.Stored (I * nH + r) (J * h + c) ↔
          (c ≤ m.first fh + (strideStart s + stride * r) ∧
            m.first fh + (strideStart s + stride * r) < c + fh) ∧
          (J ≤ m.first fw + (strideStart s + stride * I) ∧
            m.first fw + (strideStart s + stride * I) < J + fw))) := by
  intro nH nW
  obtain ⟨C, c0, c1, c2, c3, c4, c5⟩ := constructConv2dMatrix_ok f true hs hm hok
  have c5 := c5 rfl
  have hfh : f.shape.getD 0 0 = fh := by rw [hs]; rfl
  have hfw : f.shape.getD 1 0 = fw := by rw [hs]; rfl
  set oh := m.count fh h with hoh
  set ow := m.count fw w with how
  set sel := (arange (strideStart s) ow stride).flatMap fun c =>
    (arange (strideStart s) oh stride).map fun r => c * oh + r with hsel
  have hin : ∀ a ∈ arange (strideStart s) ow stride,
      ((arange (strideStart s) oh stride).map fun r => a * oh + r).length = nH := by
    intro a _; rw [List.length_map, arange_length]
  have hlen : sel.length = nW * nH := by
    rw [hsel, flatMap_const_length _ nH _ hin, arange_length]
  have hget : ∀ I r, I < nW → r < nH → sel[I * nH + r]?
      = some ((strideStart s + stride * I) * oh + (strideStart s + stride * r)) := by
    intro I r hI hr
    rw [hsel, flatMap_const_getElem? _ nH _ I r hin hr _ (arange_getElem? _ _ _ _ hI),
      List.getElem?_map, arange_getElem? _ _ _ _ hr]
    rfl
  obtain ⟨S, T, e1, e2, t1, t2, t3, t4, t5⟩ := select_mm (R := R) (md := C.md) (C := C) sel rfl (by
      intro v hv
      rw [hsel] at hv
      simp only [List.mem_flatMap, List.mem_map] at hv
      obtain ⟨a, ha, b, hb, rfl⟩ := hv
      have key : ∀ {x u : Nat}, x ∈ arange (strideStart s) u stride → x < u := by
        intro x u hx
        obtain ⟨k, hk⟩ := List.getElem?_of_mem hx
        have hk' : k < strideCount (strideStart s) u stride := by
          rw [← arange_length]
          exact (List.getElem?_eq_some_iff.mp hk).1
        rw [arange_getElem? _ _ _ _ hk'] at hk
        cases hk
        exact strideCount_lt hst hk'
      rw [c2]
      exact Coo.mul_add_lt (key ha) (key hb))
  rw [hlen] at t2
  refine ⟨T, ?_, t1.trans c1, t2, t3.trans c3, ?_, ?_⟩
  · obtain ⟨o1, o2, o3, o4, o5, o6⟩ := hok
    have hout : (if s = "full" then (pure (fh + h - 1, fw + w - 1) : Except Err (Nat × Nat))
      else if s = "valid" then pure (h + 1 - fh, w + 1 - fw)
      else if s = "same" ∨ s = "sameshift" then pure (h, w)
      else throw .valueError) = .ok (oh, ow) := by
      rw [hoh, how]
      rcases hm with ⟨rfl, rfl⟩ | ⟨rfl | rfl, rfl⟩ | ⟨rfl, rfl⟩
      · simp only [if_true, ConvMode.count, pure, Except.pure]
        rw [Nat.add_comm h, Nat.add_comm w]
      · simp [ConvMode.count, pure, Except.pure]
      · simp [ConvMode.count, pure, Except.pure]
      · simp [ConvMode.count, pure, Except.pure]
    unfold constructStridedConv2dMatrix
    rw [hfh, hfw]
    simp only [hout, bind, Except.bind, c0]
    rw [if_neg (by omega)]
    have : (if s = "sameshift" then 1 else 0) = strideStart s := rfl
    simp only [this, ← hsel, e1]
    exact e2
  · intro I r J c hI hr hJ hc
    rw [t4 _ _ _ (hget I r hI hr),
      c4 _ _ _ _ (strideCount_lt hst hI) (strideCount_lt hst hr) hJ hc]
  · intro I r J c hI hr hJ hc
    rw [t5 _ _ _ (hget I r hI hr),
      c5 _ _ _ _ (strideCount_lt hst hI) (strideCount_lt hst hr) hJ hc]

end Verif
