/-
The one-dimensional matrix transform as a single operator, and its energy.
-/
import Verif.Lemmas.Mat1Build
import Verif.Lemmas.SparseHelpers

namespace Verif
open Tensor Spec
variable {R : Type}

theorem mLen_snoc : ∀ (n s : Nat), mLen n (s + 1) = evenLen (mLen n s) / 2
  | _, 0 => rfl
  | n, s + 1 => by
    show mLen (evenLen n / 2) (s + 1) = _
    rw [mLen_snoc (evenLen n / 2) s]
    rfl

theorem mA_snoc [NonUnitalNonAssocSemiring R] (m : Mode) (A : Nat → Nat → Nat → R) : ∀ (n : Nat) (v : Nat → R) (s : Nat),
    mA m A n v (s + 1) = stepLo m A (mLen n s) (mA m A n v s)
  | _, _, 0 => rfl
  | n, v, s + 1 => by
    show mA m A (evenLen n / 2) (stepLo m A n v) (s + 1) = _
    rw [mA_snoc m A (evenLen n / 2) (stepLo m A n v) s]
    rfl

theorem mD_snoc [NonUnitalNonAssocSemiring R] (m : Mode) (A : Nat → Nat → Nat → R) : ∀ (n : Nat) (v : Nat → R) (s : Nat),
    mD m A n v s = stepHi m A (mLen n s) (mA m A n v s)
  | _, _, 0 => rfl
  | n, v, s + 1 => by
    show mD m A (evenLen n / 2) (stepLo m A n v) s = _
    rw [mD_snoc m A (evenLen n / 2) (stepLo m A n v) s]
    rfl

theorem rowTimes_even [NonUnitalNonAssocSemiring R] {m : Mode} {M : Nat → Nat → R} {n : Nat} (hn : n % 2 = 0)
    (v : Nat → R) (i : Nat) : rowTimes m M n v i = ∑ j ∈ Finset.range n, M i j * v j := by
  unfold rowTimes
  rw [evenLen_of_even hn]
  refine Finset.sum_congr rfl fun j hj => ?_
  unfold evenExt
  rw [ext_inside m v (Finset.mem_range.mp hj)]

/-- An operator mapping signals of length `n` to their packed coefficients of `s` levels. -/
structure IsOp [NonUnitalNonAssocSemiring R] (m : Mode) (A : Nat → Nat → Nat → R) (md : Meta) (n s : Nat) (O : Coo R) : Prop where
  md : O.md = md
  rows : O.rows = n
  cols : O.cols = n
  packed : ∀ v, Packed m A n v s (fun i => ∑ j ∈ Finset.range n, O.den i j * v j)

theorem mLen_le_of_padFree {n k : Nat} (h : PadFree n k) : ∀ s, s ≤ k → mLen n s ≤ n
  | 0, _ => le_refl _
  | s + 1, hs => by
    have := mLen_le_of_padFree h s (by omega)
    rw [mLen_snoc, evenLen_of_even (h s (by omega))]
    omega

theorem mLen_anti {n k : Nat} (h : PadFree n k) : ∀ s t, s ≤ t → t ≤ k → mLen n t ≤ mLen n s := by
  intro s t hst
  induction t, hst using Nat.le_induction with
  | base => intro _; exact le_refl _
  | succ t _ ih =>
    intro ht
    have := ih (by omega)
    rw [mLen_snoc, evenLen_of_even (h t (by omega))]
    omega

theorem isOp_step [CommRing R] {m : Mode} {C : Nat → Coo R} {A : Nat → Nat → Nat → R} {md : Meta} {F N : Nat}
    (hC : Family C A md F N) {n s : Nat} {O : Coo R} (hO : IsOp m A md n s O) (hp : PadFree n (s + 1))
    (hF : F ≤ mLen n s) (hN : n ≤ N) (hb : n ≤ 2 ^ mantissaBits md.dtype) :
    ∃ M O', catSparseIdentity (C (mLen n s)) O.rows = .ok M ∧ M.mm O = .ok O' ∧ IsOp m A md n (s + 1) O' := by
  have hev := hp s (by omega)
  have hle := mLen_le_of_padFree hp s (by omega)
  set q := mLen n s with hq
  have c1 := hC.md q hev hF (by omega)
  have c2 := hC.rows q hev hF (by omega)
  have c3 := hC.cols q hev hF (by omega)
  have c4 := fun i j => hC.den q i j hev hF (by omega)
  obtain ⟨M, e1, m1, m2, m3, m4, _⟩ := catSparseIdentity_ok (A := C q) (N := n) (by rw [c2, c3]) (by rw [c2]; exact hle)
    (by rw [c1]; exact hb)
  obtain ⟨O', e2, o1, o2, o3, o4, _⟩ := Coo.mm_ok (A := M) (B := O) (by rw [m3, hO.rows]) (by rw [m1, c1, hO.md])
  refine ⟨M, O', by rw [hO.rows]; exact e1, e2, by rw [o1, m1, c1], by rw [o2, m2], by rw [o3, hO.cols], ?_⟩
  intro v
  have hu := hO.packed v
  set u : Nat → R := fun i => ∑ j ∈ Finset.range n, O.den i j * v j with hud
  have hprod : ∀ i, (∑ j ∈ Finset.range n, O'.den i j * v j) = ∑ k ∈ Finset.range n, M.den i k * u k := by
    intro i
    simp only [o4, m3, hud, Finset.sum_mul, Finset.mul_sum]
    rw [Finset.sum_comm]
    exact Finset.sum_congr rfl fun _ _ => Finset.sum_congr rfl fun _ _ => by ring
  have hlow : ∀ i, i < q → (∑ k ∈ Finset.range n, M.den i k * u k) = rowTimes m (A q) q (mA m A n v s) i := by
    intro i hi
    rw [rowTimes_even hev]
    rw [← Finset.sum_subset (s₁ := Finset.range q) (by intro j hj; rw [Finset.mem_range] at *; omega)]
    · refine Finset.sum_congr rfl fun j hj => ?_
      rw [Finset.mem_range] at hj
      rw [m4, c2, if_pos hi, c4 i j hi hj]
      congr 1
      exact hu.approx j hj
    · intro j _ hj
      rw [Finset.mem_range] at hj
      rw [m4, c2, if_pos hi, Coo.den_of_cols (by omega), zero_mul]
  have hhigh : ∀ i, q ≤ i → i < n → (∑ k ∈ Finset.range n, M.den i k * u k) = u i := by
    intro i hi hin
    have : ∀ k ∈ Finset.range n, M.den i k * u k = if i = k then u k else 0 := by
      intro k hk
      rw [m4, c2, if_neg (by omega)]
      by_cases h : i = k
      · rw [if_pos ⟨h, hin⟩, if_pos h, one_mul]
      · rw [if_neg (fun h' => h h'.1), if_neg h, zero_mul]
    rw [Finset.sum_congr rfl this, Finset.sum_ite_eq, if_pos (Finset.mem_range.mpr hin)]
  have hl1 : mLen n (s + 1) = q / 2 := by rw [mLen_snoc, ← hq, evenLen_of_even hev]
  constructor
  · intro i hi
    rw [hl1] at hi
    simp only [hprod]
    rw [hlow i (by omega), mA_snoc]
    unfold stepLo
    rw [← hq, evenLen_of_even hev]
  · intro t i ht hi
    simp only [hprod]
    by_cases hts : t = s
    · subst hts
      rw [hl1] at hi ⊢
      rw [hlow _ (by omega), mD_snoc]
      unfold stepHi
      rw [← hq, evenLen_of_even hev]
    · have h1 := mLen_anti hp (t + 1) s (by omega) (by omega)
      have h2 : mLen n (t + 1) + mLen n (t + 1) ≤ n := by
        have := mLen_le_of_padFree hp t (by omega)
        have h3 := hp t (by omega)
        rw [mLen_snoc, evenLen_of_even h3]
        omega
      rw [hhigh _ (by omega) (by omega)]
      exact hu.detail t i (by omega) hi

theorem fwtOperatorLoop_ok [CommRing R] {m : Mode} {C : Nat → Coo R} {A : Nat → Nat → Nat → R} {md : Meta} {F N : Nat}
    (hC : Family C A md F N) {n : Nat} (hN : n ≤ N) (hb : n ≤ 2 ^ mantissaBits md.dtype) :
    ∀ (L s : Nat) {O : Coo R}, IsOp m A md n s O → PadFree n (s + mLevels F L (mLen n s)) →
    ∃ O', fwtOperatorLoop O (builtMats C F L (mLen n s)) = .ok O' ∧ IsOp m A md n (s + mLevels F L (mLen n s)) O'
  | 0, s, O, hO, _ => ⟨O, rfl, hO⟩
  | L + 1, s, O, hO, hp => by
    unfold builtMats mLevels at *
    by_cases h : mLen n s < F
    · rw [if_pos h] at hp ⊢
      rw [if_pos h]
      exact ⟨O, rfl, hO⟩
    · rw [if_neg h] at hp ⊢
      rw [if_neg h]
      have hev := hp s (by omega)
      obtain ⟨M, O1, e1, e2, hO1⟩ := isOp_step hC hO (fun t ht => hp t (by omega)) (by omega) hN hb
      have hl : evenLen (mLen n s) / 2 = mLen n (s + 1) := (mLen_snoc n s).symm
      rw [hl] at hp ⊢
      obtain ⟨O', e3, hO'⟩ := fwtOperatorLoop_ok hC hN hb L (s + 1) hO1 (by
        rw [show s + 1 + mLevels F L (mLen n (s + 1)) = s + (mLevels F L (mLen n (s + 1)) + 1) by omega]; exact hp)
      refine ⟨O', ?_, by rw [show s + (mLevels F L (mLen n (s + 1)) + 1) = s + 1 + mLevels F L (mLen n (s + 1)) by omega]; exact hO'⟩
      rw [evenLen_of_even hev]
      unfold fwtOperatorLoop
      simp only [bind, Except.bind, e1, e2, e3]

theorem builtPads_padFree {F : Nat} : ∀ (L n : Nat), (builtPads F L n).any id = false ↔ PadFree n (mLevels F L n)
  | 0, n => by
    constructor
    · intro _ s hs; cases hs
    · intro _; rfl
  | L + 1, n => by
    unfold builtPads mLevels
    by_cases h : n < F
    · rw [if_pos h, if_pos h]
      constructor
      · intro _ s hs; cases hs
      · intro _; rfl
    · rw [if_neg h, if_neg h]
      rw [List.any_cons, Bool.or_eq_false_iff, builtPads_padFree L (evenLen n / 2)]
      constructor
      · rintro ⟨h1, h2⟩ s hs
        cases s with
        | zero => show n % 2 = 0; simpa using h1
        | succ s => exact h2 s (by omega)
      · intro hp
        refine ⟨by have : n % 2 = 0 := hp 0 (by omega); simp [this], fun s hs => hp (s + 1) (by omega)⟩

theorem isOp_one [CommRing R] {m : Mode} {C : Nat → Coo R} {A : Nat → Nat → Nat → R} {md : Meta} {F N : Nat}
    (hC : Family C A md F N) {n : Nat} (hN : n ≤ N) (hF : F ≤ n) (hn : n % 2 = 0) : IsOp m A md n 1 (C n) := by
  refine ⟨hC.md n hn hF hN, hC.rows n hn hF hN, hC.cols n hn hF hN, ?_⟩
  have key : ∀ v i, i < n → (∑ j ∈ Finset.range n, (C n).den i j * v j) = rowTimes m (A n) n v i := by
    intro v i hi
    rw [rowTimes_even hn]
    exact Finset.sum_congr rfl fun j hj => by rw [hC.den n i j hn hF hN hi (Finset.mem_range.mp hj)]
  have hl : mLen n 1 = n / 2 := by show evenLen n / 2 = _; rw [evenLen_of_even hn]
  intro v
  constructor
  · intro i hi
    rw [hl] at hi
    rw [key v i (by omega)]
    show _ = rowTimes m (A (evenLen n)) n v i
    rw [evenLen_of_even hn]
  · intro s i hs hi
    obtain rfl : s = 0 := by omega
    rw [hl] at hi ⊢
    rw [key v _ (by omega)]
    show _ = rowTimes m (A (evenLen n)) n v (evenLen n / 2 + i)
    rw [evenLen_of_even hn]

/-- The analysis operator of a built state. -/
theorem sparseFwtOperator_ok [CommRing R] {m : Mode} {C : Nat → Coo R} {A : Nat → Nat → Nat → R} {md : Meta} {F N : Nat}
    (hC : Family C A md F N) {n L : Nat} (hN : n ≤ N) (hb : n ≤ 2 ^ mantissaBits md.dtype)
    (hk : 1 ≤ mLevels F L n) (hp : PadFree n (mLevels F L n)) (level : Option Int) :
    ∃ O, sparseFwtOperator (builtState C F level L n) = .ok O ∧ IsOp m A md n (mLevels F L n) O := by
  cases L with
  | zero => simp [mLevels] at hk
  | succ L =>
    have hpads := (builtPads_padFree (F := F) (L + 1) n).mpr hp
    by_cases h : n < F
    · unfold mLevels at hk; rw [if_pos h] at hk; omega
    · have hm : builtMats C F (L + 1) n = C (evenLen n) :: builtMats C F L (evenLen n / 2) := by
        conv_lhs => unfold builtMats
        rw [if_neg h]
      have hk' : mLevels F (L + 1) n = mLevels F L (evenLen n / 2) + 1 := by
        conv_lhs => unfold mLevels
        rw [if_neg h]
      have hn : n % 2 = 0 := hp 0 (by omega)
      rw [hk'] at hp
      have h1 := isOp_one (m := m) hC hN (by omega) hn
      obtain ⟨O', e, hO'⟩ := fwtOperatorLoop_ok (m := m) hC hN hb L 1 h1 (by
        rw [Nat.add_comm]; exact hp)
      refine ⟨O', ?_, by rw [hk', Nat.add_comm]; exact hO'⟩
      unfold sparseFwtOperator
      show (match builtMats C F (L + 1) n with
        | [] => _ | [A] => _ | A :: rest => _) = _
      rw [hm, evenLen_of_even hn]
      have e' : fwtOperatorLoop (C n) (builtMats C F L (n / 2)) = .ok O' := by
        rw [← e]
        show _ = fwtOperatorLoop (C n) (builtMats C F L (evenLen n / 2))
        rw [evenLen_of_even hn]
      cases hr : builtMats C F L (n / 2) with
      | nil => rw [hr] at e'; exact e'
      | cons B rest =>
        rw [hr] at e'
        simp only
        rw [show (builtState C F level (L + 1) n).padded = false from hpads]
        simpa using e'

/-! ### The synthesis operator -/

/-- An operator mapping packed coefficients of `k` levels to the signal. -/
structure IsInvOp [NonUnitalNonAssocSemiring R] (m : Mode) (A : Nat → Nat → Nat → R) (md : Meta) (n k : Nat) (O : Coo R) : Prop where
  md : O.md = md
  rows : O.rows = n
  cols : O.cols = n
  unpack : ∀ v u, Packed m A n v k u → ∀ i, i < n → (∑ j ∈ Finset.range n, O.den i j * u j) = v i

theorem Spec.Packed.tail [NonUnitalNonAssocSemiring R] {m : Mode} {A : Nat → Nat → Nat → R} {n k : Nat} {v u : Nat → R}
    (h : Packed m A n v (k + 1) u) : Packed m A (evenLen n / 2) (stepLo m A n v) k u :=
  ⟨fun i hi => h.approx i hi, fun s i hs hi => h.detail (s + 1) i (by omega) hi⟩

theorem isInvOp_one [CommRing R] {m : Mode} {C : Nat → Coo R} {A : Nat → Nat → Nat → R} {md : Meta} {F N : Nat}
    (hC : Family C A md F N) (hA : ∀ k, k % 2 = 0 → F ≤ k → k ≤ N → OrthonormalCols k (A k))
    {n : Nat} (hN : n ≤ N) (hF : F ≤ n) (hn : n % 2 = 0) : IsInvOp m A md n 1 (C n).transpose := by
  refine ⟨hC.md n hn hF hN, hC.cols n hn hF hN, hC.rows n hn hF hN, ?_⟩
  intro v u hu i hi
  have hl : mLen n 1 = n / 2 := by show evenLen n / 2 = _; rw [evenLen_of_even hn]
  rw [← synth_analysis (hA n hn hF hN) v hi]
  refine Finset.sum_congr rfl fun j hj => ?_
  rw [Finset.mem_range] at hj
  rw [Coo.transpose_den, hC.den n j i hn hF hN hj hi]
  congr 1
  by_cases h : j < n / 2
  · rw [hu.approx j (by rw [hl]; exact h)]
    show rowTimes m (A (evenLen n)) n v j = _
    rw [evenLen_of_even hn, rowTimes_even hn]
  · have := hu.detail 0 (j - n / 2) (by omega) (by rw [hl]; omega)
    rw [hl, show n / 2 + (j - n / 2) = j by omega] at this
    rw [this]
    show rowTimes m (A (evenLen n)) n v (evenLen n / 2 + (j - n / 2)) = _
    rw [evenLen_of_even hn, rowTimes_even hn, show n / 2 + (j - n / 2) = j by omega]

theorem isInvOp_step [CommRing R] {m : Mode} {C : Nat → Coo R} {A : Nat → Nat → Nat → R} {md : Meta} {F N : Nat}
    (hC : Family C A md F N) (hA : ∀ k, k % 2 = 0 → F ≤ k → k ≤ N → OrthonormalCols k (A k))
    {n k : Nat} {O : Coo R} (hO : IsInvOp m A md (n / 2) k O) (hn : n % 2 = 0)
    (hF : F ≤ n) (hN : n ≤ N) (hb : n ≤ 2 ^ mantissaBits md.dtype) :
    ∃ M O', catSparseIdentity O (C n).transpose.rows = .ok M ∧ (C n).transpose.mm M = .ok O' ∧
      IsInvOp m A md n (k + 1) O' := by
  have c1 := hC.md n hn hF hN
  have c2 := hC.rows n hn hF hN
  have c3 := hC.cols n hn hF hN
  have h1 := isInvOp_one (m := m) hC hA hN hF hn
  obtain ⟨M, e1, m1, m2, m3, m4, _⟩ := catSparseIdentity_ok (A := O) (N := n) (by rw [hO.rows, hO.cols])
    (by rw [hO.rows]; omega) (by rw [hO.md]; exact hb)
  obtain ⟨O', e2, o1, o2, o3, o4, _⟩ := Coo.mm_ok (A := (C n).transpose) (B := M) (by rw [h1.cols, m2]) (by rw [h1.md, m1, hO.md])
  refine ⟨M, O', by rw [h1.rows]; exact e1, e2, by rw [o1, h1.md], by rw [o2, h1.rows], by rw [o3, m3], ?_⟩
  intro v u hu i hi
  set w : Nat → R := fun i => ∑ j ∈ Finset.range n, M.den i j * u j with hw
  have hprod : (∑ j ∈ Finset.range n, O'.den i j * u j) = ∑ l ∈ Finset.range n, (C n).transpose.den i l * w l := by
    simp only [o4, h1.cols, hw, Finset.sum_mul, Finset.mul_sum]
    rw [Finset.sum_comm]
    exact Finset.sum_congr rfl fun _ _ => Finset.sum_congr rfl fun _ _ => by ring
  rw [hprod]
  have hl : mLen n 1 = n / 2 := by show evenLen n / 2 = _; rw [evenLen_of_even hn]
  have ht := hu.tail
  rw [evenLen_of_even hn] at ht
  refine h1.unpack v w ⟨?_, ?_⟩ i hi
  · intro j hj
    rw [hl] at hj
    show w j = stepLo m A n v j
    rw [← hO.unpack _ u ht j hj, hw]
    simp only
    rw [← Finset.sum_subset (s₁ := Finset.range (n / 2)) (by intro j hj; rw [Finset.mem_range] at *; omega)]
    · exact Finset.sum_congr rfl fun l _ => by rw [m4, hO.rows, if_pos hj]
    · intro l _ hl
      rw [Finset.mem_range] at hl
      rw [m4, hO.rows, if_pos hj, Coo.den_of_cols (by rw [hO.cols]; omega), zero_mul]
  · intro s j hs hj
    obtain rfl : s = 0 := by omega
    rw [hl] at hj ⊢
    rw [← hu.detail 0 j (by omega) (by rw [hl]; exact hj), hl, hw]
    simp only
    have : ∀ l ∈ Finset.range n, M.den (n / 2 + j) l * u l = if n / 2 + j = l then u l else 0 := by
      intro l _
      rw [m4, hO.rows, if_neg (by omega)]
      by_cases h : n / 2 + j = l
      · rw [if_pos ⟨h, by omega⟩, if_pos h, one_mul]
      · rw [if_neg (fun h' => h h'.1), if_neg h, zero_mul]
    rw [Finset.sum_congr rfl this, Finset.sum_ite_eq, if_pos (Finset.mem_range.mpr (by omega))]

theorem ifwtOperatorLoop_append [NonAssocSemiring R] : ∀ (l : List (Coo R)) (O M : Coo R),
    ifwtOperatorLoop O (l ++ [M]) = (ifwtOperatorLoop O l).bind fun O => ifwtOperatorLoop O [M]
  | [], _, _ => rfl
  | K :: l, O, M => by
    rw [List.cons_append]
    unfold ifwtOperatorLoop
    simp only [bind, Except.bind]
    cases catSparseIdentity O K.rows with
    | error e => rfl
    | ok O1 =>
      simp only
      cases K.mm O1 with
      | error e => rfl
      | ok O2 =>
        simp only
        rw [ifwtOperatorLoop_append l O2 M]
        rfl

theorem ifwtOperator_ok [CommRing R] {m : Mode} {C : Nat → Coo R} {A : Nat → Nat → Nat → R} {md : Meta} {F N : Nat}
    (hC : Family C A md F N) (hA : ∀ k, k % 2 = 0 → F ≤ k → k ≤ N → OrthonormalCols k (A k)) :
    ∀ (L n : Nat), n ≤ N → n ≤ 2 ^ mantissaBits md.dtype → 1 ≤ mLevels F L n → PadFree n (mLevels F L n) →
    ∃ S rest O, (builtMats (fun m => (C m).transpose) F L n).reverse = S :: rest ∧ ifwtOperatorLoop S rest = .ok O ∧
      IsInvOp m A md n (mLevels F L n) O
  | 0, n, _, _, hk, _ => by simp [mLevels] at hk
  | L + 1, n, hN, hb, hk, hp => by
    by_cases h : n < F
    · unfold mLevels at hk; rw [if_pos h] at hk; omega
    · have hm : builtMats (fun m => (C m).transpose) F (L + 1) n
          = (C (evenLen n)).transpose :: builtMats (fun m => (C m).transpose) F L (evenLen n / 2) := by
        conv_lhs => unfold builtMats
        rw [if_neg h]
      have hk' : mLevels F (L + 1) n = mLevels F L (evenLen n / 2) + 1 := by
        conv_lhs => unfold mLevels
        rw [if_neg h]
      have hn : n % 2 = 0 := hp 0 (by omega)
      rw [hk'] at hp ⊢
      rw [hm]
      rw [evenLen_of_even hn] at *
      have hp' : PadFree (n / 2) (mLevels F L (n / 2)) := by
        intro s hs
        have := hp (s + 1) (by omega)
        rw [show mLen n (s + 1) = mLen (evenLen n / 2) s from rfl, evenLen_of_even hn] at this
        exact this
      by_cases h0 : mLevels F L (n / 2) = 0
      · have hnil : builtMats (fun m => (C m).transpose) F L (n / 2) = [] := by
          rw [← List.length_eq_zero_iff, builtMats_length]; exact h0
        rw [hnil, h0]
        exact ⟨_, [], _, rfl, rfl, isInvOp_one hC hA hN (by omega) hn⟩
      · obtain ⟨S, rest, O, e1, e2, hO⟩ := ifwtOperator_ok (m := m) hC hA L (n / 2) (by omega) (by omega) (by omega) hp'
        obtain ⟨M, O', e3, e4, hO'⟩ := isInvOp_step hC hA hO hn (by omega) hN hb
        refine ⟨S, rest ++ [(C n).transpose], O', ?_, ?_, hO'⟩
        · rw [List.reverse_cons, e1]; rfl
        · rw [ifwtOperatorLoop_append, e2]
          simp only [Except.bind]
          unfold ifwtOperatorLoop
          simp only [bind, Except.bind, e3, e4]
          rfl

theorem sparseIfwtOperator_ok [CommRing R] {m : Mode} {C : Nat → Coo R} {A : Nat → Nat → Nat → R} {md : Meta} {F N : Nat}
    (hC : Family C A md F N) (hA : ∀ k, k % 2 = 0 → F ≤ k → k ≤ N → OrthonormalCols k (A k))
    {n L : Nat} (hN : n ≤ N) (hb : n ≤ 2 ^ mantissaBits md.dtype)
    (hk : 1 ≤ mLevels F L n) (hp : PadFree n (mLevels F L n)) (a b : Option Nat) :
    ∃ O, sparseIfwtOperator (⟨a, b, builtMats (fun m => (C m).transpose) F L n, (builtPads F L n).any id⟩ : RecState R) = .ok O ∧
      IsInvOp m A md n (mLevels F L n) O := by
  obtain ⟨S, rest, O, e1, e2, hO⟩ := ifwtOperator_ok (m := m) hC hA L n hN hb hk hp
  refine ⟨O, ?_, hO⟩
  unfold sparseIfwtOperator
  simp only [e1]
  rw [(builtPads_padFree (F := F) L n).mpr hp]
  cases rest with
  | nil => exact e2
  | cons B rest => simpa using e2

/-! ### Energy -/

theorem energy_step [CommRing R] {N : Nat} {M : Nat → Nat → R} (h : OrthonormalCols N M) (v : Nat → R) :
    (∑ i ∈ Finset.range N, (∑ j ∈ Finset.range N, M i j * v j) ^ 2) = ∑ j ∈ Finset.range N, v j ^ 2 := by
  have h1 : ∀ i ∈ Finset.range N, (∑ j ∈ Finset.range N, M i j * v j) ^ 2
      = ∑ k ∈ Finset.range N, v k * (M i k * ∑ j ∈ Finset.range N, M i j * v j) := by
    intro i _
    rw [sq]
    conv_lhs => rw [Finset.sum_mul]
    exact Finset.sum_congr rfl fun k _ => by ring
  rw [Finset.sum_congr rfl h1, Finset.sum_comm]
  refine Finset.sum_congr rfl fun k hk => ?_
  rw [← Finset.mul_sum, synth_analysis h v (Finset.mem_range.mp hk), sq]

theorem mEnergy [CommRing R] {m : Mode} {A : Nat → Nat → Nat → R} : ∀ (k n : Nat) (v : Nat → R),
    PadFree n k → (∀ s, s < k → OrthonormalCols (mLen n s) (A (mLen n s))) →
    (∑ i ∈ Finset.range n, v i ^ 2) = (∑ i ∈ Finset.range (mLen n k), mA m A n v k i ^ 2) +
      ∑ s ∈ Finset.range k, ∑ i ∈ Finset.range (mLen n (s + 1)), mD m A n v s i ^ 2
  | 0, n, v, _, _ => by simp [mLen, mA]
  | k + 1, n, v, hp, hA => by
    have hn : n % 2 = 0 := hp 0 (by omega)
    have hA0 : OrthonormalCols n (A n) := hA 0 (by omega)
    have ih := mEnergy (m := m) (A := A) k (n / 2) (stepLo m A n v)
      (fun s hs => by
        have := hp (s + 1) (by omega)
        rw [show mLen n (s + 1) = mLen (evenLen n / 2) s from rfl, evenLen_of_even hn] at this
        exact this)
      (fun s hs => by
        have := hA (s + 1) (by omega)
        rw [show mLen n (s + 1) = mLen (evenLen n / 2) s from rfl, evenLen_of_even hn] at this
        exact this)
    rw [← energy_step hA0 v]
    rw [Finset.sum_range_succ']
    have e1 : mLen n (k + 1) = mLen (n / 2) k := by
      rw [show mLen n (k + 1) = mLen (evenLen n / 2) k from rfl, evenLen_of_even hn]
    have e2 : mA m A n v (k + 1) = mA m A (n / 2) (stepLo m A n v) k := by
      rw [show mA m A n v (k + 1) = mA m A (evenLen n / 2) (stepLo m A n v) k from rfl, evenLen_of_even hn]
    have e3 : ∀ s, mLen n (s + 1 + 1) = mLen (n / 2) (s + 1) := by
      intro s
      rw [show mLen n (s + 1 + 1) = mLen (evenLen n / 2) (s + 1) from rfl, evenLen_of_even hn]
    have e4 : ∀ s, mD m A n v (s + 1) = mD m A (n / 2) (stepLo m A n v) s := by
      intro s
      rw [show mD m A n v (s + 1) = mD m A (evenLen n / 2) (stepLo m A n v) s from rfl, evenLen_of_even hn]
    have e5 : mLen n (0 + 1) = n / 2 := by
      rw [show mLen n (0 + 1) = evenLen n / 2 from rfl, evenLen_of_even hn]
    simp only [e1, e2, e3, e4, e5]
    rw [← add_assoc, ← ih]
    have e6 : n = n / 2 + n / 2 := by omega
    conv_lhs => rw [show Finset.range n = Finset.range (n / 2 + n / 2) by rw [← e6]]
    rw [Finset.sum_range_add]
    congr 1
    · refine Finset.sum_congr rfl fun i _ => ?_
      congr 1
      show _ = rowTimes m (A (evenLen n)) n v i
      rw [evenLen_of_even hn, rowTimes_even hn, ← e6]
    · refine Finset.sum_congr rfl fun i _ => ?_
      congr 1
      show _ = rowTimes m (A (evenLen n)) n v (evenLen n / 2 + i)
      rw [evenLen_of_even hn, rowTimes_even hn, ← e6]

theorem sum_map_range {α M : Type} [AddCommMonoid M] : ∀ (l : List α) (f : α → M) (g : Nat → M),
    (∀ i t, l[i]? = some t → f t = g i) → (l.map f).sum = ∑ i ∈ Finset.range l.length, g i
  | [], _, _, _ => by simp
  | a :: l, f, g, h => by
    rw [List.map_cons, List.sum_cons, List.length_cons, Finset.sum_range_succ', h 0 a rfl,
      sum_map_range l f (fun i => g (i + 1)) (fun i t ht => h (i + 1) t ht), add_comm]

theorem mLevels_ge {F : Nat} : ∀ (L n s : Nat), s < mLevels F L n → F ≤ mLen n s
  | 0, _, _, h => by simp [mLevels] at h
  | L + 1, n, s, h => by
    unfold mLevels at h
    by_cases hn : n < F
    · rw [if_pos hn] at h; omega
    · rw [if_neg hn] at h
      cases s with
      | zero => show F ≤ n; omega
      | succ s => exact mLevels_ge L (evenLen n / 2) s (by omega)

theorem mLevels_idem {F : Nat} : ∀ (L n : Nat), mLevels F (mLevels F L n) n = mLevels F L n
  | 0, _ => rfl
  | L + 1, n => by
    by_cases hn : n < F
    · have : mLevels F (L + 1) n = 0 := by unfold mLevels; rw [if_pos hn]
      rw [this]; rfl
    · have : mLevels F (L + 1) n = mLevels F L (evenLen n / 2) + 1 := by
        conv_lhs => unfold mLevels
        rw [if_neg hn]
      rw [this]
      conv_lhs => unfold mLevels
      rw [if_neg hn, mLevels_idem L]

end Verif
