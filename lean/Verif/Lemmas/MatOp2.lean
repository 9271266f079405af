/-
The operator matrices of the non-separable two-dimensional matrix transform.
-/
import Verif.Model.MatOp2
import Verif.Lemmas.MatNonsepTop
import Verif.Lemmas.Mat1Op

namespace Verif
open Tensor Spec
variable {R : Type}

/-! ### Chains of block matrices -/

/-- The matrices applied one after the other, each to the beginning of the vector. -/
def chainOp [NonUnitalNonAssocSemiring R] : List (Nat × (Nat → Nat → R)) → (Nat → R) → Nat → R
  | [], v => v
  | (N, M) :: l, v => chainOp l fun i => if i < N then ∑ j ∈ Finset.range N, M i j * v j else v i

/-- The matrices applied from the last to the first, each to the beginning of the vector. -/
def unOp [NonUnitalNonAssocSemiring R] : List (Nat × (Nat → Nat → R)) → (Nat → R) → Nat → R
  | [], u => u
  | (N, S) :: l, u => fun i => if i < N then ∑ j ∈ Finset.range N, S i j * unOp l u j else u i

theorem chainOp_congr [NonUnitalNonAssocSemiring R] {n : Nat} : ∀ (l : List (Nat × (Nat → Nat → R))) (v v' : Nat → R),
    (∀ p ∈ l, p.1 ≤ n) → (∀ i, i < n → v i = v' i) → ∀ i, i < n → chainOp l v i = chainOp l v' i
  | [], _, _, _, h, i, hi => h i hi
  | (N, M) :: l, v, v', hl, h, i, hi => by
    unfold chainOp
    refine chainOp_congr l _ _ (fun p hp => hl p (List.mem_cons_of_mem _ hp)) ?_ i hi
    intro j hj
    have hN : N ≤ n := hl (N, M) (by simp)
    split_ifs with h1
    · exact Finset.sum_congr rfl fun k hk => by rw [h k (by have := Finset.mem_range.mp hk; omega)]
    · exact h j hj

theorem chainOp_above [NonUnitalNonAssocSemiring R] {b : Nat} : ∀ (l : List (Nat × (Nat → Nat → R))) (v : Nat → R),
    (∀ p ∈ l, p.1 ≤ b) → ∀ i, b ≤ i → chainOp l v i = v i
  | [], _, _, _, _ => rfl
  | (N, M) :: l, v, hl, i, hi => by
    unfold chainOp
    rw [chainOp_above l _ (fun p hp => hl p (List.mem_cons_of_mem _ hp)) i hi]
    have hN : N ≤ b := hl (N, M) (by simp)
    rw [if_neg (by omega)]

theorem unOp_above [NonUnitalNonAssocSemiring R] {b : Nat} (l : List (Nat × (Nat → Nat → R))) (u : Nat → R)
    (hl : ∀ p ∈ l, p.1 ≤ b) (i : Nat) (hi : b ≤ i) : unOp l u i = u i := by
  cases l with
  | nil => rfl
  | cons p l =>
    obtain ⟨N, S⟩ := p
    have hN : N ≤ b := hl (N, S) (by simp)
    unfold unOp
    rw [if_neg (by omega)]

/-- A block matrix: `A` in the corner, the identity below. -/
theorem block_mul [CommRing R] {A M : Coo R} {n : Nat} (hA : A.rows = A.cols) (hn : A.rows ≤ n)
    (hM : ∀ i j, M.den i j = if i < A.rows then A.den i j else if i = j ∧ i < n then 1 else 0) (v : Nat → R)
    {i : Nat} (hi : i < n) : (∑ j ∈ Finset.range n, M.den i j * v j) =
      if i < A.rows then ∑ j ∈ Finset.range A.rows, A.den i j * v j else v i := by
  split_ifs with h
  · rw [← Finset.sum_subset (s₁ := Finset.range A.rows) (by intro j hj; rw [Finset.mem_range] at *; omega)]
    · exact Finset.sum_congr rfl fun j _ => by rw [hM, if_pos h]
    · intro j _ hj
      rw [Finset.mem_range] at hj
      rw [hM, if_pos h, Coo.den_of_cols (by omega), zero_mul]
  · have : ∀ k ∈ Finset.range n, M.den i k * v k = if i = k then v k else 0 := by
      intro k _
      rw [hM, if_neg h]
      by_cases h' : i = k
      · rw [if_pos ⟨h', hi⟩, if_pos h', one_mul]
      · rw [if_neg (fun h2 => h' h2.1), if_neg h', zero_mul]
    rw [Finset.sum_congr rfl this, Finset.sum_ite_eq, if_pos (Finset.mem_range.mpr hi)]

theorem mul_vec [CommRing R] {A B C : Nat → Nat → R} {n : Nat}
    (h : ∀ i k, C i k = ∑ j ∈ Finset.range n, A i j * B j k) (v : Nat → R) (i : Nat) :
    (∑ k ∈ Finset.range n, C i k * v k) = ∑ j ∈ Finset.range n, A i j * ∑ k ∈ Finset.range n, B j k * v k := by
  simp only [h, Finset.sum_mul, Finset.mul_sum]
  rw [Finset.sum_comm]
  exact Finset.sum_congr rfl fun _ _ => Finset.sum_congr rfl fun _ _ => by ring

/-- The size and the entries of a square matrix. -/
def cooPair [AddCommMonoid R] (A : Coo R) : Nat × (Nat → Nat → R) := (A.rows, A.den)

/-- Square matrices of size at most `n`. -/
def SquareLe (md : Meta) (n : Nat) (A : Coo R) : Prop := A.md = md ∧ A.rows = A.cols ∧ A.rows ≤ n

theorem fwtOperatorLoop_chain [CommRing R] {md : Meta} {n : Nat} (hb : n ≤ 2 ^ mantissaBits md.dtype) :
    ∀ (l : List (Coo R)) (acc : Coo R), acc.md = md → acc.rows = n → acc.cols = n → (∀ A ∈ l, SquareLe md n A) →
    ∃ O, fwtOperatorLoop acc l = .ok O ∧ O.md = md ∧ O.rows = n ∧ O.cols = n ∧
      ∀ (v : Nat → R) i, i < n → (∑ j ∈ Finset.range n, O.den i j * v j) =
        chainOp (l.map cooPair) (fun i => ∑ j ∈ Finset.range n, acc.den i j * v j) i
  | [], acc, h1, h2, h3, _ => ⟨acc, rfl, h1, h2, h3, fun _ _ _ => rfl⟩
  | A :: l, acc, h1, h2, h3, hl => by
    obtain ⟨a1, a2, a3⟩ := hl A (by simp)
    obtain ⟨M, e1, m1, m2, m3, m4, _⟩ := catSparseIdentity_ok (A := A) (N := n) a2 a3 (by rw [a1]; exact hb)
    obtain ⟨O1, e2, o1, o2, o3, o4, _⟩ := Coo.mm_ok (A := M) (B := acc) (by rw [m3, h2]) (by rw [m1, a1, h1])
    obtain ⟨O, e3, q1, q2, q3, q4⟩ := fwtOperatorLoop_chain hb l O1 (by rw [o1, m1, a1]) (by rw [o2, m2]) (by rw [o3, h3])
      (fun B hB => hl B (List.mem_cons_of_mem _ hB))
    refine ⟨O, ?_, q1, q2, q3, ?_⟩
    · unfold fwtOperatorLoop
      rw [h2]
      simp only [bind, Except.bind, e1, e2, e3]
    · intro v i hi
      rw [q4 v i hi, List.map_cons]
      show _ = chainOp ((A.rows, A.den) :: _) _ i
      conv_rhs => unfold chainOp
      refine chainOp_congr (n := n) _ _ _ ?_ ?_ i hi
      · intro p hp
        obtain ⟨B, hB, rfl⟩ := List.mem_map.mp hp
        exact (hl B (List.mem_cons_of_mem _ hB)).2.2
      · intro i hi
        rw [m3] at o4
        rw [mul_vec o4, block_mul a2 a3 m4 _ hi]

theorem ifwtOperator_chain [CommRing R] {md : Meta} {n : Nat} (hb : n ≤ 2 ^ mantissaBits md.dtype) :
    ∀ (l : List (Coo R)) (A : Coo R), A.rows = n → (A :: l).Pairwise (fun A B => B.rows ≤ A.rows) →
      (∀ B ∈ A :: l, SquareLe md n B) →
    ∃ S rest O, (A :: l).reverse = S :: rest ∧ ifwtOperatorLoop S rest = .ok O ∧ O.md = md ∧ O.rows = n ∧ O.cols = n ∧
      ∀ (u : Nat → R) i, i < n → (∑ j ∈ Finset.range n, O.den i j * u j) = unOp ((A :: l).map cooPair) u i
  | [], A, hr, _, hl => by
    obtain ⟨a1, a2, a3⟩ := hl A (by simp)
    refine ⟨A, [], A, rfl, rfl, a1, hr, by rw [← a2, hr], ?_⟩
    intro u i hi
    show _ = unOp [(A.rows, A.den)] u i
    unfold unOp
    rw [if_pos (by omega), hr]
    rfl
  | B :: l, A, hr, hp, hl => by
    obtain ⟨a1, a2, a3⟩ := hl A (by simp)
    have hp' := List.pairwise_cons.mp hp
    have hp2 := List.pairwise_cons.mp hp'.2
    have hBn : B.rows ≤ n := by have := hp'.1 B (by simp); omega
    obtain ⟨S, rest, O, e1, e2, o1, o2, o3, o4⟩ := ifwtOperator_chain (md := md) (n := B.rows) (by omega) l B rfl hp'.2 (by
      intro D hD
      obtain ⟨d1, d2, _⟩ := hl D (List.mem_cons_of_mem _ hD)
      refine ⟨d1, d2, ?_⟩
      rcases List.mem_cons.mp hD with rfl | hD
      · exact le_rfl
      · exact hp2.1 D hD)
    obtain ⟨M, e3, m1, m2, m3, m4, _⟩ := catSparseIdentity_ok (A := O) (N := n) (by rw [o2, o3]) (by omega)
      (by rw [o1]; exact hb)
    obtain ⟨O', e4, q1, q2, q3, q4, _⟩ := Coo.mm_ok (A := A) (B := M) (by rw [← a2, hr, m2]) (by rw [a1, m1, o1])
    refine ⟨S, rest ++ [A], O', ?_, ?_, by rw [q1, a1], by rw [q2, hr], by rw [q3, m3], ?_⟩
    · rw [List.reverse_cons, e1]; rfl
    · rw [ifwtOperatorLoop_append, e2]
      simp only [Except.bind]
      unfold ifwtOperatorLoop
      rw [hr]
      simp only [bind, Except.bind, e3, e4]
      rfl
    · intro u i hi
      rw [← a2, hr] at q4
      rw [mul_vec q4]
      conv_rhs => rw [List.map_cons]
      show _ = unOp ((A.rows, A.den) :: _) u i
      conv_rhs => unfold unOp
      rw [hr, if_pos hi]
      refine Finset.sum_congr rfl fun j hj => ?_
      rw [Finset.mem_range] at hj
      congr 1
      rw [block_mul (by rw [o2, o3]) (by omega) m4 u hj, o2]
      split_ifs with h
      · exact o4 u j h
      · rw [unOp_above (b := B.rows) _ u ?_ j (by omega)]
        intro p hp
        obtain ⟨D, hD, rfl⟩ := List.mem_map.mp hp
        rcases List.mem_cons.mp hD with rfl | hD
        · exact le_rfl
        · exact hp2.1 D hD

/-! ### The bands in the chain -/

section
variable [CommRing R] {m : Mode} {A : Nat → Nat → Nat → Nat → R}

theorem quarter_lt {h w r s b : Nat} (hb : b < 4) (hr : r < h) (hs : s < w) : b * (h * w) + s * h + r < 4 * (h * w) := by
  have h1 : (s + 1) * h ≤ w * h := Nat.mul_le_mul_right h hs
  have h2 : (b + 1) * (h * w) ≤ 4 * (h * w) := Nat.mul_le_mul_right _ hb
  have h3 : w * h = h * w := Nat.mul_comm _ _
  have h4 : (s + 1) * h = s * h + h := by ring
  have h5 : (b + 1) * (h * w) = b * (h * w) + h * w := by ring
  omega

theorem pix_lt {h w r s : Nat} (hr : r < h) (hs : s < w) : s * h + r < h * w := by
  have h1 : (s + 1) * h ≤ w * h := Nat.mul_le_mul_right h hs
  have h3 : w * h = h * w := Nat.mul_comm _ _
  have h4 : (s + 1) * h = s * h + h := by ring
  omega

theorem quarter_cases {h w j : Nat} (hj : j < 4 * (h * w)) :
    ∃ b r s, b < 4 ∧ r < h ∧ s < w ∧ j = b * (h * w) + s * h + r := by
  have hpos : 0 < h * w := by omega
  have hh : 0 < h := Nat.pos_of_mul_pos_right hpos
  refine ⟨j / (h * w), j % (h * w) % h, j % (h * w) / h, ?_, Nat.mod_lt _ hh, ?_, ?_⟩
  · rw [Nat.div_lt_iff_lt_mul hpos]; exact hj
  · rw [Nat.div_lt_iff_lt_mul hh]
    have := Nat.mod_lt j hpos
    rw [Nat.mul_comm w h]; exact this
  · have h1 := Nat.div_add_mod j (h * w)
    have h2 := Nat.div_add_mod (j % (h * w)) h
    rw [Nat.mul_comm] at h1 h2
    omega

/-- The product with the matrix of one level, band by band. -/
theorem block_band {p q : Nat} {X : List Nat → R} {M : Nat → Nat → R} {v : Nat → R}
    (hM : ∀ i j, i < evenLen p * evenLen q → j < evenLen p * evenLen q → M i j = A (evenLen p) (evenLen q) i j)
    (hv : ∀ j, j < evenLen p * evenLen q → v j = flatEven m p q X j) {bs : List Bool} (hb : bandNo bs < 4) {r s : Nat}
    (hr : r < evenLen p / 2) (hs : s < evenLen q / 2) :
    (∑ j ∈ Finset.range (evenLen p * evenLen q),
      M (bandNo bs * (evenLen p / 2 * (evenLen q / 2)) + s * (evenLen p / 2) + r) j * v j) =
      nonsepBand m A bs [p, q] X [r, s] := by
  simp only [nonsepBand]
  refine Finset.sum_congr rfl fun j hj => ?_
  rw [Finset.mem_range] at hj
  have := quarter_lt hb hr hs
  rw [← quarter4] at this
  rw [hM _ _ this hj, hv j hj]
  rfl

theorem packed_step {p q k : Nat} {X : List Nat → R} {M : Nat → Nat → R} {v : Nat → R}
    {l : List (Nat × (Nat → Nat → R))}
    (hM : ∀ i j, i < evenLen p * evenLen q → j < evenLen p * evenLen q → M i j = A (evenLen p) (evenLen q) i j)
    (hv : ∀ j, j < evenLen p * evenLen q → v j = flatEven m p q X j)
    (hl : ∀ e ∈ l, e.1 ≤ evenLen p / 2 * (evenLen q / 2))
    (hrest : ∀ v1 : Nat → R, (∀ j, j < evenLen p / 2 * (evenLen q / 2) → v1 j =
        nonsepBand m A (lowBand 2) [p, q] X [j % (evenLen p / 2), j / (evenLen p / 2)]) →
      Packed2 m A (halfLens [p, q]) (nonsepBand m A (lowBand 2) [p, q] X) k (chainOp l v1)) :
    Packed2 m A [p, q] X (k + 1) (chainOp ((evenLen p * evenLen q, M) :: l) v) := by
  unfold chainOp
  set v1 : Nat → R := fun i => if i < evenLen p * evenLen q then
    ∑ j ∈ Finset.range (evenLen p * evenLen q), M i j * v j else v i with hv1
  have key : ∀ (bs : List Bool) r s, bandNo bs < 4 → r < evenLen p / 2 → s < evenLen q / 2 →
      v1 (bandNo bs * (evenLen p / 2 * (evenLen q / 2)) + s * (evenLen p / 2) + r) =
        nonsepBand m A bs [p, q] X [r, s] := by
    intro bs r s hb hr hs
    have := quarter_lt hb hr hs
    rw [← quarter4] at this
    rw [hv1]
    simp only
    rw [if_pos this]
    exact block_band hM hv hb hr hs
  have hP := hrest v1 (by
    intro j hj
    have hh : 0 < evenLen p / 2 := Nat.pos_of_mul_pos_right (by omega : 0 < evenLen p / 2 * (evenLen q / 2))
    have h1 : j % (evenLen p / 2) < evenLen p / 2 := Nat.mod_lt _ hh
    have h2 : j / (evenLen p / 2) < evenLen q / 2 := by
      rw [Nat.div_lt_iff_lt_mul hh, Nat.mul_comm]; exact hj
    have := key (lowBand 2) _ _ (by decide) h1 h2
    rw [show bandNo (lowBand 2) = 0 from rfl, Nat.zero_mul, Nat.zero_add] at this
    have h3 := Nat.div_add_mod j (evenLen p / 2)
    rw [Nat.mul_comm] at h3
    rw [h3] at this
    exact this)
  constructor
  · intro a b hab r s hr hs
    rw [mLens_succ] at hab
    exact hP.approx a b hab r s hr hs
  · intro t ht a b hab r s hr hs
    cases t with
    | zero =>
      rw [mLens_succ, mLens_zero] at hab
      have ha : a = evenLen p / 2 := by unfold halfLens at hab; simp at hab; exact hab.1.symm
      have hb : b = evenLen q / 2 := by unfold halfLens at hab; simp at hab; exact hab.2.symm
      subst ha hb
      refine ⟨?_, ?_, ?_⟩
      · rw [chainOp_above l v1 hl _ (by omega)]
        exact key [true, false] r s (by decide) hr hs
      · rw [chainOp_above l v1 hl _ (by omega)]
        exact key [false, true] r s (by decide) hr hs
      · rw [chainOp_above l v1 hl _ (by omega)]
        exact key [true, true] r s (by decide) hr hs
    | succ t =>
      rw [mLens_succ] at hab
      exact hP.detail t (by omega) a b hab r s hr hs

/-- The coefficients of one level, as a vector. -/
theorem packed_head {p q k : Nat} {X : List Nat → R} {u w : Nat → R} {M : Nat → Nat → R} {v : Nat → R}
    (hM : ∀ i j, i < evenLen p * evenLen q → j < evenLen p * evenLen q → M i j = A (evenLen p) (evenLen q) i j)
    (hv : ∀ j, j < evenLen p * evenLen q → v j = flatEven m p q X j)
    (hu : Packed2 m A [p, q] X (k + 1) u)
    (hw : ∀ j, j < evenLen p / 2 * (evenLen q / 2) → w j =
      nonsepBand m A (lowBand 2) [p, q] X [j % (evenLen p / 2), j / (evenLen p / 2)])
    (hw' : ∀ j, evenLen p / 2 * (evenLen q / 2) ≤ j → w j = u j) :
    ∀ i, i < evenLen p * evenLen q → w i = ∑ j ∈ Finset.range (evenLen p * evenLen q), M i j * v j := by
  intro i hi
  rw [quarter4] at hi
  obtain ⟨b, r, s, hb, hr, hs, rfl⟩ := quarter_cases hi
  have hmem : mLens [p, q] (0 + 1) = [evenLen p / 2, evenLen q / 2] := by rw [mLens_succ, mLens_zero]; rfl
  have hd := hu.detail 0 (by omega) _ _ hmem r s hr hs
  have hcase : b = 0 ∨ b = 1 ∨ b = 2 ∨ b = 3 := by omega
  rcases hcase with rfl | rfl | rfl | rfl
  · have hlt := pix_lt hr hs
    rw [Nat.zero_mul, Nat.zero_add] at *
    rw [hw _ hlt, pix_mod hr, pix_div hr, ← block_band (bs := lowBand 2) hM hv (by decide) hr hs,
      show bandNo (lowBand 2) = 0 from rfl, Nat.zero_mul, Nat.zero_add]
  · rw [hw' _ (by omega), hd.1]
    exact (block_band (bs := [true, false]) hM hv (by decide) hr hs).symm
  · rw [hw' _ (by omega), hd.2.1]
    exact (block_band (bs := [false, true]) hM hv (by decide) hr hs).symm
  · rw [hw' _ (by omega), hd.2.2]
    exact (block_band (bs := [true, true]) hM hv (by decide) hr hs).symm

theorem packed_tail {p q k : Nat} {X : List Nat → R} {u : Nat → R} (hu : Packed2 m A [p, q] X (k + 1) u) :
    Packed2 m A (halfLens [p, q]) (nonsepBand m A (lowBand 2) [p, q] X) k u := by
  constructor
  · intro a b hab r s hr hs
    exact hu.approx a b (by rw [mLens_succ]; exact hab) r s hr hs
  · intro t ht a b hab r s hr hs
    exact hu.detail (t + 1) (by omega) a b (by rw [mLens_succ]; exact hab) r s hr hs

end

end Verif
