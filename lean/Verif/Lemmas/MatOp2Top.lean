/-
The operator matrices of built non-separable objects.
-/
import Verif.Lemmas.MatOp2

namespace Verif
open Tensor Spec
variable {R : Type}

/-- The matrices of all levels. -/
def flatMats (C : Nat → Nat → Coo R) (F L : Nat) (ns : List Nat) : List (Coo R) := (builtN (mats2At C) F L ns).flatten

theorem flatMats_short {C : Nat → Nat → Coo R} {F L : Nat} {ns : List Nat} (h : mLevelsN F L ns = 0) :
    flatMats C F L ns = [] := by
  unfold flatMats
  have : builtN (mats2At C) F L ns = [] := List.length_eq_zero_iff.mp (by rw [builtN_length]; exact h)
  rw [this]
  rfl

theorem flatMats_cons {C : Nat → Nat → Coo R} {F L p q : Nat} (h : ¬ ∃ n ∈ [p, q], n < F) :
    flatMats C F (L + 1) [p, q] = C (evenLen p) (evenLen q) :: flatMats C F L (halfLens [p, q]) := by
  unfold flatMats
  conv_lhs => unfold builtN
  rw [if_neg h, List.flatten_cons]
  rfl

theorem flatMats_length {C : Nat → Nat → Coo R} {F : Nat} : ∀ {L : Nat} {ns : List Nat}, ns.length = 2 →
    (flatMats C F L ns).length = mLevelsN F L ns
  | 0, _, _ => rfl
  | L + 1, [p, q], _ => by
    by_cases h : ∃ n ∈ [p, q], n < F
    · have h0 : mLevelsN F (L + 1) [p, q] = 0 := by unfold mLevelsN; rw [if_pos h]
      rw [flatMats_short h0, h0]; rfl
    · rw [flatMats_cons h, List.length_cons, flatMats_length (by rfl)]
      conv_rhs => unfold mLevelsN
      rw [if_neg h]

theorem mLevelsN_cons {F L : Nat} {ns : List Nat} (h : ¬ ∃ n ∈ ns, n < F) :
    mLevelsN F (L + 1) ns = mLevelsN F L (halfLens ns) + 1 := by
  conv_lhs => unfold mLevelsN
  rw [if_neg h]

theorem evenLen_half_le' (p : Nat) : evenLen (evenLen p / 2) ≤ evenLen p := by
  have := evenLen_even p
  unfold evenLen at *
  omega

theorem half_sizes_le {N p q : Nat} (hN : ∀ k ∈ [p, q], evenLen k ≤ N) : ∀ k ∈ halfLens [p, q], evenLen k ≤ N := by
  intro k hk
  unfold halfLens at hk
  obtain ⟨n, hn, rfl⟩ := List.mem_map.mp hk
  have := evenLen_half_le' n
  have := hN n hn
  omega

section
variable [CommRing R] {m : Mode} {C : Nat → Nat → Coo R} {A : Nat → Nat → Nat → Nat → R} {md : Meta} {F N : Nat}

theorem flatMats_square (hC : Family2 C A md F N) : ∀ {L p q : Nat}, (∀ k ∈ [p, q], evenLen k ≤ N) →
    ∀ B ∈ flatMats C F L [p, q], SquareLe md (evenLen p * evenLen q) B
  | 0, _, _, _, B, hB => by cases hB
  | L + 1, p, q, hN, B, hB => by
    by_cases h : ∃ n ∈ [p, q], n < F
    · rw [flatMats_short (by unfold mLevelsN; rw [if_pos h])] at hB; cases hB
    · rw [flatMats_cons h] at hB
      push Not at h
      obtain ⟨c1, c2, c3, _⟩ := hC.at (h p (by simp)) (h q (by simp)) (hN p (by simp)) (hN q (by simp))
      rcases List.mem_cons.mp hB with rfl | hB
      · exact ⟨c1, by rw [c2, c3], by rw [c2]⟩
      · obtain ⟨b1, b2, b3⟩ := flatMats_square hC (L := L) (p := evenLen p / 2) (q := evenLen q / 2) (half_sizes_le hN) B hB
        exact ⟨b1, b2, b3.trans (Nat.mul_le_mul (evenLen_half_le' p) (evenLen_half_le' q))⟩

theorem flatMats_pairwise (hC : Family2 C A md F N) : ∀ {L p q : Nat}, (∀ k ∈ [p, q], evenLen k ≤ N) →
    (flatMats C F L [p, q]).Pairwise (fun A B => B.rows ≤ A.rows)
  | 0, _, _, _ => List.Pairwise.nil
  | L + 1, p, q, hN => by
    by_cases h : ∃ n ∈ [p, q], n < F
    · rw [flatMats_short (by unfold mLevelsN; rw [if_pos h])]; exact List.Pairwise.nil
    · rw [flatMats_cons h]
      push Not at h
      obtain ⟨_, c2, _, _⟩ := hC.at (h p (by simp)) (h q (by simp)) (hN p (by simp)) (hN q (by simp))
      refine List.pairwise_cons.mpr ⟨?_, flatMats_pairwise hC (half_sizes_le hN)⟩
      intro B hB
      obtain ⟨_, _, b3⟩ := flatMats_square hC (L := L) (p := evenLen p / 2) (q := evenLen q / 2) (half_sizes_le hN) B hB
      rw [c2]
      exact b3.trans (Nat.mul_le_mul (evenLen_half_le' p) (evenLen_half_le' q))

theorem padFreeN_half {ns : List Nat} {k : Nat} (h : PadFreeN ns (k + 1)) : PadFreeN (halfLens ns) k := by
  intro s hs n hn
  exact h (s + 1) (by omega) n (by rw [mLens_succ]; exact hn)

theorem padFreeN_head {p q k : Nat} (h : PadFreeN [p, q] (k + 1)) : p % 2 = 0 ∧ q % 2 = 0 := by
  have := h 0 (by omega)
  rw [mLens_zero] at this
  exact ⟨this p (by simp), this q (by simp)⟩

/-- Reading an image of even sizes column by column. -/
theorem flatEven_even {p q : Nat} (hp : p % 2 = 0) {X : List Nat → R} {j : Nat} (hj : j < p * q) :
    flatEven m p q X j = X [j % p, j / p] := by
  unfold flatEven
  rw [evenLen_of_even hp]
  have h0 : 0 < p := Nat.pos_of_mul_pos_right (by omega : 0 < p * q)
  exact extN_inside m [p, q] [j % p, j / p] X ⟨Nat.mod_lt _ h0, by rw [Nat.div_lt_iff_lt_mul h0, Nat.mul_comm]; exact hj, trivial⟩

/-- The sizes of the remaining levels. -/
theorem flatMats_half_le (hC : Family2 C A md F N) {L p q : Nat} (hN : ∀ k ∈ [p, q], evenLen k ≤ N)
    (hp : PadFreeN (halfLens [p, q]) (mLevelsN F L (halfLens [p, q]))) :
    ∀ e ∈ (flatMats C F L (halfLens [p, q])).map cooPair, e.1 ≤ evenLen p / 2 * (evenLen q / 2) := by
  intro e he
  obtain ⟨B, hB, rfl⟩ := List.mem_map.mp he
  have h3 := (flatMats_square hC (L := L) (p := evenLen p / 2) (q := evenLen q / 2) (half_sizes_le hN) B hB).2.2
  have hpos : 0 < mLevelsN F L (halfLens [p, q]) := by
    rw [← flatMats_length (C := C) (F := F) (L := L) (ns := halfLens [p, q]) (by rfl)]
    exact List.length_pos_of_mem hB
  obtain ⟨k, hk⟩ : ∃ k, mLevelsN F L (halfLens [p, q]) = k + 1 := ⟨_, (Nat.succ_pred_eq_of_pos hpos).symm⟩
  rw [hk] at hp
  obtain ⟨e1, e2⟩ := padFreeN_head (p := evenLen p / 2) (q := evenLen q / 2) hp
  rw [evenLen_of_even e1, evenLen_of_even e2] at h3
  exact h3

/-- The chain of the matrices computes the coefficients. -/
theorem chain_packed (hC : Family2 C A md F N) : ∀ {L p q : Nat}, (∀ k ∈ [p, q], evenLen k ≤ N) →
    PadFreeN [p, q] (mLevelsN F L [p, q]) → ∀ {X : List Nat → R} {v : Nat → R},
    (∀ j, j < p * q → v j = X [j % p, j / p]) →
    Packed2 m A [p, q] X (mLevelsN F L [p, q]) (chainOp ((flatMats C F L [p, q]).map cooPair) v) := by
  intro L
  have base : ∀ {p q : Nat} {X : List Nat → R} {v : Nat → R}, (∀ j, j < p * q → v j = X [j % p, j / p]) →
      Packed2 m A [p, q] X 0 v := by
    intro p q X v hv
    constructor
    · intro a b hab r s hr hs
      rw [mLens_zero] at hab
      obtain ⟨rfl, rfl⟩ : p = a ∧ q = b := by simpa using hab
      rw [hv _ (pix_lt hr hs), pix_mod hr, pix_div hr]
      rfl
    · intro l hl; omega
  induction L with
  | zero => intro p q _ _ X v hv; exact base hv
  | succ L ih =>
    intro p q hN hp X v hv
    by_cases h : ∃ n ∈ [p, q], n < F
    · have h0 : mLevelsN F (L + 1) [p, q] = 0 := by unfold mLevelsN; rw [if_pos h]
      rw [flatMats_short h0, h0]
      exact base hv
    · rw [flatMats_cons h, mLevelsN_cons h] at *
      push Not at h
      obtain ⟨_, c2, _, c4⟩ := hC.at (h p (by simp)) (h q (by simp)) (hN p (by simp)) (hN q (by simp))
      obtain ⟨e1, e2⟩ := padFreeN_head hp
      rw [List.map_cons]
      rw [show cooPair (C (evenLen p) (evenLen q)) = (evenLen p * evenLen q, (C (evenLen p) (evenLen q)).den) by
        unfold cooPair; rw [c2]]
      refine packed_step c4 ?_ (flatMats_half_le hC hN (padFreeN_half hp)) ?_
      · intro j hj
        rw [evenLen_of_even e1, evenLen_of_even e2] at hj
        rw [hv j hj, flatEven_even e1 hj]
      · intro v1 hv1
        exact ih (half_sizes_le hN) (padFreeN_half hp) hv1

/-- The chain of the transposed matrices recovers the image. -/
theorem unchain_packed (hC : Family2 C A md F N)
    (hA : ∀ p q, p % 2 = 0 → q % 2 = 0 → F ≤ p → F ≤ q → p ≤ N → q ≤ N → OrthonormalCols (p * q) (A p q)) :
    ∀ {L p q : Nat}, (∀ k ∈ [p, q], evenLen k ≤ N) →
    PadFreeN [p, q] (mLevelsN F L [p, q]) → ∀ {X : List Nat → R} {u : Nat → R},
    Packed2 m A [p, q] X (mLevelsN F L [p, q]) u →
    ∀ j, j < p * q → unOp ((flatMats (fun p q => (C p q).transpose) F L [p, q]).map cooPair) u j = X [j % p, j / p] := by
  intro L
  have base : ∀ {p q : Nat} {X : List Nat → R} {u : Nat → R}, Packed2 m A [p, q] X 0 u →
      ∀ j, j < p * q → u j = X [j % p, j / p] := by
    intro p q X u hu j hj
    have h0 : 0 < p := Nat.pos_of_mul_pos_right (by omega : 0 < p * q)
    have := hu.approx p q (mLens_zero _) (j % p) (j / p) (Nat.mod_lt _ h0)
      (by rw [Nat.div_lt_iff_lt_mul h0, Nat.mul_comm]; exact hj)
    have h3 := Nat.div_add_mod j p
    rw [Nat.mul_comm] at h3
    rw [h3] at this
    exact this
  induction L with
  | zero => intro p q _ _ X u hu; exact base hu
  | succ L ih =>
    intro p q hN hp X u hu j hj
    by_cases h : ∃ n ∈ [p, q], n < F
    · have h0 : mLevelsN F (L + 1) [p, q] = 0 := by unfold mLevelsN; rw [if_pos h]
      rw [h0] at hu
      rw [flatMats_short h0]
      exact base hu j hj
    · rw [mLevelsN_cons h] at hp hu
      rw [flatMats_cons h]
      push Not at h
      obtain ⟨_, c2, c3, c4⟩ := hC.at (h p (by simp)) (h q (by simp)) (hN p (by simp)) (hN q (by simp))
      obtain ⟨e1, e2⟩ := padFreeN_head hp
      have hj' : j < evenLen p * evenLen q := by rw [evenLen_of_even e1, evenLen_of_even e2]; exact hj
      have hlt : ∀ e ∈ (flatMats (fun p q => (C p q).transpose) F L (halfLens [p, q])).map cooPair,
          e.1 ≤ evenLen p / 2 * (evenLen q / 2) := by
        refine flatMats_half_le (A := fun p q i j => A p q j i) (md := md) (N := N) ?_ hN (padFreeN_half hp)
        constructor
        intro a b a1 b1 a2 b2 a3 b3
        obtain ⟨g1, g2, g3, g4⟩ := hC.at' a b a1 b1 a2 b2 a3 b3
        exact ⟨g1, g3, g2, fun i j hi hj => by rw [Coo.transpose_den]; exact g4 j i hj hi⟩
      rw [List.map_cons]
      rw [show cooPair (C (evenLen p) (evenLen q)).transpose = (evenLen p * evenLen q, (C (evenLen p) (evenLen q)).transpose.den) by
        unfold cooPair; rw [show (C (evenLen p) (evenLen q)).transpose.rows = (C (evenLen p) (evenLen q)).cols from rfl, c3]]
      unfold unOp
      rw [if_pos hj', ← flatEven_even (m := m) (X := X) e1 hj]
      have hb := packed_head (M := A (evenLen p) (evenLen q)) (v := flatEven m p q X)
        (w := unOp ((flatMats (fun p q => (C p q).transpose) F L (halfLens [p, q])).map cooPair) u) (fun _ _ _ _ => rfl)
        (fun _ _ => rfl) hu
        (fun i hi => ih (p := evenLen p / 2) (q := evenLen q / 2) (half_sizes_le hN) (padFreeN_half hp) (packed_tail hu) i hi)
        (fun i hi => unOp_above _ u hlt i hi)
      have hE := hA (evenLen p) (evenLen q) (evenLen_even p) (evenLen_even q)
        ((h p (by simp)).trans (le_evenLen p)) ((h q (by simp)).trans (le_evenLen q)) (hN p (by simp)) (hN q (by simp))
      rw [← synth_analysis hE (flatEven m p q X) hj']
      refine Finset.sum_congr rfl fun i hi => ?_
      rw [Finset.mem_range] at hi
      rw [hb i hi, Coo.transpose_den, c4 i j hi hj']

end

/-! ### Odd sizes at the first level -/

/-- The image extended to even sizes. -/
def evenImage [Zero R] (m : Mode) (ns : List Nat) (X : List Nat → R) (ks : List Nat) : R :=
  extN m ns X (ks.map fun (k : Nat) => (k : ℤ))

section
variable [CommRing R] {m : Mode} {C : Nat → Nat → Coo R} {A : Nat → Nat → Nat → Nat → R} {md : Meta} {F N : Nat}

theorem nonsepBand_evenImage {p q : Nat} {X : List Nat → R} (bs : List Bool) :
    nonsepBand m A bs [evenLen p, evenLen q] (evenImage m [p, q] X) = nonsepBand m A bs [p, q] X := by
  funext ks
  have ep := evenLen_of_even (evenLen_even p)
  have eq := evenLen_of_even (evenLen_even q)
  match ks with
  | [r, s] =>
    simp only [nonsepBand]
    rw [ep, eq]
    refine Finset.sum_congr rfl fun j hj => ?_
    rw [Finset.mem_range] at hj
    congr 1
    have h0 : 0 < evenLen p := Nat.pos_of_mul_pos_right (by omega : 0 < evenLen p * evenLen q)
    exact (extN_inside m [evenLen p, evenLen q] [j % evenLen p, j / evenLen p] (evenImage m [p, q] X)
      ⟨Nat.mod_lt _ h0, by rw [Nat.div_lt_iff_lt_mul h0, Nat.mul_comm]; exact hj, trivial⟩)
  | [] => rfl
  | [_] => rfl
  | _ :: _ :: _ :: _ => rfl

theorem halfLens_even2 (p q : Nat) : halfLens [evenLen p, evenLen q] = halfLens [p, q] := by
  unfold halfLens
  simp [evenLen_of_even (evenLen_even p), evenLen_of_even (evenLen_even q)]

theorem packed_even {p q k : Nat} {X : List Nat → R} {u : Nat → R} :
    Packed2 m A [evenLen p, evenLen q] (evenImage m [p, q] X) (k + 1) u ↔ Packed2 m A [p, q] X (k + 1) u := by
  have e1 : ∀ l, mLens [evenLen p, evenLen q] (l + 1) = mLens [p, q] (l + 1) := by
    intro l; rw [mLens_succ, mLens_succ, halfLens_even2]
  have e2 : bandA (nonsepBand m A) [evenLen p, evenLen q] (evenImage m [p, q] X) (k + 1) =
      bandA (nonsepBand m A) [p, q] X (k + 1) := by
    show bandA (nonsepBand m A) (halfLens [evenLen p, evenLen q]) (nonsepBand m A (lowBand 2) _ _) k = 
      bandA (nonsepBand m A) (halfLens [p, q]) (nonsepBand m A (lowBand 2) _ _) k
    rw [halfLens_even2, nonsepBand_evenImage]
  have e3 : ∀ l bs, bandD (nonsepBand m A) [evenLen p, evenLen q] (evenImage m [p, q] X) l bs =
      bandD (nonsepBand m A) [p, q] X l bs := by
    intro l bs
    cases l with
    | zero => exact nonsepBand_evenImage bs
    | succ l =>
      show bandD (nonsepBand m A) (halfLens [evenLen p, evenLen q]) (nonsepBand m A (lowBand 2) _ _) l bs = 
        bandD (nonsepBand m A) (halfLens [p, q]) (nonsepBand m A (lowBand 2) _ _) l bs
      rw [halfLens_even2, nonsepBand_evenImage]
  constructor
  · rintro ⟨h1, h2⟩
    simp only [e1, e2, e3] at h1 h2
    exact ⟨h1, h2⟩
  · rintro ⟨h1, h2⟩
    constructor
    · simp only [e1, e2]; exact h1
    · simp only [e1, e3]; exact h2

theorem mLen_le (n : Nat) : ∀ s, mLen n s ≤ n
  | 0 => le_rfl
  | s + 1 => by
    rw [mLen_snoc]
    have := mLen_le n s
    unfold evenLen
    omega

theorem mLens_bound {p q l a b : Nat} (h : mLens [p, q] (l + 1) = [a, b]) : 4 * (a * b) ≤ evenLen p * evenLen q := by
  rw [mLens_succ] at h
  unfold mLens halfLens at h
  simp at h
  have h1 := mLen_le (evenLen p / 2) l
  have h2 := mLen_le (evenLen q / 2) l
  rw [h.1] at h1
  rw [h.2] at h2
  rw [quarter4]
  exact Nat.mul_le_mul_left 4 (Nat.mul_le_mul h1 h2)

theorem packed_congr {p q k : Nat} {X : List Nat → R} {u u' : Nat → R}
    (h : ∀ i, i < evenLen p * evenLen q → u i = u' i) (hu : Packed2 m A [p, q] X (k + 1) u) :
    Packed2 m A [p, q] X (k + 1) u' := by
  constructor
  · intro a b hab r s hr hs
    have := mLens_bound hab
    have := pix_lt hr hs
    rw [← h _ (by omega)]
    exact hu.approx a b hab r s hr hs
  · intro l hl a b hab r s hr hs
    have hB := mLens_bound hab
    have h1 := quarter_lt (b := 1) (by omega) hr hs
    have h2 := quarter_lt (b := 2) (by omega) hr hs
    have h3 := quarter_lt (b := 3) (by omega) hr hs
    rw [← h _ (by omega), ← h _ (by omega), ← h _ (by omega)]
    exact hu.detail l hl a b hab r s hr hs

theorem flatMats_even {p q L : Nat} (h : 0 < mLevelsN F L [p, q]) :
    flatMats C F L [evenLen p, evenLen q] = flatMats C F L [p, q] := by
  unfold flatMats
  have := builtN_even (F := F) (mats2At_even C) (L := L) (ns := [p, q]) h
  rw [← this]
  rfl

theorem mLevelsN_even' {p q L : Nat} (h : 0 < mLevelsN F L [p, q]) :
    mLevelsN F L [evenLen p, evenLen q] = mLevelsN F L [p, q] := by
  have := builtN_even (α := Unit) (f := fun _ => ()) (F := F) (fun _ => rfl) (L := L) (ns := [p, q]) h
  have := congrArg List.length this
  rwa [builtN_length, builtN_length] at this

theorem padFlags_free : ∀ {L : Nat} {ns : List Nat},
    ((builtN matrixPadFlags F L ns).any fun p => p.any id) = false ↔ PadFreeN ns (mLevelsN F L ns)
  | 0, ns => by
    constructor
    · intro _ s hs; simp [mLevelsN] at hs
    · intro _; rfl
  | L + 1, ns => by
    by_cases h : ∃ n ∈ ns, n < F
    · have h0 : mLevelsN F (L + 1) ns = 0 := by unfold mLevelsN; rw [if_pos h]
      rw [h0]
      constructor
      · intro _ s hs; omega
      · intro _
        have : builtN matrixPadFlags F (L + 1) ns = [] := List.length_eq_zero_iff.mp (by rw [builtN_length]; exact h0)
        rw [this]; rfl
    · rw [mLevelsN_cons h]
      conv_lhs => unfold builtN
      rw [if_neg h, List.any_cons, Bool.or_eq_false_iff, padFlags_free (L := L)]
      have hhead : (matrixPadFlags ns).any id = false ↔ ∀ n ∈ ns, n % 2 = 0 := by
        unfold matrixPadFlags
        simp
      rw [hhead]
      constructor
      · rintro ⟨h1, h2⟩ s hs n hn
        cases s with
        | zero => rw [mLens_zero] at hn; exact h1 n hn
        | succ s => rw [mLens_succ] at hn; exact h2 s (by omega) n hn
      · intro hp
        refine ⟨fun n hn => hp 0 (by omega) n (by rw [mLens_zero]; exact hn), fun s hs n hn => ?_⟩
        exact hp (s + 1) (by omega) n (by rw [mLens_succ]; exact hn)

/-- A chain of square matrices and its operator. -/
theorem fwtOp_ok (hC : Family2 C A md F N) {L p q k : Nat} (hN : ∀ j ∈ [p, q], evenLen j ≤ N)
    (hk : mLevelsN F L [p, q] = k + 1) (hp : PadFreeN [evenLen p, evenLen q] (k + 1))
    (hb : k ≠ 0 → evenLen p * evenLen q ≤ 2 ^ mantissaBits md.dtype) :
    ∃ A₀ rest O, flatMats C F L [p, q] = A₀ :: rest ∧ rest.length = k ∧ fwtOperatorLoop A₀ rest = .ok O ∧ O.md = md ∧
      O.rows = evenLen p * evenLen q ∧ O.cols = evenLen p * evenLen q ∧
      ∀ X : List Nat → R, Packed2 m A [p, q] X (k + 1)
        (fun i => ∑ j ∈ Finset.range (evenLen p * evenLen q), O.den i j * flatEven m p q X j) := by
  have hpos : 0 < mLevelsN F L [p, q] := by omega
  cases L with
  | zero => simp [mLevelsN] at hk
  | succ L =>
  have hs : ¬ ∃ n ∈ [p, q], n < F := by
    intro h; unfold mLevelsN at hk; rw [if_pos h] at hk; omega
  have hk' := hk
  rw [mLevelsN_cons hs] at hk'
  have hcons := flatMats_cons (C := C) (L := L) hs
  have hs' := hs
  push Not at hs'
  obtain ⟨c1, c2, c3, c4⟩ := hC.at (hs' p (by simp)) (hs' q (by simp)) (hN p (by simp)) (hN q (by simp))
  have hlr : (flatMats C F L (halfLens [p, q])).length = k := by
    rw [flatMats_length (by rfl)]; omega
  have hsq := flatMats_square hC (L := L + 1) hN
  rw [hcons] at hsq
  have hloop : ∃ O, fwtOperatorLoop (C (evenLen p) (evenLen q)) (flatMats C F L (halfLens [p, q])) = .ok O ∧ O.md = md ∧
      O.rows = evenLen p * evenLen q ∧ O.cols = evenLen p * evenLen q ∧
      ∀ (v : Nat → R) i, i < evenLen p * evenLen q → (∑ j ∈ Finset.range (evenLen p * evenLen q), O.den i j * v j) =
        chainOp ((flatMats C F L (halfLens [p, q])).map cooPair)
          (fun i => ∑ j ∈ Finset.range (evenLen p * evenLen q), (C (evenLen p) (evenLen q)).den i j * v j) i := by
    by_cases h0 : k = 0
    · rw [h0] at hlr
      rw [List.length_eq_zero_iff.mp hlr]
      exact ⟨_, rfl, c1, c2, c3, fun _ _ _ => rfl⟩
    · exact fwtOperatorLoop_chain (hb h0) _ _ c1 c2 c3 fun B hB => hsq B (List.mem_cons_of_mem _ hB)
  obtain ⟨O, e, o1, o2, o3, o4⟩ := hloop
  refine ⟨_, _, O, hcons, hlr, e, o1, o2, o3, ?_⟩
  intro X
  have hN' : ∀ j ∈ [evenLen p, evenLen q], evenLen j ≤ N := by
    intro j hj
    have : j = evenLen p ∨ j = evenLen q := by simpa using hj
    rcases this with rfl | rfl
    · rw [evenLen_of_even (evenLen_even p)]; exact hN p (by simp)
    · rw [evenLen_of_even (evenLen_even q)]; exact hN q (by simp)
  have h1 := chain_packed (m := m) hC (L := L + 1) hN' (by rw [mLevelsN_even' hpos, hk]; exact hp)
    (X := evenImage m [p, q] X) (v := flatEven m p q X) (fun j _ => rfl)
  rw [mLevelsN_even' hpos, hk, packed_even, flatMats_even hpos, hcons, List.map_cons] at h1
  refine packed_congr ?_ h1
  intro i hi
  rw [o4 _ i hi]
  rw [show cooPair (C (evenLen p) (evenLen q)) = (evenLen p * evenLen q, (C (evenLen p) (evenLen q)).den) by
        unfold cooPair; rw [c2]]
  conv_lhs => unfold chainOp
  refine chainOp_congr (n := evenLen p * evenLen q) _ _ _ ?_ ?_ i hi
  · intro e he
    obtain ⟨B, hB, rfl⟩ := List.mem_map.mp he
    exact (hsq B (List.mem_cons_of_mem _ hB)).2.2
  · intro j hj
    rw [if_pos hj]

theorem ifwtOp_ok (hC : Family2 C A md F N)
    (hA : ∀ p q, p % 2 = 0 → q % 2 = 0 → F ≤ p → F ≤ q → p ≤ N → q ≤ N → OrthonormalCols (p * q) (A p q))
    {L p q k : Nat} (hN : ∀ j ∈ [p, q], evenLen j ≤ N)
    (hk : mLevelsN F L [p, q] = k + 1) (hp : PadFreeN [evenLen p, evenLen q] (k + 1))
    (hb : k ≠ 0 → evenLen p * evenLen q ≤ 2 ^ mantissaBits md.dtype) :
    ∃ (S : Coo R) (rest : List (Coo R)) (O : Coo R), (flatMats (fun p q => (C p q).transpose) F L [p, q]).reverse = S :: rest ∧ rest.length = k ∧
      ifwtOperatorLoop S rest = .ok O ∧ O.md = md ∧
      O.rows = evenLen p * evenLen q ∧ O.cols = evenLen p * evenLen q ∧
      ∀ (X : List Nat → R) (u : Nat → R), Packed2 m A [p, q] X (k + 1) u →
        ∀ i, i < evenLen p * evenLen q → (∑ j ∈ Finset.range (evenLen p * evenLen q), O.den i j * u j) = flatEven m p q X i := by
  have hpos : 0 < mLevelsN F L [p, q] := by omega
  have hCt : Family2 (fun p q => (C p q).transpose) (fun p q i j => A p q j i) md F N := by
    constructor
    intro a b a1 b1 a2 b2 a3 b3
    obtain ⟨g1, g2, g3, g4⟩ := hC.at' a b a1 b1 a2 b2 a3 b3
    exact ⟨g1, g3, g2, fun i j hi hj => by rw [Coo.transpose_den]; exact g4 j i hj hi⟩
  have hN' : ∀ j ∈ [evenLen p, evenLen q], evenLen j ≤ N := by
    intro j hj
    have : j = evenLen p ∨ j = evenLen q := by simpa using hj
    rcases this with rfl | rfl
    · rw [evenLen_of_even (evenLen_even p)]; exact hN p (by simp)
    · rw [evenLen_of_even (evenLen_even q)]; exact hN q (by simp)
  have hun : ∀ (X : List Nat → R) (u : Nat → R), Packed2 m A [p, q] X (k + 1) u →
        ∀ i, i < evenLen p * evenLen q →
        unOp ((flatMats (fun p q => (C p q).transpose) F L [p, q]).map cooPair) u i = flatEven m p q X i := by
    intro X u hu i hi
    have := unchain_packed (m := m) hC hA (L := L) hN' (by rw [mLevelsN_even' hpos, hk]; exact hp)
      (X := evenImage m [p, q] X) (u := u) (by rw [mLevelsN_even' hpos, hk, packed_even]; exact hu) i hi
    rw [flatMats_even hpos] at this
    rw [this]
    rfl
  cases L with
  | zero => simp [mLevelsN] at hk
  | succ L =>
  have hs : ¬ ∃ n ∈ [p, q], n < F := by
    intro h; unfold mLevelsN at hk; rw [if_pos h] at hk; omega
  have hcons := flatMats_cons (C := fun p q => (C p q).transpose) (L := L) hs
  have hs' := hs
  push Not at hs'
  obtain ⟨c1, c2, c3, c4⟩ := hCt.at (hs' p (by simp)) (hs' q (by simp)) (hN p (by simp)) (hN q (by simp))
  have hlen : (flatMats (fun p q => (C p q).transpose) F (L + 1) [p, q]).length = k + 1 := by
    rw [flatMats_length (by rfl), hk]
  have hsq := flatMats_square hCt (L := L + 1) hN
  have hpw := flatMats_pairwise hCt (L := L + 1) hN
  rw [hcons] at hsq hpw hun hlen ⊢
  by_cases h0 : k = 0
  · have hr : flatMats (fun p q => (C p q).transpose) F L (halfLens [p, q]) = [] := by
      rw [← List.length_eq_zero_iff]
      simpa [h0] using hlen
    rw [hr] at hun ⊢
    refine ⟨_, [], _, rfl, h0.symm, rfl, c1, c2, c3, ?_⟩
    intro X u hu i hi
    rw [← hun X u hu i hi]
    rw [List.map_cons, show cooPair (C (evenLen p) (evenLen q)).transpose =
      (evenLen p * evenLen q, (C (evenLen p) (evenLen q)).transpose.den) by unfold cooPair; rw [c2]]
    unfold unOp
    rw [if_pos hi]
    rfl
  · obtain ⟨S, rest, O, e1, e2, o1, o2, o3, o4⟩ := ifwtOperator_chain (hb h0) _ _ c2 hpw hsq
    refine ⟨S, rest, O, e1, ?_, e2, o1, o2, o3, ?_⟩
    · have := congrArg List.length e1
      rw [List.length_reverse, hlen, List.length_cons] at this
      omega
    · intro X u hu i hi
      rw [o4 u i hi]
      exact hun X u hu i hi

end

end Verif
