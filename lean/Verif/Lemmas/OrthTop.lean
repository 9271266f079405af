/-
The boundary matrices are orthogonal.
-/
import Verif.Lemmas.OrthQr

namespace Verif
open Spec
variable {R : Type}

/-! ### The rows to orthogonalise -/

theorem uc_cons (a : Nat) (l : List Nat) : uniqueConsecutive (a :: l) =
    match uniqueConsecutive l with
    | [] => [(a, 1)]
    | (b, c) :: r => if a = b then (b, c + 1) :: r else (a, 1) :: (b, c) :: r := rfl

theorem uc_replicate (a : Nat) (rest : List Nat) (h : ∀ u r, uniqueConsecutive rest = u :: r → u.1 ≠ a) :
    ∀ k, uniqueConsecutive (List.replicate (k + 1) a ++ rest) = (a, k + 1) :: uniqueConsecutive rest
  | 0 => by
    show uniqueConsecutive (a :: rest) = _
    rw [uc_cons]
    cases hr : uniqueConsecutive rest with
    | nil => rfl
    | cons u r =>
      obtain ⟨b, c⟩ := u
      have := h _ _ hr
      simp only
      rw [if_neg (fun h => this h.symm)]
  | k + 1 => by
    show uniqueConsecutive (a :: (List.replicate (k + 1) a ++ rest)) = _
    rw [uc_cons, uc_replicate a rest h k]
    simp

theorem uc_flatMap (c : Nat → Nat) : ∀ {l : List Nat}, l.Nodup →
    uniqueConsecutive (l.flatMap fun i => List.replicate (c i) i) =
      (l.filter fun i => c i ≠ 0).map fun i => (i, c i)
  | [], _ => rfl
  | a :: l, h => by
    have h' := List.nodup_cons.mp h
    have ih := uc_flatMap c h'.2
    rw [List.flatMap_cons]
    by_cases hc : c a = 0
    · rw [hc, List.filter_cons_of_neg (by simpa using hc)]
      exact ih
    · obtain ⟨k, hk⟩ : ∃ k, c a = k + 1 := ⟨c a - 1, by omega⟩
      rw [List.filter_cons_of_pos (by simpa using hc), hk, uc_replicate, ih, List.map_cons, hk]
      intro u r hu
      rw [ih] at hu
      have : u ∈ (l.filter fun i => c i ≠ 0).map fun i => (i, c i) := by rw [hu]; simp
      obtain ⟨i, hi, rfl⟩ := List.mem_map.mp this
      rintro rfl
      exact h'.1 (List.mem_of_mem_filter hi)

/-- The number of stored entries of a row. -/
def rowCount (A : Coo R) (i : Nat) : Nat := ((List.range A.cols).filter fun j => A.Stored i j).length

theorem getToOrthogonalize_eq [AddCommMonoid R] (A : Coo R) (F : Nat) :
    getToOrthogonalize A F = (List.range A.rows).filter fun i => rowCount A i ≠ 0 ∧ rowCount A i ≠ F := by
  have e : (A.coalesce.ents.map fun e => e.1) =
      (List.range A.rows).flatMap fun i => List.replicate (rowCount A i) i := by
    rw [Coo.coalesce_ents, List.map_map]
    unfold Coo.grid
    rw [List.filter_flatMap, List.map_flatMap]
    congr 1
    funext i
    rw [List.filter_map, List.map_map]
    unfold rowCount
    rw [List.eq_replicate_iff]
    constructor
    · rw [List.length_map]; rfl
    · intro b hb
      obtain ⟨j, _, rfl⟩ := List.mem_map.mp hb
      rfl
  unfold getToOrthogonalize
  rw [e, uc_flatMap _ List.nodup_range, List.filter_map, List.map_map]
  rw [show ((fun u : Nat × Nat => u.1) ∘ fun i => (i, rowCount A i)) = id from rfl, List.map_id, List.filter_filter]
  congr 1
  funext i
  simp [Bool.and_comm]

/-- The number of integers of an interval below `n`. -/
theorem count_interval (n a F : Nat) :
    ((List.range n).filter fun j => decide (j ≤ a ∧ a < j + F)).length = min (a + 1) n - (a + 1 - F) := by
  induction n with
  | zero => simp
  | succ n ih =>
    rw [List.range_succ, List.filter_append, List.length_append, ih]
    by_cases h : n ≤ a ∧ a < n + F
    · rw [List.filter_cons_of_pos (by simpa using h)]
      simp only [List.filter_nil, List.length_singleton]
      omega
    · rw [List.filter_cons_of_neg (by simpa using h)]
      simp only [List.filter_nil, List.length_nil]
      omega

/-! ### The raw filter matrix -/

theorem cast_half {F i j : Nat} (hF : F % 2 = 0) (h2 : 2 ≤ F) :
    (((F - 1) / 2 : ℕ) : ℤ) + ((1 + 2 * i : ℕ) : ℤ) - j = (F / 2 : ℕ) + 2 * (i : ℤ) - j := by omega

/-- The two-channel matrix of two filters of even length. -/
theorem twoChannel_ok [NonAssocSemiring R] {w : Wavelet R} {F n : Nat} {f g : List R} (md : Meta)
    (hf : f.length = F) (hg : g.length = F) (hF : F % 2 = 0) (h2 : 2 ≤ F) (hn : n % 2 = 0) (hn2 : 2 ≤ n)
    (hw : w.decLo = f ∧ w.decHi = g) :
    ∃ L H C, constructStridedConvMatrix md f n 2 "sameshift" = .ok L ∧
      constructStridedConvMatrix md g n 2 "sameshift" = .ok H ∧ L.cat0 H = .ok C ∧ C.md = md ∧ C.rows = n ∧
      C.cols = n ∧ (∀ r j, r < n → j < n → C.den r j = filterRow w F n r j) ∧
      ∀ r j, r < n → (C.Stored r j ↔ j < n ∧ j ≤ F / 2 + 2 * rowShift n r ∧ F / 2 + 2 * rowShift n r < j + F) := by
  have hnm : ConvMode.Named "sameshift" .same := Or.inr (Or.inl ⟨Or.inr rfl, rfl⟩)
  obtain ⟨L, e1, l1, l2, l3, l4, l5⟩ := constructStrided_ok md f n 2 hnm (by omega) (by omega) (by omega) (by simp)
  obtain ⟨H, e2, g1, g2, g3, g4, g5⟩ := constructStrided_ok md g n 2 hnm (by omega) (by omega) (by omega) (by simp)
  have hs : strideStart "sameshift" = 1 := rfl
  have hcount : strideCount (strideStart "sameshift") n 2 = n / 2 := by
    rw [hs]; unfold strideCount; omega
  simp only [ConvMode.count, hcount] at l2 g2
  rw [hs] at l4 l5 g4 g5
  obtain ⟨C, e3, c1, c2, c3, c4, c5⟩ := Coo.cat0_ok (A := L) (B := H) (l3.trans g3.symm) (l1.trans g1.symm)
  refine ⟨L, H, C, e1, e2, e3, c1.trans l1, by rw [c2, l2, g2]; omega, by rw [c3, l3], ?_, ?_⟩
  · intro r j hr hj
    rw [c4, l2]
    unfold filterRow
    by_cases h : r < n / 2
    · rw [if_pos h, if_pos h, l4 r j (by rw [l2]; exact h) hj, hw.1]
      simp only [ConvMode.first, hf]
      rw [cast_half hF h2]
    · rw [if_neg h, if_neg h, g4 _ j (by rw [g2]; omega) hj, hw.2]
      simp only [ConvMode.first, hg]
      rw [cast_half hF h2]
      congr 1
      omega
  · intro r j hr
    rw [c5, l2]
    unfold rowShift
    by_cases h : r < n / 2
    · rw [if_pos h, if_pos h, l5, l2]
      simp only [ConvMode.first, hf]
      constructor
      · rintro ⟨_, a, b, c⟩; exact ⟨a, by omega, by omega⟩
      · rintro ⟨a, b, c⟩; exact ⟨h, a, by omega, by omega⟩
    · rw [if_neg h, if_neg h, g5, g2]
      simp only [ConvMode.first, hg]
      constructor
      · rintro ⟨_, a, b, c⟩; exact ⟨a, by omega, by omega⟩
      · rintro ⟨a, b, c⟩; exact ⟨by omega, a, by omega, by omega⟩

theorem constructA_ok [NonAssocSemiring R] {w : Wavelet R} {F n : Nat} (md : Meta)
    (hw : HasLen w F) (hF : F % 2 = 0) (h2 : 2 ≤ F) (hn : n % 2 = 0) (hn2 : 2 ≤ n) :
    ∃ C, constructA w md n "sameshift" = .ok C ∧ C.md = md ∧ C.rows = n ∧
      C.cols = n ∧ (∀ r j, r < n → j < n → C.den r j = filterRow w F n r j) ∧
      ∀ r j, r < n → (C.Stored r j ↔ j < n ∧ j ≤ F / 2 + 2 * rowShift n r ∧ F / 2 + 2 * rowShift n r < j + F) := by
  obtain ⟨L, H, C, e1, e2, e3, h⟩ := twoChannel_ok (w := w) md hw.1 hw.2.1 hF h2 hn hn2 ⟨rfl, rfl⟩
  refine ⟨C, ?_, h⟩
  unfold constructA
  simp only [bind, Except.bind, e1, e2, e3]

theorem toOrth_mem [AddCommMonoid R] {A : Coo R} {F n : Nat} (hF : F % 2 = 0) (h2 : 2 ≤ F) (hn : n % 2 = 0)
    (hr : A.rows = n) (hc : A.cols = n)
    (hst : ∀ r j, r < n → (A.Stored r j ↔ j < n ∧ j ≤ F / 2 + 2 * rowShift n r ∧ F / 2 + 2 * rowShift n r < j + F))
    (r : Nat) : r ∈ getToOrthogonalize A F ↔ r < n ∧ Truncated F n r := by
  rw [getToOrthogonalize_eq, List.mem_filter, hr, List.mem_range]
  constructor
  · rintro ⟨h1, h⟩
    refine ⟨h1, ?_⟩
    simp only [decide_eq_true_eq] at h
    have hcnt : rowCount A r = min (F / 2 + 2 * rowShift n r + 1) n - (F / 2 + 2 * rowShift n r + 1 - F) := by
      rw [← count_interval n (F / 2 + 2 * rowShift n r) F]
      unfold rowCount
      rw [hc]
      congr 1
      apply List.filter_congr
      intro j hj
      simp only [decide_eq_decide]
      rw [hst r j h1]
      exact ⟨fun h => h.2, fun h => ⟨List.mem_range.mp hj, h⟩⟩
    unfold Truncated
    have hsh : 2 * rowShift n r < n := by unfold rowShift; split_ifs <;> omega
    omega
  · rintro ⟨h1, h⟩
    refine ⟨h1, ?_⟩
    simp only [decide_eq_true_eq]
    have hcnt : rowCount A r = min (F / 2 + 2 * rowShift n r + 1) n - (F / 2 + 2 * rowShift n r + 1 - F) := by
      rw [← count_interval n (F / 2 + 2 * rowShift n r) F]
      unfold rowCount
      rw [hc]
      congr 1
      apply List.filter_congr
      intro j hj
      simp only [decide_eq_decide]
      rw [hst r j h1]
      exact ⟨fun h => h.2, fun h => ⟨List.mem_range.mp hj, h⟩⟩
    unfold Truncated at h
    have hsh : 2 * rowShift n r < n := by unfold rowShift; split_ifs <;> omega
    omega

theorem toOrth_nodup [AddCommMonoid R] (A : Coo R) (F : Nat) : (getToOrthogonalize A F).Nodup := by
  rw [getToOrthogonalize_eq]
  exact List.nodup_range.filter _

/-- The exact numerical routines. -/
structure ExactLinAlg (la : LinAlg ℝ) : Prop where
  sqrt : la.sqrt = Real.sqrt
  qr : IsReducedQr la.qr

/-- Orthogonalising a square matrix whose rows outside `Tr` are orthonormal and orthogonal to all other
rows, and whose rows in `Tr` are independent. -/
theorem orthogonalize_core {la : LinAlg ℝ} (hla : ExactLinAlg la) {n L : Nat} {M : Nat → Nat → ℝ}
    {Tr : Nat → Prop} {method : String} (hm : method = "qr" ∨ method = "gramschmidt") {A : Coo ℝ}
    (hr : A.rows = n) (hc : A.cols = n)
    (hden : ∀ r j, r < n → j < n → A.den r j = M r j)
    (hmem : ∀ r, r ∈ getToOrthogonalize A L ↔ r < n ∧ Tr r)
    (hfullM : ∀ r s, r < n → s < n → ¬ Tr r → dot n (M r) (M s) = if r = s then 1 else 0)
    (hb : LinearIndepOn ℝ (fun r : ℕ => fun j : Fin n => M r j) {r | r < n ∧ Tr r})
    (hlastT : ∀ r, r < n → Tr r → Tr (n - 1)) :
    ∃ C, orthogonalize la A L method = .ok C ∧ C.md = A.md ∧ C.rows = n ∧ C.cols = n ∧
      OrthonormalRows n C.den ∧
      (∀ r j, r < n → j < n → ¬ Tr r → C.den r j = M r j) ∧
      ∀ r, r < n → Tr r → vec n (C.den r) ∈
        Submodule.span ℝ ((fun s => vec n (M s)) '' {s | s < n ∧ Tr s}) := by
  have hvec : ∀ r, r < n → vec n (A.den r) = vec n (M r) := by
    intro r h; funext j; exact hden r j h j.2
  have hset : {r | r ∈ getToOrthogonalize A L} = {r | r < n ∧ Tr r} := by
    ext r; exact hmem r
  have hind : LinearIndepOn ℝ (fun r : ℕ => vec n (A.den r)) {r | r ∈ getToOrthogonalize A L} := by
    rw [hset]
    exact (linearIndepOn_congr (fun r hr => (hvec r hr.1))).mpr hb
  have himg : (fun r => vec n (A.den r)) '' {r | r ∈ getToOrthogonalize A L} =
      (fun s => vec n (M s)) '' {s | s < n ∧ Tr s} := by
    rw [hset]
    exact Set.image_congr fun r hr => hvec r hr.1
  have hfull : ∀ r s, r < n → s < n → r ∉ {r | r ∈ getToOrthogonalize A L} →
      dot n (A.den r) (A.den s) = if r = s then 1 else 0 := by
    intro r s hr' hs' h
    rw [dot_vec, hvec r hr', hvec s hs', ← dot_vec]
    refine hfullM r s hr' hs' ?_
    intro ht; exact h ((hmem r).mpr ⟨hr', ht⟩)
  -- the common conclusion
  have fin : ∀ C : Coo ℝ, C.md = A.md → C.rows = n → C.cols = n →
      (∀ r ∉ getToOrthogonalize A L, r < n → ∀ j, C.den r j = A.den r j) →
      (∀ r ∈ getToOrthogonalize A L, ∀ s ∈ getToOrthogonalize A L,
        dot n (C.den r) (C.den s) = if r = s then 1 else 0) →
      (∀ r ∈ getToOrthogonalize A L, vec n (C.den r) ∈
        Submodule.span ℝ ((fun r => vec n (A.den r)) '' {r | r ∈ getToOrthogonalize A L})) →
      C.md = A.md ∧ C.rows = n ∧ C.cols = n ∧
      OrthonormalRows n C.den ∧
      (∀ r j, r < n → j < n → ¬ Tr r → C.den r j = M r j) ∧
      ∀ r, r < n → Tr r → vec n (C.den r) ∈
        Submodule.span ℝ ((fun s => vec n (M s)) '' {s | s < n ∧ Tr s}) := by
    intro C c1 c2 c3 c4 c5 c6
    refine ⟨c1, c2, c3, ?_, ?_, ?_⟩
    · refine orthonormal_of_span hfull (fun r h => ((hmem r).mp h).1) ?_ c5 c6
      intro r hr' h
      funext j
      exact c4 r h hr' j
    · intro r j hr' hj h
      rw [c4 r (fun h' => h ((hmem r).mp h').2) hr' j, hden r j hr' hj]
    · intro r hr' h
      rw [← himg]
      exact c6 r ((hmem r).mpr ⟨hr', h⟩)
  by_cases he : getToOrthogonalize A L = []
  · refine ⟨A, by unfold orthogonalize; rw [if_pos he], fin A rfl hr hc (fun _ _ _ _ => rfl) ?_ ?_⟩
    · rw [he]; simp
    · rw [he]; simp
  · have hlt : ∀ r ∈ getToOrthogonalize A L, r < n := fun r h => ((hmem r).mp h).1
    rcases hm with rfl | rfl
    · have hlast : ∃ r ∈ getToOrthogonalize A L, r + 1 = n := by
        obtain ⟨r, hr'⟩ := List.exists_mem_of_ne_nil _ he
        have h' := (hmem r).mp hr'
        exact ⟨n - 1, (hmem _).mpr ⟨by omega, hlastT r h'.1 h'.2⟩, by omega⟩
      obtain ⟨C, e, c2, c3, c1, c4, c5, c6⟩ := orthByQr_ok la hla.qr hr hc (toOrth_nodup A L) hlt hlast hind
      refine ⟨C, ?_, fin C c1 c2 c3 c4 c5 c6⟩
      unfold orthogonalize
      simp only []
      rw [if_neg he, if_pos trivial, e]
    · obtain ⟨C, e, c2, c3, c1, c4, c5, c6⟩ := gsLoop_ok la hla.sqrt hind (getToOrthogonalize A L) [] A hr hc
        (by simpa using toOrth_nodup A L) (by simp) hlt (fun _ _ => rfl) (by simp) (by simp)
      refine ⟨C, ?_, fin C c1 c2 c3 (fun r h _ => c4 r h) (by simpa using c5) (by simpa using c6)⟩
      unfold orthogonalize orthByGramSchmidt
      simp only []
      rw [if_neg he, if_neg (by decide), if_pos trivial, e]

/-- If some row is truncated, so is the last one. -/
theorem truncated_last {F n r : Nat} (hF : F % 2 = 0) (hn : n % 2 = 0) (hr : r < n) (h' : Truncated F n r) :
    Truncated F n (n - 1) := by
  have h4 : 4 ≤ F := by
    unfold Truncated rowShift at h'
    split_ifs at h' <;> omega
  unfold Truncated rowShift
  rw [if_neg (by omega)]
  right
  omega

/-- Orthogonalising the filter matrix of an orthogonal bank. -/
theorem orthogonalize_ok {la : LinAlg ℝ} (hla : ExactLinAlg la) {w : Wavelet ℝ} {F n : Nat}
    (hw : OrthBank w F) (hn : n % 2 = 0) (hb : BoundaryIndep w F n) {method : String}
    (hm : method = "qr" ∨ method = "gramschmidt") {A : Coo ℝ} (hr : A.rows = n) (hc : A.cols = n)
    (hden : ∀ r j, r < n → j < n → A.den r j = filterRow w F n r j)
    (hst : ∀ r j, r < n → (A.Stored r j ↔ j < n ∧ j ≤ F / 2 + 2 * rowShift n r ∧ F / 2 + 2 * rowShift n r < j + F)) :
    ∃ C, orthogonalize la A F method = .ok C ∧ C.md = A.md ∧ C.rows = n ∧ C.cols = n ∧
      OrthonormalRows n C.den ∧
      (∀ r j, r < n → j < n → ¬ Truncated F n r → C.den r j = filterRow w F n r j) ∧
      ∀ r, r < n → Truncated F n r → vec n (C.den r) ∈
        Submodule.span ℝ ((fun s => vec n (filterRow w F n s)) '' {s | s < n ∧ Truncated F n s}) :=
  orthogonalize_core hla hm hr hc hden (toOrth_mem hw.even hw.two_le hn hr hc hst)
    (fun _ _ hr' hs' h => filterRow_full hw hn hr' hs' h) hb (fun _ h1 h2 => truncated_last hw.even hn h1 h2)

theorem boundaryA_ok {la : LinAlg ℝ} (hla : ExactLinAlg la) {w : Wavelet ℝ} {F n : Nat} (md : Meta)
    (hw : OrthBank w F) (hn : n % 2 = 0) (hn2 : 2 ≤ n) (hb : BoundaryIndep w F n) {method : String}
    (hm : method = "qr" ∨ method = "gramschmidt") :
    ∃ C, constructBoundaryA la w md n method = .ok C ∧ C.md = md ∧ C.rows = n ∧ C.cols = n ∧
      OrthonormalRows n C.den ∧
      (∀ r j, r < n → j < n → ¬ Truncated F n r → C.den r j = filterRow w F n r j) ∧
      ∀ r, r < n → Truncated F n r → vec n (C.den r) ∈
        Submodule.span ℝ ((fun s => vec n (filterRow w F n s)) '' {s | s < n ∧ Truncated F n s}) := by
  obtain ⟨A, e1, a1, a2, a3, a4, a5⟩ := constructA_ok md hw.len hw.even hw.two_le hn hn2
  obtain ⟨C, e2, c1, c⟩ := orthogonalize_ok hla hw hn hb hm a2 a3 a4 a5
  refine ⟨C, ?_, c1.trans a1, c⟩
  unfold constructBoundaryA
  simp only [bind, Except.bind, e1, hw.len.1, e2]

theorem Coo.transpose_transpose (A : Coo R) : A.transpose.transpose = A := by
  obtain ⟨md, r, c, e, h⟩ := A
  unfold Coo.transpose
  congr 1
  simp [List.map_map, Function.comp_def]

/-- For an orthogonal bank the synthesis matrix is the transposed analysis matrix. -/
theorem boundaryS_eq [Field R] [DecidableEq R] (la : LinAlg R) {w : Wavelet R} {F : Nat} (md : Meta)
    (hw : OrthBank w F) (n : Nat) (method : String) :
    constructBoundaryS la w md n method =
      (constructBoundaryA la w md n method).map Coo.transpose := by
  have e1 : w.recLo.reverse = w.decLo := by rw [hw.recLo, List.reverse_reverse]
  have e2 : w.recHi.reverse = w.decHi := by rw [hw.recHi, List.reverse_reverse]
  have e3 : w.recLo.length = w.decLo.length := by rw [hw.recLo, List.length_reverse]
  unfold constructBoundaryS constructBoundaryA constructS constructA
  rw [e1, e2, e3]
  cases h1 : constructStridedConvMatrix md w.decLo n 2 "sameshift" with
  | error e => rfl
  | ok L =>
    cases h2 : constructStridedConvMatrix md w.decHi n 2 "sameshift" with
    | error e => simp only [bind, Except.bind, Except.map]
    | ok H =>
      cases h3 : L.cat0 H with
      | error e => simp only [bind, Except.bind, h3, Except.map]
      | ok C =>
        simp only [bind, Except.bind, h3, pure, Except.pure, Coo.transpose_transpose]
        cases orthogonalize la C w.decLo.length method <;> rfl

end Verif
