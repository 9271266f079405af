/-
The orthogonalisation of filter matrices.
-/
import Verif.Lemmas.OrthBank
import Verif.Lemmas.SparseHelpers
import Verif.Model.Orth

namespace Verif
open Spec
variable {R : Type}

namespace Coo

@[simp] theorem selectRow_rows (A : Coo R) (k : Nat) : (A.selectRow k).rows = 1 := rfl
@[simp] theorem selectRow_cols (A : Coo R) (k : Nat) : (A.selectRow k).cols = A.cols := rfl
@[simp] theorem selectRow_md (A : Coo R) (k : Nat) : (A.selectRow k).md = A.md := rfl
@[simp] theorem mapVals_rows (A : Coo R) (g : R → R) : (A.mapVals g).rows = A.rows := rfl
@[simp] theorem mapVals_cols (A : Coo R) (g : R → R) : (A.mapVals g).cols = A.cols := rfl
@[simp] theorem mapVals_md (A : Coo R) (g : R → R) : (A.mapVals g).md = A.md := rfl
@[simp] theorem zerosLike_rows (A : Coo R) : A.zerosLike.rows = A.rows := rfl
@[simp] theorem zerosLike_cols (A : Coo R) : A.zerosLike.cols = A.cols := rfl
@[simp] theorem zerosLike_md (A : Coo R) : A.zerosLike.md = A.md := rfl

theorem selectRow_den [AddCommMonoid R] (A : Coo R) (k j : Nat) : (A.selectRow k).den 0 j = A.den k j := by
  unfold den selectRow
  simp only [List.map_map, Function.comp_def, true_and]
  induction A.ents with
  | nil => rfl
  | cons e l ih =>
    by_cases h : e.1 = k
    · rw [List.filter_cons_of_pos (by simpa using h), List.map_cons, List.sum_cons, List.map_cons,
        List.sum_cons, ih]
      simp only [h, true_and]
    · rw [List.filter_cons_of_neg (by simpa using h), List.map_cons, List.sum_cons, ih]
      simp only [h, false_and, if_false, zero_add]

theorem selectRow_stored (A : Coo R) (k j : Nat) : (A.selectRow k).Stored 0 j ↔ A.Stored k j := by
  unfold Stored selectRow
  constructor
  · rintro ⟨e, he, _, rfl⟩
    obtain ⟨e', he', rfl⟩ := List.mem_map.mp he
    exact ⟨e', List.mem_of_mem_filter he', by simpa using (List.mem_filter.mp he').2, rfl⟩
  · rintro ⟨e, he, rfl, rfl⟩
    exact ⟨_, List.mem_map.mpr ⟨e, List.mem_filter.mpr ⟨he, by simp⟩, rfl⟩, rfl, rfl⟩

theorem mapVals_den [AddCommMonoid R] (A : Coo R) (g : R → R) (h0 : g 0 = 0)
    (ha : ∀ a b, g (a + b) = g a + g b) (i j : Nat) : (A.mapVals g).den i j = g (A.den i j) := by
  unfold den mapVals
  simp only [List.map_map, Function.comp_def]
  induction A.ents with
  | nil => exact h0.symm
  | cons e l ih =>
    rw [List.map_cons, List.sum_cons, List.map_cons, List.sum_cons, ih, ha]
    congr 1
    split_ifs
    · rfl
    · exact h0.symm

theorem mapVals_stored (A : Coo R) (g : R → R) (i j : Nat) : (A.mapVals g).Stored i j ↔ A.Stored i j := by
  unfold Stored mapVals
  constructor
  · rintro ⟨e, he, rfl, rfl⟩
    obtain ⟨e', he', rfl⟩ := List.mem_map.mp he
    exact ⟨e', he', rfl, rfl⟩
  · rintro ⟨e, he, rfl, rfl⟩
    exact ⟨_, List.mem_map.mpr ⟨e, he, rfl⟩, rfl, rfl⟩

@[simp] theorem zerosLike_den [AddCommMonoid R] (A : Coo R) (i j : Nat) : A.zerosLike.den i j = 0 := rfl

theorem sub_ok [AddCommGroup R] {A B : Coo R} (hr : A.rows = B.rows) (hc : A.cols = B.cols)
    (hm : A.md = B.md) :
    ∃ C, A.sub B = .ok C ∧ C.md = A.md ∧ C.rows = A.rows ∧ C.cols = A.cols ∧
      ∀ i j, C.den i j = A.den i j - B.den i j := by
  unfold sub
  obtain ⟨C, e, c1, c2, c3, c4, _⟩ := add_ok (A := A) (B := B.mapVals fun v => -v) hr hc (by rw [hm]; rfl)
  refine ⟨C, e, ?_, c2, c3, ?_⟩
  · rw [c1, mapVals_md, hm, promote_self]
  · intro i j
    rw [c4, mapVals_den _ _ neg_zero (fun a b => neg_add a b), sub_eq_add_neg]

theorem coalesce_ents [AddCommMonoid R] (A : Coo R) :
    A.coalesce.ents = ((grid A.rows A.cols).filter fun q => A.Stored q.1 q.2).map
      fun q => (q.1, q.2, A.den q.1 q.2) := rfl

theorem itemOrZero_ok [AddCommMonoid R] {A : Coo R} (hr : A.rows = 1) (hc : A.cols = 1) :
    itemOrZero A = .ok (A.den 0 0) := by
  have hg : grid A.rows A.cols = [(0, 0)] := by rw [hr, hc]; rfl
  unfold itemOrZero
  rw [coalesce_ents, hg]
  by_cases h : A.Stored 0 0
  · rw [List.filter_cons_of_pos (by simpa using h)]
    rfl
  · rw [List.filter_cons_of_neg (by simpa using h)]
    simp only [List.filter_nil, List.map_nil]
    rw [den_of_not_stored h]

/-- A sum over the stored entries of a one-row matrix is a sum over its columns. -/
theorem sum_ents [AddCommMonoid R] (A : Coo R) (hr : A.rows = 1) (g : R → R) (h0 : g 0 = 0) :
    (A.coalesce.ents.map fun e => g e.2.2).sum = ∑ j ∈ Finset.range A.cols, g (A.den 0 j) := by
  rw [coalesce_ents, hr, List.map_map]
  have hg : grid 1 A.cols = (List.range A.cols).map fun j => (0, j) := by
    simp [grid]
  rw [hg]
  have : ∀ l : List Nat, (List.map ((fun e : Nat × Nat × R => g e.2.2) ∘ fun q : Nat × Nat => (q.1, q.2, A.den q.1 q.2))
      (List.filter (fun q : Nat × Nat => decide (A.Stored q.1 q.2)) (List.map (fun j => ((0 : Nat), j)) l))).sum =
      (l.map fun j => g (A.den 0 j)).sum := by
    intro l
    induction l with
    | nil => rfl
    | cons a l ih =>
      rw [List.map_cons, List.map_cons, List.sum_cons]
      by_cases h : A.Stored 0 a
      · rw [List.filter_cons_of_pos (by simpa using h), List.map_cons, List.sum_cons, ih]
        rfl
      · rw [List.filter_cons_of_neg (by simpa using h), ih, den_of_not_stored h, h0, zero_add]
  rw [this]
  generalize A.cols = c
  induction c with
  | zero => rfl
  | succ c ih => rw [List.range_succ, List.map_append, List.sum_append, ih, Finset.sum_range_succ]; simp

end Coo

theorem sparseNorm_eq [Semiring R] (la : LinAlg R) {A : Coo R} (hr : A.rows = 1) :
    sparseNorm la A = la.sqrt (dot A.cols (A.den 0) (A.den 0)) := by
  unfold sparseNorm dot
  rw [Coo.sum_ents A hr (fun v => v * v) (mul_zero 0)]

theorem gsInner_ok [Semiring R] {A cur : Coo R} (hr : cur.rows = 1) (hc : cur.cols = A.cols)
    (hm : cur.md = A.md) : ∀ (done : List Nat) (s : Coo R), s.rows = 1 → s.cols = A.cols → s.md = A.md →
    ∃ t, gsInner A cur done s = .ok t ∧ t.rows = 1 ∧ t.cols = A.cols ∧ t.md = A.md ∧
      ∀ j, t.den 0 j = s.den 0 j +
        (done.map fun d => dot A.cols (cur.den 0) (A.den d) * A.den d j).sum
  | [], s, h1, h2, h3 => ⟨s, rfl, h1, h2, h3, by intro j; simp⟩
  | d :: ds, s, h1, h2, h3 => by
    obtain ⟨p, e1, p1, p2, p3, p4, _⟩ := Coo.mm_ok (A := cur) (B := (A.selectRow d).transpose)
      (by rw [hc]; rfl) (by rw [hm]; rfl)
    have e2 := Coo.itemOrZero_ok (A := p) (by rw [p2, hr]) (by rw [p3]; rfl)
    have hp : p.den 0 0 = dot A.cols (cur.den 0) (A.den d) := by
      rw [p4, hc]
      unfold dot
      refine Finset.sum_congr rfl fun j _ => ?_
      rw [Coo.transpose_den, Coo.selectRow_den]
    obtain ⟨s', e3, s1, s2, s3, s4, _⟩ := Coo.addInplace_ok (A := s)
      (B := (A.selectRow d).mapVals fun v => p.den 0 0 * v) (by rw [h1]; rfl) (by rw [h2]; rfl)
      (by rw [h3]; rfl)
    obtain ⟨t, e4, t1, t2, t3, t4⟩ := gsInner_ok hr hc hm ds s' (by rw [s2, h1]) (by rw [s3, h2]) (by rw [s1, h3])
    refine ⟨t, ?_, t1, t2, t3, ?_⟩
    · unfold gsInner
      simp only [bind, Except.bind, e1, e2, e3, e4]
    · intro j
      rw [t4, s4, Coo.mapVals_den _ _ (mul_zero _) (fun a b => mul_add _ a b), Coo.selectRow_den, hp,
        List.map_cons, List.sum_cons, add_assoc]

/-- The Gram-Schmidt loop orthonormalises the listed rows. -/
theorem gsLoop_ok (la : LinAlg ℝ) (hla : la.sqrt = Real.sqrt) {n : Nat} {A : Nat → Nat → ℝ}
    {T : Set ℕ} (hind : LinearIndepOn ℝ (fun r : ℕ => vec n (A r)) T) :
    ∀ (ks done : List Nat) (B : Coo ℝ), B.rows = n → B.cols = n → (done ++ ks).Nodup →
      (∀ d ∈ done ++ ks, d ∈ T) → (∀ k ∈ ks, k < n) → (∀ k ∈ ks, vec n (B.den k) = vec n (A k)) →
      (∀ r ∈ done, ∀ s ∈ done, dot n (B.den r) (B.den s) = if r = s then 1 else 0) →
      (∀ r ∈ done, vec n (B.den r) ∈ Submodule.span ℝ ((fun r => vec n (A r)) '' {r | r ∈ done})) →
      ∃ C, gsLoop la B done ks = .ok C ∧ C.rows = n ∧ C.cols = n ∧ C.md = B.md ∧
        (∀ r ∉ ks, ∀ j, C.den r j = B.den r j) ∧
        (∀ r ∈ done ++ ks, ∀ s ∈ done ++ ks, dot n (C.den r) (C.den s) = if r = s then 1 else 0) ∧
        (∀ r ∈ done ++ ks,
          vec n (C.den r) ∈ Submodule.span ℝ ((fun r => vec n (A r)) '' {r | r ∈ done ++ ks}))
  | [], done, B, h1, h2, _, _, _, _, h7, h8 =>
    ⟨B, rfl, h1, h2, rfl, fun _ _ _ => rfl, by simpa using h7, by simpa using h8⟩
  | k :: ks, done, B, h1, h2, h3, h4, h5, h6, h7, h8 => by
    have hnd := List.nodup_append.mp h3
    have hkd : k ∉ done := fun h => hnd.2.2 k h k (by simp) rfl
    obtain ⟨s, e1, s1, s2, s3, s4⟩ := gsInner_ok (A := B) (cur := B.selectRow k) rfl rfl rfl done
      (B.selectRow k).zerosLike rfl rfl rfl
    obtain ⟨o, e2, o1, o2, o3, o4⟩ := Coo.sub_ok (A := B.selectRow k) (B := s) s1.symm s2.symm s3.symm
    have en := sparseNorm_eq la (A := o) o2
    rw [hla, show o.cols = n from o3.trans h2] at en
    obtain ⟨C, e3, c1, c2, c3, c4, _⟩ := sparseReplaceRow_ok (A := B) (k := k)
      (row := o.mapVals fun v => v / sparseNorm la o) (h1.trans h2.symm) o2 o3 (by rw [h1]; exact h5 k (by simp))
    have hrow : ∀ j, C.den k j = o.den 0 j / Real.sqrt (dot n (o.den 0) (o.den 0)) := by
      intro j
      rw [c4, if_pos rfl, Coo.mapVals_den _ _ (zero_div _) (fun a b => add_div a b _), en]
    have hother : ∀ r, r ≠ k → ∀ j, C.den r j = B.den r j := by
      intro r hr j; rw [c4, if_neg hr]
    have ho : vec n (o.den 0) = vec n (B.den k) -
        ∑ d ∈ done.toFinset, dot n (B.den k) (B.den d) • vec n (B.den d) := by
      funext j
      show o.den 0 j = B.den k j - _
      rw [o4, s4, Coo.selectRow_den, Coo.zerosLike_den, zero_add, List.sum_toFinset _ hnd.1, h2]
      congr 1
      have hcur : (B.selectRow k).den 0 = B.den k := by funext j; exact Coo.selectRow_den B k j
      rw [hcur]
      generalize done = l
      induction l with
      | nil => rfl
      | cons a l ih =>
        rw [List.map_cons, List.sum_cons, List.map_cons, List.sum_cons, Pi.add_apply, ih]
        rfl
    obtain ⟨g1, g2, g3⟩ := gs_step hind (B := B.den) (done := done) (k := k)
      (fun d hd => h4 d (by simp [hd])) (h4 k (by simp)) hkd hnd.1 (h6 k (by simp)) h7 h8 ho
    have hCk : C.den k = fun j => o.den 0 j / Real.sqrt (dot n (o.den 0) (o.den 0)) := funext hrow
    have hCd : ∀ d ∈ done, C.den d = B.den d := by
      intro d hd
      exact funext (hother d (fun h => hkd (h ▸ hd)))
    obtain ⟨D, e4, d1, d2, d3, d4, d5, d6⟩ := gsLoop_ok la hla hind ks (done ++ [k]) C (by rw [c2, h1])
      (by rw [c3, h2]) (by simpa using h3) (by simpa using h4) (fun x hx => h5 x (by simp [hx]))
      (fun x hx => by
        have : x ≠ k := by rintro rfl; exact (List.nodup_cons.mp hnd.2.1).1 hx
        rw [show C.den x = B.den x from funext (hother x this)]
        exact h6 x (by simp [hx]))
      (by
        intro r hr s hs
        rcases List.mem_append.mp hr with hr' | hr' <;> rcases List.mem_append.mp hs with hs' | hs'
        · rw [hCd r hr', hCd s hs']; exact h7 r hr' s hs'
        · obtain rfl := List.mem_singleton.mp hs'
          rw [hCd r hr', hCk, dot_comm, g2 r hr', if_neg]; rintro rfl; exact hkd hr'
        · obtain rfl := List.mem_singleton.mp hr'
          rw [hCd s hs', hCk, g2 s hs', if_neg]; rintro rfl; exact hkd hs'
        · obtain rfl := List.mem_singleton.mp hr'
          obtain rfl := List.mem_singleton.mp hs'
          rw [hCk, g1, if_pos rfl])
      (by
        intro r hr
        rcases List.mem_append.mp hr with hr | hr
        · rw [hCd r hr]
          refine Submodule.span_mono (Set.image_mono ?_) (h8 r hr)
          intro x hx
          exact List.mem_append_left _ hx
        · obtain rfl := List.mem_singleton.mp hr
          rw [hCk]; exact g3)
    refine ⟨D, ?_, d1, d2, by rw [d3, c1], ?_, by simpa using d5, by simpa using d6⟩
    · unfold gsLoop
      simp only [bind, Except.bind, e1, e2, e3, e4]
    · intro r hr j
      rw [d4 r (fun h => hr (by simp [h])) j, hother r (fun h => hr (by simp [h])) j]

end Verif
