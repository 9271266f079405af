/-
Orthogonalisation by a QR decomposition.
-/
import Verif.Lemmas.OrthMat
import Verif.Lemmas.BatchMm

namespace Verif
open Spec
variable {R : Type}

theorem removalP_ok [NonAssocSemiring R] (md : Meta) (n : Nat) (rows : List Nat) :
    ∃ D : Coo R, Coo.mk? md n n
      ((List.range n).map fun (i : Nat) => ((i : Int), (i : Int), if i ∈ rows then (0 : R) else 1)) = .ok D ∧
      D.md = md ∧ D.rows = n ∧ D.cols = n ∧
      (∀ i j, i < n → D.den i j = if i = j ∧ i ∉ rows then 1 else 0) ∧
      ∀ i j, D.Stored i j ↔ i = j ∧ i < n := by
  set ents : List (Nat × Nat × R) := (List.range n).map fun i => (i, i, if i ∈ rows then (0 : R) else 1) with he
  have hb : ∀ e ∈ ents, e.1 < n ∧ e.2.1 < n := by
    intro e h
    obtain ⟨i, hi, rfl⟩ := List.mem_map.mp h
    exact ⟨List.mem_range.mp hi, List.mem_range.mp hi⟩
  refine ⟨⟨md, n, n, ents, hb⟩, ?_, rfl, rfl, rfl, ?_, ?_⟩
  · rw [← Coo.mk?_ok hb, he, List.map_map]
    rfl
  · intro i j hi
    show (ents.map _).sum = _
    rw [he, List.map_map]
    have hc : ((List.range n).map ((fun e : Nat × Nat × R =>
        if e.1 = i ∧ e.2.1 = j then e.2.2 else 0) ∘ fun i => (i, i, if i ∈ rows then (0 : R) else 1)))
        = (List.range n).map fun q => if q = i then (if i = j ∧ i ∉ rows then (1 : R) else 0) else 0 := by
      apply List.map_congr_left
      intro q _
      simp only [Function.comp_def]
      by_cases hq : q = i
      · subst hq
        by_cases hj : q = j
        · subst hj
          by_cases hk : q ∈ rows <;> simp [hk]
        · simp [hj]
      · simp [hq]
    rw [hc, sum_ite_nodup _ _ List.nodup_range, if_pos (List.mem_range.mpr hi)]
  · intro i j
    constructor
    · rintro ⟨e, h, rfl, rfl⟩
      obtain ⟨i, hi, rfl⟩ := List.mem_map.mp h
      exact ⟨rfl, List.mem_range.mp hi⟩
    · rintro ⟨rfl, h⟩
      exact ⟨_, List.mem_map.mpr ⟨i, List.mem_range.mpr h, rfl⟩, rfl, rfl⟩

/-- The selection matrix with inferred size, times the matrix. -/
theorem select_infer [NonAssocSemiring R] {C : Coo R} (sel : List Nat)
    (hsel : ∀ v ∈ sel, v < C.rows) (hlast : ∃ v ∈ sel, v + 1 = C.rows) :
    ∃ T, (Coo.infer C.md (sel.mapIdx fun (k v : Nat) => (k, v, (1 : R)))).mm C = .ok T ∧ T.md = C.md ∧
      T.rows = sel.length ∧ T.cols = C.cols ∧ ∀ k v j, sel[k]? = some v → T.den k j = C.den v j := by
  obtain ⟨S, T, e1, e2, t1, t2, t3, t4, _⟩ := select_mm (R := R) (C := C) sel rfl hsel
  have hr : (Coo.infer C.md (sel.mapIdx fun (k v : Nat) => (k, v, (1 : R)))).rows = sel.length := by
    apply Coo.infer_rows
    · intro e he
      obtain ⟨k, hk, rfl⟩ := List.mem_mapIdx.mp he
      exact hk
    · right
      obtain ⟨v, hv, _⟩ := hlast
      have : 0 < sel.length := List.length_pos_of_mem hv
      exact ⟨_, List.mem_mapIdx.mpr ⟨sel.length - 1, by omega, rfl⟩, by simp only; omega⟩
  have hc : (Coo.infer C.md (sel.mapIdx fun (k v : Nat) => (k, v, (1 : R)))).cols = C.rows := by
    apply Coo.infer_cols
    · intro e he
      obtain ⟨k, hk, rfl⟩ := List.mem_mapIdx.mp he
      exact hsel _ (List.getElem_mem hk)
    · right
      obtain ⟨v, hv, h⟩ := hlast
      obtain ⟨k, hk, rfl⟩ := List.mem_iff_getElem.mp hv
      exact ⟨_, List.mem_mapIdx.mpr ⟨k, hk, rfl⟩, h⟩
  have : S = Coo.infer C.md (sel.mapIdx fun (k v : Nat) => (k, v, (1 : R))) := by
    have hb : ∀ e ∈ sel.mapIdx (fun (k v : Nat) => (k, v, (1 : R))), e.1 < sel.length ∧ e.2.1 < C.rows := by
      intro e he
      obtain ⟨k, hk, rfl⟩ := List.mem_mapIdx.mp he
      exact ⟨hk, hsel _ (List.getElem_mem hk)⟩
    have e3 := Coo.mk?_ok (md := C.md) hb
    have e4 : ((sel.mapIdx (fun (k v : Nat) => (k, v, (1 : R)))).map fun e => ((e.1 : Int), (e.2.1 : Int), e.2.2))
        = sel.mapIdx fun (k v : Nat) => ((k : Int), (v : Int), (1 : R)) := by
      apply List.ext_getElem?
      intro j
      rw [List.getElem?_map, List.getElem?_mapIdx, List.getElem?_mapIdx, Option.map_map]
      rfl
    rw [e4, e1] at e3
    injection e3 with e3
    rw [e3]
    unfold Coo.infer at hr hc ⊢
    congr 1
    · exact hr.symm
    · exact hc.symm
  rw [← this]
  exact ⟨T, e2, t1, t2, t3, t4⟩

theorem qrLoop_ok [Semiring R] {A Q : Coo R} (hQ : Q.cols = A.cols) :
    ∀ (m pos : Nat) (rs : List Nat) (acc : Coo R), rs.length = m → rs.Nodup → (∀ r ∈ rs, r < A.rows) →
      acc.rows = A.rows → acc.cols = A.cols → acc.md = A.md →
      ∃ C, qrLoop A Q m pos rs acc = .ok C ∧ C.rows = A.rows ∧ C.cols = A.cols ∧ C.md = A.md ∧
        (∀ i, i ∉ rs → ∀ j, C.den i j = acc.den i j) ∧
        ∀ t i, rs[t]? = some i → ∀ j, C.den i j = acc.den i j + Q.den (pos + t) j
  | 0, pos, rs, acc, h1, _, _, h4, h5, h6 => by
    obtain rfl := List.length_eq_zero_iff.mp h1
    exact ⟨acc, rfl, h4, h5, h6, fun _ _ _ => rfl, by simp⟩
  | m + 1, pos, [], acc, h1, _, _, _, _, _ => by simp at h1
  | m + 1, pos, r :: rs, acc, h1, h2, h3, h4, h5, h6 => by
    set ents : List (Nat × Nat × R) := (Q.selectRow pos).coalesce.ents.map fun e => (e.1 + r, e.2.1, e.2.2) with he
    have h0 : ∀ e ∈ (Q.selectRow pos).coalesce.ents, e.1 = 0 := by
      intro e h; have := (Q.selectRow pos).coalesce.bound e h
      simp only [Coo.coalesce_rows, Coo.selectRow_rows] at this; omega
    have hb : ∀ e ∈ ents, e.1 < A.rows ∧ e.2.1 < A.cols := by
      intro e h
      obtain ⟨e', h', rfl⟩ := List.mem_map.mp h
      have b := (Q.selectRow pos).coalesce.bound e' h'
      simp only [Coo.coalesce_cols, Coo.selectRow_cols, hQ] at b
      exact ⟨by simp only; rw [h0 e' h', Nat.zero_add]; exact h3 r (by simp), b.2⟩
    have e1 := Coo.mk?_ok (md := A.md) hb
    have e2 : (ents.map fun e => ((e.1 : Int), (e.2.1 : Int), e.2.2))
        = (Q.selectRow pos).coalesce.ents.map fun e => ((e.1 : Int) + r, (e.2.1 : Int), e.2.2) := by
      rw [he, List.map_map]
      apply List.map_congr_left
      intro e _
      simp [Function.comp]
    rw [e2] at e1
    set D : Coo R := ⟨A.md, A.rows, A.cols, ents, hb⟩ with hD
    have hDden : ∀ i j, D.den i j = if i = r then Q.den pos j else 0 := by
      intro i j
      rw [← Coo.selectRow_den Q, ← Coo.coalesce_den (Q.selectRow pos)]
      show (ents.map fun e => if e.1 = i ∧ e.2.1 = j then e.2.2 else 0).sum = _
      rw [he, List.map_map]
      unfold Coo.den
      by_cases hi : i = r
      · rw [if_pos hi]
        congr 1
        apply List.map_congr_left
        intro e h
        simp only [Function.comp_def, h0 e h, hi, Nat.zero_add, true_and]
      · rw [if_neg hi]
        apply List.sum_eq_zero
        intro x hx
        obtain ⟨e, h, rfl⟩ := List.mem_map.mp hx
        simp only [Function.comp_def, h0 e h, Nat.zero_add]
        exact if_neg (by rintro ⟨h, _⟩; exact hi h.symm)
    obtain ⟨acc', e3, a1, a2, a3, a4, _⟩ := Coo.addInplace_ok (A := acc) (B := D) h4 h5 (by rw [h6])
    obtain ⟨C, e4, c1, c2, c3, c4, c5⟩ := qrLoop_ok hQ m (pos + 1) rs acc' (by simpa using h1)
      (List.nodup_cons.mp h2).2 (fun x hx => h3 x (by simp [hx])) (by rw [a2, h4]) (by rw [a3, h5]) (by rw [a1, h6])
    refine ⟨C, ?_, c1, c2, c3, ?_, ?_⟩
    · unfold qrLoop
      simp only [bind, Except.bind, e1, e3, e4]
    · intro i hi j
      rw [c4 i (fun h => hi (by simp [h])), a4, hDden, if_neg (fun h => hi (by simp [h])), add_zero]
    · intro t i ht j
      cases t with
      | zero =>
        simp only [List.getElem?_cons_zero, Option.some.injEq] at ht
        subst ht
        rw [c4 r (List.nodup_cons.mp h2).1, a4, hDden, if_pos rfl]
        rfl
      | succ t =>
        rw [List.getElem?_cons_succ] at ht
        have hne : i ≠ r := by
          rintro rfl; exact (List.nodup_cons.mp h2).1 (List.mem_of_getElem? ht)
        rw [c5 t i ht, a4, hDden, if_neg hne, add_zero]
        congr 2; omega

theorem getD_of_lt {rows : List Nat} {l : Nat} (h : l < rows.length) : rows.getD l 0 = rows[l] := by
  simp [h]

theorem qr_span_rows {n : Nat} {A C : Nat → Nat → ℝ} {rows : List Nat} (hnd : rows.Nodup)
    (hind : LinearIndepOn ℝ (fun r : ℕ => vec n (A r)) {r | r ∈ rows}) (T : Nat → Nat → ℝ)
    (h : ∀ k (hk : k < rows.length), ∀ j, j < n →
      A rows[k] j = ∑ l ∈ Finset.range rows.length, T l k * C (rows.getD l 0) j)
    (t : Nat) (ht : t < rows.length) :
    vec n (C rows[t]) ∈ Submodule.span ℝ ((fun r => vec n (A r)) '' {r | r ∈ rows}) := by
  have hinj : Function.Injective (fun k : Fin rows.length => (⟨rows[k], List.getElem_mem k.2⟩ : {r | r ∈ rows})) := by
    intro a b h
    have := Subtype.ext_iff.mp h
    exact Fin.ext ((List.Nodup.getElem_inj_iff hnd).mp this)
  have hind' : LinearIndependent ℝ (fun k : Fin rows.length => vec n (A rows[k])) :=
    LinearIndependent.comp (v := fun x : {r | r ∈ rows} => vec n (A x)) hind _ hinj
  have hsp := qr_span (q := fun k : Fin rows.length => vec n (C rows[k])) hind' (by
    intro k
    have : vec n (A rows[k]) = ∑ l : Fin rows.length, T l k • vec n (C rows[l]) := by
      funext j
      rw [Finset.sum_apply]
      refine (h k k.2 j j.2).trans ?_
      rw [Finset.sum_range]
      refine Finset.sum_congr rfl fun l _ => ?_
      rw [getD_of_lt l.2]
      rfl
    rw [this]
    exact Submodule.sum_mem _ fun l _ => Submodule.smul_mem _ _ (Submodule.subset_span ⟨l, rfl⟩)) ⟨t, ht⟩
  refine Submodule.span_mono ?_ hsp
  rintro _ ⟨k, rfl⟩
  exact ⟨rows[k], List.getElem_mem k.2, rfl⟩

theorem orthByQr_ok (la : LinAlg ℝ) (hqr : IsReducedQr la.qr) {n : Nat} {A : Coo ℝ}
    (hr : A.rows = n) (hc : A.cols = n) {rows : List Nat} (hnd : rows.Nodup) (hlt : ∀ r ∈ rows, r < n)
    (hlast : ∃ r ∈ rows, r + 1 = n)
    (hind : LinearIndepOn ℝ (fun r : ℕ => vec n (A.den r)) {r | r ∈ rows}) :
    ∃ C, orthByQr la A rows = .ok C ∧ C.rows = n ∧ C.cols = n ∧ C.md = A.md ∧
      (∀ r ∉ rows, r < n → ∀ j, C.den r j = A.den r j) ∧
      (∀ r ∈ rows, ∀ s ∈ rows, dot n (C.den r) (C.den s) = if r = s then 1 else 0) ∧
      (∀ r ∈ rows, vec n (C.den r) ∈ Submodule.span ℝ ((fun r => vec n (A.den r)) '' {r | r ∈ rows})) := by
  obtain ⟨S, e1, s1, s2, s3, s4⟩ := select_infer (C := A) rows (by rw [hr]; exact hlt) (by rw [hr]; exact hlast)
  set m := rows.length with hm
  have hmn : m ≤ n := by
    have : rows.toFinset ⊆ Finset.range n := by
      intro x hx; exact Finset.mem_range.mpr (hlt x (by simpa using hx))
    have := Finset.card_le_card this
    rwa [List.toFinset_card_of_nodup hnd, Finset.card_range] at this
  have hds : S.toDense.shape = [m, n] := by show [S.rows, S.cols] = _; rw [s2, s3, hc]
  have hdg : ∀ k j, k < m → j < n → S.toDense.get [k, j] = S.den k j := by
    intro k j hk hj
    unfold Coo.toDense
    rw [Tensor.ofFn_get_of _ _ (by rw [s2, s3, hc]; exact ⟨hk, hj, trivial⟩)]
    rfl
  have hts := matT_shape hds
  obtain ⟨q1, q2, q3, T, q4⟩ := hqr _ n m hts
  set q := la.qr S.toDense.matT with hq
  rw [Nat.min_eq_right hmn] at q1 q3 q4
  have hqs : q.matT.shape = [m, n] := matT_shape q1
  set Q : Coo ℝ := Coo.ofFn q.matT.md m n (fun i j => q.matT.get [i, j] ≠ 0) fun i j => q.matT.get [i, j] with hQ
  have e2 : Coo.ofDense q.matT = .ok Q := by
    unfold Coo.ofDense; rw [hqs]
  have hQd : ∀ k j, k < m → j < n → Q.den k j = q.get [j, k] := by
    intro k j hk hj
    rw [hQ, Coo.ofFn_den, matT_get q1 hk hj]
    split_ifs with h
    · rfl
    · by_contra h'
      exact h ⟨hk, hj, fun h'' => h' h''.symm⟩
  obtain ⟨D, e3, d1, d2, d3, d4, _⟩ := removalP_ok (R := ℝ) A.md A.rows rows
  obtain ⟨B, e4, b1, b2, b3, b4, _⟩ := Coo.mm_ok (A := D) (B := A) d3 d1
  have hB : ∀ i j, i < n → B.den i j = if i ∈ rows then 0 else A.den i j := by
    intro i j hi
    rw [b4, d3, hr, Finset.sum_eq_single i]
    · rw [d4 i i (by rw [hr]; exact hi)]
      by_cases h : i ∈ rows <;> simp [h]
    · intro k _ hk
      rw [d4 i k (by rw [hr]; exact hi), if_neg (by rintro ⟨h, _⟩; exact hk h.symm), zero_mul]
    · intro h; exact absurd (Finset.mem_range.mpr hi) h
  obtain ⟨C, e5, c1, c2, c3, c4, c5⟩ := qrLoop_ok (A := A) (Q := Q) (by rw [hc]; rfl) m 0 rows B rfl hnd
    (by rw [hr]; exact hlt) (by rw [b2, d2]) (by rw [b3]) (by rw [b1, d1])
  have hCrow : ∀ t (ht : t < m), ∀ j, j < n → C.den rows[t] j = q.get [j, t] := by
    intro t ht j hj
    have hi := hlt _ (List.getElem_mem ht)
    rw [c5 t _ (List.getElem?_eq_getElem ht), hB _ _ hi, if_pos (List.getElem_mem ht), zero_add, Nat.zero_add, hQd t j ht hj]
  refine ⟨C.coalesce, ?_, by simp [c1, hr], by simp [c2, hc], by simp [c3], ?_, ?_, ?_⟩
  · unfold orthByQr
    have hD : Coo.mk? A.md A.rows A.cols
        ((List.range A.rows).map fun (i : Nat) => ((i : Int), (i : Int), if i ∈ rows then (0 : ℝ) else 1)) = .ok D := by
      rw [← e3, hr, hc]
    simp only [bind, Except.bind, e1, ← hq, e2, hD, e4]
    rw [show Q.rows = m from rfl, e5]
    rfl
  · intro r h hrn j
    rw [Coo.coalesce_den, c4 r h, hB r j hrn, if_neg h]
  · intro r hr' s hs'
    obtain ⟨t, ht, rfl⟩ := List.mem_iff_getElem.mp hr'
    obtain ⟨u, hu, rfl⟩ := List.mem_iff_getElem.mp hs'
    have := q3 t u ht hu
    have e : dot n (C.coalesce.den rows[t]) (C.coalesce.den rows[u])
        = dot n (fun i => q.get [i, t]) (fun i => q.get [i, u]) := by
      unfold dot
      refine Finset.sum_congr rfl fun j hj => ?_
      have hj := Finset.mem_range.mp hj
      rw [Coo.coalesce_den, Coo.coalesce_den, hCrow t ht j hj, hCrow u hu j hj]
    rw [e, this]
    simp only [List.Nodup.getElem_inj_iff hnd]
  · intro r hr'
    obtain ⟨t, ht, rfl⟩ := List.mem_iff_getElem.mp hr'
    have hsp := qr_span_rows hnd hind (C := C.den) (fun k j => T k j) (by
      intro k hk j hj
      have h1 := q4 j k hj hk
      rw [matT_get hds hj hk, hdg k j hk hj, s4 k _ j (List.getElem?_eq_getElem hk)] at h1
      rw [h1]
      refine Finset.sum_congr rfl fun l hl => ?_
      rw [getD_of_lt (Finset.mem_range.mp hl), hCrow l (Finset.mem_range.mp hl) j hj, mul_comm]) t ht
    have e : vec n (C.coalesce.den rows[t]) = vec n (C.den rows[t]) := by
      funext j; show C.coalesce.den _ _ = C.den _ _; rw [Coo.coalesce_den]
    rw [e]
    exact hsp

end Verif
