/-
C59, the separable transforms: `fswaverec2` and `fswaverec3` on arbitrary coefficients.
-/
import Verif.Lemmas.RecGenSep
import Verif.Props.RecGenN
import Verif.Props.Sep

namespace Verif.Props
open Tensor Spec
variable {R : Type}

theorem allDetails_perm {n : Nat} {keys keys' : List String} (h : keys.Perm keys') (ha : AllDetails n keys') :
    AllDetails n keys := fun k => by rw [h.mem_iff]; exact ha k

theorem recKind_perm [Zero R] {keys keys' : List String} (h : keys.Perm keys') (hn : (keys'.map bandOfKey).Nodup)
    (ht : ∀ k ∈ keys', true ∈ bandOfKey k) : RecKind (R := R) (IsDict keys) :=
  isDict_band ((h.map bandOfKey).nodup_iff.mpr hn) fun k hk => ht k (h.mem_iff.mp hk)

/-- The names of the detail bands of two axes. -/
def keys2 : List String := ["da", "ad", "dd"]

theorem allDetails_keys2 : AllDetails 2 keys2 := by
  have := allDetails_sep 2
  rw [sepDetailKeys2] at this
  exact this

/-- **C59.** `fswaverec2` on arbitrary coefficients, the dictionaries in any order: if at every level the
approximation is at least as large as the details along both axes, then it succeeds, and the result is, plane by
plane, the textbook inverse transform.  (What the approximation has in excess is dropped.) -/
theorem c59_fswaverec2_textbook [CommSemiring R] (w : Wavelet R) (F : Nat) (axes : AxisHint) (md : Meta) (S : List Nat)
    (t0 : Tensor R) (es : List (Entry R)) (K0 : List Nat) (Kss : List (List Nat)) (keys : List String) (hF : 2 ≤ F)
    (h0 : w.recLo.length = F) (h1 : w.recHi.length = F)
    (hg : GoodAxes axes S.length 2) (hdt : md.dtype = .float32 ∨ md.dtype = .float64)
    (hK : ∀ Ks ∈ K0 :: Kss, Ks.length = 2) (hkeys : keys.Perm ["da", "ad", "dd"])
    (ht : Uniform md (setMany S (axesOf axes S.length 2) K0) t0)
    (hes : List.Forall₂ (fun e Ks => IsDict keys (fun _ t => Uniform md (setMany S (axesOf axes S.length 2) Ks) t) e) es Kss)
    (hc : CoveredN F K0 Kss) :
    ∃ z, (fswaverec2 (container t0 es) w axes).1 = .ok z ∧ z.md = md ∧
      z.shape = setMany S (axesOf axes S.length 2) (idwtLenSep F K0 Kss) ∧
      ∀ idx, InB z.shape idx → z.get idx =
        idwtN w.recLo w.recHi F (plane t0 (axesOf axes S.length 2) idx)
          (List.zipWith (fun e Ks => (Ks, bandPlane e (axesOf axes S.length 2) idx)) es Kss)
          (sizes (axesOf axes S.length 2) idx) := by
  have hd : isDtypeSupported md.dtype = true := by unfold isDtypeSupported; simpa using hdt
  exact fswaverecn_gen (allDetails_perm hkeys allDetails_keys2) (recKind_perm hkeys (by decide) (by decide)) (by decide)
    hF h0 h1 hg hd (hK K0 (by simp)) (fun Ks h => hK Ks (by simp [h])) ht hes hc

/-- **C59.** `fswaverec3` on arbitrary coefficients, the dictionaries in any order. -/
theorem c59_fswaverec3_textbook [CommSemiring R] (w : Wavelet R) (F : Nat) (axes : AxisHint) (md : Meta) (S : List Nat)
    (t0 : Tensor R) (es : List (Entry R)) (K0 : List Nat) (Kss : List (List Nat)) (keys : List String) (hF : 2 ≤ F)
    (h0 : w.recLo.length = F) (h1 : w.recHi.length = F)
    (hg : GoodAxes axes S.length 3) (hdt : md.dtype = .float32 ∨ md.dtype = .float64)
    (hK : ∀ Ks ∈ K0 :: Kss, Ks.length = 3) (hkeys : keys.Perm ["aad", "ada", "add", "daa", "dad", "dda", "ddd"])
    (ht : Uniform md (setMany S (axesOf axes S.length 3) K0) t0)
    (hes : List.Forall₂ (fun e Ks => IsDict keys (fun _ t => Uniform md (setMany S (axesOf axes S.length 3) Ks) t) e) es Kss)
    (hc : CoveredN F K0 Kss) :
    ∃ z, (fswaverec3 (container t0 es) w axes).1 = .ok z ∧ z.md = md ∧
      z.shape = setMany S (axesOf axes S.length 3) (idwtLenSep F K0 Kss) ∧
      ∀ idx, InB z.shape idx → z.get idx =
        idwtN w.recLo w.recHi F (plane t0 (axesOf axes S.length 3) idx)
          (List.zipWith (fun e Ks => (Ks, bandPlane e (axesOf axes S.length 3) idx)) es Kss)
          (sizes (axesOf axes S.length 3) idx) := by
  have hd : isDtypeSupported md.dtype = true := by unfold isDtypeSupported; simpa using hdt
  exact fswaverecn_gen (allDetails_perm hkeys allDetails_keys3) (recKind_perm hkeys (by decide) (by decide)) (by decide)
    hF h0 h1 hg hd (hK K0 (by simp)) (fun Ks h => hK Ks (by simp [h])) ht hes hc

/-- **C59.** `fswaverec2` rejects an approximation that is at some level smaller than the details along an axis. -/
theorem c59_fswaverec2_short [CommSemiring R] (w : Wavelet R) (F : Nat) (axes : AxisHint) (md : Meta) (S : List Nat)
    (t0 : Tensor R) (es : List (Entry R)) (K0 : List Nat) (Kss : List (List Nat)) (keys : List String) (hF : 2 ≤ F)
    (h0 : w.recLo.length = F) (h1 : w.recHi.length = F)
    (hg : GoodAxes axes S.length 2) (hdt : md.dtype = .float32 ∨ md.dtype = .float64) (hS : ∀ s ∈ S, 1 ≤ s)
    (hK : ∀ Ks ∈ K0 :: Kss, Ks.length = 2) (hkeys : keys.Perm ["da", "ad", "dd"])
    (ht : Uniform md (setMany S (axesOf axes S.length 2) K0) t0)
    (hes : List.Forall₂ (fun e Ks => IsDict keys (fun _ t => Uniform md (setMany S (axesOf axes S.length 2) Ks) t) e) es Kss)
    (hc : ShortN F K0 Kss) : (fswaverec2 (container t0 es) w axes).1 = .error .runtimeError := by
  have hd : isDtypeSupported md.dtype = true := by unfold isDtypeSupported; simpa using hdt
  exact fswaverecn_short (allDetails_perm hkeys allDetails_keys2) (recKind_perm hkeys (by decide) (by decide)) (by decide)
    hF h0 h1 hg hd hS (hK K0 (by simp)) (fun Ks h => hK Ks (by simp [h])) ht hes hc

/-- **C59.** `fswaverec3` rejects an approximation that is at some level smaller than the details along an axis. -/
theorem c59_fswaverec3_short [CommSemiring R] (w : Wavelet R) (F : Nat) (axes : AxisHint) (md : Meta) (S : List Nat)
    (t0 : Tensor R) (es : List (Entry R)) (K0 : List Nat) (Kss : List (List Nat)) (keys : List String) (hF : 2 ≤ F)
    (h0 : w.recLo.length = F) (h1 : w.recHi.length = F)
    (hg : GoodAxes axes S.length 3) (hdt : md.dtype = .float32 ∨ md.dtype = .float64) (hS : ∀ s ∈ S, 1 ≤ s)
    (hK : ∀ Ks ∈ K0 :: Kss, Ks.length = 3) (hkeys : keys.Perm ["aad", "ada", "add", "daa", "dad", "dda", "ddd"])
    (ht : Uniform md (setMany S (axesOf axes S.length 3) K0) t0)
    (hes : List.Forall₂ (fun e Ks => IsDict keys (fun _ t => Uniform md (setMany S (axesOf axes S.length 3) Ks) t) e) es Kss)
    (hc : ShortN F K0 Kss) : (fswaverec3 (container t0 es) w axes).1 = .error .runtimeError := by
  have hd : isDtypeSupported md.dtype = true := by unfold isDtypeSupported; simpa using hdt
  exact fswaverecn_short (allDetails_perm hkeys allDetails_keys3) (recKind_perm hkeys (by decide) (by decide)) (by decide)
    hF h0 h1 hg hd hS (hK K0 (by simp)) (fun Ks h => hK Ks (by simp [h])) ht hes hc

theorem coveredN_of_consistentN {F : Nat} : ∀ {Ks : List Nat} {Kss : List (List Nat)}, ConsistentN F Ks Kss →
    CoveredN F Ks Kss ∧ idwtLenSep F Ks Kss = idwtLenN F Ks Kss
  | _, [], _ => ⟨trivial, rfl⟩
  | Ks, [d], ⟨h, hp⟩ => by
    subst h
    exact ⟨⟨List.forall₂_same.mpr fun K hK => ⟨hp K hK, le_rfl⟩, trivial⟩, rfl⟩
  | Ks, d :: n :: rest, ⟨h, hp, hf, hc⟩ => by
    subst h
    have h1 : ∀ K ∈ n, 1 ≤ K := by
      cases rest with
      | nil => exact hc.2
      | cons => exact hc.2.1
    obtain ⟨⟨-, i2⟩, i3⟩ := coveredN_of_consistentN hc
    refine ⟨⟨List.forall₂_same.mpr fun K hK => ⟨hp K hK, le_rfl⟩, ?_, i2⟩, ?_⟩
    · unfold NextFits at hf
      rw [List.forall₂_map_right_iff]
      rw [List.forall₂_iff_get] at hf ⊢
      refine ⟨hf.1.symm, fun i h2 h3 => ⟨h1 _ (List.getElem_mem _), ?_⟩⟩
      have := hf.2 i h3 h2
      omega
    · exact i3

/-- **C59.** On coefficients that `waverec3` accepts, `fswaverec3` gives the same result. -/
theorem c59_waverec3_eq_fswaverec3 [CommSemiring R] (w : Wavelet R) (F : Nat) (axes : AxisHint) (md : Meta) (S : List Nat)
    (t0 : Tensor R) (es : List (Entry R)) (K0 : List Nat) (Kss : List (List Nat)) (hF : 2 ≤ F)
    (h0 : w.recLo.length = F) (h1 : w.recHi.length = F)
    (hg : GoodAxes axes S.length 3) (hdt : md.dtype = .float32 ∨ md.dtype = .float64)
    (hK : ∀ Ks ∈ K0 :: Kss, Ks.length = 3)
    (ht : Uniform md (setMany S (axesOf axes S.length 3) K0) t0)
    (hes : List.Forall₂ (fun e Ks => IsDict keys3 (fun _ t => Uniform md (setMany S (axesOf axes S.length 3) Ks) t) e) es Kss)
    (hc : ConsistentN F K0 Kss) :
    ∃ z, waverec3 (container t0 es) w axes = .ok z ∧ (fswaverec3 (container t0 es) w axes).1 = .ok z := by
  obtain ⟨hcov, hlen⟩ := coveredN_of_consistentN hc
  obtain ⟨z, ez, zm, zs, zg⟩ := c59_waverec3_textbook w F axes md S t0 es K0 Kss hF h0 h1 hg hdt hK ht hes hc
  obtain ⟨y, ey, ym, ys, yg⟩ := c59_fswaverec3_textbook w F axes md S t0 es K0 Kss keys3 hF h0 h1 hg hdt hK
    (by decide) ht hes hcov
  refine ⟨z, ez, ?_⟩
  rw [ey]
  congr 1
  rw [hlen] at ys
  apply Tensor.ext' (ym.trans zm.symm) (ys.trans zs.symm)
  intro idx hidx
  rw [yg idx hidx, zg idx (by rw [zs, ← ys]; exact hidx)]

theorem dictOf2_ok [Zero R] {P : Tensor R → Prop} {e : Entry R} (h : IsTuple (fun _ t => P t) e) :
    IsDict ["da", "ad", "dd"] (fun _ t => P t) (asDict e) := by
  obtain ⟨a, b, c, rfl, h1, h2, h3⟩ := h
  refine ⟨_, rfl, rfl, ?_⟩
  intro q hq
  simp only [List.mem_cons, List.not_mem_nil, or_false] at hq
  rcases hq with rfl | rfl | rfl
  · exact h1
  · exact h2
  · exact h3

theorem dictOf2_bandGet [Zero R] {P : Tensor R → Prop} {e : Entry R} (h : IsTuple (fun _ t => P t) e) (bs : List Bool) :
    bandGet (asDict e) bs = bandGet e bs := by
  obtain ⟨a, b, c, rfl, -⟩ := h
  have e1 : bandOfKey "da" = [true, false] := by decide
  have e2 : bandOfKey "ad" = [false, true] := by decide
  have e3 : bandOfKey "dd" = [true, true] := by decide
  unfold bandGet asDict
  simp only [List.find?_cons, e1, e2, e3, List.find?_nil]
  by_cases h1 : bs = [true, false]
  · subst h1; rfl
  by_cases h2 : bs = [false, true]
  · subst h2; rfl
  by_cases h3 : bs = [true, true]
  · subst h3; rfl
  simp only [h1, h2, h3, if_false]
  have n1 : (([true, false] : List Bool) == bs) = false := by simpa using fun h => h1 h.symm
  have n2 : (([false, true] : List Bool) == bs) = false := by simpa using fun h => h2 h.symm
  have n3 : (([true, true] : List Bool) == bs) = false := by simpa using fun h => h3 h.symm
  simp only [n1, n2, n3]
  rfl

/-- **C59.** On coefficients that `waverec2` accepts, `fswaverec2` gives the same result for the same bands under
their names in the separable transform: `da` horizontal, `ad` vertical, `dd` diagonal. -/
theorem c59_waverec2_eq_fswaverec2 [CommSemiring R] (w : Wavelet R) (F : Nat) (axes : AxisHint) (md : Meta) (S : List Nat)
    (t0 : Tensor R) (es : List (Entry R)) (K0 : List Nat) (Kss : List (List Nat)) (hF : 2 ≤ F)
    (h0 : w.recLo.length = F) (h1 : w.recHi.length = F)
    (hg : GoodAxes axes S.length 2) (hdt : md.dtype = .float32 ∨ md.dtype = .float64)
    (hK : ∀ Ks ∈ K0 :: Kss, Ks.length = 2)
    (ht : Uniform md (setMany S (axesOf axes S.length 2) K0) t0)
    (hes : List.Forall₂ (fun e Ks => IsTuple (fun _ t => Uniform md (setMany S (axesOf axes S.length 2) Ks) t) e) es Kss)
    (hc : ConsistentN F K0 Kss) :
    ∃ z, waverec2 (container t0 es) w axes = .ok z ∧ (fswaverec2 (container t0 (es.map asDict)) w axes).1 = .ok z := by
  obtain ⟨hcov, hlen⟩ := coveredN_of_consistentN hc
  obtain ⟨z, ez, zm, zs, zg⟩ := c59_waverec2_textbook w F axes md S t0 es K0 Kss hF h0 h1 hg hdt hK ht hes hc
  obtain ⟨y, ey, ym, ys, yg⟩ := c59_fswaverec2_textbook w F axes md S t0 (es.map asDict) K0 Kss ["da", "ad", "dd"]
    hF h0 h1 hg hdt hK (by decide) ht
    (by rw [List.forall₂_map_left_iff]; exact hes.imp fun _ _ h => dictOf2_ok h) hcov
  refine ⟨z, ez, ?_⟩
  rw [ey]
  congr 1
  rw [hlen] at ys
  apply Tensor.ext' (ym.trans zm.symm) (ys.trans zs.symm)
  intro idx hidx
  rw [yg idx hidx, zg idx (by rw [zs, ← ys]; exact hidx)]
  congr 1
  clear hc hK ht ez zs zg ey ys yg hcov hlen
  induction hes with
  | nil => rfl
  | @cons e Ks es Kss he _ ih =>
    rw [List.map_cons, List.zipWith_cons_cons, List.zipWith_cons_cons, ih]
    congr 2
    funext bs
    unfold bandPlane
    rw [dictOf2_bandGet he]

/-- Two Haar levels; the approximations `3 × 3` and `4 × 6` are larger than the details `2 × 3` and `3 × 5`. -/
example : ∃ z, (fswaverec2 (container (cst [3, 3] 1) [asDict (.tuple (cst [2, 3] 2) (cst [2, 3] 3) (cst [2, 3] 4)),
    asDict (.tuple (cst [3, 5] 5) (cst [3, 5] 6) (cst [3, 5] 7))]) haar .none).1 = .ok z ∧ z.shape = [6, 10] := by
  obtain ⟨z, h1, -, h2, -⟩ := c59_fswaverec2_textbook haar 2 .none ⟨.float64, 0⟩ [1, 1] (cst [3, 3] 1)
    [asDict (.tuple (cst [2, 3] 2) (cst [2, 3] 3) (cst [2, 3] 4)),
      asDict (.tuple (cst [3, 5] 5) (cst [3, 5] 6) (cst [3, 5] 7))] [3, 3] [[2, 3], [3, 5]] ["da", "ad", "dd"] le_rfl rfl rfl
    (goodAxes_none (by decide) (by decide)) (Or.inr rfl) (by decide) (List.Perm.refl _) (cst_uniform _ _)
    (.cons (dictOf2_ok ⟨_, _, _, rfl, cst_uniform _ _, cst_uniform _ _, cst_uniform _ _⟩)
      (.cons (dictOf2_ok ⟨_, _, _, rfl, cst_uniform _ _, cst_uniform _ _, cst_uniform _ _⟩) .nil))
    ⟨by simp, by simp, trivial⟩
  exact ⟨z, h1, h2⟩

/-- The same with an approximation that is too short. -/
example : (fswaverec2 (container (cst [1, 4] 1) [asDict (.tuple (cst [2, 3] 2) (cst [2, 3] 3) (cst [2, 3] 4))])
    haar .none).1 = .error .runtimeError :=
  c59_fswaverec2_short haar 2 .none ⟨.float64, 0⟩ [1, 1] (cst [1, 4] 1)
    [asDict (.tuple (cst [2, 3] 2) (cst [2, 3] 3) (cst [2, 3] 4))] [1, 4] [[2, 3]] ["da", "ad", "dd"] le_rfl rfl rfl
    (goodAxes_none (by decide) (by decide)) (Or.inr rfl) (by decide) (by decide) (List.Perm.refl _) (cst_uniform _ _)
    (.cons (dictOf2_ok ⟨_, _, _, rfl, cst_uniform _ _, cst_uniform _ _, cst_uniform _ _⟩) .nil)
    ⟨by simp, Or.inl ⟨0, by decide⟩⟩

example : (fswaverec3 (container (cst [2, 3, 1] 1) [cstDict [2, 3, 1] 2, cstDict [4, 7, 2] 3]) haar .none).1
    = .error .runtimeError :=
  c59_fswaverec3_short haar 2 .none ⟨.float64, 0⟩ [1, 1, 1] (cst [2, 3, 1] 1)
    [cstDict [2, 3, 1] 2, cstDict [4, 7, 2] 3] [2, 3, 1] [[2, 3, 1], [4, 7, 2]] keys3 le_rfl rfl rfl
    (goodAxes_none (by decide) (by decide)) (Or.inr rfl) (by decide) (by decide) (by decide) (cst_uniform _ _)
    (.cons (cstDict_ok _ _) (.cons (cstDict_ok _ _) .nil)) ⟨by simp, Or.inr ⟨by simp, by simp, Or.inl ⟨1, by decide⟩⟩⟩

example : ∃ z, waverec3 (container (cst [2, 3, 1] 1) [cstDict [2, 3, 1] 2, cstDict [4, 5, 2] 3]) haar .none = .ok z ∧
    (fswaverec3 (container (cst [2, 3, 1] 1) [cstDict [2, 3, 1] 2, cstDict [4, 5, 2] 3]) haar .none).1 = .ok z :=
  c59_waverec3_eq_fswaverec3 haar 2 .none ⟨.float64, 0⟩ [1, 1, 1] (cst [2, 3, 1] 1)
    [cstDict [2, 3, 1] 2, cstDict [4, 5, 2] 3] [2, 3, 1] [[2, 3, 1], [4, 5, 2]] le_rfl rfl rfl
    (goodAxes_none (by decide) (by decide)) (Or.inr rfl) (by decide) (cst_uniform _ _)
    (.cons (cstDict_ok _ _) (.cons (cstDict_ok _ _) .nil)) ⟨rfl, by decide, by simp [NextFits], rfl, by decide⟩

end Verif.Props
