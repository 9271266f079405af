/-
The non-separable two-dimensional matrix transform on the folded tensor.
-/
import Verif.Lemmas.MatNonsep
import Verif.Lemmas.MatNTop
import Verif.Lemmas.Orth2Build

namespace Verif
open Tensor Spec
variable {R : Type}

theorem builtN_getElem? {α : Type} (f : List Nat → α) (F : Nat) : ∀ (L : Nat) (ns : List Nat) (s : Nat),
    s < mLevelsN F L ns → (builtN f F L ns)[s]? = some (f (mLens ns s))
  | 0, ns, s, h => by simp [mLevelsN] at h
  | L + 1, ns, s, h => by
    unfold mLevelsN at h
    by_cases hn : ∃ n ∈ ns, n < F
    · rw [if_pos hn] at h; omega
    · rw [if_neg hn] at h
      unfold builtN
      rw [if_neg hn]
      cases s with
      | zero => rw [List.getElem?_cons_zero, mLens_zero]
      | succ s => rw [List.getElem?_cons_succ, builtN_getElem? f F L (halfLens ns) s (by omega), mLens_succ]

theorem mLens_half (ns : List Nat) (s : Nat) : (((mLens ns s).map evenLen).map fun n => n / 2) = mLens ns (s + 1) := by
  induction s generalizing ns with
  | zero => rw [mLens_zero, mLens_succ, mLens_zero, halfs_eq]
  | succ s ih => rw [mLens_succ, ih, mLens_succ ns (s + 1)]

theorem mat2Nonsep_ok [NonUnitalNonAssocSemiring R] {mode : Option String} {m : Mode} {md : Meta} {B F N : Nat}
    (hB : 1 ≤ B) (hm : Selects mode m) (hF : 2 ≤ F) {C : Nat → Nat → Coo R}
    {A : Nat → Nat → Nat → Nat → R} (hC : Family2 C A md F N) {lv : Option Int} {L : Nat} {ns : List Nat}
    {X : Nat → List Nat → R} {y : Tensor R} (hl : ns.length = 2) (hN : ∀ k ∈ ns, evenLen k ≤ N)
    (hL : 0 < mLevelsN F L ns) (hy : ShowsN y md B ns X) :
    ∃ (r : Tensor R) (es : List (Entry R)), mat2Nonsep mode (builtStateN (mats2At C) F lv L ns) y = .ok (r, es) ∧
      es.length = mLevelsN F L ns ∧
      ShowsN r md B (mLens ns (mLevelsN F L ns)) (fun b => bandA (nonsepBand m A) ns (X b) (mLevelsN F L ns)) ∧
      ∀ s e, es[s]? = some e → IsTuple (fun bs u => ShowsN u md B (mLens ns (s + 1))
          (fun b => bandD (nonsepBand m A) ns (X b) s bs)) e := by
  obtain ⟨f, ef, sf⟩ : ∃ f, flatCols y B = .ok f ∧ StCols md B ns X f.matT := by
    match ns, hl with
    | [p, q], _ =>
      obtain ⟨f, ef, sf⟩ := flatCols_ok hy hB
      exact ⟨f, ef, sf.matT⟩
  obtain ⟨r, es, e1, h1, h2, h3⟩ := matLoopN_ok hF (mat2NonsepStep_ok hB hm hF hC) [mLens ns (mLevelsN F L ns)] L ns X
    f.matT hl hN sf
  obtain ⟨k, hk⟩ : ∃ k, mLevelsN F L ns = k + 1 := ⟨mLevelsN F L ns - 1, by omega⟩
  have hml : (mLens ns k).length = 2 := by rw [mLens_length, hl]
  have hsz : (builtN (fun ns => ns.map evenLen) F L ns ++ [mLens ns (mLevelsN F L ns)])[(builtN (mats2At C) F L ns).length - 1]?
      = some ((mLens ns k).map evenLen) := by
    rw [builtN_length, hk, Nat.add_sub_cancel, List.getElem?_append_left (by rw [builtN_length, hk]; omega),
      builtN_getElem? _ _ _ _ _ (by omega)]
  obtain ⟨ms, rest, hms⟩ : ∃ ms rest, builtN (mats2At C) F L ns = ms :: rest := by
    cases hb : builtN (mats2At C) F L ns with
    | nil => have := builtN_length (mats2At C) F L ns; rw [hb] at this; simp at this; omega
    | cons a l => exact ⟨a, l, rfl⟩
  have hhalf := mLens_half ns k
  rw [← hk] at hhalf
  obtain ⟨ll, el, sl⟩ : ∃ u, unflatCols r B (((mLens ns k).map evenLen).getD 0 0 / 2) (((mLens ns k).map evenLen).getD 1 0 / 2)
      = .ok u ∧ ShowsN u md B (mLens ns (mLevelsN F L ns)) (fun b => bandA (nonsepBand m A) ns (X b) (mLevelsN F L ns)) := by
    rw [← hhalf] at h2 ⊢
    match hq : mLens ns k, hml with
    | [p, q], _ =>
      rw [hq] at h2
      obtain ⟨u, eu, su⟩ := unflatCols_ok (h := evenLen p / 2) (w := evenLen q / 2) h2
      refine ⟨u, eu, su.congr fun b ks _ hk => ?_⟩
      match ks, hk with
      | [c, J], ⟨h1, h2, _⟩ =>
        show bandA (nonsepBand m A) ns (X b) (mLevelsN F L ns)
          [(J * (evenLen p / 2) + c) % (evenLen p / 2), (J * (evenLen p / 2) + c) / (evenLen p / 2)] = _
        rw [pix_mod h1, pix_div h1]
  refine ⟨ll, es, ?_, h1, sl, h3⟩
  have hyB : y.shape.getD 0 0 = B := by rw [hy.shape]; rfl
  unfold mat2Nonsep builtStateN
  simp only [hyB, bind, Except.bind, ef, e1, hsz]
  rw [hms]
  simp only [el]
  rfl

/-- Without a level the non-separable transform reads a variable that does not exist. -/
theorem mat2Nonsep_none [NonUnitalNonAssocSemiring R] {mode : Option String} {md : Meta} {B F : Nat}
    (hB : 1 ≤ B) {Ms : List Nat → List (Coo R)} {lv : Option Int} {L : Nat} {ns : List Nat}
    {X : Nat → List Nat → R} {y : Tensor R} (hl : ns.length = 2) (hL : mLevelsN F L ns = 0) (hy : ShowsN y md B ns X) :
    mat2Nonsep mode (builtStateN Ms F lv L ns) y = .error .unboundLocalError := by
  obtain ⟨f, ef⟩ : ∃ f, flatCols y B = .ok f := by
    match ns, hl with
    | [p, q], _ =>
      obtain ⟨f, ef, sf⟩ := flatCols_ok hy hB
      exact ⟨f, ef⟩
  have hb : builtN Ms F L ns = [] := by rw [← List.length_eq_zero_iff, builtN_length]; exact hL
  have hyB : y.shape.getD 0 0 = B := by rw [hy.shape]; rfl
  unfold mat2Nonsep builtStateN
  simp only [hyB, bind, Except.bind, ef, hb, matLoopN]

/-- An empty batch cannot be flattened. -/
theorem mat2Nonsep_empty [NonUnitalNonAssocSemiring R] {mode : Option String} {st : DecStateN R} {y : Tensor R}
    (h : y.shape.getD 0 0 = 0) : mat2Nonsep mode st y = .error .runtimeError := by
  unfold mat2Nonsep flatCols Tensor.reshapeInfer
  simp only [h, prodL_cons, prodL_nil, Nat.zero_mul, if_true]
  rfl

theorem decBuilds_nonsep [Field R] [DecidableEq R] {la : LinAlg R} {cfg : DecCfgN R} {md : Meta} {F N : Nat}
    {C : Nat → Nat → Coo R} (hs : cfg.separable = false)
    (hC : ∀ h w, h % 2 = 0 → w % 2 = 0 → F ≤ h → F ≤ w → h ≤ N → w ≤ N →
      constructBoundaryA2 la cfg.wavelet md h w cfg.orth = .ok (C h w)) :
    DecBuilds la cfg md 2 F N (mats2At C) := by
  intro ns hl hge hN
  match ns, hl with
  | [p, q], _ =>
    have h1 := hge p (by simp)
    have h2 := hge q (by simp)
    have := le_evenLen p
    have := le_evenLen q
    unfold levelMatsA
    rw [if_neg (by rw [hs]; decide)]
    have e := hC _ _ (evenLen_even p) (evenLen_even q) (by omega) (by omega) (hN p (by simp)) (hN q (by simp))
    simp only [List.map_cons, List.map_nil, List.getD_cons_zero, List.getD_cons_succ, bind, Except.bind, e]
    rfl

theorem recBuilds_nonsep [Field R] [DecidableEq R] {la : LinAlg R} {cfg : RecCfgN R} {md : Meta} {F N : Nat}
    {C : Nat → Nat → Coo R} (hs : cfg.separable = false)
    (hC : ∀ h w, h % 2 = 0 → w % 2 = 0 → F ≤ h → F ≤ w → h ≤ N → w ≤ N →
      constructBoundaryS2 la cfg.wavelet md h w cfg.orth = .ok (C h w)) :
    RecBuilds la cfg md 2 F N (mats2At C) := by
  intro ns hl hge hN
  match ns, hl with
  | [p, q], _ =>
    have h1 := hge p (by simp)
    have h2 := hge q (by simp)
    have := le_evenLen p
    have := le_evenLen q
    unfold levelMatsS
    rw [if_neg (by rw [hs]; decide)]
    have e := hC _ _ (evenLen_even p) (evenLen_even q) (by omega) (by omega) (hN p (by simp)) (hN q (by simp))
    simp only [List.map_cons, List.map_nil, List.getD_cons_zero, List.getD_cons_succ, bind, Except.bind, e]
    rfl

theorem mats2At_even (C : Nat → Nat → Coo R) (ns : List Nat) : mats2At C (ns.map evenLen) = mats2At C ns := by
  have key : ∀ i, evenLen ((ns.map evenLen).getD i 0) = evenLen (ns.getD i 0) := by
    intro i
    simp only [List.getD_eq_getElem?_getD, List.getElem?_map]
    cases ns[i]? with
    | none => rfl
    | some n => exact evenLen_of_even (evenLen_even n)
  unfold mats2At
  rw [key, key]

end Verif
