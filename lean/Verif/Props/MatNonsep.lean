/-
Property C50: the non-separable boundary-wavelet transform of images: `construct_boundary_a2`,
`construct_boundary_s2`, and `MatrixWavedec2`, `MatrixWaverec2` with `separable=False`
(src/ptwt/matmul_transform_2.py).
-/
import Verif.Lemmas.MatNonsepTop
import Verif.Props.MatN

namespace Verif.Props
open Tensor Spec

/-- **C50.** `construct_boundary_a2`, for every orthogonal filter bank, both methods and all even sizes
such that the cut-off rows are independent along both axes: the result is a square matrix with
orthonormal rows and columns; the rows whose two-dimensional filter lies inside the image are the
textbook rows; the other rows stay in the span of the cut-off rows.  `construct_boundary_s2` gives the
transposed matrix. -/
theorem c50_matrix {la : LinAlg ℝ} (hla : ExactLinAlg la) {W : Wavelet ℝ} {F h w : Nat} (md : Meta)
    (hW : OrthBank W F) (hh : h % 2 = 0) (hw : w % 2 = 0) (hh2 : 2 ≤ h) (hwF : F / 2 < w)
    (hbh : BoundaryIndep W F h) (hbw : BoundaryIndep W F w) {method : String}
    (hm : method = "qr" ∨ method = "gramschmidt") :
    ∃ A S, constructBoundaryA2 la W md h w method = .ok A ∧ constructBoundaryS2 la W md h w method = .ok S ∧
      A.md = md ∧ A.rows = h * w ∧ A.cols = h * w ∧ S.md = md ∧ S.rows = h * w ∧ S.cols = h * w ∧
      OrthonormalRows (h * w) A.den ∧ OrthonormalCols (h * w) A.den ∧ (∀ i j, S.den i j = A.den j i) ∧
      (∀ k j, k < h * w → j < h * w → ¬ Truncated2 F h w k → A.den k j = filterRow2 W F h w k j) ∧
      ∀ k, k < h * w → Truncated2 F h w k → vec (h * w) (A.den k) ∈
        Submodule.span ℝ ((fun s => vec (h * w) (filterRow2 W F h w s)) '' {s | s < h * w ∧ Truncated2 F h w s}) := by
  obtain ⟨A, e, a1, a2, a3, a4, a5, a6⟩ := boundaryA2_ok hla md hW hh hw hh2 hwF hbh hbw hm
  refine ⟨A, A.transpose, e, ?_, a1, a2, a3, a1, a3, a2, a4, orthonormal_cols a4, fun i j => Coo.transpose_den A i j, a5, a6⟩
  rw [boundaryS2_eq la md hW, e]
  rfl

theorem boundary_family2 {la : LinAlg ℝ} (hla : ExactLinAlg la) {w : Wavelet ℝ} {F N : Nat} (md : Meta)
    (hw : OrthBank w F) {orth : String} (ho : orth = "qr" ∨ orth = "gramschmidt")
    (hind : ∀ k, k % 2 = 0 → F ≤ k → k ≤ N → BoundaryIndep w F k) :
    ∃ C : Nat → Nat → Coo ℝ, (∀ p q, p % 2 = 0 → q % 2 = 0 → F ≤ p → F ≤ q → p ≤ N → q ≤ N →
        constructBoundaryA2 la w md p q orth = .ok (C p q)) ∧
      Family2 C (fun p q => (C p q).den) md F N ∧
      ∀ p q, p % 2 = 0 → q % 2 = 0 → F ≤ p → F ≤ q → p ≤ N → q ≤ N → OrthonormalCols (p * q) (C p q).den := by
  have h2 := hw.two_le
  have key : ∀ p q, ∃ c, p % 2 = 0 → q % 2 = 0 → F ≤ p → F ≤ q → p ≤ N → q ≤ N →
      constructBoundaryA2 la w md p q orth = .ok c ∧ c.md = md ∧
      c.rows = p * q ∧ c.cols = p * q ∧ OrthonormalCols (p * q) c.den := by
    intro p q
    by_cases h : p % 2 = 0 ∧ q % 2 = 0 ∧ F ≤ p ∧ F ≤ q ∧ p ≤ N ∧ q ≤ N
    · obtain ⟨h1, h2', h3, h4, h5, h6⟩ := h
      obtain ⟨A, _, e, _, a1, a2, a3, _, _, _, _, a4, _⟩ := c50_matrix hla md hw h1 h2' (by omega) (by omega)
        (hind p h1 h3 h5) (hind q h2' h4 h6) ho
      exact ⟨A, fun _ _ _ _ _ _ => ⟨e, a1, a2, a3, a4⟩⟩
    · exact ⟨⟨md, 0, 0, [], by simp⟩, fun h1 h2 h3 h4 h5 h6 => absurd ⟨h1, h2, h3, h4, h5, h6⟩ h⟩
  choose C hC using key
  exact ⟨C, fun p q a b c d e f => (hC p q a b c d e f).1, ⟨fun p q a b c d e f =>
    ⟨(hC p q a b c d e f).2.1, (hC p q a b c d e f).2.2.1, (hC p q a b c d e f).2.2.2.1, fun _ _ _ _ => rfl⟩⟩,
    fun p q a b c d e f => (hC p q a b c d e f).2.2.2.2⟩

/-- A round trip through new objects, with the states it leaves behind. -/
theorem nonsep_run {la : LinAlg ℝ} (hla : ExactLinAlg la) {w : Wavelet ℝ} {F : Nat} (hw : OrthBank w F)
    {x : Tensor ℝ} {axes : AxisHint} {m : Mode} {mode : Option String} {orth : String} {level : Option Int}
    (hg : GoodAxes axes x.rank 2) (hdt : x.md.dtype = .float32 ∨ x.md.dtype = .float64)
    (hpos : ∀ k ∈ x.shape, 0 < k)
    (hm : Selects mode m) (ho : orth = "qr" ∨ orth = "gramschmidt") (hlev : ∀ l, level = some l → 1 ≤ l)
    (hind : ∀ k, k % 2 = 0 → F ≤ k → (∃ n ∈ sizes (axesOf axes x.rank 2) x.shape, k ≤ evenLen n) → BoundaryIndep w F k)
    {L : Nat} (hL : L = mLevelsN F (levelsN level F (sizes (axesOf axes x.rank 2) x.shape))
      (sizes (axesOf axes x.rank 2) x.shape)) (hL0 : 0 < L) :
    ∃ lv, ∃ C : Nat → Nat → Coo ℝ, ∃ c z,
      decInitN 2 w level axes orth false mode =
        .ok (⟨w, resolve axes 2, orth, mode, false⟩, ⟨level, none, [], [], false, []⟩) ∧
      recInitN 2 w axes orth false = .ok (⟨w, resolve axes 2, orth, false⟩, ⟨none, none, [], false⟩) ∧
      (∀ p q, p % 2 = 0 → q % 2 = 0 → F ≤ p → F ≤ q → p ≤ sizeBound (sizes (axesOf axes x.rank 2) x.shape) →
        q ≤ sizeBound (sizes (axesOf axes x.rank 2) x.shape) →
        constructBoundaryA2 la w x.md p q orth = .ok (C p q)) ∧
      (∀ p q, p % 2 = 0 → q % 2 = 0 → F ≤ p → F ≤ q → p ≤ sizeBound (sizes (axesOf axes x.rank 2) x.shape) →
        q ≤ sizeBound (sizes (axesOf axes x.rank 2) x.shape) → OrthonormalCols (p * q) (C p q).den) ∧
      Family2 C (fun p q => (C p q).den) x.md F (sizeBound (sizes (axesOf axes x.rank 2) x.shape)) ∧
      decCallN 2 la ⟨w, resolve axes 2, orth, mode, false⟩ ⟨level, none, [], [], false, []⟩ x =
        (.ok c, builtStateN (mats2At C) F lv (levelsN level F (sizes (axesOf axes x.rank 2) x.shape))
          (sizes (axesOf axes x.rank 2) x.shape)) ∧
      IsBandDwtN IsTuple (nonsepBand m fun p q => (C p q).den) (axesOf axes x.rank 2) L x c ∧
      recCallN 2 la ⟨w, resolve axes 2, orth, false⟩ ⟨none, none, [], false⟩ c = (.ok z,
        ⟨some L, some ((sizes (axesOf axes x.rank 2) x.shape).map evenLen),
          builtN (mats2At fun p q => (C p q).transpose) F (levelsN level F (sizes (axesOf axes x.rank 2) x.shape))
            (sizes (axesOf axes x.rank 2) x.shape),
          (builtN matrixPadFlags F L ((sizes (axesOf axes x.rank 2) x.shape).map evenLen)).any fun p => p.any id⟩) ∧
      Reconstructs (axesOf axes x.rank 2) L x z ∧
      EvenPaddedN m (axesOf axes x.rank 2) x z := by
  have h2 := hw.two_le
  have hdt' : isDtypeSupported x.md.dtype = true := by unfold isDtypeSupported; simpa using hdt
  obtain ⟨_, hgs, hax⟩ := goodAxes_list hg
  set ns := sizes (axesOf axes x.rank 2) x.shape with hns
  set N := sizeBound ns with hN
  obtain ⟨C, hC, hF, hO⟩ := boundary_family2 hla x.md hw ho (N := N)
    (fun k a b c => hind k a b (exists_of_le_sizeBound ns k (by omega) c))
  have hB : 1 ≤ batchOf (.seq (resolve axes 2)) 2 x := batchOf_pos hpos
  have hp : ∀ k ∈ ns, 0 < k := by
    intro k hk
    rw [hns] at hk
    unfold sizes at hk
    rw [List.mem_map] at hk
    obtain ⟨a, ha, rfl⟩ := hk
    have : a < x.shape.length := hg.lt a ha
    rw [List.getD_eq_getElem _ _ this]
    exact hpos _ (List.getElem_mem this)
  have hle := le_sizeBound ns
  have hsl : ns.length = 2 := sizes_len hg
  obtain ⟨lv, c, e1, _, hc⟩ := decCallN_core (la := la) (cfg := ⟨w, resolve axes 2, orth, mode, false⟩) (x := x) (n := 2)
    (N := N) (F := F) (band := nonsepBand m fun p q => (C p q).den) (Ms := mats2At C) (level := level)
    (D := IsTuple) isTuple_kind h2 hw.len.1 hgs hdt'
    (decBuilds_nonsep rfl hC) (by rw [hax]; exact hle) hlev (fun _ => by rw [hax]; exact hp)
    (by
      intro lv L' ns' y ds X hns' hL' hy
      rw [hax, ← hns] at hns'
      subst hns'
      obtain ⟨r, es, e1, h1, h3, h4⟩ := mat2Nonsep_ok hB hm h2 hF (lv := lv) (L := L') hsl hle
        (by rw [hL', ← hL]; exact hL0) hy
      refine ⟨r, es, ?_, h1, h3, h4⟩
      unfold decApplyN
      simp only [show ¬ (2 : Nat) = 3 by omega, if_false, Bool.false_eq_true, bind, Except.bind, e1])
  simp only [hax, ← hns, ← hL] at hc
  have hD : ∀ p q, p % 2 = 0 → q % 2 = 0 → F ≤ p → F ≤ q → p ≤ N → q ≤ N →
      constructBoundaryS2 la w x.md p q orth = .ok ((fun p q => (C p q).transpose) p q) := by
    intro p q q1 q2 q3 q4 q5 q6
    rw [boundaryS2_eq la x.md hw p q orth, hC p q q1 q2 q3 q4 q5 q6]
    rfl
  obtain ⟨z, ez, z0, z1, z2⟩ := recCallN_full (la := la) (cfg := ⟨w, resolve axes 2, orth, false⟩) (x := x) (n := 2)
    (N := N) (F := F) (L := levelsN level F ns) (m := m) (band := nonsepBand m fun p q => (C p q).den)
    (Ms := mats2At fun p q => (C p q).transpose) (c := c)
    (St := fun ns X t => ShowsN t x.md (batchOf (.seq (resolve axes 2)) 2 x) ns X)
    (step := mrec2Step false (batchOf (.seq (resolve axes 2)) 2 x)) isTuple_kind h2 hw.len.2.2.1 hgs hdt'
    (recBuilds_nonsep rfl hD) (mats2At_even _) (by rw [hax]; exact hle) (fun _ _ _ h => h)
    (mrec2NonsepStep_ok hB hF hO)
    (by
      intro mats c ds r es hl hr hi
      unfold recApplyN headTensor
      simp only [bind, Except.bind, hi, show ¬ (2 : Nat) = 3 by omega, if_false, List.tail_cons, hr, mrec2Loop_eq])
    (by
      rintro c e ks Y hkl hlast ⟨a, b, d, rfl, s1, -, -⟩
      match ks, hkl with
      | [p, q], _ =>
      have e1 : a.sizeFromEnd 2 = evenLen p / 2 := by unfold Tensor.sizeFromEnd; rw [s1.shape]; rfl
      have e2 : a.sizeFromEnd 1 = evenLen q / 2 := by unfold Tensor.sizeFromEnd; rw [s1.shape]; rfl
      have := evenLen_even p
      have := evenLen_even q
      unfold recShape
      simp only [hlast, show ¬ (2 : Nat) = 3 by omega, if_false, firstRef2, bind, Except.bind, e1, e2,
        List.map_cons, List.map_nil, pure, Except.pure]
      rw [show evenLen p / 2 * 2 = evenLen p by omega, show evenLen q / 2 * 2 = evenLen q by omega])
    (by
      intro c r h0
      simp only [hax, ← hns, ← hL] at h0
      omega)
    (by simp only [hax, ← hns, ← hL]; exact hc)
  simp only [hax, ← hns, ← hL] at z0 z1 z2
  refine ⟨lv, C, c, z, decInitN_ok hg ho hw.len.1 hw.len.2.2.1, recInitN_ok hg ho hw.len.1 hw.len.2.2.1, hC, hO, hF,
    by rw [e1, hax], hc, Prod.ext ez (z2 hL0), reconstructs_of (m := m) hg z0 (fun h => ?_), z1 hL0⟩
  have := z1 h
  unfold EvenPaddedN at this
  exact this

/-- **C50.** The non-separable two-dimensional transform.  For every orthogonal filter bank, every tensor
without empty axes, every pair of axes, padding mode, orthogonalisation method and level (positive, or
`None`) such that at least one level is computed and the cut-off rows are independent at all lengths in
question: the analysis succeeds; its results are the coefficients which the matrices of `c50_matrix` give
level by level; and the synthesis returns the input, with at most one more row and column. -/
theorem c50_roundtrip {la : LinAlg ℝ} (hla : ExactLinAlg la) {w : Wavelet ℝ} {F : Nat} (hw : OrthBank w F)
    {x : Tensor ℝ} {axes : AxisHint} {m : Mode} {mode : Option String} {orth : String} {level : Option Int}
    (hg : GoodAxes axes x.rank 2) (hdt : x.md.dtype = .float32 ∨ x.md.dtype = .float64)
    (hpos : ∀ k ∈ x.shape, 0 < k)
    (hm : Selects mode m) (ho : orth = "qr" ∨ orth = "gramschmidt") (hlev : ∀ l, level = some l → 1 ≤ l)
    (hind : ∀ k, k % 2 = 0 → F ≤ k → (∃ n ∈ sizes (axesOf axes x.rank 2) x.shape, k ≤ evenLen n) → BoundaryIndep w F k)
    {L : Nat} (hL : L = mLevelsN F (levelsN level F (sizes (axesOf axes x.rank 2) x.shape))
      (sizes (axesOf axes x.rank 2) x.shape)) (hL0 : 0 < L) :
    ∃ dcfg dst rcfg rst, ∃ C : Nat → Nat → Coo ℝ, ∃ c z,
      decInitN 2 w level axes orth false mode = .ok (dcfg, dst) ∧ recInitN 2 w axes orth false = .ok (rcfg, rst) ∧
      (∀ p q, p % 2 = 0 → q % 2 = 0 → F ≤ p → F ≤ q →
        (∃ n ∈ sizes (axesOf axes x.rank 2) x.shape, p ≤ evenLen n) →
        (∃ n ∈ sizes (axesOf axes x.rank 2) x.shape, q ≤ evenLen n) →
        constructBoundaryA2 la w x.md p q orth = .ok (C p q) ∧ OrthonormalCols (p * q) (C p q).den) ∧
      (decCallN 2 la dcfg dst x).1 = .ok c ∧
      IsBandDwtN IsTuple (nonsepBand m fun p q => (C p q).den) (axesOf axes x.rank 2) L x c ∧
      (recCallN 2 la rcfg rst c).1 = .ok z ∧
      Reconstructs (axesOf axes x.rank 2) L x z ∧
      EvenPaddedN m (axesOf axes x.rank 2) x z := by
  obtain ⟨lv, C, c, z, i1, i2, hC, hO, _, e1, hc, e2, h3, h4⟩ := nonsep_run hla hw hg hdt hpos hm ho hlev hind hL hL0
  have hle := le_sizeBound (sizes (axesOf axes x.rank 2) x.shape)
  refine ⟨_, _, _, _, C, c, z, i1, i2, ?_, by rw [e1], hc, by rw [e2], h3, h4⟩
  rintro p q p1 q1 p2 q2 ⟨n, hn, p3⟩ ⟨n', hn', q3⟩
  have := hle n hn
  have := hle n' hn'
  exact ⟨hC p q p1 q1 p2 q2 (by omega) (by omega), hO p q p1 q1 p2 q2 (by omega) (by omega)⟩

/-- **C50.** The analysis needs a level and a non-empty batch: if the image is too small for one level
(or the automatic level is 0), a new object raises UnboundLocalError; with an empty batch axis it raises
RuntimeError. -/
theorem c50_errors {la : LinAlg ℝ} (hla : ExactLinAlg la) {w : Wavelet ℝ} {F : Nat} (hw : OrthBank w F)
    {x : Tensor ℝ} {axes : AxisHint} {mode : Option String} {orth : String} {level : Option Int}
    (hg : GoodAxes axes x.rank 2) (hdt : x.md.dtype = .float32 ∨ x.md.dtype = .float64)
    (hpos : ∀ k ∈ sizes (axesOf axes x.rank 2) x.shape, 0 < k)
    (ho : orth = "qr" ∨ orth = "gramschmidt") (hlev : ∀ l, level = some l → 1 ≤ l)
    (hind : ∀ k, k % 2 = 0 → F ≤ k → (∃ n ∈ sizes (axesOf axes x.rank 2) x.shape, k ≤ evenLen n) → BoundaryIndep w F k) :
    ∃ dcfg dst, decInitN 2 w level axes orth false mode = .ok (dcfg, dst) ∧
      ((∀ k ∈ x.shape, 0 < k) → mLevelsN F (levelsN level F (sizes (axesOf axes x.rank 2) x.shape))
        (sizes (axesOf axes x.rank 2) x.shape) = 0 →
        (decCallN 2 la dcfg dst x).1 = .error .unboundLocalError) ∧
      ((∃ k ∈ x.shape, k = 0) → (decCallN 2 la dcfg dst x).1 = .error .runtimeError) := by
  have h2 := hw.two_le
  have hdt' : isDtypeSupported x.md.dtype = true := by unfold isDtypeSupported; simpa using hdt
  obtain ⟨_, hgs, hax⟩ := goodAxes_list hg
  set ns := sizes (axesOf axes x.rank 2) x.shape with hns
  set N := sizeBound ns with hN
  obtain ⟨C, hC, hF, hO⟩ := boundary_family2 hla x.md hw ho (N := N)
    (fun k a b c => hind k a b (exists_of_le_sizeBound ns k (by omega) c))
  have hle := le_sizeBound ns
  have hsl : ns.length = 2 := sizes_len hg
  set cfg : DecCfgN ℝ := ⟨w, resolve axes 2, orth, mode, false⟩ with hcfg
  obtain ⟨y, ey, hy⟩ := preprocessTensor_ok hgs hdt'
  have hsh := hy.showsN
  rw [hax, ← hns] at hsh
  have hlen : cfg.wavelet.decLo.length = F := hw.len.1
  obtain ⟨lv, hlv, hprep⟩ := decPrepareN_fresh (la := la) (cfg := cfg) (md := x.md) (n := 2) (N := N) (Ms := mats2At C)
    (ns := ns) (st := ⟨level, none, [], [], false, []⟩) (by rw [hlen]; exact h2)
    (by rw [hlen]; exact decBuilds_nonsep rfl hC) hsl (by omega) hle hlev (fun _ => hpos) rfl
  have hcall : (decCallN 2 la cfg ⟨level, none, [], [], false, []⟩ x).1 =
      (mat2Nonsep mode (builtStateN (mats2At C) F lv (levelsN level F ns) ns) y).bind fun r =>
        postprocessCoeffs ⟨false, .tensor r.1 :: r.2.reverse⟩ 2
          (pick (batchAxes x.rank (axesOf (.seq (resolve axes 2)) x.rank 2) ++ axesOf (.seq (resolve axes 2)) x.rank 2) x.shape)
          (.seq cfg.axes) := by
    unfold decCallN
    have hts : y.shape.tail = ns := by rw [hsh.shape]; rfl
    rw [hlen] at hprep
    simp only [hcfg] at hprep ⊢
    simp only [ey, hsh.md, hts, hprep]
    rfl
  refine ⟨cfg, _, decInitN_ok hg ho hw.len.1 hw.len.2.2.1, ?_, ?_⟩
  · intro hp h0
    have hB : 1 ≤ batchOf (.seq (resolve axes 2)) 2 x := batchOf_pos hp
    unfold batchOf at hB
    rw [hax] at hB
    rw [hcall, mat2Nonsep_none hB hsl h0 hsh]
    rfl
  · rintro ⟨k, hk, rfl⟩
    have hB : prodL (pick (batchAxes x.rank (axesOf axes x.rank 2)) x.shape) = 0 := by
      have : ∀ l : List Nat, 0 ∈ l → prodL l = 0 := by
        intro l
        induction l with
        | nil => intro h; simp at h
        | cons a l ih =>
          intro h
          rw [prodL_cons]
          rcases List.mem_cons.mp h with rfl | h
          · simp
          · rw [ih h]; simp
      apply this
      obtain ⟨i, hi, hk⟩ := List.getElem_of_mem hk
      have hnot : i ∉ axesOf axes x.rank 2 := by
        intro hmem
        have := hpos (x.shape.getD i 0) (by rw [hns]; unfold sizes; exact List.mem_map.mpr ⟨i, hmem, rfl⟩)
        rw [List.getD_eq_getElem _ _ hi, hk] at this
        omega
      unfold pick
      refine List.mem_map.mpr ⟨i, ?_, by rw [List.getD_eq_getElem _ _ hi, hk]⟩
      unfold batchAxes
      rw [List.mem_filter]
      exact ⟨List.mem_range.mpr hi, by simpa using hnot⟩
    rw [hcall, mat2Nonsep_empty (by rw [hsh.shape]; exact hB)]
    rfl

/-! ### The hypotheses are met -/

/-- The four-tap bank on a 6×8 image. -/
example : ∃ la, ExactLinAlg la ∧ ∃ A S, constructBoundaryA2 la bank4 ⟨.float64, 0⟩ 6 8 "qr" = .ok A ∧
    constructBoundaryS2 la bank4 ⟨.float64, 0⟩ 6 8 "qr" = .ok S ∧ A.rows = 48 ∧ OrthonormalRows 48 A.den := by
  obtain ⟨la, hla⟩ := exists_exactLinAlg
  obtain ⟨A, S, h1, h2, _, h3, _, _, _, _, h4, _⟩ := c50_matrix hla ⟨.float64, 0⟩ bank4_orth (h := 6) (w := 8) rfl rfl
    (by omega) (by omega) (bank4_indep rfl (by omega)) (bank4_indep rfl (by omega)) (Or.inl rfl)
  exact ⟨la, hla, A, S, h1, h2, h3, h4⟩

/-- A batch of two images of sizes 9 and 7 (odd at both levels), transformed along the axes 2 and 0. -/
example : ∃ la, ExactLinAlg la ∧ ∃ dcfg dst rcfg rst c z,
    decInitN 2 bank4 (some 2) (.seq [2, -3]) "qr" false (some "zero") = .ok (dcfg, dst) ∧
    recInitN 2 bank4 (.seq [2, -3]) "qr" false = .ok (rcfg, rst) ∧
    (decCallN 2 la dcfg dst (Tensor.ofFn ⟨.float64, 0⟩ [7, 2, 9] fun i => (i.getD 1 0 : ℝ))).1 = .ok c ∧
    c.items.length = 3 ∧ (recCallN 2 la rcfg rst c).1 = .ok z ∧ z.shape = [8, 2, 10] := by
  obtain ⟨la, hla⟩ := exists_exactLinAlg
  obtain ⟨dcfg, dst, rcfg, rst, C, c, z, h1, h2, _, h3, h4, h5, h6, _⟩ := c50_roundtrip hla bank4_orth
    (x := Tensor.ofFn ⟨.float64, 0⟩ [7, 2, 9] fun i => (i.getD 1 0 : ℝ)) (axes := .seq [2, -3]) (m := .zero)
    (mode := some "zero") (orth := "qr") (level := some 2) exN_axes2 (Or.inr rfl)
    (by intro k hk; have : k = 7 ∨ k = 2 ∨ k = 9 := by simpa using hk
        omega) (Or.inl rfl) (Or.inl rfl)
    (by rintro _ ⟨⟩; norm_num) (fun k a b _ => bank4_indep a b) (L := 2) (by decide) (by omega)
  exact ⟨la, hla, dcfg, dst, rcfg, rst, c, z, h1, h2, h3, h4.length, h5, h6.shape (by omega)⟩

/-- An image of 3×9 pixels is too small for the four-tap bank. -/
example : ∃ la, ExactLinAlg la ∧ ∃ dcfg dst,
    decInitN 2 bank4 (some 1) .none "qr" false none = .ok (dcfg, dst) ∧
    (decCallN 2 la dcfg dst (Tensor.ofFn ⟨.float64, 0⟩ [3, 9] fun i => (i.getD 1 0 : ℝ))).1 = .error .unboundLocalError := by
  obtain ⟨la, hla⟩ := exists_exactLinAlg
  obtain ⟨dcfg, dst, h1, h2, _⟩ := c50_errors hla bank4_orth
    (x := Tensor.ofFn ⟨.float64, 0⟩ [3, 9] fun i => (i.getD 1 0 : ℝ)) (axes := .none)
    (mode := none) (orth := "qr") (level := some 1)
    ⟨by decide, rfl, ⟨by
      intro a ha
      have : a = -2 ∨ a = -1 := by simpa [resolve, List.range, List.range.loop] using ha
      rcases this with rfl | rfl <;> exact ⟨by decide, by decide⟩, by decide⟩⟩ (Or.inr rfl)
    (by decide) (Or.inl rfl) (by rintro _ ⟨⟩; norm_num) (fun k a b _ => bank4_indep a b)
  refine ⟨la, hla, dcfg, dst, h1, h2 ?_ (by decide)⟩
  intro k hk
  have : k = 3 ∨ k = 9 := by simpa using hk
  omega

/-- Non-separable objects whose matrices all exist. -/
example : ∃ la, ExactLinAlg la ∧ MatricesExist 2 la bank4 ⟨.float64, 0⟩ "qr" false ∧
    SynthesisMatricesExist 2 la bank4 ⟨.float64, 0⟩ "qr" false := by
  obtain ⟨la, hla⟩ := exists_exactLinAlg
  have key : ∀ p q, p % 2 = 0 → q % 2 = 0 → 4 ≤ p → 4 ≤ q → _ := fun p q h1 h2 h3 h4 =>
    c50_matrix hla ⟨.float64, 0⟩ bank4_orth (h := p) (w := q) h1 h2
    (by omega) (by omega) (bank4_indep h1 h3) (bank4_indep h2 h4) (Or.inl rfl : "qr" = "qr" ∨ "qr" = "gramschmidt")
  refine ⟨la, hla, Or.inr ⟨rfl, rfl, fun p q h1 h2 h3 h4 => ?_⟩, Or.inr ⟨rfl, rfl, fun p q h1 h2 h3 h4 => ?_⟩⟩
  · obtain ⟨A, S, e, _⟩ := key p q h1 h2 h3 h4
    exact ⟨A, e⟩
  · obtain ⟨A, S, _, e, _⟩ := key p q h1 h2 h3 h4
    exact ⟨S, e⟩

end Verif.Props
