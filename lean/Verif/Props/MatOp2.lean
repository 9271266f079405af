/-
Property C51: the operator matrices of the two-dimensional boundary-wavelet transforms
(`MatrixWavedec2.sparse_fwt_operator`, `MatrixWaverec2.sparse_ifwt_operator`,
src/ptwt/matmul_transform_2.py).
-/
import Verif.Lemmas.MatOp2Top
import Verif.Props.MatNonsep

namespace Verif.Props
open Tensor Spec

theorem fwtOp2_of_list {R : Type} [NonAssocSemiring R] {cfg : DecCfgN R} {st : DecStateN R} {A O : Coo R} {rest : List (Coo R)}
    (hs : cfg.separable = false) (hl : st.mats.flatten = A :: rest) (hp : rest ≠ [] → st.padded = false)
    (h : fwtOperatorLoop A rest = .ok O) : sparseFwtOperator2 cfg st = .ok O := by
  unfold sparseFwtOperator2
  rw [hs, hl]
  cases rest with
  | nil => exact h
  | cons B rest => simp [hp (by simp), h]

theorem ifwtOp2_of_list {R : Type} [NonAssocSemiring R] {cfg : RecCfgN R} {st : RecStateN R} {A O : Coo R} {rest : List (Coo R)}
    (hs : cfg.separable = false) (hl : st.mats.flatten.reverse = A :: rest) (hp : rest ≠ [] → st.padded = false)
    (h : ifwtOperatorLoop A rest = .ok O) : sparseIfwtOperator2 cfg st = .ok O := by
  unfold sparseIfwtOperator2
  rw [hs, hl]
  cases rest with
  | nil => exact h
  | cons B rest => simp [hp (by simp), h]

/-- **C51.** After one analysis with `separable=False` of an image of `p` by `q` pixels on `k` levels such
that no level is padded (a padded first level is allowed if it is the only one),
`sparse_fwt_operator` is a square matrix that maps every image of this size, extended to even sizes and
read column by column, to the coefficients of its transform, packed one after the other.  With more than
one level the number of pixels must be exactly representable in the dtype. -/
theorem c51_analysis_operator {la : LinAlg ℝ} (hla : ExactLinAlg la) {w : Wavelet ℝ} {F : Nat} (hw : OrthBank w F)
    {x : Tensor ℝ} {axes : AxisHint} {m : Mode} {mode : Option String} {orth : String} {level : Option Int}
    (hg : GoodAxes axes x.rank 2) (hdt : x.md.dtype = .float32 ∨ x.md.dtype = .float64)
    (hpos : ∀ k ∈ x.shape, 0 < k)
    (hm : Selects mode m) (ho : orth = "qr" ∨ orth = "gramschmidt") (hlev : ∀ l, level = some l → 1 ≤ l)
    {p q k : Nat} (hpq : sizes (axesOf axes x.rank 2) x.shape = [p, q])
    (hind : ∀ k, k % 2 = 0 → F ≤ k → (k ≤ evenLen p ∨ k ≤ evenLen q) → BoundaryIndep w F k)
    (hk : k = mLevelsN F (levelsN level F [p, q]) [p, q]) (hk1 : 1 ≤ k)
    (hp : k = 1 ∨ PadFreeN [p, q] k) (hb : 2 ≤ k → evenLen p * evenLen q ≤ 2 ^ mantissaBits x.md.dtype) :
    ∃ dcfg dst, ∃ C : Nat → Nat → Coo ℝ, ∃ c O,
      decInitN 2 w level axes orth false mode = .ok (dcfg, dst) ∧
      (∀ h v, h % 2 = 0 → v % 2 = 0 → F ≤ h → F ≤ v → h ≤ max (evenLen p) (evenLen q) → v ≤ max (evenLen p) (evenLen q) →
        constructBoundaryA2 la w x.md h v orth = .ok (C h v)) ∧
      (decCallN 2 la dcfg dst x).1 = .ok c ∧
      IsBandDwtN IsTuple (nonsepBand m fun h v => (C h v).den) (axesOf axes x.rank 2) k x c ∧
      sparseFwtOperator2 dcfg (decCallN 2 la dcfg dst x).2 = .ok O ∧ O.md = x.md ∧
      O.rows = evenLen p * evenLen q ∧ O.cols = evenLen p * evenLen q ∧
      ∀ X : List Nat → ℝ, Packed2 m (fun h v => (C h v).den) [p, q] X k
        (fun i => ∑ j ∈ Finset.range (evenLen p * evenLen q), O.den i j * flatEven m p q X j) := by
  have hind' : ∀ k, k % 2 = 0 → F ≤ k → (∃ n ∈ sizes (axesOf axes x.rank 2) x.shape, k ≤ evenLen n) →
      BoundaryIndep w F k := by
    rw [hpq]
    rintro k h1 h2 ⟨n, hn, hkn⟩
    have : n = p ∨ n = q := by simpa using hn
    rcases this with rfl | rfl
    · exact hind k h1 h2 (Or.inl hkn)
    · exact hind k h1 h2 (Or.inr hkn)
  obtain ⟨lv, C, c, z, i1, i2, hC, hO, hF, e1, hc, e2, -, -⟩ := nonsep_run hla hw hg hdt hpos hm ho hlev hind'
    (L := k) (by rw [hpq]; exact hk) hk1
  rw [hpq] at e1 hC hF
  have hle := le_sizeBound [p, q]
  obtain ⟨k', rfl⟩ : ∃ k', k = k' + 1 := ⟨k - 1, by omega⟩
  have hpe : PadFreeN [evenLen p, evenLen q] (k' + 1) := by
    rcases hp with h | h
    · intro s hs n hn
      have : s = 0 := by omega
      subst this
      rw [mLens_zero] at hn
      have : n = evenLen p ∨ n = evenLen q := by simpa using hn
      rcases this with rfl | rfl <;> exact evenLen_even _
    · obtain ⟨h1, h2⟩ := padFreeN_head h
      rw [evenLen_of_even h1, evenLen_of_even h2]
      exact h
  obtain ⟨A₀, rest, O, f1, f2, f3, f4, f5, f6, f7⟩ := fwtOp_ok (m := m) hF hle hk.symm hpe (fun h => hb (by omega))
  refine ⟨_, _, C, c, O, i1, ?_, by rw [e1], hc, ?_, f4, f5, f6, f7⟩
  · intro h v h1 h2 h3 h4 h5 h6
    have b1 := hle p (by simp)
    have b2 := hle q (by simp)
    exact hC h v h1 h2 h3 h4 (by omega) (by omega)
  · rw [e1]
    refine fwtOp2_of_list rfl f1 ?_ f3
    intro hne
    have h2 : k' ≠ 0 := by
      intro h0
      rw [h0, List.length_eq_zero_iff] at f2
      exact hne f2
    have hpf : PadFreeN [p, q] (k' + 1) := by
      rcases hp with h | h
      · omega
      · exact h
    show ((builtN matrixPadFlags F _ [p, q]).any fun p => p.any id) = false
    rw [padFlags_free, ← hk]
    exact hpf

/-- **C51.** After the synthesis of these coefficients, `sparse_ifwt_operator` is a square matrix that
maps the packed coefficients of any image of this size to the image (extended to even sizes, read column
by column).  Here only the levels after the first must not be padded. -/
theorem c51_synthesis_operator {la : LinAlg ℝ} (hla : ExactLinAlg la) {w : Wavelet ℝ} {F : Nat} (hw : OrthBank w F)
    {x : Tensor ℝ} {axes : AxisHint} {m : Mode} {mode : Option String} {orth : String} {level : Option Int}
    (hg : GoodAxes axes x.rank 2) (hdt : x.md.dtype = .float32 ∨ x.md.dtype = .float64)
    (hpos : ∀ k ∈ x.shape, 0 < k)
    (hm : Selects mode m) (ho : orth = "qr" ∨ orth = "gramschmidt") (hlev : ∀ l, level = some l → 1 ≤ l)
    {p q k : Nat} (hpq : sizes (axesOf axes x.rank 2) x.shape = [p, q])
    (hind : ∀ k, k % 2 = 0 → F ≤ k → (k ≤ evenLen p ∨ k ≤ evenLen q) → BoundaryIndep w F k)
    (hk : k = mLevelsN F (levelsN level F [p, q]) [p, q]) (hk1 : 1 ≤ k)
    (hp : PadFreeN [evenLen p, evenLen q] k) (hb : 2 ≤ k → evenLen p * evenLen q ≤ 2 ^ mantissaBits x.md.dtype) :
    ∃ dcfg dst rcfg rst, ∃ C : Nat → Nat → Coo ℝ, ∃ c O,
      decInitN 2 w level axes orth false mode = .ok (dcfg, dst) ∧ recInitN 2 w axes orth false = .ok (rcfg, rst) ∧
      (∀ h v, h % 2 = 0 → v % 2 = 0 → F ≤ h → F ≤ v → h ≤ max (evenLen p) (evenLen q) → v ≤ max (evenLen p) (evenLen q) →
        constructBoundaryA2 la w x.md h v orth = .ok (C h v)) ∧
      (decCallN 2 la dcfg dst x).1 = .ok c ∧
      sparseIfwtOperator2 rcfg (recCallN 2 la rcfg rst c).2 = .ok O ∧ O.md = x.md ∧
      O.rows = evenLen p * evenLen q ∧ O.cols = evenLen p * evenLen q ∧
      ∀ (X : List Nat → ℝ) (u : Nat → ℝ), Packed2 m (fun h v => (C h v).den) [p, q] X k u →
        ∀ i, i < evenLen p * evenLen q →
        (∑ j ∈ Finset.range (evenLen p * evenLen q), O.den i j * u j) = flatEven m p q X i := by
  have hind' : ∀ k, k % 2 = 0 → F ≤ k → (∃ n ∈ sizes (axesOf axes x.rank 2) x.shape, k ≤ evenLen n) →
      BoundaryIndep w F k := by
    rw [hpq]
    rintro k h1 h2 ⟨n, hn, hkn⟩
    have : n = p ∨ n = q := by simpa using hn
    rcases this with rfl | rfl
    · exact hind k h1 h2 (Or.inl hkn)
    · exact hind k h1 h2 (Or.inr hkn)
  obtain ⟨lv, C, c, z, i1, i2, hC, hO, hF, e1, hc, e2, -, -⟩ := nonsep_run hla hw hg hdt hpos hm ho hlev hind'
    (L := k) (by rw [hpq]; exact hk) hk1
  rw [hpq] at e2 hC hF hO
  have hle := le_sizeBound [p, q]
  obtain ⟨k', rfl⟩ : ∃ k', k = k' + 1 := ⟨k - 1, by omega⟩
  obtain ⟨A₀, rest, O, f1, f2, f3, f4, f5, f6, f7⟩ := ifwtOp_ok (m := m) hF hO hle hk.symm hp (fun h => hb (by omega))
  refine ⟨_, _, _, _, C, c, O, i1, i2, ?_, by rw [e1], ?_, f4, f5, f6, f7⟩
  · intro h v h1 h2 h3 h4 h5 h6
    have b1 := hle p (by simp)
    have b2 := hle q (by simp)
    exact hC h v h1 h2 h3 h4 (by omega) (by omega)
  · rw [e2]
    refine ifwtOp2_of_list rfl f1 ?_ f3
    intro _
    show ((builtN matrixPadFlags F _ [evenLen p, evenLen q]).any fun p => p.any id) = false
    rw [padFlags_free]
    intro s hs
    refine hp s (lt_of_lt_of_le hs ?_)
    exact mLevelsN_le _ _ _

/-- **C51.** There is no operator of a separable object (NotImplementedError); none before the first
call, or whenever there is no matrix (ValueError); none if there are several levels and one was padded
(NotImplementedError). -/
theorem c51_no_operator {R : Type} [NonAssocSemiring R] (cfg : DecCfgN R) (rcfg : RecCfgN R) (st : DecStateN R)
    (rst : RecStateN R) :
    (cfg.separable = true → sparseFwtOperator2 cfg st = .error .notImplementedError) ∧
    (cfg.separable = false → st.mats = [] → sparseFwtOperator2 cfg st = .error .valueError) ∧
    (cfg.separable = false → 2 ≤ st.mats.flatten.length → st.padded = true →
      sparseFwtOperator2 cfg st = .error .notImplementedError) ∧
    (rcfg.separable = true → sparseIfwtOperator2 rcfg rst = .error .notImplementedError) ∧
    (rcfg.separable = false → rst.mats = [] → sparseIfwtOperator2 rcfg rst = .error .valueError) ∧
    (rcfg.separable = false → 2 ≤ rst.mats.flatten.length → rst.padded = true →
      sparseIfwtOperator2 rcfg rst = .error .notImplementedError) := by
  unfold sparseFwtOperator2 sparseIfwtOperator2
  refine ⟨fun h => by rw [h]; rfl, fun h h' => by rw [h, h']; rfl, fun h hl hp => ?_,
    fun h => by rw [h]; rfl, fun h h' => by rw [h, h']; rfl, fun h hl hp => ?_⟩
  · match hm : st.mats.flatten with
    | [] => rw [hm] at hl; simp at hl
    | [_] => rw [hm] at hl; simp at hl
    | _ :: _ :: _ => simp [hp, h]
  · have h' : 2 ≤ rst.mats.flatten.reverse.length := by rw [List.length_reverse]; exact hl
    match hm : rst.mats.flatten.reverse with
    | [] => rw [hm] at h'; simp at h'
    | [_] => rw [hm] at h'; simp at h'
    | _ :: _ :: _ => simp [hp, h]

/-- **C51.** With several levels and a padded level the objects really are in the state without an
operator: after the analysis, if one of the levels is odd; after the synthesis, if one of the levels
after the first is odd. -/
theorem c51_padded {la : LinAlg ℝ} (hla : ExactLinAlg la) {w : Wavelet ℝ} {F : Nat} (hw : OrthBank w F)
    {x : Tensor ℝ} {axes : AxisHint} {m : Mode} {mode : Option String} {orth : String} {level : Option Int}
    (hg : GoodAxes axes x.rank 2) (hdt : x.md.dtype = .float32 ∨ x.md.dtype = .float64)
    (hpos : ∀ k ∈ x.shape, 0 < k)
    (hm : Selects mode m) (ho : orth = "qr" ∨ orth = "gramschmidt") (hlev : ∀ l, level = some l → 1 ≤ l)
    {p q k : Nat} (hpq : sizes (axesOf axes x.rank 2) x.shape = [p, q])
    (hind : ∀ k, k % 2 = 0 → F ≤ k → (k ≤ evenLen p ∨ k ≤ evenLen q) → BoundaryIndep w F k)
    (hk : k = mLevelsN F (levelsN level F [p, q]) [p, q]) (hk2 : 2 ≤ k) :
    ∃ dcfg dst rcfg rst c,
      decInitN 2 w level axes orth false mode = .ok (dcfg, dst) ∧ recInitN 2 w axes orth false = .ok (rcfg, rst) ∧
      (decCallN 2 la dcfg dst x).1 = .ok c ∧
      (¬ PadFreeN [p, q] k → sparseFwtOperator2 dcfg (decCallN 2 la dcfg dst x).2 = .error .notImplementedError) ∧
      (¬ PadFreeN [evenLen p, evenLen q] k →
        sparseIfwtOperator2 rcfg (recCallN 2 la rcfg rst c).2 = .error .notImplementedError) := by
  have hind' : ∀ k, k % 2 = 0 → F ≤ k → (∃ n ∈ sizes (axesOf axes x.rank 2) x.shape, k ≤ evenLen n) →
      BoundaryIndep w F k := by
    rw [hpq]
    rintro k h1 h2 ⟨n, hn, hkn⟩
    have : n = p ∨ n = q := by simpa using hn
    rcases this with rfl | rfl
    · exact hind k h1 h2 (Or.inl hkn)
    · exact hind k h1 h2 (Or.inr hkn)
  obtain ⟨lv, C, c, z, i1, i2, hC, hO, hF, e1, hc, e2, -, -⟩ := nonsep_run hla hw hg hdt hpos hm ho hlev hind'
    (L := k) (by rw [hpq]; exact hk) (by omega)
  rw [hpq] at e1 e2
  refine ⟨_, _, _, _, c, i1, i2, by rw [e1], ?_, ?_⟩
  · intro hp
    rw [e1]
    refine (c51_no_operator _ ⟨w, resolve axes 2, orth, false⟩ _ ⟨none, none, [], false⟩).2.2.1 rfl ?_ ?_
    · show 2 ≤ (flatMats C F _ [p, q]).length
      rw [flatMats_length (by rfl), ← hk]
      exact hk2
    · show ((builtN matrixPadFlags F _ [p, q]).any fun p => p.any id) = true
      rw [← Bool.not_eq_false, padFlags_free, ← hk]
      exact hp
  · intro hp
    rw [e2]
    refine (c51_no_operator ⟨w, resolve axes 2, orth, mode, false⟩ _ ⟨level, none, [], [], false, []⟩ _).2.2.2.2.2 rfl ?_ ?_
    · show 2 ≤ (flatMats (fun p q => (C p q).transpose) F _ [p, q]).length
      rw [flatMats_length (by rfl), ← hk]
      exact hk2
    · show ((builtN matrixPadFlags F _ [evenLen p, evenLen q]).any fun p => p.any id) = true
      rw [← Bool.not_eq_false, padFlags_free]
      have h1 : mLevelsN F k [p, q] = k := by
        have h := builtN_levels (fun _ => ()) F (levelsN level F [p, q]) [p, q]
        have := congrArg List.length h
        rw [builtN_length, builtN_length] at this
        rw [← hk] at this
        exact this
      rw [mLevelsN_even' (by omega), h1]
      exact hp

/-! ### The hypotheses are met -/

theorem ex51_axes : GoodAxes (.none) 2 2 := ⟨by decide, rfl, ⟨by
      intro a ha
      have : a = -2 ∨ a = -1 := by simpa [resolve, List.range, List.range.loop] using ha
      rcases this with rfl | rfl <;> exact ⟨by decide, by decide⟩, by decide⟩⟩

/-- Two levels on an image of 12 by 16 pixels. -/
example : ∃ la, ExactLinAlg la ∧ ∃ dcfg dst O,
    decInitN 2 bank4 (some 2) .none "qr" false none = .ok (dcfg, dst) ∧
    sparseFwtOperator2 dcfg (decCallN 2 la dcfg dst (Tensor.ofFn ⟨.float32, 0⟩ [12, 16] fun i => (i.getD 1 0 : ℝ))).2 = .ok O ∧
    O.rows = 192 := by
  obtain ⟨la, hla⟩ := exists_exactLinAlg
  obtain ⟨dcfg, dst, C, c, O, h1, _, h2, _, h3, _, h4, _⟩ := c51_analysis_operator hla bank4_orth
    (x := Tensor.ofFn ⟨.float32, 0⟩ [12, 16] fun i => (i.getD 1 0 : ℝ)) (axes := .none) (m := .reflect)
    (mode := none) (orth := "qr") (level := some 2) ex51_axes (Or.inl rfl)
    (by intro k hk; have : k = 12 ∨ k = 16 := by simpa using hk
        omega) (Or.inr ⟨rfl, rfl⟩) (Or.inl rfl) (by rintro _ ⟨⟩; norm_num) (p := 12) (q := 16) (k := 2) rfl
    (fun k a b _ => bank4_indep a b) (by decide) (by omega)
    (Or.inr (by
      intro s hs n hn
      have : s = 0 ∨ s = 1 := by omega
      rcases this with rfl | rfl
      · have : n = 12 ∨ n = 16 := by simpa [mLens, mLen] using hn
        omega
      · have : n = 6 ∨ n = 8 := by simpa [mLens, mLen, evenLen] using hn
        omega)) (fun _ => by decide)
  exact ⟨la, hla, dcfg, dst, O, h1, h3, h4⟩

/-- Two levels on an image of 11 by 16 pixels: an operator of the synthesis object only. -/
example : ∃ la, ExactLinAlg la ∧ ∃ dcfg dst rcfg rst c O,
    decInitN 2 bank4 (some 2) .none "qr" false none = .ok (dcfg, dst) ∧ recInitN 2 bank4 .none "qr" false = .ok (rcfg, rst) ∧
    (decCallN 2 la dcfg dst (Tensor.ofFn ⟨.float32, 0⟩ [11, 16] fun i => (i.getD 1 0 : ℝ))).1 = .ok c ∧
    sparseIfwtOperator2 rcfg (recCallN 2 la rcfg rst c).2 = .ok O ∧ O.rows = 192 := by
  obtain ⟨la, hla⟩ := exists_exactLinAlg
  obtain ⟨dcfg, dst, rcfg, rst, C, c, O, h1, h2, _, h3, h4, _, h5, _⟩ := c51_synthesis_operator hla bank4_orth
    (x := Tensor.ofFn ⟨.float32, 0⟩ [11, 16] fun i => (i.getD 1 0 : ℝ)) (axes := .none) (m := .reflect)
    (mode := none) (orth := "qr") (level := some 2) ex51_axes (Or.inl rfl)
    (by intro k hk; have : k = 11 ∨ k = 16 := by simpa using hk
        omega) (Or.inr ⟨rfl, rfl⟩) (Or.inl rfl) (by rintro _ ⟨⟩; norm_num) (p := 11) (q := 16) (k := 2) rfl
    (fun k a b _ => bank4_indep a b) (by decide) (by omega)
    (by
      intro s hs n hn
      have : s = 0 ∨ s = 1 := by omega
      rcases this with rfl | rfl
      · have : n = 12 ∨ n = 16 := by simpa [mLens, mLen, evenLen] using hn
        omega
      · have : n = 6 ∨ n = 8 := by simpa [mLens, mLen, evenLen] using hn
        omega) (fun _ => by decide)
  exact ⟨la, hla, dcfg, dst, rcfg, rst, c, O, h1, h2, h3, h4, h5⟩

example : ∃ la, ExactLinAlg la ∧ ∃ dcfg dst,
    decInitN 2 bank4 (some 2) .none "qr" false none = .ok (dcfg, dst) ∧
    sparseFwtOperator2 dcfg (decCallN 2 la dcfg dst (Tensor.ofFn ⟨.float32, 0⟩ [11, 16] fun i => (i.getD 1 0 : ℝ))).2 =
      .error .notImplementedError := by
  obtain ⟨la, hla⟩ := exists_exactLinAlg
  obtain ⟨dcfg, dst, rcfg, rst, c, h1, _, _, h2, _⟩ := c51_padded hla bank4_orth
    (x := Tensor.ofFn ⟨.float32, 0⟩ [11, 16] fun i => (i.getD 1 0 : ℝ)) (axes := .none) (m := .reflect)
    (mode := none) (orth := "qr") (level := some 2) ex51_axes (Or.inl rfl)
    (by intro k hk; have : k = 11 ∨ k = 16 := by simpa using hk
        omega) (Or.inr ⟨rfl, rfl⟩) (Or.inl rfl) (by rintro _ ⟨⟩; norm_num) (p := 11) (q := 16) (k := 2) rfl
    (fun k a b _ => bank4_indep a b) (by decide) (by omega)
  refine ⟨la, hla, dcfg, dst, h1, h2 ?_⟩
  intro h
  have := h 0 (by omega) 11 (by simp [mLens, mLen])
  omega

end Verif.Props
