/-
C61 for the boundary-matrix transforms and the continuous transform: every line (plane, box) is transformed on its own.
-/
import Verif.Props.Slice
import Verif.Props.Mat1
import Verif.Props.MatN
import Verif.Props.MatNonsep
import Verif.Props.Cwt
import Verif.Lemmas.PacketMatFun
import Verif.Lemmas.EnergyPacket
import Verif.Lemmas.Mat1Op

namespace Verif.Props
open Tensor Spec

section
variable {R : Type} [NonUnitalNonAssocSemiring R] {m : Mode}

theorem mA_congrA {A A' : Nat → Nat → Nat → R} : ∀ (s n : Nat) (v : Nat → R),
    (∀ t, t < s → A (evenLen (mLen n t)) = A' (evenLen (mLen n t))) → mA m A n v s = mA m A' n v s
  | 0, _, _, _ => rfl
  | s + 1, n, v, h => by
    have h0 : A (evenLen n) = A' (evenLen n) := h 0 (by omega)
    have e : stepLo m A n v = stepLo m A' n v := by unfold stepLo; rw [h0]
    show mA m A (evenLen n / 2) (stepLo m A n v) s = mA m A' (evenLen n / 2) (stepLo m A' n v) s
    rw [e]
    exact mA_congrA s _ _ fun t ht => h (t + 1) (by omega)

theorem mD_congrA {A A' : Nat → Nat → Nat → R} : ∀ (s n : Nat) (v : Nat → R),
    (∀ t, t ≤ s → A (evenLen (mLen n t)) = A' (evenLen (mLen n t))) → mD m A n v s = mD m A' n v s
  | 0, n, v, h => by
    have h0 : A (evenLen n) = A' (evenLen n) := h 0 le_rfl
    show stepHi m A n v = stepHi m A' n v
    funext i
    unfold stepHi; rw [h0]
  | s + 1, n, v, h => by
    have h0 : A (evenLen n) = A' (evenLen n) := h 0 (by omega)
    have e : stepLo m A n v = stepLo m A' n v := by unfold stepLo; rw [h0]
    show mD m A (evenLen n / 2) (stepLo m A n v) s = mD m A' (evenLen n / 2) (stepLo m A' n v) s
    rw [e]
    exact mD_congrA s _ _ fun t ht => h (t + 1) (by omega)

theorem isMatDwt_congrA {A A' : Nat → Nat → Nat → R} {a L : Nat} {x : Tensor R} {cs : List (Tensor R)}
    (h : ∀ t, t < L → A (evenLen (mLen (x.shape.getD a 0) t)) = A' (evenLen (mLen (x.shape.getD a 0) t)))
    (hc : IsMatDwt m A a L x cs) : IsMatDwt m A' a L x cs := by
  refine ⟨hc.length, fun t ht => ?_, fun s d hs hd => ?_⟩
  · have := hc.approx t ht
    simpa only [mA_congrA (m := m) L (x.shape.getD a 0) _ h] using this
  · have := hc.detail s d hs hd
    simpa only [mD_congrA (m := m) s (x.shape.getD a 0) _ fun t ht => h t (by omega)] using this

theorem matBand_congrA' {A A' : Nat → Nat → Nat → R} : ∀ (bs : List Bool) (ns : List Nat) (X : List Nat → R) (ks : List Nat),
    (∀ n ∈ ns, A (evenLen n) = A' (evenLen n)) → matBand m A bs ns X ks = matBand m A' bs ns X ks
  | [], _, _, _, _ => rfl
  | _ :: _, [], _, _, _ => rfl
  | _ :: _, _ :: _, _, [], _ => rfl
  | b :: bs, n :: ns, X, k :: ks, h => by
    have h0 : A (evenLen n) = A' (evenLen n) := h n (by simp)
    have ih : ∀ j, matBand m A bs ns (fun js => X (j :: js)) ks = matBand m A' bs ns (fun js => X (j :: js)) ks :=
      fun j => matBand_congrA' bs ns _ ks fun q hq => h q (by simp [hq])
    unfold matBand
    simp only [ih]
    cases b
    · simp only [Bool.false_eq_true, if_false, stepLo, h0]
    · simp only [if_true, stepHi, h0]

end

section
variable {R : Type} [Zero R]

theorem bandA_congr {band band' : BandStep R} : ∀ (s : Nat) (ns : List Nat) (X : List Nat → R),
    (∀ t, t < s → ∀ bs X, band bs (mLens ns t) X = band' bs (mLens ns t) X) → bandA band ns X s = bandA band' ns X s
  | 0, _, _, _ => rfl
  | s + 1, ns, X, h => by
    have h0 := h 0 (by omega) (lowBand ns.length) X
    rw [mLens_zero] at h0
    show bandA band (halfLens ns) (band _ ns X) s = bandA band' (halfLens ns) (band' _ ns X) s
    rw [h0]
    exact bandA_congr s _ _ fun t ht => by rw [← mLens_succ]; exact h (t + 1) (by omega)

theorem bandD_congr {band band' : BandStep R} : ∀ (s : Nat) (ns : List Nat) (X : List Nat → R) (bs : List Bool),
    (∀ t, t ≤ s → ∀ bs X, band bs (mLens ns t) X = band' bs (mLens ns t) X) → bandD band ns X s bs = bandD band' ns X s bs
  | 0, ns, X, bs, h => by
    have := h 0 le_rfl bs X
    rwa [mLens_zero] at this
  | s + 1, ns, X, bs, h => by
    have h0 := h 0 (by omega) (lowBand ns.length) X
    rw [mLens_zero] at h0
    show bandD band (halfLens ns) (band _ ns X) s bs = bandD band' (halfLens ns) (band' _ ns X) s bs
    rw [h0]
    exact bandD_congr s _ _ _ fun t ht => by rw [← mLens_succ]; exact h (t + 1) (by omega)

/-- Coefficients of equal planes are equal planes. -/
theorem isBandDwtN_slice {R : Type} [NonUnitalNonAssocSemiring R]
    {D : (List Bool → Tensor R → Prop) → Entry R → Prop} (hD : SliceKind D) {band band' : BandStep R}
    {ax ax' idx idx' : List Nat} {L : Nat} {x x' : Tensor R} {c c' : Coeffs R}
    (hn : ax.Nodup) (hn' : ax'.Nodup) (hlt : ∀ a ∈ ax, a < x.rank) (hlt' : ∀ a ∈ ax', a < x'.rank)
    (ha : At x ax idx) (ha' : At x' ax' idx') (hx : SamePlane ax ax' idx idx' x x')
    (hb : ∀ t, t < L → ∀ bs X, band bs (mLens (sizes ax x.shape) t) X = band' bs (mLens (sizes ax x.shape) t) X)
    (h : IsBandDwtN D band ax L x c) (h' : IsBandDwtN D band' ax' L x' c') :
    SameCoeffs (SamePlane ax ax' idx idx') c c' := by
  have hml : ∀ s, (mLens (sizes ax x.shape) s).length = ax.length := fun s => by simp [mLens, sizes]
  refine ⟨h.kind.trans h'.kind.symm, forall₂_of_getElem? (h.length.trans h'.length.symm) fun i e e' he he' => ?_⟩
  have hi : i < L + 1 := by
    rw [← h.length]
    exact (List.getElem?_eq_some_iff.mp he).1
  rcases Nat.eq_zero_or_pos i with rfl | h0
  · obtain ⟨t, e1, e2⟩ := h.approx
    obtain ⟨t', e1', e2'⟩ := h'.approx
    rw [e1] at he; rw [e1'] at he'
    cases he; cases he'
    rw [← hx.sizes] at e2'
    have q : (fun X => bandA band' (sizes ax x.shape) X L) = fun X => bandA band (sizes ax x.shape) X L := by
      funext X
      exact (bandA_congr L _ X hb).symm
    rw [q] at e2'
    exact .tensor (samePlane_along hn hn' hlt hlt' ha ha' (hml L) hx e2 e2')
  · obtain ⟨d, e1, e2⟩ := h.detail (L - i) (by omega)
    obtain ⟨d', e1', e2'⟩ := h'.detail (L - i) (by omega)
    rw [show L - (L - i) = i by omega] at e1 e1'
    rw [e1] at he; rw [e1'] at he'
    cases he; cases he'
    refine hD _ _ _ (fun bs t t' p p' => ?_) _ _ e2 e2'
    rw [← hx.sizes] at p'
    have q : (fun X => bandD band' (sizes ax x.shape) X (L - i) bs) = fun X => bandD band (sizes ax x.shape) X (L - i) bs := by
      funext X
      exact (bandD_congr (L - i) _ X bs fun t ht => hb t (by omega)).symm
    simp only [q] at p'
    exact samePlane_along hn hn' hlt hlt' ha ha' (hml _) hx p p'

end

theorem sliceKind_swapped {R : Type} [NonUnitalNonAssocSemiring R] : SliceKind (R := R) IsTupleSwapped := by
  rintro P P' Q h e e' ⟨a, b, c, rfl, h1, h2, h3⟩ ⟨a', b', c', rfl, h1', h2', h3'⟩
  exact .tuple (h _ _ _ h1 h1') (h _ _ _ h2 h2') (h _ _ _ h3 h3')

/-- **C61.** `MatrixWavedec`: two new objects, on tensors of the same dtype and device. -/
theorem c61_matrix {la : LinAlg ℝ} (hla : ExactLinAlg la) {w : Wavelet ℝ} {F : Nat} (hw : OrthBank w F)
    {x x' : Tensor ℝ} {axis axis' : AxisHint} {m : Mode} {mode : Option String} {orth : String} {level : Option Int}
    (hg : GoodAxes axis x.rank 1) (hg' : GoodAxes axis' x'.rank 1)
    (hdt : x.md.dtype = .float32 ∨ x.md.dtype = .float64) (hmd : x.md = x'.md)
    (hm : Selects mode m) (ho : orth = "qr" ∨ orth = "gramschmidt") (hlev : ∀ l, level = some l → 1 ≤ l)
    (hne : level = none → 0 < x.shape.getD (axis1 axis x.rank) 0)
    (hfit : x.shape.getD (axis1 axis x.rank) 0 % 2 = 1 → Fits m (x.shape.getD (axis1 axis x.rank) 0) 0 1)
    (hind : ∀ k, k % 2 = 0 → F ≤ k → k ≤ evenLen (x.shape.getD (axis1 axis x.rank) 0) → BoundaryIndep w F k)
    (idx idx' : List Nat) (ha : At x (axesOf axis x.rank 1) idx) (ha' : At x' (axesOf axis' x'.rank 1) idx')
    (hx : SamePlane (axesOf axis x.rank 1) (axesOf axis' x'.rank 1) idx idx' x x') :
    ∃ dcfg dst dcfg' dst' cs cs',
      decInit w level axis orth mode = .ok (dcfg, dst) ∧ decInit w level axis' orth mode = .ok (dcfg', dst') ∧
      (decCall la dcfg dst x).1 = .ok cs ∧ (decCall la dcfg' dst' x').1 = .ok cs' ∧
      List.Forall₂ (SamePlane (axesOf axis x.rank 1) (axesOf axis' x'.rank 1) idx idx') cs cs' := by
  have hn : x.shape.getD (axis1 axis x.rank) 0 = x'.shape.getD (axis1 axis' x'.rank) 0 := by
    have := hx.sizes
    rw [axesOf_one hg, axesOf_one hg'] at this
    simpa [sizes] using this
  obtain ⟨dcfg, dst, -, -, C, y, cs, i1, -, hC, hy, hok, hcs, -⟩ := c40_roundtrip hla hw hg hdt hm ho hlev hne hfit hind
  obtain ⟨dcfg', dst', -, -, C', y', cs', i1', -, hC', hy', hok', hcs', -⟩ :=
    c40_roundtrip hla hw (x := x') (axis := axis') (m := m) (mode := mode) (orth := orth) (level := level) hg'
      (by rw [← hmd]; exact hdt) hm ho hlev (by rw [← hn]; exact hne) (by rw [← hn]; exact hfit) (by rw [← hn]; exact hind)
  rw [← hn] at hcs' hC'
  refine ⟨dcfg, dst, dcfg', dst', cs, cs', i1, i1', hok, hok', ?_⟩
  rw [axesOf_one hg] at ha hx ⊢
  rw [axesOf_one hg'] at ha' hx ⊢
  have hlt := axis1_lt hg
  have hlt' := axis1_lt hg'
  have py := evenPadded_along hlt hy
  have py' := evenPadded_along hlt' hy'
  set a := axis1 axis x.rank with hadef
  set a' := axis1 axis' x'.rank with hadef'
  set n := x.shape.getD a 0 with hndef
  rw [← hn] at py'
  set K := mLevels F (levels level F (evenLen n)) (evenLen n) with hK
  have hyr : y.rank = x.rank := by rw [Tensor.rank, py.shape, List.length_set]; rfl
  have hyr' : y'.rank = x'.rank := by rw [Tensor.rank, py'.shape, List.length_set]; rfl
  have hyn : y.shape.getD a 0 = evenLen n := by
    rw [py.shape]
    have : a < x.shape.length := hlt
    simp [List.getD_eq_getElem?_getD, this]
  have hyn' : y'.shape.getD a' 0 = evenLen n := by
    rw [py'.shape]
    have : a' < x'.shape.length := hlt'
    simp [List.getD_eq_getElem?_getD, this]
  have hsy : SamePlane [a] [a'] idx idx' y y' := by
    have p := alongAxes_of_axis py
    have p' := alongAxes_of_axis py'
    exact samePlane_along (Ks := [evenLen n]) (by simp) (by simp) (by simpa using hlt) (by simpa using hlt') ha ha' rfl hx p p'
  have hay : At y [a] idx := (ha.atS (Ks := [n]) (S := x.shape) (by
    show x.shape = x.shape.set a n
    exact (set_getD_self hlt).symm)).at (Ks := [evenLen n]) py.shape
  have hay' : At y' [a'] idx' := (ha'.atS (Ks := [n]) (S := x'.shape) (by
    show x'.shape = x'.shape.set a' n
    rw [hn]
    exact (set_getD_self hlt').symm)).at (Ks := [evenLen n]) py'.shape
  have hAA : ∀ t, t < K → (fun k => (C' k).den) (evenLen (mLen (evenLen n) t)) = (fun k => (C k).den) (evenLen (mLen (evenLen n) t)) := by
    intro t ht
    have q1 := mLevels_ge _ _ _ ht
    have q2 := evenLen_mLen_le (evenLen n) t
    rw [evenLen_of_even (evenLen_even n)] at q2
    have q3 : F ≤ evenLen (mLen (evenLen n) t) := le_trans q1 (by unfold evenLen; omega)
    have e1 := hC _ (evenLen_even _) q3 q2
    have e2 := hC' _ (evenLen_even _) q3 q2
    rw [← hmd, e1] at e2
    show (C' _).den = (C _).den
    rw [Except.ok.inj e2]
  have hcs2 := isMatDwt_congrA (A' := fun k => (C k).den) (by rw [hyn']; exact hAA) hcs'
  refine forall₂_of_getElem? (hcs.length.trans hcs2.length.symm) fun i t t' ht ht' => ?_
  have hi : i < K + 1 := by
    rw [← hcs.length]
    exact (List.getElem?_eq_some_iff.mp ht).1
  have l1 : ∀ b ∈ [a], b < y.rank := by simpa [hyr] using hlt
  have l2 : ∀ b ∈ [a'], b < y'.rank := by simpa [hyr'] using hlt'
  rcases Nat.eq_zero_or_pos i with rfl | h0
  · have p := alongAxes_of_axis (hcs.approx t ht)
    have p' := alongAxes_of_axis (hcs2.approx t' ht')
    rw [hyn] at p
    rw [hyn'] at p'
    exact samePlane_along (Ks := [mLen (evenLen n) K]) (by simp) (by simp) l1 l2 hay hay' rfl hsy p p'
  · have p := alongAxes_of_axis (hcs.detail (K - i) t (by omega) (by rw [show K - (K - i) = i by omega]; exact ht))
    have p' := alongAxes_of_axis (hcs2.detail (K - i) t' (by omega) (by rw [show K - (K - i) = i by omega]; exact ht'))
    rw [hyn] at p
    rw [hyn'] at p'
    exact samePlane_along (Ks := [mLen (evenLen n) (K - i + 1)]) (by simp) (by simp) l1 l2 hay hay' rfl hsy p p'

theorem band_agree {la : LinAlg ℝ} {w : Wavelet ℝ} {F L L0 : Nat} {orth : String} {md : Meta} {ns : List Nat}
    {C C' : Nat → Coo ℝ} {m : Mode} (hL : L = mLevelsN F L0 ns)
    (hC : ∀ k, k % 2 = 0 → F ≤ k → (∃ n ∈ ns, k ≤ evenLen n) →
      constructBoundaryA la w md k orth = .ok (C k) ∧ OrthonormalCols k (C k).den)
    (hC' : ∀ k, k % 2 = 0 → F ≤ k → (∃ n ∈ ns, k ≤ evenLen n) →
      constructBoundaryA la w md k orth = .ok (C' k) ∧ OrthonormalCols k (C' k).den) :
    ∀ t, t < L → ∀ bs X, matBand m (fun k => (C k).den) bs (mLens ns t) X
      = matBand m (fun k => (C' k).den) bs (mLens ns t) X := by
  intro t ht bs X
  funext ks
  refine matBand_congrA' bs _ X ks fun n hn => ?_
  have q1 := mLevelsN_ge F L0 ns t (by rw [← hL]; exact ht) n hn
  have q3 : F ≤ evenLen n := le_trans q1 (by unfold evenLen; omega)
  have e1 := (hC _ (evenLen_even _) q3 (mLens_even_bound hn)).1
  have e2 := (hC' _ (evenLen_even _) q3 (mLens_even_bound hn)).1
  rw [e1] at e2
  show (C _).den = (C' _).den
  rw [Except.ok.inj e2]

/-- **C61.** `MatrixWavedec2` with `separable=True`. -/
theorem c61_matrix2 {la : LinAlg ℝ} (hla : ExactLinAlg la) {w : Wavelet ℝ} {F : Nat} (hw : OrthBank w F)
    {x x' : Tensor ℝ} {axes axes' : AxisHint} {m : Mode} {mode : Option String} {orth : String} {level : Option Int}
    (hg : GoodAxes axes x.rank 2) (hg' : GoodAxes axes' x'.rank 2)
    (hdt : x.md.dtype = .float32 ∨ x.md.dtype = .float64) (hmd : x.md = x'.md)
    (hpos : ∀ k ∈ x.shape, 0 < k) (hpos' : ∀ k ∈ x'.shape, 0 < k)
    (hm : Selects mode m) (ho : orth = "qr" ∨ orth = "gramschmidt") (hlev : ∀ l, level = some l → 1 ≤ l)
    (hind : ∀ k, k % 2 = 0 → F ≤ k → (∃ n ∈ sizes (axesOf axes x.rank 2) x.shape, k ≤ evenLen n) → BoundaryIndep w F k)
    (idx idx' : List Nat) (ha : At x (axesOf axes x.rank 2) idx) (ha' : At x' (axesOf axes' x'.rank 2) idx')
    (hx : SamePlane (axesOf axes x.rank 2) (axesOf axes' x'.rank 2) idx idx' x x') :
    ∃ dcfg dst dcfg' dst' c c',
      decInitN 2 w level axes orth true mode = .ok (dcfg, dst) ∧ decInitN 2 w level axes' orth true mode = .ok (dcfg', dst') ∧
      (decCallN 2 la dcfg dst x).1 = .ok c ∧ (decCallN 2 la dcfg' dst' x').1 = .ok c' ∧
      SameCoeffs (SamePlane (axesOf axes x.rank 2) (axesOf axes' x'.rank 2) idx idx') c c' := by
  obtain ⟨dcfg, dst, -, -, C, c, -, i1, -, hC, hok, hc, -⟩ := c43_roundtrip2 hla hw hg hdt hpos hm ho hlev hind rfl
  obtain ⟨dcfg', dst', -, -, C', c', -, i1', -, hC', hok', hc', -⟩ :=
    c43_roundtrip2 hla hw (x := x') (axes := axes') (m := m) (mode := mode) (orth := orth) (level := level) hg'
      (by rw [← hmd]; exact hdt) hpos' hm ho hlev (by rw [← hx.sizes]; exact hind) rfl
  rw [← hx.sizes] at hC' hc'
  rw [← hmd] at hC'
  exact ⟨dcfg, dst, dcfg', dst', c, c', i1, i1', hok, hok', isBandDwtN_slice sliceKind_swapped hg.nodup hg'.nodup hg.lt hg'.lt
    ha ha' hx (band_agree rfl hC hC') hc hc'⟩

/-- **C61.** `MatrixWavedec3`. -/
theorem c61_matrix3 {la : LinAlg ℝ} (hla : ExactLinAlg la) {w : Wavelet ℝ} {F : Nat} (hw : OrthBank w F)
    {x x' : Tensor ℝ} {axes axes' : AxisHint} {m : Mode} {mode : Option String} {orth : String} {level : Option Int}
    (hg : GoodAxes axes x.rank 3) (hg' : GoodAxes axes' x'.rank 3)
    (hdt : x.md.dtype = .float32 ∨ x.md.dtype = .float64) (hmd : x.md = x'.md)
    (hm : Selects mode m) (ho : orth = "qr" ∨ orth = "gramschmidt") (hlev : ∀ l, level = some l → 1 ≤ l)
    (hne : level = none → ∀ k ∈ sizes (axesOf axes x.rank 3) x.shape, 0 < k)
    (hind : ∀ k, k % 2 = 0 → F ≤ k → (∃ n ∈ sizes (axesOf axes x.rank 3) x.shape, k ≤ evenLen n) → BoundaryIndep w F k)
    (idx idx' : List Nat) (ha : At x (axesOf axes x.rank 3) idx) (ha' : At x' (axesOf axes' x'.rank 3) idx')
    (hx : SamePlane (axesOf axes x.rank 3) (axesOf axes' x'.rank 3) idx idx' x x') :
    ∃ dcfg dst dcfg' dst' c c',
      decInitN 3 w level axes orth true mode = .ok (dcfg, dst) ∧ decInitN 3 w level axes' orth true mode = .ok (dcfg', dst') ∧
      (decCallN 3 la dcfg dst x).1 = .ok c ∧ (decCallN 3 la dcfg' dst' x').1 = .ok c' ∧
      SameCoeffs (SamePlane (axesOf axes x.rank 3) (axesOf axes' x'.rank 3) idx idx') c c' := by
  obtain ⟨dcfg, dst, -, -, C, c, i1, -, hC, hok, hc, -⟩ := c43_roundtrip3 hla hw hg hdt hm ho hlev hne hind rfl
  obtain ⟨dcfg', dst', -, -, C', c', i1', -, hC', hok', hc', -⟩ :=
    c43_roundtrip3 hla hw (x := x') (axes := axes') (m := m) (mode := mode) (orth := orth) (level := level) hg'
      (by rw [← hmd]; exact hdt) hm ho hlev (by rw [← hx.sizes]; exact hne) (by rw [← hx.sizes]; exact hind) rfl
  rw [← hx.sizes] at hC' hc'
  rw [← hmd] at hC'
  exact ⟨dcfg, dst, dcfg', dst', c, c', i1, i1', hok, hok', isBandDwtN_slice (sliceKind_dict _) hg.nodup hg'.nodup hg.lt hg'.lt
    ha ha' hx (band_agree rfl hC hC') hc hc'⟩

theorem nonsepBand_congrA' {R : Type} [NonUnitalNonAssocSemiring R] {m : Mode} {A A' : Nat → Nat → Nat → Nat → R}
    (bs : List Bool) (ns : List Nat) (X : List Nat → R)
    (h : ∀ p ∈ ns, ∀ q ∈ ns, A (evenLen p) (evenLen q) = A' (evenLen p) (evenLen q)) :
    nonsepBand m A bs ns X = nonsepBand m A' bs ns X := by
  funext ks
  unfold nonsepBand
  split
  · rw [h _ (by simp) _ (by simp)]
  · rfl

/-- **C61.** `MatrixWavedec2` with `separable=False`. -/
theorem c61_matrix2_nonsep {la : LinAlg ℝ} (hla : ExactLinAlg la) {w : Wavelet ℝ} {F : Nat} (hw : OrthBank w F)
    {x x' : Tensor ℝ} {axes axes' : AxisHint} {m : Mode} {mode : Option String} {orth : String} {level : Option Int}
    (hg : GoodAxes axes x.rank 2) (hg' : GoodAxes axes' x'.rank 2)
    (hdt : x.md.dtype = .float32 ∨ x.md.dtype = .float64) (hmd : x.md = x'.md)
    (hpos : ∀ k ∈ x.shape, 0 < k) (hpos' : ∀ k ∈ x'.shape, 0 < k)
    (hm : Selects mode m) (ho : orth = "qr" ∨ orth = "gramschmidt") (hlev : ∀ l, level = some l → 1 ≤ l)
    (hind : ∀ k, k % 2 = 0 → F ≤ k → (∃ n ∈ sizes (axesOf axes x.rank 2) x.shape, k ≤ evenLen n) → BoundaryIndep w F k)
    (hL0 : 0 < mLevelsN F (levelsN level F (sizes (axesOf axes x.rank 2) x.shape)) (sizes (axesOf axes x.rank 2) x.shape))
    (idx idx' : List Nat) (ha : At x (axesOf axes x.rank 2) idx) (ha' : At x' (axesOf axes' x'.rank 2) idx')
    (hx : SamePlane (axesOf axes x.rank 2) (axesOf axes' x'.rank 2) idx idx' x x') :
    ∃ dcfg dst dcfg' dst' c c',
      decInitN 2 w level axes orth false mode = .ok (dcfg, dst) ∧ decInitN 2 w level axes' orth false mode = .ok (dcfg', dst') ∧
      (decCallN 2 la dcfg dst x).1 = .ok c ∧ (decCallN 2 la dcfg' dst' x').1 = .ok c' ∧
      SameCoeffs (SamePlane (axesOf axes x.rank 2) (axesOf axes' x'.rank 2) idx idx') c c' := by
  obtain ⟨dcfg, dst, -, -, C, c, -, i1, -, hC, hok, hc, -⟩ := c50_roundtrip hla hw hg hdt hpos hm ho hlev hind rfl hL0
  obtain ⟨dcfg', dst', -, -, C', c', -, i1', -, hC', hok', hc', -⟩ :=
    c50_roundtrip hla hw (x := x') (axes := axes') (m := m) (mode := mode) (orth := orth) (level := level) hg'
      (by rw [← hmd]; exact hdt) hpos' hm ho hlev (by rw [← hx.sizes]; exact hind) rfl (by rw [← hx.sizes]; exact hL0)
  rw [← hx.sizes] at hC' hc'
  rw [← hmd] at hC'
  refine ⟨dcfg, dst, dcfg', dst', c, c', i1, i1', hok, hok', isBandDwtN_slice sliceKind_tuple hg.nodup hg'.nodup hg.lt hg'.lt
    ha ha' hx (fun t ht bs X => nonsepBand_congrA' _ _ _ fun p hp q hq => ?_) hc hc'⟩
  have p1 := mLevelsN_ge F _ _ t ht p hp
  have q1 := mLevelsN_ge F _ _ t ht q hq
  have p3 : F ≤ evenLen p := le_trans p1 (by unfold evenLen; omega)
  have q3 : F ≤ evenLen q := le_trans q1 (by unfold evenLen; omega)
  have e1 := (hC _ _ (evenLen_even _) (evenLen_even _) p3 q3 (mLens_even_bound hp) (mLens_even_bound hq)).1
  have e2 := (hC' _ _ (evenLen_even _) (evenLen_even _) p3 q3 (mLens_even_bound hp) (mLens_even_bound hq)).1
  rw [e1] at e2
  show (C _ _).den = (C' _ _).den
  rw [Except.ok.inj e2]

/-- **C61.** `cwt`: the coefficients of a signal depend on the signal (along the last axis) only. -/
theorem c61_cwt {data data' : Tensor ℂ} {scales : List ℝ} {w : CwtWavelet} {T : ℝ} {p : Nat} {psi : List ℂ}
    {x : List ℝ} (hw : w.wavefun p = .two psi x ∨ w.wavefun p = .three psi x) (hx : x.Pairwise (· < ·))
    (hl : 2 ≤ x.length) (hr : 0 < data.rank) (hr' : 0 < data'.rank) (hne : scales ≠ []) {step : ℝ}
    (hst : step = x.getD 1 0 - x.getD 0 0) (hpos : ∀ s ∈ scales, 0 < s ∧ 1 < psi.length * (s * step))
    (idx idx' : List Nat) (ha : At data [data.rank - 1] idx) (ha' : At data' [data'.rank - 1] idx')
    (hs : SamePlane [data.rank - 1] [data'.rank - 1] idx idx' data data') :
    ∃ t t' fs, cwt data scales w T p = .ok (t, fs) ∧ cwt data' scales w T p = .ok (t', fs) ∧
      ∀ k, k < scales.length → SamePlane [data.rank] [data'.rank] (k :: idx) (k :: idx') t t' := by
  obtain ⟨t, fs, h1, -, h2, h3, h4⟩ := c47_coefficients (data := data) (T := T) hw hx hl hr hne hst rfl hpos
  obtain ⟨t', fs', h1', -, h2', h3', h4'⟩ := c47_coefficients (data := data') (T := T) hw hx hl hr' hne hst rfl hpos
  refine ⟨t, t', fs, h1, by rw [h1', h3', h3], fun k hk => ?_⟩
  have hlt : data.rank - 1 < data.shape.length := by show _ < data.rank; omega
  have hlt' : data'.rank - 1 < data'.shape.length := by show _ < data'.rank; omega
  have hD : data.shape = data.shape.set (data.rank - 1) (data.shape.getD (data.rank - 1) 0) := (set_getD_self hlt).symm
  have hD' : data'.shape = data'.shape.set (data'.rank - 1) (data'.shape.getD (data'.rank - 1) 0) := (set_getD_self hlt').symm
  have hA := ha.atS (Ks := [_]) hD
  have hA' := ha'.atS (Ks := [_]) hD'
  obtain ⟨l1, l2⟩ := line_eq_of_same hlt hlt' hD hD' hA hA' hs
  have hks : scales[k]? = some scales[k] := List.getElem?_eq_getElem hk
  obtain ⟨-, g2, -, -⟩ := grid_facts hx hl
  rw [← hst] at g2
  obtain ⟨h, hh, -⟩ := c47_samples_exist (range := x.getD (x.length - 1) 0 - x.getD 0 0)
    (mul_pos (hpos _ (List.getElem_mem hk)).1 g2) (usedPsi w psi)
  rw [usedPsi_length] at hh
  have e1 : ∀ {d t : Tensor ℂ}, 0 < d.rank → t.shape = scales.length :: d.shape →
      t.shape.getD d.rank 0 = d.shape.getD (d.rank - 1) 0 := by
    intro d t hd ht
    obtain ⟨r, hr⟩ : ∃ r, d.rank = r + 1 := ⟨d.rank - 1, by omega⟩
    rw [ht, hr]
    rfl
  have e2 : ∀ {d : Tensor ℂ} (hd : 0 < d.rank) (i : List Nat) (q : Nat), setMany (k :: i) [d.rank] [q] = k :: i.set (d.rank - 1) q := by
    intro d hd i q
    obtain ⟨r, hr⟩ : ∃ r, d.rank = r + 1 := ⟨d.rank - 1, by omega⟩
    rw [hr]
    rfl
  have inb : ∀ {d : Tensor ℂ} {i : List Nat} {q : Nat}, d.rank - 1 < d.shape.length → AtS d.shape [d.rank - 1] i →
      q < d.shape.getD (d.rank - 1) 0 → InB d.shape (i.set (d.rank - 1) q) := by
    intro d i q hlt hA hq
    have hD : d.shape = d.shape.set (d.rank - 1) (d.shape.getD (d.rank - 1) 0) := (set_getD_self hlt).symm
    have := (hA.at (t := d) (Ks := [_]) hD).setMany_inB (ks := [q]) (Ks := [d.shape.getD (d.rank - 1) 0]) (by simp)
      (fun a ha => by rw [List.mem_singleton.mp ha]; exact hlt) rfl ⟨hq, trivial⟩
    rw [show setMany d.shape [d.rank - 1] [d.shape.getD (d.rank - 1) 0] = d.shape from hD.symm] at this
    exact this
  refine ⟨?_, fun ks hq => ?_⟩
  · show [t.shape.getD data.rank 0] = [t'.shape.getD data'.rank 0]
    rw [e1 hr h2, e1 hr' h2', l2]
  · obtain ⟨q, rfl⟩ : ∃ q, ks = [q] := List.length_eq_one_iff.mp (by rw [hq.length_eq]; rfl)
    have hq : q < t.shape.getD data.rank 0 := hq.1
    rw [e1 hr h2] at hq
    rw [e2 hr, e2 hr', h4 k _ h hks hh _ (inb hlt hA hq), h4' k _ h hks hh _ (inb hlt' hA' (by rw [← l2]; exact hq)), l2]
    have k1 : (idx.set (data.rank - 1) q).getD (data.rank - 1) 0 = q := by
      simp [List.getD_eq_getElem?_getD, hA.len, hlt]
    have k2 : (idx'.set (data'.rank - 1) q).getD (data'.rank - 1) 0 = q := by
      simp [List.getD_eq_getElem?_getD, hA'.len, hlt']
    have q1 : (fun j => data.get ((idx.set (data.rank - 1) q).set (data.rank - 1) j)) = line data (data.rank - 1) idx := by
      funext j; simp [line]
    have q2 : (fun j => data'.get ((idx'.set (data'.rank - 1) q).set (data'.rank - 1) j)) = line data' (data'.rank - 1) idx' := by
      funext j; simp [line]
    rw [k1, k2, q1, q2, l1]

/-- A batch of lines, and one of its lines on its own. -/
example : ∃ la, ExactLinAlg la ∧ ∃ dcfg dst dcfg' dst' cs cs',
    decInit bank4 none (.int (-1)) "qr" (some "zero") = .ok (dcfg, dst) ∧
    decInit bank4 none .none "qr" (some "zero") = .ok (dcfg', dst') ∧
    (decCall la dcfg dst (Tensor.ofFn ⟨.float64, 0⟩ [3, 21] fun i => (i.getD 0 0 + i.getD 1 0 : ℝ))).1 = .ok cs ∧
    (decCall la dcfg' dst' (Tensor.ofFn ⟨.float64, 0⟩ [21] fun i => (2 + i.getD 0 0 : ℝ))).1 = .ok cs' ∧
    List.Forall₂ (SamePlane [1] [0] [2, 0] [0]) cs cs' := by
  obtain ⟨la, hla⟩ := exists_exactLinAlg
  refine ⟨la, hla, c61_matrix hla bank4_orth
    (x := Tensor.ofFn ⟨.float64, 0⟩ [3, 21] fun i => (i.getD 0 0 + i.getD 1 0 : ℝ))
    (x' := Tensor.ofFn ⟨.float64, 0⟩ [21] fun i => (2 + i.getD 0 0 : ℝ)) (axis := .int (-1)) (axis' := .none) (m := .zero)
    (mode := some "zero") (orth := "qr") (level := none) ⟨le_rfl, rfl, ⟨by
    intro a ha
    have : a = -1 := by simpa [resolve] using ha
    subst this; exact ⟨by decide, by decide⟩, by decide⟩⟩ (goodAxes_none (by decide) (by decide)) (Or.inr rfl) rfl (Or.inl rfl)
    (Or.inl rfl) (by rintro _ ⟨⟩) (fun _ => by decide) (fun _ => by trivial) (fun k a b _ => bank4_indep a b)
    [2, 0] [0] ⟨rfl, ?_⟩ ⟨rfl, ?_⟩ ⟨rfl, ?_⟩⟩
  · intro i hi hn
    have hi : i < 2 := hi
    rcases (by omega : i = 0 ∨ i = 1) with rfl | rfl
    · exact (by decide : 2 < 3)
    · exact absurd (by decide) hn
  · intro i hi hn
    have hi : i < 1 := hi
    obtain rfl : i = 0 := by omega
    exact absurd (by decide) hn
  · intro ks hk
    obtain ⟨k, rfl⟩ : ∃ k, ks = [k] := List.length_eq_one_iff.mp (by rw [hk.length_eq]; rfl)
    have hk : k < 21 := hk.1
    show (Tensor.ofFn _ _ _).get [2, k] = (Tensor.ofFn _ _ _).get [k]
    rw [ofFn_get_of _ _ (by exact ⟨by decide, hk, trivial⟩), ofFn_get_of _ _ (by exact ⟨hk, trivial⟩)]
    simp

end Verif.Props
