/-
C64: what the synthesis objects of the boundary-matrix transforms compute on arbitrary coefficients.
-/
import Verif.Lemmas.MatSynSmall
import Verif.Props.MatOnto

namespace Verif.Props
open Tensor Spec

/-- The synthesis matrices of all lengths up to `N`. -/
theorem boundary_familyS {la : LinAlg ℝ} (hla : ExactLinAlg la) {w : Wavelet ℝ} {F N : Nat} (md : Meta)
    (hw : OrthBank w F) {orth : String} (ho : orth = "qr" ∨ orth = "gramschmidt")
    (hind : ∀ k, k % 2 = 0 → F ≤ k → k ≤ N → BoundaryIndep w F k) :
    ∃ T : Nat → Coo ℝ, (∀ k, k % 2 = 0 → F ≤ k → k ≤ N → constructBoundaryS la w md k orth = .ok (T k)) ∧
      Family T (fun k => (T k).den) md F N := by
  obtain ⟨C, hC, hF, -⟩ := boundary_family hla md hw ho hind
  refine ⟨fun k => (C k).transpose, ?_, ?_⟩
  · intro k k1 k2 k3
    rw [boundaryS_eq la md hw k orth, hC k k1 k2 k3]
    rfl
  · exact ⟨hF.md, hF.cols, hF.rows, fun _ _ _ _ _ _ _ _ => rfl⟩

/-- What the three theorems below have in common. -/
theorem synth_run {la : LinAlg ℝ} (hla : ExactLinAlg la) {w : Wavelet ℝ} {F : Nat} (hw : OrthBank w F)
    {axis : AxisHint} {orth : String} {md : Meta} {S : List Nat} {c0 : Tensor ℝ} {rest : List (Tensor ℝ)}
    (hg : GoodAxes axis S.length 1) (hdt : md.dtype = .float32 ∨ md.dtype = .float64)
    (ho : orth = "qr" ∨ orth = "gramschmidt")
    (hcs : SameBut (axis1 axis S.length) md S (c0 :: rest)) {ns : List Nat}
    (hns : rest.map (·.shape.getD (axis1 axis S.length) 0) = ns)
    (hind : ∀ k, k % 2 = 0 → F ≤ k → k ≤ 2 * ns.getLast?.getD 0 → BoundaryIndep w F k) :
    ∃ rcfg rst, ∃ T : Nat → Coo ℝ, recInit w axis orth = .ok (rcfg, rst) ∧
      (∀ k, k % 2 = 0 → F ≤ k → k ≤ 2 * ns.getLast?.getD 0 → constructBoundaryS la w md k orth = .ok (T k)) ∧
      (Consistent 2 (c0.shape.getD (axis1 axis S.length) 0) ns → LongEnough F ns →
        ∃ z, (recCall la rcfg rst (c0 :: rest)).1 = .ok z ∧ z.md = md ∧
          z.shape = S.set (axis1 axis S.length) (idwtLen 2 (c0.shape.getD (axis1 axis S.length) 0) ns) ∧
          ∀ idx, InB z.shape idx → z.get idx =
            matIdwt (fun k => (T k).den) (Spec.line c0 (axis1 axis S.length) idx)
              (rest.map fun c => (c.shape.getD (axis1 axis S.length) 0, Spec.line c (axis1 axis S.length) idx))
              (idx.getD (axis1 axis S.length) 0)) ∧
      (∀ z, (recCall la rcfg rst (c0 :: rest)).1 = .ok z →
        Consistent 2 (c0.shape.getD (axis1 axis S.length) 0) ns ∧ LongEnough F ns) ∧
      (∀ d, ns.head? = some d → d ≠ c0.shape.getD (axis1 axis S.length) 0 →
        (recCall la rcfg rst (c0 :: rest)).1 = .error .valueError) := by
  have h2 := hw.two_le
  have hdt' : isDtypeSupported md.dtype = true := by unfold isDtypeSupported; simpa using hdt
  obtain ⟨a, ea, _, hgs, _, hax⟩ := goodAxes_single hg
  have hax1 : axis1 (.seq [a]) S.length = axis1 axis S.length := by unfold axis1; rw [hax]
  obtain ⟨T, hT, hF⟩ := boundary_familyS hla md hw ho hind
  have key := recCall_gen (la := la) (cfg := ⟨w, [a], orth⟩) (F := F) (N := 2 * ns.getLast?.getD 0) (md := md) (S := S)
    (C := T) (T := fun k => (T k).den) (c0 := c0) (rest := rest) h2 hw.len.2.2.1 hgs hdt'
    (by rw [hax1]; exact hcs) hT hF (ns := ns) (by rw [hax1]; exact hns) le_rfl
  rw [hax1] at key
  refine ⟨⟨w, [a], orth⟩, ⟨none, none, [], false⟩, T, ?_, hT, key⟩
  unfold recInit
  rw [ea]
  simp only
  rw [if_neg (by rcases ho with rfl | rfl <;> decide), if_neg (by
    have := hw.len.1; have := hw.len.2.2.1; omega)]

/-- **C64.** A new `MatrixWaverec` object, applied to any list of coefficients whose lengths fit together (both bands of
a level agree, and the next detail has as many samples as the synthesised signal, or one less) and whose synthesised
signals are not shorter than the filters, returns what the boundary matrices of `construct_boundary_s` give: level by
level, the approximation and the detail are stacked and multiplied by the matrix of this length, and a surplus sample is
dropped before the next level. -/
theorem c64_matrix {la : LinAlg ℝ} (hla : ExactLinAlg la) {w : Wavelet ℝ} {F : Nat} (hw : OrthBank w F)
    {axis : AxisHint} {orth : String} {md : Meta} {S : List Nat} {c0 : Tensor ℝ} {rest : List (Tensor ℝ)}
    (hg : GoodAxes axis S.length 1) (hdt : md.dtype = .float32 ∨ md.dtype = .float64)
    (ho : orth = "qr" ∨ orth = "gramschmidt")
    (hcs : SameBut (axis1 axis S.length) md S (c0 :: rest)) {ns : List Nat}
    (hns : rest.map (·.shape.getD (axis1 axis S.length) 0) = ns)
    (hind : ∀ k, k % 2 = 0 → F ≤ k → k ≤ 2 * ns.getLast?.getD 0 → BoundaryIndep w F k)
    (hc : Consistent 2 (c0.shape.getD (axis1 axis S.length) 0) ns) (hle : LongEnough F ns) :
    ∃ rcfg rst, ∃ T : Nat → Coo ℝ, ∃ z, recInit w axis orth = .ok (rcfg, rst) ∧
      (∀ k, k % 2 = 0 → F ≤ k → k ≤ 2 * ns.getLast?.getD 0 → constructBoundaryS la w md k orth = .ok (T k)) ∧
      (recCall la rcfg rst (c0 :: rest)).1 = .ok z ∧ z.md = md ∧
      z.shape = S.set (axis1 axis S.length) (idwtLen 2 (c0.shape.getD (axis1 axis S.length) 0) ns) ∧
      ∀ idx, InB z.shape idx → z.get idx =
        matIdwt (fun k => (T k).den) (Spec.line c0 (axis1 axis S.length) idx)
          (rest.map fun c => (c.shape.getD (axis1 axis S.length) 0, Spec.line c (axis1 axis S.length) idx))
          (idx.getD (axis1 axis S.length) 0) := by
  obtain ⟨rcfg, rst, T, e1, e2, e3, -, -⟩ := synth_run hla hw hg hdt ho hcs hns hind
  obtain ⟨z, h⟩ := e3 hc hle
  exact ⟨rcfg, rst, T, z, e1, e2, h⟩

/-- **C64.** These are the only coefficients a new `MatrixWaverec` object accepts: it returns a tensor exactly if the
lengths fit together and no synthesised signal is shorter than the filters. -/
theorem c64_matrix_accepts {la : LinAlg ℝ} (hla : ExactLinAlg la) {w : Wavelet ℝ} {F : Nat} (hw : OrthBank w F)
    {axis : AxisHint} {orth : String} {md : Meta} {S : List Nat} {c0 : Tensor ℝ} {rest : List (Tensor ℝ)}
    (hg : GoodAxes axis S.length 1) (hdt : md.dtype = .float32 ∨ md.dtype = .float64)
    (ho : orth = "qr" ∨ orth = "gramschmidt")
    (hcs : SameBut (axis1 axis S.length) md S (c0 :: rest)) {ns : List Nat}
    (hns : rest.map (·.shape.getD (axis1 axis S.length) 0) = ns)
    (hind : ∀ k, k % 2 = 0 → F ≤ k → k ≤ 2 * ns.getLast?.getD 0 → BoundaryIndep w F k) :
    ∃ rcfg rst, recInit w axis orth = .ok (rcfg, rst) ∧
      ((∃ z, (recCall la rcfg rst (c0 :: rest)).1 = .ok z) ↔
        Consistent 2 (c0.shape.getD (axis1 axis S.length) 0) ns ∧ LongEnough F ns) := by
  obtain ⟨rcfg, rst, T, e1, -, e3, e4, -⟩ := synth_run hla hw hg hdt ho hcs hns hind
  refine ⟨rcfg, rst, e1, ?_, ?_⟩
  · rintro ⟨z, h⟩
    exact e4 z h
  · rintro ⟨h1, h2⟩
    obtain ⟨z, h, -⟩ := e3 h1 h2
    exact ⟨z, h⟩

/-- **C64.** If the first detail has another length than the approximation, a new `MatrixWaverec` object raises
ValueError. -/
theorem c64_matrix_band_clash {la : LinAlg ℝ} (hla : ExactLinAlg la) {w : Wavelet ℝ} {F : Nat} (hw : OrthBank w F)
    {axis : AxisHint} {orth : String} {md : Meta} {S : List Nat} {c0 c1 : Tensor ℝ} {rest : List (Tensor ℝ)}
    (hg : GoodAxes axis S.length 1) (hdt : md.dtype = .float32 ∨ md.dtype = .float64)
    (ho : orth = "qr" ∨ orth = "gramschmidt")
    (hcs : SameBut (axis1 axis S.length) md S (c0 :: c1 :: rest))
    (hind : ∀ k, k % 2 = 0 → F ≤ k → (∃ c ∈ c1 :: rest, k ≤ 2 * c.shape.getD (axis1 axis S.length) 0) → BoundaryIndep w F k)
    (hne : c1.shape.getD (axis1 axis S.length) 0 ≠ c0.shape.getD (axis1 axis S.length) 0) :
    ∃ rcfg rst, recInit w axis orth = .ok (rcfg, rst) ∧
      (recCall la rcfg rst (c0 :: c1 :: rest)).1 = .error .valueError := by
  obtain ⟨rcfg, rst, T, e1, -, -, -, e5⟩ := synth_run hla hw hg hdt ho hcs rfl (fun k k1 k2 k3 => by
    refine hind k k1 k2 ?_
    cases h : ((c1 :: rest).map (·.shape.getD (axis1 axis S.length) 0)).getLast? with
    | none => simp at h
    | some d =>
      rw [h] at k3
      obtain ⟨c, hc, rfl⟩ := List.mem_map.mp (List.mem_of_getLast? h)
      exact ⟨c, hc, k3⟩)
  exact ⟨rcfg, rst, e1, e5 _ rfl hne⟩

/-! ### Images and volumes -/

theorem batch_pos_of {axes : AxisHint} {S K0 : List Nat} {n : Nat} {md : Meta} {t0 : Tensor ℝ}
    (h0 : Uniform md (setMany S (axesOf axes S.length n) K0) t0) (hpos : ∀ k ∈ t0.shape, 0 < k) :
    1 ≤ prodL (pick (batchAxes S.length (axesOf axes S.length n)) S) := by
  have hr : t0.rank = S.length := by unfold Tensor.rank; rw [h0.2, setMany_length]
  have := batchOf_pos (axes := axes) (n := n) hpos
  unfold batchOf at this
  rw [hr, h0.2, pick_setMany_disjoint batch_disjoint] at this
  exact this

theorem last_bound {F : Nat} {last : List Nat} {w : Wavelet ℝ}
    (hind : ∀ k, k % 2 = 0 → F ≤ k → (∃ K ∈ last, k ≤ 2 * K) → BoundaryIndep w F k) (hF : 2 ≤ F) :
    ∀ k, k % 2 = 0 → F ≤ k → k ≤ sizeBound (last.map (2 * ·)) → BoundaryIndep w F k := by
  intro k k1 k2 k3
  obtain ⟨q, hq, hk⟩ := exists_of_le_sizeBound (last.map (2 * ·)) k (by omega) k3
  obtain ⟨K, hK, rfl⟩ := List.mem_map.mp hq
  rw [evenLen_of_even (by omega)] at hk
  exact hind k k1 k2 ⟨K, hK, hk⟩

theorem le_last_bound (last : List Nat) : ∀ K ∈ last, 2 * K ≤ sizeBound (last.map (2 * ·)) := by
  intro K hK
  have := le_sizeBound (last.map (2 * ·)) (2 * K) (List.mem_map.mpr ⟨K, hK, rfl⟩)
  rwa [evenLen_of_even (by omega)] at this

theorem isTupleSwapped_high {R : Type} [Zero R] {P : List Bool → Tensor R → Prop} {e : Entry R} (h : IsTupleSwapped P e) :
    IsTupleSwapped (fun bs t => P bs t ∧ true ∈ bs) e := by
  obtain ⟨a, b, c, rfl, h1, h2, h3⟩ := h
  exact ⟨a, b, c, rfl, ⟨h1, by simp⟩, ⟨h2, by simp⟩, ⟨h3, by simp⟩⟩

theorem recShape_tuple {R : Type} [Zero R] {c : Coeffs R} {a b d : Tensor R} {md : Meta} {B : Nat} {ns : List Nat}
    {X : Nat → List Nat → R} (hl : ns.length = 2) (hlast : c.items.getLast? = some (.tuple a b d)) (hs : ShowsN a md B ns X) :
    recShape 2 c = .ok (ns.map (2 * ·)) := by
  match ns, hl with
  | [p, q], _ =>
  have e1 : a.sizeFromEnd 2 = p := by unfold Tensor.sizeFromEnd; rw [hs.shape]; rfl
  have e2 : a.sizeFromEnd 1 = q := by unfold Tensor.sizeFromEnd; rw [hs.shape]; rfl
  unfold recShape
  simp only [hlast, show ¬ (2 : Nat) = 3 by omega, if_false, firstRef2, bind, Except.bind, e1, e2,
    List.map_cons, List.map_nil, pure, Except.pure]
  rw [Nat.mul_comm p 2, Nat.mul_comm q 2]

/-- **C64**, images (`separable=True`): a new `MatrixWaverec2` object, applied to coefficients whose sizes fit together
along both axes, multiplies level by level with the synthesis matrices along both axes.  The first tensor of a tuple is
the band which is high-pass along the second axis, the second tensor the one which is high-pass along the first. -/
theorem c64_matrix2 {la : LinAlg ℝ} (hla : ExactLinAlg la) {w : Wavelet ℝ} {F : Nat} (hw : OrthBank w F)
    {axes : AxisHint} {orth : String} {md : Meta} {S K0 : List Nat} {Kss : List (List Nat)} {t0 : Tensor ℝ}
    {es : List (Entry ℝ)} (hg : GoodAxes axes S.length 2) (hdt : md.dtype = .float32 ∨ md.dtype = .float64)
    (ho : orth = "qr" ∨ orth = "gramschmidt") (hK0 : K0.length = 2) (hKl : ∀ Ks ∈ Kss, Ks.length = 2)
    (h0 : Uniform md (setMany S (axesOf axes S.length 2) K0) t0) (hpos : ∀ k ∈ t0.shape, 0 < k)
    (hes : List.Forall₂ (fun e Ks => IsTuple (fun _ t => Uniform md (setMany S (axesOf axes S.length 2) Ks) t) e) es Kss)
    (hne : Kss ≠ []) (hc : ConsistentN 2 K0 Kss) (hle : LongEnoughN F Kss)
    (hind : ∀ k, k % 2 = 0 → F ≤ k → (∃ K ∈ Kss.getLast?.getD [], k ≤ 2 * K) → BoundaryIndep w F k) :
    ∃ rcfg rst, ∃ T : Nat → Coo ℝ, ∃ z, recInitN 2 w axes orth true = .ok (rcfg, rst) ∧
      (∀ k, k % 2 = 0 → F ≤ k → (∃ K ∈ Kss.getLast?.getD [], k ≤ 2 * K) → constructBoundaryS la w md k orth = .ok (T k)) ∧
      (recCallN 2 la rcfg rst ⟨false, .tensor t0 :: es⟩).1 = .ok z ∧ z.md = md ∧
      z.shape = setMany S (axesOf axes S.length 2) (idwtLenN 2 K0 Kss) ∧
      ∀ idx, InB z.shape idx → z.get idx =
        idwtWith (matSynthN fun k => (T k).den) (plane t0 (axesOf axes S.length 2) idx)
          (List.zipWith (fun e Ks => (Ks, fun bs => bandPlane e (axesOf axes S.length 2) idx bs.reverse)) es Kss)
          (sizes (axesOf axes S.length 2) idx) := by
  have h2 := hw.two_le
  have hdt' : isDtypeSupported md.dtype = true := by unfold isDtypeSupported; simpa using hdt
  obtain ⟨_, hgs, hax⟩ := goodAxes_list hg
  obtain ⟨T, hT, hF⟩ := boundary_familyS hla md hw ho (last_bound hind h2)
  have hb := le_last_bound (Kss.getLast?.getD [])
  have hB := batch_pos_of h0 hpos
  have key := synCallN_gen (la := la) (cfg := ⟨w, resolve axes 2, orth, true⟩) (n := 2)
    (N := sizeBound ((Kss.getLast?.getD []).map (2 * ·))) (F := F) (md := md) (S := S) (Ms := matsAt T)
    (syn := matSynthN fun k => (T k).den) (D := IsTupleSwapped) (D' := IsTuple) (K0 := K0) (K1 := K0) (Kss := Kss) (t0 := t0) (es := es)
    (St := fun ns X t => ShowsN t md (prodL (pick (batchAxes S.length (axesOf axes S.length 2)) S)) ns X)
    (step := mrec2Step true (prodL (pick (batchAxes S.length (axesOf axes S.length 2)) S)))
    isTuple_band isTupleSwapped_kind isTupleSwapped_high (g := List.reverse)
    (by rintro P e ⟨a, b, c, rfl, p1, p2, p3⟩; exact ⟨a, b, c, rfl, p1, p2, p3⟩)
    h2 hw.len.2.2.1 hgs hdt' hK0 hK0 hKl (by rw [hax]; exact h0) (by rw [hax]; exact hes) hne hc hle hb
    (recBuilds_sep rfl hT) (by rw [hax]; exact fun _ _ h => h) (by rw [hax]; exact synStep2_ok hB h2 hF)
    (by
      intro mats c ds r es hl hr hi
      rw [hax] at hr
      unfold recApplyN headTensor
      simp only [bind, Except.bind, hi, show ¬ (2 : Nat) = 3 by omega, if_false, List.tail_cons, hr, mrec2Loop_eq])
    (by
      rintro c e B ks Y hkl hlast ⟨a, b, d, rfl, s1, -, -⟩
      exact recShape_tuple hkl hlast s1)
  rw [hax] at key
  obtain ⟨z, k1, k2, k3, k4⟩ := key
  exact ⟨_, _, T, z, recInitN_ok hg ho hw.len.1 hw.len.2.2.1, fun k a b ⟨K, hK, c⟩ => hT k a b (le_trans c (hb K hK)),
    k1, k2, k3, k4⟩

/-- **C64**, volumes: a new `MatrixWaverec3` object, applied to coefficients whose sizes fit together along the three
axes, multiplies level by level with the synthesis matrices along the three axes.  The approximation may be larger than
the first details (`K0` against `K1`): the surplus samples are ignored. -/
theorem c64_matrix3 {la : LinAlg ℝ} (hla : ExactLinAlg la) {w : Wavelet ℝ} {F : Nat} (hw : OrthBank w F)
    {axes : AxisHint} {orth : String} {md : Meta} {S K0 K1 : List Nat} {Kss : List (List Nat)} {t0 : Tensor ℝ}
    {es : List (Entry ℝ)} (hg : GoodAxes axes S.length 3) (hdt : md.dtype = .float32 ∨ md.dtype = .float64)
    (ho : orth = "qr" ∨ orth = "gramschmidt") (hK0 : K0.length = 3) (hKl : ∀ Ks ∈ Kss, Ks.length = 3)
    (h0 : Uniform md (setMany S (axesOf axes S.length 3) K0) t0)
    (hes : List.Forall₂ (fun e Ks => IsDict keysM3 (fun _ t => Uniform md (setMany S (axesOf axes S.length 3) Ks) t) e) es Kss)
    (hne : Kss ≠ []) (hge : List.Forall₂ (· ≤ ·) K1 K0) (hc : ConsistentN 2 K1 Kss) (hle : LongEnoughN F Kss)
    (hind : ∀ k, k % 2 = 0 → F ≤ k → (∃ K ∈ Kss.getLast?.getD [], k ≤ 2 * K) → BoundaryIndep w F k) :
    ∃ rcfg rst, ∃ T : Nat → Coo ℝ, ∃ z, recInitN 3 w axes orth true = .ok (rcfg, rst) ∧
      (∀ k, k % 2 = 0 → F ≤ k → (∃ K ∈ Kss.getLast?.getD [], k ≤ 2 * K) → constructBoundaryS la w md k orth = .ok (T k)) ∧
      (recCallN 3 la rcfg rst ⟨false, .tensor t0 :: es⟩).1 = .ok z ∧ z.md = md ∧
      z.shape = setMany S (axesOf axes S.length 3) (idwtLenN 2 K1 Kss) ∧
      ∀ idx, InB z.shape idx → z.get idx =
        idwtWith (matSynthN fun k => (T k).den) (plane t0 (axesOf axes S.length 3) idx)
          (List.zipWith (fun e Ks => (Ks, bandPlane e (axesOf axes S.length 3) idx)) es Kss)
          (sizes (axesOf axes S.length 3) idx) := by
  have h2 := hw.two_le
  have hdt' : isDtypeSupported md.dtype = true := by unfold isDtypeSupported; simpa using hdt
  obtain ⟨_, hgs, hax⟩ := goodAxes_list hg
  obtain ⟨T, hT, hF⟩ := boundary_familyS hla md hw ho (last_bound hind h2)
  have hb := le_last_bound (Kss.getLast?.getD [])
  have hD : RecKind (R := ℝ) (IsDict keysM3) := isDict_band (by decide) (by decide)
  have key := synCallN_gen (la := la) (cfg := ⟨w, resolve axes 3, orth, true⟩) (n := 3)
    (N := sizeBound ((Kss.getLast?.getD []).map (2 * ·))) (F := F) (md := md) (S := S) (Ms := matsAt T)
    (syn := matSynthN fun k => (T k).den) (D := IsDict keysM3) (D' := IsDict keysM3) (K0 := K0) (K1 := K1) (Kss := Kss)
    (t0 := t0) (es := es)
    (St := StBig md (prodL (pick (batchAxes S.length (axesOf axes S.length 3)) S)))
    (step := fun ms t e _ => mrec3Step ms t e)
    hD hD.toDetailKind hD.high (g := id) (fun _ _ h => h)
    h2 hw.len.2.2.1 hgs hdt' hK0 (by rw [hge.length_eq]; exact hK0) hKl (by rw [hax]; exact h0) (by rw [hax]; exact hes) hne hc hle hb
    (recBuilds_sep rfl hT) (by rw [hax]; exact fun X t h => ⟨K0, X, hge, h, fun _ _ _ _ => rfl⟩)
    (by rw [hax]; exact synStep3_ok h2 hF)
    (by
      intro mats c ds r es hl hr hi
      unfold recApplyN headTensor
      simp only [bind, Except.bind, hi, if_true, List.tail_cons, List.length_cons, Nat.add_sub_cancel]
      rw [mrec3Loop_eq _ _ _ _ (le_refl _) (by omega), hl, List.take_length])
    (fun c e B ks Y hkl hlast h => recShape_dict hkl hlast h)
  rw [hax, idwtLenN_cons 2 K0 K1 hne] at key
  obtain ⟨z, k1, k2, k3, k4⟩ := key
  exact ⟨_, _, T, z, recInitN_ok hg ho hw.len.1 hw.len.2.2.1, fun k a b ⟨K, hK, c⟩ => hT k a b (le_trans c (hb K hK)),
    k1, k2, k3, k4⟩

/-- **C64**, volumes: if the approximation has fewer samples than the first details along some axis, a new
`MatrixWaverec3` object raises RuntimeError, whatever the other levels are.  (`MatrixWaverec` raises ValueError,
`c64_matrix_band_clash`.) -/
theorem c64_matrix3_small {la : LinAlg ℝ} (hla : ExactLinAlg la) {w : Wavelet ℝ} {F : Nat} (hw : OrthBank w F)
    {axes : AxisHint} {orth : String} {md : Meta} {S K0 K1 : List Nat} {Kss : List (List Nat)} {t0 : Tensor ℝ}
    {es : List (Entry ℝ)} (hg : GoodAxes axes S.length 3) (hdt : md.dtype = .float32 ∨ md.dtype = .float64)
    (ho : orth = "qr" ∨ orth = "gramschmidt") (hK0 : K0.length = 3) (hKl : ∀ Ks ∈ K1 :: Kss, Ks.length = 3)
    (h0 : Uniform md (setMany S (axesOf axes S.length 3) K0) t0)
    (hes : List.Forall₂ (fun e Ks => IsDict keysM3 (fun _ t => Uniform md (setMany S (axesOf axes S.length 3) Ks) t) e)
      es (K1 :: Kss))
    (hsm : ∃ d < 3, K0.getD d 0 < K1.getD d 0)
    (hind : ∀ k, k % 2 = 0 → F ≤ k → (∃ K ∈ (K1 :: Kss).getLast?.getD [], k ≤ 2 * K) → BoundaryIndep w F k) :
    ∃ rcfg rst, recInitN 3 w axes orth true = .ok (rcfg, rst) ∧
      (recCallN 3 la rcfg rst ⟨false, .tensor t0 :: es⟩).1 = .error .runtimeError := by
  have h2 := hw.two_le
  have hdt' : isDtypeSupported md.dtype = true := by unfold isDtypeSupported; simpa using hdt
  obtain ⟨_, hgs, hax⟩ := goodAxes_list hg
  obtain ⟨T, hT, -⟩ := boundary_familyS hla md hw ho (last_bound hind h2)
  refine ⟨_, _, recInitN_ok hg ho hw.len.1 hw.len.2.2.1, ?_⟩
  refine synCall3_small (cfg := ⟨w, resolve axes 3, orth, true⟩) (N := sizeBound (((K1 :: Kss).getLast?.getD []).map (2 * ·)))
    (K0 := K0) (K1 := K1) (Kss := Kss) (S := S)
    (Ms := matsAt T) h2 hw.len.2.2.1 hgs hdt' hK0 hKl (by rw [hax]; exact h0) (by rw [hax]; exact hes)
    (le_last_bound _) (recBuilds_sep rfl hT) ?_
  intro hf
  obtain ⟨d, hd, hlt⟩ := hsm
  have := (List.forall₂_iff_get.mp hf).2 d (by rw [hKl K1 (by simp)]; exact hd) (by rw [hK0]; exact hd)
  rw [List.getD_eq_getElem _ _ (by rw [hK0]; exact hd),
    List.getD_eq_getElem _ _ (by rw [hKl K1 (by simp)]; exact hd)] at hlt
  simp only [List.get_eq_getElem] at this
  omega

/-- **C64**, images (`separable=False`): a new `MatrixWaverec2` object, applied to coefficients whose sizes fit together
along both axes, multiplies level by level the four bands, read column by column, with the two-dimensional synthesis
matrix. -/
theorem c64_nonseparable {la : LinAlg ℝ} (hla : ExactLinAlg la) {w : Wavelet ℝ} {F : Nat} (hw : OrthBank w F)
    {axes : AxisHint} {orth : String} {md : Meta} {S K0 : List Nat} {Kss : List (List Nat)} {t0 : Tensor ℝ}
    {es : List (Entry ℝ)} (hg : GoodAxes axes S.length 2) (hdt : md.dtype = .float32 ∨ md.dtype = .float64)
    (ho : orth = "qr" ∨ orth = "gramschmidt") (hK0 : K0.length = 2) (hKl : ∀ Ks ∈ Kss, Ks.length = 2)
    (h0 : Uniform md (setMany S (axesOf axes S.length 2) K0) t0) (hpos : ∀ k ∈ t0.shape, 0 < k)
    (hes : List.Forall₂ (fun e Ks => IsTuple (fun _ t => Uniform md (setMany S (axesOf axes S.length 2) Ks) t) e) es Kss)
    (hne : Kss ≠ []) (hc : ConsistentN 2 K0 Kss) (hle : LongEnoughN F Kss)
    (hind : ∀ k, k % 2 = 0 → F ≤ k → (∃ K ∈ Kss.getLast?.getD [], k ≤ 2 * K) → BoundaryIndep w F k) :
    ∃ rcfg rst, ∃ T : Nat → Nat → Coo ℝ, ∃ z, recInitN 2 w axes orth false = .ok (rcfg, rst) ∧
      (∀ p q, p % 2 = 0 → q % 2 = 0 → F ≤ p → F ≤ q → (∃ K ∈ Kss.getLast?.getD [], p ≤ 2 * K) →
        (∃ K ∈ Kss.getLast?.getD [], q ≤ 2 * K) → constructBoundaryS2 la w md p q orth = .ok (T p q)) ∧
      (recCallN 2 la rcfg rst ⟨false, .tensor t0 :: es⟩).1 = .ok z ∧ z.md = md ∧
      z.shape = setMany S (axesOf axes S.length 2) (idwtLenN 2 K0 Kss) ∧
      ∀ idx, InB z.shape idx → z.get idx =
        idwtWith (nonsepSynth fun p q => (T p q).den) (plane t0 (axesOf axes S.length 2) idx)
          (List.zipWith (fun e Ks => (Ks, bandPlane e (axesOf axes S.length 2) idx)) es Kss)
          (sizes (axesOf axes S.length 2) idx) := by
  have h2 := hw.two_le
  have hdt' : isDtypeSupported md.dtype = true := by unfold isDtypeSupported; simpa using hdt
  obtain ⟨_, hgs, hax⟩ := goodAxes_list hg
  obtain ⟨C, hC, hF, -⟩ := boundary_family2 hla md hw ho (last_bound hind h2)
  have hT : ∀ p q, p % 2 = 0 → q % 2 = 0 → F ≤ p → F ≤ q → p ≤ sizeBound ((Kss.getLast?.getD []).map (2 * ·)) →
      q ≤ sizeBound ((Kss.getLast?.getD []).map (2 * ·)) →
      constructBoundaryS2 la w md p q orth = .ok ((fun p q => (C p q).transpose) p q) := by
    intro p q q1 q2 q3 q4 q5 q6
    rw [boundaryS2_eq la md hw p q orth, hC p q q1 q2 q3 q4 q5 q6]
    rfl
  have hFT : Family2 (fun p q => (C p q).transpose) (fun p q => (C p q).transpose.den) md F
      (sizeBound ((Kss.getLast?.getD []).map (2 * ·))) :=
    ⟨fun p q a b c d e f => ⟨(hF.at' p q a b c d e f).1, (hF.at' p q a b c d e f).2.2.1, (hF.at' p q a b c d e f).2.1,
      fun _ _ _ _ => rfl⟩⟩
  have hb := le_last_bound (Kss.getLast?.getD [])
  have hB := batch_pos_of h0 hpos
  have key := synCallN_gen (la := la) (cfg := ⟨w, resolve axes 2, orth, false⟩) (n := 2)
    (N := sizeBound ((Kss.getLast?.getD []).map (2 * ·))) (F := F) (md := md) (S := S)
    (Ms := mats2At fun p q => (C p q).transpose)
    (syn := nonsepSynth fun p q => (C p q).transpose.den) (D := IsTuple) (D' := IsTuple) (K0 := K0) (K1 := K0) (Kss := Kss)
    (t0 := t0) (es := es)
    (St := fun ns X t => ShowsN t md (prodL (pick (batchAxes S.length (axesOf axes S.length 2)) S)) ns X)
    (step := mrec2Step false (prodL (pick (batchAxes S.length (axesOf axes S.length 2)) S)))
    isTuple_band isTuple_band.toDetailKind isTuple_band.high (g := id) (fun _ _ h => h)
    h2 hw.len.2.2.1 hgs hdt' hK0 hK0 hKl (by rw [hax]; exact h0) (by rw [hax]; exact hes) hne hc hle hb
    (recBuilds_nonsep rfl hT) (by rw [hax]; exact fun _ _ h => h) (by rw [hax]; exact synStepNonsep_ok hB hFT)
    (by
      intro mats c ds r es hl hr hi
      rw [hax] at hr
      unfold recApplyN headTensor
      simp only [bind, Except.bind, hi, show ¬ (2 : Nat) = 3 by omega, if_false, List.tail_cons, hr, mrec2Loop_eq])
    (by
      rintro c e B ks Y hkl hlast ⟨a, b, d, rfl, s1, -, -⟩
      exact recShape_tuple hkl hlast s1)
  rw [hax] at key
  obtain ⟨z, k1, k2, k3, k4⟩ := key
  exact ⟨_, _, fun p q => (C p q).transpose, z, recInitN_ok hg ho hw.len.1 hw.len.2.2.1,
    fun p q a b c d ⟨K, hK, e⟩ ⟨K', hK', f⟩ => hT p q a b c d (le_trans e (hb K hK)) (le_trans f (hb K' hK')),
    k1, k2, k3, k4⟩

theorem clash_run {la : LinAlg ℝ} {cfg : RecCfgN ℝ} {N F : Nat} {md : Meta} {S : List Nat} {Ms : List Nat → List (Coo ℝ)}
    {t0 : Tensor ℝ} {e : Entry ℝ} {es : List (Entry ℝ)} {K0 Ks : List Nat} {Kss : List (List Nat)} (hF : 2 ≤ F)
    (hlen : cfg.wavelet.recLo.length = F)
    (hg : GoodAxes (.seq cfg.axes) S.length 2) (hdt : isDtypeSupported md.dtype = true)
    (hK0 : K0.length = 2) (hKl : ∀ K ∈ Ks :: Kss, K.length = 2)
    (h0 : Uniform md (setMany S (axesOf (.seq cfg.axes) S.length 2) K0) t0)
    (hes : List.Forall₂ (fun e Ks => IsTuple (fun _ t => Uniform md (setMany S (axesOf (.seq cfg.axes) S.length 2) Ks) t) e)
      (e :: es) (Ks :: Kss))
    (hN : ∀ K ∈ (Ks :: Kss).getLast?.getD [], 2 * K ≤ N) (hM : RecBuilds la cfg md 2 F N Ms) (hne : Ks ≠ K0) :
    (recCallN 2 la cfg ⟨none, none, [], false⟩ ⟨false, .tensor t0 :: e :: es⟩).1 = .error .valueError := by
  obtain ⟨u0, us, c₀, ep, eck, hu0, hus, hfst, -⟩ := rec_gen isTuple_band hg hdt hK0 hKl h0 hes
  cases us with
  | nil => simp at hfst
  | cons v us =>
  have hv := hus
  rw [List.zipWith_cons_cons, List.forall₂_cons] at hv
  obtain ⟨⟨a, b, d, rfl, s1, -, -⟩, -⟩ := hv
  set ps := List.zipWith (fun u Ks => (Ks, foldedBand u)) (.tuple a b d :: us) (Ks :: Kss) with hps
  obtain ⟨l, hl⟩ : ∃ l, (Entry.tuple a b d :: us).getLast? = some l := ⟨_, List.getLast?_cons⟩
  have hlk : (Entry.tuple a b d :: us)[(Entry.tuple a b d :: us).length - 1]? = some l := by
    rw [← hl, List.getLast?_eq_getElem?]
  obtain ⟨p, hp, hsh⟩ := forall₂_getElem?' hus hlk
  obtain ⟨a', b', d', rfl, q1, -, -⟩ := hsh
  have hpK : (Ks :: Kss).getLast?.getD [] = p.1 := by
    rw [← hfst, List.getLast?_map, List.getLast?_eq_getElem?, ← hus.length_eq, hp]
    rfl
  have hpl : p.1.length = 2 := hKl p.1 (hfst ▸ List.mem_map_of_mem (f := Prod.fst) (List.mem_of_getElem? hp))
  have hrs : recShape 2 (⟨false, .tensor u0 :: .tuple a b d :: us⟩ : Coeffs ℝ)
      = .ok (((Ks :: Kss).getLast?.getD []).map (2 * ·)) := by
    rw [hpK]
    exact recShape_tuple hpl (by
      show (Entry.tensor u0 :: Entry.tuple a b d :: us).getLast? = _
      rw [List.getLast?_cons, hl]; rfl) q1
  unfold recCallN recInputN
  simp only [bind, Except.bind, ep, eck, hrs, pure, Except.pure]
  have hpr := fun L => recPrepareN_fresh (la := la) (cfg := cfg) (md := md) (n := 2) (N := N) (Ms := Ms)
    (ns := ((Ks :: Kss).getLast?.getD []).map (2 * ·)) (L := L) (st := ⟨none, none, [], false⟩) (by rw [hlen]; exact hF)
    (by rw [hlen]; exact hM) (by rw [List.length_map, hpK]; exact hpl)
    (by
      intro k hk
      obtain ⟨K, hK, rfl⟩ := List.mem_map.mp hk
      rw [evenLen_of_even (by omega)]
      exact hN K hK) rfl
  rw [hpr]
  simp only
  unfold recApplyN headTensor
  simp only [bind, Except.bind, show ¬ (2 : Nat) = 3 by omega, if_false, List.tail_cons]
  rw [mrec2Loop]
  unfold mrec2Step
  simp only
  rw [if_neg]
  · rfl
  · rintro ⟨h, -⟩
    rw [s1.shape, hu0.shape] at h
    exact hne (List.cons.inj h).2

/-- **C64.** If the first details have other sizes than the approximation, a new `MatrixWaverec2` object raises
ValueError, whether `separable` is set or not. -/
theorem c64_band_clash {la : LinAlg ℝ} (hla : ExactLinAlg la) {w : Wavelet ℝ} {F : Nat} (hw : OrthBank w F)
    {axes : AxisHint} {orth : String} {sep : Bool} {md : Meta} {S K0 Ks : List Nat} {Kss : List (List Nat)} {t0 : Tensor ℝ}
    {e : Entry ℝ} {es : List (Entry ℝ)} (hg : GoodAxes axes S.length 2) (hdt : md.dtype = .float32 ∨ md.dtype = .float64)
    (ho : orth = "qr" ∨ orth = "gramschmidt") (hK0 : K0.length = 2) (hKl : ∀ K ∈ Ks :: Kss, K.length = 2)
    (h0 : Uniform md (setMany S (axesOf axes S.length 2) K0) t0)
    (hes : List.Forall₂ (fun e Ks => IsTuple (fun _ t => Uniform md (setMany S (axesOf axes S.length 2) Ks) t) e)
      (e :: es) (Ks :: Kss))
    (hind : ∀ k, k % 2 = 0 → F ≤ k → (∃ K ∈ (Ks :: Kss).getLast?.getD [], k ≤ 2 * K) → BoundaryIndep w F k)
    (hne : Ks ≠ K0) :
    ∃ rcfg rst, recInitN 2 w axes orth sep = .ok (rcfg, rst) ∧
      (recCallN 2 la rcfg rst ⟨false, .tensor t0 :: e :: es⟩).1 = .error .valueError := by
  have h2 := hw.two_le
  have hdt' : isDtypeSupported md.dtype = true := by unfold isDtypeSupported; simpa using hdt
  obtain ⟨_, hgs, hax⟩ := goodAxes_list hg
  have hb := le_last_bound ((Ks :: Kss).getLast?.getD [])
  refine ⟨_, _, recInitN_ok hg ho hw.len.1 hw.len.2.2.1, ?_⟩
  cases sep with
  | true =>
    obtain ⟨T, hT, -⟩ := boundary_familyS hla md hw ho (last_bound hind h2)
    exact clash_run (cfg := ⟨w, resolve axes 2, orth, true⟩) h2 hw.len.2.2.1 hgs hdt' hK0 hKl (by rw [hax]; exact h0)
      (by rw [hax]; exact hes) hb (recBuilds_sep rfl hT) hne
  | false =>
    obtain ⟨C, hC, -, -⟩ := boundary_family2 hla md hw ho (last_bound hind h2)
    refine clash_run (cfg := ⟨w, resolve axes 2, orth, false⟩) h2 hw.len.2.2.1 hgs hdt' hK0 hKl (by rw [hax]; exact h0)
      (by rw [hax]; exact hes) hb (recBuilds_nonsep (C := fun p q => (C p q).transpose) rfl ?_) hne
    intro p q q1 q2 q3 q4 q5 q6
    show constructBoundaryS2 la w md p q orth = _
    rw [boundaryS2_eq la md hw p q orth, hC p q q1 q2 q3 q4 q5 q6]
    rfl

/-! ### The hypotheses can be met -/

theorem exSyn_axis : GoodAxes (.int (-1)) 2 1 :=
  ⟨by decide, rfl, ⟨by
    intro a ha
    have : a = -1 := by simpa [resolve] using ha
    subst this
    exact ⟨by decide, by decide⟩, by decide⟩⟩

/-- A batch of three signals: an approximation of 3 samples and details of 3 and 5 samples.  The first step gives 6
samples, one of them is dropped, the second gives 10. -/
example (f g h : List Nat → ℝ) : ∃ la, ExactLinAlg la ∧ ∃ rcfg rst, ∃ T : Nat → Coo ℝ, ∃ z,
    recInit bank4 (.int (-1)) "qr" = .ok (rcfg, rst) ∧
    (∀ k, k % 2 = 0 → 4 ≤ k → k ≤ 10 → constructBoundaryS la bank4 ⟨.float64, 0⟩ k "qr" = .ok (T k)) ∧
    (recCall la rcfg rst [Tensor.ofFn ⟨.float64, 0⟩ [3, 3] f, Tensor.ofFn ⟨.float64, 0⟩ [3, 3] g,
      Tensor.ofFn ⟨.float64, 0⟩ [3, 5] h]).1 = .ok z ∧ z.shape = [3, 10] := by
  obtain ⟨la, hla⟩ := exists_exactLinAlg
  obtain ⟨rcfg, rst, T, z, h1, h2, h3, -, h5, -⟩ := c64_matrix hla bank4_orth (axis := .int (-1)) (orth := "qr")
    (md := ⟨.float64, 0⟩) (S := [3, 0]) (c0 := Tensor.ofFn ⟨.float64, 0⟩ [3, 3] f)
    (rest := [Tensor.ofFn ⟨.float64, 0⟩ [3, 3] g, Tensor.ofFn ⟨.float64, 0⟩ [3, 5] h]) (ns := [3, 5])
    exSyn_axis (Or.inr rfl) (Or.inl rfl)
    ⟨by intro c hc; simp only [List.mem_cons, List.not_mem_nil, or_false] at hc; rcases hc with rfl | rfl | rfl <;> rfl,
      by intro c hc; simp only [List.mem_cons, List.not_mem_nil, or_false] at hc; rcases hc with rfl | rfl | rfl <;> rfl⟩
    rfl (fun k a b _ => bank4_indep a b) (by
      show Consistent 2 3 [3, 5]
      exact ⟨rfl, by decide, Or.inr rfl, rfl, by decide⟩)
    ⟨by decide, by show 4 ≤ 2 * 5; decide⟩
  exact ⟨la, hla, rcfg, rst, T, z, h1, h2, h3, h5⟩

/-- A first detail of another length than the approximation. -/
example (f g : List Nat → ℝ) : ∃ la, ExactLinAlg la ∧ ∃ rcfg rst, recInit bank4 (.int (-1)) "qr" = .ok (rcfg, rst) ∧
    (recCall la rcfg rst [Tensor.ofFn ⟨.float64, 0⟩ [3, 3] f, Tensor.ofFn ⟨.float64, 0⟩ [3, 4] g]).1 =
      .error .valueError := by
  obtain ⟨la, hla⟩ := exists_exactLinAlg
  exact ⟨la, hla, c64_matrix_band_clash hla bank4_orth (axis := .int (-1)) (orth := "qr")
    (md := ⟨.float64, 0⟩) (S := [3, 0]) exSyn_axis (Or.inr rfl) (Or.inl rfl)
    ⟨by intro c hc; simp only [List.mem_cons, List.not_mem_nil, or_false] at hc; rcases hc with rfl | rfl <;> rfl,
      by intro c hc; simp only [List.mem_cons, List.not_mem_nil, or_false] at hc; rcases hc with rfl | rfl <;> rfl⟩
    (fun k a b _ => bank4_indep a b) (by show (4 : Nat) ≠ 3; decide)⟩

/-- Images of 2 × 3 coefficients, then of 4 × 5: the first step gives 4 × 6, the second 8 × 10. -/
example (f g h : List Nat → ℝ) : ∃ la, ExactLinAlg la ∧ ∀ sep, ∃ rcfg rst z,
    recInitN 2 bank4 (.seq [2, -3]) "qr" sep = .ok (rcfg, rst) ∧
    (recCallN 2 la rcfg rst ⟨false, [.tensor (Tensor.ofFn ⟨.float64, 0⟩ [3, 5, 2] f),
      .tuple (Tensor.ofFn ⟨.float64, 0⟩ [3, 5, 2] g) (Tensor.ofFn ⟨.float64, 0⟩ [3, 5, 2] h) (Tensor.ofFn ⟨.float64, 0⟩ [3, 5, 2] f),
      .tuple (Tensor.ofFn ⟨.float64, 0⟩ [5, 5, 4] f) (Tensor.ofFn ⟨.float64, 0⟩ [5, 5, 4] g)
        (Tensor.ofFn ⟨.float64, 0⟩ [5, 5, 4] h)]⟩).1 = .ok z ∧ z.shape = [10, 5, 8] := by
  obtain ⟨la, hla⟩ := exists_exactLinAlg
  have hes : List.Forall₂ (fun e Ks => IsTuple (fun _ t => Uniform ⟨.float64, 0⟩ (setMany [1, 5, 1] (axesOf (.seq [2, -3]) 3 2) Ks) t) e)
      [Entry.tuple (Tensor.ofFn ⟨.float64, 0⟩ [3, 5, 2] g) (Tensor.ofFn ⟨.float64, 0⟩ [3, 5, 2] h) (Tensor.ofFn ⟨.float64, 0⟩ [3, 5, 2] f),
      .tuple (Tensor.ofFn ⟨.float64, 0⟩ [5, 5, 4] f) (Tensor.ofFn ⟨.float64, 0⟩ [5, 5, 4] g)
        (Tensor.ofFn ⟨.float64, 0⟩ [5, 5, 4] h)] [[2, 3], [4, 5]] :=
    .cons ⟨_, _, _, rfl, ⟨rfl, rfl⟩, ⟨rfl, rfl⟩, ⟨rfl, rfl⟩⟩ (.cons ⟨_, _, _, rfl, ⟨rfl, rfl⟩, ⟨rfl, rfl⟩, ⟨rfl, rfl⟩⟩ .nil)
  have hc : ConsistentN 2 [2, 3] [[2, 3], [4, 5]] :=
    ⟨rfl, by decide, .cons (Or.inl rfl) (.cons (Or.inr rfl) .nil), rfl, by decide⟩
  refine ⟨la, hla, ?_⟩
  rintro (_ | _)
  · obtain ⟨rcfg, rst, T, z, h1, -, h3, -, h5, -⟩ := c64_nonseparable hla bank4_orth (axes := .seq [2, -3]) (orth := "qr")
      (md := ⟨.float64, 0⟩) (S := [1, 5, 1]) (K0 := [2, 3]) (Kss := [[2, 3], [4, 5]])
      (t0 := Tensor.ofFn ⟨.float64, 0⟩ [3, 5, 2] f) exN_axes2 (Or.inr rfl) (Or.inl rfl) rfl (by decide) ⟨rfl, rfl⟩
      (by show ∀ k ∈ [3, 5, 2], 0 < k; decide) hes (by simp) hc ⟨by decide, by show ∀ K ∈ [4, 5], 4 ≤ 2 * K; decide⟩ (fun k a b _ => bank4_indep a b)
    exact ⟨rcfg, rst, z, h1, h3, h5⟩
  · obtain ⟨rcfg, rst, T, z, h1, -, h3, -, h5, -⟩ := c64_matrix2 hla bank4_orth (axes := .seq [2, -3]) (orth := "qr")
      (md := ⟨.float64, 0⟩) (S := [1, 5, 1]) (K0 := [2, 3]) (Kss := [[2, 3], [4, 5]])
      (t0 := Tensor.ofFn ⟨.float64, 0⟩ [3, 5, 2] f) exN_axes2 (Or.inr rfl) (Or.inl rfl) rfl (by decide) ⟨rfl, rfl⟩
      (by show ∀ k ∈ [3, 5, 2], 0 < k; decide) hes (by simp) hc ⟨by decide, by show ∀ K ∈ [4, 5], 4 ≤ 2 * K; decide⟩ (fun k a b _ => bank4_indep a b)
    exact ⟨rcfg, rst, z, h1, h3, h5⟩

/-- Volumes: an approximation of 4 × 2 × 3 coefficients with details of 3 × 2 × 3. -/
example (f g : List Nat → ℝ) : ∃ la, ExactLinAlg la ∧ ∃ rcfg rst z,
    recInitN 3 bank4 .none "qr" true = .ok (rcfg, rst) ∧
    (recCallN 3 la rcfg rst ⟨false, [.tensor (Tensor.ofFn ⟨.float64, 0⟩ [7, 4, 2, 3] f),
      .dict (keysM3.map fun k => (k, Tensor.ofFn ⟨.float64, 0⟩ [7, 3, 2, 3] g))]⟩).1 = .ok z ∧ z.shape = [7, 6, 4, 6] := by
  obtain ⟨la, hla⟩ := exists_exactLinAlg
  obtain ⟨rcfg, rst, T, z, h1, -, h3, -, h5, -⟩ := c64_matrix3 hla bank4_orth (axes := .none) (orth := "qr")
    (md := ⟨.float64, 0⟩) (S := [7, 1, 1, 1]) (K0 := [4, 2, 3]) (K1 := [3, 2, 3]) (Kss := [[3, 2, 3]])
    (t0 := Tensor.ofFn ⟨.float64, 0⟩ [7, 4, 2, 3] f)
    (es := [.dict (keysM3.map fun k => (k, Tensor.ofFn ⟨.float64, 0⟩ [7, 3, 2, 3] g))])
    exN_axes3 (Or.inr rfl) (Or.inl rfl) rfl (by decide) ⟨rfl, rfl⟩
    (.cons ⟨_, rfl, rfl, by
      intro q hq
      obtain ⟨k, -, rfl⟩ := List.mem_map.mp hq
      exact ⟨rfl, rfl⟩⟩ .nil) (by simp) (.cons (by decide) (.cons (by decide) (.cons (by decide) .nil)))
    ⟨rfl, by decide⟩ (by show ∀ K ∈ [3, 2, 3], 4 ≤ 2 * K; decide) (fun k a b _ => bank4_indep a b)
  exact ⟨la, hla, rcfg, rst, z, h1, h3, h5⟩

/-- Volumes: an approximation of 4 × 2 × 2 coefficients with details of 3 × 2 × 3. -/
example (f g : List Nat → ℝ) : ∃ la, ExactLinAlg la ∧ ∃ rcfg rst,
    recInitN 3 bank4 .none "qr" true = .ok (rcfg, rst) ∧
    (recCallN 3 la rcfg rst ⟨false, [.tensor (Tensor.ofFn ⟨.float64, 0⟩ [7, 4, 2, 2] f),
      .dict (keysM3.map fun k => (k, Tensor.ofFn ⟨.float64, 0⟩ [7, 3, 2, 3] g))]⟩).1 = .error .runtimeError := by
  obtain ⟨la, hla⟩ := exists_exactLinAlg
  exact ⟨la, hla, c64_matrix3_small hla bank4_orth (axes := .none) (orth := "qr")
    (md := ⟨.float64, 0⟩) (S := [7, 1, 1, 1]) (K0 := [4, 2, 2]) (K1 := [3, 2, 3]) (Kss := [])
    exN_axes3 (Or.inr rfl) (Or.inl rfl) rfl (by decide) ⟨rfl, rfl⟩
    (.cons ⟨_, rfl, rfl, by
      intro q hq
      obtain ⟨k, -, rfl⟩ := List.mem_map.mp hq
      exact ⟨rfl, rfl⟩⟩ .nil) ⟨2, by decide, by decide⟩ (fun k a b _ => bank4_indep a b)⟩

/-- First details of other sizes than the approximation. -/
example (f g : List Nat → ℝ) (sep : Bool) : ∃ la, ExactLinAlg la ∧ ∃ rcfg rst,
    recInitN 2 bank4 (.seq [2, -3]) "qr" sep = .ok (rcfg, rst) ∧
    (recCallN 2 la rcfg rst ⟨false, [.tensor (Tensor.ofFn ⟨.float64, 0⟩ [3, 5, 2] f),
      .tuple (Tensor.ofFn ⟨.float64, 0⟩ [3, 5, 3] g) (Tensor.ofFn ⟨.float64, 0⟩ [3, 5, 3] g)
        (Tensor.ofFn ⟨.float64, 0⟩ [3, 5, 3] f)]⟩).1 = .error .valueError := by
  obtain ⟨la, hla⟩ := exists_exactLinAlg
  exact ⟨la, hla, c64_band_clash hla bank4_orth (axes := .seq [2, -3]) (orth := "qr")
      (md := ⟨.float64, 0⟩) (S := [1, 5, 1]) (K0 := [2, 3]) (Ks := [3, 3]) (Kss := [])
      exN_axes2 (Or.inr rfl) (Or.inl rfl) rfl (by decide) ⟨rfl, rfl⟩
      (.cons ⟨_, _, _, rfl, ⟨rfl, rfl⟩, ⟨rfl, rfl⟩, ⟨rfl, rfl⟩⟩ .nil) (fun k a b _ => bank4_indep a b) (by decide)⟩

end Verif.Props
