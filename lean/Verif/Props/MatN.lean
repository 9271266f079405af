/-
Property C43: `MatrixWavedec2`, `MatrixWaverec2` (src/ptwt/matmul_transform_2.py), `MatrixWavedec3` and
`MatrixWaverec3` (src/ptwt/matmul_transform_3.py).
-/
import Verif.Lemmas.MatNTop
import Verif.Props.Mat1
import Verif.Props.ConvNd

namespace Verif.Props
open Tensor Spec

/-- An upper bound for the padded sizes. -/
def sizeBound (ns : List Nat) : Nat := (ns.map evenLen).foldr max 0

theorem le_sizeBound : ∀ (ns : List Nat), ∀ k ∈ ns, evenLen k ≤ sizeBound ns
  | [], k, hk => by simp at hk
  | n :: ns, k, hk => by
    show _ ≤ max (evenLen n) (sizeBound ns)
    rcases List.mem_cons.mp hk with rfl | hk
    · exact le_max_left _ _
    · exact le_trans (le_sizeBound ns k hk) (le_max_right _ _)

theorem exists_of_le_sizeBound : ∀ (ns : List Nat) (k : Nat), 0 < k → k ≤ sizeBound ns → ∃ n ∈ ns, k ≤ evenLen n
  | [], k, h0, h => by simp [sizeBound] at h; omega
  | n :: ns, k, h0, h => by
    rcases le_max_iff.mp (show k ≤ max (evenLen n) (sizeBound ns) from h) with h | h
    · exact ⟨n, by simp, h⟩
    · obtain ⟨q, hq, h⟩ := exists_of_le_sizeBound ns k h0 h
      exact ⟨q, List.mem_cons_of_mem _ hq, h⟩

theorem decInitN_ok {R : Type} {n F : Nat} {w : Wavelet R} {level : Option Int} {axes : AxisHint} {r : Nat} {orth : String}
    {sep : Bool} {mode : Option String} (hg : GoodAxes axes r n) (ho : orth = "qr" ∨ orth = "gramschmidt")
    (h1 : w.decLo.length = F) (h2 : w.recLo.length = F) :
    decInitN n w level axes orth sep mode = .ok (⟨w, resolve axes n, orth, mode, sep⟩, ⟨level, none, [], [], false, []⟩) := by
  unfold decInitN
  rw [(goodAxes_list hg).1]
  simp only
  rw [if_neg (by rcases ho with rfl | rfl <;> decide), if_neg (by omega)]

theorem recInitN_ok {R : Type} {n F : Nat} {w : Wavelet R} {axes : AxisHint} {r : Nat} {orth : String}
    {sep : Bool} (hg : GoodAxes axes r n) (ho : orth = "qr" ∨ orth = "gramschmidt")
    (h1 : w.decLo.length = F) (h2 : w.recLo.length = F) :
    recInitN n w axes orth sep = .ok (⟨w, resolve axes n, orth, sep⟩, ⟨none, none, [], false⟩) := by
  unfold recInitN
  rw [(goodAxes_list hg).1]
  simp only
  rw [if_neg (by rcases ho with rfl | rfl <;> decide), if_neg (by omega)]

theorem batchOf_pos {axes : AxisHint} {n : Nat} {x : Tensor ℝ} (hpos : ∀ k ∈ x.shape, 0 < k) : 1 ≤ batchOf axes n x := by
  unfold batchOf
  have : ∀ l : List Nat, (∀ k ∈ l, 0 < k) → 0 < prodL l := by
    intro l
    induction l with
    | nil => intro _; decide
    | cons a l ih =>
      intro h
      rw [prodL_cons]
      exact Nat.mul_pos (h a (by simp)) (ih fun k hk => h k (List.mem_cons_of_mem _ hk))
  refine this _ ?_
  intro k hk
  unfold pick at hk
  rw [List.mem_map] at hk
  obtain ⟨d, hd, rfl⟩ := hk
  have hd' : d < x.shape.length := batchAxes_lt d hd
  rw [List.getD_eq_getElem _ _ hd']
  exact hpos _ (List.getElem_mem hd')

/-- **C43.** The separable two-dimensional transform.  For every orthogonal filter bank, every tensor
without empty axes, every pair of axes, padding mode, orthogonalisation method and level (positive, or
`None`) such that the cut-off rows are independent at all lengths in question: the analysis succeeds;
its results are the coefficients which the orthogonal boundary matrices of C38 give level by level along
both axes; and the synthesis returns the input, with at most one more row and column. -/
theorem c43_roundtrip2 {la : LinAlg ℝ} (hla : ExactLinAlg la) {w : Wavelet ℝ} {F : Nat} (hw : OrthBank w F)
    {x : Tensor ℝ} {axes : AxisHint} {m : Mode} {mode : Option String} {orth : String} {level : Option Int}
    (hg : GoodAxes axes x.rank 2) (hdt : x.md.dtype = .float32 ∨ x.md.dtype = .float64)
    (hpos : ∀ k ∈ x.shape, 0 < k)
    (hm : Selects mode m) (ho : orth = "qr" ∨ orth = "gramschmidt") (hlev : ∀ l, level = some l → 1 ≤ l)
    (hind : ∀ k, k % 2 = 0 → F ≤ k → (∃ n ∈ sizes (axesOf axes x.rank 2) x.shape, k ≤ evenLen n) → BoundaryIndep w F k)
    {L : Nat} (hL : L = mLevelsN F (levelsN level F (sizes (axesOf axes x.rank 2) x.shape))
      (sizes (axesOf axes x.rank 2) x.shape)) :
    ∃ dcfg dst rcfg rst, ∃ C : Nat → Coo ℝ, ∃ c z,
      decInitN 2 w level axes orth true mode = .ok (dcfg, dst) ∧ recInitN 2 w axes orth true = .ok (rcfg, rst) ∧
      (∀ k, k % 2 = 0 → F ≤ k → (∃ n ∈ sizes (axesOf axes x.rank 2) x.shape, k ≤ evenLen n) →
        constructBoundaryA la w x.md k orth = .ok (C k) ∧ OrthonormalCols k (C k).den) ∧
      (decCallN 2 la dcfg dst x).1 = .ok c ∧
      IsMatDwtN IsTupleSwapped m (fun k => (C k).den) (axesOf axes x.rank 2) L x c ∧
      (recCallN 2 la rcfg rst c).1 = .ok z ∧
      Reconstructs (axesOf axes x.rank 2) L x z ∧
      (0 < L → EvenPaddedN m (axesOf axes x.rank 2) x z) := by
  have h2 := hw.two_le
  have hdt' : isDtypeSupported x.md.dtype = true := by unfold isDtypeSupported; simpa using hdt
  obtain ⟨_, hgs, hax⟩ := goodAxes_list hg
  set ns := sizes (axesOf axes x.rank 2) x.shape with hns
  set N := sizeBound ns with hN
  obtain ⟨C, hC, hF, hO⟩ := boundary_family hla x.md hw ho (N := N)
    (fun k a b c => hind k a b (exists_of_le_sizeBound ns k (by omega) c))
  have hB : 1 ≤ batchOf (.seq (resolve axes 2)) 2 x := batchOf_pos hpos
  have hp : ∀ k ∈ ns, 0 < k := by
    intro k hk
    rw [hns] at hk
    unfold sizes at hk
    rw [List.mem_map] at hk
    obtain ⟨a, ha, rfl⟩ := hk
    have : a < x.shape.length := hg.lt a ha
    rw [List.getD_eq_getElem _ _ this]
    exact hpos _ (List.getElem_mem this)
  have hle := le_sizeBound ns
  obtain ⟨lv, c, e1, _, hc⟩ := decCallN_ok (la := la) (cfg := ⟨w, resolve axes 2, orth, mode, true⟩) (x := x) (n := 2)
    (N := N) (F := F) (band := matBand m fun k => (C k).den) (Ms := matsAt C) (level := level)
    (step := mat2Step mode) isTupleSwapped_kind h2 hw.len.1 hgs hdt'
    (decBuilds_sep rfl hC) (by rw [hax]; exact hle) hlev (fun _ => by rw [hax]; exact hp)
    (mat2Step_ok hB hm h2 hF) (fun st y ds => by unfold decApplyN; simp only [show ¬ (2 : Nat) = 3 by omega, if_false, if_true]; rfl)
  simp only [hax, ← hns, ← hL] at hc
  have hD : ∀ q, q % 2 = 0 → F ≤ q → q ≤ N →
      constructBoundaryS la w x.md q orth = .ok ((fun q => (C q).transpose) q) := by
    intro q q1 q2 q3
    rw [boundaryS_eq la x.md hw q orth, hC q q1 q2 q3]
    rfl
  obtain ⟨z, ez, z0, z1⟩ := recCallN_ok (la := la) (cfg := ⟨w, resolve axes 2, orth, true⟩) (x := x) (n := 2)
    (N := N) (F := F) (L := levelsN level F ns) (m := m) (band := matBand m fun k => (C k).den) (Ms := matsAt fun q => (C q).transpose) (c := c)
    (St := fun ns X t => ShowsN t x.md (batchOf (.seq (resolve axes 2)) 2 x) ns X)
    (step := mrec2Step true (batchOf (.seq (resolve axes 2)) 2 x)) isTupleSwapped_kind h2 hw.len.2.2.1 hgs hdt'
    (recBuilds_sep rfl hD) (matsAt_even _) (by rw [hax]; exact hle) (fun _ _ _ h => h)
    (mrec2Step_ok hB h2 hF hO)
    (by
      intro mats c ds r es hl hr hi
      unfold recApplyN headTensor
      simp only [bind, Except.bind, hi, show ¬ (2 : Nat) = 3 by omega, if_false, List.tail_cons, hr, mrec2Loop_eq])
    (by
      rintro c e ks Y hkl hlast ⟨a, b, d, rfl, s1, -, -⟩
      match ks, hkl with
      | [p, q], _ =>
      have e1 : a.sizeFromEnd 2 = evenLen p / 2 := by unfold Tensor.sizeFromEnd; rw [s1.shape]; rfl
      have e2 : a.sizeFromEnd 1 = evenLen q / 2 := by unfold Tensor.sizeFromEnd; rw [s1.shape]; rfl
      have := evenLen_even p
      have := evenLen_even q
      unfold recShape
      simp only [hlast, show ¬ (2 : Nat) = 3 by omega, if_false, firstRef2, bind, Except.bind, e1, e2,
        List.map_cons, List.map_nil, pure, Except.pure]
      rw [show evenLen p / 2 * 2 = evenLen p by omega, show evenLen q / 2 * 2 = evenLen q by omega])
    (by
      intro c r _ hi hr
      unfold recShape
      simp only [hi, List.getLast?_singleton, show ¬ (2 : Nat) = 3 by omega, if_false, firstRef2, hr]
      rw [if_neg (by omega)]
      exact ⟨_, rfl⟩)
    (by simp only [hax, ← hns, ← hL]; exact hc)
  simp only [hax, ← hns, ← hL] at z0 z1
  refine ⟨_, _, _, _, C, c, z, decInitN_ok hg ho hw.len.1 hw.len.2.2.1, recInitN_ok hg ho hw.len.1 hw.len.2.2.1, ?_,
    by rw [e1], hc, ez, reconstructs_of (m := m) hg z0 (fun h => ?_), z1⟩
  · rintro k k1 k2 ⟨n, hn, k3⟩
    have := hle n hn
    exact ⟨hC k k1 k2 (by omega), hO k k1 k2 (by omega)⟩
  · have := z1 h
    unfold EvenPaddedN at this
    exact this

/-- **C43.** The three-dimensional transform.  For every orthogonal filter bank, every tensor (also
with an empty batch), all axes, padding modes, methods and levels such that the cut-off rows are
independent: the analysis gives the coefficients of the boundary matrices along the three axes, in
dictionaries with the seven detail keys; and, if there is at least one level, the synthesis returns the
input with at most one more sample along every axis. -/
theorem c43_roundtrip3 {la : LinAlg ℝ} (hla : ExactLinAlg la) {w : Wavelet ℝ} {F : Nat} (hw : OrthBank w F)
    {x : Tensor ℝ} {axes : AxisHint} {m : Mode} {mode : Option String} {orth : String} {level : Option Int}
    (hg : GoodAxes axes x.rank 3) (hdt : x.md.dtype = .float32 ∨ x.md.dtype = .float64)
    (hm : Selects mode m) (ho : orth = "qr" ∨ orth = "gramschmidt") (hlev : ∀ l, level = some l → 1 ≤ l)
    (hne : level = none → ∀ k ∈ sizes (axesOf axes x.rank 3) x.shape, 0 < k)
    (hind : ∀ k, k % 2 = 0 → F ≤ k → (∃ n ∈ sizes (axesOf axes x.rank 3) x.shape, k ≤ evenLen n) → BoundaryIndep w F k)
    {L : Nat} (hL : L = mLevelsN F (levelsN level F (sizes (axesOf axes x.rank 3) x.shape))
      (sizes (axesOf axes x.rank 3) x.shape)) :
    ∃ dcfg dst rcfg rst, ∃ C : Nat → Coo ℝ, ∃ c,
      decInitN 3 w level axes orth true mode = .ok (dcfg, dst) ∧ recInitN 3 w axes orth true = .ok (rcfg, rst) ∧
      (∀ k, k % 2 = 0 → F ≤ k → (∃ n ∈ sizes (axesOf axes x.rank 3) x.shape, k ≤ evenLen n) →
        constructBoundaryA la w x.md k orth = .ok (C k) ∧ OrthonormalCols k (C k).den) ∧
      (decCallN 3 la dcfg dst x).1 = .ok c ∧
      IsMatDwtN (IsDict keysM3) m (fun k => (C k).den) (axesOf axes x.rank 3) L x c ∧
      (0 < L → ∃ z, (recCallN 3 la rcfg rst c).1 = .ok z ∧
        Reconstructs (axesOf axes x.rank 3) L x z ∧ EvenPaddedN m (axesOf axes x.rank 3) x z) := by
  have h2 := hw.two_le
  have hdt' : isDtypeSupported x.md.dtype = true := by unfold isDtypeSupported; simpa using hdt
  obtain ⟨_, hgs, hax⟩ := goodAxes_list hg
  set ns := sizes (axesOf axes x.rank 3) x.shape with hns
  set N := sizeBound ns with hN
  obtain ⟨C, hC, hF, hO⟩ := boundary_family hla x.md hw ho (N := N)
    (fun k a b c => hind k a b (exists_of_le_sizeBound ns k (by omega) c))
  have hle := le_sizeBound ns
  obtain ⟨lv, c, e1, _, hc⟩ := decCallN_ok (la := la) (cfg := ⟨w, resolve axes 3, orth, mode, true⟩) (x := x) (n := 3)
    (N := N) (F := F) (band := matBand m fun k => (C k).den) (Ms := matsAt C) (level := level)
    (step := mat3Step mode) (isDict_kind keysM3) h2 hw.len.1 hgs hdt'
    (decBuilds_sep rfl hC) (by rw [hax]; exact hle) hlev (by rw [hax]; exact hne)
    (mat3Step_ok hm h2 hF) (fun st y ds => by unfold decApplyN; simp only [if_true]; rfl)
  simp only [hax, ← hns, ← hL] at hc
  have hD : ∀ q, q % 2 = 0 → F ≤ q → q ≤ N →
      constructBoundaryS la w x.md q orth = .ok ((fun q => (C q).transpose) q) := by
    intro q q1 q2 q3
    rw [boundaryS_eq la x.md hw q orth, hC q q1 q2 q3]
    rfl
  refine ⟨_, _, _, _, C, c, decInitN_ok hg ho hw.len.1 hw.len.2.2.1, recInitN_ok hg ho hw.len.1 hw.len.2.2.1, ?_,
    by rw [e1], hc, ?_⟩
  · rintro k k1 k2 ⟨n, hn, k3⟩
    have := hle n hn
    exact ⟨hC k k1 k2 (by omega), hO k k1 k2 (by omega)⟩
  intro hL0
  obtain ⟨z, ez, z0, z1⟩ := recCallN_ok (la := la) (cfg := ⟨w, resolve axes 3, orth, true⟩) (x := x) (n := 3)
    (N := N) (F := F) (L := levelsN level F ns) (m := m) (band := matBand m fun k => (C k).den) (Ms := matsAt fun q => (C q).transpose) (c := c)
    (St := StBig x.md (batchOf (.seq (resolve axes 3)) 3 x))
    (step := fun ms t e _ => mrec3Step ms t e) (isDict_kind keysM3) h2 hw.len.2.2.1 hgs hdt'
    (recBuilds_sep rfl hD) (matsAt_even _) (by rw [hax]; exact hle) (fun _ _ _ h => StBig.of_shows h)
    (mrec3Step_ok h2 hF hO)
    (by
      intro mats c ds r es hl hr hi
      unfold recApplyN headTensor
      simp only [bind, Except.bind, hi, if_true, List.tail_cons, List.length_cons, Nat.add_sub_cancel]
      rw [mrec3Loop_eq _ _ _ _ (le_refl _) (by omega), hl, List.take_length])
    (by
      intro c e ks Y hkl hlast he
      obtain ⟨daa, ada, dda, aad, dad, add, ddd, rfl, -, -, -, -, -, -, s7⟩ := isDictM3_dest he
      match ks, hkl with
      | [p, q, r], _ =>
      have e1 : ddd.sizeFromEnd 3 = evenLen p / 2 := by unfold Tensor.sizeFromEnd; rw [s7.shape]; rfl
      have e2 : ddd.sizeFromEnd 2 = evenLen q / 2 := by unfold Tensor.sizeFromEnd; rw [s7.shape]; rfl
      have e3 : ddd.sizeFromEnd 1 = evenLen r / 2 := by unfold Tensor.sizeFromEnd; rw [s7.shape]; rfl
      have := evenLen_even p
      have := evenLen_even q
      have := evenLen_even r
      have hd : dictGet [("daa", daa), ("ada", ada), ("dda", dda), ("aad", aad), ("dad", dad), ("add", add),
          ("ddd", ddd)] "ddd" = .ok ddd := by simp [dictGet]
      unfold recShape
      simp only [hlast, if_true, hd, bind, Except.bind, e1, e2, e3,
        List.map_cons, List.map_nil, pure, Except.pure]
      rw [show evenLen p / 2 * 2 = evenLen p by omega, show evenLen q / 2 * 2 = evenLen q by omega,
        show evenLen r / 2 * 2 = evenLen r by omega])
    (by
      intro c r h0
      simp only [hax, ← hns, ← hL] at h0
      omega)
    (by simp only [hax, ← hns, ← hL]; exact hc)
  simp only [hax, ← hns, ← hL] at z0 z1
  refine ⟨z, ez, reconstructs_of (m := m) hg z0 (fun h => ?_), z1 hL0⟩
  have := z1 h
  unfold EvenPaddedN at this
  exact this

/-- **C43.** The three-dimensional synthesis raises ValueError for the result of an analysis without a
level (the input is shorter than the filters along some axis), in every state of the object; the
two-dimensional one returns the input in that case (`c43_roundtrip2`). -/
theorem c43_no_level3 {R : Type} [Field R] [DecidableEq R] (la : LinAlg R) (cfg : RecCfgN R) (st : RecStateN R)
    (il : Bool) (t : Tensor R) (hg : GoodAxes (.seq cfg.axes) t.rank 3)
    (hdt : t.md.dtype = .float32 ∨ t.md.dtype = .float64) :
    recCallN 3 la cfg st ⟨il, [.tensor t]⟩ = (.error .valueError, st) := by
  have hdt' : isDtypeSupported t.md.dtype = true := by unfold isDtypeSupported; simpa using hdt
  have wf : Coeffs.WF (fun u => u.rank = t.rank) (⟨il, [.tensor t]⟩ : Coeffs R) :=
    ⟨⟨t, [], rfl⟩, by simp [Entry.All], by simp⟩
  obtain ⟨c', ep, rel⟩ := preprocessCoeffs_ok hg wf (t₀ := t) rfl hdt'
  obtain ⟨il', items'⟩ := c'
  have hi := rel.items
  simp only at hi
  cases hi with
  | @cons _ e0 _ rest' hr0 hrs =>
    cases hrs
    cases hr0 with
    | @tensor _ u0 hp0 =>
      have hck : checkSameDeviceDtype (⟨il', [.tensor u0]⟩ : Coeffs R) = .ok u0.md :=
        checkSameDeviceDtype_ok ⟨⟨u0, [], rfl⟩, by simp [Entry.All], by simp⟩
      unfold recCallN recInputN
      simp only [bind, Except.bind, ep, hck]
      rfl

theorem ensureAxes_eq {axes : AxisHint} {n : Nat} (hn : 1 ≤ n) :
    ensureAxes axes n = if (resolve axes n).length = n ∧ (resolve axes n).Nodup then .ok (resolve axes n)
      else .error .valueError := by
  cases axes with
  | none =>
    have h1 : (resolve .none n).length = n := by simp [resolve]
    have h2 : (resolve .none n).Nodup := by
      unfold resolve
      refine List.Nodup.map ?_ List.nodup_range
      intro a b h
      simpa using h
    rw [if_pos ⟨h1, h2⟩]
    simp only [ensureAxes, getDefaultAxes, resolve]; rw [if_neg (by omega)]
  | int a =>
    by_cases h : n = 1
    · subst h; simp [ensureAxes, resolve]
    · have h' : ¬ 1 = n := fun e => h e.symm
      simp [ensureAxes, resolve, h, h']
  | seq as =>
    unfold ensureAxes resolve checkAxesArgument
    by_cases h : as.length = n
    · by_cases h2 : as.Nodup <;> simp [h, h2] <;> rfl
    · simp [h]; rfl

/-- **C43.** All four constructors accept exactly the right number of different axes, the two known
methods and filters of equal lengths; they raise ValueError for wrong axes and NotImplementedError for
an unknown method. -/
theorem c43_ctor {R : Type} (n : Nat) (hn : n = 2 ∨ n = 3) (w : Wavelet R) (level : Option Int) (axes : AxisHint)
    (orth : String) (sep : Bool) (mode : Option String) :
    ((∃ r, decInitN n w level axes orth sep mode = .ok r) ↔
      ((resolve axes n).length = n ∧ (resolve axes n).Nodup) ∧ (orth = "qr" ∨ orth = "gramschmidt") ∧
        w.decLo.length = w.recLo.length) ∧
    ((∃ r, recInitN n w axes orth sep = .ok r) ↔
      ((resolve axes n).length = n ∧ (resolve axes n).Nodup) ∧ (orth = "qr" ∨ orth = "gramschmidt") ∧
        w.decLo.length = w.recLo.length) ∧
    (¬ ((resolve axes n).length = n ∧ (resolve axes n).Nodup) →
      decInitN n w level axes orth sep mode = .error .valueError ∧ recInitN n w axes orth sep = .error .valueError) ∧
    ((resolve axes n).length = n ∧ (resolve axes n).Nodup → ¬ (orth = "qr" ∨ orth = "gramschmidt") →
      decInitN n w level axes orth sep mode = .error .notImplementedError ∧
      recInitN n w axes orth sep = .error .notImplementedError) := by
  have hs : isOrthogonalizeMethodSupported orth = true ↔ (orth = "qr" ∨ orth = "gramschmidt") := by
    unfold isOrthogonalizeMethodSupported; simp
  have hs' : isOrthogonalizeMethodSupported orth = false ↔ ¬ (orth = "qr" ∨ orth = "gramschmidt") := by
    rw [← hs]; simp
  unfold decInitN recInitN
  rw [ensureAxes_eq (by omega)]
  by_cases h1 : (resolve axes n).length = n ∧ (resolve axes n).Nodup
  · rw [if_pos h1]
    simp only
    by_cases h2 : orth = "qr" ∨ orth = "gramschmidt"
    · have e := hs.mpr h2
      by_cases h3 : w.decLo.length = w.recLo.length
      · simp [h2, h3, e, h1]
      · simp [h2, h3, e]
    · have e := hs'.mpr h2
      simp [h2, e, h1]
  · rw [if_neg h1]
    simp only [h1]
    simp

/-- **C43.** A level that is not positive is a ValueError for every tensor the object can take, in every
state of the object, and leaves the matrices as they were. -/
theorem c43_bad_level {R : Type} [Field R] [DecidableEq R] (n : Nat) (la : LinAlg R) (cfg : DecCfgN R)
    (st : DecStateN R) (x : Tensor R) {l : Int} (hl : st.level = some l) (h0 : l ≤ 0) :
    (∃ e, (decCallN n la cfg st x).1 = .error e) ∧
    (GoodAxes (.seq cfg.axes) x.rank n → (x.md.dtype = .float32 ∨ x.md.dtype = .float64) →
      (decCallN n la cfg st x).1 = .error .valueError) ∧
    (decCallN n la cfg st x).2.level = some l ∧ (decCallN n la cfg st x).2.mats = st.mats := by
  unfold decCallN
  cases e : preprocessTensor x n (.seq cfg.axes) false with
  | error e' =>
    refine ⟨⟨e', rfl⟩, ?_, hl, rfl⟩
    intro hg hdt
    have hdt' : isDtypeSupported x.md.dtype = true := by unfold isDtypeSupported; simpa using hdt
    obtain ⟨y, ey, _⟩ := preprocessTensor_ok hg hdt'
    rw [e] at ey
    cases ey
  | ok p =>
    have : decPrepareN la cfg p.1.md p.1.shape.tail st
        = (.error .valueError, { st with shape := some p.1.shape.tail }) := by
      unfold decPrepareN
      simp only [hl]
      rw [if_pos h0]
    simp only [this]
    exact ⟨⟨_, rfl⟩, fun _ _ => trivial, hl, trivial⟩

/-- **C43.** Tensors of another dtype, or axes the tensor does not have, are errors that leave the
object as it was. -/
theorem c43_bad_input {R : Type} [Field R] [DecidableEq R] (n : Nat) (la : LinAlg R) (cfg : DecCfgN R)
    (st : DecStateN R) (x : Tensor R)
    (h : ¬ (GoodAxes (.seq cfg.axes) x.rank n ∧ (x.md.dtype = .float32 ∨ x.md.dtype = .float64))) :
    ∃ e, decCallN n la cfg st x = (.error e, st) := by
  have h' : ¬ (GoodAxes (.seq cfg.axes) x.rank n ∧ isDtypeSupported x.md.dtype = true) := by
    intro hh
    exact h ⟨hh.1, by have := hh.2; unfold isDtypeSupported at this; simpa using this⟩
  obtain ⟨e, he⟩ := preprocessTensor_err (ch := false) h'
  refine ⟨e, ?_⟩
  unfold decCallN
  simp only [he]

/-! ### Using an object again -/

/-- The state of an analysis object after a sequence of calls. -/
def afterDecCallsN {R : Type} [Field R] [DecidableEq R] (n : Nat) (la : LinAlg R) (cfg : DecCfgN R) (st : DecStateN R)
    (xs : List (Tensor R)) : DecStateN R :=
  xs.foldl (fun st x => (decCallN n la cfg st x).2) st

/-- The state of a synthesis object after a sequence of calls. -/
def afterRecCallsN {R : Type} [Field R] [DecidableEq R] (n : Nat) (la : LinAlg R) (cfg : RecCfgN R) (st : RecStateN R)
    (xs : List (Coeffs R)) : RecStateN R :=
  xs.foldl (fun st x => (recCallN n la cfg st x).2) st

theorem decCallN_inv {R : Type} [Field R] [DecidableEq R] {n : Nat} {la : LinAlg R} {cfg : DecCfgN R} {md : Meta} {l : Int}
    (hl : 1 ≤ l) (hb : DecTotal la cfg md n)
    {s t : DecStateN R} (hs : DecInvN la cfg md l s) (ht : DecInvN la cfg md l t) {x : Tensor R} (hx : x.md = md) :
    (decCallN n la cfg s x).1 = (decCallN n la cfg t x).1 ∧ DecInvN la cfg md l (decCallN n la cfg s x).2 := by
  unfold decCallN
  by_cases hg : GoodAxes (.seq cfg.axes) x.rank n ∧ isDtypeSupported x.md.dtype = true
  · obtain ⟨y, ey, hy⟩ := preprocessTensor_ok hg.1 hg.2
    have hsh := hy.showsN
    have hmd : y.md = md := hsh.md.trans hx
    have hlen : y.shape.tail.length = n := by rw [hsh.shape]; exact sizes_len hg.1
    simp only [ey, hmd]
    obtain ⟨k1, k2⟩ := decPrepareN_inv hl hb hs y.shape.tail hlen
    obtain ⟨k3, _⟩ := decPrepareN_inv hl hb ht y.shape.tail hlen
    rw [k3, ← k1]
    cases hr : decPrepareN la cfg md y.shape.tail s with
    | mk r st =>
      rw [hr] at k2
      cases r with
      | error e => exact ⟨rfl, k2⟩
      | ok u => exact ⟨rfl, k2⟩
  · obtain ⟨e, he⟩ := preprocessTensor_err (ch := false) hg
    simp only [he]
    exact ⟨trivial, hs⟩

/-- The boundary matrices an analysis object may need exist. -/
def MatricesExist {R : Type} [Field R] [DecidableEq R] (n : Nat) (la : LinAlg R) (w : Wavelet R) (md : Meta) (orth : String)
    (sep : Bool) : Prop :=
  (sep = true ∧ ∀ q, q % 2 = 0 → w.decLo.length ≤ q → ∃ A, constructBoundaryA la w md q orth = .ok A) ∨
  (sep = false ∧ n = 2 ∧ ∀ p q, p % 2 = 0 → q % 2 = 0 → w.decLo.length ≤ p → w.decLo.length ≤ q →
    ∃ A, constructBoundaryA2 la w md p q orth = .ok A)

/-- The boundary matrices a synthesis object may need exist. -/
def SynthesisMatricesExist {R : Type} [Field R] [DecidableEq R] (n : Nat) (la : LinAlg R) (w : Wavelet R) (md : Meta)
    (orth : String) (sep : Bool) : Prop :=
  (sep = true ∧ ∀ q, q % 2 = 0 → w.recLo.length ≤ q → ∃ A, constructBoundaryS la w md q orth = .ok A) ∨
  (sep = false ∧ n = 2 ∧ ∀ p q, p % 2 = 0 → q % 2 = 0 → w.recLo.length ≤ p → w.recLo.length ≤ q →
    ∃ A, constructBoundaryS2 la w md p q orth = .ok A)

theorem mapM_total {α β : Type} {f : α → Except Err β} : ∀ (l : List α), (∀ a ∈ l, ∃ b, f a = .ok b) →
    ∃ bs, l.mapM f = .ok bs
  | [], _ => ⟨[], rfl⟩
  | a :: l, h => by
    obtain ⟨b, hb⟩ := h a (by simp)
    obtain ⟨bs, hbs⟩ := mapM_total l (fun b hb => h b (List.mem_cons_of_mem _ hb))
    refine ⟨b :: bs, ?_⟩
    rw [List.mapM_cons, hb]
    simp only [bind, Except.bind, hbs]
    rfl

theorem decTotal_of {R : Type} [Field R] [DecidableEq R] {n : Nat} {la : LinAlg R} {cfg : DecCfgN R} {md : Meta}
    (h : MatricesExist n la cfg.wavelet md cfg.orth cfg.separable) : DecTotal la cfg md n := by
  intro ns hl hns
  unfold levelMatsA
  rcases h with ⟨hs, h⟩ | ⟨hs, rfl, h⟩
  · rw [if_pos hs]
    exact mapM_total _ fun q hq => h q (hns q hq).1 (hns q hq).2
  · rw [if_neg (by rw [hs]; decide)]
    match ns, hl with
    | [p, q], _ =>
      obtain ⟨A, hA⟩ := h p q (hns p (by simp)).1 (hns q (by simp)).1 (hns p (by simp)).2 (hns q (by simp)).2
      refine ⟨[A], ?_⟩
      simp only [List.getD_cons_zero, List.getD_cons_succ, bind, Except.bind, hA]
      rfl

theorem recTotal_of {R : Type} [Field R] [DecidableEq R] {n : Nat} {la : LinAlg R} {cfg : RecCfgN R} {md : Meta}
    (h : SynthesisMatricesExist n la cfg.wavelet md cfg.orth cfg.separable) : RecTotal la cfg md n := by
  intro ns hl hns
  unfold levelMatsS
  rcases h with ⟨hs, h⟩ | ⟨hs, rfl, h⟩
  · rw [if_pos hs]
    exact mapM_total _ fun q hq => h q (hns q hq).1 (hns q hq).2
  · rw [if_neg (by rw [hs]; decide)]
    match ns, hl with
    | [p, q], _ =>
      obtain ⟨A, hA⟩ := h p q (hns p (by simp)).1 (hns q (by simp)).1 (hns p (by simp)).2 (hns q (by simp)).2
      refine ⟨[A], ?_⟩
      simp only [List.getD_cons_zero, List.getD_cons_succ, bind, Except.bind, hA]
      rfl

theorem decInitN_inv {R : Type} {n : Nat} {w : Wavelet R} {level : Option Int} {axes : AxisHint} {orth : String} {sep : Bool}
    {mode : Option String} {cfg : DecCfgN R} {st : DecStateN R}
    (h : decInitN n w level axes orth sep mode = .ok (cfg, st)) :
    cfg.wavelet = w ∧ cfg.orth = orth ∧ cfg.separable = sep ∧ st = ⟨level, none, [], [], false, []⟩ := by
  unfold decInitN at h
  split at h
  · cases h
  · split_ifs at h
    cases h
    exact ⟨rfl, rfl, rfl, rfl⟩

theorem recInitN_inv {R : Type} {n : Nat} {w : Wavelet R} {axes : AxisHint} {orth : String} {sep : Bool}
    {cfg : RecCfgN R} {st : RecStateN R} (h : recInitN n w axes orth sep = .ok (cfg, st)) :
    cfg.wavelet = w ∧ cfg.orth = orth ∧ cfg.separable = sep ∧ st = ⟨none, none, [], false⟩ := by
  unfold recInitN at h
  split at h
  · cases h
  · split_ifs at h
    cases h
    exact ⟨rfl, rfl, rfl, rfl⟩

/-- **C43.** With an explicit positive level, earlier calls leave no trace in an analysis object
(separable or not, two- or three-dimensional): whatever tensors of the same dtype and device it has been
applied to, of whatever sizes, including calls that raised, it returns for every further tensor what a
new object returns. -/
theorem c43_reuse {R : Type} [Field R] [DecidableEq R] (n : Nat) (la : LinAlg R) {w : Wavelet R} {l : Int} {axes : AxisHint}
    {orth : String} {sep : Bool} {mode : Option String} {cfg : DecCfgN R} {st : DecStateN R} (md : Meta) (hl : 1 ≤ l)
    (hinit : decInitN n w (some l) axes orth sep mode = .ok (cfg, st))
    (hb : MatricesExist n la w md orth sep)
    (xs : List (Tensor R)) (hxs : ∀ y ∈ xs, y.md = md) (x : Tensor R) (hx : x.md = md) :
    (decCallN n la cfg (afterDecCallsN n la cfg st xs) x).1 = (decCallN n la cfg st x).1 := by
  obtain ⟨rfl, rfl, rfl, rfl⟩ := decInitN_inv hinit
  have hb := decTotal_of hb
  have h0 : DecInvN la cfg md l ⟨some l, none, [], [], false, []⟩ := ⟨rfl, Or.inl rfl⟩
  have key : ∀ (xs : List (Tensor R)) (s : DecStateN R), (∀ y ∈ xs, y.md = md) → DecInvN la cfg md l s →
      DecInvN la cfg md l (afterDecCallsN n la cfg s xs) := by
    intro xs
    induction xs with
    | nil => intro s _ h; exact h
    | cons y ys ih =>
      intro s hy h
      exact ih _ (fun z hz => hy z (List.mem_cons_of_mem _ hz))
        (decCallN_inv hl hb h h (hy y (List.mem_cons_self ..))).2
  exact (decCallN_inv hl hb (key xs _ hxs h0) h0 hx).1

theorem recInputN_inv {R : Type} [Zero R] {n : Nat} (hn : n = 2 ∨ n = 3) {cfg : RecCfgN R} {c c' : Coeffs R} {ds s : List Nat}
    {md : Meta} (e : recInputN n cfg c = .ok (c', ds, md, s)) :
    (∃ t rest, c.items = .tensor t :: rest ∧ md = t.md) ∧ s.length = n := by
  unfold recInputN at e
  obtain ⟨p, e1, e⟩ := bind_ok_inv e
  obtain ⟨m', e2, e⟩ := bind_ok_inv e
  obtain ⟨s', e3, e⟩ := bind_ok_inv e
  cases e
  constructor
  · unfold preprocessCoeffs at e1
    rw [if_neg (by omega)] at e1
    obtain ⟨h, eh, e1⟩ := bind_ok_inv e1
    split_ifs at e1
    obtain ⟨ax, ea, e1⟩ := bind_ok_inv e1
    obtain ⟨df, ed, e1⟩ := bind_ok_inv e1
    obtain ⟨c1, ec1, e1⟩ := bind_ok_inv e1
    obtain ⟨h1, eh1, e1⟩ := bind_ok_inv e1
    obtain ⟨c2, ec2, e1⟩ := bind_ok_inv e1
    obtain ⟨c3, ec3, e1⟩ := bind_ok_inv e1
    cases e1
    obtain ⟨rest, hrest⟩ : ∃ rest, c.items = .tensor h :: rest := by
      unfold headTensor at eh
      obtain ⟨il, items⟩ := c
      cases items with
      | nil => cases eh
      | cons x xs =>
        cases x with
        | tensor t => cases eh; exact ⟨xs, rfl⟩
        | _ => cases eh
    have m1 : h1.md = h.md := by
      unfold preSwap at ec1
      split_ifs at ec1
      · obtain ⟨t', e', h'⟩ := coeffTreeMap_head eh ec1
        rw [eh1] at h'
        cases h'
        exact swapAxes_md e'
      · cases ec1
        rw [eh] at eh1
        cases eh1
        rfl
    obtain ⟨h2, eh2, m2⟩ : ∃ h2, headTensor c2 = .ok h2 ∧ h2.md = h1.md := by
      unfold preFold at ec2
      split_ifs at ec2
      · obtain ⟨t', e', h'⟩ := coeffTreeMap_head eh1 ec2
        cases e'
        exact ⟨_, h', rfl⟩
      · obtain ⟨t', e', h'⟩ := coeffTreeMap_head eh1 ec2
        exact ⟨_, h', reshape_md e'⟩
      · cases ec2
        exact ⟨_, eh1, rfl⟩
    have : c3 = c2 := by
      unfold preChannel at ec3
      simp at ec3
      exact ec3.symm
    subst this
    unfold checkSameDeviceDtype at e2
    obtain ⟨h3, eh3, e2⟩ := bind_ok_inv e2
    obtain ⟨_, _, e2⟩ := bind_ok_inv e2
    obtain ⟨_, _, e2⟩ := bind_ok_inv e2
    cases e2
    rw [eh2] at eh3
    cases eh3
    exact ⟨h, rest, hrest, by rw [m2, m1]⟩
  · unfold recShape at e3
    split at e3
    · cases e3
    · rcases hn with rfl | rfl
      · rw [if_neg (by omega)] at e3
        obtain ⟨_, _, e3⟩ := bind_ok_inv e3
        cases e3
        rfl
      · rw [if_pos rfl] at e3
        split at e3
        · obtain ⟨_, _, e3⟩ := bind_ok_inv e3
          cases e3
          rfl
        · cases e3

theorem recCallN_inv {R : Type} [Field R] [DecidableEq R] {n : Nat} (hn : n = 2 ∨ n = 3) {la : LinAlg R} {cfg : RecCfgN R}
    {md : Meta} (hb : RecTotal la cfg md n)
    {s t : RecStateN R} (hs : RecInvN la cfg md s) (ht : RecInvN la cfg md t) {c : Coeffs R}
    (hx : ∀ a rest, c.items = .tensor a :: rest → a.md = md) :
    (recCallN n la cfg s c).1 = (recCallN n la cfg t c).1 ∧ RecInvN la cfg md (recCallN n la cfg s c).2 := by
  unfold recCallN
  cases e : recInputN n cfg c with
  | error e' => exact ⟨rfl, hs⟩
  | ok p =>
    obtain ⟨c', ds, md', s'⟩ := p
    obtain ⟨⟨a, rest, hc, hmd⟩, hlen⟩ := recInputN_inv hn e
    rw [hx a rest hc] at hmd
    subst hmd
    simp only
    obtain ⟨k1, k2⟩ := recPrepareN_inv hb hs (c'.items.length - 1) s' hlen
    obtain ⟨k3, _⟩ := recPrepareN_inv hb ht (c'.items.length - 1) s' hlen
    rw [k3, ← k1]
    cases hr : recPrepareN la cfg md' (c'.items.length - 1) s' s with
    | mk r st =>
      rw [hr] at k2
      cases r with
      | error e => exact ⟨rfl, k2⟩
      | ok u => exact ⟨rfl, k2⟩

/-- **C43.** The same for synthesis objects, for coefficients of any sizes and levels, well-formed or
not. -/
theorem c43_reuse_synthesis {R : Type} [Field R] [DecidableEq R] (n : Nat) (hn : n = 2 ∨ n = 3) (la : LinAlg R)
    {w : Wavelet R} {axes : AxisHint} {orth : String} {sep : Bool} {cfg : RecCfgN R} {st : RecStateN R} (md : Meta)
    (hinit : recInitN n w axes orth sep = .ok (cfg, st))
    (hb : SynthesisMatricesExist n la w md orth sep)
    (cs : List (Coeffs R)) (hcs : ∀ c ∈ cs, ∀ a rest, c.items = .tensor a :: rest → a.md = md)
    (c : Coeffs R) (hc : ∀ a rest, c.items = .tensor a :: rest → a.md = md) :
    (recCallN n la cfg (afterRecCallsN n la cfg st cs) c).1 = (recCallN n la cfg st c).1 := by
  obtain ⟨rfl, rfl, rfl, rfl⟩ := recInitN_inv hinit
  have hb := recTotal_of hb
  have h0 : RecInvN la cfg md ⟨none, none, [], false⟩ := Or.inl rfl
  have key : ∀ (xs : List (Coeffs R)) (s : RecStateN R),
      (∀ c ∈ xs, ∀ a rest, c.items = .tensor a :: rest → a.md = md) →
      RecInvN la cfg md s → RecInvN la cfg md (afterRecCallsN n la cfg s xs) := by
    intro xs
    induction xs with
    | nil => intro s _ h; exact h
    | cons y ys ih =>
      intro s hy h
      exact ih _ (fun z hz => hy z (List.mem_cons_of_mem _ hz))
        (recCallN_inv hn hb h h (hy y (List.mem_cons_self ..))).2
  exact (recCallN_inv hn hb (key cs _ hcs h0) h0 hc).1

/-! ### The hypotheses are met -/

theorem exN_axes2 : GoodAxes (.seq [2, -3]) 3 2 :=
  ⟨by decide, rfl, ⟨by
    intro a ha
    simp only [resolve, List.mem_cons, List.not_mem_nil, or_false] at ha
    rcases ha with rfl | rfl <;> exact ⟨by decide, by decide⟩, by decide⟩⟩

theorem exN_axes3 : GoodAxes .none 4 3 :=
  ⟨by decide, rfl, ⟨by
    intro a ha
    have : a = -3 ∨ a = -2 ∨ a = -1 := by simpa [resolve, List.range, List.range.loop] using ha
    rcases this with rfl | rfl | rfl <;> exact ⟨by decide, by decide⟩, by decide⟩⟩

/-- A batch of two images of sizes 9 and 7 (odd at both levels), transformed along the axes 2 and 0. -/
example : ∃ la, ExactLinAlg la ∧ ∃ dcfg dst rcfg rst c z,
    decInitN 2 bank4 (some 2) (.seq [2, -3]) "qr" true (some "zero") = .ok (dcfg, dst) ∧
    recInitN 2 bank4 (.seq [2, -3]) "qr" true = .ok (rcfg, rst) ∧
    (decCallN 2 la dcfg dst (Tensor.ofFn ⟨.float64, 0⟩ [7, 2, 9] fun i => (i.getD 1 0 : ℝ))).1 = .ok c ∧
    c.items.length = 3 ∧ (recCallN 2 la rcfg rst c).1 = .ok z ∧ z.shape = [8, 2, 10] := by
  obtain ⟨la, hla⟩ := exists_exactLinAlg
  obtain ⟨dcfg, dst, rcfg, rst, C, c, z, h1, h2, _, h3, h4, h5, h6, _⟩ := c43_roundtrip2 hla bank4_orth
    (x := Tensor.ofFn ⟨.float64, 0⟩ [7, 2, 9] fun i => (i.getD 1 0 : ℝ)) (axes := .seq [2, -3]) (m := .zero)
    (mode := some "zero") (orth := "qr") (level := some 2) exN_axes2 (Or.inr rfl)
    (by intro k hk; have : k = 7 ∨ k = 2 ∨ k = 9 := by simpa using hk
        omega) (Or.inl rfl) (Or.inl rfl)
    (by rintro _ ⟨⟩; norm_num) (fun k a b _ => bank4_indep a b) (L := 2) (by decide)
  exact ⟨la, hla, dcfg, dst, rcfg, rst, c, z, h1, h2, h3, h4.length, h5, h6.shape (by omega)⟩

/-- A batch of two volumes, all sizes different. -/
example : ∃ la, ExactLinAlg la ∧ ∃ dcfg dst rcfg rst c z,
    decInitN 3 bank4 none .none "gramschmidt" true none = .ok (dcfg, dst) ∧
    recInitN 3 bank4 .none "gramschmidt" true = .ok (rcfg, rst) ∧
    (decCallN 3 la dcfg dst (Tensor.ofFn ⟨.float32, 0⟩ [2, 7, 6, 9] fun i => (i.getD 1 0 : ℝ))).1 = .ok c ∧
    c.items.length = 2 ∧ (recCallN 3 la rcfg rst c).1 = .ok z ∧ z.shape = [2, 8, 6, 10] := by
  obtain ⟨la, hla⟩ := exists_exactLinAlg
  obtain ⟨dcfg, dst, rcfg, rst, C, c, h1, h2, _, h3, h4, h5⟩ := c43_roundtrip3 hla bank4_orth
    (x := Tensor.ofFn ⟨.float32, 0⟩ [2, 7, 6, 9] fun i => (i.getD 1 0 : ℝ)) (axes := .none) (m := .reflect)
    (mode := none) (orth := "gramschmidt") (level := none) exN_axes3 (Or.inl rfl)
    (Or.inr ⟨rfl, rfl⟩) (Or.inr rfl)
    (by rintro _ ⟨⟩) (fun _ => by decide) (fun k a b _ => bank4_indep a b) (L := 1) (by decide)
  obtain ⟨z, h6, h7, _⟩ := h5 (by omega)
  exact ⟨la, hla, dcfg, dst, rcfg, rst, c, z, h1, h2, h3, h4.length, h6, h7.shape (by omega)⟩

/-- Objects whose matrices all exist. -/
example : ∃ la, ExactLinAlg la ∧ ∀ n, MatricesExist n la bank4 ⟨.float64, 0⟩ "qr" true ∧
    SynthesisMatricesExist n la bank4 ⟨.float64, 0⟩ "qr" true := by
  obtain ⟨la, hla⟩ := exists_exactLinAlg
  refine ⟨la, hla, fun n => ⟨Or.inl ⟨rfl, fun q h1 h2 => ?_⟩, Or.inl ⟨rfl, fun q h1 h2 => ?_⟩⟩⟩
  · have h2' : 4 ≤ q := h2
    obtain ⟨A, hA, _⟩ := c38_orthonormal hla ⟨.float64, 0⟩ bank4_orth h1 (by omega) (bank4_indep h1 h2') (Or.inl rfl)
    exact ⟨A, hA⟩
  · have h2' : 4 ≤ q := h2
    obtain ⟨A, hA, _⟩ := c38_orthonormal hla ⟨.float64, 0⟩ bank4_orth h1 (by omega) (bank4_indep h1 h2') (Or.inl rfl)
    rw [boundaryS_eq la _ bank4_orth, hA]
    exact ⟨_, rfl⟩

end Verif.Props
