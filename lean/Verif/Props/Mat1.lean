/-
Properties C40, C41 and C42: `MatrixWavedec` and `MatrixWaverec` (src/ptwt/matmul_transform.py).
-/
import Verif.Lemmas.Mat1Op
import Verif.Lemmas.OrthExist
import Verif.Props.Orth

namespace Verif.Props
open Tensor Spec

/-! ### C40: the boundary-wavelet transform and its inverse -/

theorem boundary_family {la : LinAlg ℝ} (hla : ExactLinAlg la) {w : Wavelet ℝ} {F N : Nat} (md : Meta)
    (hw : OrthBank w F) {orth : String} (ho : orth = "qr" ∨ orth = "gramschmidt")
    (hind : ∀ k, k % 2 = 0 → F ≤ k → k ≤ N → BoundaryIndep w F k) :
    ∃ C : Nat → Coo ℝ, (∀ k, k % 2 = 0 → F ≤ k → k ≤ N → constructBoundaryA la w md k orth = .ok (C k)) ∧
      Family C (fun k => (C k).den) md F N ∧
      ∀ k, k % 2 = 0 → F ≤ k → k ≤ N → OrthonormalCols k (C k).den := by
  have h2 := hw.two_le
  have key : ∀ k, ∃ c, k % 2 = 0 → F ≤ k → k ≤ N → constructBoundaryA la w md k orth = .ok c ∧ c.md = md ∧
      c.rows = k ∧ c.cols = k ∧ OrthonormalCols k c.den := by
    intro k
    by_cases h : k % 2 = 0 ∧ F ≤ k ∧ k ≤ N
    · obtain ⟨A, a1, a2, a3, a4, _, a5, _⟩ := c38_orthonormal hla md hw h.1 (by omega) (hind k h.1 h.2.1 h.2.2) ho
      exact ⟨A, fun _ _ _ => ⟨a1, a2, a3, a4, a5⟩⟩
    · exact ⟨⟨md, 0, 0, [], by simp⟩, fun h1 h2 h3 => absurd ⟨h1, h2, h3⟩ h⟩
  choose C hC using key
  exact ⟨C, fun k a b c => (hC k a b c).1, ⟨fun k a b c => (hC k a b c).2.1, fun k a b c => (hC k a b c).2.2.1,
    fun k a b c => (hC k a b c).2.2.2.1, fun _ _ _ _ _ _ _ _ => rfl⟩, fun k a b c => (hC k a b c).2.2.2.2⟩

/-- The states an analysis call goes through. -/
theorem dec_run {la : LinAlg ℝ} (hla : ExactLinAlg la) {w : Wavelet ℝ} {F : Nat} (hw : OrthBank w F)
    {x : Tensor ℝ} {axis : AxisHint} {m : Mode} {mode : Option String} {orth : String} {level : Option Int}
    (hg : GoodAxes axis x.rank 1) (hdt : x.md.dtype = .float32 ∨ x.md.dtype = .float64)
    (hm : Selects mode m) (ho : orth = "qr" ∨ orth = "gramschmidt") (hlev : ∀ l, level = some l → 1 ≤ l)
    (hne : level = none → 0 < x.shape.getD (axis1 axis x.rank) 0)
    (hfit : x.shape.getD (axis1 axis x.rank) 0 % 2 = 1 → Fits m (x.shape.getD (axis1 axis x.rank) 0) 0 1)
    (hind : ∀ k, k % 2 = 0 → F ≤ k → k ≤ evenLen (x.shape.getD (axis1 axis x.rank) 0) → BoundaryIndep w F k) :
    ∃ dcfg dst, ∃ C : Nat → Coo ℝ, ∃ x' cs lv,
      decInit w level axis orth mode = .ok (dcfg, dst) ∧ (∀ l, level = some l → lv = some l) ∧
      (∀ k, k % 2 = 0 → F ≤ k → k ≤ evenLen (x.shape.getD (axis1 axis x.rank) 0) →
        constructBoundaryA la w x.md k orth = .ok (C k)) ∧
      Family C (fun k => (C k).den) x.md F (evenLen (x.shape.getD (axis1 axis x.rank) 0)) ∧
      (∀ k, k % 2 = 0 → F ≤ k → k ≤ evenLen (x.shape.getD (axis1 axis x.rank) 0) → OrthonormalCols k (C k).den) ∧
      EvenPadded m (axis1 axis x.rank) x x' ∧ x'.md = x.md ∧ x'.rank = x.rank ∧
      x'.shape.getD (axis1 axis x.rank) 0 = evenLen (x.shape.getD (axis1 axis x.rank) 0) ∧
      decCall la dcfg dst x = (.ok cs, builtState C F lv
        (levels level F (evenLen (x.shape.getD (axis1 axis x.rank) 0))) (evenLen (x.shape.getD (axis1 axis x.rank) 0))) ∧
      IsMatDwt m (fun k => (C k).den) (axis1 axis x.rank)
        (mLevels F (levels level F (evenLen (x.shape.getD (axis1 axis x.rank) 0)))
          (evenLen (x.shape.getD (axis1 axis x.rank) 0))) x' cs := by
  have h2 := hw.two_le
  have hdt' : isDtypeSupported x.md.dtype = true := by unfold isDtypeSupported; simpa using hdt
  obtain ⟨a, ea, hgi, _, hax, _⟩ := goodAxes_single hg
  have hax1 : axis1 (.int a) x.rank = axis1 axis x.rank := by unfold axis1; rw [hax]
  set n := x.shape.getD (axis1 axis x.rank) 0 with hn
  set L := levels level F (evenLen n) with hL
  obtain ⟨C, hC, hF, hO⟩ := boundary_family hla x.md hw ho hind
  set cfg : DecCfg ℝ := ⟨w, a, orth, mode⟩ with hcfg
  have hlen : w.decLo.length = F := hw.len.1
  have hlen' : cfg.wavelet.decLo.length = F := hw.len.1
  obtain ⟨x', y, ey, hx', hmd, hsh, hy⟩ := decInput_ok (cfg := cfg) (m := m) (x := x) hgi hdt' hm
    (by rw [hax1]; exact hfit)
  rw [hax1] at hx' hsh
  have hxl : axis1 axis x.rank < x.shape.length := axis1_lt hg
  have hr : x'.rank = x.rank := by unfold Tensor.rank; rw [hsh, List.length_set]
  have hn' : x'.shape.getD (axis1 axis x.rank) 0 = evenLen n := by rw [hsh, getD_set_self hxl]
  have hgi' : GoodAxes (.int cfg.axis) x'.rank 1 := by rw [hr]; exact hgi
  have hax' : axis1 (.int cfg.axis) x'.rank = axis1 axis x.rank := by rw [hr]; exact hax1
  have hsz : y.sizeFromEnd 1 = evenLen n := by
    unfold Tensor.sizeFromEnd
    rw [(hy.shows hgi').shape]
    show x'.shape.getD (axis1 (.int cfg.axis) x'.rank) 0 = _
    rw [hax', hn']
  have hymd : y.md = x.md := (hy.shows hgi').md.trans hmd
  have hee : evenLen (evenLen n) = evenLen n := evenLen_of_even (evenLen_even n)
  obtain ⟨lv, hlv, hprep⟩ := decPrepare_fresh (la := la) (cfg := cfg) (md := x.md) (C := C) (N := evenLen n) (n := evenLen n)
    (st := ⟨level, none, [], [], false, []⟩) (by rw [hlen']; exact h2)
    (by rw [hlen']; exact hC) (le_of_eq hee) hlev
    (fun h => by have := hne h; have := le_evenLen n; omega) rfl
  rw [hlen'] at hprep
  have hdec := decApply_ok (cfg := cfg) (m := m) (x := x') (y := y) (C := C) (A := fun k => (C k).den) (F := F)
    (N := evenLen n) (L := L) h2 hgi' hm hy (by rw [hmd]; exact hF) (by rw [hax', hn', hee])
    (ds := pick (batchAxes x.rank (axesOf (.int cfg.axis) x.rank 1) ++ axesOf (.int cfg.axis) x.rank 1) x.shape)
    (by rw [pick_length, hr]; exact (isPerm_axes hgi.nodup hgi.lt).len)
    (by
      rw [hr, take_pick hgi.batch_len hgi.axes_len, hsh, pick_set_not_mem]
      rw [← hax1]
      exact not_mem_batchAxes (by rw [axesOf_one hgi]; simp))
  rw [hax', hn'] at hdec
  obtain ⟨cs, ec, hcs⟩ := hdec
  refine ⟨cfg, ⟨level, none, [], [], false, []⟩, C, x', cs, lv, ?_, hlv, hC, hF, hO, hx', hmd, hr, hn', ?_, hcs⟩
  · unfold decInit
    rw [ea]
    simp only
    rw [if_neg (by rcases ho with rfl | rfl <;> decide), if_neg (by
      have := hw.len.1; have := hw.len.2.2.1; omega)]
  · unfold decCall
    simp only [ey, hymd, hsz, hprep]
    congr 1

/-- The states a synthesis call goes through. -/
theorem rec_run {la : LinAlg ℝ} {w : Wavelet ℝ} {F : Nat} (hw : OrthBank w F)
    {x : Tensor ℝ} {axis : AxisHint} {m : Mode} {orth : String} {L : Nat}
    (hg : GoodAxes axis x.rank 1) (hdt : x.md.dtype = .float32 ∨ x.md.dtype = .float64)
    (ho : orth = "qr" ∨ orth = "gramschmidt")
    (hev : x.shape.getD (axis1 axis x.rank) 0 % 2 = 0) {C : Nat → Coo ℝ}
    (hC : ∀ k, k % 2 = 0 → F ≤ k → k ≤ x.shape.getD (axis1 axis x.rank) 0 →
        constructBoundaryA la w x.md k orth = .ok (C k))
    (hF : Family C (fun k => (C k).den) x.md F (x.shape.getD (axis1 axis x.rank) 0))
    (hO : ∀ k, k % 2 = 0 → F ≤ k → k ≤ x.shape.getD (axis1 axis x.rank) 0 → OrthonormalCols k (C k).den)
    {cs : List (Tensor ℝ)}
    (hcs : IsMatDwt m (fun k => (C k).den) (axis1 axis x.rank)
        (mLevels F L (x.shape.getD (axis1 axis x.rank) 0)) x cs) :
    ∃ rcfg rst, recInit w axis orth = .ok (rcfg, rst) ∧ (recCall la rcfg rst cs).1 = .ok x ∧
      (1 ≤ mLevels F L (x.shape.getD (axis1 axis x.rank) 0) →
      (recCall la rcfg rst cs).2 = ⟨some (mLevels F L (x.shape.getD (axis1 axis x.rank) 0)),
        some (x.shape.getD (axis1 axis x.rank) 0),
        builtMats (fun k => (C k).transpose) F L (x.shape.getD (axis1 axis x.rank) 0),
        (builtPads F (mLevels F L (x.shape.getD (axis1 axis x.rank) 0)) (x.shape.getD (axis1 axis x.rank) 0)).any id⟩) := by
  have h2 := hw.two_le
  have hdt' : isDtypeSupported x.md.dtype = true := by unfold isDtypeSupported; simpa using hdt
  obtain ⟨a, ea, _, hgs, _, hax⟩ := goodAxes_single hg
  have hax1 : axis1 (.seq [a]) x.rank = axis1 axis x.rank := by unfold axis1; rw [hax]
  set n := x.shape.getD (axis1 axis x.rank) 0 with hn
  set k := mLevels F L n with hk
  set cfg : RecCfg ℝ := ⟨w, [a], orth⟩ with hcfg
  have hrec := recApply_ok (cfg := cfg) (m := m) (x := x) (C := C) (A := fun k => (C k).den) (F := F) (N := n)
    (L := L) h2 hgs hdt' hF hO (by rw [hax1]; exact hev) (by rw [hax1]) (cs := cs) (by rw [hax1]; exact hcs)
  rw [hax1] at hrec
  obtain ⟨us, ds, e1, hl, hlast, e2⟩ := hrec
  have hlen' : cfg.wavelet.recLo.length = F := hw.len.2.2.1
  have hD : ∀ q, q % 2 = 0 → cfg.wavelet.recLo.length ≤ q → q ≤ n →
      constructBoundaryS la cfg.wavelet x.md q cfg.orth = .ok ((fun q => (C q).transpose) q) := by
    intro q q1 q2 q3
    rw [hlen'] at q2
    rw [boundaryS_eq la x.md hw q orth, hC q q1 q2 q3]
    rfl
  refine ⟨cfg, ⟨none, none, [], false⟩, ?_, ?_⟩
  · unfold recInit
    rw [ea]
    simp only
    rw [if_neg (by rcases ho with rfl | rfl <;> decide), if_neg (by
      have := hw.len.1; have := hw.len.2.2.1; omega)]
  · have hul : us.length - 1 = k := by rw [hl, hcs.length]; rfl
    have hmm : builtMats (fun q => (C q).transpose) F k n = (builtMats C F L n).map Coo.transpose := by
      rw [hk, builtMats_levels, builtMats_map]
    unfold recCall
    simp only [e1, hul]
    by_cases hk0 : k = 0
    · rw [hk0, recPrepare_zero rfl]
      simp only
      refine ⟨?_, fun h => absurd h (by omega)⟩
      have : builtMats C F L n = [] := by
        rw [← List.length_eq_zero_iff, builtMats_length]; exact hk0
      rw [this] at e2
      exact e2
    · have hp := recPrepare_fresh (la := la) (cfg := cfg) (md := x.md) (D := fun q => (C q).transpose) (N := n) (n := n)
        (L := k) (st := ⟨none, none, [], false⟩) (by rw [hlen']; exact h2) hD (le_of_eq (evenLen_of_even hev)) rfl
      rw [hlast (Nat.pos_of_ne_zero hk0), hp]
      simp only
      refine ⟨?_, fun _ => ?_⟩
      · rw [hlen', hmm]; exact e2
      · rw [hlen', hmm, ← builtMats_map]

/-- **C40.** For every orthogonal filter bank, every tensor, axis, padding mode, orthogonalisation
method and level (positive, or `None`) such that the cut-off rows are independent at all lengths in
question: the analysis succeeds; its results are the coefficients the boundary matrices of C38 give
level by level, for the input extended by at most one sample; and the synthesis returns this extended
input exactly — the input itself if its length is even. -/
theorem c40_roundtrip {la : LinAlg ℝ} (hla : ExactLinAlg la) {w : Wavelet ℝ} {F : Nat} (hw : OrthBank w F)
    {x : Tensor ℝ} {axis : AxisHint} {m : Mode} {mode : Option String} {orth : String} {level : Option Int}
    (hg : GoodAxes axis x.rank 1) (hdt : x.md.dtype = .float32 ∨ x.md.dtype = .float64)
    (hm : Selects mode m) (ho : orth = "qr" ∨ orth = "gramschmidt") (hlev : ∀ l, level = some l → 1 ≤ l)
    (hne : level = none → 0 < x.shape.getD (axis1 axis x.rank) 0)
    (hfit : x.shape.getD (axis1 axis x.rank) 0 % 2 = 1 → Fits m (x.shape.getD (axis1 axis x.rank) 0) 0 1)
    (hind : ∀ k, k % 2 = 0 → F ≤ k → k ≤ evenLen (x.shape.getD (axis1 axis x.rank) 0) → BoundaryIndep w F k) :
    ∃ dcfg dst rcfg rst, ∃ C : Nat → Coo ℝ, ∃ x' cs,
      decInit w level axis orth mode = .ok (dcfg, dst) ∧ recInit w axis orth = .ok (rcfg, rst) ∧
      (∀ k, k % 2 = 0 → F ≤ k → k ≤ evenLen (x.shape.getD (axis1 axis x.rank) 0) →
        constructBoundaryA la w x.md k orth = .ok (C k)) ∧
      EvenPadded m (axis1 axis x.rank) x x' ∧
      (decCall la dcfg dst x).1 = .ok cs ∧
      IsMatDwt m (fun k => (C k).den) (axis1 axis x.rank)
        (mLevels F (levels level F (evenLen (x.shape.getD (axis1 axis x.rank) 0)))
          (evenLen (x.shape.getD (axis1 axis x.rank) 0))) x' cs ∧
      (recCall la rcfg rst cs).1 = .ok x' := by
  obtain ⟨dcfg, dst, C, x', cs, lv, h1, hlv, h2, h3, h4, h5, h6, h7, h8, h9, h10⟩ :=
    dec_run hla hw hg hdt hm ho hlev hne hfit hind
  obtain ⟨rcfg, rst, r1, r2, _⟩ := rec_run (la := la) hw (x := x') (axis := axis) (m := m) (orth := orth)
    (L := levels level F (evenLen (x.shape.getD (axis1 axis x.rank) 0))) (C := C) (cs := cs)
    (by rw [h7]; exact hg) (by rw [h6]; exact hdt) ho (by rw [h7, h8]; exact evenLen_even _)
    (by rw [h7, h8, h6]; exact h2) (by rw [h7, h8, h6]; exact h3) (by rw [h7, h8]; exact h4)
    (by rw [h7, h8]; exact h10)
  exact ⟨dcfg, dst, rcfg, rst, C, x', cs, h1, r1, h2, h5, by rw [h9], h10, r2⟩

/-- **C40.** If no level has an odd length, the transform preserves the energy of every line: the sum
of the squares of a line is the sum of the squares of all its coefficients. -/
theorem c40_energy {la : LinAlg ℝ} (hla : ExactLinAlg la) {w : Wavelet ℝ} {F : Nat} (hw : OrthBank w F)
    {x : Tensor ℝ} {axis : AxisHint} {m : Mode} {mode : Option String} {orth : String} {level : Option Int}
    (hg : GoodAxes axis x.rank 1) (hdt : x.md.dtype = .float32 ∨ x.md.dtype = .float64)
    (hm : Selects mode m) (ho : orth = "qr" ∨ orth = "gramschmidt") (hlev : ∀ l, level = some l → 1 ≤ l)
    (hne : level = none → 0 < x.shape.getD (axis1 axis x.rank) 0)
    (hev : x.shape.getD (axis1 axis x.rank) 0 % 2 = 0)
    (hind : ∀ k, k % 2 = 0 → F ≤ k → k ≤ x.shape.getD (axis1 axis x.rank) 0 → BoundaryIndep w F k)
    (hp : PadFree (x.shape.getD (axis1 axis x.rank) 0)
      (mLevels F (levels level F (x.shape.getD (axis1 axis x.rank) 0)) (x.shape.getD (axis1 axis x.rank) 0))) :
    ∃ dcfg dst cs, decInit w level axis orth mode = .ok (dcfg, dst) ∧ (decCall la dcfg dst x).1 = .ok cs ∧
      ∀ idx, InB x.shape idx →
        (∑ j ∈ Finset.range (x.shape.getD (axis1 axis x.rank) 0), line x (axis1 axis x.rank) idx j ^ 2)
          = (cs.map fun t => ∑ j ∈ Finset.range (t.shape.getD (axis1 axis x.rank) 0),
              line t (axis1 axis x.rank) idx j ^ 2).sum := by
  obtain ⟨dcfg, dst, C, x', cs, lv, h1, hlv, h2, h3, h4, h5, h6, h7, h8, h9, h10⟩ :=
    dec_run hla hw hg hdt hm ho hlev hne (fun h => absurd h (by omega))
      (fun k a b c => hind k a b (by rw [evenLen_of_even hev] at c; exact c))
  rw [evenLen_of_even hev] at h4 h8 h9 h10
  obtain rfl : x' = x := by
    rcases h5 with h | h
    · exact h.2
    · omega
  refine ⟨dcfg, dst, cs, h1, by rw [h9], ?_⟩
  intro idx hidx
  have hax : axis1 axis x'.rank < x'.shape.length := axis1_lt hg
  set a := axis1 axis x'.rank with ha
  set n := x'.shape.getD a 0 with hn
  set k := mLevels F (levels level F n) n with hk
  have hline : ∀ {K : Nat} {f : (Nat → ℝ) → Nat → ℝ} {t : Tensor ℝ}, AlongAxis a K f x' t →
      (∑ j ∈ Finset.range (t.shape.getD a 0), line t a idx j ^ 2)
        = ∑ j ∈ Finset.range K, f (line x' a idx) j ^ 2 := by
    intro K f t ht
    rw [ht.shape, getD_set_self hax]
    refine Finset.sum_congr rfl fun j hj => ?_
    rw [Finset.mem_range] at hj
    have hin : InB t.shape (idx.set a j) := by
      rw [ht.shape]
      refine (inB_set_iff (x := n) (by rw [List.length_set]; exact hax) ?_).mpr (by rw [getD_set_self hax]; exact hj)
      rw [List.set_set, hn, set_getD_self hax]
      exact hidx
    show t.get (idx.set a j) ^ 2 = _
    rw [ht.get _ hin, line_set, getD_set_self (by rw [hidx.length_eq]; exact hax)]
  obtain ⟨c0, rest, rfl⟩ : ∃ c0 rest, cs = c0 :: rest := by
    cases cs with
    | nil => have := h10.length; simp at this
    | cons a l => exact ⟨a, l, rfl⟩
  have hrl : rest.length = k := by have := h10.length; simpa using this
  have hsum : (rest.map fun t => ∑ j ∈ Finset.range (t.shape.getD a 0), line t a idx j ^ 2).sum
      = ∑ s ∈ Finset.range k, ∑ j ∈ Finset.range (mLen n (s + 1)), mD m (fun k => (C k).den) n (line x' a idx) s j ^ 2 := by
    rw [← Finset.sum_range_reflect, ← hrl]
    refine sum_map_range rest _ _ ?_
    intro i t ht
    have hi : i < k := by rw [← hrl]; exact (List.getElem?_eq_some_iff.mp ht).1
    rw [hrl]
    exact hline (h10.detail (k - 1 - i) t (by omega) (by
      rw [show k - (k - 1 - i) = i + 1 by omega, List.getElem?_cons_succ]; exact ht))
  rw [List.map_cons, List.sum_cons, hsum, hline (h10.approx c0 rfl)]
  exact mEnergy k n _ hp (fun s hs => h4 _ (hp s hs) (mLevels_ge _ _ s hs) (mLen_le_of_padFree hp s (by omega)))

theorem ensureAxes_one {axis : AxisHint} :
    ensureAxes axis 1 = if (resolve axis 1).length = 1 then .ok (resolve axis 1) else .error .valueError := by
  cases axis with
  | none => rfl
  | int a => rfl
  | seq as =>
    unfold ensureAxes resolve
    match as with
    | [] => rfl
    | [a] => simp [checkAxesArgument]
    | a :: b :: r => simp; rfl

/-- **C40.** Both constructors accept exactly one axis, the two known methods and filters of equal
lengths; they raise ValueError for a wrong number of axes and NotImplementedError for an unknown method. -/
theorem c40_ctor {R : Type} (w : Wavelet R) (level : Option Int) (axis : AxisHint) (orth : String)
    (mode : Option String) :
    ((∃ r, decInit w level axis orth mode = .ok r) ↔
      (resolve axis 1).length = 1 ∧ (orth = "qr" ∨ orth = "gramschmidt") ∧ w.decLo.length = w.recLo.length) ∧
    ((∃ r, recInit w axis orth = .ok r) ↔
      (resolve axis 1).length = 1 ∧ (orth = "qr" ∨ orth = "gramschmidt") ∧ w.decLo.length = w.recLo.length) ∧
    ((resolve axis 1).length ≠ 1 →
      decInit w level axis orth mode = .error .valueError ∧ recInit w axis orth = .error .valueError) ∧
    ((resolve axis 1).length = 1 → ¬ (orth = "qr" ∨ orth = "gramschmidt") →
      decInit w level axis orth mode = .error .notImplementedError ∧
      recInit w axis orth = .error .notImplementedError) := by
  have hs : isOrthogonalizeMethodSupported orth = true ↔ (orth = "qr" ∨ orth = "gramschmidt") := by
    unfold isOrthogonalizeMethodSupported; simp
  have hs' : isOrthogonalizeMethodSupported orth = false ↔ ¬ (orth = "qr" ∨ orth = "gramschmidt") := by
    rw [← hs]; simp
  unfold decInit recInit
  rw [ensureAxes_one]
  by_cases h1 : (resolve axis 1).length = 1
  · rw [if_pos h1]
    obtain ⟨a, ha⟩ := List.length_eq_one_iff.mp h1
    rw [ha]
    simp only
    by_cases h2 : orth = "qr" ∨ orth = "gramschmidt"
    · have e := hs.mpr h2
      by_cases h3 : w.decLo.length = w.recLo.length
      · simp [h2, h3, e]
      · simp [h2, h3, e]
    · have e := hs'.mpr h2
      simp [h2, e]
  · rw [if_neg h1]
    simp [h1]

/-- **C40.** A level that is not positive is an error for every tensor, in every state of the object;
the ValueError comes after the checks of the input. -/
theorem c40_bad_level {R : Type} [Field R] [DecidableEq R] (la : LinAlg R) (cfg : DecCfg R) (st : DecState R)
    (x : Tensor R) {l : Int} (hl : st.level = some l) (h0 : l ≤ 0) :
    (∃ e, (decCall la cfg st x).1 = .error e) ∧
    (∀ p, decInput cfg x = .ok p → (decCall la cfg st x).1 = .error .valueError) ∧
    (decCall la cfg st x).2.level = some l ∧ (decCall la cfg st x).2.mats = st.mats := by
  unfold decCall
  cases e : decInput cfg x with
  | error e' => exact ⟨⟨e', rfl⟩, by rintro _ ⟨⟩, hl, rfl⟩
  | ok p =>
    have : decPrepare la cfg p.1.md (p.1.sizeFromEnd 1) st
        = (.error .valueError, { st with inputLength := some (p.1.sizeFromEnd 1) }) := by
      unfold decPrepare
      simp only [hl]
      rw [if_pos h0]
    simp only [this]
    exact ⟨⟨_, rfl⟩, fun _ _ => trivial, hl, trivial⟩

/-- **C40.** Tensors of another dtype, or axes the tensor does not have, are errors that leave the
object as it was. -/
theorem c40_bad_input {R : Type} [Field R] [DecidableEq R] (la : LinAlg R) (cfg : DecCfg R) (st : DecState R)
    (x : Tensor R) (h : ¬ (GoodAxes (.int cfg.axis) x.rank 1 ∧ (x.md.dtype = .float32 ∨ x.md.dtype = .float64))) :
    ∃ e, decCall la cfg st x = (.error e, st) := by
  have h' : ¬ (GoodAxes (.int cfg.axis) x.rank 1 ∧ isDtypeSupported x.md.dtype = true) := by
    intro hh
    exact h ⟨hh.1, by have := hh.2; unfold isDtypeSupported at this; simpa using this⟩
  obtain ⟨e, he⟩ := preprocessTensor_err (ch := false) h'
  refine ⟨e, ?_⟩
  unfold decCall decInput
  simp only [bind, Except.bind, he]

example : ∃ la, ExactLinAlg la ∧ ∃ dcfg dst rcfg rst x' cs,
    decInit bank4 none (.int (-1)) "qr" (some "zero") = .ok (dcfg, dst) ∧
    recInit bank4 (.int (-1)) "qr" = .ok (rcfg, rst) ∧
    (decCall la dcfg dst (Tensor.ofFn ⟨.float64, 0⟩ [3, 21] fun i => (i.getD 1 0 : ℝ))).1 = .ok cs ∧
    cs.length = 3 ∧ (recCall la rcfg rst cs).1 = .ok x' ∧ x'.shape = [3, 22] := by
  obtain ⟨la, hla⟩ := exists_exactLinAlg
  obtain ⟨dcfg, dst, rcfg, rst, C, x', cs, h1, h2, _, h3, h4, h5, h6⟩ := c40_roundtrip hla bank4_orth
    (x := Tensor.ofFn ⟨.float64, 0⟩ [3, 21] fun i => (i.getD 1 0 : ℝ)) (axis := .int (-1)) (m := .zero)
    (mode := some "zero") (orth := "qr") (level := none) ⟨le_rfl, rfl, ⟨by
    intro a ha
    have : a = -1 := by simpa [resolve] using ha
    subst this; exact ⟨by decide, by decide⟩, by decide⟩⟩ (Or.inr rfl) (Or.inl rfl) (Or.inl rfl)
    (by rintro _ ⟨⟩) (fun _ => by decide) (fun _ => by trivial) (fun k a b _ => bank4_indep a b)
  refine ⟨la, hla, dcfg, dst, rcfg, rst, x', cs, h1, h2, h4, ?_, h6, ?_⟩
  · rw [h5.length]; rfl
  · rcases h3 with h | h
    · exact absurd h.1 (by decide)
    · rw [h.2.shape]; rfl

/-! ### C41: the transform as one sparse operator -/

/-- **C41.** After an analysis of an input none of whose levels is odd, `sparse_fwt_operator` is a square
matrix that maps every signal to its coefficients `[cA_k, cD_k, …, cD_1]`, one after the other (for
lengths the dtype can count exactly). -/
theorem c41_analysis_operator {la : LinAlg ℝ} (hla : ExactLinAlg la) {w : Wavelet ℝ} {F : Nat} (hw : OrthBank w F)
    {x : Tensor ℝ} {axis : AxisHint} {m : Mode} {mode : Option String} {orth : String} {level : Option Int}
    (hg : GoodAxes axis x.rank 1) (hdt : x.md.dtype = .float32 ∨ x.md.dtype = .float64)
    (hm : Selects mode m) (ho : orth = "qr" ∨ orth = "gramschmidt") (hlev : ∀ l, level = some l → 1 ≤ l)
    (hne : level = none → 0 < x.shape.getD (axis1 axis x.rank) 0)
    (hfit : x.shape.getD (axis1 axis x.rank) 0 % 2 = 1 → Fits m (x.shape.getD (axis1 axis x.rank) 0) 0 1)
    (hind : ∀ k, k % 2 = 0 → F ≤ k → k ≤ evenLen (x.shape.getD (axis1 axis x.rank) 0) → BoundaryIndep w F k)
    {n k : Nat} (hn : n = evenLen (x.shape.getD (axis1 axis x.rank) 0))
    (hk : k = mLevels F (levels level F n) n) (hk1 : 1 ≤ k) (hp : PadFree n k)
    (hb : n ≤ 2 ^ mantissaBits x.md.dtype) :
    ∃ dcfg dst, ∃ C : Nat → Coo ℝ, ∃ O, decInit w level axis orth mode = .ok (dcfg, dst) ∧
      (∀ q, q % 2 = 0 → F ≤ q → q ≤ n → constructBoundaryA la w x.md q orth = .ok (C q)) ∧
      sparseFwtOperator (decCall la dcfg dst x).2 = .ok O ∧ O.md = x.md ∧ O.rows = n ∧ O.cols = n ∧
      ∀ v, Packed m (fun q => (C q).den) n v k (fun i => ∑ j ∈ Finset.range n, O.den i j * v j) := by
  obtain ⟨dcfg, dst, C, x', cs, lv, h1, hlv, h2, h3, h4, h5, h6, h7, h8, h9, h10⟩ :=
    dec_run hla hw hg hdt hm ho hlev hne hfit hind
  rw [← hn] at h2 h3 h4 h9
  subst hk
  obtain ⟨O, eO, hO⟩ := sparseFwtOperator_ok (m := m) h3 (le_refl n) hb hk1 hp lv
  exact ⟨dcfg, dst, C, O, h1, h2, by rw [h9]; exact eO, hO.md, hO.rows, hO.cols, hO.packed⟩

/-- **C41.** After the synthesis of these coefficients, `sparse_ifwt_operator` is a square matrix that
maps the coefficients of any signal, packed the same way, to the signal. -/
theorem c41_synthesis_operator {la : LinAlg ℝ} (hla : ExactLinAlg la) {w : Wavelet ℝ} {F : Nat} (hw : OrthBank w F)
    {x : Tensor ℝ} {axis : AxisHint} {m : Mode} {mode : Option String} {orth : String} {level : Option Int}
    (hg : GoodAxes axis x.rank 1) (hdt : x.md.dtype = .float32 ∨ x.md.dtype = .float64)
    (hm : Selects mode m) (ho : orth = "qr" ∨ orth = "gramschmidt") (hlev : ∀ l, level = some l → 1 ≤ l)
    (hne : level = none → 0 < x.shape.getD (axis1 axis x.rank) 0)
    (hfit : x.shape.getD (axis1 axis x.rank) 0 % 2 = 1 → Fits m (x.shape.getD (axis1 axis x.rank) 0) 0 1)
    (hind : ∀ k, k % 2 = 0 → F ≤ k → k ≤ evenLen (x.shape.getD (axis1 axis x.rank) 0) → BoundaryIndep w F k)
    {n k : Nat} (hn : n = evenLen (x.shape.getD (axis1 axis x.rank) 0))
    (hk : k = mLevels F (levels level F n) n) (hk1 : 1 ≤ k) (hp : PadFree n k)
    (hb : n ≤ 2 ^ mantissaBits x.md.dtype) :
    ∃ dcfg dst rcfg rst, ∃ C : Nat → Coo ℝ, ∃ cs O, decInit w level axis orth mode = .ok (dcfg, dst) ∧
      recInit w axis orth = .ok (rcfg, rst) ∧
      (∀ q, q % 2 = 0 → F ≤ q → q ≤ n → constructBoundaryA la w x.md q orth = .ok (C q)) ∧
      (decCall la dcfg dst x).1 = .ok cs ∧
      sparseIfwtOperator (recCall la rcfg rst cs).2 = .ok O ∧ O.md = x.md ∧ O.rows = n ∧ O.cols = n ∧
      ∀ v u, Packed m (fun q => (C q).den) n v k u →
        ∀ i, i < n → (∑ j ∈ Finset.range n, O.den i j * u j) = v i := by
  obtain ⟨dcfg, dst, C, x', cs, lv, h1, hlv, h2, h3, h4, h5, h6, h7, h8, h9, h10⟩ :=
    dec_run hla hw hg hdt hm ho hlev hne hfit hind
  obtain ⟨rcfg, rst, r1, _, r3⟩ := rec_run (la := la) hw (x := x') (axis := axis) (m := m) (orth := orth)
    (L := levels level F (evenLen (x.shape.getD (axis1 axis x.rank) 0))) (C := C) (cs := cs)
    (by rw [h7]; exact hg) (by rw [h6]; exact hdt) ho (by rw [h7, h8]; exact evenLen_even _)
    (by rw [h7, h8, h6]; exact h2) (by rw [h7, h8, h6]; exact h3) (by rw [h7, h8]; exact h4)
    (by rw [h7, h8]; exact h10)
  rw [h7, h8, ← hn, ← hk] at r3
  rw [← hn] at h2 h3 h4
  have hst := r3 hk1
  have hkk : mLevels F k n = k := by rw [hk]; exact mLevels_idem _ _
  have hmm : builtMats (fun q => (C q).transpose) F (levels level F n) n = builtMats (fun q => (C q).transpose) F k n := by
    rw [hk, builtMats_levels]
  obtain ⟨O, eO, hO⟩ := sparseIfwtOperator_ok (m := m) (L := k) h3 h4 (le_refl n) hb (by rw [hkk]; exact hk1)
    (by rw [hkk]; exact hp) (some k) (some n)
  rw [hkk] at hO
  refine ⟨dcfg, dst, rcfg, rst, C, cs, O, h1, r1, h2, by rw [h9], ?_, hO.md, hO.rows, hO.cols, hO.unpack⟩
  rw [hst, hmm]
  exact eO

/-- **C41.** Before the first call (and whenever there is no matrix) both operators are ValueErrors; if
some level was padded and there is more than one level, they are NotImplementedErrors. -/
theorem c41_no_operator {R : Type} [NonAssocSemiring R] (st : DecState R) (rst : RecState R) :
    (st.mats = [] → sparseFwtOperator st = .error .valueError) ∧
    (2 ≤ st.mats.length → st.padded = true → sparseFwtOperator st = .error .notImplementedError) ∧
    (rst.mats = [] → sparseIfwtOperator rst = .error .valueError) ∧
    (2 ≤ rst.mats.length → rst.padded = true → sparseIfwtOperator rst = .error .notImplementedError) := by
  unfold sparseFwtOperator sparseIfwtOperator
  refine ⟨fun h => by rw [h], fun h hp => ?_, fun h => by rw [h]; rfl, fun h hp => ?_⟩
  · match hm : st.mats with
    | [] => rw [hm] at h; simp at h
    | [_] => rw [hm] at h; simp at h
    | _ :: _ :: _ => simp [hp]
  · have h' : 2 ≤ rst.mats.reverse.length := by rw [List.length_reverse]; exact h
    match hm : rst.mats.reverse with
    | [] => rw [hm] at h'; simp at h'
    | [_] => rw [hm] at h'; simp at h'
    | _ :: _ :: _ => simp [hp]

example : ∃ la, ExactLinAlg la ∧ ∃ dcfg dst O, decInit bank4 (some 2) (.int 0) "qr" none = .ok (dcfg, dst) ∧
    sparseFwtOperator (decCall la dcfg dst (Tensor.ofFn ⟨.float32, 0⟩ [16, 2] fun i => (i.getD 0 0 : ℝ))).2 = .ok O ∧
    O.rows = 16 := by
  obtain ⟨la, hla⟩ := exists_exactLinAlg
  obtain ⟨dcfg, dst, C, O, h1, _, h2, _, h3, _⟩ := c41_analysis_operator hla bank4_orth
    (x := Tensor.ofFn ⟨.float32, 0⟩ [16, 2] fun i => (i.getD 0 0 : ℝ)) (axis := .int 0) (m := .reflect)
    (mode := none) (orth := "qr") (level := some 2) ⟨le_rfl, rfl, ⟨by
    intro a ha
    have : a = 0 := by simpa [resolve] using ha
    subst this; exact ⟨by decide, by decide⟩, by decide⟩⟩ (Or.inl rfl) (Or.inr ⟨rfl, rfl⟩) (Or.inl rfl)
    (by rintro _ ⟨⟩; norm_num) (by rintro ⟨⟩) (fun h => absurd h (by decide)) (fun k a b _ => bank4_indep a b)
    (n := 16) (k := 2) rfl rfl (by omega) (by
      intro s hs
      have : s = 0 ∨ s = 1 := by omega
      rcases this with rfl | rfl <;> rfl) (by decide)
  exact ⟨la, hla, dcfg, dst, O, h1, h2, h3⟩

/-! ### C42: using an object again -/

/-- The state of an analysis object after a sequence of calls. -/
def afterDecCalls {R : Type} [Field R] [DecidableEq R] (la : LinAlg R) (cfg : DecCfg R) (st : DecState R)
    (xs : List (Tensor R)) : DecState R :=
  xs.foldl (fun st x => (decCall la cfg st x).2) st

/-- The state of a synthesis object after a sequence of calls. -/
def afterRecCalls {R : Type} [Field R] [DecidableEq R] (la : LinAlg R) (cfg : RecCfg R) (st : RecState R)
    (xs : List (List (Tensor R))) : RecState R :=
  xs.foldl (fun st x => (recCall la cfg st x).2) st

theorem decCall_inv {R : Type} [Field R] [DecidableEq R] {la : LinAlg R} {cfg : DecCfg R} {md : Meta} {l : Int}
    (hl : 1 ≤ l)
    (hb : ∀ q, q % 2 = 0 → cfg.wavelet.decLo.length ≤ q → ∃ A, constructBoundaryA la cfg.wavelet md q cfg.orth = .ok A)
    {s t : DecState R} (hs : DecInv la cfg md l s) (ht : DecInv la cfg md l t) {x : Tensor R} (hx : x.md = md) :
    (decCall la cfg s x).1 = (decCall la cfg t x).1 ∧ DecInv la cfg md l (decCall la cfg s x).2 := by
  unfold decCall
  cases e : decInput cfg x with
  | error e' => exact ⟨rfl, hs⟩
  | ok p =>
    have hmd : p.1.md = md := by rw [← hx]; exact decInput_md (ds := p.2) e
    simp only [hmd]
    obtain ⟨k1, k2⟩ := decPrepare_inv hl hb hs (p.1.sizeFromEnd 1)
    obtain ⟨k3, _⟩ := decPrepare_inv hl hb ht (p.1.sizeFromEnd 1)
    rw [k3, ← k1]
    cases hr : decPrepare la cfg md (p.1.sizeFromEnd 1) s with
    | mk r st =>
      rw [hr] at k2
      cases r with
      | error e => exact ⟨rfl, k2⟩
      | ok u => exact ⟨rfl, k2⟩

/-- **C42.** With an explicit positive level, earlier calls leave no trace: whatever tensors of the same
dtype and device an object has been applied to, of whatever lengths, including calls that raised, it
returns for every further tensor what a new object returns. -/
theorem c42_reuse {R : Type} [Field R] [DecidableEq R] (la : LinAlg R) {w : Wavelet R} {l : Int} {axis : AxisHint}
    {orth : String} {mode : Option String} {cfg : DecCfg R} {st : DecState R} (md : Meta) (hl : 1 ≤ l)
    (hinit : decInit w (some l) axis orth mode = .ok (cfg, st))
    (hb : ∀ q, q % 2 = 0 → w.decLo.length ≤ q → ∃ A, constructBoundaryA la w md q orth = .ok A)
    (xs : List (Tensor R)) (hxs : ∀ y ∈ xs, y.md = md) (x : Tensor R) (hx : x.md = md) :
    (decCall la cfg (afterDecCalls la cfg st xs) x).1 = (decCall la cfg st x).1 := by
  have hi : cfg.wavelet = w ∧ cfg.orth = orth ∧ st = ⟨some l, none, [], [], false, []⟩ := by
    unfold decInit at hinit
    split at hinit
    · cases hinit
    · cases hinit
    · split_ifs at hinit
      cases hinit
      exact ⟨rfl, rfl, rfl⟩
  obtain ⟨rfl, rfl, rfl⟩ := hi
  have h0 : DecInv la cfg md l ⟨some l, none, [], [], false, []⟩ := ⟨rfl, Or.inl rfl⟩
  have key : ∀ (xs : List (Tensor R)) (s : DecState R), (∀ y ∈ xs, y.md = md) → DecInv la cfg md l s →
      DecInv la cfg md l (afterDecCalls la cfg s xs) := by
    intro xs
    induction xs with
    | nil => intro s _ h; exact h
    | cons y ys ih =>
      intro s hy h
      exact ih _ (fun z hz => hy z (List.mem_cons_of_mem _ hz))
        (decCall_inv hl hb h h (hy y (List.mem_cons_self ..))).2
  exact (decCall_inv hl hb (key xs _ hxs h0) h0 hx).1

theorem recCall_inv {R : Type} [Field R] [DecidableEq R] {la : LinAlg R} {cfg : RecCfg R} {md : Meta}
    (hb : ∀ q, q % 2 = 0 → cfg.wavelet.recLo.length ≤ q → ∃ A, constructBoundaryS la cfg.wavelet md q cfg.orth = .ok A)
    {s t : RecState R} (hs : RecInv la cfg md s) (ht : RecInv la cfg md t) {cs : List (Tensor R)}
    (hx : ∀ c, cs.head? = some c → c.md = md) :
    (recCall la cfg s cs).1 = (recCall la cfg t cs).1 ∧ RecInv la cfg md (recCall la cfg s cs).2 := by
  unfold recCall
  cases e : recInput cfg (Coeffs.ofList cs) with
  | error e' => exact ⟨rfl, hs⟩
  | ok p =>
    obtain ⟨us, ds, md'⟩ := p
    have hmd : md' = md := by
      cases cs with
      | nil =>
        exfalso
        unfold recInput at e
        obtain ⟨p, e1, _⟩ := bind_ok_inv e
        unfold preprocessCoeffs at e1
        rw [if_neg (by omega)] at e1
        obtain ⟨h, eh, _⟩ := bind_ok_inv e1
        cases eh
      | cons c0 rest => rw [recInput_md e]; exact hx c0 rfl
    subst hmd
    simp only
    obtain ⟨k1, k2⟩ := recPrepare_inv hb hs (us.length - 1) ((us.getLast?.map fun c => c.sizeFromEnd 1).getD 0 * 2)
    obtain ⟨k3, _⟩ := recPrepare_inv hb ht (us.length - 1) ((us.getLast?.map fun c => c.sizeFromEnd 1).getD 0 * 2)
    rw [k3, ← k1]
    cases hr : recPrepare la cfg md' (us.length - 1) ((us.getLast?.map fun c => c.sizeFromEnd 1).getD 0 * 2) s with
    | mk r st =>
      rw [hr] at k2
      cases r with
      | error e => exact ⟨rfl, k2⟩
      | ok u => exact ⟨rfl, k2⟩

/-- **C42.** The same for synthesis objects, for coefficient lists of any lengths and levels. -/
theorem c42_reuse_synthesis {R : Type} [Field R] [DecidableEq R] (la : LinAlg R) {w : Wavelet R} {axis : AxisHint}
    {orth : String} {cfg : RecCfg R} {st : RecState R} (md : Meta)
    (hinit : recInit w axis orth = .ok (cfg, st))
    (hb : ∀ q, q % 2 = 0 → w.recLo.length ≤ q → ∃ A, constructBoundaryS la w md q orth = .ok A)
    (xs : List (List (Tensor R))) (hxs : ∀ cs ∈ xs, ∀ c, cs.head? = some c → c.md = md)
    (cs : List (Tensor R)) (hcs : ∀ c, cs.head? = some c → c.md = md) :
    (recCall la cfg (afterRecCalls la cfg st xs) cs).1 = (recCall la cfg st cs).1 := by
  have hi : cfg.wavelet = w ∧ cfg.orth = orth ∧ st = ⟨none, none, [], false⟩ := by
    unfold recInit at hinit
    split at hinit
    · cases hinit
    · split_ifs at hinit
      cases hinit
      exact ⟨rfl, rfl, rfl⟩
  obtain ⟨rfl, rfl, rfl⟩ := hi
  have h0 : RecInv la cfg md ⟨none, none, [], false⟩ := Or.inl rfl
  have key : ∀ (xs : List (List (Tensor R))) (s : RecState R), (∀ cs ∈ xs, ∀ c, cs.head? = some c → c.md = md) →
      RecInv la cfg md s → RecInv la cfg md (afterRecCalls la cfg s xs) := by
    intro xs
    induction xs with
    | nil => intro s _ h; exact h
    | cons y ys ih =>
      intro s hy h
      exact ih _ (fun z hz => hy z (List.mem_cons_of_mem _ hz))
        (recCall_inv hb h h (hy y (List.mem_cons_self ..))).2
  exact (recCall_inv hb (key xs _ hxs h0) h0 hcs).1

/-- **C42.** With `level=None` the level is chosen at the first call and kept: after it, the object
behaves like one with this level for inputs of every length — and, if the level is not positive, every
later call fails. -/
theorem c42_level_frozen {R : Type} [Field R] [DecidableEq R] (la : LinAlg R) {w : Wavelet R} {axis : AxisHint}
    {orth : String} {mode : Option String} {cfg : DecCfg R} {st : DecState R} (md : Meta)
    (hinit : decInit w none axis orth mode = .ok (cfg, st))
    (hb : ∀ q, q % 2 = 0 → w.decLo.length ≤ q → ∃ A, constructBoundaryA la w md q orth = .ok A)
    (x0 : Tensor R) (hx0 : x0.md = md) {cs : List (Tensor R)} (h0 : (decCall la cfg st x0).1 = .ok cs) :
    ∃ l y ds, decInput cfg x0 = .ok (y, ds) ∧ matAutoLevel (y.sizeFromEnd 1) w.len = .ok l ∧
      (1 ≤ l → ∃ cfg' st', decInit w (some l) axis orth mode = .ok (cfg', st') ∧
        ∀ (xs : List (Tensor R)), (∀ y ∈ xs, y.md = md) → ∀ x, x.md = md →
          (decCall la cfg (afterDecCalls la cfg st (x0 :: xs)) x).1 = (decCall la cfg' st' x).1) ∧
      (l ≤ 0 → ∀ (xs : List (Tensor R)) (x : Tensor R),
          ∃ e, (decCall la cfg (afterDecCalls la cfg st (x0 :: xs)) x).1 = .error e) := by
  have hi : cfg.wavelet = w ∧ cfg.orth = orth ∧ st = ⟨none, none, [], [], false, []⟩ ∧
      ∀ l, decInit w (some l) axis orth mode = .ok (cfg, ⟨some l, none, [], [], false, []⟩) := by
    unfold decInit at hinit ⊢
    split at hinit
    · cases hinit
    · cases hinit
    · rename_i a r ea
      split_ifs at hinit with g1 g2
      cases hinit
      refine ⟨rfl, rfl, rfl, fun l => ?_⟩
      rw [if_neg g1, if_neg g2]
  obtain ⟨rfl, rfl, rfl, hl⟩ := hi
  cases e : decInput cfg x0 with
  | error e' => unfold decCall at h0; rw [e] at h0; cases h0
  | ok p =>
    obtain ⟨y, ds⟩ := p
    have hmd : y.md = md := by rw [← hx0]; exact decInput_md e
    have hstate : ∀ l, matAutoLevel (y.sizeFromEnd 1) cfg.wavelet.len = .ok l →
        (decCall la cfg ⟨none, none, [], [], false, []⟩ x0).2
          = (decBuild la cfg md l (y.sizeFromEnd 1) ⟨some l, some (y.sizeFromEnd 1), [], [], false, []⟩).2 := by
      intro l el
      have hp : decPrepare la cfg md (y.sizeFromEnd 1) ⟨none, none, [], [], false, []⟩
          = decBuild la cfg md l (y.sizeFromEnd 1) ⟨some l, some (y.sizeFromEnd 1), [], [], false, []⟩ := by
        unfold decPrepare
        simp only [el]
        unfold decEnsure
        rw [if_pos (Or.inr rfl)]
      unfold decCall
      simp only [e, hmd, hp]
      cases hr : decBuild la cfg md l (y.sizeFromEnd 1) ⟨some l, some (y.sizeFromEnd 1), [], [], false, []⟩ with
      | mk r s => cases r <;> rfl
    cases el : matAutoLevel (y.sizeFromEnd 1) cfg.wavelet.len with
    | error e' =>
      unfold decCall decPrepare at h0
      simp only [e, el] at h0
      cases h0
    | ok l =>
      have hs := hstate l el
      have k1 := decBuildLoop_keeps (la := la) (cfg := cfg) (md := md) l.toNat (y.sizeFromEnd 1)
        ({level := some l, inputLength := some (y.sizeFromEnd 1), mats := [], padList := [], padded := false, sizeList := []} : DecState R)
      refine ⟨l, y, ds, rfl, el, fun h1 => ⟨cfg, _, hl l, ?_⟩, ?_⟩
      · intro xs hxs x hx
        have hfresh : DecInv la cfg md l ⟨some l, none, [], [], false, []⟩ := ⟨rfl, Or.inl rfl⟩
        have hinv : DecInv la cfg md l (decCall la cfg ⟨none, none, [], [], false, []⟩ x0).2 := by
          rw [hs]
          have := (decPrepare_inv h1 hb hfresh (y.sizeFromEnd 1))
          rw [this.1] at this
          exact this.2
        have key : ∀ (xs : List (Tensor R)) (s : DecState R), (∀ y ∈ xs, y.md = md) → DecInv la cfg md l s →
            DecInv la cfg md l (afterDecCalls la cfg s xs) := by
          intro xs
          induction xs with
          | nil => intro s _ h; exact h
          | cons y ys ih =>
            intro s hy h
            exact ih _ (fun z hz => hy z (List.mem_cons_of_mem _ hz))
              (decCall_inv h1 hb h h (hy y (List.mem_cons_self ..))).2
        exact (decCall_inv h1 hb (key xs _ hxs hinv) hfresh hx).1
      · intro hle xs x
        have hlev : (decCall la cfg ⟨none, none, [], [], false, []⟩ x0).2.level = some l := by
          rw [hs]; exact k1.1
        have key : ∀ (xs : List (Tensor R)) (s : DecState R), s.level = some l →
            (afterDecCalls la cfg s xs).level = some l := by
          intro xs
          induction xs with
          | nil => intro s h; exact h
          | cons y ys ih =>
            intro s h
            exact ih _ (c40_bad_level la cfg s y h hle).2.2.1
        exact (c40_bad_level la cfg _ x (key xs _ hlev) hle).1

/-- **C42.** The matrices are kept with the dtype and device of the first tensor: a tensor of the same
length with another dtype (or device) is a RuntimeError for the used object, whereas a new object
transforms it. -/
theorem c42_dtype_cached {la : LinAlg ℝ} (hla : ExactLinAlg la) {w : Wavelet ℝ} {F : Nat} (hw : OrthBank w F)
    {x x2 : Tensor ℝ} {axis : AxisHint} {m : Mode} {mode : Option String} {orth : String} {l : Int}
    (hg : GoodAxes axis x.rank 1) (hdt : x.md.dtype = .float32 ∨ x.md.dtype = .float64)
    (hg2 : GoodAxes axis x2.rank 1) (hdt2 : x2.md.dtype = .float32 ∨ x2.md.dtype = .float64)
    (hm : Selects mode m) (ho : orth = "qr" ∨ orth = "gramschmidt") (hl : 1 ≤ l)
    (hsame : x2.shape.getD (axis1 axis x2.rank) 0 = x.shape.getD (axis1 axis x.rank) 0)
    (hF : F ≤ x.shape.getD (axis1 axis x.rank) 0)
    (hfit : x.shape.getD (axis1 axis x.rank) 0 % 2 = 1 → Fits m (x.shape.getD (axis1 axis x.rank) 0) 0 1)
    (hind : ∀ k, k % 2 = 0 → F ≤ k → k ≤ evenLen (x.shape.getD (axis1 axis x.rank) 0) → BoundaryIndep w F k)
    (hmd : x2.md ≠ x.md) :
    ∃ dcfg dst cs cs2, decInit w (some l) axis orth mode = .ok (dcfg, dst) ∧
      (decCall la dcfg dst x).1 = .ok cs ∧ (decCall la dcfg dst x2).1 = .ok cs2 ∧
      (decCall la dcfg (decCall la dcfg dst x).2 x2).1 = .error .runtimeError := by
  have h2F := hw.two_le
  obtain ⟨dcfg, dst, C, x', cs, lv, h1, hlv, h2, h3, h4, h5, h6, h7, h8, h9, h10⟩ :=
    dec_run hla hw hg hdt hm ho (level := some l) (by rintro _ ⟨⟩; exact hl) (by rintro ⟨⟩) hfit hind
  obtain ⟨dcfg2, dst2, C2, x2', cs2, lv2, k1, _, k2, k3, k4, k5, k6, k7, k8, k9, k10⟩ :=
    dec_run hla hw hg2 hdt2 hm ho (level := some l) (by rintro _ ⟨⟩; exact hl) (by rintro ⟨⟩)
      (by rw [hsame]; exact hfit) (by rw [hsame]; exact hind)
  rw [h1] at k1
  cases k1
  refine ⟨dcfg, dst, cs, cs2, h1, by rw [h9], by rw [k9], ?_⟩
  rw [h9]
  rw [hlv l rfl]
  set n := x.shape.getD (axis1 axis x.rank) 0 with hn
  -- the second input
  obtain ⟨a, ea, hgi, _, hax, _⟩ := goodAxes_single hg2
  have hax1 : axis1 (.int a) x2.rank = axis1 axis x2.rank := by unfold axis1; rw [hax]
  have hcfg : dcfg.axis = a ∧ dcfg.oddMode = mode := by
    unfold decInit at h1
    rw [ea] at h1
    simp only at h1
    split_ifs at h1
    cases h1
    exact ⟨rfl, rfl⟩
  have hdt' : isDtypeSupported x2.md.dtype = true := by unfold isDtypeSupported; simpa using hdt2
  obtain ⟨x'', y, ey, _, q2, q3, q4⟩ := decInput_ok (cfg := dcfg) (m := m) (x := x2) (by rw [hcfg.1]; exact hgi) hdt'
    (by rw [hcfg.2]; exact hm) (by rw [hcfg.1, hax1, hsame]; exact hfit)
  have hr : x''.rank = x2.rank := by unfold Tensor.rank; rw [q3, List.length_set]
  have hys := q4.shows (by rw [hr, hcfg.1]; exact hgi)
  have hymd : y.md ≠ x.md := by rw [hys.md, q2]; exact hmd
  have hsz : y.sizeFromEnd 1 = evenLen n := by
    unfold Tensor.sizeFromEnd
    rw [hys.shape]
    show x''.shape.getD (axis1 (.int dcfg.axis) x''.rank) 0 = _
    have hxl : axis1 axis x2.rank < x2.shape.length := axis1_lt hg2
    rw [hr, q3, hcfg.1, hax1, getD_set_self hxl, hsame]
  have hne := le_evenLen n
  have hee : evenLen (evenLen n) = evenLen n := evenLen_of_even (evenLen_even n)
  have hL : levels (some l) F (evenLen n) = (l.toNat - 1) + 1 := by
    show l.toNat = _
    omega
  rw [hL]
  have hmats : (builtState C F (some l) (l.toNat - 1 + 1) (evenLen n)).mats
      = C (evenLen n) :: builtMats C F (l.toNat - 1) (evenLen n / 2) := by
    show builtMats C F (l.toNat - 1 + 1) (evenLen n) = _
    conv_lhs => unfold builtMats
    rw [if_neg (by omega), hee]
  have hpads : (builtState C F (some l) (l.toNat - 1 + 1) (evenLen n)).padList
      = false :: builtPads F (l.toNat - 1) (evenLen n / 2) := by
    show builtPads F (l.toNat - 1 + 1) (evenLen n) = _
    conv_lhs => unfold builtPads
    rw [if_neg (by omega), hee]
    congr 1
    have := evenLen_even n
    simp [this]
  have hprep : decPrepare la dcfg y.md (evenLen n) (builtState C F (some l) (l.toNat - 1 + 1) (evenLen n))
      = (.ok (), builtState C F (some l) (l.toNat - 1 + 1) (evenLen n)) := by
    unfold decPrepare
    simp only [builtState]
    rw [if_neg (by omega)]
    unfold decEnsure
    rw [if_neg]
    rintro (h | h)
    · have : (builtState C F (some l) (l.toNat - 1 + 1) (evenLen n)).mats.isEmpty = true := h
      rw [hmats] at this
      cases this
    · simp at h
  unfold decCall
  simp only [ey, hsz, hprep]
  unfold decApply
  rw [hmats, hpads]
  unfold matDecLoop decPad
  simp only [bind, Except.bind, Bool.false_eq_true, if_false]
  have : (C (evenLen n)).mmDense y.matT = .error .runtimeError := by
    unfold Coo.mmDense
    have hmd' : (C (evenLen n)).md ≠ y.matT.md := by
      rw [h3.md _ (evenLen_even n) (by omega) (le_refl _)]
      exact fun h => hymd h.symm
    split
    · rw [if_neg (fun h => hmd' h.2)]
    · rfl
  rw [this]

example : ∃ la, ExactLinAlg la ∧ ∃ dcfg dst, decInit bank4 (some 2) .none "gramschmidt" none = .ok (dcfg, dst) ∧
    ∀ xs : List (Tensor ℝ), (∀ y ∈ xs, y.md = ⟨.float64, 0⟩) → ∀ x : Tensor ℝ, x.md = ⟨.float64, 0⟩ →
      (decCall la dcfg (afterDecCalls la dcfg dst xs) x).1 = (decCall la dcfg dst x).1 := by
  obtain ⟨la, hla⟩ := exists_exactLinAlg
  refine ⟨la, hla, _, _, rfl, fun xs hxs x hx => ?_⟩
  refine c42_reuse la ⟨.float64, 0⟩ (w := bank4) (l := 2) (axis := .none) (orth := "gramschmidt") (mode := none)
    (by norm_num) rfl ?_ xs hxs x hx
  intro q hq h4
  obtain ⟨A, hA, _⟩ := c38_orthonormal hla ⟨.float64, 0⟩ bank4_orth hq (by
    have : (4 : ℕ) ≤ q := h4
    omega) (bank4_indep hq h4) (Or.inr rfl)
  exact ⟨A, hA⟩

/-- With `level=None` and a tensor of length 4, the first call succeeds and the same call again fails. -/
example : ∃ la, ExactLinAlg la ∧ ∃ dcfg dst cs, decInit bank4 none .none "qr" none = .ok (dcfg, dst) ∧
    (decCall la dcfg dst (Tensor.ofFn ⟨.float64, 0⟩ [4] fun i => (i.getD 0 0 : ℝ))).1 = .ok cs ∧
    ∃ e, (decCall la dcfg (decCall la dcfg dst (Tensor.ofFn ⟨.float64, 0⟩ [4] fun i => (i.getD 0 0 : ℝ))).2
      (Tensor.ofFn ⟨.float64, 0⟩ [4] fun i => (i.getD 0 0 : ℝ))).1 = .error e := by
  obtain ⟨la, hla⟩ := exists_exactLinAlg
  obtain ⟨dcfg, dst, rcfg, rst, C, x', cs, h1, _, _, _, h4, _⟩ := c40_roundtrip hla bank4_orth
    (x := Tensor.ofFn ⟨.float64, 0⟩ [4] fun i => (i.getD 0 0 : ℝ)) (axis := .none) (m := .reflect)
    (mode := none) (orth := "qr") (level := none) ⟨le_rfl, rfl, ⟨by
    intro a ha
    have : a = -1 := by simpa [resolve] using ha
    subst this; exact ⟨by decide, by decide⟩, by decide⟩⟩ (Or.inr rfl) (Or.inr ⟨rfl, rfl⟩) (Or.inl rfl)
    (by rintro _ ⟨⟩) (fun _ => by decide) (fun h => absurd h (by decide)) (fun k a b _ => bank4_indep a b)
  refine ⟨la, hla, dcfg, dst, cs, h1, h4, ?_⟩
  obtain ⟨l, y, ds, e1, e2, _, hbad⟩ := c42_level_frozen la ⟨.float64, 0⟩ h1 (fun q hq h => by
    have h4 : (4 : ℕ) ≤ q := h
    obtain ⟨A, hA, _⟩ := c38_orthonormal hla ⟨.float64, 0⟩ bank4_orth hq (by omega) (bank4_indep hq h4) (Or.inl rfl)
    exact ⟨A, hA⟩) _ rfl h4
  have hc : dcfg = ⟨bank4, -1, "qr", none⟩ := by
    have h1' : decInit bank4 none .none "qr" none = .ok (⟨bank4, -1, "qr", none⟩, ⟨none, none, [], [], false, []⟩) := rfl
    rw [h1'] at h1
    cases h1
    rfl
  subst hc
  obtain ⟨x1, y1, e3, _, _, hsh, hy⟩ := decInput_ok (cfg := ⟨bank4, -1, "qr", none⟩) (m := .reflect)
    (x := Tensor.ofFn ⟨.float64, 0⟩ [4] fun i => (i.getD 0 0 : ℝ)) ⟨le_rfl, rfl, ⟨by
    intro a ha
    have : a = -1 := by simpa [resolve] using ha
    subst this; exact ⟨by decide, by decide⟩, by decide⟩⟩ rfl (Or.inr ⟨rfl, rfl⟩) (fun h => absurd h (by decide))
  rw [e1] at e3
  cases e3
  have hs4 : x1.shape = [4] := hsh
  have hr : x1.rank = 1 := by unfold Tensor.rank; rw [hs4]; rfl
  have hsz : y.sizeFromEnd 1 = 4 := by
    unfold Tensor.sizeFromEnd
    rw [hy.shape, hr, hs4]
    rfl
  rw [hsz] at e2
  have hl : l = 0 := by
    have : matAutoLevel 4 bank4.len = .ok 0 := rfl
    rw [this] at e2
    exact (Except.ok.inj e2).symm
  exact hbad (by omega) [] _

end Verif.Props
