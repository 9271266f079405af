/-
C84: boundary-matrix transforms preserve inner products and distances.
-/
import Verif.Lemmas.MatInner
import Verif.Spec.MatInner
import Verif.Props.Energy
import Verif.Props.MatOnto

namespace Verif.Props
open Tensor Spec

theorem disjoint_dot {R : Type} [CommRing R] : ∀ {cs ds : List (Tensor R)}, DisjointBands cs ds → listDot cs ds = 0
  | [], _, _ => by simp [listDot]
  | _ :: _, [], _ => by simp [listDot]
  | c :: cs, d :: ds, h => by
    have ih := disjoint_dot (cs := cs) (ds := ds) fun i a b ha hb => h (i + 1) a b ha hb
    unfold listDot at ih ⊢
    rw [List.zipWith_cons_cons, List.sum_cons, ih, add_zero]
    unfold innerProd
    refine Eq.trans (boxSum_congr _ fun i _ => ?_) (boxSum_zero _)
    rcases h 0 c d rfl rfl with h | h
    · rw [h, zero_mul]
    · rw [h, mul_zero]

theorem disjoint_coeffDot {R : Type} [CommRing R] {c d : Coeffs R} (h : DisjointCoeffs c d) : coeffDot c d = 0 := by
  unfold coeffDot
  unfold DisjointCoeffs at h
  generalize c.items = l at h
  generalize d.items = l' at h
  induction l generalizing l' with
  | nil => simp
  | cons e l ih =>
    cases l' with
    | nil => simp
    | cons e' l' =>
      rw [List.zipWith_cons_cons, List.sum_cons, ih l' fun i a b ha hb => h (i + 1) a b ha hb, add_zero]
      exact disjoint_dot (h 0 e e' rfl rfl)

section
variable {la : LinAlg ℝ} {w : Wavelet ℝ} {F : Nat}

/-- **C84, analysis.** `MatrixWavedec` preserves inner products and distances of any two signals of the same shape (in `zero`
mode for every length, in the other modes if no level has an odd length). -/
theorem c84_analysis_1d (hla : ExactLinAlg la) (hw : OrthBank w F)
    {x y : Tensor ℝ} {axis : AxisHint} {m : Mode} {mode : Option String} {orth : String} {level : Option Int}
    (h1 : y.md = x.md) (h2 : y.shape = x.shape)
    (hg : GoodAxes axis x.rank 1) (hdt : x.md.dtype = .float32 ∨ x.md.dtype = .float64)
    (hm : Selects mode m) (ho : orth = "qr" ∨ orth = "gramschmidt") (hlev : ∀ l, level = some l → 1 ≤ l)
    (hne : level = none → 0 < x.shape.getD (axis1 axis x.rank) 0)
    (hind : ∀ k, k % 2 = 0 → F ≤ k → k ≤ evenLen (x.shape.getD (axis1 axis x.rank) 0) → BoundaryIndep w F k)
    (hp : m = .zero ∨ x.shape.getD (axis1 axis x.rank) 0 % 2 = 0 ∧ PadFree (x.shape.getD (axis1 axis x.rank) 0)
      (mLevels F (levels level F (x.shape.getD (axis1 axis x.rank) 0)) (x.shape.getD (axis1 axis x.rank) 0))) :
    ∃ dcfg dst cs ds, decInit w level axis orth mode = .ok (dcfg, dst) ∧ (decCall la dcfg dst x).1 = .ok cs ∧
      (decCall la dcfg dst y).1 = .ok ds ∧ listDot cs ds = innerProd x y ∧ listDist cs ds = dist2 x y := by
  have hen : ∀ z : Tensor ℝ, z.md = x.md → z.shape = x.shape → ∃ dcfg dst cs, decInit w level axis orth mode = .ok (dcfg, dst) ∧
      (decCall la dcfg dst z).1 = .ok cs ∧ (cs.map energy).sum = energy z := by
    intro z z1 z2
    have hr : z.rank = x.rank := by unfold Tensor.rank; rw [z2]
    rw [← z1] at hdt
    rw [← hr] at hg
    rw [← hr, ← z2] at hne hind hp
    exact c55_1d hla hw hg hdt hm ho hlev hne hind hp
  obtain ⟨dcfg, dst, -, d1, -, -⟩ := hen x rfl rfl
  obtain ⟨cs, ds, e1, e2, e3, e4, -⟩ := polarise (P := fun k => Forall₃ (Lin k)) (E := fun cs => (cs.map energy).sum)
    (D := listDot) (Q := listDist) (f := fun z => (decCall la dcfg dst z).1) (fun k a b d h => list_energy h)
    (fun a b d h => list_dist h) (fun k x y z h => (c54_matrix_wavedec la dcfg dst x y z h).out) h1 h2
    (fun z z1 z2 => by
      obtain ⟨dcfg', dst', cs, d2, d3, d4⟩ := hen z z1 z2
      rw [d1] at d2
      cases d2
      exact ⟨cs, d3, d4⟩)
  exact ⟨dcfg, dst, cs, ds, d1, e1, e2, e3, e4⟩

theorem analysis_nd {n : Nat} {sep : Bool} {x y : Tensor ℝ} {axes : AxisHint} {mode : Option String} {orth : String}
    {level : Option Int} (h1 : y.md = x.md) (h2 : y.shape = x.shape)
    (hen : ∀ z : Tensor ℝ, z.md = x.md → z.shape = x.shape → ∃ dcfg dst c, decInitN n w level axes orth sep mode = .ok (dcfg, dst) ∧
      (decCallN n la dcfg dst z).1 = .ok c ∧ coeffEnergy c = energy z) :
    ∃ dcfg dst c d, decInitN n w level axes orth sep mode = .ok (dcfg, dst) ∧ (decCallN n la dcfg dst x).1 = .ok c ∧
      (decCallN n la dcfg dst y).1 = .ok d ∧ coeffDot c d = innerProd x y ∧ coeffDist c d = dist2 x y := by
  obtain ⟨dcfg, dst, -, d1, -, -⟩ := hen x rfl rfl
  obtain ⟨cs, ds, e1, e2, e3, e4, -⟩ := polarise (P := fun k => Coeffs3 (Lin k)) (E := coeffEnergy)
    (D := coeffDot) (Q := coeffDist) (f := fun z => (decCallN n la dcfg dst z).1) (fun k a b d h => coeffs_energy h)
    (fun a b d h => coeffs_dist h) (fun k x y z h => (c54_matrix_wavedec_nd n la dcfg dst x y z h).out) h1 h2
    (fun z z1 z2 => by
      obtain ⟨dcfg', dst', cs, d2, d3, d4⟩ := hen z z1 z2
      rw [d1] at d2
      cases d2
      exact ⟨cs, d3, d4⟩)
  exact ⟨dcfg, dst, cs, ds, d1, e1, e2, e3, e4⟩

/-- **C84, analysis of images** (`separable=True`). -/
theorem c84_analysis_2d (hla : ExactLinAlg la) (hw : OrthBank w F)
    {x y : Tensor ℝ} {axes : AxisHint} {m : Mode} {mode : Option String} {orth : String} {level : Option Int}
    (h1 : y.md = x.md) (h2 : y.shape = x.shape)
    (hg : GoodAxes axes x.rank 2) (hdt : x.md.dtype = .float32 ∨ x.md.dtype = .float64)
    (hpos : ∀ k ∈ x.shape, 0 < k)
    (hm : Selects mode m) (ho : orth = "qr" ∨ orth = "gramschmidt") (hlev : ∀ l, level = some l → 1 ≤ l)
    (hind : ∀ k, k % 2 = 0 → F ≤ k → (∃ n ∈ sizes (axesOf axes x.rank 2) x.shape, k ≤ evenLen n) → BoundaryIndep w F k)
    (hp : m = .zero ∨ PadFreeN (sizes (axesOf axes x.rank 2) x.shape)
      (mLevelsN F (levelsN level F (sizes (axesOf axes x.rank 2) x.shape)) (sizes (axesOf axes x.rank 2) x.shape))) :
    ∃ dcfg dst c d, decInitN 2 w level axes orth true mode = .ok (dcfg, dst) ∧ (decCallN 2 la dcfg dst x).1 = .ok c ∧
      (decCallN 2 la dcfg dst y).1 = .ok d ∧ coeffDot c d = innerProd x y ∧ coeffDist c d = dist2 x y := by
  refine analysis_nd h1 h2 fun z z1 z2 => ?_
  have hr : z.rank = x.rank := by unfold Tensor.rank; rw [z2]
  rw [← z1] at hdt
  rw [← hr] at hg
  rw [← z2] at hpos
  rw [← hr, ← z2] at hind hp
  exact c55_separable2 hla hw hg hdt hpos hm ho hlev hind hp

/-- **C84, analysis of volumes.** -/
theorem c84_analysis_3d (hla : ExactLinAlg la) (hw : OrthBank w F)
    {x y : Tensor ℝ} {axes : AxisHint} {m : Mode} {mode : Option String} {orth : String} {level : Option Int}
    (h1 : y.md = x.md) (h2 : y.shape = x.shape)
    (hg : GoodAxes axes x.rank 3) (hdt : x.md.dtype = .float32 ∨ x.md.dtype = .float64)
    (hm : Selects mode m) (ho : orth = "qr" ∨ orth = "gramschmidt") (hlev : ∀ l, level = some l → 1 ≤ l)
    (hne : level = none → ∀ k ∈ sizes (axesOf axes x.rank 3) x.shape, 0 < k)
    (hind : ∀ k, k % 2 = 0 → F ≤ k → (∃ n ∈ sizes (axesOf axes x.rank 3) x.shape, k ≤ evenLen n) → BoundaryIndep w F k)
    (hp : m = .zero ∨ PadFreeN (sizes (axesOf axes x.rank 3) x.shape)
      (mLevelsN F (levelsN level F (sizes (axesOf axes x.rank 3) x.shape)) (sizes (axesOf axes x.rank 3) x.shape))) :
    ∃ dcfg dst c d, decInitN 3 w level axes orth true mode = .ok (dcfg, dst) ∧ (decCallN 3 la dcfg dst x).1 = .ok c ∧
      (decCallN 3 la dcfg dst y).1 = .ok d ∧ coeffDot c d = innerProd x y ∧ coeffDist c d = dist2 x y := by
  refine analysis_nd h1 h2 fun z z1 z2 => ?_
  have hr : z.rank = x.rank := by unfold Tensor.rank; rw [z2]
  rw [← z1] at hdt
  rw [← hr] at hg
  rw [← hr, ← z2] at hind hp hne
  exact c55_separable3 hla hw hg hdt hm ho hlev hne hind hp

/-- **C84, analysis of images** (`separable=False`). -/
theorem c84_analysis_nonseparable (hla : ExactLinAlg la) (hw : OrthBank w F)
    {x y : Tensor ℝ} {axes : AxisHint} {m : Mode} {mode : Option String} {orth : String} {level : Option Int}
    (h1 : y.md = x.md) (h2 : y.shape = x.shape)
    (hg : GoodAxes axes x.rank 2) (hdt : x.md.dtype = .float32 ∨ x.md.dtype = .float64)
    (hpos : ∀ k ∈ x.shape, 0 < k)
    (hm : Selects mode m) (ho : orth = "qr" ∨ orth = "gramschmidt") (hlev : ∀ l, level = some l → 1 ≤ l)
    (hind : ∀ k, k % 2 = 0 → F ≤ k → (∃ n ∈ sizes (axesOf axes x.rank 2) x.shape, k ≤ evenLen n) → BoundaryIndep w F k)
    {L : Nat} (hL : L = mLevelsN F (levelsN level F (sizes (axesOf axes x.rank 2) x.shape))
      (sizes (axesOf axes x.rank 2) x.shape)) (hL0 : 0 < L)
    (hp : m = .zero ∨ PadFreeN (sizes (axesOf axes x.rank 2) x.shape) L) :
    ∃ dcfg dst c d, decInitN 2 w level axes orth false mode = .ok (dcfg, dst) ∧ (decCallN 2 la dcfg dst x).1 = .ok c ∧
      (decCallN 2 la dcfg dst y).1 = .ok d ∧ coeffDot c d = innerProd x y ∧ coeffDist c d = dist2 x y := by
  refine analysis_nd h1 h2 fun z z1 z2 => ?_
  have hr : z.rank = x.rank := by unfold Tensor.rank; rw [z2]
  rw [← z1] at hdt
  rw [← hr] at hg
  rw [← z2] at hpos
  rw [← hr, ← z2] at hind hp hL
  exact c55_nonseparable hla hw hg hdt hpos hm ho hlev hind hL hL0 hp

/-- **C84, synthesis.** Take two lists of coefficients `[cA_L, cD_L, …, cD_1]` with `K, K, 2K, 4K, …` samples along the axis and
arbitrary values. A new `MatrixWaverec` object reconstructs both; the inner product of the results is that of the coefficients
and their distance is that of the coefficients.  In particular editing coefficients (thresholding, quantising, noise) changes
the signal by exactly as much, and signals reconstructed from different bands are orthogonal. -/
theorem c84_synthesis_1d (hla : ExactLinAlg la) (hw : OrthBank w F)
    {axis : AxisHint} {orth : String} {md : Meta} {S : List Nat} {K L : Nat}
    {cs ds : List (Tensor ℝ)} (hg : GoodAxes axis S.length 1) (hdt : md.dtype = .float32 ∨ md.dtype = .float64)
    (ho : orth = "qr" ∨ orth = "gramschmidt") (hL : 1 ≤ L) (hK : F ≤ 2 * K)
    (hind : ∀ k, k % 2 = 0 → F ≤ k → k ≤ 2 ^ L * K → BoundaryIndep w F k)
    (hlen : ∀ es ∈ [cs, ds], es.length = L + 1)
    (h0 : ∀ es ∈ [cs, ds], ∀ t, es[0]? = some t → Uniform md (S.set (axis1 axis S.length) K) t)
    (hd : ∀ es ∈ [cs, ds], ∀ s t, s < L → es[L - s]? = some t →
      Uniform md (S.set (axis1 axis S.length) (2 ^ (L - (s + 1)) * K)) t) :
    ∃ rcfg rst x y, recInit w axis orth = .ok (rcfg, rst) ∧ (recCall la rcfg rst cs).1 = .ok x ∧
      (recCall la rcfg rst ds).1 = .ok y ∧ x.shape = S.set (axis1 axis S.length) (2 ^ L * K) ∧ y.shape = x.shape ∧
      innerProd x y = listDot cs ds ∧ dist2 x y = listDist cs ds ∧ (DisjointBands cs ds → innerProd x y = 0) := by
  have hz : Selects (some "zero") .zero := .inl rfl
  obtain ⟨dcfg, dst, rcfg, rst, x, a1, a2, a3, a4, a5, a6⟩ := c63_matrix hla hw hg hdt hz ho hL hK hind
    (hlen cs (by simp)) (h0 cs (by simp)) (hd cs (by simp))
  obtain ⟨dcfg', dst', rcfg', rst', y, b1, b2, b3, b4, b5, b6⟩ := c63_matrix hla hw hg hdt hz ho hL hK hind
    (hlen ds (by simp)) (h0 ds (by simp)) (hd ds (by simp))
  rw [a1] at b1; cases b1
  rw [a2] at b2; cases b2
  have ha : axis1 axis S.length < S.length := axis1_lt hg
  have hr : x.rank = S.length := by rw [Tensor.rank, a4, List.length_set]
  have hn : x.shape.getD (axis1 axis S.length) 0 = 2 ^ L * K := by rw [a4]; exact getD_set_self ha
  have hev : 2 ^ L * K % 2 = 0 := by
    obtain ⟨l, rfl⟩ := Nat.exists_eq_add_of_le hL
    rw [show 2 ^ (1 + l) * K = 2 * (2 ^ l * K) by ring]; omega
  obtain ⟨dcfg'', dst'', cs', ds', e1, e2, e3, e4, e5⟩ := c84_analysis_1d hla hw (x := x) (y := y) (axis := axis)
    (level := some (L : Int)) (orth := orth) (by rw [a3, b3]) (by rw [a4, b4]) (by rw [hr]; exact hg) (by rw [a3]; exact hdt)
    hz ho (fun l h => by cases h; omega) (fun h => by cases h)
    (fun k k1 k2 k3 => by rw [hr, hn, evenLen_of_even hev] at k3; exact hind k k1 k2 k3) (Or.inl rfl)
  rw [a1] at e1; cases e1
  rw [a6] at e2; cases e2
  rw [b6] at e3; cases e3
  exact ⟨rcfg, rst, x, y, a2, a5, b5, a4, by rw [a4, b4], e4.symm, e5.symm, fun h => by rw [← e4]; exact disjoint_dot h⟩

theorem dyadic_pos {axes : AxisHint} {S Ks : List Nat} {L : Nat} {n : Nat} (hg : GoodAxes axes S.length n) (hKl : Ks.length = n)
    (hF : 1 ≤ F) (hK : ∀ K ∈ Ks, F ≤ 2 * K) (hpos : ∀ k ∈ setMany S (axesOf axes S.length n) Ks, 0 < k) :
    ∀ k ∈ setMany S (axesOf axes S.length n) (Ks.map (2 ^ L * ·)), 0 < k := by
  have hlen : (axesOf axes S.length n).length = n := by simp [axesOf, hg.len]
  refine setMany_pos hg.nodup hg.lt (by omega) (by rw [List.length_map]; omega) hpos fun k hk => ?_
  obtain ⟨K, hK', rfl⟩ := List.mem_map.mp hk
  have := hK K hK'
  exact Nat.mul_pos (by positivity) (by omega)

theorem dyadic_ind {Ks : List Nat} {L : Nat} (hL : 1 ≤ L)
    (hind : ∀ k, k % 2 = 0 → F ≤ k → (∃ K ∈ Ks, k ≤ 2 ^ L * K) → BoundaryIndep w F k) :
    ∀ k, k % 2 = 0 → F ≤ k → (∃ n ∈ Ks.map (2 ^ L * ·), k ≤ evenLen n) → BoundaryIndep w F k := by
  rintro k k1 k2 ⟨n, hn, hk⟩
  obtain ⟨K, hK', rfl⟩ := List.mem_map.mp hn
  have e : 2 ^ L * K % 2 = 0 := by
    obtain ⟨l, rfl⟩ := Nat.exists_eq_add_of_le hL
    rw [show 2 ^ (1 + l) * K = 2 * (2 ^ l * K) by ring]; omega
  exact hind k k1 k2 ⟨K, hK', by rwa [evenLen_of_even e] at hk⟩

/-- **C84, synthesis of images** (`separable=True`). -/
theorem c84_synthesis_2d (hla : ExactLinAlg la) (hw : OrthBank w F)
    {axes : AxisHint} {orth : String} {md : Meta} {S Ks : List Nat} {L : Nat}
    {c d : Coeffs ℝ} (hg : GoodAxes axes S.length 2) (hdt : md.dtype = .float32 ∨ md.dtype = .float64)
    (ho : orth = "qr" ∨ orth = "gramschmidt") (hL : 1 ≤ L) (hKl : Ks.length = 2)
    (hK : ∀ K ∈ Ks, F ≤ 2 * K) (hpos : ∀ k ∈ setMany S (axesOf axes S.length 2) Ks, 0 < k)
    (hind : ∀ k, k % 2 = 0 → F ≤ k → (∃ K ∈ Ks, k ≤ 2 ^ L * K) → BoundaryIndep w F k)
    (hc : ∀ e ∈ [c, d], CoeffSizes IsTupleSwapped md (fun s => setMany S (axesOf axes S.length 2) (Ks.map (2 ^ (L - s) * ·))) L e) :
    ∃ rcfg rst x y, recInitN 2 w axes orth true = .ok (rcfg, rst) ∧ (recCallN 2 la rcfg rst c).1 = .ok x ∧
      (recCallN 2 la rcfg rst d).1 = .ok y ∧ x.shape = setMany S (axesOf axes S.length 2) (Ks.map (2 ^ L * ·)) ∧
      y.shape = x.shape ∧ innerProd x y = coeffDot c d ∧ dist2 x y = coeffDist c d ∧
      (DisjointCoeffs c d → innerProd x y = 0) := by
  have hz : Selects (some "zero") .zero := .inl rfl
  have h2 := hw.two_le
  have hlen : (axesOf axes S.length 2).length = 2 := by simp [axesOf, hg.len]
  obtain ⟨dcfg, dst, rcfg, rst, x, a1, a2, a3, a4, a5, a6⟩ := c63_matrix2 hla hw hg hdt hz ho hL hKl hK hpos hind (hc c (by simp))
  obtain ⟨dcfg', dst', rcfg', rst', y, b1, b2, b3, b4, b5, b6⟩ := c63_matrix2 hla hw hg hdt hz ho hL hKl hK hpos hind (hc d (by simp))
  rw [a1] at b1; cases b1
  rw [a2] at b2; cases b2
  have hr : x.rank = S.length := by rw [Tensor.rank, a4, setMany_length]
  have hs : sizes (axesOf axes S.length 2) x.shape = Ks.map (2 ^ L * ·) := by
    rw [a4]; exact sizes_setMany hg.nodup hg.lt (by rw [hlen, List.length_map]; exact hKl)
  obtain ⟨_, _, cs', ds', e1, e2, e3, e4, e5⟩ := c84_analysis_2d hla hw (x := x) (y := y) (axes := axes)
    (level := some (L : Int)) (orth := orth) (by rw [a3, b3]) (by rw [a4, b4]) (by rw [hr]; exact hg) (by rw [a3]; exact hdt)
    (by rw [a4]; exact dyadic_pos hg hKl (by omega) hK hpos) hz ho (fun l h => by cases h; omega)
    (by rw [hr, hs]; exact dyadic_ind hL hind) (Or.inl rfl)
  rw [a1] at e1; cases e1
  rw [a6] at e2; cases e2
  rw [b6] at e3; cases e3
  exact ⟨rcfg, rst, x, y, a2, a5, b5, a4, by rw [a4, b4], e4.symm, e5.symm, fun h => by rw [← e4]; exact disjoint_coeffDot h⟩

/-- **C84, synthesis of volumes.** -/
theorem c84_synthesis_3d (hla : ExactLinAlg la) (hw : OrthBank w F)
    {axes : AxisHint} {orth : String} {md : Meta} {S Ks : List Nat} {L : Nat}
    {c d : Coeffs ℝ} (hg : GoodAxes axes S.length 3) (hdt : md.dtype = .float32 ∨ md.dtype = .float64)
    (ho : orth = "qr" ∨ orth = "gramschmidt") (hL : 1 ≤ L) (hKl : Ks.length = 3)
    (hK : ∀ K ∈ Ks, F ≤ 2 * K)
    (hind : ∀ k, k % 2 = 0 → F ≤ k → (∃ K ∈ Ks, k ≤ 2 ^ L * K) → BoundaryIndep w F k)
    (hc : ∀ e ∈ [c, d], CoeffSizes (IsDict keysM3) md (fun s => setMany S (axesOf axes S.length 3) (Ks.map (2 ^ (L - s) * ·))) L e) :
    ∃ rcfg rst x y, recInitN 3 w axes orth true = .ok (rcfg, rst) ∧ (recCallN 3 la rcfg rst c).1 = .ok x ∧
      (recCallN 3 la rcfg rst d).1 = .ok y ∧ x.shape = setMany S (axesOf axes S.length 3) (Ks.map (2 ^ L * ·)) ∧
      y.shape = x.shape ∧ innerProd x y = coeffDot c d ∧ dist2 x y = coeffDist c d ∧
      (DisjointCoeffs c d → innerProd x y = 0) := by
  have hz : Selects (some "zero") .zero := .inl rfl
  have hlen : (axesOf axes S.length 3).length = 3 := by simp [axesOf, hg.len]
  obtain ⟨dcfg, dst, rcfg, rst, x, a1, a2, a3, a4, a5, a6⟩ := c63_matrix3 hla hw hg hdt hz ho hL hKl hK hind (hc c (by simp))
  obtain ⟨dcfg', dst', rcfg', rst', y, b1, b2, b3, b4, b5, b6⟩ := c63_matrix3 hla hw hg hdt hz ho hL hKl hK hind (hc d (by simp))
  rw [a1] at b1; cases b1
  rw [a2] at b2; cases b2
  have hr : x.rank = S.length := by rw [Tensor.rank, a4, setMany_length]
  have hs : sizes (axesOf axes S.length 3) x.shape = Ks.map (2 ^ L * ·) := by
    rw [a4]; exact sizes_setMany hg.nodup hg.lt (by rw [hlen, List.length_map]; exact hKl)
  obtain ⟨_, _, cs', ds', e1, e2, e3, e4, e5⟩ := c84_analysis_3d hla hw (x := x) (y := y) (axes := axes)
    (level := some (L : Int)) (orth := orth) (by rw [a3, b3]) (by rw [a4, b4]) (by rw [hr]; exact hg) (by rw [a3]; exact hdt)
    hz ho (fun l h => by cases h; omega) (fun h => by cases h)
    (by rw [hr, hs]; exact dyadic_ind hL hind) (Or.inl rfl)
  rw [a1] at e1; cases e1
  rw [a6] at e2; cases e2
  rw [b6] at e3; cases e3
  exact ⟨rcfg, rst, x, y, a2, a5, b5, a4, by rw [a4, b4], e4.symm, e5.symm, fun h => by rw [← e4]; exact disjoint_coeffDot h⟩

/-- **C84, synthesis of images** (`separable=False`). -/
theorem c84_synthesis_nonseparable (hla : ExactLinAlg la) (hw : OrthBank w F)
    {axes : AxisHint} {orth : String} {md : Meta} {S Ks : List Nat} {L : Nat}
    {c d : Coeffs ℝ} (hg : GoodAxes axes S.length 2) (hdt : md.dtype = .float32 ∨ md.dtype = .float64)
    (ho : orth = "qr" ∨ orth = "gramschmidt") (hL : 1 ≤ L) (hKl : Ks.length = 2)
    (hK : ∀ K ∈ Ks, F ≤ 2 * K) (hpos : ∀ k ∈ setMany S (axesOf axes S.length 2) Ks, 0 < k)
    (hind : ∀ k, k % 2 = 0 → F ≤ k → (∃ K ∈ Ks, k ≤ 2 ^ L * K) → BoundaryIndep w F k)
    (hc : ∀ e ∈ [c, d], CoeffSizes IsTuple md (fun s => setMany S (axesOf axes S.length 2) (Ks.map (2 ^ (L - s) * ·))) L e) :
    ∃ rcfg rst x y, recInitN 2 w axes orth false = .ok (rcfg, rst) ∧ (recCallN 2 la rcfg rst c).1 = .ok x ∧
      (recCallN 2 la rcfg rst d).1 = .ok y ∧ x.shape = setMany S (axesOf axes S.length 2) (Ks.map (2 ^ L * ·)) ∧
      y.shape = x.shape ∧ innerProd x y = coeffDot c d ∧ dist2 x y = coeffDist c d ∧
      (DisjointCoeffs c d → innerProd x y = 0) := by
  have hz : Selects (some "zero") .zero := .inl rfl
  have h2 := hw.two_le
  have hlen : (axesOf axes S.length 2).length = 2 := by simp [axesOf, hg.len]
  obtain ⟨dcfg, dst, rcfg, rst, x, a1, a2, a3, a4, a5, a6⟩ := c63_nonseparable hla hw hg hdt hz ho hL hKl hK hpos hind (hc c (by simp))
  obtain ⟨dcfg', dst', rcfg', rst', y, b1, b2, b3, b4, b5, b6⟩ := c63_nonseparable hla hw hg hdt hz ho hL hKl hK hpos hind (hc d (by simp))
  rw [a1] at b1; cases b1
  rw [a2] at b2; cases b2
  have hr : x.rank = S.length := by rw [Tensor.rank, a4, setMany_length]
  have hs : sizes (axesOf axes S.length 2) x.shape = Ks.map (2 ^ L * ·) := by
    rw [a4]; exact sizes_setMany hg.nodup hg.lt (by rw [hlen, List.length_map]; exact hKl)
  have hfull : mLevelsN F L (Ks.map (2 ^ L * ·)) = L :=
    mLevelsN_full _ _ fun s hs k hk => (dyadic_level (F := F) hK hs k hk).2.1
  obtain ⟨_, _, cs', ds', e1, e2, e3, e4, e5⟩ := c84_analysis_nonseparable hla hw (x := x) (y := y) (axes := axes)
    (level := some (L : Int)) (orth := orth) (by rw [a3, b3]) (by rw [a4, b4]) (by rw [hr]; exact hg) (by rw [a3]; exact hdt)
    (by rw [a4]; exact dyadic_pos hg hKl (by omega) hK hpos) hz ho (fun l h => by cases h; omega)
    (by rw [hr, hs]; exact dyadic_ind hL hind) (L := L)
    (by rw [hr, hs, show levelsN (some (L : Int)) F (Ks.map (2 ^ L * ·)) = L by simp [levelsN], hfull]) (by omega) (Or.inl rfl)
  rw [a1] at e1; cases e1
  rw [a6] at e2; cases e2
  rw [b6] at e3; cases e3
  exact ⟨rcfg, rst, x, y, a2, a5, b5, a4, by rw [a4, b4], e4.symm, e5.symm, fun h => by rw [← e4]; exact disjoint_coeffDot h⟩

end

/-! ### The hypotheses can be met -/

/-- Two levels of the four-tap bank: the signal reconstructed from approximation and coarse details is orthogonal to the one
reconstructed from the fine details, with arbitrary values in a batch of three. -/
example (f g h : List Nat → ℝ) : ∃ (la : LinAlg ℝ) (_ : ExactLinAlg la) (rcfg : RecCfg ℝ) (rst : RecState ℝ) (x y : Tensor ℝ),
    (recCall la rcfg rst [ofFn ⟨.float64, 0⟩ [3, 2] f, ofFn ⟨.float64, 0⟩ [3, 2] g, ofFn ⟨.float64, 0⟩ [3, 4] fun _ => 0]).1 = .ok x ∧
    (recCall la rcfg rst [ofFn ⟨.float64, 0⟩ [3, 2] fun _ => 0, ofFn ⟨.float64, 0⟩ [3, 2] fun _ => 0, ofFn ⟨.float64, 0⟩ [3, 4] h]).1
      = .ok y ∧ x.shape = [3, 8] ∧ innerProd x y = 0 := by
  obtain ⟨la, hla⟩ := exists_exactLinAlg
  obtain ⟨rcfg, rst, x, y, -, h1, h2, h3, -, -, -, h4⟩ := c84_synthesis_1d hla bank4_orth (axis := .int (-1))
    (orth := "qr") (md := ⟨.float64, 0⟩) (S := [3, 0]) (K := 2) (L := 2)
    (cs := [ofFn ⟨.float64, 0⟩ [3, 2] f, ofFn ⟨.float64, 0⟩ [3, 2] g, ofFn ⟨.float64, 0⟩ [3, 4] fun _ => 0])
    (ds := [ofFn ⟨.float64, 0⟩ [3, 2] fun _ => 0, ofFn ⟨.float64, 0⟩ [3, 2] fun _ => 0, ofFn ⟨.float64, 0⟩ [3, 4] h])
    ⟨by decide, rfl, ⟨by
      intro a ha
      have : a = -1 := by simpa [resolve] using ha
      subst this; exact ⟨by decide, by decide⟩, by decide⟩⟩ (Or.inr rfl) (Or.inl rfl) (by decide) (by decide)
    (fun k a b _ => bank4_indep a b) (by simp)
    (by
      intro es hes t ht
      simp only [List.mem_cons, List.not_mem_nil, or_false] at hes
      rcases hes with rfl | rfl <;> · cases ht; exact ⟨rfl, rfl⟩)
    (by
      intro es hes s t hs ht
      simp only [List.mem_cons, List.not_mem_nil, or_false] at hes
      rcases (by omega : s = 0 ∨ s = 1) with rfl | rfl <;> rcases hes with rfl | rfl <;> · cases ht; exact ⟨rfl, rfl⟩)
  refine ⟨la, hla, rcfg, rst, x, y, h1, h2, h3, h4 ?_⟩
  intro i c d hc hd
  match i, hc, hd with
  | 0, hc, hd => cases hd; exact Or.inr fun idx => by simp [ofFn]
  | 1, hc, hd => cases hd; exact Or.inr fun idx => by simp [ofFn]
  | 2, hc, hd => cases hc; exact Or.inl fun idx => by simp [ofFn]
  | _ + 3, hc, _ => simp at hc

/-- One level of both image transforms, axes `(2, -3)` of a stack, arbitrary values: the distance of the results is the
distance of the coefficients. -/
example (f g : Nat → List Nat → ℝ) (sep : Bool) :
    ∃ (la : LinAlg ℝ) (_ : ExactLinAlg la) (rcfg : RecCfgN ℝ) (rst : RecStateN ℝ) (c : (Nat → List Nat → ℝ) → Coeffs ℝ) (x y : Tensor ℝ),
      (∀ f, c f = ⟨false, [.tensor (ofFn ⟨.float64, 0⟩ [3, 5, 2] (f 0)),
        .tuple (ofFn ⟨.float64, 0⟩ [3, 5, 2] (f 1)) (ofFn ⟨.float64, 0⟩ [3, 5, 2] (f 2)) (ofFn ⟨.float64, 0⟩ [3, 5, 2] (f 3))]⟩) ∧
      (recCallN 2 la rcfg rst (c f)).1 = .ok x ∧ (recCallN 2 la rcfg rst (c g)).1 = .ok y ∧ x.shape = [6, 5, 4] ∧
      dist2 x y = coeffDist (c f) (c g) := by
  obtain ⟨la, hla⟩ := exists_exactLinAlg
  cases sep
  · obtain ⟨rcfg, rst, x, y, -, h1, h2, h3, -, -, h4, -⟩ := c84_synthesis_nonseparable hla bank4_orth (axes := .seq [2, -3])
      (orth := "qr") (md := ⟨.float64, 0⟩) (S := [1, 5, 1]) (Ks := [2, 3]) (L := 1)
      exN_axes2 (Or.inr rfl) (Or.inl rfl) (by decide) rfl (by decide) (by decide) (fun k a b _ => bank4_indep a b)
      (c := ⟨false, [.tensor (ofFn ⟨.float64, 0⟩ [3, 5, 2] (f 0)),
        .tuple (ofFn ⟨.float64, 0⟩ [3, 5, 2] (f 1)) (ofFn ⟨.float64, 0⟩ [3, 5, 2] (f 2)) (ofFn ⟨.float64, 0⟩ [3, 5, 2] (f 3))]⟩)
      (d := ⟨false, [.tensor (ofFn ⟨.float64, 0⟩ [3, 5, 2] (g 0)),
        .tuple (ofFn ⟨.float64, 0⟩ [3, 5, 2] (g 1)) (ofFn ⟨.float64, 0⟩ [3, 5, 2] (g 2)) (ofFn ⟨.float64, 0⟩ [3, 5, 2] (g 3))]⟩)
      (by
        intro e he
        simp only [List.mem_cons, List.not_mem_nil, or_false] at he
        rcases he with rfl | rfl <;> exact ⟨rfl, rfl, ⟨_, rfl, rfl, rfl⟩, fun s hs => by
          obtain rfl : s = 0 := by omega
          exact ⟨_, rfl, _, _, _, rfl, ⟨rfl, rfl⟩, ⟨rfl, rfl⟩, ⟨rfl, rfl⟩⟩⟩)
    exact ⟨la, hla, rcfg, rst, _, x, y, fun _ => rfl, h1, h2, h3, h4⟩
  · obtain ⟨rcfg, rst, x, y, -, h1, h2, h3, -, -, h4, -⟩ := c84_synthesis_2d hla bank4_orth (axes := .seq [2, -3])
      (orth := "qr") (md := ⟨.float64, 0⟩) (S := [1, 5, 1]) (Ks := [2, 3]) (L := 1)
      exN_axes2 (Or.inr rfl) (Or.inl rfl) (by decide) rfl (by decide) (by decide) (fun k a b _ => bank4_indep a b)
      (c := ⟨false, [.tensor (ofFn ⟨.float64, 0⟩ [3, 5, 2] (f 0)),
        .tuple (ofFn ⟨.float64, 0⟩ [3, 5, 2] (f 1)) (ofFn ⟨.float64, 0⟩ [3, 5, 2] (f 2)) (ofFn ⟨.float64, 0⟩ [3, 5, 2] (f 3))]⟩)
      (d := ⟨false, [.tensor (ofFn ⟨.float64, 0⟩ [3, 5, 2] (g 0)),
        .tuple (ofFn ⟨.float64, 0⟩ [3, 5, 2] (g 1)) (ofFn ⟨.float64, 0⟩ [3, 5, 2] (g 2)) (ofFn ⟨.float64, 0⟩ [3, 5, 2] (g 3))]⟩)
      (by
        intro e he
        simp only [List.mem_cons, List.not_mem_nil, or_false] at he
        rcases he with rfl | rfl <;> exact ⟨rfl, rfl, ⟨_, rfl, rfl, rfl⟩, fun s hs => by
          obtain rfl : s = 0 := by omega
          exact ⟨_, rfl, _, _, _, rfl, ⟨rfl, rfl⟩, ⟨rfl, rfl⟩, ⟨rfl, rfl⟩⟩⟩)
    exact ⟨la, hla, rcfg, rst, _, x, y, fun _ => rfl, h1, h2, h3, h4⟩

end Verif.Props
