/-
C76: floating point arithmetic in the separable transforms, in the stationary transforms and in wavelet packets.
-/
import Verif.Lemmas.RoundingS
import Verif.Lemmas.FamilyPacket
import Verif.Props.RoundingN
import Verif.Props.Sep
import Verif.Props.Swt

namespace Verif.Props
open Verif.Spec Tensor
variable {R : Type}

section field
variable [Field R] [LinearOrder R] [IsStrictOrderedRing R]

/-! ### The separable transforms -/

/-- **C76.** `fswavedec2` (`n = 2`) and `fswavedec3` (`n = 3`) in floating point arithmetic with unit roundoff `u`: they
raise what the exact program raises; otherwise the coefficients are as far from the exact ones as the transforms of the
absolute values, with the absolute values of the taps and with these multiplied by `g`, are from each other. -/
theorem c76_fswavedec {K : Kernels R} {u g : R} (hK : FloatKernels u K) (w : Wavelet R) (hg : (1 + u) ^ (w.len + 1) ≤ g)
    (n : Nat) (x : Tensor R) (mode : Option String) (level : Option Int) (axes : AxisHint) :
    (∀ e, fswavedecn x w n mode level axes = .error e → fswavedecnF K x w n mode level axes = .error e) ∧
    ∀ c, fswavedecn x w n mode level axes = .ok c → ∃ c' lo hi, fswavedecnF K x w n mode level axes = .ok c' ∧
      fswavedecn (absT x) (absW 1 w) n mode level axes = .ok lo ∧
      fswavedecn (absT x) (absW g w) n mode level axes = .ok hi ∧ CloseCoeffs c' c lo hi := by
  have h := roundedDec_of (fswavedecnF_rel (trel_in x) (wavedecF_rel hK hg) n mode level axes)
  rw [← c67_fswavedec, ← c67_fswavedec, ← c67_fswavedec, pr1_in, pr1_tap, pr2_in, pr2_tap, pr3_in, pr3_tap] at h
  exact h

/-- **C76.** `fswaverec2` (`n = 2`) and `fswaverec3` (`n = 3`), from coefficients which are themselves not exact: the same of
the result, and of what the call leaves in the caller's container. -/
theorem c76_fswaverec {K : Kernels R} {u g : R} (hK : FloatKernels u K) (w : Wavelet R)
    (hg : (1 + u) ^ (w.recLo.length + 2) ≤ g) (n : Nat) (axes : AxisHint) {c' c lo hi : Coeffs R}
    (hc : CloseCoeffs c' c lo hi) :
    (∀ e, (fswaverecn c w n axes).1 = .error e → (fswaverecnF K c' w n axes).1 = .error e) ∧
    (∀ z, (fswaverecn c w n axes).1 = .ok z → ∃ z' zlo zhi, (fswaverecnF K c' w n axes).1 = .ok z' ∧
      (fswaverecn lo (absW 1 w) n axes).1 = .ok zlo ∧ (fswaverecn hi (absW g w) n axes).1 = .ok zhi ∧
      CloseBy z' z zlo zhi) ∧
    CloseCoeffs (fswaverecnF K c' w n axes).2 (fswaverecn c w n axes).2 (fswaverecn lo (absW 1 w) n axes).2
      (fswaverecn hi (absW g w) n axes).2 := by
  obtain ⟨y, hy, rfl, rfl, rfl⟩ := exists_tripleC hc
  obtain ⟨h1, h2⟩ := fswaverecnF_rel hy (waverecF_rel hK hg) n axes
  have h1 := roundedRec_of h1
  have h2 := closeCoeffs_of h2
  have e1 := c67_fswaverec pr1 y (mapW (tap3 g) w) n axes
  have e2 := c67_fswaverec pr2 y (mapW (tap3 g) w) n axes
  have e3 := c67_fswaverec pr3 y (mapW (tap3 g) w) n axes
  rw [pr1_tap] at e1
  rw [pr2_tap] at e2
  rw [pr3_tap] at e3
  rw [e1, e2, e3]
  exact ⟨h1.1, h1.2, h2⟩

/-! ### The stationary transforms -/

theorem roundedList_of {f : Except Err (List (Tensor R))} {r : Except Err (List (Tensor (R × R × R)))}
    (h : Two (List.Forall₂ (TRel Err3)) f r) :
    (∀ e, r.map (List.map (mapT (pr1 (R := R)).toZeroHom)) = .error e → f = .error e) ∧
    ∀ c, r.map (List.map (mapT (pr1 (R := R)).toZeroHom)) = .ok c → ∃ c' lo hi, f = .ok c' ∧
      r.map (List.map (mapT (pr2 (R := R)).toZeroHom)) = .ok lo ∧
      r.map (List.map (mapT (pr3 (R := R)).toZeroHom)) = .ok hi ∧ CloseList c' c lo hi := by
  cases h with
  | err e => exact ⟨fun e' h => by cases h; rfl, fun cs h => by cases h⟩
  | ok h => exact ⟨fun e' h => (by cases h), fun cs hc => by cases hc; exact ⟨_, _, _, rfl, rfl, rfl, closeList_of h⟩⟩

/-- **C76.** `swt` in floating point arithmetic. -/
theorem c76_swt {K : Kernels R} {u g : R} (hK : FloatKernels u K) (w : Wavelet R) (hg : (1 + u) ^ (w.len + 1) ≤ g)
    (x : Tensor R) (level : Option Int) (axis : AxisHint) :
    (∀ e, swt x w level axis = .error e → swtF K x w level axis = .error e) ∧
    ∀ cs, swt x w level axis = .ok cs → ∃ cs' lo hi, swtF K x w level axis = .ok cs' ∧
      swt (absT x) (absW 1 w) level axis = .ok lo ∧ swt (absT x) (absW g w) level axis = .ok hi ∧
      CloseList cs' cs lo hi := by
  have h := roundedList_of (swtF_rel hK hg level axis (trel_in x))
  rw [← c67_swt, ← c67_swt, ← c67_swt, pr1_in, pr1_tap, pr2_in, pr2_tap, pr3_in, pr3_tap] at h
  exact h

theorem iswt_pr (φ : R × R × R →ₙ+* R) (hφ : ∀ (a : R × R × R) (n : Nat), φ a / (n : R) = φ (a / (n : R × R × R)))
    (cs : List (Tensor (R × R × R))) (w : Wavelet (R × R × R)) (axis : AxisHint) :
    iswt (cs.map (mapT φ.toZeroHom)) (mapW φ w) axis = (iswt cs w axis).map (mapT φ.toZeroHom) :=
  Two.map_iff.1 ((rel_iswt (closed_hom φ) (by rintro a _ n rfl; exact hφ a n)
    (list_trel_graph.2 rfl) (wrel_graph.2 rfl) axis).mono fun _ _ => trel_graph.1)

/-- **C76.** `iswt`, from coefficients which are themselves not exact.  Its mean over the two bands is rounded too. -/
theorem c76_iswt {K : KernelsS R} {u g : R} (hK : FloatKernelsS u K) (w : Wavelet R)
    (hg : (1 + u) ^ (w.recLo.length + 4) ≤ g) (axis : AxisHint) {cs' cs lo hi : List (Tensor R)}
    (hc : CloseList cs' cs lo hi) :
    (∀ e, iswt cs w axis = .error e → iswtF K cs' w axis = .error e) ∧
    ∀ z, iswt cs w axis = .ok z → ∃ z' zlo zhi, iswtF K cs' w axis = .ok z' ∧
      iswt lo (absW 1 w) axis = .ok zlo ∧ iswt hi (absW g w) axis = .ok zhi ∧ CloseBy z' z zlo zhi := by
  obtain ⟨y, hy, rfl, rfl, rfl⟩ := exists_triples hc
  have h := roundedRec_of (iswtF_rel hK hg axis hy)
  rw [← iswt_pr pr1 (fun _ _ => rfl), ← iswt_pr pr2 (fun _ _ => rfl), ← iswt_pr pr3 (fun _ _ => rfl), pr1_tap, pr2_tap,
    pr3_tap] at h
  exact h

/-! ### Wavelet packets -/

theorem closeOuts_of {l' : List (Backend.Out (Tensor R))} {l : List (Backend.Out (Tensor (R × R × R)))}
    (h : List.Forall₂ (Out2 (TRel Err3)) l' l) :
    CloseOuts l' (l.map (mapOut (mapT (pr1 (R := R)).toZeroHom))) (l.map (mapOut (mapT (pr2 (R := R)).toZeroHom)))
      (l.map (mapOut (mapT (pr3 (R := R)).toZeroHom))) := by
  induction h with
  | nil => exact .nil
  | cons h _ ih =>
    refine .cons ?_ ih
    cases h with
    | value h => exact .value (closeBy_of h)
    | done => exact .done
    | raised e => exact .raised e

theorem exists_tripleOps {l' l los his : List (Backend.Op (Tensor R))} (h : CloseOps l' l los his) :
    ∃ y : List (Backend.Op (Tensor (R × R × R))), List.Forall₂ (Op2 (TRel Err3)) l' y ∧
      y.map (mapOp (mapT (pr1 (R := R)).toZeroHom)) = l ∧ y.map (mapOp (mapT (pr2 (R := R)).toZeroHom)) = los ∧
      y.map (mapOp (mapT (pr3 (R := R)).toZeroHom)) = his := by
  induction h with
  | nil => exact ⟨[], .nil, rfl, rfl, rfl⟩
  | cons h _ ih =>
    obtain ⟨ys, h2, rfl, rfl, rfl⟩ := ih
    cases h with
    | read k => exact ⟨.read k :: ys, .cons (.read k) h2, rfl, rfl, rfl⟩
    | init ks => exact ⟨.init ks :: ys, .cons (.init ks) h2, rfl, rfl, rfl⟩
    | set k h =>
      obtain ⟨y, h1, rfl, rfl, rfl⟩ := exists_triple h
      exact ⟨.set k y :: ys, .cons (.set k h1) h2, rfl, rfl, rfl⟩
    | transform L h =>
      obtain ⟨y, h1, rfl, rfl, rfl⟩ := exists_triple h
      exact ⟨.transform y L :: ys, .cons (.transform L h1) h2, rfl, rfl, rfl⟩
    | reconstruct => exact ⟨.reconstruct :: ys, .cons .reconstruct h2, rfl, rfl, rfl⟩

/-- **C76.** Every history of operations on a `WaveletPacket` object in floating point arithmetic: operation by operation
the same is raised as in the exact program, and the tensors returned are as far from the exact ones as those of the two
runs on absolute values from each other. -/
theorem c76_packet {K : Kernels R} {u g : R} (hK : FloatKernels u K) (w : Wavelet R) (hg : (1 + u) ^ (w.len + 1) ≤ g)
    (hg' : (1 + u) ^ (w.recLo.length + 2) ≤ g) (mode : Option String) (axis : Int)
    {ops' ops los his : List (Backend.Op (Tensor R))} (ho : CloseOps ops' ops los his) :
    CloseOuts ((packet1F K w mode axis).run (Backend.empty ()) ops').1
      ((packet1 w mode axis).run (Backend.empty ()) ops).1
      ((packet1 (absW 1 w) mode axis).run (Backend.empty ()) los).1
      ((packet1 (absW g w) mode axis).run (Backend.empty ()) his).1 := by
  obtain ⟨y, hy, rfl, rfl, rfl⟩ := exists_tripleOps ho
  have h := closeOuts_of (two_run (two_packet1F (wavedecF_rel hK hg) (waverecF_rel hK hg') mode axis) hy
    (pkt2_empty (c := ()) (c' := ()) trivial)).1
  rw [← c67_packet, ← c67_packet, ← c67_packet, pr1_tap, pr2_tap, pr3_tap] at h
  exact h

/-- **C76.** The same of `WaveletPacket2D(separable=True)`. -/
theorem c76_packet2d_separable {K : Kernels R} {KN : KernelsN R} {u g : R} (hK : FloatKernels u K) (w : Wavelet R)
    (hg : (1 + u) ^ (w.len + 1) ≤ g) (hg' : (1 + u) ^ (w.recLo.length + 2) ≤ g) (mode : Option String) (axes : List Int)
    {ops' ops los his : List (Backend.Op (Tensor R))} (ho : CloseOps ops' ops los his) :
    CloseOuts ((packet2F K KN w mode axes true).run (Backend.empty ()) ops').1
      ((packet2 w mode axes true).run (Backend.empty ()) ops).1
      ((packet2 (absW 1 w) mode axes true).run (Backend.empty ()) los).1
      ((packet2 (absW g w) mode axes true).run (Backend.empty ()) his).1 := by
  obtain ⟨y, hy, rfl, rfl, rfl⟩ := exists_tripleOps ho
  have h := closeOuts_of (two_run (two_packet2F (K := K) (KN := KN) true (fun _ => wavedecF_rel hK hg)
    (fun _ => waverecF_rel hK hg') (fun h => by cases h) (fun h => by cases h) mode axes) hy
    (pkt2_empty (c := ()) (c' := ()) trivial)).1
  rw [← c67_packet2d, ← c67_packet2d, ← c67_packet2d, pr1_tap, pr2_tap, pr3_tap] at h
  exact h

/-- **C76.** ... and of `WaveletPacket2D(separable=False)`. -/
theorem c76_packet2d {K : Kernels R} {KN : KernelsN R} {u g : R} (hK : FloatKernelsN u KN) (w : Wavelet R) (hg : 1 ≤ g)
    (hG : (1 + u) ^ (w.len * w.len + 3) ≤ g ^ 2)
    (hG' : (1 + u) ^ (4 * ((w.recLo.length + 1) / 2 * ((w.recLo.length + 1) / 2)) + 3) ≤ g ^ 2)
    (mode : Option String) (axes : List Int)
    {ops' ops los his : List (Backend.Op (Tensor R))} (ho : CloseOps ops' ops los his) :
    CloseOuts ((packet2F K KN w mode axes false).run (Backend.empty ()) ops').1
      ((packet2 w mode axes false).run (Backend.empty ()) ops).1
      ((packet2 (absW 1 w) mode axes false).run (Backend.empty ()) los).1
      ((packet2 (absW g w) mode axes false).run (Backend.empty ()) his).1 := by
  obtain ⟨y, hy, rfl, rfl, rfl⟩ := exists_tripleOps ho
  have h := closeOuts_of (two_run (two_packet2F (K := K) (KN := KN) false (fun h => by cases h) (fun h => by cases h)
    (fun _ => wavedec2F_rel hK hg hG) (fun _ => waverec2F_rel hK hG') mode axes) hy
    (pkt2_empty (c := ()) (c' := ()) trivial)).1
  rw [← c67_packet2d, ← c67_packet2d, ← c67_packet2d, pr1_tap, pr2_tap, pr3_tap] at h
  exact h

/-! ### Routines which compute in floating point arithmetic -/

/-- **C76.** The left-to-right evaluation with any rounding of relative error at most `u` is a case in point. -/
theorem c76_sequential {u : R} {rnd : R → R} (hu : 0 ≤ u) (h : ∀ y, ∃ δ, |δ| ≤ u ∧ rnd y = y * (1 + δ)) :
    FloatKernelsS u (seqKernelsS rnd) where
  base := c74_sequential hu h
  convTransposeG x w d p := floatResult_seq h _ _
  mean x := by
    show FloatMean u x ((Tensor.mean1 x).map _)
    unfold FloatMean
    cases hr : Tensor.mean1 x with
    | error e => rfl
    | ok r =>
      refine ⟨_, rfl, rfl, rfl, fun i hi => ?_⟩
      rw [ofFn_get_of _ _ hi]
      obtain ⟨δ, hδ, e⟩ := h (seqDot rnd ((List.range (x.shape.getD 1 0)).map fun k =>
        (1, x.get (i.headD 0 :: k :: i.tail))) / (x.shape.getD 1 0 : R))
      exact ⟨_, δ, hδ, seqDot_rounded h _, e⟩

/-- **C76.** ... so that float32 (`p = 24`) and float64 (`p = 53`) arithmetic, evaluated from left to right, is covered. -/
theorem c76_binary [FloorRing R] (p : Nat) : FloatKernelsS (1 / 2 ^ p : R) (seqKernelsS (flRound p)) :=
  c76_sequential (by positivity) (c74_round p)

theorem exact_convG (x w : Tensor R) (d p : Nat) :
    FloatResult 0 (convTransposeGTerms x w d p) (convTranspose1dG x w d p) (convTranspose1dG x w d p) := by
  unfold FloatResult
  cases hr : convTranspose1dG x w d p with
  | error e => rfl
  | ok r =>
    refine ⟨r, rfl, rfl, rfl, fun b c m hi => ?_⟩
    unfold Tensor.convTranspose1dG at hr
    split at hr
    · rename_i B C N C' O F hxs hws
      split_ifs at hr with hc
      cases hr
      have hi' : InB [B, C, N + d * (F - 1) - 2 * p] [b, c, m] := hi
      rw [ofFn_get_of _ _ hi']
      simp only
      rw [sum_convGIdx (fun j k => w.get [c, 0, j] * x.get [b, c, k])]
      have e2 : convTransposeGTerms x w d p b c m =
          (convGIdx F N d (m + p)).map fun q => (w.get [c, 0, q.1], x.get [b, c, q.2]) := by
        unfold convTransposeGTerms convGIdx
        rw [hws, hxs, List.map_flatMap]
        simp [List.map_map, Function.comp_def]
      have := exact_rounded (convTransposeGTerms x w d p b c m)
      rw [e2] at this ⊢
      simpa [dotSum, List.map_map, Function.comp_def] using this
    · cases hr

theorem exact_mean (x : Tensor R) : FloatMean 0 x (mean1 x) := by
  unfold FloatMean
  cases hr : mean1 x with
  | error e => rfl
  | ok r =>
    refine ⟨r, rfl, rfl, rfl, fun i hi => ⟨_, 0, by simp, exact_rounded _, ?_⟩⟩
    unfold Tensor.mean1 at hr
    split at hr
    · rename_i B n ss hs
      cases hr
      have hi' : InB (B :: ss) i := hi
      rw [ofFn_get_of _ _ hi', hs]
      simp [dotSum, List.map_map, Function.comp_def, sum_range_list]
    · cases hr

/-- **C76.** The programs with the routines as parameters, applied to the exact routines (unit roundoff zero), are the
programs of the model. -/
theorem c76_exact :
    FloatKernelsS (0 : R) (exactKernelsS R) ∧
    (∀ (x : Tensor R) (w : Wavelet R) (n : Nat) (mode : Option String) (level : Option Int) (axes : AxisHint),
      fswavedecnF (exactKernels R) x w n mode level axes = fswavedecn x w n mode level axes ∧
      swtF (exactKernels R) x w level axes = swt x w level axes) ∧
    (∀ (c : Coeffs R) (w : Wavelet R) (n : Nat) (axes : AxisHint),
      fswaverecnF (exactKernels R) c w n axes = fswaverecn c w n axes) ∧
    (∀ (cs : List (Tensor R)) (w : Wavelet R) (axis : AxisHint), iswtF (exactKernelsS R) cs w axis = iswt cs w axis) ∧
    (∀ (w : Wavelet R) (mode : Option String) (axis : Int), packet1F (exactKernels R) w mode axis = packet1 w mode axis) ∧
    ∀ (w : Wavelet R) (mode : Option String) (axes : List Int) (separable : Bool),
      packet2F (exactKernels R) (exactKernelsN R) w mode axes separable = packet2 w mode axes separable :=
  ⟨⟨c74_exact.1, exact_convG, exact_mean⟩,
    fun x w n mode level axes => ⟨fswavedecnF_exact x w n mode level axes, swtF_exact x w level axes⟩,
    fswaverecnF_exact, iswtF_exact, packet1F_exact, packet2F_exact⟩

/-! ### Explicit bounds -/

theorem swtStep_absW (g c : R) (l : List R) (d n : Nat) (x : Nat → R) (k : Nat) :
    swtStep (l.map fun a => g * |a|) d n (fun j => c * x j) k = g * c * swtStep (l.map fun a => 1 * |a|) d n x k := by
  unfold swtStep
  rw [List.length_map, List.length_map, Finset.mul_sum, ext_scale]
  refine Finset.sum_congr rfl fun j _ => ?_
  rw [absW_scale]
  ring

theorem swtA_absW (g : R) (w : Wavelet R) (n : Nat) (x : Nat → R) : ∀ s,
    swtA (absW g w) n x s = fun k => g ^ s * swtA (absW 1 w) n x s k
  | 0 => by funext k; simp [swtA]
  | s + 1 => by
    funext k
    show swtStep (w.decLo.map fun a => g * |a|) (2 ^ s) n (swtA (absW g w) n x s) k = _
    rw [swtA_absW g w n x s, swtStep_absW, pow_succ']
    rfl

theorem swtD_absW (g : R) (w : Wavelet R) (n : Nat) (x : Nat → R) (s k : Nat) :
    swtD (absW g w) n x s k = g ^ (s + 1) * swtD (absW 1 w) n x s k := by
  show swtStep (w.decHi.map fun a => g * |a|) (2 ^ s) n (swtA (absW g w) n x s) k = _
  rw [swtA_absW g w n x s, swtStep_absW, pow_succ']
  rfl

theorem swtStep_le (h : List R) (d n : Nat) {x : Nat → R} {M : R} (hx : ∀ j, |x j| ≤ M) (k : Nat) :
    |swtStep h d n x k| ≤ l1 h * M := by
  unfold swtStep
  refine (Finset.abs_sum_le_sum_abs _ _).trans ?_
  rw [l1_eq, Finset.sum_mul]
  refine Finset.sum_le_sum fun j _ => ?_
  rw [abs_mul]
  exact mul_le_mul_of_nonneg_left (abs_ext_le hx _) (abs_nonneg _)

theorem swtA_le (w : Wavelet R) (n : Nat) {x : Nat → R} {M : R} (hx : ∀ j, |x j| ≤ M) : ∀ s k,
    |swtA w n x s k| ≤ l1 w.decLo ^ s * M
  | 0, k => by simpa [swtA] using hx k
  | s + 1, k => by
    refine (swtStep_le w.decLo (2 ^ s) n (swtA_le w n hx s) k).trans (le_of_eq ?_)
    ring

theorem alongAxis_absW {a n : Nat} {f f' : (Nat → R) → Nat → R} {x t t' : Tensor R} {G : R}
    (h : AlongAxis a n f x t) (h' : AlongAxis a n f' x t') (hf : ∀ v k, f' v k = G * f v k) (i : List Nat) :
    t'.get i = G * t.get i := by
  have hsh : t'.shape = t.shape := by rw [h.shape, h'.shape]
  by_cases hi : InB t.shape i
  · rw [h.get i hi, h'.get i (hsh ▸ hi), hf]
  · rw [t.supp i hi, t'.supp i (hsh ▸ hi), mul_zero]

/-- **C76.** The error of the `swt` coefficients of data bounded by `M`. -/
theorem c76_swt_error {K : Kernels R} {u g : R} (hK : FloatKernels u K) (w : Wavelet R) (hg : (1 + u) ^ (w.len + 1) ≤ g)
    (x : Tensor R) (level : Option Int) (axis : AxisHint) (M : R) (hga : GoodAxes axis x.rank 1)
    (hdt : x.md.dtype = .float32 ∨ x.md.dtype = .float64) (hF : 2 ≤ w.len) (he : w.len % 2 = 0)
    (hhi : w.decHi.length = w.len) (hn : 0 < x.shape.getD (axis1 axis x.rank) 0)
    (hw : WrapOk (x.shape.getD (axis1 axis x.rank) 0) w.len (swtLevel level (x.shape.getD (axis1 axis x.rank) 0)))
    (hM : ∀ i, |x.get i| ≤ M) :
    ∃ cs cs', swt x w level axis = .ok cs ∧ swtF K x w level axis = .ok cs' ∧ cs'.map (·.shape) = cs.map (·.shape) ∧
      cs.length = swtLevel level (x.shape.getD (axis1 axis x.rank) 0) + 1 ∧
      (∀ t t', cs[0]? = some t → cs'[0]? = some t' →
        ∀ i, |t'.get i - t.get i| ≤ (g ^ (cs.length - 1) - 1) * (l1 w.decLo ^ (cs.length - 1) * M)) ∧
      ∀ s d d', s + 1 < cs.length → cs[cs.length - 1 - s]? = some d → cs'[cs.length - 1 - s]? = some d' →
        ∀ i, |d'.get i - d.get i| ≤ (g ^ (s + 1) - 1) * (l1 w.decHi * (l1 w.decLo ^ s * M)) := by
  obtain ⟨cs, hcs, hlen, -⟩ := c24_size x w level axis hga hdt hF he hhi hn
  obtain ⟨cs', lo, hi, e, e1, e2, hc⟩ := (c76_swt hK w hg x level axis).2 cs hcs
  have hu := hK.unit
  have hg1 : 1 ≤ g := (one_le_pow₀ (by linarith)).trans hg
  have hM0 : 0 ≤ M := (abs_nonneg _).trans (hM [])
  obtain ⟨l1', l2', l3', hget⟩ := closeList_get hc
  have hdwt : ∀ G : R, ∃ cs, swt (absT x) (absW G w) level axis = .ok cs ∧
      IsSwt (absW G w) (axis1 axis x.rank) (swtLevel level (x.shape.getD (axis1 axis x.rank) 0)) (absT x) cs := fun G =>
    c24_textbook (absT x) (absW G w) level axis hga hdt (by rw [absW_len]; exact hF) (by rw [absW_len]; exact he)
      (by rw [absW_len]; simpa [absW] using hhi) hn (by rw [absW_len]; exact hw)
  obtain ⟨_, e1', h1⟩ := hdwt 1
  obtain ⟨_, e2', h2⟩ := hdwt g
  rw [e1] at e1'; cases e1'
  rw [e2] at e2'; cases e2'
  have eLo : l1 (absW 1 w).decLo = l1 w.decLo := l1_absW _
  have eHi : l1 (absW 1 w).decHi = l1 w.decHi := l1_absW _
  have hMa : ∀ i, |(absT x).get i| ≤ M := fun i => by simpa [absT] using hM i
  refine ⟨cs, cs', hcs, e, ?_, hlen, ?_, ?_⟩
  · refine List.ext_getElem? fun i => ?_
    rw [List.getElem?_map, List.getElem?_map]
    cases hi' : cs'[i]? with
    | none =>
      have : cs[i]? = none := by rw [List.getElem?_eq_none_iff] at hi' ⊢; omega
      rw [this]
    | some t' =>
      obtain ⟨t, a, b, h1, -, -, h4⟩ := hget i t' hi'
      rw [h1]
      exact congrArg some h4.shape.1
  · intro t t' ht ht' i
    obtain ⟨t0, a, b, k1, k2, k3, k4⟩ := hget 0 t' ht'
    rw [ht] at k1; cases k1
    rw [hlen, Nat.add_sub_cancel]
    refine close_error hg1 i k4 (alongAxis_absW (h1.approx a k2) (h2.approx b k3) (fun v k => ?_) i)
      (get_le_of (mul_nonneg (pow_nonneg (l1_nonneg _) _) hM0) (fun i hi => ?_) i)
    · rw [swtA_absW]
    · rw [(h1.approx a k2).get i hi, ← eLo]
      exact swtA_le _ _ (fun j => hMa _) _ _
  · intro s d d' hs hd hd' i
    obtain ⟨t0, a, b, k1, k2, k3, k4⟩ := hget _ d' hd'
    rw [hd] at k1; cases k1
    rw [hlen, Nat.add_sub_cancel] at k2 k3
    have ha := h1.detail s a (by omega) k2
    refine close_error hg1 i k4 (alongAxis_absW ha (h2.detail s b (by omega) k3) (fun v k => ?_) i)
      (get_le_of (mul_nonneg (l1_nonneg _) (mul_nonneg (pow_nonneg (l1_nonneg _) _) hM0)) (fun i hi => ?_) i)
    · rw [swtD_absW]
    · rw [ha.get i hi, ← eLo, ← eHi]
      exact swtStep_le _ _ _ (swtA_le _ _ (fun j => hMa _) _) _

theorem iswtStep_absW {g c : R} (hg : 0 ≤ g) (f₀ f₁ : List R) (d n : Nat) {lo lo' hi hi' : Nat → R}
    (hl : ∀ k, 0 ≤ lo k ∧ lo' k ≤ c * lo k) (hh : ∀ k, 0 ≤ hi k ∧ hi' k ≤ c * hi k) (m : Nat) :
    0 ≤ iswtStep (f₀.map fun a => 1 * |a|) (f₁.map fun a => 1 * |a|) d n lo hi m ∧
    iswtStep (f₀.map fun a => g * |a|) (f₁.map fun a => g * |a|) d n lo' hi' m ≤
      g * c * iswtStep (f₀.map fun a => 1 * |a|) (f₁.map fun a => 1 * |a|) d n lo hi m := by
  have hext : ∀ {x x' : Nat → R}, (∀ k, 0 ≤ x k ∧ x' k ≤ c * x k) → ∀ i, 0 ≤ ext .periodic n x i ∧
      ext .periodic n x' i ≤ c * ext .periodic n x i := by
    intro x x' h i
    unfold ext
    split
    · exact h _
    · simp
  unfold iswtStep
  simp only [List.length_map]
  constructor
  · refine div_nonneg (Finset.sum_nonneg fun j _ => add_nonneg (mul_nonneg (absW_pos zero_le_one _ _) (hext hl _).1)
      (mul_nonneg (absW_pos zero_le_one _ _) (hext hh _).1)) (by norm_num)
  · rw [← mul_div_assoc, Finset.mul_sum]
    refine div_le_div_of_nonneg_right (Finset.sum_le_sum fun j _ => ?_) (by norm_num)
    rw [absW_scale g f₀, absW_scale g f₁]
    have h1 := mul_le_mul_of_nonneg_left (hext hl ((m : ℤ) + d * ((f₀.length / 2 : ℕ) : ℤ) - d - d * j)).2
      (mul_nonneg hg (absW_pos (l := f₀) zero_le_one j))
    have h2 := mul_le_mul_of_nonneg_left (hext hh ((m : ℤ) + d * ((f₀.length / 2 : ℕ) : ℤ) - d - d * j)).2
      (mul_nonneg hg (absW_pos (l := f₁) zero_le_one j))
    refine (add_le_add h1 h2).trans (le_of_eq ?_)
    ring

theorem iswtFrom_absW {g : R} (hg : 1 ≤ g) (f₀ f₁ : List R) (n : Nat) : ∀ (ds ds' : List (Nat → R)) {lo lo' : Nat → R} {c : R},
    0 ≤ c → (∀ k, 0 ≤ lo k ∧ lo' k ≤ c * lo k) →
    List.Forall₂ (fun d d' => ∀ k, 0 ≤ d k ∧ d' k ≤ c * d k) ds ds' →
    ∀ k, 0 ≤ iswtFrom (f₀.map fun a => 1 * |a|) (f₁.map fun a => 1 * |a|) n lo ds k ∧
      iswtFrom (f₀.map fun a => g * |a|) (f₁.map fun a => g * |a|) n lo' ds' k ≤
        g ^ ds.length * c * iswtFrom (f₀.map fun a => 1 * |a|) (f₁.map fun a => 1 * |a|) n lo ds k
  | [], _, lo, lo', c, hc, hl, h, k => by cases h; simpa [iswtFrom] using hl k
  | d :: ds, _, lo, lo', c, hc, hl, h, k => by
    cases h with
    | @cons _ d' _ ds' hd h =>
      have hg0 : 0 ≤ g := zero_le_one.trans hg
      have h1 : List.Forall₂ (fun d d' => ∀ k, 0 ≤ d k ∧ d' k ≤ g * c * d k) ds ds' :=
        h.imp fun a b h k => ⟨(h k).1, (h k).2.trans (by
          have h3 := mul_nonneg hc (h k).1
          nlinarith)⟩
      simp only [iswtFrom]
      rw [← h.length_eq]
      have := iswtFrom_absW hg f₀ f₁ n ds ds' (mul_nonneg hg0 hc)
        (iswtStep_absW hg0 f₀ f₁ (2 ^ ds.length) n hl hd) h1 k
      rw [List.length_cons, pow_succ, mul_assoc _ g c]
      exact this

theorem iswtFrom_le (f₀ f₁ : List R) (hf : f₁.length = f₀.length) (n : Nat) : ∀ (ds : List (Nat → R)) (Ds : List R)
    {lo : Nat → R} {A : R}, (∀ k, |lo k| ≤ A) → List.Forall₂ (fun d D => ∀ k, |d k| ≤ D) ds Ds →
    ∀ k, |iswtFrom f₀ f₁ n lo ds k| ≤ iswtBound (l1 f₀) (l1 f₁) A Ds
  | [], _, lo, A, hl, h, k => by cases h; exact hl k
  | d :: ds, _, lo, A, hl, h, k => by
    cases h with
    | @cons _ D _ Ds hd h =>
      simp only [iswtFrom, iswtBound]
      refine iswtFrom_le f₀ f₁ hf n ds Ds (fun m => ?_) h k
      unfold iswtStep
      rw [abs_div, abs_of_nonneg (by norm_num : (0 : R) ≤ 2)]
      refine div_le_div_of_nonneg_right ((Finset.abs_sum_le_sum_abs _ _).trans ?_) (by norm_num)
      rw [l1_eq, l1_eq, hf, Finset.sum_mul, Finset.sum_mul, ← Finset.sum_add_distrib]
      refine Finset.sum_le_sum fun j _ => (abs_add_le _ _).trans (add_le_add ?_ ?_)
      · rw [abs_mul]; exact mul_le_mul_of_nonneg_left (abs_ext_le hl _) (abs_nonneg _)
      · rw [abs_mul]; exact mul_le_mul_of_nonneg_left (abs_ext_le hd _) (abs_nonneg _)

/-- **C76.** Perfect reconstruction in floating point arithmetic: `swt` and `iswt` of data bounded by `M` give the data back
up to an error of `g^(2L) - 1` times what `L` levels of filters can make of `M`. -/
theorem c76_swt_roundtrip {K : KernelsS R} {u g : R} (hK : FloatKernelsS u K) (w : Wavelet R) (F : Nat)
    (hl : HasLen w F) (hd : NoDistortion w F) (hF : 2 ≤ F) (he : F % 2 = 0) (hg : (1 + u) ^ (F + 4) ≤ g) (x : Tensor R)
    (level : Option Int) (axis : AxisHint) (M : R) (hga : GoodAxes axis x.rank 1)
    (hdt : x.md.dtype = .float32 ∨ x.md.dtype = .float64) (hn : 0 < x.shape.getD (axis1 axis x.rank) 0)
    (hw : WrapOk (x.shape.getD (axis1 axis x.rank) 0) F (swtLevel level (x.shape.getD (axis1 axis x.rank) 0)))
    (hM : ∀ i, |x.get i| ≤ M) :
    ∃ cs' z', swtF K.toKernels x w level axis = .ok cs' ∧ iswtF K cs' w axis = .ok z' ∧ z'.md = x.md ∧
      z'.shape = x.shape ∧
      ∀ i, |z'.get i - x.get i| ≤ (g ^ (2 * swtLevel level (x.shape.getD (axis1 axis x.rank) 0)) - 1) *
        iswtBound (l1 w.recLo) (l1 w.recHi) (l1 w.decLo ^ swtLevel level (x.shape.getD (axis1 axis x.rank) 0) * M)
          ((List.range (swtLevel level (x.shape.getD (axis1 axis x.rank) 0))).reverse.map fun s =>
            l1 w.decHi * (l1 w.decLo ^ s * M)) := by
  obtain ⟨f1, f2, f3, f4⟩ := hl
  have hFw : w.len = F := f1
  have hu := hK.base.unit
  have hg1 : 1 ≤ g := (one_le_pow₀ (by linarith)).trans hg
  have hM0 : 0 ≤ M := (abs_nonneg _).trans (hM [])
  obtain ⟨cs, hcs, hz⟩ := c23_perfect_reconstruction x w F level axis ⟨f1, f2, f3, f4⟩ hd hF he hga hdt hn hw
  obtain ⟨cs', lo, hi, e, e1, e2, hc⟩ := (c76_swt hK.base w
    ((pow_le_pow_right₀ (by linarith) (by omega)).trans hg) x level axis).2 cs hcs
  obtain ⟨z', zlo, zhi, r, r1, r2, hzc⟩ := (c76_iswt (g := g) hK w (by rw [f3]; exact hg) axis hc).2 x hz
  refine ⟨cs', z', e, r, hzc.md.1, hzc.shape.1, fun i => (hzc.error i).trans ?_⟩
  have hMa : ∀ i, |(absT x).get i| ≤ M := fun i => by simpa [absT] using hM i
  have hlenG : ∀ G : R, (absW G w).len = F := fun G => by rw [absW_len, hFw]
  have hhiG : ∀ G : R, (absW G w).decHi.length = (absW G w).len := fun G => by
    rw [hlenG]; simpa [absW] using f2
  have hdwt : ∀ G : R, ∃ cs, swt (absT x) (absW G w) level axis = .ok cs ∧
      IsSwt (absW G w) (axis1 axis x.rank) (swtLevel level (x.shape.getD (axis1 axis x.rank) 0)) (absT x) cs := fun G =>
    c24_textbook (absT x) (absW G w) level axis hga hdt (by rw [hlenG]; exact hF) (by rw [hlenG]; exact he)
      (hhiG G) hn (by rw [hlenG]; exact hw)
  have hsz : ∀ G : R, ∃ cs, swt (absT x) (absW G w) level axis = .ok cs ∧
      ∀ c ∈ cs, c.md = x.md ∧ c.shape = x.shape := fun G => by
    obtain ⟨cs, h1, -, h2⟩ := c24_size (absT x) (absW G w) level axis hga hdt (by rw [hlenG]; exact hF)
      (by rw [hlenG]; exact he) (hhiG G) hn
    exact ⟨cs, h1, h2⟩
  obtain ⟨_, e1', h1⟩ := hdwt 1
  obtain ⟨_, e2', h2⟩ := hdwt g
  obtain ⟨_, e1'', m1⟩ := hsz 1
  obtain ⟨_, e2'', m2⟩ := hsz g
  rw [e1] at e1' e1''; cases e1'; cases e1''
  rw [e2] at e2' e2''; cases e2'; cases e2''
  generalize swtLevel level (x.shape.getD (axis1 axis x.rank) 0) = L at h1 h2 hw ⊢
  have eLo : l1 (absW 1 w).decLo = l1 w.decLo := l1_absW _
  have eHi : l1 (absW 1 w).decHi = l1 w.decHi := l1_absW _
  have ha : axis1 axis x.rank < x.shape.length := axis1_lt hga
  -- the bounds of the coefficients
  have hA : ∀ t t', lo[0]? = some t → hi[0]? = some t' → ∀ i, 0 ≤ t.get i ∧ t'.get i ≤ g ^ L * t.get i ∧
      |t.get i| ≤ l1 w.decLo ^ L * M := by
    intro t t' ht ht' i
    obtain ⟨l1', l2', l3', hget⟩ := closeList_get hc
    obtain ⟨t0, a, b, -, k2, -, k4⟩ := hget 0 _ (List.getElem?_eq_getElem (by
      rw [l1', ← l2']; exact (List.getElem?_eq_some_iff.mp ht).1))
    rw [ht] at k2; cases k2
    refine ⟨(abs_nonneg _).trans (k4.bound i), ?_, ?_⟩
    · rw [alongAxis_absW (h1.approx t ht) (h2.approx t' ht') (G := g ^ L) (fun v k => by rw [swtA_absW]) i]
    · refine get_le_of (mul_nonneg (pow_nonneg (l1_nonneg _) _) hM0) (fun i hi => ?_) i
      rw [(h1.approx t ht).get i hi, ← eLo]
      exact swtA_le _ _ (fun j => hMa _) _ _
  have hD : ∀ s t t', s < L → lo[L - s]? = some t → hi[L - s]? = some t' → ∀ i, 0 ≤ t.get i ∧
      t'.get i ≤ g ^ L * t.get i ∧ |t.get i| ≤ l1 w.decHi * (l1 w.decLo ^ s * M) := by
    intro s t t' hs ht ht' i
    obtain ⟨l1', l2', l3', hget⟩ := closeList_get hc
    obtain ⟨t0, a, b, -, k2, -, k4⟩ := hget (L - s) _ (List.getElem?_eq_getElem (by
      rw [l1', ← l2']; exact (List.getElem?_eq_some_iff.mp ht).1))
    rw [ht] at k2; cases k2
    have hp := (abs_nonneg _).trans (k4.bound i)
    refine ⟨hp, ?_, ?_⟩
    · rw [alongAxis_absW (h1.detail s t hs ht) (h2.detail s t' hs ht') (G := g ^ (s + 1)) (fun v k => by rw [swtD_absW]) i]
      exact mul_le_mul_of_nonneg_right (pow_le_pow_right₀ hg1 (by omega)) hp
    · refine get_le_of (mul_nonneg (l1_nonneg _) (mul_nonneg (pow_nonneg (l1_nonneg _) _) hM0)) (fun i hi => ?_) i
      rw [(h1.detail s t hs ht).get i hi, ← eLo, ← eHi]
      exact swtStep_le _ _ _ (swtA_le _ _ (fun j => hMa _) _) _
  have n1 := h1.length
  have n2 := h2.length
  clear h1 h2 hc e1 e2
  match lo, hi, n1, n2, m1, m2, hA, hD, r1, r2 with
  | [], _, n1, _, _, _, _, _, _, _ => exact absurd n1 (by simp)
  | _ :: _, [], _, n2, _, _, _, _, _, _ => exact absurd n2 (by simp)
  | c0 :: rest, c0' :: rest', n1, n2, m1, m2, hA, hD, r1, r2 =>
  have n1 : rest.length = L := by simpa using n1
  have n2 : rest'.length = L := by simpa using n2
  obtain ⟨y1, q1, -, -, g1⟩ := c23_inverse_textbook (absW 1 w) F axis x.md x.shape c0 rest hF he (by simpa [absW] using f3)
    (by simpa [absW] using f4) hga hdt hn (by rw [n1]; exact hw) (fun c h => (m1 c h).1) (fun c h => (m1 c h).2)
  obtain ⟨y2, q2, -, -, g2⟩ := c23_inverse_textbook (absW g w) F axis x.md x.shape c0' rest' hF he (by simpa [absW] using f3)
    (by simpa [absW] using f4) hga hdt hn (by rw [n2]; exact hw) (fun c h => (m2 c h).1) (fun c h => (m2 c h).2)
  rw [r1] at q1; cases q1
  rw [r2] at q2; cases q2
  have h0 := hA c0 c0' rfl rfl
  have hget : ∀ i (h : i < rest.length) (h' : i < rest'.length), ∀ j, 0 ≤ (rest[i]).get j ∧
      (rest'[i]).get j ≤ g ^ L * (rest[i]).get j ∧ |(rest[i]).get j| ≤ l1 w.decHi * (l1 w.decLo ^ (L - 1 - i) * M) := by
    intro i h h' j
    refine hD (L - 1 - i) _ _ (by omega) ?_ ?_ j
    · rw [show L - (L - 1 - i) = i + 1 by omega, List.getElem?_cons_succ]; exact List.getElem?_eq_getElem h
    · rw [show L - (L - 1 - i) = i + 1 by omega, List.getElem?_cons_succ]; exact List.getElem?_eq_getElem h'
  have hs1 : 1 ≤ g ^ (2 * L) := one_le_pow₀ hg1
  by_cases hin : InB x.shape i
  · rw [g1 i hin, g2 i hin]
    have hsc := iswtFrom_absW hg1 w.recLo w.recHi (x.shape.getD (axis1 axis x.shape.length) 0)
      (rest.map fun c => line c (axis1 axis x.shape.length) i) (rest'.map fun c => line c (axis1 axis x.shape.length) i)
      (lo := line c0 (axis1 axis x.shape.length) i) (lo' := line c0' (axis1 axis x.shape.length) i) (c := g ^ L)
      (by positivity) (fun k => ⟨(h0 _).1, (h0 _).2.1⟩) (by
        rw [List.forall₂_map_left_iff, List.forall₂_map_right_iff]
        exact List.forall₂_iff_get.2 ⟨by omega, fun i h h' k => ⟨(hget i h h' _).1, (hget i h h' _).2.1⟩⟩)
      (i.getD (axis1 axis x.shape.length) 0)
    have hb := iswtFrom_le (absW 1 w).recLo (absW 1 w).recHi (by simp [absW, f3, f4])
      (x.shape.getD (axis1 axis x.shape.length) 0)
      (rest.map fun c => line c (axis1 axis x.shape.length) i)
      ((List.range L).reverse.map fun s => l1 w.decHi * (l1 w.decLo ^ s * M))
      (lo := line c0 (axis1 axis x.shape.length) i) (A := l1 w.decLo ^ L * M) (fun k => (h0 _).2.2) (by
        rw [List.forall₂_map_left_iff]
        refine List.forall₂_iff_get.2 ⟨by simp [n1], fun i h h' k => ?_⟩
        refine (hget i h (by omega) _).2.2.trans (le_of_eq ?_)
        simp)
      (i.getD (axis1 axis x.shape.length) 0)
    rw [show l1 (absW 1 w).recLo = l1 w.recLo from l1_absW _, show l1 (absW 1 w).recHi = l1 w.recHi from l1_absW _] at hb
    rw [List.length_map, n1, ← pow_add, ← two_mul] at hsc
    have h2 := (le_abs_self _).trans hb
    have e1 : (absW 1 w).recLo = w.recLo.map fun a => 1 * |a| := rfl
    have e2 : (absW 1 w).recHi = w.recHi.map fun a => 1 * |a| := rfl
    have e3 : (absW g w).recLo = w.recLo.map fun a => g * |a| := rfl
    have e4 : (absW g w).recHi = w.recHi.map fun a => g * |a| := rfl
    rw [e1, e2] at h2 ⊢
    rw [e3, e4]
    nlinarith [hsc.1, hsc.2]
  · rw [zlo.supp i (by rw [hzc.shape.2.1]; exact hin), zhi.supp i (by rw [hzc.shape.2.2]; exact hin), sub_zero]
    have hb := iswtFrom_le (absW 1 w).recLo (absW 1 w).recHi (by simp [absW, f3, f4]) 0
      (((List.range L).reverse.map fun s => l1 w.decHi * (l1 w.decLo ^ s * M)).map fun D _ => D)
      ((List.range L).reverse.map fun s => l1 w.decHi * (l1 w.decLo ^ s * M))
      (lo := fun _ => l1 w.decLo ^ L * M) (A := l1 w.decLo ^ L * M)
      (fun k => le_of_eq (abs_of_nonneg (mul_nonneg (pow_nonneg (l1_nonneg _) _) hM0))) (by
        rw [List.forall₂_map_left_iff]
        refine List.forall₂_same.2 fun D hD k => le_of_eq (abs_of_nonneg ?_)
        obtain ⟨s, -, rfl⟩ := List.mem_map.1 hD
        exact mul_nonneg (l1_nonneg _) (mul_nonneg (pow_nonneg (l1_nonneg _) _) hM0)) 0
    rw [show l1 (absW 1 w).recLo = l1 w.recLo from l1_absW _, show l1 (absW 1 w).recHi = l1 w.recHi from l1_absW _] at hb
    exact mul_nonneg (by linarith) ((abs_nonneg _).trans hb)

/-- **C76.** The error of the `fswavedec2` (`n = 2`) and `fswavedec3` (`n = 3`) coefficients of data bounded by `M`. -/
theorem c76_fswavedec_error {K : Kernels R} {u g : R} (hK : FloatKernels u K) (w : Wavelet R)
    (hg : (1 + u) ^ (w.len + 1) ≤ g) (n : Nat) (hn : 1 ≤ n) (x : Tensor R) (mode : Option String) (level : Option Int)
    (axes : AxisHint) (M : R) (c : Coeffs R) (hF : 2 ≤ w.len) (hhi : w.decHi.length = w.len)
    (hM : ∀ i, |x.get i| ≤ M) (hc : fswavedecn x w n mode level axes = .ok c) :
    ∃ c', fswavedecnF K x w n mode level axes = .ok c' ∧ c'.items.length = c.items.length ∧
      (∃ t t', c.items[0]? = some (.tensor t) ∧ c'.items[0]? = some (.tensor t') ∧ t'.shape = t.shape ∧
        ∀ i, |t'.get i - t.get i| ≤ ((g ^ n) ^ (c.items.length - 1) - 1) * ((l1 w.decLo ^ n) ^ (c.items.length - 1) * M)) ∧
      ∀ s, s + 1 < c.items.length → ∃ kv kv', c.items[c.items.length - 1 - s]? = some (.dict kv) ∧
        c'.items[c.items.length - 1 - s]? = some (.dict kv') ∧
        List.Forall₂ (fun q' q => q'.1 = q.1 ∧ q'.2.shape = q.2.shape ∧ ∀ i, |q'.2.get i - q.2.get i| ≤
          ((g ^ n) ^ (s + 1) - 1) * ((bandNorms w (bandOfKey q.1)).prod * ((l1 w.decLo ^ n) ^ s * M))) kv' kv := by
  obtain ⟨c', lo, hi, e, e1, e2, hcl⟩ := (c76_fswavedec hK w hg n x mode level axes).2 c hc
  have hu := hK.unit
  have hg1 : 1 ≤ g := (one_le_pow₀ (by linarith)).trans hg
  have hF' : ∀ g : R, 2 ≤ (absW g w).len := fun g => by rw [absW_len]; exact hF
  have hhi' : ∀ g : R, (absW g w).decHi.length = (absW g w).len := fun g => by rw [absW_len]; simpa [absW] using hhi
  have hMa : ∀ i, |(absT x).get i| ≤ M := fun i => by simpa [absT] using hM i
  obtain ⟨n1, n2, n3, hget⟩ := closeEntries_get hcl.items
  have hbn : ∀ bs, bandNorms (absW 1 w) bs = bandNorms w bs := fun bs => by
    unfold bandNorms
    rw [show l1 (absW 1 w).decLo = l1 w.decLo from l1_absW _, show l1 (absW 1 w).decHi = l1 w.decHi from l1_absW _]
  obtain ⟨hga, -, -, m, hm, -, h⟩ := fswavedecn_ok hn (hF' 1) (hhi' 1) e1
  obtain ⟨-, -, -, m', hm', -, h'⟩ := fswavedecn_ok hn (hF' g) (hhi' g) e2
  have hax : (axesOf axes (absT x).rank n).length = n := by simpa [axesOf] using hga.len
  rw [absW_len] at hm hm' h h'
  have hLn := h.length
  generalize levelsN level w.len (sizes (axesOf axes (absT x).rank n) (absT x).shape) = L at h h' hLn hm hm'
  have hmm : L ≠ 0 → m' = m := fun h0 => selects_unique (hm'.resolve_right h0) (hm.resolve_right h0)
  have hgg : (1 : R) ≤ g ^ n := one_le_pow₀ hg1
  have cL : c.items.length = L + 1 := by rw [← n2, hLn]
  refine ⟨c', e, n1, ?_, fun s hs => ?_⟩
  · obtain ⟨t, ht, ha⟩ := h.approx
    obtain ⟨t', ht', ha'⟩ := h'.approx
    obtain ⟨e0, he0⟩ : ∃ e0, c.items[0]? = some e0 := ⟨_, List.getElem?_eq_getElem (by omega)⟩
    obtain ⟨e', el, eh, k1, k2, k3, k4⟩ := hget 0 e0 he0
    rw [ht] at k2
    rw [ht'] at k3
    cases k2
    cases k3
    cases k4 with
    | @tensor t0' t0 _ _ k4 =>
      refine ⟨t0, t0', he0, k1, k4.shape.1, fun i => close_error hgg i k4 ?_ ?_⟩
      · rw [cL, Nat.add_sub_cancel]
        rcases Nat.eq_zero_or_pos L with h0 | h0
        · subst h0
          have hsh : t'.shape = t.shape := by rw [ha.shape, ha'.shape, absW_len, absW_len]
          by_cases hi : InB t.shape i
          · rw [ha.get i hi, ha'.get i (hsh ▸ hi)]; simp [cAN]
          · rw [t.supp i hi, t'.supp i (hsh ▸ hi), mul_zero]
        · obtain rfl := hmm (by omega)
          simpa [hax] using isApprox_scale ha ha' i
      · have := isApprox_le hMa ha i
        rwa [hax, show l1 (absW 1 w).decLo = l1 w.decLo from l1_absW _, show L = c.items.length - 1 by omega] at this
  · have hsL : s < L := by omega
    obtain ⟨e1, he1, p1, rfl, q1, r1⟩ := h.detail s hsL
    obtain ⟨e1', he1', p1', rfl, q1', r1'⟩ := h'.detail s hsL
    obtain rfl := hmm (by omega)
    rw [cL, show L + 1 - 1 - s = L - s by omega]
    obtain ⟨e0, he0⟩ : ∃ e0, c.items[L - s]? = some e0 := ⟨_, List.getElem?_eq_getElem (by omega)⟩
    obtain ⟨e', el, eh, k1, k2, k3, k4⟩ := hget _ e0 he0
    rw [he1] at k2
    rw [he1'] at k3
    cases k2
    cases k3
    cases k4 with
    | @dict kv' kv _ _ j1 j2 j3 k4 =>
      have hkey : ∀ a ∈ p1, (bandOfKey a.1).length = (axesOf axes (absT x).rank n).length := by
        intro a ha
        obtain ⟨bs, hb, -, hk⟩ := (allDetails_sep n a.1).1 (q1 ▸ List.mem_map_of_mem ha)
        rw [hk, bandOfKey_keyOf, hb, hax]
      refine ⟨kv, kv', he0, k1, ?_⟩
      refine dict_errors (B := fun k => (bandNorms w (bandOfKey k)).prod * ((l1 w.decLo ^ n) ^ s * M)) hgg j1 j2 j3 k4
        (fun a ha b hb hab i => ?_) fun a ha i => ?_
      · have h2 := r1' b hb
        rw [hab] at h2
        simpa [hax] using isBand_scale (hkey a ha) (r1 a ha) h2 i
      · have := isBand_le hMa (hkey a ha) (r1 a ha) i
        rwa [hax, hbn, show l1 (absW 1 w).decLo = l1 w.decLo from l1_absW _] at this

/-- **C76.** Decompose and reconstruct with the separable transforms in floating point arithmetic: the distance from the
data is at most that of two exact programs, run on absolute values. -/
theorem c76_fs_roundtrip {K : Kernels R} {u g : R} (hK : FloatKernels u K) (w : Wavelet R) (F : Nat) (hw : PRBank w F)
    (hF : 2 ≤ F) (he : F % 2 = 0) (hg : (1 + u) ^ (F + 2) ≤ g) (n : Nat) (hn : 1 ≤ n) (x : Tensor R) (mode : Option String)
    (level : Option Int) (axes : AxisHint) (c : Coeffs R) (hc : fswavedecn x w n mode level axes = .ok c) :
    ∃ c' z' lo hi zlo zhi, fswavedecnF K x w n mode level axes = .ok c' ∧ (fswaverecnF K c' w n axes).1 = .ok z' ∧
      fswavedecn (absT x) (absW 1 w) n mode level axes = .ok lo ∧ (fswaverecn lo (absW 1 w) n axes).1 = .ok zlo ∧
      fswavedecn (absT x) (absW g w) n mode level axes = .ok hi ∧ (fswaverecn hi (absW g w) n axes).1 = .ok zhi ∧
      z'.md = x.md ∧ ∀ i, InB x.shape i → |z'.get i - x.get i| ≤ zhi.get i - zlo.get i := by
  obtain ⟨l1, l2, l3, l4⟩ := hw.len
  have hl : w.len = F := l1
  have hu := hK.unit
  obtain ⟨c', lo, hi, a1, a2, a3, a4⟩ := (c76_fswavedec hK w
    ((pow_le_pow_right₀ (by linarith) (by omega)).trans hg) n x mode level axes).2 c hc
  obtain ⟨z, ez, hz⟩ := fsrec_of_fsdec hn hw hF he hc
  obtain ⟨z', zlo, zhi, b1, b2, b3, b4⟩ := (c76_fswaverec (g := g) hK w (by rw [l3]; exact hg) n axes a4).2.1 z ez
  refine ⟨c', z', lo, hi, zlo, zhi, a1, b1, a2, b2, a3, b3, by rw [b4.md.1, hz.md], fun i hi => ?_⟩
  rw [← hz.get i hi]
  exact b4.error i

end field

/-! ### Non-vacuity -/

theorem ex_fswavedec2 : ∃ c', fswavedecn exI haar 2 (some "symmetric") (some 2) (.seq [2, -3]) = .ok c' := by
  obtain ⟨c, hc⟩ := ex_wavedec2
  exact ⟨_, (c19_fswavedec2 exI haar _ _ _ (by decide) rfl (fun h => by cases h) _).mpr ⟨c, hc, rfl⟩⟩

/-- Two separable Haar levels of a batch of odd-sized images in float32: the approximation of samples up to 412 is correct
to within `1/2000`. -/
example : ∃ c c' t t', fswavedecn exI haar 2 (some "symmetric") (some 2) (.seq [2, -3]) = .ok c ∧
    fswavedecnF (seqKernels (flRound 24)) exI haar 2 (some "symmetric") (some 2) (.seq [2, -3]) = .ok c' ∧
    c.items[0]? = some (.tensor t) ∧ c'.items[0]? = some (.tensor t') ∧ ∀ i, |t'.get i - t.get i| ≤ 1 / 2000 := by
  obtain ⟨c, hc⟩ := ex_fswavedec2
  obtain ⟨c', h1, -, ⟨t, t', h2, h3, -, h4⟩, -⟩ := c76_fswavedec_error (c74_binary 24) haar le_rfl 2 (by decide) exI _ _ _
    412 c (by decide) rfl exI_le hc
  refine ⟨c, c', t, t', hc, h1, h2, h3, fun i => (h4 i).trans ?_⟩
  obtain ⟨-, -, -, m, -, -, hd⟩ := fswavedecn_ok (n := 2) (by omega) (by decide) rfl hc
  have hl : c.items.length = 3 := hd.length
  have hlen : haar.len = 2 := rfl
  rw [hl, haar_norms.1, hlen]
  norm_num

/-- Round trips in float64, with the separable transform along three axes ... -/
example : ∃ c' z', fswavedecnF (seqKernels (flRound 53)) exV haar 3 (some "constant") (some 2) (.seq [1, -1, 0]) = .ok c' ∧
    (fswaverecnF (seqKernels (flRound 53)) c' haar 3 (.seq [1, -1, 0])).1 = .ok z' := by
  obtain ⟨c, hc⟩ := ex_fswavedec3
  obtain ⟨c', z', -, -, -, -, h1, h2, -⟩ := c76_fs_roundtrip (c74_binary 53) haar 2 haar_pr le_rfl rfl le_rfl 3 (by decide)
    exV _ _ _ c hc
  exact ⟨c', z', h1, h2⟩

/-- ... and with two stationary Haar levels: samples up to 6 come back to within `10^-13`. -/
example : ∃ cs' z', swtF (seqKernelsS (flRound 53)).toKernels (ofFn ⟨.float64, 0⟩ [6, 2] fun i => (i.getD 0 0 : ℚ)) haar
      (some 2) (.int (-2)) = .ok cs' ∧
    iswtF (seqKernelsS (flRound 53)) cs' haar (.int (-2)) = .ok z' ∧
    ∀ i, |z'.get i - (ofFn ⟨.float64, 0⟩ [6, 2] fun i => (i.getD 0 0 : ℚ)).get i| ≤ 1 / 10 ^ 13 := by
  obtain ⟨cs', z', h1, h2, -, -, h3⟩ := c76_swt_roundtrip (c76_binary 53) haar 2 haar_pr.len haar_pr.noDistortion le_rfl rfl
    le_rfl (ofFn ⟨.float64, 0⟩ [6, 2] fun i => (i.getD 0 0 : ℚ)) (some 2) (.int (-2)) 6 exS_axes (Or.inr rfl) (by decide)
    (c23_divides 6 2 2 (by decide)) (fun i => get_le_of (by norm_num) (fun i hi => by
      rw [ofFn_get_of _ _ (show InB [6, 2] i from hi)]
      have h1 := InB.getD_lt (s := [6, 2]) hi (d := 0) (by decide)
      have h1 : i.getD 0 0 ≤ 5 := Nat.le_of_lt_succ h1
      rw [abs_of_nonneg (by positivity)]
      have h1 : (i.getD 0 0 : ℚ) ≤ 5 := by exact_mod_cast h1
      linarith) i)
  refine ⟨cs', z', h1, h2, fun i => (h3 i).trans ?_⟩
  obtain ⟨n1, n2, n3, n4⟩ := haar_norms
  rw [show swtLevel (some 2) _ = 2 from rfl, n1, n2, n3, n4]
  norm_num [iswtBound, List.range_succ]

/-- The hypotheses of the bound for `swt` are met with the default level. -/
example : ∃ cs cs', swt (ramp 8) haar none .none = .ok cs ∧ swtF (seqKernels (flRound 24)) (ramp 8) haar none .none = .ok cs' ∧
    cs.length = 4 := by
  obtain ⟨cs, cs', h1, h2, -, h3, -⟩ := c76_swt_error (c74_binary 24) haar le_rfl (ramp 8) none .none 8
    (goodAxes_none (by decide) (by decide)) (Or.inr rfl) (by decide) (by decide) rfl (by decide) (wrapOk_auto (by decide))
    (fun i => get_le_of (by norm_num) (fun i hi => by
      show |(ofFn _ _ _ : Tensor ℚ).get i| ≤ 8
      rw [ofFn_get_of _ _ (show InB [8] i from hi)]
      have h1 := InB.getD_lt (s := [8]) hi (d := 0) (by decide)
      have h1 : i.getD 0 0 ≤ 7 := Nat.le_of_lt_succ h1
      rw [abs_of_nonneg (by positivity)]
      have h1 : (i.getD 0 0 : ℚ) ≤ 7 := by exact_mod_cast h1
      linarith) i)
  refine ⟨cs, cs', h1, h2, h3.trans ?_⟩
  decide +kernel

/-- A packet history: transform, read a node of depth two, overwrite a node, reconstruct. -/
example (t : Tensor ℚ) : CloseOps [.transform exX (some 2), .read ['a', 'd'], .set ['a', 'd'] t, .reconstruct]
    [.transform exX (some 2), .read ['a', 'd'], .set ['a', 'd'] t, .reconstruct]
    [.transform (absT exX) (some 2), .read ['a', 'd'], .set ['a', 'd'] (absT t), .reconstruct]
    [.transform (absT exX) (some 2), .read ['a', 'd'], .set ['a', 'd'] (absT t), .reconstruct] :=
  have h : ∀ t : Tensor ℚ, CloseBy t t (absT t) (absT t) := fun t =>
    ⟨⟨rfl, rfl, rfl⟩, ⟨rfl, rfl, rfl⟩, fun i => le_rfl, fun i => by simp⟩
  .cons (.transform _ (h _)) (.cons (.read _) (.cons (.set _ (h _)) (.cons .reconstruct .nil)))

end Verif.Props
