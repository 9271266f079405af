/-
Properties C06–C12: padding, axes, dimension preprocessing, dtype and device checks, coefficient
containers (src/ptwt/_util.py, conv_transform.py).
-/
import Verif.Lemmas.Char1
import Mathlib.Algebra.Field.Rat
import Mathlib.Tactic.NormNum

namespace Verif.Props
open Tensor Spec
variable {R : Type}

/-! ### C06, C07: symmetric padding -/

/-- **C06.** Symmetric padding of a non-empty signal by any two lengths terminates (already with a
recursion depth of `l + r + 1`) and returns the period-`2n` half-sample symmetric extension. -/
theorem c06_pad_symmetric [Zero R] (t : Tensor R) (l r depth : Nat) (hrk : 0 < t.rank)
    (hn : 0 < t.shape.getD 0 0) (hd : l + r < depth) :
    ∃ u, padSymmetric1dFuel depth t l r = .ok u ∧ Extended .symmetric t 0 l r u :=
  padSymmetric1dFuel_ok depth hrk hn hd

/-- Pads far longer than the signal: 2 samples extended by 7 and 9. -/
example : ∃ u, padSymmetric1dFuel 17 (ofFn ⟨.float32, 0⟩ [2] fun i => (i.getD 0 0 : ℚ)) 7 9 = .ok u ∧
    u.shape = [18] ∧ u.get [0] = 1 ∧ u.get [17] = 1 := by
  obtain ⟨u, e, hu⟩ := c06_pad_symmetric (ofFn ⟨.float32, 0⟩ [2] fun i => (i.getD 0 0 : ℚ)) 7 9 17
    (by decide) (by decide) (by decide)
  have hs : u.shape = [18] := by rw [hu.shape]; rfl
  refine ⟨u, e, hs, ?_, ?_⟩
  · rw [hu.get [0] (by rw [hs]; decide)]
    simp [ext, extIdx, line, ofFn_get]
  · rw [hu.get [17] (by rw [hs]; decide)]
    simp [ext, extIdx, line, ofFn_get]

/-- **C07.** An empty signal padded symmetrically by a positive amount exhausts every recursion
depth: no result exists. -/
theorem c07_empty_never_terminates [Zero R] (t : Tensor R) (l r : Nat) (hrk : 0 < t.rank)
    (hn : t.shape.getD 0 0 = 0) (hp : 0 < l ∨ 0 < r) :
    ∀ depth, padSymmetric1dFuel depth t l r = .error .recursionError :=
  fun depth => padSymmetric1dFuel_empty depth t l r hrk hn hp

example : ∃ t : Tensor ℚ, 0 < t.rank ∧ t.shape.getD 0 0 = 0 :=
  ⟨ofFn ⟨.float32, 0⟩ [0, 3] fun _ => 1, by decide, rfl⟩

/-! ### C08: the mode strings -/

/-- Pads `(l, r)` which a mode can serve on an axis of length `n`. -/
def Fits : Mode → (n l r : Nat) → Prop
  | .zero, _, _, _ => True
  | .constant, n, _, _ => 1 ≤ n
  | .symmetric, n, l, r => 1 ≤ n ∨ (l = 0 ∧ r = 0)
  | .reflect, n, l, r => l < n ∧ r < n
  | .periodic, n, l, r => l ≤ n ∧ r ≤ n

/-- **C08.** With a documented mode string (`None` means `reflect`) the last axis is extended by the
documented extension whenever the pads fit … -/
theorem c08_mode_extension [NonUnitalNonAssocSemiring R] (t : Tensor R) (mode : Option String) (m : Mode)
    (l r : Nat) (hm : Selects mode m) (hr : 1 ≤ t.rank)
    (hf : Fits m (t.shape.getD (t.rank - 1) 0) l r) :
    ∃ u, fwtPadWith t mode [l, r] = .ok u ∧ Extended m t (t.rank - 1) l r u := by
  have hmode : fwtPadWith t mode [l, r] = fwtPadWith t (some m.name) [l, r] := by
    rcases hm with rfl | ⟨rfl, rfl⟩ <;> rfl
  rw [hmode]
  have torch : ∀ pm, extMode m = .torch pm → torchMode pm = m →
      padFits pm (t.shape.getD (t.rank - 1) 0) l r →
      ∃ u, fwtPadWith t (some m.name) [l, r] = .ok u ∧ Extended m t (t.rank - 1) l r u := by
    intro pm h1 h2 h3
    obtain ⟨u, e, hu⟩ := padAxis_ok (m := pm) (t := t) (a := t.rank - 1) (l := l) (r := r) (by omega) h3
    rw [h2] at hu
    refine ⟨u, ?_, hu⟩
    unfold fwtPadWith
    simp only [bind, Except.bind, translate_name, h1, Tensor.pad, padLast, e]
  cases m with
  | zero => exact torch .constant rfl rfl trivial
  | constant => exact torch .replicate rfl rfl hf
  | reflect => exact torch .reflect rfl rfl hf
  | periodic => exact torch .circular rfl rfl hf
  | symmetric =>
    have hred : ∀ u, padSymmetric1d (t.transpose 0 (t.rank - 1)) l r = .ok u →
        fwtPadWith t (some Mode.symmetric.name) [l, r] = .ok (u.transpose (t.rank - 1) 0) := by
      intro u e
      unfold fwtPadWith
      simp only [bind, Except.bind, translate_name, extMode, groupForSymmetric, grouper2,
        List.reverse_singleton]
      unfold padSymmetric
      rw [if_neg (by simp; omega)]
      simp only [List.reverse_singleton, padSymmetricLoop, bind, Except.bind, e]
    rcases hf with hf | ⟨rfl, rfl⟩
    · obtain ⟨u, e, hu⟩ := padSymAxis_ok (t := t) (a := t.rank - 1) (l := l) (r := r) (by omega) hf
      exact ⟨_, hred u e, hu⟩
    · obtain ⟨u, e, hu⟩ := symBase_ok (t := t.transpose 0 (t.rank - 1)) (l := 0) (r := 0)
        (by show 0 < (swl 0 (t.rank - 1) t.shape).length; rw [swl_length]; exact hr) (by omega) (by omega)
      have eu : padSymmetric1d (t.transpose 0 (t.rank - 1)) 0 0 = .ok u := by
        unfold padSymmetric1d padSymmetric1dFuel
        simp only [Nat.not_lt_zero, or_self, gt_iff_lt, if_false]
        exact e
      exact ⟨_, hred u eu, hu.transpose (by omega)⟩

/-- … otherwise padding raises (RuntimeError, or endless recursion for `symmetric`) … -/
theorem c08_mode_not_fitting [NonUnitalNonAssocSemiring R] (t : Tensor R) (mode : Option String) (m : Mode)
    (l r : Nat) (hm : Selects mode m) (hr : 1 ≤ t.rank)
    (hf : ¬ Fits m (t.shape.getD (t.rank - 1) 0) l r) :
    fwtPadWith t mode [l, r] =
      .error (if m = .symmetric then .recursionError else .runtimeError) := by
  have hmode : fwtPadWith t mode [l, r] = fwtPadWith t (some m.name) [l, r] := by
    rcases hm with rfl | ⟨rfl, rfl⟩ <;> rfl
  rw [hmode]
  have torch : ∀ pm, extMode m = .torch pm → ¬ padFits pm (t.shape.getD (t.rank - 1) 0) l r →
      fwtPadWith t (some m.name) [l, r] = .error .runtimeError := by
    intro pm h1 h3
    unfold fwtPadWith
    simp only [bind, Except.bind, translate_name, h1, Tensor.pad, padLast, padAxis_error h3]
  cases m with
  | zero => exact absurd trivial hf
  | constant => rw [torch .replicate rfl hf]; rfl
  | reflect => rw [torch .reflect rfl hf]; rfl
  | periodic => rw [torch .circular rfl hf]; rfl
  | symmetric =>
    simp only [Fits] at hf
    have hts : (t.transpose 0 (t.rank - 1)).shape = swl 0 (t.rank - 1) t.shape := rfl
    have : padSymmetric1d (t.transpose 0 (t.rank - 1)) l r = .error .recursionError := by
      apply padSymmetric1dFuel_empty
      · show 0 < (swl 0 (t.rank - 1) t.shape).length
        rw [swl_length]; exact hr
      · rw [hts, swl_getD0 (by unfold Tensor.rank at hr ⊢; omega)]; omega
      · omega
    unfold fwtPadWith
    simp only [bind, Except.bind, translate_name, extMode, groupForSymmetric, grouper2,
      List.reverse_singleton]
    unfold padSymmetric
    rw [if_neg (by simp; omega)]
    simp only [List.reverse_singleton, padSymmetricLoop, bind, Except.bind, this]
    rfl

/-- … and any other string is a ValueError. -/
theorem c08_unknown_mode [NonUnitalNonAssocSemiring R] (t : Tensor R) (s : String) (padding : List Nat)
    (h1 : s ≠ "zero") (h2 : s ≠ "constant") (h3 : s ≠ "reflect") (h4 : s ≠ "periodic")
    (h5 : s ≠ "symmetric") : fwtPadWith t (some s) padding = .error .valueError := by
  unfold fwtPadWith translateBoundaryStrings
  simp only [if_neg h1, if_neg h2, if_neg h3, if_neg h4, if_neg h5]
  rfl

/-- What the extensions look like next to the borders: the documented pictures. -/
theorem c08_pictures [Zero R] (n : Nat) (x : Nat → R) (i : Nat) (hi : i < n) :
    (ext .zero n x (-(i : ℤ) - 1) = 0 ∧ ext .zero n x (n + i) = 0) ∧
    (ext .constant n x (-(i : ℤ) - 1) = x 0 ∧ ext .constant n x (n + i) = x (n - 1)) ∧
    (ext .symmetric n x (-(i : ℤ) - 1) = x i ∧ ext .symmetric n x (n + i) = x (n - 1 - i)) ∧
    (ext .periodic n x (-(i : ℤ) - 1) = x (n - 1 - i) ∧ ext .periodic n x (n + i) = x i) ∧
    (i + 1 < n → ext .reflect n x (-(i : ℤ) - 1) = x (i + 1) ∧
      ext .reflect n x (n + i) = x (n - 2 - i)) := by
  refine ⟨⟨?_, ?_⟩, ⟨?_, ?_⟩, ⟨?_, ?_⟩, ⟨?_, ?_⟩, fun h => ⟨?_, ?_⟩⟩
  · simp only [ext, extIdx]; rw [if_neg (by omega)]
  · simp only [ext, extIdx]; rw [if_neg (by omega)]
  · simp only [ext, extIdx]; rw [if_pos (by omega)]
  · simp only [ext, extIdx]; rw [if_neg (by omega), if_neg (by omega)]
  · apply ext_of_idx
    simp only [extIdx]
    rw [emod_eq_of (r := 2 * n - 1 - i) (q := -1) (by omega) (by omega) (by omega)]
    congr 1
    rw [if_neg (by omega)]; omega
  · apply ext_of_idx
    simp only [extIdx]
    rw [emod_eq_of (r := n + i) (q := 0) (by omega) (by omega) (by omega)]
    congr 1
    rw [if_neg (by omega)]; omega
  · apply ext_of_idx
    simp only [extIdx]
    rw [emod_eq_of (r := n - 1 - i) (q := -1) (by omega) (by omega) (by omega)]
    congr 1; omega
  · apply ext_of_idx
    simp only [extIdx]
    rw [emod_eq_of (r := i) (q := 1) (by omega) (by omega) (by omega)]
    congr 1
  · apply ext_of_idx
    simp only [extIdx]
    rw [if_neg (by omega), emod_eq_of (r := 2 * n - 3 - i) (q := -1) (by omega) (by omega) (by omega)]
    congr 1
    split_ifs <;> omega
  · apply ext_of_idx
    simp only [extIdx]
    by_cases h2 : i + 2 < n
    · rw [if_neg (by omega), emod_eq_of (r := n + i) (q := 0) (by omega) (by omega) (by omega)]
      congr 1
      rw [if_neg (by omega)]; omega
    · rw [if_neg (by omega), emod_eq_of (r := 0) (q := 1) (by omega) (by omega) (by omega)]
      congr 1
      rw [if_pos (by omega)]; omega

/-! ### C09: axis swap -/

/-- **C09.** Moving legal, pairwise different axes last and back is the identity, in both orders;
the moved axes come last in the given order, the others keep their order. -/
theorem c09_swap_undo [Zero R] (t : Tensor R) (axes : List Int) (h : ValidAxes t.rank axes) :
    (∃ u, swapAxes t axes = .ok u ∧
      u.shape = (batchAxes t.rank (axes.map (axisOf t.rank)) ++ axes.map (axisOf t.rank)).map
        (t.shape.getD · 0) ∧ undoSwapAxes u axes = .ok t) ∧
    ∃ u, undoSwapAxes t axes = .ok u ∧ swapAxes u axes = .ok t := by
  have hp := isPerm_axes h.distinct h.lt
  constructor
  · obtain ⟨u, e, h1, h2, h3⟩ := swapAxes_ok h
    have hur : u.rank = t.rank := by unfold Tensor.rank; rw [h2, pick_length]; exact hp.len
    obtain ⟨v, e', k1, k2, k3, k4⟩ := undoSwapAxes_ok (t := u) (axes := axes) (by rw [hur]; exact h)
    refine ⟨u, e, h2, ?_⟩
    rw [e']
    congr 1
    rw [hur] at k2 k3 k4
    have hs : v.shape = t.shape := hp.pick_inj k2 rfl (by rw [k3, h2])
    apply Tensor.ext' (k1.trans h1) hs
    intro i hi
    have hil : i.length = t.rank := by rw [hi.length_eq, hs]; rfl
    rw [k4 i hil, h3 i hil]
  · obtain ⟨u, e, h1, h2, h3, h4⟩ := undoSwapAxes_ok h
    have hur : u.rank = t.rank := h2
    obtain ⟨v, e', k1, k2, k3⟩ := swapAxes_ok (t := u) (axes := axes) (by rw [hur]; exact h)
    refine ⟨u, e, ?_⟩
    rw [e']
    congr 1
    rw [hur] at k2 k3
    have hs : v.shape = t.shape := by rw [k2, h3]
    apply Tensor.ext' (k1.trans h1) hs
    intro i hi
    have hil : i.length = t.rank := by rw [hi.length_eq, hs]; rfl
    have h5 := hp.pick_pick_inv (l := i) hil
    have hl : (pick (invPerm (batchAxes t.rank (axes.map (axisOf t.rank)) ++ axes.map (axisOf t.rank))) i).length
        = t.rank := by rw [pick_length, hp.inv.len]
    have e1 := k3 _ hl
    rw [h5] at e1
    rw [e1, h4 _ hl, h5]

/-- **C09.** Illegal axes raise: ValueError if an axis repeats literally, RuntimeError otherwise. -/
theorem c09_bad_axes [Zero R] (t : Tensor R) (axes : List Int) (h : ¬ ValidAxes t.rank axes) :
    swapAxes t axes = .error (if axes.Nodup then .runtimeError else .valueError) ∧
    undoSwapAxes t axes = .error (if axes.Nodup then .runtimeError else .valueError) :=
  ⟨swapAxes_err h, undoSwapAxes_err h⟩

/-- Legal axes with a sign mix; a literal repetition; the same axis written twice, once negative. -/
example : ValidAxes 4 [-3, 0] ∧ ¬ ValidAxes 4 [1, 1] ∧ ¬ ValidAxes 2 [-1, 1] := by
  refine ⟨⟨?_, by decide⟩, fun h => by simpa [axisOf] using h.distinct,
    fun h => by simpa [axisOf] using h.distinct⟩
  intro a ha
  simp only [List.mem_cons, List.not_mem_nil, or_false] at ha
  rcases ha with rfl | rfl <;> exact ⟨by decide, by decide⟩

/-! ### C10: dimension preprocessing -/

/-- **C10.** Post-processing a pre-processed tensor gives the tensor back, for every number of batch
dimensions, every transform dimension `n` and every legal axis argument. -/
theorem c10_round_trip [Zero R] (x : Tensor R) (n : Nat) (axes : AxisHint)
    (hg : GoodAxes axes x.rank n) (hdt : x.md.dtype = .float32 ∨ x.md.dtype = .float64) :
    ∃ y ds, preprocessTensor x n axes false = .ok (y, ds) ∧ y.rank = n + 1 ∧
      postprocessTensor y n ds axes = .ok x := by
  have hd : isDtypeSupported x.md.dtype = true := by unfold isDtypeSupported; simpa using hdt
  obtain ⟨y, e, hy⟩ := preprocessTensor_ok hg hd
  obtain ⟨z, e', hzr, hzb, hz⟩ := postprocessTensor_ok hg (t := y)
    (ds := pick (batchAxes x.rank (axesOf axes x.rank n) ++ axesOf axes x.rank n) x.shape)
    (bs := pick (batchAxes x.rank (axesOf axes x.rank n)) x.shape)
    (by rw [pick_length]; exact (isPerm_axes hg.nodup hg.lt).len)
    (by rw [take_pick hg.batch_len hg.axes_len])
    (ks := pick (axesOf axes x.rank n) x.shape) (by rw [pick_length, hg.axes_len]) hy.shape
  refine ⟨y, _, e, ?_, ?_⟩
  · unfold Tensor.rank; rw [hy.shape, List.length_cons, pick_length, hg.axes_len]
  · rw [e', Folded.unique hg rfl hzr hzb.symm hy hz]

/-- With the channel axis: squeezing it away before post-processing restores the tensor. -/
theorem c10_round_trip_channel [Zero R] (x : Tensor R) (n : Nat) (axes : AxisHint)
    (hg : GoodAxes axes x.rank n) (hdt : x.md.dtype = .float32 ∨ x.md.dtype = .float64) :
    ∃ y ds, preprocessTensor x n axes true = .ok (y, ds) ∧ y.rank = n + 2 ∧
      postprocessTensor y.squeeze1 n ds axes = .ok x := by
  have hd : isDtypeSupported x.md.dtype = true := by unfold isDtypeSupported; simpa using hdt
  obtain ⟨y, e, hy⟩ := preprocessTensor_ch hg hd
  obtain ⟨y', ds, e1, h1, h2⟩ := c10_round_trip x n axes hg hdt
  obtain ⟨y'', e2, hy'⟩ := preprocessTensor_ok hg hd
  rw [e2] at e1
  simp only [Except.ok.injEq, Prod.mk.injEq] at e1
  obtain ⟨rfl, rfl⟩ := e1
  have hyy : (withChannel y).squeeze1 = y'' := by
    have hs := withChannel_shape hy.shape
    obtain ⟨s1, s2, s3⟩ := squeeze1_ok hs
    apply Tensor.ext'
    · rw [s1, withChannel_md, hy.md, hy'.md]
    · rw [s2, hy'.shape]
    · intro i hi
      rw [s2] at hi
      match i, hi with
      | b :: k, ⟨hb, hk⟩ =>
        rw [s3 b k hb hk, withChannel_get hy.shape]
        -- both folded versions of `x` agree
        have hp : IsPerm (batchAxes x.rank (axesOf axes x.rank n) ++ axesOf axes x.rank n) x.rank :=
          isPerm_axes hg.nodup hg.lt
        set bs := pick (batchAxes x.rank (axesOf axes x.rank n)) x.shape with hbs
        have hub : InB bs (unravel bs b) := inB_unravel hb
        have hul : (unravel bs b).length = (batchAxes x.rank (axesOf axes x.rank n)).length := by
          rw [hub.length_eq, hbs, pick_length]
        have hkl : k.length = n := by rw [hk.length_eq, pick_length, hg.axes_len]
        have hbl := hg.batch_len
        set idx := pick (invPerm (batchAxes x.rank (axesOf axes x.rank n) ++ axesOf axes x.rank n))
          (unravel bs b ++ k) with hidx
        have hil : idx.length = x.rank := by rw [hidx, pick_length, hp.inv.len]
        have hpk := hp.pick_pick_inv (l := unravel bs b ++ k) (by
          rw [List.length_append, hul, hkl]; exact hbl)
        rw [← hidx] at hpk
        have hin : InB x.shape idx := by
          rw [← hp.inB_pick rfl hil, hpk, pick_append]
          exact hub.append hk
        rw [pick_append] at hpk
        have hsplit := List.append_inj hpk (by rw [pick_length, hul])
        have e1 := hy.get idx hin
        have e2 := hy'.get idx hin
        rw [hsplit.1, hsplit.2, ← hbs, ravel_unravel hb] at e1 e2
        rw [e1, e2]
  refine ⟨_, _, e, ?_, by rw [hyy]; exact h2⟩
  unfold Tensor.rank
  rw [withChannel_shape hy.shape]
  simp [hg.axes_len]

/-- **C10.** Too few dimensions: ValueError with the default axes … -/
theorem c10_too_small [Zero R] (x : Tensor R) (n : Nat) (ch : Bool) (hn : 1 ≤ n) (hr : x.rank < n)
    (hdt : x.md.dtype = .float32 ∨ x.md.dtype = .float64) :
    preprocessTensor x n .none ch = .error .valueError := by
  have hd : isDtypeSupported x.md.dtype = true := by unfold isDtypeSupported; simpa using hdt
  have hr' : x.shape.length < n := hr
  unfold preprocessTensor preprocessCoeffs
  simp only [if_neg (show n ≠ 0 by omega), bind, Except.bind, headTensor_ofList, hd, ensureAxes,
    getDefaultAxes, if_neg (show ¬ n < 1 by omega), preSwap, preFold, if_pos hr', ne_eq, not_true,
    if_false, Bool.true_eq_false]

/-- … and an error for every axis argument (explicit axes run into torch's RuntimeError). -/
theorem c10_bad_axes [Zero R] (x : Tensor R) (n : Nat) (axes : AxisHint) (ch : Bool)
    (h : ¬ GoodAxes axes x.rank n) : ∃ e, preprocessTensor x n axes ch = .error e :=
  preprocessTensor_err (fun h' => h h'.1)

/-- A rank-4 tensor, two transformed axes given out of order: the hypotheses of C10 are met. -/
example : GoodAxes (.seq [2, -4]) 4 2 := by
  refine ⟨by decide, rfl, ⟨?_, by decide⟩⟩
  intro a ha
  simp only [resolve, List.mem_cons, List.not_mem_nil, or_false] at ha
  rcases ha with rfl | rfl <;> exact ⟨by decide, by decide⟩

/-! ### C12: the coefficient tree map -/

/-- The tensors of an entry, in the order of the container. -/
def entryTensors [Zero R] : Entry R → List (Tensor R)
  | .tensor t => [t]
  | .tuple h v d => [h, v, d]
  | .dict kv => kv.map (·.2)
  | .other => []

/-- The tensors of a container, in order. -/
def tensors [Zero R] (c : Coeffs R) : List (Tensor R) := c.items.flatMap entryTensors

/-- The kinds of the entries of a container: tensor, 3-tuple, dict with these keys. -/
inductive Kind where
  | tensor | tuple | dict (keys : List String) | other
  deriving DecidableEq

/-- The kind of an entry. -/
def entryKind [Zero R] : Entry R → Kind
  | .tensor _ => .tensor
  | .tuple _ _ _ => .tuple
  | .dict kv => .dict (kv.map (·.1))
  | .other => .other

/-- The structure of a container: list or tuple, and the kinds of its entries in order. -/
def structureOf [Zero R] (c : Coeffs R) : Bool × List Kind := (c.isList, c.items.map entryKind)

theorem mapM_map_dict [Zero R] (f : Tensor R → Except Err (Tensor R))
    (g : String × Tensor R → Except Err (String × Tensor R))
    (hg : ∀ x, g x = (f x.2).map fun t => (x.1, t)) :
    ∀ (kv : List (String × Tensor R)),
      (kv.mapM g).map (fun r => (r.map (·.1), r.map (·.2)))
      = ((kv.map (·.2)).mapM f).map fun ts => (kv.map (·.1), ts)
  | [] => rfl
  | e :: kv => by
    have ih := mapM_map_dict f g hg kv
    simp only [List.mapM_cons, List.map_cons, bind, Except.bind, pure, Except.pure, hg e]
    cases hf : f e.2 with
    | error er => rfl
    | ok u =>
      simp only [Except.map]
      cases h1 : kv.mapM g with
      | error er =>
        rw [h1] at ih
        cases h2 : (kv.map (·.2)).mapM f with
        | error er' =>
          rw [h2] at ih
          simpa [Except.map] using ih
        | ok r => rw [h2] at ih; cases ih
      | ok r =>
        rw [h1] at ih
        cases h2 : (kv.map (·.2)).mapM f with
        | error er' => rw [h2] at ih; cases ih
        | ok r' =>
          rw [h2] at ih
          simp only [Except.map, Except.ok.injEq, Prod.mk.injEq] at ih ⊢
          simp [ih.1, ih.2]

theorem entry_mapM_spec [Zero R] (f : Tensor R → Except Err (Tensor R)) (e : Entry R)
    (he : entryKind e ≠ .other) :
    (e.mapM f).map (fun e' => (entryKind e', entryTensors e'))
      = ((entryTensors e).mapM f).map fun ts => (entryKind e, ts) := by
  cases e with
  | tensor t =>
    simp only [Entry.mapM, entryTensors, List.mapM_cons, List.mapM_nil, bind, Except.bind, pure, Except.pure]
    cases f t <;> rfl
  | tuple a b d =>
    simp only [Entry.mapM, entryTensors, List.mapM_cons, List.mapM_nil, bind, Except.bind, pure, Except.pure]
    cases f a with
    | error e => rfl
    | ok a =>
      simp only
      cases f b with
      | error e => rfl
      | ok b => simp only; cases f d <;> rfl
  | dict kv =>
    obtain ⟨g, hg, e⟩ : ∃ g : String × Tensor R → Except Err (String × Tensor R),
        (∀ x, g x = (f x.2).map fun t => (x.1, t)) ∧
        (Entry.dict kv).mapM f = (kv.mapM g).map .dict := by
      refine ⟨fun x => do let t ← f x.2; pure (x.1, t), fun x => ?_, ?_⟩
      · cases h : f x.2 <;> simp [bind, Except.bind, pure, Except.pure, Except.map, h]
      · unfold Entry.mapM
        rfl
    have h := mapM_map_dict f g hg kv
    rw [e]
    simp only [entryTensors, entryKind]
    cases h1 : kv.mapM g with
    | error er =>
      rw [h1] at h
      cases h2 : (kv.map (·.2)).mapM f with
      | error er' => rw [h2] at h; cases h; rfl
      | ok r => rw [h2] at h; cases h
    | ok r =>
      rw [h1] at h
      cases h2 : (kv.map (·.2)).mapM f with
      | error er' => rw [h2] at h; cases h
      | ok r' =>
        rw [h2] at h
        simp only [Except.map, Except.ok.injEq, Prod.mk.injEq] at h ⊢
        exact ⟨by simp [entryKind, h.1], by simp [entryTensors, h.2]⟩
  | other => exact absurd rfl he

theorem mapM_append' {α β : Type} (f : α → Except Err β) (a b : List α) :
    (a ++ b).mapM f = (a.mapM f >>= fun x => b.mapM f >>= fun y => .ok (x ++ y)) := by
  rw [List.mapM_append]; rfl

theorem entries_mapM_spec [Zero R] (f : Tensor R → Except Err (Tensor R)) :
    ∀ (es : List (Entry R)), (∀ e ∈ es, entryKind e ≠ .other) →
      (es.mapM (Entry.mapM f)).map (fun r => (r.map entryKind, r.flatMap entryTensors))
        = ((es.flatMap entryTensors).mapM f).map fun ts => (es.map entryKind, ts)
  | [], _ => rfl
  | e :: es, h => by
    have h1 := entry_mapM_spec f e (h e (by simp))
    have h2 := entries_mapM_spec f es fun e he => h e (by simp [he])
    rw [List.mapM_cons, List.flatMap_cons, mapM_append']
    revert h1 h2
    cases e.mapM f with
    | error er =>
      intro h1 _
      cases h3 : (entryTensors e).mapM f with
      | error er' => rw [h3] at h1; cases h1; rfl
      | ok r => rw [h3] at h1; cases h1
    | ok e' =>
      intro h1
      cases h3 : (entryTensors e).mapM f with
      | error er' => rw [h3] at h1; cases h1
      | ok ts =>
        rw [h3] at h1
        simp only [Except.map, Except.ok.injEq, Prod.mk.injEq] at h1
        cases es.mapM (Entry.mapM f) with
        | error er =>
          intro h2
          cases h4 : (es.flatMap entryTensors).mapM f with
          | error er' => rw [h4] at h2; cases h2; rfl
          | ok r => rw [h4] at h2; cases h2
        | ok es' =>
          intro h2
          cases h4 : (es.flatMap entryTensors).mapM f with
          | error er' => rw [h4] at h2; cases h2
          | ok r =>
            rw [h4] at h2
            simp only [Except.map, Except.ok.injEq, Prod.mk.injEq] at h2
            simp only [bind, Except.bind, pure, Except.pure, Except.map, List.map_cons,
              List.flatMap_cons, h1.1, h1.2, h2.1, h2.2]

/-- **C12.** Mapping a function (which may raise) over a well-formed coefficient container calls it
on every tensor exactly once, in order, stops at the first exception, and otherwise returns a container of
the same structure holding the results in place of the arguments. -/
theorem c12_tree_map [Zero R] (c : Coeffs R) (f : Tensor R → Except Err (Tensor R))
    (hc : c.WF fun _ => True) :
    (coeffTreeMap c f).map (fun c' => (structureOf c', tensors c'))
      = ((tensors c).mapM f).map fun ts => (structureOf c, ts) := by
  obtain ⟨⟨t, rest, hi⟩, hall, hk⟩ := hc
  obtain ⟨b, items⟩ := c
  simp only at hi hall hk
  subst hi
  have hne : ∀ e ∈ rest, entryKind e ≠ .other := by
    intro e he h
    have := hall e (by simp [he])
    cases e <;> simp_all [entryKind, Entry.All]
  have h2 := entries_mapM_spec f rest hne
  unfold coeffTreeMap tensors
  simp only [List.flatMap_cons, entryTensors, List.singleton_append, List.mapM_cons, bind, Except.bind,
    pure, Except.pure]
  cases f t with
  | error e => rfl
  | ok u =>
    simp only
    revert h2
    cases rest.mapM (Entry.mapM f) with
    | error er =>
      intro h2
      cases h4 : (rest.flatMap entryTensors).mapM f with
      | error er' => rw [h4] at h2; cases h2; rfl
      | ok r => rw [h4] at h2; cases h2
    | ok es' =>
      intro h2
      cases h4 : (rest.flatMap entryTensors).mapM f with
      | error er' => rw [h4] at h2; cases h2
      | ok r =>
        rw [h4] at h2
        simp only [Except.map, Except.ok.injEq, Prod.mk.injEq] at h2
        cases es' with
        | nil =>
          cases rest with
          | nil => cases h2.2; rfl
          | cons a l => simp at h2
        | cons e es' =>
          cases rest with
          | nil => simp at h2
          | cons a l =>
            have hka := hk a (by simp)
            have hkind : entryKind e = entryKind a := by have := h2.1; simp at this; exact this.1
            cases e with
            | tensor v =>
              have : b = true := hka.mpr (by cases a <;> simp_all [entryKind])
              subst this
              have h5 := h2.1
              simp only [List.map_cons] at h5
              simp only [Except.map, structureOf, List.map_cons]
              rw [← h2.2, ← h5]; rfl
            | tuple v1 v2 v3 =>
              have : b = false := by
                cases b with
                | false => rfl
                | true => obtain ⟨t', rfl⟩ := hka.mp rfl; simp [entryKind] at hkind
              subst this
              have h5 := h2.1
              simp only [List.map_cons] at h5
              simp only [Except.map, structureOf, List.map_cons]
              rw [← h2.2, ← h5]; rfl
            | dict kv =>
              have : b = false := by
                cases b with
                | false => rfl
                | true => obtain ⟨t', rfl⟩ := hka.mp rfl; simp [entryKind] at hkind
              subst this
              have h5 := h2.1
              simp only [List.map_cons] at h5
              simp only [Except.map, structureOf, List.map_cons]
              rw [← h2.2, ← h5]; rfl
            | other => exact absurd hkind.symm (hne a (by simp))

/-- **C12.** An empty container has no first coefficient: IndexError, whatever the function. -/
theorem c12_empty [Zero R] (b : Bool) (f : Tensor R → Except Err (Tensor R)) :
    coeffTreeMap ⟨b, []⟩ f = .error .indexError := rfl

/-- An entry which is neither tensor, tuple nor dict is a ValueError. -/
theorem c12_unexpected_entry [Zero R] (b : Bool) (t : Tensor R) (rest : List (Entry R))
    (f : Tensor R → Except Err (Tensor R)) (hf : ∀ t, ∃ u, f t = .ok u) (h : Entry.other ∈ rest) :
    coeffTreeMap ⟨b, .tensor t :: rest⟩ f = .error .valueError := by
  have hd : ∀ kv : List (String × Tensor R), ∃ r, (kv.mapM fun (x : String × Tensor R) => do
      let t ← f x.2; pure (x.1, t) : Except Err _) = .ok r := by
    intro kv
    induction kv with
    | nil => exact ⟨[], rfl⟩
    | cons e kv ih =>
      obtain ⟨r, hr⟩ := ih
      obtain ⟨u, hu⟩ := hf e.2
      exact ⟨(e.1, u) :: r, by rw [List.mapM_cons, hr, hu]; rfl⟩
  have he : ∀ e : Entry R, e = .other ∨ ∃ e', e.mapM f = .ok e' := by
    intro e
    cases e with
    | tensor t => obtain ⟨u, hu⟩ := hf t; exact Or.inr ⟨.tensor u, by simp only [Entry.mapM, hu]; rfl⟩
    | tuple a b d =>
      obtain ⟨a', ha⟩ := hf a; obtain ⟨b', hb⟩ := hf b; obtain ⟨d', hd⟩ := hf d
      exact Or.inr ⟨.tuple a' b' d', by simp only [Entry.mapM, ha, hb, hd]; rfl⟩
    | dict kv =>
      obtain ⟨r, hr⟩ := hd kv
      exact Or.inr ⟨.dict r, (congrArg (· >>= fun kv => pure (Entry.dict kv)) hr : _)⟩
    | other => exact Or.inl rfl
  have key : ∀ es : List (Entry R), Entry.other ∈ es → es.mapM (Entry.mapM f) = .error .valueError := by
    intro es
    induction es with
    | nil => simp
    | cons e es ih =>
      intro hm
      rw [List.mapM_cons]
      rcases he e with rfl | ⟨e', he'⟩
      · rfl
      · rw [he']
        have : Entry.other ∈ es := by
          rcases List.mem_cons.mp hm with rfl | h
          · simp [Entry.mapM] at he'
          · exact h
        rw [ih this]; rfl
  obtain ⟨u, hu⟩ := hf t
  unfold coeffTreeMap
  simp only [bind, Except.bind, hu, key rest h]

/-- A tuple of dicts is a well-formed container (C12 is not vacuous). -/
example (t : Tensor ℚ) : (⟨false, [.tensor t, .dict [("ad", t), ("da", t)], .dict []]⟩ : Coeffs ℚ).WF
    fun _ => True := by
  refine ⟨⟨t, _, rfl⟩, ?_, ?_⟩
  · intro e he
    simp only [List.mem_cons, List.not_mem_nil, or_false] at he
    rcases he with rfl | rfl | rfl
    · trivial
    · intro _ _; trivial
    · intro _ _; trivial
  · intro e he
    simp only [List.tail_cons, List.mem_cons, List.not_mem_nil, or_false] at he
    rcases he with rfl | rfl <;> simp

/-! ### C11: dtype and device checks -/

theorem treeMap_check [Zero R] {c : Coeffs R} (hc : c.WF fun _ => True)
    {f : Tensor R → Except Err (Tensor R)} {e : Err} {P : Tensor R → Prop}
    (h1 : ∀ t, P t → f t = .ok t) (h2 : ∀ t, ¬ P t → f t = .error e) :
    ((∀ t ∈ tensors c, P t) → ∃ c', coeffTreeMap c f = .ok c') ∧
    (¬ (∀ t ∈ tensors c, P t) → coeffTreeMap c f = .error e) := by
  have h := c12_tree_map c f hc
  have key : ∀ ts : List (Tensor R), ((∀ t ∈ ts, P t) → ts.mapM f = .ok ts) ∧
      (¬ (∀ t ∈ ts, P t) → ts.mapM f = .error e) := by
    intro ts
    induction ts with
    | nil => exact ⟨fun _ => rfl, fun h => absurd (by simp) h⟩
    | cons t ts ih =>
      constructor
      · intro hp
        rw [List.mapM_cons, h1 t (hp t (by simp)), ih.1 fun u hu => hp u (by simp [hu])]
        rfl
      · intro hp
        rw [List.mapM_cons]
        by_cases ht : P t
        · rw [h1 t ht, ih.2 fun h => hp (by simpa [ht] using h)]; rfl
        · rw [h2 t ht]; rfl
  constructor
  · intro hp
    rw [(key _).1 hp] at h
    cases hm : coeffTreeMap c f with
    | error e => rw [hm] at h; cases h
    | ok c' => exact ⟨c', rfl⟩
  · intro hp
    rw [(key _).2 hp] at h
    cases hm : coeffTreeMap c f with
    | error e => rw [hm] at h; cases h; rfl
    | ok c' => rw [hm] at h; cases h

/-- **C11.** The consistency check of the inverse transforms, on every well-formed container: it
passes exactly if all coefficient tensors agree with the first in dtype and device; otherwise it is a
ValueError. -/
theorem c11_same_device_dtype [Zero R] (c : Coeffs R) (t₀ : Tensor R) (hc : c.WF fun _ => True)
    (h0 : headTensor c = .ok t₀) :
    ((∀ t ∈ tensors c, t.md = t₀.md) → checkSameDeviceDtype c = .ok t₀.md) ∧
    (¬ (∀ t ∈ tensors c, t.md = t₀.md) → checkSameDeviceDtype c = .error .valueError) := by
  have hdev := treeMap_check hc (f := checkSameDevice t₀.md.device) (e := .valueError)
    (P := fun t => t₀.md.device = t.md.device)
    (fun t ht => if_pos ht) (fun t ht => if_neg ht)
  have hdt := treeMap_check hc (f := checkSameDtype t₀.md.dtype) (e := .valueError)
    (P := fun t => t₀.md.dtype = t.md.dtype)
    (fun t ht => if_pos ht) (fun t ht => if_neg ht)
  constructor
  · intro h
    obtain ⟨c1, e1⟩ := hdev.1 fun t ht => by rw [h t ht]
    obtain ⟨c2, e2⟩ := hdt.1 fun t ht => by rw [h t ht]
    unfold checkSameDeviceDtype
    simp only [bind, Except.bind, h0, e1, e2]; rfl
  · intro h
    unfold checkSameDeviceDtype
    by_cases hd : ∀ t ∈ tensors c, t₀.md.device = t.md.device
    · obtain ⟨c1, e1⟩ := hdev.1 hd
      have hd2 : ¬ ∀ t ∈ tensors c, t₀.md.dtype = t.md.dtype := by
        intro h2
        apply h
        intro t ht
        have a := hd t ht
        have b := h2 t ht
        cases hm : t.md
        cases hm' : t₀.md
        simp_all
      simp only [bind, Except.bind, h0, e1, hdt.2 hd2]
    · simp only [bind, Except.bind, h0, hdev.2 hd]

/-- **C11.** Unsupported dtypes are a ValueError in the forward transform … -/
theorem c11_wavedec_dtype [NonUnitalNonAssocSemiring R] (x : Tensor R) (w : Wavelet R)
    (mode : Option String) (level : Option Int) (axis : AxisHint)
    (h : ¬ (x.md.dtype = .float32 ∨ x.md.dtype = .float64)) :
    wavedec x w mode level axis = .error .valueError := by
  have hd : isDtypeSupported x.md.dtype = false := by
    unfold isDtypeSupported; simpa using h
  unfold wavedec preprocessDeconstruction preprocessTensor
  simp only [bind, Except.bind, preprocessCoeffs_dtype (headTensor_ofList x []) hd]

/-- … and in the inverse transform. -/
theorem c11_waverec_dtype [NonUnitalNonAssocSemiring R] (c0 : Tensor R) (rest : List (Tensor R))
    (w : Wavelet R) (axis : AxisHint)
    (h : ¬ (c0.md.dtype = .float32 ∨ c0.md.dtype = .float64)) :
    waverec (c0 :: rest) w axis = .error .valueError := by
  have hd : isDtypeSupported c0.md.dtype = false := by
    unfold isDtypeSupported; simpa using h
  unfold waverec
  simp only [bind, Except.bind, preprocessCoeffs_dtype (headTensor_ofList c0 rest) hd]

/-- **C11.** `waverec` raises ValueError if coefficients disagree in dtype or device. -/
theorem c11_waverec_mixed [NonUnitalNonAssocSemiring R] (c0 : Tensor R) (rest : List (Tensor R))
    (w : Wavelet R) (axis : AxisHint) (hg : GoodAxes axis c0.rank 1)
    (hr : ∀ c ∈ rest, c.rank = c0.rank) (c : Tensor R) (hc : c ∈ rest) (hmd : c.md ≠ c0.md) :
    waverec (c0 :: rest) w axis = .error .valueError := by
  by_cases hdt : c0.md.dtype = .float32 ∨ c0.md.dtype = .float64
  swap
  · exact c11_waverec_dtype c0 rest w axis hdt
  have hd : isDtypeSupported c0.md.dtype = true := by unfold isDtypeSupported; simpa using hdt
  obtain ⟨c', e, rel⟩ := preprocessCoeffs_ok hg (c := Coeffs.ofList (c0 :: rest))
    (ofList_wf (by simp) (by
      intro t ht
      rcases List.mem_cons.mp ht with rfl | ht
      · rfl
      · exact hr t ht)) (headTensor_ofList c0 rest) hd
  obtain ⟨us, rfl, hf⟩ := rel.ofList
  have hwf : (Coeffs.ofList us).WF fun _ => True := ofList_wf (by
    intro h0; rw [h0] at hf; cases hf) fun _ _ => trivial
  have hts : ∀ us : List (Tensor R), tensors (Coeffs.ofList us) = us := by
    intro us
    unfold tensors Coeffs.ofList
    induction us with
    | nil => rfl
    | cons a l ih => simpa [entryTensors] using ih
  cases hf with
  | @cons _ u0 _ us' hu0 hus =>
    have := (c11_same_device_dtype (Coeffs.ofList (u0 :: us')) u0 hwf (headTensor_ofList u0 us')).2 (by
      rw [hts]
      intro h
      obtain ⟨i, hi⟩ := List.getElem?_of_mem hc
      obtain ⟨u, hu, -, h2⟩ := forall₂_getElem?' hus hi
      have := h u (by simp [List.mem_of_getElem? hu])
      rw [h2.md, hu0.2.md] at this
      exact hmd this)
    unfold waverec
    simp only [bind, Except.bind, e, this]

/-- **C11.** Dtype and device of the input are kept in every output of `wavedec`. -/
theorem c11_wavedec_keeps_meta [NonUnitalNonAssocSemiring R] (x : Tensor R) (w : Wavelet R)
    (mode : Option String) (level : Option Int) (axis : AxisHint) (cs : List (Tensor R))
    (hF : 2 ≤ w.len) (hhi : w.decHi.length = w.len)
    (hcs : wavedec x w mode level axis = .ok cs) : ∀ c ∈ cs, c.md = x.md := by
  obtain ⟨h1, h2⟩ := wavedec_char (mode := mode) (x := x) (level := level) (h := axis) hF hhi
  have hd : ∃ m, IsDwt m w (axis1 axis x.rank) (levels level w.len (x.shape.getD (axis1 axis x.rank) 0)) x cs := by
    by_cases hg : GoodAxes axis x.rank 1 ∧ isDtypeSupported x.md.dtype = true
    · obtain ⟨h3, h4, h5, h6⟩ := h2 hg.1 hg.2
      by_cases hL : levels level w.len (x.shape.getD (axis1 axis x.rank) 0) = 0
      · obtain ⟨cs', e, hd⟩ := h3 hL .zero
        rw [e] at hcs; cases hcs; exact ⟨_, hd⟩
      · by_cases hm : ∃ m, Selects mode m
        · obtain ⟨m, hm⟩ := hm
          by_cases ha : ∀ s, s < levels level w.len (x.shape.getD (axis1 axis x.rank) 0) →
              m.Admits w.len (levelLen w.len (x.shape.getD (axis1 axis x.rank) 0) s)
          · obtain ⟨cs', e, hd⟩ := h4 m hm ha
            rw [e] at hcs; cases hcs; exact ⟨_, hd⟩
          · push Not at ha
            rw [h5 m hm ha] at hcs; cases hcs
        · push Not at hm
          rw [h6 (by omega) hm] at hcs; cases hcs
    · obtain ⟨e, he⟩ := h1 hg
      rw [he] at hcs; cases hcs
  obtain ⟨m, hd⟩ := hd
  intro c hc
  set L := levels level w.len (x.shape.getD (axis1 axis x.rank) 0)
  obtain ⟨i, hi⟩ := List.getElem?_of_mem hc
  rcases Nat.eq_zero_or_pos i with rfl | hpos
  · exact (hd.approx c hi).md
  · have hil : i < L + 1 := by rw [← hd.length]; exact (List.getElem?_eq_some_iff.mp hi).1
    exact (hd.detail (L - i) c (by omega) (by rw [show L - (L - i) = i by omega]; exact hi)).md

end Verif.Props
