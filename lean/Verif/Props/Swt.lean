/-
Properties C22–C24: the stationary transform `swt` / `iswt` and its circular padding
(src/ptwt/stationary_transform.py).
-/
import Verif.Lemmas.SwtTotal
import Verif.Props.Conv1

namespace Verif.Props
open Tensor Spec
variable {R : Type}

/-! ### C22: circular padding -/

/-- **C22.** If the two pad widths need the same number of rounds of at most `n` samples each, the
multi-wrap circular pad is the periodic extension of the signal along the last axis, whatever the
number of wraps. -/
theorem c22_periodic [NonUnitalNonAssocSemiring R] (x : Tensor R) (l r : Nat) (hr : 0 < x.rank)
    (hn : 0 < x.shape.getD (x.rank - 1) 0) (h : SameRounds (x.shape.getD (x.rank - 1) 0) l r) :
    ∃ u, circularPad x [l, r] = .ok u ∧ Extended .periodic x (x.rank - 1) l r u :=
  circularPad_ok hr hn (Or.inl h)

/-- **C22, exactly.** On a tensor that has a line of pairwise distinct entries the pad is the periodic
extension if and only if both widths need the same number of rounds, or the smaller one is a multiple
of the signal length.  In all other cases the call succeeds and returns wrong values. -/
theorem c22_exact [NonUnitalNonAssocSemiring R] (x : Tensor R) (l r : Nat) (hr : 0 < x.rank)
    (hn : 0 < x.shape.getD (x.rank - 1) 0) (idx : List Nat) (hi : InB x.shape idx)
    (hdist : ∀ i j, i < x.shape.getD (x.rank - 1) 0 → j < x.shape.getD (x.rank - 1) 0 →
      line x (x.rank - 1) idx i = line x (x.rank - 1) idx j → i = j) :
    ∃ u, circularPad x [l, r] = .ok u ∧
      (Extended .periodic x (x.rank - 1) l r u ↔
        SameRounds (x.shape.getD (x.rank - 1) 0) l r ∨ x.shape.getD (x.rank - 1) 0 ∣ min l r) := by
  by_cases hg : SameRounds (x.shape.getD (x.rank - 1) 0) l r ∨ x.shape.getD (x.rank - 1) 0 ∣ min l r
  · obtain ⟨u, e, h⟩ := circularPad_ok (t := x) hr hn hg
    exact ⟨u, e, fun _ => hg, fun _ => h⟩
  · obtain ⟨u, e, h⟩ := circularPad_bad (t := x) hr hn hi hdist hg
    exact ⟨u, e, fun h' => absurd h' h, fun h' => absurd h' hg⟩

/-- **C22.** The pads of the stationary transform, `d (F/2 - 1)` and `d F/2` for a dilation `d`, give
the periodic extension on both sides of the transform if the dilation divides the signal length, or
if the dilated half filter is not longer than the signal. -/
theorem c22_dilation [NonUnitalNonAssocSemiring R] (x : Tensor R) (d F : Nat) (hF : 2 ≤ F)
    (hr : 0 < x.rank) (hn : 0 < x.shape.getD (x.rank - 1) 0)
    (h : d ∣ x.shape.getD (x.rank - 1) 0 ∨ d * (F / 2) ≤ x.shape.getD (x.rank - 1) 0) :
    (∃ u, circularPad x [d * (F / 2 - 1), d * (F / 2)] = .ok u ∧
      Extended .periodic x (x.rank - 1) (d * (F / 2 - 1)) (d * (F / 2)) u) ∧
    ∃ u, circularPad x [d * (F / 2), d * (F / 2 - 1)] = .ok u ∧
      Extended .periodic x (x.rank - 1) (d * (F / 2)) (d * (F / 2 - 1)) u := by
  have := padGood_swt hn (g := F / 2) (by omega) h.symm
  exact ⟨circularPad_ok hr hn this.1, circularPad_ok hr hn this.2⟩

/-- The signal `0, 1, 2` used in the examples and the counterexample. -/
def ramp (n : Nat) : Tensor ℚ := ofFn ⟨.float64, 0⟩ [n] fun i => (i.getD 0 0 : ℚ)

theorem ramp_distinct (n : Nat) : ∀ i j, i < n → j < n →
    line (ramp n) 0 [0] i = line (ramp n) 0 [0] j → i = j := by
  intro i j hi hj h
  have e : ∀ k, k < n → line (ramp n) 0 [0] k = (k : ℚ) := by
    intro k hk
    show (ramp n).get [k] = _
    unfold ramp
    rw [ofFn_get_of _ _ (by exact ⟨hk, trivial⟩)]
    rfl
  rw [e i hi, e j hj] at h
  exact_mod_cast h

/-- **C22 fails for the remaining pads.** A signal of 7 samples with an 8 tap filter at dilation 2 is
padded by 6 and 8 samples; the last sample of the result is wrong. -/
theorem c22_wrong_wrap : ∃ u, circularPad (ramp 7) [2 * (8 / 2 - 1), 2 * (8 / 2)] = .ok u ∧
    u.get [20] = 1 ∧ ext .periodic 7 (fun j => (ramp 7).get [j]) ((20 : ℤ) - 6) = 0 ∧
    ¬ Extended .periodic (ramp 7) 0 6 8 u := by
  have h2 : (match circularPad (ramp 7) [6, 8] with
      | .ok u => u.get [20]
      | .error _ => 0) = 1 := by decide +kernel
  obtain ⟨u, e, h⟩ := c22_exact (ramp 7) 6 8 (by decide) (by decide) [0] (by decide)
    (ramp_distinct 7)
  rw [e] at h2
  refine ⟨u, e, h2, by decide +kernel, fun h' => ?_⟩
  rcases h.mp h' with ⟨k, h1, h2, h3, h4⟩ | h'
  · have e7 : (ramp 7).shape.getD ((ramp 7).rank - 1) 0 = 7 := rfl
    rw [e7] at h1 h2 h3 h4
    omega
  · exact absurd h' (by decide)

/-- A pad with several wraps on both sides that meets the hypotheses of C22. -/
example : ∃ u, circularPad (ramp 3) [7, 9] = .ok u ∧ Extended .periodic (ramp 3) 0 7 9 u :=
  c22_periodic (ramp 3) 7 9 (by decide) (by decide) ⟨2, by decide, by decide, by decide, by decide⟩

example : ∃ u, circularPad (ramp 4) [4 * (6 / 2 - 1), 4 * (6 / 2)] = .ok u ∧
    Extended .periodic (ramp 4) 0 8 12 u :=
  (c22_dilation (ramp 4) 4 6 (by decide) (by decide) (by decide) (Or.inl (by decide))).1

/-! ### C24: textbook coefficients, sizes and shifts -/

/-- **C24.** `swt` of a non-empty signal never fails (legal axis, dtype and an even filter length of
at least 2), and every coefficient tensor has the shape and the dtype of the input. -/
theorem c24_size [NonUnitalNonAssocSemiring R] (x : Tensor R) (w : Wavelet R) (level : Option Int)
    (axis : AxisHint) (hg : GoodAxes axis x.rank 1)
    (hdt : x.md.dtype = .float32 ∨ x.md.dtype = .float64) (hF : 2 ≤ w.len) (he : w.len % 2 = 0)
    (hhi : w.decHi.length = w.len) (hn : 0 < x.shape.getD (axis1 axis x.rank) 0) :
    ∃ cs, swt x w level axis = .ok cs ∧
      cs.length = swtLevel level (x.shape.getD (axis1 axis x.rank) 0) + 1 ∧
      ∀ c ∈ cs, c.md = x.md ∧ c.shape = x.shape :=
  swt_total hg (by unfold isDtypeSupported; simpa using hdt) hF he hhi hn

/-- The level `swt` uses: the given one, or the largest power of two that divides the length. -/
theorem c24_level (n : Nat) (hn : 0 < n) (l : Int) :
    swtLevel (some l) n = l.toNat ∧
      2 ^ swtLevel none n ∣ n ∧ ∀ k, 2 ^ k ∣ n → k ≤ swtLevel none n := by
  refine ⟨rfl, (swtMaxLevel_pow n hn).1, fun k hk => ?_⟩
  by_contra h
  refine (swtMaxLevel_pow n hn).2 (dvd_trans (pow_dvd_pow 2 ?_) hk)
  have : swtLevel none n = swtMaxLevel n := rfl
  omega

/-- **C24.** If the wrap-around of all levels is harmless, `swt` returns the textbook stationary
coefficients `[a_L, d_L, …, d_1]`, computed line by line along the chosen axis. -/
theorem c24_textbook [NonUnitalNonAssocSemiring R] (x : Tensor R) (w : Wavelet R)
    (level : Option Int) (axis : AxisHint) (hg : GoodAxes axis x.rank 1)
    (hdt : x.md.dtype = .float32 ∨ x.md.dtype = .float64) (hF : 2 ≤ w.len) (he : w.len % 2 = 0)
    (hhi : w.decHi.length = w.len) (hn : 0 < x.shape.getD (axis1 axis x.rank) 0)
    (hw : WrapOk (x.shape.getD (axis1 axis x.rank) 0) w.len
      (swtLevel level (x.shape.getD (axis1 axis x.rank) 0))) :
    ∃ cs, swt x w level axis = .ok cs ∧
      IsSwt w (axis1 axis x.rank) (swtLevel level (x.shape.getD (axis1 axis x.rank) 0)) x cs :=
  swt_isSwt hg (by unfold isDtypeSupported; simpa using hdt) hF he hhi hn hw

theorem alongAxis_shifted [Zero R] {a n c : Nat} {f : (Nat → R) → Nat → R} {x x' t t' : Tensor R}
    (ha : a < x.shape.length) (hn : 0 < n) (hxn : x.shape.getD a 0 = n)
    (hf : ∀ v, f (fun k => v ((k + c) % n)) = fun k => f v ((k + c) % n))
    (hcg : ∀ v v' : Nat → R, (∀ j, j < n → v j = v' j) → ∀ k, k < n → f v k = f v' k)
    (hx : Shifted a c x x') (ht : AlongAxis a n f x t) (ht' : AlongAxis a n f x' t') :
    Shifted a c t t' := by
  have hset : x.shape.set a n = x.shape := by rw [← hxn]; exact set_getD_self ha
  have hts : t.shape = x.shape := by rw [ht.shape, hset]
  have hxs : x'.shape = x.shape := by rw [hx.shape, hxn, hset]
  have hts' : t'.shape = x.shape := by rw [ht'.shape, hxs, hset]
  have htn : t.shape.getD a 0 = n := by rw [hts, hxn]
  refine ⟨by rw [ht'.md, hx.md, ht.md], by rw [hts', hts, hxn, hset], ?_⟩
  intro idx hidx
  have hidx0 : InB x.shape idx := by rw [← hts']; exact hidx
  have hil : a < idx.length := by rw [hidx0.length_eq]; exact ha
  have hlt := hidx0.getD_lt (d := a) ha
  rw [hxn] at hlt
  have hin : ∀ j, j < n → InB x.shape (idx.set a j) := by
    intro j hj
    exact (inB_set_iff (x := n) ha (by rw [hset]; exact hidx0)).mpr (by rw [hxn]; exact hj)
  rw [ht'.get idx hidx]
  have e1 : ∀ j, j < n → line x' a idx j = line x a idx ((j + c) % n) := by
    intro j hj
    show x'.get (idx.set a j) = _
    rw [hx.get _ (by rw [hxs]; exact hin j hj), line_set, getD_set_self hil, hxn]
  rw [hcg _ _ e1 _ hlt, hf, htn]
  have hm : (idx.getD a 0 + c) % n < n := Nat.mod_lt _ hn
  show f (line x a idx) _ = t.get (idx.set a _)
  rw [ht.get _ (by rw [hts]; exact hin _ hm), line_set, getD_set_self hil]

/-- **C24, shifts.** Cyclically shifting the input along the transformed axis shifts every coefficient
tensor by the same amount. -/
theorem c24_shift [NonUnitalNonAssocSemiring R] (x x' : Tensor R) (w : Wavelet R)
    (level : Option Int) (axis : AxisHint) (c : Nat) (hg : GoodAxes axis x.rank 1)
    (hdt : x.md.dtype = .float32 ∨ x.md.dtype = .float64) (hF : 2 ≤ w.len) (he : w.len % 2 = 0)
    (hhi : w.decHi.length = w.len) (hn : 0 < x.shape.getD (axis1 axis x.rank) 0)
    (hw : WrapOk (x.shape.getD (axis1 axis x.rank) 0) w.len
      (swtLevel level (x.shape.getD (axis1 axis x.rank) 0)))
    (hx : Shifted (axis1 axis x.rank) c x x') :
    ∃ cs cs', swt x w level axis = .ok cs ∧ swt x' w level axis = .ok cs' ∧
      List.Forall₂ (Shifted (axis1 axis x.rank) c) cs cs' := by
  have ha : axis1 axis x.rank < x.shape.length := axis1_lt hg
  have hs' : x'.shape = x.shape := by rw [hx.shape]; exact set_getD_self ha
  have hr' : x'.rank = x.rank := by unfold Tensor.rank; rw [hs']
  obtain ⟨cs, e, hc⟩ := c24_textbook x w level axis hg hdt hF he hhi hn hw
  obtain ⟨cs', e', hc'⟩ := c24_textbook x' w level axis (by rw [hr']; exact hg)
    (by rw [hx.md]; exact hdt) hF he hhi (by rw [hr', hs']; exact hn) (by rw [hr', hs']; exact hw)
  refine ⟨cs, cs', e, e', ?_⟩
  rw [hr', hs'] at hc'
  have hl := hc.length
  have hl' := hc'.length
  set a := axis1 axis x.rank
  set n := x.shape.getD a 0 with hnn
  set L := swtLevel level n
  refine List.forall₂_iff_get.mpr ⟨by omega, ?_⟩
  intro i h1 h2
  have g1 : cs[i]? = some cs[i] := List.getElem?_eq_getElem h1
  have g2 : cs'[i]? = some cs'[i] := List.getElem?_eq_getElem h2
  have hn' : x'.shape.getD a 0 = n := by rw [hs']
  cases i with
  | zero =>
    have q2 := hc'.approx _ g2
    rw [hn'] at q2
    exact alongAxis_shifted ha hn hnn.symm (fun v => swtA_cyc' hn w v c L)
      (fun v v' h k hk => swtA_congr hn w h L k hk) hx (hc.approx _ g1) q2
  | succ i =>
    have hi : L - (L - (i + 1)) = i + 1 := by omega
    have q1 := hc.detail (L - (i + 1)) _ (by omega) (by rw [hi]; exact g1)
    have q2 := hc'.detail (L - (i + 1)) _ (by omega) (by rw [hi]; exact g2)
    rw [hn'] at q2
    exact alongAxis_shifted ha hn hnn.symm (fun v => swtD_cyc hn w v c _)
      (fun v v' h k hk => swtD_congr hn w h _ k) hx q1 q2

/-! ### C23: perfect reconstruction -/

/-- **C23.** `iswt` inverts `swt` exactly, for every filter bank without distortion of even length, if
the wrap-around of all levels is harmless (in particular if `2^(L-1)` divides the length, or for
filters that are short compared to the signal). -/
theorem c23_perfect_reconstruction [Field R] [CharZero R] (x : Tensor R) (w : Wavelet R) (F : Nat)
    (level : Option Int) (axis : AxisHint) (hl : HasLen w F) (hd : NoDistortion w F) (hF : 2 ≤ F)
    (he : F % 2 = 0) (hg : GoodAxes axis x.rank 1)
    (hdt : x.md.dtype = .float32 ∨ x.md.dtype = .float64)
    (hn : 0 < x.shape.getD (axis1 axis x.rank) 0)
    (hw : WrapOk (x.shape.getD (axis1 axis x.rank) 0) F
      (swtLevel level (x.shape.getD (axis1 axis x.rank) 0))) :
    ∃ cs, swt x w level axis = .ok cs ∧ iswt cs w axis = .ok x := by
  have hlen : w.len = F := hl.1
  obtain ⟨cs, e, hc⟩ := c24_textbook x w level axis hg hdt (by omega) (by omega)
    (by rw [hl.2.1, hlen]) hn (by rw [hlen]; exact hw)
  exact ⟨cs, e, iswt_swt hl hd hF he hg (by unfold isDtypeSupported; simpa using hdt) hn hw hc⟩

/-- **C23.** The hypothesis on the wrap-around holds whenever `2^(L-1)` divides the length. -/
theorem c23_divides (n F L : Nat) (h : 2 ^ (L - 1) ∣ n) : WrapOk n F L :=
  fun _ hs => Or.inr ((pow_dvd_pow 2 (by omega)).trans h)

/-- **C23.** With the default level the transform is always inverted exactly. -/
theorem c23_default_level [Field R] [CharZero R] (x : Tensor R) (w : Wavelet R) (F : Nat)
    (axis : AxisHint) (hl : HasLen w F) (hd : NoDistortion w F) (hF : 2 ≤ F)
    (he : F % 2 = 0) (hg : GoodAxes axis x.rank 1)
    (hdt : x.md.dtype = .float32 ∨ x.md.dtype = .float64)
    (hn : 0 < x.shape.getD (axis1 axis x.rank) 0) :
    ∃ cs, swt x w none axis = .ok cs ∧ iswt cs w axis = .ok x :=
  c23_perfect_reconstruction x w F none axis hl hd hF he hg hdt hn (wrapOk_auto hn)

/-- **C23.** `iswt` of arbitrary coefficients of one shape, dtype and device is the textbook inverse
stationary transform, line by line along the axis. -/
theorem c23_inverse_textbook [Field R] (w : Wavelet R) (F : Nat) (axis : AxisHint) (md : Meta)
    (S : List Nat) (c0 : Tensor R) (rest : List (Tensor R)) (hF : 2 ≤ F) (he : F % 2 = 0)
    (h0 : w.recLo.length = F) (h1 : w.recHi.length = F) (hg : GoodAxes axis S.length 1)
    (hdt : md.dtype = .float32 ∨ md.dtype = .float64)
    (hn : 0 < S.getD (axis1 axis S.length) 0)
    (hw : WrapOk (S.getD (axis1 axis S.length) 0) F rest.length)
    (hmd : ∀ c ∈ c0 :: rest, c.md = md) (hsh : ∀ c ∈ c0 :: rest, c.shape = S) :
    ∃ z, iswt (c0 :: rest) w axis = .ok z ∧ z.md = md ∧ z.shape = S ∧
      ∀ idx, InB S idx → z.get idx =
        iswtFrom w.recLo w.recHi (S.getD (axis1 axis S.length) 0)
          (line c0 (axis1 axis S.length) idx)
          (rest.map fun c => line c (axis1 axis S.length) idx)
          (idx.getD (axis1 axis S.length) 0) :=
  iswt_gen hF he h0 h1 hg (by unfold isDtypeSupported; simpa using hdt) hn hw hmd hsh

/-- The "lazy" filter bank of length 4: every band is a delayed copy of the signal. -/
def lazy4 : Wavelet ℚ := ⟨[1, 0, 0, 0], [0, 1, 0, 0], [0, 0, 0, 1], [0, 0, 1, 0]⟩

theorem lazy4_pr : PRBank lazy4 4 := by
  refine ⟨⟨rfl, rfl, rfl, rfl⟩, ?_, ?_⟩
  · unfold NoDistortion
    simp only [poly, lazy4, List.length_cons, List.length_nil, Finset.sum_range_succ,
      Finset.sum_range_zero, List.getD_cons_zero, List.getD_cons_succ]
    have h2 : (Polynomial.C 2 : Polynomial ℚ) = 2 := rfl
    simp [h2]
    ring
  · unfold AliasFree
    simp only [poly, lazy4, List.length_cons, List.length_nil, Finset.sum_range_succ,
      Finset.sum_range_zero, List.getD_cons_zero, List.getD_cons_succ]
    simp
    ring

/-- **C23 fails for the remaining levels.** A signal of 3 samples, a perfect reconstruction bank of
length 4 and level 2: both calls succeed, the shapes agree, and the last sample of the reconstruction
is wrong (7/4 instead of 2), because the second level is not padded periodically. -/
theorem c23_fails_for_bad_wrap : ∃ cs z, swt (ramp 3) lazy4 (some 2) .none = .ok cs ∧
    iswt cs lazy4 .none = .ok z ∧ z.get [2] = 7 / 4 ∧ (ramp 3).get [2] = 2 := by
  have h : (match swt (ramp 3) lazy4 (some 2) .none with
      | .ok cs => match iswt cs lazy4 .none with
        | .ok z => z.get [2]
        | .error _ => 0
      | .error _ => 0) = 7 / 4 := by decide +kernel
  cases hs : swt (ramp 3) lazy4 (some 2) .none with
  | error e => rw [hs] at h; exact absurd h (by norm_num)
  | ok cs =>
    rw [hs] at h
    simp only at h
    cases hz : iswt cs lazy4 .none with
    | error e => rw [hz] at h; exact absurd h (by norm_num)
    | ok z =>
      rw [hz] at h
      exact ⟨cs, z, rfl, hz, h, by decide +kernel⟩

/-! ### The hypotheses are met -/

theorem exS_axes : GoodAxes (.int (-2)) (ofFn ⟨.float64, 0⟩ [6, 2] fun i => (i.getD 0 0 : ℚ)).rank 1 :=
  ⟨le_rfl, rfl, ⟨by
    intro a ha
    simp only [resolve, List.mem_singleton] at ha
    subst ha
    exact ⟨by decide, by decide⟩, by decide⟩⟩

/-- A batch of signals of length 6, level 2 along axis 0 with a bank of length 4. -/
example : ∃ cs, swt (ofFn ⟨.float64, 0⟩ [6, 2] fun i => (i.getD 0 0 : ℚ)) lazy4 (some 2) (.int (-2))
    = .ok cs ∧ iswt cs lazy4 (.int (-2)) = .ok (ofFn ⟨.float64, 0⟩ [6, 2] fun i => (i.getD 0 0 : ℚ)) :=
  c23_perfect_reconstruction _ lazy4 4 (some 2) _ lazy4_pr.len lazy4_pr.noDistortion (by decide)
    (by decide) exS_axes (Or.inr rfl) (by decide) (c23_divides 6 4 2 (by decide))

/-- A short filter: level 2 on a signal of odd length. -/
example : WrapOk 5 4 2 := by
  intro s hs
  left
  have : s = 0 ∨ s = 1 := by omega
  rcases this with rfl | rfl <;> decide

end Verif.Props
