/-
Properties C15–C18 and the several-axes part of C48: the two- and three-dimensional convolution
transforms `wavedec2` / `waverec2` (src/ptwt/conv_transform_2.py) and `wavedec3` / `waverec3`
(src/ptwt/conv_transform_3.py).
-/
import Verif.Lemmas.TopNd
import Verif.Props.Conv1

namespace Verif.Props
open Tensor Spec
variable {R : Type}

/-! ### C16: `wavedec2` returns textbook coefficients with the documented orientation -/

theorem wavedec2_ok [Semiring R] {x : Tensor R} {w : Wavelet R} {mode : Option String} {level : Option Int}
    {axes : AxisHint} {c : Coeffs R} (hF : 2 ≤ w.len) (hhi : w.decHi.length = w.len)
    (hc : wavedec2 x w mode level axes = .ok c) :
    GoodAxes axes x.rank 2 ∧ isDtypeSupported x.md.dtype = true ∧
    ∃ m : Mode, (Selects mode m ∨ levelsN level w.len (sizes (axesOf axes x.rank 2) x.shape) = 0) ∧
      LevelsAdmit m w.len (sizes (axesOf axes x.rank 2) x.shape)
        (levelsN level w.len (sizes (axesOf axes x.rank 2) x.shape)) ∧
      IsDwt2 m w (axesOf axes x.rank 2) (levelsN level w.len (sizes (axesOf axes x.rank 2) x.shape)) x c := by
  obtain ⟨h1, h2⟩ := wavedec2_char (mode := mode) (x := x) (level := level) (h := axes) hF hhi
  have hg : GoodAxes axes x.rank 2 ∧ isDtypeSupported x.md.dtype = true := by
    by_contra hg
    obtain ⟨e, he⟩ := h1 hg
    rw [he] at hc; cases hc
  refine ⟨hg.1, hg.2, ?_⟩
  obtain ⟨h3, h4, h5, h6⟩ := h2 hg.1 hg.2
  by_cases hL : levelsN level w.len (sizes (axesOf axes x.rank 2) x.shape) = 0
  · obtain ⟨c', e, hd⟩ := h3 hL .zero
    rw [e] at hc; cases hc
    exact ⟨.zero, Or.inr hL, fun s hs => absurd hs (by rw [hL]; exact Nat.not_lt_zero s), hd⟩
  · by_cases hm : ∃ m, Selects mode m
    · obtain ⟨m, hm⟩ := hm
      have ha := h5 m c hm hc
      obtain ⟨c', e, hd⟩ := h4 m hm ha
      rw [e] at hc; cases hc
      exact ⟨m, Or.inl hm, ha, hd⟩
    · push Not at hm
      rw [h6 (Nat.pos_of_ne_zero hL) hm] at hc; cases hc

/-- **C16.** Whenever `wavedec2` succeeds it returns the textbook coefficients of the extension its mode
names: a tuple of the approximation and one `(horizontal, vertical, diagonal)` triple per level, coarsest
first, computed plane by plane along the two chosen axes. -/
theorem c16_wavedec2_textbook [Semiring R] (x : Tensor R) (w : Wavelet R)
    (mode : Option String) (level : Option Int) (axes : AxisHint) (c : Coeffs R)
    (hF : 2 ≤ w.len) (hhi : w.decHi.length = w.len)
    (hc : wavedec2 x w mode level axes = .ok c) :
    ∃ m : Mode, (Selects mode m ∨ levelsN level w.len (sizes (axesOf axes x.rank 2) x.shape) = 0) ∧
      IsDwt2 m w (axesOf axes x.rank 2)
        (levelsN level w.len (sizes (axesOf axes x.rank 2) x.shape)) x c := by
  obtain ⟨-, -, m, h1, -, h3⟩ := wavedec2_ok hF hhi hc
  exact ⟨m, h1, h3⟩

/-- **C16, orientation.** The finest level of `wavedec2` in closed form: the horizontal details are the
high-pass analysis along the first axis of the low-pass analysis along the second axis, the vertical
details the reverse, the diagonal details high pass along both. -/
theorem c16_orientation [Semiring R] (x : Tensor R) (w : Wavelet R)
    (mode : Option String) (m : Mode) (level : Option Int) (axes : AxisHint) (c : Coeffs R) (a b : Nat)
    (hF : 2 ≤ w.len) (hhi : w.decHi.length = w.len) (hm : Selects mode m)
    (hab : axesOf axes x.rank 2 = [a, b]) (hlen : 2 ≤ c.items.length)
    (hc : wavedec2 x w mode level axes = .ok c) :
    ∃ h v d, c.items.getLast? = some (.tuple h v d) ∧
      (h.shape = (x.shape.set a (outLen w.len (x.shape.getD a 0))).set b (outLen w.len (x.shape.getD b 0)) ∧
        v.shape = h.shape ∧ d.shape = h.shape) ∧
      ∀ idx, InB h.shape idx →
        (h.get idx = dwtStep m w.decHi (x.shape.getD a 0) (fun i =>
          dwtStep m w.decLo (x.shape.getD b 0) (fun j => x.get ((idx.set a i).set b j)) (idx.getD b 0))
            (idx.getD a 0)) ∧
        (v.get idx = dwtStep m w.decLo (x.shape.getD a 0) (fun i =>
          dwtStep m w.decHi (x.shape.getD b 0) (fun j => x.get ((idx.set a i).set b j)) (idx.getD b 0))
            (idx.getD a 0)) ∧
        (d.get idx = dwtStep m w.decHi (x.shape.getD a 0) (fun i =>
          dwtStep m w.decHi (x.shape.getD b 0) (fun j => x.get ((idx.set a i).set b j)) (idx.getD b 0))
            (idx.getD a 0)) := by
  obtain ⟨-, -, m', h1, -, h3⟩ := wavedec2_ok hF hhi hc
  have hl := h3.length
  set L := levelsN level w.len (sizes (axesOf axes x.rank 2) x.shape) with hL
  have hL0 : 0 < L := by omega
  have hmm : m' = m := by
    rcases h1 with h1 | h1
    · exact selects_unique h1 hm
    · omega
  subst hmm
  obtain ⟨e, he, h, v, d, rfl, hh, hv, hd⟩ := h3.detail 0 hL0
  rw [hab] at hh hv hd
  refine ⟨h, v, d, ?_, ⟨hh.shape, by rw [hv.shape, hh.shape], by rw [hd.shape, hh.shape]⟩, ?_⟩
  · rw [List.getLast?_eq_getElem?, hl]
    simpa using he
  · intro idx hidx
    refine ⟨hh.get idx hidx, hv.get idx (by rw [hv.shape, ← hh.shape]; exact hidx),
      hd.get idx (by rw [hd.shape, ← hh.shape]; exact hidx)⟩

/-- **C16.** `wavedec2` succeeds exactly if the axes and the dtype are legal and no level meets a size
too short for the boundary mode along one of the two axes. -/
theorem c16_wavedec2_succeeds_iff [Semiring R] (x : Tensor R) (w : Wavelet R)
    (mode : Option String) (m : Mode) (level : Option Int) (axes : AxisHint)
    (hm : Selects mode m) (hF : 2 ≤ w.len) (hhi : w.decHi.length = w.len) :
    (∃ c, wavedec2 x w mode level axes = .ok c) ↔
      GoodAxes axes x.rank 2 ∧ (x.md.dtype = .float32 ∨ x.md.dtype = .float64) ∧
      LevelsAdmit m w.len (sizes (axesOf axes x.rank 2) x.shape)
        (levelsN level w.len (sizes (axesOf axes x.rank 2) x.shape)) := by
  have hdt : isDtypeSupported x.md.dtype = true ↔ (x.md.dtype = .float32 ∨ x.md.dtype = .float64) := by
    unfold isDtypeSupported; simp
  rw [← hdt]
  obtain ⟨h1, h2⟩ := wavedec2_char (mode := mode) (x := x) (level := level) (h := axes) hF hhi
  constructor
  · rintro ⟨c, hc⟩
    obtain ⟨hg, hd, -⟩ := wavedec2_ok hF hhi hc
    exact ⟨hg, hd, (h2 hg hd).2.2.1 m c hm hc⟩
  · rintro ⟨hg, hd, ha⟩
    obtain ⟨c, e, -⟩ := (h2 hg hd).2.1 m hm ha
    exact ⟨c, e⟩

/-- **C16.** An unknown mode string is a ValueError as soon as a level is computed. -/
theorem c16_unknown_mode [Semiring R] (x : Tensor R) (w : Wavelet R)
    (mode : Option String) (level : Option Int) (axes : AxisHint)
    (hm : ∀ m, ¬ Selects mode m) (hF : 2 ≤ w.len) (hhi : w.decHi.length = w.len)
    (hg : GoodAxes axes x.rank 2) (hdt : x.md.dtype = .float32 ∨ x.md.dtype = .float64)
    (hL : 0 < levelsN level w.len (sizes (axesOf axes x.rank 2) x.shape)) :
    wavedec2 x w mode level axes = .error .valueError := by
  have hd : isDtypeSupported x.md.dtype = true := by unfold isDtypeSupported; simpa using hdt
  obtain ⟨-, h2⟩ := wavedec2_char (mode := mode) (x := x) (level := level) (h := axes) hF hhi
  exact (h2 hg hd).2.2.2 hL hm

/-- An example image of odd sizes inside a batch, transformed along axes 0 and 2, the last one first. -/
def exI : Tensor ℚ := ofFn ⟨.float64, 0⟩ [3, 2, 5] fun i =>
  (i.getD 0 0 : ℚ) + 10 * (i.getD 1 0 : ℚ) + 100 * (i.getD 2 0 : ℚ)

theorem exI_axes : GoodAxes (.seq [2, -3]) exI.rank 2 :=
  ⟨by decide, rfl, ⟨by
    intro a ha
    simp only [resolve, List.mem_cons, List.not_mem_nil, or_false] at ha
    rcases ha with rfl | rfl <;> exact ⟨by decide, by decide⟩, by decide⟩⟩

theorem ex_wavedec2 : ∃ c, wavedec2 exI haar (some "symmetric") (some 2) (.seq [2, -3]) = .ok c := by
  refine (c16_wavedec2_succeeds_iff exI haar _ .symmetric _ _ (Or.inl rfl) (by decide) rfl).mpr
    ⟨exI_axes, Or.inr rfl, ?_⟩
  have hs : sizes (axesOf (.seq [2, -3]) exI.rank 2) exI.shape = [5, 3] := rfl
  rw [hs]
  intro s _ k hk
  simp only [levelLens, List.map_cons, List.map_nil, List.mem_cons, List.not_mem_nil, or_false] at hk
  rcases hk with rfl | rfl
  · exact levelLen_pos (by decide) (by decide) s
  · exact levelLen_pos (by decide) (by decide) s

/-! ### C15: perfect reconstruction in two dimensions -/

/-- What a perfect reconstruction `z` of `x` along the axes `ax` is: the same tensor if no level was
computed or all transformed sizes are even, otherwise one more sample along every odd axis; the samples
of `x` come back unchanged. -/
structure Reconstructs [Zero R] (ax : List Nat) (levels : Nat) (x z : Tensor R) : Prop where
  md : z.md = x.md
  zero_levels : levels = 0 → z = x
  even : (∀ a ∈ ax, x.shape.getD a 0 % 2 = 0) → z = x
  shape : 0 < levels → z.shape = setMany x.shape ax (ax.map fun a => x.shape.getD a 0 + x.shape.getD a 0 % 2)
  get : ∀ idx, InB x.shape idx → z.get idx = x.get idx

theorem setMany_self : ∀ (l ax : List Nat), (∀ a ∈ ax, a < l.length) →
    setMany l ax (ax.map fun a => l.getD a 0) = l := by
  have key : ∀ (ax l l' : List Nat), (∀ a ∈ ax, a < l.length) → l' = l →
      setMany l' ax (ax.map fun a => l.getD a 0) = l := by
    intro ax
    induction ax with
    | nil => intro l l' _ h; exact h
    | cons a ax ih =>
      intro l l' hlt h
      subst h
      show setMany (l'.set a (l'.getD a 0)) ax _ = l'
      exact ih l' _ (fun b hb => hlt b (List.mem_cons_of_mem a hb))
        (set_getD_self (hlt a List.mem_cons_self))
  exact fun l ax h => key ax l l h rfl

theorem reconstructs_of [CommSemiring R] {axes : AxisHint} {n L : Nat} {m : Mode} {x z : Tensor R}
    (hg : GoodAxes axes x.rank n) (h0 : L = 0 → z = x)
    (h1 : 0 < L → AlongAxes (axesOf axes x.rank n)
        ((sizes (axesOf axes x.rank n) x.shape).map fun k => k + k % 2)
        (fun X ks => extN m (sizes (axesOf axes x.rank n) x.shape) X (ks.map fun (k : Nat) => (k : ℤ))) x z) :
    Reconstructs (axesOf axes x.rank n) L x z := by
  have hlt : ∀ a ∈ axesOf axes x.rank n, a < x.rank := hg.lt
  have hnd : (axesOf axes x.rank n).Nodup := hg.nodup
  rcases Nat.eq_zero_or_pos L with h | h
  · rw [h0 h]
    exact ⟨rfl, fun _ => rfl, fun _ => rfl, fun hp => by omega, fun _ _ => rfl⟩
  · have hz := h1 h
    have hs : z.shape = setMany x.shape (axesOf axes x.rank n) ((axesOf axes x.rank n).map
        fun a => x.shape.getD a 0 + x.shape.getD a 0 % 2) := by
      rw [hz.shape]
      unfold sizes
      rw [List.map_map]
      rfl
    refine ⟨hz.md, fun hp => by omega, ?_, fun _ => hs, alongAxes_ext hnd hlt hz⟩
    intro heven
    have hs' : z.shape = x.shape := by
      rw [hs]
      have : ((axesOf axes x.rank n).map fun a => x.shape.getD a 0 + x.shape.getD a 0 % 2)
          = (axesOf axes x.rank n).map fun a => x.shape.getD a 0 := by
        apply List.map_congr_left
        intro a ha
        rw [heven a ha, Nat.add_zero]
      rw [this, setMany_self _ _ hlt]
    apply Tensor.ext' hz.md hs'
    intro idx hidx
    exact alongAxes_ext hnd hlt hz idx (by rw [← hs']; exact hidx)

/-- **C15.** Whenever `wavedec2` succeeds with an even-length perfect reconstruction bank, `waverec2`
succeeds on its result and returns the input, with at most one more row and column. -/
theorem c15_perfect_reconstruction [Field R] [CharZero R] (x : Tensor R) (w : Wavelet R) (F : Nat)
    (mode : Option String) (level : Option Int) (axes : AxisHint) (c : Coeffs R)
    (hw : PRBank w F) (hF : 2 ≤ F) (he : F % 2 = 0)
    (hc : wavedec2 x w mode level axes = .ok c) :
    ∃ z, waverec2 c w axes = .ok z ∧
      Reconstructs (axesOf axes x.rank 2) (c.items.length - 1) x z := by
  have hFw : w.len = F := hw.len.1
  have hhi : w.decHi.length = w.len := by rw [hFw]; exact hw.len.2.1
  obtain ⟨hg, hd, m, -, ha, hdwt⟩ := wavedec2_ok (by omega) hhi hc
  have hl := hdwt.length
  rw [hFw] at ha hdwt hl
  obtain ⟨z, ez, hz0, hz1⟩ := waverec2_isDwt hw hF he hg hd ha hdwt
  refine ⟨z, ez, ?_⟩
  rw [hl, Nat.add_sub_cancel]
  exact reconstructs_of hg hz0 hz1

/-- The hypotheses of C15 and C16 are met: two Haar levels along axes 2 and 0 of a batch of odd-sized
images. -/
example : ∃ c z, wavedec2 exI haar (some "symmetric") (some 2) (.seq [2, -3]) = .ok c ∧
    waverec2 c haar (.seq [2, -3]) = .ok z ∧ z.shape = [4, 2, 6] := by
  obtain ⟨c, hc⟩ := ex_wavedec2
  obtain ⟨z, h1, h2⟩ := c15_perfect_reconstruction exI haar 2 _ _ _ c haar_pr (by decide) rfl hc
  refine ⟨c, z, hc, h1, h2.shape ?_⟩
  obtain ⟨m, -, hd⟩ := c16_wavedec2_textbook exI haar _ _ _ c (by decide) rfl hc
  rw [hd.length]
  exact (by decide : 0 < levelsN (some 2) haar.len
    (sizes (axesOf (.seq [2, -3]) exI.rank 2) exI.shape) + 1 - 1)

/-- The smallest automatic level over several axes. -/
theorem autoLevelN_spec (F : Nat) (hF : 2 ≤ F) : ∀ (ns : List Nat), ns ≠ [] →
    ((∃ n ∈ ns, n < F - 1) → autoLevelN F ns = 0) ∧
    ((∀ n ∈ ns, F - 1 ≤ n) → ∀ n ∈ ns, (F - 1) * 2 ^ autoLevelN F ns ≤ n) ∧
    ∀ L, (∀ n ∈ ns, (F - 1) * 2 ^ L ≤ n) → L ≤ autoLevelN F ns := by
  have one : ∀ n, (n < F - 1 → autoLevel F n = 0) ∧ (F - 1 ≤ n → (F - 1) * 2 ^ autoLevel F n ≤ n) ∧
      ∀ L, (F - 1) * 2 ^ L ≤ n → L ≤ autoLevel F n := by
    intro n
    obtain ⟨L, h1, h2, h3, h4⟩ := c48_auto_level F n hF
    rw [autoLevel_eq hF] at h1
    cases h1
    exact ⟨h2, h3, h4⟩
  intro ns
  induction ns with
  | nil => intro h; exact absurd rfl h
  | cons n ns ih =>
    intro _
    obtain ⟨o1, o2, o3⟩ := one n
    cases ns with
    | nil =>
      refine ⟨?_, ?_, ?_⟩
      · rintro ⟨k, hk, hlt⟩
        simp only [List.mem_singleton] at hk; subst hk
        exact o1 hlt
      · intro h k hk
        simp only [List.mem_singleton] at hk; subst hk
        exact o2 (h k (by simp))
      · intro L h
        exact o3 L (h n (by simp))
    | cons n' ns =>
      obtain ⟨i1, i2, i3⟩ := ih (by simp)
      have e : autoLevelN F (n :: n' :: ns) = min (autoLevel F n) (autoLevelN F (n' :: ns)) := rfl
      rw [e]
      refine ⟨?_, ?_, ?_⟩
      · rintro ⟨k, hk, hlt⟩
        rcases List.mem_cons.mp hk with rfl | hk
        · rw [o1 hlt, Nat.zero_min]
        · rw [i1 ⟨k, hk, hlt⟩, Nat.min_zero]
      · intro h k hk
        rcases List.mem_cons.mp hk with rfl | hk'
        · exact le_trans (Nat.mul_le_mul_left _ (Nat.pow_le_pow_right (by omega) (Nat.min_le_left _ _)))
            (o2 (h k hk))
        · exact le_trans (Nat.mul_le_mul_left _ (Nat.pow_le_pow_right (by omega) (Nat.min_le_right _ _)))
            (i2 (fun q hq => h q (List.mem_cons_of_mem _ hq)) k hk')
      · intro L h
        exact le_min (o3 L (h n List.mem_cons_self)) (i3 L fun q hq => h q (List.mem_cons_of_mem _ hq))

/-! ### C17, C18: three dimensions -/

theorem wavedec3_ok [Semiring R] {x : Tensor R} {w : Wavelet R} {mode : Option String} {level : Option Int}
    {axes : AxisHint} {c : Coeffs R} (hF : 2 ≤ w.len) (hhi : w.decHi.length = w.len)
    (hL : 0 < levelsN level w.len (sizes (axesOf axes x.rank 3) x.shape))
    (hc : wavedec3 x w mode level axes = .ok c) :
    GoodAxes axes x.rank 3 ∧ isDtypeSupported x.md.dtype = true ∧
    ∃ m : Mode, Selects mode m ∧
      LevelsAdmit m w.len (sizes (axesOf axes x.rank 3) x.shape)
        (levelsN level w.len (sizes (axesOf axes x.rank 3) x.shape)) ∧
      IsDwt3 m w (axesOf axes x.rank 3) (levelsN level w.len (sizes (axesOf axes x.rank 3) x.shape)) x c := by
  obtain ⟨h1, h2⟩ := wavedec3_char (mode := mode) (x := x) (level := level) (h := axes) hF hhi
  have hg : GoodAxes axes x.rank 3 ∧ isDtypeSupported x.md.dtype = true := by
    by_contra hg
    obtain ⟨e, he⟩ := h1 hg
    rw [he] at hc; cases hc
  refine ⟨hg.1, hg.2, ?_⟩
  obtain ⟨h4, h5, h6⟩ := h2 hg.1 hg.2 hL
  by_cases hm : ∃ m, Selects mode m
  · obtain ⟨m, hm⟩ := hm
    have ha := h5 m c hm hc
    obtain ⟨c', e, hd⟩ := h4 m hm ha
    rw [e] at hc; cases hc
    exact ⟨m, hm, ha, hd⟩
  · push Not at hm
    rw [h6 hm] at hc; cases hc

/-- **C18.** Whenever `wavedec3` computes at least one level and succeeds, it returns the textbook
coefficients of the extension its mode names: the approximation and per level, coarsest first, a
dictionary with exactly the keys `aad, ada, add, daa, dad, dda, ddd`, whose `i`-th letter tells the
filter along the `i`-th axis. -/
theorem c18_wavedec3_textbook [Semiring R] (x : Tensor R) (w : Wavelet R)
    (mode : Option String) (level : Option Int) (axes : AxisHint) (c : Coeffs R)
    (hF : 2 ≤ w.len) (hhi : w.decHi.length = w.len)
    (hL : 0 < levelsN level w.len (sizes (axesOf axes x.rank 3) x.shape))
    (hc : wavedec3 x w mode level axes = .ok c) :
    ∃ m : Mode, Selects mode m ∧ IsDwt3 m w (axesOf axes x.rank 3)
        (levelsN level w.len (sizes (axesOf axes x.rank 3) x.shape)) x c := by
  obtain ⟨-, -, m, h1, -, h3⟩ := wavedec3_ok hF hhi hL hc
  exact ⟨m, h1, h3⟩

/-- **C18.** `wavedec3` with at least one level succeeds exactly if the axes and the dtype are legal and
no level meets a size too short for the boundary mode along one of the three axes. -/
theorem c18_wavedec3_succeeds_iff [Semiring R] (x : Tensor R) (w : Wavelet R)
    (mode : Option String) (m : Mode) (level : Option Int) (axes : AxisHint)
    (hm : Selects mode m) (hF : 2 ≤ w.len) (hhi : w.decHi.length = w.len)
    (hL : 0 < levelsN level w.len (sizes (axesOf axes x.rank 3) x.shape)) :
    (∃ c, wavedec3 x w mode level axes = .ok c) ↔
      GoodAxes axes x.rank 3 ∧ (x.md.dtype = .float32 ∨ x.md.dtype = .float64) ∧
      LevelsAdmit m w.len (sizes (axesOf axes x.rank 3) x.shape)
        (levelsN level w.len (sizes (axesOf axes x.rank 3) x.shape)) := by
  have hdt : isDtypeSupported x.md.dtype = true ↔ (x.md.dtype = .float32 ∨ x.md.dtype = .float64) := by
    unfold isDtypeSupported; simp
  rw [← hdt]
  obtain ⟨h1, h2⟩ := wavedec3_char (mode := mode) (x := x) (level := level) (h := axes) hF hhi
  constructor
  · rintro ⟨c, hc⟩
    obtain ⟨hg, hd, -⟩ := wavedec3_ok hF hhi hL hc
    exact ⟨hg, hd, (h2 hg hd hL).2.1 m c hm hc⟩
  · rintro ⟨hg, hd, ha⟩
    obtain ⟨c, e, -⟩ := (h2 hg hd hL).1 m hm ha
    exact ⟨c, e⟩

/-- **C17.** Whenever `wavedec3` computes at least one level and succeeds with an even-length perfect
reconstruction bank, `waverec3` succeeds on its result and returns the input, with at most one more
sample along every odd axis. -/
theorem c17_perfect_reconstruction [Field R] [CharZero R] (x : Tensor R) (w : Wavelet R) (F : Nat)
    (mode : Option String) (level : Option Int) (axes : AxisHint) (c : Coeffs R)
    (hw : PRBank w F) (hF : 2 ≤ F) (he : F % 2 = 0)
    (hL : 0 < levelsN level F (sizes (axesOf axes x.rank 3) x.shape))
    (hc : wavedec3 x w mode level axes = .ok c) :
    ∃ z, waverec3 c w axes = .ok z ∧
      Reconstructs (axesOf axes x.rank 3) (c.items.length - 1) x z := by
  have hFw : w.len = F := hw.len.1
  have hhi : w.decHi.length = w.len := by rw [hFw]; exact hw.len.2.1
  obtain ⟨hg, hd, m, -, ha, hdwt⟩ := wavedec3_ok (by omega) hhi (by rw [hFw]; exact hL) hc
  have hl := hdwt.length
  rw [hFw] at ha hdwt hl
  obtain ⟨z, ez, hz0, hz1⟩ := waverec3_isDwt hw hF he hg hd ha hdwt
  refine ⟨z, ez, ?_⟩
  rw [hl, Nat.add_sub_cancel]
  exact reconstructs_of hg hz0 hz1

/-- An example volume, transformed along all three axes in the order 1, 2, 0. -/
def exV : Tensor ℚ := ofFn ⟨.float32, 1⟩ [3, 2, 5] fun i =>
  (i.getD 0 0 : ℚ) + 10 * (i.getD 1 0 : ℚ) + 100 * (i.getD 2 0 : ℚ)

theorem exV_axes : GoodAxes (.seq [1, -1, 0]) exV.rank 3 :=
  ⟨by decide, rfl, ⟨by
    intro a ha
    simp only [resolve, List.mem_cons, List.not_mem_nil, or_false] at ha
    rcases ha with rfl | rfl | rfl <;> exact ⟨by decide, by decide⟩, by decide⟩⟩

theorem ex_wavedec3 : ∃ c, wavedec3 exV haar (some "constant") (some 2) (.seq [1, -1, 0]) = .ok c := by
  refine (c18_wavedec3_succeeds_iff exV haar _ .constant _ _ (Or.inl rfl) (by decide) rfl
    (by decide)).mpr ⟨exV_axes, Or.inl rfl, ?_⟩
  have hs : sizes (axesOf (.seq [1, -1, 0]) exV.rank 3) exV.shape = [2, 5, 3] := rfl
  rw [hs]
  intro s _ k hk
  simp only [levelLens, List.map_cons, List.map_nil, List.mem_cons, List.not_mem_nil, or_false] at hk
  rcases hk with rfl | rfl | rfl
  · exact levelLen_pos (by decide) (by decide) s
  · exact levelLen_pos (by decide) (by decide) s
  · exact levelLen_pos (by decide) (by decide) s

/-- The hypotheses of C17 and C18 are met: two Haar levels along three odd and even axes. -/
example : ∃ c z, wavedec3 exV haar (some "constant") (some 2) (.seq [1, -1, 0]) = .ok c ∧
    waverec3 c haar (.seq [1, -1, 0]) = .ok z ∧ z.shape = [4, 2, 6] := by
  obtain ⟨c, hc⟩ := ex_wavedec3
  obtain ⟨z, h1, h2⟩ := c17_perfect_reconstruction exV haar 2 _ _ _ c haar_pr (by decide) rfl
    (by decide) hc
  refine ⟨c, z, hc, h1, h2.shape ?_⟩
  obtain ⟨m, -, hd⟩ := c18_wavedec3_textbook exV haar _ _ _ c (by decide) rfl (by decide) hc
  rw [hd.length]
  exact (by decide : 0 < levelsN (some 2) haar.len
    (sizes (axesOf (.seq [1, -1, 0]) exV.rank 3) exV.shape) + 1 - 1)

/-! ### C18, level 0 -/

theorem goodAxes_none {r n : Nat} (hn : 1 ≤ n) (h : n ≤ r) : GoodAxes .none r n := by
  refine ⟨hn, by simp [resolve], ?_, ?_⟩
  · intro a ha
    simp only [resolve, List.mem_map, List.mem_range] at ha
    obtain ⟨k, hk, rfl⟩ := ha
    constructor <;> omega
  · have : ((resolve .none n).map (axisOf r)) = (List.range n).map fun k => (r - n) + k := by
      simp only [resolve, List.map_map]
      apply List.map_congr_left
      intro k hk
      rw [List.mem_range] at hk
      simp only [Function.comp, axisOf]
      rw [if_pos (by omega)]
      omega
    rw [this]
    exact List.nodup_range.map (fun a b h => by simpa using h)

theorem wavedec3_level_zero [Semiring R] {x : Tensor R} {w : Wavelet R} {mode : Option String}
    {level : Option Int} (hdt : isDtypeSupported x.md.dtype = true) (hF : 2 ≤ w.len)
    (hhi : w.decHi.length = w.len) (h3 : 3 ≤ x.rank)
    (hL : levelsN level w.len (sizes (axesOf .none x.rank 3) x.shape) = 0) :
    ∃ y, wavedec3 x w mode level .none =
        postprocessCoeffs ⟨false, [.tensor (withChannel y)]⟩ 3 x.shape .none ∧
      Folded (axesOf .none x.rank 3) x y := by
  have hg : GoodAxes .none x.rank 3 := goodAxes_none (by omega) h3
  obtain ⟨y, filt, e, hy, -, -⟩ := wavedec3_unfold (level := level) hg hdt hF hhi mode
  refine ⟨y, ?_, hy⟩
  rw [e, hL]
  have : pick (batchAxes x.rank (axesOf .none x.rank 3) ++ axesOf .none x.rank 3) x.shape = x.shape := by
    have := default_perm (r := x.rank) (n := 3) h3
    unfold axesOf
    show pick (batchAxes x.rank ((resolve .none 3).map (axisOf x.rank)) ++ (resolve .none 3).map (axisOf x.rank))
      x.shape = _
    rw [show resolve .none 3 = (List.range 3).map fun (k : Nat) => (k : Int) - ((3 : Nat) : Int) from rfl,
      this]
    exact pick_range _
  rw [this]
  rfl

/-- **C18, negative.** With zero levels `wavedec3` does not return the input: an unbatched volume comes
back with a leading axis of size 1, a batch of volumes with an axis of size 1 after the batch axis. -/
theorem c18_level_zero_wrong_shape [Semiring R] (x : Tensor R) (w : Wavelet R) (mode : Option String)
    (level : Option Int) (hdt : x.md.dtype = .float32 ∨ x.md.dtype = .float64)
    (hF : 2 ≤ w.len) (hhi : w.decHi.length = w.len)
    (hL : levelsN level w.len (sizes (axesOf .none x.rank 3) x.shape) = 0) :
    (∀ n1 n2 n3, x.shape = [n1, n2, n3] → ∃ t, wavedec3 x w mode level .none = .ok ⟨false, [.tensor t]⟩ ∧
      t.shape = [1, n1, n2, n3]) ∧
    (∀ B n1 n2 n3, x.shape = [B, n1, n2, n3] → ∃ t, wavedec3 x w mode level .none = .ok ⟨false, [.tensor t]⟩ ∧
      t.shape = [B, 1, n1, n2, n3]) := by
  have hd : isDtypeSupported x.md.dtype = true := by unfold isDtypeSupported; simpa using hdt
  constructor
  · intro n1 n2 n3 hs
    have hr : x.rank = 3 := by unfold Tensor.rank; rw [hs]; rfl
    obtain ⟨y, e, hy⟩ := wavedec3_level_zero (mode := mode) hd hF hhi (by omega) hL
    have hys : y.shape = [1, n1, n2, n3] := by
      rw [hy.shape, hr, hs]; rfl
    have hcs : (withChannel y).shape = [1, 1, n1, n2, n3] := by
      unfold withChannel; rw [hys]; rfl
    refine ⟨(withChannel y).squeeze0, ?_, ?_⟩
    · rw [e, hs]; rfl
    · unfold Tensor.squeeze0; rw [hcs]; rfl
  · intro B n1 n2 n3 hs
    have hr : x.rank = 4 := by unfold Tensor.rank; rw [hs]; rfl
    obtain ⟨y, e, hy⟩ := wavedec3_level_zero (mode := mode) hd hF hhi (by omega) hL
    have hys : y.shape = [B, n1, n2, n3] := by
      rw [hy.shape, hr, hs]
      show prodL [B] :: _ = _
      simp [prodL]
      rfl
    have hcs : (withChannel y).shape = [B, 1, n1, n2, n3] := by
      unfold withChannel; rw [hys]; rfl
    exact ⟨withChannel y, by rw [e, hs]; rfl, hcs⟩

/-- Level 0 is reached without asking for it: a short volume and `level=None`. -/
example : ∃ t, wavedec3 (ofFn ⟨.float32, 0⟩ [1, 4, 4] fun _ => (1 : ℚ)) oddBank none none .none
    = .ok ⟨false, [.tensor t]⟩ ∧ t.shape = [1, 1, 4, 4] :=
  (c18_level_zero_wrong_shape _ oddBank none none (Or.inl rfl) (by decide) rfl (by decide)).1 1 4 4 rfl

/-! ### C48 in several dimensions -/

/-- **C48.** With `level=None` `wavedec2` computes the largest number of levels that is automatic for
both axes. -/
theorem c48_wavedec2_auto [Semiring R] (x : Tensor R) (w : Wavelet R) (mode : Option String)
    (axes : AxisHint) (c : Coeffs R) (hF : 2 ≤ w.len) (hhi : w.decHi.length = w.len)
    (hc : wavedec2 x w mode none axes = .ok c) :
    ∃ L, c.items.length = L + 1 ∧
      ((∃ a ∈ axesOf axes x.rank 2, x.shape.getD a 0 < w.len - 1) → L = 0) ∧
      ((∀ a ∈ axesOf axes x.rank 2, w.len - 1 ≤ x.shape.getD a 0) →
        ∀ a ∈ axesOf axes x.rank 2, (w.len - 1) * 2 ^ L ≤ x.shape.getD a 0) ∧
      ∀ L', (∀ a ∈ axesOf axes x.rank 2, (w.len - 1) * 2 ^ L' ≤ x.shape.getD a 0) → L' ≤ L := by
  obtain ⟨hg, -, m, -, -, hd⟩ := wavedec2_ok hF hhi hc
  have hne : sizes (axesOf axes x.rank 2) x.shape ≠ [] := by
    intro h
    have := sizes_len hg
    rw [h] at this; cases this
  obtain ⟨h1, h2, h3⟩ := autoLevelN_spec w.len hF _ hne
  refine ⟨_, hd.length, ?_, ?_, ?_⟩
  · rintro ⟨a, ha, hlt⟩
    exact h1 ⟨_, List.mem_map.mpr ⟨a, ha, rfl⟩, hlt⟩
  · intro h a ha
    refine h2 ?_ _ (List.mem_map.mpr ⟨a, ha, rfl⟩)
    intro n hn
    obtain ⟨b, hb, rfl⟩ := List.mem_map.mp hn
    exact h b hb
  · intro L' h
    apply h3
    intro n hn
    obtain ⟨b, hb, rfl⟩ := List.mem_map.mp hn
    exact h b hb

/-- **C48.** The same for `wavedec3`, if that number is positive. -/
theorem c48_wavedec3_auto [Semiring R] (x : Tensor R) (w : Wavelet R) (mode : Option String)
    (axes : AxisHint) (c : Coeffs R) (hF : 2 ≤ w.len) (hhi : w.decHi.length = w.len)
    (hL : ∀ a ∈ axesOf axes x.rank 3, (w.len - 1) * 2 ≤ x.shape.getD a 0)
    (hc : wavedec3 x w mode none axes = .ok c) :
    ∃ L, c.items.length = L + 1 ∧
      (∀ a ∈ axesOf axes x.rank 3, (w.len - 1) * 2 ^ L ≤ x.shape.getD a 0) ∧
      ∀ L', (∀ a ∈ axesOf axes x.rank 3, (w.len - 1) * 2 ^ L' ≤ x.shape.getD a 0) → L' ≤ L := by
  have hg : GoodAxes axes x.rank 3 := by
    by_contra hg
    obtain ⟨e, he⟩ := (wavedec3_char (mode := mode) (x := x) (level := none) (h := axes) hF hhi).1
      (fun h => hg h.1)
    rw [he] at hc; cases hc
  have hne : sizes (axesOf axes x.rank 3) x.shape ≠ [] := by
    intro h
    have := sizes_len hg
    rw [h] at this; cases this
  obtain ⟨h1, h2, h3⟩ := autoLevelN_spec w.len hF _ hne
  have hpos : 0 < levelsN none w.len (sizes (axesOf axes x.rank 3) x.shape) := by
    refine h3 1 ?_
    intro n hn
    obtain ⟨b, hb, rfl⟩ := List.mem_map.mp hn
    simpa using hL b hb
  obtain ⟨-, -, m, -, -, hd⟩ := wavedec3_ok hF hhi hpos hc
  refine ⟨_, hd.length, ?_, ?_⟩
  · intro a ha
    refine h2 ?_ _ (List.mem_map.mpr ⟨a, ha, rfl⟩)
    intro n hn
    obtain ⟨b, hb, rfl⟩ := List.mem_map.mp hn
    have := hL b hb
    omega
  · intro L' h
    apply h3
    intro n hn
    obtain ⟨b, hb, rfl⟩ := List.mem_map.mp hn
    exact h b hb

end Verif.Props
