/-
C61: every line (plane, box) is transformed on its own.  The coefficients of a plane depend on nothing but the values of
that plane: not on the other planes of the batch, not on the rank and shape of the tensor, not on the position of the
transformed axes, not on dtype and device.
-/
import Verif.Lemmas.Slice
import Verif.Lemmas.Char1
import Verif.Lemmas.SepTop
import Verif.Lemmas.Energy
import Verif.Props.Conv1
import Verif.Props.Swt
import Verif.Props.RecGenN
import Verif.Props.RecGenSep
import Verif.Props.Packet2

namespace Verif.Props
open Tensor Spec
variable {R : Type}

/-- **C61.** `wavedec`: if a line of `x` and a line of `x'` agree, then all coefficients computed from these lines agree
(and `x'` is accepted if `x` is). -/
theorem c61_wavedec [NonUnitalNonAssocSemiring R] (x x' : Tensor R) (w : Wavelet R) (mode : Option String)
    (level : Option Int) (axis axis' : AxisHint) (hF : 2 ≤ w.len) (hhi : w.decHi.length = w.len)
    (hg' : GoodAxes axis' x'.rank 1) (hdt' : x'.md.dtype = .float32 ∨ x'.md.dtype = .float64)
    (idx idx' : List Nat) (ha : At x (axesOf axis x.rank 1) idx) (ha' : At x' (axesOf axis' x'.rank 1) idx')
    (hx : SamePlane (axesOf axis x.rank 1) (axesOf axis' x'.rank 1) idx idx' x x')
    (cs : List (Tensor R)) (hc : wavedec x w mode level axis = .ok cs) :
    ∃ cs', wavedec x' w mode level axis' = .ok cs' ∧
      List.Forall₂ (SamePlane (axesOf axis x.rank 1) (axesOf axis' x'.rank 1) idx idx') cs cs' := by
  have hd' : isDtypeSupported x'.md.dtype = true := by unfold isDtypeSupported; simpa using hdt'
  have key := wavedec_char (mode := mode) (x := x) (level := level) (h := axis) hF hhi
  have key' := wavedec_char (mode := mode) (x := x') (level := level) (h := axis') hF hhi
  dsimp only at key key'
  by_cases hgd : GoodAxes axis x.rank 1 ∧ isDtypeSupported x.md.dtype = true
  swap
  · obtain ⟨e, he⟩ := key.1 hgd
    rw [he] at hc; cases hc
  obtain ⟨hg, hd⟩ := hgd
  obtain ⟨k1, k2, k3, k4⟩ := key.2 hg hd
  obtain ⟨k1', k2', -, -⟩ := key'.2 hg' hd'
  have e1 := axesOf_one hg
  have e1' := axesOf_one hg'
  have hn : x.shape.getD (axis1 axis x.rank) 0 = x'.shape.getD (axis1 axis' x'.rank) 0 := by
    have := hx.sizes
    rw [e1, e1'] at this
    simpa [sizes] using this
  rw [← hn] at k1' k2'
  have fin : ∀ m cs', wavedec x' w mode level axis' = .ok cs' →
      IsDwt m w (axis1 axis x.rank) (levels level w.len (x.shape.getD (axis1 axis x.rank) 0)) x cs →
      IsDwt m w (axis1 axis' x'.rank) (levels level w.len (x.shape.getD (axis1 axis x.rank) 0)) x' cs' →
      ∃ cs', wavedec x' w mode level axis' = .ok cs' ∧
        List.Forall₂ (SamePlane (axesOf axis x.rank 1) (axesOf axis' x'.rank 1) idx idx') cs cs' := by
    intro m cs' hok h h'
    refine ⟨cs', hok, forall₂_of_getElem? (h.length.trans h'.length.symm) fun i t t' ht ht' => ?_⟩
    set L := levels level w.len (x.shape.getD (axis1 axis x.rank) 0) with hL
    have hi : i < L + 1 := by
      rw [← h.length]
      exact (List.getElem?_eq_some_iff.mp ht).1
    rcases Nat.eq_zero_or_pos i with rfl | h0
    · have p := alongAxes_of_axis (h.approx t ht)
      have p' := alongAxes_of_axis (h'.approx t' ht')
      rw [← hn, ← e1'] at p'
      rw [← e1] at p
      exact samePlane_along hg.nodup hg'.nodup hg.lt hg'.lt ha ha' (by rw [e1]; rfl) hx p p'
    · have p := alongAxes_of_axis (h.detail (L - i) t (by omega) (by rw [show L - (L - i) = i by omega]; exact ht))
      have p' := alongAxes_of_axis (h'.detail (L - i) t' (by omega) (by rw [show L - (L - i) = i by omega]; exact ht'))
      rw [← hn, ← e1'] at p'
      rw [← e1] at p
      exact samePlane_along hg.nodup hg'.nodup hg.lt hg'.lt ha ha' (by rw [e1]; rfl) hx p p'
  rcases Nat.eq_zero_or_pos (levels level w.len (x.shape.getD (axis1 axis x.rank) 0)) with hL | hL
  · obtain ⟨c1, q1, q2⟩ := k1 hL .zero
    obtain ⟨c2, q1', q2'⟩ := k1' hL .zero
    rw [hc] at q1; cases q1
    exact fin _ c2 q1' q2 q2'
  · by_cases hm : ∃ m, Selects mode m
    · obtain ⟨m, hm⟩ := hm
      have hadm : ∀ s, s < levels level w.len (x.shape.getD (axis1 axis x.rank) 0) →
          m.Admits w.len (levelLen w.len (x.shape.getD (axis1 axis x.rank) 0) s) := by
        by_contra hno
        push Not at hno
        rw [k3 m hm hno] at hc; cases hc
      obtain ⟨c1, q1, q2⟩ := k2 m hm hadm
      obtain ⟨c2, q1', q2'⟩ := k2' m hm hadm
      rw [hc] at q1; cases q1
      exact fin _ c2 q1' q2 q2'
    · rw [k4 hL (fun m h => hm ⟨m, h⟩)] at hc; cases hc

/-- **C61.** `swt`, if the wrap-around of all levels is harmless. -/
theorem c61_swt [NonUnitalNonAssocSemiring R] (x x' : Tensor R) (w : Wavelet R) (level : Option Int)
    (axis axis' : AxisHint) (hF : 2 ≤ w.len) (he : w.len % 2 = 0) (hhi : w.decHi.length = w.len)
    (hg : GoodAxes axis x.rank 1) (hdt : x.md.dtype = .float32 ∨ x.md.dtype = .float64)
    (hg' : GoodAxes axis' x'.rank 1) (hdt' : x'.md.dtype = .float32 ∨ x'.md.dtype = .float64)
    (hn0 : 0 < x.shape.getD (axis1 axis x.rank) 0)
    (hw : WrapOk (x.shape.getD (axis1 axis x.rank) 0) w.len (swtLevel level (x.shape.getD (axis1 axis x.rank) 0)))
    (idx idx' : List Nat) (ha : At x (axesOf axis x.rank 1) idx) (ha' : At x' (axesOf axis' x'.rank 1) idx')
    (hx : SamePlane (axesOf axis x.rank 1) (axesOf axis' x'.rank 1) idx idx' x x') :
    ∃ cs cs', swt x w level axis = .ok cs ∧ swt x' w level axis' = .ok cs' ∧
      List.Forall₂ (SamePlane (axesOf axis x.rank 1) (axesOf axis' x'.rank 1) idx idx') cs cs' := by
  have e1 := axesOf_one hg
  have e1' := axesOf_one hg'
  have hn : x.shape.getD (axis1 axis x.rank) 0 = x'.shape.getD (axis1 axis' x'.rank) 0 := by
    have := hx.sizes
    rw [e1, e1'] at this
    simpa [sizes] using this
  obtain ⟨cs, hok, h⟩ := c24_textbook x w level axis hg hdt hF he hhi hn0 hw
  obtain ⟨cs', hok', h'⟩ := c24_textbook x' w level axis' hg' hdt' hF he hhi (by rw [← hn]; exact hn0)
    (by rw [← hn]; exact hw)
  rw [← hn] at h'
  refine ⟨cs, cs', hok, hok', forall₂_of_getElem? (h.length.trans h'.length.symm) fun i t t' ht ht' => ?_⟩
  set L := swtLevel level (x.shape.getD (axis1 axis x.rank) 0) with hL
  have hi : i < L + 1 := by
    rw [← h.length]
    exact (List.getElem?_eq_some_iff.mp ht).1
  rcases Nat.eq_zero_or_pos i with rfl | h0
  · have p := alongAxes_of_axis (h.approx t ht)
    have p' := alongAxes_of_axis (h'.approx t' ht')
    rw [← hn, ← e1'] at p'
    rw [← e1] at p
    exact samePlane_along hg.nodup hg'.nodup hg.lt hg'.lt ha ha' (by rw [e1]; rfl) hx p p'
  · have p := alongAxes_of_axis (h.detail (L - i) t (by omega) (by rw [show L - (L - i) = i by omega]; exact ht))
    have p' := alongAxes_of_axis (h'.detail (L - i) t' (by omega) (by rw [show L - (L - i) = i by omega]; exact ht'))
    rw [← hn, ← e1'] at p'
    rw [← e1] at p
    exact samePlane_along hg.nodup hg'.nodup hg.lt hg'.lt ha ha' (by rw [e1]; rfl) hx p p'

/-- **C61.** `wavedec2`. -/
theorem c61_wavedec2 [Semiring R] (x x' : Tensor R) (w : Wavelet R) (mode : Option String)
    (level : Option Int) (axes axes' : AxisHint) (hF : 2 ≤ w.len) (hhi : w.decHi.length = w.len)
    (hg' : GoodAxes axes' x'.rank 2) (hdt' : x'.md.dtype = .float32 ∨ x'.md.dtype = .float64)
    (idx idx' : List Nat) (ha : At x (axesOf axes x.rank 2) idx) (ha' : At x' (axesOf axes' x'.rank 2) idx')
    (hx : SamePlane (axesOf axes x.rank 2) (axesOf axes' x'.rank 2) idx idx' x x')
    (c : Coeffs R) (hc : wavedec2 x w mode level axes = .ok c) :
    ∃ c', wavedec2 x' w mode level axes' = .ok c' ∧
      SameCoeffs (SamePlane (axesOf axes x.rank 2) (axesOf axes' x'.rank 2) idx idx') c c' := by
  have hd' : isDtypeSupported x'.md.dtype = true := by unfold isDtypeSupported; simpa using hdt'
  have key := wavedec2_char (mode := mode) (x := x) (level := level) (h := axes) hF hhi
  have key' := wavedec2_char (mode := mode) (x := x') (level := level) (h := axes') hF hhi
  dsimp only at key key'
  by_cases hgd : GoodAxes axes x.rank 2 ∧ isDtypeSupported x.md.dtype = true
  swap
  · obtain ⟨e, he⟩ := key.1 hgd
    rw [he] at hc; cases hc
  obtain ⟨hg, hd⟩ := hgd
  obtain ⟨k1, k2, k3, k4⟩ := key.2 hg hd
  obtain ⟨k1', k2', -, -⟩ := key'.2 hg' hd'
  rw [← hx.sizes] at k1' k2'
  rcases Nat.eq_zero_or_pos (levelsN level w.len (sizes (axesOf axes x.rank 2) x.shape)) with hL | hL
  · obtain ⟨c1, q1, q2⟩ := k1 hL .zero
    obtain ⟨c2, q1', q2'⟩ := k1' hL .zero
    rw [hc] at q1; cases q1
    exact ⟨c2, q1', isDwtN_slice sliceKind_tuple hg.nodup hg'.nodup hg.lt hg'.lt ha ha' hx q2 q2'⟩
  · by_cases hm : ∃ m, Selects mode m
    · obtain ⟨m, hm⟩ := hm
      have hadm := k3 m c hm hc
      obtain ⟨c1, q1, q2⟩ := k2 m hm hadm
      obtain ⟨c2, q1', q2'⟩ := k2' m hm hadm
      rw [hc] at q1; cases q1
      exact ⟨c2, q1', isDwtN_slice sliceKind_tuple hg.nodup hg'.nodup hg.lt hg'.lt ha ha' hx q2 q2'⟩
    · rw [k4 hL (fun m h => hm ⟨m, h⟩)] at hc; cases hc

/-- **C61.** `wavedec3`, for at least one level. -/
theorem c61_wavedec3 [Semiring R] (x x' : Tensor R) (w : Wavelet R) (mode : Option String)
    (level : Option Int) (axes axes' : AxisHint) (hF : 2 ≤ w.len) (hhi : w.decHi.length = w.len)
    (hg' : GoodAxes axes' x'.rank 3) (hdt' : x'.md.dtype = .float32 ∨ x'.md.dtype = .float64)
    (hL : 0 < levelsN level w.len (sizes (axesOf axes x.rank 3) x.shape))
    (idx idx' : List Nat) (ha : At x (axesOf axes x.rank 3) idx) (ha' : At x' (axesOf axes' x'.rank 3) idx')
    (hx : SamePlane (axesOf axes x.rank 3) (axesOf axes' x'.rank 3) idx idx' x x')
    (c : Coeffs R) (hc : wavedec3 x w mode level axes = .ok c) :
    ∃ c', wavedec3 x' w mode level axes' = .ok c' ∧
      SameCoeffs (SamePlane (axesOf axes x.rank 3) (axesOf axes' x'.rank 3) idx idx') c c' := by
  have hd' : isDtypeSupported x'.md.dtype = true := by unfold isDtypeSupported; simpa using hdt'
  have key := wavedec3_char (mode := mode) (x := x) (level := level) (h := axes) hF hhi
  have key' := wavedec3_char (mode := mode) (x := x') (level := level) (h := axes') hF hhi
  dsimp only at key key'
  by_cases hgd : GoodAxes axes x.rank 3 ∧ isDtypeSupported x.md.dtype = true
  swap
  · obtain ⟨e, he⟩ := key.1 hgd
    rw [he] at hc; cases hc
  obtain ⟨hg, hd⟩ := hgd
  obtain ⟨k2, k3, k4⟩ := key.2 hg hd hL
  obtain ⟨k2', -, -⟩ := key'.2 hg' hd' (by rw [← hx.sizes]; exact hL)
  rw [← hx.sizes] at k2'
  by_cases hm : ∃ m, Selects mode m
  · obtain ⟨m, hm⟩ := hm
    have hadm := k3 m c hm hc
    obtain ⟨c1, q1, q2⟩ := k2 m hm hadm
    obtain ⟨c2, q1', q2'⟩ := k2' m hm hadm
    rw [hc] at q1; cases q1
    exact ⟨c2, q1', isDwtN_slice (sliceKind_dict _) hg.nodup hg'.nodup hg.lt hg'.lt ha ha' hx q2 q2'⟩
  · rw [k4 (fun m h => hm ⟨m, h⟩)] at hc; cases hc

theorem fswavedecn_slice [Semiring R] {n : Nat} (hn : 1 ≤ n) (x x' : Tensor R) (w : Wavelet R) (mode : Option String)
    (level : Option Int) (axes axes' : AxisHint) (hF : 2 ≤ w.len) (hhi : w.decHi.length = w.len)
    (hg' : GoodAxes axes' x'.rank n) (hdt' : x'.md.dtype = .float32 ∨ x'.md.dtype = .float64)
    (idx idx' : List Nat) (ha : At x (axesOf axes x.rank n) idx) (ha' : At x' (axesOf axes' x'.rank n) idx')
    (hx : SamePlane (axesOf axes x.rank n) (axesOf axes' x'.rank n) idx idx' x x')
    (c : Coeffs R) (hc : fswavedecn x w n mode level axes = .ok c) :
    ∃ c', fswavedecn x' w n mode level axes' = .ok c' ∧
      SameCoeffs (SamePlane (axesOf axes x.rank n) (axesOf axes' x'.rank n) idx idx') c c' := by
  have hd' : isDtypeSupported x'.md.dtype = true := by unfold isDtypeSupported; simpa using hdt'
  have key := fswavedecn_char (mode := mode) (x := x) (level := level) (h := axes) hn hF hhi
  have key' := fswavedecn_char (mode := mode) (x := x') (level := level) (h := axes') hn hF hhi
  dsimp only at key key'
  by_cases hgd : GoodAxes axes x.rank n ∧ isDtypeSupported x.md.dtype = true
  swap
  · obtain ⟨e, he⟩ := key.1 hgd
    rw [he] at hc; cases hc
  obtain ⟨hg, hd⟩ := hgd
  by_cases hae : AutoEmpty level (sizes (axesOf axes x.rank n) x.shape)
  · rw [(key.2 hg hd).1 hae] at hc; cases hc
  obtain ⟨k1, k2, k3, k4⟩ := (key.2 hg hd).2 hae
  obtain ⟨k1', k2', -, -⟩ := (key'.2 hg' hd').2 (by rw [← hx.sizes]; exact hae)
  rw [← hx.sizes] at k1' k2'
  rcases Nat.eq_zero_or_pos (levelsN level w.len (sizes (axesOf axes x.rank n) x.shape)) with hL | hL
  · obtain ⟨c1, q1, q2⟩ := k1 hL .zero
    obtain ⟨c2, q1', q2'⟩ := k1' hL .zero
    rw [hc] at q1; cases q1
    exact ⟨c2, q1', isDwtN_slice (sliceKind_dict _) hg.nodup hg'.nodup hg.lt hg'.lt ha ha' hx q2 q2'⟩
  · by_cases hm : ∃ m, Selects mode m
    · obtain ⟨m, hm⟩ := hm
      have hadm := k3 m c hm hc
      obtain ⟨c1, q1, q2⟩ := k2 m hm hadm
      obtain ⟨c2, q1', q2'⟩ := k2' m hm hadm
      rw [hc] at q1; cases q1
      exact ⟨c2, q1', isDwtN_slice (sliceKind_dict _) hg.nodup hg'.nodup hg.lt hg'.lt ha ha' hx q2 q2'⟩
    · rw [k4 hL (fun m h => hm ⟨m, h⟩)] at hc; cases hc

/-- **C61.** `fswavedec2`. -/
theorem c61_fswavedec2 [Semiring R] (x x' : Tensor R) (w : Wavelet R) (mode : Option String)
    (level : Option Int) (axes axes' : AxisHint) (hF : 2 ≤ w.len) (hhi : w.decHi.length = w.len)
    (hg' : GoodAxes axes' x'.rank 2) (hdt' : x'.md.dtype = .float32 ∨ x'.md.dtype = .float64)
    (idx idx' : List Nat) (ha : At x (axesOf axes x.rank 2) idx) (ha' : At x' (axesOf axes' x'.rank 2) idx')
    (hx : SamePlane (axesOf axes x.rank 2) (axesOf axes' x'.rank 2) idx idx' x x')
    (c : Coeffs R) (hc : fswavedec2 x w mode level axes = .ok c) :
    ∃ c', fswavedec2 x' w mode level axes' = .ok c' ∧
      SameCoeffs (SamePlane (axesOf axes x.rank 2) (axesOf axes' x'.rank 2) idx idx') c c' :=
  fswavedecn_slice (by decide) x x' w mode level axes axes' hF hhi hg' hdt' idx idx' ha ha' hx c hc

/-- **C61.** `fswavedec3`. -/
theorem c61_fswavedec3 [Semiring R] (x x' : Tensor R) (w : Wavelet R) (mode : Option String)
    (level : Option Int) (axes axes' : AxisHint) (hF : 2 ≤ w.len) (hhi : w.decHi.length = w.len)
    (hg' : GoodAxes axes' x'.rank 3) (hdt' : x'.md.dtype = .float32 ∨ x'.md.dtype = .float64)
    (idx idx' : List Nat) (ha : At x (axesOf axes x.rank 3) idx) (ha' : At x' (axesOf axes' x'.rank 3) idx')
    (hx : SamePlane (axesOf axes x.rank 3) (axesOf axes' x'.rank 3) idx idx' x x')
    (c : Coeffs R) (hc : fswavedec3 x w mode level axes = .ok c) :
    ∃ c', fswavedec3 x' w mode level axes' = .ok c' ∧
      SameCoeffs (SamePlane (axesOf axes x.rank 3) (axesOf axes' x'.rank 3) idx idx') c c' :=
  fswavedecn_slice (by decide) x x' w mode level axes axes' hF hhi hg' hdt' idx idx' ha ha' hx c hc

theorem axes1_eq {axis : AxisHint} {S : List Nat} (hg : GoodAxes axis S.length 1) :
    axesOf axis S.length 1 = [axis1 axis S.length] := axesOf_one hg

/-- Equal lines. -/
theorem line_eq_of_same [Zero R] {a a' : Nat} {S S' idx idx' : List Nat} {t t' : Tensor R} {K K' : Nat}
    (hlt : a < S.length) (hlt' : a' < S'.length) (ht : t.shape = S.set a K) (ht' : t'.shape = S'.set a' K')
    (ha : AtS S [a] idx) (ha' : AtS S' [a'] idx') (h : SamePlane [a] [a'] idx idx' t t') :
    line t a idx = line t' a' idx' ∧ t.shape.getD a 0 = t'.shape.getD a' 0 := by
  have hr : t.rank = S.length := by rw [Tensor.rank, ht, List.length_set]
  have hr' : t'.rank = S'.length := by rw [Tensor.rank, ht', List.length_set]
  refine ⟨?_, by simpa [sizes] using h.sizes⟩
  have := plane_eq_of_same (by simp) (by simp) (by simpa [hr] using hlt) (by simpa [hr'] using hlt')
    (ha.at (Ks := [K]) ht) (ha'.at (Ks := [K']) ht') h
  funext k
  have := congrFun this [k]
  exact this

theorem line_set' [Zero R] {t : Tensor R} {a k : Nat} {idx : List Nat} : line t a (idx.set a k) = line t a idx := by
  funext j
  simp [line]

/-- A synthesis that works line by line takes equal lines to equal lines. -/
theorem samePlane_line [Zero R] {a a' : Nat} {S S' idx idx' : List Nat} {z z' : Tensor R} {K : Nat} {g : Nat → R}
    (hlt : a < S.length) (hlt' : a' < S'.length) (ha : AtS S [a] idx) (ha' : AtS S' [a'] idx')
    (zs : z.shape = S.set a K) (zs' : z'.shape = S'.set a' K)
    (zg : ∀ k, k < K → InB z.shape (idx.set a k) → z.get (idx.set a k) = g k)
    (zg' : ∀ k, k < K → InB z'.shape (idx'.set a' k) → z'.get (idx'.set a' k) = g k) :
    SamePlane [a] [a'] idx idx' z z' := by
  have hr : z.rank = S.length := by rw [Tensor.rank, zs, List.length_set]
  have hr' : z'.rank = S'.length := by rw [Tensor.rank, zs', List.length_set]
  have e : z.shape.getD a 0 = K := by rw [zs]; simp [List.getD_eq_getElem?_getD, hlt]
  have e' : z'.shape.getD a' 0 = K := by rw [zs']; simp [List.getD_eq_getElem?_getD, hlt']
  refine ⟨by show [z.shape.getD a 0] = [z'.shape.getD a' 0]; rw [e, e'], fun ks hk => ?_⟩
  obtain ⟨k, rfl⟩ : ∃ k, ks = [k] := List.length_eq_one_iff.mp (by rw [hk.length_eq]; rfl)
  have hk' : k < K := by
    have : k < z.shape.getD a 0 := hk.1
    rwa [e] at this
  have b : InB z.shape (idx.set a k) := by
    have := (ha.at (Ks := [K]) zs).setMany_inB (ks := [k]) (Ks := [K]) (by simp) (by simpa [hr] using hlt) rfl ⟨hk', trivial⟩
    rw [show setMany z.shape [a] [K] = z.shape.set a K from rfl, zs, List.set_set, ← zs] at this
    exact this
  have b' : InB z'.shape (idx'.set a' k) := by
    have := (ha'.at (Ks := [K]) zs').setMany_inB (ks := [k]) (Ks := [K]) (by simp) (by simpa [hr'] using hlt') rfl
      ⟨hk', trivial⟩
    rw [show setMany z'.shape [a'] [K] = z'.shape.set a' K from rfl, zs', List.set_set, ← zs'] at this
    exact this
  show z.get (idx.set a k) = z'.get (idx'.set a' k)
  rw [zg k hk' b, zg' k hk' b']

/-- **C61.** `waverec`, on consistent coefficients. -/
theorem c61_waverec [NonUnitalNonAssocSemiring R] (w : Wavelet R) (F : Nat) (axis axis' : AxisHint)
    (md md' : Meta) (S S' : List Nat) (c0 c0' : Tensor R) (rest rest' : List (Tensor R)) (hF : 2 ≤ F)
    (h0 : w.recLo.length = F) (h1 : w.recHi.length = F)
    (hg : GoodAxes axis S.length 1) (hdt : md.dtype = .float32 ∨ md.dtype = .float64)
    (hg' : GoodAxes axis' S'.length 1) (hdt' : md'.dtype = .float32 ∨ md'.dtype = .float64)
    (hcs : SameBut (axis1 axis S.length) md S (c0 :: rest)) (hcs' : SameBut (axis1 axis' S'.length) md' S' (c0' :: rest'))
    (hc : Consistent F (c0.shape.getD (axis1 axis S.length) 0) (rest.map (·.shape.getD (axis1 axis S.length) 0)))
    (idx idx' : List Nat) (ha : At c0 (axesOf axis S.length 1) idx) (ha' : At c0' (axesOf axis' S'.length 1) idx')
    (hx : List.Forall₂ (SamePlane (axesOf axis S.length 1) (axesOf axis' S'.length 1) idx idx') (c0 :: rest) (c0' :: rest')) :
    ∃ z z', waverec (c0 :: rest) w axis = .ok z ∧ waverec (c0' :: rest') w axis' = .ok z' ∧
      SamePlane (axesOf axis S.length 1) (axesOf axis' S'.length 1) idx idx' z z' := by
  rw [axes1_eq hg] at ha hx ⊢
  rw [axes1_eq hg'] at ha' hx ⊢
  have hlt := axis1_lt hg
  have hlt' := axis1_lt hg'
  set a := axis1 axis S.length
  set a' := axis1 axis' S'.length
  have hA := ha.atS (Ks := [c0.shape.getD a 0]) (hcs.shape c0 (by simp))
  have hA' := ha'.atS (Ks := [c0'.shape.getD a' 0]) (hcs'.shape c0' (by simp))
  cases hx with
  | cons hx0 hxs =>
  obtain ⟨l0, n0⟩ := line_eq_of_same hlt hlt' (hcs.shape c0 (by simp)) (hcs'.shape c0' (by simp)) hA hA' hx0
  have hr : (rest.map fun c => (c.shape.getD a 0, line c a idx)) = rest'.map fun c => (c.shape.getD a' 0, line c a' idx') := by
    have q : ∀ c ∈ rest, c.shape = S.set a (c.shape.getD a 0) := fun c h => hcs.shape c (by simp [h])
    have q' : ∀ c ∈ rest', c.shape = S'.set a' (c.shape.getD a' 0) := fun c h => hcs'.shape c (by simp [h])
    clear hcs hcs' hc
    induction hxs with
    | nil => rfl
    | @cons b b' bs bs' hb _ ih =>
      obtain ⟨p1, p2⟩ := line_eq_of_same hlt hlt' (q b (by simp)) (q' b' (by simp)) hA hA' hb
      rw [List.map_cons, List.map_cons, p1, p2,
        ih (fun c h => q c (by simp [h])) (fun c h => q' c (by simp [h]))]
  have hs : rest.map (·.shape.getD a 0) = rest'.map (·.shape.getD a' 0) := by
    have := congrArg (List.map Prod.fst) hr
    simpa [Function.comp_def] using this
  obtain ⟨z, hz, -, zs, zg⟩ := c13_waverec_textbook w F axis md S c0 rest hF h0 h1 hg hdt hcs hc
  obtain ⟨z', hz', -, zs', zg'⟩ := c13_waverec_textbook w F axis' md' S' c0' rest' hF h0 h1 hg' hdt' hcs'
    (by rw [← hs, ← n0]; exact hc)
  rw [← hs, ← n0] at zs'
  refine ⟨z, z', hz, hz', samePlane_line hlt hlt' hA hA' zs zs' (g := fun k => idwt w.recLo w.recHi F (line c0 a idx)
    (rest.map fun c => (c.shape.getD a 0, line c a idx)) k) ?_ ?_⟩
  · intro k _ hb
    rw [zg _ hb]
    have hk : (idx.set a k).getD a 0 = k := by simp [List.getD_eq_getElem?_getD, hA.len, hlt]
    show idwt _ _ _ (line c0 a (idx.set a k)) (rest.map fun c => (c.shape.getD a 0, line c a (idx.set a k)))
      ((idx.set a k).getD a 0) = _
    simp only [line_set', hk]
  · intro k _ hb
    rw [zg' _ hb]
    have hk : (idx'.set a' k).getD a' 0 = k := by simp [List.getD_eq_getElem?_getD, hA'.len, hlt']
    show idwt _ _ _ (line c0' a' (idx'.set a' k)) (rest'.map fun c => (c.shape.getD a' 0, line c a' (idx'.set a' k)))
      ((idx'.set a' k).getD a' 0) = _
    simp only [line_set', hk, l0, hr]

/-- **C61.** `iswt`. -/
theorem c61_iswt [Field R] (w : Wavelet R) (F : Nat) (axis axis' : AxisHint)
    (md md' : Meta) (S S' : List Nat) (c0 c0' : Tensor R) (rest rest' : List (Tensor R)) (hF : 2 ≤ F) (he : F % 2 = 0)
    (h0 : w.recLo.length = F) (h1 : w.recHi.length = F)
    (hg : GoodAxes axis S.length 1) (hdt : md.dtype = .float32 ∨ md.dtype = .float64)
    (hg' : GoodAxes axis' S'.length 1) (hdt' : md'.dtype = .float32 ∨ md'.dtype = .float64)
    (hn : 0 < S.getD (axis1 axis S.length) 0) (hw : WrapOk (S.getD (axis1 axis S.length) 0) F rest.length)
    (hmd : ∀ c ∈ c0 :: rest, c.md = md) (hsh : ∀ c ∈ c0 :: rest, c.shape = S)
    (hmd' : ∀ c ∈ c0' :: rest', c.md = md') (hsh' : ∀ c ∈ c0' :: rest', c.shape = S')
    (idx idx' : List Nat) (ha : At c0 (axesOf axis S.length 1) idx) (ha' : At c0' (axesOf axis' S'.length 1) idx')
    (hx : List.Forall₂ (SamePlane (axesOf axis S.length 1) (axesOf axis' S'.length 1) idx idx') (c0 :: rest) (c0' :: rest')) :
    ∃ z z', iswt (c0 :: rest) w axis = .ok z ∧ iswt (c0' :: rest') w axis' = .ok z' ∧
      SamePlane (axesOf axis S.length 1) (axesOf axis' S'.length 1) idx idx' z z' := by
  rw [axes1_eq hg] at ha hx ⊢
  rw [axes1_eq hg'] at ha' hx ⊢
  have hlt := axis1_lt hg
  have hlt' := axis1_lt hg'
  set a := axis1 axis S.length with hadef
  set a' := axis1 axis' S'.length with hadef'
  have hS : S = S.set a (S.getD a 0) := (set_getD_self hlt).symm
  have hS' : S' = S'.set a' (S'.getD a' 0) := (set_getD_self hlt').symm
  have hA := ha.atS (Ks := [S.getD a 0]) ((hsh c0 (by simp)).trans hS)
  have hA' := ha'.atS (Ks := [S'.getD a' 0]) ((hsh' c0' (by simp)).trans hS')
  cases hx with
  | cons hx0 hxs =>
  obtain ⟨l0, n0⟩ := line_eq_of_same hlt hlt' ((hsh c0 (by simp)).trans hS) ((hsh' c0' (by simp)).trans hS') hA hA' hx0
  rw [hsh c0 (by simp), hsh' c0' (by simp)] at n0
  have hr : (rest.map fun c => line c a idx) = rest'.map fun c => line c a' idx' := by
    have q : ∀ c ∈ rest, c.shape = S := fun c h => hsh c (by simp [h])
    have q' : ∀ c ∈ rest', c.shape = S' := fun c h => hsh' c (by simp [h])
    clear hsh hsh' hmd hmd' hw
    induction hxs with
    | nil => rfl
    | @cons b b' bs bs' hb _ ih =>
      obtain ⟨p1, -⟩ := line_eq_of_same hlt hlt' ((q b (by simp)).trans hS) ((q' b' (by simp)).trans hS') hA hA' hb
      rw [List.map_cons, List.map_cons, p1, ih (fun c h => q c (by simp [h])) (fun c h => q' c (by simp [h]))]
  have hl : rest.length = rest'.length := hxs.length_eq
  obtain ⟨z, hz, -, zs, zg⟩ := c23_inverse_textbook w F axis md S c0 rest hF he h0 h1 hg hdt hn hw hmd hsh
  obtain ⟨z', hz', -, zs', zg'⟩ := c23_inverse_textbook w F axis' md' S' c0' rest' hF he h0 h1 hg' hdt'
    (by rw [← hadef', ← n0]; exact hn) (by rw [← hadef', ← n0, ← hl]; exact hw) hmd' hsh'
  refine ⟨z, z', hz, hz', samePlane_line hlt hlt' hA hA' (zs.trans hS) (zs'.trans (by rw [n0]; exact hS'))
    (g := fun k => iswtFrom w.recLo w.recHi (S.getD a 0) (line c0 a idx) (rest.map fun c => line c a idx) k) ?_ ?_⟩
  · intro k _ hb
    rw [zg _ (by rw [← zs]; exact hb)]
    have hk : (idx.set a k).getD a 0 = k := by simp [List.getD_eq_getElem?_getD, hA.len, hlt]
    show iswtFrom _ _ (S.getD a 0) (line c0 a (idx.set a k)) (rest.map fun c => line c a (idx.set a k))
      ((idx.set a k).getD a 0) = _
    simp only [line_set', hk]
  · intro k _ hb
    rw [zg' _ (by rw [← zs']; exact hb)]
    have hk : (idx'.set a' k).getD a' 0 = k := by simp [List.getD_eq_getElem?_getD, hA'.len, hlt']
    show iswtFrom _ _ (S'.getD a' 0) (line c0' a' (idx'.set a' k)) (rest'.map fun c => line c a' (idx'.set a' k))
      ((idx'.set a' k).getD a' 0) = _
    simp only [line_set', hk, l0, hr, n0]

/-- **C61.** `waverec2`, on coefficients whose sizes fit together. -/
theorem c61_waverec2 [Semiring R] (w : Wavelet R) (F : Nat) (axes axes' : AxisHint) (md md' : Meta) (S S' : List Nat)
    (t0 t0' : Tensor R) (es es' : List (Entry R)) (K0 : List Nat) (Kss : List (List Nat)) (hF : 2 ≤ F)
    (h0 : w.recLo.length = F) (h1 : w.recHi.length = F)
    (hg : GoodAxes axes S.length 2) (hdt : md.dtype = .float32 ∨ md.dtype = .float64)
    (hg' : GoodAxes axes' S'.length 2) (hdt' : md'.dtype = .float32 ∨ md'.dtype = .float64)
    (hK : ∀ Ks ∈ K0 :: Kss, Ks.length = 2)
    (ht : Uniform md (setMany S (axesOf axes S.length 2) K0) t0)
    (ht' : Uniform md' (setMany S' (axesOf axes' S'.length 2) K0) t0')
    (hes : List.Forall₂ (fun e Ks => IsTuple (fun _ t => Uniform md (setMany S (axesOf axes S.length 2) Ks) t) e) es Kss)
    (hes' : List.Forall₂ (fun e Ks => IsTuple (fun _ t => Uniform md' (setMany S' (axesOf axes' S'.length 2) Ks) t) e) es' Kss)
    (hc : ConsistentN F K0 Kss) (idx idx' : List Nat)
    (ha : At t0 (axesOf axes S.length 2) idx) (ha' : At t0' (axesOf axes' S'.length 2) idx')
    (hx : SameCoeffs (SamePlane (axesOf axes S.length 2) (axesOf axes' S'.length 2) idx idx')
      (container t0 es) (container t0' es')) :
    ∃ z z', waverec2 (container t0 es) w axes = .ok z ∧ waverec2 (container t0' es') w axes' = .ok z' ∧
      SamePlane (axesOf axes S.length 2) (axesOf axes' S'.length 2) idx idx' z z' := by
  obtain ⟨z, hz, -, zs, zg⟩ := c59_waverec2_textbook w F axes md S t0 es K0 Kss hF h0 h1 hg hdt hK ht hes hc
  obtain ⟨z', hz', -, zs', zg'⟩ := c59_waverec2_textbook w F axes' md' S' t0' es' K0 Kss hF h0 h1 hg' hdt' hK ht' hes' hc
  cases hx.items with
  | cons x0 xs =>
  cases x0 with
  | tensor x0 =>
  exact ⟨z, z', hz, hz', samePlane_rec (Or.inl rfl) hg.nodup hg'.nodup hg.lt hg'.lt
    (by rw [idwtLenN_length (hK K0 (by simp)) (fun Ks h => hK Ks (by simp [h])), hg.axes_len])
    ha ha' ht ht' hes hes' x0 xs (idwtN w.recLo w.recHi F) zs zs' zg zg'⟩

/-- **C61.** `waverec3`, on coefficients whose sizes fit together. -/
theorem c61_waverec3 [Semiring R] (w : Wavelet R) (F : Nat) (axes axes' : AxisHint) (md md' : Meta) (S S' : List Nat)
    (t0 t0' : Tensor R) (es es' : List (Entry R)) (K0 : List Nat) (Kss : List (List Nat)) (hF : 2 ≤ F)
    (h0 : w.recLo.length = F) (h1 : w.recHi.length = F)
    (hg : GoodAxes axes S.length 3) (hdt : md.dtype = .float32 ∨ md.dtype = .float64)
    (hg' : GoodAxes axes' S'.length 3) (hdt' : md'.dtype = .float32 ∨ md'.dtype = .float64)
    (hK : ∀ Ks ∈ K0 :: Kss, Ks.length = 3)
    (ht : Uniform md (setMany S (axesOf axes S.length 3) K0) t0)
    (ht' : Uniform md' (setMany S' (axesOf axes' S'.length 3) K0) t0')
    (hes : List.Forall₂ (fun e Ks => IsDict keys3 (fun _ t => Uniform md (setMany S (axesOf axes S.length 3) Ks) t) e) es Kss)
    (hes' : List.Forall₂ (fun e Ks => IsDict keys3 (fun _ t => Uniform md' (setMany S' (axesOf axes' S'.length 3) Ks) t) e)
      es' Kss)
    (hc : ConsistentN F K0 Kss) (idx idx' : List Nat)
    (ha : At t0 (axesOf axes S.length 3) idx) (ha' : At t0' (axesOf axes' S'.length 3) idx')
    (hx : SameCoeffs (SamePlane (axesOf axes S.length 3) (axesOf axes' S'.length 3) idx idx')
      (container t0 es) (container t0' es')) :
    ∃ z z', waverec3 (container t0 es) w axes = .ok z ∧ waverec3 (container t0' es') w axes' = .ok z' ∧
      SamePlane (axesOf axes S.length 3) (axesOf axes' S'.length 3) idx idx' z z' := by
  obtain ⟨z, hz, -, zs, zg⟩ := c59_waverec3_textbook w F axes md S t0 es K0 Kss hF h0 h1 hg hdt hK ht hes hc
  obtain ⟨z', hz', -, zs', zg'⟩ := c59_waverec3_textbook w F axes' md' S' t0' es' K0 Kss hF h0 h1 hg' hdt' hK ht' hes' hc
  cases hx.items with
  | cons x0 xs =>
  cases x0 with
  | tensor x0 =>
  exact ⟨z, z', hz, hz', samePlane_rec (Or.inr ⟨_, rfl⟩) hg.nodup hg'.nodup hg.lt hg'.lt
    (by rw [idwtLenN_length (hK K0 (by simp)) (fun Ks h => hK Ks (by simp [h])), hg.axes_len])
    ha ha' ht ht' hes hes' x0 xs (idwtN w.recLo w.recHi F) zs zs' zg zg'⟩

/-- **C61.** `fswaverec2`, the dictionaries in any order, if the approximation of every level is at least as large as
the details. -/
theorem c61_fswaverec2 [CommSemiring R] (w : Wavelet R) (F : Nat) (axes axes' : AxisHint) (md md' : Meta) (S S' : List Nat)
    (t0 t0' : Tensor R) (es es' : List (Entry R)) (K0 : List Nat) (Kss : List (List Nat)) (keys : List String) (hF : 2 ≤ F)
    (h0 : w.recLo.length = F) (h1 : w.recHi.length = F)
    (hg : GoodAxes axes S.length 2) (hdt : md.dtype = .float32 ∨ md.dtype = .float64)
    (hg' : GoodAxes axes' S'.length 2) (hdt' : md'.dtype = .float32 ∨ md'.dtype = .float64)
    (hK : ∀ Ks ∈ K0 :: Kss, Ks.length = 2) (hkeys : keys.Perm ["da", "ad", "dd"])
    (ht : Uniform md (setMany S (axesOf axes S.length 2) K0) t0)
    (ht' : Uniform md' (setMany S' (axesOf axes' S'.length 2) K0) t0')
    (hes : List.Forall₂ (fun e Ks => IsDict keys (fun _ t => Uniform md (setMany S (axesOf axes S.length 2) Ks) t) e) es Kss)
    (hes' : List.Forall₂ (fun e Ks => IsDict keys (fun _ t => Uniform md' (setMany S' (axesOf axes' S'.length 2) Ks) t) e)
      es' Kss)
    (hc : CoveredN F K0 Kss) (idx idx' : List Nat)
    (ha : At t0 (axesOf axes S.length 2) idx) (ha' : At t0' (axesOf axes' S'.length 2) idx')
    (hx : SameCoeffs (SamePlane (axesOf axes S.length 2) (axesOf axes' S'.length 2) idx idx')
      (container t0 es) (container t0' es')) :
    ∃ z z', (fswaverec2 (container t0 es) w axes).1 = .ok z ∧ (fswaverec2 (container t0' es') w axes').1 = .ok z' ∧
      SamePlane (axesOf axes S.length 2) (axesOf axes' S'.length 2) idx idx' z z' := by
  obtain ⟨z, hz, -, zs, zg⟩ := c59_fswaverec2_textbook w F axes md S t0 es K0 Kss keys hF h0 h1 hg hdt hK hkeys ht hes hc
  obtain ⟨z', hz', -, zs', zg'⟩ :=
    c59_fswaverec2_textbook w F axes' md' S' t0' es' K0 Kss keys hF h0 h1 hg' hdt' hK hkeys ht' hes' hc
  cases hx.items with
  | cons x0 xs =>
  cases x0 with
  | tensor x0 =>
  exact ⟨z, z', hz, hz', samePlane_rec (Or.inr ⟨_, rfl⟩) hg.nodup hg'.nodup hg.lt hg'.lt
    (by rw [idwtLenSep_length (hK K0 (by simp)) (fun Ks h => hK Ks (by simp [h])), hg.axes_len])
    ha ha' ht ht' hes hes' x0 xs (idwtN w.recLo w.recHi F) zs zs' zg zg'⟩

/-- **C61.** `fswaverec3`, the dictionaries in any order, if the approximation of every level is at least as large as
the details. -/
theorem c61_fswaverec3 [CommSemiring R] (w : Wavelet R) (F : Nat) (axes axes' : AxisHint) (md md' : Meta) (S S' : List Nat)
    (t0 t0' : Tensor R) (es es' : List (Entry R)) (K0 : List Nat) (Kss : List (List Nat)) (keys : List String) (hF : 2 ≤ F)
    (h0 : w.recLo.length = F) (h1 : w.recHi.length = F)
    (hg : GoodAxes axes S.length 3) (hdt : md.dtype = .float32 ∨ md.dtype = .float64)
    (hg' : GoodAxes axes' S'.length 3) (hdt' : md'.dtype = .float32 ∨ md'.dtype = .float64)
    (hK : ∀ Ks ∈ K0 :: Kss, Ks.length = 3) (hkeys : keys.Perm ["aad", "ada", "add", "daa", "dad", "dda", "ddd"])
    (ht : Uniform md (setMany S (axesOf axes S.length 3) K0) t0)
    (ht' : Uniform md' (setMany S' (axesOf axes' S'.length 3) K0) t0')
    (hes : List.Forall₂ (fun e Ks => IsDict keys (fun _ t => Uniform md (setMany S (axesOf axes S.length 3) Ks) t) e) es Kss)
    (hes' : List.Forall₂ (fun e Ks => IsDict keys (fun _ t => Uniform md' (setMany S' (axesOf axes' S'.length 3) Ks) t) e)
      es' Kss)
    (hc : CoveredN F K0 Kss) (idx idx' : List Nat)
    (ha : At t0 (axesOf axes S.length 3) idx) (ha' : At t0' (axesOf axes' S'.length 3) idx')
    (hx : SameCoeffs (SamePlane (axesOf axes S.length 3) (axesOf axes' S'.length 3) idx idx')
      (container t0 es) (container t0' es')) :
    ∃ z z', (fswaverec3 (container t0 es) w axes).1 = .ok z ∧ (fswaverec3 (container t0' es') w axes').1 = .ok z' ∧
      SamePlane (axesOf axes S.length 3) (axesOf axes' S'.length 3) idx idx' z z' := by
  obtain ⟨z, hz, -, zs, zg⟩ := c59_fswaverec3_textbook w F axes md S t0 es K0 Kss keys hF h0 h1 hg hdt hK hkeys ht hes hc
  obtain ⟨z', hz', -, zs', zg'⟩ :=
    c59_fswaverec3_textbook w F axes' md' S' t0' es' K0 Kss keys hF h0 h1 hg' hdt' hK hkeys ht' hes' hc
  cases hx.items with
  | cons x0 xs =>
  cases x0 with
  | tensor x0 =>
  exact ⟨z, z', hz, hz', samePlane_rec (Or.inr ⟨_, rfl⟩) hg.nodup hg'.nodup hg.lt hg'.lt
    (by rw [idwtLenSep_length (hK K0 (by simp)) (fun Ks h => hK Ks (by simp [h])), hg.axes_len])
    ha ha' ht ht' hes hes' x0 xs (idwtN w.recLo w.recHi F) zs zs' zg zg'⟩

/-- **C61.** `WaveletPacket`: the packet coefficient of a line depends on the line only, whatever was read before. -/
theorem c61_packet [NonUnitalNonAssocSemiring R] (w : Wavelet R) (mode : Option String) (axis axis' : Int)
    (m : Mode) (hm : Selects mode m) (hF : 2 ≤ w.len) (hhi : w.decHi.length = w.len)
    (st₀ st₀' : Pkt Unit (Tensor R)) (x x' : Tensor R) (ml ml' : Option Int) (L L' : Int)
    (hL : PacketLevel w axis x ml L) (hL' : PacketLevel w axis' x' ml' L')
    (hax : ValidAxis x.rank axis) (hax' : ValidAxis x'.rank axis')
    (ops ops' : List (Backend.Op (Tensor R))) (ho : ∀ op ∈ ops, IsRead op) (ho' : ∀ op ∈ ops', IsRead op)
    (key : Key) (v v' : Tensor R)
    (h : ((packet1 w mode axis).run st₀ (.transform x ml :: ops ++ [.read key])).1.getLast? = some (.value v))
    (h' : ((packet1 w mode axis').run st₀' (.transform x' ml' :: ops' ++ [.read key])).1.getLast? = some (.value v'))
    (idx idx' : List Nat) (ha : At x [axisOf x.rank axis] idx) (ha' : At x' [axisOf x'.rank axis'] idx')
    (hx : SamePlane [axisOf x.rank axis] [axisOf x'.rank axis'] idx idx' x x') :
    SamePlane [axisOf x.rank axis] [axisOf x'.rank axis'] idx idx' v v' := by
  have hn : x.shape.getD (axisOf x.rank axis) 0 = x'.shape.getD (axisOf x'.rank axis') 0 := by
    simpa [sizes] using hx.sizes
  rcases c25_value w mode axis m hm hF hhi st₀ x ml L hL ops ho key v h with ⟨h1, h2⟩ | ⟨h1, -, -, h2⟩
  · rcases c25_value w mode axis' m hm hF hhi st₀' x' ml' L' hL' ops' ho' key v' h' with ⟨-, h2'⟩ | ⟨h1', -⟩
    · rw [h2, h2']; exact hx
    · exact absurd h1 h1'
  · rcases c25_value w mode axis' m hm hF hhi st₀' x' ml' L' hL' ops' ho' key v' h' with ⟨h1', -⟩ | ⟨-, -, -, h2'⟩
    · exact absurd h1' h1
    · rw [← hn] at h2'
      have p := alongAxes_of_axis h2
      have p' := alongAxes_of_axis h2'
      exact samePlane_along (by simp) (by simp) (by simpa using axisOf_lt hax) (by simpa using axisOf_lt hax') ha ha'
        (Ks := [levelLen w.len (x.shape.getD (axisOf x.rank axis) 0) key.length]) rfl hx p p'

/-- **C61.** `WaveletPacket2D`: the packet coefficient of a plane depends on the plane only. -/
theorem c61_packet2 [Semiring R] (w : Wavelet R) (mode : Option String) (axes axes' : List Int) (sep : Bool)
    (m : Mode) (hm : Selects mode m) (hF : 2 ≤ w.len) (hhi : w.decHi.length = w.len)
    (st₀ st₀' : Pkt Unit (Tensor R)) (x x' : Tensor R) (hdt : x.md.dtype = .float32 ∨ x.md.dtype = .float64)
    (hdt' : x'.md.dtype = .float32 ∨ x'.md.dtype = .float64) (ml ml' : Option Int) (L L' : Int)
    (hL : PacketLevel2 w axes x ml L) (hL' : PacketLevel2 w axes' x' ml' L')
    (hg : GoodAxes (.seq axes) x.rank 2) (hg' : GoodAxes (.seq axes') x'.rank 2)
    (ops ops' : List (Backend.Op (Tensor R))) (ho : ∀ op ∈ ops, IsRead op) (ho' : ∀ op ∈ ops', IsRead op)
    (key : Key) (v v' : Tensor R)
    (h : ((packet2 w mode axes sep).run st₀ (.transform x ml :: ops ++ [.read key])).1.getLast? = some (.value v))
    (h' : ((packet2 w mode axes' sep).run st₀' (.transform x' ml' :: ops' ++ [.read key])).1.getLast? = some (.value v'))
    (idx idx' : List Nat) (ha : At x (planeAxes axes x.rank) idx) (ha' : At x' (planeAxes axes' x'.rank) idx')
    (hx : SamePlane (planeAxes axes x.rank) (planeAxes axes' x'.rank) idx idx' x x') :
    SamePlane (planeAxes axes x.rank) (planeAxes axes' x'.rank) idx idx' v v' := by
  rcases c25_2d_value w mode axes sep m hm hF hhi st₀ x hdt ml L hL ops ho key v h with ⟨h1, h2⟩ | ⟨h1, -, -, h2⟩
  · rcases c25_2d_value w mode axes' sep m hm hF hhi st₀' x' hdt' ml' L' hL' ops' ho' key v' h' with ⟨-, h2'⟩ | ⟨h1', -⟩
    · rw [h2, h2']; exact hx
    · exact absurd h1 h1'
  · rcases c25_2d_value w mode axes' sep m hm hF hhi st₀' x' hdt' ml' L' hL' ops' ho' key v' h' with
      ⟨h1', -⟩ | ⟨-, -, -, h2'⟩
    · exact absurd h1' h1
    · rw [← hx.sizes] at h2'
      exact samePlane_along hg.nodup hg'.nodup hg.lt hg'.lt ha ha' (by rw [levelLens_len]; simp [sizes]) hx h2 h2'

/-! ### One item of a batch on its own -/

/-- The plane of `x` along the axes `ax` through `idx`, as a tensor of its own. -/
def alone [Zero R] (x : Tensor R) (ax idx : List Nat) : Tensor R :=
  ofFn x.md (sizes ax x.shape) fun ks => x.get (setMany idx ax ks)

theorem axesOf_full (n : Nat) : axesOf .none n n = List.range n := by
  unfold axesOf resolve
  rw [List.map_map]
  conv_rhs => rw [← List.map_id (List.range n)]
  apply List.map_congr_left
  intro k hk
  rw [List.mem_range] at hk
  simp only [Function.comp_apply, axisOf, id]
  rw [if_pos (by omega)]
  omega

theorem alone_same [Zero R] (x : Tensor R) (ax idx : List Nat) :
    (alone x ax idx).rank = ax.length ∧
    At (alone x ax idx) (List.range ax.length) (List.replicate ax.length 0) ∧
    SamePlane ax (List.range ax.length) idx (List.replicate ax.length 0) x (alone x ax idx) := by
  have hr : (alone x ax idx).rank = ax.length := by simp [alone, Tensor.rank, sizes]
  have hs : sizes (List.range ax.length) (sizes ax x.shape) = sizes ax x.shape := by
    apply List.ext_getElem
    · simp [sizes]
    · intro i h1 h2
      have h3 : i < ax.length := by simpa [sizes] using h2
      simp [sizes, List.getD_eq_getElem?_getD, h3]
  refine ⟨hr, ⟨by simp [hr], fun i hi hn => absurd (List.mem_range.mpr (hr ▸ hi)) hn⟩, hs.symm, fun ks hk => ?_⟩
  have hkl : ks.length = (List.replicate ax.length (0 : Nat)).length := by rw [hk.length_eq]; simp [sizes]
  have e : setMany (List.replicate ax.length 0) (List.range ax.length) ks = ks := by
    have := setMany_range' (List.replicate ax.length 0) [] ks hkl
    simpa [List.range_eq_range'] using this
  rw [e, alone, ofFn_get_of _ _ hk]

/-- **C61.** Transforming one line of a batch on its own gives the coefficients that the batch has on that line. -/
theorem c61_wavedec_alone [NonUnitalNonAssocSemiring R] (x : Tensor R) (w : Wavelet R) (mode : Option String)
    (level : Option Int) (axis : AxisHint) (hF : 2 ≤ w.len) (hhi : w.decHi.length = w.len)
    (idx : List Nat) (ha : At x (axesOf axis x.rank 1) idx)
    (cs : List (Tensor R)) (hc : wavedec x w mode level axis = .ok cs) :
    ∃ cs', wavedec (alone x (axesOf axis x.rank 1) idx) w mode level .none = .ok cs' ∧
      List.Forall₂ (SamePlane (axesOf axis x.rank 1) [0] idx [0]) cs cs' := by
  have key := wavedec_char (mode := mode) (x := x) (level := level) (h := axis) hF hhi
  by_cases hgd : GoodAxes axis x.rank 1 ∧ isDtypeSupported x.md.dtype = true
  swap
  · obtain ⟨e, he⟩ := key.1 hgd
    rw [he] at hc; cases hc
  obtain ⟨hr, h1, h2⟩ := alone_same x (axesOf axis x.rank 1) idx
  rw [hgd.1.axes_len] at hr h1 h2
  have hax : axesOf .none (alone x (axesOf axis x.rank 1) idx).rank 1 = [0] := by rw [hr]; exact axesOf_full 1
  have := c61_wavedec x (alone x (axesOf axis x.rank 1) idx) w mode level axis .none hF hhi
    (goodAxes_none (by decide) (by rw [hr])) (by simpa [isDtypeSupported, alone] using hgd.2) idx [0] ha
    (by rw [hax]; exact h1) (by rw [hax]; exact h2) cs hc
  rwa [hax] at this

/-- **C61.** Transforming one image of a batch on its own gives the coefficients that the batch has on that image. -/
theorem c61_wavedec2_alone [Semiring R] (x : Tensor R) (w : Wavelet R) (mode : Option String)
    (level : Option Int) (axes : AxisHint) (hF : 2 ≤ w.len) (hhi : w.decHi.length = w.len)
    (idx : List Nat) (ha : At x (axesOf axes x.rank 2) idx)
    (c : Coeffs R) (hc : wavedec2 x w mode level axes = .ok c) :
    ∃ c', wavedec2 (alone x (axesOf axes x.rank 2) idx) w mode level .none = .ok c' ∧
      SameCoeffs (SamePlane (axesOf axes x.rank 2) [0, 1] idx [0, 0]) c c' := by
  have key := wavedec2_char (mode := mode) (x := x) (level := level) (h := axes) hF hhi
  by_cases hgd : GoodAxes axes x.rank 2 ∧ isDtypeSupported x.md.dtype = true
  swap
  · obtain ⟨e, he⟩ := key.1 hgd
    rw [he] at hc; cases hc
  obtain ⟨hr, h1, h2⟩ := alone_same x (axesOf axes x.rank 2) idx
  rw [hgd.1.axes_len] at hr h1 h2
  have hax : axesOf .none (alone x (axesOf axes x.rank 2) idx).rank 2 = [0, 1] := by rw [hr]; exact axesOf_full 2
  have := c61_wavedec2 x (alone x (axesOf axes x.rank 2) idx) w mode level axes .none hF hhi
    (goodAxes_none (by decide) (by rw [hr])) (by simpa [isDtypeSupported, alone] using hgd.2) idx [0, 0] ha
    (by rw [hax]; exact h1) (by rw [hax]; exact h2) c hc
  rwa [hax] at this

/-- **C61.** The same for volumes. -/
theorem c61_wavedec3_alone [Semiring R] (x : Tensor R) (w : Wavelet R) (mode : Option String)
    (level : Option Int) (axes : AxisHint) (hF : 2 ≤ w.len) (hhi : w.decHi.length = w.len)
    (hL : 0 < levelsN level w.len (sizes (axesOf axes x.rank 3) x.shape))
    (idx : List Nat) (ha : At x (axesOf axes x.rank 3) idx)
    (c : Coeffs R) (hc : wavedec3 x w mode level axes = .ok c) :
    ∃ c', wavedec3 (alone x (axesOf axes x.rank 3) idx) w mode level .none = .ok c' ∧
      SameCoeffs (SamePlane (axesOf axes x.rank 3) [0, 1, 2] idx [0, 0, 0]) c c' := by
  have key := wavedec3_char (mode := mode) (x := x) (level := level) (h := axes) hF hhi
  by_cases hgd : GoodAxes axes x.rank 3 ∧ isDtypeSupported x.md.dtype = true
  swap
  · obtain ⟨e, he⟩ := key.1 hgd
    rw [he] at hc; cases hc
  obtain ⟨hr, h1, h2⟩ := alone_same x (axesOf axes x.rank 3) idx
  rw [hgd.1.axes_len] at hr h1 h2
  have hax : axesOf .none (alone x (axesOf axes x.rank 3) idx).rank 3 = [0, 1, 2] := by rw [hr]; exact axesOf_full 3
  have := c61_wavedec3 x (alone x (axesOf axes x.rank 3) idx) w mode level axes .none hF hhi
    (goodAxes_none (by decide) (by rw [hr])) (by simpa [isDtypeSupported, alone] using hgd.2) hL idx [0, 0, 0] ha
    (by rw [hax]; exact h1) (by rw [hax]; exact h2) c hc
  rwa [hax] at this

/-! ### The hypotheses are met -/

/-- A batch of two images of size `4 × 3`, and a `3 × 4` image that shows the second one transposed. -/
def batchEx : Tensor ℚ := ofFn ⟨.float64, 0⟩ [2, 4, 3] fun i => i.getD 0 0 * 7 + i.getD 1 0 * i.getD 2 0

def imageEx : Tensor ℚ := ofFn ⟨.float32, 1⟩ [3, 4] fun i => 7 + i.getD 0 0 * i.getD 1 0

theorem batchEx_at : At batchEx [1, 2] [1, 0, 0] :=
  ⟨rfl, fun i hi hn => by
    have hi : i < 3 := hi
    rcases (by omega : i = 0 ∨ i = 1 ∨ i = 2) with rfl | rfl | rfl
    · decide
    · exact absurd (by decide) hn
    · exact absurd (by decide) hn⟩

theorem imageEx_at : At imageEx [1, 0] [0, 0] :=
  ⟨rfl, fun i hi hn => by
    have hi : i < 2 := hi
    rcases (by omega : i = 0 ∨ i = 1) with rfl | rfl
    · exact absurd (by decide) hn
    · exact absurd (by decide) hn⟩

theorem batchEx_same : SamePlane [1, 2] [1, 0] [1, 0, 0] [0, 0] batchEx imageEx := by
  refine ⟨rfl, fun ks hk => ?_⟩
  obtain ⟨j, k, rfl⟩ : ∃ j k, ks = [j, k] := List.length_eq_two.mp (by rw [hk.length_eq]; rfl)
  obtain ⟨hj, hk, -⟩ : j < 4 ∧ k < 3 ∧ True := hk
  show batchEx.get [1, j, k] = imageEx.get [k, j]
  rw [batchEx, imageEx, ofFn_get_of _ _ (by exact ⟨by decide, hj, hk, trivial⟩),
    ofFn_get_of _ _ (by exact ⟨hk, hj, trivial⟩)]
  simp [mul_comm]

/-- The second image of the batch and the transposed image have the same coefficients. -/
example (c : Coeffs ℚ) (hc : wavedec2 batchEx haar (some "zero") (some 1) .none = .ok c) :
    ∃ c', wavedec2 imageEx haar (some "zero") (some 1) (.seq [1, 0]) = .ok c' ∧
      SameCoeffs (SamePlane [1, 2] [1, 0] [1, 0, 0] [0, 0]) c c' :=
  c61_wavedec2 batchEx imageEx haar (some "zero") (some 1) .none (.seq [1, 0]) (by decide) (by decide)
    ⟨by decide, rfl, by simp [ValidAxis, resolve, imageEx, Tensor.rank], by decide⟩ (Or.inl rfl) [1, 0, 0] [0, 0]
    batchEx_at imageEx_at batchEx_same c hc

/-- And the batch is accepted. -/
example : ∃ c, wavedec2 batchEx haar (some "zero") (some 1) .none = .ok c := by
  have key := wavedec2_char (mode := some "zero") (x := batchEx) (level := some 1) (h := .none) (w := haar)
    (by decide) (by decide)
  obtain ⟨c, hc, -⟩ := ((key.2 (goodAxes_none (by decide) (by decide)) rfl).2.1) .zero (Or.inl rfl) (by
    intro s hs k hk
    have : s = 0 := by
      have : levelsN (some 1) haar.len (sizes (axesOf .none batchEx.rank 2) batchEx.shape) = 1 := rfl
      omega
    subst this
    have hk : k ∈ [4, 3] := hk
    simp only [List.mem_cons, List.not_mem_nil, or_false] at hk
    rcases hk with rfl | rfl <;> (unfold Mode.Admits; decide))
  exact ⟨c, hc⟩

end Verif.Props
