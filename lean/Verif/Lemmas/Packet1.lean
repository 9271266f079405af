import Verif.Lemmas.PacketsRec
import Verif.Model.Packet1
import Verif.Spec.Packet1
import Verif.Props.Conv1
import Verif.Props.PacketOrder

/-! The one-dimensional packet object with a padding mode. -/

namespace Verif
open Tensor Spec Props
variable {R : Type}

theorem goodAxes_int {r : Nat} {a : Int} : GoodAxes (.int a) r 1 ↔ ValidAxis r a := by
  constructor
  · intro h; exact h.valid.valid a (by simp [resolve])
  · intro h
    refine ⟨le_rfl, rfl, ⟨?_, ?_⟩⟩
    · intro b hb
      simp only [resolve, List.mem_singleton] at hb
      rwa [hb]
    · simp [resolve]

theorem axis1_int (r : Nat) (a : Int) : axis1 (.int a) r = axisOf r a := rfl

theorem normAxis_ok {r : Nat} {a : Int} (h : ValidAxis r a) : normAxis r a = .ok (axisOf r a) := by
  obtain ⟨h1, h2⟩ := h
  unfold normAxis axisOf
  by_cases ha : a < 0
  · rw [if_neg (by omega), if_pos ⟨ha, h1⟩, if_pos ha]
  · rw [if_pos ⟨by omega, h2⟩, if_neg ha]

theorem normAxis_bad {r : Nat} {a : Int} (h : ¬ ValidAxis r a) : normAxis r a = .error .indexError := by
  unfold ValidAxis at h
  unfold normAxis
  rw [if_neg (by omega), if_neg (by omega)]

theorem sizeAt_ok [Zero R] {t : Tensor R} {a : Int} (h : ValidAxis t.rank a) :
    sizeAt t a = .ok (t.shape.getD (axisOf t.rank a) 0) := by
  unfold sizeAt; rw [normAxis_ok h]

theorem sizeAt_bad [Zero R] {t : Tensor R} {a : Int} (h : ¬ ValidAxis t.rank a) :
    sizeAt t a = .error .indexError := by
  unfold sizeAt; rw [normAxis_bad h]

theorem packet1_complete [NonUnitalNonAssocSemiring R] (w : Wavelet R) (mode : Option String) (axis : Int) :
    (packet1 w mode axis).Complete := by
  constructor
  · intro l k
    show k ∈ getGraycodeOrder l 'a' 'd' ↔ _
    rw [getGraycodeOrder_eq, grayList_mem]
    simp [packet1]
  · intro l
    show (getGraycodeOrder l 'a' 'd').Nodup
    rw [getGraycodeOrder_eq]
    exact grayList_nodup (by decide) l

section
variable [NonUnitalNonAssocSemiring R] {w : Wavelet R} {mode : Option String} {axis : Int}

/-- One analysis step of the packet tree, completely. -/
theorem packetDec1_char (hF : 2 ≤ w.len) (hhi : w.decHi.length = w.len) (t : Tensor R) {vs : List (Tensor R)}
    (h : packetDec1 w mode axis t = .ok vs) : ValidAxis t.rank axis ∧ isDtypeSupported t.md.dtype = true ∧
    ∃ m lo hi, Selects mode m ∧ m.Admits w.len (t.shape.getD (axisOf t.rank axis) 0) ∧ vs = [lo, hi] ∧
      AlongAxis (axisOf t.rank axis) (outLen w.len (t.shape.getD (axisOf t.rank axis) 0))
        (dwtStep m w.decLo (t.shape.getD (axisOf t.rank axis) 0)) t lo ∧
      AlongAxis (axisOf t.rank axis) (outLen w.len (t.shape.getD (axisOf t.rank axis) 0))
        (dwtStep m w.decHi (t.shape.getD (axisOf t.rank axis) 0)) t hi := by
  by_cases hv : ValidAxis t.rank axis
  · refine ⟨hv, ?_⟩
    unfold packetDec1 at h
    simp only [bind, Except.bind, sizeAt_ok hv] at h
    have hL : levels (some 1) w.len (t.shape.getD (axis1 (.int axis) t.rank) 0) = 1 := rfl
    obtain ⟨h1, h2⟩ := wavedec_char (mode := mode) (x := t) (level := some 1) (h := .int axis) hF hhi
    have hg : GoodAxes (.int axis) t.rank 1 ∧ isDtypeSupported t.md.dtype = true := by
      by_contra hg
      obtain ⟨e, he⟩ := h1 hg
      rw [he] at h; cases h
    obtain ⟨-, h4, h5, h6⟩ := h2 hg.1 hg.2
    refine ⟨hg.2, ?_⟩
    by_cases hm : ∃ m, Selects mode m
    · obtain ⟨m, hm⟩ := hm
      rw [hL] at h4 h5
      by_cases ha : m.Admits w.len (t.shape.getD (axisOf t.rank axis) 0)
      · obtain ⟨cs, e, hd⟩ := h4 m hm (by
          intro s hs
          have : s = 0 := by omega
          subst this; exact ha)
        rw [e] at h; cases h
        have hlen := hd.length
        match vs, hlen with
        | [lo, hi], _ =>
          exact ⟨m, lo, hi, hm, ha, rfl, hd.approx lo rfl, hd.detail 0 hi (by omega) rfl⟩
      · rw [h5 m hm ⟨0, by omega, ha⟩] at h; cases h
    · push Not at hm
      rw [h6 (by rw [hL]; omega) hm] at h; cases h
  · unfold packetDec1 at h
    simp only [bind, Except.bind, sizeAt_bad hv] at h
    cases h

/-- When an analysis step succeeds. -/
theorem packetDec1_ok (hF : 2 ≤ w.len) (hhi : w.decHi.length = w.len) {t : Tensor R} {m : Mode}
    (hv : ValidAxis t.rank axis) (hdt : isDtypeSupported t.md.dtype = true) (hm : Selects mode m)
    (ha : m.Admits w.len (t.shape.getD (axisOf t.rank axis) 0)) :
    ∃ vs, packetDec1 w mode axis t = .ok vs := by
  obtain ⟨-, h2⟩ := wavedec_char (mode := mode) (x := t) (level := some 1) (h := .int axis) hF hhi
  obtain ⟨-, h4, -, -⟩ := h2 (goodAxes_int.mpr hv) hdt
  obtain ⟨cs, e, -⟩ := h4 m hm (by
    intro s hs
    have hs' : s < 1 := hs
    have : s = 0 := by omega
    subst this; exact ha)
  refine ⟨cs, ?_⟩
  unfold packetDec1
  simp only [bind, Except.bind, sizeAt_ok hv]
  exact e

theorem packet1_pure (hF : 2 ≤ w.len) (hhi : w.decHi.length = w.len) :
    (packet1 w mode axis).Pure (fun _ => True) (fun _ => True) (packetDec1 w mode axis) (packetSyn1 w axis) where
  decRes := fun _ _ _ _ => rfl
  decInv := fun _ _ _ _ => trivial
  decDom := fun _ _ _ _ _ _ => trivial
  synRes := fun _ _ _ _ => rfl
  synInv := fun _ _ _ _ => trivial
  synDom := fun _ _ _ _ => trivial
  fitDom := fun _ _ _ _ _ _ => trivial
  len := by
    intro t vs _ h
    obtain ⟨-, -, m, lo, hi, -, -, rfl, -, -⟩ := packetDec1_char hF hhi t h
    rfl
  nodup := by simp [packet1]

theorem Spec.AlongAxis.rank {a K : Nat} {f : (Nat → R) → Nat → R} {x z : Tensor R} (h : AlongAxis a K f x z) :
    z.rank = x.rank := by
  unfold Tensor.rank; rw [h.shape, List.length_set]

/-- Two operations along the same axis compose. -/
theorem Spec.AlongAxis.comp {a K K' : Nat} {f g : (Nat → R) → Nat → R} {x y z : Tensor R} (ha : a < x.rank)
    (h1 : AlongAxis a K f x y) (h2 : AlongAxis a K' g y z)
    (hg : ∀ u v : Nat → R, (∀ j, j < K → u j = v j) → ∀ i, i < K' → g u i = g v i) :
    AlongAxis a K' (fun v => g (f v)) x z := by
  refine ⟨h2.md.trans h1.md, by rw [h2.shape, h1.shape, List.set_set], ?_⟩
  intro idx hidx
  rw [h2.get idx hidx]
  have hay : a < y.shape.length := by rw [h1.shape, List.length_set]; exact ha
  rw [h2.shape] at hidx
  apply hg
  · intro j hj
    have hin : InB y.shape (idx.set a j) := by
      have e : y.shape.getD a 0 = K := by rw [h1.shape, getD_set_self ha]
      exact (inB_set_iff hay hidx).mpr (by rw [e]; exact hj)
    show y.get (idx.set a j) = _
    rw [h1.get _ hin, getD_set_self (by
      rw [hidx.length_eq, List.length_set]; exact hay)]
    congr 1
    funext i
    show x.get _ = x.get _
    rw [List.set_set]
  · exact inB_set_getD hay hidx

theorem levelLen_step (F n : Nat) : ∀ s, levelLen F (outLen F n) s = levelLen F n (s + 1)
  | 0 => rfl
  | s + 1 => by
    show outLen F (levelLen F (outLen F n) s) = outLen F (levelLen F n (s + 1))
    rw [levelLen_step F n s]

theorem packetLine_congr {m : Mode} : ∀ (k : Key) (n : Nat),
    (∀ s, s < k.length → m.Admits w.len (levelLen w.len n s)) → ∀ u v : Nat → R, (∀ j, j < n → u j = v j) →
    ∀ i, i < levelLen w.len n k.length → packetLine m w n u k i = packetLine m w n v k i
  | [], _, _, u, v, h, i, hi => h i hi
  | c :: k, n, ha, u, v, h, i, hi => by
    rw [packetLine, packetLine]
    rw [show dwtStep m (if c = 'a' then w.decLo else w.decHi) n u
      = dwtStep m (if c = 'a' then w.decLo else w.decHi) n v from
        funext fun i => dwtStep_congr (ha 0 (by simp)) h _ i]

/-- Every packet coefficient is the textbook one. -/
theorem walk1_textbook (hF : 2 ≤ w.len) (hhi : w.decHi.length = w.len) {m : Mode} (hm : Selects mode m) :
    ∀ (k : Key) (x v : Tensor R), (∀ c ∈ k, c ∈ ['a', 'd']) → (k = [] → ValidAxis x.rank axis) →
      walk (packetDec1 w mode axis) ['a', 'd'] x k = .ok v →
      AlongAxis (axisOf x.rank axis) (levelLen w.len (x.shape.getD (axisOf x.rank axis) 0) k.length)
        (fun u => packetLine m w (x.shape.getD (axisOf x.rank axis) 0) u k) x v ∧
      ∀ s, s < k.length → m.Admits w.len (levelLen w.len (x.shape.getD (axisOf x.rank axis) 0) s)
  | [], x, v, _, hv, h => by
    cases h
    have hax := axisOf_lt (hv rfl)
    refine ⟨⟨rfl, ?_, ?_⟩, fun s hs => absurd hs (by simp)⟩
    · rw [List.length_nil, levelLen, set_getD_self hax]
    · intro idx hidx
      show _ = x.get (idx.set _ _)
      rw [set_getD_self (by rw [hidx.length_eq]; exact hax)]
  | c :: k, x, v, hc, _, h => by
    rw [walk] at h
    simp only [bind, Except.bind] at h
    cases hd : packetDec1 w mode axis x with
    | error e => rw [hd] at h; cases h
    | ok vs =>
      rw [hd] at h
      obtain ⟨hv, hdt, m', lo, hi, hm', ha, rfl, hlo, hhi'⟩ := packetDec1_char hF hhi x hd
      have : m' = m := selects_unique hm' hm
      subst this
      have hax := axisOf_lt hv
      obtain ⟨y, hp, hy⟩ : ∃ y, pickBand ['a', 'd'] [lo, hi] c = .ok y ∧
          AlongAxis (axisOf x.rank axis) (outLen w.len (x.shape.getD (axisOf x.rank axis) 0))
            (dwtStep m' (if c = 'a' then w.decLo else w.decHi) (x.shape.getD (axisOf x.rank axis) 0)) x y := by
        have := hc c (by simp)
        simp only [List.mem_cons, List.not_mem_nil, or_false] at this
        rcases this with rfl | rfl
        · exact ⟨lo, rfl, hlo⟩
        · exact ⟨hi, rfl, hhi'⟩
      simp only [hp] at h
      have hyr := hy.rank
      obtain ⟨h1, h2⟩ := walk1_textbook hF hhi hm k y v (fun c' hc' => hc c' (by simp [hc']))
        (fun _ => by rw [hyr]; exact hv) h
      have hys : y.shape.getD (axisOf x.rank axis) 0 = outLen w.len (x.shape.getD (axisOf x.rank axis) 0) := by
        rw [hy.shape, getD_set_self hax]
      rw [hyr, hys] at h1 h2
      constructor
      · have := hy.comp hax h1 (packetLine_congr k _ h2)
        rw [levelLen_step] at this
        exact this
      · intro s hs
        cases s with
        | zero => exact ha
        | succ s =>
          rw [← levelLen_step]
          exact h2 s (by simpa using hs)

/-- When a packet coefficient can be computed. -/
theorem walk1_ok (hF : 2 ≤ w.len) (hhi : w.decHi.length = w.len) {m : Mode} (hm : Selects mode m) :
    ∀ (k : Key) (x : Tensor R), (∀ c ∈ k, c ∈ ['a', 'd']) → ValidAxis x.rank axis →
      isDtypeSupported x.md.dtype = true →
      (∀ s, s < k.length → m.Admits w.len (levelLen w.len (x.shape.getD (axisOf x.rank axis) 0) s)) →
      ∃ v, walk (packetDec1 w mode axis) ['a', 'd'] x k = .ok v
  | [], x, _, _, _, _ => ⟨x, rfl⟩
  | c :: k, x, hc, hv, hdt, ha => by
    obtain ⟨vs, hd⟩ := packetDec1_ok hF hhi hv hdt hm (ha 0 (by simp))
    obtain ⟨-, -, m', lo, hi, -, -, rfl, hlo, hhi'⟩ := packetDec1_char hF hhi x hd
    have hax := axisOf_lt hv
    obtain ⟨y, hp, hymd, hys⟩ : ∃ y, pickBand ['a', 'd'] [lo, hi] c = .ok y ∧ y.md = x.md ∧ y.shape =
        x.shape.set (axisOf x.rank axis) (outLen w.len (x.shape.getD (axisOf x.rank axis) 0)) := by
      have := hc c (by simp)
      simp only [List.mem_cons, List.not_mem_nil, or_false] at this
      rcases this with rfl | rfl
      · exact ⟨lo, rfl, hlo.md, hlo.shape⟩
      · exact ⟨hi, rfl, hhi'.md, hhi'.shape⟩
    have hyr : y.rank = x.rank := by unfold Tensor.rank; rw [hys, List.length_set]
    obtain ⟨v, h⟩ := walk1_ok hF hhi hm k y (fun c' hc' => hc c' (by simp [hc']))
      (by rw [hyr]; exact hv) (by rw [hymd]; exact hdt) (by
        intro s hs
        rw [hyr, hys, getD_set_self hax, levelLen_step]
        exact ha (s + 1) (by simpa using hs))
    refine ⟨v, ?_⟩
    rw [walk]
    simp only [bind, Except.bind, hd, hp, h]

end

/-! ### Cutting -/

section
variable [Zero R]

/-- exchange two entries. -/
def swapL (a b : Nat) (l : List Nat) : List Nat := (l.set a (l.getD b 0)).set b (l.getD a 0)

theorem swapL_length (a b : Nat) (l : List Nat) : (swapL a b l).length = l.length := by
  simp [swapL]

theorem getD_set_eq (l : List Nat) (a x d : Nat) :
    (l.set a x).getD d 0 = if d = a ∧ d < l.length then x else l.getD d 0 := by
  rw [List.getD_eq_getElem?_getD, List.getD_eq_getElem?_getD, List.getElem?_set]
  by_cases h : a = d
  · subst h
    by_cases h' : a < l.length
    · simp [h']
    · simp [h']
  · rw [if_neg h, if_neg (by rintro ⟨h1, -⟩; exact h h1.symm)]

theorem swapL_getD {a b : Nat} {l : List Nat} (ha : a < l.length) (hb : b < l.length) (d : Nat) :
    (swapL a b l).getD d 0 = if d = b then l.getD a 0 else if d = a then l.getD b 0 else l.getD d 0 := by
  unfold swapL
  rw [getD_set_eq, getD_set_eq, List.length_set]
  by_cases h1 : d = b
  · subst h1; simp [hb]
  · by_cases h2 : d = a
    · subst h2; simp [h1, ha]
    · simp [h1, h2]

/-- Swapping an axis to the end, slicing there and swapping back is slicing along the axis. -/
theorem swap_slice_swap {t : Tensor R} {a k : Nat} (ha : a < t.rank) (hk : k ≤ t.shape.getD a 0) :
    ((t.transpose a (t.rank - 1)).slice (t.rank - 1) 0 k).transpose (t.rank - 1) a = t.slice a 0 k := by
  have hb : t.rank - 1 < t.shape.length := by unfold Tensor.rank at *; omega
  have ha' : a < t.shape.length := ha
  set b := t.rank - 1 with hbdef
  have hs1 : (t.transpose a b).shape = swapL a b t.shape := rfl
  have hs2 : ((t.transpose a b).slice b 0 k).shape = (swapL a b t.shape).set b k := by
    show (t.transpose a b).shape.set b (min k ((t.transpose a b).shape.getD b 0) - 0) = _
    rw [hs1, swapL_getD ha' hb, if_pos rfl, Nat.min_eq_left hk, Nat.sub_zero]
  have hs3 : (((t.transpose a b).slice b 0 k).transpose b a).shape = t.shape.set a k := by
    show swapL b a ((t.transpose a b).slice b 0 k).shape = _
    rw [hs2]
    apply list_ext_getD (by simp [swapL_length])
    intro d _
    rw [swapL_getD (by simpa [swapL_length] using hb) (by simpa [swapL_length] using ha')]
    simp only [getD_set_eq, swapL_length, swapL_getD ha' hb]
    by_cases h1 : d = a
    · subst h1; simp [hb, ha']
    · by_cases h2 : d = b
      · have : ¬ a = b := fun h => h1 (by rw [h2, h])
        have this' : ¬ b = a := fun h => this h.symm
        rw [h2]
        simp [this, this']
      · simp [h1, h2]
  have hs4 : (t.slice a 0 k).shape = t.shape.set a k := by
    show t.shape.set a (min k (t.shape.getD a 0) - 0) = _
    rw [Nat.min_eq_left hk, Nat.sub_zero]
  refine Tensor.ext' (by rfl) (hs3.trans hs4.symm) ?_
  intro idx hidx
  rw [hs3] at hidx
  have hil : idx.length = t.shape.length := by rw [hidx.length_eq, List.length_set]
  have hin2 : InB ((t.transpose a b).slice b 0 k).shape (swapL b a idx) := by
    rw [hs2, inB_iff]
    rw [inB_iff] at hidx
    refine ⟨by simp [swapL_length, hil], ?_⟩
    intro d hd
    rw [List.length_set, swapL_length] at hd
    rw [swapL_getD (by omega) (by omega), getD_set_eq, swapL_length, swapL_getD ha' hb]
    have hda := hidx.2 a (by rw [List.length_set]; exact ha')
    have hdb := hidx.2 b (by rw [List.length_set]; exact hb)
    have hdd := hidx.2 d (by rw [List.length_set]; exact hd)
    rw [getD_set_eq] at hda hdb hdd
    simp only [ha', hb, hd, and_true, if_true] at hda hdb hdd ⊢
    by_cases h1 : d = a
    · subst h1
      by_cases h2 : d = b
      · rw [if_pos rfl, if_pos h2]; rw [← h2]; exact hda
      · have h2' : ¬ b = d := fun h => h2 h.symm
        rw [if_neg h2'] at hdb
        rw [if_pos rfl, if_neg h2, if_neg h2, if_pos rfl]
        exact hdb
    · by_cases h2 : d = b
      · subst h2
        rw [if_neg h1, if_pos rfl, if_pos rfl]; exact hda
      · rw [if_neg h1, if_neg h2, if_neg h2, if_neg h2, if_neg h1]
        rwa [if_neg h1] at hdd
  have hin4 : InB (t.slice a 0 k).shape idx := by rw [hs4]; exact hidx
  have e1 : (((t.transpose a b).slice b 0 k).transpose b a).get idx
      = ((t.transpose a b).slice b 0 k).get (swapL b a idx) := by
    have : InB (swapL b a ((t.transpose a b).slice b 0 k).shape) idx := by
      have h := hs3
      change swapL b a ((t.transpose a b).slice b 0 k).shape = _ at h
      rw [h]; exact hidx
    exact ofFn_get_of _ _ this
  have e2 : ((t.transpose a b).slice b 0 k).get (swapL b a idx)
      = (t.transpose a b).get ((swapL b a idx).set b ((swapL b a idx).getD b 0 + 0)) := by
    exact ofFn_get_of _ _ hin2
  have hsub : (swapL b a idx).set b ((swapL b a idx).getD b 0 + 0) = swapL b a idx := by
    rw [Nat.add_zero, set_getD_self (by rw [swapL_length, hil]; exact hb)]
  have e4 : (t.slice a 0 k).get idx = t.get (idx.set a (idx.getD a 0 + 0)) := ofFn_get_of _ _ hin4
  have hsub4 : idx.set a (idx.getD a 0 + 0) = idx := by
    rw [Nat.add_zero, set_getD_self (by rw [hil]; exact ha')]
  have hsw : swapL a b (swapL b a idx) = idx := by
    apply list_ext_getD (by simp [swapL_length])
    intro d _
    rw [swapL_getD (by rw [swapL_length]; omega) (by rw [swapL_length]; omega)]
    simp only [swapL_getD (show b < idx.length by omega) (show a < idx.length by omega)]
    by_cases h1 : d = a
    · subst h1
      by_cases h2 : d = b
      · subst h2; simp
      · have h2' : ¬ b = d := fun h => h2 h.symm
        simp [h2, h2']
    · by_cases h2 : d = b
      · subst h2; simp
      · simp [h1, h2]
  have hin1 : InB (t.transpose a b).shape (swapL b a idx) := by
    rw [hs1]
    rw [hs2] at hin2
    rw [inB_iff] at hin2 ⊢
    refine ⟨by simp [swapL_length, hil], fun d hd => ?_⟩
    have := hin2.2 d (by rw [List.length_set]; exact hd)
    rw [getD_set_eq] at this
    split_ifs at this with hc
    · rw [hc.1] at this ⊢
      rw [swapL_getD ha' hb, if_pos rfl]
      omega
    · exact this
  have e3 : (t.transpose a b).get (swapL b a idx) = t.get (swapL a b (swapL b a idx)) :=
    ofFn_get_of _ _ hin1
  rw [e1, e2, hsub, e3, hsw, e4, hsub4]

/-- What the cut of `reconstruct` does. -/
theorem fit1_spec {axis : Int} {r old : Tensor R} (hr : ValidAxis r.rank axis) (ho : ValidAxis old.rank axis) :
    fit1 axis r old =
      if r.shape.getD (axisOf r.rank axis) 0 = old.shape.getD (axisOf old.rank axis) 0 then .ok r
      else if r.shape.getD (axisOf r.rank axis) 0 = old.shape.getD (axisOf old.rank axis) 0 + 1 then
        .ok (r.slice (axisOf r.rank axis) 0 (old.shape.getD (axisOf old.rank axis) 0))
      else .error .assertionError := by
  unfold fit1
  simp only [bind, Except.bind, sizeAt_ok hr, sizeAt_ok ho, normAxis_ok hr]
  split_ifs with h1 h2
  · rfl
  · simp only [pure, Except.pure, Except.ok.injEq]
    rw [h2, Nat.add_sub_cancel]
    exact swap_slice_swap (axisOf_lt hr) (by omega)
  · rfl

end

/-- One synthesis step and the cut undo one analysis step. -/
theorem packet1_inverts [Field R] [CharZero R] {w : Wavelet R} {F : Nat} {mode : Option String} {axis : Int}
    (hw : PRBank w F) (hF : 2 ≤ F) (he : F % 2 = 0) :
    Inverts (fun _ => True) (packetDec1 w mode axis) (packetSyn1 w axis) (fit1 axis) := by
  intro v vs _ h
  have hFw : w.len = F := hw.len.1
  obtain ⟨hv, hdt, m, lo, hi, hm, ha, rfl, hlo, hhi⟩ := packetDec1_char (by omega)
    (by rw [hFw]; exact hw.len.2.1) v h
  have hwd : wavedec v w mode (some 1) (.int axis) = .ok [lo, hi] := by
    unfold packetDec1 at h
    simpa only [bind, Except.bind, sizeAt_ok hv] using h
  obtain ⟨z, ez, zmd, -, z2, z3, z4⟩ := c01_perfect_reconstruction v w F mode (some 1) (.int axis) _ hw hF he hwd
  rw [axis1_int] at z2 z3
  have hax := axisOf_lt hv
  refine ⟨z, ?_, ?_⟩
  · unfold packetSyn1
    simp only [bind, Except.bind]
    rw [sizeAt_ok (by rw [hlo.rank]; exact hv)]
    exact ez
  · rcases Nat.mod_two_eq_zero_or_one (v.shape.getD (axisOf v.rank axis) 0) with h0 | h1
    · rw [z2 h0, fit1_spec hv hv, if_pos rfl]
    · have hs := z3 (by simp) h1
      have hzr : z.rank = v.rank := by unfold Tensor.rank; rw [hs, List.length_set]
      have hsz : z.shape.getD (axisOf v.rank axis) 0 = v.shape.getD (axisOf v.rank axis) 0 + 1 := by
        rw [hs, getD_set_self hax]
      rw [fit1_spec (by rw [hzr]; exact hv) hv, hzr, hsz, if_neg (by omega), if_pos rfl]
      congr 1
      have hss : (z.slice (axisOf v.rank axis) 0 (v.shape.getD (axisOf v.rank axis) 0)).shape = v.shape := by
        show z.shape.set _ (min _ _ - 0) = _
        rw [hsz, Nat.min_eq_left (by omega), Nat.sub_zero, hs, List.set_set, set_getD_self hax]
      refine Tensor.ext' (by exact zmd) hss ?_
      intro idx hidx
      have e : (z.slice (axisOf v.rank axis) 0 (v.shape.getD (axisOf v.rank axis) 0)).get idx
        = z.get (idx.set (axisOf v.rank axis) (idx.getD (axisOf v.rank axis) 0 + 0)) := ofFn_get_of _ _ hidx
      rw [hss] at hidx
      rw [e, Nat.add_zero, set_getD_self (by rw [hidx.length_eq]; exact hax)]
      exact z4 idx hidx

end Verif
