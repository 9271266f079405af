import Verif.Lemmas.LocalPoly
import Verif.Props.Conv1
import Verif.Props.ConvNd
import Verif.Props.Sep
import Verif.Props.Swt
import Mathlib.Tactic.IntervalCases
import Mathlib.Tactic.NormNum

/-! # C58: a coefficient depends only on the samples under its filter -/

namespace Verif.Props
open Verif Spec Tensor
variable {R : Type}

section nd

theorem insideN_length {F s : Nat} : ∀ {ws : List Window} {ks : List Nat}, InsideN F s ws ks → ks.length = ws.length
  | [], [], _ => rfl
  | _ :: _, _ :: _, h => by simp [insideN_length h.2]

theorem moved_length {u : Nat} : ∀ {ws : List Window} {ks : List Nat}, ks.length = ws.length →
    (moved u ws ks).length = ws.length
  | [], [], _ => rfl
  | _ :: ws, _ :: ks, h => by simp [moved, moved_length (u := u) (ws := ws) (ks := ks) (by simpa using h)]

theorem fits_inB {F : Nat} (hF : 2 ≤ F) {S s : Nat} (hs : s ≤ S) :
    ∀ {ws : List Window} {ns ns' ks : List Nat}, WindowsFit (2 ^ S) ws ns ns' → InsideN F s ws ks →
      InB (levelLens F ns s) ks ∧ InB (levelLens F ns' s) (moved (2 ^ (S - s)) ws ks)
  | [], [], [], [], _, _ => ⟨trivial, trivial⟩
  | w :: ws, n :: ns, n' :: ns', k :: ks, hf, hk => by
    obtain ⟨h1, h2⟩ := fits_inB hF hs hf.2.2 hk.2
    refine ⟨⟨by simpa using hk.1.lt hF (c := 0) (by simpa using hf.1), h1⟩, ⟨hk.1.lt hF ?_, h2⟩⟩
    rw [← Nat.mul_assoc, ← pow_add, show s + (S - s) = S by omega]
    exact hf.2.1
  | [], [], [], _ :: _, _, h => h.elim
  | _ :: _, _ :: _, _ :: _, [], _, h => h.elim
  | [], [], _ :: _, _, h, _ => h.elim
  | [], _ :: _, _, _, h, _ => h.elim
  | _ :: _, [], _, _, h, _ => h.elim
  | _ :: _, _ :: _, [], _, h, _ => h.elim

/-- The samples of a coefficient tensor in the plane through `idx`. -/
theorem plane_along [Zero R] {ax Ks : List Nat} {f : (List Nat → R) → List Nat → R} {x z : Tensor R} (hn : ax.Nodup)
    (hlt : ∀ a ∈ ax, a < x.rank) (h : AlongAxes ax Ks f x z) (hK : Ks.length = ax.length) {idx ks : List Nat}
    (hi : InB x.shape idx) (hk : InB Ks ks) : plane z ax idx ks = f (plane x ax idx) ks := by
  have hil : idx.length = x.shape.length := hi.length_eq
  have hkl : ks.length = ax.length := by rw [hk.length_eq, hK]
  have hlt' : ∀ a ∈ ax, a < x.shape.length := hlt
  have hin : InB z.shape (setMany idx ax ks) := by
    refine inB_setMany (s := z.shape) (Ks := sizes ax x.shape) hn ?_ (by simp [sizes]) ?_ ?_
    · rw [h.shape, setMany_length]; exact hlt
    · rw [h.shape, setMany_setMany hn hlt' (by simp [sizes])]
      have : setMany x.shape ax (sizes ax x.shape) = x.shape := setMany_pick_self _ _ hlt'
      rw [this]; exact hi
    · rw [h.shape, sizes_setMany hn hlt' hK]; exact hk
  show (if ks.length = ax.length then z.get (setMany idx ax ks) else 0) = _
  rw [if_pos hkl, h.get _ hin, sizes_setMany hn (by rw [hil]; exact hlt') hkl]
  congr 1
  funext js
  unfold plane
  split_ifs with hj
  · rw [setMany_setMany hn (by rw [hil]; exact hlt') hj]
  · rfl

theorem agree_of_isDwtN [NonUnitalNonAssocSemiring R] {D : (List Bool → Tensor R → Prop) → Entry R → Prop} {m m' : Mode}
    {w : Wavelet R} (hF : 2 ≤ w.len) (hhi : w.decHi.length = w.len) {ax ax' : List Nat} {L L' S : Nat} {x y : Tensor R}
    {c c' : Coeffs R} {ws : List Window}
    (hD : ∀ P e bs t, D P e → HoldsBand e bs t → P bs t ∧ bs.length = ax.length)
    (hn : ax.Nodup) (hlt : ∀ a ∈ ax, a < x.rank) (hn' : ax'.Nodup) (hlt' : ∀ a ∈ ax', a < y.rank)
    (hc : IsDwtN D m w ax L x c) (hc' : IsDwtN D m' w ax' L' y c')
    (hfit : WindowsFit (2 ^ S) ws (sizes ax x.shape) (sizes ax' y.shape)) {idx idx' : List Nat}
    (hi : InB x.shape idx) (hi' : InB y.shape idx') (hs : SameOn w.len 0 (2 ^ S) ws x ax idx y ax' idx') :
    AgreeN w.len S ws c ax idx c' ax' idx' := by
  obtain ⟨hl1, hl2⟩ := fits_length _ _ _ hfit
  have hwl : ws.length = ax.length := by rw [hl1]; simp [sizes]
  have hl := hc.length
  have hl' := hc'.length
  refine ⟨?_, ?_⟩
  · intro s hsS h1 h2 e e' bs t t' he he' hb hb' ks hk
    obtain ⟨e1, he1, hd1⟩ := hc.detail s (by omega)
    obtain ⟨e2, he2, hd2⟩ := hc'.detail s (by omega)
    rw [hl, Nat.add_sub_cancel, he1] at he
    rw [hl', Nat.add_sub_cancel, he2] at he'
    cases he; cases he'
    obtain ⟨p1, hbl⟩ := hD _ _ _ _ hd1 hb
    obtain ⟨p2, -⟩ := hD _ _ _ _ hd2 hb'
    obtain ⟨i1, i2⟩ := fits_inB hF (show s + 1 ≤ S by omega) hfit hk
    rw [plane_along hn hlt p1 (by simp [levelLens, sizes]) hi i1,
      plane_along hn' hlt' p2 (by simp [levelLens, sizes]) hi' i2]
    exact cDN_local hF hhi hfit hs (by omega) (by rw [hbl, hwl]) ks hk
  · intro hll hle
    obtain ⟨a, ha, p1⟩ := hc.approx
    obtain ⟨a', ha', p2⟩ := hc'.approx
    refine ⟨a, a', ha, ha', ?_⟩
    have eL : L' = L := by omega
    subst eL
    rw [hl, Nat.add_sub_cancel]
    intro ks hk
    obtain ⟨i1, i2⟩ := fits_inB hF (show L' ≤ S by omega) hfit hk
    rw [plane_along hn hlt p1 (by simp [levelLens, sizes]) hi i1,
      plane_along hn' hlt' p2 (by simp [levelLens, sizes]) hi' i2]
    exact cAN_local hF hhi hfit hs L' (by omega) ks hk

theorem holds_tuple [Zero R] (P : List Bool → Tensor R → Prop) (e : Entry R) (bs : List Bool) (t : Tensor R)
    (h : IsTuple P e) (hb : HoldsBand e bs t) : P bs t ∧ bs.length = 2 ∧ true ∈ bs := by
  obtain ⟨a, b, d, rfl, h1, h2, h3⟩ := h
  rcases hb with ⟨rfl, rfl⟩ | ⟨rfl, rfl⟩ | ⟨rfl, rfl⟩
  · exact ⟨h1, rfl, by simp⟩
  · exact ⟨h2, rfl, by simp⟩
  · exact ⟨h3, rfl, by simp⟩

theorem holds_dict [Zero R] {keys : List String} {n : Nat}
    (hk : ∀ k ∈ keys, (bandOfKey k).length = n ∧ true ∈ bandOfKey k) (P : List Bool → Tensor R → Prop) (e : Entry R)
    (bs : List Bool) (t : Tensor R) (h : IsDict keys P e) (hb : HoldsBand e bs t) :
    P bs t ∧ bs.length = n ∧ true ∈ bs := by
  obtain ⟨kv, rfl, h1, h2⟩ := h
  obtain ⟨key, hm, rfl⟩ := hb
  have : key ∈ keys := by rw [← h1]; exact List.mem_map.mpr ⟨_, hm, rfl⟩
  exact ⟨h2 _ hm, (hk key this).1, (hk key this).2⟩

theorem keys3_ok : ∀ k ∈ keys3, (bandOfKey k).length = 3 ∧ true ∈ bandOfKey k := by decide
theorem sepKeys2_ok : ∀ k ∈ sepDetailKeys 2, (bandOfKey k).length = 2 ∧ true ∈ bandOfKey k := by
  rw [sepDetailKeys2]; decide
theorem sepKeys3_ok : ∀ k ∈ sepDetailKeys 3, (bandOfKey k).length = 3 ∧ true ∈ bandOfKey k := by
  rw [sepDetailKeys3]; decide

theorem goodAxes_length {ah : AxisHint} {r n : Nat} (h : GoodAxes ah r n) : (axesOf ah r n).length = n := by
  simpa [axesOf] using h.len

/-- **C58.** Two images (or stacks of images, of any sizes, transformed along any axes, with any two boundary modes and
numbers of levels) whose samples agree on a window, up to an offset by a multiple of `2^S` samples along each axis: all
coefficients of `wavedec2` up to level `S` whose filter support lies in the window agree, with the offset divided by
`2^level`.  In particular a coefficient whose support lies inside the image does not depend on the boundary mode, nor on
the samples elsewhere, nor on how the image was cropped, and moves with the image. -/
theorem c58_wavedec2 [Semiring R] {x y : Tensor R} {w : Wavelet R} {mode mode' : Option String} {level level' : Option Int}
    {axes axes' : AxisHint} {c c' : Coeffs R} (hF : 2 ≤ w.len) (hhi : w.decHi.length = w.len)
    (hc : wavedec2 x w mode level axes = .ok c) (hc' : wavedec2 y w mode' level' axes' = .ok c') {S : Nat}
    {ws : List Window} (hfit : WindowsFit (2 ^ S) ws (sizes (axesOf axes x.rank 2) x.shape)
      (sizes (axesOf axes' y.rank 2) y.shape)) {idx idx' : List Nat} (hi : InB x.shape idx) (hi' : InB y.shape idx')
    (hs : SameOn w.len 0 (2 ^ S) ws x (axesOf axes x.rank 2) idx y (axesOf axes' y.rank 2) idx') :
    AgreeN w.len S ws c (axesOf axes x.rank 2) idx c' (axesOf axes' y.rank 2) idx' := by
  obtain ⟨hg, -, m, -, -, h1⟩ := wavedec2_ok hF hhi hc
  obtain ⟨hg', -, m', -, -, h2⟩ := wavedec2_ok hF hhi hc'
  refine agree_of_isDwtN hF hhi (fun P e bs t h hb => ?_) (axesOf_nodup hg) (axesOf_lt hg) (axesOf_nodup hg') (axesOf_lt hg') h1 h2 hfit hi hi' hs
  obtain ⟨p1, p2, -⟩ := holds_tuple P e bs t h hb
  exact ⟨p1, by rw [p2, goodAxes_length hg]⟩

/-- **C58** for `wavedec3` (at least one level). -/
theorem c58_wavedec3 [Semiring R] {x y : Tensor R} {w : Wavelet R} {mode mode' : Option String} {level level' : Option Int}
    {axes axes' : AxisHint} {c c' : Coeffs R} (hF : 2 ≤ w.len) (hhi : w.decHi.length = w.len)
    (hL : 0 < levelsN level w.len (sizes (axesOf axes x.rank 3) x.shape))
    (hL' : 0 < levelsN level' w.len (sizes (axesOf axes' y.rank 3) y.shape))
    (hc : wavedec3 x w mode level axes = .ok c) (hc' : wavedec3 y w mode' level' axes' = .ok c') {S : Nat}
    {ws : List Window} (hfit : WindowsFit (2 ^ S) ws (sizes (axesOf axes x.rank 3) x.shape)
      (sizes (axesOf axes' y.rank 3) y.shape)) {idx idx' : List Nat} (hi : InB x.shape idx) (hi' : InB y.shape idx')
    (hs : SameOn w.len 0 (2 ^ S) ws x (axesOf axes x.rank 3) idx y (axesOf axes' y.rank 3) idx') :
    AgreeN w.len S ws c (axesOf axes x.rank 3) idx c' (axesOf axes' y.rank 3) idx' := by
  obtain ⟨hg, -, m, -, -, h1⟩ := wavedec3_ok hF hhi hL hc
  obtain ⟨hg', -, m', -, -, h2⟩ := wavedec3_ok hF hhi hL' hc'
  refine agree_of_isDwtN hF hhi (fun P e bs t h hb => ?_) (axesOf_nodup hg) (axesOf_lt hg) (axesOf_nodup hg') (axesOf_lt hg') h1 h2 hfit hi hi' hs
  obtain ⟨p1, p2, -⟩ := holds_dict keys3_ok P e bs t h hb
  exact ⟨p1, by rw [p2, goodAxes_length hg]⟩

/-- **C58** for `fswavedec2`. -/
theorem c58_fswavedec2 [Semiring R] {x y : Tensor R} {w : Wavelet R} {mode mode' : Option String} {level level' : Option Int}
    {axes axes' : AxisHint} {c c' : Coeffs R} (hF : 2 ≤ w.len) (hhi : w.decHi.length = w.len)
    (hc : fswavedec2 x w mode level axes = .ok c) (hc' : fswavedec2 y w mode' level' axes' = .ok c') {S : Nat}
    {ws : List Window} (hfit : WindowsFit (2 ^ S) ws (sizes (axesOf axes x.rank 2) x.shape)
      (sizes (axesOf axes' y.rank 2) y.shape)) {idx idx' : List Nat} (hi : InB x.shape idx) (hi' : InB y.shape idx')
    (hs : SameOn w.len 0 (2 ^ S) ws x (axesOf axes x.rank 2) idx y (axesOf axes' y.rank 2) idx') :
    AgreeN w.len S ws c (axesOf axes x.rank 2) idx c' (axesOf axes' y.rank 2) idx' := by
  obtain ⟨hg, -, -, m, -, -, h1⟩ := fswavedecn_ok (n := 2) (by omega) hF hhi hc
  obtain ⟨hg', -, -, m', -, -, h2⟩ := fswavedecn_ok (n := 2) (by omega) hF hhi hc'
  refine agree_of_isDwtN hF hhi (fun P e bs t h hb => ?_) (axesOf_nodup hg) (axesOf_lt hg) (axesOf_nodup hg') (axesOf_lt hg') h1 h2 hfit hi hi' hs
  obtain ⟨p1, p2, -⟩ := holds_dict sepKeys2_ok P e bs t h hb
  exact ⟨p1, by rw [p2, goodAxes_length hg]⟩

/-- **C58** for `fswavedec3`. -/
theorem c58_fswavedec3 [Semiring R] {x y : Tensor R} {w : Wavelet R} {mode mode' : Option String} {level level' : Option Int}
    {axes axes' : AxisHint} {c c' : Coeffs R} (hF : 2 ≤ w.len) (hhi : w.decHi.length = w.len)
    (hc : fswavedec3 x w mode level axes = .ok c) (hc' : fswavedec3 y w mode' level' axes' = .ok c') {S : Nat}
    {ws : List Window} (hfit : WindowsFit (2 ^ S) ws (sizes (axesOf axes x.rank 3) x.shape)
      (sizes (axesOf axes' y.rank 3) y.shape)) {idx idx' : List Nat} (hi : InB x.shape idx) (hi' : InB y.shape idx')
    (hs : SameOn w.len 0 (2 ^ S) ws x (axesOf axes x.rank 3) idx y (axesOf axes' y.rank 3) idx') :
    AgreeN w.len S ws c (axesOf axes x.rank 3) idx c' (axesOf axes' y.rank 3) idx' := by
  obtain ⟨hg, -, -, m, -, -, h1⟩ := fswavedecn_ok (n := 3) (by omega) hF hhi hc
  obtain ⟨hg', -, -, m', -, -, h2⟩ := fswavedecn_ok (n := 3) (by omega) hF hhi hc'
  refine agree_of_isDwtN hF hhi (fun P e bs t h hb => ?_) (axesOf_nodup hg) (axesOf_lt hg) (axesOf_nodup hg') (axesOf_lt hg') h1 h2 hfit hi hi' hs
  obtain ⟨p1, p2, -⟩ := holds_dict sepKeys3_ok P e bs t h hb
  exact ⟨p1, by rw [p2, goodAxes_length hg]⟩

/-! ### Constant images -/

theorem tapSum_eq [AddCommMonoid R] : ∀ h : List R, tapSum h = h.sum
  | [] => rfl
  | a :: h => by
    unfold tapSum
    rw [List.length_cons, Finset.sum_range_succ']
    simp only [List.getD_cons_succ, List.getD_cons_zero, List.sum_cons]
    rw [add_comm]
    congr 1
    exact tapSum_eq h

/-- Every detail in the plane through `idx` is 0 and the approximation has the value `v` everywhere. -/
structure FlatN [Zero R] (c : Coeffs R) (ax idx : List Nat) (v : R) : Prop where
  detail : ∀ s, s + 1 < c.items.length → ∀ e bs t, c.items[c.items.length - 1 - s]? = some e → HoldsBand e bs t →
    ∀ ks, InB (sizes ax t.shape) ks → plane t ax idx ks = 0
  approx : ∃ a, c.items[0]? = some (.tensor a) ∧ ∀ ks, InB (sizes ax a.shape) ks → plane a ax idx ks = v

theorem flat_of_isDwtN [CommSemiring R] {D : (List Bool → Tensor R → Prop) → Entry R → Prop} {m : Mode}
    {w : Wavelet R} (hm : m ≠ .zero) (hF : 2 ≤ w.len) (hz : w.decHi.sum = 0) {ax : List Nat} {L : Nat}
    {x : Tensor R} {c : Coeffs R}
    (hD : ∀ P e bs t, D P e → HoldsBand e bs t → P bs t ∧ bs.length = ax.length ∧ true ∈ bs)
    (hn : ax.Nodup) (hlt : ∀ a ∈ ax, a < x.rank) (hc : IsDwtN D m w ax L x c) {idx : List Nat} (hi : InB x.shape idx)
    {v : R} (hv : ∀ ks, InB (sizes ax x.shape) ks → plane x ax idx ks = v) :
    FlatN c ax idx (v * w.decLo.sum ^ (ax.length * L)) := by
  have hl := hc.length
  have hpos : ∀ n ∈ sizes ax x.shape, 0 < n := by
    intro n hn
    obtain ⟨a, ha, rfl⟩ := List.mem_map.mp hn
    have := (inB_iff.mp hi).2 a (hlt a ha)
    omega
  have hsl : (sizes ax x.shape).length = ax.length := by simp [sizes]
  refine ⟨?_, ?_⟩
  · intro s hs e bs t he hb ks hk
    obtain ⟨e1, he1, hd1⟩ := hc.detail s (by omega)
    rw [hl, Nat.add_sub_cancel, he1] at he
    cases he
    obtain ⟨p1, hbl, htr⟩ := hD _ _ _ _ hd1 hb
    rw [p1.shape, sizes_setMany hn hlt (by simp [levelLens, sizes])] at hk
    rw [plane_along hn hlt p1 (by simp [levelLens, sizes]) hi hk]
    exact cDN_const hm hF (by rw [tapSum_eq]; exact hz) hpos hv htr (by rw [hbl, hsl])
      (by rw [hk.length_eq]; simp [levelLens])
  · obtain ⟨a, ha, p1⟩ := hc.approx
    refine ⟨a, ha, fun ks hk => ?_⟩
    rw [p1.shape, sizes_setMany hn hlt (by simp [levelLens, sizes])] at hk
    rw [plane_along hn hlt p1 (by simp [levelLens, sizes]) hi hk, cAN_const hm hF hpos hv L ks hk, hsl, tapSum_eq]

/-- **C58.** In every boundary mode but `zero` the details of a constant image vanish (if the high-pass filter sums to 0),
and its approximation is the constant times the sum of the low-pass filter to the power `2 L`; likewise for volumes and the
separable transforms. -/
theorem c58_constant_nd [CommSemiring R] {x : Tensor R} {w : Wavelet R} {mode : Option String} {m : Mode}
    {level : Option Int} {axes : AxisHint} {c : Coeffs R} (hF : 2 ≤ w.len) (hhi : w.decHi.length = w.len)
    (hz : w.decHi.sum = 0) (hm : Selects mode m) (hm0 : m ≠ .zero) {idx : List Nat} (hi : InB x.shape idx) {v : R} :
    ((wavedec2 x w mode level axes = .ok c ∨ fswavedec2 x w mode level axes = .ok c) →
      (∀ ks, InB (sizes (axesOf axes x.rank 2) x.shape) ks → plane x (axesOf axes x.rank 2) idx ks = v) →
      FlatN c (axesOf axes x.rank 2) idx (v * w.decLo.sum ^ (2 * (c.items.length - 1)))) ∧
    ((wavedec3 x w mode level axes = .ok c ∧ 0 < levelsN level w.len (sizes (axesOf axes x.rank 3) x.shape) ∨
        fswavedec3 x w mode level axes = .ok c) →
      (∀ ks, InB (sizes (axesOf axes x.rank 3) x.shape) ks → plane x (axesOf axes x.rank 3) idx ks = v) →
      FlatN c (axesOf axes x.rank 3) idx (v * w.decLo.sum ^ (3 * (c.items.length - 1)))) := by
  have uniq : ∀ m', Selects mode m' → m' = m := fun m' h' => selects_unique h' hm
  have fin : ∀ {n : Nat} {D : (List Bool → Tensor R → Prop) → Entry R → Prop} {L : Nat} {m' : Mode},
      GoodAxes axes x.rank n → (∀ P e bs t, D P e → HoldsBand e bs t → P bs t ∧ bs.length = n ∧ true ∈ bs) →
      (Selects mode m' ∨ L = 0) → IsDwtN D m' w (axesOf axes x.rank n) L x c →
      (∀ ks, InB (sizes (axesOf axes x.rank n) x.shape) ks → plane x (axesOf axes x.rank n) idx ks = v) →
      FlatN c (axesOf axes x.rank n) idx (v * w.decLo.sum ^ (n * (c.items.length - 1))) := by
    intro n D L m' hg hD hsel hdwt hv
    have hd : IsDwtN D m w (axesOf axes x.rank n) L x c := by
      rcases hsel with h | h
      · rw [← uniq m' h]; exact hdwt
      · subst h
        exact ⟨hdwt.kind, hdwt.length, hdwt.approx, fun s hs => absurd hs (by omega)⟩
    have := flat_of_isDwtN hm0 hF hz (fun P e bs t h hb => by
      have := hD P e bs t h hb; rw [goodAxes_length hg]; exact this) (axesOf_nodup hg) (axesOf_lt hg) hd hi hv
    rwa [goodAxes_length hg, show L = c.items.length - 1 by rw [hd.length]; rfl] at this
  refine ⟨?_, ?_⟩
  · rintro (hc | hc) hv
    · obtain ⟨hg, -, m', hs, -, h1⟩ := wavedec2_ok hF hhi hc
      exact fin hg holds_tuple hs h1 hv
    · obtain ⟨hg, -, -, m', hs, -, h1⟩ := fswavedecn_ok (n := 2) (by omega) hF hhi hc
      exact fin hg (holds_dict sepKeys2_ok) hs h1 hv
  · rintro (⟨hc, hL⟩ | hc) hv
    · obtain ⟨hg, -, m', hs, -, h1⟩ := wavedec3_ok hF hhi hL hc
      exact fin hg (holds_dict keys3_ok) (.inl hs) h1 hv
    · obtain ⟨hg, -, -, m', hs, -, h1⟩ := fswavedecn_ok (n := 3) (by omega) hF hhi hc
      exact fin hg (holds_dict sepKeys3_ok) hs h1 hv

end nd

/-! ### Signals -/

theorem line_along [Zero R] {a K : Nat} {f : (Nat → R) → Nat → R} {x z : Tensor R} (ha : a < x.rank)
    (h : AlongAxis a K f x z) {idx : List Nat} {k : Nat} (hi : InB x.shape idx) (hk : k < K) :
    line z a idx k = f (line x a idx) k := by
  have hil : idx.length = x.shape.length := hi.length_eq
  have hin : InB z.shape (idx.set a k) := by
    rw [h.shape, inB_iff]
    refine ⟨by simp [hil], ?_⟩
    intro d hd
    rw [List.length_set] at hd
    by_cases hda : d = a
    · subst hda
      rw [getD_set_self hd, getD_set_self (by rw [hil]; exact hd)]
      exact hk
    · rw [getD_set_ne (Ne.symm hda), getD_set_ne (Ne.symm hda)]
      exact (inB_iff.mp hi).2 d hd
  show z.get (idx.set a k) = _
  rw [h.get _ hin, getD_set_self (by rw [hil]; exact ha)]
  congr 1
  funext j
  unfold line
  rw [List.set_set]

theorem wavedec_axis [NonUnitalNonAssocSemiring R] {x : Tensor R} {w : Wavelet R} {mode : Option String}
    {level : Option Int} {axis : AxisHint} {cs : List (Tensor R)} (hF : 2 ≤ w.len)
    (hhi : w.decHi.length = w.len) (hcs : wavedec x w mode level axis = .ok cs) : axis1 axis x.rank < x.rank := by
  obtain ⟨h1, -⟩ := wavedec_char (mode := mode) (x := x) (level := level) (h := axis) hF hhi
  by_contra hcon
  obtain ⟨e, he⟩ := h1 fun h => hcon (axis1_lt h.1)
  rw [he] at hcs
  cases hcs

/-- **C58** for `wavedec`: whatever the two boundary modes, sizes, axes and numbers of levels are, coefficients whose filter
support lies in a window on which the two signals agree (up to an offset of a multiple of `2^S`) are the same. -/
theorem c58_wavedec [NonUnitalNonAssocSemiring R] {x y : Tensor R} {w : Wavelet R} {mode mode' : Option String}
    {level level' : Option Int} {axis axis' : AxisHint} {cs ds : List (Tensor R)} (hF : 2 ≤ w.len)
    (hhi : w.decHi.length = w.len) (hcs : wavedec x w mode level axis = .ok cs)
    (hds : wavedec y w mode' level' axis' = .ok ds) {S lo hi shift : Nat}
    (h1 : hi ≤ x.shape.getD (axis1 axis x.rank) 0) (h2 : hi + 2 ^ S * shift ≤ y.shape.getD (axis1 axis' y.rank) 0)
    {idx idx' : List Nat} (hi1 : InB x.shape idx) (hi2 : InB y.shape idx')
    (hs : ∀ t, lo ≤ t → t < hi → line x (axis1 axis x.rank) idx t = line y (axis1 axis' y.rank) idx' (t + 2 ^ S * shift)) :
    (∀ s, s < S → s + 1 < cs.length → s + 1 < ds.length → ∀ d d', cs[cs.length - 1 - s]? = some d →
      ds[ds.length - 1 - s]? = some d' → ∀ k, Inside w.len (s + 1) lo hi k →
        line d (axis1 axis x.rank) idx k = line d' (axis1 axis' y.rank) idx' (k + 2 ^ (S - (s + 1)) * shift)) ∧
    (cs.length = ds.length → cs.length ≤ S + 1 → ∃ a a', cs[0]? = some a ∧ ds[0]? = some a' ∧
      ∀ k, Inside w.len (cs.length - 1) lo hi k →
        line a (axis1 axis x.rank) idx k = line a' (axis1 axis' y.rank) idx' (k + 2 ^ (S - (cs.length - 1)) * shift)) := by
  obtain ⟨m, -, hd1⟩ := c02_wavedec_textbook x w mode level axis cs hF hhi hcs
  obtain ⟨m', -, hd2⟩ := c02_wavedec_textbook y w mode' level' axis' ds hF hhi hds
  have ha := wavedec_axis hF hhi hcs
  have ha' := wavedec_axis hF hhi hds
  have hl := hd1.length
  have hl' := hd2.length
  generalize levels level w.len (x.shape.getD (axis1 axis x.rank) 0) = L at *
  generalize levels level' w.len (y.shape.getD (axis1 axis' y.rank) 0) = L' at *
  have hfit : WindowsFit (2 ^ S) [⟨lo, hi, shift⟩] [x.shape.getD (axis1 axis x.rank) 0]
      [y.shape.getD (axis1 axis' y.rank) 0] := ⟨h1, h2, trivial⟩
  have hX : ∀ js, InsideN w.len 0 [⟨lo, hi, shift⟩] js → (fun js : List Nat => line x (axis1 axis x.rank) idx (js.headD 0)) js =
      (fun js : List Nat => line y (axis1 axis' y.rank) idx' (js.headD 0)) (moved (2 ^ S) [⟨lo, hi, shift⟩] js) := by
    rintro (_ | ⟨k, _ | ⟨_, _⟩⟩) h
    · exact h.elim
    · obtain ⟨⟨p1, p2⟩, -⟩ := h
      simp only [pow_zero, Nat.sub_self, Nat.zero_mul, Nat.one_mul] at p1 p2
      exact hs k (by omega) (by omega)
    · exact h.2.elim
  refine ⟨?_, ?_⟩
  · intro s hsS e1 e2 d d' hd hd' k hk
    rw [hl, Nat.add_sub_cancel] at hd
    rw [hl', Nat.add_sub_cancel] at hd'
    obtain ⟨i1, i2⟩ := fits_inB hF (show s + 1 ≤ S by omega) hfit (show InsideN w.len (s + 1) [⟨lo, hi, shift⟩] [k] from ⟨hk, trivial⟩)
    rw [line_along ha (hd1.detail s d (by omega) hd) hi1 i1.1, line_along ha' (hd2.detail s d' (by omega) hd') hi2 i2.1]
    have := cDN_local (m := m) (m' := m') hF hhi hfit (X := fun js => line x (axis1 axis x.rank) idx (js.headD 0))
      (X' := fun js => line y (axis1 axis' y.rank) idx' (js.headD 0)) hX (s := s) (by omega) (bs := [true]) rfl [k] ⟨hk, trivial⟩
    simp only [moved] at this
    rw [cDN_one, cDN_one] at this
    exact this
  · intro hll hle
    have e1 : 0 < cs.length := by omega
    have e2 : 0 < ds.length := by omega
    refine ⟨cs[0], ds[0], List.getElem?_eq_getElem e1, List.getElem?_eq_getElem e2, ?_⟩
    have eL : L' = L := by omega
    subst eL
    rw [hl, Nat.add_sub_cancel]
    intro k hk
    obtain ⟨i1, i2⟩ := fits_inB hF (show L' ≤ S by omega) hfit (show InsideN w.len L' [⟨lo, hi, shift⟩] [k] from ⟨hk, trivial⟩)
    rw [line_along ha (hd1.approx _ (List.getElem?_eq_getElem e1)) hi1 i1.1,
      line_along ha' (hd2.approx _ (List.getElem?_eq_getElem e2)) hi2 i2.1]
    have := cAN_local (m := m) (m' := m') hF hhi hfit (X := fun js => line x (axis1 axis x.rank) idx (js.headD 0))
      (X' := fun js => line y (axis1 axis' y.rank) idx' (js.headD 0)) hX L' (by omega) [k] ⟨hk, trivial⟩
    simp only [moved] at this
    rw [cAN_one, cAN_one] at this
    exact this

/-- **C58.** A coefficient whose filter support lies inside the signal does not depend on the boundary mode (here for two
calls on the same tensor). -/
theorem c58_mode_independent [NonUnitalNonAssocSemiring R] {x : Tensor R} {w : Wavelet R} {mode mode' : Option String}
    {level : Option Int} {axis : AxisHint} {cs ds : List (Tensor R)} (hF : 2 ≤ w.len)
    (hhi : w.decHi.length = w.len) (hcs : wavedec x w mode level axis = .ok cs)
    (hds : wavedec x w mode' level axis = .ok ds) {s : Nat} (hs : s + 1 < cs.length) {d d' : Tensor R}
    (hd : cs[cs.length - 1 - s]? = some d) (hd' : ds[ds.length - 1 - s]? = some d') {idx : List Nat}
    (hi : InB d.shape idx)
    (hk : (2 ^ (s + 1) - 1) * (w.len - 1) < 2 ^ (s + 1) * (idx.getD (axis1 axis x.rank) 0 + 1) ∧
      2 ^ (s + 1) * (idx.getD (axis1 axis x.rank) 0 + 1) ≤ x.shape.getD (axis1 axis x.rank) 0) :
    d.get idx = d'.get idx := by
  obtain ⟨m, -, hd1⟩ := c02_wavedec_textbook x w mode level axis cs hF hhi hcs
  obtain ⟨m', -, hd2⟩ := c02_wavedec_textbook x w mode' level axis ds hF hhi hds
  have ha := wavedec_axis hF hhi hcs
  have hl : ds.length = cs.length := by rw [hd1.length, hd2.length]
  have hsh := (hd1.detail s d (by rw [hd1.length] at hs; omega) (by rw [hd1.length, Nat.add_sub_cancel] at hd; exact hd)).shape
  set a := axis1 axis x.rank with hadef
  have hil : idx.length = x.shape.length := by rw [hi.length_eq, hsh, List.length_set]
  have hpos : 0 < x.shape.getD a 0 := lt_of_lt_of_le (by positivity) hk.2
  have hi0 : InB x.shape (idx.set a 0) := by
    rw [inB_iff]
    refine ⟨by simp [hil], fun b hb => ?_⟩
    by_cases hba : b = a
    · subst hba
      rw [getD_set_self (by rw [hil]; exact hb)]
      exact hpos
    · rw [getD_set_ne (Ne.symm hba)]
      have := (inB_iff.mp hi).2 b (by rw [hsh, List.length_set]; exact hb)
      rwa [hsh, getD_set_ne (Ne.symm hba)] at this
  have := (c58_wavedec hF hhi hcs hds (S := s + 1) (lo := 0) (hi := x.shape.getD a 0) (shift := 0) (le_refl _)
    (by simp [hadef]) hi0 hi0 (fun t _ _ => by simp)).1 s (by omega) hs (by omega) d d' hd hd'
    (idx.getD a 0) ⟨by omega, hk.2⟩
  have hset : (idx.set a 0).set a (idx.getD a 0) = idx := by
    rw [List.set_set]
    exact set_getD_self (by rw [hil]; exact ha)
  unfold line at this
  simp only [Nat.mul_zero, Nat.add_zero] at this
  rw [← hadef, hset] at this
  exact this

/-- **C58.** Vanishing moments: if the high-pass filter annihilates polynomials of degree below `p` and the signal is such
a polynomial on a window, every detail whose filter support lies in the window is 0, at every level and whatever the
signal and the boundary mode do elsewhere; the approximation is a polynomial of at most the same degree there. -/
theorem c58_polynomial [CommRing R] {x : Tensor R} {w : Wavelet R} {mode : Option String} {level : Option Int}
    {axis : AxisHint} {cs : List (Tensor R)} (hF : 2 ≤ w.len) (hhi : w.decHi.length = w.len)
    (hcs : wavedec x w mode level axis = .ok cs) {p : Nat} (hp : VanishingMoments p w.decHi) {P : Polynomial R}
    (hP : P.natDegree < p) {lo hi : Nat} (h1 : hi ≤ x.shape.getD (axis1 axis x.rank) 0) {idx : List Nat}
    (hi1 : InB x.shape idx) (hs : ∀ t, lo ≤ t → t < hi → line x (axis1 axis x.rank) idx t = P.eval (t : R)) :
    (∀ s, s + 1 < cs.length → ∀ d, cs[cs.length - 1 - s]? = some d → ∀ k, Inside w.len (s + 1) lo hi k →
      line d (axis1 axis x.rank) idx k = 0) ∧
    ∃ a, cs[0]? = some a ∧ ∃ Q : Polynomial R, Q.natDegree ≤ P.natDegree ∧
      ∀ k, Inside w.len (cs.length - 1) lo hi k → line a (axis1 axis x.rank) idx k = Q.eval (k : R) := by
  obtain ⟨m, -, hd1⟩ := c02_wavedec_textbook x w mode level axis cs hF hhi hcs
  have ha := wavedec_axis hF hhi hcs
  have hl := hd1.length
  generalize levels level w.len (x.shape.getD (axis1 axis x.rank) 0) = L at *
  refine ⟨?_, ?_⟩
  · intro s h2 d hd k hk
    rw [hl, Nat.add_sub_cancel] at hd
    rw [line_along ha (hd1.detail s d (by omega) hd) hi1
      (by simpa using hk.lt hF (c := 0) (by simpa using h1))]
    exact cD_poly hF hhi hp h1 hP hs hk
  · have e1 : 0 < cs.length := by omega
    obtain ⟨Q, hQ, hc⟩ := cA_poly (m := m) hF h1 hs L
    refine ⟨cs[0], List.getElem?_eq_getElem e1, Q, hQ, fun k hk => ?_⟩
    rw [hl, Nat.add_sub_cancel] at hk
    rw [line_along ha (hd1.approx _ (List.getElem?_eq_getElem e1)) hi1
      (by simpa using hk.lt hF (c := 0) (by simpa using h1))]
    exact hc k hk

/-- Every detail of the line is 0 and the approximation has the value `v` everywhere. -/
structure FlatLine [Zero R] (cs : List (Tensor R)) (a : Nat) (idx : List Nat) (v : R) : Prop where
  detail : ∀ i, 0 < i → ∀ d, cs[i]? = some d → ∀ k, k < d.shape.getD a 0 → line d a idx k = 0
  approx : ∃ t, cs[0]? = some t ∧ ∀ k, k < t.shape.getD a 0 → line t a idx k = v

/-- **C58.** The details of a constant signal vanish, at the borders too, in every mode of `wavedec` but `zero`, and in
`swt` (whenever its wrap-around is harmless, see C22); the approximation is the constant times the `L`-th power of the sum
of the low-pass filter. -/
theorem c58_constant [CommSemiring R] {x : Tensor R} {w : Wavelet R} {level : Option Int} {axis : AxisHint}
    {cs : List (Tensor R)} (hF : 2 ≤ w.len) (hhi : w.decHi.length = w.len) (hz : w.decHi.sum = 0) {idx : List Nat}
    (hi : InB x.shape idx) {v : R}
    (hv : ∀ t, t < x.shape.getD (axis1 axis x.rank) 0 → line x (axis1 axis x.rank) idx t = v) :
    (∀ mode m, Selects mode m → m ≠ .zero → wavedec x w mode level axis = .ok cs →
      FlatLine cs (axis1 axis x.rank) idx (v * w.decLo.sum ^ (cs.length - 1))) ∧
    (w.len % 2 = 0 → WrapOk (x.shape.getD (axis1 axis x.rank) 0) w.len
      (swtLevel level (x.shape.getD (axis1 axis x.rank) 0)) → swt x w level axis = .ok cs →
      GoodAxes axis x.rank 1 → (x.md.dtype = .float32 ∨ x.md.dtype = .float64) →
      FlatLine cs (axis1 axis x.rank) idx (v * w.decLo.sum ^ (cs.length - 1))) := by
  refine ⟨?_, ?_⟩
  · intro mode m hm hm0 hcs
    obtain ⟨m', hsel, hd1⟩ := c02_wavedec_textbook x w mode level axis cs hF hhi hcs
    have ha := wavedec_axis hF hhi hcs
    have hl := hd1.length
    have hn : 0 < x.shape.getD (axis1 axis x.rank) 0 := by
      have := (inB_iff.mp hi).2 _ ha
      omega
    have hm' : m' = m ∨ levels level w.len (x.shape.getD (axis1 axis x.rank) 0) = 0 :=
      hsel.imp (fun h => selects_unique h hm) id
    generalize levels level w.len (x.shape.getD (axis1 axis x.rank) 0) = L at *
    have hX : ∀ js, InB [x.shape.getD (axis1 axis x.rank) 0] js →
        (fun js : List Nat => line x (axis1 axis x.rank) idx (js.headD 0)) js = v := by
      rintro (_ | ⟨k, _ | ⟨_, _⟩⟩) h
      · exact h.elim
      · exact hv k h.1
      · exact h.2.elim
    have hsize : ∀ {K f} {z : Tensor R}, AlongAxis (axis1 axis x.rank) K f x z → z.shape.getD (axis1 axis x.rank) 0 = K := by
      intro K f z h
      rw [h.shape, getD_set_self ha]
    refine ⟨?_, ?_⟩
    · intro i hi0 d hd k hk
      have hiL : i < cs.length := by
        by_contra hcon
        rw [List.getElem?_eq_none (by omega)] at hd
        cases hd
      have hm'' : m' = m := hm'.resolve_right (by omega)
      have hal := hd1.detail (L - i) d (by omega) (by rw [show L - (L - i) = i by omega]; exact hd)
      rw [hsize hal] at hk
      rw [line_along ha hal hi hk, hm'']
      have := cDN_const (ns := [x.shape.getD (axis1 axis x.rank) 0]) hm0 hF (by rw [tapSum_eq]; exact hz)
        (by simpa using hn) (X := fun js => line x (axis1 axis x.rank) idx (js.headD 0)) hX (bs := [true]) (by simp) rfl
        (s := L - i) (ks := [k]) rfl
      rwa [cDN_one] at this
    · have e1 : 0 < cs.length := by omega
      have hal := hd1.approx _ (List.getElem?_eq_getElem e1)
      refine ⟨cs[0], List.getElem?_eq_getElem e1, fun k hk => ?_⟩
      rw [hsize hal] at hk
      rw [line_along ha hal hi hk, hl, Nat.add_sub_cancel]
      rcases hm' with hm' | hL
      · rw [hm']
        have := cAN_const (ns := [x.shape.getD (axis1 axis x.rank) 0]) hm0 hF
          (by simpa using hn) (X := fun js => line x (axis1 axis x.rank) idx (js.headD 0)) hX L [k] ⟨hk, trivial⟩
        rw [cAN_one, tapSum_eq] at this
        simpa using this
      · subst hL
        simpa [cA] using hv k hk
  · intro he hw hcs hg hdt
    have ha : axis1 axis x.rank < x.rank := axis1_lt hg
    have hn : 0 < x.shape.getD (axis1 axis x.rank) 0 := by
      have := (inB_iff.mp hi).2 _ ha
      omega
    obtain ⟨cs', e, hd1⟩ := c24_textbook x w level axis hg hdt hF he hhi hn hw
    rw [e] at hcs
    cases hcs
    have hl := hd1.length
    generalize swtLevel level (x.shape.getD (axis1 axis x.rank) 0) = L at *
    have hsize : ∀ {K f} {z : Tensor R}, AlongAxis (axis1 axis x.rank) K f x z → z.shape.getD (axis1 axis x.rank) 0 = K := by
      intro K f z h
      rw [h.shape, getD_set_self ha]
    refine ⟨?_, ?_⟩
    · intro i hi0 d hd k hk
      have hiL : i < cs.length := by
        by_contra hcon
        rw [List.getElem?_eq_none (by omega)] at hd
        cases hd
      have hal := hd1.detail (L - i) d (by omega) (by rw [show L - (L - i) = i by omega]; exact hd)
      rw [hsize hal] at hk
      rw [line_along ha hal hi hk]
      exact swtD_const (by rw [tapSum_eq]; exact hz) hn hv _ _
    · have e1 : 0 < cs.length := by omega
      have hal := hd1.approx _ (List.getElem?_eq_getElem e1)
      refine ⟨cs[0], List.getElem?_eq_getElem e1, fun k hk => ?_⟩
      rw [hsize hal] at hk
      rw [line_along ha hal hi hk, hl, Nat.add_sub_cancel, swtA_const hn hv L k hk, tapSum_eq]

/-! ### The hypotheses can be met -/

/-- The biorthogonal spline bank `bior3.1` with rational taps: its high-pass filter has three vanishing moments. -/
def spline : Wavelet ℚ :=
  ⟨[-1/4, 3/4, 3/4, -1/4], [-1/8, 3/8, -3/8, 1/8], [1/4, 3/4, 3/4, 1/4], [-1/2, -3/2, 3/2, 1/2]⟩

theorem spline_moments : VanishingMoments 3 spline.decHi := by
  intro m hm
  interval_cases m <;> norm_num [spline, Finset.sum_range_succ]

/-- A batch of two squares: `t²` and `t² + 10`. -/
def exSq : Tensor ℚ := ofFn ⟨.float64, 0⟩ [2, 16] fun i => (i.getD 1 0 : ℚ) ^ 2 + 10 * i.getD 0 0

/-- Zero padding and symmetric padding of the squares: both transforms exist, the inner details of both levels vanish, and
the inner details agree in the two modes. -/
example : ∃ cs ds, wavedec exSq spline (some "zero") (some 2) .none = .ok cs ∧
    wavedec exSq spline (some "symmetric") (some 2) .none = .ok ds ∧ cs.length = 3 ∧
    (∀ s d d', s < 2 → cs[2 - s]? = some d → ds[2 - s]? = some d' → ∀ k, Inside 4 (s + 1) 0 16 k →
      d.get [1, k] = 0 ∧ d'.get [1, k] = 0) ∧ Inside 4 1 0 16 3 ∧ Inside 4 2 0 16 2 := by
  have hg : GoodAxes .none exSq.rank 1 := goodAxes_none (by decide) (by decide)
  have hax : axis1 .none exSq.rank = 1 := by decide
  have hsz : exSq.shape.getD 1 0 = 16 := by decide
  obtain ⟨cs, hcs⟩ := c04_total_modes exSq spline (some "zero") .zero (some 2) .none (.inl rfl) (by decide) rfl hg
    (.inr rfl) (by decide) (.inl rfl)
  obtain ⟨ds, hds⟩ := c04_total_modes exSq spline (some "symmetric") .symmetric (some 2) .none (.inl rfl) (by decide) rfl hg
    (.inr rfl) (by decide) (.inr (.inr rfl))
  have hval : ∀ t, 0 ≤ t → t < 16 → line exSq (axis1 .none exSq.rank) [1, 0] t =
      (Polynomial.X ^ 2 + Polynomial.C 10 : Polynomial ℚ).eval (t : ℚ) := by
    intro t _ ht
    rw [hax]
    show exSq.get [1, t] = _
    unfold exSq
    rw [ofFn_get_of _ _ (by exact ⟨by decide, ht, trivial⟩)]
    simp
  have hdeg : (Polynomial.X ^ 2 + Polynomial.C 10 : Polynomial ℚ).natDegree < 3 := by
    refine lt_of_le_of_lt (Polynomial.natDegree_add_le _ _) ?_
    simp
  have hin : InB exSq.shape [1, 0] := ⟨by decide, by decide, trivial⟩
  have hl : cs.length = 3 := by
    obtain ⟨m, -, h⟩ := c02_wavedec_textbook exSq spline _ _ _ cs (by decide) rfl hcs
    exact h.length
  have hl' : ds.length = 3 := by
    obtain ⟨m, -, h⟩ := c02_wavedec_textbook exSq spline _ _ _ ds (by decide) rfl hds
    exact h.length
  have r1 := (c58_polynomial (by decide) rfl hcs spline_moments hdeg (lo := 0) (hi := 16) (by decide) hin hval).1
  have r2 := (c58_polynomial (by decide) rfl hds spline_moments hdeg (lo := 0) (hi := 16) (by decide) hin hval).1
  rw [hl, hax] at r1
  rw [hl', hax] at r2
  refine ⟨cs, ds, hcs, hds, hl, ?_, by unfold Inside; decide, by unfold Inside; decide⟩
  intro s d d' hs hd hd' k hk
  exact ⟨r1 s (by omega) d hd k hk, r2 s (by omega) d' hd' k hk⟩

/-- An image and the same image, cut off at the top and left by two rows and two columns, in different modes: the inner
coefficients of the first level agree. -/
def exBig : Tensor ℚ := ofFn ⟨.float64, 0⟩ [9, 11] fun i => (i.getD 0 0 : ℚ) ^ 3 + 7 * i.getD 1 0
def exCut : Tensor ℚ := ofFn ⟨.float64, 0⟩ [7, 9] fun i => ((i.getD 0 0 + 2 : ℕ) : ℚ) ^ 3 + 7 * (i.getD 1 0 + 2 : ℕ)

example : ∃ c c', wavedec2 exCut spline (some "zero") (some 1) .none = .ok c ∧
    wavedec2 exBig spline (some "symmetric") (some 2) .none = .ok c' ∧
    AgreeN 4 1 [⟨0, 7, 1⟩, ⟨0, 9, 1⟩] c [0, 1] [0, 0] c' [0, 1] [0, 0] ∧
    InsideN 4 1 [⟨0, 7, 1⟩, ⟨0, 9, 1⟩] [1, 2] := by
  obtain ⟨c, hc⟩ := (c16_wavedec2_succeeds_iff exCut spline (some "zero") .zero (some 1) .none (.inl rfl) (by decide) rfl).mpr
    ⟨goodAxes_none (by decide) (by decide), .inr rfl, by
      intro s hs k hk
      have : s = 0 := by have : s < 1 := hs; omega
      subst this
      revert k
      show ∀ k ∈ [7, 9], 4 ≤ 4 + k + k % 2
      decide⟩
  obtain ⟨c', hc'⟩ := (c16_wavedec2_succeeds_iff exBig spline (some "symmetric") .symmetric (some 2) .none (.inl rfl)
    (by decide) rfl).mpr
    ⟨goodAxes_none (by decide) (by decide), .inr rfl, by
      intro s hs k hk
      have hs : s < 2 := hs
      interval_cases s
      · revert k
        show ∀ k ∈ [9, 11], 1 ≤ k
        decide
      · revert k
        show ∀ k ∈ [6, 7], 1 ≤ k
        decide⟩
  refine ⟨c, c', hc, hc', ?_, ⟨by unfold Inside; decide, by unfold Inside; decide, trivial⟩⟩
  refine c58_wavedec2 (by decide) rfl hc hc' (S := 1) (ws := [⟨0, 7, 1⟩, ⟨0, 9, 1⟩]) ⟨by decide, by decide, by decide, by decide, trivial⟩
    (idx := [0, 0]) (idx' := [0, 0]) ⟨by decide, by decide, trivial⟩ ⟨by decide, by decide, trivial⟩ ?_
  intro ks hk
  match ks, hk with
  | [i, j], ⟨⟨_, h2⟩, ⟨_, h4⟩, _⟩ =>
    simp only [pow_zero, Nat.one_mul] at h2 h4
    show exCut.get [i, j] = exBig.get [i + 2 ^ 1 * 1, j + 2 ^ 1 * 1]
    unfold exCut exBig
    rw [ofFn_get_of _ _ (by exact ⟨by omega, by omega, trivial⟩), ofFn_get_of _ _ (by exact ⟨by omega, by omega, trivial⟩)]
    rfl

end Verif.Props
