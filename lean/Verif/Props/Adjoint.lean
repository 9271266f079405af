/-
C60: with mirrored filters the reconstructions are the adjoints of the decompositions in `zero` mode, so that
orthogonal filter banks preserve the energy of every input in this mode.
-/
import Verif.Lemmas.Adjoint
import Verif.Props.Conv1
import Verif.Props.RecGenN
import Verif.Props.RecGenSep
import Verif.Props.Energy
import Verif.Props.Sep

namespace Verif.Props
open Tensor Spec
variable {R : Type}

/-- The synthesis filters are the analysis filters read backwards (pywt's convention for orthogonal wavelets); all
have the even length `F`. -/
structure Mirrored (w : Wavelet R) (F : Nat) : Prop where
  two_le : 2 ≤ F
  even : F % 2 = 0
  decLo : w.decLo.length = F
  decHi : w.decHi.length = F
  recLo : w.recLo = w.decLo.reverse
  recHi : w.recHi = w.decHi.reverse

theorem mirrored_of_orth [CommRing R] {w : Wavelet R} {F : Nat} (h : OrthBank w F) : Mirrored w F :=
  ⟨h.two_le, h.even, h.len.1, h.len.2.1, h.recLo, h.recHi⟩

theorem pr_of_orth [Field R] [CharZero R] {w : Wavelet R} {F : Nat} (h : OrthBank w F) : PRBank w F := by
  obtain ⟨h1, h2⟩ := (orth_iff h.len h.two_le h.even h.recLo h.recHi).mpr ⟨h.lo_lo, h.hi_hi, h.lo_hi⟩
  exact ⟨h.len, h1, h2⟩

/-- **C60.** `waverec` is the adjoint of `wavedec` in `zero` mode: let `cs` be the coefficients of `x` and `ds` any
list of tensors of the same shapes. Then `waverec` accepts `ds`, its result has the size of `x`, rounded up to an
even number along the axis, and the inner product of `cs` and `ds` is that of `x` and the result. -/
theorem c60_adjoint_1d [CommRing R] (x : Tensor R) (w : Wavelet R) (F : Nat) (mode : Option String)
    (level : Option Int) (axis : AxisHint) (cs ds : List (Tensor R)) (hw : Mirrored w F) (hm : Selects mode .zero)
    (hcs : wavedec x w mode level axis = .ok cs) (hds : List.Forall₂ SameTensor cs ds) :
    ∃ z, waverec ds w axis = .ok z ∧ z.md = x.md ∧
      z.shape = x.shape.set (axis1 axis x.rank) (if cs.length = 1 then x.shape.getD (axis1 axis x.rank) 0
        else x.shape.getD (axis1 axis x.rank) 0 + x.shape.getD (axis1 axis x.rank) 0 % 2) ∧
      listDot cs ds = innerProd x z := by
  obtain ⟨hF, he, l0, l1, r0, r1⟩ := hw
  have hFw : w.len = F := l0
  have hhi : w.decHi.length = w.len := by rw [hFw, l1]
  set a := axis1 axis x.rank with ha
  set n := x.shape.getD a 0 with hn
  set L := levels level w.len n with hL
  obtain ⟨h1, h2⟩ := wavedec_char (mode := mode) (x := x) (level := level) (h := axis) (by omega : 2 ≤ w.len) hhi
  have hg : GoodAxes axis x.rank 1 ∧ isDtypeSupported x.md.dtype = true := by
    by_contra hg
    obtain ⟨e, he⟩ := h1 hg
    rw [he] at hcs; cases hcs
  obtain ⟨-, h4, h5, -⟩ := h2 hg.1 hg.2
  have hadm : ∀ s, s < L → Mode.zero.Admits w.len (levelLen w.len n s) := by
    by_contra hadm
    push Not at hadm
    rw [h5 .zero hm hadm] at hcs; cases hcs
  obtain ⟨cs', e, hd⟩ := h4 .zero hm hadm
  rw [e] at hcs; cases hcs
  clear h1 h2 h4 h5 e
  rw [hFw] at hadm
  have hax : a < x.shape.length := axis1_lt hg.1
  match cs, ds, hds, hd with
  | c0 :: rest, d0 :: drest, .cons hs0 hsr, hd =>
  have hd : IsDwt .zero w a L x (c0 :: rest) := hd
  have hl : rest.length = L := Nat.succ.inj hd.length
  have hdl : drest.length = L := by rw [← hsr.length_eq, hl]
  have hA := hd.approx c0 rfl
  have hD : ∀ (i : Nat) (c : Tensor R), rest[i]? = some c → AlongAxis a (levelLen w.len n (L - i)) (fun v => cD .zero w n v (L - 1 - i)) x c := by
    intro i c hc
    have hi : i < L := by rw [← hl]; exact (List.getElem?_eq_some_iff.mp hc).1
    have := hd.detail (L - 1 - i) c (by omega)
      (by rw [show L - (L - 1 - i) = i + 1 by omega, List.getElem?_cons_succ]; exact hc)
    rwa [show L - 1 - i + 1 = L - i by omega] at this
  have hS : ∀ (i : Nat) (c : Tensor R), drest[i]? = some c → ∃ b, rest[i]? = some b ∧ SameTensor b c := by
    intro i c hc
    have hi : i < rest.length := by rw [hl, ← hdl]; exact (List.getElem?_eq_some_iff.mp hc).1
    obtain ⟨y, hy1, hy2⟩ := forall₂_getElem?' hsr (List.getElem?_eq_getElem hi)
    rw [hc] at hy1; cases hy1
    exact ⟨_, List.getElem?_eq_getElem hi, hy2⟩
  have hshape : ∀ (i : Nat) (c : Tensor R), drest[i]? = some c → c.md = x.md ∧ c.shape = x.shape.set a (levelLen F n (L - i)) := by
    intro i c hc
    obtain ⟨b, hb, hbc⟩ := hS i c hc
    have := hD i b hb
    exact ⟨hbc.1.trans this.md, by rw [hbc.2, this.shape, hFw]⟩
  have hsz : ∀ (i : Nat) (c : Tensor R), drest[i]? = some c → c.shape.getD a 0 = levelLen F n (L - i) := by
    intro i c hc
    rw [(hshape i c hc).2, getD_set_self hax]
  have h0s : d0.shape = x.shape.set a (levelLen F n L) := by rw [hs0.2, hA.shape, hFw]
  have h0z : d0.shape.getD a 0 = levelLen F n L := by rw [h0s, getD_set_self hax]
  have hls : ∀ (i k : Nat), (drest.map (·.shape.getD a 0))[i]? = some k → k = levelLen F n (L - i) := by
    intro i k hk
    rw [List.getElem?_map, Option.map_eq_some_iff] at hk
    obtain ⟨c, hc, rfl⟩ := hk
    exact hsz i c hc
  have hcons : Consistent F (d0.shape.getD a 0) (drest.map (·.shape.getD a 0)) := by
    rw [h0z]
    exact consistent_down1 hF he L _ (by rw [List.length_map, hdl]) hls hadm
  have hdt : x.md.dtype = .float32 ∨ x.md.dtype = .float64 := by
    have := hg.2
    unfold isDtypeSupported at this
    simpa using this
  obtain ⟨z, ez, zm, zs, zg⟩ := c13_waverec_textbook w F axis x.md x.shape d0 drest hF (by rw [r0]; simpa using l0)
    (by rw [r1]; simpa using l1) hg.1 hdt ⟨by
      intro c hc
      rcases List.mem_cons.mp hc with rfl | hc
      · exact hs0.1.trans hA.md
      · obtain ⟨i, hi⟩ := List.getElem?_of_mem hc
        exact (hshape i c hi).1, by
      intro c hc
      rcases List.mem_cons.mp hc with rfl | hc
      · show _ = x.shape.set a (c.shape.getD a 0)
        rw [h0z, h0s]
      · obtain ⟨i, hi⟩ := List.getElem?_of_mem hc
        show _ = x.shape.set a (c.shape.getD a 0)
        rw [hsz i c hi, (hshape i c hi).2]⟩ hcons
  have hlen : idwtLen F (d0.shape.getD a 0) (drest.map (·.shape.getD a 0)) = if (c0 :: rest).length = 1 then n else n + n % 2 := by
    cases hL0 : L with
    | zero =>
      rw [hL0] at hl hdl h0z
      rw [List.length_eq_zero_iff] at hl hdl
      subst hl; subst hdl
      rw [if_pos (List.length_singleton), h0z]
      rfl
    | succ L' =>
      rw [if_neg (by rw [List.length_cons, hl, hL0]; omega)]
      rw [hL0] at hls hdl
      exact idwtLen_down hF he L' _ _ (by rw [List.length_map, hdl]) hls
  have hzs : z.shape = x.shape.set a (if (c0 :: rest).length = 1 then n else n + n % 2) := by
    have := zs
    rw [show axis1 axis x.shape.length = a from rfl, hlen] at this
    exact this
  refine ⟨z, ez, zm, hzs, ?_⟩
  set hi : List Nat → Nat → Nat → R := fun idx s =>
    line ((drest[L - 1 - s]?).getD (ofFn ⟨.float32, 0⟩ [] fun _ => 0)) a idx with hhi'
  have hrest : (List.zipWith innerProd rest drest).sum = ∑ s ∈ Finset.range L, boxSum (x.shape.set a 1) fun idx =>
      ∑ k ∈ Finset.range (levelLen F n (s + 1)), cD .zero w n (line x a idx) s k * hi idx s k := by
    rw [← Finset.sum_range_reflect, ← List.map_uncurry_zip_eq_zipWith]
    have hzl : (rest.zip drest).length = L := by rw [List.length_zip, hl, hdl, min_self]
    rw [sum_map_range (rest.zip drest) _ (fun i => boxSum (x.shape.set a 1) fun idx =>
      ∑ k ∈ Finset.range (levelLen F n (L - 1 - i + 1)), cD .zero w n (line x a idx) (L - 1 - i) k * hi idx (L - 1 - i) k) ?_, hzl]
    rintro i ⟨c, c'⟩ hcc
    rw [List.getElem?_zip_eq_some] at hcc
    obtain ⟨hc, hc'⟩ := hcc
    have hiL : i < L := by rw [← hl]; exact (List.getElem?_eq_some_iff.mp hc).1
    have hal := hD i c hc
    have : innerProd c c' = _ := dot_lines (u := c') hax hal.shape
    show innerProd c c' = _
    rw [this, hFw, show L - 1 - i + 1 = L - i by omega]
    refine boxSum_congr _ fun idx hidx => Finset.sum_congr rfl fun k hk => ?_
    rw [along_line hax hal hidx (by rw [hFw]; exact Finset.mem_range.mp hk)]
    simp only [hhi']
    rw [show L - 1 - (L - 1 - i) = i by omega, hc']
    rfl
  have e0 : innerProd c0 d0 = _ := dot_lines (u := d0) hax hA.shape
  have e1 : (boxSum (x.shape.set a 1) fun idx => ∑ k ∈ Finset.range (levelLen w.len n L), line c0 a idx k * line d0 a idx k)
      = boxSum (x.shape.set a 1) fun idx => ∑ k ∈ Finset.range (levelLen F n L), cA .zero w n (line x a idx) L k * line d0 a idx k := by
    rw [hFw]
    refine boxSum_congr _ fun idx hidx => Finset.sum_congr rfl fun k hk => ?_
    rw [along_line hax hA hidx (by rw [hFw]; exact Finset.mem_range.mp hk)]
  have e2 : innerProd x z = _ := dot_lines (u := z) hax (set_getD_self hax).symm
  have e3 : (boxSum (x.shape.set a 1) fun idx => ∑ k ∈ Finset.range n, line x a idx k * line z a idx k)
      = boxSum (x.shape.set a 1) fun idx => ∑ j ∈ Finset.range n, line x a idx j *
        idwt w.recLo w.recHi F (line d0 a idx) (detailList1 F n (hi idx) L) j := by
    refine boxSum_congr _ fun idx hidx => Finset.sum_congr rfl fun k hk => ?_
    rw [Finset.mem_range] at hk
    have hil : idx.length = x.shape.length := by rw [hidx.length_eq, List.length_set]
    have hin : InB z.shape (idx.set a k) := by
      have := inB_setMany (ax := [a]) (Ks := [1]) (s := z.shape) (idx := idx) (js := [k]) (by simp)
        (by rw [hzs, List.length_set]; simpa using hax) rfl (by
          show InB (z.shape.set a 1) idx
          rw [hzs, List.set_set]; exact hidx) (by
          show InB [z.shape.getD a 0] [k]
          rw [hzs, getD_set_self hax]
          refine ⟨?_, trivial⟩
          split_ifs <;> omega)
      exact this
    have hz := zg _ hin
    rw [show axis1 axis x.shape.length = a from rfl, getD_set_self (by rw [hil]; exact hax)] at hz
    have hset : ∀ c : Tensor R, line c a (idx.set a k) = line c a idx := by
      intro c; funext j; unfold line; rw [List.set_set]
    simp only [hset] at hz
    rw [details_eq F n a idx L drest hdl hsz] at hz
    rw [show line z a idx k = z.get (idx.set a k) from rfl, hz]
  show (innerProd c0 d0 :: List.zipWith innerProd rest drest).sum = _
  rw [List.sum_cons, hrest, e0, e1, e2, e3,
    ← boxSum_congr _ fun idx _ => dwt_adjoint hF l0 l1 r0 r1 n (line x a idx) (hi idx) L (line d0 a idx), boxSum_add]
  congr 1
  rw [boxSum_sum]

/-! ### Several axes -/

theorem forall₂_of_get {α β : Type} {P : α → β → Prop} : ∀ {l : List α} {l' : List β}, l.length = l'.length →
    (∀ (i : Nat) a b, l[i]? = some a → l'[i]? = some b → P a b) → List.Forall₂ P l l'
  | [], [], _, _ => .nil
  | a :: l, b :: l', hl, h => .cons (h 0 a b rfl rfl) (forall₂_of_get (by simpa using hl) fun i x y hx hy => h (i + 1) x y hx hy)

/-- The sizes of a reconstruction: the sizes of `x`, if a level was computed rounded up to even numbers along the
axes `ax`. -/
def recShape (ax : List Nat) (levels : Nat) (s : List Nat) : List Nat :=
  setMany s ax (ax.map fun a => if levels = 0 then s.getD a 0 else s.getD a 0 + s.getD a 0 % 2)

theorem recShape_eq {F : Nat} (hF : 2 ≤ F) (he : F % 2 = 0) (ax s : List Nat) (L : Nat) :
    setMany s ax (idwtLenN F (levelLens F (sizes ax s) L) (lensDown F (sizes ax s) L)) = recShape ax L s := by
  unfold recShape
  congr 1
  cases L with
  | zero =>
    show levelLens F (sizes ax s) 0 = _
    rw [levelLens_zero]
    rfl
  | succ L =>
    rw [idwtLenN_down hF he]
    unfold sizes
    rw [List.map_map]
    refine List.map_congr_left fun a _ => ?_
    rw [if_neg (by omega)]
    rfl

/-- What `waverec2` and `waverec3` do on containers of the form of the coefficients of `x`, as C59 says it. -/
theorem adjoint_apply [CommRing R] {D : (List Bool → Tensor R → Prop) → Entry R → Prop} {n : Nat}
    (hD : RecKind (R := R) D) (hp : PairSums D n)
    {rec : Coeffs R → Except Err (Tensor R)} {w : Wavelet R} {F : Nat} {axes : AxisHint} {x : Tensor R} {c d : Coeffs R}
    {L : Nat} (hw : Mirrored w F) (hg : GoodAxes axes x.rank n)
    (ha : LevelsAdmit .zero F (sizes (axesOf axes x.rank n) x.shape) L)
    (hrec : ∀ (t0 : Tensor R) (es : List (Entry R)) (K0 : List Nat) (Kss : List (List Nat)),
      (∀ Ks ∈ K0 :: Kss, Ks.length = n) →
      Uniform x.md (setMany x.shape (axesOf axes x.rank n) K0) t0 →
      List.Forall₂ (fun e Ks => D (fun _ t => Uniform x.md (setMany x.shape (axesOf axes x.rank n) Ks) t) e) es Kss →
      ConsistentN F K0 Kss →
      ∃ z, rec (container t0 es) = .ok z ∧ z.md = x.md ∧
        z.shape = setMany x.shape (axesOf axes x.rank n) (idwtLenN F K0 Kss) ∧
        ∀ idx, InB z.shape idx → z.get idx =
          idwtN w.recLo w.recHi F (plane t0 (axesOf axes x.rank n) idx)
            (List.zipWith (fun e Ks => (Ks, bandPlane e (axesOf axes x.rank n) idx)) es Kss)
            (sizes (axesOf axes x.rank n) idx))
    (hc : IsDwtN D .zero w (axesOf axes x.rank n) L x c) (hs : SameForm c d) :
    ∃ z, rec d = .ok z ∧ z.md = x.md ∧ z.shape = recShape (axesOf axes x.rank n) (c.items.length - 1) x.shape ∧
      coeffDot c d = innerProd x z := by
  obtain ⟨hF, he, l0, l1, r0, r1⟩ := hw
  have hal := axesOf_len hg
  obtain ⟨t0, es, t1, es', rfl, rfl, hes, hes', hta, hu, hde⟩ := form_split hD hc l0 hs
  have hsl : (sizes (axesOf axes x.rank n) x.shape).length = n := by simp [sizes, hal]
  obtain ⟨z, ez, zm, zs, zg⟩ := hrec t0 es _ (lensDown F (sizes (axesOf axes x.rank n) x.shape) L) (by
      intro Ks hK
      rcases List.mem_cons.mp hK with rfl | hK
      · rw [levelLens_length, hsl]
      · rw [lensDown_mem hK, hsl]) hu (by
      refine forall₂_of_get (by rw [hes, lensDown_length]) fun i e Ks he hK => ?_
      have hi : i < L := by rw [← hes]; exact (List.getElem?_eq_some_iff.mp he).1
      rw [lensDown_get _ _ _ _ hi] at hK
      cases hK
      have hi' : i < es'.length := by rw [hes']; exact hi
      exact hD.mono (hde i e _ he (List.getElem?_eq_getElem hi')).2 fun _ _ h => h.1)
    (consistent_down hF he L ha)
  refine ⟨z, ez, zm, ?_, adjoint_of (by rw [hal]; exact hp) hD hg.nodup hg.lt hF he l0 l1 r0 r1 hes hes' hta hde zs zg⟩
  rw [zs, recShape_eq hF he]
  show _ = recShape _ ((Entry.tensor t1 :: es').length - 1) _
  rw [List.length_cons, hes', Nat.add_sub_cancel]

/-- **C60.** `waverec2` is the adjoint of `wavedec2` in `zero` mode: let `c` be the coefficients of `x` and `d` any
container of the same form (tensors of the same shapes). Then `waverec2` accepts `d`, its result has the sizes of
`x`, rounded up to even numbers along the two axes, and the inner product of `c` and `d` is that of `x` and the
result. -/
theorem c60_adjoint_2d [CommRing R] (x : Tensor R) (w : Wavelet R) (F : Nat) (mode : Option String)
    (level : Option Int) (axes : AxisHint) (c d : Coeffs R) (hw : Mirrored w F) (hm : Selects mode .zero)
    (hc : wavedec2 x w mode level axes = .ok c) (hd : SameForm c d) :
    ∃ z, waverec2 d w axes = .ok z ∧ z.md = x.md ∧
      z.shape = recShape (axesOf axes x.rank 2) (c.items.length - 1) x.shape ∧ coeffDot c d = innerProd x z := by
  have hFw : w.len = F := hw.decLo
  have hhi : w.decHi.length = w.len := by rw [hFw, hw.decHi]
  obtain ⟨hg, hdt, -⟩ := wavedec2_ok (by rw [hFw]; exact hw.two_le) hhi hc
  obtain ⟨-, h2⟩ := wavedec2_char (mode := mode) (x := x) (level := level) (h := axes) (by rw [hFw]; exact hw.two_le) hhi
  have ha := (h2 hg hdt).2.2.1 .zero c hm hc
  obtain ⟨c', e, hdwt⟩ := (h2 hg hdt).2.1 .zero hm ha
  rw [e] at hc; cases hc
  rw [hFw] at ha hdwt
  have hdt' : x.md.dtype = .float32 ∨ x.md.dtype = .float64 := by
    unfold isDtypeSupported at hdt
    simpa using hdt
  exact adjoint_apply isTuple_band isTuple_pairs hw hg ha (rec := fun d => waverec2 d w axes) (fun t0 es K0 Kss h1 h2 h3 h4 =>
    c59_waverec2_textbook w F axes x.md x.shape t0 es K0 Kss hw.two_le (by rw [hw.recLo]; simpa using hw.decLo)
      (by rw [hw.recHi]; simpa using hw.decHi) hg hdt' h1 h2 h3 h4) hdwt hd

/-- **C60.** The same for `wavedec3` and `waverec3` (at least one level). -/
theorem c60_adjoint_3d [CommRing R] (x : Tensor R) (w : Wavelet R) (F : Nat) (mode : Option String)
    (level : Option Int) (axes : AxisHint) (c d : Coeffs R) (hw : Mirrored w F) (hm : Selects mode .zero)
    (hL : 0 < levelsN level F (sizes (axesOf axes x.rank 3) x.shape))
    (hc : wavedec3 x w mode level axes = .ok c) (hd : SameForm c d) :
    ∃ z, waverec3 d w axes = .ok z ∧ z.md = x.md ∧
      z.shape = recShape (axesOf axes x.rank 3) (c.items.length - 1) x.shape ∧ coeffDot c d = innerProd x z := by
  have hFw : w.len = F := hw.decLo
  have hhi : w.decHi.length = w.len := by rw [hFw, hw.decHi]
  obtain ⟨hg, hdt, m, hm', ha, hdwt⟩ := wavedec3_ok (by rw [hFw]; exact hw.two_le) hhi (by rw [hFw]; exact hL) hc
  obtain rfl := selects_unique hm' hm
  rw [hFw] at ha hdwt
  have hdt' : x.md.dtype = .float32 ∨ x.md.dtype = .float64 := by
    unfold isDtypeSupported at hdt
    simpa using hdt
  exact adjoint_apply isDict3_band (isDict_pairs (by decide +kernel)) hw hg ha (rec := fun d => waverec3 d w axes) (fun t0 es K0 Kss h1 h2 h3 h4 =>
    c59_waverec3_textbook w F axes x.md x.shape t0 es K0 Kss hw.two_le (by rw [hw.recLo]; simpa using hw.decLo)
      (by rw [hw.recHi]; simpa using hw.decHi) hg hdt' h1 h2 h3 h4) hdwt hd

/-- **C60.** The same for `fswavedec2` and `fswaverec2`. -/
theorem c60_adjoint_fs2 [CommRing R] (x : Tensor R) (w : Wavelet R) (F : Nat) (mode : Option String)
    (level : Option Int) (axes : AxisHint) (c d : Coeffs R) (hw : Mirrored w F) (hm : Selects mode .zero)
    (hc : fswavedec2 x w mode level axes = .ok c) (hd : SameForm c d) :
    ∃ z, (fswaverec2 d w axes).1 = .ok z ∧ z.md = x.md ∧
      z.shape = recShape (axesOf axes x.rank 2) (c.items.length - 1) x.shape ∧ coeffDot c d = innerProd x z := by
  have hFw : w.len = F := hw.decLo
  have hhi : w.decHi.length = w.len := by rw [hFw, hw.decHi]
  obtain ⟨hg, hdt, hae, -⟩ := fswavedecn_ok (n := 2) (by omega) (by rw [hFw]; exact hw.two_le) hhi hc
  obtain ⟨-, h2⟩ := fswavedecn_char (mode := mode) (x := x) (level := level) (h := axes) (n := 2) (by omega)
    (by rw [hFw]; exact hw.two_le) hhi
  have ha := ((h2 hg hdt).2 hae).2.2.1 .zero c hm hc
  obtain ⟨c', e, hdwt⟩ := ((h2 hg hdt).2 hae).2.1 .zero hm ha
  have hc : fswavedecn x w 2 mode level axes = .ok c := hc
  rw [e] at hc; cases hc
  rw [hFw] at ha hdwt
  have hdt' : x.md.dtype = .float32 ∨ x.md.dtype = .float64 := by
    unfold isDtypeSupported at hdt
    simpa using hdt
  rw [sepDetailKeys2] at hdwt
  exact adjoint_apply (recKind_perm (List.Perm.refl _) (by decide) (by decide)) (isDict_pairs (by decide +kernel)) hw hg ha
    (rec := fun d => (fswaverec2 d w axes).1) (fun t0 es K0 Kss h1 h2 h3 h4 => by
      obtain ⟨hcov, hlen⟩ := coveredN_of_consistentN h4
      rw [← hlen]
      exact c59_fswaverec2_textbook w F axes x.md x.shape t0 es K0 Kss _ hw.two_le (by rw [hw.recLo]; simpa using hw.decLo)
        (by rw [hw.recHi]; simpa using hw.decHi) hg hdt' h1 (List.Perm.refl _) h2 h3 hcov) hdwt hd

/-- **C60.** The same for `fswavedec3` and `fswaverec3`. -/
theorem c60_adjoint_fs3 [CommRing R] (x : Tensor R) (w : Wavelet R) (F : Nat) (mode : Option String)
    (level : Option Int) (axes : AxisHint) (c d : Coeffs R) (hw : Mirrored w F) (hm : Selects mode .zero)
    (hc : fswavedec3 x w mode level axes = .ok c) (hd : SameForm c d) :
    ∃ z, (fswaverec3 d w axes).1 = .ok z ∧ z.md = x.md ∧
      z.shape = recShape (axesOf axes x.rank 3) (c.items.length - 1) x.shape ∧ coeffDot c d = innerProd x z := by
  have hFw : w.len = F := hw.decLo
  have hhi : w.decHi.length = w.len := by rw [hFw, hw.decHi]
  obtain ⟨hg, hdt, hae, -⟩ := fswavedecn_ok (n := 3) (by omega) (by rw [hFw]; exact hw.two_le) hhi hc
  obtain ⟨-, h2⟩ := fswavedecn_char (mode := mode) (x := x) (level := level) (h := axes) (n := 3) (by omega)
    (by rw [hFw]; exact hw.two_le) hhi
  have ha := ((h2 hg hdt).2 hae).2.2.1 .zero c hm hc
  obtain ⟨c', e, hdwt⟩ := ((h2 hg hdt).2 hae).2.1 .zero hm ha
  have hc : fswavedecn x w 3 mode level axes = .ok c := hc
  rw [e] at hc; cases hc
  rw [hFw] at ha hdwt
  have hdt' : x.md.dtype = .float32 ∨ x.md.dtype = .float64 := by
    unfold isDtypeSupported at hdt
    simpa using hdt
  rw [sepDetailKeys3] at hdwt
  exact adjoint_apply (recKind_perm (List.Perm.refl _) (by decide) (by decide)) (isDict_pairs (by decide +kernel)) hw hg ha
    (rec := fun d => (fswaverec3 d w axes).1) (fun t0 es K0 Kss h1 h2 h3 h4 => by
      obtain ⟨hcov, hlen⟩ := coveredN_of_consistentN h4
      rw [← hlen]
      exact c59_fswaverec3_textbook w F axes x.md x.shape t0 es K0 Kss _ hw.two_le (by rw [hw.recLo]; simpa using hw.decLo)
        (by rw [hw.recHi]; simpa using hw.decHi) hg hdt' h1 (by decide) h2 h3 hcov) hdwt hd

/-! ### Energy -/

theorem innerProd_self [CommRing R] {x z : Tensor R} (h : ∀ idx, InB x.shape idx → z.get idx = x.get idx) :
    innerProd x z = energy x := by
  unfold innerProd energy
  refine boxSum_congr _ fun i hi => ?_
  rw [h i hi, sq]

theorem listDot_self [CommRing R] (cs : List (Tensor R)) : listDot cs cs = (cs.map energy).sum := by
  unfold listDot
  rw [List.zipWith_self]
  congr 1
  refine List.map_congr_left fun c _ => innerProd_self fun _ _ => rfl

theorem coeffDot_self [CommRing R] (c : Coeffs R) : coeffDot c c = coeffEnergy c := by
  unfold coeffDot coeffEnergy
  rw [List.zipWith_self]
  congr 1
  exact List.map_congr_left fun e _ => listDot_self _

theorem sameTensor_refl [Zero R] (t : Tensor R) : SameTensor t t := ⟨rfl, rfl⟩

theorem sameForm_refl [Zero R] {c : Coeffs R} (h : ∀ e ∈ c.items, e ≠ .other) : SameForm c c := by
  refine ⟨rfl, List.forall₂_same.mpr fun e he => ?_⟩
  cases e with
  | tensor t => exact sameTensor_refl t
  | tuple a b d => exact ⟨sameTensor_refl _, sameTensor_refl _, sameTensor_refl _⟩
  | dict kv => exact List.forall₂_same.mpr fun q _ => ⟨rfl, sameTensor_refl _⟩
  | other => exact absurd rfl (h _ he)

theorem isDwtN_form [NonUnitalNonAssocSemiring R] {D : (List Bool → Tensor R → Prop) → Entry R → Prop} {m : Mode}
    {w : Wavelet R} {ax : List Nat} {L : Nat} {x : Tensor R} {c : Coeffs R}
    (hD : ∀ {P} {e : Entry R}, D P e → e ≠ .other) (h : IsDwtN D m w ax L x c) : SameForm c c := by
  refine sameForm_refl fun e he => ?_
  obtain ⟨i, hi⟩ := List.getElem?_of_mem he
  have hil : i < L + 1 := by rw [← h.length]; exact (List.getElem?_eq_some_iff.mp hi).1
  rcases Nat.eq_zero_or_pos i with rfl | hi0
  · obtain ⟨t, ht, -⟩ := h.approx
    rw [hi] at ht
    cases ht
    exact fun h => by cases h
  · obtain ⟨e', he', hd⟩ := h.detail (L - i) (by omega)
    rw [show L - (L - i) = i by omega, hi] at he'
    cases he'
    exact hD hd

/-- **C60.** Orthogonal filter banks preserve the energy in `zero` mode: the sum of the squares of all coefficients
`wavedec` returns is that of the input, for every input, length, number of levels and axis. -/
theorem c60_energy_1d [Field R] [CharZero R] (x : Tensor R) (w : Wavelet R) (F : Nat) (mode : Option String)
    (level : Option Int) (axis : AxisHint) (cs : List (Tensor R)) (hw : OrthBank w F) (hm : Selects mode .zero)
    (hcs : wavedec x w mode level axis = .ok cs) : (cs.map energy).sum = energy x := by
  obtain ⟨z, ez, -, -, h⟩ := c60_adjoint_1d x w F mode level axis cs cs (mirrored_of_orth hw) hm hcs
    (List.forall₂_same.mpr fun t _ => sameTensor_refl t)
  obtain ⟨z', ez', -, -, -, -, hz⟩ := c01_perfect_reconstruction x w F mode level axis cs (pr_of_orth hw) hw.two_le hw.even hcs
  rw [ez] at ez'; cases ez'
  rw [← listDot_self, h, innerProd_self hz]

/-- **C60.** Orthogonal filter banks preserve the energy of images in `zero` mode. -/
theorem c60_energy_2d [Field R] [CharZero R] (x : Tensor R) (w : Wavelet R) (F : Nat) (mode : Option String)
    (level : Option Int) (axes : AxisHint) (c : Coeffs R) (hw : OrthBank w F) (hm : Selects mode .zero)
    (hc : wavedec2 x w mode level axes = .ok c) : coeffEnergy c = energy x := by
  have hFw : w.len = F := hw.len.1
  obtain ⟨-, -, m, -, -, hdwt⟩ := wavedec2_ok (by rw [hFw]; exact hw.two_le) (by rw [hFw]; exact hw.len.2.1) hc
  obtain ⟨z, ez, -, -, h⟩ := c60_adjoint_2d x w F mode level axes c c (mirrored_of_orth hw) hm hc
    (isDwtN_form (by rintro P e ⟨_, _, _, rfl, -⟩ h; cases h) hdwt)
  obtain ⟨z', ez', hz⟩ := c15_perfect_reconstruction x w F mode level axes c (pr_of_orth hw) hw.two_le hw.even hc
  rw [ez] at ez'; cases ez'
  rw [← coeffDot_self, h, innerProd_self hz.get]

/-- **C60.** Orthogonal filter banks preserve the energy of volumes in `zero` mode (at least one level). -/
theorem c60_energy_3d [Field R] [CharZero R] (x : Tensor R) (w : Wavelet R) (F : Nat) (mode : Option String)
    (level : Option Int) (axes : AxisHint) (c : Coeffs R) (hw : OrthBank w F) (hm : Selects mode .zero)
    (hL : 0 < levelsN level F (sizes (axesOf axes x.rank 3) x.shape))
    (hc : wavedec3 x w mode level axes = .ok c) : coeffEnergy c = energy x := by
  have hFw : w.len = F := hw.len.1
  obtain ⟨-, -, m, -, -, hdwt⟩ := wavedec3_ok (by rw [hFw]; exact hw.two_le) (by rw [hFw]; exact hw.len.2.1)
    (by rw [hFw]; exact hL) hc
  obtain ⟨z, ez, -, -, h⟩ := c60_adjoint_3d x w F mode level axes c c (mirrored_of_orth hw) hm hL hc
    (isDwtN_form (by rintro P e ⟨_, rfl, -⟩ h; cases h) hdwt)
  obtain ⟨z', ez', hz⟩ := c17_perfect_reconstruction x w F mode level axes c (pr_of_orth hw) hw.two_le hw.even hL hc
  rw [ez] at ez'; cases ez'
  rw [← coeffDot_self, h, innerProd_self hz.get]

theorem entryEnergy_asDict [CommRing R] (e : Entry R) : entryEnergy (asDict e) = entryEnergy e := by
  cases e <;> rfl

/-- **C60.** The same for `fswavedec2`. -/
theorem c60_energy_fs2 [Field R] [CharZero R] (x : Tensor R) (w : Wavelet R) (F : Nat) (mode : Option String)
    (level : Option Int) (axes : AxisHint) (c : Coeffs R) (hw : OrthBank w F) (hm : Selects mode .zero)
    (hc : fswavedec2 x w mode level axes = .ok c) : coeffEnergy c = energy x := by
  have hFw : w.len = F := hw.len.1
  have h2 : 2 ≤ w.len := by rw [hFw]; exact hw.two_le
  have hhi : w.decHi.length = w.len := by rw [hFw]; exact hw.len.2.1
  obtain ⟨-, -, hae, -⟩ := fswavedecn_ok (n := 2) (by omega) h2 hhi hc
  obtain ⟨c₀, hc₀, rfl⟩ := (c19_fswavedec2 x w mode level axes h2 hhi (by
    rintro rfl a ha h0
    exact hae ⟨rfl, List.mem_map.mpr ⟨a, ha, h0⟩⟩) c).mp hc
  rw [← c60_energy_2d x w F mode level axes c₀ hw hm hc₀]
  unfold coeffEnergy
  show ((c₀.items.map asDict).map entryEnergy).sum = _
  rw [List.map_map]
  congr 1
  exact List.map_congr_left fun e _ => entryEnergy_asDict e

/-- **C60.** The same for `fswavedec3` (at least one level). -/
theorem c60_energy_fs3 [Field R] [CharZero R] (x : Tensor R) (w : Wavelet R) (F : Nat) (mode : Option String)
    (level : Option Int) (axes : AxisHint) (c : Coeffs R) (hw : OrthBank w F) (hm : Selects mode .zero)
    (hL : 0 < levelsN level F (sizes (axesOf axes x.rank 3) x.shape))
    (hc : fswavedec3 x w mode level axes = .ok c) : coeffEnergy c = energy x := by
  have hFw : w.len = F := hw.len.1
  have h2 : 2 ≤ w.len := by rw [hFw]; exact hw.two_le
  have hhi : w.decHi.length = w.len := by rw [hFw]; exact hw.len.2.1
  obtain ⟨h3, h4⟩ := c19_fswavedec3 x w mode level axes h2 hhi (by rw [hFw]; exact hL)
  obtain ⟨c₀, hc₀⟩ := h3.mpr ⟨c, hc⟩
  rw [← c60_energy_3d x w F mode level axes c₀ hw hm hL hc₀]
  have := (h4 c₀ c hc₀ hc).2
  unfold coeffEnergy
  have key : ∀ l l' : List (Entry R), List.Forall₂ SameEntry l l' → (l'.map entryEnergy).sum = (l.map entryEnergy).sum := by
    intro l l' h
    induction h with
    | nil => rfl
    | @cons e e' _ _ he _ ih =>
      rw [List.map_cons, List.map_cons, List.sum_cons, List.sum_cons, ih]
      congr 1
      cases he with
      | tensor t => rfl
      | dict kv kv' hp hn =>
        show ((List.map Prod.snd _).map energy).sum = ((List.map Prod.snd _).map energy).sum
        exact ((hp.map Prod.snd).map energy).sum_eq.symm
  exact key _ _ this

/-! ### Examples -/

/-- An orthogonal filter bank with four rational taps. -/
def lattice : Wavelet ℚ := ⟨[9/25, 12/25, -16/25, 12/25], [12/25, 16/25, 12/25, -9/25],
  [12/25, -16/25, 12/25, 9/25], [-9/25, 12/25, 16/25, 12/25]⟩

theorem lattice_orth : OrthBank lattice 4 := by
  have key : ∀ m : ℤ, -((4 : ℕ) : ℤ) < 2 * m → 2 * m < ((4 : ℕ) : ℤ) → m = -1 ∨ m = 0 ∨ m = 1 := by
    intro m h1 h2; push_cast at h1 h2; omega
  refine orthBank_of ⟨rfl, rfl, rfl, rfl⟩ (by norm_num) rfl ?_ ?_ ?_ rfl rfl <;>
    · intro m h1 h2
      rcases key m h1 h2 with rfl | rfl | rfl <;>
        simp [Finset.sum_range_succ, tap, lattice] <;> norm_num

/-- Two levels along axes 2 and 0 of a batch of odd-sized images. -/
theorem exI_zero : ∃ c, wavedec2 exI lattice (some "zero") (some 2) (.seq [2, -3]) = .ok c := by
  refine (c16_wavedec2_succeeds_iff exI lattice _ .zero _ _ (Or.inl rfl) (by decide) rfl).mpr
    ⟨exI_axes, Or.inr rfl, ?_⟩
  intro s _ k _
  show 4 ≤ 4 + k + k % 2
  omega

example : ∃ c, wavedec2 exI lattice (some "zero") (some 2) (.seq [2, -3]) = .ok c ∧ coeffEnergy c = energy exI := by
  obtain ⟨c, hc⟩ := exI_zero
  exact ⟨c, hc, c60_energy_2d exI lattice 4 _ _ _ c lattice_orth (Or.inl rfl) hc⟩

/-- The same container with all coefficients replaced by 1. -/
def onesEntry : Entry ℚ → Entry ℚ
  | .tensor t => .tensor (ofFn t.md t.shape fun _ => 1)
  | .tuple h v d => .tuple (ofFn h.md h.shape fun _ => 1) (ofFn v.md v.shape fun _ => 1) (ofFn d.md d.shape fun _ => 1)
  | .dict kv => .dict (kv.map fun q => (q.1, ofFn q.2.md q.2.shape fun _ => 1))
  | .other => .other

theorem ones_form {c : Coeffs ℚ} (h : SameForm c c) : SameForm c ⟨c.isList, c.items.map onesEntry⟩ := by
  refine ⟨rfl, ?_⟩
  show List.Forall₂ EntryForm c.items (c.items.map onesEntry)
  rw [List.forall₂_map_right_iff, List.forall₂_same]
  intro e he
  have := List.forall₂_same.mp h.2 e he
  cases e with
  | tensor t => exact ⟨rfl, rfl⟩
  | tuple a b d => exact ⟨⟨rfl, rfl⟩, ⟨rfl, rfl⟩, ⟨rfl, rfl⟩⟩
  | dict kv =>
    show List.Forall₂ _ kv (kv.map _)
    rw [List.forall₂_map_right_iff, List.forall₂_same]
    exact fun q _ => ⟨rfl, rfl, rfl⟩
  | other => exact this

/-- The second container need not come from a decomposition. -/
example : ∃ c z, wavedec2 exI lattice (some "zero") (some 2) (.seq [2, -3]) = .ok c ∧
    waverec2 ⟨c.isList, c.items.map onesEntry⟩ lattice (.seq [2, -3]) = .ok z ∧ z.shape = [4, 2, 6] ∧
    coeffDot c ⟨c.isList, c.items.map onesEntry⟩ = innerProd exI z := by
  obtain ⟨c, hc⟩ := exI_zero
  obtain ⟨-, -, m, -, -, hdwt⟩ := wavedec2_ok (by decide) rfl hc
  have hl := hdwt.length
  obtain ⟨z, h1, -, h3, h4⟩ := c60_adjoint_2d exI lattice 4 _ _ _ c _ (mirrored_of_orth lattice_orth) (Or.inl rfl) hc
    (ones_form (isDwtN_form (by rintro P e ⟨_, _, _, rfl, -⟩ h; cases h) hdwt))
  refine ⟨c, z, hc, h1, ?_, h4⟩
  rw [h3, hl]
  rfl

example : ∃ cs z, wavedec exI lattice (some "zero") (some 3) (.int 0) = .ok cs ∧ (cs.map energy).sum = energy exI ∧
    waverec (cs.map fun t => ofFn t.md t.shape fun _ => 1) lattice (.int 0) = .ok z ∧
    listDot cs (cs.map fun t => ofFn t.md t.shape fun _ => 1) = innerProd exI z := by
  have hg : GoodAxes (.int 0) exI.rank 1 := ⟨by decide, rfl, ⟨by
    intro a ha
    have : a = 0 := by simpa [resolve] using ha
    subst this; exact ⟨by decide, by decide⟩, by decide⟩⟩
  obtain ⟨-, h2⟩ := wavedec_char (mode := some "zero") (x := exI) (w := lattice) (level := some 3) (h := .int 0) (by decide) rfl
  obtain ⟨cs, e, -⟩ := (h2 hg (by decide)).2.1 .zero (Or.inl rfl) (fun s _ => by
    show 4 ≤ 4 + _ + _ % 2
    omega)
  obtain ⟨z, h1, -, -, h4⟩ := c60_adjoint_1d exI lattice 4 _ _ _ cs (cs.map fun t => ofFn t.md t.shape fun _ => 1)
    (mirrored_of_orth lattice_orth) (Or.inl rfl) e (by
      rw [List.forall₂_map_right_iff, List.forall₂_same]
      exact fun t _ => ⟨rfl, rfl⟩)
  exact ⟨cs, z, e, c60_energy_1d exI lattice 4 _ _ _ cs lattice_orth (Or.inl rfl) e, h1, h4⟩

theorem exV_zero : ∃ c, wavedec3 exV lattice (some "zero") (some 2) (.seq [1, -1, 0]) = .ok c := by
  obtain ⟨-, h2⟩ := wavedec3_char (mode := some "zero") (x := exV) (w := lattice) (level := some 2) (h := .seq [1, -1, 0])
    (by decide) rfl
  obtain ⟨c, e, -⟩ := (h2 exV_axes (by decide) (by decide)).1 .zero (Or.inl rfl) (fun s _ k _ => by
    show 4 ≤ 4 + k + k % 2
    omega)
  exact ⟨c, e⟩

example : ∃ c c', wavedec3 exV lattice (some "zero") (some 2) (.seq [1, -1, 0]) = .ok c ∧ coeffEnergy c = energy exV ∧
    fswavedec3 exV lattice (some "zero") (some 2) (.seq [1, -1, 0]) = .ok c' ∧ coeffEnergy c' = energy exV := by
  obtain ⟨c, hc⟩ := exV_zero
  obtain ⟨c', hc'⟩ := (c19_fswavedec3 exV lattice (some "zero") (some 2) (.seq [1, -1, 0]) (by decide) rfl (by decide)).1.mp ⟨c, hc⟩
  exact ⟨c, c', hc, c60_energy_3d exV lattice 4 _ _ _ c lattice_orth (Or.inl rfl) (by decide) hc, hc',
    c60_energy_fs3 exV lattice 4 _ _ _ c' lattice_orth (Or.inl rfl) (by decide) hc'⟩

end Verif.Props
