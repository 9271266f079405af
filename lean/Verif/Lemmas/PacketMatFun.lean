import Verif.Lemmas.PacketMat
import Verif.Spec.PacketMat

/-! The coefficients in a one-dimensional packet tree with boundary matrices. -/

namespace Verif
open Tensor Spec Props

section
variable {R : Type} [NonUnitalNonAssocSemiring R]

theorem evenPadded_along {m : Mode} {a : Nat} {x x' : Tensor R} (ha : a < x.rank) (h : EvenPadded m a x x') :
    AlongAxis a (evenLen (x.shape.getD a 0)) (fun v i => evenExt m (x.shape.getD a 0) v i) x x' := by
  rcases h with ⟨h1, rfl⟩ | ⟨h1, h2⟩
  · refine ⟨rfl, ?_, ?_⟩
    · rw [evenLen_of_even h1, set_getD_self ha]
    · intro idx hidx
      have hlt := (show idx.getD a 0 < x'.shape.getD a 0 from hidx.getD_lt ha)
      rw [evenExt_inside m _ hlt]
      show _ = x'.get (idx.set _ _)
      rw [set_getD_self (by rw [hidx.length_eq]; exact ha)]
  · refine ⟨h2.md, ?_, ?_⟩
    · rw [h2.shape]
      congr 1
      unfold evenLen; omega
    · intro idx hidx
      rw [h2.get idx hidx]
      simp only [Nat.cast_zero, sub_zero]
      rfl

theorem rowTimes_congr {m : Mode} {M : Nat → Nat → R} {n : Nat} {u v : Nat → R}
    (h : ∀ j, j < evenLen n → evenExt m n u j = evenExt m n v j) (i : Nat) : rowTimes m M n u i = rowTimes m M n v i := by
  unfold rowTimes
  refine Finset.sum_congr rfl fun j hj => ?_
  rw [h j (Finset.mem_range.mp hj)]

theorem evenExt_zero_congr {n : Nat} {u v : Nat → R} (h : ∀ j, j < n → u j = v j) (j : Nat) :
    evenExt .zero n u j = evenExt .zero n v j := by
  by_cases hj : j < n
  · rw [evenExt_inside _ _ hj, evenExt_inside _ _ hj, h j hj]
  · unfold evenExt ext
    have : extIdx .zero n (j : ℤ) = none := by
      show (if _ then _ else _) = _
      rw [if_neg (by omega)]
    rw [this]

/-- Multiplying the extended signal: the length may be counted before or after the extension. -/
theorem rowTimes_ext {m m' : Mode} {M : Nat → Nat → R} (n : Nat) (v : Nat → R) (i : Nat) :
    rowTimes m' M (evenLen n) (fun j => evenExt m n v j) i = rowTimes m M n v i := by
  unfold rowTimes
  rw [evenLen_of_even (evenLen_even n)]
  refine Finset.sum_congr rfl fun j hj => ?_
  rw [evenExt_inside m' _ (Finset.mem_range.mp hj)]

/-- A half of the matrix product of the extended tensor, in terms of the tensor. -/
theorem along_of_padded {m : Mode} {a K : Nat} {M : Nat → Nat → R} {x x' z : Tensor R} {g : Nat → Nat}
    (ha : a < x.rank) (h : EvenPadded m a x x')
    (hz : AlongAxis a K (fun v i => rowTimes m M (evenLen (x.shape.getD a 0)) v (g i)) x' z) :
    AlongAxis a K (fun v i => rowTimes m M (x.shape.getD a 0) v (g i)) x z := by
  have h1 := evenPadded_along ha h
  have h2 := AlongAxis.comp ha h1 hz (by
    intro u v huv i _
    refine rowTimes_congr (fun j hj => ?_) _
    rw [evenLen_of_even (evenLen_even _)] at hj
    rw [evenExt_inside m _ hj, evenExt_inside m _ hj, huv j hj])
  refine ⟨h2.md, h2.shape, ?_⟩
  intro idx hidx
  rw [h2.get idx hidx]
  exact rowTimes_ext _ _ _

end

section
variable {la : LinAlg ℝ} {w : Wavelet ℝ} {F : Nat} {orth : String} {axis : Int} {C : Nat → Coo ℝ} {md : Meta}

/-- A matrix for every even length. -/
def HasMats (la : LinAlg ℝ) (w : Wavelet ℝ) (F : Nat) (orth : String) (md : Meta) (C : Nat → Coo ℝ) : Prop :=
  ∀ k, k % 2 = 0 → F ≤ k → constructBoundaryA la w md k orth = .ok (C k)

theorem hasMats_exists (hla : ExactLinAlg la) (hw : OrthBank w F) (ho : orth = "qr" ∨ orth = "gramschmidt")
    (hind : ∀ k, k % 2 = 0 → F ≤ k → BoundaryIndep w F k) (md : Meta) : ∃ C, HasMats la w F orth md C := by
  have h2 := hw.two_le
  have key : ∀ k, ∃ c, k % 2 = 0 → F ≤ k → constructBoundaryA la w md k orth = .ok c := by
    intro k
    by_cases h : k % 2 = 0 ∧ F ≤ k
    · obtain ⟨A, a1, _⟩ := c38_orthonormal hla md hw h.1 (by omega) (hind k h.1 h.2) ho
      exact ⟨A, fun _ _ => a1⟩
    · exact ⟨⟨md, 0, 0, [], by simp⟩, fun h1 h2 => absurd ⟨h1, h2⟩ h⟩
  choose C hC using key
  exact ⟨C, hC⟩

/-- One analysis step and its inverse, completely. -/
theorem matDec1_char (hla : ExactLinAlg la) (hw : OrthBank w F) (ho : orth = "qr" ∨ orth = "gramschmidt")
    (hind : ∀ k, k % 2 = 0 → F ≤ k → BoundaryIndep w F k) (t : Tensor ℝ) (hC : HasMats la w F orth t.md C) :
    (¬ (ValidAxis t.rank axis ∧ isDtypeSupported t.md.dtype = true ∧
        F ≤ evenLen (t.shape.getD (axisOf t.rank axis) 0)) → ∃ e, matDec1 la w orth axis t = .error e) ∧
    (ValidAxis t.rank axis → isDtypeSupported t.md.dtype = true →
        F ≤ evenLen (t.shape.getD (axisOf t.rank axis) 0) →
      ∃ t' lo hi, matDec1 la w orth axis t = .ok [lo, hi] ∧
      AlongAxis (axisOf t.rank axis) (evenLen (t.shape.getD (axisOf t.rank axis) 0) / 2)
        (stepLo .zero (fun k => (C k).den) (t.shape.getD (axisOf t.rank axis) 0)) t lo ∧
      AlongAxis (axisOf t.rank axis) (evenLen (t.shape.getD (axisOf t.rank axis) 0) / 2)
        (stepHi .zero (fun k => (C k).den) (t.shape.getD (axisOf t.rank axis) 0)) t hi ∧
      matSyn1 la w orth axis [lo, hi] = .ok t' ∧ EvenPadded .zero (axisOf t.rank axis) t t') := by
  by_cases hv : ValidAxis t.rank axis
  swap
  · refine ⟨fun _ => ⟨.indexError, ?_⟩, fun h => absurd h hv⟩
    unfold matDec1
    rw [sizeAt_bad hv]
  by_cases hdt : isDtypeSupported t.md.dtype = true
  swap
  · refine ⟨fun _ => ?_, fun _ h => absurd h hdt⟩
    unfold matDec1
    rw [sizeAt_ok hv]
    simp only
    cases hi : decInit w (some 1) (.int axis) orth (some "zero") with
    | error e => exact ⟨e, rfl⟩
    | ok s =>
      obtain ⟨e, he⟩ := c40_bad_input la s.1 s.2 t (by
        rintro ⟨_, h⟩
        exact hdt (by unfold isDtypeSupported; simpa using h))
      refine ⟨e, ?_⟩
      show unpackPair ((decCall la s.1 s.2 t).1) = _
      rw [he]; rfl
  have hg := goodAxes_int.mpr hv
  obtain ⟨dcfg, dst, C', x', cs, lv, h1, -, h2, h3, h4, h5, h6, h7, h8, h9, h10⟩ :=
    dec_run hla hw (x := t) (axis := .int axis) (m := .zero) (mode := some "zero") (orth := orth) (level := some 1)
      hg (by unfold isDtypeSupported at hdt; simpa using hdt) (Or.inl rfl) ho (by rintro _ ⟨⟩; exact le_rfl)
      (by rintro ⟨⟩) (fun _ => by trivial) (fun k a b _ => hind k a b)
  rw [axis1_int] at h2 h3 h4 h5 h8 h9 h10
  have hax : axisOf t.rank axis < t.rank := axisOf_lt hv
  set a := axisOf t.rank axis with ha
  set n := t.shape.getD a 0 with hn
  have hdec : matDec1 la w orth axis t = unpackPair (.ok cs) := by
    unfold matDec1
    rw [sizeAt_ok hv]
    simp only [h1]
    show unpackPair ((decCall la dcfg dst t).1) = _
    rw [h9]
  have hlev : levels (some 1) F (evenLen n) = 1 := rfl
  rw [hlev] at h9 h10
  by_cases hFn : F ≤ evenLen n
  swap
  · refine ⟨fun _ => ⟨.valueError, ?_⟩, fun _ _ h => absurd h hFn⟩
    rw [hdec]
    unfold unpackPair
    simp only
    have hl := h10.length
    have : mLevels F 1 (evenLen n) = 0 := by
      show (if evenLen n < F then 0 else _) = 0
      rw [if_pos (by omega)]
    rw [this] at hl
    rw [if_neg (by omega)]
  refine ⟨fun h => absurd ⟨hv, hdt, hFn⟩ h, fun _ _ _ => ?_⟩
  have hml : mLevels F 1 (evenLen n) = 1 := by
    show (if evenLen n < F then 0 else _) = 1
    rw [if_neg (by omega)]; rfl
  obtain ⟨rcfg, rst, r1, r2, _⟩ := rec_run (la := la) hw (x := x') (axis := .int axis) (m := .zero) (orth := orth)
    (L := 1) (C := C') (cs := cs) (by rw [h7]; exact hg)
    (by rw [h6]; unfold isDtypeSupported at hdt; simpa using hdt) ho
    (by rw [h7, axis1_int, h8]; exact evenLen_even _)
    (by rw [h7, axis1_int, h8, h6]; exact h2) (by rw [h7, axis1_int, h8, h6]; exact h3)
    (by rw [h7, axis1_int, h8]; exact h4) (by rw [h7, axis1_int, h8]; exact h10)
  rw [hml] at h10
  have hlen := h10.length
  match cs, hlen with
  | [lo, hi], _ =>
    have hCC : C' (evenLen n) = C (evenLen n) := by
      have e1 := h2 (evenLen n) (evenLen_even n) hFn le_rfl
      rw [hC (evenLen n) (evenLen_even n) hFn] at e1
      exact (Except.ok.inj e1).symm
    have hxa : x'.shape.getD a 0 = evenLen n := h8
    have hlo := h10.approx lo rfl
    have hhi := h10.detail 0 hi (by omega) rfl
    rw [hxa] at hlo hhi
    have hk : mLen (evenLen n) 1 = evenLen n / 2 := by
      show evenLen (evenLen n) / 2 = _
      rw [evenLen_of_even (evenLen_even n)]
    rw [hk] at hlo
    rw [show mLen (evenLen n) (0 + 1) = evenLen n / 2 from hk] at hhi
    have hlo' := along_of_padded (g := fun i => i) (M := (C (evenLen n)).den) hax h5 (by
      refine ⟨hlo.md, hlo.shape, fun idx hidx => ?_⟩
      rw [hlo.get idx hidx]
      show rowTimes _ ((C' (evenLen (evenLen n))).den) _ _ _ = _
      rw [evenLen_of_even (evenLen_even n), hCC])
    have hhi' := along_of_padded (g := fun i => evenLen n / 2 + i) (M := (C (evenLen n)).den) hax h5 (by
      refine ⟨hhi.md, hhi.shape, fun idx hidx => ?_⟩
      rw [hhi.get idx hidx]
      show rowTimes _ ((C' (evenLen (evenLen n))).den) _ _ _ = _
      rw [evenLen_of_even (evenLen_even n), hCC])
    refine ⟨x', lo, hi, by rw [hdec]; rfl, hlo', hhi', ?_, h5⟩
    unfold matSyn1
    simp only
    rw [sizeAt_ok (by rw [hlo'.rank]; exact hv)]
    simp only [r1]
    exact r2

theorem inB_set_ge {s idx : List Nat} {a x : Nat} (ha : a < s.length) (h : InB s idx) (hx : s.getD a 0 ≤ x) :
    InB (s.set a x) idx := by
  have h1 : idx = idx.set a (idx.getD a 0) := (set_getD_self (by rw [h.length_eq]; exact ha)).symm
  rw [h1]
  refine (inB_set_iff (s := s.set a x) (x := s.getD a 0) (by simpa using ha) ?_).mpr ?_
  · rw [List.set_set, set_getD_self ha]; exact h
  · rw [getD_set_self ha]
    exact lt_of_lt_of_le (h.getD_lt ha) hx

theorem mLen_cons (n s : Nat) : mLen n (s + 1) = mLen (evenLen n / 2) s := rfl

theorem matPacketLine_congr {A : Nat → Nat → Nat → ℝ} : ∀ (k : Key) (n : Nat) (u v : Nat → ℝ),
    (∀ j, j < n → u j = v j) → ∀ i, i < mLen n k.length → matPacketLine A n u k i = matPacketLine A n v k i
  | [], _, u, v, h, i, hi => h i hi
  | c :: k, n, u, v, h, i, hi => by
    rw [matPacketLine, matPacketLine]
    have e1 : stepLo .zero A n u = stepLo .zero A n v :=
      funext fun i => rowTimes_congr (fun j _ => evenExt_zero_congr h j) i
    have e2 : stepHi .zero A n u = stepHi .zero A n v :=
      funext fun i => rowTimes_congr (fun j _ => evenExt_zero_congr h j) _
    rw [e1, e2]

/-- Every packet coefficient is what the matrices give. -/
theorem matWalk1_textbook (hla : ExactLinAlg la) (hw : OrthBank w F) (ho : orth = "qr" ∨ orth = "gramschmidt")
    (hind : ∀ k, k % 2 = 0 → F ≤ k → BoundaryIndep w F k) (hC : HasMats la w F orth md C) :
    ∀ (k : Key) (x v : Tensor ℝ), x.md = md → (∀ c ∈ k, c ∈ ['a', 'd']) → (k = [] → ValidAxis x.rank axis) →
      walk (matDec1 la w orth axis) ['a', 'd'] x k = .ok v →
      AlongAxis (axisOf x.rank axis) (mLen (x.shape.getD (axisOf x.rank axis) 0) k.length)
        (fun u => matPacketLine (fun q => (C q).den) (x.shape.getD (axisOf x.rank axis) 0) u k) x v
  | [], x, v, _, _, hv, h => by
    cases h
    have hax := axisOf_lt (hv rfl)
    refine ⟨rfl, ?_, ?_⟩
    · rw [List.length_nil, mLen, set_getD_self hax]
    · intro idx hidx
      show _ = x.get (idx.set _ _)
      rw [set_getD_self (by rw [hidx.length_eq]; exact hax)]
  | c :: k, x, v, hx, hc, _, h => by
    rw [walk] at h
    obtain ⟨vs, hd, h⟩ := bind_ok_inv h
    obtain ⟨u, hu, h⟩ := bind_ok_inv h
    obtain ⟨g1, g2⟩ := matDec1_char hla hw ho hind x (hx.symm ▸ hC) (axis := axis)
    have hgood : ValidAxis x.rank axis ∧ isDtypeSupported x.md.dtype = true ∧
        F ≤ evenLen (x.shape.getD (axisOf x.rank axis) 0) := by
      by_contra hn
      obtain ⟨e, he⟩ := g1 hn
      rw [he] at hd; cases hd
    obtain ⟨t', lo, hi, e, hlo, hhi, _, _⟩ := g2 hgood.1 hgood.2.1 hgood.2.2
    rw [e] at hd
    cases hd
    have hax := axisOf_lt hgood.1
    have key : ∀ {u : Tensor ℝ} {f : (Nat → ℝ) → Nat → ℝ},
        AlongAxis (axisOf x.rank axis) (evenLen (x.shape.getD (axisOf x.rank axis) 0) / 2) f x u →
        walk (matDec1 la w orth axis) ['a', 'd'] u k = .ok v →
        AlongAxis (axisOf x.rank axis) (mLen (x.shape.getD (axisOf x.rank axis) 0) (k.length + 1))
          (fun l => matPacketLine (fun q => (C q).den) (evenLen (x.shape.getD (axisOf x.rank axis) 0) / 2) (f l) k) x v := by
      intro u f hu hwk
      have ih := matWalk1_textbook hla hw ho hind hC k u v (hu.md.trans hx) (fun c h => hc c (by simp [h]))
        (fun _ => by rw [hu.rank]; exact hgood.1) hwk
      rw [hu.rank] at ih
      have hs : u.shape.getD (axisOf x.rank axis) 0 = evenLen (x.shape.getD (axisOf x.rank axis) 0) / 2 := by
        rw [hu.shape, getD_set_self hax]
      rw [hs] at ih
      exact AlongAxis.comp hax hu ih (fun a b hab i hi => matPacketLine_congr k _ a b hab i hi)
    have hc0 := hc c (by simp)
    simp only [List.mem_cons, List.not_mem_nil, or_false] at hc0
    rcases hc0 with rfl | rfl
    · have : u = lo := by
        unfold pickBand at hu
        simpa using hu.symm
      subst this
      exact key hlo h
    · have : u = hi := by
        unfold pickBand at hu
        simpa using hu.symm
      subst this
      exact key hhi h

/-- When a coefficient can be computed. -/
theorem matWalk1_ok (hla : ExactLinAlg la) (hw : OrthBank w F) (ho : orth = "qr" ∨ orth = "gramschmidt")
    (hind : ∀ k, k % 2 = 0 → F ≤ k → BoundaryIndep w F k) (hC : HasMats la w F orth md C) :
    ∀ (k : Key) (x : Tensor ℝ), x.md = md → (∀ c ∈ k, c ∈ ['a', 'd']) → ValidAxis x.rank axis →
      isDtypeSupported x.md.dtype = true →
      (∀ s, s < k.length → F ≤ evenLen (mLen (x.shape.getD (axisOf x.rank axis) 0) s)) →
      ∃ v, walk (matDec1 la w orth axis) ['a', 'd'] x k = .ok v
  | [], x, _, _, _, _, _ => ⟨x, rfl⟩
  | c :: k, x, hx, hc, hv, hdt, hF => by
    obtain ⟨_, g2⟩ := matDec1_char hla hw ho hind x (hx.symm ▸ hC) (axis := axis)
    obtain ⟨t', lo, hi, e, hlo, hhi, _, _⟩ := g2 hv hdt (hF 0 (by simp))
    have hax := axisOf_lt hv
    have key : ∀ {u : Tensor ℝ} {f : (Nat → ℝ) → Nat → ℝ},
        AlongAxis (axisOf x.rank axis) (evenLen (x.shape.getD (axisOf x.rank axis) 0) / 2) f x u →
        ∃ v, walk (matDec1 la w orth axis) ['a', 'd'] u k = .ok v := by
      intro u f hu
      refine matWalk1_ok hla hw ho hind hC k u (hu.md.trans hx) (fun c h => hc c (by simp [h]))
        (by rw [hu.rank]; exact hv) (by rw [hu.md]; exact hdt) ?_
      intro s hs
      have h1 := hF (s + 1) (by simp; omega)
      rw [hu.rank, hu.shape, getD_set_self hax]
      exact h1
    have hc0 := hc c (by simp)
    simp only [List.mem_cons, List.not_mem_nil, or_false] at hc0
    rw [walk, e]
    simp only [bind, Except.bind]
    rcases hc0 with rfl | rfl
    · exact key hlo
    · exact key hhi

theorem matDec1_inverts (hla : ExactLinAlg la) (hw : OrthBank w F) (ho : orth = "qr" ∨ orth = "gramschmidt")
    (hind : ∀ k, k % 2 = 0 → F ≤ k → BoundaryIndep w F k) (md : Meta) :
    Inverts (fun t => t.md = md) (matDec1 la w orth axis) (matSyn1 la w orth axis) (fit1 axis) := by
  intro v vs hmd h
  obtain ⟨C, hC⟩ := hasMats_exists hla hw ho hind v.md
  obtain ⟨g1, g2⟩ := matDec1_char hla hw ho hind v hC (axis := axis)
  have hgood : ValidAxis v.rank axis ∧ isDtypeSupported v.md.dtype = true ∧
      F ≤ evenLen (v.shape.getD (axisOf v.rank axis) 0) := by
    by_contra hn
    obtain ⟨e, he⟩ := g1 hn
    rw [he] at h; cases h
  obtain ⟨z, lo, hi, e, hlo, hhi, hs, hz⟩ := g2 hgood.1 hgood.2.1 hgood.2.2
  rw [e] at h
  cases h
  refine ⟨z, hs, ?_⟩
  have hv := hgood.1
  have hax := axisOf_lt hv
  rcases hz with ⟨h0, rfl⟩ | ⟨h1, hz⟩
  · rw [fit1_spec hv hv, if_pos rfl]
  · have hs : z.shape = v.shape.set (axisOf v.rank axis) (v.shape.getD (axisOf v.rank axis) 0 + 1) := by
      rw [hz.shape]; congr 1; omega
    have hzr : z.rank = v.rank := by unfold Tensor.rank; rw [hs, List.length_set]
    have hsz : z.shape.getD (axisOf v.rank axis) 0 = v.shape.getD (axisOf v.rank axis) 0 + 1 := by
      rw [hs, getD_set_self hax]
    rw [fit1_spec (by rw [hzr]; exact hv) hv, hzr, hsz, if_neg (by omega), if_pos rfl]
    congr 1
    have hss : (z.slice (axisOf v.rank axis) 0 (v.shape.getD (axisOf v.rank axis) 0)).shape = v.shape := by
      show z.shape.set _ (min _ _ - 0) = _
      rw [hsz, Nat.min_eq_left (by omega), Nat.sub_zero, hs, List.set_set, set_getD_self hax]
    refine Tensor.ext' (by exact hz.md) hss ?_
    intro idx hidx
    have e : (z.slice (axisOf v.rank axis) 0 (v.shape.getD (axisOf v.rank axis) 0)).get idx
      = z.get (idx.set (axisOf v.rank axis) (idx.getD (axisOf v.rank axis) 0 + 0)) := ofFn_get_of _ _ hidx
    rw [hss] at hidx
    have hlt := hidx.getD_lt hax
    rw [e, Nat.add_zero, set_getD_self (by rw [hidx.length_eq]; exact hax)]
    have h2 := (evenPadded_along hax (Or.inr ⟨h1, hz⟩)).get idx (by
      rw [hs]
      exact inB_set_ge hax hidx (by omega))
    rw [h2]
    rw [evenExt_inside _ _ hlt]
    show v.get (idx.set _ _) = _
    rw [set_getD_self (by rw [hidx.length_eq]; exact hax)]

end
end Verif
