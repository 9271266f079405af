/-
C85: away from the borders the boundary-matrix transform is the convolution transform of the delayed signal.
-/
import Verif.Lemmas.MatLocal
import Verif.Spec.MatLocal

namespace Verif
open Tensor Spec

theorem matInside_of {F s lo hi r : Nat} (h2 : 2 ≤ F) (hev : F % 2 = 0) (h : MatInside F s lo hi r) :
    Inside (2 * (F / 2)) s (lo + (F / 2 - 1)) (hi + (F / 2 - 1)) (r + (F / 2 - 1)) :=
  (matInside_iff (by omega)).mpr h

end Verif

namespace Verif.Props
open Tensor Spec

/-- Everything about one call of a new object. -/
theorem mat_lines {la : LinAlg ℝ} (hla : ExactLinAlg la) {w : Wavelet ℝ} {F : Nat} (hw : OrthBank w F)
    {x : Tensor ℝ} {axis : AxisHint} {m : Mode} {mode : Option String} {orth : String} {level : Option Int}
    (hg : GoodAxes axis x.rank 1) (hdt : x.md.dtype = .float32 ∨ x.md.dtype = .float64)
    (hm : Selects mode m) (ho : orth = "qr" ∨ orth = "gramschmidt") (hlev : ∀ l, level = some l → 1 ≤ l)
    (hne : level = none → 0 < x.shape.getD (axis1 axis x.rank) 0)
    (hfit : x.shape.getD (axis1 axis x.rank) 0 % 2 = 1 → Fits m (x.shape.getD (axis1 axis x.rank) 0) 0 1)
    (hind : ∀ k, k % 2 = 0 → F ≤ k → k ≤ evenLen (x.shape.getD (axis1 axis x.rank) 0) → BoundaryIndep w F k)
    {dcfg : DecCfg ℝ} {dst : DecState ℝ} {cs : List (Tensor ℝ)} (hd : decInit w level axis orth mode = .ok (dcfg, dst))
    (hc : (decCall la dcfg dst x).1 = .ok cs) {idx : List Nat} (hi1 : InB x.shape idx) {lo hi : Nat}
    (hhi : hi ≤ x.shape.getD (axis1 axis x.rank) 0) {ny : Nat} (hny : hi + (F / 2 - 1) ≤ ny) {y : Nat → ℝ}
    (hs : ∀ t, lo ≤ t → t < hi → line x (axis1 axis x.rank) idx t = y (t + (F / 2 - 1))) (mm : Mode) :
    (∀ s, s + 1 < cs.length → ∀ d, cs[cs.length - 1 - s]? = some d → ∀ r, MatInside F (s + 1) lo hi r →
      line d (axis1 axis x.rank) idx r = cD mm w ny y s (r + (F / 2 - 1))) ∧
    ∃ a, cs[0]? = some a ∧ ∀ r, MatInside F (cs.length - 1) lo hi r →
      line a (axis1 axis x.rank) idx r = cA mm w ny y (cs.length - 1) (r + (F / 2 - 1)) := by
  obtain ⟨dcfg', dst', C, x', cs', lv, h1, hlv, h2, h3, h4, h5, h6, h7, h8, h9, h10⟩ :=
    dec_run hla hw hg hdt hm ho hlev hne hfit hind
  rw [hd] at h1
  cases h1
  rw [h9] at hc
  cases hc
  have ha : axis1 axis x.rank < x.rank := axis1_lt hg
  have e2 := hw.two_le
  have ev := hw.even
  have eF : 2 * (F / 2) = F := by omega
  have hA : InnerRows w (2 * (F / 2)) (evenLen (x.shape.getD (axis1 axis x.rank) 0)) (fun k => (C k).den) := by
    rw [eF]
    intro k k1 k2 k3 r j hr hj ht
    obtain ⟨A, a1, -, -, -, -, -, a2, -⟩ := c38_orthonormal hla x.md hw k1 (by omega) (hind k k1 k2 k3) ho
    rw [h2 k k1 k2 k3] at a1
    cases a1
    exact a2 r j hr hj ht
  have hlen : w.len = 2 * (F / 2) := by rw [eF]; exact hw.len.1
  have hhiL : w.decHi.length = w.len := by rw [hw.len.2.1]; exact hw.len.1.symm
  generalize axis1 axis x.rank = a at *
  have hx' := evenPadded_along ha h5
  have hi2 : InB x'.shape idx := by
    rw [hx'.shape, inB_iff]
    refine ⟨by rw [List.length_set]; exact hi1.length_eq, fun d hd => ?_⟩
    rw [List.length_set] at hd
    have hb := (inB_iff.mp hi1).2 d hd
    by_cases hda : d = a
    · subst hda
      rw [getD_set_self hd]
      exact lt_of_lt_of_le hb (by unfold evenLen; omega)
    · rw [getD_set_ne (Ne.symm hda)]
      exact hb
  have hline : ∀ t, t < hi → line x' a idx t = line x a idx t := by
    intro t ht
    rw [line_along ha hx' hi1 (lt_of_lt_of_le (lt_of_lt_of_le ht hhi) (by unfold evenLen; omega))]
    exact evenExt_inside m _ (by omega)
  have ha' : a < x'.rank := by rw [h7]; exact ha
  generalize hL : levels level F (evenLen (x.shape.getD a 0)) = L at *
  have hl := h10.length
  have hE : evenLen (evenLen (x.shape.getD a 0)) = evenLen (x.shape.getD a 0) := by unfold evenLen; omega
  have base : ∀ t, Inside (2 * (F / 2)) 0 (lo + (F / 2 - 1)) (hi + (F / 2 - 1)) (t + (F / 2 - 1)) →
      t < evenLen (x.shape.getD a 0) ∧ line x' a idx t = cA mm w ny y 0 (t + (F / 2 - 1)) := by
    rintro t ⟨q1, q2⟩
    simp only [pow_zero, Nat.sub_self, Nat.zero_mul, Nat.one_mul] at q1 q2
    refine ⟨lt_of_lt_of_le (show t < x.shape.getD a 0 by omega) (by unfold evenLen; omega), ?_⟩
    rw [hline t (by omega), hs t (by omega) (by omega)]
    rfl
  have main := fun s (hsL : s ≤ mLevels (2 * (F / 2)) L (evenLen (x.shape.getD a 0))) =>
    mat_inner (m := mm) (m' := m) hA hlen hhiL (by omega) hny s (s0 := 0) hsL (by rw [hE]) base
  rw [eF] at main
  refine ⟨?_, ?_⟩
  · intro s h12 d hdd r hr
    rw [hl, Nat.add_sub_cancel] at hdd
    have hin := matInside_of e2 ev hr
    rw [eF] at hin
    obtain ⟨p1, p2⟩ := (main s (by omega)).2 (by omega) r (by rw [Nat.zero_add]; exact hin)
    have hal := h10.detail s d (by omega) hdd
    rw [h8] at hal
    rw [line_along ha' hal hi2 p1]
    rw [Nat.zero_add] at p2
    exact p2
  · have e1 : 0 < cs.length := by omega
    refine ⟨cs[0], List.getElem?_eq_getElem e1, fun r hr => ?_⟩
    rw [hl, Nat.add_sub_cancel] at hr ⊢
    have hin := matInside_of e2 ev hr
    rw [eF] at hin
    obtain ⟨p1, p2⟩ := (main _ le_rfl).1 r (by rw [Nat.zero_add]; exact hin)
    have hal := h10.approx _ (List.getElem?_eq_getElem e1)
    rw [h8] at hal
    rw [line_along ha' hal hi2 p1]
    rw [Nat.zero_add] at p2
    exact p2

/-- **C85.** Let `y` contain, on a window, the samples of `x` delayed by `F/2 - 1` (any sizes, axes, positions in a batch,
boundary modes, orthogonalisation methods and numbers of levels). A coefficient of `MatrixWavedec` of `x` all of whose samples lie
in the window is the coefficient of `wavedec` of `y` at the position delayed by `F/2 - 1`, at every level: apart from the
borders the two backends compute the same transform. -/
theorem c85_backends_agree_inside {la : LinAlg ℝ} (hla : ExactLinAlg la) {w : Wavelet ℝ} {F : Nat} (hw : OrthBank w F)
    {x y : Tensor ℝ} {axis axis' : AxisHint} {m : Mode} {mode mode' : Option String} {orth : String} {level level' : Option Int}
    (hg : GoodAxes axis x.rank 1) (hdt : x.md.dtype = .float32 ∨ x.md.dtype = .float64)
    (hm : Selects mode m) (ho : orth = "qr" ∨ orth = "gramschmidt") (hlev : ∀ l, level = some l → 1 ≤ l)
    (hne : level = none → 0 < x.shape.getD (axis1 axis x.rank) 0)
    (hfit : x.shape.getD (axis1 axis x.rank) 0 % 2 = 1 → Fits m (x.shape.getD (axis1 axis x.rank) 0) 0 1)
    (hind : ∀ k, k % 2 = 0 → F ≤ k → k ≤ evenLen (x.shape.getD (axis1 axis x.rank) 0) → BoundaryIndep w F k)
    {dcfg : DecCfg ℝ} {dst : DecState ℝ} {cs ds : List (Tensor ℝ)} (hd : decInit w level axis orth mode = .ok (dcfg, dst))
    (hc : (decCall la dcfg dst x).1 = .ok cs) (hds : wavedec y w mode' level' axis' = .ok ds)
    {idx idx' : List Nat} (hi1 : InB x.shape idx) (hi2 : InB y.shape idx') {lo hi : Nat}
    (h1 : hi ≤ x.shape.getD (axis1 axis x.rank) 0) (h2 : hi + (F / 2 - 1) ≤ y.shape.getD (axis1 axis' y.rank) 0)
    (hs : ∀ t, lo ≤ t → t < hi → line x (axis1 axis x.rank) idx t = line y (axis1 axis' y.rank) idx' (t + (F / 2 - 1))) :
    (∀ s, s + 1 < cs.length → s + 1 < ds.length → ∀ d d', cs[cs.length - 1 - s]? = some d →
      ds[ds.length - 1 - s]? = some d' → ∀ r, MatInside F (s + 1) lo hi r →
        line d (axis1 axis x.rank) idx r = line d' (axis1 axis' y.rank) idx' (r + (F / 2 - 1))) ∧
    (cs.length = ds.length → ∃ a a', cs[0]? = some a ∧ ds[0]? = some a' ∧ ∀ r, MatInside F (cs.length - 1) lo hi r →
        line a (axis1 axis x.rank) idx r = line a' (axis1 axis' y.rank) idx' (r + (F / 2 - 1))) := by
  have e2 := hw.two_le
  have ev := hw.even
  have eF : 2 * (F / 2) = F := by omega
  have hlen : w.len = F := hw.len.1
  have hhiL : w.decHi.length = w.len := by rw [hw.len.2.1]; exact hw.len.1.symm
  obtain ⟨m', -, hd2⟩ := c02_wavedec_textbook y w mode' level' axis' ds (by omega) hhiL hds
  have ha' := wavedec_axis (by omega) hhiL hds
  obtain ⟨k1, k2⟩ := mat_lines hla hw hg hdt hm ho hlev hne hfit hind hd hc hi1 h1 h2 hs m'
  have hl' := hd2.length
  generalize levels level' w.len (y.shape.getD (axis1 axis' y.rank) 0) = L' at *
  have hlt : ∀ s r, MatInside F s lo hi r → r + (F / 2 - 1) < levelLen w.len (y.shape.getD (axis1 axis' y.rank) 0) s := by
    intro s r hr
    have hin := matInside_of e2 ev hr
    rw [eF, ← hlen] at hin
    rw [hlen] at hin
    rw [hlen]
    simpa using hin.lt e2 (c := 0) (by simpa using h2)
  refine ⟨?_, ?_⟩
  · intro s q1 q2 d d' hdd hdd' r hr
    rw [hl', Nat.add_sub_cancel] at hdd'
    rw [k1 s q1 d hdd r hr, line_along ha' (hd2.detail s d' (by omega) hdd') hi2 (hlt _ _ hr)]
  · intro hll
    obtain ⟨a, e1, e3⟩ := k2
    have e4 : 0 < ds.length := by omega
    refine ⟨a, ds[0], e1, List.getElem?_eq_getElem e4, fun r hr => ?_⟩
    rw [e3 r hr]
    rw [hll, hl', Nat.add_sub_cancel] at hr ⊢
    rw [line_along ha' (hd2.approx _ (List.getElem?_eq_getElem e4)) hi2 (hlt _ _ hr)]

/-- A call of a new `MatrixWavedec` object with legal arguments (any boundary mode, orthogonalisation method, level), and its
result `cs`. -/
def MatRun (la : LinAlg ℝ) (w : Wavelet ℝ) (F : Nat) (x : Tensor ℝ) (axis : AxisHint) (cs : List (Tensor ℝ)) : Prop :=
  ∃ (m : Mode) (mode : Option String) (orth : String) (level : Option Int) (dcfg : DecCfg ℝ) (dst : DecState ℝ),
    GoodAxes axis x.rank 1 ∧ (x.md.dtype = .float32 ∨ x.md.dtype = .float64) ∧ Selects mode m ∧
    (orth = "qr" ∨ orth = "gramschmidt") ∧ (∀ l, level = some l → 1 ≤ l) ∧
    (level = none → 0 < x.shape.getD (axis1 axis x.rank) 0) ∧
    (x.shape.getD (axis1 axis x.rank) 0 % 2 = 1 → Fits m (x.shape.getD (axis1 axis x.rank) 0) 0 1) ∧
    (∀ k, k % 2 = 0 → F ≤ k → k ≤ evenLen (x.shape.getD (axis1 axis x.rank) 0) → BoundaryIndep w F k) ∧
    decInit w level axis orth mode = .ok (dcfg, dst) ∧ (decCall la dcfg dst x).1 = .ok cs

theorem MatRun.lines {la : LinAlg ℝ} (hla : ExactLinAlg la) {w : Wavelet ℝ} {F : Nat} (hw : OrthBank w F) {x : Tensor ℝ}
    {axis : AxisHint} {cs : List (Tensor ℝ)} (h : MatRun la w F x axis cs) {idx : List Nat} (hi1 : InB x.shape idx) {lo hi : Nat}
    (hhi : hi ≤ x.shape.getD (axis1 axis x.rank) 0) {y : Nat → ℝ}
    (hs : ∀ t, lo ≤ t → t < hi → line x (axis1 axis x.rank) idx t = y (t + (F / 2 - 1))) (mm : Mode) :
    (∀ s, s + 1 < cs.length → ∀ d, cs[cs.length - 1 - s]? = some d → ∀ r, MatInside F (s + 1) lo hi r →
      line d (axis1 axis x.rank) idx r = cD mm w (hi + (F / 2 - 1)) y s (r + (F / 2 - 1))) ∧
    ∃ a, cs[0]? = some a ∧ ∀ r, MatInside F (cs.length - 1) lo hi r →
      line a (axis1 axis x.rank) idx r = cA mm w (hi + (F / 2 - 1)) y (cs.length - 1) (r + (F / 2 - 1)) := by
  obtain ⟨m, mode, orth, level, dcfg, dst, a1, a2, a3, a4, a5, a6, a7, a8, a9, a10⟩ := h
  exact mat_lines hla hw a1 a2 a3 a4 a5 a6 a7 a8 a9 a10 hi1 hhi le_rfl hs mm

/-- **C85.** Locality: two inputs of `MatrixWavedec` objects (any sizes, axes, positions in a batch, boundary modes,
orthogonalisation methods, numbers of levels) that agree on a window up to an offset of a multiple of `2^S`: the coefficients of
every level `s ≤ S` all of whose samples lie in the window agree, with the offset divided by `2^s`. -/
theorem c85_local {la la' : LinAlg ℝ} (hla : ExactLinAlg la) (hla' : ExactLinAlg la') {w : Wavelet ℝ} {F : Nat} (hw : OrthBank w F)
    {x y : Tensor ℝ} {axis axis' : AxisHint} {cs ds : List (Tensor ℝ)} (hx : MatRun la w F x axis cs) (hy : MatRun la' w F y axis' ds)
    {S lo hi shift : Nat} (h1 : hi ≤ x.shape.getD (axis1 axis x.rank) 0)
    (h2 : hi + 2 ^ S * shift ≤ y.shape.getD (axis1 axis' y.rank) 0) {idx idx' : List Nat} (hi1 : InB x.shape idx)
    (hi2 : InB y.shape idx')
    (hs : ∀ t, lo ≤ t → t < hi → line x (axis1 axis x.rank) idx t = line y (axis1 axis' y.rank) idx' (t + 2 ^ S * shift)) :
    (∀ s, s < S → s + 1 < cs.length → s + 1 < ds.length → ∀ d d', cs[cs.length - 1 - s]? = some d →
      ds[ds.length - 1 - s]? = some d' → ∀ r, MatInside F (s + 1) lo hi r →
        line d (axis1 axis x.rank) idx r = line d' (axis1 axis' y.rank) idx' (r + 2 ^ (S - (s + 1)) * shift)) ∧
    (cs.length = ds.length → cs.length ≤ S + 1 → ∃ a a', cs[0]? = some a ∧ ds[0]? = some a' ∧
      ∀ r, MatInside F (cs.length - 1) lo hi r →
        line a (axis1 axis x.rank) idx r = line a' (axis1 axis' y.rank) idx' (r + 2 ^ (S - (cs.length - 1)) * shift)) := by
  have e2 := hw.two_le
  have ev := hw.even
  have eF : 2 * (F / 2) = F := by omega
  have hlen : w.len = F := hw.len.1
  have hhiL : w.decHi.length = w.len := by rw [hw.len.2.1]; exact hw.len.1.symm
  obtain ⟨k1, a, k2, k3⟩ := hx.lines hla hw hi1 h1 (lo := lo)
    (y := fun t => line x (axis1 axis x.rank) idx (t - (F / 2 - 1))) (fun t _ _ => by simp) .zero
  obtain ⟨l1, a', l2, l3⟩ := hy.lines hla' hw hi2 h2 (lo := lo + 2 ^ S * shift)
    (y := fun t => line y (axis1 axis' y.rank) idx' (t - (F / 2 - 1))) (fun t _ _ => by simp) .zero
  have hsh : ∀ s r, s ≤ S → MatInside F s lo hi r →
      MatInside F s (lo + 2 ^ S * shift) (hi + 2 ^ S * shift) (r + 2 ^ (S - s) * shift) := by
    rintro s r hsS ⟨q1, q2⟩
    have e : 2 ^ s * (r + 2 ^ (S - s) * shift) = 2 ^ s * r + 2 ^ S * shift := by
      rw [Nat.mul_add, ← Nat.mul_assoc, ← pow_add, show s + (S - s) = S by omega]
    refine ⟨?_, ?_⟩ <;> rw [e] <;> omega
  have hfit : WindowsFit (2 ^ S) [⟨lo + (F / 2 - 1), hi + (F / 2 - 1), shift⟩] [hi + (F / 2 - 1)]
      [hi + 2 ^ S * shift + (F / 2 - 1)] := ⟨le_rfl, by
    show (hi + (F / 2 - 1)) + 2 ^ S * shift ≤ hi + 2 ^ S * shift + (F / 2 - 1)
    omega, trivial⟩
  have hX : ∀ js, InsideN w.len 0 [⟨lo + (F / 2 - 1), hi + (F / 2 - 1), shift⟩] js →
      (fun js : List Nat => line x (axis1 axis x.rank) idx (js.headD 0 - (F / 2 - 1))) js =
      (fun js : List Nat => line y (axis1 axis' y.rank) idx' (js.headD 0 - (F / 2 - 1)))
        (moved (2 ^ S) [⟨lo + (F / 2 - 1), hi + (F / 2 - 1), shift⟩] js) := by
    rintro (_ | ⟨k, _ | ⟨_, _⟩⟩) h
    · exact h.elim
    · obtain ⟨⟨p1, p2⟩, -⟩ := h
      simp only [pow_zero, Nat.sub_self, Nat.zero_mul, Nat.one_mul] at p1 p2
      have := hs (k - (F / 2 - 1)) (by omega) (by omega)
      show line x _ idx (k - (F / 2 - 1)) = line y _ idx' (k + 2 ^ S * shift - (F / 2 - 1))
      rw [this]
      congr 1
      omega
    · exact h.2.elim
  refine ⟨?_, ?_⟩
  · intro s hsS q1 q2 d d' hd hd' r hr
    rw [k1 s q1 d hd r hr, l1 s q2 d' hd' _ (hsh (s + 1) r (by omega) hr)]
    have hin := matInside_of e2 ev hr
    rw [eF, ← hlen] at hin
    have := cDN_local (m := .zero) (m' := .zero) (by omega) hhiL hfit (X := fun js => line x (axis1 axis x.rank) idx (js.headD 0 - (F / 2 - 1)))
      (X' := fun js => line y (axis1 axis' y.rank) idx' (js.headD 0 - (F / 2 - 1))) hX (s := s) (by omega) (bs := [true]) rfl [r + (F / 2 - 1)]
      ⟨by rw [hlen] at hin ⊢; exact hin, trivial⟩
    simp only [moved] at this
    rw [cDN_one (v := fun t => line x (axis1 axis x.rank) idx (t - (F / 2 - 1))),
      cDN_one (v := fun t => line y (axis1 axis' y.rank) idx' (t - (F / 2 - 1)))] at this
    rw [show r + 2 ^ (S - (s + 1)) * shift + (F / 2 - 1) = r + (F / 2 - 1) + 2 ^ (S - (s + 1)) * shift by omega]
    exact this
  · intro hll hle
    refine ⟨a, a', k2, l2, fun r hr => ?_⟩
    have hr' := hsh _ r (by omega) hr
    rw [k3 r hr]
    rw [hll] at hr hr' ⊢
    rw [l3 _ hr']
    have hin := matInside_of e2 ev hr
    rw [eF, ← hlen] at hin
    have := cAN_local (m := .zero) (m' := .zero) (by omega) hhiL hfit (X := fun js => line x (axis1 axis x.rank) idx (js.headD 0 - (F / 2 - 1)))
      (X' := fun js => line y (axis1 axis' y.rank) idx' (js.headD 0 - (F / 2 - 1))) hX (ds.length - 1) (by omega) [r + (F / 2 - 1)]
      ⟨by rw [hlen] at hin ⊢; exact hin, trivial⟩
    simp only [moved] at this
    rw [cAN_one (v := fun t => line x (axis1 axis x.rank) idx (t - (F / 2 - 1))),
      cAN_one (v := fun t => line y (axis1 axis' y.rank) idx' (t - (F / 2 - 1)))] at this
    rw [show r + 2 ^ (S - (ds.length - 1)) * shift + (F / 2 - 1) = r + (F / 2 - 1) + 2 ^ (S - (ds.length - 1)) * shift by omega]
    exact this

/-- **C85.** Vanishing moments: where the signal is a polynomial of degree below the number of vanishing moments, the details of
`MatrixWavedec` all of whose samples lie in the window are 0. -/
theorem c85_polynomial {la : LinAlg ℝ} (hla : ExactLinAlg la) {w : Wavelet ℝ} {F : Nat} (hw : OrthBank w F)
    {x : Tensor ℝ} {axis : AxisHint} {cs : List (Tensor ℝ)} (hx : MatRun la w F x axis cs) {p : Nat} (hp : VanishingMoments p w.decHi)
    {P : Polynomial ℝ} (hP : P.natDegree < p) {lo hi : Nat} (h1 : hi ≤ x.shape.getD (axis1 axis x.rank) 0) {idx : List Nat}
    (hi1 : InB x.shape idx) (hs : ∀ t, lo ≤ t → t < hi → line x (axis1 axis x.rank) idx t = P.eval (t : ℝ)) :
    ∀ s, s + 1 < cs.length → ∀ d, cs[cs.length - 1 - s]? = some d → ∀ r, MatInside F (s + 1) lo hi r →
      line d (axis1 axis x.rank) idx r = 0 := by
  intro s h12 d hd r hr
  have e2 := hw.two_le
  have ev := hw.even
  have eF : 2 * (F / 2) = F := by omega
  have hlen : w.len = F := hw.len.1
  have hhiL : w.decHi.length = w.len := by rw [hw.len.2.1]; exact hw.len.1.symm
  set Q : Polynomial ℝ := P.comp (Polynomial.X - Polynomial.C ((F / 2 - 1 : ℕ) : ℝ)) with hQ
  have hQd : Q.natDegree < p := by
    rw [hQ, Polynomial.natDegree_comp, Polynomial.natDegree_X_sub_C, mul_one]
    exact hP
  rw [(hx.lines hla hw hi1 h1 (lo := lo) (y := fun t => Q.eval (t : ℝ)) (fun t q1 q2 => by
    rw [hs t q1 q2, hQ]
    simp) .zero).1 s h12 d hd r hr]
  have hin := matInside_of e2 ev hr
  rw [eF] at hin
  exact cD_poly (lo := lo + (F / 2 - 1)) (hi := hi + (F / 2 - 1)) (by omega) hhiL hp le_rfl hQd (fun t _ _ => rfl) (by rw [hlen]; exact hin)

/-- C85: where the signal is a polynomial, the inner coarse coefficients are a polynomial of no larger degree, with or without vanishing
moments. -/
theorem c85_polynomial_coarse {la : LinAlg ℝ} (hla : ExactLinAlg la) {w : Wavelet ℝ} {F : Nat} (hw : OrthBank w F)
    {x : Tensor ℝ} {axis : AxisHint} {cs : List (Tensor ℝ)} (hx : MatRun la w F x axis cs)
    {P : Polynomial ℝ} {lo hi : Nat} (h1 : hi ≤ x.shape.getD (axis1 axis x.rank) 0) {idx : List Nat}
    (hi1 : InB x.shape idx) (hs : ∀ t, lo ≤ t → t < hi → line x (axis1 axis x.rank) idx t = P.eval (t : ℝ)) :
    ∃ a, cs[0]? = some a ∧ ∃ Q : Polynomial ℝ, Q.natDegree ≤ P.natDegree ∧
      ∀ r, MatInside F (cs.length - 1) lo hi r → line a (axis1 axis x.rank) idx r = Q.eval (r : ℝ) := by
  have e2 := hw.two_le
  have ev := hw.even
  have eF : 2 * (F / 2) = F := by omega
  have hlen : w.len = F := hw.len.1
  set Q : Polynomial ℝ := P.comp (Polynomial.X - Polynomial.C ((F / 2 - 1 : ℕ) : ℝ)) with hQ
  have hQd : Q.natDegree ≤ P.natDegree := by
    rw [hQ, Polynomial.natDegree_comp, Polynomial.natDegree_X_sub_C, mul_one]
  obtain ⟨-, a, ha, hv⟩ := hx.lines hla hw hi1 h1 (lo := lo) (y := fun t => Q.eval (t : ℝ)) (fun t q1 q2 => by
    rw [hs t q1 q2, hQ]
    simp) .zero
  obtain ⟨Q', hQ', hc⟩ := cA_poly (m := .zero) (w := w) (by omega) (n := hi + (F / 2 - 1)) (lo := lo + (F / 2 - 1)) le_rfl
    (v := fun t => Q.eval (t : ℝ)) (P := Q) (fun t _ _ => rfl) (cs.length - 1)
  refine ⟨a, ha, Q'.comp (Polynomial.X + Polynomial.C ((F / 2 - 1 : ℕ) : ℝ)), ?_, fun r hr => ?_⟩
  · rw [Polynomial.natDegree_comp, Polynomial.natDegree_X_add_C, mul_one]
    exact hQ'.trans hQd
  · have hin := matInside_of e2 ev hr
    rw [eF, ← hlen] at hin
    rw [hv r hr, hc _ (by rw [hlen] at hin ⊢; exact hin)]
    simp

/-- C85: with two taps (Haar) nothing reaches beyond the borders: `MatrixWavedec` and `wavedec` of the same signal have the same coefficients,
all those made of samples of the signal only, whatever the two boundary modes. -/
theorem c85_haar {la : LinAlg ℝ} (hla : ExactLinAlg la) {w : Wavelet ℝ} (hw : OrthBank w 2) {x : Tensor ℝ} {axis : AxisHint}
    {cs ds : List (Tensor ℝ)} (hx : MatRun la w 2 x axis cs) {mode : Option String} {level : Option Int}
    (hds : wavedec x w mode level axis = .ok ds) {idx : List Nat} (hi : InB x.shape idx) :
    (∀ s, s + 1 < cs.length → s + 1 < ds.length → ∀ d d', cs[cs.length - 1 - s]? = some d →
      ds[ds.length - 1 - s]? = some d' → ∀ r, 2 ^ (s + 1) * (r + 1) ≤ x.shape.getD (axis1 axis x.rank) 0 →
        line d (axis1 axis x.rank) idx r = line d' (axis1 axis x.rank) idx r) ∧
    (cs.length = ds.length → ∃ a a', cs[0]? = some a ∧ ds[0]? = some a' ∧
      ∀ r, 2 ^ (cs.length - 1) * (r + 1) ≤ x.shape.getD (axis1 axis x.rank) 0 →
        line a (axis1 axis x.rank) idx r = line a' (axis1 axis x.rank) idx r) := by
  obtain ⟨m, mode', orth, level', dcfg, dst, a1, a2, a3, a4, a5, a6, a7, a8, a9, a10⟩ := hx
  have key : ∀ s r N, 2 ^ s * (r + 1) ≤ N → MatInside 2 s 0 N r := by
    intro s r N h
    have := Nat.one_le_two_pow (n := s)
    rw [Nat.mul_add, Nat.mul_one] at h
    exact ⟨by simp, by omega⟩
  obtain ⟨h1, h2⟩ := c85_backends_agree_inside hla hw a1 a2 a3 a4 a5 a6 a7 a8 a9 a10 hds (lo := 0) hi hi le_rfl le_rfl
    (fun t _ _ => rfl)
  refine ⟨fun s e1 e2 d d' e3 e4 r hr => h1 s e1 e2 d d' e3 e4 r (key _ _ _ hr), fun he => ?_⟩
  obtain ⟨a, a', b1, b2, b3⟩ := h2 he
  exact ⟨a, a', b1, b2, fun r hr => b3 r (key _ _ _ hr)⟩

/-! ### The hypotheses can be met -/

/-- The Daubechies wavelet `db2` with its exact taps. -/
noncomputable def db2 : Wavelet ℝ where
  decLo := [(1 - √3) * √2 / 8, (3 - √3) * √2 / 8, (3 + √3) * √2 / 8, (1 + √3) * √2 / 8]
  decHi := [-((1 + √3) * √2 / 8), (3 + √3) * √2 / 8, -((3 - √3) * √2 / 8), (1 - √3) * √2 / 8]
  recLo := [(1 + √3) * √2 / 8, (3 + √3) * √2 / 8, (3 - √3) * √2 / 8, (1 - √3) * √2 / 8]
  recHi := [(1 - √3) * √2 / 8, -((3 - √3) * √2 / 8), (3 + √3) * √2 / 8, -((1 + √3) * √2 / 8)]

theorem db2_orth : OrthBank db2 4 := by
  have h2 : √2 * √2 = (2 : ℝ) := Real.mul_self_sqrt (by norm_num)
  have h3 : √3 * √3 = (3 : ℝ) := Real.mul_self_sqrt (by norm_num)
  have key : ∀ m : ℤ, -((4 : ℕ) : ℤ) < 2 * m → 2 * m < ((4 : ℕ) : ℤ) → m = -1 ∨ m = 0 ∨ m = 1 := by
    intro m h1 h2; push_cast at h1 h2; omega
  refine orthBank_of ⟨rfl, rfl, rfl, rfl⟩ (by norm_num) rfl ?_ ?_ ?_ rfl rfl
  · intro m a1 a2
    rcases key m a1 a2 with rfl | rfl | rfl <;> simp [Finset.sum_range_succ, tap, db2]
    · linear_combination (-(2 : ℝ) / 64 * (√2 * √2)) * h3 + (0 : ℝ) * h2
    · linear_combination ((4 : ℝ) / 64 * (√2 * √2)) * h3 + ((32 : ℝ) / 64) * h2
    · linear_combination (-(2 : ℝ) / 64 * (√2 * √2)) * h3 + (0 : ℝ) * h2
  · intro m a1 a2
    rcases key m a1 a2 with rfl | rfl | rfl <;> simp [Finset.sum_range_succ, tap, db2]
    · linear_combination (-(2 : ℝ) / 64 * (√2 * √2)) * h3 + (0 : ℝ) * h2
    · linear_combination ((4 : ℝ) / 64 * (√2 * √2)) * h3 + ((32 : ℝ) / 64) * h2
    · linear_combination (-(2 : ℝ) / 64 * (√2 * √2)) * h3 + (0 : ℝ) * h2
  · intro m a1 a2
    rcases key m a1 a2 with rfl | rfl | rfl <;> simp [Finset.sum_range_succ, tap, db2] <;> ring

theorem db2_indep {n : Nat} (hn : n % 2 = 0) (h4 : 4 ≤ n) : BoundaryIndep db2 4 n := by
  have h3 : √3 * √3 = (3 : ℝ) := Real.mul_self_sqrt (by norm_num)
  have h2 : √2 * √2 = (2 : ℝ) := Real.mul_self_sqrt (by norm_num)
  refine boundaryIndep_four (a := (1 - √3) * √2 / 8) (b := (3 - √3) * √2 / 8) (c := (3 + √3) * √2 / 8) (d := (1 + √3) * √2 / 8)
    (s := -1) rfl (by simp [db2]) (by norm_num) ?_ hn h4
  have : (3 - √3) * √2 / 8 * ((3 - √3) * √2 / 8) + (3 + √3) * √2 / 8 * ((3 + √3) * √2 / 8) = 48 / 64 := by
    linear_combination ((2 : ℝ) / 64 * (√2 * √2)) * h3 + ((24 : ℝ) / 64) * h2
  rw [this]
  norm_num

theorem db2_moments : VanishingMoments 2 db2.decHi := by
  intro m hm
  interval_cases m <;> simp [Finset.sum_range_succ, db2] <;> ring

theorem matRun_line {la : LinAlg ℝ} (hla : ExactLinAlg la) (n : Nat) (hn : 4 ≤ n) (hev : n % 2 = 0) (f : List Nat → ℝ) (L : Int) (hL : 1 ≤ L) :
    ∃ cs, MatRun la db2 4 (ofFn ⟨.float64, 0⟩ [n] f) (.int (-1)) cs ∧ cs.length = mLevels 4 (levels (some L) 4 n) n + 1 := by
  have hg : GoodAxes (.int (-1)) (ofFn ⟨.float64, 0⟩ [n] f).rank 1 := ⟨by show 1 ≤ 1; decide, rfl, by
    show ValidAxes 1 (resolve (.int (-1)) 1)
    refine ⟨?_, by decide⟩
    intro a ha
    have : a = -1 := by simpa [resolve] using ha
    subst this
    exact ⟨by decide, by decide⟩⟩
  have hs : (ofFn ⟨.float64, 0⟩ [n] f).shape.getD (axis1 (.int (-1)) (ofFn ⟨.float64, 0⟩ [n] f).rank) 0 = n := rfl
  have hE : evenLen n = n := by unfold evenLen; omega
  obtain ⟨dcfg, dst, C, x', cs, lv, h1, -, -, -, -, -, -, -, -, h9, h10⟩ := dec_run hla db2_orth (x := ofFn ⟨.float64, 0⟩ [n] f)
    (axis := .int (-1)) (m := .zero) (mode := some "zero") (orth := "qr") (level := some L) hg (Or.inr rfl) (Or.inl rfl) (Or.inl rfl)
    (by rintro l ⟨⟩; exact hL) (by rintro ⟨⟩) (fun _ => trivial) (fun k a b _ => db2_indep a b)
  refine ⟨cs, ⟨.zero, some "zero", "qr", some L, dcfg, dst, hg, Or.inr rfl, Or.inl rfl, Or.inl rfl, by rintro l ⟨⟩; exact hL,
    by rintro ⟨⟩, fun _ => trivial, fun k a b _ => db2_indep a b, h1, by rw [h9]⟩, ?_⟩
  rw [h10.length, hs, hE]

/-- `db2`: two levels of a ramp of 16 samples; the details vanish away from the borders. -/
example {la : LinAlg ℝ} (hla : ExactLinAlg la) (a b : ℝ) : ∃ cs,
    MatRun la db2 4 (ofFn ⟨.float64, 0⟩ [16] fun i => a * (i.getD 0 0 : ℝ) + b) (.int (-1)) cs ∧ cs.length = 3 ∧
    ∀ d1 d2, cs[2]? = some d1 → cs[1]? = some d2 → line d1 0 [0] 1 = 0 ∧ line d1 0 [0] 6 = 0 ∧ line d2 0 [0] 1 = 0 ∧ line d2 0 [0] 2 = 0 := by
  obtain ⟨cs, hr, hl⟩ := matRun_line hla 16 (by decide) rfl (fun i => a * (i.getD 0 0 : ℝ) + b) 2 (by decide)
  have hl3 : cs.length = 3 := hl
  refine ⟨cs, hr, hl3, fun d1 d2 e1 e2 => ?_⟩
  have main := c85_polynomial hla db2_orth hr db2_moments (P := Polynomial.C a * Polynomial.X + Polynomial.C b) (lo := 0) (hi := 16)
    (lt_of_le_of_lt (Polynomial.natDegree_linear_le) (by decide)) le_rfl (idx := [0]) ⟨by decide, trivial⟩ (fun t _ ht => by
      show (ofFn ⟨.float64, 0⟩ [16] fun i => a * (i.getD 0 0 : ℝ) + b).get [t] = _
      rw [ofFn_get_of _ _ (show InB [16] [t] from ⟨ht, trivial⟩)]
      simp)
  rw [hl3] at main
  have m1 := main 0 (by decide) d1 e1
  have m2 := main 1 (by decide) d2 e2
  exact ⟨m1 1 ⟨by decide, by decide⟩, m1 6 ⟨by decide, by decide⟩, m2 1 ⟨by decide, by decide⟩, m2 2 ⟨by decide, by decide⟩⟩

/-- A signal of 8 samples and one of 16 which contains it four samples later: inner details agree, two positions later.  And `wavedec` of
the second one has, one position later, what `MatrixWavedec` makes of the samples before that. -/
example {la : LinAlg ℝ} (hla : ExactLinAlg la) (f : Nat → ℝ) : ∃ cs ds es,
    MatRun la db2 4 (ofFn ⟨.float64, 0⟩ [8] fun i => f (i.getD 0 0)) (.int (-1)) cs ∧
    MatRun la db2 4 (ofFn ⟨.float64, 0⟩ [16] fun i => f (i.getD 0 0 - 4)) (.int (-1)) ds ∧
    wavedec (ofFn ⟨.float64, 0⟩ [9] fun i => f (i.getD 0 0 - 1)) db2 (some "zero") (some 1) .none = .ok es ∧
    cs.length = 2 ∧ ds.length = 2 ∧ es.length = 2 ∧
    ∀ d d' d'', cs[1]? = some d → ds[1]? = some d' → es[1]? = some d'' →
      line d 0 [0] 2 = line d' 0 [0] 4 ∧ line d 0 [0] 2 = line d'' 0 [0] 3 := by
  obtain ⟨cs, hr, hl⟩ := matRun_line hla 8 (by decide) rfl (fun i => f (i.getD 0 0)) 1 (by decide)
  obtain ⟨ds, hr', hl'⟩ := matRun_line hla 16 (by decide) rfl (fun i => f (i.getD 0 0 - 4)) 1 (by decide)
  set z : Tensor ℝ := ofFn ⟨.float64, 0⟩ [9] fun i => f (i.getD 0 0 - 1) with hz
  have hgz : GoodAxes .none z.rank 1 := goodAxes_none (by decide) (by show 1 ≤ 1; decide)
  obtain ⟨es, he⟩ := c04_total_modes z db2 (some "zero") .zero (some 1) .none (.inl rfl) (by decide) rfl hgz (.inr rfl) (by show 1 ≤ 9; decide) (.inl rfl)
  have hle : es.length = 2 := by
    obtain ⟨m, -, h⟩ := c02_wavedec_textbook z db2 _ _ _ es (by decide) rfl he
    exact h.length
  have hl2 : cs.length = 2 := hl
  have hl2' : ds.length = 2 := hl'
  refine ⟨cs, ds, es, hr, hr', he, hl2, hl2', hle, fun d d' d'' e1 e2 e3 => ?_⟩
  have r1 := (c85_local hla hla db2_orth hr hr' (S := 1) (lo := 0) (hi := 8) (shift := 2) le_rfl (by show 8 + 2 ^ 1 * 2 ≤ 16; decide)
    (idx := [0]) (idx' := [0]) ⟨by decide, trivial⟩ ⟨by decide, trivial⟩ (fun t _ ht => by
      show (ofFn ⟨.float64, 0⟩ [8] fun i => f (i.getD 0 0)).get [t] = (ofFn ⟨.float64, 0⟩ [16] fun i => f (i.getD 0 0 - 4)).get [t + 4]
      rw [ofFn_get_of _ _ (show InB [8] [t] from ⟨ht, trivial⟩), ofFn_get_of _ _ (show InB [16] [t + 4] from ⟨by omega, trivial⟩)]
      simp)).1
  rw [hl2, hl2'] at r1
  obtain ⟨m, mode, orth, level, dcfg, dst, a1, a2, a3, a4, a5, a6, a7, a8, a9, a10⟩ := hr
  have r2 := (c85_backends_agree_inside hla db2_orth a1 a2 a3 a4 a5 a6 a7 a8 a9 a10 he (lo := 0) (hi := 8) (idx := [0]) (idx' := [0])
    ⟨by decide, trivial⟩ ⟨by decide, trivial⟩ le_rfl (by show 8 + (4 / 2 - 1) ≤ 9; decide) (fun t _ ht => by
      show (ofFn ⟨.float64, 0⟩ [8] fun i => f (i.getD 0 0)).get [t] = z.get [t + 1]
      rw [hz, ofFn_get_of _ _ (show InB [8] [t] from ⟨ht, trivial⟩), ofFn_get_of _ _ (show InB [9] [t + 1] from ⟨by omega, trivial⟩)]
      simp)).1
  rw [hl2, hle] at r2
  exact ⟨r1 0 (by decide) (by decide) (by decide) d d' e1 e2 2 ⟨by decide, by decide⟩,
    r2 0 (by decide) (by decide) d d'' e1 e3 2 ⟨by decide, by decide⟩⟩

/-- The coarse coefficients of a cube law piece in the middle of a longer signal, one level of `db2`: a cubic again (and `db2` has only two
vanishing moments). -/
example {la : LinAlg ℝ} (hla : ExactLinAlg la) (f : Nat → ℝ) : ∃ cs,
    MatRun la db2 4 (ofFn ⟨.float64, 0⟩ [32] fun i => if i.getD 0 0 < 4 then f (i.getD 0 0) else (i.getD 0 0 : ℝ) ^ 3) (.int (-1)) cs ∧
    ∃ a, cs[0]? = some a ∧ ∃ Q : Polynomial ℝ, Q.natDegree ≤ 3 ∧ ∀ r, 3 ≤ r → r < 15 → line a 0 [0] r = Q.eval (r : ℝ) := by
  obtain ⟨cs, hr, hl⟩ := matRun_line hla 32 (by decide) rfl
    (fun i => if i.getD 0 0 < 4 then f (i.getD 0 0) else (i.getD 0 0 : ℝ) ^ 3) 1 (by decide)
  have hl2 : cs.length = 2 := hl
  obtain ⟨a, h1, Q, h2, h3⟩ := c85_polynomial_coarse hla db2_orth hr (P := Polynomial.X ^ 3) (lo := 4) (hi := 32) le_rfl (idx := [0])
    ⟨by show 0 < 32; decide, trivial⟩ (fun t q1 q2 => by
      show (ofFn ⟨.float64, 0⟩ [32] fun i => if i.getD 0 0 < 4 then f (i.getD 0 0) else (i.getD 0 0 : ℝ) ^ 3).get [t] = _
      rw [ofFn_get_of _ _ (show InB [32] [t] from ⟨q2, trivial⟩)]
      simp [not_lt.mpr q1])
  rw [hl2] at h3
  exact ⟨cs, hr, a, h1, Q, h2.trans (by simp), fun r q1 q2 => h3 r ⟨by simp; omega, by simp; omega⟩⟩

/-- The Haar bank. -/
noncomputable def haarR : Wavelet ℝ where
  decLo := [√2 / 2, √2 / 2]
  decHi := [-(√2 / 2), √2 / 2]
  recLo := [√2 / 2, √2 / 2]
  recHi := [√2 / 2, -(√2 / 2)]

theorem haarR_orth : OrthBank haarR 2 := by
  have h2 : √2 * √2 = (2 : ℝ) := Real.mul_self_sqrt (by norm_num)
  have key : ∀ m : ℤ, -((2 : ℕ) : ℤ) < 2 * m → 2 * m < ((2 : ℕ) : ℤ) → m = 0 := by
    intro m h1 h2; push_cast at h1 h2; omega
  refine orthBank_of ⟨rfl, rfl, rfl, rfl⟩ (by norm_num) rfl ?_ ?_ ?_ rfl rfl <;>
  · intro m a1 a2
    obtain rfl := key m a1 a2
    simp [Finset.sum_range_succ, tap, haarR]
    try linear_combination (1 / 2 : ℝ) * h2

/-- Haar, two levels, a signal of 11 samples (padded by both): the first five details of level one and two of level two are the same. -/
example {la : LinAlg ℝ} (hla : ExactLinAlg la) (f : List Nat → ℝ) : ∃ cs ds,
    MatRun la haarR 2 (ofFn ⟨.float64, 0⟩ [11] f) .none cs ∧
    wavedec (ofFn ⟨.float64, 0⟩ [11] f) haarR (some "zero") (some 2) .none = .ok ds ∧ cs.length = 3 ∧ ds.length = 3 ∧
    (∀ d d', cs[2]? = some d → ds[2]? = some d' → ∀ r, r < 5 → line d 0 [0] r = line d' 0 [0] r) ∧
    (∀ d d', cs[1]? = some d → ds[1]? = some d' → ∀ r, r < 2 → line d 0 [0] r = line d' 0 [0] r) := by
  set x : Tensor ℝ := ofFn ⟨.float64, 0⟩ [11] f with hx
  have hg : GoodAxes .none x.rank 1 := goodAxes_none (by decide) (by show 1 ≤ 1; decide)
  obtain ⟨dcfg, dst, C, x', cs, lv, h1, -, -, -, -, -, -, -, -, h9, h10⟩ := dec_run hla haarR_orth (x := x)
    (axis := .none) (m := .zero) (mode := some "zero") (orth := "qr") (level := some 2) hg (Or.inr rfl) (Or.inl rfl) (Or.inl rfl)
    (by rintro l ⟨⟩; decide) (by rintro ⟨⟩) (fun _ => trivial) (fun k a b _ => boundaryIndep_two a)
  have hr : MatRun la haarR 2 x .none cs := ⟨.zero, some "zero", "qr", some 2, dcfg, dst, hg, Or.inr rfl, Or.inl rfl, Or.inl rfl,
    by rintro l ⟨⟩; decide, by rintro ⟨⟩, fun _ => trivial, fun k a b _ => boundaryIndep_two a, h1, by rw [h9]⟩
  have hl : cs.length = 3 := by
    rw [h10.length, show x.shape.getD (axis1 .none x.rank) 0 = 11 from rfl]
    decide
  obtain ⟨ds, he⟩ := c04_total_modes x haarR (some "zero") .zero (some 2) .none (.inl rfl) (by decide) rfl hg (.inr rfl)
    (by show 1 ≤ 11; decide) (.inl rfl)
  have hle : ds.length = 3 := by
    obtain ⟨m, -, h⟩ := c02_wavedec_textbook x haarR _ _ _ ds (by decide) rfl he
    exact h.length
  obtain ⟨main, -⟩ := c85_haar hla haarR_orth hr he (idx := [0]) ⟨by show 0 < 11; decide, trivial⟩
  rw [hl, hle] at main
  refine ⟨cs, ds, hr, he, hl, hle, fun d d' e1 e2 r h => main 0 (by decide) (by decide) d d' e1 e2 r ?_,
    fun d d' e1 e2 r h => main 1 (by decide) (by decide) d d' e1 e2 r ?_⟩
  · show 2 ^ (0 + 1) * (r + 1) ≤ 11; omega
  · show 2 ^ (1 + 1) * (r + 1) ≤ 11; omega

end Verif.Props
