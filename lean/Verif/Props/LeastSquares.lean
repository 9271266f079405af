/-
C72: with an orthogonal filter bank in `zero` mode, decompositions preserve distances, reconstructions of arbitrary
coefficients are their least squares fit and never amplify changes.
-/
import Verif.Lemmas.LeastSquares
import Verif.Lemmas.AdjointSwt
import Verif.Props.Swt
import Verif.Props.Adjoint
import Verif.Props.LinN

namespace Verif.Props
open Tensor Spec
variable {R : Type}

theorem lin_zero [CommRing R] {x y : Tensor R} (h : SameTensor x y) : Lin 0 x y y :=
  ⟨h.1, h.1, h.2, h.2, fun i => by ring⟩

theorem forms_of_lin [CommRing R] : ∀ {xs ys zs : List (Tensor R)}, Forall₃ (Lin (0 : R)) xs ys zs → List.Forall₂ SameTensor xs ys
  | _, _, _, .nil => .nil
  | _, _, _, .cons h hs => .cons ⟨h.md₁, h.shape₁⟩ (forms_of_lin hs)

theorem form_of_lin [CommRing R] {c d e : Coeffs R} (hc : ∀ t ∈ c.items, t ≠ .other) (h : Coeffs3 (Lin (0 : R)) c d e) : SameForm c d := by
  obtain ⟨h1, -, h2⟩ := h
  refine ⟨h1.symm, ?_⟩
  revert hc
  generalize c.items = l₁ at h2
  generalize d.items = l₂ at h2
  generalize e.items = l₃ at h2
  intro hc
  induction h2 with
  | nil => exact .nil
  | cons h hs ih =>
    refine .cons ?_ (ih fun t ht => hc t (List.mem_cons_of_mem _ ht))
    cases h with
    | tensor h => exact ⟨h.md₁, h.shape₁⟩
    | tuple h h' h'' => exact ⟨⟨h.md₁, h.shape₁⟩, ⟨h'.md₁, h'.shape₁⟩, ⟨h''.md₁, h''.shape₁⟩⟩
    | dict h =>
      rename_i kv kv' kv''
      show List.Forall₂ (fun p q : String × Tensor R => p.1 = q.1 ∧ SameTensor p.2 q.2) kv kv'
      clear * - h
      induction h with
      | nil => exact .nil
      | cons h _ ih => exact .cons ⟨h.1.symm, h.2.2.md₁, h.2.2.shape₁⟩ ih
    | other => exact absurd rfl (hc _ List.mem_cons_self)

section frames
variable [Field R] [CharZero R] {x : Tensor R} {w : Wavelet R} {F : Nat} {mode : Option String} {level : Option Int}

theorem framed_1d {axis : AxisHint} {cs : List (Tensor R)} (hw : OrthBank w F) (hm : Selects mode .zero)
    (hcs : wavedec x w mode level axis = .ok cs) :
    Framed x (List.Forall₂ SameTensor cs) (fun y => wavedec y w mode level axis) (fun d => waverec d w axis) listDot listDist := by
  have hd : ∀ y, SameTensor x y → ∃ cy, wavedec y w mode level axis = .ok cy ∧ List.Forall₂ SameTensor cs cy := by
    intro y hy
    have h := c05_wavedec_linear 0 x y y (lin_zero hy) w mode level axis
    rw [hcs] at h
    generalize wavedec y w mode level axis = r at h
    cases h with
    | ok h => exact ⟨_, rfl, forms_of_lin h⟩
  refine ⟨hd, fun y cy d hy ec fd => ?_, fun y cy hy ec => ?_, fun c d hc hd => ?_, fun c d hc hd => ?_⟩
  · obtain ⟨cy', e, fy⟩ := hd y hy
    have ec : wavedec y w mode level axis = .ok cy := ec
    rw [ec] at e; cases e
    obtain ⟨z, ez, hz, -, h⟩ := c60_adjoint_1d y w F mode level axis cy d (mirrored_of_orth hw) hm ec (sames_trans (sames_symm fy) fd)
    exact ⟨z, ez, hz.trans hy.1, h⟩
  · obtain ⟨z, ez, -, -, -, -, h⟩ := c01_perfect_reconstruction y w F mode level axis cy (pr_of_orth hw) hw.two_le hw.even ec
    rw [← hy.2]
    exact ⟨z, ez, h⟩
  · exact listDist_expand (sames_trans (sames_symm hc) hd)
  · exact listDot_comm (sames_trans (sames_symm hc) hd)

theorem framed_nd {c : Coeffs R} {dec : Tensor R → Except Err (Coeffs R)} {rec : Coeffs R → Except Err (Tensor R)}
    (hc : ∀ t ∈ c.items, t ≠ .other) (ec : dec x = .ok c)
    (hl : ∀ y, Lin 0 x y y → Three (Coeffs3 (Lin (0 : R))) (dec x) (dec y) (dec y))
    (hadj : ∀ y cy d, SameTensor x y → dec y = .ok cy → SameForm cy d → ∃ z, rec d = .ok z ∧ z.md = y.md ∧ coeffDot cy d = innerProd y z)
    (hpr : ∀ y cy, SameTensor x y → dec y = .ok cy → ∃ z, rec cy = .ok z ∧ ∀ i, InB y.shape i → z.get i = y.get i) :
    Framed x (SameForm c) dec rec coeffDot coeffDist := by
  have hd : ∀ y, SameTensor x y → ∃ cy, dec y = .ok cy ∧ SameForm c cy := by
    intro y hy
    have h := hl y (lin_zero hy)
    rw [ec] at h
    generalize dec y = r at h
    cases h with
    | ok h => exact ⟨_, rfl, form_of_lin hc h⟩
  refine ⟨hd, fun y cy d hy ec fd => ?_, fun y cy hy ec => ?_, fun c' d hc hd => ?_, fun c' d hc hd => ?_⟩
  · obtain ⟨cy', e, fy⟩ := hd y hy
    rw [ec] at e; cases e
    obtain ⟨z, ez, hz, h⟩ := hadj y cy d hy ec (form_trans (form_symm fy) fd)
    exact ⟨z, ez, hz.trans hy.1, h⟩
  · rw [← hy.2]
    exact hpr y cy hy ec
  · rw [coeffDist_flat (form_trans (form_symm hc) hd), coeffDot_flat (form_trans (form_symm hc) hd),
      coeffDot_flat (form_trans (form_symm hc) hc), coeffDot_flat (form_trans (form_symm hd) hd)]
    exact listDist_expand (form_tensors (form_trans (form_symm hc) hd))
  · rw [coeffDot_flat (form_trans (form_symm hc) hd), coeffDot_flat (form_trans (form_symm hd) hc)]
    exact listDot_comm (form_tensors (form_trans (form_symm hc) hd))

theorem quads_form {R : Type} [Field R] [LinearOrder R] [IsStrictOrderedRing R] {c₀ : Coeffs R} (a b c d : Coeffs R) (ha : SameForm c₀ a) (hb : SameForm c₀ b)
    (hc : SameForm c₀ c) (hd : SameForm c₀ d) :
    0 ≤ coeffDist a b + coeffDist c d - 2 * (coeffDot a c - coeffDot a d - coeffDot b c + coeffDot b d) := by
  have t : ∀ {p q}, SameForm c₀ p → SameForm c₀ q → SameForm p q := fun hp hq => form_trans (form_symm hp) hq
  rw [coeffDist_flat (t ha hb), coeffDist_flat (t hc hd), coeffDot_flat (t ha hc), coeffDot_flat (t ha hd),
    coeffDot_flat (t hb hc), coeffDot_flat (t hb hd)]
  exact quads_nonneg (form_tensors (t ha hb)) (form_tensors (t ha hc)) (form_tensors (t ha hd))

theorem no_other [Zero R] {c : Coeffs R} (h : SameForm c c) : ∀ t ∈ c.items, t ≠ .other := by
  rintro t ht rfl
  exact (List.forall₂_same.mp h.2 _ ht : False)

theorem framed_2d {axes : AxisHint} {c : Coeffs R} (hw : OrthBank w F) (hm : Selects mode .zero)
    (hc : wavedec2 x w mode level axes = .ok c) :
    Framed x (SameForm c) (fun y => wavedec2 y w mode level axes) (fun d => waverec2 d w axes) coeffDot coeffDist := by
  have hFw : w.len = F := hw.len.1
  obtain ⟨-, -, m, -, -, hdwt⟩ := wavedec2_ok (by rw [hFw]; exact hw.two_le) (by rw [hFw]; exact hw.len.2.1) hc
  refine framed_nd (no_other (isDwtN_form (by rintro P e ⟨_, _, _, rfl, -⟩ h; cases h) hdwt)) hc
    (fun y hy => c54_wavedec2 x y y hy w mode level axes) (fun y cy d _ ec fd => ?_) (fun y cy _ ec => ?_)
  · obtain ⟨z, ez, hz, -, h⟩ := c60_adjoint_2d y w F mode level axes cy d (mirrored_of_orth hw) hm ec fd
    exact ⟨z, ez, hz, h⟩
  · obtain ⟨z, ez, h⟩ := c15_perfect_reconstruction y w F mode level axes cy (pr_of_orth hw) hw.two_le hw.even ec
    exact ⟨z, ez, h.get⟩

theorem framed_3d {axes : AxisHint} {c : Coeffs R} (hw : OrthBank w F) (hm : Selects mode .zero)
    (hL : 0 < levelsN level F (sizes (axesOf axes x.rank 3) x.shape)) (hc : wavedec3 x w mode level axes = .ok c) :
    Framed x (SameForm c) (fun y => wavedec3 y w mode level axes) (fun d => waverec3 d w axes) coeffDot coeffDist := by
  have hFw : w.len = F := hw.len.1
  obtain ⟨-, -, m, -, -, hdwt⟩ := wavedec3_ok (by rw [hFw]; exact hw.two_le) (by rw [hFw]; exact hw.len.2.1)
    (by rw [hFw]; exact hL) hc
  have hL' : ∀ y, SameTensor x y → 0 < levelsN level F (sizes (axesOf axes y.rank 3) y.shape) := by
    intro y hy
    have : y.rank = x.rank := by unfold Tensor.rank; rw [hy.2]
    rw [this, hy.2]; exact hL
  refine framed_nd (no_other (isDwtN_form (by rintro P e ⟨_, rfl, -⟩ h; cases h) hdwt)) hc
    (fun y hy => c54_wavedec3 x y y hy w mode level axes) (fun y cy d hy ec fd => ?_) (fun y cy hy ec => ?_)
  · obtain ⟨z, ez, hz, -, h⟩ := c60_adjoint_3d y w F mode level axes cy d (mirrored_of_orth hw) hm (hL' y hy) ec fd
    exact ⟨z, ez, hz, h⟩
  · obtain ⟨z, ez, h⟩ := c17_perfect_reconstruction y w F mode level axes cy (pr_of_orth hw) hw.two_le hw.even (hL' y hy) ec
    exact ⟨z, ez, h.get⟩

theorem framed_fs2 {axes : AxisHint} {c : Coeffs R} (hw : OrthBank w F) (hm : Selects mode .zero)
    (hc : fswavedec2 x w mode level axes = .ok c) :
    Framed x (SameForm c) (fun y => fswavedec2 y w mode level axes) (fun d => (fswaverec2 d w axes).1) coeffDot coeffDist := by
  have hFw : w.len = F := hw.len.1
  obtain ⟨-, -, -, m, -, -, hdwt⟩ := fswavedecn_ok (n := 2) (by omega) (by rw [hFw]; exact hw.two_le) (by rw [hFw]; exact hw.len.2.1) hc
  refine framed_nd (no_other (isDwtN_form (by rintro P e ⟨_, rfl, -⟩ h; cases h) hdwt)) hc
    (fun y hy => c54_fswavedec 2 x y y hy w mode level axes) (fun y cy d _ ec fd => ?_) (fun y cy _ ec => ?_)
  · obtain ⟨z, ez, hz, -, h⟩ := c60_adjoint_fs2 y w F mode level axes cy d (mirrored_of_orth hw) hm ec fd
    exact ⟨z, ez, hz, h⟩
  · obtain ⟨z, ez, h⟩ := c20_perfect_reconstruction_2d y w F mode level axes cy (pr_of_orth hw) hw.two_le hw.even ec
    exact ⟨z, ez, h.get⟩

theorem framed_fs3 {axes : AxisHint} {c : Coeffs R} (hw : OrthBank w F) (hm : Selects mode .zero)
    (hc : fswavedec3 x w mode level axes = .ok c) :
    Framed x (SameForm c) (fun y => fswavedec3 y w mode level axes) (fun d => (fswaverec3 d w axes).1) coeffDot coeffDist := by
  have hFw : w.len = F := hw.len.1
  obtain ⟨-, -, -, m, -, -, hdwt⟩ := fswavedecn_ok (n := 3) (by omega) (by rw [hFw]; exact hw.two_le) (by rw [hFw]; exact hw.len.2.1) hc
  refine framed_nd (no_other (isDwtN_form (by rintro P e ⟨_, rfl, -⟩ h; cases h) hdwt)) hc
    (fun y hy => c54_fswavedec 3 x y y hy w mode level axes) (fun y cy d _ ec fd => ?_) (fun y cy _ ec => ?_)
  · obtain ⟨z, ez, hz, -, h⟩ := c60_adjoint_fs3 y w F mode level axes cy d (mirrored_of_orth hw) hm ec fd
    exact ⟨z, ez, hz, h⟩
  · obtain ⟨z, ez, h⟩ := c20_perfect_reconstruction_3d y w F mode level axes cy (pr_of_orth hw) hw.two_le hw.even ec
    exact ⟨z, ez, h.get⟩

end frames

section isometry
variable [Field R] [CharZero R] (x y : Tensor R) (w : Wavelet R) (F : Nat) (mode : Option String) (level : Option Int)

/-- **C72.** `wavedec` preserves distances: the coefficients of two equally shaped signals are as far apart as the
signals. -/
theorem c72_isometry_1d (axis : AxisHint) (cs : List (Tensor R)) (hw : OrthBank w F) (hm : Selects mode .zero)
    (hcs : wavedec x w mode level axis = .ok cs) (hy : SameTensor x y) :
    ∃ ds, wavedec y w mode level axis = .ok ds ∧ List.Forall₂ SameTensor cs ds ∧ listDist cs ds = dist2 x y := by
  obtain ⟨c, d, e, e', -, h1, h2⟩ := (framed_1d hw hm hcs).isometry (same_refl x) hy
  have e : wavedec x w mode level axis = .ok c := e
  rw [hcs] at e; cases e
  exact ⟨d, e', h1, h2⟩

/-- **C72.** The same for `wavedec2`. -/
theorem c72_isometry_2d (axes : AxisHint) (c : Coeffs R) (hw : OrthBank w F) (hm : Selects mode .zero)
    (hc : wavedec2 x w mode level axes = .ok c) (hy : SameTensor x y) :
    ∃ d, wavedec2 y w mode level axes = .ok d ∧ SameForm c d ∧ coeffDist c d = dist2 x y := by
  obtain ⟨c', d, e, e', -, h1, h2⟩ := (framed_2d hw hm hc).isometry (same_refl x) hy
  have e : wavedec2 x w mode level axes = .ok c' := e
  rw [hc] at e; cases e
  exact ⟨d, e', h1, h2⟩

/-- **C72.** The same for `wavedec3`. -/
theorem c72_isometry_3d (axes : AxisHint) (c : Coeffs R) (hw : OrthBank w F) (hm : Selects mode .zero)
    (hL : 0 < levelsN level F (sizes (axesOf axes x.rank 3) x.shape))
    (hc : wavedec3 x w mode level axes = .ok c) (hy : SameTensor x y) :
    ∃ d, wavedec3 y w mode level axes = .ok d ∧ SameForm c d ∧ coeffDist c d = dist2 x y := by
  obtain ⟨c', d, e, e', -, h1, h2⟩ := (framed_3d hw hm hL hc).isometry (same_refl x) hy
  have e : wavedec3 x w mode level axes = .ok c' := e
  rw [hc] at e; cases e
  exact ⟨d, e', h1, h2⟩

/-- **C72.** Let `cs` be the coefficients of a signal `x` and `ds` any coefficients of the same shapes (for instance
`cs`, changed). The reconstruction of `ds`, cropped to the size of `x`, is `u`; its coefficients are `cu`. The
coefficients of any other signal `y` of this size are farther from `ds` than `cu` by exactly the distance of `u`
and `y`. -/
theorem c72_pythagoras_1d (axis : AxisHint) (cs ds : List (Tensor R)) (hw : OrthBank w F) (hm : Selects mode .zero)
    (hcs : wavedec x w mode level axis = .ok cs) (hds : List.Forall₂ SameTensor cs ds) :
    ∃ z, waverec ds w axis = .ok z ∧ z.md = x.md ∧ ∃ u, CropOf x z u ∧ ∃ cu, wavedec u w mode level axis = .ok cu ∧
      List.Forall₂ SameTensor cs cu ∧ ∀ y, SameTensor x y →
        ∃ cy, wavedec y w mode level axis = .ok cy ∧ List.Forall₂ SameTensor cs cy ∧ listDist ds cy = listDist ds cu + dist2 u y :=
  (framed_1d hw hm hcs).best ds hds

/-- **C72.** The same for `waverec2`. -/
theorem c72_pythagoras_2d (axes : AxisHint) (c d : Coeffs R) (hw : OrthBank w F) (hm : Selects mode .zero)
    (hc : wavedec2 x w mode level axes = .ok c) (hd : SameForm c d) :
    ∃ z, waverec2 d w axes = .ok z ∧ z.md = x.md ∧ ∃ u, CropOf x z u ∧ ∃ cu, wavedec2 u w mode level axes = .ok cu ∧
      SameForm c cu ∧ ∀ y, SameTensor x y →
        ∃ cy, wavedec2 y w mode level axes = .ok cy ∧ SameForm c cy ∧ coeffDist d cy = coeffDist d cu + dist2 u y :=
  (framed_2d hw hm hc).best d hd

/-- **C72.** The same for `waverec3`. -/
theorem c72_pythagoras_3d (axes : AxisHint) (c d : Coeffs R) (hw : OrthBank w F) (hm : Selects mode .zero)
    (hL : 0 < levelsN level F (sizes (axesOf axes x.rank 3) x.shape))
    (hc : wavedec3 x w mode level axes = .ok c) (hd : SameForm c d) :
    ∃ z, waverec3 d w axes = .ok z ∧ z.md = x.md ∧ ∃ u, CropOf x z u ∧ ∃ cu, wavedec3 u w mode level axes = .ok cu ∧
      SameForm c cu ∧ ∀ y, SameTensor x y →
        ∃ cy, wavedec3 y w mode level axes = .ok cy ∧ SameForm c cy ∧ coeffDist d cy = coeffDist d cu + dist2 u y :=
  (framed_3d hw hm hL hc).best d hd

/-- **C72.** The same for `fswavedec2`. -/
theorem c72_isometry_fs2 (axes : AxisHint) (c : Coeffs R) (hw : OrthBank w F) (hm : Selects mode .zero)
    (hc : fswavedec2 x w mode level axes = .ok c) (hy : SameTensor x y) :
    ∃ d, fswavedec2 y w mode level axes = .ok d ∧ SameForm c d ∧ coeffDist c d = dist2 x y := by
  obtain ⟨c', d, e, e', -, h1, h2⟩ := (framed_fs2 hw hm hc).isometry (same_refl x) hy
  have e : fswavedec2 x w mode level axes = .ok c' := e
  rw [hc] at e; cases e
  exact ⟨d, e', h1, h2⟩

/-- **C72.** The theorem of Pythagoras for `fswaverec2`. -/
theorem c72_pythagoras_fs2 (axes : AxisHint) (c d : Coeffs R) (hw : OrthBank w F) (hm : Selects mode .zero)
    (hc : fswavedec2 x w mode level axes = .ok c) (hd : SameForm c d) :
    ∃ z, (fswaverec2 d w axes).1 = .ok z ∧ z.md = x.md ∧ ∃ u, CropOf x z u ∧ ∃ cu, fswavedec2 u w mode level axes = .ok cu ∧
      SameForm c cu ∧ ∀ y, SameTensor x y →
        ∃ cy, fswavedec2 y w mode level axes = .ok cy ∧ SameForm c cy ∧ coeffDist d cy = coeffDist d cu + dist2 u y :=
  (framed_fs2 hw hm hc).best d hd

/-- **C72.** The same for `fswavedec3`. -/
theorem c72_isometry_fs3 (axes : AxisHint) (c : Coeffs R) (hw : OrthBank w F) (hm : Selects mode .zero)
    (hc : fswavedec3 x w mode level axes = .ok c) (hy : SameTensor x y) :
    ∃ d, fswavedec3 y w mode level axes = .ok d ∧ SameForm c d ∧ coeffDist c d = dist2 x y := by
  obtain ⟨c', d, e, e', -, h1, h2⟩ := (framed_fs3 hw hm hc).isometry (same_refl x) hy
  have e : fswavedec3 x w mode level axes = .ok c' := e
  rw [hc] at e; cases e
  exact ⟨d, e', h1, h2⟩

/-- **C72.** The theorem of Pythagoras for `fswaverec3`. -/
theorem c72_pythagoras_fs3 (axes : AxisHint) (c d : Coeffs R) (hw : OrthBank w F) (hm : Selects mode .zero)
    (hc : fswavedec3 x w mode level axes = .ok c) (hd : SameForm c d) :
    ∃ z, (fswaverec3 d w axes).1 = .ok z ∧ z.md = x.md ∧ ∃ u, CropOf x z u ∧ ∃ cu, fswavedec3 u w mode level axes = .ok cu ∧
      SameForm c cu ∧ ∀ y, SameTensor x y →
        ∃ cy, fswavedec3 y w mode level axes = .ok cy ∧ SameForm c cy ∧ coeffDist d cy = coeffDist d cu + dist2 u y :=
  (framed_fs3 hw hm hc).best d hd

end isometry

/-! ### The stationary transform -/

section stationary
variable [Field R] [CharZero R] (x : Tensor R) (w : Wavelet R) (F : Nat) (level : Option Int) (axis : AxisHint)

/-- **C72.** `iswt` is the adjoint of `swt` if the filters are mirrored: let `cs` be the coefficients of `x` and `ds`
any list of tensors of the same shapes. Then the inner product of `cs` and `ds`, in which every level has half the
weight of the next finer one, is that of `x` and the reconstruction of `ds`, which has the form of `x`. -/
theorem c72_adjoint_swt (cs ds : List (Tensor R)) (hw : Mirrored w F) (hg : GoodAxes axis x.rank 1)
    (hdt : x.md.dtype = .float32 ∨ x.md.dtype = .float64) (hn : 0 < x.shape.getD (axis1 axis x.rank) 0)
    (hwr : WrapOk (x.shape.getD (axis1 axis x.rank) 0) F (swtLevel level (x.shape.getD (axis1 axis x.rank) 0)))
    (hcs : swt x w level axis = .ok cs) (hds : List.Forall₂ SameTensor cs ds) :
    ∃ z, iswt ds w axis = .ok z ∧ SameTensor x z ∧ frameDot cs ds = innerProd x z := by
  have hFw : w.len = F := hw.decLo
  have hax : axis1 axis x.rank < x.shape.length := axis1_lt hg
  obtain ⟨cs', e, h⟩ := c24_textbook x w level axis hg hdt (by rw [hFw]; exact hw.two_le) (by rw [hFw]; exact hw.even)
    (by rw [hFw]; exact hw.decHi) hn (by rw [hFw]; exact hwr)
  rw [hcs] at e; cases e
  obtain ⟨cs', e, hl, hf⟩ := c24_size x w level axis hg hdt (by rw [hFw]; exact hw.two_le) (by rw [hFw]; exact hw.even)
    (by rw [hFw]; exact hw.decHi) hn
  rw [hcs] at e; cases e
  have hfd : ∀ d ∈ ds, d.md = x.md ∧ d.shape = x.shape := by
    intro d hd
    obtain ⟨i, hi⟩ := List.getElem?_of_mem hd
    obtain ⟨c, hc, h1, h2⟩ := forall₂_getElem? hds hi
    obtain ⟨h3, h4⟩ := hf c (List.mem_of_getElem? hc)
    exact ⟨h1.trans h3, h2.trans h4⟩
  have hld := hds.length_eq.symm.trans hl
  match ds, hld, hfd with
  | d0 :: dr, hld, hfd =>
    have hdr : dr.length = swtLevel level (x.shape.getD (axis1 axis x.rank) 0) := by simpa using hld
    obtain ⟨z, ez, h1, h2, h3⟩ := c23_inverse_textbook w F axis x.md x.shape d0 dr hw.two_le hw.even
      (by rw [hw.recLo, List.length_reverse, hw.decLo]) (by rw [hw.recHi, List.length_reverse, hw.decHi]) hg hdt hn
      (by rw [hdr]; exact hwr) (fun c hc => (hfd c hc).1) (fun c hc => (hfd c hc).2)
    exact ⟨z, ez, ⟨h1, h2⟩, swt_adjoint hw.decLo hw.decHi hw.even hw.recLo hw.recHi hax rfl hn h hdr h2 h3⟩

theorem framed_swt {x : Tensor R} {w : Wavelet R} {F : Nat} {level : Option Int} {axis : AxisHint} {cs : List (Tensor R)}
    (hw : OrthBank w F) (hg : GoodAxes axis x.rank 1)
    (hdt : x.md.dtype = .float32 ∨ x.md.dtype = .float64) (hn : 0 < x.shape.getD (axis1 axis x.rank) 0)
    (hwr : WrapOk (x.shape.getD (axis1 axis x.rank) 0) F (swtLevel level (x.shape.getD (axis1 axis x.rank) 0)))
    (hcs : swt x w level axis = .ok cs) :
    Framed x (List.Forall₂ SameTensor cs) (fun y => swt y w level axis) (fun d => iswt d w axis) frameDot frameDist := by
  have hr : ∀ y, SameTensor x y → y.rank = x.rank := fun y hy => by unfold Tensor.rank; rw [hy.2]
  have hd : ∀ y, SameTensor x y → ∃ cy, swt y w level axis = .ok cy ∧ List.Forall₂ SameTensor cs cy := by
    intro y hy
    have h := c54_swt x y y (lin_zero hy) w level axis
    rw [hcs] at h
    generalize swt y w level axis = r at h
    cases h with
    | ok h => exact ⟨_, rfl, forms_of_lin h⟩
  refine ⟨hd, fun y cy d hy ec fd => ?_, fun y cy hy ec => ?_, fun c d hc hd => ?_, fun c d hc hd => ?_⟩
  · obtain ⟨cy', e, fy⟩ := hd y hy
    have ec : swt y w level axis = .ok cy := ec
    rw [ec] at e; cases e
    obtain ⟨z, ez, hz, h⟩ := c72_adjoint_swt y w F level axis cy d (mirrored_of_orth hw) (by rw [hr y hy]; exact hg)
      (by rw [hy.1]; exact hdt) (by rw [hr y hy, hy.2]; exact hn) (by rw [hr y hy, hy.2]; exact hwr) ec
      (sames_trans (sames_symm fy) fd)
    exact ⟨z, ez, hz.1.trans hy.1, h⟩
  · obtain ⟨cy', e, h⟩ := c23_perfect_reconstruction y w F level axis hw.len (pr_of_orth hw).2 hw.two_le hw.even
      (by rw [hr y hy]; exact hg) (by rw [hy.1]; exact hdt) (by rw [hr y hy, hy.2]; exact hn) (by rw [hr y hy, hy.2]; exact hwr)
    have ec : swt y w level axis = .ok cy := ec
    rw [ec] at e; cases e
    exact ⟨y, h, fun _ _ => rfl⟩
  · exact frame_expand (sames_trans (sames_symm hc) hd)
  · exact frame_comm (sames_trans (sames_symm hc) hd)

/-- **C72.** `swt` preserves distances, if every level counts half as much as the next finer one. -/
theorem c72_isometry_swt (y : Tensor R) (cs : List (Tensor R)) (hw : OrthBank w F) (hg : GoodAxes axis x.rank 1)
    (hdt : x.md.dtype = .float32 ∨ x.md.dtype = .float64) (hn : 0 < x.shape.getD (axis1 axis x.rank) 0)
    (hwr : WrapOk (x.shape.getD (axis1 axis x.rank) 0) F (swtLevel level (x.shape.getD (axis1 axis x.rank) 0)))
    (hcs : swt x w level axis = .ok cs) (hy : SameTensor x y) :
    ∃ ds, swt y w level axis = .ok ds ∧ List.Forall₂ SameTensor cs ds ∧ frameDist cs ds = dist2 x y := by
  obtain ⟨c, d, e, e', -, h1, h2⟩ := (framed_swt hw hg hdt hn hwr hcs).isometry (same_refl x) hy
  have e : swt x w level axis = .ok c := e
  rw [hcs] at e; cases e
  exact ⟨d, e', h1, h2⟩

/-- **C72.** The theorem of Pythagoras for `iswt`: the reconstruction `u` of arbitrary coefficients `ds` of the right
shapes has coefficients `cu`; those of any other signal `y` of this form are farther from `ds` by exactly the
distance of `u` and `y`. -/
theorem c72_pythagoras_swt (cs ds : List (Tensor R)) (hw : OrthBank w F) (hg : GoodAxes axis x.rank 1)
    (hdt : x.md.dtype = .float32 ∨ x.md.dtype = .float64) (hn : 0 < x.shape.getD (axis1 axis x.rank) 0)
    (hwr : WrapOk (x.shape.getD (axis1 axis x.rank) 0) F (swtLevel level (x.shape.getD (axis1 axis x.rank) 0)))
    (hcs : swt x w level axis = .ok cs) (hds : List.Forall₂ SameTensor cs ds) :
    ∃ u, iswt ds w axis = .ok u ∧ SameTensor x u ∧ ∃ cu, swt u w level axis = .ok cu ∧ List.Forall₂ SameTensor cs cu ∧
      ∀ y, SameTensor x y → ∃ cy, swt y w level axis = .ok cy ∧ List.Forall₂ SameTensor cs cy ∧
        frameDist ds cy = frameDist ds cu + dist2 u y := by
  obtain ⟨u, eu, hu, -⟩ := c72_adjoint_swt x w F level axis cs ds (mirrored_of_orth hw) hg hdt hn hwr hcs hds
  obtain ⟨z, ez, -, u', hu', h⟩ := (framed_swt hw hg hdt hn hwr hcs).best ds hds
  have ez : iswt ds w axis = .ok z := ez
  rw [eu] at ez; cases ez
  have : u' = u := Tensor.ext' (hu'.1.1.trans hu.1.symm) (hu'.1.2.trans hu.2.symm) fun i hi => hu'.2 i (by rw [← hu'.1.2]; exact hi)
  subst this
  exact ⟨u', eu, hu, h⟩

end stationary

section ordered
variable [Field R] [LinearOrder R] [IsStrictOrderedRing R] (x : Tensor R) (w : Wavelet R) (F : Nat) (mode : Option String)
  (level : Option Int)

/-- **C72.** `waverec` is the least squares fit: no signal of the size of `x` has coefficients nearer to `ds` than
the reconstruction of `ds`, and only the reconstruction is that near. -/
theorem c72_least_squares_1d (axis : AxisHint) (cs ds : List (Tensor R)) (hw : OrthBank w F) (hm : Selects mode .zero)
    (hcs : wavedec x w mode level axis = .ok cs) (hds : List.Forall₂ SameTensor cs ds) :
    ∃ z, waverec ds w axis = .ok z ∧ z.md = x.md ∧ ∃ u, CropOf x z u ∧ ∃ cu, wavedec u w mode level axis = .ok cu ∧
      List.Forall₂ SameTensor cs cu ∧ ∀ y, SameTensor x y →
        ∃ cy, wavedec y w mode level axis = .ok cy ∧ List.Forall₂ SameTensor cs cy ∧ listDist ds cu ≤ listDist ds cy ∧
          (listDist ds cy = listDist ds cu → y = u) :=
  (framed_1d hw hm hcs).least ds hds

/-- **C72.** The same for `waverec2`. -/
theorem c72_least_squares_2d (axes : AxisHint) (c d : Coeffs R) (hw : OrthBank w F) (hm : Selects mode .zero)
    (hc : wavedec2 x w mode level axes = .ok c) (hd : SameForm c d) :
    ∃ z, waverec2 d w axes = .ok z ∧ z.md = x.md ∧ ∃ u, CropOf x z u ∧ ∃ cu, wavedec2 u w mode level axes = .ok cu ∧
      SameForm c cu ∧ ∀ y, SameTensor x y →
        ∃ cy, wavedec2 y w mode level axes = .ok cy ∧ SameForm c cy ∧ coeffDist d cu ≤ coeffDist d cy ∧
          (coeffDist d cy = coeffDist d cu → y = u) :=
  (framed_2d hw hm hc).least d hd

/-- **C72.** The same for `waverec3`. -/
theorem c72_least_squares_3d (axes : AxisHint) (c d : Coeffs R) (hw : OrthBank w F) (hm : Selects mode .zero)
    (hL : 0 < levelsN level F (sizes (axesOf axes x.rank 3) x.shape))
    (hc : wavedec3 x w mode level axes = .ok c) (hd : SameForm c d) :
    ∃ z, waverec3 d w axes = .ok z ∧ z.md = x.md ∧ ∃ u, CropOf x z u ∧ ∃ cu, wavedec3 u w mode level axes = .ok cu ∧
      SameForm c cu ∧ ∀ y, SameTensor x y →
        ∃ cy, wavedec3 y w mode level axes = .ok cy ∧ SameForm c cy ∧ coeffDist d cu ≤ coeffDist d cy ∧
          (coeffDist d cy = coeffDist d cu → y = u) :=
  (framed_3d hw hm hL hc).least d hd

/-- **C72.** `waverec` never amplifies changes of coefficients: the reconstructions of two coefficient lists of the
shapes of the coefficients of `x`, cropped to the size of `x`, are at most as far apart as the lists. -/
theorem c72_contraction_1d (axis : AxisHint) (cs ds ds' : List (Tensor R)) (hw : OrthBank w F) (hm : Selects mode .zero)
    (hcs : wavedec x w mode level axis = .ok cs) (hds : List.Forall₂ SameTensor cs ds) (hds' : List.Forall₂ SameTensor cs ds') :
    ∃ z z', waverec ds w axis = .ok z ∧ waverec ds' w axis = .ok z' ∧ z.md = x.md ∧ z'.md = x.md ∧
      ∃ u u', CropOf x z u ∧ CropOf x z' u' ∧ dist2 u u' ≤ listDist ds ds' :=
  (framed_1d hw hm hcs).contract (fun _ _ _ _ ha hb hc hd => quads_nonneg (sames_trans (sames_symm ha) hb)
    (sames_trans (sames_symm ha) hc) (sames_trans (sames_symm ha) hd)) ds ds' hds hds'

/-- **C72.** The same for `waverec2`. -/
theorem c72_contraction_2d (axes : AxisHint) (c d d' : Coeffs R) (hw : OrthBank w F) (hm : Selects mode .zero)
    (hc : wavedec2 x w mode level axes = .ok c) (hd : SameForm c d) (hd' : SameForm c d') :
    ∃ z z', waverec2 d w axes = .ok z ∧ waverec2 d' w axes = .ok z' ∧ z.md = x.md ∧ z'.md = x.md ∧
      ∃ u u', CropOf x z u ∧ CropOf x z' u' ∧ dist2 u u' ≤ coeffDist d d' :=
  (framed_2d hw hm hc).contract quads_form d d' hd hd'

/-- **C72.** The same for `waverec3`. -/
theorem c72_contraction_3d (axes : AxisHint) (c d d' : Coeffs R) (hw : OrthBank w F) (hm : Selects mode .zero)
    (hL : 0 < levelsN level F (sizes (axesOf axes x.rank 3) x.shape))
    (hc : wavedec3 x w mode level axes = .ok c) (hd : SameForm c d) (hd' : SameForm c d') :
    ∃ z z', waverec3 d w axes = .ok z ∧ waverec3 d' w axes = .ok z' ∧ z.md = x.md ∧ z'.md = x.md ∧
      ∃ u u', CropOf x z u ∧ CropOf x z' u' ∧ dist2 u u' ≤ coeffDist d d' :=
  (framed_3d hw hm hL hc).contract quads_form d d' hd hd'

/-- **C72.** `fswaverec2` is the least squares fit. -/
theorem c72_least_squares_fs2 (axes : AxisHint) (c d : Coeffs R) (hw : OrthBank w F) (hm : Selects mode .zero)
    (hc : fswavedec2 x w mode level axes = .ok c) (hd : SameForm c d) :
    ∃ z, (fswaverec2 d w axes).1 = .ok z ∧ z.md = x.md ∧ ∃ u, CropOf x z u ∧ ∃ cu, fswavedec2 u w mode level axes = .ok cu ∧
      SameForm c cu ∧ ∀ y, SameTensor x y →
        ∃ cy, fswavedec2 y w mode level axes = .ok cy ∧ SameForm c cy ∧ coeffDist d cu ≤ coeffDist d cy ∧
          (coeffDist d cy = coeffDist d cu → y = u) :=
  (framed_fs2 hw hm hc).least d hd

/-- **C72.** `fswaverec2` never amplifies changes of coefficients. -/
theorem c72_contraction_fs2 (axes : AxisHint) (c d d' : Coeffs R) (hw : OrthBank w F) (hm : Selects mode .zero)
    (hc : fswavedec2 x w mode level axes = .ok c) (hd : SameForm c d) (hd' : SameForm c d') :
    ∃ z z', (fswaverec2 d w axes).1 = .ok z ∧ (fswaverec2 d' w axes).1 = .ok z' ∧ z.md = x.md ∧ z'.md = x.md ∧
      ∃ u u', CropOf x z u ∧ CropOf x z' u' ∧ dist2 u u' ≤ coeffDist d d' :=
  (framed_fs2 hw hm hc).contract quads_form d d' hd hd'

/-- **C72.** `fswaverec3` is the least squares fit. -/
theorem c72_least_squares_fs3 (axes : AxisHint) (c d : Coeffs R) (hw : OrthBank w F) (hm : Selects mode .zero)
    (hc : fswavedec3 x w mode level axes = .ok c) (hd : SameForm c d) :
    ∃ z, (fswaverec3 d w axes).1 = .ok z ∧ z.md = x.md ∧ ∃ u, CropOf x z u ∧ ∃ cu, fswavedec3 u w mode level axes = .ok cu ∧
      SameForm c cu ∧ ∀ y, SameTensor x y →
        ∃ cy, fswavedec3 y w mode level axes = .ok cy ∧ SameForm c cy ∧ coeffDist d cu ≤ coeffDist d cy ∧
          (coeffDist d cy = coeffDist d cu → y = u) :=
  (framed_fs3 hw hm hc).least d hd

/-- **C72.** `fswaverec3` never amplifies changes of coefficients. -/
theorem c72_contraction_fs3 (axes : AxisHint) (c d d' : Coeffs R) (hw : OrthBank w F) (hm : Selects mode .zero)
    (hc : fswavedec3 x w mode level axes = .ok c) (hd : SameForm c d) (hd' : SameForm c d') :
    ∃ z z', (fswaverec3 d w axes).1 = .ok z ∧ (fswaverec3 d' w axes).1 = .ok z' ∧ z.md = x.md ∧ z'.md = x.md ∧
      ∃ u u', CropOf x z u ∧ CropOf x z' u' ∧ dist2 u u' ≤ coeffDist d d' :=
  (framed_fs3 hw hm hc).contract quads_form d d' hd hd'

/-- **C72.** `iswt` is the least squares fit of its coefficients. -/
theorem c72_least_squares_swt (axis : AxisHint) (cs ds : List (Tensor R)) (hw : OrthBank w F) (hg : GoodAxes axis x.rank 1)
    (hdt : x.md.dtype = .float32 ∨ x.md.dtype = .float64) (hn : 0 < x.shape.getD (axis1 axis x.rank) 0)
    (hwr : WrapOk (x.shape.getD (axis1 axis x.rank) 0) F (swtLevel level (x.shape.getD (axis1 axis x.rank) 0)))
    (hcs : swt x w level axis = .ok cs) (hds : List.Forall₂ SameTensor cs ds) :
    ∃ u, iswt ds w axis = .ok u ∧ SameTensor x u ∧ ∃ cu, swt u w level axis = .ok cu ∧ List.Forall₂ SameTensor cs cu ∧
      ∀ y, SameTensor x y → ∃ cy, swt y w level axis = .ok cy ∧ List.Forall₂ SameTensor cs cy ∧
        frameDist ds cu ≤ frameDist ds cy ∧ (frameDist ds cy = frameDist ds cu → y = u) := by
  obtain ⟨u, eu, hu, cu, e, fu, h⟩ := c72_pythagoras_swt x w F level axis cs ds hw hg hdt hn hwr hcs hds
  refine ⟨u, eu, hu, cu, e, fu, fun y hy => ?_⟩
  obtain ⟨cy, ey, fy, h2⟩ := h y hy
  refine ⟨cy, ey, fy, ?_, fun h3 => ?_⟩
  · rw [h2]; exact le_add_of_nonneg_right (dist2_nonneg _ _)
  · refine (dist2_zero (same_trans (same_symm hu) hy) ?_).symm
    rw [h3] at h2
    linear_combination -h2

/-- **C72.** `iswt` never amplifies changes of coefficients. -/
theorem c72_contraction_swt (axis : AxisHint) (cs ds ds' : List (Tensor R)) (hw : OrthBank w F) (hg : GoodAxes axis x.rank 1)
    (hdt : x.md.dtype = .float32 ∨ x.md.dtype = .float64) (hn : 0 < x.shape.getD (axis1 axis x.rank) 0)
    (hwr : WrapOk (x.shape.getD (axis1 axis x.rank) 0) F (swtLevel level (x.shape.getD (axis1 axis x.rank) 0)))
    (hcs : swt x w level axis = .ok cs) (hds : List.Forall₂ SameTensor cs ds) (hds' : List.Forall₂ SameTensor cs ds') :
    ∃ u u', iswt ds w axis = .ok u ∧ iswt ds' w axis = .ok u' ∧ SameTensor x u ∧ SameTensor x u' ∧
      dist2 u u' ≤ frameDist ds ds' := by
  obtain ⟨u, eu, hu, -⟩ := c72_adjoint_swt x w F level axis cs ds (mirrored_of_orth hw) hg hdt hn hwr hcs hds
  obtain ⟨v, ev, hv, -⟩ := c72_adjoint_swt x w F level axis cs ds' (mirrored_of_orth hw) hg hdt hn hwr hcs hds'
  obtain ⟨z, z', ez, ez', -, -, u', v', hu', hv', h⟩ := (framed_swt hw hg hdt hn hwr hcs).contract
    (fun _ _ _ _ ha hb hc hd => frame_quads (sames_trans (sames_symm ha) hb)
      (sames_trans (sames_symm ha) hc) (sames_trans (sames_symm ha) hd)) ds ds' hds hds'
  have ez : iswt ds w axis = .ok z := ez
  have ez' : iswt ds' w axis = .ok z' := ez'
  rw [eu] at ez; cases ez
  rw [ev] at ez'; cases ez'
  have e1 : u' = u := Tensor.ext' (hu'.1.1.trans hu.1.symm) (hu'.1.2.trans hu.2.symm) fun i hi => hu'.2 i (by rw [← hu'.1.2]; exact hi)
  have e2 : v' = v := Tensor.ext' (hv'.1.1.trans hv.1.symm) (hv'.1.2.trans hv.2.symm) fun i hi => hv'.2 i (by rw [← hv'.1.2]; exact hi)
  subst e1; subst e2
  exact ⟨u', v', eu, ev, hu, hv, h⟩

end ordered

/-- Beside the theorems: thresholding two-dimensional coefficients (here: replacing all of them by ones) meets the
hypotheses, on two levels of a four tap filter bank and unordered, negative axes. -/
example : ∃ c z u, wavedec2 exI lattice (some "zero") (some 2) (.seq [2, -3]) = .ok c ∧
    waverec2 ⟨c.isList, c.items.map onesEntry⟩ lattice (.seq [2, -3]) = .ok z ∧ CropOf exI z u ∧
    ∀ y, SameTensor exI y → ∃ cy, wavedec2 y lattice (some "zero") (some 2) (.seq [2, -3]) = .ok cy ∧
      dist2 u y ≤ coeffDist ⟨c.isList, c.items.map onesEntry⟩ cy := by
  obtain ⟨c, hc⟩ := exI_zero
  obtain ⟨-, -, m, -, -, hdwt⟩ := wavedec2_ok (by decide) rfl hc
  have hf := isDwtN_form (by rintro P e ⟨_, _, _, rfl, -⟩ h; cases h) hdwt
  have hones := ones_form hf
  obtain ⟨z, ez, -, u, hu, cu, eu, fu, hbest⟩ := c72_pythagoras_2d exI lattice 4 (some "zero") (some 2) (.seq [2, -3]) c _
    lattice_orth (Or.inl rfl) hc hones
  refine ⟨c, z, u, hc, ez, hu, fun y hy => ?_⟩
  obtain ⟨cy, ey, -, h⟩ := hbest y hy
  refine ⟨cy, ey, ?_⟩
  rw [h, coeffDist_flat (form_trans (form_symm hones) fu)]
  refine le_add_of_nonneg_left (List.sum_nonneg fun t ht => ?_)
  obtain ⟨i, hi, rfl⟩ := List.mem_iff_getElem.mp ht
  rw [List.getElem_zipWith]
  exact dist2_nonneg _ _

/-- Two levels of the stationary transform along the middle axis of an image, with coefficients that do not come
from any image. -/
example : ∃ cs u, swt exI lattice (some 2) (.int (-2)) = .ok cs ∧
    iswt (cs.map fun t => ofFn t.md t.shape fun _ => 1) lattice (.int (-2)) = .ok u ∧
    frameDot cs (cs.map fun t => ofFn t.md t.shape fun _ => 1) = innerProd exI u := by
  have hg : GoodAxes (.int (-2)) exI.rank 1 := ⟨by decide, rfl, ⟨by
    intro a ha
    have : a = -2 := by simpa [resolve] using ha
    subst this; exact ⟨by decide, by decide⟩, by decide⟩⟩
  have hwr : WrapOk (exI.shape.getD (axis1 (.int (-2)) exI.rank) 0) 4 (swtLevel (some 2) (exI.shape.getD (axis1 (.int (-2)) exI.rank) 0)) := by
    unfold WrapOk
    decide
  obtain ⟨cs, e, -⟩ := c24_size exI lattice (some 2) (.int (-2)) hg (by decide) (by decide) rfl rfl (by decide)
  obtain ⟨u, eu, -, h⟩ := c72_adjoint_swt exI lattice 4 (some 2) (.int (-2)) cs (cs.map fun t => ofFn t.md t.shape fun _ => 1)
    (mirrored_of_orth lattice_orth) hg (by decide) (by decide) hwr e (by
      rw [List.forall₂_map_right_iff, List.forall₂_same]
      exact fun t _ => ⟨rfl, rfl⟩)
  exact ⟨cs, u, e, eu, h⟩

end Verif.Props
