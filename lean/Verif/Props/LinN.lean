import Verif.Lemmas.LinPacket
import Verif.Props.Conv1

/-! C54: all transforms are linear; whether and how a call fails, the shapes of its results, the state of
the object and the order of events depend on shapes, dtypes and devices only. -/

namespace Verif.Props
open Tensor Spec Backend
variable {R : Type}

section conv
variable [CommSemiring R] {c : R}

/-- **C54.** `wavedec2` is linear: on `x`, `y` and `z = c x + y` it raises the same exception three times
or returns coefficients with `dz = c dx + dy` in containers of the same form. -/
theorem c54_wavedec2 (x y z : Tensor R) (h : Lin c x y z) (w : Wavelet R) (mode : Option String)
    (level : Option Int) (axes : AxisHint) :
    Three (Coeffs3 (Lin c)) (wavedec2 x w mode level axes) (wavedec2 y w mode level axes)
      (wavedec2 z w mode level axes) :=
  lin_wavedec2 h w mode level axes

/-- **C54.** `waverec2` is linear in the coefficients. -/
theorem c54_waverec2 (x y z : Coeffs R) (h : Coeffs3 (Lin c) x y z) (w : Wavelet R) (axes : AxisHint) :
    Three (Lin c) (waverec2 x w axes) (waverec2 y w axes) (waverec2 z w axes) :=
  lin_waverec2 h w axes

/-- **C54.** `wavedec3` is linear. -/
theorem c54_wavedec3 (x y z : Tensor R) (h : Lin c x y z) (w : Wavelet R) (mode : Option String)
    (level : Option Int) (axes : AxisHint) :
    Three (Coeffs3 (Lin c)) (wavedec3 x w mode level axes) (wavedec3 y w mode level axes)
      (wavedec3 z w mode level axes) :=
  lin_wavedec3 h w mode level axes

/-- **C54.** `waverec3` is linear in the coefficients. -/
theorem c54_waverec3 (x y z : Coeffs R) (h : Coeffs3 (Lin c) x y z) (w : Wavelet R) (axes : AxisHint) :
    Three (Lin c) (waverec3 x w axes) (waverec3 y w axes) (waverec3 z w axes) :=
  lin_waverec3 h w axes

/-- **C54.** `fswavedec2` and `fswavedec3` (any number of dimensions) are linear. -/
theorem c54_fswavedec (n : Nat) (x y z : Tensor R) (h : Lin c x y z) (w : Wavelet R) (mode : Option String)
    (level : Option Int) (axes : AxisHint) :
    Three (Coeffs3 (Lin c)) (fswavedecn x w n mode level axes) (fswavedecn y w n mode level axes)
      (fswavedecn z w n mode level axes) :=
  lin_fswavedecn h w n mode level axes

/-- **C54.** `fswaverec2` and `fswaverec3` are linear in the coefficients; and so is what they leave in the
caller's containers. -/
theorem c54_fswaverec (n : Nat) (x y z : Coeffs R) (h : Coeffs3 (Lin c) x y z) (w : Wavelet R)
    (axes : AxisHint) :
    Three (Lin c) (fswaverecn x w n axes).1 (fswaverecn y w n axes).1 (fswaverecn z w n axes).1 ∧
    Coeffs3 (Lin c) (fswaverecn x w n axes).2 (fswaverecn y w n axes).2 (fswaverecn z w n axes).2 :=
  lin_fswaverecn h w n axes

/-- **C54.** `swt` is linear. -/
theorem c54_swt (x y z : Tensor R) (h : Lin c x y z) (w : Wavelet R) (level : Option Int) (axis : AxisHint) :
    Three (Forall₃ (Lin c)) (swt x w level axis) (swt y w level axis) (swt z w level axis) :=
  lin_swt h w level axis

end conv

section field
variable [Field R] {c : R}

/-- **C54.** `iswt` is linear in the coefficient list. -/
theorem c54_iswt (x y z : List (Tensor R)) (h : Forall₃ (Lin c) x y z) (w : Wavelet R) (axis : AxisHint) :
    Three (Lin c) (iswt x w axis) (iswt y w axis) (iswt z w axis) :=
  lin_iswt h w axis

variable [DecidableEq R]

/-- **C54.** A call of a `MatrixWavedec` object, in any state, is linear in the signal, and the state after
the call (the cached matrices and sizes) does not depend on the values of the signal. -/
theorem c54_matrix_wavedec (la : LinAlg R) (cfg : DecCfg R) (st : DecState R) (x y z : Tensor R)
    (h : Lin c x y z) :
    ThreeSt (Forall₃ (Lin c)) (decCall la cfg st x) (decCall la cfg st y) (decCall la cfg st z) :=
  lin_decCall h la cfg st

/-- **C54.** The same for `MatrixWaverec`. -/
theorem c54_matrix_waverec (la : LinAlg R) (cfg : RecCfg R) (st : RecState R) (x y z : List (Tensor R))
    (h : Forall₃ (Lin c) x y z) :
    ThreeSt (Lin c) (recCall la cfg st x) (recCall la cfg st y) (recCall la cfg st z) :=
  lin_recCall h la cfg st

/-- **C54.** The same for `MatrixWavedec2` (separable or not) and `MatrixWavedec3`. -/
theorem c54_matrix_wavedec_nd (n : Nat) (la : LinAlg R) (cfg : DecCfgN R) (st : DecStateN R)
    (x y z : Tensor R) (h : Lin c x y z) :
    ThreeSt (Coeffs3 (Lin c)) (decCallN n la cfg st x) (decCallN n la cfg st y) (decCallN n la cfg st z) :=
  lin_decCallN h n la cfg st

/-- **C54.** The same for `MatrixWaverec2` (separable or not) and `MatrixWaverec3`. -/
theorem c54_matrix_waverec_nd (n : Nat) (la : LinAlg R) (cfg : RecCfgN R) (st : RecStateN R)
    (x y z : Coeffs R) (h : Coeffs3 (Lin c) x y z) :
    ThreeSt (Lin c) (recCallN n la cfg st x) (recCallN n la cfg st y) (recCallN n la cfg st z) :=
  lin_recCallN n la cfg st h

end field

/-- **C54.** Three `WaveletPacket` objects with a padding mode that go through the same history of reads,
initialisations, assignments, transforms and reconstructions, with tensors `x`, `y` and `c x + y` handed
over: every outcome of the third is the same combination of the outcomes of the first two, or all three
raise the same exception. -/
theorem c54_packet [CommSemiring R] {c : R} (w : Wavelet R) (mode : Option String) (axis : Int)
    (o₁ o₂ o₃ : List (Op (Tensor R))) (h : Forall₃ (Op3 (Lin c)) o₁ o₂ o₃) :
    Forall₃ (Out3 (Lin c)) ((packet1 w mode axis).run (empty ()) o₁).1
      ((packet1 w mode axis).run (empty ()) o₂).1 ((packet1 w mode axis).run (empty ()) o₃).1 :=
  rel_run (rel_packet1 w mode axis) h (rel_empty ())

/-- **C54.** The same for `WaveletPacket2D` with a padding mode, separable or not. -/
theorem c54_packet2 [CommSemiring R] {c : R} (w : Wavelet R) (mode : Option String) (axes : List Int)
    (sep : Bool) (o₁ o₂ o₃ : List (Op (Tensor R))) (h : Forall₃ (Op3 (Lin c)) o₁ o₂ o₃) :
    Forall₃ (Out3 (Lin c)) ((packet2 w mode axes sep).run (empty ()) o₁).1
      ((packet2 w mode axes sep).run (empty ()) o₂).1 ((packet2 w mode axes sep).run (empty ()) o₃).1 :=
  rel_run (rel_packet2 w mode axes sep) h (rel_empty ())

/-- **C54.** The same for `WaveletPacket` with `mode="boundary"`, whose transforms are cached. -/
theorem c54_packet_boundary [Field R] [DecidableEq R] {c : R} (la : LinAlg R) (w : Wavelet R)
    (orth : String) (axis : Int) (o₁ o₂ o₃ : List (Op (Tensor R))) (h : Forall₃ (Op3 (Lin c)) o₁ o₂ o₃) :
    Forall₃ (Out3 (Lin c)) ((packetMat1 la w orth axis).run (empty .empty) o₁).1
      ((packetMat1 la w orth axis).run (empty .empty) o₂).1
      ((packetMat1 la w orth axis).run (empty .empty) o₃).1 :=
  rel_run (rel_packetMat1 la w orth axis) h (rel_empty _)

/-- **C54.** The same for `WaveletPacket2D` with `mode="boundary"`, separable or not. -/
theorem c54_packet2_boundary [Field R] [DecidableEq R] {c : R} (la : LinAlg R) (w : Wavelet R)
    (orth : String) (axes : List Int) (sep : Bool) (o₁ o₂ o₃ : List (Op (Tensor R)))
    (h : Forall₃ (Op3 (Lin c)) o₁ o₂ o₃) :
    Forall₃ (Out3 (Lin c)) ((packetMat2 la w orth axes sep).run (empty .empty) o₁).1
      ((packetMat2 la w orth axes sep).run (empty .empty) o₂).1
      ((packetMat2 la w orth axes sep).run (empty .empty) o₃).1 :=
  rel_run (rel_packetMat2 la w orth axes sep) h (rel_empty _)

/-- The hypotheses are met by every pair of tensors of equal shape and meta data: their combination exists;
so does a history of the packet object that uses it. -/
example [CommSemiring R] (c : R) (x y : Tensor R) (hm : y.md = x.md) (hs : y.shape = x.shape) :
    ∃ z, Lin c x y z ∧ Forall₃ (Op3 (Lin c))
      [.transform x none, .read ['a', 'd'], .set ['d'] x, .reconstruct, .read []]
      [.transform y none, .read ['a', 'd'], .set ['d'] y, .reconstruct, .read []]
      [.transform z none, .read ['a', 'd'], .set ['d'] z, .reconstruct, .read []] := by
  obtain ⟨z, h⟩ := lin_exists c x y hm hs
  exact ⟨z, h, .cons (.transform _ h) (.cons (.read _) (.cons (.set _ h) (.cons .reconstruct
    (.cons (.read _) .nil))))⟩

/-- … and by coefficient containers: a detail dictionary of `wavedec3`. -/
example [CommSemiring R] (c : R) (x y z : Tensor R) (h : Lin c x y z) :
    Coeffs3 (Lin c) ⟨false, [.tensor x, .dict [("aad", x), ("ada", y)], .tuple x x y]⟩
      ⟨false, [.tensor y, .dict [("aad", y), ("ada", y)], .tuple y y y]⟩
      ⟨false, [.tensor z, .dict [("aad", z), ("ada", ofFn y.md y.shape fun i => c * y.get i + y.get i)],
        .tuple z z (ofFn y.md y.shape fun i => c * y.get i + y.get i)]⟩ := by
  have hy : Lin c y y (ofFn y.md y.shape fun i => c * y.get i + y.get i) := by
    refine ⟨rfl, rfl, rfl, rfl, fun i => ?_⟩
    rw [ofFn_get]
    split_ifs with h
    · rfl
    · rw [y.supp i h]; simp
  exact ⟨rfl, rfl, .cons (.tensor h) (.cons (.dict (.cons ⟨rfl, rfl, h⟩ (.cons ⟨rfl, rfl, hy⟩ .nil)))
    (.cons (.tuple h h hy) .nil))⟩

end Verif.Props
