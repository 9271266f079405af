/-
C67: the numbers do not influence the course of a computation.  Applying a map between two number systems that
respects sums and products (ℚ ⊆ ℝ, ℝ ⊆ ℂ, complex conjugation, reduction of integers, evaluation of polynomials at
a point, …) to data and filters first and transforming then gives the same as transforming first and applying the
map to every coefficient; exceptions are the same.
-/
import Verif.Lemmas.FamilyPacket
import Verif.Props.ConvNd
import Mathlib.Algebra.Field.Rat
import Mathlib.Data.Rat.Cast.CharZero
import Mathlib.Data.Real.Basic

namespace Verif.Props
open Verif.Spec Tensor
variable {R S : Type}

section semiring
variable [NonUnitalNonAssocSemiring R] [NonUnitalNonAssocSemiring S] (φ : R →ₙ+* S)

theorem c67_wavedec (x : Tensor R) (w : Wavelet R) (mode : Option String) (level : Option Int) (axis : AxisHint) :
    wavedec (mapT φ.toZeroHom x) (mapW φ w) mode level axis =
      (wavedec x w mode level axis).map (List.map (mapT φ.toZeroHom)) :=
  Two.map_iff.1 ((rel_wavedec (closed_hom φ) (trel_graph.2 rfl) (wrel_graph.2 rfl) mode level axis).mono
    fun _ _ => list_trel_graph.1)

theorem c67_waverec (cs : List (Tensor R)) (w : Wavelet R) (axis : AxisHint) :
    waverec (cs.map (mapT φ.toZeroHom)) (mapW φ w) axis = (waverec cs w axis).map (mapT φ.toZeroHom) :=
  Two.map_iff.1 ((rel_waverec (closed_hom φ) (list_trel_graph.2 rfl) (wrel_graph.2 rfl) axis).mono
    fun _ _ => trel_graph.1)

theorem c67_wavedec2 (x : Tensor R) (w : Wavelet R) (mode : Option String) (level : Option Int) (axes : AxisHint) :
    wavedec2 (mapT φ.toZeroHom x) (mapW φ w) mode level axes =
      (wavedec2 x w mode level axes).map (mapC (mapT φ.toZeroHom)) :=
  Two.map_iff.1 ((rel_wavedec2 (closed_hom φ) (trel_graph.2 rfl) (wrel_graph.2 rfl) mode level axes).mono
    fun _ _ => coeffs2_trel_graph.1)

theorem c67_waverec2 (c : Coeffs R) (w : Wavelet R) (axes : AxisHint) :
    waverec2 (mapC (mapT φ.toZeroHom) c) (mapW φ w) axes = (waverec2 c w axes).map (mapT φ.toZeroHom) :=
  Two.map_iff.1 ((rel_waverec2 (closed_hom φ) (coeffs2_trel_graph.2 rfl) (wrel_graph.2 rfl) axes).mono
    fun _ _ => trel_graph.1)

theorem c67_wavedec3 (x : Tensor R) (w : Wavelet R) (mode : Option String) (level : Option Int) (axes : AxisHint) :
    wavedec3 (mapT φ.toZeroHom x) (mapW φ w) mode level axes =
      (wavedec3 x w mode level axes).map (mapC (mapT φ.toZeroHom)) :=
  Two.map_iff.1 ((rel_wavedec3 (closed_hom φ) (trel_graph.2 rfl) (wrel_graph.2 rfl) mode level axes).mono
    fun _ _ => coeffs2_trel_graph.1)

theorem c67_waverec3 (c : Coeffs R) (w : Wavelet R) (axes : AxisHint) :
    waverec3 (mapC (mapT φ.toZeroHom) c) (mapW φ w) axes = (waverec3 c w axes).map (mapT φ.toZeroHom) :=
  Two.map_iff.1 ((rel_waverec3 (closed_hom φ) (coeffs2_trel_graph.2 rfl) (wrel_graph.2 rfl) axes).mono
    fun _ _ => trel_graph.1)

/-- `fswavedec2` is `n = 2`, `fswavedec3` is `n = 3`. -/
theorem c67_fswavedec (x : Tensor R) (w : Wavelet R) (n : Nat) (mode : Option String) (level : Option Int)
    (axes : AxisHint) :
    fswavedecn (mapT φ.toZeroHom x) (mapW φ w) n mode level axes =
      (fswavedecn x w n mode level axes).map (mapC (mapT φ.toZeroHom)) :=
  Two.map_iff.1 ((rel_fswavedecn (closed_hom φ) (trel_graph.2 rfl) (wrel_graph.2 rfl) n mode level axes).mono
    fun _ _ => coeffs2_trel_graph.1)

/-- The result of `fswaverec2` and `fswaverec3`, and what the call leaves in the caller's container. -/
theorem c67_fswaverec (c : Coeffs R) (w : Wavelet R) (n : Nat) (axes : AxisHint) :
    fswaverecn (mapC (mapT φ.toZeroHom) c) (mapW φ w) n axes =
      ((fswaverecn c w n axes).1.map (mapT φ.toZeroHom), mapC (mapT φ.toZeroHom) (fswaverecn c w n axes).2) := by
  obtain ⟨h1, h2⟩ := rel_fswaverecn (closed_hom φ) (coeffs2_trel_graph.2 rfl) (wrel_graph.2 rfl) n axes
    (a := c) (w := w) (b := mapC (mapT φ.toZeroHom) c) (v := mapW φ w)
  exact Prod.ext (Two.map_iff.1 (h1.mono fun _ _ => trel_graph.1)) (coeffs2_trel_graph.1 h2)

theorem c67_swt (x : Tensor R) (w : Wavelet R) (level : Option Int) (axis : AxisHint) :
    swt (mapT φ.toZeroHom x) (mapW φ w) level axis = (swt x w level axis).map (List.map (mapT φ.toZeroHom)) :=
  Two.map_iff.1 ((rel_swt (closed_hom φ) (trel_graph.2 rfl) (wrel_graph.2 rfl) level axis).mono
    fun _ _ => list_trel_graph.1)

/-- Every history of operations on a `WaveletPacket` object. -/
theorem c67_packet (w : Wavelet R) (mode : Option String) (axis : Int) (ops : List (Backend.Op (Tensor R))) :
    ((packet1 (mapW φ w) mode axis).run (Backend.empty ()) (ops.map (mapOp (mapT φ.toZeroHom)))).1 =
      ((packet1 w mode axis).run (Backend.empty ()) ops).1.map (mapOut (mapT φ.toZeroHom)) :=
  outs_graph.1 (two_run (two_packet1 (closed_hom φ) (wrel_graph.2 rfl) mode axis) (ops_graph.2 rfl)
    (pkt2_empty trivial)).1

/-- Every history of operations on a `WaveletPacket2D` object. -/
theorem c67_packet2d (w : Wavelet R) (mode : Option String) (axes : List Int) (separable : Bool)
    (ops : List (Backend.Op (Tensor R))) :
    ((packet2 (mapW φ w) mode axes separable).run (Backend.empty ()) (ops.map (mapOp (mapT φ.toZeroHom)))).1 =
      ((packet2 w mode axes separable).run (Backend.empty ()) ops).1.map (mapOut (mapT φ.toZeroHom)) :=
  outs_graph.1 (two_run (two_packet2 (closed_hom φ) (wrel_graph.2 rfl) mode axes separable) (ops_graph.2 rfl)
    (pkt2_empty trivial)).1

end semiring

theorem c67_iswt [Field R] [Field S] (φ : R →+* S) (cs : List (Tensor R)) (w : Wavelet R) (axis : AxisHint) :
    iswt (cs.map (mapT (φ : R →ₙ+* S).toZeroHom)) (mapW φ w) axis =
      (iswt cs w axis).map (mapT (φ : R →ₙ+* S).toZeroHom) :=
  Two.map_iff.1 ((rel_iswt (closed_hom (φ : R →ₙ+* S))
    (by rintro a _ n rfl; show _ = φ _; rw [map_div₀, map_natCast]; rfl)
    (list_trel_graph.2 rfl) (wrel_graph.2 rfl) axis).mono fun _ _ => trel_graph.1)

/-- The losses of the learnable wavelets. -/
theorem c67_losses [Ring R] [Ring S] (φ : R →+* S) (b : FilterTensors R) :
    let b' := mapB (mapT (φ : R →ₙ+* S).toZeroHom) b
    let T := mapT (φ : R →ₙ+* S).toZeroHom
    pfAliasLoss b' = (pfAliasLoss b).map (fun r => (φ r.1, T r.2.1, T r.2.2)) ∧
    aliasLoss b' = (aliasLoss b).map (fun r => (φ r.1, T r.2.1, T r.2.2)) ∧
    reconstructionLoss b' = (reconstructionLoss b).map (fun r => (φ r.1, T r.2.1, T r.2.2)) ∧
    productFilterLoss b' = (productFilterLoss b).map φ ∧
    recLoOrthogonalityLoss b' = (recLoOrthogonalityLoss b).map φ ∧
    filtBankOrthogonalityLoss b' = (filtBankOrthogonalityLoss b).map φ ∧
    softWaveletLoss b' = (softWaveletLoss b).map φ := by
  intro b' T
  have hc := closed_hom (φ : R →ₙ+* S)
  have h1 : (1 : S) = (φ : R →ₙ+* S).toZeroHom 1 := (map_one φ).symm
  have hn : ∀ {a : R} {b : S}, b = (φ : R →ₙ+* S).toZeroHom a → -b = (φ : R →ₙ+* S).toZeroHom (-a) := by
    rintro a _ rfl; exact (map_neg φ _).symm
  have hb : BRel (fun a b => b = (φ : R →ₙ+* S).toZeroHom a) b b' := brel_graph.2 rfl
  have key : ∀ (a : R × Tensor R × Tensor R) (c : S × Tensor S × Tensor S),
      LRel (fun a b => b = (φ : R →ₙ+* S).toZeroHom a) a c → c = (φ a.1, T a.2.1, T a.2.2) := by
    rintro ⟨a1, a2, a3⟩ ⟨c1, c2, c3⟩ ⟨h1, h2, h3⟩
    exact Prod.ext h1 (Prod.ext (trel_graph.1 h2) (trel_graph.1 h3))
  exact ⟨Two.map_iff.1 ((rel_pfAliasLoss hc h1 hn hb).mono key),
    Two.map_iff.1 ((rel_aliasLoss hc h1 hn hb).mono key),
    Two.map_iff.1 ((rel_reconstructionLoss hc h1 hn hb).mono key),
    Two.map_iff.1 (rel_productFilterLoss hc h1 hn hb),
    Two.map_iff.1 (rel_recLoOrthogonalityLoss hc h1 hn hb),
    Two.map_iff.1 (rel_filtBankOrthogonalityLoss hc hn hb),
    Two.map_iff.1 (rel_softWaveletLoss hc h1 hn hb)⟩

/-! ### Non-vacuity -/

/-- The rational numbers inside of the reals. -/
noncomputable def ratReal : ℚ →+* ℝ := Rat.castHom ℝ

/-- Two levels of a rational volume, computed in ℚ and in ℝ. -/
example : ∃ c, wavedec2 exI haar (some "symmetric") (some 2) (.seq [2, -3]) = .ok c ∧
    wavedec2 (mapT (ratReal : ℚ →ₙ+* ℝ).toZeroHom exI) (mapW ratReal haar) (some "symmetric") (some 2) (.seq [2, -3]) =
      .ok (mapC (mapT (ratReal : ℚ →ₙ+* ℝ).toZeroHom) c) := by
  obtain ⟨c, hc⟩ := ex_wavedec2
  refine ⟨c, hc, ?_⟩
  have := c67_wavedec2 (ratReal : ℚ →ₙ+* ℝ) exI haar (some "symmetric") (some 2) (.seq [2, -3])
  rw [hc] at this
  exact this

end Verif.Props
