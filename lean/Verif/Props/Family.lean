/-
C68: results depend on data and filter taps as smoothly as arithmetic does.  When data and taps are functions of a
parameter (network weights, for instance) that belong to a class of functions closed under sums and products —
continuous, differentiable, infinitely often differentiable, analytic, polynomial, … — then so are all results; and
whether a call fails, with which exception, and the shapes of its results do not depend on the parameter.
-/
import Verif.Lemmas.FamilyPacket
import Verif.Lemmas.Top1
import Verif.Props.ConvNd
import Mathlib.Analysis.Calculus.ContDiff.Operations
import Mathlib.Analysis.SpecialFunctions.Trigonometric.Deriv

namespace Verif.Props
open Verif.Spec Tensor
variable {E K : Type}

section semiring
variable [NonUnitalNonAssocSemiring K] {𝓕 : (E → K) → Prop} (h𝓕 : FunClass 𝓕)
include h𝓕

theorem c68_wavedec {x : E → Tensor K} {w : E → Wavelet K} (hx : FamT 𝓕 x) (hw : FamW 𝓕 w) (mode : Option String)
    (level : Option Int) (axis : AxisHint) :
    FamR (FamList (FamT 𝓕)) fun θ => wavedec (x θ) (w θ) mode level axis := by
  obtain ⟨X, Y, h1, rfl⟩ := hx.lift
  obtain ⟨W, V, h2, rfl⟩ := hw.lift
  have := famR_of (f := fun θ => List.map (mapT (ev K θ).toZeroHom)) (𝓐 := FamList (FamT 𝓕))
    (fun _ _ h => famList_map (fun _ _ h => famT_map h) h) (rel_wavedec h𝓕.closed h1 h2 mode level axis)
  refine this.congr fun θ => ?_
  exact Two.map_iff.1 ((rel_wavedec (closed_hom (ev K θ)) (trel_graph.2 rfl) (wrel_graph.2 rfl) mode level axis).mono
    fun _ _ => list_trel_graph.1)

theorem c68_waverec {cs : E → List (Tensor K)} {w : E → Wavelet K} (hc : FamList (FamT 𝓕) cs) (hw : FamW 𝓕 w)
    (axis : AxisHint) : FamR (FamT 𝓕) fun θ => waverec (cs θ) (w θ) axis := by
  obtain ⟨X, Y, h1, rfl⟩ := hc.lift (fun _ h => h.lift)
  obtain ⟨W, V, h2, rfl⟩ := hw.lift
  refine (famR_of (f := fun θ => mapT (ev K θ).toZeroHom) (𝓐 := FamT 𝓕)
    (fun _ _ h => famT_map h) (rel_waverec h𝓕.closed h1 h2 axis)).congr fun θ => ?_
  exact Two.map_iff.1 ((rel_waverec (closed_hom (ev K θ)) (list_trel_graph.2 rfl) (wrel_graph.2 rfl) axis).mono
    fun _ _ => trel_graph.1)

theorem c68_wavedec2 {x : E → Tensor K} {w : E → Wavelet K} (hx : FamT 𝓕 x) (hw : FamW 𝓕 w)
    (mode : Option String) (level : Option Int) (axes : AxisHint) :
    FamR (FamC (FamT 𝓕)) fun θ => wavedec2 (x θ) (w θ) mode level axes := by
  obtain ⟨X, Y, h1, rfl⟩ := hx.lift
  obtain ⟨W, V, h2, rfl⟩ := hw.lift
  refine (famR_of (f := fun θ => mapC (mapT (ev K θ).toZeroHom)) (𝓐 := FamC (FamT 𝓕))
    (fun _ _ h => famC_map h) (rel_wavedec2 h𝓕.closed h1 h2 mode level axes)).congr fun θ => ?_
  exact Two.map_iff.1 ((rel_wavedec2 (closed_hom (ev K θ)) (trel_graph.2 rfl) (wrel_graph.2 rfl) mode level
    axes).mono fun _ _ => coeffs2_trel_graph.1)

theorem c68_waverec2 {c : E → Coeffs K} {w : E → Wavelet K} (hc : FamC (FamT 𝓕) c) (hw : FamW 𝓕 w)
    (axes : AxisHint) : FamR (FamT 𝓕) fun θ => waverec2 (c θ) (w θ) axes := by
  obtain ⟨X, Y, h1, rfl⟩ := hc.lift
  obtain ⟨W, V, h2, rfl⟩ := hw.lift
  refine (famR_of (f := fun θ => mapT (ev K θ).toZeroHom) (𝓐 := FamT 𝓕)
    (fun _ _ h => famT_map h) (rel_waverec2 h𝓕.closed h1 h2 axes)).congr fun θ => ?_
  exact Two.map_iff.1 ((rel_waverec2 (closed_hom (ev K θ)) (coeffs2_trel_graph.2 rfl) (wrel_graph.2 rfl)
    axes).mono fun _ _ => trel_graph.1)

theorem c68_wavedec3 {x : E → Tensor K} {w : E → Wavelet K} (hx : FamT 𝓕 x) (hw : FamW 𝓕 w)
    (mode : Option String) (level : Option Int) (axes : AxisHint) :
    FamR (FamC (FamT 𝓕)) fun θ => wavedec3 (x θ) (w θ) mode level axes := by
  obtain ⟨X, Y, h1, rfl⟩ := hx.lift
  obtain ⟨W, V, h2, rfl⟩ := hw.lift
  refine (famR_of (f := fun θ => mapC (mapT (ev K θ).toZeroHom)) (𝓐 := FamC (FamT 𝓕))
    (fun _ _ h => famC_map h) (rel_wavedec3 h𝓕.closed h1 h2 mode level axes)).congr fun θ => ?_
  exact Two.map_iff.1 ((rel_wavedec3 (closed_hom (ev K θ)) (trel_graph.2 rfl) (wrel_graph.2 rfl) mode level
    axes).mono fun _ _ => coeffs2_trel_graph.1)

theorem c68_waverec3 {c : E → Coeffs K} {w : E → Wavelet K} (hc : FamC (FamT 𝓕) c) (hw : FamW 𝓕 w)
    (axes : AxisHint) : FamR (FamT 𝓕) fun θ => waverec3 (c θ) (w θ) axes := by
  obtain ⟨X, Y, h1, rfl⟩ := hc.lift
  obtain ⟨W, V, h2, rfl⟩ := hw.lift
  refine (famR_of (f := fun θ => mapT (ev K θ).toZeroHom) (𝓐 := FamT 𝓕)
    (fun _ _ h => famT_map h) (rel_waverec3 h𝓕.closed h1 h2 axes)).congr fun θ => ?_
  exact Two.map_iff.1 ((rel_waverec3 (closed_hom (ev K θ)) (coeffs2_trel_graph.2 rfl) (wrel_graph.2 rfl)
    axes).mono fun _ _ => trel_graph.1)

/-- `fswavedec2` is `n = 2`, `fswavedec3` is `n = 3`. -/
theorem c68_fswavedec {x : E → Tensor K} {w : E → Wavelet K} (hx : FamT 𝓕 x) (hw : FamW 𝓕 w) (n : Nat)
    (mode : Option String) (level : Option Int) (axes : AxisHint) :
    FamR (FamC (FamT 𝓕)) fun θ => fswavedecn (x θ) (w θ) n mode level axes := by
  obtain ⟨X, Y, h1, rfl⟩ := hx.lift
  obtain ⟨W, V, h2, rfl⟩ := hw.lift
  refine (famR_of (f := fun θ => mapC (mapT (ev K θ).toZeroHom)) (𝓐 := FamC (FamT 𝓕))
    (fun _ _ h => famC_map h) (rel_fswavedecn h𝓕.closed h1 h2 n mode level axes)).congr fun θ => ?_
  exact Two.map_iff.1 ((rel_fswavedecn (closed_hom (ev K θ)) (trel_graph.2 rfl) (wrel_graph.2 rfl) n mode level
    axes).mono fun _ _ => coeffs2_trel_graph.1)

/-- The result of `fswaverec2` and `fswaverec3`, and what the call leaves in the caller's container. -/
theorem c68_fswaverec {c : E → Coeffs K} {w : E → Wavelet K} (hc : FamC (FamT 𝓕) c) (hw : FamW 𝓕 w) (n : Nat)
    (axes : AxisHint) : (FamR (FamT 𝓕) fun θ => (fswaverecn (c θ) (w θ) n axes).1) ∧
      FamC (FamT 𝓕) fun θ => (fswaverecn (c θ) (w θ) n axes).2 := by
  obtain ⟨X, Y, h1, rfl⟩ := hc.lift
  obtain ⟨W, V, h2, rfl⟩ := hw.lift
  obtain ⟨r1, r2⟩ := rel_fswaverecn h𝓕.closed h1 h2 n axes
  constructor
  · refine (famR_of (f := fun θ => mapT (ev K θ).toZeroHom) (𝓐 := FamT 𝓕)
      (fun _ _ h => famT_map h) r1).congr fun θ => ?_
    exact Two.map_iff.1 ((rel_fswaverecn (closed_hom (ev K θ)) (coeffs2_trel_graph.2 rfl) (wrel_graph.2 rfl) n
      axes).1.mono fun _ _ => trel_graph.1)
  · rw [show (fun θ => (fswaverecn (mapC (mapT (ev K θ).toZeroHom) X) (mapW (ev K θ) W) n axes).2) =
      fun θ => mapC (mapT (ev K θ).toZeroHom) (fswaverecn X W n axes).2 from funext fun θ =>
      coeffs2_trel_graph.1 (rel_fswaverecn (closed_hom (ev K θ)) (coeffs2_trel_graph.2 rfl) (wrel_graph.2 rfl) n
        axes).2]
    exact famC_map r2

theorem c68_swt {x : E → Tensor K} {w : E → Wavelet K} (hx : FamT 𝓕 x) (hw : FamW 𝓕 w)
    (level : Option Int) (axis : AxisHint) :
    FamR (FamList (FamT 𝓕)) fun θ => swt (x θ) (w θ) level axis := by
  obtain ⟨X, Y, h1, rfl⟩ := hx.lift
  obtain ⟨W, V, h2, rfl⟩ := hw.lift
  refine (famR_of (f := fun θ => List.map (mapT (ev K θ).toZeroHom)) (𝓐 := FamList (FamT 𝓕))
    (fun _ _ h => famList_map (fun _ _ h => famT_map h) h) (rel_swt h𝓕.closed h1 h2 level axis)).congr fun θ => ?_
  exact Two.map_iff.1 ((rel_swt (closed_hom (ev K θ)) (trel_graph.2 rfl) (wrel_graph.2 rfl) level axis).mono
    fun _ _ => list_trel_graph.1)

/-- Every history of operations on a `WaveletPacket` object whose tensors and taps depend on the parameter. -/
theorem c68_packet {w : E → Wavelet K} (hw : FamW 𝓕 w) {ops : E → List (Backend.Op (Tensor K))}
    (ho : FamList (FamOp (FamT 𝓕)) ops) (mode : Option String) (axis : Int) :
    FamList (FamOut (FamT 𝓕)) fun θ => ((packet1 (w θ) mode axis).run (Backend.empty ()) (ops θ)).1 := by
  obtain ⟨X, Y, h1, rfl⟩ := ho.lift (fun _ h => famOp_lift h)
  obtain ⟨W, V, h2, rfl⟩ := hw.lift
  rw [show (fun θ => ((packet1 (mapW (ev K θ) W) mode axis).run (Backend.empty ())
      (X.map (mapOp (mapT (ev K θ).toZeroHom)))).1) = fun θ =>
      ((packet1 W mode axis).run (Backend.empty ()) X).1.map (mapOut (mapT (ev K θ).toZeroHom)) from funext fun θ =>
    outs_graph.1 (two_run (two_packet1 (closed_hom (ev K θ)) (wrel_graph.2 rfl) mode axis) (ops_graph.2 rfl)
      (pkt2_empty trivial)).1]
  exact famList_map (fun _ _ h => famOut_map h)
    (two_run (two_packet1 h𝓕.closed h2 mode axis) h1 (pkt2_empty (c' := ()) trivial)).1

/-- Every history of operations on a `WaveletPacket2D` object whose tensors and taps depend on the parameter. -/
theorem c68_packet2d {w : E → Wavelet K} (hw : FamW 𝓕 w) {ops : E → List (Backend.Op (Tensor K))}
    (ho : FamList (FamOp (FamT 𝓕)) ops) (mode : Option String) (axes : List Int) (separable : Bool) :
    FamList (FamOut (FamT 𝓕)) fun θ => ((packet2 (w θ) mode axes separable).run (Backend.empty ()) (ops θ)).1 := by
  obtain ⟨X, Y, h1, rfl⟩ := ho.lift (fun _ h => famOp_lift h)
  obtain ⟨W, V, h2, rfl⟩ := hw.lift
  rw [show (fun θ => ((packet2 (mapW (ev K θ) W) mode axes separable).run (Backend.empty ())
      (X.map (mapOp (mapT (ev K θ).toZeroHom)))).1) = fun θ =>
      ((packet2 W mode axes separable).run (Backend.empty ()) X).1.map (mapOut (mapT (ev K θ).toZeroHom)) from
    funext fun θ => outs_graph.1 (two_run (two_packet2 (closed_hom (ev K θ)) (wrel_graph.2 rfl) mode axes separable)
      (ops_graph.2 rfl) (pkt2_empty trivial)).1]
  exact famList_map (fun _ _ h => famOut_map h)
    (two_run (two_packet2 h𝓕.closed h2 mode axes separable) h1 (pkt2_empty (c' := ()) trivial)).1

end semiring

theorem c68_iswt [Field K] {𝓕 : (E → K) → Prop} (h𝓕 : FunClass 𝓕) (hconst : ∀ c : K, 𝓕 fun _ => c)
    {cs : E → List (Tensor K)} {w : E → Wavelet K} (hc : FamList (FamT 𝓕) cs) (hw : FamW 𝓕 w)
    (axis : AxisHint) : FamR (FamT 𝓕) fun θ => iswt (cs θ) (w θ) axis := by
  obtain ⟨X, Y, h1, rfl⟩ := hc.lift (fun _ h => h.lift)
  obtain ⟨W, V, h2, rfl⟩ := hw.lift
  letI : Div PUnit.{1} := ⟨fun _ _ => ⟨⟩⟩
  have hd : ∀ {a : E → K} {b : PUnit.{1}} (n : Nat), U 𝓕 a b → U 𝓕 (a / (n : E → K)) (b / (n : PUnit.{1})) := by
    intro a b n h
    have e : a / (n : E → K) = fun θ => a θ * (n : K)⁻¹ := by
      funext θ
      rw [Pi.div_apply, Pi.natCast_apply, div_eq_mul_inv]
    show 𝓕 _
    rw [e]
    exact h𝓕.mul h (hconst _)
  refine (famR_of (f := fun θ => mapT (ev K θ).toZeroHom) (𝓐 := FamT 𝓕)
    (fun _ _ h => famT_map h) (rel_iswt h𝓕.closed hd h1 h2 axis)).congr fun θ => ?_
  refine Two.map_iff.1 ((rel_iswt (closed_hom (ev K θ)) ?_ (list_trel_graph.2 rfl) (wrel_graph.2 rfl) axis).mono
    fun _ _ => trel_graph.1)
  rintro a _ n rfl
  show a θ / (n : K) = (a / (n : E → K)) θ
  rw [Pi.div_apply, Pi.natCast_apply]

/-- The losses of the learnable wavelets. -/
theorem c68_losses [Ring K] {𝓕 : (E → K) → Prop} (h𝓕 : FunClass 𝓕) (hconst : ∀ c : K, 𝓕 fun _ => c)
    {b : E → FilterTensors K} (hb : FamB (FamT 𝓕) b) :
    (FamR 𝓕 fun θ => (pfAliasLoss (b θ)).map Prod.fst) ∧ (FamR 𝓕 fun θ => (aliasLoss (b θ)).map Prod.fst) ∧
    (FamR 𝓕 fun θ => (reconstructionLoss (b θ)).map Prod.fst) ∧ (FamR 𝓕 fun θ => productFilterLoss (b θ)) ∧
    (FamR 𝓕 fun θ => recLoOrthogonalityLoss (b θ)) ∧ (FamR 𝓕 fun θ => filtBankOrthogonalityLoss (b θ)) ∧
    FamR 𝓕 fun θ => softWaveletLoss (b θ) := by
  obtain ⟨X, Y, h, rfl⟩ := famB_lift hb
  have h1 : U 𝓕 1 1 := hconst 1
  have hn : ∀ {a : E → K} {b : PUnit.{1}}, U 𝓕 a b → U 𝓕 (-a) (-b) := by
    intro a b h
    have e : -a = fun θ => (-1 : K) * a θ := by funext θ; rw [Pi.neg_apply, neg_one_mul]
    show 𝓕 _
    rw [e]
    exact h𝓕.mul (hconst _) h
  have k1 : ∀ θ : E, (1 : K) = (ev K θ).toZeroHom 1 := fun θ => rfl
  have kn : ∀ (θ : E) {a : E → K} {b : K}, b = (ev K θ).toZeroHom a → -b = (ev K θ).toZeroHom (-a) := by
    rintro θ a _ rfl; rfl
  have kb : ∀ θ : E, BRel (fun a b => b = (ev K θ).toZeroHom a) X (mapB (mapT (ev K θ).toZeroHom) X) :=
    fun θ => brel_graph.2 rfl
  have fin : ∀ {r : Except Err (E → K)} {s : Except Err PUnit.{1}} {t : E → Except Err K}, Two (U 𝓕) r s →
      (∀ θ, Two (fun a b => b = (ev K θ).toZeroHom a) r (t θ)) → FamR 𝓕 t := by
    intro r s t hU hev
    refine (famR_of (f := fun θ (g : E → K) => g θ) (𝓐 := 𝓕) (fun _ _ h => h) hU).congr fun θ => ?_
    exact Two.map_iff.1 (hev θ)
  have fst : ∀ {A B : Type} {P : A → B → Prop} {A' B' : Type} {r : Except Err (A × A')} {s : Except Err (B × B')},
      Two (fun a b => P a.1 b.1) r s → Two P (r.map Prod.fst) (s.map Prod.fst) := by
    intro A B P A' B' r s h
    cases h with
    | ok h => exact .ok h
    | err e => exact .err e
  refine ⟨fin (fst ((rel_pfAliasLoss h𝓕.closed h1 hn h).mono fun _ _ h => h.1)) fun θ =>
      fst ((rel_pfAliasLoss (closed_hom (ev K θ)) (k1 θ) (kn θ) (kb θ)).mono fun _ _ h => h.1),
    fin (fst ((rel_aliasLoss h𝓕.closed h1 hn h).mono fun _ _ h => h.1)) fun θ =>
      fst ((rel_aliasLoss (closed_hom (ev K θ)) (k1 θ) (kn θ) (kb θ)).mono fun _ _ h => h.1),
    fin (fst ((rel_reconstructionLoss h𝓕.closed h1 hn h).mono fun _ _ h => h.1)) fun θ =>
      fst ((rel_reconstructionLoss (closed_hom (ev K θ)) (k1 θ) (kn θ) (kb θ)).mono fun _ _ h => h.1),
    fin (rel_productFilterLoss h𝓕.closed h1 hn h) fun θ =>
      rel_productFilterLoss (closed_hom (ev K θ)) (k1 θ) (kn θ) (kb θ),
    fin (rel_recLoOrthogonalityLoss h𝓕.closed h1 hn h) fun θ =>
      rel_recLoOrthogonalityLoss (closed_hom (ev K θ)) (k1 θ) (kn θ) (kb θ),
    fin (rel_filtBankOrthogonalityLoss h𝓕.closed hn h) fun θ =>
      rel_filtBankOrthogonalityLoss (closed_hom (ev K θ)) (kn θ) (kb θ),
    fin (rel_softWaveletLoss h𝓕.closed h1 hn h) fun θ =>
      rel_softWaveletLoss (closed_hom (ev K θ)) (k1 θ) (kn θ) (kb θ)⟩

/-! ### The classes -/

section classes

theorem c68_class_continuous [TopologicalSpace E] : FunClass fun f : E → ℝ => Continuous f where
  zero := continuous_const
  add := Continuous.add
  mul := Continuous.mul

theorem c68_class_differentiable [NormedAddCommGroup E] [NormedSpace ℝ E] :
    FunClass fun f : E → ℝ => Differentiable ℝ f where
  zero := differentiable_const 0
  add := Differentiable.add
  mul := Differentiable.mul

theorem c68_class_smooth [NormedAddCommGroup E] [NormedSpace ℝ E] (n : WithTop ℕ∞) :
    FunClass fun f : E → ℝ => ContDiff ℝ n f where
  zero := contDiff_const
  add := ContDiff.add
  mul := ContDiff.mul

/-- Differentiability at one parameter value. -/
theorem c68_class_differentiableAt [NormedAddCommGroup E] [NormedSpace ℝ E] (θ : E) :
    FunClass fun f : E → ℝ => DifferentiableAt ℝ f θ where
  zero := differentiableAt_const 0
  add := DifferentiableAt.add
  mul := DifferentiableAt.mul

end classes

/-- A call that succeeds for one value of the parameter succeeds for all of them. -/
theorem c68_success {α : Type} {𝓐 : (E → α) → Prop} {r : E → Except Err α} (h : FamR 𝓐 r) {θ₀ : E} {a₀ : α}
    (h₀ : r θ₀ = .ok a₀) : ∃ a : E → α, 𝓐 a ∧ a θ₀ = a₀ ∧ ∀ θ, r θ = .ok (a θ) := by
  rcases h with ⟨e, h⟩ | ⟨a, h1, h2⟩
  · rw [h θ₀] at h₀; cases h₀
  · refine ⟨a, h1, ?_, h2⟩
    have := h2 θ₀
    rw [h₀] at this
    exact (Except.ok.inj this).symm

/-- … read off one coefficient of one level of `wavedec`: when data and taps are differentiable functions of the
parameter, the coefficient is a differentiable function of the parameter. -/
theorem c68_coefficient [NormedAddCommGroup E] [NormedSpace ℝ E] {x : E → Tensor ℝ} {w : E → Wavelet ℝ}
    (hx : FamT (fun f => Differentiable ℝ f) x) (hw : FamW (fun f => Differentiable ℝ f) w) (mode : Option String)
    (level : Option Int) (axis : AxisHint) {θ₀ : E} {cs₀ : List (Tensor ℝ)}
    (h₀ : wavedec (x θ₀) (w θ₀) mode level axis = .ok cs₀) :
    ∃ cs : E → List (Tensor ℝ), (∀ θ, wavedec (x θ) (w θ) mode level axis = .ok (cs θ)) ∧
      (∀ θ, (cs θ).map Tensor.shape = cs₀.map Tensor.shape) ∧
      ∀ (k : Nat) (i : List Nat), Differentiable ℝ fun θ => (((cs θ)[k]?.map fun c => c.get i).getD 0) := by
  obtain ⟨cs, ⟨fs, h1, h2⟩, rfl, h4⟩ := c68_success (c68_wavedec c68_class_differentiable hx hw mode level axis) h₀
  refine ⟨cs, h4, fun θ => ?_, fun k i => ?_⟩
  · rw [h2 θ, h2 θ₀, List.map_map, List.map_map]
    refine List.map_congr_left fun f hf => ?_
    obtain ⟨md, s, hs, -⟩ := h1 f hf
    exact (hs θ).2.trans (hs θ₀).2.symm
  · simp only [h2, List.getElem?_map]
    cases hk : fs[k]? with
    | none => exact differentiable_const 0
    | some f =>
      obtain ⟨md, s, -, hd⟩ := h1 f (List.mem_of_getElem? hk)
      exact hd i

/-! ### Non-vacuity -/

/-- The orthogonal filter bank with two taps and angle `θ`. -/
noncomputable def angleBank (θ : ℝ) : Wavelet ℝ :=
  ⟨[Real.sin θ, Real.cos θ], [-Real.cos θ, Real.sin θ], [Real.cos θ, Real.sin θ], [Real.sin θ, -Real.cos θ]⟩

theorem angleBank_fam : FamW (fun f => Differentiable ℝ f) angleBank := by
  have hs : Differentiable ℝ Real.sin := Real.differentiable_sin
  have hc : Differentiable ℝ Real.cos := Real.differentiable_cos
  refine ⟨⟨[Real.sin, Real.cos], ?_, fun θ => rfl⟩, ⟨[fun θ => -Real.cos θ, Real.sin], ?_, fun θ => rfl⟩,
    ⟨[Real.cos, Real.sin], ?_, fun θ => rfl⟩, ⟨[Real.sin, fun θ => -Real.cos θ], ?_, fun θ => rfl⟩⟩ <;>
    · intro f hf
      simp only [List.mem_cons, List.not_mem_nil, or_false] at hf
      rcases hf with rfl | rfl
      · first | exact hs | exact hc | exact hc.neg
      · first | exact hs | exact hc | exact hc.neg

/-- A signal of odd length that moves with the parameter. -/
noncomputable def movingSignal (θ : ℝ) : Tensor ℝ := ofFn ⟨.float64, 0⟩ [2, 7] fun i => Real.sin (θ + i.getD 1 0) * θ

theorem movingSignal_fam : FamT (fun f => Differentiable ℝ f) movingSignal := by
  refine ⟨⟨.float64, 0⟩, [2, 7], fun θ => ⟨rfl, rfl⟩, fun i => ?_⟩
  show Differentiable ℝ fun θ => if InB [2, 7] i then Real.sin (θ + i.getD 1 0) * θ else 0
  split_ifs
  · exact (Real.differentiable_sin.comp (differentiable_id.add_const _)).mul differentiable_id
  · exact differentiable_const 0

theorem moving_ok (θ : ℝ) : ∃ cs, wavedec (movingSignal θ) (angleBank θ) (some "zero") (some 2) (.int (-1)) =
    .ok cs := by
  have hg : GoodAxes (.int (-1)) 2 1 := ⟨by decide, rfl, ⟨by
    intro a ha
    have : a = -1 := by simpa [resolve] using ha
    subst this; exact ⟨by decide, by decide⟩, by decide⟩⟩
  obtain ⟨-, h2⟩ := wavedec_char (mode := some "zero") (x := movingSignal θ) (w := angleBank θ)
    (level := some 2) (h := .int (-1)) (by show 2 ≤ 2; decide) rfl
  obtain ⟨cs, e, -⟩ := (h2 hg rfl).2.1 .zero (Or.inl rfl) (fun s hs => by
    show 4 ≤ 2 + levelLen 2 7 s + levelLen 2 7 s % 2
    have : s < 2 := hs
    rcases (by omega : s = 0 ∨ s = 1) with rfl | rfl <;> decide)
  exact ⟨cs, e⟩

example : ∃ cs : ℝ → List (Tensor ℝ),
    (∀ θ, wavedec (movingSignal θ) (angleBank θ) (some "zero") (some 2) (.int (-1)) = .ok (cs θ)) ∧
    ∀ (k : Nat) (i : List Nat), Differentiable ℝ fun θ => (((cs θ)[k]?.map fun c => c.get i).getD 0) := by
  obtain ⟨cs₀, h₀⟩ := moving_ok 0
  obtain ⟨cs, h1, -, h2⟩ := c68_coefficient movingSignal_fam angleBank_fam _ _ _ h₀
  exact ⟨cs, h1, h2⟩

end Verif.Props
