import Verif.Spec.Family
import Verif.Lemmas.RelN
import Mathlib.Algebra.Ring.Pi
import Mathlib.Algebra.Ring.PUnit

/-! Functional relations are graphs; a family of inputs is one input over the ring of functions of the
parameter. -/

namespace Verif.Spec
open Tensor
variable {R S E K : Type}

section graph

theorem Two.map_iff {α β : Type} {f : α → β} {r : Except Err α} {s : Except Err β} :
    Two (fun a b => b = f a) r s ↔ s = r.map f := by
  constructor
  · intro h
    cases h with
    | ok h => rw [h]; rfl
    | err e => rfl
  · rintro rfl
    cases r with
    | ok a => exact .ok rfl
    | error e => exact .err e

theorem Two.mono {α β : Type} {P Q : α → β → Prop} {r : Except Err α} {s : Except Err β} (h : Two P r s)
    (hPQ : ∀ a b, P a b → Q a b) : Two Q r s := by
  cases h with
  | ok h => exact .ok (hPQ _ _ h)
  | err e => exact .err e

theorem forall₂_graph {α β : Type} {f : α → β} {l : List α} {m : List β} :
    List.Forall₂ (fun a b => b = f a) l m ↔ m = l.map f := by
  constructor
  · intro h
    induction h with
    | nil => rfl
    | cons h _ ih => rw [h, ih]; rfl
  · rintro rfl
    induction l with
    | nil => exact .nil
    | cons a l ih => exact .cons rfl ih

variable [Zero R] [Zero S]

theorem trel_graph {φ : ZeroHom R S} {x : Tensor R} {y : Tensor S} :
    TRel (fun a b => b = φ a) x y ↔ y = mapT φ x := by
  constructor
  · intro h
    exact Tensor.ext' h.md h.shape fun i _ => h.get i
  · rintro rfl
    exact ⟨rfl, rfl, fun _ => rfl⟩

theorem wrel_graph {φ : R → S} {w : Wavelet R} {v : Wavelet S} :
    WRel (fun a b => b = φ a) w v ↔ v = mapW φ w := by
  constructor
  · rintro ⟨h1, h2, h3, h4⟩
    obtain ⟨a, b, c, d⟩ := v
    simp only [forall₂_graph] at h1 h2 h3 h4
    subst h1 h2 h3 h4
    rfl
  · rintro rfl
    exact ⟨forall₂_graph.2 rfl, forall₂_graph.2 rfl, forall₂_graph.2 rfl, forall₂_graph.2 rfl⟩

theorem entry2_graph {φ : Tensor R → Tensor S} {e : Entry R} {e' : Entry S} :
    Entry2 (fun a b => b = φ a) e e' ↔ e' = mapE φ e := by
  constructor
  · intro h
    cases h with
    | tensor h => rw [h]; rfl
    | tuple h1 h2 h3 => rw [h1, h2, h3]; rfl
    | other => rfl
    | dict h =>
      refine congrArg Entry.dict (forall₂_graph.1 (h.imp fun a b h => ?_))
      exact Prod.ext h.1 h.2
  · rintro rfl
    cases e with
    | tensor x => exact .tensor rfl
    | tuple a b c => exact .tuple rfl rfl rfl
    | other => exact .other
    | dict kv =>
      refine .dict ((forall₂_graph.2 rfl).imp fun a b h => ?_)
      subst h
      exact ⟨rfl, rfl⟩

theorem Entry2.mono {A B : Tensor R → Tensor S → Prop} {e : Entry R} {e' : Entry S} (h : Entry2 A e e')
    (hAB : ∀ x y, A x y → B x y) : Entry2 B e e' := by
  cases h with
  | tensor h => exact .tensor (hAB _ _ h)
  | tuple h1 h2 h3 => exact .tuple (hAB _ _ h1) (hAB _ _ h2) (hAB _ _ h3)
  | other => exact .other
  | dict h => exact .dict (h.imp fun a b h => ⟨h.1, hAB _ _ h.2⟩)

theorem coeffs2_graph {φ : Tensor R → Tensor S} {c : Coeffs R} {d : Coeffs S} :
    Coeffs2 (fun a b => b = φ a) c d ↔ d = mapC φ c := by
  constructor
  · rintro ⟨h1, h2⟩
    obtain ⟨k, it⟩ := d
    simp only at h1 h2
    subst h1
    exact congrArg _ (forall₂_graph.1 (h2.imp fun a b h => entry2_graph.1 h))
  · rintro rfl
    exact ⟨rfl, (forall₂_graph.2 rfl).imp fun a b h => entry2_graph.2 h⟩

theorem coeffs2_trel_graph {φ : ZeroHom R S} {c : Coeffs R} {d : Coeffs S} :
    Coeffs2 (TRel fun a b => b = φ a) c d ↔ d = mapC (mapT φ) c := by
  rw [← coeffs2_graph]
  exact ⟨fun h => ⟨h.kind, h.items.imp fun a b h => h.mono fun _ _ => trel_graph.1⟩,
    fun h => ⟨h.kind, h.items.imp fun a b h => h.mono fun _ _ => trel_graph.2⟩⟩

theorem list_trel_graph {φ : ZeroHom R S} {l : List (Tensor R)} {m : List (Tensor S)} :
    List.Forall₂ (TRel fun a b => b = φ a) l m ↔ m = l.map (mapT φ) := by
  rw [← forall₂_graph]
  exact ⟨fun h => h.imp fun a b => trel_graph.1, fun h => h.imp fun a b => trel_graph.2⟩

end graph

theorem closed_hom [NonUnitalNonAssocSemiring R] [NonUnitalNonAssocSemiring S] (φ : R →ₙ+* S) :
    Closed fun a b => b = φ.toZeroHom a where
  zero := (map_zero φ).symm
  add := by rintro _ _ _ _ rfl rfl; exact (map_add φ _ _).symm
  mul := by rintro _ _ _ _ rfl rfl; exact (map_mul φ _ _).symm

/-! ### families -/

/-- Evaluation at a parameter. -/
def ev (K : Type) {E : Type} [NonUnitalNonAssocSemiring K] (θ : E) : (E → K) →ₙ+* K where
  toFun f := f θ
  map_zero' := rfl
  map_add' _ _ := rfl
  map_mul' _ _ := rfl

/-- Membership in a class, as a relation with the trivial ring. -/
def U (𝓕 : (E → K) → Prop) (f : E → K) (_ : PUnit.{1}) : Prop := 𝓕 f

theorem FunClass.closed [NonUnitalNonAssocSemiring K] {𝓕 : (E → K) → Prop} (h : FunClass 𝓕) : Closed (U 𝓕) where
  zero := h.zero
  add := h.add
  mul := h.mul

section fam
variable [NonUnitalNonAssocSemiring K] {𝓕 : (E → K) → Prop}

theorem FamT.lift {x : E → Tensor K} (h : FamT 𝓕 x) :
    ∃ (X : Tensor (E → K)) (Y : Tensor PUnit.{1}), TRel (U 𝓕) X Y ∧ x = fun θ => mapT (ev K θ).toZeroHom X := by
  obtain ⟨md, s, h1, h2⟩ := h
  refine ⟨⟨md, s, fun i θ => (x θ).get i, fun i hi => funext fun θ => (x θ).supp i ((h1 θ).2 ▸ hi)⟩,
    ⟨md, s, fun _ => 0, fun _ _ => rfl⟩, ⟨rfl, rfl, h2⟩, funext fun θ => ?_⟩
  exact Tensor.ext' (h1 θ).1 (h1 θ).2 fun _ _ => rfl

theorem famT_map {X : Tensor (E → K)} {Y : Tensor PUnit.{1}} (h : TRel (U 𝓕) X Y) :
    FamT 𝓕 fun θ => mapT (ev K θ).toZeroHom X :=
  ⟨X.md, X.shape, fun _ => ⟨rfl, rfl⟩, h.get⟩

theorem forall₂_punit {l : List (E → K)} (h : ∀ f ∈ l, 𝓕 f) :
    List.Forall₂ (U 𝓕) l (l.map fun _ => PUnit.unit) := by
  induction l with
  | nil => exact .nil
  | cons a l ih =>
    exact .cons (h a List.mem_cons_self) (ih fun f hf => h f (List.mem_cons_of_mem _ hf))

theorem FamW.lift {w : E → Wavelet K} (h : FamW 𝓕 w) :
    ∃ (W : Wavelet (E → K)) (V : Wavelet PUnit.{1}), WRel (U 𝓕) W V ∧ w = fun θ => mapW (ev K θ) W := by
  obtain ⟨⟨a, a1, a2⟩, ⟨b, b1, b2⟩, ⟨c, c1, c2⟩, ⟨d, d1, d2⟩⟩ := h
  refine ⟨⟨a, b, c, d⟩, ⟨_, _, _, _⟩, ⟨forall₂_punit a1, forall₂_punit b1, forall₂_punit c1, forall₂_punit d1⟩,
    funext fun θ => ?_⟩
  have ha : (w θ).decLo = _ := a2 θ
  have hb : (w θ).decHi = _ := b2 θ
  have hc : (w θ).recLo = _ := c2 θ
  have hd : (w θ).recHi = _ := d2 θ
  revert ha hb hc hd
  generalize w θ = v
  obtain ⟨p, q, r, s⟩ := v
  rintro rfl rfl rfl rfl
  rfl

theorem FamList.lift {α β γ : Type} {𝓐 : (E → α) → Prop} {P : β → γ → Prop} {f : E → β → α}
    (hA : ∀ a, 𝓐 a → ∃ X Y, P X Y ∧ a = fun θ => f θ X) {l : E → List α} (h : FamList 𝓐 l) :
    ∃ X Y, List.Forall₂ P X Y ∧ l = fun θ => X.map (f θ) := by
  obtain ⟨fs, h1, h2⟩ := h
  have e : l = fun θ => fs.map fun f => f θ := funext h2
  subst e
  clear h2
  induction fs with
  | nil => exact ⟨[], [], .nil, rfl⟩
  | cons a fs ih =>
    obtain ⟨X, Y, h3, h4⟩ := ih fun f hf => h1 f (List.mem_cons_of_mem _ hf)
    obtain ⟨x, y, h5, h6⟩ := hA a (h1 a List.mem_cons_self)
    refine ⟨x :: X, y :: Y, .cons h5 h3, funext fun θ => ?_⟩
    have h4 := congrFun h4 θ
    simp only [List.map_cons, h4, h6]

theorem famList_map {α β γ : Type} {𝓐 : (E → α) → Prop} {P : β → γ → Prop} {f : E → β → α}
    (hA : ∀ X Y, P X Y → 𝓐 fun θ => f θ X) {X : List β} {Y : List γ} (h : List.Forall₂ P X Y) :
    FamList 𝓐 fun θ => X.map (f θ) := by
  refine ⟨X.map fun x θ => f θ x, fun g hg => ?_, fun θ => by rw [List.map_map]; rfl⟩
  obtain ⟨x, hx, rfl⟩ := List.mem_map.1 hg
  clear hg
  induction h with
  | nil => cases hx
  | cons h1 _ ih =>
    rcases List.mem_cons.1 hx with rfl | hx
    · exact hA _ _ h1
    · exact ih hx

theorem famE_lift {e : E → Entry K} (h : FamE (FamT 𝓕) e) :
    ∃ (X : Entry (E → K)) (Y : Entry PUnit.{1}), Entry2 (TRel (U 𝓕)) X Y ∧
      e = fun θ => mapE (mapT (ev K θ).toZeroHom) X := by
  cases h with
  | tensor h =>
    obtain ⟨X, Y, h1, rfl⟩ := h.lift
    exact ⟨_, _, .tensor h1, rfl⟩
  | tuple ha hb hc =>
    obtain ⟨_, _, h1, rfl⟩ := ha.lift
    obtain ⟨_, _, h2, rfl⟩ := hb.lift
    obtain ⟨_, _, h3, rfl⟩ := hc.lift
    exact ⟨_, _, .tuple h1 h2 h3, rfl⟩
  | other => exact ⟨_, _, .other, rfl⟩
  | @dict kv h =>
    have key : ∃ (X : List (String × Tensor (E → K))) (Y : List (String × Tensor PUnit.{1})),
        List.Forall₂ (fun e e' => e'.1 = e.1 ∧ TRel (U 𝓕) e.2 e'.2) X Y ∧
        ∀ θ, (kv.map fun p => (p.1, p.2 θ)) = X.map fun p => (p.1, mapT (ev K θ).toZeroHom p.2) := by
      induction kv with
      | nil => exact ⟨[], [], .nil, fun _ => rfl⟩
      | cons p kv ih =>
        obtain ⟨X, Y, h3, h4⟩ := ih fun f hf => h f (List.mem_cons_of_mem _ hf)
        obtain ⟨x, y, h5, h6⟩ := (h p List.mem_cons_self).lift
        refine ⟨(p.1, x) :: X, (p.1, y) :: Y, .cons ⟨rfl, h5⟩ h3, fun θ => ?_⟩
        simp only [List.map_cons, h4 θ, h6]
    obtain ⟨X, Y, h1, h2⟩ := key
    exact ⟨.dict X, .dict Y, .dict h1, funext fun θ => congrArg _ (h2 θ)⟩

theorem famE_map {X : Entry (E → K)} {Y : Entry PUnit.{1}} (h : Entry2 (TRel (U 𝓕)) X Y) :
    FamE (FamT 𝓕) fun θ => mapE (mapT (ev K θ).toZeroHom) X := by
  cases h with
  | tensor h => exact .tensor (famT_map h)
  | tuple h1 h2 h3 => exact .tuple (famT_map h1) (famT_map h2) (famT_map h3)
  | other => exact .other
  | @dict kv kv' h =>
    have key : ∀ p ∈ kv.map (fun p => (p.1, fun θ => mapT (ev K θ).toZeroHom p.2)), FamT 𝓕 p.2 := by
      intro q hq
      obtain ⟨p, hp, rfl⟩ := List.mem_map.1 hq
      clear hq
      induction h with
      | nil => cases hp
      | cons h1 _ ih =>
        rcases List.mem_cons.1 hp with rfl | hp
        · exact famT_map h1.2
        · exact ih hp
    have := FamE.dict key
    rw [show (fun θ => mapE (mapT (ev K θ).toZeroHom) (.dict kv)) = fun θ => Entry.dict
      ((kv.map (fun p => (p.1, fun θ => mapT (ev K θ).toZeroHom p.2))).map fun p => (p.1, p.2 θ)) from
      funext fun θ => by rw [List.map_map]; rfl]
    exact this

theorem FamC.lift {c : E → Coeffs K} (h : FamC (FamT 𝓕) c) :
    ∃ (X : Coeffs (E → K)) (Y : Coeffs PUnit.{1}), Coeffs2 (TRel (U 𝓕)) X Y ∧
      c = fun θ => mapC (mapT (ev K θ).toZeroHom) X := by
  obtain ⟨⟨b, hb⟩, h⟩ := h
  obtain ⟨X, Y, h1, h2⟩ := h.lift (P := Entry2 (TRel (U 𝓕)))
    (f := fun θ => mapE (mapT (ev K θ).toZeroHom)) (fun a ha => famE_lift ha)
  refine ⟨⟨b, X⟩, ⟨b, Y⟩, ⟨rfl, h1⟩, funext fun θ => ?_⟩
  have h3 := congrFun h2 θ
  have h4 := hb θ
  revert h3 h4
  simp only
  generalize c θ = d
  obtain ⟨k, it⟩ := d
  rintro rfl rfl
  rfl

theorem famC_map {X : Coeffs (E → K)} {Y : Coeffs PUnit.{1}} (h : Coeffs2 (TRel (U 𝓕)) X Y) :
    FamC (FamT 𝓕) fun θ => mapC (mapT (ev K θ).toZeroHom) X :=
  ⟨⟨X.isList, fun _ => rfl⟩, famList_map (fun _ _ h => famE_map h) h.items⟩

theorem famR_of {α β γ : Type} {𝓐 : (E → α) → Prop} {P : β → γ → Prop} {f : E → β → α}
    (hA : ∀ X Y, P X Y → 𝓐 fun θ => f θ X) {r : Except Err β} {s : Except Err γ} (h : Two P r s) :
    FamR 𝓐 fun θ => r.map (f θ) := by
  cases h with
  | err e => exact .inl ⟨e, fun _ => rfl⟩
  | ok h => exact .inr ⟨_, hA _ _ h, fun _ => rfl⟩

theorem FamR.congr {α : Type} {𝓐 : (E → α) → Prop} {r s : E → Except Err α} (h : FamR 𝓐 r) (e : ∀ θ, s θ = r θ) :
    FamR 𝓐 s := by
  rw [show s = r from funext e]
  exact h

end fam

end Verif.Spec
