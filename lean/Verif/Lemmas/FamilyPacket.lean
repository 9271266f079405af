import Verif.Spec.FamilyPacket
import Verif.Lemmas.Family
import Verif.Lemmas.RelPacket
import Verif.Lemmas.RelLoss

/-! Graphs and families of operations, outcomes and filters. -/

namespace Verif.Spec
open Tensor Backend
variable {T T' R S E K : Type}

theorem op2_graph {φ : T → T'} {o : Op T} {o' : Op T'} : Op2 (fun a b => b = φ a) o o' ↔ o' = mapOp φ o := by
  constructor
  · intro h
    cases h with
    | read k => rfl
    | init ks => rfl
    | set k h => rw [h]; rfl
    | transform L h => rw [h]; rfl
    | reconstruct => rfl
  · rintro rfl
    cases o with
    | read k => exact .read k
    | init ks => exact .init ks
    | set k t => exact .set k rfl
    | transform x L => exact .transform L rfl
    | reconstruct => exact .reconstruct

theorem out2_graph {φ : T → T'} {o : Out T} {o' : Out T'} : Out2 (fun a b => b = φ a) o o' ↔ o' = mapOut φ o := by
  constructor
  · intro h
    cases h with
    | value h => rw [h]; rfl
    | done => rfl
    | raised e => rfl
  · rintro rfl
    cases o with
    | value t => exact .value rfl
    | done => exact .done
    | raised e => exact .raised e

theorem Op2.mono {A B : T → T' → Prop} {o : Op T} {o' : Op T'} (h : Op2 A o o') (hAB : ∀ a b, A a b → B a b) :
    Op2 B o o' := by
  cases h with
  | read k => exact .read k
  | init ks => exact .init ks
  | set k h => exact .set k (hAB _ _ h)
  | transform L h => exact .transform L (hAB _ _ h)
  | reconstruct => exact .reconstruct

theorem Out2.mono {A B : T → T' → Prop} {o : Out T} {o' : Out T'} (h : Out2 A o o') (hAB : ∀ a b, A a b → B a b) :
    Out2 B o o' := by
  cases h with
  | value h => exact .value (hAB _ _ h)
  | done => exact .done
  | raised e => exact .raised e

theorem ops_graph [Zero R] [Zero S] {φ : ZeroHom R S} {l : List (Op (Tensor R))} {m : List (Op (Tensor S))} :
    List.Forall₂ (Op2 (TRel fun a b => b = φ a)) l m ↔ m = l.map (mapOp (mapT φ)) := by
  rw [← forall₂_graph]
  exact ⟨fun h => h.imp fun a b h => op2_graph.1 (h.mono fun _ _ => trel_graph.1),
    fun h => h.imp fun a b h => (op2_graph.2 h).mono fun _ _ => trel_graph.2⟩

theorem outs_graph [Zero R] [Zero S] {φ : ZeroHom R S} {l : List (Out (Tensor R))} {m : List (Out (Tensor S))} :
    List.Forall₂ (Out2 (TRel fun a b => b = φ a)) l m ↔ m = l.map (mapOut (mapT φ)) := by
  rw [← forall₂_graph]
  exact ⟨fun h => h.imp fun a b h => out2_graph.1 (h.mono fun _ _ => trel_graph.1),
    fun h => h.imp fun a b h => (out2_graph.2 h).mono fun _ _ => trel_graph.2⟩

theorem pkt2_empty {C C' : Type} {A : T → T' → Prop} {Q : C → C' → Prop} {c : C} {c' : C'} (h : Q c c') :
    Pkt2 A Q (Backend.empty c) (Backend.empty c') := ⟨fun _ => .none, rfl, h⟩

section fam
variable [NonUnitalNonAssocSemiring K] {𝓕 : (E → K) → Prop}

theorem famOp_lift {o : E → Op (Tensor K)} (h : FamOp (FamT 𝓕) o) :
    ∃ (X : Op (Tensor (E → K))) (Y : Op (Tensor PUnit.{1})), Op2 (TRel (U 𝓕)) X Y ∧
      o = fun θ => mapOp (mapT (ev K θ).toZeroHom) X := by
  cases h with
  | read k => exact ⟨_, _, .read k, rfl⟩
  | init ks => exact ⟨_, _, .init ks, rfl⟩
  | set k h =>
    obtain ⟨X, Y, h1, rfl⟩ := h.lift
    exact ⟨_, _, .set k h1, rfl⟩
  | transform L h =>
    obtain ⟨X, Y, h1, rfl⟩ := h.lift
    exact ⟨_, _, .transform L h1, rfl⟩
  | reconstruct => exact ⟨_, _, .reconstruct, rfl⟩

theorem famOut_map {X : Out (Tensor (E → K))} {Y : Out (Tensor PUnit.{1})} (h : Out2 (TRel (U 𝓕)) X Y) :
    FamOut (FamT 𝓕) fun θ => mapOut (mapT (ev K θ).toZeroHom) X := by
  cases h with
  | value h => exact .value (famT_map h)
  | done => exact .done
  | raised e => exact .raised e

end fam

section loss
variable [Ring R] [Ring S]

theorem brel_graph {φ : ZeroHom R S} {b : FilterTensors R} {c : FilterTensors S} :
    BRel (fun a b => b = φ a) b c ↔ c = mapB (mapT φ) b := by
  constructor
  · rintro ⟨h1, h2, h3, h4⟩
    obtain ⟨p, q, r, s⟩ := c
    simp only [trel_graph] at h1 h2 h3 h4
    subst h1 h2 h3 h4
    rfl
  · rintro rfl
    exact ⟨trel_graph.2 rfl, trel_graph.2 rfl, trel_graph.2 rfl, trel_graph.2 rfl⟩

theorem famB_lift [Ring K] {𝓕 : (E → K) → Prop} {b : E → FilterTensors K} (h : FamB (FamT 𝓕) b) :
    ∃ (X : FilterTensors (E → K)) (Y : FilterTensors PUnit.{1}), BRel (U 𝓕) X Y ∧
      b = fun θ => mapB (mapT (ev K θ).toZeroHom) X := by
  obtain ⟨h1, h2, h3, h4⟩ := h
  obtain ⟨a, a', ha, ha2⟩ := h1.lift
  obtain ⟨c, c', hc, hc2⟩ := h2.lift
  obtain ⟨d, d', hd, hd2⟩ := h3.lift
  obtain ⟨f, f', hf, hf2⟩ := h4.lift
  refine ⟨⟨a, c, d, f⟩, ⟨a', c', d', f'⟩, ⟨ha, hc, hd, hf⟩, funext fun θ => ?_⟩
  have e1 : (b θ).decLo = _ := congrFun ha2 θ
  have e2 : (b θ).decHi = _ := congrFun hc2 θ
  have e3 : (b θ).recLo = _ := congrFun hd2 θ
  have e4 : (b θ).recHi = _ := congrFun hf2 θ
  revert e1 e2 e3 e4
  generalize b θ = v
  obtain ⟨p, q, r, s⟩ := v
  rintro rfl rfl rfl rfl
  rfl

end loss

end Verif.Spec
