import Verif.Lemmas.RelN
import Verif.Model.Losses

/-! The wavelet losses respect relations between two coefficient rings. -/

namespace Verif.Spec
open Tensor
variable {R S : Type} [Ring R] [Ring S] {P : R → S → Prop} {x : Tensor R} {y : Tensor S}

/-- Filter tensors of the same shapes whose taps are related. -/
structure BRel (P : R → S → Prop) (b : FilterTensors R) (c : FilterTensors S) : Prop where
  decLo : TRel P b.decLo c.decLo
  decHi : TRel P b.decHi c.decHi
  recLo : TRel P b.recLo c.recLo
  recHi : TRel P b.recHi c.recHi

theorem TRel.broadcast2 (h0 : P 0 0) {f : R → R → R} {g : S → S → S}
    (hf : ∀ {a b c d}, P a b → P c d → P (f a c) (g b d)) {x' : Tensor R} {y' : Tensor S}
    (h : TRel P x y) (h' : TRel P x' y') : Two (TRel P) (broadcast2 f x x') (broadcast2 g y y') := by
  unfold Verif.broadcast2
  rw [h.shape, h'.shape, h.md, h'.md]
  exact Two.ite _ (.ok (TRel.ofFn h0 _ _ fun i => hf (h.get _) (h'.get _))) (.err _)

theorem TRel.sumSq (hc : Closed P) (h : TRel P x y) : P (sumSq x) (sumSq y) := by
  unfold Verif.sumSq
  rw [h.shape]
  exact hc.boxSum _ fun i => hc.mul (h.get _) (h.get _)

section
variable (hc : Closed P) (h1 : P 1 1) (hn : ∀ {a b}, P a b → P (-a) (-b))
include hc h1 hn

omit h1 in
theorem closed_sub {a b c d} (h : P a b) (h' : P c d) : P (a - c) (b - d) := by
  rw [sub_eq_add_neg, sub_eq_add_neg]; exact hc.add h (hn h')

theorem closed_signPow (k : Nat) : P ((-1) ^ k) ((-1) ^ k) := by
  induction k with
  | zero => simpa using h1
  | succ k ih => rw [pow_succ, pow_succ]; exact hc.mul ih (hn h1)

theorem rel_signMask (md : Meta) (n : Nat) : TRel P (signMask md n) (signMask md n) :=
  TRel.ofFn hc.zero _ _ fun _ => closed_signPow hc h1 hn _

omit h1 hn in
theorem rel_polyMul {x' : Tensor R} {y' : Tensor S} (h : TRel P x y) (h' : TRel P x' y') (p : Nat) :
    Two (TRel P) (polyMul x x' p) (polyMul y y' p) := by
  unfold polyMul
  exact Two.bind (((h.unsqueeze0 hc.zero).unsqueeze0 hc.zero).padAxis hc _ _ _ _) fun _ _ h =>
    h.conv1d hc (((h'.flip hc.zero _).unsqueeze0 hc.zero).unsqueeze0 hc.zero) _ _

/-- Results of a loss: the number and the two tensors are related. -/
def LRel (P : R → S → Prop) (a : R × Tensor R × Tensor R) (b : S × Tensor S × Tensor S) : Prop :=
  P a.1 b.1 ∧ TRel P a.2.1 b.2.1 ∧ TRel P a.2.2 b.2.2

theorem rel_pfAliasLoss {b : FilterTensors R} {c : FilterTensors S} (h : BRel P b c) :
    Two (LRel P) (pfAliasLoss b) (pfAliasLoss c) := by
  unfold pfAliasLoss
  simp only [h.decLo.md, h.decLo.shape]
  have hs := rel_signMask hc h1 hn b.decLo.md (b.decLo.shape.getD 0 0)
  refine Two.bind (hs.broadcast2 hc.zero hc.mul h.decHi) fun _ _ hp => ?_
  refine Two.bind (h.recLo.broadcast2 hc.zero (closed_sub hc hn) hp) fun _ _ e1 => ?_
  refine Two.bind (hs.broadcast2 hc.zero (fun ha hb => hc.mul (hc.mul (hn h1) ha) hb) h.decLo) fun _ _ hq => ?_
  refine Two.bind (h.recHi.broadcast2 hc.zero (closed_sub hc hn) hq) fun _ _ e2 => ?_
  exact .ok ⟨hc.add (e1.sumSq hc) (e2.sumSq hc), e1, e2⟩

theorem rel_aliasLoss {b : FilterTensors R} {c : FilterTensors S} (h : BRel P b c) :
    Two (LRel P) (aliasLoss b) (aliasLoss c) := by
  unfold aliasLoss
  simp only [h.decLo.md, h.decLo.shape, h.decHi.shape]
  have hs := rel_signMask hc h1 hn b.decLo.md (b.decLo.shape.getD 0 0)
  refine Two.bind (h.decLo.broadcast2 hc.zero hc.mul hs) fun _ _ hl => ?_
  refine Two.bind (rel_polyMul hc hl h.recLo _) fun _ _ hpl => ?_
  refine Two.bind (h.decHi.broadcast2 hc.zero hc.mul hs) fun _ _ hh => ?_
  refine Two.bind (rel_polyMul hc hh h.recHi _) fun _ _ hph => ?_
  refine Two.bind (hpl.broadcast2 hc.zero hc.add hph) fun p q hp => ?_
  simp only [hp.md, hp.shape]
  have hz : TRel P (ofFn p.md p.shape fun _ => (0 : R)) (ofFn p.md p.shape fun _ => (0 : S)) :=
    TRel.ofFn hc.zero _ _ fun _ => hc.zero
  refine Two.bind (hp.broadcast2 hc.zero (closed_sub hc hn) hz) fun _ _ he => ?_
  exact .ok ⟨he.sumSq hc, hp, hz⟩

theorem rel_reconstructionLoss {b : FilterTensors R} {c : FilterTensors S} (h : BRel P b c) :
    Two (LRel P) (reconstructionLoss b) (reconstructionLoss c) := by
  unfold reconstructionLoss
  simp only [h.decLo.shape, h.decHi.shape]
  refine Two.bind (rel_polyMul hc h.decLo h.recLo _) fun _ _ hpl => ?_
  refine Two.bind (rel_polyMul hc h.decHi h.recHi _) fun _ _ hph => ?_
  refine Two.bind (hpl.broadcast2 hc.zero hc.add hph) fun p q hp => ?_
  simp only [hp.md, hp.shape]
  have h2 : P 2 2 := by rw [← one_add_one_eq_two, ← one_add_one_eq_two]; exact hc.add h1 h1
  have hz : TRel P (ofFn p.md p.shape fun i => if i.getD 2 0 = p.shape.getD 2 0 / 2 then (2 : R) else 0)
      (ofFn p.md p.shape fun i => if i.getD 2 0 = p.shape.getD 2 0 / 2 then (2 : S) else 0) :=
    TRel.ofFn hc.zero _ _ fun _ => hc.ite _ h2
  refine Two.bind (hp.broadcast2 hc.zero (closed_sub hc hn) hz) fun _ _ he => ?_
  exact .ok ⟨he.sumSq hc, hp, hz⟩

theorem rel_productFilterLoss {b : FilterTensors R} {c : FilterTensors S} (h : BRel P b c) :
    Two P (productFilterLoss b) (productFilterLoss c) := by
  unfold productFilterLoss
  refine Two.bind (rel_reconstructionLoss hc h1 hn h) fun _ _ ha => ?_
  exact Two.bind (rel_aliasLoss hc h1 hn h) fun _ _ hb => .ok (hc.add ha.1 hb.1)

theorem rel_recLoOrthogonalityLoss {b : FilterTensors R} {c : FilterTensors S} (h : BRel P b c) :
    Two P (recLoOrthogonalityLoss b) (recLoOrthogonalityLoss c) := by
  unfold recLoOrthogonalityLoss
  simp only [h.decLo.md, h.decLo.shape]
  refine Two.bind (TRel.conv1d hc (((TRel.ofFn hc.zero _ _ fun i => h.decLo.get i).unsqueeze0 hc.zero).unsqueeze0
    hc.zero) ((h.decLo.unsqueeze0 hc.zero).unsqueeze0 hc.zero) _ _) fun p q hp => ?_
  simp only [hp.md, hp.shape]
  refine Two.bind (hp.broadcast2 hc.zero (closed_sub hc hn)
    (TRel.ofFn hc.zero _ _ fun i => hc.ite _ h1)) fun _ _ he => ?_
  exact .ok (he.sumSq hc)

omit h1 in
theorem rel_filtBankOrthogonalityLoss {b : FilterTensors R} {c : FilterTensors S} (h : BRel P b c) :
    Two P (filtBankOrthogonalityLoss b) (filtBankOrthogonalityLoss c) := by
  unfold filtBankOrthogonalityLoss
  refine Two.bind (h.decLo.broadcast2 hc.zero (closed_sub hc hn) (h.recLo.flip hc.zero 0)) fun _ _ e0 => ?_
  refine Two.bind (h.decHi.broadcast2 hc.zero (closed_sub hc hn) (h.recHi.flip hc.zero 0)) fun _ _ e1 => ?_
  exact .ok (hc.add (e0.sumSq hc) (e1.sumSq hc))

theorem rel_softWaveletLoss {b : FilterTensors R} {c : FilterTensors S} (h : BRel P b c) :
    Two P (softWaveletLoss b) (softWaveletLoss c) := by
  unfold softWaveletLoss
  refine Two.bind (rel_productFilterLoss hc h1 hn h) fun _ _ ha => ?_
  exact Two.bind (rel_filtBankOrthogonalityLoss hc hn h) fun _ _ hb => .ok (hc.add ha hb)

end

end Verif.Spec
