import Verif.Lemmas.LinN
import Verif.Model.MatN

/-! The calls of the matrix objects are linear in their data argument, and the state of the object after
the call does not depend on the values. -/

namespace Verif.Spec
open Tensor
variable {R : Type}

section prim
variable [CommSemiring R] {c : R} {x y z : Tensor R}

theorem Lin.matT (h : Lin c x y z) : Lin c x.matT y.matT z.matT := h.transpose 0 1

theorem Lin.fwtPadWith (h : Lin c x y z) (mode : Option String) (ps : List Nat) :
    Three (Lin c) (fwtPadWith x mode ps) (fwtPadWith y mode ps) (fwtPadWith z mode ps) := by
  unfold Verif.fwtPadWith
  refine Three.bind Three.pure_eq ?_
  rintro m _ _ ⟨hm1, hm2⟩
  rw [hm1, hm2]
  cases m with
  | symmetric =>
    simp only
    unfold padSymmetric
    rw [h.rank.1, h.rank.2]
    exact Three.ite _ (.err _) (Lin.padSymmetricLoop _ _ h)
  | torch pm => exact Lin.padLast pm _ _ h

theorem Lin.reshapeInfer (h : Lin c x y z) (a b : List Nat) :
    Three (Lin c) (x.reshapeInfer a b) (y.reshapeInfer a b) (z.reshapeInfer a b) := by
  unfold Tensor.reshapeInfer
  rw [h.shape₁, h.shape₂]
  exact Three.ite _ (.err _) (Three.ite _ (h.reshape _) (.err _))

theorem Lin.mmDense (h : Lin c x y z) (A : Coo R) :
    Three (Lin c) (A.mmDense x) (A.mmDense y) (A.mmDense z) := by
  refine h.elim (motive := fun x y z => Three (Lin c) (A.mmDense x) (A.mmDense y) (A.mmDense z)) ?_
  intro md s f g k _ _ _ e
  unfold Coo.mmDense
  simp only
  split
  · refine Three.ite _ (.ok (Lin.ofFn _ _ fun i => ?_)) (.err _)
    exact lin_sum _ _ _ _ _ fun j => e _
  · exact .err _

theorem Lin.batchMm (h : Lin c x y z) (A : Coo R) :
    Three (Lin c) (batchMm A x) (batchMm A y) (batchMm A z) := by
  unfold Verif.batchMm
  rw [h.rank.1, h.rank.2, h.shape₁, h.shape₂]
  dsimp only
  refine Three.ite _ (.err _) (Three.ite _ (.err _) ?_)
  exact Three.bind ((h.transpose 0 1).reshapeInfer _ _) fun _ _ _ h => Three.bind (h.mmDense A) fun _ _ _ h =>
    Three.bind (h.reshapeInfer _ _) fun _ _ _ h => .ok (h.transpose 1 0)

theorem Lin.batchDimMm (h : Lin c x y z) (A : Coo R) (dim : Int) :
    Three (Lin c) (batchDimMm A x dim) (batchDimMm A y dim) (batchDimMm A z dim) := by
  unfold Verif.batchDimMm
  rw [h.rank.1, h.rank.2, h.shape₁, h.shape₂]
  refine Three.bind Three.pure_eq ?_
  rintro d _ _ ⟨hd1, hd2⟩
  rw [hd1, hd2]
  have hp := h.transpose d (x.rank - 1)
  simp only
  refine Three.bind (hp.reshapeInfer _ _) fun _ _ _ h => Three.bind (h.matT.mmDense A) fun _ _ _ h => ?_
  rw [hp.shape₁, hp.shape₂]
  exact Three.bind (h.matT.reshape _) fun _ _ _ h => .ok (h.transpose _ _)

theorem Lin.splitTwo (h : Lin c x y z) (a size : Nat) :
    Three (fun u v t => Lin c u.1 v.1 t.1 ∧ Lin c u.2 v.2 t.2)
      (splitTwo x a size) (splitTwo y a size) (splitTwo z a size) := by
  unfold Verif.splitTwo
  simp only
  rw [h.shape₁, h.shape₂]
  exact Three.ite _ (.err _) (Three.ite _ (.ok ⟨h.slice _ _ _, h.slice _ _ _⟩) (.err _))

theorem Lin.dim (h : Lin c x y z) (k : Nat) :
    y.shape.getD k 0 = x.shape.getD k 0 ∧ z.shape.getD k 0 = x.shape.getD k 0 := by
  rw [h.shape₁, h.shape₂]; exact ⟨rfl, rfl⟩

end prim

section mat1
variable [CommSemiring R] {c : R} {x y z : Tensor R}

theorem Lin.decPad (h : Lin c x y z) (mode : Option String) (p : Bool) :
    Three (Lin c) (decPad mode p x) (decPad mode p y) (decPad mode p z) := by
  unfold Verif.decPad
  refine Three.ite _ ?_ (.ok h)
  exact Three.bind h.matT.unsqueeze1 fun _ _ _ h => Three.bind (h.fwtPadWith _ _) fun _ _ _ h =>
    .ok h.squeeze1.matT

theorem lin_matDecLoop (mode : Option String) :
    ∀ (ms : List (Coo R)) (ps : List Bool) {x y z : Tensor R}, Lin c x y z →
    Three (fun u v t => Lin c u.1 v.1 t.1 ∧ Forall₃ (Lin c) u.2 v.2 t.2)
      (matDecLoop mode ms ps x) (matDecLoop mode ms ps y) (matDecLoop mode ms ps z)
  | [], _, _, _, _, h => .ok ⟨h, .nil⟩
  | _ :: _, [], _, _, _, _ => .err _
  | A :: ms, p :: ps, x, y, z, h => by
    unfold matDecLoop
    refine Three.bind (h.decPad mode p) fun _ _ _ h => Three.bind (h.mmDense A) fun _ _ _ h => ?_
    simp only
    rw [(h.dim 0).1, (h.dim 0).2]
    refine Three.ite _ ?_ (.err _)
    exact Three.bind (lin_matDecLoop mode ms ps (h.slice _ _ _)) fun _ _ _ h' =>
      .ok ⟨h'.1, .cons (h.slice _ _ _) h'.2⟩

theorem Lin.decInput (h : Lin c x y z) (cfg : DecCfg R) :
    Three (fun u v t => Lin c u.1 v.1 t.1 ∧ v.2 = u.2 ∧ t.2 = u.2)
      (decInput cfg x) (decInput cfg y) (decInput cfg z) := by
  unfold Verif.decInput
  refine Three.bind (h.preprocessTensor 1 _ false) ?_
  rintro ⟨u, du⟩ ⟨v, dv⟩ ⟨t, dt⟩ ⟨h, h2, h3⟩
  simp only at h h2 h3 ⊢
  refine Three.bind (P := Lin c) ?_ fun _ _ _ h => .ok ⟨h, h2, h3⟩
  unfold decPadInput
  rw [(h.sizeFromEnd 1).1, (h.sizeFromEnd 1).2]
  exact Three.ite _ (h.fwtPadWith _ _) (.ok h)

theorem lin_decApply (h : Lin c x y z) (cfg : DecCfg R) (mats : List (Coo R)) (pads : List Bool)
    (ds : List Nat) :
    Three (Forall₃ (Lin c)) (decApply cfg mats pads x ds) (decApply cfg mats pads y ds)
      (decApply cfg mats pads z ds) := by
  unfold decApply
  refine Three.bind (lin_matDecLoop _ _ _ h.matT) fun u v t h => ?_
  refine Three.bind (lin_postprocessCoeffs (Coeffs3.ofList (P := Lin c) ?_) _ _ _) fun _ _ _ h => .ok h.toList
  exact Forall₃.map (h.2.append (.cons h.1 .nil)).reverse fun _ _ _ h => h.matT

theorem lin_recCrop (h : Lin c x y z) {a b d : List (Tensor R)} (hs : Forall₃ (Lin c) a b d) :
    Three (Lin c) (recCrop x a.head?) (recCrop y b.head?) (recCrop z d.head?) := by
  cases hs with
  | nil => exact .ok h
  | cons h1 _ =>
    simp only [List.head?_cons]
    unfold recCrop
    simp only
    rw [(h.dim 0).1, (h.dim 0).2, (h1.dim 0).1, (h1.dim 0).2]
    have hs := h.slice 0 0 (x.shape.getD 0 0 - 1)
    rw [(hs.dim 0).1, (hs.dim 0).2]
    exact Three.ite _ (Three.ite _ (.ok hs) (.err _)) (.ok h)

theorem lin_matRecLoop {a b d : List (Tensor R)} (hs : Forall₃ (Lin c) a b d) :
    ∀ (ms : List (Coo R)) {x y z : Tensor R}, Lin c x y z →
    Three (Lin c) (matRecLoop ms x a) (matRecLoop ms y b) (matRecLoop ms z d) := by
  induction hs with
  | nil => intro ms x y z h; cases ms <;> exact .ok h
  | cons h1 hs ih =>
    intro ms x y z h
    unfold matRecLoop
    rw [h.shape₁, h.shape₂, h1.shape₁, h1.shape₂]
    refine Three.ite _ (.err _) ?_
    refine Three.bind (h.cat2 h1 0) fun _ _ _ h => ?_
    cases ms with
    | nil => exact .err _
    | cons M ms =>
      exact Three.bind (h.mmDense M) fun _ _ _ h => Three.bind (lin_recCrop h hs) fun _ _ _ h => ih ms h

theorem lin_recApply {a b d : List (Tensor R)} (h : Forall₃ (Lin c) a b d) (cfg : RecCfg R)
    (mats : List (Coo R)) (ds : List Nat) :
    Three (Lin c) (recApply cfg mats a ds) (recApply cfg mats b ds) (recApply cfg mats d ds) := by
  unfold recApply
  cases h with
  | nil => exact .err _
  | cons h1 hs =>
    simp only [List.map_cons]
    exact Three.bind (lin_matRecLoop (Forall₃.map hs fun _ _ _ h => h.matT) _ h1.matT)
      fun _ _ _ h => h.matT.postprocessTensor _ _ _

theorem lin_recInput {a b d : Coeffs R} (h : Coeffs3 (Lin c) a b d) (cfg : RecCfg R) :
    Three (fun u v t => Forall₃ (Lin c) u.1 v.1 t.1 ∧ v.2 = u.2 ∧ t.2 = u.2)
      (recInput cfg a) (recInput cfg b) (recInput cfg d) := by
  unfold recInput
  refine Three.bind (lin_preprocessCoeffs h 1 _ false) ?_
  rintro ⟨u, du⟩ ⟨v, dv⟩ ⟨t, dt⟩ ⟨h, h2, h3⟩
  simp only at h h2 h3 ⊢
  subst h2; subst h3
  rw [(lin_checkSameDeviceDtype h).1, (lin_checkSameDeviceDtype h).2]
  refine Three.bind Three.pure_eq ?_
  rintro md _ _ ⟨e1, e2⟩
  exact .ok ⟨h.toList, by rw [e1], by rw [e2]⟩

end mat1

section call1
variable [Field R] [DecidableEq R] {c : R} {x y z : Tensor R}

theorem lin_decCall (h : Lin c x y z) (la : LinAlg R) (cfg : DecCfg R) (st : DecState R) :
    ThreeSt (Forall₃ (Lin c)) (decCall la cfg st x) (decCall la cfg st y) (decCall la cfg st z) := by
  unfold decCall
  have hi := h.decInput cfg
  revert hi
  generalize decInput cfg x = u
  generalize decInput cfg y = v
  generalize decInput cfg z = t
  intro hi
  cases hi with
  | err e => exact ⟨.err _, rfl, rfl⟩
  | @ok u v t hi =>
    obtain ⟨u, du⟩ := u
    obtain ⟨v, dv⟩ := v
    obtain ⟨t, dt⟩ := t
    obtain ⟨hi, h2, h3⟩ := hi
    simp only at hi h2 h3 ⊢
    subst h2; subst h3
    rw [hi.md₁, hi.md₂, (hi.sizeFromEnd 1).1, (hi.sizeFromEnd 1).2]
    generalize decPrepare la cfg u.md (u.sizeFromEnd 1) st = q
    obtain ⟨q, st'⟩ := q
    cases q with
    | error e => exact ⟨.err _, rfl, rfl⟩
    | ok _ => exact ⟨lin_decApply hi _ _ _ _, rfl, rfl⟩

theorem lin_lastSize {a b d : List (Tensor R)} (h : Forall₃ (Lin c) a b d) :
    (b.getLast?.map fun c => c.sizeFromEnd 1) = (a.getLast?.map fun c => c.sizeFromEnd 1) ∧
    (d.getLast?.map fun c => c.sizeFromEnd 1) = (a.getLast?.map fun c => c.sizeFromEnd 1) := by
  rw [List.getLast?_eq_head?_reverse, List.getLast?_eq_head?_reverse, List.getLast?_eq_head?_reverse]
  have h := h.reverse
  revert h
  generalize a.reverse = a
  generalize b.reverse = b
  generalize d.reverse = d
  intro h
  cases h with
  | nil => exact ⟨rfl, rfl⟩
  | cons h1 _ => simp [(h1.sizeFromEnd 1).1, (h1.sizeFromEnd 1).2]

theorem lin_recCall {a b d : List (Tensor R)} (h : Forall₃ (Lin c) a b d) (la : LinAlg R) (cfg : RecCfg R)
    (st : RecState R) :
    ThreeSt (Lin c) (recCall la cfg st a) (recCall la cfg st b) (recCall la cfg st d) := by
  unfold recCall
  have hi := lin_recInput (Coeffs3.ofList h) cfg
  revert hi
  generalize recInput cfg (Coeffs.ofList a) = u
  generalize recInput cfg (Coeffs.ofList b) = v
  generalize recInput cfg (Coeffs.ofList d) = t
  intro hi
  cases hi with
  | err e => exact ⟨.err _, rfl, rfl⟩
  | @ok u v t hi =>
    obtain ⟨u, du⟩ := u
    obtain ⟨v, dv⟩ := v
    obtain ⟨t, dt⟩ := t
    obtain ⟨hi, h2, h3⟩ := hi
    simp only at hi h2 h3 ⊢
    subst h2; subst h3
    obtain ⟨ds, md⟩ := dt
    simp only
    rw [hi.length.1, hi.length.2, (lin_lastSize hi).1, (lin_lastSize hi).2]
    generalize recPrepare la cfg md (u.length - 1) _ st = q
    obtain ⟨q, st'⟩ := q
    cases q with
    | error e => exact ⟨.err _, rfl, rfl⟩
    | ok _ => exact ⟨lin_recApply hi _ _ _, rfl, rfl⟩

end call1

section matN
variable [CommSemiring R] {c : R} {x y z : Tensor R}

theorem Lin.addPadding2 (h : Lin c x y z) (mode : Option String) (ps : List Bool) :
    Three (Lin c) (addPadding2 mode x ps) (addPadding2 mode y ps) (addPadding2 mode z ps) := by
  unfold Verif.addPadding2
  exact Three.ite _ (h.fwtPadWith _ _) (.ok h)

/-- An approximation and its details, related. -/
abbrev Step3 (c : R) (u v t : Tensor R × Entry R) : Prop :=
  Lin c u.1 v.1 t.1 ∧ Entry3 (Lin c) u.2 v.2 t.2

theorem lin_mat2Step (h : Lin c x y z) (mode : Option String) (ms : List (Coo R)) (ps : List Bool)
    (size : List Nat) :
    Three (Step3 c) (mat2Step mode ms ps size x) (mat2Step mode ms ps size y) (mat2Step mode ms ps size z) := by
  unfold mat2Step
  split
  · exact Three.bind (h.addPadding2 _ _) fun _ _ _ h => Three.bind ((h.transpose 1 2).batchMm _) fun _ _ _ h =>
      Three.bind ((h.transpose 1 2).batchMm _) fun _ _ _ h => Three.bind (h.splitTwo _ _) fun _ _ _ h =>
      Three.bind (h.1.splitTwo _ _) fun _ _ _ ha => Three.bind (h.2.splitTwo _ _) fun _ _ _ hd =>
      .ok ⟨ha.1, .tuple ha.2 hd.1 hd.2⟩
  · exact .err _

theorem lin_splitRec : ∀ (k : Nat) (key : String) {x y z : Tensor R} {a b d : List (String × Tensor R)},
    Lin c x y z → Dict3 (Lin c) a b d →
    Three (Dict3 (Lin c)) (splitRec k key x a) (splitRec k key y b) (splitRec k key z d)
  | 0, key, x, y, z, a, b, d, h, hd => by
    unfold splitRec
    simp only
    refine .ok ?_
    split_ifs
    · exact hd
    · exact hd.append (.cons ⟨rfl, rfl, h⟩ .nil)
  | k + 1, key, x, y, z, a, b, d, h, hd => by
    unfold splitRec
    simp only
    rw [h.rank.1, h.rank.2, (h.sizeFromEnd _).1, (h.sizeFromEnd _).2]
    refine Three.bind (h.splitTwo _ _) fun _ _ _ hp => Three.bind (lin_splitRec k _ hp.1 ?_) fun _ _ _ h =>
      lin_splitRec k _ hp.2 h
    split_ifs
    · exact hd
    · exact hd.append (.cons ⟨rfl, rfl, h⟩ .nil)

theorem lin_mulDims : ∀ (k : Nat) (ms : List (Coo R)) {x y z : Tensor R}, Lin c x y z →
    Three (Lin c) (mulDims k ms x) (mulDims k ms y) (mulDims k ms z)
  | _, [], _, _, _, h => .ok h
  | k, m :: ms, _, _, _, h => by
    unfold mulDims
    exact Three.bind (h.batchDimMm _ _) fun _ _ _ h => lin_mulDims (k + 1) ms h

theorem lin_mat3Step (h : Lin c x y z) (mode : Option String) (ms : List (Coo R)) (ps : List Bool)
    (size : List Nat) :
    Three (Step3 c) (mat3Step mode ms ps size x) (mat3Step mode ms ps size y) (mat3Step mode ms ps size z) := by
  unfold mat3Step
  refine Three.bind (h.fwtPadWith _ _) fun _ _ _ h => Three.bind (lin_mulDims _ _ h) fun _ _ _ h =>
    Three.bind (lin_splitRec _ _ h .nil) fun _ _ _ hd => Three.bind (Dict3.get hd _) fun _ _ _ h =>
    .ok ⟨h, .dict (Forall₃.filter hd ?_)⟩
  intro _ _ _ h
  simp only [h.1, h.2.1, and_self]

theorem lin_matLoopN
    {step : List (Coo R) → List Bool → List Nat → Tensor R → Except Err (Tensor R × Entry R)}
    (hstep : ∀ ms ps size x y z, Lin c x y z →
      Three (Step3 c) (step ms ps size x) (step ms ps size y) (step ms ps size z)) :
    ∀ (mats : List (List (Coo R))) (ps : List (List Bool)) (ss : List (List Nat)) {x y z : Tensor R},
    Lin c x y z →
    Three (fun u v t => Lin c u.1 v.1 t.1 ∧ Forall₃ (Entry3 (Lin c)) u.2 v.2 t.2)
      (matLoopN step mats ps ss x) (matLoopN step mats ps ss y) (matLoopN step mats ps ss z)
  | [], _, _, _, _, _, h => by unfold matLoopN; exact .ok ⟨h, .nil⟩
  | ms :: mats, p :: ps, s :: ss, _, _, _, h => by
    unfold matLoopN
    exact Three.bind (hstep _ _ _ _ _ _ h) fun _ _ _ h => Three.bind (lin_matLoopN hstep mats ps ss h.1)
      fun _ _ _ h' => .ok ⟨h'.1, .cons h.2 h'.2⟩
  | _ :: _, [], _, _, _, _, _ => by unfold matLoopN; exact .err _
  | _ :: _, _ :: _, [], _, _, _, _ => by unfold matLoopN; exact .err _

theorem Lin.flatCols (h : Lin c x y z) (B : Nat) :
    Three (Lin c) (flatCols x B) (flatCols y B) (flatCols z B) := (h.transpose 1 2).reshapeInfer _ _

theorem Lin.unflatCols (h : Lin c x y z) (B height width : Nat) :
    Three (Lin c) (unflatCols x B height width) (unflatCols y B height width)
      (unflatCols z B height width) := by
  unfold Verif.unflatCols
  exact Three.bind (h.matT.reshape _) fun _ _ _ h => .ok (h.transpose 1 2)

theorem Lin.nonsepPad (h : Lin c x y z) (mode : Option String) (ps : List Bool) (size : List Nat) (B : Nat) :
    Three (Lin c) (nonsepPad mode ps size B x) (nonsepPad mode ps size B y) (nonsepPad mode ps size B z) := by
  unfold Verif.nonsepPad
  refine Three.ite _ ?_ (.ok h)
  exact Three.bind (h.unflatCols _ _ _) fun _ _ _ h => Three.bind (h.addPadding2 _ _) fun _ _ _ h =>
    Three.bind (h.flatCols _) fun _ _ _ h => .ok h.matT

theorem Lin.splitRows (h : Lin c x y z) (size : Nat) :
    Three (Forall₃ (Lin c)) (splitRows x size) (splitRows y size) (splitRows z size) := by
  unfold Verif.splitRows
  simp only
  rw [h.shape₁, h.shape₂]
  exact Three.ite _ (.err _) (Three.ite _ (.ok (.cons h .nil))
    (.ok (Forall₃.map_range _ fun i => h.slice _ _ _)))

theorem lin_mat2NonsepStep (h : Lin c x y z) (mode : Option String) (B : Nat) (ms : List (Coo R))
    (ps : List Bool) (size : List Nat) :
    Three (Step3 c) (mat2NonsepStep mode B ms ps size x) (mat2NonsepStep mode B ms ps size y)
      (mat2NonsepStep mode B ms ps size z) := by
  unfold mat2NonsepStep
  split
  · refine Three.bind (h.nonsepPad _ _ _ _) fun _ _ _ h => Three.bind (h.mmDense _) fun _ _ _ h =>
      Three.bind (h.splitRows _) fun _ _ _ hs => ?_
    cases hs with
    | nil => exact .err _
    | cons h1 hs =>
    cases hs with
    | nil => exact .err _
    | cons h2 hs =>
    cases hs with
    | nil => exact .err _
    | cons h3 hs =>
    cases hs with
    | nil => exact .err _
    | cons h4 hs =>
    cases hs with
    | cons _ _ => exact .err _
    | nil =>
      exact Three.bind (h2.unflatCols _ _ _) fun _ _ _ h2 => Three.bind (h3.unflatCols _ _ _) fun _ _ _ h3 =>
        Three.bind (h4.unflatCols _ _ _) fun _ _ _ h4 => .ok ⟨h1, .tuple h2 h3 h4⟩
  · exact .err _

theorem lin_mat2Nonsep (h : Lin c x y z) (mode : Option String) (st : DecStateN R) :
    Three (fun u v t => Lin c u.1 v.1 t.1 ∧ Forall₃ (Entry3 (Lin c)) u.2 v.2 t.2)
      (mat2Nonsep mode st x) (mat2Nonsep mode st y) (mat2Nonsep mode st z) := by
  unfold mat2Nonsep
  simp only
  rw [(h.dim 0).1, (h.dim 0).2]
  refine Three.bind (h.flatCols _) fun _ _ _ h =>
    Three.bind (lin_matLoopN (fun ms ps size x y z h => lin_mat2NonsepStep h mode _ ms ps size) _ _ _ h.matT)
    fun _ _ _ h => ?_
  split
  · exact Three.bind (h.1.unflatCols _ _ _) fun _ _ _ h' => .ok ⟨h', h.2⟩
  · exact .err _

theorem lin_decApplyN (h : Lin c x y z) (n : Nat) (cfg : DecCfgN R) (st : DecStateN R) (ds : List Nat) :
    Three (Coeffs3 (Lin c)) (decApplyN n cfg st x ds) (decApplyN n cfg st y ds) (decApplyN n cfg st z ds) := by
  unfold decApplyN
  have hpost : ∀ u v t : Tensor R × List (Entry R),
      Lin c u.1 v.1 t.1 ∧ Forall₃ (Entry3 (Lin c)) u.2 v.2 t.2 →
      Three (Coeffs3 (Lin c)) (postprocessCoeffs ⟨false, .tensor u.1 :: u.2.reverse⟩ n ds (.seq cfg.axes))
        (postprocessCoeffs ⟨false, .tensor v.1 :: v.2.reverse⟩ n ds (.seq cfg.axes))
        (postprocessCoeffs ⟨false, .tensor t.1 :: t.2.reverse⟩ n ds (.seq cfg.axes)) := by
    intro u v t h
    exact lin_postprocessCoeffs (a := ⟨false, .tensor u.1 :: u.2.reverse⟩)
      (b := ⟨false, .tensor v.1 :: v.2.reverse⟩) (d := ⟨false, .tensor t.1 :: t.2.reverse⟩)
      ⟨rfl, rfl, .cons (.tensor h.1) h.2.reverse⟩ _ _ _
  dsimp only
  exact Three.ite _
    (Three.bind (lin_matLoopN (fun ms ps size x y z h => lin_mat3Step h _ ms ps size) _ _ _ h) hpost)
    (Three.ite _
      (Three.bind (lin_matLoopN (fun ms ps size x y z h => lin_mat2Step h _ ms ps size) _ _ _ h) hpost)
      (Three.bind (lin_mat2Nonsep h _ _) hpost))

theorem lin_firstRef2 {a b d : Entry R} (h : Entry3 (Lin c) a b d) :
    Three (Lin c) (firstRef2 a) (firstRef2 b) (firstRef2 d) := by
  cases h with
  | tensor h =>
    unfold firstRef2
    simp only
    rw [(h.dim 0).1, (h.dim 0).2]
    exact Three.ite _ (.err _) (.ok h)
  | tuple h _ _ => exact .ok h
  | dict _ => exact .err _
  | other => exact .err _

theorem lin_recShape (n : Nat) {a b d : Coeffs R} (h : Coeffs3 (Lin c) a b d) :
    Three (fun u v w => v = u ∧ w = u) (recShape n a) (recShape n b) (recShape n d) := by
  unfold recShape
  rw [List.getLast?_eq_head?_reverse, List.getLast?_eq_head?_reverse, List.getLast?_eq_head?_reverse]
  have h := h.items.reverse
  revert h
  generalize a.items.reverse = a
  generalize b.items.reverse = b
  generalize d.items.reverse = d
  intro h
  cases h with
  | nil => exact .err _
  | cons h1 _ =>
    simp only [List.head?_cons]
    refine Three.ite _ ?_ ?_
    · cases h1 with
      | tensor _ => exact .err _
      | tuple _ _ _ => exact .err _
      | other => exact .err _
      | dict h =>
        refine Three.bind (Dict3.get h _) fun _ _ _ h => .ok ?_
        simp [(h.sizeFromEnd 1).1, (h.sizeFromEnd 1).2, (h.sizeFromEnd 2).1, (h.sizeFromEnd 2).2,
          (h.sizeFromEnd 3).1, (h.sizeFromEnd 3).2]
    · refine Three.bind (lin_firstRef2 h1) fun _ _ _ h => .ok ?_
      simp [(h.sizeFromEnd 1).1, (h.sizeFromEnd 1).2, (h.sizeFromEnd 2).1, (h.sizeFromEnd 2).2]

theorem lin_rec2Mul (ms : List (Coo R)) (h : Lin c x y z) {x₁ y₁ z₁ x₂ y₂ z₂ x₃ y₃ z₃ : Tensor R}
    (h1 : Lin c x₁ y₁ z₁) (h2 : Lin c x₂ y₂ z₂) (h3 : Lin c x₃ y₃ z₃) :
    Three (Lin c) (rec2Mul ms x x₁ x₂ x₃) (rec2Mul ms y y₁ y₂ y₃) (rec2Mul ms z z₁ z₂ z₃) := by
  unfold rec2Mul
  split
  · exact Three.bind (h.cat2 h1 _) fun _ _ _ ha => Three.bind (h2.cat2 h3 _) fun _ _ _ hd =>
      Three.bind (ha.cat2 hd _) fun _ _ _ h => Three.bind ((h.transpose 1 2).batchMm _) fun _ _ _ h =>
      (h.transpose 1 2).batchMm _
  · exact .err _

theorem lin_rec2MulNonsep (ms : List (Coo R)) (B : Nat) (h : Lin c x y z)
    {x₁ y₁ z₁ x₂ y₂ z₂ x₃ y₃ z₃ : Tensor R}
    (h1 : Lin c x₁ y₁ z₁) (h2 : Lin c x₂ y₂ z₂) (h3 : Lin c x₃ y₃ z₃) :
    Three (Lin c) (rec2MulNonsep ms B x x₁ x₂ x₃) (rec2MulNonsep ms B y y₁ y₂ y₃)
      (rec2MulNonsep ms B z z₁ z₂ z₃) := by
  unfold rec2MulNonsep
  split
  · simp only
    rw [(h.sizeFromEnd 1).1, (h.sizeFromEnd 1).2, (h.sizeFromEnd 2).1, (h.sizeFromEnd 2).2]
    exact Three.bind (h.flatCols _) fun _ _ _ h => Three.bind (h1.flatCols _) fun _ _ _ h1 =>
      Three.bind (h2.flatCols _) fun _ _ _ h2 => Three.bind (h3.flatCols _) fun _ _ _ h3 =>
      Three.bind (h.cat2 h1 _) fun _ _ _ h => Three.bind (h.cat2 h2 _) fun _ _ _ h =>
      Three.bind (h.cat2 h3 _) fun _ _ _ h => Three.bind (h.matT.mmDense _) fun _ _ _ h => h.unflatCols _ _ _
  · exact .err _

theorem Lin.iteT (p : Prop) [Decidable p] {x' y' z' : Tensor R} (h : Lin c x y z) (h' : Lin c x' y' z') :
    Lin c (if p then x else x') (if p then y else y') (if p then z else z') := by
  split_ifs
  · exact h
  · exact h'

theorem lin_rec2Crop (pred : List Nat) (h : Lin c x y z) {a b d : List (Entry R)}
    (hs : Forall₃ (Entry3 (Lin c)) a b d) :
    Three (Lin c) (rec2Crop pred x a) (rec2Crop pred y b) (rec2Crop pred z d) := by
  unfold rec2Crop
  cases hs with
  | nil => exact .ok h
  | cons h1 _ =>
    refine Three.bind (lin_firstRef2 h1) fun _ _ _ h1 => .ok ?_
    rw [(h1.sizeFromEnd 1).1, (h1.sizeFromEnd 1).2, (h1.sizeFromEnd 2).1, (h1.sizeFromEnd 2).2]
    have h' : ∀ {x y z : Tensor R} (a : Nat), Lin c x y z → Lin c (x.slice a 0 (x.shape.getD a 0 - 1))
        (y.slice a 0 (y.shape.getD a 0 - 1)) (z.slice a 0 (z.shape.getD a 0 - 1)) := by
      intro x y z a h
      rw [(h.dim a).1, (h.dim a).2]
      exact h.slice _ _ _
    exact Lin.iteT _ (h' 2 (Lin.iteT _ (h' 1 h) h)) (Lin.iteT _ (h' 1 h) h)

theorem lin_mrec2Step (sep : Bool) (B : Nat) (ms : Option (List (Coo R))) (h : Lin c x y z)
    {e e' e'' : Entry R} (he : Entry3 (Lin c) e e' e'') {a b d : List (Entry R)}
    (hs : Forall₃ (Entry3 (Lin c)) a b d) :
    Three (Lin c) (mrec2Step sep B ms x e a) (mrec2Step sep B ms y e' b) (mrec2Step sep B ms z e'' d) := by
  unfold mrec2Step
  cases he with
  | tensor _ => exact .err _
  | dict _ => exact .err _
  | other => exact .err _
  | tuple h1 h2 h3 =>
    simp only [h.shape₁, h.shape₂, h1.shape₁, h1.shape₂, h2.shape₁, h2.shape₂, h3.shape₁, h3.shape₂]
    refine Three.ite _ ?_ (.err _)
    cases ms with
    | none => exact .err _
    | some ms =>
      simp only
      rw [(h.sizeFromEnd 1).1, (h.sizeFromEnd 1).2, (h.sizeFromEnd 2).1, (h.sizeFromEnd 2).2]
      exact Three.ite _ (Three.bind (lin_rec2Mul ms h h1 h2 h3) fun _ _ _ h => lin_rec2Crop _ h hs)
        (Three.bind (lin_rec2MulNonsep ms B h h1 h2 h3) fun _ _ _ h => lin_rec2Crop _ h hs)

theorem lin_mrec2Loop (sep : Bool) (B : Nat) {a b d : List (Entry R)} (hs : Forall₃ (Entry3 (Lin c)) a b d) :
    ∀ (ms : List (List (Coo R))) {x y z : Tensor R}, Lin c x y z →
    Three (Lin c) (mrec2Loop sep B ms x a) (mrec2Loop sep B ms y b) (mrec2Loop sep B ms z d) := by
  induction hs with
  | nil => intro ms x y z h; unfold mrec2Loop; exact .ok h
  | cons h1 hs ih =>
    intro ms x y z h
    unfold mrec2Loop
    exact Three.bind (lin_mrec2Step sep B _ h h1 hs) fun _ _ _ h => ih _ h

theorem Lin.cropTo3 (h : Lin c x y z) (s : List Nat) :
    Three (Lin c) (cropTo3 x s) (cropTo3 y s) (cropTo3 z s) := by
  unfold Verif.cropTo3
  rw [h.rank.1, h.rank.2]
  exact Three.ite _ (.err _) (.ok (((h.slice _ _ _).slice _ _ _).slice _ _ _))

theorem lin_catRound {a b d : List (String × Tensor R)} (h : Dict3 (Lin c) a b d)
    {u v t : List (String × Tensor R)} (hu : Dict3 (Lin c) u v t) :
    ∀ {a' b' d' : List (String × Tensor R)}, Dict3 (Lin c) a' b' d' →
    Three (SumLin c) (catRound a u a') (catRound b v b') (catRound d t d') := by
  induction hu with
  | nil => exact fun h => .ok (.inr h)
  | @cons p q r _ _ _ h1 _ ih =>
    obtain ⟨kp, p⟩ := p
    obtain ⟨kq, q⟩ := q
    obtain ⟨kr, r⟩ := r
    obtain ⟨e1, e2, h1⟩ := h1
    simp only at e1 e2 h1
    subst e1; subst e2
    intro a' b' d' hd
    unfold catRound
    simp only
    refine Three.bind (Dict3.get h _) fun _ _ _ h2 => ?_
    rw [h2.shape₁, h2.shape₂]
    refine Three.bind (h1.cropTo3 _) fun _ _ _ h1 => ?_
    rw [h1.rank.1, h1.rank.2]
    refine Three.bind Three.pure_eq ?_
    rintro ax _ _ ⟨e1, e2⟩
    rw [e1, e2]
    refine Three.bind (h1.cat2 h2 _) fun _ _ _ h => ?_
    exact Three.ite _ (.ok (.inl h)) (ih (Dict3.set hd _ h))

theorem lin_catRec : ∀ (k : Nat) {a b d : List (String × Tensor R)}, Dict3 (Lin c) a b d →
    Three (Lin c) (catRec k a) (catRec k b) (catRec k d)
  | 0, _, _, _, _ => .err _
  | k + 1, a, b, d, h => by
    unfold catRec
    obtain ⟨e1, e2⟩ := Forall₃.any (p := fun p : String × Tensor R => decide (p.1 = ""))
      (q := fun p => decide (p.1 = "")) (r := fun p => decide (p.1 = "")) h
      fun _ _ _ h => by simp [h.1, h.2.1]
    rw [e1, e2]
    refine Three.ite _ (.err _) ?_
    refine Three.bind (lin_catRound h (Forall₃.filter h ?_) .nil) fun _ _ _ h => ?_
    · intro _ _ _ h; simp only [h.1, h.2.1, and_self]
    cases h with
    | inl h => exact .ok h
    | inr h => exact lin_catRec k h

theorem lin_sameShapes {a b d : List (String × Tensor R)} (h : Dict3 (Lin c) a b d) :
    sameShapes b = sameShapes a ∧ sameShapes d = sameShapes a := by
  cases h with
  | nil => exact ⟨rfl, rfl⟩
  | cons h1 h =>
    unfold sameShapes
    refine Forall₃.all h fun _ _ _ h => ?_
    rw [h.2.2.shape₁, h.2.2.shape₂, h1.2.2.shape₁, h1.2.2.shape₂]
    exact ⟨rfl, rfl⟩

theorem lin_keyBound {a b d : List (String × Tensor R)} (h : Dict3 (Lin c) a b d) :
    keyBound b = keyBound a ∧ keyBound d = keyBound a := by
  unfold keyBound
  obtain ⟨e1, e2⟩ := Forall₃.map_eq (f := fun q : String × Tensor R => q.1.length)
    (g := fun q => q.1.length) (k := fun q => q.1.length) h fun _ _ _ h => by simp [h.1, h.2.1]
  rw [e1, e2]
  exact ⟨rfl, rfl⟩

theorem lin_mrec3Step (ms : Option (List (Coo R))) (h : Lin c x y z)
    {e e' e'' : Entry R} (he : Entry3 (Lin c) e e' e'') :
    Three (Lin c) (mrec3Step ms x e) (mrec3Step ms y e') (mrec3Step ms z e'') := by
  unfold mrec3Step
  cases he with
  | tensor _ => exact .err _
  | tuple _ _ _ => exact .err _
  | other => exact .err _
  | dict hd =>
    simp only
    rw [hd.length.1, hd.length.2, (lin_sameShapes hd).1, (lin_sameShapes hd).2]
    refine Three.ite _ (Three.ite _ ?_ (.err _)) (.err _)
    have hset := Dict3.set hd "aaa" h
    rw [(lin_keyBound hset).1, (lin_keyBound hset).2]
    refine Three.bind (lin_catRec _ hset) fun _ _ _ h => ?_
    cases ms with
    | none => exact .err _
    | some ms => exact lin_mulDims _ _ h

theorem lin_mrec3Loop (mats : List (List (Coo R))) {a b d : List (Entry R)}
    (hs : Forall₃ (Entry3 (Lin c)) a b d) :
    ∀ (k : Nat) {x y z : Tensor R}, Lin c x y z →
    Three (Lin c) (mrec3Loop mats k x a) (mrec3Loop mats k y b) (mrec3Loop mats k z d) := by
  induction hs with
  | nil => intro k x y z h; unfold mrec3Loop; exact .ok h
  | cons h1 hs ih =>
    intro k x y z h
    unfold mrec3Loop
    exact Three.bind (lin_mrec3Step _ h h1) fun _ _ _ h => ih _ h

theorem lin_recApplyN (n : Nat) (cfg : RecCfgN R) (mats : List (List (Coo R))) (ds : List Nat)
    {a b d : Coeffs R} (h : Coeffs3 (Lin c) a b d) :
    Three (Lin c) (recApplyN n cfg mats a ds) (recApplyN n cfg mats b ds) (recApplyN n cfg mats d ds) := by
  unfold recApplyN
  rw [h.items.length.1, h.items.length.2]
  refine Three.bind h.headTensor fun _ _ _ h1 => ?_
  rw [(h1.dim 0).1, (h1.dim 0).2]
  dsimp only
  exact Three.ite _
    (Three.bind (lin_mrec3Loop mats h.items.tail _ h1) fun _ _ _ h => h.postprocessTensor _ _ _)
    (Three.bind (lin_mrec2Loop _ _ h.items.tail _ h1) fun _ _ _ h => h.postprocessTensor _ _ _)

theorem lin_recInputN (n : Nat) (cfg : RecCfgN R) {a b d : Coeffs R} (h : Coeffs3 (Lin c) a b d) :
    Three (fun u v t => Coeffs3 (Lin c) u.1 v.1 t.1 ∧ v.2 = u.2 ∧ t.2 = u.2)
      (recInputN n cfg a) (recInputN n cfg b) (recInputN n cfg d) := by
  unfold recInputN
  refine Three.bind (lin_preprocessCoeffs h n _ false) ?_
  rintro ⟨u, du⟩ ⟨v, dv⟩ ⟨t, dt⟩ ⟨h, h2, h3⟩
  simp only at h h2 h3 ⊢
  subst h2; subst h3
  rw [(lin_checkSameDeviceDtype h).1, (lin_checkSameDeviceDtype h).2]
  refine Three.bind Three.pure_eq ?_
  rintro md _ _ ⟨e1, e2⟩
  refine Three.bind (lin_recShape n h) ?_
  rintro s _ _ ⟨e3, e4⟩
  exact .ok ⟨h, by rw [e1, e3], by rw [e2, e4]⟩

end matN

section callN
variable [Field R] [DecidableEq R] {c : R} {x y z : Tensor R}

theorem lin_decCallN (h : Lin c x y z) (n : Nat) (la : LinAlg R) (cfg : DecCfgN R) (st : DecStateN R) :
    ThreeSt (Coeffs3 (Lin c)) (decCallN n la cfg st x) (decCallN n la cfg st y) (decCallN n la cfg st z) := by
  unfold decCallN
  have hi := h.preprocessTensor n (.seq cfg.axes) false
  revert hi
  generalize preprocessTensor x n (.seq cfg.axes) false = u
  generalize preprocessTensor y n (.seq cfg.axes) false = v
  generalize preprocessTensor z n (.seq cfg.axes) false = t
  intro hi
  cases hi with
  | err e => exact ⟨.err _, rfl, rfl⟩
  | @ok u v t hi =>
    obtain ⟨u, du⟩ := u
    obtain ⟨v, dv⟩ := v
    obtain ⟨t, dt⟩ := t
    obtain ⟨hi, h2, h3⟩ := hi
    simp only at hi h2 h3 ⊢
    subst h2; subst h3
    rw [hi.md₁, hi.md₂, hi.shape₁, hi.shape₂]
    generalize decPrepareN la cfg u.md u.shape.tail st = q
    obtain ⟨q, st'⟩ := q
    cases q with
    | error e => exact ⟨.err _, rfl, rfl⟩
    | ok _ => exact ⟨lin_decApplyN hi _ _ _ _, rfl, rfl⟩

theorem lin_recCallN (n : Nat) (la : LinAlg R) (cfg : RecCfgN R) (st : RecStateN R)
    {a b d : Coeffs R} (h : Coeffs3 (Lin c) a b d) :
    ThreeSt (Lin c) (recCallN n la cfg st a) (recCallN n la cfg st b) (recCallN n la cfg st d) := by
  unfold recCallN
  have hi := lin_recInputN n cfg h
  revert hi
  generalize recInputN n cfg a = u
  generalize recInputN n cfg b = v
  generalize recInputN n cfg d = t
  intro hi
  cases hi with
  | err e => exact ⟨.err _, rfl, rfl⟩
  | @ok u v t hi =>
    obtain ⟨u, du⟩ := u
    obtain ⟨v, dv⟩ := v
    obtain ⟨t, dt⟩ := t
    obtain ⟨hi, h2, h3⟩ := hi
    simp only at hi h2 h3 ⊢
    subst h2; subst h3
    obtain ⟨ds, md, s⟩ := dt
    simp only
    rw [hi.items.length.1, hi.items.length.2]
    generalize recPrepareN la cfg md (u.items.length - 1) s st = q
    obtain ⟨q, st'⟩ := q
    cases q with
    | error e => exact ⟨.err _, rfl, rfl⟩
    | ok _ => exact ⟨lin_recApplyN n cfg _ _ hi, rfl, rfl⟩

end callN

end Verif.Spec
