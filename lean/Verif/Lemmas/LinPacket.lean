import Verif.Lemmas.LinMat
import Verif.Model.Packet2
import Verif.Spec.LinPacket

/-! Histories of packet objects are linear in the tensors handed to the object. -/

namespace Verif.Spec
open Tensor Backend
variable {R : Type}

section generic
variable {C T : Type} {P : T → T → T → Prop} {B : Backend C T}

/-- The transforms a packet object calls respect a relation of tensors. -/
structure BackendRel (B : Backend C T) (P : T → T → T → Prop) : Prop where
  dec : ∀ c x y z, P x y z → ThreeSt (Forall₃ P) (B.dec c x) (B.dec c y) (B.dec c z)
  syn : ∀ c xs ys zs, Forall₃ P xs ys zs → ThreeSt P (B.syn c xs) (B.syn c ys) (B.syn c zs)
  fit : ∀ x y z x' y' z', P x y z → P x' y' z' → Three P (B.fit x x') (B.fit y y') (B.fit z z')
  level : ∀ x y z, P x y z → B.defaultLevel y = B.defaultLevel x ∧ B.defaultLevel z = B.defaultLevel x

/-- Three optional values, all absent or all present and related. -/
inductive Opt3 (P : T → T → T → Prop) : Option T → Option T → Option T → Prop where
  | none : Opt3 P .none .none .none
  | some {x y z : T} : P x y z → Opt3 P (.some x) (.some y) (.some z)

/-- Related packet objects. -/
structure PktRel (P : T → T → T → Prop) (s t u : Pkt C T) : Prop where
  level₁ : t.maxlevel = s.maxlevel
  level₂ : u.maxlevel = s.maxlevel
  cache₁ : t.cache = s.cache
  cache₂ : u.cache = s.cache
  data : ∀ k, Opt3 P (s.data k) (t.data k) (u.data k)

/-- Related outcomes of method calls. -/
structure CallRel {α : Type} (Q : α → α → α → Prop) (P : T → T → T → Prop)
    (r s t : Except Err α × Pkt C T) : Prop where
  out : Three Q r.1 s.1 t.1
  st : PktRel P r.2 s.2 t.2

variable {s t u : Pkt C T}

theorem CallRel.andThen {α β : Type} {Q : α → α → α → Prop} {Q' : β → β → β → Prop}
    {r₁ r₂ r₃ : Except Err α × Pkt C T} {f₁ f₂ f₃ : α → Pkt C T → Except Err β × Pkt C T}
    (h : CallRel Q P r₁ r₂ r₃)
    (hf : ∀ a b c s t u, Q a b c → PktRel P s t u → CallRel Q' P (f₁ a s) (f₂ b t) (f₃ c u)) :
    CallRel Q' P (andThen r₁ f₁) (andThen r₂ f₂) (andThen r₃ f₃) := by
  obtain ⟨r₁, s₁⟩ := r₁
  obtain ⟨r₂, s₂⟩ := r₂
  obtain ⟨r₃, s₃⟩ := r₃
  obtain ⟨ho, hs⟩ := h
  unfold Verif.andThen
  cases ho with
  | err e => exact ⟨.err _, hs⟩
  | ok h => exact hf _ _ _ _ _ _ h hs

theorem PktRel.set (h : PktRel P s t u) (k : Key) {x y z : T} (hx : P x y z) :
    PktRel P { s with data := s.data.set k x } { t with data := t.data.set k y }
      { u with data := u.data.set k z } := by
  refine ⟨h.level₁, h.level₂, h.cache₁, h.cache₂, ?_⟩
  intro k'
  simp only [PMap.set]
  split_ifs
  · exact .some hx
  · exact h.data k'

theorem data3_store {d₁ d₂ d₃ : PMap Key T} (h : ∀ k, Opt3 P (d₁ k) (d₂ k) (d₃ k)) (path : Key) :
    ∀ (cs : List Char) {xs ys zs : List T}, Forall₃ P xs ys zs →
    ∀ k, Opt3 P (store d₁ path (cs.zip xs) k) (store d₂ path (cs.zip ys) k) (store d₃ path (cs.zip zs) k) := by
  intro cs
  induction cs generalizing d₁ d₂ d₃ with
  | nil => intro xs ys zs _; simpa [store] using h
  | cons c cs ih =>
    intro xs ys zs hx
    cases hx with
    | nil => simpa [store] using h
    | cons hx hs =>
      simp only [List.zip_cons_cons, store]
      refine ih ?_ hs
      intro k
      simp only [PMap.set]
      split_ifs
      · exact .some hx
      · exact h k

theorem rel_expandWith (hB : BackendRel B P) (h : PktRel P s t u) (path : Key) {x y z : T} (hx : P x y z) :
    CallRel (fun _ _ _ => True) P (B.expandWith s path x) (B.expandWith t path y) (B.expandWith u path z) := by
  unfold expandWith
  simp only
  obtain ⟨ho, h1, h2⟩ := hB.dec s.cache x y z hx
  rw [h.cache₁, h.cache₂]
  refine CallRel.andThen (Q := Forall₃ P) ⟨ho, h.level₁, h.level₂, h1, h2, h.data⟩ ?_
  intro xs ys zs s t u hxs h
  rw [hxs.length.1, hxs.length.2]
  split_ifs
  · exact ⟨.ok trivial, h.level₁, h.level₂, h.cache₁, h.cache₂, data3_store h.data path _ hxs⟩
  · exact ⟨.err _, h⟩

theorem rel_lookup (h : PktRel P s t u) (k : Key) :
    CallRel P P (lookup s k) (lookup t k) (lookup u k) := by
  unfold lookup
  have hd := h.data k
  revert hd
  generalize s.data k = a
  generalize t.data k = b
  generalize u.data k = c
  intro hd
  cases hd with
  | none => exact ⟨.err _, h⟩
  | some hd => exact ⟨.ok hd, h⟩

theorem rel_getitem (hB : BackendRel B P) : ∀ (n : Nat) (k : Key), k.length = n → ∀ {s t u : Pkt C T},
    PktRel P s t u → CallRel P P (B.getitem s k) (B.getitem t k) (B.getitem u k) := by
  intro n
  induction n with
  | zero =>
    intro k hk s t u h
    have hk : k = [] := List.length_eq_zero_iff.mp hk
    subst hk
    unfold getitem
    rw [h.level₁, h.level₂]
    have hd := h.data []
    revert hd
    generalize s.data [] = a
    generalize t.data [] = b
    generalize u.data [] = c
    intro hd
    cases s.maxlevel with
    | none => exact ⟨.err _, h⟩
    | some L =>
      cases hd with
      | some hd => exact ⟨.ok hd, h⟩
      | none =>
        simp only
        split_ifs <;> exact ⟨.err _, h⟩
  | succ n ih =>
    intro k hk s t u h
    unfold getitem
    rw [h.level₁, h.level₂]
    have hd := h.data k
    revert hd
    generalize s.data k = a
    generalize t.data k = b
    generalize u.data k = c
    intro hd
    cases s.maxlevel with
    | none => exact ⟨.err _, h⟩
    | some L =>
      cases hd with
      | some hd => exact ⟨.ok hd, h⟩
      | none =>
        simp only
        split_ifs with h1 h2 h3
        · exact ⟨.err _, h⟩
        · exact ⟨.err _, h⟩
        rotate_left
        · exact ⟨.err _, h⟩
        · refine CallRel.andThen (ih k.dropLast (by simp [hk]) h) ?_
          intro x y z s t u hx h
          refine CallRel.andThen (rel_expandWith hB h _ hx) ?_
          intro _ _ _ s t u _ h
          exact rel_lookup h k

theorem rel_transform (hB : BackendRel B P) (h : PktRel P s t u) {x y z : T} (hx : P x y z)
    (L : Option Int) :
    CallRel (fun _ _ _ => True) P (B.transform s x L) (B.transform t y L) (B.transform u z L) := by
  unfold transform
  have hd : ∀ k : Key, Opt3 P (PMap.set (fun _ => none) [] x k) (PMap.set (fun _ => none) [] y k)
      (PMap.set (fun _ => none) [] z k) := by
    intro k
    simp only [PMap.set]
    split_ifs
    · exact .some hx
    · exact .none
  cases L with
  | some L => exact ⟨.ok trivial, rfl, rfl, h.cache₁, h.cache₂, hd⟩
  | none =>
    simp only
    rw [(hB.level x y z hx).1, (hB.level x y z hx).2]
    cases B.defaultLevel x with
    | ok L => exact ⟨.ok trivial, rfl, rfl, h.cache₁, h.cache₂, hd⟩
    | error e => exact ⟨.err _, h.level₁, h.level₂, h.cache₁, h.cache₂, hd⟩

theorem rel_initKeys (hB : BackendRel B P) : ∀ (ks : List Key) {s t u : Pkt C T}, PktRel P s t u →
    CallRel (fun _ _ _ => True) P (B.initKeys s ks) (B.initKeys t ks) (B.initKeys u ks)
  | [], _, _, _, h => ⟨.ok trivial, h⟩
  | k :: ks, _, _, _, h => by
    unfold initKeys
    exact CallRel.andThen (rel_getitem hB _ k rfl h) fun _ _ _ _ _ _ _ h => rel_initKeys hB ks h

theorem rel_readChildren (hB : BackendRel B P) (node : Key) : ∀ (cs : List Char) {s t u : Pkt C T},
    PktRel P s t u →
    CallRel (Forall₃ P) P (B.readChildren s node cs) (B.readChildren t node cs) (B.readChildren u node cs)
  | [], _, _, _, h => ⟨.ok .nil, h⟩
  | c :: cs, _, _, _, h => by
    unfold readChildren
    exact CallRel.andThen (rel_getitem hB _ _ rfl h) fun _ _ _ _ _ _ hx h =>
      CallRel.andThen (rel_readChildren hB node cs h) fun _ _ _ _ _ _ hs h => ⟨.ok (.cons hx hs), h⟩

theorem rel_cut (hB : BackendRel B P) (h : PktRel P s t u) (level : Nat) (node : Key) {x y z : T}
    (hx : P x y z) : CallRel P P (B.cut s level node x) (B.cut t level node y) (B.cut u level node z) := by
  unfold cut
  split_ifs
  · exact CallRel.andThen (rel_getitem hB _ _ rfl h) fun _ _ _ _ _ _ ho h => ⟨hB.fit _ _ _ _ _ _ hx ho, h⟩
  · exact ⟨.ok hx, h⟩

theorem rel_present (h : PktRel P s t u) (node : Key) (cs : List Char) :
    (cs.all fun c => (t.data (node ++ [c])).isSome) = (cs.all fun c => (s.data (node ++ [c])).isSome) ∧
    (cs.all fun c => (u.data (node ++ [c])).isSome) = (cs.all fun c => (s.data (node ++ [c])).isSome) := by
  have : ∀ k, (t.data k).isSome = (s.data k).isSome ∧ (u.data k).isSome = (s.data k).isSome := by
    intro k
    have hd := h.data k
    revert hd
    generalize s.data k = a
    generalize t.data k = b
    generalize u.data k = c
    intro hd
    cases hd <;> exact ⟨rfl, rfl⟩
  constructor
  · congr 1; funext c; exact (this _).1
  · congr 1; funext c; exact (this _).2

theorem rel_recNode (hB : BackendRel B P) (h : PktRel P s t u) (level : Nat) (node : Key) :
    CallRel (fun _ _ _ => True) P (B.recNode s level node) (B.recNode t level node) (B.recNode u level node) := by
  unfold recNode
  rw [(rel_present h node _).1, (rel_present h node _).2]
  split_ifs
  · refine CallRel.andThen (rel_readChildren hB node _ h) ?_
    intro xs ys zs s t u hs h
    simp only
    obtain ⟨ho, h1, h2⟩ := hB.syn s.cache xs ys zs hs
    rw [h.cache₁, h.cache₂]
    refine CallRel.andThen (Q := P) ⟨ho, h.level₁, h.level₂, h1, h2, h.data⟩ ?_
    intro x y z s t u hx h
    refine CallRel.andThen (rel_cut hB h level node hx) ?_
    intro x y z s t u hx h
    exact ⟨.ok trivial, h.set node hx⟩
  · exact ⟨.err _, h⟩

theorem rel_recNodes (hB : BackendRel B P) (level : Nat) : ∀ (ks : List Key) {s t u : Pkt C T},
    PktRel P s t u →
    CallRel (fun _ _ _ => True) P (B.recNodes s level ks) (B.recNodes t level ks) (B.recNodes u level ks)
  | [], _, _, _, h => ⟨.ok trivial, h⟩
  | k :: ks, _, _, _, h => by
    unfold recNodes
    exact CallRel.andThen (rel_recNode hB h level k) fun _ _ _ _ _ _ _ h => rel_recNodes hB level ks h

theorem rel_recLevels (hB : BackendRel B P) : ∀ (L : Nat) {s t u : Pkt C T}, PktRel P s t u →
    CallRel (fun _ _ _ => True) P (B.recLevels s L) (B.recLevels t L) (B.recLevels u L)
  | 0, _, _, _, h => ⟨.ok trivial, h⟩
  | L + 1, _, _, _, h => by
    unfold recLevels
    exact CallRel.andThen (rel_recNodes hB L _ h) fun _ _ _ _ _ _ _ h => rel_recLevels hB L h

theorem rel_reconstruct (hB : BackendRel B P) (h : PktRel P s t u) :
    CallRel (fun _ _ _ => True) P (B.reconstruct s) (B.reconstruct t) (B.reconstruct u) := by
  unfold reconstruct
  rw [h.level₁, h.level₂]
  cases s.maxlevel with
  | some L => exact rel_recLevels hB _ h
  | none =>
    refine CallRel.andThen (rel_getitem hB _ _ rfl h) ?_
    intro x y z s t u hx h
    rw [(hB.level x y z hx).1, (hB.level x y z hx).2]
    cases B.defaultLevel x with
    | ok L => exact rel_recLevels hB _ ⟨rfl, rfl, h.cache₁, h.cache₂, h.data⟩
    | error e => exact ⟨.err _, h⟩

theorem rel_observe {α : Type} {Q : α → α → α → Prop} {r₁ r₂ r₃ : Except Err α × Pkt C T} {f : α → Out T}
    (h : CallRel Q P r₁ r₂ r₃) (hf : ∀ a b c, Q a b c → Out3 P (f a) (f b) (f c)) :
    Out3 P (observe r₁ f).1 (observe r₂ f).1 (observe r₃ f).1 ∧
    PktRel P (observe r₁ f).2 (observe r₂ f).2 (observe r₃ f).2 := by
  obtain ⟨r₁, s₁⟩ := r₁
  obtain ⟨r₂, s₂⟩ := r₂
  obtain ⟨r₃, s₃⟩ := r₃
  obtain ⟨ho, hs⟩ := h
  unfold observe
  cases ho with
  | err e => exact ⟨.raised _, hs⟩
  | ok h => exact ⟨hf _ _ _ h, hs⟩

theorem rel_step (hB : BackendRel B P) (h : PktRel P s t u) {o₁ o₂ o₃ : Op T} (ho : Op3 P o₁ o₂ o₃) :
    Out3 P (B.step s o₁).1 (B.step t o₂).1 (B.step u o₃).1 ∧
    PktRel P (B.step s o₁).2 (B.step t o₂).2 (B.step u o₃).2 := by
  cases ho with
  | read k => exact rel_observe (rel_getitem hB _ k rfl h) fun _ _ _ h => .value h
  | init ks => exact rel_observe (rel_initKeys hB ks h) fun _ _ _ _ => .done
  | set k hx => exact ⟨.done, h.set k hx⟩
  | transform L hx => exact rel_observe (rel_transform hB h hx L) fun _ _ _ _ => .done
  | reconstruct => exact rel_observe (rel_reconstruct hB h) fun _ _ _ _ => .done

theorem rel_run (hB : BackendRel B P) {o₁ o₂ o₃ : List (Op T)} (ho : Forall₃ (Op3 P) o₁ o₂ o₃) :
    ∀ {s t u : Pkt C T}, PktRel P s t u →
    Forall₃ (Out3 P) (B.run s o₁).1 (B.run t o₂).1 (B.run u o₃).1 := by
  induction ho with
  | nil => exact fun _ => .nil
  | cons ho _ ih =>
    intro s t u h
    unfold run
    exact .cons (rel_step hB h ho).1 (ih (rel_step hB h ho).2)

theorem rel_empty (c : C) : PktRel P (empty (T := T) c) (empty c) (empty c) :=
  ⟨rfl, rfl, rfl, rfl, fun _ => .none⟩

end generic

section backends
variable [CommSemiring R] {c : R} {x y z : Tensor R}

theorem lin_sizeAt (h : Lin c x y z) (a : Int) : sizeAt y a = sizeAt x a ∧ sizeAt z a = sizeAt x a := by
  unfold sizeAt
  rw [h.rank.1, h.rank.2, h.shape₁, h.shape₂]
  exact ⟨rfl, rfl⟩

theorem Lin.fit1 (h : Lin c x y z) {x' y' z' : Tensor R} (h' : Lin c x' y' z') (axis : Int) :
    Three (Lin c) (fit1 axis x x') (fit1 axis y y') (fit1 axis z z') := by
  unfold Verif.fit1
  rw [(lin_sizeAt h axis).1, (lin_sizeAt h axis).2, (lin_sizeAt h' axis).1, (lin_sizeAt h' axis).2,
    h.rank.1, h.rank.2]
  refine Three.bind Three.pure_eq ?_
  rintro n _ _ ⟨e1, e2⟩
  rw [e1, e2]
  refine Three.bind Three.pure_eq ?_
  rintro m _ _ ⟨e1, e2⟩
  rw [e1, e2]
  refine Three.bind Three.pure_eq ?_
  rintro a _ _ ⟨e1, e2⟩
  rw [e1, e2]
  exact Three.ite _ (.ok h) (Three.ite _ (.ok (((h.transpose _ _).slice _ _ _).transpose _ _)) (.err _))

theorem lin_packetLevel1 (h : Lin c x y z) (w : Wavelet R) (axis : Int) :
    packetLevel1 w axis y = packetLevel1 w axis x ∧ packetLevel1 w axis z = packetLevel1 w axis x := by
  unfold packetLevel1
  rw [(lin_sizeAt h axis).1, (lin_sizeAt h axis).2]
  exact ⟨rfl, rfl⟩

theorem rel_packet1 (w : Wavelet R) (mode : Option String) (axis : Int) :
    BackendRel (packet1 w mode axis) (Lin c) where
  dec := fun _ x y z h => ⟨by
    change Three _ (packetDec1 w mode axis x) (packetDec1 w mode axis y) (packetDec1 w mode axis z)
    unfold packetDec1
    rw [(lin_sizeAt h axis).1, (lin_sizeAt h axis).2]
    exact Three.bind Three.pure_eq fun _ _ _ _ => lin_wavedec h w mode _ _, rfl, rfl⟩
  syn := fun _ xs ys zs h => ⟨by
    change Three _ (packetSyn1 w axis xs) (packetSyn1 w axis ys) (packetSyn1 w axis zs)
    unfold packetSyn1
    cases h with
    | nil => exact .err _
    | cons h1 hs =>
      simp only
      rw [(lin_sizeAt h1 axis).1, (lin_sizeAt h1 axis).2]
      exact Three.bind Three.pure_eq fun _ _ _ _ => lin_waverec (.cons h1 hs) w _, rfl, rfl⟩
  fit := fun _ _ _ _ _ _ h h' => h.fit1 h' axis
  level := fun _ _ _ h => lin_packetLevel1 h w axis

theorem lin_planeSizes (h : Lin c x y z) (axes : List Int) :
    planeSizes axes y = planeSizes axes x ∧ planeSizes axes z = planeSizes axes x := by
  refine Three.eq_of ?_
  unfold planeSizes
  refine Three.bind (h.swapAxes axes) fun _ _ _ h => .ok ?_
  rw [h.rank.1, h.rank.2, h.shape₁, h.shape₂]
  exact ⟨rfl, rfl⟩

theorem Lin.cutDim (k : Nat) (h : Lin c x y z) {x' y' z' : Tensor R} (h' : Lin c x' y' z') :
    Three (Lin c) (cutDim k x x') (cutDim k y y') (cutDim k z z') := by
  unfold Verif.cutDim
  rw [(h.sizeFromEnd k).1, (h.sizeFromEnd k).2, (h'.sizeFromEnd k).1, (h'.sizeFromEnd k).2, h.rank.1, h.rank.2]
  exact Three.ite _ (.ok h) (Three.ite _ (.ok (h.slice _ _ _)) (.err _))

theorem Lin.fit2 (h : Lin c x y z) {x' y' z' : Tensor R} (h' : Lin c x' y' z') (axes : List Int) :
    Three (Lin c) (fit2 axes x x') (fit2 axes y y') (fit2 axes z z') := by
  unfold Verif.fit2
  exact Three.bind (h.swapAxes _) fun _ _ _ h => Three.bind (h'.swapAxes _) fun _ _ _ h' =>
    Three.bind (h.cutDim 1 h') fun _ _ _ h => Three.bind (h.cutDim 2 h') fun _ _ _ h => h.undoSwapAxes _

theorem lin_packetLevel2 (h : Lin c x y z) (w : Wavelet R) (axes : List Int) :
    packetLevel2 w axes y = packetLevel2 w axes x ∧ packetLevel2 w axes z = packetLevel2 w axes x := by
  unfold packetLevel2
  rw [(lin_planeSizes h axes).1, (lin_planeSizes h axes).2]
  exact ⟨rfl, rfl⟩

theorem lin_unpack2 {a b d : Coeffs R} (h : Coeffs3 (Lin c) a b d) :
    Three (Forall₃ (Lin c)) (unpack2 a) (unpack2 b) (unpack2 d) := by
  obtain ⟨la, ia⟩ := a
  obtain ⟨lb, ib⟩ := b
  obtain ⟨ld, id'⟩ := d
  obtain ⟨-, -, h3⟩ := h
  simp only at h3
  unfold unpack2
  cases h3 with
  | nil => exact .err _
  | cons h1 h3 =>
    cases h3 with
    | nil => cases h1 <;> exact .err _
    | cons h2 h3 =>
      cases h3 with
      | cons _ _ => cases h1 <;> cases h2 <;> exact .err _
      | nil =>
        cases h1 with
        | tensor h1 =>
          cases h2 with
          | tuple a b d => exact .ok (.cons h1 (.cons a (.cons b (.cons d .nil))))
          | tensor _ => exact .err _
          | dict _ => exact .err _
          | other => exact .err _
        | tuple _ _ _ => exact .err _
        | dict _ => exact .err _
        | other => exact .err _

theorem lin_unpackFsdict {a b d : Coeffs R} (h : Coeffs3 (Lin c) a b d) :
    Three (Forall₃ (Lin c)) (unpackFsdict a) (unpackFsdict b) (unpackFsdict d) := by
  obtain ⟨la, ia⟩ := a
  obtain ⟨lb, ib⟩ := b
  obtain ⟨ld, id'⟩ := d
  obtain ⟨-, -, h3⟩ := h
  simp only at h3
  unfold unpackFsdict
  cases h3 with
  | nil => exact .err _
  | cons h1 h3 =>
    cases h3 with
    | nil => cases h1 <;> exact .err _
    | cons h2 h3 =>
      cases h3 with
      | cons _ _ => cases h1 <;> cases h2 <;> exact .err _
      | nil =>
        cases h1 with
        | tensor h1 =>
          cases h2 with
          | dict hd =>
            exact Three.bind (Dict3.get hd _) fun _ _ _ ha => Three.bind (Dict3.get hd _) fun _ _ _ hb =>
              Three.bind (Dict3.get hd _) fun _ _ _ hc => .ok (.cons h1 (.cons ha (.cons hb (.cons hc .nil))))
          | tuple _ _ _ => exact .err _
          | tensor _ => exact .err _
          | other => exact .err _
        | tuple _ _ _ => exact .err _
        | dict _ => exact .err _
        | other => exact .err _

theorem coeffs3_tuple {a h v d a' h' v' d' a'' h'' v'' d'' : Tensor R} (h1 : Lin c a a' a'')
    (h2 : Lin c h h' h'') (h3 : Lin c v v' v'') (h4 : Lin c d d' d'') :
    Coeffs3 (Lin c) ⟨false, [.tensor a, .tuple h v d]⟩ ⟨false, [.tensor a', .tuple h' v' d']⟩
      ⟨false, [.tensor a'', .tuple h'' v'' d'']⟩ :=
  ⟨rfl, rfl, .cons (.tensor h1) (.cons (.tuple h2 h3 h4) .nil)⟩

theorem coeffs3_dict {a h v d a' h' v' d' a'' h'' v'' d'' : Tensor R} (h1 : Lin c a a' a'')
    (h2 : Lin c h h' h'') (h3 : Lin c v v' v'') (h4 : Lin c d d' d'') :
    Coeffs3 (Lin c) ⟨false, [.tensor a, .dict [("ad", h), ("da", v), ("dd", d)]]⟩
      ⟨false, [.tensor a', .dict [("ad", h'), ("da", v'), ("dd", d')]]⟩
      ⟨false, [.tensor a'', .dict [("ad", h''), ("da", v''), ("dd", d'')]]⟩ :=
  ⟨rfl, rfl, .cons (.tensor h1) (.cons (.dict (.cons ⟨rfl, rfl, h2⟩
    (.cons ⟨rfl, rfl, h3⟩ (.cons ⟨rfl, rfl, h4⟩ .nil)))) .nil)⟩

theorem rel_packet2 (w : Wavelet R) (mode : Option String) (axes : List Int) (sep : Bool) :
    BackendRel (packet2 w mode axes sep) (Lin c) where
  dec := fun _ x y z h => ⟨by
    change Three _ (packetDec2 w mode axes sep x) (packetDec2 w mode axes sep y) (packetDec2 w mode axes sep z)
    unfold packetDec2
    rw [(lin_planeSizes h axes).1, (lin_planeSizes h axes).2]
    refine Three.bind Three.pure_eq fun _ _ _ _ => ?_
    exact Three.ite _ (Three.bind (lin_fswavedecn h w 2 mode _ _) fun _ _ _ h => lin_unpackFsdict h)
      (Three.bind (lin_wavedec2 h w mode _ _) fun _ _ _ h => lin_unpack2 h), rfl, rfl⟩
  syn := fun _ xs ys zs h => ⟨by
    change Three _ (packetSyn2 w axes sep xs) (packetSyn2 w axes sep ys) (packetSyn2 w axes sep zs)
    unfold packetSyn2
    cases h with
    | nil => exact .err _
    | cons h1 hs =>
    cases hs with
    | nil => exact .err _
    | cons h2 hs =>
    cases hs with
    | nil => exact .err _
    | cons h3 hs =>
    cases hs with
    | nil => exact .err _
    | cons h4 hs =>
    cases hs with
    | cons _ _ => exact .err _
    | nil =>
      simp only
      rw [(lin_planeSizes h1 axes).1, (lin_planeSizes h1 axes).2]
      refine Three.bind Three.pure_eq fun _ _ _ _ => ?_
      refine Three.ite _ ?_ ?_
      · exact (lin_fswaverecn (coeffs3_dict h1 h2 h3 h4) w 2 _).1
      · exact lin_waverec2 (coeffs3_tuple h1 h2 h3 h4) w _, rfl, rfl⟩
  fit := fun _ _ _ _ _ _ h h' => h.fit2 h' axes
  level := fun _ _ _ h => lin_packetLevel2 h w axes

end backends

section matbackends
variable [Field R] [DecidableEq R] {c : R} {x y z : Tensor R}

theorem rel_callKeyed {K S α β : Type} [DecidableEq K] {P : α → α → α → Prop} {Q : β → β → β → Prop}
    (mk : Except Err S) {call : S → α → Except Err β × S}
    (hc : ∀ s x y z, P x y z → ThreeSt Q (call s x) (call s y) (call s z)) (d : PMap K S) (key : K)
    {x y z : α} (h : P x y z) :
    ThreeSt Q (callKeyed mk call d key x) (callKeyed mk call d key y) (callKeyed mk call d key z) := by
  unfold callKeyed
  cases d key with
  | some s =>
    obtain ⟨h1, h2, h3⟩ := hc s x y z h
    exact ⟨h1, by simp only [h2], by simp only [h3]⟩
  | none =>
    cases mk with
    | error e => exact ⟨.err _, rfl, rfl⟩
    | ok s =>
      obtain ⟨h1, h2, h3⟩ := hc s x y z h
      exact ⟨h1, by simp only [h2], by simp only [h3]⟩

theorem lin_unpackPair {a b d : Except Err (List (Tensor R))} (h : Three (Forall₃ (Lin c)) a b d) :
    Three (Forall₃ (Lin c)) (unpackPair a) (unpackPair b) (unpackPair d) := by
  cases h with
  | err e => exact .err _
  | ok h =>
    unfold unpackPair
    simp only
    rw [h.length.1, h.length.2]
    exact Three.ite _ (.ok h) (.err _)

theorem lin_decObj (la : LinAlg R) (s : DecCfg R × DecState R) (h : Lin c x y z) :
    ThreeSt (Forall₃ (Lin c)) (decObj la s x) (decObj la s y) (decObj la s z) := by
  obtain ⟨h1, h2, h3⟩ := lin_decCall h la s.1 s.2
  exact ⟨h1, by simp only [decObj, h2], by simp only [decObj, h3]⟩

theorem lin_recObj (la : LinAlg R) (s : RecCfg R × RecState R) {a b d : List (Tensor R)}
    (h : Forall₃ (Lin c) a b d) : ThreeSt (Lin c) (recObj la s a) (recObj la s b) (recObj la s d) := by
  obtain ⟨h1, h2, h3⟩ := lin_recCall h la s.1 s.2
  exact ⟨h1, by simp only [recObj, h2], by simp only [recObj, h3]⟩

theorem rel_packetMat1 (la : LinAlg R) (w : Wavelet R) (orth : String) (axis : Int) :
    BackendRel (packetMat1 la w orth axis) (Lin c) where
  dec := fun cc x y z h => by
    change ThreeSt _ (packetMatDec1 la w orth axis cc x) (packetMatDec1 la w orth axis cc y)
      (packetMatDec1 la w orth axis cc z)
    unfold packetMatDec1
    rw [(lin_sizeAt h axis).1, (lin_sizeAt h axis).2]
    cases sizeAt x axis with
    | error e => exact ⟨.err _, rfl, rfl⟩
    | ok n =>
      obtain ⟨h1, h2, h3⟩ := rel_callKeyed (P := Lin c) (Q := Forall₃ (Lin c)) (decInit w (some 1) (.int axis) orth (some "zero"))
        (fun s x y z h => lin_decObj la s h) cc.decs n h
      exact ⟨lin_unpackPair h1, by simp only [h2], by simp only [h3]⟩
  syn := fun cc xs ys zs h => by
    change ThreeSt _ (packetMatSyn1 la w orth axis cc xs) (packetMatSyn1 la w orth axis cc ys)
      (packetMatSyn1 la w orth axis cc zs)
    unfold packetMatSyn1
    cases h with
    | nil => exact ⟨.err _, rfl, rfl⟩
    | @cons xa _ _ _ _ _ ha hs =>
    cases hs with
    | nil => exact ⟨.err _, rfl, rfl⟩
    | cons hd hs =>
    cases hs with
    | cons _ _ => exact ⟨.err _, rfl, rfl⟩
    | nil =>
      simp only
      rw [(lin_sizeAt ha axis).1, (lin_sizeAt ha axis).2]
      generalize sizeAt xa axis = q
      cases q with
      | error e => exact ⟨.err _, rfl, rfl⟩
      | ok n =>
        obtain ⟨h1, h2, h3⟩ := rel_callKeyed (P := Forall₃ (Lin c)) (Q := Lin c) (recInit w (.int axis) orth)
          (fun s x y z h => lin_recObj la s h) cc.recs n (Forall₃.cons ha (.cons hd .nil))
        exact ⟨h1, by simp only [h2], by simp only [h3]⟩
  fit := fun _ _ _ _ _ _ h h' => h.fit1 h' axis
  level := fun _ _ _ h => lin_packetLevel1 h w axis

theorem lin_decObj2 (la : LinAlg R) (s : DecCfgN R × DecStateN R) (h : Lin c x y z) :
    ThreeSt (Coeffs3 (Lin c)) (decObj2 la s x) (decObj2 la s y) (decObj2 la s z) := by
  obtain ⟨h1, h2, h3⟩ := lin_decCallN h 2 la s.1 s.2
  exact ⟨h1, by simp only [decObj2, h2], by simp only [decObj2, h3]⟩

theorem lin_recObj2 (la : LinAlg R) (s : RecCfgN R × RecStateN R) {a b d : Coeffs R}
    (h : Coeffs3 (Lin c) a b d) : ThreeSt (Lin c) (recObj2 la s a) (recObj2 la s b) (recObj2 la s d) := by
  obtain ⟨h1, h2, h3⟩ := lin_recCallN 2 la s.1 s.2 h
  exact ⟨h1, by simp only [recObj2, h2], by simp only [recObj2, h3]⟩

theorem rel_packetMat2 (la : LinAlg R) (w : Wavelet R) (orth : String) (axes : List Int) (sep : Bool) :
    BackendRel (packetMat2 la w orth axes sep) (Lin c) where
  dec := fun cc x y z h => by
    change ThreeSt _ (packetMatDec2 la w orth axes sep cc x) (packetMatDec2 la w orth axes sep cc y)
      (packetMatDec2 la w orth axes sep cc z)
    unfold packetMatDec2
    rw [(lin_planeSizes h axes).1, (lin_planeSizes h axes).2]
    cases planeSizes axes x with
    | error e => exact ⟨.err _, rfl, rfl⟩
    | ok n =>
      obtain ⟨h1, h2, h3⟩ := rel_callKeyed (P := Lin c) (Q := Coeffs3 (Lin c)) (decInitN 2 w (some 1) (.seq axes) orth sep (some "zero"))
        (fun s x y z h => lin_decObj2 la s h) cc.decs n h
      exact ⟨Three.bind h1 fun _ _ _ h => lin_unpack2 h, by simp only [h2], by simp only [h3]⟩
  syn := fun cc xs ys zs h => by
    change ThreeSt _ (packetMatSyn2 la w orth axes sep cc xs) (packetMatSyn2 la w orth axes sep cc ys)
      (packetMatSyn2 la w orth axes sep cc zs)
    unfold packetMatSyn2
    cases h with
    | nil => exact ⟨.err _, rfl, rfl⟩
    | @cons xa _ _ _ _ _ h1 hs =>
    cases hs with
    | nil => exact ⟨.err _, rfl, rfl⟩
    | cons h2 hs =>
    cases hs with
    | nil => exact ⟨.err _, rfl, rfl⟩
    | cons h3 hs =>
    cases hs with
    | nil => exact ⟨.err _, rfl, rfl⟩
    | cons h4 hs =>
    cases hs with
    | cons _ _ => exact ⟨.err _, rfl, rfl⟩
    | nil =>
      simp only
      rw [(lin_planeSizes h1 axes).1, (lin_planeSizes h1 axes).2]
      generalize planeSizes axes xa = q
      cases q with
      | error e => exact ⟨.err _, rfl, rfl⟩
      | ok n =>
        obtain ⟨r1, r2, r3⟩ := rel_callKeyed (P := Coeffs3 (Lin c)) (Q := Lin c) (recInitN 2 w (.seq axes) orth sep)
          (fun s x y z h => lin_recObj2 la s h) cc.recs n
          (coeffs3_tuple h1 h2 h3 h4)
        exact ⟨r1, by simp only [r2], by simp only [r3]⟩
  fit := fun _ _ _ _ _ _ h h' => h.fit2 h' axes
  level := fun _ _ _ h => lin_packetLevel2 h w axes

end matbackends

end Verif.Spec
