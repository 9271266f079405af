import Verif.Lemmas.RelN
import Verif.Model.Packet2

/-! Packet objects respect relations between two coefficient rings: the same history of operations on related
data has related outcomes. -/

namespace Verif.Spec
open Tensor Backend
variable {C C' T T' : Type} {A : T → T' → Prop} {Q : C → C' → Prop}

/-- Two optional values: both absent, or both present and related. -/
inductive Opt2 {α β : Type} (A : α → β → Prop) : Option α → Option β → Prop where
  | none : Opt2 A none none
  | some {a b} : A a b → Opt2 A (some a) (some b)

/-- Packet objects in related states. -/
structure Pkt2 (A : T → T' → Prop) (Q : C → C' → Prop) (s : Pkt C T) (s' : Pkt C' T') : Prop where
  data : ∀ k, Opt2 A (s.data k) (s'.data k)
  maxlevel : s'.maxlevel = s.maxlevel
  cache : Q s.cache s'.cache

/-- The transforms called by two packet classes are related. -/
structure BackRel (A : T → T' → Prop) (Q : C → C' → Prop) (B : Backend C T) (B' : Backend C' T') : Prop where
  alphabet : B'.alphabet = B.alphabet
  nodes : B'.nodes = B.nodes
  dec : ∀ {c c' t t'}, Q c c' → A t t' →
    Two (List.Forall₂ A) (B.dec c t).1 (B'.dec c' t').1 ∧ Q (B.dec c t).2 (B'.dec c' t').2
  syn : ∀ {c c' t t'}, Q c c' → List.Forall₂ A t t' →
    Two A (B.syn c t).1 (B'.syn c' t').1 ∧ Q (B.syn c t).2 (B'.syn c' t').2
  fit : ∀ {a a' b b'}, A a a' → A b b' → Two A (B.fit a b) (B'.fit a' b')
  defaultLevel : ∀ {t t'}, A t t' → B'.defaultLevel t' = B.defaultLevel t

/-- Related results together with related states. -/
def PRel {α β : Type} (A : T → T' → Prop) (Q : C → C' → Prop) (V : α → β → Prop) (r : Except Err α × Pkt C T)
    (r' : Except Err β × Pkt C' T') : Prop :=
  Two V r.1 r'.1 ∧ Pkt2 A Q r.2 r'.2

/-- Operations with related arguments. -/
inductive Op2 (A : T → T' → Prop) : Op T → Op T' → Prop where
  | read (k : Key) : Op2 A (.read k) (.read k)
  | init (ks : List Key) : Op2 A (.init ks) (.init ks)
  | set (k : Key) {t t'} : A t t' → Op2 A (.set k t) (.set k t')
  | transform {x x'} (L : Option Int) : A x x' → Op2 A (.transform x L) (.transform x' L)
  | reconstruct : Op2 A .reconstruct .reconstruct

/-- Related outcomes. -/
inductive Out2 (A : T → T' → Prop) : Out T → Out T' → Prop where
  | value {t t'} : A t t' → Out2 A (.value t) (.value t')
  | done : Out2 A .done .done
  | raised (e : Err) : Out2 A (.raised e) (.raised e)

theorem PRel.andThen {α β γ δ : Type} {V : α → β → Prop} {W : γ → δ → Prop} {r : Except Err α × Pkt C T}
    {r' : Except Err β × Pkt C' T'} {f : α → Pkt C T → Except Err γ × Pkt C T}
    {f' : β → Pkt C' T' → Except Err δ × Pkt C' T'} (h : PRel A Q V r r')
    (hf : ∀ a b s s', V a b → Pkt2 A Q s s' → PRel A Q W (f a s) (f' b s')) :
    PRel A Q W (andThen r f) (andThen r' f') := by
  obtain ⟨r1, s⟩ := r
  obtain ⟨r1', s'⟩ := r'
  obtain ⟨h1, h2⟩ := h
  simp only at h1 h2
  cases h1 with
  | err e => exact ⟨.err e, h2⟩
  | ok hv => exact hf _ _ _ _ hv h2

theorem Pkt2.set {s : Pkt C T} {s' : Pkt C' T'} (h : Pkt2 A Q s s') (k : Key) {t : T} {t' : T'} (ht : A t t') :
    Pkt2 A Q { s with data := s.data.set k t } { s' with data := s'.data.set k t' } := by
  refine ⟨fun k' => ?_, h.maxlevel, h.cache⟩
  simp only [PMap.set]
  split_ifs
  · exact .some ht
  · exact h.data k'

theorem Pkt2.store {p : Key} : ∀ (cs : List Char) {vs : List T} {vs' : List T'},
    List.Forall₂ A vs vs' → ∀ {s : Pkt C T} {s' : Pkt C' T'}, Pkt2 A Q s s' →
    Pkt2 A Q { s with data := store s.data p (cs.zip vs) } { s' with data := store s'.data p (cs.zip vs') }
  | [], _, _, _, s, s', h => h
  | c :: cs, _, _, .nil, s, s', h => h
  | c :: cs, _, _, .cons h1 hv, s, s', h => by
    simp only [List.zip_cons_cons, Backend.store]
    exact Pkt2.store cs hv (s := { s with data := s.data.set (p ++ [c]) _ })
      (s' := { s' with data := s'.data.set (p ++ [c]) _ }) (h.set _ h1)

section
variable {B : Backend C T} {B' : Backend C' T'} (hB : BackRel A Q B B') {s : Pkt C T} {s' : Pkt C' T'}
include hB

theorem two_expandWith (h : Pkt2 A Q s s') (p : Key) {d : T} {d' : T'} (hd : A d d') :
    PRel A Q (fun _ _ => True) (B.expandWith s p d) (B'.expandWith s' p d') := by
  obtain ⟨h1, h2⟩ := hB.dec h.cache hd
  refine PRel.andThen (V := List.Forall₂ A) ⟨h1, h.data, h.maxlevel, h2⟩ fun vs vs' t t' hv ht => ?_
  rw [hB.alphabet, ← hv.length_eq]
  split_ifs
  · exact ⟨.ok trivial, ht.store _ hv⟩
  · exact ⟨.err _, ht⟩

omit hB in
theorem two_lookup (h : Pkt2 A Q s s') (k : Key) : PRel A Q A (lookup s k) (lookup s' k) := by
  unfold lookup
  have := h.data k
  revert this
  generalize s.data k = a
  generalize s'.data k = b
  intro hab
  cases hab with
  | none => exact ⟨.err _, h⟩
  | some hab => exact ⟨.ok hab, h⟩

theorem two_getitem (n : Nat) : ∀ (k : Key), k.length ≤ n → ∀ {s : Pkt C T} {s' : Pkt C' T'}, Pkt2 A Q s s' →
    PRel A Q A (B.getitem s k) (B'.getitem s' k) := by
  induction n with
  | zero =>
    intro k hk s s' h
    obtain rfl : k = [] := List.length_eq_zero_iff.1 (by omega)
    unfold getitem
    rw [h.maxlevel]
    split
    · exact ⟨.err _, h⟩
    · have hd := h.data []
      revert hd
      generalize s.data [] = a
      generalize s'.data [] = b
      intro hab
      cases hab with
      | some hab => exact ⟨.ok hab, h⟩
      | none =>
        simp only
        split_ifs
        · exact ⟨.err _, h⟩
        · exact ⟨.err _, h⟩
  | succ n ih =>
    intro k hk s s' h
    unfold getitem
    rw [h.maxlevel]
    split
    · exact ⟨.err _, h⟩
    · have hd := h.data k
      revert hd
      generalize s.data k = a
      generalize s'.data k = b
      intro hab
      cases hab with
      | some hab => exact ⟨.ok hab, h⟩
      | none =>
        simp only [hB.alphabet]
        split_ifs with c1 c2 c3
        · exact ⟨.err _, h⟩
        · exact ⟨.err _, h⟩
        rotate_left
        · exact ⟨.err _, h⟩
        · refine (ih k.dropLast (by simp only [List.length_dropLast]; omega) h).andThen fun d d' t t' hd ht => ?_
          exact (two_expandWith hB ht _ hd).andThen fun _ _ u u' _ hu => two_lookup hu k

theorem two_initKeys : ∀ (ks : List Key) {s : Pkt C T} {s' : Pkt C' T'}, Pkt2 A Q s s' →
    PRel A Q (fun _ _ => True) (B.initKeys s ks) (B'.initKeys s' ks)
  | [], _, _, h => ⟨.ok trivial, h⟩
  | k :: ks, _, _, h => (two_getitem hB _ k le_rfl h).andThen fun _ _ _ _ _ h => two_initKeys ks h

theorem two_transform (h : Pkt2 A Q s s') {x : T} {x' : T'} (hx : A x x') (L : Option Int) :
    PRel A Q (fun _ _ => True) (B.transform s x L) (B'.transform s' x' L) := by
  unfold Backend.transform
  have h0 : ∀ k, Opt2 A (PMap.set (fun _ : Key => none) [] x k)
      (PMap.set (fun _ : Key => none) [] x' k) := by
    intro k
    simp only [PMap.set]
    split_ifs
    · exact .some hx
    · exact .none
  simp only [hB.defaultLevel hx]
  split
  · exact ⟨.ok trivial, h0, rfl, h.cache⟩
  · split
    · exact ⟨.ok trivial, h0, rfl, h.cache⟩
    · exact ⟨.err _, h0, h.maxlevel, h.cache⟩

theorem two_readChildren (node : Key) : ∀ (cs : List Char) {s : Pkt C T} {s' : Pkt C' T'}, Pkt2 A Q s s' →
    PRel A Q (List.Forall₂ A) (B.readChildren s node cs) (B'.readChildren s' node cs)
  | [], _, _, h => ⟨.ok .nil, h⟩
  | c :: cs, _, _, h => (two_getitem hB _ _ le_rfl h).andThen fun _ _ _ _ hv h =>
      (two_readChildren node cs h).andThen fun _ _ _ _ hvs h => ⟨.ok (.cons hv hvs), h⟩

theorem two_cut (h : Pkt2 A Q s s') (l : Nat) (node : Key) {r : T} {r' : T'} (hr : A r r') :
    PRel A Q A (B.cut s l node r) (B'.cut s' l node r') := by
  unfold cut
  split_ifs
  · exact (two_getitem hB _ _ le_rfl h).andThen fun _ _ _ _ hv h => ⟨hB.fit hr hv, h⟩
  · exact ⟨.ok hr, h⟩

theorem two_recNode (h : Pkt2 A Q s s') (l : Nat) (node : Key) :
    PRel A Q (fun _ _ => True) (B.recNode s l node) (B'.recNode s' l node) := by
  unfold recNode
  have e : ∀ k, (s'.data k).isSome = (s.data k).isSome := by
    intro k
    have := h.data k
    revert this
    generalize s.data k = a
    generalize s'.data k = b
    intro hab
    cases hab <;> rfl
  simp only [hB.alphabet, e]
  split_ifs
  · refine (two_readChildren hB node _ h).andThen fun vs vs' t t' hv ht => ?_
    obtain ⟨h1, h2⟩ := hB.syn ht.cache hv
    refine PRel.andThen (V := A) ⟨h1, ht.data, ht.maxlevel, h2⟩ fun r r' u u' hr hu => ?_
    exact (two_cut hB hu l node hr).andThen fun _ _ _ _ hv h => ⟨.ok trivial, h.set _ hv⟩
  · exact ⟨.err _, h⟩

theorem two_recNodes (l : Nat) : ∀ (ks : List Key) {s : Pkt C T} {s' : Pkt C' T'}, Pkt2 A Q s s' →
    PRel A Q (fun _ _ => True) (B.recNodes s l ks) (B'.recNodes s' l ks)
  | [], _, _, h => ⟨.ok trivial, h⟩
  | k :: ks, _, _, h => (two_recNode hB h l k).andThen fun _ _ _ _ _ h => two_recNodes l ks h

theorem two_recLevels : ∀ (l : Nat) {s : Pkt C T} {s' : Pkt C' T'}, Pkt2 A Q s s' →
    PRel A Q (fun _ _ => True) (B.recLevels s l) (B'.recLevels s' l)
  | 0, _, _, h => ⟨.ok trivial, h⟩
  | l + 1, _, _, h => by
    unfold recLevels
    rw [hB.nodes]
    exact (two_recNodes hB l _ h).andThen fun _ _ _ _ _ h => two_recLevels l h

theorem two_reconstruct (h : Pkt2 A Q s s') :
    PRel A Q (fun _ _ => True) (B.reconstruct s) (B'.reconstruct s') := by
  unfold Backend.reconstruct
  rw [h.maxlevel]
  split
  · exact two_recLevels hB _ h
  · refine (two_getitem hB _ _ le_rfl h).andThen fun d d' t t' hd ht => ?_
    rw [hB.defaultLevel hd]
    split
    · exact ⟨.err _, ht⟩
    · exact two_recLevels hB _ ⟨ht.data, rfl, ht.cache⟩

omit hB in
theorem two_observe {α β : Type} {V : α → β → Prop} {r : Except Err α × Pkt C T} {r' : Except Err β × Pkt C' T'}
    (h : PRel A Q V r r') {f : α → Out T} {f' : β → Out T'} (hf : ∀ a b, V a b → Out2 A (f a) (f' b)) :
    Out2 A (observe r f).1 (observe r' f').1 ∧ Pkt2 A Q (observe r f).2 (observe r' f').2 := by
  obtain ⟨r1, s⟩ := r
  obtain ⟨r1', s'⟩ := r'
  obtain ⟨h1, h2⟩ := h
  simp only at h1 h2
  cases h1 with
  | err e => exact ⟨.raised e, h2⟩
  | ok hv => exact ⟨hf _ _ hv, h2⟩

theorem two_step (h : Pkt2 A Q s s') {o : Op T} {o' : Op T'} (ho : Op2 A o o') :
    Out2 A (B.step s o).1 (B'.step s' o').1 ∧ Pkt2 A Q (B.step s o).2 (B'.step s' o').2 := by
  cases ho with
  | read k => exact two_observe (two_getitem hB _ k le_rfl h) fun _ _ h => .value h
  | init ks => exact two_observe (two_initKeys hB ks h) fun _ _ _ => .done
  | set k ht => exact ⟨.done, h.set k ht⟩
  | transform L hx => exact two_observe (two_transform hB h hx L) fun _ _ _ => .done
  | reconstruct => exact two_observe (two_reconstruct hB h) fun _ _ _ => .done

theorem two_run {ops : List (Op T)} {ops' : List (Op T')} (ho : List.Forall₂ (Op2 A) ops ops') :
    ∀ {s : Pkt C T} {s' : Pkt C' T'}, Pkt2 A Q s s' →
    List.Forall₂ (Out2 A) (B.run s ops).1 (B'.run s' ops').1 ∧
      Pkt2 A Q (B.run s ops).2 (B'.run s' ops').2 := by
  induction ho with
  | nil => exact fun h => ⟨.nil, h⟩
  | cons h1 _ ih =>
    intro s s' h
    obtain ⟨h2, h3⟩ := two_step hB h h1
    obtain ⟨h4, h5⟩ := ih h3
    exact ⟨.cons h2 h4, h5⟩

end

/-! ### the two classes -/

variable {R S : Type} [NonUnitalNonAssocSemiring R] [NonUnitalNonAssocSemiring S] {P : R → S → Prop}
  {x : Tensor R} {y : Tensor S} {w : Wavelet R} {v : Wavelet S}

theorem rel_sizeAt (h : TRel P x y) (a : Int) : sizeAt y a = sizeAt x a := by
  unfold sizeAt
  rw [h.rank, h.shape]

theorem TRel.fit1 (hc : Closed P) (h : TRel P x y) {x' : Tensor R} {y' : Tensor S} (h' : TRel P x' y') (a : Int) :
    Two (TRel P) (fit1 a x x') (fit1 a y y') := by
  unfold Verif.fit1
  rw [rel_sizeAt h, rel_sizeAt h', h.rank]
  refine Two.bind Two.refl_eq ?_
  rintro n _ rfl
  refine Two.bind Two.refl_eq ?_
  rintro m _ rfl
  refine Two.bind Two.refl_eq ?_
  rintro k _ rfl
  refine Two.ite _ (.ok h) (Two.ite _ (.ok ?_) (.err _))
  exact ((h.transpose hc.zero _ _).slice hc.zero _ _ _).transpose hc.zero _ _

theorem two_packet1 (hc : Closed P) (hw : WRel P w v) (mode : Option String) (axis : Int) :
    BackRel (TRel P) (fun _ _ => True) (packet1 w mode axis) (packet1 v mode axis) where
  alphabet := rfl
  nodes := rfl
  dec := by
    intro c c' t t' _ ht
    refine ⟨?_, trivial⟩
    show Two _ (packetDec1 w mode axis t) (packetDec1 v mode axis t')
    unfold packetDec1
    rw [rel_sizeAt ht]
    exact Two.bind Two.refl_eq fun _ _ _ => rel_wavedec hc ht hw _ _ _
  syn := by
    intro c c' t t' _ ht
    refine ⟨?_, trivial⟩
    show Two _ (packetSyn1 w axis t) (packetSyn1 v axis t')
    unfold packetSyn1
    cases ht with
    | nil => exact .err _
    | cons h1 hs =>
      simp only [rel_sizeAt h1]
      exact Two.bind Two.refl_eq fun _ _ _ => rel_waverec hc (.cons h1 hs) hw _
  fit := fun h h' => h.fit1 hc h' axis
  defaultLevel := by
    intro t t' ht
    show packetLevel1 v axis t' = packetLevel1 w axis t
    unfold packetLevel1
    rw [rel_sizeAt ht, hw.len]

theorem rel_planeSizes (h0 : P 0 0) (h : TRel P x y) (axes : List Int) : planeSizes axes y = planeSizes axes x := by
  unfold planeSizes
  have hs := h.swapAxes h0 axes
  revert hs
  generalize swapAxes x axes = a
  generalize swapAxes y axes = b
  intro hs
  cases hs with
  | err e => rfl
  | ok hs =>
    show Except.ok _ = Except.ok _
    rw [hs.shape, hs.rank]

theorem TRel.cutDim (h0 : P 0 0) (h : TRel P x y) {x' : Tensor R} {y' : Tensor S} (h' : TRel P x' y') (k : Nat) :
    Two (TRel P) (cutDim k x x') (cutDim k y y') := by
  unfold Verif.cutDim
  rw [h.sizeFromEnd, h'.sizeFromEnd, h.rank]
  exact Two.ite _ (.ok h) (Two.ite _ (.ok (h.slice h0 _ _ _)) (.err _))

theorem TRel.fit2 (h0 : P 0 0) (h : TRel P x y) {x' : Tensor R} {y' : Tensor S} (h' : TRel P x' y')
    (axes : List Int) : Two (TRel P) (fit2 axes x x') (fit2 axes y y') := by
  unfold Verif.fit2
  refine Two.bind (h.swapAxes h0 axes) fun _ _ h => Two.bind (h'.swapAxes h0 axes) fun _ _ h' => ?_
  exact Two.bind (h.cutDim h0 h' 1) fun _ _ h => Two.bind (h.cutDim h0 h' 2) fun _ _ h => h.undoSwapAxes h0 axes

theorem rel_unpack2 {c : Coeffs R} {d : Coeffs S} (h : Coeffs2 (TRel P) c d) :
    Two (List.Forall₂ (TRel P)) (unpack2 c) (unpack2 d) := by
  obtain ⟨k, it⟩ := c
  obtain ⟨k', it'⟩ := d
  obtain ⟨-, h⟩ := h
  simp only at h
  unfold unpack2
  simp only
  cases h with
  | nil => exact .err _
  | cons h1 h =>
    cases h with
    | nil => cases h1 <;> exact .err _
    | cons h2 h =>
      cases h with
      | cons h3 h => cases h1 <;> cases h2 <;> exact .err _
      | nil =>
        cases h1 with
        | tensor ha =>
          cases h2 with
          | tuple h b d => exact .ok (.cons ha (.cons h (.cons b (.cons d .nil))))
          | tensor _ => exact .err _
          | dict _ => exact .err _
          | other => exact .err _
        | tuple _ _ _ => exact .err _
        | dict _ => exact .err _
        | other => exact .err _

theorem rel_unpackFsdict {c : Coeffs R} {d : Coeffs S} (h : Coeffs2 (TRel P) c d) :
    Two (List.Forall₂ (TRel P)) (unpackFsdict c) (unpackFsdict d) := by
  obtain ⟨k, it⟩ := c
  obtain ⟨k', it'⟩ := d
  obtain ⟨-, h⟩ := h
  simp only at h
  unfold unpackFsdict
  simp only
  cases h with
  | nil => exact .err _
  | cons h1 h =>
    cases h with
    | nil => cases h1 <;> exact .err _
    | cons h2 h =>
      cases h with
      | cons h3 h => cases h1 <;> cases h2 <;> exact .err _
      | nil =>
        cases h1 with
        | tensor ha =>
          cases h2 with
          | dict hk =>
            simp only
            refine Two.bind (Dict2.get hk _) fun _ _ r1 => Two.bind (Dict2.get hk _) fun _ _ r2 =>
              Two.bind (Dict2.get hk _) fun _ _ r3 => ?_
            exact .ok (.cons ha (.cons r1 (.cons r2 (.cons r3 .nil))))
          | tensor _ => exact .err _
          | tuple _ _ _ => exact .err _
          | other => exact .err _
        | tuple _ _ _ => exact .err _
        | dict _ => exact .err _
        | other => exact .err _

theorem two_packet2 (hc : Closed P) (hw : WRel P w v) (mode : Option String) (axes : List Int) (sep : Bool) :
    BackRel (TRel P) (fun _ _ => True) (packet2 w mode axes sep) (packet2 v mode axes sep) where
  alphabet := rfl
  nodes := rfl
  dec := by
    intro c c' t t' _ ht
    refine ⟨?_, trivial⟩
    show Two _ (packetDec2 w mode axes sep t) (packetDec2 v mode axes sep t')
    unfold packetDec2
    rw [rel_planeSizes hc.zero ht]
    refine Two.bind Two.refl_eq fun _ _ _ => ?_
    cases sep with
    | true => exact Two.bind (rel_fswavedecn hc ht hw 2 _ _ _) fun _ _ h => rel_unpackFsdict h
    | false => exact Two.bind (rel_wavedec2 hc ht hw _ _ _) fun _ _ h => rel_unpack2 h
  syn := by
    intro c c' t t' _ ht
    refine ⟨?_, trivial⟩
    show Two _ (packetSyn2 w axes sep t) (packetSyn2 v axes sep t')
    unfold packetSyn2
    cases ht with
    | nil => exact .err _
    | cons h1 ht =>
    cases ht with
    | nil => exact .err _
    | cons h2 ht =>
    cases ht with
    | nil => exact .err _
    | cons h3 ht =>
    cases ht with
    | nil => exact .err _
    | cons h4 ht =>
    cases ht with
    | cons _ _ => exact .err _
    | nil =>
      simp only [rel_planeSizes hc.zero h1]
      refine Two.bind Two.refl_eq fun _ _ _ => ?_
      cases sep with
      | true =>
        exact (rel_fswaverecn hc ⟨rfl, .cons (.tensor h1) (.cons (.dict (.cons ⟨rfl, h2⟩ (.cons ⟨rfl, h3⟩
          (.cons ⟨rfl, h4⟩ .nil)))) .nil)⟩ hw 2 _).1
      | false =>
        exact rel_waverec2 hc ⟨rfl, .cons (.tensor h1) (.cons (.tuple h2 h3 h4) .nil)⟩ hw _
  fit := fun h h' => h.fit2 hc.zero h' axes
  defaultLevel := by
    intro t t' ht
    show packetLevel2 v axes t' = packetLevel2 w axes t
    unfold packetLevel2
    rw [rel_planeSizes hc.zero ht, hw.len]

end Verif.Spec
