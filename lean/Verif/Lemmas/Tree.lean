import Verif.Model.Util

/-! Relational reasoning about coefficient containers. -/

namespace Verif
open Tensor
variable {R : Type} [Zero R]

/-- `P` holds between corresponding tensors of two entries of the same kind. -/
inductive EntryRel (P : Tensor R → Tensor R → Prop) : Entry R → Entry R → Prop
  | tensor {t u} : P t u → EntryRel P (.tensor t) (.tensor u)
  | tuple {h v d h' v' d'} : P h h' → P v v' → P d d' → EntryRel P (.tuple h v d) (.tuple h' v' d')
  | dict {kv kv' : List (String × Tensor R)} :
      List.Forall₂ (fun a b => a.1 = b.1 ∧ P a.2 b.2) kv kv' → EntryRel P (.dict kv) (.dict kv')

/-- Containers of the same structure with `P` between corresponding tensors. -/
structure CoeffRel (P : Tensor R → Tensor R → Prop) (c c' : Coeffs R) : Prop where
  kind : c.isList = c'.isList
  items : List.Forall₂ (EntryRel P) c.items c'.items

/-- Predicate on all tensors of an entry; `other` objects are not allowed. -/
def Entry.All (P : Tensor R → Prop) : Entry R → Prop
  | .tensor t => P t
  | .tuple h v d => P h ∧ P v ∧ P d
  | .dict kv => ∀ e ∈ kv, P e.2
  | .other => False

/-- A well-formed coefficient container (first entry a tensor, details either all tensors in a
list, or tuples/dicts in a tuple), all of whose tensors satisfy `P`. -/
structure Coeffs.WF (P : Tensor R → Prop) (c : Coeffs R) : Prop where
  head : ∃ t rest, c.items = .tensor t :: rest
  all : ∀ e ∈ c.items, e.All P
  kind : ∀ e ∈ c.items.tail, c.isList = true ↔ ∃ t, e = .tensor t

theorem mapM_dict_ok {P : Tensor R → Tensor R → Prop} {f : Tensor R → Except Err (Tensor R)} :
    ∀ (kv : List (String × Tensor R)), (∀ e ∈ kv, ∃ u, f e.2 = .ok u ∧ P e.2 u) →
      ∃ kv', (kv.mapM fun (x : String × Tensor R) => do let t ← f x.2; pure (x.1, t))
          = (Except.ok kv' : Except Err _)
        ∧ List.Forall₂ (fun a b => a.1 = b.1 ∧ P a.2 b.2) kv kv'
  | [], _ => ⟨[], rfl, .nil⟩
  | e :: kv, h => by
    obtain ⟨u, hu, hp⟩ := h e (by simp)
    obtain ⟨kv', h1, h2⟩ := mapM_dict_ok kv fun e he => h e (by simp [he])
    refine ⟨(e.1, u) :: kv', ?_, .cons ⟨rfl, hp⟩ h2⟩
    rw [List.mapM_cons, hu, h1]; rfl

theorem Entry.mapM_ok {P : Tensor R → Tensor R → Prop} {f : Tensor R → Except Err (Tensor R)}
    (e : Entry R) (h : e.All fun t => ∃ u, f t = .ok u ∧ P t u) :
    ∃ e', e.mapM f = .ok e' ∧ EntryRel P e e' := by
  cases e with
  | tensor t =>
    obtain ⟨u, hu, hp⟩ := h
    exact ⟨.tensor u, by simp only [Entry.mapM, hu]; rfl, .tensor hp⟩
  | tuple a b c =>
    obtain ⟨⟨a', ha, pa⟩, ⟨b', hb, pb⟩, ⟨c', hc, pc⟩⟩ := h
    exact ⟨.tuple a' b' c', by simp only [Entry.mapM, ha, hb, hc]; rfl, .tuple pa pb pc⟩
  | dict kv =>
    obtain ⟨kv', h1, h2⟩ := mapM_dict_ok (P := P) kv h
    exact ⟨.dict kv', by simp only [Entry.mapM]; rw [h1]; rfl, .dict h2⟩
  | other => exact h.elim

theorem entries_mapM_ok {P : Tensor R → Tensor R → Prop} {f : Tensor R → Except Err (Tensor R)} :
    ∀ (es : List (Entry R)), (∀ e ∈ es, e.All fun t => ∃ u, f t = .ok u ∧ P t u) →
      ∃ es', es.mapM (Entry.mapM f) = .ok es' ∧ List.Forall₂ (EntryRel P) es es'
  | [], _ => ⟨[], rfl, .nil⟩
  | e :: es, h => by
    obtain ⟨e', h1, h2⟩ := Entry.mapM_ok (P := P) e (h e (by simp))
    obtain ⟨es', h3, h4⟩ := entries_mapM_ok es fun e he => h e (by simp [he])
    exact ⟨e' :: es', by rw [List.mapM_cons, h1, h3]; rfl, .cons h2 h4⟩

theorem coeffTreeMap_ok {P : Tensor R → Tensor R → Prop} {f : Tensor R → Except Err (Tensor R)}
    {c : Coeffs R} (h : c.WF fun t => ∃ u, f t = .ok u ∧ P t u) :
    ∃ c', coeffTreeMap c f = .ok c' ∧ CoeffRel P c c' := by
  obtain ⟨⟨t, rest, hi⟩, hall, hk⟩ := h
  obtain ⟨b, items⟩ := c
  simp only at hi hall hk
  subst hi
  obtain ⟨u, hu, pu⟩ := hall (.tensor t) (by simp)
  obtain ⟨res, h1, h2⟩ := entries_mapM_ok (P := P) rest fun e he => hall e (by simp [he])
  simp only [coeffTreeMap, hu, h1]
  cases h2 with
  | nil => exact ⟨_, rfl, rfl, .cons (.tensor pu) .nil⟩
  | @cons a a' l l' ha hl =>
    have := hk a (by simp)
    cases ha with
    | tensor hp =>
      refine ⟨_, rfl, ?_, .cons (.tensor pu) (.cons (.tensor hp) hl)⟩
      exact this.mpr ⟨_, rfl⟩
    | tuple q1 q2 q3 =>
      refine ⟨_, rfl, ?_, .cons (.tensor pu) (.cons (.tuple q1 q2 q3) hl)⟩
      simp only [Bool.eq_false_iff]
      intro hb
      obtain ⟨_, h⟩ := this.mp hb
      simp at h
    | dict q =>
      refine ⟨_, rfl, ?_, .cons (.tensor pu) (.cons (.dict q) hl)⟩
      simp only [Bool.eq_false_iff]
      intro hb
      obtain ⟨_, h⟩ := this.mp hb
      simp at h

theorem Entry.All.imp {P Q : Tensor R → Prop} (hpq : ∀ t, P t → Q t) :
    ∀ {e : Entry R}, e.All P → e.All Q
  | .tensor _, h => hpq _ h
  | .tuple _ _ _, h => ⟨hpq _ h.1, hpq _ h.2.1, hpq _ h.2.2⟩
  | .dict _, h => fun e he => hpq _ (h e he)
  | .other, h => h

theorem Coeffs.WF.imp {P Q : Tensor R → Prop} (hpq : ∀ t, P t → Q t) {c : Coeffs R}
    (h : c.WF P) : c.WF Q :=
  ⟨h.head, fun e he => (h.all e he).imp hpq, h.kind⟩

theorem EntryRel.all {P : Tensor R → Tensor R → Prop} {e e' : Entry R} (h : EntryRel P e e') :
    e'.All fun u => ∃ t, P t u := by
  cases h with
  | tensor h => exact ⟨_, h⟩
  | tuple a b c => exact ⟨⟨_, a⟩, ⟨_, b⟩, ⟨_, c⟩⟩
  | dict h =>
    intro e he
    induction h with
    | nil => simp at he
    | cons h1 _ ih =>
      rcases List.mem_cons.mp he with rfl | he
      · exact ⟨_, h1.2⟩
      · exact ih he

theorem EntryRel.comp {P Q S : Tensor R → Tensor R → Prop}
    (hpq : ∀ a b c, P a b → Q b c → S a c) {e e' e'' : Entry R} (h : EntryRel P e e')
    (h' : EntryRel Q e' e'') : EntryRel S e e'' := by
  cases h with
  | tensor h => cases h' with | tensor h' => exact .tensor (hpq _ _ _ h h')
  | tuple a b c => cases h' with
    | tuple a' b' c' => exact .tuple (hpq _ _ _ a a') (hpq _ _ _ b b') (hpq _ _ _ c c')
  | dict h => cases h' with
    | dict h' =>
      refine .dict ?_
      rename_i kv kv' kv''
      induction h generalizing kv'' with
      | nil => cases h'; exact .nil
      | cons a _ ih => cases h' with
        | cons b h' => exact .cons ⟨a.1.trans b.1, hpq _ _ _ a.2 b.2⟩ (ih h')

theorem CoeffRel.comp {P Q S : Tensor R → Tensor R → Prop}
    (hpq : ∀ a b c, P a b → Q b c → S a c) {c c' c'' : Coeffs R} (h : CoeffRel P c c')
    (h' : CoeffRel Q c' c'') : CoeffRel S c c'' := by
  refine ⟨h.kind.trans h'.kind, ?_⟩
  obtain ⟨_, items⟩ := c
  obtain ⟨_, items'⟩ := c'
  obtain ⟨_, items''⟩ := c''
  have h1 := h.items
  have h2 := h'.items
  simp only at h1 h2 ⊢
  clear h h'
  induction h1 generalizing items'' with
  | nil => cases h2; exact .nil
  | cons a _ ih => cases h2 with
    | cons b h2 => exact .cons (a.comp hpq b) (ih _ h2)

theorem EntryRel.tensor_iff {P : Tensor R → Tensor R → Prop} {e e' : Entry R}
    (h : EntryRel P e e') : (∃ t, e = .tensor t) ↔ ∃ t, e' = .tensor t := by
  cases h <;> simp

/-- A container related to a well-formed one is well-formed. -/
theorem CoeffRel.wf {P : Tensor R → Tensor R → Prop} {Q : Tensor R → Prop}
    {c c' : Coeffs R} (h : CoeffRel P c c') (hw : c.WF fun _ => True)
    (hpq : ∀ t u, P t u → Q u) : c'.WF Q := by
  obtain ⟨b, items⟩ := c
  obtain ⟨b', items'⟩ := c'
  obtain ⟨hk, hi⟩ := h
  simp only at hk hi
  subst hk
  obtain ⟨⟨t, rest, ht⟩, hall, hkind⟩ := hw
  clear hall
  simp only at ht hkind
  subst ht
  cases hi with
  | @cons a a' l l' h1 h2 =>
    refine ⟨?_, ?_, ?_⟩
    · cases h1 with
      | tensor h => exact ⟨_, _, rfl⟩
    · intro e he
      simp only [List.mem_cons] at he
      rcases he with rfl | he
      · exact h1.all.imp fun u ⟨t, ht⟩ => hpq t u ht
      · clear hkind h1
        induction h2 with
        | nil => simp at he
        | cons h _ ih =>
          rcases List.mem_cons.mp he with rfl | he
          · exact h.all.imp fun u ⟨t, ht⟩ => hpq t u ht
          · exact ih he
    · intro e he
      simp only [List.tail_cons] at he hkind
      clear h1
      induction h2 with
      | nil => simp at he
      | @cons x y l l' h _ ih =>
        rcases List.mem_cons.mp he with rfl | he
        · rw [hkind x (by simp)]; exact h.tensor_iff
        · exact ih (fun e he => hkind e (by simp [he])) he

/-! ### Flat lists -/

theorem ofList_wf {P : Tensor R → Prop} {ts : List (Tensor R)} (hne : ts ≠ [])
    (h : ∀ t ∈ ts, P t) : (Coeffs.ofList ts).WF P := by
  cases ts with
  | nil => exact absurd rfl hne
  | cons t ts =>
    refine ⟨⟨t, ts.map .tensor, rfl⟩, ?_, ?_⟩
    · intro e he
      simp only [Coeffs.ofList, List.mem_map] at he
      obtain ⟨u, hu, rfl⟩ := he
      exact h u hu
    · intro e he
      simp only [Coeffs.ofList, List.map_cons, List.tail_cons, List.mem_map] at he
      obtain ⟨u, hu, rfl⟩ := he
      simp [Coeffs.ofList]

@[simp] theorem toList_ofList (ts : List (Tensor R)) : (Coeffs.ofList ts).toList = ts := by
  simp only [Coeffs.toList, Coeffs.ofList, List.filterMap_map]
  exact List.filterMap_some

theorem CoeffRel.ofList {P : Tensor R → Tensor R → Prop} {ts : List (Tensor R)} {c : Coeffs R}
    (h : CoeffRel P (Coeffs.ofList ts) c) :
    ∃ us, c = Coeffs.ofList us ∧ List.Forall₂ P ts us := by
  obtain ⟨b, items⟩ := c
  obtain ⟨hk, hi⟩ := h
  simp only [Coeffs.ofList] at hk hi
  subst hk
  have : ∃ us : List (Tensor R), items = us.map .tensor ∧ List.Forall₂ P ts us := by
    induction ts generalizing items with
    | nil => cases hi; exact ⟨[], rfl, .nil⟩
    | cons t ts ih =>
      cases hi with
      | cons a h =>
        obtain ⟨us, rfl, h2⟩ := ih _ h
        cases a with
        | tensor hp => exact ⟨_ :: us, rfl, .cons hp h2⟩
  obtain ⟨us, rfl, h⟩ := this
  exact ⟨us, rfl, h⟩

theorem headTensor_ofList (t : Tensor R) (ts : List (Tensor R)) :
    headTensor (Coeffs.ofList (t :: ts)) = .ok t := rfl

/-- The head tensors of related containers are related. -/
theorem CoeffRel.head {P : Tensor R → Tensor R → Prop} {c c' : Coeffs R} (h : CoeffRel P c c')
    {t : Tensor R} (ht : headTensor c = .ok t) : ∃ u, headTensor c' = .ok u ∧ P t u := by
  obtain ⟨b, items⟩ := c
  obtain ⟨b', items'⟩ := c'
  obtain ⟨hk, hi⟩ := h
  cases hi with
  | nil => simp [headTensor] at ht
  | cons h1 _ =>
    cases h1 with
    | tensor hp =>
      simp only [headTensor, Except.ok.injEq] at ht
      subst ht
      exact ⟨_, rfl, hp⟩
    | tuple _ _ _ => simp [headTensor] at ht
    | dict _ => simp [headTensor] at ht

theorem Coeffs.WF.headTensor {P : Tensor R → Prop} {c : Coeffs R} (h : c.WF P) :
    ∃ t, headTensor c = .ok t ∧ P t := by
  obtain ⟨t, rest, hi⟩ := h.head
  refine ⟨t, by simp [Verif.headTensor, hi], ?_⟩
  exact h.all (.tensor t) (by simp [hi])

end Verif
