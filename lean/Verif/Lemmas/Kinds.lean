import Verif.Lemmas.MdAll
import Verif.Lemmas.Prepost

/-! What pre-processing does to containers whose entries may be of different kinds. -/

namespace Verif
open Tensor Spec
variable {R : Type}

/-- Entries of the same kind: `P` between corresponding tensors, or two objects of a foreign type. -/
def KindRel [Zero R] (P : Tensor R → Tensor R → Prop) (e e' : Entry R) : Prop :=
  EntryRel P e e' ∨ (e = .other ∧ e' = .other)

theorem KindRel.refl [Zero R] {P : Tensor R → Tensor R → Prop} (h : ∀ t, P t t) (e : Entry R) : KindRel P e e := by
  cases e with
  | tensor t => exact Or.inl (.tensor (h t))
  | tuple a b c => exact Or.inl (.tuple (h a) (h b) (h c))
  | dict kv => exact Or.inl (.dict (List.forall₂_same.mpr fun x _ => ⟨rfl, h x.2⟩))
  | other => exact Or.inr ⟨rfl, rfl⟩

theorem forall₂_comp {α β γ : Type} {P : α → β → Prop} {Q : β → γ → Prop} {S : α → γ → Prop}
    (h : ∀ a b c, P a b → Q b c → S a c) {l : List α} {m : List β} {n : List γ} (h1 : List.Forall₂ P l m)
    (h2 : List.Forall₂ Q m n) : List.Forall₂ S l n := by
  induction h1 generalizing n with
  | nil => cases h2; exact .nil
  | cons hab _ ih =>
    cases h2 with
    | cons hbc ht => exact .cons (h _ _ _ hab hbc) (ih ht)

theorem KindRel.trans [Zero R] {P Q S : Tensor R → Tensor R → Prop} (h : ∀ x y z, P x y → Q y z → S x z) {a b c : Entry R}
    (h1 : KindRel P a b) (h2 : KindRel Q b c) : KindRel S a c := by
  rcases h1 with h1 | ⟨rfl, rfl⟩
  · rcases h2 with h2 | ⟨rfl, rfl⟩
    · exact Or.inl (h1.comp h h2)
    · cases h1
  · rcases h2 with h2 | ⟨-, rfl⟩
    · cases h2
    · exact Or.inr ⟨rfl, rfl⟩

theorem mapM_forall₂ {ε α β : Type} {g : α → Except ε β} {Q : α → β → Prop} (hg : ∀ a b, g a = .ok b → Q a b) :
    ∀ {l : List α} {r : List β}, l.mapM g = .ok r → List.Forall₂ Q l r
  | [], r, h => by cases h; exact .nil
  | a :: l, r, h => by
    rw [List.mapM_cons] at h
    obtain ⟨b, e1, h⟩ := bind_ok_inv h
    obtain ⟨bs, e2, h⟩ := bind_ok_inv h
    cases h
    exact .cons (hg a b e1) (mapM_forall₂ hg e2)

theorem Entry.mapM_rel [Zero R] {f : Tensor R → Except Err (Tensor R)} {e e' : Entry R} (h : Entry.mapM f e = .ok e') :
    EntryRel (fun t u => f t = .ok u) e e' := by
  cases e with
  | tensor t =>
    obtain ⟨a, e1, h⟩ := bind_ok_inv h
    cases h
    exact .tensor e1
  | tuple a b c =>
    obtain ⟨x, e1, h⟩ := bind_ok_inv h
    obtain ⟨y, e2, h⟩ := bind_ok_inv h
    obtain ⟨z, e3, h⟩ := bind_ok_inv h
    cases h
    exact .tuple e1 e2 e3
  | dict kv =>
    obtain ⟨kv', e1, h⟩ := bind_ok_inv h
    cases h
    refine .dict (mapM_forall₂ ?_ e1)
    rintro ⟨k, t⟩ b hb
    obtain ⟨u, e2, hb⟩ := bind_ok_inv hb
    cases hb
    exact ⟨rfl, e2⟩
  | other => cases h

/-- A successful tree map acts tensor by tensor. -/
theorem coeffTreeMap_rel [Zero R] {f : Tensor R → Except Err (Tensor R)} {c c' : Coeffs R}
    (h : coeffTreeMap c f = .ok c') : List.Forall₂ (EntryRel fun t u => f t = .ok u) c.items c'.items := by
  obtain ⟨b, items⟩ := c
  unfold coeffTreeMap at h
  cases items with
  | nil => cases h
  | cons i rest =>
    cases i with
    | tensor a =>
      simp only at h
      obtain ⟨a', e1, h⟩ := bind_ok_inv h
      obtain ⟨res, e2, h⟩ := bind_ok_inv h
      have hr := mapM_forall₂ (fun _ _ => Entry.mapM_rel) e2
      split at h <;> (cases h; exact .cons (.tensor e1) hr)
    | tuple _ _ _ => cases h
    | dict _ => cases h
    | other => cases h

theorem EntryRel.mono [Zero R] {P Q : Tensor R → Tensor R → Prop} (h : ∀ x y, P x y → Q x y) {e e' : Entry R}
    (he : EntryRel P e e') : EntryRel Q e e' := by
  cases he with
  | tensor a => exact .tensor (h _ _ a)
  | tuple a b c => exact .tuple (h _ _ a) (h _ _ b) (h _ _ c)
  | dict a => exact .dict (a.imp fun _ _ q => ⟨q.1, h _ _ q.2⟩)

/-- Pre-processing keeps the kind of every entry, the keys of the dictionaries and the dtypes and devices. -/
theorem preprocessCoeffs_kinds [Zero R] {c : Coeffs R} {q : Coeffs R × List Nat} {ndim : Nat} {axes : AxisHint}
    (h : preprocessCoeffs c ndim axes false = .ok q) :
    List.Forall₂ (KindRel fun x y => y.md = x.md) c.items q.1.items := by
  unfold preprocessCoeffs at h
  split_ifs at h
  obtain ⟨h0, _, h⟩ := bind_ok_inv h
  split_ifs at h
  obtain ⟨as, _, h⟩ := bind_ok_inv h
  obtain ⟨df, _, h⟩ := bind_ok_inv h
  obtain ⟨c1, e1, h⟩ := bind_ok_inv h
  obtain ⟨h1, _, h⟩ := bind_ok_inv h
  obtain ⟨c2, e2, h⟩ := bind_ok_inv h
  obtain ⟨c3, e3, h⟩ := bind_ok_inv h
  cases h
  have hrefl : ∀ l : List (Entry R), List.Forall₂ (KindRel fun x y : Tensor R => y.md = x.md) l l := fun l =>
    List.forall₂_same.mpr fun e _ => KindRel.refl (P := fun x y : Tensor R => y.md = x.md) (fun _ => rfl) e
  have a1 : List.Forall₂ (KindRel fun x y : Tensor R => y.md = x.md) c.items c1.items := by
    unfold preSwap at e1
    split_ifs at e1
    · exact (coeffTreeMap_rel e1).imp fun _ _ q => Or.inl (q.mono fun _ _ => swapAxes_md)
    · cases e1; exact hrefl _
  have a2 : List.Forall₂ (KindRel fun x y : Tensor R => y.md = x.md) c1.items c2.items := by
    unfold preFold at e2
    split_ifs at e2
    · exact (coeffTreeMap_rel e2).imp fun _ _ q => Or.inl (q.mono fun _ _ h => by cases h; rfl)
    · exact (coeffTreeMap_rel e2).imp fun _ _ q => Or.inl (q.mono fun _ _ => foldAxes_md)
    · cases e2; exact hrefl _
  unfold preChannel at e3
  cases e3
  refine forall₂_comp (P := KindRel fun x y : Tensor R => y.md = x.md) (Q := KindRel fun x y : Tensor R => y.md = x.md)
    ?_ a1 a2
  intro x y z p q
  exact p.trans (fun x y z (p : y.md = x.md) (q : z.md = y.md) => q.trans p) q

theorem forall₂_left {α β : Type} {P : α → β → Prop} {l : List α} {m : List β} (h : List.Forall₂ P l m) :
    ∀ a ∈ l, ∃ b ∈ m, P a b := by
  induction h with
  | nil => simp
  | cons hab _ ih =>
    intro x hx
    rcases List.mem_cons.mp hx with rfl | hx
    · exact ⟨_, by simp, hab⟩
    · obtain ⟨b, hb, q⟩ := ih x hx
      exact ⟨b, by simp [hb], q⟩

theorem forall₂_of_right {α β : Type} {P Q : α → β → Prop} {S : β → Prop} {l : List α} {m : List β} (hs : ∀ b ∈ m, S b)
    (h : List.Forall₂ P l m) (hq : ∀ a b, S b → P a b → Q a b) : List.Forall₂ Q l m := by
  induction h with
  | nil => exact .nil
  | cons hab _ ih => exact .cons (hq _ _ (hs _ (by simp)) hab) (ih fun b hb => hs b (by simp [hb]))

theorem EntryRel.allLeft [Zero R] {P : Tensor R → Tensor R → Prop} {Q : Tensor R → Prop} {e e' : Entry R}
    (h : EntryRel P e e') (hq : ∀ x y, P x y → Q x) : e.All Q := by
  cases h with
  | tensor h => exact hq _ _ h
  | tuple a b c => exact ⟨hq _ _ a, hq _ _ b, hq _ _ c⟩
  | dict h =>
    intro p hp
    obtain ⟨b, -, q⟩ := forall₂_left h p hp
    exact hq _ _ q.2

theorem headTensor_inv [Zero R] {c : Coeffs R} {t : Tensor R} (h : headTensor c = .ok t) :
    ∃ es, c.items = .tensor t :: es := by
  unfold headTensor at h
  split at h
  · cases h
  · cases h; exact ⟨_, by assumption⟩
  · cases h

/-- A successful check: all tensors have the dtype and device of the first entry. -/
theorem checkSame_inv [Zero R] {c : Coeffs R} {md : Meta} (h : checkSameDeviceDtype c = .ok md) :
    ∃ t es, c.items = .tensor t :: es ∧ t.md = md ∧ ∀ e ∈ es, e.All fun u => u.md = md := by
  unfold checkSameDeviceDtype at h
  obtain ⟨t, h0, h⟩ := bind_ok_inv h
  obtain ⟨c1, e1, h⟩ := bind_ok_inv h
  obtain ⟨c2, e2, h⟩ := bind_ok_inv h
  cases h
  obtain ⟨es, hes⟩ := headTensor_inv h0
  refine ⟨t, es, hes, rfl, ?_⟩
  have r1 := coeffTreeMap_rel e1
  have r2 := coeffTreeMap_rel e2
  have hdev : ∀ e ∈ c.items, e.All fun u => t.md.device = u.md.device := by
    intro e he
    obtain ⟨e', -, hr⟩ := forall₂_left r1 e he
    refine hr.allLeft fun x y h => ?_
    unfold checkSameDevice at h
    split_ifs at h with hh
    exact hh
  have hdt : ∀ e ∈ c.items, e.All fun u => t.md.dtype = u.md.dtype := by
    intro e he
    obtain ⟨e', -, hr⟩ := forall₂_left r2 e he
    refine hr.allLeft fun x y h => ?_
    unfold checkSameDtype at h
    split_ifs at h with hh
    exact hh
  intro e he
  have q1 := hdev e (by rw [hes]; simp [he])
  have q2 := hdt e (by rw [hes]; simp [he])
  have key : ∀ u : Tensor R, t.md.device = u.md.device → t.md.dtype = u.md.dtype → u.md = t.md := by
    intro u a b
    cases h1 : u.md
    cases h2 : t.md
    rw [h1, h2] at a b
    simp only at a b
    rw [a, b]
  cases e with
  | tensor u => exact key u q1 q2
  | tuple a b d => exact ⟨key a q1.1 q2.1, key b q1.2.1 q2.2.1, key d q1.2.2 q2.2.2⟩
  | dict kv => exact fun p hp => key p.2 (q1 p hp) (q2 p hp)
  | other => exact q1

/-- A tree map whose function succeeds everywhere succeeds, whatever the kinds of the entries are. -/
theorem treeMap_run [Zero R] {f : Tensor R → Except Err (Tensor R)} {P : Tensor R → Prop} {Q : Tensor R → Tensor R → Prop}
    (hf : ∀ t, P t → ∃ u, f t = .ok u ∧ Q t u) {c : Coeffs R} {t : Tensor R} {es : List (Entry R)}
    (hc : c.items = .tensor t :: es) (hall : ∀ e ∈ c.items, e.All P) :
    ∃ c', coeffTreeMap c f = .ok c' ∧ List.Forall₂ (EntryRel Q) c.items c'.items := by
  obtain ⟨b, items⟩ := c
  simp only at hc hall
  subst hc
  have hr : ∃ rs, es.mapM (Entry.mapM f) = .ok rs ∧ List.Forall₂ (EntryRel Q) es rs :=
    entries_mapM_ok es fun e he => (hall e (by simp [he])).imp hf
  obtain ⟨u, hu, q⟩ := hf t (hall (.tensor t) (by simp))
  obtain ⟨rs, e1, r1⟩ := hr
  unfold coeffTreeMap
  simp only [bind, Except.bind, hu, e1]
  split <;> exact ⟨_, rfl, .cons (.tensor q) r1⟩

/-- Pre-processing of tensors of the same rank in entries of any kinds. -/
theorem preprocess_run [Zero R] {h : AxisHint} {r n : Nat} (hg : GoodAxes h r n) {c : Coeffs R} {t : Tensor R}
    {es : List (Entry R)} (hc : c.items = .tensor t :: es) (hall : ∀ e ∈ c.items, e.All fun t => t.rank = r)
    (hdt : isDtypeSupported t.md.dtype = true) :
    ∃ q, preprocessCoeffs c n h false = .ok q ∧
      List.Forall₂ (EntryRel fun x y => x.rank = r ∧ Folded (axesOf h r n) x y) c.items q.1.items := by
  have hnp := hg.pos
  have hr0 : t.rank = r := hall (.tensor t) (by rw [hc]; simp)
  have hperm : IsPerm (batchAxes r (axesOf h r n) ++ axesOf h r n) r := isPerm_axes hg.nodup hg.lt
  have hbl := hg.batch_len
  have hswap : ∃ c₁, preSwap c (resolve h n) ((List.range n).map (fun (k : Nat) => (k : Int) - (n : Int)))
        = Except.ok c₁ ∧
      List.Forall₂ (EntryRel fun x y => x.rank = r ∧ Swapped (axesOf h r n) x y) c.items c₁.items := by
    unfold preSwap
    by_cases hd : resolve h n = (List.range n).map (fun (k : Nat) => (k : Int) - (n : Int))
    · refine ⟨c, by rw [if_neg (by simpa using hd)], ?_⟩
      rw [List.forall₂_same]
      intro e he
      have key : ∀ x : Tensor R, x.rank = r → x.rank = r ∧ Swapped (axesOf h r n) x x := by
        rintro x rfl
        exact ⟨rfl, Swapped.default hg hd⟩
      have := hall e he
      cases e with
      | tensor t => exact .tensor (key t this)
      | tuple a b c => exact .tuple (key a this.1) (key b this.2.1) (key c this.2.2)
      | dict kv => exact .dict (List.forall₂_same.mpr fun e he => ⟨rfl, key e.2 (this e he)⟩)
      | other => exact this.elim
    · rw [if_pos hd]
      refine treeMap_run ?_ hc hall
      rintro t rfl
      obtain ⟨u, h1, h2⟩ := Swapped.of_ok hg
      exact ⟨u, h1, rfl, h2⟩
  obtain ⟨c₁, e₁, r₁⟩ := hswap
  obtain ⟨t₁, es₁, hc₁, hs₁⟩ : ∃ t₁ es₁, c₁.items = .tensor t₁ :: es₁ ∧ Swapped (axesOf h r n) t t₁ := by
    rw [hc] at r₁
    generalize c₁.items = l at r₁
    cases r₁ with
    | cons q _ =>
      cases q with
      | tensor q => exact ⟨_, _, rfl, q.2⟩
  have h1 : headTensor c₁ = .ok t₁ := by unfold headTensor; rw [hc₁]
  have hlen : t₁.shape.length = r := by
    have : t₁.shape = pick (batchAxes r (axesOf h r n) ++ axesOf h r n) t.shape := by
      rw [pick_append, hs₁.shape, hr0]
    rw [this, pick_length, hperm.len]
  have hall₁ : ∀ e ∈ c₁.items, e.All fun u => ∃ x, x.rank = r ∧ Swapped (axesOf h r n) x u := by
    intro e he
    obtain ⟨e', -, q⟩ := forall₂_left r₁.flip e he
    exact q.all
  have hfold : ∃ c₂, preFold c₁ t₁.shape n = Except.ok c₂ ∧
      List.Forall₂ (EntryRel fun x y => x.rank = r ∧ Folded (axesOf h r n) x y) c.items c₂.items := by
    unfold preFold
    rw [hlen, if_neg (by omega)]
    by_cases k1 : r = n
    · rw [if_pos k1]
      obtain ⟨c₂, e₂, r₂⟩ := treeMap_run (c := c₁) (f := fun t => .ok t.unsqueeze0)
        (Q := fun u v => v = u.unsqueeze0) (fun t _ => ⟨_, rfl, rfl⟩) hc₁ hall₁
      refine ⟨c₂, e₂, forall₂_comp (fun a b c q1 q2 => q1.comp ?_ q2) r₁ r₂⟩
      rintro x u v ⟨hx, hsw⟩ rfl
      refine ⟨hx, ?_⟩
      subst hx
      exact (Folded.of_swapped hg hsw).1 k1
    · rw [if_neg k1]
      by_cases k2 : n + 1 < r
      · rw [if_pos k2]
        obtain ⟨c₂, e₂, r₂⟩ := treeMap_run (c := c₁) (f := fun t => foldAxes t n)
          (Q := fun u v => foldAxes u n = .ok v) (fun t ⟨x, hx, hsw⟩ => by
            subst hx
            obtain ⟨v, hv, _⟩ := (Folded.of_swapped hg hsw).2.2
            exact ⟨v, hv, hv⟩) hc₁ hall₁
        refine ⟨c₂, e₂, forall₂_comp (fun a b c q1 q2 => q1.comp ?_ q2) r₁ r₂⟩
        rintro x u v ⟨hx, hsw⟩ hv
        refine ⟨hx, ?_⟩
        subst hx
        obtain ⟨v', hv', hf⟩ := (Folded.of_swapped hg hsw).2.2
        rw [hv] at hv'
        cases hv'
        exact hf
      · rw [if_neg k2]
        refine ⟨c₁, rfl, r₁.imp fun e e' he => he.mono ?_⟩
        rintro x u ⟨hx, hsw⟩
        refine ⟨hx, ?_⟩
        subst hx
        exact (Folded.of_swapped hg hsw).2.1 (by omega)
  obtain ⟨c₂, e₂, r₂⟩ := hfold
  refine ⟨(c₂, t₁.shape), ?_, r₂⟩
  have h0 : headTensor c = .ok t := by unfold headTensor; rw [hc]
  unfold preprocessCoeffs
  rw [if_neg (by omega), h0]
  simp only [hdt, bind, Except.bind, ensureAxes_ok hg, getDefaultAxes_ok hnp, e₁, h1, e₂, preChannel,
    Bool.true_eq_false, if_false, Bool.false_eq_true]

/-- The check of dtypes and devices, whatever the kinds of the entries are. -/
theorem checkSame_run [Zero R] {c : Coeffs R} {t : Tensor R} {es : List (Entry R)} {md : Meta}
    (hc : c.items = .tensor t :: es) (hall : ∀ e ∈ c.items, e.All fun t => t.md = md) :
    checkSameDeviceDtype c = .ok md := by
  have h0 : headTensor c = .ok t := by unfold headTensor; rw [hc]
  have ht : t.md = md := hall (.tensor t) (by rw [hc]; simp)
  obtain ⟨c1, e1, -⟩ := treeMap_run (f := checkSameDevice t.md.device) (Q := fun _ _ => True)
    (fun u (hu : u.md = md) => ⟨u, if_pos (by rw [ht, hu]), trivial⟩) hc hall
  obtain ⟨c2, e2, -⟩ := treeMap_run (f := checkSameDtype t.md.dtype) (Q := fun _ _ => True)
    (fun u (hu : u.md = md) => ⟨u, if_pos (by rw [ht, hu]), trivial⟩) hc hall
  unfold checkSameDeviceDtype
  simp only [bind, Except.bind, h0, e1, e2, pure, Except.pure]
  rw [ht]

/-- Pre-processing and check of a container whose tensors agree in rank, dtype and device. -/
theorem pre_check_run [Zero R] {h : AxisHint} {r n : Nat} (hg : GoodAxes h r n) {c : Coeffs R} {t : Tensor R}
    {es : List (Entry R)} {md : Meta} (hc : c.items = .tensor t :: es)
    (hall : ∀ e ∈ c.items, e.All fun t => t.rank = r ∧ t.md = md) (hdt : isDtypeSupported md.dtype = true) :
    ∃ q t' es', preprocessCoeffs c n h false = .ok q ∧ checkSameDeviceDtype q.1 = .ok md ∧ q.1.items = .tensor t' :: es' ∧
      Folded (axesOf h r n) t t' ∧
      List.Forall₂ (EntryRel fun x y => x.rank = r ∧ Folded (axesOf h r n) x y) es es' := by
  have ht : t.md = md := (hall (.tensor t) (by rw [hc]; simp)).2
  obtain ⟨q, e1, r1⟩ := preprocess_run hg hc (fun e he => (hall e he).imp fun _ h => h.1) (by rw [ht]; exact hdt)
  have hmd : ∀ e ∈ q.1.items, e.All fun t => t.md = md := by
    refine preprocessCoeffs_md (md := md) (c := c) ?_ e1
    exact fun e he => (hall e he).imp fun _ h => h.2
  rw [hc] at r1
  generalize hl : q.1.items = l at r1
  cases r1 with
  | cons h0 hr =>
    cases h0 with
    | tensor h0 =>
      exact ⟨q, _, _, e1, checkSame_run hl hmd, hl, h0.2, hr⟩

/-- What a successful pre-processing followed by a successful check says about the caller's container. -/
theorem pre_check_inv [Zero R] {c : Coeffs R} {q : Coeffs R × List Nat} {ndim : Nat} {axes : AxisHint} {md : Meta}
    (h : preprocessCoeffs c ndim axes false = .ok q) (h2 : checkSameDeviceDtype q.1 = .ok md) :
    ∃ t es t' es', c.items = .tensor t :: es ∧ q.1.items = .tensor t' :: es' ∧ t.md = md ∧
      List.Forall₂ (fun e e' => EntryRel (fun _ _ => True) e e' ∧ e.All fun u => u.md = md) es es' := by
  obtain ⟨t', es', e1, e2, e3⟩ := checkSame_inv h2
  have hk := preprocessCoeffs_kinds h
  rw [e1] at hk
  generalize c.items = items at hk
  cases hk with
  | cons h0 hr =>
    rename_i e es
    rcases h0 with h0 | ⟨-, h0⟩
    · cases h0 with
      | tensor ht =>
        refine ⟨_, _, _, _, rfl, e1, ht.symm.trans e2, ?_⟩
        refine forall₂_of_right e3 hr ?_
        rintro a b hb (hab | ⟨-, rfl⟩)
        · refine ⟨hab.mono fun _ _ _ => trivial, ?_⟩
          cases hab with
          | tensor p => exact p.symm.trans hb
          | tuple p q r => exact ⟨p.symm.trans hb.1, q.symm.trans hb.2.1, r.symm.trans hb.2.2⟩
          | dict p =>
            intro x hx
            obtain ⟨y, hy, q⟩ := forall₂_left p x hx
            exact q.2.symm.trans (hb y hy)
        · exact hb.elim
    · cases h0

/-- An object of a foreign type among the details makes a tree map fail with ValueError. -/
theorem treeMap_other [Zero R] {f : Tensor R → Except Err (Tensor R)} {P : Tensor R → Prop}
    (hf : ∀ t, P t → ∃ u, f t = .ok u) {c : Coeffs R} {t : Tensor R} {es : List (Entry R)}
    (hc : c.items = .tensor t :: es) (ht : P t) (hall : ∀ e ∈ es, e = .other ∨ e.All P) (ho : .other ∈ es) :
    coeffTreeMap c f = .error .valueError := by
  have key : ∀ es : List (Entry R), (∀ e ∈ es, e = .other ∨ e.All P) → .other ∈ es →
      es.mapM (Entry.mapM f) = .error .valueError := by
    intro es
    induction es with
    | nil => simp
    | cons e es ih =>
      intro ha hm
      rw [List.mapM_cons]
      rcases ha e (by simp) with rfl | h1
      · rfl
      · obtain ⟨e', h2, -⟩ := Entry.mapM_ok (P := fun _ _ => True) (f := f) e (h1.imp fun t q => by
          obtain ⟨u, hu⟩ := hf t q
          exact ⟨u, hu, trivial⟩)
        have : Entry.other ∈ es := by
          rcases List.mem_cons.mp hm with rfl | h
          · exact h1.elim
          · exact h
        rw [h2, ih (fun e he => ha e (by simp [he])) this]
        rfl
  obtain ⟨u, hu⟩ := hf t ht
  unfold coeffTreeMap
  simp only [hc, bind, Except.bind, hu, key es hall ho]

/-- … and so does one of pre-processing and check. -/
theorem pre_other [Zero R] {h : AxisHint} {r n : Nat} (hg : GoodAxes h r n) {c : Coeffs R} {t : Tensor R}
    {es : List (Entry R)} {md : Meta} (hc : c.items = .tensor t :: es) (ht : t.rank = r ∧ t.md = md)
    (hall : ∀ e ∈ es, e = .other ∨ e.All fun t => t.rank = r ∧ t.md = md) (ho : .other ∈ es)
    (hdt : isDtypeSupported md.dtype = true) :
    preprocessCoeffs c n h false = .error .valueError ∨
      ∃ q, preprocessCoeffs c n h false = .ok q ∧ checkSameDeviceDtype q.1 = .error .valueError := by
  have hnp := hg.pos
  have hbl := hg.batch_len
  have h0 : headTensor c = .ok t := by unfold headTensor; rw [hc]
  have hdt' : isDtypeSupported t.md.dtype = true := by rw [ht.2]; exact hdt
  have hlen : t.shape.length = r := ht.1
  by_cases hd : resolve h n = (List.range n).map (fun (k : Nat) => (k : Int) - (n : Int))
  · have e1 : preSwap c (resolve h n) ((List.range n).map (fun (k : Nat) => (k : Int) - (n : Int))) = .ok c := by
      unfold preSwap
      rw [if_neg (by simpa using hd)]
    have e2 : preFold c t.shape n = .error .valueError ∨ preFold c t.shape n = .ok c := by
      unfold preFold
      rw [hlen, if_neg (by omega)]
      by_cases k1 : r = n
      · rw [if_pos k1]
        exact Or.inl (treeMap_other (P := fun t : Tensor R => t.rank = r ∧ t.md = md) (fun t _ => ⟨_, rfl⟩) hc ht hall ho)
      · rw [if_neg k1]
        by_cases k2 : n + 1 < r
        · rw [if_pos k2]
          refine Or.inl (treeMap_other (P := fun t : Tensor R => t.rank = r ∧ t.md = md) ?_ hc ht hall ho)
          rintro x ⟨rfl, -⟩
          obtain ⟨v, hv, _⟩ := (Folded.of_swapped hg (Swapped.default hg hd)).2.2
          exact ⟨v, hv⟩
        · rw [if_neg k2]
          exact Or.inr rfl
    have e3 : checkSameDeviceDtype c = .error .valueError := by
      have := treeMap_other (f := checkSameDevice t.md.device) (P := fun t : Tensor R => t.rank = r ∧ t.md = md)
        (fun u hu => ⟨u, if_pos (by rw [ht.2, hu.2])⟩) hc ht hall ho
      unfold checkSameDeviceDtype
      simp only [bind, Except.bind, h0, this]
    unfold preprocessCoeffs
    rw [if_neg (by omega), h0]
    simp only [hdt', bind, Except.bind, ensureAxes_ok hg, getDefaultAxes_ok hnp, e1, h0,
      Bool.true_eq_false, if_false]
    rcases e2 with e2 | e2
    · left
      rw [e2]
    · right
      rw [e2]
      exact ⟨_, rfl, e3⟩
  · left
    have e1 : preSwap c (resolve h n) ((List.range n).map (fun (k : Nat) => (k : Int) - (n : Int))) = .error .valueError := by
      unfold preSwap
      rw [if_pos hd]
      refine treeMap_other (P := fun t : Tensor R => t.rank = r ∧ t.md = md) ?_ hc ht hall ho
      rintro x ⟨rfl, -⟩
      obtain ⟨u, h1, _⟩ := Swapped.of_ok hg
      exact ⟨u, h1⟩
    unfold preprocessCoeffs
    rw [if_neg (by omega), h0]
    simp only [hdt', bind, Except.bind, ensureAxes_ok hg, getDefaultAxes_ok hnp, e1, Bool.true_eq_false, if_false]

end Verif
