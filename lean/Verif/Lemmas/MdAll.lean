import Verif.Lemmas.Mat1Build

/-! Dtype and device of all tensors of a container. -/

namespace Verif
open Tensor Spec
variable {R : Type}

/-- All tensors of a container satisfy `P`. -/
def Coeffs.All [Zero R] (P : Tensor R → Prop) (c : Coeffs R) : Prop := ∀ e ∈ c.items, e.All P

theorem mapM_ok_all {ε α β : Type} {g : α → Except ε β} {P : α → Prop} {Q : β → Prop}
    (hg : ∀ a b, P a → g a = .ok b → Q b) : ∀ {l : List α} {r : List β}, (∀ a ∈ l, P a) →
    l.mapM g = .ok r → ∀ b ∈ r, Q b
  | [], r, _, h, b, hb => by
    cases h
    cases hb
  | a :: l, r, hl, h, b, hb => by
    rw [List.mapM_cons] at h
    obtain ⟨b', e1, h⟩ := bind_ok_inv h
    obtain ⟨bs, e2, h⟩ := bind_ok_inv h
    cases h
    rcases List.mem_cons.mp hb with rfl | hb
    · exact hg a _ (hl a (by simp)) e1
    · exact mapM_ok_all hg (fun x hx => hl x (by simp [hx])) e2 b hb

theorem Entry.mapM_all [Zero R] {P Q : Tensor R → Prop} {f : Tensor R → Except Err (Tensor R)}
    (hf : ∀ t u, P t → f t = .ok u → Q u) (e e' : Entry R) (he : e.All P) (h : e.mapM f = .ok e') :
    e'.All Q := by
  cases e with
  | tensor t =>
    unfold Entry.mapM at h
    obtain ⟨u, e1, h⟩ := bind_ok_inv h
    cases h
    exact hf t u he e1
  | tuple a b c =>
    unfold Entry.mapM at h
    obtain ⟨u, e1, h⟩ := bind_ok_inv h
    obtain ⟨v, e2, h⟩ := bind_ok_inv h
    obtain ⟨w, e3, h⟩ := bind_ok_inv h
    cases h
    exact ⟨hf _ _ he.1 e1, hf _ _ he.2.1 e2, hf _ _ he.2.2 e3⟩
  | dict kv =>
    unfold Entry.mapM at h
    obtain ⟨u, e1, h⟩ := bind_ok_inv h
    cases h
    refine mapM_ok_all (P := fun q : String × Tensor R => P q.2) (Q := fun q => Q q.2) ?_ he e1
    intro a b ha hb
    obtain ⟨v, e2, hb⟩ := bind_ok_inv hb
    cases hb
    exact hf _ _ ha e2
  | other => cases h

theorem coeffTreeMap_all [Zero R] {P Q : Tensor R → Prop} {f : Tensor R → Except Err (Tensor R)}
    (hf : ∀ t u, P t → f t = .ok u → Q u) {c c' : Coeffs R} (hc : c.All P) (h : coeffTreeMap c f = .ok c') :
    c'.All Q := by
  obtain ⟨b, items⟩ := c
  unfold coeffTreeMap at h
  cases items with
  | nil => cases h
  | cons i rest =>
    cases i with
    | tensor a =>
      simp only at h
      obtain ⟨a', e1, h⟩ := bind_ok_inv h
      obtain ⟨res, e2, h⟩ := bind_ok_inv h
      have ha : Q a' := hf _ _ (hc (.tensor a) (by simp)) e1
      have hres : ∀ e ∈ res, e.All Q :=
        mapM_ok_all (P := Entry.All P) (fun e e' => Entry.mapM_all hf e e') (fun e he => hc e (by simp [he])) e2
      split at h
      · cases h
        intro e he
        rcases List.mem_cons.mp he with rfl | he
        · exact ha
        · cases he
      · cases h
        intro e he
        rcases List.mem_cons.mp he with rfl | he
        · exact ha
        · exact hres e he
      · cases h
        intro e he
        rcases List.mem_cons.mp he with rfl | he
        · exact ha
        · exact hres e he
    | tuple _ _ _ => cases h
    | dict _ => cases h
    | other => cases h

theorem undoSwapAxes_md [Zero R] {t u : Tensor R} {d : List Int} (e : undoSwapAxes t d = .ok u) : u.md = t.md := by
  unfold undoSwapAxes at e
  obtain ⟨_, _, e⟩ := bind_ok_inv e
  exact permute_md e

theorem squeeze0_md [Zero R] (t : Tensor R) : t.squeeze0.md = t.md := by
  unfold Tensor.squeeze0
  split <;> rfl

theorem unfoldAxes_md [Zero R] {t u : Tensor R} {ds : List Nat} {k : Nat} (e : unfoldAxes t ds k = .ok u) :
    u.md = t.md := reshape_md e

theorem postprocessCoeffs_md [Zero R] {md : Meta} {c c' : Coeffs R} {ndim : Nat} {ds : List Nat} {axes : AxisHint}
    (hc : c.All fun t => t.md = md) (h : postprocessCoeffs c ndim ds axes = .ok c') : c'.All fun t => t.md = md := by
  unfold postprocessCoeffs at h
  split_ifs at h
  obtain ⟨as, _, h⟩ := bind_ok_inv h
  obtain ⟨c1, e1, h⟩ := bind_ok_inv h
  obtain ⟨df, _, h⟩ := bind_ok_inv h
  have h1 : c1.All fun t => t.md = md := by
    unfold postUnfold at e1
    split_ifs at e1
    · refine coeffTreeMap_all (P := fun t => t.md = md) ?_ hc e1
      intro t u ht hu
      cases hu
      exact (squeeze0_md t).trans ht
    · exact coeffTreeMap_all (P := fun t => t.md = md) (fun t u ht hu => (unfoldAxes_md hu).trans ht) hc e1
    · cases e1; exact hc
  unfold postSwap at h
  split_ifs at h
  · exact coeffTreeMap_all (P := fun t => t.md = md) (fun t u ht hu => (undoSwapAxes_md hu).trans ht) h1 h
  · cases h; exact h1

theorem all_ofList [Zero R] {P : Tensor R → Prop} {ts : List (Tensor R)} : (Coeffs.ofList ts).All P ↔ ∀ t ∈ ts, P t := by
  constructor
  · intro h t ht
    exact h (.tensor t) (List.mem_map_of_mem ht)
  · intro h e he
    obtain ⟨t, ht, rfl⟩ := List.mem_map.mp he
    exact h t ht

theorem all_toList [Zero R] {P : Tensor R → Prop} {c : Coeffs R} (h : c.All P) : ∀ t ∈ c.toList, P t := by
  intro t ht
  unfold Coeffs.toList at ht
  rw [List.mem_filterMap] at ht
  obtain ⟨e, he, h1⟩ := ht
  cases e with
  | tensor u => cases h1; exact h _ he
  | tuple _ _ _ => cases h1
  | dict _ => cases h1
  | other => cases h1

theorem headTensor_all [Zero R] {P : Tensor R → Prop} {c : Coeffs R} {t : Tensor R} (h : c.All P)
    (e : headTensor c = .ok t) : P t := by
  obtain ⟨b, items⟩ := c
  unfold headTensor at e
  cases items with
  | nil => cases e
  | cons i rest =>
    cases i with
    | tensor a => cases e; exact h (.tensor _) (by simp)
    | tuple _ _ _ => cases e
    | dict _ => cases e
    | other => cases e

theorem postprocessTensor_md [Zero R] {t u : Tensor R} {ndim : Nat} {ds : List Nat} {axes : AxisHint}
    (h : postprocessTensor t ndim ds axes = .ok u) : u.md = t.md := by
  unfold postprocessTensor at h
  obtain ⟨c, e1, h⟩ := bind_ok_inv h
  have := postprocessCoeffs_md (md := t.md) (all_ofList.mpr (by simp)) e1
  exact headTensor_all this h

theorem foldAxes_md [Zero R] {t u : Tensor R} {k : Nat} (e : foldAxes t k = .ok u) : u.md = t.md := reshape_md e

theorem unsqueeze1_md [Zero R] {t u : Tensor R} (e : t.unsqueeze1 = .ok u) : u.md = t.md := by
  unfold Tensor.unsqueeze1 at e
  split at e
  · cases e
  · cases e; rfl

theorem preprocessCoeffs_md [Zero R] {md : Meta} {c : Coeffs R} {q : Coeffs R × List Nat} {ndim : Nat} {axes : AxisHint}
    {ch : Bool} (hc : c.All fun t => t.md = md) (h : preprocessCoeffs c ndim axes ch = .ok q) :
    q.1.All fun t => t.md = md := by
  unfold preprocessCoeffs at h
  split_ifs at h
  obtain ⟨h0, _, h⟩ := bind_ok_inv h
  split_ifs at h
  obtain ⟨as, _, h⟩ := bind_ok_inv h
  obtain ⟨df, _, h⟩ := bind_ok_inv h
  obtain ⟨c1, e1, h⟩ := bind_ok_inv h
  obtain ⟨h1, _, h⟩ := bind_ok_inv h
  obtain ⟨c2, e2, h⟩ := bind_ok_inv h
  obtain ⟨c3, e3, h⟩ := bind_ok_inv h
  cases h
  have a1 : c1.All fun t => t.md = md := by
    unfold preSwap at e1
    split_ifs at e1
    · exact coeffTreeMap_all (P := fun t => t.md = md) (fun t u ht hu => (swapAxes_md hu).trans ht) hc e1
    · cases e1; exact hc
  have a2 : c2.All fun t => t.md = md := by
    unfold preFold at e2
    split_ifs at e2
    · refine coeffTreeMap_all (P := fun t => t.md = md) ?_ a1 e2
      intro t u ht hu
      cases hu
      exact ht
    · exact coeffTreeMap_all (P := fun t => t.md = md) (fun t u ht hu => (foldAxes_md hu).trans ht) a1 e2
    · cases e2; exact a1
  unfold preChannel at e3
  split_ifs at e3
  · exact coeffTreeMap_all (P := fun t => t.md = md) (fun t u ht hu => (unsqueeze1_md hu).trans ht) a2 e3
  · cases e3; exact a2

theorem coeffTreeMap_length [Zero R] {f : Tensor R → Except Err (Tensor R)} {c c' : Coeffs R}
    (h : coeffTreeMap c f = .ok c') : c'.items.length = c.items.length := by
  have hm : ∀ {l : List (Entry R)} {r}, l.mapM (Entry.mapM f) = .ok r → r.length = l.length := by
    intro l
    induction l with
    | nil => intro r h; cases h; rfl
    | cons a l ih =>
      intro r h
      rw [List.mapM_cons] at h
      obtain ⟨b', e1, h⟩ := bind_ok_inv h
      obtain ⟨bs, e2, h⟩ := bind_ok_inv h
      cases h
      simp [ih e2]
  obtain ⟨b, items⟩ := c
  unfold coeffTreeMap at h
  cases items with
  | nil => cases h
  | cons i rest =>
    cases i with
    | tensor a =>
      simp only at h
      obtain ⟨a', e1, h⟩ := bind_ok_inv h
      obtain ⟨res, e2, h⟩ := bind_ok_inv h
      have := hm e2
      split at h <;> (cases h; show _ + 1 = _ + 1; rw [← this])
    | tuple _ _ _ => cases h
    | dict _ => cases h
    | other => cases h

theorem preprocessCoeffs_length [Zero R] {c : Coeffs R} {q : Coeffs R × List Nat} {ndim : Nat} {axes : AxisHint}
    {ch : Bool} (h : preprocessCoeffs c ndim axes ch = .ok q) : q.1.items.length = c.items.length := by
  unfold preprocessCoeffs at h
  split_ifs at h
  obtain ⟨h0, _, h⟩ := bind_ok_inv h
  split_ifs at h
  obtain ⟨as, _, h⟩ := bind_ok_inv h
  obtain ⟨df, _, h⟩ := bind_ok_inv h
  obtain ⟨c1, e1, h⟩ := bind_ok_inv h
  obtain ⟨h1, _, h⟩ := bind_ok_inv h
  obtain ⟨c2, e2, h⟩ := bind_ok_inv h
  obtain ⟨c3, e3, h⟩ := bind_ok_inv h
  cases h
  have a1 : c1.items.length = c.items.length := by
    unfold preSwap at e1
    split_ifs at e1
    · exact coeffTreeMap_length e1
    · cases e1; rfl
  have a2 : c2.items.length = c.items.length := by
    unfold preFold at e2
    split_ifs at e2
    · rw [coeffTreeMap_length e2, a1]
    · rw [coeffTreeMap_length e2, a1]
    · cases e2; exact a1
  unfold preChannel at e3
  split_ifs at e3
  · rw [coeffTreeMap_length e3, a2]
  · cases e3; exact a2

theorem mmDense_md [NonUnitalNonAssocSemiring R] {A : Coo R} {X Y : Tensor R} (h : A.mmDense X = .ok Y) :
    Y.md = X.md := by
  unfold Coo.mmDense at h
  split at h
  · split_ifs at h
    cases h; rfl
  · cases h

end Verif
