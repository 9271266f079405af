/-
Coefficient containers of any multidimensional transform: from the folded tensors to the user's and
back.
-/
import Verif.Lemmas.TopNd
import Verif.Spec.MatN

namespace Verif
open Tensor Spec
variable {R : Type}

section
variable [Zero R] {D : (List Bool → Tensor R → Prop) → Entry R → Prop}
  {x y : Tensor R} {h : AxisHint} {n L : Nat} {lens : Nat → List Nat}
  {ca : Nat → (List Nat → R) → List Nat → R} {cd : Nat → List Bool → (List Nat → R) → List Nat → R}

/-- Postprocessing turns the coefficients of the folded tensor into those of the user's tensor. -/
theorem coeffs_post (hD : DetailKind D) (hll : ∀ s, (lens s).length = n) (hg : GoodAxes h x.rank n)
    (hy : Folded (axesOf h x.rank n) x y) {t : Tensor R} {ds : List (Entry R)} (hdl : ds.length = L)
    (ht : ShowsN t x.md (prodL (pick (batchAxes x.rank (axesOf h x.rank n)) x.shape))
      (lens L)
      (fun b => ca L (fun js => y.get (b :: js))))
    (hds : ∀ s e, ds[s]? = some e →
      D (fun bs u => ShowsN u x.md (prodL (pick (batchAxes x.rank (axesOf h x.rank n)) x.shape))
        (lens (s + 1))
        (fun b => cd s bs (fun js => y.get (b :: js)))) e) :
    ∃ c', postprocessCoeffs ⟨false, .tensor t :: ds.reverse⟩ n
        (pick (batchAxes x.rank (axesOf h x.rank n) ++ axesOf h x.rank n) x.shape) h = .ok c' ∧
      IsCoeffs D (axesOf h x.rank n) lens ca cd L x c' := by
  set ax := axesOf h x.rank n with hax
  set bs := pick (batchAxes x.rank ax) x.shape with hbs
  have hbl := hg.batch_len
  have hlen : ∀ s, (lens s).length = ax.length := by
    intro s; rw [hll, hax, hg.axes_len]
  have hal : ax.length = n := hg.axes_len
  have hrev : ∀ s, s < L → ds.reverse[L - 1 - s]? = ds[s]? := by
    intro s hs
    rw [List.getElem?_reverse (by omega)]
    congr 1; omega
  obtain ⟨c', ep, rel⟩ := postprocessCoeffs_ok hg (c := ⟨false, .tensor t :: ds.reverse⟩)
    (ds := pick (batchAxes x.rank ax ++ ax) x.shape) (bs := bs)
    (by rw [pick_length]; exact (isPerm_axes hg.nodup hg.lt).len)
    (by rw [take_pick hbl hg.axes_len])
    (by
      refine ⟨⟨t, _, rfl⟩, ?_, ?_⟩
      · intro e he
        simp only [List.mem_cons, List.mem_reverse] at he
        rcases he with rfl | he
        · exact ⟨_, (hlen L).trans hal, ht.shape⟩
        · obtain ⟨s, hs⟩ := List.getElem?_of_mem he
          exact hD.all (hds s e hs) fun bs u hu => ⟨_, (hlen (s + 1)).trans hal, hu.shape⟩
      · intro e he
        simp only [List.tail_cons, List.mem_reverse] at he
        obtain ⟨s, hs⟩ := List.getElem?_of_mem he
        have := hD.notTensor (hds s e hs)
        simp only [Bool.false_eq_true, false_iff]
        exact this)
  refine ⟨c', ep, ?_⟩
  have hn := hg.nodup
  have hlt := hg.lt
  refine ⟨rel.kind.symm, ?_, ?_, ?_⟩
  · rw [← rel.items.length_eq]; simp [hdl]
  · obtain ⟨e', he', hr⟩ := forall₂_getElem?' rel.items (i := 0) (a := .tensor t) rfl
    cases hr with
    | tensor hp =>
      exact ⟨_, he', alongAxes_of_showsN hn hlt (hlen L) hy hp.1 hp.2.1 hp.2.2
        (f := ca L) ht⟩
  · intro s hs
    obtain ⟨e, he⟩ : ∃ e, ds[s]? = some e := ⟨_, List.getElem?_eq_getElem (by omega)⟩
    obtain ⟨e', he', hr⟩ := forall₂_getElem?' rel.items (i := L - s) (a := e) (by
      rw [show L - s = (L - 1 - s) + 1 by omega]
      show ds.reverse[L - 1 - s]? = _
      rw [hrev s hs, he])
    refine ⟨e', he', hD.trans hr (hds s e he) ?_⟩
    intro bs' u z hp hu
    exact alongAxes_of_showsN hn hlt (hlen (s + 1)) hy hp.1 hp.2.1 hp.2.2
      (f := cd s bs') hu

/-- Preprocessing turns the coefficients of the user's tensor into those of the folded tensor. -/
theorem coeffs_pre (hD : DetailKind D) (hll : ∀ s, (lens s).length = n) (hg : GoodAxes h x.rank n)
    (hy : Folded (axesOf h x.rank n) x y) (hdt : isDtypeSupported x.md.dtype = true) {c : Coeffs R}
    (hc : IsCoeffs D (axesOf h x.rank n) lens ca cd L x c) :
    ∃ (c₀ : List Nat) (t : Tensor R) (ds : List (Entry R)), preprocessCoeffs c n h false = .ok (⟨false, .tensor t :: ds.reverse⟩,
        pick (batchAxes x.rank (axesOf h x.rank n) ++ axesOf h x.rank n) c₀) ∧
      c₀.length = x.rank ∧
      pick (batchAxes x.rank (axesOf h x.rank n)) c₀ = pick (batchAxes x.rank (axesOf h x.rank n)) x.shape ∧
      checkSameDeviceDtype ⟨false, .tensor t :: ds.reverse⟩ = .ok x.md ∧ ds.length = L ∧
      ShowsN t x.md (prodL (pick (batchAxes x.rank (axesOf h x.rank n)) x.shape))
        (lens L)
        (fun b => ca L (fun js => y.get (b :: js))) ∧
      ∀ s e, ds[s]? = some e →
        D (fun bs u => ShowsN u x.md (prodL (pick (batchAxes x.rank (axesOf h x.rank n)) x.shape))
          (lens (s + 1))
          (fun b => cd s bs (fun js => y.get (b :: js)))) e := by
  set ax := axesOf h x.rank n with hax
  have hn := hg.nodup
  have hlt := hg.lt
  have hlen : ∀ s, (lens s).length = ax.length := by
    intro s; rw [hll, hax, hg.axes_len]
  obtain ⟨il, items⟩ := c
  obtain ⟨k1, k2, ⟨c0, k3, k4⟩, k5⟩ := hc
  simp only at k1 k2 k3 k5
  subst k1
  obtain ⟨rest, rfl⟩ : ∃ rest, items = .tensor c0 :: rest := by
    cases items with
    | nil => simp at k3
    | cons a l => simp at k3; exact ⟨l, by rw [k3]⟩
  have hrl : rest.length = L := by simpa using k2
  have hrank : ∀ {Ks f} {t : Tensor R}, AlongAxes ax Ks f x t → t.rank = x.rank := by
    intro Ks f t ht
    unfold Tensor.rank; rw [ht.shape, setMany_length]
  have hdet : ∀ s e, rest.reverse[s]? = some e → D (fun bs t => AlongAxes ax (lens (s + 1)) (cd s bs) x t) e := by
    intro s e he
    have hs : s < L := by
      have := (List.getElem?_eq_some_iff.mp he).1
      rwa [List.length_reverse, hrl] at this
    obtain ⟨e', he', hd⟩ := k5 s hs
    rw [List.getElem?_reverse (by omega), hrl] at he
    rw [show L - s = (L - 1 - s) + 1 by omega, List.getElem?_cons_succ, he] at he'
    cases he'
    exact hd
  have hmem : ∀ e ∈ rest, ∃ s, D (fun bs t => AlongAxes ax (lens (s + 1)) (cd s bs) x t) e := by
    intro e he
    obtain ⟨s, hs⟩ := List.getElem?_of_mem (List.mem_reverse.mpr he)
    exact ⟨s, hdet s e hs⟩
  have wf : ∀ Q : Tensor R → Prop, (∀ {Ks f} {t : Tensor R}, AlongAxes ax Ks f x t → Q t) →
      Coeffs.WF Q (⟨false, .tensor c0 :: rest⟩ : Coeffs R) := by
    intro Q hQ
    refine ⟨⟨c0, rest, rfl⟩, ?_, ?_⟩
    · intro e he
      rcases List.mem_cons.mp he with rfl | he
      · exact hQ k4
      · obtain ⟨s, hs⟩ := hmem e he
        exact hD.all hs fun bs t ht => hQ ht
    · intro e he
      obtain ⟨s, hs⟩ := hmem e he
      have := hD.notTensor hs
      simp only [Bool.false_eq_true, false_iff]
      exact this
  obtain ⟨c', ep, rel⟩ := preprocessCoeffs_ok hg (wf _ hrank) (t₀ := c0) rfl (by rw [k4.md]; exact hdt)
  obtain ⟨il', items'⟩ := c'
  have hk := rel.kind
  have hi := rel.items
  simp only at hk hi
  subst hk
  cases hi with
  | @cons _ e0 _ rest' hr0 hrs =>
    cases hr0 with
    | @tensor _ u0 hp0 =>
    have hwm : Coeffs.WF (fun u => u.md = x.md) (⟨false, .tensor u0 :: rest'⟩ : Coeffs R) := by
      -- transport the meta data through the relation
      refine ⟨⟨u0, rest', rfl⟩, ?_, ?_⟩
      · intro e he
        rcases List.mem_cons.mp he with rfl | he
        · exact hp0.2.md.trans k4.md
        · obtain ⟨i, hi⟩ := List.getElem?_of_mem he
          obtain ⟨e0, he0, hr⟩ := forall₂_getElem? hrs hi
          obtain ⟨s, hs⟩ := hmem e0 (List.mem_of_getElem? he0)
          have := hD.trans (Q := fun _ u => u.md = x.md) hr hs fun bs t u hp ht => hp.2.md.trans ht.md
          exact hD.all this fun _ _ h => h
      · intro e he
        obtain ⟨i, hi⟩ := List.getElem?_of_mem he
        obtain ⟨e0, he0, hr⟩ := forall₂_getElem? hrs hi
        obtain ⟨s, hs⟩ := hmem e0 (List.mem_of_getElem? he0)
        have := hD.notTensor hs
        rw [hr.tensor_iff] at this
        simp only [Bool.false_eq_true, false_iff]
        exact this
    have hul : rest'.length = L := by rw [← hrs.length_eq, hrl]
    refine ⟨c0.shape, u0, rest'.reverse, ?_, hrank k4, ?_, ?_, by rw [List.length_reverse, hul], ?_, ?_⟩
    · rw [List.reverse_reverse]; exact ep
    · rw [k4.shape, pick_setMany_disjoint batch_disjoint]
    · rw [List.reverse_reverse]; exact checkSameDeviceDtype_ok hwm
    · exact showsN_of_alongAxes hn hlt (hlen L) hy hp0.2 (f := ca L) k4
    · intro s e he
      have hs : s < L := by
        have := (List.getElem?_eq_some_iff.mp he).1
        rwa [List.length_reverse, hul] at this
      rw [List.getElem?_reverse (by omega), hul] at he
      obtain ⟨e0, he0, hr⟩ := forall₂_getElem? hrs he
      have h0 := hdet s e0 (by rw [List.getElem?_reverse (by omega), hrl]; exact he0)
      refine hD.trans hr h0 ?_
      intro bs t u hp ht
      exact showsN_of_alongAxes hn hlt (hlen (s + 1)) hy hp.2
        (f := cd s bs) ht

end

theorem isTupleSwapped_kind [Zero R] : DetailKind (R := R) IsTupleSwapped := by
  refine ⟨?_, ?_, ?_, ?_⟩
  · rintro S P Q e e' hr ⟨h, v, d, rfl, h1, h2, h3⟩ hpq
    cases hr with
    | tuple a b c => exact ⟨_, _, _, rfl, hpq _ _ _ a h1, hpq _ _ _ b h2, hpq _ _ _ c h3⟩
  · rintro P Q e ⟨h, v, d, rfl, h1, h2, h3⟩ hpq
    exact ⟨hpq _ _ h1, hpq _ _ h2, hpq _ _ h3⟩
  · rintro P e ⟨h, v, d, rfl, -⟩ ⟨t, ht⟩
    cases ht
  · rintro P Q e ⟨h, v, d, rfl, h1, h2, h3⟩ hpq
    exact ⟨_, _, _, rfl, hpq _ _ h1, hpq _ _ h2, hpq _ _ h3⟩

end Verif
