import Verif.Lemmas.Nd

/-! Padding the last axes extends the signal along every one of them. -/

namespace Verif
open Tensor Spec
variable {R : Type}

theorem set_mid {α : Type} (l r : List α) (a b : α) : (l ++ a :: r).set l.length b = l ++ b :: r := by
  rw [List.set_append_right _ _ (le_refl _)]; simp

theorem getD_mid {α : Type} (l r : List α) (a d : α) : (l ++ a :: r).getD l.length d = a := by
  simp [List.getD_eq_getElem?_getD]

/-- Length of a padded axis. -/
def padLen (F n : Nat) : Nat := F - 2 + n + (F - 2 + n % 2)

theorem extChain_get [Zero R] {m : Mode} {F : Nat} (ns : List Nat) : ∀ (t u : Tensor R) (ps qs : List Nat),
    ExtChain m t (ps.length + ns.length - 1) (ns.reverse.map fun n => (F - 2, F - 2 + n % 2)) u →
    t.shape = ps ++ ns ++ qs →
    u.md = t.md ∧ u.shape = ps ++ ns.map (padLen F) ++ qs ∧
      ∀ pi is qi, InB ps pi → InB (ns.map (padLen F)) is → InB qs qi →
        u.get (pi ++ is ++ qi) = extN m ns (fun js => t.get (pi ++ js ++ qi))
          (is.map fun (i : Nat) => (i : ℤ) - ((F - 2 : ℕ) : ℤ)) := by
  induction ns using List.reverseRecOn with
  | nil =>
    intro t u ps qs h hs
    simp only [List.reverse_nil, List.map_nil] at h
    cases h
    refine ⟨rfl, by simpa using hs, ?_⟩
    intro pi is qi _ hi _
    have : is = [] := List.length_eq_zero_iff.mp hi.length_eq
    subst this
    rfl
  | append_singleton ns n ih =>
    intro t u ps qs h hs
    simp only [List.reverse_append, List.reverse_singleton, List.singleton_append, List.map_cons,
      List.length_append, List.length_singleton] at h
    have hs' : t.shape = (ps ++ ns) ++ n :: qs := by rw [hs]; simp
    have hn : t.shape.getD (ps.length + ns.length) 0 = n := by
      rw [hs', ← List.length_append]; exact getD_mid _ _ _ _
    cases h with
    | @cons _ v _ _ _ _ _ h1 h2 =>
      rw [show ps.length + (ns.length + 1) - 1 = ps.length + ns.length by omega] at h1 h2
      have hv : v.shape = ps ++ ns ++ (padLen F n :: qs) := by
        rw [h1.shape, hn, hs', ← List.length_append, set_mid]; rfl
      obtain ⟨u1, u2, u3⟩ := ih v u ps (padLen F n :: qs) h2 hv
      refine ⟨u1.trans h1.md, by rw [u2]; simp, ?_⟩
      intro pi is qi hp hi hq
      obtain ⟨is', i, rfl⟩ : ∃ is' i, is = is' ++ [i] := by
        rcases List.eq_nil_or_concat is with h | ⟨l, a, h⟩
        · subst h; have := hi.length_eq; simp at this
        · exact ⟨l, a, by simpa using h⟩
      have hil : is'.length = (ns.map (padLen F)).length := by
        have := hi.length_eq
        simpa using this
      rw [List.map_append, inB_append hil] at hi
      have hi2 : i < padLen F n := hi.2.1
      have e := u3 pi is' (i :: qi) hp hi.1 ⟨hi2, hq⟩
      rw [show pi ++ (is' ++ [i]) ++ qi = pi ++ is' ++ i :: qi by simp, e, List.map_append, List.map_singleton,
        extN_snoc _ _ _ _ _ _ (by simpa using hil)]
      congr 1
      funext js
      by_cases hj : InB ns js
      · have hin : InB v.shape (pi ++ js ++ i :: qi) := by
          rw [hv]
          exact (hp.append hj).append ⟨hi2, hq⟩
        have hl : ps.length + ns.length = (pi ++ js).length := by
          rw [List.length_append, hp.length_eq, hj.length_eq]
        rw [h1.get _ hin, hn, hl, getD_mid]
        unfold line
        simp only [set_mid]
        simp
      · rw [v.supp]
        · have : ∀ j, t.get (pi ++ (js ++ [j]) ++ qi) = 0 := by
            intro j
            apply t.supp
            rw [hs']
            intro h
            have e1 : pi ++ (js ++ [j]) ++ qi = (pi ++ js) ++ j :: qi := by simp
            rw [e1, inB_append, inB_append hp.length_eq] at h
            · exact hj h.1.2
            · have := h.length_eq
              simp only [List.length_append, List.length_cons] at this ⊢
              have := hq.length_eq
              omega
          simp only [this]
          unfold ext
          cases extIdx m n ((i : ℤ) - ((F - 2 : ℕ) : ℤ)) <;> rfl
        · rw [hv]
          intro h
          rw [inB_append, inB_append hp.length_eq] at h
          · exact hj h.1.2
          · have := h.length_eq
            simp only [List.length_append, List.length_cons] at this ⊢
            have := hq.length_eq
            omega

/-- `_fwt_padN` on a folded tensor with channel axis. -/
theorem fwtPadN_ok [NonUnitalNonAssocSemiring R] {t : Tensor R} {w : Wavelet R} (m : Mode) {B C : Nat}
    {ns : List Nat} (hF : 2 ≤ w.len) (hns : 1 ≤ ns.length) (hs : t.shape = B :: C :: ns)
    (hp : ∀ n ∈ ns, PadOk m w.len n) :
    ∃ u, fwtPad t w (some m.name) ns.length = .ok u ∧ u.md = t.md ∧
      u.shape = B :: C :: ns.map (padLen w.len) ∧
      ∀ b c is, b < B → c < C → InB (ns.map (padLen w.len)) is →
        u.get (b :: c :: is) = extN m ns (fun js => t.get (b :: c :: js))
          (is.map fun (i : Nat) => (i : ℤ) - ((w.len - 2 : ℕ) : ℤ)) := by
  have hr : t.rank = ns.length + 2 := by unfold Tensor.rank; rw [hs]; rfl
  have hz : ∀ i, i < ns.length → t.sizeFromEnd (i + 1) = ns.getD (ns.length - 1 - i) 0 := by
    intro i hi
    unfold Tensor.sizeFromEnd
    rw [hs, List.length_cons, List.length_cons]
    obtain ⟨k, hk⟩ : ∃ k, ns.length + 1 + 1 - (i + 1) = k + 2 := ⟨ns.length - 1 - i, by omega⟩
    rw [hk, List.getD_cons_succ, List.getD_cons_succ]
    congr 1; omega
  obtain ⟨u, e, hu⟩ := fwtPad_ok (k := ns.length) (t := t) m hF hns (by omega) (by
    intro i hi
    rw [hz i hi]
    apply hp
    rw [List.getD_eq_getElem _ _ (by omega)]
    exact List.getElem_mem _)
  have hpp : padPairs t w.len ns.length = ns.reverse.map fun n => (w.len - 2, w.len - 2 + n % 2) := by
    unfold padPairs
    apply List.ext_getElem (by simp)
    intro i h1 h2
    simp only [List.length_map, List.length_range] at h1
    simp only [List.getElem_map, List.getElem_range, List.getElem_reverse, hz i h1]
    rw [List.getD_eq_getElem _ _ (by omega)]
  rw [hpp, hr] at hu
  obtain ⟨h1, h2, h3⟩ := extChain_get ns t u [B, C] [] (by
    simpa [Nat.add_comm, Nat.add_left_comm] using hu) (by simpa using hs)
  refine ⟨u, e, h1, by simpa using h2, ?_⟩
  intro b c is hb hc hi
  have := h3 [b, c] is [] ⟨hb, hc, trivial⟩ hi trivial
  simpa using this

end Verif
