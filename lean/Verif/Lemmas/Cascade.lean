/-
Lemmas for C62: transforming the approximation further continues the transform.
-/
import Verif.Lemmas.Slice
import Verif.Lemmas.TwoTap

namespace Verif
open Tensor Spec
variable {R : Type}

theorem levelLen_add (F n L : Nat) : ∀ s, levelLen F (levelLen F n L) s = levelLen F n (L + s)
  | 0 => rfl
  | s + 1 => by rw [levelLen, levelLen_add F n L s]; rfl

theorem levelLens_add (F : Nat) (ns : List Nat) (L s : Nat) :
    levelLens F (levelLens F ns L) s = levelLens F ns (L + s) := by
  unfold levelLens
  rw [List.map_map]
  exact List.map_congr_left fun n _ => levelLen_add F n L s

section
variable [NonUnitalNonAssocSemiring R]

theorem cA_add (m : Mode) (w : Wavelet R) (n : Nat) (x : Nat → R) (L : Nat) :
    ∀ s, cA m w (levelLen w.len n L) (cA m w n x L) s = cA m w n x (L + s)
  | 0 => rfl
  | s + 1 => by
    show dwtStep m w.decLo _ _ = dwtStep m w.decLo _ _
    rw [cA_add m w n x L s, levelLen_add]
    rfl

theorem cD_add (m : Mode) (w : Wavelet R) (n : Nat) (x : Nat → R) (L s : Nat) :
    cD m w (levelLen w.len n L) (cA m w n x L) s = cD m w n x (L + s) := by
  unfold cD
  rw [cA_add, levelLen_add]

theorem cAN_add (m : Mode) (w : Wavelet R) (ns : List Nat) (X : List Nat → R) (L : Nat) :
    ∀ s, cAN m w (levelLens w.len ns L) (cAN m w ns X L) s = cAN m w ns X (L + s)
  | 0 => rfl
  | s + 1 => by
    show bandN m w _ _ _ = bandN m w _ _ _
    rw [cAN_add m w ns X L s, levelLens_add, levelLens_length]
    rfl

theorem cDN_add (m : Mode) (w : Wavelet R) (ns : List Nat) (X : List Nat → R) (L s : Nat) (bs : List Bool) :
    cDN m w (levelLens w.len ns L) (cAN m w ns X L) s bs = cDN m w ns X (L + s) bs := by
  unfold cDN
  rw [cAN_add, levelLens_add]

theorem cA_congr {m : Mode} {w : Wavelet R} {n : Nat} {x y : Nat → R} (h : ∀ j, j < n → x j = y j) :
    ∀ (L : Nat), (∀ s, s < L → m.Admits w.len (levelLen w.len n s)) →
    ∀ k, k < levelLen w.len n L → cA m w n x L k = cA m w n y L k
  | 0, _, k, hk => h k hk
  | L + 1, ha, k, _ =>
    dwtStep_congr (ha L (by omega)) (fun j hj => cA_congr h L (fun s hs => ha s (by omega)) j hj) _ _

theorem cD_congr {m : Mode} {w : Wavelet R} {n : Nat} {x y : Nat → R} (h : ∀ j, j < n → x j = y j) (L : Nat)
    (ha : ∀ s, s < L + 1 → m.Admits w.len (levelLen w.len n s)) (k : Nat) : cD m w n x L k = cD m w n y L k :=
  dwtStep_congr (ha L (by omega)) (fun j hj => cA_congr h L (fun s hs => ha s (by omega)) j hj) _ _

/-- One-dimensional coefficients of the approximation, followed by the finer details. -/
theorem isDwt_append {m : Mode} {w : Wavelet R} {a L M : Nat} {x t : Tensor R} {ds bs : List (Tensor R)}
    (hax : a < x.rank) (h : IsDwt m w a L x (t :: ds)) (h' : IsDwt m w a M t bs)
    (hA : ∀ s, s < M → m.Admits w.len (levelLen w.len (t.shape.getD a 0) s)) :
    IsDwt m w a (L + M) x (bs ++ ds) := by
  have ht := h.approx t rfl
  have hn : t.shape.getD a 0 = levelLen w.len (x.shape.getD a 0) L := by
    rw [ht.shape]
    exact getD_set_self (by exact hax)
  have hds : ds.length = L := by simpa using h.length
  rw [hn] at hA
  refine ⟨by rw [List.length_append, h'.length, hds]; omega, fun u hu => ?_, fun s d hs hd => ?_⟩
  · have hu' : bs[0]? = some u := by
      rwa [List.getElem?_append_left (by rw [h'.length]; omega)] at hu
    have k := h'.approx u hu'
    rw [hn, levelLen_add] at k
    have := AlongAxis.comp hax ht k fun p q hpq i hi => cA_congr hpq M hA i (by rw [levelLen_add]; exact hi)
    simpa only [cA_add] using this
  · by_cases hsL : s < L
    · rw [List.getElem?_append_right (by rw [h'.length]; omega), h'.length] at hd
      have e : L + M - s - (M + 1) = L - s - 1 := by omega
      rw [e] at hd
      refine h.detail s d hsL ?_
      rw [show L - s = (L - s - 1) + 1 by omega, List.getElem?_cons_succ]
      exact hd
    · obtain ⟨r, rfl⟩ := Nat.exists_eq_add_of_le (Nat.le_of_not_lt hsL)
      rw [List.getElem?_append_left (by rw [h'.length]; omega)] at hd
      have k := h'.detail r d (by omega) (by rw [← hd]; congr 1; omega)
      rw [hn, levelLen_add] at k
      have := AlongAxis.comp hax ht k fun p q hpq i hi =>
        cD_congr hpq r (fun s hs => hA s (by omega)) i
      simpa only [cD_add, Nat.add_assoc] using this

theorem isDwt_unique1 {m : Mode} {w : Wavelet R} {a L : Nat} {x : Tensor R} {cs cs' : List (Tensor R)}
    (h : IsDwt m w a L x cs) (h' : IsDwt m w a L x cs') : cs = cs' := by
  have huni : ∀ {K : Nat} {f : (Nat → R) → Nat → R} {t t' : Tensor R}, AlongAxis a K f x t → AlongAxis a K f x t' → t = t' := by
    intro K f t t' h h'
    have hs : t.shape = t'.shape := h.shape.trans h'.shape.symm
    exact Tensor.ext' (h.md.trans h'.md.symm) hs fun idx hidx => by
      rw [h.get idx hidx, h'.get idx (by rw [← hs]; exact hidx)]
  apply List.ext_getElem? 
  intro i
  by_cases hi : i < L + 1
  · have e1 : cs[i]? = some (cs[i]'(by rw [h.length]; exact hi)) := List.getElem?_eq_getElem _
    have e2 : cs'[i]? = some (cs'[i]'(by rw [h'.length]; exact hi)) := List.getElem?_eq_getElem _
    rw [e1, e2]
    congr 1
    rcases Nat.eq_zero_or_pos i with rfl | h0
    · exact huni (h.approx _ e1) (h'.approx _ e2)
    · have hi' : i = L - (L - i) := by omega
      exact huni (h.detail (L - i) _ (by omega) (by rw [← hi']; exact e1))
        (h'.detail (L - i) _ (by omega) (by rw [← hi']; exact e2))
  · rw [List.getElem?_eq_none (by rw [h.length]; omega), List.getElem?_eq_none (by rw [h'.length]; omega)]

/-- A kind of entries that only depends on the bands named by `n` letters. -/
structure CascadeKind (n : Nat) (D : (List Bool → Tensor R → Prop) → Entry R → Prop) : Prop where
  mono : ∀ {P Q : List Bool → Tensor R → Prop} {e : Entry R},
    (∀ bs t, bs.length = n → P bs t → Q bs t) → D P e → D Q e
  slice : SliceKind D

theorem cascadeKind_tuple : CascadeKind (R := R) 2 IsTuple := by
  refine ⟨?_, sliceKind_tuple⟩
  rintro P Q e h ⟨a, b, c, rfl, h1, h2, h3⟩
  exact ⟨a, b, c, rfl, h _ _ rfl h1, h _ _ rfl h2, h _ _ rfl h3⟩

theorem cascadeKind_dict {n : Nat} {keys : List String} (hk : ∀ k ∈ keys, k.toList.length = n) :
    CascadeKind (R := R) n (IsDict keys) := by
  refine ⟨?_, sliceKind_dict keys⟩
  rintro P Q e h ⟨kv, rfl, h1, h2⟩
  refine ⟨kv, rfl, h1, fun q hq => h _ _ ?_ (h2 q hq)⟩
  have : q.1 ∈ keys := by rw [← h1]; exact List.mem_map_of_mem hq
  simpa [bandOfKey] using hk _ this

theorem sameEntries_eq {e e' : Entry R} (h : SameEntries (fun t u : Tensor R => t = u) e e') : e = e' := by
  cases h with
  | tensor h => rw [h]
  | tuple h1 h2 h3 => rw [h1, h2, h3]
  | dict h =>
    congr 1
    rename_i kv kv'
    induction h with
    | nil => rfl
    | cons h _ ih => rw [ih, Prod.ext h.1 h.2]

theorem isDwtN_unique' {n : Nat} {D : (List Bool → Tensor R → Prop) → Entry R → Prop} (hD : CascadeKind n D) {m : Mode}
    {w : Wavelet R} {ax : List Nat} {L : Nat} {x : Tensor R} {c c' : Coeffs R} (h : IsDwtN D m w ax L x c)
    (h' : IsDwtN D m w ax L x c') : c = c' := by
  have huni : ∀ {Ks : List Nat} {f : (List Nat → R) → List Nat → R} {z z' : Tensor R},
      AlongAxes ax Ks f x z → AlongAxes ax Ks f x z' → z = z' := by
    intro K f t t' h h'
    have hs : t.shape = t'.shape := h.shape.trans h'.shape.symm
    exact Tensor.ext' (h.md.trans h'.md.symm) hs fun idx hidx => by
      rw [h.get idx hidx, h'.get idx (by rw [← hs]; exact hidx)]
  obtain ⟨il, cs⟩ := c
  obtain ⟨il', cs'⟩ := c'
  have hk := h.kind
  have hk' := h'.kind
  have hl := h.length
  have hl' := h'.length
  simp only at hk hk' hl hl'
  subst hk hk'
  congr 1
  apply List.ext_getElem? 
  intro i
  by_cases hi : i < L + 1
  · rcases Nat.eq_zero_or_pos i with rfl | h0
    · obtain ⟨t, e1, e2⟩ := h.approx
      obtain ⟨t', e1', e2'⟩ := h'.approx
      simp only at e1 e1'
      rw [e1, e1', huni e2 e2']
    · obtain ⟨e, e1, e2⟩ := h.detail (L - i) (by omega)
      obtain ⟨e', e1', e2'⟩ := h'.detail (L - i) (by omega)
      have hi' : L - (L - i) = i := by omega
      rw [hi'] at e1 e1'
      simp only at e1 e1'
      rw [e1, e1', sameEntries_eq (hD.slice (IsBand m w ax x (L - i)) (IsBand m w ax x (L - i)) (fun t u => t = u)
        (fun bs t t' h h' => huni h h') e e' e2 e2')]
  · rw [List.getElem?_eq_none (by omega), List.getElem?_eq_none (by omega)]

/-- Coefficients of the approximation, followed by the finer details. -/
theorem isDwtN_append {D : (List Bool → Tensor R → Prop) → Entry R → Prop} {m : Mode} {w : Wavelet R} {ax : List Nat}
    (hD : CascadeKind ax.length D) {L M : Nat} {x t : Tensor R} {il : Bool} {ds : List (Entry R)} {b : Coeffs R}
    (hn : ax.Nodup) (hlt : ∀ a ∈ ax, a < x.rank) (h : IsDwtN D m w ax L x ⟨il, .tensor t :: ds⟩)
    (h' : IsDwtN D m w ax M t b) (hA : LevelsAdmit m w.len (sizes ax t.shape) M) :
    IsDwtN D m w ax (L + M) x ⟨false, b.items ++ ds⟩ := by
  obtain ⟨t', e1, ht⟩ := h.approx
  obtain rfl : t = t' := by simpa using e1
  have hsl : (sizes ax x.shape).length = ax.length := by simp [sizes]
  have hns : sizes ax t.shape = levelLens w.len (sizes ax x.shape) L := by
    rw [ht.shape]
    exact sizes_setMany hn hlt (by rw [levelLens_length, hsl])
  have hds : ds.length = L := by simpa using h.length
  rw [hns] at hA
  refine ⟨rfl, by simp only [List.length_append, h'.length, hds]; omega, ?_, fun s hs => ?_⟩
  · obtain ⟨u, e2, k⟩ := h'.approx
    refine ⟨u, by simp only; rw [List.getElem?_append_left (by rw [h'.length]; omega)]; exact e2, ?_⟩
    unfold IsApprox at k ⊢
    rw [hns, levelLens_add] at k
    have := AlongAxes.comp hn hlt (by rw [levelLens_length, hsl]) (by rw [levelLens_length, hsl]) ht k
      fun X Y hXY ks hks => cAN_congr hXY M hA ks (by rw [levelLens_add]; exact hks)
    simpa only [cAN_add] using this
  · by_cases hsL : s < L
    · obtain ⟨e, e2, k⟩ := h.detail s hsL
      refine ⟨e, ?_, k⟩
      simp only
      rw [List.getElem?_append_right (by rw [h'.length]; omega), h'.length,
        show L + M - s - (M + 1) = L - s - 1 by omega]
      rwa [show L - s = (L - s - 1) + 1 by omega, List.getElem?_cons_succ] at e2
    · obtain ⟨r, rfl⟩ := Nat.exists_eq_add_of_le (Nat.le_of_not_lt hsL)
      obtain ⟨e, e2, k⟩ := h'.detail r (by omega)
      refine ⟨e, ?_, hD.mono (fun bs u hb hu => ?_) k⟩
      · simp only
        rw [List.getElem?_append_left (by rw [h'.length]; omega), ← e2]
        congr 1; omega
      · unfold IsBand at hu ⊢
        rw [hns, levelLens_add] at hu
        have := AlongAxes.comp hn hlt (by rw [levelLens_length, hsl]) (by rw [levelLens_length, hsl]) ht hu
          fun X Y hXY ks hks => cDN_congr hXY r (fun s hs => hA s (by omega)) (by rw [hb, levelLens_length, hsl]) ks
            (by rw [hks.length_eq, levelLens_length, levelLens_length])
        simpa only [cDN_add, Nat.add_assoc] using this

theorem levelsAdmit_add {m : Mode} {F : Nat} {ns : List Nat} {L M : Nat} :
    LevelsAdmit m F ns (L + M) ↔ LevelsAdmit m F ns L ∧ LevelsAdmit m F (levelLens F ns L) M := by
  constructor
  · intro h
    refine ⟨fun s hs => h s (by omega), fun s hs => ?_⟩
    rw [levelLens_add]
    exact h (L + s) (by omega)
  · rintro ⟨h1, h2⟩ s hs
    by_cases hsL : s < L
    · exact h1 s hsL
    · obtain ⟨r, rfl⟩ := Nat.exists_eq_add_of_le (Nat.le_of_not_lt hsL)
      rw [← levelLens_add]
      exact h2 r (by omega)

end
end Verif
