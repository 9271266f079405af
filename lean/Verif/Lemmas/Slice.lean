/-
Lemmas for C61.
-/
import Verif.Spec.Slice
import Verif.Spec.Containers
import Verif.Lemmas.Packet2
import Verif.Lemmas.TopNd
import Verif.Lemmas.Line
import Verif.Lemmas.Adjoint
import Verif.Lemmas.RecGenN

namespace Verif
open Tensor Spec
variable {R : Type}

section
variable [Zero R]

theorem Spec.At.setMany_inB {t : Tensor R} {ax idx ks Ks : List Nat} (h : At t ax idx) (hn : ax.Nodup)
    (hlt : ∀ a ∈ ax, a < t.rank) (hK : Ks.length = ax.length) (hk : InB Ks ks) :
    InB (setMany t.shape ax Ks) (setMany idx ax ks) := by
  have hlen : idx.length = t.shape.length := h.len
  have hkl : ks.length = ax.length := by rw [hk.length_eq, hK]
  rw [inB_iff]
  refine ⟨by simp [setMany_length, hlen], fun d hd => ?_⟩
  rw [setMany_length] at hd
  by_cases hm : d ∈ ax
  · obtain ⟨i, hi, rfl⟩ := List.getElem_of_mem hm
    have e1 : ∀ (l ks : List Nat), (∀ a ∈ ax, a < l.length) → ks.length = ax.length →
        (setMany l ax ks).getD ax[i] 0 = ks.getD i 0 := by
      intro l ks h1 h2
      have := sizes_setMany (l := l) hn h1 h2
      have h3 : (sizes ax (setMany l ax ks)).getD i 0 = ks.getD i 0 := by rw [this]
      rw [← h3]
      simp [sizes, List.getD_eq_getElem?_getD, hi]
    rw [e1 idx ks (fun a ha => by rw [hlen]; exact hlt a ha) hkl, e1 t.shape Ks hlt hK]
    exact (inB_iff.mp hk).2 i (by rw [hK]; exact hi)
  · rw [setMany_getD_not_mem _ _ _ hm, setMany_getD_not_mem _ _ _ hm]
    exact h.lt d hd hm

theorem Spec.At.get_eq {t : Tensor R} {ax idx ks : List Nat} (hn : ax.Nodup) (h : At t ax idx)
    (hlt : ∀ a ∈ ax, a < t.rank) (hk : ks.length = ax.length) (hb : ¬ InB (sizes ax t.shape) ks) :
    t.get (setMany idx ax ks) = 0 := by
  apply t.supp
  intro hc
  apply hb
  have hlen : idx.length = t.shape.length := h.len
  have e := sizes_setMany (l := idx) hn (fun a ha => by rw [hlen]; exact hlt a ha) hk
  rw [← e]
  rw [inB_iff] at hc ⊢
  refine ⟨by simp [sizes], fun d hd => ?_⟩
  have hd' : d < ax.length := by simpa [sizes] using hd
  have := hc.2 ax[d] (hlt _ (List.getElem_mem hd'))
  simpa [sizes, List.getD_eq_getElem?_getD, hd'] using this

theorem plane_eq_of_same {ax ax' idx idx' : List Nat} {t t' : Tensor R} (hn : ax.Nodup) (hn' : ax'.Nodup)
    (hlt : ∀ a ∈ ax, a < t.rank) (hlt' : ∀ a ∈ ax', a < t'.rank) (ha : At t ax idx) (ha' : At t' ax' idx')
    (h : SamePlane ax ax' idx idx' t t') : plane t ax idx = plane t' ax' idx' := by
  have hl : ax.length = ax'.length := by simpa [sizes] using congrArg List.length h.sizes
  funext ks
  unfold plane
  rw [← hl]
  split_ifs with hk
  · by_cases hb : InB (sizes ax t.shape) ks
    · exact h.get ks hb
    · rw [ha.get_eq hn hlt hk hb, ha'.get_eq hn' hlt' (by rw [hk, hl]) (by rw [← h.sizes]; exact hb)]
  · rfl

/-- An operation that works plane by plane takes equal planes to equal planes. -/
theorem samePlane_along {ax ax' idx idx' Ks : List Nat} {f : (List Nat → R) → List Nat → R} {x x' z z' : Tensor R}
    (hn : ax.Nodup) (hn' : ax'.Nodup) (hlt : ∀ a ∈ ax, a < x.rank) (hlt' : ∀ a ∈ ax', a < x'.rank)
    (ha : At x ax idx) (ha' : At x' ax' idx') (hK : Ks.length = ax.length)
    (hx : SamePlane ax ax' idx idx' x x') (hz : AlongAxes ax Ks f x z) (hz' : AlongAxes ax' Ks f x' z') :
    SamePlane ax ax' idx idx' z z' := by
  have hl : ax.length = ax'.length := by simpa [sizes] using congrArg List.length hx.sizes
  have e : sizes ax z.shape = Ks := by rw [hz.shape]; exact sizes_setMany hn hlt hK
  have e' : sizes ax' z'.shape = Ks := by rw [hz'.shape]; exact sizes_setMany hn' hlt' (by rw [hK, hl])
  have hlen : idx.length = x.shape.length := ha.len
  have hlen' : idx'.length = x'.shape.length := ha'.len
  refine ⟨by rw [e, e'], fun ks hk => ?_⟩
  rw [e] at hk
  have hkl : ks.length = ax.length := by rw [hk.length_eq, hK]
  rw [hz.get _ (by rw [hz.shape]; exact ha.setMany_inB hn hlt hK hk),
    hz'.get _ (by rw [hz'.shape]; exact ha'.setMany_inB hn' hlt' (by rw [hK, hl]) hk),
    plane_setMany hn (fun a h => by rw [hlen]; exact hlt a h),
    plane_setMany hn' (fun a h => by rw [hlen']; exact hlt' a h),
    sizes_setMany hn (fun a h => by rw [hlen]; exact hlt a h) hkl,
    sizes_setMany hn' (fun a h => by rw [hlen']; exact hlt' a h) (by rw [hkl, hl]),
    plane_eq_of_same hn hn' hlt hlt' ha ha' hx]

end

section dec
variable [NonUnitalNonAssocSemiring R]

theorem forall₂_of_getElem? {α β : Type} {P : α → β → Prop} {l : List α} {l' : List β} (hl : l.length = l'.length)
    (h : ∀ (i : Nat) a b, l[i]? = some a → l'[i]? = some b → P a b) : List.Forall₂ P l l' := by
  rw [List.forall₂_iff_get]
  refine ⟨hl, fun i h1 h2 => ?_⟩
  exact h i _ _ (by simp [h1]) (by simp [h2])

/-- The transformed planes of `D` entries correspond. -/
def SliceKind (D : (List Bool → Tensor R → Prop) → Entry R → Prop) : Prop :=
  ∀ (P P' : List Bool → Tensor R → Prop) (Q : Tensor R → Tensor R → Prop),
    (∀ bs t t', P bs t → P' bs t' → Q t t') → ∀ e e', D P e → D P' e' → SameEntries Q e e'

theorem sliceKind_tuple : SliceKind (R := R) IsTuple := by
  rintro P P' Q h e e' ⟨a, b, c, rfl, h1, h2, h3⟩ ⟨a', b', c', rfl, h1', h2', h3'⟩
  exact .tuple (h _ _ _ h1 h1') (h _ _ _ h2 h2') (h _ _ _ h3 h3')

theorem sliceKind_dict (keys : List String) : SliceKind (R := R) (IsDict keys) := by
  rintro P P' Q h e e' ⟨kv, rfl, h1, h2⟩ ⟨kv', rfl, h1', h2'⟩
  refine .dict (forall₂_of_getElem? (by simpa using congrArg List.length (h1.trans h1'.symm)) fun i a b ha hb => ?_)
  have hk : a.1 = b.1 := by
    have e1 : (kv.map Prod.fst)[i]? = some a.1 := by simp [ha]
    have e2 : (kv'.map Prod.fst)[i]? = some b.1 := by simp [hb]
    rw [h1] at e1; rw [h1'] at e2
    exact Option.some.inj (e1.symm.trans e2)
  refine ⟨hk, h (bandOfKey a.1) _ _ (h2 a (List.mem_of_getElem? ha)) ?_⟩
  rw [hk]
  exact h2' b (List.mem_of_getElem? hb)

theorem levelLens_len (F : Nat) (ns : List Nat) (s : Nat) : (levelLens F ns s).length = ns.length := by
  simp [levelLens]

/-- Textbook coefficients of equal planes are equal planes. -/
theorem isDwtN_slice {D : (List Bool → Tensor R → Prop) → Entry R → Prop} (hD : SliceKind D) {m : Mode} {w : Wavelet R}
    {ax ax' idx idx' : List Nat} {L : Nat} {x x' : Tensor R} {c c' : Coeffs R}
    (hn : ax.Nodup) (hn' : ax'.Nodup) (hlt : ∀ a ∈ ax, a < x.rank) (hlt' : ∀ a ∈ ax', a < x'.rank)
    (ha : At x ax idx) (ha' : At x' ax' idx') (hx : SamePlane ax ax' idx idx' x x')
    (h : IsDwtN D m w ax L x c) (h' : IsDwtN D m w ax' L x' c') : SameCoeffs (SamePlane ax ax' idx idx') c c' := by
  have hnl : (sizes ax x.shape).length = ax.length := by simp [sizes]
  refine ⟨h.kind.trans h'.kind.symm, forall₂_of_getElem? (h.length.trans h'.length.symm) fun i e e' he he' => ?_⟩
  have hi : i < L + 1 := by
    rw [← h.length]
    exact (List.getElem?_eq_some_iff.mp he).1
  rcases Nat.eq_zero_or_pos i with rfl | h0
  · obtain ⟨t, e1, e2⟩ := h.approx
    obtain ⟨t', e1', e2'⟩ := h'.approx
    rw [e1] at he; rw [e1'] at he'
    cases he; cases he'
    unfold IsApprox at e2 e2'
    rw [← hx.sizes] at e2'
    exact .tensor (samePlane_along hn hn' hlt hlt' ha ha' (by rw [levelLens_len, hnl]) hx e2 e2')
  · obtain ⟨d, e1, e2⟩ := h.detail (L - i) (by omega)
    obtain ⟨d', e1', e2'⟩ := h'.detail (L - i) (by omega)
    rw [show L - (L - i) = i by omega] at e1 e1'
    rw [e1] at he; rw [e1'] at he'
    cases he; cases he'
    refine hD _ _ _ (fun bs t t' p p' => ?_) _ _ e2 e2'
    unfold IsBand at p p'
    rw [← hx.sizes] at p'
    exact samePlane_along hn hn' hlt hlt' ha ha' (by rw [levelLens_len, hnl]) hx p p'

end dec

section rec
variable [Zero R]

theorem bandGet_same {P : Tensor R → Tensor R → Prop} {e e' : Entry R} (h : SameEntries P e e') (bs : List Bool) :
    (bandGet e bs = none ∧ bandGet e' bs = none) ∨ ∃ t u, bandGet e bs = some t ∧ bandGet e' bs = some u ∧ P t u := by
  cases h with
  | tensor _ => exact Or.inl ⟨rfl, rfl⟩
  | tuple h1 h2 h3 =>
    unfold bandGet
    simp only
    split_ifs
    · exact Or.inr ⟨_, _, rfl, rfl, h1⟩
    · exact Or.inr ⟨_, _, rfl, rfl, h2⟩
    · exact Or.inr ⟨_, _, rfl, rfl, h3⟩
    · exact Or.inl ⟨rfl, rfl⟩
  | dict hf =>
    unfold bandGet
    simp only
    induction hf with
    | nil => exact Or.inl ⟨rfl, rfl⟩
    | @cons a b l l' hab _ ih =>
      by_cases hk : bandOfKey a.1 = bs
      · rw [List.find?_cons_of_pos (by simpa using hk), List.find?_cons_of_pos (by rw [← hab.1]; simpa using hk)]
        exact Or.inr ⟨_, _, rfl, rfl, hab.2⟩
      · rw [List.find?_cons_of_neg (by simpa using hk), List.find?_cons_of_neg (by rw [← hab.1]; simpa using hk)]
        exact ih

/-- A position of a batch of shape `S`. -/
structure AtS (S ax idx : List Nat) : Prop where
  len : idx.length = S.length
  lt : ∀ i, i < S.length → i ∉ ax → idx.getD i 0 < S.getD i 0

theorem AtS.at {S ax idx Ks : List Nat} {t : Tensor R} (h : AtS S ax idx) (ht : t.shape = setMany S ax Ks) :
    At t ax idx := by
  have hr : t.rank = S.length := by rw [Tensor.rank, ht, setMany_length]
  refine ⟨by rw [hr, h.len], fun i hi hn => ?_⟩
  rw [ht, setMany_getD_not_mem _ _ _ hn]
  exact h.lt i (by rw [← hr]; exact hi) hn

theorem Spec.At.atS {S ax idx Ks : List Nat} {t : Tensor R} (h : At t ax idx) (ht : t.shape = setMany S ax Ks) :
    AtS S ax idx := by
  have hr : t.rank = S.length := by rw [Tensor.rank, ht, setMany_length]
  refine ⟨by rw [← hr, h.len], fun i hi hn => ?_⟩
  have := h.lt i (by rw [hr]; exact hi) hn
  rwa [ht, setMany_getD_not_mem _ _ _ hn] at this

theorem entry_all_of_kind {D : (List Bool → Tensor R → Prop) → Entry R → Prop} {Q : Tensor R → Prop} {e : Entry R}
    (hD : D = IsTuple ∨ ∃ keys, D = IsDict keys) (h : D (fun _ t => Q t) e) {bs : List Bool} {t : Tensor R}
    (hb : bandGet e bs = some t) : Q t := by
  rcases hD with rfl | ⟨keys, rfl⟩
  · obtain ⟨a, b, c, rfl, h1, h2, h3⟩ := h
    unfold bandGet at hb
    simp only at hb
    split_ifs at hb <;> cases hb <;> assumption
  · obtain ⟨kv, rfl, -, h2⟩ := h
    unfold bandGet at hb
    obtain ⟨q, hq, rfl⟩ := Option.map_eq_some_iff.mp hb
    exact h2 q (List.mem_of_find?_eq_some hq)

section
variable {n : Nat} {ax ax' idx idx' S S' : List Nat} {md md' : Meta}

theorem bandPlane_same {D : (List Bool → Tensor R → Prop) → Entry R → Prop}
    (hD : D = IsTuple ∨ ∃ keys, D = IsDict keys) (hn : ax.Nodup) (hn' : ax'.Nodup)
    (hlt : ∀ a ∈ ax, a < S.length) (hlt' : ∀ a ∈ ax', a < S'.length) (ha : AtS S ax idx) (ha' : AtS S' ax' idx')
    {Ks Ks' : List Nat} {e e' : Entry R} (he : D (fun _ t => Uniform md (setMany S ax Ks) t) e)
    (he' : D (fun _ t => Uniform md' (setMany S' ax' Ks') t) e')
    (h : SameEntries (SamePlane ax ax' idx idx') e e') :
    bandPlane e ax idx = bandPlane e' ax' idx' := by
  funext bs
  unfold bandPlane
  rcases bandGet_same h bs with ⟨h1, h2⟩ | ⟨t, u, h1, h2, h3⟩
  · rw [h1, h2]
  · rw [h1, h2]
    have q1 := entry_all_of_kind (Q := fun t => Uniform md (setMany S ax Ks) t) hD he h1
    have q2 := entry_all_of_kind (Q := fun t => Uniform md' (setMany S' ax' Ks') t) hD he' h2
    exact plane_eq_of_same hn hn' (by rw [Tensor.rank, q1.2, setMany_length]; exact hlt)
      (by rw [Tensor.rank, q2.2, setMany_length]; exact hlt') (ha.at q1.2) (ha'.at q2.2) h3

theorem bandPlane_setMany {e : Entry R} {ks : List Nat}
    (hn : ax.Nodup) (hlt : ∀ a ∈ ax, a < idx.length) :
    bandPlane e ax (setMany idx ax ks) = bandPlane e ax idx := by
  funext bs
  unfold bandPlane
  cases bandGet e bs with
  | none => rfl
  | some t => exact plane_setMany hn hlt

/-- A synthesis that works plane by plane takes equal planes to equal planes. -/
theorem samePlane_rec {D : (List Bool → Tensor R → Prop) → Entry R → Prop}
    (hD : D = IsTuple ∨ ∃ keys, D = IsDict keys) (hn : ax.Nodup) (hn' : ax'.Nodup)
    (hlt : ∀ a ∈ ax, a < S.length) (hlt' : ∀ a ∈ ax', a < S'.length) {t0 t0' z z' : Tensor R} {es es' : List (Entry R)}
    {K0 Kz : List Nat} {Kss : List (List Nat)} (hKz : Kz.length = ax.length)
    (ha : At t0 ax idx) (ha' : At t0' ax' idx')
    (ht : Uniform md (setMany S ax K0) t0) (ht' : Uniform md' (setMany S' ax' K0) t0')
    (hes : List.Forall₂ (fun e Ks => D (fun _ t => Uniform md (setMany S ax Ks) t) e) es Kss)
    (hes' : List.Forall₂ (fun e Ks => D (fun _ t => Uniform md' (setMany S' ax' Ks) t) e) es' Kss)
    (h0 : SamePlane ax ax' idx idx' t0 t0') (hs : List.Forall₂ (SameEntries (SamePlane ax ax' idx idx')) es es')
    (G : (List Nat → R) → List (List Nat × (List Bool → List Nat → R)) → List Nat → R)
    (zs : z.shape = setMany S ax Kz) (zs' : z'.shape = setMany S' ax' Kz)
    (zg : ∀ idx, InB z.shape idx → z.get idx = G (plane t0 ax idx)
      (List.zipWith (fun e Ks => (Ks, bandPlane e ax idx)) es Kss) (sizes ax idx))
    (zg' : ∀ idx, InB z'.shape idx → z'.get idx = G (plane t0' ax' idx)
      (List.zipWith (fun e Ks => (Ks, bandPlane e ax' idx)) es' Kss) (sizes ax' idx)) :
    SamePlane ax ax' idx idx' z z' := by
  have hl : ax.length = ax'.length := by simpa [sizes] using congrArg List.length h0.sizes
  have hA := ha.atS ht.2
  have hA' := ha'.atS ht'.2
  have hli : ∀ a ∈ ax, a < idx.length := by rw [hA.len]; exact hlt
  have hli' : ∀ a ∈ ax', a < idx'.length := by rw [hA'.len]; exact hlt'
  have e : sizes ax z.shape = Kz := by rw [zs]; exact sizes_setMany hn hlt hKz
  have e' : sizes ax' z'.shape = Kz := by rw [zs']; exact sizes_setMany hn' hlt' (by rw [hKz, hl])
  have ht0 : ∀ {t : Tensor R} {S : List Nat}, t.shape = S → t.rank = S.length := fun h => by rw [Tensor.rank, h]
  refine ⟨by rw [e, e'], fun ks hk => ?_⟩
  rw [e] at hk
  have hkl : ks.length = ax.length := by rw [hk.length_eq, hKz]
  have hzr : z.rank = S.length := by rw [Tensor.rank, zs, setMany_length]
  have hzr' : z'.rank = S'.length := by rw [Tensor.rank, zs', setMany_length]
  have b1 : InB z.shape (setMany idx ax ks) := by
    have := (hA.at zs).setMany_inB hn (by rw [hzr]; exact hlt) hKz hk
    rwa [zs, setMany_setMany hn hlt hKz, ← zs] at this
  have b2 : InB z'.shape (setMany idx' ax' ks) := by
    have := (hA'.at zs').setMany_inB hn' (by rw [hzr']; exact hlt') (by rw [hKz, hl]) hk
    rwa [zs', setMany_setMany hn' hlt' (by rw [hKz, hl]), ← zs'] at this
  rw [zg _ b1, zg' _ b2, plane_setMany hn hli, plane_setMany hn' hli', sizes_setMany hn hli hkl,
    sizes_setMany hn' hli' (by rw [hkl, hl]),
    plane_eq_of_same hn hn' (by rw [Tensor.rank, ht.2, setMany_length]; exact hlt)
      (by rw [Tensor.rank, ht'.2, setMany_length]; exact hlt') ha ha' h0]
  congr 1
  clear zg zg' b1 b2
  induction hs generalizing Kss with
  | nil => cases hes; cases hes'; rfl
  | cons h _ ih =>
    cases hes with
    | cons p ps =>
      cases hes' with
      | cons q qs =>
        rw [List.zipWith_cons_cons, List.zipWith_cons_cons, ih ps qs,
          bandPlane_setMany hn hli, bandPlane_setMany hn' hli',
          bandPlane_same hD hn hn' hlt hlt' hA hA' p q h]

end
end rec
end Verif
