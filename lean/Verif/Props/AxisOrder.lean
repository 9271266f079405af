/-
C66: the order in which the transformed axes are listed only renames the bands.
-/
import Verif.Spec.AxisOrder
import Verif.Lemmas.AxisOrder
import Verif.Props.MatOnto
import Verif.Props.Sep
import Verif.Props.Local
import Verif.Props.RecGenN

namespace Verif.Props
open Tensor Spec
variable {R : Type}

section axes
variable {as as' : List Int} {r n : Nat}

theorem goodAxes_perm (hp : as.Perm as') (h : GoodAxes (.seq as) r n) : GoodAxes (.seq as') r n := by
  refine ⟨h.pos, ?_, ?_, ?_⟩
  · have := h.len
    simp only [resolve] at this ⊢
    rw [← hp.length_eq]; exact this
  · intro a ha
    exact h.valid.valid a (hp.mem_iff.mpr ha)
  · exact (hp.map _).nodup_iff.mp h.valid.distinct

theorem axesOf_perm (hp : as.Perm as') : (axesOf (.seq as) r n).Perm (axesOf (.seq as') r n) := hp.map _

theorem sizes_perm {ax ax' : List Nat} (hp : ax.Perm ax') (S : List Nat) : (sizes ax S).Perm (sizes ax' S) := hp.map _

theorem zip_perm_band {k k' : String} (hz : (as.zip k.toList).Perm (as'.zip k'.toList)) :
    ((axesOf (.seq as) r n).zip (bandOfKey k)).Perm ((axesOf (.seq as') r n).zip (bandOfKey k')) := by
  unfold axesOf bandOfKey resolve
  simp only
  rw [List.zip_map, List.zip_map]
  exact hz.map _

end axes

theorem alongAxes_eq [Zero R] {ax Ks : List Nat} {f : (List Nat → R) → List Nat → R} {x t t' : Tensor R}
    (h : AlongAxes ax Ks f x t) (h' : AlongAxes ax Ks f x t') : t = t' := by
  have hs : t.shape = t'.shape := h.shape.trans h'.shape.symm
  exact Tensor.ext' (h.md.trans h'.md.symm) hs fun idx hidx => by
    rw [h.get idx hidx, h'.get idx (by rw [← hs]; exact hidx)]

theorem getElem?_map_some {α β : Type} {f : α → β} {l : List α} {i : Nat} {a : α} (h : l[i]? = some a) :
    (l.map f)[i]? = some (f a) := by rw [List.getElem?_map, h]; rfl

/-- Two-dimensional coefficients with the axes exchanged. -/
theorem isDwt2_exchange [CommSemiring R] {m : Mode} {w : Wavelet R} {a b : Nat} (hn : a ≠ b) {x : Tensor R} (ha : a < x.rank)
    (hb : b < x.rank) {L : Nat} {c : Coeffs R} (h : IsDwt2 m w [a, b] L x c) : IsDwt2 m w [b, a] L x (exchangeAll c) := by
  have hp : [a, b].Perm [b, a] := List.Perm.swap _ _ _
  have hn' : [a, b].Nodup := by simp [hn]
  have hlt : ∀ i ∈ [a, b], i < x.rank := by simp [ha, hb]
  refine ⟨h.kind, by rw [exchangeAll, List.length_map]; exact h.length, ?_, fun s hs => ?_⟩
  · obtain ⟨t, e, ht⟩ := h.approx
    exact ⟨t, getElem?_map_some e, isApprox_perm hp hn' hlt ht⟩
  · obtain ⟨e, e1, u, v, d, rfl, h1, h2, h3⟩ := h.detail s hs
    refine ⟨_, getElem?_map_some e1, v, u, d, rfl, ?_, ?_, ?_⟩
    · exact isBand_perm hp hn' hlt rfl rfl (by exact List.Perm.swap _ _ _) h2
    · exact isBand_perm hp hn' hlt rfl rfl (by exact List.Perm.swap _ _ _) h1
    · exact isBand_perm hp hn' hlt rfl rfl (by exact List.Perm.swap _ _ _) h3

theorem axes_pair {a b : Int} {r : Nat} (hg : GoodAxes (.seq [a, b]) r 2) :
    axisOf r a ≠ axisOf r b ∧ axisOf r a < r ∧ axisOf r b < r := by
  have h1 := hg.nodup
  have h2 := hg.lt
  simp [axesOf, resolve] at h1 h2
  exact ⟨h1, h2.1, h2.2⟩

/-- **C66.** Listing the two axes of `wavedec2` in the other order exchanges the horizontal and the vertical details of
every level and changes nothing else (and neither order succeeds without the other). -/
theorem c66_wavedec2 [CommSemiring R] (x : Tensor R) (w : Wavelet R) (mode : Option String) (level : Option Int) (a b : Int)
    (hF : 2 ≤ w.len) (hhi : w.decHi.length = w.len) (c : Coeffs R)
    (hc : wavedec2 x w mode level (.seq [a, b]) = .ok c) : wavedec2 x w mode level (.seq [b, a]) = .ok (exchangeAll c) := by
  have hp : [a, b].Perm [b, a] := List.Perm.swap _ _ _
  obtain ⟨hg, hdt, m, h1, h2, h3⟩ := wavedec2_ok hF hhi hc
  have hg' := goodAxes_perm hp hg
  obtain ⟨q1, q2, q3⟩ := axes_pair hg
  have hsz := sizes_perm (axesOf_perm (r := x.rank) (n := 2) hp) x.shape
  have hL := levelsN_perm level w.len hsz
  have hD := isDwt2_exchange q1 q2 q3 h3
  obtain ⟨-, h4⟩ := wavedec2_char (mode := mode) (x := x) (level := level) (h := .seq [b, a]) hF hhi
  obtain ⟨h5, h6, -, -⟩ := h4 hg' hdt
  rw [hL] at hD h1 h2
  have : ∃ c', wavedec2 x w mode level (.seq [b, a]) = .ok c' ∧ IsDwt2 m w (axesOf (.seq [b, a]) x.rank 2)
      (levelsN level w.len (sizes (axesOf (.seq [b, a]) x.rank 2) x.shape)) x c' := by
    rcases h1 with h1 | h1
    · exact h6 m h1 (levelsAdmit_perm hsz h2)
    · exact h5 h1 m
  obtain ⟨c', e, hd'⟩ := this
  rw [e, isDwtN_unique' cascadeKind_tuple hd' hD]

theorem isDict_relabel [Zero R] {as as' : List Int} {keys : List String} {P P' : List Bool → Tensor R → Prop} {e e' : Entry R}
    (h : IsDict keys P e) (h' : IsDict keys P' e')
    (hrel : ∀ k ∈ keys, ∀ k' ∈ keys, (as.zip k.toList).Perm (as'.zip k'.toList) → ∀ t t', P (bandOfKey k) t → P' (bandOfKey k') t' →
      t' = t) :
    ∃ kv kv', e = .dict kv ∧ e' = .dict kv' ∧ kv'.map Prod.fst = kv.map Prod.fst ∧
      ∀ k t k' t', (k, t) ∈ kv → (k', t') ∈ kv' → (as.zip k.toList).Perm (as'.zip k'.toList) → t' = t := by
  obtain ⟨kv, rfl, h1, h2⟩ := h
  obtain ⟨kv', rfl, h1', h2'⟩ := h'
  refine ⟨kv, kv', rfl, rfl, by rw [h1, h1'], fun k t k' t' hk hk' hz => ?_⟩
  exact hrel k (by rw [← h1]; exact List.mem_map_of_mem hk) k' (by rw [← h1']; exact List.mem_map_of_mem hk') hz t t'
    (h2 _ hk) (h2' _ hk')

theorem bandOfKey_length (k : String) : (bandOfKey k).length = k.toList.length := by simp [bandOfKey]

/-- Coefficients in dictionaries with the axes in another order. -/
theorem isDwtN_relabel [CommSemiring R] {m : Mode} {w : Wavelet R} {as as' : List Int} (hp : as.Perm as') {x : Tensor R} {n : Nat}
    (hg : GoodAxes (.seq as) x.rank n) {keys : List String} (hk : ∀ k ∈ keys, k.toList.length = n) {L : Nat} {c c' : Coeffs R}
    (h : IsDwtN (IsDict keys) m w (axesOf (.seq as) x.rank n) L x c)
    (h' : IsDwtN (IsDict keys) m w (axesOf (.seq as') x.rank n) L x c') : Relabelled as as' c c' := by
  have hpa := axesOf_perm (r := x.rank) (n := n) hp
  have hlen : (axesOf (.seq as) x.rank n).length = n := by rw [axesOf, List.length_map]; exact hg.len
  refine ⟨h'.kind.trans h.kind.symm, h'.length.trans h.length.symm, ?_, fun i hi hl => ?_⟩
  · obtain ⟨t, e, ht⟩ := h.approx
    obtain ⟨t', e', ht'⟩ := h'.approx
    rw [e, e', alongAxes_eq (isApprox_perm hpa hg.nodup hg.lt ht) ht']
  · rw [h.length] at hl
    obtain ⟨e, e1, he⟩ := h.detail (L - i) (by omega)
    obtain ⟨e', e1', he'⟩ := h'.detail (L - i) (by omega)
    rw [show L - (L - i) = i by omega] at e1 e1'
    obtain ⟨kv, kv', rfl, rfl, q1, q2⟩ := isDict_relabel (as := as) (as' := as') he he' fun k hkk k' hkk' hz t t' ht ht' =>
      alongAxes_eq ht' (isBand_perm hpa hg.nodup hg.lt (by rw [hlen, bandOfKey_length, hk k hkk])
        (by rw [← hpa.length_eq, hlen, bandOfKey_length, hk k' hkk']) (zip_perm_band hz) ht)
    exact ⟨kv, kv', e1, e1', q1, q2⟩

/-- **C66.** Listing the three axes of `wavedec3` in another order only relabels the detail bands: every letter stays with
its axis. -/
theorem c66_wavedec3 [CommSemiring R] (x : Tensor R) (w : Wavelet R) (mode : Option String) (level : Option Int)
    (as as' : List Int) (hp : as.Perm as') (hF : 2 ≤ w.len) (hhi : w.decHi.length = w.len) (c : Coeffs R)
    (hL : 0 < levelsN level w.len (sizes (axesOf (.seq as) x.rank 3) x.shape))
    (hc : wavedec3 x w mode level (.seq as) = .ok c) :
    ∃ c', wavedec3 x w mode level (.seq as') = .ok c' ∧ Relabelled as as' c c' := by
  obtain ⟨hg, hdt, m, h1, h2, h3⟩ := wavedec3_ok hF hhi hL hc
  have hg' := goodAxes_perm hp hg
  have hsz := sizes_perm (axesOf_perm (r := x.rank) (n := 3) hp) x.shape
  have hLL := levelsN_perm level w.len hsz
  obtain ⟨-, h4⟩ := wavedec3_char (mode := mode) (x := x) (level := level) (h := .seq as') hF hhi
  obtain ⟨h6, -, -⟩ := h4 hg' hdt (by rw [← hLL]; exact hL)
  rw [hLL] at h2 h3
  obtain ⟨c', e, hd'⟩ := h6 m h1 (levelsAdmit_perm hsz h2)
  exact ⟨c', e, isDwtN_relabel hp hg (by decide) h3 hd'⟩

theorem sepKeys_length {n : Nat} : ∀ k ∈ sepDetailKeys n, k.toList.length = n := by
  intro k hk
  obtain ⟨bs, h, -, rfl⟩ := (allDetails_sep n k).mp hk
  rw [← h]
  simp [keyOf]

/-- **C66.** The fully separable transforms `fswavedec` (one axis), `fswavedec2` and `fswavedec3`, stated for any number
of axes. -/
theorem c66_fswavedecn [CommSemiring R] (n : Nat) (hn : 1 ≤ n) (x : Tensor R) (w : Wavelet R) (mode : Option String)
    (level : Option Int) (as as' : List Int) (hp : as.Perm as') (hF : 2 ≤ w.len) (hhi : w.decHi.length = w.len) (c : Coeffs R)
    (hc : fswavedecn x w n mode level (.seq as) = .ok c) :
    ∃ c', fswavedecn x w n mode level (.seq as') = .ok c' ∧ Relabelled as as' c c' := by
  obtain ⟨hg, hdt, hae, m, h1, h2, h3⟩ := fswavedecn_ok hn hF hhi hc
  have hg' := goodAxes_perm hp hg
  have hsz := sizes_perm (axesOf_perm (r := x.rank) (n := n) hp) x.shape
  have hLL := levelsN_perm level w.len hsz
  obtain ⟨-, h4⟩ := fswavedecn_char (mode := mode) (x := x) (level := level) (h := .seq as') hn hF hhi
  obtain ⟨h5, h6, -, -⟩ := (h4 hg' hdt).2 fun h => hae ⟨h.1, hsz.mem_iff.mpr h.2⟩
  rw [hLL] at h1 h2 h3
  have : ∃ c', fswavedecn x w n mode level (.seq as') = .ok c' ∧ IsDwtN (IsDict (sepDetailKeys n)) m w
      (axesOf (.seq as') x.rank n) (levelsN level w.len (sizes (axesOf (.seq as') x.rank n) x.shape)) x c' := by
    rcases h1 with h1 | h1
    · exact h6 m h1 (levelsAdmit_perm hsz h2)
    · exact h5 h1 m
  obtain ⟨c', e, hd'⟩ := this
  exact ⟨c', e, isDwtN_relabel hp hg sepKeys_length h3 hd'⟩

/-- **C66.** `MatrixWavedec2` with `separable=True`: two new objects which differ in the order of the axes only. -/
theorem c66_matrix2 {la : LinAlg ℝ} (hla : ExactLinAlg la) {w : Wavelet ℝ} {F : Nat} (hw : OrthBank w F)
    {x : Tensor ℝ} {a b : Int} {m : Mode} {mode : Option String} {orth : String} {level : Option Int}
    (hg : GoodAxes (.seq [a, b]) x.rank 2) (hdt : x.md.dtype = .float32 ∨ x.md.dtype = .float64)
    (hpos : ∀ k ∈ x.shape, 0 < k)
    (hm : Selects mode m) (ho : orth = "qr" ∨ orth = "gramschmidt") (hlev : ∀ l, level = some l → 1 ≤ l)
    (hind : ∀ k, k % 2 = 0 → F ≤ k → (∃ n ∈ sizes (axesOf (.seq [a, b]) x.rank 2) x.shape, k ≤ evenLen n) → BoundaryIndep w F k) :
    ∃ dcfg dst dcfg' dst' c,
      decInitN 2 w level (.seq [a, b]) orth true mode = .ok (dcfg, dst) ∧
      decInitN 2 w level (.seq [b, a]) orth true mode = .ok (dcfg', dst') ∧
      (decCallN 2 la dcfg dst x).1 = .ok c ∧ (decCallN 2 la dcfg' dst' x).1 = .ok (exchangeAll c) := by
  have hp : [a, b].Perm [b, a] := List.Perm.swap _ _ _
  have hpa := axesOf_perm (r := x.rank) (n := 2) hp
  have hsz := sizes_perm hpa x.shape
  obtain ⟨dcfg, dst, -, -, C, c, -, i1, -, hC, hok, hc, -⟩ := c43_roundtrip2 hla hw hg hdt hpos hm ho hlev hind rfl
  obtain ⟨dcfg', dst', -, -, C', c', -, i1', -, hC', hok', hc', -⟩ :=
    c43_roundtrip2 hla hw (x := x) (axes := .seq [b, a]) (m := m) (mode := mode) (orth := orth) (level := level)
      (goodAxes_perm hp hg) hdt hpos hm ho hlev
      (fun k k1 k2 ⟨n, hn, k3⟩ => hind k k1 k2 ⟨n, hsz.mem_iff.mpr hn, k3⟩) rfl
  refine ⟨dcfg, dst, dcfg', dst', c, i1, i1', hok, ?_⟩
  rw [hok']
  have hC2 : ∀ k, k % 2 = 0 → F ≤ k → (∃ n ∈ sizes (axesOf (.seq [b, a]) x.rank 2) x.shape, k ≤ evenLen n) →
      constructBoundaryA la w x.md k orth = .ok (C k) ∧ OrthonormalCols k (C k).den :=
    fun k k1 k2 ⟨n, hn, k3⟩ => hC k k1 k2 ⟨n, hsz.mem_iff.mpr hn, k3⟩
  rw [levelsN_perm level F hsz, mLevelsN_perm F _ hsz] at hc
  have hn := hg.nodup
  have hlt := hg.lt
  refine congrArg Except.ok (isBandDwtN_unique sliceKind_swapped (band_agree rfl hC' hC2) hc' ?_)
  refine ⟨hc.kind, by rw [exchangeAll, List.length_map]; exact hc.length, ?_, fun s hs => ?_⟩
  · obtain ⟨t, e, ht⟩ := hc.approx
    exact ⟨t, getElem?_map_some e, matApprox_perm hpa hn hlt ht⟩
  · obtain ⟨e, e1, u, v, d, rfl, h1, h2, h3⟩ := hc.detail s hs
    refine ⟨_, getElem?_map_some e1, v, u, d, rfl, ?_, ?_, ?_⟩
    · exact matDetail_perm hpa hn hlt rfl rfl (by exact List.Perm.swap _ _ _) h2
    · exact matDetail_perm hpa hn hlt rfl rfl (by exact List.Perm.swap _ _ _) h1
    · exact matDetail_perm hpa hn hlt rfl rfl (by exact List.Perm.swap _ _ _) h3

/-- **C66.** `MatrixWavedec3`. -/
theorem c66_matrix3 {la : LinAlg ℝ} (hla : ExactLinAlg la) {w : Wavelet ℝ} {F : Nat} (hw : OrthBank w F)
    {x : Tensor ℝ} {as as' : List Int} (hp : as.Perm as') {m : Mode} {mode : Option String} {orth : String} {level : Option Int}
    (hg : GoodAxes (.seq as) x.rank 3) (hdt : x.md.dtype = .float32 ∨ x.md.dtype = .float64)
    (hm : Selects mode m) (ho : orth = "qr" ∨ orth = "gramschmidt") (hlev : ∀ l, level = some l → 1 ≤ l)
    (hne : level = none → ∀ k ∈ sizes (axesOf (.seq as) x.rank 3) x.shape, 0 < k)
    (hind : ∀ k, k % 2 = 0 → F ≤ k → (∃ n ∈ sizes (axesOf (.seq as) x.rank 3) x.shape, k ≤ evenLen n) → BoundaryIndep w F k) :
    ∃ dcfg dst dcfg' dst' c c',
      decInitN 3 w level (.seq as) orth true mode = .ok (dcfg, dst) ∧
      decInitN 3 w level (.seq as') orth true mode = .ok (dcfg', dst') ∧
      (decCallN 3 la dcfg dst x).1 = .ok c ∧ (decCallN 3 la dcfg' dst' x).1 = .ok c' ∧ Relabelled as as' c c' := by
  have hpa := axesOf_perm (r := x.rank) (n := 3) hp
  have hsz := sizes_perm hpa x.shape
  obtain ⟨dcfg, dst, -, -, C, c, i1, -, hC, hok, hc, -⟩ := c43_roundtrip3 hla hw hg hdt hm ho hlev hne hind rfl
  obtain ⟨dcfg', dst', -, -, C', c', i1', -, hC', hok', hc', -⟩ :=
    c43_roundtrip3 hla hw (x := x) (axes := .seq as') (m := m) (mode := mode) (orth := orth) (level := level)
      (goodAxes_perm hp hg) hdt hm ho hlev (fun h k hk => hne h k (hsz.mem_iff.mpr hk))
      (fun k k1 k2 ⟨n, hn, k3⟩ => hind k k1 k2 ⟨n, hsz.mem_iff.mpr hn, k3⟩) rfl
  refine ⟨dcfg, dst, dcfg', dst', c, c', i1, i1', hok, hok', ?_⟩
  have hC2 : ∀ k, k % 2 = 0 → F ≤ k → (∃ n ∈ sizes (axesOf (.seq as') x.rank 3) x.shape, k ≤ evenLen n) →
      constructBoundaryA la w x.md k orth = .ok (C k) ∧ OrthonormalCols k (C k).den :=
    fun k k1 k2 ⟨n, hn, k3⟩ => hC k k1 k2 ⟨n, hsz.mem_iff.mpr hn, k3⟩
  rw [levelsN_perm level F hsz, mLevelsN_perm F _ hsz] at hc
  have hlen : (axesOf (.seq as) x.rank 3).length = 3 := by rw [axesOf, List.length_map]; exact hg.len
  set L := mLevelsN F (levelsN level F (sizes (axesOf (.seq as') x.rank 3) x.shape)) (sizes (axesOf (.seq as') x.rank 3) x.shape)
    with hL
  have hag := band_agree (m := m) hL hC' hC2
  have hkl : ∀ k ∈ keysM3, k.toList.length = 3 := by decide
  refine ⟨hc'.kind.trans hc.kind.symm, hc'.length.trans hc.length.symm, ?_, fun i hi hl => ?_⟩
  · obtain ⟨t, e, ht⟩ := hc.approx
    obtain ⟨t', e', ht'⟩ := hc'.approx
    simp only [bandA_congr L _ _ hag] at ht'
    rw [e, e', alongAxes_eq (matApprox_perm hpa hg.nodup hg.lt ht) ht']
  · rw [hc.length] at hl
    obtain ⟨e, e1, he⟩ := hc.detail (L - i) (by omega)
    obtain ⟨e', e1', he'⟩ := hc'.detail (L - i) (by omega)
    rw [show L - (L - i) = i by omega] at e1 e1'
    obtain ⟨kv, kv', rfl, rfl, q1, q2⟩ := isDict_relabel (as := as) (as' := as') he he' fun k hkk k' hkk' hz t t' ht ht' => by
      simp only [fun X => bandD_congr (L - i) _ X (bandOfKey k') fun t ht => hag t (by omega)] at ht'
      exact alongAxes_eq ht' (matDetail_perm hpa hg.nodup hg.lt (by rw [hlen, bandOfKey_length, hkl k hkk])
        (by rw [← hpa.length_eq, hlen, bandOfKey_length, hkl k' hkk']) (zip_perm_band hz) ht)
    exact ⟨kv, kv', e1, e1', q1, q2⟩

/-! ### Synthesis of images -/

theorem synthesisN_swap [CommSemiring R] (f₀ f₁ : List R) {c c' : List Bool → List Nat → R}
    (h : ∀ p q i j, c [p, q] [i, j] = c' [q, p] [j, i]) (K K' : Nat) (u v : ℤ) :
    synthesisN f₀ f₁ [K, K'] c [u, v] = synthesisN f₀ f₁ [K', K] c' [v, u] := by
  show synthesis f₀ f₁ K (fun k => synthesis f₀ f₁ K' (fun l => c [false, false] [k, l]) (fun l => c [false, true] [k, l]) v)
      (fun k => synthesis f₀ f₁ K' (fun l => c [true, false] [k, l]) (fun l => c [true, true] [k, l]) v) u =
    synthesis f₀ f₁ K' (fun l => synthesis f₀ f₁ K (fun k => c' [false, false] [l, k]) (fun k => c' [false, true] [l, k]) u)
      (fun l => synthesis f₀ f₁ K (fun k => c' [true, false] [l, k]) (fun k => c' [true, true] [l, k]) u) v
  simp only [h, synthesis, Finset.mul_sum, ← Finset.sum_add_distrib]
  rw [Finset.sum_comm]
  refine Finset.sum_congr rfl fun l _ => Finset.sum_congr rfl fun k _ => ?_
  ring

theorem idwtN_swap [CommSemiring R] (f₀ f₁ : List R) (F : Nat) :
    ∀ (ds ds' : List (List Nat × (List Bool → List Nat → R))) (lo lo' : List Nat → R),
      (∀ i j, lo [i, j] = lo' [j, i]) →
      List.Forall₂ (fun p p' => p.1.length = 2 ∧ p'.1 = p.1.reverse ∧
        ∀ b c i j, true ∈ [b, c] → p.2 [b, c] [i, j] = p'.2 [c, b] [j, i]) ds ds' →
      ∀ i j, idwtN f₀ f₁ F lo ds [i, j] = idwtN f₀ f₁ F lo' ds' [j, i]
  | [], [], lo, lo', h, _, i, j => h i j
  | (Ks, hi) :: ds, (Ks', hi') :: ds', lo, lo', h, .cons ⟨h1, h2, h3⟩ ht, i, j => by
    match Ks, h1 with
    | [K, K'], _ =>
    obtain rfl : Ks' = [K', K] := h2
    refine idwtN_swap f₀ f₁ F ds ds' _ _ (fun i j => synthesisN_swap f₀ f₁ (fun p q i j => ?_) K K' _ _) ht i j
    by_cases hpq : true ∈ [p, q]
    · rw [if_pos hpq, if_pos (by simpa [or_comm] using hpq)]
      exact h3 p q i j hpq
    · rw [if_neg hpq, if_neg (by simpa [and_comm] using hpq)]
      exact h i j

theorem pair_reverse {l : List Nat} (h : l.length = 2) : ∃ p q, l = [p, q] := by
  match l, h with
  | [p, q], _ => exact ⟨p, q, rfl⟩

theorem nextFits_reverse {F : Nat} {Ks ns : List Nat} (h : NextFits F Ks ns) : NextFits F Ks.reverse ns.reverse :=
  List.forall₂_reverse_iff.mpr h

theorem consistent_reverse {F : Nat} : ∀ (Kss : List (List Nat)) (K0 : List Nat), ConsistentN F K0 Kss →
    ConsistentN F K0.reverse (Kss.map List.reverse)
  | [], _, _ => trivial
  | [d], K0, ⟨h1, h2⟩ => ⟨by rw [h1], fun K hK => h2 K (List.mem_reverse.mp hK)⟩
  | d :: n :: rest, K0, ⟨h1, h2, h3, h4⟩ =>
    ⟨by rw [h1], fun K hK => h2 K (List.mem_reverse.mp hK), nextFits_reverse h3, consistent_reverse (n :: rest) n h4⟩

theorem idwtLen_reverse {F : Nat} : ∀ (Kss : List (List Nat)) (K0 : List Nat),
    idwtLenN F K0.reverse (Kss.map List.reverse) = (idwtLenN F K0 Kss).reverse
  | [], _ => rfl
  | [d], _ => List.map_reverse
  | _ :: n :: rest, _ => idwtLen_reverse (n :: rest) n

theorem setMany_pair {S : List Nat} {a b : Nat} (hab : a ≠ b) {Ks : List Nat} (h : Ks.length = 2) :
    setMany S [b, a] Ks.reverse = setMany S [a, b] Ks := by
  obtain ⟨p, q, rfl⟩ := pair_reverse h
  show (S.set b q).set a p = (S.set a p).set b q
  rw [List.set_comm _ _ hab]

theorem bandPlane_swap [Zero R] {P : List Bool → Tensor R → Prop} {e : Entry R} (he : IsTuple P e) {a b : Nat} (hab : a ≠ b)
    (idx : List Nat) (p q : Bool) (i j : Nat) :
    bandPlane e [a, b] idx [p, q] [i, j] = bandPlane (exchange e) [b, a] idx [q, p] [j, i] := by
  obtain ⟨h, v, d, rfl, -⟩ := he
  have hs : (idx.set a i).set b j = (idx.set b j).set a i := List.set_comm _ _ hab
  cases p <;> cases q <;> simp [bandPlane, bandGet, exchange, plane, setMany, hs]

/-- **C66.** `waverec2` likewise, on arbitrary coefficients whose sizes fit together: exchanging the two axes and the
horizontal and vertical details of every level gives the same image. -/
theorem c66_waverec2 [CommSemiring R] (w : Wavelet R) (F : Nat) (a b : Int) (md : Meta) (S : List Nat)
    (t0 : Tensor R) (es : List (Entry R)) (K0 : List Nat) (Kss : List (List Nat)) (hF : 2 ≤ F)
    (h0 : w.recLo.length = F) (h1 : w.recHi.length = F)
    (hg : GoodAxes (.seq [a, b]) S.length 2) (hdt : md.dtype = .float32 ∨ md.dtype = .float64)
    (hK : ∀ Ks ∈ K0 :: Kss, Ks.length = 2)
    (ht : Uniform md (setMany S (axesOf (.seq [a, b]) S.length 2) K0) t0)
    (hes : List.Forall₂ (fun e Ks => IsTuple (fun _ t => Uniform md (setMany S (axesOf (.seq [a, b]) S.length 2) Ks) t) e) es Kss)
    (hc : ConsistentN F K0 Kss) :
    ∃ z, waverec2 (container t0 es) w (.seq [a, b]) = .ok z ∧
      waverec2 (container t0 (es.map exchange)) w (.seq [b, a]) = .ok z := by
  have hp : [a, b].Perm [b, a] := List.Perm.swap _ _ _
  obtain ⟨hab, -, -⟩ := axes_pair hg
  set a' := axisOf S.length a with ha'
  set b' := axisOf S.length b with hb'
  have e1 : axesOf (.seq [a, b]) S.length 2 = [a', b'] := rfl
  have e2 : axesOf (.seq [b, a]) S.length 2 = [b', a'] := rfl
  obtain ⟨z, z1, z2, z3, z4⟩ := c59_waverec2_textbook w F (.seq [a, b]) md S t0 es K0 Kss hF h0 h1 hg hdt hK ht hes hc
  have hes' : List.Forall₂ (fun e Ks => IsTuple (fun _ t => Uniform md (setMany S (axesOf (.seq [b, a]) S.length 2) Ks) t) e)
      (es.map exchange) (Kss.map List.reverse) := by
    rw [List.forall₂_map_left_iff, List.forall₂_map_right_iff]
    have hK' : ∀ Ks ∈ Kss, Ks.length = 2 := fun Ks h => hK Ks (by simp [h])
    clear hc hK z1 z3 z4
    induction hes with
    | nil => exact .nil
    | @cons e Ks es Kss he _ ih =>
      refine .cons ?_ (ih fun Ks h => hK' Ks (by simp [h]))
      obtain ⟨h, v, d, rfl, u1, u2, u3⟩ := he
      rw [e2, setMany_pair hab (hK' Ks (by simp))]
      exact ⟨v, h, d, rfl, u2, u1, u3⟩
  obtain ⟨y, y1, y2, y3, y4⟩ := c59_waverec2_textbook w F (.seq [b, a]) md S t0 (es.map exchange) K0.reverse
    (Kss.map List.reverse) hF h0 h1 (goodAxes_perm hp hg) hdt
    (by
      intro Ks hKs
      rw [← List.map_cons (f := List.reverse), List.mem_map] at hKs
      obtain ⟨Ks', h, rfl⟩ := hKs
      rw [List.length_reverse]; exact hK Ks' h)
    (by rw [e2, setMany_pair hab (hK K0 (by simp))]; exact ht) hes' (consistent_reverse _ _ hc)
  refine ⟨z, z1, ?_⟩
  rw [y1]
  have hl : (idwtLenN F K0 Kss).length = 2 := idwtLenN_length (hK K0 (by simp)) fun Ks h => hK Ks (by simp [h])
  have hs : y.shape = z.shape := by rw [y3, z3, idwtLen_reverse, e1, e2, setMany_pair hab hl]
  refine congrArg Except.ok (Tensor.ext' (y2.trans z2.symm) hs fun idx hidx => ?_)
  rw [y4 idx hidx, z4 idx (by rw [← hs]; exact hidx), e1, e2]
  refine (idwtN_swap _ _ _ _ _ _ _ (fun i j => ?_) ?_ _ _).symm
  · have : (idx.set a' i).set b' j = (idx.set b' j).set a' i := List.set_comm _ _ hab
    simp [plane, setMany, this]
  · have hK' : ∀ Ks ∈ Kss, Ks.length = 2 := fun Ks h => hK Ks (by simp [h])
    clear hc hK z1 z3 z4 hes' y1 y3 y4 hl
    induction hes with
    | nil => exact .nil
    | @cons e Ks es Kss he _ ih =>
      refine .cons ⟨hK' Ks (by simp), rfl, fun p q i j _ => bandPlane_swap he hab idx p q i j⟩
        (ih fun Ks h => hK' Ks (by simp [h]))

/-! ### Non-vacuity -/

/-- An image with odd sizes inside of a batch, two levels. -/
example : ∃ c, wavedec2 exI haar (some "symmetric") (some 2) (.seq [2, -3]) = .ok c ∧
    wavedec2 exI haar (some "symmetric") (some 2) (.seq [-3, 2]) = .ok (exchangeAll c) := by
  obtain ⟨c, hc⟩ := ex_wavedec2
  exact ⟨c, hc, c66_wavedec2 exI haar _ _ 2 (-3) (by decide) rfl c hc⟩

/-- A batch of images with different sizes along the axes, two levels. -/
example : ∃ la, ExactLinAlg la ∧ ∃ dcfg dst dcfg' dst' c,
    decInitN 2 bank4 (some 2) (.seq [2, -3]) "qr" true (some "zero") = .ok (dcfg, dst) ∧
    decInitN 2 bank4 (some 2) (.seq [-3, 2]) "qr" true (some "zero") = .ok (dcfg', dst') ∧
    (decCallN 2 la dcfg dst (Tensor.ofFn ⟨.float64, 0⟩ [7, 2, 9] fun i => (i.getD 0 0 : ℝ))).1 = .ok c ∧
    (decCallN 2 la dcfg' dst' (Tensor.ofFn ⟨.float64, 0⟩ [7, 2, 9] fun i => (i.getD 0 0 : ℝ))).1 = .ok (exchangeAll c) := by
  obtain ⟨la, hla⟩ := exists_exactLinAlg
  obtain ⟨d1, d2, d3, d4, c, h⟩ := c66_matrix2 hla bank4_orth
    (x := Tensor.ofFn ⟨.float64, 0⟩ [7, 2, 9] fun i => (i.getD 0 0 : ℝ)) (a := 2) (b := -3) (m := .zero)
    (mode := some "zero") (orth := "qr") (level := some 2) exN_axes2 (Or.inr rfl)
    (by intro k hk; have : k = 7 ∨ k = 2 ∨ k = 9 := by simpa using hk
        omega) (Or.inl rfl) (Or.inl rfl)
    (by rintro _ ⟨⟩; norm_num) (fun k a b _ => bank4_indep a b)
  exact ⟨la, hla, d1, d2, d3, d4, c, h⟩

/-- A volume whose three axes are listed in two different orders, two levels, by both transforms. -/
example : ∃ c c', wavedec3 exV haar (some "constant") (some 2) (.seq [1, -1, 0]) = .ok c ∧
    wavedec3 exV haar (some "constant") (some 2) (.seq [0, 1, -1]) = .ok c' ∧ Relabelled [1, -1, 0] [0, 1, -1] c c' := by
  obtain ⟨c, hc⟩ := ex_wavedec3
  obtain ⟨c', h⟩ := c66_wavedec3 exV haar _ _ [1, -1, 0] [0, 1, -1] (by decide) (by decide) rfl c (by decide) hc
  exact ⟨c, c', hc, h⟩

example : ∃ c c', fswavedec3 exV haar (some "constant") (some 2) (.seq [1, -1, 0]) = .ok c ∧
    fswavedec3 exV haar (some "constant") (some 2) (.seq [0, 1, -1]) = .ok c' ∧ Relabelled [1, -1, 0] [0, 1, -1] c c' := by
  obtain ⟨c, hc⟩ := ex_fswavedec3
  obtain ⟨c', h⟩ := c66_fswavedecn 3 (by omega) exV haar _ _ [1, -1, 0] [0, 1, -1] (by decide) (by decide) rfl c hc
  exact ⟨c, c', hc, h⟩

/-- Arbitrary coefficients of an image. -/
example : ∃ z, waverec2 (container (cst [2, 5, 3] 1) [.tuple (cst [2, 5, 3] 2) (cst [2, 5, 3] 3) (cst [2, 5, 3] 4),
      .tuple (cst [3, 5, 6] 5) (cst [3, 5, 6] 6) (cst [3, 5, 6] 7)]) haar (.seq [0, 2]) = .ok z ∧
    waverec2 (container (cst [2, 5, 3] 1) [.tuple (cst [2, 5, 3] 3) (cst [2, 5, 3] 2) (cst [2, 5, 3] 4),
      .tuple (cst [3, 5, 6] 6) (cst [3, 5, 6] 5) (cst [3, 5, 6] 7)]) haar (.seq [2, 0]) = .ok z :=
  c66_waverec2 haar 2 0 2 ⟨.float64, 0⟩ [1, 5, 1] (cst [2, 5, 3] 1)
    [.tuple (cst [2, 5, 3] 2) (cst [2, 5, 3] 3) (cst [2, 5, 3] 4),
      .tuple (cst [3, 5, 6] 5) (cst [3, 5, 6] 6) (cst [3, 5, 6] 7)] [2, 3] [[2, 3], [3, 6]] le_rfl rfl rfl
    ⟨by decide, rfl, by simp [ValidAxis, resolve], by decide⟩ (Or.inr rfl) (by decide) (cst_uniform _ _)
    (.cons ⟨_, _, _, rfl, cst_uniform _ _, cst_uniform _ _, cst_uniform _ _⟩
      (.cons ⟨_, _, _, rfl, cst_uniform _ _, cst_uniform _ _, cst_uniform _ _⟩ .nil))
    ⟨rfl, by decide, by simp [NextFits], rfl, by decide⟩

/-- Keys which give every axis the same letter. -/
example : ([2, 0, 1].zip "dad".toList).Perm ([0, 1, 2].zip "add".toList) := by decide

end Verif.Props
