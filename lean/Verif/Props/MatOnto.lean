/-
C63: the boundary-matrix transforms are bijections.  Coefficients of dyadic sizes, with arbitrary values, are
reconstructed to a tensor whose decomposition gives back exactly these coefficients.
-/
import Verif.Lemmas.MatOnto
import Verif.Props.SliceMat
import Verif.Props.Cascade

namespace Verif.Props
open Tensor Spec

section
variable {R : Type} [NonUnitalNonAssocSemiring R]

theorem isMatDwt_unique {m : Mode} {A : Nat → Nat → Nat → R} {a L : Nat} {x : Tensor R} {cs cs' : List (Tensor R)}
    (h : IsMatDwt m A a L x cs) (h' : IsMatDwt m A a L x cs') : cs = cs' := by
  have huni : ∀ {K : Nat} {f : (Nat → R) → Nat → R} {z z' : Tensor R}, AlongAxis a K f x z → AlongAxis a K f x z' → z = z' := by
    intro K f t t' h h'
    have hs : t.shape = t'.shape := h.shape.trans h'.shape.symm
    exact Tensor.ext' (h.md.trans h'.md.symm) hs fun idx hidx => by
      rw [h.get idx hidx, h'.get idx (by rw [← hs]; exact hidx)]
  refine List.ext_getElem (h.length.trans h'.length.symm) fun i h1 h2 => ?_
  have hi : i < L + 1 := by rw [← h.length]; exact h1
  rcases Nat.eq_zero_or_pos i with rfl | h0
  · exact huni (h.approx _ (List.getElem?_eq_getElem h1)) (h'.approx _ (List.getElem?_eq_getElem h2))
  · refine huni (h.detail (L - i) _ (by omega) ?_) (h'.detail (L - i) _ (by omega) ?_)
    · rw [show L - (L - i) = i by omega]; exact List.getElem?_eq_getElem h1
    · rw [show L - (L - i) = i by omega]; exact List.getElem?_eq_getElem h2

theorem isBandDwtN_unique {D : (List Bool → Tensor R → Prop) → Entry R → Prop} (hD : SliceKind D) {band band' : BandStep R}
    {ax : List Nat} {L : Nat} {x : Tensor R} {c c' : Coeffs R}
    (hb : ∀ t, t < L → ∀ bs X, band bs (mLens (sizes ax x.shape) t) X = band' bs (mLens (sizes ax x.shape) t) X)
    (h : IsBandDwtN D band ax L x c) (h' : IsBandDwtN D band' ax L x c') : c = c' := by
  have huni : ∀ {Ks : List Nat} {f f' : (List Nat → R) → List Nat → R} {z z' : Tensor R}, f = f' →
      AlongAxes ax Ks f x z → AlongAxes ax Ks f' x z' → z = z' := by
    rintro K f _ t t' rfl h h'
    have hs : t.shape = t'.shape := h.shape.trans h'.shape.symm
    exact Tensor.ext' (h.md.trans h'.md.symm) hs fun idx hidx => by
      rw [h.get idx hidx, h'.get idx (by rw [← hs]; exact hidx)]
  have hitems : c.items = c'.items := by
    refine List.ext_getElem (h.length.trans h'.length.symm) fun i h1 h2 => ?_
    have hi : i < L + 1 := by rw [← h.length]; exact h1
    rcases Nat.eq_zero_or_pos i with rfl | h0
    · obtain ⟨t, e1, e2⟩ := h.approx
      obtain ⟨t', e1', e2'⟩ := h'.approx
      rw [List.getElem?_eq_getElem h1] at e1
      rw [List.getElem?_eq_getElem h2] at e1'
      rw [Option.some.inj e1, Option.some.inj e1', huni (funext fun X => bandA_congr L _ X hb) e2 e2']
    · obtain ⟨d, e1, e2⟩ := h.detail (L - i) (by omega)
      obtain ⟨d', e1', e2'⟩ := h'.detail (L - i) (by omega)
      rw [show L - (L - i) = i by omega] at e1 e1'
      rw [List.getElem?_eq_getElem h1] at e1
      rw [List.getElem?_eq_getElem h2] at e1'
      rw [Option.some.inj e1, Option.some.inj e1']
      refine sameEntries_eq (hD _ _ _ (fun bs t t' p p' => ?_) _ _ e2 e2')
      exact huni (funext fun X => bandD_congr (L - i) _ X bs fun t ht => hb t (by omega)) p p'
  cases c; cases c'
  simp only [Coeffs.mk.injEq]
  exact ⟨h.kind.trans h'.kind.symm, hitems⟩

end

/-- **C63.** `MatrixWavedec` is onto and `MatrixWaverec` is its inverse: take any list of coefficients
`[cA_L, cD_L, …, cD_1]` with `K, K, 2K, 4K, …` samples along the axis (and arbitrary values).  A new synthesis object
accepts it, the result `x` has `2^L K` samples, and a new analysis object with `level=L` applied to `x` returns exactly
the given list. -/
theorem c63_matrix {la : LinAlg ℝ} (hla : ExactLinAlg la) {w : Wavelet ℝ} {F : Nat} (hw : OrthBank w F)
    {axis : AxisHint} {m : Mode} {mode : Option String} {orth : String} {md : Meta} {S : List Nat} {K L : Nat}
    {cs : List (Tensor ℝ)} (hg : GoodAxes axis S.length 1) (hdt : md.dtype = .float32 ∨ md.dtype = .float64)
    (hm : Selects mode m) (ho : orth = "qr" ∨ orth = "gramschmidt") (hL : 1 ≤ L) (hK : F ≤ 2 * K)
    (hind : ∀ k, k % 2 = 0 → F ≤ k → k ≤ 2 ^ L * K → BoundaryIndep w F k)
    (hlen : cs.length = L + 1)
    (h0 : ∀ t, cs[0]? = some t → Uniform md (S.set (axis1 axis S.length) K) t)
    (hd : ∀ s t, s < L → cs[L - s]? = some t → Uniform md (S.set (axis1 axis S.length) (2 ^ (L - (s + 1)) * K)) t) :
    ∃ dcfg dst rcfg rst x, decInit w (some (L : Int)) axis orth mode = .ok (dcfg, dst) ∧
      recInit w axis orth = .ok (rcfg, rst) ∧ x.md = md ∧ x.shape = S.set (axis1 axis S.length) (2 ^ L * K) ∧
      (recCall la rcfg rst cs).1 = .ok x ∧ (decCall la dcfg dst x).1 = .ok cs := by
  have ha : axis1 axis S.length < S.length := axis1_lt hg
  set a := axis1 axis S.length with hadef
  have hev : 2 ^ L * K % 2 = 0 := by
    obtain ⟨l, rfl⟩ := Nat.exists_eq_add_of_le hL
    rw [show 2 ^ (1 + l) * K = 2 * (2 ^ l * K) by ring]; omega
  have hge : ∀ s, s < L → F ≤ mLen (2 ^ L * K) s := fun s hs => by
    have := (dyadic_level (F := F) (Ks := [K]) (by simpa using hK) hs (mLen (2 ^ L * K) s) (by simp [mLens])).2.1
    exact this
  obtain ⟨C, hC, hF, hO⟩ := boundary_family hla md hw ho (N := 2 ^ L * K) hind
  have hR : ∀ k, k % 2 = 0 → F ≤ k → k ≤ 2 ^ L * K → OrthonormalRows k (C k).den := fun k a b c =>
    orthonormal_cols (B := fun i j => (C k).den j i) (hO k a b c)
  -- the tensor
  have hlev : ∀ s, s < L → ∀ n ∈ mLens [2 ^ L * K] s, n % 2 = 0 ∧ F ≤ n ∧ n ≤ 2 ^ L * K := by
    intro s hs n hn
    have := dyadic_level (F := F) (Ks := [K]) (by simpa using hK) hs n (by simpa using hn)
    simpa using this
  have h2 := hw.two_le
  obtain ⟨x, x1, x2, x3⟩ := coeffs_onto (n := 1) ontoKind_plain (band := matBand m fun k => (C k).den) (md := md) (S := S)
    (ax := [a]) (L := L) (c := ⟨false, cs.map .tensor⟩) (by simp) (by simpa using ha) rfl (ns := [2 ^ L * K]) rfl
    (fun s hs => matBand_local fun n hn => by have := (hlev s hs n hn).2.1; omega)
    (fun s hs => matBand_onto (fun n hn => (hlev s hs n hn).1)
      fun n hn => hR n (hlev s hs n hn).1 (hlev s hs n hn).2.1 (hlev s hs n hn).2.2)
    (by
      refine ⟨rfl, by simpa using hlen, ?_, fun s hs => ?_⟩
      · have h1 : 0 < cs.length := by omega
        refine ⟨cs[0], by simp [List.getElem?_eq_getElem h1], ?_⟩
        have := h0 _ (List.getElem?_eq_getElem h1)
        have e := mLen_dyadic K L L le_rfl
        rw [Nat.sub_self, pow_zero, one_mul] at e
        show Uniform md (setMany S [a] [mLen (2 ^ L * K) L]) _
        rw [e]
        exact this
      · have h1 : L - s < cs.length := by omega
        refine ⟨.tensor cs[L - s], by simp [List.getElem?_eq_getElem h1], _, rfl, ?_⟩
        have := hd s _ hs (List.getElem?_eq_getElem h1)
        show Uniform md (setMany S [a] [mLen (2 ^ L * K) (s + 1)]) _
        rw [mLen_dyadic K (s + 1) L (by omega)]
        exact this)
  change x.shape = S.set a (2 ^ L * K) at x2
  have hr : x.rank = S.length := by rw [Tensor.rank, x2, List.length_set]
  have hx := isMatDwt_of_band (by rw [hr]; exact ha) x3
  have hn : x.shape.getD a 0 = 2 ^ L * K := by rw [x2]; exact getD_set_self ha
  subst x1
  have hml : mLevels F L (2 ^ L * K) = L := mLevels_full _ _ hge
  obtain ⟨dcfg, dst, C', x', cs', lv, d1, -, d3, -, -, d6, -, -, -, d10, d11⟩ := dec_run hla hw (x := x) (axis := axis)
    (m := m) (mode := mode) (orth := orth) (level := some (L : Int)) (by rw [hr]; exact hg) hdt hm ho
    (fun l h => by cases h; omega) (fun h => by cases h)
    (fun h => by rw [hr, ← hadef, hn] at h; omega)
    (fun k k1 k2 k3 => by rw [hr, ← hadef, hn, evenLen_of_even hev] at k3; exact hind k k1 k2 k3)
  rw [hr, ← hadef, hn, evenLen_of_even hev] at d3 d10 d11
  rw [hr, ← hadef] at d6
  obtain rfl : x' = x := by
    rcases d6 with h | h
    · exact h.2
    · rw [hn] at h; omega
  rw [show levels (some (L : Int)) F (2 ^ L * K) = L by simp [levels], hml] at d11
  have hcs : cs = cs' := by
    refine isMatDwt_unique (isMatDwt_congrA (A' := fun k => (C' k).den) (fun t ht => ?_) hx) d11
    rw [hn]
    have q := hlev t ht (mLen (2 ^ L * K) t) (by simp [mLens])
    rw [evenLen_of_even q.1]
    have e1 := hC _ q.1 q.2.1 q.2.2
    have e2 := d3 _ q.1 q.2.1 q.2.2
    rw [e1] at e2
    show (C _).den = (C' _).den
    rw [Except.ok.inj e2]
  subst hcs
  obtain ⟨rcfg, rst, r1, r2, -⟩ := rec_run (la := la) hw (x := x') (axis := axis) (m := m) (orth := orth) (L := L) (C := C)
    (cs := cs) (by rw [hr]; exact hg) hdt ho (by rw [hr, ← hadef, hn]; exact hev)
    (by rw [hr, ← hadef, hn]; exact hC) (by rw [hr, ← hadef, hn]; exact hF) (by rw [hr, ← hadef, hn]; exact hO)
    (by rw [hr, ← hadef, hn, hml]; exact hx)
  exact ⟨dcfg, dst, rcfg, rst, x', d1, r1, rfl, x2, r2, by rw [d10]⟩

/-- The sizes of the reconstructed tensor. -/
theorem setMany_pos {S ax Ks : List Nat} (hn : ax.Nodup) (hlt : ∀ a ∈ ax, a < S.length) (hK : Ks.length = ax.length)
    {Ms : List Nat} (hM : Ms.length = ax.length) (hpos : ∀ k ∈ setMany S ax Ks, 0 < k) (hMp : ∀ k ∈ Ms, 0 < k) :
    ∀ k ∈ setMany S ax Ms, 0 < k := by
  intro k hk
  obtain ⟨d, hd, rfl⟩ := List.getElem_of_mem hk
  rw [← List.getD_eq_getElem _ 0]
  by_cases hda : d ∈ ax
  · obtain ⟨i, hi, rfl⟩ := List.getElem_of_mem hda
    have hs : sizes ax (setMany S ax Ms) = Ms := sizes_setMany hn hlt hM
    have : (setMany S ax Ms).getD ax[i] 0 = Ms[i]'(by omega) := by
      have := congrArg (fun l : List Nat => l[i]?) hs
      simp only [sizes, List.getElem?_map, List.getElem?_eq_getElem hi, List.getElem?_eq_getElem (show i < Ms.length by omega),
        Option.map_some, Option.some.injEq] at this
      exact this
    rw [this]
    exact hMp _ (List.getElem_mem _)
  · rw [setMany_getD_not_mem _ _ _ hda]
    have hd' : d < (setMany S ax Ks).length := by rw [setMany_length] at hd ⊢; exact hd
    have := hpos _ (List.getElem_mem hd')
    rw [← List.getD_eq_getElem _ 0, setMany_getD_not_mem _ _ _ hda] at this
    exact this

/-- What the three theorems below have in common: the tensor which the coefficients come from. -/
theorem onto_tensor {n : Nat} {D : (List Bool → Tensor ℝ → Prop) → Entry ℝ → Prop} (hD : OntoKind n D) {band : BandStep ℝ}
    {axes : AxisHint} {md : Meta} {S Ks : List Nat} {F L : Nat} {c : Coeffs ℝ} (hg : GoodAxes axes S.length n) (hF : 2 ≤ F)
    (hL : 1 ≤ L) (hKl : Ks.length = n) (hK : ∀ K ∈ Ks, F ≤ 2 * K)
    (hloc : ∀ ns : List Nat, ns.length = n → (∀ k ∈ ns, 0 < k) → BandLocal band ns)
    (hon : ∀ ns : List Nat, ns.length = n → (∀ k ∈ ns, k % 2 = 0 ∧ F ≤ k ∧ ∃ K ∈ Ks, k ≤ 2 ^ L * K) → BandOnto band ns)
    (hc : CoeffSizes D md (fun s => setMany S (axesOf axes S.length n) (Ks.map (2 ^ (L - s) * ·))) L c) :
    ∃ x, x.md = md ∧ x.shape = setMany S (axesOf axes S.length n) (Ks.map (2 ^ L * ·)) ∧ x.rank = S.length ∧
      sizes (axesOf axes S.length n) x.shape = Ks.map (2 ^ L * ·) ∧
      (∀ k ∈ Ks.map (2 ^ L * ·), k % 2 = 0) ∧
      mLevelsN F L (Ks.map (2 ^ L * ·)) = L ∧ IsBandDwtN D band (axesOf axes S.length n) L x c := by
  have hlen : (axesOf axes S.length n).length = n := by simp [axesOf, hg.len]
  have hlev := fun s hs => dyadic_level (F := F) hK (s := s) (L := L) hs
  have hml : ∀ s, (mLens (Ks.map (2 ^ L * ·)) s).length = n := fun s => by rw [mLens_length, List.length_map]; exact hKl
  obtain ⟨x, x1, x2, x3⟩ := coeffs_onto (n := n) hD (band := band) (md := md) (S := S) (ax := axesOf axes S.length n) (L := L)
    (c := c) hg.nodup hg.lt hlen (ns := Ks.map (2 ^ L * ·)) (by simpa using hKl)
    (fun s hs => hloc _ (hml s) fun k hk => by have := (hlev s hs k hk).2.1; omega)
    (fun s hs => hon _ (hml s) (hlev s hs))
    (by
      refine ⟨hc.kind, hc.length, ?_, fun s hs => ?_⟩
      · obtain ⟨t, e, h⟩ := hc.approx
        refine ⟨t, e, ?_⟩
        rw [mLens_dyadic Ks le_rfl]
        exact h
      · obtain ⟨e, h1, h2⟩ := hc.detail s hs
        refine ⟨e, h1, ?_⟩
        rw [mLens_dyadic Ks (show s + 1 ≤ L by omega)]
        exact h2)
  refine ⟨x, x1, x2, by rw [Tensor.rank, x2, setMany_length], ?_, ?_, ?_, x3⟩
  · rw [x2]
    exact sizes_setMany hg.nodup hg.lt (by rw [hlen, List.length_map]; exact hKl)
  · intro k hk
    exact (hlev 0 (by omega) k (by rw [mLens_zero]; exact hk)).1
  · exact mLevelsN_full _ _ fun s hs k hk => (hlev s hs k hk).2.1

/-- **C63**, images (`separable=True`): any container of coefficients in which the bands of level `s` have the sizes
`2^(L-s) · Ks`, with arbitrary values, is reconstructed to an image whose decomposition is this container. -/
theorem c63_matrix2 {la : LinAlg ℝ} (hla : ExactLinAlg la) {w : Wavelet ℝ} {F : Nat} (hw : OrthBank w F)
    {axes : AxisHint} {m : Mode} {mode : Option String} {orth : String} {md : Meta} {S Ks : List Nat} {L : Nat}
    {c : Coeffs ℝ} (hg : GoodAxes axes S.length 2) (hdt : md.dtype = .float32 ∨ md.dtype = .float64)
    (hm : Selects mode m) (ho : orth = "qr" ∨ orth = "gramschmidt") (hL : 1 ≤ L) (hKl : Ks.length = 2)
    (hK : ∀ K ∈ Ks, F ≤ 2 * K) (hpos : ∀ k ∈ setMany S (axesOf axes S.length 2) Ks, 0 < k)
    (hind : ∀ k, k % 2 = 0 → F ≤ k → (∃ K ∈ Ks, k ≤ 2 ^ L * K) → BoundaryIndep w F k)
    (hc : CoeffSizes IsTupleSwapped md (fun s => setMany S (axesOf axes S.length 2) (Ks.map (2 ^ (L - s) * ·))) L c) :
    ∃ dcfg dst rcfg rst x, decInitN 2 w (some (L : Int)) axes orth true mode = .ok (dcfg, dst) ∧
      recInitN 2 w axes orth true = .ok (rcfg, rst) ∧ x.md = md ∧
      x.shape = setMany S (axesOf axes S.length 2) (Ks.map (2 ^ L * ·)) ∧
      (recCallN 2 la rcfg rst c).1 = .ok x ∧ (decCallN 2 la dcfg dst x).1 = .ok c := by
  have h2 := hw.two_le
  have hlen : (axesOf axes S.length 2).length = 2 := by simp [axesOf, hg.len]
  obtain ⟨C, hC, hF, hO⟩ := boundary_family hla md hw ho (N := sizeBound (Ks.map (2 ^ L * ·)))
    (fun k a b c => hind k a b (by
      obtain ⟨n, hn, hk⟩ := exists_of_le_sizeBound _ k (by omega) c
      obtain ⟨K, hK', rfl⟩ := List.mem_map.mp hn
      refine ⟨K, hK', ?_⟩
      have e : 2 ^ L * K % 2 = 0 := by
        obtain ⟨l, rfl⟩ := Nat.exists_eq_add_of_le hL
        rw [show 2 ^ (1 + l) * K = 2 * (2 ^ l * K) by ring]; omega
      rwa [evenLen_of_even e] at hk))
  have hbound : ∀ k, (∃ K ∈ Ks, k ≤ 2 ^ L * K) → k ≤ sizeBound (Ks.map (2 ^ L * ·)) := by
    rintro k ⟨K, hK', hk⟩
    exact le_trans hk (le_trans (le_evenLen _) (le_sizeBound _ _ (List.mem_map_of_mem hK')))
  obtain ⟨x, x1, x2, x3, x4, x5, x6, x7⟩ := onto_tensor ontoKind_swapped (band := matBand m fun k => (C k).den)
    (F := F) (axes := axes) (md := md) (S := S) (Ks := Ks) (L := L) (c := c) hg h2 hL hKl hK
    (fun ns hl hp => matBand_local hp)
    (fun ns hl hp => matBand_onto (fun k hk => (hp k hk).1) fun k hk => orthonormal_cols (B := fun i j => (C k).den j i)
      (hO k (hp k hk).1 (hp k hk).2.1 (hbound k (hp k hk).2.2))) hc
  have hev : ∀ k ∈ Ks.map (2 ^ L * ·), evenLen k = k := fun k hk => evenLen_of_even (x5 k hk)
  subst x1
  obtain ⟨dcfg, dst, rcfg, rst, C', c', z, d1, d2, d3, d4, d5, d6, d7, -⟩ := c43_roundtrip2 hla hw (x := x) (axes := axes) (m := m)
    (mode := mode) (orth := orth) (level := some (L : Int)) (by rw [x3]; exact hg) hdt
    (by
      rw [x2]
      refine setMany_pos hg.nodup hg.lt (by omega) (by rw [List.length_map]; omega) hpos fun k hk => ?_
      obtain ⟨K, hK', rfl⟩ := List.mem_map.mp hk
      have := hK K hK'
      exact Nat.mul_pos (by positivity) (by omega)) hm ho
    (fun l h => by cases h; omega)
    (fun k k1 k2 k3 => by
      rw [x3, x4] at k3
      obtain ⟨n, hn, hk⟩ := k3
      rw [hev n hn] at hk
      obtain ⟨K, hK', rfl⟩ := List.mem_map.mp hn
      exact hind k k1 k2 ⟨K, hK', hk⟩)
    (L := L) (by rw [x3, x4, show levelsN (some (L : Int)) F (Ks.map (2 ^ L * ·)) = L by simp [levelsN], x6])
  rw [x3] at d3 d5 d7
  obtain rfl : z = x := d7.even fun a ha => x5 _ (by rw [← x4]; exact List.mem_map.mpr ⟨a, ha, rfl⟩)
  have hcc : c = c' := by
    refine isBandDwtN_unique sliceKind_swapped (band := matBand m fun k => (C k).den) (band' := matBand m fun k => (C' k).den)
      (fun t ht bs X => funext fun ks => matBand_congrA' _ _ _ _ fun k hk => ?_) x7 d5
    rw [x4] at hk
    obtain ⟨q1, q2, q3⟩ := dyadic_level (F := F) hK ht k hk
    rw [evenLen_of_even q1]
    have e1 := hC k q1 q2 (hbound k q3)
    have e2 := (d3 k q1 q2 (by
      rw [x4]
      obtain ⟨K, hK', hk'⟩ := q3
      exact ⟨_, List.mem_map_of_mem hK', le_trans hk' (le_evenLen _)⟩)).1
    rw [e1] at e2
    show (C _).den = (C' _).den
    rw [Except.ok.inj e2]
  subst hcc
  exact ⟨dcfg, dst, rcfg, rst, z, d1, d2, rfl, x2, d6, d4⟩

/-- **C63**, volumes: any container of coefficients in which the bands of level `s` have the sizes
`2^(L-s) · Ks`, with arbitrary values, is reconstructed to a volume whose decomposition is this container. -/
theorem c63_matrix3 {la : LinAlg ℝ} (hla : ExactLinAlg la) {w : Wavelet ℝ} {F : Nat} (hw : OrthBank w F)
    {axes : AxisHint} {m : Mode} {mode : Option String} {orth : String} {md : Meta} {S Ks : List Nat} {L : Nat}
    {c : Coeffs ℝ} (hg : GoodAxes axes S.length 3) (hdt : md.dtype = .float32 ∨ md.dtype = .float64)
    (hm : Selects mode m) (ho : orth = "qr" ∨ orth = "gramschmidt") (hL : 1 ≤ L) (hKl : Ks.length = 3)
    (hK : ∀ K ∈ Ks, F ≤ 2 * K)
    (hind : ∀ k, k % 2 = 0 → F ≤ k → (∃ K ∈ Ks, k ≤ 2 ^ L * K) → BoundaryIndep w F k)
    (hc : CoeffSizes (IsDict keysM3) md (fun s => setMany S (axesOf axes S.length 3) (Ks.map (2 ^ (L - s) * ·))) L c) :
    ∃ dcfg dst rcfg rst x, decInitN 3 w (some (L : Int)) axes orth true mode = .ok (dcfg, dst) ∧
      recInitN 3 w axes orth true = .ok (rcfg, rst) ∧ x.md = md ∧
      x.shape = setMany S (axesOf axes S.length 3) (Ks.map (2 ^ L * ·)) ∧
      (recCallN 3 la rcfg rst c).1 = .ok x ∧ (decCallN 3 la dcfg dst x).1 = .ok c := by
  have h2 := hw.two_le
  have hlen : (axesOf axes S.length 3).length = 3 := by simp [axesOf, hg.len]
  obtain ⟨C, hC, hF, hO⟩ := boundary_family hla md hw ho (N := sizeBound (Ks.map (2 ^ L * ·)))
    (fun k a b c => hind k a b (by
      obtain ⟨n, hn, hk⟩ := exists_of_le_sizeBound _ k (by omega) c
      obtain ⟨K, hK', rfl⟩ := List.mem_map.mp hn
      refine ⟨K, hK', ?_⟩
      have e : 2 ^ L * K % 2 = 0 := by
        obtain ⟨l, rfl⟩ := Nat.exists_eq_add_of_le hL
        rw [show 2 ^ (1 + l) * K = 2 * (2 ^ l * K) by ring]; omega
      rwa [evenLen_of_even e] at hk))
  have hbound : ∀ k, (∃ K ∈ Ks, k ≤ 2 ^ L * K) → k ≤ sizeBound (Ks.map (2 ^ L * ·)) := by
    rintro k ⟨K, hK', hk⟩
    exact le_trans hk (le_trans (le_evenLen _) (le_sizeBound _ _ (List.mem_map_of_mem hK')))
  obtain ⟨x, x1, x2, x3, x4, x5, x6, x7⟩ := onto_tensor (ontoKind_dict (keys := keysM3) (by decide) (by decide)) (band := matBand m fun k => (C k).den)
    (F := F) (axes := axes) (md := md) (S := S) (Ks := Ks) (L := L) (c := c) hg h2 hL hKl hK
    (fun ns hl hp => matBand_local hp)
    (fun ns hl hp => matBand_onto (fun k hk => (hp k hk).1) fun k hk => orthonormal_cols (B := fun i j => (C k).den j i)
      (hO k (hp k hk).1 (hp k hk).2.1 (hbound k (hp k hk).2.2))) hc
  have hev : ∀ k ∈ Ks.map (2 ^ L * ·), evenLen k = k := fun k hk => evenLen_of_even (x5 k hk)
  subst x1
  obtain ⟨dcfg, dst, rcfg, rst, C', c', d1, d2, d3, d4, d5, d6⟩ := c43_roundtrip3 hla hw (x := x) (axes := axes) (m := m)
    (mode := mode) (orth := orth) (level := some (L : Int)) (by rw [x3]; exact hg) hdt
    hm ho
    (fun l h => by cases h; omega) (fun h => by cases h)
    (fun k k1 k2 k3 => by
      rw [x3, x4] at k3
      obtain ⟨n, hn, hk⟩ := k3
      rw [hev n hn] at hk
      obtain ⟨K, hK', rfl⟩ := List.mem_map.mp hn
      exact hind k k1 k2 ⟨K, hK', hk⟩)
    (L := L) (by rw [x3, x4, show levelsN (some (L : Int)) F (Ks.map (2 ^ L * ·)) = L by simp [levelsN], x6])
  obtain ⟨z, d8, d7, -⟩ := d6 (by omega)
  rw [x3] at d3 d5 d7
  obtain rfl : z = x := d7.even fun a ha => x5 _ (by rw [← x4]; exact List.mem_map.mpr ⟨a, ha, rfl⟩)
  have hcc : c = c' := by
    refine isBandDwtN_unique (sliceKind_dict keysM3) (band := matBand m fun k => (C k).den) (band' := matBand m fun k => (C' k).den)
      (fun t ht bs X => funext fun ks => matBand_congrA' _ _ _ _ fun k hk => ?_) x7 d5
    rw [x4] at hk
    obtain ⟨q1, q2, q3⟩ := dyadic_level (F := F) hK ht k hk
    rw [evenLen_of_even q1]
    have e1 := hC k q1 q2 (hbound k q3)
    have e2 := (d3 k q1 q2 (by
      rw [x4]
      obtain ⟨K, hK', hk'⟩ := q3
      exact ⟨_, List.mem_map_of_mem hK', le_trans hk' (le_evenLen _)⟩)).1
    rw [e1] at e2
    show (C _).den = (C' _).den
    rw [Except.ok.inj e2]
  subst hcc
  exact ⟨dcfg, dst, rcfg, rst, z, d1, d2, rfl, x2, d8, d4⟩

/-- **C63**, images (`separable=False`): any container of coefficients in which the bands of level `s` have the sizes
`2^(L-s) · Ks`, with arbitrary values, is reconstructed to an image whose decomposition is this container. -/
theorem c63_nonseparable {la : LinAlg ℝ} (hla : ExactLinAlg la) {w : Wavelet ℝ} {F : Nat} (hw : OrthBank w F)
    {axes : AxisHint} {m : Mode} {mode : Option String} {orth : String} {md : Meta} {S Ks : List Nat} {L : Nat}
    {c : Coeffs ℝ} (hg : GoodAxes axes S.length 2) (hdt : md.dtype = .float32 ∨ md.dtype = .float64)
    (hm : Selects mode m) (ho : orth = "qr" ∨ orth = "gramschmidt") (hL : 1 ≤ L) (hKl : Ks.length = 2)
    (hK : ∀ K ∈ Ks, F ≤ 2 * K) (hpos : ∀ k ∈ setMany S (axesOf axes S.length 2) Ks, 0 < k)
    (hind : ∀ k, k % 2 = 0 → F ≤ k → (∃ K ∈ Ks, k ≤ 2 ^ L * K) → BoundaryIndep w F k)
    (hc : CoeffSizes IsTuple md (fun s => setMany S (axesOf axes S.length 2) (Ks.map (2 ^ (L - s) * ·))) L c) :
    ∃ dcfg dst rcfg rst x, decInitN 2 w (some (L : Int)) axes orth false mode = .ok (dcfg, dst) ∧
      recInitN 2 w axes orth false = .ok (rcfg, rst) ∧ x.md = md ∧
      x.shape = setMany S (axesOf axes S.length 2) (Ks.map (2 ^ L * ·)) ∧
      (recCallN 2 la rcfg rst c).1 = .ok x ∧ (decCallN 2 la dcfg dst x).1 = .ok c := by
  have h2 := hw.two_le
  have hlen : (axesOf axes S.length 2).length = 2 := by simp [axesOf, hg.len]
  obtain ⟨C, hC, hF, hO⟩ := boundary_family2 hla md hw ho (N := sizeBound (Ks.map (2 ^ L * ·)))
    (fun k a b c => hind k a b (by
      obtain ⟨n, hn, hk⟩ := exists_of_le_sizeBound _ k (by omega) c
      obtain ⟨K, hK', rfl⟩ := List.mem_map.mp hn
      refine ⟨K, hK', ?_⟩
      have e : 2 ^ L * K % 2 = 0 := by
        obtain ⟨l, rfl⟩ := Nat.exists_eq_add_of_le hL
        rw [show 2 ^ (1 + l) * K = 2 * (2 ^ l * K) by ring]; omega
      rwa [evenLen_of_even e] at hk))
  have hbound : ∀ k, (∃ K ∈ Ks, k ≤ 2 ^ L * K) → k ≤ sizeBound (Ks.map (2 ^ L * ·)) := by
    rintro k ⟨K, hK', hk⟩
    exact le_trans hk (le_trans (le_evenLen _) (le_sizeBound _ _ (List.mem_map_of_mem hK')))
  obtain ⟨x, x1, x2, x3, x4, x5, x6, x7⟩ := onto_tensor ontoKind_tuple (band := nonsepBand m fun p q => (C p q).den)
    (F := F) (axes := axes) (md := md) (S := S) (Ks := Ks) (L := L) (c := c) hg h2 hL hKl hK
    (fun ns hl hp => nonsepBand_local hl hp)
    (fun ns hl hp => nonsepBand_onto hl (fun k hk => (hp k hk).1) fun p hp' q hq' =>
      orthonormal_cols (B := fun i j => (C p q).den j i) (hO p q (hp p hp').1 (hp q hq').1 (hp p hp').2.1 (hp q hq').2.1
        (hbound p (hp p hp').2.2) (hbound q (hp q hq').2.2))) hc
  have hev : ∀ k ∈ Ks.map (2 ^ L * ·), evenLen k = k := fun k hk => evenLen_of_even (x5 k hk)
  subst x1
  obtain ⟨dcfg, dst, rcfg, rst, C', c', z, d1, d2, d3, d4, d5, d6, d7, -⟩ := c50_roundtrip hla hw (x := x) (axes := axes) (m := m)
    (mode := mode) (orth := orth) (level := some (L : Int)) (by rw [x3]; exact hg) hdt
    (by
      rw [x2]
      refine setMany_pos hg.nodup hg.lt (by omega) (by rw [List.length_map]; omega) hpos fun k hk => ?_
      obtain ⟨K, hK', rfl⟩ := List.mem_map.mp hk
      have := hK K hK'
      exact Nat.mul_pos (by positivity) (by omega)) hm ho
    (fun l h => by cases h; omega)
    (fun k k1 k2 k3 => by
      rw [x3, x4] at k3
      obtain ⟨n, hn, hk⟩ := k3
      rw [hev n hn] at hk
      obtain ⟨K, hK', rfl⟩ := List.mem_map.mp hn
      exact hind k k1 k2 ⟨K, hK', hk⟩)
    (L := L) (by rw [x3, x4, show levelsN (some (L : Int)) F (Ks.map (2 ^ L * ·)) = L by simp [levelsN], x6])
    (by omega)
  rw [x3] at d3 d5 d7
  obtain rfl : z = x := d7.even fun a ha => x5 _ (by rw [← x4]; exact List.mem_map.mpr ⟨a, ha, rfl⟩)
  have hcc : c = c' := by
    refine isBandDwtN_unique sliceKind_tuple (band := nonsepBand m fun p q => (C p q).den) (band' := nonsepBand m fun p q => (C' p q).den)
      (fun t ht bs X => nonsepBand_congrA' _ _ _ fun p hp q hq => ?_) x7 d5
    rw [x4] at hp hq
    obtain ⟨p1, p2, p3⟩ := dyadic_level (F := F) hK ht p hp
    obtain ⟨q1, q2, q3⟩ := dyadic_level (F := F) hK ht q hq
    rw [evenLen_of_even p1, evenLen_of_even q1]
    have e1 := hC p q p1 q1 p2 q2 (hbound p p3) (hbound q q3)
    have hb' : ∀ k, (∃ K ∈ Ks, k ≤ 2 ^ L * K) → ∃ n ∈ sizes (axesOf axes S.length 2) z.shape, k ≤ evenLen n := by
      rintro k ⟨K, hK', hk'⟩
      rw [x4]
      exact ⟨_, List.mem_map_of_mem hK', le_trans hk' (le_evenLen _)⟩
    have e2 := (d3 p q p1 q1 p2 q2 (hb' p p3) (hb' q q3)).1
    rw [e1] at e2
    show (C _ _).den = (C' _ _).den
    rw [Except.ok.inj e2]
  subst hcc
  exact ⟨dcfg, dst, rcfg, rst, z, d1, d2, rfl, x2, d6, d4⟩

/-- An instance of `c63_matrix`: two levels of the four-tap bank, coefficients of two, two and four samples with
arbitrary values, in a batch of three. -/
example (f g h : List Nat → ℝ) : ∃ (la : LinAlg ℝ) (_ : ExactLinAlg la) (dcfg : DecCfg ℝ) (dst : DecState ℝ)
    (x : Tensor ℝ), x.shape = [3, 8] ∧ (decCall la dcfg dst x).1 =
      .ok [Tensor.ofFn ⟨.float64, 0⟩ [3, 2] f, Tensor.ofFn ⟨.float64, 0⟩ [3, 2] g, Tensor.ofFn ⟨.float64, 0⟩ [3, 4] h] := by
  obtain ⟨la, hla⟩ := exists_exactLinAlg
  obtain ⟨dcfg, dst, rcfg, rst, x, -, -, -, h1, -, h2⟩ := c63_matrix hla bank4_orth (axis := .int (-1)) (m := .zero)
    (mode := some "zero") (orth := "qr") (md := ⟨.float64, 0⟩) (S := [3, 0]) (K := 2) (L := 2)
    (cs := [Tensor.ofFn ⟨.float64, 0⟩ [3, 2] f, Tensor.ofFn ⟨.float64, 0⟩ [3, 2] g, Tensor.ofFn ⟨.float64, 0⟩ [3, 4] h])
    ⟨by decide, rfl, ⟨by
      intro a ha
      have : a = -1 := by simpa [resolve] using ha
      subst this; exact ⟨by decide, by decide⟩, by decide⟩⟩ (Or.inr rfl) (Or.inl rfl) (Or.inl rfl) (by decide) (by decide)
    (fun k a b _ => bank4_indep a b) rfl
    (by rintro t ⟨⟩; exact ⟨rfl, rfl⟩)
    (by
      intro s t hs ht
      rcases (by omega : s = 0 ∨ s = 1) with rfl | rfl
      · cases ht; exact ⟨rfl, rfl⟩
      · cases ht; exact ⟨rfl, rfl⟩)
  exact ⟨la, hla, dcfg, dst, x, h1, h2⟩

/-- Instances of `c63_matrix2` and `c63_nonseparable`: one level, axes `(2, -3)` of a stack, four bands with arbitrary
values. -/
example (f : Nat → List Nat → ℝ) (sep : Bool) :
    ∃ (la : LinAlg ℝ) (_ : ExactLinAlg la) (dcfg : DecCfgN ℝ) (dst : DecStateN ℝ) (x : Tensor ℝ), x.shape = [6, 5, 4] ∧
      (decCallN 2 la dcfg dst x).1 = .ok ⟨false, [.tensor (Tensor.ofFn ⟨.float64, 0⟩ [3, 5, 2] (f 0)),
        .tuple (Tensor.ofFn ⟨.float64, 0⟩ [3, 5, 2] (f 1)) (Tensor.ofFn ⟨.float64, 0⟩ [3, 5, 2] (f 2))
          (Tensor.ofFn ⟨.float64, 0⟩ [3, 5, 2] (f 3))]⟩ := by
  obtain ⟨la, hla⟩ := exists_exactLinAlg
  cases sep
  · obtain ⟨dcfg, dst, rcfg, rst, x, -, -, -, h1, -, h2⟩ := c63_nonseparable hla bank4_orth (axes := .seq [2, -3])
      (m := .zero) (mode := some "zero") (orth := "qr") (md := ⟨.float64, 0⟩) (S := [1, 5, 1]) (Ks := [2, 3]) (L := 1)
      exN_axes2 (Or.inr rfl) (Or.inl rfl) (Or.inl rfl) (by decide) rfl (by decide) (by decide)
      (fun k a b _ => bank4_indep a b)
      (c := ⟨false, [.tensor (Tensor.ofFn ⟨.float64, 0⟩ [3, 5, 2] (f 0)),
        .tuple (Tensor.ofFn ⟨.float64, 0⟩ [3, 5, 2] (f 1)) (Tensor.ofFn ⟨.float64, 0⟩ [3, 5, 2] (f 2))
          (Tensor.ofFn ⟨.float64, 0⟩ [3, 5, 2] (f 3))]⟩)
      ⟨rfl, rfl, ⟨_, rfl, rfl, rfl⟩, fun s hs => by
        obtain rfl : s = 0 := by omega
        exact ⟨_, rfl, _, _, _, rfl, ⟨rfl, rfl⟩, ⟨rfl, rfl⟩, ⟨rfl, rfl⟩⟩⟩
    exact ⟨la, hla, dcfg, dst, x, h1, h2⟩
  · obtain ⟨dcfg, dst, rcfg, rst, x, -, -, -, h1, -, h2⟩ := c63_matrix2 hla bank4_orth (axes := .seq [2, -3])
      (m := .zero) (mode := some "zero") (orth := "qr") (md := ⟨.float64, 0⟩) (S := [1, 5, 1]) (Ks := [2, 3]) (L := 1)
      exN_axes2 (Or.inr rfl) (Or.inl rfl) (Or.inl rfl) (by decide) rfl (by decide) (by decide)
      (fun k a b _ => bank4_indep a b)
      (c := ⟨false, [.tensor (Tensor.ofFn ⟨.float64, 0⟩ [3, 5, 2] (f 0)),
        .tuple (Tensor.ofFn ⟨.float64, 0⟩ [3, 5, 2] (f 1)) (Tensor.ofFn ⟨.float64, 0⟩ [3, 5, 2] (f 2))
          (Tensor.ofFn ⟨.float64, 0⟩ [3, 5, 2] (f 3))]⟩)
      ⟨rfl, rfl, ⟨_, rfl, rfl, rfl⟩, fun s hs => by
        obtain rfl : s = 0 := by omega
        exact ⟨_, rfl, _, _, _, rfl, ⟨rfl, rfl⟩, ⟨rfl, rfl⟩, ⟨rfl, rfl⟩⟩⟩
    exact ⟨la, hla, dcfg, dst, x, h1, h2⟩

/-- An instance of `c63_matrix3`: one level, a batch of two volumes, eight bands with arbitrary values. -/
example (f : String → List Nat → ℝ) :
    ∃ (la : LinAlg ℝ) (_ : ExactLinAlg la) (dcfg : DecCfgN ℝ) (dst : DecStateN ℝ) (x : Tensor ℝ), x.shape = [2, 4, 6, 8] ∧
      (decCallN 3 la dcfg dst x).1 = .ok ⟨false, [.tensor (Tensor.ofFn ⟨.float64, 0⟩ [2, 2, 3, 4] (f "aaa")),
        .dict (keysM3.map fun k => (k, Tensor.ofFn ⟨.float64, 0⟩ [2, 2, 3, 4] (f k)))]⟩ := by
  obtain ⟨la, hla⟩ := exists_exactLinAlg
  obtain ⟨dcfg, dst, rcfg, rst, x, -, -, -, h1, -, h2⟩ := c63_matrix3 hla bank4_orth (axes := .none)
      (m := .zero) (mode := some "zero") (orth := "qr") (md := ⟨.float64, 0⟩) (S := [2, 1, 1, 1]) (Ks := [2, 3, 4]) (L := 1)
      exN_axes3 (Or.inr rfl) (Or.inl rfl) (Or.inl rfl) (by decide) rfl (by decide)
      (fun k a b _ => bank4_indep a b)
      (c := ⟨false, [.tensor (Tensor.ofFn ⟨.float64, 0⟩ [2, 2, 3, 4] (f "aaa")),
        .dict (keysM3.map fun k => (k, Tensor.ofFn ⟨.float64, 0⟩ [2, 2, 3, 4] (f k)))]⟩)
      ⟨rfl, rfl, ⟨_, rfl, rfl, rfl⟩, fun s hs => by
        obtain rfl : s = 0 := by omega
        refine ⟨_, rfl, _, rfl, by simp [Function.comp_def], fun q hq => ?_⟩
        obtain ⟨k, -, rfl⟩ := List.mem_map.mp hq
        exact ⟨rfl, rfl⟩⟩
  exact ⟨la, hla, dcfg, dst, x, h1, h2⟩

end Verif.Props
