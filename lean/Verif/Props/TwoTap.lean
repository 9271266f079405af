import Verif.Props.Orientation

/-
C52: for filter banks with two taps (Haar) the padding backend (`wavedec`, `wavedec3`) and the boundary
filter backend (`MatrixWavedec`, `MatrixWavedec3`) compute the same coefficients; the two-dimensional case
is C44 (Props/Orientation).  Two-tap boundary matrices have no truncated rows, so the orthogonalisation
leaves them as they are, and both backends repeat the textbook step on the same extended signal.
-/

namespace Verif.Props
open Tensor Spec

/-- Two containers of dictionaries hold the same tensors under the same keys, possibly inserted in another
order. -/
structure SameCoeffs {R : Type} [Zero R] (c c' : Coeffs R) : Prop where
  kind : c'.isList = c.isList
  length : c'.items.length = c.items.length
  approx : c'.items[0]? = c.items[0]?
  detail : ∀ i, 0 < i → i < c.items.length → ∃ kv kv', c.items[i]? = some (.dict kv) ∧ c'.items[i]? = some (.dict kv') ∧
    kv'.Perm kv ∧ (kv.map Prod.fst).Nodup

theorem isDwt3_same {R : Type} [NonUnitalNonAssocSemiring R] {m : Mode} {w : Wavelet R} {ax : List Nat} {L : Nat}
    {x : Tensor R} {c c' : Coeffs R} (h : IsDwt3 m w ax L x c) (h' : IsDwtN (IsDict keysM3) m w ax L x c') :
    SameCoeffs c c' := by
  obtain ⟨k1, k2, ⟨t, k3, k4⟩, k5⟩ := h
  obtain ⟨l1, l2, ⟨t', l3, l4⟩, l5⟩ := h'
  refine ⟨by rw [k1, l1], by rw [k2, l2], by rw [k3, l3, alongAxes_unique l4 k4], ?_⟩
  intro i hi hiL
  rw [k2] at hiL
  obtain ⟨e, he, kv, rfl, p1, p2⟩ := k5 (L - i) (by omega)
  obtain ⟨e', he', kv', rfl, q1, q2⟩ := l5 (L - i) (by omega)
  rw [show L - (L - i) = i by omega] at he he'
  have hkeys : ∀ k, k ∈ keys3 ↔ k ∈ keysM3 := by
    intro k
    simp only [keys3, keysM3, List.mem_cons, List.not_mem_nil, or_false]
    tauto
  have n1 : (kv.map Prod.fst).Nodup := by rw [p1]; decide
  have n2 : (kv'.map Prod.fst).Nodup := by rw [q1]; decide
  refine ⟨kv, kv', he, he', ?_, n1⟩
  rw [List.perm_ext_iff_of_nodup n2.of_map n1.of_map]
  rintro ⟨k, t⟩
  constructor
  · intro hm
    have : k ∈ kv.map Prod.fst := by
      rw [p1, hkeys, ← q1]; exact List.mem_map_of_mem (f := Prod.fst) hm
    obtain ⟨⟨k', t'⟩, hm', hk⟩ := List.mem_map.mp this
    obtain rfl : k' = k := hk
    obtain rfl : t = t' := alongAxes_unique (q2 _ hm) (p2 _ hm')
    exact hm'
  · intro hm
    have : k ∈ kv'.map Prod.fst := by
      rw [q1, ← hkeys, ← p1]; exact List.mem_map_of_mem (f := Prod.fst) hm
    obtain ⟨⟨k', t'⟩, hm', hk⟩ := List.mem_map.mp this
    obtain rfl : k' = k := hk
    obtain rfl : t = t' := alongAxes_unique (p2 _ hm) (q2 _ hm')
    exact hm'

/-- **C52**, three dimensions.  For every orthogonal filter bank with two taps (Haar), `wavedec3` and
`MatrixWavedec3` return the same tensors under the same keys at every level, whatever the axes, the
padding mode, the orthogonalisation method and the level argument (giving `L ≥ 1` levels). -/
theorem c52_two_taps_3d {la : LinAlg ℝ} (hla : ExactLinAlg la) {w : Wavelet ℝ} (hw : OrthBank w 2)
    {x : Tensor ℝ} {axes : AxisHint} {m : Mode} {mode : Option String} {orth : String} {level : Option Int}
    (hg : GoodAxes axes x.rank 3) (hdt : x.md.dtype = .float32 ∨ x.md.dtype = .float64)
    (hm : Selects mode m) (ho : orth = "qr" ∨ orth = "gramschmidt") (hlev : ∀ l, level = some l → 1 ≤ l)
    (hne : level = none → ∀ k ∈ sizes (axesOf axes x.rank 3) x.shape, 0 < k)
    {L : Nat} (hL : L = mLevelsN 2 (levelsN level 2 (sizes (axesOf axes x.rank 3) x.shape))
      (sizes (axesOf axes x.rank 3) x.shape)) (hL0 : 0 < L) :
    ∃ cfg st c c',
      decInitN 3 w level axes orth true mode = .ok (cfg, st) ∧
      wavedec3 x w mode (some (L : Int)) axes = .ok c ∧
      (decCallN 3 la cfg st x).1 = .ok c' ∧ SameCoeffs c c' := by
  have hd : isDtypeSupported x.md.dtype = true := by unfold isDtypeSupported; simpa using hdt
  have hind : ∀ k, k % 2 = 0 → 2 ≤ k → (∃ n ∈ sizes (axesOf axes x.rank 3) x.shape, k ≤ evenLen n) → BoundaryIndep w 2 k :=
    fun k hk _ _ => (c38_indep_two_four hk).1
  obtain ⟨scfg, sst, _, _, C', c', s1, _, s3, s4, s5, _⟩ := c43_roundtrip3 hla hw hg hdt hm ho hlev hne hind hL
  set ns := sizes (axesOf axes x.rank 3) x.shape with hns
  have hlen : w.len = 2 := hw.len.1
  have hge : ∀ s, s < L → ∀ n ∈ mLens ns s, 2 ≤ n := fun s hs => le_of_mLevelsN (levelsN level 2 ns) ns s (by omega)
  have hle : ∀ s, ∀ n ∈ mLens ns s, ∃ n₀ ∈ ns, evenLen n ≤ evenLen n₀ := by
    intro s n hn
    obtain ⟨n₀, h0, rfl⟩ := List.mem_map.mp hn
    exact ⟨n₀, h0, evenLen_mLen_le n₀ s⟩
  have hax : (axesOf axes x.rank 3).length = 3 := by
    have := sizes_len hg; simpa [sizes] using this
  have d2 : IsDwtN (IsDict keysM3) m w (axesOf axes x.rank 3) L x c' :=
    isDwtN_two hlen (hax.symm ▸ bandKind_dict3) hg.nodup hg.lt
      (fun s hs => agrees_sep hla hw ho s3 (hle s) (hge s hs)) hge s5
  have hlv : levelsN (some (L : Int)) w.len (sizes (axesOf axes x.rank 3) x.shape) = L := by simp [levelsN]
  have h4 := (wavedec3_char (mode := mode) (x := x) (level := some (L : Int)) (h := axes)
    (by rw [hlen]) (by rw [hlen]; exact hw.len.2.1)).2 hg hd
  simp only [hlv] at h4
  obtain ⟨c₀, e0, d0⟩ := (h4 hL0).1 m hm (levelsAdmit_two hlen hL)
  exact ⟨scfg, sst, c₀, c', s1, e0, s4, isDwt3_same d0 d2⟩

/-! ### One dimension -/

theorem mLevels_ge {F : Nat} : ∀ (K n s : Nat), s < mLevels F K n → F ≤ mLen n s
  | 0, _, s, h => by simp [mLevels] at h
  | K + 1, n, s, h => by
    simp only [mLevels] at h
    split_ifs at h with h1
    · omega
    · cases s with
      | zero => simpa [mLen] using h1
      | succ s => exact mLevels_ge K (evenLen n / 2) s (by omega)

theorem mLen_two (n : Nat) : ∀ s, mLen n s = levelLen 2 n s := by
  intro s
  induction s with
  | zero => rfl
  | succ s ih => rw [mLen_snoc, ih, ← outLen_two]; rfl

section
variable {R : Type} [NonUnitalNonAssocSemiring R] {m : Mode} {A : Nat → Nat → Nat → R} {w : Wavelet R}

theorem mA_two (hw : HasLen w 2) {n : Nat} (v : Nat → R) {L : Nat}
    (hA : ∀ s, s < L → ∀ r j, r < evenLen (mLen n s) → j < evenLen (mLen n s) →
      A (evenLen (mLen n s)) r j = filterRow w 2 (evenLen (mLen n s)) r j)
    (had : ∀ s, s < L → m.Admits 2 (mLen n s)) :
    ∀ s, s ≤ L → ∀ i, i < mLen n s → mA m A n v s i = cA m w n v s i
  | 0, _, _, _ => rfl
  | s + 1, hs, i, hi => by
    rw [mLen_snoc] at hi
    have := step_two (m := m) hw (hA s (by omega)) false (mA m A n v s) hi
    simp only [Bool.false_eq_true, if_false] at this
    rw [mA_snoc, this]
    show _ = dwtStep m w.decLo (levelLen w.len n s) (cA m w n v s) i
    rw [show w.len = 2 from hw.1, ← mLen_two]
    exact dwtStep_congr (had s (by omega)) (mA_two hw v hA had s (by omega)) _ _

theorem mD_two (hw : HasLen w 2) {n : Nat} (v : Nat → R) {L : Nat}
    (hA : ∀ s, s < L → ∀ r j, r < evenLen (mLen n s) → j < evenLen (mLen n s) →
      A (evenLen (mLen n s)) r j = filterRow w 2 (evenLen (mLen n s)) r j)
    (had : ∀ s, s < L → m.Admits 2 (mLen n s)) (s : Nat) (hs : s < L) (i : Nat) (hi : i < mLen n (s + 1)) :
    mD m A n v s i = cD m w n v s i := by
  rw [mLen_snoc] at hi
  have := step_two (m := m) hw (hA s hs) true (mA m A n v s) hi
  simp only [if_true] at this
  rw [mD_snoc, this]
  show _ = dwtStep m w.decHi (levelLen w.len n s) (cA m w n v s) i
  rw [show w.len = 2 from hw.1, ← mLen_two]
  exact dwtStep_congr (had s (by omega)) (mA_two hw v hA had s (by omega)) _ _

/-- The transform pads first. -/
theorem step_pad {n : Nat} {v v' : Nat → R} (h : ∀ j, j < evenLen n → v' j = ext m n v j) :
    stepLo m A (evenLen n) v' = stepLo m A n v ∧ stepHi m A (evenLen n) v' = stepHi m A n v := by
  have he : evenLen (evenLen n) = evenLen n := evenLen_of_even (evenLen_even n)
  have key : rowTimes m (A (evenLen (evenLen n))) (evenLen n) v' = rowTimes m (A (evenLen n)) n v := by
    funext i
    unfold rowTimes
    rw [he]
    refine Finset.sum_congr rfl fun j hj => ?_
    rw [Finset.mem_range] at hj
    unfold evenExt
    rw [ext_inside m v' hj, h j hj]
  constructor
  · unfold stepLo; rw [key]
  · unfold stepHi; rw [key, he]

theorem mAD_pad {n : Nat} {v v' : Nat → R} (h : ∀ j, j < evenLen n → v' j = ext m n v j) (s : Nat) :
    mA m A (evenLen n) v' (s + 1) = mA m A n v (s + 1) ∧ mD m A (evenLen n) v' s = mD m A n v s := by
  have he : evenLen (evenLen n) = evenLen n := evenLen_of_even (evenLen_even n)
  obtain ⟨h1, h2⟩ := step_pad (A := A) h
  constructor
  · show mA m A (evenLen (evenLen n) / 2) (stepLo m A (evenLen n) v') s = _
    rw [he, h1]; rfl
  · cases s with
    | zero => exact h2
    | succ s =>
      show mD m A (evenLen (evenLen n) / 2) (stepLo m A (evenLen n) v') s = _
      rw [he, h1]; rfl

theorem mLen_pad (n s : Nat) : mLen (evenLen n) (s + 1) = mLen n (s + 1) := by
  show mLen (evenLen (evenLen n) / 2) s = _
  rw [evenLen_of_even (evenLen_even n)]; rfl

end

theorem isDwt1_unique {R : Type} [NonUnitalNonAssocSemiring R] {m : Mode} {w : Wavelet R} {a L : Nat}
    {x : Tensor R} {cs cs' : List (Tensor R)} (h : IsDwt m w a L x cs) (h' : IsDwt m w a L x cs') : cs' = cs := by
  apply List.ext_getElem?
  intro i
  have huni : ∀ {K : Nat} {f : (Nat → R) → Nat → R} {t t' : Tensor R}, AlongAxis a K f x t → AlongAxis a K f x t' → t = t' := by
    intro K f t t' h h'
    have hs : t.shape = t'.shape := h.shape.trans h'.shape.symm
    refine Tensor.ext' (h.md.trans h'.md.symm) hs ?_
    intro idx hidx
    rw [h.get idx hidx, h'.get idx (by rw [← hs]; exact hidx)]
  by_cases hi : i < L + 1
  · have hi1 : i < cs.length := by rw [h.length]; exact hi
    have hi2 : i < cs'.length := by rw [h'.length]; exact hi
    have e1 := List.getElem?_eq_getElem hi1
    have e2 := List.getElem?_eq_getElem hi2
    rw [e1, e2]
    rcases Nat.eq_zero_or_pos i with rfl | h0
    · rw [huni (h'.approx _ e2) (h.approx _ e1)]
    · have e1' : cs[L - (L - i)]? = some cs[i] := by rw [show L - (L - i) = i by omega]; exact e1
      have e2' : cs'[L - (L - i)]? = some cs'[i] := by rw [show L - (L - i) = i by omega]; exact e2
      rw [huni (h'.detail (L - i) _ (by omega) e2') (h.detail (L - i) _ (by omega) e1')]
  · rw [List.getElem?_eq_none (by rw [h'.length]; omega), List.getElem?_eq_none (by rw [h.length]; omega)]

/-- **C52**, one dimension.  For every orthogonal filter bank with two taps (Haar), `wavedec` and
`MatrixWavedec` return the same coefficients, whatever the axis, the padding mode, the orthogonalisation
method and the level argument (giving `L ≥ 1` levels). -/
theorem c52_two_taps_1d {la : LinAlg ℝ} (hla : ExactLinAlg la) {w : Wavelet ℝ} (hw : OrthBank w 2)
    {x : Tensor ℝ} {axis : AxisHint} {m : Mode} {mode : Option String} {orth : String} {level : Option Int}
    (hg : GoodAxes axis x.rank 1) (hdt : x.md.dtype = .float32 ∨ x.md.dtype = .float64)
    (hm : Selects mode m) (ho : orth = "qr" ∨ orth = "gramschmidt") (hlev : ∀ l, level = some l → 1 ≤ l)
    (hn2 : 2 ≤ x.shape.getD (axis1 axis x.rank) 0)
    {L : Nat} (hL : L = mLevels 2 (levels level 2 (evenLen (x.shape.getD (axis1 axis x.rank) 0)))
      (evenLen (x.shape.getD (axis1 axis x.rank) 0))) (hL0 : 0 < L) :
    ∃ cfg st cs, decInit w level axis orth mode = .ok (cfg, st) ∧
      wavedec x w mode (some (L : Int)) axis = .ok cs ∧ (decCall la cfg st x).1 = .ok cs := by
  have hd : isDtypeSupported x.md.dtype = true := by unfold isDtypeSupported; simpa using hdt
  obtain ⟨cfg, st, C, x', cs, lv, h1, -, h2, -, -, h5, h6, h7, h8, h9, h10⟩ :=
    dec_run hla hw hg hdt hm ho hlev (fun _ => by omega) (by intro _; cases m <;> simp only [Fits] <;> omega)
      (fun k hk _ _ => (c38_indep_two_four hk).1)
  rw [← hL] at h10
  have hax : axis1 axis x.rank < x.shape.length := axis1_lt hg
  have hwd := (wavedec_char (mode := mode) (x := x) (level := some (L : Int)) (h := axis)
    (by rw [show w.len = 2 from hw.len.1]) (by rw [show w.len = 2 from hw.len.1]; exact hw.len.2.1)).2 hg hd
  obtain ⟨-, hwd, -⟩ := hwd
  generalize axis1 axis x.rank = a at *
  set n := x.shape.getD a 0 with hn
  have hlen : w.len = 2 := hw.len.1
  have hge : ∀ s, s < L → 2 ≤ mLen n s := by
    intro s hs
    cases s with
    | zero => exact hn2
    | succ s => rw [← mLen_pad]; exact mLevels_ge _ _ _ (by rw [← hL]; exact hs)
  have had : ∀ s, s < L → m.Admits 2 (mLen n s) := fun s hs => admits_two m (hge s hs)
  have hA : ∀ s, s < L → ∀ r j, r < evenLen (mLen n s) → j < evenLen (mLen n s) →
      (C (evenLen (mLen n s))).den r j = filterRow w 2 (evenLen (mLen n s)) r j := by
    intro s hs r j hr hj
    have he := evenLen_even (mLen n s)
    have hle := le_evenLen (mLen n s)
    have h2n := hge s hs
    obtain ⟨A, eA, _, _, _, _, _, hrow, _⟩ := c38_orthonormal hla x.md hw he (by omega) (c38_indep_two_four he).1 ho
    have := h2 _ he (by omega) (evenLen_mLen_le n s)
    rw [eA] at this
    cases this
    exact hrow r j hr hj (not_truncated_two he hr)
  have hsh : ∀ K, x'.shape.set a K = x.shape.set a K := by
    intro K
    rcases h5 with ⟨_, rfl⟩ | ⟨_, he⟩
    · rfl
    · rw [he.shape, List.set_set]
  have hline : ∀ idx K, InB (x.shape.set a K) idx → ∀ j, j < evenLen n → line x' a idx j = ext m n (line x a idx) j := by
    intro idx K hidx j hj
    rcases h5 with ⟨h0, rfl⟩ | ⟨h0, he⟩
    · rw [evenLen_of_even h0] at hj
      exact (ext_inside m _ hj).symm
    · have hl : a < idx.length := by rw [hidx.length_eq, List.length_set]; exact hax
      unfold line
      rw [he.get _ ?_]
      · unfold line
        simp only [List.set_set]
        rw [getD_set_self hl]
        simp [hn]
      · rw [inB_set_iff (x := K) (by rw [he.shape, List.length_set]; exact hax)
          (by rw [he.shape, List.set_set]; exact hidx), he.shape, getD_set_self hax]
        have : evenLen n = n + n % 2 := rfl
        omega
  have key : ∀ {K : Nat} {f g : (Nat → ℝ) → Nat → ℝ} {t : Tensor ℝ}, AlongAxis a K f x' t →
      (∀ v v' i, (∀ j, j < evenLen n → v' j = ext m n v j) → i < K → f v' i = g v i) → AlongAxis a K g x t := by
    intro K f g t ht hfg
    refine ⟨ht.md.trans h6, ht.shape.trans (hsh K), ?_⟩
    intro idx hidx
    have hidx' : InB (x.shape.set a K) idx := by rw [← hsh, ← ht.shape]; exact hidx
    rw [ht.get idx hidx]
    refine hfg _ _ _ (hline idx K hidx') ?_
    have := hidx'.getD_lt (d := a) (by rw [List.length_set]; exact hax)
    rwa [getD_set_self hax] at this
  have hpad : ∀ s, 0 < s → mLen (evenLen n) s = mLen n s := by
    intro s hs
    obtain ⟨s, rfl⟩ : ∃ k, s = k + 1 := ⟨s - 1, by omega⟩
    exact mLen_pad n s
  have hdwt : IsDwt m w a L x cs := by
    refine ⟨h10.length, ?_, ?_⟩
    · intro t ht
      have := h10.approx t ht
      rw [h8, hpad L hL0] at this
      rw [hlen, ← mLen_two]
      refine key this ?_
      intro v v' i hv hi
      obtain ⟨s, rfl⟩ : ∃ k, L = k + 1 := ⟨L - 1, by omega⟩
      rw [(mAD_pad hv s).1]
      exact mA_two hw.len v hA had _ (le_refl _) i hi
    · intro s d hs hd
      have := h10.detail s d hs hd
      rw [h8, mLen_pad] at this
      rw [hlen, ← mLen_two]
      refine key this ?_
      intro v v' i hv hi
      rw [(mAD_pad hv s).2]
      exact mD_two hw.len v hA had s hs i hi
  have hlv : levels (some (L : Int)) w.len n = L := by simp [levels]
  simp only [← hn, hlv, hlen] at hwd
  obtain ⟨cs₀, e0, d0⟩ := hwd m hm (fun s hs => by rw [← mLen_two]; exact had s hs)
  refine ⟨cfg, st, cs₀, h1, e0, ?_⟩
  rw [h9, isDwt1_unique d0 hdwt]

/-- Example data for C52: a 1 × 5 tensor. -/
noncomputable def ex52 : Tensor ℝ := Tensor.ofFn ⟨.float64, 0⟩ [1, 5] fun idx => (idx.getD 1 0 : ℝ)

/-- The hypotheses are met: an odd signal of length 5, two levels asked for, the default mode. -/
example : ∃ (la : LinAlg ℝ) (w : Wavelet ℝ) (x : Tensor ℝ) (cfg : _) (st : _) (cs : List (Tensor ℝ)),
    ExactLinAlg la ∧ x.shape = [1, 5] ∧ decInit w (some 2) (.int (-1)) "qr" none = .ok (cfg, st) ∧
      wavedec x w none (some 2) (.int (-1)) = .ok cs ∧ (decCall la cfg st x).1 = .ok cs := by
  obtain ⟨la, hla⟩ := exists_exactLinAlg
  have hax : GoodAxes (.int (-1)) ex52.rank 1 := ⟨by decide, rfl, ⟨by
    intro a ha
    have ha' : a = -1 := by simpa [resolve] using ha
    subst ha'; exact ⟨by decide, by decide⟩, by decide⟩⟩
  obtain ⟨cfg, st, cs, h1, h2, h3⟩ := c52_two_taps_1d hla bank35_orth (x := ex52) (axis := .int (-1)) (m := .reflect)
    (mode := none) (orth := "qr") (level := some 2) hax (Or.inr rfl) (Or.inr ⟨rfl, rfl⟩) (Or.inl rfl)
    (by rintro l ⟨⟩; decide) (by decide) (L := 2) (by decide) (by decide)
  exact ⟨la, _, ex52, cfg, st, cs, hla, rfl, h1, h2, h3⟩

/-- Example data for C52: a 3 × 2 × 4 tensor. -/
noncomputable def ex52b : Tensor ℝ := Tensor.ofFn ⟨.float32, 0⟩ [3, 2, 4] fun idx => (idx.getD 1 0 : ℝ)

/-- The hypotheses are met: three axes of different parity, one level, reflect padding. -/
example : ∃ (la : LinAlg ℝ) (w : Wavelet ℝ) (x : Tensor ℝ) (cfg : _) (st : _) (c c' : Coeffs ℝ),
    ExactLinAlg la ∧ x.shape = [3, 2, 4] ∧ decInitN 3 w (some 1) .none "qr" true none = .ok (cfg, st) ∧
      wavedec3 x w none (some 1) .none = .ok c ∧ (decCallN 3 la cfg st x).1 = .ok c' ∧ SameCoeffs c c' := by
  obtain ⟨la, hla⟩ := exists_exactLinAlg
  have hax : GoodAxes .none ex52b.rank 3 := ⟨by decide, rfl, ⟨by
    intro a ha
    have ha' : a ∈ [-3, -2, -1] := ha
    have ha' : a = -3 ∨ a = -2 ∨ a = -1 := by simpa using ha'
    rcases ha' with rfl | rfl | rfl <;> exact ⟨by decide, by decide⟩, by decide⟩⟩
  obtain ⟨cfg, st, c, c', h1, h2, h3, h4⟩ := c52_two_taps_3d hla bank35_orth (x := ex52b) (axes := .none) (m := .reflect)
    (mode := none) (orth := "qr") (level := some 1) hax (Or.inl rfl) (Or.inr ⟨rfl, rfl⟩) (Or.inl rfl)
    (by rintro l ⟨⟩; decide) (by rintro ⟨⟩) (L := 1) (by decide) (by decide)
  exact ⟨la, _, ex52b, cfg, st, c, c', hla, rfl, h1, h2, h3, h4⟩

end Verif.Props
