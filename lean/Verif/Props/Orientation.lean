/-
Property C44: the orientation of the two-dimensional detail tuples in the different backends.
-/
import Verif.Lemmas.TwoTap
import Verif.Props.MatN
import Verif.Lemmas.MatOp2Top
import Verif.Props.ConvNd
import Verif.Props.Packet2

namespace Verif.Props
open Tensor Spec

/-! ### Preparations -/

theorem levelsAdmit_two {m : Mode} {w : Wavelet ℝ} (hlen : w.len = 2) {ns : List Nat} {K : Nat} {L : Nat}
    (hL : L = mLevelsN 2 K ns) : LevelsAdmit m w.len ns L := by
  intro s hs n hn
  rw [hlen] at hn ⊢
  rw [← mLens_two] at hn
  exact admits_two m (le_of_mLevelsN K ns s (by omega) n hn)

theorem evenLen_mLen_le (n : Nat) : ∀ s, evenLen (mLen n s) ≤ evenLen n := by
  intro s
  have := mLen_le n s
  unfold evenLen
  omega

theorem agrees_sep {la : LinAlg ℝ} (hla : ExactLinAlg la) {w : Wavelet ℝ} (hw : OrthBank w 2) {md : Meta} {orth : String}
    (ho : orth = "qr" ∨ orth = "gramschmidt") {C : Nat → Coo ℝ} {m : Mode} {ns₀ ns : List Nat}
    (hC : ∀ k, k % 2 = 0 → 2 ≤ k → (∃ n ∈ ns₀, k ≤ evenLen n) →
      constructBoundaryA la w md k orth = .ok (C k) ∧ OrthonormalCols k (C k).den)
    (hn : ∀ n ∈ ns, ∃ n₀ ∈ ns₀, evenLen n ≤ evenLen n₀) (h2 : ∀ n ∈ ns, 2 ≤ n) :
    AgreesAt (matBand m fun k => (C k).den) m w ns := by
  intro bs X ks hb hk
  refine matBand_two hw.len bs ns X ks ?_ hb hk
  intro n hm r j hr hj
  have he := evenLen_even n
  have hle := le_evenLen n
  have h2n := h2 n hm
  obtain ⟨A, eA, _, _, _, _, _, hrow, _⟩ := c38_orthonormal hla md hw he (by omega) (c38_indep_two_four he).1 ho
  have := (hC _ he (by omega) (hn n hm)).1
  rw [eA] at this
  cases this
  exact hrow r j hr hj (not_truncated_two he hr)

theorem agrees_nonsep {la : LinAlg ℝ} (hla : ExactLinAlg la) {w : Wavelet ℝ} (hw : OrthBank w 2) {md : Meta} {orth : String}
    (ho : orth = "qr" ∨ orth = "gramschmidt") {C : Nat → Nat → Coo ℝ} {m : Mode} {ns₀ ns : List Nat}
    (hC : ∀ p q, p % 2 = 0 → q % 2 = 0 → 2 ≤ p → 2 ≤ q → (∃ n ∈ ns₀, p ≤ evenLen n) → (∃ n ∈ ns₀, q ≤ evenLen n) →
      constructBoundaryA2 la w md p q orth = .ok (C p q) ∧ OrthonormalCols (p * q) (C p q).den)
    (hl : ns.length = 2) (hn : ∀ n ∈ ns, ∃ n₀ ∈ ns₀, evenLen n ≤ evenLen n₀) (h2 : ∀ n ∈ ns, 2 ≤ n) :
    AgreesAt (nonsepBand m fun p q => (C p q).den) m w ns := by
  intro bs X ks hb hk
  refine nonsepBand_two hw.len hl (by rw [hb, hl]) ?_ hk
  rintro p q rfl k j hk hj
  have hep := evenLen_even p
  have heq := evenLen_even q
  have hp := h2 p (by simp)
  have hq := h2 q (by simp)
  have := le_evenLen p
  have := le_evenLen q
  obtain ⟨A, S, eA, _, _, _, _, _, _, _, _, _, _, hrow, _⟩ := c50_matrix hla md hw hep heq (by omega) (by omega)
    (c38_indep_two_four hep).1 (c38_indep_two_four heq).1 ho
  have := (hC _ _ hep heq (by omega) (by omega) (hn p (by simp)) (hn q (by simp))).1
  rw [eA] at this
  cases this
  refine hrow k j hk hj ?_
  rintro (h | h)
  · exact not_truncated_two hep (rowH_lt hep heq hk) h
  · exact not_truncated_two heq (rowW_lt hep heq hk) h

/-- The tuple with its first two members exchanged. -/
def exchangeHV {R : Type} [Zero R] : Entry R → Entry R
  | .tuple h v d => .tuple v h d
  | e => e

theorem isDwt_unique {R : Type} [NonUnitalNonAssocSemiring R] {m : Mode} {w : Wavelet R} {ax : List Nat} {L : Nat}
    {x : Tensor R} {c c' : Coeffs R} (h : IsDwt2 m w ax L x c) (h' : IsDwt2 m w ax L x c') : c' = c := by
  obtain ⟨il, items⟩ := c
  obtain ⟨il', items'⟩ := c'
  obtain ⟨k1, k2, ⟨t, k3, k4⟩, k5⟩ := h
  obtain ⟨l1, l2, ⟨t', l3, l4⟩, l5⟩ := h'
  simp only at k1 k2 k3 k5 l1 l2 l3 l5
  subst k1 l1
  congr 1
  apply List.ext_getElem?
  intro i
  rcases Nat.eq_zero_or_pos i with rfl | hi
  · rw [l3, k3, alongAxes_unique l4 k4]
  · by_cases hiL : i ≤ L
    · obtain ⟨e, he, a, b, d, rfl, p1, p2, p3⟩ := k5 (L - i) (by omega)
      obtain ⟨e', he', a', b', d', rfl, q1, q2, q3⟩ := l5 (L - i) (by omega)
      rw [show L - (L - i) = i by omega] at he he'
      rw [he, he', alongAxes_unique q1 p1, alongAxes_unique q2 p2, alongAxes_unique q3 p3]
    · rw [List.getElem?_eq_none (show items'.length ≤ i by omega), List.getElem?_eq_none (show items.length ≤ i by omega)]

theorem isDwt_exchange {R : Type} [NonUnitalNonAssocSemiring R] {m : Mode} {w : Wavelet R} {ax : List Nat} {L : Nat}
    {x : Tensor R} {c c' : Coeffs R} (h : IsDwt2 m w ax L x c) (h' : IsDwtN IsTupleSwapped m w ax L x c') :
    c' = ⟨c.isList, c.items.map exchangeHV⟩ := by
  obtain ⟨il, items⟩ := c
  obtain ⟨il', items'⟩ := c'
  obtain ⟨k1, k2, ⟨t, k3, k4⟩, k5⟩ := h
  obtain ⟨l1, l2, ⟨t', l3, l4⟩, l5⟩ := h'
  simp only at k1 k2 k3 k5 l1 l2 l3 l5
  subst k1 l1
  congr 1
  apply List.ext_getElem?
  intro i
  rw [List.getElem?_map]
  rcases Nat.eq_zero_or_pos i with rfl | hi
  · rw [l3, k3, alongAxes_unique l4 k4]; rfl
  · by_cases hiL : i ≤ L
    · obtain ⟨e, he, a, b, d, rfl, p1, p2, p3⟩ := k5 (L - i) (by omega)
      obtain ⟨e', he', a', b', d', rfl, q1, q2, q3⟩ := l5 (L - i) (by omega)
      rw [show L - (L - i) = i by omega] at he he'
      rw [he, he', alongAxes_unique q1 p2, alongAxes_unique q2 p1, alongAxes_unique q3 p3]
      rfl
    · rw [List.getElem?_eq_none (show items'.length ≤ i by omega), List.getElem?_eq_none (show items.length ≤ i by omega)]; rfl

/-- **C44.** For every orthogonal filter bank with two taps (Haar), every tensor without empty axes, every
pair of axes, padding mode, orthogonalisation method and level argument that gives `L ≥ 1` levels:
`wavedec2` and `MatrixWavedec2(separable=False)` return the same coefficients, and
`MatrixWavedec2(separable=True)` returns the same tensors with the first two members of every detail
tuple exchanged. -/
theorem c44_two_taps {la : LinAlg ℝ} (hla : ExactLinAlg la) {w : Wavelet ℝ} (hw : OrthBank w 2)
    {x : Tensor ℝ} {axes : AxisHint} {m : Mode} {mode : Option String} {orth : String} {level : Option Int}
    (hg : GoodAxes axes x.rank 2) (hdt : x.md.dtype = .float32 ∨ x.md.dtype = .float64)
    (hpos : ∀ k ∈ x.shape, 0 < k)
    (hm : Selects mode m) (ho : orth = "qr" ∨ orth = "gramschmidt") (hlev : ∀ l, level = some l → 1 ≤ l)
    {L : Nat} (hL : L = mLevelsN 2 (levelsN level 2 (sizes (axesOf axes x.rank 2) x.shape))
      (sizes (axesOf axes x.rank 2) x.shape)) (hL0 : 0 < L) :
    ∃ ncfg nst scfg sst c,
      decInitN 2 w level axes orth false mode = .ok (ncfg, nst) ∧
      decInitN 2 w level axes orth true mode = .ok (scfg, sst) ∧
      wavedec2 x w mode (some (L : Int)) axes = .ok c ∧
      (decCallN 2 la ncfg nst x).1 = .ok c ∧
      (decCallN 2 la scfg sst x).1 = .ok ⟨c.isList, c.items.map exchangeHV⟩ := by
  have hd : isDtypeSupported x.md.dtype = true := by unfold isDtypeSupported; simpa using hdt
  have hind : ∀ k, k % 2 = 0 → 2 ≤ k → (∃ n ∈ sizes (axesOf axes x.rank 2) x.shape, k ≤ evenLen n) → BoundaryIndep w 2 k :=
    fun k hk _ _ => (c38_indep_two_four hk).1
  obtain ⟨ncfg, nst, _, _, C, c, _, n1, _, n3, n4, n5, _, _, _⟩ := c50_roundtrip hla hw hg hdt hpos hm ho hlev hind hL hL0
  obtain ⟨scfg, sst, _, _, C', c', _, s1, _, s3, s4, s5, _, _, _⟩ := c43_roundtrip2 hla hw hg hdt hpos hm ho hlev hind hL
  set ns := sizes (axesOf axes x.rank 2) x.shape with hns
  have hlen : w.len = 2 := hw.len.1
  have hge : ∀ s, s < L → ∀ n ∈ mLens ns s, 2 ≤ n := fun s hs => le_of_mLevelsN (levelsN level 2 ns) ns s (by omega)
  have hle : ∀ s, ∀ n ∈ mLens ns s, ∃ n₀ ∈ ns, evenLen n ≤ evenLen n₀ := by
    intro s n hn
    obtain ⟨n₀, h0, rfl⟩ := List.mem_map.mp hn
    exact ⟨n₀, h0, evenLen_mLen_le n₀ s⟩
  have hax : (axesOf axes x.rank 2).length = 2 := by
    have := sizes_len hg; simpa [sizes] using this
  have d1 : IsDwt2 m w (axesOf axes x.rank 2) L x c :=
    isDwtN_two hlen (hax.symm ▸ bandKind_tuple) hg.nodup hg.lt
      (fun s hs => agrees_nonsep hla hw ho n3 (by rw [mLens_length]; exact sizes_len hg) (hle s) (hge s hs)) hge n5
  have d2 : IsDwtN IsTupleSwapped m w (axesOf axes x.rank 2) L x c' :=
    isDwtN_two hlen (hax.symm ▸ bandKind_swapped) hg.nodup hg.lt
      (fun s hs => agrees_sep hla hw ho s3 (hle s) (hge s hs)) hge s5
  obtain ⟨-, h4, -⟩ := (wavedec2_char (mode := mode) (x := x) (level := some (L : Int)) (h := axes)
    (by rw [hlen]) (by rw [hlen]; exact hw.len.2.1)).2 hg hd
  have hlv : levelsN (some (L : Int)) w.len (sizes (axesOf axes x.rank 2) x.shape) = L := by simp [levelsN]
  simp only [hlv] at h4
  obtain ⟨c₀, e0, d0⟩ := h4 m hm (levelsAdmit_two hlen hL)
  refine ⟨ncfg, nst, scfg, sst, c₀, n1, s1, e0, ?_, ?_⟩
  · rw [n4, isDwt_unique d0 d1]
  · rw [s4, isDwt_exchange d0 d2]


/-- An orthogonal bank with two taps whose taps differ. -/
noncomputable def bank35 : Wavelet ℝ := ⟨[3 / 5, 4 / 5], [-(4 / 5), 3 / 5], [4 / 5, 3 / 5], [3 / 5, -(4 / 5)]⟩

theorem bank35_orth : OrthBank bank35 2 := by
  have key : ∀ m : ℤ, -((2 : ℕ) : ℤ) < 2 * m → 2 * m < ((2 : ℕ) : ℤ) → m = 0 := by
    intro m h1 h2; push_cast at h1 h2; omega
  refine orthBank_of ⟨rfl, rfl, rfl, rfl⟩ (by norm_num) rfl ?_ ?_ ?_ rfl rfl <;>
  · intro m h1 h2
    obtain rfl := key m h1 h2
    simp [Finset.sum_range_succ, tap, bank35]; norm_num

/-- An image with one bright pixel, in the first row and the second column. -/
def ex44 : Tensor ℝ := Tensor.ofFn ⟨.float64, 0⟩ [2, 2] fun idx => if idx = [0, 1] then 1 else 0

/-- **C44.** The two conventions are different: there is an image for which the first member of the detail
tuple of `MatrixWavedec2(separable=True)` is not the first member of the detail tuple of `wavedec2`, nor of
`MatrixWavedec2(separable=False)`. -/
theorem c44_differ {la : LinAlg ℝ} (hla : ExactLinAlg la) :
    ∃ (w : Wavelet ℝ) (x : Tensor ℝ) (ncfg scfg : DecCfgN ℝ) (nst sst : DecStateN ℝ) (c c' : Coeffs ℝ),
      OrthBank w 2 ∧
      decInitN 2 w (some 1) .none "qr" false none = .ok (ncfg, nst) ∧
      decInitN 2 w (some 1) .none "qr" true none = .ok (scfg, sst) ∧
      wavedec2 x w none (some 1) .none = .ok c ∧
      (decCallN 2 la ncfg nst x).1 = .ok c ∧
      (decCallN 2 la scfg sst x).1 = .ok c' ∧
      ∃ h v d h' v' d', c.items.getLast? = some (.tuple h v d) ∧ c'.items.getLast? = some (.tuple h' v' d') ∧ h ≠ h' := by
  have hax : GoodAxes .none ex44.rank 2 := ⟨by decide, rfl, ⟨by
    intro a ha
    have ha' : a = -2 ∨ a = -1 := by
      have : resolve .none 2 = [-2, -1] := by decide
      rw [this] at ha; simpa using ha
    rcases ha' with rfl | rfl <;> exact ⟨by decide, by decide⟩, by decide⟩⟩
  obtain ⟨ncfg, nst, scfg, sst, c, h1, h2, h3, h4, h5⟩ := c44_two_taps hla bank35_orth (x := ex44) (axes := .none)
    (m := .reflect) (mode := none) (orth := "qr") (level := some 1) hax (Or.inr rfl)
    (by intro k hk; have : k = 2 ∨ k = 2 := by simpa [ex44] using hk
        omega) (Or.inr ⟨rfl, rfl⟩) (Or.inl rfl) (by rintro _ ⟨⟩; norm_num) (L := 1) (by decide) (by omega)
  have hl : 2 ≤ c.items.length := by
    obtain ⟨m, _, hc⟩ := c16_wavedec2_textbook _ _ _ _ _ _ (by decide) rfl h3
    rw [hc.length]; decide
  obtain ⟨h, v, d, e1, ⟨s1, s2, s3⟩, hget⟩ := c16_orientation ex44 bank35 none .reflect _ .none c 0 1 (by decide) rfl (Or.inr ⟨rfl, rfl⟩)
    (by decide) hl h3
  refine ⟨bank35, ex44, ncfg, scfg, nst, sst, c, _, bank35_orth, h1, h2, h3, h4, h5, h, v, d, v, h, d, e1, ?_, ?_⟩
  · simp only [List.getLast?_map, e1]; rfl
  · intro e
    have hs : h.shape = [1, 1] := by rw [s1]; decide
    obtain ⟨q1, q2, -⟩ := hget [0, 0] (by rw [hs]; exact ⟨by omega, by omega, trivial⟩)
    rw [← e, q1] at q2
    have hsh : ex44.shape = [2, 2] := rfl
    have x0 : ∀ (v : Nat → ℝ), ext .reflect 2 v 0 = v 0 := fun v => ext_inside _ v (i := 0) (by omega)
    have x1 : ∀ (v : Nat → ℝ), ext .reflect 2 v 1 = v 1 := fun v => ext_inside _ v (i := 1) (by omega)
    have g00 : ex44.get [0, 0] = 0 := by unfold ex44; rw [ofFn_get_of _ _ (by exact ⟨by omega, by omega, trivial⟩)]; simp
    have g01 : ex44.get [0, 1] = 1 := by unfold ex44; rw [ofFn_get_of _ _ (by exact ⟨by omega, by omega, trivial⟩)]; simp
    have g10 : ex44.get [1, 0] = 0 := by unfold ex44; rw [ofFn_get_of _ _ (by exact ⟨by omega, by omega, trivial⟩)]; simp
    have g11 : ex44.get [1, 1] = 0 := by unfold ex44; rw [ofFn_get_of _ _ (by exact ⟨by omega, by omega, trivial⟩)]; simp
    simp [dwtStep, analysis, hsh, bank35, Finset.sum_range_succ, x0, x1, g00, g01, g10, g11] at q2
    norm_num at q2

/-! ### Packets -/

/-- The key with the letters `h` and `v` exchanged. -/
def exchangeLetters (key : Key) : Key := key.map fun c => if c = 'h' then 'v' else if c = 'v' then 'h' else c

theorem letterBandSwapped_eq (c : Char) :
    letterBandSwapped c = letterBand (if c = 'h' then 'v' else if c = 'v' then 'h' else c) := by
  unfold letterBandSwapped letterBand
  by_cases h1 : c = 'h'
  · subst h1; decide
  · by_cases h2 : c = 'v'
    · subst h2; decide
    · simp [h1, h2]

theorem packetPlane_exchange {R : Type} (step : List Bool → List Nat → (List Nat → R) → List Nat → R)
    (next : List Nat → List Nat) : ∀ (key : Key) (ns : List Nat) (X : List Nat → R),
    packetPlane step next letterBandSwapped ns X key = packetPlane step next letterBand ns X (exchangeLetters key)
  | [], _, _ => rfl
  | c :: k, ns, X => by
    show packetPlane step next letterBandSwapped (next ns) (step (letterBandSwapped c) ns X) k = _
    rw [packetPlane_exchange, letterBandSwapped_eq]
    rfl

/-- **C44**, packets.  Whatever was read before from either object: a coefficient of
`WaveletPacket2D(separable=True)` and the coefficient of `WaveletPacket2D(separable=False)` under the key
with `h` and `v` exchanged are the same tensor. -/
theorem c44_packets_agree {R : Type} [Semiring R] (w : Wavelet R) (mode : Option String) (axes : List Int) (m : Mode)
    (hm : Selects mode m) (hF : 2 ≤ w.len) (hhi : w.decHi.length = w.len)
    (st st' : Pkt Unit (Tensor R)) (x : Tensor R) (hdt : x.md.dtype = .float32 ∨ x.md.dtype = .float64)
    (ml : Option Int) (L : Int) (hL : PacketLevel2 w axes x ml L)
    (ops ops' : List (Backend.Op (Tensor R))) (ho : ∀ op ∈ ops, IsRead op) (ho' : ∀ op ∈ ops', IsRead op)
    (key : Key) (v v' : Tensor R)
    (h : ((packet2 w mode axes true).run st (.transform x ml :: ops ++ [.read key])).1.getLast? = some (.value v))
    (h' : ((packet2 w mode axes false).run st' (.transform x ml :: ops' ++ [.read (exchangeLetters key)])).1.getLast?
      = some (.value v')) : v = v' := by
  have hlen : (exchangeLetters key).length = key.length := by simp [exchangeLetters]
  rcases c25_2d_value w mode axes true m hm hF hhi st x hdt ml L hL ops ho key v h with ⟨h1, h2⟩ | ⟨h1, -, -, h4⟩ <;>
  rcases c25_2d_value w mode axes false m hm hF hhi st' x hdt ml L hL ops' ho' _ v' h' with ⟨k1, k2⟩ | ⟨k1, -, -, k4⟩
  · rw [h2, k2]
  · subst h1; exact absurd rfl k1
  · exact absurd (List.length_eq_zero_iff.mp (by rw [← hlen, k1]; rfl)) h1
  · rw [hlen] at k4
    refine alongAxes_unique h4 ?_
    have : packetBand true = letterBandSwapped := by funext c; rfl
    rw [this]
    have hb : packetBand false = letterBand := by funext c; rfl
    rw [hb] at k4
    simpa only [packetPlane_exchange] using k4

/-- **C44**, packets.  Every coefficient within the level and the sizes of the signal is there in both
objects, under exchanged keys. -/
theorem c44_packets_exchanged {R : Type} [Semiring R] (w : Wavelet R) (mode : Option String) (axes : List Int) (m : Mode)
    (hm : Selects mode m) (hF : 2 ≤ w.len) (hhi : w.decHi.length = w.len)
    (st st' : Pkt Unit (Tensor R)) (x : Tensor R) (hdt : x.md.dtype = .float32 ∨ x.md.dtype = .float64)
    (hax : GoodAxes (.seq axes) x.rank 2) (ml : Option Int) (L : Int) (hL : PacketLevel2 w axes x ml L)
    (ops ops' : List (Backend.Op (Tensor R))) (ho : ∀ op ∈ ops, IsRead op) (ho' : ∀ op ∈ ops', IsRead op)
    (key : Key) (hk : (key.length : Int) ≤ L) (hc : ∀ c ∈ key, c = 'a' ∨ c = 'h' ∨ c = 'v' ∨ c = 'd')
    (ha : LevelsAdmit m w.len (sizes (planeAxes axes x.rank) x.shape) key.length) :
    ∃ v, ((packet2 w mode axes true).run st (.transform x ml :: ops ++ [.read key])).1.getLast? = some (.value v) ∧
      ((packet2 w mode axes false).run st' (.transform x ml :: ops' ++ [.read (exchangeLetters key)])).1.getLast?
        = some (.value v) := by
  have hlen : (exchangeLetters key).length = key.length := by simp [exchangeLetters]
  have hc' : ∀ c ∈ exchangeLetters key, c = 'a' ∨ c = 'h' ∨ c = 'v' ∨ c = 'd' := by
    intro c hm
    obtain ⟨b, hb, rfl⟩ := List.mem_map.mp hm
    rcases hc b hb with rfl | rfl | rfl | rfl <;> decide
  obtain ⟨v, hv⟩ := c25_2d_readable w mode axes true m hm hF hhi st x ml L hL hax hdt ops ho key hk hc ha
  obtain ⟨v', hv'⟩ := c25_2d_readable w mode axes false m hm hF hhi st' x ml L hL hax hdt ops' ho' (exchangeLetters key)
    (by rw [hlen]; exact hk) hc' (by rw [hlen]; exact ha)
  obtain rfl := c44_packets_agree w mode axes m hm hF hhi st st' x hdt ml L hL ops ops' ho ho' key v v' hv hv'
  exact ⟨v, hv, hv'⟩

/-- A 2 × 2 image over ℚ. -/
def exPkt44 : Tensor ℚ := Tensor.ofFn ⟨.float64, 0⟩ [2, 2] fun idx => if idx = [0, 1] then 1 else 0

/-- **C44**, packets.  The exchange is visible: there is an image whose coefficient `h` depends on the
`separable` argument. -/
theorem c44_packets_differ (st st' : Pkt Unit (Tensor ℚ)) : ∃ (x v v' : Tensor ℚ),
    ((packet2 haar (some "zero") [-2, -1] true).run st [.transform x (some 1), .read ['h']]).1.getLast? = some (.value v) ∧
    ((packet2 haar (some "zero") [-2, -1] false).run st' [.transform x (some 1), .read ['h']]).1.getLast? = some (.value v') ∧
    v ≠ v' := by
  have hax : GoodAxes (.seq [-2, -1]) exPkt44.rank 2 := ⟨by decide, rfl, ⟨by
    intro a ha
    have ha' : a = -2 ∨ a = -1 := by simpa [resolve] using ha
    rcases ha' with rfl | rfl <;> exact ⟨by decide, by decide⟩, by decide⟩⟩
  have hadm : LevelsAdmit .zero haar.len (sizes (planeAxes [-2, -1] exPkt44.rank) exPkt44.shape) 1 := by
    intro s hs n hn
    have : n = 2 := by
      obtain rfl : s = 0 := by omega
      have : n ∈ [2, 2] := hn
      simpa using this
    subst this
    exact (by decide : 4 ≤ 2 + 2 + 2 % 2)
  have hc : ∀ c ∈ ['h'], c = 'a' ∨ c = 'h' ∨ c = 'v' ∨ c = 'd' := by simp
  have key : ∀ (sep : Bool) (st : Pkt Unit (Tensor ℚ)), ∃ v : Tensor ℚ,
      ((packet2 haar (some "zero") [-2, -1] sep).run st [.transform exPkt44 (some 1), .read ['h']]).1.getLast? = some (.value v) ∧
      v.get [0, 0] = bandN .zero haar (packetBand sep 'h') [2, 2] (plane exPkt44 [0, 1] [0, 0]) [0, 0] := by
    intro sep st
    obtain ⟨v, hv⟩ := c25_2d_readable haar (some "zero") [-2, -1] sep .zero (Or.inl rfl) (by decide) rfl st exPkt44 (some 1) 1
      (Or.inl rfl) hax (Or.inr rfl) [] (by simp) ['h'] (by decide) hc hadm
    refine ⟨v, hv, ?_⟩
    rcases c25_2d_value haar (some "zero") [-2, -1] sep .zero (Or.inl rfl) (by decide) rfl st exPkt44 (Or.inr rfl) (some 1) 1
      (Or.inl rfl) [] (by simp) ['h'] v hv with ⟨h, -⟩ | ⟨-, -, -, h⟩
    · cases h
    · have hs : v.shape = [1, 1] := by rw [h.shape]; decide
      rw [h.get [0, 0] (by rw [hs]; exact ⟨by omega, by omega, trivial⟩)]
      rfl
  obtain ⟨v, h1, h2⟩ := key true st
  obtain ⟨v', h3, h4⟩ := key false st'
  refine ⟨exPkt44, v, v', h1, h3, ?_⟩
  rintro rfl
  rw [h2] at h4
  revert h4
  decide +kernel

end Verif.Props
