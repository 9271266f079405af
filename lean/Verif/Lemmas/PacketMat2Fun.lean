import Verif.Lemmas.PacketMat2

/-! The two-dimensional packet object with boundary matrices: what one separable step computes. -/

namespace Verif
open Tensor Spec Props

theorem mem_setMany : ∀ (l ax ks : List Nat) {k : Nat}, k ∈ setMany l ax ks → k ∈ l ∨ k ∈ ks
  | l, [], ks, k, h => by cases ks <;> exact Or.inl h
  | l, a :: ax, [], k, h => Or.inl h
  | l, a :: ax, q :: ks, k, h => by
    rcases mem_setMany (l.set a q) ax ks h with h | h
    · rcases List.mem_or_eq_of_mem_set h with h | rfl
      · exact Or.inl h
      · exact Or.inr (by simp)
    · exact Or.inr (List.mem_cons_of_mem _ h)

theorem bandPos_length : ∀ (bs : List Bool) (ns ks : List Nat), bs.length = ns.length → ks.length = ns.length →
    (bandPos bs ns ks).length = ns.length
  | [], [], [], _, _ => rfl
  | b :: bs, n :: ns, k :: ks, h1, h2 => by
    simp [bandPos, bandPos_length bs ns ks (by simpa using h1) (by simpa using h2)]

theorem matBand_congr {R : Type} [NonUnitalNonAssocSemiring R] {m : Mode} {A : Nat → Nat → Nat → R} {bs : List Bool}
    {ns ks : List Nat} {X Y : List Nat → R} (h1 : bs.length = ns.length) (h2 : ks.length = ns.length)
    (hp : ∀ n ∈ ns, 0 < n) (h : ∀ js, InB ns js → X js = Y js) : matBand m A bs ns X ks = matBand m A bs ns Y ks := by
  rw [matBand_eq _ _ _ _ _ _ h1 h2, matBand_eq _ _ _ _ _ _ h1 h2]
  refine mulN_congr _ _ (by rw [bandPos_length _ _ _ h1 h2]; simp [anaMats]) ?_
  intro js hjs
  exact evenExtN_congr m ns js (by have := hjs.length_eq; simpa [anaMats] using this) hp h

theorem matBand_congrA {R : Type} [NonUnitalNonAssocSemiring R] {m : Mode} {A A' : Nat → Nat → Nat → R} {bs : List Bool}
    {ns ks : List Nat} {X : List Nat → R} (h1 : bs.length = ns.length) (h2 : ks.length = ns.length)
    (h : ∀ n ∈ ns, A (evenLen n) = A' (evenLen n)) : matBand m A bs ns X ks = matBand m A' bs ns X ks := by
  rw [matBand_eq _ _ _ _ _ _ h1 h2, matBand_eq _ _ _ _ _ _ h1 h2]
  have : anaMats A ns = anaMats A' ns := by
    unfold anaMats
    apply List.map_congr_left
    intro n hn
    rw [h n hn]
  rw [this]

section
variable {la : LinAlg ℝ} {w : Wavelet ℝ} {F : Nat} {orth : String} {axes : List Int} {md : Meta} {C : Nat → Coo ℝ}

/-- The tensors the transforms accept. -/
def Dom2 (md : Meta) (t : Tensor ℝ) : Prop :=
  t.md = md ∧ isDtypeSupported t.md.dtype = true ∧ ∀ n ∈ t.shape, 0 < n

theorem sizes_mem_shape {axes : List Int} {t : Tensor ℝ} (hg : GoodAxes (.seq axes) t.rank 2) :
    ∀ n ∈ sizes (axesOf (.seq axes) t.rank 2) t.shape, n ∈ t.shape := by
  intro n hn
  unfold sizes at hn
  rw [List.mem_map] at hn
  obtain ⟨a, ha, rfl⟩ := hn
  have : a < t.shape.length := hg.lt a ha
  rw [List.getD_eq_getElem _ _ this]
  exact List.getElem_mem this

/-- One analysis step and its inverse, completely. -/
theorem matDec2_sep_char (hla : ExactLinAlg la) (hw : OrthBank w F) (ho : orth = "qr" ∨ orth = "gramschmidt")
    (hind : ∀ k, k % 2 = 0 → F ≤ k → BoundaryIndep w F k) (hC : HasMats la w F orth md C) {t : Tensor ℝ}
    (ht : Dom2 md t) :
    (¬ (GoodAxes (.seq axes) t.rank 2 ∧ ∀ n ∈ sizes (axesOf (.seq axes) t.rank 2) t.shape, F ≤ n) →
      ∃ e, matDec2 la w orth axes true t = .error e) ∧
    (GoodAxes (.seq axes) t.rank 2 → (∀ n ∈ sizes (axesOf (.seq axes) t.rank 2) t.shape, F ≤ n) →
      ∃ (f : Char → Tensor ℝ) (z : Tensor ℝ), matDec2 la w orth axes true t = .ok (['a', 'h', 'v', 'd'].map f) ∧
        (∀ c ∈ ['a', 'h', 'v', 'd'],
          AlongAxes (axesOf (.seq axes) t.rank 2) (halfLens (sizes (axesOf (.seq axes) t.rank 2) t.shape))
            (matBand .zero (fun k => (C k).den) (packetBand true c) (sizes (axesOf (.seq axes) t.rank 2) t.shape))
            t (f c)) ∧
        matSyn2 la w orth axes true (['a', 'h', 'v', 'd'].map f) = .ok z ∧
        Reconstructs (axesOf (.seq axes) t.rank 2) 1 t z ∧ EvenPaddedN .zero (axesOf (.seq axes) t.rank 2) t z) := by
  obtain ⟨rfl, hdt, hpos⟩ := ht
  by_cases hg : GoodAxes (.seq axes) t.rank 2
  swap
  · refine ⟨fun _ => ?_, fun h => absurd h hg⟩
    cases hr : matDec2 la w orth axes true t with
    | error e => exact ⟨e, rfl⟩
    | ok vs =>
      exfalso
      obtain ⟨cfg, st, c, h0, h1, -⟩ := matDec2_ok hr
      have hax : cfg.axes = axes := by
        unfold decInitN at h0
        split at h0
        · cases h0
        · rename_i as has
          split_ifs at h0
          cases h0
          rw [ensureAxes_eq (by omega)] at has
          split_ifs at has
          cases has
          rfl
      obtain ⟨e, he⟩ := c43_bad_input 2 la cfg st t (by rw [hax]; exact fun h => hg h.1)
      rw [he] at h1
      cases h1
  set ax := axesOf (.seq axes) t.rank 2 with hax
  set ns := sizes ax t.shape with hns
  have hl2 : ax.length = 2 := axesOf_length hg
  have hnl : ns.length = 2 := by rw [hns]; simpa [sizes] using hl2
  obtain ⟨dcfg, dst, rcfg, rst, C', c, z, h1, h2, h3, h4, h5, h6, h7, h8⟩ :=
    c43_roundtrip2 hla hw (x := t) (axes := .seq axes) (m := .zero) (mode := some "zero") (orth := orth) (level := some 1)
      hg (by unfold isDtypeSupported at hdt; simpa using hdt) hpos (Or.inl rfl) ho (by rintro _ ⟨⟩; exact le_rfl)
      (fun k a b _ => hind k a b) rfl
  rw [show levelsN (some 1) F (sizes (axesOf (.seq axes) t.rank 2) t.shape) = 1 from rfl] at h5 h7 h8
  have hdec : matDec2 la w orth axes true t = unpack2 c := by
    unfold matDec2
    rw [planeSizes_ok hg]
    simp only [h1]
    show ((decCallN 2 la dcfg dst t).1).bind unpack2 = _
    rw [h4]; rfl
  by_cases hF : ∀ n ∈ ns, F ≤ n
  swap
  · refine ⟨fun _ => ?_, fun _ h => absurd h hF⟩
    have : mLevelsN F 1 ns = 0 := by
      unfold mLevelsN
      rw [if_pos (by push Not at hF; exact hF)]
    rw [this] at h5
    have hl := h5.length
    obtain ⟨i0, hi⟩ := List.length_eq_one_iff.mp hl
    refine ⟨.assertionError, ?_⟩
    rw [hdec]
    unfold unpack2
    rw [hi]
    cases i0 <;> rfl
  refine ⟨fun h => absurd ⟨hg, hF⟩ h, fun _ _ => ?_⟩
  have hml : mLevelsN F 1 ns = 1 := by
    unfold mLevelsN
    rw [if_neg (by push Not; exact hF)]
    rfl
  rw [hml] at h5 h7 h8
  obtain ⟨hk, hl, ⟨a, ha, hA⟩, hd⟩ := h5
  obtain ⟨e, he, hh, vv, dd, rfl, b1, b2, b3⟩ := hd 0 (by omega)
  obtain ⟨i0, i1, hi⟩ := List.length_eq_two.mp hl
  rw [hi] at ha he
  simp only [List.getElem?_cons_zero, Option.some.injEq] at ha
  simp only [Nat.sub_zero, List.getElem?_cons_succ, List.getElem?_cons_zero, Option.some.injEq] at he
  subst ha he
  have hCC : ∀ n ∈ ns, (C' (evenLen n)).den = (C (evenLen n)).den := by
    intro n hn
    have g := le_evenLen n
    have g2 := hF n hn
    have e1 := (h3 (evenLen n) (evenLen_even n) (by omega) ⟨n, hn, le_rfl⟩).1
    rw [hC (evenLen n) (evenLen_even n) (by omega)] at e1
    rw [Except.ok.inj e1]
  have hone : ∀ (b : List Bool) (u : Tensor ℝ), b.length = 2 →
      AlongAxes ax (mLens ns 1) (fun X => matBand .zero (fun k => (C' k).den) b ns X) t u →
      AlongAxes ax (halfLens ns) (matBand .zero (fun k => (C k).den) b ns) t u := by
    intro b u hb hu
    rw [mLens_succ, mLens_zero] at hu
    refine ⟨hu.md, hu.shape, fun idx hidx => ?_⟩
    rw [hu.get idx hidx]
    refine matBand_congrA (A := fun k => (C' k).den) (A' := fun k => (C k).den) (by rw [hb, hnl]) ?_ hCC
    have : (sizes ax idx).length = 2 := by simpa [sizes] using hl2
    rw [this, hnl]
  refine ⟨fun c => if c = 'h' then hh else if c = 'v' then vv else if c = 'd' then dd else a, z, ?_, ?_, ?_, h7,
    h8 (by omega)⟩
  · rw [hdec]
    unfold unpack2
    simp [hi]
  · intro c hcm
    simp only [List.mem_cons, List.not_mem_nil, or_false] at hcm
    rcases hcm with rfl | rfl | rfl | rfl
    · refine hone [false, false] a rfl ?_
      have : (fun X => bandA (matBand .zero (fun k => (C' k).den)) ns X 1)
          = fun X => matBand .zero (fun k => (C' k).den) [false, false] ns X := by
        funext X
        show matBand _ _ (lowBand ns.length) ns X = _
        rw [hnl]; rfl
      rw [← this]
      exact hA
    · exact hone [false, true] hh rfl b1
    · exact hone [true, false] vv rfl b2
    · exact hone [true, true] dd rfl b3
  · have har : a.rank = t.rank := hA.rank
    have : (['a', 'h', 'v', 'd'].map fun c => if c = 'h' then hh else if c = 'v' then vv else if c = 'd' then dd else a)
        = [a, hh, vv, dd] := by simp
    rw [this]
    unfold matSyn2
    simp only
    rw [planeSizes_ok (by rw [har]; exact hg)]
    simp only [h2]
    show (recCallN 2 la rcfg rst ⟨false, [.tensor a, .tuple hh vv dd]⟩).1 = _
    rw [← h6, ← hi, ← hk]

theorem packetMat2_step (hla : ExactLinAlg la) (hw : OrthBank w F) (ho : orth = "qr" ∨ orth = "gramschmidt")
    (hind : ∀ k, k % 2 = 0 → F ≤ k → BoundaryIndep w F k) (hC : HasMats la w F orth md C) :
    Step2 axes (Dom2 md) (fun ns => ∀ n ∈ ns, F ≤ n) (matBand .zero (fun k => (C k).den)) halfLens (packetBand true)
      (matDec2 la w orth axes true) := by
  have h2 := hw.two_le
  have key : ∀ t vs, Dom2 md t → matDec2 la w orth axes true t = .ok vs →
      GoodAxes (.seq axes) t.rank 2 ∧ ∀ n ∈ sizes (axesOf (.seq axes) t.rank 2) t.shape, F ≤ n := by
    intro t vs ht hd
    by_contra hn
    obtain ⟨e, he⟩ := (matDec2_sep_char hla hw ho hind hC ht).1 hn
    rw [he] at hd; cases hd
  constructor
  · intro t vs ht hd
    obtain ⟨hg, hF⟩ := key t vs ht hd
    obtain ⟨f, z, e, hf, -⟩ := (matDec2_sep_char hla hw ho hind hC ht).2 hg hF
    rw [e] at hd
    cases hd
    exact ⟨hg, hF, f, rfl, hf⟩
  · intro t vs ht hd v hv
    obtain ⟨hg, hF⟩ := key t vs ht hd
    obtain ⟨f, z, e, hf, -⟩ := (matDec2_sep_char hla hw ho hind hC ht).2 hg hF
    rw [e] at hd
    cases hd
    obtain ⟨c, hc, rfl⟩ := List.mem_map.mp hv
    have hfc := hf c hc
    obtain ⟨h3, h4, h5⟩ := ht
    refine ⟨hfc.md.trans h3, by rw [hfc.md]; exact h4, ?_⟩
    intro n hn
    rw [hfc.shape] at hn
    rcases mem_setMany _ _ _ hn with h | h
    · exact h5 n h
    · unfold halfLens at h
      obtain ⟨q, hq, rfl⟩ := List.mem_map.mp h
      have := hF q hq
      have := le_evenLen q
      omega
  · intro t ht hg hF
    obtain ⟨f, z, e, -⟩ := (matDec2_sep_char hla hw ho hind hC ht).2 hg hF
    exact ⟨_, e⟩
  · intro ns hns hF c X Y hXY ks hks
    refine matBand_congr (by rw [packetBand_length, hns]) ?_ (fun n hn => by have := hF n hn; omega) hXY
    rw [hks.length_eq, halfLens_length]
  · exact halfLens_length

theorem matDec2_sep_inverts (hla : ExactLinAlg la) (hw : OrthBank w F) (ho : orth = "qr" ∨ orth = "gramschmidt")
    (hind : ∀ k, k % 2 = 0 → F ≤ k → BoundaryIndep w F k) {x : Tensor ℝ} (hx : Dom2 md x) :
    InvertsFrom ['a', 'h', 'v', 'd'] x (matDec2 la w orth axes true) (matSyn2 la w orth axes true) (fit2 axes) := by
  intro k v vs hwk hd
  obtain ⟨C, hC⟩ := hasMats_exists hla hw ho hind md
  have hv := walk2_dom (packetMat2_step (axes := axes) hla hw ho hind hC) k hx hwk
  have hg : GoodAxes (.seq axes) v.rank 2 ∧ ∀ n ∈ sizes (axesOf (.seq axes) v.rank 2) v.shape, F ≤ n := by
    by_contra hn
    obtain ⟨e, he⟩ := (matDec2_sep_char hla hw ho hind hC hv).1 hn
    rw [he] at hd; cases hd
  obtain ⟨f, z, e, hf, hs, hz, -⟩ := (matDec2_sep_char hla hw ho hind hC hv).2 hg.1 hg.2
  rw [e] at hd
  cases hd
  exact ⟨z, hs, fit2_inverts hg.1 hz⟩

end
end Verif
