import Verif.Lemmas.PacketMat2Fun
import Verif.Props.MatNonsep

/-! The two-dimensional packet object with boundary matrices: what one non-separable step computes. -/

namespace Verif
open Tensor Spec Props

theorem nonsepBand_congr {R : Type} [NonUnitalNonAssocSemiring R] {m : Mode} {A : Nat → Nat → Nat → Nat → R}
    {bs : List Bool} {ns ks : List Nat} {X Y : List Nat → R} (h1 : ns.length = 2) (h2 : ks.length = 2)
    (hp : ∀ n ∈ ns, 0 < n) (h : ∀ js, InB ns js → X js = Y js) : nonsepBand m A bs ns X ks = nonsepBand m A bs ns Y ks := by
  match ns, ks, h1, h2 with
  | [p, q], [r, s], _, _ =>
  unfold nonsepBand
  refine Finset.sum_congr rfl fun j _ => ?_
  congr 1
  exact evenExtN_congr m [p, q] [j % evenLen p, j / evenLen p] rfl hp h

theorem nonsepBand_congrA {R : Type} [NonUnitalNonAssocSemiring R] {m : Mode} {A A' : Nat → Nat → Nat → Nat → R}
    {bs : List Bool} {ns ks : List Nat} {X : List Nat → R}
    (h : ∀ p q, ns = [p, q] → A (evenLen p) (evenLen q) = A' (evenLen p) (evenLen q)) :
    nonsepBand m A bs ns X ks = nonsepBand m A' bs ns X ks := by
  match ns, ks with
  | [p, q], [r, s] =>
    simp only [nonsepBand]
    rw [h p q rfl]
  | [], _ => rfl
  | [_], _ => rfl
  | _ :: _ :: _ :: _, _ => rfl
  | [_, _], [] => rfl
  | [_, _], [_] => rfl
  | [_, _], _ :: _ :: _ :: _ => rfl

section
variable {la : LinAlg ℝ} {w : Wavelet ℝ} {F : Nat} {orth : String} {axes : List Int} {md : Meta} {C : Nat → Nat → Coo ℝ}

/-- The matrices exist for all even sizes that are not smaller than the filters. -/
def HasMats2 (la : LinAlg ℝ) (w : Wavelet ℝ) (F : Nat) (orth : String) (md : Meta) (C : Nat → Nat → Coo ℝ) : Prop :=
  ∀ p q, p % 2 = 0 → q % 2 = 0 → F ≤ p → F ≤ q → constructBoundaryA2 la w md p q orth = .ok (C p q)

theorem hasMats2_exists (hla : ExactLinAlg la) (hw : OrthBank w F) (ho : orth = "qr" ∨ orth = "gramschmidt")
    (hind : ∀ k, k % 2 = 0 → F ≤ k → BoundaryIndep w F k) (md : Meta) : ∃ C, HasMats2 la w F orth md C := by
  have h2 := hw.two_le
  have key : ∀ p q, ∃ c, p % 2 = 0 → q % 2 = 0 → F ≤ p → F ≤ q → constructBoundaryA2 la w md p q orth = .ok c := by
    intro p q
    by_cases h : p % 2 = 0 ∧ q % 2 = 0 ∧ F ≤ p ∧ F ≤ q
    · obtain ⟨h1, h2', h3, h4⟩ := h
      obtain ⟨A, _, e, _⟩ := c50_matrix hla md hw h1 h2' (by omega) (by omega) (hind p h1 h3) (hind q h2' h4) ho
      exact ⟨A, fun _ _ _ _ => e⟩
    · exact ⟨⟨md, 0, 0, [], by simp⟩, fun a b c d => absurd ⟨a, b, c, d⟩ h⟩
  choose C hC using key
  exact ⟨C, hC⟩

/-- One analysis step and its inverse, completely. -/
theorem matDec2_nonsep_char (hla : ExactLinAlg la) (hw : OrthBank w F) (ho : orth = "qr" ∨ orth = "gramschmidt")
    (hind : ∀ k, k % 2 = 0 → F ≤ k → BoundaryIndep w F k) (hC : HasMats2 la w F orth md C) {t : Tensor ℝ}
    (ht : Dom2 md t) :
    (¬ (GoodAxes (.seq axes) t.rank 2 ∧ ∀ n ∈ sizes (axesOf (.seq axes) t.rank 2) t.shape, F ≤ n) →
      ∃ e, matDec2 la w orth axes false t = .error e) ∧
    (GoodAxes (.seq axes) t.rank 2 → (∀ n ∈ sizes (axesOf (.seq axes) t.rank 2) t.shape, F ≤ n) →
      ∃ (f : Char → Tensor ℝ) (z : Tensor ℝ), matDec2 la w orth axes false t = .ok (['a', 'h', 'v', 'd'].map f) ∧
        (∀ c ∈ ['a', 'h', 'v', 'd'],
          AlongAxes (axesOf (.seq axes) t.rank 2) (halfLens (sizes (axesOf (.seq axes) t.rank 2) t.shape))
            (nonsepBand .zero (fun p q => (C p q).den) (packetBand false c) (sizes (axesOf (.seq axes) t.rank 2) t.shape))
            t (f c)) ∧
        matSyn2 la w orth axes false (['a', 'h', 'v', 'd'].map f) = .ok z ∧
        Reconstructs (axesOf (.seq axes) t.rank 2) 1 t z ∧ EvenPaddedN .zero (axesOf (.seq axes) t.rank 2) t z) := by
  obtain ⟨rfl, hdt, hpos⟩ := ht
  by_cases hg : GoodAxes (.seq axes) t.rank 2
  swap
  · refine ⟨fun _ => ?_, fun h => absurd h hg⟩
    cases hr : matDec2 la w orth axes false t with
    | error e => exact ⟨e, rfl⟩
    | ok vs =>
      exfalso
      obtain ⟨cfg, st, c, h0, h1, -⟩ := matDec2_ok hr
      have hax : cfg.axes = axes := by
        unfold decInitN at h0
        split at h0
        · cases h0
        · rename_i as has
          split_ifs at h0
          cases h0
          rw [ensureAxes_eq (by omega)] at has
          split_ifs at has
          cases has
          rfl
      obtain ⟨e, he⟩ := c43_bad_input 2 la cfg st t (by rw [hax]; exact fun h => hg h.1)
      rw [he] at h1
      cases h1
  set ax := axesOf (.seq axes) t.rank 2 with hax
  set ns := sizes ax t.shape with hns
  have hl2 : ax.length = 2 := axesOf_length hg
  have hnl : ns.length = 2 := by rw [hns]; simpa [sizes] using hl2
  have hdt' : t.md.dtype = .float32 ∨ t.md.dtype = .float64 := by
    unfold isDtypeSupported at hdt; simpa using hdt
  have hdec : ∀ dcfg dst, decInitN 2 w (some 1) (.seq axes) orth false (some "zero") = .ok (dcfg, dst) →
      matDec2 la w orth axes false t = ((decCallN 2 la dcfg dst t).1).bind unpack2 := by
    intro dcfg dst h1
    unfold matDec2
    rw [planeSizes_ok hg]
    simp only [h1]
    rfl
  by_cases hF : ∀ n ∈ ns, F ≤ n
  swap
  · refine ⟨fun _ => ?_, fun _ h => absurd h hF⟩
    obtain ⟨dcfg, dst, h1, h2, -⟩ :=
      c50_errors hla hw (x := t) (axes := .seq axes) (mode := some "zero") (orth := orth) (level := some 1)
        hg hdt' (fun n hn => hpos n (sizes_mem_shape hg n hn)) ho (by rintro _ ⟨⟩; exact le_rfl)
        (fun k a b _ => hind k a b)
    refine ⟨.unboundLocalError, ?_⟩
    rw [hdec dcfg dst h1, h2 hpos ?_]
    · rfl
    · rw [show levelsN (some 1) F (sizes (axesOf (.seq axes) t.rank 2) t.shape) = 1 from rfl]
      unfold mLevelsN
      rw [if_pos (by push Not at hF; exact hF)]
  refine ⟨fun h => absurd ⟨hg, hF⟩ h, fun _ _ => ?_⟩
  have hml : mLevelsN F 1 ns = 1 := by
    unfold mLevelsN
    rw [if_neg (by push Not; exact hF)]
    rfl
  obtain ⟨dcfg, dst, rcfg, rst, C', c, z, h1, h2, h3, h4, h5, h6, h7, h8⟩ :=
    c50_roundtrip hla hw (x := t) (axes := .seq axes) (m := .zero) (mode := some "zero") (orth := orth) (level := some 1)
      hg hdt' hpos (Or.inl rfl) ho (by rintro _ ⟨⟩; exact le_rfl)
      (fun k a b _ => hind k a b) (L := 1) hml.symm (by omega)
  have hdec : matDec2 la w orth axes false t = unpack2 c := by
    rw [hdec dcfg dst h1, h4]
    rfl
  obtain ⟨hk, hl, ⟨a, ha, hA⟩, hd⟩ := h5
  obtain ⟨e, he, hh, vv, dd, rfl, b1, b2, b3⟩ := hd 0 (by omega)
  obtain ⟨i0, i1, hi⟩ := List.length_eq_two.mp hl
  rw [hi] at ha he
  simp only [List.getElem?_cons_zero, Option.some.injEq] at ha
  simp only [Nat.sub_zero, List.getElem?_cons_succ, List.getElem?_cons_zero, Option.some.injEq] at he
  subst ha he
  have hCC : ∀ p q, ns = [p, q] → (C' (evenLen p) (evenLen q)).den = (C (evenLen p) (evenLen q)).den := by
    intro p q hpq
    have g := le_evenLen p
    have g' := le_evenLen q
    have mp : p ∈ ns := by rw [hpq]; simp
    have mq : q ∈ ns := by rw [hpq]; simp
    have g2 := hF p mp
    have g3 := hF q mq
    have e1 := (h3 (evenLen p) (evenLen q) (evenLen_even p) (evenLen_even q) (by omega) (by omega)
      ⟨p, mp, le_rfl⟩ ⟨q, mq, le_rfl⟩).1
    rw [hC (evenLen p) (evenLen q) (evenLen_even p) (evenLen_even q) (by omega) (by omega)] at e1
    rw [Except.ok.inj e1]
  have hone : ∀ (b : List Bool) (u : Tensor ℝ), b.length = 2 →
      AlongAxes ax (mLens ns 1) (fun X => nonsepBand .zero (fun p q => (C' p q).den) b ns X) t u →
      AlongAxes ax (halfLens ns) (nonsepBand .zero (fun p q => (C p q).den) b ns) t u := by
    intro b u hb hu
    rw [mLens_succ, mLens_zero] at hu
    refine ⟨hu.md, hu.shape, fun idx hidx => ?_⟩
    rw [hu.get idx hidx]
    exact nonsepBand_congrA (A := fun p q => (C' p q).den) (A' := fun p q => (C p q).den) hCC
  refine ⟨fun c => if c = 'h' then hh else if c = 'v' then vv else if c = 'd' then dd else a, z, ?_, ?_, ?_, h7, h8⟩
  · rw [hdec]
    unfold unpack2
    simp [hi]
  · intro c hcm
    simp only [List.mem_cons, List.not_mem_nil, or_false] at hcm
    rcases hcm with rfl | rfl | rfl | rfl
    · refine hone [false, false] a rfl ?_
      have : (fun X => bandA (nonsepBand .zero (fun p q => (C' p q).den)) ns X 1)
          = fun X => nonsepBand .zero (fun p q => (C' p q).den) [false, false] ns X := by
        funext X
        simp only [bandA]
        rw [hnl]; rfl
      rw [← this]
      exact hA
    · exact hone [true, false] hh rfl b1
    · exact hone [false, true] vv rfl b2
    · exact hone [true, true] dd rfl b3
  · have har : a.rank = t.rank := hA.rank
    have : (['a', 'h', 'v', 'd'].map fun c => if c = 'h' then hh else if c = 'v' then vv else if c = 'd' then dd else a)
        = [a, hh, vv, dd] := by simp
    rw [this]
    unfold matSyn2
    simp only
    rw [planeSizes_ok (by rw [har]; exact hg)]
    simp only [h2]
    show (recCallN 2 la rcfg rst ⟨false, [.tensor a, .tuple hh vv dd]⟩).1 = _
    rw [← h6, ← hi, ← hk]

theorem packetMat2_nonsep_step (hla : ExactLinAlg la) (hw : OrthBank w F) (ho : orth = "qr" ∨ orth = "gramschmidt")
    (hind : ∀ k, k % 2 = 0 → F ≤ k → BoundaryIndep w F k) (hC : HasMats2 la w F orth md C) :
    Step2 axes (Dom2 md) (fun ns => ∀ n ∈ ns, F ≤ n) (nonsepBand .zero (fun p q => (C p q).den)) halfLens (packetBand false)
      (matDec2 la w orth axes false) := by
  have h2 := hw.two_le
  have key : ∀ t vs, Dom2 md t → matDec2 la w orth axes false t = .ok vs →
      GoodAxes (.seq axes) t.rank 2 ∧ ∀ n ∈ sizes (axesOf (.seq axes) t.rank 2) t.shape, F ≤ n := by
    intro t vs ht hd
    by_contra hn
    obtain ⟨e, he⟩ := (matDec2_nonsep_char hla hw ho hind hC ht).1 hn
    rw [he] at hd; cases hd
  constructor
  · intro t vs ht hd
    obtain ⟨hg, hF⟩ := key t vs ht hd
    obtain ⟨f, z, e, hf, -⟩ := (matDec2_nonsep_char hla hw ho hind hC ht).2 hg hF
    rw [e] at hd
    cases hd
    exact ⟨hg, hF, f, rfl, hf⟩
  · intro t vs ht hd v hv
    obtain ⟨hg, hF⟩ := key t vs ht hd
    obtain ⟨f, z, e, hf, -⟩ := (matDec2_nonsep_char hla hw ho hind hC ht).2 hg hF
    rw [e] at hd
    cases hd
    obtain ⟨c, hc, rfl⟩ := List.mem_map.mp hv
    have hfc := hf c hc
    obtain ⟨h3, h4, h5⟩ := ht
    refine ⟨hfc.md.trans h3, by rw [hfc.md]; exact h4, ?_⟩
    intro n hn
    rw [hfc.shape] at hn
    rcases mem_setMany _ _ _ hn with h | h
    · exact h5 n h
    · unfold halfLens at h
      obtain ⟨q, hq, rfl⟩ := List.mem_map.mp h
      have := hF q hq
      have := le_evenLen q
      omega
  · intro t ht hg hF
    obtain ⟨f, z, e, -⟩ := (matDec2_nonsep_char hla hw ho hind hC ht).2 hg hF
    exact ⟨_, e⟩
  · intro ns hns hF c X Y hXY ks hks
    exact nonsepBand_congr hns (by rw [hks.length_eq, halfLens_length, hns]) (fun n hn => by have := hF n hn; omega) hXY
  · exact halfLens_length

theorem matDec2_nonsep_inverts (hla : ExactLinAlg la) (hw : OrthBank w F) (ho : orth = "qr" ∨ orth = "gramschmidt")
    (hind : ∀ k, k % 2 = 0 → F ≤ k → BoundaryIndep w F k) {x : Tensor ℝ} (hx : Dom2 md x) :
    InvertsFrom ['a', 'h', 'v', 'd'] x (matDec2 la w orth axes false) (matSyn2 la w orth axes false) (fit2 axes) := by
  intro k v vs hwk hd
  obtain ⟨C, hC⟩ := hasMats2_exists hla hw ho hind md
  have hv := walk2_dom (packetMat2_nonsep_step (axes := axes) hla hw ho hind hC) k hx hwk
  have hg : GoodAxes (.seq axes) v.rank 2 ∧ ∀ n ∈ sizes (axesOf (.seq axes) v.rank 2) v.shape, F ≤ n := by
    by_contra hn
    obtain ⟨e, he⟩ := (matDec2_nonsep_char hla hw ho hind hC hv).1 hn
    rw [he] at hd; cases hd
  obtain ⟨f, z, e, hf, hs, hz, -⟩ := (matDec2_nonsep_char hla hw ho hind hC hv).2 hg.1 hg.2
  rw [e] at hd
  cases hd
  exact ⟨z, hs, fit2_inverts hg.1 hz⟩

end
end Verif
