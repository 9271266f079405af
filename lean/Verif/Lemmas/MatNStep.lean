/-
One step of the two- and three-dimensional matrix transforms: padding, products, splitting.
-/
import Verif.Lemmas.MatNFun
import Verif.Model.MatN

namespace Verif
open Tensor Spec
variable {R : Type}

theorem matrixPadSizes_eq (ns : List Nat) : matrixPadSizes ns = ns.map evenLen := by
  unfold matrixPadSizes
  apply List.map_congr_left
  intro n _
  unfold evenLen
  split_ifs <;> omega

theorem padLen_two (n : Nat) : padLen 2 n = evenLen n := by unfold padLen evenLen; omega

theorem padOk_two (m : Mode) {n : Nat} (h : 2 ≤ n) : PadOk m 2 n := by
  cases m <;> simp only [PadOk] <;> omega

theorem flatMap_flags (ns : List Nat) :
    oddPadding (matrixPadFlags ns) = (ns.reverse.map fun n => ((0 : Nat), n % 2)).flatMap fun p => [p.1, p.2] := by
  unfold oddPadding matrixPadFlags
  rw [← List.map_reverse, List.flatMap_map, List.flatMap_map]
  apply List.flatMap_congr
  intro n _
  by_cases h : n % 2 = 0
  · simp [h]
  · have : n % 2 = 1 := by omega
    simp [this]

/-- Padding odd axes. -/
theorem oddPad_ok [NonUnitalNonAssocSemiring R] {mode : Option String} {m : Mode} (hm : Selects mode m)
    {t : Tensor R} {md : Meta} {B : Nat} {ns : List Nat} {X : Nat → List Nat → R} (h : ShowsN t md B ns X)
    (hl : 1 ≤ ns.length) (h2 : ∀ n ∈ ns, 2 ≤ n) :
    ∃ u, fwtPadWith t mode (oddPadding (matrixPadFlags ns)) = .ok u ∧
      ShowsN u md B (ns.map evenLen) (fun b => evenExtN m ns (X b)) := by
  set w : Wavelet R := ⟨[0, 0], [0, 0], [0, 0], [0, 0]⟩ with hw
  have hF : w.len = 2 := rfl
  have hr : t.rank = ns.length + 1 := h.rank
  have hz : ∀ i, i < ns.length → t.sizeFromEnd (i + 1) = ns.getD (ns.length - 1 - i) 0 := by
    intro i hi
    unfold Tensor.sizeFromEnd
    rw [h.shape, List.length_cons]
    obtain ⟨k, hk⟩ : ∃ k, ns.length + 1 - (i + 1) = k + 1 := ⟨ns.length - 1 - i, by omega⟩
    rw [hk, List.getD_cons_succ]
    congr 1; omega
  obtain ⟨u, e, hu⟩ := fwtPad_ok (k := ns.length) (t := t) (w := w) m (le_refl 2) hl (by omega) (by
    intro i hi
    rw [hz i hi]
    apply padOk_two
    apply h2
    rw [List.getD_eq_getElem _ _ (by omega)]
    exact List.getElem_mem _)
  have hpp : padPairs t w.len ns.length = ns.reverse.map fun n => (2 - 2, 2 - 2 + n % 2) := by
    unfold padPairs
    apply List.ext_getElem (by simp)
    intro i h1 h2
    simp only [List.length_map, List.length_range] at h1
    simp only [List.getElem_map, List.getElem_range, List.getElem_reverse, hz i h1]
    rw [List.getD_eq_getElem _ _ (by omega)]
    rfl
  rw [← fwtPad_selects hm] at e
  unfold fwtPad at e
  rw [getPaddingN_eq (le_refl 2), hpp] at e
  rw [hpp, hr] at hu
  obtain ⟨h1, h3, h4⟩ := extChain_get (F := 2) (m := m) ns t u [B] [] (by
    simpa [Nat.add_comm, Nat.add_left_comm] using hu) (by simpa using h.shape)
  have he : ns.map (padLen 2) = ns.map evenLen := List.map_congr_left fun n _ => padLen_two n
  rw [he] at h3 h4
  refine ⟨u, ?_, h1.trans h.md, by simpa using h3, ?_⟩
  · rw [flatMap_flags]
    simpa using e
  · intro b ks hb hk
    have := h4 [b] ks [] ⟨hb, trivial⟩ hk trivial
    simp only [List.append_nil, List.singleton_append] at this
    rw [this]
    have e0 : (ks.map fun (i : Nat) => (i : ℤ) - ((2 - 2 : ℕ) : ℤ)) = ks.map fun (k : Nat) => (k : ℤ) := by
      apply List.map_congr_left; intro i _; simp
    rw [e0]
    exact evenExtN_congr m ns ks (by have := hk.length_eq; simpa using this)
      (fun n hn => by have := h2 n hn; omega) fun js hjs => h.get b js hb hjs

theorem any_flags (ns : List Nat) : (matrixPadFlags ns).any id = false → ns.map evenLen = ns := by
  intro h
  unfold matrixPadFlags at h
  rw [List.any_map] at h
  have h' : ∀ n ∈ ns, n % 2 = 0 := by
    intro n hn
    have := List.any_eq_false.mp h n hn
    simpa using this
  conv_rhs => rw [← List.map_id ns]
  apply List.map_congr_left
  intro n hn
  exact evenLen_of_even (h' n hn)

theorem addPadding2_ok [NonUnitalNonAssocSemiring R] {mode : Option String} {m : Mode} (hm : Selects mode m)
    {t : Tensor R} {md : Meta} {B : Nat} {ns : List Nat} {X : Nat → List Nat → R} (h : ShowsN t md B ns X)
    (hl : 1 ≤ ns.length) (h2 : ∀ n ∈ ns, 2 ≤ n) :
    ∃ u, addPadding2 mode t (matrixPadFlags ns) = .ok u ∧
      ShowsN u md B (ns.map evenLen) (fun b => evenExtN m ns (X b)) := by
  unfold addPadding2
  by_cases ha : (matrixPadFlags ns).any id = true
  · rw [if_pos ha]; exact oddPad_ok hm h hl h2
  · rw [if_neg ha]
    have he := any_flags ns (by simpa using ha)
    refine ⟨t, rfl, ?_⟩
    rw [he]
    exact h.congr fun b k _ hk => (evenExtN_inside m _ hk).symm

/-- A matrix along one axis. -/
theorem MulAlong.showsN [NonUnitalNonAssocSemiring R] {M : Nat → Nat → R} {r c i : Nat} {t z : Tensor R} {md : Meta}
    {B : Nat} {Ks : List Nat} {X : Nat → List Nat → R} (h : ShowsN t md B Ks X) (hi : i < Ks.length)
    (hc : Ks.getD i 0 = c) (hz : MulAlong M r c (i + 1) t z) :
    ShowsN z md B (Ks.set i r) (fun b ks => ∑ j ∈ Finset.range c, M (ks.getD i 0) j * X b (ks.set i j)) := by
  have hs : z.shape = B :: Ks.set i r := by rw [hz.shape, h.shape]; rfl
  refine ⟨hz.md.trans h.md, hs, ?_⟩
  intro b ks hb hk
  rw [hz.get (b :: ks) (by rw [hs]; exact ⟨hb, hk⟩)]
  refine Finset.sum_congr rfl fun j hj => ?_
  rw [Finset.mem_range] at hj
  show M (ks.getD i 0) j * t.get (b :: ks.set i j) = _
  rw [h.get b _ hb ((inB_set_iff hi hk).mpr (by rw [hc]; exact hj))]

theorem ShowsN.swap [Zero R] {t : Tensor R} {md : Meta} {B p q : Nat} {X : Nat → List Nat → R}
    (h : ShowsN t md B [p, q] X) :
    ShowsN (t.transpose 1 2) md B [q, p] (fun b ks => X b [ks.getD 1 0, ks.getD 0 0]) := by
  refine ⟨h.md, ?_, ?_⟩
  · show swp 1 2 t.shape = _
    rw [h.shape]; rfl
  · intro b ks hb hk
    match ks, hk with
    | [i, j], ⟨h1, h2, _⟩ =>
      rw [transpose_swp_get (by rw [h.shape]; exact ⟨hb, h1, h2, trivial⟩)]
      exact h.get b [j, i] hb ⟨h2, h1, trivial⟩

/-- The two products of a separable two-dimensional step. -/
theorem mul2_ok [NonUnitalNonAssocSemiring R] {C D : Coo R} {M N : Nat → Nat → R} {t : Tensor R} {md : Meta} {B p q : Nat}
    {X : Nat → List Nat → R} (h : ShowsN t md B [p, q] X) (hB : 1 ≤ B) (hp : 1 ≤ p) (hq : 1 ≤ q)
    (c1 : C.md = md) (c2 : C.rows = p) (c3 : C.cols = p) (c4 : ∀ i j, i < p → j < p → C.den i j = M i j)
    (d1 : D.md = md) (d2 : D.rows = q) (d3 : D.cols = q) (d4 : ∀ i j, i < q → j < q → D.den i j = N i j) :
    ∃ u v, batchMm D (t.transpose 1 2) = .ok u ∧ batchMm C (u.transpose 1 2) = .ok v ∧
      ShowsN v md B [p, q] (fun b => mulN [(M, p), (N, q)] (X b)) := by
  have hs := h.swap
  obtain ⟨u, eu, hu⟩ := batchMm_ok (A := D) (X := t.transpose 1 2) (b := B) (k := p)
    (by rw [hs.shape, d3]) (by rw [d1, hs.md]) (by omega) (by omega) hB
  have su := (MulAlong.showsN (i := 0) hs (by simp) (by rw [d3]; rfl) hu)
  rw [d2, d3] at su
  have su' := su.swap
  obtain ⟨v, ev, hv⟩ := batchMm_ok (A := C) (X := u.transpose 1 2) (b := B) (k := q)
    (by rw [su'.shape, c3]) (by rw [c1, su'.md]) (by omega) (by omega) hB
  have sv := (MulAlong.showsN (i := 0) su' (by simp) (by rw [c3]; rfl) hv)
  rw [c2, c3] at sv
  refine ⟨u, v, eu, ev, ?_⟩
  refine ShowsN.congr sv ?_
  intro b ks hb hk
  match ks, hk with
  | [k, l], ⟨h1, h2, _⟩ =>
    simp only [mulN]
    refine Finset.sum_congr rfl fun i hi => ?_
    rw [Finset.mem_range] at hi
    show C.den k i * (∑ j ∈ Finset.range q, D.den l j * X b [i, j]) = _
    rw [c4 k i h1 hi]
    congr 1
    refine Finset.sum_congr rfl fun j hj => ?_
    rw [Finset.mem_range] at hj
    rw [d4 l j h2 hj]

/-- `batchDimMm` along the axis `i` of `n` axes. -/
theorem mulDim_ok [NonUnitalNonAssocSemiring R] {C : Coo R} {t : Tensor R} {md : Meta} {B : Nat} {Ks : List Nat}
    {X : Nat → List Nat → R} (h : ShowsN t md B Ks X) {i : Nat} (hi : i < Ks.length) (hp : 1 ≤ Ks.getD i 0)
    (c1 : C.md = md) (c2 : C.rows = Ks.getD i 0) (c3 : C.cols = Ks.getD i 0) :
    ∃ z, batchDimMm C t (-((Ks.length - i : ℕ) : Int)) = .ok z ∧
      ShowsN z md B Ks (fun b ks => ∑ j ∈ Finset.range (Ks.getD i 0), C.den (ks.getD i 0) j * X b (ks.set i j)) := by
  obtain ⟨z, ez, hz⟩ := batchDimMm_ok (A := C) (X := t) (dim := -((Ks.length - i : ℕ) : Int)) (d := i + 1) (by
    rw [h.rank]
    unfold normAxis
    rw [if_neg (by omega), if_pos (by omega)]
    congr 1
    omega) (by rw [h.rank]; omega) (by rw [h.shape, c3]; rfl) (by rw [c1, h.md]) (by omega)
  refine ⟨z, ez, ?_⟩
  have := MulAlong.showsN h hi (by rw [c3]) hz
  rw [c2, c3, set_getD_self hi] at this
  exact this

/-- The three products of a three-dimensional step. -/
theorem mul3_ok [NonUnitalNonAssocSemiring R] {C D E : Coo R} {M N O : Nat → Nat → R} {t : Tensor R} {md : Meta} {B p q s : Nat}
    {X : Nat → List Nat → R} (h : ShowsN t md B [p, q, s] X) (hp : 1 ≤ p) (hq : 1 ≤ q) (hs : 1 ≤ s)
    (c1 : C.md = md) (c2 : C.rows = p) (c3 : C.cols = p) (c4 : ∀ i j, i < p → j < p → C.den i j = M i j)
    (d1 : D.md = md) (d2 : D.rows = q) (d3 : D.cols = q) (d4 : ∀ i j, i < q → j < q → D.den i j = N i j)
    (e1 : E.md = md) (e2 : E.rows = s) (e3 : E.cols = s) (e4 : ∀ i j, i < s → j < s → E.den i j = O i j) :
    ∃ v, mulDims 1 [E, D, C] t = .ok v ∧
      ShowsN v md B [p, q, s] (fun b => mulN [(M, p), (N, q), (O, s)] (X b)) := by
  obtain ⟨u1, f1, s1⟩ := mulDim_ok (C := E) h (i := 2) (by simp) (by simpa using hs) e1 (by simpa using e2) (by simpa using e3)
  obtain ⟨u2, f2, s2⟩ := mulDim_ok (C := D) s1 (i := 1) (by simp) (by simpa using hq) d1 (by simpa using d2) (by simpa using d3)
  obtain ⟨u3, f3, s3⟩ := mulDim_ok (C := C) s2 (i := 0) (by simp) (by simpa using hp) c1 (by simpa using c2) (by simpa using c3)
  refine ⟨u3, ?_, ?_⟩
  · have g1 : batchDimMm E t (-((1 : Nat) : Int)) = .ok u1 := f1
    have g2 : batchDimMm D u1 (-((1 + 1 : Nat) : Int)) = .ok u2 := f2
    have g3 : batchDimMm C u2 (-((1 + 1 + 1 : Nat) : Int)) = .ok u3 := f3
    simp only [mulDims, bind, Except.bind, g1, g2, g3]
  · refine ShowsN.congr s3 ?_
    intro b ks hb hk
    match ks, hk with
    | [k, l, r], ⟨h1, h2, h3, _⟩ =>
      simp only [mulN]
      show (∑ i ∈ Finset.range p, C.den k i * (∑ j ∈ Finset.range q, D.den l j *
        (∑ o ∈ Finset.range s, E.den r o * X b [i, j, o]))) = _
      refine Finset.sum_congr rfl fun i hi => ?_
      rw [Finset.mem_range] at hi
      rw [c4 k i h1 hi]
      congr 1
      refine Finset.sum_congr rfl fun j hj => ?_
      rw [Finset.mem_range] at hj
      rw [d4 l j h2 hj]
      congr 1
      refine Finset.sum_congr rfl fun o ho => ?_
      rw [Finset.mem_range] at ho
      rw [e4 r o h3 ho]

/-! ### Splitting -/

theorem ShowsN.slice [Zero R] {t : Tensor R} {md : Meta} {B i lo hi : Nat} {Ks : List Nat} {X : Nat → List Nat → R}
    (h : ShowsN t md B Ks X) (hi' : i < Ks.length) (hl : lo ≤ hi) (hh : hi ≤ Ks.getD i 0) :
    ShowsN (t.slice (i + 1) lo hi) md B (Ks.set i (hi - lo)) (fun b ks => X b (ks.set i (ks.getD i 0 + lo))) := by
  have hs : (t.slice (i + 1) lo hi).shape = B :: Ks.set i (hi - lo) := by
    show t.shape.set (i + 1) (min hi (t.shape.getD (i + 1) 0) - lo) = _
    rw [h.shape, List.getD_cons_succ, Nat.min_eq_left hh]
    rfl
  refine ⟨h.md, hs, ?_⟩
  intro b ks hb hk
  have hin : InB (t.shape.set (i + 1) (min hi (t.shape.getD (i + 1) 0) - lo)) (b :: ks) := by
    show InB (t.slice (i + 1) lo hi).shape _
    rw [hs]; exact ⟨hb, hk⟩
  unfold Tensor.slice
  rw [ofFn_get_of _ _ hin]
  show t.get (b :: ks.set i (ks.getD i 0 + lo)) = _
  refine h.get b _ hb ((inB_set_iff hi' hk).mpr ?_)
  have := inB_set_getD hi' hk
  omega

/-- The two halves along one axis. -/
theorem splitTwo_ok [Zero R] {t : Tensor R} {md : Meta} {B i n : Nat} {Ks : List Nat} {X : Nat → List Nat → R}
    (h : ShowsN t md B Ks X) (hi : i < Ks.length) (hn : Ks.getD i 0 = n + n) (h1 : 1 ≤ n) :
    ∃ u v, splitTwo t (i + 1) n = .ok (u, v) ∧ ShowsN u md B (Ks.set i n) X ∧
      ShowsN v md B (Ks.set i n) (fun b ks => X b (ks.set i (n + ks.getD i 0))) := by
  have hs : t.shape.getD (i + 1) 0 = n + n := by rw [h.shape]; exact hn
  refine ⟨t.slice (i + 1) 0 n, t.slice (i + 1) n (n + n), ?_, ?_, ?_⟩
  · unfold splitTwo
    rw [hs, if_neg (by omega), if_pos (by omega)]
  · have := h.slice (lo := 0) (hi := n) hi (by omega) (by omega)
    rw [Nat.sub_zero] at this
    refine this.congr fun b k _ hk => ?_
    rw [Nat.add_zero, set_getD_self (by have := hk.length_eq; rw [List.length_set] at this; omega)]
  · have := h.slice (lo := n) (hi := n + n) hi (by omega) (by omega)
    rw [Nat.add_sub_cancel] at this
    refine this.congr fun b k _ hk => ?_
    rw [Nat.add_comm]

end Verif
