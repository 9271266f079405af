/-
The reconstruction loops of the two- and three-dimensional matrix transforms.
-/
import Verif.Lemmas.MatNDec

namespace Verif
open Tensor Spec
variable {R : Type}

/-- The reconstruction loop, followed by the entries `fin`. -/
def recLoopT [Zero R] {α : Type} (step : Option α → Tensor R → Entry R → List (Entry R) → Except Err (Tensor R))
    (fin : List (Entry R)) : List α → Tensor R → List (Entry R) → Except Err (Tensor R)
  | _, t, [] => .ok t
  | ms, t, e :: rest => (step ms.head? t e (rest ++ fin)).bind fun r => recLoopT step fin ms.tail r rest

theorem mrec2Loop_eq [NonUnitalNonAssocSemiring R] (sep : Bool) (B : Nat) : ∀ (es : List (Entry R)) (ms : List (List (Coo R)))
    (t : Tensor R), mrec2Loop sep B ms t es = recLoopT (mrec2Step sep B) [] ms t es
  | [], _, _ => by unfold mrec2Loop recLoopT; rfl
  | e :: es, ms, t => by
    unfold mrec2Loop recLoopT
    rw [List.append_nil]
    simp only [mrec2Loop_eq sep B es]
    rfl

theorem mrec3Loop_eq [NonUnitalNonAssocSemiring R] (mats : List (List (Coo R))) : ∀ (es : List (Entry R)) (k : Nat)
    (t : Tensor R), es.length ≤ k → k ≤ mats.length →
    mrec3Loop mats k t es = recLoopT (fun ms t e _ => mrec3Step ms t e) [] (mats.take k).reverse t es
  | [], _, _, _, _ => by unfold mrec3Loop recLoopT; rfl
  | e :: es, k, t, h1, h2 => by
    rw [List.length_cons] at h1
    obtain ⟨k, rfl⟩ : ∃ k', k = k' + 1 := ⟨k - 1, by omega⟩
    have e1 : (mats.take (k + 1)).reverse = mats[k] :: (mats.take k).reverse := by
      rw [List.take_succ_eq_append_getElem (by omega), List.reverse_append]; rfl
    unfold mrec3Loop recLoopT
    rw [e1, List.head?_cons, List.tail_cons, Nat.add_sub_cancel]
    have e2 : mats[k]? = some mats[k] := List.getElem?_eq_getElem (by omega)
    rw [e2]
    simp only [mrec3Loop_eq mats es k _ (by omega) (by omega)]
    rfl

theorem recLoopT_snoc [Zero R] {α : Type}
    (step : Option α → Tensor R → Entry R → List (Entry R) → Except Err (Tensor R)) (fin : List (Entry R))
    (M : α) (e : Entry R) : ∀ (es : List (Entry R)) (ms : List α) (t : Tensor R), ms.length = es.length →
    recLoopT step fin (ms ++ [M]) t (es ++ [e]) =
      (recLoopT step (e :: fin) ms t es).bind fun u => step (some M) u e fin
  | [], [], t, _ => by
    unfold recLoopT
    simp only [List.nil_append, List.head?_cons, List.tail_cons, Except.bind]
    cases step (some M) t e fin with
    | error _ => rfl
    | ok u => unfold recLoopT; rfl
  | [], _ :: _, _, h => by simp at h
  | _ :: _, [], _, h => by simp at h
  | a :: es, K :: ms, t, h => by
    simp only [List.cons_append]
    conv_lhs => unfold recLoopT
    conv_rhs => unfold recLoopT
    simp only [List.head?_cons, List.tail_cons, List.append_assoc, List.cons_append, List.nil_append]
    cases step (some K) t a (es ++ e :: fin) with
    | error _ => rfl
    | ok u =>
      simp only [Except.bind]
      exact recLoopT_snoc step fin M e es ms u (by simpa using h)

/-- What follows a reconstruction step: nothing, or details with the sizes `ns`. -/
def FinOk [Zero R] (D : (List Bool → Tensor R → Prop) → Entry R → Prop) (md : Meta) (B : Nat) (ns : List Nat)
    (fin : List (Entry R)) : Prop :=
  fin = [] ∨ ∃ e rest, ∃ Y : List Bool → Nat → List Nat → R, fin = e :: rest ∧ D (fun bs u => ShowsN u md B ns (Y bs)) e

/-- A reconstruction step inverts a decomposition step. -/
def RStepOk [NonUnitalNonAssocSemiring R]
    (step : Option (List (Coo R)) → Tensor R → Entry R → List (Entry R) → Except Err (Tensor R))
    (Ms : List Nat → List (Coo R)) (m : Mode) (band : BandStep R) (md : Meta) (B n F N : Nat)
    (D : (List Bool → Tensor R → Prop) → Entry R → Prop)
    (St : List Nat → (Nat → List Nat → R) → Tensor R → Prop) : Prop :=
  ∀ ns X u e fin, ns.length = n → (∀ k ∈ ns, F ≤ k) → (∀ k ∈ ns, evenLen k ≤ N) →
    St (halfLens ns) (fun b => band (lowBand n) ns (X b)) u →
    D (fun bs u => ShowsN u md B (halfLens ns) (fun b => band bs ns (X b))) e →
    FinOk D md B ns fin →
    ∃ v, step (some (Ms ns)) u e fin = .ok v ∧
      (fin = [] → ShowsN v md B (ns.map evenLen) (fun b => evenExtN m ns (X b))) ∧
      (fin ≠ [] → St ns X v)

theorem matRecN_ok [NonUnitalNonAssocSemiring R]
    {step : Option (List (Coo R)) → Tensor R → Entry R → List (Entry R) → Except Err (Tensor R)}
    {Ms : List Nat → List (Coo R)} {m : Mode} {band : BandStep R} {md : Meta} {B n F N : Nat}
    {D : (List Bool → Tensor R → Prop) → Entry R → Prop}
    {St : List Nat → (Nat → List Nat → R) → Tensor R → Prop} (hF : 2 ≤ F)
    (hstep : RStepOk step Ms m band md B n F N D St) :
    ∀ (L : Nat) (ns : List Nat) (X : Nat → List Nat → R) (r : Tensor R) (ds : List (Entry R)) (fin : List (Entry R)),
      ns.length = n → (∀ k ∈ ns, evenLen k ≤ N) →
      ds.length = mLevelsN F L ns →
      St (mLens ns (mLevelsN F L ns)) (fun b => bandA band ns (X b) (mLevelsN F L ns)) r →
      (∀ s e, ds[s]? = some e →
        D (fun bs u => ShowsN u md B (mLens ns (s + 1)) (fun b => bandD band ns (X b) s bs)) e) →
      FinOk D md B ns fin →
    ∃ v, recLoopT step fin (builtN Ms F L ns).reverse r ds.reverse = .ok v ∧
      (mLevelsN F L ns = 0 → v = r) ∧
      (0 < mLevelsN F L ns → fin = [] → ShowsN v md B (ns.map evenLen) (fun b => evenExtN m ns (X b))) ∧
      (fin ≠ [] → St ns X v)
  | 0, ns, X, r, ds, fin, hl, hN, hd, hr, hds, hf => by
    have h0 : mLevelsN F 0 ns = 0 := rfl
    rw [h0] at hd hr
    rw [List.length_eq_zero_iff] at hd
    subst hd
    rw [mLens_zero] at hr
    exact ⟨r, by simp [recLoopT], fun _ => rfl, fun h => absurd h (by rw [h0]; omega), fun _ => hr⟩
  | L + 1, ns, X, r, ds, fin, hl, hN, hd, hr, hds, hf => by
    by_cases hn : ∃ k ∈ ns, k < F
    · have h0 : mLevelsN F (L + 1) ns = 0 := by unfold mLevelsN; rw [if_pos hn]
      rw [h0] at hd hr
      rw [List.length_eq_zero_iff] at hd
      subst hd
      rw [mLens_zero] at hr
      exact ⟨r, by simp [recLoopT], fun _ => rfl, fun h => absurd h (by rw [h0]; omega), fun _ => hr⟩
    · have hge : ∀ k ∈ ns, F ≤ k := by
        intro k hk
        by_contra hc
        exact hn ⟨k, hk, by omega⟩
      have hlv : mLevelsN F (L + 1) ns = mLevelsN F L (halfLens ns) + 1 := by
        conv_lhs => unfold mLevelsN
        rw [if_neg hn]
      rw [hlv] at hd hr
      obtain ⟨e, ds, rfl⟩ : ∃ e ds', ds = e :: ds' := by
        cases ds with
        | nil => simp at hd
        | cons e ds => exact ⟨e, ds, rfl⟩
      have he := hds 0 e rfl
      rw [mLens_succ, mLens_zero] at he
      subst hl
      rw [mLens_succ] at hr
      obtain ⟨v, ev, _, _, h3⟩ := matRecN_ok hF hstep L (halfLens ns) (fun b => band (lowBand ns.length) ns (X b))
        r ds (e :: fin) (halfLens_length ns) (halfLens_bound hF hge hN) (by simpa using hd) hr
        (fun s e' he' => by
          have := hds (s + 1) e' (by simpa using he')
          rw [mLens_succ] at this
          exact this)
        (Or.inr ⟨e, fin, _, rfl, he⟩)
      obtain ⟨z, ez, z1, z2⟩ := hstep ns X v e fin rfl hge hN (h3 (by simp)) he hf
      refine ⟨z, ?_, fun h => absurd h (by omega), fun _ => z1, z2⟩
      have hb : builtN Ms F (L + 1) ns = Ms ns :: builtN Ms F L (halfLens ns) := by
        conv_lhs => unfold builtN
        rw [if_neg hn]
      rw [hb, List.reverse_cons, List.reverse_cons, recLoopT_snoc _ _ _ _ _ _ _ (by
        rw [List.length_reverse, List.length_reverse, builtN_length]; simpa using hd.symm), ev]
      exact ez

/-! ### The steps -/

theorem ShowsN.cat [Zero R] {s t : Tensor R} {md : Meta} {B i n : Nat} {Ks : List Nat} {X Y : Nat → List Nat → R}
    (hs : ShowsN s md B Ks X) (ht : ShowsN t md B Ks Y) (hi : i < Ks.length) (hn : Ks.getD i 0 = n) :
    ∃ u, cat2 s t (i + 1) = .ok u ∧ ShowsN u md B (Ks.set i (n + n))
      (fun b ks => if ks.getD i 0 < n then X b ks else Y b (ks.set i (ks.getD i 0 - n))) := by
  have h1 : s.shape.getD (i + 1) 0 = n := by rw [hs.shape]; exact hn
  have h2 : t.shape.getD (i + 1) 0 = n := by rw [ht.shape]; exact hn
  unfold cat2
  rw [if_pos ⟨by rw [hs.md, ht.md], by rw [hs.shape, ht.shape], by rw [hs.shape, ht.shape]⟩]
  have hsh : s.shape.set (i + 1) (s.shape.getD (i + 1) 0 + t.shape.getD (i + 1) 0) = B :: Ks.set i (n + n) := by
    rw [h1, h2, hs.shape]; rfl
  refine ⟨_, rfl, hs.md, hsh, ?_⟩
  intro b ks hb hk
  rw [ofFn_get_of _ _ (by rw [hsh]; exact ⟨hb, hk⟩), h1]
  have hlt := inB_set_getD hi hk
  simp only [List.getD_cons_succ, List.set_cons_succ]
  split_ifs with h
  · refine hs.get b ks hb ?_
    have := (inB_set_iff hi hk (j := ks.getD i 0)).mpr (by rw [hn]; exact h)
    rwa [set_getD_self (by have := hk.length_eq; rw [List.length_set] at this; omega)] at this
  · exact ht.get b _ hb ((inB_set_iff hi hk).mpr (by omega))

theorem lens_flip [Zero R] {C : Nat → Coo R} (ns : List Nat) :
    matsAt (fun k => (C k).transpose) ns = (matsAt C ns).map Coo.transpose := by
  unfold matsAt
  rw [List.map_map]; rfl

section steps
variable [CommRing R] {C : Nat → Coo R} {A : Nat → Nat → Nat → R} {md : Meta} {F N : Nat} {m : Mode}

theorem Family.atT (hC : Family C A md F N) {n : Nat} (h1 : F ≤ n) (h2 : evenLen n ≤ N) :
    (C (evenLen n)).transpose.md = md ∧ (C (evenLen n)).transpose.rows = evenLen n ∧
    (C (evenLen n)).transpose.cols = evenLen n ∧
      ∀ i j, i < evenLen n → j < evenLen n → (C (evenLen n)).transpose.den i j = A (evenLen n) j i := by
  obtain ⟨a, b, c, d⟩ := hC.at h1 h2
  exact ⟨a, c, b, fun i j hi hj => by rw [Coo.transpose_den]; exact d j i hj hi⟩

theorem rec2Crop_ok {B p q : Nat} {t : Tensor R} {X : Nat → List Nat → R} {fin : List (Entry R)}
    {D : (List Bool → Tensor R → Prop) → Entry R → Prop}
    (hD : ∀ P e, D P e → ∃ h v d, e = .tuple h v d ∧ ∃ bs, P bs h)
    (h : ShowsN t md B [evenLen p, evenLen q] X)
    (hf : FinOk D md B [p, q] fin) :
    ∃ v, rec2Crop [evenLen p, evenLen q] t fin = .ok v ∧ (fin = [] → v = t) ∧
      (fin ≠ [] → ShowsN v md B [p, q] X) := by
  rcases hf with rfl | ⟨e, rest, Y, rfl, he⟩
  · exact ⟨t, rfl, fun _ => rfl, fun h => absurd rfl h⟩
  · obtain ⟨a, b, c, rfl, bs, ha⟩ := hD _ _ he
    have s2 : a.sizeFromEnd 2 = p := by unfold Tensor.sizeFromEnd; rw [ha.shape]; rfl
    have s1 : a.sizeFromEnd 1 = q := by unfold Tensor.sizeFromEnd; rw [ha.shape]; rfl
    -- crop one axis
    have crop : ∀ {i n : Nat} {Ks : List Nat} {t : Tensor R}, ShowsN t md B Ks X → i < Ks.length →
        Ks.getD i 0 = evenLen n →
        ShowsN (if evenLen n ≠ n then t.slice (i + 1) 0 (t.shape.getD (i + 1) 0 - 1) else t) md B (Ks.set i n) X := by
      intro i n Ks t ht hi hn
      by_cases hc : evenLen n = n
      · rw [if_neg (by simpa using hc)]
        rw [hc] at hn
        rw [← hn, set_getD_self hi]; exact ht
      · rw [if_pos hc]
        have e1 : evenLen n = n + 1 := by unfold evenLen at *; omega
        have e2 : t.shape.getD (i + 1) 0 - 1 = n := by
          rw [ht.shape, List.getD_cons_succ, hn, e1]; rfl
        rw [e2]
        have := ht.slice (lo := 0) (hi := n) hi (by omega) (by rw [hn, e1]; omega)
        rw [Nat.sub_zero] at this
        refine this.congr fun b k _ hk => ?_
        rw [Nat.add_zero, set_getD_self (by have := hk.length_eq; rw [List.length_set] at this; omega)]
    have c1 := crop (i := 0) (n := p) h (by simp) rfl
    have c2 := crop (i := 1) (n := q) c1 (by simp) rfl
    refine ⟨_, ?_, fun h => absurd h (by simp), fun _ => c2⟩
    simp only [rec2Crop, firstRef2, bind, Except.bind, s1, s2, List.getD_cons_zero, List.getD_cons_succ]
    rfl

/-- The four bands of a level, put together, are the product. -/
theorem joinBands2 {B p q : Nat} {ll lh hl hh : Tensor R} {G : Nat → List Nat → R}
    (h1 : ShowsN ll md B [evenLen p / 2, evenLen q / 2] (fun b ks => G b (bandPos [false, false] [p, q] ks)))
    (h2 : ShowsN lh md B [evenLen p / 2, evenLen q / 2] (fun b ks => G b (bandPos [false, true] [p, q] ks)))
    (h3 : ShowsN hl md B [evenLen p / 2, evenLen q / 2] (fun b ks => G b (bandPos [true, false] [p, q] ks)))
    (h4 : ShowsN hh md B [evenLen p / 2, evenLen q / 2] (fun b ks => G b (bandPos [true, true] [p, q] ks))) :
    ∃ a d c, cat2 ll lh 2 = .ok a ∧ cat2 hl hh 2 = .ok d ∧ cat2 a d 1 = .ok c ∧
      ShowsN c md B [evenLen p, evenLen q] G := by
  obtain ⟨a, ea, sa⟩ := h1.cat h2 (i := 1) (by simp) rfl
  obtain ⟨d, ed, sd⟩ := h3.cat h4 (i := 1) (by simp) rfl
  obtain ⟨c, ec, sc⟩ := sa.cat sd (i := 0) (by simp) rfl
  refine ⟨a, d, c, ea, ed, ec, ?_⟩
  simp only [List.getD_cons_zero, List.getD_cons_succ, List.set_cons_zero, List.set_cons_succ] at sc
  rw [← evenLen_halves p, ← evenLen_halves q] at sc
  refine sc.congr fun b ks _ hk => ?_
  match ks, hk with
  | [k, l], ⟨hk1, hl1, _⟩ =>
    simp only [List.getD_cons_zero, List.getD_cons_succ, List.set_cons_zero, List.set_cons_succ, bandPos,
      Bool.false_eq_true, if_false, if_true]
    split_ifs with c1 c2 c2
    · rfl
    · rw [show evenLen q / 2 + (l - evenLen q / 2) = l by omega]
    · rw [show evenLen p / 2 + (k - evenLen p / 2) = k by omega]
    · rw [show evenLen q / 2 + (l - evenLen q / 2) = l by omega, show evenLen p / 2 + (k - evenLen p / 2) = k by omega]

theorem mrec2Step_ok {B : Nat} (hB : 1 ≤ B) (hF : 2 ≤ F) (hC : Family C A md F N)
    (hA : ∀ k, k % 2 = 0 → F ≤ k → k ≤ N → OrthonormalCols k (A k)) :
    RStepOk (mrec2Step true B) (matsAt fun k => (C k).transpose) m (matBand m A) md B 2 F N IsTupleSwapped
      (fun ns X t => ShowsN t md B ns X) := by
  intro ns X u e fin hl hge hN hu he hf
  match ns, hl with
  | [p, q], _ =>
  obtain ⟨lh, hl, hh, rfl, s1, s2, s3⟩ := he
  have hp : F ≤ p := hge p (by simp)
  have hq : F ≤ q := hge q (by simp)
  have lp := le_evenLen p
  have lq := le_evenLen q
  have ep := evenLen_halves p
  have eq := evenLen_halves q
  set G : Nat → List Nat → R := fun b => mulN (anaMats A [p, q]) (evenExtN m [p, q] (X b)) with hG
  have toG : ∀ {t : Tensor R} (bs : List Bool), bs.length = 2 →
      ShowsN t md B (halfLens [p, q]) (fun b => matBand m A bs [p, q] (X b)) →
      ShowsN t md B [evenLen p / 2, evenLen q / 2] (fun b ks => G b (bandPos bs [p, q] ks)) := by
    intro t bs hb ht
    exact ShowsN.congr ht fun b ks _ hk => matBand_eq m A bs [p, q] (X b) ks hb hk.length_eq
  obtain ⟨a, d, c, ea, ed, ec, sc⟩ := joinBands2 (toG [false, false] rfl hu) (toG [false, true] rfl s1)
    (toG [true, false] rfl s2) (toG [true, true] rfl s3)
  obtain ⟨c1, c2, c3, c4⟩ := hC.atT hp (hN p (by simp))
  obtain ⟨d1, d2, d3, d4⟩ := hC.atT hq (hN q (by simp))
  obtain ⟨v1, v, ev1, ev, sv⟩ := mul2_ok sc hB (by omega) (by omega) c1 c2 c3 c4 d1 d2 d3 d4
  have sv' : ShowsN v md B [evenLen p, evenLen q] (fun b => evenExtN m [p, q] (X b)) := by
    refine sv.congr fun b ks _ hk => ?_
    refine synN_anaN [p, q] (evenExtN m [p, q] (X b)) ks ?_ hk
    intro n hn
    have := hge n hn
    have := le_evenLen n
    exact hA _ (evenLen_even n) (by omega) (hN n hn)
  obtain ⟨z, ez, z1, z2⟩ := rec2Crop_ok (D := IsTupleSwapped)
    (by rintro P e ⟨h, v, d, rfl, h1, _⟩; exact ⟨_, _, _, rfl, _, h1⟩) sv' hf
  refine ⟨z, ?_, fun h => by rw [z1 h]; exact sv', fun h => ?_⟩
  · unfold mrec2Step
    simp only
    rw [if_pos ⟨by rw [s1.shape, hu.shape], by rw [s2.shape, hu.shape], by rw [s3.shape, hu.shape]⟩]
    unfold rec2Mul matsAt
    simp only [List.map_cons, List.map_nil, if_true]
    simp only [bind, Except.bind, ea, ed, ec, ev1, ev]
    have e2 : u.sizeFromEnd 2 * 2 = evenLen p := by
      unfold Tensor.sizeFromEnd; rw [hu.shape]; show evenLen p / 2 * 2 = _; omega
    have e1 : u.sizeFromEnd 1 * 2 = evenLen q := by
      unfold Tensor.sizeFromEnd; rw [hu.shape]; show evenLen q / 2 * 2 = _; omega
    rw [e1, e2]
    exact ez
  · exact (z2 h).congr fun b ks _ hk => evenExtN_inside m _ hk

/-- The three-dimensional state: a tensor which is at least as large as it should be. -/
def StBig (md : Meta) (B : Nat) (ns : List Nat) (X : Nat → List Nat → R) (t : Tensor R) : Prop :=
  ∃ Ks Y, List.Forall₂ (· ≤ ·) ns Ks ∧ ShowsN t md B Ks Y ∧ ∀ b ks, b < B → InB ns ks → Y b ks = X b ks

theorem StBig.of_shows {B : Nat} {ns : List Nat} {X : Nat → List Nat → R} {t : Tensor R} (h : ShowsN t md B ns X) :
    StBig md B ns X t :=
  ⟨ns, X, List.forall₂_same.mpr fun _ _ => le_refl _, h, fun _ _ _ _ => rfl⟩

theorem ShowsN.slice0 {t : Tensor R} {B i n : Nat} {Ks : List Nat} {X : Nat → List Nat → R}
    (h : ShowsN t md B Ks X) (hi' : i < Ks.length) (hh : n ≤ Ks.getD i 0) :
    ShowsN (t.slice (i + 1) 0 n) md B (Ks.set i n) X := by
  have := h.slice (lo := 0) (hi := n) hi' (by omega) hh
  rw [Nat.sub_zero] at this
  refine this.congr fun b k _ hk => ?_
  rw [Nat.add_zero, set_getD_self (by have := hk.length_eq; rw [List.length_set] at this; omega)]

theorem cropTo3_ok {B p q r : Nat} {X : Nat → List Nat → R} {t : Tensor R} (h : StBig md B [p, q, r] X t) :
    ∃ u, cropTo3 t [B, p, q, r] = .ok u ∧ ShowsN u md B [p, q, r] X := by
  obtain ⟨Ks, Y, hk, hs, hy⟩ := h
  match Ks, hk with
  | [p', q', r'], hk =>
  cases hk with
  | cons h1 hk =>
  cases hk with
  | cons h2 hk =>
  cases hk with
  | cons h3 hk =>
  have s1 := hs.slice0 (i := 0) (n := p) (by simp) h1
  have s2 := s1.slice0 (i := 1) (n := q) (by simp) h2
  have s3 := s2.slice0 (i := 2) (n := r) (by simp) h3
  refine ⟨_, ?_, ShowsN.congr s3 fun b ks hb hk => hy b ks hb hk⟩
  unfold cropTo3
  rw [if_neg (by rw [hs.rank]; simp)]
  rfl

/-- One pair of the recursive concatenation. -/
theorem catPair_ok {B p q r i : Nat} {X Y : Nat → List Nat → R} {a d : Tensor R} (ha : StBig md B [p, q, r] X a)
    (hd : ShowsN d md B [p, q, r] Y) (hi : i < 3) :
    ∃ a' c, cropTo3 a d.shape = .ok a' ∧ normAxis a'.rank (-((3 - i : ℕ) : Int)) = .ok (i + 1) ∧
      cat2 a' d (i + 1) = .ok c ∧
      ShowsN c md B ([p, q, r].set i ([p, q, r].getD i 0 + [p, q, r].getD i 0))
      (fun b ks => if ks.getD i 0 < [p, q, r].getD i 0 then X b ks else Y b (ks.set i (ks.getD i 0 - [p, q, r].getD i 0))) := by
  obtain ⟨a', ea, sa⟩ := cropTo3_ok ha
  obtain ⟨c, ec, sc⟩ := sa.cat hd (i := i) (by simpa using hi) rfl
  refine ⟨a', c, by rw [hd.shape]; exact ea, ?_, ec, sc⟩
  rw [sa.rank]
  unfold normAxis
  simp only [List.length_cons, List.length_nil]
  rw [if_neg (by omega), if_pos (by omega)]
  congr 1
  omega

theorem catRound_cons {input todo done : List (String × Tensor R)} {key rest dk : String} {a a' c d : Tensor R} {ax : Nat}
    (h1 : String.ofList key.toList.tail = rest) (h2 : "d" ++ rest = dk) (h3 : dictGet input dk = .ok d)
    (h4 : cropTo3 a d.shape = .ok a') (h5 : normAxis a'.rank (-(key.length : Int)) = .ok ax)
    (h6 : cat2 a' d ax = .ok c) :
    catRound input ((key, a) :: todo) done =
      if rest = "" then .ok (.inl c) else catRound input todo (dictSet done rest c) := by
  rw [catRound]
  simp only [bind, Except.bind, h1, h2, h3, h4, h5, h6]
  rfl

/-- The recursive concatenation of eight bands. -/
theorem catRec_ok {daa ada dda aad dad add ddd aaa ada' aad' add' aaa' a' : Tensor R}
    {cda cad cdd caa cd ca c : Tensor R} {ad2 aa2 : Tensor R}
    (r1 : cropTo3 ada dda.shape = .ok ada') (n1 : normAxis ada'.rank (-3) = .ok 1) (k1 : cat2 ada' dda 1 = .ok cda)
    (r2 : cropTo3 aad dad.shape = .ok aad') (n2 : normAxis aad'.rank (-3) = .ok 1) (k2 : cat2 aad' dad 1 = .ok cad)
    (r3 : cropTo3 add ddd.shape = .ok add') (n3 : normAxis add'.rank (-3) = .ok 1) (k3 : cat2 add' ddd 1 = .ok cdd)
    (r4 : cropTo3 aaa daa.shape = .ok aaa') (n4 : normAxis aaa'.rank (-3) = .ok 1) (k4 : cat2 aaa' daa 1 = .ok caa)
    (r5 : cropTo3 cad cdd.shape = .ok ad2) (n5 : normAxis ad2.rank (-2) = .ok 2) (k5 : cat2 ad2 cdd 2 = .ok cd)
    (r6 : cropTo3 caa cda.shape = .ok aa2) (n6 : normAxis aa2.rank (-2) = .ok 2) (k6 : cat2 aa2 cda 2 = .ok ca)
    (r7 : cropTo3 ca cd.shape = .ok a') (n7 : normAxis a'.rank (-1) = .ok 3) (k7 : cat2 a' cd 3 = .ok c) (k : Nat) :
    catRec (k + 3) [("daa", daa), ("ada", ada), ("dda", dda), ("aad", aad), ("dad", dad), ("add", add),
      ("ddd", ddd), ("aaa", aaa)] = .ok c := by
  have e1 : catRound [("daa", daa), ("ada", ada), ("dda", dda), ("aad", aad), ("dad", dad), ("add", add),
      ("ddd", ddd), ("aaa", aaa)] [("ada", ada), ("aad", aad), ("add", add), ("aaa", aaa)] []
      = .ok (.inr [("da", cda), ("ad", cad), ("dd", cdd), ("aa", caa)]) := by
    rw [catRound_cons (rest := "da") (dk := "dda") (d := dda) (by decide) (by decide) (by simp [dictGet]) r1
      (by rw [len_ada]; exact n1) k1, if_neg (by decide)]
    rw [catRound_cons (rest := "ad") (dk := "dad") (d := dad) (by decide) (by decide) (by simp [dictGet]) r2
      (by rw [len_aad]; exact n2) k2, if_neg (by decide)]
    rw [catRound_cons (rest := "dd") (dk := "ddd") (d := ddd) (by decide) (by decide) (by simp [dictGet]) r3
      (by rw [len_add]; exact n3) k3, if_neg (by decide)]
    rw [catRound_cons (rest := "aa") (dk := "daa") (d := daa) (by decide) (by decide) (by simp [dictGet]) r4
      (by rw [len_aaa]; exact n4) k4, if_neg (by decide)]
    simp [catRound, dictSet]
  have e2 : catRound [("da", cda), ("ad", cad), ("dd", cdd), ("aa", caa)] [("ad", cad), ("aa", caa)] []
      = .ok (.inr [("d", cd), ("a", ca)]) := by
    rw [catRound_cons (rest := "d") (dk := "dd") (d := cdd) (by decide) (by decide) (by simp [dictGet]) r5
      (by rw [len_ad]; exact n5) k5, if_neg (by decide)]
    rw [catRound_cons (rest := "a") (dk := "da") (d := cda) (by decide) (by decide) (by simp [dictGet]) r6
      (by rw [len_aa]; exact n6) k6, if_neg (by decide)]
    simp [catRound, dictSet]
  have e3 : catRound [("d", cd), ("a", ca)] [("a", ca)] [] = .ok (.inl c) := by
    rw [catRound_cons (rest := "") (dk := "d") (d := cd) (by decide) (by decide) (by simp [dictGet]) r7
      (by rw [len_a]; exact n7) k7, if_pos rfl]
  rw [catRec]
  rw [if_neg (by simp)]
  have f1 : ([("daa", daa), ("ada", ada), ("dda", dda), ("aad", aad), ("dad", dad), ("add", add),
      ("ddd", ddd), ("aaa", aaa)].filter fun p => p.1.toList.head? = some 'a')
      = [("ada", ada), ("aad", aad), ("add", add), ("aaa", aaa)] := by simp
  simp only [bind, Except.bind, f1, e1]
  rw [catRec]
  rw [if_neg (by simp)]
  have f2 : ([("da", cda), ("ad", cad), ("dd", cdd), ("aa", caa)].filter fun p => p.1.toList.head? = some 'a')
      = [("ad", cad), ("aa", caa)] := by simp
  simp only [bind, Except.bind, f2, e2]
  rw [catRec]
  rw [if_neg (by simp)]
  have f3 : ([("d", cd), ("a", ca)].filter fun p => p.1.toList.head? = some 'a')
      = [("a", ca)] := by simp
  simp only [bind, Except.bind, f3, e3]

theorem isDictM3_dest {P : List Bool → Tensor R → Prop} {e : Entry R} (h : IsDict keysM3 P e) :
    ∃ daa ada dda aad dad add ddd, e = .dict [("daa", daa), ("ada", ada), ("dda", dda), ("aad", aad), ("dad", dad),
        ("add", add), ("ddd", ddd)] ∧ P [true, false, false] daa ∧ P [false, true, false] ada ∧
      P [true, true, false] dda ∧ P [false, false, true] aad ∧ P [true, false, true] dad ∧
      P [false, true, true] add ∧ P [true, true, true] ddd := by
  obtain ⟨kv, rfl, hk, hp⟩ := h
  match kv, hk with
  | [(k1, a), (k2, b), (k3, c), (k4, d), (k5, e), (k6, f), (k7, g)], h =>
    simp only [keysM3, List.map_cons, List.map_nil, List.cons.injEq, and_true] at h
    obtain ⟨rfl, rfl, rfl, rfl, rfl, rfl, rfl⟩ := h
    refine ⟨a, b, c, d, e, f, g, rfl, ?_, ?_, ?_, ?_, ?_, ?_, ?_⟩
    · rw [← key_daa]; exact hp ("daa", a) (by simp)
    · rw [← key_ada]; exact hp ("ada", b) (by simp)
    · rw [← key_dda]; exact hp ("dda", c) (by simp)
    · rw [← key_aad]; exact hp ("aad", d) (by simp)
    · rw [← key_dad]; exact hp ("dad", e) (by simp)
    · rw [← key_add]; exact hp ("add", f) (by simp)
    · rw [← key_ddd]; exact hp ("ddd", g) (by simp)

theorem mrec3Step_ok {B : Nat} (hF : 2 ≤ F) (hC : Family C A md F N)
    (hA : ∀ k, k % 2 = 0 → F ≤ k → k ≤ N → OrthonormalCols k (A k)) :
    RStepOk (fun ms t e _ => mrec3Step ms t e) (matsAt fun k => (C k).transpose) m (matBand m A) md B 3 F N (IsDict keysM3)
      (StBig md B) := by
  intro ns X u e fin hl hge hN hu he hf
  match ns, hl with
  | [p, q, r], _ =>
  obtain ⟨daa, ada, dda, aad, dad, add, ddd, rfl, s1, s2, s3, s4, s5, s6, s7⟩ := isDictM3_dest he
  have hp : F ≤ p := hge p (by simp)
  have hq : F ≤ q := hge q (by simp)
  have hr : F ≤ r := hge r (by simp)
  have lp := le_evenLen p
  have lq := le_evenLen q
  have lr := le_evenLen r
  have ep := evenLen_halves p
  have eq := evenLen_halves q
  have er := evenLen_halves r
  set G : Nat → List Nat → R := fun b => mulN (anaMats A [p, q, r]) (evenExtN m [p, q, r] (X b)) with hG
  have toG : ∀ {t : Tensor R} (bs : List Bool), bs.length = 3 →
      ShowsN t md B (halfLens [p, q, r]) (fun b => matBand m A bs [p, q, r] (X b)) →
      ShowsN t md B [evenLen p / 2, evenLen q / 2, evenLen r / 2] (fun b ks => G b (bandPos bs [p, q, r] ks)) := by
    intro t bs hb ht
    exact ShowsN.congr ht fun b ks _ hk => matBand_eq m A bs [p, q, r] (X b) ks hb hk.length_eq
  have g1 := toG _ rfl s1
  have g2 := toG _ rfl s2
  have g3 := toG _ rfl s3
  have g4 := toG _ rfl s4
  have g5 := toG _ rfl s5
  have g6 := toG _ rfl s6
  have g7 := toG _ rfl s7
  have g0 : StBig md B [evenLen p / 2, evenLen q / 2, evenLen r / 2]
      (fun b ks => G b (bandPos [false, false, false] [p, q, r] ks)) u := by
    obtain ⟨Ks, Y, h1, h2, h3⟩ := hu
    refine ⟨Ks, Y, h1, h2, fun b ks hb hk => ?_⟩
    rw [h3 b ks hb hk]
    exact matBand_eq m A (lowBand 3) [p, q, r] (X b) ks rfl hk.length_eq
  obtain ⟨x1, cda, r1, n1, k1, t1⟩ := catPair_ok (i := 0) (StBig.of_shows g2) g3 (by omega)
  obtain ⟨x2, cad, r2, n2, k2, t2⟩ := catPair_ok (i := 0) (StBig.of_shows g4) g5 (by omega)
  obtain ⟨x3, cdd, r3, n3, k3, t3⟩ := catPair_ok (i := 0) (StBig.of_shows g6) g7 (by omega)
  obtain ⟨x4, caa, r4, n4, k4, t4⟩ := catPair_ok (i := 0) g0 g1 (by omega)
  simp only [List.getD_cons_zero, List.getD_cons_succ, List.set_cons_zero, List.set_cons_succ] at t1 t2 t3 t4
  obtain ⟨x5, cd, r5, n5, k5, t5⟩ := catPair_ok (i := 1) (StBig.of_shows t2) t3 (by omega)
  obtain ⟨x6, ca, r6, n6, k6, t6⟩ := catPair_ok (i := 1) (StBig.of_shows t4) t1 (by omega)
  simp only [List.getD_cons_zero, List.getD_cons_succ, List.set_cons_zero, List.set_cons_succ] at t5 t6
  obtain ⟨x7, c, r7, n7, k7, t7⟩ := catPair_ok (i := 2) (StBig.of_shows t6) t5 (by omega)
  simp only [List.getD_cons_zero, List.getD_cons_succ, List.set_cons_zero, List.set_cons_succ] at t7
  rw [← ep, ← eq, ← er] at t7
  have sc : ShowsN c md B [evenLen p, evenLen q, evenLen r] G := by
    refine t7.congr fun b ks _ hk => ?_
    match ks, hk with
    | [k, l, o], ⟨hk1, hl1, ho1, _⟩ =>
      simp only [List.getD_cons_zero, List.getD_cons_succ, List.set_cons_zero, List.set_cons_succ, bandPos,
        Bool.false_eq_true, if_false, if_true]
      split_ifs with c1 c2 c3 c3 c2 c3 c3
      · rfl
      · rw [show evenLen p / 2 + (k - evenLen p / 2) = k by omega]
      · rw [show evenLen q / 2 + (l - evenLen q / 2) = l by omega]
      · rw [show evenLen q / 2 + (l - evenLen q / 2) = l by omega, show evenLen p / 2 + (k - evenLen p / 2) = k by omega]
      · rw [show evenLen r / 2 + (o - evenLen r / 2) = o by omega]
      · rw [show evenLen r / 2 + (o - evenLen r / 2) = o by omega, show evenLen p / 2 + (k - evenLen p / 2) = k by omega]
      · rw [show evenLen r / 2 + (o - evenLen r / 2) = o by omega, show evenLen q / 2 + (l - evenLen q / 2) = l by omega]
      · rw [show evenLen r / 2 + (o - evenLen r / 2) = o by omega, show evenLen q / 2 + (l - evenLen q / 2) = l by omega,
          show evenLen p / 2 + (k - evenLen p / 2) = k by omega]
  have hcat := catRec_ok r1 n1 k1 r2 n2 k2 r3 n3 k3 r4 n4 k4 r5 n5 k5 r6 n6 k6 r7 n7 k7 2
  obtain ⟨c1, c2, c3, c4⟩ := hC.atT hp (hN p (by simp))
  obtain ⟨d1, d2, d3, d4⟩ := hC.atT hq (hN q (by simp))
  obtain ⟨f1, f2, f3, f4⟩ := hC.atT hr (hN r (by simp))
  obtain ⟨v, ev, sv⟩ := mul3_ok sc (by omega) (by omega) (by omega) c1 c2 c3 c4 d1 d2 d3 d4 f1 f2 f3 f4
  have sv' : ShowsN v md B [evenLen p, evenLen q, evenLen r] (fun b => evenExtN m [p, q, r] (X b)) := by
    refine sv.congr fun b ks _ hk => ?_
    refine synN_anaN [p, q, r] (evenExtN m [p, q, r] (X b)) ks ?_ hk
    intro n hn
    have := hge n hn
    have := le_evenLen n
    exact hA _ (evenLen_even n) (by omega) (hN n hn)
  refine ⟨v, ?_, fun _ => sv', fun _ => ⟨_, _, ?_, sv', fun b ks _ hk => evenExtN_inside m _ hk⟩⟩
  · unfold mrec3Step
    simp only
    rw [if_pos (show List.length [("daa", daa), ("ada", ada), ("dda", dda), ("aad", aad), ("dad", dad), ("add", add),
      ("ddd", ddd)] = 7 from rfl), if_pos (by simp [sameShapes, s1.shape, s2.shape, s3.shape, s4.shape, s5.shape, s6.shape, s7.shape])]
    have e1 : dictSet [("daa", daa), ("ada", ada), ("dda", dda), ("aad", aad), ("dad", dad), ("add", add), ("ddd", ddd)]
        "aaa" u = [("daa", daa), ("ada", ada), ("dda", dda), ("aad", aad), ("dad", dad), ("add", add),
      ("ddd", ddd), ("aaa", u)] := by simp [dictSet]
    have e2 : keyBound [("daa", daa), ("ada", ada), ("dda", dda), ("aad", aad), ("dad", dad), ("add", add),
      ("ddd", ddd), ("aaa", u)] = 4 := by
      simp [keyBound, len_daa, len_ada, len_dda, len_aad, len_dad, len_add, len_ddd, len_aaa]
    rw [e1, e2]
    simp only [bind, Except.bind, hcat]
    exact ev
  · exact .cons lp (.cons lq (.cons lr .nil))

end steps

end Verif
