/-
The decomposition loops of the two- and three-dimensional matrix transforms.
-/
import Verif.Lemmas.MatNStep
import Verif.Lemmas.SepLoop

namespace Verif
open Tensor Spec
variable {R : Type}

/-- What a build produces per level. -/
def builtN {α : Type} (f : List Nat → α) (F : Nat) : Nat → List Nat → List α
  | 0, _ => []
  | L + 1, ns => if ∃ n ∈ ns, n < F then [] else f ns :: builtN f F L (halfLens ns)

/-- One matrix per axis. -/
def matsAt (C : Nat → Coo R) (ns : List Nat) : List (Coo R) := ns.map fun n => C (evenLen n)

theorem builtN_length {α : Type} (f : List Nat → α) (F : Nat) : ∀ L ns, (builtN f F L ns).length = mLevelsN F L ns
  | 0, _ => rfl
  | L + 1, ns => by
    unfold builtN mLevelsN
    split_ifs
    · rfl
    · rw [List.length_cons, builtN_length f F L]

theorem mLevelsN_le (F : Nat) : ∀ L ns, mLevelsN F L ns ≤ L
  | 0, _ => le_refl _
  | L + 1, ns => by
    unfold mLevelsN
    split_ifs
    · omega
    · have := mLevelsN_le F L (halfLens ns); omega

theorem builtN_levels {α : Type} (f : List Nat → α) (F : Nat) : ∀ L ns,
    builtN f F (mLevelsN F L ns) ns = builtN f F L ns
  | 0, _ => rfl
  | L + 1, ns => by
    conv_lhs => unfold mLevelsN
    by_cases h : ∃ n ∈ ns, n < F
    · rw [if_pos h]
      unfold builtN
      rw [if_pos h]
    · rw [if_neg h]
      show (if ∃ n ∈ ns, n < F then [] else f ns :: builtN f F (mLevelsN F L (halfLens ns)) (halfLens ns)) = _
      rw [builtN_levels f F L]
      rfl

/-- A step of the decomposition computes the bands. -/
def MStepOk [NonUnitalNonAssocSemiring R]
    (step : List (Coo R) → List Bool → List Nat → Tensor R → Except Err (Tensor R × Entry R))
    (Ms : List Nat → List (Coo R)) (band : BandStep R) (md : Meta) (B n F N : Nat)
    (D : (List Bool → Tensor R → Prop) → Entry R → Prop)
    (St : List Nat → (Nat → List Nat → R) → Tensor R → Prop) : Prop :=
  ∀ ns X t, ns.length = n → (∀ k ∈ ns, F ≤ k) → (∀ k ∈ ns, evenLen k ≤ N) → St ns X t →
    ∃ r e, step (Ms ns) (matrixPadFlags ns) (ns.map evenLen) t = .ok (r, e) ∧
      St (halfLens ns) (fun b => band (lowBand n) ns (X b)) r ∧
      D (fun bs u => ShowsN u md B (halfLens ns) (fun b => band bs ns (X b))) e

theorem halfLens_bound {ns : List Nat} {F N : Nat} (hF : 2 ≤ F) (h : ∀ k ∈ ns, F ≤ k) (hN : ∀ k ∈ ns, evenLen k ≤ N) :
    ∀ k ∈ halfLens ns, evenLen k ≤ N := by
  intro k hk
  unfold halfLens at hk
  rw [List.mem_map] at hk
  obtain ⟨n, hn, rfl⟩ := hk
  exact evenLen_half_le (by have := h n hn; omega) (hN n hn)

theorem matLoopN_ok [NonUnitalNonAssocSemiring R]
    {step : List (Coo R) → List Bool → List Nat → Tensor R → Except Err (Tensor R × Entry R)}
    {Ms : List Nat → List (Coo R)} {band : BandStep R} {md : Meta} {B n F N : Nat}
    {D : (List Bool → Tensor R → Prop) → Entry R → Prop}
    {St : List Nat → (Nat → List Nat → R) → Tensor R → Prop} (hF : 2 ≤ F)
    (hstep : MStepOk step Ms band md B n F N D St) (rest : List (List Nat)) :
    ∀ (L : Nat) (ns : List Nat) (X : Nat → List Nat → R) (t : Tensor R), ns.length = n →
      (∀ k ∈ ns, evenLen k ≤ N) → St ns X t →
    ∃ (r : Tensor R) (ds : List (Entry R)), matLoopN step (builtN Ms F L ns) (builtN matrixPadFlags F L ns)
        (builtN (fun ns => ns.map evenLen) F L ns ++ rest) t = .ok (r, ds) ∧
      ds.length = mLevelsN F L ns ∧
      St (mLens ns (mLevelsN F L ns)) (fun b => bandA band ns (X b) (mLevelsN F L ns)) r ∧
      ∀ s e, ds[s]? = some e →
        D (fun bs u => ShowsN u md B (mLens ns (s + 1)) (fun b => bandD band ns (X b) s bs)) e
  | 0, ns, X, t, hl, hN, h => ⟨t, [], by simp [builtN, matLoopN], rfl, by rw [show mLevelsN F 0 ns = 0 from rfl, mLens_zero]; exact h, by simp⟩
  | L + 1, ns, X, t, hl, hN, h => by
    by_cases hn : ∃ k ∈ ns, k < F
    · have hlv : mLevelsN F (L + 1) ns = 0 := by unfold mLevelsN; rw [if_pos hn]
      refine ⟨t, [], ?_, ?_, ?_, by simp⟩
      · unfold builtN; rw [if_pos hn]; simp [matLoopN]
      · rw [hlv]; rfl
      · rw [hlv, mLens_zero]; exact h
    · have hge : ∀ k ∈ ns, F ≤ k := by
        intro k hk
        by_contra hc
        exact hn ⟨k, hk, by omega⟩
      have hlv : mLevelsN F (L + 1) ns = mLevelsN F L (halfLens ns) + 1 := by
        conv_lhs => unfold mLevelsN
        rw [if_neg hn]
      obtain ⟨r, e, e1, h1, h2⟩ := hstep ns X t hl hge hN h
      obtain ⟨r', ds, e2, i1, i2, i3⟩ := matLoopN_ok hF hstep rest L (halfLens ns) _ r
        (by rw [halfLens_length, hl]) (halfLens_bound hF hge hN) h1
      refine ⟨r', e :: ds, ?_, ?_, ?_, ?_⟩
      · unfold builtN
        rw [if_neg hn, if_neg hn, if_neg hn, List.cons_append]
        simp only [matLoopN, bind, Except.bind, e1, e2]
        rfl
      · rw [List.length_cons, i1, hlv]
      · rw [hlv, mLens_succ]
        subst hl
        exact i2
      · intro s e' he
        cases s with
        | zero =>
          rw [List.getElem?_cons_zero, Option.some.injEq] at he
          subst he
          rw [mLens_succ, mLens_zero]
          exact h2
        | succ s =>
          rw [List.getElem?_cons_succ] at he
          rw [mLens_succ]
          subst hl
          exact i3 s e' he

theorem len_a : ("a" : String).length = 1 := by decide
theorem len_d : ("d" : String).length = 1 := by decide
theorem len_aa : ("aa" : String).length = 2 := by decide
theorem len_da : ("da" : String).length = 2 := by decide
theorem len_ad : ("ad" : String).length = 2 := by decide
theorem len_dd : ("dd" : String).length = 2 := by decide
theorem len_aaa : ("aaa" : String).length = 3 := by decide
theorem len_daa : ("daa" : String).length = 3 := by decide
theorem len_ada : ("ada" : String).length = 3 := by decide
theorem len_dda : ("dda" : String).length = 3 := by decide
theorem len_aad : ("aad" : String).length = 3 := by decide
theorem len_dad : ("dad" : String).length = 3 := by decide
theorem len_add : ("add" : String).length = 3 := by decide
theorem len_ddd : ("ddd" : String).length = 3 := by decide

section steps
variable [NonUnitalNonAssocSemiring R] {C : Nat → Coo R} {A : Nat → Nat → Nat → R} {md : Meta} {F N : Nat}
  {mode : Option String} {m : Mode}

theorem Family.at (hC : Family C A md F N) {n : Nat} (h1 : F ≤ n) (h2 : evenLen n ≤ N) :
    (C (evenLen n)).md = md ∧ (C (evenLen n)).rows = evenLen n ∧ (C (evenLen n)).cols = evenLen n ∧
      ∀ i j, i < evenLen n → j < evenLen n → (C (evenLen n)).den i j = A (evenLen n) i j := by
  have e := evenLen_even n
  have l := le_evenLen n
  exact ⟨hC.md _ e (by omega) h2, hC.rows _ e (by omega) h2, hC.cols _ e (by omega) h2,
    fun i j hi hj => hC.den _ i j e (by omega) h2 hi hj⟩

theorem evenLen_halves (n : Nat) : evenLen n = evenLen n / 2 + evenLen n / 2 := by
  have := evenLen_even n; omega

theorem mat2Step_ok {B : Nat} (hB : 1 ≤ B) (hm : Selects mode m) (hF : 2 ≤ F) (hC : Family C A md F N) :
    MStepOk (mat2Step mode) (matsAt C) (matBand m A) md B 2 F N IsTupleSwapped (fun ns X t => ShowsN t md B ns X) := by
  intro ns X t hl hge hN h
  match ns, hl with
  | [p, q], _ =>
  have hp : F ≤ p := hge p (by simp)
  have hq : F ≤ q := hge q (by simp)
  obtain ⟨u, eu, su⟩ := addPadding2_ok hm h (by simp) (fun n hn => le_trans hF (hge n hn))
  have lp := le_evenLen p
  have lq := le_evenLen q
  have ep := evenLen_halves p
  have eq := evenLen_halves q
  obtain ⟨c1, c2, c3, c4⟩ := hC.at hp (hN p (by simp))
  obtain ⟨d1, d2, d3, d4⟩ := hC.at hq (hN q (by simp))
  obtain ⟨v1, v, ev1, ev, sv⟩ := mul2_ok (C := C (evenLen p)) (D := C (evenLen q)) su hB (by omega) (by omega)
    c1 c2 c3 c4 d1 d2 d3 d4
  obtain ⟨a, d, e1, sa, sd⟩ := splitTwo_ok sv (i := 0) (n := evenLen p / 2) (by simp) (by simpa using ep) (by omega)
  obtain ⟨ll, lh, e2, sll, slh⟩ := splitTwo_ok sa (i := 1) (n := evenLen q / 2) (by simp) (by simpa using eq) (by omega)
  obtain ⟨hl', hh, e3, shl, shh⟩ := splitTwo_ok sd (i := 1) (n := evenLen q / 2) (by simp) (by simpa using eq) (by omega)
  have key : ∀ (bs : List Bool) (b : Nat) (ks : List Nat), bs.length = 2 → InB [evenLen p / 2, evenLen q / 2] ks →
      mulN [(A (evenLen p), evenLen p), (A (evenLen q), evenLen q)] (evenExtN m [p, q] (X b)) (bandPos bs [p, q] ks)
        = matBand m A bs [p, q] (X b) ks := by
    intro bs b ks hb hk
    rw [matBand_eq m A bs [p, q] (X b) ks hb hk.length_eq]
    rfl
  refine ⟨ll, .tuple lh hl' hh, ?_, ?_, lh, hl', hh, rfl, ?_, ?_, ?_⟩
  · unfold mat2Step matsAt
    simp only [List.map_cons, List.map_nil, List.getD_cons_zero, List.getD_cons_succ]
    simp only [bind, Except.bind, eu, ev1, ev, e1, e2, e3]
    rfl
  · refine sll.congr fun b ks _ hk => ?_
    match ks, hk with
    | [k, l], hk => exact key [false, false] b [k, l] rfl hk
  · refine slh.congr fun b ks _ hk => ?_
    match ks, hk with
    | [k, l], hk => exact key [false, true] b [k, l] rfl hk
  · refine shl.congr fun b ks _ hk => ?_
    match ks, hk with
    | [k, l], hk => exact key [true, false] b [k, l] rfl hk
  · refine shh.congr fun b ks _ hk => ?_
    match ks, hk with
    | [k, l], hk => exact key [true, true] b [k, l] rfl hk

theorem splitRec3_ok {t a d aa da ad dd aaa daa ada dda aad dad add ddd : Tensor R}
    (h1 : splitTwo t (t.rank - 1) (t.sizeFromEnd 1 / 2) = .ok (a, d))
    (h2 : splitTwo a (a.rank - 2) (a.sizeFromEnd 2 / 2) = .ok (aa, da))
    (h3 : splitTwo aa (aa.rank - 3) (aa.sizeFromEnd 3 / 2) = .ok (aaa, daa))
    (h4 : splitTwo da (da.rank - 3) (da.sizeFromEnd 3 / 2) = .ok (ada, dda))
    (h5 : splitTwo d (d.rank - 2) (d.sizeFromEnd 2 / 2) = .ok (ad, dd))
    (h6 : splitTwo ad (ad.rank - 3) (ad.sizeFromEnd 3 / 2) = .ok (aad, dad))
    (h7 : splitTwo dd (dd.rank - 3) (dd.sizeFromEnd 3 / 2) = .ok (add, ddd)) :
    splitRec 3 "" t [] = .ok [("a", a), ("aa", aa), ("aaa", aaa), ("daa", daa), ("da", da), ("ada", ada),
      ("dda", dda), ("d", d), ("ad", ad), ("aad", aad), ("dad", dad), ("dd", dd), ("add", add), ("ddd", ddd)] := by
  simp [splitRec, bind, Except.bind, len_a, len_d, len_aa, len_ad, len_da, len_dd, h1, h2, h3, h4, h5, h6, h7]

theorem mat3Step_ok {B : Nat} (hm : Selects mode m) (hF : 2 ≤ F) (hC : Family C A md F N) :
    MStepOk (mat3Step mode) (matsAt C) (matBand m A) md B 3 F N (IsDict keysM3) (fun ns X t => ShowsN t md B ns X) := by
  intro ns X t hl hge hN h
  match ns, hl with
  | [p, q, r], _ =>
  have hp : F ≤ p := hge p (by simp)
  have hq : F ≤ q := hge q (by simp)
  have hr : F ≤ r := hge r (by simp)
  obtain ⟨u, eu, su⟩ := oddPad_ok hm h (by simp) (fun n hn => le_trans hF (hge n hn))
  have lp := le_evenLen p
  have lq := le_evenLen q
  have lr := le_evenLen r
  have ep := evenLen_halves p
  have eq := evenLen_halves q
  have er := evenLen_halves r
  obtain ⟨c1, c2, c3, c4⟩ := hC.at hp (hN p (by simp))
  obtain ⟨d1, d2, d3, d4⟩ := hC.at hq (hN q (by simp))
  obtain ⟨f1, f2, f3, f4⟩ := hC.at hr (hN r (by simp))
  obtain ⟨v, ev, sv⟩ := mul3_ok (C := C (evenLen p)) (D := C (evenLen q)) (E := C (evenLen r)) su (by omega) (by omega)
    (by omega) c1 c2 c3 c4 d1 d2 d3 d4 f1 f2 f3 f4
  obtain ⟨a, d, e1, sa, sd⟩ := splitTwo_ok sv (i := 2) (n := evenLen r / 2) (by simp) (by simpa using er) (by omega)
  obtain ⟨aa, da, e2, saa, sda⟩ := splitTwo_ok sa (i := 1) (n := evenLen q / 2) (by simp) (by simpa using eq) (by omega)
  obtain ⟨ad, dd, e3, sad, sdd⟩ := splitTwo_ok sd (i := 1) (n := evenLen q / 2) (by simp) (by simpa using eq) (by omega)
  obtain ⟨aaa, daa, e4, saaa, sdaa⟩ := splitTwo_ok saa (i := 0) (n := evenLen p / 2) (by simp) (by simpa using ep) (by omega)
  obtain ⟨ada, dda, e5, sada, sdda⟩ := splitTwo_ok sda (i := 0) (n := evenLen p / 2) (by simp) (by simpa using ep) (by omega)
  obtain ⟨aad, dad, e6, saad, sdad⟩ := splitTwo_ok sad (i := 0) (n := evenLen p / 2) (by simp) (by simpa using ep) (by omega)
  obtain ⟨add, ddd, e7, sadd, sddd⟩ := splitTwo_ok sdd (i := 0) (n := evenLen p / 2) (by simp) (by simpa using ep) (by omega)
  have hsp := splitRec3_ok (t := v) (a := a) (d := d) (aa := aa) (da := da) (ad := ad) (dd := dd) (aaa := aaa)
    (daa := daa) (ada := ada) (dda := dda) (aad := aad) (dad := dad) (add := add) (ddd := ddd)
    (by unfold Tensor.rank Tensor.sizeFromEnd; rw [sv.shape]; exact e1)
    (by unfold Tensor.rank Tensor.sizeFromEnd; rw [sa.shape]; exact e2)
    (by unfold Tensor.rank Tensor.sizeFromEnd; rw [saa.shape]; exact e4)
    (by unfold Tensor.rank Tensor.sizeFromEnd; rw [sda.shape]; exact e5)
    (by unfold Tensor.rank Tensor.sizeFromEnd; rw [sd.shape]; exact e3)
    (by unfold Tensor.rank Tensor.sizeFromEnd; rw [sad.shape]; exact e6)
    (by unfold Tensor.rank Tensor.sizeFromEnd; rw [sdd.shape]; exact e7)
  have key : ∀ (bs : List Bool) (b : Nat) (ks : List Nat), bs.length = 3 →
      InB [evenLen p / 2, evenLen q / 2, evenLen r / 2] ks →
      mulN [(A (evenLen p), evenLen p), (A (evenLen q), evenLen q), (A (evenLen r), evenLen r)]
        (evenExtN m [p, q, r] (X b)) (bandPos bs [p, q, r] ks) = matBand m A bs [p, q, r] (X b) ks := by
    intro bs b ks hb hk
    rw [matBand_eq m A bs [p, q, r] (X b) ks hb hk.length_eq]
    rfl
  refine ⟨aaa, .dict [("daa", daa), ("ada", ada), ("dda", dda), ("aad", aad), ("dad", dad), ("add", add),
    ("ddd", ddd)], ?_, ?_, _, rfl, rfl, ?_⟩
  · unfold mat3Step matsAt
    simp only [List.map_cons, List.map_nil, List.reverse_cons, List.reverse_nil, List.nil_append, List.cons_append]
    simp only [bind, Except.bind, eu, ev, hsp]
    simp [dictGet, List.find?, List.filter, len_a, len_d, len_aa, len_da, len_ad, len_dd, len_aaa, len_daa, len_ada, len_dda, len_aad, len_dad, len_add, len_ddd, pure, Except.pure]
  · refine saaa.congr fun b ks _ hk => ?_
    match ks, hk with
    | [k, l, o], hk => exact key [false, false, false] b [k, l, o] rfl hk
  · intro z hz
    simp only [List.mem_cons, List.not_mem_nil, or_false] at hz
    rcases hz with rfl | rfl | rfl | rfl | rfl | rfl | rfl
    · refine ShowsN.congr sdaa fun b ks _ hk => ?_
      rw [key_daa]
      match ks, hk with
      | [k, l, o], hk => exact key [true, false, false] b [k, l, o] rfl hk
    · refine ShowsN.congr sada fun b ks _ hk => ?_
      rw [key_ada]
      match ks, hk with
      | [k, l, o], hk => exact key [false, true, false] b [k, l, o] rfl hk
    · refine ShowsN.congr sdda fun b ks _ hk => ?_
      rw [key_dda]
      match ks, hk with
      | [k, l, o], hk => exact key [true, true, false] b [k, l, o] rfl hk
    · refine ShowsN.congr saad fun b ks _ hk => ?_
      rw [key_aad]
      match ks, hk with
      | [k, l, o], hk => exact key [false, false, true] b [k, l, o] rfl hk
    · refine ShowsN.congr sdad fun b ks _ hk => ?_
      rw [key_dad]
      match ks, hk with
      | [k, l, o], hk => exact key [true, false, true] b [k, l, o] rfl hk
    · refine ShowsN.congr sadd fun b ks _ hk => ?_
      rw [key_add]
      match ks, hk with
      | [k, l, o], hk => exact key [false, true, true] b [k, l, o] rfl hk
    · refine ShowsN.congr sddd fun b ks _ hk => ?_
      rw [key_ddd]
      match ks, hk with
      | [k, l, o], hk => exact key [true, true, true] b [k, l, o] rfl hk

end steps

end Verif
