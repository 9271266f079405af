/-
One step of the non-separable two-dimensional matrix transform: images read column by column.
-/
import Verif.Lemmas.MatNRec
import Verif.Spec.MatNonsep
import Verif.Lemmas.Orth2

namespace Verif
open Tensor Spec
variable {R : Type}

/-- The image read column by column. -/
def colRead (h : Nat) (X : Nat → List Nat → R) (b k : Nat) : R := X b [k % h, k / h]

theorem flatCols_ok [Zero R] {t : Tensor R} {md : Meta} {B h w : Nat} {X : Nat → List Nat → R}
    (ht : ShowsN t md B [h, w] X) (hB : 1 ≤ B) :
    ∃ u, flatCols t B = .ok u ∧ Shows u md B (h * w) (colRead h X) := by
  have hs := ht.swap
  have hp : prodL (t.transpose 1 2).shape = w * h * B := by rw [hs.shape]; simp; ring
  obtain ⟨u, eu, um, us, ug⟩ := reshape_ok (t := t.transpose 1 2) (sh := [B, w * h]) (by rw [hp]; simp; ring)
  refine ⟨u, ?_, um.trans hs.md, by rw [us, Nat.mul_comm], ?_⟩
  · unfold flatCols Tensor.reshapeInfer
    simp only [prodL_nil, prodL_cons, Nat.mul_one]
    rw [if_neg (by omega), hp, if_pos (Nat.mul_mod_left _ _), Nat.mul_div_cancel _ (by omega)]
    exact eu
  · intro b k hb hk
    have h0 : 0 < h := by
      rcases Nat.eq_zero_or_pos h with h0 | h0
      · subst h0; simp at hk
      · exact h0
    have h1 : k % h < h := Nat.mod_lt _ h0
    have h2 : k / h < w := by rw [Nat.div_lt_iff_lt_mul h0, Nat.mul_comm]; exact hk
    rw [ug [b, k / h, k % h] [b, k] (by rw [hs.shape]; exact ⟨hb, h2, h1, trivial⟩)
      ⟨hb, by rw [Nat.mul_comm]; exact hk, trivial⟩ (by
        rw [hs.shape]
        simp only [ravel, prodL_cons, prodL_nil, Nat.mul_one, Nat.add_zero]
        have := Nat.div_add_mod k h
        rw [Nat.mul_comm] at this
        omega)]
    exact hs.get b [k / h, k % h] hb ⟨h2, h1, trivial⟩

theorem unflatCols_ok [Zero R] {t : Tensor R} {md : Meta} {B h w : Nat} {Y : Nat → Nat → R}
    (ht : Cols t md (h * w) B Y) :
    ∃ u, unflatCols t B h w = .ok u ∧ ShowsN u md B [h, w] (fun b ks => Y b (ks.getD 1 0 * h + ks.getD 0 0)) := by
  have hs := ht.matT
  obtain ⟨u, eu, um, us, ug⟩ := reshape_ok (t := t.matT) (sh := [B, w, h]) (by
    rw [hs.shape]; simp only [prodL_cons, prodL_nil, Nat.mul_one]; rw [Nat.mul_comm w h])
  have hu : ShowsN u md B [w, h] (fun b ks => Y b (ks.getD 0 0 * h + ks.getD 1 0)) := by
    refine ⟨um.trans hs.md, us, ?_⟩
    intro b ks hb hk
    match ks, hk with
    | [J, c], ⟨h1, h2, _⟩ =>
      have hlt : J * h + c < h * w := by
        calc J * h + c < J * h + h := by omega
          _ = (J + 1) * h := by ring
          _ ≤ w * h := Nat.mul_le_mul_right h h1
          _ = h * w := Nat.mul_comm _ _
      rw [ug [b, J * h + c] [b, J, c] (by rw [hs.shape]; exact ⟨hb, hlt, trivial⟩) ⟨hb, h1, h2, trivial⟩ (by
        rw [hs.shape]
        simp only [ravel, prodL_cons, prodL_nil, Nat.mul_one, Nat.add_zero]
        rw [Nat.mul_comm h w])]
      exact hs.get b _ hb hlt
  refine ⟨u.transpose 1 2, ?_, hu.swap⟩
  unfold unflatCols
  simp only [bind, Except.bind, eu]
  rfl

theorem splitRows_ok [Zero R] {t : Tensor R} {md : Meta} {B q : Nat} {Y : Nat → Nat → R}
    (ht : Cols t md (4 * q) B Y) (hq : 1 ≤ q) :
    ∃ a b c d, splitRows t q = .ok [a, b, c, d] ∧ Cols a md q B (fun β k => Y β (0 * q + k)) ∧
      Cols b md q B (fun β k => Y β (1 * q + k)) ∧ Cols c md q B (fun β k => Y β (2 * q + k)) ∧
      Cols d md q B (fun β k => Y β (3 * q + k)) := by
  have hn : t.shape.getD 0 0 = 4 * q := by rw [ht.shape]; rfl
  have sl : ∀ i, i < 4 → Cols (t.slice 0 (i * q) ((i + 1) * q)) md q B (fun β k => Y β (i * q + k)) := by
    intro i hi
    have h1 : (i + 1) * q ≤ 4 * q := Nat.mul_le_mul_right q (by omega)
    have h2 : (i + 1) * q = i * q + q := by ring
    have := ht.slice (a := i * q) (b := (i + 1) * q) (by omega) h1
    rw [h2, Nat.add_sub_cancel_left] at this
    rw [h2]
    exact this
  refine ⟨_, _, _, _, ?_, sl 0 (by omega), sl 1 (by omega), sl 2 (by omega), sl 3 (by omega)⟩
  unfold splitRows
  simp only [hn]
  rw [if_neg (by omega), if_neg (by omega)]
  have e : (4 * q + q - 1) / q = 4 := by
    apply Nat.div_eq_of_lt_le
    · omega
    · have : (4 + 1) * q = 4 * q + q := by ring
      omega
  rw [e]
  rfl

/-- The state of the analysis loop: one image per column of a matrix, read column by column. -/
def StCols [Zero R] (md : Meta) (B : Nat) (ns : List Nat) (X : Nat → List Nat → R) (t : Tensor R) : Prop :=
  Cols t md (ns.getD 0 0 * ns.getD 1 0) B (colRead (ns.getD 0 0) X)

section steps
variable [NonUnitalNonAssocSemiring R] {mode : Option String} {m : Mode} {md : Meta} {B : Nat}

theorem flag_sub (p : Nat) : evenLen p - (if decide (p % 2 ≠ 0) = true then 1 else 0) = p := by
  unfold evenLen
  split_ifs with h <;> simp at h <;> omega

theorem nonsepPad_ok (hm : Selects mode m) (hB : 1 ≤ B) {p q : Nat} (hp : 2 ≤ p) (hq : 2 ≤ q) {t : Tensor R}
    {X : Nat → List Nat → R} (h : StCols md B [p, q] X t) :
    ∃ u, nonsepPad mode (matrixPadFlags [p, q]) ([p, q].map evenLen) B t = .ok u ∧
      StCols md B [evenLen p, evenLen q] (fun b => evenExtN m [p, q] (X b)) u := by
  unfold nonsepPad
  by_cases ha : (matrixPadFlags [p, q]).any id = true
  · rw [if_pos ha]
    have e0 : ([p, q].map evenLen).getD 0 0 - (if (matrixPadFlags [p, q]).getD 0 false = true then 1 else 0) = p := flag_sub p
    have e1 : ([p, q].map evenLen).getD 1 0 - (if (matrixPadFlags [p, q]).getD 1 false = true then 1 else 0) = q := flag_sub q
    obtain ⟨v, ev, sv⟩ := unflatCols_ok (h := p) (w := q) h
    have sv' : ShowsN v md B [p, q] X := by
      refine sv.congr fun b ks _ hk => ?_
      match ks, hk with
      | [c, J], ⟨h1, h2, _⟩ =>
        show X b [(J * p + c) % p, (J * p + c) / p] = _
        rw [pix_mod h1, pix_div h1]
    obtain ⟨u, eu, su⟩ := addPadding2_ok hm sv' (by simp) (by simp [hp, hq])
    obtain ⟨f, ef, sf⟩ := flatCols_ok (h := evenLen p) (w := evenLen q) su hB
    refine ⟨f.matT, ?_, sf.matT⟩
    rw [e0, e1]
    simp only [bind, Except.bind, ev, eu, ef]
    rfl
  · rw [if_neg ha]
    have he := any_flags [p, q] (by simpa using ha)
    simp only [List.map_cons, List.map_nil, List.cons.injEq, and_true] at he
    refine ⟨t, rfl, ?_⟩
    rw [he.1, he.2]
    refine Cols.congr h fun b k _ hk => ?_
    have hk : k < p * q := hk
    have h0 : 0 < p := by omega
    show X b [k % p, k / p] = evenExtN m [p, q] (X b) [k % p, k / p]
    rw [evenExtN_inside]
    exact ⟨Nat.mod_lt _ h0, by rw [Nat.div_lt_iff_lt_mul h0, Nat.mul_comm]; exact hk, trivial⟩

/-- One matrix per pair of even sizes. -/
structure Family2 (C : Nat → Nat → Coo R) (A : Nat → Nat → Nat → Nat → R) (md : Meta) (F N : Nat) : Prop where
  at' : ∀ h w, h % 2 = 0 → w % 2 = 0 → F ≤ h → F ≤ w → h ≤ N → w ≤ N →
    (C h w).md = md ∧ (C h w).rows = h * w ∧ (C h w).cols = h * w ∧
      ∀ i j, i < h * w → j < h * w → (C h w).den i j = A h w i j

/-- The matrix of a level. -/
def mats2At (C : Nat → Nat → Coo R) (ns : List Nat) : List (Coo R) :=
  [C (evenLen (ns.getD 0 0)) (evenLen (ns.getD 1 0))]

theorem Family2.at {C : Nat → Nat → Coo R} {A : Nat → Nat → Nat → Nat → R} {F N : Nat} (hC : Family2 C A md F N)
    {p q : Nat} (hp : F ≤ p) (hq : F ≤ q) (hp' : evenLen p ≤ N) (hq' : evenLen q ≤ N) :
    (C (evenLen p) (evenLen q)).md = md ∧ (C (evenLen p) (evenLen q)).rows = evenLen p * evenLen q ∧
      (C (evenLen p) (evenLen q)).cols = evenLen p * evenLen q ∧
      ∀ i j, i < evenLen p * evenLen q → j < evenLen p * evenLen q →
        (C (evenLen p) (evenLen q)).den i j = A (evenLen p) (evenLen q) i j := by
  have := le_evenLen p
  have := le_evenLen q
  exact hC.at' _ _ (evenLen_even p) (evenLen_even q) (by omega) (by omega) hp' hq'

theorem quarter4 (p q : Nat) : evenLen p * evenLen q = 4 * (evenLen p / 2 * (evenLen q / 2)) := by
  have e1 : evenLen p = 2 * (evenLen p / 2) := by have := evenLen_even p; omega
  have e2 : evenLen q = 2 * (evenLen q / 2) := by have := evenLen_even q; omega
  conv_lhs => rw [e1, e2]
  ring

/-- The product of the matrix with the extended image. -/
def prod2 (m : Mode) (A : Nat → Nat → Nat → Nat → R) (p q : Nat) (X : Nat → List Nat → R) (b i : Nat) : R :=
  ∑ j ∈ Finset.range (evenLen p * evenLen q), A (evenLen p) (evenLen q) i j *
    colRead (evenLen p) (fun b => evenExtN m [p, q] (X b)) b j

theorem nonsepBand_eq (A : Nat → Nat → Nat → Nat → R) (p q : Nat) (X : Nat → List Nat → R) (b : Nat) (bs : List Bool)
    (r s : Nat) : nonsepBand m A bs [p, q] (X b) [r, s] =
      prod2 m A p q X b (bandNo bs * (evenLen p / 2 * (evenLen q / 2)) + (s * (evenLen p / 2) + r)) := by
  unfold prod2 colRead evenExtN
  rw [← Nat.add_assoc]
  rfl

theorem mat2NonsepStep_ok (hB : 1 ≤ B) (hm : Selects mode m) {F N : Nat} (hF : 2 ≤ F) {C : Nat → Nat → Coo R}
    {A : Nat → Nat → Nat → Nat → R} (hC : Family2 C A md F N) :
    MStepOk (mat2NonsepStep mode B) (mats2At C) (nonsepBand m A) md B 2 F N IsTuple (StCols md B) := by
  intro ns X t hl hge hN h
  match ns, hl with
  | [p, q], _ =>
  have hp : F ≤ p := hge p (by simp)
  have hq : F ≤ q := hge q (by simp)
  have lp := le_evenLen p
  have lq := le_evenLen q
  have ep := evenLen_even p
  have eq := evenLen_even q
  obtain ⟨u, eu, su⟩ := nonsepPad_ok hm hB (p := p) (q := q) (by omega) (by omega) h
  obtain ⟨c1, c2, c3, c4⟩ := hC.at hp hq (hN p (by simp)) (hN q (by simp))
  obtain ⟨y, ey, ym, ys, yg⟩ := Coo.mmDense_ok (A := C (evenLen p) (evenLen q)) (X := u) (k := B)
    (by rw [su.shape, c3]; rfl) (by rw [c1, su.md])
  have sy : Cols y md (4 * (evenLen p / 2 * (evenLen q / 2))) B (prod2 m A p q X) := by
    rw [← quarter4]
    refine ⟨ym.trans su.md, by rw [ys, c2], ?_⟩
    intro k b hk hb
    rw [yg k b (by rw [c2]; exact hk) hb, c3]
    refine Finset.sum_congr rfl fun j hj => ?_
    rw [Finset.mem_range] at hj
    rw [c4 k j hk hj, su.get j b hj hb]
    rfl
  have h1 : 1 ≤ evenLen p / 2 * (evenLen q / 2) := Nat.mul_pos (by omega) (by omega)
  obtain ⟨c0, d1, d2, d3, es, s0, s1, s2, s3⟩ := splitRows_ok sy h1
  obtain ⟨lh, e1, r1⟩ := unflatCols_ok s1
  obtain ⟨hl', e2, r2⟩ := unflatCols_ok s2
  obtain ⟨hh, e3, r3⟩ := unflatCols_ok s3
  refine ⟨c0, .tuple lh hl' hh, ?_, ?_, lh, hl', hh, rfl, ?_, ?_, ?_⟩
  · unfold mat2NonsepStep mats2At
    simp only [List.getD_cons_zero, List.getD_cons_succ, bind, Except.bind, eu, ey]
    simp only [List.map_cons, List.map_nil, List.getD_cons_zero, List.getD_cons_succ, es, e1, e2, e3]
    rfl
  · refine Cols.congr s0 fun b k _ hk => ?_
    show _ = nonsepBand m A [false, false] [p, q] (X b) [k % (evenLen p / 2), k / (evenLen p / 2)]
    rw [nonsepBand_eq]
    congr 1
    show 0 * _ + k = 0 * _ + _
    have := Nat.div_add_mod k (evenLen p / 2)
    rw [Nat.mul_comm] at this
    omega
  · refine ShowsN.congr r1 fun b ks _ hk => ?_
    match ks, hk with
    | [r, s], _ => exact (nonsepBand_eq A p q X b [true, false] r s).symm
  · refine ShowsN.congr r2 fun b ks _ hk => ?_
    match ks, hk with
    | [r, s], _ => exact (nonsepBand_eq A p q X b [false, true] r s).symm
  · refine ShowsN.congr r3 fun b ks _ hk => ?_
    match ks, hk with
    | [r, s], _ => exact (nonsepBand_eq A p q X b [true, true] r s).symm

end steps

theorem Shows.catCols [Zero R] {s t : Tensor R} {md : Meta} {B n k : Nat} {X Y : Nat → Nat → R}
    (hs : Shows s md B n X) (ht : Shows t md B k Y) :
    ∃ u, cat2 s t 1 = .ok u ∧ Shows u md B (n + k) (fun b i => if i < n then X b i else Y b (i - n)) := by
  unfold cat2
  rw [if_pos ⟨by rw [hs.md, ht.md], by rw [hs.shape, ht.shape]; rfl, by rw [hs.shape, ht.shape]; rfl⟩]
  refine ⟨_, rfl, hs.md, ?_, ?_⟩
  · show s.shape.set 1 _ = _
    rw [hs.shape, ht.shape]; rfl
  · intro b i hb hi
    rw [ofFn_get_of _ _ (by rw [hs.shape, ht.shape]; exact ⟨hb, hi, trivial⟩)]
    rw [hs.shape]
    simp only [List.getD_cons_zero, List.getD_cons_succ, List.set_cons_zero, List.set_cons_succ]
    split_ifs with h
    · exact hs.get b i hb h
    · exact ht.get b _ hb (by omega)

section recsteps
variable [CommRing R] {m : Mode} {md : Meta} {B : Nat}

theorem colRead_band {p q : Nat} {A : Nat → Nat → Nat → Nat → R} {X : Nat → List Nat → R} {t : Tensor R}
    {bs : List Bool} {n : Nat} (hn : bandNo bs = n)
    (h : Shows t md B (evenLen p / 2 * (evenLen q / 2)) (colRead (evenLen p / 2) fun b => nonsepBand m A bs [p, q] (X b))) :
    Shows t md B (evenLen p / 2 * (evenLen q / 2))
      (fun b i => prod2 m A p q X b (n * (evenLen p / 2 * (evenLen q / 2)) + i)) := by
  refine h.congr fun b i _ hi => ?_
  show nonsepBand m A bs [p, q] (X b) [i % (evenLen p / 2), i / (evenLen p / 2)] = _
  rw [nonsepBand_eq, hn]
  congr 2
  have := Nat.div_add_mod i (evenLen p / 2)
  rw [Nat.mul_comm] at this
  omega

theorem mrec2NonsepStep_ok (hB : 1 ≤ B) {F N : Nat} {C : Nat → Nat → Coo R}
    {A : Nat → Nat → Nat → Nat → R} (hC : Family2 C A md F N)
    (hA : ∀ h w, h % 2 = 0 → w % 2 = 0 → F ≤ h → F ≤ w → h ≤ N → w ≤ N → OrthonormalCols (h * w) (A h w)) :
    RStepOk (mrec2Step false B) (mats2At fun h w => (C h w).transpose) m (nonsepBand m A) md B 2 F N IsTuple
      (fun ns X t => ShowsN t md B ns X) := by
  intro ns X u e fin hl hge hN hu he hf
  match ns, hl with
  | [p, q], _ =>
  obtain ⟨lh, hl, hh, rfl, s1, s2, s3⟩ := he
  have hp : F ≤ p := hge p (by simp)
  have hq : F ≤ q := hge q (by simp)
  have lp := le_evenLen p
  have lq := le_evenLen q
  have ep := evenLen_even p
  have eq := evenLen_even q
  obtain ⟨f0, e0, g0⟩ := flatCols_ok (h := evenLen p / 2) (w := evenLen q / 2) hu hB
  obtain ⟨f1, e1, g1⟩ := flatCols_ok (h := evenLen p / 2) (w := evenLen q / 2) s1 hB
  obtain ⟨f2, e2, g2⟩ := flatCols_ok (h := evenLen p / 2) (w := evenLen q / 2) s2 hB
  obtain ⟨f3, e3, g3⟩ := flatCols_ok (h := evenLen p / 2) (w := evenLen q / 2) s3 hB
  have g0 := colRead_band (n := 0) rfl g0
  have g1 := colRead_band (n := 1) rfl g1
  have g2 := colRead_band (n := 2) rfl g2
  have g3 := colRead_band (n := 3) rfl g3
  set Q := evenLen p / 2 * (evenLen q / 2) with hQ
  obtain ⟨a1, k1, t1⟩ := g0.catCols g1
  obtain ⟨a2, k2, t2⟩ := t1.catCols g2
  obtain ⟨a3, k3, t3⟩ := t2.catCols g3
  have t3' : Shows a3 md B (evenLen p * evenLen q) (prod2 m A p q X) := by
    rw [quarter4, ← hQ]
    have : Q + Q + Q + Q = 4 * Q := by ring
    rw [this] at t3
    refine t3.congr fun b i _ hi => ?_
    split_ifs with h1 h2 h3
    · congr 1; omega
    · congr 1; omega
    · congr 1; omega
    · congr 1; omega
  have hc := t3'.matT
  obtain ⟨c1, c2, c3, c4⟩ := hC.at hp hq (hN p (by simp)) (hN q (by simp))
  obtain ⟨y, ey, ym, ys, yg⟩ := Coo.mmDense_ok (A := (C (evenLen p) (evenLen q)).transpose) (X := a3.matT) (k := B)
    (by rw [hc.shape]; show _ = [(C (evenLen p) (evenLen q)).rows, B]; rw [c2])
    (by rw [hc.md]; exact c1)
  have sy : Cols y md (evenLen p * evenLen q) B (colRead (evenLen p) fun b => evenExtN m [p, q] (X b)) := by
    refine ⟨ym.trans hc.md, by rw [ys]; show [(C (evenLen p) (evenLen q)).cols, B] = _; rw [c3], ?_⟩
    intro k b hk hb
    rw [yg k b (by show k < (C (evenLen p) (evenLen q)).cols; rw [c3]; exact hk) hb]
    show (∑ j ∈ Finset.range (C (evenLen p) (evenLen q)).rows, _) = _
    rw [c2]
    have hor := hA _ _ ep eq (show F ≤ evenLen p by omega) (show F ≤ evenLen q by omega) (hN p (by simp)) (hN q (by simp))
    rw [← synth_analysis hor (fun j => colRead (evenLen p) (fun b => evenExtN m [p, q] (X b)) b j) hk]
    refine Finset.sum_congr rfl fun j hj => ?_
    rw [Finset.mem_range] at hj
    rw [Coo.transpose_den, c4 j k hj hk, hc.get j b hj hb]
    rfl
  obtain ⟨v, ev, sv⟩ := unflatCols_ok sy
  have sv' : ShowsN v md B [evenLen p, evenLen q] (fun b => evenExtN m [p, q] (X b)) := by
    refine sv.congr fun b ks _ hk => ?_
    match ks, hk with
    | [c, J], ⟨h1, h2, _⟩ =>
      show evenExtN m [p, q] (X b) [(J * evenLen p + c) % evenLen p, (J * evenLen p + c) / evenLen p] = _
      rw [pix_mod h1, pix_div h1]
  obtain ⟨z, ez, z1, z2⟩ := rec2Crop_ok (D := IsTuple)
    (by rintro P e ⟨h, v, d, rfl, h1, _⟩; exact ⟨_, _, _, rfl, _, h1⟩) sv' hf
  refine ⟨z, ?_, fun h => by rw [z1 h]; exact sv', fun h => ?_⟩
  · unfold mrec2Step
    simp only
    rw [if_pos ⟨by rw [s1.shape, hu.shape], by rw [s2.shape, hu.shape], by rw [s3.shape, hu.shape]⟩]
    unfold rec2MulNonsep mats2At
    have b2 : u.sizeFromEnd 2 * 2 = evenLen p := by
      unfold Tensor.sizeFromEnd; rw [hu.shape]; show evenLen p / 2 * 2 = _; omega
    have b1 : u.sizeFromEnd 1 * 2 = evenLen q := by
      unfold Tensor.sizeFromEnd; rw [hu.shape]; show evenLen q / 2 * 2 = _; omega
    simp only [List.getD_cons_zero, List.getD_cons_succ, Bool.false_eq_true, if_false, b1, b2]
    simp only [bind, Except.bind, e0, e1, e2, e3, k1, k2, k3, ey, ev]
    exact ez
  · exact (z2 h).congr fun b ks _ hk => evenExtN_inside m _ hk

end recsteps

end Verif
