import Verif.Lemmas.MatSynN

/-! The steps of the matrix synthesis on arbitrary bands. -/

namespace Verif
open Tensor Spec
variable {R : Type}

section steps
variable [CommRing R] {C : Nat → Coo R} {T : Nat → Nat → Nat → R} {md : Meta} {F N : Nat}

theorem two_half (n : Nat) : 2 * (evenLen n / 2) = evenLen n := by
  have := evenLen_even n; omega

theorem synStep2_ok {B : Nat} (hB : 1 ≤ B) (hF : 2 ≤ F) (hC : Family C T md F N) :
    SynStepOk (mrec2Step true B) (matsAt C) (matSynthN T) md B 2 F N IsTupleSwapped (fun ns X t => ShowsN t md B ns X) := by
  intro ns c u e fin hl hge hN hu he hf
  match ns, hl with
  | [p, q], _ =>
  obtain ⟨lh, hl, hh, rfl, s1, s2, s3⟩ := he
  have hp : F ≤ p := hge p (by simp)
  have hq : F ≤ q := hge q (by simp)
  have lp := le_evenLen p
  have lq := le_evenLen q
  have ep := evenLen_halves p
  have eq := evenLen_halves q
  set G : Nat → List Nat → R := fun b => joinedN (halfLens [p, q]) (c b) with hG
  have toG : ∀ {t : Tensor R} (bs : List Bool), bs.length = 2 →
      ShowsN t md B (halfLens [p, q]) (fun b => c b bs) →
      ShowsN t md B [evenLen p / 2, evenLen q / 2] (fun b ks => G b (bandPos bs [p, q] ks)) := by
    intro t bs hb ht
    exact ShowsN.congr ht fun b ks _ hk => (joined_bandPos bs [p, q] (c b) ks hb hk).symm
  obtain ⟨a, d, j, ea, ed, ej, sj⟩ := joinBands2 (toG [false, false] rfl hu) (toG [false, true] rfl s1)
    (toG [true, false] rfl s2) (toG [true, true] rfl s3)
  obtain ⟨c1, c2, c3, c4⟩ := hC.at hp (hN p (by simp))
  obtain ⟨d1, d2, d3, d4⟩ := hC.at hq (hN q (by simp))
  obtain ⟨v1, v, ev1, ev, sv⟩ := mul2_ok sj hB (by omega) (by omega) c1 c2 c3 c4 d1 d2 d3 d4
  have sv' : ShowsN v md B [evenLen p, evenLen q] (fun b => matSynthN T (halfLens [p, q]) (c b)) := by
    refine sv.congr fun b ks _ hk => ?_
    rw [← mulN_joined (T := T) (halfLens [p, q]) (c b) ks (by rw [hk.length_eq]; rfl)]
    simp only [halfLens, List.map_cons, List.map_nil, two_half, hG]
  obtain ⟨z, ez, z1, z2⟩ := rec2Crop_ok (D := IsTupleSwapped)
    (by rintro P e ⟨h, v, d, rfl, h1, _⟩; exact ⟨_, _, _, rfl, _, h1⟩) sv' hf
  refine ⟨z, ?_, fun h => by rw [z1 h]; exact sv', z2⟩
  unfold mrec2Step
  simp only
  rw [if_pos ⟨by rw [s1.shape, hu.shape], by rw [s2.shape, hu.shape], by rw [s3.shape, hu.shape]⟩]
  unfold rec2Mul matsAt
  simp only [List.map_cons, List.map_nil, if_true]
  simp only [bind, Except.bind, ea, ed, ej, ev1, ev]
  have e2 : u.sizeFromEnd 2 * 2 = evenLen p := by
    unfold Tensor.sizeFromEnd; rw [hu.shape]; show evenLen p / 2 * 2 = _; omega
  have e1 : u.sizeFromEnd 1 * 2 = evenLen q := by
    unfold Tensor.sizeFromEnd; rw [hu.shape]; show evenLen q / 2 * 2 = _; omega
  rw [e1, e2]
  exact ez

theorem synStep3_ok {B : Nat} (hF : 2 ≤ F) (hC : Family C T md F N) :
    SynStepOk (fun ms t e _ => mrec3Step ms t e) (matsAt C) (matSynthN T) md B 3 F N (IsDict keysM3) (StBig md B) := by
  intro ns c u e fin hl hge hN hu he hf
  match ns, hl with
  | [p, q, r], _ =>
  obtain ⟨daa, ada, dda, aad, dad, add, ddd, rfl, s1, s2, s3, s4, s5, s6, s7⟩ := isDictM3_dest he
  have hp : F ≤ p := hge p (by simp)
  have hq : F ≤ q := hge q (by simp)
  have hr : F ≤ r := hge r (by simp)
  have lp := le_evenLen p
  have lq := le_evenLen q
  have lr := le_evenLen r
  have ep := evenLen_halves p
  have eq := evenLen_halves q
  have er := evenLen_halves r
  set G : Nat → List Nat → R := fun b => joinedN (halfLens [p, q, r]) (c b) with hG
  have toG : ∀ {t : Tensor R} (bs : List Bool), bs.length = 3 →
      ShowsN t md B (halfLens [p, q, r]) (fun b => c b bs) →
      ShowsN t md B [evenLen p / 2, evenLen q / 2, evenLen r / 2] (fun b ks => G b (bandPos bs [p, q, r] ks)) := by
    intro t bs hb ht
    exact ShowsN.congr ht fun b ks _ hk => (joined_bandPos bs [p, q, r] (c b) ks hb hk).symm
  have g1 := toG _ rfl s1
  have g2 := toG _ rfl s2
  have g3 := toG _ rfl s3
  have g4 := toG _ rfl s4
  have g5 := toG _ rfl s5
  have g6 := toG _ rfl s6
  have g7 := toG _ rfl s7
  have g0 : StBig md B [evenLen p / 2, evenLen q / 2, evenLen r / 2]
      (fun b ks => G b (bandPos [false, false, false] [p, q, r] ks)) u := by
    obtain ⟨Ks, Y, h1, h2, h3⟩ := hu
    refine ⟨Ks, Y, h1, h2, fun b ks hb hk => ?_⟩
    rw [h3 b ks hb hk]
    exact (joined_bandPos [false, false, false] [p, q, r] (c b) ks rfl hk).symm
  obtain ⟨x1, cda, r1, n1, k1, t1⟩ := catPair_ok (i := 0) (StBig.of_shows g2) g3 (by omega)
  obtain ⟨x2, cad, r2, n2, k2, t2⟩ := catPair_ok (i := 0) (StBig.of_shows g4) g5 (by omega)
  obtain ⟨x3, cdd, r3, n3, k3, t3⟩ := catPair_ok (i := 0) (StBig.of_shows g6) g7 (by omega)
  obtain ⟨x4, caa, r4, n4, k4, t4⟩ := catPair_ok (i := 0) g0 g1 (by omega)
  simp only [List.getD_cons_zero, List.getD_cons_succ, List.set_cons_zero, List.set_cons_succ] at t1 t2 t3 t4
  obtain ⟨x5, cd, r5, n5, k5, t5⟩ := catPair_ok (i := 1) (StBig.of_shows t2) t3 (by omega)
  obtain ⟨x6, ca, r6, n6, k6, t6⟩ := catPair_ok (i := 1) (StBig.of_shows t4) t1 (by omega)
  simp only [List.getD_cons_zero, List.getD_cons_succ, List.set_cons_zero, List.set_cons_succ] at t5 t6
  obtain ⟨x7, j, r7, n7, k7, t7⟩ := catPair_ok (i := 2) (StBig.of_shows t6) t5 (by omega)
  simp only [List.getD_cons_zero, List.getD_cons_succ, List.set_cons_zero, List.set_cons_succ] at t7
  rw [← ep, ← eq, ← er] at t7
  have sj : ShowsN j md B [evenLen p, evenLen q, evenLen r] G := by
    refine t7.congr fun b ks _ hk => ?_
    match ks, hk with
    | [k, l, o], ⟨hk1, hl1, ho1, _⟩ =>
      simp only [List.getD_cons_zero, List.getD_cons_succ, List.set_cons_zero, List.set_cons_succ, bandPos,
        Bool.false_eq_true, if_false, if_true]
      split_ifs with c1 c2 c3 c3 c2 c3 c3
      · rfl
      · rw [show evenLen p / 2 + (k - evenLen p / 2) = k by omega]
      · rw [show evenLen q / 2 + (l - evenLen q / 2) = l by omega]
      · rw [show evenLen q / 2 + (l - evenLen q / 2) = l by omega, show evenLen p / 2 + (k - evenLen p / 2) = k by omega]
      · rw [show evenLen r / 2 + (o - evenLen r / 2) = o by omega]
      · rw [show evenLen r / 2 + (o - evenLen r / 2) = o by omega, show evenLen p / 2 + (k - evenLen p / 2) = k by omega]
      · rw [show evenLen r / 2 + (o - evenLen r / 2) = o by omega, show evenLen q / 2 + (l - evenLen q / 2) = l by omega]
      · rw [show evenLen r / 2 + (o - evenLen r / 2) = o by omega, show evenLen q / 2 + (l - evenLen q / 2) = l by omega,
          show evenLen p / 2 + (k - evenLen p / 2) = k by omega]
  have hcat := catRec_ok r1 n1 k1 r2 n2 k2 r3 n3 k3 r4 n4 k4 r5 n5 k5 r6 n6 k6 r7 n7 k7 2
  obtain ⟨c1, c2, c3, c4⟩ := hC.at hp (hN p (by simp))
  obtain ⟨d1, d2, d3, d4⟩ := hC.at hq (hN q (by simp))
  obtain ⟨f1, f2, f3, f4⟩ := hC.at hr (hN r (by simp))
  obtain ⟨v, ev, sv⟩ := mul3_ok sj (by omega) (by omega) (by omega) c1 c2 c3 c4 d1 d2 d3 d4 f1 f2 f3 f4
  have sv' : ShowsN v md B [evenLen p, evenLen q, evenLen r] (fun b => matSynthN T (halfLens [p, q, r]) (c b)) := by
    refine sv.congr fun b ks _ hk => ?_
    rw [← mulN_joined (T := T) (halfLens [p, q, r]) (c b) ks (by rw [hk.length_eq]; rfl)]
    simp only [halfLens, List.map_cons, List.map_nil, two_half, hG]
  refine ⟨v, ?_, fun _ => sv', fun _ => ⟨_, _, ?_, sv', fun _ _ _ _ => rfl⟩⟩
  · unfold mrec3Step
    simp only
    rw [if_pos (show List.length [("daa", daa), ("ada", ada), ("dda", dda), ("aad", aad), ("dad", dad), ("add", add),
      ("ddd", ddd)] = 7 from rfl), if_pos (by simp [sameShapes, s1.shape, s2.shape, s3.shape, s4.shape, s5.shape, s6.shape, s7.shape])]
    have e1 : dictSet [("daa", daa), ("ada", ada), ("dda", dda), ("aad", aad), ("dad", dad), ("add", add), ("ddd", ddd)]
        "aaa" u = [("daa", daa), ("ada", ada), ("dda", dda), ("aad", aad), ("dad", dad), ("add", add),
      ("ddd", ddd), ("aaa", u)] := by simp [dictSet]
    have e2 : keyBound [("daa", daa), ("ada", ada), ("dda", dda), ("aad", aad), ("dad", dad), ("add", add),
      ("ddd", ddd), ("aaa", u)] = 4 := by
      simp [keyBound, len_daa, len_ada, len_dda, len_aad, len_dad, len_add, len_ddd, len_aaa]
    rw [e1, e2]
    simp only [bind, Except.bind, hcat]
    exact ev
  · exact .cons lp (.cons lq (.cons lr .nil))

theorem sum_four (f : Nat → R) (Q : Nat) : ∑ j ∈ Finset.range (4 * Q), f j
    = ∑ i ∈ Finset.range Q, f i + ∑ i ∈ Finset.range Q, f (Q + i) + ∑ i ∈ Finset.range Q, f (2 * Q + i)
      + ∑ i ∈ Finset.range Q, f (3 * Q + i) := by
  rw [show 4 * Q = 2 * Q + Q + Q by ring, Finset.sum_range_add, Finset.sum_range_add, two_mul, Finset.sum_range_add]
  rw [show 3 * Q = Q + Q + Q by ring]

theorem synStepNonsep_ok {B : Nat} (hB : 1 ≤ B) {C : Nat → Nat → Coo R} {T : Nat → Nat → Nat → Nat → R}
    (hC : Family2 C T md F N) :
    SynStepOk (mrec2Step false B) (mats2At C) (nonsepSynth T) md B 2 F N IsTuple (fun ns X t => ShowsN t md B ns X) := by
  intro ns c u e fin hl hge hN hu he hf
  match ns, hl with
  | [p, q], _ =>
  obtain ⟨lh, hl, hh, rfl, s1, s2, s3⟩ := he
  have hp : F ≤ p := hge p (by simp)
  have hq : F ≤ q := hge q (by simp)
  have lp := le_evenLen p
  have lq := le_evenLen q
  have ep := evenLen_even p
  have eq := evenLen_even q
  obtain ⟨f0, e0, g0⟩ := flatCols_ok (h := evenLen p / 2) (w := evenLen q / 2) hu hB
  obtain ⟨f1, e1, g1⟩ := flatCols_ok (h := evenLen p / 2) (w := evenLen q / 2) s1 hB
  obtain ⟨f2, e2, g2⟩ := flatCols_ok (h := evenLen p / 2) (w := evenLen q / 2) s2 hB
  obtain ⟨f3, e3, g3⟩ := flatCols_ok (h := evenLen p / 2) (w := evenLen q / 2) s3 hB
  set Q := evenLen p / 2 * (evenLen q / 2) with hQ
  obtain ⟨a1, k1, t1⟩ := g0.catCols g1
  obtain ⟨a2, k2, t2⟩ := t1.catCols g2
  obtain ⟨a3, k3, t3⟩ := t2.catCols g3
  have h4 : evenLen p * evenLen q = 4 * Q := by
    rw [quarter4]
  have t3' := t3
  rw [show Q + Q + Q + Q = evenLen p * evenLen q by rw [h4]; ring] at t3'
  have hc := t3'.matT
  obtain ⟨c1, c2, c3, c4⟩ := hC.at hp hq (hN p (by simp)) (hN q (by simp))
  obtain ⟨y, ey, ym, ys, yg⟩ := Coo.mmDense_ok (A := C (evenLen p) (evenLen q)) (X := a3.matT) (k := B)
    (by rw [hc.shape, c3])
    (by rw [hc.md]; exact c1)
  have sy : Cols y md (evenLen p * evenLen q) B (fun b i => nonsepSynth T [evenLen p / 2, evenLen q / 2] (c b)
      [i % evenLen p, i / evenLen p]) := by
    refine ⟨ym.trans hc.md, by rw [ys, c2], ?_⟩
    intro k b hk hb
    rw [yg k b (by rw [c2]; exact hk) hb, c3]
    have hpix : k / evenLen p * evenLen p + k % evenLen p = k := by
      have := Nat.div_add_mod k (evenLen p)
      rw [Nat.mul_comm] at this; exact this
    have hval : ∀ j, j < evenLen p * evenLen q → (C (evenLen p) (evenLen q)).den k j * a3.matT.get [j, b]
        = T (evenLen p) (evenLen q) k j * (if j < Q + Q + Q then if j < Q + Q then if j < Q then
            colRead (evenLen p / 2) (fun b => c b (lowBand 2)) b j
            else colRead (evenLen p / 2) (fun b => c b [true, false]) b (j - Q)
            else colRead (evenLen p / 2) (fun b => c b [false, true]) b (j - (Q + Q))
            else colRead (evenLen p / 2) (fun b => c b [true, true]) b (j - (Q + Q + Q))) := by
      intro j hj
      rw [c4 k j hk hj, hc.get j b hj hb]
    rw [Finset.sum_congr rfl fun j hj => hval j (Finset.mem_range.mp hj), h4, sum_four]
    unfold nonsepSynth
    simp only [two_half, ← hQ, hpix]
    congr 1
    · congr 1
      · congr 1
        · refine Finset.sum_congr rfl fun i hi => ?_
          rw [Finset.mem_range] at hi
          rw [if_pos (by omega), if_pos (by omega), if_pos hi]
          rfl
        · refine Finset.sum_congr rfl fun i hi => ?_
          rw [Finset.mem_range] at hi
          rw [if_pos (by omega), if_pos (by omega), if_neg (by omega), show Q + i - Q = i by omega]
          rfl
      · refine Finset.sum_congr rfl fun i hi => ?_
        rw [Finset.mem_range] at hi
        rw [if_pos (by omega), if_neg (by omega), show 2 * Q + i - (Q + Q) = i by omega]
        rfl
    · refine Finset.sum_congr rfl fun i hi => ?_
      rw [Finset.mem_range] at hi
      rw [if_neg (by omega), show 3 * Q + i - (Q + Q + Q) = i by omega]
      rfl
  obtain ⟨v, ev, sv⟩ := unflatCols_ok sy
  have sv' : ShowsN v md B [evenLen p, evenLen q] (fun b => nonsepSynth T (halfLens [p, q]) (c b)) := by
    refine sv.congr fun b ks _ hk => ?_
    match ks, hk with
    | [k, J], ⟨h1, h2, _⟩ =>
      show nonsepSynth T _ (c b) [(J * evenLen p + k) % evenLen p, (J * evenLen p + k) / evenLen p] = _
      rw [pix_mod h1, pix_div h1]
      rfl
  obtain ⟨z, ez, z1, z2⟩ := rec2Crop_ok (D := IsTuple)
    (by rintro P e ⟨h, v, d, rfl, h1, _⟩; exact ⟨_, _, _, rfl, _, h1⟩) sv' hf
  refine ⟨z, ?_, fun h => by rw [z1 h]; exact sv', z2⟩
  unfold mrec2Step
  simp only
  rw [if_pos ⟨by rw [s1.shape, hu.shape], by rw [s2.shape, hu.shape], by rw [s3.shape, hu.shape]⟩]
  unfold rec2MulNonsep mats2At
  have b2 : u.sizeFromEnd 2 * 2 = evenLen p := by
    unfold Tensor.sizeFromEnd; rw [hu.shape]; show evenLen p / 2 * 2 = _; omega
  have b1 : u.sizeFromEnd 1 * 2 = evenLen q := by
    unfold Tensor.sizeFromEnd; rw [hu.shape]; show evenLen q / 2 * 2 = _; omega
  simp only [List.getD_cons_zero, List.getD_cons_succ, Bool.false_eq_true, if_false, b1, b2]
  simp only [bind, Except.bind, e0, e1, e2, e3, k1, k2, k3, ey, ev]
  exact ez

end steps

end Verif
