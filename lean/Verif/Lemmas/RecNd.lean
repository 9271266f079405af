import Verif.Lemmas.LoopNd

/-! The synthesis loops of the multidimensional transforms. -/

namespace Verif
open Tensor Spec
variable {R : Type}

/-- The shape of the synthesis loops. -/
def recLoop [Zero R] (step : Tensor R → Entry R → List (Entry R) → Except Err (Tensor R)) :
    Tensor R → List (Entry R) → Except Err (Tensor R)
  | t, [] => .ok t
  | t, e :: rest => do
    let r ← step t e rest
    recLoop step r rest

theorem waverec2Loop_eq [NonUnitalNonAssocSemiring R] (filt : Tensor R) (F : Nat) :
    ∀ (es : List (Entry R)) (t : Tensor R), waverec2Loop filt F t es = recLoop (waverec2Step filt F) t es
  | [], _ => rfl
  | e :: es, t => by
    unfold waverec2Loop recLoop
    simp only [waverec2Loop_eq filt F es]

theorem waverec3Loop_eq [NonUnitalNonAssocSemiring R] (filt : Tensor R) (F : Nat) :
    ∀ (es : List (Entry R)) (t : Tensor R), waverec3Loop filt F t es = recLoop (waverec3Step filt F) t es
  | [], _ => rfl
  | e :: es, t => by
    unfold waverec3Loop recLoop
    simp only [waverec3Loop_eq filt F es]

/-- The size of the next level fits to bands of size `K`: the synthesised length or one less. -/
def SizeOk (F K n : Nat) : Prop := n + F = 2 * K + 2 ∨ n + F = 2 * K + 1

instance (F K n : Nat) : Decidable (SizeOk F K n) := by unfold SizeOk; infer_instance

theorem ShowsN.crop [Zero R] {y : Tensor R} {md : Meta} {B i l r : Nat} {Ks : List Nat}
    {X : Nat → List Nat → R} (h : ShowsN y md B Ks X) (hi : i < Ks.length) :
    ShowsN (cropAxis y (i + 1) l r) md B (Ks.set i (Ks.getD i 0 - l - r))
      (fun b ks => X b (ks.set i (ks.getD i 0 + l))) := by
  have h1 : y.shape.getD (i + 1) 0 = Ks.getD i 0 := by rw [h.shape]; rfl
  obtain ⟨c1, c2, c3⟩ := cropAxis_ok (t := y) (a := i + 1) (l := l) (r := r)
    (by unfold Tensor.rank; rw [h.shape]; simpa using hi)
  rw [h1, h.shape, List.set_cons_succ] at c2 c3
  refine ⟨c1.trans h.md, c2, ?_⟩
  intro b ks hb hk
  rw [c3 (b :: ks) ⟨hb, hk⟩]
  exact h.get b _ hb (by
    rw [inB_set_iff hi hk]
    have := inB_set_getD hi hk
    show ks.getD i 0 + l < _
    omega)

theorem ShowsN.rank [Zero R] {y : Tensor R} {md : Meta} {B : Nat} {Ks : List Nat} {X : Nat → List Nat → R}
    (h : ShowsN y md B Ks X) : y.rank = Ks.length + 1 := by
  unfold Tensor.rank; rw [h.shape]; rfl

theorem crop2_ok [Zero R] {y : Tensor R} {md : Meta} {B K1 K2 l r1 r2 : Nat} {X : Nat → List Nat → R}
    (h : ShowsN y md B [K1, K2] X) :
    ShowsN (crop2 y ((r2, l), (r1, l))) md B [K1 - l - r1, K2 - l - r2]
      (fun b ks => X b (ks.map fun k => k + l)) := by
  unfold crop2
  simp only [h.rank]
  have a := (h.crop (i := 0) (l := l) (r := r1) (by simp)).crop (i := 1) (l := l) (r := r2) (by simp)
  simp only [List.getD_cons_zero, List.getD_cons_succ, List.set_cons_zero, List.set_cons_succ] at a
  refine ShowsN.congr a ?_
  intro b ks _ hk
  match ks, hk with
  | [i, j], _ => rfl

theorem crop3_ok [Zero R] {y : Tensor R} {md : Meta} {B K1 K2 K3 l r1 r2 r3 : Nat} {X : Nat → List Nat → R}
    (h : ShowsN y md B [K1, K2, K3] X) :
    ShowsN (crop3 y ((r3, l), (r2, l), (r1, l))) md B [K1 - l - r1, K2 - l - r2, K3 - l - r3]
      (fun b ks => X b (ks.map fun k => k + l)) := by
  unfold crop3
  simp only [h.rank]
  have a := ((h.crop (i := 1) (l := l) (r := r2) (by simp)).crop (i := 2) (l := l) (r := r3) (by simp)).crop
    (i := 0) (l := l) (r := r1) (by simp)
  simp only [List.getD_cons_zero, List.getD_cons_succ, List.set_cons_zero, List.set_cons_succ] at a
  refine ShowsN.congr a ?_
  intro b ks _ hk
  match ks, hk with
  | [i, j, k], _ => rfl

theorem adjust_ok {F K n : Nat} (hF : 2 ≤ F) (hK : 1 ≤ K) (h : SizeOk F K n) :
    ∃ r, adjustPadding ((K - 1) * 2 + F) n (F - 2) (F - 2) = .ok (r, F - 2) ∧
      (K - 1) * 2 + F - (F - 2) - r = n := by
  rw [adjust_eq hF hK]
  rcases h with h | h
  · exact ⟨F - 2, by rw [if_pos h], by omega⟩
  · exact ⟨F - 2 + 1, by rw [if_neg (by omega), if_pos h], by omega⟩

theorem adjust_err {F K n : Nat} (hF : 2 ≤ F) (hK : 1 ≤ K) (h : ¬ SizeOk F K n) :
    adjustPadding ((K - 1) * 2 + F) n (F - 2) (F - 2) = .error .assertionError := by
  unfold SizeOk at h
  rw [adjust_eq hF hK, if_neg (by omega), if_neg (by omega)]

/-- The synthesised signal from position `F - 2` on. -/
def synFrom [NonUnitalNonAssocSemiring R] (f₀ f₁ : List R) (F : Nat) (Ks : List Nat)
    (c : List Bool → List Nat → R) (ks : List Nat) : R :=
  synN f₀ f₁ Ks c (ks.map fun k => ((k + (F - 2) : ℕ) : ℤ))

/-- What a step of a synthesis loop does. -/
def RecStepOk [NonUnitalNonAssocSemiring R]
    (step : Tensor R → Entry R → List (Entry R) → Except Err (Tensor R)) (f₀ f₁ : List R) (F : Nat)
    (md : Meta) (B n : Nat) (D : (List Bool → Tensor R → Prop) → Entry R → Prop) : Prop :=
  ∀ (Ks : List Nat) (c : Nat → List Bool → List Nat → R) t e, Ks.length = n → (∀ K ∈ Ks, 1 ≤ K) →
    ShowsN t md B Ks (fun b => c b (lowBand n)) →
    D (fun bs u => ShowsN u md B Ks (fun b => c b bs)) e →
    (∃ z, step t e [] = .ok z ∧
      ShowsN z md B (Ks.map fun K => 2 * K + 2 - F) (fun b => synFrom f₀ f₁ F Ks (c b))) ∧
    (∀ next rest (ns : List Nat) (Y : List Bool → Nat → List Nat → R), ns.length = n → D (fun bs u => ShowsN u md B ns (Y bs)) next →
      (List.Forall₂ (SizeOk F) Ks ns → ∃ z, step t e (next :: rest) = .ok z ∧
        ShowsN z md B ns (fun b => synFrom f₀ f₁ F Ks (c b))) ∧
      (¬ List.Forall₂ (SizeOk F) Ks ns → step t e (next :: rest) = .error .assertionError))

theorem hsum2 [AddCommMonoid R] (g : List Bool → R) :
    ∑ o ∈ Finset.range bands2.length, g (bands2.getD o []) = bandSum 2 g := by
  simp only [bands2, List.length_cons, List.length_nil, Finset.sum_range_succ, Finset.range_zero,
    Finset.sum_empty, zero_add, bandSum, List.getD_cons_zero, List.getD_cons_succ]
  ac_rfl

theorem hsum3 [AddCommMonoid R] (g : List Bool → R) :
    ∑ o ∈ Finset.range bands3'.length, g (bands3'.getD o []) = bandSum 3 g := by
  simp only [bands3', List.length_cons, List.length_nil, Finset.sum_range_succ, Finset.range_zero,
    Finset.sum_empty, zero_add, bandSum, List.getD_cons_zero, List.getD_cons_succ]
  ac_rfl

section
variable [Semiring R] {f₀ f₁ : List R} {F : Nat} {md : Meta} {B : Nat} {filt : Tensor R}

theorem rec2Step_ok (hF : 2 ≤ F) (h0 : f₀.length = F) (h1 : f₁.length = F)
    (hf : IsFilt filt md 2 F bands2 (tapAt f₀ f₁ false F)) :
    RecStepOk (waverec2Step filt F) f₀ f₁ F md B 2 IsTuple := by
  intro Ks c t e hn hK ht he
  obtain ⟨h, v, d, rfl, hh, hv, hd⟩ := he
  obtain ⟨K1, K2, rfl⟩ : ∃ K1 K2, Ks = [K1, K2] := by
    match Ks, hn with
    | [a, b], _ => exact ⟨a, b, rfl⟩
  have hK1 := hK K1 (by simp)
  have hK2 := hK K2 (by simp)
  obtain ⟨st, r, es, er, ec, hr⟩ := synthesisN_ok (c := c) (by omega) h0 h1 hK hf bands2_len hsum2 (by simp [bands2])
    (ts := [t, h, v, d]) (List.Forall₂.cons ht (.cons hh (.cons hv (.cons hd .nil))))
  have hstep : ∀ rest, waverec2Step filt F t (.tuple h v d) rest
      = recPads2 F r.squeeze1 rest >>= fun p => .ok (crop2 r.squeeze1 p) := by
    intro rest
    unfold waverec2Step
    simp only
    rw [if_pos ⟨hh.shape.trans ht.shape.symm, hv.shape.trans ht.shape.symm, hd.shape.trans ht.shape.symm⟩]
    have : convTranspose2d st filt 2 = .ok r := by unfold convTranspose2d; rw [if_pos (by exact er)]; exact ec
    simp only [bind, Except.bind, es, this]
    rfl
  have hpad : (2 * F - 3) / 2 = F - 2 := by omega
  have hs1 : r.squeeze1.sizeFromEnd 1 = (K2 - 1) * 2 + F := by
    unfold Tensor.sizeFromEnd; rw [hr.shape]; rfl
  have hs2 : r.squeeze1.sizeFromEnd 2 = (K1 - 1) * 2 + F := by
    unfold Tensor.sizeFromEnd; rw [hr.shape]; rfl
  have hcrop : ∀ r1 r2 ns, (K1 - 1) * 2 + F - (F - 2) - r1 = ns.getD 0 0 →
      (K2 - 1) * 2 + F - (F - 2) - r2 = ns.getD 1 0 → ns.length = 2 →
      ShowsN (crop2 r.squeeze1 ((r2, F - 2), (r1, F - 2))) md B ns
        (fun b => synFrom f₀ f₁ F [K1, K2] (c b)) := by
    intro r1 r2 ns e1 e2 hl
    match ns, hl with
    | [a, b], _ =>
      simp only [List.getD_cons_zero, List.getD_cons_succ] at e1 e2
      have := crop2_ok (l := F - 2) (r1 := r1) (r2 := r2) hr
      rw [e1, e2] at this
      refine this.congr ?_
      intro b ks _ _
      unfold synFrom
      rw [List.map_map]
      rfl
  refine ⟨?_, ?_⟩
  · refine ⟨_, ?_, hcrop (F - 2) (F - 2) _ (by simp; omega) (by simp; omega) rfl⟩
    rw [hstep]
    simp only [recPads2, hpad, bind, Except.bind]
  · intro next rest ns Y hnl hne
    obtain ⟨h', v', d', rfl, hh', -, -⟩ := hne
    obtain ⟨n1, n2, rfl⟩ : ∃ n1 n2, ns = [n1, n2] := by
      match ns, hnl with
      | [a, b], _ => exact ⟨a, b, rfl⟩
    have t1 : h'.sizeFromEnd 1 = n2 := by unfold Tensor.sizeFromEnd; rw [hh'.shape]; rfl
    have t2 : h'.sizeFromEnd 2 = n1 := by unfold Tensor.sizeFromEnd; rw [hh'.shape]; rfl
    refine ⟨?_, ?_⟩
    · intro hsz
      simp only [List.forall₂_cons, List.Forall₂.nil, and_true] at hsz
      obtain ⟨r1, e1, q1⟩ := adjust_ok hF hK1 hsz.1
      obtain ⟨r2, e2, q2⟩ := adjust_ok hF hK2 hsz.2
      refine ⟨_, ?_, hcrop r1 r2 _ q1 q2 rfl⟩
      rw [hstep]
      simp only [recPads2, nextRef2, hpad, bind, Except.bind, hs1, hs2, t1, t2, e1, e2]
      rfl
    · intro hsz
      simp only [List.forall₂_cons, List.Forall₂.nil, and_true] at hsz
      rw [hstep]
      by_cases h2 : SizeOk F K2 n2
      · have h1' : ¬ SizeOk F K1 n1 := fun h => hsz ⟨h, h2⟩
        obtain ⟨r2, e2, q2⟩ := adjust_ok hF hK2 h2
        simp only [recPads2, nextRef2, hpad, bind, Except.bind, hs1, hs2, t1, t2, adjust_err hF hK1 h1', e2]
      · simp only [recPads2, nextRef2, hpad, bind, Except.bind, hs1, hs2, t1, t2, adjust_err hF hK2 h2]

end

theorem keys3_dest {α : Type} {kv : List (String × α)} (h : kv.map Prod.fst = keys3) :
    ∃ a b c d e f g, kv = [("aad", a), ("ada", b), ("add", c), ("daa", d), ("dad", e), ("dda", f), ("ddd", g)] := by
  match kv, h with
  | [(k1, a), (k2, b), (k3, c), (k4, d), (k5, e), (k6, f), (k7, g)], h =>
    simp only [keys3, List.map_cons, List.map_nil, List.cons.injEq, and_true] at h
    obtain ⟨rfl, rfl, rfl, rfl, rfl, rfl, rfl⟩ := h
    exact ⟨_, _, _, _, _, _, _, rfl⟩

theorem bands3_ok [Zero R] (t a b c d e f g : Tensor R) :
    bands3 t [("aad", a), ("ada", b), ("add", c), ("daa", d), ("dad", e), ("dda", f), ("ddd", g)]
      = .ok [t, a, b, c, d, e, f, g] := rfl

theorem isDict3_dest [Zero R] {P : List Bool → Tensor R → Prop} {e : Entry R} (h : IsDict keys3 P e) :
    ∃ t1 t2 t3 t4 t5 t6 t7, e = .dict [("aad", t1), ("ada", t2), ("add", t3), ("daa", t4), ("dad", t5),
        ("dda", t6), ("ddd", t7)] ∧ P [false, false, true] t1 ∧ P [false, true, false] t2 ∧
      P [false, true, true] t3 ∧ P [true, false, false] t4 ∧ P [true, false, true] t5 ∧
      P [true, true, false] t6 ∧ P [true, true, true] t7 := by
  obtain ⟨kv, rfl, hk, hp⟩ := h
  obtain ⟨t1, t2, t3, t4, t5, t6, t7, rfl⟩ := keys3_dest hk
  refine ⟨t1, t2, t3, t4, t5, t6, t7, rfl, ?_, ?_, ?_, ?_, ?_, ?_, ?_⟩
  · rw [← key_aad]; exact hp ("aad", t1) (by simp)
  · rw [← key_ada]; exact hp ("ada", t2) (by simp)
  · rw [← key_add]; exact hp ("add", t3) (by simp)
  · rw [← key_daa]; exact hp ("daa", t4) (by simp)
  · rw [← key_dad]; exact hp ("dad", t5) (by simp)
  · rw [← key_dda]; exact hp ("dda", t6) (by simp)
  · rw [← key_ddd]; exact hp ("ddd", t7) (by simp)

section
variable [Semiring R] {f₀ f₁ : List R} {F : Nat} {md : Meta} {B : Nat} {filt : Tensor R}

theorem rec3Step_ok (hF : 2 ≤ F) (h0 : f₀.length = F) (h1 : f₁.length = F)
    (hf : IsFilt filt md 3 F bands3' (tapAt f₀ f₁ false F)) :
    RecStepOk (waverec3Step filt F) f₀ f₁ F md B 3 (IsDict keys3) := by
  intro Ks c t e hn hK ht he
  obtain ⟨t1, t2, t3, t4, t5, t6, t7, rfl, p1, p2, p3, p4, p5, p6, p7⟩ := isDict3_dest he
  obtain ⟨K1, K2, K3, rfl⟩ : ∃ K1 K2 K3, Ks = [K1, K2, K3] := by
    match Ks, hn with
    | [a, b, c], _ => exact ⟨a, b, c, rfl⟩
  have hK1 := hK K1 (by simp)
  have hK2 := hK K2 (by simp)
  have hK3 := hK K3 (by simp)
  obtain ⟨st, r, es, er, ec, hr⟩ := synthesisN_ok (c := c) (by omega) h0 h1 hK hf bands3_len hsum3 (by simp [bands3'])
    (ts := [t, t1, t2, t3, t4, t5, t6, t7]) (List.Forall₂.cons ht (.cons p1 (.cons p2 (.cons p3 (.cons p4
      (.cons p5 (.cons p6 (.cons p7 .nil))))))))
  have hstep : ∀ rest, waverec3Step filt F t (.dict [("aad", t1), ("ada", t2), ("add", t3), ("daa", t4),
        ("dad", t5), ("dda", t6), ("ddd", t7)]) rest
      = recPads3 F r.squeeze1 rest >>= fun p => .ok (crop3 r.squeeze1 p) := by
    intro rest
    unfold waverec3Step
    simp only
    rw [if_pos ⟨rfl, by
      intro q hq
      simp only [List.mem_cons, List.not_mem_nil, or_false] at hq
      rcases hq with rfl | rfl | rfl | rfl | rfl | rfl | rfl
      · exact p1.shape.trans ht.shape.symm
      · exact p2.shape.trans ht.shape.symm
      · exact p3.shape.trans ht.shape.symm
      · exact p4.shape.trans ht.shape.symm
      · exact p5.shape.trans ht.shape.symm
      · exact p6.shape.trans ht.shape.symm
      · exact p7.shape.trans ht.shape.symm⟩]
    have : convTranspose3d st filt 2 = .ok r := by unfold convTranspose3d; rw [if_pos (by exact er)]; exact ec
    simp only [bind, Except.bind, bands3_ok, es, this]
    rfl
  have hpad : (2 * F - 3) / 2 = F - 2 := by omega
  have hs1 : r.squeeze1.sizeFromEnd 1 = (K3 - 1) * 2 + F := by
    unfold Tensor.sizeFromEnd; rw [hr.shape]; rfl
  have hs2 : r.squeeze1.sizeFromEnd 2 = (K2 - 1) * 2 + F := by
    unfold Tensor.sizeFromEnd; rw [hr.shape]; rfl
  have hs3 : r.squeeze1.sizeFromEnd 3 = (K1 - 1) * 2 + F := by
    unfold Tensor.sizeFromEnd; rw [hr.shape]; rfl
  have hcrop : ∀ r1 r2 r3 ns, (K1 - 1) * 2 + F - (F - 2) - r1 = ns.getD 0 0 →
      (K2 - 1) * 2 + F - (F - 2) - r2 = ns.getD 1 0 →
      (K3 - 1) * 2 + F - (F - 2) - r3 = ns.getD 2 0 → ns.length = 3 →
      ShowsN (crop3 r.squeeze1 ((r3, F - 2), (r2, F - 2), (r1, F - 2))) md B ns
        (fun b => synFrom f₀ f₁ F [K1, K2, K3] (c b)) := by
    intro r1 r2 r3 ns e1 e2 e3 hl
    match ns, hl with
    | [a, b, c], _ =>
      simp only [List.getD_cons_zero, List.getD_cons_succ] at e1 e2 e3
      have := crop3_ok (l := F - 2) (r1 := r1) (r2 := r2) (r3 := r3) hr
      rw [e1, e2, e3] at this
      refine this.congr ?_
      intro b ks _ _
      unfold synFrom
      rw [List.map_map]
      rfl
  refine ⟨?_, ?_⟩
  · refine ⟨_, ?_, hcrop (F - 2) (F - 2) (F - 2) _ (by simp; omega) (by simp; omega) (by simp; omega) rfl⟩
    rw [hstep]
    simp only [recPads3, hpad, bind, Except.bind]
  · intro next rest ns Y hnl hne
    obtain ⟨s1, s2, s3, s4, s5, s6, s7, rfl, hh', -⟩ := isDict3_dest hne
    obtain ⟨n1, n2, n3, rfl⟩ : ∃ n1 n2 n3, ns = [n1, n2, n3] := by
      match ns, hnl with
      | [a, b, c], _ => exact ⟨a, b, c, rfl⟩
    have t1 : s1.sizeFromEnd 1 = n3 := by unfold Tensor.sizeFromEnd; rw [hh'.shape]; rfl
    have t2 : s1.sizeFromEnd 2 = n2 := by unfold Tensor.sizeFromEnd; rw [hh'.shape]; rfl
    have t3 : s1.sizeFromEnd 3 = n1 := by unfold Tensor.sizeFromEnd; rw [hh'.shape]; rfl
    have hd : dictGet [("aad", s1), ("ada", s2), ("add", s3), ("daa", s4), ("dad", s5), ("dda", s6),
      ("ddd", s7)] "aad" = .ok s1 := rfl
    refine ⟨?_, ?_⟩
    · intro hsz
      simp only [List.forall₂_cons, List.Forall₂.nil, and_true] at hsz
      obtain ⟨r1, e1, q1⟩ := adjust_ok hF hK1 hsz.1
      obtain ⟨r2, e2, q2⟩ := adjust_ok hF hK2 hsz.2.1
      obtain ⟨r3, e3, q3⟩ := adjust_ok hF hK3 hsz.2.2
      refine ⟨_, ?_, hcrop r1 r2 r3 _ q1 q2 q3 rfl⟩
      rw [hstep]
      simp only [recPads3, nextRef3, hd, hpad, bind, Except.bind, hs1, hs2, hs3, t1, t2, t3, e1, e2, e3]
      rfl
    · intro hsz
      simp only [List.forall₂_cons, List.Forall₂.nil, and_true] at hsz
      rw [hstep]
      by_cases h3 : SizeOk F K3 n3
      · obtain ⟨r3, e3, q3⟩ := adjust_ok hF hK3 h3
        by_cases h2 : SizeOk F K2 n2
        · have h1' : ¬ SizeOk F K1 n1 := fun h => hsz ⟨h, h2, h3⟩
          obtain ⟨r2, e2, q2⟩ := adjust_ok hF hK2 h2
          simp only [recPads3, nextRef3, hd, hpad, bind, Except.bind, hs1, hs2, hs3, t1, t2, t3,
            adjust_err hF hK1 h1', e2, e3]
        · simp only [recPads3, nextRef3, hd, hpad, bind, Except.bind, hs1, hs2, hs3, t1, t2, t3,
            adjust_err hF hK2 h2, e3]
      · simp only [recPads3, nextRef3, hd, hpad, bind, Except.bind, hs1, hs2, hs3, t1, t2, t3,
          adjust_err hF hK3 h3]

end

theorem extN_inside [Zero R] (m : Mode) : ∀ (ns ks : List Nat) (X : List Nat → R), InB ns ks →
    extN m ns X (ks.map fun (k : Nat) => (k : ℤ)) = X ks
  | [], [], _, _ => rfl
  | n :: ns, k :: ks, X, h => by
    simp only [List.map_cons, extN]
    rw [ext_inside m _ h.1]
    exact extN_inside m ns ks _ h.2

theorem sizeOk_outLen {F n : Nat} (hF : 2 ≤ F) (he : F % 2 = 0) : SizeOk F (outLen F n) n := by
  have := two_outLen (n := n) hF he
  unfold SizeOk
  omega

theorem inB_up : ∀ (ns ks : List Nat), InB ns ks → InB (ns.map fun k => k + k % 2) ks
  | [], [], h => h
  | _ :: ns, _ :: ks, h => ⟨lt_of_lt_of_le h.1 (Nat.le_add_right _ _), inB_up ns ks h.2⟩

/-- The synthesis loops invert the analysis. -/
theorem recLoop_ok [Field R] [CharZero R] {m : Mode} {w : Wavelet R} {F : Nat} {md : Meta} {B n : Nat}
    {D : (List Bool → Tensor R → Prop) → Entry R → Prop}
    {step : Tensor R → Entry R → List (Entry R) → Except Err (Tensor R)}
    (hw : PRBank w F) (hF : 2 ≤ F) (he : F % 2 = 0)
    (hstep : RecStepOk step w.recLo w.recHi F md B n D) {ns : List Nat} (hn : ns.length = n)
    {X : Nat → List Nat → R} :
    ∀ (L : Nat) (t : Tensor R) (ds : List (Entry R)),
      (∀ s, s < L → ∀ k ∈ levelLens F ns s, m.Admits F k) →
      ShowsN t md B (levelLens F ns L) (fun b => cAN m w ns (X b) L) → ds.length = L →
      (∀ s e, ds[s]? = some e →
        D (fun bs u => ShowsN u md B (levelLens F ns (s + 1)) (fun b => cDN m w ns (X b) s bs)) e) →
      ∃ z, recLoop step t ds.reverse = .ok z ∧
        (L = 0 → z = t) ∧
        (0 < L → ShowsN z md B (ns.map fun k => k + k % 2)
          (fun b ks => extN m ns (X b) (ks.map fun (k : Nat) => (k : ℤ)))) := by
  intro L
  induction L with
  | zero =>
    intro t ds _ ht hl _
    have : ds = [] := List.length_eq_zero_iff.mp hl
    subst this
    exact ⟨t, rfl, fun _ => rfl, fun h => absurd h (lt_irrefl _)⟩
  | succ L ih =>
    intro t ds hadm ht hl hds
    have hFw : w.len = F := hw.len.1
    obtain ⟨ds', d, rfl⟩ : ∃ ds' d, ds = ds' ++ [d] := by
      rcases List.eq_nil_or_concat ds with h | ⟨l, a, h⟩
      · subst h; simp at hl
      · exact ⟨l, a, by simpa using h⟩
    have hl' : ds'.length = L := by simpa using hl
    have hd := hds L d (by simp [← hl'])
    have hadm' := hadm L (by omega)
    rw [levelLens_succ] at ht hd
    set ns' := levelLens F ns L with hns'
    have hnl : ns'.length = n := by rw [hns', levelLens_length, hn]
    have ht' : ShowsN t md B (ns'.map (outLen F)) (fun b => bandN m w (lowBand n) ns' (cAN m w ns (X b) L)) := by
      have : (fun b => cAN m w ns (X b) (L + 1)) = fun b => bandN m w (lowBand n) ns' (cAN m w ns (X b) L) := by
        funext b
        show bandN m w (lowBand ns.length) (levelLens w.len ns L) _ = _
        rw [hFw, hn]
      rwa [this] at ht
    have hd' : D (fun bs u => ShowsN u md B (ns'.map (outLen F))
        (fun b => bandN m w bs ns' (cAN m w ns (X b) L))) d := by
      have : ∀ b bs, cDN m w ns (X b) L bs = bandN m w bs ns' (cAN m w ns (X b) L) := by
        intro b bs
        unfold cDN
        rw [hFw]
      simpa only [this] using hd
    have hK1 : ∀ K ∈ ns'.map (outLen F), 1 ≤ K := by
      intro K hK
      obtain ⟨k, hk, rfl⟩ := List.mem_map.mp hK
      have h1 := admits_size hF (hadm' k hk)
      have h2 := two_outLen (n := k) hF he
      omega
    obtain ⟨hfin, hinn⟩ := hstep (ns'.map (outLen F)) (fun b bs => bandN m w bs ns' (cAN m w ns (X b) L)) t d
      (by simpa using hnl) hK1 ht' hd'
    have hval : ∀ b ks, InB (ns'.map fun k => k + k % 2) ks →
        synFrom w.recLo w.recHi F (ns'.map (outLen F)) (fun bs => bandN m w bs ns' (cAN m w ns (X b) L)) ks
          = extN m ns' (cAN m w ns (X b) L) (ks.map fun (k : Nat) => (k : ℤ)) :=
      fun b ks hk => synN_dwtN hw hF he ns' ks _ hk
    rw [List.reverse_append, List.reverse_singleton, List.singleton_append]
    rcases Nat.eq_zero_or_pos L with hL0 | hLp
    · subst hL0
      have : ds' = [] := List.length_eq_zero_iff.mp hl'
      subst this
      obtain ⟨z, ez, hz⟩ := hfin
      refine ⟨z, ?_, fun h => absurd h (by omega), fun _ => ?_⟩
      · simp only [List.reverse_nil, recLoop, bind, Except.bind, ez]
      · have e0 : ns' = ns := by rw [hns', levelLens_zero]
        rw [e0] at hz hval
        have hsz : ((ns.map (outLen F)).map fun K => 2 * K + 2 - F) = ns.map fun k => k + k % 2 := by
          rw [List.map_map]
          apply List.map_congr_left
          intro k _
          have h2 := two_outLen (n := k) hF he
          show 2 * outLen F k + 2 - F = _
          omega
        rw [hsz] at hz
        exact hz.congr fun b ks _ hk => hval b ks hk
    · obtain ⟨ds'', d', rfl⟩ : ∃ ds'' d', ds' = ds'' ++ [d'] := by
        rcases List.eq_nil_or_concat ds' with h | ⟨l, a, h⟩
        · subst h; simp at hl'; omega
        · exact ⟨l, a, by simpa using h⟩
      have hl'' : ds''.length + 1 = L := by simpa using hl'
      have hd2 := hds (L - 1) d' (by
        rw [← hl'']; simp)
      rw [show L - 1 + 1 = L by omega] at hd2
      obtain ⟨hok, -⟩ := hinn d' ds''.reverse ns' (fun bs b => cDN m w ns (X b) (L - 1) bs) hnl hd2
      obtain ⟨z, ez, hz⟩ := hok (by
        rw [List.forall₂_map_left_iff, List.forall₂_same]
        intro k _
        exact sizeOk_outLen hF he)
      have hz' : ShowsN z md B ns' (fun b => cAN m w ns (X b) L) := by
        refine hz.congr ?_
        intro b ks _ hk
        rw [hval b ks, extN_inside m _ _ _ hk]
        exact inB_up _ _ hk
      obtain ⟨z', ez', -, hz1⟩ := ih z (ds'' ++ [d']) (fun s hs => hadm s (by omega)) hz' (by simpa using hl'')
        (by
          intro s e hs
          apply hds s e
          rw [List.getElem?_append_left (List.getElem?_eq_some_iff.mp hs).1]
          exact hs)
      refine ⟨z', ?_, fun h => absurd h (by omega), fun _ => hz1 hLp⟩
      rw [recLoop]
      rw [List.reverse_append, List.reverse_singleton, List.singleton_append] at ez' ⊢
      simp only [bind, Except.bind, ez]
      exact ez'

end Verif
