/-
The three-dimensional matrix synthesis of an approximation that is smaller than the details.
-/
import Verif.Lemmas.MatSynNTop

namespace Verif
open Tensor Spec
variable {R : Type}

section
variable [CommRing R]

theorem cropTo3_shape {t : Tensor R} {B p q r p' q' r' : Nat} (h : t.shape = [B, p', q', r']) :
    ∃ u, cropTo3 t [B, p, q, r] = .ok u ∧ u.md = t.md ∧ u.shape = [B, min p p', min q q', min r r'] := by
  refine ⟨((t.slice 1 0 p).slice 2 0 q).slice 3 0 r, ?_, rfl, ?_⟩
  · unfold cropTo3
    rw [if_neg (by unfold Tensor.rank; rw [h]; simp)]
    rfl
  · simp [slice, ofFn, h]

theorem catRound_bad {input todo done : List (String × Tensor R)} {key rest dk : String} {a a' d : Tensor R} {ax : Nat}
    (h1 : String.ofList key.toList.tail = rest) (h2 : "d" ++ rest = dk) (h3 : dictGet input dk = .ok d)
    (h4 : cropTo3 a d.shape = .ok a') (h5 : normAxis a'.rank (-(key.length : Int)) = .ok ax)
    (h6 : cat2 a' d ax = .error .runtimeError) :
    catRound input ((key, a) :: todo) done = .error .runtimeError := by
  rw [catRound]
  simp only [bind, Except.bind, h1, h2, h3, h4, h5, h6]

theorem cat2_md' {s t u : Tensor R} {d : Nat} (h : cat2 s t d = .ok u) : u.md = s.md := by
  unfold cat2 at h
  split_ifs at h
  cases h; rfl

theorem cat2_shape {s t u : Tensor R} {d : Nat} (h : cat2 s t d = .ok u) :
    u.shape = s.shape.set d (s.shape.getD d 0 + t.shape.getD d 0) := by
  unfold cat2 at h
  split_ifs at h
  cases h; rfl

/-- An approximation that is smaller than the details along some axis cannot be joined with them. -/
theorem catRec_small {daa ada dda aad dad add ddd aaa : Tensor R} {md : Meta} {B p q r p' q' r' : Nat}
    (hs : ∀ t ∈ [daa, ada, dda, aad, dad, add, ddd], t.md = md ∧ t.shape = [B, p, q, r])
    (hm : aaa.md = md) (ha : aaa.shape = [B, p', q', r']) (hsm : p' < p ∨ q' < q ∨ r' < r) (k : Nat) :
    catRec (k + 2) [("daa", daa), ("ada", ada), ("dda", dda), ("aad", aad), ("dad", dad), ("add", add),
      ("ddd", ddd), ("aaa", aaa)] = .error .runtimeError := by
  simp only [List.forall_mem_cons, List.not_mem_nil, false_imp_iff, implies_true, and_true] at hs
  obtain ⟨⟨m1, s1⟩, ⟨m2, s2⟩, ⟨m3, s3⟩, ⟨m4, s4⟩, ⟨m5, s5⟩, ⟨m6, s6⟩, ⟨m7, s7⟩⟩ := hs
  have pair : ∀ {a d : Tensor R}, a.md = md → a.shape = [B, p, q, r] → d.md = md → d.shape = [B, p, q, r] →
      ∃ a' c, cropTo3 a d.shape = .ok a' ∧ normAxis a'.rank (-3) = .ok 1 ∧ cat2 a' d 1 = .ok c ∧ c.md = md ∧
        c.shape = [B, p + p, q, r] := by
    intro a d h1 h2 h3 h4
    obtain ⟨a', e1, e2, e3⟩ := cropTo3_shape (p := p) (q := q) (r := r) h2
    have hc : cat2 a' d 1 = .ok (ofFn a'.md (a'.shape.set 1 (a'.shape.getD 1 0 + d.shape.getD 1 0)) fun i =>
      if i.getD 1 0 < a'.shape.getD 1 0 then a'.get i
      else d.get (i.set 1 (i.getD 1 0 - a'.shape.getD 1 0))) := by
      unfold cat2
      rw [if_pos ⟨by rw [e2, h1, h3], by rw [e3, h4]; rfl, by rw [e3, h4]; simp⟩]
    refine ⟨a', _, by rw [h4]; exact e1, ?_, hc, ?_, ?_⟩
    · unfold Tensor.rank; rw [e3]; rfl
    · rw [cat2_md' hc, e2, h1]
    · rw [cat2_shape hc, e3, h4]; simp
  obtain ⟨a1, cda, r1, n1, k1, u1, v1⟩ := pair m2 s2 m3 s3
  obtain ⟨a2, cad, r2, n2, k2, u2, v2⟩ := pair m4 s4 m5 s5
  obtain ⟨a3, cdd, r3, n3, k3, u3, v3⟩ := pair m6 s6 m7 s7
  obtain ⟨a4, r4, w4, z4⟩ := cropTo3_shape (p := p) (q := q) (r := r) ha
  have n4 : normAxis a4.rank (-3) = .ok 1 := by unfold Tensor.rank; rw [z4]; rfl
  have f1 : ([("daa", daa), ("ada", ada), ("dda", dda), ("aad", aad), ("dad", dad), ("add", add),
      ("ddd", ddd), ("aaa", aaa)].filter fun p => p.1.toList.head? = some 'a')
      = [("ada", ada), ("aad", aad), ("add", add), ("aaa", aaa)] := by simp
  have step : ∀ x : List (String × Tensor R) → Except Err (Tensor R ⊕ List (String × Tensor R)), (∀ done, catRound [("daa", daa), ("ada", ada), ("dda", dda), ("aad", aad), ("dad", dad), ("add", add),
      ("ddd", ddd), ("aaa", aaa)] [("aaa", aaa)] done = x done) →
      catRound [("daa", daa), ("ada", ada), ("dda", dda), ("aad", aad), ("dad", dad), ("add", add),
      ("ddd", ddd), ("aaa", aaa)] [("ada", ada), ("aad", aad), ("add", add), ("aaa", aaa)] []
      = x [("da", cda), ("ad", cad), ("dd", cdd)] := by
    intro x hx
    rw [catRound_cons (rest := "da") (dk := "dda") (d := dda) (by decide) (by decide) (by simp [dictGet]) r1
      (by rw [len_ada]; exact n1) k1, if_neg (by decide)]
    rw [catRound_cons (rest := "ad") (dk := "dad") (d := dad) (by decide) (by decide) (by simp [dictGet]) r2
      (by rw [len_aad]; exact n2) k2, if_neg (by decide)]
    rw [catRound_cons (rest := "dd") (dk := "ddd") (d := ddd) (by decide) (by decide) (by simp [dictGet]) r3
      (by rw [len_add]; exact n3) k3, if_neg (by decide), hx]
    simp [dictSet]
  rw [catRec, if_neg (by simp)]
  simp only [bind, Except.bind, f1]
  by_cases hqr : q' < q ∨ r' < r
  · have k4 : cat2 a4 daa 1 = .error .runtimeError := by
      unfold cat2
      rw [if_neg]
      rintro ⟨_, _, h⟩
      rw [z4, s1] at h
      simp at h
      omega
    rw [step (fun _ => .error .runtimeError)]
    intro done
    exact catRound_bad (rest := "aa") (dk := "daa") (d := daa) (by decide) (by decide) (by simp [dictGet])
      (by rw [s1]; exact r4) (by rw [len_aaa]; exact n4) k4
  · have hz4 : a4.shape = [B, p', q, r] := by
      rw [z4, Nat.min_eq_right (by omega), Nat.min_eq_left (show q ≤ q' by omega), Nat.min_eq_left (show r ≤ r' by omega)]
    have k4 : cat2 a4 daa 1 = .ok (ofFn a4.md (a4.shape.set 1 (a4.shape.getD 1 0 + daa.shape.getD 1 0)) fun i =>
        if i.getD 1 0 < a4.shape.getD 1 0 then a4.get i
        else daa.get (i.set 1 (i.getD 1 0 - a4.shape.getD 1 0))) := by
      unfold cat2
      rw [if_pos ⟨by rw [w4, hm, m1], by rw [hz4, s1]; rfl, by rw [hz4, s1]; simp⟩]
    have u4 := cat2_md' k4
    have v4 := cat2_shape k4
    generalize hcaa : (ofFn a4.md (a4.shape.set 1 (a4.shape.getD 1 0 + daa.shape.getD 1 0)) fun i =>
        if i.getD 1 0 < a4.shape.getD 1 0 then a4.get i
        else daa.get (i.set 1 (i.getD 1 0 - a4.shape.getD 1 0))) = caa at *
    have v4' : caa.shape = [B, p' + p, q, r] := by rw [v4, hz4, s1]; rfl
    rw [step (fun done => .ok (.inr (dictSet done "aa" caa)))]
    swap
    · intro done
      rw [catRound_cons (rest := "aa") (dk := "daa") (d := daa) (by decide) (by decide) (by simp [dictGet])
        (by rw [s1]; exact r4) (by rw [len_aaa]; exact n4) k4, if_neg (by decide)]
      rfl
    have ed : dictSet [("da", cda), ("ad", cad), ("dd", cdd)] "aa" caa
        = [("da", cda), ("ad", cad), ("dd", cdd), ("aa", caa)] := by simp [dictSet]
    simp only [ed]
    rw [catRec, if_neg (by simp)]
    have f2 : ([("da", cda), ("ad", cad), ("dd", cdd), ("aa", caa)].filter fun p => p.1.toList.head? = some 'a')
        = [("ad", cad), ("aa", caa)] := by simp
    simp only [bind, Except.bind, f2]
    obtain ⟨a5, r5, w5, z5⟩ := cropTo3_shape (p := p + p) (q := q) (r := r) v2
    rw [Nat.min_self, Nat.min_self, Nat.min_self] at z5
    have k5 : cat2 a5 cdd 2 = .ok (ofFn a5.md (a5.shape.set 2 (a5.shape.getD 2 0 + cdd.shape.getD 2 0)) fun i =>
        if i.getD 2 0 < a5.shape.getD 2 0 then a5.get i
        else cdd.get (i.set 2 (i.getD 2 0 - a5.shape.getD 2 0))) := by
      unfold cat2
      rw [if_pos ⟨by rw [w5, u2, u3], by rw [z5, v3], by rw [z5, v3]⟩]
    obtain ⟨a6, r6, w6, z6⟩ := cropTo3_shape (p := p + p) (q := q) (r := r) v4'
    have k6 : cat2 a6 cda 2 = .error .runtimeError := by
      unfold cat2
      rw [if_neg]
      rintro ⟨_, _, h⟩
      rw [z6, v1] at h
      simp at h
      omega
    rw [catRound_cons (rest := "d") (dk := "dd") (d := cdd) (by decide) (by decide) (by simp [dictGet])
      (by rw [v3]; exact r5) (by rw [len_ad]; unfold Tensor.rank; rw [z5]; rfl) k5, if_neg (by decide)]
    rw [catRound_bad (rest := "a") (dk := "da") (d := cda) (by decide) (by decide) (by simp [dictGet])
      (by rw [v1]; exact r6) (by rw [len_aa]; unfold Tensor.rank; rw [z6]; rfl) k6]

end

/-- The first step fails. -/
theorem mrec3Step_small [CommRing R] {ms : Option (List (Coo R))} {md : Meta} {B p q r p' q' r' : Nat}
    {u : Tensor R} {e : Entry R} (he : IsDict keysM3 (fun _ t => t.md = md ∧ t.shape = [B, p, q, r]) e)
    (hm : u.md = md) (hu : u.shape = [B, p', q', r']) (hsm : p' < p ∨ q' < q ∨ r' < r) :
    mrec3Step ms u e = .error .runtimeError := by
  obtain ⟨daa, ada, dda, aad, dad, add, ddd, rfl, s1, s2, s3, s4, s5, s6, s7⟩ := isDictM3_dest he
  unfold mrec3Step
  simp only
  rw [if_pos (show List.length [("daa", daa), ("ada", ada), ("dda", dda), ("aad", aad), ("dad", dad), ("add", add),
    ("ddd", ddd)] = 7 from rfl), if_pos (by simp [sameShapes, s1.2, s2.2, s3.2, s4.2, s5.2, s6.2, s7.2])]
  have e1 : dictSet [("daa", daa), ("ada", ada), ("dda", dda), ("aad", aad), ("dad", dad), ("add", add), ("ddd", ddd)]
      "aaa" u = [("daa", daa), ("ada", ada), ("dda", dda), ("aad", aad), ("dad", dad), ("add", add),
    ("ddd", ddd), ("aaa", u)] := by simp [dictSet]
  have e2 : keyBound [("daa", daa), ("ada", ada), ("dda", dda), ("aad", aad), ("dad", dad), ("add", add),
    ("ddd", ddd), ("aaa", u)] = 4 := by
    simp [keyBound, len_daa, len_ada, len_dda, len_aad, len_dad, len_add, len_ddd, len_aaa]
  rw [e1, e2]
  have := catRec_small (md := md) (daa := daa) (ada := ada) (dda := dda) (aad := aad) (dad := dad) (add := add)
    (ddd := ddd) (aaa := u) (B := B) (by
      simp only [List.forall_mem_cons, List.not_mem_nil, false_imp_iff, implies_true, and_true]
      exact ⟨s1, s2, s3, s4, s5, s6, s7⟩) hm hu hsm 3
  simp only [bind, Except.bind, this]

theorem recShape_dict {R : Type} [CommRing R] {c : Coeffs R} {e : Entry R} {md : Meta} {B : Nat} {ns : List Nat}
    {Y : List Bool → Nat → List Nat → R} (hl : ns.length = 3) (hlast : c.items.getLast? = some e)
    (hs : IsDict keysM3 (fun bs u => ShowsN u md B ns (Y bs)) e) : recShape 3 c = .ok (ns.map (2 * ·)) := by
  obtain ⟨daa, ada, dda, aad, dad, add, ddd, rfl, -, -, -, -, -, -, s7⟩ := isDictM3_dest hs
  match ns, hl with
  | [p, q, r], _ =>
  have e1 : ddd.sizeFromEnd 3 = p := by unfold Tensor.sizeFromEnd; rw [s7.shape]; rfl
  have e2 : ddd.sizeFromEnd 2 = q := by unfold Tensor.sizeFromEnd; rw [s7.shape]; rfl
  have e3 : ddd.sizeFromEnd 1 = r := by unfold Tensor.sizeFromEnd; rw [s7.shape]; rfl
  have hd : dictGet [("daa", daa), ("ada", ada), ("dda", dda), ("aad", aad), ("dad", dad), ("add", add),
      ("ddd", ddd)] "ddd" = .ok ddd := by simp [dictGet]
  unfold recShape
  simp only [hlast, if_true, hd, bind, Except.bind, e1, e2, e3,
    List.map_cons, List.map_nil, pure, Except.pure]
  rw [Nat.mul_comm p 2, Nat.mul_comm q 2, Nat.mul_comm r 2]

theorem synCall3_small [Field R] [DecidableEq R] {la : LinAlg R} {cfg : RecCfgN R} {N F : Nat} {md : Meta} {S : List Nat}
    {Ms : List Nat → List (Coo R)} {t0 : Tensor R} {es : List (Entry R)} {K0 K1 : List Nat} {Kss : List (List Nat)}
    (hF : 2 ≤ F) (hlen : cfg.wavelet.recLo.length = F)
    (hg : GoodAxes (.seq cfg.axes) S.length 3) (hdt : isDtypeSupported md.dtype = true)
    (hK0 : K0.length = 3) (hKl : ∀ Ks ∈ K1 :: Kss, Ks.length = 3)
    (h0 : Uniform md (setMany S (axesOf (.seq cfg.axes) S.length 3) K0) t0)
    (hes : List.Forall₂ (fun e Ks => IsDict keysM3 (fun _ t => Uniform md (setMany S (axesOf (.seq cfg.axes) S.length 3) Ks) t) e)
      es (K1 :: Kss))
    (hN : ∀ K ∈ (K1 :: Kss).getLast?.getD [], 2 * K ≤ N)
    (hM : RecBuilds la cfg md 3 F N Ms) (hsm : ¬ List.Forall₂ (· ≤ ·) K1 K0) :
    (recCallN 3 la cfg ⟨none, none, [], false⟩ ⟨false, .tensor t0 :: es⟩).1 = .error .runtimeError := by
  have hD : RecKind (R := R) (IsDict keysM3) := isDict_band (by decide) (by decide)
  obtain ⟨u0, us, c₀, ep, eck, hu0, hus, hfst, -⟩ := rec_gen hD hg hdt hK0 hKl h0 hes
  set B := prodL (pick (batchAxes S.length (axesOf (.seq cfg.axes) S.length 3)) S) with hB
  set ps := List.zipWith (fun u Ks => (Ks, foldedBand u)) us (K1 :: Kss) with hps
  have hul : us.length = (K1 :: Kss).length := by rw [hus.length_eq, ← hfst, List.length_map]
  have hune : us ≠ [] := by
    intro h
    rw [h] at hul
    simp at hul
  obtain ⟨e, he⟩ : ∃ e, us.getLast? = some e := by
    cases h : us.getLast? with
    | none => exact absurd (List.getLast?_eq_none_iff.mp h) hune
    | some e => exact ⟨e, rfl⟩
  have hlk : us[us.length - 1]? = some e := by rw [← he, List.getLast?_eq_getElem?]
  obtain ⟨p, hp, hsh⟩ := forall₂_getElem?' hus hlk
  have hpK : (K1 :: Kss).getLast?.getD [] = p.1 := by
    rw [← hfst, List.getLast?_map, List.getLast?_eq_getElem?, ← hus.length_eq, hp]
    rfl
  have hp3 : p.1.length = 3 := hKl p.1 (hfst ▸ List.mem_map_of_mem (f := Prod.fst) (List.mem_of_getElem? hp))
  have hrs : recShape 3 (⟨false, .tensor u0 :: us⟩ : Coeffs R) = .ok (((K1 :: Kss).getLast?.getD []).map (2 * ·)) := by
    rw [hpK]
    refine recShape_dict hp3 (by
      show (Entry.tensor u0 :: us).getLast? = some e
      rw [List.getLast?_cons, he]; rfl) hsh
  have hl1 : (Coeffs.items (R := R) ⟨false, .tensor u0 :: us⟩).length - 1 = (K1 :: Kss).length := by
    simp [hul]
  have hpr := recPrepareN_fresh (la := la) (cfg := cfg) (md := md) (n := 3) (N := N) (Ms := Ms)
    (ns := ((K1 :: Kss).getLast?.getD []).map (2 * ·)) (L := (K1 :: Kss).length) (st := ⟨none, none, [], false⟩)
    (by rw [hlen]; exact hF)
    (by rw [hlen]; exact hM) (by
      rw [List.length_map, hpK]
      exact hp3)
    (by
      intro k hk
      obtain ⟨K, hK, rfl⟩ := List.mem_map.mp hk
      rw [evenLen_of_even (by omega)]
      exact hN K hK) rfl
  unfold recCallN recInputN
  simp only [bind, Except.bind, ep, eck, hrs, pure, Except.pure]
  rw [hl1, hpr]
  simp only
  unfold recApplyN headTensor
  simp only [bind, Except.bind, if_true, List.tail_cons]
  -- the first step
  match us, hus, hul, hps with
  | e1 :: us, hus, hul, hps =>
  rw [hps, List.zipWith_cons_cons] at hus
  have h1 := (List.forall₂_cons.mp hus).1
  simp only at h1
  match K0, K1, hK0, hKl K1 (by simp) with
  | [p', q', r'], [p, q, r], _, _ =>
  rw [mrec3Loop]
  have hst : ∀ ms, mrec3Step (R := R) ms u0 e1 = .error .runtimeError := by
    intro ms
    refine mrec3Step_small (md := md) (B := B) (p := p) (q := q) (r := r) (p' := p') (q' := q') (r' := r') ?_ hu0.md hu0.shape ?_
    · obtain ⟨kv, rfl, hk, hall⟩ := h1
      exact ⟨kv, rfl, hk, fun x hx => ⟨(hall x hx).md, (hall x hx).shape⟩⟩
    · by_contra hh
      apply hsm
      exact .cons (by omega) (.cons (by omega) (.cons (by omega) .nil))
  simp only [bind, Except.bind, hst]

end Verif
