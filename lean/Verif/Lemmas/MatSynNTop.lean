import Verif.Lemmas.MatSynSteps

/-! The matrix synthesis objects on arbitrary coefficients: several axes. -/

namespace Verif
open Tensor Spec
variable {R : Type}

theorem synTargets_length : ∀ (ds : List (List Nat)), (synTargets ds).length = ds.length
  | [] => rfl
  | [_] => rfl
  | _ :: n :: rest => by rw [synTargets, List.length_cons, synTargets_length (n :: rest), List.length_cons, List.length_cons, List.length_cons]

theorem idwtLenN_cons (F : Nat) (K K' : List Nat) {ds : List (List Nat)} (h : ds ≠ []) : idwtLenN F K ds = idwtLenN F K' ds := by
  match ds, h with
  | [d], _ => rfl
  | _ :: n :: rest, _ => rfl

theorem idwtLenN_length {F n : Nat} : ∀ {ds : List (List Nat)} {K : List Nat}, K.length = n → (∀ d ∈ ds, d.length = n) →
    (idwtLenN F K ds).length = n
  | [], K, h, _ => h
  | [d], K, _, h => by
    show (d.map _).length = n
    rw [List.length_map]; exact h d (by simp)
  | _ :: m :: rest, K, _, h => idwtLenN_length (ds := m :: rest) (h m (by simp)) fun d hd => h d (by simp [List.mem_cons.mp hd])

section
variable [Field R] [DecidableEq R] {la : LinAlg R} {cfg : RecCfgN R} {n N F : Nat} {md : Meta} {S : List Nat}
  {Ms : List Nat → List (Coo R)} {syn : List Nat → (List Bool → List Nat → R) → List Nat → R}
  {D D' : (List Bool → Tensor R → Prop) → Entry R → Prop} {St : List Nat → (Nat → List Nat → R) → Tensor R → Prop}
  {step : Option (List (Coo R)) → Tensor R → Entry R → List (Entry R) → Except Err (Tensor R)}
  {t0 : Tensor R} {es : List (Entry R)} {K0 K1 : List Nat} {Kss : List (List Nat)}

theorem synCallN_gen (hD' : RecKind D') (hDk : DetailKind D)
    (hhigh : ∀ {P : List Bool → Tensor R → Prop} {e : Entry R}, D P e → D (fun bs t => P bs t ∧ true ∈ bs) e)
    {g : List Bool → List Bool}
    (hconv : ∀ (P : List Bool → Tensor R → Prop) e, D' P e → D (fun bs t => P (g bs) t) e)
    (hF : 2 ≤ F) (hlen : cfg.wavelet.recLo.length = F)
    (hg : GoodAxes (.seq cfg.axes) S.length n) (hdt : isDtypeSupported md.dtype = true)
    (hK0 : K0.length = n) (hK1 : K1.length = n) (hKl : ∀ Ks ∈ Kss, Ks.length = n)
    (h0 : Uniform md (setMany S (axesOf (.seq cfg.axes) S.length n) K0) t0)
    (hes : List.Forall₂ (fun e Ks => D' (fun _ t => Uniform md (setMany S (axesOf (.seq cfg.axes) S.length n) Ks) t) e) es Kss)
    (hne : Kss ≠ []) (hc : ConsistentN 2 K1 Kss) (hle : LongEnoughN F Kss)
    (hN : ∀ K ∈ Kss.getLast?.getD [], 2 * K ≤ N)
    (hM : RecBuilds la cfg md n F N Ms)
    (hSt : ∀ X t, ShowsN t md (prodL (pick (batchAxes S.length (axesOf (.seq cfg.axes) S.length n)) S)) K0 X → St K1 X t)
    (hstep : SynStepOk step Ms syn md (prodL (pick (batchAxes S.length (axesOf (.seq cfg.axes) S.length n)) S)) n F N D St)
    (hloop : ∀ (mats : List (List (Coo R))) (c : Coeffs R) (ds : List Nat) (r : Tensor R) (es : List (Entry R)),
      es.length = mats.length →
      r.shape.getD 0 0 = prodL (pick (batchAxes S.length (axesOf (.seq cfg.axes) S.length n)) S) →
      c.items = .tensor r :: es →
      recApplyN n cfg mats c ds = (recLoopT step [] mats.reverse r es).bind
        fun r => postprocessTensor r n ds (.seq cfg.axes))
    (hlast : ∀ (c : Coeffs R) (e : Entry R) (B : Nat) (ns : List Nat) (Y : List Bool → Nat → List Nat → R), ns.length = n →
      c.items.getLast? = some e → D (fun bs u => ShowsN u md B ns (Y bs)) e →
      recShape n c = .ok (ns.map (2 * ·))) :
    ∃ z, (recCallN n la cfg ⟨none, none, [], false⟩ ⟨false, .tensor t0 :: es⟩).1 = .ok z ∧ z.md = md ∧
      z.shape = setMany S (axesOf (.seq cfg.axes) S.length n) (idwtLenN 2 K0 Kss) ∧
      ∀ idx, InB z.shape idx → z.get idx =
        idwtWith syn (plane t0 (axesOf (.seq cfg.axes) S.length n) idx)
          (List.zipWith (fun e Ks => (Ks, fun bs => bandPlane e (axesOf (.seq cfg.axes) S.length n) idx (g bs))) es Kss)
          (sizes (axesOf (.seq cfg.axes) S.length n) idx) := by
  obtain ⟨u0, us, c₀, ep, eck, hu0, hus, hfst, hpost⟩ := rec_gen hD' hg hdt hK0 hKl h0 hes
  set B := prodL (pick (batchAxes S.length (axesOf (.seq cfg.axes) S.length n)) S) with hB
  set ps := List.zipWith (fun u Ks => (Ks, foldedBand u)) us Kss with hps
  -- the bands as the loop reads them
  set ps' : List (List Nat × (Nat → List Bool → List Nat → R)) := ps.map fun p => (p.1, fun b bs => p.2 b (g bs)) with hps'
  have hfst' : ps'.map Prod.fst = Kss := by
    rw [hps', List.map_map, ← hfst]; rfl
  have hus' : List.Forall₂ (fun e p => D (fun bs u => ShowsN u md B p.1 (fun b => p.2 b bs)) e) us ps' := by
    rw [hps', List.forall₂_map_right_iff]
    exact hus.imp fun e p h => hconv _ e h
  have hul : us.length = Kss.length := by rw [hus.length_eq, ← hfst, List.length_map]
  have hune : us ≠ [] := by
    intro h
    rw [h] at hul
    exact hne (List.length_eq_zero_iff.mp hul.symm)
  obtain ⟨z₀, ez, hz⟩ := synLoop_gen hDk hhigh hstep us ps' u0 K1 (fun b js => u0.get (b :: js)) hune hK1
    (fun p hp => hKl p.1 (hfst' ▸ List.mem_map_of_mem (f := Prod.fst) hp)) (hSt _ _ hu0) hus'
    (by rw [hfst']; exact hc) (by rw [hfst']; exact hle) (by rw [hfst']; exact synTargets_bound hF hc hle hN)
  rw [hfst'] at ez hz
  rw [idwtLenN_cons 2 K1 K0 hne] at hz
  -- the matrices
  have hbuilt := builtN_syn (f := Ms) hc hle
  obtain ⟨e, he⟩ : ∃ e, us.getLast? = some e := by
    cases h : us.getLast? with
    | none => exact absurd (List.getLast?_eq_none_iff.mp h) hune
    | some e => exact ⟨e, rfl⟩
  have hlk : us[us.length - 1]? = some e := by rw [← he, List.getLast?_eq_getElem?]
  obtain ⟨p, hp, hsh⟩ := forall₂_getElem?' hus' hlk
  have hpK : Kss.getLast?.getD [] = p.1 := by
    rw [← hfst', List.getLast?_map, List.getLast?_eq_getElem?, ← hus'.length_eq, hp]
    rfl
  have hrs : recShape n (⟨false, .tensor u0 :: us⟩ : Coeffs R) = .ok ((Kss.getLast?.getD []).map (2 * ·)) := by
    rw [hpK]
    refine hlast _ e B p.1 (fun bs b => p.2 b bs) ?_ (by
      show (Entry.tensor u0 :: us).getLast? = some e
      rw [List.getLast?_cons, he]; rfl) hsh
    exact hKl p.1 (hfst' ▸ List.mem_map_of_mem (f := Prod.fst) (List.mem_of_getElem? hp))
  obtain ⟨z, epz, z1, z2, z3⟩ := hpost z₀ (idwtLenN 2 K0 Kss)
    (fun lo qs => idwtWith syn lo (qs.map fun p => (p.1, fun bs => p.2 (g bs)))) (idwtLenN_length hK0 hKl) (by
      refine hz.congr fun b ks _ _ => ?_
      rw [hps', List.map_map, List.map_map]
      rfl)
  refine ⟨z, ?_, z1, z2, ?_⟩
  · unfold recCallN recInputN
    simp only [bind, Except.bind, ep, eck, hrs, pure, Except.pure]
    have hl1 : (Coeffs.items (R := R) ⟨false, .tensor u0 :: us⟩).length - 1 = Kss.length := by
      simp [hul]
    have hpr := recPrepareN_fresh (la := la) (cfg := cfg) (md := md) (n := n) (N := N) (Ms := Ms)
      (ns := (Kss.getLast?.getD []).map (2 * ·)) (L := Kss.length) (st := ⟨none, none, [], false⟩) (by rw [hlen]; exact hF)
      (by rw [hlen]; exact hM) (by
        rw [List.length_map, hpK]
        exact hKl p.1 (hfst' ▸ List.mem_map_of_mem (f := Prod.fst) (List.mem_of_getElem? hp)))
      (by
        intro k hk
        obtain ⟨K, hK, rfl⟩ := List.mem_map.mp hk
        rw [evenLen_of_even (by omega)]
        exact hN K hK) rfl
    rw [hl1, hpr]
    simp only
    rw [hlen]
    have hml : us.length = (builtN Ms F Kss.length ((Kss.getLast?.getD []).map (2 * ·))).length := by
      have h1 := congrArg List.length hbuilt
      rw [List.length_reverse, List.length_map] at h1
      rw [h1, hul, synTargets_length]
    rw [hloop _ _ _ u0 us hml (by rw [hu0.shape]; rfl) rfl, hbuilt, ez]
    exact epz
  · intro idx hidx
    rw [z3 idx hidx]
    show idwtWith syn _ _ _ = _
    rw [List.map_zipWith]

end

end Verif
