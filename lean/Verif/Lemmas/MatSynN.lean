import Verif.Lemmas.MatSynTop
import Verif.Lemmas.MatNonsepTop
import Verif.Lemmas.RecGenN
import Verif.Lemmas.MatNTop

/-! The matrix synthesis on arbitrary coefficients: several axes. -/

namespace Verif
open Tensor Spec
variable {R : Type}

/-- The bands of a level, put side by side along every axis. -/
def joinedN : List Nat → (List Bool → List Nat → R) → List Nat → R
  | K :: Ks, c, k :: ks =>
    if k < K then joinedN Ks (fun bs js => c (false :: bs) (k :: js)) ks
    else joinedN Ks (fun bs js => c (true :: bs) ((k - K) :: js)) ks
  | _, c, _ => c [] []

theorem mulN_joined [NonUnitalNonAssocSemiring R] {T : Nat → Nat → Nat → R} : ∀ (Ks : List Nat)
    (c : List Bool → List Nat → R) (ks : List Nat), ks.length = Ks.length →
    mulN (Ks.map fun K => (T (2 * K), 2 * K)) (joinedN Ks c) ks = matSynthN T Ks c ks
  | [], c, [], _ => by simp [mulN, joinedN, matSynthN]
  | K :: Ks, c, k :: ks, h => by
    have h : ks.length = Ks.length := by simpa using h
    rw [List.map_cons, mulN, two_mul, Finset.sum_range_add, ← two_mul, matSynthN, matSynth]
    congr 1
    · refine Finset.sum_congr rfl fun i hi => ?_
      rw [Finset.mem_range] at hi
      rw [← mulN_joined Ks _ ks h]
      congr 2
      funext js
      rw [joinedN, if_pos hi]
    · refine Finset.sum_congr rfl fun i hi => ?_
      rw [Finset.mem_range] at hi
      rw [← mulN_joined Ks _ ks h]
      congr 2
      funext js
      rw [joinedN, if_neg (by omega), Nat.add_sub_cancel_left]

theorem joined_bandPos : ∀ (bs : List Bool) (ns : List Nat) (c : List Bool → List Nat → R) (ks : List Nat),
    bs.length = ns.length → InB (halfLens ns) ks → joinedN (halfLens ns) c (bandPos bs ns ks) = c bs ks
  | [], [], c, [], _, _ => rfl
  | b :: bs, n :: ns, c, k :: ks, h, hk => by
    have h' : bs.length = ns.length := by simpa using h
    have hk1 : k < evenLen n / 2 := hk.1
    have hk2 : InB (halfLens ns) ks := hk.2
    show joinedN (evenLen n / 2 :: halfLens ns) c (_ :: bandPos bs ns ks) = _
    rw [joinedN]
    cases b with
    | false =>
      simp only [Bool.false_eq_true, if_false]
      rw [if_pos hk1, joined_bandPos bs ns _ ks h' hk2]
    | true =>
      simp only [if_true]
      rw [if_neg (by omega), joined_bandPos bs ns _ ks h' hk2, Nat.add_sub_cancel_left]
  | [], [], _, _ :: _, _, hk => by simp [halfLens, InB] at hk
  | _ :: _, _ :: _, _, [], _, hk => by simp [halfLens, InB] at hk

/-- A reconstruction step on arbitrary bands; `ns` are the sizes of the next details, or twice the sizes of the bands. -/
def SynStepOk [NonUnitalNonAssocSemiring R]
    (step : Option (List (Coo R)) → Tensor R → Entry R → List (Entry R) → Except Err (Tensor R))
    (Ms : List Nat → List (Coo R)) (syn : List Nat → (List Bool → List Nat → R) → List Nat → R) (md : Meta) (B n F N : Nat)
    (D : (List Bool → Tensor R → Prop) → Entry R → Prop)
    (St : List Nat → (Nat → List Nat → R) → Tensor R → Prop) : Prop :=
  ∀ ns (c : Nat → List Bool → List Nat → R) u e fin, ns.length = n → (∀ k ∈ ns, F ≤ k) → (∀ k ∈ ns, evenLen k ≤ N) →
    St (halfLens ns) (fun b => c b (lowBand n)) u →
    D (fun bs t => ShowsN t md B (halfLens ns) (fun b => c b bs)) e →
    FinOk D md B ns fin →
    ∃ v, step (some (Ms ns)) u e fin = .ok v ∧
      (fin = [] → ShowsN v md B (ns.map evenLen) (fun b => syn (halfLens ns) (c b))) ∧
      (fin ≠ [] → St ns (fun b => syn (halfLens ns) (c b)) v)

/-- What happens to the sizes in the loop: `ns` are the sizes the synthesised signal is cropped to. -/
theorem halfLens_next {Ks ns : List Nat} (hK : ∀ K ∈ Ks, 1 ≤ K) (h : NextFits 2 Ks ns) : halfLens ns = Ks := by
  unfold NextFits at h
  induction h with
  | nil => rfl
  | @cons K n Ks ns h1 _ ih =>
    have := hK K (by simp)
    unfold halfLens at *
    rw [List.map_cons, ih fun K hK' => hK K (by simp [hK'])]
    congr 1
    unfold evenLen
    omega

theorem halfLens_double (Ks : List Nat) : halfLens (Ks.map (2 * ·)) = Ks := by
  unfold halfLens
  rw [List.map_map]
  conv_rhs => rw [← List.map_id Ks]
  refine List.map_congr_left fun K _ => ?_
  show evenLen (2 * K) / 2 = K
  unfold evenLen; omega

theorem evenLen_double (Ks : List Nat) : (Ks.map (2 * ·)).map evenLen = Ks.map (2 * ·) := by
  rw [List.map_map]
  refine List.map_congr_left fun K _ => ?_
  show evenLen (2 * K) = 2 * K
  unfold evenLen; omega

section loop
variable [NonUnitalNonAssocSemiring R] {syn : List Nat → (List Bool → List Nat → R) → List Nat → R} {F N : Nat} {md : Meta}
  {B n : Nat} {D : (List Bool → Tensor R → Prop) → Entry R → Prop} {Ms : List Nat → List (Coo R)}
  {St : List Nat → (Nat → List Nat → R) → Tensor R → Prop}
  {step : Option (List (Coo R)) → Tensor R → Entry R → List (Entry R) → Except Err (Tensor R)}

/-- The sizes for which matrices are needed, in the order of the details. -/
def synTargets : List (List Nat) → List (List Nat)
  | [] => []
  | [d] => [d.map (2 * ·)]
  | _ :: n :: rest => n :: synTargets (n :: rest)

theorem synLoop_gen (hD : DetailKind D)
    (hhigh : ∀ {P : List Bool → Tensor R → Prop} {e : Entry R}, D P e → D (fun bs t => P bs t ∧ true ∈ bs) e)
    (hstep : SynStepOk step Ms syn md B n F N D St) :
    ∀ (es : List (Entry R)) (ps : List (List Nat × (Nat → List Bool → List Nat → R))) (t : Tensor R) (Ks : List Nat)
      (lo : Nat → List Nat → R), es ≠ [] → Ks.length = n → (∀ p ∈ ps, p.1.length = n) → St Ks lo t →
      List.Forall₂ (fun e p => D (fun bs u => ShowsN u md B p.1 (fun b => p.2 b bs)) e) es ps →
      ConsistentN 2 Ks (ps.map Prod.fst) → LongEnoughN F (ps.map Prod.fst) →
      (∀ d ∈ synTargets (ps.map Prod.fst), ∀ k ∈ d, evenLen k ≤ N) →
        ∃ z, recLoopT step [] ((synTargets (ps.map Prod.fst)).map Ms) t es = .ok z ∧
          ShowsN z md B (idwtLenN 2 Ks (ps.map Prod.fst))
          (fun b => idwtWith syn (lo b) (ps.map fun p => (p.1, p.2 b)))
  | [], _, _, _, _, h, _, _, _, _, _, _, _ => absurd rfl h
  | e :: es, (Ds, hi) :: ps, t, Ks, lo, _, hl, hps, ht, hes, hc, hle, hN => by
    rw [List.forall₂_cons] at hes
    obtain ⟨he, hes⟩ := hes
    have hone : ∀ (ns : List Nat) fin, Ds = Ks → halfLens ns = Ks → ns.length = n → (∀ k ∈ ns, F ≤ k) → (∀ k ∈ ns, evenLen k ≤ N) →
        FinOk D md B ns fin →
        ∃ v, step (some (Ms ns)) t e fin = .ok v ∧
          (fin = [] → ShowsN v md B (ns.map evenLen) (fun b => syn Ks (withLow (lo b) (hi b)))) ∧
          (fin ≠ [] → St ns (fun b => syn Ks (withLow (lo b) (hi b))) v) := fun ns fin hd hh hnl hge hN hf => by
      subst hd
      have := hstep ns (fun b => withLow (lo b) (hi b)) t e fin hnl hge hN
        (by rw [hh]; simpa only [withLow_low] using ht)
        (hD.mono (hhigh he) fun bs u hu => by
          have : (fun b => withLow (lo b) (hi b) bs) = fun b => hi b bs := by
            funext b; unfold withLow; rw [if_pos hu.2]
          rw [this, hh]; exact hu.1) hf
      rw [hh] at this
      exact this
    match es, ps, hes with
    | [], [], _ =>
      obtain ⟨hd, hK⟩ : Ds = Ks ∧ ∀ K ∈ Ks, 1 ≤ K := hc
      subst hd
      obtain ⟨v, ev, v1, -⟩ := hone (Ds.map (2 * ·)) [] rfl (halfLens_double Ds) (by rw [List.length_map]; exact hl)
        (by
          intro k hk
          obtain ⟨K, hK', rfl⟩ := List.mem_map.mp hk
          exact hle K hK') (hN _ (by simp [synTargets])) (Or.inl rfl)
      refine ⟨v, ?_, ?_⟩
      · simp only [List.map_cons, List.map_nil, synTargets, recLoopT, List.head?_cons, List.append_nil, ev, Except.bind]
      · have := v1 rfl
        rw [evenLen_double] at this
        exact this
    | e' :: es, (Ns, hi') :: ps, hes =>
      have he' := (List.forall₂_cons.mp hes).1
      have hnl : Ns.length = n := hps (Ns, hi') (by simp)
      obtain ⟨hd, hK, hf, hc'⟩ : Ds = Ks ∧ (∀ K ∈ Ks, 1 ≤ K) ∧ NextFits 2 Ks Ns ∧
        ConsistentN 2 Ns (Ns :: ps.map Prod.fst) := hc
      obtain ⟨hle1, hle2⟩ : (∀ K ∈ Ns, F ≤ K) ∧ LongEnoughN F (Ns :: ps.map Prod.fst) := hle
      obtain ⟨v, ev, -, v2⟩ := hone Ns (e' :: es) hd (halfLens_next hK hf) hnl hle1
        (hN Ns (by simp [synTargets])) (Or.inr ⟨e', es, fun bs b => hi' b bs, rfl, he'⟩)
      obtain ⟨z, ez, hz⟩ := synLoop_gen hD hhigh hstep (e' :: es) ((Ns, hi') :: ps) v Ns _ (by simp) hnl
        (fun p hp => hps p (by simp [List.mem_cons.mp hp])) (v2 (by simp)) hes hc' hle2
        (fun d hd' => hN d (by
          show d ∈ synTargets (Ds :: Ns :: ps.map Prod.fst)
          rw [synTargets]; exact List.mem_cons_of_mem _ hd'))
      refine ⟨z, ?_, ?_⟩
      · have e1 : (synTargets (((Ds, hi) :: (Ns, hi') :: ps).map Prod.fst)).map Ms
            = Ms Ns :: (synTargets (((Ns, hi') :: ps).map Prod.fst)).map Ms := by
          simp [synTargets]
        rw [e1, recLoopT, List.head?_cons, List.append_nil, ev]
        exact ez
      · rw [hd]
        exact hz

end loop

/-! ### The matrices which are built -/

/-- `rs` are the sizes of the details, the finest first, of a signal of sizes `n`. -/
def HalfChainN : List Nat → List (List Nat) → Prop
  | _, [] => True
  | n, d :: rs => halfLens n = d ∧ HalfChainN d rs

def GeChainN (F : Nat) : List Nat → List (List Nat) → Prop
  | _, [] => True
  | n, d :: rs => (∀ k ∈ n, F ≤ k) ∧ GeChainN F d rs

def targetsR : List Nat → List (List Nat) → List (List Nat)
  | _, [] => []
  | n, d :: rs => n :: targetsR d rs

theorem halfChainN_snoc {n m d : List Nat} : ∀ {rs : List (List Nat)}, HalfChainN n (rs ++ [m] ++ [d]) ↔
    HalfChainN n (rs ++ [m]) ∧ halfLens m = d
  | [] => by simp [HalfChainN]
  | r :: rs => by
    have := halfChainN_snoc (n := r) (m := m) (d := d) (rs := rs)
    simp only [List.cons_append, HalfChainN, this, and_assoc]

theorem geChainN_snoc {F : Nat} {n m d : List Nat} : ∀ {rs : List (List Nat)}, GeChainN F n (rs ++ [m] ++ [d]) ↔
    GeChainN F n (rs ++ [m]) ∧ ∀ k ∈ m, F ≤ k
  | [] => by simp [GeChainN]
  | r :: rs => by
    have := geChainN_snoc (F := F) (n := r) (m := m) (d := d) (rs := rs)
    simp only [List.cons_append, GeChainN, this, and_assoc]

theorem targetsR_snoc {n m d : List Nat} : ∀ {rs : List (List Nat)}, targetsR n (rs ++ [m] ++ [d]) =
    targetsR n (rs ++ [m]) ++ [m]
  | [] => by simp [targetsR]
  | r :: rs => by
    have := targetsR_snoc (n := r) (m := m) (d := d) (rs := rs)
    simp only [List.cons_append, targetsR, this]

theorem builtN_chain {α : Type} {f : List Nat → α} {F : Nat} : ∀ {n : List Nat} {rs : List (List Nat)}, HalfChainN n rs →
    GeChainN F n rs → builtN f F rs.length n = (targetsR n rs).map f
  | _, [], _, _ => rfl
  | n, d :: rs, h, g => by
    rw [List.length_cons, builtN, if_neg (by push Not; exact g.1), h.1, builtN_chain h.2 g.2]
    rfl

theorem halfChainN_of_consistent : ∀ {ds : List (List Nat)} {K : List Nat}, ConsistentN 2 K ds →
    HalfChainN ((ds.getLast?.getD []).map (2 * ·)) ds.reverse
  | [], _, _ => trivial
  | [d], _, _ => by
    show halfLens (d.map (2 * ·)) = d ∧ True
    exact ⟨halfLens_double d, trivial⟩
  | d :: n :: rest, K, h => by
    obtain ⟨rfl, hK, hn, hc⟩ := h
    have ih := halfChainN_of_consistent hc
    rw [List.getLast?_cons_cons, List.reverse_cons, List.reverse_cons, halfChainN_snoc, ← List.reverse_cons]
    exact ⟨ih, halfLens_next hK hn⟩

theorem geChainN_iff {F : Nat} : ∀ {ds : List (List Nat)},
    GeChainN F ((ds.getLast?.getD []).map (2 * ·)) ds.reverse ↔ LongEnoughN F ds
  | [] => by simp [GeChainN, LongEnoughN]
  | [d] => by simp [GeChainN, LongEnoughN]
  | d :: n :: rest => by
    rw [List.getLast?_cons_cons, List.reverse_cons, List.reverse_cons, geChainN_snoc, ← List.reverse_cons, geChainN_iff,
      LongEnoughN]
    exact and_comm

theorem targetsR_eq : ∀ (ds : List (List Nat)), targetsR ((ds.getLast?.getD []).map (2 * ·)) ds.reverse = (synTargets ds).reverse
  | [] => rfl
  | [d] => rfl
  | d :: n :: rest => by
    rw [List.getLast?_cons_cons, List.reverse_cons, List.reverse_cons, targetsR_snoc, ← List.reverse_cons, targetsR_eq,
      synTargets, List.reverse_cons]

theorem builtN_syn {α : Type} {f : List Nat → α} {F : Nat} {ds : List (List Nat)} {K : List Nat} (hc : ConsistentN 2 K ds)
    (hl : LongEnoughN F ds) :
    (builtN f F ds.length ((ds.getLast?.getD []).map (2 * ·))).reverse = (synTargets ds).map f := by
  have := builtN_chain (f := f) (halfChainN_of_consistent hc) (geChainN_iff.mpr hl)
  rw [List.length_reverse] at this
  rw [this, targetsR_eq, List.map_reverse, List.reverse_reverse]

theorem targets_bound {F N : Nat} (hF : 2 ≤ F) : ∀ {n : List Nat} {rs : List (List Nat)}, HalfChainN n rs → GeChainN F n rs →
    (∀ k ∈ n, evenLen k ≤ N) → ∀ d ∈ targetsR n rs, ∀ k ∈ d, evenLen k ≤ N
  | _, [], _, _, _, d, hd => by simp [targetsR] at hd
  | n, r :: rs, h, g, hN, d, hd => by
    rcases List.mem_cons.mp hd with rfl | hd
    · exact hN
    · refine targets_bound hF h.2 g.2 ?_ d hd
      rw [← h.1]
      exact halfLens_bound hF g.1 hN

theorem synTargets_bound {F N : Nat} (hF : 2 ≤ F) {ds : List (List Nat)} {K : List Nat} (hc : ConsistentN 2 K ds)
    (hl : LongEnoughN F ds) (hN : ∀ K ∈ ds.getLast?.getD [], 2 * K ≤ N) :
    ∀ d ∈ synTargets ds, ∀ k ∈ d, evenLen k ≤ N := by
  intro d hd
  refine targets_bound hF (halfChainN_of_consistent hc) (geChainN_iff.mpr hl) ?_ d (by
    rw [targetsR_eq]; exact List.mem_reverse.mpr hd)
  intro k hk
  obtain ⟨K, hK, rfl⟩ := List.mem_map.mp hk
  rw [evenLen_of_even (by omega)]
  exact hN K hK

end Verif
