import Verif.Lemmas.RecGenN
import Verif.Lemmas.SepInv
import Verif.Spec.IdwtSep

/-! The separable synthesis on arbitrary coefficients. -/

namespace Verif
open Tensor Spec
variable {R : Type}

theorem ShowsN.covers_of_le [Zero R] {t : Tensor R} {md : Meta} {B : Nat} {Ks Ds : List Nat}
    {X : Nat → List Nat → R} (h : ShowsN t md B Ks X) (hle : List.Forall₂ (fun D K => 1 ≤ D ∧ D ≤ K) Ds Ks) :
    CoversN t md B Ds X := by
  have hl := hle.length_eq
  refine ⟨h.md, by rw [h.rank, hl], ?_, ?_⟩
  · intro i hi
    rw [h.shape]
    cases i with
    | zero => exact le_rfl
    | succ i =>
      have hi' : i < Ds.length := by omega
      show Ds.getD i 0 ≤ Ks.getD i 0
      rw [List.getD_eq_getElem _ _ hi', List.getD_eq_getElem _ _ (by omega)]
      exact ((List.forall₂_iff_get.mp hle).2 i hi' (by omega)).2
  · intro b ks hb hk
    refine h.get b ks hb ?_
    clear h hl
    induction hle generalizing ks with
    | nil => exact hk
    | cons h1 _ ih =>
      cases ks with
      | nil => exact hk
      | cons k ks => exact ⟨lt_of_lt_of_le hk.1 h1.2, ih _ hk.2⟩

section loop
variable [CommSemiring R] {w : Wavelet R} {F : Nat} {md : Meta} {B n : Nat} {keys : List String}

theorem sepRecLoop_gen (ha : AllDetails n keys) (hk : RecKind (R := R) (IsDict keys)) (hF : 2 ≤ F)
    (h0 : w.recLo.length = F) (h1 : w.recHi.length = F) (hdt : isDtypeSupported md.dtype = true) (hn : 1 ≤ n) :
    ∀ (es : List (Entry R)) (ps : List (List Nat × (Nat → List Bool → List Nat → R))) (t : Tensor R) (Ks : List Nat)
      (lo : Nat → List Nat → R), Ks.length = n → ShowsN t md B Ks lo →
      List.Forall₂ (fun e p => IsDict keys (fun bs u => ShowsN u md B p.1 (fun b => p.2 b bs)) e) es ps →
      CoveredN F Ks (ps.map Prod.fst) →
        ∃ z, (sepRecLoop w t es).1 = .ok z ∧ ShowsN z md B (idwtLenSep F Ks (ps.map Prod.fst))
          (fun b => idwtN w.recLo w.recHi F (lo b) (ps.map fun p => (p.1, p.2 b)))
  | [], [], t, Ks, lo, _, ht, _, _ => ⟨t, rfl, ht⟩
  | e :: es, (Ds, hi) :: ps, t, Ks, lo, hl, ht, hes, hc => by
    rw [List.forall₂_cons] at hes
    obtain ⟨he, hes⟩ := hes
    obtain ⟨hle, hc⟩ := hc
    have hle : List.Forall₂ (fun D K => 1 ≤ D ∧ D ≤ K) Ds Ks := hle
    have hDl : Ds.length = n := by rw [hle.length_eq, hl]
    have hD1 : ∀ D ∈ Ds, 1 ≤ D := by
      intro D hD
      obtain ⟨i, hi, rfl⟩ := List.getElem_of_mem hD
      exact ((List.forall₂_iff_get.mp hle).2 i hi (by rw [hl, ← hDl]; exact hi)).1
    have he' := hk.mono (hk.high he) (Q := fun bs u => ShowsN u md B Ds (fun b => withLow (lo b) (hi b) bs)) (by
      intro bs u hu
      have : (fun b => withLow (lo b) (hi b) bs) = fun b => hi b bs := by
        funext b; unfold withLow; rw [if_pos hu.2]
      rw [this]; exact hu.1)
    obtain ⟨kv, rfl, hkv⟩ := detOk_of_isDict ha he'
    obtain ⟨em, z, ez, hz⟩ := sepLevel_ok (w := w) (c := fun b => withLow (lo b) (hi b)) hF h0 h1 hdt hn hDl hD1
      (t := t) (by simpa only [withLow_low] using ht.covers_of_le hle) hkv
    have hval : ∀ b, synFrom w.recLo w.recHi F Ds (withLow (lo b) (hi b)) = fun ks => synthesisN w.recLo w.recHi Ds
        (fun bs => if true ∈ bs then hi b bs else lo b) (ks.map fun k => ((k + (F - 2) : ℕ) : ℤ)) := by
      intro b
      funext ks
      unfold synFrom
      rw [synN_synthesisN]
      rfl
    simp only [hval] at hz
    obtain ⟨z', ez', hz'⟩ := sepRecLoop_gen ha hk hF h0 h1 hdt hn es ps z _ _ (by simpa using hDl) hz hes hc
    refine ⟨z', ?_, hz'⟩
    rw [sepRecLoop]
    simp only [em, ez]
    exact ez'

end loop

section top
variable [CommSemiring R] {w : Wavelet R} {F : Nat} {h : AxisHint} {md : Meta} {S : List Nat} {n : Nat}
  {t0 : Tensor R} {es : List (Entry R)} {K0 : List Nat} {Kss : List (List Nat)} {keys : List String}

theorem idwtLenSep_length {F n : Nat} : ∀ {Ks : List Nat} {Kss : List (List Nat)}, Ks.length = n →
    (∀ Ks ∈ Kss, Ks.length = n) → (idwtLenSep F Ks Kss).length = n
  | _, [], h, _ => h
  | _, d :: rest, _, h => idwtLenSep_length (F := F) (Ks := d.map fun D => 2 * D + 2 - F) (Kss := rest)
      (by rw [List.length_map]; exact h d (by simp)) fun Ks hKs => h Ks (List.mem_cons_of_mem _ hKs)

theorem isDict_all {us : List (Entry R)} {β : Type} {P : β → List Bool → Tensor R → Prop} {ps : List β}
    (h : List.Forall₂ (fun e p => IsDict keys (P p) e) us ps) : us.all Entry.isDict = true := by
  induction h with
  | nil => rfl
  | cons h1 _ ih =>
    obtain ⟨kv, rfl, -⟩ := h1
    rw [List.all_cons, ih]
    rfl

/-- The separable reconstruction of arbitrary coefficients. -/
theorem fswaverecn_gen (ha : AllDetails n keys) (hk : RecKind (R := R) (IsDict keys)) (hn : 1 ≤ n) (hF : 2 ≤ F)
    (h0 : w.recLo.length = F) (h1 : w.recHi.length = F)
    (hg : GoodAxes h S.length n) (hdt : isDtypeSupported md.dtype = true)
    (hK0 : K0.length = n) (hKl : ∀ Ks ∈ Kss, Ks.length = n)
    (ht : Uniform md (setMany S (axesOf h S.length n) K0) t0)
    (hes : List.Forall₂ (fun e Ks => IsDict keys (fun _ t => Uniform md (setMany S (axesOf h S.length n) Ks) t) e) es Kss)
    (hc : CoveredN F K0 Kss) :
    ∃ z, (fswaverecn ⟨false, .tensor t0 :: es⟩ w n h).1 = .ok z ∧ z.md = md ∧
      z.shape = setMany S (axesOf h S.length n) (idwtLenSep F K0 Kss) ∧
      ∀ idx, InB z.shape idx → z.get idx =
        idwtN w.recLo w.recHi F (plane t0 (axesOf h S.length n) idx)
          (List.zipWith (fun e Ks => (Ks, bandPlane e (axesOf h S.length n) idx)) es Kss)
          (sizes (axesOf h S.length n) idx) := by
  obtain ⟨u0, us, c₀, ep, ec, s0, ss, sf, hpost⟩ := rec_gen hk hg hdt hK0 hKl ht hes
  obtain ⟨z₀, ez, hz⟩ := sepRecLoop_gen ha hk hF h0 h1 hdt hn us _ u0 K0 _ hK0 s0 ss (by rw [sf]; exact hc)
  rw [sf] at hz
  obtain ⟨z, epz, hz⟩ := hpost z₀ _ (fun lo ps => idwtN w.recLo w.recHi F lo ps) (idwtLenSep_length hK0 hKl) hz
  refine ⟨z, ?_, hz⟩
  have hall : us.all Entry.isDict = true := isDict_all ss
  have es' : (sepWaverecn ⟨false, .tensor u0 :: us⟩ w).1 = .ok z₀ := by
    unfold sepWaverecn
    simp only [hall, if_true, ez]
  unfold fswaverecn
  simp only [ep, ec, es']
  exact epz

end top

/-! ### Approximations that are too short -/

theorem prodL_eq_of_le : ∀ {s t : List Nat}, s.length = t.length →
    (∀ i, i < s.length → 1 ≤ s.getD i 0 ∧ s.getD i 0 ≤ t.getD i 0) →
    1 ≤ prodL s ∧ prodL s ≤ prodL t ∧ (prodL s = prodL t → s = t)
  | [], [], _, _ => ⟨le_rfl, le_rfl, fun _ => rfl⟩
  | a :: s, b :: t, hl, h => by
    have h0 : 1 ≤ a ∧ a ≤ b := h 0 (by simp)
    obtain ⟨i1, i2, i3⟩ := prodL_eq_of_le (s := s) (t := t) (by simpa using hl)
      (fun i hi => h (i + 1) (by simpa using hi))
    simp only [prodL_cons]
    refine ⟨Nat.mul_pos h0.1 i1, Nat.mul_le_mul h0.2 i2, fun he => ?_⟩
    rcases Nat.lt_or_ge a b with hab | hab
    · exfalso
      have : a * prodL s < b * prodL t := Nat.mul_lt_mul_of_lt_of_le hab i2 (by omega)
      omega
    · have : a = b := by omega
      subst this
      rw [i3 (Nat.eq_of_mul_eq_mul_left h0.1 he)]

theorem waverec_pair_err [NonUnitalNonAssocSemiring R] {w : Wavelet R} {F : Nat} {md : Meta} {fa fd : Tensor R}
    {p q K L : Nat} (h0 : w.recLo.length = F) (h1 : w.recHi.length = F) (hdt : isDtypeSupported md.dtype = true)
    (ham : fa.md = md) (hdm : fd.md = md) (has : fa.shape = [p, K]) (hds : fd.shape = [q, L])
    (hne : ¬ (p = q ∧ K = L)) : waverec [fa, fd] w .none = .error .runtimeError := by
  have hg2 : GoodAxes .none 2 1 := by
    refine ⟨le_rfl, rfl, ?_, by decide⟩
    intro x hx
    simp only [resolve, List.range_one, List.map_cons, List.map_nil, List.mem_singleton] at hx
    subst hx
    exact ⟨by decide, by decide⟩
  have hrank : ∀ t ∈ [fa, fd], t.rank = 2 := by
    intro t ht
    simp only [List.mem_cons, List.not_mem_nil, or_false] at ht
    unfold Tensor.rank
    rcases ht with rfl | rfl
    · rw [has]; rfl
    · rw [hds]; rfl
  obtain ⟨c', ep, rel⟩ := preprocessCoeffs_ok hg2 (c := Coeffs.ofList [fa, fd])
    (ofList_wf (by simp) hrank) (headTensor_ofList fa [fd]) (by rw [ham]; exact hdt)
  obtain ⟨us, rfl, hf⟩ := rel.ofList
  cases hf with
  | @cons _ u0 _ us' hu0 hus =>
  cases hus with
  | @cons _ u1 _ us' hu1 hus =>
  cases hus
  have hck : checkSameDeviceDtype (Coeffs.ofList [u0, u1]) = .ok md :=
    checkSameDeviceDtype_ok (ofList_wf (by simp) (by
      intro u hu
      simp only [List.mem_cons, List.not_mem_nil, or_false] at hu
      rcases hu with rfl | rfl
      · rw [hu0.2.md, ham]
      · rw [hu1.2.md, hdm]))
  obtain ⟨filt, ef, f1, f2, f3⟩ := filt_ok w.recLo w.recHi F h0 h1 false md
  have s0 : u0.shape = [p, K] := by
    rw [hu0.2.shape, hu0.1, has]; simp [axesOf, resolve, axisOf, batchAxes, pick, prodL, List.range_succ]
  have s1 : u1.shape = [q, L] := by
    rw [hu1.2.shape, hu1.1, hds]; simp [axesOf, resolve, axisOf, batchAxes, pick, prodL, List.range_succ]
  unfold waverec
  simp only [bind, Except.bind, ep, hck, ef, toList_ofList, waverecLoop]
  have : stack1 [u0, u1] = .error .runtimeError := by
    unfold stack1
    simp only [s0]
    rw [if_neg]
    intro h
    have := (h u1 (by simp)).1
    rw [s1] at this
    simp only [List.cons.injEq, and_true] at this
    exact hne ⟨this.1.symm, this.2.symm⟩
  rw [this]

/-- A pair of bands of which the approximation is too short along some axis. -/
theorem sepRec1_short [NonUnitalNonAssocSemiring R] {w : Wavelet R} {F : Nat} {md : Meta} {a d : Tensor R} {k : Nat}
    (h0 : w.recLo.length = F) (h1 : w.recHi.length = F) (hdt : isDtypeSupported md.dtype = true)
    (ham : a.md = md) (hdm : d.md = md) (hr : a.rank = d.rank)
    (hpos : ∀ i, i < d.rank → 1 ≤ d.shape.getD i 0 ∧ 1 ≤ a.shape.getD i 0)
    (hlt : ∃ i, i < d.rank ∧ a.shape.getD i 0 < d.shape.getD i 0)
    (hk1 : 1 ≤ k) (hk2 : k ≤ d.rank) : sepRec1 w k a d = .error .runtimeError := by
  obtain ⟨S, hS⟩ : ∃ S, d.shape = S := ⟨_, rfl⟩
  have hSr : d.rank = S.length := by unfold Tensor.rank; rw [hS]
  rw [hSr] at hr hpos hlt hk2
  rw [hS] at hpos hlt
  set r := S.length with hrdef
  obtain ⟨a', ea, am, as⟩ : ∃ u, cropTo a S = .ok u ∧ u.md = a.md ∧
      u.shape = (List.range r).map fun i => min (S.getD i 0) (a.shape.getD i 0) := by
    refine ⟨_, if_neg (by omega), rfl, ?_⟩
    show (List.range a.rank).map _ = _
    rw [hr]
    apply List.map_congr_left
    intro i hi
    rw [List.mem_range] at hi
    rw [if_pos hi]
  obtain ⟨S', hS'⟩ : ∃ S', a'.shape = S' := ⟨_, rfl⟩
  have hl' : S'.length = r := by rw [← hS', as]; simp
  have hget : ∀ i, i < r → S'.getD i 0 = min (S.getD i 0) (a.shape.getD i 0) := by
    intro i hi
    rw [← hS', as, List.getD_eq_getElem _ _ (by simpa using hi)]
    simp
  have hle : ∀ i, i < r → 1 ≤ S'.getD i 0 ∧ S'.getD i 0 ≤ S.getD i 0 := by
    intro i hi
    rw [hget i hi]
    have := hpos i hi
    omega
  have hne : S' ≠ S := by
    rintro rfl
    obtain ⟨i, hi, h⟩ := hlt
    have := hget i hi
    omega
  have har : a'.rank = r := by unfold Tensor.rank; rw [hS', hl']
  obtain ⟨ta, eta, tam, tas, -⟩ := transposeLast_ok (t := a') (k := k) hk1 (by rw [har]; exact hk2)
  obtain ⟨td, etd, tdm, tds, -⟩ := transposeLast_ok (t := d) (k := k) hk1 (by rw [hSr]; exact hk2)
  rw [har, hS'] at tas
  rw [hSr, hS] at tds
  set p := r - k with hp
  have hpr : p < r := by omega
  have hlr : r - 1 < r := by omega
  have hTl : ∀ {l : List Nat}, l.length = r → (swp (r - 1) p l) = (swp (r - 1) p l).dropLast ++ [(swp (r - 1) p l).getD (r - 1) 0] := by
    intro l hl
    have := last_eq (l := swp (r - 1) p l) (by rw [swp_length]; omega)
    rwa [swp_length, hl] at this
  have hswle : ∀ i, i < r → 1 ≤ (swp (r - 1) p S').getD i 0 ∧ (swp (r - 1) p S').getD i 0 ≤ (swp (r - 1) p S).getD i 0 := by
    intro i hi
    rw [swp_getD (by omega) (by omega), swp_getD hlr hpr]
    split_ifs
    · exact hle _ hlr
    · exact hle _ hpr
    · exact hle _ hi
  have hswne : swp (r - 1) p S' ≠ swp (r - 1) p S := by
    intro h
    have := congrArg (swp (r - 1) p) h
    rw [swp_swp (by omega) (by omega), swp_swp hlr hpr] at this
    exact hne this
  have eT' := hTl hl'
  have eT := hTl (l := S) rfl
  have hK' := (hswle (r - 1) hlr)
  obtain ⟨fa, efa, fam, fas, -⟩ := flatLast_ok (t := ta) (by rw [tas]; exact eT') hK'.1
  obtain ⟨fd, efd, fdm, fds, -⟩ := flatLast_ok (t := td) (by rw [tds]; exact eT) (by omega)
  have herr := waverec_pair_err (w := w) h0 h1 hdt (by rw [fam, tam, am, ham]) (by rw [fdm, tdm, hdm]) fas fds (by
    rintro ⟨e1, e2⟩
    apply hswne
    have hd := (prodL_eq_of_le (s := (swp (r - 1) p S').dropLast) (t := (swp (r - 1) p S).dropLast)
      (by simp [swp_length, hl', ← hrdef]) (by
        intro i hi
        rw [List.length_dropLast, swp_length, hl'] at hi
        have hi' : i < r := by omega
        have := hswle i hi'
        rwa [eT', eT, List.getD_append _ _ _ _ (by rw [List.length_dropLast, swp_length, hl']; exact hi),
          List.getD_append _ _ _ _ (by rw [List.length_dropLast, swp_length]; exact hi)] at this)).2.2 e1
    rw [eT', eT, e2, hd])
  unfold sepRec1
  rw [hS]
  simp only [bind, Except.bind, ea, eta, etd, efa, efd, herr]

section
variable [CommSemiring R] {w : Wavelet R} {F : Nat} {md : Meta} {B : Nat}

/-- A dictionary whose low-pass band is too short along some axis. -/
theorem sepIdwtn_short (hF : 2 ≤ F) (h0 : w.recLo.length = F) (h1 : w.recHi.length = F)
    (hdt : isDtypeSupported md.dtype = true) {Ds : List Nat} {n : Nat} (hDl : Ds.length = n + 1) (hB : 1 ≤ B)
    (hD : ∀ D ∈ Ds, 1 ≤ D) {kv : List (String × Tensor R)}
    (hkv : DictOk (n + 1) (fun bs t => t.md = md ∧ t.rank = n + 2 ∧ (true ∈ bs → t.shape = B :: Ds) ∧
      (bs = lowBand (n + 1) → (∀ i, i < n + 2 → 1 ≤ t.shape.getD i 0) ∧
        ∃ i, i < n + 2 ∧ t.shape.getD i 0 < (B :: Ds).getD i 0)) kv) :
    sepIdwtn w (n + 1) kv = .error .runtimeError := by
  obtain ⟨ks, ek, hk1, hk2⟩ := DictOk.aKeys hkv
  have hpos : ∀ i, i < n + 2 → 1 ≤ (B :: Ds).getD i 0 := by
    intro i hi
    cases i with
    | zero => exact hB
    | succ i =>
      show 1 ≤ Ds.getD i 0
      have : i < Ds.length := by omega
      rw [List.getD_eq_getElem _ _ this]
      exact hD _ (List.getElem_mem _)
  have hlow : keyOf (false :: lowBand n) ∈ ks := hk2 _ (by simp [lowBand])
  have key : ∀ (ks : List String), (∀ k ∈ ks, ∃ bs : List Bool, bs.length = n ∧ k = keyOf (false :: bs)) →
      keyOf (false :: lowBand n) ∈ ks → ∀ done, idwtnLoop w kv ks done = .error .runtimeError := by
    intro ks
    induction ks with
    | nil => intro _ h; simp at h
    | cons k ks ih =>
      intro hk hmem done
      obtain ⟨bs, hbl, rfl⟩ := hk k (by simp)
      obtain ⟨a, ea, am, ar, ah, al⟩ := hkv.get (bs := false :: bs) (by simp [hbl])
      obtain ⟨d, ed, dm, dr, dh, -⟩ := hkv.get (bs := true :: bs) (by simp [hbl])
      have ds := dh (by simp)
      have hlen : (keyOf (false :: bs)).length = n + 1 := by rw [keyOf_length]; simp [hbl]
      unfold idwtnLoop
      rw [keyTail_keyOf, d_append_keyOf]
      rcases band_cases bs with hb | hb
      · have as := ah (by simp [hb])
        obtain ⟨z, ez, -⟩ := sepRec1_ok (w := w) (k := n + 1) hF h0 h1 hdt am dm (by rw [ar, dr])
          (by intro i _; rw [as, ds]) (by omega) (by omega) (by rw [ds]; exact hpos _ (by omega))
        have hne : keyOf bs ≠ "" := by
          match bs, hb with
          | b :: bs, _ => exact keyOf_ne_empty b bs
        simp only [bind, Except.bind, ea, ed, hlen, ez]
        rw [if_neg hne]
        apply ih (fun k hk' => hk k (by simp [hk']))
        rcases List.mem_cons.mp hmem with h | h
        · exfalso
          have := keyOf_inj h
          simp only [List.cons.injEq, true_and] at this
          subst this
          exact not_mem_lowBand n hb
        · exact h
      · rw [hbl] at hb
        obtain ⟨al1, al2⟩ := al (by rw [hb]; rfl)
        have := sepRec1_short (w := w) (k := n + 1) h0 h1 hdt am dm (by rw [ar, dr])
          (by intro i hi; rw [dr] at hi; rw [ds]; exact ⟨hpos i hi, al1 i hi⟩)
          (by rw [dr, ds]; exact al2) (by omega) (by omega)
        simp only [bind, Except.bind, ea, ed, hlen, this]
  unfold sepIdwtn
  simp only [bind, Except.bind, ek, key ks hk1 hlow]

variable {n : Nat} {keys : List String}

theorem sepRecLoop_short (ha : AllDetails n keys) (hk : RecKind (R := R) (IsDict keys)) (hF : 2 ≤ F)
    (h0 : w.recLo.length = F) (h1 : w.recHi.length = F) (hdt : isDtypeSupported md.dtype = true) (hn : 1 ≤ n)
    (hB : 1 ≤ B) :
    ∀ (es : List (Entry R)) (ps : List (List Nat × (Nat → List Bool → List Nat → R))) (t : Tensor R) (Ks : List Nat)
      (lo : Nat → List Nat → R), Ks.length = n → ShowsN t md B Ks lo →
      List.Forall₂ (fun e p => IsDict keys (fun bs u => ShowsN u md B p.1 (fun b => p.2 b bs)) e) es ps →
      ShortN F Ks (ps.map Prod.fst) → (sepRecLoop w t es).1 = .error .runtimeError
  | [], [], t, Ks, lo, _, ht, _, h => h.elim
  | e :: es, (Ds, hi) :: ps, t, Ks, lo, hl, ht, hes, hc => by
    rw [List.forall₂_cons] at hes
    obtain ⟨he, hes⟩ := hes
    obtain ⟨hle, hc⟩ := hc
    have hle : List.Forall₂ (fun D K => 1 ≤ D ∧ 1 ≤ K) Ds Ks := hle
    have hDl : Ds.length = n := by rw [hle.length_eq, hl]
    have hD1 : ∀ D ∈ Ds, 1 ≤ D := by
      intro D hD
      obtain ⟨i, hi, rfl⟩ := List.getElem_of_mem hD
      exact ((List.forall₂_iff_get.mp hle).2 i hi (by rw [hl, ← hDl]; exact hi)).1
    have hK1 : ∀ K ∈ Ks, 1 ≤ K := by
      intro K hK
      obtain ⟨i, hi, rfl⟩ := List.getElem_of_mem hK
      exact ((List.forall₂_iff_get.mp hle).2 i (by rw [hDl, ← hl]; exact hi) hi).2
    have he' := hk.mono (hk.high he) (Q := fun bs u => ShowsN u md B Ds (fun b => withLow (lo b) (hi b) bs)) (by
      intro bs u hu
      have : (fun b => withLow (lo b) (hi b) bs) = fun b => hi b bs := by
        funext b; unfold withLow; rw [if_pos hu.2]
      rw [this]; exact hu.1)
    obtain ⟨kv, rfl, hkv⟩ := detOk_of_isDict ha he'
    rcases hc with ⟨i, hi'⟩ | ⟨hcov, hc⟩
    · obtain ⟨j, rfl⟩ : ∃ j, n = j + 1 := ⟨n - 1, by omega⟩
      have := sepIdwtn_short (w := w) (md := md) (B := B) (Ds := Ds) (n := j) (kv := dictSet kv (aKey (j + 1)) t)
        hF h0 h1 hdt hDl hB hD1 (by
        refine hkv.set (Q := fun bs t => t.md = md ∧ t.rank = j + 2 ∧ (true ∈ bs → t.shape = B :: Ds) ∧
          (bs = lowBand (j + 1) → (∀ i, i < j + 2 → 1 ≤ t.shape.getD i 0) ∧
            ∃ i, i < j + 2 ∧ t.shape.getD i 0 < (B :: Ds).getD i 0)) t
          ⟨ht.md, by rw [ht.rank, hl], fun h => absurd h (not_mem_lowBand _), fun _ => ⟨?_, ?_⟩⟩ ?_
        · intro i hi
          rw [ht.shape]
          cases i with
          | zero => exact hB
          | succ i =>
            show 1 ≤ Ks.getD i 0
            have : i < Ks.length := by omega
            rw [List.getD_eq_getElem _ _ this]
            exact hK1 _ (List.getElem_mem _)
        · refine ⟨i + 1, ?_, ?_⟩
          · have : i < Ds.length := by
              by_contra h
              have h2 : Ds.getD i 0 = 0 := by rw [List.getD_eq_default]; omega
              have : Ks.getD i 0 < Ds.getD i 0 := hi'
              omega
            omega
          · rw [ht.shape]
            exact hi'
        · intro bs u hb hu
          refine ⟨hu.md, by rw [hu.rank, hDl], fun _ => hu.shape, fun h => ?_⟩
          rw [h] at hb
          exact absurd hb (not_mem_lowBand _))
      rw [sepRecLoop]
      simp only [hkv.maxKeyLen hn, this]
    · have hcov : List.Forall₂ (fun D K => D ≤ K) Ds Ks := hcov
      have hle' : List.Forall₂ (fun D K => 1 ≤ D ∧ D ≤ K) Ds Ks := by
        rw [List.forall₂_iff_get] at hle hcov ⊢
        exact ⟨hle.1, fun i h1 h2 => ⟨(hle.2 i h1 h2).1, hcov.2 i h1 h2⟩⟩
      obtain ⟨em, z, ez, hz⟩ := sepLevel_ok (w := w) (c := fun b => withLow (lo b) (hi b)) hF h0 h1 hdt hn hDl hD1
        (t := t) (by simpa only [withLow_low] using ht.covers_of_le hle') hkv
      have := sepRecLoop_short ha hk hF h0 h1 hdt hn hB es ps z _ _ (by simpa using hDl) hz hes hc
      rw [sepRecLoop]
      simp only [em, ez]
      exact this

end

section top
variable [CommSemiring R] {w : Wavelet R} {F : Nat} {h : AxisHint} {md : Meta} {S : List Nat} {n : Nat}
  {t0 : Tensor R} {es : List (Entry R)} {K0 : List Nat} {Kss : List (List Nat)} {keys : List String}

theorem prodL_pos {l : List Nat} (h : ∀ a ∈ l, 1 ≤ a) : 1 ≤ prodL l := by
  induction l with
  | nil => exact le_rfl
  | cons a l ih => exact Nat.mul_pos (h a (by simp)) (ih fun b hb => h b (by simp [hb]))

theorem fswaverecn_short (ha : AllDetails n keys) (hk : RecKind (R := R) (IsDict keys)) (hn : 1 ≤ n) (hF : 2 ≤ F)
    (h0 : w.recLo.length = F) (h1 : w.recHi.length = F)
    (hg : GoodAxes h S.length n) (hdt : isDtypeSupported md.dtype = true) (hS : ∀ s ∈ S, 1 ≤ s)
    (hK0 : K0.length = n) (hKl : ∀ Ks ∈ Kss, Ks.length = n)
    (ht : Uniform md (setMany S (axesOf h S.length n) K0) t0)
    (hes : List.Forall₂ (fun e Ks => IsDict keys (fun _ t => Uniform md (setMany S (axesOf h S.length n) Ks) t) e) es Kss)
    (hc : ShortN F K0 Kss) :
    (fswaverecn ⟨false, .tensor t0 :: es⟩ w n h).1 = .error .runtimeError := by
  obtain ⟨u0, us, c₀, ep, ec, s0, ss, sf, -⟩ := rec_gen hk hg hdt hK0 hKl ht hes
  have hB : 1 ≤ prodL (pick (batchAxes S.length (axesOf h S.length n)) S) := by
    apply prodL_pos
    intro a ha
    obtain ⟨i, hi, rfl⟩ := List.mem_map.mp ha
    have hi' : i < S.length := batchAxes_lt i hi
    rw [List.getD_eq_getElem _ _ hi']
    exact hS _ (List.getElem_mem _)
  have ez := sepRecLoop_short ha hk hF h0 h1 hdt hn hB us _ u0 K0 _ hK0 s0 ss (by rw [sf]; exact hc)
  have hall : us.all Entry.isDict = true := isDict_all ss
  have es' : (sepWaverecn ⟨false, .tensor u0 :: us⟩ w).1 = .error .runtimeError := by
    unfold sepWaverecn
    simp only [hall, if_true, ez]
  unfold fswaverecn
  simp only [ep, ec, es']
  rfl

end top
end Verif
