import Verif.Lemmas.SepIdwt

/-! The loop over the levels of the separable synthesis, and what it does to the dictionaries. -/

namespace Verif
open Tensor Spec
variable {R : Type}

/-- The dictionary holds all detail bands of `n` axes (and possibly the low-pass band, of which nothing
is known). -/
structure DetOk [Zero R] (n : Nat) (P : List Bool → Tensor R → Prop) (kv : List (String × Tensor R)) : Prop where
  key : ∀ q ∈ kv, q.1 = keyOf (bandOfKey q.1)
  len : ∀ q ∈ kv, (bandOfKey q.1).length = n
  val : ∀ q ∈ kv, true ∈ bandOfKey q.1 → P (bandOfKey q.1) q.2
  all : ∀ bs : List Bool, bs.length = n → true ∈ bs → keyOf bs ∈ kv.map Prod.fst

theorem band_cases (bs : List Bool) : true ∈ bs ∨ bs = lowBand bs.length := by
  by_cases h : true ∈ bs
  · exact Or.inl h
  · right
    unfold lowBand
    rw [List.eq_replicate_iff]
    refine ⟨rfl, ?_⟩
    intro b hb
    cases b
    · rfl
    · exact absurd hb h

theorem not_mem_lowBand (n : Nat) : true ∉ lowBand n := by
  unfold lowBand
  rw [List.mem_replicate]
  rintro ⟨-, h⟩
  cases h

theorem mem_dictSet [Zero R] {kv : List (String × Tensor R)} {k : String} {t : Tensor R} {q : String × Tensor R}
    (h : q ∈ dictSet kv k t) : q = (k, t) ∨ (q ∈ kv ∧ q.1 ≠ k) := by
  unfold dictSet at h
  split_ifs at h with hk
  · obtain ⟨p, hp, rfl⟩ := List.mem_map.mp h
    by_cases e : p.1 = k
    · rw [if_pos e]; exact Or.inl rfl
    · rw [if_neg e]; exact Or.inr ⟨hp, e⟩
  · rcases List.mem_append.mp h with h | h
    · refine Or.inr ⟨h, fun e => hk ?_⟩
      rw [List.any_eq_true]
      exact ⟨q, h, by simpa using e⟩
    · exact Or.inl (by simpa using h)

theorem dictSet_keys [Zero R] {kv : List (String × Tensor R)} {k k' : String} {t : Tensor R} :
    k' ∈ (dictSet kv k t).map Prod.fst ↔ k' = k ∨ k' ∈ kv.map Prod.fst := by
  unfold dictSet
  split_ifs with hk
  · rw [List.any_eq_true] at hk
    obtain ⟨q, hq, he⟩ := hk
    simp only [decide_eq_true_eq] at he
    have e : (kv.map fun p => if p.1 = k then (k, t) else p).map Prod.fst = kv.map Prod.fst := by
      rw [List.map_map]
      apply List.map_congr_left
      intro p _
      by_cases h : p.1 = k
      · simp [h]
      · simp [h]
    rw [e]
    constructor
    · exact Or.inr
    · rintro (rfl | h)
      · exact List.mem_map.mpr ⟨q, hq, he⟩
      · exact h
  · simp only [List.map_append, List.map_cons, List.map_nil, List.mem_append, List.mem_singleton]
    tauto

theorem DetOk.set [Zero R] {n : Nat} {P Q : List Bool → Tensor R → Prop} {kv : List (String × Tensor R)}
    (h : DetOk n P kv) (t : Tensor R) (ht : Q (lowBand n) t) (hPQ : ∀ bs u, true ∈ bs → P bs u → Q bs u) :
    DictOk n Q (dictSet kv (aKey n) t) := by
  have hlow : bandOfKey (aKey n) = lowBand n := bandOfKey_aKey n
  refine ⟨?_, ?_, ?_, ?_⟩
  · intro q hq
    rcases mem_dictSet hq with rfl | ⟨hq, -⟩
    · dsimp only; rw [hlow, keyOf_low]
    · exact h.key q hq
  · intro q hq
    rcases mem_dictSet hq with rfl | ⟨hq, -⟩
    · dsimp only; rw [hlow]; simp [lowBand]
    · exact h.len q hq
  · intro q hq
    rcases mem_dictSet hq with rfl | ⟨hq, hne⟩
    · dsimp only; rw [hlow]; exact ht
    · rcases band_cases (bandOfKey q.1) with hb | hb
      · exact hPQ _ _ hb (h.val q hq hb)
      · exfalso
        rw [h.len q hq] at hb
        have := h.key q hq
        rw [hb, keyOf_low] at this
        exact hne this
  · intro bs hb
    rw [dictSet_keys]
    rcases band_cases bs with h' | h'
    · exact Or.inr (h.all bs hb h')
    · rw [hb] at h'
      subst h'
      exact Or.inl (keyOf_low n)

theorem maxKeyLen_ok [Zero R] {n : Nat} {kv : List (String × Tensor R)} (hne : kv ≠ [])
    (h : ∀ q ∈ kv, q.1.length = n) : maxKeyLen kv = .ok n := by
  match kv, hne with
  | p :: kv, _ =>
    unfold maxKeyLen
    simp only
    have hp := h p (by simp)
    have gen : ∀ l : List Nat, (∀ a ∈ l, a = n) → l.foldl max n = n := by
      intro l
      induction l with
      | nil => intro _; rfl
      | cons a l ih =>
        intro hl
        rw [List.foldl_cons, hl a (by simp), max_self]
        exact ih fun b hb => hl b (by simp [hb])
    rw [hp, gen]
    intro a ha
    obtain ⟨q, hq, rfl⟩ := List.mem_map.mp ha
    exact h q (by simp [hq])

theorem DetOk.maxKeyLen [Zero R] {n : Nat} {P : List Bool → Tensor R → Prop} {kv : List (String × Tensor R)}
    (h : DetOk n P kv) (hn : 1 ≤ n) : Verif.maxKeyLen kv = .ok n := by
  apply maxKeyLen_ok
  · rintro rfl
    have := h.all (List.replicate n true) (by simp) (by rw [List.mem_replicate]; exact ⟨by omega, rfl⟩)
    simp at this
  · intro q hq
    rw [← bandOfKey_length]
    exact h.len q hq

/-- The dictionary of a level after the synthesis: it holds the approximation too. -/
def Gains [Zero R] (n : Nat) (md : Meta) (e e' : Entry R) : Prop :=
  ∃ (kv : List (String × Tensor R)) (t : Tensor R), e = .dict kv ∧ e' = .dict (dictSet kv (aKey n) t) ∧ t.md = md

/-- The synthesis of one level. -/
theorem sepLevel_ok [CommSemiring R] {w : Wavelet R} {F : Nat} {md : Meta} {B n : Nat}
    (hF : 2 ≤ F) (h0 : w.recLo.length = F) (h1 : w.recHi.length = F)
    (hdt : isDtypeSupported md.dtype = true) (hn : 1 ≤ n) {Ks : List Nat} (hl : Ks.length = n)
    (hK : ∀ K ∈ Ks, 1 ≤ K) {c : Nat → List Bool → List Nat → R} {t : Tensor R}
    {kv : List (String × Tensor R)} (ht : CoversN t md B Ks (fun b => c b (lowBand n)))
    (hkv : DetOk n (fun bs u => ShowsN u md B Ks (fun b => c b bs)) kv) :
    maxKeyLen kv = .ok n ∧ ∃ z, sepIdwtn w n (dictSet kv (aKey n) t) = .ok z ∧
      ShowsN z md B (Ks.map fun K => 2 * K + 2 - F) (fun b => synFrom w.recLo w.recHi F Ks (c b)) := by
  refine ⟨hkv.maxKeyLen hn, ?_⟩
  have hd : DictOk Ks.length (PartOk w F md B c [] Ks) (dictSet kv (aKey n) t) := by
    rw [hl]
    refine hkv.set (Q := PartOk w F md B c [] Ks) t ⟨ht, fun h => absurd h (not_mem_lowBand n)⟩ ?_
    intro bs u _ hu
    exact ⟨hu.covers, fun _ => hu⟩
  obtain ⟨z, ez, hz⟩ := sepIdwtn_ok hF h0 h1 hdt Ks [] _ (by omega) hK hd
  rw [hl] at ez
  exact ⟨z, ez, hz⟩

/-- The separable synthesis inverts the analysis; every dictionary gains the approximation. -/
theorem sepRecLoop_ok [Field R] [CharZero R] {m : Mode} {w : Wavelet R} {F : Nat} {md : Meta} {B n : Nat}
    (hw : PRBank w F) (hF : 2 ≤ F) (he : F % 2 = 0) (hdt : isDtypeSupported md.dtype = true) (hn : 1 ≤ n)
    {ns : List Nat} (hnl : ns.length = n) {X : Nat → List Nat → R} :
    ∀ (L : Nat) (t : Tensor R) (ds : List (Entry R)),
      (∀ s, s < L → ∀ k ∈ levelLens F ns s, m.Admits F k) →
      CoversN t md B (levelLens F ns L) (fun b => cAN m w ns (X b) L) → ds.length = L →
      (∀ s e, ds[s]? = some e → ∃ kv, e = .dict kv ∧
        DetOk n (fun bs u => ShowsN u md B (levelLens F ns (s + 1)) (fun b => cDN m w ns (X b) s bs)) kv) →
      ∃ z es, sepRecLoop w t ds.reverse = (.ok z, es) ∧
        (L = 0 → z = t) ∧
        (0 < L → ShowsN z md B (ns.map fun k => k + k % 2)
          (fun b ks => extN m ns (X b) (ks.map fun (k : Nat) => (k : ℤ)))) ∧
        List.Forall₂ (Gains n md) ds.reverse es := by
  intro L
  induction L with
  | zero =>
    intro t ds _ ht hl _
    have : ds = [] := List.length_eq_zero_iff.mp hl
    subst this
    exact ⟨t, [], rfl, fun _ => rfl, fun h => absurd h (lt_irrefl _), .nil⟩
  | succ L ih =>
    intro t ds hadm ht hl hds
    have hFw : w.len = F := hw.len.1
    obtain ⟨ds', d, rfl⟩ : ∃ ds' d, ds = ds' ++ [d] := by
      rcases List.eq_nil_or_concat ds with h | ⟨l, a, h⟩
      · subst h; simp at hl
      · exact ⟨l, a, by simpa using h⟩
    have hl' : ds'.length = L := by simpa using hl
    obtain ⟨kv, rfl, hkv⟩ := hds L d (by simp [← hl'])
    have hadm' := hadm L (by omega)
    rw [levelLens_succ] at ht hkv
    set ns' := levelLens F ns L with hns'
    have hnl' : ns'.length = n := by rw [hns', levelLens_length, hnl]
    have hK1 : ∀ K ∈ ns'.map (outLen F), 1 ≤ K := by
      intro K hK
      obtain ⟨k, hk, rfl⟩ := List.mem_map.mp hK
      have h1 := admits_size hF (hadm' k hk)
      have h2 := two_outLen (n := k) hF he
      omega
    have ht' : CoversN t md B (ns'.map (outLen F)) (fun b => bandN m w (lowBand n) ns' (cAN m w ns (X b) L)) := by
      have : (fun b => cAN m w ns (X b) (L + 1)) = fun b => bandN m w (lowBand n) ns' (cAN m w ns (X b) L) := by
        funext b
        show bandN m w (lowBand ns.length) (levelLens w.len ns L) _ = _
        rw [hFw, hnl]
      rwa [this] at ht
    have hkv' : DetOk n (fun bs u => ShowsN u md B (ns'.map (outLen F))
        (fun b => bandN m w bs ns' (cAN m w ns (X b) L))) kv := by
      have : ∀ b bs, cDN m w ns (X b) L bs = bandN m w bs ns' (cAN m w ns (X b) L) := by
        intro b bs
        unfold cDN
        rw [hFw]
      simpa only [this] using hkv
    obtain ⟨em, z, ez, hz⟩ := sepLevel_ok (w := w) (c := fun b bs => bandN m w bs ns' (cAN m w ns (X b) L))
      hF hw.len.2.2.1 hw.len.2.2.2 hdt hn (by simpa using hnl') hK1 ht' hkv'
    have hval : ∀ b ks, InB (ns'.map fun k => k + k % 2) ks →
        synFrom w.recLo w.recHi F (ns'.map (outLen F)) (fun bs => bandN m w bs ns' (cAN m w ns (X b) L)) ks
          = extN m ns' (cAN m w ns (X b) L) (ks.map fun (k : Nat) => (k : ℤ)) :=
      fun b ks hk => synN_dwtN hw hF he ns' ks _ hk
    have hsz : ((ns'.map (outLen F)).map fun K => 2 * K + 2 - F) = ns'.map fun k => k + k % 2 := by
      rw [List.map_map]
      apply List.map_congr_left
      intro k _
      have h2 := two_outLen (n := k) hF he
      show 2 * outLen F k + 2 - F = _
      omega
    rw [hsz] at hz
    have hz' : ShowsN z md B (ns'.map fun k => k + k % 2)
        (fun b ks => extN m ns' (cAN m w ns (X b) L) (ks.map fun (k : Nat) => (k : ℤ))) :=
      hz.congr fun b ks _ hk => hval b ks hk
    have hcov : CoversN z md B ns' (fun b => cAN m w ns (X b) L) := by
      refine ⟨hz'.md, by rw [hz'.rank]; simp, ?_, ?_⟩
      · intro i hi
        rw [hz'.shape]
        cases i with
        | zero => exact le_rfl
        | succ i =>
          have hi' : i < ns'.length := by omega
          show ns'.getD i 0 ≤ (ns'.map fun k => k + k % 2).getD i 0
          rw [List.getD_eq_getElem _ _ hi', List.getD_eq_getElem _ _ (by simpa using hi'), List.getElem_map]
          omega
      · intro b ks hb hk
        rw [hz'.get b ks hb (inB_up _ _ hk), extN_inside m _ _ _ hk]
    obtain ⟨z', es, ez', hz0, hz1, hga⟩ := ih z ds' (fun s hs => hadm s (by omega)) hcov hl'
      (by
        intro s e hs
        apply hds s e
        rw [List.getElem?_append_left (List.getElem?_eq_some_iff.mp hs).1]
        exact hs)
    rw [List.reverse_append, List.reverse_singleton, List.singleton_append]
    refine ⟨z', .dict (dictSet kv (aKey n) t) :: es, ?_, fun h => absurd h (by omega), fun _ => ?_, ?_⟩
    · rw [sepRecLoop]
      simp only [em, ez, ez']
    · rcases Nat.eq_zero_or_pos L with hL0 | hLp
      · rw [hz0 hL0]
        subst hL0
        have e0 : ns' = ns := by rw [hns', levelLens_zero]
        rw [e0] at hz'
        exact hz'
      · exact hz1 hLp
    · exact .cons ⟨kv, t, rfl, rfl, ht.md⟩ hga

end Verif
