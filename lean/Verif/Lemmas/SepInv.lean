import Verif.Lemmas.SepLoop
import Verif.Lemmas.SepTop

/-! `fswaverec2/3` on the coefficients of the forward transforms. -/

namespace Verif
open Tensor Spec
variable {R : Type}

/-- The keys are the names of all detail bands of `n` axes. -/
def AllDetails (n : Nat) (keys : List String) : Prop :=
  ∀ k, k ∈ keys ↔ ∃ bs : List Bool, bs.length = n ∧ true ∈ bs ∧ k = keyOf bs

theorem mem_sepKeys : ∀ (n : Nat) (bs : List Bool) (k : String),
    k ∈ sepKeys n (keyOf bs) ↔ ∃ bs' : List Bool, bs'.length = n ∧ k = keyOf (bs' ++ bs)
  | 0, bs, k => by
    simp only [sepKeys, List.mem_singleton]
    constructor
    · rintro rfl; exact ⟨[], rfl, rfl⟩
    · rintro ⟨bs', h, rfl⟩
      rw [List.length_eq_zero_iff.mp h]; rfl
  | n + 1, bs, k => by
    simp only [sepKeys, List.mem_append, a_append_keyOf, d_append_keyOf, mem_sepKeys n]
    constructor
    · rintro (⟨bs', h, rfl⟩ | ⟨bs', h, rfl⟩)
      · exact ⟨bs' ++ [false], by simp [h], by simp⟩
      · exact ⟨bs' ++ [true], by simp [h], by simp⟩
    · rintro ⟨bs', h, rfl⟩
      obtain ⟨l, b, rfl⟩ : ∃ l b, bs' = l ++ [b] := by
        rcases List.eq_nil_or_concat bs' with h' | ⟨l, a, h'⟩
        · subst h'; simp at h
        · exact ⟨l, a, by simpa using h'⟩
      have hl : l.length = n := by simpa using h
      cases b
      · exact Or.inl ⟨l, hl, by simp⟩
      · exact Or.inr ⟨l, hl, by simp⟩

theorem allDetails_sep (n : Nat) : AllDetails n (sepDetailKeys n) := by
  intro k
  unfold sepDetailKeys
  rw [List.mem_filter, ← keyOf_nil, mem_sepKeys]
  simp only [List.append_nil, ne_eq, decide_not, Bool.not_eq_eq_eq_not, Bool.not_true, decide_eq_false_iff_not]
  constructor
  · rintro ⟨⟨bs, h, rfl⟩, hne⟩
    refine ⟨bs, h, ?_, rfl⟩
    rcases band_cases bs with hb | hb
    · exact hb
    · exfalso
      rw [h] at hb
      rw [hb, keyOf_low] at hne
      exact hne rfl
  · rintro ⟨bs, h, ht, rfl⟩
    refine ⟨⟨bs, h, rfl⟩, ?_⟩
    rw [← keyOf_low]
    intro e
    rw [keyOf_inj e] at ht
    exact not_mem_lowBand n ht

theorem keys3_perm (k : String) : k ∈ keys3 ↔ k ∈ sepDetailKeys 3 := by
  rw [sepDetailKeys3]
  simp only [keys3, List.mem_cons, List.not_mem_nil, or_false]
  tauto

theorem allDetails_keys3 : AllDetails 3 keys3 := fun k => by
  rw [keys3_perm]; exact allDetails_sep 3 k

theorem detOk_of_isDict [Zero R] {n : Nat} {keys : List String} (ha : AllDetails n keys)
    {P : List Bool → Tensor R → Prop} {e : Entry R} (h : IsDict keys P e) :
    ∃ kv, e = .dict kv ∧ DetOk n P kv := by
  obtain ⟨kv, rfl, hk, hP⟩ := h
  refine ⟨kv, rfl, ?_, ?_, fun q hq _ => hP q hq, ?_⟩
  · intro q hq
    obtain ⟨bs, -, -, hb⟩ := (ha q.1).mp (by rw [← hk]; exact List.mem_map_of_mem hq)
    rw [hb, bandOfKey_keyOf]
  · intro q hq
    obtain ⟨bs, hl, -, hb⟩ := (ha q.1).mp (by rw [← hk]; exact List.mem_map_of_mem hq)
    rw [hb, bandOfKey_keyOf]; exact hl
  · intro bs hl ht
    rw [hk]
    exact (ha _).mpr ⟨bs, hl, ht, rfl⟩

section
variable [Field R] [CharZero R] {w : Wavelet R} {x : Tensor R} {h : AxisHint} {m : Mode} {L F n : Nat}

theorem fswaverecn_isDwt {keys : List String} (hn : 1 ≤ n) (hk : AllDetails n keys) (hw : PRBank w F)
    (hF : 2 ≤ F) (he : F % 2 = 0) (hg : GoodAxes h x.rank n)
    (hdt : isDtypeSupported x.md.dtype = true) {c : Coeffs R}
    (ha : LevelsAdmit m F (sizes (axesOf h x.rank n) x.shape) L)
    (hc : IsDwtN (IsDict keys) m w (axesOf h x.rank n) L x c) :
    ∃ z c₀ t ds es, (fswaverecn c w n h).1 = .ok z ∧ (L = 0 → z = x) ∧
      (0 < L → AlongAxes (axesOf h x.rank n) ((sizes (axesOf h x.rank n) x.shape).map fun k => k + k % 2)
        (fun X ks => extN m (sizes (axesOf h x.rank n) x.shape) X (ks.map fun (k : Nat) => (k : ℤ))) x z) ∧
      preprocessCoeffs c n h false = .ok (⟨false, .tensor t :: ds⟩, c₀) ∧
      List.Forall₂ (Gains n x.md) ds es ∧
      (fswaverecn c w n h).2 = if preAliases c n h then ⟨false, .tensor t :: es⟩ else c := by
  have hFw : w.len = F := hw.len.1
  obtain ⟨y, -, hy⟩ := preprocessTensor_ok hg hdt
  obtain ⟨c₀, t, ds, ep, hcl, hcb, hck, hdl, ht, hds⟩ := container_pre (isDict_kind keys) hg hy hdt hc
  rw [hFw] at ht hds
  obtain ⟨z₀, es, ez, h0, h1, hga⟩ := sepRecLoop_ok (m := m) hw hF he hdt hn (sizes_len hg) L t ds ha ht.covers hdl
    (fun s e hs => detOk_of_isDict hk (hds s e hs))
  obtain ⟨z, epz, hz⟩ := rec_post hg hy hcl hcb ht h0 h1
  have hall : ds.reverse.all Entry.isDict = true := by
    rw [List.all_eq_true]
    intro e he
    obtain ⟨s, hs⟩ := List.getElem?_of_mem (List.mem_reverse.mp he)
    obtain ⟨kv, rfl, -⟩ := hds s e hs
    rfl
  have es' : sepWaverecn ⟨false, .tensor t :: ds.reverse⟩ w = (.ok z₀, ⟨false, .tensor t :: es⟩) := by
    unfold sepWaverecn
    simp only [hall, if_true, ez]
  refine ⟨z, _, t, ds.reverse, es, ?_, hz.1, hz.2, ep, hga, ?_⟩
  · unfold fswaverecn
    simp only [ep, hck, es']
    exact epz
  · unfold fswaverecn
    simp only [ep, hck, es']

end

end Verif
