import Verif.Lemmas.Err1
import Verif.Lemmas.Rec1

/-! `wavedec` succeeds exactly when axes and dtype are fine and every level admits the mode. -/

namespace Verif
open Tensor Spec
variable {R : Type}

theorem autoLevel_eq {F n : Nat} (hF : 2 ≤ F) : dwtMaxLevel n F = .ok (autoLevel F n) := by
  unfold dwtMaxLevel autoLevel
  rw [if_neg (by omega)]
  have hp : 0 < F - 1 := by omega
  split_ifs with h
  · congr 1
    symm
    rw [Nat.findGreatest_eq_zero_iff]
    intro k _ _ hk
    have : 1 ≤ 2 ^ k := Nat.one_le_two_pow
    have := Nat.mul_le_mul_left (F - 1) this
    omega
  · congr 1
    symm
    have hq : n / (F - 1) ≠ 0 := by
      have := Nat.div_pos (by omega : F - 1 ≤ n) hp
      omega
    have key : ∀ L, (F - 1) * 2 ^ L ≤ n ↔ L ≤ Nat.log2 (n / (F - 1)) := by
      intro L
      rw [Nat.le_log2 hq, Nat.le_div_iff_mul_le hp, Nat.mul_comm]
    rw [Nat.findGreatest_eq_iff]
    refine ⟨?_, fun _ => (key _).mpr le_rfl, fun k hk _ h => ?_⟩
    · calc Nat.log2 (n / (F - 1)) ≤ n / (F - 1) := Nat.log2_le_self _
        _ ≤ n := Nat.div_le_self _ _
    · have := (key k).mp h
      omega

theorem resolveLevel_eq {level : Option Int} {F n : Nat} (hF : 2 ≤ F) :
    resolveLevel level n F = .ok (levels level F n) := by
  cases level with
  | none => exact autoLevel_eq hF
  | some l => rfl

theorem translate_none : translateBoundaryStrings none = translateBoundaryStrings (some Mode.reflect.name) := rfl

theorem fwtPad_selects [NonUnitalNonAssocSemiring R] {mode : Option String} {m : Mode}
    (h : Selects mode m) (x : Tensor R) (w : Wavelet R) (n : Nat) :
    fwtPad x w mode n = fwtPad x w (some m.name) n := by
  rcases h with rfl | ⟨rfl, rfl⟩
  · rfl
  · rfl

theorem fwtPad_unknown [NonUnitalNonAssocSemiring R] {mode : Option String}
    (h : ∀ m, ¬ Selects mode m) (x : Tensor R) (w : Wavelet R) (n : Nat) :
    fwtPad x w mode n = .error .valueError := by
  have : translateBoundaryStrings mode = .error .valueError := by
    cases mode with
    | none => exact absurd (Or.inr ⟨rfl, rfl⟩) (h .reflect)
    | some s =>
      unfold translateBoundaryStrings
      simp only
      rw [if_neg, if_neg, if_neg, if_neg, if_neg]
      · exact fun e => h .symmetric (Or.inl (by rw [e]; rfl))
      · exact fun e => h .periodic (Or.inl (by rw [e]; rfl))
      · exact fun e => h .reflect (Or.inl (by rw [e]; rfl))
      · exact fun e => h .zero (Or.inl (by rw [e]; rfl))
      · exact fun e => h .constant (Or.inl (by rw [e]; rfl))
  unfold fwtPad fwtPadWith
  rw [this]; rfl

theorem wavedecLoop_selects [NonUnitalNonAssocSemiring R] {mode : Option String} {m : Mode}
    (h : Selects mode m) (w : Wavelet R) (filt : Tensor R) : ∀ (L : Nat) (x : Tensor R),
    wavedecLoop w mode filt L x = wavedecLoop w (some m.name) filt L x
  | 0, _ => rfl
  | L + 1, x => by
    unfold wavedecLoop
    rw [fwtPad_selects h]
    simp only [wavedecLoop_selects h w filt L]

theorem wavedec_selects [NonUnitalNonAssocSemiring R] {mode : Option String} {m : Mode}
    (h : Selects mode m) (x : Tensor R) (w : Wavelet R) (level : Option Int) (axis : AxisHint) :
    wavedec x w mode level axis = wavedec x w (some m.name) level axis := by
  unfold wavedec
  simp only [wavedecLoop_selects h]

theorem wavedecLoop_zero_mode [NonUnitalNonAssocSemiring R] (mode mode' : Option String)
    (w : Wavelet R) (filt x : Tensor R) :
    wavedecLoop w mode filt 0 x = wavedecLoop w mode' filt 0 x := rfl

/-- The complete behaviour of `wavedec`. -/
theorem wavedec_char [NonUnitalNonAssocSemiring R] {mode : Option String} {w : Wavelet R}
    {x : Tensor R} {level : Option Int} {h : AxisHint} (hF : 2 ≤ w.len)
    (hhi : w.decHi.length = w.len) :
    let n := x.shape.getD (axis1 h x.rank) 0
    let L := levels level w.len n
    (¬ (GoodAxes h x.rank 1 ∧ isDtypeSupported x.md.dtype = true) →
      ∃ e, wavedec x w mode level h = .error e) ∧
    (GoodAxes h x.rank 1 → isDtypeSupported x.md.dtype = true →
      (L = 0 → ∀ m, ∃ cs, wavedec x w mode level h = .ok cs ∧ IsDwt m w (axis1 h x.rank) L x cs) ∧
      (∀ m, Selects mode m → (∀ s, s < L → m.Admits w.len (levelLen w.len n s)) →
        ∃ cs, wavedec x w mode level h = .ok cs ∧ IsDwt m w (axis1 h x.rank) L x cs) ∧
      (∀ m, Selects mode m → (∃ s, s < L ∧ ¬ m.Admits w.len (levelLen w.len n s)) →
        wavedec x w mode level h = .error (shortErr m w.len)) ∧
      (0 < L → (∀ m, ¬ Selects mode m) → wavedec x w mode level h = .error .valueError)) := by
  intro n L
  refine ⟨?_, fun hg hdt => ⟨?_, ?_, ?_, ?_⟩⟩
  · intro hn
    obtain ⟨e, he⟩ := preprocessTensor_err (ch := true) hn
    refine ⟨e, ?_⟩
    unfold wavedec preprocessDeconstruction
    simp only [bind, Except.bind, he]
  · intro hL m
    have e : wavedec x w mode level h = wavedec x w (some m.name) level h := by
      obtain ⟨y, filt, e, hy, f1, f2, f3⟩ := preprocessDeconstruction1_ok (w := w) hg hdt hhi
      have hsc := withChannel_showsCh hg hy
      have hsz : (withChannel y).sizeFromEnd 1 = n := by
        unfold Tensor.sizeFromEnd; rw [hsc.shape]; rfl
      unfold wavedec
      simp only [bind, Except.bind, e, hsz, resolveLevel_eq hF]
      have : levels level w.len n = 0 := hL
      rw [this]
      rfl
    rw [e]
    exact wavedec_isDwt hg hdt hF hhi (resolveLevel_eq hF) fun s hs => absurd hs (by
      have : levels level w.len n = 0 := hL
      show ¬ s < levels level w.len n
      omega)
  · intro m hm hadm
    rw [wavedec_selects hm]
    exact wavedec_isDwt hg hdt hF hhi (resolveLevel_eq hF) hadm
  · intro m hm hadm
    rw [wavedec_selects hm]
    obtain ⟨y, filt, e, hy, f1, f2, f3⟩ := preprocessDeconstruction1_ok (w := w) hg hdt hhi
    have hsc := withChannel_showsCh hg hy
    have hsz : (withChannel y).sizeFromEnd 1 = n := by
      unfold Tensor.sizeFromEnd; rw [hsc.shape]; rfl
    have := wavedecLoop_err hF hhi f1 f2 f3 L hsc hadm
    unfold wavedec
    simp only [bind, Except.bind, e, hsz, resolveLevel_eq hF]
    rw [this]
  · intro hL hm
    obtain ⟨y, filt, e, hy, f1, f2, f3⟩ := preprocessDeconstruction1_ok (w := w) hg hdt hhi
    have hsc := withChannel_showsCh hg hy
    have hsz : (withChannel y).sizeFromEnd 1 = n := by
      unfold Tensor.sizeFromEnd; rw [hsc.shape]; rfl
    obtain ⟨k, hk⟩ : ∃ k, levels level w.len n = k + 1 := ⟨L - 1, by
      have : L = levels level w.len n := rfl
      omega⟩
    unfold wavedec
    simp only [bind, Except.bind, e, hsz, resolveLevel_eq hF, hk]
    unfold wavedecLoop
    simp only [bind, Except.bind, fwtPad_unknown hm]

end Verif
