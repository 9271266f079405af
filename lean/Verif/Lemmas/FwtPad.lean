import Verif.Lemmas.Pad

/-! `_fwt_pad`, `_fwt_pad2`, `_fwt_pad3` extend the last axes. -/

namespace Verif
open Tensor Spec
variable {R : Type} [NonUnitalNonAssocSemiring R]

/-- The pads `_get_pad` computes fit into an axis of length `n`. -/
def PadOk (m : Mode) (F n : Nat) : Prop :=
  match m with
  | .zero => True
  | .constant => 1 ≤ n
  | .symmetric => 1 ≤ n
  | .reflect => F - 2 + n % 2 < n
  | .periodic => F - 2 + n % 2 ≤ n

theorem getPad_eq {n F : Nat} (hF : 2 ≤ F) : getPad n F = (F - 2, F - 2 + n % 2) := by
  unfold getPad
  have : (2 * F - 3) / 2 = F - 2 := by omega
  rw [this]

/-- What `_translate_boundary_strings` selects for a documented mode. -/
def extMode : Mode → ExtMode
  | .zero => .torch .constant
  | .constant => .torch .replicate
  | .reflect => .torch .reflect
  | .periodic => .torch .circular
  | .symmetric => .symmetric

theorem translate_name (m : Mode) : translateBoundaryStrings (some m.name) = .ok (extMode m) := by
  cases m <;> rfl

theorem padLast_ok (pm : PadMode) : ∀ (pairs : List (Nat × Nat)) (t : Tensor R) (a : Nat), 1 ≤ a →
    a + pairs.length ≤ t.rank + 1 →
    (∀ i l r, pairs[i]? = some (l, r) → padFits pm (t.shape.getD (t.rank - a - i) 0) l r) →
    ∃ u, padLast pm t (pairs.flatMap fun p => [p.1, p.2]) a = .ok u ∧
      ExtChain (torchMode pm) t (t.rank - a) pairs u
  | [], t, a, _, _, _ => ⟨t, by simp [padLast], .nil⟩
  | (l, r) :: rest, t, a, ha, hl, hf => by
    rw [List.length_cons] at hl
    obtain ⟨u, e, hu⟩ := padAxis_ok (m := pm) (t := t) (a := t.rank - a) (l := l) (r := r)
      (by omega) (hf 0 l r rfl)
    obtain ⟨v, e', hv⟩ := padLast_ok pm rest u (a + 1) (by omega) (by rw [hu.rank]; omega) (by
      intro i l' r' hi
      have h1 := hf (i + 1) l' r' (by simpa using hi)
      have hi' : i < rest.length := (List.getElem?_eq_some_iff.mp hi).1
      have e : u.shape.getD (u.rank - (a + 1) - i) 0 = t.shape.getD (t.rank - a - (i + 1)) 0 := by
        rw [hu.rank, hu.shape, getD_set_ne (by omega)]
        congr 1; omega
      rw [e]; exact h1)
    refine ⟨v, ?_, .cons hu ?_⟩
    · simp only [List.flatMap_cons, List.cons_append, List.nil_append, padLast, bind, Except.bind, e, e']
    · rwa [hu.rank, ← Nat.sub_sub] at hv

theorem padSymmetricLoop_ok : ∀ (pairs : List (Nat × Nat)) (t : Tensor R) (a : Nat), a < t.rank →
    pairs.length ≤ a + 1 → (∀ i, i < pairs.length → 1 ≤ t.shape.getD (a - i) 0) →
    ∃ u, padSymmetricLoop t pairs a = .ok u ∧ ExtChain .symmetric t a pairs u
  | [], t, a, _, _, _ => ⟨t, rfl, .nil⟩
  | (l, r) :: rest, t, a, ha, hl, hf => by
    rw [List.length_cons] at hl hf
    obtain ⟨u, e, hu⟩ := padSymAxis_ok (t := t) (a := a) (l := l) (r := r) ha (hf 0 (by omega))
    have hur := hu.rank
    cases rest with
    | nil =>
      refine ⟨_, ?_, .cons hu .nil⟩
      simp only [padSymmetricLoop, bind, Except.bind, e]
    | cons p rest =>
      obtain ⟨v, e', hv⟩ := padSymmetricLoop_ok (p :: rest) (u.transpose a 0) (a - 1)
        (by rw [hur]; omega) (by rw [List.length_cons] at *; omega) (by
          intro i hi
          rw [List.length_cons] at *
          rw [hu.shape, getD_set_ne (by omega), Nat.sub_sub, Nat.add_comm]
          exact hf (i + 1) (by omega))
      refine ⟨v, ?_, .cons hu hv⟩
      rw [padSymmetricLoop]
      simp only [bind, Except.bind, e, e']

theorem grouper2_flatMap : ∀ (l : List (Nat × Nat)), grouper2 (l.flatMap fun p => [p.1, p.2]) = l
  | [] => rfl
  | (a, b) :: rest => by
    simp only [List.flatMap_cons, List.cons_append, List.nil_append, grouper2, grouper2_flatMap rest]

/-- The pads of the last `k` axes, last axis first. -/
def padPairs (t : Tensor R) (F k : Nat) : List (Nat × Nat) :=
  (List.range k).map fun i => (F - 2, F - 2 + t.sizeFromEnd (i + 1) % 2)

theorem getPaddingN_eq {t : Tensor R} {w : Wavelet R} (hF : 2 ≤ w.len) (k : Nat) :
    getPaddingN t w k = (padPairs t w.len k).flatMap fun p => [p.1, p.2] := by
  unfold getPaddingN padPairs
  rw [List.flatMap_map]
  apply List.flatMap_congr
  intro i _
  simp only [getPad_eq hF]

theorem padFits_of_padOk {pm : PadMode} {F n : Nat} (h : PadOk (torchMode pm) F n) :
    padFits pm n (F - 2) (F - 2 + n % 2) := by
  cases pm <;> simp only [padFits, PadOk, torchMode] at * <;> omega

theorem fwtPad_ok {t : Tensor R} {w : Wavelet R} {k : Nat} (m : Mode) (hF : 2 ≤ w.len) (hk : 1 ≤ k)
    (hkr : k ≤ t.rank) (hp : ∀ i, i < k → PadOk m w.len (t.sizeFromEnd (i + 1))) :
    ∃ u, fwtPad t w (some m.name) k = .ok u ∧
      ExtChain m t (t.rank - 1) (padPairs t w.len k) u := by
  have hlen : (padPairs t w.len k).length = k := by simp [padPairs]
  have torchCase : ∀ pm, extMode m = .torch pm → m = torchMode pm →
      ∃ u, fwtPad t w (some m.name) k = .ok u ∧ ExtChain m t (t.rank - 1) (padPairs t w.len k) u := by
    intro pm h1 h2
    obtain ⟨u, e, hu⟩ := padLast_ok pm (padPairs t w.len k) t 1 (le_refl _) (by omega) (by
      intro i l r hi
      have hi' : i < k := by rw [← hlen]; exact (List.getElem?_eq_some_iff.mp hi).1
      have hr : (padPairs t w.len k)[i]? = some (w.len - 2, w.len - 2 + t.sizeFromEnd (i + 1) % 2) := by
        simp [padPairs, hi']
      rw [hr] at hi
      simp only [Option.some.injEq, Prod.mk.injEq] at hi
      obtain ⟨rfl, rfl⟩ := hi
      have : t.shape.getD (t.rank - 1 - i) 0 = t.sizeFromEnd (i + 1) := by
        unfold Tensor.sizeFromEnd Tensor.rank
        congr 1; omega
      rw [this]
      apply padFits_of_padOk
      rw [← h2]
      exact hp i hi')
    refine ⟨u, ?_, by rw [h2]; exact hu⟩
    unfold fwtPad fwtPadWith
    simp only [bind, Except.bind, translate_name, h1, getPaddingN_eq hF]
    exact e
  cases m with
  | zero => exact torchCase .constant rfl rfl
  | constant => exact torchCase .replicate rfl rfl
  | reflect => exact torchCase .reflect rfl rfl
  | periodic => exact torchCase .circular rfl rfl
  | symmetric =>
    obtain ⟨u, e, hu⟩ := padSymmetricLoop_ok (padPairs t w.len k) t (t.rank - 1) (by omega)
      (by omega) (by
        intro i hi
        have : t.shape.getD (t.rank - 1 - i) 0 = t.sizeFromEnd (i + 1) := by
          unfold Tensor.sizeFromEnd Tensor.rank
          congr 1; omega
        rw [this]; exact hp i (by omega))
    refine ⟨u, ?_, hu⟩
    unfold fwtPad fwtPadWith
    simp only [bind, Except.bind, translate_name, extMode, getPaddingN_eq hF, groupForSymmetric,
      grouper2_flatMap]
    unfold padSymmetric
    rw [if_neg (by rw [List.length_reverse]; omega), List.reverse_reverse]
    exact e

/-- The one-axis case. -/
theorem fwtPad1_ok {t : Tensor R} {w : Wavelet R} (m : Mode) {B C n : Nat} (hF : 2 ≤ w.len)
    (hs : t.shape = [B, C, n]) (hp : PadOk m w.len n) :
    ∃ u, fwtPad t w (some m.name) 1 = .ok u ∧ Extended m t 2 (w.len - 2) (w.len - 2 + n % 2) u := by
  have hz : t.sizeFromEnd 1 = n := by unfold Tensor.sizeFromEnd; rw [hs]; rfl
  have hr : t.rank = 3 := by unfold Tensor.rank; rw [hs]; rfl
  obtain ⟨u, e, hu⟩ := fwtPad_ok (k := 1) (t := t) m hF (le_refl _) (by omega) (by
    intro i hi
    obtain rfl : i = 0 := by omega
    rw [hz]; exact hp)
  refine ⟨u, e, ?_⟩
  simp only [padPairs, List.range_one, List.map_cons, List.map_nil, hr, Nat.zero_add, hz] at hu
  cases hu with
  | cons h1 h2 => cases h2; exact h1

end Verif
