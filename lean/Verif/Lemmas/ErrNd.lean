import Verif.Lemmas.Planes
import Verif.Lemmas.Err1

/-! A multidimensional analysis step only succeeds on signals which admit the mode. -/

namespace Verif
open Tensor Spec
variable {R : Type} [NonUnitalNonAssocSemiring R]

/-- What a successful padding of an axis of length `n` by `(l, r)` tells. -/
def Fits (m : Mode) (n l r : Nat) : Prop :=
  match m with
  | .zero => True
  | .constant => 1 ≤ n
  | .symmetric => 1 ≤ n ∨ l = 0 ∧ r = 0
  | .reflect => l < n ∧ r < n
  | .periodic => l ≤ n ∧ r ≤ n

theorem fits_of_padFits {pm : PadMode} {n l r : Nat} (h : padFits pm n l r) : Fits (torchMode pm) n l r := by
  cases pm <;> exact h

theorem padLast_inv (pm : PadMode) : ∀ (pairs : List (Nat × Nat)) (t u : Tensor R) (a : Nat), 1 ≤ a →
    a + pairs.length ≤ t.rank + 1 →
    padLast pm t (pairs.flatMap fun p => [p.1, p.2]) a = .ok u →
    ExtChain (torchMode pm) t (t.rank - a) pairs u ∧
      ∀ i l r, pairs[i]? = some (l, r) → Fits (torchMode pm) (t.shape.getD (t.rank - a - i) 0) l r
  | [], t, u, a, _, _, h => by
    simp only [List.flatMap_nil, padLast, Except.ok.injEq] at h
    subst h
    exact ⟨.nil, by simp⟩
  | (l, r) :: rest, t, u, a, ha, hl, h => by
    rw [List.length_cons] at hl
    simp only [List.flatMap_cons, List.cons_append, List.nil_append, padLast, bind, Except.bind] at h
    by_cases hf : padFits pm (t.shape.getD (t.rank - a) 0) l r
    · obtain ⟨v, e, hv⟩ := padAxis_ok (m := pm) (t := t) (a := t.rank - a) (l := l) (r := r)
        (by omega) hf
      rw [e] at h
      simp only at h
      obtain ⟨h1, h2⟩ := padLast_inv pm rest v u (a + 1) (by omega) (by rw [hv.rank]; omega) h
      refine ⟨.cons hv (by rwa [hv.rank, ← Nat.sub_sub] at h1), ?_⟩
      intro i l' r' hi
      cases i with
      | zero =>
        simp only [List.getElem?_cons_zero, Option.some.injEq, Prod.mk.injEq] at hi
        obtain ⟨rfl, rfl⟩ := hi
        exact fits_of_padFits hf
      | succ i =>
        have hi' : i < rest.length := (List.getElem?_eq_some_iff.mp (by simpa using hi)).1
        have := h2 i l' r' (by simpa using hi)
        rw [hv.rank, hv.shape, getD_set_ne (by omega)] at this
        rwa [show t.rank - a - (i + 1) = t.rank - (a + 1) - i by omega]
    · rw [padAxis_error hf] at h
      cases h

theorem padSymAxis_inv {t u : Tensor R} {a l r : Nat} (ha : a < t.rank)
    (h : padSymmetric1d (t.transpose 0 a) l r = .ok u) :
    Extended .symmetric t a l r (u.transpose a 0) ∧ (1 ≤ t.shape.getD a 0 ∨ l = 0 ∧ r = 0) := by
  by_cases hn : 0 < t.shape.getD a 0
  · obtain ⟨v, e, hv⟩ := padSymAxis_ok (l := l) (r := r) ha hn
    rw [e] at h
    cases h
    exact ⟨hv, Or.inl hn⟩
  · have hts : (t.transpose 0 a).shape = swl 0 a t.shape := rfl
    have hrk : 0 < (t.transpose 0 a).rank := by
      unfold Tensor.rank; rw [hts, swl_length]; unfold Tensor.rank at ha; omega
    have hz : (t.transpose 0 a).shape.getD 0 0 = 0 := by rw [hts, swl_getD0 ha]; omega
    by_cases hlr : 0 < l ∨ 0 < r
    · unfold padSymmetric1d at h
      rw [padSymmetric1dFuel_empty _ _ _ _ hrk hz hlr] at h
      cases h
    · have hl : l = 0 := by omega
      have hr : r = 0 := by omega
      subst hl; subst hr
      obtain ⟨v, e, hv⟩ := symBase_ok (t := t.transpose 0 a) (l := 0) (r := 0) hrk (by omega) (by omega)
      have eu : padSymmetric1d (t.transpose 0 a) 0 0 = .ok v := by
        unfold padSymmetric1d padSymmetric1dFuel
        simp only [Nat.not_lt_zero, or_self, gt_iff_lt, if_false]
        exact e
      rw [eu] at h
      cases h
      exact ⟨hv.transpose ha, Or.inr ⟨rfl, rfl⟩⟩

theorem padSymmetricLoop_inv : ∀ (pairs : List (Nat × Nat)) (t u : Tensor R) (a : Nat), a < t.rank →
    pairs.length ≤ a + 1 → padSymmetricLoop t pairs a = .ok u →
    ExtChain .symmetric t a pairs u ∧
      ∀ i l r, pairs[i]? = some (l, r) → Fits .symmetric (t.shape.getD (a - i) 0) l r
  | [], t, u, a, _, _, h => by
    simp only [padSymmetricLoop, Except.ok.injEq] at h
    subst h
    exact ⟨.nil, by simp⟩
  | (l, r) :: rest, t, u, a, ha, hl, h => by
    rw [List.length_cons] at hl
    rw [padSymmetricLoop] at h
    simp only [bind, Except.bind] at h
    cases e : padSymmetric1d (t.transpose 0 a) l r with
    | error _ => rw [e] at h; cases h
    | ok s =>
      rw [e] at h
      simp only at h
      obtain ⟨h1, h2⟩ := padSymAxis_inv ha e
      cases rest with
      | nil =>
        simp only [padSymmetricLoop, Except.ok.injEq] at h
        subst h
        refine ⟨.cons h1 .nil, ?_⟩
        intro i l' r' hi
        cases i with
        | zero =>
          simp only [List.getElem?_cons_zero, Option.some.injEq, Prod.mk.injEq] at hi
          obtain ⟨rfl, rfl⟩ := hi
          exact h2
        | succ i => simp at hi
      | cons p rest =>
        rw [List.length_cons] at hl
        obtain ⟨h3, h4⟩ := padSymmetricLoop_inv (p :: rest) (s.transpose a 0) u (a - 1)
          (by rw [h1.rank]; omega) (by rw [List.length_cons]; omega) h
        refine ⟨.cons h1 h3, ?_⟩
        intro i l' r' hi
        cases i with
        | zero =>
          simp only [List.getElem?_cons_zero, Option.some.injEq, Prod.mk.injEq] at hi
          obtain ⟨rfl, rfl⟩ := hi
          exact h2
        | succ i =>
          have := h4 i l' r' (by simpa using hi)
          rw [h1.shape, getD_set_ne (by omega)] at this
          rwa [show a - (i + 1) = a - 1 - i by omega]

theorem fwtPad_inv {t u : Tensor R} {w : Wavelet R} {k : Nat} {m : Mode} (hF : 2 ≤ w.len) (hk : 1 ≤ k)
    (hkr : k ≤ t.rank) (h : fwtPad t w (some m.name) k = .ok u) :
    ExtChain m t (t.rank - 1) (padPairs t w.len k) u ∧
      ∀ i, i < k → Fits m (t.sizeFromEnd (i + 1)) (w.len - 2) (w.len - 2 + t.sizeFromEnd (i + 1) % 2) := by
  have hlen : (padPairs t w.len k).length = k := by simp [padPairs]
  have hsz : ∀ i, i < k → t.shape.getD (t.rank - 1 - i) 0 = t.sizeFromEnd (i + 1) := by
    intro i hi
    unfold Tensor.sizeFromEnd Tensor.rank
    congr 1; omega
  have hpi : ∀ i, i < k → (padPairs t w.len k)[i]?
      = some (w.len - 2, w.len - 2 + t.sizeFromEnd (i + 1) % 2) := by
    intro i hi
    simp [padPairs, hi]
  have torchCase : ∀ pm, extMode m = .torch pm → m = torchMode pm →
      ExtChain m t (t.rank - 1) (padPairs t w.len k) u ∧
      ∀ i, i < k → Fits m (t.sizeFromEnd (i + 1)) (w.len - 2) (w.len - 2 + t.sizeFromEnd (i + 1) % 2) := by
    intro pm h1 h2
    unfold fwtPad fwtPadWith at h
    simp only [bind, Except.bind, translate_name, h1, getPaddingN_eq hF] at h
    obtain ⟨h3, h4⟩ := padLast_inv pm _ t u 1 (le_refl _) (by omega) h
    rw [h2]
    refine ⟨h3, ?_⟩
    intro i hi
    have := h4 i _ _ (hpi i hi)
    rwa [hsz i hi] at this
  cases m with
  | zero => exact torchCase .constant rfl rfl
  | constant => exact torchCase .replicate rfl rfl
  | reflect => exact torchCase .reflect rfl rfl
  | periodic => exact torchCase .circular rfl rfl
  | symmetric =>
    unfold fwtPad fwtPadWith at h
    simp only [bind, Except.bind, translate_name, extMode, getPaddingN_eq hF, groupForSymmetric,
      grouper2_flatMap] at h
    unfold padSymmetric at h
    rw [if_neg (by rw [List.length_reverse]; omega), List.reverse_reverse] at h
    obtain ⟨h3, h4⟩ := padSymmetricLoop_inv _ t u (t.rank - 1) (by omega) (by omega) h
    refine ⟨h3, ?_⟩
    intro i hi
    have := h4 i _ _ (hpi i hi)
    rwa [hsz i hi] at this

theorem fwtPadN_inv {t u : Tensor R} {w : Wavelet R} {m : Mode} {B C : Nat} {ns : List Nat} (hF : 2 ≤ w.len)
    (hns : 1 ≤ ns.length) (hs : t.shape = B :: C :: ns) (h : fwtPad t w (some m.name) ns.length = .ok u) :
    u.shape = B :: C :: ns.map (padLen w.len) ∧
      ∀ n ∈ ns, Fits m n (w.len - 2) (w.len - 2 + n % 2) := by
  have hr : t.rank = ns.length + 2 := by unfold Tensor.rank; rw [hs]; rfl
  have hz : ∀ i, i < ns.length → t.sizeFromEnd (i + 1) = ns.getD (ns.length - 1 - i) 0 := by
    intro i hi
    unfold Tensor.sizeFromEnd
    rw [hs, List.length_cons, List.length_cons]
    obtain ⟨k, hk⟩ : ∃ k, ns.length + 1 + 1 - (i + 1) = k + 2 := ⟨ns.length - 1 - i, by omega⟩
    rw [hk, List.getD_cons_succ, List.getD_cons_succ]
    congr 1; omega
  obtain ⟨hu, hfit⟩ := fwtPad_inv hF hns (by omega) h
  have hpp : padPairs t w.len ns.length = ns.reverse.map fun n => (w.len - 2, w.len - 2 + n % 2) := by
    unfold padPairs
    apply List.ext_getElem (by simp)
    intro i h1 h2
    simp only [List.length_map, List.length_range] at h1
    simp only [List.getElem_map, List.getElem_range, List.getElem_reverse, hz i h1]
    rw [List.getD_eq_getElem _ _ (by omega)]
  rw [hpp, hr] at hu
  obtain ⟨-, h2, -⟩ := extChain_get ns t u [B, C] [] (by
    simpa [Nat.add_comm, Nat.add_left_comm] using hu) (by simpa using hs)
  refine ⟨by simpa using h2, ?_⟩
  intro n hn
  obtain ⟨i, hi, rfl⟩ := List.getElem_of_mem hn
  have := hfit (ns.length - 1 - i) (by omega)
  rw [hz _ (by omega), show ns.length - 1 - (ns.length - 1 - i) = i by omega,
    List.getD_eq_getElem _ _ hi] at this
  exact this

theorem allPairs_replicate {p : Nat → Nat → Prop} {F : Nat} : ∀ (l : List Nat) {k : Nat},
    AllPairs p l (List.replicate k F) → ∀ a ∈ l, p a F
  | [], _, _ => by simp
  | a :: l, 0, h => h.elim
  | a :: l, k + 1, h => by
    intro b hb
    rcases List.mem_cons.mp hb with rfl | hb
    · exact h.1
    · exact allPairs_replicate l h.2 b hb

/-- A successful analysis step only happens on sizes which admit the mode. -/
theorem analysisN_inv {t p res filt : Tensor R} {w : Wavelet R} {m : Mode} {B C O C' k : Nat} {ns : List Nat}
    (hF : 2 ≤ w.len) (hns : 1 ≤ ns.length) (hs : t.shape = B :: C :: ns)
    (hf : filt.shape = O :: C' :: List.replicate k w.len)
    (h1 : fwtPad t w (some m.name) ns.length = .ok p) (h2 : convNd p filt 2 = .ok res) :
    ∀ n ∈ ns, m.Admits w.len n := by
  obtain ⟨hp, hfit⟩ := fwtPadN_inv hF hns hs h1
  have hap : AllPairs (fun N F => 1 ≤ F ∧ F ≤ N) (ns.map (padLen w.len)) (List.replicate k w.len) := by
    unfold convNd at h2
    rw [hp, hf] at h2
    simp only at h2
    split_ifs at h2 with hc
    exact hc.2.2.1
  intro n hn
  have ha := allPairs_replicate _ hap (padLen w.len n) (List.mem_map_of_mem hn)
  have hb := hfit n hn
  unfold padLen at ha
  cases m <;> simp only [Mode.Admits, Fits] at * <;> omega

end Verif
