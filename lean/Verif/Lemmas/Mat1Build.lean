/-
Building and caching the matrices of `MatrixWavedec` and `MatrixWaverec`.
-/
import Verif.Lemmas.Mat1Top
import Verif.Lemmas.OrthTop
import Verif.Lemmas.Err1
import Verif.Lemmas.SepTop
import Verif.Lemmas.SepAlias

namespace Verif
open Tensor Spec
variable {R : Type}

theorem evenLen_ite (n : Nat) : (if n % 2 ≠ 0 then n + 1 else n) = evenLen n := by
  unfold evenLen; split_ifs <;> omega

theorem decBuildLoop_ok [Field R] [DecidableEq R] {la : LinAlg R} {cfg : DecCfg R} {md : Meta}
    {C : Nat → Coo R} {N : Nat} (h2 : 2 ≤ cfg.wavelet.decLo.length)
    (hC : ∀ m, m % 2 = 0 → cfg.wavelet.decLo.length ≤ m → m ≤ N →
      constructBoundaryA la cfg.wavelet md m cfg.orth = .ok (C m)) :
    ∀ (L n : Nat) (st : DecState R), evenLen n ≤ N →
    decBuildLoop la cfg md L n st = (.ok (), { st with
      mats := st.mats ++ builtMats C cfg.wavelet.decLo.length L n
      padList := st.padList ++ builtPads cfg.wavelet.decLo.length L n
      padded := st.padded || (builtPads cfg.wavelet.decLo.length L n).any id
      sizeList := st.sizeList ++ builtSizes cfg.wavelet.decLo.length L n })
  | 0, n, st, _ => by simp [decBuildLoop, builtMats, builtPads, builtSizes]
  | L + 1, n, st, hN => by
    unfold decBuildLoop builtMats builtPads builtSizes
    by_cases hn : n < cfg.wavelet.decLo.length
    · simp [hn]
    · have hne := le_evenLen n
      rw [if_neg hn, if_neg hn, if_neg hn, if_neg hn, evenLen_ite]
      simp only [hC (evenLen n) (evenLen_even n) (by omega) hN]
      rw [decBuildLoop_ok h2 hC L (evenLen n / 2) _ (evenLen_half_le (by omega) hN)]
      simp [Bool.or_assoc]

theorem recBuildLoop_ok [Field R] [DecidableEq R] {la : LinAlg R} {cfg : RecCfg R} {md : Meta}
    {D : Nat → Coo R} {N : Nat} (h2 : 2 ≤ cfg.wavelet.recLo.length)
    (hD : ∀ m, m % 2 = 0 → cfg.wavelet.recLo.length ≤ m → m ≤ N →
      constructBoundaryS la cfg.wavelet md m cfg.orth = .ok (D m)) :
    ∀ (L n : Nat) (st : RecState R), evenLen n ≤ N →
    recBuildLoop la cfg md L n st = (.ok (), { st with
      mats := st.mats ++ builtMats D cfg.wavelet.recLo.length L n
      padded := st.padded || (builtPads cfg.wavelet.recLo.length L n).any id })
  | 0, n, st, _ => by simp [recBuildLoop, builtMats, builtPads]
  | L + 1, n, st, hN => by
    unfold recBuildLoop builtMats builtPads
    by_cases hn : n < cfg.wavelet.recLo.length
    · simp [hn]
    · have hne := le_evenLen n
      rw [if_neg hn, if_neg hn, if_neg hn, evenLen_ite]
      simp only [hD (evenLen n) (evenLen_even n) (by omega) hN]
      rw [recBuildLoop_ok h2 hD L (evenLen n / 2) _ (evenLen_half_le (by omega) hN)]
      simp [Bool.or_assoc]

theorem builtMats_map {α β : Type} (f : α → β) (C : Nat → α) (F : Nat) : ∀ L n,
    builtMats (fun m => f (C m)) F L n = (builtMats C F L n).map f
  | 0, _ => rfl
  | L + 1, n => by
    unfold builtMats
    split_ifs
    · rfl
    · rw [List.map_cons, builtMats_map f C F L]

/-- The state of a `MatrixWavedec` after a build. -/
def builtState (C : Nat → Coo R) (F : Nat) (level : Option Int) (L n : Nat) : DecState R :=
  ⟨level, some n, builtMats C F L n, builtPads F L n, (builtPads F L n).any id, builtSizes F L n⟩

theorem decBuild_ok [Field R] [DecidableEq R] {la : LinAlg R} {cfg : DecCfg R} {md : Meta}
    {C : Nat → Coo R} {N : Nat} (h2 : 2 ≤ cfg.wavelet.decLo.length)
    (hC : ∀ m, m % 2 = 0 → cfg.wavelet.decLo.length ≤ m → m ≤ N →
      constructBoundaryA la cfg.wavelet md m cfg.orth = .ok (C m)) (l : Int) (n : Nat) (st : DecState R)
    (hN : evenLen n ≤ N) (hst : st.inputLength = some n) :
    decBuild la cfg md l n st = (.ok (), builtState C cfg.wavelet.decLo.length st.level l.toNat n) := by
  unfold decBuild
  rw [decBuildLoop_ok h2 hC _ _ _ hN]
  unfold builtState
  simp [hst]

theorem matAutoLevel_ok {F n : Nat} (hF : 2 ≤ F) (hn : 0 < n) :
    ∃ l : Int, matAutoLevel n F = .ok l ∧ l.toNat = Spec.autoLevel F n := by
  unfold matAutoLevel
  rw [if_neg (by omega), if_neg (by omega), if_neg (by omega)]
  have h := truncLog2_eq (n := n) hF
  unfold truncLog2 at h
  by_cases h1 : F - 1 ≤ n
  · rw [if_pos h1]
    rw [if_neg (by omega)] at h
    exact ⟨_, rfl, by rw [← h]; rfl⟩
  · rw [if_neg h1]
    rw [if_pos (by omega)] at h
    exact ⟨_, rfl, by rw [← h]; simp⟩

theorem decPrepare_fresh [Field R] [DecidableEq R] {la : LinAlg R} {cfg : DecCfg R} {md : Meta}
    {C : Nat → Coo R} {N : Nat} (h2 : 2 ≤ cfg.wavelet.decLo.length)
    (hC : ∀ m, m % 2 = 0 → cfg.wavelet.decLo.length ≤ m → m ≤ N →
      constructBoundaryA la cfg.wavelet md m cfg.orth = .ok (C m)) {n : Nat} {st : DecState R}
    (hN : evenLen n ≤ N) (hl : ∀ l, st.level = some l → 1 ≤ l) (hn : st.level = none → 0 < n)
    (hst : st.mats = []) :
    ∃ level, (∀ l, st.level = some l → level = some l) ∧
      decPrepare la cfg md n st = (.ok (), builtState C cfg.wavelet.decLo.length level
      (levels st.level cfg.wavelet.decLo.length n) n) := by
  obtain ⟨lv, il, mats, pads, pd, sz⟩ := st
  simp only at hst hl hn
  subst hst
  cases lv with
  | none =>
    obtain ⟨l, e1, e2⟩ := matAutoLevel_ok h2 (hn rfl)
    refine ⟨some l, by rintro _ ⟨⟩, ?_⟩
    unfold decPrepare
    simp only [Wavelet.len, e1]
    unfold decEnsure
    rw [if_pos (Or.inr rfl), decBuild_ok h2 hC _ _ _ hN rfl]
    show _ = (_, builtState C _ (some l) (Spec.autoLevel _ n) n)
    rw [e2]
  | some l =>
    refine ⟨some l, fun _ h => h, ?_⟩
    unfold decPrepare
    simp only
    rw [if_neg (by have := hl l rfl; omega)]
    unfold decEnsure
    rw [if_pos (Or.inl (by rfl)), decBuild_ok h2 hC _ _ _ hN rfl]
    rfl

theorem recPrepare_fresh [Field R] [DecidableEq R] {la : LinAlg R} {cfg : RecCfg R} {md : Meta}
    {D : Nat → Coo R} {N : Nat} (h2 : 2 ≤ cfg.wavelet.recLo.length)
    (hD : ∀ m, m % 2 = 0 → cfg.wavelet.recLo.length ≤ m → m ≤ N →
      constructBoundaryS la cfg.wavelet md m cfg.orth = .ok (D m)) {n L : Nat} {st : RecState R}
    (hN : evenLen n ≤ N) (hst : st.mats = []) :
    recPrepare la cfg md L n st = (.ok (), ⟨some L, some n, builtMats D cfg.wavelet.recLo.length L n,
      (builtPads cfg.wavelet.recLo.length L n).any id⟩) := by
  unfold recPrepare
  rw [if_pos (Or.inl (by rw [hst]; rfl)), recBuildLoop_ok h2 hD _ _ _ hN]
  simp

theorem recPrepare_zero [Field R] [DecidableEq R] {la : LinAlg R} {cfg : RecCfg R} {md : Meta} {n : Nat}
    {st : RecState R} (hst : st.mats = []) :
    recPrepare la cfg md 0 n st = (.ok (), ⟨some 0, some n, [], false⟩) := by
  unfold recPrepare
  rw [if_pos (Or.inl (by rw [hst]; rfl))]
  rfl

/-! ### The axis argument -/

theorem goodAxes_single {h : AxisHint} {r : Nat} (hg : GoodAxes h r 1) :
    ∃ a, ensureAxes h 1 = .ok [a] ∧ GoodAxes (.int a) r 1 ∧ GoodAxes (.seq [a]) r 1 ∧
      axesOf (.int a) r 1 = axesOf h r 1 ∧ axesOf (.seq [a]) r 1 = axesOf h r 1 := by
  have e := ensureAxes_ok hg
  obtain ⟨a, ha⟩ := List.length_eq_one_iff.mp hg.len
  refine ⟨a, by rw [e, ha], ⟨le_refl _, rfl, ?_⟩, ⟨le_refl _, rfl, ?_⟩, ?_, ?_⟩
  · have := hg.valid; rw [ha] at this; exact this
  · have := hg.valid; rw [ha] at this; exact this
  · unfold axesOf; rw [ha]; rfl
  · unfold axesOf; rw [ha]; rfl

/-! ### Reuse -/

/-- Building needs only the level and the length. -/
theorem decBuild_congr [Field R] [DecidableEq R] {la : LinAlg R} {cfg : DecCfg R} {md : Meta} {l : Int} {n : Nat}
    {s t : DecState R} (h1 : s.level = t.level) (h2 : s.inputLength = t.inputLength) :
    decBuild la cfg md l n s = decBuild la cfg md l n t := by
  unfold decBuild; rw [h1, h2]

theorem decBuildLoop_keeps [Field R] [DecidableEq R] {la : LinAlg R} {cfg : DecCfg R} {md : Meta} :
    ∀ (k c : Nat) (st : DecState R), (decBuildLoop la cfg md k c st).2.level = st.level ∧
      (decBuildLoop la cfg md k c st).2.inputLength = st.inputLength
  | 0, _, _ => ⟨rfl, rfl⟩
  | k + 1, c, st => by
    unfold decBuildLoop
    by_cases h : c < cfg.wavelet.decLo.length
    · rw [if_pos h]; exact ⟨rfl, rfl⟩
    · rw [if_neg h]
      simp only
      split
      · exact ⟨rfl, rfl⟩
      · have := decBuildLoop_keeps (la := la) (cfg := cfg) (md := md) k ((if c % 2 ≠ 0 then c + 1 else c) / 2)
        exact this _

theorem decBuildLoop_total [Field R] [DecidableEq R] {la : LinAlg R} {cfg : DecCfg R} {md : Meta}
    (hb : ∀ m, m % 2 = 0 → cfg.wavelet.decLo.length ≤ m → ∃ A, constructBoundaryA la cfg.wavelet md m cfg.orth = .ok A) :
    ∀ (k c : Nat) (st : DecState R), (decBuildLoop la cfg md k c st).1 = .ok ()
  | 0, _, _ => rfl
  | k + 1, c, st => by
    unfold decBuildLoop
    by_cases h : c < cfg.wavelet.decLo.length
    · rw [if_pos h]
    · rw [if_neg h, evenLen_ite]
      obtain ⟨A, hA⟩ := hb (evenLen c) (evenLen_even c) (by have := le_evenLen c; omega)
      simp only [hA]
      exact decBuildLoop_total hb k _ _

/-- What every state of an object with a given positive level satisfies. -/
def DecInv [Field R] [DecidableEq R] (la : LinAlg R) (cfg : DecCfg R) (md : Meta) (l : Int) (st : DecState R) : Prop :=
  st.level = some l ∧ (st.mats = [] ∨ ∃ n, st.inputLength = some n ∧ decBuild la cfg md l n st = (.ok (), st))

theorem decPrepare_eq [Field R] [DecidableEq R] {la : LinAlg R} {cfg : DecCfg R} {md : Meta} {l : Int}
    (hl : 1 ≤ l) {st : DecState R} (h : DecInv la cfg md l st) (n : Nat) :
    decPrepare la cfg md n st = decBuild la cfg md l n ⟨some l, some n, [], [], false, []⟩ := by
  obtain ⟨h1, h2⟩ := h
  unfold decPrepare
  simp only [h1]
  rw [if_neg (by omega)]
  unfold decEnsure
  simp only
  rcases h2 with h2 | ⟨n', h2, h3⟩
  · rw [if_pos (Or.inl (by rw [h2]; rfl))]
    exact decBuild_congr rfl rfl
  · by_cases hn : n' = n
    · subst hn
      by_cases hm : st.mats.isEmpty = true
      · rw [if_pos (Or.inl hm)]
        exact decBuild_congr rfl rfl
      · rw [if_neg (by rw [h2]; simp only [ne_eq, not_true_eq_false, decide_false]; push Not; exact ⟨hm, by simp⟩)]
        rw [show ({ st with level := some l, inputLength := some n' } : DecState R) = st by
          obtain ⟨a, b, c, d, e, f⟩ := st; simp only at h1 h2; subst h1 h2; rfl]
        rw [← h3]
        exact decBuild_congr (by rw [h1]) (by rw [h2])
    · rw [if_pos (Or.inr (by rw [h2]; simpa using hn))]
      exact decBuild_congr rfl rfl

theorem decPrepare_inv [Field R] [DecidableEq R] {la : LinAlg R} {cfg : DecCfg R} {md : Meta} {l : Int}
    (hl : 1 ≤ l)
    (hb : ∀ m, m % 2 = 0 → cfg.wavelet.decLo.length ≤ m → ∃ A, constructBoundaryA la cfg.wavelet md m cfg.orth = .ok A)
    {st : DecState R} (h : DecInv la cfg md l st) (n : Nat) :
    decPrepare la cfg md n st = decBuild la cfg md l n ⟨some l, some n, [], [], false, []⟩ ∧
    DecInv la cfg md l (decPrepare la cfg md n st).2 := by
  have key := decPrepare_eq hl h n
  refine ⟨key, ?_⟩
  rw [key]
  have k1 := decBuildLoop_keeps (la := la) (cfg := cfg) (md := md) l.toNat n
    ({level := some l, inputLength := some n, mats := [], padList := [], padded := false, sizeList := []} : DecState R)
  have k2 := decBuildLoop_total hb l.toNat n
    ({level := some l, inputLength := some n, mats := [], padList := [], padded := false, sizeList := []} : DecState R)
  refine ⟨k1.1, Or.inr ⟨n, k1.2, ?_⟩⟩
  refine (decBuild_congr (t := ⟨some l, some n, [], [], false, []⟩) k1.1 k1.2).trans ?_
  exact Prod.ext k2 rfl

/-- With one level, a failed construction leaves no matrix behind. -/
theorem decPrepare_inv1 [Field R] [DecidableEq R] {la : LinAlg R} {cfg : DecCfg R} {md : Meta}
    {st : DecState R} (h : DecInv la cfg md 1 st) (n : Nat) :
    decPrepare la cfg md n st = decBuild la cfg md 1 n ⟨some 1, some n, [], [], false, []⟩ ∧
    DecInv la cfg md 1 (decPrepare la cfg md n st).2 := by
  have key := decPrepare_eq le_rfl h n
  refine ⟨key, ?_⟩
  rw [key]
  have k1 := decBuildLoop_keeps (la := la) (cfg := cfg) (md := md) 1 n
    ({level := some 1, inputLength := some n, mats := [], padList := [], padded := false, sizeList := []} : DecState R)
  have hcase : (decBuild la cfg md 1 n ⟨some 1, some n, [], [], false, []⟩).2.mats = [] ∨
      (decBuild la cfg md 1 n ⟨some 1, some n, [], [], false, []⟩).1 = .ok () := by
    unfold decBuild
    show (decBuildLoop la cfg md 1 n _).2.mats = [] ∨ (decBuildLoop la cfg md 1 n _).1 = _
    unfold decBuildLoop
    by_cases hc : n < cfg.wavelet.decLo.length
    · rw [if_pos hc]; exact Or.inr rfl
    · rw [if_neg hc]
      simp only
      cases constructBoundaryA la cfg.wavelet md (if n % 2 ≠ 0 then n + 1 else n) cfg.orth with
      | error e => exact Or.inl rfl
      | ok A => exact Or.inr rfl
  refine ⟨k1.1, ?_⟩
  rcases hcase with hc | hc
  · exact Or.inl hc
  · refine Or.inr ⟨n, k1.2, ?_⟩
    refine (decBuild_congr (t := ⟨some 1, some n, [], [], false, []⟩) k1.1 k1.2).trans ?_
    exact Prod.ext hc rfl

theorem recBuildLoop_keeps [Field R] [DecidableEq R] {la : LinAlg R} {cfg : RecCfg R} {md : Meta} :
    ∀ (k c : Nat) (st : RecState R), (recBuildLoop la cfg md k c st).2.level = st.level ∧
      (recBuildLoop la cfg md k c st).2.inputLength = st.inputLength
  | 0, _, _ => ⟨rfl, rfl⟩
  | k + 1, c, st => by
    unfold recBuildLoop
    by_cases h : c < cfg.wavelet.recLo.length
    · rw [if_pos h]; exact ⟨rfl, rfl⟩
    · rw [if_neg h]
      simp only
      split
      · exact ⟨rfl, rfl⟩
      · have := recBuildLoop_keeps (la := la) (cfg := cfg) (md := md) k ((if c % 2 ≠ 0 then c + 1 else c) / 2)
        exact this _

theorem recBuildLoop_total [Field R] [DecidableEq R] {la : LinAlg R} {cfg : RecCfg R} {md : Meta}
    (hb : ∀ m, m % 2 = 0 → cfg.wavelet.recLo.length ≤ m → ∃ A, constructBoundaryS la cfg.wavelet md m cfg.orth = .ok A) :
    ∀ (k c : Nat) (st : RecState R), (recBuildLoop la cfg md k c st).1 = .ok ()
  | 0, _, _ => rfl
  | k + 1, c, st => by
    unfold recBuildLoop
    by_cases h : c < cfg.wavelet.recLo.length
    · rw [if_pos h]
    · rw [if_neg h, evenLen_ite]
      obtain ⟨A, hA⟩ := hb (evenLen c) (evenLen_even c) (by have := le_evenLen c; omega)
      simp only [hA]
      exact recBuildLoop_total hb k _ _

/-- What every state of a `MatrixWaverec` satisfies. -/
def RecInv [Field R] [DecidableEq R] (la : LinAlg R) (cfg : RecCfg R) (md : Meta) (st : RecState R) : Prop :=
  st.mats = [] ∨ ∃ L n, recBuildLoop la cfg md L n ⟨some L, some n, [], false⟩ = (.ok (), st)

theorem recPrepare_eq [Field R] [DecidableEq R] {la : LinAlg R} {cfg : RecCfg R} {md : Meta}
    {st : RecState R} (h : RecInv la cfg md st) (L n : Nat) :
    recPrepare la cfg md L n st = recBuildLoop la cfg md L n ⟨some L, some n, [], false⟩ := by
  unfold recPrepare
  by_cases hc : st.mats.isEmpty = true ∨ st.level ≠ some L ∨ st.inputLength ≠ some n
  · rw [if_pos hc]
  · rw [if_neg hc]
    push Not at hc
    obtain ⟨h0, h1, h2⟩ := hc
    rcases h with h | ⟨L', n', h⟩
    · rw [h] at h0; exact absurd rfl h0
    · have k := recBuildLoop_keeps (la := la) (cfg := cfg) (md := md) L' n' ⟨some L', some n', [], false⟩
      rw [h] at k
      obtain ⟨k1, k2⟩ := k
      simp only at k1 k2
      rw [h1] at k1
      rw [h2] at k2
      cases k1
      cases k2
      exact h.symm

theorem recPrepare_inv [Field R] [DecidableEq R] {la : LinAlg R} {cfg : RecCfg R} {md : Meta}
    (hb : ∀ m, m % 2 = 0 → cfg.wavelet.recLo.length ≤ m → ∃ A, constructBoundaryS la cfg.wavelet md m cfg.orth = .ok A)
    {st : RecState R} (h : RecInv la cfg md st) (L n : Nat) :
    recPrepare la cfg md L n st = recBuildLoop la cfg md L n ⟨some L, some n, [], false⟩ ∧
    RecInv la cfg md (recPrepare la cfg md L n st).2 := by
  have key := recPrepare_eq h L n
  refine ⟨key, ?_⟩
  rw [key]
  exact Or.inr ⟨L, n, Prod.ext (recBuildLoop_total hb _ _ _) rfl⟩

/-- With one level, a failed construction leaves no matrix behind. -/
theorem recPrepare_inv1 [Field R] [DecidableEq R] {la : LinAlg R} {cfg : RecCfg R} {md : Meta}
    {st : RecState R} (h : RecInv la cfg md st) {L : Nat} (hL : L ≤ 1) (n : Nat) :
    recPrepare la cfg md L n st = recBuildLoop la cfg md L n ⟨some L, some n, [], false⟩ ∧
    RecInv la cfg md (recPrepare la cfg md L n st).2 := by
  have key := recPrepare_eq h L n
  refine ⟨key, ?_⟩
  rw [key]
  have hcase : (recBuildLoop la cfg md L n ⟨some L, some n, [], false⟩).2.mats = [] ∨
      (recBuildLoop la cfg md L n ⟨some L, some n, [], false⟩).1 = .ok () := by
    obtain rfl | rfl : L = 0 ∨ L = 1 := by omega
    · exact Or.inr rfl
    unfold recBuildLoop
    by_cases hc : n < cfg.wavelet.recLo.length
    · rw [if_pos hc]; exact Or.inr rfl
    · rw [if_neg hc]
      simp only
      cases constructBoundaryS la cfg.wavelet md (if n % 2 ≠ 0 then n + 1 else n) cfg.orth with
      | error e => exact Or.inl rfl
      | ok A => exact Or.inr rfl
  rcases hcase with hc | hc
  · exact Or.inl hc
  · exact Or.inr ⟨L, n, Prod.ext hc rfl⟩

/-! ### The dtype and device of the folded input -/

theorem fwtPadWith_md [NonUnitalNonAssocSemiring R] {t u : Tensor R} {mode : Option String} {l r : Nat}
    (hr : 1 ≤ t.rank) (e : fwtPadWith t mode [l, r] = .ok u) : u.md = t.md := by
  have key : ∀ m, Selects mode m → u.md = t.md := by
    intro m hm
    by_cases hf : Props.Fits m (t.shape.getD (t.rank - 1) 0) l r
    · obtain ⟨u', e', hu⟩ := Props.c08_mode_extension t mode m l r hm hr hf
      rw [e] at e'
      cases e'
      exact hu.md
    · rw [Props.c08_mode_not_fitting t mode m l r hm hr hf] at e
      cases e
  cases mode with
  | none => exact key .reflect (Or.inr ⟨rfl, rfl⟩)
  | some s =>
    by_cases h1 : s = "zero"
    · exact key .zero (Or.inl (by rw [h1]; rfl))
    by_cases h2 : s = "constant"
    · exact key .constant (Or.inl (by rw [h2]; rfl))
    by_cases h3 : s = "reflect"
    · exact key .reflect (Or.inl (by rw [h3]; rfl))
    by_cases h4 : s = "periodic"
    · exact key .periodic (Or.inl (by rw [h4]; rfl))
    by_cases h5 : s = "symmetric"
    · exact key .symmetric (Or.inl (by rw [h5]; rfl))
    rw [Props.c08_unknown_mode t s _ h1 h2 h3 h4 h5] at e
    cases e

theorem decInput_md [NonUnitalNonAssocSemiring R] {cfg : DecCfg R} {x y : Tensor R} {ds : List Nat}
    (e : decInput cfg x = .ok (y, ds)) : y.md = x.md := by
  unfold decInput at e
  obtain ⟨p, e1, e⟩ := bind_ok_inv e
  obtain ⟨u, e2, e⟩ := bind_ok_inv e
  cases e
  by_cases hg : GoodAxes (.int cfg.axis) x.rank 1 ∧ isDtypeSupported x.md.dtype = true
  · obtain ⟨z, ez, hz⟩ := preprocessTensor_ok hg.1 hg.2
    rw [e1] at ez
    cases ez
    have hs := hz.shows hg.1
    unfold decPadInput at e2
    split_ifs at e2
    · rw [fwtPadWith_md (by unfold Tensor.rank; rw [hs.shape]; simp) e2, hs.md]
    · cases e2; exact hs.md
  · obtain ⟨e', he'⟩ := preprocessTensor_err (ch := false) hg
    rw [he'] at e1
    cases e1

theorem coeffTreeMap_head [Zero R] {c c' : Coeffs R} {f : Tensor R → Except Err (Tensor R)} {t : Tensor R}
    (ht : headTensor c = .ok t) (e : coeffTreeMap c f = .ok c') : ∃ t', f t = .ok t' ∧ headTensor c' = .ok t' := by
  obtain ⟨b, items⟩ := c
  unfold headTensor at ht
  cases items with
  | nil => cases ht
  | cons i rest =>
    cases i with
    | tensor a =>
      cases ht
      unfold coeffTreeMap at e
      simp only at e
      obtain ⟨a', e1, e⟩ := bind_ok_inv e
      obtain ⟨res, e2, e⟩ := bind_ok_inv e
      refine ⟨a', e1, ?_⟩
      split at e <;> (cases e; rfl)
    | tuple _ _ _ => cases ht
    | dict _ => cases ht
    | other => cases ht

theorem permute_md [Zero R] {t u : Tensor R} {d : List Int} (e : t.permute d = .ok u) : u.md = t.md := by
  unfold Tensor.permute at e
  simp only at e
  split_ifs at e
  · cases e
  obtain ⟨_, _, e⟩ := bind_ok_inv e
  split_ifs at e
  cases e
  rfl

theorem swapAxes_md [Zero R] {t u : Tensor R} {d : List Int} (e : swapAxes t d = .ok u) : u.md = t.md := by
  unfold swapAxes at e
  obtain ⟨_, _, e⟩ := bind_ok_inv e
  exact permute_md e

theorem recInput_md [Zero R] {cfg : RecCfg R} {c0 : Tensor R} {rest us : List (Tensor R)} {ds : List Nat} {md : Meta}
    (e : recInput cfg (Coeffs.ofList (c0 :: rest)) = .ok (us, ds, md)) : md = c0.md := by
  unfold recInput at e
  obtain ⟨p, e1, e⟩ := bind_ok_inv e
  obtain ⟨m', e2, e⟩ := bind_ok_inv e
  cases e
  unfold preprocessCoeffs at e1
  rw [if_neg (by omega)] at e1
  obtain ⟨h, eh, e1⟩ := bind_ok_inv e1
  rw [headTensor_ofList] at eh
  cases eh
  split_ifs at e1
  obtain ⟨ax, ea, e1⟩ := bind_ok_inv e1
  obtain ⟨df, ed, e1⟩ := bind_ok_inv e1
  obtain ⟨c1, ec1, e1⟩ := bind_ok_inv e1
  obtain ⟨h1, eh1, e1⟩ := bind_ok_inv e1
  obtain ⟨c2, ec2, e1⟩ := bind_ok_inv e1
  obtain ⟨c3, ec3, e1⟩ := bind_ok_inv e1
  cases e1
  have m1 : h1.md = c0.md := by
    unfold preSwap at ec1
    split_ifs at ec1
    · obtain ⟨t', e', h'⟩ := coeffTreeMap_head (headTensor_ofList c0 rest) ec1
      rw [eh1] at h'
      cases h'
      exact swapAxes_md e'
    · cases ec1
      rw [headTensor_ofList] at eh1
      cases eh1
      rfl
  obtain ⟨h2, eh2, m2⟩ : ∃ h2, headTensor c2 = .ok h2 ∧ h2.md = h1.md := by
    unfold preFold at ec2
    split_ifs at ec2
    · obtain ⟨t', e', h'⟩ := coeffTreeMap_head eh1 ec2
      cases e'
      exact ⟨_, h', rfl⟩
    · obtain ⟨t', e', h'⟩ := coeffTreeMap_head eh1 ec2
      exact ⟨_, h', reshape_md e'⟩
    · cases ec2
      exact ⟨_, eh1, rfl⟩
  have : c3 = c2 := by
    unfold preChannel at ec3
    simp at ec3
    exact ec3.symm
  subst this
  unfold checkSameDeviceDtype at e2
  obtain ⟨h3, eh3, e2⟩ := bind_ok_inv e2
  obtain ⟨_, _, e2⟩ := bind_ok_inv e2
  obtain ⟨_, _, e2⟩ := bind_ok_inv e2
  cases e2
  rw [eh2] at eh3
  cases eh3
  rw [m2, m1]

end Verif
