/-
Building and caching the matrices of the two- and three-dimensional matrix transforms.
-/
import Verif.Lemmas.MatNRec
import Verif.Lemmas.Mat1Build
import Verif.Lemmas.CoeffsN

namespace Verif
open Tensor Spec
variable {R : Type}

/-- The matrices `Ms ns` are those that get built at the sizes `ns`. -/
def DecBuilds [Field R] [DecidableEq R] (la : LinAlg R) (cfg : DecCfgN R) (md : Meta) (n F N : Nat)
    (Ms : List Nat → List (Coo R)) : Prop :=
  ∀ ns : List Nat, ns.length = n → (∀ k ∈ ns, F ≤ k) → (∀ k ∈ ns, evenLen k ≤ N) →
    levelMatsA la cfg md (ns.map evenLen) = .ok (Ms ns)

def RecBuilds [Field R] [DecidableEq R] (la : LinAlg R) (cfg : RecCfgN R) (md : Meta) (n F N : Nat)
    (Ms : List Nat → List (Coo R)) : Prop :=
  ∀ ns : List Nat, ns.length = n → (∀ k ∈ ns, F ≤ k) → (∀ k ∈ ns, evenLen k ≤ N) →
    levelMatsS la cfg md (ns.map evenLen) = .ok (Ms ns)

theorem mapM_ok {α β : Type} {f : α → Except Err β} {g : α → β} : ∀ (l : List α), (∀ a ∈ l, f a = .ok (g a)) →
    l.mapM f = .ok (l.map g)
  | [], _ => rfl
  | a :: l, h => by
    rw [List.mapM_cons, h a (by simp), List.map_cons]
    simp only [bind, Except.bind, mapM_ok l (fun b hb => h b (List.mem_cons_of_mem _ hb))]
    rfl

theorem decBuilds_sep [Field R] [DecidableEq R] {la : LinAlg R} {cfg : DecCfgN R} {md : Meta} {n F N : Nat}
    {C : Nat → Coo R} (hs : cfg.separable = true)
    (hC : ∀ k, k % 2 = 0 → F ≤ k → k ≤ N → constructBoundaryA la cfg.wavelet md k cfg.orth = .ok (C k)) :
    DecBuilds la cfg md n F N (matsAt C) := by
  intro ns _ hge hN
  unfold levelMatsA
  rw [if_pos hs, mapM_ok (g := C)]
  · unfold matsAt; rw [List.map_map]; rfl
  · intro k hk
    rw [List.mem_map] at hk
    obtain ⟨q, hq, rfl⟩ := hk
    have := hge q hq
    have := le_evenLen q
    exact hC _ (evenLen_even q) (by omega) (hN q hq)

theorem recBuilds_sep [Field R] [DecidableEq R] {la : LinAlg R} {cfg : RecCfgN R} {md : Meta} {n F N : Nat}
    {C : Nat → Coo R} (hs : cfg.separable = true)
    (hC : ∀ k, k % 2 = 0 → F ≤ k → k ≤ N → constructBoundaryS la cfg.wavelet md k cfg.orth = .ok (C k)) :
    RecBuilds la cfg md n F N (matsAt C) := by
  intro ns _ hge hN
  unfold levelMatsS
  rw [if_pos hs, mapM_ok (g := C)]
  · unfold matsAt; rw [List.map_map]; rfl
  · intro k hk
    rw [List.mem_map] at hk
    obtain ⟨q, hq, rfl⟩ := hk
    have := hge q hq
    have := le_evenLen q
    exact hC _ (evenLen_even q) (by omega) (hN q hq)

/-- The state of an analysis object after a build. -/
def builtStateN (Ms : List Nat → List (Coo R)) (F : Nat) (level : Option Int) (L : Nat) (ns : List Nat) : DecStateN R :=
  ⟨level, some ns, builtN Ms F L ns, builtN matrixPadFlags F L ns,
    (builtN matrixPadFlags F L ns).any fun p => p.any id,
    builtN (fun ns => ns.map evenLen) F L ns ++ [mLens ns (mLevelsN F L ns)]⟩

theorem halfs_eq (ns : List Nat) : ((ns.map evenLen).map fun n => n / 2) = halfLens ns := by
  unfold halfLens; rw [List.map_map]; rfl

theorem decBuildLoopN_ok [Field R] [DecidableEq R] {la : LinAlg R} {cfg : DecCfgN R} {md : Meta} {n N : Nat}
    {Ms : List Nat → List (Coo R)} (h2 : 2 ≤ cfg.wavelet.decLo.length)
    (hM : DecBuilds la cfg md n cfg.wavelet.decLo.length N Ms) :
    ∀ (L : Nat) (ns : List Nat) (st : DecStateN R), ns.length = n → (∀ k ∈ ns, evenLen k ≤ N) →
    decBuildLoopN la cfg md L ns st = (.ok (), { st with
      mats := st.mats ++ builtN Ms cfg.wavelet.decLo.length L ns
      padList := st.padList ++ builtN matrixPadFlags cfg.wavelet.decLo.length L ns
      padded := st.padded || (builtN matrixPadFlags cfg.wavelet.decLo.length L ns).any fun p => p.any id
      sizeList := st.sizeList ++ (builtN (fun ns => ns.map evenLen) cfg.wavelet.decLo.length L ns ++
        [mLens ns (mLevelsN cfg.wavelet.decLo.length L ns)]) })
  | 0, ns, st, _, _ => by simp [decBuildLoopN, builtN, mLevelsN, mLens_zero]
  | L + 1, ns, st, hl, hN => by
    unfold decBuildLoopN builtN mLevelsN
    by_cases hn : ∃ k ∈ ns, k < cfg.wavelet.decLo.length
    · rw [if_pos hn, if_pos hn, if_pos hn, if_pos hn, if_pos hn]
      simp [mLens_zero]
    · have hge : ∀ k ∈ ns, cfg.wavelet.decLo.length ≤ k := by
        intro k hk
        by_contra hc
        exact hn ⟨k, hk, by omega⟩
      rw [if_neg hn, if_neg hn, if_neg hn, if_neg hn, if_neg hn, matrixPadSizes_eq]
      simp only [hM ns hl hge hN]
      rw [halfs_eq, decBuildLoopN_ok h2 hM L (halfLens ns) _ (by rw [halfLens_length, hl]) (halfLens_bound h2 hge hN)]
      simp [Bool.or_assoc, mLens_succ]

theorem recBuildLoopN_ok [Field R] [DecidableEq R] {la : LinAlg R} {cfg : RecCfgN R} {md : Meta} {n N : Nat}
    {Ms : List Nat → List (Coo R)} (h2 : 2 ≤ cfg.wavelet.recLo.length)
    (hM : RecBuilds la cfg md n cfg.wavelet.recLo.length N Ms) :
    ∀ (L : Nat) (ns : List Nat) (st : RecStateN R), ns.length = n → (∀ k ∈ ns, evenLen k ≤ N) →
    recBuildLoopN la cfg md L ns st = (.ok (), { st with
      mats := st.mats ++ builtN Ms cfg.wavelet.recLo.length L ns
      padded := st.padded || (builtN matrixPadFlags cfg.wavelet.recLo.length L ns).any fun p => p.any id })
  | 0, ns, st, _, _ => by simp [recBuildLoopN, builtN]
  | L + 1, ns, st, hl, hN => by
    unfold recBuildLoopN builtN
    by_cases hn : ∃ k ∈ ns, k < cfg.wavelet.recLo.length
    · rw [if_pos hn, if_pos hn, if_pos hn]
      simp
    · have hge : ∀ k ∈ ns, cfg.wavelet.recLo.length ≤ k := by
        intro k hk
        by_contra hc
        exact hn ⟨k, hk, by omega⟩
      rw [if_neg hn, if_neg hn, if_neg hn, matrixPadSizes_eq]
      simp only [hM ns hl hge hN]
      rw [halfs_eq, recBuildLoopN_ok h2 hM L (halfLens ns) _ (by rw [halfLens_length, hl]) (halfLens_bound h2 hge hN)]
      simp [Bool.or_assoc]

theorem decBuildN_ok [Field R] [DecidableEq R] {la : LinAlg R} {cfg : DecCfgN R} {md : Meta} {n N : Nat}
    {Ms : List Nat → List (Coo R)} (h2 : 2 ≤ cfg.wavelet.decLo.length)
    (hM : DecBuilds la cfg md n cfg.wavelet.decLo.length N Ms) (l : Int) (ns : List Nat) (st : DecStateN R)
    (hl : ns.length = n) (hN : ∀ k ∈ ns, evenLen k ≤ N) (hst : st.shape = some ns) :
    decBuildN la cfg md l ns st = (.ok (), builtStateN Ms cfg.wavelet.decLo.length st.level l.toNat ns) := by
  unfold decBuildN
  rw [decBuildLoopN_ok h2 hM _ _ _ hl hN]
  unfold builtStateN
  simp [hst]

theorem matAutoLevelN_ok {F : Nat} (hF : 2 ≤ F) : ∀ (ns : List Nat), ns ≠ [] → (∀ k ∈ ns, 0 < k) →
    ∃ l : Int, matAutoLevelN ns F = .ok l ∧ l.toNat = autoLevelN F ns
  | [], h, _ => absurd rfl h
  | [n], _, hp => matAutoLevel_ok hF (hp n (by simp))
  | n :: m :: ns, _, hp => by
    obtain ⟨a, a1, a2⟩ := matAutoLevel_ok hF (hp n (by simp))
    obtain ⟨b, b1, b2⟩ := matAutoLevelN_ok hF (m :: ns) (by simp) (fun k hk => hp k (List.mem_cons_of_mem _ hk))
    refine ⟨min a b, ?_, ?_⟩
    · unfold matAutoLevelN
      simp only [bind, Except.bind, a1, b1]
      rfl
    · show _ = min (autoLevel F n) (autoLevelN F (m :: ns))
      rw [← a2, ← b2]
      omega

theorem decPrepareN_fresh [Field R] [DecidableEq R] {la : LinAlg R} {cfg : DecCfgN R} {md : Meta} {n N : Nat}
    {Ms : List Nat → List (Coo R)} (h2 : 2 ≤ cfg.wavelet.decLo.length)
    (hM : DecBuilds la cfg md n cfg.wavelet.decLo.length N Ms) {ns : List Nat} {st : DecStateN R}
    (hlen : ns.length = n) (hn1 : 1 ≤ n)
    (hN : ∀ k ∈ ns, evenLen k ≤ N) (hl : ∀ l, st.level = some l → 1 ≤ l) (hn : st.level = none → ∀ k ∈ ns, 0 < k)
    (hst : st.mats = []) :
    ∃ level, (∀ l, st.level = some l → level = some l) ∧
      decPrepareN la cfg md ns st = (.ok (), builtStateN Ms cfg.wavelet.decLo.length level
      (levelsN st.level cfg.wavelet.decLo.length ns) ns) := by
  obtain ⟨lv, il, mats, pads, pd, sz⟩ := st
  simp only at hst hl hn
  subst hst
  cases lv with
  | none =>
    obtain ⟨l, e1, e2⟩ := matAutoLevelN_ok h2 ns (by rintro rfl; simp at hlen; omega) (hn rfl)
    refine ⟨some l, by rintro _ ⟨⟩, ?_⟩
    unfold decPrepareN
    simp only [Wavelet.len, e1]
    unfold decEnsureN
    rw [if_pos (Or.inr rfl), decBuildN_ok h2 hM _ _ _ hlen hN rfl]
    show _ = (_, builtStateN Ms _ (some l) (autoLevelN _ ns) ns)
    rw [e2]
  | some l =>
    refine ⟨some l, fun _ h => h, ?_⟩
    unfold decPrepareN
    simp only
    rw [if_neg (by have := hl l rfl; omega)]
    unfold decEnsureN
    rw [if_pos (Or.inl (by rfl)), decBuildN_ok h2 hM _ _ _ hlen hN rfl]
    rfl

theorem recPrepareN_fresh [Field R] [DecidableEq R] {la : LinAlg R} {cfg : RecCfgN R} {md : Meta} {n N : Nat}
    {Ms : List Nat → List (Coo R)} (h2 : 2 ≤ cfg.wavelet.recLo.length)
    (hM : RecBuilds la cfg md n cfg.wavelet.recLo.length N Ms) {ns : List Nat} {L : Nat} {st : RecStateN R}
    (hlen : ns.length = n) (hN : ∀ k ∈ ns, evenLen k ≤ N) (hst : st.mats = []) :
    recPrepareN la cfg md L ns st = (.ok (), ⟨some L, some ns, builtN Ms cfg.wavelet.recLo.length L ns,
      (builtN matrixPadFlags cfg.wavelet.recLo.length L ns).any fun p => p.any id⟩) := by
  unfold recPrepareN
  rw [if_pos (Or.inl (by rw [hst]; rfl)), recBuildLoopN_ok h2 hM _ _ _ hlen hN]
  simp

theorem recPrepareN_zero [Field R] [DecidableEq R] {la : LinAlg R} {cfg : RecCfgN R} {md : Meta} {ns : List Nat}
    {st : RecStateN R} (hst : st.mats = []) :
    recPrepareN la cfg md 0 ns st = (.ok (), ⟨some 0, some ns, [], false⟩) := by
  unfold recPrepareN
  rw [if_pos (Or.inl (by rw [hst]; rfl))]
  rfl

/-- Rounding the sizes up to even ones does not change what gets built. -/
theorem builtN_even {α : Type} {f : List Nat → α} (hf : ∀ ns, f (ns.map evenLen) = f ns) {F : Nat} :
    ∀ {L : Nat} {ns : List Nat}, (0 < mLevelsN F L ns) → builtN f F L (ns.map evenLen) = builtN f F L ns
  | 0, _, h => by simp [mLevelsN] at h
  | L + 1, ns, h => by
    have hn : ¬ ∃ k ∈ ns, k < F := by
      intro hn
      unfold mLevelsN at h
      rw [if_pos hn] at h
      omega
    have hn' : ¬ ∃ k ∈ ns.map evenLen, k < F := by
      rintro ⟨k, hk, hlt⟩
      rw [List.mem_map] at hk
      obtain ⟨q, hq, rfl⟩ := hk
      have := le_evenLen q
      exact hn ⟨q, hq, by omega⟩
    unfold builtN
    rw [if_neg hn, if_neg hn', hf, halfLens_even]

theorem matsAt_even (C : Nat → Coo R) (ns : List Nat) : matsAt C (ns.map evenLen) = matsAt C ns := by
  unfold matsAt
  rw [List.map_map]
  apply List.map_congr_left
  intro n _
  show C (evenLen (evenLen n)) = _
  rw [evenLen_of_even (evenLen_even n)]

/-! ### The axis argument -/

theorem goodAxes_list {h : AxisHint} {r n : Nat} (hg : GoodAxes h r n) :
    ensureAxes h n = .ok (resolve h n) ∧ GoodAxes (.seq (resolve h n)) r n ∧
      axesOf (.seq (resolve h n)) r n = axesOf h r n := by
  refine ⟨ensureAxes_ok hg, ⟨hg.pos, hg.len, hg.valid⟩, rfl⟩

/-! ### Reuse -/

theorem decBuildN_congr [Field R] [DecidableEq R] {la : LinAlg R} {cfg : DecCfgN R} {md : Meta} {l : Int} {ns : List Nat}
    {s t : DecStateN R} (h1 : s.level = t.level) (h2 : s.shape = t.shape) :
    decBuildN la cfg md l ns s = decBuildN la cfg md l ns t := by
  unfold decBuildN; rw [h1, h2]

theorem decBuildLoopN_keeps [Field R] [DecidableEq R] {la : LinAlg R} {cfg : DecCfgN R} {md : Meta} :
    ∀ (k : Nat) (c : List Nat) (st : DecStateN R), (decBuildLoopN la cfg md k c st).2.level = st.level ∧
      (decBuildLoopN la cfg md k c st).2.shape = st.shape
  | 0, _, _ => ⟨rfl, rfl⟩
  | k + 1, c, st => by
    unfold decBuildLoopN
    split_ifs
    · exact ⟨rfl, rfl⟩
    · simp only
      split
      · exact ⟨rfl, rfl⟩
      · exact decBuildLoopN_keeps (la := la) (cfg := cfg) (md := md) k _ _

/-- All the matrices an object can ask for exist. -/
def DecTotal [Field R] [DecidableEq R] (la : LinAlg R) (cfg : DecCfgN R) (md : Meta) (n : Nat) : Prop :=
  ∀ ns : List Nat, ns.length = n → (∀ k ∈ ns, k % 2 = 0 ∧ cfg.wavelet.decLo.length ≤ k) →
    ∃ Ms, levelMatsA la cfg md ns = .ok Ms

def RecTotal [Field R] [DecidableEq R] (la : LinAlg R) (cfg : RecCfgN R) (md : Meta) (n : Nat) : Prop :=
  ∀ ns : List Nat, ns.length = n → (∀ k ∈ ns, k % 2 = 0 ∧ cfg.wavelet.recLo.length ≤ k) →
    ∃ Ms, levelMatsS la cfg md ns = .ok Ms

theorem evens_ok {F : Nat} {ns : List Nat} (hn : ¬ ∃ k ∈ ns, k < F) : ∀ k ∈ ns.map evenLen, k % 2 = 0 ∧ F ≤ k := by
  intro k hk
  rw [List.mem_map] at hk
  obtain ⟨q, hq, rfl⟩ := hk
  refine ⟨evenLen_even q, ?_⟩
  by_contra hc
  have := le_evenLen q
  exact hn ⟨q, hq, by omega⟩

theorem decBuildLoopN_total [Field R] [DecidableEq R] {la : LinAlg R} {cfg : DecCfgN R} {md : Meta} {n : Nat}
    (hb : DecTotal la cfg md n) :
    ∀ (k : Nat) (c : List Nat) (st : DecStateN R), c.length = n → (decBuildLoopN la cfg md k c st).1 = .ok ()
  | 0, _, _, _ => rfl
  | k + 1, c, st, hc => by
    unfold decBuildLoopN
    by_cases h : ∃ q ∈ c, q < cfg.wavelet.decLo.length
    · rw [if_pos h]
    · rw [if_neg h, matrixPadSizes_eq]
      obtain ⟨Ms, hM⟩ := hb (c.map evenLen) (by rw [List.length_map, hc]) (evens_ok h)
      simp only [hM]
      exact decBuildLoopN_total hb k _ _ (by rw [List.length_map, List.length_map, hc])

/-- What every state of an object with a given positive level satisfies. -/
def DecInvN [Field R] [DecidableEq R] (la : LinAlg R) (cfg : DecCfgN R) (md : Meta) (l : Int) (st : DecStateN R) : Prop :=
  st.level = some l ∧ (st.mats = [] ∨ ∃ ns, st.shape = some ns ∧ decBuildN la cfg md l ns st = (.ok (), st))

theorem decPrepareN_inv [Field R] [DecidableEq R] {la : LinAlg R} {cfg : DecCfgN R} {md : Meta} {l : Int} {n : Nat}
    (hl : 1 ≤ l) (hb : DecTotal la cfg md n)
    {st : DecStateN R} (h : DecInvN la cfg md l st) (ns : List Nat) (hns : ns.length = n) :
    decPrepareN la cfg md ns st = decBuildN la cfg md l ns ⟨some l, some ns, [], [], false, []⟩ ∧
    DecInvN la cfg md l (decPrepareN la cfg md ns st).2 := by
  have key : decPrepareN la cfg md ns st = decBuildN la cfg md l ns ⟨some l, some ns, [], [], false, []⟩ := by
    obtain ⟨h1, h2⟩ := h
    unfold decPrepareN
    simp only [h1]
    rw [if_neg (by omega)]
    unfold decEnsureN
    simp only
    rcases h2 with h2 | ⟨n', h2, h3⟩
    · rw [if_pos (Or.inl (by rw [h2]; rfl))]
      exact decBuildN_congr rfl rfl
    · by_cases hn : n' = ns
      · subst hn
        by_cases hm : st.mats.isEmpty = true
        · rw [if_pos (Or.inl hm)]
          exact decBuildN_congr rfl rfl
        · rw [if_neg (by rw [h2]; simp only [ne_eq, not_true_eq_false, decide_false]; push Not; exact ⟨hm, by simp⟩)]
          rw [show ({ st with level := some l, shape := some n' } : DecStateN R) = st by
            obtain ⟨a, b, c, d, e, f⟩ := st; simp only at h1 h2; subst h1 h2; rfl]
          rw [← h3]
          exact decBuildN_congr (by rw [h1]) (by rw [h2])
      · rw [if_pos (Or.inr (by rw [h2]; simpa using hn))]
        exact decBuildN_congr rfl rfl
  refine ⟨key, ?_⟩
  rw [key]
  have k1 := decBuildLoopN_keeps (la := la) (cfg := cfg) (md := md) l.toNat ns
    ({level := some l, shape := some ns, mats := [], padList := [], padded := false, sizeList := []} : DecStateN R)
  have k2 := decBuildLoopN_total hb l.toNat ns
    ({level := some l, shape := some ns, mats := [], padList := [], padded := false, sizeList := []} : DecStateN R) hns
  refine ⟨k1.1, Or.inr ⟨ns, k1.2, ?_⟩⟩
  refine (decBuildN_congr (t := ⟨some l, some ns, [], [], false, []⟩) k1.1 k1.2).trans ?_
  exact Prod.ext k2 rfl

theorem recBuildLoopN_keeps [Field R] [DecidableEq R] {la : LinAlg R} {cfg : RecCfgN R} {md : Meta} :
    ∀ (k : Nat) (c : List Nat) (st : RecStateN R), (recBuildLoopN la cfg md k c st).2.level = st.level ∧
      (recBuildLoopN la cfg md k c st).2.shape = st.shape
  | 0, _, _ => ⟨rfl, rfl⟩
  | k + 1, c, st => by
    unfold recBuildLoopN
    split_ifs
    · exact ⟨rfl, rfl⟩
    · simp only
      split
      · exact ⟨rfl, rfl⟩
      · exact recBuildLoopN_keeps (la := la) (cfg := cfg) (md := md) k _ _

theorem recBuildLoopN_total [Field R] [DecidableEq R] {la : LinAlg R} {cfg : RecCfgN R} {md : Meta} {n : Nat}
    (hb : RecTotal la cfg md n) :
    ∀ (k : Nat) (c : List Nat) (st : RecStateN R), c.length = n → (recBuildLoopN la cfg md k c st).1 = .ok ()
  | 0, _, _, _ => rfl
  | k + 1, c, st, hc => by
    unfold recBuildLoopN
    by_cases h : ∃ q ∈ c, q < cfg.wavelet.recLo.length
    · rw [if_pos h]
    · rw [if_neg h, matrixPadSizes_eq]
      obtain ⟨Ms, hM⟩ := hb (c.map evenLen) (by rw [List.length_map, hc]) (evens_ok h)
      simp only [hM]
      exact recBuildLoopN_total hb k _ _ (by rw [List.length_map, List.length_map, hc])

/-- What every state of a synthesis object satisfies. -/
def RecInvN [Field R] [DecidableEq R] (la : LinAlg R) (cfg : RecCfgN R) (md : Meta) (st : RecStateN R) : Prop :=
  st.mats = [] ∨ ∃ L ns, recBuildLoopN la cfg md L ns ⟨some L, some ns, [], false⟩ = (.ok (), st)

theorem recPrepareN_inv [Field R] [DecidableEq R] {la : LinAlg R} {cfg : RecCfgN R} {md : Meta} {n : Nat}
    (hb : RecTotal la cfg md n)
    {st : RecStateN R} (h : RecInvN la cfg md st) (L : Nat) (ns : List Nat) (hns : ns.length = n) :
    recPrepareN la cfg md L ns st = recBuildLoopN la cfg md L ns ⟨some L, some ns, [], false⟩ ∧
    RecInvN la cfg md (recPrepareN la cfg md L ns st).2 := by
  have key : recPrepareN la cfg md L ns st = recBuildLoopN la cfg md L ns ⟨some L, some ns, [], false⟩ := by
    unfold recPrepareN
    by_cases hc : st.mats.isEmpty = true ∨ st.level ≠ some L ∨ st.shape ≠ some ns
    · rw [if_pos hc]
    · rw [if_neg hc]
      push Not at hc
      obtain ⟨h0, h1, h2⟩ := hc
      rcases h with h | ⟨L', n', h⟩
      · rw [h] at h0; exact absurd rfl h0
      · have k := recBuildLoopN_keeps (la := la) (cfg := cfg) (md := md) L' n' ⟨some L', some n', [], false⟩
        rw [h] at k
        obtain ⟨k1, k2⟩ := k
        simp only at k1 k2
        rw [h1] at k1
        rw [h2] at k2
        cases k1
        cases k2
        exact h.symm
  refine ⟨key, ?_⟩
  rw [key]
  exact Or.inr ⟨L, ns, Prod.ext (recBuildLoopN_total hb _ _ _ hns) rfl⟩

end Verif
