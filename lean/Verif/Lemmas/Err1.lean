import Verif.Lemmas.Top1

/-! Failing calls: bad axes, unsupported dtypes, signals too short for a mode. -/

namespace Verif
open Tensor Spec
variable {R : Type}

/-! ### Bad axes -/

theorem transposeOrder_length {r : Nat} {axes : List Int} (h : ¬ ValidAxes r axes) :
    r < (getTransposeOrder axes r).1.length + (getTransposeOrder axes r).2.length := by
  unfold getTransposeOrder
  simp only
  set A := axes.map fun (a : Int) => if a < 0 then a + (r : Int) else a with hA
  set L := ((List.range r).map fun (k : Nat) => (k : Int)).filter (fun a => a ∈ A) with hL
  have hnd : ((List.range r).map fun (k : Nat) => (k : Int)).Nodup :=
    List.nodup_range.map fun a b h => by exact_mod_cast h
  have hsub : L ⊆ A := by
    intro a ha
    rw [hL, List.mem_filter] at ha
    simpa using ha.2
  have hsp : L.Subperm A := (hnd.filter _).subperm hsub
  have hsum : (((List.range r).map fun (k : Nat) => (k : Int)).filter fun a => a ∉ A).length + L.length = r := by
    have := List.length_eq_length_filter_add
      (l := (List.range r).map fun (k : Nat) => (k : Int)) (fun a => decide (a ∈ A))
    simp only [List.length_map, List.length_range] at this
    rw [hL]
    simp only [decide_not] at *
    omega
  have hlt : L.length < A.length := by
    rcases Nat.lt_or_ge L.length A.length with h1 | h1
    · exact h1
    · exfalso
      apply h
      have hp : L.Perm A := hsp.perm_of_length_le h1
      have hmem : ∀ a ∈ A, ∃ k : Nat, k < r ∧ (k : Int) = a := by
        intro a ha
        have := hp.mem_iff.mpr ha
        rw [hL, List.mem_filter, List.mem_map] at this
        obtain ⟨⟨k, hk, hka⟩, _⟩ := this
        exact ⟨k, List.mem_range.mp hk, hka⟩
      have hv : ∀ a ∈ axes, ValidAxis r a := by
        intro a ha
        obtain ⟨k, hk, hka⟩ := hmem _ (List.mem_map_of_mem (f := fun (a : Int) => if a < 0 then a + (r : Int) else a) ha)
        unfold ValidAxis
        split_ifs at hka <;> omega
      refine ⟨hv, ?_⟩
      have hAn : A.Nodup := hp.nodup_iff.mp (hnd.filter _)
      have e : A = (axes.map (axisOf r)).map fun (k : Nat) => (k : Int) := by
        rw [hA, List.map_map]
        apply List.map_congr_left
        intro a ha
        exact (axisOf_cast (hv a ha)).symm
      rw [e] at hAn
      exact List.Nodup.of_map _ hAn
  omega

theorem permute_length_err [Zero R] {t : Tensor R} {dims : List Int} (h : dims.length ≠ t.rank) :
    t.permute dims = .error .runtimeError := by
  unfold Tensor.permute
  simp only [bind, Except.bind, if_pos h]
  rfl

theorem swapAxes_err [Zero R] {t : Tensor R} {axes : List Int} (h : ¬ ValidAxes t.rank axes) :
    swapAxes t axes = .error (if axes.Nodup then .runtimeError else .valueError) := by
  unfold swapAxes checkAxesArgument
  split_ifs with hn
  · have := transposeOrder_length h
    refine permute_length_err (t := t)
      (dims := (getTransposeOrder axes t.rank).1 ++ (getTransposeOrder axes t.rank).2) ?_
    rw [List.length_append]; omega
  · rfl

theorem undoSwapAxes_err [Zero R] {t : Tensor R} {axes : List Int} (h : ¬ ValidAxes t.rank axes) :
    undoSwapAxes t axes = .error (if axes.Nodup then .runtimeError else .valueError) := by
  unfold undoSwapAxes checkAxesArgument
  split_ifs with hn
  · have := transposeOrder_length h
    refine permute_length_err (t := t) (dims := (argsort ((getTransposeOrder axes t.rank).1
      ++ (getTransposeOrder axes t.rank).2)).map fun (k : Nat) => (k : Int)) ?_
    rw [List.length_map, argsort, List.length_mergeSort, List.length_range, List.length_append]
    omega
  · rfl

theorem default_valid {r n : Nat} (h : n ≤ r) :
    ValidAxes r ((List.range n).map fun (k : Nat) => (k : Int) - (n : Int)) := by
  constructor
  · intro a ha
    obtain ⟨k, hk, rfl⟩ := List.mem_map.mp ha
    rw [List.mem_range] at hk
    unfold ValidAxis; omega
  · rw [List.map_map]
    refine List.nodup_range.map_on ?_
    intro a ha b hb hab
    rw [List.mem_range] at ha hb
    simp only [Function.comp, axisOf] at hab
    rw [if_pos (by omega), if_pos (by omega)] at hab
    omega

/-- If `_ensure_axes` accepts, it returns the meant axes and they are `n` many. -/
theorem ensureAxes_inv {h : AxisHint} {n : Nat} {as : List Int} (e : ensureAxes h n = .ok as) :
    as = resolve h n ∧ (resolve h n).length = n := by
  cases h with
  | none =>
    simp only [ensureAxes, getDefaultAxes] at e
    split_ifs at e
    cases e
    exact ⟨rfl, by simp [resolve]⟩
  | int a =>
    simp only [ensureAxes] at e
    split_ifs at e with h1
    cases e
    refine ⟨rfl, ?_⟩
    simp only [resolve, List.length_singleton]; omega
  | seq l =>
    simp only [ensureAxes, bind, Except.bind] at e
    by_cases h1 : l.length = n
    · rw [if_neg (by simpa using h1)] at e
      unfold checkAxesArgument at e
      by_cases h2 : l.Nodup
      · rw [if_pos h2] at e; cases e; exact ⟨rfl, h1⟩
      · rw [if_neg h2] at e; cases e
    · rw [if_pos h1] at e
      cases e

theorem coeffTreeMap_ofList_err [Zero R] {t : Tensor R} {f : Tensor R → Except Err (Tensor R)} {e : Err}
    {rest : List (Tensor R)} (h : f t = .error e) :
    coeffTreeMap (Coeffs.ofList (t :: rest)) f = .error e := by
  simp only [coeffTreeMap, Coeffs.ofList, List.map_cons, bind, Except.bind, h]

/-- Bad axes are rejected. -/
theorem preprocessCoeffs_err [Zero R] {h : AxisHint} {n : Nat} {x : Tensor R} {rest : List (Tensor R)}
    {ch : Bool} (hg : ¬ GoodAxes h x.rank n) :
    ∃ e, preprocessCoeffs (Coeffs.ofList (x :: rest)) n h ch = .error e := by
  unfold preprocessCoeffs
  split_ifs with h0
  · exact ⟨_, rfl⟩
  · simp only [bind, Except.bind, headTensor_ofList]
    split_ifs with h1
    · exact ⟨_, rfl⟩
    · cases ea : ensureAxes h n with
      | error e => exact ⟨e, rfl⟩
      | ok as =>
        obtain ⟨rfl, hlen⟩ := ensureAxes_inv ea
        have hv : ¬ ValidAxes x.rank (resolve h n) := fun hv => hg ⟨by omega, hlen, hv⟩
        simp only [getDefaultAxes_ok (show 1 ≤ n by omega)]
        by_cases hd : resolve h n = (List.range n).map (fun (k : Nat) => (k : Int) - (n : Int))
        · have hs : preSwap (Coeffs.ofList (x :: rest)) (resolve h n)
              ((List.range n).map (fun (k : Nat) => (k : Int) - (n : Int))) = .ok (Coeffs.ofList (x :: rest)) := by
            unfold preSwap; rw [if_neg (by simpa using hd)]
          have hr : x.rank < n := by
            rcases Nat.lt_or_ge x.rank n with h2 | h2
            · exact h2
            · exact absurd (hd ▸ default_valid h2) hv
          simp only [hs, headTensor_ofList, preFold]
          rw [if_pos (show x.shape.length < n from hr)]
          exact ⟨_, rfl⟩
        · have hs : preSwap (Coeffs.ofList (x :: rest)) (resolve h n)
              ((List.range n).map (fun (k : Nat) => (k : Int) - (n : Int)))
              = .error (if (resolve h n).Nodup then .runtimeError else .valueError) := by
            unfold preSwap; rw [if_pos hd]
            exact coeffTreeMap_ofList_err (swapAxes_err hv)
          simp only [hs]
          exact ⟨_, rfl⟩

theorem preprocessCoeffs_dtype [Zero R] {h : AxisHint} {n : Nat} {c : Coeffs R} {x : Tensor R}
    {ch : Bool} (hh : headTensor c = .ok x) (hdt : isDtypeSupported x.md.dtype = false) :
    preprocessCoeffs c n h ch = .error .valueError := by
  unfold preprocessCoeffs
  split_ifs with h0
  · rfl
  · simp only [bind, Except.bind, hh, hdt, if_true]

theorem preprocessTensor_err [Zero R] {h : AxisHint} {n : Nat} {x : Tensor R} {ch : Bool}
    (hg : ¬ (GoodAxes h x.rank n ∧ isDtypeSupported x.md.dtype = true)) :
    ∃ e, preprocessTensor x n h ch = .error e := by
  unfold preprocessTensor
  by_cases hdt : isDtypeSupported x.md.dtype = true
  · obtain ⟨e, he⟩ := preprocessCoeffs_err (rest := []) (ch := ch) (fun hg' => hg ⟨hg', hdt⟩)
    exact ⟨e, by simp only [bind, Except.bind, he]⟩
  · refine ⟨.valueError, ?_⟩
    simp only [bind, Except.bind, preprocessCoeffs_dtype (headTensor_ofList x [])
      (by simpa using hdt)]

/-! ### Signals that are too short -/

/-- Symmetric padding of an empty signal never returns, whatever the recursion budget. -/
theorem padSymmetric1dFuel_empty [Zero R] : ∀ (fuel : Nat) (t : Tensor R) (l r : Nat), 0 < t.rank →
    t.shape.getD 0 0 = 0 → 0 < l ∨ 0 < r →
    padSymmetric1dFuel fuel t l r = .error .recursionError
  | 0, _, _, _, _, _, _ => rfl
  | fuel + 1, t, l, r, hrk, hn, hlr => by
    unfold padSymmetric1dFuel
    simp only [hn]
    rw [if_pos hlr]
    -- every inner call pads by nothing
    have inner : ∀ (t : Tensor R), 0 < t.rank → t.shape.getD 0 0 = 0 →
        padSymmetric1dFuel fuel t 0 0 = .error .recursionError ∨
        ∃ u, padSymmetric1dFuel fuel t 0 0 = .ok u ∧ 0 < u.rank ∧ u.shape.getD 0 0 = 0 := by
      intro t hrk hn
      cases fuel with
      | zero => left; rfl
      | succ fuel =>
        right
        obtain ⟨u, e, hu⟩ := symBase_ok (t := t) (l := 0) (r := 0) hrk (by omega) (by omega)
        refine ⟨u, ?_, by rw [hu.rank]; exact hrk, ?_⟩
        · unfold padSymmetric1dFuel
          simp only [hn]
          rw [if_neg (by omega)]
          exact e
        · rw [hu.shape, getD_set_self hrk, hn]
    have hL : symGrowLeft (padSymmetric1dFuel fuel) t l 0 = .error .recursionError ∨
        ∃ s, symGrowLeft (padSymmetric1dFuel fuel) t l 0 = .ok (s, l) ∧ 0 < s.rank ∧ s.shape.getD 0 0 = 0 := by
      unfold symGrowLeft
      split_ifs with hl
      · rcases inner t hrk hn with e | ⟨u, e, h1, h2⟩
        · left; simp only [bind, Except.bind, e]
        · right; exact ⟨u, by simp only [bind, Except.bind, e]; rfl, h1, h2⟩
      · right; exact ⟨t, rfl, hrk, hn⟩
    rcases hL with e | ⟨s, e, h1, h2⟩
    · simp only [bind, Except.bind, e]
    · have hR : symGrowRight (padSymmetric1dFuel fuel) s r 0 = .error .recursionError ∨
          ∃ s', symGrowRight (padSymmetric1dFuel fuel) s r 0 = .ok (s', r) ∧ 0 < s'.rank ∧
            s'.shape.getD 0 0 = 0 := by
        unfold symGrowRight
        split_ifs with hl
        · rcases inner s h1 h2 with e | ⟨u, e, h1, h2⟩
          · left; simp only [bind, Except.bind, e]
          · right; exact ⟨u, by simp only [bind, Except.bind, e]; rfl, h1, h2⟩
        · right; exact ⟨s, rfl, h1, h2⟩
      rcases hR with e' | ⟨s', e', h3, h4⟩
      · simp only [bind, Except.bind, e, e']
      · simp only [bind, Except.bind, e, e']
        exact padSymmetric1dFuel_empty fuel s' l r h3 h4 hlr

theorem conv1d_short [NonUnitalNonAssocSemiring R] {p filt : Tensor R} {B C O C' N F : Nat}
    (hp : p.shape = [B, C, N]) (hf : filt.shape = [O, C', F]) (h : N < F) :
    conv1d p filt 2 1 = .error .runtimeError := by
  unfold conv1d
  rw [hp, hf]
  exact if_neg (by rintro ⟨-, -, -, h1, -⟩; omega)

/-- What kind of failure a too short signal causes. -/
def shortErr (m : Mode) (F : Nat) : Err :=
  if m = .symmetric ∧ 2 < F then .recursionError else .runtimeError

/-- One analysis step fails on a signal too short for the mode. -/
theorem analysisStep_err [NonUnitalNonAssocSemiring R] {m : Mode} {w : Wavelet R} {t filt : Tensor R}
    {B n : Nat} (hF : 2 ≤ w.len) (hs : t.shape = [B, 1, n]) (hfs : filt.shape = [2, 1, w.len])
    (ha : ¬ m.Admits w.len n) :
    (fwtPad t w (some m.name) 1 >>= fun p => conv1d p filt 2 1) = .error (shortErr m w.len) := by
  have hz : t.sizeFromEnd 1 = n := by unfold Tensor.sizeFromEnd; rw [hs]; rfl
  have hr : t.rank = 3 := by unfold Tensor.rank; rw [hs]; rfl
  have hn2 : t.shape.getD 2 0 = n := by rw [hs]; rfl
  have hpp : padPairs t w.len 1 = [(w.len - 2, w.len - 2 + n % 2)] := by
    simp [padPairs, hz]
  have torchErr : ∀ pm, extMode m = .torch pm → ¬ padFits pm n (w.len - 2) (w.len - 2 + n % 2) →
      fwtPad t w (some m.name) 1 = .error .runtimeError := by
    intro pm h1 h2
    unfold fwtPad fwtPadWith
    simp only [bind, Except.bind, translate_name, h1, getPaddingN_eq hF, hpp, List.flatMap_cons,
      List.flatMap_nil, List.append_nil]
    unfold Tensor.pad
    simp only [padLast, bind, Except.bind, hr]
    rw [padAxis_error (by show ¬ padFits pm (t.shape.getD 2 0) _ _; rw [hn2]; exact h2)]
  have convErr : PadOk m w.len n → w.len + n + n % 2 < 4 →
      (fwtPad t w (some m.name) 1 >>= fun p => conv1d p filt 2 1) = .error .runtimeError := by
    intro h1 h2
    obtain ⟨p, e, hp⟩ := fwtPad1_ok m hF hs h1
    simp only [bind, Except.bind, e]
    refine conv1d_short (B := B) (C := 1) (N := w.len - 2 + n + (w.len - 2 + n % 2)) ?_ hfs (by omega)
    rw [hp.shape, hn2, hs]; rfl
  cases m with
  | zero =>
    simp only [Mode.Admits] at ha
    exact convErr trivial (by omega)
  | constant =>
    simp only [Mode.Admits] at ha
    simp only [torchErr .replicate rfl ha, bind, Except.bind]; rfl
  | reflect =>
    simp only [Mode.Admits] at ha
    rw [torchErr .reflect rfl (by simp only [padFits]; omega)]; rfl
  | periodic =>
    simp only [Mode.Admits] at ha
    by_cases hfit : w.len - 2 + n % 2 ≤ n
    · exact convErr hfit (by omega)
    · rw [torchErr .circular rfl (by simp only [padFits]; omega)]; rfl
  | symmetric =>
    simp only [Mode.Admits] at ha
    obtain rfl : n = 0 := by omega
    have hts : (t.transpose 0 2).shape = [0, 1, B] := by
      show swl 0 2 t.shape = _
      rw [hs]; rfl
    have e0 : fwtPad t w (some Mode.symmetric.name) 1
        = (padSymmetric1d (t.transpose 0 2) (w.len - 2) (w.len - 2)).bind
            fun s => .ok (s.transpose 2 0) := by
      unfold fwtPad fwtPadWith
      simp only [bind, Except.bind, translate_name, extMode, getPaddingN_eq hF, hpp,
        groupForSymmetric, grouper2_flatMap]
      unfold padSymmetric
      rw [if_neg (by rw [hr]; simp), hr]
      simp only [List.reverse_singleton, padSymmetricLoop, bind, Except.bind, Nat.zero_mod,
        Nat.add_zero]
    by_cases hF2 : 2 < w.len
    · rw [e0]
      unfold padSymmetric1d
      rw [padSymmetric1dFuel_empty _ _ _ _ (by unfold Tensor.rank; rw [hts]; simp)
        (by rw [hts]; rfl) (by omega)]
      simp only [bind, Except.bind, shortErr]
      rw [if_pos ⟨trivial, hF2⟩]
    · have hF2' : w.len = 2 := by omega
      obtain ⟨u, e, hu⟩ := symBase_ok (t := t.transpose 0 2) (l := 0) (r := 0)
        (by unfold Tensor.rank; rw [hts]; simp) (by omega) (by omega)
      have eu : padSymmetric1d (t.transpose 0 2) 0 0 = .ok u := by
        unfold padSymmetric1d padSymmetric1dFuel
        simp only [Nat.not_lt_zero, or_self, gt_iff_lt, if_false]
        exact e
      have hu' := hu.transpose (by rw [hr]; omega)
      rw [e0, hF2']
      simp only [Nat.sub_self, eu, Except.bind, bind]
      rw [conv1d_short (B := B) (C := 1) (N := 0) _ hfs (by omega)]
      · simp [shortErr]
      · rw [hu'.shape, hn2, hs]; rfl

/-- The loop of `wavedec` fails at the first level which does not admit the mode. -/
theorem wavedecLoop_err [NonUnitalNonAssocSemiring R] {m : Mode} {w : Wavelet R} {filt : Tensor R}
    {md : Meta} {B : Nat} (hF : 2 ≤ w.len) (hhi : w.decHi.length = w.len)
    (hfm : filt.md = md) (hfs : filt.shape = [2, 1, w.len])
    (hfg : ∀ o j, o < 2 → j < w.len →
      filt.get [o, 0, j] = (if o = 0 then w.decLo else w.decHi).getD (w.len - 1 - j) 0) :
    ∀ (L : Nat) {n : Nat} {t : Tensor R} {X : Nat → Nat → R}, ShowsCh t md B n X →
      (∃ s, s < L ∧ ¬ m.Admits w.len (levelLen w.len n s)) →
      wavedecLoop w (some m.name) filt L t = .error (shortErr m w.len)
  | 0, _, _, _, _, ⟨s, hs, _⟩ => by omega
  | L + 1, n, t, X, ht, ⟨s, hs, ha⟩ => by
    by_cases h0 : m.Admits w.len n
    · obtain ⟨p, res, lo, hi, ep, er, es, hlo, _⟩ :=
        wavedecLoop_step hF hhi hfm hfs hfg ht h0
      have ih := wavedecLoop_err hF hhi hfm hfs hfg L hlo (by
        cases s with
        | zero => exact absurd h0 ha
        | succ s => exact ⟨s, by omega, by rw [levelLen_shift]; exact ha⟩)
      unfold wavedecLoop
      simp only [bind, Except.bind, ep, er, es, ih]
    · have := analysisStep_err hF ht.shape hfs h0
      unfold wavedecLoop
      cases ep : fwtPad t w (some m.name) 1 with
      | error e =>
        rw [ep] at this
        simp only [bind, Except.bind] at this ⊢
        rw [Except.error.inj this]
      | ok p =>
        rw [ep] at this
        simp only [bind, Except.bind] at this ⊢
        rw [this]

end Verif
