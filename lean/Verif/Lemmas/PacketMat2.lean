import Verif.Lemmas.Packet2Pad
import Verif.Lemmas.PacketMatFun
import Verif.Props.MatN

/-! The two-dimensional packet object with boundary matrices: the cached transform objects leave no
trace. -/

namespace Verif
open Tensor Spec Props
variable {R : Type}

section
variable [Field R] [DecidableEq R] {la : LinAlg R} {w : Wavelet R} {orth : String} {axes : List Int} {md : Meta}
  {sep : Bool}

/-! ### The cached objects -/

/-- With one level, a failed construction leaves no matrix behind. -/
theorem decPrepareN_inv1 {cfg : DecCfgN R} {st : DecStateN R} (h : DecInvN la cfg md 1 st) (ns : List Nat) :
    decPrepareN la cfg md ns st = decBuildN la cfg md 1 ns ⟨some 1, some ns, [], [], false, []⟩ ∧
    DecInvN la cfg md 1 (decPrepareN la cfg md ns st).2 := by
  have key : decPrepareN la cfg md ns st = decBuildN la cfg md 1 ns ⟨some 1, some ns, [], [], false, []⟩ := by
    obtain ⟨h1, h2⟩ := h
    unfold decPrepareN
    simp only [h1]
    rw [if_neg (by omega)]
    unfold decEnsureN
    simp only
    rcases h2 with h2 | ⟨n', h2, h3⟩
    · rw [if_pos (Or.inl (by rw [h2]; rfl))]
      exact decBuildN_congr rfl rfl
    · by_cases hn : n' = ns
      · subst hn
        by_cases hm : st.mats.isEmpty = true
        · rw [if_pos (Or.inl hm)]
          exact decBuildN_congr rfl rfl
        · rw [if_neg (by rw [h2]; simp only [ne_eq, not_true_eq_false, decide_false]; push Not; exact ⟨hm, by simp⟩)]
          rw [show ({ st with level := some 1, shape := some n' } : DecStateN R) = st by
            obtain ⟨a, b, c, d, e, f⟩ := st; simp only at h1 h2; subst h1 h2; rfl]
          rw [← h3]
          exact decBuildN_congr (by rw [h1]) (by rw [h2])
      · rw [if_pos (Or.inr (by rw [h2]; simpa using hn))]
        exact decBuildN_congr rfl rfl
  refine ⟨key, ?_⟩
  rw [key]
  have k1 := decBuildLoopN_keeps (la := la) (cfg := cfg) (md := md) 1 ns
    ({level := some 1, shape := some ns, mats := [], padList := [], padded := false, sizeList := []} : DecStateN R)
  have hcase : (decBuildN la cfg md 1 ns ⟨some 1, some ns, [], [], false, []⟩).2.mats = [] ∨
      (decBuildN la cfg md 1 ns ⟨some 1, some ns, [], [], false, []⟩).1 = .ok () := by
    unfold decBuildN
    show (decBuildLoopN la cfg md 1 ns _).2.mats = [] ∨ (decBuildLoopN la cfg md 1 ns _).1 = _
    unfold decBuildLoopN
    by_cases hc : ∃ n ∈ ns, n < cfg.wavelet.decLo.length
    · rw [if_pos hc]; exact Or.inr rfl
    · rw [if_neg hc]
      simp only
      cases levelMatsA la cfg md (matrixPadSizes ns) with
      | error e => exact Or.inl rfl
      | ok A => exact Or.inr rfl
  refine ⟨k1.1, ?_⟩
  rcases hcase with hc | hc
  · exact Or.inl hc
  · refine Or.inr ⟨ns, k1.2, ?_⟩
    refine (decBuildN_congr (t := ⟨some 1, some ns, [], [], false, []⟩) k1.1 k1.2).trans ?_
    exact Prod.ext hc rfl

theorem recPrepareN_inv1 {cfg : RecCfgN R} {st : RecStateN R} (h : RecInvN la cfg md st) {L : Nat} (hL : L ≤ 1)
    (ns : List Nat) :
    recPrepareN la cfg md L ns st = recBuildLoopN la cfg md L ns ⟨some L, some ns, [], false⟩ ∧
    RecInvN la cfg md (recPrepareN la cfg md L ns st).2 := by
  have key : recPrepareN la cfg md L ns st = recBuildLoopN la cfg md L ns ⟨some L, some ns, [], false⟩ := by
    unfold recPrepareN
    by_cases hc : st.mats.isEmpty = true ∨ st.level ≠ some L ∨ st.shape ≠ some ns
    · rw [if_pos hc]
    · rw [if_neg hc]
      push Not at hc
      obtain ⟨h0, h1, h2⟩ := hc
      rcases h with h | ⟨L', n', h⟩
      · rw [h] at h0; exact absurd rfl h0
      · have k := recBuildLoopN_keeps (la := la) (cfg := cfg) (md := md) L' n' ⟨some L', some n', [], false⟩
        rw [h] at k
        obtain ⟨k1, k2⟩ := k
        simp only at k1 k2
        rw [h1] at k1
        rw [h2] at k2
        cases k1
        cases k2
        exact h.symm
  refine ⟨key, ?_⟩
  rw [key]
  have hcase : (recBuildLoopN la cfg md L ns ⟨some L, some ns, [], false⟩).2.mats = [] ∨
      (recBuildLoopN la cfg md L ns ⟨some L, some ns, [], false⟩).1 = .ok () := by
    match L, hL with
    | 0, _ => exact Or.inr rfl
    | 1, _ =>
      unfold recBuildLoopN
      by_cases hc : ∃ n ∈ ns, n < cfg.wavelet.recLo.length
      · rw [if_pos hc]; exact Or.inr rfl
      · rw [if_neg hc]
        simp only
        cases levelMatsS la cfg md (matrixPadSizes ns) with
        | error e => exact Or.inl rfl
        | ok A => exact Or.inr rfl
  rcases hcase with hc | hc
  · exact Or.inl hc
  · exact Or.inr ⟨L, ns, Prod.ext hc rfl⟩

theorem preprocessTensor_md {x : Tensor R} {p : Tensor R × List Nat} {n : Nat} {ah : AxisHint}
    (e : preprocessTensor x n ah false = .ok p) : p.1.md = x.md := by
  by_cases hg : GoodAxes ah x.rank n ∧ isDtypeSupported x.md.dtype = true
  · obtain ⟨y, ey, hy⟩ := preprocessTensor_ok hg.1 hg.2
    rw [e] at ey
    cases ey
    exact hy.showsN.md
  · obtain ⟨e', he⟩ := preprocessTensor_err (ch := false) hg
    rw [e] at he
    cases he

theorem decCallN_inv1 {n : Nat} {cfg : DecCfgN R} {s t : DecStateN R} (hs : DecInvN la cfg md 1 s)
    (ht : DecInvN la cfg md 1 t) {x : Tensor R} (hx : x.md = md) :
    (decCallN n la cfg s x).1 = (decCallN n la cfg t x).1 ∧ DecInvN la cfg md 1 (decCallN n la cfg s x).2 := by
  unfold decCallN
  cases e : preprocessTensor x n (.seq cfg.axes) false with
  | error e' => exact ⟨rfl, hs⟩
  | ok p =>
    have hmd : p.1.md = md := by rw [← hx]; exact preprocessTensor_md e
    simp only [hmd]
    obtain ⟨k1, k2⟩ := decPrepareN_inv1 hs p.1.shape.tail
    obtain ⟨k3, _⟩ := decPrepareN_inv1 ht p.1.shape.tail
    rw [k3, ← k1]
    cases hr : decPrepareN la cfg md p.1.shape.tail s with
    | mk r st =>
      rw [hr] at k2
      cases r with
      | error e => exact ⟨rfl, k2⟩
      | ok u => exact ⟨rfl, k2⟩

theorem recInputN_length {n : Nat} {cfg : RecCfgN R} {c c' : Coeffs R} {ds s : List Nat} {md : Meta}
    (e : recInputN n cfg c = .ok (c', ds, md, s)) : c'.items.length = c.items.length := by
  unfold recInputN at e
  obtain ⟨p, e1, e⟩ := bind_ok_inv e
  obtain ⟨m', e2, e⟩ := bind_ok_inv e
  obtain ⟨s', e3, e⟩ := bind_ok_inv e
  cases e
  exact preprocessCoeffs_length e1

theorem recCallN_inv1 {n : Nat} (hn : n = 2 ∨ n = 3) {cfg : RecCfgN R} {s t : RecStateN R} (hs : RecInvN la cfg md s)
    (ht : RecInvN la cfg md t) {c : Coeffs R} (hl : c.items.length ≤ 2)
    (hx : ∀ a rest, c.items = .tensor a :: rest → a.md = md) :
    (recCallN n la cfg s c).1 = (recCallN n la cfg t c).1 ∧ RecInvN la cfg md (recCallN n la cfg s c).2 := by
  unfold recCallN
  cases e : recInputN n cfg c with
  | error e' => exact ⟨rfl, hs⟩
  | ok p =>
    obtain ⟨c', ds, md', s'⟩ := p
    obtain ⟨⟨a, rest, hc, hmd⟩, hlen⟩ := recInputN_inv hn e
    rw [hx a rest hc] at hmd
    subst hmd
    have hL : c'.items.length - 1 ≤ 1 := by rw [recInputN_length e]; omega
    simp only
    obtain ⟨k1, k2⟩ := recPrepareN_inv1 hs hL s'
    obtain ⟨k3, _⟩ := recPrepareN_inv1 ht hL s'
    rw [k3, ← k1]
    cases hr : recPrepareN la cfg md' (c'.items.length - 1) s' s with
    | mk r st =>
      rw [hr] at k2
      cases r with
      | error e => exact ⟨rfl, k2⟩
      | ok u => exact ⟨rfl, k2⟩

/-! ### Dtype and device -/

theorem padLast_constant_md : ∀ {p : List Nat} {t u : Tensor R} {k : Nat}, padLast .constant t p k = .ok u → u.md = t.md
  | [], t, u, k, h => by cases h; rfl
  | [_], t, u, k, h => by cases h
  | l :: r :: rest, t, u, k, h => by
    unfold padLast at h
    obtain ⟨t', e, h⟩ := bind_ok_inv h
    rw [padLast_constant_md h]
    unfold padAxis at e
    cases e
    rfl

theorem addPadding2_md {ps : List Bool} {t u : Tensor R} (h : addPadding2 (some "zero") t ps = .ok u) : u.md = t.md := by
  unfold addPadding2 at h
  split_ifs at h
  · unfold fwtPadWith at h
    obtain ⟨m, e, h⟩ := bind_ok_inv h
    have : m = .torch .constant := by
      have : translateBoundaryStrings (some "zero") = .ok (.torch .constant) := by decide
      rw [this] at e
      cases e
      rfl
    subst this
    exact padLast_constant_md h
  · cases h; rfl

theorem reshapeInfer_md {t u : Tensor R} {a b : List Nat} (h : t.reshapeInfer a b = .ok u) : u.md = t.md := by
  unfold Tensor.reshapeInfer at h
  split_ifs at h <;> first | exact reshape_md h | cases h

theorem batchMm_md {A : Coo R} {t u : Tensor R} (h : batchMm A t = .ok u) : u.md = t.md := by
  unfold batchMm at h
  by_cases h1 : t.rank < 2
  · rw [if_pos h1] at h; cases h
  by_cases h2 : A.cols ≠ t.shape.getD 1 0
  · rw [if_neg h1, if_pos h2] at h; cases h
  rw [if_neg h1, if_neg h2] at h
  obtain ⟨v, e1, h⟩ := bind_ok_inv h
  obtain ⟨y, e2, h⟩ := bind_ok_inv h
  obtain ⟨z, e3, h⟩ := bind_ok_inv h
  cases h
  show z.md = _
  rw [reshapeInfer_md e3, mmDense_md e2, reshapeInfer_md e1]
  rfl

theorem splitTwo_md {t : Tensor R} {a k : Nat} {p : Tensor R × Tensor R} (h : splitTwo t a k = .ok p) :
    p.1.md = t.md ∧ p.2.md = t.md := by
  unfold splitTwo at h
  simp only at h
  split_ifs at h
  cases h
  exact ⟨rfl, rfl⟩

theorem mat2Step_md {mats : List (Coo R)} {ps : List Bool} {s : List Nat} {t : Tensor R} {q : Tensor R × Entry R}
    (h : mat2Step (some "zero") mats ps s t = .ok q) : q.1.md = t.md ∧ q.2.All fun u => u.md = t.md := by
  unfold mat2Step at h
  split at h
  · obtain ⟨l, e1, h⟩ := bind_ok_inv h
    obtain ⟨c, e2, h⟩ := bind_ok_inv h
    obtain ⟨r, e3, h⟩ := bind_ok_inv h
    obtain ⟨ad, e4, h⟩ := bind_ok_inv h
    obtain ⟨a, e5, h⟩ := bind_ok_inv h
    obtain ⟨d, e6, h⟩ := bind_ok_inv h
    cases h
    have m1 := addPadding2_md e1
    have m2 : c.md = l.md := (batchMm_md e2).trans rfl
    have m3 : r.md = c.md := (batchMm_md e3).trans rfl
    obtain ⟨m4, m5⟩ := splitTwo_md e4
    obtain ⟨m6, m7⟩ := splitTwo_md e5
    obtain ⟨m8, m9⟩ := splitTwo_md e6
    have hr : r.md = t.md := by rw [m3, m2, m1]
    exact ⟨(m6.trans m4).trans hr, (m7.trans m4).trans hr, (m8.trans m5).trans hr, (m9.trans m5).trans hr⟩
  · cases h

theorem flatCols_md {t u : Tensor R} {B : Nat} (h : flatCols t B = .ok u) : u.md = t.md := by
  unfold flatCols at h
  exact (reshapeInfer_md h).trans rfl

theorem unflatCols_md {t u : Tensor R} {B p q : Nat} (h : unflatCols t B p q = .ok u) : u.md = t.md := by
  unfold unflatCols at h
  obtain ⟨v, e, h⟩ := bind_ok_inv h
  cases h
  show v.md = _
  rw [reshape_md e]
  rfl

theorem nonsepPad_md {ps : List Bool} {s : List Nat} {B : Nat} {t u : Tensor R}
    (h : nonsepPad (some "zero") ps s B t = .ok u) : u.md = t.md := by
  unfold nonsepPad at h
  by_cases hp : ps.any id = true
  · rw [if_pos hp] at h
    obtain ⟨a, e1, h⟩ := bind_ok_inv h
    obtain ⟨b, e2, h⟩ := bind_ok_inv h
    obtain ⟨f, e3, h⟩ := bind_ok_inv h
    cases h
    show f.md = _
    rw [flatCols_md e3, addPadding2_md e2, unflatCols_md e1]
  · rw [if_neg hp] at h
    cases h; rfl

theorem splitRows_md {t : Tensor R} {k : Nat} {l : List (Tensor R)} (h : splitRows t k = .ok l) :
    ∀ u ∈ l, u.md = t.md := by
  unfold splitRows at h
  simp only at h
  split_ifs at h
  · cases h; simp
  · cases h
    intro u hu
    rw [List.mem_map] at hu
    obtain ⟨_, _, rfl⟩ := hu
    rfl

theorem mat2NonsepStep_md {B : Nat} {mats : List (Coo R)} {ps : List Bool} {s : List Nat} {t : Tensor R}
    {q : Tensor R × Entry R} (h : mat2NonsepStep (some "zero") B mats ps s t = .ok q) :
    q.1.md = t.md ∧ q.2.All fun u => u.md = t.md := by
  unfold mat2NonsepStep at h
  split at h
  · obtain ⟨l, e1, h⟩ := bind_ok_inv h
    obtain ⟨c, e2, h⟩ := bind_ok_inv h
    obtain ⟨r, e3, h⟩ := bind_ok_inv h
    have hr : ∀ u ∈ r, u.md = t.md := by
      intro u hu
      rw [splitRows_md e3 u hu, mmDense_md e2, nonsepPad_md e1]
    split at h
    · obtain ⟨a, e4, h⟩ := bind_ok_inv h
      obtain ⟨b, e5, h⟩ := bind_ok_inv h
      obtain ⟨d, e6, h⟩ := bind_ok_inv h
      cases h
      refine ⟨hr _ (by simp), ?_, ?_, ?_⟩
      · exact (unflatCols_md e4).trans (hr _ (by simp))
      · exact (unflatCols_md e5).trans (hr _ (by simp))
      · exact (unflatCols_md e6).trans (hr _ (by simp))
    · cases h
  · cases h

theorem matLoopN_md {step : List (Coo R) → List Bool → List Nat → Tensor R → Except Err (Tensor R × Entry R)}
    (hstep : ∀ {m p s t q}, step m p s t = .ok q → q.1.md = t.md ∧ q.2.All fun u => u.md = t.md) :
    ∀ (ms : List (List (Coo R))) (ps : List (List Bool)) (ss : List (List Nat)) (t : Tensor R)
      (r : Tensor R × List (Entry R)), matLoopN step ms ps ss t = .ok r →
      r.1.md = t.md ∧ ∀ e ∈ r.2, e.All fun u => u.md = t.md
  | [], _, _, t, r, h => by
    unfold matLoopN at h
    cases h; exact ⟨rfl, by simp⟩
  | m :: ms, p :: ps, s :: ss, t, r, h => by
    unfold matLoopN at h
    obtain ⟨q, e1, h⟩ := bind_ok_inv h
    obtain ⟨r', e2, h⟩ := bind_ok_inv h
    cases h
    obtain ⟨h1, h2⟩ := hstep e1
    obtain ⟨h3, h4⟩ := matLoopN_md hstep ms ps ss q.1 r' e2
    rw [h1] at h3 h4
    refine ⟨h3, ?_⟩
    intro e he
    rcases List.mem_cons.mp he with rfl | he
    · exact h2
    · exact h4 e he
  | _ :: _, [], _, _, _, h => by cases h
  | _ :: _, _ :: _, [], _, _, h => by cases h

theorem decCallN2_md {cfg : DecCfgN R} (hz : cfg.oddMode = some "zero") {st : DecStateN R} {x : Tensor R} {c : Coeffs R}
    (h : (decCallN 2 la cfg st x).1 = .ok c) : c.All fun t => t.md = x.md := by
  unfold decCallN at h
  cases e : preprocessTensor x 2 (.seq cfg.axes) false with
  | error e' => rw [e] at h; cases h
  | ok p =>
    have hmd := preprocessTensor_md e
    rw [e] at h
    simp only at h
    cases hr : decPrepareN la cfg p.1.md p.1.shape.tail st with
    | mk r st' =>
      rw [hr] at h
      cases r with
      | error e => cases h
      | ok u =>
        simp only at h
        unfold decApplyN at h
        rw [hz] at h
        simp only [show ¬ (2 : Nat) = 3 by omega, if_false] at h
        obtain ⟨q, this, h⟩ : ∃ q : Tensor R × List (Entry R),
            (q.1.md = p.1.md ∧ ∀ e ∈ q.2, e.All fun u => u.md = p.1.md) ∧
            postprocessCoeffs ⟨false, .tensor q.1 :: q.2.reverse⟩ 2 p.2 (.seq cfg.axes) = .ok c := by
          by_cases hs : cfg.separable = true
          · rw [if_pos hs] at h
            obtain ⟨q, e1, h⟩ := bind_ok_inv h
            exact ⟨q, matLoopN_md mat2Step_md _ _ _ _ _ e1, h⟩
          · rw [if_neg hs] at h
            obtain ⟨q, e1, h⟩ := bind_ok_inv h
            refine ⟨q, ?_, h⟩
            unfold mat2Nonsep at e1
            simp only at e1
            obtain ⟨f, e2, e1⟩ := bind_ok_inv e1
            obtain ⟨r, e3, e1⟩ := bind_ok_inv e1
            obtain ⟨i1, i2⟩ := matLoopN_md mat2NonsepStep_md _ _ _ _ _ e3
            have hf : f.matT.md = p.1.md := (show f.matT.md = f.md from rfl).trans (flatCols_md e2)
            rw [hf] at i1 i2
            split at e1
            · obtain ⟨l, e4, e1⟩ := bind_ok_inv e1
              cases e1
              exact ⟨by rw [← i1]; exact unflatCols_md e4, i2⟩
            · cases e1
        refine postprocessCoeffs_md ?_ h
        intro e he
        rcases List.mem_cons.mp he with rfl | he
        · exact this.1.trans hmd
        · rw [← hmd]
          exact this.2 e (List.mem_reverse.mp he)

theorem firstRef2_crop_md {pred : List Nat} {ll r : Tensor R} {rest : List (Entry R)} (h : rec2Crop pred ll rest = .ok r) :
    r.md = ll.md := by
  unfold rec2Crop at h
  split at h
  · cases h; rfl
  · obtain ⟨t, _, h⟩ := bind_ok_inv h
    cases h
    split_ifs <;> rfl

theorem rec2Mul_md {mats : List (Coo R)} {ll lh hl hh t : Tensor R} (h : rec2Mul mats ll lh hl hh = .ok t) :
    t.md = ll.md := by
  unfold rec2Mul at h
  split at h
  · obtain ⟨a, f1, h⟩ := bind_ok_inv h
    obtain ⟨d, f2, h⟩ := bind_ok_inv h
    obtain ⟨c, f3, h⟩ := bind_ok_inv h
    obtain ⟨u, f4, h⟩ := bind_ok_inv h
    have h1 : t.md = u.md := (batchMm_md h).trans rfl
    have h2 : u.md = c.md := (batchMm_md f4).trans rfl
    rw [h1, h2, cat2_md f3, cat2_md f1]
  · cases h

theorem rec2MulNonsep_md {mats : List (Coo R)} {B : Nat} {ll lh hl hh t : Tensor R}
    (h : rec2MulNonsep mats B ll lh hl hh = .ok t) : t.md = ll.md := by
  unfold rec2MulNonsep at h
  split at h
  · simp only at h
    obtain ⟨a, f1, h⟩ := bind_ok_inv h
    obtain ⟨b, f2, h⟩ := bind_ok_inv h
    obtain ⟨c, f3, h⟩ := bind_ok_inv h
    obtain ⟨d, f4, h⟩ := bind_ok_inv h
    obtain ⟨ab, f5, h⟩ := bind_ok_inv h
    obtain ⟨abc, f6, h⟩ := bind_ok_inv h
    obtain ⟨u, f7, h⟩ := bind_ok_inv h
    obtain ⟨v, f8, h⟩ := bind_ok_inv h
    have h1 : v.md = u.md := (mmDense_md f8).trans rfl
    rw [unflatCols_md h, h1, cat2_md f7, cat2_md f6, cat2_md f5, flatCols_md f1]
  · cases h

theorem mrec2Step_md {B : Nat} {mats : Option (List (Coo R))} {ll r : Tensor R} {e : Entry R} {rest : List (Entry R)}
    (h : mrec2Step sep B mats ll e rest = .ok r) : r.md = ll.md := by
  unfold mrec2Step at h
  split at h
  · rename_i lh hl hh
    by_cases hc : lh.shape = ll.shape ∧ hl.shape = ll.shape ∧ hh.shape = ll.shape
    · rw [if_pos hc] at h
      split at h
      · cases h
      · simp only at h
        cases sep with
        | true =>
          obtain ⟨t, e1, h⟩ := bind_ok_inv h
          rw [firstRef2_crop_md h, rec2Mul_md e1]
        | false =>
          obtain ⟨t, e1, h⟩ := bind_ok_inv h
          rw [firstRef2_crop_md h, rec2MulNonsep_md e1]
    · rw [if_neg hc] at h
      cases h
  · cases h

theorem mrec2Loop_md {B : Nat} : ∀ (es : List (Entry R)) (ms : List (List (Coo R))) (ll r : Tensor R),
    mrec2Loop sep B ms ll es = .ok r → r.md = ll.md
  | [], ms, ll, r, h => by
    unfold mrec2Loop at h
    cases h; rfl
  | e :: es, ms, ll, r, h => by
    unfold mrec2Loop at h
    obtain ⟨t, e1, h⟩ := bind_ok_inv h
    rw [mrec2Loop_md es _ _ _ h, mrec2Step_md e1]

theorem recCallN2_md {cfg : RecCfgN R} {st : RecStateN R} {c : Coeffs R} {r : Tensor R}
    (hc : c.All fun t => t.md = md) (h : (recCallN 2 la cfg st c).1 = .ok r) : r.md = md := by
  unfold recCallN at h
  cases e : recInputN 2 cfg c with
  | error e' => rw [e] at h; cases h
  | ok p =>
    obtain ⟨c', ds, md', s⟩ := p
    have hc' : c'.All fun t => t.md = md := by
      unfold recInputN at e
      obtain ⟨p, e1, e⟩ := bind_ok_inv e
      obtain ⟨m, e2, e⟩ := bind_ok_inv e
      obtain ⟨s', e3, e⟩ := bind_ok_inv e
      cases e
      exact preprocessCoeffs_md hc e1
    rw [e] at h
    simp only at h
    cases hr : recPrepareN la cfg md' (c'.items.length - 1) s st with
    | mk q st' =>
      rw [hr] at h
      cases q with
      | error e => cases h
      | ok u =>
        simp only at h
        unfold recApplyN at h
        obtain ⟨ll, e1, h⟩ := bind_ok_inv h
        rw [if_neg (by omega)] at h
        obtain ⟨z, e2, h⟩ := bind_ok_inv h
        rw [postprocessTensor_md h, mrec2Loop_md _ _ _ _ e2]
        exact headTensor_all hc' e1

theorem cutDim_md {k : Nat} {r old z : Tensor R} (h : cutDim k r old = .ok z) : z.md = r.md := by
  unfold cutDim at h
  split_ifs at h <;> (cases h; rfl)

theorem fit2_md {r old z : Tensor R} (h : fit2 axes r old = .ok z) : z.md = r.md := by
  unfold fit2 at h
  obtain ⟨a, e1, h⟩ := bind_ok_inv h
  obtain ⟨b, e2, h⟩ := bind_ok_inv h
  obtain ⟨c, e3, h⟩ := bind_ok_inv h
  obtain ⟨d, e4, h⟩ := bind_ok_inv h
  rw [undoSwapAxes_md h, cutDim_md e4, cutDim_md e3, swapAxes_md e1]

/-! ### The backend is pure on tensors of one dtype and device -/

/-- One analysis step, by a new object. -/
def matDec2 (la : LinAlg R) (w : Wavelet R) (orth : String) (axes : List Int) (sep : Bool) (t : Tensor R) :
    Except Err (List (Tensor R)) :=
  match planeSizes axes t with
  | .error e => .error e
  | .ok _ =>
    Except.bind (match decInitN 2 w (some 1) (.seq axes) orth sep (some "zero") with
      | .error e => .error e
      | .ok s => (decObj2 la s t).1) unpack2

/-- One synthesis step, by a new object. -/
def matSyn2 (la : LinAlg R) (w : Wavelet R) (orth : String) (axes : List Int) (sep : Bool) (ts : List (Tensor R)) :
    Except Err (Tensor R) :=
  match ts with
  | [a, h, v, d] =>
    match planeSizes axes a with
    | .error e => .error e
    | .ok _ =>
      match recInitN 2 w (.seq axes) orth sep with
      | .error e => .error e
      | .ok s => (recObj2 la s ⟨false, [.tensor a, .tuple h v d]⟩).1
  | _ => .error .valueError

/-- What all cached objects satisfy. -/
def MatInv2 (la : LinAlg R) (w : Wavelet R) (orth : String) (axes : List Int) (sep : Bool) (md : Meta) (c : MatCache2 R) :
    Prop :=
  (∀ k s, c.decs k = some s → ∃ st0, decInitN 2 w (some 1) (.seq axes) orth sep (some "zero") = .ok (s.1, st0) ∧
    DecInvN la s.1 md 1 s.2) ∧
  ∀ k s, c.recs k = some s → ∃ st0, recInitN 2 w (.seq axes) orth sep = .ok (s.1, st0) ∧ RecInvN la s.1 md s.2

theorem matInv2_empty : MatInv2 la w orth axes sep md MatCache2.empty := by
  constructor
  · intro k s h; cases h
  · intro k s h; cases h

theorem packetMatDec2_pure {c : MatCache2 R} (hc : MatInv2 la w orth axes sep md c) {t : Tensor R} (ht : t.md = md) :
    (packetMatDec2 la w orth axes sep c t).1 = matDec2 la w orth axes sep t ∧
    MatInv2 la w orth axes sep md (packetMatDec2 la w orth axes sep c t).2 := by
  unfold packetMatDec2 matDec2
  cases planeSizes axes t with
  | error e => exact ⟨rfl, hc⟩
  | ok n =>
    simp only
    obtain ⟨h1, h2⟩ := callKeyed_pure (K := List Nat)
      (mk := decInitN 2 w (some 1) (.seq axes) orth sep (some "zero")) (call := decObj2 la)
      (I := fun s => ∃ st0, decInitN 2 w (some 1) (.seq axes) orth sep (some "zero") = .ok (s.1, st0) ∧
        DecInvN la s.1 md 1 s.2)
      (A := fun t => t.md = md)
      (f := fun t => match decInitN 2 w (some 1) (.seq axes) orth sep (some "zero") with
        | .error e => .error e
        | .ok s => (decObj2 la s t).1)
      (by
        intro s hs
        refine ⟨s.2, hs, ?_⟩
        rw [(decInitN_inv (cfg := s.1) (st := s.2) hs).2.2.2]
        exact ⟨rfl, Or.inl rfl⟩)
      (by
        intro e he
        refine ⟨?_, fun a => by rw [he]⟩
        rintro s ⟨st0, h, _⟩
        rw [he] at h; cases h)
      (by
        rintro s a ⟨st0, h, hI⟩ ha
        have h0 : DecInvN la s.1 md 1 st0 := by
          have : st0 = _ := (decInitN_inv h).2.2.2
          rw [this]
          exact ⟨rfl, Or.inl rfl⟩
        obtain ⟨k1, k2⟩ := decCallN_inv1 (n := 2) hI h0 ha
        rw [h]
        exact ⟨k1, st0, rfl, k2⟩) hc.1 n ht
    exact ⟨by rw [h1], h2, hc.2⟩

theorem packetMatSyn2_pure {c : MatCache2 R} (hc : MatInv2 la w orth axes sep md c) {ts : List (Tensor R)}
    (ht : ∀ t ∈ ts, t.md = md) :
    (packetMatSyn2 la w orth axes sep c ts).1 = matSyn2 la w orth axes sep ts ∧
    MatInv2 la w orth axes sep md (packetMatSyn2 la w orth axes sep c ts).2 := by
  unfold packetMatSyn2 matSyn2
  match ts, ht with
  | [], _ => exact ⟨rfl, hc⟩
  | [_], _ => exact ⟨rfl, hc⟩
  | [_, _], _ => exact ⟨rfl, hc⟩
  | [_, _, _], _ => exact ⟨rfl, hc⟩
  | _ :: _ :: _ :: _ :: _ :: _, _ => exact ⟨rfl, hc⟩
  | [a, h, v, d], ht =>
    simp only
    cases planeSizes axes a with
    | error e => exact ⟨rfl, hc⟩
    | ok n =>
      simp only
      obtain ⟨h1, h2⟩ := callKeyed_pure (K := List Nat) (mk := recInitN 2 w (.seq axes) orth sep) (call := recObj2 la)
        (I := fun s => ∃ st0, recInitN 2 w (.seq axes) orth sep = .ok (s.1, st0) ∧ RecInvN la s.1 md s.2)
        (A := fun c => ∃ a h v d : Tensor R, c = ⟨false, [.tensor a, .tuple h v d]⟩ ∧ a.md = md)
        (f := fun cs => match recInitN 2 w (.seq axes) orth sep with
          | .error e => .error e
          | .ok s => (recObj2 la s cs).1)
        (by
          intro s hs
          refine ⟨s.2, hs, ?_⟩
          rw [(recInitN_inv (cfg := s.1) (st := s.2) hs).2.2.2]
          exact Or.inl rfl)
        (by
          intro e he
          refine ⟨?_, fun a => by rw [he]⟩
          rintro s ⟨st0, h, _⟩
          rw [he] at h; cases h)
        (by
          rintro s _ ⟨st0, h, hI⟩ ⟨a, p, q, d, rfl, ha⟩
          have h0 : RecInvN la s.1 md st0 := by
            have : st0 = _ := (recInitN_inv h).2.2.2
            rw [this]
            exact Or.inl rfl
          obtain ⟨k1, k2⟩ := recCallN_inv1 (n := 2) (Or.inl rfl) hI h0
            (c := ⟨false, [.tensor a, .tuple p q d]⟩) (by simp) (by
              intro b rest hb
              cases hb
              exact ha)
          rw [h]
          exact ⟨k1, st0, rfl, k2⟩) hc.2 n (a := ⟨false, [.tensor a, .tuple h v d]⟩)
          ⟨a, h, v, d, rfl, ht a (by simp)⟩
      exact ⟨by rw [h1], hc.1, h2⟩

theorem unpack2_ok {c : Coeffs R} {vs : List (Tensor R)} (h : unpack2 c = .ok vs) :
    ∃ a p q d, c.items = [.tensor a, .tuple p q d] ∧ vs = [a, p, q, d] := by
  unfold unpack2 at h
  split at h
  · rename_i a p q d heq
    cases h
    exact ⟨a, p, q, d, heq, rfl⟩
  · cases h
  · cases h

theorem matDec2_ok {t : Tensor R} {vs : List (Tensor R)} (h : matDec2 la w orth axes sep t = .ok vs) :
    ∃ cfg st c, decInitN 2 w (some 1) (.seq axes) orth sep (some "zero") = .ok (cfg, st) ∧
      (decCallN 2 la cfg st t).1 = .ok c ∧ unpack2 c = .ok vs := by
  unfold matDec2 at h
  split at h
  · cases h
  · split at h
    · cases h
    · rename_i s hs
      obtain ⟨c, e, h⟩ := bind_ok_inv (x := (decObj2 la s t).1) h
      exact ⟨s.1, s.2, c, hs, e, h⟩

theorem packetMat2_pure : (packetMat2 la w orth axes sep).Pure (MatInv2 la w orth axes sep md) (fun t => t.md = md)
    (matDec2 la w orth axes sep) (matSyn2 la w orth axes sep) where
  decRes := fun _ _ hc ht => (packetMatDec2_pure hc ht).1
  decInv := fun _ _ hc ht => (packetMatDec2_pure hc ht).2
  decDom := by
    intro t vs ht h
    obtain ⟨cfg, st, c, h0, h1, h2⟩ := matDec2_ok h
    obtain ⟨a, p, q, d, hc, rfl⟩ := unpack2_ok h2
    have hz : cfg.oddMode = some "zero" := by
      unfold decInitN at h0
      split at h0
      · cases h0
      · split_ifs at h0
        cases h0
        rfl
    have := decCallN2_md hz h1
    rw [ht] at this
    have a1 := this (.tensor a) (by rw [hc]; simp)
    have a2 := this (.tuple p q d) (by rw [hc]; simp)
    obtain ⟨a2, a3, a4⟩ := a2
    intro v hv
    simp only [List.mem_cons, List.not_mem_nil, or_false] at hv
    rcases hv with rfl | rfl | rfl | rfl
    · exact a1
    · exact a2
    · exact a3
    · exact a4
  synRes := fun _ _ hc ht => (packetMatSyn2_pure hc ht).1
  synInv := fun _ _ hc ht => (packetMatSyn2_pure hc ht).2
  synDom := by
    intro ts r ht h
    unfold matSyn2 at h
    split at h
    · split at h
      · cases h
      · split at h
        · cases h
        · refine recCallN2_md ?_ h
          intro e he
          simp only [List.mem_cons, List.not_mem_nil, or_false] at he
          rcases he with rfl | rfl
          · exact ht _ (by simp)
          · exact ⟨ht _ (by simp), ht _ (by simp), ht _ (by simp)⟩
    · cases h
  fitDom := fun r old z hr _ h => (fit2_md h).trans hr
  len := by
    intro t vs _ h
    obtain ⟨cfg, st, c, h0, h1, h2⟩ := matDec2_ok h
    obtain ⟨a, p, q, d, hc, rfl⟩ := unpack2_ok h2
    rfl
  nodup := by simp [packetMat2]

theorem packetMat2_complete : (packetMat2 la w orth axes sep).Complete :=
  ⟨getNaturalOrder2_mem, getNaturalOrder2_nodup⟩

end
end Verif
