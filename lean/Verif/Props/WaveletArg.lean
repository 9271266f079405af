import Verif.Model.WaveletArg
import Verif.Props.MatN
import Verif.Props.Sep

/-
C53: the representation of the wavelet.  A wavelet can be given by name or as `pywt.Wavelet`, as an object
with the attributes of the protocol, or as a `WaveletTensorTuple`; the results should only depend on its
filters.  They do whenever the level is given.  With the automatic level `wavedec2` and `wavedec3` raise
for everything but pywt wavelets, and the separable and boundary transforms treat every
`WaveletTensorTuple` as if it had four taps, because `len` of the tuple is 4.
-/
namespace Verif.Props
open Tensor Spec

variable {R : Type}

/-- The wavelet is neither a name nor a `pywt.Wavelet`. -/
def NotPywt (a : WaveletArg R) : Prop := ∀ w, a ≠ .pywt w

/-- **C53.** With an explicit level the functional transforms depend on the filters only. -/
theorem c53_explicit_level [NonUnitalNonAssocSemiring R] (x : Tensor R) (a b : WaveletArg R) (hab : a.bank = b.bank)
    (mode : Option String) (l : Int) (axes : AxisHint) :
    wavedec2Arg x a mode (some l) axes = wavedec2Arg x b mode (some l) axes ∧
    wavedec3Arg x a mode (some l) axes = wavedec3Arg x b mode (some l) axes ∧
    ∀ n, fswavedecnArg x a n mode (some l) axes = fswavedecnArg x b n mode (some l) axes := by
  refine ⟨?_, ?_, fun n => ?_⟩
  · unfold wavedec2Arg; rw [hab]; rfl
  · unfold wavedec3Arg; rw [hab]; rfl
  · unfold fswavedecnArg sepWavedecnArg; rw [hab]; rfl

/-- **C53.** For pywt wavelets these are the transforms of the other theorems. -/
theorem c53_pywt [NonUnitalNonAssocSemiring R] (x : Tensor R) (w : Wavelet R) (mode : Option String)
    (level : Option Int) (axes : AxisHint) :
    wavedec2Arg x (.pywt w) mode level axes = wavedec2 x w mode level axes ∧
    wavedec3Arg x (.pywt w) mode level axes = wavedec3 x w mode level axes ∧
    (∀ n, fswavedecnArg x (.pywt w) n mode level axes = fswavedecn x w n mode level axes) ∧
    ∀ n, fswavedecnArg x (.object w) n mode level axes = fswavedecn x w n mode level axes := by
  cases level <;> exact ⟨rfl, rfl, fun _ => rfl, fun _ => rfl⟩

/-- **C53.** `wavedec2` and `wavedec3` with the automatic level raise ValueError for every protocol object and
every `WaveletTensorTuple`, on every input they otherwise accept. -/
theorem c53_wavedecn_auto [Semiring R] (x : Tensor R) (a : WaveletArg R) (ha : NotPywt a)
    (hhi : a.bank.decHi.length = a.bank.len) (mode : Option String) (axes : AxisHint)
    (hdt : isDtypeSupported x.md.dtype = true) :
    (GoodAxes axes x.rank 2 → wavedec2Arg x a mode none axes = .error .valueError) ∧
    (GoodAxes axes x.rank 3 → wavedec3Arg x a mode none axes = .error .valueError) := by
  have hr : ∀ ns, resolveLevelArg none ns a = .error .valueError := by
    intro ns
    cases a with
    | pywt w => exact absurd rfl (ha w)
    | object w => rfl
    | tuple w => rfl
  constructor
  · intro hg
    obtain ⟨y, f, e, -⟩ := preprocessDeconstruction2_ok (w := a.bank) hg hdt hhi
    unfold wavedec2Arg
    simp only [bind, Except.bind, e, hr]
  · intro hg
    obtain ⟨y, f, e, -⟩ := preprocessDeconstruction3_ok (w := a.bank) hg hdt hhi
    unfold wavedec3Arg
    simp only [bind, Except.bind, e, hr]

/-- **C53.** The separable transforms of a `WaveletTensorTuple` with the automatic level compute the number of
levels that is automatic for *four* taps, whatever the length of the filters. -/
theorem c53_fswavedec_tuple [Semiring R] (x : Tensor R) (w : Wavelet R) (n : Nat) (hn : 1 ≤ n)
    (mode : Option String) (axes : AxisHint) (hg : GoodAxes axes x.rank n)
    (hdt : isDtypeSupported x.md.dtype = true)
    (hne : ∀ k ∈ sizes (axesOf axes x.rank n) x.shape, 0 < k) :
    fswavedecnArg x (.tuple w) n mode none axes
      = fswavedecn x w n mode (some (autoLevelN 4 (sizes (axesOf axes x.rank n) x.shape) : Nat)) axes := by
  have hnl : (sizes (axesOf axes x.rank n) x.shape).length = n := sizes_len hg
  generalize hns : sizes (axesOf axes x.rank n) x.shape = ns at *
  have h0 : ns ≠ [] := by intro h0; rw [h0] at hnl; simp at hnl; omega
  have hl := (sepLevel_eq (level := none) (F := 4) (by omega) h0).2 (by
    rintro ⟨-, h⟩
    exact absurd (hne 0 h) (by omega))
  simp only [levelsN] at hl
  generalize autoLevelN 4 ns = A at hl ⊢
  have eA : ∃ H : AxisHint, resolve H n = resolve axes n ∧
      fswavedecn x w n mode (some (A : Int)) axes = (preprocessTensor x n H false >>= fun p =>
        sepWavedecn p.1 w mode (some (A : Int)) >>= fun c => postprocessCoeffs c n p.2 H) ∧
      fswavedecnArg x (.tuple w) n mode none axes = (preprocessTensor x n H false >>= fun p =>
        sepWavedecnArg p.1 (.tuple w) mode none >>= fun c => postprocessCoeffs c n p.2 H) := by
    clear hl h0 hnl hns hne hg
    cases axes with
    | none => exact ⟨.seq _, rfl, rfl, rfl⟩
    | int a => exact ⟨.int a, rfl, rfl, rfl⟩
    | seq as => exact ⟨.seq as, rfl, rfl, rfl⟩
  obtain ⟨H, hH, e1, e2⟩ := eA
  rw [e1, e2]
  have hgH : GoodAxes H x.rank n := (goodAxes_congr hH).mpr hg
  have hax : axesOf H x.rank n = axesOf axes x.rank n := axesOf_congr hH
  obtain ⟨y, ey, hy⟩ := preprocessTensor_ok hgH hdt
  have hs := hy.showsN
  rw [hax] at hs
  have htail : y.shape.tail = ns := by rw [hs.shape, hns]; rfl
  have key : sepWavedecnArg y (.tuple w) mode none = sepWavedecn y w mode (some (A : Int)) := by
    unfold sepWavedecnArg sepWavedecn
    have hl' : sepLevel (some (A : Int)) ns w.len = .ok A := rfl
    rw [htail, show (WaveletArg.tuple w).pyLen = 4 from rfl, hl, hl']
    rfl
  simp only [bind, Except.bind, ey, key]

/-- The automatic number of levels strictly decreases when the filter length at least doubles, as soon as
there is a level for the shorter one to lose. -/
theorem autoLevelN_lt {F G : Nat} (hF : 2 ≤ F) (hFG : 2 * (F - 1) ≤ G - 1) {ns : List Nat} (h0 : ns ≠ [])
    (h : ∃ L, 0 < L ∧ ∀ n ∈ ns, (F - 1) * 2 ^ L ≤ n) : autoLevelN G ns < autoLevelN F ns := by
  obtain ⟨L, hL0, hL⟩ := h
  obtain ⟨-, -, f3⟩ := autoLevelN_spec F hF ns h0
  obtain ⟨g1, g2, -⟩ := autoLevelN_spec G (by omega) ns h0
  have h1 := f3 L hL
  by_cases hs : ∀ n ∈ ns, G - 1 ≤ n
  · refine f3 (autoLevelN G ns + 1) ?_
    intro n hn
    refine le_trans ?_ (g2 hs n hn)
    rw [pow_succ, show (F - 1) * (2 ^ autoLevelN G ns * 2) = 2 * (F - 1) * 2 ^ autoLevelN G ns by ring]
    exact Nat.mul_le_mul_right _ hFG
  · push Not at hs
    rw [g1 hs]
    omega

/-- **C53.** For two taps (Haar) the tuple gets fewer levels than the pywt wavelet or a protocol object, on
every input with at least two samples along every axis; for eight taps or more it gets more levels, on every
input with at least six samples along every axis; for four taps the results are the same. -/
theorem c53_fswavedec_differ [Semiring R] (x : Tensor R) (w : Wavelet R) (n : Nat) (hn : 1 ≤ n)
    (hF : 2 ≤ w.len) (hhi : w.decHi.length = w.len)
    (mode : Option String) (axes : AxisHint) (c c' : Coeffs R)
    (hc : fswavedecnArg x (.pywt w) n mode none axes = .ok c)
    (hc' : fswavedecnArg x (.tuple w) n mode none axes = .ok c') :
    (w.len = 2 → (∀ k ∈ sizes (axesOf axes x.rank n) x.shape, 2 ≤ k) → c'.items.length < c.items.length) ∧
    (w.len = 4 → c' = c) ∧
    (8 ≤ w.len → (∀ k ∈ sizes (axesOf axes x.rank n) x.shape, 6 ≤ k) → c.items.length < c'.items.length) := by
  have hchar := fun level => fswavedecn_char (x := x) (w := w) (mode := mode) (h := axes) (level := level) hn hF hhi
  rw [(c53_pywt x w mode none axes).2.2.1] at hc
  obtain ⟨hg, hdt⟩ : GoodAxes axes x.rank n ∧ isDtypeSupported x.md.dtype = true := by
    by_contra h
    obtain ⟨e, he⟩ := (hchar none).1 h
    rw [he] at hc; cases hc
  have hae : ¬ AutoEmpty none (sizes (axesOf axes x.rank n) x.shape) := by
    intro h
    rw [((hchar none).2 hg hdt).1 h] at hc; cases hc
  set ns := sizes (axesOf axes x.rank n) x.shape with hns
  have hpos : ∀ k ∈ ns, 0 < k := by
    intro k hk
    by_contra h
    obtain rfl : k = 0 := by omega
    exact hae ⟨rfl, hk⟩
  have hnl : ns.length = n := sizes_len hg
  have h0 : ns ≠ [] := by intro h0; rw [h0] at hnl; simp at hnl; omega
  rw [c53_fswavedec_tuple x w n hn mode axes hg hdt hpos] at hc'
  have hlen : ∀ {level : Option Int} {c : Coeffs R}, ¬ AutoEmpty level ns → fswavedecn x w n mode level axes = .ok c →
      c.items.length = levelsN level w.len ns + 1 := by
    intro level c hae hc
    obtain ⟨p1, p2, p3, p4⟩ := ((hchar level).2 hg hdt).2 hae
    rcases Nat.eq_zero_or_pos (levelsN level w.len ns) with h | h
    · obtain ⟨d, hd, q⟩ := p1 h .zero
      rw [hc] at hd; cases hd
      exact q.length
    · by_cases hm : ∃ m, Selects mode m
      · obtain ⟨m, hm⟩ := hm
        obtain ⟨d, hd, q⟩ := p2 m hm (p3 m c hm hc)
        rw [hc] at hd; cases hd
        exact q.length
      · push Not at hm
        rw [p4 h hm] at hc; cases hc
  have e1 := hlen hae hc
  have e2 := hlen (by rintro ⟨h, -⟩; cases h) hc'
  rw [e1, e2]
  simp only [levelsN, Int.toNat_natCast, Nat.add_lt_add_iff_right]
  refine ⟨?_, ?_, ?_⟩
  · intro h2 hk
    rw [h2]
    exact autoLevelN_lt (by omega) (by omega) h0 ⟨1, by omega, fun k hkm => by simpa using hk k hkm⟩
  · intro h4
    have : fswavedecn x w n mode none axes = fswavedecn x w n mode (some (autoLevelN 4 ns : Nat)) axes := by
      have key := c53_fswavedec_tuple x w n hn mode axes hg hdt hpos
      rw [← key]
      unfold fswavedecnArg fswavedecn sepWavedecnArg sepWavedecn
      rw [h4]
      rfl
    rw [this, hc'] at hc
    cases hc; rfl
  · intro h8 hk
    exact autoLevelN_lt (by omega) (by omega) h0 ⟨1, by omega, fun k hkm => by simpa using hk k hkm⟩


/-! ### Matrix objects -/

/-- The state of an object created with the wavelet `a` after a sequence of calls. -/
def afterDecCallsArg [Field R] [DecidableEq R] (la : LinAlg R) (a : WaveletArg R) (cfg : DecCfg R)
    (st : DecState R) (xs : List (Tensor R)) : DecState R :=
  xs.foldl (fun st x => (decCallArg la a cfg st x).2) st

/-- The state of an object created with the wavelet `a` after a sequence of calls. -/
def afterDecCallsNArg [Field R] [DecidableEq R] (n : Nat) (la : LinAlg R) (a : WaveletArg R) (cfg : DecCfgN R)
    (st : DecStateN R) (xs : List (Tensor R)) : DecStateN R :=
  xs.foldl (fun st x => (decCallNArg n la a cfg st x).2) st

theorem decCallArg_some [Field R] [DecidableEq R] (la : LinAlg R) (a : WaveletArg R) (cfg : DecCfg R)
    (st : DecState R) (x : Tensor R) {l : Int} (hl : st.level = some l) :
    decCallArg la a cfg st x = decCall la cfg st x ∧ (decCall la cfg st x).2.level = some l := by
  have e : ∀ md n, decPrepareArg la a.pyLen cfg md n st = decPrepare la cfg md n st := by
    intro md n
    unfold decPrepareArg decPrepare
    simp only [hl]
  have k : ∀ md n, (decPrepare la cfg md n st).2.level = some l := by
    intro md n
    unfold decPrepare
    simp only [hl]
    split_ifs
    · rfl
    · unfold decEnsure
      split_ifs
      · unfold decBuild
        rw [(decBuildLoop_keeps _ _ _).1]
      · rfl
  constructor
  · unfold decCallArg decCall
    simp only [e]
    rfl
  · unfold decCall
    split
    · exact hl
    · rename_i p hp
      have := k p.1.md (p.1.sizeFromEnd 1)
      split
      · rename_i h; rw [h] at this; exact this
      · rename_i h; rw [h] at this; exact this

theorem decCallNArg_some [Field R] [DecidableEq R] (n : Nat) (la : LinAlg R) (a : WaveletArg R) (cfg : DecCfgN R)
    (st : DecStateN R) (x : Tensor R) {l : Int} (hl : st.level = some l) :
    decCallNArg n la a cfg st x = decCallN n la cfg st x ∧ (decCallN n la cfg st x).2.level = some l := by
  have e : ∀ md n, decPrepareNArg la a.pyLen cfg md n st = decPrepareN la cfg md n st := by
    intro md n
    unfold decPrepareNArg decPrepareN
    simp only [hl]
  have k : ∀ md n, (decPrepareN la cfg md n st).2.level = some l := by
    intro md n
    unfold decPrepareN
    simp only [hl]
    split_ifs
    · rfl
    · unfold decEnsureN
      split_ifs
      · unfold decBuildN
        rw [(decBuildLoopN_keeps _ _ _).1]
      · rfl
  constructor
  · unfold decCallNArg decCallN
    simp only [e]
    rfl
  · unfold decCallN
    split
    · exact hl
    · rename_i p hp
      have := k p.1.md p.1.shape.tail
      split
      · rename_i h; rw [h] at this; exact this
      · rename_i h; rw [h] at this; exact this

/-- **C53.** A `MatrixWavedec`, `MatrixWavedec2` or `MatrixWavedec3` object created with an explicit level behaves
as if created with the pywt wavelet, in every call after every history of calls. -/
theorem c53_matrix_explicit [Field R] [DecidableEq R] (la : LinAlg R) (a : WaveletArg R) (level : Int)
    (axes : AxisHint) (orth : String) (mode : Option String) (sep : Bool) :
    (∀ cfg st, decInit a.bank (some level) axes orth mode = .ok (cfg, st) → ∀ (xs : List (Tensor R)) (x : Tensor R),
      decCallArg la a cfg (afterDecCallsArg la a cfg st xs) x = decCall la cfg (afterDecCalls la cfg st xs) x) ∧
    ∀ n cfg st, decInitN n a.bank (some level) axes orth sep mode = .ok (cfg, st) → ∀ (xs : List (Tensor R)) (x : Tensor R),
      decCallNArg n la a cfg (afterDecCallsNArg n la a cfg st xs) x = decCallN n la cfg (afterDecCallsN n la cfg st xs) x := by
  constructor
  · intro cfg st hi xs x
    have hl : st.level = some level := by
      unfold decInit at hi
      split at hi
      · cases hi
      · cases hi
      · split_ifs at hi
        cases hi; rfl
    clear hi
    induction xs generalizing st with
    | nil => exact (decCallArg_some la a cfg st x hl).1
    | cons y ys ih =>
      obtain ⟨e1, e2⟩ := decCallArg_some la a cfg st y hl
      show decCallArg la a cfg (afterDecCallsArg la a cfg (decCallArg la a cfg st y).2 ys) x = _
      rw [e1]
      exact ih _ e2
  · intro n cfg st hi xs x
    have hl : st.level = some level := by
      unfold decInitN at hi
      split at hi
      · cases hi
      · split_ifs at hi
        cases hi; rfl
    clear hi
    induction xs generalizing st with
    | nil => exact (decCallNArg_some n la a cfg st x hl).1
    | cons y ys ih =>
      obtain ⟨e1, e2⟩ := decCallNArg_some n la a cfg st y hl
      show decCallNArg n la a cfg (afterDecCallsNArg n la a cfg (decCallNArg n la a cfg st y).2 ys) x = _
      rw [e1]
      exact ih _ e2

/-- **C53.** Protocol objects behave like pywt wavelets, also with the automatic level. -/
theorem c53_matrix_object [Field R] [DecidableEq R] (la : LinAlg R) (level : Option Int) (w : Wavelet R)
    (axes : AxisHint) (orth : String) (mode : Option String) (sep : Bool) :
    (∀ cfg st, decInit w level axes orth mode = .ok (cfg, st) → ∀ (st' : DecState R) (x : Tensor R),
      decCallArg la (.object w) cfg st' x = decCall la cfg st' x) ∧
    ∀ n cfg st, decInitN n w level axes orth sep mode = .ok (cfg, st) → ∀ (st' : DecStateN R) (x : Tensor R),
      decCallNArg n la (.object w) cfg st' x = decCallN n la cfg st' x := by
  constructor
  · intro cfg st hi st' x
    have hw : cfg.wavelet = w := by
      unfold decInit at hi
      split at hi
      · cases hi
      · cases hi
      · split_ifs at hi
        cases hi; rfl
    unfold decCallArg decCall decPrepareArg decPrepare
    rw [hw]; rfl
  · intro n cfg st hi st' x
    have hw : cfg.wavelet = w := by
      unfold decInitN at hi
      split at hi
      · cases hi
      · split_ifs at hi
        cases hi; rfl
    unfold decCallNArg decCallN decPrepareNArg decPrepareN
    rw [hw]; rfl

/-- **C53.** A `MatrixWavedec` object created with a `WaveletTensorTuple` and the automatic level becomes, with its
first call, the object created with the explicit level that is automatic for *four* taps: result and state of the
first call are the same (so by `c53_matrix_explicit` all later ones).  At least five samples, so that this
level is positive. -/
theorem c53_matrix_tuple [Field R] [DecidableEq R] (la : LinAlg R) (w : Wavelet R) (axis : AxisHint) (orth : String)
    (mode : Option String) (m : Mode) (hm : Selects mode m) (x : Tensor R) (hg : GoodAxes axis x.rank 1)
    (hdt : isDtypeSupported x.md.dtype = true) (h5 : 5 ≤ x.shape.getD (axis1 axis x.rank) 0)
    (cfg : DecCfg R) (st : DecState R) (hi : decInit w none axis orth mode = .ok (cfg, st)) :
    ∃ st', decInit w (some (autoLevel 4 (evenLen (x.shape.getD (axis1 axis x.rank) 0)) : Nat)) axis orth mode = .ok (cfg, st') ∧
      decCallArg la (.tuple w) cfg st x = decCall la cfg st' x := by
  obtain ⟨a, ea, hgi, _, hax, _⟩ := goodAxes_single hg
  have hax1 : axis1 (.int a) x.rank = axis1 axis x.rank := by unfold axis1; rw [hax]
  unfold decInit at hi ⊢
  rw [ea] at hi ⊢
  simp only at hi ⊢
  split_ifs at hi ⊢
  cases hi
  refine ⟨_, rfl, ?_⟩
  set n := x.shape.getD (axis1 axis x.rank) 0 with hn
  obtain ⟨x', y, ey, -, -, hsh, hy⟩ := decInput_ok (cfg := ⟨w, a, orth, mode⟩) (m := m) (x := x) hgi hdt hm
    (by intro _; show Fits m (x.shape.getD (axis1 (.int a) x.rank) 0) 0 1; rw [hax1, ← hn]; cases m <;> simp only [Fits] <;> omega)
  have hev : 6 ≤ evenLen n := by unfold evenLen; omega
  obtain ⟨l, el, hl⟩ := matAutoLevel_ok (F := 4) (n := evenLen n) (by omega) (by omega)
  have hpos : 1 ≤ autoLevel 4 (evenLen n) := by
    obtain ⟨L, -, -, -, h3⟩ := c48_auto_level 4 (evenLen n) (by omega)
    have h4 := autoLevel_eq (F := 4) (n := evenLen n) (by omega)
    unfold autoLevel
    exact Nat.le_findGreatest (P := fun L => (4 - 1) * 2 ^ L ≤ evenLen n) (by omega) (by omega)
  have hl' : l = (autoLevel 4 (evenLen n) : Nat) := by omega
  have hxl : axis1 axis x.rank < x.shape.length := axis1_lt hg
  rw [show axis1 (.int (⟨w, a, orth, mode⟩ : DecCfg R).axis) x.rank = axis1 axis x.rank from hax1] at hsh
  have hr : x'.rank = x.rank := by unfold Tensor.rank; rw [hsh, List.length_set]
  have hgi' : GoodAxes (.int a) x'.rank 1 := by rw [hr]; exact hgi
  have hsz : y.sizeFromEnd 1 = evenLen n := by
    unfold Tensor.sizeFromEnd
    rw [(hy.shows hgi').shape]
    show x'.shape.getD (axis1 (.int a) x'.rank) 0 = _
    rw [hr, hax1, hsh, getD_set_self hxl]
  unfold decCallArg decCall decPrepareArg decPrepare
  simp only [ey, hsz, show (WaveletArg.tuple w).pyLen = 4 from rfl, el]
  rw [if_neg (by omega), ← hl']
  rfl

/-- **C53.** The same for `MatrixWavedec2` (`n = 2`) and `MatrixWavedec3` (`n = 3`), with at least six samples along
every axis. -/
theorem c53_matrix_tuple_nd [Field R] [DecidableEq R] (n : Nat) (hn : 1 ≤ n) (la : LinAlg R) (w : Wavelet R)
    (axes : AxisHint) (orth : String) (mode : Option String) (sep : Bool) (x : Tensor R) (hg : GoodAxes axes x.rank n)
    (hdt : isDtypeSupported x.md.dtype = true) (h6 : ∀ k ∈ sizes (axesOf axes x.rank n) x.shape, 6 ≤ k)
    (cfg : DecCfgN R) (st : DecStateN R) (hi : decInitN n w none axes orth sep mode = .ok (cfg, st)) :
    ∃ st', decInitN n w (some (autoLevelN 4 (sizes (axesOf axes x.rank n) x.shape) : Nat)) axes orth sep mode = .ok (cfg, st') ∧
      decCallNArg n la (.tuple w) cfg st x = decCallN n la cfg st' x := by
  have hnl : (sizes (axesOf axes x.rank n) x.shape).length = n := sizes_len hg
  have h0 : sizes (axesOf axes x.rank n) x.shape ≠ [] := by
    intro h0; rw [h0] at hnl; simp at hnl; omega
  obtain ⟨l, el, hl⟩ := matAutoLevelN_ok (F := 4) (by omega) _ h0 (fun k hk => by have := h6 k hk; omega)
  have hpos : 1 ≤ autoLevelN 4 (sizes (axesOf axes x.rank n) x.shape) :=
    (autoLevelN_spec 4 (by omega) _ h0).2.2 1 (fun k hk => by have := h6 k hk; omega)
  have hl' : l = (autoLevelN 4 (sizes (axesOf axes x.rank n) x.shape) : Nat) := by omega
  rw [← hl']
  have hl0 : ¬ l ≤ 0 := by omega
  clear hl hl' hpos
  have hcfg : ∃ as, ensureAxes axes n = .ok as ∧ GoodAxes (.seq as) x.rank n ∧ axesOf (.seq as) x.rank n = axesOf axes x.rank n :=
    ⟨_, goodAxes_list hg⟩
  obtain ⟨as, ea, hga, hax⟩ := hcfg
  unfold decInitN at hi ⊢
  rw [ea] at hi ⊢
  simp only at hi ⊢
  split_ifs at hi ⊢
  cases hi
  refine ⟨_, rfl, ?_⟩
  obtain ⟨y, ey, hy⟩ := preprocessTensor_ok hga hdt
  have hs := hy.showsN
  rw [hax] at hs
  have htail : y.shape.tail = sizes (axesOf axes x.rank n) x.shape := by rw [hs.shape]; rfl
  unfold decCallNArg decCallN decPrepareNArg decPrepareN
  simp only [ey, htail, show (WaveletArg.tuple w).pyLen = 4 from rfl, el]
  rw [if_neg hl0]
  rfl


/-! ### The hypotheses are met -/

/-- An image of 8 × 8 samples. -/
def ex53 : Tensor ℚ := Tensor.ofFn ⟨.float64, 0⟩ [8, 8] fun idx => (idx.getD 0 0 : ℚ)

theorem ex53_axes : GoodAxes .none ex53.rank 2 := goodAxes_none (by decide) (by decide)

/-- The Haar wavelet on an 8 × 8 image: three levels as pywt wavelet or protocol object, one level as
`WaveletTensorTuple`. -/
example : ∃ c c', fswavedecnArg ex53 (.pywt haar) 2 (some "zero") none .none = .ok c ∧
    fswavedecnArg ex53 (.object haar) 2 (some "zero") none .none = .ok c ∧
    fswavedecnArg ex53 (fromWavelet haar) 2 (some "zero") none .none = .ok c' ∧
    c.items.length = 4 ∧ c'.items.length = 2 := by
  have hsz : sizes (axesOf .none ex53.rank 2) ex53.shape = [8, 8] := by decide
  have hadm : ∀ L, L ≤ 3 → LevelsAdmit .zero haar.len (sizes (axesOf .none ex53.rank 2) ex53.shape) L := by
    intro L hL s hs n hn
    rw [hsz] at hn
    have h3 : s < 3 := by omega
    show 4 ≤ 2 + n + n % 2
    have : n ≠ 0 := by
      rintro rfl
      interval_cases s <;> revert hn <;> decide
    omega
  obtain ⟨c, h1, d1⟩ := (((fswavedecn_char (x := ex53) (w := haar) (n := 2) (mode := some "zero") (level := none) (h := .none)
    (by decide) (by decide) rfl).2 ex53_axes rfl).2 (by rw [hsz]; rintro ⟨-, h⟩; revert h; decide)).2.1 .zero (Or.inl rfl) (hadm _ (by decide))
  obtain ⟨c', h2, d2⟩ := (((fswavedecn_char (x := ex53) (w := haar) (n := 2) (mode := some "zero") (level := some 1) (h := .none)
    (by decide) (by decide) rfl).2 ex53_axes rfl).2 (by rintro ⟨h, -⟩; cases h)).2.1 .zero (Or.inl rfl) (hadm _ (by decide))
  refine ⟨c, c', h1, h1, ?_, ?_, ?_⟩
  · rw [fromWavelet, c53_fswavedec_tuple ex53 haar 2 (by decide) _ _ ex53_axes rfl (by rw [hsz]; decide), hsz]
    exact h2
  · rw [d1.length, hsz]; decide
  · rw [d2.length]; decide

/-- … and `wavedec2` raises for the tuple. -/
example : wavedec2Arg ex53 (fromWavelet haar) (some "zero") none .none = .error .valueError :=
  (c53_wavedecn_auto ex53 _ (by intro w h; cases h) rfl _ _ rfl).1 ex53_axes

/-- The matrix objects: 8 × 8 samples, one level. -/
example (la : LinAlg ℚ) : ∃ cfg st st', decInitN 2 haar none .none "qr" true none = .ok (cfg, st) ∧
    decInitN 2 haar (some 1) .none "qr" true none = .ok (cfg, st') ∧
    decCallNArg 2 la (fromWavelet haar) cfg st ex53 = decCallN 2 la cfg st' ex53 := by
  have hsz : sizes (axesOf .none ex53.rank 2) ex53.shape = [8, 8] := by decide
  have hi : decInitN 2 haar none .none "qr" true none
      = .ok (⟨haar, [-2, -1], "qr", none, true⟩, ⟨none, none, [], [], false, []⟩) := rfl
  obtain ⟨st', h1, h2⟩ := c53_matrix_tuple_nd 2 (by decide) la haar .none "qr" none true ex53 ex53_axes rfl
    (by rw [hsz]; decide) _ _ hi
  rw [hsz] at h1
  exact ⟨_, _, st', hi, h1, h2⟩

end Verif.Props
