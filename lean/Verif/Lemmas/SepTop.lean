import Verif.Lemmas.SepDec

/-! The separable analysis on the user's tensors. -/

namespace Verif
open Tensor Spec
variable {R : Type}

theorem goodAxes_congr {h h' : AxisHint} {r n : Nat} (e : resolve h n = resolve h' n) :
    GoodAxes h r n ↔ GoodAxes h' r n := by
  constructor
  · rintro ⟨a, b, c⟩; exact ⟨a, e ▸ b, e ▸ c⟩
  · rintro ⟨a, b, c⟩; exact ⟨a, e ▸ b, e ▸ c⟩

theorem axesOf_congr {h h' : AxisHint} {r n : Nat} (e : resolve h n = resolve h' n) :
    axesOf h r n = axesOf h' r n := by unfold axesOf; rw [e]

theorem truncLog2_eq {F n : Nat} (hF : 2 ≤ F) : truncLog2 n (F - 1) = autoLevel F n := by
  have := autoLevel_eq (n := n) hF
  unfold dwtMaxLevel at this
  rw [if_neg (by omega)] at this
  unfold truncLog2
  split_ifs at this ⊢ <;> exact (Except.ok.inj this)

theorem foldl_min_autoLevelN {F : Nat} : ∀ (ns : List Nat) (n : Nat),
    (ns.map (autoLevel F)).foldl min (autoLevel F n) = autoLevelN F (n :: ns)
  | [], _ => rfl
  | k :: ns, n => by
    have gen : ∀ (l : List Nat) (a b : Nat), l.foldl min (min a b) = min a (l.foldl min b) := by
      intro l
      induction l with
      | nil => intro a b; rfl
      | cons c l ih => intro a b; simp only [List.foldl_cons]; rw [min_assoc, ih]
    show (ns.map (autoLevel F)).foldl min (min (autoLevel F n) (autoLevel F k)) = min (autoLevel F n) (autoLevelN F (k :: ns))
    rw [gen, foldl_min_autoLevelN ns k]

/-- The level argument of the separable transforms. -/
theorem sepLevel_eq {level : Option Int} {F : Nat} {ns : List Nat} (hF : 2 ≤ F) (hn : ns ≠ []) :
    (level = none ∧ 0 ∈ ns → sepLevel level ns F = .error .overflowError) ∧
    (¬ (level = none ∧ 0 ∈ ns) → sepLevel level ns F = .ok (levelsN level F ns)) := by
  cases level with
  | some l => exact ⟨fun h => absurd h.1 (by simp), fun _ => rfl⟩
  | none =>
    match ns, hn with
    | n :: ns, _ =>
      constructor
      · intro h
        unfold sepLevel
        simp only
        rw [if_neg (by omega), if_pos h.2]
      · intro h
        have h0 : ¬ 0 ∈ n :: ns := fun h' => h ⟨rfl, h'⟩
        unfold sepLevel levelsN
        simp only
        rw [if_neg (by omega), if_neg h0, truncLog2_eq hF]
        rw [show (ns.map fun n => truncLog2 n (F - 1)) = ns.map (autoLevel F) from
          List.map_congr_left fun k _ => truncLog2_eq hF, foldl_min_autoLevelN]

section
variable [Semiring R] {w : Wavelet R} {x : Tensor R} {h : AxisHint} {level : Option Int} {mode : Option String}
  {n : Nat}

theorem fswavedecn_hint (x : Tensor R) (w : Wavelet R) (n : Nat) (mode : Option String) (level : Option Int)
    (h : AxisHint) : ∃ H : AxisHint, resolve H n = resolve h n ∧
      fswavedecn x w n mode level h = (preprocessTensor x n H false >>= fun p =>
        sepWavedecn p.1 w mode level >>= fun c => postprocessCoeffs c n p.2 H) := by
  cases h with
  | none => exact ⟨.seq _, rfl, rfl⟩
  | int a => exact ⟨.int a, rfl, rfl⟩
  | seq as => exact ⟨.seq as, rfl, rfl⟩

/-- The level is automatic although one of the axes is empty. -/
def AutoEmpty (level : Option Int) (ns : List Nat) : Prop := level = none ∧ 0 ∈ ns

/-- The complete behaviour of the separable analysis. -/
theorem fswavedecn_char (hn : 1 ≤ n) (hF : 2 ≤ w.len) (hhi : w.decHi.length = w.len) :
    let ns := sizes (axesOf h x.rank n) x.shape
    let L := levelsN level w.len ns
    (¬ (GoodAxes h x.rank n ∧ isDtypeSupported x.md.dtype = true) →
      ∃ e, fswavedecn x w n mode level h = .error e) ∧
    (GoodAxes h x.rank n → isDtypeSupported x.md.dtype = true →
      (AutoEmpty level ns → fswavedecn x w n mode level h = .error .overflowError) ∧
      (¬ AutoEmpty level ns →
        (L = 0 → ∀ m, ∃ c, fswavedecn x w n mode level h = .ok c ∧
          IsDwtN (IsDict (sepDetailKeys n)) m w (axesOf h x.rank n) L x c) ∧
        (∀ m, Selects mode m → LevelsAdmit m w.len ns L →
          ∃ c, fswavedecn x w n mode level h = .ok c ∧
            IsDwtN (IsDict (sepDetailKeys n)) m w (axesOf h x.rank n) L x c) ∧
        (∀ m c, Selects mode m → fswavedecn x w n mode level h = .ok c → LevelsAdmit m w.len ns L) ∧
        (0 < L → (∀ m, ¬ Selects mode m) → fswavedecn x w n mode level h = .error .valueError))) := by
  intro ns L
  obtain ⟨H, hH, eH⟩ := fswavedecn_hint x w n mode level h
  refine ⟨?_, fun hg hdt => ?_⟩
  · intro hn
    obtain ⟨e, he⟩ := preprocessTensor_err (ch := false) (h := H) (n := n) (x := x)
      (by rwa [goodAxes_congr hH])
    refine ⟨e, ?_⟩
    rw [eH]
    simp only [bind, Except.bind, he]
  have hgH : GoodAxes H x.rank n := (goodAxes_congr hH).mpr hg
  have hax : axesOf H x.rank n = axesOf h x.rank n := axesOf_congr hH
  obtain ⟨y, ey, hy⟩ := preprocessTensor_ok hgH hdt
  have hs := hy.showsN
  rw [hax] at ey hy hs
  have hnl : ns.length = n := sizes_len hg
  have hne : ns ≠ [] := by intro h0; rw [h0] at hnl; simp at hnl; omega
  have htail : y.shape.tail = ns := by rw [hs.shape]; rfl
  have hyr : y.rank - 1 = n := by rw [hs.rank, show (sizes (axesOf h x.rank n) x.shape) = ns from rfl, hnl]; omega
  obtain ⟨hl1, hl2⟩ := sepLevel_eq (level := level) (F := w.len) hF hne
  refine ⟨?_, fun hae => ?_⟩
  · intro hae
    rw [eH]
    simp only [bind, Except.bind, ey, sepWavedecn, htail, hl1 hae]
  have eL : sepLevel level ns w.len = .ok L := hl2 hae
  have eu : fswavedecn x w n mode level h = (decLoop (sepStep w mode n) L y >>= fun r =>
      postprocessCoeffs ⟨false, .tensor r.1 :: r.2.reverse⟩ n
        (pick (batchAxes x.rank (axesOf h x.rank n) ++ axesOf h x.rank n) x.shape) H) := by
    rw [eH]
    simp only [bind, Except.bind, ey, sepWavedecn, htail, eL, hyr, sepDecLoop_eq]
    cases decLoop (sepStep w mode n) L y with
    | error _ => rfl
    | ok r => rfl
  have hpost : ∀ {m : Mode} {t : Tensor R} {ds : List (Entry R)}, ds.length = L →
      ShowsN t x.md (prodL (pick (batchAxes x.rank (axesOf h x.rank n)) x.shape))
        (levelLens w.len ns L) (fun b => cAN m w ns (fun js => y.get (b :: js)) L) →
      (∀ s e, ds[s]? = some e → IsDict (sepDetailKeys n)
        (fun bs u => ShowsN u x.md (prodL (pick (batchAxes x.rank (axesOf h x.rank n)) x.shape))
          (levelLens w.len ns (s + 1)) (fun b => cDN m w ns (fun js => y.get (b :: js)) s bs)) e) →
      ∃ c', postprocessCoeffs ⟨false, .tensor t :: ds.reverse⟩ n
        (pick (batchAxes x.rank (axesOf h x.rank n) ++ axesOf h x.rank n) x.shape) H = .ok c' ∧
      IsDwtN (IsDict (sepDetailKeys n)) m w (axesOf h x.rank n) L x c' := by
    intro m t ds h1 h2 h3
    have := container_post (m := m) (w := w) (isDict_kind (R := R) (sepDetailKeys n)) hgH (L := L)
      (x := x) (y := y) (by rw [hax]; exact hy) h1 (t := t)
      (by rw [hax]; exact h2) (by rw [hax]; exact h3)
    rwa [hax] at this
  have hfin : ∀ {m : Mode} {r ds}, decLoop (sepStep w mode n) L y = .ok (r, ds) → (L = 0 → r = y) →
      (0 < L → ShowsN r x.md (prodL (pick (batchAxes x.rank (axesOf h x.rank n)) x.shape))
        (levelLens w.len ns L) (fun b => cAN m w ns (fun js => y.get (b :: js)) L)) → ds.length = L →
      (∀ s e, ds[s]? = some e → IsDict (sepDetailKeys n)
        (fun bs u => ShowsN u x.md (prodL (pick (batchAxes x.rank (axesOf h x.rank n)) x.shape))
          (levelLens w.len ns (s + 1)) (fun b => cDN m w ns (fun js => y.get (b :: js)) s bs)) e) →
      ∃ c, fswavedecn x w n mode level h = .ok c ∧
        IsDwtN (IsDict (sepDetailKeys n)) m w (axesOf h x.rank n) L x c := by
    intro m r ds el r0 r1 hdl hds
    have hr : ShowsN r x.md (prodL (pick (batchAxes x.rank (axesOf h x.rank n)) x.shape))
        (levelLens w.len ns L) (fun b => cAN m w ns (fun js => y.get (b :: js)) L) := by
      rcases Nat.eq_zero_or_pos L with h0 | h0
      · rw [r0 h0, h0, levelLens_zero]; exact hs
      · exact r1 h0
    obtain ⟨c, ec, hc⟩ := hpost hdl hr hds
    refine ⟨c, ?_, hc⟩
    rw [eu, el]
    exact ec
  refine ⟨?_, ?_, ?_, ?_⟩
  · intro hL m
    refine hfin (r := y) (ds := []) (by rw [hL]; rfl) (fun _ => rfl) (fun h0 => absurd h0 (by omega))
      (by rw [hL]; rfl) (by simp)
  · intro m hm ha
    obtain ⟨r, ds, el, r0, r1, hdl, hds⟩ := decLoop_ok (fun _ _ _ h => h)
      (sepStep_ok (B := prodL (pick (batchAxes x.rank (axesOf h x.rank n)) x.shape)) (n := n) hF hhi hm
        hdt) L ns _ _ hnl hs ha
    exact hfin el r0 r1 hdl hds
  · intro m c hm hc
    rw [eu] at hc
    cases ed : decLoop (sepStep w mode n) L y with
    | error e => rw [ed] at hc; cases hc
    | ok q =>
      exact decLoop_inv (fun _ _ _ h => h)
        (sepStep_ok (B := prodL (pick (batchAxes x.rank (axesOf h x.rank n)) x.shape)) (n := n) hF hhi hm
          hdt)
        (fun ns X t q hn ht hq => sepStep_inv hF hhi hm hdt ht hq) L ns _ _ q hnl hs ed
  · intro hL hm
    rw [eu, decLoop_unknown hL (er := .valueError) (by
        obtain ⟨j, hj⟩ : ∃ j, n = j + 1 := ⟨n - 1, by omega⟩
        unfold sepStep
        rw [hyr, hj]
        simp only [bind, Except.bind, sepDwtn_unknown hF hhi hm (j := j) (t := y) (by rw [hy.md]; exact hdt)
          (by omega)])]
    rfl

end

end Verif
