/-
Property C21 for `MatrixWaverec3` (src/ptwt/matmul_transform_3.py): what a call does to the coefficients it
is given, and what a second call with them returns.
-/
import Verif.Model.MatAlias
import Verif.Lemmas.SepAlias
import Verif.Props.MatN
import Verif.Props.Sep

namespace Verif.Props
open Tensor Spec

/-- **C21, MatrixWaverec3.** The caller's container is left as it was unless the axes are the default ones and
the first tensor has exactly one batch axis. -/
theorem c21_mat3_unchanged {R : Type} [Field R] [DecidableEq R] (la : LinAlg R) (cfg : RecCfgN R) (st : RecStateN R)
    (c : Coeffs R) (t : Tensor R) (ht : headTensor c = .ok t)
    (h : cfg.axes ≠ resolve .none 3 ∨ t.rank ≠ 4) : recArgs3 la cfg st c = c := by
  have hp : preAliases c 3 (.seq cfg.axes) = false := by
    unfold preAliases
    cases ea : ensureAxes (.seq cfg.axes) 3 with
    | error e => rfl
    | ok a =>
      cases ed : getDefaultAxes 3 with
      | error e => rfl
      | ok d =>
        rw [ht]
        simp only [decide_eq_false_iff_not]
        rintro ⟨h1, h2⟩
        rcases h with h | h
        · exact h ((resolve_default ea ed).mp h1)
        · exact h h2
  unfold recArgs3
  cases e : recInputN 3 cfg c with
  | error e => rfl
  | ok q =>
    obtain ⟨c', ds, md, s⟩ := q
    simp only [hp]
    match recPrepareN la cfg md (c'.items.length - 1) s st with
    | (.error _, _) => rfl
    | (.ok _, _) => rfl

/-- A call that succeeds can be repeated with the same coefficients on the same object. -/
theorem recPrepareN_again {R : Type} [Field R] [DecidableEq R] {la : LinAlg R} {cfg : RecCfgN R} {md : Meta} {L : Nat}
    {s : List Nat} {st st' : RecStateN R} (h : recPrepareN la cfg md L s st = (.ok (), st')) :
    recPrepareN la cfg md L s st' = (.ok (), st') := by
  have key : ∀ (k : Nat) (ns : List Nat) (u u' : RecStateN R), recBuildLoopN la cfg md k ns u = (.ok (), u') →
      u'.level = u.level ∧ u'.shape = u.shape := by
    intro k
    induction k with
    | zero => intro ns u u' h; cases h; exact ⟨rfl, rfl⟩
    | succ k ih =>
      intro ns u u' h
      unfold recBuildLoopN at h
      by_cases hs : ∃ n ∈ ns, n < cfg.wavelet.recLo.length
      · rw [if_pos hs] at h; cases h; exact ⟨rfl, rfl⟩
      · rw [if_neg hs] at h
        cases e : levelMatsS la cfg md (matrixPadSizes ns) with
        | error e' => simp only [e] at h; cases h
        | ok ms =>
          simp only [e] at h
          have := ih _ _ _ h
          exact this
  unfold recPrepareN at h
  by_cases hc : st.mats.isEmpty ∨ st.level ≠ some L ∨ st.shape ≠ some s
  · rw [if_pos hc] at h
    obtain ⟨h1, h2⟩ := key _ _ _ _ h
    unfold recPrepareN
    by_cases he : st'.mats.isEmpty
    · rw [if_pos (Or.inl he)]; exact h
    · rw [if_neg]
      rintro (h | h | h)
      · exact he h
      · exact h h1
      · exact h h2
  · rw [if_neg hc] at h
    cases h
    unfold recPrepareN
    rw [if_neg hc]

/-- **C21, all matrix synthesis objects.** A successful call can be repeated: on the same object and with
coefficients that are unchanged it returns the same, however often. -/
theorem c21_mat_same_result {R : Type} [Field R] [DecidableEq R] (n : Nat) (la : LinAlg R) (cfg : RecCfgN R)
    (st : RecStateN R) (c : Coeffs R) (z : Tensor R) (h : (recCallN n la cfg st c).1 = .ok z) (k : Nat) :
    (recCallN n la cfg (afterRecCallsN n la cfg st (List.replicate k c)) c).1 = .ok z := by
  have key : ∀ st : RecStateN R, (recCallN n la cfg st c).1 = .ok z →
      (recCallN n la cfg (recCallN n la cfg st c).2 c).1 = .ok z := by
    intro st h
    cases e : recInputN n cfg c with
    | error e' => unfold recCallN at h; rw [e] at h; cases h
    | ok q =>
      obtain ⟨c', ds, md, s⟩ := q
      cases ep : recPrepareN la cfg md (c'.items.length - 1) s st with
      | mk r st' =>
        cases r with
        | error e' => unfold recCallN at h; simp only [e, ep] at h; cases h
        | ok u =>
          have h2 : (recCallN n la cfg st c) = (recApplyN n cfg st'.mats c' ds, st') := by
            unfold recCallN; simp only [e, ep]
          rw [h2] at h ⊢
          unfold recCallN
          simp only [e, recPrepareN_again ep]
          exact h
  induction k generalizing st with
  | zero => exact h
  | succ k ih => exact ih _ (key st h)

theorem dictSet_new_length {R : Type} [Zero R] {kv : List (String × Tensor R)} {k : String} {t : Tensor R}
    (h : k ∉ kv.map Prod.fst) : dictSet kv k t = kv ++ [(k, t)] := by
  unfold dictSet
  rw [if_neg]
  simp only [List.any_eq_true, not_exists, not_and]
  intro q hq hk
  exact h (List.mem_map.mpr ⟨q, hq, by simpa using hk⟩)

/-- The entries after a loop that succeeded. -/
theorem mrec3Entries_ok {R : Type} [CommRing R] {mats : List (List (Coo R))} : ∀ (k : Nat) (lll r : Tensor R)
    (es : List (Entry R)), mrec3Loop mats k lll es = .ok r →
    (∀ kv, Entry.dict kv ∈ es → "aaa" ∉ kv.map Prod.fst) →
    List.Forall₂ (fun e e' => ∃ kv u, e = .dict kv ∧ kv.length = 7 ∧ e' = .dict (kv ++ [("aaa", u)])) es
      (mrec3Entries mats k lll es)
  | _, _, _, [], _, _ => List.Forall₂.nil
  | k, lll, r, e :: rest, h, hk => by
    unfold mrec3Loop at h
    obtain ⟨r1, e1, h2⟩ := bind_ok_inv h
    have e1' := e1
    unfold mrec3Step at e1
    match e with
    | .dict kv =>
      simp only at e1
      by_cases h7 : kv.length = 7
      · rw [if_pos h7] at e1
        by_cases hs : sameShapes kv = true
        · have : mrec3Entries mats k lll (.dict kv :: rest) =
              .dict (dictSet kv "aaa" lll) :: mrec3Entries mats (k - 1) r1 rest := by
            conv_lhs => unfold mrec3Entries
            simp only
            rw [if_pos ⟨h7, hs⟩, e1']
          rw [this]
          refine List.Forall₂.cons ⟨kv, lll, rfl, h7, ?_⟩
            (mrec3Entries_ok _ _ _ _ h2 fun kv' hm => hk kv' (List.mem_cons_of_mem _ hm))
          rw [dictSet_new_length (hk kv List.mem_cons_self)]
        · rw [if_neg hs] at e1; cases e1
      · rw [if_neg h7] at e1; cases e1
    | .tensor _ => simp only at e1; cases e1
    | .tuple _ _ _ => simp only at e1; cases e1
    | .other => simp only at e1; cases e1

theorem forall2_getLast {α β : Type} {P : α → β → Prop} {l : List α} {l' : List β} (h : List.Forall₂ P l l') {a : α}
    (ha : l.getLast? = some a) : ∃ b, l'.getLast? = some b ∧ P a b := by
  induction h with
  | nil => cases ha
  | @cons x y l l' hxy hl ih =>
    cases hl with
    | nil => cases ha; exact ⟨y, rfl, hxy⟩
    | cons h1 h2 =>
      rw [List.getLast?_cons_cons] at ha ⊢
      exact ih ha

theorem dictGet_append {R : Type} [Zero R] {kv : List (String × Tensor R)} {k : String} {t u : Tensor R} {k' : String}
    (h : dictGet kv k = .ok t) : dictGet (kv ++ [(k', u)]) k = .ok t := by
  unfold dictGet at h ⊢
  rw [List.find?_append]
  cases e : kv.find? (fun p => p.1 = k) with
  | none => rw [e] at h; cases h
  | some q => rw [e] at h; simpa using h

theorem isDict_of_forall2 {R : Type} [Zero R] {es es' : List (Entry R)}
    (h : List.Forall₂ (fun e e' => ∃ kv u, e = Entry.dict kv ∧ kv.length = 7 ∧ e' = Entry.dict (kv ++ [("aaa", u)])) es es') :
    es.all Entry.isDict = true ∧ es'.all Entry.isDict = true := by
  induction h with
  | nil => exact ⟨rfl, rfl⟩
  | cons h1 _ ih =>
    obtain ⟨kv, u, rfl, -, rfl⟩ := h1
    exact ⟨ih.1, ih.2⟩

theorem bind_err_inv' {ε α β : Type} {x : Except ε α} {f : α → Except ε β} {e : ε} (h : x >>= f = .error e) :
    x = .error e ∨ ∃ a, x = .ok a ∧ f a = .error e := by
  cases x with
  | error e' => left; cases h; rfl
  | ok a => exact Or.inr ⟨a, rfl, h⟩

theorem mapM_err' {ε α β : Type} {f : α → Except ε β} {e₀ : ε} (hf : ∀ a e, f a = .error e → e = e₀) :
    ∀ (l : List α) (e : ε), l.mapM f = .error e → e = e₀
  | [], e, h => by cases h
  | a :: l, e, h => by
    rw [List.mapM_cons] at h
    rcases bind_err_inv' h with h | ⟨b, _, h⟩
    · exact hf a e h
    · rcases bind_err_inv' h with h | ⟨b, _, h⟩
      · exact mapM_err' hf l e h
      · cases h

theorem treeMap_err {R : Type} [Zero R] {il : Bool} {t : Tensor R} {es : List (Entry R)}
    {f : Tensor R → Except Err (Tensor R)} (hf : ∀ a e, f a = .error e → e = .valueError) {e : Err}
    (h : coeffTreeMap ⟨il, .tensor t :: es⟩ f = .error e) : e = .valueError := by
  unfold coeffTreeMap at h
  simp only at h
  rcases bind_err_inv' h with h | ⟨a, _, h⟩
  · exact hf _ _ h
  rcases bind_err_inv' h with h | ⟨b, _, h⟩
  · refine mapM_err' ?_ es e h
    intro en e h
    unfold Entry.mapM at h
    match en with
    | .tensor u =>
      simp only at h
      rcases bind_err_inv' h with h | ⟨b, _, h⟩
      · exact hf _ _ h
      · cases h
    | .tuple u v w =>
      simp only at h
      rcases bind_err_inv' h with h | ⟨b, _, h⟩
      · exact hf _ _ h
      rcases bind_err_inv' h with h | ⟨b, _, h⟩
      · exact hf _ _ h
      rcases bind_err_inv' h with h | ⟨b, _, h⟩
      · exact hf _ _ h
      · cases h
    | .dict kv =>
      simp only at h
      rcases bind_err_inv' h with h | ⟨b, _, h⟩
      · refine mapM_err' ?_ kv e h
        intro q e h
        rcases bind_err_inv' h with h | ⟨b, _, h⟩
        · exact hf _ _ h
        · cases h
      · cases h
    | .other => cases h; rfl
  · match b with
    | [] => cases h
    | .tensor _ :: _ => cases h
    | .dict _ :: _ => cases h
    | .tuple _ _ _ :: _ => cases h
    | .other :: _ => cases h

theorem check_err {R : Type} [Zero R] {il : Bool} {t : Tensor R} {es : List (Entry R)} {e : Err}
    (h : checkSameDeviceDtype ⟨il, .tensor t :: es⟩ = .error e) : e = .valueError := by
  unfold checkSameDeviceDtype at h
  simp only [headTensor] at h
  rcases bind_err_inv' h with h | ⟨b, _, h⟩
  · cases h
  rcases bind_err_inv' h with h | ⟨b, _, h⟩
  · refine treeMap_err ?_ h
    intro a e h
    unfold checkSameDevice at h
    split_ifs at h
    cases h; rfl
  rcases bind_err_inv' h with h | ⟨b, _, h⟩
  · refine treeMap_err ?_ h
    intro a e h
    unfold checkSameDtype at h
    split_ifs at h
    cases h; rfl
  · cases h

/-- **C21, MatrixWaverec3, negative.** With the default axes and one batch axis every successful call
modifies the coefficients: each detail dictionary gains an eighth entry `aaa` behind its seven old
entries.  A second call with the same coefficients on the same object raises ValueError.  (The hypothesis on
`aaa` says that the dictionaries are those of a transform; all results of `MatrixWavedec3` meet it.) -/
theorem c21_mat3_second_call_fails {R : Type} [Field R] [DecidableEq R] (la : LinAlg R) (cfg : RecCfgN R)
    (st : RecStateN R) (c : Coeffs R) (t z : Tensor R) (ht : headTensor c = .ok t)
    (hax : cfg.axes = resolve .none 3) (hr : t.rank = 4)
    (hk : ∀ kv, Entry.dict kv ∈ c.items → "aaa" ∉ kv.map Prod.fst)
    (h : (recCallN 3 la cfg st c).1 = .ok z) :
    (recArgs3 la cfg st c).items.head? = c.items.head? ∧
    List.Forall₂ (fun e e' => ∃ kv u, e = Entry.dict kv ∧ kv.length = 7 ∧ e' = Entry.dict (kv ++ [("aaa", u)]))
      c.items.tail (recArgs3 la cfg st c).items.tail ∧
    (recCallN 3 la cfg (recCallN 3 la cfg st c).2 (recArgs3 la cfg st c)).1 = .error .valueError := by
  cases e : recInputN 3 cfg c with
  | error e' => unfold recCallN at h; rw [e] at h; cases h
  | ok q =>
  obtain ⟨c', ds, md, s⟩ := q
  cases ep : recPrepareN la cfg md (c'.items.length - 1) s st with
  | mk r st' =>
  cases r with
  | error e' => unfold recCallN at h; simp only [e, ep] at h; cases h
  | ok u =>
  have h2 : recCallN 3 la cfg st c = (recApplyN 3 cfg st'.mats c' ds, st') := by
    unfold recCallN; simp only [e, ep]
  rw [h2] at h ⊢
  have e' := e
  unfold recInputN at e
  obtain ⟨p, e1, e4⟩ := bind_ok_inv e
  obtain ⟨md', e2, e5⟩ := bind_ok_inv e4
  obtain ⟨s', e3, e6⟩ := bind_ok_inv e5
  clear e e4 e5
  have hal : preAliases c 3 (.seq cfg.axes) = true := by
    have e1' := e1
    unfold preprocessCoeffs at e1'
    rw [if_neg (by omega), ht] at e1'
    obtain ⟨t', et', e1'⟩ := bind_ok_inv e1'
    split_ifs at e1'
    obtain ⟨a, ea, e1'⟩ := bind_ok_inv e1'
    obtain ⟨d, ed, e1'⟩ := bind_ok_inv e1'
    unfold preAliases
    rw [ea, ed, ht]
    simp only [decide_eq_true_eq]
    exact ⟨(resolve_default ea ed).mpr (by rw [hax]; rfl), hr⟩
  have hpc := preprocess_alias e1 hal
  obtain ⟨p1, p2⟩ := p
  simp only at hpc e6 e2 e3
  subst hpc
  cases e6
  -- the container
  obtain ⟨il, items⟩ := c'
  match items, ht with
  | .tensor t₀ :: rest, ht =>
  cases ht
  have hloop : ∃ r, mrec3Loop st'.mats rest.length t rest = .ok r := by
    unfold recApplyN at h
    simp only [headTensor] at h
    obtain ⟨ll, e4, h⟩ := bind_ok_inv h
    cases e4
    rw [if_pos trivial] at h
    obtain ⟨r, e5, h⟩ := bind_ok_inv h
    exact ⟨r, e5⟩
  obtain ⟨r, hloop⟩ := hloop
  have hent := mrec3Entries_ok _ _ _ _ hloop fun kv hm => hk kv (List.mem_cons_of_mem _ hm)
  have hargs : recArgs3 la cfg st ⟨il, .tensor t :: rest⟩ =
      ⟨il, .tensor t :: mrec3Entries st'.mats rest.length t rest⟩ := by
    unfold recArgs3
    simp only [e', ep, hal, if_true]
    rfl
  rw [hargs]
  refine ⟨rfl, hent, ?_⟩
  obtain ⟨hd, hd'⟩ := isDict_of_forall2 hent
  -- the second call
  set es' := mrec3Entries st'.mats rest.length t rest with hes
  have hpre := preprocess_of_head (c := ⟨il, .tensor t :: rest⟩) (c' := ⟨il, .tensor t :: es'⟩) rfl e1 hal
  cases hck : checkSameDeviceDtype (⟨il, .tensor t :: es'⟩ : Coeffs R) with
  | error err =>
    have herr : err = .valueError := check_err hck
    unfold recCallN recInputN
    simp only [bind, Except.bind, hpre, hck, herr]
  | ok m =>
    have hm : m = md := by
      have h1 : md = t.md := by
        unfold checkSameDeviceDtype at e2
        simp only [headTensor] at e2
        obtain ⟨_, h1, e2⟩ := bind_ok_inv e2
        cases h1
        obtain ⟨_, _, e2⟩ := bind_ok_inv e2
        obtain ⟨_, _, e2⟩ := bind_ok_inv e2
        cases e2; rfl
      have h2 : m = t.md := by
        have hck' := hck
        unfold checkSameDeviceDtype at hck'
        simp only [headTensor] at hck'
        obtain ⟨_, h1, hck'⟩ := bind_ok_inv hck'
        cases h1
        obtain ⟨_, _, hck'⟩ := bind_ok_inv hck'
        obtain ⟨_, _, hck'⟩ := bind_ok_inv hck'
        cases hck'; rfl
      rw [h1, h2]
    have hl : es'.length = rest.length := hent.length_eq.symm
    have hrs : recShape 3 (⟨il, .tensor t :: es'⟩ : Coeffs R) = .ok s := by
      unfold recShape at e3 ⊢
      cases hrest : rest with
      | nil => rw [hrest] at e3; simp at e3
      | cons e0 rest' =>
        obtain ⟨a, ha⟩ : ∃ a, rest.getLast? = some a := by
          rw [hrest]; exact ⟨_, List.getLast?_eq_getLast_of_ne_nil (by simp)⟩
        obtain ⟨b, hb, kv, u, rfl, -, rfl⟩ := forall2_getLast hent ha
        have l1 : (Entry.tensor t :: rest).getLast? = some (.dict kv) := by
          rw [← ha, hrest, List.getLast?_cons_cons]
        have l2 : (Entry.tensor t :: es').getLast? = some (.dict (kv ++ [("aaa", u)])) := by
          rw [← hb]
          cases hh : es' with
          | nil => rw [hh] at hb; cases hb
          | cons a l => rw [List.getLast?_cons_cons]
        simp only [l1, if_true] at e3
        simp only [l2, if_true]
        obtain ⟨d, hd1, e3⟩ := bind_ok_inv e3
        simp only [dictGet_append hd1]
        exact e3
    have hin : recInputN 3 cfg (⟨il, .tensor t :: es'⟩ : Coeffs R) = .ok (⟨il, .tensor t :: es'⟩, ds, md, s) := by
      unfold recInputN
      simp only [bind, Except.bind, hpre, hck, hrs, hm]
      rfl
    have hprep := recPrepareN_again ep
    unfold recCallN
    have hlen : (⟨il, .tensor t :: es'⟩ : Coeffs R).items.length - 1 = (⟨il, .tensor t :: rest⟩ : Coeffs R).items.length - 1 := by
      simp [hl]
    simp only [hin]
    rw [hlen, hprep]
    simp only
    -- the first dictionary has eight entries
    have hfirst : ∀ (es es' : List (Entry R)),
        List.Forall₂ (fun e e' => ∃ kv u, e = Entry.dict kv ∧ kv.length = 7 ∧ e' = Entry.dict (kv ++ [("aaa", u)])) es es' →
        es ≠ [] → ∀ k, mrec3Loop st'.mats k t es' = .error .valueError := by
      intro es es' h hne k
      cases h with
      | nil => exact absurd rfl hne
      | cons h0 _ =>
        obtain ⟨kv, u, rfl, h7, rfl⟩ := h0
        unfold mrec3Loop mrec3Step
        simp only [List.length_append, h7]
        rfl
    have hne : rest ≠ [] := by
      rintro rfl
      unfold recShape at e3
      simp at e3
    unfold recApplyN
    simp only [headTensor, bind, Except.bind, if_true, List.tail_cons]
    rw [hfirst rest es' hent hne]

/-- **C21, MatrixWaverec3, negative.** This happens to every transform with the default axes of an input with
one batch axis: the first synthesis returns the reconstruction, the second one on the same
coefficients raises ValueError. -/
theorem c21_mat3_roundtrip_once {la : LinAlg ℝ} (hla : ExactLinAlg la) {w : Wavelet ℝ} {F : Nat} (hw : OrthBank w F)
    {x : Tensor ℝ} {m : Mode} {mode : Option String} {orth : String} {level : Option Int}
    (hr : x.rank = 4) (hdt : x.md.dtype = .float32 ∨ x.md.dtype = .float64)
    (hm : Selects mode m) (ho : orth = "qr" ∨ orth = "gramschmidt") (hlev : ∀ l, level = some l → 1 ≤ l)
    (hne : level = none → ∀ k ∈ sizes (axesOf .none x.rank 3) x.shape, 0 < k)
    (hind : ∀ k, k % 2 = 0 → F ≤ k → (∃ n ∈ sizes (axesOf .none x.rank 3) x.shape, k ≤ evenLen n) → BoundaryIndep w F k)
    {L : Nat} (hL : L = mLevelsN F (levelsN level F (sizes (axesOf .none x.rank 3) x.shape))
      (sizes (axesOf .none x.rank 3) x.shape)) (hL0 : 0 < L) :
    ∃ dcfg dst rcfg rst c z,
      decInitN 3 w level .none orth true mode = .ok (dcfg, dst) ∧ recInitN 3 w .none orth true = .ok (rcfg, rst) ∧
      (decCallN 3 la dcfg dst x).1 = .ok c ∧ (recCallN 3 la rcfg rst c).1 = .ok z ∧
      Reconstructs (axesOf .none x.rank 3) L x z ∧
      (recCallN 3 la rcfg (recCallN 3 la rcfg rst c).2 (recArgs3 la rcfg rst c)).1 = .error .valueError := by
  obtain ⟨dcfg, dst, rcfg, rst, C, c, h1, h2, _, h3, h4, h5⟩ := c43_roundtrip3 hla hw (axes := .none)
    (by rw [hr]; exact exN_axes3) hdt hm ho hlev hne hind hL
  obtain ⟨z, h6, h7, _⟩ := h5 hL0
  refine ⟨dcfg, dst, rcfg, rst, c, z, h1, h2, h3, h6, h7, ?_⟩
  obtain ⟨t, ht, hal⟩ := h4.approx
  refine (c21_mat3_second_call_fails la rcfg rst c t z ?_ ?_ ?_ ?_ h6).2.2
  · unfold headTensor
    cases e : c.items with
    | nil => rw [e] at ht; cases ht
    | cons a l => rw [e] at ht; cases ht; rfl
  · rw [recInitN_ok exN_axes3 ho hw.len.1 hw.len.2.2.1] at h2
    cases h2
    rfl
  · unfold Tensor.rank at hr ⊢
    rw [hal.shape, setMany_length, hr]
  · intro kv hmem
    obtain ⟨i, hi, he⟩ := List.getElem_of_mem hmem
    have hlen := h4.length
    rcases Nat.eq_zero_or_pos i with rfl | h0
    · rw [List.getElem?_eq_getElem hi, he] at ht
      cases ht
    · obtain ⟨e, e1, kv', rfl, hk, -⟩ := h4.detail (L - i) (by omega)
      rw [show L - (L - i) = i by omega, List.getElem?_eq_getElem hi, he] at e1
      cases e1
      rw [hk]
      decide

/-! ### The hypotheses are met -/

example : ∃ la, ExactLinAlg la ∧ ∃ dcfg dst rcfg rst c z,
    decInitN 3 bank4 none .none "qr" true none = .ok (dcfg, dst) ∧
    recInitN 3 bank4 .none "qr" true = .ok (rcfg, rst) ∧
    (decCallN 3 la dcfg dst (Tensor.ofFn ⟨.float32, 0⟩ [2, 7, 6, 9] fun i => (i.getD 1 0 : ℝ))).1 = .ok c ∧
    (recCallN 3 la rcfg rst c).1 = .ok z ∧ z.shape = [2, 8, 6, 10] ∧
    (recCallN 3 la rcfg (recCallN 3 la rcfg rst c).2 (recArgs3 la rcfg rst c)).1 = .error .valueError := by
  obtain ⟨la, hla⟩ := exists_exactLinAlg
  obtain ⟨dcfg, dst, rcfg, rst, c, z, h1, h2, h3, h4, h5, h6⟩ := c21_mat3_roundtrip_once hla bank4_orth
    (x := Tensor.ofFn ⟨.float32, 0⟩ [2, 7, 6, 9] fun i => (i.getD 1 0 : ℝ)) (m := .reflect)
    (mode := none) (orth := "qr") (level := none) rfl (Or.inl rfl)
    (Or.inr ⟨rfl, rfl⟩) (Or.inl rfl)
    (by rintro _ ⟨⟩) (fun _ => by decide) (fun k a b _ => bank4_indep a b) (L := 1) (by decide) (by omega)
  exact ⟨la, hla, dcfg, dst, rcfg, rst, c, z, h1, h2, h3, h4, h5.shape (by omega), h6⟩

/-- Coefficients of an unbatched volume are left alone. -/
example (la : LinAlg ℚ) (st : RecStateN ℚ) : recArgs3 la ⟨⟨[1, 1], [1, -1], [1, 1], [1, -1]⟩, [-3, -2, -1], "qr", true⟩ st
    ⟨false, [.tensor (Tensor.ofFn ⟨.float32, 0⟩ [2, 2, 2] fun _ => 1), .dict []]⟩ =
    ⟨false, [.tensor (Tensor.ofFn ⟨.float32, 0⟩ [2, 2, 2] fun _ => 1), .dict []]⟩ :=
  c21_mat3_unchanged la _ st _ _ rfl (Or.inr (by decide))

end Verif.Props
