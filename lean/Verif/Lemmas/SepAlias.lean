import Verif.Lemmas.SepInv

/-! Repeated calls of the separable inverse transforms on the same container. -/

namespace Verif
open Tensor Spec
variable {R : Type}

theorem bind_ok_inv {ε α β : Type} {x : Except ε α} {f : α → Except ε β} {b : β} (h : x >>= f = .ok b) :
    ∃ a, x = .ok a ∧ f a = .ok b := by
  cases x with
  | error e => cases h
  | ok a => exact ⟨a, rfl, h⟩

section md
variable [Zero R]

theorem reshape_md {t u : Tensor R} {s : List Nat} (h : t.reshape s = .ok u) : u.md = t.md := by
  unfold Tensor.reshape at h
  split_ifs at h
  cases h; rfl

theorem cropTo_md {t u : Tensor R} {s : List Nat} (h : cropTo t s = .ok u) : u.md = t.md := by
  unfold cropTo at h
  split_ifs at h
  cases h; rfl

theorem transposeLast_md {t u : Tensor R} {k : Nat} (h : transposeLast t k = .ok u) : u.md = t.md := by
  unfold transposeLast at h
  split_ifs at h
  cases h; rfl

theorem flatLast_md {t u : Tensor R} (h : flatLast t = .ok u) : u.md = t.md ∧ u.rank = 2 := by
  unfold flatLast at h
  split_ifs at h
  refine ⟨reshape_md h, ?_⟩
  unfold Tensor.reshape at h
  split_ifs at h
  cases h; rfl

theorem squeeze1_md (t : Tensor R) : t.squeeze1.md = t.md := by
  unfold Tensor.squeeze1
  split <;> rfl

theorem cropAxis_md (t : Tensor R) (a l r : Nat) : (cropAxis t a l r).md = t.md := by
  unfold cropAxis
  dsimp only
  split_ifs <;> rfl

theorem stack1_md {t u : Tensor R} {ts : List (Tensor R)} (h : stack1 (t :: ts) = .ok u) : u.md = t.md := by
  unfold stack1 at h
  dsimp only at h
  split at h
  · cases h
  · split_ifs at h
    cases h; rfl

end md

theorem convTranspose1d_md [NonUnitalNonAssocSemiring R] {x w u : Tensor R} {s : Nat}
    (h : convTranspose1d x w s = .ok u) : u.md = x.md := by
  unfold convTranspose1d at h
  split at h
  · split_ifs at h
    cases h; rfl
  · cases h

section
variable [NonUnitalNonAssocSemiring R] {w : Wavelet R}

theorem waverecLoop_md {filt : Tensor R} {F : Nat} : ∀ (his : List (Tensor R)) (lo r : Tensor R),
    waverecLoop filt F lo his = .ok r → r.md = lo.md
  | [], lo, r, h => by
    unfold waverecLoop at h
    cases h; rfl
  | hi :: rest, lo, r, h => by
    unfold waverecLoop at h
    obtain ⟨st, e1, h⟩ := bind_ok_inv h
    obtain ⟨q, e2, h⟩ := bind_ok_inv h
    obtain ⟨p, -, h⟩ := bind_ok_inv h
    rw [waverecLoop_md rest _ _ h, cropAxis_md, squeeze1_md, convTranspose1d_md e2, stack1_md e1]

/-- `waverec` on a pair of rank-2 tensors keeps dtype and device. -/
theorem waverec_pair_md {a d r : Tensor R} (ha : a.rank = 2) (h : waverec [a, d] w .none = .ok r) :
    r.md = a.md := by
  unfold waverec at h
  obtain ⟨p, ep, h⟩ := bind_ok_inv h
  obtain ⟨md, -, h⟩ := bind_ok_inv h
  obtain ⟨filt, -, h⟩ := bind_ok_inv h
  have hl : a.shape.length = 2 := ha
  have hp : p = (Coeffs.ofList [a, d], a.shape) := by
    unfold preprocessCoeffs at ep
    rw [if_neg (by omega)] at ep
    simp only [bind, Except.bind, headTensor, Coeffs.ofList, List.map_cons, ensureAxes, getDefaultAxes] at ep
    split_ifs at ep
    simp only [preSwap, ne_eq, not_true_eq_false, if_false, preFold, hl, preChannel] at ep
    simp at ep
    exact ep.symm
  subst hp
  change (waverecLoop filt w.recLo.length a [d] >>= fun r => postprocessTensor r 1 a.shape .none) = .ok r at h
  obtain ⟨q, eq, h⟩ := bind_ok_inv h
  have hq := waverecLoop_md _ _ _ eq
  unfold postprocessTensor postprocessCoeffs at h
  rw [if_neg (by omega)] at h
  simp only [bind, Except.bind, ensureAxes, getDefaultAxes, postUnfold, hl, postSwap, Coeffs.ofList] at h
  simp [headTensor] at h
  rw [← h, hq]

theorem sepRec1_md {k : Nat} {a d r : Tensor R} (h : sepRec1 w k a d = .ok r) : r.md = a.md := by
  unfold sepRec1 at h
  obtain ⟨a', e1, h⟩ := bind_ok_inv h
  obtain ⟨ta, e2, h⟩ := bind_ok_inv h
  obtain ⟨td, -, h⟩ := bind_ok_inv h
  obtain ⟨fa, e3, h⟩ := bind_ok_inv h
  obtain ⟨fd, -, h⟩ := bind_ok_inv h
  obtain ⟨r1, e4, h⟩ := bind_ok_inv h
  obtain ⟨r2, e5, h⟩ := bind_ok_inv h
  rw [transposeLast_md h, reshape_md e5, waverec_pair_md (flatLast_md e3).2 e4, (flatLast_md e3).1,
    transposeLast_md e2, cropTo_md e1]

theorem dictGet_mem {kv : List (String × Tensor R)} {k : String} {t : Tensor R} (h : dictGet kv k = .ok t) :
    ∃ q ∈ kv, q.2 = t := by
  unfold dictGet at h
  split at h
  · rename_i q hq
    cases h
    exact ⟨_, List.mem_of_find?_eq_some hq, rfl⟩
  · cases h

theorem idwtnLoop_md {md : Meta} {kv : List (String × Tensor R)} (hkv : ∀ q ∈ kv, q.2.md = md) :
    ∀ (ks : List String) (done : List (String × Tensor R)) (r : Tensor R ⊕ List (String × Tensor R)),
      (∀ q ∈ done, q.2.md = md) → idwtnLoop w kv ks done = .ok r →
      (∀ t, r = .inl t → t.md = md) ∧ ∀ l, r = .inr l → ∀ q ∈ l, q.2.md = md
  | [], done, r, hd, h => by
    unfold idwtnLoop at h
    cases h
    exact ⟨fun t ht => (by cases ht), fun l hl => (by cases hl; exact hd)⟩
  | k :: ks, done, r, hd, h => by
    unfold idwtnLoop at h
    obtain ⟨d, -, h⟩ := bind_ok_inv h
    obtain ⟨a, ea, h⟩ := bind_ok_inv h
    have h' : (sepRec1 w k.length a d >>= fun r =>
        if keyTail k = "" then pure (.inl r) else idwtnLoop w kv ks (done ++ [(keyTail k, r)])) = .ok r := by
      rw [← h]
    clear h
    obtain ⟨z, ez, h⟩ := bind_ok_inv h'
    obtain ⟨q, hq, rfl⟩ := dictGet_mem ea
    have hz : z.md = md := (sepRec1_md ez).trans (hkv q hq)
    by_cases hk : keyTail k = ""
    · rw [if_pos hk] at h
      cases h
      exact ⟨fun t ht => (by cases ht; exact hz), fun l hl => (by cases hl)⟩
    · rw [if_neg hk] at h
      refine idwtnLoop_md hkv ks _ r ?_ h
      intro p hp
      rcases List.mem_append.mp hp with hp | hp
      · exact hd p hp
      · rw [List.mem_singleton.mp hp]; exact hz

theorem sepIdwtn_md {md : Meta} : ∀ (n : Nat) (kv : List (String × Tensor R)) (z : Tensor R),
    (∀ q ∈ kv, q.2.md = md) → sepIdwtn w n kv = .ok z → z.md = md
  | 0, kv, z, _, h => by unfold sepIdwtn at h; cases h
  | n + 1, kv, z, hkv, h => by
    unfold sepIdwtn at h
    obtain ⟨ks, -, h⟩ := bind_ok_inv h
    obtain ⟨r, er, h⟩ := bind_ok_inv h
    obtain ⟨h1, h2⟩ := idwtnLoop_md hkv ks [] r (by simp) er
    cases r with
    | inl t => cases h; exact h1 _ rfl
    | inr l => exact sepIdwtn_md n l z (h2 l rfl) h

/-! ### The dictionaries after a call -/

theorem dictSet_idem (kv : List (String × Tensor R)) (k : String) (t : Tensor R) :
    dictSet (dictSet kv k t) k t = dictSet kv k t := by
  have hm : (dictSet kv k t).any (fun p => p.1 = k) = true := by
    rw [List.any_eq_true]
    have := (dictSet_keys (kv := kv) (k := k) (k' := k) (t := t)).mpr (Or.inl rfl)
    obtain ⟨q, hq, e⟩ := List.mem_map.mp this
    exact ⟨q, hq, by simpa using e⟩
  conv_lhs => rw [dictSet, if_pos hm]
  conv_rhs => rw [← List.map_id (dictSet kv k t)]
  apply List.map_congr_left
  intro p hp
  rcases mem_dictSet hp with rfl | ⟨-, h⟩
  · simp
  · simp [h]

theorem foldl_max_spec (l : List Nat) (a : Nat) : a ≤ l.foldl max a ∧ (∀ b ∈ l, b ≤ l.foldl max a) ∧
    (l.foldl max a = a ∨ l.foldl max a ∈ l) := by
  induction l generalizing a with
  | nil => exact ⟨le_rfl, by simp, Or.inl rfl⟩
  | cons c l ih =>
    obtain ⟨h1, h2, h3⟩ := ih (max a c)
    rw [List.foldl_cons]
    refine ⟨le_trans (le_max_left _ _) h1, ?_, ?_⟩
    · intro b hb
      rcases List.mem_cons.mp hb with rfl | hb
      · exact le_trans (le_max_right _ _) h1
      · exact h2 b hb
    · rcases h3 with h3 | h3
      · rw [h3]
        rcases le_total a c with h | h
        · right; rw [max_eq_right h]; exact List.mem_cons_self
        · left; exact max_eq_left h
      · exact Or.inr (List.mem_cons_of_mem _ h3)

theorem maxKeyLen_spec (kv : List (String × Tensor R)) (n : Nat) :
    maxKeyLen kv = .ok n ↔ (∀ q ∈ kv, q.1.length ≤ n) ∧ ∃ q ∈ kv, q.1.length = n := by
  cases kv with
  | nil => simp [maxKeyLen]
  | cons p kv =>
    unfold maxKeyLen
    obtain ⟨h1, h2, h3⟩ := foldl_max_spec (kv.map fun q => q.1.length) p.1.length
    have hle : ∀ q ∈ p :: kv, q.1.length ≤ (kv.map fun q => q.1.length).foldl max p.1.length := by
      intro q hq
      rcases List.mem_cons.mp hq with rfl | hq
      · exact h1
      · exact h2 _ (List.mem_map.mpr ⟨q, hq, rfl⟩)
    have hex : ∃ q ∈ p :: kv, q.1.length = (kv.map fun q => q.1.length).foldl max p.1.length := by
      rcases h3 with h3 | h3
      · exact ⟨p, List.mem_cons_self, h3.symm⟩
      · obtain ⟨q, hq, e⟩ := List.mem_map.mp h3
        exact ⟨q, List.mem_cons_of_mem _ hq, e⟩
    constructor
    · intro h
      cases h
      exact ⟨hle, hex⟩
    · rintro ⟨g1, q, hq, rfl⟩
      obtain ⟨q', hq', e'⟩ := hex
      have a := hle q hq
      have b := g1 q' hq'
      rw [e'] at b
      exact congrArg _ (le_antisymm b a)

theorem aKey_length (n : Nat) : (aKey n).length = n := by
  unfold aKey; rw [String.length_ofList, List.length_replicate]

theorem maxKeyLen_dictSet {kv : List (String × Tensor R)} {n : Nat} (t : Tensor R) (h : maxKeyLen kv = .ok n) :
    maxKeyLen (dictSet kv (aKey n) t) = .ok n := by
  rw [maxKeyLen_spec] at h ⊢
  constructor
  · intro q hq
    rcases mem_dictSet hq with rfl | ⟨hq, -⟩
    · exact le_of_eq (aKey_length n)
    · exact h.1 q hq
  · have := (dictSet_keys (kv := kv) (k := aKey n) (k' := aKey n) (t := t)).mpr (Or.inl rfl)
    obtain ⟨q, hq, e⟩ := List.mem_map.mp this
    exact ⟨q, hq, by rw [e, aKey_length]⟩

/-- A second run over the dictionaries left by the first one changes nothing. -/
theorem sepRecLoop_idem : ∀ (es : List (Entry R)) (t : Tensor R),
    sepRecLoop w t (sepRecLoop w t es).2 = sepRecLoop w t es
  | [], t => rfl
  | .dict kv :: rest, t => by
    rw [sepRecLoop]
    cases em : maxKeyLen kv with
    | error e =>
      simp only
      rw [sepRecLoop, em]
    | ok n =>
      simp only
      cases ez : sepIdwtn w n (dictSet kv (aKey n) t) with
      | error e =>
        simp only
        rw [sepRecLoop, maxKeyLen_dictSet t em]
        simp only [dictSet_idem, ez]
      | ok r =>
        simp only
        rw [sepRecLoop, maxKeyLen_dictSet t em]
        simp only [dictSet_idem, ez, sepRecLoop_idem rest r]
  | .tensor u :: rest, t => by simp only [sepRecLoop]
  | .tuple _ _ _ :: rest, t => by simp only [sepRecLoop]
  | .other :: rest, t => by simp only [sepRecLoop]

theorem sepRecLoop_isDict : ∀ (es : List (Entry R)) (t : Tensor R), es.all Entry.isDict = true →
    (sepRecLoop w t es).2.all Entry.isDict = true
  | [], t, _ => rfl
  | .dict kv :: rest, t, h => by
    have h' : rest.all Entry.isDict = true := by
      rw [List.all_cons, Bool.and_eq_true] at h; exact h.2
    rw [sepRecLoop]
    cases maxKeyLen kv with
    | error e => exact h
    | ok n =>
      simp only
      cases sepIdwtn w n (dictSet kv (aKey n) t) with
      | error e => exact h
      | ok r =>
        simp only [List.all_cons, Bool.and_eq_true]
        exact ⟨rfl, sepRecLoop_isDict rest r h'⟩
  | .tensor u :: rest, t, h => by cases h
  | .tuple _ _ _ :: rest, t, h => by cases h
  | .other :: rest, t, h => by cases h

theorem sepRecLoop_md {md : Meta} : ∀ (es : List (Entry R)) (t : Tensor R), t.md = md →
    (∀ e ∈ es, e.All fun u => u.md = md) → ∀ e ∈ (sepRecLoop w t es).2, e.All fun u => u.md = md
  | [], t, _, _ => by simp [sepRecLoop]
  | .dict kv :: rest, t, ht, h => by
    have hkv : ∀ q ∈ kv, q.2.md = md := h (.dict kv) List.mem_cons_self
    have hr : ∀ e ∈ rest, e.All fun u => u.md = md := fun e he => h e (List.mem_cons_of_mem _ he)
    have hset : ∀ n, ∀ q ∈ dictSet kv (aKey n) t, q.2.md = md := by
      intro n q hq
      rcases mem_dictSet hq with rfl | ⟨hq, -⟩
      · exact ht
      · exact hkv q hq
    rw [sepRecLoop]
    cases maxKeyLen kv with
    | error e => exact h
    | ok n =>
      simp only
      cases ez : sepIdwtn w n (dictSet kv (aKey n) t) with
      | error e =>
        intro e' he'
        rcases List.mem_cons.mp he' with rfl | he'
        · exact hset n
        · exact hr e' he'
      | ok r =>
        intro e' he'
        rcases List.mem_cons.mp he' with rfl | he'
        · exact hset n
        · exact sepRecLoop_md rest r (sepIdwtn_md n _ r (hset n) ez) hr e' he'
  | .tensor u :: rest, t, _, h => by simpa only [sepRecLoop] using h
  | .tuple _ _ _ :: rest, t, _, h => by simpa only [sepRecLoop] using h
  | .other :: rest, t, _, h => by simpa only [sepRecLoop] using h

/-! ### The checks -/

theorem kvMapM_check {f : Tensor R → Except Err (Tensor R)} {P : Tensor R → Prop}
    (h1 : ∀ t, P t → f t = .ok t) (h2 : ∀ t, ¬ P t → ∃ e, f t = .error e) :
    ∀ (kv : List (String × Tensor R)),
      ((∀ q ∈ kv, P q.2) → (kv.mapM fun (x : String × Tensor R) => do let t ← f x.2; pure (x.1, t))
          = (Except.ok kv : Except Err _)) ∧
      (∀ l, (kv.mapM fun (x : String × Tensor R) => do let t ← f x.2; pure (x.1, t))
          = (Except.ok l : Except Err _) → ∀ q ∈ kv, P q.2) := by
  intro kv
  induction kv with
  | nil => exact ⟨fun _ => rfl, fun _ _ => by simp⟩
  | cons p kv ih =>
    constructor
    · intro h
      rw [List.mapM_cons, h1 _ (h p List.mem_cons_self), ih.1 fun q hq => h q (List.mem_cons_of_mem _ hq)]
      rfl
    · intro l hl
      rw [List.mapM_cons] at hl
      obtain ⟨a, ea, hl⟩ := bind_ok_inv hl
      obtain ⟨b, eb, hl⟩ := bind_ok_inv hl
      obtain ⟨u, eu, -⟩ := bind_ok_inv ea
      intro q hq
      rcases List.mem_cons.mp hq with rfl | hq
      · by_contra hP
        obtain ⟨e, he⟩ := h2 _ hP
        rw [he] at eu; cases eu
      · exact ih.2 b eb q hq

theorem entriesMapM_check {f : Tensor R → Except Err (Tensor R)} {P : Tensor R → Prop}
    (h1 : ∀ t, P t → f t = .ok t) (h2 : ∀ t, ¬ P t → ∃ e, f t = .error e) :
    ∀ (es : List (Entry R)), es.all Entry.isDict = true →
      ((∀ e ∈ es, e.All P) → es.mapM (Entry.mapM f) = .ok es) ∧
      (∀ l, es.mapM (Entry.mapM f) = .ok l → ∀ e ∈ es, e.All P)
  | [], _ => ⟨fun _ => rfl, fun _ _ => by simp⟩
  | .dict kv :: es, hd => by
    have hd' : es.all Entry.isDict = true := by
      rw [List.all_cons, Bool.and_eq_true] at hd; exact hd.2
    obtain ⟨k1, k2⟩ := kvMapM_check h1 h2 kv
    obtain ⟨i1, i2⟩ := entriesMapM_check h1 h2 es hd'
    constructor
    · intro h
      rw [List.mapM_cons, i1 fun e he => h e (List.mem_cons_of_mem _ he)]
      have := k1 (h (.dict kv) List.mem_cons_self)
      simp only [Entry.mapM]
      erw [this]
      rfl
    · intro l hl
      rw [List.mapM_cons] at hl
      obtain ⟨a, ea, hl⟩ := bind_ok_inv hl
      obtain ⟨b, eb, hl⟩ := bind_ok_inv hl
      intro e he
      rcases List.mem_cons.mp he with rfl | he
      · simp only [Entry.mapM] at ea
        obtain ⟨u, eu, -⟩ := bind_ok_inv ea
        exact k2 u eu
      · exact i2 b eb e he
  | .tensor u :: rest, h => by cases h
  | .tuple _ _ _ :: rest, h => by cases h
  | .other :: rest, h => by cases h

theorem treeMap_dicts {il : Bool} {t : Tensor R} {es : List (Entry R)} {f : Tensor R → Except Err (Tensor R)}
    {P : Tensor R → Prop} (hd : es.all Entry.isDict = true) (ht : P t)
    (h1 : ∀ t, P t → f t = .ok t) (h2 : ∀ t, ¬ P t → ∃ e, f t = .error e) :
    (∃ c, coeffTreeMap ⟨il, .tensor t :: es⟩ f = .ok c) ↔ ∀ e ∈ es, e.All P := by
  obtain ⟨i1, i2⟩ := entriesMapM_check h1 h2 es hd
  unfold coeffTreeMap
  simp only [h1 t ht]
  constructor
  · rintro ⟨c, hc⟩
    obtain ⟨a, -, hc⟩ := bind_ok_inv hc
    obtain ⟨l, el, -⟩ := bind_ok_inv hc
    exact i2 l el
  · intro h
    rw [i1 h]
    match es, hd with
    | [], _ => exact ⟨_, rfl⟩
    | .dict kv :: es, _ => exact ⟨_, rfl⟩

theorem check_dicts {il : Bool} {t : Tensor R} {es : List (Entry R)} (hd : es.all Entry.isDict = true) :
    ((∃ m, checkSameDeviceDtype ⟨il, .tensor t :: es⟩ = .ok m) → ∀ e ∈ es, e.All fun u => u.md = t.md) ∧
    ((∀ e ∈ es, e.All fun u => u.md = t.md) → checkSameDeviceDtype ⟨il, .tensor t :: es⟩ = .ok t.md) := by
  have a1 := treeMap_dicts (il := il) (P := fun u : Tensor R => t.md.device = u.md.device)
    (f := checkSameDevice t.md.device) hd rfl (fun u hu => if_pos hu) (fun u hu => ⟨_, if_neg hu⟩)
  have a2 := treeMap_dicts (il := il) (P := fun u : Tensor R => t.md.dtype = u.md.dtype)
    (f := checkSameDtype t.md.dtype) hd rfl (fun u hu => if_pos hu) (fun u hu => ⟨_, if_neg hu⟩)
  have hand : ∀ e : Entry R, (e.All fun u => t.md.device = u.md.device) →
      (e.All fun u => t.md.dtype = u.md.dtype) → e.isDict = true → e.All fun u => u.md = t.md := by
    intro e h1 h2 h3
    match e, h3 with
    | .dict kv, _ =>
      intro q hq
      have b1 := h1 q hq
      have b2 := h2 q hq
      cases hm : q.2.md
      cases hm' : t.md
      simp_all
  constructor
  · rintro ⟨m, hm⟩
    unfold checkSameDeviceDtype at hm
    simp only [headTensor] at hm
    obtain ⟨h, eh, hm⟩ := bind_ok_inv hm
    cases eh
    obtain ⟨c1, e1, hm⟩ := bind_ok_inv hm
    obtain ⟨c2, e2, hm⟩ := bind_ok_inv hm
    intro e he
    exact hand e (a1.mp ⟨c1, e1⟩ e he) (a2.mp ⟨c2, e2⟩ e he) (List.all_eq_true.mp hd e he)
  · intro h
    have himp : ∀ {P : Tensor R → Prop}, (∀ u, u.md = t.md → P u) → ∀ e ∈ es, e.All P := by
      intro P hP e he
      have h3 := List.all_eq_true.mp hd e he
      have h4 := h e he
      match e, h3 with
      | .dict kv, _ => exact fun q hq => hP _ (h4 q hq)
    obtain ⟨c1, e1⟩ := a1.mpr (himp fun u hu => by rw [hu])
    obtain ⟨c2, e2⟩ := a2.mpr (himp fun u hu => by rw [hu])
    unfold checkSameDeviceDtype
    simp only [headTensor, bind, Except.bind, e1, e2]
    rfl

theorem resolve_default {h : AxisHint} {n : Nat} {a d : List Int} (ea : ensureAxes h n = .ok a)
    (ed : getDefaultAxes n = .ok d) : a = d ↔ resolve h n = resolve .none n := by
  obtain ⟨rfl, -⟩ := ensureAxes_inv ea
  unfold getDefaultAxes at ed
  split_ifs at ed
  cases ed
  rfl

/-- When preprocessing hands the caller's container on. -/
theorem preprocess_alias {c : Coeffs R} {n : Nat} {h : AxisHint} {p : Coeffs R × List Nat}
    (ep : preprocessCoeffs c n h false = .ok p) (ha : preAliases c n h = true) : p.1 = c := by
  unfold preAliases at ha
  unfold preprocessCoeffs at ep
  by_cases h0 : n = 0
  · rw [if_pos h0] at ep; cases ep
  rw [if_neg h0] at ep
  cases et : headTensor c with
  | error e => rw [et] at ep; cases ep
  | ok t =>
  cases ea : ensureAxes h n with
  | error e => rw [ea] at ha; cases ha
  | ok a =>
  cases ed : getDefaultAxes n with
  | error e => rw [ea, ed] at ha; cases ha
  | ok d =>
  rw [ea, ed, et] at ha
  simp only [decide_eq_true_eq] at ha
  obtain ⟨rfl, hr⟩ := ha
  have hl : t.shape.length = n + 1 := hr
  simp only [bind, Except.bind, et, ea, ed] at ep
  split_ifs at ep
  simp only [preSwap, ne_eq, not_true_eq_false, if_false, et, preFold, hl, preChannel] at ep
  rw [if_neg (by omega), if_neg (by omega), if_neg (by omega)] at ep
  cases ep; rfl

theorem preprocess_of_head {c c' : Coeffs R} {n : Nat} {h : AxisHint} {p : Coeffs R × List Nat}
    (hh : headTensor c' = headTensor c) (ep : preprocessCoeffs c n h false = .ok p)
    (ha : preAliases c n h = true) : preprocessCoeffs c' n h false = .ok (c', p.2) := by
  unfold preAliases at ha
  unfold preprocessCoeffs at ep ⊢
  by_cases h0 : n = 0
  · rw [if_pos h0] at ep; cases ep
  rw [if_neg h0] at ep ⊢
  cases et : headTensor c with
  | error e => rw [et] at ep; cases ep
  | ok t =>
  rw [et] at hh
  cases ea : ensureAxes h n with
  | error e => rw [ea] at ha; cases ha
  | ok a =>
  cases ed : getDefaultAxes n with
  | error e => rw [ea, ed] at ha; cases ha
  | ok d =>
  rw [ea, ed, et] at ha
  simp only [decide_eq_true_eq] at ha
  obtain ⟨rfl, hr⟩ := ha
  have hl : t.shape.length = n + 1 := hr
  simp only [bind, Except.bind, et, ea, ed, hh] at ep ⊢
  split_ifs at ep ⊢
  simp only [preSwap, ne_eq, not_true_eq_false, if_false, et, hh, preFold, hl, preChannel] at ep ⊢
  rw [if_neg (by omega), if_neg (by omega), if_neg (by omega)] at ep ⊢
  cases ep; rfl

theorem sepWaverecn_head (c : Coeffs R) : headTensor (sepWaverecn c w).2 = headTensor c := by
  obtain ⟨il, items⟩ := c
  unfold sepWaverecn
  match items with
  | [] => rfl
  | .tensor t :: rest =>
    simp only
    split_ifs <;> rfl
  | .dict _ :: _ => rfl
  | .tuple _ _ _ :: _ => rfl
  | .other :: _ => rfl

theorem sepWaverecn_idem (c : Coeffs R) : sepWaverecn (sepWaverecn c w).2 w = sepWaverecn c w := by
  obtain ⟨il, items⟩ := c
  match items with
  | [] => rfl
  | .tensor t :: rest =>
    by_cases hd : rest.all Entry.isDict = true
    · have e : sepWaverecn ⟨il, .tensor t :: rest⟩ w
          = ((sepRecLoop w t rest).1, ⟨il, .tensor t :: (sepRecLoop w t rest).2⟩) := by
        unfold sepWaverecn
        simp only [hd, if_true]
      rw [e]
      unfold sepWaverecn
      simp only [sepRecLoop_isDict rest t hd, if_true, sepRecLoop_idem]
    · have e : sepWaverecn ⟨il, .tensor t :: rest⟩ w = (.error .valueError, ⟨il, .tensor t :: rest⟩) := by
        unfold sepWaverecn
        simp only [hd, Bool.false_eq_true, if_false]
      rw [e, e]
  | .dict _ :: _ => rfl
  | .tuple _ _ _ :: _ => rfl
  | .other :: _ => rfl

theorem sepWaverecn_check {c : Coeffs R} {m : Meta} (h : checkSameDeviceDtype c = .ok m) :
    ∃ m', checkSameDeviceDtype (sepWaverecn c w).2 = .ok m' := by
  obtain ⟨il, items⟩ := c
  match items with
  | [] => exact ⟨m, h⟩
  | .tensor t :: rest =>
    by_cases hd : rest.all Entry.isDict = true
    · have e : (sepWaverecn ⟨il, .tensor t :: rest⟩ w).2 = ⟨il, .tensor t :: (sepRecLoop w t rest).2⟩ := by
        unfold sepWaverecn
        simp only [hd, if_true]
      rw [e]
      exact ⟨_, (check_dicts (sepRecLoop_isDict rest t hd)).2
        (sepRecLoop_md rest t rfl ((check_dicts hd).1 ⟨m, h⟩))⟩
    · have e : (sepWaverecn ⟨il, .tensor t :: rest⟩ w).2 = ⟨il, .tensor t :: rest⟩ := by
        unfold sepWaverecn
        simp only [hd, Bool.false_eq_true, if_false]
      rw [e]; exact ⟨m, h⟩
  | .dict _ :: _ => exact ⟨m, h⟩
  | .tuple _ _ _ :: _ => exact ⟨m, h⟩
  | .other :: _ => exact ⟨m, h⟩

/-- A second call on the same container returns the same and leaves the container as it is. -/
theorem fswaverecn_idem (c : Coeffs R) (n : Nat) (h : AxisHint) :
    fswaverecn (fswaverecn c w n h).2 w n h = fswaverecn c w n h := by
  cases ep : preprocessCoeffs c n h false with
  | error e =>
    have : (fswaverecn c w n h).2 = c := by unfold fswaverecn; simp only [ep]
    rw [this]
  | ok p =>
    cases ec : checkSameDeviceDtype p.1 with
    | error e =>
      have : (fswaverecn c w n h).2 = c := by unfold fswaverecn; simp only [ep, ec]
      rw [this]
    | ok m =>
      by_cases ha : preAliases c n h = true
      · have hp := preprocess_alias ep ha
        rw [hp] at ec
        have e1 : fswaverecn c w n h = ((sepWaverecn c w).1 >>= fun r => postprocessTensor r n p.2 h,
            (sepWaverecn c w).2) := by
          unfold fswaverecn
          simp only [ep, hp, ec, ha, if_true]
        have hh := sepWaverecn_head (w := w) c
        obtain ⟨m', em'⟩ := sepWaverecn_check (w := w) ec
        have ha' : preAliases (sepWaverecn c w).2 n h = true := by
          unfold preAliases at ha ⊢
          rw [hh]; exact ha
        rw [e1]
        dsimp only
        unfold fswaverecn
        simp only [preprocess_of_head hh ep ha, em', ha', if_true, sepWaverecn_idem]
      · have : (fswaverecn c w n h).2 = c := by
          unfold fswaverecn
          simp only [ep, ec, ha]
          rfl
        rw [this]

end

end Verif
