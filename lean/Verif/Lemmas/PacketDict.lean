import Verif.Lemmas.PacketsTop
import Verif.Spec.PacketDict

/-! Dictionary operations on packet objects. -/

namespace Verif
open Spec
variable {C T : Type}

/-- The object was initialised with `transform(x, L)`; since then coefficients were only read or
thrown away. -/
structure PartSt (B : Backend C T) (Inv : C → Prop) (Dom : T → Prop) (dec : T → Except Err (List T)) (x : T) (L : Int)
    (st : Pkt C T) : Prop where
  lvl : st.maxlevel = some L
  inv : Inv st.cache
  dom : Dom x
  val : ∀ k v, st.data k = some v →
    (k = [] ∨ (k.length : Int) ≤ L) ∧ (∀ c ∈ k, c ∈ B.alphabet) ∧ walk dec B.alphabet x k = .ok v

section
variable {B : Backend C T} {Inv : C → Prop} {Dom : T → Prop} {dec : T → Except Err (List T)}
  {syn : List T → Except Err T} {x : T} {L : Int}

theorem GoodSt.part {st : Pkt C T} (h : GoodSt B Inv Dom dec x L st) : PartSt B Inv Dom dec x L st :=
  ⟨h.lvl, h.inv, h.dom, h.val⟩

theorem PartSt.good {st : Pkt C T} (h : PartSt B Inv Dom dec x L st) (hr : (st.data []).isSome) :
    GoodSt B Inv Dom dec x L st := by
  obtain ⟨v, hv⟩ := Option.isSome_iff_exists.mp hr
  refine ⟨h.lvl, h.inv, ?_, h.dom, h.val⟩
  have := (h.val _ _ hv).2.2
  rw [walk] at this
  cases this
  exact hv

theorem PartSt.read {st : Pkt C T} (h : PartSt B Inv Dom dec x L st) {k : Key} {v : T} (hv : st.data k = some v) :
    readResult dec B.alphabet L x k = .ok v := by
  obtain ⟨h1, h2, h3⟩ := h.val _ _ hv
  unfold readResult
  by_cases h0 : k = []
  · rw [if_pos h0]; subst h0; rw [walk] at h3; exact h3
  · rw [if_neg h0, if_neg (by rcases h1 with h1 | h1; exact absurd h1 h0; omega), if_pos h2, h3]

/-- Reading from such a state: the pure result, or an exception if no node on the way is there. -/
theorem getitem_part (hP : B.Pure Inv Dom dec syn) (k : Key) :
    ∀ {st : Pkt C T}, PartSt B Inv Dom dec x L st →
    ∃ r st', B.getitem st k = (r, st') ∧ PartSt B Inv Dom dec x L st' ∧
      (∀ k' v, st.data k' = some v → st'.data k' = some v) ∧
      (∀ v, r = .ok v → st'.data k = some v) ∧
      (r = readResult dec B.alphabet L x k ∨ (∃ e, r = .error e) ∧ ∀ p, p <+: k → st.data p = none) := by
  induction k using List.reverseRecOn with
  | nil =>
    intro st hG
    cases hd : st.data [] with
    | some v =>
      refine ⟨_, st, getitem_present hG.lvl hd, hG, fun _ _ h => h, ?_, Or.inl (hG.read hd).symm⟩
      rintro _ ⟨⟩; exact hd
    | none =>
      have : ∃ e, B.getitem st [] = (.error e, st) := by
        rw [Backend.getitem]
        simp only [hG.lvl, hd]
        by_cases hL : L < (([] : Key).length : Int)
        · exact ⟨_, by rw [if_pos hL]⟩
        · exact ⟨_, by rw [if_neg hL]; rfl⟩
      obtain ⟨e, he⟩ := this
      refine ⟨_, st, he, hG, fun _ _ h => h, (fun v h => by cases h), Or.inr ⟨⟨e, rfl⟩, ?_⟩⟩
      intro p hp
      rw [List.prefix_nil.mp hp]; exact hd
  | append_singleton p c ih =>
    intro st hG
    have hne : p ++ [c] ≠ [] := by simp
    cases hd : st.data (p ++ [c]) with
    | some v =>
      refine ⟨_, st, getitem_present hG.lvl hd, hG, fun _ _ h => h, ?_, Or.inl (hG.read hd).symm⟩
      rintro _ ⟨⟩; exact hd
    | none =>
      by_cases hL : L < ((p ++ [c]).length : Int)
      · have hr : readResult dec B.alphabet L x (p ++ [c]) = .error .keyError := by
          unfold readResult; rw [if_neg hne, if_pos hL]
        refine ⟨.error .keyError, st, ?_, hG, fun _ _ h => h, (fun v hv => by cases hv), Or.inl hr.symm⟩
        rw [Backend.getitem]
        simp only [hG.lvl, hd, if_pos hL]
      · by_cases hc : c ∈ B.alphabet
        · obtain ⟨r1, st1, e1, hG1, hm1, hv1, hor⟩ := ih hG
          have hun : B.getitem st (p ++ [c]) =
              andThen (B.getitem st p) fun d st =>
                andThen (B.expandWith st p d) fun _ st => Backend.lookup st (p ++ [c]) := by
            rw [Backend.getitem]
            simp only [hG.lvl, hd, if_neg hL, dif_neg hne, List.getLast_append_singleton,
              List.dropLast_concat, hc, not_true, if_false]
          rw [hun, e1]
          rcases hor with hor | ⟨⟨e, rfl⟩, hno⟩
          swap
          · refine ⟨.error e, st1, rfl, hG1, hm1, (fun v hv => by cases hv), Or.inr ⟨⟨e, rfl⟩, ?_⟩⟩
            intro q hq
            rcases List.prefix_concat_iff.mp hq with rfl | hq
            · exact hd
            · exact hno q hq
          subst hor
          by_cases hp : ∀ c' ∈ p, c' ∈ B.alphabet
          · have hpr : readResult dec B.alphabet L x p = walk dec B.alphabet x p := by
              unfold readResult
              by_cases hp0 : p = []
              · subst hp0; rfl
              · rw [if_neg hp0, if_neg (by simp at hL ⊢; omega), if_pos hp]
            have hpc : ∀ c' ∈ p ++ [c], c' ∈ B.alphabet := by
              intro c' hc'
              rcases List.mem_append.mp hc' with h | h
              · exact hp c' h
              · simp only [List.mem_singleton] at h; rwa [h]
            have hr : readResult dec B.alphabet L x (p ++ [c]) = walk dec B.alphabet x (p ++ [c]) := by
              unfold readResult
              rw [if_neg hne, if_neg hL, if_pos hpc]
            rw [hpr, hr]
            cases hw : walk dec B.alphabet x p with
            | error e =>
              have hw' : walk dec B.alphabet x (p ++ [c]) = .error e := by
                rw [walk_append, hw]; rfl
              exact ⟨.error e, st1, rfl, hG1, hm1, (fun v hv => by cases hv), Or.inl hw'.symm⟩
            | ok d =>
              have hdd : Dom d := walk_dom hP p hG1.dom hw
              simp only [andThen]
              cases hdec : dec d with
              | error e =>
                have hw' := walk_snoc_error (c := c) hw hdec
                obtain ⟨c', hc', e2⟩ := expandWith_error hP hG1.inv p hdd hdec
                rw [e2, hw']
                exact ⟨.error e, _, rfl, ⟨hG1.lvl, hc', hG1.dom, hG1.val⟩, hm1, (fun v hv => by cases hv), Or.inl rfl⟩
              | ok vs =>
                obtain ⟨c', hc', e2⟩ := expandWith_ok hP hG1.inv p hdd hdec
                rw [e2, walk_snoc hw hdec]
                obtain ⟨s1, s2⟩ := store_zip (hP.len _ _ hdd hdec) hP.nodup st1.data p
                obtain ⟨v, hv, hs⟩ := s1 c hc
                rw [hv]
                have hlook : Backend.lookup (⟨Backend.store st1.data p (B.alphabet.zip vs), st1.maxlevel, c'⟩ : Pkt C T)
                    (p ++ [c]) = (.ok v, ⟨Backend.store st1.data p (B.alphabet.zip vs), st1.maxlevel, c'⟩) := by
                  unfold Backend.lookup
                  simp only [hs]
                refine ⟨_, _, hlook, ⟨hG1.lvl, hc', hG1.dom, ?_⟩, ?_, ?_, Or.inl rfl⟩
                · intro k v' hk
                  simp only at hk
                  by_cases hkc : ∃ c'' ∈ B.alphabet, k = p ++ [c'']
                  · obtain ⟨c'', hc'', rfl⟩ := hkc
                    obtain ⟨v'', hv'', hs''⟩ := s1 c'' hc''
                    rw [hs''] at hk
                    cases hk
                    refine ⟨Or.inr ?_, ?_, ?_⟩
                    · simp at hL ⊢; omega
                    · intro c1 h1
                      rcases List.mem_append.mp h1 with h | h
                      · exact hp c1 h
                      · simp only [List.mem_singleton] at h; rwa [h]
                    · rw [walk_snoc hw hdec, hv'']
                  · rw [s2 k (fun c1 h1 h2 => hkc ⟨c1, h1, h2⟩)] at hk
                    exact hG1.val k v' hk
                · intro k v' hk
                  have hk1 := hm1 k v' hk
                  simp only
                  by_cases hkc : ∃ c'' ∈ B.alphabet, k = p ++ [c'']
                  · obtain ⟨c'', hc'', rfl⟩ := hkc
                    obtain ⟨v'', hv'', hs''⟩ := s1 c'' hc''
                    have := (hG1.val _ _ hk1).2.2
                    rw [walk_snoc hw hdec, hv''] at this
                    cases this
                    exact hs''
                  · rw [s2 k (fun c1 h1 h2 => hkc ⟨c1, h1, h2⟩)]
                    exact hk1
                · intro v' hv'
                  cases hv'
                  exact hs
          · have hp0 : p ≠ [] := by rintro rfl; simp at hp
            have hpr : readResult dec B.alphabet L x p = .error .valueError := by
              unfold readResult
              rw [if_neg hp0, if_neg (by simp at hL ⊢; omega), if_neg hp]
            have hr : readResult dec B.alphabet L x (p ++ [c]) = .error .valueError := by
              unfold readResult
              rw [if_neg hne, if_neg hL, if_neg fun h => hp fun c' hc' => h c' (by simp [hc'])]
            rw [hpr, hr]
            exact ⟨_, st1, rfl, hG1, hm1, (fun v hv => by cases hv), Or.inl rfl⟩
        · have hr : readResult dec B.alphabet L x (p ++ [c]) = .error .valueError := by
            unfold readResult
            rw [if_neg hne, if_neg hL, if_neg fun h => hc (h c (by simp))]
          refine ⟨.error .valueError, st, ?_, hG, fun _ _ h => h, (fun v hv => by cases hv), Or.inl hr.symm⟩
          rw [Backend.getitem]
          simp only [hG.lvl, hd, if_neg hL, dif_neg hne, List.getLast_append_singleton, hc,
            not_false_iff, if_true]

theorem initKeys_part (hP : B.Pure Inv Dom dec syn) : ∀ (ks : List Key) {st : Pkt C T}, PartSt B Inv Dom dec x L st →
    PartSt B Inv Dom dec x L (B.initKeys st ks).2 ∧
      ∀ k' v, st.data k' = some v → (B.initKeys st ks).2.data k' = some v
  | [], _, h => ⟨h, fun _ _ h => h⟩
  | k :: ks, st, h => by
    obtain ⟨r, st1, e, h1, hm, -, -⟩ := getitem_part hP k h
    rw [Backend.initKeys, e]
    cases r with
    | error e => exact ⟨h1, hm⟩
    | ok v =>
      obtain ⟨g1, g2⟩ := initKeys_part hP ks h1
      exact ⟨g1, fun k' v' h' => g2 _ _ (hm _ _ h')⟩

theorem delitem_data (st : Pkt C T) (key k : Key) :
    (Backend.delitem st key).2.data k = if k = key then none else st.data k := by
  unfold Backend.delitem
  cases h : st.data key with
  | some v => rfl
  | none =>
    show st.data k = _
    split_ifs with hk
    · rw [hk, h]
    · rfl

theorem delitem_lvl (st : Pkt C T) (key : Key) : (Backend.delitem st key).2.maxlevel = st.maxlevel := by
  unfold Backend.delitem
  cases st.data key <;> rfl

theorem delitem_cache (st : Pkt C T) (key : Key) : (Backend.delitem st key).2.cache = st.cache := by
  unfold Backend.delitem
  cases st.data key <;> rfl

theorem deleted_snd (o : Backend.Out T) (r : Except Err Unit × Pkt C T) : (Backend.deleted o r).2 = r.2 := by
  unfold Backend.deleted
  cases r.1 <;> rfl

theorem delitem_part {st : Pkt C T} (h : PartSt B Inv Dom dec x L st) (key : Key) :
    PartSt B Inv Dom dec x L (Backend.delitem st key).2 := by
  refine ⟨by rw [delitem_lvl]; exact h.lvl, by rw [delitem_cache]; exact h.inv, h.dom, ?_⟩
  intro k v hv
  rw [delitem_data] at hv
  split_ifs at hv with hk
  exact h.val k v hv

/-- What a `try: self[key] except KeyError` does in such a state. -/
theorem tryRead_part (hP : B.Pure Inv Dom dec syn) {st : Pkt C T} (h : PartSt B Inv Dom dec x L st) (key : Key)
    (f : T → Pkt C T → Backend.DictOut T × Pkt C T) (g : Pkt C T → Backend.DictOut T × Pkt C T) :
    ∃ st', PartSt B Inv Dom dec x L st' ∧ (∀ k' v, st.data k' = some v → st'.data k' = some v) ∧
      ((B.tryRead st key f g).2 = st' ∨ (∃ v, B.tryRead st key f g = f v st') ∨ B.tryRead st key f g = g st') := by
  obtain ⟨r, st1, e, h1, hm, -, -⟩ := getitem_part hP key h
  refine ⟨st1, h1, hm, ?_⟩
  unfold Backend.tryRead
  rw [e]
  cases r with
  | ok v => exact Or.inr (Or.inl ⟨v, rfl⟩)
  | error e' =>
    cases e' <;> first | exact Or.inl rfl | exact Or.inr (Or.inr rfl)

/-- One look-up or deletion. -/
theorem dictStep_part (hP : B.Pure Inv Dom dec syn) {st : Pkt C T} (h : PartSt B Inv Dom dec x L st)
    (op : Backend.DictOp T) (ho : LooksUp op) :
    PartSt B Inv Dom dec x L (B.dictStep st op).2 ∧
      ∀ k v, (∀ q, op = .del q → k ≠ q) → (∀ q d, op = .pop q d → k ≠ q) → st.data k = some v →
        (B.dictStep st op).2.data k = some v := by
  cases op with
  | base op =>
    cases op with
    | read k =>
      obtain ⟨r, st', e, h1, h2, -⟩ := getitem_part hP k h
      simp only [Backend.dictStep, Backend.step, e, observe_eq]
      exact ⟨h1, fun k v _ _ hv => h2 k v hv⟩
    | init ks =>
      obtain ⟨h1, h2⟩ := initKeys_part hP ks h
      simp only [Backend.dictStep, Backend.step, observe_eq]
      exact ⟨h1, fun k v _ _ hv => h2 k v hv⟩
    | set k t => exact ho.elim
    | transform x L => exact ho.elim
    | reconstruct => exact ho.elim
  | del q =>
    have e : (B.dictStep st (.del q)).2 = (Backend.delitem st q).2 := by
      rw [Backend.dictStep, deleted_snd]
    rw [e]
    refine ⟨delitem_part h q, ?_⟩
    intro k v hk _ hv
    rw [delitem_data, if_neg (hk q rfl)]; exact hv
  | contains q => exact ⟨h, fun k v _ _ hv => hv⟩
  | get lz q d =>
    rw [Backend.dictStep]
    split_ifs
    · obtain ⟨st', h1, h2, h3⟩ := tryRead_part hP h q (fun v st => (.base (.value v), st)) fun st => (Backend.orNone d, st)
      have e : (B.tryRead st q (fun v st => (.base (.value v), st)) fun st => (Backend.orNone d, st)).2 = st' := by
        rcases h3 with h3 | ⟨v, h3⟩ | h3
        · exact h3
        · rw [h3]
        · rw [h3]
      rw [e]
      exact ⟨h1, fun k v _ _ hv => h2 k v hv⟩
    · exact ⟨h, fun k v _ _ hv => hv⟩
  | pop q d =>
    rw [Backend.dictStep]
    obtain ⟨st', h1, h2, h3⟩ := tryRead_part hP h q (fun v st => Backend.deleted (.value v) (Backend.delitem st q))
      (Backend.popMissing d)
    rcases h3 with h3 | ⟨v, h3⟩ | h3
    · rw [h3]; exact ⟨h1, fun k v _ _ hv => h2 k v hv⟩
    · rw [h3, deleted_snd]
      refine ⟨delitem_part h1 q, ?_⟩
      intro k v' _ hk hv
      rw [delitem_data, if_neg (hk q d rfl)]; exact h2 k v' hv
    · rw [h3]
      cases d <;> exact ⟨h1, fun k v _ _ hv => h2 k v hv⟩
  | setdefault k t => exact ho.elim

theorem dictRun_append (B : Backend C T) : ∀ (a b : List (Backend.DictOp T)) (st : Pkt C T),
    B.dictRun st (a ++ b) =
      ((B.dictRun st a).1 ++ (B.dictRun (B.dictRun st a).2 b).1, (B.dictRun (B.dictRun st a).2 b).2)
  | [], b, st => rfl
  | op :: a, b, st => by
    simp only [List.cons_append, Backend.dictRun, dictRun_append B a b, List.cons_append]

theorem dict_last (B : Backend C T) (st : Pkt C T) (ops : List (Backend.DictOp T)) (op : Backend.DictOp T) :
    (B.dictRun st (ops ++ [op])).1.getLast? = some (B.dictStep (B.dictRun st ops).2 op).1 := by
  rw [dictRun_append]
  simp only [Backend.dictRun, List.getLast?_append, List.getLast?_singleton, Option.some_or]

/-- Look-ups and deletions: the tree stays right, and what is never deleted stays. -/
theorem dictRun_part (hP : B.Pure Inv Dom dec syn) : ∀ (ops : List (Backend.DictOp T)) {st : Pkt C T},
    (∀ op ∈ ops, LooksUp op) → PartSt B Inv Dom dec x L st →
    PartSt B Inv Dom dec x L (B.dictRun st ops).2 ∧
      ∀ k v, (∀ op ∈ ops, (∀ q, op = .del q → k ≠ q) ∧ ∀ q d, op = .pop q d → k ≠ q) → st.data k = some v →
        (B.dictRun st ops).2.data k = some v
  | [], _, _, h => ⟨h, fun _ _ _ h => h⟩
  | op :: ops, st, ho, h => by
    obtain ⟨h1, h2⟩ := dictStep_part hP h op (ho op (by simp))
    obtain ⟨g1, g2⟩ := dictRun_part hP ops (fun o h => ho o (by simp [h])) h1
    exact ⟨g1, fun k v hk hv => g2 k v (fun o h => hk o (by simp [h]))
      (h2 k v (hk op (by simp)).1 (hk op (by simp)).2 hv)⟩

/-- The state after `transform` and look-ups or deletions. -/
theorem dict_transform_part (hP : B.Pure Inv Dom dec syn) {st : Pkt C T} (hi : Inv st.cache) (hx : Dom x)
    {ml : Option Int} (hL : ml = some L ∨ ml = none ∧ B.defaultLevel x = .ok L)
    (ops : List (Backend.DictOp T)) (ho : ∀ op ∈ ops, LooksUp op) :
    PartSt B Inv Dom dec x L (B.dictRun st (.base (.transform x ml) :: ops)).2 ∧
    ((∀ op ∈ ops, ¬ DropsRoot op) → GoodSt B Inv Dom dec x L (B.dictRun st (.base (.transform x ml) :: ops)).2) := by
  obtain ⟨e, hg⟩ := transform_run hP hi x hx ml L hL
  simp only [Backend.dictRun, Backend.dictStep, Backend.step, e, observe_eq]
  obtain ⟨g1, g2⟩ := dictRun_part hP ops ho hg.part
  refine ⟨g1, fun hr => g1.good ?_⟩
  rw [g2 [] x ?_ hg.root]; rfl
  intro op hop
  refine ⟨?_, ?_⟩
  · rintro q rfl hq; exact hr _ hop hq.symm
  · rintro q d rfl hq; exact hr _ hop hq.symm

/-- Outcomes of look-ups in a tree with its root. -/
theorem lookups_good (hP : B.Pure Inv Dom dec syn) {st : Pkt C T} (h : GoodSt B Inv Dom dec x L st) (key : Key)
    (d : Option T) :
    (B.dictStep st (.base (.read key))).1 = .base (outOf .value (readResult dec B.alphabet L x key)) ∧
    (B.dictStep st (.pop key d)).1 = sees (orRaise d) (outOf .value (readResult dec B.alphabet L x key)) ∧
    (B.dictStep st (.get true key d)).1 =
      sees (orNothing d) (outOf .value (readResult dec B.alphabet L x key)) ∧
    (∀ v, readResult dec B.alphabet L x key = .ok v → (B.dictStep st (.pop key d)).2.data key = none) := by
  obtain ⟨st', e, h1, h2, h3⟩ := getitem_good hP key h
  refine ⟨?_, ?_, ?_, ?_⟩
  · simp only [Backend.dictStep, Backend.step, e, observe_eq]
  · simp only [Backend.dictStep, Backend.tryRead, e]
    cases hr : readResult dec B.alphabet L x key with
    | ok v =>
      simp only [Backend.delitem, h3 v hr]
      rfl
    | error e' => cases e' <;> first | rfl | (cases d <;> rfl)
  · simp only [Backend.dictStep, Backend.tryRead, e, Bool.true_or, if_true]
    cases hr : readResult dec B.alphabet L x key with
    | ok v => rfl
    | error e' => cases e' <;> rfl
  · intro v hv
    simp only [Backend.dictStep, Backend.tryRead, e, hv, deleted_snd, delitem_data, if_true]

theorem plain_read (hP : B.Pure Inv Dom dec syn) {st : Pkt C T} (hi : Inv st.cache) (hx : Dom x)
    {ml : Option Int} (hL : ml = some L ∨ ml = none ∧ B.defaultLevel x = .ok L) (key : Key) :
    (B.run st [.transform x ml, .read key]).1.getLast? = some (outOf .value (readResult dec B.alphabet L x key)) := by
  have hg := run_transform_good hP hi hx hL [] (by simp)
  rw [show [Backend.Op.transform x ml, .read key] = [.transform x ml] ++ [.read key] from rfl, last_outcome,
    read_after hP hg]

/-- The outcomes of look-ups after look-ups and deletions. -/
theorem dict_lookups (hP : B.Pure Inv Dom dec syn) {st₀ st₁ : Pkt C T} (h₀ : Inv st₀.cache) (h₁ : Inv st₁.cache)
    (hx : Dom x) {ml : Option Int} (hL : ml = some L ∨ ml = none ∧ B.defaultLevel x = .ok L)
    (ops : List (Backend.DictOp T)) (ho : ∀ op ∈ ops, LooksUp op) (hr : ∀ op ∈ ops, ¬ DropsRoot op) (key : Key)
    (d : Option T) :
    ∃ o, (B.run st₁ [.transform x ml, .read key]).1.getLast? = some o ∧
      (B.dictRun st₀ (.base (.transform x ml) :: ops ++ [.base (.read key)])).1.getLast? = some (.base o) ∧
      (B.dictRun st₀ (.base (.transform x ml) :: ops ++ [.pop key d])).1.getLast? = some (sees (orRaise d) o) ∧
      (B.dictRun st₀ (.base (.transform x ml) :: ops ++ [.get true key d])).1.getLast? =
        some (sees (orNothing d) o) := by
  have hg := (dict_transform_part hP h₀ hx hL ops ho).2 hr
  obtain ⟨l1, l2, l3, -⟩ := lookups_good hP hg key d
  exact ⟨_, plain_read hP h₁ hx hL key, by rw [dict_last, l1], by rw [dict_last, l2], by rw [dict_last, l3]⟩

/-- Even without the root: what is read is right. -/
theorem dict_never_wrong (hP : B.Pure Inv Dom dec syn) {st₀ st₁ : Pkt C T} (h₀ : Inv st₀.cache) (h₁ : Inv st₁.cache)
    (hx : Dom x) {ml : Option Int} (hL : ml = some L ∨ ml = none ∧ B.defaultLevel x = .ok L)
    (ops : List (Backend.DictOp T)) (ho : ∀ op ∈ ops, LooksUp op) (key : Key) (v : T)
    (h : (B.dictRun st₀ (.base (.transform x ml) :: ops ++ [.base (.read key)])).1.getLast? = some (.base (.value v))) :
    (B.run st₁ [.transform x ml, .read key]).1.getLast? = some (.value v) := by
  have hg := (dict_transform_part hP h₀ hx hL ops ho).1
  obtain ⟨r, st', e, -, -, -, hor⟩ := getitem_part hP key hg
  rw [dict_last] at h
  simp only [Backend.dictStep, Backend.step, e, observe_eq, Option.some.injEq, Backend.DictOut.base.injEq] at h
  rw [plain_read hP h₁ hx hL key]
  rcases hor with rfl | ⟨⟨e', rfl⟩, -⟩
  · rw [h]
  · cases h

/-- A run of deletions. -/
theorem dels_data : ∀ (ds : List Key) (st : Pkt C T) (k : Key), k ∉ ds →
    (B.dictRun st (ds.map .del)).2.data k = st.data k
  | [], _, _, _ => rfl
  | q :: ds, st, k, h => by
    simp only [List.map_cons, Backend.dictRun]
    rw [dels_data ds _ k fun hk => h (by simp [hk])]
    rw [Backend.dictStep, deleted_snd, delitem_data, if_neg fun hk => h (by simp [hk])]

/-- Transform, look up, initialise all leaves, throw inner nodes away, reconstruct, read the root. -/
theorem dict_round_trip (hP : B.Pure Inv Dom dec syn) (hC : B.Complete) (hne : B.alphabet ≠ []) (hx : Dom x)
    (hinv : InvertsFrom B.alphabet x dec syn B.fit) {L : Nat} {st₀ : Pkt C T} (hi : Inv st₀.cache)
    {ml : Option Int} (hL : ml = some ((L + 1 : Nat) : Int) ∨ ml = none ∧ B.defaultLevel x = .ok ((L + 1 : Nat) : Int))
    (ops : List (Backend.DictOp T)) (ho : ∀ op ∈ ops, LooksUp op) (hr : ∀ op ∈ ops, ¬ DropsRoot op) {leaves : List Key}
    (hlv : ∀ k : Key, k ∈ leaves ↔ k.length = L + 1 ∧ ∀ c ∈ k, c ∈ B.alphabet)
    (hwalk : ∀ k : Key, k.length = L + 1 → (∀ c ∈ k, c ∈ B.alphabet) → ∃ v, walk dec B.alphabet x k = .ok v)
    (ds : List Key) (hds : ∀ k ∈ ds, k ≠ [] ∧ k.length ≤ L) :
    ∃ vs z, (B.dictRun st₀ (.base (.transform x ml) :: ops ++ [.base (.init leaves)] ++ ds.map .del ++
        [.base .reconstruct] ++ [.base (.read [])])).1.getLast? = some (.base (.value z)) ∧
      dec x = .ok vs ∧ syn vs = .ok z := by
  have hg := (dict_transform_part hP hi hx hL ops ho).2 hr
  have hread : ∀ k ∈ leaves, ∃ v, readResult dec B.alphabet (L + 1 : Nat) x k = .ok v := by
    intro k hk
    obtain ⟨hk1, hk2⟩ := (hlv k).mp hk
    obtain ⟨v, hv⟩ := hwalk k hk1 hk2
    refine ⟨v, ?_⟩
    unfold readResult
    rw [if_neg (by rintro rfl; simp at hk1), if_neg (by rw [hk1]; omega), if_pos hk2, hv]
  have hinit : ∀ (ks : List Key), (∀ k ∈ ks, k ∈ leaves) →
      initResult dec B.alphabet (L + 1 : Nat) x ks = .ok () := by
    intro ks
    induction ks with
    | nil => intro _; rfl
    | cons k ks ih =>
      intro h
      obtain ⟨v, hv⟩ := hread k (h k (by simp))
      rw [initResult, hv]
      exact ih fun k' hk' => h k' (by simp [hk'])
  obtain ⟨st1, e1, hg1, -, h2⟩ := initKeys_good hP leaves hg
  have hst1 : (B.dictRun st₀ (.base (.transform x ml) :: ops ++ [.base (.init leaves)])).2 = st1 := by
    rw [dictRun_append]
    simp only [Backend.dictRun, Backend.dictStep, Backend.step, observe_eq] at e1 ⊢
    rw [e1]
  have hp2 := (dictRun_part hP (ds.map .del) (st := st1) (by
    intro op hop
    obtain ⟨q, -, rfl⟩ := List.mem_map.mp hop
    trivial) hg1.part).1
  have hdat := fun k hk => dels_data (B := B) ds st1 k hk
  have hg2 := hp2.good (by rw [hdat [] fun h => (hds _ h).1 rfl, hg1.root]; rfl)
  obtain ⟨h1, -⟩ := reconstruct_good hP hC hne hinv hg2
  obtain ⟨st', vs, r, e', -, hz, hlvl, hd, hs⟩ := h1 (by
    intro k hk hc
    obtain ⟨v, -, hv⟩ := h2 (hinit leaves fun _ h => h) k ((hlv k).mpr ⟨hk, hc⟩)
    rw [hdat k (fun h => by have := (hds k h).2; omega), hv]; rfl)
  refine ⟨vs, r, ?_, hd, hs⟩
  rw [dict_last, dictRun_append, dictRun_append _ (_ ++ _), hst1]
  have hrun1 : ∀ (st : Pkt C T) op, (B.dictRun st [op]).2 = (B.dictStep st op).2 := fun _ _ => rfl
  simp only [hrun1]
  have e3 : (B.dictStep (B.dictRun st1 (ds.map .del)).2 (.base .reconstruct)).2 = st' := by
    simp only [Backend.dictStep, e']
  rw [e3]
  simp only [Backend.dictStep, Backend.step]
  rw [getitem_present hlvl hz]
  rfl

end

/-! ### Laziness -/

section
variable (B : Backend C T)

theorem expandWith_data {st st' : Pkt C T} {p : Key} {d : T} (h : B.expandWith st p d = (.ok (), st')) (q : Key) :
    (st'.data q).isSome ↔ (st.data q).isSome ∨ ∃ c ∈ B.alphabet, q = p ++ [c] := by
  unfold Backend.expandWith andThen at h
  simp only at h
  cases hd : (B.dec st.cache d).1 with
  | error e => rw [hd] at h; simp at h
  | ok vs =>
    rw [hd] at h
    simp only at h
    split_ifs at h with hl
    · simp only [Prod.mk.injEq, true_and] at h
      subst h
      simp only
      constructor
      · intro hq
        by_cases hc : ∃ c ∈ B.alphabet, q = p ++ [c]
        · exact Or.inr hc
        · left
          rw [store_other] at hq
          · exact hq
          · rintro ⟨c, v⟩ he heq
            exact hc ⟨c, (List.of_mem_zip he).1, heq⟩
      · rintro (hq | ⟨c, hc, rfl⟩)
        · exact store_isSome _ _ _ _ hq
        · obtain ⟨v, -, hm⟩ := zip_mem_of hl hc
          exact store_child _ _ _ _ hm
    · simp at h

/-- Reading a key successfully adds exactly the children of the nodes on the way. -/
theorem getitem_expands (k : Key) : ∀ {st st' : Pkt C T} {v : T} {ks : List Key},
    (∀ q, (st.data q).isSome ↔ Expanded B.alphabet ks q) → B.getitem st k = (.ok v, st') →
    (∀ q, (st'.data q).isSome ↔ Expanded B.alphabet (k :: ks) q) ∧ st'.maxlevel = st.maxlevel := by
  have same : ∀ {st : Pkt C T} {ks : List Key} {k : Key}, (∀ q, (st.data q).isSome ↔ Expanded B.alphabet ks q) →
      (st.data k).isSome → ∀ q, (st.data q).isSome ↔ Expanded B.alphabet (k :: ks) q := by
    intro st ks k hD hk q
    rw [hD]
    constructor
    · rintro (h | ⟨k', hk', r⟩)
      · exact Or.inl h
      · exact Or.inr ⟨k', by simp [hk'], r⟩
    · rintro (h | ⟨k', hk', p, c, rfl, hc, hp, hne⟩)
      · exact Or.inl h
      · rcases List.mem_cons.mp hk' with rfl | hk'
        · rcases (hD _).mp hk with rfl | ⟨k'', hk'', p', c', rfl, hc', hp', hne'⟩
          · exact absurd (List.prefix_nil.mp hp) hne
          · rcases List.prefix_concat_iff.mp hp with h | h
            · exact absurd h hne
            · refine Or.inr ⟨k'', hk'', p, c, rfl, hc, h.trans hp', ?_⟩
              rintro rfl
              exact hne' (hp'.eq_of_length_le h.length_le)
        · exact Or.inr ⟨k', hk', p, c, rfl, hc, hp, hne⟩
  induction k using List.reverseRecOn with
  | nil =>
    intro st st' v ks hD h
    rw [Backend.getitem] at h
    cases hl : st.maxlevel with
    | none => rw [hl] at h; simp at h
    | some L =>
      rw [hl] at h
      simp only at h
      cases hd : st.data [] with
      | none =>
        rw [hd] at h
        simp only at h
        split_ifs at h <;> simp at h
      | some v' =>
        rw [hd] at h
        simp only [Prod.mk.injEq] at h
        rw [← h.2, hl]
        exact ⟨same hD (by rw [hd]; rfl), rfl⟩
  | append_singleton p c ih =>
    intro st st' v ks hD h
    rw [Backend.getitem] at h
    cases hl : st.maxlevel with
    | none => rw [hl] at h; simp at h
    | some L =>
      rw [hl] at h
      simp only at h
      cases hd : st.data (p ++ [c]) with
      | some v' =>
        rw [hd] at h
        simp only [Prod.mk.injEq] at h
        rw [← h.2, hl]
        exact ⟨same hD (by rw [hd]; rfl), rfl⟩
      | none =>
        rw [hd] at h
        simp only at h
        rw [dif_neg (by simp)] at h
        split_ifs at h with h1 h3
        · simp at h
        swap
        · simp at h
        · rw [List.dropLast_concat] at h
          rcases hg : B.getitem st p with ⟨r, st1⟩
          rw [hg] at h
          cases r with
          | error e => simp [andThen] at h
          | ok d =>
            obtain ⟨i1, i2⟩ := ih hD hg
            simp only [andThen] at h
            rcases he : B.expandWith st1 p d with ⟨r2, st2⟩
            rw [he] at h
            cases r2 with
            | error e => simp at h
            | ok u =>
              simp only at h
              have hst : st2 = st' := by
                unfold Backend.lookup at h
                cases hs : st2.data (p ++ [c]) with
                | none => rw [hs] at h; simp at h
                | some _ => rw [hs] at h; simp only [Prod.mk.injEq] at h; exact h.2
              subst hst
              have hlv : st2.maxlevel = st1.maxlevel := by
                unfold Backend.expandWith andThen at he
                simp only at he
                cases hdd : (B.dec st1.cache d).1 with
                | error e => rw [hdd] at he; simp at he
                | ok vs =>
                  rw [hdd] at he
                  simp only at he
                  split_ifs at he
                  · simp only [Prod.mk.injEq, true_and] at he; rw [← he]
                  · simp at he
              refine ⟨?_, by rw [hlv, i2, hl]⟩
              intro q
              rw [expandWith_data B he, i1]
              constructor
              · rintro ((h | ⟨k', hk', p', c', rfl, hc', hp', hne'⟩) | ⟨c', hc', rfl⟩)
                · exact Or.inl h
                · rcases List.mem_cons.mp hk' with rfl | hk'
                  · refine Or.inr ⟨_, List.mem_cons_self .., p', c', rfl, hc', hp'.trans (List.prefix_append _ _), ?_⟩
                    intro heq
                    have := hp'.length_le
                    rw [heq] at this
                    simp only [List.length_append, List.length_singleton] at this
                    omega
                  · exact Or.inr ⟨k', by simp [hk'], p', c', rfl, hc', hp', hne'⟩
                · exact Or.inr ⟨_, List.mem_cons_self .., p, c', rfl, hc', List.prefix_append _ _, by simp⟩
              · rintro (h | ⟨k', hk', p', c', rfl, hc', hp', hne'⟩)
                · exact Or.inl (Or.inl h)
                · rcases List.mem_cons.mp hk' with rfl | hk'
                  · rcases List.prefix_concat_iff.mp hp' with h | h
                    · exact absurd h hne'
                    · by_cases hpp : p' = p
                      · subst hpp; exact Or.inr ⟨c', hc', rfl⟩
                      · exact Or.inl (Or.inr ⟨p, by simp, p', c', rfl, hc', h, hpp⟩)
                  · exact Or.inl (Or.inr ⟨k', by simp [hk'], p', c', rfl, hc', hp', hne'⟩)

end
end Verif
