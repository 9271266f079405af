import Verif.Lemmas.PacketsRec
import Verif.Spec.History

/-! Histories of operations on packet objects. -/

namespace Verif
open Spec
variable {C T : Type}

theorem run_append (B : Backend C T) : ∀ (a b : List (Backend.Op T)) (st : Pkt C T),
    B.run st (a ++ b) = ((B.run st a).1 ++ (B.run (B.run st a).2 b).1, (B.run (B.run st a).2 b).2)
  | [], b, st => rfl
  | op :: a, b, st => by
    simp only [List.cons_append, Backend.run, run_append B a b, List.cons_append]

theorem observe_eq {α : Type} (r : Except Err α × Pkt C T) (f : α → Backend.Out T) :
    Backend.observe r f = (outOf f r.1, r.2) := by
  obtain ⟨a, s⟩ := r
  cases a <;> rfl

section
variable {B : Backend C T} {Inv : C → Prop} {Dom : T → Prop} {dec : T → Except Err (List T)} {syn : List T → Except Err T}

/-- Reading only: the tree stays good, nothing computed is lost. -/
theorem run_reads (hP : B.Pure Inv Dom dec syn) {x : T} {L : Int} : ∀ (ops : List (Backend.Op T)) {st : Pkt C T},
    (∀ op ∈ ops, IsRead op) → GoodSt B Inv Dom dec x L st →
    GoodSt B Inv Dom dec x L (B.run st ops).2 ∧ ∀ k v, st.data k = some v → (B.run st ops).2.data k = some v
  | [], _, _, h => ⟨h, fun _ _ h => h⟩
  | op :: ops, st, ho, h => by
    have hstep : GoodSt B Inv Dom dec x L (B.step st op).2 ∧
        ∀ k v, st.data k = some v → (B.step st op).2.data k = some v := by
      cases op with
      | read k =>
        obtain ⟨st', e, h1, h2, -⟩ := getitem_good hP k h
        rw [Backend.step, e, observe_eq]
        exact ⟨h1, h2⟩
      | init ks =>
        obtain ⟨st', e, h1, h2, -⟩ := initKeys_good hP ks h
        rw [Backend.step, e, observe_eq]
        exact ⟨h1, h2⟩
      | set k t => exact (ho (.set k t) (by simp)).elim
      | transform x L => exact (ho (.transform x L) (by simp)).elim
      | reconstruct => exact (ho .reconstruct (by simp)).elim
    obtain ⟨g1, g2⟩ := run_reads hP ops (fun o h => ho o (by simp [h])) hstep.1
    exact ⟨g1, fun k v hk => g2 k v (hstep.2 k v hk)⟩

/-- The outcome of a read after any reads. -/
theorem read_after (hP : B.Pure Inv Dom dec syn) {x : T} {L : Int} {st : Pkt C T} (h : GoodSt B Inv Dom dec x L st)
    (k : Key) : (B.step st (.read k)).1 = outOf .value (readResult dec B.alphabet L x k) := by
  obtain ⟨st', e, -⟩ := getitem_good hP k h
  rw [Backend.step, e, observe_eq]

/-- `transform` makes a good tree. -/
theorem transform_run (hP : B.Pure Inv Dom dec syn) {st : Pkt C T} (hi : Inv st.cache) (x : T) (hx : Dom x) (ml : Option Int)
    (L : Int) (hL : ml = some L ∨ ml = none ∧ B.defaultLevel x = .ok L) :
    B.transform st x ml = (.ok (), (B.transform st x (some L)).2) ∧
    GoodSt B Inv Dom dec x L (B.transform st x (some L)).2 := by
  refine ⟨?_, (transform_good hP hi x hx L).1⟩
  rcases hL with rfl | ⟨rfl, h⟩
  · rfl
  · unfold Backend.transform
    simp only [h]

/-- The state after `transform` and reads. -/
theorem run_transform_good (hP : B.Pure Inv Dom dec syn) {st : Pkt C T} (hi : Inv st.cache) {x : T} (hx : Dom x)
    {ml : Option Int} {L : Int} (hL : ml = some L ∨ ml = none ∧ B.defaultLevel x = .ok L)
    (ops : List (Backend.Op T)) (ho : ∀ op ∈ ops, IsRead op) :
    GoodSt B Inv Dom dec x L (B.run st (.transform x ml :: ops)).2 := by
  obtain ⟨e, hg⟩ := transform_run hP hi x hx ml L hL
  simp only [Backend.run, Backend.step, e, observe_eq]
  exact (run_reads hP ops ho hg).1

theorem last_outcome (B : Backend C T) (st : Pkt C T) (ops : List (Backend.Op T)) (op : Backend.Op T) :
    (B.run st (ops ++ [op])).1.getLast? = some (B.step (B.run st ops).2 op).1 := by
  rw [run_append]
  simp only [Backend.run, List.getLast?_append, List.getLast?_singleton, Option.some_or]

/-- Reconstruction after `transform` and reads. -/
theorem reconstruct_good (hP : B.Pure Inv Dom dec syn) (hC : B.Complete) (hne : B.alphabet ≠ []) {x : T}
    (hinv : InvertsFrom B.alphabet x dec syn B.fit) {L : Nat} {st : Pkt C T} (hg : GoodSt B Inv Dom dec x ((L + 1 : Nat) : Int) st) :
    ((∀ k, k.length = L + 1 → (∀ c ∈ k, c ∈ B.alphabet) → (st.data k).isSome) →
      ∃ st' vs r, B.step st .reconstruct = (.done, st') ∧
        (∀ k v, k ≠ [] → st.data k = some v → st'.data k = some v) ∧ st'.data [] = some r ∧
        st'.maxlevel = some ((L + 1 : Nat) : Int) ∧ dec x = .ok vs ∧ syn vs = .ok r) ∧
    (¬ (∀ k, k.length = L + 1 → (∀ c ∈ k, c ∈ B.alphabet) → (st.data k).isSome) →
      ∃ st', B.step st .reconstruct = (.raised .keyError, st') ∧
        ∀ k v, st.data k = some v → st'.data k = some v) := by
  obtain ⟨h1, h2⟩ := recLevels_good hP hC hne hinv L hg
  have hstep : B.step st .reconstruct = Backend.observe (B.recLevels st (L + 1)) fun _ => .done := by
    rw [Backend.step]
    unfold Backend.reconstruct
    rw [show st.maxlevel = some _ from hg.lvl]
    rfl
  constructor
  · intro hc
    obtain ⟨st', vs, r, e, hd, hs, h3, h4, -, -, h5⟩ := h1 hc
    exact ⟨st', vs, r, by rw [hstep, e]; rfl, h5, h3, h4, hd, hs⟩
  · intro hc
    obtain ⟨st', e, -, hm⟩ := h2 hc
    exact ⟨st', by rw [hstep, e]; rfl, hm⟩

/-- Transform, read, initialise all leaves, reconstruct, read the root. -/
theorem round_trip_good (hP : B.Pure Inv Dom dec syn) (hC : B.Complete) (hne : B.alphabet ≠ []) {x : T} (hx : Dom x)
    (hinv : InvertsFrom B.alphabet x dec syn B.fit) {L : Nat} {st₀ : Pkt C T} (hi : Inv st₀.cache)
    {ml : Option Int} (hL : ml = some ((L + 1 : Nat) : Int) ∨ ml = none ∧ B.defaultLevel x = .ok ((L + 1 : Nat) : Int))
    (ops : List (Backend.Op T)) (ho : ∀ op ∈ ops, IsRead op) {leaves : List Key}
    (hlv : ∀ k : Key, k ∈ leaves ↔ k.length = L + 1 ∧ ∀ c ∈ k, c ∈ B.alphabet)
    (hwalk : ∀ k : Key, k.length = L + 1 → (∀ c ∈ k, c ∈ B.alphabet) → ∃ v, walk dec B.alphabet x k = .ok v) :
    ∃ vs z, (B.run st₀
        (.transform x ml :: ops ++ [.init leaves] ++ [.reconstruct] ++ [.read []])).1.getLast? = some (.value z) ∧
      dec x = .ok vs ∧ syn vs = .ok z := by
  have hg := run_transform_good hP hi hx hL ops ho
  have hread : ∀ k ∈ leaves, ∃ v, readResult dec B.alphabet (L + 1 : Nat) x k = .ok v := by
    intro k hk
    obtain ⟨hk1, hk2⟩ := (hlv k).mp hk
    obtain ⟨v, hv⟩ := hwalk k hk1 hk2
    refine ⟨v, ?_⟩
    unfold readResult
    rw [if_neg (by rintro rfl; simp at hk1), if_neg (by rw [hk1]; omega), if_pos hk2, hv]
  have hinit : ∀ (ks : List Key), (∀ k ∈ ks, k ∈ leaves) →
      initResult dec B.alphabet (L + 1 : Nat) x ks = .ok () := by
    intro ks
    induction ks with
    | nil => intro _; rfl
    | cons k ks ih =>
      intro h
      obtain ⟨v, hv⟩ := hread k (h k (by simp))
      rw [initResult, hv]
      exact ih fun k' hk' => h k' (by simp [hk'])
  obtain ⟨st1, e1, hg1, -, h2⟩ := initKeys_good hP leaves hg
  have hst1 : (B.run st₀ (.transform x ml :: ops ++ [.init leaves])).2 = st1 := by
    rw [run_append]
    simp only [Backend.run, Backend.step, observe_eq] at e1 ⊢
    rw [e1]
  obtain ⟨h1, -⟩ := reconstruct_good hP hC hne hinv hg1
  obtain ⟨st', vs, r, e', -, hz, hlvl, hd, hs⟩ := h1 (by
    intro k hk hc
    obtain ⟨v, -, hv⟩ := h2 (hinit leaves fun _ h => h) k ((hlv k).mpr ⟨hk, hc⟩)
    rw [hv]; rfl)
  refine ⟨vs, r, ?_, hd, hs⟩
  rw [last_outcome, run_append, hst1]
  have hrun1 : ∀ (st : Pkt C T) op, (B.run st [op]).2 = (B.step st op).2 := fun _ _ => rfl
  simp only [hrun1]
  rw [e']
  simp only [Backend.step]
  rw [getitem_present hlvl hz]
  rfl

theorem rebuild_congr {syn : List T → Except Err T} {fit : T → T → Except Err T} {al : List Char}
    {leaf leaf' old old' : Key → T} {L : Nat}
    (h1 : ∀ k : Key, k.length = L → (∀ c ∈ k, c ∈ al) → leaf k = leaf' k)
    (h2 : ∀ k : Key, k ≠ [] → k.length < L → (∀ c ∈ k, c ∈ al) → ∀ r, fit r (old k) = fit r (old' k)) :
    ∀ (d : Nat) (k : Key), k.length + d = L → (∀ c ∈ k, c ∈ al) →
      rebuild syn fit al leaf old d k = rebuild syn fit al leaf' old' d k
  | 0, k, hk, hc => by rw [rebuild, rebuild, h1 k (by omega) hc]
  | d + 1, k, hk, hc => by
    rw [rebuild, rebuild]
    have : (al.mapM fun c => rebuild syn fit al leaf old d (k ++ [c]))
        = al.mapM fun c => rebuild syn fit al leaf' old' d (k ++ [c]) := by
      have hsub : ∀ l : List Char, (∀ c ∈ l, c ∈ al) →
          (l.mapM fun c => rebuild syn fit al leaf old d (k ++ [c]))
            = l.mapM fun c => rebuild syn fit al leaf' old' d (k ++ [c]) := by
        intro l
        induction l with
        | nil => intro _; rfl
        | cons c l ih =>
          intro hl
          rw [List.mapM_cons, List.mapM_cons, ih fun c h => hl c (by simp [h]),
            rebuild_congr h1 h2 d (k ++ [c]) (by simp; omega) (mem_snoc_alphabet hc (hl c (by simp)))]
      exact hsub al fun _ h => h
    rw [this]
    by_cases hk0 : k = []
    · simp only [if_pos hk0]
    · simp only [if_neg hk0]
      congr 1
      funext vs
      congr 1
      funext r
      exact h2 k hk0 (by omega) hc r

/-- Reconstruction of a full tree is the recursive synthesis of its leaves. -/
theorem reconstruct_leaves (hP : B.Pure Inv Dom dec syn) (hC : B.Complete) {L : Nat} {leaf old : Key → T} {v : T}
    {st : Pkt C T} (hl : st.maxlevel = some (L : Int)) (hi : Inv st.cache)
    (h1 : ∀ k : Key, k.length = L → (∀ c ∈ k, c ∈ B.alphabet) → st.data k = some (leaf k) ∧ Dom (leaf k))
    (h2 : ∀ k : Key, k.length < L → (∀ c ∈ k, c ∈ B.alphabet) → st.data k = some (old k) ∧ Dom (old k))
    (hv : rebuild syn B.fit B.alphabet leaf old L [] = .ok v) :
    ∃ s', B.step st .reconstruct = (.done, s') ∧ s'.data [] = some v := by
  obtain ⟨s', e, -, -, h, -⟩ := recLevels_ok (v := v) (leaf := leaf) (old := old) hP hC
    (fun k a b => (h1 k a b).2) (fun k a b => (h2 k a b).2) hv L (M := (L : Int))
    (st := st) le_rfl hl hi (fun k hk hc => (h2 k hk hc).1) (by
      intro k u hk hc hu
      rw [Nat.sub_self, rebuild] at hu
      cases hu
      exact (h1 k hk hc).1)
  refine ⟨s', ?_, h [] v (by simp) (by simp) hv⟩
  rw [Backend.step]
  unfold Backend.reconstruct
  rw [hl]
  show Backend.observe (B.recLevels st (L : Int).toNat) _ = _
  rw [show ((L : Int)).toNat = L by omega, e]
  rfl

/-- After a successful `transform` the past does not matter. -/
theorem transform_forgets (hP : B.Pure Inv Dom dec syn) {s t : Pkt C T} (hs : Inv s.cache) (ht : Inv t.cache)
    (x : T) (hx : Dom x) (ml : Option Int) (L : Int) (hL : ml = some L ∨ ml = none ∧ B.defaultLevel x = .ok L)
    (ops : List (Backend.Op T)) (ho : ∀ op ∈ ops, OpIn Dom op) :
    (B.run s (.transform x ml :: ops)).1 = (B.run t (.transform x ml :: ops)).1 := by
  obtain ⟨e1, -⟩ := transform_run hP hs x hx ml L hL
  obtain ⟨e2, -⟩ := transform_run hP ht x hx ml L hL
  have hsame : SameSt Inv Dom (B.transform s x (some L)).2 (B.transform t x (some L)).2 :=
    ⟨rfl, rfl, hs, ht, root_dom hx⟩
  have := (sim_run hP ops ho hsame).1
  simp only [Backend.run, Backend.step, e1, e2, observe_eq, outOf, this]

/-! ### Assigned values -/

/-- The children of a node are all present or all absent. -/
def Closed (B : Backend C T) (st : Pkt C T) : Prop :=
  ∀ p c, c ∈ B.alphabet → (st.data (p ++ [c])).isSome → ∀ c' ∈ B.alphabet, (st.data (p ++ [c'])).isSome

theorem store_isSome : ∀ (l : List (Char × T)) (d : PMap Key T) (p k : Key), (d k).isSome →
    (Backend.store d p l k).isSome
  | [], _, _, _, h => h
  | e :: l, d, p, k, h => by
    rw [Backend.store]
    apply store_isSome
    unfold PMap.set
    split_ifs
    · rfl
    · exact h

theorem store_child : ∀ (l : List (Char × T)) (d : PMap Key T) (p : Key), ∀ e ∈ l,
    (Backend.store d p l (p ++ [e.1])).isSome
  | e :: l, d, p, e', he' => by
    rw [Backend.store]
    rcases List.mem_cons.mp he' with rfl | h
    · apply store_isSome; rw [PMap.set_self]; rfl
    · exact store_child l _ p e' h

/-- Expanding a childless node keeps everything there is. -/
theorem expandWith_keeps {st : Pkt C T} (hc : Closed B st) (p : Key) (d : T)
    (hn : ∀ c ∈ B.alphabet, st.data (p ++ [c]) = none) :
    Closed B (B.expandWith st p d).2 ∧
    ∀ k v, st.data k = some v → (B.expandWith st p d).2.data k = some v := by
  unfold Backend.expandWith
  simp only [andThen]
  cases (B.dec st.cache d).1 with
  | error e => exact ⟨hc, fun _ _ h => h⟩
  | ok vs =>
    simp only
    split_ifs with hl
    · have hother : ∀ k, (∀ c ∈ B.alphabet, k ≠ p ++ [c]) →
          Backend.store st.data p (B.alphabet.zip vs) k = st.data k := by
        intro k hk
        apply store_other
        rintro ⟨c, v⟩ he
        exact hk c (List.of_mem_zip he).1
      constructor
      · intro q c hcm hq c' hc'
        simp only at hq ⊢
        by_cases hqp : q = p
        · subst hqp
          obtain ⟨v, -, hv⟩ := zip_mem_of hl hc'
          exact store_child _ _ _ _ hv
        · rw [hother _ (by intro c1 _ h; simp at h; exact hqp h.1)] at hq ⊢
          exact hc q c hcm hq c' hc'
      · intro k v hk
        simp only
        rw [hother]
        · exact hk
        · intro c hcm h
          rw [h, hn c hcm] at hk
          cases hk
    · exact ⟨hc, fun _ _ h => h⟩

theorem getitem_keeps (k : Key) : ∀ {st : Pkt C T}, Closed B st →
    Closed B (B.getitem st k).2 ∧ ∀ k' v, st.data k' = some v → (B.getitem st k).2.data k' = some v := by
  induction hn : k.length using Nat.strong_induction_on generalizing k with
  | _ n ih =>
    subst hn
    intro st hc
    have hlong := getitem_long (B := B) k.dropLast
    rw [Backend.getitem]
    cases st.maxlevel with
    | none => exact ⟨hc, fun _ _ h => h⟩
    | some L =>
      simp only
      cases hd : st.data k with
      | some v => exact ⟨hc, fun _ _ h => h⟩
      | none =>
        simp only
        split_ifs with h1 h2 h3
        · exact ⟨hc, fun _ _ h => h⟩
        · exact ⟨hc, fun _ _ h => h⟩
        · have hlen : k.dropLast.length < k.length := by
            have : k.length ≠ 0 := by simpa using h2
            simp only [List.length_dropLast]; omega
          have hsplit := List.dropLast_append_getLast h2
          have hnone : ∀ c ∈ B.alphabet, st.data (k.dropLast ++ [c]) = none := by
            intro c hcm
            by_contra hne
            have := hc k.dropLast c hcm (by rw [Option.isSome_iff_ne_none]; exact hne) _ h3
            rw [hsplit, hd] at this
            cases this
          obtain ⟨g1, g2⟩ := ih _ hlen k.dropLast rfl hc
          have g3 : ∀ c ∈ B.alphabet, (B.getitem st k.dropLast).2.data (k.dropLast ++ [c]) = none :=
            fun c hcm => hlong _ (by simp) st none (hnone c hcm)
          rcases e : B.getitem st k.dropLast with ⟨r, s⟩
          rw [e] at g1 g2 g3
          cases r with
          | error er => exact ⟨g1, g2⟩
          | ok d =>
            simp only [andThen]
            obtain ⟨f1, f2⟩ := expandWith_keeps g1 k.dropLast d g3
            rcases e' : B.expandWith s k.dropLast d with ⟨r', s'⟩
            rw [e'] at f1 f2
            cases r' with
            | error er => exact ⟨f1, fun k' v h => f2 _ _ (g2 _ _ h)⟩
            | ok u =>
              simp only
              have : (Backend.lookup s' k).2 = s' := by
                unfold Backend.lookup
                cases s'.data k <;> rfl
              rw [this]
              exact ⟨f1, fun k' v h => f2 _ _ (g2 _ _ h)⟩
        · exact ⟨hc, fun _ _ h => h⟩

theorem initKeys_keeps : ∀ (ks : List Key) {st : Pkt C T}, Closed B st →
    Closed B (B.initKeys st ks).2 ∧ ∀ k' v, st.data k' = some v → (B.initKeys st ks).2.data k' = some v
  | [], _, hc => ⟨hc, fun _ _ h => h⟩
  | k :: ks, st, hc => by
    obtain ⟨h1, h2⟩ := getitem_keeps (B := B) k hc
    rw [Backend.initKeys]
    rcases e : B.getitem st k with ⟨r, s⟩
    rw [e] at h1 h2
    cases r with
    | error er => exact ⟨h1, h2⟩
    | ok v =>
      obtain ⟨g1, g2⟩ := initKeys_keeps ks h1
      exact ⟨g1, fun k' v h => g2 _ _ (h2 _ _ h)⟩

theorem run_keeps : ∀ (ops : List (Backend.Op T)) {st : Pkt C T}, Closed B st → AssignsPresent B st ops →
    Closed B (B.run st ops).2 ∧ ∀ k v, st.data k = some v → (∀ t, .set k t ∉ ops) →
      (B.run st ops).2.data k = some v
  | [], _, hc, _ => ⟨hc, fun _ _ h _ => h⟩
  | .read k :: ops, st, hc, ha => by
    have hs : (B.step st (.read k)).2 = (B.getitem st k).2 := by rw [Backend.step, observe_eq]
    obtain ⟨h1, h2⟩ := getitem_keeps (B := B) k hc
    rw [← hs] at h1 h2
    obtain ⟨g1, g2⟩ := run_keeps ops h1 ha
    exact ⟨g1, fun k' v h hn => g2 k' v (h2 _ _ h) fun t ht => hn t (by simp [ht])⟩
  | .init ks :: ops, st, hc, ha => by
    have hs : (B.step st (.init ks)).2 = (B.initKeys st ks).2 := by rw [Backend.step, observe_eq]
    obtain ⟨h1, h2⟩ := initKeys_keeps (B := B) ks hc
    rw [← hs] at h1 h2
    obtain ⟨g1, g2⟩ := run_keeps ops h1 ha
    exact ⟨g1, fun k' v h hn => g2 k' v (h2 _ _ h) fun t ht => hn t (by simp [ht])⟩
  | .set k t :: ops, st, hc, ha => by
    have h0 : ∀ k', ((B.step st (.set k t)).2.data k').isSome ↔ (st.data k').isSome := by
      intro k'
      show ((st.data.set k t) k').isSome ↔ _
      unfold PMap.set
      split_ifs with h
      · subst h; simp [ha.1]
      · rfl
    have h1 : Closed B (B.step st (.set k t)).2 := by
      intro p c hcm hp c' hc'
      rw [h0] at hp ⊢
      exact hc p c hcm hp c' hc'
    obtain ⟨g1, g2⟩ := run_keeps ops h1 ha.2
    refine ⟨g1, fun k' v h hn => g2 k' v ?_ fun t ht => hn t (by simp [ht])⟩
    show (st.data.set k t) k' = some v
    rw [PMap.set_ne _ _ (by rintro rfl; exact hn t (by simp))]
    exact h

theorem assignsPresent_append : ∀ (a b : List (Backend.Op T)) (st : Pkt C T),
    AssignsPresent B st (a ++ b) → AssignsPresent B st a ∧ AssignsPresent B (B.run st a).2 b
  | [], b, st, h => ⟨trivial, h⟩
  | .read k :: a, b, st, h => assignsPresent_append a b _ h
  | .init ks :: a, b, st, h => assignsPresent_append a b _ h
  | .set k t :: a, b, st, h => by
    obtain ⟨h1, h2⟩ := assignsPresent_append a b _ h.2
    exact ⟨⟨h.1, h1⟩, h2⟩

theorem closed_transform (st : Pkt C T) (x : T) (ml : Option Int) : Closed B (B.transform st x ml).2 := by
  have hd : (B.transform st x ml).2.data = PMap.set (fun _ => none) [] x := by
    unfold Backend.transform
    cases ml with
    | some L => rfl
    | none =>
      simp only
      cases B.defaultLevel x <;> rfl
  intro p c _ h
  rw [hd] at h
  simp [PMap.set] at h

end
end Verif
