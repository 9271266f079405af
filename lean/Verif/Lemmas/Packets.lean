import Verif.Model.Packets
import Verif.Spec.Packets
import Verif.Spec.History
import Mathlib.Data.List.Nodup

/-! Wavelet packet objects: reads, histories, reconstruction, for any backend that behaves like a
pure function of its input. -/

namespace Verif
open Spec
variable {C T : Type}

/-- On the tensors in `Dom` the transforms of a backend are functions of their input, whatever is
cached (as long as the cache satisfies `Inv`). -/
structure Backend.Pure (B : Backend C T) (Inv : C → Prop) (Dom : T → Prop) (dec : T → Except Err (List T))
    (syn : List T → Except Err T) : Prop where
  decRes : ∀ c t, Inv c → Dom t → (B.dec c t).1 = dec t
  decInv : ∀ c t, Inv c → Dom t → Inv (B.dec c t).2
  decDom : ∀ t vs, Dom t → dec t = .ok vs → ∀ v ∈ vs, Dom v
  synRes : ∀ c ts, Inv c → (∀ t ∈ ts, Dom t) → (B.syn c ts).1 = syn ts
  synInv : ∀ c ts, Inv c → (∀ t ∈ ts, Dom t) → Inv (B.syn c ts).2
  synDom : ∀ ts r, (∀ t ∈ ts, Dom t) → syn ts = .ok r → Dom r
  fitDom : ∀ r old z, Dom r → Dom old → B.fit r old = .ok z → Dom z
  len : ∀ t vs, Dom t → dec t = .ok vs → vs.length = B.alphabet.length
  nodup : B.alphabet.Nodup

/-- The object was initialised with `transform(x, L)` and only read since. -/
structure GoodSt (B : Backend C T) (Inv : C → Prop) (Dom : T → Prop) (dec : T → Except Err (List T)) (x : T) (L : Int)
    (st : Pkt C T) : Prop where
  lvl : st.maxlevel = some L
  inv : Inv st.cache
  root : st.data [] = some x
  dom : Dom x
  val : ∀ k v, st.data k = some v →
    (k = [] ∨ (k.length : Int) ≤ L) ∧ (∀ c ∈ k, c ∈ B.alphabet) ∧ walk dec B.alphabet x k = .ok v

theorem PMap.set_self {α β : Type} [DecidableEq α] (d : PMap α β) (k : α) (v : β) : d.set k v k = some v := by
  unfold PMap.set; rw [if_pos rfl]

theorem PMap.set_ne {α β : Type} [DecidableEq α] (d : PMap α β) {k k' : α} (v : β) (h : k' ≠ k) :
    d.set k v k' = d k' := by
  unfold PMap.set; rw [if_neg h]

theorem store_other : ∀ (l : List (Char × T)) (d : PMap Key T) (p k : Key),
    (∀ e ∈ l, k ≠ p ++ [e.1]) → Backend.store d p l k = d k
  | [], _, _, _, _ => rfl
  | e :: l, d, p, k, h => by
    rw [Backend.store, store_other l _ p k fun e' he' => h e' (by simp [he']),
      PMap.set_ne _ _ (h e (by simp))]

theorem store_mem : ∀ (l : List (Char × T)) (d : PMap Key T) (p : Key), (l.map (·.1)).Nodup →
    ∀ e ∈ l, Backend.store d p l (p ++ [e.1]) = some e.2
  | e :: l, d, p, hn, e', he' => by
    rw [Backend.store]
    rcases List.mem_cons.mp he' with rfl | h
    · rw [store_other, PMap.set_self]
      intro e'' he'' heq
      have hc : e'.1 = e''.1 := by simpa using heq
      simp only [List.map_cons, List.nodup_cons] at hn
      exact hn.1 (List.mem_map.mpr ⟨e'', he'', hc.symm⟩)
    · simp only [List.map_cons, List.nodup_cons] at hn
      exact store_mem l _ p hn.2 e' h

theorem zip_mem_of {al : List Char} {vs : List T} (hl : vs.length = al.length) {c : Char} (hc : c ∈ al) :
    ∃ v, vs[al.idxOf c]? = some v ∧ (c, v) ∈ al.zip vs := by
  have hi : al.idxOf c < al.length := List.idxOf_lt_length_iff.mpr hc
  refine ⟨vs[al.idxOf c]'(by omega), by rw [List.getElem?_eq_getElem], ?_⟩
  have h2 : al.idxOf c < (al.zip vs).length := by rw [List.length_zip]; omega
  have := List.getElem_mem h2
  rw [List.getElem_zip, List.getElem_idxOf] at this
  exact this

theorem zip_fst_nodup {al : List Char} {vs : List T} (hl : vs.length = al.length) (hn : al.Nodup) :
    ((al.zip vs).map (·.1)).Nodup := by
  rw [List.map_fst_zip (by omega)]; exact hn

/-- The store of an expanded node: the children are the bands, everything else is kept. -/
theorem store_zip {al : List Char} {vs : List T} (hl : vs.length = al.length) (hn : al.Nodup)
    (d : PMap Key T) (p : Key) :
    (∀ c, c ∈ al → ∃ v, pickBand al vs c = .ok v ∧ Backend.store d p (al.zip vs) (p ++ [c]) = some v) ∧
    ∀ k, (∀ c ∈ al, k ≠ p ++ [c]) → Backend.store d p (al.zip vs) k = d k := by
  constructor
  · intro c hc
    obtain ⟨v, h1, h2⟩ := zip_mem_of hl hc
    refine ⟨v, by unfold pickBand; rw [h1], store_mem _ _ _ (zip_fst_nodup hl hn) _ h2⟩
  · intro k hk
    apply store_other
    rintro ⟨c, v⟩ he
    exact hk c (List.of_mem_zip he).1

theorem walk_append (dec : T → Except Err (List T)) (al : List Char) : ∀ (p q : Key) (x : T),
    walk dec al x (p ++ q) = (walk dec al x p >>= fun v => walk dec al v q)
  | [], _, _ => rfl
  | c :: p, q, x => by
    simp only [List.cons_append, walk, bind, Except.bind]
    cases dec x with
    | error e => rfl
    | ok vs =>
      simp only
      cases pickBand al vs c with
      | error e => rfl
      | ok v => exact walk_append dec al p q v

theorem walk_snoc {dec : T → Except Err (List T)} {al : List Char} {p : Key} {x v : T} {c : Char}
    {vs : List T} (h1 : walk dec al x p = .ok v) (h2 : dec v = .ok vs) :
    walk dec al x (p ++ [c]) = pickBand al vs c := by
  rw [walk_append, h1]
  simp only [bind, Except.bind, walk, h2]
  cases pickBand al vs c <;> rfl

theorem walk_snoc_error {dec : T → Except Err (List T)} {al : List Char} {p : Key} {x v : T} {c : Char}
    {e : Err} (h1 : walk dec al x p = .ok v) (h2 : dec v = .error e) :
    walk dec al x (p ++ [c]) = .error e := by
  rw [walk_append, h1]
  simp only [bind, Except.bind, walk, h2]

theorem expandWith_ok {B : Backend C T} {Inv : C → Prop} {Dom : T → Prop} {dec : T → Except Err (List T)}
    {syn : List T → Except Err T} (hP : B.Pure Inv Dom dec syn) {st : Pkt C T} (hi : Inv st.cache)
    (p : Key) {d : T} (hd : Dom d) {vs : List T} (h : dec d = .ok vs) :
    ∃ c, Inv c ∧ B.expandWith st p d =
      (.ok (), { st with data := Backend.store st.data p (B.alphabet.zip vs), cache := c }) := by
  have h1 := hP.decRes st.cache d hi hd
  have h2 := hP.decInv st.cache d hi hd
  refine ⟨_, h2, ?_⟩
  unfold Backend.expandWith andThen
  simp only [h1, h, if_pos (hP.len _ _ hd h)]

theorem expandWith_error {B : Backend C T} {Inv : C → Prop} {Dom : T → Prop} {dec : T → Except Err (List T)}
    {syn : List T → Except Err T} (hP : B.Pure Inv Dom dec syn) {st : Pkt C T} (hi : Inv st.cache)
    (p : Key) {d : T} (hd : Dom d) {e : Err} (h : dec d = .error e) :
    ∃ c, Inv c ∧ B.expandWith st p d = (.error e, { st with cache := c }) := by
  have h1 := hP.decRes st.cache d hi hd
  have h2 := hP.decInv st.cache d hi hd
  refine ⟨_, h2, ?_⟩
  unfold Backend.expandWith andThen
  simp only [h1, h]

theorem walk_dom {B : Backend C T} {Inv : C → Prop} {Dom : T → Prop} {dec : T → Except Err (List T)}
    {syn : List T → Except Err T} (hP : B.Pure Inv Dom dec syn) : ∀ (k : Key) {x v : T}, Dom x →
    walk dec B.alphabet x k = .ok v → Dom v
  | [], _, _, hx, h => by cases h; exact hx
  | c :: k, x, v, hx, h => by
    rw [walk] at h
    simp only [bind, Except.bind] at h
    cases hd : dec x with
    | error e => rw [hd] at h; cases h
    | ok vs =>
      rw [hd] at h
      simp only at h
      cases hp : pickBand B.alphabet vs c with
      | error e => rw [hp] at h; cases h
      | ok u =>
        rw [hp] at h
        refine walk_dom hP k (hP.decDom x vs hx hd u ?_) h
        unfold pickBand at hp
        cases hi : vs[B.alphabet.idxOf c]? with
        | none => rw [hi] at hp; cases hp
        | some u' =>
          rw [hi] at hp
          cases hp
          exact List.mem_of_getElem? hi

theorem getitem_present {B : Backend C T} {st : Pkt C T} {L : Int} {k : Key} {v : T}
    (h : st.maxlevel = some L) (hv : st.data k = some v) : B.getitem st k = (.ok v, st) := by
  rw [Backend.getitem]
  simp only [h, hv]

/-- Reading from a good state. -/
theorem getitem_good {B : Backend C T} {Inv : C → Prop} {Dom : T → Prop} {dec : T → Except Err (List T)}
    {syn : List T → Except Err T} (hP : B.Pure Inv Dom dec syn) {x : T} {L : Int} (k : Key) :
    ∀ {st : Pkt C T}, GoodSt B Inv Dom dec x L st →
    ∃ st', B.getitem st k = (readResult dec B.alphabet L x k, st') ∧ GoodSt B Inv Dom dec x L st' ∧
      (∀ k' v, st.data k' = some v → st'.data k' = some v) ∧
      ∀ v, readResult dec B.alphabet L x k = .ok v → st'.data k = some v := by
  induction k using List.reverseRecOn with
  | nil =>
    intro st hG
    refine ⟨st, ?_, hG, fun _ _ h => h, ?_⟩
    · rw [getitem_present hG.lvl hG.root]; rfl
    · intro v hv
      simp only [readResult, if_true, Except.ok.injEq] at hv
      rw [← hv]; exact hG.root
  | append_singleton p c ih =>
    intro st hG
    have hne : p ++ [c] ≠ [] := by simp
    cases hd : st.data (p ++ [c]) with
    | some v =>
      obtain ⟨h1, h2, h3⟩ := hG.val _ _ hd
      have hr : readResult dec B.alphabet L x (p ++ [c]) = .ok v := by
        unfold readResult
        rw [if_neg hne, if_neg (by rcases h1 with h1 | h1; exact absurd h1 hne; omega), if_pos h2, h3]
      refine ⟨st, ?_, hG, fun _ _ h => h, ?_⟩
      · rw [getitem_present hG.lvl hd, hr]
      · intro v' hv'
        rw [hr] at hv'
        cases hv'
        exact hd
    | none =>
      by_cases hL : L < ((p ++ [c]).length : Int)
      · have hr : readResult dec B.alphabet L x (p ++ [c]) = .error .keyError := by
          unfold readResult; rw [if_neg hne, if_pos hL]
        refine ⟨st, ?_, hG, fun _ _ h => h, fun v hv => by rw [hr] at hv; cases hv⟩
        rw [Backend.getitem]
        simp only [hG.lvl, hd, if_pos hL, hr]
      · by_cases hc : c ∈ B.alphabet
        · obtain ⟨st1, e1, hG1, hm1, hv1⟩ := ih hG
          have hun : B.getitem st (p ++ [c]) =
              andThen (B.getitem st p) fun d st =>
                andThen (B.expandWith st p d) fun _ st => Backend.lookup st (p ++ [c]) := by
            rw [Backend.getitem]
            simp only [hG.lvl, hd, if_neg hL, dif_neg hne, List.getLast_append_singleton,
              List.dropLast_concat, hc, not_true, if_false]
          rw [hun, e1]
          by_cases hp : ∀ c' ∈ p, c' ∈ B.alphabet
          · have hpr : readResult dec B.alphabet L x p = walk dec B.alphabet x p := by
              unfold readResult
              by_cases hp0 : p = []
              · subst hp0; rfl
              · rw [if_neg hp0, if_neg (by simp at hL ⊢; omega), if_pos hp]
            have hpc : ∀ c' ∈ p ++ [c], c' ∈ B.alphabet := by
              intro c' hc'
              rcases List.mem_append.mp hc' with h | h
              · exact hp c' h
              · simp only [List.mem_singleton] at h; rwa [h]
            have hr : readResult dec B.alphabet L x (p ++ [c]) = walk dec B.alphabet x (p ++ [c]) := by
              unfold readResult
              rw [if_neg hne, if_neg hL, if_pos hpc]
            rw [hpr, hr]
            cases hw : walk dec B.alphabet x p with
            | error e =>
              have hw' : walk dec B.alphabet x (p ++ [c]) = .error e := by
                rw [walk_append, hw]; rfl
              exact ⟨st1, by rw [hw']; rfl, hG1, hm1, fun v hv => by rw [hw'] at hv; cases hv⟩
            | ok d =>
              have hdd : Dom d := walk_dom hP p hG1.dom hw
              simp only [andThen]
              cases hdec : dec d with
              | error e =>
                have hw' := walk_snoc_error (c := c) hw hdec
                obtain ⟨c', hc', e2⟩ := expandWith_error hP hG1.inv p hdd hdec
                rw [e2, hw']
                exact ⟨_, rfl, ⟨hG1.lvl, hc', hG1.root, hG1.dom, hG1.val⟩, hm1, fun v hv => by cases hv⟩
              | ok vs =>
                obtain ⟨c', hc', e2⟩ := expandWith_ok hP hG1.inv p hdd hdec
                rw [e2, walk_snoc hw hdec]
                obtain ⟨s1, s2⟩ := store_zip (hP.len _ _ hdd hdec) hP.nodup st1.data p
                obtain ⟨v, hv, hs⟩ := s1 c hc
                rw [hv]
                have hlook : Backend.lookup (⟨Backend.store st1.data p (B.alphabet.zip vs), st1.maxlevel, c'⟩ : Pkt C T)
                    (p ++ [c]) = (.ok v, ⟨Backend.store st1.data p (B.alphabet.zip vs), st1.maxlevel, c'⟩) := by
                  unfold Backend.lookup
                  simp only [hs]
                refine ⟨_, hlook, ⟨hG1.lvl, hc', ?_, hG1.dom, ?_⟩, ?_, ?_⟩
                · simp only
                  rw [s2 [] (by intro _ _ h; simp at h)]
                  exact hG1.root
                · intro k v' hk
                  simp only at hk
                  by_cases hkc : ∃ c'' ∈ B.alphabet, k = p ++ [c'']
                  · obtain ⟨c'', hc'', rfl⟩ := hkc
                    obtain ⟨v'', hv'', hs''⟩ := s1 c'' hc''
                    rw [hs''] at hk
                    cases hk
                    refine ⟨Or.inr ?_, ?_, ?_⟩
                    · simp at hL ⊢; omega
                    · intro c1 h1
                      rcases List.mem_append.mp h1 with h | h
                      · exact hp c1 h
                      · simp only [List.mem_singleton] at h; rwa [h]
                    · rw [walk_snoc hw hdec, hv'']
                  · rw [s2 k (fun c1 h1 h2 => hkc ⟨c1, h1, h2⟩)] at hk
                    exact hG1.val k v' hk
                · intro k v' hk
                  have hk1 := hm1 k v' hk
                  simp only
                  by_cases hkc : ∃ c'' ∈ B.alphabet, k = p ++ [c'']
                  · obtain ⟨c'', hc'', rfl⟩ := hkc
                    obtain ⟨v'', hv'', hs''⟩ := s1 c'' hc''
                    have := (hG1.val _ _ hk1).2.2
                    rw [walk_snoc hw hdec, hv''] at this
                    cases this
                    exact hs''
                  · rw [s2 k (fun c1 h1 h2 => hkc ⟨c1, h1, h2⟩)]
                    exact hk1
                · intro v' hv'
                  cases hv'
                  exact hs
          · have hp0 : p ≠ [] := by rintro rfl; simp at hp
            have hpr : readResult dec B.alphabet L x p = .error .valueError := by
              unfold readResult
              rw [if_neg hp0, if_neg (by simp at hL ⊢; omega), if_neg hp]
            have hr : readResult dec B.alphabet L x (p ++ [c]) = .error .valueError := by
              unfold readResult
              rw [if_neg hne, if_neg hL, if_neg fun h => hp fun c' hc' => h c' (by simp [hc'])]
            rw [hpr, hr]
            exact ⟨st1, rfl, hG1, hm1, fun v hv => by cases hv⟩
        · have hr : readResult dec B.alphabet L x (p ++ [c]) = .error .valueError := by
            unfold readResult
            rw [if_neg hne, if_neg hL, if_neg fun h => hc (h c (by simp))]
          refine ⟨st, ?_, hG, fun _ _ h => h, fun v hv => by rw [hr] at hv; cases hv⟩
          rw [Backend.getitem]
          simp only [hG.lvl, hd, if_neg hL, dif_neg hne, List.getLast_append_singleton, hc,
            not_false_iff, if_true, hr]

/-- The outcome of reading several keys. -/
def initResult (dec : T → Except Err (List T)) (al : List Char) (L : Int) (x : T) : List Key → Except Err Unit
  | [] => .ok ()
  | k :: ks =>
    match readResult dec al L x k with
    | .error e => .error e
    | .ok _ => initResult dec al L x ks

theorem initKeys_good {B : Backend C T} {Inv : C → Prop} {Dom : T → Prop} {dec : T → Except Err (List T)}
    {syn : List T → Except Err T} (hP : B.Pure Inv Dom dec syn) {x : T} {L : Int} :
    ∀ (ks : List Key) {st : Pkt C T}, GoodSt B Inv Dom dec x L st →
    ∃ st', B.initKeys st ks = (initResult dec B.alphabet L x ks, st') ∧ GoodSt B Inv Dom dec x L st' ∧
      (∀ k' v, st.data k' = some v → st'.data k' = some v) ∧
      (initResult dec B.alphabet L x ks = .ok () →
        ∀ k ∈ ks, ∃ v, readResult dec B.alphabet L x k = .ok v ∧ st'.data k = some v)
  | [], st, hG => ⟨st, rfl, hG, fun _ _ h => h, fun _ k hk => by simp at hk⟩
  | k :: ks, st, hG => by
    obtain ⟨st1, e1, hG1, hm1, hv1⟩ := getitem_good hP k hG
    rw [Backend.initKeys, e1, initResult]
    cases hr : readResult dec B.alphabet L x k with
    | error e => exact ⟨st1, rfl, hG1, hm1, fun h => by cases h⟩
    | ok v =>
      simp only
      obtain ⟨st2, e2, hG2, hm2, hv2⟩ := initKeys_good hP ks hG1
      refine ⟨st2, e2, hG2, fun k' v' h => hm2 _ _ (hm1 _ _ h), ?_⟩
      intro h k' hk'
      rcases List.mem_cons.mp hk' with rfl | hk'
      · exact ⟨v, hr, hm2 _ _ (hv1 v hr)⟩
      · exact hv2 h k' hk'

theorem transform_good {B : Backend C T} {Inv : C → Prop} {Dom : T → Prop} {dec : T → Except Err (List T)}
    {syn : List T → Except Err T} (_ : B.Pure Inv Dom dec syn) {st : Pkt C T} (hi : Inv st.cache) (x : T)
    (hx : Dom x) (L : Int) : GoodSt B Inv Dom dec x L (B.transform st x (some L)).2 ∧
      (B.transform st x (some L)).1 = .ok () := by
  refine ⟨⟨rfl, hi, by simp [Backend.transform, PMap.set], hx, ?_⟩, rfl⟩
  intro k v h
  simp only [Backend.transform, PMap.set] at h
  split_ifs at h with hk
  cases h
  subst hk
  exact ⟨Or.inl rfl, by simp, rfl⟩

/-! ### Two objects that differ only in their caches behave the same -/

/-- Same contents, all in the domain; both caches are fine. -/
structure SameSt (Inv : C → Prop) (Dom : T → Prop) (s t : Pkt C T) : Prop where
  data : s.data = t.data
  lvl : s.maxlevel = t.maxlevel
  left : Inv s.cache
  right : Inv t.cache
  dom : ∀ k v, s.data k = some v → Dom v

section same
variable {B : Backend C T} {Inv : C → Prop} {Dom : T → Prop} {dec : T → Except Err (List T)}
  {syn : List T → Except Err T}

/-- Same results, satisfying `Q`; similar states. -/
def Sim {α : Type} (Inv : C → Prop) (Dom : T → Prop) (Q : α → Prop) (r r' : Except Err α × Pkt C T) : Prop :=
  r.1 = r'.1 ∧ (∀ a, r.1 = .ok a → Q a) ∧ SameSt Inv Dom r.2 r'.2

theorem store_dom {p : Key} : ∀ (l : List (Char × T)) (d : PMap Key T), (∀ k v, d k = some v → Dom v) →
    (∀ e ∈ l, Dom e.2) → ∀ k v, Backend.store d p l k = some v → Dom v
  | [], _, h, _, k, v, hv => h k v hv
  | e :: l, d, h, hl, k, v, hv => by
    rw [Backend.store] at hv
    refine store_dom l _ ?_ (fun e' h' => hl e' (by simp [h'])) k v hv
    intro k' v' h'
    unfold PMap.set at h'
    split_ifs at h' with hk
    · cases h'; exact hl e (by simp)
    · exact h k' v' h'

theorem sim_expandWith (hP : B.Pure Inv Dom dec syn) {s t : Pkt C T} (h : SameSt Inv Dom s t) (p : Key) {d : T}
    (hdd : Dom d) : Sim Inv Dom (fun _ => True) (B.expandWith s p d) (B.expandWith t p d) := by
  cases hd : dec d with
  | error e =>
    obtain ⟨c, hc, e1⟩ := expandWith_error hP h.left p hdd hd
    obtain ⟨c', hc', e2⟩ := expandWith_error hP h.right p hdd hd
    rw [e1, e2]
    exact ⟨rfl, fun _ _ => trivial, h.data, h.lvl, hc, hc', h.dom⟩
  | ok vs =>
    obtain ⟨c, hc, e1⟩ := expandWith_ok hP h.left p hdd hd
    obtain ⟨c', hc', e2⟩ := expandWith_ok hP h.right p hdd hd
    rw [e1, e2]
    refine ⟨rfl, fun _ _ => trivial, by simp only [h.data], h.lvl, hc, hc', ?_⟩
    exact store_dom _ _ h.dom fun e he => hP.decDom _ _ hdd hd _ (List.of_mem_zip he).2

theorem sim_lookup {s t : Pkt C T} (h : SameSt Inv Dom s t) (k : Key) :
    Sim Inv Dom Dom (Backend.lookup s k) (Backend.lookup t k) := by
  have hd := h.dom k
  unfold Backend.lookup
  rw [h.data] at hd ⊢
  cases hk : t.data k with
  | none => exact ⟨rfl, (by rintro _ ⟨⟩), h⟩
  | some v => exact ⟨rfl, (by rintro _ ⟨⟩; exact hd v hk), h⟩

theorem sim_bind' {α β : Type} {Q : α → Prop} {Q' : β → Prop} {r r' : Except Err α × Pkt C T}
    {f g : α → Pkt C T → Except Err β × Pkt C T}
    (hfg : ∀ a s t, Q a → SameSt Inv Dom s t → Sim Inv Dom Q' (f a s) (g a t)) (h : Sim Inv Dom Q r r') :
    Sim Inv Dom Q' (andThen r f) (andThen r' g) := by
  obtain ⟨a, s⟩ := r
  obtain ⟨a', t⟩ := r'
  obtain ⟨h1, hq, h2⟩ := h
  simp only at h1 h2 hq
  subst h1
  cases a with
  | error e => exact ⟨rfl, (by rintro _ ⟨⟩), h2⟩
  | ok a => exact hfg a s t (hq a rfl) h2

theorem sim_err {α : Type} {Q : α → Prop} {s t : Pkt C T} (h : SameSt Inv Dom s t) (e : Err) :
    Sim Inv Dom Q (.error e, s) (.error e, t) := ⟨rfl, (by rintro _ ⟨⟩), h⟩

theorem sim_ok {α : Type} {Q : α → Prop} {s t : Pkt C T} (h : SameSt Inv Dom s t) {a : α} (ha : Q a) :
    Sim Inv Dom Q (.ok a, s) (.ok a, t) := ⟨rfl, (by rintro _ ⟨⟩; exact ha), h⟩

theorem sim_getitem (hP : B.Pure Inv Dom dec syn) (k : Key) : ∀ {s t : Pkt C T}, SameSt Inv Dom s t →
    Sim Inv Dom Dom (B.getitem s k) (B.getitem t k) := by
  induction hn : k.length using Nat.strong_induction_on generalizing k with
  | _ n ih =>
    subst hn
    intro s t h
    have hdom := h.dom k
    rw [Backend.getitem, Backend.getitem.eq_def B t k, h.lvl, h.data]
    rw [h.data] at hdom
    cases t.maxlevel with
    | none => exact sim_err h _
    | some L =>
      simp only
      cases hk : t.data k with
      | some v => exact sim_ok h (hdom v hk)
      | none =>
        simp only
        split_ifs with h1 h2 h3
        · exact sim_err h _
        · exact sim_err h _
        rotate_left
        · exact sim_err h _
        · have hlen : k.dropLast.length < k.length := by
            have : k.length ≠ 0 := by simpa using h2
            simp only [List.length_dropLast]; omega
          exact sim_bind' (fun d s t hd h => sim_bind' (fun _ s t _ h => sim_lookup h k)
            (sim_expandWith hP h _ hd)) (ih _ hlen k.dropLast rfl h)

theorem sim_initKeys (hP : B.Pure Inv Dom dec syn) : ∀ (ks : List Key) {s t : Pkt C T}, SameSt Inv Dom s t →
    Sim Inv Dom (fun _ => True) (B.initKeys s ks) (B.initKeys t ks)
  | [], _, _, h => sim_ok h trivial
  | k :: ks, s, t, h => by
    rw [Backend.initKeys, Backend.initKeys]
    exact sim_bind' (fun _ _ _ _ h' => sim_initKeys hP ks h') (sim_getitem hP k h)

theorem sim_readChildren (hP : B.Pure Inv Dom dec syn) (node : Key) : ∀ (cs : List Char) {s t : Pkt C T},
    SameSt Inv Dom s t → Sim Inv Dom (fun vs => ∀ v ∈ vs, Dom v) (B.readChildren s node cs) (B.readChildren t node cs)
  | [], _, _, h => sim_ok h (by simp)
  | c :: cs, s, t, h => by
    rw [Backend.readChildren, Backend.readChildren]
    refine sim_bind' (fun v _ _ hv h' => ?_) (sim_getitem hP _ h)
    refine sim_bind' (fun vs _ _ hvs h'' => sim_ok h'' ?_) (sim_readChildren hP node cs h')
    intro u hu
    rcases List.mem_cons.mp hu with rfl | hu
    · exact hv
    · exact hvs u hu

theorem sim_cut (hP : B.Pure Inv Dom dec syn) {s t : Pkt C T} (h : SameSt Inv Dom s t) (level : Nat) (node : Key)
    {r : T} (hr : Dom r) : Sim Inv Dom Dom (B.cut s level node r) (B.cut t level node r) := by
  unfold Backend.cut
  split_ifs
  · exact sim_bind' (fun old _ _ ho h' => ⟨rfl, fun z hz => hP.fitDom r old z hr ho hz, h'⟩)
      (sim_getitem hP node h)
  · exact sim_ok h hr

theorem sameSt_set {s t : Pkt C T} (h : SameSt Inv Dom s t) (k : Key) {v : T} (hv : Dom v) :
    SameSt Inv Dom (Backend.setitem s k v) (Backend.setitem t k v) := by
  refine ⟨by simp only [Backend.setitem, h.data], h.lvl, h.left, h.right, ?_⟩
  intro k' v' h'
  simp only [Backend.setitem, PMap.set] at h'
  split_ifs at h'
  · cases h'; exact hv
  · exact h.dom k' v' h'

theorem sim_recNode (hP : B.Pure Inv Dom dec syn) {s t : Pkt C T} (h : SameSt Inv Dom s t) (level : Nat)
    (node : Key) : Sim Inv Dom (fun _ => True) (B.recNode s level node) (B.recNode t level node) := by
  unfold Backend.recNode
  rw [h.data]
  split_ifs
  · refine sim_bind' (fun vs s t hvs h => ?_) (sim_readChildren hP node _ h)
    have h1 := hP.synRes s.cache vs h.left hvs
    have h1' := hP.synRes t.cache vs h.right hvs
    have h2 := hP.synInv s.cache vs h.left hvs
    have h2' := hP.synInv t.cache vs h.right hvs
    refine sim_bind' (Q := Dom) (fun r s t hr h => sim_bind' (Q := Dom)
      (fun r s t hr h => sim_ok (sameSt_set h node hr) trivial) (sim_cut hP h level node hr))
      ⟨h1.trans h1'.symm, fun r hr => hP.synDom vs r hvs (h1.symm.trans hr), h.data, h.lvl, h2, h2', h.dom⟩
  · exact sim_err h _

theorem sim_recNodes (hP : B.Pure Inv Dom dec syn) (level : Nat) : ∀ (ks : List Key) {s t : Pkt C T},
    SameSt Inv Dom s t → Sim Inv Dom (fun _ => True) (B.recNodes s level ks) (B.recNodes t level ks)
  | [], _, _, h => sim_ok h trivial
  | k :: ks, s, t, h => by
    rw [Backend.recNodes, Backend.recNodes]
    exact sim_bind' (fun _ _ _ _ h' => sim_recNodes hP level ks h') (sim_recNode hP h level k)

theorem sim_recLevels (hP : B.Pure Inv Dom dec syn) : ∀ (L : Nat) {s t : Pkt C T}, SameSt Inv Dom s t →
    Sim Inv Dom (fun _ => True) (B.recLevels s L) (B.recLevels t L)
  | 0, _, _, h => sim_ok h trivial
  | L + 1, s, t, h => by
    rw [Backend.recLevels, Backend.recLevels]
    exact sim_bind' (fun _ _ _ _ h' => sim_recLevels hP L h') (sim_recNodes hP L _ h)

theorem sim_reconstruct (hP : B.Pure Inv Dom dec syn) {s t : Pkt C T} (h : SameSt Inv Dom s t) :
    Sim Inv Dom (fun _ => True) (B.reconstruct s) (B.reconstruct t) := by
  unfold Backend.reconstruct
  rw [h.lvl]
  cases t.maxlevel with
  | some L => exact sim_recLevels hP _ h
  | none =>
    refine sim_bind' (fun d s t _ h => ?_) (sim_getitem hP [] h)
    cases B.defaultLevel d with
    | error e => exact sim_err h _
    | ok L => exact sim_recLevels hP _ ⟨h.data, rfl, h.left, h.right, h.dom⟩

theorem root_dom {x : T} (hx : Dom x) : ∀ k v, (PMap.set (fun _ => none) ([] : Key) x) k = some v → Dom v := by
  intro k v h
  unfold PMap.set at h
  split_ifs at h
  cases h; exact hx

theorem sim_transform {s t : Pkt C T} (hs : Inv s.cache) (ht : Inv t.cache)
    (hl : s.maxlevel = t.maxlevel) {x : T} (hx : Dom x) (L : Option Int) :
    Sim Inv Dom (fun _ => True) (B.transform s x L) (B.transform t x L) := by
  unfold Backend.transform
  cases L with
  | some L => exact ⟨rfl, fun _ _ => trivial, rfl, rfl, hs, ht, root_dom hx⟩
  | none =>
    simp only
    cases B.defaultLevel x with
    | ok L => exact ⟨rfl, fun _ _ => trivial, rfl, rfl, hs, ht, root_dom hx⟩
    | error e => exact ⟨rfl, fun _ _ => trivial, rfl, hl, hs, ht, root_dom hx⟩

/-- Same outcomes, similar states. -/
def SimO {α : Type} (Inv : C → Prop) (Dom : T → Prop) (r r' : α × Pkt C T) : Prop :=
  r.1 = r'.1 ∧ SameSt Inv Dom r.2 r'.2

theorem sim_out' {α : Type} {Q : α → Prop} {r r' : Except Err α × Pkt C T} (f : α → Backend.Out T)
    (h : Sim Inv Dom Q r r') : SimO Inv Dom (Backend.observe r f) (Backend.observe r' f) := by
  obtain ⟨a, s⟩ := r
  obtain ⟨a', t⟩ := r'
  obtain ⟨h1, _, h2⟩ := h
  simp only at h1 h2
  subst h1
  cases a with
  | error e => exact ⟨rfl, h2⟩
  | ok a => exact ⟨rfl, h2⟩

theorem sim_step (hP : B.Pure Inv Dom dec syn) {s t : Pkt C T} (h : SameSt Inv Dom s t) (op : Backend.Op T)
    (ho : OpIn Dom op) : SimO Inv Dom (B.step s op) (B.step t op) := by
  cases op with
  | read k => exact sim_out' _ (sim_getitem hP k h)
  | init ks => exact sim_out' _ (sim_initKeys hP ks h)
  | set k v => exact ⟨rfl, sameSt_set h k ho⟩
  | transform x L => exact sim_out' _ (sim_transform h.left h.right h.lvl ho L)
  | reconstruct => exact sim_out' _ (sim_reconstruct hP h)

theorem sim_run (hP : B.Pure Inv Dom dec syn) : ∀ (ops : List (Backend.Op T)) {s t : Pkt C T},
    (∀ op ∈ ops, OpIn Dom op) → SameSt Inv Dom s t → SimO Inv Dom (B.run s ops) (B.run t ops)
  | [], _, _, _, h => ⟨rfl, h⟩
  | op :: ops, s, t, ho, h => by
    obtain ⟨h1, h2⟩ := sim_step hP h op (ho op (by simp))
    obtain ⟨h3, h4⟩ := sim_run hP ops (fun o h => ho o (by simp [h])) h2
    exact ⟨by simp only [Backend.run, h1, h3], h4⟩

/-- The cache stays fine through any history. -/
theorem run_inv (hP : B.Pure Inv Dom dec syn) (ops : List (Backend.Op T)) (ho : ∀ op ∈ ops, OpIn Dom op)
    {s : Pkt C T} (h : Inv s.cache) (hd : ∀ k v, s.data k = some v → Dom v) :
    Inv (B.run s ops).2.cache :=
  (sim_run hP ops ho ⟨rfl, rfl, h, h, hd⟩).2.left

end same
end Verif
