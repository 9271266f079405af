import Verif.Lemmas.Packets

/-! Packet reconstruction. -/

namespace Verif
open Spec
variable {C T : Type}

/-- `nodes` lists the keys of every level exactly once. -/
structure Backend.Complete (B : Backend C T) : Prop where
  mem : ∀ l k, k ∈ B.nodes l ↔ k.length = l ∧ ∀ c ∈ k, c ∈ B.alphabet
  nodup : ∀ l, (B.nodes l).Nodup

section
variable {B : Backend C T} {Inv : C → Prop} {Dom : T → Prop} {dec : T → Except Err (List T)} {syn : List T → Except Err T}

theorem readChildren_present {L : Int} (node : Key) (f : Char → T) :
    ∀ (cs : List Char) {st : Pkt C T}, st.maxlevel = some L →
      (∀ c ∈ cs, st.data (node ++ [c]) = some (f c)) →
      B.readChildren st node cs = (.ok (cs.map f), st)
  | [], _, _, _ => rfl
  | c :: cs, st, hl, h => by
    rw [Backend.readChildren, getitem_present hl (h c (by simp))]
    simp only [andThen]
    rw [readChildren_present node f cs hl fun c' hc' => h c' (by simp [hc'])]
    rfl

theorem recNode_ok (hP : B.Pure Inv Dom dec syn) {st : Pkt C T} {L : Int} (hl : st.maxlevel = some L)
    (hi : Inv st.cache) {node : Key} {level : Nat} {f : Char → T} {r r' : T}
    (hch : ∀ c ∈ B.alphabet, st.data (node ++ [c]) = some (f c)) (hfd : ∀ c ∈ B.alphabet, Dom (f c))
    (hs : syn (B.alphabet.map f) = .ok r)
    (hf : if 0 < level then ∃ old, st.data node = some old ∧ B.fit r old = .ok r' else r' = r) :
    ∃ c, Inv c ∧ B.recNode st level node = (.ok (), ⟨st.data.set node r', st.maxlevel, c⟩) := by
  have hfd' : ∀ t ∈ B.alphabet.map f, Dom t := by
    intro t ht
    obtain ⟨c, hc, rfl⟩ := List.mem_map.mp ht
    exact hfd c hc
  refine ⟨_, hP.synInv st.cache (B.alphabet.map f) hi hfd', ?_⟩
  unfold Backend.recNode
  rw [if_pos (by
    rw [List.all_eq_true]
    intro c hc
    rw [hch c hc]; rfl), readChildren_present node f _ hl hch]
  simp only [andThen, hP.synRes st.cache _ hi hfd', hs]
  unfold Backend.cut
  by_cases h0 : 0 < level
  · rw [if_pos h0] at hf ⊢
    obtain ⟨old, h1, h2⟩ := hf
    rw [getitem_present (L := L) (by exact hl) (by exact h1)]
    simp only [andThen, h2, Backend.setitem]
  · rw [if_neg h0] at hf ⊢
    subst hf
    simp only [Backend.setitem]

theorem recNode_missing {st : Pkt C T} {node : Key} {level : Nat}
    (h : ∃ c ∈ B.alphabet, st.data (node ++ [c]) = none) :
    B.recNode st level node = (.error .keyError, st) := by
  unfold Backend.recNode
  rw [if_neg]
  rw [List.all_eq_true]
  intro hall
  obtain ⟨c, hc, hn⟩ := h
  have := hall c hc
  rw [hn] at this
  cases this

theorem recNodes_ok (hP : B.Pure Inv Dom dec syn) {L : Int} {l : Nat} (V W : Key → T) :
    ∀ (ks : List Key) {st : Pkt C T}, ks.Nodup → (∀ k ∈ ks, k.length = l) → st.maxlevel = some L →
      Inv st.cache →
      (∀ k ∈ ks, (∀ c ∈ B.alphabet, st.data (k ++ [c]) = some (V (k ++ [c])) ∧ Dom (V (k ++ [c]))) ∧
        ∃ r, syn (B.alphabet.map fun c => V (k ++ [c])) = .ok r ∧
          if 0 < l then ∃ old, st.data k = some old ∧ B.fit r old = .ok (W k) else W k = r) →
      ∃ st', B.recNodes st l ks = (.ok (), st') ∧ st'.maxlevel = some L ∧ Inv st'.cache ∧
        (∀ k ∈ ks, st'.data k = some (W k)) ∧ ∀ k, k ∉ ks → st'.data k = st.data k
  | [], st, _, _, hl, hi, _ => ⟨st, rfl, hl, hi, by simp, fun _ _ => rfl⟩
  | k :: ks, st, hn, hlen, hl, hi, h => by
    obtain ⟨h1, r, h2, h3⟩ := h k (by simp)
    obtain ⟨c, hc, e⟩ := recNode_ok hP hl hi (fun c hc => (h1 c hc).1) (fun c hc => (h1 c hc).2) h2 h3
    rw [List.nodup_cons] at hn
    have hk := hlen k (by simp)
    obtain ⟨st', e', h4, h5, h6, h7⟩ := recNodes_ok hP V W ks (st := ⟨st.data.set k (W k), st.maxlevel, c⟩)
      hn.2 (fun k' hk' => hlen k' (by simp [hk'])) hl hc (by
        intro k' hk'
        have hk'l := hlen k' (by simp [hk'])
        obtain ⟨g1, r', g2, g3⟩ := h k' (by simp [hk'])
        have hne : k' ≠ k := by rintro rfl; exact hn.1 hk'
        refine ⟨fun c hc => ?_, r', g2, ?_⟩
        · have : (st.data.set k (W k)) (k' ++ [c]) = st.data (k' ++ [c]) := by
            apply PMap.set_ne
            intro hh
            have := congrArg List.length hh
            rw [List.length_append, List.length_singleton, hk, hk'l] at this
            omega
          simp only [this]
          exact g1 c hc
        · have : (st.data.set k (W k)) k' = st.data k' := PMap.set_ne _ _ hne
          simp only [this]
          exact g3)
    refine ⟨st', ?_, h4, h5, ?_, ?_⟩
    · rw [Backend.recNodes, e]; exact e'
    · intro k' hk'
      rcases List.mem_cons.mp hk' with rfl | hk'
      · rw [h7 _ hn.1]; exact PMap.set_self _ _ _
      · exact h6 k' hk'
    · intro k' hk'
      rw [List.mem_cons, not_or] at hk'
      rw [h7 k' hk'.2]; exact PMap.set_ne _ _ hk'.1

theorem mapM_ok_map {α β : Type} {g : α → Except Err β} {f : α → β} : ∀ {l : List α},
    (∀ a ∈ l, g a = .ok (f a)) → l.mapM g = .ok (l.map f)
  | [], _ => rfl
  | a :: l, h => by
    rw [List.mapM_cons, h a (by simp), mapM_ok_map fun b hb => h b (by simp [hb])]; rfl

theorem mapM_ok_each {α β : Type} {g : α → Except Err β} : ∀ {l : List α} {r : List β},
    l.mapM g = .ok r → ∀ a ∈ l, ∃ b, g a = .ok b
  | a :: l, r, h, a', ha' => by
    rw [List.mapM_cons] at h
    simp only [bind, Except.bind] at h
    cases hg : g a with
    | error e => rw [hg] at h; cases h
    | ok b =>
      rw [hg] at h
      simp only at h
      rcases List.mem_cons.mp ha' with rfl | ha'
      · exact ⟨b, hg⟩
      · cases hl : l.mapM g with
        | error e => rw [hl] at h; cases h
        | ok r' => exact mapM_ok_each hl a' ha'

theorem rebuild_sub {fit : T → T → Except Err T} {al : List Char} {leaf old : Key → T} {d : Nat} {k : Key}
    {v : T} (h : rebuild syn fit al leaf old (d + 1) k = .ok v) :
    ∀ c ∈ al, ∃ u, rebuild syn fit al leaf old d (k ++ [c]) = .ok u := by
  rw [rebuild] at h
  simp only [bind, Except.bind] at h
  cases hm : al.mapM fun c => rebuild syn fit al leaf old d (k ++ [c]) with
  | error e => rw [hm] at h; cases h
  | ok vs => exact mapM_ok_each hm

/-- If the root can be rebuilt, so can every node of the tree. -/
theorem rebuild_all {fit : T → T → Except Err T} {al : List Char} {leaf old : Key → T} {L : Nat} {v : T}
    (h : rebuild syn fit al leaf old L [] = .ok v) (k : Key) : k.length ≤ L → (∀ c ∈ k, c ∈ al) →
    ∃ u, rebuild syn fit al leaf old (L - k.length) k = .ok u := by
  induction k using List.reverseRecOn with
  | nil => intro _ _; exact ⟨v, h⟩
  | append_singleton p c ih =>
    intro hl hc
    rw [List.length_append, List.length_singleton] at hl
    obtain ⟨u, hu⟩ := ih (by omega) fun c' hc' => hc c' (by simp [hc'])
    rw [show L - p.length = (L - (p ++ [c]).length) + 1 by simp; omega] at hu
    exact rebuild_sub hu c (hc c (by simp))

theorem mapM_ok_mem {α β : Type} {g : α → Except Err β} : ∀ {l : List α} {r : List β},
    l.mapM g = .ok r → ∀ b ∈ r, ∃ a ∈ l, g a = .ok b
  | [], r, h, b, hb => by cases h; cases hb
  | a :: l, r, h, b, hb => by
    rw [List.mapM_cons] at h
    simp only [bind, Except.bind] at h
    cases hg : g a with
    | error e => rw [hg] at h; cases h
    | ok b' =>
      rw [hg] at h
      simp only at h
      cases hl : l.mapM g with
      | error e => rw [hl] at h; cases h
      | ok r' =>
        rw [hl] at h
        cases h
        rcases List.mem_cons.mp hb with rfl | hb
        · exact ⟨a, by simp, hg⟩
        · obtain ⟨a', ha', h'⟩ := mapM_ok_mem hl b hb
          exact ⟨a', by simp [ha'], h'⟩

theorem mem_snoc_alphabet {al : List Char} {k : Key} (hk : ∀ c ∈ k, c ∈ al) {c : Char} (hc : c ∈ al) :
    ∀ c' ∈ k ++ [c], c' ∈ al := by
  intro c' hc'
  rcases List.mem_append.mp hc' with h | h
  · exact hk c' h
  · simp only [List.mem_singleton] at h; rwa [h]

theorem rebuild_dom (hP : B.Pure Inv Dom dec syn) {L : Nat} {leaf old : Key → T}
    (hleaf : ∀ k, k.length = L → (∀ c ∈ k, c ∈ B.alphabet) → Dom (leaf k))
    (hold : ∀ k, k.length < L → (∀ c ∈ k, c ∈ B.alphabet) → Dom (old k)) :
    ∀ (d : Nat) (k : Key) {v : T}, k.length + d = L → (∀ c ∈ k, c ∈ B.alphabet) →
      rebuild syn B.fit B.alphabet leaf old d k = .ok v → Dom v
  | 0, k, v, hk, hc, h => by
    rw [rebuild] at h
    cases h
    exact hleaf k hk hc
  | d + 1, k, v, hk, hc, h => by
    rw [rebuild] at h
    simp only [bind, Except.bind] at h
    cases hm : B.alphabet.mapM fun c => rebuild syn B.fit B.alphabet leaf old d (k ++ [c]) with
    | error e => rw [hm] at h; cases h
    | ok vs =>
      rw [hm] at h
      simp only at h
      have hvs : ∀ t ∈ vs, Dom t := by
        intro t ht
        obtain ⟨c, hcm, hcv⟩ := mapM_ok_mem hm t ht
        exact rebuild_dom hP hleaf hold d (k ++ [c]) (by simp; omega) (mem_snoc_alphabet hc hcm) hcv
      cases hs : syn vs with
      | error e => rw [hs] at h; cases h
      | ok r =>
        rw [hs] at h
        simp only at h
        have hr := hP.synDom vs r hvs hs
        split_ifs at h with hk0
        · cases h; exact hr
        · exact hP.fitDom r _ v hr (hold k (by omega) hc) h

/-- Reconstruction rebuilds every node from the leaves. -/
theorem recLevels_ok (hP : B.Pure Inv Dom dec syn) (hC : B.Complete) {M : Int} {L : Nat} {leaf old : Key → T}
    {v : T} (hleaf : ∀ k, k.length = L → (∀ c ∈ k, c ∈ B.alphabet) → Dom (leaf k))
    (hold : ∀ k, k.length < L → (∀ c ∈ k, c ∈ B.alphabet) → Dom (old k))
    (hr : rebuild syn B.fit B.alphabet leaf old L [] = .ok v) :
    ∀ (l : Nat) {st : Pkt C T}, l ≤ L → st.maxlevel = some M → Inv st.cache →
      (∀ k, k.length < l → (∀ c ∈ k, c ∈ B.alphabet) → st.data k = some (old k)) →
      (∀ k u, k.length = l → (∀ c ∈ k, c ∈ B.alphabet) →
        rebuild syn B.fit B.alphabet leaf old (L - l) k = .ok u → st.data k = some u) →
      ∃ st', B.recLevels st l = (.ok (), st') ∧ st'.maxlevel = some M ∧ Inv st'.cache ∧
        (∀ k u, k.length ≤ l → (∀ c ∈ k, c ∈ B.alphabet) →
          rebuild syn B.fit B.alphabet leaf old (L - k.length) k = .ok u → st'.data k = some u) ∧
        ∀ k, (l ≤ k.length ∨ ¬ ∀ c ∈ k, c ∈ B.alphabet) → st'.data k = st.data k
  | 0, st, _, hl, hi, _, h2 => by
    refine ⟨st, rfl, hl, hi, ?_, fun _ _ => rfl⟩
    intro k u hk hc hu
    exact h2 k u (by omega) hc (by rwa [show k.length = 0 by omega] at hu)
  | l + 1, st, hlL, hl, hi, h1, h2 => by
    -- the values of this level
    have hex : ∀ k : Key, ∃ u, k.length ≤ L → (∀ c ∈ k, c ∈ B.alphabet) →
        rebuild syn B.fit B.alphabet leaf old (L - k.length) k = .ok u := by
      intro k
      by_cases hk : k.length ≤ L ∧ ∀ c ∈ k, c ∈ B.alphabet
      · obtain ⟨u, hu⟩ := rebuild_all hr k hk.1 hk.2
        exact ⟨u, fun _ _ => hu⟩
      · exact ⟨v, fun h h' => absurd ⟨h, h'⟩ hk⟩
    choose V hV using hex
    obtain ⟨st1, e1, g1, g2, g3, g4⟩ := recNodes_ok hP (L := M) (l := l) V V (B.nodes l) (st := st)
      (hC.nodup l) (fun k hk => ((hC.mem l k).mp hk).1) hl hi (by
        intro k hk
        obtain ⟨hkl, hkc⟩ := (hC.mem l k).mp hk
        have hcc : ∀ c ∈ B.alphabet, ∀ c' ∈ k ++ [c], c' ∈ B.alphabet := by
          intro c hc c' hc'
          rcases List.mem_append.mp hc' with h | h
          · exact hkc c' h
          · simp only [List.mem_singleton] at h; rwa [h]
        have hlen : ∀ c, (k ++ [c]).length = l + 1 := fun c => by simp [hkl]
        refine ⟨fun c hc => ⟨h2 _ _ (hlen c) (hcc c hc) ?_, ?_⟩, ?_⟩
        · have := hV (k ++ [c]) (by rw [hlen]; exact hlL) (hcc c hc)
          rwa [hlen] at this
        · exact rebuild_dom hP hleaf hold _ _ (by rw [hlen]; omega) (hcc c hc)
            (hV (k ++ [c]) (by rw [hlen]; exact hlL) (hcc c hc))
        · have hk' := hV k (by omega) hkc
          rw [hkl, show L - l = (L - (l + 1)) + 1 by omega, rebuild] at hk'
          have hm : (B.alphabet.mapM fun c => rebuild syn B.fit B.alphabet leaf old (L - (l + 1)) (k ++ [c]))
              = .ok (B.alphabet.map fun c => V (k ++ [c])) := by
            apply mapM_ok_map
            intro c hc
            have := hV (k ++ [c]) (by rw [hlen]; exact hlL) (hcc c hc)
            rwa [hlen] at this
          rw [hm] at hk'
          simp only [bind, Except.bind] at hk'
          cases hs : syn (B.alphabet.map fun c => V (k ++ [c])) with
          | error e => rw [hs] at hk'; cases hk'
          | ok r =>
            rw [hs] at hk'
            simp only at hk'
            refine ⟨r, rfl, ?_⟩
            by_cases h0 : 0 < l
            · rw [if_pos h0]
              rw [if_neg (by intro h; rw [h] at hkl; simp at hkl; omega)] at hk'
              exact ⟨old k, h1 k (by omega) hkc, hk'⟩
            · rw [if_neg h0]
              rw [if_pos (by apply List.length_eq_zero_iff.mp; omega)] at hk'
              cases hk'; rfl)
    obtain ⟨st2, e2, f1, f2, f3, f4⟩ := recLevels_ok hP hC hleaf hold hr l (st := st1) (by omega) g1 g2 (by
        intro k hk hc
        rw [g4 k fun h => by have := ((hC.mem l k).mp h).1; omega]
        exact h1 k (by omega) hc) (by
        intro k u hk hc hu
        rw [g3 k ((hC.mem l k).mpr ⟨hk, hc⟩)]
        have := hV k (by omega) hc
        rw [hk, hu] at this
        cases this; rfl)
    refine ⟨st2, ?_, f1, f2, ?_, ?_⟩
    · rw [Backend.recLevels, e1]; exact e2
    · intro k u hk hc hu
      by_cases hkl : k.length ≤ l
      · exact f3 k u hkl hc hu
      · have hkl' : k.length = l + 1 := by omega
        rw [f4 k (Or.inl (by omega)), g4 k fun h => by have := ((hC.mem l k).mp h).1; omega]
        exact h2 k u hkl' hc (by rwa [hkl'] at hu)
    · intro k hk
      have hno : k ∉ B.nodes l := by
        intro h
        have := (hC.mem l k).mp h
        rcases hk with hk | hk
        · omega
        · exact hk this.2
      rw [f4 k (by rcases hk with hk | hk; exact Or.inl (by omega); exact Or.inr hk), g4 k hno]

/-! ### Missing leaves -/

theorem andThen_rel {S α β : Type} {P : S → Prop} {r : Except Err α × S} {f : α → S → Except Err β × S}
    (h1 : P r.2) (h2 : ∀ a s, P s → P (f a s).2) : P (andThen r f).2 := by
  unfold andThen
  cases r.1 with
  | error e => exact h1
  | ok a => exact h2 a _ h1

/-- Reading a key touches no longer keys. -/
theorem getitem_long (k k' : Key) (h : k.length < k'.length) : ∀ (st : Pkt C T) (o : Option T),
    st.data k' = o → (B.getitem st k).2.data k' = o := by
  induction hn : k.length using Nat.strong_induction_on generalizing k with
  | _ n ih =>
    subst hn
    intro st o ho
    rw [Backend.getitem]
    cases st.maxlevel with
    | none => exact ho
    | some L =>
      simp only
      cases st.data k with
      | some v => exact ho
      | none =>
        simp only
        split_ifs with h1 h2 h3
        · exact ho
        · exact ho
        · have hlen : k.dropLast.length < k.length := by
            have : k.length ≠ 0 := by simpa using h2
            simp only [List.length_dropLast]; omega
          apply andThen_rel (P := fun (s : Pkt C T) => s.data k' = o) (ih _ hlen k.dropLast (by omega) rfl st o ho)
          intro d s hs
          apply andThen_rel (P := fun (s : Pkt C T) => s.data k' = o)
          · unfold Backend.expandWith
            apply andThen_rel (P := fun (s : Pkt C T) => s.data k' = o)
            · exact hs
            · intro vs s hs
              split_ifs
              · simp only
                rw [store_other]
                · exact hs
                · intro e _ he
                  have := congrArg List.length he
                  simp at this
                  omega
              · exact hs
          · intro _ s hs
            unfold Backend.lookup
            cases s.data k <;> exact hs
        · exact ho

theorem readChildren_long (node k' : Key) (h : node.length + 1 < k'.length) (o : Option T) :
    ∀ (cs : List Char) (st : Pkt C T), st.data k' = o → (B.readChildren st node cs).2.data k' = o
  | [], _, h => h
  | c :: cs, st, h0 => by
    rw [Backend.readChildren]
    apply andThen_rel (P := fun (s : Pkt C T) => s.data k' = o) (getitem_long _ _ (by simpa using h) st o h0)
    intro v s hs
    apply andThen_rel (P := fun (s : Pkt C T) => s.data k' = o) (readChildren_long node k' h o cs s hs)
    exact fun _ _ h => h

theorem readChildren_all {st : Pkt C T} {L : Int} (hl : st.maxlevel = some L) (node : Key) :
    ∀ (cs : List Char), (∀ c ∈ cs, (st.data (node ++ [c])).isSome) → (B.readChildren st node cs).2 = st
  | [], _ => rfl
  | c :: cs, h => by
    rw [Backend.readChildren]
    obtain ⟨v, hv⟩ := Option.isSome_iff_exists.mp (h c (by simp))
    rw [getitem_present hl hv]
    simp only [andThen]
    have := readChildren_all hl node cs fun c' hc' => h c' (by simp [hc'])
    cases hr : (B.readChildren st node cs).1 with
    | error e => simp only [this]
    | ok vs => simp only [this]

/-- Rebuilding a node touches no longer keys. -/
theorem recNode_long {L : Int} (node k' : Key) (h : node.length < k'.length) (o : Option T) (st : Pkt C T)
    (level : Nat) (hl : st.maxlevel = some L) (ho : st.data k' = o) :
    (B.recNode st level node).2.data k' = o := by
  unfold Backend.recNode
  split_ifs with hall
  · rw [List.all_eq_true] at hall
    apply andThen_rel (P := fun (s : Pkt C T) => s.data k' = o)
    · rw [readChildren_all hl node _ hall]; exact ho
    · intro vs s hs
      apply andThen_rel (P := fun (s : Pkt C T) => s.data k' = o) hs
      intro r s hs
      apply andThen_rel (P := fun (s : Pkt C T) => s.data k' = o)
      · unfold Backend.cut
        split_ifs
        · exact andThen_rel (P := fun (s : Pkt C T) => s.data k' = o) (getitem_long _ _ h s o hs) fun _ _ h => h
        · exact hs
      · intro r s hs
        simp only [Backend.setitem]
        rw [PMap.set_ne _ _ (by rintro rfl; omega)]
        exact hs
  · exact ho

theorem maxlevel_getitem (k : Key) : ∀ (st : Pkt C T), (B.getitem st k).2.maxlevel = st.maxlevel := by
  induction hn : k.length using Nat.strong_induction_on generalizing k with
  | _ n ih =>
    subst hn
    intro st
    rw [Backend.getitem]
    cases hm : st.maxlevel with
    | none => exact hm
    | some L =>
      simp only
      cases st.data k with
      | some v => exact hm
      | none =>
        simp only
        split_ifs with h1 h2 h3
        · exact hm
        · exact hm
        · have hlen : k.dropLast.length < k.length := by
            have : k.length ≠ 0 := by simpa using h2
            simp only [List.length_dropLast]; omega
          apply andThen_rel (P := fun (s : Pkt C T) => s.maxlevel = some L)
            (by rw [ih _ hlen k.dropLast rfl st]; exact hm)
          intro d s hs
          apply andThen_rel (P := fun (s : Pkt C T) => s.maxlevel = some L)
          · unfold Backend.expandWith
            apply andThen_rel (P := fun (s : Pkt C T) => s.maxlevel = some L)
            · exact hs
            · intro vs s hs
              split_ifs <;> exact hs
          · intro _ s hs
            unfold Backend.lookup
            cases s.data k <;> exact hs
        · exact hm

theorem maxlevel_recNode {L : Int} (node : Key) (st : Pkt C T) (level : Nat) (hl : st.maxlevel = some L) :
    (B.recNode st level node).2.maxlevel = some L := by
  unfold Backend.recNode
  split_ifs with hall
  · rw [List.all_eq_true] at hall
    apply andThen_rel (P := fun (s : Pkt C T) => s.maxlevel = some L)
    · rw [readChildren_all hl node _ hall]; exact hl
    · intro vs s hs
      apply andThen_rel (P := fun (s : Pkt C T) => s.maxlevel = some L) hs
      intro r s hs
      apply andThen_rel (P := fun (s : Pkt C T) => s.maxlevel = some L)
      · unfold Backend.cut
        split_ifs
        · exact andThen_rel (P := fun (s : Pkt C T) => s.maxlevel = some L) (by rw [maxlevel_getitem]; exact hs) fun _ _ h => h
        · exact hs
      · exact fun _ _ h => h
  · exact hl

/-- With a leaf missing, the lowest level cannot be rebuilt. -/
theorem recNodes_missing {L : Int} {l : Nat} {p : Key} {c : Char} (hc : c ∈ B.alphabet) :
    ∀ (ks : List Key) (st : Pkt C T), (∀ k ∈ ks, k.length = l) → p ∈ ks → st.maxlevel = some L →
      st.data (p ++ [c]) = none → ∃ e st', B.recNodes st l ks = (.error e, st')
  | k :: ks, st, hlen, hp, hl, hm => by
    rw [Backend.recNodes]
    by_cases hk : k = p
    · subst hk
      rw [recNode_missing ⟨c, hc, hm⟩]
      exact ⟨_, _, rfl⟩
    · have hp' : p ∈ ks := by
        rcases List.mem_cons.mp hp with h | h
        · exact absurd h.symm hk
        · exact h
      have h1 : (B.recNode st l k).2.data (p ++ [c]) = none :=
        recNode_long k _ (by rw [hlen k (by simp), List.length_append, hlen p (by simp [hp'])]; simp) _ st l hl hm
      have h2 := maxlevel_recNode (B := B) k st l hl
      rcases e : B.recNode st l k with ⟨r, s⟩
      rw [e] at h1 h2
      cases r with
      | error er => exact ⟨_, _, rfl⟩
      | ok _ => exact recNodes_missing hc ks s (fun k hk => hlen k (by simp [hk])) hp' h2 h1

/-! ### Reconstruction of unchanged coefficients -/

/-- A single synthesis step, cut to size, undoes a single analysis step. -/
def Inverts (Dom : T → Prop) (dec : T → Except Err (List T)) (syn : List T → Except Err T)
    (fit : T → T → Except Err T) : Prop :=
  ∀ v vs, Dom v → dec v = .ok vs → ∃ r, syn vs = .ok r ∧ fit r v = .ok v

/-- A single synthesis step, cut to size, undoes a single analysis step of a node of the tree of `x`. -/
def InvertsFrom (al : List Char) (x : T) (dec : T → Except Err (List T)) (syn : List T → Except Err T)
    (fit : T → T → Except Err T) : Prop :=
  ∀ k v vs, walk dec al x k = .ok v → dec v = .ok vs → ∃ r, syn vs = .ok r ∧ fit r v = .ok v

theorem Inverts.from (hP : B.Pure Inv Dom dec syn) (h : Inverts Dom dec syn B.fit) {x : T} (hx : Dom x) :
    InvertsFrom B.alphabet x dec syn B.fit :=
  fun k v vs hw hd => h v vs (walk_dom hP k hx hw) hd

theorem walk_prefix {al : List Char} {x v : T} {p : Key} {c : Char}
    (h : walk dec al x (p ++ [c]) = .ok v) : ∃ d vs, walk dec al x p = .ok d ∧ dec d = .ok vs := by
  rw [walk_append] at h
  cases hw : walk dec al x p with
  | error e => rw [hw] at h; cases h
  | ok d =>
    rw [hw] at h
    simp only [bind, Except.bind, walk] at h
    cases hd : dec d with
    | error e => rw [hd] at h; cases h
    | ok vs => exact ⟨d, vs, rfl, hd⟩

theorem map_pickBand {al : List Char} {vs : List T} {f : Char → T} (hl : vs.length = al.length)
    (hn : al.Nodup) (hf : ∀ c ∈ al, pickBand al vs c = .ok (f c)) : al.map f = vs := by
  apply List.ext_getElem (by simp [hl])
  intro i h1 h2
  have hi : i < al.length := by simpa using h1
  have := hf al[i] (List.getElem_mem hi)
  unfold pickBand at this
  rw [hn.idxOf_getElem, List.getElem?_eq_getElem h2] at this
  simp only [Except.ok.injEq] at this
  rw [List.getElem_map, this]

theorem goodSt_children (hP : B.Pure Inv Dom dec syn) {x : T} {M : Int} {st : Pkt C T}
    (hG : GoodSt B Inv Dom dec x M st) (hne : B.alphabet ≠ []) {k : Key}
    (h : ∀ c ∈ B.alphabet, (st.data (k ++ [c])).isSome) :
    ∃ (d : T) (vs : List T) (f : Char → T), walk dec B.alphabet x k = .ok d ∧ Dom d ∧ dec d = .ok vs ∧
      (∀ t ∈ vs, Dom t) ∧ (∀ c ∈ B.alphabet, st.data (k ++ [c]) = some (f c)) ∧ B.alphabet.map f = vs ∧
      (∀ c ∈ k, c ∈ B.alphabet) ∧ (k.length : Int) < M := by
  obtain ⟨c0, hc0⟩ := List.exists_mem_of_ne_nil _ hne
  obtain ⟨v0, hv0⟩ := Option.isSome_iff_exists.mp (h c0 hc0)
  obtain ⟨g1, g2, g3⟩ := hG.val _ _ hv0
  obtain ⟨d, vs, hw, hd⟩ := walk_prefix g3
  have hf : ∀ c, ∃ v, c ∈ B.alphabet → st.data (k ++ [c]) = some v := by
    intro c
    by_cases hc : c ∈ B.alphabet
    · obtain ⟨v, hv⟩ := Option.isSome_iff_exists.mp (h c hc)
      exact ⟨v, fun _ => hv⟩
    · exact ⟨v0, fun h => absurd h hc⟩
  choose f hf using hf
  have hdd := walk_dom hP k hG.dom hw
  refine ⟨d, vs, f, hw, hdd, hd, hP.decDom _ _ hdd hd, hf, ?_, fun c hc => g2 c (by simp [hc]), ?_⟩
  · apply map_pickBand (hP.len _ _ hdd hd) hP.nodup
    intro c hc
    rw [← walk_snoc hw hd]
    exact (hG.val _ _ (hf c hc)).2.2
  · rcases g1 with g1 | g1
    · simp at g1
    · simp at g1; omega

/-- Rebuilding an inner node of an untouched tree changes nothing. -/
theorem recNode_good (hP : B.Pure Inv Dom dec syn) (hne : B.alphabet ≠ [])
    {x : T} (hinv : InvertsFrom B.alphabet x dec syn B.fit) {M : Int} {st : Pkt C T} (hG : GoodSt B Inv Dom dec x M st) {k : Key} {l : Nat} (hl : 0 < l)
    (hk : k.length = l) :
    (∃ st', B.recNode st l k = (.ok (), st') ∧ GoodSt B Inv Dom dec x M st' ∧ (st'.data k).isSome ∧
      (∀ k' v, st.data k' = some v → st'.data k' = some v)) ∨
    ∃ c ∈ B.alphabet, st.data (k ++ [c]) = none ∧ B.recNode st l k = (.error .keyError, st) := by
  by_cases hall : ∀ c ∈ B.alphabet, (st.data (k ++ [c])).isSome
  · left
    obtain ⟨d, vs, f, hw, hdd, hd, hvd, hf, hm, hkc, hkM⟩ := goodSt_children hP hG hne hall
    obtain ⟨r, hr, hfit⟩ := hinv k d vs hw hd
    unfold Backend.recNode
    rw [if_pos (by rw [List.all_eq_true]; exact hall), readChildren_present k f _ hG.lvl hf]
    simp only [andThen, hm, hP.synRes _ _ hG.inv hvd, hr]
    unfold Backend.cut
    rw [if_pos hl]
    have hG1 : GoodSt B Inv Dom dec x M { st with cache := (B.syn st.cache vs).2 } :=
      ⟨hG.lvl, hP.synInv _ _ hG.inv hvd, hG.root, hG.dom, hG.val⟩
    obtain ⟨st2, e2, hG2, hm2, hv2⟩ := getitem_good hP k hG1
    have hrd : readResult dec B.alphabet M x k = .ok d := by
      unfold readResult
      rw [if_neg (by rintro rfl; simp at hk; omega), if_neg (by omega), if_pos hkc, hw]
    rw [e2, hrd]
    simp only [andThen, hfit]
    have hdk := hv2 d hrd
    have hset : st2.data.set k d = st2.data := by
      funext k'
      by_cases h : k' = k
      · rw [h, PMap.set_self, hdk]
      · rw [PMap.set_ne _ _ h]
    refine ⟨_, rfl, ?_, ?_, ?_⟩
    · simp only [Backend.setitem, hset]; exact hG2
    · simp only [Backend.setitem, hset, hdk]; rfl
    · simp only [Backend.setitem, hset]; exact hm2
  · right
    simp only [not_forall] at hall
    obtain ⟨c, hc, hn⟩ := hall
    have hn' : st.data (k ++ [c]) = none := by simpa using hn
    exact ⟨c, hc, hn', recNode_missing ⟨c, hc, hn'⟩⟩

theorem recNodes_good (hP : B.Pure Inv Dom dec syn) (hne : B.alphabet ≠ [])
    {x : T} (hinv : InvertsFrom B.alphabet x dec syn B.fit) {M : Int} {l : Nat} (hl : 0 < l) : ∀ (ks : List Key) {st : Pkt C T}, GoodSt B Inv Dom dec x M st →
    (∀ k ∈ ks, k.length = l) →
    (∃ st', B.recNodes st l ks = (.ok (), st') ∧ GoodSt B Inv Dom dec x M st' ∧ (∀ k ∈ ks, (st'.data k).isSome)
      ∧ (∀ k' v, st.data k' = some v → st'.data k' = some v)) ∨
    ∃ st', B.recNodes st l ks = (.error .keyError, st') ∧ GoodSt B Inv Dom dec x M st' ∧
      (∀ k' v, st.data k' = some v → st'.data k' = some v) ∧
      (∃ k ∈ ks, ∃ c ∈ B.alphabet, st.data (k ++ [c]) = none)
  | [], st, hG, _ => Or.inl ⟨st, rfl, hG, by simp, fun _ _ h => h⟩
  | k :: ks, st, hG, hlen => by
    have hk := hlen k (by simp)
    rw [Backend.recNodes]
    rcases recNode_good hP hne hinv hG hl hk with ⟨st1, e1, hG1, h1, hm1⟩ | ⟨c, hc, hn, e1⟩
    · rw [e1]
      simp only [andThen]
      rcases recNodes_good hP hne hinv hl ks hG1 fun k hk => hlen k (by simp [hk]) with
        ⟨st2, e2, hG2, h2, hm2⟩ | ⟨st2, e2, hG2, hm2, k', hk', c, hc, hn⟩
      · left
        refine ⟨st2, e2, hG2, ?_, fun k' v h => hm2 _ _ (hm1 _ _ h)⟩
        intro k' hk'
        rcases List.mem_cons.mp hk' with rfl | hk'
        · obtain ⟨v, hv⟩ := Option.isSome_iff_exists.mp h1
          rw [hm2 _ _ hv]; rfl
        · exact h2 k' hk'
      · right
        refine ⟨st2, e2, hG2, fun k' v h => hm2 _ _ (hm1 _ _ h), k', by simp [hk'], c, hc, ?_⟩
        cases h : st.data (k' ++ [c]) with
        | none => rfl
        | some v => rw [hm1 _ _ h] at hn; cases hn
    · right
      rw [e1]
      exact ⟨st, rfl, hG, fun _ _ h => h, k, by simp, c, hc, hn⟩

/-- Reconstruction of a tree that was only read: succeeds iff all leaves are present. -/
theorem recLevels_good (hP : B.Pure Inv Dom dec syn) (hC : B.Complete)
    (hne : B.alphabet ≠ []) {x : T} (hinv : InvertsFrom B.alphabet x dec syn B.fit) {M : Int} : ∀ (l : Nat) {st : Pkt C T}, GoodSt B Inv Dom dec x M st →
    ((∀ k, k.length = l + 1 → (∀ c ∈ k, c ∈ B.alphabet) → (st.data k).isSome) →
      ∃ st' vs r, B.recLevels st (l + 1) = (.ok (), st') ∧ dec x = .ok vs ∧ syn vs = .ok r ∧
        st'.data [] = some r ∧ st'.maxlevel = some M ∧ Inv st'.cache ∧
        (∀ k v, k ≠ [] → st'.data k = some v → walk dec B.alphabet x k = .ok v) ∧
        ∀ k v, k ≠ [] → st.data k = some v → st'.data k = some v) ∧
    (¬ (∀ k, k.length = l + 1 → (∀ c ∈ k, c ∈ B.alphabet) → (st.data k).isSome) →
      ∃ st', B.recLevels st (l + 1) = (.error .keyError, st') ∧ GoodSt B Inv Dom dec x M st' ∧
        ∀ k v, st.data k = some v → st'.data k = some v)
  | 0, st, hG => by
    have hn0 : B.nodes 0 = [[]] := by
      have h1 : ([] : Key) ∈ B.nodes 0 := (hC.mem 0 []).mpr ⟨rfl, by simp⟩
      have h2 : ∀ k ∈ B.nodes 0, k = [] := fun k hk => List.length_eq_zero_iff.mp ((hC.mem 0 k).mp hk).1
      have h3 := hC.nodup 0
      match hb : B.nodes 0 with
      | [] => rw [hb] at h1; simp at h1
      | [k] => rw [h2 k (by rw [hb]; simp)]
      | k :: k' :: ks =>
        rw [hb] at h3
        rw [h2 k (by rw [hb]; simp), h2 k' (by rw [hb]; simp)] at h3
        simp at h3
    constructor
    · intro hall
      have hch : ∀ c ∈ B.alphabet, (st.data ([] ++ [c])).isSome := by
        intro c hc
        exact hall _ (by simp) (by simpa using hc)
      obtain ⟨d, vs, f, hw, hdd, hd, hvd, hf, hm, -, -⟩ := goodSt_children hP hG hne hch
      cases hw
      obtain ⟨r, hr, -⟩ := hinv [] x vs rfl hd
      obtain ⟨c, hc, e⟩ := recNode_ok hP (level := 0) hG.lvl hG.inv (r' := r) hf
        (fun c hc => hvd _ (by rw [← hm]; exact List.mem_map_of_mem hc)) (by rw [hm]; exact hr)
        (by simp)
      refine ⟨⟨st.data.set [] r, st.maxlevel, c⟩, vs, r, ?_, hd, hr, PMap.set_self st.data [] r, hG.lvl, hc, ?_, ?_⟩
      · rw [Backend.recLevels, hn0, Backend.recNodes, e]; rfl
      · intro k v hk hv
        simp only at hv
        rw [PMap.set_ne _ _ hk] at hv
        exact (hG.val k v hv).2.2
      · intro k v hk hv
        simp only
        rw [PMap.set_ne _ _ hk]
        exact hv
    · intro hall
      simp only [not_forall] at hall
      obtain ⟨k, hk, hc, hn⟩ := hall
      obtain ⟨c, rfl⟩ := List.length_eq_one_iff.mp hk
      refine ⟨st, ?_, hG, fun _ _ h => h⟩
      rw [Backend.recLevels, hn0, Backend.recNodes, recNode_missing ⟨c, hc c (by simp), by simpa using hn⟩]
      rfl
  | l + 1, st, hG => by
    have hnl : ∀ k ∈ B.nodes (l + 1), k.length = l + 1 := fun k hk => ((hC.mem _ k).mp hk).1
    constructor
    · intro hall
      rcases recNodes_good hP hne hinv (by omega) (B.nodes (l + 1)) hG hnl with
        ⟨st1, e1, hG1, h1, hm1⟩ | ⟨st1, e1, hG1, -, k, hk, c, hc, hn⟩
      · obtain ⟨ih, -⟩ := recLevels_good hP hC hne hinv l hG1
        obtain ⟨st', vs, r, e', h⟩ := ih fun k hk hc => h1 k ((hC.mem _ k).mpr ⟨hk, hc⟩)
        obtain ⟨h2, h3, h4, h5, h6, h7, h8⟩ := h
        refine ⟨st', vs, r, ?_, h2, h3, h4, h5, h6, h7, fun k v hk h => h8 k v hk (hm1 k v h)⟩
        rw [Backend.recLevels, e1]; exact e'
      · exfalso
        obtain ⟨hkl, hkc⟩ := (hC.mem _ k).mp hk
        have := hall (k ++ [c]) (by simp [hkl]) (by
          intro c' hc'
          rcases List.mem_append.mp hc' with h | h
          · exact hkc c' h
          · simp only [List.mem_singleton] at h; rwa [h])
        rw [hn] at this
        cases this
    · intro hall
      simp only [not_forall] at hall
      obtain ⟨k, hk, hkc, hn⟩ := hall
      have hn' : st.data k = none := by simpa using hn
      rcases recNodes_good hP hne hinv (by omega) (B.nodes (l + 1)) hG hnl with
        ⟨st1, e1, hG1, h1, hm1⟩ | ⟨st1, e1, hG1, hm1, _⟩
      · exfalso
        have hk0 : k ≠ [] := by rintro rfl; simp at hk
        have hsplit := List.dropLast_append_getLast hk0
        have hmem : k.getLast hk0 ∈ B.alphabet := hkc _ (List.getLast_mem hk0)
        have hpm : k.dropLast ∈ B.nodes (l + 1) := (hC.mem _ _).mpr ⟨by simp [hk],
          fun c hc => hkc c (List.mem_of_mem_dropLast hc)⟩
        obtain ⟨e, s, he⟩ := recNodes_missing (B := B) hmem (B.nodes (l + 1)) st hnl hpm hG.lvl
          (by rw [hsplit]; exact hn')
        rw [e1] at he
        cases he
      · refine ⟨st1, ?_, hG1, hm1⟩
        rw [Backend.recLevels, e1]; rfl

end
end Verif
