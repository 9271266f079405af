/-
C46: deprecated keyword arguments.
-/
import Verif.Model.Alias
import Verif.Spec.Alias

namespace Verif.Props
open Verif Spec
variable {V Ret : Type}

theorem lookup_iff {kw : Kwargs V} (h : IsDict' kw) (k : String) (v : V) :
    kw.lookup k = some v ↔ Given kw k v := by
  induction kw with
  | nil => simp [Given]
  | cons p ps ih =>
    obtain ⟨a, b⟩ := p
    have h' : IsDict' ps ∧ a ∉ ps.map Prod.fst := by
      unfold IsDict' at h ⊢
      simp only [List.map_cons, List.nodup_cons] at h
      exact ⟨h.2, h.1⟩
    have ih := ih h'.1
    unfold Given at ih ⊢
    rw [List.lookup_cons]
    by_cases hk : k = a
    · subst hk
      simp only [beq_self_eq_true, Option.some.injEq, List.mem_cons, Prod.mk.injEq, true_and]
      constructor
      · intro h; exact Or.inl h.symm
      · rintro (h | h)
        · exact h.symm
        · exact absurd (List.mem_map.2 ⟨_, h, rfl⟩) h'.2
    · have : (k == a) = false := by simpa using hk
      rw [this]
      simp only [List.mem_cons, Prod.mk.injEq, hk, false_and, false_or]
      exact ih

theorem lookup_isSome {kw : Kwargs V} (h : IsDict' kw) (k : String) :
    kw.has k = true ↔ IsGiven kw k := by
  unfold Kwargs.has IsGiven
  rw [Option.isSome_iff_exists]
  exact exists_congr fun v => lookup_iff h k v

theorem lookup_congr {kw kw' : Kwargs V} (h : IsDict' kw) (h' : IsDict' kw')
    (hh : ∀ k v, Given kw k v ↔ Given kw' k v) (k : String) : kw.lookup k = kw'.lookup k := by
  apply Option.ext
  intro v
  rw [lookup_iff h, lookup_iff h', hh]

/-- A call does not depend on the order of the keywords. -/
theorem call_congr (s : Signature V) (body : List V → Except Err Ret) (args : List V) {kw kw' : Kwargs V}
    (h : IsDict' kw) (h' : IsDict' kw') (hh : ∀ k v, Given kw k v ↔ Given kw' k v) :
    call s body args kw = call s body args kw' := by
  have hl := lookup_congr h h' hh
  have hb : bindKw kw = bindKw kw' := by
    funext p; unfold bindKw; rw [hl]
  have hp : ∀ ps args, bindPos kw ps args = bindPos kw' ps args := by
    intro ps
    induction ps with
    | nil => intro args; cases args <;> rfl
    | cons p ps ih =>
      intro args
      cases args with
      | nil => simp only [bindPos, ih, hb]
      | cons a as =>
        simp only [bindPos, ih]
        have : kw.has p.1 = kw'.has p.1 := by unfold Kwargs.has; rw [hl]
        rw [this]
  have hn : (∃ p ∈ kw, p.1 ∉ s.names) ↔ (∃ p ∈ kw', p.1 ∉ s.names) := by
    constructor
    · rintro ⟨⟨k, v⟩, hm, hx⟩; exact ⟨(k, v), (hh k v).1 hm, hx⟩
    · rintro ⟨⟨k, v⟩, hm, hx⟩; exact ⟨(k, v), (hh k v).2 hm, hx⟩
  unfold call bindArgs
  simp only [hn, hp, hb]

theorem has_false {kw : Kwargs V} {n : String} (h : kw.has n = false) : n ∉ kw.map Prod.fst := by
  intro hm
  obtain ⟨q, hq, rfl⟩ := List.mem_map.1 hm
  unfold Kwargs.has at h
  rw [Option.isSome_eq_false_iff, Option.isNone_iff_eq_none, List.lookup_eq_none_iff] at h
  have := h _ hq
  simp at this

theorem put_new {kw : Kwargs V} {n : String} {v : V} (h : kw.has n = false) :
    kw.put n v = kw ++ [(n, v)] := by
  unfold Kwargs.put; rw [h]; rfl

theorem step_spec {kw : Kwargs V} {a n : String} {v : V} (hd : IsDict' kw) (_ha : Given kw a v)
    (hn : kw.has n = false) (hne : a ≠ n) :
    IsDict' ((kw.del a).put n v) ∧
      ∀ k x, Given ((kw.del a).put n v) k x ↔ (k = n ∧ x = v) ∨ (k ≠ a ∧ Given kw k x) := by
  have hn' : (kw.del a).has n = false := by
    cases hx : (kw.del a).has n with
    | false => rfl
    | true =>
      exfalso
      have hd' : IsDict' (kw.del a) := by
        unfold IsDict' Kwargs.del at *
        exact hd.sublist (List.filter_sublist.map _)
      obtain ⟨y, hy⟩ := (lookup_isSome hd' n).1 hx
      unfold Given Kwargs.del at hy
      rw [List.mem_filter] at hy
      exact has_false hn (List.mem_map.2 ⟨_, hy.1, rfl⟩)
  rw [put_new hn']
  constructor
  · unfold IsDict' Kwargs.del at *
    rw [List.map_append, List.nodup_append]
    refine ⟨hd.sublist (List.filter_sublist.map _), by simp, ?_⟩
    intro k hk b hb
    simp only [List.map_cons, List.map_nil, List.mem_singleton] at hb
    subst hb
    rintro rfl
    exact has_false hn' hk
  · intro k x
    unfold Given Kwargs.del
    rw [List.mem_append, List.mem_filter]
    simp only [List.mem_singleton, Prod.mk.injEq, ne_eq, decide_not, Bool.not_eq_eq_eq_not, Bool.not_true,
      decide_eq_false_iff_not]
    tauto

theorem _root_.Verif.Spec.GoodAliases.tail {p : String × String} {al : List (String × String)} (h : GoodAliases (p :: al)) :
    GoodAliases al := by
  have h1 := h.nodup
  simp only [List.map_cons, List.nodup_cons] at h1
  refine ⟨h1.2, fun q hq hm => h.fresh q (List.mem_cons_of_mem _ hq) ?_⟩
  exact List.mem_cons_of_mem _ hm

/-- What `rename_kwargs` does with unambiguous keywords. -/
theorem renameKwargs_ok : ∀ (al : List (String × String)) (kw : Kwargs V), GoodAliases al → IsDict' kw →
    Unambiguous al kw → ∃ kw', renameKwargs al kw = (.ok kw', al.filter fun p => kw.has p.1) ∧
      IsDict' kw' ∧ Renamed al kw kw'
  | [], kw, _, hd, _ => ⟨kw, rfl, hd, fun k v => by simp⟩
  | (a, n) :: al, kw, hg, hd, hu => by
    have hne : a ≠ n := by
      rintro rfl
      exact hg.fresh (a, a) List.mem_cons_self (by simp)
    have hal : a ∉ al.map Prod.fst := by
      have := hg.nodup
      simp only [List.map_cons, List.nodup_cons] at this
      exact this.1
    have hnal : n ∉ al.map Prod.fst := fun h =>
      hg.fresh (a, n) List.mem_cons_self (List.mem_cons_of_mem _ h)
    have htgt : ∀ q ∈ al, q.2 ≠ a := fun q hq h =>
      hg.fresh q (List.mem_cons_of_mem _ hq) (by rw [h]; simp)
    unfold renameKwargs
    cases hl : kw.lookup a with
    | none =>
      have hno : ∀ v, ¬ Given kw a v := fun v hv => by
        rw [(lookup_iff hd a v).2 hv] at hl; simp at hl
      obtain ⟨kw', h1, h2, h3⟩ := renameKwargs_ok al kw hg.tail hd (by
        intro b m hb hbg
        obtain ⟨h, h'⟩ := hu b m (List.mem_cons_of_mem _ hb) hbg
        exact ⟨h, fun c hc => h' c (List.mem_cons_of_mem _ hc)⟩)
      refine ⟨kw', ?_, h2, ?_⟩
      · simp only [h1]
        have : Kwargs.has kw a = false := by unfold Kwargs.has; rw [hl]; rfl
        rw [List.filter_cons]
        simp only [this, Bool.false_eq_true, if_false]
      · intro k v
        rw [h3 k v]
        simp only [List.map_cons, List.mem_cons, not_or, Prod.mk.injEq]
        constructor
        · rintro ⟨h1, h2⟩
          refine ⟨⟨?_, h1⟩, ?_⟩
          · rintro rfl
            rcases h2 with h2 | ⟨b, hb, _⟩
            · exact hno _ h2
            · exact htgt _ hb rfl
          · rcases h2 with h2 | ⟨b, hb, h2⟩
            · exact Or.inl h2
            · exact Or.inr ⟨b, Or.inr hb, h2⟩
        · rintro ⟨⟨h0, h1⟩, h2⟩
          refine ⟨h1, ?_⟩
          rcases h2 with h2 | ⟨b, (⟨rfl, rfl⟩ | hb), h2⟩
          · exact Or.inl h2
          · exact absurd h2 (hno _)
          · exact Or.inr ⟨b, hb, h2⟩
    | some v =>
      have hav : Given kw a v := (lookup_iff hd a v).1 hl
      obtain ⟨hn, hun⟩ := hu a n List.mem_cons_self ⟨v, hav⟩
      have hn' : kw.has n = false := by
        cases hx : kw.has n with
        | false => rfl
        | true => exact absurd ((lookup_isSome hd n).1 hx) hn
      obtain ⟨hd', hs⟩ := step_spec hd hav hn' hne
      have hsg : ∀ b, b ∈ al.map Prod.fst → (IsGiven ((kw.del a).put n v) b ↔ IsGiven kw b) := by
        intro b hb
        have hba : b ≠ a := fun h => hal (h ▸ hb)
        have hbn : b ≠ n := fun h => hnal (h ▸ hb)
        unfold IsGiven
        simp only [hs, hba, hbn, ne_eq, not_false_eq_true, true_and, false_and, false_or]
      have hu' : Unambiguous al ((kw.del a).put n v) := by
        intro b m hb hbg
        have hbm : b ∈ al.map Prod.fst := List.mem_map.2 ⟨_, hb, rfl⟩
        have hbg' := (hsg b hbm).1 hbg
        obtain ⟨h1, h2⟩ := hu b m (List.mem_cons_of_mem _ hb) hbg'
        have hmn : m ≠ n := by
          rintro rfl
          have := hun b (List.mem_cons_of_mem _ hb) hbg'
          exact hal (this ▸ hbm)
        refine ⟨?_, ?_⟩
        · rintro ⟨x, hx⟩
          rw [hs] at hx
          rcases hx with ⟨h, _⟩ | ⟨_, h⟩
          · exact hmn h
          · exact h1 ⟨x, h⟩
        · intro c hc hcg
          exact h2 c (List.mem_cons_of_mem _ hc) ((hsg c (List.mem_map.2 ⟨_, hc, rfl⟩)).1 hcg)
      obtain ⟨kw', h1, h2, h3⟩ := renameKwargs_ok al _ hg.tail hd' hu'
      refine ⟨kw', ?_, h2, ?_⟩
      · simp only [hn', h1, Bool.false_eq_true, if_false]
        have ha' : Kwargs.has kw a = true := by unfold Kwargs.has; rw [hl]; rfl
        rw [List.filter_cons]
        simp only [ha', if_true]
        congr 2
        apply List.filter_congr
        intro p hp
        have := hsg p.1 (List.mem_map.2 ⟨_, hp, rfl⟩)
        rw [← lookup_isSome hd', ← lookup_isSome hd] at this
        exact Bool.eq_iff_iff.2 this
      · intro k x
        rw [h3 k x]
        simp only [List.map_cons, List.mem_cons, not_or, Prod.mk.injEq]
        constructor
        · rintro ⟨h1, h2⟩
          rcases h2 with h2 | ⟨b, hb, h2⟩
          · rw [hs] at h2
            rcases h2 with ⟨rfl, rfl⟩ | ⟨h, h2⟩
            · exact ⟨⟨Ne.symm hne, hnal⟩, Or.inr ⟨a, Or.inl ⟨rfl, rfl⟩, hav⟩⟩
            · exact ⟨⟨h, h1⟩, Or.inl h2⟩
          · have hba : b ∈ al.map Prod.fst := List.mem_map.2 ⟨_, hb, rfl⟩
            rw [hs] at h2
            rcases h2 with ⟨rfl, rfl⟩ | ⟨h, h2⟩
            · exact absurd hba hnal
            · exact ⟨⟨fun h => htgt _ hb h, h1⟩, Or.inr ⟨b, Or.inr hb, h2⟩⟩
        · rintro ⟨⟨h0, h1⟩, h2⟩
          refine ⟨h1, ?_⟩
          rcases h2 with h2 | ⟨b, (⟨rfl, rfl⟩ | hb), h2⟩
          · exact Or.inl ((hs k x).2 (Or.inr ⟨h0, h2⟩))
          · left
            have : x = v := by
              have h1 := (lookup_iff hd b x).2 h2
              rw [hl] at h1
              exact (Option.some.inj h1).symm
            exact (hs k x).2 (Or.inl ⟨rfl, this⟩)
          · have hba : b ∈ al.map Prod.fst := List.mem_map.2 ⟨_, hb, rfl⟩
            exact Or.inr ⟨b, hb, (hs b x).2 (Or.inr ⟨fun h => hal (h ▸ hba), h2⟩)⟩

/-- `rename_kwargs` raises TypeError for ambiguous keywords. -/
theorem renameKwargs_error : ∀ (al : List (String × String)) (kw : Kwargs V), GoodAliases al → IsDict' kw →
    ¬ Unambiguous al kw → (renameKwargs al kw).1 = .error .typeError
  | [], kw, _, _, hu => absurd (fun a n h => by simp at h) hu
  | (a, n) :: al, kw, hg, hd, hu => by
    have hne : a ≠ n := by
      rintro rfl
      exact hg.fresh (a, a) List.mem_cons_self (by simp)
    have hal : a ∉ al.map Prod.fst := by
      have := hg.nodup
      simp only [List.map_cons, List.nodup_cons] at this
      exact this.1
    have hnal : n ∉ al.map Prod.fst := fun h =>
      hg.fresh (a, n) List.mem_cons_self (List.mem_cons_of_mem _ h)
    unfold renameKwargs
    cases hl : kw.lookup a with
    | none =>
      have hno : ¬ IsGiven kw a := fun ⟨v, hv⟩ => by
        rw [(lookup_iff hd a v).2 hv] at hl; simp at hl
      apply renameKwargs_error al kw hg.tail hd
      intro hu'
      apply hu
      intro b m hb hbg
      rcases List.mem_cons.1 hb with hb | hb
      · obtain ⟨rfl, rfl⟩ := Prod.mk.inj hb
        exact absurd hbg hno
      · obtain ⟨h1, h2⟩ := hu' b m hb hbg
        refine ⟨h1, fun c hc hcg => ?_⟩
        rcases List.mem_cons.1 hc with hc | hc
        · obtain ⟨rfl, rfl⟩ := Prod.mk.inj hc
          exact absurd hcg hno
        · exact h2 c hc hcg
    | some v =>
      have hav : Given kw a v := (lookup_iff hd a v).1 hl
      by_cases hn : kw.has n = true
      · simp only [hn, if_true]
      · have hn' : kw.has n = false := by simpa using hn
        obtain ⟨hd', hs⟩ := step_spec hd hav hn' hne
        simp only [hn', Bool.false_eq_true, if_false]
        apply renameKwargs_error al _ hg.tail hd'
        intro hu'
        apply hu
        have hsg : ∀ b, b ∈ al.map Prod.fst → (IsGiven kw b → IsGiven ((kw.del a).put n v) b) := by
          rintro b hb ⟨x, hx⟩
          exact ⟨x, (hs b x).2 (Or.inr ⟨fun h => hal (h ▸ hb), hx⟩)⟩
        have hng : IsGiven ((kw.del a).put n v) n := ⟨v, (hs n v).2 (Or.inl ⟨rfl, rfl⟩)⟩
        have hnk : ¬ IsGiven kw n := fun h => hn ((lookup_isSome hd n).2 h)
        have key : ∀ b, (b, n) ∈ al → ¬ IsGiven kw b := by
          intro b hb hbg
          exact (hu' b n hb (hsg b (List.mem_map.2 ⟨_, hb, rfl⟩) hbg)).1 hng
        intro b m hb hbg
        rcases List.mem_cons.1 hb with hb | hb
        · obtain ⟨rfl, rfl⟩ := Prod.mk.inj hb
          refine ⟨hnk, fun c hc hcg => ?_⟩
          rcases List.mem_cons.1 hc with hc | hc
          · exact (Prod.mk.inj hc).1
          · exact absurd hcg (key c hc)
        · have hb' := hb
          have hbm : b ∈ al.map Prod.fst := List.mem_map.2 ⟨_, hb, rfl⟩
          obtain ⟨h1, h2⟩ := hu' b m hb (hsg b hbm hbg)
          have hma : m ≠ a := fun h => hg.fresh (b, m) (List.mem_cons_of_mem _ hb) (by simp [h])
          refine ⟨fun ⟨x, hx⟩ => h1 ⟨x, (hs m x).2 (Or.inr ⟨hma, hx⟩)⟩, fun c hc hcg => ?_⟩
          rcases List.mem_cons.1 hc with hc | hc
          · obtain ⟨rfl, rfl⟩ := Prod.mk.inj hc
            exact absurd hbg (key b hb')
          · exact h2 c hc (hsg c (List.mem_map.2 ⟨_, hc, rfl⟩) hcg)

/-! ### C46 -/

/-- Unless a parameter is named twice, a call of a decorated function with any keywords is the call of the
undecorated one with the new names in place of the aliases, and it issues one warning for every alias that
is used, in the order of the aliases, and no other.  (`kw'` is any dictionary with these keywords; one
exists by `c46_renamed_exists`.) -/
theorem c46_alias_means_new_name (al : List (String × String)) (s : Signature V)
    (body : List V → Except Err Ret) (args : List V) (kw kw' : Kwargs V) (hal : GoodAliases al)
    (hkw : IsDict' kw) (hkw' : IsDict' kw') (hu : Unambiguous al kw) (hr : Renamed al kw kw')
    (used : String → Bool) (hused : ∀ a, used a = true ↔ IsGiven kw a) :
    callAliased al s body args kw = (call s body args kw', al.filter fun p => used p.1) := by
  have hfun : (fun p : String × String => used p.1) = fun p => kw.has p.1 := by
    funext p
    exact Bool.eq_iff_iff.2 ((hused p.1).trans (lookup_isSome hkw p.1).symm)
  rw [hfun]
  obtain ⟨kw₁, h1, h2, h3⟩ := renameKwargs_ok al kw hal hkw hu
  unfold callAliased
  rw [h1]
  simp only
  rw [call_congr s body args h2 hkw' fun k v => by rw [h3 k v, hr k v]]

theorem c46_renamed_exists (al : List (String × String)) (kw : Kwargs V) (hal : GoodAliases al)
    (hkw : IsDict' kw) (hu : Unambiguous al kw) : ∃ kw', IsDict' kw' ∧ Renamed al kw kw' := by
  obtain ⟨kw₁, _, h2, h3⟩ := renameKwargs_ok al kw hal hkw hu
  exact ⟨kw₁, h2, h3⟩

/-- A call that uses no alias is the call of the undecorated function and warns of nothing. -/
theorem c46_no_alias (al : List (String × String)) (s : Signature V) (body : List V → Except Err Ret)
    (args : List V) (kw : Kwargs V) (hkw : IsDict' kw) (hno : ∀ p ∈ al, ¬ IsGiven kw p.1) :
    callAliased al s body args kw = (call s body args kw, []) := by
  have : renameKwargs al kw = (.ok kw, []) := by
    induction al with
    | nil => rfl
    | cons p al ih =>
      obtain ⟨a, n⟩ := p
      unfold renameKwargs
      have hl : kw.lookup a = none := by
        cases hl : kw.lookup a with
        | none => rfl
        | some v => exact absurd ⟨v, (lookup_iff hkw a v).1 hl⟩ (hno (a, n) List.mem_cons_self)
      rw [hl]
      exact ih fun p hp => hno p (List.mem_cons_of_mem _ hp)
  unfold callAliased
  rw [this]

/-- A call that names a parameter twice, by an alias and the new name or by two aliases, raises TypeError
and does not run the body. -/
theorem c46_both_names (al : List (String × String)) (s : Signature V) (body : List V → Except Err Ret)
    (args : List V) (kw : Kwargs V) (hal : GoodAliases al) (hkw : IsDict' kw) (hu : ¬ Unambiguous al kw) :
    (callAliased al s body args kw).1 = .error .typeError := by
  have h := renameKwargs_error al kw hal hkw hu
  unfold callAliased
  rcases hr : renameKwargs al kw with ⟨r, w⟩
  rw [hr] at h
  simp only at h
  subst h
  rfl

theorem bindPos_positional (kw : Kwargs V) (n : String) (hn : kw.has n = true) :
    ∀ (ps : List (String × Option V)) (args : List V) (i : Nat), (ps.map Prod.fst)[i]? = some n →
      i < args.length → bindPos kw ps args = .error .typeError
  | [], _, _, h, _ => by simp at h
  | p :: ps, [], i, _, hi => by simp at hi
  | p :: ps, a :: as, 0, h, _ => by
    have : p.1 = n := by simpa using h
    unfold bindPos
    rw [this, hn]
    rfl
  | p :: ps, a :: as, i + 1, h, hi => by
    unfold bindPos
    split
    · rfl
    · rw [bindPos_positional kw n hn ps as i (by simpa using h) (by simpa using hi)]
      rfl

/-- The same if the new parameter is given by position. -/
theorem c46_alias_and_positional (al : List (String × String)) (s : Signature V)
    (body : List V → Except Err Ret) (args : List V) (kw : Kwargs V) (a n : String) (i : Nat)
    (hal : GoodAliases al) (hkw : IsDict' kw) (ha : (a, n) ∈ al) (hag : IsGiven kw a)
    (hi : (s.pos.map Prod.fst)[i]? = some n) (hia : i < args.length) :
    (callAliased al s body args kw).1 = .error .typeError := by
  by_cases hu : Unambiguous al kw
  · obtain ⟨kw', h1, h2, h3⟩ := renameKwargs_ok al kw hal hkw hu
    rw [c46_alias_means_new_name al s body args kw kw' hal hkw h2 hu h3 kw.has (lookup_isSome hkw)]
    simp only
    have hn : kw'.has n = true := by
      rw [lookup_isSome h2]
      obtain ⟨v, hv⟩ := hag
      exact ⟨v, (h3 n v).2 ⟨hal.fresh (a, n) ha, Or.inr ⟨a, ha, hv⟩⟩⟩
    unfold call bindArgs
    rw [bindPos_positional kw' n hn s.pos args i hi hia]
    split <;> rfl
  · exact c46_both_names al s body args kw hal hkw hu

/-! Non-vacuity: the signature of `construct_boundary_a` (`matmul_transform.py:433-440`, values as
strings) called with `boundary="gramschmidt"`, with both names, and with the new one by position. -/

/-- `construct_boundary_a(wavelet, length, device="cpu", orthogonalization="qr", dtype=float64)`. -/
def exSig : Signature String :=
  ⟨[("wavelet", none), ("length", none), ("device", some "cpu"), ("orthogonalization", some "qr"),
    ("dtype", some "float64")], []⟩

theorem exGood : GoodAliases [("boundary", "orthogonalization")] := by
  refine ⟨by simp, ?_⟩
  intro p hp
  simp only [List.mem_singleton] at hp
  subst hp
  simp

example : GoodAliases [("boundary", "orthogonalization")] ∧
    IsDict' [("boundary", "gramschmidt"), ("dtype", "float32")] ∧
    Unambiguous [("boundary", "orthogonalization")] [("boundary", "gramschmidt"), ("dtype", "float32")] ∧
    Renamed [("boundary", "orthogonalization")] [("boundary", "gramschmidt"), ("dtype", "float32")]
      [("dtype", "float32"), ("orthogonalization", "gramschmidt")] ∧
    callAliased [("boundary", "orthogonalization")] exSig Except.ok ["haar", "8"]
      [("boundary", "gramschmidt"), ("dtype", "float32")]
      = (.ok ["haar", "8", "cpu", "gramschmidt", "float32"], [("boundary", "orthogonalization")]) := by
  refine ⟨exGood, by simp [IsDict'], ?_, ?_, by decide⟩
  · intro a n h _
    simp only [List.mem_singleton, Prod.mk.injEq] at h
    obtain ⟨rfl, rfl⟩ := h
    refine ⟨by simp [IsGiven, Given], fun a' h _ => by simpa using h⟩
  · intro k v
    simp only [Given, List.mem_cons, Prod.mk.injEq, List.not_mem_nil, or_false, List.map_cons,
      List.map_nil]
    constructor
    · rintro (⟨rfl, rfl⟩ | ⟨rfl, rfl⟩) <;> simp
    · rintro ⟨h, (⟨rfl, rfl⟩ | ⟨rfl, rfl⟩) | ⟨a, ⟨rfl, rfl⟩, h2⟩⟩
      · simp at h
      · simp
      · simpa using h2

example : ¬ Unambiguous [("boundary", "orthogonalization")]
    [("boundary", "gramschmidt"), ("orthogonalization", "qr")] ∧
    callAliased [("boundary", "orthogonalization")] exSig Except.ok ["haar", "8"]
      [("boundary", "gramschmidt"), ("orthogonalization", "qr")] = (.error .typeError, []) ∧
    callAliased [("boundary", "orthogonalization")] exSig Except.ok ["haar", "8", "cpu", "qr"]
      [("boundary", "gramschmidt")] = (.error .typeError, [("boundary", "orthogonalization")]) := by
  refine ⟨fun h => ?_, by decide, by decide⟩
  exact (h "boundary" "orthogonalization" (by simp) ⟨"gramschmidt", by simp [Given]⟩).1
    ⟨"qr", by simp [Given]⟩

end Verif.Props
