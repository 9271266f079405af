/-
Property C71: a packet object is a dictionary (`collections.UserDict`); deleting, popping, membership
tests and look-ups with a default behave as for a dictionary whose missing entries are computed when
they are read (src/ptwt/packets.py).
-/
import Verif.Lemmas.PacketDict
import Verif.Props.PacketMat2

namespace Verif.Props
open Tensor Spec

section
variable {C T : Type} (B : Backend C T)

/-- **C71.** `del wp[key]` of a coefficient that is not in the tree is a KeyError and changes nothing; nothing is
computed. -/
theorem c71_del_absent (st : Pkt C T) (key : Key) (h : B.dictStep st (.contains key) = (.flag false, st)) :
    B.dictStep st (.del key) = (.base (.raised .keyError), st) := by
  simp only [Backend.dictStep, Backend.contains, Prod.mk.injEq, and_true, Backend.DictOut.flag.injEq,
    Option.isSome_eq_false_iff, Option.isNone_iff_eq_none] at h
  simp only [Backend.dictStep, Backend.delitem, h, Backend.deleted]

/-- **C71.** `del wp[key]` of a coefficient in the tree takes away this coefficient and nothing else. -/
theorem c71_del_present (st : Pkt C T) (key : Key) (h : B.dictStep st (.contains key) = (.flag true, st)) :
    ∃ st', B.dictStep st (.del key) = (.base .done, st') ∧
      B.dictStep st' (.contains key) = (.flag false, st') ∧
      (∀ k, k ≠ key → (B.dictStep st' (.contains k)).1 = (B.dictStep st (.contains k)).1) ∧
      ∀ k v, k ≠ key → (B.dictStep st (.contains k)).1 = .flag true →
        B.dictStep st (.base (.read k)) = (.base (.value v), st) →
        B.dictStep st' (.base (.read k)) = (.base (.value v), st') := by
  simp only [Backend.dictStep, Backend.contains, Prod.mk.injEq, and_true, Backend.DictOut.flag.injEq] at h
  obtain ⟨u, hu⟩ := Option.isSome_iff_exists.mp h
  refine ⟨⟨fun k => if k = key then none else st.data k, st.maxlevel, st.cache⟩, ?_, ?_, ?_, ?_⟩
  · simp only [Backend.dictStep, Backend.delitem, hu, Backend.deleted]
  · simp [Backend.dictStep, Backend.contains]
  · intro k hk
    simp only [Backend.dictStep, Backend.contains, if_neg hk]
  · intro k v hk hp hv
    simp only [Backend.dictStep, Backend.contains, Backend.DictOut.flag.injEq] at hp
    obtain ⟨v', hv'⟩ := Option.isSome_iff_exists.mp hp
    cases hl : st.maxlevel with
    | none =>
      simp only [Backend.dictStep, Backend.step, observe_eq] at hv
      rw [Backend.getitem] at hv
      simp [hl, outOf] at hv
    | some L =>
      simp only [Backend.dictStep, Backend.step, getitem_present hl hv', observe_eq, outOf, Prod.mk.injEq,
        Backend.DictOut.base.injEq, Backend.Out.value.injEq, and_true] at hv
      subst hv
      simp only [Backend.dictStep, Backend.step]
      rw [getitem_present (L := L) (v := v') rfl (by simp only [if_neg hk, hv'])]
      rfl

/-- **C71.** `key in wp` and, in Python versions whose `UserDict.get` looks first, `wp.get(key)` never change the
object. -/
theorem c71_look_only (st : Pkt C T) (key : Key) (d : Option T) :
    (B.dictStep st (.contains key)).2 = st ∧ (B.dictStep st (.get false key d)).2 = st ∧
    ((B.dictStep st (.contains key)).1 = .flag false → (B.dictStep st (.get false key d)).1 = orNothing d) := by
  refine ⟨rfl, ?_, ?_⟩
  · simp only [Backend.dictStep, Bool.false_or, Backend.contains]
    split_ifs with h
    · obtain ⟨v, hv⟩ := Option.isSome_iff_exists.mp h
      unfold Backend.tryRead
      cases hl : st.maxlevel with
      | none =>
        have : B.getitem st key = (.error .valueError, st) := by rw [Backend.getitem]; simp [hl]
        rw [this]
      | some L => rw [getitem_present hl hv]
    · rfl
  · intro h
    simp only [Backend.dictStep, Backend.DictOut.flag.injEq] at h
    simp only [Backend.dictStep, h, Bool.or_self, Bool.false_eq_true, if_false]
    cases d <;> rfl

/-- **C71**, laziness. After `transform` and successful reads the tree contains exactly the root and the children
of the nodes on the way to the keys that were read: nothing else has been computed. -/
theorem c71_lazy (st₀ : Pkt C T) (x : T) (ml : Option Int) (ks : List Key)
    (h : ∀ o ∈ (B.dictRun (B.dictStep st₀ (.base (.transform x ml))).2 (ks.map fun k => .base (.read k))).1,
      ∃ v, o = .base (.value v)) (q : Key) :
    (B.dictRun st₀ (.base (.transform x ml) :: ks.map (fun k => .base (.read k)) ++ [.contains q])).1.getLast?
        = some (.flag true) ↔ Expanded B.alphabet ks q := by
  have key : ∀ (ks js : List Key) (st : Pkt C T), (∀ q, (st.data q).isSome ↔ Expanded B.alphabet js q) →
      (∀ o ∈ (B.dictRun st (ks.map fun k => .base (.read k))).1, ∃ v, o = .base (.value v)) →
      ∀ q, ((B.dictRun st (ks.map fun k => .base (.read k))).2.data q).isSome ↔
        Expanded B.alphabet (ks.reverse ++ js) q := by
    intro ks
    induction ks with
    | nil => intro js st h _; exact h
    | cons k ks ih =>
      intro js st h ho
      simp only [List.map_cons, Backend.dictRun, Backend.dictStep, Backend.step, observe_eq] at ho ⊢
      rcases hg : B.getitem st k with ⟨r, st'⟩
      rw [hg] at ho
      obtain ⟨v, hv⟩ := ho _ (List.mem_cons_self ..)
      cases r with
      | error e => simp [outOf] at hv
      | ok v' =>
        have h1 := (getitem_expands B k h hg).1
        have := ih (k :: js) st' h1 (fun o h => ho o (List.mem_cons_of_mem _ h))
        intro q
        rw [this q]
        simp
  have h0 : ∀ q, ((B.dictStep st₀ (.base (.transform x ml))).2.data q).isSome ↔ Expanded B.alphabet [] q := by
    intro q
    have e : (B.dictStep st₀ (.base (.transform x ml))).2.data = PMap.set (fun _ => none) [] x := by
      simp only [Backend.dictStep, Backend.step, observe_eq]
      unfold Backend.transform
      cases ml with
      | some L => rfl
      | none =>
        simp only
        cases B.defaultLevel x <;> rfl
    rw [e]
    by_cases hq : q = []
    · subst hq; simp [PMap.set, Expanded]
    · simp [PMap.set, Expanded, hq]
  have := key ks [] _ h0 h q
  rw [dict_last]
  simp only [Backend.dictRun, Backend.dictStep, Backend.contains, Option.some.injEq, Backend.DictOut.flag.injEq] at this ⊢
  rw [this]
  simp [Expanded]

/-- **C71.** A coefficient none of whose ancestors is in the tree any more cannot be computed: ValueError, and
nothing changes. -/
theorem c71_orphan (st : Pkt C T) (L : Int) (hl : st.maxlevel = some L) (key : Key)
    (hk : (key.length : Int) ≤ L) (hn : ∀ p, p <+: key → (B.dictStep st (.contains p)).1 = .flag false) :
    B.dictStep st (.base (.read key)) = (.base (.raised .valueError), st) := by
  have hn' : ∀ p, p <+: key → st.data p = none := by
    intro p hp
    have := hn p hp
    simpa [Backend.dictStep, Backend.contains] using this
  have main : ∀ key : Key, (key.length : Int) ≤ L → (∀ p, p <+: key → st.data p = none) →
      B.getitem st key = (.error .valueError, st) := by
    intro key
    induction key using List.reverseRecOn with
    | nil =>
      intro hk hn
      rw [Backend.getitem]
      simp only [hl, hn [] (List.prefix_refl _)]
      rw [if_neg (by omega)]; rfl
    | append_singleton p c ih =>
      intro hk hn
      have hi := ih (by simp at hk; omega) fun q hq => hn q (hq.trans (List.prefix_append _ _))
      rw [Backend.getitem]
      simp only [hl, hn _ (List.prefix_refl _)]
      rw [if_neg (by omega), dif_neg (by simp), List.dropLast_concat, hi]
      split_ifs <;> rfl
  simp only [Backend.dictStep, Backend.step, main key hk hn']
  rfl

/-- **C71.** `wp.pop(key)` returns what `wp[key]` returns, leaves what `wp[key]` leaves, except that the coefficient
itself is gone; if the read fails, so does `pop`. -/
theorem c71_pop (st : Pkt C T) (key : Key) :
    (∀ v st', B.dictStep st (.base (.read key)) = (.base (.value v), st') → (st'.data key).isSome →
      ∃ st'', B.dictStep st (.pop key none) = (.base (.value v), st'') ∧
        B.dictStep st'' (.contains key) = (.flag false, st'') ∧ st''.maxlevel = st'.maxlevel ∧
        ∀ k, k ≠ key → st''.data k = st'.data k) ∧
    ∀ e st', B.dictStep st (.base (.read key)) = (.base (.raised e), st') →
      B.dictStep st (.pop key none) = (.base (.raised e), st') := by
  rcases hg : B.getitem st key with ⟨r, s⟩
  constructor
  · intro v st' h hp
    simp only [Backend.dictStep, Backend.step, hg, observe_eq, Prod.mk.injEq, Backend.DictOut.base.injEq] at h
    obtain ⟨h1, rfl⟩ := h
    cases r with
    | error e => cases h1
    | ok u =>
      cases h1
      obtain ⟨u, hu⟩ := Option.isSome_iff_exists.mp hp
      refine ⟨⟨fun k => if k = key then none else s.data k, s.maxlevel, s.cache⟩, ?_, ?_, rfl, fun k hk => ?_⟩
      · simp only [Backend.dictStep, Backend.tryRead, hg, Backend.delitem, hu, Backend.deleted]
      · simp [Backend.dictStep, Backend.contains]
      · simp only [if_neg hk]
  · intro e st' h
    simp only [Backend.dictStep, Backend.step, hg, observe_eq, Prod.mk.injEq, Backend.DictOut.base.injEq] at h
    obtain ⟨h1, rfl⟩ := h
    cases r with
    | ok u => cases h1
    | error e' =>
      cases h1
      simp only [Backend.dictStep, Backend.tryRead, hg]
      cases e <;> rfl

/-- **C71.** `wp.setdefault(key, t)` with a key that can be read does what `wp[key]` does; nothing is assigned. -/
theorem c71_setdefault_readable (st st' : Pkt C T) (key : Key) (t v : T)
    (h : B.dictStep st (.base (.read key)) = (.base (.value v), st')) :
    B.dictStep st (.setdefault key t) = (.base (.value v), st') := by
  rcases hg : B.getitem st key with ⟨r, s⟩
  simp only [Backend.dictStep, Backend.step, hg, observe_eq, Prod.mk.injEq, Backend.DictOut.base.injEq] at h
  obtain ⟨h1, rfl⟩ := h
  cases r with
  | error e => cases h1
  | ok u =>
    cases h1
    simp only [Backend.dictStep, Backend.tryRead, hg]

/-- **C71.** `wp.setdefault(key, t)` with a key beyond the maximum level stores `t`, which is then read back. -/
theorem c71_setdefault_beyond (st : Pkt C T) (L : Int) (hl : st.maxlevel = some L) (key : Key)
    (hk : L < key.length) (hn : B.dictStep st (.contains key) = (.flag false, st)) (t : T) :
    (B.dictRun st [.setdefault key t, .contains key, .base (.read key), .setdefault key t]).1
      = [.base (.value t), .flag true, .base (.value t), .base (.value t)] := by
  simp only [Backend.dictStep, Backend.contains, Prod.mk.injEq, and_true, Backend.DictOut.flag.injEq,
    Option.isSome_eq_false_iff, Option.isNone_iff_eq_none] at hn
  have e1 : B.getitem st key = (.error .keyError, st) := by
    rw [Backend.getitem]
    simp only [hl, hn, if_pos hk]
  have e2 : B.getitem (Backend.setitem st key t) key = (.ok t, Backend.setitem st key t) :=
    getitem_present (L := L) hl (PMap.set_self _ _ _)
  have e3 : Backend.contains (Backend.setitem st key t) key = true := by
    simp [Backend.contains, Backend.setitem, PMap.set]
  simp only [Backend.dictRun, Backend.dictStep, Backend.tryRead, e1, e3, Backend.step, e2, observe_eq, outOf]

end

section
variable {R : Type} [NonUnitalNonAssocSemiring R] (w : Wavelet R) (mode : Option String)

/-- **C71.** Whatever coefficients were read, tested for, popped or deleted since `transform` (the root excepted),
reading, popping or getting a coefficient gives what a read gives right after `transform`; a KeyError of the
latter is replaced by the default of `pop` and `get`. -/
theorem c71_lookups (axis : Int) (hF : 2 ≤ w.len) (hhi : w.decHi.length = w.len)
    (st₀ st₁ : Pkt Unit (Tensor R)) (x : Tensor R) (ml : Option Int) (L : Int) (hL : PacketLevel w axis x ml L)
    (ops : List (Backend.DictOp (Tensor R))) (ho : ∀ op ∈ ops, LooksUp op) (hr : ∀ op ∈ ops, ¬ DropsRoot op)
    (key : Key) (d : Option (Tensor R)) :
    let B := packet1 w mode axis
    ∃ o, (B.run st₁ [.transform x ml, .read key]).1.getLast? = some o ∧
      (B.dictRun st₀ (.base (.transform x ml) :: ops ++ [.base (.read key)])).1.getLast? = some (.base o) ∧
      (B.dictRun st₀ (.base (.transform x ml) :: ops ++ [.pop key d])).1.getLast? = some (sees (orRaise d) o) ∧
      (B.dictRun st₀ (.base (.transform x ml) :: ops ++ [.get true key d])).1.getLast? =
        some (sees (orNothing d) o) :=
  dict_lookups (packet1_pure hF hhi) trivial trivial trivial (packetLevel1_eq hF hL) ops ho hr key d

/-- **C71.** Even if the root itself is thrown away, no wrong value is ever returned. -/
theorem c71_never_wrong (axis : Int) (hF : 2 ≤ w.len) (hhi : w.decHi.length = w.len)
    (st₀ st₁ : Pkt Unit (Tensor R)) (x : Tensor R) (ml : Option Int) (L : Int) (hL : PacketLevel w axis x ml L)
    (ops : List (Backend.DictOp (Tensor R))) (ho : ∀ op ∈ ops, LooksUp op) (key : Key) (v : Tensor R)
    (h : ((packet1 w mode axis).dictRun st₀
      (.base (.transform x ml) :: ops ++ [.base (.read key)])).1.getLast? = some (.base (.value v))) :
    ((packet1 w mode axis).run st₁ [.transform x ml, .read key]).1.getLast? = some (.value v) :=
  dict_never_wrong (packet1_pure hF hhi) trivial trivial trivial (packetLevel1_eq hF hL) ops ho key v h

/-- **C71**, boundary of the claim: after a deletion a value assigned to the sibling is lost when the deleted
coefficient is read again, since both are computed anew. -/
theorem c71_sibling_reverted (axis : Int) (st₀ : Pkt Unit (Tensor R)) (x t : Tensor R) (L : Int) (hL : 1 ≤ L)
    (lo hi : Tensor R) (hd : wavedec x w mode (some 1) (.int axis) = .ok [lo, hi]) (hax : ValidAxis x.rank axis) :
    ((packet1 w mode axis).dictRun st₀ [.base (.transform x (some L)), .base (.read ['d']), .base (.set ['a'] t),
        .base (.read ['a']), .del ['d'], .base (.read ['d']), .base (.read ['a'])]).1
      = [.base .done, .base (.value hi), .base .done, .base (.value t), .base .done, .base (.value hi),
        .base (.value lo)] := by
  have hdec : packetDec1 w mode axis x = .ok [lo, hi] := by
    unfold packetDec1
    simp only [bind, Except.bind, sizeAt_ok hax]
    exact hd
  have expand : ∀ st : Pkt Unit (Tensor R), st.maxlevel = some L → st.data [] = some x → st.data ['d'] = none →
      (packet1 w mode axis).getitem st ['d'] = (.ok hi, ⟨(st.data.set ['a'] lo).set ['d'] hi, some L, ()⟩) := by
    intro st h1 h2 h3
    have e0 : (packet1 w mode axis).getitem st [] = (.ok x, st) := getitem_present h1 h2
    rw [Backend.getitem]
    simp only [h1, h3]
    rw [if_neg (by simp; omega), dif_neg (by simp), if_neg (by simp [packet1])]
    rw [show (['d'] : Key).dropLast = [] from rfl, e0]
    simp only [andThen, Backend.expandWith]
    rw [show (packet1 w mode axis).dec st.cache x = (packetDec1 w mode axis x, ()) from rfl, hdec]
    simp [packet1, Backend.store, Backend.lookup, PMap.set, h1]
  let st1 : Pkt Unit (Tensor R) := ⟨PMap.set (fun _ => none) [] x, some L, st₀.cache⟩
  let st2 : Pkt Unit (Tensor R) := ⟨(st1.data.set ['a'] lo).set ['d'] hi, some L, ()⟩
  let st3 : Pkt Unit (Tensor R) := ⟨st2.data.set ['a'] t, some L, ()⟩
  let st4 : Pkt Unit (Tensor R) := ⟨fun k => if k = ['d'] then none else st3.data k, some L, ()⟩
  let st5 : Pkt Unit (Tensor R) := ⟨(st4.data.set ['a'] lo).set ['d'] hi, some L, ()⟩
  have s1 : (packet1 w mode axis).dictStep st₀ (.base (.transform x (some L))) = (.base .done, st1) := rfl
  have s2 : (packet1 w mode axis).dictStep st1 (.base (.read ['d'])) = (.base (.value hi), st2) := by
    simp only [Backend.dictStep, Backend.step]
    rw [expand st1 rfl (by simp [st1, PMap.set]) (by simp [st1, PMap.set])]; rfl
  have s3 : (packet1 w mode axis).dictStep st2 (.base (.set ['a'] t)) = (.base .done, st3) := rfl
  have s4 : (packet1 w mode axis).dictStep st3 (.base (.read ['a'])) = (.base (.value t), st3) := by
    simp only [Backend.dictStep, Backend.step]
    rw [getitem_present (L := L) (v := t) rfl (by simp [st3, PMap.set])]; rfl
  have s5 : (packet1 w mode axis).dictStep st3 (.del ['d']) = (.base .done, st4) := by
    have : st3.data ['d'] = some hi := by simp [st3, st2, PMap.set]
    simp only [Backend.dictStep, Backend.delitem, this, Backend.deleted]
    rfl
  have s6 : (packet1 w mode axis).dictStep st4 (.base (.read ['d'])) = (.base (.value hi), st5) := by
    simp only [Backend.dictStep, Backend.step]
    rw [expand st4 rfl (by simp [st4, st3, st2, st1, PMap.set]) (by simp [st4])]; rfl
  have s7 : (packet1 w mode axis).dictStep st5 (.base (.read ['a'])) = (.base (.value lo), st5) := by
    simp only [Backend.dictStep, Backend.step]
    rw [getitem_present (L := L) (v := lo) rfl (by simp [st5, PMap.set])]; rfl
  simp only [Backend.dictRun, s1, s2, s3, s4, s5, s6, s7]

end

section
variable {R : Type} [Semiring R] (w : Wavelet R) (mode : Option String)

/-- **C71**, two dimensions. Reading, popping and getting after any look-ups and deletions. -/
theorem c71_2d_lookups (axes : List Int) (sep : Bool) (hF : 2 ≤ w.len) (hhi : w.decHi.length = w.len)
    (st₀ st₁ : Pkt Unit (Tensor R)) (x : Tensor R) (ml : Option Int) (L : Int) (hL : PacketLevel2 w axes x ml L)
    (ops : List (Backend.DictOp (Tensor R))) (ho : ∀ op ∈ ops, LooksUp op) (hr : ∀ op ∈ ops, ¬ DropsRoot op)
    (key : Key) (d : Option (Tensor R)) :
    let B := packet2 w mode axes sep
    ∃ o, (B.run st₁ [.transform x ml, .read key]).1.getLast? = some o ∧
      (B.dictRun st₀ (.base (.transform x ml) :: ops ++ [.base (.read key)])).1.getLast? = some (.base o) ∧
      (B.dictRun st₀ (.base (.transform x ml) :: ops ++ [.pop key d])).1.getLast? = some (sees (orRaise d) o) ∧
      (B.dictRun st₀ (.base (.transform x ml) :: ops ++ [.get true key d])).1.getLast? =
        some (sees (orNothing d) o) :=
  dict_lookups (packet2_pure hF hhi) trivial trivial trivial (packetLevel2_eq hF hL) ops ho hr key d

/-- **C71**, two dimensions. Even if the root itself is thrown away, no wrong value is ever returned. -/
theorem c71_2d_never_wrong (axes : List Int) (sep : Bool) (hF : 2 ≤ w.len) (hhi : w.decHi.length = w.len)
    (st₀ st₁ : Pkt Unit (Tensor R)) (x : Tensor R) (ml : Option Int) (L : Int) (hL : PacketLevel2 w axes x ml L)
    (ops : List (Backend.DictOp (Tensor R))) (ho : ∀ op ∈ ops, LooksUp op) (key : Key) (v : Tensor R)
    (h : ((packet2 w mode axes sep).dictRun st₀
      (.base (.transform x ml) :: ops ++ [.base (.read key)])).1.getLast? = some (.base (.value v))) :
    ((packet2 w mode axes sep).run st₁ [.transform x ml, .read key]).1.getLast? = some (.value v) :=
  dict_never_wrong (packet2_pure hF hhi) trivial trivial trivial (packetLevel2_eq hF hL) ops ho key v h

end

section
variable {R : Type} [Field R] [DecidableEq R] (la : LinAlg R) (w : Wavelet R) (orth : String)

/-- **C71**, boundary mode. Reading, popping and getting after any look-ups and deletions, on an object that
was used before with tensors of the same dtype and device. -/
theorem c71_boundary_lookups (axis : Int) (hF : 2 ≤ w.len) (md : Meta) (before : List (Backend.Op (Tensor R)))
    (hb : ∀ op ∈ before, OpMd md op) (x : Tensor R) (hx : x.md = md) (ml : Option Int) (L : Int)
    (hL : PacketLevel w axis x ml L)
    (ops : List (Backend.DictOp (Tensor R))) (ho : ∀ op ∈ ops, LooksUp op) (hr : ∀ op ∈ ops, ¬ DropsRoot op)
    (key : Key) (d : Option (Tensor R)) :
    let B := packetMat1 la w orth axis
    let st₀ := (B.run (Backend.empty MatCache1.empty) before).2
    ∃ o, (B.run (Backend.empty MatCache1.empty) [.transform x ml, .read key]).1.getLast? = some o ∧
      (B.dictRun st₀ (.base (.transform x ml) :: ops ++ [.base (.read key)])).1.getLast? = some (.base o) ∧
      (B.dictRun st₀ (.base (.transform x ml) :: ops ++ [.pop key d])).1.getLast? = some (sees (orRaise d) o) ∧
      (B.dictRun st₀ (.base (.transform x ml) :: ops ++ [.get true key d])).1.getLast? =
        some (sees (orNothing d) o) :=
  dict_lookups packetMat1_pure (used_inv md before hb) matInv1_empty hx (packetMatLevel_eq hF hL) ops ho hr key d

/-- **C71**, two dimensions, boundary mode. -/
theorem c71_2d_boundary_lookups (axes : List Int) (sep : Bool) (hF : 2 ≤ w.len) (md : Meta)
    (before : List (Backend.Op (Tensor R)))
    (hb : ∀ op ∈ before, OpMd md op) (x : Tensor R) (hx : x.md = md) (ml : Option Int) (L : Int)
    (hL : PacketLevel2 w axes x ml L)
    (ops : List (Backend.DictOp (Tensor R))) (ho : ∀ op ∈ ops, LooksUp op) (hr : ∀ op ∈ ops, ¬ DropsRoot op)
    (key : Key) (d : Option (Tensor R)) :
    let B := packetMat2 la w orth axes sep
    let st₀ := (B.run (Backend.empty MatCache2.empty) before).2
    ∃ o, (B.run (Backend.empty MatCache2.empty) [.transform x ml, .read key]).1.getLast? = some o ∧
      (B.dictRun st₀ (.base (.transform x ml) :: ops ++ [.base (.read key)])).1.getLast? = some (.base o) ∧
      (B.dictRun st₀ (.base (.transform x ml) :: ops ++ [.pop key d])).1.getLast? = some (sees (orRaise d) o) ∧
      (B.dictRun st₀ (.base (.transform x ml) :: ops ++ [.get true key d])).1.getLast? =
        some (sees (orNothing d) o) :=
  dict_lookups packetMat2_pure (used_inv2 md before hb) matInv2_empty hx (packetMatLevel2_eq hF hL) ops ho hr key d

end

section
variable {R : Type} [Field R] [CharZero R] (w : Wavelet R) (mode : Option String)

/-- **C71.** Inner nodes may be thrown away before `reconstruct`: as long as all leaves were initialised the
input comes back. -/
theorem c71_round_trip (axis : Int) (F : Nat) (hw : PRBank w F) (hF : 2 ≤ F) (he : F % 2 = 0) (m : Mode)
    (hm : Selects mode m) (st₀ : Pkt Unit (Tensor R)) (x : Tensor R) (ml : Option Int) (L : Nat)
    (hL : PacketLevel w axis x ml (L + 1 : Nat)) (hax : ValidAxis x.rank axis)
    (hdt : x.md.dtype = .float32 ∨ x.md.dtype = .float64)
    (ha : ∀ s, s < L + 1 → m.Admits w.len (levelLen w.len (x.shape.getD (axisOf x.rank axis) 0) s))
    (ops : List (Backend.DictOp (Tensor R))) (ho : ∀ op ∈ ops, LooksUp op) (hr : ∀ op ∈ ops, ¬ DropsRoot op)
    (leaves : List Key) (hlv : ∀ k : Key, k ∈ leaves ↔ k.length = L + 1 ∧ ∀ c ∈ k, c = 'a' ∨ c = 'd')
    (gone : List Key) (hg : ∀ k ∈ gone, k ≠ [] ∧ k.length ≤ L) :
    ∃ z, ((packet1 w mode axis).dictRun st₀ (.base (.transform x ml) :: ops ++ [.base (.init leaves)]
        ++ gone.map .del ++ [.base .reconstruct] ++ [.base (.read [])])).1.getLast? = some (.base (.value z)) ∧
      z.md = x.md ∧
      (x.shape.getD (axisOf x.rank axis) 0 % 2 = 0 → z = x) ∧
      (x.shape.getD (axisOf x.rank axis) 0 % 2 = 1 → z.shape = x.shape.set (axisOf x.rank axis)
        (x.shape.getD (axisOf x.rank axis) 0 + 1)) ∧
      ∀ idx, InB x.shape idx → z.get idx = x.get idx := by
  have hFw : w.len = F := hw.len.1
  have hhi : w.decHi.length = w.len := by rw [hFw]; exact hw.len.2.1
  have hF' : 2 ≤ w.len := by omega
  have hP := packet1_pure (w := w) (mode := mode) (axis := axis) hF' hhi
  obtain ⟨vs, z, e, hd, hs⟩ := dict_round_trip hP (packet1_complete w mode axis)
    (by simp [packet1]) (x := x) trivial
    ((packet1_inverts (mode := mode) (axis := axis) hw hF he).from hP trivial) (st₀ := st₀) trivial
    (packetLevel1_eq hF' hL) ops ho hr (leaves := leaves) (by intro k; rw [hlv k]; simp [packet1]) (by
      intro k hk hc
      exact walk1_ok (mode := mode) hF' hhi hm k x hc hax (by unfold isDtypeSupported; simpa using hdt)
        (by rw [hk]; exact ha)) gone hg
  exact ⟨z, e, packet1_roundtrip hw hF he hd hs⟩

/-- **C71**, two dimensions. Inner nodes may be thrown away before `reconstruct`. -/
theorem c71_2d_round_trip (axes : List Int) (sep : Bool) (F : Nat) (hw : PRBank w F) (hF : 2 ≤ F) (he : F % 2 = 0)
    (m : Mode) (hm : Selects mode m) (st₀ : Pkt Unit (Tensor R)) (x : Tensor R) (ml : Option Int) (L : Nat)
    (hL : PacketLevel2 w axes x ml (L + 1 : Nat)) (hax : GoodAxes (.seq axes) x.rank 2)
    (hdt : x.md.dtype = .float32 ∨ x.md.dtype = .float64)
    (ha : LevelsAdmit m w.len (sizes (planeAxes axes x.rank) x.shape) (L + 1))
    (ops : List (Backend.DictOp (Tensor R))) (ho : ∀ op ∈ ops, LooksUp op) (hr : ∀ op ∈ ops, ¬ DropsRoot op)
    (leaves : List Key)
    (hlv : ∀ k : Key, k ∈ leaves ↔ k.length = L + 1 ∧ ∀ c ∈ k, c = 'a' ∨ c = 'h' ∨ c = 'v' ∨ c = 'd')
    (gone : List Key) (hg : ∀ k ∈ gone, k ≠ [] ∧ k.length ≤ L) :
    ∃ z, ((packet2 w mode axes sep).dictRun st₀ (.base (.transform x ml) :: ops ++ [.base (.init leaves)]
        ++ gone.map .del ++ [.base .reconstruct] ++ [.base (.read [])])).1.getLast? = some (.base (.value z)) ∧
      Reconstructs (planeAxes axes x.rank) 1 x z := by
  have hFw : w.len = F := hw.len.1
  have hhi : w.decHi.length = w.len := by rw [hFw]; exact hw.len.2.1
  have hF' : 2 ≤ w.len := by omega
  have hP := packet2_pure (w := w) (mode := mode) (axes := axes) (sep := sep) hF' hhi
  have hs : ∀ (s : Nat) (ns : List Nat), sizesAfter (nextLens w.len) ns s = levelLens w.len ns s := by
    intro s
    induction s with
    | zero => intro ns; exact (levelLens_zero _ _).symm
    | succ s ih => intro ns; rw [sizesAfter, ih]; exact levelLens_shift _ _ _
  obtain ⟨vs, z, e, hd, hz⟩ := dict_round_trip hP packet2_complete
    (by simp [packet2]) (x := x) trivial
    ((packet2_inverts (mode := mode) (axes := axes) (sep := sep) hw hF he).from hP trivial) (st₀ := st₀) trivial
    (packetLevel2_eq hF' hL) ops ho hr (leaves := leaves) (by intro k; rw [hlv k]; simp [packet2]) (by
      intro k hk hc
      exact walk2_ok (packet2_step (sep := sep) hF' hhi hm) k x (by unfold isDtypeSupported; simpa using hdt) hc hax
        (by intro s h; rw [hs]; exact ha s (by omega))) gone hg
  obtain ⟨-, z', ez, hz'⟩ := packet2_roundtrip hw hF he hd
  rw [ez] at hz
  cases hz
  exact ⟨z, e, hz'⟩

end

/-! ### The hypotheses are met -/

/-- A Haar tree of depth 2 on an odd-length batch: a coefficient is popped twice, with reads between. -/
example : ∃ v, ((packet1 haar (some "symmetric") (-2)).dictRun (Backend.empty ())
    (.base (.transform exX (some 2)) :: [.pop ['d', 'a'] none, .contains ['d'], .del ['d']]
      ++ [.pop ['d', 'a'] none])).1.getLast? = some (.base (.value v)) := by
  obtain ⟨o, h1, -, h2, -⟩ := c71_lookups haar (some "symmetric") (-2) (by decide) rfl (Backend.empty ())
    (Backend.empty ()) exX (some 2) 2 (Or.inl rfl) [.pop ['d', 'a'] none, .contains ['d'], .del ['d']]
    (by intro op hop; simp only [List.mem_cons, List.not_mem_nil, or_false] at hop
        rcases hop with rfl | rfl | rfl <;> trivial)
    (by intro op hop; simp only [List.mem_cons, List.not_mem_nil, or_false] at hop
        rcases hop with rfl | rfl | rfl <;> simp [DropsRoot]) ['d', 'a'] none
  obtain ⟨v, hv⟩ := c25_readable haar (some "symmetric") (-2) .symmetric (Or.inl rfl) (by decide) rfl
    (Backend.empty ()) exX (some 2) 2 (Or.inl rfl) ⟨by decide, by decide⟩ (Or.inr rfl) [] (by simp) ['d', 'a']
    (by decide) (by simp) (fun s _ => levelLen_pos (by decide) (by decide) s)
  rw [show (Backend.Op.transform exX (some 2) :: ([] : List _) ++ [.read ['d', 'a']])
    = [.transform exX (some 2), .read ['d', 'a']] from rfl, h1] at hv
  cases hv
  exact ⟨v, h2⟩

/-- What reading "aad" computes. -/
example : Expanded ['a', 'd'] [['a', 'a', 'd']] ['a', 'd'] ∧ ¬ Expanded ['a', 'd'] [['a', 'a', 'd']] ['d', 'a'] := by
  constructor
  · exact Or.inr ⟨_, by simp, ['a'], 'd', rfl, by simp, ⟨['a', 'd'], rfl⟩, by simp⟩
  · rintro (h | ⟨k, hk, p, c, h1, -, h2, -⟩)
    · simp at h
    · simp only [List.mem_singleton] at hk
      subst hk
      have : p = ['d'] := by
        have := congrArg List.dropLast h1
        simpa using this.symm
      subst this
      obtain ⟨t, ht⟩ := h2
      simp at ht

/-- The whole round trip with the two inner nodes thrown away. -/
example : ∃ z, ((packet1 haar (some "symmetric") (-2)).dictRun (Backend.empty ())
    (.base (.transform exX (some 2)) :: [.pop ['d'] none]
      ++ [.base (.init [['d', 'a'], ['a', 'a'], ['a', 'd'], ['d', 'd']])] ++ [['a'], ['d']].map .del
      ++ [.base .reconstruct] ++ [.base (.read [])])).1.getLast? = some (.base (.value z)) ∧ z.shape = [4, 2] := by
  obtain ⟨z, h1, -, -, h2, -⟩ := c71_round_trip haar (some "symmetric") (-2) 2 haar_pr (by decide) rfl .symmetric
    (Or.inl rfl) (Backend.empty ()) exX (some 2) 1 (Or.inl rfl) ⟨by decide, by decide⟩ (Or.inr rfl)
    (fun s _ => levelLen_pos (by decide) (by decide) s) [.pop ['d'] none]
    (by intro op hop; simp only [List.mem_singleton] at hop; subst hop; trivial)
    (by intro op hop; simp only [List.mem_singleton] at hop; subst hop; simp [DropsRoot])
    [['d', 'a'], ['a', 'a'], ['a', 'd'], ['d', 'd']] (by
      intro k
      constructor
      · intro h
        simp only [List.mem_cons, List.not_mem_nil, or_false] at h
        rcases h with rfl | rfl | rfl | rfl <;> simp
      · rintro ⟨h1, h2⟩
        obtain ⟨a, b, rfl⟩ := List.length_eq_two.mp h1
        have ha := h2 a (by simp)
        have hb := h2 b (by simp)
        rcases ha with rfl | rfl <;> rcases hb with rfl | rfl <;> simp)
    [['a'], ['d']] (by
      intro k hk
      simp only [List.mem_cons, List.not_mem_nil, or_false] at hk
      rcases hk with rfl | rfl <;> simp)
  exact ⟨z, h1, h2 (by decide)⟩

end Verif.Props
