/-
Properties C25, C26, C30, C31, C49: wavelet packet objects as state machines
(src/ptwt/packets.py).  The theorems about `packet1` are about `WaveletPacket` with a padding mode;
theorems about a `Backend` hold for both packet classes.
-/
import Verif.Lemmas.PacketsTop
import Verif.Lemmas.Packet1

namespace Verif.Props
open Tensor Spec
variable {R : Type}

/-- The level a `maxlevel` argument of `WaveletPacket.transform` asks for. -/
def PacketLevel [Zero R] (w : Wavelet R) (axis : Int) (x : Tensor R) (maxlevel : Option Int) (L : Int) : Prop :=
  maxlevel = some L ∨ maxlevel = none ∧ ValidAxis x.rank axis ∧
    L = autoLevel w.len (x.shape.getD (axisOf x.rank axis) 0)

theorem packetLevel1_eq [NonUnitalNonAssocSemiring R] {w : Wavelet R} {mode : Option String} {axis : Int}
    (hF : 2 ≤ w.len) {x : Tensor R} {ml : Option Int} {L : Int} (h : PacketLevel w axis x ml L) :
    ml = some L ∨ ml = none ∧ (packet1 w mode axis).defaultLevel x = .ok L := by
  rcases h with h | ⟨h1, h2, h3⟩
  · exact Or.inl h
  · refine Or.inr ⟨h1, ?_⟩
    show packetLevel1 w axis x = _
    unfold packetLevel1
    simp only [bind, Except.bind, sizeAt_ok h2, autoLevel_eq hF]
    rw [h3]; rfl

section
variable [NonUnitalNonAssocSemiring R] (w : Wavelet R) (mode : Option String) (axis : Int)

/-! ### C25 -/

/-- **C25.** Whatever coefficients were read or initialised before, a coefficient that can be read is
the input filtered, step by step, along the letters of the key. -/
theorem c25_value (m : Mode) (hm : Selects mode m) (hF : 2 ≤ w.len) (hhi : w.decHi.length = w.len)
    (st₀ : Pkt Unit (Tensor R)) (x : Tensor R) (ml : Option Int) (L : Int) (hL : PacketLevel w axis x ml L)
    (ops : List (Backend.Op (Tensor R))) (ho : ∀ op ∈ ops, IsRead op) (key : Key) (v : Tensor R)
    (h : ((packet1 w mode axis).run st₀ (.transform x ml :: ops ++ [.read key])).1.getLast? = some (.value v)) :
    key = [] ∧ v = x ∨
    key ≠ [] ∧ (key.length : Int) ≤ L ∧ (∀ c ∈ key, c = 'a' ∨ c = 'd') ∧
      AlongAxis (axisOf x.rank axis) (levelLen w.len (x.shape.getD (axisOf x.rank axis) 0) key.length)
        (fun line => packetLine m w (x.shape.getD (axisOf x.rank axis) 0) line key) x v := by
  have hP := packet1_pure (w := w) (mode := mode) (axis := axis) hF hhi
  have hg := run_transform_good hP (st := st₀) trivial (x := x) trivial (packetLevel1_eq hF hL) ops ho
  rw [last_outcome, read_after hP hg] at h
  have halp : (packet1 w mode axis).alphabet = ['a', 'd'] := rfl
  rw [halp] at h
  unfold readResult at h
  split_ifs at h with h1 h2 h3
  · left
    simp only [outOf, Option.some.injEq, Backend.Out.value.injEq] at h
    exact ⟨h1, h.symm⟩
  · simp [outOf] at h
  · right
    refine ⟨h1, by omega, by simpa using h3, ?_⟩
    cases hw : walk (packetDec1 w mode axis) ['a', 'd'] x key with
    | error e => rw [hw] at h; simp [outOf] at h
    | ok v' =>
      rw [hw] at h
      simp only [outOf, Option.some.injEq, Backend.Out.value.injEq] at h
      subst h
      exact (walk1_textbook hF hhi hm key x v' h3 (fun hk => absurd hk h1) hw).1
  · simp [outOf] at h

/-- **C25.** Every key up to the maximum level can be read, in any order, as long as the boundary mode
admits the lengths on the way. -/
theorem c25_readable (m : Mode) (hm : Selects mode m) (hF : 2 ≤ w.len) (hhi : w.decHi.length = w.len)
    (st₀ : Pkt Unit (Tensor R)) (x : Tensor R) (ml : Option Int) (L : Int) (hL : PacketLevel w axis x ml L)
    (hax : ValidAxis x.rank axis) (hdt : x.md.dtype = .float32 ∨ x.md.dtype = .float64)
    (ops : List (Backend.Op (Tensor R))) (ho : ∀ op ∈ ops, IsRead op) (key : Key)
    (hk : (key.length : Int) ≤ L) (hc : ∀ c ∈ key, c = 'a' ∨ c = 'd')
    (ha : ∀ s, s < key.length → m.Admits w.len (levelLen w.len (x.shape.getD (axisOf x.rank axis) 0) s)) :
    ∃ v, ((packet1 w mode axis).run st₀ (.transform x ml :: ops ++ [.read key])).1.getLast?
      = some (.value v) := by
  have hP := packet1_pure (w := w) (mode := mode) (axis := axis) hF hhi
  have hg := run_transform_good hP (st := st₀) trivial (x := x) trivial (packetLevel1_eq hF hL) ops ho
  rw [last_outcome, read_after hP hg]
  have hc' : ∀ c ∈ key, c ∈ ['a', 'd'] := by simpa using hc
  obtain ⟨v, hv⟩ := walk1_ok (mode := mode) hF hhi hm key x hc' hax
    (by unfold isDtypeSupported; simpa using hdt) ha
  refine ⟨v, ?_⟩
  have halp : (packet1 w mode axis).alphabet = ['a', 'd'] := rfl
  rw [halp]
  unfold readResult
  by_cases h1 : key = []
  · subst h1
    cases hv
    rw [if_pos rfl]; rfl
  · rw [if_neg h1, if_neg (by omega), if_pos hc', hv]; rfl

/-- **C25.** The outcome of a read does not depend on the reads before it, nor on anything that
happened before `transform`. -/
theorem c25_order_independent (hF : 2 ≤ w.len) (hhi : w.decHi.length = w.len)
    (st₀ st₁ : Pkt Unit (Tensor R)) (x : Tensor R) (ml : Option Int) (L : Int) (hL : PacketLevel w axis x ml L)
    (ops ops' : List (Backend.Op (Tensor R))) (ho : ∀ op ∈ ops, IsRead op) (ho' : ∀ op ∈ ops', IsRead op)
    (key : Key) :
    ((packet1 w mode axis).run st₀ (.transform x ml :: ops ++ [.read key])).1.getLast? =
      ((packet1 w mode axis).run st₁ (.transform x ml :: ops' ++ [.read key])).1.getLast? := by
  have hP := packet1_pure (w := w) (mode := mode) (axis := axis) hF hhi
  have hg := run_transform_good hP (st := st₀) trivial (x := x) trivial (packetLevel1_eq hF hL) ops ho
  have hg' := run_transform_good hP (st := st₁) trivial (x := x) trivial (packetLevel1_eq hF hL) ops' ho'
  rw [last_outcome, last_outcome, read_after hP hg, read_after hP hg']

end

/-- The hypotheses of C25 are met: a two level Haar packet tree on an odd-length batch. -/
example : ∃ v, ((packet1 haar (some "symmetric") (-2)).run (Backend.empty ())
    (.transform exX (some 2) :: [.read ['d'], .init [['a', 'd']]] ++ [.read ['d', 'a']])).1.getLast?
      = some (.value v) := by
  apply c25_readable haar (some "symmetric") (-2) .symmetric (Or.inl rfl) (by decide) rfl _ _ _ 2 (Or.inl rfl)
    ⟨by decide, by decide⟩ (Or.inr rfl)
  · intro op hop
    simp only [List.mem_cons, List.not_mem_nil, or_false] at hop
    rcases hop with rfl | rfl <;> trivial
  · decide
  · simp
  · intro s hs
    exact levelLen_pos (by decide) (by decide) s

/-! ### C26 -/

section
variable {C T : Type} (B : Backend C T)

/-- **C26.** Before any `transform` every read is a ValueError and changes nothing. -/
theorem c26_before_transform (c : C) (key : Key) :
    B.step (Backend.empty c) (.read key) = (.raised .valueError, Backend.empty c) := by
  rw [Backend.step, Backend.getitem]; rfl

/-- **C26.** In any state, reading an absent key longer than the maximum level is a KeyError and
changes nothing. -/
theorem c26_too_long (st : Pkt C T) (L : Int) (hl : st.maxlevel = some L) (key : Key)
    (ha : st.data key = none) (hk : L < key.length) :
    B.step st (.read key) = (.raised .keyError, st) := by
  rw [Backend.step, Backend.getitem]
  simp only [hl, ha, if_pos hk]; rfl

/-- **C26.** In any state, reading an absent key (not too long) whose last letter is no filter letter
is a ValueError and changes nothing. -/
theorem c26_last_letter (st : Pkt C T) (L : Int) (hl : st.maxlevel = some L) (key : Key) (c : Char)
    (ha : st.data (key ++ [c]) = none) (hk : ((key ++ [c]).length : Int) ≤ L) (hc : c ∉ B.alphabet) :
    B.step st (.read (key ++ [c])) = (.raised .valueError, st) := by
  rw [Backend.step, Backend.getitem]
  simp only [hl, ha, if_neg (show ¬ L < ((key ++ [c]).length : Int) by omega)]
  rw [dif_neg (by simp)]
  simp only [List.getLast_append_singleton, hc, not_false_iff, if_true]
  rfl

/-- **C26.** In any state, a foreign letter anywhere in the key is a ValueError, unless a coefficient
with a foreign letter was assigned by the user; all coefficients present stay as they were. -/
theorem c26_foreign_letter (key : Key) : ∀ (st : Pkt C T) (L : Int), st.maxlevel = some L →
    (key.length : Int) ≤ L → (∃ c ∈ key, c ∉ B.alphabet) →
    (∀ k, (∃ c ∈ k, c ∉ B.alphabet) → st.data k = none) →
    B.step st (.read key) = (.raised .valueError, st) := by
  suffices h : ∀ (st : Pkt C T) (L : Int), st.maxlevel = some L →
      (key.length : Int) ≤ L → (∃ c ∈ key, c ∉ B.alphabet) →
      (∀ k, (∃ c ∈ k, c ∉ B.alphabet) → st.data k = none) → B.getitem st key = (.error .valueError, st) by
    intro st L h1 h2 h3 h4
    rw [Backend.step, h st L h1 h2 h3 h4]; rfl
  induction key using List.reverseRecOn with
  | nil => intro st L _ _ h; simp at h
  | append_singleton p c ih =>
    intro st L hl hk hex hnone
    have hd := hnone _ hex
    rw [Backend.getitem]
    simp only [hl, hd, if_neg (show ¬ L < ((p ++ [c]).length : Int) by omega)]
    rw [dif_neg (by simp)]
    simp only [List.getLast_append_singleton, List.dropLast_concat]
    by_cases hc : c ∈ B.alphabet
    · simp only [hc, not_true, if_false]
      obtain ⟨c', hc', hn⟩ := hex
      have hc'p : c' ∈ p := by
        rcases List.mem_append.mp hc' with h | h
        · exact h
        · simp only [List.mem_singleton] at h
          subst h; exact absurd hc hn
      rw [ih st L hl (by simp at hk; omega) ⟨c', hc'p, hn⟩ hnone]; rfl
    · simp only [hc, not_false_iff, if_true]

/-- **C26.** A read, successful or not, never changes coefficients that are present, as long as
the children of a node are present together (which reading alone guarantees). -/
theorem c26_reads_keep (st₀ : Pkt C T) (x : T) (ml : Option Int) (ops : List (Backend.Op T))
    (ho : ∀ op ∈ ops, IsRead op) (key key' : Key) (v : T)
    (hv : (B.run st₀ (.transform x ml :: ops)).2.data key' = some v) :
    (B.step (B.run st₀ (.transform x ml :: ops)).2 (.read key)).2.data key' = some v := by
  have h0 : Closed B (B.step st₀ (.transform x ml)).2 := by
    rw [Backend.step, observe_eq]; exact closed_transform _ _ _
  have hread : ∀ (ops : List (Backend.Op T)) (st : Pkt C T), (∀ op ∈ ops, IsRead op) →
      AssignsPresent B st ops := by
    intro ops
    induction ops with
    | nil => intros; trivial
    | cons op ops ih =>
      intro st h
      have := h op (by simp)
      cases op with
      | read k => exact ih _ fun o h' => h o (by simp [h'])
      | init ks => exact ih _ fun o h' => h o (by simp [h'])
      | set k t => exact this.elim
      | transform x L => exact this.elim
      | reconstruct => exact this.elim
  have h1 := (run_keeps ops h0 (hread ops _ ho)).1
  rw [Backend.step, observe_eq]
  exact (getitem_keeps key h1).2 key' v hv

end

/-- The cases of C26 exist. -/
example : ((packet1 haar none (-1)).run (Backend.empty ())
      [.transform exX (some 2), .read ['a', 'x'], .read ['x', 'a'], .read ['a', 'a', 'a']]).1.length = 4 := rfl

/-! ### C30 -/

section
variable [Field R] [CharZero R] (w : Wavelet R) (mode : Option String) (axis : Int)

theorem packet1_roundtrip {w : Wavelet R} {mode : Option String} {axis : Int} {F : Nat} (hw : PRBank w F)
    (hF : 2 ≤ F) (he : F % 2 = 0) {x r : Tensor R} {vs : List (Tensor R)} (hd : packetDec1 w mode axis x = .ok vs)
    (hs : packetSyn1 w axis vs = .ok r) : r.md = x.md ∧
      (x.shape.getD (axisOf x.rank axis) 0 % 2 = 0 → r = x) ∧
      (x.shape.getD (axisOf x.rank axis) 0 % 2 = 1 → r.shape = x.shape.set (axisOf x.rank axis)
        (x.shape.getD (axisOf x.rank axis) 0 + 1)) ∧
      ∀ idx, InB x.shape idx → r.get idx = x.get idx := by
  have hFw : w.len = F := hw.len.1
  obtain ⟨hv, -, m, lo, hi, -, -, rfl, hlo, -⟩ := packetDec1_char (by omega)
    (by rw [hFw]; exact hw.len.2.1) x hd
  have hwd : wavedec x w mode (some 1) (.int axis) = .ok [lo, hi] := by
    unfold packetDec1 at hd
    simpa only [bind, Except.bind, sizeAt_ok hv] using hd
  obtain ⟨z, ez, zmd, -, z2, z3, z4⟩ := c01_perfect_reconstruction x w F mode (some 1) (.int axis) _ hw hF
    he hwd
  have : r = z := by
    unfold packetSyn1 at hs
    simp only [bind, Except.bind] at hs
    rw [sizeAt_ok (by rw [hlo.rank]; exact hv)] at hs
    simp only [ez, Except.ok.injEq] at hs
    exact hs.symm
  subst this
  exact ⟨zmd, z2, z3 (by simp), z4⟩

/-- **C30.** Transform, read coefficients in any order, reconstruct: if every coefficient of the
lowest level is in the tree, the root is the input again (with one more sample if its length is odd)
and all other coefficients keep their values; otherwise a KeyError is raised and every coefficient,
the root included, keeps its value. -/
theorem c30_reconstruct (F : Nat) (hw : PRBank w F) (hF : 2 ≤ F) (he : F % 2 = 0)
    (st₀ : Pkt Unit (Tensor R)) (x : Tensor R) (ml : Option Int) (L : Nat)
    (hL : PacketLevel w axis x ml (L + 1 : Nat)) (ops : List (Backend.Op (Tensor R)))
    (ho : ∀ op ∈ ops, IsRead op) :
    let st := ((packet1 w mode axis).run st₀ (.transform x ml :: ops)).2
    let complete := ∀ k : Key, k.length = L + 1 → (∀ c ∈ k, c = 'a' ∨ c = 'd') → (st.data k).isSome
    (complete → ∃ st', (packet1 w mode axis).step st .reconstruct = (.done, st') ∧
      (∀ k v, k ≠ [] → st.data k = some v → st'.data k = some v) ∧
      ∃ z, st'.data [] = some z ∧ z.md = x.md ∧
        (x.shape.getD (axisOf x.rank axis) 0 % 2 = 0 → z = x) ∧
        (x.shape.getD (axisOf x.rank axis) 0 % 2 = 1 → z.shape = x.shape.set (axisOf x.rank axis)
          (x.shape.getD (axisOf x.rank axis) 0 + 1)) ∧
        ∀ idx, InB x.shape idx → z.get idx = x.get idx) ∧
    (¬ complete → ∃ st', (packet1 w mode axis).step st .reconstruct = (.raised .keyError, st') ∧
      ∀ k v, st.data k = some v → st'.data k = some v) := by
  intro st complete
  have hFw : w.len = F := hw.len.1
  have hP := packet1_pure (w := w) (mode := mode) (axis := axis) (by omega) (by rw [hFw]; exact hw.len.2.1)
  have hg := run_transform_good hP (st := st₀) trivial (x := x) trivial (packetLevel1_eq (by omega) hL) ops ho
  obtain ⟨h1, h2⟩ := reconstruct_good hP (packet1_complete w mode axis)
    (by simp [packet1])
    ((packet1_inverts (mode := mode) (axis := axis) hw hF he).from hP (x := x) trivial) hg
  have hal : ∀ k : Key, (∀ c ∈ k, c ∈ (packet1 w mode axis).alphabet) ↔ ∀ c ∈ k, c = 'a' ∨ c = 'd' := by
    intro k; simp [packet1]
  simp only [hal] at h1 h2
  refine ⟨fun hc => ?_, h2⟩
  obtain ⟨st', vs, r, e, h5, h3, -, hd, hs⟩ := h1 hc
  exact ⟨st', e, h5, r, h3, packet1_roundtrip hw hF he hd hs⟩

/-- **C30.** The full round trip: transform, initialise all leaves (in any order, after any other
reads), reconstruct, read the root. -/
theorem c30_round_trip (F : Nat) (hw : PRBank w F) (hF : 2 ≤ F) (he : F % 2 = 0) (m : Mode)
    (hm : Selects mode m) (st₀ : Pkt Unit (Tensor R)) (x : Tensor R) (ml : Option Int) (L : Nat)
    (hL : PacketLevel w axis x ml (L + 1 : Nat)) (hax : ValidAxis x.rank axis)
    (hdt : x.md.dtype = .float32 ∨ x.md.dtype = .float64)
    (ha : ∀ s, s < L + 1 → m.Admits w.len (levelLen w.len (x.shape.getD (axisOf x.rank axis) 0) s))
    (ops : List (Backend.Op (Tensor R))) (ho : ∀ op ∈ ops, IsRead op) (leaves : List Key)
    (hlv : ∀ k : Key, k ∈ leaves ↔ k.length = L + 1 ∧ ∀ c ∈ k, c = 'a' ∨ c = 'd') :
    ∃ z, ((packet1 w mode axis).run st₀
        (.transform x ml :: ops ++ [.init leaves] ++ [.reconstruct] ++ [.read []])).1.getLast? = some (.value z) ∧
      z.md = x.md ∧
      (x.shape.getD (axisOf x.rank axis) 0 % 2 = 0 → z = x) ∧
      (x.shape.getD (axisOf x.rank axis) 0 % 2 = 1 → z.shape = x.shape.set (axisOf x.rank axis)
        (x.shape.getD (axisOf x.rank axis) 0 + 1)) ∧
      ∀ idx, InB x.shape idx → z.get idx = x.get idx := by
  have hFw : w.len = F := hw.len.1
  have hhi : w.decHi.length = w.len := by rw [hFw]; exact hw.len.2.1
  have hF' : 2 ≤ w.len := by omega
  have hP := packet1_pure (w := w) (mode := mode) (axis := axis) hF' hhi
  obtain ⟨vs, z, e, hd, hs⟩ := round_trip_good hP (packet1_complete w mode axis)
    (by simp [packet1]) (x := x) trivial
    ((packet1_inverts (mode := mode) (axis := axis) hw hF he).from hP trivial) (st₀ := st₀) trivial
    (packetLevel1_eq hF' hL) ops ho (leaves := leaves) (by intro k; rw [hlv k]; simp [packet1]) (by
      intro k hk hc
      exact walk1_ok (mode := mode) hF' hhi hm k x hc hax (by unfold isDtypeSupported; simpa using hdt)
        (by rw [hk]; exact ha))
  exact ⟨z, e, packet1_roundtrip hw hF he hd hs⟩

end

/-- The hypotheses of C30 are met: a Haar tree of depth 2 on an odd-length batch. -/
example : ∃ z, ((packet1 haar (some "symmetric") (-2)).run (Backend.empty ())
    (.transform exX (some 2) :: [.read ['d']] ++ [.init [['d', 'a'], ['a', 'a'], ['a', 'd'], ['d', 'd']]]
      ++ [.reconstruct] ++ [.read []])).1.getLast? = some (.value z) ∧ z.shape = [4, 2] := by
  obtain ⟨z, h1, -, -, h2, -⟩ := c30_round_trip haar (some "symmetric") (-2) 2 haar_pr (by decide) rfl .symmetric
    (Or.inl rfl) (Backend.empty ()) exX (some 2) 1 (Or.inl rfl) ⟨by decide, by decide⟩ (Or.inr rfl)
    (fun s _ => levelLen_pos (by decide) (by decide) s) [.read ['d']]
    (by intro op hop; simp only [List.mem_singleton] at hop; subst hop; trivial)
    [['d', 'a'], ['a', 'a'], ['a', 'd'], ['d', 'd']] (by
      intro k
      constructor
      · intro h
        simp only [List.mem_cons, List.not_mem_nil, or_false] at h
        rcases h with rfl | rfl | rfl | rfl <;> simp
      · rintro ⟨h1, h2⟩
        obtain ⟨a, b, rfl⟩ := List.length_eq_two.mp h1
        have ha := h2 a (by simp)
        have hb := h2 b (by simp)
        rcases ha with rfl | rfl <;> rcases hb with rfl | rfl <;> simp)
  exact ⟨z, h1, h2 (by decide)⟩

section
variable {C T : Type} (B : Backend C T)

/-- **C30.** In any state of an initialised object (whatever was assigned before) a missing leaf makes
`reconstruct` raise. -/
theorem c30_missing_leaf (hC : B.Complete) (st : Pkt C T) (L : Nat)
    (hl : st.maxlevel = some ((L + 1 : Nat) : Int)) (leaf : Key) (hk : leaf.length = L + 1)
    (hc : ∀ c ∈ leaf, c ∈ B.alphabet) (hn : st.data leaf = none) :
    ∃ e st', B.step st .reconstruct = (.raised e, st') := by
  have h0 : leaf ≠ [] := by rintro rfl; simp at hk
  have hsplit := List.dropLast_append_getLast h0
  obtain ⟨e, s, he⟩ := recNodes_missing (B := B) (hc _ (List.getLast_mem h0)) (B.nodes L) st
    (fun k hk => ((hC.mem _ k).mp hk).1)
    ((hC.mem _ leaf.dropLast).mpr ⟨by simp [hk], fun c h => hc c (List.mem_of_mem_dropLast h)⟩) hl
    (by rw [hsplit]; exact hn)
  refine ⟨e, s, ?_⟩
  rw [Backend.step]
  unfold Backend.reconstruct
  rw [hl]
  show Backend.observe (B.recLevels st (L + 1)) _ = _
  rw [Backend.recLevels, he]; rfl

/-- **C30.** `reconstruct` on an object without data raises ValueError (the level computation that
follows in the code is unreachable). -/
theorem c30_uninitialised (c : C) :
    B.step (Backend.empty c) .reconstruct = (.raised .valueError, Backend.empty c) := by
  rw [Backend.step]
  unfold Backend.reconstruct
  simp only [Backend.empty]
  rw [Backend.getitem]
  rfl

/-- **C30.** A maximum level of 0 (or less) makes `reconstruct` do nothing. -/
theorem c30_level_zero (st : Pkt C T) (L : Int) (hl : st.maxlevel = some L) (h : L ≤ 0) :
    B.step st .reconstruct = (.done, st) := by
  rw [Backend.step]
  unfold Backend.reconstruct
  rw [hl]
  show Backend.observe (B.recLevels st L.toNat) _ = _
  rw [show L.toNat = 0 by omega]
  rfl

end

section
variable [NonUnitalNonAssocSemiring R] (w : Wavelet R) (mode : Option String) (axis : Int)

/-- The cut only looks at the size of the node it replaces. -/
theorem fit1_shape {r old old' : Tensor R} (h : old.shape = old'.shape) : fit1 axis r old = fit1 axis r old' := by
  have : sizeAt old axis = sizeAt old' axis := by unfold sizeAt Tensor.rank; rw [h]
  unfold fit1
  rw [this]

/-- **C30.** The result of `reconstruct` depends on the leaves only: two full trees with the same
leaves, whose inner nodes agree in their shapes but not necessarily in their values, reconstruct to the
same root, which is the recursive synthesis of the leaves. -/
theorem c30_only_leaves (hF : 2 ≤ w.len) (hhi : w.decHi.length = w.len) (st st' : Pkt Unit (Tensor R)) (L : Nat)
    (hl : st.maxlevel = some (L : Int)) (hl' : st'.maxlevel = some (L : Int))
    (leaf old old' : Key → Tensor R)
    (h1 : ∀ k : Key, k.length = L → (∀ c ∈ k, c = 'a' ∨ c = 'd') →
      st.data k = some (leaf k) ∧ st'.data k = some (leaf k))
    (h2 : ∀ k : Key, k.length < L → (∀ c ∈ k, c = 'a' ∨ c = 'd') →
      st.data k = some (old k) ∧ st'.data k = some (old' k))
    (hsh : ∀ k : Key, k ≠ [] → k.length < L → (∀ c ∈ k, c = 'a' ∨ c = 'd') → (old k).shape = (old' k).shape)
    (v : Tensor R)
    (hv : rebuild (packetSyn1 w axis) (fit1 axis) ['a', 'd'] leaf old L [] = .ok v) :
    (∃ s, (packet1 w mode axis).step st .reconstruct = (.done, s) ∧ s.data [] = some v) ∧
    (∃ s, (packet1 w mode axis).step st' .reconstruct = (.done, s) ∧ s.data [] = some v) := by
  have hP := packet1_pure (w := w) (mode := mode) (axis := axis) hF hhi
  have hC := packet1_complete w mode axis
  have hal : ∀ k : Key, (∀ c ∈ k, c ∈ (packet1 w mode axis).alphabet) ↔ ∀ c ∈ k, c = 'a' ∨ c = 'd' := by
    intro k; simp [packet1]
  have hv' : rebuild (packetSyn1 w axis) (fit1 axis) ['a', 'd'] leaf old' L [] = .ok v := by
    rw [← rebuild_congr (al := ['a', 'd']) (leaf := leaf) (leaf' := leaf) (old := old) (old' := old')
      (fun _ _ _ => rfl) (fun k h3 h4 h5 r => fit1_shape axis (hsh k h3 h4 ((hal k).mp h5))) L [] (by simp) (by simp)]
    exact hv
  exact ⟨reconstruct_leaves hP hC hl trivial (fun k a b => ⟨(h1 k a ((hal k).mp b)).1, trivial⟩)
      (fun k a b => ⟨(h2 k a ((hal k).mp b)).1, trivial⟩) hv,
    reconstruct_leaves hP hC hl' trivial (fun k a b => ⟨(h1 k a ((hal k).mp b)).2, trivial⟩)
      (fun k a b => ⟨(h2 k a ((hal k).mp b)).2, trivial⟩) hv'⟩

/-! ### C31 -/

/-- **C31.** A successful `transform` makes the object indistinguishable from a new one: whatever
happened before, all later operations (reads, initialisations, assignments, further transforms,
reconstructions) have the same outcomes. -/
theorem c31_transform_forgets (hF : 2 ≤ w.len) (hhi : w.decHi.length = w.len)
    (before after : List (Backend.Op (Tensor R))) (st₀ : Pkt Unit (Tensor R)) (x : Tensor R) (ml : Option Int)
    (L : Int) (hL : PacketLevel w axis x ml L) :
    ((packet1 w mode axis).run ((packet1 w mode axis).run st₀ before).2 (.transform x ml :: after)).1 =
      ((packet1 w mode axis).run (Backend.empty ()) (.transform x ml :: after)).1 := by
  have hP := packet1_pure (w := w) (mode := mode) (axis := axis) hF hhi
  exact transform_forgets hP (Inv := fun _ => True) trivial trivial x trivial ml L (packetLevel1_eq hF hL) after
    fun op _ => by cases op <;> trivial

/-- **C31**, boundary of the claim: a `transform` that fails (no level can be computed because the
data do not have the transformed axis) still replaces the data, and a level left over from the past
makes the new root readable, which on a new object is an error. -/
theorem c31_failed_transform (st : Pkt Unit (Tensor R)) (L : Int) (hl : st.maxlevel = some L) (x : Tensor R)
    (hx : ¬ ValidAxis x.rank axis) :
    ((packet1 w mode axis).run st [.transform x none, .read []]).1 = [.raised .indexError, .value x] ∧
    ((packet1 w mode axis).run (Backend.empty ()) [.transform x none, .read []]).1
      = [.raised .indexError, .raised .valueError] := by
  have hd : (packet1 w mode axis).defaultLevel x = .error .indexError := by
    show packetLevel1 w axis x = _
    unfold packetLevel1
    simp only [bind, Except.bind, sizeAt_bad hx]
  constructor
  · simp only [Backend.run, Backend.step, Backend.transform, hd, Backend.observe]
    rw [getitem_present (L := L) (by exact hl) (v := x) (by exact PMap.set_self (α := Key) (fun _ => none) [] x)]
  · simp only [Backend.run, Backend.step, Backend.transform, hd, Backend.observe]
    rw [Backend.getitem]
    rfl

/-! ### C49 -/

end

section
variable {C T : Type} (B : Backend C T)

/-- **C49.** Values assigned to coefficients that are already in the tree survive: in every history
of reads, initialisations and assignments to present coefficients, the value last assigned to a key is
the one read later. -/
theorem c49_assignment_survives (st₀ : Pkt C T) (x : T) (ml : Option Int)
    (before after : List (Backend.Op T)) (key : Key) (t : T)
    (hh : AssignsPresent B (B.step st₀ (.transform x ml)).2 (before ++ .set key t :: after))
    (hlast : ∀ t', .set key t' ∉ after) :
    (B.run st₀ (.transform x ml :: before ++ .set key t :: after)).2.data key = some t := by
  have h0 : Closed B (B.step st₀ (.transform x ml)).2 := by
    rw [Backend.step, observe_eq]; exact closed_transform _ _ _
  obtain ⟨h1, h2⟩ := assignsPresent_append _ _ _ hh
  have h3 := (run_keeps before h0 h1).1
  have h4 := (run_keeps [.set key t] h3 ⟨h2.1, trivial⟩).1
  have h5 := (run_keeps after h4 h2.2).2 key t (PMap.set_self _ _ _) hlast
  rw [List.cons_append]
  show (B.run (B.step st₀ (.transform x ml)).2 (before ++ .set key t :: after)).2.data key = some t
  rw [run_append]
  exact h5

end

section
variable [NonUnitalNonAssocSemiring R] (w : Wavelet R) (mode : Option String) (axis : Int)

/-- **C49**, boundary of the claim: a value assigned to a coefficient that is not yet in the tree is
overwritten as soon as its sibling is read. -/
theorem c49_absent_overwritten (st₀ : Pkt Unit (Tensor R)) (x t : Tensor R) (L : Int) (hL : 1 ≤ L) (lo hi : Tensor R)
    (hd : wavedec x w mode (some 1) (.int axis) = .ok [lo, hi]) (hax : ValidAxis x.rank axis) :
    ((packet1 w mode axis).run st₀ [.transform x (some L), .set ['a'] t, .read ['a'], .read ['d'], .read ['a']]).1
      = [.done, .done, .value t, .value hi, .value lo] := by
  have hdec : packetDec1 w mode axis x = .ok [lo, hi] := by
    unfold packetDec1
    simp only [bind, Except.bind, sizeAt_ok hax]
    exact hd
  let st1 : Pkt Unit (Tensor R) := ⟨(PMap.set (fun _ => none) [] x).set ['a'] t, some L, st₀.cache⟩
  have e1 : (packet1 w mode axis).getitem st1 ['a'] = (.ok t, st1) :=
    getitem_present (L := L) rfl (PMap.set_self (PMap.set (fun _ => none) [] x) ['a'] t)
  have e2 : (packet1 w mode axis).getitem st1 ['d'] =
      (.ok hi, ⟨(st1.data.set ['a'] lo).set ['d'] hi, some L, ()⟩) := by
    have e0 : (packet1 w mode axis).getitem st1 [] = (.ok x, st1) :=
      getitem_present (L := L) rfl (by simp [st1, PMap.set])
    rw [Backend.getitem]
    have hn : st1.data ['d'] = none := by simp [st1, PMap.set]
    simp only [show st1.maxlevel = some L from rfl, hn]
    rw [if_neg (by simp; omega), dif_neg (by simp), if_neg (by simp [packet1])]
    rw [show (['d'] : Key).dropLast = [] from rfl, e0]
    simp only [andThen, Backend.expandWith]
    rw [show (packet1 w mode axis).dec st1.cache x = (packetDec1 w mode axis x, ()) from rfl, hdec]
    simp [packet1, Backend.store, Backend.lookup, PMap.set, st1]
  let st2 : Pkt Unit (Tensor R) := ⟨(st1.data.set ['a'] lo).set ['d'] hi, some L, ()⟩
  have e3 : (packet1 w mode axis).getitem st2 ['a'] = (.ok lo, st2) :=
    getitem_present (L := L) rfl (by simp [st2, PMap.set])
  have s1 : (packet1 w mode axis).step st₀ (.transform x (some L))
    = (.done, ⟨PMap.set (fun _ => none) [] x, some L, st₀.cache⟩) := rfl
  have s2 : (packet1 w mode axis).step ⟨PMap.set (fun _ => none) [] x, some L, st₀.cache⟩ (.set ['a'] t)
    = (.done, st1) := rfl
  have s3 : (packet1 w mode axis).step st1 (.read ['a']) = (.value t, st1) := by
    rw [Backend.step, e1]; rfl
  have s4 : (packet1 w mode axis).step st1 (.read ['d']) = (.value hi, st2) := by
    rw [Backend.step, e2]; rfl
  have s5 : (packet1 w mode axis).step st2 (.read ['a']) = (.value lo, st2) := by
    rw [Backend.step, e3]; rfl
  simp only [Backend.run, s1, s2, s3, s4, s5]

end

/-- The hypotheses of C49 are met: the sibling of a coefficient that was read is in the tree, so an
assignment to it survives. -/
example (t : Tensor ℚ) : ((packet1 haar (some "zero") (-2)).run (Backend.empty ())
    (.transform exX (some 1) :: [.read ['d']] ++ .set ['a'] t :: [.read ['d'], .init [['a']]])).2.data ['a']
      = some t := by
  apply c49_assignment_survives
  · refine ⟨?_, trivial⟩
    obtain ⟨vs, hd⟩ := packetDec1_ok (w := haar) (mode := some "zero") (axis := -2) (t := exX) (m := .zero)
      (by decide) rfl ⟨by decide, by decide⟩ rfl (Or.inl rfl) (by unfold Mode.Admits; decide)
    obtain ⟨-, -, m, lo, hi, -, -, rfl, -, -⟩ := packetDec1_char (by decide) rfl _ hd
    have e0 : (packet1 haar (some "zero") (-2)).getitem
        ((packet1 haar (some "zero") (-2)).step (Backend.empty ()) (.transform exX (some 1))).2 []
        = (.ok exX, ((packet1 haar (some "zero") (-2)).step (Backend.empty ()) (.transform exX (some 1))).2) :=
      getitem_present (L := 1) rfl rfl
    rw [Backend.step, Backend.getitem]
    have hm : ((packet1 haar (some "zero") (-2)).step (Backend.empty ())
      (.transform exX (some 1))).2.maxlevel = some 1 := rfl
    have hn : ((packet1 haar (some "zero") (-2)).step (Backend.empty ())
      (.transform exX (some 1))).2.data ['d'] = none := rfl
    simp only [hm, hn]
    rw [if_neg (by simp), dif_neg (by simp), if_neg (by simp [packet1])]
    rw [show (['d'] : Key).dropLast = [] from rfl, e0]
    simp only [andThen, Backend.expandWith]
    rw [show ∀ c, (packet1 haar (some "zero") (-2)).dec c exX
      = (packetDec1 haar (some "zero") (-2) exX, ()) from fun _ => rfl, hd]
    simp [packet1, Backend.store, Backend.lookup, PMap.set, Backend.observe]
  · intro t' h
    simp at h

end Verif.Props
