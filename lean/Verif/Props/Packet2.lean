/-
Properties C25, C30, C31 for `WaveletPacket2D` with a padding mode (src/ptwt/packets.py).
-/
import Verif.Lemmas.Packet2Pad
import Verif.Props.Packets

namespace Verif.Props
open Tensor Spec
variable {R : Type}

/-- The level a `maxlevel` argument of `WaveletPacket2D.transform` asks for: `None` is the automatic level of the
smaller of the two sizes. -/
def PacketLevel2 [Zero R] (w : Wavelet R) (axes : List Int) (x : Tensor R) (maxlevel : Option Int) (L : Int) : Prop :=
  maxlevel = some L ∨ maxlevel = none ∧ ∃ p q n₁ n₂, axes = [p, q] ∧ ValidAxes x.rank axes ∧
    n₁ = x.shape.getD (axisOf x.rank p) 0 ∧ n₂ = x.shape.getD (axisOf x.rank q) 0 ∧
    L = autoLevel w.len (if n₁ < n₂ then n₁ else n₂)

theorem packetLevel2_eq [Zero R] {w : Wavelet R} {axes : List Int}
    (hF : 2 ≤ w.len) {x : Tensor R} {ml : Option Int} {L : Int} (h : PacketLevel2 w axes x ml L) :
    ml = some L ∨ ml = none ∧ packetLevel2 w axes x = .ok L := by
  rcases h with h | ⟨h1, p, q, n₁, n₂, rfl, hv, rfl, rfl, rfl⟩
  · exact Or.inl h
  · refine Or.inr ⟨h1, ?_⟩
    have hg : GoodAxes (.seq [p, q]) x.rank 2 := ⟨by omega, rfl, hv⟩
    unfold packetLevel2
    simp only [bind, Except.bind, planeSizes_ok hg]
    rw [autoLevel_eq hF]
    simp only [pure, Except.pure]
    congr 3
    show min (x.shape.getD (axisOf x.rank p) 0) (x.shape.getD (axisOf x.rank q) 0) = _
    split_ifs <;> omega

/-- The two transformed axes of a tensor of rank `r`, as positions. -/
abbrev planeAxes (axes : List Int) (r : Nat) : List Nat := axesOf (.seq axes) r 2

section
variable [Semiring R] (w : Wavelet R) (mode : Option String) (axes : List Int) (sep : Bool)

/-! ### C25 -/

/-- **C25**, two dimensions. Whatever coefficients were read or initialised before, a coefficient that can be
read is the input filtered, step by step, along the letters of the key, each letter naming the filters
along the two axes (`letterBand`; with `separable=True` the letters `h` and `v` are exchanged). -/
theorem c25_2d_value (m : Mode) (hm : Selects mode m) (hF : 2 ≤ w.len) (hhi : w.decHi.length = w.len)
    (st₀ : Pkt Unit (Tensor R)) (x : Tensor R) (hdt : x.md.dtype = .float32 ∨ x.md.dtype = .float64)
    (ml : Option Int) (L : Int) (hL : PacketLevel2 w axes x ml L)
    (ops : List (Backend.Op (Tensor R))) (ho : ∀ op ∈ ops, IsRead op) (key : Key) (v : Tensor R)
    (h : ((packet2 w mode axes sep).run st₀ (.transform x ml :: ops ++ [.read key])).1.getLast? = some (.value v)) :
    key = [] ∧ v = x ∨
    key ≠ [] ∧ (key.length : Int) ≤ L ∧ (∀ c ∈ key, c = 'a' ∨ c = 'h' ∨ c = 'v' ∨ c = 'd') ∧
      AlongAxes (planeAxes axes x.rank) (levelLens w.len (sizes (planeAxes axes x.rank) x.shape) key.length)
        (fun X => packetPlane (bandN m w) (nextLens w.len) (packetBand sep) (sizes (planeAxes axes x.rank) x.shape) X key)
        x v := by
  have hP := packet2_pure (w := w) (mode := mode) (axes := axes) (sep := sep) hF hhi
  have hg := run_transform_good hP (st := st₀) trivial (x := x) trivial (packetLevel2_eq hF hL) ops ho
  rw [last_outcome, read_after hP hg] at h
  have halp : (packet2 w mode axes sep).alphabet = ['a', 'h', 'v', 'd'] := rfl
  rw [halp] at h
  unfold readResult at h
  split_ifs at h with h1 h2 h3
  · left
    simp only [outOf, Option.some.injEq, Backend.Out.value.injEq] at h
    exact ⟨h1, h.symm⟩
  · simp [outOf] at h
  · right
    refine ⟨h1, by omega, by simpa using h3, ?_⟩
    cases hw : walk (packetDec2 w mode axes sep) ['a', 'h', 'v', 'd'] x key with
    | error e => rw [hw] at h; simp [outOf] at h
    | ok v' =>
      rw [hw] at h
      simp only [outOf, Option.some.injEq, Backend.Out.value.injEq] at h
      subst h
      have hs : ∀ (s : Nat) (ns : List Nat), sizesAfter (nextLens w.len) ns s = levelLens w.len ns s := by
        intro s
        induction s with
        | zero => intro ns; exact (levelLens_zero _ _).symm
        | succ s ih => intro ns; rw [sizesAfter, ih]; exact levelLens_shift _ _ _
      rw [← hs]
      exact (walk2_textbook (packet2_step hF hhi hm) key x v' (by unfold isDtypeSupported; simpa using hdt) h3
        (fun hk => absurd hk h1) hw).1
  · simp [outOf] at h

/-- **C25**, two dimensions. Every key up to the maximum level can be read, in any order, as long as the boundary
mode admits the sizes on the way. -/
theorem c25_2d_readable (m : Mode) (hm : Selects mode m) (hF : 2 ≤ w.len) (hhi : w.decHi.length = w.len)
    (st₀ : Pkt Unit (Tensor R)) (x : Tensor R) (ml : Option Int) (L : Int) (hL : PacketLevel2 w axes x ml L)
    (hax : GoodAxes (.seq axes) x.rank 2) (hdt : x.md.dtype = .float32 ∨ x.md.dtype = .float64)
    (ops : List (Backend.Op (Tensor R))) (ho : ∀ op ∈ ops, IsRead op) (key : Key)
    (hk : (key.length : Int) ≤ L) (hc : ∀ c ∈ key, c = 'a' ∨ c = 'h' ∨ c = 'v' ∨ c = 'd')
    (ha : LevelsAdmit m w.len (sizes (planeAxes axes x.rank) x.shape) key.length) :
    ∃ v, ((packet2 w mode axes sep).run st₀ (.transform x ml :: ops ++ [.read key])).1.getLast?
      = some (.value v) := by
  have hP := packet2_pure (w := w) (mode := mode) (axes := axes) (sep := sep) hF hhi
  have hg := run_transform_good hP (st := st₀) trivial (x := x) trivial (packetLevel2_eq hF hL) ops ho
  rw [last_outcome, read_after hP hg]
  have hc' : ∀ c ∈ key, c ∈ ['a', 'h', 'v', 'd'] := by simpa using hc
  have hs : ∀ (s : Nat) (ns : List Nat), sizesAfter (nextLens w.len) ns s = levelLens w.len ns s := by
    intro s
    induction s with
    | zero => intro ns; exact (levelLens_zero _ _).symm
    | succ s ih => intro ns; rw [sizesAfter, ih]; exact levelLens_shift _ _ _
  obtain ⟨v, hv⟩ := walk2_ok (packet2_step (sep := sep) hF hhi hm) key x (by unfold isDtypeSupported; simpa using hdt) hc' hax
    (by intro s h; rw [hs]; exact ha s h)
  refine ⟨v, ?_⟩
  have halp : (packet2 w mode axes sep).alphabet = ['a', 'h', 'v', 'd'] := rfl
  rw [halp]
  unfold readResult
  by_cases h1 : key = []
  · subst h1
    cases hv
    rw [if_pos rfl]; rfl
  · rw [if_neg h1, if_neg (by omega), if_pos hc', hv]; rfl

/-- **C25**, two dimensions. The outcome of a read does not depend on the reads before it, nor on anything that
happened before `transform`. -/
theorem c25_2d_order_independent (hF : 2 ≤ w.len) (hhi : w.decHi.length = w.len)
    (st₀ st₁ : Pkt Unit (Tensor R)) (x : Tensor R) (ml : Option Int) (L : Int) (hL : PacketLevel2 w axes x ml L)
    (ops ops' : List (Backend.Op (Tensor R))) (ho : ∀ op ∈ ops, IsRead op) (ho' : ∀ op ∈ ops', IsRead op)
    (key : Key) :
    ((packet2 w mode axes sep).run st₀ (.transform x ml :: ops ++ [.read key])).1.getLast? =
      ((packet2 w mode axes sep).run st₁ (.transform x ml :: ops' ++ [.read key])).1.getLast? := by
  have hP := packet2_pure (w := w) (mode := mode) (axes := axes) (sep := sep) hF hhi
  have hg := run_transform_good hP (st := st₀) trivial (x := x) trivial (packetLevel2_eq hF hL) ops ho
  have hg' := run_transform_good hP (st := st₁) trivial (x := x) trivial (packetLevel2_eq hF hL) ops' ho'
  rw [last_outcome, last_outcome, read_after hP hg, read_after hP hg']

/-! ### C31 -/

/-- **C31**, two dimensions. A successful `transform` makes the object indistinguishable from a new one. -/
theorem c31_2d_transform_forgets (hF : 2 ≤ w.len) (hhi : w.decHi.length = w.len)
    (before after : List (Backend.Op (Tensor R))) (st₀ : Pkt Unit (Tensor R)) (x : Tensor R) (ml : Option Int)
    (L : Int) (hL : PacketLevel2 w axes x ml L) :
    ((packet2 w mode axes sep).run ((packet2 w mode axes sep).run st₀ before).2 (.transform x ml :: after)).1 =
      ((packet2 w mode axes sep).run (Backend.empty ()) (.transform x ml :: after)).1 :=
  transform_forgets (packet2_pure hF hhi) (Inv := fun _ => True) trivial trivial x trivial ml L (packetLevel2_eq hF hL) after
    fun op _ => by cases op <;> trivial

/-- **C31**, two dimensions, boundary of the claim: a `transform` that fails because the data do not have the
transformed axes still replaces the data, and a level left over from the past makes the new root readable,
which on a new object is an error. -/
theorem c31_2d_failed_transform (st : Pkt Unit (Tensor R)) (L : Int) (hl : st.maxlevel = some L) (x : Tensor R)
    (hx : ¬ ValidAxes x.rank axes) : ∃ e,
    ((packet2 w mode axes sep).run st [.transform x none, .read []]).1 = [.raised e, .value x] ∧
    ((packet2 w mode axes sep).run (Backend.empty ()) [.transform x none, .read []]).1
      = [.raised e, .raised .valueError] := by
  obtain ⟨e, he⟩ := planeSizes_bad hx
  have hd : (packet2 w mode axes sep).defaultLevel x = .error e := by
    show packetLevel2 w axes x = _
    unfold packetLevel2
    simp only [bind, Except.bind, he]
  refine ⟨e, ?_, ?_⟩
  · simp only [Backend.run, Backend.step, Backend.transform, hd, Backend.observe]
    rw [getitem_present (L := L) (by exact hl) (v := x) (by exact PMap.set_self (α := Key) (fun _ => none) [] x)]
  · simp only [Backend.run, Backend.step, Backend.transform, hd, Backend.observe]
    rw [Backend.getitem]
    rfl

/-! ### C30 -/

/-- **C30**, two dimensions. The result of `reconstruct` depends on the leaves only. -/
theorem c30_2d_only_leaves (hF : 2 ≤ w.len) (hhi : w.decHi.length = w.len) (st st' : Pkt Unit (Tensor R)) (L : Nat)
    (hl : st.maxlevel = some (L : Int)) (hl' : st'.maxlevel = some (L : Int))
    (leaf old old' : Key → Tensor R)
    (h1 : ∀ k : Key, k.length = L → (∀ c ∈ k, c = 'a' ∨ c = 'h' ∨ c = 'v' ∨ c = 'd') →
      st.data k = some (leaf k) ∧ st'.data k = some (leaf k))
    (h2 : ∀ k : Key, k.length < L → (∀ c ∈ k, c = 'a' ∨ c = 'h' ∨ c = 'v' ∨ c = 'd') →
      st.data k = some (old k) ∧ st'.data k = some (old' k))
    (hsh : ∀ k : Key, k ≠ [] → k.length < L → (∀ c ∈ k, c = 'a' ∨ c = 'h' ∨ c = 'v' ∨ c = 'd') →
      (old k).shape = (old' k).shape)
    (v : Tensor R)
    (hv : rebuild (packetSyn2 w axes sep) (fit2 axes) ['a', 'h', 'v', 'd'] leaf old L [] = .ok v) :
    (∃ s, (packet2 w mode axes sep).step st .reconstruct = (.done, s) ∧ s.data [] = some v) ∧
    (∃ s, (packet2 w mode axes sep).step st' .reconstruct = (.done, s) ∧ s.data [] = some v) := by
  have hP := packet2_pure (w := w) (mode := mode) (axes := axes) (sep := sep) hF hhi
  have hC := packet2_complete (w := w) (mode := mode) (axes := axes) (sep := sep)
  have hal : ∀ k : Key, (∀ c ∈ k, c ∈ (packet2 w mode axes sep).alphabet) ↔
      ∀ c ∈ k, c = 'a' ∨ c = 'h' ∨ c = 'v' ∨ c = 'd' := by
    intro k; simp [packet2]
  have hv' : rebuild (packetSyn2 w axes sep) (fit2 axes) ['a', 'h', 'v', 'd'] leaf old' L [] = .ok v := by
    rw [← rebuild_congr (al := ['a', 'h', 'v', 'd']) (leaf := leaf) (leaf' := leaf) (old := old) (old' := old')
      (fun _ _ _ => rfl) (fun k h3 h4 h5 r => fit2_shape (hsh k h3 h4 ((hal k).mp h5))) L [] (by simp) (by simp)]
    exact hv
  exact ⟨reconstruct_leaves hP hC hl trivial (fun k a b => ⟨(h1 k a ((hal k).mp b)).1, trivial⟩)
      (fun k a b => ⟨(h2 k a ((hal k).mp b)).1, trivial⟩) hv,
    reconstruct_leaves hP hC hl' trivial (fun k a b => ⟨(h1 k a ((hal k).mp b)).2, trivial⟩)
      (fun k a b => ⟨(h2 k a ((hal k).mp b)).2, trivial⟩) hv'⟩

end

section
variable [Field R] [CharZero R] (w : Wavelet R) (mode : Option String) (axes : List Int) (sep : Bool)

/-- **C30**, two dimensions. Transform, read coefficients in any order, reconstruct: if every coefficient of the
lowest level is in the tree, the root is the input again (with one more sample along each of the two axes
whose size is odd) and all other coefficients keep their values; otherwise a KeyError is raised and every
coefficient, the root included, keeps its value. -/
theorem c30_2d_reconstruct (F : Nat) (hw : PRBank w F) (hF : 2 ≤ F) (he : F % 2 = 0)
    (st₀ : Pkt Unit (Tensor R)) (x : Tensor R) (ml : Option Int) (L : Nat)
    (hL : PacketLevel2 w axes x ml (L + 1 : Nat)) (ops : List (Backend.Op (Tensor R)))
    (ho : ∀ op ∈ ops, IsRead op) :
    let st := ((packet2 w mode axes sep).run st₀ (.transform x ml :: ops)).2
    let complete := ∀ k : Key, k.length = L + 1 → (∀ c ∈ k, c = 'a' ∨ c = 'h' ∨ c = 'v' ∨ c = 'd') → (st.data k).isSome
    (complete → ∃ st' z, (packet2 w mode axes sep).step st .reconstruct = (.done, st') ∧
      (∀ k v, k ≠ [] → st.data k = some v → st'.data k = some v) ∧
      st'.data [] = some z ∧ Reconstructs (planeAxes axes x.rank) 1 x z) ∧
    (¬ complete → ∃ st', (packet2 w mode axes sep).step st .reconstruct = (.raised .keyError, st') ∧
      ∀ k v, st.data k = some v → st'.data k = some v) := by
  intro st complete
  have hFw : w.len = F := hw.len.1
  have hP := packet2_pure (w := w) (mode := mode) (axes := axes) (sep := sep) (by omega) (by rw [hFw]; exact hw.len.2.1)
  have hg := run_transform_good hP (st := st₀) trivial (x := x) trivial (packetLevel2_eq (by omega) hL) ops ho
  obtain ⟨h1, h2⟩ := reconstruct_good hP packet2_complete (by simp [packet2])
    ((packet2_inverts (mode := mode) (axes := axes) (sep := sep) hw hF he).from hP (x := x) trivial) hg
  have hal : ∀ k : Key, (∀ c ∈ k, c ∈ (packet2 w mode axes sep).alphabet) ↔
      ∀ c ∈ k, c = 'a' ∨ c = 'h' ∨ c = 'v' ∨ c = 'd' := by
    intro k; simp [packet2]
  simp only [hal] at h1 h2
  refine ⟨fun hc => ?_, h2⟩
  obtain ⟨st', vs, r, e, h5, h3, -, hd, hs⟩ := h1 hc
  obtain ⟨-, z, ez, hz⟩ := packet2_roundtrip hw hF he hd
  rw [ez] at hs
  cases hs
  exact ⟨st', r, e, h5, h3, hz⟩

/-- **C30**, two dimensions. The full round trip: transform, initialise all leaves (in any order, after any other
reads), reconstruct, read the root. -/
theorem c30_2d_round_trip (F : Nat) (hw : PRBank w F) (hF : 2 ≤ F) (he : F % 2 = 0) (m : Mode)
    (hm : Selects mode m) (st₀ : Pkt Unit (Tensor R)) (x : Tensor R) (ml : Option Int) (L : Nat)
    (hL : PacketLevel2 w axes x ml (L + 1 : Nat)) (hax : GoodAxes (.seq axes) x.rank 2)
    (hdt : x.md.dtype = .float32 ∨ x.md.dtype = .float64)
    (ha : LevelsAdmit m w.len (sizes (planeAxes axes x.rank) x.shape) (L + 1))
    (ops : List (Backend.Op (Tensor R))) (ho : ∀ op ∈ ops, IsRead op) (leaves : List Key)
    (hlv : ∀ k : Key, k ∈ leaves ↔ k.length = L + 1 ∧ ∀ c ∈ k, c = 'a' ∨ c = 'h' ∨ c = 'v' ∨ c = 'd') :
    ∃ z, ((packet2 w mode axes sep).run st₀
        (.transform x ml :: ops ++ [.init leaves] ++ [.reconstruct] ++ [.read []])).1.getLast? = some (.value z) ∧
      Reconstructs (planeAxes axes x.rank) 1 x z := by
  have hFw : w.len = F := hw.len.1
  have hhi : w.decHi.length = w.len := by rw [hFw]; exact hw.len.2.1
  have hF' : 2 ≤ w.len := by omega
  have hP := packet2_pure (w := w) (mode := mode) (axes := axes) (sep := sep) hF' hhi
  have hs : ∀ (s : Nat) (ns : List Nat), sizesAfter (nextLens w.len) ns s = levelLens w.len ns s := by
    intro s
    induction s with
    | zero => intro ns; exact (levelLens_zero _ _).symm
    | succ s ih => intro ns; rw [sizesAfter, ih]; exact levelLens_shift _ _ _
  obtain ⟨vs, z, e, hd, hz⟩ := round_trip_good hP packet2_complete
    (by simp [packet2]) (x := x) trivial
    ((packet2_inverts (mode := mode) (axes := axes) (sep := sep) hw hF he).from hP trivial) (st₀ := st₀) trivial
    (packetLevel2_eq hF' hL) ops ho (leaves := leaves) (by intro k; rw [hlv k]; simp [packet2]) (by
      intro k hk hc
      exact walk2_ok (packet2_step (sep := sep) hF' hhi hm) k x (by unfold isDtypeSupported; simpa using hdt) hc hax
        (by intro s h; rw [hs]; exact ha s (by omega)))
  obtain ⟨-, z', ez, hz'⟩ := packet2_roundtrip hw hF he hd
  rw [ez] at hz
  cases hz
  exact ⟨z, e, hz'⟩

end

/-- All keys of length `n` over the four letters. -/
theorem mem_allKeys2 (n : Nat) (k : Key) : k ∈ getNaturalOrder2 n ↔
    k.length = n ∧ ∀ c ∈ k, c = 'a' ∨ c = 'h' ∨ c = 'v' ∨ c = 'd' := by
  rw [getNaturalOrder2_mem]; simp

/-- A batch of two images with 3 rows and 5 columns. -/
def exP : Tensor ℚ := Tensor.ofFn ⟨.float64, 0⟩ [2, 3, 5] fun i => (i.getD 0 0 : ℚ) + i.getD 1 0 * i.getD 2 0

theorem exP_good : GoodAxes (.seq [-2, -1]) exP.rank 2 := by
  refine ⟨by decide, rfl, ?_, by decide⟩
  intro a ha
  have : a = -2 ∨ a = -1 := by simpa [resolve] using ha
  rcases this with rfl | rfl <;> exact ⟨by decide, by decide⟩

/-- The hypotheses of C25 are met: two levels with the Haar wavelet, an object that was used before. -/
example (sep : Bool) : ∃ v, ((packet2 haar (some "symmetric") [-2, -1] sep).run (Backend.empty ())
    (.transform exP (some 2) :: [.read ['d'], .init [['a', 'd']]] ++ [.read ['h', 'v']])).1.getLast?
      = some (.value v) := by
  apply c25_2d_readable haar (some "symmetric") [-2, -1] sep .symmetric (Or.inl rfl) (by decide) rfl _ _ _ 2 (Or.inl rfl)
    exP_good (Or.inr rfl)
  · intro op hop
    simp only [List.mem_cons, List.not_mem_nil, or_false] at hop
    rcases hop with rfl | rfl <;> trivial
  · decide
  · simp
  · intro s _ k hk
    obtain ⟨n, hn, rfl⟩ := List.mem_map.mp hk
    have : n = 3 ∨ n = 5 := by simpa [sizes, planeAxes, axesOf, resolve, exP, axisOf, Tensor.rank, Tensor.ofFn] using hn
    exact levelLen_pos (by decide) (by rcases this with rfl | rfl <;> decide) s

/-- The hypotheses of C30 are met. -/
example (sep : Bool) : ∃ z, ((packet2 haar (some "symmetric") [-2, -1] sep).run (Backend.empty ())
    (.transform exP (some 2) :: [.read ['d']] ++ [.init (getNaturalOrder2 2)] ++ [.reconstruct] ++ [.read []])).1.getLast?
      = some (.value z) ∧ z.shape = [2, 4, 6] := by
  obtain ⟨z, h1, h2⟩ := c30_2d_round_trip haar (some "symmetric") [-2, -1] sep 2 haar_pr (by decide) rfl .symmetric
    (Or.inl rfl) (Backend.empty ()) exP (some 2) 1 (Or.inl rfl) exP_good (Or.inr rfl) (by
      intro s _ k hk
      obtain ⟨n, hn, rfl⟩ := List.mem_map.mp hk
      have : n = 3 ∨ n = 5 := by simpa [sizes, planeAxes, axesOf, resolve, exP, axisOf, Tensor.rank, Tensor.ofFn] using hn
      exact levelLen_pos (by decide) (by rcases this with rfl | rfl <;> decide) s) [.read ['d']]
    (by intro op hop; simp only [List.mem_singleton] at hop; subst hop; trivial)
    (getNaturalOrder2 2) (mem_allKeys2 2)
  refine ⟨z, h1, ?_⟩
  rw [h2.shape (by decide)]
  rfl

end Verif.Props
