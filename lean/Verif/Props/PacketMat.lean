/-
Properties C25, C30, C31 for `WaveletPacket` with `mode="boundary"` (src/ptwt/packets.py): the objects of
the sparse-matrix transforms are created on demand and kept, keyed by the length of the node.
-/
import Verif.Lemmas.PacketMatFun
import Verif.Lemmas.PacketsTop
import Verif.Props.Packets

namespace Verif.Props
open Tensor Spec

/-- All tensors an operation brings in have dtype and device `md`. -/
abbrev OpMd {R : Type} [Zero R] (md : Meta) (op : Backend.Op (Tensor R)) : Prop := OpIn (fun t => t.md = md) op

section
variable {R : Type} [Field R] [DecidableEq R] {la : LinAlg R} {w : Wavelet R} {orth : String} {axis : Int}

theorem packetMatLevel_eq (hF : 2 ≤ w.len) {x : Tensor R} {ml : Option Int} {L : Int} (h : PacketLevel w axis x ml L) :
    ml = some L ∨ ml = none ∧ (packetMat1 la w orth axis).defaultLevel x = .ok L :=
  packetLevel1_eq (mode := none) hF h

theorem used_inv (md : Meta) (before : List (Backend.Op (Tensor R))) (hb : ∀ op ∈ before, OpMd md op) :
    MatInv1 la w orth axis md ((packetMat1 la w orth axis).run (Backend.empty MatCache1.empty) before).2.cache :=
  run_inv packetMat1_pure before hb matInv1_empty (by intro k v h; cases h)

/-! ### C31 -/

/-- **C31**, boundary mode. A successful `transform` makes the object indistinguishable from a new one, even
though the matrices of all earlier transforms are kept: whatever was done before with tensors of the same
dtype and device, all later operations have the same outcomes. -/
theorem c31_boundary_forgets (la : LinAlg R) (w : Wavelet R) (orth : String) (axis : Int) (hF : 2 ≤ w.len) (md : Meta)
    (before after : List (Backend.Op (Tensor R))) (hb : ∀ op ∈ before, OpMd md op) (ha : ∀ op ∈ after, OpMd md op)
    (x : Tensor R) (hx : x.md = md) (ml : Option Int) (L : Int) (hL : PacketLevel w axis x ml L) :
    ((packetMat1 la w orth axis).run
        ((packetMat1 la w orth axis).run (Backend.empty MatCache1.empty) before).2 (.transform x ml :: after)).1 =
      ((packetMat1 la w orth axis).run (Backend.empty MatCache1.empty) (.transform x ml :: after)).1 :=
  transform_forgets packetMat1_pure (used_inv md before hb) matInv1_empty x hx ml L (packetMatLevel_eq hF hL) after ha

/-- **C25**, boundary mode. The outcome of a read does not depend on the reads before it, nor on anything
that happened before `transform` (with tensors of the same dtype and device). -/
theorem c25_boundary_order_independent (la : LinAlg R) (w : Wavelet R) (orth : String) (axis : Int) (hF : 2 ≤ w.len)
    (md : Meta) (before before' : List (Backend.Op (Tensor R))) (hb : ∀ op ∈ before, OpMd md op)
    (hb' : ∀ op ∈ before', OpMd md op) (x : Tensor R) (hx : x.md = md) (ml : Option Int) (L : Int)
    (hL : PacketLevel w axis x ml L) (ops ops' : List (Backend.Op (Tensor R))) (ho : ∀ op ∈ ops, IsRead op)
    (ho' : ∀ op ∈ ops', IsRead op) (key : Key) :
    ((packetMat1 la w orth axis).run ((packetMat1 la w orth axis).run (Backend.empty MatCache1.empty) before).2
        (.transform x ml :: ops ++ [.read key])).1.getLast? =
      ((packetMat1 la w orth axis).run ((packetMat1 la w orth axis).run (Backend.empty MatCache1.empty) before').2
        (.transform x ml :: ops' ++ [.read key])).1.getLast? := by
  have hP := packetMat1_pure (la := la) (w := w) (orth := orth) (axis := axis) (md := md)
  have hg := run_transform_good hP (used_inv md before hb) (x := x) hx (packetMatLevel_eq hF hL) ops ho
  have hg' := run_transform_good hP (used_inv md before' hb') (x := x) hx (packetMatLevel_eq hF hL) ops' ho'
  rw [last_outcome, last_outcome, read_after hP hg, read_after hP hg']

/-- **C30**, boundary mode. The result of `reconstruct` depends on the leaves only. -/
theorem c30_boundary_only_leaves (la : LinAlg R) (w : Wavelet R) (orth : String) (axis : Int) (md : Meta)
    (ops ops' : List (Backend.Op (Tensor R))) (hb : ∀ op ∈ ops, OpMd md op) (hb' : ∀ op ∈ ops', OpMd md op)
    (L : Nat) (leaf old old' : Key → Tensor R) (v : Tensor R)
    (hv : rebuild (matSyn1 la w orth axis) (fit1 axis) ['a', 'd'] leaf old L [] = .ok v) :
    let st := ((packetMat1 la w orth axis).run (Backend.empty MatCache1.empty) ops).2
    let st' := ((packetMat1 la w orth axis).run (Backend.empty MatCache1.empty) ops').2
    st.maxlevel = some (L : Int) → st'.maxlevel = some (L : Int) →
    (∀ k : Key, k.length = L → (∀ c ∈ k, c = 'a' ∨ c = 'd') →
      (leaf k).md = md ∧ st.data k = some (leaf k) ∧ st'.data k = some (leaf k)) →
    (∀ k : Key, k.length < L → (∀ c ∈ k, c = 'a' ∨ c = 'd') → (old k).md = md ∧ (old' k).md = md ∧
      st.data k = some (old k) ∧ st'.data k = some (old' k)) →
    (∀ k : Key, k ≠ [] → k.length < L → (∀ c ∈ k, c = 'a' ∨ c = 'd') → (old k).shape = (old' k).shape) →
    (∃ s, (packetMat1 la w orth axis).step st .reconstruct = (.done, s) ∧ s.data [] = some v) ∧
    (∃ s, (packetMat1 la w orth axis).step st' .reconstruct = (.done, s) ∧ s.data [] = some v) := by
  intro st st' hl hl' h1 h2 hsh
  have hP := packetMat1_pure (la := la) (w := w) (orth := orth) (axis := axis) (md := md)
  have hC := packetMat1_complete (la := la) (w := w) (orth := orth) (axis := axis)
  have hal : ∀ k : Key, (∀ c ∈ k, c ∈ (packetMat1 la w orth axis).alphabet) ↔ ∀ c ∈ k, c = 'a' ∨ c = 'd' := by
    intro k; simp [packetMat1]
  have hv' : rebuild (matSyn1 la w orth axis) (fit1 axis) ['a', 'd'] leaf old' L [] = .ok v := by
    rw [← rebuild_congr (al := ['a', 'd']) (leaf := leaf) (leaf' := leaf) (old := old) (old' := old')
      (fun _ _ _ => rfl) (fun k h3 h4 h5 r => fit1_shape axis (hsh k h3 h4 ((hal k).mp h5))) L [] (by simp) (by simp)]
    exact hv
  exact ⟨reconstruct_leaves hP hC hl (used_inv md ops hb)
      (fun k a b => ⟨(h1 k a ((hal k).mp b)).2.1, (h1 k a ((hal k).mp b)).1⟩)
      (fun k a b => ⟨(h2 k a ((hal k).mp b)).2.2.1, (h2 k a ((hal k).mp b)).1⟩) hv,
    reconstruct_leaves hP hC hl' (used_inv md ops' hb')
      (fun k a b => ⟨(h1 k a ((hal k).mp b)).2.2, (h1 k a ((hal k).mp b)).1⟩)
      (fun k a b => ⟨(h2 k a ((hal k).mp b)).2.2.2, (h2 k a ((hal k).mp b)).2.1⟩) hv'⟩

end

section
variable {la : LinAlg ℝ} {w : Wavelet ℝ} {F : Nat} {orth : String} {axis : Int} {md : Meta}

/-! ### C25 -/

/-- **C25**, boundary mode. Whatever was read before, a coefficient that can be read is obtained from the
input step by step along the letters of the key: multiplication by the boundary matrix of the length (C38),
first half for `a`, second half for `d`. -/
theorem c25_boundary_value (hla : ExactLinAlg la) (hw : OrthBank w F) (ho : orth = "qr" ∨ orth = "gramschmidt")
    (hind : ∀ k, k % 2 = 0 → F ≤ k → BoundaryIndep w F k) (before : List (Backend.Op (Tensor ℝ)))
    (hb : ∀ op ∈ before, OpMd md op) (x : Tensor ℝ) (hx : x.md = md) (ml : Option Int) (L : Int)
    (hL : PacketLevel w axis x ml L) (ops : List (Backend.Op (Tensor ℝ))) (hr : ∀ op ∈ ops, IsRead op) :
    ∃ C : Nat → Coo ℝ, (∀ k, k % 2 = 0 → F ≤ k → constructBoundaryA la w md k orth = .ok (C k)) ∧
      ∀ (key : Key) (v : Tensor ℝ),
        ((packetMat1 la w orth axis).run
          ((packetMat1 la w orth axis).run (Backend.empty MatCache1.empty) before).2
          (.transform x ml :: ops ++ [.read key])).1.getLast? = some (.value v) →
        key = [] ∧ v = x ∨
        key ≠ [] ∧ (key.length : Int) ≤ L ∧ (∀ c ∈ key, c = 'a' ∨ c = 'd') ∧
          AlongAxis (axisOf x.rank axis) (mLen (x.shape.getD (axisOf x.rank axis) 0) key.length)
            (fun line => matPacketLine (fun k => (C k).den) (x.shape.getD (axisOf x.rank axis) 0) line key) x v := by
  obtain ⟨C, hC⟩ := hasMats_exists hla hw ho hind md
  refine ⟨C, hC, ?_⟩
  intro key v h
  have h2 := hw.two_le
  have hF : 2 ≤ w.len := by have : w.len = F := hw.len.1; omega
  have hP := packetMat1_pure (la := la) (w := w) (orth := orth) (axis := axis) (md := md)
  have hg := run_transform_good hP (used_inv md before hb) (x := x) hx (packetMatLevel_eq hF hL) ops hr
  rw [last_outcome, read_after hP hg] at h
  have halp : (packetMat1 la w orth axis).alphabet = ['a', 'd'] := rfl
  rw [halp] at h
  unfold readResult at h
  split_ifs at h with h1 h2 h3
  · left
    simp only [outOf, Option.some.injEq, Backend.Out.value.injEq] at h
    exact ⟨h1, h.symm⟩
  · simp [outOf] at h
  · right
    refine ⟨h1, by omega, by simpa using h3, ?_⟩
    cases hw' : walk (matDec1 la w orth axis) ['a', 'd'] x key with
    | error e => rw [hw'] at h; simp [outOf] at h
    | ok v' =>
      rw [hw'] at h
      simp only [outOf, Option.some.injEq, Backend.Out.value.injEq] at h
      subst h
      exact matWalk1_textbook hla hw ho hind hC key x v' hx h3 (fun hk => absurd hk h1) hw'
  · simp [outOf] at h

/-- **C25**, boundary mode. Every key up to the maximum level can be read, in any order, as long as no node on
the way (padded to even length) is shorter than the filters. -/
theorem c25_boundary_readable (hla : ExactLinAlg la) (hw : OrthBank w F) (ho : orth = "qr" ∨ orth = "gramschmidt")
    (hind : ∀ k, k % 2 = 0 → F ≤ k → BoundaryIndep w F k) (before : List (Backend.Op (Tensor ℝ)))
    (hb : ∀ op ∈ before, OpMd md op) (x : Tensor ℝ) (hx : x.md = md) (ml : Option Int) (L : Int)
    (hL : PacketLevel w axis x ml L) (hax : ValidAxis x.rank axis)
    (hdt : x.md.dtype = .float32 ∨ x.md.dtype = .float64)
    (ops : List (Backend.Op (Tensor ℝ))) (hr : ∀ op ∈ ops, IsRead op) (key : Key)
    (hk : (key.length : Int) ≤ L) (hc : ∀ c ∈ key, c = 'a' ∨ c = 'd')
    (hlen : ∀ s, s < key.length → F ≤ evenLen (mLen (x.shape.getD (axisOf x.rank axis) 0) s)) :
    ∃ v, ((packetMat1 la w orth axis).run
        ((packetMat1 la w orth axis).run (Backend.empty MatCache1.empty) before).2
        (.transform x ml :: ops ++ [.read key])).1.getLast? = some (.value v) := by
  obtain ⟨C, hC⟩ := hasMats_exists hla hw ho hind md
  have h2 := hw.two_le
  have hF : 2 ≤ w.len := by have : w.len = F := hw.len.1; omega
  have hP := packetMat1_pure (la := la) (w := w) (orth := orth) (axis := axis) (md := md)
  have hg := run_transform_good hP (used_inv md before hb) (x := x) hx (packetMatLevel_eq hF hL) ops hr
  rw [last_outcome, read_after hP hg]
  have hc' : ∀ c ∈ key, c ∈ ['a', 'd'] := by simpa using hc
  obtain ⟨v, hv⟩ := matWalk1_ok hla hw ho hind hC key x hx hc' hax
    (by unfold isDtypeSupported; simpa using hdt) hlen
  refine ⟨v, ?_⟩
  have halp : (packetMat1 la w orth axis).alphabet = ['a', 'd'] := rfl
  rw [halp]
  unfold readResult
  by_cases h1 : key = []
  · subst h1
    cases hv
    rw [if_pos rfl]; rfl
  · rw [if_neg h1, if_neg (by omega), if_pos hc', hv]; rfl

/-- **C25**, boundary mode, limit of the claim: a child of a node that is (padded to even length) shorter than
the filters cannot be read, even if its level does not exceed the maximum level asked for. -/
theorem c25_boundary_too_short (hla : ExactLinAlg la) (hw : OrthBank w F) (ho : orth = "qr" ∨ orth = "gramschmidt")
    (hind : ∀ k, k % 2 = 0 → F ≤ k → BoundaryIndep w F k) (before : List (Backend.Op (Tensor ℝ)))
    (hb : ∀ op ∈ before, OpMd md op) (x : Tensor ℝ) (hx : x.md = md) (ml : Option Int) (L : Int)
    (hL : PacketLevel w axis x ml L) (ops : List (Backend.Op (Tensor ℝ))) (hr : ∀ op ∈ ops, IsRead op) (c : Char)
    (hshort : evenLen (x.shape.getD (axisOf x.rank axis) 0) < F) :
    ∃ e, ((packetMat1 la w orth axis).run
        ((packetMat1 la w orth axis).run (Backend.empty MatCache1.empty) before).2
        (.transform x ml :: ops ++ [.read [c]])).1.getLast? = some (.raised e) := by
  obtain ⟨C, hC⟩ := hasMats_exists hla hw ho hind md
  have h2 := hw.two_le
  have hF : 2 ≤ w.len := by have : w.len = F := hw.len.1; omega
  have hP := packetMat1_pure (la := la) (w := w) (orth := orth) (axis := axis) (md := md)
  have hg := run_transform_good hP (used_inv md before hb) (x := x) hx (packetMatLevel_eq hF hL) ops hr
  rw [last_outcome, read_after hP hg]
  obtain ⟨e, he⟩ := (matDec1_char hla hw ho hind x (hx.symm ▸ hC) (axis := axis)).1 (by
    rintro ⟨_, _, h⟩
    omega)
  unfold readResult
  rw [if_neg (by simp)]
  split_ifs with h3 h4
  · exact ⟨_, rfl⟩
  · refine ⟨e, ?_⟩
    rw [walk, he]; rfl
  · exact ⟨_, rfl⟩

/-! ### C30 -/

theorem matRoundtrip {w : Wavelet ℝ} (hla : ExactLinAlg la) (hw : OrthBank w F) (ho : orth = "qr" ∨ orth = "gramschmidt")
    (hind : ∀ k, k % 2 = 0 → F ≤ k → BoundaryIndep w F k) {x r : Tensor ℝ} {vs : List (Tensor ℝ)}
    (hd : matDec1 la w orth axis x = .ok vs) (hs : matSyn1 la w orth axis vs = .ok r) :
    EvenPadded .zero (axisOf x.rank axis) x r := by
  obtain ⟨C, hC⟩ := hasMats_exists hla hw ho hind x.md
  obtain ⟨g1, g2⟩ := matDec1_char hla hw ho hind x hC (axis := axis)
  have hgood : ValidAxis x.rank axis ∧ isDtypeSupported x.md.dtype = true ∧
      F ≤ evenLen (x.shape.getD (axisOf x.rank axis) 0) := by
    by_contra hn
    obtain ⟨e, he⟩ := g1 hn
    rw [he] at hd; cases hd
  obtain ⟨z, lo, hi, e, _, _, hs', hz⟩ := g2 hgood.1 hgood.2.1 hgood.2.2
  rw [e] at hd
  cases hd
  rw [hs'] at hs
  cases hs
  exact hz

/-- **C30**, boundary mode. Transform, read coefficients in any order, reconstruct: if every coefficient of the
lowest level is in the tree, the root is the input again (with one zero appended if its length is odd) and
all other coefficients keep their values; otherwise a KeyError is raised and every coefficient, the root
included, keeps its value. -/
theorem c30_boundary_reconstruct (hla : ExactLinAlg la) (hw : OrthBank w F) (ho : orth = "qr" ∨ orth = "gramschmidt")
    (hind : ∀ k, k % 2 = 0 → F ≤ k → BoundaryIndep w F k) (before : List (Backend.Op (Tensor ℝ)))
    (hb : ∀ op ∈ before, OpMd md op) (x : Tensor ℝ) (hx : x.md = md) (ml : Option Int) (L : Nat)
    (hL : PacketLevel w axis x ml (L + 1 : Nat)) (ops : List (Backend.Op (Tensor ℝ))) (hr : ∀ op ∈ ops, IsRead op) :
    let st := ((packetMat1 la w orth axis).run
      ((packetMat1 la w orth axis).run (Backend.empty MatCache1.empty) before).2 (.transform x ml :: ops)).2
    let complete := ∀ k : Key, k.length = L + 1 → (∀ c ∈ k, c = 'a' ∨ c = 'd') → (st.data k).isSome
    (complete → ∃ st' z, (packetMat1 la w orth axis).step st .reconstruct = (.done, st') ∧
      (∀ k v, k ≠ [] → st.data k = some v → st'.data k = some v) ∧
      st'.data [] = some z ∧ EvenPadded .zero (axisOf x.rank axis) x z) ∧
    (¬ complete → ∃ st', (packetMat1 la w orth axis).step st .reconstruct = (.raised .keyError, st') ∧
      ∀ k v, st.data k = some v → st'.data k = some v) := by
  intro st complete
  have h2 := hw.two_le
  have hF : 2 ≤ w.len := by have : w.len = F := hw.len.1; omega
  have hP := packetMat1_pure (la := la) (w := w) (orth := orth) (axis := axis) (md := md)
  have hg := run_transform_good hP (used_inv md before hb) (x := x) hx (packetMatLevel_eq hF hL) ops hr
  obtain ⟨h1, h2⟩ := reconstruct_good hP packetMat1_complete (by simp [packetMat1])
    ((matDec1_inverts hla hw ho hind md).from hP hx) hg
  have hal : ∀ k : Key, (∀ c ∈ k, c ∈ (packetMat1 la w orth axis).alphabet) ↔ ∀ c ∈ k, c = 'a' ∨ c = 'd' := by
    intro k; simp [packetMat1]
  simp only [hal] at h1 h2
  refine ⟨fun hc => ?_, h2⟩
  obtain ⟨st', vs, r, e, h5, h3, -, hd, hs⟩ := h1 hc
  exact ⟨st', r, e, h5, h3, matRoundtrip hla hw ho hind hd hs⟩

/-- **C30**, boundary mode. The full round trip: transform, initialise all leaves (in any order, after any other
reads), reconstruct, read the root. -/
theorem c30_boundary_round_trip (hla : ExactLinAlg la) (hw : OrthBank w F) (ho : orth = "qr" ∨ orth = "gramschmidt")
    (hind : ∀ k, k % 2 = 0 → F ≤ k → BoundaryIndep w F k) (before : List (Backend.Op (Tensor ℝ)))
    (hb : ∀ op ∈ before, OpMd md op) (x : Tensor ℝ) (hx : x.md = md) (ml : Option Int) (L : Nat)
    (hL : PacketLevel w axis x ml (L + 1 : Nat)) (hax : ValidAxis x.rank axis)
    (hdt : x.md.dtype = .float32 ∨ x.md.dtype = .float64)
    (hlen : ∀ s, s < L + 1 → F ≤ evenLen (mLen (x.shape.getD (axisOf x.rank axis) 0) s))
    (ops : List (Backend.Op (Tensor ℝ))) (hr : ∀ op ∈ ops, IsRead op) (leaves : List Key)
    (hlv : ∀ k : Key, k ∈ leaves ↔ k.length = L + 1 ∧ ∀ c ∈ k, c = 'a' ∨ c = 'd') :
    ∃ z, ((packetMat1 la w orth axis).run
        ((packetMat1 la w orth axis).run (Backend.empty MatCache1.empty) before).2
        (.transform x ml :: ops ++ [.init leaves] ++ [.reconstruct] ++ [.read []])).1.getLast? = some (.value z) ∧
      EvenPadded .zero (axisOf x.rank axis) x z := by
  obtain ⟨C, hC⟩ := hasMats_exists hla hw ho hind md
  have h2 := hw.two_le
  have hF : 2 ≤ w.len := by have : w.len = F := hw.len.1; omega
  have hP := packetMat1_pure (la := la) (w := w) (orth := orth) (axis := axis) (md := md)
  obtain ⟨vs, z, e, hd, hs⟩ := round_trip_good hP packetMat1_complete
    (by simp [packetMat1]) (x := x) hx ((matDec1_inverts hla hw ho hind md).from hP hx) (used_inv md before hb)
    (packetMatLevel_eq hF hL) ops hr (leaves := leaves) (by intro k; rw [hlv k]; simp [packetMat1]) (by
      intro k hk hc
      exact matWalk1_ok hla hw ho hind hC k x hx hc hax (by unfold isDtypeSupported; simpa using hdt)
        (by rw [hk]; exact hlen))
  exact ⟨z, e, matRoundtrip hla hw ho hind hd hs⟩

/-- The hypotheses are met: a tree of depth 2 over a batch of odd length, on an object that was used before. -/
example : ∃ la, ExactLinAlg la ∧ ∃ z, ((packetMat1 la bank4 "qr" (-1)).run
      ((packetMat1 la bank4 "qr" (-1)).run (Backend.empty MatCache1.empty)
        [.transform (Tensor.ofFn ⟨.float64, 0⟩ [8] fun _ => (1 : ℝ)) (some 1), .read ['a']]).2
      (.transform (Tensor.ofFn ⟨.float64, 0⟩ [3, 13] fun i => (i.getD 1 0 : ℝ)) (some 2) :: [.read ['d']]
        ++ [.init [['d', 'a'], ['a', 'a'], ['a', 'd'], ['d', 'd']]] ++ [.reconstruct] ++ [.read []])).1.getLast?
      = some (.value z) ∧ z.shape = [3, 14] := by
  obtain ⟨la, hla⟩ := exists_exactLinAlg
  obtain ⟨z, h1, h2⟩ := c30_boundary_round_trip (axis := -1) (md := ⟨.float64, 0⟩) hla bank4_orth (Or.inl rfl)
    (fun k a b => bank4_indep a b)
    [.transform (Tensor.ofFn ⟨.float64, 0⟩ [8] fun _ => (1 : ℝ)) (some 1), .read ['a']] (by
      intro op hop
      simp only [List.mem_cons, List.not_mem_nil, or_false] at hop
      rcases hop with rfl | rfl
      · rfl
      · trivial)
    (Tensor.ofFn ⟨.float64, 0⟩ [3, 13] fun i => (i.getD 1 0 : ℝ)) rfl (some 2) 1 (Or.inl rfl)
    ⟨by decide, by decide⟩ (Or.inr rfl) (by
      intro s hs
      have : s = 0 ∨ s = 1 := by omega
      rcases this with rfl | rfl <;> decide) [.read ['d']]
    (by intro op hop; simp only [List.mem_singleton] at hop; subst hop; trivial)
    [['d', 'a'], ['a', 'a'], ['a', 'd'], ['d', 'd']] (by
      intro k
      constructor
      · intro h
        simp only [List.mem_cons, List.not_mem_nil, or_false] at h
        rcases h with rfl | rfl | rfl | rfl <;> simp
      · rintro ⟨h1, h2⟩
        obtain ⟨a, b, rfl⟩ := List.length_eq_two.mp h1
        have ha := h2 a (by simp)
        have hb := h2 b (by simp)
        rcases ha with rfl | rfl <;> rcases hb with rfl | rfl <;> simp)
  refine ⟨la, hla, z, h1, ?_⟩
  rcases h2 with h | h
  · exact absurd h.1 (by decide)
  · rw [h.2.shape]; rfl

end

/-! ### C31: the limits of the claim -/

section
variable {C T : Type}

/-- Reading a child of the root right after `transform`. -/
theorem read_child (B : Backend C T) (st : Pkt C T) (x : T) {c : Char} (hc : c ∈ B.alphabet) :
    ((B.run st [.transform x (some 1), .read [c]]).1
      = [.done, match (B.dec st.cache x).1 with
        | .error e => .raised e
        | .ok vs => if vs.length = B.alphabet.length then
            (match Backend.store (PMap.set (fun _ => none) [] x) [] (B.alphabet.zip vs) [c] with
              | some v => .value v
              | none => .raised .keyError) else .raised .valueError]) ∧
    (B.run st [.transform x (some 1), .read [c]]).2.cache = (B.dec st.cache x).2 := by
  let st1 : Pkt C T := ⟨PMap.set (fun _ => none) [] x, some 1, st.cache⟩
  have e0 : B.getitem st1 [] = (.ok x, st1) := by
    refine getitem_present (L := 1) rfl ?_
    exact PMap.set_self (fun _ => none) ([] : Key) x
  have e1 : B.getitem st1 [c] = andThen (B.expandWith st1 [] x) fun _ st => Backend.lookup st [c] := by
    rw [Backend.getitem]
    have hn : st1.data [c] = none := by
      have hne : ([c] : Key) ≠ [] := by simp
      show PMap.set (fun _ => none) ([] : Key) x [c] = none
      simp [PMap.set]
    simp only [show st1.maxlevel = some 1 from rfl, hn]
    rw [if_neg (by simp), dif_neg (by simp), if_neg (by simpa using hc)]
    rw [show ([c] : Key).dropLast = [] from rfl, e0]
    rfl
  have s1 : B.step st (.transform x (some 1)) = (.done, st1) := rfl
  have s2 : B.step st1 (.read [c]) = Backend.observe (B.getitem st1 [c]) .value := by rw [Backend.step]
  have hrun : B.run st [.transform x (some 1), .read [c]]
      = ([.done, (B.step st1 (.read [c])).1], (B.step st1 (.read [c])).2) := by
    simp only [Backend.run, s1]
  rw [hrun, s2, e1]
  unfold Backend.expandWith andThen Backend.lookup Backend.observe
  simp only [show st1.cache = st.cache from rfl]
  cases hd : (B.dec st.cache x).1 with
  | error e => exact ⟨rfl, rfl⟩
  | ok vs =>
    simp only
    by_cases hl : vs.length = B.alphabet.length
    · simp only [hl, if_true]
      cases hs : Backend.store st1.data [] (B.alphabet.zip vs) [c] with
      | none =>
        exact ⟨rfl, rfl⟩
      | some v =>
        exact ⟨rfl, rfl⟩
    · simp only [hl, if_false]
      exact ⟨trivial, trivial⟩

end

section
variable {la : LinAlg ℝ} {w : Wavelet ℝ} {F : Nat} {orth : String} {axis : Int}

/-- **C31**, boundary mode, limit of the claim: with another dtype (or device) the past does matter.  After an
expansion of a signal, the matrices of its length are kept with its dtype; transforming a signal of the
same length and another dtype succeeds, but reading its coefficients is a RuntimeError, whereas a new
object gives them. -/
theorem c31_boundary_dtype (hla : ExactLinAlg la) (hw : OrthBank w F) (ho : orth = "qr" ∨ orth = "gramschmidt")
    (hind : ∀ k, k % 2 = 0 → F ≤ k → BoundaryIndep w F k) {x x2 : Tensor ℝ}
    (hax : ValidAxis x.rank axis) (hax2 : ValidAxis x2.rank axis)
    (hdt : x.md.dtype = .float32 ∨ x.md.dtype = .float64) (hdt2 : x2.md.dtype = .float32 ∨ x2.md.dtype = .float64)
    (hsame : x2.shape.getD (axisOf x2.rank axis) 0 = x.shape.getD (axisOf x.rank axis) 0)
    (hF : F ≤ x.shape.getD (axisOf x.rank axis) 0) (hmd : x2.md ≠ x.md) :
    ((packetMat1 la w orth axis).run (Backend.empty MatCache1.empty)
        [.transform x (some 1), .read ['a'], .transform x2 (some 1), .read ['a']]).1.getLast?
      = some (.raised .runtimeError) ∧
    ∃ v, ((packetMat1 la w orth axis).run (Backend.empty MatCache1.empty)
        [.transform x2 (some 1), .read ['a']]).1.getLast? = some (.value v) := by
  obtain ⟨dcfg, dst, cs, cs2, h1, h2, h3, h4⟩ := c42_dtype_cached hla hw (x := x) (x2 := x2) (axis := .int axis)
    (m := .zero) (mode := some "zero") (orth := orth) (l := 1) (goodAxes_int.mpr hax) hdt (goodAxes_int.mpr hax2) hdt2
    (Or.inl rfl) ho le_rfl (by rw [axis1_int, axis1_int]; exact hsame) (by rw [axis1_int]; exact hF)
    (fun _ => by trivial) (fun k a b _ => hind k a b) hmd
  constructor
  · obtain ⟨-, hcache⟩ := read_child (packetMat1 la w orth axis) (Backend.empty MatCache1.empty) x (c := 'a') (by
      simp [packetMat1])
    have hcache' : ((packetMat1 la w orth axis).run (Backend.empty MatCache1.empty)
        [.transform x (some 1), .read ['a']]).2.cache.decs (x.shape.getD (axisOf x.rank axis) 0)
        = some (dcfg, (decCall la dcfg dst x).2) := by
      rw [hcache]
      show (packetMatDec1 la w orth axis MatCache1.empty x).2.decs _ = _
      unfold packetMatDec1
      rw [sizeAt_ok hax]
      simp only
      unfold callKeyed
      simp only [MatCache1.empty, h1]
      exact PMap.set_self _ _ _
    have hrun := run_append (packetMat1 la w orth axis) [.transform x (some 1), .read ['a']]
      [.transform x2 (some 1), .read ['a']] (Backend.empty MatCache1.empty)
    rw [show ([.transform x (some 1), .read ['a'], .transform x2 (some 1), .read ['a']] : List (Backend.Op (Tensor ℝ)))
      = [.transform x (some 1), .read ['a']] ++ [.transform x2 (some 1), .read ['a']] from rfl, hrun]
    obtain ⟨h5, -⟩ := read_child (packetMat1 la w orth axis) ((packetMat1 la w orth axis).run
      (Backend.empty MatCache1.empty) [.transform x (some 1), .read ['a']]).2 x2 (c := 'a') (by simp [packetMat1])
    simp only
    rw [h5]
    have hdec : ((packetMat1 la w orth axis).dec ((packetMat1 la w orth axis).run
        (Backend.empty MatCache1.empty) [.transform x (some 1), .read ['a']]).2.cache x2).1 = .error .runtimeError := by
      show (packetMatDec1 la w orth axis _ x2).1 = _
      unfold packetMatDec1
      rw [sizeAt_ok hax2, hsame]
      simp only
      unfold callKeyed
      simp only [hcache']
      show unpackPair ((decCall la dcfg (decCall la dcfg dst x).2 x2).1) = _
      rw [h4]; rfl
    rw [hdec]
    simp
  · obtain ⟨v, hv⟩ := c25_boundary_readable (axis := axis) hla hw ho hind [] (md := x2.md) (by simp) x2 rfl (some 1) 1
      (Or.inl rfl) hax2 hdt2 [] (by simp) ['a'] (by simp) (by simp) (by
        intro s hs
        have : s = 0 := by simpa using hs
        subst this
        show F ≤ evenLen (x2.shape.getD _ 0)
        rw [hsame]
        exact le_trans hF (le_evenLen _))
    exact ⟨v, hv⟩

/-- The hypotheses are met: a signal in single precision, then one in double precision. -/
example : ∃ la, ExactLinAlg la ∧ ((packetMat1 la bank4 "qr" (-1)).run (Backend.empty MatCache1.empty)
      [.transform (Tensor.ofFn ⟨.float32, 0⟩ [8] fun _ => (1 : ℝ)) (some 1), .read ['a'],
        .transform (Tensor.ofFn ⟨.float64, 0⟩ [2, 8] fun _ => (1 : ℝ)) (some 1), .read ['a']]).1.getLast?
      = some (.raised .runtimeError) := by
  obtain ⟨la, hla⟩ := exists_exactLinAlg
  refine ⟨la, hla, (c31_boundary_dtype (axis := -1) (x := Tensor.ofFn ⟨.float32, 0⟩ [8] fun _ => (1 : ℝ))
    (x2 := Tensor.ofFn ⟨.float64, 0⟩ [2, 8] fun _ => (1 : ℝ)) hla bank4_orth (Or.inl rfl) (fun k a b => bank4_indep a b)
    ⟨by decide, by decide⟩ ⟨by decide, by decide⟩ (Or.inl rfl) (Or.inr rfl) rfl (by decide) ?_).1⟩
  intro h
  cases h

end

end Verif.Props
