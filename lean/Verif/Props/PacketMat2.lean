/-
Properties C25, C30, C31 for `WaveletPacket2D` with `mode="boundary"` (src/ptwt/packets.py): the objects of
the sparse-matrix transforms are created on demand and kept, keyed by the two sizes of the node.
-/
import Verif.Lemmas.PacketMat2Fun
import Verif.Props.PacketMat
import Verif.Props.Packet2

namespace Verif.Props
open Tensor Spec

section
variable {R : Type} [Field R] [DecidableEq R] {la : LinAlg R} {w : Wavelet R} {orth : String} {axes : List Int} {sep : Bool}

theorem packetMatLevel2_eq (hF : 2 ≤ w.len) {x : Tensor R} {ml : Option Int} {L : Int} (h : PacketLevel2 w axes x ml L) :
    ml = some L ∨ ml = none ∧ (packetMat2 la w orth axes sep).defaultLevel x = .ok L :=
  packetLevel2_eq hF h

theorem used_inv2 (md : Meta) (before : List (Backend.Op (Tensor R))) (hb : ∀ op ∈ before, OpMd md op) :
    MatInv2 la w orth axes sep md ((packetMat2 la w orth axes sep).run (Backend.empty MatCache2.empty) before).2.cache :=
  run_inv packetMat2_pure before hb matInv2_empty (by intro k v h; cases h)

/-! ### C31 -/

/-- **C31**, two dimensions, boundary mode. A successful `transform` makes the object indistinguishable from a
new one, even though the matrices of all earlier transforms are kept: whatever was done before with tensors
of the same dtype and device, all later operations have the same outcomes. -/
theorem c31_2d_boundary_forgets (la : LinAlg R) (w : Wavelet R) (orth : String) (axes : List Int) (sep : Bool)
    (hF : 2 ≤ w.len) (md : Meta)
    (before after : List (Backend.Op (Tensor R))) (hb : ∀ op ∈ before, OpMd md op) (ha : ∀ op ∈ after, OpMd md op)
    (x : Tensor R) (hx : x.md = md) (ml : Option Int) (L : Int) (hL : PacketLevel2 w axes x ml L) :
    ((packetMat2 la w orth axes sep).run
        ((packetMat2 la w orth axes sep).run (Backend.empty MatCache2.empty) before).2 (.transform x ml :: after)).1 =
      ((packetMat2 la w orth axes sep).run (Backend.empty MatCache2.empty) (.transform x ml :: after)).1 :=
  transform_forgets packetMat2_pure (used_inv2 md before hb) matInv2_empty x hx ml L (packetMatLevel2_eq hF hL) after ha

/-- **C25**, two dimensions, boundary mode. The outcome of a read does not depend on the reads before it, nor on
anything that happened before `transform` (with tensors of the same dtype and device). -/
theorem c25_2d_boundary_order_independent (la : LinAlg R) (w : Wavelet R) (orth : String) (axes : List Int)
    (sep : Bool) (hF : 2 ≤ w.len)
    (md : Meta) (before before' : List (Backend.Op (Tensor R))) (hb : ∀ op ∈ before, OpMd md op)
    (hb' : ∀ op ∈ before', OpMd md op) (x : Tensor R) (hx : x.md = md) (ml : Option Int) (L : Int)
    (hL : PacketLevel2 w axes x ml L) (ops ops' : List (Backend.Op (Tensor R))) (ho : ∀ op ∈ ops, IsRead op)
    (ho' : ∀ op ∈ ops', IsRead op) (key : Key) :
    ((packetMat2 la w orth axes sep).run ((packetMat2 la w orth axes sep).run (Backend.empty MatCache2.empty) before).2
        (.transform x ml :: ops ++ [.read key])).1.getLast? =
      ((packetMat2 la w orth axes sep).run ((packetMat2 la w orth axes sep).run (Backend.empty MatCache2.empty) before').2
        (.transform x ml :: ops' ++ [.read key])).1.getLast? := by
  have hP := packetMat2_pure (la := la) (w := w) (orth := orth) (axes := axes) (sep := sep) (md := md)
  have hg := run_transform_good hP (used_inv2 md before hb) (x := x) hx (packetMatLevel2_eq hF hL) ops ho
  have hg' := run_transform_good hP (used_inv2 md before' hb') (x := x) hx (packetMatLevel2_eq hF hL) ops' ho'
  rw [last_outcome, last_outcome, read_after hP hg, read_after hP hg']

/-- **C30**, two dimensions, boundary mode. The result of `reconstruct` depends on the leaves only. -/
theorem c30_2d_boundary_only_leaves (la : LinAlg R) (w : Wavelet R) (orth : String) (axes : List Int) (sep : Bool)
    (md : Meta)
    (ops ops' : List (Backend.Op (Tensor R))) (hb : ∀ op ∈ ops, OpMd md op) (hb' : ∀ op ∈ ops', OpMd md op)
    (L : Nat) (leaf old old' : Key → Tensor R) (v : Tensor R)
    (hv : rebuild (matSyn2 la w orth axes sep) (fit2 axes) ['a', 'h', 'v', 'd'] leaf old L [] = .ok v) :
    let st := ((packetMat2 la w orth axes sep).run (Backend.empty MatCache2.empty) ops).2
    let st' := ((packetMat2 la w orth axes sep).run (Backend.empty MatCache2.empty) ops').2
    st.maxlevel = some (L : Int) → st'.maxlevel = some (L : Int) →
    (∀ k : Key, k.length = L → (∀ c ∈ k, c = 'a' ∨ c = 'h' ∨ c = 'v' ∨ c = 'd') →
      (leaf k).md = md ∧ st.data k = some (leaf k) ∧ st'.data k = some (leaf k)) →
    (∀ k : Key, k.length < L → (∀ c ∈ k, c = 'a' ∨ c = 'h' ∨ c = 'v' ∨ c = 'd') → (old k).md = md ∧ (old' k).md = md ∧
      st.data k = some (old k) ∧ st'.data k = some (old' k)) →
    (∀ k : Key, k ≠ [] → k.length < L → (∀ c ∈ k, c = 'a' ∨ c = 'h' ∨ c = 'v' ∨ c = 'd') →
      (old k).shape = (old' k).shape) →
    (∃ s, (packetMat2 la w orth axes sep).step st .reconstruct = (.done, s) ∧ s.data [] = some v) ∧
    (∃ s, (packetMat2 la w orth axes sep).step st' .reconstruct = (.done, s) ∧ s.data [] = some v) := by
  intro st st' hl hl' h1 h2 hsh
  have hP := packetMat2_pure (la := la) (w := w) (orth := orth) (axes := axes) (sep := sep) (md := md)
  have hC := packetMat2_complete (la := la) (w := w) (orth := orth) (axes := axes) (sep := sep)
  have hal : ∀ k : Key, (∀ c ∈ k, c ∈ (packetMat2 la w orth axes sep).alphabet) ↔
      ∀ c ∈ k, c = 'a' ∨ c = 'h' ∨ c = 'v' ∨ c = 'd' := by
    intro k; simp [packetMat2]
  have hv' : rebuild (matSyn2 la w orth axes sep) (fit2 axes) ['a', 'h', 'v', 'd'] leaf old' L [] = .ok v := by
    rw [← rebuild_congr (al := ['a', 'h', 'v', 'd']) (leaf := leaf) (leaf' := leaf) (old := old) (old' := old')
      (fun _ _ _ => rfl) (fun k h3 h4 h5 r => fit2_shape (hsh k h3 h4 ((hal k).mp h5))) L [] (by simp) (by simp)]
    exact hv
  exact ⟨reconstruct_leaves hP hC hl (used_inv2 md ops hb)
      (fun k a b => ⟨(h1 k a ((hal k).mp b)).2.1, (h1 k a ((hal k).mp b)).1⟩)
      (fun k a b => ⟨(h2 k a ((hal k).mp b)).2.2.1, (h2 k a ((hal k).mp b)).1⟩) hv,
    reconstruct_leaves hP hC hl' (used_inv2 md ops' hb')
      (fun k a b => ⟨(h1 k a ((hal k).mp b)).2.2, (h1 k a ((hal k).mp b)).1⟩)
      (fun k a b => ⟨(h2 k a ((hal k).mp b)).2.2.2, (h2 k a ((hal k).mp b)).2.1⟩) hv'⟩

end

section
variable {la : LinAlg ℝ} {w : Wavelet ℝ} {F : Nat} {orth : String} {axes : List Int} {md : Meta}

theorem sizesAfter_half : ∀ (s : Nat) (ns : List Nat), sizesAfter halfLens ns s = mLens ns s
  | 0, ns => (mLens_zero ns).symm
  | s + 1, ns => by rw [sizesAfter, sizesAfter_half s, mLens_succ]

/-! ### C25 -/

/-- **C25**, two dimensions, boundary mode with `separable=True`. Whatever was read before, a coefficient that can
be read is obtained from the input step by step along the letters of the key: multiplication along both
axes by the boundary matrices of the sizes (C38), each letter naming the halves kept (with the letters
`h` and `v` exchanged relative to the non-separable transforms). -/
theorem c25_2d_boundary_value (hla : ExactLinAlg la) (hw : OrthBank w F) (ho : orth = "qr" ∨ orth = "gramschmidt")
    (hind : ∀ k, k % 2 = 0 → F ≤ k → BoundaryIndep w F k) (before : List (Backend.Op (Tensor ℝ)))
    (hb : ∀ op ∈ before, OpMd md op) (x : Tensor ℝ) (hx : x.md = md)
    (hdt : x.md.dtype = .float32 ∨ x.md.dtype = .float64) (hpos : ∀ n ∈ x.shape, 0 < n) (ml : Option Int) (L : Int)
    (hL : PacketLevel2 w axes x ml L) (ops : List (Backend.Op (Tensor ℝ))) (hr : ∀ op ∈ ops, IsRead op) :
    ∃ C : Nat → Coo ℝ, (∀ k, k % 2 = 0 → F ≤ k → constructBoundaryA la w md k orth = .ok (C k)) ∧
      ∀ (key : Key) (v : Tensor ℝ),
        ((packetMat2 la w orth axes true).run
          ((packetMat2 la w orth axes true).run (Backend.empty MatCache2.empty) before).2
          (.transform x ml :: ops ++ [.read key])).1.getLast? = some (.value v) →
        key = [] ∧ v = x ∨
        key ≠ [] ∧ (key.length : Int) ≤ L ∧ (∀ c ∈ key, c = 'a' ∨ c = 'h' ∨ c = 'v' ∨ c = 'd') ∧
          AlongAxes (planeAxes axes x.rank) (mLens (sizes (planeAxes axes x.rank) x.shape) key.length)
            (fun X => packetPlane (matBand .zero fun k => (C k).den) halfLens (packetBand true)
              (sizes (planeAxes axes x.rank) x.shape) X key) x v := by
  obtain ⟨C, hC⟩ := hasMats_exists hla hw ho hind md
  refine ⟨C, hC, ?_⟩
  intro key v h
  have h2 := hw.two_le
  have hF : 2 ≤ w.len := by have : w.len = F := hw.len.1; omega
  have hP := packetMat2_pure (la := la) (w := w) (orth := orth) (axes := axes) (sep := true) (md := md)
  have hg := run_transform_good hP (used_inv2 md before hb) (x := x) hx (packetMatLevel2_eq hF hL) ops hr
  rw [last_outcome, read_after hP hg] at h
  have halp : (packetMat2 la w orth axes true).alphabet = ['a', 'h', 'v', 'd'] := rfl
  rw [halp] at h
  unfold readResult at h
  split_ifs at h with h1 h2 h3
  · left
    simp only [outOf, Option.some.injEq, Backend.Out.value.injEq] at h
    exact ⟨h1, h.symm⟩
  · simp [outOf] at h
  · right
    refine ⟨h1, by omega, by simpa using h3, ?_⟩
    cases hw' : walk (matDec2 la w orth axes true) ['a', 'h', 'v', 'd'] x key with
    | error e => rw [hw'] at h; simp [outOf] at h
    | ok v' =>
      rw [hw'] at h
      simp only [outOf, Option.some.injEq, Backend.Out.value.injEq] at h
      subst h
      rw [← sizesAfter_half]
      exact (walk2_textbook (packetMat2_step hla hw ho hind hC) key x v'
        ⟨hx, by unfold isDtypeSupported; simpa using hdt, hpos⟩ h3 (fun hk => absurd hk h1) hw').1
  · simp [outOf] at h

/-- **C25**, two dimensions, boundary mode with `separable=True`. Every key up to the maximum level can be read,
in any order, as long as no node on the way is smaller than the filters along one of the two axes. -/
theorem c25_2d_boundary_readable (hla : ExactLinAlg la) (hw : OrthBank w F) (ho : orth = "qr" ∨ orth = "gramschmidt")
    (hind : ∀ k, k % 2 = 0 → F ≤ k → BoundaryIndep w F k) (before : List (Backend.Op (Tensor ℝ)))
    (hb : ∀ op ∈ before, OpMd md op) (x : Tensor ℝ) (hx : x.md = md) (hpos : ∀ n ∈ x.shape, 0 < n)
    (ml : Option Int) (L : Int) (hL : PacketLevel2 w axes x ml L) (hax : GoodAxes (.seq axes) x.rank 2)
    (hdt : x.md.dtype = .float32 ∨ x.md.dtype = .float64)
    (ops : List (Backend.Op (Tensor ℝ))) (hr : ∀ op ∈ ops, IsRead op) (key : Key)
    (hk : (key.length : Int) ≤ L) (hc : ∀ c ∈ key, c = 'a' ∨ c = 'h' ∨ c = 'v' ∨ c = 'd')
    (hlen : ∀ s, s < key.length → ∀ n ∈ mLens (sizes (planeAxes axes x.rank) x.shape) s, F ≤ n) :
    ∃ v, ((packetMat2 la w orth axes true).run
        ((packetMat2 la w orth axes true).run (Backend.empty MatCache2.empty) before).2
        (.transform x ml :: ops ++ [.read key])).1.getLast? = some (.value v) := by
  obtain ⟨C, hC⟩ := hasMats_exists hla hw ho hind md
  have h2 := hw.two_le
  have hF : 2 ≤ w.len := by have : w.len = F := hw.len.1; omega
  have hP := packetMat2_pure (la := la) (w := w) (orth := orth) (axes := axes) (sep := true) (md := md)
  have hg := run_transform_good hP (used_inv2 md before hb) (x := x) hx (packetMatLevel2_eq hF hL) ops hr
  rw [last_outcome, read_after hP hg]
  have hc' : ∀ c ∈ key, c ∈ ['a', 'h', 'v', 'd'] := by simpa using hc
  obtain ⟨v, hv⟩ := walk2_ok (packetMat2_step hla hw ho hind hC) key x
    ⟨hx, by unfold isDtypeSupported; simpa using hdt, hpos⟩ hc' hax (by
      intro s h; rw [sizesAfter_half]; exact hlen s h)
  refine ⟨v, ?_⟩
  have halp : (packetMat2 la w orth axes true).alphabet = ['a', 'h', 'v', 'd'] := rfl
  rw [halp]
  unfold readResult
  by_cases h1 : key = []
  · subst h1
    cases hv
    rw [if_pos rfl]; rfl
  · rw [if_neg h1, if_neg (by omega), if_pos hc', hv]; rfl

/-- **C25**, two dimensions, boundary mode with `separable=True`, limit of the claim: a child of an image that is
smaller than the filters along one axis cannot be read, even if its level does not exceed the maximum level
asked for.  (In one dimension the padded length counts, here the length itself.) -/
theorem c25_2d_boundary_too_short (hla : ExactLinAlg la) (hw : OrthBank w F) (ho : orth = "qr" ∨ orth = "gramschmidt")
    (hind : ∀ k, k % 2 = 0 → F ≤ k → BoundaryIndep w F k) (before : List (Backend.Op (Tensor ℝ)))
    (hb : ∀ op ∈ before, OpMd md op) (x : Tensor ℝ) (hx : x.md = md) (hpos : ∀ n ∈ x.shape, 0 < n)
    (hdt : x.md.dtype = .float32 ∨ x.md.dtype = .float64) (ml : Option Int) (L : Int)
    (hL : PacketLevel2 w axes x ml L) (ops : List (Backend.Op (Tensor ℝ))) (hr : ∀ op ∈ ops, IsRead op) (c : Char)
    (hshort : ∃ n ∈ sizes (planeAxes axes x.rank) x.shape, n < F) :
    ∃ e, ((packetMat2 la w orth axes true).run
        ((packetMat2 la w orth axes true).run (Backend.empty MatCache2.empty) before).2
        (.transform x ml :: ops ++ [.read [c]])).1.getLast? = some (.raised e) := by
  obtain ⟨C, hC⟩ := hasMats_exists hla hw ho hind md
  have h2 := hw.two_le
  have hF : 2 ≤ w.len := by have : w.len = F := hw.len.1; omega
  have hP := packetMat2_pure (la := la) (w := w) (orth := orth) (axes := axes) (sep := true) (md := md)
  have hg := run_transform_good hP (used_inv2 md before hb) (x := x) hx (packetMatLevel2_eq hF hL) ops hr
  rw [last_outcome, read_after hP hg]
  obtain ⟨e, he⟩ := (matDec2_sep_char hla hw ho hind hC (axes := axes) (t := x)
    ⟨hx, by unfold isDtypeSupported; simpa using hdt, hpos⟩).1 (by
      rintro ⟨_, h⟩
      obtain ⟨n, hn, hlt⟩ := hshort
      exact absurd (h n hn) (by omega))
  unfold readResult
  rw [if_neg (by simp)]
  split_ifs with h3 h4
  · exact ⟨_, rfl⟩
  · refine ⟨e, ?_⟩
    rw [walk, he]; rfl
  · exact ⟨_, rfl⟩

/-! ### C30 -/

theorem matRoundtrip2 {w : Wavelet ℝ} (hla : ExactLinAlg la) (hw : OrthBank w F) (ho : orth = "qr" ∨ orth = "gramschmidt")
    (hind : ∀ k, k % 2 = 0 → F ≤ k → BoundaryIndep w F k) {x r : Tensor ℝ} (hx : Dom2 md x) {vs : List (Tensor ℝ)}
    (hd : matDec2 la w orth axes true x = .ok vs) (hs : matSyn2 la w orth axes true vs = .ok r) :
    Reconstructs (planeAxes axes x.rank) 1 x r ∧ EvenPaddedN .zero (planeAxes axes x.rank) x r := by
  obtain ⟨C, hC⟩ := hasMats_exists hla hw ho hind md
  obtain ⟨g1, g2⟩ := matDec2_sep_char hla hw ho hind hC (axes := axes) hx
  have hgood : GoodAxes (.seq axes) x.rank 2 ∧ ∀ n ∈ sizes (axesOf (.seq axes) x.rank 2) x.shape, F ≤ n := by
    by_contra hn
    obtain ⟨e, he⟩ := g1 hn
    rw [he] at hd; cases hd
  obtain ⟨f, z, e, _, hs', hz, hz'⟩ := g2 hgood.1 hgood.2
  rw [e] at hd
  cases hd
  rw [hs'] at hs
  cases hs
  exact ⟨hz, hz'⟩

/-- **C30**, two dimensions, boundary mode with `separable=True`. Transform, read coefficients in any order,
reconstruct: if every coefficient of the lowest level is in the tree, the root is the input again (with one
zero appended along each of the two axes whose size is odd) and all other coefficients keep their values;
otherwise a KeyError is raised and every coefficient, the root included, keeps its value. -/
theorem c30_2d_boundary_reconstruct (hla : ExactLinAlg la) (hw : OrthBank w F)
    (ho : orth = "qr" ∨ orth = "gramschmidt")
    (hind : ∀ k, k % 2 = 0 → F ≤ k → BoundaryIndep w F k) (before : List (Backend.Op (Tensor ℝ)))
    (hb : ∀ op ∈ before, OpMd md op) (x : Tensor ℝ) (hx : x.md = md) (hpos : ∀ n ∈ x.shape, 0 < n)
    (hdt : x.md.dtype = .float32 ∨ x.md.dtype = .float64) (ml : Option Int) (L : Nat)
    (hL : PacketLevel2 w axes x ml (L + 1 : Nat)) (ops : List (Backend.Op (Tensor ℝ))) (hr : ∀ op ∈ ops, IsRead op) :
    let st := ((packetMat2 la w orth axes true).run
      ((packetMat2 la w orth axes true).run (Backend.empty MatCache2.empty) before).2 (.transform x ml :: ops)).2
    let complete := ∀ k : Key, k.length = L + 1 → (∀ c ∈ k, c = 'a' ∨ c = 'h' ∨ c = 'v' ∨ c = 'd') → (st.data k).isSome
    (complete → ∃ st' z, (packetMat2 la w orth axes true).step st .reconstruct = (.done, st') ∧
      (∀ k v, k ≠ [] → st.data k = some v → st'.data k = some v) ∧
      st'.data [] = some z ∧ Reconstructs (planeAxes axes x.rank) 1 x z ∧
      EvenPaddedN .zero (planeAxes axes x.rank) x z) ∧
    (¬ complete → ∃ st', (packetMat2 la w orth axes true).step st .reconstruct = (.raised .keyError, st') ∧
      ∀ k v, st.data k = some v → st'.data k = some v) := by
  intro st complete
  have h2 := hw.two_le
  have hF : 2 ≤ w.len := by have : w.len = F := hw.len.1; omega
  have hP := packetMat2_pure (la := la) (w := w) (orth := orth) (axes := axes) (sep := true) (md := md)
  have hD : Dom2 md x := ⟨hx, by unfold isDtypeSupported; simpa using hdt, hpos⟩
  have hg := run_transform_good hP (used_inv2 md before hb) (x := x) hx (packetMatLevel2_eq hF hL) ops hr
  obtain ⟨h1, h2⟩ := reconstruct_good hP packetMat2_complete (by simp [packetMat2])
    (matDec2_sep_inverts hla hw ho hind hD) hg
  have hal : ∀ k : Key, (∀ c ∈ k, c ∈ (packetMat2 la w orth axes true).alphabet) ↔
      ∀ c ∈ k, c = 'a' ∨ c = 'h' ∨ c = 'v' ∨ c = 'd' := by
    intro k; simp [packetMat2]
  simp only [hal] at h1 h2
  refine ⟨fun hc => ?_, h2⟩
  obtain ⟨st', vs, r, e, h5, h3, -, hd, hs⟩ := h1 hc
  exact ⟨st', r, e, h5, h3, matRoundtrip2 hla hw ho hind hD hd hs⟩

/-- **C30**, two dimensions, boundary mode with `separable=True`. The full round trip: transform, initialise all
leaves (in any order, after any other reads), reconstruct, read the root. -/
theorem c30_2d_boundary_round_trip (hla : ExactLinAlg la) (hw : OrthBank w F)
    (ho : orth = "qr" ∨ orth = "gramschmidt")
    (hind : ∀ k, k % 2 = 0 → F ≤ k → BoundaryIndep w F k) (before : List (Backend.Op (Tensor ℝ)))
    (hb : ∀ op ∈ before, OpMd md op) (x : Tensor ℝ) (hx : x.md = md) (hpos : ∀ n ∈ x.shape, 0 < n)
    (ml : Option Int) (L : Nat)
    (hL : PacketLevel2 w axes x ml (L + 1 : Nat)) (hax : GoodAxes (.seq axes) x.rank 2)
    (hdt : x.md.dtype = .float32 ∨ x.md.dtype = .float64)
    (hlen : ∀ s, s < L + 1 → ∀ n ∈ mLens (sizes (planeAxes axes x.rank) x.shape) s, F ≤ n)
    (ops : List (Backend.Op (Tensor ℝ))) (hr : ∀ op ∈ ops, IsRead op) (leaves : List Key)
    (hlv : ∀ k : Key, k ∈ leaves ↔ k.length = L + 1 ∧ ∀ c ∈ k, c = 'a' ∨ c = 'h' ∨ c = 'v' ∨ c = 'd') :
    ∃ z, ((packetMat2 la w orth axes true).run
        ((packetMat2 la w orth axes true).run (Backend.empty MatCache2.empty) before).2
        (.transform x ml :: ops ++ [.init leaves] ++ [.reconstruct] ++ [.read []])).1.getLast? = some (.value z) ∧
      Reconstructs (planeAxes axes x.rank) 1 x z ∧ EvenPaddedN .zero (planeAxes axes x.rank) x z := by
  obtain ⟨C, hC⟩ := hasMats_exists hla hw ho hind md
  have h2 := hw.two_le
  have hF : 2 ≤ w.len := by have : w.len = F := hw.len.1; omega
  have hP := packetMat2_pure (la := la) (w := w) (orth := orth) (axes := axes) (sep := true) (md := md)
  have hD : Dom2 md x := ⟨hx, by unfold isDtypeSupported; simpa using hdt, hpos⟩
  obtain ⟨vs, z, e, hd, hs⟩ := round_trip_good hP packetMat2_complete
    (by simp [packetMat2]) (x := x) hx (matDec2_sep_inverts hla hw ho hind hD) (used_inv2 md before hb)
    (packetMatLevel2_eq hF hL) ops hr (leaves := leaves) (by intro k; rw [hlv k]; simp [packetMat2]) (by
      intro k hk hc
      exact walk2_ok (packetMat2_step hla hw ho hind hC) k x hD hc hax (by
        intro s h; rw [sizesAfter_half]; exact hlen s (by omega)))
  exact ⟨z, e, matRoundtrip2 hla hw ho hind hD hd hs⟩

/-- A batch of two images with 8 rows and 7 columns. -/
noncomputable def exPM : Tensor ℝ := Tensor.ofFn ⟨.float64, 0⟩ [2, 8, 7] fun i => (i.getD 0 0 : ℝ) + i.getD 1 0 * i.getD 2 0

theorem exPM_good : GoodAxes (.seq [-2, -1]) exPM.rank 2 := by
  refine ⟨by decide, rfl, ?_, by decide⟩
  intro a ha
  have : a = -2 ∨ a = -1 := by simpa [resolve] using ha
  rcases this with rfl | rfl <;> exact ⟨by decide, by decide⟩

/-- The hypotheses are met: a tree of depth 2 over a batch of images with an odd number of columns, on an object
that was used before. -/
example : ∃ la, ExactLinAlg la ∧ ∃ z, ((packetMat2 la bank4 "qr" [-2, -1] true).run
      ((packetMat2 la bank4 "qr" [-2, -1] true).run (Backend.empty MatCache2.empty)
        [.transform (Tensor.ofFn ⟨.float64, 0⟩ [8, 8] fun _ => (1 : ℝ)) (some 1), .read ['a']]).2
      (.transform exPM (some 2) :: [.read ['d']]
        ++ [.init (getNaturalOrder2 2)] ++ [.reconstruct] ++ [.read []])).1.getLast?
      = some (.value z) ∧ z.shape = [2, 8, 8] := by
  obtain ⟨la, hla⟩ := exists_exactLinAlg
  obtain ⟨z, h1, h2, -⟩ := c30_2d_boundary_round_trip (axes := [-2, -1]) (md := ⟨.float64, 0⟩) hla bank4_orth (Or.inl rfl)
    (fun k a b => bank4_indep a b)
    [.transform (Tensor.ofFn ⟨.float64, 0⟩ [8, 8] fun _ => (1 : ℝ)) (some 1), .read ['a']] (by
      intro op hop
      simp only [List.mem_cons, List.not_mem_nil, or_false] at hop
      rcases hop with rfl | rfl
      · rfl
      · trivial)
    exPM rfl (by simp [exPM, Tensor.ofFn]) (some 2) 1 (Or.inl rfl)
    exPM_good (Or.inr rfl) (by
      have hs : sizes (planeAxes [-2, -1] exPM.rank) exPM.shape = [8, 7] := by
        simp [sizes, planeAxes, axesOf, resolve, exPM, axisOf, Tensor.rank, Tensor.ofFn]
      rw [hs]
      intro s hs
      have : s = 0 ∨ s = 1 := by omega
      rcases this with rfl | rfl <;> decide) [.read ['d']]
    (by intro op hop; simp only [List.mem_singleton] at hop; subst hop; trivial)
    (getNaturalOrder2 2) (mem_allKeys2 2)
  refine ⟨la, hla, z, h1, ?_⟩
  rw [h2.shape (by decide)]
  simp [planeAxes, axesOf, resolve, exPM, axisOf, Tensor.rank, Tensor.ofFn]
  rfl

end

/-! ### The constructors -/

/-- **C31**, the constructor of `WaveletPacket` accepts exactly one axis (the last by default) and a known
orthogonalization method. -/
theorem c31_constructor (axes : AxisHint) (orth : String) (p : Int) :
    packetInit1 axes orth = .ok p ↔
      (axes = .none ∧ p = -1 ∨ axes = .int p ∨ axes = .seq [p]) ∧ (orth = "qr" ∨ orth = "gramschmidt") := by
  unfold packetInit1
  rw [ensureAxes_eq (by omega)]
  have hs : isOrthogonalizeMethodSupported orth = false ↔ ¬ (orth = "qr" ∨ orth = "gramschmidt") := by
    unfold isOrthogonalizeMethodSupported; simp
  cases axes with
  | none =>
    simp only [resolve, hs]
    by_cases h : orth = "qr" ∨ orth = "gramschmidt" <;> simp [h, eq_comm]
  | int a =>
    simp only [resolve, hs]
    by_cases h : orth = "qr" ∨ orth = "gramschmidt" <;> simp [h]
  | seq as =>
    simp only [resolve, hs]
    by_cases hl : as.length = 1
    · obtain ⟨a, rfl⟩ := List.length_eq_one_iff.mp hl
      by_cases h : orth = "qr" ∨ orth = "gramschmidt" <;> simp [h]
    · simp only [hl, false_and, if_false]
      simp only [reduceCtorEq, false_iff, not_and, not_or]
      rintro (h | h | h)
      · simp at h
      · simp at h
      · cases h; simp at hl

/-- **C31**, the constructor of `WaveletPacket2D` accepts exactly two different axes (the last two by default) and
a known orthogonalization method. -/
theorem c31_2d_constructor (axes : AxisHint) (orth : String) (as : List Int) :
    packetInit2 axes orth = .ok as ↔
      (axes = .none ∧ as = [-2, -1] ∨ ∃ p q, p ≠ q ∧ axes = .seq [p, q] ∧ as = [p, q]) ∧
      (orth = "qr" ∨ orth = "gramschmidt") := by
  unfold packetInit2
  rw [ensureAxes_eq (by omega)]
  have hs : isOrthogonalizeMethodSupported orth = false ↔ ¬ (orth = "qr" ∨ orth = "gramschmidt") := by
    unfold isOrthogonalizeMethodSupported; simp
  cases axes with
  | none =>
    have : resolve .none 2 = [-2, -1] := rfl
    simp only [this, hs]
    by_cases h : orth = "qr" ∨ orth = "gramschmidt" <;> simp [h, eq_comm]
  | int a =>
    simp [resolve]
  | seq bs =>
    simp only [resolve, hs]
    by_cases hl : bs.length = 2
    · obtain ⟨p, q, rfl⟩ := List.length_eq_two.mp hl
      by_cases hpq : p = q
      · simp [hpq]
      · by_cases h : orth = "qr" ∨ orth = "gramschmidt"
        · simp [h, hpq]
          exact eq_comm
        · simp [h, hpq]
    · simp only [hl, false_and, if_false]
      simp only [reduceCtorEq, false_iff, not_and, not_or]
      rintro (h | ⟨p, q, -, h, -⟩)
      · simp at h
      · cases h; simp at hl

end Verif.Props
