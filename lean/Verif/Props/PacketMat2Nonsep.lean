/-
Properties C25 and C30 for `WaveletPacket2D` with `mode="boundary"` and `separable=False`
(src/ptwt/packets.py).
-/
import Verif.Lemmas.PacketMat2Nonsep
import Verif.Props.PacketMat2

namespace Verif.Props
open Tensor Spec

section
variable {la : LinAlg ℝ} {w : Wavelet ℝ} {F : Nat} {orth : String} {axes : List Int} {md : Meta}

/-! ### C25 -/

/-- **C25**, two dimensions, boundary mode with `separable=False`. Whatever was read before, a coefficient that can
be read is obtained from the input step by step along the letters of the key: multiplication of the image,
read column by column, by the boundary matrix of its two sizes (C50), each letter naming the block kept. -/
theorem c25_2d_boundary_nonsep_value (hla : ExactLinAlg la) (hw : OrthBank w F) (ho : orth = "qr" ∨ orth = "gramschmidt")
    (hind : ∀ k, k % 2 = 0 → F ≤ k → BoundaryIndep w F k) (before : List (Backend.Op (Tensor ℝ)))
    (hb : ∀ op ∈ before, OpMd md op) (x : Tensor ℝ) (hx : x.md = md)
    (hdt : x.md.dtype = .float32 ∨ x.md.dtype = .float64) (hpos : ∀ n ∈ x.shape, 0 < n) (ml : Option Int) (L : Int)
    (hL : PacketLevel2 w axes x ml L) (ops : List (Backend.Op (Tensor ℝ))) (hr : ∀ op ∈ ops, IsRead op) :
    ∃ C : Nat → Nat → Coo ℝ, (∀ p q, p % 2 = 0 → q % 2 = 0 → F ≤ p → F ≤ q →
        constructBoundaryA2 la w md p q orth = .ok (C p q)) ∧
      ∀ (key : Key) (v : Tensor ℝ),
        ((packetMat2 la w orth axes false).run
          ((packetMat2 la w orth axes false).run (Backend.empty MatCache2.empty) before).2
          (.transform x ml :: ops ++ [.read key])).1.getLast? = some (.value v) →
        key = [] ∧ v = x ∨
        key ≠ [] ∧ (key.length : Int) ≤ L ∧ (∀ c ∈ key, c = 'a' ∨ c = 'h' ∨ c = 'v' ∨ c = 'd') ∧
          AlongAxes (planeAxes axes x.rank) (mLens (sizes (planeAxes axes x.rank) x.shape) key.length)
            (fun X => packetPlane (nonsepBand .zero fun p q => (C p q).den) halfLens (packetBand false)
              (sizes (planeAxes axes x.rank) x.shape) X key) x v := by
  obtain ⟨C, hC⟩ := hasMats2_exists hla hw ho hind md
  refine ⟨C, hC, ?_⟩
  intro key v h
  have h2 := hw.two_le
  have hF : 2 ≤ w.len := by have : w.len = F := hw.len.1; omega
  have hP := packetMat2_pure (la := la) (w := w) (orth := orth) (axes := axes) (sep := false) (md := md)
  have hg := run_transform_good hP (used_inv2 md before hb) (x := x) hx (packetMatLevel2_eq hF hL) ops hr
  rw [last_outcome, read_after hP hg] at h
  have halp : (packetMat2 la w orth axes false).alphabet = ['a', 'h', 'v', 'd'] := rfl
  rw [halp] at h
  unfold readResult at h
  split_ifs at h with h1 h2 h3
  · left
    simp only [outOf, Option.some.injEq, Backend.Out.value.injEq] at h
    exact ⟨h1, h.symm⟩
  · simp [outOf] at h
  · right
    refine ⟨h1, by omega, by simpa using h3, ?_⟩
    cases hw' : walk (matDec2 la w orth axes false) ['a', 'h', 'v', 'd'] x key with
    | error e => rw [hw'] at h; simp [outOf] at h
    | ok v' =>
      rw [hw'] at h
      simp only [outOf, Option.some.injEq, Backend.Out.value.injEq] at h
      subst h
      rw [← sizesAfter_half]
      exact (walk2_textbook (packetMat2_nonsep_step hla hw ho hind hC) key x v'
        ⟨hx, by unfold isDtypeSupported; simpa using hdt, hpos⟩ h3 (fun hk => absurd hk h1) hw').1
  · simp [outOf] at h

/-- **C25**, two dimensions, boundary mode with `separable=False`. Every key up to the maximum level can be read,
in any order, as long as no node on the way is smaller than the filters along one of the two axes. -/
theorem c25_2d_boundary_nonsep_readable (hla : ExactLinAlg la) (hw : OrthBank w F) (ho : orth = "qr" ∨ orth = "gramschmidt")
    (hind : ∀ k, k % 2 = 0 → F ≤ k → BoundaryIndep w F k) (before : List (Backend.Op (Tensor ℝ)))
    (hb : ∀ op ∈ before, OpMd md op) (x : Tensor ℝ) (hx : x.md = md) (hpos : ∀ n ∈ x.shape, 0 < n)
    (ml : Option Int) (L : Int) (hL : PacketLevel2 w axes x ml L) (hax : GoodAxes (.seq axes) x.rank 2)
    (hdt : x.md.dtype = .float32 ∨ x.md.dtype = .float64)
    (ops : List (Backend.Op (Tensor ℝ))) (hr : ∀ op ∈ ops, IsRead op) (key : Key)
    (hk : (key.length : Int) ≤ L) (hc : ∀ c ∈ key, c = 'a' ∨ c = 'h' ∨ c = 'v' ∨ c = 'd')
    (hlen : ∀ s, s < key.length → ∀ n ∈ mLens (sizes (planeAxes axes x.rank) x.shape) s, F ≤ n) :
    ∃ v, ((packetMat2 la w orth axes false).run
        ((packetMat2 la w orth axes false).run (Backend.empty MatCache2.empty) before).2
        (.transform x ml :: ops ++ [.read key])).1.getLast? = some (.value v) := by
  obtain ⟨C, hC⟩ := hasMats2_exists hla hw ho hind md
  have h2 := hw.two_le
  have hF : 2 ≤ w.len := by have : w.len = F := hw.len.1; omega
  have hP := packetMat2_pure (la := la) (w := w) (orth := orth) (axes := axes) (sep := false) (md := md)
  have hg := run_transform_good hP (used_inv2 md before hb) (x := x) hx (packetMatLevel2_eq hF hL) ops hr
  rw [last_outcome, read_after hP hg]
  have hc' : ∀ c ∈ key, c ∈ ['a', 'h', 'v', 'd'] := by simpa using hc
  obtain ⟨v, hv⟩ := walk2_ok (packetMat2_nonsep_step hla hw ho hind hC) key x
    ⟨hx, by unfold isDtypeSupported; simpa using hdt, hpos⟩ hc' hax (by
      intro s h; rw [sizesAfter_half]; exact hlen s h)
  refine ⟨v, ?_⟩
  have halp : (packetMat2 la w orth axes false).alphabet = ['a', 'h', 'v', 'd'] := rfl
  rw [halp]
  unfold readResult
  by_cases h1 : key = []
  · subst h1
    cases hv
    rw [if_pos rfl]; rfl
  · rw [if_neg h1, if_neg (by omega), if_pos hc', hv]; rfl

/-- **C25**, two dimensions, boundary mode with `separable=False`, limit of the claim: a child of an image that is
smaller than the filters along one axis cannot be read, even if its level does not exceed the maximum level
asked for.  (In one dimension the padded length counts, here the length itself.) -/
theorem c25_2d_boundary_nonsep_too_short (hla : ExactLinAlg la) (hw : OrthBank w F) (ho : orth = "qr" ∨ orth = "gramschmidt")
    (hind : ∀ k, k % 2 = 0 → F ≤ k → BoundaryIndep w F k) (before : List (Backend.Op (Tensor ℝ)))
    (hb : ∀ op ∈ before, OpMd md op) (x : Tensor ℝ) (hx : x.md = md) (hpos : ∀ n ∈ x.shape, 0 < n)
    (hdt : x.md.dtype = .float32 ∨ x.md.dtype = .float64) (ml : Option Int) (L : Int)
    (hL : PacketLevel2 w axes x ml L) (ops : List (Backend.Op (Tensor ℝ))) (hr : ∀ op ∈ ops, IsRead op) (c : Char)
    (hshort : ∃ n ∈ sizes (planeAxes axes x.rank) x.shape, n < F) :
    ∃ e, ((packetMat2 la w orth axes false).run
        ((packetMat2 la w orth axes false).run (Backend.empty MatCache2.empty) before).2
        (.transform x ml :: ops ++ [.read [c]])).1.getLast? = some (.raised e) := by
  obtain ⟨C, hC⟩ := hasMats2_exists hla hw ho hind md
  have h2 := hw.two_le
  have hF : 2 ≤ w.len := by have : w.len = F := hw.len.1; omega
  have hP := packetMat2_pure (la := la) (w := w) (orth := orth) (axes := axes) (sep := false) (md := md)
  have hg := run_transform_good hP (used_inv2 md before hb) (x := x) hx (packetMatLevel2_eq hF hL) ops hr
  rw [last_outcome, read_after hP hg]
  obtain ⟨e, he⟩ := (matDec2_nonsep_char hla hw ho hind hC (axes := axes) (t := x)
    ⟨hx, by unfold isDtypeSupported; simpa using hdt, hpos⟩).1 (by
      rintro ⟨_, h⟩
      obtain ⟨n, hn, hlt⟩ := hshort
      exact absurd (h n hn) (by omega))
  unfold readResult
  rw [if_neg (by simp)]
  split_ifs with h3 h4
  · exact ⟨_, rfl⟩
  · refine ⟨e, ?_⟩
    rw [walk, he]; rfl
  · exact ⟨_, rfl⟩

/-! ### C30 -/

theorem matRoundtrip2Nonsep {w : Wavelet ℝ} (hla : ExactLinAlg la) (hw : OrthBank w F) (ho : orth = "qr" ∨ orth = "gramschmidt")
    (hind : ∀ k, k % 2 = 0 → F ≤ k → BoundaryIndep w F k) {x r : Tensor ℝ} (hx : Dom2 md x) {vs : List (Tensor ℝ)}
    (hd : matDec2 la w orth axes false x = .ok vs) (hs : matSyn2 la w orth axes false vs = .ok r) :
    Reconstructs (planeAxes axes x.rank) 1 x r ∧ EvenPaddedN .zero (planeAxes axes x.rank) x r := by
  obtain ⟨C, hC⟩ := hasMats2_exists hla hw ho hind md
  obtain ⟨g1, g2⟩ := matDec2_nonsep_char hla hw ho hind hC (axes := axes) hx
  have hgood : GoodAxes (.seq axes) x.rank 2 ∧ ∀ n ∈ sizes (axesOf (.seq axes) x.rank 2) x.shape, F ≤ n := by
    by_contra hn
    obtain ⟨e, he⟩ := g1 hn
    rw [he] at hd; cases hd
  obtain ⟨f, z, e, _, hs', hz, hz'⟩ := g2 hgood.1 hgood.2
  rw [e] at hd
  cases hd
  rw [hs'] at hs
  cases hs
  exact ⟨hz, hz'⟩

/-- **C30**, two dimensions, boundary mode with `separable=False`. Transform, read coefficients in any order,
reconstruct: if every coefficient of the lowest level is in the tree, the root is the input again (with one
zero appended along each of the two axes whose size is odd) and all other coefficients keep their values;
otherwise a KeyError is raised and every coefficient, the root included, keeps its value. -/
theorem c30_2d_boundary_nonsep_reconstruct (hla : ExactLinAlg la) (hw : OrthBank w F)
    (ho : orth = "qr" ∨ orth = "gramschmidt")
    (hind : ∀ k, k % 2 = 0 → F ≤ k → BoundaryIndep w F k) (before : List (Backend.Op (Tensor ℝ)))
    (hb : ∀ op ∈ before, OpMd md op) (x : Tensor ℝ) (hx : x.md = md) (hpos : ∀ n ∈ x.shape, 0 < n)
    (hdt : x.md.dtype = .float32 ∨ x.md.dtype = .float64) (ml : Option Int) (L : Nat)
    (hL : PacketLevel2 w axes x ml (L + 1 : Nat)) (ops : List (Backend.Op (Tensor ℝ))) (hr : ∀ op ∈ ops, IsRead op) :
    let st := ((packetMat2 la w orth axes false).run
      ((packetMat2 la w orth axes false).run (Backend.empty MatCache2.empty) before).2 (.transform x ml :: ops)).2
    let complete := ∀ k : Key, k.length = L + 1 → (∀ c ∈ k, c = 'a' ∨ c = 'h' ∨ c = 'v' ∨ c = 'd') → (st.data k).isSome
    (complete → ∃ st' z, (packetMat2 la w orth axes false).step st .reconstruct = (.done, st') ∧
      (∀ k v, k ≠ [] → st.data k = some v → st'.data k = some v) ∧
      st'.data [] = some z ∧ Reconstructs (planeAxes axes x.rank) 1 x z ∧
      EvenPaddedN .zero (planeAxes axes x.rank) x z) ∧
    (¬ complete → ∃ st', (packetMat2 la w orth axes false).step st .reconstruct = (.raised .keyError, st') ∧
      ∀ k v, st.data k = some v → st'.data k = some v) := by
  intro st complete
  have h2 := hw.two_le
  have hF : 2 ≤ w.len := by have : w.len = F := hw.len.1; omega
  have hP := packetMat2_pure (la := la) (w := w) (orth := orth) (axes := axes) (sep := false) (md := md)
  have hD : Dom2 md x := ⟨hx, by unfold isDtypeSupported; simpa using hdt, hpos⟩
  have hg := run_transform_good hP (used_inv2 md before hb) (x := x) hx (packetMatLevel2_eq hF hL) ops hr
  obtain ⟨h1, h2⟩ := reconstruct_good hP packetMat2_complete (by simp [packetMat2])
    (matDec2_nonsep_inverts hla hw ho hind hD) hg
  have hal : ∀ k : Key, (∀ c ∈ k, c ∈ (packetMat2 la w orth axes false).alphabet) ↔
      ∀ c ∈ k, c = 'a' ∨ c = 'h' ∨ c = 'v' ∨ c = 'd' := by
    intro k; simp [packetMat2]
  simp only [hal] at h1 h2
  refine ⟨fun hc => ?_, h2⟩
  obtain ⟨st', vs, r, e, h5, h3, -, hd, hs⟩ := h1 hc
  exact ⟨st', r, e, h5, h3, matRoundtrip2Nonsep hla hw ho hind hD hd hs⟩

/-- **C30**, two dimensions, boundary mode with `separable=False`. The full round trip: transform, initialise all
leaves (in any order, after any other reads), reconstruct, read the root. -/
theorem c30_2d_boundary_nonsep_round_trip (hla : ExactLinAlg la) (hw : OrthBank w F)
    (ho : orth = "qr" ∨ orth = "gramschmidt")
    (hind : ∀ k, k % 2 = 0 → F ≤ k → BoundaryIndep w F k) (before : List (Backend.Op (Tensor ℝ)))
    (hb : ∀ op ∈ before, OpMd md op) (x : Tensor ℝ) (hx : x.md = md) (hpos : ∀ n ∈ x.shape, 0 < n)
    (ml : Option Int) (L : Nat)
    (hL : PacketLevel2 w axes x ml (L + 1 : Nat)) (hax : GoodAxes (.seq axes) x.rank 2)
    (hdt : x.md.dtype = .float32 ∨ x.md.dtype = .float64)
    (hlen : ∀ s, s < L + 1 → ∀ n ∈ mLens (sizes (planeAxes axes x.rank) x.shape) s, F ≤ n)
    (ops : List (Backend.Op (Tensor ℝ))) (hr : ∀ op ∈ ops, IsRead op) (leaves : List Key)
    (hlv : ∀ k : Key, k ∈ leaves ↔ k.length = L + 1 ∧ ∀ c ∈ k, c = 'a' ∨ c = 'h' ∨ c = 'v' ∨ c = 'd') :
    ∃ z, ((packetMat2 la w orth axes false).run
        ((packetMat2 la w orth axes false).run (Backend.empty MatCache2.empty) before).2
        (.transform x ml :: ops ++ [.init leaves] ++ [.reconstruct] ++ [.read []])).1.getLast? = some (.value z) ∧
      Reconstructs (planeAxes axes x.rank) 1 x z ∧ EvenPaddedN .zero (planeAxes axes x.rank) x z := by
  obtain ⟨C, hC⟩ := hasMats2_exists hla hw ho hind md
  have h2 := hw.two_le
  have hF : 2 ≤ w.len := by have : w.len = F := hw.len.1; omega
  have hP := packetMat2_pure (la := la) (w := w) (orth := orth) (axes := axes) (sep := false) (md := md)
  have hD : Dom2 md x := ⟨hx, by unfold isDtypeSupported; simpa using hdt, hpos⟩
  obtain ⟨vs, z, e, hd, hs⟩ := round_trip_good hP packetMat2_complete
    (by simp [packetMat2]) (x := x) hx (matDec2_nonsep_inverts hla hw ho hind hD) (used_inv2 md before hb)
    (packetMatLevel2_eq hF hL) ops hr (leaves := leaves) (by intro k; rw [hlv k]; simp [packetMat2]) (by
      intro k hk hc
      exact walk2_ok (packetMat2_nonsep_step hla hw ho hind hC) k x hD hc hax (by
        intro s h; rw [sizesAfter_half]; exact hlen s (by omega)))
  exact ⟨z, e, matRoundtrip2Nonsep hla hw ho hind hD hd hs⟩

/-- The hypotheses are met: a tree of depth 2 over a batch of images with an odd number of columns, on an object
that was used before. -/
example : ∃ la, ExactLinAlg la ∧ ∃ z, ((packetMat2 la bank4 "qr" [-2, -1] false).run
      ((packetMat2 la bank4 "qr" [-2, -1] false).run (Backend.empty MatCache2.empty)
        [.transform (Tensor.ofFn ⟨.float64, 0⟩ [8, 8] fun _ => (1 : ℝ)) (some 1), .read ['a']]).2
      (.transform exPM (some 2) :: [.read ['d']]
        ++ [.init (getNaturalOrder2 2)] ++ [.reconstruct] ++ [.read []])).1.getLast?
      = some (.value z) ∧ z.shape = [2, 8, 8] := by
  obtain ⟨la, hla⟩ := exists_exactLinAlg
  obtain ⟨z, h1, h2, -⟩ := c30_2d_boundary_nonsep_round_trip (axes := [-2, -1]) (md := ⟨.float64, 0⟩) hla bank4_orth (Or.inl rfl)
    (fun k a b => bank4_indep a b)
    [.transform (Tensor.ofFn ⟨.float64, 0⟩ [8, 8] fun _ => (1 : ℝ)) (some 1), .read ['a']] (by
      intro op hop
      simp only [List.mem_cons, List.not_mem_nil, or_false] at hop
      rcases hop with rfl | rfl
      · rfl
      · trivial)
    exPM rfl (by simp [exPM, Tensor.ofFn]) (some 2) 1 (Or.inl rfl)
    exPM_good (Or.inr rfl) (by
      have hs : sizes (planeAxes [-2, -1] exPM.rank) exPM.shape = [8, 7] := by
        simp [sizes, planeAxes, axesOf, resolve, exPM, axisOf, Tensor.rank, Tensor.ofFn]
      rw [hs]
      intro s hs
      have : s = 0 ∨ s = 1 := by omega
      rcases this with rfl | rfl <;> decide) [.read ['d']]
    (by intro op hop; simp only [List.mem_singleton] at hop; subst hop; trivial)
    (getNaturalOrder2 2) (mem_allKeys2 2)
  refine ⟨la, hla, z, h1, ?_⟩
  rw [h2.shape (by decide)]
  simp [planeAxes, axesOf, resolve, exPM, axisOf, Tensor.rank, Tensor.ofFn]
  rfl

end

end Verif.Props
