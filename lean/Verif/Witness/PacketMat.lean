/-
Concrete cases for the theorems about packets with mode `boundary` (C25, C30, C31, C44, C62).
-/
import Verif.Witness.Packet
import Verif.Props.PacketMat2Nonsep
import Verif.Props.CascadePacket
import Verif.Props.Orientation

namespace Verif.Witness
open Tensor Spec Props Backend

/-- Exact linear algebra. -/
noncomputable def la0 : LinAlg ℝ := exists_exactLinAlg.choose
theorem la0_exact : ExactLinAlg la0 := exists_exactLinAlg.choose_spec
theorem ind4 : ∀ k, k % 2 = 0 → 4 ≤ k → BoundaryIndep bank4 4 k := fun _ a b => bank4_indep a b

/-- What the object was used for before. -/
noncomputable def old1 : List (Op (Tensor ℝ)) := [.transform (ofFn ⟨.float64, 0⟩ [8] fun _ => (1 : ℝ)) (some 1), .read ['a']]
noncomputable def old2 : List (Op (Tensor ℝ)) := [.transform (ofFn ⟨.float64, 0⟩ [8, 8] fun _ => (1 : ℝ)) (some 1), .read ['a']]

theorem old1_md : ∀ op ∈ old1, OpMd ⟨.float64, 0⟩ op := by
  intro op hop
  simp only [old1, List.mem_cons, List.not_mem_nil, or_false] at hop
  rcases hop with rfl | rfl
  · rfl
  · trivial

theorem old2_md : ∀ op ∈ old2, OpMd ⟨.float64, 0⟩ op := by
  intro op hop
  simp only [old2, List.mem_cons, List.not_mem_nil, or_false] at hop
  rcases hop with rfl | rfl
  · rfl
  · trivial

theorem none_md {md : Meta} : ∀ op ∈ ([] : List (Op (Tensor ℝ))), OpMd md op := fun _ h => absurd h List.not_mem_nil

/-- A batch of signals of odd length, and one that is shorter than the filters. -/
noncomputable def sig : Tensor ℝ := ofFn ⟨.float64, 0⟩ [3, 13] fun i => (i.getD 1 0 : ℝ)
noncomputable def tiny : Tensor ℝ := ofFn ⟨.float64, 0⟩ [3, 1] fun i => (i.getD 0 0 : ℝ)
noncomputable def tiny2 : Tensor ℝ := ofFn ⟨.float64, 0⟩ [3, 8, 3] fun i => (i.getD 0 0 : ℝ)

theorem b4 : 2 ≤ bank4.len := by have : bank4.len = 4 := bank4_orth.len.1; omega

section one
example := c31_boundary_forgets la0 bank4 "qr" (-1) b4 ⟨.float64, 0⟩ old1 old1 old1_md old1_md sig rfl (some 2) 2 (Or.inl rfl)
example := c25_boundary_order_independent la0 bank4 "qr" (-1) b4 ⟨.float64, 0⟩ old1 [] old1_md none_md sig rfl (some 2) 2 (Or.inl rfl)
  _ _ (reads ['a'] ['d']) (reads ['d'] ['a', 'd']) ['a', 'a']
example := c25_boundary_value (axis := -1) la0_exact bank4_orth (Or.inl rfl) ind4 old1 old1_md sig rfl (some 2) 2 (Or.inl rfl) _ (reads ['a'] ['d'])

/-- A node of depth two can be read. -/
theorem pm1 (before ops : List (Op (Tensor ℝ))) (hb : ∀ op ∈ before, OpMd ⟨.float64, 0⟩ op) (ho : ∀ op ∈ ops, IsRead op) :
    ∃ v, ((packetMat1 la0 bank4 "qr" (-1)).run ((packetMat1 la0 bank4 "qr" (-1)).run (empty MatCache1.empty) before).2
      (.transform sig (some 2) :: ops ++ [.read ['d', 'a']])).1.getLast? = some (.value v) :=
  c25_boundary_readable la0_exact bank4_orth (Or.inl rfl) ind4 before hb sig rfl (some 2) 2 (Or.inl rfl)
    ⟨by decide, by decide⟩ (Or.inr rfl) ops ho ['d', 'a'] (by decide) (by simp) (by
      intro s hs
      have : s = 0 ∨ s = 1 := by simp at hs; omega
      rcases this with rfl | rfl <;> decide)

example := c25_boundary_too_short (axis := -1) la0_exact bank4_orth (Or.inl rfl) ind4 old1 old1_md tiny rfl (some 2) 2 (Or.inl rfl)
  _ (reads [] []) 'a' (by decide)
example := c30_boundary_reconstruct (axis := -1) la0_exact bank4_orth (Or.inl rfl) ind4 old1 old1_md sig rfl (some 2) 1 (Or.inl rfl)
  _ (reads ['a'] ['d'])
example := (pm1 old1 _ old1_md (reads ['a'] ['d'])).imp fun u h => c62_packet_boundary la0 bank4 "qr" (-1) b4 ⟨.float64, 0⟩ old1 [] old1_md none_md sig u
  rfl (some 2) 2 (Or.inl rfl) _ [] _ (reads ['a'] ['d']) no_reads (reads ['d'] ['d']) ['d', 'a'] h []

/-- Two objects with the same leaves, written by the user, and different roots. -/
def written (x : Tensor ℝ) (lo hi : Tensor ℝ) : List (Op (Tensor ℝ)) := [.transform x (some 1), .set ['a'] lo, .set ['d'] hi]

theorem written_md {md : Meta} {x lo hi : Tensor ℝ} (h1 : x.md = md) (h2 : lo.md = md) (h3 : hi.md = md) : ∀ op ∈ written x lo hi, OpMd md op := by
  intro op hop
  simp only [written, List.mem_cons, List.not_mem_nil, or_false] at hop
  rcases hop with rfl | rfl | rfl
  · exact h1
  · exact h2
  · exact h3

theorem one_letter {k : Key} (h1 : k.length = 1) (h2 : ∀ c ∈ k, c = 'a' ∨ c = 'd') : k = ['a'] ∨ k = ['d'] := by
  obtain ⟨c, rfl⟩ := List.length_eq_one_iff.mp h1
  rcases h2 c (by simp) with rfl | rfl <;> simp

example (x' : Tensor ℝ) (hx : x'.md = ⟨.float64, 0⟩) : ∃ lo hi v, lo.shape = [3, 7] ∧
    (∃ s, (packetMat1 la0 bank4 "qr" (-1)).step ((packetMat1 la0 bank4 "qr" (-1)).run (empty MatCache1.empty) (written sig lo hi)).2 .reconstruct
      = (.done, s) ∧ s.data [] = some v) ∧
    ∃ s, (packetMat1 la0 bank4 "qr" (-1)).step ((packetMat1 la0 bank4 "qr" (-1)).run (empty MatCache1.empty) (written x' lo hi)).2 .reconstruct
      = (.done, s) ∧ s.data [] = some v := by
  obtain ⟨C, hC⟩ := hasMats_exists la0_exact bank4_orth (Or.inl rfl) ind4 sig.md
  obtain ⟨v, lo, hi, -, hlo, hhi, hs, -⟩ := (matDec1_char (axis := -1) la0_exact bank4_orth (Or.inl rfl) ind4 sig hC).2
    ⟨by decide, by decide⟩ rfl (by decide)
  refine ⟨lo, hi, v, by rw [hlo.shape]; rfl, ?_⟩
  refine c30_boundary_only_leaves la0 bank4 "qr" (-1) ⟨.float64, 0⟩ (written sig lo hi) (written x' lo hi)
    (written_md rfl hlo.md hhi.md) (written_md hx hlo.md hhi.md) 1 (fun k => if k = ['a'] then lo else hi) (fun _ => sig) (fun _ => x') v ?_ rfl rfl ?_ ?_ ?_
  · simp only [rebuild, List.mapM_cons, List.mapM_nil, bind, Except.bind, pure, Except.pure, List.nil_append, if_true]
    have hs : matSyn1 la0 bank4 "qr" (-1) [lo, if ['d'] = ['a'] then lo else hi] = .ok v := hs
    rw [hs]
  · intro k h1 h2
    rcases one_letter h1 h2 with rfl | rfl
    · exact ⟨hlo.md, rfl, rfl⟩
    · exact ⟨hhi.md, rfl, rfl⟩
  · intro k h1 _
    have : k = [] := List.length_eq_zero_iff.mp (by omega)
    subst this
    exact ⟨rfl, hx, rfl, rfl⟩
  · intro k h1 h2
    exact absurd (List.length_eq_zero_iff.mp (by omega)) h1
end one

section two
theorem pm_sizes : sizes (planeAxes [-2, -1] exPM.rank) exPM.shape = [8, 7] := by
  simp [sizes, planeAxes, axesOf, resolve, exPM, axisOf, Tensor.rank, Tensor.ofFn]
theorem pm_pos : ∀ n ∈ exPM.shape, 0 < n := by simp [exPM, Tensor.ofFn]
theorem tiny2_pos : ∀ n ∈ tiny2.shape, 0 < n := by simp [tiny2, Tensor.ofFn]
theorem tiny2_short : ∃ n ∈ sizes (planeAxes [-2, -1] tiny2.rank) tiny2.shape, n < 4 :=
  ⟨3, by simp [sizes, planeAxes, axesOf, resolve, tiny2, axisOf, Tensor.rank, Tensor.ofFn], by decide⟩
theorem pm_len (L : Nat) (hL : L ≤ 2) : ∀ s, s < L → ∀ n ∈ mLens (sizes (planeAxes [-2, -1] exPM.rank) exPM.shape) s, 4 ≤ n := by
  rw [pm_sizes]
  intro s hs
  have : s = 0 ∨ s = 1 := by omega
  rcases this with rfl | rfl <;> decide

example (sep : Bool) := c31_2d_boundary_forgets la0 bank4 "qr" [-2, -1] sep b4 ⟨.float64, 0⟩ old2 old2 old2_md old2_md exPM rfl (some 2) 2 (Or.inl rfl)
example (sep : Bool) := c25_2d_boundary_order_independent la0 bank4 "qr" [-2, -1] sep b4 ⟨.float64, 0⟩ old2 [] old2_md none_md exPM rfl (some 2) 2
  (Or.inl rfl) _ _ (reads ['a'] ['d']) (reads ['h'] ['v', 'd']) ['a', 'v']
example := c25_2d_boundary_value (axes := [-2, -1]) la0_exact bank4_orth (Or.inl rfl) ind4 old2 old2_md exPM rfl (Or.inr rfl) pm_pos (some 2) 2
  (Or.inl rfl) _ (reads ['a'] ['v'])
example := c25_2d_boundary_nonsep_value (axes := [-2, -1]) la0_exact bank4_orth (Or.inl rfl) ind4 old2 old2_md exPM rfl (Or.inr rfl) pm_pos (some 2) 2
  (Or.inl rfl) _ (reads ['a'] ['v'])

/-- A node of depth two can be read. -/
theorem pm2 (sep : Bool) (before ops : List (Op (Tensor ℝ))) (hb : ∀ op ∈ before, OpMd ⟨.float64, 0⟩ op) (ho : ∀ op ∈ ops, IsRead op) :
    ∃ v, ((packetMat2 la0 bank4 "qr" [-2, -1] sep).run ((packetMat2 la0 bank4 "qr" [-2, -1] sep).run (empty MatCache2.empty) before).2
      (.transform exPM (some 2) :: ops ++ [.read ['h', 'v']])).1.getLast? = some (.value v) := by
  cases sep
  · exact c25_2d_boundary_nonsep_readable la0_exact bank4_orth (Or.inl rfl) ind4 before hb exPM rfl pm_pos (some 2) 2 (Or.inl rfl)
      exPM_good (Or.inr rfl) ops ho ['h', 'v'] (by decide) (by simp) (pm_len 2 le_rfl)
  · exact c25_2d_boundary_readable la0_exact bank4_orth (Or.inl rfl) ind4 before hb exPM rfl pm_pos (some 2) 2 (Or.inl rfl)
      exPM_good (Or.inr rfl) ops ho ['h', 'v'] (by decide) (by simp) (pm_len 2 le_rfl)

example := c25_2d_boundary_too_short (axes := [-2, -1]) la0_exact bank4_orth (Or.inl rfl) ind4 old2 old2_md tiny2 rfl tiny2_pos (Or.inr rfl)
  (some 2) 2 (Or.inl rfl) _ (reads [] []) 'a' tiny2_short
example := c25_2d_boundary_nonsep_too_short (axes := [-2, -1]) la0_exact bank4_orth (Or.inl rfl) ind4 old2 old2_md tiny2 rfl tiny2_pos (Or.inr rfl)
  (some 2) 2 (Or.inl rfl) _ (reads [] []) 'a' tiny2_short
example := c30_2d_boundary_reconstruct (axes := [-2, -1]) la0_exact bank4_orth (Or.inl rfl) ind4 old2 old2_md exPM rfl pm_pos (Or.inr rfl)
  (some 2) 1 (Or.inl rfl) _ (reads ['a'] ['d'])
example := c30_2d_boundary_nonsep_reconstruct (axes := [-2, -1]) la0_exact bank4_orth (Or.inl rfl) ind4 old2 old2_md exPM rfl pm_pos (Or.inr rfl)
  (some 2) 1 (Or.inl rfl) _ (reads ['a'] ['d'])
example (sep : Bool) := (pm2 sep old2 _ old2_md (reads ['a'] ['d'])).imp fun u h => c62_packet2_boundary la0 bank4 "qr" [-2, -1] sep b4 ⟨.float64, 0⟩
  old2 [] old2_md none_md exPM u rfl (some 2) 2 (Or.inl rfl) _ [] _ (reads ['a'] ['d']) no_reads (reads ['d'] ['d']) ['h', 'v'] h []

def written2 (x : Tensor ℝ) (f : Char → Tensor ℝ) : List (Op (Tensor ℝ)) :=
  [.transform x (some 1), .set ['a'] (f 'a'), .set ['h'] (f 'h'), .set ['v'] (f 'v'), .set ['d'] (f 'd')]

theorem written2_md {md : Meta} {x : Tensor ℝ} {f : Char → Tensor ℝ} (h1 : x.md = md) (h2 : ∀ c ∈ ['a', 'h', 'v', 'd'], (f c).md = md) :
    ∀ op ∈ written2 x f, OpMd md op := by
  intro op hop
  simp only [written2, List.mem_cons, List.not_mem_nil, or_false] at hop
  rcases hop with rfl | rfl | rfl | rfl | rfl
  · exact h1
  all_goals exact h2 _ (by simp)

theorem pm_char (sep : Bool) : ∃ (f : Char → Tensor ℝ) (z : Tensor ℝ), (∀ c ∈ ['a', 'h', 'v', 'd'], (f c).md = ⟨.float64, 0⟩) ∧
    matSyn2 la0 bank4 "qr" [-2, -1] sep (['a', 'h', 'v', 'd'].map f) = .ok z := by
  cases sep
  · obtain ⟨C, hC⟩ := hasMats2_exists la0_exact bank4_orth (Or.inl rfl) ind4 exPM.md
    obtain ⟨f, z, -, hf, hs, -⟩ := (matDec2_nonsep_char (axes := [-2, -1]) la0_exact bank4_orth (Or.inl rfl) ind4 hC (t := exPM)
      ⟨rfl, rfl, pm_pos⟩).2 exPM_good (by
        have : sizes (axesOf (.seq [-2, -1]) exPM.rank 2) exPM.shape = [8, 7] := pm_sizes
        rw [this]; decide)
    exact ⟨f, z, fun c hc => (hf c hc).md, hs⟩
  · obtain ⟨C, hC⟩ := hasMats_exists la0_exact bank4_orth (Or.inl rfl) ind4 exPM.md
    obtain ⟨f, z, -, hf, hs, -⟩ := (matDec2_sep_char (axes := [-2, -1]) la0_exact bank4_orth (Or.inl rfl) ind4 hC (t := exPM)
      ⟨rfl, rfl, pm_pos⟩).2 exPM_good (by
        have : sizes (axesOf (.seq [-2, -1]) exPM.rank 2) exPM.shape = [8, 7] := pm_sizes
        rw [this]; decide)
    exact ⟨f, z, fun c hc => (hf c hc).md, hs⟩

example (sep : Bool) (x' : Tensor ℝ) (hx : x'.md = ⟨.float64, 0⟩) : ∃ f v,
    (∃ s, (packetMat2 la0 bank4 "qr" [-2, -1] sep).step ((packetMat2 la0 bank4 "qr" [-2, -1] sep).run (empty MatCache2.empty) (written2 exPM f)).2 .reconstruct
      = (.done, s) ∧ s.data [] = some v) ∧
    ∃ s, (packetMat2 la0 bank4 "qr" [-2, -1] sep).step ((packetMat2 la0 bank4 "qr" [-2, -1] sep).run (empty MatCache2.empty) (written2 x' f)).2 .reconstruct
      = (.done, s) ∧ s.data [] = some v := by
  obtain ⟨f, v, hf, hs⟩ := pm_char sep
  refine ⟨f, v, ?_⟩
  refine c30_2d_boundary_only_leaves la0 bank4 "qr" [-2, -1] sep ⟨.float64, 0⟩ (written2 exPM f) (written2 x' f)
    (written2_md rfl hf) (written2_md hx hf) 1 (fun k => f (k.getD 0 'a')) (fun _ => exPM) (fun _ => x') v ?_ rfl rfl ?_ ?_ ?_
  · simp only [rebuild, List.mapM_cons, List.mapM_nil, bind, Except.bind, pure, Except.pure, List.nil_append, if_true]
    have hs : matSyn2 la0 bank4 "qr" [-2, -1] sep [f 'a', f 'h', f 'v', f 'd'] = .ok v := hs
    simp [hs]
  · intro k h1 h2
    obtain ⟨c, rfl⟩ := List.length_eq_one_iff.mp h1
    rcases h2 c (by simp) with rfl | rfl | rfl | rfl
    all_goals exact ⟨hf _ (by simp), rfl, rfl⟩
  · intro k h1 _
    have : k = [] := List.length_eq_zero_iff.mp (by omega)
    subst this
    exact ⟨rfl, hx, rfl, rfl⟩
  · intro k h1 h2
    exact absurd (List.length_eq_zero_iff.mp (by omega)) h1

/-! ### C44 -/

/-- A batch of images with two taps, an unusual order of the axes and odd sizes. -/
noncomputable def img2 : Tensor ℝ := ofFn ⟨.float64, 0⟩ [6, 2, 4] fun i => (i.getD 0 0 + 2 * i.getD 2 0 : ℝ)
theorem img2_good : GoodAxes (.seq [2, -3]) img2.rank 2 := ⟨by decide, rfl, ⟨by
  intro a ha
  have : a = 2 ∨ a = -3 := by simpa [resolve] using ha
  rcases this with rfl | rfl <;> exact ⟨by decide, by decide⟩, by decide⟩⟩
example := c44_two_taps la0_exact bank35_orth (x := img2) (axes := .seq [2, -3]) (m := .periodic) (mode := some "periodic") (orth := "gramschmidt")
  (level := some 2) img2_good (Or.inr rfl) (by simp [img2, Tensor.ofFn]) (Or.inl rfl) (Or.inr rfl) (by rintro _ ⟨⟩; norm_num) rfl (by decide)
example := c44_differ la0_exact
end two

end Verif.Witness
