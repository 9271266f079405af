/-
C84: a level of a packet tree in boundary mode preserves inner products and distances.
-/
import Verif.Props.MatInner

namespace Verif.Props
open Tensor Spec Backend

/-- Polarisation for results that are described by a predicate and indexed by keys. -/
theorem polarise_keys {κ : Type} {keys : List κ} {G : Tensor ℝ → (κ → Tensor ℝ) → Prop}
    (hG : ∀ k x y z c d e, Lin k x y z → G x c → G y d → G z e → ∀ key ∈ keys, Lin k (c key) (d key) (e key))
    {x y : Tensor ℝ} (h1 : y.md = x.md) (h2 : y.shape = x.shape)
    (hen : ∀ z : Tensor ℝ, z.md = x.md → z.shape = x.shape → ∃ v, G z v ∧ (keys.map fun key => energy (v key)).sum = energy z) :
    ∃ c d, G x c ∧ G y d ∧ (keys.map fun key => innerProd (c key) (d key)).sum = innerProd x y ∧
      (keys.map fun key => dist2 (c key) (d key)).sum = dist2 x y := by
  obtain ⟨c, gc, hc⟩ := hen x rfl rfl
  obtain ⟨d, gd, hd⟩ := hen y h1 h2
  have key : ∀ k : ℝ, ∃ e : κ → Tensor ℝ, (∀ key ∈ keys, Lin k (c key) (d key) (e key)) ∧
      (keys.map fun key => energy (e key)).sum = energy (combT k x y) := by
    intro k
    obtain ⟨e, ge, he⟩ := hen (combT k x y) rfl rfl
    exact ⟨e, hG k x y _ c d e (combT_lin k h1 h2) gc gd ge, he⟩
  refine ⟨c, d, gc, gd, ?_, ?_⟩
  · obtain ⟨e, p, he⟩ := key 1
    have h : (keys.map fun key => energy (e key)).sum = (keys.map fun key => energy (c key)).sum +
        2 * (keys.map fun key => innerProd (c key) (d key)).sum + (keys.map fun key => energy (d key)).sum := by
      rw [List.map_congr_left fun key hk => lin_energy (p key hk), List.sum_map_add, List.sum_map_add]
      simp only [one_pow, one_mul, mul_one, List.sum_map_mul_left]
    rw [he, hc, hd, lin_energy (combT_lin 1 h1 h2)] at h
    linarith
  · obtain ⟨e, p, he⟩ := key (-1)
    rw [List.map_congr_left fun key hk => lin_dist (p key hk), he, lin_dist (combT_lin (-1) h1 h2)]

theorem forall₃_last {α : Type} {P : α → α → α → Prop} {xs ys zs : List α} (h : Forall₃ P xs ys zs) {a b c : α}
    (ha : xs.getLast? = some a) (hb : ys.getLast? = some b) (hc : zs.getLast? = some c) : P a b c := by
  induction h with
  | nil => simp at ha
  | cons h ht ih =>
    cases ht with
    | nil => simp at ha hb hc; subst ha hb hc; exact h
    | cons h' ht => exact ih (by simpa using ha) (by simpa using hb) (by simpa using hc)

theorem reads3 {T : Type} {P : T → T → T → Prop} : ∀ {ops : List (Op T)}, (∀ op ∈ ops, IsRead op) → Forall₃ (Op3 P) ops ops ops
  | [], _ => .nil
  | op :: ops, h => by
    refine .cons ?_ (reads3 fun o ho => h o (List.mem_cons_of_mem _ ho))
    have := h op (List.mem_cons_self ..)
    cases op with
    | read k => exact .read k
    | init k => exact .init k
    | _ => exact absurd this (by simp [IsRead])

/-- The history of one transform, some reads, and the read that counts. -/
theorem hist3 {k : ℝ} {x y z : Tensor ℝ} (h : Lin k x y z) (ml : Option Int) {ops : List (Op (Tensor ℝ))}
    (hr : ∀ op ∈ ops, IsRead op) (key : Key) :
    Forall₃ (Op3 (Lin k)) (.transform x ml :: ops ++ [.read key]) (.transform y ml :: ops ++ [.read key])
      (.transform z ml :: ops ++ [.read key]) := by
  refine .cons (.transform ml h) (reads3 fun op hop => ?_)
  rcases List.mem_append.mp hop with h | h
  · exact hr op h
  · rw [List.mem_singleton.mp h]; trivial

section
variable {la : LinAlg ℝ} {w : Wavelet ℝ} {F : Nat} {orth : String}

/-- **C84, packets.** All nodes of a level of a new `WaveletPacket` object with `mode="boundary"`, taken together (in any order,
after any reads), preserve inner products and distances of any two signals of the same shape. -/
theorem c84_packets {axis : Int} (hla : ExactLinAlg la) (hw : OrthBank w F)
    (ho : orth = "qr" ∨ orth = "gramschmidt")
    (hind : ∀ k, k % 2 = 0 → F ≤ k → BoundaryIndep w F k) (x y : Tensor ℝ) (h1 : y.md = x.md) (h2 : y.shape = x.shape)
    (ml : Option Int) (L : Int) (hL : PacketLevel w axis x ml L) (hax : ValidAxis x.rank axis)
    (hdt : x.md.dtype = .float32 ∨ x.md.dtype = .float64)
    (ops : List (Op (Tensor ℝ))) (hr : ∀ op ∈ ops, IsRead op) (l : Nat) (hl : (l : Int) ≤ L)
    (hlen : ∀ s, s < l → F ≤ evenLen (mLen (x.shape.getD (axisOf x.rank axis) 0) s))
    (keys : List Key) (hk : LevelKeys ['a', 'd'] l keys) :
    ∃ c d : Key → Tensor ℝ,
      (∀ key ∈ keys, ((packetMat1 la w orth axis).run (empty MatCache1.empty)
        (.transform x ml :: ops ++ [.read key])).1.getLast? = some (.value (c key))) ∧
      (∀ key ∈ keys, ((packetMat1 la w orth axis).run (empty MatCache1.empty)
        (.transform y ml :: ops ++ [.read key])).1.getLast? = some (.value (d key))) ∧
      (keys.map fun key => innerProd (c key) (d key)).sum = innerProd x y ∧
      (keys.map fun key => dist2 (c key) (d key)).sum = dist2 x y := by
  refine polarise_keys (G := fun z v => ∀ key ∈ keys, ((packetMat1 la w orth axis).run (empty MatCache1.empty)
        (.transform z ml :: ops ++ [.read key])).1.getLast? = some (.value (v key))) ?_ h1 h2 ?_
  · intro k x y z c d e h gx gy gz key hkey
    have := forall₃_last (c54_packet_boundary la w orth axis _ _ _ (hist3 h ml hr key)) (gx key hkey) (gy key hkey) (gz key hkey)
    cases this with | value h => exact h
  · intro z z1 z2
    have hrk : z.rank = x.rank := by unfold Tensor.rank; rw [z2]
    have hL' : PacketLevel w axis z ml L := by
      unfold PacketLevel at hL ⊢
      simpa only [hrk, z2] using hL
    exact c55_packets hla hw ho hind [] (md := z.md) (by simp) z rfl ml L hL' (by rw [hrk]; exact hax) (by rw [z1]; exact hdt)
      ops hr l hl (by rw [hrk, z2]; exact hlen) keys hk

/-- **C84, packets of images**, `separable=True`. -/
theorem c84_packets2 {axes : List Int} (hla : ExactLinAlg la) (hw : OrthBank w F)
    (ho : orth = "qr" ∨ orth = "gramschmidt")
    (hind : ∀ k, k % 2 = 0 → F ≤ k → BoundaryIndep w F k) (x y : Tensor ℝ) (h1 : y.md = x.md) (h2 : y.shape = x.shape)
    (hpos : ∀ n ∈ x.shape, 0 < n)
    (ml : Option Int) (L : Int) (hL : PacketLevel2 w axes x ml L) (hax : GoodAxes (.seq axes) x.rank 2)
    (hdt : x.md.dtype = .float32 ∨ x.md.dtype = .float64)
    (ops : List (Op (Tensor ℝ))) (hr : ∀ op ∈ ops, IsRead op) (l : Nat) (hl : (l : Int) ≤ L)
    (hlen : ∀ s, s < l → ∀ n ∈ mLens (sizes (planeAxes axes x.rank) x.shape) s, F ≤ n)
    (keys : List Key) (hk : LevelKeys ['a', 'h', 'v', 'd'] l keys) :
    ∃ c d : Key → Tensor ℝ,
      (∀ key ∈ keys, ((packetMat2 la w orth axes true).run (empty MatCache2.empty)
        (.transform x ml :: ops ++ [.read key])).1.getLast? = some (.value (c key))) ∧
      (∀ key ∈ keys, ((packetMat2 la w orth axes true).run (empty MatCache2.empty)
        (.transform y ml :: ops ++ [.read key])).1.getLast? = some (.value (d key))) ∧
      (keys.map fun key => innerProd (c key) (d key)).sum = innerProd x y ∧
      (keys.map fun key => dist2 (c key) (d key)).sum = dist2 x y := by
  refine polarise_keys (G := fun z v => ∀ key ∈ keys, ((packetMat2 la w orth axes true).run (empty MatCache2.empty)
        (.transform z ml :: ops ++ [.read key])).1.getLast? = some (.value (v key))) ?_ h1 h2 ?_
  · intro k x y z c d e h gx gy gz key hkey
    have := forall₃_last (c54_packet2_boundary la w orth axes true _ _ _ (hist3 h ml hr key)) (gx key hkey) (gy key hkey)
      (gz key hkey)
    cases this with | value h => exact h
  · intro z z1 z2
    have hrk : z.rank = x.rank := by unfold Tensor.rank; rw [z2]
    have hL' : PacketLevel2 w axes z ml L := by
      unfold PacketLevel2 at hL ⊢
      simpa only [hrk, z2] using hL
    exact c55_packets2 hla hw ho hind [] (md := z.md) (by simp) z rfl (by rw [z2]; exact hpos) ml L hL' (by rw [hrk]; exact hax)
      (by rw [z1]; exact hdt) ops hr l hl (by rw [hrk, z2]; exact hlen) keys hk

/-- **C84, packets of images**, `separable=False`. -/
theorem c84_packets2_nonsep {axes : List Int} (hla : ExactLinAlg la) (hw : OrthBank w F)
    (ho : orth = "qr" ∨ orth = "gramschmidt")
    (hind : ∀ k, k % 2 = 0 → F ≤ k → BoundaryIndep w F k) (x y : Tensor ℝ) (h1 : y.md = x.md) (h2 : y.shape = x.shape)
    (hpos : ∀ n ∈ x.shape, 0 < n)
    (ml : Option Int) (L : Int) (hL : PacketLevel2 w axes x ml L) (hax : GoodAxes (.seq axes) x.rank 2)
    (hdt : x.md.dtype = .float32 ∨ x.md.dtype = .float64)
    (ops : List (Op (Tensor ℝ))) (hr : ∀ op ∈ ops, IsRead op) (l : Nat) (hl : (l : Int) ≤ L)
    (hlen : ∀ s, s < l → ∀ n ∈ mLens (sizes (planeAxes axes x.rank) x.shape) s, F ≤ n)
    (keys : List Key) (hk : LevelKeys ['a', 'h', 'v', 'd'] l keys) :
    ∃ c d : Key → Tensor ℝ,
      (∀ key ∈ keys, ((packetMat2 la w orth axes false).run (empty MatCache2.empty)
        (.transform x ml :: ops ++ [.read key])).1.getLast? = some (.value (c key))) ∧
      (∀ key ∈ keys, ((packetMat2 la w orth axes false).run (empty MatCache2.empty)
        (.transform y ml :: ops ++ [.read key])).1.getLast? = some (.value (d key))) ∧
      (keys.map fun key => innerProd (c key) (d key)).sum = innerProd x y ∧
      (keys.map fun key => dist2 (c key) (d key)).sum = dist2 x y := by
  refine polarise_keys (G := fun z v => ∀ key ∈ keys, ((packetMat2 la w orth axes false).run (empty MatCache2.empty)
        (.transform z ml :: ops ++ [.read key])).1.getLast? = some (.value (v key))) ?_ h1 h2 ?_
  · intro k x y z c d e h gx gy gz key hkey
    have := forall₃_last (c54_packet2_boundary la w orth axes false _ _ _ (hist3 h ml hr key)) (gx key hkey) (gy key hkey)
      (gz key hkey)
    cases this with | value h => exact h
  · intro z z1 z2
    have hrk : z.rank = x.rank := by unfold Tensor.rank; rw [z2]
    have hL' : PacketLevel2 w axes z ml L := by
      unfold PacketLevel2 at hL ⊢
      simpa only [hrk, z2] using hL
    exact c55_packets2_nonsep hla hw ho hind [] (md := z.md) (by simp) z rfl (by rw [z2]; exact hpos) ml L hL'
      (by rw [hrk]; exact hax) (by rw [z1]; exact hdt) ops hr l hl (by rw [hrk, z2]; exact hlen) keys hk

end

/-! ### The hypotheses can be met -/

/-- The packets of level 2 of arbitrary pairs of three signals of length 13. -/
example (f g : List Nat → ℝ) : ∃ la, ExactLinAlg la ∧ ∃ keys, getLevel 2 "freq" = .ok keys ∧ ∃ c d : Key → Tensor ℝ,
    (∀ key ∈ keys, ((packetMat1 la bank4 "qr" (-1)).run (empty MatCache1.empty)
      (.transform (Tensor.ofFn ⟨.float64, 0⟩ [3, 13] f) (some 2) :: [.read ['d']] ++ [.read key])).1.getLast?
        = some (.value (c key))) ∧
    (∀ key ∈ keys, ((packetMat1 la bank4 "qr" (-1)).run (empty MatCache1.empty)
      (.transform (Tensor.ofFn ⟨.float64, 0⟩ [3, 13] g) (some 2) :: [.read ['d']] ++ [.read key])).1.getLast?
        = some (.value (d key))) ∧
    (keys.map fun key => innerProd (c key) (d key)).sum
      = innerProd (Tensor.ofFn ⟨.float64, 0⟩ [3, 13] f) (Tensor.ofFn ⟨.float64, 0⟩ [3, 13] g) := by
  obtain ⟨la, hla⟩ := exists_exactLinAlg
  obtain ⟨keys, e, hk⟩ := (c55_level_keys 2).1 "freq" (Or.inr rfl)
  obtain ⟨c, d, h1, h2, h3, -⟩ := c84_packets (axis := -1) hla bank4_orth (Or.inl rfl)
    (fun k a b => bank4_indep a b) (Tensor.ofFn ⟨.float64, 0⟩ [3, 13] f) (Tensor.ofFn ⟨.float64, 0⟩ [3, 13] g) rfl rfl
    (some 2) 2 (Or.inl rfl) ⟨(by decide : -((2 : Nat) : Int) ≤ -1), (by decide : (-1 : Int) < (2 : Nat))⟩ (Or.inr rfl)
    [.read ['d']] (by intro op hop; simp only [List.mem_singleton] at hop; subst hop; trivial) 2 le_rfl (by
      intro s hs
      have : s = 0 ∨ s = 1 := by omega
      show 4 ≤ evenLen (mLen 13 s)
      rcases this with rfl | rfl <;> decide) keys hk
  exact ⟨la, hla, keys, e, c, d, h1, h2, h3⟩

/-- The packets of level 2 of two images of sizes 8 and 7, separable and not, compared with arbitrary others. -/
example (g : List Nat → ℝ) : ∃ la, ExactLinAlg la ∧ ∀ sep, ∃ keys, getLevel2 2 "natural" = .ok (.list keys) ∧ ∃ c d : Key → Tensor ℝ,
    (∀ key ∈ keys, ((packetMat2 la bank4 "qr" [-2, -1] sep).run (empty MatCache2.empty)
      (.transform exPM (some 2) :: [.read ['d']] ++ [.read key])).1.getLast? = some (.value (c key))) ∧
    (∀ key ∈ keys, ((packetMat2 la bank4 "qr" [-2, -1] sep).run (empty MatCache2.empty)
      (.transform (Tensor.ofFn exPM.md exPM.shape g) (some 2) :: [.read ['d']] ++ [.read key])).1.getLast? = some (.value (d key))) ∧
    (keys.map fun key => innerProd (c key) (d key)).sum = innerProd exPM (Tensor.ofFn exPM.md exPM.shape g) ∧
    (keys.map fun key => dist2 (c key) (d key)).sum = dist2 exPM (Tensor.ofFn exPM.md exPM.shape g) := by
  obtain ⟨la, hla⟩ := exists_exactLinAlg
  obtain ⟨keys, e, hk⟩ := (c55_level_keys 2).2.1
  have hlen : ∀ s, s < 2 → ∀ n ∈ mLens (sizes (planeAxes [-2, -1] exPM.rank) exPM.shape) s, 4 ≤ n := by
    have hs : sizes (planeAxes [-2, -1] exPM.rank) exPM.shape = [8, 7] := by
      simp [sizes, planeAxes, axesOf, resolve, exPM, axisOf, Tensor.rank, Tensor.ofFn]
    rw [hs]
    intro s hs
    have : s = 0 ∨ s = 1 := by omega
    rcases this with rfl | rfl <;> decide
  have hr : ∀ op ∈ [Backend.Op.read (T := Tensor ℝ) ['d']], IsRead op := by
    intro op hop; simp only [List.mem_singleton] at hop; subst hop; trivial
  refine ⟨la, hla, fun sep => ⟨keys, e, ?_⟩⟩
  cases sep with
  | true =>
    exact c84_packets2 (axes := [-2, -1]) hla bank4_orth (Or.inl rfl)
      (fun k a b => bank4_indep a b) exPM (Tensor.ofFn exPM.md exPM.shape g) rfl rfl (by simp [exPM, Tensor.ofFn]) (some 2) 2 (Or.inl rfl)
      exPM_good (Or.inr rfl) [.read ['d']] hr 2 le_rfl hlen keys hk
  | false =>
    exact c84_packets2_nonsep (axes := [-2, -1]) hla bank4_orth (Or.inl rfl)
      (fun k a b => bank4_indep a b) exPM (Tensor.ofFn exPM.md exPM.shape g) rfl rfl (by simp [exPM, Tensor.ofFn]) (some 2) 2 (Or.inl rfl)
      exPM_good (Or.inr rfl) [.read ['d']] hr 2 le_rfl hlen keys hk

end Verif.Props
