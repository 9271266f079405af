import Verif.Lemmas.Energy
import Verif.Spec.PacketMat
import Verif.Spec.Packet2
namespace Verif
open Tensor Spec
variable {R : Type}

/-- The coefficients of all levels have the energy of the line. -/
theorem levels_energy [CommRing R] {m : Mode} {A : Nat → Nat → Nat → R} : ∀ (k n : Nat) (v : Nat → R),
    (∀ s, s < k → (m = .zero ∨ mLen n s % 2 = 0) ∧ OrthonormalCols (evenLen (mLen n s)) (A (evenLen (mLen n s)))) →
    (∑ i ∈ Finset.range n, v i ^ 2) = (∑ i ∈ Finset.range (mLen n k), mA m A n v k i ^ 2) +
      ∑ s ∈ Finset.range k, ∑ i ∈ Finset.range (mLen n (s + 1)), mD m A n v s i ^ 2
  | 0, n, v, _ => by simp [mLen, mA]
  | k + 1, n, v, h => by
    obtain ⟨h1, h2⟩ := h 0 (by omega)
    have ih := levels_energy (m := m) (A := A) k (evenLen n / 2) (stepLo m A n v) (fun s hs => h (s + 1) (by omega))
    rw [← step_energy (n := n) h1 h2 v, ih, Finset.sum_range_succ']
    show _ + _ + _ = _ + (_ + _)
    rw [add_assoc]
    rfl

/-! ### Packets -/

theorem sum_pyProduct [AddCommMonoid R] (al : List Char) : ∀ (l : Nat) (g : Key → R),
    ((pyProduct al (l + 1)).map g).sum = (al.map fun c => ((pyProduct al l).map fun k => g (c :: k)).sum).sum
  | 0, g => by
    show (([[]].flatMap fun p => al.map fun c => p ++ [c]).map g).sum = _
    simp [pyProduct, Function.comp_def]
  | l + 1, g => by
    have hf : ∀ (P : List Key) (g : Key → R), ((P.flatMap fun p => al.map fun c => p ++ [c]).map g).sum
        = (P.map fun p => (al.map fun c => g (p ++ [c])).sum).sum := by
      intro P g
      induction P with
      | nil => simp
      | cons p P ih => simp only [List.flatMap_cons, List.map_append, List.sum_append, List.map_cons, List.sum_cons, ih,
          List.map_map, Function.comp_def]
    rw [show pyProduct al (l + 1 + 1) = (pyProduct al (l + 1)).flatMap fun p => al.map fun c => p ++ [c] from rfl, hf,
      sum_pyProduct al l]
    congr 1
    refine List.map_congr_left fun c _ => ?_
    rw [show pyProduct al (l + 1) = (pyProduct al l).flatMap fun p => al.map fun c => p ++ [c] from rfl, hf]
    rfl

/-- The packets of one level have the energy of the line. -/
theorem packetLine_energy [CommRing R] {A : Nat → Nat → Nat → R} : ∀ (l n : Nat) (v : Nat → R),
    (∀ s, s < l → OrthonormalCols (evenLen (mLen n s)) (A (evenLen (mLen n s)))) →
    ((pyProduct ['a', 'd'] l).map fun key => ∑ i ∈ Finset.range (mLen n l), matPacketLine A n v key i ^ 2).sum
      = ∑ i ∈ Finset.range n, v i ^ 2
  | 0, n, v, _ => by simp [pyProduct, mLen, matPacketLine]
  | l + 1, n, v, h => by
    rw [sum_pyProduct]
    have h0 := h 0 (by omega)
    have ih := fun v => packetLine_energy (A := A) l (evenLen n / 2) v (fun s hs => h (s + 1) (by omega))
    rw [← step_energy (m := .zero) (n := n) (Or.inl rfl) h0 v, ← ih (stepLo .zero A n v), ← ih (stepHi .zero A n v)]
    simp only [List.map_cons, List.map_nil, List.sum_cons, List.sum_nil, add_zero]
    rfl

/-- The packets of one level have the energy of the plane. -/
theorem packetPlane_energy [CommRing R] {step : BandStep R} {al : List Char} {band : Char → List Bool}
    (n : Nat) (hp : (al.map band).Perm (allBands n)) : ∀ (l : Nat) (ns : List Nat) (X : List Nat → R), ns.length = n →
    (∀ s, s < l → BandIso step (mLens ns s)) →
    ((pyProduct al l).map fun key => boxSum (mLens ns l) fun i => packetPlane step halfLens band ns X key i ^ 2).sum
      = boxSum ns fun i => X i ^ 2
  | 0, ns, X, _, _ => by simp [pyProduct, mLens_zero, packetPlane]
  | l + 1, ns, X, hn, h => by
    rw [sum_pyProduct]
    have h0 := h 0 (by omega)
    rw [mLens_zero] at h0
    have ih := fun X => packetPlane_energy n hp l (halfLens ns) X (by rw [halfLens_length, hn])
      (fun s hs => by rw [← mLens_succ]; exact h (s + 1) (by omega))
    rw [← h0 X, hn, ← (hp.map _).sum_eq, List.map_map]
    congr 1
    refine List.map_congr_left fun c _ => ?_
    show _ = boxSum (halfLens ns) fun k => step (band c) ns X k ^ 2
    rw [← ih, mLens_succ]
    rfl

theorem packetBand_perm (sep : Bool) : (['a', 'h', 'v', 'd'].map (packetBand sep)).Perm (allBands 2) := by
  cases sep <;> decide +kernel

/-! ### The lengths at the levels -/

theorem evenLen_half_le_self (n : Nat) : evenLen (evenLen n / 2) ≤ evenLen n := by
  unfold evenLen; omega

theorem evenLen_mLen_le (n : Nat) : ∀ s, evenLen (mLen n s) ≤ evenLen n := by
  intro s
  induction s generalizing n with
  | zero => exact le_refl _
  | succ s ih => exact (ih _).trans (evenLen_half_le_self n)

theorem mLevelsN_ge (F : Nat) : ∀ (L : Nat) (ns : List Nat) (s : Nat), s < mLevelsN F L ns → ∀ n ∈ mLens ns s, F ≤ n
  | 0, ns, s, h => by simp [mLevelsN] at h
  | L + 1, ns, s, h => by
    unfold mLevelsN at h
    split_ifs at h with hF
    · omega
    · push Not at hF
      intro n hn
      cases s with
      | zero => rw [mLens_zero] at hn; exact hF n hn
      | succ s =>
        rw [mLens_succ] at hn
        exact mLevelsN_ge F L (halfLens ns) s (by omega) n hn

theorem mLens_even_bound {ns : List Nat} {s n : Nat} (h : n ∈ mLens ns s) : ∃ n0 ∈ ns, evenLen n ≤ evenLen n0 := by
  unfold mLens at h
  obtain ⟨n0, h0, rfl⟩ := List.mem_map.mp h
  exact ⟨n0, h0, evenLen_mLen_le n0 s⟩

end Verif
