import Verif.Spec.MatSyn
import Verif.Lemmas.Mat1Top
import Verif.Lemmas.Rec1

/-! The matrix synthesis on arbitrary coefficients: one axis. -/

namespace Verif
open Tensor Spec
variable {R : Type}

/-! ### Sizes -/

/-- The lengths of a build for the details `rs` (finest first) and the target `n`. -/
def HalfChain : Nat → List Nat → Prop
  | _, [] => True
  | n, d :: rs => evenLen n = 2 * d ∧ HalfChain d rs

def GeChain (F : Nat) : Nat → List Nat → Prop
  | _, [] => True
  | n, d :: rs => F ≤ n ∧ GeChain F d rs

theorem halfChain_snoc {n m d : Nat} : ∀ {rs : List Nat}, HalfChain n (rs ++ [m] ++ [d]) ↔
    HalfChain n (rs ++ [m]) ∧ evenLen m = 2 * d
  | [] => by simp [HalfChain]
  | r :: rs => by
    have := halfChain_snoc (n := r) (m := m) (d := d) (rs := rs)
    simp only [List.cons_append, HalfChain, this, and_assoc]

theorem geChain_snoc {F n m d : Nat} : ∀ {rs : List Nat}, GeChain F n (rs ++ [m] ++ [d]) ↔
    GeChain F n (rs ++ [m]) ∧ F ≤ m
  | [] => by simp [GeChain]
  | r :: rs => by
    have := geChain_snoc (F := F) (n := r) (m := m) (d := d) (rs := rs)
    simp only [List.cons_append, GeChain, this, and_assoc]

theorem builtMats_chain {α : Type} {C : Nat → α} {F : Nat} : ∀ {n : Nat} {rs : List Nat}, HalfChain n rs → GeChain F n rs →
    builtMats C F rs.length n = rs.map fun d => C (2 * d)
  | _, [], _, _ => rfl
  | n, d :: rs, h, g => by
    rw [List.length_cons, builtMats, if_neg (by have := g.1; omega), h.1, show 2 * d / 2 = d by omega,
      builtMats_chain h.2 g.2]
    rfl

theorem geChain_of_levels {F : Nat} : ∀ {n : Nat} {rs : List Nat}, HalfChain n rs → mLevels F rs.length n = rs.length →
    GeChain F n rs
  | _, [], _, _ => trivial
  | n, d :: rs, h, g => by
    rw [List.length_cons, mLevels] at g
    split_ifs at g with hn
    · rw [h.1, show 2 * d / 2 = d by omega] at g
      exact ⟨by omega, geChain_of_levels h.2 (by omega)⟩

theorem halfChain_of_consistent : ∀ {ds : List Nat} {K : Nat}, Consistent 2 K ds →
    HalfChain (2 * ds.getLast?.getD 0) ds.reverse
  | [], _, _ => trivial
  | [d], _, _ => by simp [HalfChain, evenLen]
  | d :: n :: rest, K, h => by
    obtain ⟨rfl, hK, hn, hc⟩ := h
    have ih := halfChain_of_consistent hc
    rw [List.getLast?_cons_cons, List.reverse_cons, List.reverse_cons, halfChain_snoc, ← List.reverse_cons]
    exact ⟨ih, by unfold evenLen; omega⟩

theorem geChain_iff {F : Nat} : ∀ {ds : List Nat},
    GeChain F (2 * ds.getLast?.getD 0) ds.reverse ↔ LongEnough F ds
  | [] => by simp [GeChain, LongEnough]
  | [d] => by simp [GeChain, LongEnough]
  | d :: n :: rest => by
    rw [List.getLast?_cons_cons, List.reverse_cons, List.reverse_cons, geChain_snoc, ← List.reverse_cons, geChain_iff,
      LongEnough]
    exact and_comm

/-! ### The loop -/

section
variable [NonUnitalNonAssocSemiring R] {S : Nat → Nat → Nat → R} {md : Meta} {B : Nat}

/-- A synthesis matrix for details of length `K`. -/
structure IsSyn (S : Nat → Nat → Nat → R) (md : Meta) (M : Coo R) (K : Nat) : Prop where
  md : M.md = md
  rows : M.rows = 2 * K
  cols : M.cols = 2 * K
  den : ∀ i j, i < 2 * K → j < 2 * K → M.den i j = S (2 * K) i j

theorem synMul_ok {M : Coo R} {K : Nat} (hM : IsSyn S md M K) {lo hi : Tensor R} {X Y : Nat → Nat → R}
    (hlo : Cols lo md K B X) (hhi : Cols hi md K B Y) :
    ∃ c v, cat2 lo hi 0 = .ok c ∧ M.mmDense c = .ok v ∧ Cols v md (2 * K) B (fun b => matSynth S K (X b) (Y b)) := by
  obtain ⟨c, e1, hc⟩ := hlo.cat hhi
  obtain ⟨v, e2, k1, k2, k3⟩ := Coo.mmDense_ok (A := M) (X := c) (k := B)
    (by rw [hM.cols, hc.shape]; congr 1; omega) (by rw [hM.md, hc.md])
  refine ⟨c, v, e1, e2, k1.trans hc.md, by rw [k2, hM.rows], ?_⟩
  intro k b hk hb
  rw [k3 k b (by rw [hM.rows]; exact hk) hb, hM.cols, two_mul, Finset.sum_range_add]
  unfold matSynth
  congr 1
  · refine Finset.sum_congr rfl fun i hi => ?_
    rw [Finset.mem_range] at hi
    rw [hM.den k i hk (by omega), hc.get i b (by omega) hb, if_pos hi]
  · refine Finset.sum_congr rfl fun i hi => ?_
    rw [Finset.mem_range] at hi
    rw [hM.den k (K + i) hk (by omega), hc.get (K + i) b (by omega) hb, if_neg (by omega), Nat.add_sub_cancel_left]

theorem matRecLoop_gen : ∀ (his : List (Tensor R)) (ps : List (Nat × (Nat → Nat → R))) (ms : List (Coo R)) (lo : Tensor R)
    (K : Nat) (X : Nat → Nat → R), Cols lo md K B X →
    List.Forall₂ (fun d p => Cols d md p.1 B p.2) his ps →
    List.Forall₂ (fun M p => IsSyn S md M p.1) ms ps →
    Consistent 2 K (ps.map (·.1)) →
    ∃ z, matRecLoop ms lo his = .ok z ∧ Cols z md (idwtLen 2 K (ps.map (·.1))) B
      (fun b => matIdwt S (X b) (ps.map fun p => (p.1, p.2 b)))
  | [], [], _, lo, K, X, hlo, _, _, _ => ⟨lo, by unfold matRecLoop; rfl, hlo⟩
  | hi :: rest, p :: ps, M :: ms, lo, K, X, hlo, .cons hhi hrest, .cons hM hms, hc => by
    obtain ⟨d, Y⟩ := p
    cases hrest with
    | nil =>
      obtain ⟨hd, hK⟩ : d = K ∧ 1 ≤ K := hc
      subst hd
      obtain ⟨c, v, e1, e2, hv⟩ := synMul_ok hM hlo hhi
      refine ⟨v, ?_, hv⟩
      rw [matRecLoop, if_neg (by rw [hlo.shape, hhi.shape]; simp)]
      simp only [bind, Except.bind, e1, e2, List.head?_nil, recCrop]
      rw [matRecLoop]
    | @cons hi' p' rest ps hhi' hrest =>
      obtain ⟨n, Y'⟩ := p'
      obtain ⟨hd, hK, hn, hc'⟩ : d = K ∧ 1 ≤ K ∧ (n + 2 = 2 * K + 2 ∨ n + 2 = 2 * K + 1) ∧
        Consistent 2 n (n :: ps.map (fun p : Nat × (Nat → Nat → R) => p.1)) := hc
      subst hd
      obtain ⟨c, v, e1, e2, hv⟩ := synMul_ok hM hlo hhi
      have he : evenLen n = 2 * d := by unfold evenLen; omega
      obtain ⟨u, e3, hu⟩ := recCrop_ok (n := n) (l := v) (fin := some hi') (Or.inl ⟨hi', rfl, by rw [hhi'.shape]; rfl⟩)
        (by rw [he]; exact hv)
      obtain ⟨z, ez, hz⟩ := matRecLoop_gen (hi' :: rest) ((n, Y') :: ps) ms u n _ hu (.cons hhi' hrest) hms hc'
      refine ⟨z, ?_, hz⟩
      rw [matRecLoop, if_neg (by rw [hlo.shape, hhi.shape]; simp)]
      simp only [bind, Except.bind, e1, e2, List.head?_cons, e3]
      exact ez

/-- The loop succeeds only if the sizes fit. -/
theorem matRecLoop_conv : ∀ (his : List (Tensor R)) (ps : List (Nat × (Nat → Nat → R))) (ms : List (Coo R)) (lo z : Tensor R)
    (K : Nat) (X : Nat → Nat → R), Cols lo md K B X →
    List.Forall₂ (fun d p => Cols d md p.1 B p.2) his ps →
    (∀ M ∈ ms, M.rows = M.cols ∧ 2 ≤ M.cols) → matRecLoop ms lo his = .ok z →
    Consistent 2 K (ps.map (·.1)) ∧ his.length ≤ ms.length
  | [], [], ms, lo, z, K, X, hlo, _, _, _ => ⟨trivial, by simp⟩
  | hi :: rest, p :: ps, ms, lo, z, K, X, hlo, .cons hhi hrest, hms, h => by
    rw [matRecLoop] at h
    split_ifs at h with hs
    rw [not_not] at hs
    rw [hlo.shape, hhi.shape] at hs
    have hs : K = p.1 := (List.cons.inj hs).1
    cases ms with
    | nil =>
      simp only [bind, Except.bind] at h
      cases hcat : cat2 lo hi 0 <;> rw [hcat] at h <;> cases h
    | cons M ms =>
      have hhi' : Cols hi md K B p.2 := by rw [hs]; exact hhi
      obtain ⟨c, e1, hc⟩ := hlo.cat hhi'
      simp only [bind, Except.bind, e1] at h
      cases e2 : M.mmDense c with
      | error e => rw [e2] at h; cases h
      | ok v =>
        rw [e2] at h
        simp only at h
        have hq : M.cols = K + K ∧ ∃ f, v = Tensor.ofFn c.md [M.rows, B] f := by
          unfold Coo.mmDense at e2
          rw [hc.shape] at e2
          simp only at e2
          split_ifs at e2 with hq
          exact ⟨hq.1, _, (Except.ok.inj e2).symm⟩
        obtain ⟨hcol, f, rfl⟩ := hq
        obtain ⟨hr, h2⟩ := hms M (by simp)
        cases hrest with
        | nil => exact ⟨⟨hs.symm, by omega⟩, by simp⟩
        | @cons hi' p' rest ps hhi' hrest =>
          simp only [List.head?_cons] at h
          cases e3 : recCrop (Tensor.ofFn c.md [M.rows, B] f) (some hi') with
          | error e => rw [e3] at h; cases h
          | ok u =>
            rw [e3] at h
            simp only at h
            have hv : Cols (Tensor.ofFn c.md [M.rows, B] f) md M.rows B (fun b k => f [k, b]) :=
              ⟨hc.md, rfl, fun k b hk hb => ofFn_get_of _ _ ⟨hk, hb, trivial⟩⟩
            have hu : Cols u md p'.1 B (fun b k => f [k, b]) ∧ (p'.1 + 2 = 2 * K + 2 ∨ p'.1 + 2 = 2 * K + 1) := by
              unfold recCrop at e3
              have x1 : hi'.shape.getD 0 0 = p'.1 := by rw [hhi'.shape]; rfl
              have x2 : (Tensor.ofFn c.md [M.rows, B] f).shape.getD 0 0 = M.rows := rfl
              simp only [x1, x2] at e3
              split_ifs at e3 with q1 q2
              · have hsl := hv.slice (a := 0) (b := M.rows - 1) (by omega) (by omega)
                have hE : p'.1 = M.rows - 1 := by rw [← q2, hsl.shape]; rfl
                rw [← Except.ok.inj e3]
                refine ⟨?_, by omega⟩
                rw [hE]
                exact hsl.congr fun b k _ _ => by rw [Nat.zero_add]
              · rw [← Except.ok.inj e3]
                rw [not_not] at q1
                exact ⟨by rw [q1]; exact hv, by omega⟩
            obtain ⟨i1, i2⟩ := matRecLoop_conv (hi' :: rest) (p' :: ps) ms u z p'.1 _ hu.1 (.cons hhi' hrest)
              (fun M hM => hms M (by simp [hM])) h
            exact ⟨⟨hs.symm, by omega, hu.2, i1⟩, by simpa using i2⟩

end

end Verif
