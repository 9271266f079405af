/-
Products with one matrix per axis, on functions.
-/
import Verif.Lemmas.CoeffsN
import Verif.Lemmas.Mat1Rec

namespace Verif
open Tensor Spec
variable {R : Type}

/-- One matrix along every axis; every axis comes with its matrix and its number of columns. -/
def mulN [NonUnitalNonAssocSemiring R] : List ((Nat → Nat → R) × Nat) → (List Nat → R) → List Nat → R
  | (M, c) :: Ms, X, k :: ks =>
    ∑ j ∈ Finset.range c, M k j * mulN Ms (fun js => X (j :: js)) ks
  | _, X, _ => X []

/-- The signal, extended along every axis, at natural positions. -/
def evenExtN [Zero R] (m : Mode) (ns : List Nat) (X : List Nat → R) (ks : List Nat) : R :=
  extN m ns X (ks.map fun (k : Nat) => (k : ℤ))

/-- The analysis matrices for the sizes `ns`. -/
def anaMats (A : Nat → Nat → Nat → R) (ns : List Nat) : List ((Nat → Nat → R) × Nat) :=
  ns.map fun n => (A (evenLen n), evenLen n)

/-- The synthesis matrices for the sizes `ns`. -/
def synMats (A : Nat → Nat → Nat → R) (ns : List Nat) : List ((Nat → Nat → R) × Nat) :=
  ns.map fun n => ((fun k i => A (evenLen n) i k), evenLen n)

/-- The position of a band sample in the product. -/
def bandPos : List Bool → List Nat → List Nat → List Nat
  | b :: bs, n :: ns, k :: ks => (if b then evenLen n / 2 + k else k) :: bandPos bs ns ks
  | _, _, _ => []

theorem mulN_zero [NonUnitalNonAssocSemiring R] : ∀ (Ms : List ((Nat → Nat → R) × Nat)) (ks : List Nat),
    mulN Ms (fun _ => (0 : R)) ks = 0
  | [], _ => by unfold mulN; rfl
  | (M, c) :: Ms, [] => by unfold mulN; rfl
  | (M, c) :: Ms, k :: ks => by
    unfold mulN
    exact Finset.sum_eq_zero fun j _ => by rw [mulN_zero Ms ks, mul_zero]

theorem mulN_congr [NonUnitalNonAssocSemiring R] : ∀ (Ms : List ((Nat → Nat → R) × Nat)) {X Y : List Nat → R}
    (ks : List Nat), ks.length = Ms.length →
    (∀ js, InB (Ms.map Prod.snd) js → X js = Y js) → mulN Ms X ks = mulN Ms Y ks
  | [], X, Y, ks, hk, h => by unfold mulN; exact h [] trivial
  | (M, c) :: Ms, X, Y, [], hk, h => by simp at hk
  | (M, c) :: Ms, X, Y, k :: ks, hk, h => by
    unfold mulN
    refine Finset.sum_congr rfl fun j hj => ?_
    congr 1
    exact mulN_congr Ms ks (by simpa using hk) fun js hjs => h _ ⟨Finset.mem_range.mp hj, hjs⟩

/-- Sums of scaled functions go through. -/
theorem mulN_sum [CommSemiring R] : ∀ (Ms : List ((Nat → Nat → R) × Nat)) (n : Nat) (c : Nat → R)
    (X : Nat → List Nat → R) (ks : List Nat),
    mulN Ms (fun js => ∑ i ∈ Finset.range n, c i * X i js) ks = ∑ i ∈ Finset.range n, c i * mulN Ms (X i) ks
  | [], n, c, X, ks => by unfold mulN; rfl
  | (M, d) :: Ms, n, c, X, [] => by unfold mulN; rfl
  | (M, d) :: Ms, n, c, X, k :: ks => by
    unfold mulN
    simp only [mulN_sum Ms, Finset.mul_sum]
    rw [Finset.sum_comm]
    refine Finset.sum_congr rfl fun i _ => Finset.sum_congr rfl fun j _ => ?_
    ring

/-- A band of the transform is a part of the product of the extended signal. -/
theorem matBand_eq [NonUnitalNonAssocSemiring R] (m : Mode) (A : Nat → Nat → Nat → R) :
    ∀ (bs : List Bool) (ns : List Nat) (X : List Nat → R) (ks : List Nat), bs.length = ns.length →
      ks.length = ns.length →
      matBand m A bs ns X ks = mulN (anaMats A ns) (evenExtN m ns X) (bandPos bs ns ks)
  | [], [], X, [], _, _ => by simp [matBand, mulN, anaMats, evenExtN, extN]
  | b :: bs, n :: ns, X, k :: ks, h1, h2 => by
    have ih := fun X => matBand_eq m A bs ns X ks (by simpa using h1) (by simpa using h2)
    have key : ∀ i, rowTimes m (A (evenLen n)) n (fun j => matBand m A bs ns (fun js => X (j :: js)) ks) i
        = ∑ j ∈ Finset.range (evenLen n), A (evenLen n) i j *
            mulN (anaMats A ns) (fun js => evenExtN m (n :: ns) X (j :: js)) (bandPos bs ns ks) := by
      intro i
      unfold rowTimes
      refine Finset.sum_congr rfl fun j _ => ?_
      congr 1
      unfold evenExt
      simp only [ih]
      unfold evenExtN
      simp only [List.map_cons, extN]
      unfold ext
      cases extIdx m n (j : ℤ) with
      | none => exact (mulN_zero _ _).symm
      | some j' => rfl
    unfold matBand anaMats
    cases b
    · simp only [Bool.false_eq_true, if_false, List.map_cons, bandPos, mulN]
      exact key k
    · simp only [if_true, List.map_cons, bandPos, mulN]
      exact key _

/-- Synthesis along every axis undoes analysis along every axis. -/
theorem synN_anaN [CommRing R] {A : Nat → Nat → Nat → R} : ∀ (ns : List Nat) (X : List Nat → R) (ks : List Nat),
    (∀ n ∈ ns, OrthonormalCols (evenLen n) (A (evenLen n))) → InB (ns.map evenLen) ks →
    mulN (synMats A ns) (mulN (anaMats A ns) X) ks = X ks
  | [], X, [], _, _ => by simp [mulN, anaMats, synMats]
  | n :: ns, X, k :: ks, hA, hk => by
    have ih := fun X => synN_anaN ns X ks (fun n hn => hA n (by simp [hn])) hk.2
    have e : mulN (synMats A (n :: ns)) (mulN (anaMats A (n :: ns)) X) (k :: ks)
        = ∑ i ∈ Finset.range (evenLen n), A (evenLen n) i k *
            ∑ j ∈ Finset.range (evenLen n), A (evenLen n) i j * X (j :: ks) := by
      unfold synMats anaMats
      simp only [List.map_cons, mulN]
      refine Finset.sum_congr rfl fun i _ => ?_
      congr 1
      have := mulN_sum (ns.map fun n => ((fun k i => A (evenLen n) i k), evenLen n)) (evenLen n)
        (fun j => A (evenLen n) i j) (fun j => mulN (ns.map fun n => (A (evenLen n), evenLen n)) (fun js => X (j :: js))) ks
      refine this.trans ?_
      refine Finset.sum_congr rfl fun j _ => ?_
      congr 1
      exact ih _
    rw [e]
    exact synth_analysis (hA n (by simp)) (fun j => X (j :: ks)) hk.1

theorem halfLens_length (ns : List Nat) : (halfLens ns).length = ns.length := by simp [halfLens]

theorem mLens_length (ns : List Nat) (s : Nat) : (mLens ns s).length = ns.length := by simp [mLens]

theorem mLens_zero (ns : List Nat) : mLens ns 0 = ns := by simp [mLens, mLen]

theorem mLens_succ (ns : List Nat) (s : Nat) : mLens ns (s + 1) = mLens (halfLens ns) s := by
  simp [mLens, halfLens, mLen]

theorem evenExtN_inside [Zero R] (m : Mode) {ns ks : List Nat} (X : List Nat → R) (h : InB ns ks) :
    evenExtN m ns X ks = X ks := extN_inside m ns ks X h

theorem evenExtN_congr [Zero R] (m : Mode) : ∀ (ns : List Nat) {X Y : List Nat → R} (ks : List Nat),
    ks.length = ns.length → (∀ n ∈ ns, 0 < n) → (∀ js, InB ns js → X js = Y js) →
    evenExtN m ns X ks = evenExtN m ns Y ks
  | [], X, Y, [], _, _, h => by simp [evenExtN, extN]; exact h [] trivial
  | n :: ns, X, Y, k :: ks, hk, hn, h => by
    unfold evenExtN
    simp only [List.map_cons, extN]
    refine ext_congr (hn n (by simp)) ?_ _
    intro j hj
    exact evenExtN_congr m ns ks (by simpa using hk) (fun n' h' => hn n' (by simp [h'])) fun js hjs => h _ ⟨hj, hjs⟩

theorem evenLen_map_even (ns : List Nat) : (ns.map evenLen).map evenLen = ns.map evenLen := by
  rw [List.map_map]
  apply List.map_congr_left
  intro n _
  exact evenLen_of_even (evenLen_even n)

theorem halfLens_even (ns : List Nat) : halfLens (ns.map evenLen) = halfLens ns := by
  unfold halfLens
  rw [List.map_map]
  apply List.map_congr_left
  intro n _
  show evenLen (evenLen n) / 2 = _
  rw [evenLen_of_even (evenLen_even n)]

end Verif
