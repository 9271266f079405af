import Verif.Lemmas.RecGenN
import Verif.Lemmas.Conv1
import Verif.Lemmas.Energy
import Verif.Lemmas.OrthPR
import Verif.Spec.Inner

/-! The reconstructions are the adjoints of the decompositions in `zero` mode. -/

namespace Verif
open Tensor Spec
variable {R : Type}

theorem ext_zero_sum [CommRing R] (n : Nat) (v : Nat → R) (z : ℤ) :
    ext .zero n v z = ∑ j ∈ Finset.range n, if (j : ℤ) = z then v j else 0 := by
  show (match (if 0 ≤ z ∧ z < n then some z.toNat else none) with | some j => v j | none => 0) = _
  by_cases h : 0 ≤ z ∧ z < n
  · rw [if_pos h]
    obtain ⟨m, rfl⟩ := Int.eq_ofNat_of_zero_le h.1
    have hm : m < n := by omega
    rw [Finset.sum_eq_single m]
    · simp
    · intro b _ hb
      rw [if_neg (by omega)]
    · intro h'
      exact absurd (Finset.mem_range.mpr hm) h'
  · rw [if_neg h]
    symm
    apply Finset.sum_eq_zero
    intro j hj
    rw [Finset.mem_range] at hj
    rw [if_neg]
    rintro rfl
    exact h ⟨by omega, by omega⟩

theorem tap_sum [CommRing R] (h : List R) (z : ℤ) (a : R) :
    (∑ i ∈ Finset.range h.length, h.getD i 0 * if (i : ℤ) = z then a else 0) = tap h z * a := by
  by_cases hz : 0 ≤ z ∧ z < h.length
  · obtain ⟨m, rfl⟩ := Int.eq_ofNat_of_zero_le hz.1
    have hm : m < h.length := by omega
    rw [Finset.sum_eq_single m]
    · rw [if_pos rfl]
      exact congrArg (· * a) (tap_nat h m).symm
    · intro b _ hb
      rw [if_neg (by omega), mul_zero]
    · intro h'
      exact absurd (Finset.mem_range.mpr hm) h'
  · have : tap h z = 0 := by
      by_cases h0 : z < 0
      · exact tap_neg h h0
      · exact tap_ge h (by omega)
    rw [this, zero_mul]
    apply Finset.sum_eq_zero
    intro j hj
    rw [Finset.mem_range] at hj
    rw [if_neg, mul_zero]
    rintro rfl
    exact hz ⟨by omega, by omega⟩

/-- One step in `zero` mode as a matrix product. -/
theorem dwtStep_zero [CommRing R] (h : List R) (n : Nat) (v : Nat → R) (k : Nat) :
    dwtStep .zero h n v k = ∑ j ∈ Finset.range n, tap h (2 * (k : ℤ) + 1 - j) * v j := by
  unfold dwtStep analysis
  simp only [ext_zero_sum, Finset.mul_sum]
  rw [Finset.sum_comm]
  refine Finset.sum_congr rfl fun j _ => ?_
  rw [← tap_sum]
  refine Finset.sum_congr rfl fun i _ => ?_
  congr 1
  by_cases h1 : (j : ℤ) = 2 * (k : ℤ) + 1 - i
  · rw [if_pos h1, if_pos (by omega)]
  · rw [if_neg h1, if_neg (by omega)]

/-- The entry of the analysis matrix of a band. -/
def bandTap [CommRing R] (h₀ h₁ : List R) (bs : List Bool) (ks js : List Nat) : R :=
  filtTap h₀ h₁ bs (List.zipWith (fun (k j : Nat) => 2 * (k : ℤ) + 1 - j) ks js)

theorem bandN_zero [CommRing R] (w : Wavelet R) : ∀ (bs : List Bool) (ns ks : List Nat) (X : List Nat → R),
    bs.length = ns.length → ks.length = ns.length →
    bandN .zero w bs ns X ks = boxSum ns fun js => bandTap w.decLo w.decHi bs ks js * X js
  | [], [], [], X, _, _ => by simp [bandN, bandFilt, dwtN, boxSum, bandTap, filtTap]
  | b :: bs, n :: ns, k :: ks, X, h1, h2 => by
    have ih := fun X => bandN_zero w bs ns ks X (by simpa using h1) (by simpa using h2)
    show dwtStep .zero (if b then w.decHi else w.decLo) n (fun j => bandN .zero w bs ns (fun js => X (j :: js)) ks) k = _
    rw [dwtStep_zero]
    unfold boxSum
    refine Finset.sum_congr rfl fun j _ => ?_
    rw [ih, ← boxSum_mul]
    refine boxSum_congr _ fun js _ => ?_
    rw [← mul_assoc]
    rfl

theorem bandSum_all [AddCommMonoid R] : ∀ (n : Nat) (g : List Bool → R), bandSum n g = ((allBands n).map g).sum
  | 0, g => by simp [bandSum, allBands]
  | n + 1, g => by
    unfold bandSum allBands
    rw [List.map_append, List.sum_append, List.map_map, List.map_map, bandSum_all n, bandSum_all n]
    rfl

theorem filtTap_reverse [CommRing R] {h₀ h₁ : List R} {F : Nat} (hF : 2 ≤ F) (l0 : h₀.length = F) (l1 : h₁.length = F) :
    ∀ (bs : List Bool) (ks js : List Nat), bs.length = js.length → ks.length = js.length →
    filtTap h₀.reverse h₁.reverse bs (List.zipWith (fun (m : ℤ) (k : Nat) => m - 2 * k)
      (js.map fun j => ((j + (F - 2) : ℕ) : ℤ)) ks) = bandTap h₀ h₁ bs ks js
  | [], [], [], _, _ => by simp [filtTap, bandTap]
  | [], _ :: _, js, h1, h2 => by
    exfalso; rw [← h1] at h2; simp at h2
  | _ :: _, [], js, h1, h2 => by
    exfalso; rw [← h1] at h2; simp at h2
  | b :: bs, k :: ks, j :: js, h1, h2 => by
    have ih := filtTap_reverse hF l0 l1 bs ks js (by simpa using h1) (by simpa using h2)
    have e : tap (if b then h₁.reverse else h₀.reverse) (((j + (F - 2) : ℕ) : ℤ) - 2 * k)
        = tap (if b then h₁ else h₀) (2 * (k : ℤ) + 1 - j) := by
      cases b
      · simp only [Bool.false_eq_true, if_false]
        rw [tap_reverse l0]
        congr 1
        omega
      · simp only [if_true]
        rw [tap_reverse l1]
        congr 1
        omega
    show tap (if b then h₁.reverse else h₀.reverse) (((j + (F - 2) : ℕ) : ℤ) - 2 * k) * _
      = tap (if b then h₁ else h₀) (2 * (k : ℤ) + 1 - j) * _
    rw [e, ih]
    rfl

theorem boxSum_comm [AddCommMonoid R] : ∀ (s t : List Nat) (g : List Nat → List Nat → R),
    (boxSum s fun i => boxSum t fun j => g i j) = boxSum t fun j => boxSum s fun i => g i j
  | [], _, _ => rfl
  | n :: s, t, g => by
    show (∑ k ∈ Finset.range n, boxSum s fun i => boxSum t fun j => g (k :: i) j)
      = boxSum t fun j => ∑ k ∈ Finset.range n, boxSum s fun i => g (k :: i) j
    rw [boxSum_sum]
    exact Finset.sum_congr rfl fun k _ => boxSum_comm s t _

/-- One analysis step along every axis and one synthesis step are adjoint. -/
theorem step_adjoint [CommRing R] {w : Wavelet R} {F : Nat} (hF : 2 ≤ F) (l0 : w.decLo.length = F)
    (l1 : w.decHi.length = F) (r0 : w.recLo = w.decLo.reverse) (r1 : w.recHi = w.decHi.reverse) (ns Ks : List Nat)
    (hl : Ks.length = ns.length) (X : List Nat → R) (c : List Bool → List Nat → R) :
    ((allBands ns.length).map fun bs => boxSum Ks fun k => bandN .zero w bs ns X k * c bs k).sum
      = boxSum ns fun j => X j * synthesisN w.recLo w.recHi Ks c (j.map fun j => ((j + (F - 2) : ℕ) : ℤ)) := by
  rw [← bandSum_all]
  have e1 : ∀ bs, bs.length = ns.length → (boxSum Ks fun k => bandN .zero w bs ns X k * c bs k)
      = boxSum ns fun j => X j * boxSum Ks fun k => bandTap w.decLo w.decHi bs k j * c bs k := by
    intro bs hbs
    simp only [← boxSum_mul]
    rw [boxSum_comm]
    refine boxSum_congr _ fun k hk => ?_
    rw [bandN_zero w bs ns k X hbs (by rw [hk.length_eq, hl]), mul_comm, ← boxSum_mul]
    refine boxSum_congr _ fun j _ => ?_
    ring
  rw [bandSum_congr _ e1]
  have e2 : ∀ j, InB ns j → X j * synthesisN w.recLo w.recHi Ks c (j.map fun j => ((j + (F - 2) : ℕ) : ℤ))
      = bandSum ns.length fun bs => X j * boxSum Ks fun k => bandTap w.decLo w.decHi bs k j * c bs k := by
    intro j hj
    rw [bandSum_mul, ← synN_synthesisN, synN_eq _ _ _ _ _ (by rw [List.length_map, hj.length_eq, hl]), hl]
    congr 1
    refine bandSum_congr _ fun bs hbs => boxSum_congr _ fun k hk => ?_
    rw [r0, r1, filtTap_reverse hF l0 l1 bs k j (by rw [hbs, hj.length_eq]) (by rw [hk.length_eq, hl, hj.length_eq])]
  rw [boxSum_congr _ e2]
  have : ∀ (n : Nat) (g : List Bool → List Nat → R), (bandSum n fun bs => boxSum ns (g bs))
      = boxSum ns fun j => bandSum n fun bs => g bs j := by
    intro n g
    simp only [bandSum_all]
    rw [boxSum_list]
  exact this _ _

theorem detBands_high : ∀ n, ∀ bs ∈ detBands n, true ∈ bs
  | 0, bs, h => by simp [detBands, allBands] at h
  | n + 1, bs, h => by
    unfold detBands at h
    rw [allBands, allBands_eq, List.map_cons, List.cons_append, List.tail_cons, List.mem_append] at h
    rcases h with h | h
    · obtain ⟨b', hb, rfl⟩ := List.mem_map.mp h
      exact List.mem_cons_of_mem _ (detBands_high n b' hb)
    · rw [List.mem_map] at h
      obtain ⟨b', -, rfl⟩ := h
      simp

/-- The details of all levels, coarsest first, with their sizes. -/
def detailList (F : Nat) (ns : List Nat) (hi : Nat → List Bool → List Nat → R) : Nat → List (List Nat × (List Bool → List Nat → R))
  | 0 => []
  | L + 1 => (levelLens F ns (L + 1), hi L) :: detailList F ns hi L

/-- All levels. -/
theorem dwtN_adjoint [CommRing R] {w : Wavelet R} {F : Nat} (hF : 2 ≤ F) (l0 : w.decLo.length = F)
    (l1 : w.decHi.length = F) (r0 : w.recLo = w.decLo.reverse) (r1 : w.recHi = w.decHi.reverse) (ns : List Nat)
    (X : List Nat → R) (hi : Nat → List Bool → List Nat → R) : ∀ (L : Nat) (lo : List Nat → R),
    (boxSum (levelLens F ns L) fun k => cAN .zero w ns X L k * lo k) +
      ∑ s ∈ Finset.range L, ((detBands ns.length).map fun bs =>
        boxSum (levelLens F ns (s + 1)) fun k => cDN .zero w ns X s bs k * hi s bs k).sum
    = boxSum ns fun j => X j * idwtN w.recLo w.recHi F lo (detailList F ns hi L) j
  | 0, lo => by
    rw [levelLens_zero, Finset.sum_range_zero, add_zero]
    rfl
  | L + 1, lo => by
    have hw : w.len = F := l0
    have ih := dwtN_adjoint hF l0 l1 r0 r1 ns X hi L (fun ks => synthesisN w.recLo w.recHi (levelLens F ns (L + 1))
      (fun bs => if true ∈ bs then hi L bs else lo) (ks.map fun k => ((k + (F - 2) : ℕ) : ℤ)))
    have st := step_adjoint (w := w) hF l0 l1 r0 r1 (levelLens F ns L) (levelLens F ns (L + 1))
      (by rw [levelLens_length, levelLens_length]) (cAN .zero w ns X L) (fun bs => if true ∈ bs then hi L bs else lo)
    rw [← st, levelLens_length, allBands_eq, List.map_cons, List.sum_cons] at ih
    show _ = boxSum ns fun j => X j * idwtN w.recLo w.recHi F _ (detailList F ns hi L) j
    rw [← ih, Finset.sum_range_succ, add_comm (Finset.sum _ _), ← add_assoc]
    congr 2
    · refine boxSum_congr _ fun k _ => ?_
      rw [if_neg (by intro h; have := List.eq_of_mem_replicate h; cases this)]
      show bandN .zero w (lowBand ns.length) (levelLens w.len ns L) _ k * _ = _
      rw [hw]
    · congr 1
      refine List.map_congr_left fun bs hbs => boxSum_congr _ fun k _ => ?_
      rw [if_pos (detBands_high _ bs hbs)]
      unfold cDN
      rw [hw]


theorem inB_map_le {g : Nat → Nat} (hg : ∀ n, n ≤ g n) : ∀ {ns ks : List Nat}, InB ns ks → InB (ns.map g) ks
  | [], [], _ => trivial
  | n :: _, _ :: _, h => ⟨lt_of_lt_of_le h.1 (hg n), inB_map_le hg h.2⟩

theorem sameEntry_rel [Zero R] {e e' : Entry R} (h : EntryForm e e') : EntryRel SameTensor e e' := by
  match e, e', h with
  | .tensor t, .tensor u, h => exact .tensor h
  | .tuple a b c, .tuple a' b' c', h => exact .tuple h.1 h.2.1 h.2.2
  | .dict kv, .dict kv', h => exact .dict h

/-! ### Plane by plane -/

theorem plane_setMany [Zero R] {u : Tensor R} {ax idx ks : List Nat} (hn : ax.Nodup)
    (hlt : ∀ a ∈ ax, a < idx.length) : plane u ax (setMany idx ax ks) = plane u ax idx := by
  funext js
  unfold plane
  split_ifs with hj
  · rw [setMany_setMany hn hlt hj]
  · rfl

/-- The inner product, plane by plane. -/
theorem dot_planes [CommRing R] {ax Ks s : List Nat} {t u : Tensor R} (hn : ax.Nodup) (hlt : ∀ a ∈ ax, a < s.length)
    (hK : Ks.length = ax.length) (ht : t.shape = setMany s ax Ks) :
    innerProd t u = boxSum (setMany s ax (ax.map fun _ => 1)) fun idx =>
      boxSum Ks fun ks => plane t ax idx ks * plane u ax idx ks := by
  have hl : ∀ a ∈ ax, a < t.shape.length := by rw [ht, setMany_length]; exact hlt
  unfold innerProd
  rw [boxSum_axes ax _ _ hn hl, ht, setMany_ones_eq hn hlt]
  have hsz : sizes ax (setMany s ax Ks) = Ks := pick_setMany_self _ _ _ hn hlt hK
  rw [hsz]
  refine boxSum_congr _ fun idx hidx => boxSum_congr _ fun ks hks => ?_
  have hkl : ks.length = ax.length := by rw [hks.length_eq, hK]
  unfold plane
  rw [if_pos hkl, if_pos hkl]

/-- The value of a tensor computed plane by plane. -/
theorem along_plane [Zero R] {ax Ks : List Nat} {f : (List Nat → R) → List Nat → R} {x t : Tensor R}
    (hn : ax.Nodup) (hlt : ∀ a ∈ ax, a < x.shape.length) (hK : Ks.length = ax.length) (h : AlongAxes ax Ks f x t)
    {idx ks : List Nat} (hidx : InB (setMany x.shape ax (ax.map fun _ => 1)) idx) (hks : InB Ks ks) :
    plane t ax idx ks = f (plane x ax idx) ks := by
  have hkl : ks.length = ax.length := by rw [hks.length_eq, hK]
  have hil : idx.length = x.shape.length := by rw [hidx.length_eq, setMany_length]
  have hsz : sizes ax (setMany x.shape ax Ks) = Ks := pick_setMany_self _ _ _ hn hlt hK
  have hin : InB t.shape (setMany idx ax ks) := by
    rw [h.shape]
    refine inB_setMany (Ks := ax.map fun _ => 1) hn (by rw [setMany_length]; exact hlt) (by simp) ?_ (by rw [hsz]; exact hks)
    rw [setMany_ones_eq hn hlt]
    exact hidx
  have : plane t ax idx ks = t.get (setMany idx ax ks) := by unfold plane; rw [if_pos hkl]
  rw [this, h.get _ hin, plane_setMany hn (by rw [hil]; exact hlt),
    show sizes ax (setMany idx ax ks) = ks from pick_setMany_self _ _ _ hn (by rw [hil]; exact hlt) hkl]

theorem dot_along [CommRing R] {ax Ks : List Nat} {f : (List Nat → R) → List Nat → R} {x t u : Tensor R}
    (hn : ax.Nodup) (hlt : ∀ a ∈ ax, a < x.shape.length) (hK : Ks.length = ax.length) (h : AlongAxes ax Ks f x t) :
    innerProd t u = boxSum (setMany x.shape ax (ax.map fun _ => 1)) fun idx =>
      boxSum Ks fun ks => f (plane x ax idx) ks * plane u ax idx ks := by
  rw [dot_planes hn hlt hK h.shape]
  refine boxSum_congr _ fun idx hidx => boxSum_congr _ fun ks hks => ?_
  rw [along_plane hn hlt hK h hidx hks]

/-! ### The sizes -/

/-- The sizes of the details, coarsest first. -/
def lensDown (F : Nat) (ns : List Nat) : Nat → List (List Nat)
  | 0 => []
  | L + 1 => levelLens F ns (L + 1) :: lensDown F ns L

theorem lensDown_length (F : Nat) (ns : List Nat) : ∀ L, (lensDown F ns L).length = L
  | 0 => rfl
  | L + 1 => by rw [lensDown, List.length_cons, lensDown_length]

theorem lensDown_get (F : Nat) (ns : List Nat) : ∀ L i, i < L → (lensDown F ns L)[i]? = some (levelLens F ns (L - i))
  | L + 1, 0, _ => rfl
  | L + 1, i + 1, h => by
    rw [lensDown, List.getElem?_cons_succ, lensDown_get F ns L i (by omega), Nat.add_sub_add_right]

theorem lensDown_mem {F : Nat} {ns : List Nat} : ∀ {L : Nat} {Ks : List Nat}, Ks ∈ lensDown F ns L → Ks.length = ns.length
  | L + 1, Ks, h => by
    rcases List.mem_cons.mp h with rfl | h
    · exact levelLens_length _ _ _
    · exact lensDown_mem h

theorem detailList_congr {F : Nat} {ns : List Nat} {hi hi' : Nat → List Bool → List Nat → R} : ∀ (L : Nat),
    (∀ s, s < L → hi s = hi' s) → detailList F ns hi L = detailList F ns hi' L
  | 0, _ => rfl
  | L + 1, h => by
    unfold detailList
    rw [h L (by omega), detailList_congr L fun s hs => h s (by omega)]

/-- The details of level `s + 1` in a list that has the coarsest of `L` levels first. -/
def detailAt [Zero R] {α : Type} (g : α → List Bool → List Nat → R) (es : List α) (L s : Nat) : List Bool → List Nat → R :=
  match es[L - 1 - s]? with
  | some e => g e
  | none => fun _ _ => 0

theorem zip_details [Zero R] {F : Nat} {ns : List Nat} {α : Type} (g : α → List Bool → List Nat → R) : ∀ (L : Nat) (es : List α),
    es.length = L → List.zipWith (fun e Ks => (Ks, g e)) es (lensDown F ns L)
      = detailList F ns (detailAt g es L) L
  | 0, [], _ => rfl
  | L + 1, e :: es, h => by
    unfold lensDown detailList
    rw [List.zipWith_cons_cons, zip_details g L es (by simpa using h)]
    congr 1
    · unfold detailAt
      simp
    · refine detailList_congr L fun s hs => ?_
      unfold detailAt
      rw [show L + 1 - 1 - s = (L - 1 - s) + 1 by omega, List.getElem?_cons_succ]

theorem levelLens_step {F : Nat} {ns : List Nat} (s : Nat) :
    levelLens F ns (s + 1) = (levelLens F ns s).map (outLen F) := by
  unfold levelLens
  rw [List.map_map]
  rfl

theorem consistent_down {F : Nat} {ns : List Nat} (hF : 2 ≤ F) (he : F % 2 = 0) : ∀ (L : Nat),
    LevelsAdmit .zero F ns L → ConsistentN F (levelLens F ns L) (lensDown F ns L)
  | 0, _ => trivial
  | L + 1, ha => by
    have pos : ∀ K ∈ levelLens F ns (L + 1), 1 ≤ K := by
      intro K hK
      rw [levelLens_step, List.mem_map] at hK
      obtain ⟨n, hn, rfl⟩ := hK
      have h1 : 4 ≤ F + n + n % 2 := ha L (by omega) n hn
      have h2 := two_outLen (n := n) hF he
      omega
    have ih := consistent_down hF he L fun s hs => ha s (by omega)
    cases L with
    | zero => exact ⟨rfl, pos⟩
    | succ L =>
      refine ⟨rfl, pos, ?_, ih⟩
      unfold NextFits
      rw [levelLens_step (L + 1), List.forall₂_map_left_iff, List.forall₂_same]
      intro n _
      have h2 := two_outLen (n := n) hF he
      omega

theorem idwtLenN_down {F : Nat} {ns : List Nat} (hF : 2 ≤ F) (he : F % 2 = 0) : ∀ (L : Nat) (Ks : List Nat),
    idwtLenN F Ks (lensDown F ns (L + 1)) = ns.map fun n => n + n % 2
  | 0, Ks => by
    show (levelLens F ns 1).map _ = _
    rw [levelLens_step, levelLens_zero, List.map_map]
    refine List.map_congr_left fun n _ => ?_
    have h2 := two_outLen (n := n) hF he
    simp only [Function.comp_apply]
    omega
  | L + 1, Ks => idwtLenN_down hF he L (levelLens F ns (L + 1))

/-! ### All levels -/

/-- The form of two entries determines their inner product. -/
def PairSums [CommRing R] (D : (List Bool → Tensor R → Prop) → Entry R → Prop) (n : Nat) : Prop :=
  ∀ (P Q : List Bool → Tensor R → Prop) (e e' : Entry R) (g : List Bool → R), D P e → D Q e' →
    (∀ bs t u, P bs t → Q bs u → innerProd t u = g bs) → entryDot e e' = ((detBands n).map g).sum

theorem isTuple_pairs [CommRing R] : PairSums (R := R) IsTuple 2 := by
  rintro P Q e e' g ⟨h, v, d, rfl, h1, h2, h3⟩ ⟨h', v', d', rfl, h1', h2', h3'⟩ hg
  simp only [entryDot, listDot, entryTensors, detBands, allBands, List.map_cons, List.map_nil, List.sum_cons, List.sum_nil,
    List.cons_append, List.nil_append, List.tail_cons, List.zipWith_cons_cons, List.zipWith_nil_left,
    hg _ _ _ h1 h1', hg _ _ _ h2 h2', hg _ _ _ h3 h3']
  ring

theorem zip_dot [CommRing R] {P Q : List Bool → Tensor R → Prop} {g : List Bool → R}
    (hg : ∀ bs t u, P bs t → Q bs u → innerProd t u = g bs) : ∀ (kv kv' : List (String × Tensor R)),
    kv.map Prod.fst = kv'.map Prod.fst → (∀ q ∈ kv, P (bandOfKey q.1) q.2) → (∀ q ∈ kv', Q (bandOfKey q.1) q.2) →
    List.zipWith innerProd (kv.map Prod.snd) (kv'.map Prod.snd) = kv.map fun q => g (bandOfKey q.1)
  | [], [], _, _, _ => rfl
  | p :: kv, q :: kv', h, hp, hq => by
    rw [List.map_cons, List.map_cons, List.cons.injEq] at h
    rw [List.map_cons, List.map_cons, List.zipWith_cons_cons, List.map_cons,
      zip_dot hg kv kv' h.2 (fun r hr => hp r (by simp [hr])) (fun r hr => hq r (by simp [hr])),
      hg _ _ _ (hp p (by simp)) (h.1 ▸ hq q (by simp))]

theorem isDict_pairs [CommRing R] {n : Nat} {keys : List String} (hk : (keys.map bandOfKey).Perm (detBands n)) :
    PairSums (R := R) (IsDict keys) n := by
  rintro P Q e e' g ⟨kv, rfl, h1, h2⟩ ⟨kv', rfl, h1', h2'⟩ hg
  have e2 : (keys.map bandOfKey).map g = kv.map fun q => g (bandOfKey q.1) := by
    rw [← h1, List.map_map, List.map_map]; rfl
  unfold entryDot listDot
  show (List.zipWith innerProd (kv.map Prod.snd) (kv'.map Prod.snd)).sum = _
  rw [zip_dot hg kv kv' (h1.trans h1'.symm) h2 h2', ← e2]
  exact (hk.map g).sum_eq

section top
variable [CommRing R] {D : (List Bool → Tensor R → Prop) → Entry R → Prop} {w : Wavelet R} {F : Nat}
  {ax : List Nat} {L : Nat} {x : Tensor R} {c d : Coeffs R}

/-- A container of the form of the coefficients of `x`. -/
theorem form_split (hD : RecKind D) (h : IsDwtN D .zero w ax L x c) (hw : w.len = F) (hs : SameForm c d) :
    ∃ t0 es t1 es', c = ⟨false, .tensor t1 :: es'⟩ ∧ d = ⟨false, .tensor t0 :: es⟩ ∧ es.length = L ∧ es'.length = L ∧
      IsApprox .zero w ax x L t1 ∧
      Uniform x.md (setMany x.shape ax (levelLens F (sizes ax x.shape) L)) t0 ∧
      (∀ i e e', es[i]? = some e → es'[i]? = some e' → D (IsBand .zero w ax x (L - 1 - i)) e' ∧
        D (fun bs t => Uniform x.md (setMany x.shape ax (levelLens F (sizes ax x.shape) (L - i))) t ∧
          bandGet e bs = some t) e) := by
  obtain ⟨t, ht, hta⟩ := h.approx
  have hl := h.length
  have hk := h.kind
  have hdet := h.detail
  obtain ⟨il, items⟩ := c
  match items, ht, hl with
  | e0 :: rest, ht, hl =>
  obtain rfl : e0 = .tensor t := by simpa using ht
  have hrl : rest.length = L := by simpa using hl
  obtain ⟨il', items'⟩ := d
  obtain ⟨hk', hf⟩ := hs
  dsimp only at hk hk' hf
  subst hk
  subst hk'
  cases hf with
  | @cons _ b _ es hb hrest =>
  obtain ⟨t0, rfl⟩ : ∃ t0, b = .tensor t0 := by
    cases b with
    | tensor t0 => exact ⟨t0, rfl⟩
    | tuple _ _ _ => exact absurd hb id
    | dict _ => exact absurd hb id
    | other => exact absurd hb id
  have hb' : SameTensor t t0 := hb
  refine ⟨t0, es, t, rest, rfl, rfl, by rw [← hrest.length_eq, hrl], hrl, hta, ⟨hb'.1.trans hta.md, ?_⟩, ?_⟩
  · rw [hb'.2, hta.shape, hw]
  · intro i e e' he he'
    have hi : i < L := by rw [← hrl]; exact (List.getElem?_eq_some_iff.mp he').1
    obtain ⟨e'', he'', hde⟩ := hdet (L - 1 - i) (by omega)
    rw [show L - (L - 1 - i) = i + 1 by omega, List.getElem?_cons_succ, he'] at he''
    obtain rfl : e' = e'' := by simpa using he''
    refine ⟨hde, hD.get ?_⟩
    have hse : EntryForm e' e := by
      obtain ⟨y, hy1, hy2⟩ := forall₂_getElem?' hrest he'
      rw [he] at hy1
      cases hy1
      exact hy2
    refine hD.trans (sameEntry_rel hse) hde ?_
    intro bs t u htu hp
    refine ⟨htu.1.trans hp.md, ?_⟩
    rw [htu.2, hp.shape, hw, show L - 1 - i + 1 = L - i by omega]

/-- The adjoint, for any reconstruction that computes the textbook synthesis. -/
theorem adjoint_of (hp : PairSums D ax.length) (hD : RecKind D) (hn : ax.Nodup) (hlt : ∀ a ∈ ax, a < x.shape.length)
    (hF : 2 ≤ F) (he : F % 2 = 0) (l0 : w.decLo.length = F)
    (l1 : w.decHi.length = F) (r0 : w.recLo = w.decLo.reverse) (r1 : w.recHi = w.decHi.reverse)
    {t0 t1 z : Tensor R} {es es' : List (Entry R)} (hes : es.length = L) (hes' : es'.length = L)
    (hta : IsApprox .zero w ax x L t1)
    (hde : ∀ i e e', es[i]? = some e → es'[i]? = some e' → D (IsBand .zero w ax x (L - 1 - i)) e' ∧
        D (fun bs t => Uniform x.md (setMany x.shape ax (levelLens F (sizes ax x.shape) (L - i))) t ∧
          bandGet e bs = some t) e)
    (hzs : z.shape = setMany x.shape ax (idwtLenN F (levelLens F (sizes ax x.shape) L) (lensDown F (sizes ax x.shape) L)))
    (hz : ∀ idx, InB z.shape idx → z.get idx = idwtN w.recLo w.recHi F (plane t0 ax idx)
          (List.zipWith (fun e Ks => (Ks, bandPlane e ax idx)) es (lensDown F (sizes ax x.shape) L)) (sizes ax idx)) :
    coeffDot ⟨false, .tensor t1 :: es'⟩ ⟨false, .tensor t0 :: es⟩ = innerProd x z := by
  have hw : w.len = F := l0
  have hsl : (sizes ax x.shape).length = ax.length := by simp [sizes]
  set ns := sizes ax x.shape with hns
  set O := setMany x.shape ax (ax.map fun _ => 1) with hO
  have hxs : x.shape = setMany x.shape ax ns := (setMany_pick_self _ _ hlt).symm
  set hi : List Nat → Nat → List Bool → List Nat → R := fun idx =>
    detailAt (fun e => bandPlane e ax idx) es L with hhi
  set B : Nat → List Bool → R := fun s bs => boxSum O fun idx =>
    boxSum (levelLens F ns (s + 1)) fun ks => cDN .zero w ns (plane x ax idx) s bs ks * hi idx s bs ks with hB
  have hrest : (List.zipWith entryDot es' es).sum = ∑ s ∈ Finset.range L, ((detBands ax.length).map (B s)).sum := by
    rw [← Finset.sum_range_reflect, ← List.map_uncurry_zip_eq_zipWith]
    have hzl : (es'.zip es).length = L := by rw [List.length_zip, hes, hes', min_self]
    rw [sum_map_range (es'.zip es) _ (fun i => ((detBands ax.length).map (B (L - 1 - i))).sum) ?_, hzl]
    rintro i ⟨e', e⟩ hei
    rw [List.getElem?_zip_eq_some] at hei
    obtain ⟨he', he⟩ := hei
    have hiL : i < L := by rw [← hes]; exact (List.getElem?_eq_some_iff.mp he).1
    obtain ⟨d1, d2⟩ := hde i e e' he he'
    refine hp _ _ e' e _ d1 d2 ?_
    rintro bs t u ht ⟨hu, hget⟩
    rw [dot_along hn hlt (by rw [levelLens_length, hsl]) ht, hw]
    refine boxSum_congr _ fun idx hidx => boxSum_congr _ fun ks hks => ?_
    congr 1
    simp only [hhi, detailAt]
    rw [show L - 1 - (L - 1 - i) = i by omega, he]
    show plane u ax idx ks = bandPlane e ax idx bs ks
    unfold bandPlane
    rw [hget]
  show (entryDot (.tensor t1) (.tensor t0) :: List.zipWith entryDot es' es).sum = _
  rw [List.sum_cons, hrest]
  have e0 : entryDot (.tensor t1) (.tensor t0) = innerProd t1 t0 := by
    show (innerProd t1 t0 + 0 : R) = _
    rw [add_zero]
  rw [e0, dot_along hn hlt (by rw [levelLens_length, hsl]) hta, dot_planes hn hlt hsl hxs, hw]
  have hpl : ∀ idx, _ := fun idx => dwtN_adjoint hF l0 l1 r0 r1 ns (plane x ax idx) (hi idx) L (plane t0 ax idx)
  have hzp : ∀ idx, InB O idx → ∀ ks, InB ns ks → plane z ax idx ks
      = idwtN w.recLo w.recHi F (plane t0 ax idx) (detailList F ns (hi idx) L) ks := by
    intro idx hidx ks hks
    have hkl : ks.length = ax.length := by rw [hks.length_eq, hsl]
    have hil : idx.length = x.shape.length := by rw [hidx.length_eq, setMany_length]
    have hlt' : ∀ a ∈ ax, a < idx.length := by rw [hil]; exact hlt
    set Zs := idwtLenN F (levelLens F ns L) (lensDown F ns L) with hZ
    have hZl : Zs.length = ax.length := by
      rw [hZ]
      cases L with
      | zero => show (levelLens F ns 0).length = _; rw [levelLens_length, hsl]
      | succ L => rw [idwtLenN_down hF he, List.length_map, hsl]
    have hZge : InB Zs ks := by
      rw [hZ]
      cases L with
      | zero => show InB (levelLens F ns 0) ks; rw [levelLens_zero]; exact hks
      | succ L =>
        rw [idwtLenN_down hF he]
        exact inB_map_le (fun n => Nat.le_add_right _ _) hks
    have hin : InB z.shape (setMany idx ax ks) := by
      rw [hzs]
      refine inB_setMany (Ks := ax.map fun _ => 1) hn (by rw [setMany_length]; exact hlt) (by simp) ?_ ?_
      · rw [setMany_ones_eq hn hlt]
        exact hidx
      · rw [show sizes ax (setMany x.shape ax Zs) = Zs from pick_setMany_self _ _ _ hn hlt hZl]
        exact hZge
    have : plane z ax idx ks = z.get (setMany idx ax ks) := by unfold plane; rw [if_pos hkl]
    rw [this, hz _ hin, plane_setMany hn hlt',
      show sizes ax (setMany idx ax ks) = ks from pick_setMany_self _ _ _ hn hlt' hkl]
    have hbp : (fun (e : Entry R) (Ks : List Nat) => (Ks, bandPlane e ax (setMany idx ax ks)))
        = fun e Ks => (Ks, bandPlane e ax idx) := by
      funext e Ks
      congr 1
      funext bs
      unfold bandPlane
      split
      · exact plane_setMany hn hlt'
      · rfl
    rw [hbp, zip_details (fun e => bandPlane e ax idx) L es hes]
  have hr : (boxSum O fun idx => boxSum ns fun ks => plane x ax idx ks * plane z ax idx ks)
      = boxSum O fun idx => boxSum ns fun j => plane x ax idx j *
        idwtN w.recLo w.recHi F (plane t0 ax idx) (detailList F ns (hi idx) L) j := by
    refine boxSum_congr _ fun idx hidx => boxSum_congr _ fun ks hks => ?_
    rw [hzp idx hidx ks hks]
  rw [hr, ← boxSum_congr _ fun idx _ => hpl idx, boxSum_add, boxSum_sum]
  congr 1
  refine Finset.sum_congr rfl fun s _ => ?_
  rw [hsl, boxSum_list]

end top


/-! ### One axis -/

section one
variable [CommRing R] {w : Wavelet R} {F : Nat}

theorem step_adjoint1 (hF : 2 ≤ F) (l0 : w.decLo.length = F)
    (l1 : w.decHi.length = F) (r0 : w.recLo = w.decLo.reverse) (r1 : w.recHi = w.decHi.reverse) (n K : Nat)
    (v lo hi : Nat → R) :
    (∑ k ∈ Finset.range K, dwtStep .zero w.decLo n v k * lo k) + (∑ k ∈ Finset.range K, dwtStep .zero w.decHi n v k * hi k)
      = ∑ j ∈ Finset.range n, v j * synthesis w.recLo w.recHi K lo hi ((j + (F - 2) : ℕ) : ℤ) := by
  unfold synthesis
  simp only [dwtStep_zero, Finset.mul_sum, Finset.sum_mul]
  rw [← Finset.sum_add_distrib, Finset.sum_comm (s := Finset.range n)]
  refine Finset.sum_congr rfl fun k _ => ?_
  rw [← Finset.sum_add_distrib]
  refine Finset.sum_congr rfl fun j _ => ?_
  rw [r0, r1, tap_reverse l0, tap_reverse l1,
    show (F : ℤ) - 1 - (((j + (F - 2) : ℕ) : ℤ) - 2 * k) = 2 * (k : ℤ) + 1 - j by omega]
  ring

/-- The details of all levels, coarsest first, with their sizes. -/
def detailList1 (F n : Nat) (hi : Nat → Nat → R) : Nat → List (Nat × (Nat → R))
  | 0 => []
  | L + 1 => (levelLen F n (L + 1), hi L) :: detailList1 F n hi L

theorem dwt_adjoint (hF : 2 ≤ F) (l0 : w.decLo.length = F)
    (l1 : w.decHi.length = F) (r0 : w.recLo = w.decLo.reverse) (r1 : w.recHi = w.decHi.reverse) (n : Nat)
    (v : Nat → R) (hi : Nat → Nat → R) : ∀ (L : Nat) (lo : Nat → R),
    (∑ k ∈ Finset.range (levelLen F n L), cA .zero w n v L k * lo k) +
      ∑ s ∈ Finset.range L, ∑ k ∈ Finset.range (levelLen F n (s + 1)), cD .zero w n v s k * hi s k
    = ∑ j ∈ Finset.range n, v j * idwt w.recLo w.recHi F lo (detailList1 F n hi L) j
  | 0, lo => by
    rw [Finset.sum_range_zero, add_zero]
    rfl
  | L + 1, lo => by
    have hw : w.len = F := l0
    have ih := dwt_adjoint hF l0 l1 r0 r1 n v hi L (fun m => synthesis w.recLo w.recHi (levelLen F n (L + 1))
      lo (hi L) ((m + (F - 2) : ℕ) : ℤ))
    have st := step_adjoint1 (w := w) hF l0 l1 r0 r1 (levelLen F n L) (levelLen F n (L + 1)) (cA .zero w n v L) lo (hi L)
    rw [← st] at ih
    show _ = ∑ j ∈ Finset.range n, v j * idwt w.recLo w.recHi F _ (detailList1 F n hi L) j
    rw [← ih, Finset.sum_range_succ, add_comm (Finset.sum (Finset.range L) _), ← add_assoc]
    congr 2
    · refine Finset.sum_congr rfl fun k _ => ?_
      show dwtStep .zero w.decLo (levelLen w.len n L) _ k * _ = _
      rw [hw]
    · refine Finset.sum_congr rfl fun k _ => ?_
      unfold cD
      rw [hw]

theorem details_eq (F n a : Nat) (idx : List Nat) : ∀ (L : Nat) (rest : List (Tensor R)), rest.length = L →
    (∀ i c, rest[i]? = some c → c.shape.getD a 0 = levelLen F n (L - i)) →
    (rest.map fun c => (c.shape.getD a 0, line c a idx)) =
      detailList1 F n (fun s => line ((rest[L - 1 - s]?).getD (ofFn ⟨.float32, 0⟩ [] fun _ => 0)) a idx) L
  | 0, [], _, _ => rfl
  | L + 1, c :: rest, hl, h => by
    have congr1 : ∀ (L : Nat) (f g : Nat → Nat → R), (∀ s, s < L → f s = g s) → detailList1 F n f L = detailList1 F n g L := by
      intro L f g
      induction L with
      | zero => intro _; rfl
      | succ L ih =>
        intro hfg
        unfold detailList1
        rw [hfg L (by omega), ih fun s hs => hfg s (by omega)]
    rw [List.map_cons, details_eq F n a idx L rest (by simpa using hl) (fun i t ht => by
      rw [h (i + 1) t ht, Nat.add_sub_add_right])]
    show _ = _ :: detailList1 F n _ L
    congr 1
    · rw [h 0 c rfl]
      simp
    · refine congr1 L _ _ fun s hs => ?_
      rw [show L + 1 - 1 - s = (L - 1 - s) + 1 by omega, List.getElem?_cons_succ]

theorem consistent_down1 {n : Nat} (hF : 2 ≤ F) (he : F % 2 = 0) : ∀ (L : Nat) (ls : List Nat), ls.length = L →
    (∀ i k, ls[i]? = some k → k = levelLen F n (L - i)) →
    (∀ s, s < L → Mode.zero.Admits F (levelLen F n s)) → Consistent F (levelLen F n L) ls
  | 0, [], _, _, _ => trivial
  | 1, [d], _, h, ha => by
    have h1 : 4 ≤ F + n + n % 2 := ha 0 (by omega)
    have h2 := two_outLen (n := n) hF he
    exact ⟨h 0 d rfl, by show 1 ≤ outLen F n; omega⟩
  | L + 2, d :: e :: ls, hl, h, ha => by
    have ih := consistent_down1 (n := n) hF he (L + 1) (e :: ls) (by simpa using hl)
      (fun i k hk => by rw [h (i + 1) k hk, show L + 2 - (i + 1) = L + 1 - i by omega]) fun s hs => ha s (by omega)
    have h1 : 4 ≤ F + levelLen F n (L + 1) + levelLen F n (L + 1) % 2 := ha (L + 1) (by omega)
    have h2 := two_outLen (n := levelLen F n (L + 1)) hF he
    have he' : e = levelLen F n (L + 1) := h 1 e rfl
    refine ⟨h 0 d rfl, by show 1 ≤ outLen F _; omega, ?_, he' ▸ ih⟩
    rw [he']
    show _ = 2 * outLen F _ + 2 ∨ _ = 2 * outLen F _ + 1
    omega

theorem idwtLen_down {n : Nat} (hF : 2 ≤ F) (he : F % 2 = 0) : ∀ (L : Nat) (K : Nat) (ls : List Nat), ls.length = L + 1 →
    (∀ i k, ls[i]? = some k → k = levelLen F n (L + 1 - i)) → idwtLen F K ls = n + n % 2
  | 0, K, [d], _, h => by
    have h2 := two_outLen (n := n) hF he
    have : d = outLen F n := h 0 d rfl
    show 2 * d + 2 - F = _
    rw [this]
    omega
  | L + 1, K, d :: e :: ls, hl, h => by
    exact idwtLen_down hF he L e (e :: ls) (by simpa using hl)
      (fun i k hk => by rw [h (i + 1) k hk, Nat.add_sub_add_right])

/-- The value of a tensor computed line by line, on the lines. -/
theorem along_line {a K : Nat} {f : (Nat → R) → Nat → R} {x t : Tensor R} (ha : a < x.shape.length)
    (h : AlongAxis a K f x t) {idx : List Nat} (hidx : InB (x.shape.set a 1) idx) {k : Nat} (hk : k < K) :
    line t a idx k = f (line x a idx) k := by
  have := along_plane (ax := [a]) (Ks := [K]) (by simp) (by simpa using ha) rfl (alongAxes_of_axis h) (idx := idx)
    (ks := [k]) hidx ⟨hk, trivial⟩
  exact this

theorem dot_lines {a K : Nat} {s : List Nat} {t u : Tensor R} (ha : a < s.length) (ht : t.shape = s.set a K) :
    innerProd t u = boxSum (s.set a 1) fun idx => ∑ k ∈ Finset.range K, line t a idx k * line u a idx k := by
  rw [dot_planes (ax := [a]) (Ks := [K]) (by simp) (by simpa using ha) rfl ht]
  rfl

end one

end Verif
