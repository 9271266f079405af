/-
The inverse stationary transform with mirrored filters is the adjoint of the stationary transform (with weights).
-/
import Verif.Lemmas.LeastSquares
import Verif.Lemmas.EnergySwt

namespace Verif
open Tensor Spec
variable {R : Type}

theorem swtStep_adj [CommRing R] {F n d : Nat} (he : F % 2 = 0) (hn : 0 < n) (x c : Nat → R) {h : List R} (hh : h.length = F) :
    (∑ k ∈ Finset.range n, swtStep h d n x k * c k)
      = ∑ m ∈ Finset.range n, x m * ∑ j ∈ Finset.range F, h.reverse.getD j 0 *
          ext .periodic n c ((m : ℤ) + d * ((F / 2 : ℕ) : ℤ) - d - d * j) := by
  have e1 : ∀ k ∈ Finset.range n, swtStep h d n x k * c k = ∑ i ∈ Finset.range F, h.getD i 0 *
      (c k * ext .periodic n x ((k : ℤ) + (d * ((F / 2 : ℕ) : ℤ) - d * i))) := by
    intro k _
    unfold swtStep
    rw [Finset.sum_mul, hh]
    refine Finset.sum_congr rfl fun i _ => ?_
    rw [add_sub_assoc]
    ring
  rw [Finset.sum_congr rfl e1, Finset.sum_comm]
  simp only [← Finset.mul_sum, sum_shift_adj hn c x]
  simp only [Finset.mul_sum]
  rw [Finset.sum_comm]
  refine Finset.sum_congr rfl fun m _ => ?_
  rw [← Finset.sum_range_reflect]
  refine Finset.sum_congr rfl fun j hj => ?_
  rw [Finset.mem_range] at hj
  have e2 : h.reverse.getD j 0 = h.getD (F - 1 - j) 0 := by
    rw [List.getD_eq_getElem _ _ (by rw [List.length_reverse, hh]; exact hj), List.getElem_reverse,
      List.getD_eq_getElem _ _ (by omega)]
    simp only [hh]
  rw [e2]
  have e3 : (m : ℤ) - (d * ((F / 2 : ℕ) : ℤ) - d * ((F - 1 - j : ℕ) : ℤ)) = (m : ℤ) + d * ((F / 2 : ℕ) : ℤ) - d - d * j := by
    obtain ⟨q, rfl⟩ : ∃ q, F = 2 * q := ⟨F / 2, by omega⟩
    rw [show 2 * q / 2 = q by omega, show ((2 * q - 1 - j : ℕ) : ℤ) = 2 * (q : ℤ) - 1 - j by omega]
    ring
  rw [e3]
  ring

section
variable [Field R] [CharZero R] {w : Wavelet R} {F n : Nat}

theorem iswtStep_adj (l0 : w.decLo.length = F) (l1 : w.decHi.length = F) (he : F % 2 = 0)
    (r0 : w.recLo = w.decLo.reverse) (r1 : w.recHi = w.decHi.reverse) (hn : 0 < n) (d : Nat) (v lo hi : Nat → R) :
    (∑ k ∈ Finset.range n, v k * iswtStep w.recLo w.recHi d n lo hi k) =
      ((∑ k ∈ Finset.range n, swtStep w.decLo d n v k * lo k) + ∑ k ∈ Finset.range n, swtStep w.decHi d n v k * hi k) / 2 := by
  rw [swtStep_adj he hn v lo l0, swtStep_adj he hn v hi l1, ← Finset.sum_add_distrib, div_eq_inv_mul, Finset.mul_sum]
  refine Finset.sum_congr rfl fun m _ => ?_
  unfold iswtStep
  rw [r0, r1, List.length_reverse, l0, Finset.sum_add_distrib]
  ring

/-- The weighted inner product of the details of the line `v` with given details, coarsest level first. -/
def lineDot (w : Wavelet R) (n : Nat) (v : Nat → R) : List (Nat → R) → R
  | [] => 0
  | hi :: rest => (∑ k ∈ Finset.range n, swtD w n v rest.length k * hi k) / 2 ^ (rest.length + 1) + lineDot w n v rest

theorem iswtFrom_adj (l0 : w.decLo.length = F) (l1 : w.decHi.length = F) (he : F % 2 = 0)
    (r0 : w.recLo = w.decLo.reverse) (r1 : w.recHi = w.decHi.reverse) (hn : 0 < n) (v : Nat → R) :
    ∀ (rest : List (Nat → R)) (lo : Nat → R),
      (∑ k ∈ Finset.range n, swtA w n v rest.length k * lo k) / 2 ^ rest.length + lineDot w n v rest =
        ∑ k ∈ Finset.range n, v k * iswtFrom w.recLo w.recHi n lo rest k
  | [], lo => by simp [lineDot, swtA, iswtFrom]
  | hi :: rest, lo => by
    have ih := iswtFrom_adj l0 l1 he r0 r1 hn v rest (iswtStep w.recLo w.recHi (2 ^ rest.length) n lo hi)
    rw [show iswtFrom w.recLo w.recHi n lo (hi :: rest) =
      iswtFrom w.recLo w.recHi n (iswtStep w.recLo w.recHi (2 ^ rest.length) n lo hi) rest from rfl, ← ih,
      iswtStep_adj l0 l1 he r0 r1 hn]
    rw [show lineDot w n v (hi :: rest) =
      (∑ k ∈ Finset.range n, swtD w n v rest.length k * hi k) / 2 ^ (rest.length + 1) + lineDot w n v rest from rfl,
      List.length_cons, show swtA w n v (rest.length + 1) = swtStep w.decLo (2 ^ rest.length) n (swtA w n v rest.length) from rfl,
      show swtD w n v rest.length = swtStep w.decHi (2 ^ rest.length) n (swtA w n v rest.length) from rfl, pow_succ]
    field_simp
    ring

theorem boxSum_div (s : List Nat) (f : List Nat → R) (c : R) : boxSum s f / c = boxSum s fun i => f i / c := by
  rw [div_eq_inv_mul, ← boxSum_mul]
  exact boxSum_congr _ fun i _ => by rw [div_eq_inv_mul]

theorem band_dot {a : Nat} {f : (Nat → R) → Nat → R} {x t u : Tensor R} (ha : a < x.shape.length) (hnn : x.shape.getD a 0 = n)
    (h : AlongAxis a n f x t) :
    innerProd t u = boxSum (x.shape.set a 1) fun idx => ∑ k ∈ Finset.range n, f (line x a idx) k * line u a idx k := by
  rw [dot_lines (s := x.shape) ha h.shape]
  refine boxSum_congr _ fun idx hidx => Finset.sum_congr rfl fun k hk => ?_
  rw [along_line ha h hidx (Finset.mem_range.mp hk)]

theorem detailDot_lines {a : Nat} {x : Tensor R} (ha : a < x.shape.length) (hnn : x.shape.getD a 0 = n) :
    ∀ (cs ds : List (Tensor R)), cs.length = ds.length →
      (∀ i t, cs[i]? = some t → AlongAxis a n (fun v => swtD w n v (cs.length - 1 - i)) x t) →
      detailDot cs ds = boxSum (x.shape.set a 1) fun idx => lineDot w n (line x a idx) (ds.map fun d => line d a idx)
  | [], [], _, _ => by simp [detailDot, lineDot, boxSum_zero]
  | c :: cs, d :: ds, hl, h => by
    have hl' : cs.length = ds.length := by simpa using hl
    have ih := detailDot_lines ha hnn cs ds hl' (fun i t ht => by
      have := h (i + 1) t (by rw [List.getElem?_cons_succ]; exact ht)
      rw [List.length_cons] at this
      rw [show cs.length - 1 - i = cs.length + 1 - 1 - (i + 1) by omega]
      exact this)
    have h0 := h 0 c rfl
    rw [List.length_cons, show cs.length + 1 - 1 - 0 = cs.length by omega] at h0
    rw [show detailDot (c :: cs) (d :: ds) = innerProd c d / 2 ^ (cs.length + 1) + detailDot cs ds from rfl, ih,
      band_dot ha hnn h0, boxSum_div, ← boxSum_add]
    refine boxSum_congr _ fun idx _ => ?_
    rw [List.map_cons, show ∀ hi rest, lineDot w n (line x a idx) (hi :: rest) =
      (∑ k ∈ Finset.range n, swtD w n (line x a idx) rest.length k * hi k) / 2 ^ (rest.length + 1) +
        lineDot w n (line x a idx) rest from fun _ _ => rfl, List.length_map, ← hl']

/-- The adjointness of the stationary transforms, on tensors. -/
theorem swt_adjoint {x z : Tensor R} {a L : Nat} {cs : List (Tensor R)} {d0 : Tensor R} {ds : List (Tensor R)}
    (l0 : w.decLo.length = F) (l1 : w.decHi.length = F) (he : F % 2 = 0)
    (r0 : w.recLo = w.decLo.reverse) (r1 : w.recHi = w.decHi.reverse) (ha : a < x.shape.length) (hnn : x.shape.getD a 0 = n)
    (hn : 0 < n) (h : IsSwt w a L x cs) (hl : ds.length = L) (hzs : z.shape = x.shape)
    (hz : ∀ idx, InB x.shape idx → z.get idx = iswtFrom w.recLo w.recHi n (line d0 a idx) (ds.map fun c => line c a idx) (idx.getD a 0)) :
    frameDot cs (d0 :: ds) = innerProd x z := by
  obtain ⟨hlen, h0, hd⟩ := h
  rw [hnn] at h0 hd
  match cs, hlen with
  | c0 :: cr, hlen =>
    have hcr : cr.length = L := by simpa using hlen
    have hss : x.shape = x.shape.set a n := by rw [← hnn]; exact (set_getD_self ha).symm
    rw [show frameDot (c0 :: cr) (d0 :: ds) = innerProd c0 d0 / 2 ^ cr.length + detailDot cr ds from rfl,
      detailDot_lines (w := w) ha hnn cr ds (hcr.trans hl.symm) (fun i t ht => by
        have hil : i < cr.length := (List.getElem?_eq_some_iff.mp ht).1
        refine hd (cr.length - 1 - i) t (by omega) ?_
        rw [show L - (cr.length - 1 - i) = i + 1 by omega, List.getElem?_cons_succ]
        exact ht), band_dot ha hnn (h0 c0 rfl), boxSum_div, ← boxSum_add, dot_lines (s := x.shape) (t := x) ha hss]
    refine boxSum_congr _ fun idx hidx => ?_
    have key := iswtFrom_adj l0 l1 he r0 r1 hn (line x a idx) (ds.map fun d => line d a idx) (line d0 a idx)
    rw [List.length_map, hl, ← hcr] at key
    rw [← hcr, key]
    refine Finset.sum_congr rfl fun k hk => ?_
    congr 1
    have hil : a < idx.length := by rw [hidx.length_eq, List.length_set]; exact ha
    have hin : InB x.shape (idx.set a k) := by
      rw [inB_set_iff ha hidx, hnn]
      exact Finset.mem_range.mp hk
    have := hz _ hin
    rw [getD_set_self hil, line_set] at this
    show _ = z.get (idx.set a k)
    rw [this]
    congr 1
    refine List.map_congr_left fun c _ => ?_
    rw [line_set]

theorem detail_expand : ∀ {cs ds : List (Tensor R)}, List.Forall₂ SameTensor cs ds →
    detailDist cs ds = detailDot cs cs - 2 * detailDot cs ds + detailDot ds ds := by
  intro cs ds h
  induction h with
  | nil => simp [detailDist, detailDot]
  | cons h hs ih =>
    simp only [detailDist, detailDot]
    rw [ih, dist2_expand h.2, hs.length_eq]; ring

theorem detail_comm : ∀ {cs ds : List (Tensor R)}, List.Forall₂ SameTensor cs ds → detailDot cs ds = detailDot ds cs := by
  intro cs ds h
  induction h with
  | nil => rfl
  | cons h hs ih =>
    simp only [detailDot]
    rw [ih, innerProd_comm h.2, hs.length_eq]

theorem frame_expand : ∀ {cs ds : List (Tensor R)}, List.Forall₂ SameTensor cs ds →
    frameDist cs ds = frameDot cs cs - 2 * frameDot cs ds + frameDot ds ds
  | _, _, .nil => by simp [frameDist, frameDot]
  | _, _, .cons h hs => by
    simp only [frameDist, frameDot]
    rw [detail_expand hs, dist2_expand h.2, hs.length_eq]; ring

theorem frame_comm : ∀ {cs ds : List (Tensor R)}, List.Forall₂ SameTensor cs ds → frameDot cs ds = frameDot ds cs
  | _, _, .nil => rfl
  | _, _, .cons h hs => by
    simp only [frameDot]
    rw [detail_comm hs, innerProd_comm h.2, hs.length_eq]

end

section ordered
variable [Field R] [LinearOrder R] [IsStrictOrderedRing R]

theorem weigh {q r s : R} (k : Nat) (h : 0 ≤ q + r - 2 * s) : 0 ≤ q / 2 ^ k + r / 2 ^ k - 2 * (s / 2 ^ k) := by
  have : q / 2 ^ k + r / 2 ^ k - 2 * (s / 2 ^ k) = (q + r - 2 * s) / 2 ^ k := by ring
  rw [this]
  exact div_nonneg h (by positivity)

theorem detail_quads : ∀ {a b c d : List (Tensor R)}, List.Forall₂ SameTensor a b → List.Forall₂ SameTensor a c →
    List.Forall₂ SameTensor a d →
    0 ≤ detailDist a b + detailDist c d - 2 * (detailDot a c - detailDot a d - detailDot b c + detailDot b d)
  | _, _, _, _, .nil, .nil, .nil => by simp [detailDist, detailDot]
  | _ :: l, _, _, _, .cons h hs, .cons h' hs', .cons h'' hs'' => by
    have h1 := quad_nonneg h.2 h'.2 h''.2
    have h2 := detail_quads hs hs' hs''
    simp only [detailDist, detailDot, ← hs.length_eq, ← hs'.length_eq]
    have h3 := weigh (l.length + 1) h1
    refine le_of_le_of_eq (add_nonneg h3 h2) ?_
    ring

theorem frame_quads : ∀ {a b c d : List (Tensor R)}, List.Forall₂ SameTensor a b → List.Forall₂ SameTensor a c →
    List.Forall₂ SameTensor a d →
    0 ≤ frameDist a b + frameDist c d - 2 * (frameDot a c - frameDot a d - frameDot b c + frameDot b d)
  | _, _, _, _, .nil, .nil, .nil => by simp [frameDist, frameDot]
  | _ :: l, _, _, _, .cons h hs, .cons h' hs', .cons h'' hs'' => by
    have h1 := quad_nonneg h.2 h'.2 h''.2
    have h2 := detail_quads hs hs' hs''
    simp only [frameDist, frameDot, ← hs.length_eq, ← hs'.length_eq]
    have h3 := weigh l.length h1
    refine le_of_le_of_eq (add_nonneg h3 h2) ?_
    ring

end ordered

end Verif
