/-
The one-dimensional matrix transform: the reconstruction loop inverts the decomposition loop.
-/
import Verif.Lemmas.Mat1
import Verif.Spec.Orth

namespace Verif
open Tensor Spec
variable {R : Type}

/-- The reconstruction loop with the row number of a detail that follows the list. -/
def matRecLoopT [NonUnitalNonAssocSemiring R] (fin : Option (Tensor R)) :
    List (Coo R) → Tensor R → List (Tensor R) → Except Err (Tensor R)
  | _, lo, [] => .ok lo
  | ms, lo, hi :: rest =>
    if lo.shape ≠ hi.shape then .error .valueError
    else do
      let l ← cat2 lo hi 0
      match ms with
      | [] => .error .indexError
      | M :: ms => do
        let l ← M.mmDense l
        let l ← recCrop l (rest.head?.or fin)
        matRecLoopT fin ms l rest

theorem matRecLoop_eq [NonUnitalNonAssocSemiring R] : ∀ (his : List (Tensor R)) (ms : List (Coo R)) (lo : Tensor R),
    matRecLoop ms lo his = matRecLoopT none ms lo his
  | [], ms, lo => by unfold matRecLoop matRecLoopT; rfl
  | hi :: rest, ms, lo => by
    unfold matRecLoop matRecLoopT
    rw [Option.or_none]
    split_ifs
    · rfl
    · cases cat2 lo hi 0 with
      | error e => rfl
      | ok l =>
        cases ms with
        | nil => rfl
        | cons M ms =>
          simp only [bind, Except.bind]
          cases M.mmDense l with
          | error e => rfl
          | ok l =>
            simp only
            cases recCrop l rest.head? with
            | error e => rfl
            | ok l => simp only [matRecLoop_eq rest]

theorem matRecLoopT_snoc [NonUnitalNonAssocSemiring R] (fin : Option (Tensor R)) (M : Coo R) (hi : Tensor R) :
    ∀ (his : List (Tensor R)) (ms : List (Coo R)) (lo : Tensor R), ms.length = his.length →
    matRecLoopT fin (ms ++ [M]) lo (his ++ [hi]) =
      (matRecLoopT (some hi) ms lo his).bind fun l => matRecLoopT fin [M] l [hi]
  | [], [], lo, _ => rfl
  | [], _ :: _, _, h => by simp at h
  | _ :: _, [], _, h => by simp at h
  | a :: his, K :: ms, lo, h => by
    rw [List.cons_append, List.cons_append]
    unfold matRecLoopT
    have e : (his ++ [hi]).head?.or fin = his.head?.or (some hi) := by cases his <;> rfl
    rw [e]
    split_ifs
    · rfl
    · cases cat2 lo a 0 with
      | error e => rfl
      | ok l =>
        simp only [bind, Except.bind]
        cases K.mmDense l with
        | error e => rfl
        | ok l =>
          simp only
          cases recCrop l (his.head?.or (some hi)) with
          | error e => rfl
          | ok l =>
            simp only
            rw [matRecLoopT_snoc fin M hi his ms l (by simpa using h)]
            rfl

/-- Synthesis undoes the product with an orthogonal matrix. -/
theorem synth_analysis [CommRing R] {N : Nat} {M : Nat → Nat → R} (h : OrthonormalCols N M) (v : Nat → R)
    {k : Nat} (hk : k < N) :
    (∑ i ∈ Finset.range N, M i k * ∑ j ∈ Finset.range N, M i j * v j) = v k := by
  have : ∀ i ∈ Finset.range N, M i k * ∑ j ∈ Finset.range N, M i j * v j
      = ∑ j ∈ Finset.range N, (M i k * M i j) * v j := by
    intro i _
    rw [Finset.mul_sum]
    exact Finset.sum_congr rfl fun j _ => by ring
  rw [Finset.sum_congr rfl this, Finset.sum_comm]
  have h2 : ∀ j ∈ Finset.range N, (∑ i ∈ Finset.range N, (M i k * M i j) * v j) = if k = j then v j else 0 := by
    intro j hj
    rw [← Finset.sum_mul]
    have := h k j hk (Finset.mem_range.mp hj)
    unfold dot at this
    rw [this]
    split_ifs <;> simp
  rw [Finset.sum_congr rfl h2, Finset.sum_ite_eq]
  rw [if_pos (Finset.mem_range.mpr hk)]

theorem Cols.cat [Zero R] {s t : Tensor R} {md : Meta} {n B : Nat} {X Y : Nat → Nat → R}
    (hs : Cols s md n B X) (ht : Cols t md n B Y) :
    ∃ u, cat2 s t 0 = .ok u ∧ Cols u md (n + n) B (fun b k => if k < n then X b k else Y b (k - n)) := by
  unfold cat2
  rw [if_pos ⟨by rw [hs.md, ht.md], by rw [hs.shape, ht.shape], by rw [hs.shape, ht.shape]⟩]
  refine ⟨_, rfl, hs.md, ?_, ?_⟩
  · show s.shape.set 0 _ = _
    rw [hs.shape, ht.shape]; rfl
  · intro k b hk hb
    rw [ofFn_get_of _ _ (by rw [hs.shape, ht.shape]; exact ⟨hk, hb, trivial⟩)]
    rw [hs.shape]
    simp only [List.getD_cons_zero, List.set_cons_zero]
    split_ifs with h
    · exact hs.get k b h hb
    · exact ht.get _ b (by omega) hb

/-- The target of the reconstruction: followed by a detail with `n` rows, or by nothing for even `n`. -/
def Target [Zero R] (n : Nat) (fin : Option (Tensor R)) : Prop :=
  (∃ t, fin = some t ∧ t.shape.getD 0 0 = n) ∨ (fin = none ∧ n % 2 = 0)

theorem recCrop_ok [Zero R] {l : Tensor R} {md : Meta} {n B : Nat} {X : Nat → Nat → R} {fin : Option (Tensor R)}
    (ht : Target n fin) (h : Cols l md (evenLen n) B X) :
    ∃ u, recCrop l fin = .ok u ∧ Cols u md n B X := by
  rcases ht with ⟨t, rfl, ht⟩ | ⟨rfl, he⟩
  · unfold recCrop
    have e : l.shape.getD 0 0 = evenLen n := by rw [h.shape]; rfl
    simp only [ht, e]
    by_cases ho : n % 2 = 0
    · rw [evenLen_of_even ho] at h ⊢
      rw [if_neg (by simp)]
      exact ⟨l, rfl, h⟩
    · have e2 : evenLen n = n + 1 := by unfold evenLen; omega
      rw [e2] at h ⊢
      rw [if_pos (by omega)]
      have hs := h.slice (a := 0) (b := n) (by omega) (by omega)
      rw [Nat.add_sub_cancel, if_pos (by rw [hs.shape]; rfl)]
      exact ⟨_, rfl, hs.congr fun b k _ _ => by rw [Nat.zero_add]⟩
  · rw [evenLen_of_even he] at h
    exact ⟨l, rfl, h⟩

/-- The reconstruction loop undoes the decomposition loop. -/
theorem matRecLoop_ok [CommRing R] {m : Mode}
    {C : Nat → Coo R} {A : Nat → Nat → Nat → R} {md : Meta} {F B N : Nat} (hF : 2 ≤ F) (hC : Family C A md F N)
    (hA : ∀ k, k % 2 = 0 → F ≤ k → k ≤ N → OrthonormalCols k (A k)) :
    ∀ (L n : Nat) {r : Tensor R} {ds : List (Tensor R)} {X : Nat → Nat → R} {fin : Option (Tensor R)},
    evenLen n ≤ N → Target n fin →
    ds.length = mLevels F L n →
    Cols r md (mLen n (mLevels F L n)) B (fun b => mA m A n (X b) (mLevels F L n)) →
    (∀ s d, ds[s]? = some d → Cols d md (mLen n (s + 1)) B (fun b => mD m A n (X b) s)) →
    ∃ u, matRecLoopT fin ((builtMats C F L n).map Coo.transpose).reverse r ds.reverse = .ok u ∧ Cols u md n B X
  | 0, n, r, ds, X, fin, hN, ht, hl, hr, hd => by
    have : ds = [] := by cases ds with | nil => rfl | cons _ _ => simp [mLevels] at hl
    subst this
    refine ⟨r, ?_, hr⟩
    unfold matRecLoopT
    rfl
  | L + 1, n, r, ds, X, fin, hN, ht, hl, hr, hd => by
    by_cases hn : n < F
    · have h0 : mLevels F (L + 1) n = 0 := by unfold mLevels; rw [if_pos hn]
      rw [h0] at hl hr
      have : ds = [] := by cases ds with | nil => rfl | cons _ _ => simp at hl
      subst this
      refine ⟨r, ?_, hr⟩
      unfold matRecLoopT
      rfl
    · have hlv : mLevels F (L + 1) n = mLevels F L (evenLen n / 2) + 1 := by
        conv_lhs => unfold mLevels
        rw [if_neg hn]
      rw [hlv] at hl hr
      obtain ⟨d, ds, rfl⟩ : ∃ d ds', ds = d :: ds' := by
        cases ds with | nil => simp at hl | cons d ds => exact ⟨d, ds, rfl⟩
      have hd0 := hd 0 d rfl
      have hhalf : Cols d md (evenLen n / 2) B (fun b => stepHi m A n (X b)) := hd0
      obtain ⟨u, e1, hu⟩ := matRecLoop_ok hF hC hA L (evenLen n / 2) (r := r) (ds := ds)
        (X := fun b => stepLo m A n (X b)) (fin := some d) (evenLen_half_le (by omega) hN)
        (Or.inl ⟨d, rfl, by rw [hhalf.shape]; rfl⟩) (by simpa using hl) hr
        (fun s t hst => hd (s + 1) t hst)
      have ee := evenLen_even n
      have el := le_evenLen n
      have c1 := hC.md (evenLen n) ee (by omega) hN
      have c2 := hC.rows (evenLen n) ee (by omega) hN
      have c3 := hC.cols (evenLen n) ee (by omega) hN
      obtain ⟨l, e2, hl2⟩ := hu.cat hhalf
      rw [show evenLen n / 2 + evenLen n / 2 = evenLen n by omega] at hl2
      obtain ⟨c, e3, k1, k2, k3⟩ := Coo.mmDense_ok (A := (C (evenLen n)).transpose) (X := l) (k := B)
        (by show l.shape = [(C (evenLen n)).rows, B]; rw [c2]; exact hl2.shape)
        (by show (C (evenLen n)).md = _; rw [c1, hl2.md])
      have hc : Cols c md (evenLen n) B (fun b => evenExt m n (X b)) := by
        refine ⟨k1.trans hl2.md, by rw [k2]; show [(C (evenLen n)).cols, B] = _; rw [c3], ?_⟩
        intro k b hk hb
        rw [k3 k b (by show k < (C (evenLen n)).cols; omega) hb]
        show ∑ j ∈ Finset.range (C (evenLen n)).rows, _ = _
        rw [c2, ← synth_analysis (hA (evenLen n) ee (by omega) hN) (evenExt m n (X b)) hk]
        refine Finset.sum_congr rfl fun i hi => ?_
        rw [Finset.mem_range] at hi
        rw [Coo.transpose_den, hC.den _ i k ee (by omega) hN hi hk, hl2.get i b hi hb]
        congr 1
        split_ifs with h
        · rfl
        · show rowTimes m (A (evenLen n)) n (X b) (evenLen n / 2 + (i - evenLen n / 2)) = _
          rw [show evenLen n / 2 + (i - evenLen n / 2) = i by omega]
          rfl
      obtain ⟨v, e4, hv⟩ := recCrop_ok ht hc
      have hmats : builtMats C F (L + 1) n = C (evenLen n) :: builtMats C F L (evenLen n / 2) := by
        conv_lhs => unfold builtMats
        rw [if_neg hn]
      refine ⟨v, ?_, hv.congr fun b k _ hk => evenExt_inside m _ hk⟩
      rw [hmats, List.map_cons, List.reverse_cons, List.reverse_cons, matRecLoopT_snoc _ _ _ _ _ _ (by
        rw [List.length_reverse, List.length_reverse, List.length_map, builtMats_length]; simpa using hl.symm)]
      rw [e1]
      simp only [Except.bind]
      unfold matRecLoopT
      rw [if_neg (by rw [hu.shape, hhalf.shape]; simp)]
      simp only [bind, Except.bind, e2, e3, List.head?_nil, Option.none_or, e4]
      unfold matRecLoopT
      rfl

end Verif
