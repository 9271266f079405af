import Verif.Lemmas.RoundingProg
import Verif.Model.RoundedN
import Verif.Lemmas.RelN
import Verif.Lemmas.Index

/-! The multidimensional convolutions in floating point arithmetic. -/

namespace Verif
open Tensor Spec
variable {R : Type}

theorem boxIdx_length : ∀ ns : List Nat, (boxIdx ns).length = ns.prod
  | [] => rfl
  | n :: ns => by
    simp [boxIdx, List.length_flatMap, boxIdx_length ns]

theorem boxSum_boxIdx {M : Type} [AddCommMonoid M] : ∀ (ns : List Nat) (f : List Nat → M),
    boxSum ns f = ((boxIdx ns).map f).sum
  | [], f => by simp [boxSum, boxIdx]
  | n :: ns, f => by
    unfold boxSum boxIdx
    rw [sum_range_list, sum_flatMap_list]
    refine congrArg List.sum (List.map_congr_left fun j _ => ?_)
    rw [boxSum_boxIdx ns, List.map_map]
    rfl

theorem boxSum_zero_of {M : Type} [AddCommMonoid M] (ns : List Nat) (f : List Nat → M)
    (h : ∀ js, js.length = ns.length → f js = 0) : boxSum ns f = 0 := by
  induction ns generalizing f with
  | nil => exact h [] rfl
  | cons n ns ih =>
    unfold boxSum
    exact Finset.sum_eq_zero fun j _ => ih _ fun js hj => h _ (by simp [hj])

/-- The condition under which an input position contributes. -/
def Contrib (s : Nat) : List Nat → List Nat → List Nat → Prop
  | m :: ms, k :: ks, F :: Fs => (s * k ≤ m ∧ m - s * k < F) ∧ Contrib s ms ks Fs
  | [], [], [] => True
  | _, _, _ => False

theorem boxSum_contrib {M : Type} [AddCommMonoid M] (s : Nat) : ∀ (ms Ns Fs : List Nat), ms.length = Ns.length →
    Fs.length = Ns.length → ∀ f : List Nat → M, (∀ ks, ks.length = Ns.length → ¬ Contrib s ms ks Fs → f ks = 0) →
    boxSum Ns f = ((contribIdx s ms Ns Fs).map f).sum
  | [], [], [], _, _, f, _ => by simp [boxSum, contribIdx]
  | m :: ms, N :: Ns, F :: Fs, h1, h2, f, hf => by
    unfold boxSum contribIdx
    rw [sum_range_list, sum_flatMap_list]
    have h : ∀ k, boxSum Ns (fun ks => f (k :: ks)) =
        if s * k ≤ m ∧ m - s * k < F then boxSum Ns (fun ks => f (k :: ks)) else 0 := by
      intro k
      by_cases hk : s * k ≤ m ∧ m - s * k < F
      · rw [if_pos hk]
      · rw [if_neg hk]
        exact boxSum_zero_of _ _ fun js hj => hf _ (by simp [hj]) fun hc => hk hc.1
    rw [List.map_congr_left fun k _ => h k, sum_filter_list_if]
    refine congrArg List.sum (List.map_congr_left fun k hk => ?_)
    rw [boxSum_contrib s ms Ns Fs (by simpa using h1) (by simpa using h2), List.map_map]
    · rfl
    · intro ks hks hc
      exact hf _ (by simp [hks]) fun h => hc h.2
  | [], [], _ :: _, _, h, _, _ => by simp at h
  | [], _ :: _, _, h, _, _, _ => by simp at h
  | _ :: _, [], _, h, _, _, _ => by simp at h
  | _ :: _, _ :: _, [], _, h, _, _ => by simp at h

theorem contribIdx_length : ∀ (ms Ns Fs : List Nat), ms.length = Fs.length → Ns.length = Fs.length →
    (contribIdx 2 ms Ns Fs).length ≤ (Fs.map fun F => (F + 1) / 2).prod
  | [], [], [], _, _ => by simp [contribIdx]
  | m :: ms, N :: Ns, F :: Fs, h1, h2 => by
    unfold contribIdx
    rw [List.length_flatMap]
    simp only [List.length_map]
    rw [List.map_const', List.sum_replicate, smul_eq_mul, List.map_cons, List.prod_cons]
    refine Nat.mul_le_mul ?_ (contribIdx_length ms Ns Fs (by simpa using h1) (by simpa using h2))
    have := convTIdx_length 1 N F m
    unfold convTIdx at this
    simpa using this
  | [], _, _ :: _, h, _ => by simp at h
  | _, [], _ :: _, _, h => by simp at h
  | _ :: _, _, [], h, _ => by simp at h
  | _, _ :: _, [], _, h => by simp at h

/-- The index pairs of a convolution over several axes. -/
def convIdxN (C : Nat) (idx : List (List Nat)) : List (Nat × List Nat) :=
  (List.range C).flatMap fun c => idx.map fun j => (c, j)

theorem convIdxN_length (C : Nat) (idx : List (List Nat)) : (convIdxN C idx).length = C * idx.length := by
  simp [convIdxN, List.length_flatMap]

theorem sum_convIdxN {M : Type} [AddCommMonoid M] (f : Nat → List Nat → M) (C : Nat) (idx : List (List Nat)) :
    ∑ c ∈ Finset.range C, (idx.map (f c)).sum = ((convIdxN C idx).map fun p => f p.1 p.2).sum := by
  simp only [sum_range_list, convIdxN, sum_flatMap_list, List.map_map, Function.comp_def]

theorem allPairs_length {p : Nat → Nat → Prop} : ∀ {a b : List Nat}, AllPairs p a b → a.length = b.length
  | [], [], _ => rfl
  | _ :: _, _ :: _, h => by simp [allPairs_length h.2]
  | [], _ :: _, h => h.elim
  | _ :: _, [], h => h.elim

theorem inB_zipWith_contrib {s : Nat} : ∀ {ms ks Fs : List Nat}, AllPairs (fun m k => s * k ≤ m) ms ks →
    InB Fs (List.zipWith (fun m k => m - s * k) ms ks) → ks.length = Fs.length → Contrib s ms ks Fs
  | [], [], [], _, _, _ => trivial
  | m :: ms, k :: ks, F :: Fs, h, hi, hl => ⟨⟨h.1, hi.1⟩, inB_zipWith_contrib h.2 hi.2 (by simpa using hl)⟩
  | [], [], _ :: _, _, _, h => by simp at h
  | [], _ :: _, _, h, _, _ => h.elim
  | _ :: _, [], _, h, _, _ => h.elim
  | _ :: _, _ :: _, [], _, _, h => by simp at h

theorem contrib_allPairs {s : Nat} : ∀ {ms ks Fs : List Nat}, Contrib s ms ks Fs → AllPairs (fun m k => s * k ≤ m) ms ks
  | [], [], [], _ => trivial
  | _ :: _, _ :: _, _ :: _, h => ⟨h.1.1, contrib_allPairs h.2⟩
  | [], [], _ :: _, h => h.elim
  | [], _ :: _, _, h => by cases h
  | _ :: _, [], _, h => by cases h
  | _ :: _, _ :: _, [], h => by cases h

theorem mem_contribIdx {s : Nat} : ∀ {ms Ns Fs ks : List Nat}, ms.length = Ns.length → Fs.length = Ns.length →
    ks ∈ contribIdx s ms Ns Fs → Contrib s ms ks Fs
  | [], [], [], ks, _, _, h => by simp only [contribIdx, List.mem_singleton] at h; subst h; trivial
  | m :: ms, N :: Ns, F :: Fs, ks, h1, h2, h => by
    simp only [contribIdx, List.mem_flatMap, List.mem_filter, List.mem_map, decide_eq_true_eq] at h
    obtain ⟨k, ⟨-, hk⟩, ks, hks, rfl⟩ := h
    exact ⟨hk, mem_contribIdx (by simpa using h1) (by simpa using h2) hks⟩
  | [], [], _ :: _, _, _, h, _ => by simp at h
  | [], _ :: _, _, _, h, _, _ => by simp at h
  | _ :: _, [], _, _, h, _, _ => by simp at h
  | _ :: _, _ :: _, [], _, _, h, _ => by simp at h

/-- The sum of a transposed convolution over the positions which contribute. -/
theorem sum_convTN {S : Type} [NonUnitalNonAssocSemiring S] (x w : Tensor S) (s C b o : Nat) (ms Ns Fs : List Nat)
    (h1 : ms.length = Ns.length) (h2 : Fs.length = Ns.length) (hw : ∃ C' O, w.shape = C' :: O :: Fs) :
    (∑ c ∈ Finset.range C, boxSum Ns fun ks =>
      if AllPairs (fun m k => s * k ≤ m) ms ks then
        w.get (c :: o :: List.zipWith (fun m k => m - s * k) ms ks) * x.get (b :: c :: ks)
      else 0) = ((convIdxN C (contribIdx s ms Ns Fs)).map fun p =>
        w.get (p.1 :: o :: List.zipWith (fun m k => m - s * k) ms p.2) * x.get (b :: p.1 :: p.2)).sum := by
  obtain ⟨C', O, hw⟩ := hw
  rw [← sum_convIdxN fun c ks => w.get (c :: o :: List.zipWith (fun m k => m - s * k) ms ks) * x.get (b :: c :: ks)]
  refine Finset.sum_congr rfl fun c _ => ?_
  rw [boxSum_contrib s ms Ns Fs h1 h2]
  · refine congrArg List.sum (List.map_congr_left fun ks hks => ?_)
    rw [if_pos (contrib_allPairs (mem_contribIdx h1 h2 hks))]
  · intro ks hks hc
    split_ifs with ha
    · rw [w.supp, zero_mul]
      intro hin
      rw [hw] at hin
      exact hc (inB_zipWith_contrib ha hin.2.2 (by rw [hks, h2]))
    · rfl

theorem inB_length : ∀ {s i : List Nat}, InB s i → i.length = s.length := fun h => h.length_eq

variable [Field R] [LinearOrder R] [IsStrictOrderedRing R]

/-- The rounded convolution and the exact convolution of the triples. -/
theorem float_convN {u τ G : R} {K : KernelsN R} (hK : FloatKernelsN u K) (hτ : 1 ≤ τ) {x w : Tensor R}
    {y v : Tensor (R × R × R)} (hx : TRel Err3 x y) (hw : TRel (Tap3 τ G) w v) (n s : Nat) {C : Nat} {Fs : List Nat}
    (hs : ∃ O, w.shape = O :: C :: Fs) (hG : (1 + u) ^ (C * Fs.prod) * τ ≤ G) :
    Two (TRel Err3) (K.conv n x w s) (exactConv n y v s) := by
  have hk := hK.conv n x w s
  obtain ⟨O, hs⟩ := hs
  unfold FloatResultN at hk
  unfold exactConv at hk ⊢
  rw [hx.rank]
  by_cases hr : x.rank = n + 2
  swap
  · rw [if_neg hr] at hk ⊢
    simp only at hk
    rw [hk]
    exact .err _
  rw [if_pos hr] at hk ⊢
  unfold Tensor.convNd at hk ⊢
  rw [hx.shape, hw.shape, hx.md, hw.md]
  rw [hs] at hk ⊢
  match hxs : x.shape with
  | B :: C' :: Ns =>
    rw [hxs] at hk
    simp only at hk ⊢
    by_cases hc : C' = C ∧ x.md = w.md ∧ AllPairs (fun N F => 1 ≤ F ∧ F ≤ N) Ns Fs ∧ 1 ≤ s
    · rw [if_pos hc] at hk ⊢
      simp only at hk
      obtain ⟨r', e, hm, hsh, hget⟩ := hk
      rw [e]
      refine .ok ⟨hm.symm, hsh.symm, fun i => ?_⟩
      by_cases hi : InB (B :: O :: List.zipWith (fun N F => (N - F) / s + 1) Ns Fs) i
      · rw [ofFn_get_of _ _ hi]
        match i, hi with
        | b :: o :: ks, hi =>
          have h1 := hget b o ks hi
          simp only
          simp only [boxSum_boxIdx]
          rw [sum_convIdxN]
          have e1 : C' = C := hc.1
          rw [e1]
          refine rounded_err3 (u := u) (τ := τ) (G := G) hK.unit hτ (convIdxN C (boxIdx Fs)) (fun p => w.get (o :: p.1 :: p.2))
            (fun p => x.get (b :: p.1 :: List.zipWith (fun k j => s * k + j) ks p.2)) _ _ (fun p _ => hw.get _)
            (fun p _ => hx.get _) ?_ (le_of_eq (by rw [convIdxN_length, boxIdx_length])) hG
          have e2 : convTermsN x w s b o ks = (convIdxN C (boxIdx Fs)).map fun p =>
              (w.get (o :: p.1 :: p.2), x.get (b :: p.1 :: List.zipWith (fun k j => s * k + j) ks p.2)) := by
            unfold convTermsN convIdxN
            rw [hs, List.map_flatMap]
            simp [List.map_map, Function.comp_def]
          rw [← e2]
          exact h1
      · rw [ofFn_get, if_neg hi, r'.supp i (by rw [hsh]; exact hi)]
        exact closed_err3.zero
    · rw [if_neg hc] at hk ⊢
      simp only at hk
      rw [hk]
      exact .err _
  | [] => rw [hxs] at hk; simp only at hk ⊢; rw [hk]; exact .err _
  | [_] => rw [hxs] at hk; simp only at hk ⊢; rw [hk]; exact .err _

/-- The rounded transposed convolution and the exact one of the triples. -/
theorem float_convTN {u τ G : R} {K : KernelsN R} (hK : FloatKernelsN u K) (hτ : 1 ≤ τ) {x w : Tensor R}
    {y v : Tensor (R × R × R)} (hx : TRel Err3 x y) (hw : TRel (Tap3 τ G) w v) (n : Nat) {C : Nat} {Fs : List Nat}
    (hs : ∃ O, w.shape = C :: O :: Fs) (hG : (1 + u) ^ (C * (Fs.map fun F => (F + 1) / 2).prod) * τ ≤ G) :
    Two (TRel Err3) (K.convTranspose n x w 2) (exactConvTranspose n y v 2) := by
  have hk := hK.convTranspose n x w 2
  obtain ⟨O, hs⟩ := hs
  unfold FloatResultN at hk
  unfold exactConvTranspose at hk ⊢
  rw [hx.rank]
  by_cases hr : x.rank = n + 2
  swap
  · rw [if_neg hr] at hk ⊢
    simp only at hk
    rw [hk]
    exact .err _
  rw [if_pos hr] at hk ⊢
  unfold Tensor.convTransposeNd at hk ⊢
  rw [hx.shape, hw.shape, hx.md, hw.md]
  rw [hs] at hk ⊢
  match hxs : x.shape with
  | B :: C' :: Ns =>
    rw [hxs] at hk
    simp only at hk ⊢
    by_cases hc : C' = C ∧ x.md = w.md ∧ AllPairs (fun N F => 1 ≤ N ∧ 1 ≤ F) Ns Fs
    · rw [if_pos hc] at hk ⊢
      simp only at hk
      obtain ⟨r', e, hm, hsh, hget⟩ := hk
      rw [e]
      have hlen := allPairs_length hc.2.2
      refine .ok ⟨hm.symm, hsh.symm, fun i => ?_⟩
      by_cases hi : InB (B :: O :: List.zipWith (fun N F => (N - 1) * 2 + F) Ns Fs) i
      · rw [ofFn_get_of _ _ hi]
        match i, hi with
        | b :: o :: ms, hi =>
          have h1 := hget b o ms hi
          have hml : ms.length = Ns.length := by
            have := inB_length hi
            simpa [hlen] using this
          simp only
          rw [sum_convTN y v 2 C' b o ms Ns Fs hml hlen.symm ⟨C, O, by rw [hw.shape, hs]⟩]
          have e1 : C' = C := hc.1
          rw [e1]
          refine rounded_err3 (u := u) (τ := τ) (G := G) hK.unit hτ (convIdxN C (contribIdx 2 ms Ns Fs))
            (fun p => w.get (p.1 :: o :: List.zipWith (fun m k => m - 2 * k) ms p.2))
            (fun p => x.get (b :: p.1 :: p.2)) _ _ (fun p _ => hw.get _) (fun p _ => hx.get _) ?_
            (n := C * (Fs.map fun F => (F + 1) / 2).prod) ?_ hG
          · have e2 : convTransposeTermsN x w 2 b o ms = (convIdxN C (contribIdx 2 ms Ns Fs)).map fun p =>
                (w.get (p.1 :: o :: List.zipWith (fun m k => m - 2 * k) ms p.2), x.get (b :: p.1 :: p.2)) := by
              unfold convTransposeTermsN convIdxN
              rw [hs, hxs, List.map_flatMap]
              simp [List.map_map, Function.comp_def]
            rw [← e2]
            exact h1
          · rw [convIdxN_length]
            exact Nat.mul_le_mul_left _ (contribIdx_length ms Ns Fs (by rw [hml, hlen]) hlen)
      · rw [ofFn_get, if_neg hi, r'.supp i (by rw [hsh]; exact hi)]
        exact closed_err3.zero
    · rw [if_neg hc] at hk ⊢
      simp only at hk
      rw [hk]
      exact .err _
  | [] => rw [hxs] at hk; simp only at hk ⊢; rw [hk]; exact .err _
  | [_] => rw [hxs] at hk; simp only at hk ⊢; rw [hk]; exact .err _

/-! ### The filters -/

theorem tap3_mul {u τ τ' G G' : R} {K : KernelsN R} (hK : FloatKernelsN u K) (hτ : 1 ≤ τ) (hτ' : 1 ≤ τ') {a b : R}
    {p q : R × R × R} (h : Tap3 τ G a p) (h' : Tap3 τ' G' b q) :
    Tap3 (τ * τ' * (1 + u)) (G * G') (K.mul a b) (p * q) := by
  obtain ⟨δ, hδ, e⟩ := hK.mul a b
  have hu := hK.unit
  obtain ⟨h1, h2, h3⟩ := h
  obtain ⟨k1, k2, k3⟩ := h'
  have hp : 0 ≤ p.2.1 := (abs_nonneg _).trans h1
  have hq : 0 ≤ q.2.1 := (abs_nonneg _).trans k1
  have ha : |a| ≤ τ * p.2.1 := by
    have := abs_add_le (a - p.1) p.1
    rw [sub_add_cancel] at this
    linarith
  have hb : |b| ≤ τ' * q.2.1 := by
    have := abs_add_le (b - q.1) q.1
    rw [sub_add_cancel] at this
    linarith
  have hPQ : 0 ≤ p.2.1 * q.2.1 := mul_nonneg hp hq
  refine ⟨?_, ?_, ?_⟩
  · simp only [Prod.fst_mul, Prod.snd_mul, abs_mul]
    exact mul_le_mul h1 k1 (abs_nonneg _) hp
  · simp only [Prod.fst_mul, Prod.snd_mul]
    rw [e, show a * b * (1 + δ) - p.1 * q.1 = (a - p.1) * b + p.1 * (b - q.1) + δ * (a * b) by ring]
    have r1 : |(a - p.1) * b| ≤ (τ - 1) * p.2.1 * (τ' * q.2.1) := by
      rw [abs_mul]; exact mul_le_mul h2 hb (abs_nonneg _) (mul_nonneg (by linarith) hp)
    have r2 : |p.1 * (b - q.1)| ≤ p.2.1 * ((τ' - 1) * q.2.1) := by
      rw [abs_mul]; exact mul_le_mul h1 k2 (abs_nonneg _) hp
    have r3 : |δ * (a * b)| ≤ u * ((τ * p.2.1) * (τ' * q.2.1)) := by
      rw [abs_mul, abs_mul]
      exact mul_le_mul hδ (mul_le_mul ha hb (abs_nonneg _) (mul_nonneg (by linarith) hp))
        (mul_nonneg (abs_nonneg _) (abs_nonneg _)) hu
    have t1 := abs_add_le ((a - p.1) * b + p.1 * (b - q.1)) (δ * (a * b))
    have t2 := abs_add_le ((a - p.1) * b) (p.1 * (b - q.1))
    have : (τ - 1) * p.2.1 * (τ' * q.2.1) + p.2.1 * ((τ' - 1) * q.2.1) + u * ((τ * p.2.1) * (τ' * q.2.1)) =
        (τ * τ' * (1 + u) - 1) * (p.2.1 * q.2.1) := by ring
    linarith
  · simp only [Prod.snd_mul, Prod.fst_mul]
    rw [h3, k3]; ring

theorem outerF_rel {u τ τ' G G' : R} {K : KernelsN R} (hK : FloatKernelsN u K) (hτ : 1 ≤ τ) (hτ' : 1 ≤ τ')
    {a b : Tensor R} {p q : Tensor (R × R × R)} (h : TRel (Tap3 τ G) a p) (h' : TRel (Tap3 τ' G') b q) :
    TRel (Tap3 (τ * τ' * (1 + u)) (G * G')) (outerF K a b) (outer p q) := by
  unfold outerF Verif.outer
  rw [h.md, h.shape, h'.shape]
  exact TRel.ofFn (tap3_zero _ _) _ _ fun i => tap3_mul hK hτ hτ' (h.get _) (h'.get _)

theorem tap3_relN {u g : R} {K : KernelsN R} (hK : FloatKernelsN u K) (dt : DType) (a : R) :
    Tap3 (1 + u) g (K.tap dt a) (tap3 g a) := by
  obtain ⟨δ, hδ, e⟩ := hK.tap dt a
  refine ⟨le_rfl, ?_, rfl⟩
  show |K.tap dt a - a| ≤ (1 + u - 1) * |a|
  rw [e, show a * (1 + δ) - a = δ * a by ring, abs_mul, show (1 + u - 1 : R) = u by ring]
  exact mul_le_mul_of_nonneg_right hδ (abs_nonneg _)

theorem createTensorFN_rel {u g : R} {K : KernelsN R} (hK : FloatKernelsN u K) (f : List R) (flip : Bool) (md : Meta) :
    TRel (Tap3 (1 + u) g) (createTensorFN K f flip md) (createTensor (f.map (tap3 g)) flip md) := by
  refine TRel.createTensor (tap3_zero _ _) ?_ flip md
  rw [List.forall₂_map_left_iff, List.forall₂_map_right_iff]
  exact List.forall₂_same.mpr fun a _ => tap3_relN hK _ a

theorem createTensorFN_shape (K : KernelsN R) (f : List R) (flip : Bool) (md : Meta) :
    (createTensorFN K f flip md).shape = [1, f.length] := by simp [createTensorFN, createTensor]

end Verif
