/-
Matrices acting on one axis of a tensor.
-/
import Verif.Lemmas.Sparse
import Verif.Spec.Sparse
import Verif.Lemmas.SepRec

namespace Verif
open Tensor Spec
variable {R : Type}

theorem swp_comm (a b : Nat) (l : List Nat) (ha : a < l.length) (hb : b < l.length) :
    swp a b l = swp b a l := by
  apply list_eq_getD (by simp [swp_length])
  intro i _
  rw [swp_getD ha hb, swp_getD hb ha]
  split_ifs with h1 h2 h3
  · rw [← h2, h1]
  · rfl
  · rfl
  · rfl

theorem transpose_swp_get [Zero R] {t : Tensor R} {a b : Nat} {i : List Nat}
    (h : InB (swp a b t.shape) i) : (t.transpose a b).get i = t.get (swp a b i) :=
  ofFn_get_of _ _ h

theorem reshapeInfer_post [Zero R] {t : Tensor R} {Q : List Nat} {n : Nat} (hs : t.shape = Q ++ [n])
    (hn : 1 ≤ n) :
    ∃ u, t.reshapeInfer [] [n] = .ok u ∧ u.md = t.md ∧ u.shape = [prodL Q, n] ∧
      ∀ q j, InB Q q → j < n → u.get [ravel Q q, j] = t.get (q ++ [j]) := by
  obtain ⟨u, eu, hm, hsh, hg⟩ := reshape_ok (t := t) (sh := [prodL Q, n]) (by
    rw [hs, prodL_append]; simp)
  refine ⟨u, ?_, hm, hsh, ?_⟩
  · unfold Tensor.reshapeInfer
    have e : prodL t.shape = prodL Q * n := by rw [hs, prodL_append]; simp
    simp only [prodL_nil, prodL_cons, Nat.one_mul, Nat.mul_one, List.nil_append]
    rw [if_neg (by omega), e, if_pos (Nat.mul_mod_left _ _), Nat.mul_div_cancel _ (by omega)]
    exact eu
  · intro q j hq hj
    apply hg
    · rw [hs]; exact inB_concat.mpr ⟨hq, hj⟩
    · exact ⟨ravel_lt hq, hj, trivial⟩
    · rw [hs, ravel_append hq.length_eq]
      simp [ravel, prodL]

theorem matT_get [Zero R] {t : Tensor R} {m n i j : Nat} (hs : t.shape = [m, n]) (hi : i < n) (hj : j < m) :
    t.matT.get [i, j] = t.get [j, i] := by
  unfold Tensor.matT
  rw [transpose_swp_get (by rw [hs]; exact ⟨hi, hj, trivial⟩)]
  rfl

theorem matT_shape [Zero R] {t : Tensor R} {m n : Nat} (hs : t.shape = [m, n]) :
    t.matT.shape = [n, m] := by
  show swp 0 1 t.shape = _
  rw [hs]; rfl

/-- A matrix applied along the last axis. -/
theorem mulLast_ok [NonUnitalNonAssocSemiring R] {A : Coo R} {t : Tensor R} {Q : List Nat}
    (hs : t.shape = Q ++ [A.cols]) (hm : A.md = t.md) (hn : 1 ≤ A.cols) :
    ∃ v y z, t.reshapeInfer [] [A.cols] = .ok v ∧ A.mmDense v.matT = .ok y ∧
      y.matT.reshape (Q ++ [A.rows]) = .ok z ∧ z.md = t.md ∧ z.shape = Q ++ [A.rows] ∧
      ∀ q i, InB Q q → i < A.rows →
        z.get (q ++ [i]) = ∑ j ∈ Finset.range A.cols, A.den i j * t.get (q ++ [j]) := by
  obtain ⟨v, ev, vm, vs, vg⟩ := reshapeInfer_post hs hn
  obtain ⟨y, ey, ym, ys, yg⟩ := Coo.mmDense_ok (A := A) (X := v.matT) (k := prodL Q)
    (matT_shape vs) (by rw [hm]; exact vm.symm)
  obtain ⟨z, ez, zm, zs, zg⟩ := unflatLast_ok (t := y.matT) (Q := Q) (K := A.rows) (matT_shape ys)
  refine ⟨v, y, z, ev, ey, ez, zm.trans (ym.trans vm), zs, ?_⟩
  intro q i hq hi
  rw [zg q i hq hi, matT_get ys (ravel_lt hq) hi, yg i _ hi (ravel_lt hq)]
  apply Finset.sum_congr rfl
  intro j hj
  have hj := Finset.mem_range.mp hj
  rw [matT_get vs hj (ravel_lt hq), vg q j hq hj]

/-- `_batch_dim_mm` multiplies the lines along one axis by the matrix. -/
theorem batchDimMm_ok [NonUnitalNonAssocSemiring R] {A : Coo R} {X : Tensor R} {dim : Int} {d : Nat}
    (hd : normAxis X.rank dim = .ok d) (hdr : d < X.rank) (hc : X.shape.getD d 0 = A.cols)
    (hm : A.md = X.md) (hn : 1 ≤ A.cols) :
    ∃ z, batchDimMm A X dim = .ok z ∧ MulAlong A.den A.rows A.cols d X z := by
  set r := X.rank with hr
  have hlr : r - 1 < X.shape.length := by show _ < X.rank; omega
  have hdl : d < X.shape.length := hdr
  set p := X.transpose d (r - 1) with hp
  have hps : p.shape = swp d (r - 1) X.shape := rfl
  have hpl : 0 < p.shape.length := by rw [hps, swp_length]; omega
  have hlast : p.shape.getD (p.shape.length - 1) 0 = A.cols := by
    rw [hps, swp_length, show X.shape.length - 1 = r - 1 from rfl, swp_getD hdl hlr, if_pos rfl]
    exact hc
  set Q := p.shape.dropLast with hQ
  have hps' : p.shape = Q ++ [A.cols] := by
    conv_lhs => rw [last_eq hpl]
    rw [hlast]
  have hQl : Q.length = r - 1 := by
    rw [hQ, List.length_dropLast, hps, swp_length]; rfl
  obtain ⟨v, y, z, ev, ey, ez, zm, zs, zg⟩ := mulLast_ok (A := A) (t := p) hps' hm hn
  refine ⟨z.transpose (r - 1) d, ?_, ?_⟩
  · unfold batchDimMm
    simp only [bind, Except.bind, ← hr, hd, ← hp]
    rw [hc, ev]
    simp only [ey]
    rw [← hQ, ez]
    rfl
  have hzl : z.shape.length = X.shape.length := by
    rw [zs, List.length_append, hQl]
    show r - 1 + 1 = r
    omega
  have hzs : z.shape = (swp d (r - 1) X.shape).set (r - 1) A.rows := by
    rw [zs, ← hps, hps']
    rw [show r - 1 = Q.length from hQl.symm]
    simp
  have hss : (z.transpose (r - 1) d).shape = X.shape.set d A.rows := by
    show swp (r - 1) d z.shape = _
    rw [hzs, swp_comm d (r - 1) X.shape hdl hlr, swp_set' hlr hdl]
  refine ⟨zm, hss, ?_⟩
  intro idx hidx
  have hil : idx.length = X.shape.length := by rw [hidx.length_eq, hss, List.length_set]
  rw [transpose_swp_get hidx]
  set jdx := swp (r - 1) d idx with hj
  have hjl : jdx.length = r := by rw [hj, swp_length, hil]; rfl
  have hin : InB z.shape jdx := by
    have h1 : InB (swp (r - 1) d z.shape) idx := hidx
    have := inB_swp (a := r - 1) (b := d) (by rw [swp_length, hzl]; exact hlr)
      (by rw [swp_length, hzl]; exact hdl) h1
    rwa [swp_swp (by rw [hzl]; exact hlr) (by rw [hzl]; exact hdl)] at this
  have hjlast : jdx = jdx.dropLast ++ [idx.getD d 0] := by
    conv_lhs => rw [last_eq (l := jdx) (by omega)]
    congr 2
    rw [hjl, hj, swp_getD (by omega) (by omega)]
    by_cases h : r - 1 = d
    · rw [if_pos h, h]
    · rw [if_neg h, if_pos rfl]
  rw [zs] at hin
  rw [hjlast] at hin ⊢
  obtain ⟨hq, hi⟩ := inB_concat.mp hin
  rw [zg _ _ hq hi]
  apply Finset.sum_congr rfl
  intro j hjr
  have hjr := Finset.mem_range.mp hjr
  congr 1
  have hpin : InB (swp d (r - 1) X.shape) (jdx.dropLast ++ [j]) := by
    rw [← hps, hps']; exact inB_concat.mpr ⟨hq, hjr⟩
  rw [hp, transpose_swp_get hpin]
  unfold line
  congr 1
  have e1 : jdx.dropLast ++ [j] = jdx.set (r - 1) j := by
    have : r - 1 = jdx.length - 1 := by omega
    rw [this, set_last (by omega)]
  rw [e1, swp_comm d (r - 1) _ (by simp; omega) (by simp; omega), hj,
    swp_set' (by omega) (by omega)]

/-- `batch_mm` for a batch of matrices. -/
theorem batchMm_ok [NonUnitalNonAssocSemiring R] {A : Coo R} {X : Tensor R} {b k : Nat}
    (hs : X.shape = [b, A.cols, k]) (hm : A.md = X.md) (hn : 1 ≤ A.cols) (hr : 1 ≤ A.rows) (hb : 1 ≤ b) :
    ∃ z, batchMm A X = .ok z ∧ MulAlong A.den A.rows A.cols 1 X z := by
  set t := X.transpose 0 1 with ht
  have hts : t.shape = [A.cols, b, k] := by show swp 0 1 X.shape = _; rw [hs]; rfl
  obtain ⟨v, ev, vm, vs, vg⟩ := reshape_ok (t := t) (sh := [A.cols, b * k]) (by
    rw [hts]; simp)
  obtain ⟨y, ey, ym, ys, yg⟩ := Coo.mmDense_ok (A := A) (X := v) (k := b * k) vs (by rw [hm]; exact vm.symm)
  obtain ⟨z, ez, zm, zs, zg⟩ := reshape_ok (t := y) (sh := [A.rows, b, k]) (by
    rw [ys]; simp)
  refine ⟨z.transpose 1 0, ?_, ?_⟩
  · unfold batchMm
    have hrank : X.rank = 3 := by unfold Tensor.rank; rw [hs]; rfl
    rw [hrank, hs]
    simp only [bind, Except.bind, ← ht]
    have e1 : t.reshapeInfer [A.cols] [] = .ok v := by
      unfold Tensor.reshapeInfer
      have e : prodL t.shape = b * k * A.cols := by rw [hts]; simp; ring
      simp only [prodL_nil, prodL_cons, Nat.mul_one]
      rw [if_neg (by omega), e, if_pos (Nat.mul_mod_left _ _), Nat.mul_div_cancel _ (by omega)]
      exact ev
    have e2 : y.reshapeInfer [A.rows, b] [] = .ok z := by
      unfold Tensor.reshapeInfer
      have e : prodL y.shape = k * (A.rows * b) := by rw [ys]; simp; ring
      simp only [prodL_nil, prodL_cons, Nat.mul_one]
      have : 0 < A.rows * b := Nat.mul_pos (by omega) (by omega)
      rw [if_neg (by omega), e, if_pos (Nat.mul_mod_left _ _), Nat.mul_div_cancel _ this]
      exact ez
    simp [e1, ey, e2, pure, Except.pure]
  have hss : (z.transpose 1 0).shape = X.shape.set 1 A.rows := by
    show swp 1 0 z.shape = _
    rw [zs, hs]; rfl
  refine ⟨zm.trans (ym.trans vm), hss, ?_⟩
  intro idx hidx
  have hidx' := hidx
  rw [hss, hs] at hidx
  have hl := hidx.length_eq
  simp at hl
  obtain ⟨β, i, κ, rfl⟩ : ∃ β i κ, idx = [β, i, κ] := by
    match idx, hl with
    | [β, i, κ], _ => exact ⟨β, i, κ, rfl⟩
  obtain ⟨h1, h2, h3, -⟩ := hidx
  rw [transpose_swp_get hidx']
  show z.get [i, β, κ] = _
  have hlt : β * k + κ < b * k := by
    calc β * k + κ < β * k + k := by omega
      _ = (β + 1) * k := by ring
      _ ≤ b * k := Nat.mul_le_mul_right k h1
  rw [zg [i, β * k + κ] [i, β, κ] (by rw [ys]; exact ⟨h2, hlt, trivial⟩) ⟨h2, h1, h3, trivial⟩
    (by rw [ys]; simp [ravel, prodL])]
  rw [yg i _ h2 hlt]
  apply Finset.sum_congr rfl
  intro j hj
  have hj := Finset.mem_range.mp hj
  congr 1
  rw [vg [j, β, κ] [j, β * k + κ] (by rw [hts]; exact ⟨hj, h1, h3, trivial⟩) ⟨hj, hlt, trivial⟩
    (by rw [hts]; simp [ravel, prodL])]
  rw [ht, transpose_swp_get (by rw [hs]; exact ⟨hj, h1, h3, trivial⟩)]
  rfl

theorem batchMm_bad [NonUnitalNonAssocSemiring R] {A : Coo R} {X : Tensor R} (hr : 2 ≤ X.rank)
    (hc : A.cols ≠ X.shape.getD 1 0) : batchMm A X = .error .valueError := by
  unfold batchMm
  rw [if_neg (by omega), if_pos hc]
  rfl

end Verif
