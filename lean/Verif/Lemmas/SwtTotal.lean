/-
`swt` never fails on a non-empty signal, and every coefficient tensor has the size of the input, also
for the levels whose wrap-around is not the periodic extension.
-/
import Verif.Lemmas.SwtTop

namespace Verif
open Tensor Spec
variable {R : Type}

theorem circularPadLoop_shape [NonUnitalNonAssocSemiring R] {n : Nat} (hn : 0 < n) :
    ∀ (fuel : Nat) {x : Tensor R} {p q : Nat}, 0 < x.rank → n ≤ x.shape.getD (x.rank - 1) 0 →
      p + q < fuel →
      ∃ u, circularPadLoop n fuel x [p, q] = .ok u ∧ u.md = x.md ∧
        u.shape = x.shape.set (x.rank - 1) (p + x.shape.getD (x.rank - 1) 0 + q)
  | 0, _, _, _, _, _, h => absurd h (by omega)
  | fuel + 1, x, p, q, hr, hs, hf => by
    set a := x.rank - 1 with ha
    have ha' : a < x.shape.length := by have : x.rank = x.shape.length := rfl; omega
    by_cases hpq : p = 0 ∧ q = 0
    · obtain ⟨rfl, rfl⟩ := hpq
      refine ⟨x, ?_, rfl, ?_⟩
      · unfold circularPadLoop
        rw [if_neg (by simp)]
      · rw [Nat.zero_add, Nat.add_zero, set_getD_self ha']
    · obtain ⟨y, ey, hy⟩ := pad_circular_ok (t := x) (l := min n p) (r := min n q) hr
        (by rw [← ha]; omega) (by rw [← ha]; omega)
      rw [← ha] at hy
      have hyr : y.rank = x.rank := hy.rank
      have hys := hy.size (a := a) (t := x) (by omega)
      obtain ⟨u, eu, hm, hu⟩ := circularPadLoop_shape hn fuel (x := y) (p := p - n) (q := q - n)
        (by omega) (by rw [hyr, ← ha, hys]; omega) (by omega)
      rw [hyr, ← ha] at hu
      refine ⟨u, ?_, hm.trans hy.md, ?_⟩
      · unfold circularPadLoop
        rw [if_pos (by simp only [List.any_cons, List.any_nil, Bool.or_false, Bool.or_eq_true,
          decide_eq_true_eq]; omega)]
        simp only [List.map_cons, List.map_nil, bind, Except.bind, ey]
        exact eu
      · rw [hu, hys, hy.shape, List.set_set]; congr 1; omega

theorem circularPad_shape [NonUnitalNonAssocSemiring R] {x : Tensor R} {p q : Nat}
    (hr : 0 < x.rank) (hn : 0 < x.shape.getD (x.rank - 1) 0) :
    ∃ u, circularPad x [p, q] = .ok u ∧ u.md = x.md ∧
      u.shape = x.shape.set (x.rank - 1) (p + x.shape.getD (x.rank - 1) 0 + q) := by
  have e : x.sizeFromEnd 1 = x.shape.getD (x.rank - 1) 0 := rfl
  unfold circularPad
  simp only [e]
  by_cases h : p ≤ x.shape.getD (x.rank - 1) 0 ∧ q ≤ x.shape.getD (x.rank - 1) 0
  · rw [if_neg (by simp only [List.any_cons, List.any_nil, Bool.or_false, Bool.or_eq_true,
      decide_eq_true_eq]; omega)]
    obtain ⟨u, eu, hu⟩ := pad_circular_ok hr h.1 h.2
    exact ⟨u, eu, hu.md, hu.shape⟩
  · rw [if_pos (by simp only [List.any_cons, List.any_nil, Bool.or_false, Bool.or_eq_true,
      decide_eq_true_eq]; omega)]
    exact circularPadLoop_shape hn _ hr (le_refl _) (by simp)

theorem swtLoop_total [NonUnitalNonAssocSemiring R] {filt : Tensor R}
    {md : Meta} {B n F : Nat} (hF : 2 ≤ F) (he : F % 2 = 0) (hn : 0 < n) (hfm : filt.md = md)
    (hfs : filt.shape = [2, 1, F]) :
    ∀ (L s : Nat) {t : Tensor R}, t.md = md → t.shape = [B, 1, n] →
      ∃ r ds, swtLoop filt F L s t = .ok (r, ds) ∧ r.md = md ∧ r.shape = [B, 1, n] ∧
        ds.length = L ∧ ∀ d ∈ ds, d.md = md ∧ d.shape = [B, n]
  | 0, s, t, hm, hs => ⟨t, [], rfl, hm, hs, rfl, by simp⟩
  | L + 1, s, t, hm, hs => by
    have hrk : t.rank = 3 := by unfold Tensor.rank; rw [hs]; rfl
    have hsz : t.shape.getD (t.rank - 1) 0 = n := by rw [hrk, hs]; rfl
    obtain ⟨p, ep, hpm, hps⟩ := circularPad_shape (x := t) (p := 2 ^ s * (F / 2 - 1))
      (q := 2 ^ s * (F / 2)) (by omega) (by omega)
    rw [hsz, hrk, hs] at hps
    have hps' : p.shape = [B, 1, 2 ^ s * (F / 2 - 1) + n + 2 ^ s * (F / 2)] := hps
    have hd : 0 < 2 ^ s := Nat.two_pow_pos s
    have harith : 2 ^ s * (F / 2 - 1) + 2 ^ s * (F / 2) = 2 ^ s * (F - 1) := by
      rw [← Nat.mul_add]; congr 1; omega
    have hc : ∃ res, conv1d p filt 1 (2 ^ s) = .ok res ∧ res.md = md ∧ res.shape = [B, 2, n] := by
      unfold conv1d
      rw [hps', hfs]
      simp only []
      rw [if_pos (by
        refine ⟨trivial, by rw [hpm, hm, hfm], by omega, ?_⟩
        all_goals first | omega | (refine ⟨?_, ?_⟩ <;> omega))]
      refine ⟨_, rfl, by show p.md = md; rw [hpm, hm], ?_⟩
      show [B, 2, _] = _
      simp only [List.cons.injEq, and_true, true_and]
      simp only [Nat.div_one]
      omega
    obtain ⟨res, er, r1, r2⟩ := hc
    obtain ⟨lo, hi, es, l1, l2, l3, l4, -⟩ := split1_two r2
    obtain ⟨r, ds, e, h1, h2, h3, h4⟩ := swtLoop_total hF he hn hfm hfs L (s + 1)
      (t := lo) (l1.trans r1) l3
    refine ⟨r, hi.squeeze1 :: ds, ?_, h1, h2, by simp [h3], ?_⟩
    · unfold swtLoop
      simp only [bind, Except.bind, ep, er, es, e]
      rfl
    · intro d hd
      rcases List.mem_cons.mp hd with rfl | hd
      · obtain ⟨q1, q2, -⟩ := squeeze1_ok l4
        exact ⟨q1.trans (l2.trans r1), q2⟩
      · exact h4 d hd

theorem swt_total [NonUnitalNonAssocSemiring R] {w : Wavelet R} {x : Tensor R}
    {level : Option Int} {h : AxisHint} (hg : GoodAxes h x.rank 1)
    (hdt : isDtypeSupported x.md.dtype = true) (hF : 2 ≤ w.len) (he : w.len % 2 = 0)
    (hhi : w.decHi.length = w.len) (hn : 0 < x.shape.getD (axis1 h x.rank) 0) :
    ∃ cs, swt x w level h = .ok cs ∧
      cs.length = swtLevel level (x.shape.getD (axis1 h x.rank) 0) + 1 ∧
      ∀ c ∈ cs, c.md = x.md ∧ c.shape = x.shape := by
  obtain ⟨y, e, hy⟩ := preprocessTensor_ch hg hdt
  obtain ⟨filt, ef, f1, f2, -⟩ := filt_ok w.decLo w.decHi w.len rfl hhi true x.md
  have hm : (withChannel y).md = x.md := by rw [withChannel_md, hy.md]
  have hsc := withChannel_showsCh hg hy
  have hsz : (withChannel y).sizeFromEnd 1 = x.shape.getD (axis1 h x.rank) 0 := by
    unfold Tensor.sizeFromEnd; rw [hsc.shape]; rfl
  set n := x.shape.getD (axis1 h x.rank) 0 with hnn
  set L := swtLevel level n with hL
  obtain ⟨r, ds, el, hrm, hrs, hdl, hds⟩ := swtLoop_total hF he hn f1 f2 L 0
    hsc.md hsc.shape
  set bs := pick (batchAxes x.rank (axesOf h x.rank 1)) x.shape with hbs
  have hbl := hg.batch_len
  have hsq : r.squeeze1.md = x.md ∧ r.squeeze1.shape = [prodL bs, n] := by
    obtain ⟨q1, q2, -⟩ := squeeze1_ok hrs
    exact ⟨q1.trans hrm, q2⟩
  have hall0 : ∀ t ∈ assemble (r, ds), t.md = x.md ∧ t.shape = [prodL bs, n] := by
    intro t ht
    unfold assemble at ht
    rw [List.mem_reverse, List.mem_append, List.mem_singleton] at ht
    rcases ht with ht | rfl
    · exact hds t ht
    · exact hsq
  have hall : ∀ t ∈ assemble (r, ds), ∃ ks, ks.length = 1 ∧ t.shape = prodL bs :: ks :=
    fun t ht => ⟨[n], rfl, (hall0 t ht).2⟩
  obtain ⟨c', ep, rel⟩ := postprocessCoeffs_ok hg (c := Coeffs.ofList (assemble (r, ds)))
    (ds := pick (batchAxes x.rank (axesOf h x.rank 1) ++ axesOf h x.rank 1) x.shape) (bs := bs)
    (by rw [pick_length]; exact (isPerm_axes hg.nodup hg.lt).len)
    (by rw [take_pick hbl hg.axes_len])
    (ofList_wf (by simp [assemble]) hall)
  obtain ⟨us, rfl, hf⟩ := rel.ofList
  refine ⟨us, ?_, ?_, ?_⟩
  · have el' : swtLoop filt w.decLo.length L 0 (withChannel y) = .ok (r, ds) := el
    unfold swt
    simp only [bind, Except.bind, e, hm, ef, hsz, ← hL, el', ep, toList_ofList]
    rfl
  · rw [← hf.length_eq]; simp [assemble, hdl]
  · intro c hc
    obtain ⟨i, hi⟩ := List.getElem?_of_mem hc
    obtain ⟨u, hu, h1, h2, h3⟩ := forall₂_getElem? hf hi
    obtain ⟨q1, q2⟩ := hall0 u (List.mem_of_getElem? hu)
    refine ⟨h3.md.symm.trans q1, ?_⟩
    have hp : IsPerm (batchAxes x.rank (axesOf h x.rank 1) ++ axesOf h x.rank 1) x.rank :=
      isPerm_axes hg.nodup hg.lt
    apply hp.pick_inj h1 rfl
    rw [pick_append, pick_append, h2]
    congr 1
    have e := h3.shape
    rw [q2, h1] at e
    rw [axesOf_one hg] at e ⊢
    simp only [List.cons.injEq, pick, List.map_cons, List.map_nil, and_true] at e ⊢
    exact e.2.symm

theorem swtA_congr [NonUnitalNonAssocSemiring R] {n : Nat} (hn : 0 < n) (w : Wavelet R)
    {v v' : Nat → R} (h : ∀ j, j < n → v j = v' j) : ∀ (L k : Nat), k < n →
    swtA w n v L k = swtA w n v' L k
  | 0, k, hk => h k hk
  | L + 1, k, _ => swtStep_congr hn (fun j hj => swtA_congr hn w h L j hj) _ _ _

theorem swtD_congr [NonUnitalNonAssocSemiring R] {n : Nat} (hn : 0 < n) (w : Wavelet R)
    {v v' : Nat → R} (h : ∀ j, j < n → v j = v' j) (L k : Nat) :
    swtD w n v L k = swtD w n v' L k :=
  swtStep_congr hn (fun j hj => swtA_congr hn w h L j hj) _ _ _

end Verif
