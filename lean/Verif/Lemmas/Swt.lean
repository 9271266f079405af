import Verif.Lemmas.CircPad
import Verif.Lemmas.Top1

/-! The stationary transform. -/

namespace Verif
open Tensor Spec
variable {R : Type}

theorem swtStep_congr [NonUnitalNonAssocSemiring R] {n : Nat} (hn : 0 < n) {x y : Nat → R}
    (hxy : ∀ j, j < n → x j = y j) (h : List R) (d k : Nat) :
    swtStep h d n x k = swtStep h d n y k := by
  unfold swtStep
  refine Finset.sum_congr rfl fun i _ => ?_
  rw [ext_congr hn hxy]

/-- One convolution of `swt` on the padded signal. -/
theorem swtConv_ok [NonUnitalNonAssocSemiring R] {t u filt : Tensor R}
    {B n F d : Nat} (lo hi : List R) (hF : 2 ≤ F) (he : F % 2 = 0) (hn : 0 < n)
    (hs : t.shape = [B, 1, n])
    (hlo : lo.length = F) (hhi : hi.length = F)
    (hu : Extended .periodic t 2 (d * (F / 2 - 1)) (d * (F / 2)) u)
    (hmd : filt.md = t.md) (hfs : filt.shape = [2, 1, F])
    (hfg : ∀ o j, o < 2 → j < F → filt.get [o, 0, j] = (if o = 0 then lo else hi).getD (F - 1 - j) 0) :
    ∃ res, conv1d u filt 1 d = .ok res ∧ res.md = t.md ∧ res.shape = [B, 2, n] ∧
      ∀ b o k, b < B → o < 2 → k < n →
        res.get [b, o, k] = swtStep (if o = 0 then lo else hi) d n (fun j => t.get [b, 0, j]) k := by
  have hn' : t.shape.getD 2 0 = n := by rw [hs]; rfl
  have hus : u.shape = [B, 1, d * (F / 2 - 1) + n + d * (F / 2)] := by rw [hu.shape, hn', hs]; rfl
  have hdF : d * (F / 2 - 1) + d * (F / 2) = d * (F - 1) := by
    rw [← Nat.mul_add]; congr 1; omega
  unfold conv1d
  rw [hus, hfs]
  simp only
  rw [if_pos ⟨trivial, hu.md.trans hmd.symm, by omega, by omega, by omega⟩]
  have hK : (d * (F / 2 - 1) + n + d * (F / 2) - d * (F - 1) - 1) / 1 + 1 = n := by
    rw [Nat.div_one]; omega
  refine ⟨_, rfl, hu.md, by rw [ofFn_shape, hK], ?_⟩
  intro b o k hb ho hk
  rw [ofFn_get_of _ _ (by rw [hK]; exact ⟨hb, ho, hk, trivial⟩)]
  simp only [Finset.range_one, Finset.sum_singleton]
  unfold swtStep
  have hl : (if o = 0 then lo else hi).length = F := by split_ifs <;> assumption
  rw [hl, ← Finset.sum_range_reflect]
  refine Finset.sum_congr rfl fun j hj => ?_
  rw [Finset.mem_range] at hj
  rw [hfg o (F - 1 - j) ho (by omega), show F - 1 - (F - 1 - j) = j by omega]
  congr 1
  have hle : d * (F - 1 - j) ≤ d * (F - 1) := Nat.mul_le_mul_left d (by omega)
  have hin : InB u.shape [b, 0, 1 * k + d * (F - 1 - j)] := by
    rw [hus]
    exact ⟨hb, Nat.one_pos, by omega, trivial⟩
  rw [hu.get _ hin, hn']
  show ext .periodic n (fun j => t.get [b, 0, j]) _ = _
  congr 1
  simp only [List.getD_cons_succ, List.getD_cons_zero]
  have e1 : ((F - 1 - j : ℕ) : ℤ) = (F : ℤ) - 1 - j := by omega
  have e2 : ((F / 2 - 1 : ℕ) : ℤ) = ((F / 2 : ℕ) : ℤ) - 1 := by omega
  have e3 : (F : ℤ) = 2 * ((F / 2 : ℕ) : ℤ) := by omega
  simp only [Nat.cast_add, Nat.cast_mul, Nat.cast_one, e1, e2, one_mul]
  generalize ((F / 2 : ℕ) : ℤ) = g at *
  rw [e3]
  ring

theorem swtA_shift [NonUnitalNonAssocSemiring R] (w : Wavelet R) (n : Nat) (x : Nat → R) (s : Nat) :
    swtA w n x (s + 1) = swtStep w.decLo (2 ^ s) n (swtA w n x s) := rfl

theorem swtLoop_ok [NonUnitalNonAssocSemiring R] {w : Wavelet R} {filt : Tensor R}
    {md : Meta} {B n : Nat} (hF : 2 ≤ w.len) (he : w.len % 2 = 0) (hhi : w.decHi.length = w.len)
    (hn : 0 < n) (hfm : filt.md = md) (hfs : filt.shape = [2, 1, w.len])
    (hfg : ∀ o j, o < 2 → j < w.len →
      filt.get [o, 0, j] = (if o = 0 then w.decLo else w.decHi).getD (w.len - 1 - j) 0)
    (X : Nat → Nat → R) :
    ∀ (L s : Nat) {t : Tensor R}, ShowsCh t md B n (fun b => swtA w n (X b) s) →
      (∀ i, s ≤ i → i < s + L → 2 ^ i * (w.len / 2) ≤ n ∨ 2 ^ i ∣ n) →
      ∃ r ds, swtLoop filt w.len L s t = .ok (r, ds) ∧
        ShowsCh r md B n (fun b => swtA w n (X b) (s + L)) ∧ ds.length = L ∧
        ∀ i d, ds[i]? = some d → Shows d md B n (fun b => swtD w n (X b) (s + i))
  | 0, s, t, ht, _ => ⟨t, [], rfl, ht, rfl, by simp⟩
  | L + 1, s, t, ht, ha => by
    have hrk : t.rank = 3 := by unfold Tensor.rank; rw [ht.shape]; rfl
    have hsz : t.shape.getD (t.rank - 1) 0 = n := by rw [hrk, ht.shape]; rfl
    obtain ⟨p, ep, hp⟩ := circularPad_ok (t := t) (p := 2 ^ s * (w.len / 2 - 1))
      (q := 2 ^ s * (w.len / 2)) (by omega) (by omega)
      (by rw [hsz]; exact (padGood_swt hn (by omega) (ha s (le_refl _) (by omega))).1)
    rw [hrk] at hp
    obtain ⟨res, er, r1, r2, r3⟩ := swtConv_ok w.decLo w.decHi hF he hn ht.shape rfl hhi hp
      (by rw [hfm, ht.md]) hfs hfg
    obtain ⟨lo, hi, es, l1, l2, l3, l4, l5⟩ := split1_two r2
    have hlo : ShowsCh lo md B n (fun b => swtA w n (X b) (s + 1)) := by
      refine ⟨by rw [l1, r1, ht.md], l3, ?_⟩
      intro b k hb hk
      rw [(l5 b k hb hk).1, r3 b 0 k hb (by omega) hk, if_pos rfl]
      exact swtStep_congr hn (fun j hj => ht.get b j hb hj) _ _ _
    have hhi' : ShowsCh hi md B n (fun b => swtD w n (X b) s) := by
      refine ⟨by rw [l2, r1, ht.md], l4, ?_⟩
      intro b k hb hk
      rw [(l5 b k hb hk).2, r3 b 1 k hb (by omega) hk, if_neg (by omega)]
      exact swtStep_congr hn (fun j hj => ht.get b j hb hj) _ _ _
    obtain ⟨r, ds, e, h1, h2, h3⟩ := swtLoop_ok hF he hhi hn hfm hfs hfg X L (s + 1) hlo
      (fun i h1 h2 => ha i (by omega) (by omega))
    refine ⟨r, hi.squeeze1 :: ds, ?_, ?_, by simp [h2], ?_⟩
    · unfold swtLoop
      simp only [bind, Except.bind, ep, er, es, e]
      rfl
    · rw [show s + (L + 1) = s + 1 + L by omega]; exact h1
    · intro i d hd
      cases i with
      | zero =>
        simp only [List.getElem?_cons_zero, Option.some.injEq] at hd
        subst hd
        exact hhi'.squeeze1
      | succ i =>
        have := h3 i d (by simpa using hd)
        rwa [show s + 1 + i = s + (i + 1) by omega] at this

theorem swt_isSwt [NonUnitalNonAssocSemiring R] {w : Wavelet R} {x : Tensor R}
    {level : Option Int} {h : AxisHint} (hg : GoodAxes h x.rank 1)
    (hdt : isDtypeSupported x.md.dtype = true) (hF : 2 ≤ w.len) (he : w.len % 2 = 0)
    (hhi : w.decHi.length = w.len) (hn : 0 < x.shape.getD (axis1 h x.rank) 0)
    (hadm : WrapOk (x.shape.getD (axis1 h x.rank) 0) w.len
      (swtLevel level (x.shape.getD (axis1 h x.rank) 0))) :
    ∃ cs, swt x w level h = .ok cs ∧
      IsSwt w (axis1 h x.rank) (swtLevel level (x.shape.getD (axis1 h x.rank) 0)) x cs := by
  obtain ⟨y, e, hy⟩ := preprocessTensor_ch hg hdt
  obtain ⟨filt, ef, f1, f2, f3⟩ := filt_ok w.decLo w.decHi w.len rfl hhi true x.md
  have hm : (withChannel y).md = x.md := by rw [withChannel_md, hy.md]
  have hsc := withChannel_showsCh hg hy
  have hsz : (withChannel y).sizeFromEnd 1 = x.shape.getD (axis1 h x.rank) 0 := by
    unfold Tensor.sizeFromEnd; rw [hsc.shape]; rfl
  set n := x.shape.getD (axis1 h x.rank) 0 with hnn
  set L := swtLevel level n with hL
  obtain ⟨r, ds, el, hr, hdl, hds⟩ := swtLoop_ok hF he hhi hn f1 f2 f3 (fun b j => y.get [b, j]) L 0
    hsc (fun i _ hi => hadm i (by omega))
  simp only [Nat.zero_add] at hr hds
  set bs := pick (batchAxes x.rank (axesOf h x.rank 1)) x.shape with hbs
  have hbl := hg.batch_len
  have hall : ∀ t ∈ assemble (r, ds), ∃ ks, ks.length = 1 ∧ t.shape = prodL bs :: ks := by
    intro t ht
    unfold assemble at ht
    rw [List.mem_reverse, List.mem_append, List.mem_singleton] at ht
    rcases ht with ht | rfl
    · obtain ⟨s, hs⟩ := List.getElem?_of_mem ht
      exact ⟨[_], rfl, (hds s t hs).shape⟩
    · exact ⟨[_], rfl, hr.squeeze1.shape⟩
  obtain ⟨c', ep, rel⟩ := postprocessCoeffs_ok hg (c := Coeffs.ofList (assemble (r, ds)))
    (ds := pick (batchAxes x.rank (axesOf h x.rank 1) ++ axesOf h x.rank 1) x.shape) (bs := bs)
    (by rw [pick_length]; exact (isPerm_axes hg.nodup hg.lt).len)
    (by rw [take_pick hbl hg.axes_len])
    (ofList_wf (by simp [assemble]) hall)
  obtain ⟨us, rfl, hf⟩ := rel.ofList
  have hal := assemble_getElem? r ds
  refine ⟨us, ?_, ?_, ?_, ?_⟩
  · have el' : swtLoop filt w.decLo.length L 0 (withChannel y) = .ok (r, ds) := el
    unfold swt
    simp only [bind, Except.bind, e, hm, ef, hsz, ← hL, el', ep, toList_ofList]
    rfl
  · rw [← hf.length_eq]; simp [assemble, hdl]
  · intro t ht
    obtain ⟨u, hu, h1, h2, h3⟩ := forall₂_getElem? hf ht
    rw [hal.1] at hu
    simp only [Option.some.injEq] at hu
    subst hu
    exact alongAxis_of_shows (f := fun v => swtA w n v L) hg hy h1 h2 h3 hr.squeeze1
  · intro s d hs hd
    obtain ⟨u, hu, h1, h2, h3⟩ := forall₂_getElem? hf hd
    rw [← hdl, hal.2 s (by omega)] at hu
    exact alongAxis_of_shows (f := fun v => swtD w n v s) hg hy h1 h2 h3 (hds s u hu)

/-! ### The inverse -/

theorem mean1_two [Field R] {t : Tensor R} {B K : Nat} (hs : t.shape = [B, 2, K]) :
    ∃ r, mean1 t = .ok r ∧ r.md = t.md ∧ r.shape = [B, K] ∧
      ∀ b k, b < B → k < K → r.get [b, k] = (t.get [b, 0, k] + t.get [b, 1, k]) / 2 := by
  unfold mean1
  rw [hs]
  refine ⟨_, rfl, rfl, rfl, ?_⟩
  intro b k hb hk
  rw [ofFn_get_of _ _ (by exact ⟨hb, hk, trivial⟩)]
  simp only [Finset.sum_range_succ, Finset.range_zero, Finset.sum_empty, zero_add]
  norm_num

theorem iswtConv_ok [Field R] {st p filt : Tensor R} {md : Meta} {B n F d : Nat}
    {X Y : Nat → Nat → R} (f₀ f₁ : List R) (hF : 2 ≤ F) (he : F % 2 = 0) (hn : 0 < n) (hd : 0 < d)
    (h0 : f₀.length = F)
    (hs1 : st.md = md) (hs2 : st.shape = [B, 2, n])
    (hs3 : ∀ b k, b < B → k < n → st.get [b, 0, k] = X b k ∧ st.get [b, 1, k] = Y b k)
    (hp : Extended .periodic st 2 (d * (F / 2)) (d * (F / 2 - 1)) p)
    (hmd : filt.md = md) (hfs : filt.shape = [2, 1, F])
    (hfg : ∀ o j, o < 2 → j < F → filt.get [o, 0, j] = (if o = 0 then f₀ else f₁).getD j 0) :
    ∃ y r, convTranspose1dG p filt d (d * (F / 2) + d * (F / 2 - 1)) = .ok y ∧ mean1 y = .ok r ∧
      Shows r md B n (fun b => iswtStep f₀ f₁ d n (X b) (Y b)) := by
  have hn' : st.shape.getD 2 0 = n := by rw [hs2]; rfl
  have hps : p.shape = [B, 2, d * (F / 2) + n + d * (F / 2 - 1)] := by rw [hp.shape, hn', hs2]; rfl
  have hdF : d * (F / 2) + d * (F / 2 - 1) = d * (F - 1) := by
    rw [← Nat.mul_add]; congr 1; omega
  have hy : ∃ y, convTranspose1dG p filt d (d * (F / 2) + d * (F / 2 - 1)) = .ok y ∧ y.md = md ∧
      y.shape = [B, 2, n] ∧ ∀ b c m, b < B → c < 2 → m < n →
        y.get [b, c, m] = ∑ j ∈ Finset.range F, (if c = 0 then f₀ else f₁).getD j 0 *
          ext .periodic n (if c = 0 then X b else Y b)
            ((m : ℤ) + d * ((F / 2 : ℕ) : ℤ) - d - d * j) := by
    unfold convTranspose1dG
    rw [hps, hfs]
    simp only
    have hK : d * (F / 2) + n + d * (F / 2 - 1) + d * (F - 1) - 2 * (d * (F / 2) + d * (F / 2 - 1))
        = n := by omega
    rw [if_pos ⟨trivial, trivial, by rw [hp.md, hs1, hmd], by omega, by omega, by omega, by omega⟩]
    refine ⟨_, rfl, hp.md.trans hs1, by rw [ofFn_shape, hK], ?_⟩
    intro b c m hb hc hm
    rw [ofFn_get_of _ _ (by rw [hK]; exact ⟨hb, hc, hm, trivial⟩)]
    refine Finset.sum_congr rfl fun j hj => ?_
    rw [Finset.mem_range] at hj
    have hle : d * j ≤ d * (F - 1) := Nat.mul_le_mul_left d (by omega)
    rw [Finset.sum_eq_single (m + d * (F - 1) - d * j)]
    · rw [if_pos (by omega), hfg c j hc hj]
      congr 1
      have hin : InB p.shape [b, c, m + d * (F - 1) - d * j] := by
        rw [hps]; exact ⟨hb, hc, by omega, trivial⟩
      rw [hp.get _ hin, hn']
      show ext .periodic n (fun k => st.get [b, c, k]) _ = _
      have hl : ∀ k, k < n → st.get [b, c, k] = (if c = 0 then X b else Y b) k := by
        intro k hk
        have hc' : c = 0 ∨ c = 1 := by omega
        rcases hc' with rfl | rfl
        · rw [if_pos rfl]; exact (hs3 b k hb hk).1
        · rw [if_neg (by omega)]; exact (hs3 b k hb hk).2
      rw [ext_congr hn hl]
      congr 1
      simp only [List.getD_cons_succ, List.getD_cons_zero]
      have e1 : ((F - 1 : ℕ) : ℤ) = 2 * ((F / 2 : ℕ) : ℤ) - 1 := by omega
      rw [Nat.cast_sub (by omega)]
      push_cast [e1]
      ring
    · intro k _ hk
      rw [if_neg (by omega)]
    · intro hk
      exfalso; apply hk
      rw [Finset.mem_range]
      omega
  obtain ⟨y, ey, y1, y2, y3⟩ := hy
  obtain ⟨r, er, r1, r2, r3⟩ := mean1_two y2
  refine ⟨y, r, ey, er, r1.trans y1, r2, ?_⟩
  intro b m hb hm
  rw [r3 b m hb hm, y3 b 0 m hb (by omega) hm, y3 b 1 m hb (by omega) hm]
  unfold iswtStep
  rw [h0, ← Finset.sum_add_distrib]
  rfl

theorem iswtStep_congr [Field R] {n : Nat} (hn : 0 < n) {x y x' y' : Nat → R}
    (hx : ∀ j, j < n → x j = x' j) (hy : ∀ j, j < n → y j = y' j) (f₀ f₁ : List R) (d m : Nat) :
    iswtStep f₀ f₁ d n x y m = iswtStep f₀ f₁ d n x' y' m := by
  unfold iswtStep
  congr 1
  refine Finset.sum_congr rfl fun i _ => ?_
  rw [ext_congr hn hx, ext_congr hn hy]

/-- The loop of `iswt` computes the textbook inverse of arbitrary coefficients. -/
theorem iswtLoop_ok [Field R] {filt : Tensor R} {md : Meta} {B n F : Nat} (f₀ f₁ : List R)
    (hF : 2 ≤ F) (he : F % 2 = 0) (hn : 0 < n) (h0 : f₀.length = F)
    (hmd : filt.md = md) (hfs : filt.shape = [2, 1, F])
    (hfg : ∀ o j, o < 2 → j < F → filt.get [o, 0, j] = (if o = 0 then f₀ else f₁).getD j 0) :
    ∀ (his : List (Tensor R)) (D : List (Nat → Nat → R)) {lo : Tensor R} {X : Nat → Nat → R},
      WrapOk n F his.length → Shows lo md B n X →
      List.Forall₂ (fun t Y => Shows t md B n Y) his D →
      ∃ z, iswtLoop filt F lo his = .ok z ∧
        Shows z md B n (fun b => iswtFrom f₀ f₁ n (X b) (D.map fun Y => Y b))
  | [], D, lo, X, _, hlo, hD => by
    cases hD
    exact ⟨lo, rfl, hlo⟩
  | hi :: rest, _, lo, X, hw, hlo, hD => by
    cases hD with
    | @cons _ Y _ D' hY hD' =>
      obtain ⟨st, es, s1, s2, s3⟩ := stack1_two hlo.shape hY.shape (hY.md.trans hlo.md.symm)
      have hrk : st.rank = 3 := by unfold Tensor.rank; rw [s2]; rfl
      have hsz : st.shape.getD (st.rank - 1) 0 = n := by rw [hrk, s2]; rfl
      have hw0 := hw rest.length (by simp)
      obtain ⟨p, ep, hp⟩ := circularPad_ok (t := st) (p := 2 ^ rest.length * (F / 2))
        (q := 2 ^ rest.length * (F / 2 - 1)) (by omega) (by omega)
        (by rw [hsz]; exact (padGood_swt hn (by omega) hw0).2)
      rw [hrk] at hp
      obtain ⟨y, r, ey, er, hr⟩ := iswtConv_ok (X := X) (Y := Y) f₀ f₁ hF he hn (by positivity) h0
        (s1.trans hlo.md) s2 (by
          intro b k hb hk
          have := s3 b [k] hb ⟨hk, trivial⟩
          rw [hlo.get b k hb hk, hY.get b k hb hk] at this
          exact this) hp hmd hfs hfg
      obtain ⟨z, ez, hz⟩ := iswtLoop_ok f₀ f₁ hF he hn h0 hmd hfs hfg rest D'
        (fun s hs => hw s (by simp only [List.length_cons]; omega)) hr hD'
      refine ⟨z, ?_, ?_⟩
      · unfold iswtLoop
        simp only [bind, Except.bind, es, ep, ey, er]
        exact ez
      · have hl : D'.length = rest.length := hD'.length_eq.symm
        simp only [List.map_cons, iswtFrom, List.length_map, hl]
        exact hz

/-- Perfect reconstruction of one undecimated step. -/
theorem iswtStep_swtStep [Field R] [CharZero R] {w : Wavelet R} {F n d : Nat} (hl : HasLen w F)
    (hw : NoDistortion w F) (hF : 2 ≤ F) (he : F % 2 = 0) (hn : 0 < n) (x : Nat → R) {m : Nat}
    (hm : m < n) :
    iswtStep w.recLo w.recHi d n (swtStep w.decLo d n x) (swtStep w.decHi d n x) m = x m := by
  obtain ⟨l1, l2, l3, l4⟩ := hl
  -- the extension of a filtered periodic signal
  have hext : ∀ (h : List R) (i : ℤ), h.length = F → ext .periodic n (swtStep h d n x) i
      = ∑ j ∈ Finset.range F, tap h j * ext .periodic n x (i + d * ((F / 2 : ℕ) : ℤ) - d * j) := by
    intro h i hh
    show swtStep h d n x (i % n).toNat = _
    unfold swtStep
    rw [hh]
    refine Finset.sum_congr rfl fun j _ => ?_
    rw [tap_nat]
    congr 1
    apply ext_periodic_congr
    have h1 := Int.emod_nonneg i (b := (n : ℤ)) (by omega)
    have h2 := Int.emod_add_mul_ediv i (n : ℤ)
    rw [Int.toNat_of_nonneg h1]
    refine ⟨-(i / n), ?_⟩
    linarith
  unfold iswtStep
  rw [l3]
  have key : ∑ j ∈ Finset.range F,
      (w.recLo.getD j 0 * ext .periodic n (swtStep w.decLo d n x)
          ((m : ℤ) + d * ((F / 2 : ℕ) : ℤ) - d - d * j)
        + w.recHi.getD j 0 * ext .periodic n (swtStep w.decHi d n x)
          ((m : ℤ) + d * ((F / 2 : ℕ) : ℤ) - d - d * j)) = 2 * x m := by
    set e : ℕ → R := fun s => ext .periodic n x ((m : ℤ) + d * ((F : ℤ) - 1) - d * s) with hee
    have e1 : ∀ t ∈ Finset.range F,
        (w.recLo.getD t 0 * ext .periodic n (swtStep w.decLo d n x)
          ((m : ℤ) + d * ((F / 2 : ℕ) : ℤ) - d - d * t)
        + w.recHi.getD t 0 * ext .periodic n (swtStep w.decHi d n x)
          ((m : ℤ) + d * ((F / 2 : ℕ) : ℤ) - d - d * t))
        = ∑ s ∈ Finset.range (2 * F), e s *
          (tap w.recLo t * tap w.decLo ((s : ℤ) - t) + tap w.recHi t * tap w.decHi ((s : ℤ) - t)) := by
      intro t ht
      rw [Finset.mem_range] at ht
      rw [hext _ _ l1, hext _ _ l2]
      have e3 : (F : ℤ) = 2 * ((F / 2 : ℕ) : ℤ) := by omega
      have idx : ∀ j : ℕ, ext .periodic n x
          ((m : ℤ) + d * ((F / 2 : ℕ) : ℤ) - d - d * t + d * ((F / 2 : ℕ) : ℤ) - d * j) = e (t + j) := by
        intro j
        simp only [hee]
        congr 1
        rw [Nat.cast_add]
        generalize ((F / 2 : ℕ) : ℤ) = g at *
        rw [e3]
        ring
      simp only [idx]
      rw [sum_shift w.decLo F l1 e t ht, sum_shift w.decHi F l2 e t ht, ← tap_nat, ← tap_nat,
        Finset.mul_sum, Finset.mul_sum, ← Finset.sum_add_distrib]
      refine Finset.sum_congr rfl fun s _ => ?_
      ring
    rw [Finset.sum_congr rfl e1, Finset.sum_comm]
    simp_rw [← Finset.mul_sum, hw.coeff ⟨l1, l2, l3, l4⟩ (by omega : 1 ≤ F)]
    rw [Finset.sum_eq_single (F - 1)]
    · rw [if_pos (by omega)]
      have : e (F - 1) = x m := by
        simp only [hee]
        rw [show (m : ℤ) + d * ((F : ℤ) - 1) - d * ((F - 1 : ℕ) : ℤ) = (m : ℕ) by
          rw [Nat.cast_sub (by omega)]; push_cast; ring]
        exact ext_inside _ _ hm
      rw [this]; ring
    · intro s _ hs
      rw [if_neg (by omega), mul_zero]
    · intro hs
      rw [Finset.mem_range] at hs
      omega
  rw [key]
  exact mul_div_cancel_left₀ _ (OfNat.ofNat_ne_zero 2)

end Verif
