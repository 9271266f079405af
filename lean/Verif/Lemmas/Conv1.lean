import Verif.Lemmas.FwtPad
import Verif.Lemmas.Kernel
import Verif.Lemmas.Prepost2
import Verif.Model.Conv1

/-! The loops of `wavedec` and `waverec` on folded tensors. -/

namespace Verif
open Tensor Spec
variable {R : Type}

theorem admits_padOk {m : Mode} {F n : Nat} (h : m.Admits F n) : PadOk m F n := by
  cases m <;> simp only [Mode.Admits, PadOk] at * <;> omega

theorem admits_size {m : Mode} {F n : Nat} (hF : 2 ≤ F) (h : m.Admits F n) :
    4 ≤ F + n + n % 2 := by
  cases m <;> simp only [Mode.Admits] at * <;> omega

theorem padOk_admits {m : Mode} {F n : Nat} (h : PadOk m F n) (h' : 4 ≤ F + n + n % 2) (hF : 2 ≤ F)
    (hn : F = 2 → 1 ≤ n ∨ m ≠ .periodic) :
    m.Admits F n := by
  cases m <;> simp only [Mode.Admits, PadOk] at * <;> omega

/-- An extension only looks at the signal. -/
theorem ext_congr' [Zero R] {m : Mode} {F n : Nat} (h : m.Admits F n) {x y : Nat → R}
    (hxy : ∀ j, j < n → x j = y j) (i : ℤ) : ext m n x i = ext m n y i := by
  by_cases hn : 0 < n
  · exact ext_congr hn hxy i
  · cases m with
    | zero =>
      simp only [ext, extIdx]
      rw [if_neg (by omega)]
    | _ => simp only [Mode.Admits] at h; omega

theorem dwtStep_congr [NonUnitalNonAssocSemiring R] {m : Mode} {F n : Nat} (h : m.Admits F n)
    {x y : Nat → R} (hxy : ∀ j, j < n → x j = y j) (f : List R) (k : Nat) :
    dwtStep m f n x k = dwtStep m f n y k := by
  unfold dwtStep analysis
  refine Finset.sum_congr rfl fun j _ => ?_
  rw [ext_congr' h hxy]

/-! ### Filters -/

theorem createTensor_get [Zero R] {f : List R} {flip : Bool} {md : Meta} {j : Nat} (hj : j < f.length) :
    (createTensor f flip md).get [0, j] = f.getD (if flip then f.length - 1 - j else j) 0 := by
  unfold createTensor
  rw [ofFn_get_of _ _ (by exact ⟨Nat.one_pos, hj, trivial⟩)]
  cases flip <;> rfl

theorem stack0_two [Zero R] {a b : Tensor R} (hs : b.shape = a.shape) (hm : b.md = a.md) :
    ∃ t, stack0 [a, b] = .ok t ∧ t.md = a.md ∧ t.shape = 2 :: a.shape ∧
      ∀ i, t.get (0 :: i) = a.get i ∧ t.get (1 :: i) = b.get i := by
  refine ⟨_, if_pos (by simp [hs, hm]), rfl, rfl, ?_⟩
  intro i
  by_cases hi : InB a.shape i
  · constructor
    · rw [ofFn_get_of _ _ (by exact ⟨by simp, hi⟩)]; rfl
    · rw [ofFn_get_of _ _ (by exact ⟨by simp, hi⟩)]; rfl
  · constructor
    · rw [a.supp i hi]
      apply Tensor.supp
      intro h; exact hi h.2
    · rw [b.supp i (by rw [hs]; exact hi)]
      apply Tensor.supp
      intro h; exact hi h.2

/-- The filter pair as a `[2, 1, F]` tensor. -/
theorem filt_ok [Zero R] (lo hi : List R) (F : Nat) (h1 : lo.length = F) (h2 : hi.length = F)
    (flip : Bool) (md : Meta) :
    ∃ t, stack0 [createTensor lo flip md, createTensor hi flip md] = .ok t ∧ t.md = md ∧
      t.shape = [2, 1, F] ∧ ∀ o j, o < 2 → j < F →
        t.get [o, 0, j] = (if o = 0 then lo else hi).getD (if flip then F - 1 - j else j) 0 := by
  have hs : (createTensor hi flip md).shape = (createTensor lo flip md).shape := by
    simp [createTensor, h1, h2]
  obtain ⟨t, e, t1, t2, t3⟩ := stack0_two (a := createTensor lo flip md)
    (b := createTensor hi flip md) hs rfl
  refine ⟨t, e, t1, by rw [t2]; simp [createTensor, h1], ?_⟩
  intro o j ho hj
  have : o = 0 ∨ o = 1 := by omega
  rcases this with rfl | rfl
  · rw [(t3 _).1, createTensor_get (by omega), h1, if_pos rfl]
  · rw [(t3 _).2, createTensor_get (by omega), h2]; rfl

/-- length of the output of one analysis convolution. -/
theorem conv_len {F n : Nat} (hF : 2 ≤ F) (h : 4 ≤ F + n + n % 2) :
    ((F - 2) + n + (F - 2 + n % 2) - F) / 2 + 1 = outLen F n := by
  unfold outLen; omega

/-- One analysis convolution on the padded signal. -/
theorem analysisConv_ok [NonUnitalNonAssocSemiring R] {m : Mode} {t u filt : Tensor R}
    {B n F : Nat} (lo hi : List R) (hF : 2 ≤ F) (hs : t.shape = [B, 1, n])
    (hlo : lo.length = F) (hhi : hi.length = F)
    (hu : Extended m t 2 (F - 2) (F - 2 + n % 2) u) (hsz : 4 ≤ F + n + n % 2)
    (hmd : filt.md = t.md) (hfs : filt.shape = [2, 1, F])
    (hfg : ∀ o j, o < 2 → j < F → filt.get [o, 0, j] = (if o = 0 then lo else hi).getD (F - 1 - j) 0) :
    ∃ res, conv1d u filt 2 1 = .ok res ∧ res.md = t.md ∧ res.shape = [B, 2, outLen F n] ∧
      ∀ b o k, b < B → o < 2 → k < outLen F n →
        res.get [b, o, k] = dwtStep m (if o = 0 then lo else hi) n (fun j => t.get [b, 0, j]) k := by
  have hn : t.shape.getD 2 0 = n := by rw [hs]; rfl
  have hus : u.shape = [B, 1, F - 2 + n + (F - 2 + n % 2)] := by rw [hu.shape, hn, hs]; rfl
  unfold conv1d
  rw [hus, hfs]
  simp only
  rw [if_pos ⟨trivial, hu.md.trans hmd.symm, by omega, by omega, by omega⟩]
  have hK : (F - 2 + n + (F - 2 + n % 2) - 1 * (F - 1) - 1) / 2 + 1 = outLen F n := by
    rw [← conv_len hF hsz]; congr 2; omega
  refine ⟨_, rfl, hu.md, by rw [ofFn_shape, hK], ?_⟩
  intro b o k hb ho hk
  rw [ofFn_get_of _ _ (by rw [hK]; exact ⟨hb, ho, hk, trivial⟩)]
  simp only [Finset.range_one, Finset.sum_singleton]
  unfold dwtStep analysis
  have hl : (if o = 0 then lo else hi).length = F := by split_ifs <;> assumption
  rw [hl, ← Finset.sum_range_reflect]
  refine Finset.sum_congr rfl fun j hj => ?_
  rw [Finset.mem_range] at hj
  rw [hfg o (F - 1 - j) ho (by omega), show F - 1 - (F - 1 - j) = j by omega]
  congr 1
  have hin : InB u.shape [b, 0, 2 * k + 1 * (F - 1 - j)] := by
    rw [hus]
    unfold outLen at hk
    exact ⟨hb, Nat.one_pos, by omega, trivial⟩
  rw [hu.get _ hin, hn]
  show ext m n (fun j => t.get [b, 0, j]) _ = _
  congr 1
  simp only [List.getD_cons_succ, List.getD_cons_zero]
  omega

theorem split1_two [Zero R] {t : Tensor R} {B K : Nat} (hs : t.shape = [B, 2, K]) :
    ∃ a b, split1 t = [a, b] ∧ a.md = t.md ∧ b.md = t.md ∧ a.shape = [B, 1, K] ∧ b.shape = [B, 1, K] ∧
      ∀ i k, i < B → k < K → a.get [i, 0, k] = t.get [i, 0, k] ∧ b.get [i, 0, k] = t.get [i, 1, k] := by
  unfold split1
  rw [hs]
  refine ⟨_, _, rfl, rfl, rfl, rfl, rfl, ?_⟩
  intro i k hi hk
  constructor
  · rw [ofFn_get_of _ _ (by exact ⟨hi, Nat.one_pos, hk, trivial⟩)]; rfl
  · rw [ofFn_get_of _ _ (by exact ⟨hi, Nat.one_pos, hk, trivial⟩)]; rfl

theorem squeeze1_ok [Zero R] {t : Tensor R} {B : Nat} {ss : List Nat} (hs : t.shape = B :: 1 :: ss) :
    t.squeeze1.md = t.md ∧ t.squeeze1.shape = B :: ss ∧
      ∀ b i, b < B → InB ss i → t.squeeze1.get (b :: i) = t.get (b :: 0 :: i) := by
  have e : t.squeeze1 = ofFn t.md (B :: ss) fun i => t.get (i.headD 0 :: 0 :: i.tail) := by
    unfold Tensor.squeeze1; rw [hs]; rfl
  rw [e]
  refine ⟨rfl, rfl, ?_⟩
  intro b i hb hi
  rw [ofFn_get_of _ _ (by exact ⟨hb, hi⟩)]; rfl

/-! ### Shifting the level recursion of the specification -/

theorem levelLen_shift (F n : Nat) : ∀ s, levelLen F (outLen F n) s = levelLen F n (s + 1)
  | 0 => rfl
  | s + 1 => by
    rw [levelLen, levelLen_shift F n s]; rfl

theorem cA_shift [NonUnitalNonAssocSemiring R] (m : Mode) (w : Wavelet R) (n : Nat) (x : Nat → R) :
    ∀ s, cA m w (outLen w.len n) (dwtStep m w.decLo n x) s = cA m w n x (s + 1)
  | 0 => rfl
  | s + 1 => by
    rw [cA, cA_shift m w n x s, levelLen_shift]; rfl

theorem cD_shift [NonUnitalNonAssocSemiring R] (m : Mode) (w : Wavelet R) (n : Nat) (x : Nat → R)
    (s : Nat) : cD m w (outLen w.len n) (dwtStep m w.decLo n x) s = cD m w n x (s + 1) := by
  unfold cD
  rw [cA_shift, levelLen_shift]

/-- `y : [B, K]` shows the functions `X b`. -/
structure Shows [Zero R] (y : Tensor R) (md : Meta) (B K : Nat) (X : Nat → Nat → R) : Prop where
  md : y.md = md
  shape : y.shape = [B, K]
  get : ∀ b k, b < B → k < K → y.get [b, k] = X b k

/-- The same with a channel axis. -/
structure ShowsCh [Zero R] (y : Tensor R) (md : Meta) (B K : Nat) (X : Nat → Nat → R) : Prop where
  md : y.md = md
  shape : y.shape = [B, 1, K]
  get : ∀ b k, b < B → k < K → y.get [b, 0, k] = X b k

theorem ShowsCh.squeeze1 [Zero R] {y : Tensor R} {md : Meta} {B K : Nat} {X : Nat → Nat → R}
    (h : ShowsCh y md B K X) : Shows y.squeeze1 md B K X := by
  obtain ⟨h1, h2, h3⟩ := squeeze1_ok h.shape
  refine ⟨h1.trans h.md, h2, ?_⟩
  intro b k hb hk
  rw [h3 b [k] hb ⟨hk, trivial⟩]; exact h.get b k hb hk

theorem wavedecLoop_step [NonUnitalNonAssocSemiring R] {m : Mode} {w : Wavelet R} {filt t : Tensor R}
    {md : Meta} {B n : Nat} {X : Nat → Nat → R} (hF : 2 ≤ w.len) (hhi : w.decHi.length = w.len)
    (hfm : filt.md = md) (hfs : filt.shape = [2, 1, w.len])
    (hfg : ∀ o j, o < 2 → j < w.len →
      filt.get [o, 0, j] = (if o = 0 then w.decLo else w.decHi).getD (w.len - 1 - j) 0)
    (ht : ShowsCh t md B n X) (ha : m.Admits w.len n) :
    ∃ p res lo hi, fwtPad t w (some m.name) 1 = .ok p ∧ conv1d p filt 2 1 = .ok res ∧
      split1 res = [lo, hi] ∧
      ShowsCh lo md B (outLen w.len n) (fun b => dwtStep m w.decLo n (X b)) ∧
      ShowsCh hi md B (outLen w.len n) (fun b => dwtStep m w.decHi n (X b)) := by
  obtain ⟨p, ep, hp⟩ := fwtPad1_ok m hF ht.shape (admits_padOk ha)
  obtain ⟨res, er, r1, r2, r3⟩ := analysisConv_ok w.decLo w.decHi hF ht.shape rfl hhi hp
    (admits_size hF ha) (by rw [hfm, ht.md]) hfs hfg
  obtain ⟨lo, hi, es, l1, l2, l3, l4, l5⟩ := split1_two r2
  refine ⟨p, res, lo, hi, ep, er, es, ⟨?_, l3, ?_⟩, ⟨?_, l4, ?_⟩⟩
  · rw [l1, r1, ht.md]
  · intro b k hb hk
    rw [(l5 b k hb hk).1, r3 b 0 k hb (by omega) hk, if_pos rfl]
    exact dwtStep_congr ha (fun j hj => ht.get b j hb hj) _ _
  · rw [l2, r1, ht.md]
  · intro b k hb hk
    rw [(l5 b k hb hk).2, r3 b 1 k hb (by omega) hk, if_neg (by omega)]
    exact dwtStep_congr ha (fun j hj => ht.get b j hb hj) _ _

/-- The loop of `wavedec` computes the textbook coefficients. -/
theorem wavedecLoop_ok [NonUnitalNonAssocSemiring R] {m : Mode} {w : Wavelet R} {filt : Tensor R}
    {md : Meta} {B : Nat} (hF : 2 ≤ w.len) (hhi : w.decHi.length = w.len)
    (hfm : filt.md = md) (hfs : filt.shape = [2, 1, w.len])
    (hfg : ∀ o j, o < 2 → j < w.len →
      filt.get [o, 0, j] = (if o = 0 then w.decLo else w.decHi).getD (w.len - 1 - j) 0) :
    ∀ (L : Nat) {n : Nat} {t : Tensor R} {X : Nat → Nat → R}, ShowsCh t md B n X →
      (∀ s, s < L → m.Admits w.len (levelLen w.len n s)) →
      ∃ r ds, wavedecLoop w (some m.name) filt L t = .ok (r, ds) ∧
        ShowsCh r md B (levelLen w.len n L) (fun b => cA m w n (X b) L) ∧ ds.length = L ∧
        ∀ s d, ds[s]? = some d →
          Shows d md B (levelLen w.len n (s + 1)) (fun b => cD m w n (X b) s)
  | 0, n, t, X, ht, _ => ⟨t, [], rfl, ht, rfl, by simp⟩
  | L + 1, n, t, X, ht, ha => by
    obtain ⟨p, res, lo, hi, ep, er, es, hlo, hhi'⟩ :=
      wavedecLoop_step hF hhi hfm hfs hfg ht (ha 0 (by omega))
    obtain ⟨r, ds, e, h1, h2, h3⟩ := wavedecLoop_ok hF hhi hfm hfs hfg L hlo (by
      intro s hs
      rw [levelLen_shift]; exact ha (s + 1) (by omega))
    refine ⟨r, hi.squeeze1 :: ds, ?_, ?_, by simp [h2], ?_⟩
    · unfold wavedecLoop
      simp only [bind, Except.bind, ep, er, es, e]
      rfl
    · rw [levelLen_shift] at h1
      simpa only [cA_shift] using h1
    · intro s d hd
      cases s with
      | zero =>
        simp only [List.getElem?_cons_zero, Option.some.injEq] at hd
        subst hd
        exact hhi'.squeeze1
      | succ s =>
        have := h3 s d (by simpa using hd)
        rw [levelLen_shift] at this
        simpa only [cD_shift] using this

/-! ### Reconstruction -/

theorem cropAxis_ok [Zero R] {t : Tensor R} {a l r : Nat} (ha : a < t.rank) :
    (cropAxis t a l r).md = t.md ∧
    (cropAxis t a l r).shape = t.shape.set a (t.shape.getD a 0 - l - r) ∧
    ∀ idx, InB (t.shape.set a (t.shape.getD a 0 - l - r)) idx →
      (cropAxis t a l r).get idx = t.get (idx.set a (idx.getD a 0 + l)) := by
  set n := t.shape.getD a 0 with hn
  have ha' : a < t.shape.length := ha
  have key : ∀ (u : Tensor R) (l' : Nat), u.md = t.md → u.shape = t.shape.set a (n - l') → l' = l →
      (∀ idx, InB u.shape idx → u.get idx = t.get (idx.set a (idx.getD a 0 + l'))) →
      ∀ v, v = (if 0 < r then u.slice a 0 (u.shape.getD a 0 - r) else u) →
      v.md = t.md ∧ v.shape = t.shape.set a (n - l - r) ∧
        ∀ idx, InB (t.shape.set a (n - l - r)) idx →
          v.get idx = t.get (idx.set a (idx.getD a 0 + l)) := by
    rintro u l' h1 h2 rfl h3 v rfl
    have hu : u.shape.getD a 0 = n - l' := by rw [h2, getD_set_self ha']
    split_ifs with hr
    · refine ⟨h1, ?_, ?_⟩
      · show u.shape.set a (min (u.shape.getD a 0 - r) (u.shape.getD a 0) - 0) = _
        rw [hu, h2, List.set_set]
        congr 1; omega
      · intro idx hidx
        have hlt := inB_set_getD ha' hidx
        have hs : (u.shape.set a (min (u.shape.getD a 0 - r) (u.shape.getD a 0) - 0))
            = t.shape.set a (n - l' - r) := by
          rw [hu, h2, List.set_set]; congr 1; omega
        unfold Tensor.slice
        rw [ofFn_get_of _ _ (by rw [hs]; exact hidx), Nat.add_zero]
        have hla : a < idx.length := by
          rw [hidx.length_eq, List.length_set]; exact ha'
        rw [set_getD_self hla]
        apply h3
        have := (inB_set_iff (s := u.shape) (x := n - l' - r) (j := idx.getD a 0)
          (by rw [h2, List.length_set]; exact ha') (by rw [h2, List.set_set]; exact hidx)).mpr
          (by rw [hu]; omega)
        rwa [set_getD_self hla] at this
    · have : r = 0 := by omega
      subst this
      refine ⟨h1, h2, ?_⟩
      intro idx hidx
      exact h3 idx (by rw [h2]; exact hidx)
  unfold cropAxis
  by_cases hl : 0 < l
  · simp only [if_pos hl]
    refine key (t.slice a l n) l rfl ?_ rfl ?_ _ rfl
    · simp only [Tensor.slice, ofFn_shape, ← hn, Nat.min_self]
    · intro idx hidx
      unfold Tensor.slice at hidx ⊢
      exact ofFn_get_of _ _ hidx
  · have : l = 0 := by omega
    subst this
    simp only [lt_irrefl, if_false]
    refine key t 0 rfl ?_ rfl ?_ _ rfl
    · rw [Nat.sub_zero, hn, set_getD_self ha']
    · intro idx hidx
      rw [Nat.add_zero, set_getD_self (by rw [hidx.length_eq]; exact ha')]

theorem stack1_two [Zero R] {a b : Tensor R} {B : Nat} {ss : List Nat} (hs : a.shape = B :: ss)
    (hs' : b.shape = B :: ss) (hm : b.md = a.md) :
    ∃ t, stack1 [a, b] = .ok t ∧ t.md = a.md ∧ t.shape = B :: 2 :: ss ∧
      ∀ i k, i < B → InB ss k → t.get (i :: 0 :: k) = a.get (i :: k) ∧
        t.get (i :: 1 :: k) = b.get (i :: k) := by
  have e : stack1 [a, b] = if ∀ u ∈ [b], u.shape = a.shape ∧ u.md = a.md then
      .ok (ofFn a.md (B :: 2 :: ss) fun i =>
          match [a, b][i.tail.headD 0]? with
          | some u => u.get (i.headD 0 :: i.tail.tail)
          | none => 0)
      else .error .runtimeError := by
    unfold stack1
    simp only [hs]
    rfl
  rw [e, if_pos (by simp [hs, hs', hm])]
  refine ⟨_, rfl, rfl, rfl, ?_⟩
  intro i k hi hk
  constructor
  · rw [ofFn_get_of _ _ (by exact ⟨hi, by simp, hk⟩)]; rfl
  · rw [ofFn_get_of _ _ (by exact ⟨hi, by simp, hk⟩)]; rfl

/-- One transposed convolution with the reconstruction filters is the textbook synthesis. -/
theorem synthesisConv_ok [NonUnitalNonAssocSemiring R] {lo hi filt : Tensor R} {md : Meta}
    {B K F : Nat} {X Y : Nat → Nat → R} (f₀ f₁ : List R) (hF : 1 ≤ F) (hK : 1 ≤ K)
    (h0 : f₀.length = F) (h1 : f₁.length = F)
    (hlo : Shows lo md B K X) (hhi : Shows hi md B K Y)
    (hmd : filt.md = md) (hfs : filt.shape = [2, 1, F])
    (hfg : ∀ o j, o < 2 → j < F → filt.get [o, 0, j] = (if o = 0 then f₀ else f₁).getD j 0) :
    ∃ st r, stack1 [lo, hi] = .ok st ∧ convTranspose1d st filt 2 = .ok r ∧
      Shows r.squeeze1 md B ((K - 1) * 2 + F)
        (fun b m => synthesis f₀ f₁ K (X b) (Y b) (m : ℤ)) := by
  obtain ⟨st, es, s1, s2, s3⟩ := stack1_two hlo.shape hhi.shape (hhi.md.trans hlo.md.symm)
  have er : ∃ r, convTranspose1d st filt 2 = .ok r ∧
      ShowsCh r md B ((K - 1) * 2 + F) (fun b m => synthesis f₀ f₁ K (X b) (Y b) (m : ℤ)) := by
    unfold convTranspose1d
    rw [s2, hfs]
    simp only
    rw [if_pos ⟨trivial, by rw [s1, hlo.md, hmd], hF, hK⟩]
    refine ⟨_, rfl, s1.trans hlo.md, rfl, ?_⟩
    intro b m hb hm
    rw [ofFn_get_of _ _ (by exact ⟨hb, Nat.one_pos, hm, trivial⟩)]
    simp only [Finset.sum_range_succ, Finset.range_zero, Finset.sum_empty, zero_add]
    unfold synthesis
    rw [← Finset.sum_add_distrib]
    refine Finset.sum_congr rfl fun k hk => ?_
    rw [Finset.mem_range] at hk
    have g0 := (s3 b [k] hb ⟨hk, trivial⟩).1
    have g1 := (s3 b [k] hb ⟨hk, trivial⟩).2
    rw [hlo.get b k hb hk] at g0
    rw [hhi.get b k hb hk] at g1
    by_cases hc : 2 * k ≤ m ∧ m - 2 * k < F
    · rw [if_pos hc, if_pos hc, hfg 0 _ (by omega) hc.2, hfg 1 _ (by omega) hc.2, if_pos rfl,
        if_neg (by omega), g0, g1]
      have e : (m : ℤ) - 2 * k = ((m - 2 * k : ℕ) : ℤ) := by omega
      rw [e, tap_nat, tap_nat]
    · rw [if_neg hc, if_neg hc]
      have t0 : ∀ f : List R, f.length = F → tap f ((m : ℤ) - 2 * k) = 0 := by
        intro f hf
        by_cases hn : (m : ℤ) - 2 * k < 0
        · exact tap_neg f hn
        · exact tap_ge f (by omega)
      rw [t0 _ h0, t0 _ h1, zero_mul, zero_mul]
  obtain ⟨r, er, hr⟩ := er
  exact ⟨st, r, es, er, hr.squeeze1⟩

theorem Shows.crop [Zero R] {y : Tensor R} {md : Meta} {B K l r : Nat} {X : Nat → Nat → R}
    (h : Shows y md B K X) :
    Shows (cropAxis y 1 l r) md B (K - l - r) (fun b k => X b (k + l)) := by
  have h1 : y.shape.getD 1 0 = K := by rw [h.shape]; rfl
  obtain ⟨c1, c2, c3⟩ := cropAxis_ok (t := y) (a := 1) (l := l) (r := r)
    (by unfold Tensor.rank; rw [h.shape]; simp)
  rw [h1, h.shape] at c2 c3
  refine ⟨c1.trans h.md, c2, ?_⟩
  intro b k hb hk
  rw [c3 [b, k] ⟨hb, hk, trivial⟩]
  exact h.get b (k + l) hb (by omega)

theorem Shows.congr [Zero R] {y : Tensor R} {md : Meta} {B K : Nat} {X Y : Nat → Nat → R}
    (h : Shows y md B K X) (hxy : ∀ b k, b < B → k < K → X b k = Y b k) : Shows y md B K Y :=
  ⟨h.md, h.shape, fun b k hb hk => (h.get b k hb hk).trans (hxy b k hb hk)⟩

theorem Shows.sizeFromEnd [Zero R] {y : Tensor R} {md : Meta} {B K : Nat} {X : Nat → Nat → R}
    (h : Shows y md B K X) : y.sizeFromEnd 1 = K := by
  unfold Tensor.sizeFromEnd; rw [h.shape]; rfl

theorem Shows.rank [Zero R] {y : Tensor R} {md : Meta} {B K : Nat} {X : Nat → Nat → R}
    (h : Shows y md B K X) : y.rank = 2 := by
  unfold Tensor.rank; rw [h.shape]; rfl

theorem two_outLen {F n : Nat} (hF : 2 ≤ F) (he : F % 2 = 0) : 2 * outLen F n = n + n % 2 + F - 2 := by
  unfold outLen; omega

/-- The loop of `waverec` on the coefficients of `wavedec`. -/
theorem waverecLoop_ok [Field R] [CharZero R] {m : Mode} {w : Wavelet R} {F : Nat} {filt : Tensor R}
    {md : Meta} {B n : Nat} {X : Nat → Nat → R} (hw : PRBank w F) (hF : 2 ≤ F) (he : F % 2 = 0)
    (hfm : filt.md = md) (hfs : filt.shape = [2, 1, F])
    (hfg : ∀ o j, o < 2 → j < F → filt.get [o, 0, j] = (if o = 0 then w.recLo else w.recHi).getD j 0) :
    ∀ (L : Nat) (t : Tensor R) (ds : List (Tensor R)),
      (∀ s, s < L → m.Admits F (levelLen F n s)) →
      Shows t md B (levelLen F n L) (fun b => cA m w n (X b) L) → ds.length = L →
      (∀ s d, ds[s]? = some d → Shows d md B (levelLen F n (s + 1)) (fun b => cD m w n (X b) s)) →
      ∃ z, waverecLoop filt F t ds.reverse = .ok z ∧
        (L = 0 → Shows z md B n X) ∧
        (0 < L → Shows z md B (n + n % 2) (fun b k => ext m n (X b) (k : ℤ))) := by
  intro L
  induction L with
  | zero =>
    intro t ds _ ht hl _
    have : ds = [] := List.length_eq_zero_iff.mp hl
    subst this
    exact ⟨t, rfl, fun _ => ht, fun h => absurd h (lt_irrefl _)⟩
  | succ L ih =>
    intro t ds hadm ht hl hds
    have hFw : w.len = F := hw.len.1
    obtain ⟨ds', d, rfl⟩ : ∃ ds' d, ds = ds' ++ [d] := by
      rcases List.eq_nil_or_concat ds with h | ⟨l, a, h⟩
      · subst h; simp at hl
      · exact ⟨l, a, by simpa using h⟩
    have hl' : ds'.length = L := by simpa using hl
    have hd : Shows d md B (levelLen F n (L + 1)) (fun b => cD m w n (X b) L) :=
      hds L d (by simp [← hl'])
    set n' := levelLen F n L with hn'
    have hK : levelLen F n (L + 1) = outLen F n' := rfl
    have hadm' := hadm L (by omega)
    have hsz := admits_size hF hadm'
    have h2K := two_outLen (n := n') hF he
    have hK1 : 1 ≤ outLen F n' := by omega
    obtain ⟨st, r, es, er, hr⟩ := synthesisConv_ok w.recLo w.recHi (by omega : 1 ≤ F) (by omega)
      hw.len.2.2.1 hw.len.2.2.2 ht hd hfm hfs hfg
    rw [hK] at hr
    have hpad : (2 * F - 3) / 2 = F - 2 := by omega
    -- what the uncropped signal shows
    have hval : ∀ b k, k < n' + n' % 2 →
        synthesis w.recLo w.recHi (levelLen F n (L + 1)) (cA m w n (X b) (L + 1)) (cD m w n (X b) L)
          ((k + (F - 2) : ℕ) : ℤ) = ext m n' (cA m w n (X b) L) (k : ℤ) := by
      intro b k hk
      have := synthesis_analysis hw hF (ext m n' (cA m w n (X b) L)) k (outLen F n') (by omega)
      rw [← this]
      have e1 : cA m w n (X b) (L + 1) = analysis w.decLo (ext m n' (cA m w n (X b) L)) := by
        funext i
        show dwtStep m w.decLo (levelLen w.len n L) (cA m w n (X b) L) i = _
        rw [hFw]; rfl
      have e2 : cD m w n (X b) L = analysis w.decHi (ext m n' (cA m w n (X b) L)) := by
        funext i
        show dwtStep m w.decHi (levelLen w.len n L) (cA m w n (X b) L) i = _
        rw [hFw]; rfl
      rw [e1, e2, hK]
      congr 1; omega
    rw [List.reverse_append, List.reverse_singleton, List.singleton_append]
    rcases Nat.eq_zero_or_pos L with hL0 | hLp
    · -- last step: no adjustment
      subst hL0
      have : ds' = [] := List.length_eq_zero_iff.mp hl'
      subst this
      have hc := hr.crop (l := F - 2) (r := F - 2)
      refine ⟨cropAxis r.squeeze1 1 (F - 2) (F - 2), ?_, fun h => absurd h (by omega), fun _ => ?_⟩
      · simp only [List.reverse_nil, waverecLoop, bind, Except.bind, es, er, recPads, hr.rank, hpad]
      · have hl2 : (outLen F n' - 1) * 2 + F - (F - 2) - (F - 2) = n + n % 2 := by
          have : n' = n := rfl
          omega
        rw [hl2] at hc
        exact hc.congr fun b k _ hk => hval b k hk
    · -- inner step
      obtain ⟨ds'', d', rfl⟩ : ∃ ds'' d', ds' = ds'' ++ [d'] := by
        rcases List.eq_nil_or_concat ds' with h | ⟨l, a, h⟩
        · subst h; simp at hl'; omega
        · exact ⟨l, a, by simpa using h⟩
      have hl'' : ds''.length + 1 = L := by simpa using hl'
      have hd' : Shows d' md B n' (fun b => cD m w n (X b) (L - 1)) := by
        have := hds (L - 1) d' (by
          have : L - 1 = ds''.length := by omega
          simp [this])
        rwa [show L - 1 + 1 = L by omega] at this
      have hadj : adjustPadding ((outLen F n' - 1) * 2 + F) n' (F - 2) (F - 2)
          = .ok (F - 2 + n' % 2, F - 2) := by
        unfold adjustPadding
        simp only
        rcases Nat.mod_two_eq_zero_or_one n' with h | h
        · rw [if_pos (by push_cast; omega), h]; rfl
        · rw [if_neg (by push_cast; omega), if_pos (by push_cast; omega), h]
      have hc := hr.crop (l := F - 2) (r := F - 2 + n' % 2)
      have hl2 : (outLen F n' - 1) * 2 + F - (F - 2) - (F - 2 + n' % 2) = n' := by omega
      rw [hl2] at hc
      have hc' : Shows (cropAxis r.squeeze1 1 (F - 2) (F - 2 + n' % 2)) md B n'
          (fun b => cA m w n (X b) L) :=
        hc.congr fun b k _ hk => by
          show synthesis _ _ _ _ _ _ = _
          rw [← hK, hval b k (by omega), ext_inside m _ hk]
      obtain ⟨z, ez, hz⟩ := ih _ (ds'' ++ [d']) (fun s hs => hadm s (by omega)) hc' (by simpa using hl'')
        (by
          intro s d₁ h₁
          apply hds s d₁
          rw [List.getElem?_append_left (List.getElem?_eq_some_iff.mp h₁).1]
          exact h₁)
      refine ⟨z, ?_, fun h => absurd h (by omega), fun _ => hz.2 hLp⟩
      rw [List.reverse_append, List.reverse_singleton, List.singleton_append] at ez ⊢
      rw [waverecLoop]
      simp only [bind, Except.bind, es, er, recPads, hr.rank, hpad, hr.sizeFromEnd, hd'.sizeFromEnd, hadj]
      exact ez

end Verif
