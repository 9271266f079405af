/-
Property C73: the decimated transform is contained in the stationary one (`wavedec` / `swt`).
-/
import Verif.Lemmas.Sampled
import Verif.Props.Swt

namespace Verif.Props
open Tensor Spec
variable {R : Type}

theorem sampled_of [NonUnitalNonAssocSemiring R] {F s a K : Nat} {f g : (Nat → R) → Nat → R} {x t u : Tensor R}
    (ha : a < x.shape.length) (hF : 2 ≤ F) (ht : AlongAxis a K f x t)
    (hu : AlongAxis a (x.shape.getD a 0) g x u)
    (hfg : ∀ v k, Inside F s 0 (x.shape.getD a 0) k → f v k = g v (swtPos F s k)) :
    SampledAt F s (x.shape.getD a 0) 0 a t u := by
  intro idx hidx hin
  have hil : a < idx.length := by rw [hidx.length_eq, ht.shape, List.length_set]; exact ha
  obtain ⟨-, hlt⟩ := swtPos_cast hF hin
  rw [Nat.add_zero, Nat.mod_eq_of_lt hlt, ht.get idx hidx, hfg _ _ hin]
  have hus : u.shape = x.shape := by rw [hu.shape]; exact set_getD_self ha
  have hib : InB u.shape (idx.set a (swtPos F s (idx.getD a 0))) := by
    rw [hus]
    rw [ht.shape] at hidx
    exact (inB_set_iff ha hidx).mpr hlt
  rw [hu.get _ hib, line_set, getD_set_self hil]

theorem sampledAll_of [NonUnitalNonAssocSemiring R] {F a K : Nat} {f g : (Nat → R) → Nat → R} {x t u : Tensor R}
    (ha : a < x.shape.length) (ht : AlongAxis a K f x t) (hu : AlongAxis a (x.shape.getD a 0) g x u)
    (hfg : ∀ (v : Nat → R) (k p : Nat), ((x.shape.getD a 0 : ℕ) : ℤ) ∣ (p : ℤ) - (2 * (k : ℤ) - ((F / 2 : ℕ) - 1)) → f v k = g v p) :
    SampledAll F (x.shape.getD a 0) 0 a t u := by
  intro idx hidx p hp hd
  have hil : a < idx.length := by rw [hidx.length_eq, ht.shape, List.length_set]; exact ha
  rw [ht.get idx hidx, hfg _ _ p (by simpa using hd), hu.get _ hp, line_set, getD_set_self hil]

theorem SampledAt.shift [Zero R] {F s n c a : Nat} {t u u' : Tensor R} (ha : a < u.shape.length) (hn : 0 < n)
    (hun : u.shape.getD a 0 = n) (hs : Shifted a c u u') (hlen : t.shape.length = u.shape.length)
    (hib : ∀ idx, InB t.shape idx → ∀ p, p < n → InB u.shape (idx.set a p))
    (h : SampledAt F s n 0 a t u') : SampledAt F s n c a t u := by
  intro idx hidx hin
  have hil : a < idx.length := by rw [hidx.length_eq, hlen]; exact ha
  have hus : u'.shape = u.shape := by rw [hs.shape]; exact set_getD_self ha
  have hm := Nat.mod_lt (swtPos F s (idx.getD a 0) + 0) hn
  rw [h idx hidx hin, hs.get _ (by rw [hus]; exact hib idx hidx _ hm), line_set, getD_set_self hil, hun]
  show u.get (idx.set a _) = _
  rw [Nat.add_zero, Nat.mod_add_mod]

theorem SampledAll.shift [Zero R] {F n c a : Nat} {t u u' : Tensor R} (ha : a < u.shape.length) (hn : 0 < n)
    (hun : u.shape.getD a 0 = n) (hs : Shifted a c u u') (hlen : t.shape.length = u.shape.length)
    (hib : ∀ idx, InB t.shape idx → ∀ p, p < n → InB u.shape (idx.set a p))
    (h : SampledAll F n 0 a t u') : SampledAll F n c a t u := by
  intro idx hidx p hp hd
  have hil : a < idx.length := by rw [hidx.length_eq, hlen]; exact ha
  have hus : u'.shape = u.shape := by rw [hs.shape]; exact set_getD_self ha
  have hplt : p < n := by
    have := hp.getD_lt (d := a) ha
    rwa [getD_set_self hil, hun] at this
  -- the position in the shifted signal
  have hq0 : 0 ≤ ((p : ℤ) - c) % n := Int.emod_nonneg _ (by omega)
  have hq1 : ((p : ℤ) - c) % n < n := Int.emod_lt_of_pos _ (by omega)
  obtain ⟨q, hq⟩ : ∃ q : Nat, ((p : ℤ) - c) % n = q := ⟨_, (Int.toNat_of_nonneg hq0).symm⟩
  have hqn : q < n := by omega
  have hqd : (n : ℤ) ∣ (p : ℤ) - c - q := by rw [← hq]; exact Int.dvd_self_sub_emod
  have hib' := hib idx hidx q hqn
  have e := h idx hidx q (by rw [hus]; exact hib') (by
    have := Int.dvd_sub hd hqd
    have e : (p : ℤ) - (2 * (idx.getD a 0 : ℤ) - ((F / 2 : ℕ) - 1) + c) - ((p : ℤ) - c - q)
      = (q : ℤ) - (2 * (idx.getD a 0 : ℤ) - ((F / 2 : ℕ) - 1) + (0 : ℕ)) := by push_cast; ring
    rwa [e] at this)
  rw [e, hs.get _ (by rw [hus]; exact hib'), line_set, getD_set_self hil, hun]
  show u.get (idx.set a _) = _
  have hmod : (q + c) % n = p := by
    have h1 : ((q + c : ℕ) : ℤ) % n = (p : ℤ) % n := by
      refine Int.emod_emod_of_dvd _ (dvd_refl _) ▸ ?_
      rw [Int.emod_emod_of_dvd _ (dvd_refl _)]
      refine (Int.emod_eq_emod_iff_emod_sub_eq_zero.mpr (Int.emod_eq_zero_of_dvd ?_))
      have := (dvd_neg (a := (n : ℤ))).mpr hqd
      have e : -((p : ℤ) - c - q) = ((q + c : ℕ) : ℤ) - p := by push_cast; ring
      rwa [e] at this
    have h2 : (q + c) % n = p % n := by exact_mod_cast h1
    rw [h2, Nat.mod_eq_of_lt hplt]
  rw [hmod]

/-- **C73.** Where the decimated coefficients are: if `x'` is `x` cyclically shifted by `c` samples along the transformed
axis, the coefficient `k` of level `s` of `wavedec x'` is, unless it touches the boundary, the entry
`2^s k - (2^s - 1)(F/2 - 1) + c` (modulo the length) of the band of level `s` of `swt x` - for every mode of `wavedec` and
whatever other levels the two transforms compute. -/
theorem c73_contained [NonUnitalNonAssocSemiring R] (x x' : Tensor R) (w : Wavelet R) (mode : Option String)
    (level level' : Option Int) (axis : AxisHint) (c : Nat) (hg : GoodAxes axis x.rank 1)
    (hdt : x.md.dtype = .float32 ∨ x.md.dtype = .float64) (hF : 2 ≤ w.len) (he : w.len % 2 = 0)
    (hhi : w.decHi.length = w.len) (hn : 0 < x.shape.getD (axis1 axis x.rank) 0)
    (hx : Shifted (axis1 axis x.rank) c x x') (cs ss : List (Tensor R))
    (hcs : wavedec x' w mode level axis = .ok cs) (hss : swt x w level' axis = .ok ss)
    (hw : WrapOk (x.shape.getD (axis1 axis x.rank) 0) w.len (ss.length - 1)) :
    (∀ s t u, s + 1 < cs.length → s + 1 < ss.length → cs[cs.length - 1 - s]? = some t → ss[ss.length - 1 - s]? = some u →
      SampledAt w.len (s + 1) (x.shape.getD (axis1 axis x.rank) 0) c (axis1 axis x.rank) t u) ∧
    (cs.length = ss.length → ∀ t u, cs[0]? = some t → ss[0]? = some u →
      SampledAt w.len (cs.length - 1) (x.shape.getD (axis1 axis x.rank) 0) c (axis1 axis x.rank) t u) := by
  have ha : axis1 axis x.rank < x.shape.length := axis1_lt hg
  have hs' : x'.shape = x.shape := by rw [hx.shape]; exact set_getD_self ha
  have hr' : x'.rank = x.rank := by unfold Tensor.rank; rw [hs']
  obtain ⟨ss0, e0, hl0, -⟩ := c24_size x w level' axis hg hdt hF he hhi hn
  rw [hss] at e0; cases e0
  have hw' : WrapOk (x.shape.getD (axis1 axis x.rank) 0) w.len
      (swtLevel level' (x.shape.getD (axis1 axis x.rank) 0)) := by
    have : ss.length - 1 = swtLevel level' (x.shape.getD (axis1 axis x.rank) 0) := by omega
    rwa [this] at hw
  obtain ⟨_, ss', e1, e2, hsh⟩ := c24_shift x x' w level' axis c hg hdt hF he hhi hn hw' hx
  rw [hss] at e1; cases e1
  obtain ⟨_, e3, hS⟩ := c24_textbook x w level' axis hg hdt hF he hhi hn hw'
  rw [hss] at e3; cases e3
  obtain ⟨_, e4, hS'⟩ := c24_textbook x' w level' axis (by rw [hr']; exact hg)
    (by rw [hx.md]; exact hdt) hF he hhi (by rw [hr', hs']; exact hn) (by rw [hr', hs']; exact hw')
  rw [e2] at e4; cases e4
  obtain ⟨m, -, hD⟩ := c02_wavedec_textbook x' w mode level axis cs hF hhi hcs
  rw [hr', hs'] at hS' hD
  have ha' : axis1 axis x.rank < x'.shape.length := by rw [hs']; exact ha
  have hx'n : x'.shape.getD (axis1 axis x.rank) 0 = x.shape.getD (axis1 axis x.rank) 0 := by rw [hs']
  set a := axis1 axis x.rank
  set n := x.shape.getD a 0 with hnn
  have hlen := List.Forall₂.length_eq hsh
  have key : ∀ s K (f g : (Nat → R) → Nat → R) (i : Nat) t u, AlongAxis a K f x' t → ss[i]? = some u →
      (∀ u', ss'[i]? = some u' → AlongAxis a n g x' u') → AlongAxis a n g x u →
      (∀ v k, Inside w.len s 0 n k → f v k = g v (swtPos w.len s k)) → SampledAt w.len s n c a t u := by
    intro s K f g i t u ht hu hg1 hg2 hfg
    have hi : i < ss.length := (List.getElem?_eq_some_iff.mp hu).1
    have hi' : i < ss'.length := by omega
    have hu' : ss'[i]? = some ss'[i] := List.getElem?_eq_getElem hi'
    have hsu : Shifted a c u ss'[i] := by
      have := (List.forall₂_iff_get.mp hsh).2 i hi hi'
      have e : ss.get ⟨i, hi⟩ = u := by
        have := (List.getElem?_eq_some_iff.mp hu).2
        simpa using this
      rw [e] at this
      simpa using this
    have hus : u.shape = x.shape := by rw [hg2.shape]; exact set_getD_self ha
    refine SampledAt.shift (by rw [hus]; exact ha) hn (by rw [hus]) hsu (by rw [ht.shape, hus, List.length_set, hs']) ?_ ?_
    · intro idx hidx p hp
      rw [hus]
      rw [ht.shape, hs'] at hidx
      exact (inB_set_iff ha hidx).mpr hp
    · have := sampled_of (F := w.len) (s := s) ha' hF ht (by rw [hx'n]; exact hg1 _ hu') (by rw [hx'n]; exact hfg)
      rwa [hx'n] at this
  have hcl := hD.length
  have hsl := hS.length
  have hsl' := hS'.length
  constructor
  · intro s t u h1 h2 ht hu
    rw [hcl] at ht h1
    rw [hsl] at hu h2
    simp only [Nat.add_sub_cancel] at ht hu
    refine key (s + 1) _ _ _ _ t u (hD.detail s t (by omega) ht) hu (fun u' hu' => ?_) (hS.detail s u (by omega) hu) ?_
    · have := hS'.detail s u' (by omega) hu'
      rwa [hx'n] at this
    · intro v k hk
      rw [hx'n]
      exact cD_sampled m w hF hhi n v s k hk
  · intro hcs t u ht hu
    rw [hcl]
    simp only [Nat.add_sub_cancel]
    have hL : levels level w.len n = swtLevel level' n := by omega
    refine key _ _ _ (fun v => swtA w n v (levels level w.len n)) 0 t u (hD.approx t ht) hu (fun u' hu' => ?_) ?_ ?_
    · have := hS'.approx u' hu'
      rw [hx'n] at this
      rw [hL]; exact this
    · rw [hL]; exact hS.approx u hu
    · intro v k hk
      rw [hx'n]
      exact cA_sampled m w hF n v _ k hk

/-- **C73, the first level of the periodic mode.** If `x'` is `x` cyclically shifted by `c` samples, *every* coefficient of
level 1 of `wavedec x'` in the periodic mode is an entry of the band of level 1 of `swt x`. -/
theorem c73_first_level [NonUnitalNonAssocSemiring R] (x x' : Tensor R) (w : Wavelet R)
    (level level' : Option Int) (axis : AxisHint) (c : Nat) (hg : GoodAxes axis x.rank 1)
    (hdt : x.md.dtype = .float32 ∨ x.md.dtype = .float64) (hF : 2 ≤ w.len) (he : w.len % 2 = 0)
    (hhi : w.decHi.length = w.len) (hn : 0 < x.shape.getD (axis1 axis x.rank) 0)
    (hx : Shifted (axis1 axis x.rank) c x x') (cs ss : List (Tensor R))
    (hcs : wavedec x' w (some "periodic") level axis = .ok cs) (hss : swt x w level' axis = .ok ss)
    (hw : WrapOk (x.shape.getD (axis1 axis x.rank) 0) w.len (ss.length - 1)) :
    (∀ t u, 1 < cs.length → 1 < ss.length → cs[cs.length - 1]? = some t → ss[ss.length - 1]? = some u →
      SampledAll w.len (x.shape.getD (axis1 axis x.rank) 0) c (axis1 axis x.rank) t u) ∧
    (cs.length = 2 → ss.length = 2 → ∀ t u, cs[0]? = some t → ss[0]? = some u →
      SampledAll w.len (x.shape.getD (axis1 axis x.rank) 0) c (axis1 axis x.rank) t u) := by
  have ha : axis1 axis x.rank < x.shape.length := axis1_lt hg
  have hs' : x'.shape = x.shape := by rw [hx.shape]; exact set_getD_self ha
  have hr' : x'.rank = x.rank := by unfold Tensor.rank; rw [hs']
  obtain ⟨ss0, e0, hl0, -⟩ := c24_size x w level' axis hg hdt hF he hhi hn
  rw [hss] at e0; cases e0
  have hw' : WrapOk (x.shape.getD (axis1 axis x.rank) 0) w.len
      (swtLevel level' (x.shape.getD (axis1 axis x.rank) 0)) := by
    have : ss.length - 1 = swtLevel level' (x.shape.getD (axis1 axis x.rank) 0) := by omega
    rwa [this] at hw
  obtain ⟨_, ss', e1, e2, hsh⟩ := c24_shift x x' w level' axis c hg hdt hF he hhi hn hw' hx
  rw [hss] at e1; cases e1
  obtain ⟨_, e3, hS⟩ := c24_textbook x w level' axis hg hdt hF he hhi hn hw'
  rw [hss] at e3; cases e3
  obtain ⟨_, e4, hS'⟩ := c24_textbook x' w level' axis (by rw [hr']; exact hg)
    (by rw [hx.md]; exact hdt) hF he hhi (by rw [hr', hs']; exact hn) (by rw [hr', hs']; exact hw')
  rw [e2] at e4; cases e4
  obtain ⟨m, hm, hD⟩ := c02_wavedec_textbook x' w (some "periodic") level axis cs hF hhi hcs
  rw [hr', hs'] at hS' hD hm
  have ha' : axis1 axis x.rank < x'.shape.length := by rw [hs']; exact ha
  have hx'n : x'.shape.getD (axis1 axis x.rank) 0 = x.shape.getD (axis1 axis x.rank) 0 := by rw [hs']
  set a := axis1 axis x.rank
  set n := x.shape.getD a 0 with hnn
  have hlen := List.Forall₂.length_eq hsh
  have key : ∀ K (f g : (Nat → R) → Nat → R) (i : Nat) t u, AlongAxis a K f x' t → ss[i]? = some u →
      (∀ u', ss'[i]? = some u' → AlongAxis a n g x' u') → AlongAxis a n g x u →
      (∀ (v : Nat → R) (k p : Nat), (n : ℤ) ∣ (p : ℤ) - (2 * (k : ℤ) - ((w.len / 2 : ℕ) - 1)) → f v k = g v p) →
      SampledAll w.len n c a t u := by
    intro K f g i t u ht hu hg1 hg2 hfg
    have hi : i < ss.length := (List.getElem?_eq_some_iff.mp hu).1
    have hi' : i < ss'.length := by omega
    have hu' : ss'[i]? = some ss'[i] := List.getElem?_eq_getElem hi'
    have hsu : Shifted a c u ss'[i] := by
      have := (List.forall₂_iff_get.mp hsh).2 i hi hi'
      have e : ss.get ⟨i, hi⟩ = u := by
        have := (List.getElem?_eq_some_iff.mp hu).2
        simpa using this
      rw [e] at this
      simpa using this
    have hus : u.shape = x.shape := by rw [hg2.shape]; exact set_getD_self ha
    refine SampledAll.shift (by rw [hus]; exact ha) hn (by rw [hus]) hsu (by rw [ht.shape, hus, List.length_set, hs']) ?_ ?_
    · intro idx hidx p hp
      rw [hus]
      rw [ht.shape, hs'] at hidx
      exact (inB_set_iff ha hidx).mpr hp
    · have := sampledAll_of (F := w.len) ha' ht (by rw [hx'n]; exact hg1 _ hu') (by rw [hx'n]; exact hfg)
      rwa [hx'n] at this
  have hcl := hD.length
  have hsl := hS.length
  have hsl' := hS'.length
  have hmp : 1 < cs.length → m = .periodic := by
    intro h1
    rcases hm with hm | hm
    · rcases hm with hm | hm
      · have : "periodic" = m.name := by simpa using hm
        cases m <;> first | rfl | (exact absurd this (by decide))
      · exact absurd hm.1 (by simp)
    · omega
  constructor
  · intro t u h1 h2 ht hu
    have hm := hmp h1
    subst hm
    rw [hcl] at ht h1
    rw [hsl] at hu h2
    simp only [Nat.add_sub_cancel] at ht hu
    refine key _ _ _ _ t u (hD.detail 0 t (by omega) ht) hu (fun u' hu' => ?_) (hS.detail 0 u (by omega) hu) ?_
    · have := hS'.detail 0 u' (by omega) hu'
      rwa [hx'n] at this
    · intro v k p hp
      rw [hx'n]
      exact step_sampledAll v (by rw [hhi]; exact hp)
  · intro h1 h2 t u ht hu
    have hm := hmp (by omega)
    subst hm
    have hL : levels level w.len n = 1 := by omega
    have hL' : swtLevel level' n = 1 := by omega
    rw [hL] at hD
    rw [hL'] at hS hS'
    refine key _ _ _ 0 t u (hD.approx t ht) hu (fun u' hu' => ?_) (hS.approx u hu) ?_
    · have := hS'.approx u' hu'
      rwa [hx'n] at this
    · intro v k p hp
      rw [hx'n]
      exact step_sampledAll v hp

/-- **C73, interleaving.** Conversely the finest band of the stationary transform consists of the coefficients of two
decimated transforms in the periodic mode, of the signal itself and of the signal shifted by one sample. -/
theorem c73_interleaved [NonUnitalNonAssocSemiring R] (x x' : Tensor R) (w : Wavelet R)
    (level level' : Option Int) (axis : AxisHint) (hg : GoodAxes axis x.rank 1)
    (hdt : x.md.dtype = .float32 ∨ x.md.dtype = .float64) (hF : 2 ≤ w.len) (he : w.len % 2 = 0)
    (hhi : w.decHi.length = w.len) (hn : 0 < x.shape.getD (axis1 axis x.rank) 0)
    (hx : Shifted (axis1 axis x.rank) 1 x x') (cs cs' ss : List (Tensor R))
    (hcs : wavedec x w (some "periodic") level axis = .ok cs)
    (hcs' : wavedec x' w (some "periodic") level axis = .ok cs') (hss : swt x w level' axis = .ok ss)
    (hw : WrapOk (x.shape.getD (axis1 axis x.rank) 0) w.len (ss.length - 1)) :
    (∀ t t' u, 1 < cs.length → 1 < ss.length → cs[cs.length - 1]? = some t → cs'[cs'.length - 1]? = some t' →
      ss[ss.length - 1]? = some u → Interleaved w.len (axis1 axis x.rank) t t' u) ∧
    (cs.length = 2 → ss.length = 2 → ∀ t t' u, cs[0]? = some t → cs'[0]? = some t' → ss[0]? = some u →
      Interleaved w.len (axis1 axis x.rank) t t' u) := by
  have ha : axis1 axis x.rank < x.shape.length := axis1_lt hg
  have hs' : x'.shape = x.shape := by rw [hx.shape]; exact set_getD_self ha
  have hr' : x'.rank = x.rank := by unfold Tensor.rank; rw [hs']
  have hx0 : Shifted (axis1 axis x.rank) 0 x x := by
    refine ⟨rfl, (set_getD_self ha).symm, fun idx hidx => ?_⟩
    rw [Nat.add_zero, Nat.mod_eq_of_lt (hidx.getD_lt ha), line, set_getD_self (by rw [hidx.length_eq]; exact ha)]
  have h0 := c73_first_level x x w level level' axis 0 hg hdt hF he hhi hn hx0 cs ss hcs hss hw
  have h1 := c73_first_level x x' w level level' axis 1 hg hdt hF he hhi hn hx cs' ss hcs' hss hw
  obtain ⟨m, -, hD⟩ := c02_wavedec_textbook x w (some "periodic") level axis cs hF hhi hcs
  obtain ⟨m', -, hD'⟩ := c02_wavedec_textbook x' w (some "periodic") level axis cs' hF hhi hcs'
  obtain ⟨_, e0, -, hsz⟩ := c24_size x w level' axis hg hdt hF he hhi hn
  rw [hss] at e0; cases e0
  rw [hr', hs'] at hD'
  have hcl := hD.length
  have hcl' := hD'.length
  set a := axis1 axis x.rank
  set n := x.shape.getD a 0 with hnn
  have key : ∀ t t' u : Tensor R, t.shape = x.shape.set a (outLen w.len n) → t'.shape = x.shape.set a (outLen w.len n) →
      u.shape = x.shape → SampledAll w.len n 0 a t u → SampledAll w.len n 1 a t' u → Interleaved w.len a t t' u := by
    intro t t' u e1 e2 e3 q1 q2 idx hidx k
    have hidx0 : InB x.shape idx := by rw [← e3]; exact hidx
    have hil : a < idx.length := by rw [hidx0.length_eq]; exact ha
    have hlt := hidx0.getD_lt (d := a) ha
    have hset : (idx.set a k).set a (idx.getD a 0) = idx := by rw [List.set_set]; exact set_getD_self hil
    have hin : k < outLen w.len n → InB (x.shape.set a (outLen w.len n)) (idx.set a k) := by
      intro hk
      refine (inB_set_iff (x := n) (s := x.shape.set a (outLen w.len n)) (by rw [List.length_set]; exact ha) ?_).mpr ?_
      · rw [List.set_set, hnn, set_getD_self ha]; exact hidx0
      · rw [getD_set_self ha]; exact hk
    have hz : ((w.len / 2 - 1 : ℕ) : ℤ) = (w.len / 2 : ℕ) - 1 := by omega
    constructor
    · intro hk
      have hb := hin (by unfold outLen; omega)
      refine ⟨by rw [e1]; exact hb, ?_⟩
      have := q1 (idx.set a k) (by rw [e1]; exact hb) (idx.getD a 0) (by rw [hset]; exact hidx) (by
        rw [getD_set_self hil]
        refine ⟨0, ?_⟩
        omega)
      rw [this, hset]
    · intro hk
      have hb := hin (by unfold outLen; omega)
      refine ⟨by rw [e2]; exact hb, ?_⟩
      have := q2 (idx.set a k) (by rw [e2]; exact hb) (idx.getD a 0) (by rw [hset]; exact hidx) (by
        rw [getD_set_self hil]
        refine ⟨0, ?_⟩
        omega)
      rw [this, hset]
  constructor
  · intro t t' u g1 g2 ht ht' hu
    have g1' : 1 < cs'.length := by omega
    refine key t t' u ?_ ?_ ((hsz u (List.mem_of_getElem? hu)).2) (h0.1 t u g1 g2 ht hu) (h1.1 t' u g1' g2 ht' hu)
    · rw [hcl] at ht
      exact (hD.detail 0 t (by omega) ht).shape
    · rw [hcl'] at ht'
      have := (hD'.detail 0 t' (by omega) ht').shape
      rw [hs'] at this
      exact this
  · intro g1 g2 t t' u ht ht' hu
    have hL : levels level w.len n = 1 := by omega
    rw [hL] at hD hD'
    refine key t t' u ?_ ?_ ((hsz u (List.mem_of_getElem? hu)).2) (h0.2 g1 g2 t u ht hu) (h1.2 (by omega) g2 t' u ht' hu)
    · exact (hD.approx t ht).shape
    · have := (hD'.approx t' ht').shape
      rw [hs'] at this
      exact this

/-! ### The hypotheses are met -/

/-- A batch of two signals of length 12. -/
def exM : Tensor ℚ := ofFn ⟨.float64, 0⟩ [12, 2] fun i => (i.getD 0 0 : ℚ) * (i.getD 0 0 : ℚ) + 10 * (i.getD 1 0 : ℚ)

/-- The same signals, shifted by 5 samples. -/
def exM5 : Tensor ℚ :=
  ofFn ⟨.float64, 0⟩ [12, 2] fun i => (((i.getD 0 0 + 5) % 12 * ((i.getD 0 0 + 5) % 12) : ℕ) : ℚ) + 10 * (i.getD 1 0 : ℚ)

theorem exM_axes : GoodAxes (.int (-2)) exM.rank 1 :=
  ⟨le_rfl, rfl, ⟨by
    intro a ha
    simp only [resolve, List.mem_singleton] at ha
    subst ha
    exact ⟨by decide, by decide⟩, by decide⟩⟩

theorem exM_shifted : Shifted (axis1 (.int (-2)) exM.rank) 5 exM exM5 := by
  refine ⟨rfl, by decide, fun idx hidx => ?_⟩
  have hidx' : InB [12, 2] idx := hidx
  match idx, hidx' with
  | [i, j], ⟨hi, hj, _⟩ =>
    show exM5.get [i, j] = exM.get [(i + 5) % 12, j]
    rw [exM5, exM, ofFn_get_of _ _ (show InB [12, 2] [i, j] from ⟨hi, hj, trivial⟩), ofFn_get_of _ _ (show InB [12, 2] [(i + 5) % 12, j] from ⟨Nat.mod_lt _ (by decide), hj, trivial⟩)]
    simp

/-- Level 2 of the symmetric mode: the detail coefficient 2 of the shifted signal is computed from the samples 2, …, 11;
it is the entry `(4 * 2 - 3 + 5) mod 12 = 10` of the stationary transform of the signal itself. -/
example : ∃ cs ss t u, wavedec exM5 lazy4 (some "symmetric") (some 2) (.int (-2)) = .ok cs ∧
    swt exM lazy4 (some 2) (.int (-2)) = .ok ss ∧ cs[1]? = some t ∧ ss[1]? = some u ∧ Inside 4 2 0 12 2 ∧
    t.get [2, 1] = u.get [10, 1] ∧ t.get [2, 1] ≠ 0 := by
  obtain ⟨cs, hcs⟩ := c04_total_modes exM5 lazy4 (some "symmetric") .symmetric (some 2) (.int (-2)) (Or.inl rfl)
    (by decide) rfl exM_axes (Or.inr rfl) (by decide) (Or.inr (Or.inr rfl))
  obtain ⟨ss, hss, hl, -⟩ := c24_size exM lazy4 (some 2) (.int (-2)) exM_axes (Or.inr rfl) (by decide) (by decide) rfl
    (by decide)
  have hl : ss.length = 3 := hl
  obtain ⟨m, -, hD⟩ := c02_wavedec_textbook exM5 lazy4 (some "symmetric") (some 2) (.int (-2)) cs (by decide) rfl hcs
  have hcl : cs.length = 3 := hD.length
  have hin : Inside 4 2 0 12 2 := by unfold Inside; decide
  have ht : cs[1]? = some cs[1] := List.getElem?_eq_getElem (by omega)
  have hu : ss[1]? = some ss[1] := List.getElem?_eq_getElem (by omega)
  have hsh : cs[1].shape = [5, 2] := (hD.detail 1 cs[1] (by decide) ht).shape
  have hc := (c73_contained exM exM5 lazy4 (some "symmetric") (some 2) (some 2) (.int (-2)) 5 exM_axes (Or.inr rfl)
    (by decide) (by decide) rfl (by decide) exM_shifted cs ss hcs hss
    (by rw [hl]; exact c23_divides 12 4 2 (by decide))).1 1 cs[1] ss[1] (by omega) (by omega)
    (by simp only [hcl]; exact ht) (by simp only [hl]; exact hu) [2, 1] (by rw [hsh]; decide) hin
  obtain ⟨_, e, hS⟩ := c24_textbook exM lazy4 (some 2) (.int (-2)) exM_axes (Or.inr rfl) (by decide) (by decide) rfl
    (by decide) (c23_divides 12 4 2 (by decide))
  rw [hss] at e; cases e
  have hd := hS.detail 1 ss[1] (by decide) hu
  have hval : ss[1].get [10, 1] = swtD lazy4 12 (line exM 0 [10, 1]) 1 10 :=
    hd.get [10, 1] (by rw [hd.shape]; exact ⟨by decide, by decide, trivial⟩)
  have hne : swtD lazy4 12 (line exM 0 [10, 1]) 1 10 ≠ 0 := by decide +kernel
  refine ⟨cs, ss, cs[1], ss[1], hcs, hss, ht, hu, hin, hc, by rw [hc]; exact hval ▸ hne⟩

end Verif.Props
