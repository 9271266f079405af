import Verif.Lemmas.Ext
import Verif.Lemmas.Index
import Verif.Model.Util
import Verif.Spec.Line

/-! Padding one axis shows the infinite extension of that axis. -/

namespace Verif
open Tensor Spec
variable {R : Type}

/-- `ext` at a position where the index is known. -/
theorem ext_of_idx [Zero R] {m : Mode} {n : Nat} {x : Nat → R} {i : ℤ} {j : Nat}
    (h : extIdx m n i = some j) : ext m n x i = x j := by unfold ext; rw [h]

/-- The extension mode implemented by a torch padding mode. -/
def torchMode : PadMode → Mode
  | .replicate => .constant
  | .constant => .zero
  | .reflect => .reflect
  | .circular => .periodic

/-- Which pads torch accepts on an axis of length `n`. -/
def padFits : PadMode → Nat → Nat → Nat → Prop
  | .replicate, n, _, _ => 1 ≤ n
  | .constant, _, _, _ => True
  | .reflect, n, l, r => l < n ∧ r < n
  | .circular, n, l, r => l ≤ n ∧ r ≤ n

theorem padAxis_ok [NonUnitalNonAssocSemiring R] {m : PadMode} {t : Tensor R} {a l r : Nat}
    (ha : a < t.rank) (hf : padFits m (t.shape.getD a 0) l r) :
    ∃ u, padAxis m t a l r = .ok u ∧ Extended (torchMode m) t a l r u := by
  set n := t.shape.getD a 0 with hn
  cases m with
  | constant =>
    refine ⟨_, rfl, rfl, rfl, ?_⟩
    intro idx hidx
    have hlt := inB_set_getD ha hidx
    rw [ofFn_shape] at hidx
    rw [ofFn_get_of _ _ hidx]
    rw [← hn] at *
    simp only [ext, extIdx, torchMode]
    by_cases hc : l ≤ idx.getD a 0 ∧ idx.getD a 0 < l + n
    · rw [if_pos hc, if_pos (by omega)]
      simp only [line]; congr 2; omega
    · rw [if_neg hc, if_neg (by omega)]
  | replicate =>
    refine ⟨_, if_pos hf, rfl, rfl, ?_⟩
    intro idx hidx
    have hlt := inB_set_getD ha hidx
    rw [ofFn_shape] at hidx
    rw [ofFn_get_of _ _ hidx]
    simp only [← hn] at *
    simp only [padFits] at hf
    symm
    apply ext_of_idx
    simp only [extIdx, torchMode]
    split_ifs <;> first | rfl | omega | (congr 1; omega)
  | reflect =>
    refine ⟨_, if_pos hf, rfl, rfl, ?_⟩
    intro idx hidx
    have hlt := inB_set_getD ha hidx
    rw [ofFn_shape] at hidx
    rw [ofFn_get_of _ _ hidx]
    simp only [← hn] at *
    simp only [padFits] at hf
    symm
    apply ext_of_idx
    simp only [torchMode]
    rw [extIdx_reflect_near (by omega) (by omega)]
    congr 1; split_ifs <;> omega
  | circular =>
    refine ⟨_, if_pos hf, rfl, rfl, ?_⟩
    intro idx hidx
    have hlt := inB_set_getD ha hidx
    rw [ofFn_shape] at hidx
    rw [ofFn_get_of _ _ hidx]
    simp only [← hn] at *
    simp only [padFits] at hf
    symm
    apply ext_of_idx
    simp only [torchMode]
    rw [extIdx_periodic_near (by omega) (by omega)]
    congr 1; split_ifs <;> omega

theorem padAxis_error [NonUnitalNonAssocSemiring R] {m : PadMode} {t : Tensor R} {a l r : Nat}
    (hf : ¬ padFits m (t.shape.getD a 0) l r) : padAxis m t a l r = .error .runtimeError := by
  cases m with
  | constant => exact absurd trivial hf
  | replicate => exact if_neg hf
  | reflect => exact if_neg hf
  | circular => exact if_neg hf

/-! ### Symmetric padding -/

theorem symBase_ok [Zero R] {t : Tensor R} {l r : Nat} (hr : 0 < t.rank)
    (hl : l ≤ t.shape.getD 0 0) (hrr : r ≤ t.shape.getD 0 0) :
    ∃ u, padSymBase t l r = .ok u ∧ Extended .symmetric t 0 l r u := by
  obtain ⟨md, sh, g, sp⟩ := t
  cases sh with
  | nil => simp [Tensor.rank] at hr
  | cons n ss =>
    simp only [List.getD_cons_zero] at hl hrr
    -- left part
    have hleft : ∃ s, symCatLeft (⟨md, n :: ss, g, sp⟩ : Tensor R) l = .ok s ∧ s.md = md ∧
        s.shape = (l + n) :: ss ∧ ∀ k rest, k < l + n → InB ss rest →
          s.get (k :: rest) = g ((if k < l then l - 1 - k else k - l) :: rest) := by
      unfold symCatLeft
      by_cases h0 : 0 < l
      · rw [if_pos h0]
        unfold cat2
        rw [if_pos (by simp [Tensor.flip, Tensor.slice])]
        refine ⟨_, rfl, rfl, ?_, ?_⟩
        · simp only [Tensor.flip, Tensor.slice, ofFn_shape, List.set_cons_zero, List.getD_cons_zero]
          congr 1; omega
        · intro k rest hk hrest
          rw [ofFn_get_of]
          · simp only [Tensor.flip, Tensor.slice, ofFn_shape, List.set_cons_zero,
              List.getD_cons_zero]
            by_cases hkl : k < l
            · rw [if_pos (by omega), ofFn_get_of, ofFn_get_of]
              · simp only [List.set_cons_zero, List.getD_cons_zero]
                rw [if_pos hkl]; congr 2; omega
              · exact ⟨by omega, hrest⟩
              · exact ⟨by omega, hrest⟩
            · rw [if_neg (by omega), if_neg hkl]
              congr 2; omega
          · simp only [Tensor.flip, Tensor.slice, ofFn_shape, List.set_cons_zero,
              List.getD_cons_zero]
            exact ⟨by omega, hrest⟩
      · rw [if_neg h0]
        refine ⟨_, rfl, rfl, ?_, ?_⟩
        · simp only; congr 1; omega
        · intro k rest hk hrest
          rw [if_neg (by omega)]
          show g _ = g _
          congr 2; omega
    obtain ⟨s, e, h1, h2, h3⟩ := hleft
    -- right part
    have hright : ∃ u, (if 0 < r then cat2 s
          (((⟨md, n :: ss, g, sp⟩ : Tensor R).slice 0 (n - r) n).flip 0) 0 else .ok s) = .ok u ∧
        u.md = md ∧ u.shape = (l + n + r) :: ss ∧ ∀ k rest, k < l + n + r → InB ss rest →
          u.get (k :: rest) = g ((if k < l then l - 1 - k else if k < l + n then k - l
            else 2 * n - 1 - (k - l)) :: rest) := by
      by_cases h0 : 0 < r
      · rw [if_pos h0]
        unfold cat2
        rw [if_pos (by simp [Tensor.flip, Tensor.slice, h1, h2])]
        refine ⟨_, rfl, h1, ?_, ?_⟩
        · simp only [Tensor.flip, Tensor.slice, ofFn_shape, h2, List.set_cons_zero, List.getD_cons_zero]
          congr 1; omega
        · intro k rest hk hrest
          rw [ofFn_get_of]
          · simp only [Tensor.flip, Tensor.slice, ofFn_shape, h2, List.set_cons_zero,
              List.getD_cons_zero]
            by_cases hkl : k < l + n
            · rw [if_pos hkl, h3 k rest hkl hrest]
              congr 2; rw [if_pos hkl]
            · rw [if_neg hkl, ofFn_get_of, ofFn_get_of]
              · simp only [List.set_cons_zero, List.getD_cons_zero]
                rw [if_neg (by omega), if_neg (by omega)]
                congr 2; omega
              · exact ⟨by omega, hrest⟩
              · exact ⟨by omega, hrest⟩
          · simp only [Tensor.flip, Tensor.slice, ofFn_shape, h2, List.set_cons_zero,
              List.getD_cons_zero]
            exact ⟨by omega, hrest⟩
      · rw [if_neg h0]
        refine ⟨_, rfl, h1, ?_, ?_⟩
        · rw [h2]; congr 1; omega
        · intro k rest hk hrest
          rw [h3 k rest (by omega) hrest]
          congr 2
          split_ifs <;> omega
    obtain ⟨u, e', u1, u2, u3⟩ := hright
    refine ⟨u, ?_, u1, ?_, ?_⟩
    · unfold padSymBase
      simp only [bind, Except.bind, e, List.getD_cons_zero]
      exact e'
    · simp only [u2, List.getD_cons_zero, List.set_cons_zero]
    · intro idx hidx
      rw [u2] at hidx
      match idx, hidx with
      | k :: rest, hidx =>
        rw [u3 k rest hidx.1 hidx.2]
        symm
        have hk := hidx.1
        simp only [List.getD_cons_zero]
        rw [ext_of_idx (extIdx_symm_near (by omega) (by omega))]
        simp only [line, List.set_cons_zero]
        congr 2
        split_ifs <;> omega

/-- Extending an already symmetrically extended window (of whole periods) extends the original. -/
theorem Spec.Extended.trans_symm [Zero R] {t u v : Tensor R} {l r l' r' : Nat} {p q : Nat}
    (hrk : 0 < t.rank) (hn : 0 < t.shape.getD 0 0)
    (hl : l = p * t.shape.getD 0 0) (hr : r = q * t.shape.getD 0 0)
    (h1 : Extended .symmetric t 0 l r u) (h2 : Extended .symmetric u 0 l' r' v) :
    Extended .symmetric t 0 (l' + l) (r + r') v := by
  set n := t.shape.getD 0 0 with hnn
  have hu0 : u.shape.getD 0 0 = l + n + r := by
    rw [h1.shape]; exact getD_set_self hrk
  have hvs : v.shape = t.shape.set 0 ((l' + l) + n + (r + r')) := by
    rw [h2.shape, hu0, h1.shape, List.set_set]; congr 1; omega
  refine ⟨h2.md.trans h1.md, hvs, ?_⟩
  intro idx hidx
  rw [h2.get idx hidx, hu0]
  rw [hvs] at hidx
  set e : ℤ → R := fun i => ext .symmetric n (line t 0 idx) (i - l) with he
  have e1 : ext .symmetric (l + n + r) (line u 0 idx) ((idx.getD 0 0 : ℤ) - l')
      = ext .symmetric (l + n + r) (fun j => e j) ((idx.getD 0 0 : ℤ) - l') := by
    apply ext_congr (by omega)
    intro j hj
    have hidx' : InB u.shape (idx.set 0 j) := by
      have : u.shape.set 0 ((l' + l) + n + (r + r')) = t.shape.set 0 ((l' + l) + n + (r + r')) := by
        rw [h1.shape, List.set_set]
      rw [inB_set_iff (x := (l' + l) + n + (r + r')) _ (by rw [this]; exact hidx)]
      · rw [hu0]; exact hj
      · rw [h1.shape, List.length_set]; exact hrk
    show u.get (idx.set 0 j) = _
    rw [h1.get _ hidx', getD_set_self]
    · show _ = ext _ _ _ _
      rw [← hnn]
      have : line t 0 (idx.set 0 j) = line t 0 idx := by
        funext k; simp only [line, List.set_set]
      rw [this]
    · have := hidx.length_eq
      rw [List.length_set] at this
      rw [this]; exact hrk
  have hper : ∀ (q : ℕ) (i : ℤ), ext .symmetric n (line t 0 idx) (i + q * (2 * n))
      = ext .symmetric n (line t 0 idx) i := by
    intro q
    induction q with
    | zero => intro i; simp
    | succ q ih =>
      intro i
      rw [show i + ((q + 1 : ℕ) : ℤ) * (2 * n) = 2 * n - 1 - (-1 - (i + q * (2 * n))) by
        push_cast; ring, ext_symm_right hn, ext_symm_left hn, ih]
  rw [e1, ext_symm_unique (by omega) e]
  · show ext _ _ _ _ = ext _ _ _ _
    congr 1; push_cast; ring
  · intro i
    show ext _ _ _ _ = ext _ _ _ _
    rw [← ext_symm_left hn, ← hper p (i - l)]
    congr 1
    rw [hl]; push_cast; ring
  · intro i
    show ext _ _ _ _ = ext _ _ _ _
    rw [← ext_symm_right hn]
    have e2 : i - (l : ℤ) = (i - l - 2 * r) + q * (2 * n) := by rw [hr]; push_cast; ring
    rw [e2, hper q]
    congr 1
    push_cast; ring

theorem Spec.Extended.rank [Zero R] {m : Mode} {t u : Tensor R} {a l r : Nat} (h : Extended m t a l r u) :
    u.rank = t.rank := by unfold Tensor.rank; rw [h.shape, List.length_set]

theorem Spec.Extended.zero [Zero R] {t : Tensor R} (m : Mode) {a : Nat} (ha : a < t.rank) :
    Extended m t a 0 0 t := by
  have hs : t.shape.set a (t.shape.getD a 0) = t.shape := set_getD_self ha
  refine ⟨rfl, ?_, ?_⟩
  · rw [Nat.zero_add, Nat.add_zero, hs]
  · intro idx hidx
    have := hidx.getD_lt (d := a) ha
    rw [show ((idx.getD a 0 : ℤ) - (0 : ℕ)) = (idx.getD a 0 : ℕ) by simp, ext_inside _ _ this, line,
      set_getD_self (by rw [hidx.length_eq]; exact ha)]

/-- `_pad_symmetric_1d` terminates and computes the symmetric extension, for every pad. -/
theorem padSymmetric1dFuel_ok [Zero R] : ∀ (fuel : Nat) {t : Tensor R} {l r : Nat}, 0 < t.rank →
    0 < t.shape.getD 0 0 → l + r < fuel →
    ∃ u, padSymmetric1dFuel fuel t l r = .ok u ∧ Extended .symmetric t 0 l r u
  | 0, t, l, r, _, _, h => by omega
  | fuel + 1, t, l, r, hrk, hn, h => by
    unfold padSymmetric1dFuel
    simp only
    set n := t.shape.getD 0 0 with hnn
    split_ifs with hc
    · have hL : ∃ s l', symGrowLeft (padSymmetric1dFuel fuel) t l n = .ok (s, l') ∧
          ∃ p, p ≤ 1 ∧ l = l' + p * n ∧ (n < l → p = 1) ∧ Extended .symmetric t 0 (p * n) 0 s := by
        unfold symGrowLeft
        split_ifs with hl
        · obtain ⟨s, e, he⟩ := padSymmetric1dFuel_ok fuel (t := t) (l := n) (r := 0) hrk hn (by omega)
          refine ⟨s, l - n, by simp only [bind, Except.bind, e]; rfl, 1, le_refl _, by omega,
            fun _ => rfl, ?_⟩
          rw [Nat.one_mul]; exact he
        · refine ⟨t, l, rfl, 0, by omega, by omega, fun h => absurd h hl, ?_⟩
          rw [Nat.zero_mul]; exact Extended.zero _ hrk
      obtain ⟨s, l', e1, p, hp, hl', hp1, hs⟩ := hL
      have hs0 : s.shape.getD 0 0 = p * n + n := by
        rw [hs.shape, getD_set_self hrk]; rfl
      have hR : ∃ s' r', symGrowRight (padSymmetric1dFuel fuel) s r n = .ok (s', r') ∧
          ∃ q, q ≤ 1 ∧ r = r' + q * n ∧ (n < r → q = 1) ∧ Extended .symmetric t 0 (p * n) (q * n) s' := by
        unfold symGrowRight
        split_ifs with hr
        · have hfuel : 0 + n < fuel := by
            have : n < r := hr
            omega
          obtain ⟨s', e, he⟩ := padSymmetric1dFuel_ok fuel (t := s) (l := 0) (r := n)
            (by rw [hs.rank]; exact hrk) (by omega) hfuel
          refine ⟨s', r - n, by simp only [bind, Except.bind, e]; rfl, 1, le_refl _, by omega,
            fun _ => rfl, ?_⟩
          have := Extended.trans_symm (p := p) (q := 0) hrk hn rfl (by omega) hs he
          rw [Nat.zero_add, Nat.zero_add] at this
          rw [Nat.one_mul]; exact this
        · refine ⟨s, r, rfl, 0, by omega, by omega, fun h => absurd h hr, ?_⟩
          rw [Nat.zero_mul]; exact hs
      obtain ⟨s', r', e2, q, hq, hr', hq1, hs'⟩ := hR
      have hs0' : s'.shape.getD 0 0 = p * n + n + q * n := by
        rw [hs'.shape, getD_set_self hrk]
      have hdec : l' + r' < fuel := by
        rcases hc with hc | hc
        · have := hp1 hc; subst this; omega
        · have := hq1 hc; subst this; omega
      obtain ⟨u, e3, hu⟩ := padSymmetric1dFuel_ok fuel (t := s') (l := l') (r := r')
        (by rw [hs'.rank]; exact hrk) (by omega) hdec
      refine ⟨u, by simp only [bind, Except.bind, e1, e2, e3], ?_⟩
      have := Extended.trans_symm (p := p) (q := q) hrk hn rfl rfl hs' hu
      rwa [← hl', Nat.add_comm (q * n), ← hr'] at this
    · exact symBase_ok hrk (by omega) (by omega)

theorem padSymmetric1d_ok [Zero R] {t : Tensor R} {l r : Nat} (hrk : 0 < t.rank)
    (hn : 0 < t.shape.getD 0 0) :
    ∃ u, padSymmetric1d t l r = .ok u ∧ Extended .symmetric t 0 l r u :=
  padSymmetric1dFuel_ok _ hrk hn (by omega)

/-! ### Padding an arbitrary axis by transposing it to the front -/

/-- exchange two entries. -/
def swl (a b : Nat) (l : List Nat) : List Nat := (l.set a (l.getD b 0)).set b (l.getD a 0)

theorem swl_length (a b : Nat) (l : List Nat) : (swl a b l).length = l.length := by simp [swl]

theorem swl_getD0 {a : Nat} {l : List Nat} (ha : a < l.length) :
    (swl 0 a l).getD 0 0 = l.getD a 0 := by
  unfold swl
  by_cases h : a = 0
  · subst h; rw [getD_set_self (by simpa using ha)]
  · rw [getD_set_ne h, getD_set_self (by omega)]

theorem swl_getD0' {a : Nat} {l : List Nat} (ha : a < l.length) :
    (swl a 0 l).getD 0 0 = l.getD a 0 := by
  unfold swl
  rw [getD_set_self (by rw [List.length_set]; omega)]

theorem list_ext_getD {l l' : List Nat} (hl : l.length = l'.length)
    (h : ∀ d, d < l.length → l.getD d 0 = l'.getD d 0) : l = l' := by
  apply List.ext_getElem hl
  intro d h1 h2
  have := h d h1
  rwa [List.getD_eq_getElem _ _ h1, List.getD_eq_getElem _ _ h2] at this

theorem getD_set {l : List Nat} {a x d : Nat} (hd : d < l.length) :
    (l.set a x).getD d 0 = if d = a then x else l.getD d 0 := by
  split_ifs with h
  · subst h; exact getD_set_self hd
  · exact getD_set_ne (Ne.symm h)

theorem swl_set {a x : Nat} {l : List Nat} (ha : a < l.length) :
    swl a 0 ((swl 0 a l).set 0 x) = l.set a x := by
  have h0 : 0 < l.length := by omega
  apply list_ext_getD (by simp [swl])
  intro d hd
  rw [swl_length, List.length_set, swl_length] at hd
  unfold swl
  simp only [getD_set, List.length_set, hd, h0, ha]
  split_ifs <;> first | rfl | omega | (congr 1; omega)

theorem swl_set' {a x : Nat} {l : List Nat} (ha : a < l.length) :
    swl 0 a ((swl a 0 l).set 0 x) = l.set a x := by
  have h0 : 0 < l.length := by omega
  apply list_ext_getD (by simp [swl])
  intro d hd
  rw [swl_length, List.length_set, swl_length] at hd
  unfold swl
  simp only [getD_set, List.length_set, hd, h0, ha]
  split_ifs <;> first | rfl | omega | (congr 1; omega)

theorem inB_swl {a b : Nat} {s i : List Nat} (ha : a < s.length) (hb : b < s.length)
    (h : InB s i) : InB (swl a b s) (swl a b i) := by
  rw [inB_iff] at h ⊢
  obtain ⟨h1, h2⟩ := h
  refine ⟨by simp [swl, h1], ?_⟩
  intro d hd
  rw [swl_length] at hd
  unfold swl
  simp only [getD_set, List.length_set, hd, h1]
  split_ifs
  · exact h2 _ ha
  · exact h2 _ hb
  · exact h2 _ hd

theorem swl_swl' {a : Nat} {l : List Nat} (ha : a < l.length) : swl 0 a (swl a 0 l) = l := by
  have h0 : 0 < l.length := by omega
  apply list_ext_getD (by simp [swl])
  intro d hd
  rw [swl_length, swl_length] at hd
  unfold swl
  simp only [getD_set, List.length_set, hd, h0, ha]
  split_ifs <;> first | rfl | omega | (congr 1; omega)

theorem swl_comm (a b : Nat) (l : List Nat) (ha : a < l.length) (hb : b < l.length) :
    swl a b l = swl b a l := by
  apply list_ext_getD (by simp [swl])
  intro d hd
  rw [swl_length] at hd
  unfold swl
  simp only [getD_set, List.length_set, hd]
  split_ifs <;> first | rfl | omega | (congr 1; omega)

theorem transpose_get [Zero R] {t : Tensor R} {a b : Nat} {i : List Nat}
    (h : InB (swl a b t.shape) i) : (t.transpose a b).get i = t.get (swl a b i) := by
  unfold Tensor.transpose
  exact ofFn_get_of _ _ h

theorem Spec.Extended.transpose [Zero R] {m : Mode} {t u : Tensor R} {a l r : Nat} (ha : a < t.rank)
    (h : Extended m (t.transpose 0 a) 0 l r u) : Extended m t a l r (u.transpose a 0) := by
  have hts : (t.transpose 0 a).shape = swl 0 a t.shape := rfl
  have hn : (t.transpose 0 a).shape.getD 0 0 = t.shape.getD a 0 := by
    rw [hts]; exact swl_getD0 ha
  have hus : u.shape = (swl 0 a t.shape).set 0 (l + t.shape.getD a 0 + r) := by
    rw [h.shape, hn, hts]
  have hs : (u.transpose a 0).shape = t.shape.set a (l + t.shape.getD a 0 + r) := by
    show swl a 0 u.shape = _
    rw [hus]; exact swl_set ha
  have h0 : 0 < t.shape.length := by unfold Tensor.rank at ha; omega
  have hul : u.shape.length = t.shape.length := by rw [hus, List.length_set, swl_length]
  refine ⟨h.md, hs, ?_⟩
  intro idx hidx
  have hil : idx.length = t.shape.length := by rw [hidx.length_eq, hs, List.length_set]
  have hal : a < idx.length := by rw [hil]; exact ha
  have hin : InB (swl a 0 u.shape) idx := hidx
  rw [transpose_get hin]
  have hin2 : InB u.shape (swl a 0 idx) := by
    have := inB_swl (a := 0) (b := a) (by rw [swl_length, hul]; exact h0)
      (by rw [swl_length, hul]; exact ha) hin
    rw [swl_swl' (by rw [hul]; exact ha), swl_comm 0 a _ (by omega) hal] at this
    exact this
  rw [h.get _ hin2, hn, swl_getD0' hal]
  by_cases hz : 0 < t.shape.getD a 0
  · apply ext_congr hz
    intro j hj
    show (t.transpose 0 a).get _ = t.get _
    have hmem : InB (swl 0 a t.shape) ((swl a 0 idx).set 0 j) := by
      rw [hus] at hin2
      rw [inB_set_iff (by rw [swl_length]; exact h0) hin2, swl_getD0 ha]
      exact hj
    rw [transpose_get hmem, swl_set' hal]
  · -- an empty axis: both lines are zero
    have e0 : t.shape.getD a 0 = 0 := by omega
    have z1 : ∀ j, line t a idx j = 0 := by
      intro j
      apply t.supp
      rw [hs] at hidx
      rw [inB_set_iff ha hidx]; omega
    have z2 : ∀ j, line (t.transpose 0 a) 0 (swl a 0 idx) j = 0 := by
      intro j
      apply (t.transpose 0 a).supp
      rw [hts]
      rw [hus] at hin2
      rw [inB_set_iff (by rw [swl_length]; exact h0) hin2, swl_getD0 ha]; omega
    unfold ext
    cases extIdx m (t.shape.getD a 0) ((idx.getD a 0 : ℤ) - l) with
    | none => rfl
    | some j => simp only [z1, z2]

/-- One axis of `_pad_symmetric`. -/
theorem padSymAxis_ok [Zero R] {t : Tensor R} {a l r : Nat} (ha : a < t.rank)
    (hn : 0 < t.shape.getD a 0) :
    ∃ u, padSymmetric1d (t.transpose 0 a) l r = .ok u ∧ Extended .symmetric t a l r (u.transpose a 0) := by
  have hts : (t.transpose 0 a).shape = swl 0 a t.shape := rfl
  obtain ⟨u, e, hu⟩ := padSymmetric1d_ok (t := t.transpose 0 a) (l := l) (r := r)
    (by unfold Tensor.rank; rw [hts, swl_length]; unfold Tensor.rank at ha; omega)
    (by rw [hts, swl_getD0 ha]; exact hn)
  exact ⟨u, e, hu.transpose ha⟩

/-- `v` is `t` extended along the axes `a, a-1, ...` one after the other. -/
inductive ExtChain [Zero R] (m : Mode) : Tensor R → Nat → List (Nat × Nat) → Tensor R → Prop
  | nil {t a} : ExtChain m t a [] t
  | cons {t u v a l r rest} : Extended m t a l r u → ExtChain m u (a - 1) rest v →
      ExtChain m t a ((l, r) :: rest) v

end Verif
