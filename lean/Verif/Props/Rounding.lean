/-
C74: floating point arithmetic.  The transforms computed with rounding (products and sums with a relative error of at most
`u`, in any order of summation, filter taps converted with such an error) are close to the exact ones, with explicit
bounds, and raise what the exact ones raise.
-/
import Verif.Lemmas.RoundingProg
import Verif.Props.Bounds
import Verif.Props.Numbers
import Mathlib.Data.Rat.Floor

namespace Verif.Props
open Verif.Spec Tensor
variable {R : Type}

/-! ### Sums of products -/

section field
variable [Field R] [LinearOrder R] [IsStrictOrderedRing R]

/-- **C74.** A sum of `n` products evaluated in floating point arithmetic, in whatever order: the error is at most
`(1 + u)^n - 1` times the sum of the absolute values of the products. -/
theorem c74_dot {u : R} (hu : 0 ≤ u) {l : List (R × R)} {v : R} (h : Rounded u l v) :
    |v - (l.map fun p => p.1 * p.2).sum| ≤ ((1 + u) ^ l.length - 1) * (l.map fun p => |p.1| * |p.2|).sum :=
  h.error hu

/-! ### The triple run -/

/-- The three components. -/
def pr1 : R × R × R →ₙ+* R := NonUnitalRingHom.fst R (R × R)
def pr2 : R × R × R →ₙ+* R := (NonUnitalRingHom.fst R R).comp (NonUnitalRingHom.snd R (R × R))
def pr3 : R × R × R →ₙ+* R := (NonUnitalRingHom.snd R R).comp (NonUnitalRingHom.snd R (R × R))

theorem pr1_in (x : Tensor R) : mapT (pr1 (R := R)).toZeroHom (mapT in3 x) = x := Tensor.ext' rfl rfl fun _ _ => rfl
theorem pr2_in (x : Tensor R) : mapT (pr2 (R := R)).toZeroHom (mapT in3 x) = absT x := Tensor.ext' rfl rfl fun _ _ => rfl
theorem pr3_in (x : Tensor R) : mapT (pr3 (R := R)).toZeroHom (mapT in3 x) = absT x := Tensor.ext' rfl rfl fun _ _ => rfl

theorem pr1_tap (g : R) (w : Wavelet R) : mapW pr1 (mapW (tap3 g) w) = w := by
  have h : ∀ l : List R, (l.map (tap3 g)).map pr1 = l := fun l => by
    rw [List.map_map]; exact List.map_id' l
  simp only [mapW, h]

theorem pr2_tap (g : R) (w : Wavelet R) : mapW pr2 (mapW (tap3 g) w) = absW 1 w := by
  have h : ∀ l : List R, (l.map (tap3 g)).map pr2 = l.map fun a => 1 * |a| := fun l => by
    rw [List.map_map]; exact List.map_congr_left fun a _ => (one_mul |a|).symm
  simp only [mapW, absW, h]

theorem pr3_tap (g : R) (w : Wavelet R) : mapW pr3 (mapW (tap3 g) w) = absW g w := by
  have h : ∀ l : List R, (l.map (tap3 g)).map pr3 = l.map fun a => g * |a| := fun l => by
    rw [List.map_map]; rfl
  simp only [mapW, absW, h]

theorem closeBy_of {t' : Tensor R} {y : Tensor (R × R × R)} (h : TRel Err3 t' y) :
    CloseBy t' (mapT (pr1 (R := R)).toZeroHom y) (mapT (pr2 (R := R)).toZeroHom y) (mapT (pr3 (R := R)).toZeroHom y) where
  md := ⟨h.md.symm, rfl, rfl⟩
  shape := ⟨h.shape.symm, rfl, rfl⟩
  bound i := (h.get i).1
  error i := (h.get i).2

theorem closeList_of {ts' : List (Tensor R)} {ys : List (Tensor (R × R × R))} (h : List.Forall₂ (TRel Err3) ts' ys) :
    CloseList ts' (ys.map (mapT (pr1 (R := R)).toZeroHom)) (ys.map (mapT (pr2 (R := R)).toZeroHom))
      (ys.map (mapT (pr3 (R := R)).toZeroHom)) := by
  induction h with
  | nil => exact .nil
  | cons h _ ih => exact .cons (closeBy_of h) ih

theorem exists_triple {t' t lo hi : Tensor R} (h : CloseBy t' t lo hi) :
    ∃ y : Tensor (R × R × R), TRel Err3 t' y ∧ mapT (pr1 (R := R)).toZeroHom y = t ∧
      mapT (pr2 (R := R)).toZeroHom y = lo ∧ mapT (pr3 (R := R)).toZeroHom y = hi := by
  refine ⟨⟨t.md, t.shape, fun i => (t.get i, lo.get i, hi.get i), fun i hi' => ?_⟩, ⟨h.md.1.symm, h.shape.1.symm, fun i => ⟨h.bound i, h.error i⟩⟩, ?_, ?_, ?_⟩
  · rw [t.supp i hi', lo.supp i (by rwa [h.shape.2.1]), hi.supp i (by rwa [h.shape.2.2])]; rfl
  · exact Tensor.ext' rfl rfl fun _ _ => rfl
  · exact Tensor.ext' h.md.2.1.symm h.shape.2.1.symm fun _ _ => rfl
  · exact Tensor.ext' h.md.2.2.symm h.shape.2.2.symm fun _ _ => rfl

theorem exists_triples {ts' ts los his : List (Tensor R)} (h : CloseList ts' ts los his) :
    ∃ ys : List (Tensor (R × R × R)), List.Forall₂ (TRel Err3) ts' ys ∧ ys.map (mapT (pr1 (R := R)).toZeroHom) = ts ∧
      ys.map (mapT (pr2 (R := R)).toZeroHom) = los ∧ ys.map (mapT (pr3 (R := R)).toZeroHom) = his := by
  induction h with
  | nil => exact ⟨[], .nil, rfl, rfl, rfl⟩
  | cons h _ ih =>
    obtain ⟨y, h1, rfl, rfl, rfl⟩ := exists_triple h
    obtain ⟨ys, h2, rfl, rfl, rfl⟩ := ih
    exact ⟨y :: ys, .cons h1 h2, rfl, rfl, rfl⟩

/-! ### The transforms -/

/-- **C74.** `wavedec` in floating point arithmetic with unit roundoff `u`.  It raises what the exact program raises.
Otherwise the coefficients are as far from the exact ones as the transforms of the absolute values of the data, with the
absolute values of the taps and with these multiplied by `g`, are from each other, entry by entry; `g` is any number not
below `(1 + u)^(F+1)`, `F` the length of the filters. -/
theorem c74_wavedec {K : Kernels R} {u g : R} (hK : FloatKernels u K) (w : Wavelet R) (hg : (1 + u) ^ (w.len + 1) ≤ g)
    (x : Tensor R) (mode : Option String) (level : Option Int) (axis : AxisHint) :
    (∀ e, wavedec x w mode level axis = .error e → wavedecF K x w mode level axis = .error e) ∧
    ∀ cs, wavedec x w mode level axis = .ok cs → ∃ cs' lo hi, wavedecF K x w mode level axis = .ok cs' ∧
      wavedec (absT x) (absW 1 w) mode level axis = .ok lo ∧ wavedec (absT x) (absW g w) mode level axis = .ok hi ∧
      CloseList cs' cs lo hi := by
  have h := wavedecF_rel hK hg mode level axis (trel_in x)
  have h1 := c67_wavedec pr1 (mapT in3 x) (mapW (tap3 g) w) mode level axis
  have h2 := c67_wavedec pr2 (mapT in3 x) (mapW (tap3 g) w) mode level axis
  have h3 := c67_wavedec pr3 (mapT in3 x) (mapW (tap3 g) w) mode level axis
  rw [pr1_in, pr1_tap] at h1
  rw [pr2_in, pr2_tap] at h2
  rw [pr3_in, pr3_tap] at h3
  revert h h1 h2 h3
  generalize wavedecF K x w mode level axis = f
  generalize wavedec (mapT in3 x) (mapW (tap3 g) w) mode level axis = r
  intro h h1 h2 h3
  rw [h1, h2, h3]
  cases h with
  | err e => exact ⟨fun e' h => by cases h; rfl, fun cs h => by cases h⟩
  | ok h => exact ⟨fun e' h => (by cases h), fun cs hc => by cases hc; exact ⟨_, _, _, rfl, rfl, rfl, closeList_of h⟩⟩

/-- **C74.** `waverec` in floating point arithmetic, from coefficients which are themselves not exact (for exact
coefficients: `CloseList cs cs (cs.map absT) (cs.map absT)`). -/
theorem c74_waverec {K : Kernels R} {u g : R} (hK : FloatKernels u K) (w : Wavelet R)
    (hg : (1 + u) ^ (w.recLo.length + 2) ≤ g) (axis : AxisHint) {cs' cs lo hi : List (Tensor R)}
    (hc : CloseList cs' cs lo hi) :
    (∀ e, waverec cs w axis = .error e → waverecF K cs' w axis = .error e) ∧
    ∀ z, waverec cs w axis = .ok z → ∃ z' zlo zhi, waverecF K cs' w axis = .ok z' ∧
      waverec lo (absW 1 w) axis = .ok zlo ∧ waverec hi (absW g w) axis = .ok zhi ∧ CloseBy z' z zlo zhi := by
  obtain ⟨ys, hy, rfl, rfl, rfl⟩ := exists_triples hc
  have h := waverecF_rel hK hg axis hy
  have h1 := c67_waverec pr1 ys (mapW (tap3 g) w) axis
  have h2 := c67_waverec pr2 ys (mapW (tap3 g) w) axis
  have h3 := c67_waverec pr3 ys (mapW (tap3 g) w) axis
  rw [pr1_tap] at h1
  rw [pr2_tap] at h2
  rw [pr3_tap] at h3
  rw [h1, h2, h3]
  revert h
  generalize waverecF K cs' w axis = f
  generalize waverec ys (mapW (tap3 g) w) axis = r
  intro h
  cases h with
  | err e => exact ⟨fun e' h => by cases h; rfl, fun cs h => by cases h⟩
  | ok h => exact ⟨fun e' h => (by cases h), fun cs hc => by cases hc; exact ⟨_, _, _, rfl, rfl, rfl, closeBy_of h⟩⟩

theorem closeList_abs (cs : List (Tensor R)) : CloseList cs cs (cs.map absT) (cs.map absT) := by
  induction cs with
  | nil => exact .nil
  | cons c cs ih => exact .cons ⟨⟨rfl, rfl, rfl⟩, ⟨rfl, rfl, rfl⟩, fun i => le_rfl, fun i => by simp⟩ ih

/-! ### Routines which compute in floating point arithmetic -/

theorem seqDot_rounded {u : R} {rnd : R → R} (h : ∀ y, ∃ δ, |δ| ≤ u ∧ rnd y = y * (1 + δ)) (l : List (R × R)) :
    Rounded u l (seqDot rnd l) := by
  have hp : ∀ q : R × R, Rounded u [q] (rnd (q.1 * q.2)) := fun q => by
    obtain ⟨δ, hδ, e⟩ := h (q.1 * q.2)
    rw [e]
    exact .product _ _ δ hδ
  have key : ∀ (l : List (R × R)) (l0 : List (R × R)) (v : R), l0 ≠ [] → Rounded u l0 v →
      Rounded u (l0 ++ l) (l.foldl (fun acc q => rnd (acc + rnd (q.1 * q.2))) v) := by
    intro l
    induction l with
    | nil => intro l0 v _ hv; simpa using hv
    | cons q l ih =>
      intro l0 v h0 hv
      rw [List.foldl_cons, show l0 ++ q :: l = (l0 ++ [q]) ++ l by simp]
      refine ih _ _ (by simp) ?_
      obtain ⟨δ, hδ, e⟩ := h (v + rnd (q.1 * q.2))
      rw [e]
      exact .sum _ _ _ _ δ h0 (by simp) hv (hp q) hδ
  cases l with
  | nil => exact .empty
  | cons q l => exact key l [q] _ (by simp) (hp q)

theorem floatResult_seq {u : R} {rnd : R → R} (h : ∀ y, ∃ δ, |δ| ≤ u ∧ rnd y = y * (1 + δ))
    (terms : Nat → Nat → Nat → List (R × R)) (r : Except Err (Tensor R)) :
    FloatResult u terms r (r.map fun r => ofFn r.md r.shape fun i =>
      seqDot rnd (terms (i.getD 0 0) (i.getD 1 0) (i.getD 2 0))) := by
  cases r with
  | error e => rfl
  | ok r =>
    refine ⟨_, rfl, rfl, rfl, fun b o k hi => ?_⟩
    rw [ofFn_get_of _ _ hi]
    exact seqDot_rounded h _

/-- **C74.** The left-to-right evaluation with any rounding of relative error at most `u` is a case in point. -/
theorem c74_sequential {u : R} {rnd : R → R} (hu : 0 ≤ u) (h : ∀ y, ∃ δ, |δ| ≤ u ∧ rnd y = y * (1 + δ)) :
    FloatKernels u (seqKernels rnd) where
  unit := hu
  tap _ a := h a
  conv x w s d := floatResult_seq h _ _
  convTranspose x w s := floatResult_seq h _ _

/-- **C74.** Rounding to `p` binary digits has a relative error of at most `2^-p`. -/
theorem c74_round [FloorRing R] (p : Nat) (y : R) : ∃ δ : R, |δ| ≤ 1 / 2 ^ p ∧ flRound p y = y * (1 + δ) := by
  rcases eq_or_ne y 0 with rfl | hy
  · exact ⟨0, by simp, by simp [flRound]⟩
  set e := Int.log 2 |y| - p + 1 with he
  have h2 : (0 : R) < 2 ^ e := zpow_pos (by norm_num) e
  refine ⟨((round (y / 2 ^ e) : ℤ) - y / 2 ^ e) / (y / 2 ^ e), ?_, ?_⟩
  · have h1 : |((round (y / 2 ^ e) : ℤ) : R) - y / 2 ^ e| ≤ 1 / 2 := by
      rw [abs_sub_comm]; exact abs_sub_round _
    have h3 : (2 : R) ^ (Int.log 2 |y|) ≤ |y| := by
      have := Int.zpow_log_le_self (b := 2) (r := |y|) (by norm_num) (abs_pos.2 hy)
      simpa using this
    have h4 : (2 : R) ^ p / 2 ≤ |y / 2 ^ e| := by
      rw [abs_div, abs_of_pos h2, le_div_iff₀ h2]
      refine le_trans (le_of_eq ?_) h3
      rw [he, zpow_add₀ (by norm_num), zpow_sub₀ (by norm_num)]
      simp
      field_simp
    rw [abs_div, div_le_iff₀ (lt_of_lt_of_le (by positivity) h4)]
    refine h1.trans (le_trans (le_of_eq ?_) (mul_le_mul_of_nonneg_left h4 (by positivity)))
    field_simp
  · show _ * 2 ^ e = _
    field_simp
    ring

/-- **C74.** ... so that float32 (`p = 24`) and float64 (`p = 53`) arithmetic, evaluated from left to right, is covered. -/
theorem c74_binary [FloorRing R] (p : Nat) : FloatKernels (1 / 2 ^ p : R) (seqKernels (flRound p)) :=
  c74_sequential (by positivity) (c74_round p)

theorem exact_rounded (l : List (R × R)) : Rounded (0 : R) l (dotSum l) := by
  induction l with
  | nil => exact .empty
  | cons q l ih =>
    have h1 : Rounded (0 : R) [q] (q.1 * q.2) := by simpa using Rounded.product (u := (0 : R)) q.1 q.2 0 (by simp)
    rcases eq_or_ne l [] with rfl | hl
    · simpa [dotSum] using h1
    · have := Rounded.sum (u := (0 : R)) [q] l _ _ 0 (by simp) hl h1 ih (by simp)
      simpa [dotSum] using this

theorem exact_conv (x w : Tensor R) (s d : Nat) : FloatResult 0 (convTerms x w s d) (conv1d x w s d) (conv1d x w s d) := by
  unfold FloatResult
  cases hr : conv1d x w s d with
  | error e => rfl
  | ok r =>
    refine ⟨r, rfl, rfl, rfl, fun b o k hi => ?_⟩
    unfold Tensor.conv1d at hr
    split at hr
    · rename_i B C N O C' F hxs hws
      split_ifs at hr with hc
      cases hr
      have hi' : InB [B, O, (N - d * (F - 1) - 1) / s + 1] [b, o, k] := hi
      rw [ofFn_get_of _ _ hi']
      simp only
      rw [sum_convIdx]
      have e2 : convTerms x w s d b o k = (convIdx C F).map fun p => (w.get [o, p.1, p.2], x.get [b, p.1, s * k + d * p.2]) := by
        unfold convTerms convIdx
        rw [hws, List.map_flatMap, hc.1]
        simp [List.map_map, Function.comp_def]
      have := exact_rounded (convTerms x w s d b o k)
      rw [e2] at this ⊢
      simpa [dotSum, List.map_map, Function.comp_def] using this
    · cases hr

theorem exact_convT (x w : Tensor R) (s : Nat) :
    FloatResult 0 (convTransposeTerms x w s) (convTranspose1d x w s) (convTranspose1d x w s) := by
  unfold FloatResult
  cases hr : convTranspose1d x w s with
  | error e => rfl
  | ok r =>
    refine ⟨r, rfl, rfl, rfl, fun b o k hi => ?_⟩
    unfold Tensor.convTranspose1d at hr
    split at hr
    · rename_i B C N C' O F hxs hws
      split_ifs at hr with hc
      cases hr
      have hi' : InB [B, O, (N - 1) * s + F] [b, o, k] := hi
      rw [ofFn_get_of _ _ hi']
      simp only
      rw [sum_convTIdx]
      have e2 : convTransposeTerms x w s b o k = (convTIdx C N F s k).map fun p => (w.get [p.1, o, k - s * p.2], x.get [b, p.1, p.2]) := by
        unfold convTransposeTerms convTIdx
        rw [hws, hxs, List.map_flatMap, hc.1]
        simp [List.map_map, Function.comp_def]
      have := exact_rounded (convTransposeTerms x w s b o k)
      rw [e2] at this ⊢
      simpa [dotSum, List.map_map, Function.comp_def] using this
    · cases hr

/-- **C74.** The programs with the routines as parameters, applied to the exact routines (unit roundoff zero), are the
programs of the model. -/
theorem c74_exact :
    FloatKernels (0 : R) (exactKernels R) ∧
    (∀ (x : Tensor R) (w : Wavelet R) (mode : Option String) (level : Option Int) (axis : AxisHint),
      wavedecF (exactKernels R) x w mode level axis = wavedec x w mode level axis) ∧
    ∀ (cs : List (Tensor R)) (w : Wavelet R) (axis : AxisHint),
      waverecF (exactKernels R) cs w axis = waverec cs w axis :=
  ⟨⟨le_rfl, fun _ a => ⟨0, by simp, by simp [exactKernels]⟩, exact_conv, exact_convT⟩, wavedecF_exact, waverecF_exact⟩


/-! ### Explicit bounds -/

theorem absW_len (g : R) (w : Wavelet R) : (absW g w).len = w.len := by simp [absW, Wavelet.len]

theorem absW_pos {g : R} (hg : 0 ≤ g) (l : List R) (i : Nat) : 0 ≤ (l.map fun a => g * |a|).getD i 0 := by
  rw [List.getD_eq_getElem?_getD, List.getElem?_map]
  cases l[i]? with
  | none => simp
  | some a => simpa using mul_nonneg hg (abs_nonneg a)

theorem absW_scale (g : R) (l : List R) (i : Nat) :
    (l.map fun a => g * |a|).getD i 0 = g * (l.map fun a => 1 * |a|).getD i 0 := by
  rw [List.getD_eq_getElem?_getD, List.getD_eq_getElem?_getD, List.getElem?_map, List.getElem?_map]
  cases l[i]? with
  | none => simp
  | some a => simp

theorem l1_absW (l : List R) : l1 (l.map fun a => 1 * |a|) = l1 l := by
  unfold l1
  rw [List.map_map]
  refine congrArg _ (List.map_congr_left fun a _ => ?_)
  simp

theorem analysis_absW (g : R) (l : List R) (e : ℤ → R) (c : R) (k : Nat) :
    analysis (l.map fun a => g * |a|) (fun i => c * e i) k = g * c * analysis (l.map fun a => 1 * |a|) e k := by
  unfold analysis
  rw [List.length_map, List.length_map, Finset.mul_sum]
  refine Finset.sum_congr rfl fun j _ => ?_
  rw [absW_scale]
  ring

theorem ext_scale (m : Mode) (n : Nat) (c : R) (x : Nat → R) : ext m n (fun j => c * x j) = fun i => c * ext m n x i := by
  funext i
  unfold ext
  split <;> simp

theorem cA_absW (m : Mode) (g : R) (w : Wavelet R) (n : Nat) (x : Nat → R) : ∀ s,
    cA m (absW g w) n x s = fun k => g ^ s * cA m (absW 1 w) n x s k
  | 0 => by funext k; simp [cA]
  | s + 1 => by
    funext k
    show analysis (w.decLo.map fun a => g * |a|) (ext m _ (cA m (absW g w) n x s)) k = _
    rw [cA_absW m g w n x s, ext_scale, analysis_absW, absW_len, pow_succ']
    show _ = g * g ^ s * analysis (w.decLo.map fun a => 1 * |a|) (ext m (levelLen (absW 1 w).len n s) (cA m (absW 1 w) n x s)) k
    rw [absW_len]

theorem cD_absW (m : Mode) (g : R) (w : Wavelet R) (n : Nat) (x : Nat → R) (s : Nat) :
    cD m (absW g w) n x s = fun k => g ^ (s + 1) * cD m (absW 1 w) n x s k := by
  funext k
  show analysis (w.decHi.map fun a => g * |a|) (ext m _ (cA m (absW g w) n x s)) k = _
  rw [cA_absW m g w n x s, ext_scale, analysis_absW, absW_len, pow_succ']
  show _ = g * g ^ s * analysis (w.decHi.map fun a => 1 * |a|) (ext m (levelLen (absW 1 w).len n s) (cA m (absW 1 w) n x s)) k
  rw [absW_len]

theorem tap_absW (g : R) (l : List R) (i : ℤ) : tap (l.map fun a => g * |a|) i = g * tap (l.map fun a => 1 * |a|) i := by
  unfold tap
  split_ifs
  · rw [absW_scale]
  · simp

theorem tap_absW_nonneg (l : List R) (i : ℤ) : 0 ≤ tap (l.map fun a => 1 * |a|) i := by
  unfold tap
  split_ifs
  · exact absW_pos zero_le_one _ _
  · exact le_rfl

/-- Scaling of an inverse transform of nonnegative numbers. -/
theorem idwt_absW {g : R} (hg : 1 ≤ g) (f₀ f₁ : List R) (F : Nat) : ∀ (ds ds' : List (Nat × (Nat → R))) {lo lo' : Nat → R} {c : R},
    0 ≤ c → (∀ k, 0 ≤ lo k ∧ lo' k ≤ c * lo k) →
    List.Forall₂ (fun d d' => d'.1 = d.1 ∧ ∀ k, 0 ≤ d.2 k ∧ d'.2 k ≤ c * d.2 k) ds ds' →
    ∀ k, 0 ≤ idwt (f₀.map fun a => 1 * |a|) (f₁.map fun a => 1 * |a|) F lo ds k ∧
      idwt (f₀.map fun a => g * |a|) (f₁.map fun a => g * |a|) F lo' ds' k ≤
        g ^ ds.length * c * idwt (f₀.map fun a => 1 * |a|) (f₁.map fun a => 1 * |a|) F lo ds k
  | [], _, lo, lo', c, hc, hl, h, k => by cases h; simpa [idwt] using hl k
  | (K, d) :: ds, _, lo, lo', c, hc, hl, h, k => by
    cases h with
    | @cons _ d' _ ds' hd h =>
      obtain ⟨K', d'⟩ := d'
      obtain ⟨e, hd⟩ := hd
      simp only at e hd
      subst e
      have hg0 : 0 ≤ g := zero_le_one.trans hg
      have h1 : List.Forall₂ (fun d d' => d'.1 = d.1 ∧ ∀ k, 0 ≤ d.2 k ∧ d'.2 k ≤ g * c * d.2 k) ds ds' :=
        h.imp fun a b h => ⟨h.1, fun k => ⟨(h.2 k).1, (h.2 k).2.trans (by
          have h3 := mul_nonneg hc (h.2 k).1
          nlinarith)⟩⟩
      have h2 : ∀ m : Nat, 0 ≤ synthesis (f₀.map fun a => 1 * |a|) (f₁.map fun a => 1 * |a|) K' lo d ((m + (F - 2) : ℕ) : ℤ) ∧
          synthesis (f₀.map fun a => g * |a|) (f₁.map fun a => g * |a|) K' lo' d' ((m + (F - 2) : ℕ) : ℤ) ≤
          g * c * synthesis (f₀.map fun a => 1 * |a|) (f₁.map fun a => 1 * |a|) K' lo d ((m + (F - 2) : ℕ) : ℤ) := by
        intro m
        unfold synthesis
        constructor
        · refine Finset.sum_nonneg fun j _ => add_nonneg (mul_nonneg (tap_absW_nonneg _ _) (hl _).1) (mul_nonneg (tap_absW_nonneg _ _) (hd _).1)
        · rw [Finset.mul_sum]
          refine Finset.sum_le_sum fun j _ => ?_
          rw [tap_absW g f₀, tap_absW g f₁]
          have h1 := mul_le_mul_of_nonneg_left (hl j).2 (mul_nonneg hg0 (tap_absW_nonneg f₀ (((m + (F - 2) : ℕ) : ℤ) - 2 * j)))
          have h2 := mul_le_mul_of_nonneg_left (hd j).2 (mul_nonneg hg0 (tap_absW_nonneg f₁ (((m + (F - 2) : ℕ) : ℤ) - 2 * j)))
          refine (add_le_add h1 h2).trans (le_of_eq ?_)
          ring
      have := idwt_absW hg f₀ f₁ F ds ds' (mul_nonneg hg0 hc) h2 h1 k
      rw [List.length_cons, pow_succ, mul_assoc _ g c]
      exact this

theorem closeList_get {a b c d : List (Tensor R)} (h : CloseList a b c d) :
    a.length = b.length ∧ c.length = b.length ∧ d.length = b.length ∧
    ∀ (i : Nat) (t' : Tensor R), a[i]? = some t' → ∃ t lo hi : Tensor R, b[i]? = some t ∧ c[i]? = some lo ∧ d[i]? = some hi ∧ CloseBy t' t lo hi := by
  induction h with
  | nil => exact ⟨rfl, rfl, rfl, fun i t' h => by simp at h⟩
  | cons h _ ih =>
    obtain ⟨h1, h2, h3, h4⟩ := ih
    refine ⟨by simp [h1], by simp [h2], by simp [h3], fun i t' ht => ?_⟩
    cases i with
    | zero => simp only [List.getElem?_cons_zero, Option.some.injEq] at ht; subst ht; exact ⟨_, _, _, rfl, rfl, rfl, h⟩
    | succ i => simpa using h4 i t' (by simpa using ht)

/-- `wavedec` of the absolute values: taps multiplied by `g`. -/
theorem wavedec_scale {g : R} (w : Wavelet R) (x : Tensor R) (mode : Option String) (level : Option Int)
    (axis : AxisHint) (lo hi : List (Tensor R)) (hF : 2 ≤ w.len) (hhi : w.decHi.length = w.len)
    (h1 : wavedec x (absW 1 w) mode level axis = .ok lo) (h2 : wavedec x (absW g w) mode level axis = .ok hi) :
    hi.length = lo.length ∧
    (∀ t t', lo[0]? = some t → hi[0]? = some t' → ∀ i, t'.get i = g ^ (lo.length - 1) * t.get i) ∧
    ∀ s d d', s + 1 < lo.length → lo[lo.length - 1 - s]? = some d → hi[lo.length - 1 - s]? = some d' →
      ∀ i, d'.get i = g ^ (s + 1) * d.get i := by
  obtain ⟨m, e, h⟩ := c02_wavedec_textbook x _ mode level axis lo (by rw [absW_len]; exact hF) (by rw [absW_len]; simpa [absW] using hhi) h1
  obtain ⟨m', e', h'⟩ := c02_wavedec_textbook x _ mode level axis hi (by rw [absW_len]; exact hF) (by rw [absW_len]; simpa [absW] using hhi) h2
  rw [absW_len] at e e'
  rw [absW_len] at h h'
  have hL := h.length
  have hL' := h'.length
  generalize levels level w.len (x.shape.getD (axis1 axis x.rank) 0) = L at h h' hL hL' e e'
  refine ⟨by rw [hL, hL'], ?_, ?_⟩
  · intro t t' ht ht' i
    have ha := h.approx t ht
    have ha' := h'.approx t' ht'
    have hsh : t'.shape = t.shape := by rw [ha.shape, ha'.shape, absW_len, absW_len]
    rw [hL, Nat.add_sub_cancel]
    by_cases hi : InB t.shape i
    · rw [ha.get i hi, ha'.get i (hsh ▸ hi)]
      rcases Nat.eq_zero_or_pos L with h0 | h0
      · subst h0; simp [cA]
      · obtain rfl : m' = m := selects_unique (e'.resolve_right (by omega)) (e.resolve_right (by omega))
        rw [cA_absW]
    · rw [t.supp i hi, t'.supp i (hsh ▸ hi), mul_zero]
  · intro s d d' hsl hd hd' i
    rw [hL] at hsl hd hd'
    have hd := h.detail s d (by omega) (by simpa using hd)
    have hd' := h'.detail s d' (by omega) (by simpa using hd')
    have hsh : d'.shape = d.shape := by rw [hd.shape, hd'.shape, absW_len, absW_len]
    by_cases hi : InB d.shape i
    · rw [hd.get i hi, hd'.get i (hsh ▸ hi)]
      obtain rfl : m' = m := selects_unique (e'.resolve_right (by omega)) (e.resolve_right (by omega))
      rw [cD_absW]
    · rw [d.supp i hi, d'.supp i (hsh ▸ hi), mul_zero]

/-- **C74.** The error of the `wavedec` coefficients of data bounded by `M`: at most `(g^s - 1)` times the bound of C70 for
the coefficients of level `s`. -/
theorem c74_wavedec_error {K : Kernels R} {u g : R} (hK : FloatKernels u K) (w : Wavelet R) (hg : (1 + u) ^ (w.len + 1) ≤ g)
    (x : Tensor R) (mode : Option String) (level : Option Int) (axis : AxisHint) (M : R) (cs : List (Tensor R))
    (hF : 2 ≤ w.len) (hhi : w.decHi.length = w.len) (hM : ∀ i, |x.get i| ≤ M) (hcs : wavedec x w mode level axis = .ok cs) :
    ∃ cs', wavedecF K x w mode level axis = .ok cs' ∧ cs'.map (·.shape) = cs.map (·.shape) ∧
      (∀ t t', cs[0]? = some t → cs'[0]? = some t' →
        ∀ i, |t'.get i - t.get i| ≤ (g ^ (cs.length - 1) - 1) * (l1 w.decLo ^ (cs.length - 1) * M)) ∧
      ∀ s d d', s + 1 < cs.length → cs[cs.length - 1 - s]? = some d → cs'[cs.length - 1 - s]? = some d' →
        ∀ i, |d'.get i - d.get i| ≤ (g ^ (s + 1) - 1) * (l1 w.decHi * (l1 w.decLo ^ s * M)) := by
  obtain ⟨cs', lo, hi, e, e1, e2, hc⟩ := (c74_wavedec hK w hg x mode level axis).2 cs hcs
  have hu := hK.unit
  have hg1 : 1 ≤ g := (one_le_pow₀ (by linarith)).trans hg
  obtain ⟨l1', l2', l3', hget⟩ := closeList_get hc
  obtain ⟨-, s1, s2⟩ := wavedec_scale w (absT x) mode level axis lo hi hF hhi e1 e2
  obtain ⟨b1, b2⟩ := c70_wavedec_bound (absT x) (absW 1 w) mode level axis lo M (by rw [absW_len]; exact hF)
    (by rw [absW_len]; simpa [absW] using hhi) (fun i => by simpa [absT] using hM i) e1
  have eLo : l1 (absW 1 w).decLo = l1 w.decLo := l1_absW _
  have eHi : l1 (absW 1 w).decHi = l1 w.decHi := l1_absW _
  rw [eLo] at b1 b2
  rw [eHi] at b2
  rw [l2'] at s1 s2 b1 b2
  have key : ∀ {n : Nat} {B : R} {t' t a b : Tensor R} (i : List Nat), CloseBy t' t a b → b.get i = g ^ n * a.get i →
      |a.get i| ≤ B → |t'.get i - t.get i| ≤ (g ^ n - 1) * B := by
    intro n B t' t a b i h1 h2 h3
    refine (h1.error i).trans ?_
    rw [h2, show g ^ n * a.get i - a.get i = (g ^ n - 1) * a.get i by ring]
    have : 1 ≤ g ^ n := one_le_pow₀ hg1
    exact mul_le_mul_of_nonneg_left ((le_abs_self _).trans h3) (by linarith)
  refine ⟨cs', e, ?_, ?_, ?_⟩
  · refine List.ext_getElem? fun i => ?_
    rw [List.getElem?_map, List.getElem?_map]
    cases hi' : cs'[i]? with
    | none =>
      have : cs[i]? = none := by rw [List.getElem?_eq_none_iff] at hi' ⊢; omega
      rw [this]
    | some t' =>
      obtain ⟨t, a, b, h1, -, -, h4⟩ := hget i t' hi'
      rw [h1]
      exact congrArg some h4.shape.1
  · intro t t' ht ht' i
    obtain ⟨t0, a, b, h1, h2, h3, h4⟩ := hget 0 t' ht'
    rw [ht] at h1; cases h1
    exact key i h4 (s1 a b h2 h3 i) (b1 a h2 i)
  · intro s d d' hs hd hd' i
    obtain ⟨t0, a, b, h1, h2, h3, h4⟩ := hget _ d' hd'
    rw [hd] at h1; cases h1
    exact key i h4 (s2 s a b hs h2 h3 i) (b2 s a hs h2 i)

theorem sameBut_of_isDwt {m : Mode} {w : Wavelet R} {a L : Nat} {x : Tensor R} {cs : List (Tensor R)}
    (h : IsDwt m w a L x cs) (ha : a < x.shape.length) : SameBut a x.md x.shape cs := by
  have key : ∀ c ∈ cs, c.md = x.md ∧ ∃ k, c.shape = x.shape.set a k := by
    intro c hc
    obtain ⟨i, hi⟩ := List.getElem?_of_mem hc
    rcases Nat.eq_zero_or_pos i with rfl | hpos
    · have := h.approx c hi
      exact ⟨this.md, _, this.shape⟩
    · have hil : i < L + 1 := by rw [← h.length]; exact (List.getElem?_eq_some_iff.mp hi).1
      have := h.detail (L - i) c (by omega) (by rw [show L - (L - i) = i by omega]; exact hi)
      exact ⟨this.md, _, this.shape⟩
  refine ⟨fun c hc => (key c hc).1, fun c hc => ?_⟩
  obtain ⟨k, e⟩ := (key c hc).2
  rw [e, getD_set_self ha]

/-- A successful `waverec`. -/
theorem waverec_ok_textbook {w : Wavelet R} {F : Nat} {axis : AxisHint} {md : Meta} {S : List Nat} {c0 z : Tensor R}
    {rest : List (Tensor R)} (hF : 2 ≤ F) (h0 : w.recLo.length = F) (h1 : w.recHi.length = F)
    (hg : GoodAxes axis S.length 1) (hd : isDtypeSupported md.dtype = true)
    (hcs : SameBut (axis1 axis S.length) md S (c0 :: rest)) (hz : waverec (c0 :: rest) w axis = .ok z) :
    Consistent F (c0.shape.getD (axis1 axis S.length) 0) (rest.map (·.shape.getD (axis1 axis S.length) 0)) ∧
    ∀ idx, InB z.shape idx → z.get idx =
        idwt w.recLo w.recHi F (line c0 (axis1 axis S.length) idx)
          (rest.map fun c => (c.shape.getD (axis1 axis S.length) 0, line c (axis1 axis S.length) idx))
          (idx.getD (axis1 axis S.length) 0) := by
  obtain ⟨g1, g2⟩ := waverec_gen hF h0 h1 hg hd hcs
  by_cases hc : Consistent F (c0.shape.getD (axis1 axis S.length) 0) (rest.map (·.shape.getD (axis1 axis S.length) 0))
  · obtain ⟨z', e, -, -, hget⟩ := g1 hc
    rw [hz] at e; cases e
    exact ⟨hc, hget⟩
  · rcases g2 hc with ⟨-, h⟩ | ⟨-, h⟩
    · rw [h] at hz; cases hz
    · rw [h] at hz; cases hz

/-- **C74.** Decomposition and reconstruction. -/
theorem c74_compose {K : Kernels R} {u g : R} (hK : FloatKernels u K) (w : Wavelet R) (F : Nat) (hF : 2 ≤ F)
    (hl : w.decLo.length = F ∧ w.decHi.length = F ∧ w.recLo.length = F ∧ w.recHi.length = F)
    (hg : (1 + u) ^ (F + 2) ≤ g) (x : Tensor R) (mode : Option String) (level : Option Int) (axis : AxisHint) (M : R)
    (cs : List (Tensor R)) (z : Tensor R) (hM : ∀ i, |x.get i| ≤ M) (hcs : wavedec x w mode level axis = .ok cs)
    (hz : waverec cs w axis = .ok z) :
    ∃ cs' z', wavedecF K x w mode level axis = .ok cs' ∧ waverecF K cs' w axis = .ok z' ∧
      z'.md = z.md ∧ z'.shape = z.shape ∧
      ∀ i, |z'.get i - z.get i| ≤ (g ^ (2 * (cs.length - 1)) - 1) *
        idwtBound (l1 w.recLo) (l1 w.recHi) (l1 w.decLo ^ (cs.length - 1) * M)
          ((List.range (cs.length - 1)).reverse.map fun s => l1 w.decHi * (l1 w.decLo ^ s * M)) := by
  obtain ⟨f1, f2, f3, f4⟩ := hl
  have hFw : w.len = F := f1
  have hu := hK.unit
  have hg1 : 1 ≤ g := (one_le_pow₀ (by linarith)).trans hg
  have hgd : (1 + u) ^ (w.len + 1) ≤ g := (pow_le_pow_right₀ (by linarith) (by omega)).trans hg
  obtain ⟨cs', lo, hi, e, e1, e2, hc⟩ := (c74_wavedec hK w hgd x mode level axis).2 cs hcs
  obtain ⟨z', zlo, zhi, r, r1, r2, hzc⟩ := (c74_waverec (g := g) hK w (by rw [f3]; exact hg) axis hc).2 z hz
  refine ⟨cs', z', e, r, hzc.md.1, hzc.shape.1, fun i => (hzc.error i).trans ?_⟩
  -- the axis and the dtype
  have hga : GoodAxes axis x.rank 1 ∧ isDtypeSupported x.md.dtype = true := by
    obtain ⟨h1, -⟩ := wavedec_char (mode := mode) (x := x) (level := level) (h := axis) (w := w) (by omega) (by rw [f2, hFw])
    by_contra hga
    obtain ⟨e, he⟩ := h1 hga
    rw [he] at hcs; cases hcs
  have hax : axis1 axis x.rank < x.shape.length := axis1_lt hga.1
  obtain ⟨l1', l2', l3', hget⟩ := closeList_get hc
  obtain ⟨-, s1, s2⟩ := wavedec_scale w (absT x) mode level axis lo hi (by omega) (by omega) e1 e2
  obtain ⟨b1, b2⟩ := c70_wavedec_bound (absT x) (absW 1 w) mode level axis lo M (by rw [absW_len]; omega)
    (by rw [absW_len]; simpa [absW, hFw] using f2) (fun i => by simpa [absT] using hM i) e1
  have eLo : l1 (absW 1 w).decLo = l1 w.decLo := l1_absW _
  have eHi : l1 (absW 1 w).decHi = l1 w.decHi := l1_absW _
  have eRL : l1 (absW 1 w).recLo = l1 w.recLo := l1_absW _
  have eRH : l1 (absW 1 w).recHi = l1 w.recHi := l1_absW _
  rw [eLo] at b1 b2
  rw [eHi] at b2
  have hlen2 : hi.length = lo.length := by rw [l3', l2']
  obtain ⟨m, -, hd⟩ := c02_wavedec_textbook (absT x) _ mode level axis lo (by rw [absW_len]; omega)
    (by rw [absW_len]; simpa [absW, hFw] using f2) e1
  obtain ⟨m', -, hd'⟩ := c02_wavedec_textbook (absT x) _ mode level axis hi (by rw [absW_len]; omega)
    (by rw [absW_len]; simpa [absW, hFw] using f2) e2
  have hsb := sameBut_of_isDwt hd hax
  have hsb' := sameBut_of_isDwt hd' hax
  -- every entry of the two lists
  have hent : ∀ (i : Nat) (a b : Tensor R), lo[i]? = some a → hi[i]? = some b →
      b.shape = a.shape ∧ ∀ j, 0 ≤ a.get j ∧ b.get j ≤ g ^ (cs.length - 1) * a.get j := by
    intro i a b ha hb
    have hi' : i < cs'.length := by rw [l1', ← l2']; exact (List.getElem?_eq_some_iff.mp ha).1
    obtain ⟨t, a', b', -, h2, h3, h4⟩ := hget i _ (List.getElem?_eq_getElem hi')
    rw [ha] at h2; cases h2
    rw [hb] at h3; cases h3
    have hpos : ∀ j, 0 ≤ a.get j := fun j => (abs_nonneg _).trans (h4.bound j)
    refine ⟨by rw [h4.shape.2.1, h4.shape.2.2], fun j => ⟨hpos j, ?_⟩⟩
    rcases Nat.eq_zero_or_pos i with rfl | hp
    · rw [s1 a b ha hb j, l2']
    · have hil : i < lo.length := (List.getElem?_eq_some_iff.mp ha).1
      have := s2 (lo.length - 1 - i) a b (by omega) (by rw [show lo.length - 1 - (lo.length - 1 - i) = i by omega]; exact ha)
        (by rw [show lo.length - 1 - (lo.length - 1 - i) = i by omega]; exact hb) j
      rw [this]
      exact mul_le_mul_of_nonneg_right (pow_le_pow_right₀ hg1 (by omega)) (hpos j)
  match lo, hi, hd, hd', hlen2, l2', hsb, hsb', r1, r2, hent, b1, b2 with
  | [], _, hd, _, _, _, _, _, _, _, _, _, _ => exact absurd hd.length (by simp)
  | _ :: _, [], _, hd', _, _, _, _, _, _, _, _, _ => exact absurd hd'.length (by simp)
  | c0 :: rest, c0' :: rest', hd, hd', hlen2, l2', hsb, hsb', r1, r2, hent, b1, b2 =>
  have hrl : rest.length = cs.length - 1 := by simp at l2'; omega
  obtain ⟨hcon, hlo⟩ := waverec_ok_textbook (S := x.shape) (md := x.md) hF (by simpa [absW] using f3) (by simpa [absW] using f4) hga.1 hga.2 hsb r1
  obtain ⟨-, hhi⟩ := waverec_ok_textbook (S := x.shape) (md := x.md) hF (by simpa [absW] using f3) (by simpa [absW] using f4) hga.1 hga.2 hsb' r2
  have hdt : x.md.dtype = .float32 ∨ x.md.dtype = .float64 := by
    have := hga.2
    unfold isDtypeSupported at this
    simpa using this
  have hf : List.Forall₂ (fun a b : Tensor R => b.shape = a.shape ∧ ∀ j, 0 ≤ a.get j ∧ b.get j ≤ g ^ (cs.length - 1) * a.get j)
      rest rest' := by
    refine List.forall₂_iff_get.2 ⟨by simp at hlen2; omega, fun i h1 h2 => ?_⟩
    exact hent (i + 1) _ _ (by rw [List.getElem?_cons_succ]; exact List.getElem?_eq_getElem h1)
      (by rw [List.getElem?_cons_succ]; exact List.getElem?_eq_getElem h2)
  have hbound := c70_waverec_bound (absW 1 w) F axis x.md x.shape c0 rest zlo (l1 w.decLo ^ (cs.length - 1) * M)
    ((List.range (cs.length - 1)).reverse.map fun s => l1 w.decHi * (l1 w.decLo ^ s * M)) hF
    (by simpa [absW] using f3) (by simpa [absW] using f4) hga.1 hdt hsb hcon
    (fun i => by have := b1 c0 rfl i; rwa [l2'] at this) (by
      refine List.forall₂_iff_get.2 ⟨by simp [hrl], fun i h1 h2 j => ?_⟩
      have := b2 (cs.length - 1 - 1 - i) (rest.get ⟨i, h1⟩) (by rw [l2']; omega) (by
        rw [l2', show cs.length - 1 - (cs.length - 1 - 1 - i) = i + 1 by omega, List.getElem?_cons_succ]
        exact List.getElem?_eq_getElem h1) j
      simpa using this) r1 i
  rw [eRL, eRH] at hbound
  have hscale : 0 ≤ zlo.get i ∧ zhi.get i ≤ g ^ (2 * (cs.length - 1)) * zlo.get i := by
    by_cases hin : InB z.shape i
    · rw [hlo i (by rw [hzc.shape.2.1]; exact hin), hhi i (by rw [hzc.shape.2.2]; exact hin)]
      have h0 := hent 0 c0 c0' rfl rfl
      have := idwt_absW hg1 w.recLo w.recHi F
        (rest.map fun c => (c.shape.getD (axis1 axis x.shape.length) 0, line c (axis1 axis x.shape.length) i))
        (rest'.map fun c => (c.shape.getD (axis1 axis x.shape.length) 0, line c (axis1 axis x.shape.length) i))
        (c := g ^ (cs.length - 1)) (lo := line c0 (axis1 axis x.shape.length) i)
        (lo' := line c0' (axis1 axis x.shape.length) i) (by positivity) (fun k => h0.2 _) (by
          rw [List.forall₂_map_left_iff, List.forall₂_map_right_iff]
          exact hf.imp fun a b h => ⟨by simp only; rw [h.1], fun k => h.2 _⟩) (i.getD (axis1 axis x.shape.length) 0)
      rw [List.length_map, hrl, ← pow_add, ← two_mul] at this
      exact this
    · rw [zlo.supp i (by rw [hzc.shape.2.1]; exact hin), zhi.supp i (by rw [hzc.shape.2.2]; exact hin)]
      simp
  have h1 : 1 ≤ g ^ (2 * (cs.length - 1)) := one_le_pow₀ hg1
  have h2 := (le_abs_self _).trans hbound
  nlinarith [hscale.1, hscale.2]

/-- **C74.** Perfect reconstruction in floating point arithmetic: decomposing and reconstructing data bounded by `M` gives
the data back up to an error of `g^(2L) - 1` times what `L` levels of filters can make of `M`. -/
theorem c74_roundtrip {K : Kernels R} {u g : R} (hK : FloatKernels u K) (w : Wavelet R) (F : Nat) (hw : PRBank w F)
    (hF : 2 ≤ F) (he : F % 2 = 0) (hg : (1 + u) ^ (F + 2) ≤ g) (x : Tensor R) (mode : Option String) (level : Option Int)
    (axis : AxisHint) (M : R) (cs : List (Tensor R)) (hM : ∀ i, |x.get i| ≤ M)
    (hcs : wavedec x w mode level axis = .ok cs) :
    ∃ cs' z', wavedecF K x w mode level axis = .ok cs' ∧ waverecF K cs' w axis = .ok z' ∧ z'.md = x.md ∧
      (x.shape.getD (axis1 axis x.rank) 0 % 2 = 0 → z'.shape = x.shape) ∧
      ∀ i, InB x.shape i → |z'.get i - x.get i| ≤ (g ^ (2 * (cs.length - 1)) - 1) *
        idwtBound (l1 w.recLo) (l1 w.recHi) (l1 w.decLo ^ (cs.length - 1) * M)
          ((List.range (cs.length - 1)).reverse.map fun s => l1 w.decHi * (l1 w.decLo ^ s * M)) := by
  obtain ⟨z, hz, zmd, -, zs, -, zg⟩ := c01_perfect_reconstruction x w F mode level axis cs hw hF he hcs
  obtain ⟨cs', z', h1, h2, h3, h4, h5⟩ := c74_compose hK w F hF hw.len hg x mode level axis M cs z hM hcs hz
  refine ⟨cs', z', h1, h2, h3.trans zmd, fun h => by rw [h4, zs h], fun i hi => ?_⟩
  rw [← zg i hi]
  exact h5 i

end field

/-- A run: two levels of the Haar transform of a batch of signals of odd length in 24-bit arithmetic, and back, is exact up
to 1/8000 (the data are bounded by 12). -/
example : ∃ cs' z', wavedecF (seqKernels (flRound 24)) exX haar (some "symmetric") (some 2) (.int (-2)) = .ok cs' ∧
    waverecF (seqKernels (flRound 24)) cs' haar (.int (-2)) = .ok z' ∧
    ∀ i, InB exX.shape i → |z'.get i - exX.get i| ≤ 1 / 8000 := by
  obtain ⟨cs, hcs⟩ := ex_wavedec
  obtain ⟨cs', z', h1, h2, -, -, h3⟩ := c74_roundtrip (c74_binary 24) haar 2 haar_pr le_rfl rfl le_rfl exX _ _ _ 12 cs exX_le hcs
  obtain ⟨m, -, hd⟩ := c02_wavedec_textbook exX haar _ _ _ cs (by decide) rfl hcs
  have hl : cs.length = 3 := hd.length
  obtain ⟨n1, n2, n3, n4⟩ := haar_norms
  rw [hl, n1, n2, n3, n4] at h3
  refine ⟨cs', z', h1, h2, fun i hi => (h3 i hi).trans ?_⟩
  norm_num [idwtBound, List.range_succ]

end Verif.Props
