/-
C75: floating point arithmetic in the transforms over two and three axes.
-/
import Verif.Lemmas.RoundingNProg
import Verif.Props.Rounding
import Verif.Props.ConvNd

namespace Verif.Props
open Verif.Spec Tensor
variable {R : Type}

section field
variable [Field R] [LinearOrder R] [IsStrictOrderedRing R]

/-! ### The triple run -/

theorem closeEntry_of {e' : Entry R} {y : Entry (R × R × R)} (h : Entry2 (TRel Err3) e' y) :
    CloseEntry e' (mapE (mapT (pr1 (R := R)).toZeroHom) y) (mapE (mapT (pr2 (R := R)).toZeroHom) y)
      (mapE (mapT (pr3 (R := R)).toZeroHom) y) := by
  cases h with
  | tensor h => exact .tensor (closeBy_of h)
  | tuple h1 h2 h3 => exact .tuple (closeBy_of h1) (closeBy_of h2) (closeBy_of h3)
  | other => exact .other
  | @dict kv kv' h =>
    have hk : kv.map Prod.fst = kv'.map Prod.fst := by
      induction h with
      | nil => rfl
      | cons h _ ih => simp [ih, h.1]
    have hv : List.Forall₂ (TRel Err3) (kv.map Prod.snd) (kv'.map Prod.snd) := by
      rw [List.forall₂_map_left_iff, List.forall₂_map_right_iff]
      exact h.imp fun _ _ h => h.2
    refine .dict ?_ ?_ ?_ ?_
    · simpa [List.map_map, Function.comp_def] using hk
    · simp [List.map_map, Function.comp_def]
    · simp [List.map_map, Function.comp_def]
    · simpa [List.map_map, Function.comp_def] using closeList_of hv

theorem closeEntries_of {l' : List (Entry R)} {ys : List (Entry (R × R × R))}
    (h : List.Forall₂ (Entry2 (TRel Err3)) l' ys) :
    CloseEntries l' (ys.map (mapE (mapT (pr1 (R := R)).toZeroHom))) (ys.map (mapE (mapT (pr2 (R := R)).toZeroHom)))
      (ys.map (mapE (mapT (pr3 (R := R)).toZeroHom))) := by
  induction h with
  | nil => exact .nil
  | cons h _ ih => exact .cons (closeEntry_of h) ih

theorem closeCoeffs_of {c' : Coeffs R} {y : Coeffs (R × R × R)} (h : Coeffs2 (TRel Err3) c' y) :
    CloseCoeffs c' (mapC (mapT (pr1 (R := R)).toZeroHom) y) (mapC (mapT (pr2 (R := R)).toZeroHom) y)
      (mapC (mapT (pr3 (R := R)).toZeroHom) y) :=
  ⟨⟨h.kind.symm, rfl, rfl⟩, closeEntries_of h.items⟩

theorem dict_ext {S : Type} [Zero S] {kv kv' : List (String × Tensor S)} (h1 : kv.map Prod.fst = kv'.map Prod.fst)
    (h2 : kv.map Prod.snd = kv'.map Prod.snd) : kv = kv' := by
  rw [← List.zip_unzip kv, ← List.zip_unzip kv', List.unzip_eq_map, List.unzip_eq_map]
  simp only [h1, h2]

theorem exists_tripleE {e' e lo hi : Entry R} (h : CloseEntry e' e lo hi) :
    ∃ y : Entry (R × R × R), Entry2 (TRel Err3) e' y ∧ mapE (mapT (pr1 (R := R)).toZeroHom) y = e ∧
      mapE (mapT (pr2 (R := R)).toZeroHom) y = lo ∧ mapE (mapT (pr3 (R := R)).toZeroHom) y = hi := by
  cases h with
  | tensor h =>
    obtain ⟨y, h1, rfl, rfl, rfl⟩ := exists_triple h
    exact ⟨.tensor y, .tensor h1, rfl, rfl, rfl⟩
  | tuple h1 h2 h3 =>
    obtain ⟨y1, k1, rfl, rfl, rfl⟩ := exists_triple h1
    obtain ⟨y2, k2, rfl, rfl, rfl⟩ := exists_triple h2
    obtain ⟨y3, k3, rfl, rfl, rfl⟩ := exists_triple h3
    exact ⟨.tuple y1 y2 y3, .tuple k1 k2 k3, rfl, rfl, rfl⟩
  | other => exact ⟨.other, .other, rfl, rfl, rfl⟩
  | @dict kv' kv kl kh h1 h2 h3 h =>
    obtain ⟨ys, hy, e1, e2, e3⟩ := exists_triples h
    have hl : (kv'.map Prod.fst).length = ys.length := by simpa using hy.length_eq
    have hl' : (kv.map Prod.fst).length = ys.length := by rw [← h1]; exact hl
    have key : ∀ (φ : Tensor (R × R × R) → Tensor R) (k : List (String × Tensor R)), k.map Prod.fst = kv.map Prod.fst →
        ys.map φ = k.map Prod.snd → mapE φ (.dict ((kv.map Prod.fst).zip ys)) = .dict k := by
      intro φ k hk hφ
      refine congrArg Entry.dict (dict_ext ?_ ?_)
      · rw [List.map_map, hk]
        show ((kv.map Prod.fst).zip ys).map Prod.fst = _
        rw [List.map_fst_zip hl'.le]
      · rw [List.map_map, ← hφ]
        show ((kv.map Prod.fst).zip ys).map (φ ∘ Prod.snd) = _
        rw [← List.map_map, List.map_snd_zip hl'.ge]
    refine ⟨.dict ((kv.map Prod.fst).zip ys), .dict ?_, key _ _ rfl e1, key _ _ h2 e2, key _ _ h3 e3⟩
    rw [← h1]
    clear key e1 e2 e3 h h1 h2 h3 hl' hl
    revert ys
    induction kv' with
    | nil => intro ys hy; cases hy; exact .nil
    | cons p kv' ih =>
      intro ys hy
      cases hy with
      | cons h1 h2 => exact .cons ⟨rfl, h1⟩ (ih _ h2)

theorem exists_triplesE {l' l los his : List (Entry R)} (h : CloseEntries l' l los his) :
    ∃ ys : List (Entry (R × R × R)), List.Forall₂ (Entry2 (TRel Err3)) l' ys ∧
      ys.map (mapE (mapT (pr1 (R := R)).toZeroHom)) = l ∧
      ys.map (mapE (mapT (pr2 (R := R)).toZeroHom)) = los ∧ ys.map (mapE (mapT (pr3 (R := R)).toZeroHom)) = his := by
  induction h with
  | nil => exact ⟨[], .nil, rfl, rfl, rfl⟩
  | cons h _ ih =>
    obtain ⟨y, h1, rfl, rfl, rfl⟩ := exists_tripleE h
    obtain ⟨ys, h2, rfl, rfl, rfl⟩ := ih
    exact ⟨y :: ys, .cons h1 h2, rfl, rfl, rfl⟩

theorem exists_tripleC {c' c lo hi : Coeffs R} (h : CloseCoeffs c' c lo hi) :
    ∃ y : Coeffs (R × R × R), Coeffs2 (TRel Err3) c' y ∧ mapC (mapT (pr1 (R := R)).toZeroHom) y = c ∧
      mapC (mapT (pr2 (R := R)).toZeroHom) y = lo ∧ mapC (mapT (pr3 (R := R)).toZeroHom) y = hi := by
  obtain ⟨ys, h1, e1, e2, e3⟩ := exists_triplesE h.items
  obtain ⟨k1, k2, k3⟩ := h.kind
  refine ⟨⟨c.isList, ys⟩, ⟨k1.symm, h1⟩, ?_, ?_, ?_⟩
  · cases c; exact congrArg₂ Coeffs.mk rfl e1
  · cases lo; exact congrArg₂ Coeffs.mk k2.symm e2
  · cases hi; exact congrArg₂ Coeffs.mk k3.symm e3

/-! ### The transforms -/

/-- What C75 says of a decomposition: `f` is the program with rounding, `r` the exact one, `rlo` and `rhi` the exact one on
absolute values, with the absolute values of the taps and with these multiplied by `g`. -/
def RoundedDec (f r rlo rhi : Except Err (Coeffs R)) : Prop :=
  (∀ e, r = .error e → f = .error e) ∧
  ∀ c, r = .ok c → ∃ c' lo hi, f = .ok c' ∧ rlo = .ok lo ∧ rhi = .ok hi ∧ CloseCoeffs c' c lo hi

/-- The same of a reconstruction. -/
def RoundedRec (f r rlo rhi : Except Err (Tensor R)) : Prop :=
  (∀ e, r = .error e → f = .error e) ∧
  ∀ z, r = .ok z → ∃ z' lo hi, f = .ok z' ∧ rlo = .ok lo ∧ rhi = .ok hi ∧ CloseBy z' z lo hi

theorem roundedDec_of {f : Except Err (Coeffs R)} {r : Except Err (Coeffs (R × R × R))}
    (h : Two (Coeffs2 (TRel Err3)) f r) :
    RoundedDec f (r.map (mapC (mapT (pr1 (R := R)).toZeroHom))) (r.map (mapC (mapT (pr2 (R := R)).toZeroHom)))
      (r.map (mapC (mapT (pr3 (R := R)).toZeroHom))) := by
  cases h with
  | err e => exact ⟨fun e' h => by cases h; rfl, fun cs h => by cases h⟩
  | ok h => exact ⟨fun e' h => (by cases h), fun cs hc => by cases hc; exact ⟨_, _, _, rfl, rfl, rfl, closeCoeffs_of h⟩⟩

theorem roundedRec_of {f : Except Err (Tensor R)} {r : Except Err (Tensor (R × R × R))} (h : Two (TRel Err3) f r) :
    RoundedRec f (r.map (mapT (pr1 (R := R)).toZeroHom)) (r.map (mapT (pr2 (R := R)).toZeroHom))
      (r.map (mapT (pr3 (R := R)).toZeroHom)) := by
  cases h with
  | err e => exact ⟨fun e' h => by cases h; rfl, fun cs h => by cases h⟩
  | ok h => exact ⟨fun e' h => (by cases h), fun cs hc => by cases hc; exact ⟨_, _, _, rfl, rfl, rfl, closeBy_of h⟩⟩

/-- **C75.** `wavedec2` in floating point arithmetic with unit roundoff `u` raises what the exact program raises; otherwise
the coefficients are as far from the exact ones as the transforms of the absolute values, with the absolute values of the
taps and with these multiplied by `g`, are from each other.  The filters have `F²` taps, products of two rounded taps. -/
theorem c75_wavedec2 {K : KernelsN R} {u g : R} (hK : FloatKernelsN u K) (w : Wavelet R) (hg : 1 ≤ g)
    (hG : (1 + u) ^ (w.len * w.len + 3) ≤ g ^ 2) (x : Tensor R) (mode : Option String) (level : Option Int)
    (axes : AxisHint) :
    (∀ e, wavedec2 x w mode level axes = .error e → wavedec2F K x w mode level axes = .error e) ∧
    ∀ c, wavedec2 x w mode level axes = .ok c → ∃ c' lo hi, wavedec2F K x w mode level axes = .ok c' ∧
      wavedec2 (absT x) (absW 1 w) mode level axes = .ok lo ∧ wavedec2 (absT x) (absW g w) mode level axes = .ok hi ∧
      CloseCoeffs c' c lo hi := by
  have h := roundedDec_of (wavedec2F_rel hK hg hG mode level axes (trel_in x))
  rw [← c67_wavedec2, ← c67_wavedec2, ← c67_wavedec2, pr1_in, pr1_tap, pr2_in, pr2_tap, pr3_in, pr3_tap] at h
  exact h

/-- **C75.** `waverec2`, from coefficients which are themselves not exact. -/
theorem c75_waverec2 {K : KernelsN R} {u g : R} (hK : FloatKernelsN u K) (w : Wavelet R)
    (hG : (1 + u) ^ (4 * ((w.recLo.length + 1) / 2 * ((w.recLo.length + 1) / 2)) + 3) ≤ g ^ 2) (axes : AxisHint)
    {c' c lo hi : Coeffs R} (hc : CloseCoeffs c' c lo hi) :
    (∀ e, waverec2 c w axes = .error e → waverec2F K c' w axes = .error e) ∧
    ∀ z, waverec2 c w axes = .ok z → ∃ z' zlo zhi, waverec2F K c' w axes = .ok z' ∧
      waverec2 lo (absW 1 w) axes = .ok zlo ∧ waverec2 hi (absW g w) axes = .ok zhi ∧ CloseBy z' z zlo zhi := by
  obtain ⟨y, hy, rfl, rfl, rfl⟩ := exists_tripleC hc
  have h := roundedRec_of (waverec2F_rel hK hG axes hy)
  rw [← c67_waverec2, ← c67_waverec2, ← c67_waverec2, pr1_tap, pr2_tap, pr3_tap] at h
  exact h

/-- **C75.** `wavedec3`: filters of `F³` taps, each a product of three rounded taps. -/
theorem c75_wavedec3 {K : KernelsN R} {u g : R} (hK : FloatKernelsN u K) (w : Wavelet R) (hg : 1 ≤ g)
    (hG : (1 + u) ^ (w.len * (w.len * w.len) + 5) ≤ g ^ 3) (x : Tensor R) (mode : Option String) (level : Option Int)
    (axes : AxisHint) :
    (∀ e, wavedec3 x w mode level axes = .error e → wavedec3F K x w mode level axes = .error e) ∧
    ∀ c, wavedec3 x w mode level axes = .ok c → ∃ c' lo hi, wavedec3F K x w mode level axes = .ok c' ∧
      wavedec3 (absT x) (absW 1 w) mode level axes = .ok lo ∧ wavedec3 (absT x) (absW g w) mode level axes = .ok hi ∧
      CloseCoeffs c' c lo hi := by
  have h := roundedDec_of (wavedec3F_rel hK hg hG mode level axes (trel_in x))
  rw [← c67_wavedec3, ← c67_wavedec3, ← c67_wavedec3, pr1_in, pr1_tap, pr2_in, pr2_tap, pr3_in, pr3_tap] at h
  exact h

/-- **C75.** `waverec3`, from coefficients which are themselves not exact. -/
theorem c75_waverec3 {K : KernelsN R} {u g : R} (hK : FloatKernelsN u K) (w : Wavelet R)
    (hG : (1 + u) ^ (8 * ((w.recLo.length + 1) / 2 * ((w.recLo.length + 1) / 2 * ((w.recLo.length + 1) / 2))) + 5) ≤ g ^ 3)
    (axes : AxisHint) {c' c lo hi : Coeffs R} (hc : CloseCoeffs c' c lo hi) :
    (∀ e, waverec3 c w axes = .error e → waverec3F K c' w axes = .error e) ∧
    ∀ z, waverec3 c w axes = .ok z → ∃ z' zlo zhi, waverec3F K c' w axes = .ok z' ∧
      waverec3 lo (absW 1 w) axes = .ok zlo ∧ waverec3 hi (absW g w) axes = .ok zhi ∧ CloseBy z' z zlo zhi := by
  obtain ⟨y, hy, rfl, rfl, rfl⟩ := exists_tripleC hc
  have h := roundedRec_of (waverec3F_rel hK hG axes hy)
  rw [← c67_waverec3, ← c67_waverec3, ← c67_waverec3, pr1_tap, pr2_tap, pr3_tap] at h
  exact h

/-! ### Routines which compute in floating point arithmetic -/

theorem floatResultN_seq {u : R} {rnd : R → R} (h : ∀ y, ∃ δ, |δ| ≤ u ∧ rnd y = y * (1 + δ))
    (terms : Nat → Nat → List Nat → List (R × R)) (r : Except Err (Tensor R)) :
    FloatResultN u terms r (r.map fun r => ofFn r.md r.shape fun i =>
      seqDot rnd (terms (i.headD 0) (i.tail.headD 0) i.tail.tail)) := by
  cases r with
  | error e => rfl
  | ok r =>
    refine ⟨_, rfl, rfl, rfl, fun b o k hi => ?_⟩
    rw [ofFn_get_of _ _ hi]
    exact seqDot_rounded h _

/-- **C75.** The left-to-right evaluation with any rounding of relative error at most `u` is a case in point. -/
theorem c75_sequential {u : R} {rnd : R → R} (hu : 0 ≤ u) (h : ∀ y, ∃ δ, |δ| ≤ u ∧ rnd y = y * (1 + δ)) :
    FloatKernelsN u (seqKernelsN rnd) where
  unit := hu
  tap _ a := h a
  mul a b := h (a * b)
  conv n x w s := floatResultN_seq h _ _
  convTranspose n x w s := floatResultN_seq h _ _

/-- **C75.** ... so that float32 (`p = 24`) and float64 (`p = 53`) arithmetic, evaluated from left to right, is covered. -/
theorem c75_binary [FloorRing R] (p : Nat) : FloatKernelsN (1 / 2 ^ p : R) (seqKernelsN (flRound p)) :=
  c75_sequential (by positivity) (c74_round p)

theorem exact_convN (n : Nat) (x w : Tensor R) (s : Nat) :
    FloatResultN 0 (convTermsN x w s) (exactConv n x w s) (exactConv n x w s) := by
  unfold FloatResultN
  cases hr : exactConv n x w s with
  | error e => rfl
  | ok r =>
    refine ⟨r, rfl, rfl, rfl, fun b o ks hi => ?_⟩
    unfold exactConv at hr
    split_ifs at hr with hrk
    unfold Tensor.convNd at hr
    split at hr
    · rename_i B C Ns O C' Fs hxs hws
      split_ifs at hr with hc
      cases hr
      have hi' : InB (B :: O :: List.zipWith (fun N F => (N - F) / s + 1) Ns Fs) (b :: o :: ks) := hi
      rw [ofFn_get_of _ _ hi']
      simp only [boxSum_boxIdx]
      rw [sum_convIdxN]
      have e2 : convTermsN x w s b o ks = (convIdxN C (boxIdx Fs)).map fun p =>
          (w.get (o :: p.1 :: p.2), x.get (b :: p.1 :: List.zipWith (fun k j => s * k + j) ks p.2)) := by
        unfold convTermsN convIdxN
        rw [hws, List.map_flatMap, hc.1]
        simp [List.map_map, Function.comp_def]
      have := exact_rounded (convTermsN x w s b o ks)
      rw [e2] at this ⊢
      simpa [dotSum, List.map_map, Function.comp_def] using this
    · cases hr

theorem exact_convTN (n : Nat) (x w : Tensor R) (s : Nat) :
    FloatResultN 0 (convTransposeTermsN x w s) (exactConvTranspose n x w s) (exactConvTranspose n x w s) := by
  unfold FloatResultN
  cases hr : exactConvTranspose n x w s with
  | error e => rfl
  | ok r =>
    refine ⟨r, rfl, rfl, rfl, fun b o ms hi => ?_⟩
    unfold exactConvTranspose at hr
    split_ifs at hr with hrk
    unfold Tensor.convTransposeNd at hr
    split at hr
    · rename_i B C Ns C' O Fs hxs hws
      split_ifs at hr with hc
      cases hr
      have hlen := allPairs_length hc.2.2
      have hi' : InB (B :: O :: List.zipWith (fun N F => (N - 1) * s + F) Ns Fs) (b :: o :: ms) := hi
      have hml : ms.length = Ns.length := by
        have := inB_length hi'
        simpa [hlen] using this
      rw [ofFn_get_of _ _ hi']
      simp only
      rw [sum_convTN x w s C b o ms Ns Fs hml hlen.symm ⟨C', O, hws⟩]
      have e2 : convTransposeTermsN x w s b o ms = (convIdxN C (contribIdx s ms Ns Fs)).map fun p =>
          (w.get (p.1 :: o :: List.zipWith (fun m k => m - s * k) ms p.2), x.get (b :: p.1 :: p.2)) := by
        unfold convTransposeTermsN convIdxN
        rw [hws, hxs, List.map_flatMap, hc.1]
        simp [List.map_map, Function.comp_def]
      have := exact_rounded (convTransposeTermsN x w s b o ms)
      rw [e2] at this ⊢
      simpa [dotSum, List.map_map, Function.comp_def] using this
    · cases hr

/-- **C75.** The programs with the routines as parameters, applied to the exact routines (unit roundoff zero), are the
programs of the model. -/
theorem c75_exact :
    FloatKernelsN (0 : R) (exactKernelsN R) ∧
    (∀ (x : Tensor R) (w : Wavelet R) (mode : Option String) (level : Option Int) (axes : AxisHint),
      wavedec2F (exactKernelsN R) x w mode level axes = wavedec2 x w mode level axes ∧
      wavedec3F (exactKernelsN R) x w mode level axes = wavedec3 x w mode level axes) ∧
    ∀ (c : Coeffs R) (w : Wavelet R) (axes : AxisHint),
      waverec2F (exactKernelsN R) c w axes = waverec2 c w axes ∧
      waverec3F (exactKernelsN R) c w axes = waverec3 c w axes :=
  ⟨⟨le_rfl, fun _ a => ⟨0, by simp, by simp [exactKernelsN]⟩, fun a b => ⟨0, by simp, by simp [exactKernelsN]⟩,
    exact_convN, exact_convTN⟩,
    fun x w mode level axes => ⟨wavedec2F_exact x w mode level axes, wavedec3F_exact x w mode level axes⟩,
    fun c w axes => ⟨waverec2F_exact c w axes, waverec3F_exact c w axes⟩⟩

/-! ### Explicit bounds -/

theorem dwtN_absW (m : Mode) (g c : R) : ∀ (fs : List (List R × Nat)) (X : List Nat → R) (ks : List Nat),
    ks.length = fs.length →
    dwtN m (fs.map fun f => (f.1.map fun a => g * |a|, f.2)) (fun i => c * X i) ks =
      g ^ fs.length * c * dwtN m (fs.map fun f => (f.1.map fun a => 1 * |a|, f.2)) X ks
  | [], X, [], _ => by simp [dwtN]
  | (f, n) :: fs, X, k :: ks, h => by
    have ih := fun j => dwtN_absW m g c fs (fun js => X (j :: js)) ks (by simpa using h)
    show analysis (f.map fun a => g * |a|) (ext m n fun j => dwtN m (fs.map fun f => (f.1.map fun a => g * |a|, f.2))
      (fun js => c * X (j :: js)) ks) k = _
    simp only [ih]
    rw [ext_scale, analysis_absW, List.length_cons, pow_succ', ← mul_assoc g]
    rfl

theorem bandN_absW (m : Mode) (g c : R) (w : Wavelet R) (bs : List Bool) (ns : List Nat) (hb : bs.length = ns.length)
    (X : List Nat → R) (ks : List Nat) (hk : ks.length = ns.length) :
    bandN m (absW g w) bs ns (fun i => c * X i) ks = g ^ ns.length * c * bandN m (absW 1 w) bs ns X ks := by
  have key : ∀ (g : R) (bs : List Bool) (ns : List Nat), (bandFilt (absW g w).decLo (absW g w).decHi bs).zip ns =
      ((bandFilt w.decLo w.decHi bs).zip ns).map fun f => (f.1.map fun a => g * |a|, f.2) := by
    intro g bs
    induction bs with
    | nil => intro ns; rfl
    | cons b bs ih =>
      intro ns
      cases ns with
      | nil => rfl
      | cons n ns =>
        have := ih ns
        simp only [bandFilt, List.map_cons, List.zip_cons_cons] at this ⊢
        rw [this]
        cases b <;> rfl
  have hl : ((bandFilt w.decLo w.decHi bs).zip ns).length = ns.length := by simp [bandFilt, hb]
  unfold bandN
  rw [key g, key 1, dwtN_absW m g c _ X ks (by rw [hl, hk]), hl]

/-- `bandN` looks at its argument at positions with one coordinate per axis only. -/
theorem dwtN_congr (m : Mode) : ∀ (fs : List (List R × Nat)) {X Y : List Nat → R},
    (∀ i, i.length = fs.length → X i = Y i) → ∀ ks, ks.length = fs.length → dwtN m fs X ks = dwtN m fs Y ks
  | [], X, Y, h, [], _ => h [] rfl
  | (f, n) :: fs, X, Y, h, k :: ks, hk => by
    have ih := fun j => dwtN_congr m fs (X := fun js => X (j :: js)) (Y := fun js => Y (j :: js))
      (fun i hi => h _ (by simp [hi])) ks (by simpa using hk)
    show dwtStep m f n _ k = dwtStep m f n _ k
    simp only [ih]

theorem bandN_congr' (m : Mode) (w : Wavelet R) (bs : List Bool) (ns : List Nat) (hb : bs.length = ns.length)
    {X Y : List Nat → R} (h : ∀ i, i.length = ns.length → X i = Y i) (ks : List Nat) (hk : ks.length = ns.length) :
    bandN m w bs ns X ks = bandN m w bs ns Y ks := by
  have hl : ((bandFilt w.decLo w.decHi bs).zip ns).length = ns.length := by simp [bandFilt, hb]
  exact dwtN_congr m _ (fun i hi => h i (by rw [hi, hl])) ks (by rw [hl, hk])

theorem levelLens_length (F : Nat) (ns : List Nat) (s : Nat) : (levelLens F ns s).length = ns.length := by
  simp [levelLens]

theorem cAN_absW (m : Mode) (g : R) (w : Wavelet R) (ns : List Nat) (X : List Nat → R) : ∀ (s : Nat) (ks : List Nat),
    ks.length = ns.length → cAN m (absW g w) ns X s ks = (g ^ ns.length) ^ s * cAN m (absW 1 w) ns X s ks
  | 0, ks, _ => by simp [cAN]
  | s + 1, ks, hk => by
    show bandN m (absW g w) (lowBand ns.length) (levelLens (absW g w).len ns s) (cAN m (absW g w) ns X s) ks =
      _ * bandN m (absW 1 w) (lowBand ns.length) (levelLens (absW 1 w).len ns s) (cAN m (absW 1 w) ns X s) ks
    rw [absW_len, absW_len]
    have hl := levelLens_length w.len ns s
    rw [bandN_congr' m _ _ _ (by simp [lowBand, hl])
      (fun i hi => cAN_absW m g w ns X s i (by rw [hi, hl])) ks (by rw [hk, hl]),
      bandN_absW m g _ w _ _ (by simp [lowBand, hl]) _ ks (by rw [hk, hl]), hl, pow_succ']

theorem cDN_absW (m : Mode) (g : R) (w : Wavelet R) (ns : List Nat) (X : List Nat → R) (s : Nat) (bs : List Bool)
    (hb : bs.length = ns.length) (ks : List Nat) (hk : ks.length = ns.length) :
    cDN m (absW g w) ns X s bs ks = (g ^ ns.length) ^ (s + 1) * cDN m (absW 1 w) ns X s bs ks := by
  show bandN m (absW g w) bs (levelLens (absW g w).len ns s) (cAN m (absW g w) ns X s) ks =
    _ * bandN m (absW 1 w) bs (levelLens (absW 1 w).len ns s) (cAN m (absW 1 w) ns X s) ks
  rw [absW_len, absW_len]
  have hl := levelLens_length w.len ns s
  rw [bandN_congr' m _ _ _ (by rw [hb, hl]) (fun i hi => cAN_absW m g w ns X s i (by rw [hi, hl])) ks (by rw [hk, hl]),
    bandN_absW m g _ w _ _ (by rw [hb, hl]) _ ks (by rw [hk, hl]), hl, pow_succ']

theorem isApprox_scale {m : Mode} {g : R} {w : Wavelet R} {ax : List Nat} {x t t' : Tensor R} {L : Nat}
    (h : IsApprox m (absW 1 w) ax x L t) (h' : IsApprox m (absW g w) ax x L t') (i : List Nat) :
    t'.get i = (g ^ ax.length) ^ L * t.get i := by
  have hsh : t'.shape = t.shape := by rw [h.shape, h'.shape, absW_len, absW_len]
  by_cases hi : InB t.shape i
  · rw [h.get i hi, h'.get i (hsh ▸ hi), cAN_absW m g w _ _ L _ (by simp [sizes])]
    simp [sizes]
  · rw [t.supp i hi, t'.supp i (hsh ▸ hi), mul_zero]

theorem isBand_scale {m : Mode} {g : R} {w : Wavelet R} {ax : List Nat} {x t t' : Tensor R} {s : Nat} {bs : List Bool}
    (hb : bs.length = ax.length) (h : IsBand m (absW 1 w) ax x s bs t) (h' : IsBand m (absW g w) ax x s bs t')
    (i : List Nat) : t'.get i = (g ^ ax.length) ^ (s + 1) * t.get i := by
  have hsh : t'.shape = t.shape := by rw [h.shape, h'.shape, absW_len, absW_len]
  by_cases hi : InB t.shape i
  · rw [h.get i hi, h'.get i (hsh ▸ hi), cDN_absW m g w _ _ s bs (by simp [sizes, hb]) _ (by simp [sizes])]
    simp [sizes]
  · rw [t.supp i hi, t'.supp i (hsh ▸ hi), mul_zero]

theorem closeEntries_get {a b c d : List (Entry R)} (h : CloseEntries a b c d) :
    a.length = b.length ∧ c.length = b.length ∧ d.length = b.length ∧
    ∀ (i : Nat) (t : Entry R), b[i]? = some t → ∃ t' lo hi : Entry R,
      a[i]? = some t' ∧ c[i]? = some lo ∧ d[i]? = some hi ∧ CloseEntry t' t lo hi := by
  induction h with
  | nil => exact ⟨rfl, rfl, rfl, fun i t' h => by simp at h⟩
  | cons h _ ih =>
    obtain ⟨h1, h2, h3, h4⟩ := ih
    refine ⟨by simp [h1], by simp [h2], by simp [h3], fun i t' ht => ?_⟩
    cases i with
    | zero => simp only [List.getElem?_cons_zero, Option.some.injEq] at ht; subst ht; exact ⟨_, _, _, rfl, rfl, rfl, h⟩
    | succ i => simpa using h4 i t' (by simpa using ht)

theorem close_error {g B : R} {n : Nat} {t' t a b : Tensor R} (hg : 1 ≤ g) (i : List Nat) (h1 : CloseBy t' t a b)
    (h2 : b.get i = g ^ n * a.get i) (h3 : |a.get i| ≤ B) : |t'.get i - t.get i| ≤ (g ^ n - 1) * B := by
  refine (h1.error i).trans ?_
  rw [h2, show g ^ n * a.get i - a.get i = (g ^ n - 1) * a.get i by ring]
  have : 1 ≤ g ^ n := one_le_pow₀ hg
  exact mul_le_mul_of_nonneg_left ((le_abs_self _).trans h3) (by linarith)

/-- **C75.** The error of the `wavedec2` coefficients of data bounded by `M`: at most `(g²)^s - 1` times the bound of C70
for the coefficients of level `s`. -/
theorem c75_wavedec2_error {K : KernelsN R} {u g : R} (hK : FloatKernelsN u K) (w : Wavelet R) (hg : 1 ≤ g)
    (hG : (1 + u) ^ (w.len * w.len + 3) ≤ g ^ 2) (x : Tensor R) (mode : Option String) (level : Option Int)
    (axes : AxisHint) (M : R) (c : Coeffs R) (hF : 2 ≤ w.len) (hhi : w.decHi.length = w.len)
    (hM : ∀ i, |x.get i| ≤ M) (hc : wavedec2 x w mode level axes = .ok c) :
    ∃ c', wavedec2F K x w mode level axes = .ok c' ∧ c'.items.length = c.items.length ∧
      (∃ t t', c.items[0]? = some (.tensor t) ∧ c'.items[0]? = some (.tensor t') ∧ t'.shape = t.shape ∧
        ∀ i, |t'.get i - t.get i| ≤ ((g ^ 2) ^ (c.items.length - 1) - 1) * ((l1 w.decLo ^ 2) ^ (c.items.length - 1) * M)) ∧
      ∀ s, s + 1 < c.items.length → ∃ h v d h' v' d', c.items[c.items.length - 1 - s]? = some (.tuple h v d) ∧
        c'.items[c.items.length - 1 - s]? = some (.tuple h' v' d') ∧
        (h'.shape = h.shape ∧ v'.shape = v.shape ∧ d'.shape = d.shape) ∧
        (∀ i, |h'.get i - h.get i| ≤ ((g ^ 2) ^ (s + 1) - 1) * (l1 w.decHi * l1 w.decLo * ((l1 w.decLo ^ 2) ^ s * M))) ∧
        (∀ i, |v'.get i - v.get i| ≤ ((g ^ 2) ^ (s + 1) - 1) * (l1 w.decHi * l1 w.decLo * ((l1 w.decLo ^ 2) ^ s * M))) ∧
        ∀ i, |d'.get i - d.get i| ≤ ((g ^ 2) ^ (s + 1) - 1) * (l1 w.decHi * l1 w.decHi * ((l1 w.decLo ^ 2) ^ s * M)) := by
  obtain ⟨c', lo, hi, e, e1, e2, hcl⟩ := (c75_wavedec2 hK w hg hG x mode level axes).2 c hc
  have hF' : ∀ g : R, 2 ≤ (absW g w).len := fun g => by rw [absW_len]; exact hF
  have hhi' : ∀ g : R, (absW g w).decHi.length = (absW g w).len := fun g => by rw [absW_len]; simpa [absW] using hhi
  obtain ⟨n1, n2, n3, hget⟩ := closeEntries_get hcl.items
  obtain ⟨⟨tb, tb1, tb2⟩, b2⟩ := c70_wavedec2_bound (absT x) (absW 1 w) mode level axes lo M (hF' 1) (hhi' 1)
    (fun i => by simpa [absT] using hM i) e1
  rw [show l1 (absW 1 w).decLo = l1 w.decLo from l1_absW _, show l1 (absW 1 w).decHi = l1 w.decHi from l1_absW _] at b2
  rw [show l1 (absW 1 w).decLo = l1 w.decLo from l1_absW _] at tb2
  obtain ⟨hg1, -, m, hm, -, h⟩ := wavedec2_ok (hF' 1) (hhi' 1) e1
  obtain ⟨-, -, m', hm', -, h'⟩ := wavedec2_ok (hF' g) (hhi' g) e2
  have hax : (axesOf axes (absT x).rank 2).length = 2 := by simpa [axesOf] using hg1.len
  rw [absW_len] at hm hm' h h'
  have hL := h.length
  generalize levelsN level w.len (sizes (axesOf axes (absT x).rank 2) (absT x).shape) = L at h h' hL hm hm'
  have hmm : L ≠ 0 → m' = m := fun h0 => selects_unique (hm'.resolve_right h0) (hm.resolve_right h0)
  have hgg : (1 : R) ≤ g ^ 2 := one_le_pow₀ hg
  have cL : c.items.length = L + 1 := by rw [← n2, hL]
  refine ⟨c', e, n1, ?_, fun s hs => ?_⟩
  · obtain ⟨t, ht, ha⟩ := h.approx
    obtain ⟨t', ht', ha'⟩ := h'.approx
    rw [tb1] at ht
    cases ht
    obtain ⟨e0, he0⟩ : ∃ e0, c.items[0]? = some e0 := ⟨_, List.getElem?_eq_getElem (by omega)⟩
    obtain ⟨e', el, eh, k1, k2, k3, k4⟩ := hget 0 e0 he0
    rw [tb1] at k2
    rw [ht'] at k3
    cases k2
    cases k3
    cases k4 with
    | @tensor t0' t0 _ _ k4 =>
      refine ⟨t0, t0', he0, k1, k4.shape.1, fun i => close_error hgg i k4 ?_ (by simpa [n2] using tb2 i)⟩
      rw [cL, Nat.add_sub_cancel]
      rcases Nat.eq_zero_or_pos L with h0 | h0
      · subst h0
        have hsh : t'.shape = tb.shape := by rw [ha.shape, ha'.shape, absW_len, absW_len]
        by_cases hi : InB tb.shape i
        · rw [ha.get i hi, ha'.get i (hsh ▸ hi)]; simp [cAN]
        · rw [tb.supp i hi, t'.supp i (hsh ▸ hi), mul_zero]
      · obtain rfl := hmm (by omega)
        simpa [hax] using isApprox_scale ha ha' i
  · have hsL : s < L := by omega
    obtain ⟨hb, vb, db, hb0, hb1, hb2, hb3⟩ := b2 s (by omega)
    obtain ⟨e1, he1, p1, p2, p3, rfl, q1, q2, q3⟩ := h.detail s hsL
    obtain ⟨e1', he1', p1', p2', p3', rfl, q1', q2', q3'⟩ := h'.detail s hsL
    obtain rfl := hmm (by omega)
    rw [hL, show L + 1 - 1 - s = L - s by omega] at hb0
    rw [he1] at hb0
    cases hb0
    rw [cL, show L + 1 - 1 - s = L - s by omega]
    obtain ⟨e0, he0⟩ : ∃ e0, c.items[L - s]? = some e0 := ⟨_, List.getElem?_eq_getElem (by omega)⟩
    obtain ⟨e', el, eh, k1, k2, k3, k4⟩ := hget _ e0 he0
    rw [he1] at k2
    rw [he1'] at k3
    cases k2
    cases k3
    cases k4 with
    | tuple k4 k5 k6 =>
      refine ⟨_, _, _, _, _, _, he0, k1, ⟨k4.shape.1, k5.shape.1, k6.shape.1⟩, fun i => ?_, fun i => ?_, fun i => ?_⟩
      · exact close_error hgg i k4 (by simpa [hax] using isBand_scale (by simp [hax]) q1 q1' i) (hb1 i)
      · exact close_error hgg i k5 (by simpa [hax] using isBand_scale (by simp [hax]) q2 q2' i) (hb2 i)
      · exact close_error hgg i k6 (by simpa [hax] using isBand_scale (by simp [hax]) q3 q3' i) (hb3 i)

theorem dict_errors {g : R} (hg : 1 ≤ g) {n : Nat} {B : String → R} : ∀ {kv' kv kl kh : List (String × Tensor R)},
    kv'.map Prod.fst = kv.map Prod.fst → kl.map Prod.fst = kv.map Prod.fst → kh.map Prod.fst = kv.map Prod.fst →
    CloseList (kv'.map Prod.snd) (kv.map Prod.snd) (kl.map Prod.snd) (kh.map Prod.snd) →
    (∀ a ∈ kl, ∀ b ∈ kh, b.1 = a.1 → ∀ i, b.2.get i = g ^ n * a.2.get i) → (∀ a ∈ kl, ∀ i, |a.2.get i| ≤ B a.1) →
    List.Forall₂ (fun q' q => q'.1 = q.1 ∧ q'.2.shape = q.2.shape ∧ ∀ i, |q'.2.get i - q.2.get i| ≤
      (g ^ n - 1) * B q.1) kv' kv
  | [], [], _, _, _, _, _, _, _, _ => .nil
  | q' :: kv', q :: kv, a :: kl, b :: kh, j1, j2, j3, h, hs, hb => by
    simp only [List.map_cons, List.cons.injEq] at j1 j2 j3
    simp only [List.map_cons] at h
    cases h with
    | cons h h' =>
      refine .cons ⟨j1.1, h.shape.1, fun i => ?_⟩ (dict_errors hg j1.2 j2.2 j3.2 h'
        (fun a ha b hb => hs a (by simp [ha]) b (by simp [hb])) fun a ha => hb a (by simp [ha]))
      rw [← j2.1]
      exact close_error hg i h (hs a (by simp) b (by simp) (by rw [j2.1, j3.1]) i) (hb a (by simp) i)
  | [], _ :: _, _, _, h, _, _, _, _, _ => by simp at h
  | _ :: _, [], _, _, h, _, _, _, _, _ => by simp at h
  | _ :: _, _ :: _, [], _, _, h, _, _, _, _ => by simp at h
  | _ :: _, _ :: _, _ :: _, [], _, _, h, _, _, _ => by simp at h

/-- **C75.** The error of the `wavedec3` coefficients of data bounded by `M`. -/
theorem c75_wavedec3_error {K : KernelsN R} {u g : R} (hK : FloatKernelsN u K) (w : Wavelet R) (hg : 1 ≤ g)
    (hG : (1 + u) ^ (w.len * (w.len * w.len) + 5) ≤ g ^ 3) (x : Tensor R) (mode : Option String) (level : Option Int)
    (axes : AxisHint) (M : R) (c : Coeffs R) (hF : 2 ≤ w.len) (hhi : w.decHi.length = w.len)
    (hL : 0 < levelsN level w.len (sizes (axesOf axes x.rank 3) x.shape))
    (hM : ∀ i, |x.get i| ≤ M) (hc : wavedec3 x w mode level axes = .ok c) :
    ∃ c', wavedec3F K x w mode level axes = .ok c' ∧ c'.items.length = c.items.length ∧
      (∃ t t', c.items[0]? = some (.tensor t) ∧ c'.items[0]? = some (.tensor t') ∧ t'.shape = t.shape ∧
        ∀ i, |t'.get i - t.get i| ≤ ((g ^ 3) ^ (c.items.length - 1) - 1) * ((l1 w.decLo ^ 3) ^ (c.items.length - 1) * M)) ∧
      ∀ s, s + 1 < c.items.length → ∃ kv kv', c.items[c.items.length - 1 - s]? = some (.dict kv) ∧
        c'.items[c.items.length - 1 - s]? = some (.dict kv') ∧
        List.Forall₂ (fun q' q => q'.1 = q.1 ∧ q'.2.shape = q.2.shape ∧ ∀ i, |q'.2.get i - q.2.get i| ≤
          ((g ^ 3) ^ (s + 1) - 1) * ((bandNorms w (bandOfKey q.1)).prod * ((l1 w.decLo ^ 3) ^ s * M))) kv' kv := by
  obtain ⟨c', lo, hi, e, e1, e2, hcl⟩ := (c75_wavedec3 hK w hg hG x mode level axes).2 c hc
  have hF' : ∀ g : R, 2 ≤ (absW g w).len := fun g => by rw [absW_len]; exact hF
  have hhi' : ∀ g : R, (absW g w).decHi.length = (absW g w).len := fun g => by rw [absW_len]; simpa [absW] using hhi
  have hL' : ∀ g : R, 0 < levelsN level (absW g w).len (sizes (axesOf axes (absT x).rank 3) (absT x).shape) :=
    fun g => by rw [absW_len]; exact hL
  obtain ⟨n1, n2, n3, hget⟩ := closeEntries_get hcl.items
  obtain ⟨⟨tb, tb1, tb2⟩, b2⟩ := c70_wavedec3_bound (absT x) (absW 1 w) mode level axes lo M (hF' 1) (hhi' 1) (hL' 1)
    (fun i => by simpa [absT] using hM i) e1
  have hbn : ∀ bs, bandNorms (absW 1 w) bs = bandNorms w bs := fun bs => by
    unfold bandNorms
    rw [show l1 (absW 1 w).decLo = l1 w.decLo from l1_absW _, show l1 (absW 1 w).decHi = l1 w.decHi from l1_absW _]
  rw [show l1 (absW 1 w).decLo = l1 w.decLo from l1_absW _] at b2 tb2
  simp only [hbn] at b2
  obtain ⟨hg1, -, m, hm, -, h⟩ := wavedec3_ok (hF' 1) (hhi' 1) (hL' 1) e1
  obtain ⟨-, -, m', hm', -, h'⟩ := wavedec3_ok (hF' g) (hhi' g) (hL' g) e2
  obtain rfl : m' = m := selects_unique hm' hm
  have hax : (axesOf axes (absT x).rank 3).length = 3 := by simpa [axesOf] using hg1.len
  rw [absW_len] at h h'
  have hLn := h.length
  generalize levelsN level w.len (sizes (axesOf axes (absT x).rank 3) (absT x).shape) = L at h h' hLn
  have hgg : (1 : R) ≤ g ^ 3 := one_le_pow₀ hg
  have cL : c.items.length = L + 1 := by rw [← n2, hLn]
  refine ⟨c', e, n1, ?_, fun s hs => ?_⟩
  · obtain ⟨t, ht, ha⟩ := h.approx
    obtain ⟨t', ht', ha'⟩ := h'.approx
    rw [tb1] at ht
    cases ht
    obtain ⟨e0, he0⟩ : ∃ e0, c.items[0]? = some e0 := ⟨_, List.getElem?_eq_getElem (by omega)⟩
    obtain ⟨e', el, eh, k1, k2, k3, k4⟩ := hget 0 e0 he0
    rw [tb1] at k2
    rw [ht'] at k3
    cases k2
    cases k3
    cases k4 with
    | @tensor t0' t0 _ _ k4 =>
      refine ⟨t0, t0', he0, k1, k4.shape.1, fun i => close_error hgg i k4 ?_ (by simpa [n2] using tb2 i)⟩
      rw [cL, Nat.add_sub_cancel]
      simpa [hax] using isApprox_scale ha ha' i
  · have hsL : s < L := by omega
    obtain ⟨kb, hb0, hb1, hb2⟩ := b2 s (by omega)
    obtain ⟨e1, he1, p1, rfl, q1, r1⟩ := h.detail s hsL
    obtain ⟨e1', he1', p1', rfl, q1', r1'⟩ := h'.detail s hsL
    rw [hLn, show L + 1 - 1 - s = L - s by omega] at hb0
    rw [he1] at hb0
    cases hb0
    rw [cL, show L + 1 - 1 - s = L - s by omega]
    obtain ⟨e0, he0⟩ : ∃ e0, c.items[L - s]? = some e0 := ⟨_, List.getElem?_eq_getElem (by omega)⟩
    obtain ⟨e', el, eh, k1, k2, k3, k4⟩ := hget _ e0 he0
    rw [he1] at k2
    rw [he1'] at k3
    cases k2
    cases k3
    cases k4 with
    | @dict kv' kv _ _ j1 j2 j3 k4 =>
      refine ⟨kv, kv', he0, k1, ?_⟩
      refine dict_errors (B := fun k => (bandNorms w (bandOfKey k)).prod * ((l1 w.decLo ^ 3) ^ s * M)) hgg j1 j2 j3 k4 (fun a ha b hb hab i => ?_) fun a ha i => hb2 a ha i
      have hkey : (bandOfKey a.1).length = 3 := by
        have : a.1 ∈ keys3 := hb1 ▸ List.mem_map_of_mem ha
        revert this
        generalize a.1 = k
        intro hk
        fin_cases hk <;> rfl
      have h2 := r1' b hb
      rw [hab] at h2
      simpa [hax] using isBand_scale (by rw [hax]; exact hkey) (r1 a ha) h2 i

/-- **C75.** Decompose and reconstruct in floating point arithmetic: the distance from the data is at most that of two
exact programs, run on absolute values. -/
theorem c75_roundtrip2 {K : KernelsN R} {u g : R} (hK : FloatKernelsN u K) (w : Wavelet R) (F : Nat) (hw : PRBank w F)
    (hF : 2 ≤ F) (he : F % 2 = 0) (hg : 1 ≤ g) (hG : (1 + u) ^ (F * F + 3) ≤ g ^ 2) (x : Tensor R) (mode : Option String)
    (level : Option Int) (axes : AxisHint) (c : Coeffs R) (hc : wavedec2 x w mode level axes = .ok c) :
    ∃ c' z' lo hi zlo zhi, wavedec2F K x w mode level axes = .ok c' ∧ waverec2F K c' w axes = .ok z' ∧
      wavedec2 (absT x) (absW 1 w) mode level axes = .ok lo ∧ waverec2 lo (absW 1 w) axes = .ok zlo ∧
      wavedec2 (absT x) (absW g w) mode level axes = .ok hi ∧ waverec2 hi (absW g w) axes = .ok zhi ∧
      z'.md = x.md ∧ ∀ i, InB x.shape i → |z'.get i - x.get i| ≤ zhi.get i - zlo.get i := by
  obtain ⟨l1, l2, l3, l4⟩ := hw.len
  have hl : w.len = F := l1
  obtain ⟨c', lo, hi, a1, a2, a3, a4⟩ := (c75_wavedec2 hK w hg (by rw [hl]; exact hG) x mode level axes).2 c hc
  obtain ⟨z, ez, hz⟩ := c15_perfect_reconstruction x w F mode level axes c hw hF he hc
  have hu := hK.unit
  have hF2 : 4 * ((F + 1) / 2 * ((F + 1) / 2)) = F * F := by
    obtain ⟨k, rfl⟩ : ∃ k, F = 2 * k := ⟨F / 2, by omega⟩
    rw [show (2 * k + 1) / 2 = k by omega]; ring
  obtain ⟨z', zlo, zhi, b1, b2, b3, b4⟩ := (c75_waverec2 hK w (by rw [l3, hF2]; exact hG) axes a4).2 z ez
  refine ⟨c', z', lo, hi, zlo, zhi, a1, b1, a2, b2, a3, b3, by rw [b4.md.1, hz.md], fun i hi => ?_⟩
  rw [← hz.get i hi]
  exact b4.error i

theorem c75_roundtrip3 {K : KernelsN R} {u g : R} (hK : FloatKernelsN u K) (w : Wavelet R) (F : Nat) (hw : PRBank w F)
    (hF : 2 ≤ F) (he : F % 2 = 0) (hg : 1 ≤ g) (hG : (1 + u) ^ (F * (F * F) + 5) ≤ g ^ 3) (x : Tensor R)
    (mode : Option String) (level : Option Int) (axes : AxisHint) (c : Coeffs R)
    (hL : 0 < levelsN level F (sizes (axesOf axes x.rank 3) x.shape))
    (hc : wavedec3 x w mode level axes = .ok c) :
    ∃ c' z' lo hi zlo zhi, wavedec3F K x w mode level axes = .ok c' ∧ waverec3F K c' w axes = .ok z' ∧
      wavedec3 (absT x) (absW 1 w) mode level axes = .ok lo ∧ waverec3 lo (absW 1 w) axes = .ok zlo ∧
      wavedec3 (absT x) (absW g w) mode level axes = .ok hi ∧ waverec3 hi (absW g w) axes = .ok zhi ∧
      z'.md = x.md ∧ ∀ i, InB x.shape i → |z'.get i - x.get i| ≤ zhi.get i - zlo.get i := by
  obtain ⟨l1, l2, l3, l4⟩ := hw.len
  have hl : w.len = F := l1
  obtain ⟨c', lo, hi, a1, a2, a3, a4⟩ := (c75_wavedec3 hK w hg (by rw [hl]; exact hG) x mode level axes).2 c hc
  obtain ⟨z, ez, hz⟩ := c17_perfect_reconstruction x w F mode level axes c hw hF he hL hc
  have hF2 : 8 * ((F + 1) / 2 * ((F + 1) / 2 * ((F + 1) / 2))) = F * (F * F) := by
    obtain ⟨k, rfl⟩ : ∃ k, F = 2 * k := ⟨F / 2, by omega⟩
    rw [show (2 * k + 1) / 2 = k by omega]; ring
  obtain ⟨z', zlo, zhi, b1, b2, b3, b4⟩ := (c75_waverec3 hK w (by rw [l3, hF2]; exact hG) axes a4).2 z ez
  refine ⟨c', z', lo, hi, zlo, zhi, a1, b1, a2, b2, a3, b3, by rw [b4.md.1, hz.md], fun i hi => ?_⟩
  rw [← hz.get i hi]
  exact b4.error i

end field

/-! ### Non-vacuity -/

theorem exI_le (i : List Nat) : |exI.get i| ≤ 412 := by
  refine get_le_of (by norm_num) (fun i hi => ?_) i
  show |(ofFn _ _ _ : Tensor ℚ).get i| ≤ 412
  rw [ofFn_get, if_pos (show InB [3, 2, 5] i from hi)]
  have h1 := InB.getD_lt (s := [3, 2, 5]) hi (d := 0) (by decide)
  have h2 := InB.getD_lt (s := [3, 2, 5]) hi (d := 1) (by decide)
  have h3 := InB.getD_lt (s := [3, 2, 5]) hi (d := 2) (by decide)
  have h1 : i.getD 0 0 ≤ 2 := Nat.le_of_lt_succ h1
  have h2 : i.getD 1 0 ≤ 1 := Nat.le_of_lt_succ h2
  have h3 : i.getD 2 0 ≤ 4 := Nat.le_of_lt_succ h3
  rw [abs_of_nonneg (by positivity)]
  have h1 : (i.getD 0 0 : ℚ) ≤ 2 := by exact_mod_cast h1
  have h2 : (i.getD 1 0 : ℚ) ≤ 1 := by exact_mod_cast h2
  have h3 : (i.getD 2 0 : ℚ) ≤ 4 := by exact_mod_cast h3
  linarith

/-- Two Haar levels of a batch of odd-sized images in float32: the approximation of samples up to 412 is correct to within
`1/2000`. -/
example : ∃ c c' t t', wavedec2 exI haar (some "symmetric") (some 2) (.seq [2, -3]) = .ok c ∧
    wavedec2F (seqKernelsN (flRound 24)) exI haar (some "symmetric") (some 2) (.seq [2, -3]) = .ok c' ∧
    c.items[0]? = some (.tensor t) ∧ c'.items[0]? = some (.tensor t') ∧ ∀ i, |t'.get i - t.get i| ≤ 1 / 2000 := by
  obtain ⟨c, hc⟩ := ex_wavedec2
  obtain ⟨c', h1, -, ⟨t, t', h2, h3, -, h4⟩, -⟩ := c75_wavedec2_error (c75_binary 24) haar (g := (1 + 1 / 2 ^ 24) ^ 4)
    (one_le_pow₀ (by norm_num)) (by
      have : haar.len * haar.len + 3 ≤ 8 := by decide
      rw [← pow_mul]
      exact pow_le_pow_right₀ (by norm_num) this) exI _ _ _ 412 c (by decide) rfl exI_le hc
  refine ⟨c, c', t, t', hc, h1, h2, h3, fun i => (h4 i).trans ?_⟩
  obtain ⟨m, -, hd⟩ := c16_wavedec2_textbook exI haar _ _ _ c (by decide) rfl hc
  have hl : c.items.length = 3 := hd.length
  rw [hl, haar_norms.1]
  norm_num

/-- The hypotheses of the round trips are met. -/
example : ∃ c' z', wavedec2F (seqKernelsN (flRound 24)) exI haar (some "symmetric") (some 2) (.seq [2, -3]) = .ok c' ∧
    waverec2F (seqKernelsN (flRound 24)) c' haar (.seq [2, -3]) = .ok z' := by
  obtain ⟨c, hc⟩ := ex_wavedec2
  obtain ⟨c', z', -, -, -, -, h1, h2, -⟩ := c75_roundtrip2 (c75_binary 24) haar 2 haar_pr le_rfl rfl
    (g := (1 + 1 / 2 ^ 24) ^ 4) (one_le_pow₀ (by norm_num)) (by norm_num) exI _ _ _ c hc
  exact ⟨c', z', h1, h2⟩

example : ∃ c' z', wavedec3F (seqKernelsN (flRound 53)) exV haar (some "constant") (some 2) (.seq [1, -1, 0]) = .ok c' ∧
    waverec3F (seqKernelsN (flRound 53)) c' haar (.seq [1, -1, 0]) = .ok z' := by
  obtain ⟨c, hc⟩ := ex_wavedec3
  obtain ⟨c', z', -, -, -, -, h1, h2, -⟩ := c75_roundtrip3 (c75_binary 53) haar 2 haar_pr le_rfl rfl
    (g := (1 + 1 / 2 ^ 53) ^ 5) (one_le_pow₀ (by norm_num)) (by norm_num) exV _ _ _ c (by decide) hc
  exact ⟨c', z', h1, h2⟩

/-- The hypotheses of the bound for three axes are met. -/
example : ∃ c c' t t', wavedec3 exV haar (some "constant") (some 2) (.seq [1, -1, 0]) = .ok c ∧
    wavedec3F (seqKernelsN (flRound 24)) exV haar (some "constant") (some 2) (.seq [1, -1, 0]) = .ok c' ∧
    c.items[0]? = some (.tensor t) ∧ c'.items[0]? = some (.tensor t') ∧ ∀ i, |t'.get i - t.get i| ≤ 1 / 1000 := by
  obtain ⟨c, hc⟩ := ex_wavedec3
  obtain ⟨c', h1, -, ⟨t, t', h2, h3, -, h4⟩, -⟩ := c75_wavedec3_error (c75_binary 24) haar (g := (1 + 1 / 2 ^ 24) ^ 5)
    (one_le_pow₀ (by norm_num)) (by
      have : haar.len * (haar.len * haar.len) + 5 ≤ 15 := by decide
      rw [← pow_mul]
      exact pow_le_pow_right₀ (by norm_num) this) exV _ _ _ 412 c (by decide) rfl (by decide) exI_le hc
  refine ⟨c, c', t, t', hc, h1, h2, h3, fun i => (h4 i).trans ?_⟩
  obtain ⟨m, -, hd⟩ := c18_wavedec3_textbook exV haar _ _ _ c (by decide) rfl (by decide) hc
  have hl : c.items.length = 3 := hd.length
  rw [hl, haar_norms.1]
  norm_num

end Verif.Props
