import Verif.Spec.Kinds
import Verif.Lemmas.Kinds
import Verif.Lemmas.RecGenN
import Verif.Lemmas.SepAlias
import Verif.Model.SepConv
import Verif.Model.MatN
import Verif.Props.ConvNd

/-! C65: the kinds of the entries of coefficient containers -/

namespace Verif.Props
open Tensor Verif.Spec
variable {R : Type}

theorem all_iff [Zero R] {P : Tensor R → Prop} {e : Entry R} : e.All P ↔ TensorsOf P e := by
  cases e <;> rfl

theorem forall₂_last {α β : Type} {P : α → β → Prop} {l : List α} {m : List β} (h : List.Forall₂ P l m) {a : α}
    (ha : l.getLast? = some a) : ∃ b, m.getLast? = some b ∧ P a b := by
  induction h with
  | nil => cases ha
  | cons hab ht ih =>
    cases ht with
    | nil =>
      cases ha
      exact ⟨_, rfl, hab⟩
    | cons h1 h2 =>
      rw [List.getLast?_cons_cons] at ha ⊢
      exact ih ha

theorem waverec2Loop_kinds [NonUnitalNonAssocSemiring R] {filt : Tensor R} {F : Nat} :
    ∀ {es : List (Entry R)} {t z : Tensor R}, waverec2Loop filt F t es = .ok z → ∀ e ∈ es, ∃ h v d, e = .tuple h v d
  | [], _, _, _, _, he => by simp at he
  | e :: es, t, z, h, e', he => by
    unfold waverec2Loop at h
    obtain ⟨r, e1, h⟩ := bind_ok_inv h
    rcases List.mem_cons.mp he with rfl | he
    · unfold waverec2Step at e1
      split at e1
      · exact ⟨_, _, _, rfl⟩
      · cases e1
    · exact waverec2Loop_kinds h e' he

theorem dictGet_mem [Zero R] {kv : List (String × Tensor R)} {k : String} {t : Tensor R} (h : dictGet kv k = .ok t) :
    ∃ p ∈ kv, p.1 = k := by
  unfold dictGet at h
  split at h
  · rename_i p hp
    exact ⟨p, List.mem_of_find?_eq_some hp, by simpa using List.find?_some hp⟩
  · cases h

theorem waverec3Loop_kinds [NonUnitalNonAssocSemiring R] {filt : Tensor R} {F : Nat} :
    ∀ {es : List (Entry R)} {t z : Tensor R}, waverec3Loop filt F t es = .ok z →
      ∀ e ∈ es, ∃ kv, e = .dict kv ∧ kv.length = 7 ∧ ∀ k ∈ keys3, ∃ p ∈ kv, p.1 = k
  | [], _, _, _, _, he => by simp at he
  | e :: es, t, z, h, e', he => by
    unfold waverec3Loop at h
    obtain ⟨r, e1, h⟩ := bind_ok_inv h
    rcases List.mem_cons.mp he with rfl | he
    · unfold waverec3Step at e1
      split at e1
      · rename_i kv
        split_ifs at e1 with hc
        obtain ⟨bs, e2, -⟩ := bind_ok_inv e1
        refine ⟨kv, rfl, hc.1, ?_⟩
        unfold bands3 at e2
        obtain ⟨_, g1, e2⟩ := bind_ok_inv e2
        obtain ⟨_, g2, e2⟩ := bind_ok_inv e2
        obtain ⟨_, g3, e2⟩ := bind_ok_inv e2
        obtain ⟨_, g4, e2⟩ := bind_ok_inv e2
        obtain ⟨_, g5, e2⟩ := bind_ok_inv e2
        obtain ⟨_, g6, e2⟩ := bind_ok_inv e2
        obtain ⟨_, g7, e2⟩ := bind_ok_inv e2
        intro k hk
        simp only [keys3, List.mem_cons, List.not_mem_nil, or_false] at hk
        rcases hk with rfl | rfl | rfl | rfl | rfl | rfl | rfl
        · exact dictGet_mem g1
        · exact dictGet_mem g2
        · exact dictGet_mem g3
        · exact dictGet_mem g4
        · exact dictGet_mem g5
        · exact dictGet_mem g6
        · exact dictGet_mem g7
      · cases e1
    · exact waverec3Loop_kinds h e' he

/-- **C65.** If `waverec2` returns, the container starts with a tensor of a supported dtype and all further entries are
3-tuples of tensors of the same dtype and device. -/
theorem c65_waverec2_accepts [NonUnitalNonAssocSemiring R] {c : Coeffs R} {w : Wavelet R} {axes : AxisHint} {z : Tensor R}
    (h : waverec2 c w axes = .ok z) :
    ∃ t es, c.items = .tensor t :: es ∧ ∀ e ∈ es, TripleOf (fun u => u.md = t.md) e := by
  unfold waverec2 at h
  obtain ⟨q, e1, h⟩ := bind_ok_inv h
  obtain ⟨md, e2, h⟩ := bind_ok_inv h
  obtain ⟨filt, e3, h⟩ := bind_ok_inv h
  obtain ⟨ll, e4, h⟩ := bind_ok_inv h
  obtain ⟨r, e5, h⟩ := bind_ok_inv h
  obtain ⟨t, es, t', es', hc, hq, rfl, hf⟩ := pre_check_inv e1 e2
  refine ⟨t, es, hc, ?_⟩
  intro e he
  obtain ⟨e', he', hr, hm⟩ := forall₂_left hf e he
  rw [hq] at e5
  obtain ⟨a, b, d, rfl⟩ := waverec2Loop_kinds e5 e' he'
  cases hr with
  | tuple _ _ _ => exact ⟨_, _, _, rfl, hm⟩

/-- **C65.** If `waverec3` returns, all details are dictionaries with seven items, among them the seven documented keys. -/
theorem c65_waverec3_accepts [NonUnitalNonAssocSemiring R] {c : Coeffs R} {w : Wavelet R} {axes : AxisHint} {z : Tensor R}
    (h : waverec3 c w axes = .ok z) :
    ∃ t es, c.items = .tensor t :: es ∧
      ∀ e ∈ es, DictOf (fun u => u.md = t.md) (fun kv => kv.length = 7 ∧ ∀ k ∈ keys3, ∃ p ∈ kv, p.1 = k) e := by
  unfold waverec3 at h
  obtain ⟨q, e1, h⟩ := bind_ok_inv h
  obtain ⟨md, e2, h⟩ := bind_ok_inv h
  obtain ⟨filt, e3, h⟩ := bind_ok_inv h
  obtain ⟨ll, e4, h⟩ := bind_ok_inv h
  obtain ⟨r, e5, h⟩ := bind_ok_inv h
  obtain ⟨t, es, t', es', hc, hq, rfl, hf⟩ := pre_check_inv e1 e2
  refine ⟨t, es, hc, ?_⟩
  intro e he
  obtain ⟨e', he', hr, hm⟩ := forall₂_left hf e he
  rw [hq] at e5
  obtain ⟨kv, rfl, h7, hk⟩ := waverec3Loop_kinds e5 e' he'
  cases hr with
  | dict hkv =>
    refine ⟨_, rfl, hm, by rw [hkv.length_eq]; exact h7, ?_⟩
    intro k hk'
    obtain ⟨p, hp, rfl⟩ := hk k hk'
    obtain ⟨p', hp', q1, -⟩ := forall₂_left hkv.flip p hp
    exact ⟨p', hp', q1⟩

/-- **C65.** If `fswaverec2` or `fswaverec3` returns, all details are dictionaries, none of them empty. -/
theorem c65_fswaverec_accepts [NonUnitalNonAssocSemiring R] {c : Coeffs R} {w : Wavelet R} {n : Nat} {axes : AxisHint}
    {z : Tensor R} (h : (fswaverecn c w n axes).1 = .ok z) :
    ∃ t es, c.items = .tensor t :: es ∧ ∀ e ∈ es, DictOf (fun u => u.md = t.md) (fun kv => kv ≠ []) e := by
  unfold fswaverecn at h
  split at h
  · cases h
  rename_i q e1
  split at h
  · cases h
  rename_i md e2
  obtain ⟨r, e5, h⟩ := bind_ok_inv h
  obtain ⟨t, es, t', es', hc, hq, rfl, hf⟩ := pre_check_inv e1 e2
  refine ⟨t, es, hc, ?_⟩
  unfold sepWaverecn at e5
  rw [hq] at e5
  simp only at e5
  split_ifs at e5 with hall
  have key : ∀ (es' : List (Entry R)) (t : Tensor R) (r : Tensor R), (sepRecLoop w t es').1 = .ok r →
      ∀ e ∈ es', ∃ kv, e = .dict kv ∧ kv ≠ [] := by
    intro es'
    induction es' with
    | nil => intro _ _ _ e he; simp at he
    | cons e es' ih =>
      intro t r hr e' he'
      cases e with
      | dict kv =>
        unfold sepRecLoop at hr
        split at hr
        · cases hr
        · rename_i k hk
          split at hr
          · cases hr
          · rename_i u hu
            rcases List.mem_cons.mp he' with rfl | he'
            · refine ⟨kv, rfl, ?_⟩
              rintro rfl
              cases hk
            · exact ih _ _ hr e' he'
      | tensor _ => cases hr
      | tuple _ _ _ => cases hr
      | other => cases hr
  intro e he
  obtain ⟨e', he', hr, hm⟩ := forall₂_left hf e he
  obtain ⟨kv, rfl, hne⟩ := key es' t' r e5 e' he'
  cases hr with
  | dict hkv =>
    refine ⟨_, rfl, hm, ?_⟩
    rintro rfl
    cases hkv
    exact hne rfl

theorem mrec2Loop_kinds [NonUnitalNonAssocSemiring R] {sep : Bool} {B : Nat} :
    ∀ {es : List (Entry R)} {ms : List (List (Coo R))} {t z : Tensor R}, mrec2Loop sep B ms t es = .ok z →
      ∀ e ∈ es, ∃ h v d, e = .tuple h v d
  | [], _, _, _, _, _, he => by simp at he
  | e :: es, ms, t, z, h, e', he => by
    unfold mrec2Loop at h
    obtain ⟨r, e1, h⟩ := bind_ok_inv h
    rcases List.mem_cons.mp he with rfl | he
    · unfold mrec2Step at e1
      split at e1
      · exact ⟨_, _, _, rfl⟩
      · cases e1
    · exact mrec2Loop_kinds h e' he

theorem mrec3Loop_kinds [NonUnitalNonAssocSemiring R] {ms : List (List (Coo R))} :
    ∀ {es : List (Entry R)} {k : Nat} {t z : Tensor R}, mrec3Loop ms k t es = .ok z →
      ∀ e ∈ es, ∃ kv, e = .dict kv ∧ kv.length = 7
  | [], _, _, _, _, _, he => by simp at he
  | e :: es, k, t, z, h, e', he => by
    unfold mrec3Loop at h
    obtain ⟨r, e1, h⟩ := bind_ok_inv h
    rcases List.mem_cons.mp he with rfl | he
    · unfold mrec3Step at e1
      split at e1
      · rename_i kv
        split_ifs at e1 with h7
        exact ⟨kv, rfl, h7⟩
      · cases e1
    · exact mrec3Loop_kinds h e' he

theorem recCallN_kinds [Field R] [DecidableEq R] {n : Nat} {la : LinAlg R} {cfg : RecCfgN R} {st : RecStateN R}
    {c : Coeffs R} {z : Tensor R} (h : (recCallN n la cfg st c).1 = .ok z) :
    ∃ t es t' es', ∃ q : Coeffs R × List Nat, ∃ ms : List (List (Coo R)), c.items = .tensor t :: es ∧ q.1.items = .tensor t' :: es' ∧
      List.Forall₂ (fun e e' => EntryRel (fun _ _ => True) e e' ∧ e.All fun u => u.md = t.md) es es' ∧
      recApplyN n cfg ms q.1 q.2 = .ok z := by
  unfold recCallN at h
  split at h
  · cases h
  rename_i c' ds md s e1
  split at h
  · cases h
  rename_i st' e2
  unfold recInputN at e1
  obtain ⟨q, f1, e1⟩ := bind_ok_inv e1
  obtain ⟨md', f2, e1⟩ := bind_ok_inv e1
  obtain ⟨s', f3, e1⟩ := bind_ok_inv e1
  cases e1
  obtain ⟨t, es, t', es', hc, hq, rfl, hf⟩ := pre_check_inv f1 f2
  exact ⟨t, es, t', es', q, _, hc, hq, hf, h⟩

/-- **C65.** If a `MatrixWaverec2` object, in any state, returns a tensor, all details are 3-tuples of tensors of the dtype
and device of the approximation. -/
theorem c65_matrix2_accepts [Field R] [DecidableEq R] {la : LinAlg R} {cfg : RecCfgN R} {st : RecStateN R}
    {c : Coeffs R} {z : Tensor R} (h : (recCallN 2 la cfg st c).1 = .ok z) :
    ∃ t es, c.items = .tensor t :: es ∧ ∀ e ∈ es, TripleOf (fun u => u.md = t.md) e := by
  obtain ⟨t, es, t', es', q, ms, hc, hq, hf, h⟩ := recCallN_kinds h
  refine ⟨t, es, hc, ?_⟩
  unfold recApplyN at h
  obtain ⟨ll, -, h⟩ := bind_ok_inv h
  rw [if_neg (by decide), hq] at h
  obtain ⟨r, e5, h⟩ := bind_ok_inv h
  intro e he
  obtain ⟨e', he', hr, hm⟩ := forall₂_left hf e he
  obtain ⟨a, b, d, rfl⟩ := mrec2Loop_kinds e5 e' he'
  cases hr with
  | tuple _ _ _ => exact ⟨_, _, _, rfl, hm⟩

/-- **C65.** If a `MatrixWaverec3` object, in any state, returns a tensor, all details are dictionaries with seven items. -/
theorem c65_matrix3_accepts [Field R] [DecidableEq R] {la : LinAlg R} {cfg : RecCfgN R} {st : RecStateN R}
    {c : Coeffs R} {z : Tensor R} (h : (recCallN 3 la cfg st c).1 = .ok z) :
    ∃ t es, c.items = .tensor t :: es ∧ ∀ e ∈ es, DictOf (fun u => u.md = t.md) (fun kv => kv.length = 7) e := by
  obtain ⟨t, es, t', es', q, ms, hc, hq, hf, h⟩ := recCallN_kinds h
  refine ⟨t, es, hc, ?_⟩
  unfold recApplyN at h
  obtain ⟨ll, -, h⟩ := bind_ok_inv h
  rw [if_pos rfl, hq] at h
  obtain ⟨r, e5, h⟩ := bind_ok_inv h
  intro e he
  obtain ⟨e', he', hr, hm⟩ := forall₂_left hf e he
  obtain ⟨kv, rfl, h7⟩ := mrec3Loop_kinds e5 e' he'
  cases hr with
  | dict hkv => exact ⟨_, rfl, hm, hkv.length_eq.trans h7⟩

/-! ### The exceptions -/

/-- **C65.** A container whose tensors agree in rank, dtype and device, but whose first detail is not a 3-tuple (for
example a dictionary, as `fswavedec2` returns it) is a ValueError of `waverec2`. -/
theorem c65_waverec2_kind [Semiring R] {c : Coeffs R} {w : Wavelet R} {F : Nat} {axes : AxisHint} {t : Tensor R}
    {e : Entry R} {es : List (Entry R)} (h0 : w.recLo.length = F) (h1 : w.recHi.length = F)
    (hc : c.items = .tensor t :: e :: es) (hg : GoodAxes axes t.rank 2)
    (hdt : t.md.dtype = .float32 ∨ t.md.dtype = .float64)
    (hall : ∀ e' ∈ e :: es, TensorsOf (fun u => u.rank = t.rank ∧ u.md = t.md) e')
    (hk : ∀ h v d, e ≠ .tuple h v d) : waverec2 c w axes = .error .valueError := by
  have hdt' : isDtypeSupported t.md.dtype = true := by unfold isDtypeSupported; simpa using hdt
  obtain ⟨q, t', es', e1, e2, e3, hf0, hf⟩ := pre_check_run hg (md := t.md) hc (by
    intro e' he'
    rw [hc] at he'
    rcases List.mem_cons.mp he' with rfl | he'
    · exact ⟨rfl, rfl⟩
    · exact all_iff.mpr (hall e' he')) hdt'
  obtain ⟨filt, ef, -⟩ := construct2d_ok (lo := w.recLo) (hi := w.recHi) h0 h1 false t.md
  have e4 : headTensor q.1 = .ok t' := by unfold headTensor; rw [e3]
  unfold waverec2
  simp only [bind, Except.bind, e1, e2, ef, e4, e3, List.tail_cons]
  cases hf with
  | cons hr _ =>
    cases hr with
    | tensor _ => rfl
    | tuple _ _ _ => exact absurd rfl (hk _ _ _)
    | dict _ => rfl

/-- **C65.** In `waverec2` a dictionary which follows a detail of the right form is not a ValueError but a KeyError:
the size of the next level is read from its entry 0 before its kind is looked at. -/
theorem c65_waverec2_dict_after_triple [Semiring R] {c : Coeffs R} {w : Wavelet R} {F : Nat} {axes : AxisHint}
    {t h v d : Tensor R} {kv : List (String × Tensor R)} {es : List (Entry R)}
    (hF : 1 ≤ F) (h0 : w.recLo.length = F) (h1 : w.recHi.length = F)
    (hc : c.items = .tensor t :: .tuple h v d :: .dict kv :: es) (hg : GoodAxes axes t.rank 2)
    (hdt : t.md.dtype = .float32 ∨ t.md.dtype = .float64)
    (hall : ∀ e' ∈ .tuple h v d :: .dict kv :: es, TensorsOf (fun u => u.rank = t.rank ∧ u.md = t.md) e')
    (hs : h.shape = t.shape ∧ v.shape = t.shape ∧ d.shape = t.shape)
    (hpos : ∀ a ∈ axesOf axes t.rank 2, 1 ≤ t.shape.getD a 0) : waverec2 c w axes = .error .keyError := by
  have hdt' : isDtypeSupported t.md.dtype = true := by unfold isDtypeSupported; simpa using hdt
  obtain ⟨q, t', es', e1, e2, e3, hf0, hf⟩ := pre_check_run hg (md := t.md) hc (by
    intro e' he'
    rw [hc] at he'
    rcases List.mem_cons.mp he' with rfl | he'
    · exact ⟨rfl, rfl⟩
    · exact all_iff.mpr (hall e' he')) hdt'
  have hall1 := hall _ (List.mem_cons_self ..)
  obtain ⟨m1, m2, m3⟩ : h.md = t.md ∧ v.md = t.md ∧ d.md = t.md := ⟨hall1.1.2, hall1.2.1.2, hall1.2.2.2⟩
  obtain ⟨filt, ef, hfilt⟩ := construct2d_ok (lo := w.recLo) (hi := w.recHi) h0 h1 false t.md
  have e4 : headTensor q.1 = .ok t' := by unfold headTensor; rw [e3]
  unfold waverec2
  simp only [bind, Except.bind, e1, e2, ef, e4, e3, List.tail_cons]
  cases hf with
  | cons hr hf =>
    cases hf with
    | cons hr2 _ =>
      cases hr2 with
      | dict _ =>
        cases hr with
        | @tuple _ _ _ h' v' d' k1 k2 k3 =>
          have sh : ∀ {x x' : Tensor R}, x.shape = t.shape → x.md = t.md → Folded (axesOf axes t.rank 2) x x' →
              ShowsN x' t.md (prodL (pick (batchAxes t.rank (axesOf axes t.rank 2)) t.shape))
                (sizes (axesOf axes t.rank 2) t.shape) (fun b js => x'.get (b :: js)) := by
            intro x x' hx hm hf
            have := hf.showsN
            rw [hm, hx, show x.rank = t.rank from congrArg List.length hx] at this
            exact this
          have s0 := sh rfl rfl hf0
          have s1 := sh hs.1 m1 k1.2
          have s2 := sh hs.2.1 m2 k2.2
          have s3 := sh hs.2.2 m3 k3.2
          obtain ⟨st, r, es1, er, ec, hr⟩ := synthesisN_ok
            (c := fun b bs js => (if bs = bands2.getD 0 [] then t' else if bs = bands2.getD 1 [] then h'
              else if bs = bands2.getD 2 [] then v' else d').get (b :: js))
            hF h0 h1 (Ks := sizes (axesOf axes t.rank 2) t.shape) (by
              intro K hK
              obtain ⟨a, ha, rfl⟩ := List.mem_map.mp hK
              exact hpos a ha)
            (by rw [sizes_len hg]; exact hfilt) (by rw [sizes_len hg]; exact bands2_len)
            (by rw [sizes_len hg]; exact hsum2) (by simp [bands2])
            (ts := [t', h', v', d']) (List.Forall₂.cons s0 (.cons s1 (.cons s2 (.cons s3 .nil))))
          have : convTranspose2d st filt 2 = .ok r := by
            unfold convTranspose2d
            rw [if_pos (by rw [er, sizes_len hg])]
            exact ec
          simp only [waverec2Loop, waverec2Step,
            if_pos (show h'.shape = t'.shape ∧ v'.shape = t'.shape ∧ d'.shape = t'.shape from
              ⟨s1.shape.trans s0.shape.symm, s2.shape.trans s0.shape.symm, s3.shape.trans s0.shape.symm⟩),
            bind, Except.bind, es1, this, recPads2, nextRef2]

/-- **C65.** A first detail that is not a dictionary with seven items is a ValueError of `waverec3`. -/
theorem c65_waverec3_kind [Semiring R] {c : Coeffs R} {w : Wavelet R} {F : Nat} {axes : AxisHint} {t : Tensor R}
    {e : Entry R} {es : List (Entry R)} (h0 : w.recLo.length = F) (h1 : w.recHi.length = F)
    (hc : c.items = .tensor t :: e :: es) (hg : GoodAxes axes t.rank 3)
    (hdt : t.md.dtype = .float32 ∨ t.md.dtype = .float64)
    (hall : ∀ e' ∈ e :: es, TensorsOf (fun u => u.rank = t.rank ∧ u.md = t.md) e')
    (hk : ∀ kv, e = .dict kv → kv.length ≠ 7) : waverec3 c w axes = .error .valueError := by
  have hdt' : isDtypeSupported t.md.dtype = true := by unfold isDtypeSupported; simpa using hdt
  obtain ⟨q, t', es', e1, e2, e3, hf0, hf⟩ := pre_check_run hg (md := t.md) hc (by
    intro e' he'
    rw [hc] at he'
    rcases List.mem_cons.mp he' with rfl | he'
    · exact ⟨rfl, rfl⟩
    · exact all_iff.mpr (hall e' he')) hdt'
  obtain ⟨filt, ef, -⟩ := construct3d_ok (lo := w.recLo) (hi := w.recHi) h0 h1 false t.md
  have e4 : headTensor q.1 = .ok t' := by unfold headTensor; rw [e3]
  unfold waverec3
  simp only [bind, Except.bind, e1, e2, ef, e4, e3, List.tail_cons]
  cases hf with
  | cons hr _ =>
    cases hr with
    | tensor _ => rfl
    | tuple _ _ _ => rfl
    | dict hkv =>
      have h7 := hk _ rfl
      rw [hkv.length_eq] at h7
      simp only [waverec3Loop, waverec3Step, if_neg (fun h : _ ∧ _ => h7 h.1), bind, Except.bind]

theorem dictGet_cases [Zero R] (kv : List (String × Tensor R)) (k : String) :
    (∃ t, dictGet kv k = .ok t) ∨ dictGet kv k = .error .keyError := by
  unfold dictGet
  split
  · exact Or.inl ⟨_, rfl⟩
  · exact Or.inr rfl

theorem bands3_missing [Zero R] {t : Tensor R} {kv : List (String × Tensor R)}
    (h : ∃ k ∈ keys3, ∀ p ∈ kv, p.1 ≠ k) : bands3 t kv = .error .keyError := by
  have hno : ∃ k ∈ keys3, dictGet kv k = .error .keyError := by
    obtain ⟨k, hk, hp⟩ := h
    rcases dictGet_cases kv k with ⟨t, ht⟩ | h
    · obtain ⟨p, hp', rfl⟩ := dictGet_mem ht
      exact absurd rfl (hp p hp')
    · exact ⟨k, hk, h⟩
  obtain ⟨k, hk, hno⟩ := hno
  unfold bands3
  simp only [keys3, List.mem_cons, List.not_mem_nil, or_false] at hk
  rcases dictGet_cases kv "aad" with ⟨_, g1⟩ | g1 <;> simp only [g1, bind, Except.bind]
  rcases dictGet_cases kv "ada" with ⟨_, g2⟩ | g2 <;> simp only [g2]
  rcases dictGet_cases kv "add" with ⟨_, g3⟩ | g3 <;> simp only [g3]
  rcases dictGet_cases kv "daa" with ⟨_, g4⟩ | g4 <;> simp only [g4]
  rcases dictGet_cases kv "dad" with ⟨_, g5⟩ | g5 <;> simp only [g5]
  rcases dictGet_cases kv "dda" with ⟨_, g6⟩ | g6 <;> simp only [g6]
  rcases dictGet_cases kv "ddd" with ⟨_, g7⟩ | g7 <;> simp only [g7]
  rcases hk with rfl | rfl | rfl | rfl | rfl | rfl | rfl <;> simp_all

/-- **C65.** A dictionary with seven items of the shape of the approximation, one of the documented keys missing, is a
KeyError of `waverec3`. -/
theorem c65_waverec3_key [Semiring R] {c : Coeffs R} {w : Wavelet R} {F : Nat} {axes : AxisHint} {t : Tensor R}
    {kv : List (String × Tensor R)} {es : List (Entry R)} (h0 : w.recLo.length = F) (h1 : w.recHi.length = F)
    (hc : c.items = .tensor t :: .dict kv :: es) (hg : GoodAxes axes t.rank 3)
    (hdt : t.md.dtype = .float32 ∨ t.md.dtype = .float64)
    (hall : ∀ e' ∈ es, TensorsOf (fun u => u.rank = t.rank ∧ u.md = t.md) e') (h7 : kv.length = 7)
    (hkv : ∀ p ∈ kv, p.2.shape = t.shape ∧ p.2.md = t.md) (hk : ∃ k ∈ keys3, ∀ p ∈ kv, p.1 ≠ k) :
    waverec3 c w axes = .error .keyError := by
  have hdt' : isDtypeSupported t.md.dtype = true := by unfold isDtypeSupported; simpa using hdt
  obtain ⟨q, t', es', e1, e2, e3, hf0, hf⟩ := pre_check_run hg (md := t.md) hc (by
    intro e' he'
    rw [hc] at he'
    rcases List.mem_cons.mp he' with rfl | he'
    · exact ⟨rfl, rfl⟩
    · rcases List.mem_cons.mp he' with rfl | he'
      · exact fun p hp => ⟨congrArg List.length (hkv p hp).1, (hkv p hp).2⟩
      · exact all_iff.mpr (hall e' he')) hdt'
  obtain ⟨filt, ef, -⟩ := construct3d_ok (lo := w.recLo) (hi := w.recHi) h0 h1 false t.md
  have e4 : headTensor q.1 = .ok t' := by unfold headTensor; rw [e3]
  unfold waverec3
  simp only [bind, Except.bind, e1, e2, ef, e4, e3, List.tail_cons]
  cases hf with
  | cons hr _ =>
    cases hr with
    | dict hr =>
      rename_i kv'
      have hs : ∀ p ∈ kv', p.2.shape = t'.shape := by
        intro p hp
        obtain ⟨p', hp', -, q1, q2⟩ := forall₂_left hr.flip p hp
        simp only [q2.shape, hf0.shape, Tensor.rank, (hkv p' hp').1]
      have hb : bands3 t' kv' = .error .keyError := by
        refine bands3_missing ?_
        obtain ⟨k, hk1, hk2⟩ := hk
        refine ⟨k, hk1, ?_⟩
        intro p hp
        obtain ⟨p', hp', q1, -⟩ := forall₂_left hr.flip p hp
        rw [← q1]
        exact hk2 p' hp'
      simp only [waverec3Loop, waverec3Step, if_pos (show _ ∧ _ from ⟨hr.length_eq.symm.trans h7, hs⟩), bind, Except.bind, hb]

/-- **C65.** Any detail that is not a dictionary (for example a tuple, as `wavedec2` returns it) is a ValueError of
`fswaverec2` and `fswaverec3`, and the coefficients are left as they were. -/
theorem c65_fswaverec_kind [NonUnitalNonAssocSemiring R] {c : Coeffs R} {w : Wavelet R} {n : Nat} {axes : AxisHint} {t : Tensor R}
    {es : List (Entry R)} (hc : c.items = .tensor t :: es) (hg : GoodAxes axes t.rank n)
    (hdt : t.md.dtype = .float32 ∨ t.md.dtype = .float64)
    (hall : ∀ e ∈ es, TensorsOf (fun u => u.rank = t.rank ∧ u.md = t.md) e)
    (hk : ∃ e ∈ es, ∀ kv, e ≠ .dict kv) : fswaverecn c w n axes = (.error .valueError, c) := by
  have hdt' : isDtypeSupported t.md.dtype = true := by unfold isDtypeSupported; simpa using hdt
  obtain ⟨q, t', es', e1, e2, e3, hf0, hf⟩ := pre_check_run hg (md := t.md) hc (by
    intro e' he'
    rw [hc] at he'
    rcases List.mem_cons.mp he' with rfl | he'
    · exact ⟨rfl, rfl⟩
    · exact all_iff.mpr (hall e' he')) hdt'
  have hnd : ¬ es'.all Entry.isDict = true := by
    obtain ⟨e, he, hk⟩ := hk
    obtain ⟨e', he', hr⟩ := forall₂_left hf e he
    intro h
    have := List.all_eq_true.mp h e' he'
    cases hr with
    | tensor _ => cases this
    | tuple _ _ _ => cases this
    | dict _ => exact hk _ rfl
  unfold fswaverecn sepWaverecn
  simp only [e1, e2, e3, if_neg hnd]
  by_cases ha : preAliases c n axes = true
  · rw [if_pos ha, preprocess_alias e1 ha]
    rfl
  · rw [if_neg ha]
    rfl

/-- **C65.** A `MatrixWaverec2` object, in any state, raises KeyError if the last detail is a dictionary; a
`MatrixWaverec3` object raises ValueError if the last detail is not a dictionary.  Neither changes its state. -/
theorem c65_matrix_kind [Field R] [DecidableEq R] {la : LinAlg R} {n : Nat} {cfg : RecCfgN R} {st : RecStateN R}
    {c : Coeffs R} {t : Tensor R} {es : List (Entry R)} {e : Entry R} (hc : c.items = .tensor t :: es)
    (hg : GoodAxes (.seq cfg.axes) t.rank n) (hdt : t.md.dtype = .float32 ∨ t.md.dtype = .float64)
    (hall : ∀ e ∈ es, TensorsOf (fun u => u.rank = t.rank ∧ u.md = t.md) e) (hl : es.getLast? = some e) :
    (n = 2 → (∃ kv, e = .dict kv) → recCallN n la cfg st c = (.error .keyError, st)) ∧
    (n = 3 → (∀ kv, e ≠ .dict kv) → recCallN n la cfg st c = (.error .valueError, st)) := by
  have hdt' : isDtypeSupported t.md.dtype = true := by unfold isDtypeSupported; simpa using hdt
  obtain ⟨q, t', es', e1, e2, e3, hf0, hf⟩ := pre_check_run hg (md := t.md) hc (by
    intro e' he'
    rw [hc] at he'
    rcases List.mem_cons.mp he' with rfl | he'
    · exact ⟨rfl, rfl⟩
    · exact all_iff.mpr (hall e' he')) hdt'
  have hlast : ∃ e', q.1.items.getLast? = some e' ∧
      EntryRel (fun x y => x.rank = t.rank ∧ Folded (axesOf (.seq cfg.axes) t.rank n) x y) e e' := by
    rw [e3]
    obtain ⟨e', h1, h2⟩ := forall₂_last hf hl
    refine ⟨e', ?_, h2⟩
    rw [List.getLast?_cons, h1]
    rfl
  obtain ⟨e', he', hr⟩ := hlast
  constructor
  · rintro rfl ⟨kv, rfl⟩
    cases hr with
    | dict _ =>
      have hs : recShape 2 q.1 = .error .keyError := by
        unfold recShape
        rw [he']
        rfl
      unfold recCallN recInputN
      simp only [bind, Except.bind, e1, e2, hs]
  · rintro rfl hk
    have hs : recShape 3 q.1 = .error .valueError := by
      unfold recShape
      rw [he']
      cases hr with
      | tensor _ => rfl
      | tuple _ _ _ => rfl
      | dict _ => exact absurd rfl (hk _)
    unfold recCallN recInputN
    simp only [bind, Except.bind, e1, e2, hs]

/-- **C65.** An object of a foreign type among the details is a ValueError of every reconstruction. -/
theorem c65_foreign [Field R] [DecidableEq R] {c : Coeffs R} {w : Wavelet R} {n : Nat} {axes : AxisHint} {t : Tensor R}
    {es : List (Entry R)} (hc : c.items = .tensor t :: es) (hg : GoodAxes axes t.rank n)
    (hdt : t.md.dtype = .float32 ∨ t.md.dtype = .float64)
    (hall : ∀ e ∈ es, e = .other ∨ TensorsOf (fun u => u.rank = t.rank ∧ u.md = t.md) e) (ho : .other ∈ es) :
    (n = 2 → waverec2 c w axes = .error .valueError) ∧ (n = 3 → waverec3 c w axes = .error .valueError) ∧
    fswaverecn c w n axes = (.error .valueError, c) ∧
    ∀ la : LinAlg R, ∀ cfg st, axes = .seq cfg.axes → recCallN n la cfg st c = (.error .valueError, st) := by
  have hdt' : isDtypeSupported t.md.dtype = true := by unfold isDtypeSupported; simpa using hdt
  have key := pre_other hg (md := t.md) hc ⟨rfl, rfl⟩ (fun e he => (hall e he).imp id all_iff.mpr) ho hdt'
  refine ⟨?_, ?_, ?_, ?_⟩
  · rintro rfl
    unfold waverec2
    rcases key with e | ⟨q, e1, e2⟩
    · rw [e]; rfl
    · simp only [bind, Except.bind, e1, e2]
  · rintro rfl
    unfold waverec3
    rcases key with e | ⟨q, e1, e2⟩
    · rw [e]; rfl
    · simp only [bind, Except.bind, e1, e2]
  · unfold fswaverecn
    rcases key with e | ⟨q, e1, e2⟩
    · rw [e]
    · simp only [e1, e2]
  · rintro la cfg st rfl
    unfold recCallN recInputN
    rcases key with e | ⟨q, e1, e2⟩
    · simp only [bind, Except.bind, e]
    · simp only [bind, Except.bind, e1, e2]

/-! ### The hypotheses can be met -/

theorem preprocessCoeffs_first [Zero R] (c : Coeffs R) (n : Nat) (axes : AxisHint) (ch : Bool) {e : Err} (hn : n ≠ 0)
    (h : headTensor c = .error e) : preprocessCoeffs c n axes ch = .error e := by
  unfold preprocessCoeffs
  rw [if_neg hn, h]
  rfl

/-- **C65.** Without any coefficients every reconstruction raises IndexError, whatever the axes; nothing is stored. -/
theorem c65_empty [Field R] [DecidableEq R] (b : Bool) (w : Wavelet R) (axes : AxisHint) (la : LinAlg R) (cfg : RecCfg R)
    (st : RecState R) (cfgN : RecCfgN R) (stN : RecStateN R) (n : Nat) (hn : n ≠ 0) :
    waverec ([] : List (Tensor R)) w axes = .error .indexError ∧
    iswt ([] : List (Tensor R)) w axes = .error .indexError ∧
    waverec2 ⟨b, []⟩ w axes = .error .indexError ∧ waverec3 ⟨b, []⟩ w axes = .error .indexError ∧
    fswaverecn ⟨b, []⟩ w n axes = (.error .indexError, ⟨b, []⟩) ∧
    recCall la cfg st [] = (.error .indexError, st) ∧
    recCallN n la cfgN stN ⟨b, []⟩ = (.error .indexError, stN) := by
  have hp : ∀ (b : Bool) (k : Nat) (a : AxisHint) (ch : Bool), k ≠ 0 →
      preprocessCoeffs (R := R) ⟨b, []⟩ k a ch = .error .indexError :=
    fun b k a ch hk => preprocessCoeffs_first _ k a ch hk rfl
  have h0 : ∀ (k : Nat) (a : AxisHint) (ch : Bool), k ≠ 0 →
      preprocessCoeffs (R := R) (Coeffs.ofList []) k a ch = .error .indexError :=
    fun k a ch hk => preprocessCoeffs_first _ k a ch hk rfl
  refine ⟨?_, ?_, ?_, ?_, ?_, ?_, ?_⟩
  · unfold waverec; rw [h0 _ _ _ (by decide)]; rfl
  · unfold iswt; rw [h0 _ _ _ (by decide)]; rfl
  · unfold waverec2; rw [hp _ _ _ _ (by decide)]; rfl
  · unfold waverec3; rw [hp _ _ _ _ (by decide)]; rfl
  · unfold fswaverecn; rw [hp _ _ _ _ hn]
  · unfold recCall recInput; rw [h0 _ _ _ (by decide)]; rfl
  · unfold recCallN recInputN; rw [hp _ _ _ _ hn]; rfl

/-- **C65.** If the first entry is not a tensor, every reconstruction raises ValueError. -/
theorem c65_first [Field R] [DecidableEq R] (b : Bool) (e : Entry R) (es : List (Entry R)) (he : ∀ t, e ≠ .tensor t)
    (w : Wavelet R) (axes : AxisHint) (la : LinAlg R) (cfg : RecCfgN R) (st : RecStateN R) (n : Nat) (hn : n ≠ 0) :
    waverec2 ⟨b, e :: es⟩ w axes = .error .valueError ∧ waverec3 ⟨b, e :: es⟩ w axes = .error .valueError ∧
    fswaverecn ⟨b, e :: es⟩ w n axes = (.error .valueError, ⟨b, e :: es⟩) ∧
    recCallN n la cfg st ⟨b, e :: es⟩ = (.error .valueError, st) := by
  have hh : headTensor (⟨b, e :: es⟩ : Coeffs R) = .error .valueError := by
    unfold headTensor
    cases e with
    | tensor t => exact absurd rfl (he t)
    | _ => rfl
  have hp : ∀ (k : Nat) (a : AxisHint) (ch : Bool), k ≠ 0 →
      preprocessCoeffs (R := R) ⟨b, e :: es⟩ k a ch = .error .valueError :=
    fun k a ch hk => preprocessCoeffs_first _ k a ch hk hh
  refine ⟨?_, ?_, ?_, ?_⟩
  · unfold waverec2; rw [hp _ _ _ (by decide)]; rfl
  · unfold waverec3; rw [hp _ _ _ (by decide)]; rfl
  · unfold fswaverecn; rw [hp _ _ _ hn]
  · unfold recCallN recInputN; rw [hp _ _ _ hn]; rfl

theorem exK_axes (n : Nat) (hn : 1 ≤ n) : GoodAxes .none n n :=
  goodAxes_none hn (le_refl n)

theorem exK_valid2 : ValidAxes 3 [-2, -1] := ⟨by
    intro a ha
    simp only [List.mem_cons, List.not_mem_nil, or_false] at ha
    rcases ha with rfl | rfl <;> exact ⟨by decide, by decide⟩, by decide⟩

theorem exK_valid3 : ValidAxes 3 [-3, -2, -1] := ⟨by
    intro a ha
    simp only [List.mem_cons, List.not_mem_nil, or_false] at ha
    rcases ha with rfl | rfl | rfl <;> exact ⟨by decide, by decide⟩, by decide⟩

/-- Dictionaries, as `fswavedec2` returns them, are a ValueError of `waverec2`; tuples, as `wavedec2` returns them, of
`fswaverec2`. -/
example (t : Tensor ℚ) (ht : t.rank = 2) (hm : t.md.dtype = .float32) :
    waverec2 ⟨false, [.tensor t, .dict [("ad", t), ("da", t), ("dd", t)]]⟩ (haar : Wavelet ℚ) .none = .error .valueError ∧
    fswaverec2 ⟨false, [.tensor t, .tuple t t t]⟩ (haar : Wavelet ℚ) .none
      = (.error .valueError, ⟨false, [.tensor t, .tuple t t t]⟩) := by
  constructor
  · refine c65_waverec2_kind (F := 2) rfl rfl rfl (by rw [ht]; exact exK_axes 2 (by decide)) (Or.inl hm) ?_ (by simp)
    intro e he
    rw [List.mem_singleton] at he
    subst he
    intro p hp
    simp only [List.mem_cons, List.not_mem_nil, or_false] at hp
    rcases hp with rfl | rfl | rfl <;> exact ⟨rfl, rfl⟩
  · refine c65_fswaverec_kind rfl (by rw [ht]; exact exK_axes 2 (by decide)) (Or.inl hm) ?_ ⟨_, List.mem_singleton.mpr rfl, by simp⟩
    intro e he
    rw [List.mem_singleton] at he
    subst he
    exact ⟨⟨rfl, rfl⟩, ⟨rfl, rfl⟩, ⟨rfl, rfl⟩⟩

/-- A dictionary after a triple is a KeyError of `waverec2`. -/
example (t : Tensor ℚ) (ht : t.shape = [3, 5]) (hm : t.md.dtype = .float32) :
    waverec2 ⟨true, [.tensor t, .tuple t t t, .dict [("ad", t)]]⟩ (haar : Wavelet ℚ) .none = .error .keyError := by
  have hr : t.rank = 2 := congrArg List.length ht
  refine c65_waverec2_dict_after_triple (F := 2) (by decide) rfl rfl rfl (by rw [hr]; exact exK_axes 2 (by decide))
    (Or.inl hm) ?_ ⟨rfl, rfl, rfl⟩ ?_
  · intro e he
    simp only [List.mem_cons, List.not_mem_nil, or_false] at he
    rcases he with rfl | rfl
    · exact ⟨⟨rfl, rfl⟩, ⟨rfl, rfl⟩, ⟨rfl, rfl⟩⟩
    · intro p hp
      rw [List.mem_singleton] at hp
      subst hp
      exact ⟨rfl, rfl⟩
  · rw [hr, ht]
    decide

/-- Six keys are a ValueError of `waverec3`, a wrong key is a KeyError. -/
example (t : Tensor ℚ) (ht : t.rank = 3) (hm : t.md.dtype = .float32) :
    waverec3 ⟨false, [.tensor t, .dict ((keys3.drop 1).map fun k => (k, t))]⟩ (haar : Wavelet ℚ) .none = .error .valueError ∧
    waverec3 ⟨false, [.tensor t, .dict (("aaa" :: keys3.drop 1).map fun k => (k, t))]⟩ (haar : Wavelet ℚ) .none
      = .error .keyError := by
  have hg : GoodAxes .none t.rank 3 := by rw [ht]; exact exK_axes 3 (by decide)
  constructor
  · refine c65_waverec3_kind (F := 2) rfl rfl rfl hg (Or.inl hm) ?_ (by rintro kv ⟨⟩; simp [keys3])
    intro e he
    rw [List.mem_singleton] at he
    subst he
    intro p hp
    obtain ⟨k, -, rfl⟩ := List.mem_map.mp hp
    exact ⟨rfl, rfl⟩
  · refine c65_waverec3_key (F := 2) rfl rfl rfl hg (Or.inl hm) (by simp) rfl ?_ ⟨"aad", by decide, ?_⟩
    · intro p hp
      obtain ⟨k, -, rfl⟩ := List.mem_map.mp hp
      exact ⟨rfl, rfl⟩
    · intro p hp
      obtain ⟨k, hk, rfl⟩ := List.mem_map.mp hp
      exact (by decide : ∀ k ∈ "aaa" :: keys3.drop 1, k ≠ "aad") k hk

/-- A foreign object behind a tuple. -/
example (t : Tensor ℚ) (ht : t.rank = 2) (hm : t.md.dtype = .float32) :
    waverec2 ⟨false, [.tensor t, .tuple t t t, .other]⟩ (haar : Wavelet ℚ) .none = .error .valueError := by
  refine (c65_foreign (n := 2) rfl (by rw [ht]; exact exK_axes 2 (by decide)) (Or.inl hm) ?_ (by simp)).1 rfl
  intro e he
  simp only [List.mem_cons, List.not_mem_nil, or_false] at he
  rcases he with rfl | rfl
  · exact Or.inr ⟨⟨rfl, rfl⟩, ⟨rfl, rfl⟩, ⟨rfl, rfl⟩⟩
  · exact Or.inl rfl

/-- The two-dimensional matrix object rejects a dictionary, the three-dimensional one a tuple. -/
example (la : LinAlg ℚ) (w : Wavelet ℚ) (st : RecStateN ℚ) (t : Tensor ℚ) (ht : t.rank = 3) (hm : t.md.dtype = .float32) :
    recCallN 2 la ⟨w, [-2, -1], "qr", true⟩ st ⟨false, [.tensor t, .dict [("ad", t)]]⟩ = (.error .keyError, st) ∧
    recCallN 3 la ⟨w, [-3, -2, -1], "qr", true⟩ st ⟨false, [.tensor t, .tuple t t t]⟩ = (.error .valueError, st) := by
  constructor
  · refine (c65_matrix_kind (n := 2) rfl (by rw [ht]; exact ⟨by decide, rfl, exK_valid2⟩) (Or.inl hm) ?_ rfl).1 rfl ⟨_, rfl⟩
    intro e he
    rw [List.mem_singleton] at he
    subst he
    intro p hp
    rw [List.mem_singleton] at hp
    subst hp
    exact ⟨rfl, rfl⟩
  · refine (c65_matrix_kind (n := 3) rfl (by rw [ht]; exact ⟨by decide, rfl, exK_valid3⟩) (Or.inl hm) ?_ rfl).2 rfl (by simp)
    intro e he
    rw [List.mem_singleton] at he
    subst he
    exact ⟨⟨rfl, rfl⟩, ⟨rfl, rfl⟩, ⟨rfl, rfl⟩⟩

end Verif.Props
