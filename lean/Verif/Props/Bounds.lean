/-
C70: size and sensitivity of results.  What a call returns is bounded, entry by entry, by what the same call returns
for the absolute values of data and taps; for the transforms themselves this gives explicit bounds in terms of the
largest sample and the sums of the absolute values of the taps, and explicit bounds for the effect of a perturbation
of the data and of the taps.
-/
import Verif.Lemmas.Bounds
import Mathlib.Algebra.Order.Field.Basic
import Mathlib.Algebra.Order.Field.Rat

namespace Verif.Props
open Verif.Spec Tensor
variable {R : Type}

section ring
variable [CommRing R] [LinearOrder R] [IsStrictOrderedRing R]

/-! ### Domination: bounds on data and taps become bounds on all results -/

theorem c70_wavedec_dominated {x y : Tensor R} {w v : Wavelet R} (hx : TRel Dom x y) (hw : WRel Dom w v)
    (mode : Option String) (level : Option Int) (axis : AxisHint) :
    Two (List.Forall₂ (TRel Dom)) (wavedec x w mode level axis) (wavedec y v mode level axis) :=
  rel_wavedec closed_dom hx hw mode level axis

theorem c70_waverec_dominated {xs ys : List (Tensor R)} {w v : Wavelet R} (hx : List.Forall₂ (TRel Dom) xs ys)
    (hw : WRel Dom w v) (axis : AxisHint) : Two (TRel Dom) (waverec xs w axis) (waverec ys v axis) :=
  rel_waverec closed_dom hx hw axis

theorem c70_wavedec2_dominated {x y : Tensor R} {w v : Wavelet R} (hx : TRel Dom x y) (hw : WRel Dom w v)
    (mode : Option String) (level : Option Int) (axes : AxisHint) :
    Two (Coeffs2 (TRel Dom)) (wavedec2 x w mode level axes) (wavedec2 y v mode level axes) :=
  rel_wavedec2 closed_dom hx hw mode level axes

theorem c70_waverec2_dominated {c d : Coeffs R} {w v : Wavelet R} (hc : Coeffs2 (TRel Dom) c d) (hw : WRel Dom w v)
    (axes : AxisHint) : Two (TRel Dom) (waverec2 c w axes) (waverec2 d v axes) :=
  rel_waverec2 closed_dom hc hw axes

theorem c70_wavedec3_dominated {x y : Tensor R} {w v : Wavelet R} (hx : TRel Dom x y) (hw : WRel Dom w v)
    (mode : Option String) (level : Option Int) (axes : AxisHint) :
    Two (Coeffs2 (TRel Dom)) (wavedec3 x w mode level axes) (wavedec3 y v mode level axes) :=
  rel_wavedec3 closed_dom hx hw mode level axes

theorem c70_waverec3_dominated {c d : Coeffs R} {w v : Wavelet R} (hc : Coeffs2 (TRel Dom) c d) (hw : WRel Dom w v)
    (axes : AxisHint) : Two (TRel Dom) (waverec3 c w axes) (waverec3 d v axes) :=
  rel_waverec3 closed_dom hc hw axes

/-- `fswavedec2` is `n = 2`, `fswavedec3` is `n = 3`. -/
theorem c70_fswavedec_dominated {x y : Tensor R} {w v : Wavelet R} (hx : TRel Dom x y) (hw : WRel Dom w v) (n : Nat)
    (mode : Option String) (level : Option Int) (axes : AxisHint) :
    Two (Coeffs2 (TRel Dom)) (fswavedecn x w n mode level axes) (fswavedecn y v n mode level axes) :=
  rel_fswavedecn closed_dom hx hw n mode level axes

theorem c70_fswaverec_dominated {c d : Coeffs R} {w v : Wavelet R} (hc : Coeffs2 (TRel Dom) c d) (hw : WRel Dom w v)
    (n : Nat) (axes : AxisHint) : Two (TRel Dom) (fswaverecn c w n axes).1 (fswaverecn d v n axes).1 :=
  (rel_fswaverecn closed_dom hc hw n axes).1

theorem c70_swt_dominated {x y : Tensor R} {w v : Wavelet R} (hx : TRel Dom x y) (hw : WRel Dom w v)
    (level : Option Int) (axis : AxisHint) :
    Two (List.Forall₂ (TRel Dom)) (swt x w level axis) (swt y v level axis) :=
  rel_swt closed_dom hx hw level axis

/-- Every history of operations on a `WaveletPacket` object. -/
theorem c70_packet_dominated {w v : Wavelet R} (hw : WRel Dom w v) {ops ops' : List (Backend.Op (Tensor R))}
    (ho : List.Forall₂ (Op2 (TRel Dom)) ops ops') (mode : Option String) (axis : Int) :
    List.Forall₂ (Out2 (TRel Dom)) ((packet1 w mode axis).run (Backend.empty ()) ops).1
      ((packet1 v mode axis).run (Backend.empty ()) ops').1 :=
  (two_run (two_packet1 closed_dom hw mode axis) ho (pkt2_empty trivial)).1

/-- Every history of operations on a `WaveletPacket2D` object. -/
theorem c70_packet2d_dominated {w v : Wavelet R} (hw : WRel Dom w v) {ops ops' : List (Backend.Op (Tensor R))}
    (ho : List.Forall₂ (Op2 (TRel Dom)) ops ops') (mode : Option String) (axes : List Int)
    (separable : Bool) :
    List.Forall₂ (Out2 (TRel Dom)) ((packet2 w mode axes separable).run (Backend.empty ()) ops).1
      ((packet2 v mode axes separable).run (Backend.empty ()) ops').1 :=
  (two_run (two_packet2 closed_dom hw mode axes separable) ho (pkt2_empty trivial)).1

/-! ### Explicit bounds -/

/-- The `wavedec` coefficients of data bounded by `M`: the level-`L` approximation is bounded by `‖decLo‖^L M`, the
details of level `s + 1` (at position `L - s` of the list) by `‖decHi‖ ‖decLo‖^s M`. -/
theorem c70_wavedec_bound (x : Tensor R) (w : Wavelet R) (mode : Option String) (level : Option Int)
    (axis : AxisHint) (cs : List (Tensor R)) (M : R) (hF : 2 ≤ w.len) (hhi : w.decHi.length = w.len)
    (hM : ∀ i, |x.get i| ≤ M) (hcs : wavedec x w mode level axis = .ok cs) :
    (∀ t, cs[0]? = some t → ∀ i, |t.get i| ≤ l1 w.decLo ^ (cs.length - 1) * M) ∧
    ∀ s d, s + 1 < cs.length → cs[cs.length - 1 - s]? = some d →
      ∀ i, |d.get i| ≤ l1 w.decHi * (l1 w.decLo ^ s * M) := by
  obtain ⟨m, -, h⟩ := c02_wavedec_textbook x w mode level axis cs hF hhi hcs
  have hM0 : 0 ≤ M := (abs_nonneg _).trans (hM [])
  have hL := h.length
  generalize levels level w.len (x.shape.getD (axis1 axis x.rank) 0) = L at h hL
  constructor
  · intro t ht i
    rw [hL, Nat.add_sub_cancel]
    refine get_le_of (mul_nonneg (pow_nonneg (l1_nonneg _) _) hM0) (fun i hi => ?_) i
    rw [(h.approx t ht).get i hi]
    exact cA_le (fun j => hM _) _ _
  · intro s d hs hd i
    rw [hL] at hs hd
    refine get_le_of (mul_nonneg (l1_nonneg _) (mul_nonneg (pow_nonneg (l1_nonneg _) _) hM0)) (fun i hi => ?_) i
    rw [(h.detail s d (by omega) (by simpa using hd)).get i hi]
    exact cD_le (fun j => hM _) _ _

/-- Two runs of `wavedec` on different data and with different taps: samples bounded by `M` and `δ` apart, taps with
norms at most `H` and `G` and `η` and `κ` apart. -/
theorem c70_wavedec_sensitivity (x x' : Tensor R) (w w' : Wavelet R) (mode : Option String) (level : Option Int)
    (axis : AxisHint) (cs cs' : List (Tensor R)) (M δ H η G κ : R) (hF : 2 ≤ w.len) (hhi : w.decHi.length = w.len)
    (hl : w'.decLo.length = w.decLo.length) (hh : w'.decHi.length = w.decHi.length)
    (hs : x'.shape = x.shape)
    (hM : ∀ i, |x'.get i| ≤ M) (hδ : ∀ i, |x.get i - x'.get i| ≤ δ)
    (hH : l1 w.decLo ≤ H) (hH' : l1 w'.decLo ≤ H) (hη : l1 (List.zipWith (· - ·) w.decLo w'.decLo) ≤ η)
    (hG : l1 w.decHi ≤ G) (hκ : l1 (List.zipWith (· - ·) w.decHi w'.decHi) ≤ κ)
    (hcs : wavedec x w mode level axis = .ok cs) (hcs' : wavedec x' w' mode level axis = .ok cs') :
    cs'.length = cs.length ∧
    (∀ t t', cs[0]? = some t → cs'[0]? = some t' → t'.shape = t.shape ∧
      ∀ i, |t.get i - t'.get i| ≤ H ^ (cs.length - 1) * δ + (cs.length - 1 : ℕ) * H ^ (cs.length - 2) * η * M) ∧
    ∀ s d d', s + 1 < cs.length → cs[cs.length - 1 - s]? = some d → cs'[cs.length - 1 - s]? = some d' →
      d'.shape = d.shape ∧
      ∀ i, |d.get i - d'.get i| ≤ G * (H ^ s * δ + s * H ^ (s - 1) * η * M) + κ * (H ^ s * M) := by
  have hlen : w'.len = w.len := hl
  have hr : x'.rank = x.rank := by unfold Tensor.rank; rw [hs]
  obtain ⟨m, h1, h⟩ := c02_wavedec_textbook x w mode level axis cs hF hhi hcs
  obtain ⟨m', h1', h'⟩ := c02_wavedec_textbook x' w' mode level axis cs' (by rw [hlen]; exact hF)
    (by rw [hh, hhi, hlen]) hcs'
  rw [hlen, hr, hs] at h1'
  rw [hlen, hr, hs] at h'
  have hM0 : 0 ≤ M := (abs_nonneg _).trans (hM [])
  have hL := h.length
  have hL' := h'.length
  generalize hLL : levels level w.len (x.shape.getD (axis1 axis x.rank) 0) = L at h h' hL hL' h1 h1'
  refine ⟨by rw [hL, hL'], ?_, ?_⟩
  · intro t t' ht ht'
    have ha := h.approx t ht
    have ha' := h'.approx t' ht'
    have hsh : t'.shape = t.shape := by rw [ha.shape, ha'.shape, hs, hlen]
    refine ⟨hsh, fun i => ?_⟩
    rw [hL, Nat.add_sub_cancel, show L + 1 - 2 = L - 1 from rfl]
    by_cases hi : InB t.shape i
    · rw [ha.get i hi, ha'.get i (hsh ▸ hi)]
      have key : ∀ k, |cA m w (x.shape.getD (axis1 axis x.rank) 0) (line x (axis1 axis x.rank) i) L k -
          cA m' w' (x'.shape.getD (axis1 axis x.rank) 0) (line x' (axis1 axis x.rank) i) L k| ≤
          H ^ L * δ + L * H ^ (L - 1) * η * M := by
        intro k
        rcases Nat.eq_zero_or_pos L with h0 | h0
        · subst h0
          simpa [cA, line] using hδ _
        · obtain rfl : m' = m := selects_unique (h1'.resolve_right (by omega)) (h1.resolve_right (by omega))
          rw [hs]
          exact cA_diff_le hl (fun j => hM _) (fun j => hδ _) hH hH' hη L k
      exact key _
    · rw [t.supp i hi, t'.supp i (hsh ▸ hi), sub_zero, abs_zero]
      have h0 : (0 : R) ≤ δ := (abs_nonneg _).trans (hδ [])
      have hH0 : 0 ≤ H := (l1_nonneg _).trans hH
      have hη0 : 0 ≤ η := (l1_nonneg _).trans hη
      positivity
  · intro s d d' hsl hd hd'
    rw [hL] at hsl hd hd'
    have hd := h.detail s d (by omega) (by simpa using hd)
    have hd' := h'.detail s d' (by omega) (by simpa using hd')
    have hsh : d'.shape = d.shape := by rw [hd.shape, hd'.shape, hs, hlen]
    refine ⟨hsh, fun i => ?_⟩
    by_cases hi : InB d.shape i
    · rw [hd.get i hi, hd'.get i (hsh ▸ hi)]
      obtain rfl : m' = m := selects_unique (h1'.resolve_right (by omega)) (h1.resolve_right (by omega))
      simp only [hs]
      exact cD_diff_le hl hh (fun j => hM _) (fun j => hδ _) hH hH' hη hG hκ s _
    · rw [d.supp i hi, d'.supp i (hsh ▸ hi), sub_zero, abs_zero]
      have h0 : (0 : R) ≤ δ := (abs_nonneg _).trans (hδ [])
      have hH0 : 0 ≤ H := (l1_nonneg _).trans hH
      have hη0 : 0 ≤ η := (l1_nonneg _).trans hη
      have hG0 : 0 ≤ G := (l1_nonneg _).trans hG
      have hκ0 : 0 ≤ κ := (l1_nonneg _).trans hκ
      positivity

/-- `waverec` of an approximation bounded by `A` and details bounded by `Ds` (coarsest first): every level multiplies
the bound by `‖recLo‖` and adds `‖recHi‖` times the bound of the details. -/
theorem c70_waverec_bound (w : Wavelet R) (F : Nat) (axis : AxisHint) (md : Meta) (S : List Nat) (c0 : Tensor R)
    (rest : List (Tensor R)) (z : Tensor R) (A : R) (Ds : List R) (hF : 2 ≤ F)
    (h0 : w.recLo.length = F) (h1 : w.recHi.length = F)
    (hg : GoodAxes axis S.length 1) (hdt : md.dtype = .float32 ∨ md.dtype = .float64)
    (hcs : SameBut (axis1 axis S.length) md S (c0 :: rest))
    (hc : Consistent F (c0.shape.getD (axis1 axis S.length) 0) (rest.map (·.shape.getD (axis1 axis S.length) 0)))
    (hA : ∀ i, |c0.get i| ≤ A) (hD : List.Forall₂ (fun d D => ∀ i, |d.get i| ≤ D) rest Ds)
    (hz : waverec (c0 :: rest) w axis = .ok z) (i : List Nat) :
    |z.get i| ≤ idwtBound (l1 w.recLo) (l1 w.recHi) A Ds := by
  obtain ⟨z', e, -, -, hget⟩ := c13_waverec_textbook w F axis md S c0 rest hF h0 h1 hg hdt hcs hc
  rw [hz] at e
  cases e
  have key : ∀ i k, |idwt w.recLo w.recHi F (line c0 (axis1 axis S.length) i)
      (rest.map fun c => (c.shape.getD (axis1 axis S.length) 0, line c (axis1 axis S.length) i)) k| ≤
      idwtBound (l1 w.recLo) (l1 w.recHi) A Ds := fun i k => by
    refine idwt_le _ _ F _ Ds (fun k => hA _) ?_ k
    rw [List.forall₂_map_left_iff]
    exact hD.imp fun _ _ h k => h _
  exact get_le_of ((abs_nonneg _).trans (key [] 0)) (fun i hi => by rw [hget i hi]; exact key i _) i

/-- Changing the coefficients by at most `A` and `Ds` changes the result of `waverec` by at most the same bound. -/
theorem c70_waverec_sensitivity (w : Wavelet R) (F : Nat) (axis : AxisHint) (md : Meta) (S : List Nat)
    (c0 c0' : Tensor R) (rest rest' : List (Tensor R)) (z z' : Tensor R) (A : R) (Ds : List R) (hF : 2 ≤ F)
    (h0 : w.recLo.length = F) (h1 : w.recHi.length = F)
    (hg : GoodAxes axis S.length 1) (hdt : md.dtype = .float32 ∨ md.dtype = .float64)
    (hcs : SameBut (axis1 axis S.length) md S (c0 :: rest)) (hcs' : SameBut (axis1 axis S.length) md S (c0' :: rest'))
    (hc : Consistent F (c0.shape.getD (axis1 axis S.length) 0) (rest.map (·.shape.getD (axis1 axis S.length) 0)))
    (hsh : (c0' :: rest').map (·.shape) = (c0 :: rest).map (·.shape))
    (hA : ∀ i, |c0.get i - c0'.get i| ≤ A)
    (hD : List.Forall₂ (fun (d : Tensor R × Tensor R) D => ∀ i, |d.1.get i - d.2.get i| ≤ D) (rest.zip rest') Ds)
    (hz : waverec (c0 :: rest) w axis = .ok z) (hz' : waverec (c0' :: rest') w axis = .ok z') :
    z'.shape = z.shape ∧ ∀ i, |z.get i - z'.get i| ≤ idwtBound (l1 w.recLo) (l1 w.recHi) A Ds := by
  simp only [List.map_cons, List.cons.injEq] at hsh
  obtain ⟨hsh0, hsh⟩ := hsh
  have hsz : rest'.map (·.shape.getD (axis1 axis S.length) 0) = rest.map (·.shape.getD (axis1 axis S.length) 0) := by
    have := congrArg (List.map fun s : List Nat => s.getD (axis1 axis S.length) 0) hsh
    simpa [Function.comp_def] using this
  obtain ⟨u, e, -, hs, hget⟩ := c13_waverec_textbook w F axis md S c0 rest hF h0 h1 hg hdt hcs hc
  rw [hz] at e
  cases e
  obtain ⟨u, e, -, hs', hget'⟩ := c13_waverec_textbook w F axis md S c0' rest' hF h0 h1 hg hdt hcs'
    (by rw [hsh0, hsz]; exact hc)
  rw [hz'] at e
  cases e
  have hshape : z'.shape = z.shape := by rw [hs, hs', hsh0, hsz]
  have key : ∀ i k, |idwt w.recLo w.recHi F (line c0 (axis1 axis S.length) i)
      (rest.map fun c => (c.shape.getD (axis1 axis S.length) 0, line c (axis1 axis S.length) i)) k -
      idwt w.recLo w.recHi F (line c0' (axis1 axis S.length) i)
      (rest'.map fun c => (c.shape.getD (axis1 axis S.length) 0, line c (axis1 axis S.length) i)) k| ≤
      idwtBound (l1 w.recLo) (l1 w.recHi) A Ds := fun i k => by
    refine idwt_diff_le _ _ F _ _ Ds (fun k => hA _) ?_ ?_ k
    · simpa [List.map_map, Function.comp_def] using hsz
    · rw [List.zip_map, List.forall₂_map_left_iff]
      exact hD.imp fun _ _ h k => h _
  refine ⟨hshape, fun i => ?_⟩
  by_cases hi : InB z.shape i
  · rw [hget i hi, hget' i (hshape ▸ hi)]
    exact key i _
  · rw [z.supp i hi, z'.supp i (hshape ▸ hi), sub_zero, abs_zero]
    exact (abs_nonneg _).trans (key [] 0)

/-- The `wavedec2` coefficients of data bounded by `M`. -/
theorem c70_wavedec2_bound (x : Tensor R) (w : Wavelet R) (mode : Option String) (level : Option Int)
    (axes : AxisHint) (c : Coeffs R) (M : R) (hF : 2 ≤ w.len) (hhi : w.decHi.length = w.len)
    (hM : ∀ i, |x.get i| ≤ M) (hc : wavedec2 x w mode level axes = .ok c) :
    (∃ t, c.items[0]? = some (.tensor t) ∧ ∀ i, |t.get i| ≤ (l1 w.decLo ^ 2) ^ (c.items.length - 1) * M) ∧
    ∀ s, s + 1 < c.items.length → ∃ h v d, c.items[c.items.length - 1 - s]? = some (.tuple h v d) ∧
      (∀ i, |h.get i| ≤ l1 w.decHi * l1 w.decLo * ((l1 w.decLo ^ 2) ^ s * M)) ∧
      (∀ i, |v.get i| ≤ l1 w.decHi * l1 w.decLo * ((l1 w.decLo ^ 2) ^ s * M)) ∧
      ∀ i, |d.get i| ≤ l1 w.decHi * l1 w.decHi * ((l1 w.decLo ^ 2) ^ s * M) := by
  obtain ⟨hg, -, m, -, -, h⟩ := wavedec2_ok hF hhi hc
  have hax : (axesOf axes x.rank 2).length = 2 := by simpa [axesOf] using hg.len
  have hL := h.length
  generalize levelsN level w.len (sizes (axesOf axes x.rank 2) x.shape) = L at h hL
  refine ⟨?_, fun s hs => ?_⟩
  · obtain ⟨t, ht, ha⟩ := h.approx
    refine ⟨t, ht, fun i => ?_⟩
    rw [hL, Nat.add_sub_cancel]
    simpa [hax] using isApprox_le hM ha i
  · rw [hL] at hs ⊢
    obtain ⟨e, he, a, b, d, rfl, h1, h2, h3⟩ := h.detail s (by omega)
    refine ⟨a, b, d, by simpa using he, fun i => ?_, fun i => ?_, fun i => ?_⟩
    · simpa [hax, bandNorms] using isBand_le hM (by simp [hax]) h1 i
    · have := isBand_le hM (by simp [hax]) h2 i
      rw [mul_comm (l1 w.decHi)]
      simpa [hax, bandNorms] using this
    · simpa [hax, bandNorms] using isBand_le hM (by simp [hax]) h3 i

/-- The `wavedec3` coefficients of data bounded by `M`: the letters of a key tell the filters. -/
theorem c70_wavedec3_bound (x : Tensor R) (w : Wavelet R) (mode : Option String) (level : Option Int)
    (axes : AxisHint) (c : Coeffs R) (M : R) (hF : 2 ≤ w.len) (hhi : w.decHi.length = w.len)
    (hL : 0 < levelsN level w.len (sizes (axesOf axes x.rank 3) x.shape))
    (hM : ∀ i, |x.get i| ≤ M) (hc : wavedec3 x w mode level axes = .ok c) :
    (∃ t, c.items[0]? = some (.tensor t) ∧ ∀ i, |t.get i| ≤ (l1 w.decLo ^ 3) ^ (c.items.length - 1) * M) ∧
    ∀ s, s + 1 < c.items.length → ∃ kv, c.items[c.items.length - 1 - s]? = some (.dict kv) ∧
      kv.map Prod.fst = keys3 ∧
      ∀ q ∈ kv, ∀ i, |q.2.get i| ≤ (bandNorms w (bandOfKey q.1)).prod * ((l1 w.decLo ^ 3) ^ s * M) := by
  obtain ⟨hg, -, m, -, -, h⟩ := wavedec3_ok hF hhi hL hc
  have hax : (axesOf axes x.rank 3).length = 3 := by simpa [axesOf] using hg.len
  have hL := h.length
  generalize levelsN level w.len (sizes (axesOf axes x.rank 3) x.shape) = L at h hL
  refine ⟨?_, fun s hs => ?_⟩
  · obtain ⟨t, ht, ha⟩ := h.approx
    refine ⟨t, ht, fun i => ?_⟩
    rw [hL, Nat.add_sub_cancel]
    simpa [hax] using isApprox_le hM ha i
  · rw [hL] at hs ⊢
    obtain ⟨e, he, kv, rfl, hk, hq⟩ := h.detail s (by omega)
    refine ⟨kv, by simpa using he, hk, fun q hqm i => ?_⟩
    have hb : (bandOfKey q.1).length = 3 := by
      have : q.1 ∈ keys3 := hk ▸ List.mem_map_of_mem hqm
      revert this
      generalize q.1 = k
      intro hk
      fin_cases hk <;> rfl
    simpa [hax] using isBand_le hM (by rw [hax, hb]) (hq q hqm) i

end ring

/-- The inverse stationary transform divides, so the numbers have to form a field. -/
theorem c70_iswt_dominated [Field R] [LinearOrder R] [IsStrictOrderedRing R] {xs ys : List (Tensor R)}
    {w v : Wavelet R} (hx : List.Forall₂ (TRel Dom) xs ys) (hw : WRel Dom w v) (axis : AxisHint) :
    Two (TRel Dom) (iswt xs w axis) (iswt ys v axis) :=
  rel_iswt closed_dom (fun {a b} n h => by
    unfold Dom at *
    rw [abs_div, Nat.abs_cast]
    exact div_le_div_of_nonneg_right h (Nat.cast_nonneg n)) hx hw axis

/-! ### Non-vacuity -/

theorem haar_norms : l1 haar.decLo = 1 ∧ l1 haar.decHi = 1 ∧ l1 haar.recLo = 2 ∧ l1 haar.recHi = 2 := by
  refine ⟨?_, ?_, ?_, ?_⟩ <;> norm_num [l1, haar, abs_of_pos, abs_of_neg]

theorem exX_le (i : List Nat) : |exX.get i| ≤ 12 := by
  refine get_le_of (by norm_num) (fun i hi => ?_) i
  show |(ofFn _ _ _ : Tensor ℚ).get i| ≤ 12
  rw [ofFn_get, if_pos (show InB [3, 2] i from hi)]
  have h1 : i.getD 0 0 ≤ 2 := by
    have := InB.getD_lt (s := [3, 2]) hi (d := 0) (by decide)
    exact Nat.le_of_lt_succ this
  have h2 : i.getD 1 0 ≤ 1 := by
    have := InB.getD_lt (s := [3, 2]) hi (d := 1) (by decide)
    exact Nat.le_of_lt_succ this
  rw [abs_of_nonneg (by positivity)]
  have h1 : (i.getD 0 0 : ℚ) ≤ 2 := by exact_mod_cast h1
  have h2 : (i.getD 1 0 : ℚ) ≤ 1 := by exact_mod_cast h2
  linarith

/-- Averages of samples bounded by 12 are bounded by 12, on both levels. -/
example : ∃ cs t, wavedec exX haar (some "symmetric") (some 2) (.int (-2)) = .ok cs ∧ cs[0]? = some t ∧
    ∀ i, |t.get i| ≤ 12 := by
  obtain ⟨cs, hcs⟩ := ex_wavedec
  obtain ⟨m, -, hd⟩ := c02_wavedec_textbook exX haar _ _ _ cs (by decide) rfl hcs
  obtain ⟨h1, -⟩ := c70_wavedec_bound exX haar _ _ _ cs 12 (by decide) rfl exX_le hcs
  have hlen : 0 < cs.length := by rw [hd.length]; omega
  refine ⟨cs, cs[0], hcs, List.getElem?_eq_getElem hlen, fun i => ?_⟩
  have := h1 _ (List.getElem?_eq_getElem hlen) i
  rwa [haar_norms.1, one_pow, one_mul] at this

/-- A bank whose second low-pass tap is off by `1/100`. -/
def haarOff : Wavelet ℚ := ⟨[1/2, 49/100], [-1/2, 1/2], [1, 1], [1, -1]⟩

/-- The effect of the wrong tap on the approximation after two levels is at most `2 · 1/100 · 12`. -/
example : ∃ cs cs' t t', wavedec exX haar (some "symmetric") (some 2) (.int (-2)) = .ok cs ∧
    wavedec exX haarOff (some "symmetric") (some 2) (.int (-2)) = .ok cs' ∧ cs[0]? = some t ∧ cs'[0]? = some t' ∧
    ∀ i, |t.get i - t'.get i| ≤ 24 / 100 := by
  obtain ⟨cs, hcs⟩ := ex_wavedec
  obtain ⟨cs', hcs'⟩ := c04_total_modes exX haarOff _ .symmetric (some 2) _ (Or.inl rfl) (by decide) rfl exX_axes
    (Or.inr rfl) (by decide) (Or.inr (Or.inr rfl))
  obtain ⟨m, -, hd⟩ := c02_wavedec_textbook exX haar _ _ _ cs (by decide) rfl hcs
  obtain ⟨hl, h1, -⟩ := c70_wavedec_sensitivity exX exX haar haarOff _ _ _ cs cs' 12 0 1 (1/100) 1 0 (by decide) rfl
    rfl rfl rfl exX_le (fun i => by simp) haar_norms.1.le
    (by norm_num [l1, haarOff, abs_of_pos]) (by norm_num [l1, haarOff, haar, abs_of_pos]) haar_norms.2.1.le
    (by norm_num [l1, haarOff, haar]) hcs hcs'
  have hlen : cs.length = 3 := hd.length
  obtain ⟨t, h0⟩ : ∃ t, cs[0]? = some t := ⟨_, List.getElem?_eq_getElem (by omega)⟩
  obtain ⟨t', h0'⟩ : ∃ t, cs'[0]? = some t := ⟨_, List.getElem?_eq_getElem (by omega)⟩
  refine ⟨cs, cs', _, _, hcs, hcs', h0, h0', fun i => ?_⟩
  have := (h1 _ _ h0 h0').2 i
  rw [hlen] at this
  norm_num at this ⊢
  linarith

end Verif.Props
