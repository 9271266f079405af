/-
Property C78: band-wise reconstruction.
-/
import Verif.Spec.Bands
import Verif.Props.LinN
import Verif.Props.ConvNd
import Verif.Props.Sep
import Verif.Props.Swt

namespace Verif.Props
open Tensor Spec
variable {R : Type}

section weights
variable [CommRing R]

theorem lin_scaleT (a b : R) (t : Tensor R) : Lin 1 (scaleT a t) (scaleT b t) (scaleT (a + b) t) :=
  Lin.ofFn _ _ fun i => by ring

theorem scaleT_one (t : Tensor R) : scaleT 1 t = t := by
  refine Tensor.ext' rfl rfl ?_
  intro i hi
  unfold scaleT
  rw [ofFn_get_of _ _ (show InB t.shape i from hi), one_mul]

theorem lin_weightList (m m' : Nat → R) : ∀ (k : Nat) (ts : List (Tensor R)),
    Forall₃ (Lin 1) (weightList m k ts) (weightList m' k ts) (weightList (fun j => m j + m' j) k ts)
  | _, [] => .nil
  | k, t :: ts => .cons (lin_scaleT _ _ t) (lin_weightList m m' (k + 1) ts)

theorem weightList_one {m : Nat → R} : ∀ {k : Nat} {ts : List (Tensor R)},
    (∀ j, k ≤ j → j < k + ts.length → m j = 1) → weightList m k ts = ts
  | _, [], _ => rfl
  | k, t :: ts, h => by
    unfold weightList
    rw [h k le_rfl (by simp), scaleT_one, weightList_one fun j h1 h2 => h j (by omega) (by
      simp only [List.length_cons]; omega)]

theorem lin_weightEntry (m m' : Place → R) (e : Entry R) :
    Entry3 (Lin 1) (weightEntry m e) (weightEntry m' e) (weightEntry (fun p => m p + m' p) e) := by
  cases e with
  | tensor t => exact .tensor (lin_scaleT _ _ t)
  | tuple a b c => exact .tuple (lin_scaleT _ _ a) (lin_scaleT _ _ b) (lin_scaleT _ _ c)
  | dict kv =>
    refine .dict ?_
    induction kv with
    | nil => exact .nil
    | cons p kv ih => exact .cons ⟨rfl, rfl, lin_scaleT _ _ p.2⟩ ih
  | other => exact .other

theorem weightEntry_one {m : Place → R} (h : ∀ p, m p = 1) (e : Entry R) : weightEntry m e = e := by
  cases e with
  | tensor t => simp only [weightEntry, h, scaleT_one]
  | tuple a b c => simp only [weightEntry, h, scaleT_one]
  | dict kv => simp only [weightEntry, h, scaleT_one, Prod.mk.eta, List.map_id']
  | other => rfl

theorem lin_weightItems (m m' : Nat → Place → R) : ∀ (k : Nat) (es : List (Entry R)),
    Forall₃ (Entry3 (Lin 1)) (weightItems m k es) (weightItems m' k es)
      (weightItems (fun j p => m j p + m' j p) k es)
  | _, [] => .nil
  | k, e :: es => .cons (lin_weightEntry _ _ e) (lin_weightItems m m' (k + 1) es)

theorem weightItems_one {m : Nat → Place → R} : ∀ {k : Nat} {es : List (Entry R)},
    (∀ j p, k ≤ j → j < k + es.length → m j p = 1) → weightItems m k es = es
  | _, [], _ => rfl
  | k, e :: es, h => by
    unfold weightItems
    rw [weightEntry_one (fun p => h k p le_rfl (by simp)), weightItems_one fun j p h1 h2 => h j p (by omega) (by
      simp only [List.length_cons]; omega)]

theorem lin_weightCoeffs (m m' : Nat → Place → R) (c : Coeffs R) :
    Coeffs3 (Lin 1) (weightCoeffs m c) (weightCoeffs m' c) (weightCoeffs (fun j p => m j p + m' j p) c) :=
  ⟨rfl, rfl, lin_weightItems m m' 0 c.items⟩

theorem weightCoeffs_one {m : Nat → Place → R} {c : Coeffs R} (h : ∀ j p, j < c.items.length → m j p = 1) :
    weightCoeffs m c = c := by
  unfold weightCoeffs
  rw [weightItems_one fun j p _ h2 => h j p (by omega)]

/-- A family of calls, additive in its parameter: sums of parameters give sums of results. -/
theorem superpose {M : Type} [AddCommGroup M] {f : M → Except Err (Tensor R)}
    (hf : ∀ a b, Three (Lin (1 : R)) (f a) (f b) (f (a + b))) {ms : List M} :
    (∀ e, f ms.sum = .error e → ∀ a ∈ ms, f a = .error e) ∧
    (∀ z, f ms.sum = .ok z → ∃ zs, ms.map f = zs.map .ok ∧ IsSum zs z) := by
  have key : ∀ a b, (∀ e, f a = .error e → f b = .error e) ∧
      ∀ x, f a = .ok x → ∃ y, f b = .ok y ∧ y.md = x.md ∧ y.shape = x.shape := by
    intro a b
    have h1 := hf a (b - a)
    rw [add_sub_cancel] at h1
    generalize f (b - a) = u at h1
    constructor
    · intro e he
      rw [he] at h1
      cases hb : f b with
      | ok y => rw [hb] at h1; cases h1
      | error e' => rw [hb] at h1; cases h1; rfl
    · intro x hx
      rw [hx] at h1
      cases hb : f b with
      | error e => rw [hb] at h1; cases h1
      | ok y =>
        rw [hb] at h1
        cases h1 with
        | ok h => exact ⟨y, rfl, h.md₂, h.shape₂⟩
  refine ⟨fun e he a _ => (key _ a).1 e he, ?_⟩
  induction ms with
  | nil =>
    intro z hz
    refine ⟨[], rfl, by simp, ?_⟩
    intro i
    have h := hf 0 0
    rw [add_zero] at h
    rw [show ([] : List M).sum = 0 from rfl] at hz
    rw [hz] at h
    cases h with
    | ok h =>
      have := h.get i
      rw [one_mul] at this
      simp at this
      simp [this]
  | cons a ms ih =>
    intro z hz
    rw [List.sum_cons] at hz
    have h := hf a ms.sum
    obtain ⟨x, hx, hxm, hxs⟩ := (key _ a).2 z hz
    obtain ⟨y, hy, hym, hys⟩ := (key _ ms.sum).2 z hz
    rw [hx, hy, hz] at h
    obtain ⟨zs, h1, h2⟩ := ih y hy
    cases h with
    | ok h =>
      refine ⟨x :: zs, by simp [hx, h1], ?_, ?_⟩
      · intro t ht
        rcases List.mem_cons.mp ht with rfl | ht
        · exact ⟨hxm, hxs⟩
        · obtain ⟨t1, t2⟩ := h2.forms t ht
          exact ⟨t1.trans hym, t2.trans hys⟩
      · intro i
        rw [List.map_cons, List.sum_cons, h2.get, h.get, one_mul]

theorem sum_apply1 {α : Type} (ms : List (α → R)) (j : α) : ms.sum j = (ms.map (· j)).sum := by
  induction ms with
  | nil => rfl
  | cons a ms ih => rw [List.sum_cons, List.map_cons, List.sum_cons, Pi.add_apply, ih]

theorem sum_apply2 {α β : Type} (ms : List (α → β → R)) (j : α) (p : β) :
    ms.sum j p = (ms.map (fun m => m j p)).sum := by
  induction ms with
  | nil => rfl
  | cons a ms ih => rw [List.sum_cons, List.map_cons, List.sum_cons, Pi.add_apply, Pi.add_apply, ih]

theorem bands_list {f : List (Tensor R) → Except Err (Tensor R)}
    (hf : ∀ a b d, Forall₃ (Lin (1 : R)) a b d → Three (Lin 1) (f a) (f b) (f d)) (cs : List (Tensor R))
    (ms : List (Nat → R)) (hm : ∀ k, k < cs.length → (ms.map fun m => m k).sum = 1) :
    (∀ e, f cs = .error e → ∀ m ∈ ms, f (weightList m 0 cs) = .error e) ∧
    (∀ z, f cs = .ok z → ∃ zs, ms.map (fun m => f (weightList m 0 cs)) = zs.map .ok ∧ IsSum zs z) := by
  have h := superpose (f := fun m => f (weightList m 0 cs)) (ms := ms)
    fun a b => hf _ _ _ (lin_weightList a b 0 cs)
  have e : weightList ms.sum 0 cs = cs := weightList_one fun j _ hj => by
    rw [sum_apply1]; exact hm j (by omega)
  simp only [e] at h
  exact h

theorem bands_coeffs {f : Coeffs R → Except Err (Tensor R)}
    (hf : ∀ a b d, Coeffs3 (Lin (1 : R)) a b d → Three (Lin 1) (f a) (f b) (f d)) (c : Coeffs R)
    (ms : List (Nat → Place → R)) (hm : ∀ k p, k < c.items.length → (ms.map fun m => m k p).sum = 1) :
    (∀ e, f c = .error e → ∀ m ∈ ms, f (weightCoeffs m c) = .error e) ∧
    (∀ z, f c = .ok z → ∃ zs, ms.map (fun m => f (weightCoeffs m c)) = zs.map .ok ∧ IsSum zs z) := by
  have h := superpose (f := fun m => f (weightCoeffs m c)) (ms := ms)
    fun a b => hf _ _ _ (lin_weightCoeffs a b c)
  have e : weightCoeffs ms.sum c = c := weightCoeffs_one fun j p hj => by
    rw [sum_apply2]; exact hm j p hj
  simp only [e] at h
  exact h

/-- **C78.** `waverec`: reconstruct any number of weighted copies of the coefficients; if the weights of every band add up
to one, the reconstructions add up to the reconstruction of the coefficients themselves (or all calls raise the same
exception).  In particular keeping one band at a time and zeroing the others splits a signal into components. -/
theorem c78_waverec (cs : List (Tensor R)) (w : Wavelet R) (axis : AxisHint) (ms : List (Nat → R))
    (hm : ∀ k, k < cs.length → (ms.map fun m => m k).sum = 1) :
    (∀ e, waverec cs w axis = .error e → ∀ m ∈ ms, waverec (weightList m 0 cs) w axis = .error e) ∧
    (∀ z, waverec cs w axis = .ok z →
      ∃ zs, ms.map (fun m => waverec (weightList m 0 cs) w axis) = zs.map .ok ∧ IsSum zs z) :=
  bands_list (f := fun cs => waverec cs w axis) (fun _ _ _ h => c05_waverec_linear 1 _ _ _ h w axis) cs ms hm

/-- **C78.** The same for `waverec2`, with a weight for each of the three details of a level. -/
theorem c78_waverec2 (c : Coeffs R) (w : Wavelet R) (axes : AxisHint) (ms : List (Nat → Place → R))
    (hm : ∀ k p, k < c.items.length → (ms.map fun m => m k p).sum = 1) :
    (∀ e, waverec2 c w axes = .error e → ∀ m ∈ ms, waverec2 (weightCoeffs m c) w axes = .error e) ∧
    (∀ z, waverec2 c w axes = .ok z →
      ∃ zs, ms.map (fun m => waverec2 (weightCoeffs m c) w axes) = zs.map .ok ∧ IsSum zs z) :=
  bands_coeffs (f := fun c => waverec2 c w axes) (fun _ _ _ h => c54_waverec2 _ _ _ h w axes) c ms hm

/-- **C78.** The same for `waverec3`, with a weight for each key. -/
theorem c78_waverec3 (c : Coeffs R) (w : Wavelet R) (axes : AxisHint) (ms : List (Nat → Place → R))
    (hm : ∀ k p, k < c.items.length → (ms.map fun m => m k p).sum = 1) :
    (∀ e, waverec3 c w axes = .error e → ∀ m ∈ ms, waverec3 (weightCoeffs m c) w axes = .error e) ∧
    (∀ z, waverec3 c w axes = .ok z →
      ∃ zs, ms.map (fun m => waverec3 (weightCoeffs m c) w axes) = zs.map .ok ∧ IsSum zs z) :=
  bands_coeffs (f := fun c => waverec3 c w axes) (fun _ _ _ h => c54_waverec3 _ _ _ h w axes) c ms hm

/-- **C78.** The same for `fswaverec2` and `fswaverec3`. -/
theorem c78_fswaverec (n : Nat) (c : Coeffs R) (w : Wavelet R) (axes : AxisHint) (ms : List (Nat → Place → R))
    (hm : ∀ k p, k < c.items.length → (ms.map fun m => m k p).sum = 1) :
    (∀ e, (fswaverecn c w n axes).1 = .error e → ∀ m ∈ ms, (fswaverecn (weightCoeffs m c) w n axes).1 = .error e) ∧
    (∀ z, (fswaverecn c w n axes).1 = .ok z →
      ∃ zs, ms.map (fun m => (fswaverecn (weightCoeffs m c) w n axes).1) = zs.map .ok ∧ IsSum zs z) :=
  bands_coeffs (f := fun c => (fswaverecn c w n axes).1) (fun _ _ _ h => (c54_fswaverec n _ _ _ h w axes).1) c ms hm

end weights

section field
variable [Field R]

/-- **C78.** The same for `iswt`. -/
theorem c78_iswt (cs : List (Tensor R)) (w : Wavelet R) (axis : AxisHint) (ms : List (Nat → R))
    (hm : ∀ k, k < cs.length → (ms.map fun m => m k).sum = 1) :
    (∀ e, iswt cs w axis = .error e → ∀ m ∈ ms, iswt (weightList m 0 cs) w axis = .error e) ∧
    (∀ z, iswt cs w axis = .ok z →
      ∃ zs, ms.map (fun m => iswt (weightList m 0 cs) w axis) = zs.map .ok ∧ IsSum zs z) :=
  bands_list (f := fun cs => iswt cs w axis) (fun _ _ _ h => c54_iswt _ _ _ h w axis) cs ms hm

variable [DecidableEq R]

/-- **C78.** The same for calls of a `MatrixWaverec` object in any state. -/
theorem c78_matrix_waverec (la : LinAlg R) (cfg : RecCfg R) (st : RecState R) (cs : List (Tensor R))
    (ms : List (Nat → R)) (hm : ∀ k, k < cs.length → (ms.map fun m => m k).sum = 1) :
    (∀ e, (recCall la cfg st cs).1 = .error e → ∀ m ∈ ms, (recCall la cfg st (weightList m 0 cs)).1 = .error e) ∧
    (∀ z, (recCall la cfg st cs).1 = .ok z →
      ∃ zs, ms.map (fun m => (recCall la cfg st (weightList m 0 cs)).1) = zs.map .ok ∧ IsSum zs z) :=
  bands_list (f := fun cs => (recCall la cfg st cs).1) (fun _ _ _ h => (c54_matrix_waverec la cfg st _ _ _ h).out)
    cs ms hm

/-- **C78.** The same for calls of a `MatrixWaverec2` or `MatrixWaverec3` object in any state. -/
theorem c78_matrix_waverec_nd (n : Nat) (la : LinAlg R) (cfg : RecCfgN R) (st : RecStateN R) (c : Coeffs R)
    (ms : List (Nat → Place → R)) (hm : ∀ k p, k < c.items.length → (ms.map fun m => m k p).sum = 1) :
    (∀ e, (recCallN n la cfg st c).1 = .error e → ∀ m ∈ ms, (recCallN n la cfg st (weightCoeffs m c)).1 = .error e) ∧
    (∀ z, (recCallN n la cfg st c).1 = .ok z →
      ∃ zs, ms.map (fun m => (recCallN n la cfg st (weightCoeffs m c)).1) = zs.map .ok ∧ IsSum zs z) :=
  bands_coeffs (f := fun c => (recCallN n la cfg st c).1)
    (fun _ _ _ h => (c54_matrix_waverec_nd n la cfg st _ _ _ h).out) c ms hm

end field


/-! ### Splitting a signal into components -/

section roundtrip
variable [Field R] [CharZero R]

/-- **C78.** Decompose a signal, weight the bands in several ways whose weights add up to one, and reconstruct each: the
components add up to the signal, for every perfect reconstruction bank. -/
theorem c78_components (x : Tensor R) (w : Wavelet R) (F : Nat) (mode : Option String) (level : Option Int)
    (axis : AxisHint) (cs : List (Tensor R)) (ms : List (Nat → R)) (hw : PRBank w F) (hF : 2 ≤ F) (he : F % 2 = 0)
    (hcs : wavedec x w mode level axis = .ok cs)
    (hm : ∀ k, k < cs.length → (ms.map fun m => m k).sum = 1) :
    ∃ zs : List (Tensor R), ms.map (fun m => waverec (weightList m 0 cs) w axis) = zs.map .ok ∧
      ∀ i, InB x.shape i → (zs.map fun t => t.get i).sum = x.get i := by
  obtain ⟨z, hz, -, -, -, -, hg⟩ := c01_perfect_reconstruction x w F mode level axis cs hw hF he hcs
  obtain ⟨zs, h1, h2⟩ := (c78_waverec cs w axis ms hm).2 z hz
  exact ⟨zs, h1, fun i hi => (h2.get i).trans (hg i hi)⟩

/-- **C78.** The same for `wavedec2` and `waverec2`. -/
theorem c78_components2 (x : Tensor R) (w : Wavelet R) (F : Nat) (mode : Option String) (level : Option Int)
    (axes : AxisHint) (c : Coeffs R) (ms : List (Nat → Place → R)) (hw : PRBank w F) (hF : 2 ≤ F) (he : F % 2 = 0)
    (hc : wavedec2 x w mode level axes = .ok c)
    (hm : ∀ k p, k < c.items.length → (ms.map fun m => m k p).sum = 1) :
    ∃ zs : List (Tensor R), ms.map (fun m => waverec2 (weightCoeffs m c) w axes) = zs.map .ok ∧
      ∀ i, InB x.shape i → (zs.map fun t => t.get i).sum = x.get i := by
  obtain ⟨z, hz, hr⟩ := c15_perfect_reconstruction x w F mode level axes c hw hF he hc
  obtain ⟨zs, h1, h2⟩ := (c78_waverec2 c w axes ms hm).2 z hz
  exact ⟨zs, h1, fun i hi => (h2.get i).trans (hr.get i hi)⟩

/-- **C78.** The same for `wavedec3` and `waverec3`. -/
theorem c78_components3 (x : Tensor R) (w : Wavelet R) (F : Nat) (mode : Option String) (level : Option Int)
    (axes : AxisHint) (c : Coeffs R) (ms : List (Nat → Place → R)) (hw : PRBank w F) (hF : 2 ≤ F) (he : F % 2 = 0)
    (hL : 0 < levelsN level F (sizes (axesOf axes x.rank 3) x.shape))
    (hc : wavedec3 x w mode level axes = .ok c)
    (hm : ∀ k p, k < c.items.length → (ms.map fun m => m k p).sum = 1) :
    ∃ zs : List (Tensor R), ms.map (fun m => waverec3 (weightCoeffs m c) w axes) = zs.map .ok ∧
      ∀ i, InB x.shape i → (zs.map fun t => t.get i).sum = x.get i := by
  obtain ⟨z, hz, hr⟩ := c17_perfect_reconstruction x w F mode level axes c hw hF he hL hc
  obtain ⟨zs, h1, h2⟩ := (c78_waverec3 c w axes ms hm).2 z hz
  exact ⟨zs, h1, fun i hi => (h2.get i).trans (hr.get i hi)⟩

/-- **C78.** The same for `fswavedec2` and `fswaverec2`. -/
theorem c78_components_fs2 (x : Tensor R) (w : Wavelet R) (F : Nat) (mode : Option String)
    (level : Option Int) (axes : AxisHint) (c : Coeffs R) (ms : List (Nat → Place → R)) (hw : PRBank w F) (hF : 2 ≤ F)
    (he : F % 2 = 0) (hc : fswavedec2 x w mode level axes = .ok c)
    (hm : ∀ k p, k < c.items.length → (ms.map fun m => m k p).sum = 1) :
    ∃ zs : List (Tensor R), ms.map (fun m => (fswaverec2 (weightCoeffs m c) w axes).1) = zs.map .ok ∧
      ∀ i, InB x.shape i → (zs.map fun t => t.get i).sum = x.get i := by
  obtain ⟨z, hz, hr⟩ := c20_perfect_reconstruction_2d x w F mode level axes c hw hF he hc
  obtain ⟨zs, h1, h2⟩ := (c78_fswaverec 2 c w axes ms hm).2 z hz
  exact ⟨zs, h1, fun i hi => (h2.get i).trans (hr.get i hi)⟩

/-- **C78.** The same for `fswavedec3` and `fswaverec3`. -/
theorem c78_components_fs3 (x : Tensor R) (w : Wavelet R) (F : Nat) (mode : Option String)
    (level : Option Int) (axes : AxisHint) (c : Coeffs R) (ms : List (Nat → Place → R)) (hw : PRBank w F) (hF : 2 ≤ F)
    (he : F % 2 = 0) (hc : fswavedec3 x w mode level axes = .ok c)
    (hm : ∀ k p, k < c.items.length → (ms.map fun m => m k p).sum = 1) :
    ∃ zs : List (Tensor R), ms.map (fun m => (fswaverec3 (weightCoeffs m c) w axes).1) = zs.map .ok ∧
      ∀ i, InB x.shape i → (zs.map fun t => t.get i).sum = x.get i := by
  obtain ⟨z, hz, hr⟩ := c20_perfect_reconstruction_3d x w F mode level axes c hw hF he hc
  obtain ⟨zs, h1, h2⟩ := (c78_fswaverec 3 c w axes ms hm).2 z hz
  exact ⟨zs, h1, fun i hi => (h2.get i).trans (hr.get i hi)⟩

/-- **C78.** The same for `swt` with the default level and `iswt`; here the components have the shape of the signal. -/
theorem c78_components_swt (x : Tensor R) (w : Wavelet R) (F : Nat) (axis : AxisHint) (cs : List (Tensor R))
    (ms : List (Nat → R)) (hl : HasLen w F) (hd : NoDistortion w F) (hF : 2 ≤ F) (he : F % 2 = 0)
    (hg : GoodAxes axis x.rank 1) (hdt : x.md.dtype = .float32 ∨ x.md.dtype = .float64)
    (hn : 0 < x.shape.getD (axis1 axis x.rank) 0) (hcs : swt x w none axis = .ok cs)
    (hm : ∀ k, k < cs.length → (ms.map fun m => m k).sum = 1) :
    ∃ zs : List (Tensor R), ms.map (fun m => iswt (weightList m 0 cs) w axis) = zs.map .ok ∧ IsSum zs x := by
  obtain ⟨cs', h1, h2⟩ := c23_default_level x w F axis hl hd hF he hg hdt hn
  rw [hcs] at h1
  obtain rfl := Except.ok.inj h1
  exact (c78_iswt cs w axis ms hm).2 x h2

end roundtrip

/-! ### The hypotheses are met: one band at a time -/

/-- Weights that keep the band `j` and remove the others, for all bands. -/
def oneBand [Zero R] [One R] (n : Nat) : List (Nat → R) := (List.range n).map fun j k => if k = j then 1 else 0

theorem oneBand_sum [CommRing R] (n k : Nat) (hk : k < n) : ((oneBand (R := R) n).map fun m => m k).sum = 1 := by
  unfold oneBand
  rw [List.map_map]
  have key : ∀ n, ((List.range n).map ((fun m : Nat → R => m k) ∘ fun j k => if k = j then 1 else 0)).sum =
      if k < n then 1 else 0 := by
    intro n
    induction n with
    | zero => simp
    | succ n ih =>
      rw [List.range_succ, List.map_append, List.sum_append, ih]
      simp only [List.map_cons, List.map_nil, List.sum_cons, List.sum_nil, Function.comp, add_zero]
      by_cases h1 : k < n
      · rw [if_pos h1, if_neg (by omega), if_pos (by omega), add_zero]
      · by_cases h2 : k = n
        · rw [if_neg h1, if_pos h2, if_pos (by omega), zero_add]
        · rw [if_neg h1, if_neg h2, if_neg (by omega), add_zero]
  rw [key, if_pos hk]

-- the approximation and the two details of a two-level Haar transform, one at a time
example : ∃ cs, ∃ zs : List (Tensor ℚ), wavedec exX haar (some "symmetric") (some 2) (.int (-2)) = .ok cs ∧
    (oneBand cs.length).map (fun m => waverec (weightList m 0 cs) haar (.int (-2))) = zs.map .ok ∧
    ∀ i, InB exX.shape i → (zs.map fun t => t.get i).sum = exX.get i := by
  obtain ⟨cs, hcs⟩ := ex_wavedec
  obtain ⟨zs, h1, h2⟩ := c78_components exX haar 2 _ _ _ cs (oneBand cs.length) haar_pr le_rfl rfl hcs
    (fun k hk => oneBand_sum _ k hk)
  exact ⟨cs, zs, hcs, h1, h2⟩

/-- Two complementary selections: the second detail of every level, and all the rest. -/
def splitV : List (Nat → Place → ℚ) :=
  [fun _ p => if p = .second then 1 else 0, fun _ p => if p = .second then 0 else 1]

/-- The key with one 'd' last, and the rest. -/
def splitK (s : String) : List (Nat → Place → ℚ) :=
  [fun _ p => if p = .key s then 1 else 0, fun _ p => if p = .key s then 0 else 1]

theorem splitV_sum (k : Nat) (p : Place) : (splitV.map fun m => m k p).sum = 1 := by
  unfold splitV
  by_cases h : p = .second <;> simp [h]

theorem splitK_sum (s : String) (k : Nat) (p : Place) : ((splitK s).map fun m => m k p).sum = 1 := by
  unfold splitK
  by_cases h : p = .key s <;> simp [h]

example : ∃ c, ∃ zs : List (Tensor ℚ), wavedec2 exI haar (some "symmetric") (some 2) (.seq [2, -3]) = .ok c ∧
    splitV.map (fun m => waverec2 (weightCoeffs m c) haar (.seq [2, -3])) = zs.map .ok ∧
    ∀ i, InB exI.shape i → (zs.map fun t => t.get i).sum = exI.get i := by
  obtain ⟨c, hc⟩ := ex_wavedec2
  obtain ⟨zs, h1, h2⟩ := c78_components2 exI haar 2 _ _ _ c splitV haar_pr le_rfl rfl hc (fun k p _ => splitV_sum k p)
  exact ⟨c, zs, hc, h1, h2⟩

example : ∃ c, ∃ zs : List (Tensor ℚ), wavedec3 exV haar (some "constant") (some 2) (.seq [1, -1, 0]) = .ok c ∧
    (splitK "aad").map (fun m => waverec3 (weightCoeffs m c) haar (.seq [1, -1, 0])) = zs.map .ok ∧
    ∀ i, InB exV.shape i → (zs.map fun t => t.get i).sum = exV.get i := by
  obtain ⟨c, hc⟩ := ex_wavedec3
  obtain ⟨zs, h1, h2⟩ := c78_components3 exV haar 2 _ _ _ c (splitK "aad") haar_pr le_rfl rfl (by decide) hc
    (fun k p _ => splitK_sum _ k p)
  exact ⟨c, zs, hc, h1, h2⟩

example : ∃ c, ∃ zs : List (Tensor ℚ), fswavedec2 exI haar (some "symmetric") (some 2) (.seq [2, -3]) = .ok c ∧
    (splitK "ad").map (fun m => (fswaverec2 (weightCoeffs m c) haar (.seq [2, -3])).1) = zs.map .ok ∧
    ∀ i, InB exI.shape i → (zs.map fun t => t.get i).sum = exI.get i := by
  obtain ⟨c, hc⟩ : ∃ c, fswavedec2 exI haar (some "symmetric") (some 2) (.seq [2, -3]) = .ok c := by
    obtain ⟨c, hc⟩ := ex_wavedec2
    exact ⟨_, (c19_fswavedec2 exI haar _ _ _ (by decide) rfl (by intro h; cases h) _).mpr ⟨c, hc, rfl⟩⟩
  obtain ⟨zs, h1, h2⟩ := c78_components_fs2 exI haar 2 _ _ _ c (splitK "ad") haar_pr le_rfl rfl hc
    (fun k p _ => splitK_sum _ k p)
  exact ⟨c, zs, hc, h1, h2⟩

example : ∃ c, ∃ zs : List (Tensor ℚ), fswavedec3 exV haar (some "constant") (some 2) (.seq [1, -1, 0]) = .ok c ∧
    (splitK "aad").map (fun m => (fswaverec3 (weightCoeffs m c) haar (.seq [1, -1, 0])).1) = zs.map .ok ∧
    ∀ i, InB exV.shape i → (zs.map fun t => t.get i).sum = exV.get i := by
  obtain ⟨c, hc⟩ := ex_fswavedec3
  obtain ⟨zs, h1, h2⟩ := c78_components_fs3 exV haar 2 _ _ _ c (splitK "aad") haar_pr le_rfl rfl hc
    (fun k p _ => splitK_sum _ k p)
  exact ⟨c, zs, hc, h1, h2⟩

example : ∃ cs, ∃ zs : List (Tensor ℚ), swt (ramp 8) haar none .none = .ok cs ∧
    (oneBand cs.length).map (fun m => iswt (weightList m 0 cs) haar .none) = zs.map .ok ∧ IsSum zs (ramp 8) := by
  obtain ⟨cs, hcs, -⟩ := c23_default_level (ramp 8) haar 2 .none haar_pr.len haar_pr.noDistortion le_rfl rfl
    (goodAxes_none (by decide) (by decide)) (Or.inr rfl) (by decide)
  obtain ⟨zs, h1, h2⟩ := c78_components_swt (ramp 8) haar 2 .none cs (oneBand cs.length) haar_pr.len
    haar_pr.noDistortion le_rfl rfl (goodAxes_none (by decide) (by decide)) (Or.inr rfl) (by decide) hcs
    (fun k hk => oneBand_sum _ k hk)
  exact ⟨cs, zs, hcs, h1, h2⟩

-- a matrix object: any state, two equal shares
example (la : LinAlg ℚ) (cfg : RecCfg ℚ) (st : RecState ℚ) (cs : List (Tensor ℚ)) :=
  c78_matrix_waverec la cfg st cs [fun _ => 1 / 2, fun _ => 1 / 2] (fun _ _ => by norm_num)
example (la : LinAlg ℚ) (cfg : RecCfgN ℚ) (st : RecStateN ℚ) (c : Coeffs ℚ) :=
  c78_matrix_waverec_nd 2 la cfg st c [fun _ _ => 1 / 3, fun _ _ => 2 / 3] (fun _ _ _ => by norm_num)

end Verif.Props
