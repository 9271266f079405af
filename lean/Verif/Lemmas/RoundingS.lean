import Verif.Model.RoundedS
import Verif.Lemmas.RoundingNProg
import Verif.Lemmas.RelPacket

/-! Separable transforms, stationary transforms and packets in floating point arithmetic. -/

namespace Verif
open Tensor Spec
variable {R : Type}

/-! ### Exact routines -/

section exact
variable [NonUnitalNonAssocSemiring R]

theorem sepDwtnF_exact (w : Wavelet R) (mode : Option String) : ∀ (n : Nat) (key : String) (t : Tensor R),
    sepDwtnF (exactKernels R) w mode n key t = sepDwtn w mode n key t
  | 0, _, _ => rfl
  | n + 1, key, t => by
    unfold sepDwtnF sepDwtn
    simp only [wavedecF_exact, sepDwtnF_exact w mode n]
    rfl

theorem sepDecLoopF_exact (w : Wavelet R) (mode : Option String) (n : Nat) : ∀ (L : Nat) (t : Tensor R),
    sepDecLoopF (exactKernels R) w mode n L t = sepDecLoop w mode n L t
  | 0, _ => rfl
  | L + 1, t => by
    unfold sepDecLoopF sepDecLoop sepStepF sepStep
    simp only [sepDwtnF_exact, sepDecLoopF_exact w mode n L]

theorem fswavedecnF_exact (x : Tensor R) (w : Wavelet R) (n : Nat) (mode : Option String) (level : Option Int)
    (axes : AxisHint) : fswavedecnF (exactKernels R) x w n mode level axes = fswavedecn x w n mode level axes := by
  unfold fswavedecnF fswavedecn sepWavedecnF sepWavedecn
  simp only [sepDecLoopF_exact]
  rfl

theorem sepRec1F_exact (w : Wavelet R) (k : Nat) (a d : Tensor R) :
    sepRec1F (exactKernels R) w k a d = sepRec1 w k a d := by
  unfold sepRec1F sepRec1
  simp only [waverecF_exact]

theorem idwtnLoopF_exact (w : Wavelet R) (kv : List (String × Tensor R)) : ∀ (ks : List String)
    (done : List (String × Tensor R)), idwtnLoopF (exactKernels R) w kv ks done = idwtnLoop w kv ks done
  | [], _ => rfl
  | k :: ks, done => by
    unfold idwtnLoopF idwtnLoop
    simp only [sepRec1F_exact, idwtnLoopF_exact w kv ks]

theorem sepIdwtnF_exact (w : Wavelet R) : ∀ (n : Nat) (kv : List (String × Tensor R)),
    sepIdwtnF (exactKernels R) w n kv = sepIdwtn w n kv
  | 0, _ => rfl
  | n + 1, kv => by
    unfold sepIdwtnF sepIdwtn
    simp only [idwtnLoopF_exact, sepIdwtnF_exact w n]
    rfl

theorem sepRecLoopF_exact (w : Wavelet R) : ∀ (es : List (Entry R)) (t : Tensor R),
    sepRecLoopF (exactKernels R) w t es = sepRecLoop w t es
  | [], _ => rfl
  | .dict kv :: es, t => by
    unfold sepRecLoopF sepRecLoop
    simp only [sepIdwtnF_exact, sepRecLoopF_exact w es]
    rfl
  | .tensor _ :: _, _ => rfl
  | .tuple _ _ _ :: _, _ => rfl
  | .other :: _, _ => rfl

theorem sepWaverecnF_exact (c : Coeffs R) (w : Wavelet R) : sepWaverecnF (exactKernels R) c w = sepWaverecn c w := by
  unfold sepWaverecnF sepWaverecn
  simp only [sepRecLoopF_exact]
  rfl

theorem fswaverecnF_exact (c : Coeffs R) (w : Wavelet R) (n : Nat) (axes : AxisHint) :
    fswaverecnF (exactKernels R) c w n axes = fswaverecn c w n axes := by
  unfold fswaverecnF fswaverecn
  simp only [sepWaverecnF_exact]
  rfl

theorem swtLoopF_exact (filt : Tensor R) (F : Nat) : ∀ (L s : Nat) (x : Tensor R),
    swtLoopF (exactKernels R) filt F L s x = swtLoop filt F L s x
  | 0, _, _ => rfl
  | L + 1, s, x => by
    unfold swtLoopF swtLoop
    simp only [swtLoopF_exact filt F L]
    rfl

theorem createTensorF_exact (f : List R) (flip : Bool) (md : Meta) :
    createTensorF (exactKernels R) f flip md = createTensor f flip md := by
  unfold createTensorF
  rw [show f.map ((exactKernels R).tap md.dtype) = f from List.map_id' f]

theorem swtF_exact (x : Tensor R) (w : Wavelet R) (level : Option Int) (axis : AxisHint) :
    swtF (exactKernels R) x w level axis = swt x w level axis := by
  unfold swtF swt
  simp only [swtLoopF_exact, createTensorF_exact]

theorem packet1F_exact (w : Wavelet R) (mode : Option String) (axis : Int) :
    packet1F (exactKernels R) w mode axis = packet1 w mode axis := by
  have h1 : packetDec1F (exactKernels R) w mode axis = packetDec1 w mode axis := by
    funext t; unfold packetDec1F packetDec1; simp only [wavedecF_exact]
  have h2 : packetSyn1F (exactKernels R) w axis = packetSyn1 w axis := by
    funext t; cases t <;> simp [packetSyn1F, packetSyn1, waverecF_exact]
  unfold packet1F packet1
  rw [h1, h2]

theorem packet2F_exact (w : Wavelet R) (mode : Option String) (axes : List Int) (sep : Bool) :
    packet2F (exactKernels R) (exactKernelsN R) w mode axes sep = packet2 w mode axes sep := by
  have h1 : packetDec2F (exactKernels R) (exactKernelsN R) w mode axes sep = packetDec2 w mode axes sep := by
    funext t; unfold packetDec2F packetDec2 fswavedec2; simp only [wavedec2F_exact, fswavedecnF_exact]
  have h2 : packetSyn2F (exactKernels R) (exactKernelsN R) w axes sep = packetSyn2 w axes sep := by
    funext t
    unfold packetSyn2F packetSyn2 fswaverec2
    simp only [waverec2F_exact, fswaverecnF_exact]
    rfl
  unfold packet2F packet2
  rw [h1, h2]

end exact

theorem iswtLoopF_exact [Field R] (filt : Tensor R) (F : Nat) : ∀ (hs : List (Tensor R)) (x : Tensor R),
    iswtLoopF (exactKernelsS R) filt F x hs = iswtLoop filt F x hs
  | [], _ => rfl
  | h :: hs, x => by
    unfold iswtLoopF iswtLoop
    simp only [iswtLoopF_exact filt F hs]
    rfl

theorem iswtF_exact [Field R] (cs : List (Tensor R)) (w : Wavelet R) (axis : AxisHint) :
    iswtF (exactKernelsS R) cs w axis = iswt cs w axis := by
  have h : ∀ (f : List R) (md : Meta), createTensorF (exactKernelsS R).toKernels f false md = createTensor f false md :=
    fun f md => createTensorF_exact f false md
  unfold iswtF iswt
  simp only [iswtLoopF_exact, h]
  refine bind_congr fun p => bind_congr fun md => bind_congr fun filt => ?_
  cases p.1.toList <;> rfl

variable [Field R] [LinearOrder R] [IsStrictOrderedRing R]

/-! ### Separable transforms -/

section sep
variable {u g : R} {K : Kernels R} {w : Wavelet R}

/-- `wavedec` in floating point arithmetic and the exact `wavedec` of the triples. -/
def DecRel (K : Kernels R) (w : Wavelet R) (g : R) : Prop :=
  ∀ (mode : Option String) (level : Option Int) (axis : AxisHint) {x : Tensor R} {y : Tensor (R × R × R)}, TRel Err3 x y →
    Two (List.Forall₂ (TRel Err3)) (wavedecF K x w mode level axis) (wavedec y (mapW (tap3 g) w) mode level axis)

/-- `waverec` in floating point arithmetic and the exact `waverec` of the triples. -/
def RecRel (K : Kernels R) (w : Wavelet R) (g : R) : Prop :=
  ∀ (axis : AxisHint) {a : List (Tensor R)} {b : List (Tensor (R × R × R))}, List.Forall₂ (TRel Err3) a b →
    Two (TRel Err3) (waverecF K a w axis) (waverec b (mapW (tap3 g) w) axis)

theorem sepDwtnF_rel (hw : DecRel K w g) (mode : Option String) :
    ∀ (n : Nat) (key : String) {x : Tensor R} {y : Tensor (R × R × R)}, TRel Err3 x y →
    Two (Dict2 (TRel Err3)) (sepDwtnF K w mode n key x) (sepDwtn (mapW (tap3 g) w) mode n key y)
  | 0, key, _, _, h => .ok (.cons ⟨rfl, h⟩ .nil)
  | n + 1, key, x, y, h => by
    unfold sepDwtnF sepDwtn
    refine Two.bind (hw mode _ _ h) fun _ _ hs => ?_
    cases hs with
    | nil => exact .err _
    | cons h1 hs =>
    cases hs with
    | nil => exact .err _
    | cons h2 hs =>
    cases hs with
    | cons _ _ => exact .err _
    | nil =>
      simp only
      exact Two.bind (sepDwtnF_rel hw mode n _ h1) fun _ _ ha =>
        Two.bind (sepDwtnF_rel hw mode n _ h2) fun _ _ hd => .ok (forall₂_append ha hd)

theorem sepStepF_rel (hw : DecRel K w g) (mode : Option String) (n : Nat) {x : Tensor R} {y : Tensor (R × R × R)} (h : TRel Err3 x y) :
    Two (fun a b => TRel Err3 a.1 b.1 ∧ Entry2 (TRel Err3) a.2 b.2) (sepStepF K w mode n x) (sepStep (mapW (tap3 g) w) mode n y) := by
  unfold sepStepF sepStep
  rw [h.rank]
  exact Two.bind (sepDwtnF_rel hw mode _ _ h) fun _ _ h => Two.bind (Dict2.pop h _) fun _ _ h =>
    .ok ⟨h.1, .dict h.2⟩

theorem sepDecLoopF_rel (hw : DecRel K w g) (mode : Option String) (n : Nat) :
    ∀ (L : Nat) {x : Tensor R} {y : Tensor (R × R × R)}, TRel Err3 x y →
    Two (fun a b => TRel Err3 a.1 b.1 ∧ List.Forall₂ (Entry2 (TRel Err3)) a.2 b.2)
      (sepDecLoopF K w mode n L x) (sepDecLoop (mapW (tap3 g) w) mode n L y)
  | 0, _, _, h => .ok ⟨h, .nil⟩
  | L + 1, x, y, h => by
    unfold sepDecLoopF sepDecLoop
    exact Two.bind (sepStepF_rel hw mode n h) fun _ _ h1 =>
      Two.bind (sepDecLoopF_rel hw mode n L h1.1) fun _ _ h => .ok ⟨h.1, .cons h1.2 h.2⟩

theorem sepWavedecnF_rel {x : Tensor R} {y : Tensor (R × R × R)} (h : TRel Err3 x y) (hw : DecRel K w g) (mode : Option String)
    (level : Option Int) : Two (Coeffs2 (TRel Err3)) (sepWavedecnF K x w mode level) (sepWavedecn y (mapW (tap3 g) w) mode level) := by
  unfold sepWavedecnF sepWavedecn
  rw [h.rank, h.shape, mapW_len]
  refine Two.bind Two.refl_eq ?_
  rintro L _ rfl
  exact Two.bind (sepDecLoopF_rel hw mode _ _ h) fun _ _ h =>
    .ok ⟨rfl, .cons (.tensor h.1) (forall₂_reverse h.2)⟩

theorem fswavedecnF_rel {x : Tensor R} {y : Tensor (R × R × R)} (h : TRel Err3 x y) (hw : DecRel K w g) (n : Nat) (mode : Option String)
    (level : Option Int) (axes : AxisHint) :
    Two (Coeffs2 (TRel Err3)) (fswavedecnF K x w n mode level axes) (fswavedecn y (mapW (tap3 g) w) n mode level axes) := by
  have key : ∀ axes : AxisHint, Two (Coeffs2 (TRel Err3))
      (preprocessTensor x n axes false >>= fun p => sepWavedecnF K p.1 w mode level >>= fun q =>
        postprocessCoeffs q n p.2 axes)
      (preprocessTensor y n axes false >>= fun p => sepWavedecn p.1 (mapW (tap3 g) w) mode level >>= fun q =>
        postprocessCoeffs q n p.2 axes) := by
    intro axes
    refine Two.bind (h.preprocessTensor closed_err3.zero n axes false) ?_
    rintro ⟨a, du⟩ ⟨b, dv⟩ ⟨h, h2⟩
    simp only at h h2 ⊢
    subst h2
    exact Two.bind (sepWavedecnF_rel h hw mode level) fun _ _ h => rel_postprocessCoeffs closed_err3.zero h _ _ _
  unfold fswavedecnF fswavedecn
  exact key _

theorem sepRec1F_rel (hw : RecRel K w g) (k : Nat) {x : Tensor R} {y : Tensor (R × R × R)} (h : TRel Err3 x y) {x' : Tensor R}
    {y' : Tensor (R × R × R)} (h' : TRel Err3 x' y') : Two (TRel Err3) (sepRec1F K w k x x') (sepRec1 (mapW (tap3 g) w) k y y') := by
  unfold sepRec1F sepRec1
  rw [h'.shape]
  refine Two.bind (h.cropTo (closed_err3 (R := R)) _) fun _ _ h => Two.bind (h.transposeLast (closed_err3 (R := R)) k) fun a b ha =>
    Two.bind (h'.transposeLast (closed_err3 (R := R)) k) fun _ _ hd => Two.bind (ha.flatLast (closed_err3 (R := R))) fun _ _ h1 =>
    Two.bind (hd.flatLast (closed_err3 (R := R))) fun _ _ h2 =>
    Two.bind (hw .none (.cons h1 (.cons h2 .nil))) fun _ _ h => ?_
  rw [ha.shape, h.shape]
  exact Two.bind (h.reshape closed_err3.zero _) fun _ _ h => h.transposeLast (closed_err3 (R := R)) k

theorem idwtnLoopF_rel (hw : RecRel K w g) {a : List (String × Tensor R)}
    {b : List (String × Tensor (R × R × R))} (h : Dict2 (TRel Err3) a b) :
    ∀ (ks : List String) {a' : List (String × Tensor R)} {b' : List (String × Tensor (R × R × R))},
    Dict2 (TRel Err3) a' b' → Two (SumRel Err3) (idwtnLoopF K w a ks a') (idwtnLoop (mapW (tap3 g) w) b ks b')
  | [], _, _, h' => .ok (.inr h')
  | key :: ks, _, _, h' => by
    unfold idwtnLoopF idwtnLoop
    refine Two.bind (h.get _) fun _ _ hd => Two.bind (h.get _) fun _ _ ha =>
      Two.bind (sepRec1F_rel hw _ ha hd) fun _ _ hr => ?_
    exact Two.ite _ (.ok (.inl hr)) (idwtnLoopF_rel hw h ks (forall₂_append h' (.cons ⟨rfl, hr⟩ .nil)))

theorem sepIdwtnF_rel (hw : RecRel K w g) :
    ∀ (n : Nat) {a : List (String × Tensor R)} {b : List (String × Tensor (R × R × R))}, Dict2 (TRel Err3) a b →
    Two (TRel Err3) (sepIdwtnF K w n a) (sepIdwtn (mapW (tap3 g) w) n b)
  | 0, _, _, _ => .err _
  | n + 1, a, b, h => by
    unfold sepIdwtnF sepIdwtn
    rw [Dict2.aKeys h]
    refine Two.bind Two.refl_eq ?_
    rintro ks _ rfl
    refine Two.bind (idwtnLoopF_rel hw h _ .nil) fun _ _ h => ?_
    cases h with
    | inl h => exact .ok h
    | inr h => exact sepIdwtnF_rel hw n h

theorem sepRecLoopF_rel (hw : RecRel K w g) {a : List (Entry R)} {b : List (Entry (R × R × R))}
    (hs : List.Forall₂ (Entry2 (TRel Err3)) a b) :
    ∀ {x : Tensor R} {y : Tensor (R × R × R)}, TRel Err3 x y →
    Two (TRel Err3) (sepRecLoopF K w x a).1 (sepRecLoop (mapW (tap3 g) w) y b).1 ∧
    List.Forall₂ (Entry2 (TRel Err3)) (sepRecLoopF K w x a).2 (sepRecLoop (mapW (tap3 g) w) y b).2 := by
  induction hs with
  | nil => exact fun h => ⟨.ok h, .nil⟩
  | cons he hs ih =>
    intro x y h
    cases he with
    | tensor he => exact ⟨.err _, .cons (.tensor he) hs⟩
    | tuple h1 h2 h3 => exact ⟨.err _, .cons (.tuple h1 h2 h3) hs⟩
    | other => exact ⟨.err _, .cons .other hs⟩
    | @dict kv kv' hd =>
      unfold sepRecLoopF sepRecLoop
      rw [Dict2.maxKeyLen hd]
      cases e : maxKeyLen kv with
      | error e => exact ⟨.err _, .cons (.dict hd) hs⟩
      | ok n =>
        simp only
        have hset := Dict2.set hd (aKey n) h
        have hi := sepIdwtnF_rel hw n hset
        revert hi
        generalize sepIdwtnF K w n (dictSet kv (aKey n) x) = r1
        generalize sepIdwtn (mapW (tap3 g) w) n (dictSet kv' (aKey n) y) = r2
        intro hi
        cases hi with
        | err e => exact ⟨.err _, .cons (.dict hset) hs⟩
        | ok hr => exact ⟨(ih hr).1, .cons (.dict hset) (ih hr).2⟩

theorem sepWaverecnF_rel (hw : RecRel K w g) {a : Coeffs R} {b : Coeffs (R × R × R)}
    (h : Coeffs2 (TRel Err3) a b) :
    Two (TRel Err3) (sepWaverecnF K a w).1 (sepWaverecn b (mapW (tap3 g) w)).1 ∧
    Coeffs2 (TRel Err3) (sepWaverecnF K a w).2 (sepWaverecn b (mapW (tap3 g) w)).2 := by
  obtain ⟨la, ia⟩ := a
  obtain ⟨lb, ib⟩ := b
  obtain ⟨h1, h3⟩ := h
  simp only at h1 h3
  subst h1
  unfold sepWaverecnF sepWaverecn
  simp only
  cases h3 with
  | nil => exact ⟨.err _, rfl, .nil⟩
  | cons he hs =>
    cases he with
    | tuple h1 h2 h3 => exact ⟨.err _, rfl, .cons (.tuple h1 h2 h3) hs⟩
    | dict h1 => exact ⟨.err _, rfl, .cons (.dict h1) hs⟩
    | other => exact ⟨.err _, rfl, .cons .other hs⟩
    | tensor he =>
      simp only
      rw [forall₂_all (p := Entry.isDict) (q := Entry.isDict) hs fun _ _ h => rel_isDict h]
      split_ifs
      · obtain ⟨r1, r2⟩ := sepRecLoopF_rel hw hs he
        exact ⟨r1, rfl, .cons (.tensor he) r2⟩
      · exact ⟨.err _, rfl, .cons (.tensor he) hs⟩

theorem fswaverecnF_rel {a : Coeffs R} {b : Coeffs (R × R × R)} (h : Coeffs2 (TRel Err3) a b) (hw : RecRel K w g)
    (n : Nat) (axes : AxisHint) :
    Two (TRel Err3) (fswaverecnF K a w n axes).1 (fswaverecn b (mapW (tap3 g) w) n axes).1 ∧
    Coeffs2 (TRel Err3) (fswaverecnF K a w n axes).2 (fswaverecn b (mapW (tap3 g) w) n axes).2 := by
  unfold fswaverecnF fswaverecn
  rw [rel_preAliases h n axes]
  have hp := rel_preprocessCoeffs closed_err3.zero h n axes false
  revert hp
  generalize preprocessCoeffs a n axes false = pa
  generalize preprocessCoeffs b n axes false = pb
  intro hp
  cases hp with
  | err e => exact ⟨.err _, h⟩
  | @ok pa pb hp =>
    obtain ⟨pa, da⟩ := pa
    obtain ⟨pb, db⟩ := pb
    obtain ⟨hp, h2⟩ := hp
    simp only at hp h2 ⊢
    subst h2
    rw [rel_checkSameDeviceDtype hp]
    cases checkSameDeviceDtype pa with
    | error e => exact ⟨.err _, h⟩
    | ok md =>
      simp only
      obtain ⟨r1, r2⟩ := sepWaverecnF_rel hw hp
      refine ⟨Two.bind r1 fun _ _ h => h.postprocessTensor closed_err3.zero _ _ _, ?_⟩
      split_ifs
      · exact r2
      · exact h

end sep

/-! ### Stationary transforms -/

theorem swtLoopF_rel {u g : R} {K : Kernels R} (hK : FloatKernels u K) {F : Nat}
    (hG : (1 + u) ^ F * (1 + u) ≤ g) {filt : Tensor R} {filt' : Tensor (R × R × R)}
    (hf : TRel (Tap3 (1 + u) g) filt filt') (hfs : filt.shape = [2, 1, F]) :
    ∀ (L s : Nat) {x : Tensor R} {y : Tensor (R × R × R)}, TRel Err3 x y →
    Two (fun a b => TRel Err3 a.1 b.1 ∧ List.Forall₂ (TRel Err3) a.2 b.2)
      (swtLoopF K filt F L s x) (swtLoop filt' F L s y)
  | 0, _, _, _, h => .ok ⟨h, .nil⟩
  | L + 1, s, x, y, h => by
    unfold swtLoopF swtLoop
    have hu := hK.unit
    have hc := closed_err3 (R := R)
    refine Two.bind (h.circularPad hc _) fun _ _ h =>
      Two.bind (float_conv hK (by linarith) h hf 1 _ ⟨2, hfs⟩ (by simpa using hG)) fun a b h => ?_
    have hs := h.split1 hc.zero
    revert hs
    generalize split1 a = sa
    generalize split1 b = sb
    intro hs
    cases hs with
    | nil => exact .err _
    | cons h1 hs =>
    cases hs with
    | nil => exact .err _
    | cons h2 hs =>
    cases hs with
    | cons _ _ => exact .err _
    | nil =>
      simp only
      exact Two.bind (swtLoopF_rel hK hG hf hfs L _ h1) fun _ _ h => .ok ⟨h.1, .cons (h2.squeeze1 hc.zero) h.2⟩

/-- `swt` in floating point arithmetic and the exact `swt` of the triples. -/
theorem swtF_rel {u g : R} {K : Kernels R} (hK : FloatKernels u K) {w : Wavelet R} (hG : (1 + u) ^ (w.len + 1) ≤ g)
    (level : Option Int) (axis : AxisHint) {x : Tensor R} {y : Tensor (R × R × R)} (h : TRel Err3 x y) :
    Two (List.Forall₂ (TRel Err3)) (swtF K x w level axis) (swt y (mapW (tap3 g) w) level axis) := by
  have hc := closed_err3 (R := R)
  unfold swtF swt
  refine Two.bind (h.preprocessTensor hc.zero 1 axis true) ?_
  rintro ⟨a, du⟩ ⟨b, dv⟩ ⟨h, h2⟩
  simp only at h h2 ⊢
  subst h2
  have hl : (mapW (tap3 g) w).decLo.length = w.decLo.length := by simp [mapW]
  rw [h.md, h.sizeFromEnd, hl]
  refine Two.bind (filt_rel (g := g) hK w.decLo w.decHi true a.md) ?_
  rintro fa fb ⟨hf, hfs⟩
  refine Two.bind (swtLoopF_rel hK (by rw [← pow_succ]; exact hG) hf hfs _ _ h) fun a b h => ?_
  exact Two.bind (rel_postprocessCoeffs hc.zero (Coeffs2.ofList (rel_assemble hc.zero h)) _ _ _)
    fun _ _ h => .ok h.toList

/-- As `Err3`, with room for a further factor `η`. -/
def ErrS (η a : R) (p : R × R × R) : Prop := Err3 a (p.1, p.2.1, p.2.2 / η)

theorem errS_zero (η : R) : ErrS η (0 : R) 0 := by simp [ErrS, Err3]

/-- The index pairs of the transposed convolution with one filter per channel. -/
def convGIdx (F N d q : Nat) : List (Nat × Nat) :=
  (List.range F).flatMap fun j => ((List.range N).filter fun k => k + d * j = q).map fun k => (j, k)

theorem convGIdx_length (F N d q : Nat) : (convGIdx F N d q).length ≤ F := by
  unfold convGIdx
  rw [List.length_flatMap]
  have h : ∀ j ∈ List.range F, (((List.range N).filter fun k => k + d * j = q).map fun k => (j, k)).length ≤ 1 := by
    intro j _
    rw [List.length_map, ← List.toFinset_card_of_nodup (List.nodup_range.filter _), Finset.card_le_one]
    intro a ha b hb
    simp only [List.mem_toFinset, List.mem_filter, decide_eq_true_eq] at ha hb
    omega
  have := List.sum_le_card_nsmul ((List.range F).map fun j =>
    (((List.range N).filter fun k => k + d * j = q).map fun k => (j, k)).length) 1 (by
      intro x hx
      obtain ⟨j, hj, rfl⟩ := List.mem_map.mp hx
      exact h j hj)
  simpa using this

theorem sum_convGIdx {M : Type} [AddCommMonoid M] (f : Nat → Nat → M) (F N d q : Nat) :
    ∑ j ∈ Finset.range F, ∑ k ∈ Finset.range N, (if k + d * j = q then f j k else 0) =
      ((convGIdx F N d q).map fun p => f p.1 p.2).sum := by
  simp only [sum_range_list, convGIdx, sum_flatMap_list, List.map_map, Function.comp_def]
  congr 1
  refine List.map_congr_left fun c _ => ?_
  exact sum_filter_list_if _ _ _

theorem sum_third {ι : Type} (η : R) (l : List ι) (p q : ι → R × R × R) :
    (l.map fun i => ((p i).1, (p i).2.1, (p i).2.2 / η) * q i).sum =
      (((l.map fun i => p i * q i).sum).1, ((l.map fun i => p i * q i).sum).2.1,
        ((l.map fun i => p i * q i).sum).2.2 / η) := by
  induction l with
  | nil => simp; rfl
  | cons i l ih =>
    simp only [List.map_cons, List.sum_cons, ih]
    refine Prod.ext ?_ (Prod.ext ?_ ?_)
    · simp
    · simp
    · simp only [Prod.snd_add, Prod.snd_mul]; ring

/-- The rounded transposed convolution of `iswt` and the exact one of the triples. -/
theorem float_convG {u τ G η : R} {K : KernelsS R} (hK : FloatKernelsS u K) (hτ : 1 ≤ τ) {x w : Tensor R}
    {y v : Tensor (R × R × R)} (hx : TRel Err3 x y) (hw : TRel (Tap3 τ G) w v) (d p : Nat) {F : Nat}
    (hs : ∃ C O, w.shape = [C, O, F]) (hG : (1 + u) ^ F * τ ≤ G / η) :
    Two (TRel (ErrS η)) (K.convTransposeG x w d p) (convTranspose1dG y v d p) := by
  have hk := hK.convTransposeG x w d p
  obtain ⟨C, O, hs⟩ := hs
  unfold FloatResult at hk
  unfold Tensor.convTranspose1dG at hk ⊢
  rw [hx.shape, hw.shape, hx.md, hw.md]
  rw [hs] at hk ⊢
  match hxs : x.shape with
  | [B, C', N] =>
    rw [hxs] at hk
    simp only at hk ⊢
    by_cases hc : C' = C ∧ O = 1 ∧ x.md = w.md ∧ 1 ≤ F ∧ 1 ≤ N ∧ 1 ≤ d ∧ 2 * p < N + d * (F - 1)
    · rw [if_pos hc] at hk ⊢
      simp only at hk
      obtain ⟨r', e, hm, hsh, hget⟩ := hk
      rw [e]
      refine .ok ⟨hm.symm, hsh.symm, fun i => ?_⟩
      by_cases hi : InB [B, C', N + d * (F - 1) - 2 * p] i
      · rw [ofFn_get_of _ _ hi]
        match i, hi with
        | [b, c, m], hi =>
          have h1 := hget b c m hi
          simp only
          rw [sum_convGIdx (fun j k => v.get [c, 0, j] * y.get [b, c, k])]
          unfold ErrS
          rw [← sum_third]
          refine rounded_err3 (u := u) (τ := τ) (G := G / η) hK.base.unit hτ (convGIdx F N d (m + p))
            (fun q => w.get [c, 0, q.1]) (fun q => x.get [b, c, q.2]) _ _ (fun q _ => ?_) (fun q _ => hx.get _) ?_
            (convGIdx_length F N d (m + p)) hG
          · obtain ⟨h1, h2, h3⟩ := hw.get [c, 0, q.1]
            exact ⟨h1, h2, by simp only [h3]; ring⟩
          have e2 : convTransposeGTerms x w d p b c m =
              (convGIdx F N d (m + p)).map fun q => (w.get [c, 0, q.1], x.get [b, c, q.2]) := by
            unfold convTransposeGTerms convGIdx
            rw [hs, hxs, List.map_flatMap]
            simp [List.map_map, Function.comp_def]
          rw [← e2]
          exact h1
      · rw [ofFn_get, if_neg hi, r'.supp i (by rw [hsh]; exact hi)]
        exact errS_zero η
    · rw [if_neg hc] at hk ⊢
      simp only at hk
      rw [hk]
      exact .err _
  | [] => rw [hxs] at hk; simp only at hk ⊢; rw [hk]; exact .err _
  | [_] => rw [hxs] at hk; simp only at hk ⊢; rw [hk]; exact .err _
  | [_, _] => rw [hxs] at hk; simp only at hk ⊢; rw [hk]; exact .err _
  | _ :: _ :: _ :: _ :: _ => rw [hxs] at hk; simp only at hk ⊢; rw [hk]; exact .err _

theorem convG_shape {u : R} {K : KernelsS R} (hK : FloatKernelsS u K) {x w r : Tensor R} {d p C O F : Nat}
    (hs : w.shape = [C, O, F]) (h : K.convTransposeG x w d p = .ok r) : ∃ B M, r.shape = [B, C, M] := by
  have hk := hK.convTransposeG x w d p
  unfold FloatResult Tensor.convTranspose1dG at hk
  rw [hs] at hk
  match hxs : x.shape with
  | [B, C', N] =>
    rw [hxs] at hk
    simp only at hk
    by_cases hc : C' = C ∧ O = 1 ∧ x.md = w.md ∧ 1 ≤ F ∧ 1 ≤ N ∧ 1 ≤ d ∧ 2 * p < N + d * (F - 1)
    · rw [if_pos hc] at hk
      simp only at hk
      obtain ⟨r', e, hm, hsh, -⟩ := hk
      rw [h] at e
      cases e
      exact ⟨B, N + d * (F - 1) - 2 * p, by rw [hsh, ← hc.1]; rfl⟩
    · rw [if_neg hc] at hk
      simp only at hk
      rw [h] at hk; cases hk
  | [] => rw [hxs] at hk; simp only at hk; rw [h] at hk; cases hk
  | [_] => rw [hxs] at hk; simp only at hk; rw [h] at hk; cases hk
  | [_, _] => rw [hxs] at hk; simp only at hk; rw [h] at hk; cases hk
  | _ :: _ :: _ :: _ :: _ => rw [hxs] at hk; simp only at hk; rw [h] at hk; cases hk

/-- A mean in floating point arithmetic. -/
theorem mean_err3 {u η : R} (hu : 0 ≤ u) (n : Nat) (hη : (1 + u) ^ (n + 1) ≤ η) (l : List Nat) (hl : l.length = n)
    (a : Nat → R) (p : Nat → R × R × R) (h : ∀ k, ErrS η (a k) (p k)) {v δ : R} (hδ : |δ| ≤ u)
    (hv : Rounded u (l.map fun k => (1, a k)) v) :
    Err3 (v / (n : R) * (1 + δ)) ((l.map p).sum / (n : R × R × R)) := by
  have h1 : (1 : R) ≤ 1 + u := by linarith
  have hη1 : (1 : R) ≤ η := (one_le_pow₀ h1).trans hη
  have hη0 : (0 : R) < η := by linarith
  have he := hv.error hu
  rw [List.length_map, hl] at he
  have key : ∀ l : List Nat, |(l.map p).sum.1| ≤ (l.map p).sum.2.1 ∧
      absSum (l.map fun k => ((1 : R), a k)) ≤ (l.map p).sum.2.2 / η ∧
      |dotSum (l.map fun k => ((1 : R), a k)) - (l.map p).sum.1| ≤ (l.map p).sum.2.2 / η - (l.map p).sum.2.1 := by
    intro l
    induction l with
    | nil => simp [absSum, dotSum]
    | cons i l ih =>
      obtain ⟨g1, g2, g3⟩ := ih
      have hi := h i
      obtain ⟨b0, b1, b2⟩ := hi.bounds
      obtain ⟨e1, e2⟩ := hi
      simp only at b0 b1 b2 e1 e2
      refine ⟨?_, ?_, ?_⟩
      · simp only [List.map_cons, List.sum_cons, Prod.fst_add, Prod.snd_add]
        exact (abs_add_le _ _).trans (add_le_add e1 g1)
      · simp only [absSum, List.map_cons, List.sum_cons, Prod.snd_add] at g2 ⊢
        rw [add_div, abs_one, one_mul]
        exact add_le_add b2 g2
      · simp only [dotSum, List.map_cons, List.sum_cons, Prod.fst_add, Prod.snd_add] at g3 ⊢
        set D := (List.map (fun p => p.1 * p.2) (List.map (fun k => ((1 : R), a k)) l)).sum
        rw [add_div, one_mul, show a i + D - ((p i).1 + (l.map p).sum.1) = (a i - (p i).1) + (D - (l.map p).sum.1) by ring]
        linarith [abs_add_le (a i - (p i).1) (D - (l.map p).sum.1)]
  obtain ⟨g1, g2, g3⟩ := key l
  have hA := absSum_nonneg (l.map fun k => ((1 : R), a k))
  have hD := abs_dotSum_le (l.map fun k => ((1 : R), a k))
  set A := absSum (l.map fun k => ((1 : R), a k))
  set D := dotSum (l.map fun k => ((1 : R), a k))
  set s := (l.map p).sum
  set N := (1 + u) ^ n
  have hN : 1 ≤ N := one_le_pow₀ h1
  have hv1 : |v| ≤ N * A := by
    have := abs_add_le (v - D) D
    rw [sub_add_cancel] at this
    nlinarith
  have main : |v * (1 + δ) - s.1| ≤ s.2.2 - s.2.1 := by
    rw [show v * (1 + δ) - s.1 = (v - D) + (D - s.1) + δ * v by ring]
    have r1 : |δ * v| ≤ u * (N * A) := by
      rw [abs_mul]; exact mul_le_mul hδ hv1 (abs_nonneg _) hu
    have r2 := abs_add_le ((v - D) + (D - s.1)) (δ * v)
    have r3 := abs_add_le (v - D) (D - s.1)
    have r4 : (N * (1 + u) - 1) * A ≤ (η - 1) * (s.2.2 / η) := by
      have : N * (1 + u) ≤ η := by rw [← pow_succ]; exact hη
      refine mul_le_mul (by linarith) g2 hA (by linarith)
    have r5 : (η - 1) * (s.2.2 / η) = s.2.2 - s.2.2 / η := by field_simp
    nlinarith
  have hn : (0 : R) ≤ (n : R) := Nat.cast_nonneg n
  have hcast : ((n : R × R × R)).1 = (n : R) ∧ ((n : R × R × R)).2.1 = (n : R) ∧ ((n : R × R × R)).2.2 = (n : R) :=
    ⟨rfl, rfl, rfl⟩
  constructor
  · simp only [Prod.fst_div, Prod.snd_div, hcast]
    rw [abs_div, abs_of_nonneg hn]
    exact div_le_div_of_nonneg_right g1 hn
  · simp only [Prod.fst_div, Prod.snd_div, hcast]
    rw [div_mul_eq_mul_div, ← sub_div, ← sub_div, abs_div, abs_of_nonneg hn]
    exact div_le_div_of_nonneg_right main hn

/-- The rounded mean and the exact one of the triples. -/
theorem float_mean {u η : R} {K : KernelsS R} (hK : FloatKernelsS u K) {n : Nat} (hη : (1 + u) ^ (n + 1) ≤ η)
    {x : Tensor R} {y : Tensor (R × R × R)} (hx : TRel (ErrS η) x y) (hs : ∃ B ss, x.shape = B :: n :: ss) :
    Two (TRel Err3) (K.mean x) (mean1 y) := by
  have hk := hK.mean x
  obtain ⟨B, ss, hs⟩ := hs
  unfold FloatMean at hk
  unfold Tensor.mean1 at hk ⊢
  rw [hx.shape, hx.md]
  rw [hs] at hk ⊢
  simp only at hk ⊢
  obtain ⟨r', e, hm, hsh, hget⟩ := hk
  rw [e]
  refine .ok ⟨hm.symm, hsh.symm, fun i => ?_⟩
  by_cases hi : InB (B :: ss) i
  · rw [ofFn_get_of _ _ hi]
    obtain ⟨v, δ, hδ, hv, er⟩ := hget i hi
    rw [er]
    rw [sum_range_list]
    exact mean_err3 hK.base.unit n hη (List.range n) List.length_range _ _ (fun k => hx.get _) hδ hv
  · rw [ofFn_get, if_neg hi, r'.supp i (by rw [hsh]; exact hi)]
    exact closed_err3.zero

theorem iswtLoopF_rel {u g : R} {K : KernelsS R} (hK : FloatKernelsS u K) {F : Nat}
    (hG : (1 + u) ^ F * (1 + u) ≤ g / (1 + u) ^ 3) {filt : Tensor R} {filt' : Tensor (R × R × R)}
    (hf : TRel (Tap3 (1 + u) g) filt filt') (hfs : filt.shape = [2, 1, F])
    {a : List (Tensor R)} {b : List (Tensor (R × R × R))} (hs : List.Forall₂ (TRel Err3) a b) :
    ∀ {x : Tensor R} {y : Tensor (R × R × R)}, TRel Err3 x y →
    Two (TRel Err3) (iswtLoopF K filt F x a) (iswtLoop filt' F y b) := by
  induction hs with
  | nil => exact fun h => .ok h
  | cons h1 hs ih =>
    intro x y h
    unfold iswtLoopF iswtLoop
    have hu := hK.base.unit
    have hc := closed_err3 (R := R)
    rw [← hs.length_eq]
    refine Two.bind (TRel.stack1 hc.zero (.cons h (.cons h1 .nil))) fun _ _ h =>
      Two.bind (h.circularPad hc _) fun _ _ h =>
      Two.bind (two_and (float_convG hK (by linarith) h hf _ _ ⟨2, 1, hfs⟩ hG) fun r hr => convG_shape hK hfs hr)
        fun _ _ h => ?_
    obtain ⟨h, B, M, hsh⟩ := h
    exact Two.bind (float_mean hK le_rfl h ⟨B, [M], hsh⟩) fun _ _ h => ih h

/-- `iswt` in floating point arithmetic and the exact `iswt` of the triples. -/
theorem iswtF_rel {u g : R} {K : KernelsS R} (hK : FloatKernelsS u K) {w : Wavelet R}
    (hG : (1 + u) ^ (w.recLo.length + 4) ≤ g) (axis : AxisHint) {a : List (Tensor R)} {b : List (Tensor (R × R × R))}
    (h : List.Forall₂ (TRel Err3) a b) :
    Two (TRel Err3) (iswtF K a w axis) (iswt b (mapW (tap3 g) w) axis) := by
  have hu := hK.base.unit
  have hc := closed_err3 (R := R)
  have hg : (1 + u) ^ w.recLo.length * (1 + u) ≤ g / (1 + u) ^ 3 := by
    rw [le_div_iff₀ (by positivity), ← pow_succ, ← pow_add]
    exact hG
  unfold iswtF iswt
  refine Two.bind (rel_preprocessCoeffs hc.zero (Coeffs2.ofList h) 1 axis false) ?_
  rintro ⟨c, du⟩ ⟨d, dv⟩ ⟨h, h2⟩
  simp only at h h2 ⊢
  subst h2
  rw [rel_checkSameDeviceDtype h]
  refine Two.bind (P := fun u v => v = u) Two.refl_eq ?_
  rintro _ md rfl
  have hl : (mapW (tap3 g) w).recLo.length = w.recLo.length := by simp [mapW]
  rw [hl]
  refine Two.bind (filt_rel (g := g) hK.base w.recLo w.recHi false md) ?_
  rintro fa fb ⟨hf, hfs⟩
  have ht := h.toList
  revert ht
  generalize c.toList = cl
  generalize d.toList = dl
  intro ht
  cases ht with
  | nil => exact .err _
  | cons h1 h2 =>
    exact Two.bind (iswtLoopF_rel hK hg hf hfs h2 h1) fun _ _ h => h.postprocessTensor hc.zero _ _ _

/-! ### Packets -/

theorem two_packet1F {K : Kernels R} {w : Wavelet R} {g : R} (hd : DecRel K w g) (hr : RecRel K w g)
    (mode : Option String) (axis : Int) :
    BackRel (TRel Err3) (fun _ _ => True) (packet1F K w mode axis) (packet1 (mapW (tap3 g) w) mode axis) where
  alphabet := rfl
  nodes := rfl
  dec := by
    intro c c' t t' _ ht
    refine ⟨?_, trivial⟩
    show Two _ (packetDec1F K w mode axis t) (packetDec1 (mapW (tap3 g) w) mode axis t')
    unfold packetDec1F packetDec1
    rw [rel_sizeAt ht]
    exact Two.bind Two.refl_eq fun _ _ _ => hd _ _ _ ht
  syn := by
    intro c c' t t' _ ht
    refine ⟨?_, trivial⟩
    show Two _ (packetSyn1F K w axis t) (packetSyn1 (mapW (tap3 g) w) axis t')
    unfold packetSyn1F packetSyn1
    cases ht with
    | nil => exact .err _
    | cons h1 hs =>
      simp only [rel_sizeAt h1]
      exact Two.bind Two.refl_eq fun _ _ _ => hr _ (.cons h1 hs)
  fit := fun h h' => h.fit1 closed_err3 h' axis
  defaultLevel := by
    intro t t' ht
    show packetLevel1 (mapW (tap3 g) w) axis t' = packetLevel1 w axis t
    unfold packetLevel1
    rw [rel_sizeAt ht, mapW_len]

theorem two_packet2F {K : Kernels R} {KN : KernelsN R} {w : Wavelet R} {g : R} (sep : Bool)
    (hd : sep = true → DecRel K w g) (hr : sep = true → RecRel K w g)
    (hd2 : sep = false → ∀ (mode : Option String) (level : Option Int) (axes : AxisHint) {x : Tensor R}
      {y : Tensor (R × R × R)}, TRel Err3 x y → Two (Coeffs2 (TRel Err3)) (wavedec2F KN x w mode level axes)
        (wavedec2 y (mapW (tap3 g) w) mode level axes))
    (hr2 : sep = false → ∀ (axes : AxisHint) {a : Coeffs R} {b : Coeffs (R × R × R)}, Coeffs2 (TRel Err3) a b →
      Two (TRel Err3) (waverec2F KN a w axes) (waverec2 b (mapW (tap3 g) w) axes))
    (mode : Option String) (axes : List Int) :
    BackRel (TRel Err3) (fun _ _ => True) (packet2F K KN w mode axes sep) (packet2 (mapW (tap3 g) w) mode axes sep) where
  alphabet := rfl
  nodes := rfl
  dec := by
    intro c c' t t' _ ht
    refine ⟨?_, trivial⟩
    show Two _ (packetDec2F K KN w mode axes sep t) (packetDec2 (mapW (tap3 g) w) mode axes sep t')
    unfold packetDec2F packetDec2
    rw [rel_planeSizes closed_err3.zero ht]
    refine Two.bind Two.refl_eq fun _ _ _ => ?_
    cases sep with
    | true => exact Two.bind (fswavedecnF_rel ht (hd rfl) 2 _ _ _) fun _ _ h => rel_unpackFsdict h
    | false => exact Two.bind (hd2 rfl _ _ _ ht) fun _ _ h => rel_unpack2 h
  syn := by
    intro c c' t t' _ ht
    refine ⟨?_, trivial⟩
    show Two _ (packetSyn2F K KN w axes sep t) (packetSyn2 (mapW (tap3 g) w) axes sep t')
    unfold packetSyn2F packetSyn2
    cases ht with
    | nil => exact .err _
    | cons h1 ht =>
    cases ht with
    | nil => exact .err _
    | cons h2 ht =>
    cases ht with
    | nil => exact .err _
    | cons h3 ht =>
    cases ht with
    | nil => exact .err _
    | cons h4 ht =>
    cases ht with
    | cons _ _ => exact .err _
    | nil =>
      simp only [rel_planeSizes closed_err3.zero h1]
      refine Two.bind Two.refl_eq fun _ _ _ => ?_
      cases sep with
      | true =>
        exact (fswaverecnF_rel ⟨rfl, .cons (.tensor h1) (.cons (.dict (.cons ⟨rfl, h2⟩ (.cons ⟨rfl, h3⟩
          (.cons ⟨rfl, h4⟩ .nil)))) .nil)⟩ (hr rfl) 2 _).1
      | false =>
        exact hr2 rfl _ ⟨rfl, .cons (.tensor h1) (.cons (.tuple h2 h3 h4) .nil)⟩
  fit := fun h h' => h.fit2 closed_err3.zero h' axes
  defaultLevel := by
    intro t t' ht
    show packetLevel2 (mapW (tap3 g) w) axes t' = packetLevel2 w axes t
    unfold packetLevel2
    rw [rel_planeSizes closed_err3.zero ht, mapW_len]

end Verif
