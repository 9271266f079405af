/-
C59: the multidimensional reconstructions compute the textbook synthesis of arbitrary coefficients, and reject
coefficients whose sizes do not fit together.
-/
import Verif.Lemmas.RecGenN
import Verif.Props.ConvNd

namespace Verif.Props
open Tensor Spec
variable {R : Type}

/-- The coefficient container `(approximation, details of the coarsest level, …, details of the finest level)`. -/
def container [Zero R] (t0 : Tensor R) (es : List (Entry R)) : Coeffs R := ⟨false, .tensor t0 :: es⟩

theorem idwtLenN_length {F n : Nat} : ∀ {Ks : List Nat} {Kss : List (List Nat)}, Ks.length = n →
    (∀ Ks ∈ Kss, Ks.length = n) → (idwtLenN F Ks Kss).length = n
  | _, [], h, _ => h
  | _, [d], _, h => by
    show (d.map _).length = n
    rw [List.length_map]; exact h d (by simp)
  | _, d :: m :: rest, _, h => idwtLenN_length (F := F) (Ks := m) (Kss := m :: rest) (h m (by simp))
      fun Ks hKs => h Ks (List.mem_cons_of_mem _ hKs)

/-- **C59.** `waverec2` on arbitrary coefficients whose sizes fit together (all bands of a level agree, and the next
level has along every axis the size of the synthesised signal or one less): it succeeds, and the result is, plane by
plane along the two axes, the textbook inverse transform of the planes of the coefficients. -/
theorem c59_waverec2_textbook [Semiring R] (w : Wavelet R) (F : Nat) (axes : AxisHint) (md : Meta) (S : List Nat)
    (t0 : Tensor R) (es : List (Entry R)) (K0 : List Nat) (Kss : List (List Nat)) (hF : 2 ≤ F)
    (h0 : w.recLo.length = F) (h1 : w.recHi.length = F)
    (hg : GoodAxes axes S.length 2) (hdt : md.dtype = .float32 ∨ md.dtype = .float64)
    (hK : ∀ Ks ∈ K0 :: Kss, Ks.length = 2)
    (ht : Uniform md (setMany S (axesOf axes S.length 2) K0) t0)
    (hes : List.Forall₂ (fun e Ks => IsTuple (fun _ t => Uniform md (setMany S (axesOf axes S.length 2) Ks) t) e) es Kss)
    (hc : ConsistentN F K0 Kss) :
    ∃ z, waverec2 (container t0 es) w axes = .ok z ∧ z.md = md ∧
      z.shape = setMany S (axesOf axes S.length 2) (idwtLenN F K0 Kss) ∧
      ∀ idx, InB z.shape idx → z.get idx =
        idwtN w.recLo w.recHi F (plane t0 (axesOf axes S.length 2) idx)
          (List.zipWith (fun e Ks => (Ks, bandPlane e (axesOf axes S.length 2) idx)) es Kss)
          (sizes (axesOf axes S.length 2) idx) := by
  have hd : isDtypeSupported md.dtype = true := by unfold isDtypeSupported; simpa using hdt
  have hK0 := hK K0 (by simp)
  have hKs : ∀ Ks ∈ Kss, Ks.length = 2 := fun Ks h => hK Ks (by simp [h])
  obtain ⟨u0, us, c₀, ep, ec, s0, ss, sf, hpost⟩ := rec_gen isTuple_band hg hd hK0 hKs ht hes
  obtain ⟨filt, ef, hf⟩ := construct2d_ok (lo := w.recLo) (hi := w.recHi) h0 h1 false md
  obtain ⟨hok, -⟩ := recLoop_gen isTuple_band (rec2Step_ok hF h0 h1 hf) us _ u0 K0 _ hK0
    (fun p hp => hKs _ (by rw [← sf]; exact List.mem_map_of_mem hp)) s0 ss
  obtain ⟨z₀, ez, hz⟩ := hok (by rw [sf]; exact hc)
  rw [sf] at hz
  obtain ⟨z, epz, hz⟩ := hpost z₀ _ (fun lo ps => idwtN w.recLo w.recHi F lo ps) (idwtLenN_length hK0 hKs) hz
  refine ⟨z, ?_, hz⟩
  unfold waverec2 container
  simp only [bind, Except.bind, ep, ec, ef, headTensor, h0, List.tail_cons, waverec2Loop_eq, ez]
  exact epz

/-- **C59.** `waverec2` rejects coefficients of which some level does not have the size the levels before synthesise
(or one less) along one of the axes. -/
theorem c59_waverec2_size_clash [Semiring R] (w : Wavelet R) (F : Nat) (axes : AxisHint) (md : Meta) (S : List Nat)
    (t0 : Tensor R) (es : List (Entry R)) (K0 : List Nat) (Kss : List (List Nat)) (hF : 2 ≤ F)
    (h0 : w.recLo.length = F) (h1 : w.recHi.length = F)
    (hg : GoodAxes axes S.length 2) (hdt : md.dtype = .float32 ∨ md.dtype = .float64)
    (hK : ∀ Ks ∈ K0 :: Kss, Ks.length = 2)
    (ht : Uniform md (setMany S (axesOf axes S.length 2) K0) t0)
    (hes : List.Forall₂ (fun e Ks => IsTuple (fun _ t => Uniform md (setMany S (axesOf axes S.length 2) Ks) t) e) es Kss)
    (hc : SizeClashN F K0 Kss) : waverec2 (container t0 es) w axes = .error .assertionError := by
  have hd : isDtypeSupported md.dtype = true := by unfold isDtypeSupported; simpa using hdt
  have hK0 := hK K0 (by simp)
  have hKs : ∀ Ks ∈ Kss, Ks.length = 2 := fun Ks h => hK Ks (by simp [h])
  obtain ⟨u0, us, c₀, ep, ec, s0, ss, sf, -⟩ := rec_gen isTuple_band hg hd hK0 hKs ht hes
  obtain ⟨filt, ef, hf⟩ := construct2d_ok (lo := w.recLo) (hi := w.recHi) h0 h1 false md
  obtain ⟨-, hbad⟩ := recLoop_gen isTuple_band (rec2Step_ok hF h0 h1 hf) us _ u0 K0 _ hK0
    (fun p hp => hKs _ (by rw [← sf]; exact List.mem_map_of_mem hp)) s0 ss
  have ez := hbad (by rw [sf]; exact hc)
  unfold waverec2 container
  simp only [bind, Except.bind, ep, ec, ef, headTensor, h0, List.tail_cons, waverec2Loop_eq, ez]

/-- **C59.** `waverec2` rejects details of other sizes than the approximation. -/
theorem c59_waverec2_band_clash [Semiring R] (w : Wavelet R) (F : Nat) (axes : AxisHint) (md : Meta) (S : List Nat)
    (t0 : Tensor R) (es : List (Entry R)) (K0 : List Nat) (Kss : List (List Nat))
    (h0 : w.recLo.length = F) (h1 : w.recHi.length = F)
    (hg : GoodAxes axes S.length 2) (hdt : md.dtype = .float32 ∨ md.dtype = .float64)
    (hK : ∀ Ks ∈ K0 :: Kss, Ks.length = 2)
    (ht : Uniform md (setMany S (axesOf axes S.length 2) K0) t0)
    (hes : List.Forall₂ (fun e Ks => IsTuple (fun _ t => Uniform md (setMany S (axesOf axes S.length 2) Ks) t) e) es Kss)
    (D1 : List Nat) (hD : Kss.head? = some D1) (hne : D1 ≠ K0) :
    waverec2 (container t0 es) w axes = .error .valueError := by
  have hd : isDtypeSupported md.dtype = true := by unfold isDtypeSupported; simpa using hdt
  have hK0 := hK K0 (by simp)
  have hKs : ∀ Ks ∈ Kss, Ks.length = 2 := fun Ks h => hK Ks (by simp [h])
  obtain ⟨u0, us, c₀, ep, ec, s0, ss, sf, -⟩ := rec_gen isTuple_band hg hd hK0 hKs ht hes
  obtain ⟨filt, ef, hf⟩ := construct2d_ok (lo := w.recLo) (hi := w.recHi) h0 h1 false md
  obtain ⟨Kss', rfl⟩ : ∃ Kss', Kss = D1 :: Kss' := by
    cases Kss with
    | nil => simp at hD
    | cons a l => simp at hD; exact ⟨l, by rw [hD]⟩
  cases us with
  | nil => simp at sf
  | cons u us =>
    rw [List.zipWith_cons_cons, List.forall₂_cons] at ss
    obtain ⟨⟨h, v, d, rfl, hh, -, -⟩, -⟩ := ss
    have hsh : h.shape ≠ u0.shape := by
      rw [hh.shape, s0.shape]
      intro e
      exact hne (List.cons.inj e).2
    unfold waverec2 container
    simp only [bind, Except.bind, ep, ec, ef, headTensor, h0, List.tail_cons, waverec2Loop, waverec2Step,
      if_neg (fun hx : h.shape = u0.shape ∧ v.shape = u0.shape ∧ d.shape = u0.shape => hsh hx.1)]

/-- **C59.** `waverec3` on arbitrary coefficients whose sizes fit together. -/
theorem c59_waverec3_textbook [Semiring R] (w : Wavelet R) (F : Nat) (axes : AxisHint) (md : Meta) (S : List Nat)
    (t0 : Tensor R) (es : List (Entry R)) (K0 : List Nat) (Kss : List (List Nat)) (hF : 2 ≤ F)
    (h0 : w.recLo.length = F) (h1 : w.recHi.length = F)
    (hg : GoodAxes axes S.length 3) (hdt : md.dtype = .float32 ∨ md.dtype = .float64)
    (hK : ∀ Ks ∈ K0 :: Kss, Ks.length = 3)
    (ht : Uniform md (setMany S (axesOf axes S.length 3) K0) t0)
    (hes : List.Forall₂ (fun e Ks => IsDict keys3 (fun _ t => Uniform md (setMany S (axesOf axes S.length 3) Ks) t) e) es Kss)
    (hc : ConsistentN F K0 Kss) :
    ∃ z, waverec3 (container t0 es) w axes = .ok z ∧ z.md = md ∧
      z.shape = setMany S (axesOf axes S.length 3) (idwtLenN F K0 Kss) ∧
      ∀ idx, InB z.shape idx → z.get idx =
        idwtN w.recLo w.recHi F (plane t0 (axesOf axes S.length 3) idx)
          (List.zipWith (fun e Ks => (Ks, bandPlane e (axesOf axes S.length 3) idx)) es Kss)
          (sizes (axesOf axes S.length 3) idx) := by
  have hd : isDtypeSupported md.dtype = true := by unfold isDtypeSupported; simpa using hdt
  have hK0 := hK K0 (by simp)
  have hKs : ∀ Ks ∈ Kss, Ks.length = 3 := fun Ks h => hK Ks (by simp [h])
  obtain ⟨u0, us, c₀, ep, ec, s0, ss, sf, hpost⟩ := rec_gen isDict3_band hg hd hK0 hKs ht hes
  obtain ⟨filt, ef, hf⟩ := construct3d_ok (lo := w.recLo) (hi := w.recHi) h0 h1 false md
  obtain ⟨hok, -⟩ := recLoop_gen isDict3_band (rec3Step_ok hF h0 h1 hf) us _ u0 K0 _ hK0
    (fun p hp => hKs _ (by rw [← sf]; exact List.mem_map_of_mem hp)) s0 ss
  obtain ⟨z₀, ez, hz⟩ := hok (by rw [sf]; exact hc)
  rw [sf] at hz
  obtain ⟨z, epz, hz⟩ := hpost z₀ _ (fun lo ps => idwtN w.recLo w.recHi F lo ps) (idwtLenN_length hK0 hKs) hz
  refine ⟨z, ?_, hz⟩
  unfold waverec3 container
  simp only [bind, Except.bind, ep, ec, ef, headTensor, h0, List.tail_cons, waverec3Loop_eq, ez]
  exact epz

/-- **C59.** `waverec3` rejects coefficients of which some level has the wrong size along one of the axes. -/
theorem c59_waverec3_size_clash [Semiring R] (w : Wavelet R) (F : Nat) (axes : AxisHint) (md : Meta) (S : List Nat)
    (t0 : Tensor R) (es : List (Entry R)) (K0 : List Nat) (Kss : List (List Nat)) (hF : 2 ≤ F)
    (h0 : w.recLo.length = F) (h1 : w.recHi.length = F)
    (hg : GoodAxes axes S.length 3) (hdt : md.dtype = .float32 ∨ md.dtype = .float64)
    (hK : ∀ Ks ∈ K0 :: Kss, Ks.length = 3)
    (ht : Uniform md (setMany S (axesOf axes S.length 3) K0) t0)
    (hes : List.Forall₂ (fun e Ks => IsDict keys3 (fun _ t => Uniform md (setMany S (axesOf axes S.length 3) Ks) t) e) es Kss)
    (hc : SizeClashN F K0 Kss) : waverec3 (container t0 es) w axes = .error .assertionError := by
  have hd : isDtypeSupported md.dtype = true := by unfold isDtypeSupported; simpa using hdt
  have hK0 := hK K0 (by simp)
  have hKs : ∀ Ks ∈ Kss, Ks.length = 3 := fun Ks h => hK Ks (by simp [h])
  obtain ⟨u0, us, c₀, ep, ec, s0, ss, sf, -⟩ := rec_gen isDict3_band hg hd hK0 hKs ht hes
  obtain ⟨filt, ef, hf⟩ := construct3d_ok (lo := w.recLo) (hi := w.recHi) h0 h1 false md
  obtain ⟨-, hbad⟩ := recLoop_gen isDict3_band (rec3Step_ok hF h0 h1 hf) us _ u0 K0 _ hK0
    (fun p hp => hKs _ (by rw [← sf]; exact List.mem_map_of_mem hp)) s0 ss
  have ez := hbad (by rw [sf]; exact hc)
  unfold waverec3 container
  simp only [bind, Except.bind, ep, ec, ef, headTensor, h0, List.tail_cons, waverec3Loop_eq, ez]

/-- **C59.** `waverec3` rejects details of other sizes than the approximation. -/
theorem c59_waverec3_band_clash [Semiring R] (w : Wavelet R) (F : Nat) (axes : AxisHint) (md : Meta) (S : List Nat)
    (t0 : Tensor R) (es : List (Entry R)) (K0 : List Nat) (Kss : List (List Nat))
    (h0 : w.recLo.length = F) (h1 : w.recHi.length = F)
    (hg : GoodAxes axes S.length 3) (hdt : md.dtype = .float32 ∨ md.dtype = .float64)
    (hK : ∀ Ks ∈ K0 :: Kss, Ks.length = 3)
    (ht : Uniform md (setMany S (axesOf axes S.length 3) K0) t0)
    (hes : List.Forall₂ (fun e Ks => IsDict keys3 (fun _ t => Uniform md (setMany S (axesOf axes S.length 3) Ks) t) e) es Kss)
    (D1 : List Nat) (hD : Kss.head? = some D1) (hne : D1 ≠ K0) :
    waverec3 (container t0 es) w axes = .error .valueError := by
  have hd : isDtypeSupported md.dtype = true := by unfold isDtypeSupported; simpa using hdt
  have hK0 := hK K0 (by simp)
  have hKs : ∀ Ks ∈ Kss, Ks.length = 3 := fun Ks h => hK Ks (by simp [h])
  obtain ⟨u0, us, c₀, ep, ec, s0, ss, sf, -⟩ := rec_gen isDict3_band hg hd hK0 hKs ht hes
  obtain ⟨filt, ef, hf⟩ := construct3d_ok (lo := w.recLo) (hi := w.recHi) h0 h1 false md
  obtain ⟨Kss', rfl⟩ : ∃ Kss', Kss = D1 :: Kss' := by
    cases Kss with
    | nil => simp at hD
    | cons a l => simp at hD; exact ⟨l, by rw [hD]⟩
  cases us with
  | nil => simp at sf
  | cons u us =>
    rw [List.zipWith_cons_cons, List.forall₂_cons] at ss
    obtain ⟨t1, t2, t3, t4, t5, t6, t7, rfl, hh, -⟩ := isDict3_dest ss.1
    have hsh : t1.shape ≠ u0.shape := by
      rw [hh.shape, s0.shape]
      intro e
      exact hne (List.cons.inj e).2
    unfold waverec3 container
    simp only [bind, Except.bind, ep, ec, ef, headTensor, h0, List.tail_cons, waverec3Loop, waverec3Step]
    rw [if_neg]
    rintro ⟨-, hx⟩
    exact hsh (hx ("aad", t1) (by simp))

/-- A constant tensor. -/
def cst (s : List Nat) (q : ℚ) : Tensor ℚ := ofFn ⟨.float64, 0⟩ s fun _ => q

theorem cst_uniform (s : List Nat) (q : ℚ) : Uniform ⟨.float64, 0⟩ s (cst s q) := ⟨rfl, rfl⟩

/-- Two Haar levels with sizes `2 × 3` and `3 × 6`, the batch axis (of size 5) in the middle. -/
example : ∃ z, waverec2 (container (cst [2, 5, 3] 1) [.tuple (cst [2, 5, 3] 2) (cst [2, 5, 3] 3) (cst [2, 5, 3] 4),
    .tuple (cst [3, 5, 6] 5) (cst [3, 5, 6] 6) (cst [3, 5, 6] 7)]) haar (.seq [0, 2]) = .ok z ∧ z.shape = [6, 5, 12] := by
  obtain ⟨z, h1, -, h2, -⟩ := c59_waverec2_textbook haar 2 (.seq [0, 2]) ⟨.float64, 0⟩ [1, 5, 1] (cst [2, 5, 3] 1)
    [.tuple (cst [2, 5, 3] 2) (cst [2, 5, 3] 3) (cst [2, 5, 3] 4),
      .tuple (cst [3, 5, 6] 5) (cst [3, 5, 6] 6) (cst [3, 5, 6] 7)] [2, 3] [[2, 3], [3, 6]] le_rfl rfl rfl
    ⟨by decide, rfl, by simp [ValidAxis, resolve], by decide⟩ (Or.inr rfl) (by decide) (cst_uniform _ _)
    (.cons ⟨_, _, _, rfl, cst_uniform _ _, cst_uniform _ _, cst_uniform _ _⟩
      (.cons ⟨_, _, _, rfl, cst_uniform _ _, cst_uniform _ _, cst_uniform _ _⟩ .nil))
    ⟨rfl, by decide, by simp [NextFits], rfl, by decide⟩
  exact ⟨z, h1, h2⟩

/-- The second level has a size that does not fit. -/
example : waverec2 (container (cst [2, 3] 1) [.tuple (cst [2, 3] 2) (cst [2, 3] 3) (cst [2, 3] 4),
    .tuple (cst [3, 7] 5) (cst [3, 7] 6) (cst [3, 7] 7)]) haar .none = .error .assertionError :=
  c59_waverec2_size_clash haar 2 .none ⟨.float64, 0⟩ [1, 1] (cst [2, 3] 1)
    [.tuple (cst [2, 3] 2) (cst [2, 3] 3) (cst [2, 3] 4), .tuple (cst [3, 7] 5) (cst [3, 7] 6) (cst [3, 7] 7)]
    [2, 3] [[2, 3], [3, 7]] le_rfl rfl rfl (goodAxes_none (by decide) (by decide)) (Or.inr rfl) (by decide) (cst_uniform _ _)
    (.cons ⟨_, _, _, rfl, cst_uniform _ _, cst_uniform _ _, cst_uniform _ _⟩
      (.cons ⟨_, _, _, rfl, cst_uniform _ _, cst_uniform _ _, cst_uniform _ _⟩ .nil))
    ⟨rfl, by decide, Or.inl (by simp [NextFits])⟩

/-- The details of one level for the three-dimensional transform. -/
def cstDict (s : List Nat) (q : ℚ) : Entry ℚ := .dict (keys3.map fun k => (k, cst s q))

theorem cstDict_ok (s : List Nat) (q : ℚ) : IsDict keys3 (fun _ t => Uniform ⟨.float64, 0⟩ s t) (cstDict s q) :=
  ⟨_, rfl, by simp [keys3], by intro p hp; obtain ⟨k, -, rfl⟩ := List.mem_map.mp hp; exact cst_uniform s q⟩

example : ∃ z, waverec3 (container (cst [2, 3, 1] 1) [cstDict [2, 3, 1] 2, cstDict [4, 5, 2] 3]) haar .none = .ok z ∧
    z.shape = [8, 10, 4] := by
  obtain ⟨z, h1, -, h2, -⟩ := c59_waverec3_textbook haar 2 .none ⟨.float64, 0⟩ [1, 1, 1] (cst [2, 3, 1] 1)
    [cstDict [2, 3, 1] 2, cstDict [4, 5, 2] 3] [2, 3, 1] [[2, 3, 1], [4, 5, 2]] le_rfl rfl rfl
    (goodAxes_none (by decide) (by decide)) (Or.inr rfl) (by decide) (cst_uniform _ _)
    (.cons (cstDict_ok _ _) (.cons (cstDict_ok _ _) .nil)) ⟨rfl, by decide, by simp [NextFits], rfl, by decide⟩
  exact ⟨z, h1, h2⟩

/-- Details of another size than the approximation. -/
example : waverec3 (container (cst [2, 3, 1] 1) [cstDict [2, 2, 1] 2]) haar .none = .error .valueError :=
  c59_waverec3_band_clash haar 2 .none ⟨.float64, 0⟩ [1, 1, 1] (cst [2, 3, 1] 1)
    [cstDict [2, 2, 1] 2] [2, 3, 1] [[2, 2, 1]] rfl rfl
    (goodAxes_none (by decide) (by decide)) (Or.inr rfl) (by decide) (cst_uniform _ _)
    (.cons (cstDict_ok _ _) .nil) [2, 2, 1] rfl (by decide)

end Verif.Props
