/-
C81 for the multidimensional reconstructions.
-/
import Verif.Spec.MirrorRec
import Verif.Props.Mirror
import Verif.Props.RecGenSep

namespace Verif
open Tensor Spec
variable {R : Type} [CommSemiring R]

theorem synthesisN_mirror {F : Nat} {ε δ : R} (hεδ : ε * δ = 1) {f₀ f₁ f₀' f₁' : List R} (h0 : f₀.length = F)
    (h1 : f₁.length = F) (h0' : f₀' = f₀.reverse) (h1' : f₁' = (f₁.map fun a => ε * a).reverse) (hF : 2 ≤ F) :
    ∀ {Ks : List Nat} {η : R} {c c' : List Bool → List Nat → R} {ms : List Nat},
      (∀ bs ks, bs.length = Ks.length → InB Ks ks → c' bs ks = (η * δ ^ bs.count true) * c bs (revIx Ks ks)) →
      InB (Ks.map fun K => 2 * K + 2 - F) ms →
      synthesisN f₀' f₁' Ks c' (ms.map fun k => ((k + (F - 2) : ℕ) : ℤ)) =
        η * synthesisN f₀ f₁ Ks c ((revIx (Ks.map fun K => 2 * K + 2 - F) ms).map fun k => ((k + (F - 2) : ℕ) : ℤ))
  | [], η, c, c', [], h, _ => by
    have := h [] [] rfl trivial
    simpa [synthesisN, revIx] using this
  | K :: Ks, η, c, c', m :: ms, h, hm => by
    have hm' : m < 2 * K + 2 - F ∧ InB (Ks.map fun K => 2 * K + 2 - F) ms := hm
    show synthesis f₀' f₁' K (fun k => synthesisN f₀' f₁' Ks (fun bs ks => c' (false :: bs) (k :: ks))
        (ms.map fun k => ((k + (F - 2) : ℕ) : ℤ)))
      (fun k => synthesisN f₀' f₁' Ks (fun bs ks => c' (true :: bs) (k :: ks)) (ms.map fun k => ((k + (F - 2) : ℕ) : ℤ)))
      ((m + (F - 2) : ℕ) : ℤ) =
      η * synthesis f₀ f₁ K (fun k => synthesisN f₀ f₁ Ks (fun bs ks => c (false :: bs) (k :: ks))
        ((revIx (Ks.map fun K => 2 * K + 2 - F) ms).map fun k => ((k + (F - 2) : ℕ) : ℤ)))
      (fun k => synthesisN f₀ f₁ Ks (fun bs ks => c (true :: bs) (k :: ks))
        ((revIx (Ks.map fun K => 2 * K + 2 - F) ms).map fun k => ((k + (F - 2) : ℕ) : ℤ)))
      ((2 * K + 2 - F - 1 - m + (F - 2) : ℕ) : ℤ)
    have key := synthesis_mirror (N := 2 * K + 2 - F) hεδ h0 h1 h0' h1'
      (lo := fun k => η * synthesisN f₀ f₁ Ks (fun bs ks => c (false :: bs) (k :: ks))
        ((revIx (Ks.map fun K => 2 * K + 2 - F) ms).map fun k => ((k + (F - 2) : ℕ) : ℤ)))
      (hi := fun k => η * synthesisN f₀ f₁ Ks (fun bs ks => c (true :: bs) (k :: ks))
        ((revIx (Ks.map fun K => 2 * K + 2 - F) ms).map fun k => ((k + (F - 2) : ℕ) : ℤ)))
      (lo' := fun k => synthesisN f₀' f₁' Ks (fun bs ks => c' (false :: bs) (k :: ks))
        (ms.map fun k => ((k + (F - 2) : ℕ) : ℤ)))
      (hi' := fun k => synthesisN f₀' f₁' Ks (fun bs ks => c' (true :: bs) (k :: ks))
        (ms.map fun k => ((k + (F - 2) : ℕ) : ℤ)))
      (fun k hk => synthesisN_mirror hεδ h0 h1 h0' h1' hF (η := η) (c := fun bs ks => c (false :: bs) ((K - 1 - k) :: ks))
        (fun bs ks hb hks => by
          rw [h (false :: bs) (k :: ks) (by simp [hb]) ⟨hk, hks⟩, List.count_cons_of_ne (by decide)]
          rfl) hm'.2)
      (fun k hk => by
        have := synthesisN_mirror hεδ h0 h1 h0' h1' hF (η := δ * η) (c := fun bs ks => c (true :: bs) ((K - 1 - k) :: ks))
          (c' := fun bs ks => c' (true :: bs) (k :: ks)) (fun bs ks hb hks => by
          rw [h (true :: bs) (k :: ks) (by simp [hb]) ⟨hk, hks⟩, List.count_cons_self, pow_succ]
          show _ * c (true :: bs) ((K - 1 - k) :: revIx Ks ks) = _
          ring) hm'.2
        rw [this, mul_assoc]) hF rfl hm'.1
    rw [key]
    unfold synthesis
    rw [Finset.mul_sum]
    refine Finset.sum_congr rfl fun k _ => ?_
    ring
  | [], _, _, _, _ :: _, _, h => h.elim
  | _ :: _, _, _, _, [], _, h => h.elim

theorem idwtN_mirror {F : Nat} {ε δ : R} (hεδ : ε * δ = 1) {f₀ f₁ f₀' f₁' : List R} (h0 : f₀.length = F)
    (h1 : f₁.length = F) (h0' : f₀' = f₀.reverse) (h1' : f₁' = (f₁.map fun a => ε * a).reverse) (hF : 2 ≤ F) :
    ∀ {Ks : List Nat} {ds ds' : List (List Nat × (List Bool → List Nat → R))} {lo lo' : List Nat → R},
      ExactFitN F Ks (ds.map Prod.fst) → (∀ ks, InB Ks ks → lo' ks = lo (revIx Ks ks)) →
      List.Forall₂ (fun d d' => d'.1 = d.1 ∧ ∀ bs ks, InB d.1 ks → d'.2 bs ks = δ ^ bs.count true * d.2 bs (revIx d.1 ks))
        ds ds' → ∀ ms, InB (idwtLenSep F Ks (ds.map Prod.fst)) ms →
      idwtN f₀' f₁' F lo' ds' ms = idwtN f₀ f₁ F lo ds (revIx (idwtLenSep F Ks (ds.map Prod.fst)) ms)
  | _, [], [], _, _, _, hlo, _, ms, hm => hlo ms hm
  | Ks, (D, hi) :: rest, (D', hi') :: rest', lo, lo', hx, hlo, hd, ms, hm => by
    cases hd with
    | cons h hd =>
      obtain ⟨h2, hk⟩ := h
      change D' = D at h2
      subst h2
      obtain ⟨h3, -, hx⟩ : D' = Ks ∧ (∀ K ∈ Ks, 1 ≤ K) ∧ ExactFitN F (Ks.map fun K => 2 * K + 2 - F) (rest.map Prod.fst) := hx
      subst h3
      refine idwtN_mirror hεδ h0 h1 h0' h1' hF (Ks := D'.map fun K => 2 * K + 2 - F) hx (fun ks hks => ?_) hd ms hm
      have := synthesisN_mirror hεδ h0 h1 h0' h1' hF (Ks := D') (η := 1) (c := fun bs => if true ∈ bs then hi bs else lo)
        (c' := fun bs => if true ∈ bs then hi' bs else lo') (fun bs js _ hj => ?_) hks
      · rw [one_mul] at this
        exact this
      · by_cases hb : true ∈ bs
        · simp only [if_pos hb, one_mul]
          exact hk bs js hj
        · simp only [if_neg hb]
          rw [List.count_eq_zero_of_not_mem hb, pow_zero, mul_one, one_mul]
          exact hlo js hj
  | _, [], _ :: _, _, _, _, _, hd, _, _ => by cases hd
  | _, _ :: _, [], _, _, _, _, hd, _, _ => by cases hd

theorem exactFitN_covered {F : Nat} : ∀ {Ks : List Nat} {Kss : List (List Nat)}, ExactFitN F Ks Kss → CoveredN F Ks Kss
  | _, [], _ => trivial
  | Ks, d :: rest, h => by
    obtain ⟨rfl, h1, h2⟩ := h
    exact ⟨List.forall₂_same.mpr fun K hK => ⟨h1 K hK, le_rfl⟩, exactFitN_covered h2⟩

theorem exactFitN_consistent {F : Nat} : ∀ {Ks : List Nat} {Kss : List (List Nat)}, ExactFitN F Ks Kss →
    ConsistentN F Ks Kss ∧ idwtLenN F Ks Kss = idwtLenSep F Ks Kss
  | _, [], _ => ⟨trivial, rfl⟩
  | Ks, [d], h => by
    obtain ⟨rfl, h1, -⟩ := h
    exact ⟨⟨rfl, h1⟩, rfl⟩
  | Ks, d :: n :: rest, h => by
    obtain ⟨rfl, h1, h2⟩ := h
    have h3 := h2
    obtain ⟨rfl, h4, -⟩ := h3
    obtain ⟨h5, h6⟩ := exactFitN_consistent h2
    refine ⟨⟨rfl, h1, ?_, h5⟩, h6⟩
    unfold NextFits
    rw [List.forall₂_map_right_iff, List.forall₂_same]
    intro K hK
    have := h4 _ (List.mem_map_of_mem (f := fun K => 2 * K + 2 - F) hK)
    left
    omega

theorem exactFitN_len {F : Nat} : ∀ {Ks : List Nat} {Kss : List (List Nat)}, ExactFitN F Ks Kss →
    (∀ d ∈ Kss, d.length = Ks.length) ∧ (idwtLenSep F Ks Kss).length = Ks.length
  | _, [], _ => ⟨by simp, rfl⟩
  | Ks, d :: rest, h => by
    obtain ⟨rfl, -, h2⟩ := h
    obtain ⟨h3, h4⟩ := exactFitN_len h2
    rw [List.length_map] at h3 h4
    refine ⟨fun e he => ?_, h4⟩
    rcases List.mem_cons.mp he with rfl | he
    · rfl
    · exact h3 e he

theorem flipped_plane {ax S N Ks : List Nat} {c : R} {t t' : Tensor R} (hn : ax.Nodup) (hlt : ∀ a ∈ ax, a < S.length)
    (hK : Ks.length = ax.length) (hN : N.length = ax.length) (ht : t.shape = setMany S ax Ks) (h : Flipped ax c t t')
    {idx : List Nat} (hidx : InB (setMany S ax N) idx) {ks : List Nat} (hk : InB Ks ks) :
    plane t' ax idx ks = c * plane t ax idx (revIx Ks ks) := by
  have hl : idx.length = S.length := by rw [hidx.length_eq, setMany_length]
  have hlti : ∀ a ∈ ax, a < idx.length := by rw [hl]; exact hlt
  have hkl : ks.length = ax.length := by rw [hk.length_eq, hK]
  have hts : sizes ax t.shape = Ks := by rw [ht, sizes_setMany hn hlt hK]
  have hrl : (revIx Ks ks).length = ax.length := by rw [revIx_length _ _ hk.length_eq, hK]
  have hb : InB t.shape (setMany idx ax ks) :=
    inB_setMany hn (by rw [ht, setMany_length]; exact hlt) hN (by rw [ht, setMany_setMany hn hlt hN]; exact hidx)
      (by rw [hts]; exact hk)
  unfold plane
  rw [if_pos hkl, if_pos hrl, h.get _ hb, ← revIx_sizes, hts, sizes_setMany hn hlti hkl, setMany_setMany hn hlti hrl]

theorem forall2_zipWith {A B C D E : Type} {P : A → C → Prop} {Q : D → E → Prop} {f : A → B → D} {g : C → B → E}
    {P1 : A → B → Prop} (H : ∀ a b c, P a c → P1 a b → Q (f a b) (g c b)) :
    ∀ {as : List A} {bs : List B} {cs : List C}, List.Forall₂ P as cs → List.Forall₂ P1 as bs →
      List.Forall₂ Q (List.zipWith f as bs) (List.zipWith g cs bs)
  | [], [], [], _, _ => .nil
  | _ :: _, _ :: _, _ :: _, .cons h1 h2, .cons h3 h4 => .cons (H _ _ _ h1 h3) (forall2_zipWith H h2 h4)

/-- From the formulas for the two reconstructions to the tensors. -/
theorem flipped_rec {F n : Nat} {ε δ : R} {w w' : Wavelet R} {ax S K0 : List Nat} {Kss : List (List Nat)} {md : Meta}
    {t0 t0' : Tensor R} {es es' : List (Entry R)} {z z' : Tensor R} (hεδ : ε * δ = 1) (h0 : w.recLo.length = F)
    (h1 : w.recHi.length = F) (hw : MirroredRec ε w w') (hF : 2 ≤ F) (hn : ax.Nodup) (hlt : ∀ a ∈ ax, a < S.length)
    (hax : ax.length = n) (hK0 : K0.length = n) (hx : ExactFitN F K0 Kss) (ht : Uniform md (setMany S ax K0) t0)
    (hU : List.Forall₂ (fun e Ks => ∀ bs t, bandGet e bs = some t → Uniform md (setMany S ax Ks) t) es Kss)
    (hc0 : Flipped ax 1 t0 t0') (hes : List.Forall₂ (EntryFlipped ax δ) es es')
    (hz : z.md = md ∧ z.shape = setMany S ax (idwtLenSep F K0 Kss) ∧ ∀ idx, InB z.shape idx → z.get idx =
        idwtN w.recLo w.recHi F (plane t0 ax idx) (List.zipWith (fun e Ks => (Ks, bandPlane e ax idx)) es Kss) (sizes ax idx))
    (hz' : z'.md = md ∧ z'.shape = setMany S ax (idwtLenSep F K0 Kss) ∧ ∀ idx, InB z'.shape idx → z'.get idx =
        idwtN w'.recLo w'.recHi F (plane t0' ax idx) (List.zipWith (fun e Ks => (Ks, bandPlane e ax idx)) es' Kss)
          (sizes ax idx)) : Flipped ax 1 z z' := by
  obtain ⟨z1, z2, z3⟩ := hz
  obtain ⟨z1', z2', z3'⟩ := hz'
  obtain ⟨hKl, hNl⟩ := exactFitN_len hx
  have hfst : ∀ idx, (List.zipWith (fun e Ks => (Ks, bandPlane e ax idx)) es Kss).map Prod.fst = Kss := by
    intro idx
    clear hes hx z3 z3' hKl hNl z2 z2'
    induction hU with
    | nil => rfl
    | cons _ _ ih => rw [List.zipWith_cons_cons, List.map_cons, ih]
  generalize hN : idwtLenSep F K0 Kss = N at *
  have hNl' : N.length = ax.length := by rw [hNl, hK0, hax]
  refine ⟨by rw [z1, z1'], by rw [z2, z2'], fun idx hidx => ?_⟩
  have hidx' : InB (setMany S ax N) idx := by rw [← z2]; exact hidx
  have hl : idx.length = S.length := by rw [hidx'.length_eq, setMany_length]
  have hlti : ∀ a ∈ ax, a < idx.length := by rw [hl]; exact hlt
  have hzs : sizes ax z.shape = N := by rw [z2, sizes_setMany hn hlt hNl']
  have hk : InB N (sizes ax idx) := by
    rw [← hzs]
    exact inB_sizes (by rw [z2, setMany_length]; exact hlt) hidx
  have hrl : (revIx N (sizes ax idx)).length = ax.length := by rw [revIx_length _ _ hk.length_eq, hNl']
  have hb : InB z.shape (setMany idx ax (revIx N (sizes ax idx))) :=
    inB_setMany hn (by rw [z2, setMany_length]; exact hlt) (Ks := N) hNl'
      (by rw [z2, setMany_setMany hn hlt hNl']; exact hidx') (by rw [hzs]; exact inB_revIx hk)
  rw [one_mul, ← revIx_sizes, hzs, z3' idx (by rw [z2', ← z2]; exact hidx), z3 _ hb, sizes_setMany hn hlti hrl]
  have hpl : ∀ t : Tensor R, plane t ax (setMany idx ax (revIx N (sizes ax idx))) = plane t ax idx := fun t =>
    plane_setMany hn hlti
  have hbp : ∀ e : Entry R, bandPlane e ax (setMany idx ax (revIx N (sizes ax idx))) = bandPlane e ax idx := by
    intro e
    funext bs
    unfold bandPlane
    cases bandGet e bs with
    | none => rfl
    | some t => exact hpl t
  simp only [hpl, hbp]
  have key := idwtN_mirror hεδ h0 h1 hw.lo hw.hi hF (Ks := K0)
    (ds := List.zipWith (fun e Ks => (Ks, bandPlane e ax idx)) es Kss)
    (ds' := List.zipWith (fun e Ks => (Ks, bandPlane e ax idx)) es' Kss) (lo := plane t0 ax idx) (lo' := plane t0' ax idx)
    (by rw [hfst]; exact hx)
    (fun ks hks => by
      rw [flipped_plane hn hlt (by rw [hK0, hax]) hNl' ht.2 hc0 hidx' hks, one_mul]) ?_ (sizes ax idx)
    (by rw [hfst, hN]; exact hk)
  · rw [hfst, hN] at key
    exact key
  · have hU' : List.Forall₂ (fun e (Ks : List Nat) => Ks.length = ax.length ∧
        ∀ bs t, bandGet e bs = some t → Uniform md (setMany S ax Ks) t) es Kss := by
      rw [hK0, ← hax] at hKl
      clear hes hx z3 z3' hfst hN hNl
      induction hU with
      | nil => exact .nil
      | cons h _ ih => exact .cons ⟨hKl _ (by simp), h⟩ (ih fun d hd => hKl d (by simp [hd]))
    refine forall2_zipWith (P := EntryFlipped ax δ) (fun e Ks e' he hu => ⟨rfl, fun bs ks hks => ?_⟩) hes hU'
    have hr := he bs
    show bandPlane e' ax idx bs ks = _ * bandPlane e ax idx bs (revIx Ks ks)
    unfold bandPlane
    cases h2 : bandGet e bs with
    | none =>
      rw [h2] at hr
      cases h3 : bandGet e' bs with
      | none => simp
      | some t' => rw [h3] at hr; cases hr
    | some t =>
      rw [h2] at hr
      cases h3 : bandGet e' bs with
      | none => rw [h3] at hr; cases hr
      | some t' =>
        rw [h3] at hr
        cases hr with
        | some hr => exact flipped_plane hn hlt hu.1 hNl' (hu.2 bs t h2).2 hr hidx' hks

theorem isTuple_bandGet {P : List Bool → Tensor R → Prop} {e : Entry R} (h : IsTuple P e) {bs : List Bool} {t : Tensor R}
    (ht : bandGet e bs = some t) : P bs t := by
  obtain ⟨h, v, d, rfl, h1, h2, h3⟩ := h
  unfold bandGet at ht
  simp only at ht
  split_ifs at ht with k1 k2 k3
  · cases ht; subst k1; exact h1
  · cases ht; subst k2; exact h2
  · cases ht; subst k3; exact h3

theorem isDict_bandGet {P : List Bool → Tensor R → Prop} {keys : List String} {e : Entry R} (h : IsDict keys P e) {bs : List Bool}
    {t : Tensor R} (ht : bandGet e bs = some t) : P bs t := by
  obtain ⟨kv, rfl, -, h2⟩ := h
  unfold bandGet at ht
  simp only [Option.map_eq_some_iff] at ht
  obtain ⟨q, hq, rfl⟩ := ht
  have hb := List.find?_some hq
  rw [← eq_of_beq hb]
  exact h2 q (List.mem_of_find?_eq_some hq)

namespace Props

/-- **C81, synthesis along two axes.** Reconstructing from coefficients read backwards along both axes (with a factor `δ = 1/ε` per
high-pass letter of a band) with the mirrored synthesis filters gives the reconstruction read backwards, if the sizes fit
exactly. -/
theorem c81_mirror_waverec2 (w w' : Wavelet R) (ε δ : R) (F : Nat) (axes : AxisHint) (md : Meta) (S : List Nat)
    (t0 t0' : Tensor R) (es es' : List (Entry R)) (K0 : List Nat) (Kss : List (List Nat)) (hF : 2 ≤ F)
    (h0 : w.recLo.length = F) (h1 : w.recHi.length = F) (hw : MirroredRec ε w w') (hεδ : ε * δ = 1)
    (hg : GoodAxes axes S.length 2) (hdt : md.dtype = .float32 ∨ md.dtype = .float64) (hK0 : K0.length = 2)
    (ht : Uniform md (setMany S (axesOf axes S.length 2) K0) t0)
    (hes : List.Forall₂ (fun e Ks => IsTuple (fun _ t => Uniform md (setMany S (axesOf axes S.length 2) Ks) t) e) es Kss)
    (hes' : List.Forall₂ (fun e Ks => IsTuple (fun _ t => Uniform md (setMany S (axesOf axes S.length 2) Ks) t) e) es' Kss)
    (hx : ExactFitN F K0 Kss) (hc0 : Flipped (axesOf axes S.length 2) 1 t0 t0')
    (hfl : List.Forall₂ (EntryFlipped (axesOf axes S.length 2) δ) es es') :
    ∃ z z', waverec2 (container t0 es) w axes = .ok z ∧ waverec2 (container t0' es') w' axes = .ok z' ∧
      Flipped (axesOf axes S.length 2) 1 z z' := by
  have hK : ∀ Ks ∈ K0 :: Kss, Ks.length = 2 := by
    intro Ks h
    rcases List.mem_cons.mp h with rfl | h
    · exact hK0
    · rw [(exactFitN_len hx).1 Ks h, hK0]
  have h0' : w'.recLo.length = F := by rw [hw.lo]; simpa using h0
  have h1' : w'.recHi.length = F := by rw [hw.hi]; simpa using h1
  have ht' : Uniform md (setMany S (axesOf axes S.length 2) K0) t0' := ⟨by rw [hc0.md]; exact ht.1, by rw [hc0.shape]; exact ht.2⟩
  obtain ⟨z, e, hz⟩ := c59_waverec2_textbook w F axes md S t0 es K0 Kss hF h0 h1 hg hdt hK ht hes (exactFitN_consistent hx).1
  obtain ⟨z', e', hz'⟩ := c59_waverec2_textbook w' F axes md S t0' es' K0 Kss hF h0' h1' hg hdt hK ht' hes' (exactFitN_consistent hx).1
  rw [(exactFitN_consistent hx).2] at hz hz'
  exact ⟨z, z', e, e', flipped_rec hεδ h0 h1 hw hF hg.nodup hg.lt (by simp [axesOf, hg.len]) hK0 hx ht
    (hes.imp fun e Ks h bs t => isTuple_bandGet h) hc0 hfl hz hz'⟩

/-- **C81, synthesis along three axes.** -/
theorem c81_mirror_waverec3 (w w' : Wavelet R) (ε δ : R) (F : Nat) (axes : AxisHint) (md : Meta) (S : List Nat)
    (t0 t0' : Tensor R) (es es' : List (Entry R)) (K0 : List Nat) (Kss : List (List Nat)) (hF : 2 ≤ F)
    (h0 : w.recLo.length = F) (h1 : w.recHi.length = F) (hw : MirroredRec ε w w') (hεδ : ε * δ = 1)
    (hg : GoodAxes axes S.length 3) (hdt : md.dtype = .float32 ∨ md.dtype = .float64) (hK0 : K0.length = 3)
    (ht : Uniform md (setMany S (axesOf axes S.length 3) K0) t0)
    (hes : List.Forall₂ (fun e Ks => IsDict keys3 (fun _ t => Uniform md (setMany S (axesOf axes S.length 3) Ks) t) e) es Kss)
    (hes' : List.Forall₂ (fun e Ks => IsDict keys3 (fun _ t => Uniform md (setMany S (axesOf axes S.length 3) Ks) t) e) es' Kss)
    (hx : ExactFitN F K0 Kss) (hc0 : Flipped (axesOf axes S.length 3) 1 t0 t0')
    (hfl : List.Forall₂ (EntryFlipped (axesOf axes S.length 3) δ) es es') :
    ∃ z z', waverec3 (container t0 es) w axes = .ok z ∧ waverec3 (container t0' es') w' axes = .ok z' ∧
      Flipped (axesOf axes S.length 3) 1 z z' := by
  have hK : ∀ Ks ∈ K0 :: Kss, Ks.length = 3 := by
    intro Ks h
    rcases List.mem_cons.mp h with rfl | h
    · exact hK0
    · rw [(exactFitN_len hx).1 Ks h, hK0]
  have h0' : w'.recLo.length = F := by rw [hw.lo]; simpa using h0
  have h1' : w'.recHi.length = F := by rw [hw.hi]; simpa using h1
  have ht' : Uniform md (setMany S (axesOf axes S.length 3) K0) t0' := ⟨by rw [hc0.md]; exact ht.1, by rw [hc0.shape]; exact ht.2⟩
  obtain ⟨z, e, hz⟩ := c59_waverec3_textbook w F axes md S t0 es K0 Kss hF h0 h1 hg hdt hK ht hes (exactFitN_consistent hx).1
  obtain ⟨z', e', hz'⟩ := c59_waverec3_textbook w' F axes md S t0' es' K0 Kss hF h0' h1' hg hdt hK ht' hes' (exactFitN_consistent hx).1
  rw [(exactFitN_consistent hx).2] at hz hz'
  exact ⟨z, z', e, e', flipped_rec hεδ h0 h1 hw hF hg.nodup hg.lt (by simp [axesOf, hg.len]) hK0 hx ht
    (hes.imp fun e Ks h bs t => isDict_bandGet h) hc0 hfl hz hz'⟩

/-- **C81, separable synthesis along two axes.** -/
theorem c81_mirror_fswaverec2 (w w' : Wavelet R) (ε δ : R) (F : Nat) (axes : AxisHint) (md : Meta) (S : List Nat)
    (t0 t0' : Tensor R) (es es' : List (Entry R)) (K0 : List Nat) (Kss : List (List Nat)) (keys : List String) (hF : 2 ≤ F)
    (h0 : w.recLo.length = F) (h1 : w.recHi.length = F) (hw : MirroredRec ε w w') (hεδ : ε * δ = 1)
    (hg : GoodAxes axes S.length 2) (hdt : md.dtype = .float32 ∨ md.dtype = .float64) (hK0 : K0.length = 2) (hkeys : keys.Perm ["da", "ad", "dd"])
    (ht : Uniform md (setMany S (axesOf axes S.length 2) K0) t0)
    (hes : List.Forall₂ (fun e Ks => IsDict keys (fun _ t => Uniform md (setMany S (axesOf axes S.length 2) Ks) t) e) es Kss)
    (hes' : List.Forall₂ (fun e Ks => IsDict keys (fun _ t => Uniform md (setMany S (axesOf axes S.length 2) Ks) t) e) es' Kss)
    (hx : ExactFitN F K0 Kss) (hc0 : Flipped (axesOf axes S.length 2) 1 t0 t0')
    (hfl : List.Forall₂ (EntryFlipped (axesOf axes S.length 2) δ) es es') :
    ∃ z z', (fswaverec2 (container t0 es) w axes).1 = .ok z ∧ (fswaverec2 (container t0' es') w' axes).1 = .ok z' ∧
      Flipped (axesOf axes S.length 2) 1 z z' := by
  have hK : ∀ Ks ∈ K0 :: Kss, Ks.length = 2 := by
    intro Ks h
    rcases List.mem_cons.mp h with rfl | h
    · exact hK0
    · rw [(exactFitN_len hx).1 Ks h, hK0]
  have h0' : w'.recLo.length = F := by rw [hw.lo]; simpa using h0
  have h1' : w'.recHi.length = F := by rw [hw.hi]; simpa using h1
  have ht' : Uniform md (setMany S (axesOf axes S.length 2) K0) t0' := ⟨by rw [hc0.md]; exact ht.1, by rw [hc0.shape]; exact ht.2⟩
  obtain ⟨z, e, hz⟩ := c59_fswaverec2_textbook w F axes md S t0 es K0 Kss keys hF h0 h1 hg hdt hK hkeys ht hes (exactFitN_covered hx)
  obtain ⟨z', e', hz'⟩ := c59_fswaverec2_textbook w' F axes md S t0' es' K0 Kss keys hF h0' h1' hg hdt hK hkeys ht' hes' (exactFitN_covered hx)
  exact ⟨z, z', e, e', flipped_rec hεδ h0 h1 hw hF hg.nodup hg.lt (by simp [axesOf, hg.len]) hK0 hx ht
    (hes.imp fun e Ks h bs t => isDict_bandGet h) hc0 hfl hz hz'⟩

/-- **C81, separable synthesis along three axes.** -/
theorem c81_mirror_fswaverec3 (w w' : Wavelet R) (ε δ : R) (F : Nat) (axes : AxisHint) (md : Meta) (S : List Nat)
    (t0 t0' : Tensor R) (es es' : List (Entry R)) (K0 : List Nat) (Kss : List (List Nat)) (keys : List String) (hF : 2 ≤ F)
    (h0 : w.recLo.length = F) (h1 : w.recHi.length = F) (hw : MirroredRec ε w w') (hεδ : ε * δ = 1)
    (hg : GoodAxes axes S.length 3) (hdt : md.dtype = .float32 ∨ md.dtype = .float64) (hK0 : K0.length = 3) (hkeys : keys.Perm ["aad", "ada", "add", "daa", "dad", "dda", "ddd"])
    (ht : Uniform md (setMany S (axesOf axes S.length 3) K0) t0)
    (hes : List.Forall₂ (fun e Ks => IsDict keys (fun _ t => Uniform md (setMany S (axesOf axes S.length 3) Ks) t) e) es Kss)
    (hes' : List.Forall₂ (fun e Ks => IsDict keys (fun _ t => Uniform md (setMany S (axesOf axes S.length 3) Ks) t) e) es' Kss)
    (hx : ExactFitN F K0 Kss) (hc0 : Flipped (axesOf axes S.length 3) 1 t0 t0')
    (hfl : List.Forall₂ (EntryFlipped (axesOf axes S.length 3) δ) es es') :
    ∃ z z', (fswaverec3 (container t0 es) w axes).1 = .ok z ∧ (fswaverec3 (container t0' es') w' axes).1 = .ok z' ∧
      Flipped (axesOf axes S.length 3) 1 z z' := by
  have hK : ∀ Ks ∈ K0 :: Kss, Ks.length = 3 := by
    intro Ks h
    rcases List.mem_cons.mp h with rfl | h
    · exact hK0
    · rw [(exactFitN_len hx).1 Ks h, hK0]
  have h0' : w'.recLo.length = F := by rw [hw.lo]; simpa using h0
  have h1' : w'.recHi.length = F := by rw [hw.hi]; simpa using h1
  have ht' : Uniform md (setMany S (axesOf axes S.length 3) K0) t0' := ⟨by rw [hc0.md]; exact ht.1, by rw [hc0.shape]; exact ht.2⟩
  obtain ⟨z, e, hz⟩ := c59_fswaverec3_textbook w F axes md S t0 es K0 Kss keys hF h0 h1 hg hdt hK hkeys ht hes (exactFitN_covered hx)
  obtain ⟨z', e', hz'⟩ := c59_fswaverec3_textbook w' F axes md S t0' es' K0 Kss keys hF h0' h1' hg hdt hK hkeys ht' hes' (exactFitN_covered hx)
  exact ⟨z, z', e, e', flipped_rec hεδ h0 h1 hw hF hg.nodup hg.lt (by simp [axesOf, hg.len]) hK0 hx ht
    (hes.imp fun e Ks h bs t => isDict_bandGet h) hc0 hfl hz hz'⟩

/-- A tensor read backwards along the axes `ax` and multiplied by `c`. -/
def flipT (ax : List Nat) (c : R) (t : Tensor R) : Tensor R :=
  ofFn t.md t.shape fun idx => c * t.get (setMany idx ax (ax.map fun a => t.shape.getD a 0 - 1 - idx.getD a 0))

theorem flipT_flipped (ax : List Nat) (c : R) (t : Tensor R) : Flipped ax c t (flipT ax c t) :=
  ⟨rfl, rfl, fun _ hidx => ofFn_get_of _ _ hidx⟩

/-- A detail entry with every band read backwards, a factor `δ` per high-pass letter. -/
def flipE (ax : List Nat) (δ : R) : Entry R → Entry R
  | .tuple h v d => .tuple (flipT ax δ h) (flipT ax δ v) (flipT ax (δ ^ 2) d)
  | .dict kv => .dict (kv.map fun q => (q.1, flipT ax (δ ^ (bandOfKey q.1).count true) q.2))
  | e => e

theorem flipE_tuple (ax : List Nat) (δ : R) (h v d : Tensor R) :
    EntryFlipped ax δ (.tuple h v d) (flipE ax δ (.tuple h v d)) := by
  intro bs
  show Option.Rel _ (if _ then _ else _) (if _ then _ else _)
  split_ifs with k1 k2 k3
  · subst k1
    exact .some (by simpa using flipT_flipped ax δ h)
  · subst k2
    exact .some (by simpa using flipT_flipped ax δ v)
  · subst k3
    exact .some (by simpa using flipT_flipped ax (δ ^ 2) d)
  · exact .none

theorem flipE_dict (ax : List Nat) (δ : R) (kv : List (String × Tensor R)) :
    EntryFlipped ax δ (.dict kv) (flipE ax δ (.dict kv)) := by
  intro bs
  show Option.Rel _ ((kv.find? fun q => bandOfKey q.1 == bs).map Prod.snd)
    (((kv.map fun q => (q.1, flipT ax (δ ^ (bandOfKey q.1).count true) q.2)).find? fun q => bandOfKey q.1 == bs).map Prod.snd)
  induction kv with
  | nil => exact .none
  | cons q kv ih =>
    rw [List.map_cons]
    by_cases h : bandOfKey q.1 = bs
    · rw [List.find?_cons_of_pos (by simpa using h), List.find?_cons_of_pos (by simpa using h)]
      subst h
      exact .some (flipT_flipped _ _ _)
    · rw [List.find?_cons_of_neg (by simpa using h), List.find?_cons_of_neg (by simpa using h)]
      exact ih

/-- A tensor of shape `s` that is not symmetric. -/
def slope (s : List Nat) (q : ℚ) : Tensor ℚ := ofFn ⟨.float64, 0⟩ s fun i => q + i.getD 0 0 + 10 * (i.getD 1 0 : ℚ) ^ 2

theorem slope_uniform (s : List Nat) (q : ℚ) : Uniform ⟨.float64, 0⟩ s (slope s q) := ⟨rfl, rfl⟩

theorem flip_uniform {md : Meta} {s ax : List Nat} {c : R} {t : Tensor R} (h : Uniform md s t) : Uniform md s (flipT ax c t) := h

def slopeTuple (s : List Nat) : Entry ℚ := .tuple (slope s 1) (slope s 2) (slope s 3)

/-- A case: images of `5 × 5` and `8 × 8` coefficients with four-tap filters that are not symmetric; the high-pass filter
of the mirrored bank has the factor 2. -/
example : ∃ w', MirroredRec 2 exW4 w' ∧ ∃ z z',
    waverec2 (container (slope [5, 5] 1) [slopeTuple [5, 5], slopeTuple [8, 8]]) exW4 .none = .ok z ∧
    waverec2 (container (flipT [0, 1] 1 (slope [5, 5] 1)) [flipE [0, 1] (1 / 2) (slopeTuple [5, 5]),
      flipE [0, 1] (1 / 2) (slopeTuple [8, 8])]) w' .none = .ok z' ∧ Flipped [0, 1] 1 z z' := by
  refine ⟨⟨[], [], exW4.recLo.reverse, (exW4.recHi.map fun a => 2 * a).reverse⟩, ⟨rfl, rfl⟩, ?_⟩
  exact c81_mirror_waverec2 exW4 _ 2 (1 / 2) 4 .none ⟨.float64, 0⟩ [1, 1] (slope [5, 5] 1) (flipT [0, 1] 1 (slope [5, 5] 1))
    [slopeTuple [5, 5], slopeTuple [8, 8]] [flipE [0, 1] (1 / 2) (slopeTuple [5, 5]), flipE [0, 1] (1 / 2) (slopeTuple [8, 8])]
    [5, 5] [[5, 5], [8, 8]] (by decide) rfl rfl ⟨rfl, rfl⟩ (by norm_num) (goodAxes_none (by decide) (by decide)) (Or.inr rfl) rfl
    (slope_uniform _ _)
    (.cons ⟨_, _, _, rfl, slope_uniform _ _, slope_uniform _ _, slope_uniform _ _⟩
      (.cons ⟨_, _, _, rfl, slope_uniform _ _, slope_uniform _ _, slope_uniform _ _⟩ .nil))
    (.cons ⟨_, _, _, rfl, flip_uniform (slope_uniform _ _), flip_uniform (slope_uniform _ _), flip_uniform (slope_uniform _ _)⟩
      (.cons ⟨_, _, _, rfl, flip_uniform (slope_uniform _ _), flip_uniform (slope_uniform _ _), flip_uniform (slope_uniform _ _)⟩ .nil))
    ⟨rfl, by decide, rfl, by decide, trivial⟩ (flipT_flipped _ _ _)
    (.cons (flipE_tuple _ _ _ _ _) (.cons (flipE_tuple _ _ _ _ _) .nil))

def slopeDict (keys : List String) (s : List Nat) : Entry ℚ := .dict (keys.map fun k => (k, slope s k.length))

theorem slopeDict_ok (keys : List String) (s : List Nat) : IsDict keys (fun _ t => Uniform ⟨.float64, 0⟩ s t) (slopeDict keys s) :=
  ⟨_, rfl, by rw [List.map_map]; exact List.map_id _, by intro p hp; obtain ⟨k, -, rfl⟩ := List.mem_map.mp hp; exact slope_uniform s _⟩

theorem flipDict_ok (keys : List String) (s ax : List Nat) (δ : ℚ) :
    IsDict keys (fun _ t => Uniform ⟨.float64, 0⟩ s t) (flipE ax δ (slopeDict keys s)) :=
  ⟨_, rfl, by rw [List.map_map, List.map_map]; exact List.map_id _, by
    intro p hp
    obtain ⟨q, hq, rfl⟩ := List.mem_map.mp hp
    obtain ⟨k, -, rfl⟩ := List.mem_map.mp hq
    exact flip_uniform (slope_uniform s _)⟩

/-- The separable transform with its own dictionaries. -/
example : ∃ z z', (fswaverec2 (container (slope [2, 3] 1) [slopeDict ["da", "ad", "dd"] [2, 3], slopeDict ["da", "ad", "dd"] [4, 6]])
      haar .none).1 = .ok z ∧
    (fswaverec2 (container (flipT [0, 1] 1 (slope [2, 3] 1)) [flipE [0, 1] (-1) (slopeDict ["da", "ad", "dd"] [2, 3]),
      flipE [0, 1] (-1) (slopeDict ["da", "ad", "dd"] [4, 6])]) haar .none).1 = .ok z' ∧ Flipped [0, 1] 1 z z' :=
  c81_mirror_fswaverec2 haar haar (-1) (-1) 2 .none ⟨.float64, 0⟩ [1, 1] (slope [2, 3] 1) (flipT [0, 1] 1 (slope [2, 3] 1))
    _ _ [2, 3] [[2, 3], [4, 6]] ["da", "ad", "dd"] le_rfl rfl rfl haar_mirrored.2 (by norm_num)
    (goodAxes_none (by decide) (by decide)) (Or.inr rfl) rfl (List.Perm.refl _) (slope_uniform _ _)
    (.cons (slopeDict_ok _ _) (.cons (slopeDict_ok _ _) .nil)) (.cons (flipDict_ok _ _ _ _) (.cons (flipDict_ok _ _ _ _) .nil))
    ⟨rfl, by decide, rfl, by decide, trivial⟩ (flipT_flipped _ _ _)
    (.cons (flipE_dict _ _ _) (.cons (flipE_dict _ _ _) .nil))

/-- Three dimensions. -/
example : ∃ z z' y y', waverec3 (container (slope [2, 3, 1] 1) [slopeDict keys3 [2, 3, 1]]) haar .none = .ok z ∧
    waverec3 (container (flipT [0, 1, 2] 1 (slope [2, 3, 1] 1)) [flipE [0, 1, 2] (-1) (slopeDict keys3 [2, 3, 1])]) haar .none
      = .ok z' ∧ Flipped [0, 1, 2] 1 z z' ∧
    (fswaverec3 (container (slope [2, 3, 1] 1) [slopeDict keys3 [2, 3, 1]]) haar .none).1 = .ok y ∧
    (fswaverec3 (container (flipT [0, 1, 2] 1 (slope [2, 3, 1] 1)) [flipE [0, 1, 2] (-1) (slopeDict keys3 [2, 3, 1])]) haar .none).1
      = .ok y' ∧ Flipped [0, 1, 2] 1 y y' := by
  obtain ⟨z, z', h1, h2, h3⟩ := c81_mirror_waverec3 haar haar (-1) (-1) 2 .none ⟨.float64, 0⟩ [1, 1, 1] (slope [2, 3, 1] 1)
    (flipT [0, 1, 2] 1 (slope [2, 3, 1] 1)) [slopeDict keys3 [2, 3, 1]] [flipE [0, 1, 2] (-1) (slopeDict keys3 [2, 3, 1])]
    [2, 3, 1] [[2, 3, 1]] le_rfl rfl rfl haar_mirrored.2 (by norm_num)
    (goodAxes_none (by decide) (by decide)) (Or.inr rfl) rfl (slope_uniform _ _) (.cons (slopeDict_ok _ _) .nil)
    (.cons (flipDict_ok _ _ _ _) .nil) ⟨rfl, by decide, trivial⟩ (flipT_flipped _ _ _) (.cons (flipE_dict _ _ _) .nil)
  obtain ⟨y, y', k1, k2, k3⟩ := c81_mirror_fswaverec3 haar haar (-1) (-1) 2 .none ⟨.float64, 0⟩ [1, 1, 1] (slope [2, 3, 1] 1)
    (flipT [0, 1, 2] 1 (slope [2, 3, 1] 1)) [slopeDict keys3 [2, 3, 1]] [flipE [0, 1, 2] (-1) (slopeDict keys3 [2, 3, 1])]
    [2, 3, 1] [[2, 3, 1]] keys3 le_rfl rfl rfl haar_mirrored.2 (by norm_num)
    (goodAxes_none (by decide) (by decide)) (Or.inr rfl) rfl (by decide) (slope_uniform _ _) (.cons (slopeDict_ok _ _) .nil)
    (.cons (flipDict_ok _ _ _ _) .nil) ⟨rfl, by decide, trivial⟩ (flipT_flipped _ _ _) (.cons (flipE_dict _ _ _) .nil)
  exact ⟨z, z', y, y', h1, h2, h3, k1, k2, k3⟩

end Props
end Verif
