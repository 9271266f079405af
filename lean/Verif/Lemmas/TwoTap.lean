/-
Filters with two taps: the boundary-matrix transforms have no cut-off rows and coincide with the padded
convolution transforms.
-/
import Verif.Lemmas.PacketMat2Nonsep
import Verif.Props.Packet2

namespace Verif
open Tensor Spec Props
variable {R : Type}

theorem two_tap_sum [NonUnitalNonAssocSemiring R] {f : List R} (hf : f.length = 2) (e : ℤ → R) {k N : Nat}
    (hk : 2 * k + 2 ≤ N) :
    (∑ j ∈ Finset.range N, tap f ((1 : ℤ) + 2 * k - j) * e j) = analysis f e k := by
  rw [Finset.sum_eq_add (2 * k) (2 * k + 1) (by omega)]
  · unfold analysis
    rw [hf, Finset.sum_range_succ, Finset.sum_range_one, add_comm]
    congr 1
    · congr 1
      · unfold tap
        have : ((1 : ℤ) + 2 * k - ((2 * k + 1 : ℕ) : ℤ)) = 0 := by push_cast; ring
        rw [this]; simp
    · congr 1
      · unfold tap
        have : ((1 : ℤ) + 2 * k - ((2 * k : ℕ) : ℤ)) = 1 := by push_cast; ring
        rw [this]; simp
      · congr 1; push_cast; ring
  · intro c _ hc
    have : tap f ((1 : ℤ) + 2 * k - c) = 0 := by
      unfold tap
      split_ifs with h
      · apply List.getD_eq_default
        rw [hf]; omega
      · rfl
    rw [this, zero_mul]
  · intro h; exact absurd (Finset.mem_range.mpr (by omega)) h
  · intro h; exact absurd (Finset.mem_range.mpr (by omega)) h

theorem filterRow_two [Zero R] {w : Wavelet R} {n r j : Nat} :
    filterRow w 2 n r j = if r < n / 2 then tap w.decLo ((1 : ℤ) + 2 * r - j)
      else tap w.decHi ((1 : ℤ) + 2 * ((r - n / 2 : ℕ) : ℤ) - j) := by
  unfold filterRow
  split_ifs with h
  · rfl
  · have : ((r - n / 2 : ℕ) : ℤ) = (r : ℤ) - (n / 2 : ℕ) := by omega
    rw [this]; rfl

theorem not_truncated_two {n r : Nat} (hn : n % 2 = 0) (hr : r < n) : ¬ Truncated 2 n r := by
  unfold Truncated rowShift
  split_ifs <;> omega

/-- One letter of a two-tap band. -/
theorem step_two [NonUnitalNonAssocSemiring R] {m : Mode} {A : Nat → Nat → Nat → R} {w : Wavelet R} (hw : HasLen w 2) {n : Nat}
    (hA : ∀ r j, r < evenLen n → j < evenLen n → A (evenLen n) r j = filterRow w 2 (evenLen n) r j)
    (b : Bool) (v : Nat → R) {k : Nat} (hk : k < evenLen n / 2) :
    (if b then stepHi m A n else stepLo m A n) v k = dwtStep m (if b then w.decHi else w.decLo) n v k := by
  cases b with
  | false =>
    simp only [Bool.false_eq_true, if_false]
    unfold stepLo rowTimes dwtStep evenExt
    rw [← two_tap_sum hw.1 _ (N := evenLen n) (by omega)]
    refine Finset.sum_congr rfl fun j hj => ?_
    rw [hA _ _ (by omega) (Finset.mem_range.mp hj), filterRow_two, if_pos hk]
  | true =>
    simp only [if_true]
    unfold stepHi rowTimes dwtStep evenExt
    rw [← two_tap_sum hw.2.1 _ (N := evenLen n) (by omega)]
    refine Finset.sum_congr rfl fun j hj => ?_
    rw [hA _ _ (by omega) (Finset.mem_range.mp hj), filterRow_two, if_neg (by omega)]
    rw [show evenLen n / 2 + k - evenLen n / 2 = k by omega]

theorem matBand_two [NonUnitalNonAssocSemiring R] {m : Mode} {A : Nat → Nat → Nat → R} {w : Wavelet R} (hw : HasLen w 2) :
    ∀ (bs : List Bool) (ns : List Nat) (X : List Nat → R) (ks : List Nat),
      (∀ n ∈ ns, ∀ r j, r < evenLen n → j < evenLen n → A (evenLen n) r j = filterRow w 2 (evenLen n) r j) →
      bs.length = ns.length → InB (halfLens ns) ks → matBand m A bs ns X ks = bandN m w bs ns X ks
  | [], [], X, [], _, _, _ => rfl
  | b :: bs, n :: ns, X, k :: ks, hA, hb, hk => by
    have hk' : k < evenLen n / 2 ∧ InB (halfLens ns) ks := hk
    have ih : ∀ j, matBand m A bs ns (fun js => X (j :: js)) ks = bandN m w bs ns (fun js => X (j :: js)) ks := fun j =>
      matBand_two hw bs ns _ ks (fun n hn => hA n (by simp [hn])) (by simpa using hb) hk'.2
    simp only [matBand, ih]
    rw [step_two hw (hA n (by simp)) b _ hk'.1]
    rfl

theorem nonsepBand_two [CommSemiring R] {m : Mode} {A : Nat → Nat → Nat → Nat → R} {w : Wavelet R} (hw : HasLen w 2)
    {bs : List Bool} {ns ks : List Nat} {X : List Nat → R} (hn : ns.length = 2) (hb : bs.length = 2)
    (hA : ∀ p q, ns = [p, q] → ∀ k j, k < evenLen p * evenLen q → j < evenLen p * evenLen q →
      A (evenLen p) (evenLen q) k j = filterRow2 w 2 (evenLen p) (evenLen q) k j)
    (hk : InB (halfLens ns) ks) : nonsepBand m A bs ns X ks = bandN m w bs ns X ks := by
  match ns, bs, ks, hn, hb, hk with
  | [p, q], [a, b], [r, s], _, _, hk =>
  have hk' : r < evenLen p / 2 ∧ s < evenLen q / 2 ∧ True := hk
  obtain ⟨hr, hs, -⟩ := hk'
  have hA' := hA p q rfl
  have hPe := evenLen_even p
  have hQe := evenLen_even q
  have hb4 : bandNo [a, b] < 4 := by cases a <;> cases b <;> decide
  have hrow : bandNo [a, b] * (evenLen p / 2 * (evenLen q / 2)) + (s * (evenLen p / 2) + r) < evenLen p * evenLen q :=
    row_lt hPe hQe hb4 hs hr
  simp only [nonsepBand, Nat.add_assoc]
  have e1 : ∀ j ∈ Finset.range (evenLen p * evenLen q), A (evenLen p) (evenLen q)
      (bandNo [a, b] * (evenLen p / 2 * (evenLen q / 2)) + (s * (evenLen p / 2) + r)) j *
      extN m [p, q] X [((j % evenLen p : ℕ) : ℤ), ((j / evenLen p : ℕ) : ℤ)] =
      (fun j => tap (if a then w.decHi else w.decLo) ((1 : ℤ) + 2 * r - (j % evenLen p : ℕ)) *
        tap (if b then w.decHi else w.decLo) ((1 : ℤ) + 2 * s - (j / evenLen p : ℕ)) *
        extN m [p, q] X [((j % evenLen p : ℕ) : ℤ), ((j / evenLen p : ℕ) : ℤ)]) j := by
    intro j hj
    rw [hA' _ _ hrow (Finset.mem_range.mp hj)]
    unfold filterRow2
    rw [rowH_eq hs hr, rowW_eq hs hr, filterRow_two, filterRow_two]
    cases a <;> cases b
    · simp [bandNo, hr, hs]
    · simp [bandNo, hr]
    · simp [bandNo, hs]
    · simp [bandNo]
  rw [Finset.sum_congr rfl e1, sum_pixels]
  have hla : (if a then w.decHi else w.decLo).length = 2 := by cases a; exacts [hw.1, hw.2.1]
  have hlb : (if b then w.decHi else w.decLo).length = 2 := by cases b; exacts [hw.1, hw.2.1]
  show _ = dwtStep m _ p (fun i => dwtStep m _ q (fun j => X [i, j]) s) r
  unfold dwtStep
  rw [← two_tap_sum hla _ (N := evenLen p) (by omega)]
  rw [Finset.sum_comm]
  refine Finset.sum_congr rfl fun c hc => ?_
  rw [Finset.mem_range] at hc
  rw [← ext_map m p (fun i j => X [i, j]) (fun x => analysis _ (ext m q x) s) ?_]
  · rw [← two_tap_sum hlb _ (N := evenLen q) (by omega), Finset.mul_sum]
    refine Finset.sum_congr rfl fun J hJ => ?_
    have hc0 : 0 < evenLen p := by omega
    have d1 : (J * evenLen p + c) % evenLen p = c := by
      rw [Nat.add_comm, Nat.add_mul_mod_self_right, Nat.mod_eq_of_lt hc]
    have d2 : (J * evenLen p + c) / evenLen p = J := by
      rw [Nat.add_comm, Nat.add_mul_div_right _ _ hc0, Nat.div_eq_of_lt hc, Nat.zero_add]
    simp only [d1, d2]
    rw [mul_assoc]
    congr 2
    show ext m p (fun i => ext m q (fun j => X [i, j]) J) c = _
    exact (ext_map m p (fun i j => X [i, j]) (fun x => ext m q x J) (by unfold ext; cases extIdx m q J <;> rfl) c).symm
  · unfold analysis ext
    refine Finset.sum_eq_zero fun j _ => ?_
    cases extIdx m q (2 * (s : ℤ) + 1 - j) <;> simp

/-! ### Levels -/

theorem cAN_congr [NonUnitalNonAssocSemiring R] {m : Mode} {w : Wavelet R} {ns : List Nat} {X Y : List Nat → R}
    (h : ∀ js, InB ns js → X js = Y js) : ∀ (L : Nat), LevelsAdmit m w.len ns L →
    ∀ ks, InB (levelLens w.len ns L) ks → cAN m w ns X L ks = cAN m w ns Y L ks
  | 0, _, ks, hk => h ks (by rwa [levelLens_zero] at hk)
  | L + 1, ha, ks, hk => by
    have ih := cAN_congr h L (fun s hs => ha s (by omega))
    have hl := hk.length_eq
    exact bandN_congr (ha L (by omega)) (by simp [lowBand, levelLens_length]) ih
      (by rw [hl, levelLens_length, levelLens_length])

theorem cDN_congr [NonUnitalNonAssocSemiring R] {m : Mode} {w : Wavelet R} {ns : List Nat} {X Y : List Nat → R}
    (h : ∀ js, InB ns js → X js = Y js) (L : Nat) (ha : LevelsAdmit m w.len ns (L + 1)) {bs : List Bool}
    (hb : bs.length = ns.length) (ks : List Nat) (hk : ks.length = ns.length) :
    cDN m w ns X L bs ks = cDN m w ns Y L bs ks :=
  bandN_congr (ha L (by omega)) (by rw [levelLens_length, hb]) (cAN_congr h L fun s hs => ha s (by omega))
    (by rw [levelLens_length, hk])

theorem outLen_two (n : Nat) : outLen 2 n = evenLen n / 2 := by unfold outLen evenLen; omega

theorem halfLens_two (ns : List Nat) : halfLens ns = ns.map (outLen 2) := by
  unfold halfLens
  exact List.map_congr_left fun n _ => (outLen_two n).symm

theorem mLens_two (ns : List Nat) : ∀ s, mLens ns s = levelLens 2 ns s := by
  intro s
  induction s generalizing ns with
  | zero => rw [mLens_zero, levelLens_zero]
  | succ s ih => rw [mLens_succ, ih, halfLens_two, levelLens_shift]

theorem admits_two (m : Mode) {n : Nat} (h : 2 ≤ n) : m.Admits 2 n := by
  cases m <;> simp only [Mode.Admits] <;> omega

/-- The step agrees with the textbook step on signals with sizes `ns`. -/
def AgreesAt [NonUnitalNonAssocSemiring R] (band : BandStep R) (m : Mode) (w : Wavelet R) (ns : List Nat) : Prop :=
  ∀ bs X ks, bs.length = ns.length → InB (halfLens ns) ks → band bs ns X ks = bandN m w bs ns X ks

theorem bandA_two [NonUnitalNonAssocSemiring R] {band : BandStep R} {m : Mode} {w : Wavelet R} (hw : w.len = 2) :
    ∀ (L : Nat) (ns : List Nat) (X : List Nat → R), (∀ s, s < L → AgreesAt band m w (mLens ns s)) →
      (∀ s, s < L → ∀ n ∈ mLens ns s, 2 ≤ n) →
      ∀ ks, InB (mLens ns L) ks → bandA band ns X L ks = cAN m w ns X L ks
  | 0, _, _, _, _, _, _ => rfl
  | L + 1, ns, X, hA, h2, ks, hk => by
    have h0 := hA 0 (by omega)
    rw [mLens_zero] at h0
    rw [mLens_succ] at hk
    have ih := bandA_two hw L (halfLens ns) (band (lowBand ns.length) ns X)
      (fun s hs => by rw [← mLens_succ]; exact hA (s + 1) (by omega))
      (fun s hs => by rw [← mLens_succ]; exact h2 (s + 1) (by omega)) ks hk
    show bandA band (halfLens ns) (band (lowBand ns.length) ns X) L ks = _
    rw [ih, ← cAN_shift, hw, ← halfLens_two]
    refine cAN_congr (fun js hjs => h0 _ _ _ (by simp [lowBand]) hjs) L ?_ ks (by rw [hw, ← mLens_two]; exact hk)
    intro s hs n hn
    rw [hw] at hn ⊢
    rw [← mLens_two, ← mLens_succ] at hn
    exact admits_two m (h2 (s + 1) (by omega) n hn)

theorem bandD_two [NonUnitalNonAssocSemiring R] {band : BandStep R} {m : Mode} {w : Wavelet R} (hw : w.len = 2)
    {bs : List Bool} :
    ∀ (L : Nat) (ns : List Nat) (X : List Nat → R), (∀ s, s ≤ L → AgreesAt band m w (mLens ns s)) →
      (∀ s, s ≤ L → ∀ n ∈ mLens ns s, 2 ≤ n) → bs.length = ns.length →
      ∀ ks, InB (mLens ns (L + 1)) ks → bandD band ns X L bs ks = cDN m w ns X L bs ks
  | 0, ns, X, hA, _, hb, ks, hk => by
    have h0 := hA 0 (by omega)
    rw [mLens_zero] at h0
    rw [mLens_succ, mLens_zero] at hk
    show band bs ns X ks = bandN m w bs (levelLens w.len ns 0) X ks
    rw [levelLens_zero]
    exact h0 bs X ks hb hk
  | L + 1, ns, X, hA, h2, hb, ks, hk => by
    have h0 := hA 0 (by omega)
    rw [mLens_zero] at h0
    rw [mLens_succ] at hk
    have ih := bandD_two hw L (halfLens ns) (band (lowBand ns.length) ns X)
      (fun s hs => by rw [← mLens_succ]; exact hA (s + 1) (by omega))
      (fun s hs => by rw [← mLens_succ]; exact h2 (s + 1) (by omega)) (by rw [hb, halfLens_length]) ks hk
    show bandD band (halfLens ns) (band (lowBand ns.length) ns X) L bs ks = _
    rw [ih, ← cDN_shift, hw, ← halfLens_two]
    refine cDN_congr (fun js hjs => h0 _ _ _ (by simp [lowBand]) hjs) L ?_ (by rw [hb, halfLens_length]) ks ?_
    · intro s hs n hn
      rw [hw] at hn ⊢
      rw [← mLens_two, ← mLens_succ] at hn
      exact admits_two m (h2 (s + 1) (by omega) n hn)
    · have := hk.length_eq
      rw [this, mLens_length]

/-- The levels that are computed have sizes at least `F`. -/
theorem le_of_mLevelsN {F : Nat} : ∀ (L : Nat) (ns : List Nat) (s : Nat), s < mLevelsN F L ns → ∀ n ∈ mLens ns s, F ≤ n
  | 0, _, s, h, _, _ => by simp [mLevelsN] at h
  | L + 1, ns, s, h, n, hn => by
    simp only [mLevelsN] at h
    split_ifs at h with h1
    · omega
    · cases s with
      | zero =>
        rw [mLens_zero] at hn
        push Not at h1
        exact h1 n hn
      | succ s =>
        rw [mLens_succ] at hn
        exact le_of_mLevelsN L (halfLens ns) s (by omega) n hn

theorem alongAxes_fun [Zero R] {ax Ks : List Nat} {f g : (List Nat → R) → List Nat → R} {x z : Tensor R}
    (h : AlongAxes ax Ks f x z) (hn : ax.Nodup) (hlt : ∀ a ∈ ax, a < x.rank) (hl : Ks.length = ax.length)
    (hfg : ∀ X ks, InB Ks ks → f X ks = g X ks) : AlongAxes ax Ks g x z := by
  refine ⟨h.md, h.shape, fun idx hidx => ?_⟩
  rw [h.get idx hidx, hfg]
  rw [← sizes_setMany hn (l := x.shape) hlt hl, ← h.shape]
  exact inB_sizes (fun a ha => by rw [h.shape, setMany_length]; exact hlt a ha) hidx

/-- The form of an entry depends only on its bands, one letter per axis. -/
def BandKind [Zero R] (n : Nat) (D : (List Bool → Tensor R → Prop) → Entry R → Prop) : Prop :=
  ∀ (P Q : List Bool → Tensor R → Prop) (e : Entry R), (∀ bs t, bs.length = n → P bs t → Q bs t) → D P e → D Q e

theorem bandKind_tuple [Zero R] : BandKind (R := R) 2 IsTuple := by
  rintro P Q e h ⟨a, b, c, rfl, h1, h2, h3⟩
  exact ⟨a, b, c, rfl, h _ _ rfl h1, h _ _ rfl h2, h _ _ rfl h3⟩

theorem bandKind_swapped [Zero R] : BandKind (R := R) 2 IsTupleSwapped := by
  rintro P Q e h ⟨a, b, c, rfl, h1, h2, h3⟩
  exact ⟨a, b, c, rfl, h _ _ rfl h1, h _ _ rfl h2, h _ _ rfl h3⟩

theorem bandKind_dict3 [Zero R] : BandKind (R := R) 3 (IsDict keysM3) := by
  rintro P Q e h ⟨kv, rfl, hk, hp⟩
  refine ⟨kv, rfl, hk, fun q hq => h _ _ ?_ (hp q hq)⟩
  have : q.1 ∈ keysM3 := by rw [← hk]; exact List.mem_map_of_mem hq
  simp only [keysM3, List.mem_cons, List.not_mem_nil, or_false] at this
  rcases this with h | h | h | h | h | h | h <;> rw [h] <;> decide

/-- A transform that repeats a step agreeing with the textbook step is the textbook transform. -/
theorem isDwtN_two [NonUnitalNonAssocSemiring R] {D : (List Bool → Tensor R → Prop) → Entry R → Prop}
    {band : BandStep R} {m : Mode} {w : Wavelet R} (hw : w.len = 2) {ax : List Nat} (hD : BandKind ax.length D)
    {x : Tensor R} {L : Nat} {c : Coeffs R} (hn : ax.Nodup) (hlt : ∀ a ∈ ax, a < x.rank)
    (hA : ∀ s, s < L → AgreesAt band m w (mLens (sizes ax x.shape) s))
    (h2 : ∀ s, s < L → ∀ n ∈ mLens (sizes ax x.shape) s, 2 ≤ n)
    (h : IsBandDwtN D band ax L x c) : IsDwtN D m w ax L x c := by
  have hl : (sizes ax x.shape).length = ax.length := by simp [sizes]
  obtain ⟨h1, h3, ⟨t, h4, h5⟩, h6⟩ := h
  refine ⟨h1, h3, ⟨t, h4, ?_⟩, ?_⟩
  · unfold IsApprox
    rw [hw, ← mLens_two]
    exact alongAxes_fun h5 hn hlt (by rw [mLens_length, hl]) fun X ks hk => bandA_two hw L _ X hA h2 ks hk
  · intro s hs
    obtain ⟨e, he, hd⟩ := h6 s hs
    refine ⟨e, he, hD _ _ e ?_ hd⟩
    intro bs t hb ht
    unfold IsBand
    rw [hw, ← mLens_two]
    exact alongAxes_fun ht hn hlt (by rw [mLens_length, hl]) fun X ks hk =>
      bandD_two hw s _ X (fun s' h' => hA s' (by omega)) (fun s' h' => h2 s' (by omega)) (by rw [hb, hl]) ks hk
end Verif
