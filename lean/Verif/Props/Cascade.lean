/-
C62: levels are nested.  Asking for more levels continues the transform on the approximation and leaves the finer details
as they are.
-/
import Verif.Lemmas.Cascade
import Verif.Lemmas.Char1
import Verif.Lemmas.SepTop
import Verif.Props.Conv1
import Verif.Props.ConvNd
import Verif.Props.Packet2

namespace Verif.Props
open Tensor Spec
variable {R : Type}

/-- **C62.** `L + M` levels of `wavedec` are `M` levels of `wavedec` of the approximation of `L` levels, followed by the
details of these `L` levels.  The equation includes failure: the long transform fails if and only if the transform of
the approximation fails, with the same exception. -/
theorem c62_wavedec [NonUnitalNonAssocSemiring R] (x a : Tensor R) (w : Wavelet R) (mode : Option String) (L M : Nat)
    (axis : AxisHint) (ds : List (Tensor R)) (hF : 2 ≤ w.len) (hhi : w.decHi.length = w.len)
    (hc : wavedec x w mode (some (L : Int)) axis = .ok (a :: ds)) :
    wavedec x w mode (some ((L + M : Nat) : Int)) axis
      = (wavedec a w mode (some (M : Int)) axis).map (· ++ ds) := by
  have key := wavedec_char (mode := mode) (x := x) (level := some (L : Int)) (h := axis) hF hhi
  have keyL := wavedec_char (mode := mode) (x := x) (level := some ((L + M : Nat) : Int)) (h := axis) hF hhi
  have keyM := wavedec_char (mode := mode) (x := a) (level := some (M : Int)) (h := axis) hF hhi
  dsimp only at key keyL keyM
  simp only [levels, Int.toNat_natCast] at key keyL keyM
  by_cases hgd : GoodAxes axis x.rank 1 ∧ isDtypeSupported x.md.dtype = true
  swap
  · obtain ⟨e, he⟩ := key.1 hgd
    rw [he] at hc; cases hc
  obtain ⟨hg, hd⟩ := hgd
  have hlt := axis1_lt hg
  obtain ⟨k1, k2, k3, k4⟩ := key.2 hg hd
  obtain ⟨l1, l2, l3, l4⟩ := keyL.2 hg hd
  -- what the first transform is
  have hfirst : ∃ m, (Selects mode m ∨ L = 0 ∧ ∀ m, ¬ Selects mode m) ∧
      (∀ s, s < L → m.Admits w.len (levelLen w.len (x.shape.getD (axis1 axis x.rank) 0) s)) ∧
      IsDwt m w (axis1 axis x.rank) L x (a :: ds) := by
    by_cases hm : ∃ m, Selects mode m
    · obtain ⟨m, hm⟩ := hm
      by_cases hA : ∀ s, s < L → m.Admits w.len (levelLen w.len (x.shape.getD (axis1 axis x.rank) 0) s)
      · obtain ⟨cs, e, h⟩ := k2 m hm hA
        rw [e] at hc; cases hc
        exact ⟨m, Or.inl hm, hA, h⟩
      · push Not at hA
        rw [k3 m hm hA] at hc; cases hc
    · push Not at hm
      rcases Nat.eq_zero_or_pos L with h0 | h0
      · obtain ⟨cs, e, h⟩ := k1 h0 .zero
        rw [e] at hc; cases hc
        exact ⟨.zero, Or.inr ⟨h0, hm⟩, fun s hs => by omega, h⟩
      · rw [k4 h0 hm] at hc; cases hc
  obtain ⟨m, hm, hA, h⟩ := hfirst
  have ht := h.approx a rfl
  have hr : a.rank = x.rank := ht.rank
  have hn : a.shape.getD (axis1 axis x.rank) 0 = levelLen w.len (x.shape.getD (axis1 axis x.rank) 0) L := by
    rw [ht.shape]
    exact getD_set_self (by exact hlt)
  rw [hr, ht.md, hn] at keyM
  obtain ⟨r1, r2, r3, r4⟩ := keyM.2 hg hd
  simp only [levelLen_add] at r2 r3
  have hjoin : ∀ m' bs, (m' = m ∨ L = 0) → (∀ s, s < M → m'.Admits w.len (levelLen w.len (x.shape.getD (axis1 axis x.rank) 0) (L + s))) →
      IsDwt m' w (axis1 axis x.rank) M a bs → IsDwt m' w (axis1 axis x.rank) (L + M) x (bs ++ ds) := by
    intro m' bs hm' hA' hb
    have h' : IsDwt m' w (axis1 axis x.rank) L x (a :: ds) := by
      rcases hm' with rfl | rfl
      · exact h
      · exact ⟨h.length, fun t ht => h.approx t ht, fun s d hs => by omega⟩
    refine isDwt_append hlt h' hb fun s hs => ?_
    rw [hn, levelLen_add]
    exact hA' s hs
  rcases hm with hm | ⟨h0, hm⟩
  · by_cases hA' : ∀ s, s < M → m.Admits w.len (levelLen w.len (x.shape.getD (axis1 axis x.rank) 0) (L + s))
    · obtain ⟨bs, e, hb⟩ := r2 m hm hA'
      obtain ⟨cs, e', hcs⟩ := l2 m hm fun s hs => by
        by_cases hsL : s < L
        · exact hA s hsL
        · obtain ⟨r, rfl⟩ := Nat.exists_eq_add_of_le (Nat.le_of_not_lt hsL)
          exact hA' r (by omega)
      rw [e, e', isDwt_unique1 hcs (hjoin m bs (Or.inl rfl) hA' hb)]
      rfl
    · push Not at hA'
      rw [r3 m hm hA']
      obtain ⟨s, hs, hb⟩ := hA'
      rw [l3 m hm ⟨L + s, by omega, hb⟩]
      rfl
  · subst h0
    rcases Nat.eq_zero_or_pos M with rfl | hM
    · obtain ⟨bs, e, hb⟩ := r1 rfl m
      obtain ⟨cs, e', hcs⟩ := l1 rfl m
      rw [e, e', isDwt_unique1 hcs (hjoin m bs (Or.inl rfl) (fun s hs => by omega) hb)]
      rfl
    · rw [r4 hM hm, l4 (by omega) hm]
      rfl

/-- **C62.** If `L` levels cannot be computed, then more levels cannot either, with the same exception. -/
theorem c62_wavedec_fails [NonUnitalNonAssocSemiring R] (x : Tensor R) (w : Wavelet R) (mode : Option String) (L M : Nat)
    (axis : AxisHint) (hF : 2 ≤ w.len) (hhi : w.decHi.length = w.len)
    (hg : GoodAxes axis x.rank 1) (hdt : x.md.dtype = .float32 ∨ x.md.dtype = .float64) (e : Err)
    (hc : wavedec x w mode (some (L : Int)) axis = .error e) :
    wavedec x w mode (some ((L + M : Nat) : Int)) axis = .error e := by
  have hd : isDtypeSupported x.md.dtype = true := by unfold isDtypeSupported; simpa using hdt
  have key := wavedec_char (mode := mode) (x := x) (level := some (L : Int)) (h := axis) hF hhi
  have keyL := wavedec_char (mode := mode) (x := x) (level := some ((L + M : Nat) : Int)) (h := axis) hF hhi
  dsimp only at key keyL
  simp only [levels, Int.toNat_natCast] at key keyL
  obtain ⟨k1, k2, k3, k4⟩ := key.2 hg hd
  obtain ⟨l1, l2, l3, l4⟩ := keyL.2 hg hd
  by_cases hm : ∃ m, Selects mode m
  · obtain ⟨m, hm⟩ := hm
    by_cases hA : ∀ s, s < L → m.Admits w.len (levelLen w.len (x.shape.getD (axis1 axis x.rank) 0) s)
    · obtain ⟨cs, e, h⟩ := k2 m hm hA
      rw [e] at hc; cases hc
    · push Not at hA
      rw [k3 m hm hA] at hc
      obtain ⟨s, hs, hb⟩ := hA
      rw [l3 m hm ⟨s, by omega, hb⟩]
      exact hc
  · push Not at hm
    rcases Nat.eq_zero_or_pos L with h0 | h0
    · obtain ⟨cs, e, h⟩ := k1 h0 .zero
      rw [e] at hc; cases hc
    · rw [k4 h0 hm] at hc
      rw [l4 (by omega) hm]
      exact hc

/-- A transform that is characterised by textbook coefficients: what it needs and what it returns. -/
structure DecChar [NonUnitalNonAssocSemiring R] (n : Nat) (D : (List Bool → Tensor R → Prop) → Entry R → Prop)
    (w : Wavelet R) (mode : Option String) (axes : AxisHint) (x : Tensor R) (L : Nat) (r : Except Err (Coeffs R)) :
    Prop where
  good : ∀ c, r = .ok c → GoodAxes axes x.rank n ∧ isDtypeSupported x.md.dtype = true ∧
    ∃ m, (Selects mode m ∨ L = 0 ∧ ∀ m, ¬ Selects mode m) ∧ LevelsAdmit m w.len (sizes (axesOf axes x.rank n) x.shape) L ∧
      IsDwtN D m w (axesOf axes x.rank n) L x c
  ok : ∀ m, GoodAxes axes x.rank n → isDtypeSupported x.md.dtype = true →
    (Selects mode m ∨ L = 0) → LevelsAdmit m w.len (sizes (axesOf axes x.rank n) x.shape) L →
    ∃ c, r = .ok c ∧ IsDwtN D m w (axesOf axes x.rank n) L x c

theorem cascadeN [NonUnitalNonAssocSemiring R] {n : Nat} {D : (List Bool → Tensor R → Prop) → Entry R → Prop}
    (hD : CascadeKind n D) {w : Wavelet R} {mode : Option String} {axes : AxisHint} {x a : Tensor R} {L M : Nat}
    {rL rM rLM : Except Err (Coeffs R)} (hL : DecChar n D w mode axes x L rL) (hM : DecChar n D w mode axes a M rM)
    (hLM : DecChar n D w mode axes x (L + M) rLM) {il : Bool} {ds : List (Entry R)}
    (hc : rL = .ok ⟨il, .tensor a :: ds⟩) (c : Coeffs R) :
    rLM = .ok c ↔ ∃ b, rM = .ok b ∧ c = ⟨b.isList, b.items ++ ds⟩ := by
  obtain ⟨hg, hd, m, hm, hA, h⟩ := hL.good _ hc
  obtain ⟨a', e1, ht⟩ := h.approx
  obtain rfl : a = a' := by simpa using e1
  have hlen : (axesOf axes x.rank n).length = n := by simp [axesOf, hg.len]
  have hsl : (sizes (axesOf axes x.rank n) x.shape).length = (axesOf axes x.rank n).length := by simp [sizes]
  have hr : a.rank = x.rank := by rw [Tensor.rank, ht.shape, setMany_length]; rfl
  have hns : sizes (axesOf axes x.rank n) a.shape = levelLens w.len (sizes (axesOf axes x.rank n) x.shape) L := by
    rw [ht.shape]
    exact sizes_setMany hg.nodup hg.lt (by rw [levelLens_length, hsl])
  have hjoin : ∀ m' b, (m' = m ∨ L = 0) →
      LevelsAdmit m' w.len (levelLens w.len (sizes (axesOf axes x.rank n) x.shape) L) M →
      IsDwtN D m' w (axesOf axes x.rank n) M a b →
      IsDwtN D m' w (axesOf axes x.rank n) (L + M) x ⟨false, b.items ++ ds⟩ := by
    intro m' b hm' hA' hb
    have h' : IsDwtN D m' w (axesOf axes x.rank n) L x ⟨il, .tensor a :: ds⟩ := by
      rcases hm' with rfl | rfl
      · exact h
      · exact ⟨h.kind, h.length, h.approx, fun s hs => by omega⟩
    exact isDwtN_append (by rw [hlen]; exact hD) hg.nodup hg.lt h' hb (by rw [hns]; exact hA')
  have hmode : ∀ m', (Selects mode m' ∨ M = 0 ∧ ∀ m, ¬ Selects mode m) → Selects mode m → m' = m ∨ M = 0 :=
    fun m' h1 h2 => h1.elim (fun h => Or.inl (selects_unique h h2)) fun h => Or.inr h.1
  constructor
  · intro e
    obtain ⟨-, -, m', hm', hA', h'⟩ := hLM.good _ e
    rw [levelsAdmit_add] at hA'
    obtain ⟨b, e2, hb⟩ := hM.ok m' (by rw [hr]; exact hg) (by rw [ht.md]; exact hd)
      (hm'.imp id fun h => by omega) (by rw [hr, hns]; exact hA'.2)
    rw [hr] at hb
    refine ⟨b, e2, ?_⟩
    rw [hb.kind]
    have hmm : m' = m ∨ L = 0 := by
      rcases hm with hm | hm
      · rcases hm' with hm' | hm'
        · exact Or.inl (selects_unique hm' hm)
        · exact absurd hm (hm'.2 m)
      · exact Or.inr hm.1
    exact isDwtN_unique' hD h' (hjoin m' b hmm hA'.2 hb)
  · rintro ⟨b, e, rfl⟩
    obtain ⟨-, -, m', hm', hA', h'⟩ := hM.good _ e
    rw [hr] at h' hA'
    rw [hns] at hA'
    obtain ⟨m'', h1, h2, h3, h4⟩ : ∃ m'', (Selects mode m'' ∨ L + M = 0) ∧ (m'' = m ∨ L = 0) ∧
        LevelsAdmit m'' w.len (levelLens w.len (sizes (axesOf axes x.rank n) x.shape) L) M ∧
        IsDwtN D m'' w (axesOf axes x.rank n) M a b := by
      rcases hm with hm | hm
      · rcases hm' with hm' | hm'
        · exact ⟨m', Or.inl hm', Or.inl (selects_unique hm' hm), hA', h'⟩
        · exact absurd hm (hm'.2 m)
      · refine ⟨m', ?_, Or.inr hm.1, hA', h'⟩
        rcases hm' with hm' | hm'
        · exact absurd hm' (hm.2 m')
        · exact Or.inr (by omega)
    have hA2 : LevelsAdmit m'' w.len (sizes (axesOf axes x.rank n) x.shape) (L + M) := by
      rw [levelsAdmit_add]
      refine ⟨?_, h3⟩
      rcases h2 with rfl | rfl
      · exact hA
      · intro s hs; omega
    obtain ⟨c, e2, hc2⟩ := hLM.ok m'' hg hd h1 hA2
    rw [e2, isDwtN_unique' hD hc2 (hjoin m'' b h2 h3 h4), h'.kind]

theorem decChar2 [Semiring R] (x : Tensor R) (w : Wavelet R) (mode : Option String) (L : Nat) (axes : AxisHint)
    (hF : 2 ≤ w.len) (hhi : w.decHi.length = w.len) :
    DecChar 2 IsTuple w mode axes x L (wavedec2 x w mode (some (L : Int)) axes) := by
  have key := wavedec2_char (mode := mode) (x := x) (level := some (L : Int)) (h := axes) hF hhi
  dsimp only at key
  simp only [levelsN, Int.toNat_natCast] at key
  constructor
  · intro c hc
    by_cases hgd : GoodAxes axes x.rank 2 ∧ isDtypeSupported x.md.dtype = true
    swap
    · obtain ⟨e, he⟩ := key.1 hgd
      rw [he] at hc; cases hc
    obtain ⟨hg, hd⟩ := hgd
    obtain ⟨k1, k2, k3, k4⟩ := key.2 hg hd
    refine ⟨hg, hd, ?_⟩
    by_cases hm : ∃ m, Selects mode m
    · obtain ⟨m, hm⟩ := hm
      have hA := k3 m c hm hc
      obtain ⟨c', e, h⟩ := k2 m hm hA
      rw [e] at hc; cases hc
      exact ⟨m, Or.inl hm, hA, h⟩
    · push Not at hm
      rcases Nat.eq_zero_or_pos L with h0 | h0
      · obtain ⟨c', e, h⟩ := k1 h0 .zero
        rw [e] at hc; cases hc
        exact ⟨.zero, Or.inr ⟨h0, hm⟩, fun s hs => by omega, h⟩
      · rw [k4 h0 hm] at hc; cases hc
  · intro m hg hd hm hA
    obtain ⟨k1, k2, k3, k4⟩ := key.2 hg hd
    rcases hm with hm | hm
    · exact k2 m hm hA
    · exact k1 hm m

theorem decChar3 [Semiring R] (x : Tensor R) (w : Wavelet R) (mode : Option String) (L : Nat) (axes : AxisHint)
    (hF : 2 ≤ w.len) (hhi : w.decHi.length = w.len) (hL : 0 < L) :
    DecChar 3 (IsDict keys3) w mode axes x L (wavedec3 x w mode (some (L : Int)) axes) := by
  have key := wavedec3_char (mode := mode) (x := x) (level := some (L : Int)) (h := axes) hF hhi
  dsimp only at key
  simp only [levelsN, Int.toNat_natCast] at key
  constructor
  · intro c hc
    by_cases hgd : GoodAxes axes x.rank 3 ∧ isDtypeSupported x.md.dtype = true
    swap
    · obtain ⟨e, he⟩ := key.1 hgd
      rw [he] at hc; cases hc
    obtain ⟨hg, hd⟩ := hgd
    obtain ⟨k2, k3, k4⟩ := key.2 hg hd hL
    refine ⟨hg, hd, ?_⟩
    by_cases hm : ∃ m, Selects mode m
    · obtain ⟨m, hm⟩ := hm
      have hA := k3 m c hm hc
      obtain ⟨c', e, h⟩ := k2 m hm hA
      rw [e] at hc; cases hc
      exact ⟨m, Or.inl hm, hA, h⟩
    · push Not at hm
      rw [k4 hm] at hc; cases hc
  · intro m hg hd hm hA
    obtain ⟨k2, k3, k4⟩ := key.2 hg hd hL
    rcases hm with hm | hm
    · exact k2 m hm hA
    · omega

theorem decCharS [Semiring R] (x : Tensor R) (w : Wavelet R) (n : Nat) (mode : Option String) (L : Nat) (axes : AxisHint)
    (hn : 1 ≤ n) (hF : 2 ≤ w.len) (hhi : w.decHi.length = w.len) :
    DecChar n (IsDict (sepDetailKeys n)) w mode axes x L (fswavedecn x w n mode (some (L : Int)) axes) := by
  have key := fswavedecn_char (mode := mode) (x := x) (level := some (L : Int)) (h := axes) hn hF hhi
  dsimp only at key
  have hAE : ∀ ns, ¬ AutoEmpty (some (L : Int)) ns := fun ns h => by cases h.1
  simp only [levelsN, Int.toNat_natCast] at key
  constructor
  · intro c hc
    by_cases hgd : GoodAxes axes x.rank n ∧ isDtypeSupported x.md.dtype = true
    swap
    · obtain ⟨e, he⟩ := key.1 hgd
      rw [he] at hc; cases hc
    obtain ⟨hg, hd⟩ := hgd
    obtain ⟨k1, k2, k3, k4⟩ := (key.2 hg hd).2 (hAE _)
    refine ⟨hg, hd, ?_⟩
    by_cases hm : ∃ m, Selects mode m
    · obtain ⟨m, hm⟩ := hm
      have hA := k3 m c hm hc
      obtain ⟨c', e, h⟩ := k2 m hm hA
      rw [e] at hc; cases hc
      exact ⟨m, Or.inl hm, hA, h⟩
    · push Not at hm
      rcases Nat.eq_zero_or_pos L with h0 | h0
      · obtain ⟨c', e, h⟩ := k1 h0 .zero
        rw [e] at hc; cases hc
        exact ⟨.zero, Or.inr ⟨h0, hm⟩, fun s hs => by omega, h⟩
      · rw [k4 h0 hm] at hc; cases hc
  · intro m hg hd hm hA
    obtain ⟨k1, k2, k3, k4⟩ := (key.2 hg hd).2 (hAE _)
    rcases hm with hm | hm
    · exact k2 m hm hA
    · exact k1 hm m

/-- **C62**, images: `L + M` levels of `wavedec2` are `M` levels of `wavedec2` of the approximation of `L` levels, followed
by the details of these `L` levels. -/
theorem c62_wavedec2 [Semiring R] (x a : Tensor R) (w : Wavelet R) (mode : Option String) (L M : Nat) (axes : AxisHint)
    (il : Bool) (ds : List (Entry R)) (hF : 2 ≤ w.len) (hhi : w.decHi.length = w.len)
    (hc : wavedec2 x w mode (some (L : Int)) axes = .ok ⟨il, .tensor a :: ds⟩) (c : Coeffs R) :
    wavedec2 x w mode (some ((L + M : Nat) : Int)) axes = .ok c ↔
      ∃ b, wavedec2 a w mode (some (M : Int)) axes = .ok b ∧ c = ⟨b.isList, b.items ++ ds⟩ :=
  cascadeN cascadeKind_tuple (decChar2 x w mode L axes hF hhi) (decChar2 a w mode M axes hF hhi)
    (decChar2 x w mode (L + M) axes hF hhi) hc c

/-- **C62**, volumes.  (`wavedec3` with level 0 returns its argument with an additional axis, C18; hence both numbers of
levels are positive.) -/
theorem c62_wavedec3 [Semiring R] (x a : Tensor R) (w : Wavelet R) (mode : Option String) (L M : Nat) (axes : AxisHint)
    (il : Bool) (ds : List (Entry R)) (hF : 2 ≤ w.len) (hhi : w.decHi.length = w.len) (hL : 0 < L) (hM : 0 < M)
    (hc : wavedec3 x w mode (some (L : Int)) axes = .ok ⟨il, .tensor a :: ds⟩) (c : Coeffs R) :
    wavedec3 x w mode (some ((L + M : Nat) : Int)) axes = .ok c ↔
      ∃ b, wavedec3 a w mode (some (M : Int)) axes = .ok b ∧ c = ⟨b.isList, b.items ++ ds⟩ :=
  cascadeN (cascadeKind_dict (by decide)) (decChar3 x w mode L axes hF hhi hL) (decChar3 a w mode M axes hF hhi hM)
    (decChar3 x w mode (L + M) axes hF hhi (by omega)) hc c

/-- **C62**, separable transform of images. -/
theorem c62_fswavedec2 [Semiring R] (x a : Tensor R) (w : Wavelet R) (mode : Option String) (L M : Nat) (axes : AxisHint)
    (il : Bool) (ds : List (Entry R)) (hF : 2 ≤ w.len) (hhi : w.decHi.length = w.len)
    (hc : fswavedec2 x w mode (some (L : Int)) axes = .ok ⟨il, .tensor a :: ds⟩) (c : Coeffs R) :
    fswavedec2 x w mode (some ((L + M : Nat) : Int)) axes = .ok c ↔
      ∃ b, fswavedec2 a w mode (some (M : Int)) axes = .ok b ∧ c = ⟨b.isList, b.items ++ ds⟩ :=
  cascadeN (n := 2) (cascadeKind_dict (by rw [sepDetailKeys2]; decide)) (decCharS x w 2 mode L axes (by omega) hF hhi)
    (decCharS a w 2 mode M axes (by omega) hF hhi) (decCharS x w 2 mode (L + M) axes (by omega) hF hhi) hc c

/-- **C62**, separable transform of volumes. -/
theorem c62_fswavedec3 [Semiring R] (x a : Tensor R) (w : Wavelet R) (mode : Option String) (L M : Nat) (axes : AxisHint)
    (il : Bool) (ds : List (Entry R)) (hF : 2 ≤ w.len) (hhi : w.decHi.length = w.len)
    (hc : fswavedec3 x w mode (some (L : Int)) axes = .ok ⟨il, .tensor a :: ds⟩) (c : Coeffs R) :
    fswavedec3 x w mode (some ((L + M : Nat) : Int)) axes = .ok c ↔
      ∃ b, fswavedec3 a w mode (some (M : Int)) axes = .ok b ∧ c = ⟨b.isList, b.items ++ ds⟩ :=
  cascadeN (n := 3) (cascadeKind_dict (by rw [sepDetailKeys3]; decide)) (decCharS x w 3 mode L axes (by omega) hF hhi)
    (decCharS a w 3 mode M axes (by omega) hF hhi) (decCharS x w 3 mode (L + M) axes (by omega) hF hhi) hc c

/-- **C62.** Leaving out the details of the `L` finest levels, `waverec` gives back the approximation of level `L` (with one
more sample if its length is odd, C01). -/
theorem c62_intermediate [Field R] [CharZero R] (x a : Tensor R) (w : Wavelet R) (F : Nat) (mode : Option String) (L M : Nat)
    (axis : AxisHint) (ds cs : List (Tensor R)) (hw : PRBank w F) (hF : 2 ≤ F) (he : F % 2 = 0)
    (hL : wavedec x w mode (some (L : Int)) axis = .ok (a :: ds))
    (hLM : wavedec x w mode (some ((L + M : Nat) : Int)) axis = .ok cs) :
    cs.drop (M + 1) = ds ∧
    ∃ z, waverec (cs.take (M + 1)) w axis = .ok z ∧ z.md = a.md ∧ (M = 0 → z = a) ∧
      (a.shape.getD (axis1 axis a.rank) 0 % 2 = 0 → z = a) ∧
      (0 < M → a.shape.getD (axis1 axis a.rank) 0 % 2 = 1 →
        z.shape = a.shape.set (axis1 axis a.rank) (a.shape.getD (axis1 axis a.rank) 0 + 1)) ∧
      ∀ idx, InB a.shape idx → z.get idx = a.get idx := by
  have hFw : w.len = F := hw.len.1
  have hhi : w.decHi.length = w.len := by rw [hFw]; exact hw.len.2.1
  have h := c62_wavedec x a w mode L M axis ds (by omega) hhi hL
  rw [hLM] at h
  cases hb : wavedec a w mode (some (M : Int)) axis with
  | error e => rw [hb] at h; cases h
  | ok bs =>
    rw [hb] at h
    obtain rfl : cs = bs ++ ds := by simpa [Except.map] using h
    obtain ⟨m, -, hd⟩ := c02_wavedec_textbook a w mode (some (M : Int)) axis bs (by omega) hhi hb
    have hl : bs.length = M + 1 := by simpa [levels] using hd.length
    rw [← hl, List.drop_left, List.take_left]
    refine ⟨rfl, ?_⟩
    obtain ⟨z, e, h1, h2, h3, h4, h5⟩ := c01_perfect_reconstruction a w F mode _ axis bs hw hF he hb
    exact ⟨z, e, h1, fun hM => h2 (by omega), h3, fun hM => h4 (by omega), h5⟩

/-- **C62**, images: leaving out the details of the `L` finest levels, `waverec2` gives back the approximation of level
`L`. -/
theorem c62_intermediate2 [Field R] [CharZero R] (x a : Tensor R) (w : Wavelet R) (F : Nat) (mode : Option String)
    (L M : Nat) (axes : AxisHint) (il : Bool) (ds : List (Entry R)) (c : Coeffs R) (hw : PRBank w F) (hF : 2 ≤ F)
    (he : F % 2 = 0) (hL : wavedec2 x w mode (some (L : Int)) axes = .ok ⟨il, .tensor a :: ds⟩)
    (hLM : wavedec2 x w mode (some ((L + M : Nat) : Int)) axes = .ok c) :
    c.items.drop (M + 1) = ds ∧
    ∃ z, waverec2 ⟨c.isList, c.items.take (M + 1)⟩ w axes = .ok z ∧
      Reconstructs (axesOf axes a.rank 2) M a z := by
  have hFw : w.len = F := hw.len.1
  have hhi : w.decHi.length = w.len := by rw [hFw]; exact hw.len.2.1
  obtain ⟨b, hb, rfl⟩ := (c62_wavedec2 x a w mode L M axes il ds (by omega) hhi hL c).mp hLM
  obtain ⟨m, -, hd⟩ := c16_wavedec2_textbook a w mode (some (M : Int)) axes b (by omega) hhi hb
  have hl : b.items.length = M + 1 := by simpa [levelsN] using hd.length
  simp only
  rw [← hl, List.drop_left, List.take_left]
  refine ⟨rfl, ?_⟩
  obtain ⟨z, e, h1⟩ := c15_perfect_reconstruction a w F mode _ axes b hw hF he hb
  rw [hl, Nat.add_sub_cancel] at h1
  exact ⟨z, e, h1⟩

/-- **C62**, volumes. -/
theorem c62_intermediate3 [Field R] [CharZero R] (x a : Tensor R) (w : Wavelet R) (F : Nat) (mode : Option String)
    (L M : Nat) (axes : AxisHint) (il : Bool) (ds : List (Entry R)) (c : Coeffs R) (hw : PRBank w F) (hF : 2 ≤ F)
    (he : F % 2 = 0) (h0 : 0 < L) (hM : 0 < M)
    (hL : wavedec3 x w mode (some (L : Int)) axes = .ok ⟨il, .tensor a :: ds⟩)
    (hLM : wavedec3 x w mode (some ((L + M : Nat) : Int)) axes = .ok c) :
    c.items.drop (M + 1) = ds ∧
    ∃ z, waverec3 ⟨c.isList, c.items.take (M + 1)⟩ w axes = .ok z ∧
      Reconstructs (axesOf axes a.rank 3) M a z := by
  have hFw : w.len = F := hw.len.1
  have hhi : w.decHi.length = w.len := by rw [hFw]; exact hw.len.2.1
  obtain ⟨b, hb, rfl⟩ := (c62_wavedec3 x a w mode L M axes il ds (by omega) hhi h0 hM hL c).mp hLM
  obtain ⟨m, -, hd⟩ := c18_wavedec3_textbook a w mode (some (M : Int)) axes b (by omega) hhi (by simpa [levelsN] using hM) hb
  have hl : b.items.length = M + 1 := by simpa [levelsN] using hd.length
  simp only
  rw [← hl, List.drop_left, List.take_left]
  refine ⟨rfl, ?_⟩
  obtain ⟨z, e, h1⟩ := c17_perfect_reconstruction a w F mode _ axes b hw hF he (by simpa [levelsN] using hM) hb
  rw [hl, Nat.add_sub_cancel] at h1
  exact ⟨z, e, h1⟩

/-! ### Non-vacuity -/

/-- Three levels of a batch of odd-length signals: one level and two more. -/
example : ∃ a ds bs, wavedec exX haar (some "symmetric") (some 1) (.int (-2)) = .ok (a :: ds) ∧
    wavedec a haar (some "symmetric") (some 2) (.int (-2)) = .ok bs ∧ bs.length = 3 ∧ ds.length = 1 ∧
    wavedec exX haar (some "symmetric") (some 3) (.int (-2)) = .ok (bs ++ ds) := by
  obtain ⟨cs, h1⟩ := c04_total_modes exX haar (some "symmetric") .symmetric (some 1) (.int (-2)) (Or.inl rfl) (by decide) rfl
    exX_axes (Or.inr rfl) (by decide) (Or.inr (Or.inr rfl))
  obtain ⟨c3, h3⟩ := c04_total_modes exX haar (some "symmetric") .symmetric (some 3) (.int (-2)) (Or.inl rfl) (by decide) rfl
    exX_axes (Or.inr rfl) (by decide) (Or.inr (Or.inr rfl))
  obtain ⟨m, -, hd⟩ := c02_wavedec_textbook exX haar _ _ _ cs (by decide) rfl h1
  have hl : cs.length = 2 := hd.length
  match cs, hl with
  | [a, d], _ =>
    have h := c62_wavedec exX a haar (some "symmetric") 1 2 (.int (-2)) [d] (by decide) rfl h1
    change wavedec exX haar (some "symmetric") (some 3) (.int (-2)) = _ at h
    rw [h3] at h
    cases hb : wavedec a haar (some "symmetric") (some 2) (.int (-2)) with
    | error e =>
      change _ = (wavedec a haar (some "symmetric") (some 2) (.int (-2))).map _ at h
      rw [hb] at h; cases h
    | ok bs =>
      change _ = (wavedec a haar (some "symmetric") (some 2) (.int (-2))).map _ at h
      rw [hb] at h
      obtain ⟨m', -, hd'⟩ := c02_wavedec_textbook a haar _ _ _ bs (by decide) rfl hb
      refine ⟨a, [d], bs, h1, hb, hd'.length, rfl, ?_⟩
      rw [h3]; exact h

end Verif.Props
