/-
C58 for wavelet packets: every high-pass letter of a key takes as many coefficients from a polynomial as the high-pass filter
has vanishing moments.
-/
import Verif.Props.LocalPacket
import Verif.Props.LocalPolyN
import Verif.Lemmas.PacketPoly

namespace Verif
open Tensor Spec
variable {R : Type}

theorem packetPlane_axisLt [CommRing R] {m : Mode} {w : Wavelet R} (hF : 2 ≤ w.len) (hhi : w.decHi.length = w.len)
    {p i : Nat} (hp : VanishingMoments p w.decHi) {ws : List Window} (hiw : i < ws.length) {ns : List Nat} (hg : EndsInside ws ns)
    {band : Char → List Bool} (hb : ∀ c, (band c).length = ws.length) :
    ∀ (key : Key) {s N : Nat} {X : List Nat → R}, AxisPolyLt w.len s ws i N X →
      AxisPolyLt w.len (s + key.length) ws i (N - p * key.countP fun c => (band c)[i]? = some true)
        (packetPlane (bandN m w) (nextLens w.len) band (levelLens w.len ns s) X key)
  | [], s, N, X, hX => by simpa [packetPlane] using hX
  | c :: key, s, N, X, hX => by
    have hl : s + (c :: key).length = s + 1 + key.length := by simp; omega
    rw [hl]
    show AxisPolyLt _ _ _ _ _ (packetPlane _ _ band (nextLens w.len (levelLens w.len ns s)) _ key)
    rw [nextLens_levelLens]
    by_cases hc : (band c)[i]? = some true
    · have step := dwtN_axisLt (m := m) (p := p) hF i ws (bandFilt w.decLo w.decHi (band c)) ns X (by simp [bandFilt, hb])
        (bandFilt_len hhi _) hg hX (fun h hh => by
          simp [bandFilt, hc] at hh
          exact hh ▸ hp) hiw
      have := packetPlane_axisLt (m := m) hF hhi hp hiw hg hb key step
      have e : N - p * (c :: key).countP (fun c => (band c)[i]? = some true) =
          N - p - p * key.countP fun c => (band c)[i]? = some true := by
        rw [List.countP_cons_of_pos (by simpa using hc), Nat.mul_succ]
        omega
      rw [e]
      exact this
    · have step := dwtN_axisLt (m := m) (p := 0) hF i ws (bandFilt w.decLo w.decHi (band c)) ns X (by simp [bandFilt, hb])
        (bandFilt_len hhi _) hg hX (fun h _ => VanishingMoments.zero h) hiw
      have := packetPlane_axisLt (m := m) hF hhi hp hiw hg hb key step
      rw [List.countP_cons_of_neg (by simpa using hc)]
      exact this

end Verif

namespace Verif.Props
open Tensor Spec
variable {R : Type}

/-- **C58, packets of polynomials.** Where the signal is a polynomial of degree below `N`, the node of a key is, at the positions
whose samples lie in the window, a polynomial of degree below `N - p j`, where `p` is the number of vanishing moments of the
high-pass filter and `j` the number of high-pass letters of the key; in particular it is 0 there if `N ≤ p j`. -/
theorem c58_packet_polynomial [CommRing R] {w : Wavelet R} {mode : Option String} {axis : Int} {m : Mode}
    (hm : Selects mode m) (hF : 2 ≤ w.len) (hhi : w.decHi.length = w.len) {p : Nat} (hp : VanishingMoments p w.decHi)
    {st₀ : Pkt Unit (Tensor R)} {x : Tensor R} {ml : Option Int} {L : Int} (hL : PacketLevel w axis x ml L)
    (hax : ValidAxis x.rank axis) {ops : List (Backend.Op (Tensor R))} (ho : ∀ op ∈ ops, IsRead op) {key : Key} {v : Tensor R}
    (h : ((packet1 w mode axis).run st₀ (.transform x ml :: ops ++ [.read key])).1.getLast? = some (.value v))
    {lo hi : Nat} (h1 : hi ≤ x.shape.getD (axisOf x.rank axis) 0) {idx : List Nat} (hi1 : InB x.shape idx)
    {P : Polynomial R} {N : Nat} (hP : P.degree < (N : WithBot Nat))
    (hs : ∀ t, lo ≤ t → t < hi → line x (axisOf x.rank axis) idx t = P.eval (t : R)) :
    (∃ Q : Polynomial R, Q.degree < ((N - p * key.countP (· ≠ 'a') : Nat) : WithBot Nat) ∧
      ∀ k, Inside w.len key.length lo hi k → line v (axisOf x.rank axis) idx k = Q.eval (k : R)) ∧
    (N ≤ p * key.countP (· ≠ 'a') → ∀ k, Inside w.len key.length lo hi k → line v (axisOf x.rank axis) idx k = 0) := by
  have main : ∃ Q : Polynomial R, Q.degree < ((N - p * key.countP (· ≠ 'a') : Nat) : WithBot Nat) ∧
      ∀ k, Inside w.len key.length lo hi k → line v (axisOf x.rank axis) idx k = Q.eval (k : R) := by
    have ha := axisOf_lt hax
    rcases c25_value w mode axis m hm hF hhi st₀ x ml L hL ops ho key v h with ⟨rfl, e⟩ | ⟨p1, -, -, p2⟩
    · refine ⟨P, by simpa using hP, fun k hk => ?_⟩
      obtain ⟨q1, q2⟩ := hk
      simp only [List.length_nil, pow_zero, Nat.sub_self, Nat.zero_mul, Nat.one_mul] at q1 q2
      rw [e]
      exact hs k (by omega) (by omega)
    · have hg : EndsInside [⟨lo, hi, 0⟩] [x.shape.getD (axisOf x.rank axis) 0] := ⟨h1, trivial⟩
      have hX : AxisPolyLt w.len 0 [⟨lo, hi, 0⟩] 0 N (fun js => line x (axisOf x.rank axis) idx (js.headD 0)) := by
        rintro (_ | ⟨k, _ | ⟨_, _⟩⟩) hk
        · exact hk.elim
        · refine ⟨P, hP, fun t ht => ?_⟩
          obtain ⟨⟨q1, q2⟩, -⟩ := ht
          simp only [pow_zero, Nat.sub_self, Nat.zero_mul, Nat.one_mul] at q1 q2
          exact hs t (by omega) (by omega)
        · exact hk.2.elim
      have := packetPlane_axisLt (m := m) hF hhi hp (by simp) hg (band := fun c => [decide (c ≠ 'a')]) (fun _ => rfl) key hX
      rw [levelLens_zero, Nat.zero_add] at this
      have ec : key.countP (fun c => ([decide (c ≠ 'a')] : List Bool)[0]? = some true) = key.countP (· ≠ 'a') := by
        congr 1
        funext c
        by_cases hc : c = 'a' <;> simp [hc]
      rw [ec] at this
      by_cases hex : ∃ k, Inside w.len key.length lo hi k
      · obtain ⟨k0, hk0⟩ := hex
        obtain ⟨Q, hQ, hq⟩ := this [k0] ⟨hk0, trivial⟩
        refine ⟨Q, hQ, fun k hk => ?_⟩
        rw [line_along ha p2 hi1 (ends_inB hF hg (show InsideN w.len key.length [⟨lo, hi, 0⟩] [k] from ⟨hk, trivial⟩)).1, ← hq k ⟨hk, trivial⟩]
        exact (packetPlane_one m w key _ (line x (axisOf x.rank axis) idx) _ (fun j => rfl) k).symm
      · exact ⟨0, by simp, fun k hk => absurd ⟨k, hk⟩ hex⟩
  refine ⟨main, fun hN k hk => ?_⟩
  obtain ⟨Q, hQ, hq⟩ := main
  rw [Nat.sub_eq_zero_of_le hN] at hQ
  have : Q = 0 := by simpa using hQ
  rw [hq k hk, this, Polynomial.eval_zero]

/-- **C58, packets of images**, separable or not: the same along one of the two axes, for images that are polynomials along that
axis (a different one on every line, arbitrary along the other axis); the letters that count are those whose band is high pass
along that axis. -/
theorem c58_packet2_polynomial [CommRing R] {w : Wavelet R} {mode : Option String} {axes : List Int} {sep : Bool} {m : Mode}
    (hm : Selects mode m) (hF : 2 ≤ w.len) (hhi : w.decHi.length = w.len) {p : Nat} (hp : VanishingMoments p w.decHi)
    {st₀ : Pkt Unit (Tensor R)} {x : Tensor R} {ml : Option Int} {L : Int} (hL : PacketLevel2 w axes x ml L)
    (hax : GoodAxes (.seq axes) x.rank 2) (hdt : x.md.dtype = .float32 ∨ x.md.dtype = .float64)
    {ops : List (Backend.Op (Tensor R))} (ho : ∀ op ∈ ops, IsRead op) {key : Key} {v : Tensor R}
    (h : ((packet2 w mode axes sep).run st₀ (.transform x ml :: ops ++ [.read key])).1.getLast? = some (.value v))
    {ws : List Window} (hfit : EndsInside ws (sizes (planeAxes axes x.rank) x.shape)) {idx : List Nat} (hi : InB x.shape idx)
    {i N : Nat} (hi2 : i < 2) (hX : AxisPolyLt w.len 0 ws i N (plane x (planeAxes axes x.rank) idx)) :
    AxisPolyLt w.len key.length ws i (N - p * key.countP fun c => (packetBand sep c)[i]? = some true)
        (plane v (planeAxes axes x.rank) idx) ∧
      ((N ≤ p * key.countP fun c => (packetBand sep c)[i]? = some true) → ∀ ks, InsideN w.len key.length ws ks →
        plane v (planeAxes axes x.rank) idx ks = 0) := by
  have hwl : ws.length = 2 := by rw [ends_length hfit]; simp [sizes, axesOf, hax.len]
  have main : AxisPolyLt w.len key.length ws i (N - p * key.countP fun c => (packetBand sep c)[i]? = some true)
      (plane v (planeAxes axes x.rank) idx) := by
    rcases c25_2d_value w mode axes sep m hm hF hhi st₀ x hdt ml L hL ops ho key v h with ⟨rfl, e⟩ | ⟨p1, -, -, p2⟩
    · rw [e]
      simpa using hX
    · have := packetPlane_axisLt (m := m) hF hhi hp (hwl ▸ hi2) hfit (band := packetBand sep)
        (fun c => by rw [packetBand_length, hwl]) key hX
      rw [levelLens_zero, Nat.zero_add] at this
      intro js hj
      obtain ⟨Q, hQ, hq⟩ := this js hj
      refine ⟨Q, hQ, fun t ht => ?_⟩
      rw [plane_along hax.nodup hax.lt p2 (by simp [levelLens, sizes]) hi (ends_inB hF hfit ht)]
      exact hq t ht
  refine ⟨main, fun hN ks hk => ?_⟩
  obtain ⟨Q, hQ, hq⟩ := main ks hk
  rw [Nat.sub_eq_zero_of_le hN] at hQ
  have h0 : Q = 0 := by simpa using hQ
  have hkl : ks.length = ws.length := by
    have : ∀ (s : Nat) (ws : List Window) (ks : List Nat), InsideN w.len s ws ks → ks.length = ws.length := by
      intro s ws
      induction ws with
      | nil => rintro (_ | _) h <;> [rfl; exact h.elim]
      | cons a ws ih =>
        rintro (_ | ⟨k, ks⟩) h
        · exact h.elim
        · simp [ih ks h.2]
    exact this _ _ _ hk
  have hset : ks.set i (ks.getD i 0) = ks := by
    rw [List.getD_eq_getElem _ _ (by omega)]
    exact List.set_getElem_self _
  have := hq (ks.getD i 0) (by rw [hset]; exact hk)
  rw [hset, h0, Polynomial.eval_zero] at this
  exact this

/-! ### The hypotheses can be met -/

/-- The spline bank has three vanishing moments, so two high-pass letters take six coefficients: the inner part of the node `dd`
of a signal of degree five is 0, whereas its node `da` is a polynomial of degree below three. -/
example : ∃ v u,
    ((packet1 spline (some "zero") (-1)).run (Backend.empty ())
      (.transform (ofFn ⟨.float64, 0⟩ [16] fun i => (i.getD 0 0 : ℚ) ^ 5 + i.getD 0 0) (some 2) :: [] ++ [.read ['d', 'd']])).1.getLast? =
        some (.value v) ∧
    ((packet1 spline (some "zero") (-1)).run (Backend.empty ())
      (.transform (ofFn ⟨.float64, 0⟩ [16] fun i => (i.getD 0 0 : ℚ) ^ 5 + i.getD 0 0) (some 2) :: [] ++ [.read ['d', 'a']])).1.getLast? =
        some (.value u) ∧
    line v 0 [0] 2 = 0 ∧ line v 0 [0] 3 = 0 ∧
    ∃ Q : Polynomial ℚ, Q.degree < ((3 : Nat) : WithBot Nat) ∧ line u 0 [0] 2 = Q.eval 2 ∧ line u 0 [0] 3 = Q.eval 3 := by
  set x : Tensor ℚ := ofFn ⟨.float64, 0⟩ [16] fun i => (i.getD 0 0 : ℚ) ^ 5 + i.getD 0 0 with hx
  have ax : ValidAxis x.rank (-1) := ⟨(by decide : -((1 : Nat) : Int) ≤ -1), (by decide : (-1 : Int) < (1 : Nat))⟩
  have adm : ∀ s, Mode.zero.Admits spline.len (levelLen spline.len 16 s) := fun s => by
    have hl : spline.len = 4 := rfl
    simp only [Mode.Admits]
    omega
  obtain ⟨v, hv⟩ := c25_readable spline (some "zero") (-1) .zero (Or.inl rfl) (by decide) rfl (Backend.empty ()) x (some 2) 2 (Or.inl rfl)
    ax (Or.inr rfl) [] (by simp) ['d', 'd'] (by decide) (by simp) fun s _ => adm s
  obtain ⟨u, hu⟩ := c25_readable spline (some "zero") (-1) .zero (Or.inl rfl) (by decide) rfl (Backend.empty ()) x (some 2) 2 (Or.inl rfl)
    ax (Or.inr rfl) [] (by simp) ['d', 'a'] (by decide) (by simp) fun s _ => adm s
  have hval : ∀ t, 0 ≤ t → t < 16 → line x (axisOf x.rank (-1)) [0] t = (Polynomial.X ^ 5 + Polynomial.X : Polynomial ℚ).eval (t : ℚ) := by
    intro t _ ht
    show x.get [t] = _
    rw [hx, ofFn_get_of _ _ (show InB [16] [t] from ⟨ht, trivial⟩)]
    simp
  have hdeg : (Polynomial.X ^ 5 + Polynomial.X : Polynomial ℚ).degree < ((6 : Nat) : WithBot Nat) := by
    refine lt_of_le_of_lt (Polynomial.degree_add_le _ _) ?_
    rw [Polynomial.degree_X_pow, Polynomial.degree_X]
    decide
  have r1 := (c58_packet_polynomial (Or.inl rfl : Selects _ .zero) (by decide) rfl spline_moments (Or.inl rfl) ax (by simp) hv (lo := 0)
    (hi := 16) le_rfl (idx := [0]) ⟨by decide, trivial⟩ hdeg hval).2 (by decide)
  obtain ⟨Q, q1, q2⟩ := (c58_packet_polynomial (Or.inl rfl : Selects _ .zero) (by decide) rfl spline_moments (Or.inl rfl) ax (by simp) hu
    (lo := 0) (hi := 16) le_rfl (idx := [0]) ⟨by decide, trivial⟩ hdeg hval).1
  have i2 : Inside spline.len (['d', 'a'] : Key).length 0 16 2 := ⟨by decide, by decide⟩
  have i3 : Inside spline.len (['d', 'a'] : Key).length 0 16 3 := ⟨by decide, by decide⟩
  have e2 : line u 0 [0] 2 = Q.eval ((2 : ℕ) : ℚ) := q2 2 i2
  have e3 : line u 0 [0] 3 = Q.eval ((3 : ℕ) : ℚ) := q2 3 i3
  exact ⟨v, u, hv, hu, r1 2 i2, r1 3 i3, Q, q1, by simpa using e2, by simpa using e3⟩

/-- An image with a different parabola on every row, separable or not: the node `d` vanishes inside. -/
example (f g : Nat → ℚ) (sep : Bool) : ∃ v,
    ((packet2 spline (some "zero") [-2, -1] sep).run (Backend.empty ())
      (.transform (ofFn ⟨.float64, 0⟩ [6, 8] fun i => f (i.getD 0 0) * (i.getD 1 0 : ℚ) ^ 2 + g (i.getD 0 0)) (some 1) :: [] ++
        [.read ['d']])).1.getLast? = some (.value v) ∧ plane v [0, 1] [0, 0] [1, 2] = 0 := by
  set x : Tensor ℚ := ofFn ⟨.float64, 0⟩ [6, 8] fun i => f (i.getD 0 0) * (i.getD 1 0 : ℚ) ^ 2 + g (i.getD 0 0) with hx
  have hg : GoodAxes (.seq [-2, -1]) x.rank 2 := by
    show GoodAxes (.seq [-2, -1]) 2 2
    refine ⟨by decide, rfl, ?_, by decide⟩
    intro a ha
    have : a = -2 ∨ a = -1 := by simpa [resolve] using ha
    rcases this with rfl | rfl <;> exact ⟨by decide, by decide⟩
  have hs : sizes (planeAxes [-2, -1] x.rank) x.shape = [6, 8] := rfl
  have hp : planeAxes [-2, -1] x.rank = [0, 1] := rfl
  obtain ⟨v, hv⟩ := c25_2d_readable spline (some "zero") [-2, -1] sep .zero (Or.inl rfl) (by decide) rfl (Backend.empty ()) x (some 1) 1
    (Or.inl rfl) hg (Or.inr rfl) [] (by simp) ['d'] (by decide) (by simp) (by
      intro s _ k _
      have hl : spline.len = 4 := rfl
      simp only [Mode.Admits]
      omega)
  refine ⟨v, hv, ?_⟩
  refine (c58_packet2_polynomial (Or.inl rfl : Selects _ .zero) (by decide) rfl spline_moments (Or.inl rfl) hg (Or.inr rfl) (by simp) hv
    (ws := [⟨0, 6, 0⟩, ⟨0, 8, 0⟩]) (by rw [hs]; exact ⟨le_rfl, le_rfl, trivial⟩) (idx := [0, 0]) ⟨by decide, by decide, trivial⟩ (i := 1) (N := 3)
    (by decide) ?_).2 (by cases sep <;> decide) [1, 2] ⟨⟨by decide, by decide⟩, ⟨by decide, by decide⟩, trivial⟩
  rw [hp]
  intro js hj
  match js, hj with
  | [a, b], _ =>
    refine ⟨Polynomial.C (f a) * Polynomial.X ^ 2 + Polynomial.C (g a), ?_, fun t ht => ?_⟩
    · refine lt_of_le_of_lt (Polynomial.degree_add_le _ _) (max_lt ?_ ?_)
      · refine lt_of_le_of_lt (Polynomial.degree_C_mul_X_pow_le _ _) ?_
        decide
      · exact lt_of_le_of_lt Polynomial.degree_C_le (by decide)
    · obtain ⟨⟨-, h1⟩, ⟨-, h2⟩, -⟩ := ht
      show x.get [a, t] = _
      simp only [pow_zero, Nat.one_mul] at h1 h2
      rw [hx, ofFn_get_of _ _ (show InB [6, 8] [a, t] from ⟨by omega, by omega, trivial⟩)]
      simp

end Verif.Props
