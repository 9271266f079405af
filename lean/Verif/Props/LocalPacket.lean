/-
C58 for wavelet packets: locality and constant signals.
-/
import Verif.Props.Local
import Verif.Props.Packets
import Verif.Props.Packet2
import Verif.Props.RollPacket

namespace Verif
open Tensor Spec
variable {R : Type}

theorem bandN_local [NonUnitalNonAssocSemiring R] {m m' : Mode} {w : Wavelet R} (hF : 2 ≤ w.len)
    (hhi : w.decHi.length = w.len) {S s : Nat} (hs : s + 1 ≤ S) {ws : List Window} {ns ns' : List Nat}
    (hfit : WindowsFit (2 ^ S) ws ns ns') {bs : List Bool} (hb : bs.length = ws.length) {X X' : List Nat → R}
    (ih : ∀ ks, InsideN w.len s ws ks → X ks = X' (moved (2 ^ (S - s)) ws ks))
    (ks : List Nat) (hk : InsideN w.len (s + 1) ws ks) :
    bandN m w bs (levelLens w.len ns s) X ks = bandN m' w bs (levelLens w.len ns' s) X' (moved (2 ^ (S - (s + 1))) ws ks) := by
  have e : 2 ^ (S - s) = 2 * 2 ^ (S - (s + 1)) := by
    rw [← pow_succ', show S - (s + 1) + 1 = S - s by omega]
  have hg := fits_good hF (show s ≤ S by omega) ws ns ns' hfit
  rw [e] at hg ih
  unfold bandN
  refine dwtN_local (F := w.len) (P := fun w' k => Inside w.len s w'.lo w'.hi k)
    (Q := fun w' k => Inside w.len (s + 1) w'.lo w'.hi k) (fun w' k t h ht => h.step ht) ws _ _ _ _ _ ks ?_ ?_ hg ?_
    ((insideN_eq _ _ _ _).mp hk)
  · unfold bandFilt; simpa using hb
  · intro f hf
    unfold bandFilt at hf
    obtain ⟨b, -, rfl⟩ := List.mem_map.mp hf
    cases b
    · rfl
    · exact hhi
  · intro js hjs
    exact ih js ((insideN_eq _ _ _ _).mpr hjs)

theorem nextLens_levelLens (F : Nat) (ns : List Nat) (s : Nat) : nextLens F (levelLens F ns s) = levelLens F ns (s + 1) := by
  simp [nextLens, levelLens, levelLen]

theorem packetPlane_local [NonUnitalNonAssocSemiring R] {m m' : Mode} {w : Wavelet R} (hF : 2 ≤ w.len)
    (hhi : w.decHi.length = w.len) {S : Nat} {ws : List Window} {ns ns' : List Nat} {band : Char → List Bool}
    (hfit : WindowsFit (2 ^ S) ws ns ns') : ∀ (key : Key) {s : Nat} {X X' : List Nat → R},
    (∀ c, (band c).length = ws.length) → s + key.length ≤ S →
    (∀ ks, InsideN w.len s ws ks → X ks = X' (moved (2 ^ (S - s)) ws ks)) → ∀ ks, InsideN w.len (s + key.length) ws ks →
      packetPlane (bandN m w) (nextLens w.len) band (levelLens w.len ns s) X key ks =
        packetPlane (bandN m' w) (nextLens w.len) band (levelLens w.len ns' s) X' key (moved (2 ^ (S - (s + key.length))) ws ks)
  | [], s, X, X', _, _, hX, ks, hk => hX ks hk
  | c :: key, s, X, X', hb, hs, hX, ks, hk => by
    have hl : s + (c :: key).length = s + 1 + key.length := by simp; omega
    rw [hl] at hs hk ⊢
    show packetPlane _ _ band (nextLens w.len (levelLens w.len ns s)) _ key ks =
      packetPlane _ _ band (nextLens w.len (levelLens w.len ns' s)) _ key _
    rw [nextLens_levelLens, nextLens_levelLens]
    exact packetPlane_local hF hhi hfit key hb hs (fun ks hk => bandN_local hF hhi (by omega) hfit (hb c) hX ks hk) ks hk

/-- One axis. -/
theorem packetPlane_one [NonUnitalNonAssocSemiring R] (m : Mode) (w : Wavelet R) : ∀ (key : Key) (n : Nat) (v : Nat → R)
    (X : List Nat → R), (∀ j, X [j] = v j) → ∀ k,
    packetPlane (bandN m w) (nextLens w.len) (fun c => [decide (c ≠ 'a')]) [n] X key [k] = packetLine m w n v key k
  | [], _, _, _, h, k => h k
  | c :: key, n, v, X, h, k => by
    refine packetPlane_one m w key (outLen w.len n) (dwtStep m (if c = 'a' then w.decLo else w.decHi) n v) _ (fun j => ?_) k
    show dwtStep m (if decide (c ≠ 'a') then w.decHi else w.decLo) n (fun j => X [j]) j = _
    rw [funext h]
    by_cases hc : c = 'a' <;> simp [hc]

/-- What the filters of a key make of a constant: the product of the sums of the filters of its bands. -/
def keyGain [CommSemiring R] (w : Wavelet R) (band : Char → List Bool) (key : Key) : R :=
  (key.map fun c => ((band c).map fun b => if b then w.decHi.sum else w.decLo.sum).prod).prod

theorem packetPlane_const [CommSemiring R] {m : Mode} (hm : m ≠ .zero) {w : Wavelet R} (hF : 2 ≤ w.len) {band : Char → List Bool} :
    ∀ (key : Key) {ns : List Nat} {X : List Nat → R} {v : R}, (∀ c, (band c).length = ns.length) → (∀ n ∈ ns, 0 < n) →
      (∀ js, InB ns js → X js = v) → ∀ ks, InB (levelLens w.len ns key.length) ks →
      packetPlane (bandN m w) (nextLens w.len) band ns X key ks = v * keyGain w band key
  | [], ns, X, v, _, _, hX, ks, hk => by
    rw [List.length_nil, levelLens_zero] at hk
    simpa [packetPlane, keyGain] using hX ks hk
  | c :: key, ns, X, v, hb, hn, hX, ks, hk => by
    have h1 : nextLens w.len ns = levelLens w.len ns 1 := by
      rw [← nextLens_levelLens w.len ns 0, levelLens_zero]
    have hs : levelLens w.len (nextLens w.len ns) key.length = levelLens w.len ns (c :: key).length := levelLens_shift _ _ _
    have hl : (nextLens w.len ns).length = ns.length := by simp [nextLens]
    show packetPlane _ _ band (nextLens w.len ns) (bandN m w (band c) ns X) key ks = _
    rw [packetPlane_const hm hF key (v := v * ((band c).map fun b => if b then w.decHi.sum else w.decLo.sum).prod)
      (by rw [hl]; exact hb) (by rw [h1]; exact levelLens_pos hF hn 1) ?_ ks (by rw [hs]; exact hk)]
    · simp only [keyGain, List.map_cons, List.prod_cons]
      ring
    · intro js hjs
      unfold bandN
      rw [dwtN_const hm _ _ js _ (by simp [bandFilt, hb c]) (by rw [hjs.length_eq, hl]; simp [bandFilt, hb c]) hn hX]
      congr 2
      rw [bandFilt, List.map_map]
      refine List.map_congr_left fun b _ => ?_
      cases b <;> simp [Props.tapSum_eq]

end Verif

namespace Verif.Props
open Tensor Spec
variable {R : Type}

/-- **C58, packets.** Two signals (any sizes, axes, boundary modes, depths, positions in a batch, histories of the two objects)
that agree on a window up to an offset of a multiple of `2^S`: the coefficients of a node of level `s ≤ S` whose samples
`2^s (k+1) - 1 - (2^s - 1) (F - 1), …, 2^s (k+1) - 1` lie in the window agree, with the offset divided by `2^s`. -/
theorem c58_packet [NonUnitalNonAssocSemiring R] {w : Wavelet R} {mode mode' : Option String} {axis axis' : Int} {m m' : Mode}
    (hm : Selects mode m) (hm' : Selects mode' m') (hF : 2 ≤ w.len) (hhi : w.decHi.length = w.len)
    {st₀ st₁ : Pkt Unit (Tensor R)} {x y : Tensor R} {ml ml' : Option Int} {L L' : Int} (hL : PacketLevel w axis x ml L)
    (hL' : PacketLevel w axis' y ml' L') (hax : ValidAxis x.rank axis) (hax' : ValidAxis y.rank axis')
    {ops ops' : List (Backend.Op (Tensor R))} (ho : ∀ op ∈ ops, IsRead op) (ho' : ∀ op ∈ ops', IsRead op) {key : Key} {v v' : Tensor R}
    (h : ((packet1 w mode axis).run st₀ (.transform x ml :: ops ++ [.read key])).1.getLast? = some (.value v))
    (h' : ((packet1 w mode' axis').run st₁ (.transform y ml' :: ops' ++ [.read key])).1.getLast? = some (.value v'))
    {S lo hi shift : Nat} (hS : key.length ≤ S) (h1 : hi ≤ x.shape.getD (axisOf x.rank axis) 0)
    (h2 : hi + 2 ^ S * shift ≤ y.shape.getD (axisOf y.rank axis') 0) {idx idx' : List Nat} (hi1 : InB x.shape idx) (hi2 : InB y.shape idx')
    (hs : ∀ t, lo ≤ t → t < hi → line x (axisOf x.rank axis) idx t = line y (axisOf y.rank axis') idx' (t + 2 ^ S * shift))
    {k : Nat} (hk : Inside w.len key.length lo hi k) :
    line v (axisOf x.rank axis) idx k = line v' (axisOf y.rank axis') idx' (k + 2 ^ (S - key.length) * shift) := by
  have ha := axisOf_lt hax
  have ha' := axisOf_lt hax'
  rcases c25_value w mode axis m hm hF hhi st₀ x ml L hL ops ho key v h with ⟨rfl, e⟩ | ⟨p1, -, -, p2⟩
  · rcases c25_value w mode' axis' m' hm' hF hhi st₁ y ml' L' hL' ops' ho' [] v' h' with ⟨-, e'⟩ | ⟨p1, -⟩
    · rw [e, e']
      obtain ⟨q1, q2⟩ := hk
      simp only [List.length_nil, pow_zero, Nat.sub_self, Nat.zero_mul, Nat.one_mul] at q1 q2
      exact hs k (by omega) (by omega)
    · exact absurd rfl p1
  · rcases c25_value w mode' axis' m' hm' hF hhi st₁ y ml' L' hL' ops' ho' key v' h' with ⟨p3, -⟩ | ⟨-, -, -, p2'⟩
    · exact absurd p3 p1
    have hfit : WindowsFit (2 ^ S) [⟨lo, hi, shift⟩] [x.shape.getD (axisOf x.rank axis) 0]
        [y.shape.getD (axisOf y.rank axis') 0] := ⟨h1, h2, trivial⟩
    obtain ⟨i1, i2⟩ := fits_inB hF hS hfit (show InsideN w.len key.length [⟨lo, hi, shift⟩] [k] from ⟨hk, trivial⟩)
    rw [line_along ha p2 hi1 i1.1, line_along ha' p2' hi2 i2.1]
    have := packetPlane_local (m := m) (m' := m') hF hhi hfit key (s := 0) (band := fun c => [decide (c ≠ 'a')])
      (X := fun js => line x (axisOf x.rank axis) idx (js.headD 0)) (X' := fun js => line y (axisOf y.rank axis') idx' (js.headD 0))
      (fun _ => rfl) (by omega) (by
        rintro (_ | ⟨k, _ | ⟨_, _⟩⟩) h
        · exact h.elim
        · obtain ⟨⟨p1, p2⟩, -⟩ := h
          simp only [pow_zero, Nat.sub_self, Nat.zero_mul, Nat.one_mul] at p1 p2
          exact hs k (by omega) (by omega)
        · exact h.2.elim) [k] (by rw [Nat.zero_add]; exact ⟨hk, trivial⟩)
    rw [levelLens_zero, levelLens_zero, Nat.zero_add] at this
    simp only [moved] at this
    rw [packetPlane_one m w key _ (line x (axisOf x.rank axis) idx) _ fun j => rfl,
      packetPlane_one m' w key _ (line y (axisOf y.rank axis') idx') _ fun j => rfl] at this
    exact this

/-- **C58, packets of images**, separable or not. -/
theorem c58_packet2 [Semiring R] {w : Wavelet R} {mode mode' : Option String} {axes axes' : List Int} {sep : Bool} {m m' : Mode}
    (hm : Selects mode m) (hm' : Selects mode' m') (hF : 2 ≤ w.len) (hhi : w.decHi.length = w.len)
    {st₀ st₁ : Pkt Unit (Tensor R)} {x y : Tensor R} {ml ml' : Option Int} {L L' : Int} (hL : PacketLevel2 w axes x ml L)
    (hL' : PacketLevel2 w axes' y ml' L') (hax : GoodAxes (.seq axes) x.rank 2) (hax' : GoodAxes (.seq axes') y.rank 2)
    (hdt : x.md.dtype = .float32 ∨ x.md.dtype = .float64) (hdt' : y.md.dtype = .float32 ∨ y.md.dtype = .float64)
    {ops ops' : List (Backend.Op (Tensor R))} (ho : ∀ op ∈ ops, IsRead op) (ho' : ∀ op ∈ ops', IsRead op) {key : Key} {v v' : Tensor R}
    (h : ((packet2 w mode axes sep).run st₀ (.transform x ml :: ops ++ [.read key])).1.getLast? = some (.value v))
    (h' : ((packet2 w mode' axes' sep).run st₁ (.transform y ml' :: ops' ++ [.read key])).1.getLast? = some (.value v'))
    {S : Nat} (hS : key.length ≤ S) {ws : List Window}
    (hfit : WindowsFit (2 ^ S) ws (sizes (planeAxes axes x.rank) x.shape) (sizes (planeAxes axes' y.rank) y.shape))
    {idx idx' : List Nat} (hi : InB x.shape idx) (hi' : InB y.shape idx')
    (hs : SameOn w.len 0 (2 ^ S) ws x (planeAxes axes x.rank) idx y (planeAxes axes' y.rank) idx') :
    SameOn w.len key.length (2 ^ (S - key.length)) ws v (planeAxes axes x.rank) idx v' (planeAxes axes' y.rank) idx' := by
  rcases c25_2d_value w mode axes sep m hm hF hhi st₀ x hdt ml L hL ops ho key v h with ⟨rfl, e⟩ | ⟨p1, -, -, p2⟩
  · rcases c25_2d_value w mode' axes' sep m' hm' hF hhi st₁ y hdt' ml' L' hL' ops' ho' [] v' h' with ⟨-, e'⟩ | ⟨p1, -⟩
    · rw [e, e']
      exact hs
    · exact absurd rfl p1
  · rcases c25_2d_value w mode' axes' sep m' hm' hF hhi st₁ y hdt' ml' L' hL' ops' ho' key v' h' with ⟨p3, -⟩ | ⟨-, -, -, p2'⟩
    · exact absurd p3 p1
    intro ks hk
    obtain ⟨i1, i2⟩ := fits_inB hF hS hfit hk
    obtain ⟨hl1, hl2⟩ := fits_length _ _ _ hfit
    have hwl : ws.length = 2 := by rw [hl1]; simp [sizes, axesOf, hax.len]
    rw [plane_along hax.nodup hax.lt p2 (by simp [levelLens, sizes]) hi i1,
      plane_along hax'.nodup hax'.lt p2' (by simp [levelLens, sizes]) hi' i2]
    have := packetPlane_local (m := m) (m' := m') hF hhi hfit key (s := 0) (band := packetBand sep) (fun c => by rw [packetBand_length, hwl])
      (by omega) hs ks (by rw [Nat.zero_add]; exact hk)
    rwa [levelLens_zero, levelLens_zero, Nat.zero_add] at this

/-- **C58, packets of constant signals.** In every boundary mode but `zero` the node of a key of a constant signal is constant
up to the borders: the constant times one factor per letter, the sum of the low-pass filter for an `a` and the sum of the
high-pass filter for a `d`. So if the high-pass filter sums to 0, all nodes but `aa…a` are 0. -/
theorem c58_packet_constant [CommSemiring R] {w : Wavelet R} {mode : Option String} {axis : Int} {m : Mode}
    (hm : Selects mode m) (hm0 : m ≠ .zero) (hF : 2 ≤ w.len) (hhi : w.decHi.length = w.len)
    {st₀ : Pkt Unit (Tensor R)} {x : Tensor R} {ml : Option Int} {L : Int} (hL : PacketLevel w axis x ml L)
    (hax : ValidAxis x.rank axis) {ops : List (Backend.Op (Tensor R))} (ho : ∀ op ∈ ops, IsRead op) {key : Key} {v : Tensor R}
    (h : ((packet1 w mode axis).run st₀ (.transform x ml :: ops ++ [.read key])).1.getLast? = some (.value v))
    {idx : List Nat} (hi : InB x.shape idx) {c : R}
    (hc : ∀ t, t < x.shape.getD (axisOf x.rank axis) 0 → line x (axisOf x.rank axis) idx t = c) {k : Nat}
    (hk : k < v.shape.getD (axisOf x.rank axis) 0) :
    line v (axisOf x.rank axis) idx k = c * (key.map fun l => if l = 'a' then w.decLo.sum else w.decHi.sum).prod ∧
      (w.decHi.sum = 0 → (∃ l ∈ key, l ≠ 'a') → line v (axisOf x.rank axis) idx k = 0) := by
  have main : line v (axisOf x.rank axis) idx k = c * (key.map fun l => if l = 'a' then w.decLo.sum else w.decHi.sum).prod := by
    have ha := axisOf_lt hax
    rcases c25_value w mode axis m hm hF hhi st₀ x ml L hL ops ho key v h with ⟨rfl, e⟩ | ⟨p1, -, -, p2⟩
    · subst e
      simpa using hc k hk
    · have hn : 0 < x.shape.getD (axisOf x.rank axis) 0 := by
        have := (inB_iff.mp hi).2 _ ha
        omega
      have hk' : k < levelLen w.len (x.shape.getD (axisOf x.rank axis) 0) key.length := by
        rw [p2.shape, getD_set_self ha] at hk
        exact hk
      rw [line_along ha p2 hi hk', ← packetPlane_one m w key _ (line x (axisOf x.rank axis) idx)
        (fun js => line x (axisOf x.rank axis) idx (js.headD 0)) (fun j => rfl),
        packetPlane_const (band := fun c => [decide (c ≠ 'a')]) hm0 hF key (ns := [x.shape.getD (axisOf x.rank axis) 0]) (v := c)
          (fun _ => rfl) (fun n hn' => by rw [List.mem_singleton.mp hn']; exact hn) ?_ [k] ⟨hk', trivial⟩]
      · unfold keyGain
        congr 2
        refine List.map_congr_left fun l _ => ?_
        by_cases hl : l = 'a' <;> simp [hl]
      · rintro (_ | ⟨j, _ | ⟨_, _⟩⟩) hj
        · exact hj.elim
        · exact hc j hj.1
        · exact hj.2.elim
  refine ⟨main, fun hz ⟨l, hl, hla⟩ => ?_⟩
  rw [main, List.prod_eq_zero (List.mem_map.mpr ⟨l, hl, by rw [if_neg hla]; exact hz⟩), mul_zero]

/-- **C58, packets of constant images**, separable or not: one factor per letter and axis. -/
theorem c58_packet2_constant [CommSemiring R] {w : Wavelet R} {mode : Option String} {axes : List Int} {sep : Bool} {m : Mode}
    (hm : Selects mode m) (hm0 : m ≠ .zero) (hF : 2 ≤ w.len) (hhi : w.decHi.length = w.len)
    {st₀ : Pkt Unit (Tensor R)} {x : Tensor R} {ml : Option Int} {L : Int} (hL : PacketLevel2 w axes x ml L)
    (hax : GoodAxes (.seq axes) x.rank 2) (hdt : x.md.dtype = .float32 ∨ x.md.dtype = .float64)
    {ops : List (Backend.Op (Tensor R))} (ho : ∀ op ∈ ops, IsRead op) {key : Key} {v : Tensor R}
    (h : ((packet2 w mode axes sep).run st₀ (.transform x ml :: ops ++ [.read key])).1.getLast? = some (.value v))
    {idx : List Nat} (hi : InB x.shape idx) {c : R}
    (hc : ∀ ks, InB (sizes (planeAxes axes x.rank) x.shape) ks → plane x (planeAxes axes x.rank) idx ks = c) {ks : List Nat}
    (hk : InB (sizes (planeAxes axes x.rank) v.shape) ks) :
    plane v (planeAxes axes x.rank) idx ks = c * (key.map fun l =>
        if l = 'a' then w.decLo.sum * w.decLo.sum else if l = 'd' then w.decHi.sum * w.decHi.sum
        else w.decLo.sum * w.decHi.sum).prod ∧
      (w.decHi.sum = 0 → (∃ l ∈ key, l ≠ 'a') → plane v (planeAxes axes x.rank) idx ks = 0) := by
  have main : plane v (planeAxes axes x.rank) idx ks = c * (key.map fun l =>
        if l = 'a' then w.decLo.sum * w.decLo.sum else if l = 'd' then w.decHi.sum * w.decHi.sum
        else w.decLo.sum * w.decHi.sum).prod := by
    rcases c25_2d_value w mode axes sep m hm hF hhi st₀ x hdt ml L hL ops ho key v h with ⟨rfl, e⟩ | ⟨p1, -, p4, p2⟩
    · subst e
      simpa using hc ks hk
    · have hl2 : (sizes (planeAxes axes x.rank) x.shape).length = 2 := by simp [sizes, axesOf, hax.len]
      have hn : ∀ n ∈ sizes (planeAxes axes x.rank) x.shape, 0 < n := by
        intro n hn
        obtain ⟨a, ha, rfl⟩ := List.mem_map.mp hn
        have := (inB_iff.mp hi).2 a (hax.lt a ha)
        omega
      rw [p2.shape, sizes_setMany hax.nodup hax.lt (by simp [levelLens, sizes])] at hk
      rw [plane_along hax.nodup hax.lt p2 (by simp [levelLens, sizes]) hi hk,
        packetPlane_const hm0 hF key (v := c) (fun l => by rw [packetBand_length, hl2]) hn hc ks hk]
      unfold keyGain
      congr 2
      refine List.map_congr_left fun l hl => ?_
      rcases p4 l hl with rfl | rfl | rfl | rfl <;> cases sep <;> simp [packetBand, letterBand, letterBandSwapped, mul_comm]
  refine ⟨main, fun hz ⟨l, hl, hla⟩ => ?_⟩
  rw [main, List.prod_eq_zero (List.mem_map.mpr ⟨l, hl, by rw [if_neg hla, hz]; simp⟩), mul_zero]

/-! ### The hypotheses can be met -/

theorem haar_admits (m : Mode) (n : Nat) (hn : 0 < n) {s : Nat} (_ : s < 2) (h : m = .zero ∨ m = .symmetric) :
    m.Admits haar.len (levelLen haar.len n s) := by
  have := levelLen_pos (F := haar.len) (by decide) hn s
  have hl : haar.len = 2 := rfl
  rcases h with rfl | rfl <;> simp only [Mode.Admits] <;> omega

/-- Two levels of a signal of 8 samples in zero mode, and of one of 13 in symmetric mode which contains the first one four
samples later: the inner coefficients of the node `da` are the same, one place later. -/
example (f : Nat → ℚ) : ∃ v v',
    ((packet1 haar (some "zero") (-1)).run (Backend.empty ())
      (.transform (ofFn ⟨.float64, 0⟩ [8] fun i => f (i.getD 0 0)) (some 2) :: [] ++ [.read ['d', 'a']])).1.getLast? = some (.value v) ∧
    ((packet1 haar (some "symmetric") 0).run (Backend.empty ())
      (.transform (ofFn ⟨.float64, 0⟩ [13] fun i => f (i.getD 0 0 - 4)) (some 2) :: [.read ['a']] ++ [.read ['d', 'a']])).1.getLast? =
        some (.value v') ∧ line v 0 [0] 1 = line v' 0 [0] 2 := by
  set x : Tensor ℚ := ofFn ⟨.float64, 0⟩ [8] fun i => f (i.getD 0 0) with hx
  set y : Tensor ℚ := ofFn ⟨.float64, 0⟩ [13] fun i => f (i.getD 0 0 - 4) with hy
  have hr : ∀ op ∈ [Backend.Op.read (T := Tensor ℚ) ['a']], IsRead op := by
    intro op hop; simp only [List.mem_singleton] at hop; subst hop; trivial
  have ax : ValidAxis x.rank (-1) := ⟨(by decide : -((1 : Nat) : Int) ≤ -1), (by decide : (-1 : Int) < (1 : Nat))⟩
  have ay : ValidAxis y.rank 0 := ⟨(by decide : -((1 : Nat) : Int) ≤ 0), (by decide : (0 : Int) < (1 : Nat))⟩
  obtain ⟨v, hv⟩ := c25_readable haar (some "zero") (-1) .zero (Or.inl rfl) (by decide) rfl (Backend.empty ()) x (some 2) 2 (Or.inl rfl)
    ax (Or.inr rfl) [] (by simp) ['d', 'a'] (by decide) (by simp) fun s hs => haar_admits _ 8 (by decide) hs (Or.inl rfl)
  obtain ⟨v', hv'⟩ := c25_readable haar (some "symmetric") 0 .symmetric (Or.inl rfl) (by decide) rfl (Backend.empty ()) y (some 2) 2 (Or.inl rfl)
    ay (Or.inr rfl) [.read ['a']] hr ['d', 'a'] (by decide) (by simp) fun s hs => haar_admits _ 13 (by decide) hs (Or.inr rfl)
  refine ⟨v, v', hv, hv', ?_⟩
  exact c58_packet (Or.inl rfl : Selects _ .zero) (Or.inl rfl : Selects _ .symmetric) (by decide) rfl (Or.inl rfl) (Or.inl rfl) ax ay
    (by simp) hr hv hv' (S := 2) (lo := 0) (hi := 8) (shift := 1) (by decide) le_rfl (by show 8 + 2 ^ 2 * 1 ≤ 13; decide) (idx := [0]) (idx' := [0])
    ⟨by decide, trivial⟩ ⟨by decide, trivial⟩ (fun t _ ht => by
      show x.get [t] = y.get [t + 4]
      rw [hx, hy, ofFn_get_of _ _ (show InB [8] [t] from ⟨ht, trivial⟩),
        ofFn_get_of _ _ (show InB [13] [t + 4] from ⟨by omega, trivial⟩)]
      simp) (k := 1) ⟨by decide, by decide⟩

/-- A constant batch: the node `ad` is 0, borders included. -/
example (c : ℚ) : ∃ v,
    ((packet1 haar (some "symmetric") (-1)).run (Backend.empty ())
      (.transform (ofFn ⟨.float64, 0⟩ [3, 9] fun _ => c) (some 2) :: [] ++ [.read ['a', 'd']])).1.getLast? = some (.value v) ∧
    ∀ k, k < v.shape.getD 1 0 → line v 1 [2, 0] k = 0 := by
  set x : Tensor ℚ := ofFn ⟨.float64, 0⟩ [3, 9] fun _ => c with hx
  have ax : ValidAxis x.rank (-1) := ⟨(by decide : -((2 : Nat) : Int) ≤ -1), (by decide : (-1 : Int) < (2 : Nat))⟩
  obtain ⟨v, hv⟩ := c25_readable haar (some "symmetric") (-1) .symmetric (Or.inl rfl) (by decide) rfl (Backend.empty ()) x (some 2) 2
    (Or.inl rfl) ax (Or.inr rfl) [] (by simp) ['a', 'd'] (by decide) (by simp) fun s hs => haar_admits _ 9 (by decide) hs (Or.inr rfl)
  refine ⟨v, hv, fun k hk => ?_⟩
  exact (c58_packet_constant (Or.inl rfl : Selects _ .symmetric) (by decide) (by decide) rfl (Or.inl rfl) ax (by simp) hv (idx := [2, 0])
    ⟨by decide, by decide, trivial⟩ (c := c) (fun t ht => by
      show x.get [2, t] = c
      have ht' : t < 9 := ht
      rw [hx, ofFn_get_of _ _ (show InB [3, 9] [2, t] from ⟨by decide, ht', trivial⟩)]) hk).2 (by norm_num [haar]) ⟨'d', by simp, by decide⟩

theorem haar_admits_plane (m : Mode) (h : m = .zero ∨ m = .symmetric) : LevelsAdmit m haar.len [4, 8] 1 := by
  intro s hs k hk
  obtain ⟨n, hn, rfl⟩ := List.mem_map.mp hk
  have h' : s < 1 := hs
  exact haar_admits m n (by simp at hn; omega) (by omega) h

/-- Images of 4 rows and 8 columns, with arbitrary and with equal values, separable or not: the node `h` does not depend on the
boundary mode at `(1, 2)`, and it vanishes for equal values. -/
example (f : List Nat → ℚ) (sep : Bool) : ∃ v v',
    ((packet2 haar (some "zero") [-2, -1] sep).run (Backend.empty ())
      (.transform (ofFn ⟨.float64, 0⟩ [4, 8] f) (some 1) :: [] ++ [.read ['h']])).1.getLast? = some (.value v) ∧
    ((packet2 haar (some "symmetric") [-2, -1] sep).run (Backend.empty ())
      (.transform (ofFn ⟨.float64, 0⟩ [4, 8] f) (some 1) :: [] ++ [.read ['h']])).1.getLast? = some (.value v') ∧
    plane v [0, 1] [0, 0] [1, 2] = plane v' [0, 1] [0, 0] [1, 2] ∧
    ((∀ i, f i = f []) → ∀ ks, InB (sizes [0, 1] v'.shape) ks → plane v' [0, 1] [0, 0] ks = 0) := by
  set x : Tensor ℚ := ofFn ⟨.float64, 0⟩ [4, 8] f with hx
  have hg : GoodAxes (.seq [-2, -1]) x.rank 2 := by
    show GoodAxes (.seq [-2, -1]) 2 2
    refine ⟨by decide, rfl, ?_, by decide⟩
    intro a ha
    have : a = -2 ∨ a = -1 := by simpa [resolve] using ha
    rcases this with rfl | rfl <;> exact ⟨by decide, by decide⟩
  have hs : sizes (planeAxes [-2, -1] x.rank) x.shape = [4, 8] := rfl
  have hp : planeAxes [-2, -1] x.rank = [0, 1] := rfl
  obtain ⟨v, hv⟩ := c25_2d_readable haar (some "zero") [-2, -1] sep .zero (Or.inl rfl) (by decide) rfl (Backend.empty ()) x (some 1) 1
    (Or.inl rfl) hg (Or.inr rfl) [] (by simp) ['h'] (by decide) (by simp) (by rw [hs]; exact haar_admits_plane _ (Or.inl rfl))
  obtain ⟨v', hv'⟩ := c25_2d_readable haar (some "symmetric") [-2, -1] sep .symmetric (Or.inl rfl) (by decide) rfl (Backend.empty ()) x
    (some 1) 1 (Or.inl rfl) hg (Or.inr rfl) [] (by simp) ['h'] (by decide) (by simp)
    (by rw [hs]; exact haar_admits_plane _ (Or.inr rfl))
  refine ⟨v, v', hv, hv', ?_, fun hf ks hk => ?_⟩
  · exact c58_packet2 (Or.inl rfl : Selects _ .zero) (Or.inl rfl : Selects _ .symmetric) (by decide) rfl (Or.inl rfl) (Or.inl rfl) hg hg
      (Or.inr rfl) (Or.inr rfl) (by simp) (by simp) hv hv' (S := 1) (by decide) (ws := [⟨0, 4, 0⟩, ⟨0, 8, 0⟩])
      (by rw [hs]; exact ⟨le_rfl, by decide, le_rfl, by decide, trivial⟩) (idx := [0, 0]) (idx' := [0, 0])
      ⟨by decide, by decide, trivial⟩ ⟨by decide, by decide, trivial⟩ (fun ks hks => by
        match ks, hks with
        | [a, b], _ => simp [moved]) [1, 2] ⟨⟨by decide, by decide⟩, ⟨by decide, by decide⟩, trivial⟩
  · exact (c58_packet2_constant (Or.inl rfl : Selects _ .symmetric) (by decide) (by decide) rfl (Or.inl rfl) hg (Or.inr rfl) (by simp) hv'
      (idx := [0, 0]) ⟨by decide, by decide, trivial⟩ (c := f []) (fun js hj => by
        rw [hs] at hj
        rw [hp]
        match js, hj with
        | [a, b], hj =>
          show x.get [a, b] = _
          rw [hx, ofFn_get_of _ _ hj, hf]) hk).2 (by norm_num [haar]) ⟨'h', by simp, by decide⟩

end Verif.Props
