/-
C80 and C81 for the wavelet packet objects.
-/
import Verif.Spec.PacketZ
import Verif.Props.Mirror
import Verif.Props.Packet2

namespace Verif
open Tensor Spec
variable {R : Type}

section
variable [NonUnitalNonAssocSemiring R]

theorem ext_packetLine {w : Wavelet R} (he : w.len % 2 = 0) (hF : 2 ≤ w.len) (hhi : w.decHi.length = w.len) :
    ∀ (key : Key) (n : Nat) (v : Nat → R),
      ext .zero (levelLen w.len n key.length) (packetLine .zero w n v key) = packetZ w (ext .zero n v) key
  | [], _, _ => rfl
  | c :: k, n, v => by
    have h1 : (if c = 'a' then w.decLo else w.decHi).length = w.len := by
      split_ifs
      · rfl
      · exact hhi
    have h2 := ext_packetLine he hF hhi k (outLen w.len n) (dwtStep .zero (if c = 'a' then w.decLo else w.decHi) n v)
    rw [levelLen_shift] at h2
    show ext .zero (levelLen w.len n (k.length + 1)) (packetLine .zero w (outLen w.len n) _ k) = packetZ w (analysisZ _ _) k
    rw [h2]
    congr 1
    funext j
    exact ext_dwtStep he hF h1 v j

theorem packetZ_delay (w : Wavelet R) {d : ℤ} : ∀ (key : Key) {e e' : ℤ → R}, (∀ j, e' j = e (j - 2 ^ key.length * d)) →
    ∀ k, packetZ w e' key k = packetZ w e key (k - d)
  | [], e, e', h, k => by
    have := h k
    simpa [packetZ] using this
  | c :: key, e, e', h, k => by
    refine packetZ_delay w key (fun j => ?_) k
    refine analysisZ_delay _ (fun i => ?_) j
    rw [h i]
    congr 1
    simp only [List.length_cons, pow_succ]
    ring

theorem packetZN_congr (w : Wavelet R) {band : Char → List Bool} {n : Nat} : ∀ (key : Key) {E E' : List ℤ → R}
    (_ : ∀ c ∈ key, (band c).length = n) (_ : ∀ js : List ℤ, js.length = n → E js = E' js), ∀ ks : List ℤ, ks.length = n →
      packetZN w band E key ks = packetZN w band E' key ks
  | [], _, _, _, h, ks, hk => h ks hk
  | c :: k, E, E', hb, h, ks, hk => by
    have hl : (bandFilt w.decLo w.decHi (band c)).length = n := by simp [bandFilt, hb c (by simp)]
    exact packetZN_congr w k (fun c hc => hb c (by simp [hc])) (fun js hj => analysisZN_congr (by rw [hj, hl])
      fun is hi => h is (by rw [hi, hl])) ks hk

theorem extN_packetPlane {w : Wavelet R} (he : w.len % 2 = 0) (hF : 2 ≤ w.len) (hhi : w.decHi.length = w.len)
    {band : Char → List Bool} : ∀ (key : Key) (ns : List Nat) (X : List Nat → R), (∀ c ∈ key, (band c).length = ns.length) →
      ∀ ks : List ℤ, ks.length = ns.length →
      extN .zero (levelLens w.len ns key.length) (packetPlane (bandN .zero w) (nextLens w.len) band ns X key) ks =
        packetZN w band (extN .zero ns X) key ks
  | [], ns, X, _, ks, _ => by
    show extN .zero (levelLens w.len ns 0) X ks = _
    rw [levelLens_zero]
    rfl
  | c :: k, ns, X, hb, ks, hk => by
    have hl : (bandFilt w.decLo w.decHi (band c)).length = ns.length := by simp [bandFilt, hb c (by simp)]
    have hn : (nextLens w.len ns).length = ns.length := by simp [nextLens]
    have h2 := extN_packetPlane he hF hhi k (nextLens w.len ns) (bandN .zero w (band c) ns X)
      (fun c hc => by rw [hn]; exact hb c (by simp [hc])) ks (by rw [hn]; exact hk)
    rw [show levelLens w.len (nextLens w.len ns) k.length = levelLens w.len ns (k.length + 1) from levelLens_shift _ _ _] at h2
    show extN .zero (levelLens w.len ns (k.length + 1)) (packetPlane _ _ _ (nextLens w.len ns) _ k) ks =
      packetZN w band (analysisZN _ _) k ks
    rw [h2]
    exact packetZN_congr w k (fun c hc => hb c (by simp [hc])) (fun js hj =>
      extN_dwtN he hF (bandFilt_mem_len hhi _) (by rw [hl]) hj X) ks hk

theorem packetZN_delay (w : Wavelet R) {band : Char → List Bool} {n : Nat} {ds : List ℤ} (hd : ds.length = n) :
    ∀ (key : Key) {E E' : List ℤ → R}, (∀ c ∈ key, (band c).length = n) →
      (∀ js : List ℤ, js.length = n → E' js = E (backZ (2 ^ key.length) ds js)) →
    ∀ ks : List ℤ, ks.length = n → packetZN w band E' key ks = packetZN w band E key (backZ 1 ds ks)
  | [], E, E', _, h, ks, hk => by
    have := h ks hk
    simpa [packetZN] using this
  | c :: key, E, E', hb, h, ks, hk => by
    have hl : (bandFilt w.decLo w.decHi (band c)).length = n := by simp [bandFilt, hb c (by simp)]
    refine packetZN_delay w hd key (fun c hc => hb c (by simp [hc])) (fun js hj => ?_) ks hk
    refine analysisZN_back (by rw [hl]; exact hj) (by rw [hl]; exact hd) fun is hi => ?_
    rw [h is (by rw [hi, hl])]
    congr 2
    simp only [List.length_cons, pow_succ]
    ring

end

section
variable [CommSemiring R]

theorem packetLine_mirror {m : Mode} {w w' : Wavelet R} {ε : R} (hF : 2 ≤ w.len) (he : w.len % 2 = 0)
    (hhi : w.decHi.length = w.len) (hw : MirroredDec ε w w') : ∀ (key : Key) {n : Nat} {η : R} {v v' : Nat → R},
      (∀ s, s < key.length → m.Admits w.len (levelLen w.len n s)) → EvenLevels w.len n key.length →
      (∀ j, j < n → v' j = η * v (n - 1 - j)) → ∀ k, k < levelLen w.len n key.length →
      packetLine m w' n v' key k =
        (ε ^ key.countP (· ≠ 'a') * η) * packetLine m w n v key (levelLen w.len n key.length - 1 - k)
  | [], n, η, v, v', _, _, h, k, hk => by
    rw [List.countP_nil, pow_zero, one_mul]
    exact h k hk
  | c :: key, n, η, v, v', hA, hE, h, k, hk => by
    have hA0 := hA 0 (by simp)
    have hE0 := hE 0 (by simp)
    have hA' : ∀ s, s < key.length → m.Admits w.len (levelLen w.len (outLen w.len n) s) := by
      intro s hs
      rw [levelLen_shift]
      exact hA (s + 1) (by simpa using hs)
    have hE' : EvenLevels w.len (outLen w.len n) key.length := by
      intro s hs
      rw [levelLen_shift]
      exact hE (s + 1) (by simpa using hs)
    have hk' : k < levelLen w.len (outLen w.len n) key.length := by
      rw [levelLen_shift]
      exact hk
    show packetLine m w' (outLen w'.len n) (dwtStep m (if c = 'a' then w'.decLo else w'.decHi) n v') key k =
      _ * packetLine m w (outLen w.len n) (dwtStep m (if c = 'a' then w.decLo else w.decHi) n v) key
        (levelLen w.len n (key.length + 1) - 1 - k)
    rw [hw.len_eq, ← levelLen_shift]
    by_cases hc : c = 'a'
    · subst hc
      rw [if_pos rfl, if_pos rfl, packetLine_mirror hF he hhi hw key (η := 1 * η) (v := dwtStep m w.decLo n v) (v' := dwtStep m w'.decLo n v') hA' hE' (fun j hj =>
        dwtStep_mirror hF he (admits_pos hA0) hE0 (f := w.decLo) rfl (by simpa using hw.lo) h hj) k hk']
      rw [List.countP_cons_of_neg (by simp), one_mul]
    · rw [if_neg hc, if_neg hc, packetLine_mirror hF he hhi hw key (η := ε * η) (v := dwtStep m w.decHi n v) (v' := dwtStep m w'.decHi n v') hA' hE' (fun j hj =>
        dwtStep_mirror hF he (admits_pos hA0) hE0 (f := w.decHi) hhi hw.hi h hj) k hk']
      rw [List.countP_cons_of_pos (by simpa using hc), pow_succ]
      ring

theorem packetPlane_mirror {m : Mode} {w w' : Wavelet R} {ε : R} (hF : 2 ≤ w.len) (he : w.len % 2 = 0)
    (hhi : w.decHi.length = w.len) (hw : MirroredDec ε w w') {band : Char → List Bool} :
    ∀ (key : Key) {ns : List Nat} {η : R} {X X' : List Nat → R},
      (∀ c ∈ key, (band c).length = ns.length) → LevelsAdmit m w.len ns key.length → (∀ n ∈ ns, EvenLevels w.len n key.length) →
      (∀ js, InB ns js → X' js = η * X (revIx ns js)) → ∀ ks, InB (levelLens w.len ns key.length) ks →
      packetPlane (bandN m w') (nextLens w'.len) band ns X' key ks = (ε ^ highPasses band key * η) *
        packetPlane (bandN m w) (nextLens w.len) band ns X key (revIx (levelLens w.len ns key.length) ks)
  | [], ns, η, X, X', _, _, _, h, ks, hk => by
    show X' ks = ε ^ 0 * η * X (revIx (levelLens w.len ns 0) ks)
    change InB (levelLens w.len ns 0) ks at hk
    rw [levelLens_zero] at hk ⊢
    rw [pow_zero, one_mul]
    exact h ks hk
  | c :: key, ns, η, X, X', hb, hA, hE, h, ks, hk => by
    have hn : (nextLens w.len ns).length = ns.length := by simp [nextLens]
    have hsh : ∀ s, levelLens w.len (nextLens w.len ns) s = levelLens w.len ns (s + 1) := levelLens_shift _ _
    have hA0 : ∀ n ∈ ns, m.Admits w.len n := by
      have := hA 0 (by simp)
      rw [levelLens_zero] at this
      exact this
    have hE0 : ∀ n ∈ ns, n % 2 = 0 := fun n hn => hE n hn 0 (by simp)
    have hA' : LevelsAdmit m w.len (nextLens w.len ns) key.length := by
      intro s hs
      rw [hsh]
      exact hA (s + 1) (by simpa using hs)
    have hE' : ∀ n ∈ nextLens w.len ns, EvenLevels w.len n key.length := by
      intro n hn s hs
      obtain ⟨n0, h0, rfl⟩ := List.mem_map.mp hn
      rw [levelLen_shift]
      exact hE n0 h0 (s + 1) (by simpa using hs)
    have hk' : InB (levelLens w.len (nextLens w.len ns) key.length) ks := by
      rw [hsh]
      exact hk
    show packetPlane (bandN m w') (nextLens w'.len) band (nextLens w'.len ns) (bandN m w' (band c) ns X') key ks =
      _ * packetPlane (bandN m w) (nextLens w.len) band (nextLens w.len ns) (bandN m w (band c) ns X) key
        (revIx (levelLens w.len ns (key.length + 1)) ks)
    have ih := packetPlane_mirror hF he hhi hw key (ns := nextLens w.len ns) (η := ε ^ (band c).count true * η)
      (X := bandN m w (band c) ns X) (X' := bandN m w' (band c) ns X') (fun c hc => by rw [hn]; exact hb c (by simp [hc])) hA' hE'
      (fun js hj => dwtN_mirror_mul hF he w hw rfl hhi (hb c (by simp)) (fun n hn => admits_pos (hA0 n hn)) hE0 h hj) ks hk'
    rw [hw.len_eq] at ih ⊢
    rw [ih, hsh]
    congr 1
    unfold highPasses
    rw [List.map_cons, List.sum_cons, pow_add]
    ring

end

namespace Props

theorem packetBand_length (sep : Bool) (c : Char) : (packetBand sep c).length = 2 := by
  unfold packetBand letterBandSwapped letterBand
  split_ifs <;> rfl

section
variable [CommSemiring R]

/-- **C81, packets.** Read any node of the packet object of a signal read backwards, with the mirrored filters: it is the
node of the signal itself, read backwards, with a factor `ε` for every high-pass letter of the key. -/
theorem c81_mirror_packet (w w' : Wavelet R) (ε : R) (mode : Option String) (axis : Int) (m : Mode) (hm : Selects mode m)
    (hF : 2 ≤ w.len) (he : w.len % 2 = 0) (hhi : w.decHi.length = w.len) (hw : MirroredDec ε w w')
    (st₀ st₁ : Pkt Unit (Tensor R)) (x y : Tensor R) (hxy : Flipped [axisOf x.rank axis] 1 x y)
    (ml : Option Int) (L : Int) (hL : PacketLevel w axis x ml L) (hax : ValidAxis x.rank axis)
    (hdt : x.md.dtype = .float32 ∨ x.md.dtype = .float64)
    (ops ops' : List (Backend.Op (Tensor R))) (ho : ∀ op ∈ ops, IsRead op) (ho' : ∀ op ∈ ops', IsRead op) (key : Key)
    (hk : (key.length : Int) ≤ L) (hc : ∀ c ∈ key, c = 'a' ∨ c = 'd')
    (ha : ∀ s, s < key.length → m.Admits w.len (levelLen w.len (x.shape.getD (axisOf x.rank axis) 0) s))
    (hE : EvenLevels w.len (x.shape.getD (axisOf x.rank axis) 0) key.length) :
    ∃ v v', ((packet1 w mode axis).run st₀ (.transform x ml :: ops ++ [.read key])).1.getLast? = some (.value v) ∧
      ((packet1 w' mode axis).run st₁ (.transform y ml :: ops' ++ [.read key])).1.getLast? = some (.value v') ∧
      Flipped [axisOf x.rank axis] (ε ^ key.count 'd') v v' := by
  have hrk : y.rank = x.rank := by
    unfold Tensor.rank
    rw [hxy.shape]
  have hl := hw.len_eq
  have hF' : 2 ≤ w'.len := by rw [hl]; exact hF
  have hhi' : w'.decHi.length = w'.len := by rw [hl, hw.hi]; simpa using hhi
  have hL' : PacketLevel w' axis y ml L := by
    unfold PacketLevel
    rw [hrk, hl, hxy.shape]
    exact hL
  obtain ⟨v, hv⟩ := c25_readable w mode axis m hm hF hhi st₀ x ml L hL hax hdt ops ho key hk hc ha
  obtain ⟨v', hv'⟩ := c25_readable w' mode axis m hm hF' hhi' st₁ y ml L hL' (by rw [hrk]; exact hax)
    (by rw [hxy.md]; exact hdt) ops' ho' key hk hc (by rw [hrk, hl, hxy.shape]; exact ha)
  refine ⟨v, v', hv, hv', ?_⟩
  have hcount : key.countP (· ≠ 'a') = key.count 'd' := by
    rw [List.count]
    refine List.countP_congr fun c hmem => ?_
    rcases hc c hmem with rfl | rfl <;> decide
  rcases c25_value w mode axis m hm hF hhi st₀ x ml L hL ops ho key v hv with ⟨rfl, rfl⟩ | ⟨h1, -, -, h2⟩
  · rcases c25_value w' mode axis m hm hF' hhi' st₁ y ml L hL' ops' ho' [] v' hv' with ⟨-, rfl⟩ | ⟨h1, -⟩
    · simpa using hxy
    · exact absurd rfl h1
  · rcases c25_value w' mode axis m hm hF' hhi' st₁ y ml L hL' ops' ho' key v' hv' with ⟨h3, -⟩ | ⟨-, -, -, h2'⟩
    · exact absurd h3 h1
    rw [hrk, hl, hxy.shape] at h2'
    have hlt : axisOf x.rank axis < x.shape.length := axisOf_lt hax
    refine flipped_of (by simp) (by simpa using hlt) hxy (by simp) (alongAxis_axes h2) (alongAxis_axes h2')
      fun X X' hX ks hks => ?_
    match ks, hks with
    | [k], hks =>
      have := packetLine_mirror hF he hhi hw key (n := x.shape.getD (axisOf x.rank axis) 0) (η := 1)
        (v := fun j => X [j]) (v' := fun j => X' [j]) ha hE (fun j hj => by
          rw [one_mul]
          exact hX [j] ⟨hj, trivial⟩) k hks.1
      rw [hcount, mul_one] at this
      exact this

end

section
variable [CommSemiring R]

/-- **C81, packets in two dimensions**, with separable and non-separable filters. -/
theorem c81_mirror_packet2 (w w' : Wavelet R) (ε : R) (mode : Option String) (axes : List Int) (sep : Bool) (m : Mode)
    (hm : Selects mode m) (hF : 2 ≤ w.len) (he : w.len % 2 = 0) (hhi : w.decHi.length = w.len) (hw : MirroredDec ε w w')
    (st₀ st₁ : Pkt Unit (Tensor R)) (x y : Tensor R) (hxy : Flipped (planeAxes axes x.rank) 1 x y)
    (ml : Option Int) (L : Int) (hL : PacketLevel2 w axes x ml L) (hax : GoodAxes (.seq axes) x.rank 2)
    (hdt : x.md.dtype = .float32 ∨ x.md.dtype = .float64)
    (ops ops' : List (Backend.Op (Tensor R))) (ho : ∀ op ∈ ops, IsRead op) (ho' : ∀ op ∈ ops', IsRead op) (key : Key)
    (hk : (key.length : Int) ≤ L) (hc : ∀ c ∈ key, c = 'a' ∨ c = 'h' ∨ c = 'v' ∨ c = 'd')
    (ha : LevelsAdmit m w.len (sizes (planeAxes axes x.rank) x.shape) key.length)
    (hE : ∀ a ∈ planeAxes axes x.rank, EvenLevels w.len (x.shape.getD a 0) key.length) :
    ∃ v v', ((packet2 w mode axes sep).run st₀ (.transform x ml :: ops ++ [.read key])).1.getLast? = some (.value v) ∧
      ((packet2 w' mode axes sep).run st₁ (.transform y ml :: ops' ++ [.read key])).1.getLast? = some (.value v') ∧
      Flipped (planeAxes axes x.rank) (ε ^ (key.count 'h' + key.count 'v' + 2 * key.count 'd')) v v' := by
  have hrk : y.rank = x.rank := by
    unfold Tensor.rank
    rw [hxy.shape]
  have hl := hw.len_eq
  have hF' : 2 ≤ w'.len := by rw [hl]; exact hF
  have hhi' : w'.decHi.length = w'.len := by rw [hl, hw.hi]; simpa using hhi
  have hL' : PacketLevel2 w' axes y ml L := by
    unfold PacketLevel2
    rw [hrk, hl, hxy.shape]
    exact hL
  have hdt' : y.md.dtype = .float32 ∨ y.md.dtype = .float64 := by rw [hxy.md]; exact hdt
  obtain ⟨v, hv⟩ := c25_2d_readable w mode axes sep m hm hF hhi st₀ x ml L hL hax hdt ops ho key hk hc ha
  obtain ⟨v', hv'⟩ := c25_2d_readable w' mode axes sep m hm hF' hhi' st₁ y ml L hL' (by rw [hrk]; exact hax)
    hdt' ops' ho' key hk hc (by rw [hrk, hl, hxy.shape]; exact ha)
  refine ⟨v, v', hv, hv', ?_⟩
  have hcount : highPasses (packetBand sep) key = key.count 'h' + key.count 'v' + 2 * key.count 'd' := by
    clear hk ha hE hv hv'
    unfold highPasses
    induction key with
    | nil => rfl
    | cons c k ih =>
      rw [List.map_cons, List.sum_cons, ih fun c h => hc c (by simp [h])]
      have h4 := hc c (by simp)
      cases sep <;> rcases h4 with rfl | rfl | rfl | rfl <;>
        simp [packetBand, letterBand, letterBandSwapped] <;> ring
  rcases c25_2d_value w mode axes sep m hm hF hhi st₀ x hdt ml L hL ops ho key v hv with ⟨rfl, rfl⟩ | ⟨h1, -, -, h2⟩
  · rcases c25_2d_value w' mode axes sep m hm hF' hhi' st₁ y hdt' ml L hL' ops' ho' [] v' hv' with ⟨-, rfl⟩ | ⟨h1, -⟩
    · simpa using hxy
    · exact absurd rfl h1
  · rcases c25_2d_value w' mode axes sep m hm hF' hhi' st₁ y hdt' ml L hL' ops' ho' key v' hv' with ⟨h3, -⟩ | ⟨-, -, -, h2'⟩
    · exact absurd h3 h1
    rw [hrk, hxy.shape] at h2'
    have hs : (sizes (planeAxes axes x.rank) x.shape).length = 2 := by simp [sizes, axesOf, hax.len]
    have hal : (planeAxes axes x.rank).length = 2 := by simpa [sizes] using hs
    refine flipped_of hax.nodup hax.lt hxy (by rw [levelLens_length, hs, hal]) h2 (hl ▸ h2') fun X X' hX ks hks => ?_
    have := packetPlane_mirror hF he hhi hw (band := packetBand sep) key (ns := sizes (planeAxes axes x.rank) x.shape) (η := 1)
      (X := X) (X' := X') (fun c _ => by rw [hs, packetBand_length]) ha (by
        intro n hn
        obtain ⟨a, ha, rfl⟩ := List.mem_map.mp hn
        exact hE a ha) (fun js hj => by rw [one_mul]; exact hX js hj) ks hks
    rw [hcount, mul_one, hl] at this
    exact this

end

section
variable [NonUnitalNonAssocSemiring R]

/-- **C80, packets.** In `zero` mode every node of the packet object is the node of the signal continued by zeros to all
integers, and the coefficients of the infinite signal that are not returned are zero. -/
theorem c80_zero_mode_packet (w : Wavelet R) (axis : Int) (hF : 2 ≤ w.len) (he : w.len % 2 = 0) (hhi : w.decHi.length = w.len)
    (st₀ : Pkt Unit (Tensor R)) (x : Tensor R) (ml : Option Int) (L : Int) (hL : PacketLevel w axis x ml L)
    (hax : ValidAxis x.rank axis) (ops : List (Backend.Op (Tensor R))) (ho : ∀ op ∈ ops, IsRead op) (key : Key) (v : Tensor R)
    (h : ((packet1 w (some "zero") axis).run st₀ (.transform x ml :: ops ++ [.read key])).1.getLast? = some (.value v)) :
    ∀ idx, (InB v.shape idx →
        v.get idx = packetZ w (lineZ x (axisOf x.rank axis) idx) key (idx.getD (axisOf x.rank axis) 0)) ∧
      ∀ k : ℤ, k < 0 ∨ v.shape.getD (axisOf x.rank axis) 0 ≤ k → packetZ w (lineZ x (axisOf x.rank axis) idx) key k = 0 := by
  have hlt : axisOf x.rank axis < x.shape.length := axisOf_lt hax
  have hv : AlongAxis (axisOf x.rank axis) (levelLen w.len (x.shape.getD (axisOf x.rank axis) 0) key.length)
      (fun line => packetLine .zero w (x.shape.getD (axisOf x.rank axis) 0) line key) x v := by
    rcases c25_value w (some "zero") axis .zero (Or.inl rfl) hF hhi st₀ x ml L hL ops ho key v h with ⟨rfl, rfl⟩ | ⟨-, -, -, h2⟩
    · refine ⟨rfl, ?_, fun idx hidx => ?_⟩
      · show _ = v.shape.set _ (v.shape.getD _ 0)
        rw [List.getD_eq_getElem _ _ hlt, List.set_getElem_self]
      · show _ = v.get (idx.set _ (idx.getD _ 0))
        rw [List.getD_eq_getElem _ _ (by rw [hidx.length_eq]; exact hlt), List.set_getElem_self]
    · exact h2
  generalize axisOf x.rank axis = a at *
  intro idx
  have hts : v.shape.getD a 0 = levelLen w.len (x.shape.getD a 0) key.length := by rw [hv.shape]; simp [List.getD, hlt]
  have hf := ext_packetLine he hF hhi key (x.shape.getD a 0) (line x a idx)
  rw [ext_line] at hf
  refine ⟨fun hidx => ?_, fun k hk => ?_⟩
  · have hk := hidx.getD_lt (d := a) (by rw [hv.shape]; simpa using hlt)
    rw [hts] at hk
    rw [hv.get idx hidx, ← hf, ext_zero_in _ (by omega)]
    simp
  · rw [← hf, ext_zero_out _ (by omega)]

/-- **C80, packets.** Delays and appended zeros in `zero` mode: if `y` is `x` with `2^|key| d` zeros in front and any number of
zeros behind, its node is the node of `x` with `d` zeros in front and zeros behind. -/
theorem c80_delay_packet (w : Wavelet R) (axis : Int) (hF : 2 ≤ w.len) (he : w.len % 2 = 0) (hhi : w.decHi.length = w.len)
    (st₀ st₁ : Pkt Unit (Tensor R)) (x y : Tensor R) (L L' : Nat) (d : Nat) (hax : ValidAxis x.rank axis)
    (hdt : x.md.dtype = .float32 ∨ x.md.dtype = .float64)
    (ops ops' : List (Backend.Op (Tensor R))) (ho : ∀ op ∈ ops, IsRead op) (ho' : ∀ op ∈ ops', IsRead op) (key : Key)
    (hk : key.length ≤ L) (hk' : key.length ≤ L') (hc : ∀ c ∈ key, c = 'a' ∨ c = 'd')
    (ha : ∀ s, s < key.length → Mode.zero.Admits w.len (levelLen w.len (x.shape.getD (axisOf x.rank axis) 0) s))
    (hxy : LaterBy (axisOf x.rank axis) (2 ^ key.length * d) x y) :
    ∃ v v', ((packet1 w (some "zero") axis).run st₀ (.transform x (some L) :: ops ++ [.read key])).1.getLast? =
        some (.value v) ∧
      ((packet1 w (some "zero") axis).run st₁ (.transform y (some L') :: ops' ++ [.read key])).1.getLast? = some (.value v') ∧
      LaterBy (axisOf x.rank axis) d v v' := by
  have hrk : y.rank = x.rank := by
    unfold Tensor.rank
    rw [hxy.shape]
    simp
  have hlt : axisOf x.rank axis < x.shape.length := axisOf_lt hax
  have hroom := levelLen_room hF hxy.room
  have hm : Selects (some "zero") Mode.zero := Or.inl rfl
  obtain ⟨v, hv⟩ := c25_readable w (some "zero") axis .zero hm hF hhi st₀ x (some L) L (Or.inl rfl) hax hdt ops ho key
    (by exact_mod_cast hk) hc ha
  obtain ⟨v', hv'⟩ := c25_readable w (some "zero") axis .zero hm hF hhi st₁ y (some L') L' (Or.inl rfl) (by rw [hrk]; exact hax)
    (by rw [hxy.md]; exact hdt) ops' ho' key (by exact_mod_cast hk') hc (by
      rw [hrk]
      intro s hs
      have h6 := ha s hs
      have h7 := hroom s (by omega)
      simp only [Mode.Admits] at h6 ⊢
      omega)
  refine ⟨v, v', hv, hv', ?_⟩
  rcases c25_value w (some "zero") axis .zero hm hF hhi st₀ x _ L (Or.inl rfl) ops ho key v hv with ⟨rfl, rfl⟩ | ⟨h1, -, -, h2⟩
  · rcases c25_value w (some "zero") axis .zero hm hF hhi st₁ y _ L' (Or.inl rfl) ops' ho' [] v' hv' with ⟨-, rfl⟩ | ⟨h1, -⟩
    · simpa using hxy
    · exact absurd rfl h1
  · rcases c25_value w (some "zero") axis .zero hm hF hhi st₁ y _ L' (Or.inl rfl) ops' ho' key v' hv' with ⟨h3, -⟩ | ⟨-, -, -, h2'⟩
    · exact absurd h3 h1
    rw [hrk] at h2'
    have hr := hroom key.length le_rfl
    rw [Nat.sub_self, pow_zero, one_mul] at hr
    refine laterBy_of (g := fun e => packetZ w e key) hlt hxy h2 h2' (fun idx => by rw [ext_packetLine he hF hhi, ext_line])
      (fun idx => by rw [ext_packetLine he hF hhi, ext_line]) (fun e e' h k => ?_) hr
    exact packetZ_delay w key (fun j => by rw [h j]; push_cast; rfl) k

end

section
variable [Semiring R]

/-- **C80, packets in two dimensions**, with separable and non-separable filters. -/
theorem c80_zero_mode_packet2 (w : Wavelet R) (axes : List Int) (sep : Bool) (hF : 2 ≤ w.len) (he : w.len % 2 = 0)
    (hhi : w.decHi.length = w.len) (st₀ : Pkt Unit (Tensor R)) (x : Tensor R) (ml : Option Int) (L : Int)
    (hL : PacketLevel2 w axes x ml L) (hax : GoodAxes (.seq axes) x.rank 2) (hdt : x.md.dtype = .float32 ∨ x.md.dtype = .float64)
    (ops : List (Backend.Op (Tensor R))) (ho : ∀ op ∈ ops, IsRead op) (key : Key) (v : Tensor R)
    (h : ((packet2 w (some "zero") axes sep).run st₀ (.transform x ml :: ops ++ [.read key])).1.getLast? = some (.value v)) :
    OfInfinite (fun E => packetZN w (packetBand sep) E key) (planeAxes axes x.rank) x v := by
  have hs : (sizes (planeAxes axes x.rank) x.shape).length = 2 := by simp [sizes, axesOf, hax.len]
  have hal : (planeAxes axes x.rank).length = 2 := by simpa [sizes] using hs
  rcases c25_2d_value w (some "zero") axes sep .zero (Or.inl rfl) hF hhi st₀ x hdt ml L hL ops ho key v h with
    ⟨rfl, rfl⟩ | ⟨-, -, -, h2⟩
  · exact fun idx Ks ks _ _ _ => rfl
  · exact ofInfinite_of hax.nodup hax.lt (by rw [levelLens_length, hs, hal]) h2 fun X ks hk =>
      extN_packetPlane he hF hhi key _ X (fun c _ => by rw [hs, packetBand_length]) ks (by rw [hs, hk, hal])

/-- **C80, packets in two dimensions.** Delays and appended zeros along both axes. -/
theorem c80_delay_packet2 (w : Wavelet R) (axes : List Int) (sep : Bool) (hF : 2 ≤ w.len) (he : w.len % 2 = 0)
    (hhi : w.decHi.length = w.len) (st₀ st₁ : Pkt Unit (Tensor R)) (x y : Tensor R) (L L' : Nat) (d : Nat → Nat)
    (hax : GoodAxes (.seq axes) x.rank 2) (hdt : x.md.dtype = .float32 ∨ x.md.dtype = .float64)
    (ops ops' : List (Backend.Op (Tensor R))) (ho : ∀ op ∈ ops, IsRead op) (ho' : ∀ op ∈ ops', IsRead op) (key : Key)
    (hk : key.length ≤ L) (hk' : key.length ≤ L') (hc : ∀ c ∈ key, c = 'a' ∨ c = 'h' ∨ c = 'v' ∨ c = 'd')
    (ha : LevelsAdmit .zero w.len (sizes (planeAxes axes x.rank) x.shape) key.length)
    (hxy : LaterByN (planeAxes axes x.rank) (fun a => 2 ^ key.length * d a) x y) :
    ∃ v v', ((packet2 w (some "zero") axes sep).run st₀ (.transform x (some L) :: ops ++ [.read key])).1.getLast? =
        some (.value v) ∧
      ((packet2 w (some "zero") axes sep).run st₁ (.transform y (some L') :: ops' ++ [.read key])).1.getLast? =
        some (.value v') ∧ LaterByN (planeAxes axes x.rank) d v v' := by
  have hrk : y.rank = x.rank := by
    unfold Tensor.rank
    rw [hxy.shape, setMany_length]
  have hm : Selects (some "zero") Mode.zero := Or.inl rfl
  have hdt' : y.md.dtype = .float32 ∨ y.md.dtype = .float64 := by rw [hxy.md]; exact hdt
  have hax' : GoodAxes (.seq axes) y.rank 2 := by rw [hrk]; exact hax
  obtain ⟨v, hv⟩ := c25_2d_readable w (some "zero") axes sep .zero hm hF hhi st₀ x (some L) L (Or.inl rfl) hax hdt ops ho key
    (by exact_mod_cast hk) hc ha
  obtain ⟨v', hv'⟩ := c25_2d_readable w (some "zero") axes sep .zero hm hF hhi st₁ y (some L') L' (Or.inl rfl) hax'
    hdt' ops' ho' key (by exact_mod_cast hk') hc (by
      rw [hrk]
      exact levelsAdmit_later hF hxy ha)
  refine ⟨v, v', hv, hv', ?_⟩
  have z1 := c80_zero_mode_packet2 w axes sep hF he hhi st₀ x _ L (Or.inl rfl) hax hdt ops ho key v hv
  have z2 := c80_zero_mode_packet2 w axes sep hF he hhi st₁ y _ L' (Or.inl rfl) hax' hdt' ops' ho' key v' hv'
  rw [hrk] at z2
  have hs : (sizes (planeAxes axes x.rank) x.shape).length = 2 := by simp [sizes, axesOf, hax.len]
  have hal : (planeAxes axes x.rank).length = 2 := by simpa [sizes] using hs
  have hsy : (sizes (planeAxes axes x.rank) y.shape).length = 2 := by simp [sizes, axesOf, hax.len]
  rcases c25_2d_value w (some "zero") axes sep .zero hm hF hhi st₀ x hdt _ L (Or.inl rfl) ops ho key v hv with
    ⟨rfl, rfl⟩ | ⟨h1, -, -, h2⟩
  · rcases c25_2d_value w (some "zero") axes sep .zero hm hF hhi st₁ y hdt' _ L' (Or.inl rfl) ops' ho' [] v' hv' with
      ⟨-, rfl⟩ | ⟨h1, -⟩
    · simpa using hxy
    · exact absurd rfl h1
  · rcases c25_2d_value w (some "zero") axes sep .zero hm hF hhi st₁ y hdt' _ L' (Or.inl rfl) ops' ho' key v' hv' with
      ⟨h3, -⟩ | ⟨-, -, -, h2'⟩
    · exact absurd h3 h1
    rw [hrk] at h2'
    have hlty : ∀ a ∈ planeAxes axes x.rank, a < y.shape.length := by
      rw [hxy.shape, setMany_length]
      exact hax.lt
    refine later_of hax.nodup hax.lt hxy (by rw [levelLens_length, hs, hal]) (by rw [levelLens_length, hsy, hal]) h2.md h2'.md
      h2.shape h2'.shape z1 z2 (fun a ha => ?_) fun E E' h ks hks => ?_
    · have h7 := levelLen_room hF (hxy.room a ha) key.length le_rfl
      rw [Nat.sub_self, pow_zero, one_mul] at h7
      rw [sizes_getD_levelLens hax.nodup hax.lt h2.shape ha, sizes_getD_levelLens hax.nodup hlty h2'.shape ha]
      exact h7
    · refine packetZN_delay w (by simp) key (fun c _ => by rw [packetBand_length, hal]) (fun js hj => ?_) ks hks
      rw [h js hj]
      congr 1
      unfold backZ
      rw [List.zipWith_map_right, List.zipWith_map_right]
      congr 1
      funext a b
      push_cast
      ring

end

/-- A case: node `da` of signals of length 14 with filters that are not symmetric, in the default mode. -/
example : ∃ y v v', Flipped [1] 1 exMir y ∧
    ((packet1 exW4 none (-1)).run (Backend.empty ()) (.transform exMir (some 2) :: [.read ['a']] ++ [.read ['d', 'a']])).1.getLast?
      = some (.value v) ∧
    ((packet1 exW4m none (-1)).run (Backend.empty ()) (.transform y (some 2) :: [] ++ [.read ['d', 'a']])).1.getLast?
      = some (.value v') ∧ Flipped [1] (1 ^ 1) v v' := by
  obtain ⟨y, hy⟩ := flipped_exists exMir [1]
  have h01 : ∀ s, s < 2 → s = 0 ∨ s = 1 := fun s hs => by omega
  obtain ⟨v, v', h1, h2, h3⟩ := c81_mirror_packet exW4 exW4m 1 none (-1) .reflect (Or.inr ⟨rfl, rfl⟩) (by decide) rfl rfl
    exW4_mirrored.1 (Backend.empty ()) (Backend.empty ()) exMir y
    (show Flipped [axisOf exMir.rank (-1)] 1 exMir y from (show axisOf exMir.rank (-1) = 1 from rfl) ▸ hy) (some 2) 2
    (Or.inl rfl) ⟨by decide, by decide⟩ (Or.inl rfl) [.read ['a']] []
    (by intro op hop; simp only [List.mem_singleton] at hop; subst hop; trivial) (by simp) ['d', 'a'] (by decide) (by simp)
    (by
      intro s hs
      rcases h01 s hs with rfl | rfl <;> (simp only [Mode.Admits]; decide))
    (by
      intro s hs
      rcases h01 s hs with rfl | rfl <;> decide)
  exact ⟨y, v, v', hy, h1, h2, h3⟩

/-- A case in two dimensions: a node of a mirrored image of 2 rows and 14 columns. -/
example (sep : Bool) : ∃ y v v', Flipped [0, 1] 1 exMir y ∧
    ((packet2 haar (some "periodic") [-2, -1] sep).run (Backend.empty ())
      (.transform exMir (some 1) :: [] ++ [.read ['v']])).1.getLast? = some (.value v) ∧
    ((packet2 haar (some "periodic") [-2, -1] sep).run (Backend.empty ())
      (.transform y (some 1) :: [.read ['h']] ++ [.read ['v']])).1.getLast? = some (.value v') ∧
    Flipped [0, 1] ((-1) ^ 1) v v' := by
  obtain ⟨y, hy⟩ := flipped_exists exMir [0, 1]
  have hg : GoodAxes (.seq [-2, -1]) exMir.rank 2 := by
    refine ⟨by decide, rfl, ?_, by decide⟩
    intro a ha
    have : a = -2 ∨ a = -1 := by simpa [resolve] using ha
    rcases this with rfl | rfl <;> exact ⟨by decide, by decide⟩
  have hp : planeAxes [-2, -1] exMir.rank = [0, 1] := rfl
  obtain ⟨v, v', h1, h2, h3⟩ := c81_mirror_packet2 haar haar (-1) (some "periodic") [-2, -1] sep .periodic (Or.inl rfl)
    (by decide) rfl rfl haar_mirrored.1 (Backend.empty ()) (Backend.empty ()) exMir y (hp ▸ hy) (some 1) 1 (Or.inl rfl) hg (Or.inl rfl)
    [] [.read ['h']] (by simp) (by intro op hop; simp only [List.mem_singleton] at hop; subst hop; trivial) ['v'] (by decide)
    (by simp)
    (by
      have hs : sizes (planeAxes [-2, -1] exMir.rank) exMir.shape = [2, 14] := rfl
      rw [hs]
      intro s h k hk
      have h' : s < 1 := h
      obtain rfl : s = 0 := by omega
      rw [levelLens_zero] at hk
      simp only [List.mem_cons, List.not_mem_nil, or_false] at hk
      rcases hk with rfl | rfl <;> (simp only [Mode.Admits]; decide))
    (by
      intro a ha s hs
      have h' : s < 1 := hs
      obtain rfl : s = 0 := by omega
      have h : a = 0 ∨ a = 1 := by simpa [planeAxes, axesOf, resolve, axisOf, Tensor.rank, exMir] using ha
      rcases h with rfl | rfl <;> decide)
  rw [hp] at h3
  exact ⟨y, v, v', hy, h1, h2, h3⟩

/-- A case: node `da` of a signal of odd length that is delayed by eight samples and continued by zeros to length 20. -/
example : ∃ y v v', LaterBy (axisOf exX.rank (-2)) (2 ^ 2 * 2) exX y ∧
    ((packet1 haar (some "zero") (-2)).run (Backend.empty ())
      (.transform exX (some 2) :: [.read ['a']] ++ [.read ['d', 'a']])).1.getLast? = some (.value v) ∧
    ((packet1 haar (some "zero") (-2)).run (Backend.empty ())
      (.transform y (some 3) :: [] ++ [.read ['d', 'a']])).1.getLast? = some (.value v') ∧
    LaterBy (axisOf exX.rank (-2)) 2 v v' ∧ ∀ idx, InB v.shape idx →
      v.get idx = packetZ haar (lineZ exX (axisOf exX.rank (-2)) idx) ['d', 'a'] (idx.getD (axisOf exX.rank (-2)) 0) := by
  obtain ⟨y, hy, -⟩ := laterBy_exists exX (a := axisOf exX.rank (-2)) (δ := 2 ^ 2 * 2) (n := 20) (by decide) (by decide)
  have hr : ∀ op ∈ ([.read ['a']] : List (Backend.Op (Tensor ℚ))), IsRead op := by
    intro op hop
    simp only [List.mem_singleton] at hop
    subst hop
    trivial
  obtain ⟨v, v', h1, h2, h3⟩ := c80_delay_packet haar (-2) (by decide) rfl rfl (Backend.empty ()) (Backend.empty ()) exX y 2 3 2
    ⟨by decide, by decide⟩ (Or.inr rfl) [.read ['a']] [] hr (by simp) ['d', 'a'] (by decide) (by decide) (by simp)
    (by
      intro s hs
      have h01 : s = 0 ∨ s = 1 := by
        have : s < 2 := hs
        omega
      rcases h01 with rfl | rfl <;> (simp only [Mode.Admits]; decide)) hy
  exact ⟨y, v, v', hy, h1, h2, h3, fun idx => (c80_zero_mode_packet haar (-2) (by decide) rfl rfl (Backend.empty ()) exX
    (some 2) 2 (Or.inl rfl) ⟨by decide, by decide⟩ [.read ['a']] hr ['d', 'a'] v h1 idx).1⟩

/-- A case in two dimensions: images of 3 rows and 5 columns, delayed by 8 and 12 samples. -/
example (sep : Bool) : ∃ y v v', LaterByN (planeAxes [-2, -1] exP.rank) (fun a => 2 ^ 2 * (a + 1)) exP y ∧
    ((packet2 haar (some "zero") [-2, -1] sep).run (Backend.empty ())
      (.transform exP (some 2) :: [] ++ [.read ['h', 'a']])).1.getLast? = some (.value v) ∧
    ((packet2 haar (some "zero") [-2, -1] sep).run (Backend.empty ())
      (.transform y (some 2) :: [] ++ [.read ['h', 'a']])).1.getLast? = some (.value v') ∧
    LaterByN (planeAxes [-2, -1] exP.rank) (fun a => a + 1) v v' ∧
    OfInfinite (fun E => packetZN haar (packetBand sep) E ['h', 'a']) (planeAxes [-2, -1] exP.rank) exP v := by
  obtain ⟨y, hy, -⟩ := laterByN_exists exP (ax := planeAxes [-2, -1] exP.rank) (δ := fun a => 2 ^ 2 * (a + 1))
    (ns := [12, 20]) exP_good.nodup exP_good.lt rfl (by decide)
  obtain ⟨v, v', h1, h2, h3⟩ := c80_delay_packet2 haar [-2, -1] sep (by decide) rfl rfl (Backend.empty ()) (Backend.empty ())
    exP y 2 2 (fun a => a + 1) exP_good (Or.inr rfl) [] [] (by simp) (by simp) ['h', 'a'] (by decide) (by decide) (by simp)
    (by
      have hs : sizes (planeAxes [-2, -1] exP.rank) exP.shape = [3, 5] := rfl
      rw [hs]
      intro s _ k hk
      simp only [levelLens, List.map_cons, List.map_nil, List.mem_cons, List.not_mem_nil, or_false] at hk
      rcases hk with rfl | rfl
      · have : 1 ≤ levelLen haar.len 3 s := levelLen_pos (by decide) (by decide) s
        show 4 ≤ 2 + levelLen haar.len 3 s + levelLen haar.len 3 s % 2
        omega
      · have : 1 ≤ levelLen haar.len 5 s := levelLen_pos (by decide) (by decide) s
        show 4 ≤ 2 + levelLen haar.len 5 s + levelLen haar.len 5 s % 2
        omega) hy
  exact ⟨y, v, v', hy, h1, h2, h3, c80_zero_mode_packet2 haar [-2, -1] sep (by decide) rfl rfl (Backend.empty ()) exP (some 2) 2
    (Or.inl rfl) exP_good (Or.inr rfl) [] (by simp) ['h', 'a'] v h1⟩

end Props

end Verif
