/-
C83 for wavelet packets.
-/
import Verif.Props.Roll
import Verif.Props.PacketZ

namespace Verif
open Tensor Spec
variable {R : Type}

section
variable [NonUnitalNonAssocSemiring R] {w : Wavelet R}

theorem onCircle_half {F L n : Nat} (hF : 2 ≤ F) (h : OnCircle F (L + 2) n) : outLen F n = n / 2 ∧ OnCircle F (L + 1) (n / 2) := by
  have h3 : F ≤ 3 := h.2.2.resolve_left (by omega)
  have h1 := onCircle_level hF h 1 (by omega)
  have h2 := onCircle_even h (s := 1) (by omega)
  rw [pow_one] at h1 h2
  refine ⟨h1, h2.1, ?_, Or.inr h3⟩
  obtain ⟨q, rfl⟩ := h.2.1
  rw [show 2 ^ (L + 2) * q / 2 = 2 ^ (L + 1) * q by
    rw [show 2 ^ (L + 2) * q = 2 * (2 ^ (L + 1) * q) by ring, Nat.mul_div_cancel_left _ (by decide)]]
  exact Dvd.intro _ rfl

theorem packetLine_roll (hF : 2 ≤ w.len) : ∀ (key : Key) {n d : Nat} {v v' : Nat → R}, OnCircle w.len key.length n →
    (∀ j, j < n → v' j = v ((j + 2 ^ key.length * d) % n)) → ∀ k, k < levelLen w.len n key.length →
      packetLine .periodic w n v' key k = packetLine .periodic w n v key ((k + d) % (n / 2 ^ key.length))
  | [], n, d, v, v', _, h, k, hk => by
    have := h k hk
    simpa [packetLine] using this
  | c :: key, n, d, v, v', hO, h, k, hk => by
    have he := onCircle_even hO (s := 0) (by simp)
    rw [pow_zero, Nat.div_one] at he
    have step : ∀ j, dwtStep .periodic (if c = 'a' then w.decLo else w.decHi) n v' j =
        dwtStep .periodic (if c = 'a' then w.decLo else w.decHi) n v ((j + 2 ^ key.length * d) % (n / 2)) :=
      dwtStep_roll he.1 he.2 fun j hj => by
        rw [h j hj, List.length_cons, pow_succ, mul_comm _ 2, mul_assoc]
    show packetLine .periodic w (outLen w.len n) _ key k = packetLine .periodic w (outLen w.len n) _ key _
    cases key with
    | nil =>
      have := step k
      simpa [packetLine] using this
    | cons c2 key =>
      obtain ⟨e1, e2⟩ := onCircle_half hF hO
      have hk' : k < levelLen w.len (n / 2) (c2 :: key).length := by
        rw [← e1, levelLen_shift]
        exact hk
      rw [e1, packetLine_roll hF (c2 :: key) e2 (fun j _ => step j) k hk', show (c :: c2 :: key).length = (c2 :: key).length + 1 from rfl,
        pow_succ', ← Nat.div_div_eq_div_mul]

theorem packetPlane_roll (hF : 2 ≤ w.len) {band : Char → List Bool} : ∀ (key : Key) {ns ds : List Nat} {X X' : List Nat → R},
    (∀ c ∈ key, (band c).length = ns.length) → (∀ n ∈ ns, OnCircle w.len key.length n) → ds.length = ns.length →
    (∀ js, InB ns js → X' js = X (rollIx ns (ds.map (2 ^ key.length * ·)) js)) → ∀ ks, InB (levelLens w.len ns key.length) ks →
      packetPlane (bandN .periodic w) (nextLens w.len) band ns X' key ks =
        packetPlane (bandN .periodic w) (nextLens w.len) band ns X key (rollIx (ns.map (· / 2 ^ key.length)) ds ks)
  | [], ns, ds, X, X', _, _, _, h, ks, hk => by
    have hk' : InB ns ks := by
      rw [← levelLens_zero w.len ns]
      exact hk
    have := h ks hk'
    simpa [packetPlane] using this
  | c :: key, ns, ds, X, X', hb, hO, hd, h, ks, hk => by
    have hkl : ks.length = ns.length := by rw [hk.length_eq, levelLens_length]
    have step : ∀ js, js.length = ns.length → bandN .periodic w (band c) ns X' js =
        bandN .periodic w (band c) ns X (rollIx (ns.map (· / 2)) (ds.map (2 ^ key.length * ·)) js) := by
      intro js hj
      refine dwtN_roll (by simp [bandFilt, hb c (by simp)]) (by simp [hd]) hj ?_ fun ks hk => ?_
      · intro n hn
        have := onCircle_even (hO n hn) (s := 0) (by simp)
        rwa [pow_zero, Nat.div_one] at this
      · rw [h ks hk, List.map_map]
        congr 2
        refine List.map_congr_left fun d _ => ?_
        show 2 ^ (key.length + 1) * d = 2 * (2 ^ key.length * d)
        ring
    show packetPlane (bandN .periodic w) (nextLens w.len) band (nextLens w.len ns) _ key ks =
      packetPlane (bandN .periodic w) (nextLens w.len) band (nextLens w.len ns) _ key _
    cases key with
    | nil =>
      have := step ks hkl
      simpa [packetPlane] using this
    | cons c2 key =>
      have e1 : nextLens w.len ns = ns.map (· / 2) := List.map_congr_left fun n hn => (onCircle_half hF (hO n hn)).1
      have hsh : ∀ s, levelLens w.len (nextLens w.len ns) s = levelLens w.len ns (s + 1) := levelLens_shift _ _
      have hl : (ns.map (· / 2)).length = ns.length := by simp
      have hk' : InB (levelLens w.len (ns.map (· / 2)) (c2 :: key).length) ks := by
        rw [← e1, hsh]
        exact hk
      have e2 : ns.map (· / 2 ^ (c :: c2 :: key).length) = (ns.map (· / 2)).map (· / 2 ^ (c2 :: key).length) := by
        rw [List.map_map]
        refine List.map_congr_left fun n _ => ?_
        show n / 2 ^ ((c2 :: key).length + 1) = n / 2 / 2 ^ (c2 :: key).length
        rw [pow_succ', Nat.div_div_eq_div_mul]
      rw [e1, e2]
      refine packetPlane_roll hF (c2 :: key) (fun c hc => by rw [hl]; exact hb c (by simp at hc ⊢; tauto)) ?_ (by rw [hl, hd]) ?_ ks hk'
      · intro k hk
        obtain ⟨n, hn, rfl⟩ := List.mem_map.mp hk
        exact (onCircle_half hF (hO n hn)).2
      · intro js hj
        exact step js (by rw [hj.length_eq, hl])

end

namespace Props
variable [CommSemiring R]

/-- **C83, packets.** In periodic mode the node of a key of a signal rolled by `2^(key length) d` is the node, rolled by `d`. -/
theorem c83_roll_packet (w : Wavelet R) (mode : Option String) (axis : Int) (hm : Selects mode .periodic)
    (hF : 2 ≤ w.len) (hhi : w.decHi.length = w.len)
    (st₀ st₁ : Pkt Unit (Tensor R)) (x y : Tensor R)
    (ml : Option Int) (L : Int) (hL : PacketLevel w axis x ml L) (hax : ValidAxis x.rank axis)
    (hdt : x.md.dtype = .float32 ∨ x.md.dtype = .float64)
    (ops ops' : List (Backend.Op (Tensor R))) (ho : ∀ op ∈ ops, IsRead op) (ho' : ∀ op ∈ ops', IsRead op) (key : Key) (d : Nat)
    (hxy : Rolled [axisOf x.rank axis] [x.shape.getD (axisOf x.rank axis) 0] [2 ^ key.length * d] x y)
    (hk : (key.length : Int) ≤ L) (hc : ∀ c ∈ key, c = 'a' ∨ c = 'd')
    (ha : ∀ s, s < key.length → Mode.periodic.Admits w.len (levelLen w.len (x.shape.getD (axisOf x.rank axis) 0) s))
    (hO : OnCircle w.len key.length (x.shape.getD (axisOf x.rank axis) 0)) :
    ∃ v v', ((packet1 w mode axis).run st₀ (.transform x ml :: ops ++ [.read key])).1.getLast? = some (.value v) ∧
      ((packet1 w mode axis).run st₁ (.transform y ml :: ops' ++ [.read key])).1.getLast? = some (.value v') ∧
      Rolled [axisOf x.rank axis] [x.shape.getD (axisOf x.rank axis) 0 / 2 ^ key.length] [d] v v' := by
  have hrk : y.rank = x.rank := by
    unfold Tensor.rank
    rw [hxy.shape]
  have hL' : PacketLevel w axis y ml L := by
    unfold PacketLevel
    rw [hrk, hxy.shape]
    exact hL
  obtain ⟨v, hv⟩ := c25_readable w mode axis .periodic hm hF hhi st₀ x ml L hL hax hdt ops ho key hk hc ha
  obtain ⟨v', hv'⟩ := c25_readable w mode axis .periodic hm hF hhi st₁ y ml L hL' (by rw [hrk]; exact hax)
    (by rw [hxy.md]; exact hdt) ops' ho' key hk hc (by rw [hrk, hxy.shape]; exact ha)
  refine ⟨v, v', hv, hv', ?_⟩
  have hlt : axisOf x.rank axis < x.shape.length := axisOf_lt hax
  rcases c25_value w mode axis .periodic hm hF hhi st₀ x ml L hL ops ho key v hv with ⟨rfl, e⟩ | ⟨h1, -, -, h2⟩
  · rcases c25_value w mode axis .periodic hm hF hhi st₁ y ml L hL' ops' ho' [] v' hv' with ⟨-, e'⟩ | ⟨h1, -⟩
    · rw [e, e']
      simpa using hxy
    · exact absurd rfl h1
  · rcases c25_value w mode axis .periodic hm hF hhi st₁ y ml L hL' ops' ho' key v' hv' with ⟨h3, -⟩ | ⟨-, -, -, h2'⟩
    · exact absurd h3 h1
    rw [hrk, hxy.shape] at h2'
    refine rolled_of (by simp) (by simpa using hlt) hxy rfl (.cons (onCircle_level_le hF hO le_rfl) .nil) rfl rfl
      (alongAxis_axes h2) (alongAxis_axes h2') fun X X' hX ks hks => ?_
    match ks, hks with
    | [k], hks =>
      exact packetLine_roll hF key hO (v := fun j => X [j]) (v' := fun j => X' [j]) (fun j hj => hX [j] ⟨hj, trivial⟩) k hks.1

/-- **C83, packets of images.** -/
theorem c83_roll_packet2 (w : Wavelet R) (mode : Option String) (axes : List Int) (sep : Bool)
    (hm : Selects mode .periodic) (hF : 2 ≤ w.len) (hhi : w.decHi.length = w.len)
    (st₀ st₁ : Pkt Unit (Tensor R)) (x y : Tensor R)
    (ml : Option Int) (L : Int) (hL : PacketLevel2 w axes x ml L) (hax : GoodAxes (.seq axes) x.rank 2)
    (hdt : x.md.dtype = .float32 ∨ x.md.dtype = .float64)
    (ops ops' : List (Backend.Op (Tensor R))) (ho : ∀ op ∈ ops, IsRead op) (ho' : ∀ op ∈ ops', IsRead op) (key : Key)
    (ds : List Nat) (hd : ds.length = 2)
    (hxy : Rolled (planeAxes axes x.rank) (sizes (planeAxes axes x.rank) x.shape) (ds.map (2 ^ key.length * ·)) x y)
    (hk : (key.length : Int) ≤ L) (hc : ∀ c ∈ key, c = 'a' ∨ c = 'h' ∨ c = 'v' ∨ c = 'd')
    (ha : LevelsAdmit .periodic w.len (sizes (planeAxes axes x.rank) x.shape) key.length)
    (hO : ∀ n ∈ sizes (planeAxes axes x.rank) x.shape, OnCircle w.len key.length n) :
    ∃ v v', ((packet2 w mode axes sep).run st₀ (.transform x ml :: ops ++ [.read key])).1.getLast? = some (.value v) ∧
      ((packet2 w mode axes sep).run st₁ (.transform y ml :: ops' ++ [.read key])).1.getLast? = some (.value v') ∧
      Rolled (planeAxes axes x.rank) ((sizes (planeAxes axes x.rank) x.shape).map (· / 2 ^ key.length)) ds v v' := by
  have hrk : y.rank = x.rank := by
    unfold Tensor.rank
    rw [hxy.shape]
  have hL' : PacketLevel2 w axes y ml L := by
    unfold PacketLevel2
    rw [hrk, hxy.shape]
    exact hL
  have hdt' : y.md.dtype = .float32 ∨ y.md.dtype = .float64 := by rw [hxy.md]; exact hdt
  obtain ⟨v, hv⟩ := c25_2d_readable w mode axes sep .periodic hm hF hhi st₀ x ml L hL hax hdt ops ho key hk hc ha
  obtain ⟨v', hv'⟩ := c25_2d_readable w mode axes sep .periodic hm hF hhi st₁ y ml L hL' (by rw [hrk]; exact hax)
    hdt' ops' ho' key hk hc (by rw [hrk, hxy.shape]; exact ha)
  refine ⟨v, v', hv, hv', ?_⟩
  have hs : (sizes (planeAxes axes x.rank) x.shape).length = 2 := by simp [sizes, axesOf, hax.len]
  have hal : (planeAxes axes x.rank).length = 2 := by simpa [sizes] using hs
  rcases c25_2d_value w mode axes sep .periodic hm hF hhi st₀ x hdt ml L hL ops ho key v hv with ⟨rfl, e⟩ | ⟨h1, -, -, h2⟩
  · rcases c25_2d_value w mode axes sep .periodic hm hF hhi st₁ y hdt' ml L hL' ops' ho' [] v' hv' with ⟨-, e'⟩ | ⟨h1, -⟩
    · rw [e, e']
      simpa using hxy
    · exact absurd rfl h1
  · rcases c25_2d_value w mode axes sep .periodic hm hF hhi st₁ y hdt' ml L hL' ops' ho' key v' hv' with ⟨h3, -⟩ | ⟨-, -, -, h2'⟩
    · exact absurd h3 h1
    rw [hrk, hxy.shape] at h2'
    exact rolled_of hax.nodup hax.lt hxy (by simp [hd, hal]) (onCircle_forall hF le_rfl hO) (by rw [hd, hal])
      (by rw [levelLens_length, hs, hal]) h2 h2' fun X X' hX ks hks =>
        packetPlane_roll hF key (fun c _ => by rw [hs, packetBand_length]) hO (by rw [hd, hs]) hX ks hks

/-! ### Concrete cases -/

example : ∃ v v',
    ((packet1 haar (some "periodic") (-1)).run (Backend.empty ()) (.transform (slope [4, 8] 1) (some 2) :: [] ++
      [.read ['d', 'a']])).1.getLast? = some (.value v) ∧
    ((packet1 haar (some "periodic") (-1)).run (Backend.empty ()) (.transform (rollT [1] [8] [12] (slope [4, 8] 1)) (some 2) ::
      [.read ['a']] ++ [.read ['d', 'a']])).1.getLast? = some (.value v') ∧ Rolled [1] [2] [3] v v' := by
  have h01 : ∀ s, s < 2 → s = 0 ∨ s = 1 := fun s hs => by omega
  exact c83_roll_packet haar (some "periodic") (-1) (Or.inl rfl) (by decide) rfl (Backend.empty ()) (Backend.empty ())
    (slope [4, 8] 1) (rollT [1] [8] [12] (slope [4, 8] 1)) (some 2) 2 (Or.inl rfl) ⟨by decide, by decide⟩ (Or.inr rfl) [] [.read ['a']]
    (by simp) (by intro op hop; simp only [List.mem_singleton] at hop; subst hop; trivial) ['d', 'a'] 3 (rollT_rolled _ _ _ _)
    (by decide) (by simp)
    (by
      intro s hs
      rcases h01 s hs with rfl | rfl <;> (simp only [Mode.Admits]; decide))
    ⟨by decide, by decide, Or.inr (by decide)⟩

example (sep : Bool) : ∃ v v',
    ((packet2 exW4 (some "periodic") [-2, -1] sep).run (Backend.empty ())
      (.transform (slope [4, 8] 1) (some 1) :: [] ++ [.read ['v']])).1.getLast? = some (.value v) ∧
    ((packet2 exW4 (some "periodic") [-2, -1] sep).run (Backend.empty ())
      (.transform (rollT [0, 1] [4, 8] [2, 6] (slope [4, 8] 1)) (some 1) :: [.read ['h']] ++ [.read ['v']])).1.getLast? =
      some (.value v') ∧ Rolled [0, 1] [2, 4] [1, 3] v v' := by
  have hg : GoodAxes (.seq [-2, -1]) (slope [4, 8] 1).rank 2 := by
    refine ⟨by decide, rfl, ?_, by decide⟩
    intro a ha
    have : a = -2 ∨ a = -1 := by simpa [resolve] using ha
    rcases this with rfl | rfl <;> exact ⟨by decide, by decide⟩
  have hs : sizes (planeAxes [-2, -1] (slope [4, 8] 1).rank) (slope [4, 8] 1).shape = [4, 8] := rfl
  exact c83_roll_packet2 exW4 (some "periodic") [-2, -1] sep (Or.inl rfl) (by decide) rfl (Backend.empty ()) (Backend.empty ())
    (slope [4, 8] 1) (rollT [0, 1] [4, 8] [2, 6] (slope [4, 8] 1)) (some 1) 1 (Or.inl rfl) hg (Or.inr rfl)
    [] [.read ['h']] (by simp) (by intro op hop; simp only [List.mem_singleton] at hop; subst hop; trivial) ['v'] [1, 3] rfl
    (rollT_rolled _ _ _ _) (by decide) (by simp)
    (by
      rw [hs]
      intro s h k hk
      have h' : s < 1 := h
      obtain rfl : s = 0 := by omega
      rw [levelLens_zero] at hk
      simp only [List.mem_cons, List.not_mem_nil, or_false] at hk
      rcases hk with rfl | rfl <;> (simp only [Mode.Admits]; decide))
    (by
      rw [hs]
      intro n hn
      simp only [List.mem_cons, List.not_mem_nil, or_false] at hn
      rcases hn with rfl | rfl <;> exact ⟨by decide, by decide, Or.inl (by decide)⟩)

end Props
end Verif
