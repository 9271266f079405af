/-
C82 for wavelet packets.
-/
import Verif.Props.Scaled
import Verif.Props.PacketZ

namespace Verif
open Tensor Spec
variable {R : Type}

section
variable [CommSemiring R] {α β γ δ : R} {w w' : Wavelet R}

theorem packetLine_scale {m : Mode} (hw : ScaledBank α β γ δ w w') : ∀ (key : Key) {n : Nat} {η : R} {v v' : Nat → R},
    (∀ j, v' j = η * v j) → ∀ k, packetLine m w' n v' key k =
      (α ^ key.countP (· = 'a') * β ^ key.countP (· ≠ 'a') * η) * packetLine m w n v key k
  | [], n, η, v, v', h, k => by
    rw [List.countP_nil, List.countP_nil, pow_zero, pow_zero, one_mul, one_mul]
    exact h k
  | c :: key, n, η, v, v', h, k => by
    show packetLine m w' (outLen w'.len n) (dwtStep m (if c = 'a' then w'.decLo else w'.decHi) n v') key k =
      _ * packetLine m w (outLen w.len n) (dwtStep m (if c = 'a' then w.decLo else w.decHi) n v) key k
    rw [hw.len]
    by_cases hc : c = 'a'
    · subst hc
      rw [if_pos rfl, if_pos rfl, hw.decLo, packetLine_scale hw key (dwtStep_scale α η w.decLo h) k,
        List.countP_cons_of_pos (by simp), List.countP_cons_of_neg (by simp), pow_succ]
      ring
    · rw [if_neg hc, if_neg hc, hw.decHi, packetLine_scale hw key (dwtStep_scale β η w.decHi h) k,
        List.countP_cons_of_neg (by simpa using hc), List.countP_cons_of_pos (by simpa using hc), pow_succ]
      ring

/-- The number of low-pass filterings of a packet key. -/
def lowPasses (band : Char → List Bool) (key : Key) : Nat := (key.map fun c => (band c).count false).sum

theorem packetPlane_scale {m : Mode} (hw : ScaledBank α β γ δ w w') {band : Char → List Bool} :
    ∀ (key : Key) {ns : List Nat} {η : R} {X X' : List Nat → R},
      (∀ c ∈ key, (band c).length = ns.length) → (∀ js, js.length = ns.length → X' js = η * X js) →
      ∀ ks, ks.length = ns.length → packetPlane (bandN m w') (nextLens w'.len) band ns X' key ks =
        (α ^ lowPasses band key * β ^ highPasses band key * η) * packetPlane (bandN m w) (nextLens w.len) band ns X key ks
  | [], ns, η, X, X', _, h, ks, hk => by
    show X' ks = α ^ 0 * β ^ 0 * η * X ks
    rw [pow_zero, pow_zero, one_mul, one_mul]
    exact h ks hk
  | c :: key, ns, η, X, X', hb, h, ks, hk => by
    have hn : (nextLens w.len ns).length = ns.length := by simp [nextLens]
    show packetPlane (bandN m w') (nextLens w'.len) band (nextLens w'.len ns) (bandN m w' (band c) ns X') key ks =
      _ * packetPlane (bandN m w) (nextLens w.len) band (nextLens w.len ns) (bandN m w (band c) ns X) key ks
    have ih := packetPlane_scale (m := m) hw key (ns := nextLens w.len ns) (η := α ^ (band c).count false * β ^ (band c).count true * η)
      (X := bandN m w (band c) ns X) (X' := bandN m w' (band c) ns X') (fun c hc => by rw [hn]; exact hb c (by simp [hc]))
      (fun js hj => by
        unfold bandN
        rw [hw.decLo, hw.decHi]
        exact dwtN_scale α β w.decLo w.decHi (hb c (by simp)) (by rw [hj, hn]) h) ks (by rw [hk, hn])
    rw [hw.len] at ih ⊢
    rw [ih]
    congr 1
    unfold highPasses lowPasses
    rw [List.map_cons, List.sum_cons, pow_add, List.map_cons, List.sum_cons, pow_add]
    ring

end

namespace Props
variable [CommSemiring R]

/-- **C82, packets.** The packet of a key read with analysis filters multiplied by `α` and `β` is the packet times `α` per
letter `a` and `β` per letter `d`. -/
theorem c82_packet (w w' : Wavelet R) (α β γ δ : R) (mode : Option String) (axis : Int) (m : Mode) (hm : Selects mode m)
    (hF : 2 ≤ w.len) (hhi : w.decHi.length = w.len) (hw : ScaledBank α β γ δ w w')
    (st₀ st₁ : Pkt Unit (Tensor R)) (x : Tensor R)
    (ml : Option Int) (L : Int) (hL : PacketLevel w axis x ml L) (hax : ValidAxis x.rank axis)
    (hdt : x.md.dtype = .float32 ∨ x.md.dtype = .float64)
    (ops ops' : List (Backend.Op (Tensor R))) (ho : ∀ op ∈ ops, IsRead op) (ho' : ∀ op ∈ ops', IsRead op) (key : Key)
    (hk : (key.length : Int) ≤ L) (hc : ∀ c ∈ key, c = 'a' ∨ c = 'd')
    (ha : ∀ s, s < key.length → m.Admits w.len (levelLen w.len (x.shape.getD (axisOf x.rank axis) 0) s)) :
    ∃ v v', ((packet1 w mode axis).run st₀ (.transform x ml :: ops ++ [.read key])).1.getLast? = some (.value v) ∧
      ((packet1 w' mode axis).run st₁ (.transform x ml :: ops' ++ [.read key])).1.getLast? = some (.value v') ∧
      Times (α ^ key.count 'a' * β ^ key.count 'd') v v' := by
  have hl := hw.len
  have hF' : 2 ≤ w'.len := by rw [hl]; exact hF
  have hhi' : w'.decHi.length = w'.len := by rw [hl, hw.decHi]; simpa using hhi
  have hL' : PacketLevel w' axis x ml L := by
    unfold PacketLevel
    rw [hl]
    exact hL
  obtain ⟨v, hv⟩ := c25_readable w mode axis m hm hF hhi st₀ x ml L hL hax hdt ops ho key hk hc ha
  obtain ⟨v', hv'⟩ := c25_readable w' mode axis m hm hF' hhi' st₁ x ml L hL' hax hdt ops' ho' key hk hc (by rw [hl]; exact ha)
  refine ⟨v, v', hv, hv', ?_⟩
  have hcount : key.countP (· ≠ 'a') = key.count 'd' := by
    rw [List.count]
    refine List.countP_congr fun c hmem => ?_
    rcases hc c hmem with rfl | rfl <;> decide
  have hcount' : key.countP (· = 'a') = key.count 'a' := by
    rw [List.count]
    refine List.countP_congr fun c hmem => ?_
    rcases hc c hmem with rfl | rfl <;> decide
  rcases c25_value w mode axis m hm hF hhi st₀ x ml L hL ops ho key v hv with ⟨rfl, e⟩ | ⟨h1, -, -, h2⟩
  · rcases c25_value w' mode axis m hm hF' hhi' st₁ x ml L hL' ops' ho' [] v' hv' with ⟨-, e'⟩ | ⟨h1, -⟩
    · rw [e, e']
      exact ⟨rfl, rfl, fun _ _ => by simp⟩
    · exact absurd rfl h1
  · rcases c25_value w' mode axis m hm hF' hhi' st₁ x ml L hL' ops' ho' key v' hv' with ⟨h3, -⟩ | ⟨-, -, -, h2'⟩
    · exact absurd h3 h1
    rw [hl] at h2'
    refine ⟨by rw [h2.md, h2'.md], by rw [h2.shape, h2'.shape], fun idx hidx => ?_⟩
    rw [h2.get idx hidx, h2'.get idx (by rw [h2'.shape, ← h2.shape]; exact hidx)]
    have := packetLine_scale (m := m) hw key (n := x.shape.getD (axisOf x.rank axis) 0) (η := 1)
      (v := line x (axisOf x.rank axis) idx) (v' := line x (axisOf x.rank axis) idx) (fun j => (one_mul _).symm)
      (idx.getD (axisOf x.rank axis) 0)
    rw [hcount, hcount', mul_one] at this
    exact this

/-- **C82, packets of images.** -/
theorem c82_packet2 (w w' : Wavelet R) (α β γ δ : R) (mode : Option String) (axes : List Int) (sep : Bool) (m : Mode)
    (hm : Selects mode m) (hF : 2 ≤ w.len) (hhi : w.decHi.length = w.len) (hw : ScaledBank α β γ δ w w')
    (st₀ st₁ : Pkt Unit (Tensor R)) (x : Tensor R)
    (ml : Option Int) (L : Int) (hL : PacketLevel2 w axes x ml L) (hax : GoodAxes (.seq axes) x.rank 2)
    (hdt : x.md.dtype = .float32 ∨ x.md.dtype = .float64)
    (ops ops' : List (Backend.Op (Tensor R))) (ho : ∀ op ∈ ops, IsRead op) (ho' : ∀ op ∈ ops', IsRead op) (key : Key)
    (hk : (key.length : Int) ≤ L) (hc : ∀ c ∈ key, c = 'a' ∨ c = 'h' ∨ c = 'v' ∨ c = 'd')
    (ha : LevelsAdmit m w.len (sizes (planeAxes axes x.rank) x.shape) key.length) :
    ∃ v v', ((packet2 w mode axes sep).run st₀ (.transform x ml :: ops ++ [.read key])).1.getLast? = some (.value v) ∧
      ((packet2 w' mode axes sep).run st₁ (.transform x ml :: ops' ++ [.read key])).1.getLast? = some (.value v') ∧
      Times (α ^ (2 * key.count 'a' + key.count 'h' + key.count 'v') * β ^ (key.count 'h' + key.count 'v' + 2 * key.count 'd'))
        v v' := by
  have hl := hw.len
  have hF' : 2 ≤ w'.len := by rw [hl]; exact hF
  have hhi' : w'.decHi.length = w'.len := by rw [hl, hw.decHi]; simpa using hhi
  have hL' : PacketLevel2 w' axes x ml L := by
    unfold PacketLevel2
    rw [hl]
    exact hL
  obtain ⟨v, hv⟩ := c25_2d_readable w mode axes sep m hm hF hhi st₀ x ml L hL hax hdt ops ho key hk hc ha
  obtain ⟨v', hv'⟩ := c25_2d_readable w' mode axes sep m hm hF' hhi' st₁ x ml L hL' hax hdt ops' ho' key hk hc
    (by rw [hl]; exact ha)
  refine ⟨v, v', hv, hv', ?_⟩
  have hcount : highPasses (packetBand sep) key = key.count 'h' + key.count 'v' + 2 * key.count 'd' := by
    clear hk ha hv hv'
    unfold highPasses
    induction key with
    | nil => rfl
    | cons c k ih =>
      rw [List.map_cons, List.sum_cons, ih fun c h => hc c (by simp [h])]
      have h4 := hc c (by simp)
      cases sep <;> rcases h4 with rfl | rfl | rfl | rfl <;>
        simp [packetBand, letterBand, letterBandSwapped] <;> ring
  have hcount' : lowPasses (packetBand sep) key = 2 * key.count 'a' + key.count 'h' + key.count 'v' := by
    clear hk ha hv hv' hcount
    unfold lowPasses
    induction key with
    | nil => rfl
    | cons c k ih =>
      rw [List.map_cons, List.sum_cons, ih fun c h => hc c (by simp [h])]
      have h4 := hc c (by simp)
      cases sep <;> rcases h4 with rfl | rfl | rfl | rfl <;>
        simp [packetBand, letterBand, letterBandSwapped] <;> ring
  rcases c25_2d_value w mode axes sep m hm hF hhi st₀ x hdt ml L hL ops ho key v hv with ⟨rfl, e⟩ | ⟨h1, -, -, h2⟩
  · rcases c25_2d_value w' mode axes sep m hm hF' hhi' st₁ x hdt ml L hL' ops' ho' [] v' hv' with ⟨-, e'⟩ | ⟨h1, -⟩
    · rw [e, e']
      exact ⟨rfl, rfl, fun _ _ => by simp⟩
    · exact absurd rfl h1
  · rcases c25_2d_value w' mode axes sep m hm hF' hhi' st₁ x hdt ml L hL' ops' ho' key v' hv' with ⟨h3, -⟩ | ⟨-, -, -, h2'⟩
    · exact absurd h3 h1
    have hs : (sizes (planeAxes axes x.rank) x.shape).length = 2 := by simp [sizes, axesOf, hax.len]
    have hal : (planeAxes axes x.rank).length = 2 := by simpa [sizes] using hs
    refine times_of h2 (hl ▸ h2') fun X ks hks => ?_
    have := packetPlane_scale (m := m) hw (band := packetBand sep) key (ns := sizes (planeAxes axes x.rank) x.shape) (η := 1)
      (X := X) (X' := X) (fun c _ => by rw [hs, packetBand_length]) (fun js hj => (one_mul _).symm) ks (by rw [hks, hs, hal])
    rw [hcount, hcount', mul_one, hl] at this
    exact this

/-! ### Concrete cases -/

example : ∃ v v',
    ((packet1 exW4 none (-1)).run (Backend.empty ()) (.transform exMir (some 2) :: [.read ['a']] ++ [.read ['d', 'a']])).1.getLast?
      = some (.value v) ∧
    ((packet1 exW4s none (-1)).run (Backend.empty ()) (.transform exMir (some 2) :: [] ++ [.read ['d', 'a']])).1.getLast?
      = some (.value v') ∧ Times ((2 : ℚ) ^ 1 * 3 ^ 1) v v' := by
  have h01 : ∀ s, s < 2 → s = 0 ∨ s = 1 := fun s hs => by omega
  exact c82_packet exW4 exW4s 2 3 5 7 none (-1) .reflect (Or.inr ⟨rfl, rfl⟩) (by decide) rfl
    exW4s_scaled (Backend.empty ()) (Backend.empty ()) exMir (some 2) 2
    (Or.inl rfl) ⟨by decide, by decide⟩ (Or.inl rfl) [.read ['a']] []
    (by intro op hop; simp only [List.mem_singleton] at hop; subst hop; trivial) (by simp) ['d', 'a'] (by decide) (by simp)
    (by
      intro s hs
      rcases h01 s hs with rfl | rfl <;> (simp only [Mode.Admits]; decide))

example (sep : Bool) : ∃ v v',
    ((packet2 exW4 (some "zero") [-2, -1] sep).run (Backend.empty ())
      (.transform exMir (some 1) :: [] ++ [.read ['v']])).1.getLast? = some (.value v) ∧
    ((packet2 exW4s (some "zero") [-2, -1] sep).run (Backend.empty ())
      (.transform exMir (some 1) :: [.read ['h']] ++ [.read ['v']])).1.getLast? = some (.value v') ∧
    Times ((2 : ℚ) ^ 1 * 3 ^ 1) v v' := by
  have hg : GoodAxes (.seq [-2, -1]) exMir.rank 2 := by
    refine ⟨by decide, rfl, ?_, by decide⟩
    intro a ha
    have : a = -2 ∨ a = -1 := by simpa [resolve] using ha
    rcases this with rfl | rfl <;> exact ⟨by decide, by decide⟩
  exact c82_packet2 exW4 exW4s 2 3 5 7 (some "zero") [-2, -1] sep .zero (Or.inl rfl)
    (by decide) rfl exW4s_scaled (Backend.empty ()) (Backend.empty ()) exMir (some 1) 1 (Or.inl rfl) hg (Or.inl rfl)
    [] [.read ['h']] (by simp) (by intro op hop; simp only [List.mem_singleton] at hop; subst hop; trivial) ['v'] (by decide)
    (by simp)
    (by
      have hs : sizes (planeAxes [-2, -1] exMir.rank) exMir.shape = [2, 14] := rfl
      rw [hs]
      intro s h k hk
      have h' : s < 1 := h
      obtain rfl : s = 0 := by omega
      rw [levelLens_zero] at hk
      simp only [List.mem_cons, List.not_mem_nil, or_false] at hk
      rcases hk with rfl | rfl <;> (simp only [Mode.Admits]; decide))

end Props
end Verif
