/-
C55: the orthogonal boundary transforms preserve the energy of every input, whole packet levels preserve it,
and the stationary transform is a tight frame.
-/
import Verif.Lemmas.EnergyPacket
import Verif.Lemmas.EnergySwt
import Verif.Props.MatN
import Verif.Props.MatNonsep
import Verif.Props.Mat1
import Verif.Props.PacketMat2Nonsep
import Verif.Props.Swt
import Verif.Lemmas.OrthPR

namespace Verif.Props
open Tensor Spec

/-! ### Fast wavelet transforms -/

theorem axesOf_len {axes : AxisHint} {r n : Nat} (hg : GoodAxes axes r n) : (axesOf axes r n).length = n := by
  unfold axesOf
  rw [List.length_map, hg.len]

theorem iso_sep {m : Mode} {F K : Nat} {ns : List Nat} {C : Nat → Coo ℝ}
    (hO : ∀ k, k % 2 = 0 → F ≤ k → (∃ n ∈ ns, k ≤ evenLen n) → OrthonormalCols k (C k).den)
    (hp : m = .zero ∨ PadFreeN ns (mLevelsN F K ns)) (s : Nat) (hs : s < mLevelsN F K ns) :
    BandIso (matBand m fun k => (C k).den) (mLens ns s) := by
  refine matBand_iso _ fun n hn => ⟨hp.imp id fun h => h s hs n hn, hO _ (evenLen_even n) ?_ (mLens_even_bound hn)⟩
  have := mLevelsN_ge F K ns s hs n hn
  have : n ≤ evenLen n := by unfold evenLen; omega
  omega

/-- **C55.** `MatrixWavedec2(separable=True)` preserves the energy: for every orthogonal filter bank, image (or batch
of images), level, pair of axes and orthogonalisation method of `c43_roundtrip2`, the sum of the squares of all
coefficients is the sum of the squares of the input. In `zero` mode the sizes are arbitrary; in the other modes no
level may have an odd size. -/
theorem c55_separable2 {la : LinAlg ℝ} (hla : ExactLinAlg la) {w : Wavelet ℝ} {F : Nat} (hw : OrthBank w F)
    {x : Tensor ℝ} {axes : AxisHint} {m : Mode} {mode : Option String} {orth : String} {level : Option Int}
    (hg : GoodAxes axes x.rank 2) (hdt : x.md.dtype = .float32 ∨ x.md.dtype = .float64)
    (hpos : ∀ k ∈ x.shape, 0 < k)
    (hm : Selects mode m) (ho : orth = "qr" ∨ orth = "gramschmidt") (hlev : ∀ l, level = some l → 1 ≤ l)
    (hind : ∀ k, k % 2 = 0 → F ≤ k → (∃ n ∈ sizes (axesOf axes x.rank 2) x.shape, k ≤ evenLen n) → BoundaryIndep w F k)
    (hp : m = .zero ∨ PadFreeN (sizes (axesOf axes x.rank 2) x.shape)
      (mLevelsN F (levelsN level F (sizes (axesOf axes x.rank 2) x.shape)) (sizes (axesOf axes x.rank 2) x.shape))) :
    ∃ dcfg dst c, decInitN 2 w level axes orth true mode = .ok (dcfg, dst) ∧
      (decCallN 2 la dcfg dst x).1 = .ok c ∧ coeffEnergy c = energy x := by
  obtain ⟨dcfg, dst, _, _, C, c, _, h1, _, hC, h3, h4, _⟩ := c43_roundtrip2 hla hw hg hdt hpos hm ho hlev hind rfl
  refine ⟨dcfg, dst, c, h1, h3, coeff_energy ?_ hg.nodup hg.lt h4 (iso_sep (fun k a b d => (hC k a b d).2) hp)⟩
  rw [axesOf_len hg]
  exact isTupleSwapped_sums

/-- **C55.** The same for `MatrixWavedec3`. -/
theorem c55_separable3 {la : LinAlg ℝ} (hla : ExactLinAlg la) {w : Wavelet ℝ} {F : Nat} (hw : OrthBank w F)
    {x : Tensor ℝ} {axes : AxisHint} {m : Mode} {mode : Option String} {orth : String} {level : Option Int}
    (hg : GoodAxes axes x.rank 3) (hdt : x.md.dtype = .float32 ∨ x.md.dtype = .float64)
    (hm : Selects mode m) (ho : orth = "qr" ∨ orth = "gramschmidt") (hlev : ∀ l, level = some l → 1 ≤ l)
    (hne : level = none → ∀ k ∈ sizes (axesOf axes x.rank 3) x.shape, 0 < k)
    (hind : ∀ k, k % 2 = 0 → F ≤ k → (∃ n ∈ sizes (axesOf axes x.rank 3) x.shape, k ≤ evenLen n) → BoundaryIndep w F k)
    (hp : m = .zero ∨ PadFreeN (sizes (axesOf axes x.rank 3) x.shape)
      (mLevelsN F (levelsN level F (sizes (axesOf axes x.rank 3) x.shape)) (sizes (axesOf axes x.rank 3) x.shape))) :
    ∃ dcfg dst c, decInitN 3 w level axes orth true mode = .ok (dcfg, dst) ∧
      (decCallN 3 la dcfg dst x).1 = .ok c ∧ coeffEnergy c = energy x := by
  obtain ⟨dcfg, dst, _, _, C, c, h1, _, hC, h3, h4, _⟩ := c43_roundtrip3 hla hw hg hdt hm ho hlev hne hind rfl
  refine ⟨dcfg, dst, c, h1, h3, coeff_energy ?_ hg.nodup hg.lt h4 (iso_sep (fun k a b d => (hC k a b d).2) hp)⟩
  rw [axesOf_len hg]
  exact isDict_sums keysM3_perm

theorem iso_nonsep {m : Mode} {F : Nat} {ns : List Nat} {C : Nat → Nat → Coo ℝ} {s : Nat} (hl : ns.length = 2)
    (hO : ∀ p q, p % 2 = 0 → q % 2 = 0 → F ≤ p → F ≤ q → (∃ n ∈ ns, p ≤ evenLen n) → (∃ n ∈ ns, q ≤ evenLen n) →
      OrthonormalCols (p * q) (C p q).den)
    (hp : ∀ n ∈ mLens ns s, m = .zero ∨ n % 2 = 0) (hs : ∀ n ∈ mLens ns s, F ≤ n) :
    BandIso (nonsepBand m fun p q => (C p q).den) (mLens ns s) := by
  have hl' : (mLens ns s).length = 2 := by rw [mLens_length, hl]
  obtain ⟨h, k, e⟩ := List.length_eq_two.mp hl'
  have b := fun n (hn : n ∈ mLens ns s) => mLens_even_bound hn
  rw [e] at hp hs b ⊢
  have hle : ∀ n, n ≤ evenLen n := fun n => by unfold evenLen; omega
  exact nonsepBand_iso (hp h (by simp)) (hp k (by simp)) (hO _ _ (evenLen_even h) (evenLen_even k)
    ((hs h (by simp)).trans (hle h)) ((hs k (by simp)).trans (hle k)) (b h (by simp)) (b k (by simp)))

/-- **C55.** The same for `MatrixWavedec2(separable=False)`, for at least one level. -/
theorem c55_nonseparable {la : LinAlg ℝ} (hla : ExactLinAlg la) {w : Wavelet ℝ} {F : Nat} (hw : OrthBank w F)
    {x : Tensor ℝ} {axes : AxisHint} {m : Mode} {mode : Option String} {orth : String} {level : Option Int}
    (hg : GoodAxes axes x.rank 2) (hdt : x.md.dtype = .float32 ∨ x.md.dtype = .float64)
    (hpos : ∀ k ∈ x.shape, 0 < k)
    (hm : Selects mode m) (ho : orth = "qr" ∨ orth = "gramschmidt") (hlev : ∀ l, level = some l → 1 ≤ l)
    (hind : ∀ k, k % 2 = 0 → F ≤ k → (∃ n ∈ sizes (axesOf axes x.rank 2) x.shape, k ≤ evenLen n) → BoundaryIndep w F k)
    {L : Nat} (hL : L = mLevelsN F (levelsN level F (sizes (axesOf axes x.rank 2) x.shape))
      (sizes (axesOf axes x.rank 2) x.shape)) (hL0 : 0 < L)
    (hp : m = .zero ∨ PadFreeN (sizes (axesOf axes x.rank 2) x.shape) L) :
    ∃ dcfg dst c, decInitN 2 w level axes orth false mode = .ok (dcfg, dst) ∧
      (decCallN 2 la dcfg dst x).1 = .ok c ∧ coeffEnergy c = energy x := by
  obtain ⟨dcfg, dst, _, _, C, c, _, h1, _, hC, h3, h4, _⟩ :=
    c50_roundtrip hla hw hg hdt hpos hm ho hlev hind hL hL0
  refine ⟨dcfg, dst, c, h1, h3, coeff_energy ?_ hg.nodup hg.lt h4 ?_⟩
  · rw [axesOf_len hg]
    exact isTuple_sums
  · intro s hs
    exact iso_nonsep (sizes_len hg) (fun p q a b d e f g => (hC p q a b d e f g).2)
      (fun n hn => hp.imp id fun h => h s hs n hn) (fun n hn => mLevelsN_ge F _ _ s (hL ▸ hs) n hn)

theorem energy_evenPadded {x x' : Tensor ℝ} {m : Mode} {a : Nat} (ha : a < x.shape.length) (h : EvenPadded m a x x')
    (hp : m = .zero ∨ x.shape.getD a 0 % 2 = 0) : energy x' = energy x := by
  rcases h with ⟨_, rfl⟩ | ⟨h1, h⟩
  · rfl
  · have hal : AlongAxis a (evenLen (x.shape.getD a 0)) (evenExt m (x.shape.getD a 0)) x x' := by
      refine ⟨h.md, ?_, fun idx hidx => ?_⟩
      · rw [h.shape]
        congr 1
        unfold evenLen
        omega
      · rw [h.get idx hidx]
        simp [evenExt]
    rw [energy_lines ha hal, energy_line ha]
    exact boxSum_congr _ fun idx _ => sum_evenLen hp _

/-- **C55.** The one-dimensional boundary transform `MatrixWavedec` preserves the energy: the squares of all entries
of all coefficient tensors add up to those of the input. In `zero` mode the length is arbitrary; in the
other modes neither the input nor any level may have an odd length. -/
theorem c55_1d {la : LinAlg ℝ} (hla : ExactLinAlg la) {w : Wavelet ℝ} {F : Nat} (hw : OrthBank w F)
    {x : Tensor ℝ} {axis : AxisHint} {m : Mode} {mode : Option String} {orth : String} {level : Option Int}
    (hg : GoodAxes axis x.rank 1) (hdt : x.md.dtype = .float32 ∨ x.md.dtype = .float64)
    (hm : Selects mode m) (ho : orth = "qr" ∨ orth = "gramschmidt") (hlev : ∀ l, level = some l → 1 ≤ l)
    (hne : level = none → 0 < x.shape.getD (axis1 axis x.rank) 0)
    (hind : ∀ k, k % 2 = 0 → F ≤ k → k ≤ evenLen (x.shape.getD (axis1 axis x.rank) 0) → BoundaryIndep w F k)
    (hp : m = .zero ∨ x.shape.getD (axis1 axis x.rank) 0 % 2 = 0 ∧ PadFree (x.shape.getD (axis1 axis x.rank) 0)
      (mLevels F (levels level F (x.shape.getD (axis1 axis x.rank) 0)) (x.shape.getD (axis1 axis x.rank) 0))) :
    ∃ dcfg dst cs, decInit w level axis orth mode = .ok (dcfg, dst) ∧ (decCall la dcfg dst x).1 = .ok cs ∧
      (cs.map energy).sum = energy x := by
  have hfit : x.shape.getD (axis1 axis x.rank) 0 % 2 = 1 → Fits m (x.shape.getD (axis1 axis x.rank) 0) 0 1 := by
    intro h
    rcases hp with rfl | hp
    · trivial
    · omega
  obtain ⟨dcfg, dst, C, x', cs, lv, h1, hlv, h2, h3, h4, h5, h6, h7, h8, h9, h10⟩ :=
    dec_run hla hw hg hdt hm ho hlev hne hfit hind
  refine ⟨dcfg, dst, cs, h1, by rw [h9], ?_⟩
  have hax : axis1 axis x.rank < x.shape.length := axis1_lt hg
  have hax' : axis1 axis x.rank < x'.shape.length := by
    have : x'.shape.length = x.shape.length := h7
    omega
  rw [← energy_evenPadded hax h5 (hp.imp id And.left)]
  set a := axis1 axis x.rank with ha
  set n := evenLen (x.shape.getD a 0) with hn
  set k := mLevels F (levels level F n) n with hk
  obtain ⟨c0, rest, rfl⟩ : ∃ c0 rest, cs = c0 :: rest := by
    cases cs with
    | nil => have := h10.length; simp at this
    | cons a l => exact ⟨a, l, rfl⟩
  have hrl : rest.length = k := by have := h10.length; simpa using this
  have hsum : (rest.map energy).sum = ∑ s ∈ Finset.range k, boxSum (x'.shape.set a 1) fun idx =>
      ∑ j ∈ Finset.range (mLen n (s + 1)), mD m (fun k => (C k).den) n (line x' a idx) s j ^ 2 := by
    rw [← Finset.sum_range_reflect, ← hrl]
    refine sum_map_range rest _ _ ?_
    intro i t ht
    have hi : i < k := by rw [← hrl]; exact (List.getElem?_eq_some_iff.mp ht).1
    rw [hrl]
    have := h10.detail (k - 1 - i) t (by omega) (by
      rw [show k - (k - 1 - i) = i + 1 by omega, List.getElem?_cons_succ]; exact ht)
    rw [h8] at this
    exact energy_lines hax' this
  have h0 := h10.approx c0 rfl
  rw [h8] at h0
  rw [List.map_cons, List.sum_cons, hsum, energy_lines hax' h0, energy_line hax', h8, ← boxSum_sum, ← boxSum_add]
  refine boxSum_congr _ fun idx _ => (levels_energy k n _ fun s hs => ⟨?_, ?_⟩).symm
  · rcases hp with h | ⟨he, hp⟩
    · exact Or.inl h
    · right
      have : n = x.shape.getD a 0 := evenLen_of_even he
      rw [hk, this] at hs
      rw [this]
      exact hp s hs
  · have := mLevels_ge (F := F) (levels level F n) n s hs
    have hle : mLen n s ≤ evenLen (mLen n s) := by unfold evenLen; omega
    have hb := evenLen_mLen_le n s
    rw [evenLen_of_even (by rw [hn]; exact evenLen_even _ : n % 2 = 0)] at hb
    exact h4 _ (evenLen_even _) (by omega) hb

/-! ### Packets -/

theorem levelKeys_perm {al : List Char} (ha : al.Nodup) {l : Nat} {keys : List Key} (h : LevelKeys al l keys) :
    keys.Perm (pyProduct al l) := by
  refine (List.perm_ext_iff_of_nodup h.1 (pyProduct_nodup ha l)).mpr fun k => ?_
  rw [h.2, mem_pyProduct]

variable {la : LinAlg ℝ} {w : Wavelet ℝ} {F : Nat} {orth : String}

/-- **C55.** A packet level in boundary mode has the energy of the input: however the object was used before,
after a transform and any reads, all packets of a level (in the natural, the frequency or any other order) can
be read, and their energies add up to that of the input, for every input length. -/
theorem c55_packets {axis : Int} {md : Meta} (hla : ExactLinAlg la) (hw : OrthBank w F)
    (ho : orth = "qr" ∨ orth = "gramschmidt")
    (hind : ∀ k, k % 2 = 0 → F ≤ k → BoundaryIndep w F k) (before : List (Backend.Op (Tensor ℝ)))
    (hb : ∀ op ∈ before, OpMd md op) (x : Tensor ℝ) (hx : x.md = md) (ml : Option Int) (L : Int)
    (hL : PacketLevel w axis x ml L) (hax : ValidAxis x.rank axis)
    (hdt : x.md.dtype = .float32 ∨ x.md.dtype = .float64)
    (ops : List (Backend.Op (Tensor ℝ))) (hr : ∀ op ∈ ops, IsRead op) (l : Nat) (hl : (l : Int) ≤ L)
    (hlen : ∀ s, s < l → F ≤ evenLen (mLen (x.shape.getD (axisOf x.rank axis) 0) s))
    (keys : List Key) (hk : LevelKeys ['a', 'd'] l keys) :
    ∃ v : Key → Tensor ℝ, (∀ key ∈ keys, ((packetMat1 la w orth axis).run
        ((packetMat1 la w orth axis).run (Backend.empty MatCache1.empty) before).2
        (.transform x ml :: ops ++ [.read key])).1.getLast? = some (.value (v key))) ∧
      (keys.map fun key => energy (v key)).sum = energy x := by
  classical
  have hread : ∀ key : Key, ∃ v, key ∈ keys → ((packetMat1 la w orth axis).run
        ((packetMat1 la w orth axis).run (Backend.empty MatCache1.empty) before).2
        (.transform x ml :: ops ++ [.read key])).1.getLast? = some (.value v) := by
    intro key
    by_cases h : key ∈ keys
    · obtain ⟨h1, h2⟩ := (hk.2 key).mp h
      obtain ⟨v, hv⟩ := c25_boundary_readable hla hw ho hind before hb x hx ml L hL hax hdt ops hr key (by omega)
        (by simpa using h2) (by rw [h1]; exact hlen)
      exact ⟨v, fun _ => hv⟩
    · exact ⟨x, fun h' => absurd h' h⟩
  choose v hv using hread
  refine ⟨v, hv, ?_⟩
  obtain ⟨C, hC, hval⟩ := c25_boundary_value hla hw ho hind before hb x hx ml L hL ops hr
  have hxl : axisOf x.rank axis < x.shape.length := by
    obtain ⟨h1, h2⟩ := hax
    unfold Tensor.rank at h1 h2
    unfold axisOf Tensor.rank
    split_ifs <;> omega
  set a := axisOf x.rank axis with ha
  set n := x.shape.getD a 0 with hn
  have hO : ∀ s, s < l → OrthonormalCols (evenLen (mLen n s)) (C (evenLen (mLen n s))).den := by
    intro s hs
    have h2 := hw.two_le
    have hF := hlen s hs
    obtain ⟨A, e, _, _, _, _, hA, _⟩ := c38_orthonormal hla md hw (evenLen_even (mLen n s)) (by omega)
      (hind _ (evenLen_even _) hF) ho
    have := hC _ (evenLen_even (mLen n s)) hF
    rw [e] at this
    injection this with this
    rw [← this]
    exact hA
  have he : ∀ key ∈ keys, energy (v key) = boxSum (x.shape.set a 1) fun idx =>
      ∑ i ∈ Finset.range (mLen n l), matPacketLine (fun k => (C k).den) n (line x a idx) key i ^ 2 := by
    intro key hkey
    obtain ⟨h1, h2⟩ := (hk.2 key).mp hkey
    rcases hval key _ (hv key hkey) with ⟨rfl, e⟩ | ⟨_, _, _, h⟩
    · obtain rfl : 0 = l := h1
      rw [e, energy_line hxl]
      rfl
    · rw [energy_lines hxl h, h1]
  rw [List.map_congr_left he, ((levelKeys_perm (by decide) hk).map _).sum_eq, energy_line hxl, ← boxSum_list]
  exact boxSum_congr _ fun idx _ => packetLine_energy l n _ hO

/-- **C55.** The same in two dimensions with `separable=True`, as long as no image on the way is smaller than the
filters along one of the two axes. -/
theorem c55_packets2 {axes : List Int} {md : Meta} (hla : ExactLinAlg la) (hw : OrthBank w F)
    (ho : orth = "qr" ∨ orth = "gramschmidt")
    (hind : ∀ k, k % 2 = 0 → F ≤ k → BoundaryIndep w F k) (before : List (Backend.Op (Tensor ℝ)))
    (hb : ∀ op ∈ before, OpMd md op) (x : Tensor ℝ) (hx : x.md = md) (hpos : ∀ n ∈ x.shape, 0 < n)
    (ml : Option Int) (L : Int) (hL : PacketLevel2 w axes x ml L) (hax : GoodAxes (.seq axes) x.rank 2)
    (hdt : x.md.dtype = .float32 ∨ x.md.dtype = .float64)
    (ops : List (Backend.Op (Tensor ℝ))) (hr : ∀ op ∈ ops, IsRead op) (l : Nat) (hl : (l : Int) ≤ L)
    (hlen : ∀ s, s < l → ∀ n ∈ mLens (sizes (planeAxes axes x.rank) x.shape) s, F ≤ n)
    (keys : List Key) (hk : LevelKeys ['a', 'h', 'v', 'd'] l keys) :
    ∃ v : Key → Tensor ℝ, (∀ key ∈ keys, ((packetMat2 la w orth axes true).run
        ((packetMat2 la w orth axes true).run (Backend.empty MatCache2.empty) before).2
        (.transform x ml :: ops ++ [.read key])).1.getLast? = some (.value (v key))) ∧
      (keys.map fun key => energy (v key)).sum = energy x := by
  classical
  have hread : ∀ key : Key, ∃ v, key ∈ keys → ((packetMat2 la w orth axes true).run
        ((packetMat2 la w orth axes true).run (Backend.empty MatCache2.empty) before).2
        (.transform x ml :: ops ++ [.read key])).1.getLast? = some (.value v) := by
    intro key
    by_cases h : key ∈ keys
    · obtain ⟨h1, h2⟩ := (hk.2 key).mp h
      obtain ⟨v, hv⟩ := c25_2d_boundary_readable hla hw ho hind before hb x hx hpos ml L hL hax hdt ops hr key
        (by omega) (by simpa using h2) (by rw [h1]; exact hlen)
      exact ⟨v, fun _ => hv⟩
    · exact ⟨x, fun h' => absurd h' h⟩
  choose v hv using hread
  refine ⟨v, hv, ?_⟩
  obtain ⟨C, hC, hval⟩ := c25_2d_boundary_value hla hw ho hind before hb x hx hdt hpos ml L hL ops hr
  have hnd : (planeAxes axes x.rank).Nodup := hax.nodup
  have hlt : ∀ a ∈ planeAxes axes x.rank, a < x.shape.length := hax.lt
  have hsl : (sizes (planeAxes axes x.rank) x.shape).length = 2 := sizes_len hax
  set ax := planeAxes axes x.rank with ha
  set ns := sizes ax x.shape with hn
  have hle : ∀ n, n ≤ evenLen n := fun n => by unfold evenLen; omega
  have h2 := hw.two_le
  have hI : ∀ s, s < l → BandIso (matBand .zero fun k => (C k).den) (mLens ns s) := by
    intro s hs
    refine matBand_iso _ fun n hnn => ⟨Or.inl rfl, ?_⟩
    have hF := (hlen s hs n hnn).trans (hle n)
    obtain ⟨A, e, _, _, _, _, hA, _⟩ := c38_orthonormal hla md hw (evenLen_even n) (by omega)
      (hind _ (evenLen_even _) hF) ho
    have := hC _ (evenLen_even n) hF
    rw [e] at this
    injection this with this
    rw [← this]
    exact hA
  have he : ∀ key ∈ keys, energy (v key) = boxSum (setMany x.shape ax (ax.map fun _ => 1)) fun idx =>
      boxSum (mLens ns l) fun i => packetPlane (matBand .zero fun k => (C k).den) halfLens (packetBand true) ns
        (plane x ax idx) key i ^ 2 := by
    intro key hkey
    obtain ⟨h1, _⟩ := (hk.2 key).mp hkey
    rcases hval key _ (hv key hkey) with ⟨rfl, e⟩ | ⟨_, _, _, h⟩
    · obtain rfl : 0 = l := h1
      rw [e, energy_planes hnd hlt, mLens_zero]
      rfl
    · rw [energy_along hnd hlt (by rw [mLens_length]; simp [hn, sizes]) h, h1]
  rw [List.map_congr_left he, ((levelKeys_perm (by decide) hk).map _).sum_eq, energy_planes hnd hlt, ← boxSum_list]
  exact boxSum_congr _ fun idx _ => packetPlane_energy 2 (packetBand_perm true) l ns _ hsl hI

/-- **C55.** The same in two dimensions with `separable=False`, as long as no image on the way is smaller than the
filters along one of the two axes. -/
theorem c55_packets2_nonsep {axes : List Int} {md : Meta} (hla : ExactLinAlg la) (hw : OrthBank w F)
    (ho : orth = "qr" ∨ orth = "gramschmidt")
    (hind : ∀ k, k % 2 = 0 → F ≤ k → BoundaryIndep w F k) (before : List (Backend.Op (Tensor ℝ)))
    (hb : ∀ op ∈ before, OpMd md op) (x : Tensor ℝ) (hx : x.md = md) (hpos : ∀ n ∈ x.shape, 0 < n)
    (ml : Option Int) (L : Int) (hL : PacketLevel2 w axes x ml L) (hax : GoodAxes (.seq axes) x.rank 2)
    (hdt : x.md.dtype = .float32 ∨ x.md.dtype = .float64)
    (ops : List (Backend.Op (Tensor ℝ))) (hr : ∀ op ∈ ops, IsRead op) (l : Nat) (hl : (l : Int) ≤ L)
    (hlen : ∀ s, s < l → ∀ n ∈ mLens (sizes (planeAxes axes x.rank) x.shape) s, F ≤ n)
    (keys : List Key) (hk : LevelKeys ['a', 'h', 'v', 'd'] l keys) :
    ∃ v : Key → Tensor ℝ, (∀ key ∈ keys, ((packetMat2 la w orth axes false).run
        ((packetMat2 la w orth axes false).run (Backend.empty MatCache2.empty) before).2
        (.transform x ml :: ops ++ [.read key])).1.getLast? = some (.value (v key))) ∧
      (keys.map fun key => energy (v key)).sum = energy x := by
  classical
  have hread : ∀ key : Key, ∃ v, key ∈ keys → ((packetMat2 la w orth axes false).run
        ((packetMat2 la w orth axes false).run (Backend.empty MatCache2.empty) before).2
        (.transform x ml :: ops ++ [.read key])).1.getLast? = some (.value v) := by
    intro key
    by_cases h : key ∈ keys
    · obtain ⟨h1, h2⟩ := (hk.2 key).mp h
      obtain ⟨v, hv⟩ := c25_2d_boundary_nonsep_readable hla hw ho hind before hb x hx hpos ml L hL hax hdt ops hr key
        (by omega) (by simpa using h2) (by rw [h1]; exact hlen)
      exact ⟨v, fun _ => hv⟩
    · exact ⟨x, fun h' => absurd h' h⟩
  choose v hv using hread
  refine ⟨v, hv, ?_⟩
  obtain ⟨C, hC, hval⟩ := c25_2d_boundary_nonsep_value hla hw ho hind before hb x hx hdt hpos ml L hL ops hr
  have hnd : (planeAxes axes x.rank).Nodup := hax.nodup
  have hlt : ∀ a ∈ planeAxes axes x.rank, a < x.shape.length := hax.lt
  have hsl : (sizes (planeAxes axes x.rank) x.shape).length = 2 := sizes_len hax
  set ax := planeAxes axes x.rank with ha
  set ns := sizes ax x.shape with hn
  have hle : ∀ n, n ≤ evenLen n := fun n => by unfold evenLen; omega
  have h2 := hw.two_le
  have hI : ∀ s, s < l → BandIso (nonsepBand .zero fun p q => (C p q).den) (mLens ns s) := by
    intro s hs
    refine iso_nonsep (F := F) hsl ?_ (fun _ _ => Or.inl rfl) (hlen s hs)
    intro p q p1 q1 p2 q2 _ _
    obtain ⟨A, _, e, _, _, _, _, _, _, _, _, hA, _⟩ := c50_matrix hla md hw p1 q1 (by omega) (by omega)
      (hind _ p1 p2) (hind _ q1 q2) ho
    have := hC p q p1 q1 p2 q2
    rw [e] at this
    injection this with this
    rw [← this]
    exact hA
  have he : ∀ key ∈ keys, energy (v key) = boxSum (setMany x.shape ax (ax.map fun _ => 1)) fun idx =>
      boxSum (mLens ns l) fun i => packetPlane (nonsepBand .zero fun p q => (C p q).den) halfLens (packetBand false) ns
        (plane x ax idx) key i ^ 2 := by
    intro key hkey
    obtain ⟨h1, _⟩ := (hk.2 key).mp hkey
    rcases hval key _ (hv key hkey) with ⟨rfl, e⟩ | ⟨_, _, _, h⟩
    · obtain rfl : 0 = l := h1
      rw [e, energy_planes hnd hlt, mLens_zero]
      rfl
    · rw [energy_along hnd hlt (by rw [mLens_length]; simp [hn, sizes]) h, h1]
  rw [List.map_congr_left he, ((levelKeys_perm (by decide) hk).map _).sum_eq, energy_planes hnd hlt, ← boxSum_list]
  exact boxSum_congr _ fun idx _ => packetPlane_energy 2 (packetBand_perm false) l ns _ hsl hI

/-! ### The stationary transform -/

/-- **C55.** The stationary transform of an orthogonal filter bank is a tight frame: with `L` levels, `2^L` times the
energy of the input is the energy of the approximation plus the energies of the details, those of level `s`
weighted by `2^(L-s)`: in the returned list `[a_L, d_L, …, d_1]` the weights are `1, 1, 2, 4, …, 2^(L-1)`. -/
theorem c55_swt {R : Type} [Field R] [CharZero R] {w : Wavelet R} {F : Nat} (hw : OrthBank w F) {x : Tensor R}
    (level : Option Int) (axis : AxisHint) (hg : GoodAxes axis x.rank 1)
    (hdt : x.md.dtype = .float32 ∨ x.md.dtype = .float64)
    (hn : 0 < x.shape.getD (axis1 axis x.rank) 0)
    (hwr : WrapOk (x.shape.getD (axis1 axis x.rank) 0) F (swtLevel level (x.shape.getD (axis1 axis x.rank) 0)))
    {L : Nat} (hL : L = swtLevel level (x.shape.getD (axis1 axis x.rank) 0)) :
    ∃ a ds, swt x w level axis = .ok (a :: ds) ∧ ds.length = L ∧
      2 ^ L * energy x = energy a + ((ds.mapIdx fun i d => 2 ^ i * energy d)).sum := by
  have hlen : w.len = F := hw.len.1
  subst hL
  obtain ⟨cs, e, h⟩ := c24_textbook x w level axis hg hdt (by rw [hlen]; exact hw.two_le) (by rw [hlen]; exact hw.even)
    (by rw [hlen]; exact hw.len.2.1) hn (by rw [hlen]; exact hwr)
  have hax : axis1 axis x.rank < x.shape.length := axis1_lt hg
  set a := axis1 axis x.rank with ha
  set n := x.shape.getD a 0 with hnn
  set L := swtLevel level n with hL
  obtain ⟨c0, rest, rfl⟩ : ∃ c0 rest, cs = c0 :: rest := by
    cases cs with
    | nil => have := h.length; simp at this
    | cons a l => exact ⟨a, l, rfl⟩
  have hrl : rest.length = L := by have := h.length; simpa using this
  have hD : NoDistortion w F :=
    ((orth_iff hw.len hw.two_le hw.even hw.recLo hw.recHi).2 ⟨hw.lo_lo, hw.hi_hi, hw.lo_hi⟩).1
  refine ⟨c0, rest, e, hrl, ?_⟩
  have hsum : (rest.mapIdx fun i d => 2 ^ i * energy d).sum = ∑ s ∈ Finset.range L, 2 ^ (L - 1 - s) *
      boxSum (x.shape.set a 1) fun idx => ∑ k ∈ Finset.range n, swtD w n (line x a idx) s k ^ 2 := by
    have hgen : ∀ (l : List (Tensor R)) (g : Nat → R) (f : Nat → Tensor R → R),
        (∀ i t, l[i]? = some t → f i t = g i) → (l.mapIdx f).sum = ∑ i ∈ Finset.range l.length, g i := by
      intro l
      induction l with
      | nil => intro g f _; simp
      | cons t l ih =>
        intro g f hf
        rw [List.mapIdx_cons, List.sum_cons, List.length_cons, Finset.sum_range_succ',
          ih (fun i => g (i + 1)) _ (fun i t ht => hf (i + 1) t (by simpa using ht)), hf 0 t (by simp), add_comm]
    rw [← Finset.sum_range_reflect, ← hrl]
    refine hgen rest _ _ ?_
    intro i t ht
    have hi : i < L := by rw [← hrl]; exact (List.getElem?_eq_some_iff.mp ht).1
    rw [hrl, show L - 1 - (L - 1 - i) = i by omega]
    have := h.detail (L - 1 - i) t (by omega) (by
      rw [show L - (L - 1 - i) = i + 1 by omega, List.getElem?_cons_succ]; exact ht)
    rw [energy_lines hax this]
  rw [hsum, energy_lines hax (h.approx c0 rfl), energy_line hax]
  simp only [← boxSum_mul]
  rw [← boxSum_sum, ← boxSum_add]
  exact boxSum_congr _ fun idx _ => swt_energy_line hw.len hD hw.recLo hw.recHi hw.two_le hw.even hn _ L

/-- **C55.** The key lists which `get_level` returns in both orders list every key of the level exactly once (the
frequency grid of level 0 is empty, `c29_level_zero`). -/
theorem c55_level_keys (l : Nat) :
    (∀ order, order = "natural" ∨ order = "freq" → ∃ keys, getLevel l order = .ok keys ∧ LevelKeys ['a', 'd'] l keys) ∧
    (∃ keys, getLevel2 l "natural" = .ok (.list keys) ∧ LevelKeys ['a', 'h', 'v', 'd'] l keys) ∧
    (1 ≤ l → ∃ g, getLevel2 l "freq" = .ok (.grid g) ∧ LevelKeys ['a', 'h', 'v', 'd'] l g.flatten) := by
  refine ⟨?_, ?_, ?_⟩
  · rintro order (rfl | rfl)
    · obtain ⟨k, e, h1, _, h2, _⟩ := c27_natural_1d l
      exact ⟨k, e, h1, by simpa using h2⟩
    · obtain ⟨k, e, h1, _, h2, _⟩ := c28_freq_is_gray l
      exact ⟨k, e, h1, by simpa using h2⟩
  · obtain ⟨k, e, h1, _, h2, _⟩ := c27_natural_2d l
    exact ⟨k, e, h1, by simpa using h2⟩
  · intro hl
    obtain ⟨g, e, h1, h2⟩ := c29_grid_complete l hl
    exact ⟨g, e, h1, by simpa using h2⟩

/-! ### Concrete cases -/

/-- Two images of sizes 9 and 7 (odd at both levels) along the axes 2 and 0, separable and not. -/
example : ∃ la, ExactLinAlg la ∧ ∀ sep, ∃ dcfg dst c,
    decInitN 2 bank4 (some 2) (.seq [2, -3]) "qr" sep (some "zero") = .ok (dcfg, dst) ∧
    (decCallN 2 la dcfg dst (Tensor.ofFn ⟨.float64, 0⟩ [7, 2, 9] fun i => (i.getD 1 0 : ℝ))).1 = .ok c ∧
    coeffEnergy c = energy (Tensor.ofFn ⟨.float64, 0⟩ [7, 2, 9] fun i => (i.getD 1 0 : ℝ)) := by
  obtain ⟨la, hla⟩ := exists_exactLinAlg
  have hpos : ∀ k ∈ (Tensor.ofFn ⟨.float64, 0⟩ [7, 2, 9] fun i => (i.getD 1 0 : ℝ)).shape, 0 < k := by
    intro k hk
    have : k = 7 ∨ k = 2 ∨ k = 9 := by simpa using hk
    omega
  refine ⟨la, hla, fun sep => ?_⟩
  cases sep with
  | true =>
    exact c55_separable2 hla bank4_orth (m := .zero) exN_axes2 (Or.inr rfl) hpos (Or.inl rfl) (Or.inl rfl)
      (by rintro _ ⟨⟩; norm_num) (fun k a b _ => bank4_indep a b) (Or.inl rfl)
  | false =>
    exact c55_nonseparable hla bank4_orth (m := .zero) exN_axes2 (Or.inr rfl) hpos (Or.inl rfl) (Or.inl rfl)
      (by rintro _ ⟨⟩; norm_num) (fun k a b _ => bank4_indep a b) (L := 2) (by decide) (by omega) (Or.inl rfl)

/-- Two volumes of even sizes in the default mode. -/
example : ∃ la, ExactLinAlg la ∧ ∃ dcfg dst c,
    decInitN 3 bank4 none .none "gramschmidt" true none = .ok (dcfg, dst) ∧
    (decCallN 3 la dcfg dst (Tensor.ofFn ⟨.float32, 0⟩ [2, 8, 6, 10] fun i => (i.getD 1 0 : ℝ))).1 = .ok c ∧
    coeffEnergy c = energy (Tensor.ofFn ⟨.float32, 0⟩ [2, 8, 6, 10] fun i => (i.getD 1 0 : ℝ)) := by
  obtain ⟨la, hla⟩ := exists_exactLinAlg
  exact ⟨la, hla, c55_separable3 hla bank4_orth (m := .reflect) exN_axes3 (Or.inl rfl) (Or.inr ⟨rfl, rfl⟩) (Or.inr rfl)
    (by rintro _ ⟨⟩) (fun _ => by decide) (fun k a b _ => bank4_indep a b) (Or.inr (by
      have : mLevelsN 4 (levelsN none 4 (sizes (axesOf .none 4 3) [2, 8, 6, 10])) (sizes (axesOf .none 4 3) [2, 8, 6, 10])
        = 1 := by decide
      intro s hs n hn
      have hs' : s < 1 := by rw [← this]; exact hs
      obtain rfl : s = 0 := by omega
      have : n = 8 ∨ n = 6 ∨ n = 10 := by
        have h : n ∈ [8, 6, 10] := hn
        simpa using h
      omega))⟩

/-- Three signals of odd length. -/
example : ∃ la, ExactLinAlg la ∧ ∃ dcfg dst cs,
    decInit bank4 none (.int (-1)) "qr" (some "zero") = .ok (dcfg, dst) ∧
    (decCall la dcfg dst (Tensor.ofFn ⟨.float64, 0⟩ [3, 21] fun i => (i.getD 1 0 : ℝ))).1 = .ok cs ∧
    (cs.map energy).sum = energy (Tensor.ofFn ⟨.float64, 0⟩ [3, 21] fun i => (i.getD 1 0 : ℝ)) := by
  obtain ⟨la, hla⟩ := exists_exactLinAlg
  exact ⟨la, hla, c55_1d hla bank4_orth (m := .zero) ⟨le_rfl, rfl, ⟨by
    intro a ha
    have : a = -1 := by simpa [resolve] using ha
    subst this; exact ⟨by decide, by decide⟩, by decide⟩⟩ (Or.inr rfl) (Or.inl rfl) (Or.inl rfl)
    (by rintro _ ⟨⟩) (fun _ => by decide) (fun k a b _ => bank4_indep a b) (Or.inl rfl)⟩

/-- The packets of level 2 of three signals of length 13. -/
example : ∃ la, ExactLinAlg la ∧ ∃ keys, getLevel 2 "freq" = .ok keys ∧ ∃ v : Key → Tensor ℝ,
    (∀ key ∈ keys, ((packetMat1 la bank4 "qr" (-1)).run ((packetMat1 la bank4 "qr" (-1)).run (Backend.empty MatCache1.empty)
        []).2 (.transform (Tensor.ofFn ⟨.float64, 0⟩ [3, 13] fun i => (i.getD 1 0 : ℝ)) (some 2) :: [.read ['d']]
          ++ [.read key])).1.getLast? = some (.value (v key))) ∧
    (keys.map fun key => energy (v key)).sum = energy (Tensor.ofFn ⟨.float64, 0⟩ [3, 13] fun i => (i.getD 1 0 : ℝ)) := by
  obtain ⟨la, hla⟩ := exists_exactLinAlg
  obtain ⟨keys, e, hk⟩ := (c55_level_keys 2).1 "freq" (Or.inr rfl)
  exact ⟨la, hla, keys, e, c55_packets (axis := -1) (md := ⟨.float64, 0⟩) hla bank4_orth (Or.inl rfl)
    (fun k a b => bank4_indep a b) [] (by simp) _ rfl (some 2) 2 (Or.inl rfl) ⟨by decide, by decide⟩ (Or.inr rfl)
    [.read ['d']] (by intro op hop; simp only [List.mem_singleton] at hop; subst hop; trivial) 2 le_rfl (by
      intro s hs
      have : s = 0 ∨ s = 1 := by omega
      rcases this with rfl | rfl <;> decide) keys hk⟩

/-- The packets of level 2 of two images of sizes 8 and 7, separable and not. -/
example : ∃ la, ExactLinAlg la ∧ ∀ sep, ∃ keys, getLevel2 2 "natural" = .ok (.list keys) ∧ ∃ v : Key → Tensor ℝ,
    (∀ key ∈ keys, ((packetMat2 la bank4 "qr" [-2, -1] sep).run ((packetMat2 la bank4 "qr" [-2, -1] sep).run
        (Backend.empty MatCache2.empty) []).2 (.transform exPM (some 2) :: [.read ['d']]
          ++ [.read key])).1.getLast? = some (.value (v key))) ∧
    (keys.map fun key => energy (v key)).sum = energy exPM := by
  obtain ⟨la, hla⟩ := exists_exactLinAlg
  obtain ⟨keys, e, hk⟩ := (c55_level_keys 2).2.1
  have hlen : ∀ s, s < 2 → ∀ n ∈ mLens (sizes (planeAxes [-2, -1] exPM.rank) exPM.shape) s, 4 ≤ n := by
    have hs : sizes (planeAxes [-2, -1] exPM.rank) exPM.shape = [8, 7] := by
      simp [sizes, planeAxes, axesOf, resolve, exPM, axisOf, Tensor.rank, Tensor.ofFn]
    rw [hs]
    intro s hs
    have : s = 0 ∨ s = 1 := by omega
    rcases this with rfl | rfl <;> decide
  have hr : ∀ op ∈ [Backend.Op.read (T := Tensor ℝ) ['d']], IsRead op := by
    intro op hop; simp only [List.mem_singleton] at hop; subst hop; trivial
  refine ⟨la, hla, fun sep => ⟨keys, e, ?_⟩⟩
  cases sep with
  | true =>
    exact c55_packets2 (axes := [-2, -1]) (md := ⟨.float64, 0⟩) hla bank4_orth (Or.inl rfl)
      (fun k a b => bank4_indep a b) [] (by simp) exPM rfl (by simp [exPM, Tensor.ofFn]) (some 2) 2 (Or.inl rfl)
      exPM_good (Or.inr rfl) [.read ['d']] hr 2 le_rfl hlen keys hk
  | false =>
    exact c55_packets2_nonsep (axes := [-2, -1]) (md := ⟨.float64, 0⟩) hla bank4_orth (Or.inl rfl)
      (fun k a b => bank4_indep a b) [] (by simp) exPM rfl (by simp [exPM, Tensor.ofFn]) (some 2) 2 (Or.inl rfl)
      exPM_good (Or.inr rfl) [.read ['d']] hr 2 le_rfl hlen keys hk

/-- Three stationary levels of a signal of length 8. -/
example : ∃ a ds, swt (Tensor.ofFn ⟨.float64, 0⟩ [2, 8] fun i => (i.getD 1 0 : ℝ)) bank4 (some 3) (.int (-1)) = .ok (a :: ds) ∧
    ds.length = 3 ∧ 2 ^ 3 * energy (Tensor.ofFn ⟨.float64, 0⟩ [2, 8] fun i => (i.getD 1 0 : ℝ))
      = energy a + (ds.mapIdx fun i d => 2 ^ i * energy d).sum :=
  c55_swt bank4_orth (some 3) (.int (-1)) ⟨le_rfl, rfl, ⟨by
    intro a ha
    have : a = -1 := by simpa [resolve] using ha
    subst this; exact ⟨by decide, by decide⟩, by decide⟩⟩ (Or.inr rfl) (by decide) (by
      intro s hs
      have hs' : s < 3 := hs
      right
      show 2 ^ s ∣ 8
      have : s = 0 ∨ s = 1 ∨ s = 2 := by omega
      rcases this with rfl | rfl | rfl <;> decide) rfl

end Verif.Props
