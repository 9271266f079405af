import Verif.Spec.Energy
import Verif.Lemmas.Planes
import Verif.Lemmas.Packet2
import Verif.Lemmas.MatNFun
import Verif.Lemmas.Mat1Op
import Verif.Spec.MatNonsep

/-! The energy of coefficients that are computed plane by plane. -/

namespace Verif
open Tensor Spec
variable {R : Type}

theorem boxSum_list [AddCommMonoid R] {α : Type} (s : List Nat) (l : List α) (g : α → List Nat → R) :
    boxSum s (fun i => (l.map fun a => g a i).sum) = (l.map fun a => boxSum s (g a)).sum := by
  induction l with
  | nil => simp [boxSum_zero]
  | cons a l ih => simp only [List.map_cons, List.sum_cons]; rw [boxSum_add, ih]

/-- Summing along one axis first. -/
theorem boxSum_axis [AddCommMonoid R] : ∀ (s : List Nat) (a : Nat) (g : List Nat → R), a < s.length →
    boxSum s g = boxSum (s.set a 1) fun idx => ∑ k ∈ Finset.range (s.getD a 0), g (idx.set a k)
  | n :: ns, 0, g, _ => by
    show (∑ k ∈ Finset.range n, boxSum ns fun i => g (k :: i))
      = ∑ j ∈ Finset.range 1, boxSum ns fun i => ∑ k ∈ Finset.range n, g ((j :: i).set 0 k)
    rw [Finset.sum_range_one, boxSum_sum]
    rfl
  | n :: ns, a + 1, g, h => by
    show (∑ j ∈ Finset.range n, boxSum ns fun i => g (j :: i)) = ∑ j ∈ Finset.range n, boxSum (ns.set a 1) fun i =>
      ∑ k ∈ Finset.range (ns.getD a 0), g (j :: i.set a k)
    exact Finset.sum_congr rfl fun j _ => boxSum_axis ns a _ (by simpa using h)

theorem setMany_set_comm : ∀ (l ax ks : List Nat) (a k : Nat), a ∉ ax →
    (setMany l ax ks).set a k = setMany (l.set a k) ax ks
  | _, [], [], _, _, _ => rfl
  | _, [], _ :: _, _, _, _ => rfl
  | _, _ :: _, [], _, _, _ => rfl
  | l, b :: ax, q :: ks, a, k, h => by
    rw [List.mem_cons, not_or] at h
    show (setMany (l.set b q) ax ks).set a k = setMany ((l.set a k).set b q) ax ks
    rw [setMany_set_comm _ ax ks a k h.2, List.set_comm _ _ h.1]

theorem sizes_set_not_mem {ax s : List Nat} {a k : Nat} (h : a ∉ ax) : sizes ax (s.set a k) = sizes ax s := by
  unfold sizes
  refine List.map_congr_left fun b hb => getD_set_ne ?_
  rintro rfl
  exact h hb

/-- Summing along the axes `ax` first. -/
theorem boxSum_axes [AddCommMonoid R] : ∀ (ax s : List Nat) (g : List Nat → R), ax.Nodup → (∀ a ∈ ax, a < s.length) →
    boxSum s g = boxSum (setMany s ax (ax.map fun _ => 1)) fun idx =>
      boxSum (sizes ax s) fun ks => g (setMany idx ax ks)
  | [], s, g, _, _ => rfl
  | a :: ax, s, g, hn, hlt => by
    rw [List.nodup_cons] at hn
    rw [boxSum_axis s a g (hlt a (by simp)),
      boxSum_axes ax (s.set a 1) _ hn.2 (by intro b hb; rw [List.length_set]; exact hlt b (by simp [hb]))]
    show boxSum (setMany (s.set a 1) ax (ax.map fun _ => 1)) _ = boxSum (setMany (s.set a 1) ax (ax.map fun _ => 1)) _
    refine boxSum_congr _ fun idx _ => ?_
    rw [sizes_set_not_mem hn.1]
    show _ = ∑ k ∈ Finset.range (s.getD a 0), boxSum (sizes ax s) fun ks => g (setMany (idx.set a k) ax ks)
    rw [← boxSum_sum]
    refine boxSum_congr _ fun ks _ => Finset.sum_congr rfl fun k _ => ?_
    rw [setMany_set_comm _ _ _ _ _ hn.1]

theorem setMany_ones_eq {ax s Ks : List Nat} (hn : ax.Nodup) (hlt : ∀ a ∈ ax, a < s.length) :
    setMany (setMany s ax Ks) ax (ax.map fun _ => 1) = setMany s ax (ax.map fun _ => 1) :=
  setMany_setMany hn hlt (by simp)

/-- The energy of a tensor that is computed plane by plane. -/
theorem energy_along [CommRing R] {ax Ks : List Nat} {f : (List Nat → R) → List Nat → R} {x t : Tensor R}
    (hn : ax.Nodup) (hlt : ∀ a ∈ ax, a < x.shape.length) (hK : Ks.length = ax.length) (h : AlongAxes ax Ks f x t) :
    energy t = boxSum (setMany x.shape ax (ax.map fun _ => 1)) fun idx =>
      boxSum Ks fun ks => f (plane x ax idx) ks ^ 2 := by
  have hl : ∀ a ∈ ax, a < t.shape.length := by rw [h.shape, setMany_length]; exact hlt
  unfold energy
  rw [boxSum_axes ax _ _ hn hl, h.shape, setMany_ones_eq hn hlt]
  have hsz : sizes ax (setMany x.shape ax Ks) = Ks := pick_setMany_self _ _ _ hn hlt hK
  rw [hsz]
  refine boxSum_congr _ fun idx hidx => boxSum_congr _ fun ks hks => ?_
  have hkl : ks.length = ax.length := by rw [hks.length_eq, hK]
  have hil : idx.length = x.shape.length := by rw [hidx.length_eq, setMany_length]
  have hin : InB t.shape (setMany idx ax ks) := by
    rw [h.shape]
    refine inB_setMany (Ks := ax.map fun _ => 1) hn (by rw [setMany_length]; exact hlt) (by simp) ?_ (by rw [hsz]; exact hks)
    rw [setMany_ones_eq hn hlt]
    exact hidx
  have hp : plane x ax (setMany idx ax ks) = plane x ax idx := by
    funext js
    unfold plane
    split_ifs with hj
    · rw [setMany_setMany hn (by rw [hil]; exact hlt) hj]
    · rfl
  rw [h.get _ hin, hp, show sizes ax (setMany idx ax ks) = ks from pick_setMany_self _ _ _ hn (by rw [hil]; exact hlt) hkl]

/-- The energy of the input, plane by plane. -/
theorem energy_planes [CommRing R] {ax : List Nat} {x : Tensor R} (hn : ax.Nodup) (hlt : ∀ a ∈ ax, a < x.shape.length) :
    energy x = boxSum (setMany x.shape ax (ax.map fun _ => 1)) fun idx =>
      boxSum (sizes ax x.shape) fun ks => plane x ax idx ks ^ 2 := by
  refine energy_along (f := fun X => X) hn hlt (by simp [sizes]) ⟨rfl, (setMany_pick_self _ _ hlt).symm, ?_⟩
  intro idx hidx
  unfold plane
  rw [if_pos (by simp [sizes])]
  rw [show setMany idx ax (sizes ax idx) = idx from setMany_pick_self _ _ (by rw [hidx.length_eq]; exact hlt)]

/-! ### One step -/

/-- All bands for `n` axes. -/
def allBands : Nat → List (List Bool)
  | 0 => [[]]
  | n + 1 => (allBands n).map (false :: ·) ++ (allBands n).map (true :: ·)

/-- The bands of one step together have the energy of the signal. -/
def BandIso [CommRing R] (band : BandStep R) (ns : List Nat) : Prop :=
  ∀ X : List Nat → R, ((allBands ns.length).map fun bs => boxSum (halfLens ns) fun k => band bs ns X k ^ 2).sum
    = boxSum ns fun k => X k ^ 2

theorem sum_evenLen [CommRing R] {m : Mode} {n : Nat} (h : m = .zero ∨ n % 2 = 0) (v : Nat → R) :
    (∑ j ∈ Finset.range (evenLen n), evenExt m n v j ^ 2) = ∑ j ∈ Finset.range n, v j ^ 2 := by
  have hin : ∀ j, j < n → evenExt m n v j = v j := fun j hj => by
    unfold evenExt
    exact ext_inside m v hj
  rcases Nat.mod_two_eq_zero_or_one n with h0 | h1
  · rw [evenLen_of_even h0]
    exact Finset.sum_congr rfl fun j hj => by rw [hin j (Finset.mem_range.mp hj)]
  · have hm : m = .zero := by rcases h with h | h; · exact h
                              · omega
    subst hm
    rw [show evenLen n = n + 1 by unfold evenLen; omega, Finset.sum_range_succ]
    have h0 : evenExt .zero n v n = 0 := by
      unfold evenExt ext extIdx
      simp
    rw [h0, Finset.sum_congr rfl fun j hj => by rw [hin j (Finset.mem_range.mp hj)]]
    ring

theorem step_energy [CommRing R] {m : Mode} {A : Nat → Nat → Nat → R} {n : Nat} (h : m = .zero ∨ n % 2 = 0)
    (hA : OrthonormalCols (evenLen n) (A (evenLen n))) (v : Nat → R) :
    (∑ k ∈ Finset.range (evenLen n / 2), stepLo m A n v k ^ 2) + (∑ k ∈ Finset.range (evenLen n / 2), stepHi m A n v k ^ 2)
      = ∑ j ∈ Finset.range n, v j ^ 2 := by
  rw [← sum_evenLen h v, ← energy_step hA (evenExt m n v)]
  have he := evenLen_even n
  have : evenLen n = evenLen n / 2 + evenLen n / 2 := by omega
  conv_rhs => rw [show Finset.range (evenLen n) = Finset.range (evenLen n / 2 + evenLen n / 2) from by rw [← this]]
  rw [Finset.sum_range_add]
  unfold stepLo stepHi rowTimes
  rw [← this]

theorem matBand_iso [CommRing R] {m : Mode} {A : Nat → Nat → Nat → R} : ∀ (ns : List Nat),
    (∀ n ∈ ns, (m = .zero ∨ n % 2 = 0) ∧ OrthonormalCols (evenLen n) (A (evenLen n))) → BandIso (matBand m A) ns
  | [], _ => by
    intro X
    simp [allBands, halfLens, boxSum, matBand]
  | n :: ns, h => by
    intro X
    have ih := matBand_iso (m := m) (A := A) ns (fun k hk => h k (by simp [hk]))
    obtain ⟨h1, h2⟩ := h n (by simp)
    have hstep : ∀ (bs : List Bool) (i : List Nat),
        (∑ k ∈ Finset.range (evenLen n / 2), matBand m A (false :: bs) (n :: ns) X (k :: i) ^ 2) +
        (∑ k ∈ Finset.range (evenLen n / 2), matBand m A (true :: bs) (n :: ns) X (k :: i) ^ 2)
        = ∑ j ∈ Finset.range n, matBand m A bs ns (fun js => X (j :: js)) i ^ 2 := fun bs i =>
      step_energy h1 h2 (fun j => matBand m A bs ns (fun js => X (j :: js)) i)
    show (((allBands ns.length).map (false :: ·) ++ (allBands ns.length).map (true :: ·)).map fun bs =>
      ∑ k ∈ Finset.range (evenLen n / 2), boxSum (halfLens ns) fun i => matBand m A bs (n :: ns) X (k :: i) ^ 2).sum
      = ∑ j ∈ Finset.range n, boxSum ns fun i => X (j :: i) ^ 2
    rw [List.map_append, List.sum_append, List.map_map, List.map_map, ← List.sum_map_add]
    have : ∀ bs ∈ allBands ns.length,
        (∑ k ∈ Finset.range (evenLen n / 2), boxSum (halfLens ns) fun i => matBand m A (false :: bs) (n :: ns) X (k :: i) ^ 2) +
        (∑ k ∈ Finset.range (evenLen n / 2), boxSum (halfLens ns) fun i => matBand m A (true :: bs) (n :: ns) X (k :: i) ^ 2)
        = boxSum (halfLens ns) fun i => ∑ j ∈ Finset.range n, matBand m A bs ns (fun js => X (j :: js)) i ^ 2 := by
      intro bs _
      rw [← boxSum_sum, ← boxSum_sum, ← boxSum_add]
      exact boxSum_congr _ fun i _ => hstep bs i
    simp only [Function.comp_def]
    rw [List.map_congr_left (g := fun bs => boxSum (halfLens ns) fun i =>
      ∑ j ∈ Finset.range n, matBand m A bs ns (fun js => X (j :: js)) i ^ 2) this]
    have hsw : ∀ bs, (boxSum (halfLens ns) fun i => ∑ j ∈ Finset.range n, matBand m A bs ns (fun js => X (j :: js)) i ^ 2)
        = ∑ j ∈ Finset.range n, boxSum (halfLens ns) fun i => matBand m A bs ns (fun js => X (j :: js)) i ^ 2 :=
      fun bs => boxSum_sum _ _ _
    simp only [hsw]
    have : ∀ (l : List (List Bool)) (g : Nat → List Bool → R),
        (l.map fun bs => ∑ j ∈ Finset.range n, g j bs).sum = ∑ j ∈ Finset.range n, (l.map (g j)).sum := by
      intro l g
      induction l with
      | nil => simp
      | cons a l ih => simp only [List.map_cons, List.sum_cons, ih, Finset.sum_add_distrib]
    rw [this]
    exact Finset.sum_congr rfl fun j _ => ih fun js => X (j :: js)


/-! ### All levels -/

/-- The detail bands for `n` axes. -/
def detBands (n : Nat) : List (List Bool) := (allBands n).tail

theorem allBands_eq : ∀ n, allBands n = lowBand n :: detBands n
  | 0 => rfl
  | n + 1 => by
    unfold detBands
    show _ = (List.replicate (n + 1) false) :: _
    rw [allBands, allBands_eq n]
    rfl

theorem bands_energy [CommRing R] {band : BandStep R} : ∀ (L : Nat) (ns : List Nat) (X : List Nat → R),
    (∀ s, s < L → BandIso band (mLens ns s)) →
    (boxSum ns fun k => X k ^ 2) = (boxSum (mLens ns L) fun k => bandA band ns X L k ^ 2) +
      ∑ s ∈ Finset.range L, ((detBands ns.length).map fun bs =>
        boxSum (mLens ns (s + 1)) fun k => bandD band ns X s bs k ^ 2).sum
  | 0, ns, X, _ => by
    rw [mLens_zero, Finset.sum_range_zero, add_zero]
    rfl
  | L + 1, ns, X, h => by
    have h0 := h 0 (by omega)
    rw [mLens_zero] at h0
    have ih := bands_energy (band := band) L (halfLens ns) (band (lowBand ns.length) ns X)
      (fun s hs => by rw [← mLens_succ]; exact h (s + 1) (by omega))
    rw [halfLens_length] at ih
    have e := h0 X
    rw [allBands_eq, List.map_cons, List.sum_cons, ih] at e
    rw [← e, Finset.sum_range_succ', mLens_succ]
    simp only [mLens_succ _ (_ + 1)]
    rw [show mLens ns (0 + 1) = halfLens ns by rw [mLens_succ, mLens_zero]]
    show _ + _ + _ = _ + (_ + _)
    rw [add_assoc]
    rfl

/-- The form of the entries determines their energy. -/
def EntrySums [CommRing R] (D : (List Bool → Tensor R → Prop) → Entry R → Prop) (n : Nat) : Prop :=
  ∀ (P : List Bool → Tensor R → Prop) (e : Entry R) (g : List Bool → R), D P e →
    (∀ bs t, P bs t → energy t = g bs) → entryEnergy e = ((detBands n).map g).sum

theorem isTuple_sums [CommRing R] : EntrySums (R := R) IsTuple 2 := by
  rintro P e g ⟨h, v, d, rfl, h1, h2, h3⟩ hg
  simp only [entryEnergy, entryTensors, detBands, allBands, List.map_cons, List.map_nil, List.sum_cons, List.sum_nil,
    List.cons_append, List.nil_append, List.tail_cons, hg _ _ h1, hg _ _ h2, hg _ _ h3]
  ring

theorem isTupleSwapped_sums [CommRing R] : EntrySums (R := R) IsTupleSwapped 2 := by
  rintro P e g ⟨h, v, d, rfl, h1, h2, h3⟩ hg
  simp only [entryEnergy, entryTensors, detBands, allBands, List.map_cons, List.map_nil, List.sum_cons, List.sum_nil,
    List.cons_append, List.nil_append, List.tail_cons, hg _ _ h1, hg _ _ h2, hg _ _ h3]

theorem isDict_sums [CommRing R] {keys : List String} (hk : (keys.map bandOfKey).Perm (detBands 3)) :
    EntrySums (R := R) (IsDict keys) 3 := by
  rintro P e g ⟨kv, rfl, h1, h2⟩ hg
  have e1 : kv.map (fun q => energy q.2) = kv.map fun q => g (bandOfKey q.1) :=
    List.map_congr_left fun q hq => hg _ _ (h2 q hq)
  have e2 : (keys.map bandOfKey).map g = kv.map fun q => g (bandOfKey q.1) := by
    rw [← h1, List.map_map, List.map_map]; rfl
  unfold entryEnergy
  show ((kv.map Prod.snd).map energy).sum = _
  rw [List.map_map, Function.comp_def, e1, ← e2]
  exact (hk.map g).sum_eq

theorem keysM3_perm : (keysM3.map bandOfKey).Perm (detBands 3) := by decide +kernel

/-- The energy of the coefficients is the energy of the input. -/
theorem coeff_energy [CommRing R] {D : (List Bool → Tensor R → Prop) → Entry R → Prop} {band : BandStep R}
    {ax : List Nat} {L : Nat} {x : Tensor R} {c : Coeffs R} (hD : EntrySums D ax.length) (hn : ax.Nodup)
    (hlt : ∀ a ∈ ax, a < x.shape.length) (h : IsBandDwtN D band ax L x c)
    (hb : ∀ s, s < L → BandIso band (mLens (sizes ax x.shape) s)) : coeffEnergy c = energy x := by
  obtain ⟨t, ht, hta⟩ := h.approx
  have hl := h.length
  obtain ⟨il, items⟩ := c
  match items, ht, hl with
  | e0 :: rest, ht, hl =>
  obtain rfl : e0 = .tensor t := by simpa using ht
  have hrl : rest.length = L := by simpa using hl
  have hsl : (sizes ax x.shape).length = ax.length := by simp [sizes]
  set B : Nat → List Bool → R := fun s bs => boxSum (setMany x.shape ax (ax.map fun _ => 1)) fun idx =>
    boxSum (mLens (sizes ax x.shape) (s + 1)) fun ks => bandD band (sizes ax x.shape) (plane x ax idx) s bs ks ^ 2 with hB
  have hrest : (rest.map entryEnergy).sum = ∑ s ∈ Finset.range L, ((detBands ax.length).map (B s)).sum := by
    rw [← Finset.sum_range_reflect, ← hrl]
    refine sum_map_range rest _ _ ?_
    intro i e he
    have hi : i < L := by rw [← hrl]; exact (List.getElem?_eq_some_iff.mp he).1
    obtain ⟨e', he', hde⟩ := h.detail (L - 1 - i) (by omega)
    rw [show L - (L - 1 - i) = i + 1 by omega, List.getElem?_cons_succ, he] at he'
    obtain rfl : e = e' := by simpa using he'
    rw [hrl]
    exact hD _ e _ hde fun bs t ht => energy_along hn hlt (by rw [mLens_length, hsl]) ht
  show (entryEnergy (.tensor t) :: rest.map entryEnergy).sum = _
  rw [List.sum_cons, hrest]
  have e0 : entryEnergy (.tensor t) = energy t := by simp [entryEnergy, entryTensors]
  rw [e0, energy_along hn hlt (by rw [mLens_length, hsl]) hta, energy_planes hn hlt]
  have hpl : ∀ idx, _ := fun idx => bands_energy (band := band) L (sizes ax x.shape) (plane x ax idx) hb
  rw [boxSum_congr _ fun idx _ => hpl idx, boxSum_add, boxSum_sum]
  congr 1
  refine Finset.sum_congr rfl fun s _ => ?_
  rw [hsl, boxSum_list]

/-! ### The non-separable step -/

theorem sum_range_mul [AddCommMonoid R] (Q P : Nat) (G : Nat → R) :
    (∑ i ∈ Finset.range (P * Q), G i) = ∑ s ∈ Finset.range Q, ∑ r ∈ Finset.range P, G (s * P + r) := by
  induction Q with
  | zero => simp
  | succ Q ih =>
    rw [Nat.mul_succ, Finset.sum_range_add, ih, Finset.sum_range_succ]
    simp only [Nat.mul_comm P Q]

theorem nonsepBand_iso [CommRing R] {m : Mode} {A : Nat → Nat → Nat → Nat → R} {h w : Nat}
    (hh : m = .zero ∨ h % 2 = 0) (hw : m = .zero ∨ w % 2 = 0)
    (hA : OrthonormalCols (evenLen h * evenLen w) (A (evenLen h) (evenLen w))) : BandIso (nonsepBand m A) [h, w] := by
  intro X
  set v : Nat → R := fun j => extN m [h, w] X [((j % evenLen h : ℕ) : ℤ), ((j / evenLen h : ℕ) : ℤ)] with hv
  set G : Nat → R := fun k => (∑ j ∈ Finset.range (evenLen h * evenLen w), A (evenLen h) (evenLen w) k j * v j) ^ 2 with hG
  set P := evenLen h / 2 with hP
  set Q := evenLen w / 2 with hQ
  have eh := evenLen_even h
  have ew := evenLen_even w
  have hband : ∀ bs, (boxSum (halfLens [h, w]) fun k => nonsepBand m A bs [h, w] X k ^ 2)
      = ∑ i ∈ Finset.range (P * Q), G (bandNo bs * (P * Q) + i) := by
    intro bs
    rw [sum_range_mul, Finset.sum_comm]
    show (∑ r ∈ Finset.range P, ∑ s ∈ Finset.range Q, nonsepBand m A bs [h, w] X [r, s] ^ 2) = _
    refine Finset.sum_congr rfl fun r _ => Finset.sum_congr rfl fun s _ => ?_
    rw [← Nat.add_assoc]
    rfl
  have htot : evenLen h * evenLen w = P * Q + P * Q + (P * Q + P * Q) := by
    have h1 : evenLen h = 2 * P := by omega
    have h2 : evenLen w = 2 * Q := by omega
    rw [h1, h2]; ring
  have hsum : ((allBands 2).map fun bs => boxSum (halfLens [h, w]) fun k => nonsepBand m A bs [h, w] X k ^ 2).sum
      = ∑ k ∈ Finset.range (evenLen h * evenLen w), G k := by
    simp only [hband, allBands, List.map_cons, List.map_nil, List.cons_append, List.nil_append, List.sum_cons, List.sum_nil]
    conv_rhs => rw [htot, Finset.sum_range_add, Finset.sum_range_add, Finset.sum_range_add]
    have e0 : ∀ i, G (bandNo [false, false] * (P * Q) + i) = G i := fun i => by simp [bandNo]
    have e1 : ∀ i, G (bandNo [true, false] * (P * Q) + i) = G (P * Q + i) := fun i => by simp [bandNo]
    have e2 : ∀ i, G (bandNo [false, true] * (P * Q) + i) = G (P * Q + P * Q + i) := fun i => by simp [bandNo, two_mul]
    have e3 : ∀ i, G (bandNo [true, true] * (P * Q) + i) = G (P * Q + P * Q + (P * Q + i)) := fun i => by
      congr 1
      simp [bandNo]; ring
    simp only [e0, e1, e2, e3]
    ring
  show ((allBands 2).map fun bs => boxSum (halfLens [h, w]) fun k => nonsepBand m A bs [h, w] X k ^ 2).sum = _
  rw [hsum, hG, energy_step hA v]
  rcases Nat.eq_zero_or_pos (evenLen h) with h0 | hpos
  · have : h = 0 := by unfold evenLen at h0; omega
    subst this
    rw [h0]
    simp [boxSum]
  rw [sum_range_mul]
  have hflat : ∀ J c, c < evenLen h → v (J * evenLen h + c)
      = evenExt m h (fun a => evenExt m w (fun b => X [a, b]) J) c := by
    intro J c hc
    rw [hv]
    simp only
    rw [Nat.add_comm, Nat.add_mul_mod_self_right, Nat.mod_eq_of_lt hc, Nat.add_mul_div_right _ _ hpos,
      Nat.div_eq_of_lt hc, Nat.zero_add]
    rfl
  have : ∀ J ∈ Finset.range (evenLen w), (∑ c ∈ Finset.range (evenLen h), v (J * evenLen h + c) ^ 2)
      = ∑ a ∈ Finset.range h, evenExt m w (fun b => X [a, b]) J ^ 2 := by
    intro J _
    rw [← sum_evenLen hh]
    exact Finset.sum_congr rfl fun c hc => by rw [hflat J c (Finset.mem_range.mp hc)]
  rw [Finset.sum_congr rfl this, Finset.sum_comm]
  show _ = ∑ a ∈ Finset.range h, ∑ b ∈ Finset.range w, X [a, b] ^ 2
  exact Finset.sum_congr rfl fun a _ => sum_evenLen hw fun b => X [a, b]

/-! ### One axis -/

theorem alongAxes_of_axis [Zero R] {a K : Nat} {f : (Nat → R) → Nat → R} {x t : Tensor R} (h : AlongAxis a K f x t) :
    AlongAxes [a] [K] (fun X ks => f (fun j => X [j]) (ks.headD 0)) x t := by
  refine ⟨h.md, h.shape, fun idx hidx => ?_⟩
  rw [h.get idx hidx]
  rfl

/-- The energy of a tensor computed line by line. -/
theorem energy_lines [CommRing R] {a K : Nat} {f : (Nat → R) → Nat → R} {x t : Tensor R} (ha : a < x.shape.length)
    (h : AlongAxis a K f x t) :
    energy t = boxSum (x.shape.set a 1) fun idx => ∑ k ∈ Finset.range K, f (line x a idx) k ^ 2 := by
  rw [energy_along (ax := [a]) (Ks := [K]) (by simp) (by simpa using ha) rfl (alongAxes_of_axis h)]
  rfl

theorem energy_line [CommRing R] {a : Nat} {x : Tensor R} (ha : a < x.shape.length) :
    energy x = boxSum (x.shape.set a 1) fun idx => ∑ k ∈ Finset.range (x.shape.getD a 0), line x a idx k ^ 2 := by
  rw [energy_planes (ax := [a]) (by simp) (by simpa using ha)]
  rfl

end Verif
