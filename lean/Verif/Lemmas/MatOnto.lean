/-
The boundary-wavelet transform is onto: every set of coefficients of dyadic sizes is the transform of some signal.
-/
import Verif.Lemmas.PacketMat2Fun
import Verif.Lemmas.PacketMat2Nonsep
import Verif.Lemmas.Adjoint
import Verif.Lemmas.Cascade
import Verif.Lemmas.EnergyPacket
import Verif.Spec.MatOnto

namespace Verif
open Tensor Spec
variable {R : Type}

/-! ### One step -/

/-- The band a position of the product belongs to. -/
def bandsOf : List Nat → List Nat → List Bool
  | n :: ns, p :: ps => decide (n / 2 ≤ p) :: bandsOf ns ps
  | _, _ => []

/-- The position inside of the band. -/
def offsOf : List Nat → List Nat → List Nat
  | n :: ns, p :: ps => (if n / 2 ≤ p then p - n / 2 else p) :: offsOf ns ps
  | _, _ => []

theorem bandsOf_bandPos : ∀ (bs : List Bool) (ns ks : List Nat), (∀ n ∈ ns, n % 2 = 0) → bs.length = ns.length →
    InB (halfLens ns) ks → bandsOf ns (bandPos bs ns ks) = bs ∧ offsOf ns (bandPos bs ns ks) = ks ∧
      InB ns (bandPos bs ns ks)
  | [], [], [], _, _, _ => ⟨rfl, rfl, trivial⟩
  | b :: bs, n :: ns, k :: ks, he, hl, hk => by
    obtain ⟨h1, h2, h3⟩ := bandsOf_bandPos bs ns ks (fun q hq => he q (by simp [hq])) (by simpa using hl) hk.2
    have hn : evenLen n = n := evenLen_of_even (he n (by simp))
    have hk1 : k < n / 2 := by
      have := hk.1
      change k < evenLen n / 2 at this
      rwa [hn] at this
    have hn2 := he n (by simp)
    cases b
    · simp only [bandPos, bandsOf, offsOf, Bool.false_eq_true, if_false, h1, h2, if_neg (Nat.not_le.mpr hk1),
        decide_eq_false (Nat.not_le.mpr hk1)]
      exact ⟨trivial, trivial, by omega, h3⟩
    · simp only [bandPos, bandsOf, offsOf, if_true, h1, h2, hn]
      refine ⟨by simp, by simp, by omega, h3⟩
  | [], _ :: _, _, _, h, _ => by simp at h
  | _ :: _, [], _, _, h, _ => by simp at h
  | [], [], _ :: _, _, _, h => by exact absurd h (by simp [halfLens, InB])
  | _ :: _, _ :: _, [], _, _, h => by exact absurd h (by simp [halfLens, InB])

/-- Every family of bands is the result of one step. -/
def BandOnto (band : BandStep R) (ns : List Nat) : Prop :=
  ∀ c : List Bool → List Nat → R, ∃ X, ∀ bs ks, bs.length = ns.length → InB (halfLens ns) ks → band bs ns X ks = c bs ks

/-- A step reads the signal inside of its sizes only. -/
def BandLocal (band : BandStep R) (ns : List Nat) : Prop :=
  ∀ bs X Y, bs.length = ns.length → (∀ js, InB ns js → X js = Y js) →
    ∀ ks, InB (halfLens ns) ks → band bs ns X ks = band bs ns Y ks

theorem anaN_synN [CommRing R] {A : Nat → Nat → Nat → R} (ns : List Nat) (Y : List Nat → R) (ks : List Nat)
    (hA : ∀ n ∈ ns, OrthonormalRows (evenLen n) (A (evenLen n))) (hk : InB (ns.map evenLen) ks) :
    mulN (anaMats A ns) (mulN (synMats A ns) Y) ks = Y ks :=
  synN_anaN (A := fun n i j => A n j i) ns Y ks (fun n hn => hA n hn) hk

theorem matBand_onto [CommRing R] {m : Mode} {A : Nat → Nat → Nat → R} {ns : List Nat} (he : ∀ n ∈ ns, n % 2 = 0)
    (hA : ∀ n ∈ ns, OrthonormalRows n (A n)) : BandOnto (matBand m A) ns := by
  intro c
  have hev : ns.map evenLen = ns := by
    conv_rhs => rw [← List.map_id ns]
    exact List.map_congr_left fun n hn => evenLen_of_even (he n hn)
  refine ⟨mulN (synMats A ns) fun p => c (bandsOf ns p) (offsOf ns p), fun bs ks hb hk => ?_⟩
  have hkl : ks.length = ns.length := by rw [hk.length_eq]; simp [halfLens]
  obtain ⟨h1, h2, h3⟩ := bandsOf_bandPos bs ns ks he hb hk
  rw [matBand_eq _ _ _ _ _ _ hb hkl]
  rw [mulN_congr (anaMats A ns) (Y := mulN (synMats A ns) fun p => c (bandsOf ns p) (offsOf ns p)) _
    (by rw [h3.length_eq]; simp [anaMats])]
  · rw [anaN_synN ns _ _ (fun n hn => by rw [evenLen_of_even (he n hn)]; exact hA n hn) (by rw [hev]; exact h3), h1, h2]
  · intro js hjs
    refine evenExtN_inside m _ ?_
    have : (anaMats A ns).map Prod.snd = ns := by
      rw [anaMats, List.map_map]
      exact hev
    rwa [this] at hjs

theorem matBand_local [NonUnitalNonAssocSemiring R] {m : Mode} {A : Nat → Nat → Nat → R} {ns : List Nat}
    (hp : ∀ n ∈ ns, 0 < n) : BandLocal (matBand m A) ns := fun bs X Y hb h ks hk =>
  matBand_congr hb (by rw [hk.length_eq]; simp [halfLens]) hp h

theorem nonsepBand_local [NonUnitalNonAssocSemiring R] {m : Mode} {A : Nat → Nat → Nat → Nat → R} {ns : List Nat}
    (hl : ns.length = 2) (hp : ∀ n ∈ ns, 0 < n) : BandLocal (nonsepBand m A) ns := fun bs X Y _ h ks hk =>
  nonsepBand_congr hl (by rw [hk.length_eq]; simp [halfLens, hl]) hp h

theorem nonsepBand_onto [CommRing R] {m : Mode} {A : Nat → Nat → Nat → Nat → R} {ns : List Nat} (hl : ns.length = 2)
    (he : ∀ n ∈ ns, n % 2 = 0) (hA : ∀ p ∈ ns, ∀ q ∈ ns, OrthonormalRows (p * q) (A p q)) :
    BandOnto (nonsepBand m A) ns := by
  intro c
  match ns, hl with
  | [h, w], _ =>
  have eh : evenLen h = h := evenLen_of_even (he h (by simp))
  have ew : evenLen w = w := evenLen_of_even (he w (by simp))
  have h2 := he h (by simp)
  have w2 := he w (by simp)
  set a := h / 2 with ha
  set b := w / 2 with hb
  refine ⟨fun idx => ∑ k ∈ Finset.range (h * w), A h w k (idx.getD 1 0 * h + idx.getD 0 0) *
    c [decide (k / (a * b) % 2 = 1), decide (k / (a * b) / 2 = 1)] [k % (a * b) % a, k % (a * b) / a], fun bs ks hbs hk => ?_⟩
  match ks, hk with
  | [r, s], hk =>
  obtain ⟨hr, hs, -⟩ := hk
  change r < evenLen h / 2 at hr
  change s < evenLen w / 2 at hs
  rw [eh] at hr
  rw [ew] at hs
  have hap : 0 < a := by omega
  have hbp : 0 < b := by omega
  match bs, hbs with
  | [p, q], _ =>
  have hpq : bandNo [p, q] < 4 ∧ decide (bandNo [p, q] % 2 = 1) = p ∧ decide (bandNo [p, q] / 2 = 1) = q := by
    cases p <;> cases q <;> decide
  set k := bandNo [p, q] * (a * b) + s * a + r with hkdef
  have hsr : s * a + r < a * b := by
    calc s * a + r < s * a + a := by omega
      _ = (s + 1) * a := by ring
      _ ≤ b * a := Nat.mul_le_mul_right _ (by omega)
      _ = a * b := by ring
  have hkN : k < h * w := by
    have e : h * w = 4 * (a * b) := by
      have e1 : h = 2 * a := by omega
      have e2 : w = 2 * b := by omega
      rw [e1, e2]; ring
    rw [e]
    calc k < bandNo [p, q] * (a * b) + a * b := by omega
      _ = (bandNo [p, q] + 1) * (a * b) := by ring
      _ ≤ 4 * (a * b) := Nat.mul_le_mul_right _ (by omega)
  have hd : k / (a * b) = bandNo [p, q] := by
    rw [hkdef, Nat.add_assoc, Nat.mul_comm (bandNo [p, q]), Nat.mul_add_div (by positivity), Nat.div_eq_of_lt hsr, Nat.add_zero]
  have hm' : k % (a * b) = s * a + r := by
    rw [hkdef, Nat.add_assoc, Nat.mul_comm (bandNo [p, q]), Nat.mul_add_mod, Nat.mod_eq_of_lt hsr]
  unfold nonsepBand
  simp only [eh, ew]
  have hsum := synth_analysis (N := h * w) (M := fun i j => A h w j i) (hA h (by simp) w (by simp))
    (fun k => c [decide (k / (a * b) % 2 = 1), decide (k / (a * b) / 2 = 1)] [k % (a * b) % a, k % (a * b) / a]) hkN
  simp only [hd, hm', hpq.2.1, hpq.2.2] at hsum
  have e3 : (s * a + r) % a = r := by rw [Nat.mul_comm, Nat.mul_add_mod, Nat.mod_eq_of_lt hr]
  have e4 : (s * a + r) / a = s := by rw [Nat.mul_comm, Nat.mul_add_div hap, Nat.div_eq_of_lt hr, Nat.add_zero]
  rw [e3, e4] at hsum
  rw [← hsum]
  refine Finset.sum_congr rfl fun j hj => ?_
  rw [Finset.mem_range] at hj
  have hh : 0 < h := by omega
  have hin : InB [h, w] [j % h, j / h] :=
    ⟨Nat.mod_lt _ hh, (Nat.div_lt_iff_lt_mul hh).mpr (by rw [Nat.mul_comm]; exact hj), trivial⟩
  have := extN_inside m [h, w] [j % h, j / h] (fun idx => ∑ k ∈ Finset.range (h * w), A h w k (idx.getD 1 0 * h + idx.getD 0 0) *
    c [decide (k / (a * b) % 2 = 1), decide (k / (a * b) / 2 = 1)] [k % (a * b) % a, k % (a * b) / a]) hin
  simp only [List.map_cons, List.map_nil, List.getD_cons_zero, List.getD_cons_succ] at this
  rw [← ha, ← hb]
  simp only [this]
  rw [Nat.mul_comm (j / h), Nat.div_add_mod]

/-! ### All levels -/

theorem bandAD_congrX {band : BandStep R} : ∀ (L : Nat) (ns : List Nat) (X Y : List Nat → R),
    (∀ s, s < L → BandLocal band (mLens ns s)) → (∀ js, InB ns js → X js = Y js) →
    (∀ ks, InB (mLens ns L) ks → bandA band ns X L ks = bandA band ns Y L ks) ∧
    ∀ s, s < L → ∀ bs, bs.length = ns.length → ∀ ks, InB (mLens ns (s + 1)) ks → bandD band ns X s bs ks = bandD band ns Y s bs ks
  | 0, ns, X, Y, _, h => ⟨fun ks hk => h ks (by rwa [mLens_zero] at hk), fun s hs => by omega⟩
  | L + 1, ns, X, Y, hloc, h => by
    have h0 := hloc 0 (by omega)
    rw [mLens_zero] at h0
    have hlow : (lowBand ns.length).length = ns.length := by simp [lowBand]
    obtain ⟨i1, i2⟩ := bandAD_congrX L (halfLens ns) (band (lowBand ns.length) ns X) (band (lowBand ns.length) ns Y)
      (fun s hs => by rw [← mLens_succ]; exact hloc (s + 1) (by omega)) (h0 _ _ _ hlow h)
    refine ⟨fun ks hk => i1 ks (by rwa [mLens_succ] at hk), fun s hs bs hb ks hk => ?_⟩
    cases s with
    | zero => exact h0 bs X Y hb h ks (by rwa [mLens_succ, mLens_zero] at hk)
    | succ s => exact i2 s (by omega) bs (by rw [halfLens_length]; exact hb) ks (by rwa [mLens_succ] at hk)

/-- Every set of coefficients comes from a signal. -/
theorem bands_onto [Zero R] {band : BandStep R} : ∀ (L : Nat) (ns : List Nat),
    (∀ s, s < L → BandLocal band (mLens ns s)) → (∀ s, s < L → BandOnto band (mLens ns s)) →
    ∀ (lo : List Nat → R) (d : Nat → List Bool → List Nat → R), ∃ X : List Nat → R,
      (∀ ks, InB (mLens ns L) ks → bandA band ns X L ks = lo ks) ∧
      ∀ s, s < L → ∀ bs, bs.length = ns.length → bs ≠ lowBand ns.length → ∀ ks, InB (mLens ns (s + 1)) ks →
        bandD band ns X s bs ks = d s bs ks
  | 0, ns, _, _, lo, d => ⟨lo, fun ks _ => rfl, fun s hs => by omega⟩
  | L + 1, ns, hloc, hon, lo, d => by
    obtain ⟨X', x1, x2⟩ := bands_onto L (halfLens ns) (fun s hs => by rw [← mLens_succ]; exact hloc (s + 1) (by omega))
      (fun s hs => by rw [← mLens_succ]; exact hon (s + 1) (by omega)) lo (fun s => d (s + 1))
    have h0 := hon 0 (by omega)
    rw [mLens_zero] at h0
    obtain ⟨X, hX⟩ := h0 fun bs => if bs = lowBand ns.length then X' else d 0 bs
    have hlow : (lowBand ns.length).length = ns.length := by simp [lowBand]
    have hXX : ∀ js, InB (halfLens ns) js → band (lowBand ns.length) ns X js = X' js := fun js hjs => by
      rw [hX _ _ hlow hjs, if_pos rfl]
    obtain ⟨i1, i2⟩ := bandAD_congrX L (halfLens ns) _ _
      (fun s hs => by rw [← mLens_succ]; exact hloc (s + 1) (by omega)) hXX
    refine ⟨X, fun ks hk => ?_, fun s hs bs hb hne ks hk => ?_⟩
    · rw [mLens_succ] at hk
      exact (i1 ks hk).trans (x1 ks hk)
    · rw [mLens_succ] at hk
      cases s with
      | zero =>
        rw [mLens_zero] at hk
        show band bs ns X ks = _
        rw [hX bs ks hb hk, if_neg hne]
      | succ s =>
        have hb' : bs.length = (halfLens ns).length := by rw [halfLens_length]; exact hb
        exact (i2 s (by omega) bs hb' ks hk).trans (x2 s (by omega) bs hb' (by rw [halfLens_length]; exact hne) ks hk)

/-! ### Tensors -/

/-- The kinds of detail entries: an entry is a family of tensors, one per band. -/
def OntoKind [Zero R] (n : Nat) (D : (List Bool → Tensor R → Prop) → Entry R → Prop) : Prop :=
  ∀ P e, D P e → ∃ T : List Bool → Tensor R,
    ∀ Q, (∀ bs, bs.length = n → bs ≠ lowBand n → P bs (T bs) → Q bs (T bs)) → D Q e

theorem ontoKind_tuple [Zero R] : OntoKind (R := R) 2 IsTuple := by
  rintro P e ⟨h, v, d, rfl, h1, h2, h3⟩
  refine ⟨fun bs => if bs = [true, false] then h else if bs = [false, true] then v else d, fun Q hQ => ⟨h, v, d, rfl, ?_⟩⟩
  have q1 := hQ [true, false] rfl (by decide)
  have q2 := hQ [false, true] rfl (by decide)
  have q3 := hQ [true, true] rfl (by decide)
  simp at q1 q2 q3
  exact ⟨q1 h1, q2 h2, q3 h3⟩

theorem ontoKind_swapped [Zero R] : OntoKind (R := R) 2 IsTupleSwapped := by
  rintro P e ⟨h, v, d, rfl, h1, h2, h3⟩
  refine ⟨fun bs => if bs = [false, true] then h else if bs = [true, false] then v else d, fun Q hQ => ⟨h, v, d, rfl, ?_⟩⟩
  have q1 := hQ [false, true] rfl (by decide)
  have q2 := hQ [true, false] rfl (by decide)
  have q3 := hQ [true, true] rfl (by decide)
  simp at q1 q2 q3
  exact ⟨q1 h1, q2 h2, q3 h3⟩

theorem ontoKind_dict [Zero R] {n : Nat} {keys : List String} (hk : ∀ k ∈ keys, (bandOfKey k).length = n ∧ bandOfKey k ≠ lowBand n)
    (hi : (keys.map bandOfKey).Nodup) : OntoKind (R := R) n (IsDict keys) := by
  rintro P e ⟨kv, rfl, h1, h2⟩
  by_cases hne : kv = []
  · subst hne
    exact ⟨fun _ => ⟨⟨.float32, 0⟩, [], fun _ => 0, fun _ _ => rfl⟩, fun Q _ => ⟨[], rfl, h1, by simp⟩⟩
  obtain ⟨q0, hq0⟩ := List.exists_mem_of_ne_nil _ hne
  refine ⟨fun bs => ((kv.find? fun q => bandOfKey q.1 = bs).map Prod.snd).getD q0.2, fun Q hQ => ⟨kv, rfl, h1, fun q hq => ?_⟩⟩
  have hmem : q.1 ∈ keys := by rw [← h1]; exact List.mem_map_of_mem hq
  have hT : ((kv.find? fun p => bandOfKey p.1 = bandOfKey q.1).map Prod.snd).getD q0.2 = q.2 := by
    cases hf : kv.find? fun p => bandOfKey p.1 = bandOfKey q.1 with
    | none =>
      rw [List.find?_eq_none] at hf
      have := hf q hq
      simp at this
    | some p =>
      have hp := List.mem_of_find?_eq_some hf
      have hb : bandOfKey p.1 = bandOfKey q.1 := by simpa using List.find?_some hf
      have hnd : (kv.map fun p => bandOfKey p.1).Nodup := by
        have : (kv.map fun p => bandOfKey p.1) = keys.map bandOfKey := by rw [← h1, List.map_map]; rfl
        rw [this]; exact hi
      have : p = q := List.inj_on_of_nodup_map hnd hp hq hb
      rw [this]; rfl
  have := hQ (bandOfKey q.1) (hk _ hmem).1 (hk _ hmem).2
  simp only [hT] at this
  exact this (h2 q hq)

theorem coeffs_onto [Zero R] {n : Nat} {D : (List Bool → Tensor R → Prop) → Entry R → Prop} (hD : OntoKind n D)
    {band : BandStep R} {md : Meta} {S ax : List Nat} {L : Nat} {c : Coeffs R} (hn : ax.Nodup)
    (hlt : ∀ a ∈ ax, a < S.length) (hl : ax.length = n) {ns : List Nat} (hnl : ns.length = n)
    (hloc : ∀ s, s < L → BandLocal band (mLens ns s)) (hon : ∀ s, s < L → BandOnto band (mLens ns s))
    (hc : CoeffSizes D md (fun s => setMany S ax (mLens ns s)) L c) :
    ∃ x, x.md = md ∧ x.shape = setMany S ax ns ∧ IsBandDwtN D band ax L x c := by
  obtain ⟨t0, e0, h0⟩ := hc.approx
  have hdet : ∀ s, ∃ (e : Entry R) (T : List Bool → Tensor R), s < L → c.items[L - s]? = some e ∧
      ∀ Q, (∀ bs, bs.length = n → bs ≠ lowBand n → Uniform md (setMany S ax (mLens ns (s + 1))) (T bs) → Q bs (T bs)) → D Q e := by
    intro s
    by_cases hs : s < L
    · obtain ⟨e, he, hu⟩ := hc.detail s hs
      obtain ⟨T, hT⟩ := hD _ _ hu
      exact ⟨e, T, fun _ => ⟨he, hT⟩⟩
    · exact ⟨.tensor t0, fun _ => t0, fun h => absurd h hs⟩
  choose E T hT using hdet
  choose G g1 g2 using bands_onto L ns hloc hon
  set F : List Nat → List Nat → R := fun idx => G (plane t0 ax idx) (fun s bs => plane (T s bs) ax idx) with hF
  set x : Tensor R := ofFn md (setMany S ax ns) fun idx => F idx (sizes ax idx) with hx
  have hxs : x.shape = setMany S ax ns := rfl
  have hns : sizes ax x.shape = ns := sizes_setMany hn hlt (by omega)
  have hplane : ∀ {Ks idx : List Nat}, Ks.length = n → InB (setMany S ax Ks) idx → ∀ js, InB ns js →
      plane x ax idx js = F idx js := by
    intro Ks idx hK hidx js hjs
    have hil : idx.length = S.length := by rw [hidx.length_eq, setMany_length]
    have hjl : js.length = ax.length := by rw [hjs.length_eq]; omega
    have hin : InB (setMany S ax ns) (setMany idx ax js) := by
      refine inB_setMany (Ks := Ks) hn (by rw [setMany_length]; exact hlt) (by omega) ?_ ?_
      · rw [setMany_setMany hn hlt (by omega)]; exact hidx
      · rw [sizes_setMany hn hlt (by omega)]; exact hjs
    have : plane x ax idx js = x.get (setMany idx ax js) := by unfold plane; rw [if_pos hjl]
    rw [this]
    show (if InB (setMany S ax ns) (setMany idx ax js) then F (setMany idx ax js) (sizes ax (setMany idx ax js)) else 0) = _
    rw [if_pos hin, sizes_setMany hn (by rw [hil]; exact hlt) hjl]
    simp only [hF, plane_setMany hn (show ∀ a ∈ ax, a < idx.length by rw [hil]; exact hlt)]
  have hback : ∀ {Ks idx : List Nat} {t : Tensor R}, Ks.length = n → t.shape = setMany S ax Ks → InB t.shape idx →
      plane t ax idx (sizes ax idx) = t.get idx := by
    intro Ks idx t hK ht hidx
    have hil : idx.length = S.length := by rw [hidx.length_eq, ht, setMany_length]
    unfold plane
    rw [if_pos (by simp [sizes])]
    congr 1
    exact setMany_pick_self _ _ (by rw [hil]; exact hlt)
  have hin : ∀ {Ks idx : List Nat}, Ks.length = n → InB (setMany S ax Ks) idx → InB Ks (sizes ax idx) := by
    intro Ks idx hK hidx
    have := inB_sizes (ax := ax) (s := setMany S ax Ks) (by rw [setMany_length]; exact hlt) hidx
    rwa [sizes_setMany hn hlt (by omega)] at this
  have hml : ∀ s, (mLens ns s).length = n := fun s => by rw [mLens_length]; exact hnl
  refine ⟨x, rfl, rfl, hc.kind, hc.length, ⟨t0, e0, ?_⟩, fun s hs => ⟨E s, (hT s hs).1, ?_⟩⟩
  · rw [hns]
    refine ⟨h0.1, ?_, fun idx hidx => ?_⟩
    · rw [h0.2, hxs, setMany_setMany hn hlt (by rw [hml]; omega)]
    · have hidx' := hidx
      rw [h0.2] at hidx'
      rw [(bandAD_congrX L ns _ _ hloc (hplane (hml L) hidx')).1 _ (hin (hml L) hidx')]
      rw [hF, g1 _ _ _ (hin (hml L) hidx'), hback (hml L) h0.2 hidx]
  · rw [hns]
    refine (hT s hs).2 _ fun bs hb hne hu => ⟨hu.1, ?_, fun idx hidx => ?_⟩
    · rw [hu.2, hxs, setMany_setMany hn hlt (by rw [hml]; omega)]
    · have hidx' := hidx
      rw [hu.2] at hidx'
      rw [(bandAD_congrX L ns _ _ hloc (hplane (hml (s + 1)) hidx')).2 s hs bs (by omega) _ (hin (hml (s + 1)) hidx')]
      rw [hF, g2 _ _ s hs bs (by omega) (by rw [hnl]; exact hne) _ (hin (hml (s + 1)) hidx'), hback (hml (s + 1)) hu.2 hidx]

/-! ### Dyadic sizes -/

theorem mLen_dyadic (K : Nat) : ∀ (s L : Nat), s ≤ L → mLen (2 ^ L * K) s = 2 ^ (L - s) * K
  | 0, L, _ => rfl
  | s + 1, 0, h => by omega
  | s + 1, L + 1, h => by
    have e : evenLen (2 ^ (L + 1) * K) / 2 = 2 ^ L * K := by
      have e1 : 2 ^ (L + 1) * K = 2 * (2 ^ L * K) := by ring
      rw [e1, evenLen_of_even (by omega)]
      omega
    show mLen (evenLen (2 ^ (L + 1) * K) / 2) s = _
    rw [e, mLen_dyadic K s L (by omega), show L + 1 - (s + 1) = L - s by omega]

theorem mLens_dyadic (Ks : List Nat) {s L : Nat} (h : s ≤ L) :
    mLens (Ks.map (2 ^ L * ·)) s = Ks.map (2 ^ (L - s) * ·) := by
  unfold mLens
  rw [List.map_map]
  exact List.map_congr_left fun K _ => mLen_dyadic K s L h

theorem mLevelsN_full {F : Nat} : ∀ (L : Nat) (ns : List Nat), (∀ s, s < L → ∀ n ∈ mLens ns s, F ≤ n) → mLevelsN F L ns = L
  | 0, _, _ => rfl
  | L + 1, ns, h => by
    unfold mLevelsN
    rw [if_neg, mLevelsN_full L (halfLens ns) fun s hs => by rw [← mLens_succ]; exact h (s + 1) (by omega)]
    rintro ⟨n, hn, hlt⟩
    have := h 0 (by omega) n (by rw [mLens_zero]; exact hn)
    omega

theorem mLevels_full {F : Nat} : ∀ (L n : Nat), (∀ s, s < L → F ≤ mLen n s) → mLevels F L n = L
  | 0, _, _ => rfl
  | L + 1, n, h => by
    unfold mLevels
    have h0 : F ≤ n := h 0 (by omega)
    rw [if_neg (by omega), mLevels_full L (evenLen n / 2) fun s hs => h (s + 1) (by omega)]

theorem dyadic_level {F : Nat} {Ks : List Nat} (hK : ∀ K ∈ Ks, F ≤ 2 * K) {s L : Nat} (hs : s < L) :
    ∀ n ∈ mLens (Ks.map (2 ^ L * ·)) s, n % 2 = 0 ∧ F ≤ n ∧ ∃ K ∈ Ks, n ≤ 2 ^ L * K := by
  intro n hn
  rw [mLens_dyadic Ks (by omega)] at hn
  obtain ⟨K, hK', rfl⟩ := List.mem_map.mp hn
  have e : 2 ^ (L - s) * K = 2 ^ (L - s - 1) * (2 * K) := by
    rw [show L - s = (L - s - 1) + 1 by omega, pow_succ, Nat.add_sub_cancel]; ring
  refine ⟨by rw [e]; simp [Nat.mul_mod, Nat.mul_assoc], ?_, K, hK', ?_⟩
  · show F ≤ 2 ^ (L - s) * K
    rw [e]
    exact le_trans (hK K hK') (Nat.le_mul_of_pos_left _ (by positivity))
  · exact Nat.mul_le_mul_right _ (Nat.pow_le_pow_right (by omega) (by omega))

/-! ### One axis -/

theorem bandA_one [NonUnitalNonAssocSemiring R] {m : Mode} {A : Nat → Nat → Nat → R} : ∀ (s n : Nat) (X : List Nat → R) (k : Nat),
    bandA (matBand m A) [n] X s [k] = mA m A n (fun j => X [j]) s k
  | 0, _, _, _ => rfl
  | s + 1, n, X, k => bandA_one s (evenLen n / 2) (matBand m A [false] [n] X) k

theorem bandD_one [NonUnitalNonAssocSemiring R] {m : Mode} {A : Nat → Nat → Nat → R} : ∀ (s n : Nat) (X : List Nat → R) (k : Nat),
    bandD (matBand m A) [n] X s [true] [k] = mD m A n (fun j => X [j]) s k
  | 0, _, _, _ => rfl
  | s + 1, n, X, k => bandD_one s (evenLen n / 2) (matBand m A [false] [n] X) k

/-- The detail entries of a one-dimensional transform are tensors. -/
def IsPlain [Zero R] (P : List Bool → Tensor R → Prop) (e : Entry R) : Prop := ∃ t, e = .tensor t ∧ P [true] t

theorem ontoKind_plain [Zero R] : OntoKind (R := R) 1 IsPlain := by
  rintro P e ⟨t, rfl, h⟩
  exact ⟨fun _ => t, fun Q hQ => ⟨t, rfl, hQ [true] rfl (by decide) h⟩⟩

theorem isMatDwt_of_band [NonUnitalNonAssocSemiring R] {m : Mode} {A : Nat → Nat → Nat → R} {a L : Nat} {x : Tensor R}
    {cs : List (Tensor R)} (ha : a < x.rank)
    (h : IsBandDwtN IsPlain (matBand m A) [a] L x ⟨false, cs.map .tensor⟩) : IsMatDwt m A a L x cs := by
  have hone : ∀ {K : Nat} {f : (List Nat → R) → List Nat → R} {g : (Nat → R) → Nat → R} {t : Tensor R},
      (∀ X k, f X [k] = g (fun j => X [j]) k) → AlongAxes [a] [K] f x t → AlongAxis a K g x t := by
    intro K f g t hfg h
    refine ⟨h.md, h.shape, fun idx hidx => ?_⟩
    rw [h.get idx hidx]
    exact hfg _ _
  have hsz : sizes [a] x.shape = [x.shape.getD a 0] := rfl
  have hl := h.length
  refine ⟨by simpa using hl, fun t ht => ?_, fun s d hs hd => ?_⟩
  · obtain ⟨t', e, h'⟩ := h.approx
    rw [List.getElem?_map, ht] at e
    cases e
    rw [hsz] at h'
    exact hone (fun X k => bandA_one L _ X k) h'
  · obtain ⟨e, he, t', rfl, h'⟩ := h.detail s hs
    rw [List.getElem?_map, hd] at he
    cases he
    rw [hsz] at h'
    exact hone (fun X k => bandD_one s _ X k) h'

end Verif
