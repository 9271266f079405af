/-
C80 for several axes.
-/
import Verif.Spec.ZeroModeN
import Verif.Props.ZeroMode
import Verif.Props.Sep
import Verif.Props.Cascade
import Verif.Props.AxisOrder
import Verif.Lemmas.Adjoint
import Verif.Lemmas.AxisOrder

namespace Verif
open Tensor Spec
variable {R : Type}

/-- All positions are in range. -/
def InRangeZ : List Nat → List ℤ → Prop
  | [], [] => True
  | n :: ns, k :: ks => (0 ≤ k ∧ k < n) ∧ InRangeZ ns ks
  | _, _ => False

section
variable [NonUnitalNonAssocSemiring R]

theorem extN_zero_in : ∀ {ns : List Nat} {ks : List ℤ} (_ : InRangeZ ns ks) (X : List Nat → R),
    extN .zero ns X ks = X (ks.map Int.toNat)
  | [], [], _, X => rfl
  | n :: ns, k :: ks, h, X => by
    show ext .zero n (fun j => extN .zero ns (fun js => X (j :: js)) ks) k = _
    rw [ext_zero_in _ h.1, extN_zero_in h.2]
    rfl
  | [], _ :: _, h, _ => h.elim
  | _ :: _, [], h, _ => h.elim

theorem extN_zero_out : ∀ {ns : List Nat} {ks : List ℤ} (_ : ks.length = ns.length) (_ : ¬ InRangeZ ns ks) (X : List Nat → R),
    extN .zero ns X ks = 0
  | [], [], _, h, X => absurd trivial h
  | n :: ns, k :: ks, hl, h, X => by
    show ext .zero n (fun j => extN .zero ns (fun js => X (j :: js)) ks) k = _
    by_cases hk : 0 ≤ k ∧ k < n
    · rw [ext_zero_in _ hk]
      exact extN_zero_out (by simpa using hl) (fun h' => h ⟨hk, h'⟩) _
    · exact ext_zero_out _ hk
  | [], _ :: _, hl, _, _ => by simp at hl
  | _ :: _, [], hl, _, _ => by simp at hl

theorem ext_zero_zero (n : Nat) (k : ℤ) : ext .zero n (fun _ => (0 : R)) k = 0 := by
  by_cases h : 0 ≤ k ∧ k < n
  · exact ext_zero_in _ h
  · exact ext_zero_out _ h

theorem analysisZ_zero (h : List R) (k : ℤ) : analysisZ h (fun _ => (0 : R)) k = 0 :=
  Finset.sum_eq_zero fun j _ => mul_zero _

theorem analysisZN_zero : ∀ (fs : List (List R)) (ks : List ℤ), analysisZN fs (fun _ => (0 : R)) ks = 0
  | f :: fs, k :: ks => by
    show analysisZ f (fun j => analysisZN fs (fun _ => (0 : R)) ks) k = 0
    simp only [analysisZN_zero fs ks]
    exact analysisZ_zero f k
  | [], _ => rfl
  | _ :: _, [] => rfl

theorem analysisZN_congr : ∀ {fs : List (List R)} {ks : List ℤ} {E E' : List ℤ → R} (_ : ks.length = fs.length)
    (_ : ∀ js : List ℤ, js.length = fs.length → E js = E' js), analysisZN fs E ks = analysisZN fs E' ks
  | [], [], E, E', _, h => h [] rfl
  | f :: fs, k :: ks, E, E', hl, h => by
    show analysisZ f (fun j => analysisZN fs (fun js => E (j :: js)) ks) k =
      analysisZ f (fun j => analysisZN fs (fun js => E' (j :: js)) ks) k
    congr 1
    funext j
    exact analysisZN_congr (by simpa using hl) fun js hj => h _ (by simp [hj])
  | [], _ :: _, _, _, hl, _ => by simp at hl
  | _ :: _, [], _, _, hl, _ => by simp at hl

theorem extN_dwtN {F : Nat} (he : F % 2 = 0) (hF : 2 ≤ F) : ∀ {fs : List (List R)} {ns : List Nat} {ks : List ℤ}
    (_ : ∀ f ∈ fs, f.length = F) (_ : fs.length = ns.length) (_ : ks.length = ns.length) (X : List Nat → R),
    extN .zero (ns.map (outLen F)) (dwtN .zero (fs.zip ns) X) ks = analysisZN fs (extN .zero ns X) ks
  | [], [], [], _, _, _, X => rfl
  | f :: fs, n :: ns, k :: ks, hf, h1, h2, X => by
    have hf1 : f.length = F := hf f (by simp)
    have l1 : fs.length = ns.length := by simpa using h1
    have l2 : ks.length = ns.length := by simpa using h2
    have ih := fun Y => extN_dwtN he hF (fs := fs) (ns := ns) (ks := ks) (fun g hg => hf g (by simp [hg])) l1 l2 Y
    show ext .zero (outLen F n) (fun j => extN .zero (ns.map (outLen F)) (fun js =>
      dwtStep .zero f n (fun i => dwtN .zero (fs.zip ns) (fun is => X (i :: is)) js) j) ks) k =
      analysisZ f (fun j => analysisZN fs (fun js => ext .zero n (fun i => extN .zero ns (fun is => X (i :: is)) js) j) ks) k
    have e1 : (fun j : ℤ => analysisZN fs (fun js => ext .zero n (fun i => extN .zero ns (fun is => X (i :: is)) js) j) ks) =
        ext .zero n (fun i => extN .zero (ns.map (outLen F)) (dwtN .zero (fs.zip ns) fun is => X (i :: is)) ks) := by
      funext j
      by_cases hj : 0 ≤ j ∧ j < n
      · rw [ext_zero_in _ hj, ih]
        congr 1
        funext js
        rw [ext_zero_in _ hj]
      · rw [ext_zero_out _ hj, ← analysisZN_zero fs ks]
        congr 1
        funext js
        rw [ext_zero_out _ hj]
    rw [e1, ← ext_dwtStep he hF hf1]
    congr 1
    funext j
    by_cases hr : InRangeZ (ns.map (outLen F)) ks
    · rw [extN_zero_in hr]
      congr 1
      funext i
      rw [extN_zero_in hr]
    · have l3 : ks.length = (ns.map (outLen F)).length := by simpa using l2
      rw [extN_zero_out l3 hr]
      symm
      unfold dwtStep analysis
      refine Finset.sum_eq_zero fun q _ => ?_
      have : (fun i => extN .zero (ns.map (outLen F)) (dwtN .zero (fs.zip ns) fun is => X (i :: is)) ks) = fun _ => (0 : R) := by
        funext i
        exact extN_zero_out l3 hr _
      rw [this, ext_zero_zero, mul_zero]
  | [], [], _ :: _, _, _, hl, _ => by simp at hl
  | _ :: _, _ :: _, [], _, _, hl, _ => by simp at hl
  | [], _ :: _, _, _, hl, _, _ => by simp at hl
  | _ :: _, [], _, _, hl, _, _ => by simp at hl

theorem bandFilt_mem_len {w : Wavelet R} (hhi : w.decHi.length = w.len) (bs : List Bool) :
    ∀ f ∈ bandFilt w.decLo w.decHi bs, f.length = w.len := by
  intro f hf
  unfold bandFilt at hf
  obtain ⟨b, -, rfl⟩ := List.mem_map.mp hf
  cases b
  · rfl
  · exact hhi

theorem extN_cAN {w : Wavelet R} {ns : List Nat} (he : w.len % 2 = 0) (hF : 2 ≤ w.len) (hhi : w.decHi.length = w.len)
    (X : List Nat → R) : ∀ (s : Nat) (ks : List ℤ), ks.length = ns.length →
      extN .zero (levelLens w.len ns s) (cAN .zero w ns X s) ks = approxZN w ns.length (extN .zero ns X) s ks
  | 0, ks, _ => by rw [levelLens_zero]; rfl
  | s + 1, ks, hk => by
    rw [levelLens_succ]
    show extN .zero _ (dwtN .zero ((bandFilt w.decLo w.decHi (lowBand ns.length)).zip (levelLens w.len ns s))
      (cAN .zero w ns X s)) ks = analysisZN (bandFilt w.decLo w.decHi (lowBand ns.length)) _ ks
    have hl : (bandFilt w.decLo w.decHi (lowBand ns.length)).length = ns.length := by simp [bandFilt, lowBand]
    rw [extN_dwtN he hF (bandFilt_mem_len hhi _) (by rw [hl, levelLens_length]) (by rw [levelLens_length]; exact hk)]
    exact analysisZN_congr (by rw [hl]; exact hk) fun js hj => extN_cAN he hF hhi X s js (by rw [hj, hl])

theorem extN_cDN {w : Wavelet R} {ns : List Nat} (he : w.len % 2 = 0) (hF : 2 ≤ w.len) (hhi : w.decHi.length = w.len)
    (X : List Nat → R) (s : Nat) {bs : List Bool} (hb : bs.length = ns.length) (ks : List ℤ) (hk : ks.length = ns.length) :
      extN .zero (levelLens w.len ns (s + 1)) (cDN .zero w ns X s bs) ks = detailZN w ns.length (extN .zero ns X) s bs ks := by
  rw [levelLens_succ]
  show extN .zero _ (dwtN .zero ((bandFilt w.decLo w.decHi bs).zip (levelLens w.len ns s))
    (cAN .zero w ns X s)) ks = analysisZN (bandFilt w.decLo w.decHi bs) _ ks
  have hl : (bandFilt w.decLo w.decHi bs).length = ns.length := by simp [bandFilt, hb]
  rw [extN_dwtN he hF (bandFilt_mem_len hhi _) (by rw [hl, levelLens_length]) (by rw [levelLens_length]; exact hk)]
  exact analysisZN_congr (by rw [hl]; exact hk) fun js hj => extN_cAN he hF hhi X s js (by rw [hj, hl])

/-! ### From planes to tensors -/

theorem inRangeZ_iff : ∀ {ns : List Nat} {ks : List ℤ}, InRangeZ ns ks ↔
    ∃ js : List Nat, InB ns js ∧ ks = js.map fun (j : Nat) => (j : ℤ)
  | [], [] => ⟨fun _ => ⟨[], by simp [InB], rfl⟩, fun _ => trivial⟩
  | [], k :: ks => ⟨fun h => h.elim, by rintro ⟨js, h, e⟩; have := h.length_eq; cases js <;> simp_all⟩
  | n :: ns, [] => ⟨fun h => h.elim, by rintro ⟨js, h, e⟩; have := h.length_eq; cases js <;> simp_all⟩
  | n :: ns, k :: ks => by
    constructor
    · rintro ⟨h1, h2⟩
      obtain ⟨js, hj, rfl⟩ := inRangeZ_iff.mp h2
      exact ⟨k.toNat :: js, by exact ⟨by omega, hj⟩, by simp; omega⟩
    · rintro ⟨js, hj, e⟩
      match js, hj, e with
      | j :: js, hj, e =>
        simp only [List.map_cons, List.cons.injEq] at e
        obtain ⟨rfl, rfl⟩ := e
        exact ⟨⟨by omega, by have := hj.1; omega⟩, inRangeZ_iff.mpr ⟨js, hj.2, rfl⟩⟩

theorem ofInfinite_of {ax Ks : List Nat} {x t : Tensor R} {f : (List Nat → R) → List Nat → R} {g : (List ℤ → R) → List ℤ → R}
    (hn : ax.Nodup) (hlt : ∀ a ∈ ax, a < x.shape.length) (hK : Ks.length = ax.length) (ht : AlongAxes ax Ks f x t)
    (hf : ∀ X ks, ks.length = ax.length → extN .zero Ks (f X) ks = g (extN .zero (sizes ax x.shape) X) ks) :
    OfInfinite g ax x t := by
  intro idx Ks' ks hK' hidx hk
  have hts : sizes ax t.shape = Ks := by rw [ht.shape, sizes_setMany hn hlt hK]
  have hl : idx.length = x.shape.length := by rw [hidx.length_eq, setMany_length, ht.shape, setMany_length]
  unfold planeZ
  rw [hts, ← hf _ _ hk]
  by_cases hr : InRangeZ Ks ks
  · rw [extN_zero_in hr, extN_zero_in hr]
    obtain ⟨js, hj, rfl⟩ := inRangeZ_iff.mp hr
    have e : (js.map fun (j : Nat) => (j : ℤ)).map Int.toNat = js := by
      rw [List.map_map]
      conv_rhs => rw [← List.map_id js]
      exact List.map_congr_left fun j _ => Int.toNat_natCast j
    have hjl : js.length = ax.length := by simpa using hk
    rw [e]
    unfold plane
    rw [if_pos hjl]
    have hb : InB t.shape (setMany idx ax js) :=
      inB_setMany hn (by rw [ht.shape, setMany_length]; exact hlt) hK' hidx (by rw [hts]; exact hj)
    rw [ht.get _ hb, sizes_setMany hn (by rw [hl]; exact hlt) hjl, plane_setMany hn (by rw [hl]; exact hlt)]
    rfl
  · have l3 : ks.length = Ks.length := by rw [hk, hK]
    rw [extN_zero_out l3 hr, extN_zero_out l3 hr]

theorem IsTuple.mono' {P Q : List Bool → Tensor R → Prop} {n : Nat} (hn : n = 2)
    (h : ∀ bs t, bs.length = n → P bs t → Q bs t) {e : Entry R} : IsTuple P e → IsTuple Q e := by
  subst hn
  rintro ⟨a, b, c, rfl, h1, h2, h3⟩
  exact ⟨a, b, c, rfl, h _ _ rfl h1, h _ _ rfl h2, h _ _ rfl h3⟩

theorem IsDict.mono' {P Q : List Bool → Tensor R → Prop} {n : Nat} {keys : List String} (hk : ∀ k ∈ keys, k.toList.length = n)
    (h : ∀ bs t, bs.length = n → P bs t → Q bs t) {e : Entry R} : IsDict keys P e → IsDict keys Q e := by
  rintro ⟨kv, rfl, h1, h2⟩
  refine ⟨kv, rfl, h1, fun q hq => h _ _ ?_ (h2 q hq)⟩
  have : q.1 ∈ keys := by rw [← h1]; exact List.mem_map_of_mem hq
  simp [bandOfKey, hk q.1 this]

theorem isZeroN_of {w : Wavelet R} {ax : List Nat} {L n : Nat} {x : Tensor R} {c : Coeffs R}
    {D : (List Bool → Tensor R → Prop) → Entry R → Prop} (hax : ax.length = n)
    (hD : ∀ (P Q : List Bool → Tensor R → Prop) (e : Entry R), (∀ bs t, bs.length = n → P bs t → Q bs t) → D P e → D Q e)
    (he : w.len % 2 = 0) (hF : 2 ≤ w.len) (hhi : w.decHi.length = w.len)
    (hn : ax.Nodup) (hlt : ∀ a ∈ ax, a < x.shape.length) (h : IsDwtN D .zero w ax L x c) : IsZeroN D w ax L x c := by
  have hs : (sizes ax x.shape).length = ax.length := by simp [sizes]
  refine ⟨h.kind, h.length, ?_, fun s hsL => ?_⟩
  · obtain ⟨t, h1, h2⟩ := h.approx
    refine ⟨t, h1, ofInfinite_of hn hlt (by rw [levelLens_length, hs]) h2 fun X ks hk => ?_⟩
    rw [extN_cAN he hF hhi X L ks (by rw [hs, hk]), hs]
  · obtain ⟨e, h1, h2⟩ := h.detail s hsL
    refine ⟨e, h1, hD _ _ e (fun bs t hb ht => ?_) h2⟩
    refine ofInfinite_of hn hlt (by rw [levelLens_length, hs]) ht fun X ks hk => ?_
    rw [extN_cDN he hF hhi X s (by rw [hs, hax, hb]) ks (by rw [hs, hk]), hs]

/-! ### Delays -/

theorem analysisZN_delay : ∀ {fs : List (List R)} {ks ds : List ℤ} {E E' : List ℤ → R} (_ : ks.length = fs.length)
    (_ : ds.length = fs.length)
    (_ : ∀ js : List ℤ, js.length = fs.length → E' js = E (List.zipWith (fun j d => j - 2 * d) js ds)),
    analysisZN fs E' ks = analysisZN fs E (List.zipWith (fun k d => k - d) ks ds)
  | [], [], [], E, E', _, _, h => h [] rfl
  | f :: fs, k :: ks, d :: ds, E, E', h1, h2, h => by
    show analysisZ f (fun j => analysisZN fs (fun js => E' (j :: js)) ks) k =
      analysisZ f (fun j => analysisZN fs (fun js => E (j :: js)) (List.zipWith (fun k d => k - d) ks ds)) (k - d)
    refine analysisZ_delay f (e := fun j => analysisZN fs (fun js => E (j :: js)) (List.zipWith (fun k d => k - d) ks ds))
      (fun j => ?_) k
    exact analysisZN_delay (E := fun js => E ((j - 2 * d) :: js)) (by simpa using h1) (by simpa using h2)
      fun js hj => h (j :: js) (by simp [hj])
  | [], _ :: _, _, _, _, hl, _, _ => by simp at hl
  | _ :: _, [], _, _, _, hl, _, _ => by simp at hl
  | [], _, _ :: _, _, _, _, hl, _ => by simp at hl
  | _ :: _, _, [], _, _, _, hl, _ => by simp at hl

/-- `ks` moved back by `u` times the delays `d`. -/
def backZ (u : ℤ) (ds ks : List ℤ) : List ℤ := List.zipWith (fun k d => k - u * d) ks ds

theorem backZ_zip (u : ℤ) (ds : List ℤ) : ∀ ks : List ℤ,
    backZ u ds ks = List.zipWith (fun k d => k - d) ks (ds.map fun d => u * d) := by
  intro ks
  unfold backZ
  rw [List.zipWith_map_right]

theorem backZ_zip2 (u : ℤ) (ds : List ℤ) : ∀ ks : List ℤ,
    backZ (2 * u) ds ks = List.zipWith (fun k d => k - 2 * d) ks (ds.map fun d => u * d) := by
  intro ks
  unfold backZ
  rw [List.zipWith_map_right]
  congr 1
  funext a b
  ring

theorem analysisZN_back {fs : List (List R)} {ks ds : List ℤ} {u : ℤ} {E E' : List ℤ → R} (h1 : ks.length = fs.length)
    (h2 : ds.length = fs.length) (h : ∀ js : List ℤ, js.length = fs.length → E' js = E (backZ (2 * u) ds js)) :
    analysisZN fs E' ks = analysisZN fs E (backZ u ds ks) := by
  rw [backZ_zip]
  refine analysisZN_delay h1 (by simpa using h2) fun js hj => ?_
  rw [h js hj, backZ_zip2]

theorem approxZN_delay (w : Wavelet R) {n L : Nat} {ds : List ℤ} (hd : ds.length = n) {E E' : List ℤ → R}
    (h : ∀ js : List ℤ, js.length = n → E' js = E (backZ (2 ^ L) ds js)) : ∀ s, s ≤ L → ∀ ks : List ℤ, ks.length = n →
      approxZN w n E' s ks = approxZN w n E s (backZ (2 ^ (L - s)) ds ks)
  | 0, _, ks, hk => h ks hk
  | s + 1, hs, ks, hk => by
    have hl : (bandFilt w.decLo w.decHi (lowBand n)).length = n := by simp [bandFilt, lowBand]
    refine analysisZN_back (by rw [hl]; exact hk) (by rw [hl]; exact hd) fun js hj => ?_
    rw [approxZN_delay w hd h s (by omega) js (by rw [hj, hl]), show L - s = (L - (s + 1)) + 1 by omega, pow_succ,
      mul_comm (2 ^ (L - (s + 1)) : ℤ) 2]

theorem detailZN_delay (w : Wavelet R) {n L : Nat} {ds : List ℤ} (hd : ds.length = n) {E E' : List ℤ → R}
    (h : ∀ js : List ℤ, js.length = n → E' js = E (backZ (2 ^ L) ds js)) {s : Nat} (hs : s < L) {bs : List Bool}
    (hb : bs.length = n) (ks : List ℤ) (hk : ks.length = n) :
      detailZN w n E' s bs ks = detailZN w n E s bs (backZ (2 ^ (L - (s + 1))) ds ks) := by
  have hl : (bandFilt w.decLo w.decHi bs).length = n := by simp [bandFilt, hb]
  refine analysisZN_back (by rw [hl]; exact hk) (by rw [hl]; exact hd) fun js hj => ?_
  rw [approxZN_delay w hd h s (by omega) js (by rw [hj, hl]), show L - s = (L - (s + 1)) + 1 by omega, pow_succ,
    mul_comm (2 ^ (L - (s + 1)) : ℤ) 2]

theorem backZ_map (u : ℤ) (δ : Nat → ℤ) (ax : List Nat) (φ : Nat → ℤ) :
    backZ u (ax.map δ) (ax.map φ) = ax.map fun a => φ a - u * δ a := by
  unfold backZ
  rw [List.zipWith_map]
  induction ax with
  | nil => rfl
  | cons a ax ih => simp [ih]

theorem inRangeZ_mono : ∀ {ax : List Nat} {S S' : List Nat} {δ : Nat → Nat} {φ : List ℤ},
    (∀ a ∈ ax, S.getD a 0 + δ a ≤ S'.getD a 0) → φ.length = ax.length →
    InRangeZ (sizes ax S) (backZ 1 (ax.map fun a => (δ a : ℤ)) φ) → InRangeZ (sizes ax S') φ
  | [], _, _, _, [], _, _, _ => trivial
  | a :: ax, S, S', δ, k :: φ, h, hl, hr => by
    obtain ⟨h1, h2⟩ := hr
    have := h a (by simp)
    have h1' : 0 ≤ k - 1 * (δ a : ℤ) ∧ k - 1 * (δ a : ℤ) < (S.getD a 0 : ℕ) := h1
    exact ⟨⟨by omega, by show k < ((S'.getD a 0 : ℕ) : ℤ); omega⟩, inRangeZ_mono (fun b hb => h b (by simp [hb])) (by simpa using hl) h2⟩
  | [], _, _, _, _ :: _, _, hl, _ => by simp at hl
  | _ :: _, _, _, _, [], _, hl, _ => by simp at hl

/-- The planes of a delayed tensor are the delayed planes. -/
theorem planeZ_later {ax : List Nat} {δ : Nat → Nat} {x y : Tensor R} (hn : ax.Nodup) (hlt : ∀ a ∈ ax, a < x.shape.length)
    (h : LaterByN ax δ x y) {idx Ks : List Nat} (hK : Ks.length = ax.length) (hidx : InB (setMany y.shape ax Ks) idx)
    {js : List ℤ} (hj : js.length = ax.length) :
    planeZ y ax idx js = planeZ x ax idx (backZ 1 (ax.map fun a => (δ a : ℤ)) js) := by
  have hyl : y.shape.length = x.shape.length := by rw [h.shape, setMany_length]
  have hl : idx.length = x.shape.length := by rw [hidx.length_eq, setMany_length, hyl]
  have hlty : ∀ a ∈ ax, a < y.shape.length := by rw [hyl]; exact hlt
  have hlti : ∀ a ∈ ax, a < idx.length := by rw [hl]; exact hlt
  by_cases hr : InRangeZ (sizes ax y.shape) js
  · unfold planeZ
    rw [extN_zero_in hr]
    obtain ⟨ks, hk, rfl⟩ := inRangeZ_iff.mp hr
    have e : (ks.map fun (j : Nat) => (j : ℤ)).map Int.toNat = ks := by
      rw [List.map_map]
      conv_rhs => rw [← List.map_id ks]
      exact List.map_congr_left fun j _ => Int.toNat_natCast j
    have hkl : ks.length = ax.length := by simpa using hj
    rw [e]
    unfold plane
    rw [if_pos hkl, h.get _ (inB_setMany hn hlty hK hidx hk)]
    unfold planeZ
    rw [plane_setMany hn hlti]
    have e2 : (ax.map fun a => ((setMany idx ax ks).getD a 0 : ℤ) - (δ a : ℤ)) =
        backZ 1 (ax.map fun a => (δ a : ℤ)) (ks.map fun (j : Nat) => (j : ℤ)) := by
      have e3 : (ks.map fun (j : Nat) => (j : ℤ)) = ax.map fun a => ((setMany idx ax ks).getD a 0 : ℤ) := by
        conv_lhs => rw [← sizes_setMany hn hlti hkl]
        unfold sizes
        rw [List.map_map]
        rfl
      rw [e3, backZ_map]
      simp
    rw [e2]
    rfl
  · unfold planeZ
    have l1 : js.length = (sizes ax y.shape).length := by simp [sizes, hj]
    rw [extN_zero_out l1 hr, extN_zero_out (by simp [backZ, sizes, hj])]
    exact fun h' => hr (inRangeZ_mono h.room hj h')

theorem later_of {ax Ks Ks' : List Nat} {δ D : Nat → Nat} {x y t t' : Tensor R} {g : (List ℤ → R) → List ℤ → R}
    (hn : ax.Nodup) (hlt : ∀ a ∈ ax, a < x.shape.length) (h : LaterByN ax δ x y)
    (hK : Ks.length = ax.length) (hK' : Ks'.length = ax.length)
    (hmd : t.md = x.md) (hmd' : t'.md = y.md) (hs : t.shape = setMany x.shape ax Ks) (hs' : t'.shape = setMany y.shape ax Ks')
    (ht : OfInfinite g ax x t) (ht' : OfInfinite g ax y t')
    (hroom : ∀ a ∈ ax, t.shape.getD a 0 + D a ≤ t'.shape.getD a 0)
    (hg : ∀ E E' : List ℤ → R, (∀ js : List ℤ, js.length = ax.length → E' js = E (backZ 1 (ax.map fun a => (δ a : ℤ)) js)) →
      ∀ ks : List ℤ, ks.length = ax.length → g E' ks = g E (backZ 1 (ax.map fun a => (D a : ℤ)) ks)) : LaterByN ax D t t' := by
  have hyl : y.shape.length = x.shape.length := by rw [h.shape, setMany_length]
  have hlty : ∀ a ∈ ax, a < y.shape.length := by rw [hyl]; exact hlt
  have hts : sizes ax t.shape = Ks := by rw [hs, sizes_setMany hn hlt hK]
  have hts' : sizes ax t'.shape = Ks' := by rw [hs', sizes_setMany hn hlty hK']
  refine ⟨by rw [hmd, hmd', h.md], ?_, hroom, fun idx hidx => ?_⟩
  · rw [hts', hs, setMany_setMany hn hlt hK', hs', h.shape, setMany_setMany hn hlt hK']
  · have hl : idx.length = x.shape.length := by rw [hidx.length_eq, hs', setMany_length, hyl]
    have hlti : ∀ a ∈ ax, a < idx.length := by rw [hl]; exact hlt
    have hc : ((sizes ax idx).map fun (j : Nat) => (j : ℤ)) = ax.map fun a => (idx.getD a 0 : ℤ) := by
      unfold sizes
      rw [List.map_map]
      rfl
    have e1 : t'.get idx = planeZ t' ax idx (ax.map fun a => (idx.getD a 0 : ℤ)) := by
      unfold planeZ
      have hb : InB (sizes ax t'.shape) (sizes ax idx) := inB_sizes (by rw [hs', setMany_length]; exact hlty) hidx
      rw [← hc, extN_zero_in (inRangeZ_iff.mpr ⟨_, hb, rfl⟩)]
      have e : ((sizes ax idx).map fun (j : Nat) => (j : ℤ)).map Int.toNat = sizes ax idx := by
        rw [List.map_map]
        conv_rhs => rw [← List.map_id (sizes ax idx)]
        exact List.map_congr_left fun j _ => Int.toNat_natCast j
      rw [e]
      unfold plane
      rw [if_pos (by simp [sizes]), setMany_sizes hlti]
    rw [e1, ht' idx Ks' _ hK' (by rw [hs', setMany_setMany hn hlty hK', ← hs']; exact hidx) (by simp), hg (planeZ x ax idx) (planeZ y ax idx)
      (fun js hj => planeZ_later hn hlt h hK' (by rw [← hs']; exact hidx) hj) _ (by simp), backZ_map]
    have e2 := ht idx Ks' (ax.map fun a => (idx.getD a 0 : ℤ) - 1 * (D a : ℤ)) hK' (by
      rw [hs, setMany_setMany hn hlt hK']
      rw [hs', h.shape, setMany_setMany hn hlt hK'] at hidx
      exact hidx) (by simp)
    rw [← e2]
    simp

theorem sizes_getD_levelLens {F : Nat} {ax S : List Nat} {t : Tensor R} {s : Nat} (hn : ax.Nodup) (hlt : ∀ a ∈ ax, a < S.length)
    (h : t.shape = setMany S ax (levelLens F (sizes ax S) s)) {a : Nat} (ha : a ∈ ax) :
    t.shape.getD a 0 = levelLen F (S.getD a 0) s := by
  have e : sizes ax t.shape = levelLens F (sizes ax S) s := by
    rw [h, sizes_setMany hn hlt (by simp [levelLens, sizes])]
  obtain ⟨i, hi, rfl⟩ := List.mem_iff_getElem.mp ha
  have := congrArg (fun l => l.getD i 0) e
  simpa [sizes, levelLens, List.getD_eq_getElem?_getD, List.getElem?_map, hi] using this

theorem coeffsLater_of {w : Wavelet R} {ax : List Nat} {L n : Nat} {d : Nat → Nat} {x y : Tensor R} {c c' : Coeffs R}
    {D : (List Bool → Tensor R → Prop) → Entry R → Prop} (hax : ax.length = n)
    (hD : ∀ (P : List Bool → Tensor R → Prop) (e : Entry R) bs t, D P e → HoldsBand e bs t → bs.length = n ∧ P bs t)
    (he : w.len % 2 = 0) (hF : 2 ≤ w.len) (hhi : w.decHi.length = w.len)
    (hn : ax.Nodup) (hlt : ∀ a ∈ ax, a < x.shape.length) (hxy : LaterByN ax (fun a => 2 ^ L * d a) x y)
    (h : IsDwtN D .zero w ax L x c) (h' : IsDwtN D .zero w ax L y c') : CoeffsLaterBy ax d c c' := by
  have hyl : y.shape.length = x.shape.length := by rw [hxy.shape, setMany_length]
  have hlty : ∀ a ∈ ax, a < y.shape.length := by rw [hyl]; exact hlt
  have hs : ∀ S : List Nat, (sizes ax S).length = ax.length := fun S => by simp [sizes]
  have hE : ∀ {E E' : List ℤ → R}, (∀ js : List ℤ, js.length = ax.length →
      E' js = E (backZ 1 (ax.map fun a => ((2 ^ L * d a : Nat) : ℤ)) js)) → ∀ js : List ℤ, js.length = ax.length →
      E' js = E (backZ (2 ^ L) (ax.map fun a => (d a : ℤ)) js) := by
    intro E E' hh js hj
    rw [hh js hj]
    unfold backZ
    rw [List.zipWith_map_right, List.zipWith_map_right]
    congr 2
    funext u a
    push_cast
    ring
  have hB : ∀ (q : Nat) (ks : List ℤ), backZ (2 ^ q) (ax.map fun a => (d a : ℤ)) ks =
      backZ 1 (ax.map fun a => ((2 ^ q * d a : Nat) : ℤ)) ks := by
    intro q ks
    unfold backZ
    rw [List.zipWith_map_right, List.zipWith_map_right]
    congr 2
    funext u a
    push_cast
    ring
  refine ⟨by rw [h.kind, h'.kind], by rw [h.length, h'.length], ?_, fun q e e' hq hq' bs t t' hb hb' => ?_⟩
  · obtain ⟨t, k1, k2⟩ := h.approx
    obtain ⟨t', l1, l2⟩ := h'.approx
    refine ⟨t, t', k1, l1, later_of (g := fun E => approxZN w ax.length E L) hn hlt hxy (by rw [levelLens_length, hs])
      (by rw [levelLens_length, hs]) k2.md l2.md k2.shape l2.shape
      (ofInfinite_of hn hlt (by rw [levelLens_length, hs]) k2 fun X ks hk => by
        rw [extN_cAN he hF hhi X L ks (by rw [hs, hk]), hs])
      (ofInfinite_of hn hlty (by rw [levelLens_length, hs]) l2 fun X ks hk => by
        rw [extN_cAN he hF hhi X L ks (by rw [hs, hk]), hs]) (fun a ha => ?_) fun E E' hh ks hk => ?_⟩
    · rw [sizes_getD_levelLens hn hlt k2.shape ha, sizes_getD_levelLens hn hlty l2.shape ha]
      have := levelLen_room hF (hxy.room a ha) L le_rfl
      simpa using this
    · show approxZN w ax.length E' L ks = approxZN w ax.length E L _
      rw [approxZN_delay w (by simp) (hE hh) L le_rfl ks hk, hB]
      simp
  · have hlen : q + 1 < c.items.length := (List.getElem?_eq_some_iff.mp hq).1
    rw [h.length] at hlen
    obtain ⟨s, hsL, rfl⟩ : ∃ s, s < L ∧ q = L - (s + 1) := ⟨L - (q + 1), by omega, by omega⟩
    rw [show L - (s + 1) + 1 = L - s by omega] at hq hq'
    obtain ⟨e1, k1, k2⟩ := h.detail s hsL
    obtain ⟨e1', l1, l2⟩ := h'.detail s hsL
    rw [hq] at k1; cases k1
    rw [hq'] at l1; cases l1
    obtain ⟨m1, m2⟩ := hD _ _ _ _ k2 hb
    obtain ⟨-, m3⟩ := hD _ _ _ _ l2 hb'
    refine later_of (g := fun E => detailZN w ax.length E s bs) hn hlt hxy (by rw [levelLens_length, hs])
      (by rw [levelLens_length, hs]) m2.md m3.md m2.shape m3.shape
      (ofInfinite_of hn hlt (by rw [levelLens_length, hs]) m2 fun X ks hk => by
        rw [extN_cDN he hF hhi X s (by rw [hs, hax, m1]) ks (by rw [hs, hk]), hs])
      (ofInfinite_of hn hlty (by rw [levelLens_length, hs]) m3 fun X ks hk => by
        rw [extN_cDN he hF hhi X s (by rw [hs, hax, m1]) ks (by rw [hs, hk]), hs]) (fun a ha => ?_) fun E E' hh ks hk => ?_
    · rw [sizes_getD_levelLens hn hlt m2.shape ha, sizes_getD_levelLens hn hlty m3.shape ha]
      exact levelLen_room hF (hxy.room a ha) (s + 1) (by omega)
    · show detailZN w ax.length E' s bs ks = detailZN w ax.length E s bs _
      rw [detailZN_delay w (by simp) (hE hh) hsL (by rw [m1, hax]) ks hk, hB]

theorem IsTuple.holds {P : List Bool → Tensor R → Prop} {e : Entry R} {bs : List Bool} {t : Tensor R} :
    IsTuple P e → HoldsBand e bs t → bs.length = 2 ∧ P bs t := by
  rintro ⟨a, b, c, rfl, h1, h2, h3⟩ (⟨rfl, rfl⟩ | ⟨rfl, rfl⟩ | ⟨rfl, rfl⟩)
  · exact ⟨rfl, h1⟩
  · exact ⟨rfl, h2⟩
  · exact ⟨rfl, h3⟩

theorem IsDict.holds {P : List Bool → Tensor R → Prop} {n : Nat} {keys : List String} (hk : ∀ k ∈ keys, k.toList.length = n)
    {e : Entry R} {bs : List Bool} {t : Tensor R} : IsDict keys P e → HoldsBand e bs t → bs.length = n ∧ P bs t := by
  rintro ⟨kv, rfl, h1, h2⟩ ⟨key, hm, rfl⟩
  have : key ∈ keys := by rw [← h1]; exact List.mem_map_of_mem (f := Prod.fst) hm
  exact ⟨by simp [bandOfKey, hk key this], h2 _ hm⟩

theorem levelsAdmit_later {w : Wavelet R} {ax : List Nat} {L : Nat} {d : Nat → Nat} {x y : Tensor R} (hF : 2 ≤ w.len)
    (hxy : LaterByN ax (fun a => 2 ^ L * d a) x y) (h : LevelsAdmit .zero w.len (sizes ax x.shape) L) :
    LevelsAdmit .zero w.len (sizes ax y.shape) L := by
  intro s hs k hk
  unfold levelLens sizes at hk
  rw [List.map_map] at hk
  obtain ⟨a, ha, rfl⟩ := List.mem_map.mp hk
  have h1 := h s hs (levelLen w.len (x.shape.getD a 0) s) (by
    unfold levelLens sizes
    rw [List.map_map]
    exact List.mem_map_of_mem (f := ((fun n => levelLen w.len n s) ∘ fun a => x.shape.getD a 0)) ha)
  have h2 := levelLen_room hF (hxy.room a ha) s (by omega)
  simp only [Mode.Admits, Function.comp] at h1 ⊢
  omega

theorem isDwtN_zero_levels {w : Wavelet R} {ax : List Nat} {L : Nat} {x : Tensor R} {c : Coeffs R} {m : Mode}
    {D : (List Bool → Tensor R → Prop) → Entry R → Prop} (hm : Selects (some "zero") m ∨ L = 0) (h : IsDwtN D m w ax L x c) :
    IsDwtN D .zero w ax L x c := by
  rcases hm with hm | rfl
  · rw [Props.selects_unique hm (m' := .zero) (Or.inl rfl)] at h
    exact h
  · obtain ⟨h1, h2, h3, -⟩ := h
    exact ⟨h1, h2, h3, fun s hs => absurd hs (by omega)⟩

theorem delayN {w : Wavelet R} {n L : Nat} {d : Nat → Nat} {axes : AxisHint} {x y : Tensor R} {c : Coeffs R}
    {r r' : Except Err (Coeffs R)} {D : (List Bool → Tensor R → Prop) → Entry R → Prop}
    (hD : ∀ (P : List Bool → Tensor R → Prop) (e : Entry R) bs t, D P e → HoldsBand e bs t → bs.length = n ∧ P bs t)
    (he : w.len % 2 = 0) (hF : 2 ≤ w.len) (hhi : w.decHi.length = w.len)
    (hr : Props.DecChar n D w (some "zero") axes x L r) (hr' : Props.DecChar n D w (some "zero") axes y L r')
    (hxy : LaterByN (axesOf axes x.rank n) (fun a => 2 ^ L * d a) x y) (hc : r = .ok c) :
    ∃ c', r' = .ok c' ∧ CoeffsLaterBy (axesOf axes x.rank n) d c c' := by
  obtain ⟨hg, hdt, m, hm, hA, h⟩ := hr.good c hc
  have hrk : y.rank = x.rank := by
    unfold Tensor.rank
    rw [hxy.shape, setMany_length]
  have hmz : m = .zero := by
    rcases hm with hm | ⟨-, hm⟩
    · exact Props.selects_unique hm (Or.inl rfl)
    · exact absurd (Or.inl rfl) (hm .zero)
  subst hmz
  obtain ⟨c', e, h'⟩ := hr'.ok .zero (by rw [hrk]; exact hg) (by rw [hxy.md]; exact hdt) (Or.inl (Or.inl rfl))
    (by rw [hrk]; exact levelsAdmit_later hF hxy hA)
  rw [hrk] at h'
  exact ⟨c', e, coeffsLater_of (by simp [axesOf, hg.len]) hD he hF hhi hg.nodup hg.lt hxy h h'⟩

end

namespace Props
variable [Semiring R]

/-- **C80, several axes.** In `zero` mode `wavedec2` computes the transform of the image continued by zeros in all directions:
every returned tensor, continued by zeros, is the coefficient array of the infinite image. -/
theorem c80_zero_mode_wavedec2 (x : Tensor R) (w : Wavelet R) (level : Option Int) (axes : AxisHint) (c : Coeffs R)
    (hF : 2 ≤ w.len) (he : w.len % 2 = 0) (hhi : w.decHi.length = w.len)
    (hc : wavedec2 x w (some "zero") level axes = .ok c) :
    IsZeroN IsTuple w (axesOf axes x.rank 2) (levelsN level w.len (sizes (axesOf axes x.rank 2) x.shape)) x c := by
  obtain ⟨hg, -, m, hm, -, h⟩ := wavedec2_ok hF hhi hc
  exact isZeroN_of (n := 2) (by simp [axesOf, hg.len]) (fun P Q e h => IsTuple.mono' rfl h) he hF hhi hg.nodup hg.lt
    (isDwtN_zero_levels hm h)

/-- **C80, several axes.** The same for `wavedec3`. -/
theorem c80_zero_mode_wavedec3 (x : Tensor R) (w : Wavelet R) (level : Option Int) (axes : AxisHint) (c : Coeffs R)
    (hF : 2 ≤ w.len) (he : w.len % 2 = 0) (hhi : w.decHi.length = w.len)
    (hL : 0 < levelsN level w.len (sizes (axesOf axes x.rank 3) x.shape))
    (hc : wavedec3 x w (some "zero") level axes = .ok c) :
    IsZeroN (IsDict keys3) w (axesOf axes x.rank 3) (levelsN level w.len (sizes (axesOf axes x.rank 3) x.shape)) x c := by
  obtain ⟨hg, -, m, hm, -, h⟩ := wavedec3_ok hF hhi hL hc
  exact isZeroN_of (n := 3) (by simp [axesOf, hg.len]) (fun P Q e h => IsDict.mono' (by decide) h) he hF hhi hg.nodup hg.lt
    (isDwtN_zero_levels (Or.inl hm) h)

/-- **C80, several axes.** The same for the separable transforms. -/
theorem c80_zero_mode_fswavedec2 (x : Tensor R) (w : Wavelet R) (level : Option Int) (axes : AxisHint) (c : Coeffs R)
    (hF : 2 ≤ w.len) (he : w.len % 2 = 0) (hhi : w.decHi.length = w.len)
    (hc : fswavedec2 x w (some "zero") level axes = .ok c) :
    IsZeroN (IsDict ["da", "ad", "dd"]) w (axesOf axes x.rank 2) (levelsN level w.len (sizes (axesOf axes x.rank 2) x.shape))
      x c := by
  obtain ⟨hg, -, -, m, hm, -, h⟩ := fswavedecn_ok (n := 2) (by omega) hF hhi hc
  rw [sepDetailKeys2] at h
  exact isZeroN_of (n := 2) (by simp [axesOf, hg.len]) (fun P Q e h => IsDict.mono' (by decide) h) he hF hhi hg.nodup hg.lt
    (isDwtN_zero_levels hm h)

theorem c80_zero_mode_fswavedec3 (x : Tensor R) (w : Wavelet R) (level : Option Int) (axes : AxisHint) (c : Coeffs R)
    (hF : 2 ≤ w.len) (he : w.len % 2 = 0) (hhi : w.decHi.length = w.len)
    (hc : fswavedec3 x w (some "zero") level axes = .ok c) :
    IsZeroN (IsDict ["daa", "ada", "dda", "aad", "dad", "add", "ddd"]) w (axesOf axes x.rank 3)
      (levelsN level w.len (sizes (axesOf axes x.rank 3) x.shape)) x c := by
  obtain ⟨hg, -, -, m, hm, -, h⟩ := fswavedecn_ok (n := 3) (by omega) hF hhi hc
  rw [sepDetailKeys3] at h
  exact isZeroN_of (n := 3) (by simp [axesOf, hg.len]) (fun P Q e h => IsDict.mono' (by decide) h) he hF hhi hg.nodup hg.lt
    (isDwtN_zero_levels hm h)

/-- **C80, several axes.** Delays and appended zeros: let `y` be the image `x` with `2^L d a` zeros in front and any number of
zeros behind along every transformed axis `a`.  Then the coefficients of `y` are those of `x` with `d a` zeros in front at the
coarsest level, twice as many at the next one and so on, and zeros behind. -/
theorem c80_delay_wavedec2 (x y : Tensor R) (w : Wavelet R) (L : Nat) (d : Nat → Nat) (axes : AxisHint) (c : Coeffs R)
    (hF : 2 ≤ w.len) (he : w.len % 2 = 0) (hhi : w.decHi.length = w.len)
    (hxy : LaterByN (axesOf axes x.rank 2) (fun a => 2 ^ L * d a) x y)
    (hc : wavedec2 x w (some "zero") (some L) axes = .ok c) :
    ∃ c', wavedec2 y w (some "zero") (some L) axes = .ok c' ∧ CoeffsLaterBy (axesOf axes x.rank 2) d c c' :=
  delayN (fun _ _ _ _ => IsTuple.holds) he hF hhi (decChar2 x w _ L axes hF hhi) (decChar2 y w _ L axes hF hhi) hxy hc

theorem c80_delay_wavedec3 (x y : Tensor R) (w : Wavelet R) (L : Nat) (d : Nat → Nat) (axes : AxisHint) (c : Coeffs R)
    (hF : 2 ≤ w.len) (he : w.len % 2 = 0) (hhi : w.decHi.length = w.len) (hL : 0 < L)
    (hxy : LaterByN (axesOf axes x.rank 3) (fun a => 2 ^ L * d a) x y)
    (hc : wavedec3 x w (some "zero") (some L) axes = .ok c) :
    ∃ c', wavedec3 y w (some "zero") (some L) axes = .ok c' ∧ CoeffsLaterBy (axesOf axes x.rank 3) d c c' :=
  delayN (fun _ _ _ _ => IsDict.holds (by decide)) he hF hhi (decChar3 x w _ L axes hF hhi hL) (decChar3 y w _ L axes hF hhi hL)
    hxy hc

theorem c80_delay_fswavedec2 (x y : Tensor R) (w : Wavelet R) (L : Nat) (d : Nat → Nat) (axes : AxisHint) (c : Coeffs R)
    (hF : 2 ≤ w.len) (he : w.len % 2 = 0) (hhi : w.decHi.length = w.len)
    (hxy : LaterByN (axesOf axes x.rank 2) (fun a => 2 ^ L * d a) x y)
    (hc : fswavedec2 x w (some "zero") (some L) axes = .ok c) :
    ∃ c', fswavedec2 y w (some "zero") (some L) axes = .ok c' ∧ CoeffsLaterBy (axesOf axes x.rank 2) d c c' :=
  delayN (fun _ _ _ _ => IsDict.holds sepKeys_length) he hF hhi (decCharS x w 2 _ L axes (by omega) hF hhi)
    (decCharS y w 2 _ L axes (by omega) hF hhi) hxy hc

theorem c80_delay_fswavedec3 (x y : Tensor R) (w : Wavelet R) (L : Nat) (d : Nat → Nat) (axes : AxisHint) (c : Coeffs R)
    (hF : 2 ≤ w.len) (he : w.len % 2 = 0) (hhi : w.decHi.length = w.len)
    (hxy : LaterByN (axesOf axes x.rank 3) (fun a => 2 ^ L * d a) x y)
    (hc : fswavedec3 x w (some "zero") (some L) axes = .ok c) :
    ∃ c', fswavedec3 y w (some "zero") (some L) axes = .ok c' ∧ CoeffsLaterBy (axesOf axes x.rank 3) d c c' :=
  delayN (fun _ _ _ _ => IsDict.holds sepKeys_length) he hF hhi (decCharS x w 3 _ L axes (by omega) hF hhi)
    (decCharS y w 3 _ L axes (by omega) hF hhi) hxy hc

/-- Every tensor can be delayed and continued by zeros along several axes. -/
theorem laterByN_exists (x : Tensor R) {ax : List Nat} {δ : Nat → Nat} {ns : List Nat} (hn : ax.Nodup)
    (hlt : ∀ a ∈ ax, a < x.shape.length) (hl : ns.length = ax.length)
    (hr : ∀ a ∈ ax, x.shape.getD a 0 + δ a ≤ (setMany x.shape ax ns).getD a 0) :
    ∃ y, LaterByN ax δ x y ∧ y.shape = setMany x.shape ax ns :=
  ⟨ofFn x.md (setMany x.shape ax ns) fun idx => planeZ x ax idx (ax.map fun a => (idx.getD a 0 : ℤ) - δ a),
    ⟨rfl, by rw [ofFn_shape, sizes_setMany hn hlt hl], by rw [ofFn_shape]; exact hr, fun idx hidx => ofFn_get_of _ _ hidx⟩, rfl⟩

/-- A case: the image of odd sizes inside a batch, transformed along axes 0 and 2 (the last one first), delayed by 4 samples
along axis 0 and 12 along axis 2. -/
example : ∃ c y c', wavedec2 exI haar (some "zero") (some 2) (.seq [2, -3]) = .ok c ∧
    LaterByN (axesOf (.seq [2, -3]) exI.rank 2) (fun a => 2 ^ 2 * (a + 1)) exI y ∧
    wavedec2 y haar (some "zero") (some 2) (.seq [2, -3]) = .ok c' ∧
    CoeffsLaterBy (axesOf (.seq [2, -3]) exI.rank 2) (fun a => a + 1) c c' ∧
    IsZeroN IsTuple haar (axesOf (.seq [2, -3]) exI.rank 2) 2 exI c := by
  obtain ⟨c, hc⟩ := (c16_wavedec2_succeeds_iff exI haar (some "zero") .zero (some 2) (.seq [2, -3]) (Or.inl rfl) (by decide)
    rfl).mpr ⟨exI_axes, Or.inr rfl, by
      have hs : sizes (axesOf (.seq [2, -3]) exI.rank 2) exI.shape = [5, 3] := rfl
      rw [hs]
      intro s _ k hk
      simp only [levelLens, List.map_cons, List.map_nil, List.mem_cons, List.not_mem_nil, or_false] at hk
      rcases hk with rfl | rfl
      · have : 1 ≤ levelLen haar.len 5 s := levelLen_pos (by decide) (by decide) s
        show 4 ≤ 2 + levelLen haar.len 5 s + levelLen haar.len 5 s % 2
        omega
      · have : 1 ≤ levelLen haar.len 3 s := levelLen_pos (by decide) (by decide) s
        show 4 ≤ 2 + levelLen haar.len 3 s + levelLen haar.len 3 s % 2
        omega⟩
  obtain ⟨y, hy, -⟩ := laterByN_exists exI (ax := axesOf (.seq [2, -3]) exI.rank 2) (δ := fun a => 2 ^ 2 * (a + 1))
    (ns := [20, 9]) exI_axes.nodup exI_axes.lt rfl (by decide)
  obtain ⟨c', h1, h2⟩ := c80_delay_wavedec2 exI y haar 2 (fun a => a + 1) (.seq [2, -3]) c (by decide) rfl rfl hy hc
  exact ⟨c, y, c', hc, hy, h1, h2, c80_zero_mode_wavedec2 exI haar (some 2) _ c (by decide) rfl rfl hc⟩

/-- A case in three dimensions. -/
example : ∃ c y c', wavedec3 exV haar (some "zero") (some 2) (.seq [1, -1, 0]) = .ok c ∧
    LaterByN (axesOf (.seq [1, -1, 0]) exV.rank 3) (fun a => 2 ^ 2 * a) exV y ∧
    wavedec3 y haar (some "zero") (some 2) (.seq [1, -1, 0]) = .ok c' ∧
    CoeffsLaterBy (axesOf (.seq [1, -1, 0]) exV.rank 3) (fun a => a) c c' ∧
    IsZeroN (IsDict keys3) haar (axesOf (.seq [1, -1, 0]) exV.rank 3) 2 exV c := by
  obtain ⟨c, hc⟩ := (c18_wavedec3_succeeds_iff exV haar (some "zero") .zero (some 2) (.seq [1, -1, 0]) (Or.inl rfl) (by decide)
    rfl (by decide)).mpr ⟨exV_axes, Or.inl rfl, by
      have hs : sizes (axesOf (.seq [1, -1, 0]) exV.rank 3) exV.shape = [2, 5, 3] := rfl
      rw [hs]
      intro s _ k hk
      simp only [levelLens, List.map_cons, List.map_nil, List.mem_cons, List.not_mem_nil, or_false] at hk
      rcases hk with rfl | rfl | rfl
      · have : 1 ≤ levelLen haar.len 2 s := levelLen_pos (by decide) (by decide) s
        show 4 ≤ 2 + levelLen haar.len 2 s + levelLen haar.len 2 s % 2
        omega
      · have : 1 ≤ levelLen haar.len 5 s := levelLen_pos (by decide) (by decide) s
        show 4 ≤ 2 + levelLen haar.len 5 s + levelLen haar.len 5 s % 2
        omega
      · have : 1 ≤ levelLen haar.len 3 s := levelLen_pos (by decide) (by decide) s
        show 4 ≤ 2 + levelLen haar.len 3 s + levelLen haar.len 3 s % 2
        omega⟩
  obtain ⟨y, hy, -⟩ := laterByN_exists exV (ax := axesOf (.seq [1, -1, 0]) exV.rank 3) (δ := fun a => 2 ^ 2 * a)
    (ns := [7, 15, 3]) exV_axes.nodup exV_axes.lt rfl (by decide)
  obtain ⟨c', h1, h2⟩ := c80_delay_wavedec3 exV y haar 2 (fun a => a) (.seq [1, -1, 0]) c (by decide) rfl rfl (by decide) hy hc
  exact ⟨c, y, c', hc, hy, h1, h2, c80_zero_mode_wavedec3 exV haar (some 2) _ c (by decide) rfl rfl (by decide) hc⟩

end Props
end Verif
