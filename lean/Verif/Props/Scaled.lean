/-
C82: rescaled filters.
-/
import Verif.Spec.Scaled
import Verif.Props.MirrorRec
import Verif.Lemmas.RelN

namespace Verif
open Tensor Spec
variable {R : Type}

section
variable [CommSemiring R]

theorem getD_scale (c : R) (f : List R) (j : Nat) : (f.map fun a => c * a).getD j 0 = c * f.getD j 0 := by
  rw [List.getD_eq_getElem?_getD, List.getD_eq_getElem?_getD, List.getElem?_map]
  cases f[j]? <;> simp

theorem tap_scale (c : R) (f : List R) (i : ℤ) : tap (f.map fun a => c * a) i = c * tap f i := by
  unfold tap
  split_ifs
  · exact getD_scale _ _ _
  · simp

theorem ext_scale {m : Mode} {n : Nat} (η : R) {v v' : Nat → R} (h : ∀ j, v' j = η * v j) (i : ℤ) :
    ext m n v' i = η * ext m n v i := by
  unfold ext
  cases extIdx m n i with
  | none => simp
  | some j => exact h j

theorem dwtStep_scale {m : Mode} {n : Nat} (c η : R) (f : List R) {v v' : Nat → R} (h : ∀ j, v' j = η * v j) (k : Nat) :
    dwtStep m (f.map fun a => c * a) n v' k = (c * η) * dwtStep m f n v k := by
  unfold dwtStep analysis
  rw [List.length_map, Finset.mul_sum]
  refine Finset.sum_congr rfl fun j _ => ?_
  rw [getD_scale, ext_scale η h]
  ring

variable {α β γ δ : R} {w w' : Wavelet R}

theorem Spec.ScaledBank.len (hw : ScaledBank α β γ δ w w') : w'.len = w.len := by
  show w'.decLo.length = _
  rw [hw.decLo, List.length_map]
  rfl

theorem Spec.ScaledBank.wrel (hw : ScaledBank α β γ δ w w') : WRel (fun _ _ => True) w w' := by
  have key : ∀ (c : R) (f : List R), List.Forall₂ (fun _ _ => True) f (f.map fun a => c * a) := by
    intro c f
    induction f with
    | nil => exact .nil
    | cons a f ih => exact .cons trivial ih
  exact ⟨hw.decLo ▸ key _ _, hw.decHi ▸ key _ _, hw.recLo ▸ key _ _, hw.recHi ▸ key _ _⟩

theorem closed_true : Spec.Closed (fun _ _ : R => True) := ⟨trivial, fun _ _ => trivial, fun _ _ => trivial⟩

theorem cA_scale {m : Mode} (hw : ScaledBank α β γ δ w w') {n : Nat} (v : Nat → R) :
    ∀ s k, cA m w' n v s k = α ^ s * cA m w n v s k
  | 0, k => by simp [cA]
  | s + 1, k => by
    show dwtStep m w'.decLo (levelLen w'.len n s) (cA m w' n v s) k =
      α ^ (s + 1) * dwtStep m w.decLo (levelLen w.len n s) (cA m w n v s) k
    rw [hw.len, hw.decLo, dwtStep_scale α (α ^ s) w.decLo (cA_scale hw v s), pow_succ']

theorem cD_scale {m : Mode} (hw : ScaledBank α β γ δ w w') {n : Nat} (v : Nat → R) (s k : Nat) :
    cD m w' n v s k = (α ^ s * β) * cD m w n v s k := by
  show dwtStep m w'.decHi (levelLen w'.len n s) (cA m w' n v s) k =
    (α ^ s * β) * dwtStep m w.decHi (levelLen w.len n s) (cA m w n v s) k
  rw [hw.len, hw.decHi, dwtStep_scale β (α ^ s) w.decHi (cA_scale hw v s), mul_comm β]

theorem dwtN_scale {m : Mode} (α β : R) (lo hi : List R) : ∀ {bs : List Bool} {ns ks : List Nat} {η : R} {X X' : List Nat → R},
    bs.length = ns.length → ks.length = ns.length → (∀ js, js.length = ns.length → X' js = η * X js) →
    dwtN m ((bandFilt (lo.map fun a => α * a) (hi.map fun a => β * a) bs).zip ns) X' ks =
      (α ^ bs.count false * β ^ bs.count true * η) * dwtN m ((bandFilt lo hi bs).zip ns) X ks
  | [], [], [], η, X, X', _, _, h => by
    show X' [] = _ * X []
    rw [h [] rfl]
    simp
  | b :: bs, n :: ns, k :: ks, η, X, X', h1, h2, h => by
    have ih : ∀ j, dwtN m ((bandFilt (lo.map fun a => α * a) (hi.map fun a => β * a) bs).zip ns) (fun js => X' (j :: js)) ks =
        (α ^ bs.count false * β ^ bs.count true * η) * dwtN m ((bandFilt lo hi bs).zip ns) (fun js => X (j :: js)) ks := fun j =>
      dwtN_scale α β lo hi (by simpa using h1) (by simpa using h2) fun js hj => h (j :: js) (by simp [hj])
    cases b with
    | false =>
      refine (dwtStep_scale α _ lo ih k).trans ?_
      rw [List.count_cons_self, List.count_cons_of_ne (by decide), pow_succ']
      exact congrArg₂ (· * ·) (by ring) rfl
    | true =>
      refine (dwtStep_scale β _ hi ih k).trans ?_
      rw [List.count_cons_self, List.count_cons_of_ne (by decide), pow_succ']
      exact congrArg₂ (· * ·) (by ring) rfl
  | [], [], _ :: _, _, _, _, _, h, _ => by simp at h
  | _ :: _, _ :: _, [], _, _, _, _, h, _ => by simp at h
  | [], _ :: _, _, _, _, _, h, _, _ => by simp at h
  | _ :: _, [], _, _, _, _, h, _, _ => by simp at h

theorem cAN_scale {m : Mode} (hw : ScaledBank α β γ δ w w') {ns : List Nat} (X : List Nat → R) :
    ∀ s ks, ks.length = ns.length → cAN m w' ns X s ks = α ^ (ns.length * s) * cAN m w ns X s ks
  | 0, ks, _ => by simp [cAN]
  | s + 1, ks, hk => by
    show dwtN m ((bandFilt w'.decLo w'.decHi (lowBand ns.length)).zip (levelLens w'.len ns s)) (cAN m w' ns X s) ks =
      _ * dwtN m ((bandFilt w.decLo w.decHi (lowBand ns.length)).zip (levelLens w.len ns s)) (cAN m w ns X s) ks
    rw [hw.len, hw.decLo, hw.decHi, dwtN_scale (η := α ^ (ns.length * s)) (X := cAN m w ns X s) α β w.decLo w.decHi
      (by simp [lowBand, levelLens]) (by rw [levelLens_length, hk]) (fun js hj => cAN_scale hw X s js (by rw [hj, levelLens_length]))]
    congr 1
    have h1 : (lowBand ns.length).count true = 0 := by simp [lowBand, List.count_replicate]
    have h2 : (lowBand ns.length).count false = ns.length := by simp [lowBand]
    rw [h1, h2, mul_add, pow_zero, mul_one, mul_one, pow_add]
    ring

theorem cDN_scale {m : Mode} (hw : ScaledBank α β γ δ w w') {ns : List Nat} (X : List Nat → R) (s : Nat) {bs : List Bool}
    (hb : bs.length = ns.length) (ks : List Nat) (hk : ks.length = ns.length) :
    cDN m w' ns X s bs ks = bandFactor α β s bs * cDN m w ns X s bs ks := by
  show dwtN m ((bandFilt w'.decLo w'.decHi bs).zip (levelLens w'.len ns s)) (cAN m w' ns X s) ks =
    _ * dwtN m ((bandFilt w.decLo w.decHi bs).zip (levelLens w.len ns s)) (cAN m w ns X s) ks
  rw [hw.len, hw.decLo, hw.decHi, dwtN_scale (η := α ^ (ns.length * s)) (X := cAN m w ns X s) α β w.decLo w.decHi
    (by rw [levelLens_length, hb]) (by rw [levelLens_length, hk]) (fun js hj => cAN_scale hw X s js (by rw [hj, levelLens_length]))]
  congr 1
  unfold bandFactor
  rw [hb, pow_add]
  ring

theorem times_of {ax Ks : List Nat} {c : R} {x t t' : Tensor R} {f f' : (List Nat → R) → List Nat → R}
    (ht : AlongAxes ax Ks f x t) (ht' : AlongAxes ax Ks f' x t')
    (hf : ∀ X ks, ks.length = ax.length → f' X ks = c * f X ks) : Times c t t' := by
  have hs : t'.shape = t.shape := by rw [ht'.shape, ht.shape]
  refine ⟨by rw [ht'.md, ht.md], hs, fun idx hidx => ?_⟩
  rw [ht'.get idx (by rw [hs]; exact hidx), hf _ _ (by simp [sizes]), ht.get idx hidx]

theorem coeffsScaled_of {m m' : Mode} {ax : List Nat} {L n : Nat} {x : Tensor R} {c c' : Coeffs R}
    {D : (List Bool → Tensor R → Prop) → Entry R → Prop} (hax : ax.length = n)
    (hD : ∀ (P : List Bool → Tensor R → Prop) (e : Entry R) bs t, D P e → HoldsBand e bs t → bs.length = n ∧ P bs t)
    (hw : ScaledBank α β γ δ w w') (hm : m' = m ∨ L = 0)
    (h : IsDwtN D m w ax L x c) (h' : IsDwtN D m' w' ax L x c') : CoeffsScaled n α β c c' := by
  have hs : (sizes ax x.shape).length = n := by simpa [sizes] using hax
  refine ⟨by rw [h.kind, h'.kind], by rw [h.length, h'.length], ?_, fun q e e' hq hq' bs t t' hb hb' => ?_⟩
  · obtain ⟨t, k1, k2⟩ := h.approx
    obtain ⟨t', l1, l2⟩ := h'.approx
    unfold IsApprox at l2
    rw [hw.len] at l2
    refine ⟨t, t', k1, l1, times_of k2 l2 fun X ks hk => ?_⟩
    rw [h.length, Nat.add_sub_cancel]
    rcases hm with rfl | rfl
    · rw [cAN_scale hw X L ks (by rw [hk, hs, hax]), hs]
    · simp [cAN]
  · have hlen : q + 1 < c.items.length := (List.getElem?_eq_some_iff.mp hq).1
    rw [h.length] at hlen
    obtain ⟨s, hsL, rfl⟩ : ∃ s, s < L ∧ q = L - (s + 1) := ⟨L - (q + 1), by omega, by omega⟩
    rw [h.length, show L + 1 - 2 - (L - (s + 1)) = s by omega]
    rw [show L - (s + 1) + 1 = L - s by omega] at hq hq'
    obtain ⟨e1, k1, k2⟩ := h.detail s hsL
    obtain ⟨e1', l1, l2⟩ := h'.detail s hsL
    rw [hq] at k1; cases k1
    rw [hq'] at l1; cases l1
    obtain ⟨m1, m2⟩ := hD _ _ _ _ k2 hb
    obtain ⟨-, m3⟩ := hD _ _ _ _ l2 hb'
    obtain rfl : m' = m := hm.resolve_right (by omega)
    unfold IsBand at m3
    rw [hw.len] at m3
    exact ⟨m1, times_of m2 m3 fun X ks hk => cDN_scale hw X s (by rw [hs, m1]) ks (by rw [hk, hs, hax])⟩

theorem scaledTwo {A : Type} {P Q : A → A → Prop} {r r' : Except Err A} (h : Two Q r r')
    (hP : ∀ c c', r = .ok c → r' = .ok c' → P c c') : Two P r r' := by
  cases h with
  | ok _ => exact .ok (hP _ _ rfl rfl)
  | err e => exact .err e

theorem trel_true (x : Tensor R) : TRel (fun _ _ => True) x x := ⟨rfl, rfl, fun _ => trivial⟩

/-! ### Synthesis -/

theorem synthesis_scale {f₀ f₁ : List R} {K : Nat} {η : R} {lo lo' hi hi' : Nat → R} (hlo : ∀ k, k < K → lo' k = (η * γ) * lo k)
    (hhi : ∀ k, k < K → hi' k = (η * δ) * hi k) (m : ℤ) :
    synthesis f₀ f₁ K lo' hi' m = η * synthesis (f₀.map fun a => γ * a) (f₁.map fun a => δ * a) K lo hi m := by
  unfold synthesis
  rw [Finset.mul_sum]
  refine Finset.sum_congr rfl fun k hk => ?_
  rw [Finset.mem_range] at hk
  rw [hlo k hk, hhi k hk, tap_scale, tap_scale]
  ring

theorem synthesisN_scale {f₀ f₁ : List R} : ∀ {Ks : List Nat} {η : R} {c c' : List Bool → List Nat → R} {ms : List ℤ},
    ms.length = Ks.length →
    (∀ bs ks, bs.length = Ks.length → InB Ks ks → c' bs ks = (η * (γ ^ bs.count false * δ ^ bs.count true)) * c bs ks) →
    synthesisN f₀ f₁ Ks c' ms = η * synthesisN (f₀.map fun a => γ * a) (f₁.map fun a => δ * a) Ks c ms
  | [], η, c, c', [], _, h => by
    have := h [] [] rfl trivial
    simpa [synthesisN] using this
  | K :: Ks, η, c, c', m :: ms, hm, h => by
    refine synthesis_scale (fun k hk => ?_) (fun k hk => ?_) m
    · refine synthesisN_scale (by simpa using hm) fun bs ks hb hks => ?_
      rw [h (false :: bs) (k :: ks) (by simp [hb]) ⟨hk, hks⟩, List.count_cons_self, List.count_cons_of_ne (by decide), pow_succ]
      ring
    · refine synthesisN_scale (by simpa using hm) fun bs ks hb hks => ?_
      rw [h (true :: bs) (k :: ks) (by simp [hb]) ⟨hk, hks⟩, List.count_cons_self, List.count_cons_of_ne (by decide), pow_succ]
      ring
  | [], _, _, _, _ :: _, h, _ => by simp at h
  | _ :: _, _, _, _, [], h, _ => by simp at h

/-- The relation between the details of the two reconstructions, as functions. -/
def FunsScaled (n : Nat) (γ δ : R) : List (List Nat × (List Bool → List Nat → R)) → List (List Nat × (List Bool → List Nat → R)) → Prop
  | [], [] => True
  | d :: ds, d' :: ds' => (d'.1 = d.1 ∧ d.1.length = n ∧ ∀ bs ks, bs.length = n → InB d.1 ks →
      d'.2 bs ks = bandFactor γ δ ds.length bs * d.2 bs ks) ∧ FunsScaled n γ δ ds ds'
  | _, _ => False

theorem funsScaled_length {n : Nat} {γ δ : R} : ∀ {ds ds' : List (List Nat × (List Bool → List Nat → R))},
    FunsScaled n γ δ ds ds' → ds'.length = ds.length
  | [], [], _ => rfl
  | _ :: _, _ :: _, h => by rw [List.length_cons, List.length_cons, funsScaled_length h.2]
  | [], _ :: _, h => h.elim
  | _ :: _, [], h => h.elim

theorem funsScaled_head {n : Nat} {γ δ : R} {ds ds' : List (List Nat × (List Bool → List Nat → R))}
    (h : FunsScaled n γ δ ds ds') {d : List Nat × (List Bool → List Nat → R)} (hd : d ∈ ds.head?) : d.1.length = n := by
  cases ds with
  | nil => cases hd
  | cons d0 ds =>
    cases ds' with
    | nil => exact h.elim
    | cons _ _ =>
      cases hd
      exact h.1.2.1

theorem idwtN_scale {f₀ f₁ : List R} {F n : Nat} : ∀ {ds ds' : List (List Nat × (List Bool → List Nat → R))}
    {lo lo' : List Nat → R} {ms : List Nat}, FunsScaled n γ δ ds ds' →
    (∀ d ∈ ds.head?, ∀ ks, InB d.1 ks → lo' ks = γ ^ (n * ds.length) * lo ks) →
    (ds = [] → lo' ms = lo ms) → ms.length = n →
    idwtN f₀ f₁ F lo' ds' ms = idwtN (f₀.map fun a => γ * a) (f₁.map fun a => δ * a) F lo ds ms
  | [], [], _, _, _, _, _, h, _ => h rfl
  | (K, hi) :: rest, (K', hi') :: rest', lo, lo', ms, hd, hlo, _, hms => by
    obtain ⟨⟨e, hK, hhi⟩, hd⟩ := hd
    change K' = K at e
    change K.length = n at hK
    subst e
    have hlo := hlo (K', hi) rfl
    have key : ∀ ks : List Nat, ks.length = n →
        synthesisN f₀ f₁ K' (fun bs => if true ∈ bs then hi' bs else lo') (ks.map fun k => ((k + (F - 2) : ℕ) : ℤ)) =
        γ ^ (n * rest.length) * synthesisN (f₀.map fun a => γ * a) (f₁.map fun a => δ * a) K'
          (fun bs => if true ∈ bs then hi bs else lo) (ks.map fun k => ((k + (F - 2) : ℕ) : ℤ)) := by
      intro ks hks
      refine synthesisN_scale (by rw [List.length_map, hks, hK]) fun bs js hb hj => ?_
      by_cases ht : true ∈ bs
      · simp only [if_pos ht]
        have : hi' bs js = bandFactor γ δ rest.length bs * hi bs js := hhi bs js (by rw [hb, hK]) hj
        rw [this]
        unfold bandFactor
        rw [hb, hK, pow_add]
        ring
      · simp only [if_neg ht]
        have h1 : bs.count true = 0 := List.count_eq_zero_of_not_mem ht
        have h2 : bs.count false = n := by
          have : bs.count false + bs.count true = bs.length := by
            clear hj hb ht h1
            induction bs with
            | nil => rfl
            | cons b bs ih => cases b <;> simp <;> omega
          rw [← hK, ← hb]
          omega
        rw [hlo js hj, h1, h2, pow_zero, mul_one, List.length_cons, mul_add, mul_one, pow_add]
    show idwtN f₀ f₁ F _ rest' ms = idwtN _ _ F _ rest ms
    refine idwtN_scale hd (fun d hd' ks hk => ?_) (fun h => ?_) hms
    · have hdn : d.1.length = n := funsScaled_head hd hd'
      exact key ks (by rw [hk.length_eq, hdn])
    · subst h
      have := key ms hms
      simpa using this
  | [], _ :: _, _, _, _, h, _, _, _ => h.elim
  | _ :: _, [], _, _, _, h, _, _, _ => h.elim

theorem times_plane {ax S N Ks : List Nat} {c : R} {t t' : Tensor R} (hn : ax.Nodup) (hlt : ∀ a ∈ ax, a < S.length)
    (hK : Ks.length = ax.length) (hN : N.length = ax.length) (ht : t.shape = setMany S ax Ks) (h : Times c t t')
    {idx : List Nat} (hidx : InB (setMany S ax N) idx) {ks : List Nat} (hk : InB Ks ks) :
    plane t' ax idx ks = c * plane t ax idx ks := by
  have hkl : ks.length = ax.length := by rw [hk.length_eq, hK]
  have hts : sizes ax t.shape = Ks := by rw [ht, sizes_setMany hn hlt hK]
  have hb : InB t.shape (setMany idx ax ks) :=
    inB_setMany hn (by rw [ht, setMany_length]; exact hlt) hN (by rw [ht, setMany_setMany hn hlt hN]; exact hidx)
      (by rw [hts]; exact hk)
  unfold plane
  rw [if_pos hkl, if_pos hkl, h.get _ hb]

theorem funsScaled_of {n : Nat} {md : Meta} {ax S N idx : List Nat} (hn : ax.Nodup) (hlt : ∀ a ∈ ax, a < S.length)
    (hax : ax.length = n) (hN : N.length = n) (hidx : InB (setMany S ax N) idx) :
    ∀ {es es' : List (Entry R)} {Kss : List (List Nat)}, (∀ Ks ∈ Kss, Ks.length = n) →
      List.Forall₂ (fun e Ks => ∀ bs t, bandGet e bs = some t → Uniform md (setMany S ax Ks) t) es Kss →
      DetailsScaled n γ δ es es' → FunsScaled n γ δ (List.zipWith (fun e Ks => (Ks, bandPlane e ax idx)) es Kss)
        (List.zipWith (fun e Ks => (Ks, bandPlane e ax idx)) es' Kss)
  | [], [], [], _, _, _ => trivial
  | e :: es, e' :: es', Ks :: Kss, hK, .cons hu hus, ⟨h, hs⟩ => by
    have hKn : Ks.length = n := hK Ks (by simp)
    refine ⟨⟨rfl, hKn, fun bs ks hb hks => ?_⟩, funsScaled_of hn hlt hax hN hidx (fun K h => hK K (by simp [h])) hus hs⟩
    have hl : (List.zipWith (fun e Ks => (Ks, bandPlane e ax idx)) es Kss).length = es.length := by
      rw [List.length_zipWith, hus.length_eq, min_self]
    rw [hl]
    have hr := h bs hb
    change InB Ks ks at hks
    show bandPlane e' ax idx bs ks = _ * bandPlane e ax idx bs ks
    unfold bandPlane
    cases h2 : bandGet e bs with
    | none =>
      rw [h2] at hr
      cases h3 : bandGet e' bs with
      | none => simp
      | some t' => rw [h3] at hr; cases hr
    | some t =>
      rw [h2] at hr
      cases h3 : bandGet e' bs with
      | none => rw [h3] at hr; cases hr
      | some t' =>
        rw [h3] at hr
        cases hr with
        | some hr => exact times_plane hn hlt (by rw [hKn, hax]) (by rw [hN, hax]) (hu bs t h2).2 hr hidx hks
  | [], _ :: _, _, _, _, h => h.elim
  | _ :: _, [], _, _, _, h => h.elim

/-- From the formulas for the two reconstructions to the tensors. -/
theorem scaled_rec {F n : Nat} {ax S K0 N : List Nat} {Kss : List (List Nat)} {md : Meta}
    {t0 t0' : Tensor R} {es es' : List (Entry R)} {z z' : Tensor R} (hw : ScaledBank α β γ δ w w')
    (hn : ax.Nodup) (hlt : ∀ a ∈ ax, a < S.length) (hax : ax.length = n) (hK : ∀ Ks ∈ K0 :: Kss, Ks.length = n)
    (hN : N.length = n) (hN0 : Kss = [] → N = K0) (hhead : ∀ d ∈ Kss.head?, ∀ ks, InB d ks → InB K0 ks)
    (ht : Uniform md (setMany S ax K0) t0)
    (hU : List.Forall₂ (fun e Ks => ∀ bs t, bandGet e bs = some t → Uniform md (setMany S ax Ks) t) es Kss)
    (hc0 : Times (γ ^ (n * es.length)) t0 t0') (hes : DetailsScaled n γ δ es es')
    (hz : z.md = md ∧ z.shape = setMany S ax N ∧ ∀ idx, InB z.shape idx → z.get idx =
        idwtN w.recLo w.recHi F (plane t0' ax idx) (List.zipWith (fun e Ks => (Ks, bandPlane e ax idx)) es' Kss) (sizes ax idx))
    (hz' : z'.md = md ∧ z'.shape = setMany S ax N ∧ ∀ idx, InB z'.shape idx → z'.get idx =
        idwtN w'.recLo w'.recHi F (plane t0 ax idx) (List.zipWith (fun e Ks => (Ks, bandPlane e ax idx)) es Kss)
          (sizes ax idx)) : z' = z := by
  obtain ⟨z1, z2, z3⟩ := hz
  obtain ⟨z1', z2', z3'⟩ := hz'
  refine Tensor.ext' (by rw [z1, z1']) (by rw [z2, z2']) fun idx hidx => ?_
  have hidx' : InB (setMany S ax N) idx := by rw [← z2']; exact hidx
  have hK0 : K0.length = n := hK K0 (by simp)
  have hl : (List.zipWith (fun e Ks => (Ks, bandPlane e ax idx)) es Kss).length = es.length := by
    rw [List.length_zipWith, hU.length_eq, min_self]
  rw [z3 idx (by rw [z2, ← z2']; exact hidx), z3' idx hidx, hw.recLo, hw.recHi]
  have hp : ∀ ks, InB K0 ks → plane t0' ax idx ks = γ ^ (n * es.length) * plane t0 ax idx ks := fun ks hks =>
    times_plane hn hlt (by rw [hK0, hax]) (by rw [hN, hax]) ht.2 hc0 hidx' hks
  refine (idwtN_scale (n := n) (funsScaled_of hn hlt hax hN hidx' (fun K h => hK K (by simp [h])) hU hes)
    (fun d hd ks hks => ?_) (fun h => ?_) (by simpa [sizes] using hax)).symm
  · rw [hl]
    refine hp ks (hhead d.1 ?_ ks hks)
    cases hU with
    | nil => cases hd
    | cons _ _ => cases hd; rfl
  · have he : es = [] := by
      rw [h] at hl
      exact List.length_eq_zero_iff.mp hl.symm
    subst he
    cases hU
    have hk : InB K0 (sizes ax idx) := by
      rw [← hN0 rfl, ← sizes_setMany (l := S) (Ks := N) hn hlt (by rw [hN, hax])]
      exact inB_sizes (by rw [setMany_length]; exact hlt) hidx'
    rw [hp _ hk]
    simp

theorem idwtLenN_length_of {F n : Nat} : ∀ {Ks : List Nat} {Kss : List (List Nat)}, (∀ K ∈ Ks :: Kss, K.length = n) →
    (idwtLenN F Ks Kss).length = n
  | Ks, [], h => h Ks (by simp)
  | _, [d], h => by
    have := h d (by simp)
    simpa [idwtLenN] using this
  | _, _ :: d :: rest, h => idwtLenN_length_of (Ks := d) (Kss := d :: rest) fun K hK => h K (by simp at hK ⊢; tauto)

theorem idwtLenSep_length_of {F n : Nat} : ∀ {Ks : List Nat} {Kss : List (List Nat)}, (∀ K ∈ Ks :: Kss, K.length = n) →
    (idwtLenSep F Ks Kss).length = n
  | Ks, [], h => h Ks (by simp)
  | _, d :: rest, h => idwtLenSep_length_of (Ks := d.map fun D => 2 * D + 2 - F) (Kss := rest) fun K hK => by
    rcases List.mem_cons.mp hK with rfl | hK
    · have := h d (by simp)
      simpa using this
    · exact h K (by simp [hK])

theorem consistentN_head {F : Nat} : ∀ {Ks : List Nat} {Kss : List (List Nat)}, ConsistentN F Ks Kss →
    ∀ d ∈ Kss.head?, ∀ ks, InB d ks → InB Ks ks
  | _, [d], h, _, hd, ks, hk => by cases hd; exact h.1 ▸ hk
  | _, d :: _ :: _, h, _, hd, ks, hk => by cases hd; exact h.1 ▸ hk

theorem coveredN_head {F : Nat} {Ks : List Nat} {Kss : List (List Nat)} (h : CoveredN F Ks Kss) :
    ∀ d ∈ Kss.head?, ∀ ks, InB d ks → InB Ks ks := by
  cases Kss with
  | nil => intro d hd; cases hd
  | cons d Kss =>
    intro d' hd
    cases hd
    replace h := h.1
    induction h with
    | nil => exact fun ks hk => hk
    | cons h1 _ ih =>
      intro ks hk
      match ks, hk with
      | k :: ks, hk => exact ⟨by have := hk.1; omega, ih ks hk.2⟩

end

section
variable [CommSemiring R] {α β γ δ : R} {w w' : Wavelet R}

/-- Pairwise: the q-th of the remaining details carries `γ` per level after it and one `δ`. -/
def FunsScaled1 (γ δ : R) : List (Nat × (Nat → R)) → List (Nat × (Nat → R)) → Prop
  | [], [] => True
  | d :: ds, d' :: ds' => (d'.1 = d.1 ∧ ∀ k < d.1, d'.2 k = (γ ^ ds.length * δ) * d.2 k) ∧ FunsScaled1 γ δ ds ds'
  | _, _ => False

theorem idwt_scale {f₀ f₁ : List R} {F : Nat} : ∀ {ds ds' : List (Nat × (Nat → R))} {lo lo' : Nat → R} {m : Nat},
    FunsScaled1 γ δ ds ds' → (∀ d ∈ ds.head?, ∀ k < d.1, lo' k = γ ^ ds.length * lo k) → (ds = [] → lo' m = lo m) →
    idwt f₀ f₁ F lo' ds' m = idwt (f₀.map fun a => γ * a) (f₁.map fun a => δ * a) F lo ds m
  | [], [], _, _, _, _, _, h => h rfl
  | (K, hi) :: rest, (K', hi') :: rest', lo, lo', m, hd, hlo, _ => by
    obtain ⟨⟨e, hhi⟩, hd⟩ := hd
    change K' = K at e
    subst e
    have hlo := hlo (K', hi) rfl
    have key : ∀ i : ℤ, synthesis f₀ f₁ K' lo' hi' i =
        γ ^ rest.length * synthesis (f₀.map fun a => γ * a) (f₁.map fun a => δ * a) K' lo hi i := by
      intro i
      unfold synthesis
      rw [Finset.mul_sum]
      refine Finset.sum_congr rfl fun k hk => ?_
      have hk := Finset.mem_range.mp hk
      have h1 : hi' k = (γ ^ rest.length * δ) * hi k := hhi k hk
      have h2 : lo' k = γ ^ (rest.length + 1) * lo k := hlo k hk
      rw [tap_scale, tap_scale, h1, h2]
      ring
    show idwt f₀ f₁ F _ rest' m = idwt _ _ F _ rest m
    refine idwt_scale hd (fun d _ k _ => key _) (fun h => ?_)
    subst h
    have := key ((m + (F - 2) : ℕ) : ℤ)
    simpa using this
  | [], _ :: _, _, _, _, h, _, _ => h.elim
  | _ :: _, [], _, _, _, h, _, _ => h.elim

theorem times_line {a N : Nat} {c : R} {t t' : Tensor R} (h : Times c t t') {idx : List Nat} (ha : a < t.shape.length)
    (hidx : InB (t.shape.set a N) idx) {k : Nat} (hk : k < t.shape.getD a 0) : line t' a idx k = c * line t a idx k := by
  unfold line
  exact h.get _ ((inB_set_iff ha hidx).mpr hk)

theorem funsScaled1_of {a N : Nat} {idx : List Nat} : ∀ {rest rest' : List (Tensor R)},
    (∀ t ∈ rest, InB (t.shape.set a N) idx ∧ a < t.shape.length) → rest'.length = rest.length →
    (∀ q t t', rest[q]? = some t → rest'[q]? = some t' → Times (γ ^ (rest.length - 1 - q) * δ) t t') →
    FunsScaled1 γ δ (rest.map fun c => (c.shape.getD a 0, line c a idx)) (rest'.map fun c => (c.shape.getD a 0, line c a idx))
  | [], [], _, _, _ => trivial
  | t :: rest, t' :: rest', hs, hl, h => by
    have h0 := h 0 t t' rfl rfl
    refine ⟨⟨by show t'.shape.getD a 0 = _; rw [h0.shape], fun k hk => ?_⟩,
      funsScaled1_of (fun t ht => hs t (by simp [ht])) (by simpa using hl) fun q u u' hq hq' => ?_⟩
    · have h2 := hs t (by simp)
      rw [List.length_map]
      have := times_line h0 h2.2 h2.1 (show k < t.shape.getD a 0 from hk)
      simpa using this
    · have := h (q + 1) u u' hq hq'
      rwa [List.length_cons, show rest.length + 1 - 1 - (q + 1) = rest.length - 1 - q by omega] at this
  | [], _ :: _, _, h, _ => by simp at h
  | _ :: _, [], _, h, _ => by simp at h

end

namespace Props
variable [CommSemiring R]

/-- **C82, synthesis.** Reconstructing with synthesis filters multiplied by `γ` and `δ` is the same as multiplying the
approximation by `γ` per level and every detail by `γ` per level after it and `δ`. -/
theorem c82_waverec (w w' : Wavelet R) (α β γ δ : R) (F : Nat) (axis : AxisHint) (md : Meta) (S : List Nat)
    (c0 c0' : Tensor R) (rest rest' : List (Tensor R)) (hF : 2 ≤ F) (h0 : w.recLo.length = F) (h1 : w.recHi.length = F)
    (hw : ScaledBank α β γ δ w w') (hg : GoodAxes axis S.length 1) (hdt : md.dtype = .float32 ∨ md.dtype = .float64)
    (hcs : SameBut (axis1 axis S.length) md S (c0 :: rest))
    (hx : Consistent F (c0.shape.getD (axis1 axis S.length) 0) (rest.map (·.shape.getD (axis1 axis S.length) 0)))
    (hc0 : Times (γ ^ rest.length) c0 c0') (hl : rest'.length = rest.length)
    (hr : ∀ q t t', rest[q]? = some t → rest'[q]? = some t' → Times (γ ^ (rest.length - 1 - q) * δ) t t') :
    ∃ z, waverec (c0 :: rest) w' axis = .ok z ∧ waverec (c0' :: rest') w axis = .ok z := by
  have hd : isDtypeSupported md.dtype = true := by unfold isDtypeSupported; simpa using hdt
  have ha : axis1 axis S.length < S.length := axis1_lt hg
  have h0' : w'.recLo.length = F := by rw [hw.recLo]; simpa using h0
  have h1' : w'.recHi.length = F := by rw [hw.recHi]; simpa using h1
  have hmem : ∀ t' ∈ rest', ∃ t ∈ rest, t'.md = t.md ∧ t'.shape = t.shape := by
    intro t' ht'
    obtain ⟨i, hi, rfl⟩ := List.mem_iff_getElem.mp ht'
    have h := hr i _ _ (List.getElem?_eq_getElem (by omega)) (List.getElem?_eq_getElem hi)
    exact ⟨rest[i], List.getElem_mem _, h.md, h.shape⟩
  have hcs' : SameBut (axis1 axis S.length) md S (c0' :: rest') := by
    refine ⟨fun c hc => ?_, fun c hc => ?_⟩
    · rcases List.mem_cons.mp hc with rfl | hc
      · rw [hc0.md]; exact hcs.md c0 (by simp)
      · obtain ⟨t, ht, hf, _⟩ := hmem c hc
        rw [hf]; exact hcs.md t (by simp [ht])
    · rcases List.mem_cons.mp hc with rfl | hc
      · rw [hc0.shape]; exact hcs.shape c0 (by simp)
      · obtain ⟨t, ht, _, hf⟩ := hmem c hc
        rw [hf]; exact hcs.shape t (by simp [ht])
  have hlens : rest'.map (·.shape.getD (axis1 axis S.length) 0) = rest.map (·.shape.getD (axis1 axis S.length) 0) := by
    refine List.ext_getElem (by simpa using hl) fun i h1 h2 => ?_
    rw [List.getElem_map, List.getElem_map]
    rw [List.length_map] at h1 h2
    rw [(hr i _ _ (List.getElem?_eq_getElem h2) (List.getElem?_eq_getElem h1)).shape]
  obtain ⟨z, ez, z1, z2, z3⟩ := (waverec_gen hF h0' h1' hg hd hcs).1 hx
  obtain ⟨z', ez', z1', z2', z3'⟩ := (waverec_gen hF h0 h1 hg hd hcs').1 (by rw [hlens, hc0.shape]; exact hx)
  rw [hlens, hc0.shape] at z2'
  refine ⟨z, ez, ?_⟩
  rw [ez']
  congr 1
  generalize axis1 axis S.length = a at *
  refine Tensor.ext' (by rw [z1, z1']) (by rw [z2, z2']) fun idx hidx => ?_
  have hidx' := hidx
  rw [z2'] at hidx'
  have hshape : ∀ t ∈ c0 :: rest, InB (t.shape.set a (idwtLen F (c0.shape.getD a 0) (rest.map (·.shape.getD a 0)))) idx ∧
      a < t.shape.length := by
    intro t ht
    have e := hcs.shape t ht
    refine ⟨?_, by rw [e]; simpa using ha⟩
    rw [e, List.set_set]
    exact hidx'
  have hs0 := hshape c0 (by simp)
  rw [z3' idx hidx, z3 idx (by rw [z2]; exact hidx'), hw.recLo, hw.recHi]
  refine idwt_scale (funsScaled1_of (fun t ht => hshape t (by simp [ht])) hl hr) (fun d hd' k hk => ?_) fun h => ?_
  · rw [List.length_map]
    refine times_line hc0 hs0.2 hs0.1 ?_
    cases rest with
    | nil => cases hd'
    | cons r rest =>
      cases hd'
      cases rest with
      | nil => rw [← hx.1]; exact hk
      | cons _ _ => rw [← hx.1]; exact hk
  · have : rest = [] := List.map_eq_nil_iff.mp h
    subst this
    have hk : idx.getD a 0 < c0.shape.getD a 0 := by
      have := hs0.1.getD_lt (d := a) (by simpa using hs0.2)
      rwa [getD_set_self hs0.2] at this
    have := times_line hc0 hs0.2 hs0.1 hk
    simpa using this
end Props

namespace Props
section
variable [CommSemiring R]

/-- **C82.** Multiplying the analysis filters by `α` (low pass) and `β` (high pass) multiplies the approximation of `wavedec` by
`α` per level and every detail by `α` per level before it and `β`; the exceptions raised are the same. -/
theorem c82_wavedec (x : Tensor R) (w w' : Wavelet R) (α β γ δ : R) (mode : Option String) (level : Option Int)
    (axis : AxisHint) (hF : 2 ≤ w.len) (hhi : w.decHi.length = w.len) (hw : ScaledBank α β γ δ w w') :
    Two (fun cs cs' => cs'.length = cs.length ∧ ∀ q t t', cs[q]? = some t → cs'[q]? = some t' →
        Times (if q = 0 then α ^ (cs.length - 1) else α ^ (cs.length - 1 - q) * β) t t')
      (wavedec x w mode level axis) (wavedec x w' mode level axis) := by
  have hhi' : w'.decHi.length = w'.len := by rw [hw.len, hw.decHi]; simpa using hhi
  refine scaledTwo (rel_wavedec closed_true (trel_true x) hw.wrel mode level axis) fun cs cs' e e' => ?_
  obtain ⟨m, hm, h⟩ := c02_wavedec_textbook x w mode level axis cs hF hhi e
  obtain ⟨m', hm', h'⟩ := c02_wavedec_textbook x w' mode level axis cs' (by rw [hw.len]; exact hF) hhi' e'
  rw [hw.len] at hm' h'
  generalize axis1 axis x.rank = a at *
  generalize levels level w.len (x.shape.getD a 0) = L at *
  refine ⟨by rw [h.length, h'.length], fun q t t' hq hq' => ?_⟩
  rw [h.length, Nat.add_sub_cancel]
  match q, hq, hq' with
  | 0, hq, hq' =>
    have h8 := h'.approx t' hq'
    rw [hw.len] at h8
    refine times_of (alongAxis_axes (h.approx t hq)) (alongAxis_axes h8) fun X ks hk => ?_
    rw [if_pos rfl]
    by_cases hL : L = 0
    · subst hL
      simp [cA]
    · obtain rfl := selects_unique (hm.resolve_right hL) (hm'.resolve_right hL)
      exact cA_scale hw _ L _
  | q + 1, hq, hq' =>
    have hlt' : q + 1 < cs.length := (List.getElem?_eq_some_iff.mp hq).1
    rw [h.length] at hlt'
    obtain ⟨s, hs, rfl⟩ : ∃ s, s < L ∧ q = L - (s + 1) := ⟨L - (q + 1), by omega, by omega⟩
    obtain rfl := selects_unique (hm.resolve_right (by omega)) (hm'.resolve_right (by omega))
    rw [if_neg (by omega), show L - (L - (s + 1) + 1) = s by omega]
    rw [show L - (s + 1) + 1 = L - s by omega] at hq hq'
    have h8 := h'.detail s t' hs hq'
    rw [hw.len] at h8
    exact times_of (alongAxis_axes (h.detail s t hs hq)) (alongAxis_axes h8) fun X ks hk => cD_scale hw _ s _

/-- **C82, two axes.** -/
theorem c82_wavedec2 (x : Tensor R) (w w' : Wavelet R) (α β γ δ : R) (mode : Option String) (level : Option Int)
    (axes : AxisHint) (hF : 2 ≤ w.len) (hhi : w.decHi.length = w.len) (hw : ScaledBank α β γ δ w w') :
    Two (CoeffsScaled 2 α β) (wavedec2 x w mode level axes) (wavedec2 x w' mode level axes) := by
  have hhi' : w'.decHi.length = w'.len := by rw [hw.len, hw.decHi]; simpa using hhi
  refine scaledTwo (rel_wavedec2 closed_true (trel_true x) hw.wrel mode level axes) fun c c' e e' => ?_
  obtain ⟨hg, -, m, hm, -, h⟩ := wavedec2_ok hF hhi e
  obtain ⟨-, -, m', hm', -, h'⟩ := wavedec2_ok (by rw [hw.len]; exact hF) hhi' e'
  rw [hw.len] at hm' h'
  refine coeffsScaled_of (by simp [axesOf, hg.len]) (fun _ _ _ _ => IsTuple.holds) hw ?_ h h'
  rcases hm with hm | hm
  · exact hm'.imp (fun h => selects_unique h hm) id
  · exact Or.inr hm

/-- **C82, three axes.** -/
theorem c82_wavedec3 (x : Tensor R) (w w' : Wavelet R) (α β γ δ : R) (mode : Option String) (level : Option Int)
    (axes : AxisHint) (hF : 2 ≤ w.len) (hhi : w.decHi.length = w.len)
    (hL : 0 < levelsN level w.len (sizes (axesOf axes x.rank 3) x.shape)) (hw : ScaledBank α β γ δ w w') :
    Two (CoeffsScaled 3 α β) (wavedec3 x w mode level axes) (wavedec3 x w' mode level axes) := by
  have hhi' : w'.decHi.length = w'.len := by rw [hw.len, hw.decHi]; simpa using hhi
  refine scaledTwo (rel_wavedec3 closed_true (trel_true x) hw.wrel mode level axes) fun c c' e e' => ?_
  obtain ⟨hg, -, m, hm, -, h⟩ := wavedec3_ok hF hhi hL e
  obtain ⟨-, -, m', hm', -, h'⟩ := wavedec3_ok (by rw [hw.len]; exact hF) hhi' (by rw [hw.len]; exact hL) e'
  rw [hw.len] at h'
  exact coeffsScaled_of (by simp [axesOf, hg.len]) (fun _ _ _ _ => IsDict.holds (by decide)) hw
    (Or.inl (selects_unique hm' hm)) h h'

theorem scaled_fs (n : Nat) (hn : 1 ≤ n) (x : Tensor R) (w w' : Wavelet R) (α β γ δ : R) (mode : Option String) (level : Option Int)
    (axes : AxisHint) (hF : 2 ≤ w.len) (hhi : w.decHi.length = w.len) (hw : ScaledBank α β γ δ w w') :
    Two (CoeffsScaled n α β) (fswavedecn x w n mode level axes) (fswavedecn x w' n mode level axes) := by
  have hhi' : w'.decHi.length = w'.len := by rw [hw.len, hw.decHi]; simpa using hhi
  refine scaledTwo (rel_fswavedecn closed_true (trel_true x) hw.wrel n mode level axes) fun c c' e e' => ?_
  obtain ⟨hg, -, -, m, hm, -, h⟩ := fswavedecn_ok hn hF hhi e
  obtain ⟨-, -, -, m', hm', -, h'⟩ := fswavedecn_ok hn (by rw [hw.len]; exact hF) hhi' e'
  rw [hw.len] at hm' h'
  refine coeffsScaled_of (by simp [axesOf, hg.len]) (fun _ _ _ _ => IsDict.holds sepKeys_length) hw ?_ h h'
  rcases hm with hm | hm
  · exact hm'.imp (fun h => selects_unique h hm) id
  · exact Or.inr hm

/-- **C82, separable transform along two axes.** -/
theorem c82_fswavedec2 (x : Tensor R) (w w' : Wavelet R) (α β γ δ : R) (mode : Option String) (level : Option Int)
    (axes : AxisHint) (hF : 2 ≤ w.len) (hhi : w.decHi.length = w.len) (hw : ScaledBank α β γ δ w w') :
    Two (CoeffsScaled 2 α β) (fswavedec2 x w mode level axes) (fswavedec2 x w' mode level axes) :=
  scaled_fs 2 (by omega) x w w' α β γ δ mode level axes hF hhi hw

/-- **C82, separable transform along three axes.** -/
theorem c82_fswavedec3 (x : Tensor R) (w w' : Wavelet R) (α β γ δ : R) (mode : Option String) (level : Option Int)
    (axes : AxisHint) (hF : 2 ≤ w.len) (hhi : w.decHi.length = w.len) (hw : ScaledBank α β γ δ w w') :
    Two (CoeffsScaled 3 α β) (fswavedec3 x w mode level axes) (fswavedec3 x w' mode level axes) :=
  scaled_fs 3 (by omega) x w w' α β γ δ mode level axes hF hhi hw

/-- **C82, synthesis along two axes.** Reconstructing with synthesis filters multiplied by `γ` and `δ` is the same as
multiplying the coefficients by the corresponding powers. -/
theorem c82_waverec2 (w w' : Wavelet R) (α β γ δ : R) (F : Nat) (axes : AxisHint) (md : Meta) (S : List Nat)
    (t0 t0' : Tensor R) (es es' : List (Entry R)) (K0 : List Nat) (Kss : List (List Nat)) (hF : 2 ≤ F)
    (h0 : w.recLo.length = F) (h1 : w.recHi.length = F) (hw : ScaledBank α β γ δ w w')
    (hg : GoodAxes axes S.length 2) (hdt : md.dtype = .float32 ∨ md.dtype = .float64) (hK : ∀ Ks ∈ K0 :: Kss, Ks.length = 2)
    (ht : Uniform md (setMany S (axesOf axes S.length 2) K0) t0)
    (hes : List.Forall₂ (fun e Ks => IsTuple (fun _ t => Uniform md (setMany S (axesOf axes S.length 2) Ks) t) e) es Kss)
    (hes' : List.Forall₂ (fun e Ks => IsTuple (fun _ t => Uniform md (setMany S (axesOf axes S.length 2) Ks) t) e) es' Kss)
    (hc : ConsistentN F K0 Kss) (hc0 : Times (γ ^ (2 * es.length)) t0 t0') (hds : DetailsScaled 2 γ δ es es') :
    ∃ z, waverec2 (container t0 es) w' axes = .ok z ∧ waverec2 (container t0' es') w axes = .ok z := by
  have h0' : w'.recLo.length = F := by rw [hw.recLo]; simpa using h0
  have h1' : w'.recHi.length = F := by rw [hw.recHi]; simpa using h1
  have ht' : Uniform md (setMany S (axesOf axes S.length 2) K0) t0' := ⟨by rw [hc0.md]; exact ht.1, by rw [hc0.shape]; exact ht.2⟩
  obtain ⟨z, e, hz⟩ := c59_waverec2_textbook w F axes md S t0' es' K0 Kss hF h0 h1 hg hdt hK ht' hes' hc
  obtain ⟨z', e', hz'⟩ := c59_waverec2_textbook w' F axes md S t0 es K0 Kss hF h0' h1' hg hdt hK ht hes hc
  obtain rfl := scaled_rec hw hg.nodup hg.lt (by simp [axesOf, hg.len]) hK (idwtLenN_length_of hK) (by rintro rfl; rfl) (consistentN_head hc) ht
    (hes.imp fun e Ks h bs t => isTuple_bandGet h) hc0 hds hz hz'
  exact ⟨z', e', e⟩

/-- **C82, synthesis along three axes.** -/
theorem c82_waverec3 (w w' : Wavelet R) (α β γ δ : R) (F : Nat) (axes : AxisHint) (md : Meta) (S : List Nat)
    (t0 t0' : Tensor R) (es es' : List (Entry R)) (K0 : List Nat) (Kss : List (List Nat)) (hF : 2 ≤ F)
    (h0 : w.recLo.length = F) (h1 : w.recHi.length = F) (hw : ScaledBank α β γ δ w w')
    (hg : GoodAxes axes S.length 3) (hdt : md.dtype = .float32 ∨ md.dtype = .float64) (hK : ∀ Ks ∈ K0 :: Kss, Ks.length = 3)
    (ht : Uniform md (setMany S (axesOf axes S.length 3) K0) t0)
    (hes : List.Forall₂ (fun e Ks => IsDict keys3 (fun _ t => Uniform md (setMany S (axesOf axes S.length 3) Ks) t) e) es Kss)
    (hes' : List.Forall₂ (fun e Ks => IsDict keys3 (fun _ t => Uniform md (setMany S (axesOf axes S.length 3) Ks) t) e) es' Kss)
    (hc : ConsistentN F K0 Kss) (hc0 : Times (γ ^ (3 * es.length)) t0 t0') (hds : DetailsScaled 3 γ δ es es') :
    ∃ z, waverec3 (container t0 es) w' axes = .ok z ∧ waverec3 (container t0' es') w axes = .ok z := by
  have h0' : w'.recLo.length = F := by rw [hw.recLo]; simpa using h0
  have h1' : w'.recHi.length = F := by rw [hw.recHi]; simpa using h1
  have ht' : Uniform md (setMany S (axesOf axes S.length 3) K0) t0' := ⟨by rw [hc0.md]; exact ht.1, by rw [hc0.shape]; exact ht.2⟩
  obtain ⟨z, e, hz⟩ := c59_waverec3_textbook w F axes md S t0' es' K0 Kss hF h0 h1 hg hdt hK ht' hes' hc
  obtain ⟨z', e', hz'⟩ := c59_waverec3_textbook w' F axes md S t0 es K0 Kss hF h0' h1' hg hdt hK ht hes hc
  obtain rfl := scaled_rec hw hg.nodup hg.lt (by simp [axesOf, hg.len]) hK (idwtLenN_length_of hK) (by rintro rfl; rfl) (consistentN_head hc) ht
    (hes.imp fun e Ks h bs t => isDict_bandGet h) hc0 hds hz hz'
  exact ⟨z', e', e⟩

/-- **C82, separable synthesis along two axes.** -/
theorem c82_fswaverec2 (w w' : Wavelet R) (α β γ δ : R) (F : Nat) (axes : AxisHint) (md : Meta) (S : List Nat)
    (t0 t0' : Tensor R) (es es' : List (Entry R)) (K0 : List Nat) (Kss : List (List Nat)) (keys : List String) (hF : 2 ≤ F)
    (h0 : w.recLo.length = F) (h1 : w.recHi.length = F) (hw : ScaledBank α β γ δ w w')
    (hg : GoodAxes axes S.length 2) (hdt : md.dtype = .float32 ∨ md.dtype = .float64) (hK : ∀ Ks ∈ K0 :: Kss, Ks.length = 2)
    (hkeys : keys.Perm ["da", "ad", "dd"]) (ht : Uniform md (setMany S (axesOf axes S.length 2) K0) t0)
    (hes : List.Forall₂ (fun e Ks => IsDict keys (fun _ t => Uniform md (setMany S (axesOf axes S.length 2) Ks) t) e) es Kss)
    (hes' : List.Forall₂ (fun e Ks => IsDict keys (fun _ t => Uniform md (setMany S (axesOf axes S.length 2) Ks) t) e) es' Kss)
    (hc : CoveredN F K0 Kss) (hc0 : Times (γ ^ (2 * es.length)) t0 t0') (hds : DetailsScaled 2 γ δ es es') :
    ∃ z, (fswaverec2 (container t0 es) w' axes).1 = .ok z ∧ (fswaverec2 (container t0' es') w axes).1 = .ok z := by
  have h0' : w'.recLo.length = F := by rw [hw.recLo]; simpa using h0
  have h1' : w'.recHi.length = F := by rw [hw.recHi]; simpa using h1
  have ht' : Uniform md (setMany S (axesOf axes S.length 2) K0) t0' := ⟨by rw [hc0.md]; exact ht.1, by rw [hc0.shape]; exact ht.2⟩
  obtain ⟨z, e, hz⟩ := c59_fswaverec2_textbook w F axes md S t0' es' K0 Kss keys hF h0 h1 hg hdt hK hkeys ht' hes' hc
  obtain ⟨z', e', hz'⟩ := c59_fswaverec2_textbook w' F axes md S t0 es K0 Kss keys hF h0' h1' hg hdt hK hkeys ht hes hc
  obtain rfl := scaled_rec hw hg.nodup hg.lt (by simp [axesOf, hg.len]) hK (idwtLenSep_length_of hK) (by rintro rfl; rfl) (coveredN_head hc) ht
    (hes.imp fun e Ks h bs t => isDict_bandGet h) hc0 hds hz hz'
  exact ⟨z', e', e⟩

/-- **C82, separable synthesis along three axes.** -/
theorem c82_fswaverec3 (w w' : Wavelet R) (α β γ δ : R) (F : Nat) (axes : AxisHint) (md : Meta) (S : List Nat)
    (t0 t0' : Tensor R) (es es' : List (Entry R)) (K0 : List Nat) (Kss : List (List Nat)) (keys : List String) (hF : 2 ≤ F)
    (h0 : w.recLo.length = F) (h1 : w.recHi.length = F) (hw : ScaledBank α β γ δ w w')
    (hg : GoodAxes axes S.length 3) (hdt : md.dtype = .float32 ∨ md.dtype = .float64) (hK : ∀ Ks ∈ K0 :: Kss, Ks.length = 3)
    (hkeys : keys.Perm ["aad", "ada", "add", "daa", "dad", "dda", "ddd"])
    (ht : Uniform md (setMany S (axesOf axes S.length 3) K0) t0)
    (hes : List.Forall₂ (fun e Ks => IsDict keys (fun _ t => Uniform md (setMany S (axesOf axes S.length 3) Ks) t) e) es Kss)
    (hes' : List.Forall₂ (fun e Ks => IsDict keys (fun _ t => Uniform md (setMany S (axesOf axes S.length 3) Ks) t) e) es' Kss)
    (hc : CoveredN F K0 Kss) (hc0 : Times (γ ^ (3 * es.length)) t0 t0') (hds : DetailsScaled 3 γ δ es es') :
    ∃ z, (fswaverec3 (container t0 es) w' axes).1 = .ok z ∧ (fswaverec3 (container t0' es') w axes).1 = .ok z := by
  have h0' : w'.recLo.length = F := by rw [hw.recLo]; simpa using h0
  have h1' : w'.recHi.length = F := by rw [hw.recHi]; simpa using h1
  have ht' : Uniform md (setMany S (axesOf axes S.length 3) K0) t0' := ⟨by rw [hc0.md]; exact ht.1, by rw [hc0.shape]; exact ht.2⟩
  obtain ⟨z, e, hz⟩ := c59_fswaverec3_textbook w F axes md S t0' es' K0 Kss keys hF h0 h1 hg hdt hK hkeys ht' hes' hc
  obtain ⟨z', e', hz'⟩ := c59_fswaverec3_textbook w' F axes md S t0 es K0 Kss keys hF h0' h1' hg hdt hK hkeys ht hes hc
  obtain rfl := scaled_rec hw hg.nodup hg.lt (by simp [axesOf, hg.len]) hK (idwtLenSep_length_of hK) (by rintro rfl; rfl) (coveredN_head hc) ht
    (hes.imp fun e Ks h bs t => isDict_bandGet h) hc0 hds hz hz'
  exact ⟨z', e', e⟩

end

/-- **C82, cancelling factors.** If the factors of analysis and synthesis cancel, the rescaled filters are again a perfect
reconstruction bank: every reconstruction theorem holds for them. -/
theorem c82_perfect_reconstruction [CommRing R] (w w' : Wavelet R) (α β γ δ : R) (F : Nat) (hw : ScaledBank α β γ δ w w')
    (h0 : α * γ = 1) (h1 : β * δ = 1) (hp : PRBank w F) : PRBank w' F := by
  have key : ∀ (c : R) (f : List R), poly (f.map fun a => c * a) = Polynomial.C c * poly f := by
    intro c f
    unfold poly
    rw [List.length_map, Finset.mul_sum]
    refine Finset.sum_congr rfl fun i _ => ?_
    rw [getD_scale, Polynomial.C_mul, mul_assoc]
  have c0 : Polynomial.C α * Polynomial.C γ = (1 : Polynomial R) := by rw [← Polynomial.C_mul, h0, Polynomial.C_1]
  have c1 : Polynomial.C β * Polynomial.C δ = (1 : Polynomial R) := by rw [← Polynomial.C_mul, h1, Polynomial.C_1]
  obtain ⟨⟨l0, l1, l2, l3⟩, hd, ha⟩ := hp
  refine ⟨⟨?_, ?_, ?_, ?_⟩, ?_, ?_⟩
  · rw [hw.decLo, List.length_map, l0]
  · rw [hw.decHi, List.length_map, l1]
  · rw [hw.recLo, List.length_map, l2]
  · rw [hw.recHi, List.length_map, l3]
  · unfold NoDistortion at hd ⊢
    rw [hw.decLo, hw.decHi, hw.recLo, hw.recHi, key, key, key, key, ← hd]
    linear_combination (poly w.decLo * poly w.recLo) * c0 + (poly w.decHi * poly w.recHi) * c1
  · unfold AliasFree at ha ⊢
    rw [hw.decLo, hw.decHi, hw.recLo, hw.recHi, key, key, key, key, Polynomial.mul_comp, Polynomial.mul_comp,
      Polynomial.C_comp, Polynomial.C_comp, ← ha]
    linear_combination ((poly w.decLo).comp (-Polynomial.X) * poly w.recLo) * c0 +
      ((poly w.decHi).comp (-Polynomial.X) * poly w.recHi) * c1

/-! ### Concrete cases -/

/-- `exW4` with the factors 2, 3, 5, 7. -/
def exW4s : Wavelet ℚ := ⟨[2, 4, 6, 10], [3, -6, 0, 21], [5, 0, 10, 20], [21, 7, 28, 7]⟩

theorem exW4s_scaled : ScaledBank 2 3 5 7 exW4 exW4s :=
  ⟨by simp [exW4, exW4s]; norm_num, by simp [exW4, exW4s]; norm_num, by simp [exW4, exW4s]; norm_num, by simp [exW4, exW4s]; norm_num⟩

/-- The tensor times a number. -/
def timesT [CommSemiring R] (c : R) (t : Tensor R) : Tensor R := ofFn t.md t.shape fun idx => c * t.get idx

theorem timesT_times [CommSemiring R] (c : R) (t : Tensor R) : Times c t (timesT c t) :=
  ⟨rfl, rfl, fun _ hidx => ofFn_get_of _ _ hidx⟩

/-- A detail entry with every band times its factor. -/
def timesE [CommSemiring R] (γ δ : R) (s : Nat) : Entry R → Entry R
  | .tuple h v d => .tuple (timesT (bandFactor γ δ s [true, false]) h) (timesT (bandFactor γ δ s [false, true]) v)
      (timesT (bandFactor γ δ s [true, true]) d)
  | .dict kv => .dict (kv.map fun q => (q.1, timesT (bandFactor γ δ s (bandOfKey q.1)) q.2))
  | e => e

theorem timesE_rel [CommSemiring R] (γ δ : R) (s : Nat) (e : Entry R) (bs : List Bool) :
    Option.Rel (Times (bandFactor γ δ s bs)) (bandGet e bs) (bandGet (timesE γ δ s e) bs) := by
  cases e with
  | tuple h v d =>
    show Option.Rel _ (if _ then _ else _) (if _ then _ else _)
    split_ifs with k1 k2 k3
    · subst k1; exact .some (timesT_times _ _)
    · subst k2; exact .some (timesT_times _ _)
    · subst k3; exact .some (timesT_times _ _)
    · exact .none
  | dict kv =>
    show Option.Rel _ ((kv.find? fun q => bandOfKey q.1 == bs).map Prod.snd)
      (((kv.map fun q => (q.1, timesT (bandFactor γ δ s (bandOfKey q.1)) q.2)).find? fun q => bandOfKey q.1 == bs).map Prod.snd)
    induction kv with
    | nil => exact .none
    | cons q kv ih =>
      rw [List.map_cons]
      by_cases h : bandOfKey q.1 = bs
      · rw [List.find?_cons_of_pos (by simpa using h), List.find?_cons_of_pos (by simpa using h)]
        subst h
        exact .some (timesT_times _ _)
      · rw [List.find?_cons_of_neg (by simpa using h), List.find?_cons_of_neg (by simpa using h)]
        exact ih
  | _ => exact .none

theorem timesT_uniform {c : ℚ} {s : List Nat} {t : Tensor ℚ} {md : Meta} (h : Uniform md s t) : Uniform md s (timesT c t) := h

theorem timesDict_ok (keys : List String) (s : List Nat) (γ δ : ℚ) (q : Nat) :
    IsDict keys (fun _ t => Uniform ⟨.float64, 0⟩ s t) (timesE γ δ q (slopeDict keys s)) :=
  ⟨_, rfl, by rw [List.map_map, List.map_map]; exact List.map_id _, by
    intro p hp
    obtain ⟨r, hr, rfl⟩ := List.mem_map.mp hp
    obtain ⟨k, -, rfl⟩ := List.mem_map.mp hr
    exact timesT_uniform (slope_uniform s _)⟩

example : ∃ cs cs', wavedec exMir exW4 none (some 2) (.int (-1)) = .ok cs ∧ wavedec exMir exW4s none (some 2) (.int (-1)) = .ok cs' ∧
    cs'.length = cs.length ∧ ∀ q t t', cs[q]? = some t → cs'[q]? = some t' →
      Times (if q = 0 then (2 : ℚ) ^ (cs.length - 1) else 2 ^ (cs.length - 1 - q) * 3) t t' := by
  obtain ⟨h1, h2⟩ := wavedec_char (mode := none) (x := exMir) (level := some 2) (h := .int (-1)) (w := exW4) (by decide) rfl
  obtain ⟨cs, hcs, -⟩ := (h2 exMir_axes rfl).2.1 .reflect (Or.inr ⟨rfl, rfl⟩) (by
    intro s hs
    have h : s < 2 := hs
    have h01 : s = 0 ∨ s = 1 := by omega
    rcases h01 with rfl | rfl <;> (simp only [Mode.Admits]; decide))
  have h := c82_wavedec exMir exW4 exW4s 2 3 5 7 none (some 2) (.int (-1)) (by decide) rfl exW4s_scaled
  rw [hcs] at h
  generalize h3 : wavedec exMir exW4s none (some 2) (.int (-1)) = r at h ⊢
  cases h with
  | ok h => exact ⟨cs, _, hcs, rfl, h⟩

/-- A case in two dimensions. -/
example : ∃ c c', wavedec2 exMir haar (some "periodic") (some 1) .none = .ok c ∧
    wavedec2 exMir ⟨[1, 1], [-2, 2], haar.recLo.map fun a => 5 * a, haar.recHi.map fun a => 7 * a⟩ (some "periodic") (some 1) .none
      = .ok c' ∧ CoeffsScaled 2 2 4 c c' := by
  have hg : GoodAxes .none exMir.rank 2 := ⟨by decide, rfl, ⟨by
    intro a ha
    have h : a = -2 ∨ a = -1 := by simpa [resolve, List.range_succ] using ha
    rcases h with rfl | rfl <;> exact ⟨by decide, by decide⟩, by decide⟩⟩
  have hs : sizes (axesOf .none exMir.rank 2) exMir.shape = [2, 14] := rfl
  obtain ⟨c, hc⟩ := (c16_wavedec2_succeeds_iff exMir haar (some "periodic") .periodic (some 1) .none (Or.inl rfl) (by decide)
    rfl).mpr ⟨hg, Or.inl rfl, by
      rw [hs]
      intro s h k hk
      have h' : s < 1 := h
      obtain rfl : s = 0 := by omega
      rw [levelLens_zero] at hk
      simp only [List.mem_cons, List.not_mem_nil, or_false] at hk
      rcases hk with rfl | rfl <;> (simp only [Mode.Admits]; decide)⟩
  have h := c82_wavedec2 exMir haar ⟨[1, 1], [-2, 2], haar.recLo.map fun a => 5 * a, haar.recHi.map fun a => 7 * a⟩ 2 4 5 7
    (some "periodic") (some 1) .none (by decide) rfl ⟨by simp [haar], by simp [haar]; norm_num, rfl, rfl⟩
  rw [hc] at h
  generalize wavedec2 exMir _ (some "periodic") (some 1) .none = r at h ⊢
  cases h with
  | ok h => exact ⟨c, _, hc, rfl, h⟩

/-- The hypotheses on wavelet and level in the other transforms. -/
example : Two (CoeffsScaled 3 2 3) (wavedec3 (slope [4, 6, 5] 1) exW4 (some "constant") (some 2) .none)
      (wavedec3 (slope [4, 6, 5] 1) exW4s (some "constant") (some 2) .none) ∧
    Two (CoeffsScaled 2 2 3) (fswavedec2 exMir exW4 none none .none) (fswavedec2 exMir exW4s none none .none) ∧
    Two (CoeffsScaled 3 2 3) (fswavedec3 (slope [4, 6, 5] 1) exW4 none (some 1) .none)
      (fswavedec3 (slope [4, 6, 5] 1) exW4s none (some 1) .none) :=
  ⟨c82_wavedec3 _ exW4 exW4s 2 3 5 7 _ _ _ (by decide) rfl (by decide) exW4s_scaled,
    c82_fswavedec2 _ exW4 exW4s 2 3 5 7 _ _ _ (by decide) rfl exW4s_scaled,
    c82_fswavedec3 _ exW4 exW4s 2 3 5 7 _ _ _ (by decide) rfl exW4s_scaled⟩

example : ∃ z, waverec [slope [5] 1, slope [5] 2, slope [8] 3] exW4s .none = .ok z ∧
    waverec [timesT (5 ^ 2) (slope [5] 1), timesT (5 ^ 1 * 7) (slope [5] 2), timesT (5 ^ 0 * 7) (slope [8] 3)] exW4 .none = .ok z :=
  c82_waverec exW4 exW4s 2 3 5 7 4 .none ⟨.float64, 0⟩ [8] (slope [5] 1) (timesT (5 ^ 2) (slope [5] 1)) [slope [5] 2, slope [8] 3]
    [timesT (5 ^ 1 * 7) (slope [5] 2), timesT (5 ^ 0 * 7) (slope [8] 3)] (by decide) rfl rfl exW4s_scaled
    (goodAxes_none (by decide) (by decide)) (Or.inr rfl)
    ⟨fun c hc => by
      simp only [List.mem_cons, List.not_mem_nil, or_false] at hc
      rcases hc with rfl | rfl | rfl <;> rfl, fun c hc => by
      simp only [List.mem_cons, List.not_mem_nil, or_false] at hc
      rcases hc with rfl | rfl | rfl <;> rfl⟩
    ⟨rfl, by decide, by decide, rfl, by decide⟩ (timesT_times _ _) rfl (by
      intro q t t' h h'
      match q, h, h' with
      | 0, h, h' => cases h; cases h'; exact timesT_times _ _
      | 1, h, h' => cases h; cases h'; exact timesT_times _ _
      | _ + 2, h, _ => simp at h)

example : PRBank (⟨[1, 1], [-1, 1], [1 / 2, 1 / 2], [1 / 2, -1 / 2]⟩ : Wavelet ℚ) 2 :=
  c82_perfect_reconstruction haar _ 2 2 (1 / 2) (1 / 2) 2
    ⟨by simp [haar], by norm_num [haar], by norm_num [haar], by norm_num [haar]⟩ (by norm_num) (by norm_num) haar_pr

example : ∃ z, waverec2 (container (slope [5, 5] 1) [slopeTuple [5, 5], slopeTuple [8, 8]]) exW4s .none = .ok z ∧
    waverec2 (container (timesT (5 ^ 4) (slope [5, 5] 1)) [timesE 5 7 1 (slopeTuple [5, 5]), timesE 5 7 0 (slopeTuple [8, 8])])
      exW4 .none = .ok z :=
  c82_waverec2 exW4 exW4s 2 3 5 7 4 .none ⟨.float64, 0⟩ [1, 1] (slope [5, 5] 1) (timesT (5 ^ 4) (slope [5, 5] 1))
    [slopeTuple [5, 5], slopeTuple [8, 8]] [timesE 5 7 1 (slopeTuple [5, 5]), timesE 5 7 0 (slopeTuple [8, 8])]
    [5, 5] [[5, 5], [8, 8]] (by decide) rfl rfl exW4s_scaled (goodAxes_none (by decide) (by decide)) (Or.inr rfl) (by decide)
    (slope_uniform _ _)
    (.cons ⟨_, _, _, rfl, slope_uniform _ _, slope_uniform _ _, slope_uniform _ _⟩
      (.cons ⟨_, _, _, rfl, slope_uniform _ _, slope_uniform _ _, slope_uniform _ _⟩ .nil))
    (.cons ⟨_, _, _, rfl, timesT_uniform (slope_uniform _ _), timesT_uniform (slope_uniform _ _), timesT_uniform (slope_uniform _ _)⟩
      (.cons ⟨_, _, _, rfl, timesT_uniform (slope_uniform _ _), timesT_uniform (slope_uniform _ _), timesT_uniform (slope_uniform _ _)⟩ .nil))
    ⟨rfl, by decide, by simp [NextFits], rfl, by decide⟩ (timesT_times _ _) ⟨fun bs _ => timesE_rel _ _ _ _ bs, fun bs _ => timesE_rel _ _ _ _ bs, trivial⟩

example : ∃ z, (fswaverec2 (container (slope [2, 3] 1) [slopeDict ["da", "ad", "dd"] [2, 3], slopeDict ["da", "ad", "dd"] [4, 6]])
      (⟨[], [], haar.recLo.map fun a => 5 * a, haar.recHi.map fun a => 7 * a⟩ : Wavelet ℚ) .none).1 = .ok z ∧
    (fswaverec2 (container (timesT (5 ^ 4) (slope [2, 3] 1)) [timesE 5 7 1 (slopeDict ["da", "ad", "dd"] [2, 3]),
      timesE 5 7 0 (slopeDict ["da", "ad", "dd"] [4, 6])]) ⟨[], [], haar.recLo, haar.recHi⟩ .none).1 = .ok z :=
  c82_fswaverec2 ⟨[], [], haar.recLo, haar.recHi⟩ _ 1 1 5 7 2 .none ⟨.float64, 0⟩ [1, 1] (slope [2, 3] 1)
    (timesT (5 ^ 4) (slope [2, 3] 1)) _ _ [2, 3] [[2, 3], [4, 6]] ["da", "ad", "dd"] le_rfl rfl rfl ⟨rfl, rfl, rfl, rfl⟩
    (goodAxes_none (by decide) (by decide)) (Or.inr rfl) (by decide) (List.Perm.refl _) (slope_uniform _ _)
    (.cons (slopeDict_ok _ _) (.cons (slopeDict_ok _ _) .nil)) (.cons (timesDict_ok _ _ _ _ _) (.cons (timesDict_ok _ _ _ _ _) .nil))
    (by simp [CoveredN]) (timesT_times _ _) ⟨fun bs _ => timesE_rel _ _ _ _ bs, fun bs _ => timesE_rel _ _ _ _ bs, trivial⟩

example : ∃ z y, waverec3 (container (slope [2, 3, 1] 1) [slopeDict keys3 [2, 3, 1]])
      (⟨[], [], haar.recLo.map fun a => 5 * a, haar.recHi.map fun a => 7 * a⟩ : Wavelet ℚ) .none = .ok z ∧
    waverec3 (container (timesT (5 ^ 3) (slope [2, 3, 1] 1)) [timesE 5 7 0 (slopeDict keys3 [2, 3, 1])])
      ⟨[], [], haar.recLo, haar.recHi⟩ .none = .ok z ∧
    (fswaverec3 (container (slope [2, 3, 1] 1) [slopeDict keys3 [2, 3, 1]])
      (⟨[], [], haar.recLo.map fun a => 5 * a, haar.recHi.map fun a => 7 * a⟩ : Wavelet ℚ) .none).1 = .ok y ∧
    (fswaverec3 (container (timesT (5 ^ 3) (slope [2, 3, 1] 1)) [timesE 5 7 0 (slopeDict keys3 [2, 3, 1])])
      ⟨[], [], haar.recLo, haar.recHi⟩ .none).1 = .ok y := by
  obtain ⟨z, h1, h2⟩ := c82_waverec3 ⟨[], [], haar.recLo, haar.recHi⟩
    (⟨[], [], haar.recLo.map fun a => 5 * a, haar.recHi.map fun a => 7 * a⟩ : Wavelet ℚ) 1 1 5 7 2 .none ⟨.float64, 0⟩ [1, 1, 1]
    (slope [2, 3, 1] 1) (timesT (5 ^ 3) (slope [2, 3, 1] 1)) [slopeDict keys3 [2, 3, 1]] [timesE 5 7 0 (slopeDict keys3 [2, 3, 1])]
    [2, 3, 1] [[2, 3, 1]] le_rfl rfl rfl ⟨rfl, rfl, rfl, rfl⟩
    (goodAxes_none (by decide) (by decide)) (Or.inr rfl) (by decide) (slope_uniform _ _)
    (.cons (slopeDict_ok _ _) .nil) (.cons (timesDict_ok _ _ _ _ _) .nil)
    ⟨rfl, by decide⟩ (timesT_times _ _) ⟨fun bs _ => timesE_rel _ _ _ _ bs, trivial⟩
  obtain ⟨y, k1, k2⟩ := c82_fswaverec3 ⟨[], [], haar.recLo, haar.recHi⟩
    (⟨[], [], haar.recLo.map fun a => 5 * a, haar.recHi.map fun a => 7 * a⟩ : Wavelet ℚ) 1 1 5 7 2 .none ⟨.float64, 0⟩ [1, 1, 1]
    (slope [2, 3, 1] 1) (timesT (5 ^ 3) (slope [2, 3, 1] 1)) [slopeDict keys3 [2, 3, 1]] [timesE 5 7 0 (slopeDict keys3 [2, 3, 1])]
    [2, 3, 1] [[2, 3, 1]] keys3 le_rfl rfl rfl ⟨rfl, rfl, rfl, rfl⟩
    (goodAxes_none (by decide) (by decide)) (Or.inr rfl) (by decide) (by decide) (slope_uniform _ _)
    (.cons (slopeDict_ok _ _) .nil) (.cons (timesDict_ok _ _ _ _ _) .nil)
    (by simp [CoveredN]) (timesT_times _ _) ⟨fun bs _ => timesE_rel _ _ _ _ bs, trivial⟩
  exact ⟨z, y, h1, h2, k1, k2⟩

end Props
end Verif
