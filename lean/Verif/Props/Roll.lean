/-
C83: periodic mode, the signal on a circle.
-/
import Verif.Spec.Roll
import Verif.Props.Scaled

namespace Verif
open Tensor Spec
variable {R : Type}

section
variable [NonUnitalNonAssocSemiring R]

theorem ext_roll {n c : Nat} (hn : 0 < n) {v v' : Nat → R} (h : ∀ j, j < n → v' j = v ((j + c) % n)) (i : ℤ) :
    ext .periodic n v' i = ext .periodic n v (i + c) := by
  have hz : (0 : ℤ) < n := by exact_mod_cast hn
  have h0 := Int.emod_nonneg i hz.ne'
  have h1 := Int.emod_lt_of_pos i hz
  show v' (i % n).toNat = v ((i + c) % n).toNat
  rw [h _ (by omega)]
  congr 1
  have : (((i % n).toNat + c) % n : ℕ) = (((i + c) % n).toNat : ℤ) := by
    rw [Int.toNat_of_nonneg (Int.emod_nonneg _ hz.ne')]
    push_cast
    rw [Int.toNat_of_nonneg h0, Int.emod_add_emod]
  exact_mod_cast this

theorem ext_period {n : Nat} (v : Nat → R) (i q : ℤ) : ext .periodic n v (i + n * q) = ext .periodic n v i := by
  show v ((i + n * q) % n).toNat = v (i % n).toNat
  rw [Int.add_mul_emod_self_left]

theorem dwtStep_mod {f : List R} {n : Nat} (he : n % 2 = 0) (v : Nat → R) (k : Nat) :
    dwtStep .periodic f n v k = dwtStep .periodic f n v (k % (n / 2)) := by
  unfold dwtStep analysis
  refine Finset.sum_congr rfl fun j _ => ?_
  congr 1
  have h1 : (n : ℤ) = 2 * ((n / 2 : ℕ) : ℤ) := by
    have : n = 2 * (n / 2) := by omega
    exact_mod_cast this
  have h2 : ((k : ℕ) : ℤ) = ((k % (n / 2) : ℕ) : ℤ) + ((n / 2 : ℕ) : ℤ) * ((k / (n / 2) : ℕ) : ℤ) := by
    have := Nat.mod_add_div k (n / 2)
    exact_mod_cast this.symm
  rw [← ext_period v (2 * ((k % (n / 2) : ℕ) : ℤ) + 1 - j) ((k / (n / 2) : ℕ) : ℤ)]
  congr 1
  rw [h1, h2]
  ring

theorem dwtStep_roll {f : List R} {n d : Nat} (hn : 0 < n) (he : n % 2 = 0) {v v' : Nat → R}
    (h : ∀ j, j < n → v' j = v ((j + 2 * d) % n)) (k : Nat) :
    dwtStep .periodic f n v' k = dwtStep .periodic f n v ((k + d) % (n / 2)) := by
  rw [← dwtStep_mod he]
  unfold dwtStep analysis
  refine Finset.sum_congr rfl fun j _ => ?_
  rw [ext_roll hn h]
  congr 2
  push_cast
  ring

theorem rollIx_length : ∀ {ps ds ks : List Nat}, ps.length = ks.length → ds.length = ks.length → (rollIx ps ds ks).length = ks.length
  | [], [], [], _, _ => rfl
  | _ :: _, _ :: _, _ :: _, h1, h2 => by
    simp only [rollIx, List.length_cons]
    rw [rollIx_length (by simpa using h1) (by simpa using h2)]
  | [], _ :: _, [], _, h => by simp at h
  | _ :: _, _, [], h, _ => by simp at h
  | [], _, _ :: _, h, _ => by simp at h
  | _ :: _, [], _ :: _, _, h => by simp at h

theorem inB_rollIx : ∀ {Ks ps ds ks : List Nat}, List.Forall₂ (fun p K => 0 < p ∧ p ≤ K) ps Ks → ds.length = Ks.length →
    ks.length = Ks.length → InB Ks (rollIx ps ds ks)
  | [], [], [], [], _, _, _ => trivial
  | _ :: _, p :: _, d :: _, k :: _, .cons h hs, h1, h2 =>
    ⟨lt_of_lt_of_le (Nat.mod_lt _ h.1) h.2, inB_rollIx hs (by simpa using h1) (by simpa using h2)⟩
  | [], [], _ :: _, _, _, h, _ => by simp at h
  | [], [], [], _ :: _, _, _, h => by simp at h
  | _ :: _, _ :: _, [], _, _, h, _ => by simp at h
  | _ :: _, _ :: _, _ :: _, [], _, _, h => by simp at h

theorem dwtN_roll : ∀ {fs : List (List R)} {ns ds ks : List Nat} {X X' : List Nat → R}, fs.length = ns.length →
    ds.length = ns.length → ks.length = ns.length → (∀ n ∈ ns, 0 < n ∧ n % 2 = 0) →
    (∀ js, InB ns js → X' js = X (rollIx ns (ds.map (2 * ·)) js)) →
    dwtN .periodic (fs.zip ns) X' ks = dwtN .periodic (fs.zip ns) X (rollIx (ns.map (· / 2)) ds ks)
  | [], [], [], [], X, X', _, _, _, _, h => h [] trivial
  | f :: fs, n :: ns, d :: ds, k :: ks, X, X', h1, h2, h3, hn, h => by
    show dwtStep .periodic f n (fun j => dwtN .periodic (fs.zip ns) (fun js => X' (j :: js)) ks) k =
      dwtStep .periodic f n (fun j => dwtN .periodic (fs.zip ns) (fun js => X (j :: js)) (rollIx (ns.map (· / 2)) ds ks))
        ((k + d) % (n / 2))
    refine dwtStep_roll (hn n (by simp)).1 (hn n (by simp)).2 (fun j hj => ?_) k
    exact dwtN_roll (by simpa using h1) (by simpa using h2) (by simpa using h3) (fun n h => hn n (by simp [h]))
      fun js hjs => h (j :: js) ⟨hj, hjs⟩
  | [], _ :: _, _, _, _, _, h, _, _, _, _ => by simp at h
  | _ :: _, [], _, _, _, _, h, _, _, _, _ => by simp at h
  | [], [], _ :: _, _, _, _, _, h, _, _, _ => by simp at h
  | [], [], [], _ :: _, _, _, _, _, h, _, _ => by simp at h
  | _ :: _, _ :: _, [], _, _, _, _, h, _, _, _ => by simp at h
  | _ :: _, _ :: _, _ :: _, [], _, _, _, _, h, _, _ => by simp at h

theorem onCircle_level {F L n : Nat} (hF : 2 ≤ F) (h : OnCircle F L n) : ∀ s, s < L → levelLen F n s = n / 2 ^ s
  | 0, _ => by simp [levelLen]
  | s + 1, hs => by
    have h3 : F ≤ 3 := h.2.2.resolve_left (by omega)
    have e : (n / 2 ^ s) % 2 = 0 := by
      have h2 : 2 ^ (s + 1) ∣ n := (pow_dvd_pow 2 (by omega)).trans h.2.1
      obtain ⟨q, rfl⟩ := h2
      rw [pow_succ, mul_assoc, Nat.mul_div_cancel_left _ (by positivity)]
      omega
    show outLen F (levelLen F n s) = _
    rw [onCircle_level hF h s (by omega), pow_succ, ← Nat.div_div_eq_div_mul]
    generalize n / 2 ^ s = k at e ⊢
    unfold outLen
    omega

theorem onCircle_even {F L n : Nat} (h : OnCircle F L n) {s : Nat} (hs : s < L) : 0 < n / 2 ^ s ∧ (n / 2 ^ s) % 2 = 0 := by
  have h2 : 2 ^ (s + 1) ∣ n := (pow_dvd_pow 2 (by omega)).trans h.2.1
  have h1 := h.1
  obtain ⟨q, rfl⟩ := h2
  have hq : 0 < q := Nat.pos_of_mul_pos_left h1
  rw [pow_succ, mul_assoc, Nat.mul_div_cancel_left _ (by positivity)]
  omega

theorem onCircle_level_le {F L n : Nat} (hF : 2 ≤ F) (h : OnCircle F L n) {s : Nat} (hs : s ≤ L) :
    0 < n / 2 ^ s ∧ n / 2 ^ s ≤ levelLen F n s := by
  cases s with
  | zero => simpa [levelLen] using h.1
  | succ s =>
    have h1 := onCircle_even h (s := s) (by omega)
    have h2 := onCircle_level hF h s (by omega)
    show _ ∧ _ ≤ outLen F (levelLen F n s)
    rw [h2, pow_succ, ← Nat.div_div_eq_div_mul]
    unfold outLen
    omega

variable {w : Wavelet R} {ns ds : List Nat} {L : Nat} {X X' : List Nat → R}

theorem bandN_roll (hF : 2 ≤ w.len) (hO : ∀ n ∈ ns, OnCircle w.len L n) (hd : ds.length = ns.length) {s : Nat} (hs : s < L)
    {bs : List Bool} (hb : bs.length = ns.length)
    (h : ∀ js, InB (levelLens w.len ns s) js → X' js = X (rollIx (ns.map (· / 2 ^ s)) (ds.map (2 ^ (L - s) * ·)) js))
    {ks : List Nat} (hk : ks.length = ns.length) :
    bandN .periodic w bs (levelLens w.len ns s) X' ks = bandN .periodic w bs (levelLens w.len ns s) X
      (rollIx (ns.map (· / 2 ^ (s + 1))) (ds.map (2 ^ (L - (s + 1)) * ·)) ks) := by
  have e : levelLens w.len ns s = ns.map (· / 2 ^ s) :=
    List.map_congr_left fun n hn => onCircle_level hF (hO n hn) s hs
  have e1 : ns.map (· / 2 ^ (s + 1)) = (ns.map (· / 2 ^ s)).map (· / 2) := by
    rw [List.map_map]
    refine List.map_congr_left fun n _ => ?_
    show n / 2 ^ (s + 1) = n / 2 ^ s / 2
    rw [pow_succ, Nat.div_div_eq_div_mul]
  have e2 : ds.map (2 ^ (L - s) * ·) = (ds.map (2 ^ (L - (s + 1)) * ·)).map (2 * ·) := by
    rw [List.map_map]
    refine List.map_congr_left fun d _ => ?_
    show 2 ^ (L - s) * d = 2 * (2 ^ (L - (s + 1)) * d)
    rw [show L - s = L - (s + 1) + 1 by omega, pow_succ]
    ring
  rw [e] at h ⊢
  rw [e1]
  refine dwtN_roll (by simp [bandFilt, hb]) (by simp [hd]) (by simp [hk]) ?_ fun js hj => ?_
  · intro k hk
    obtain ⟨n, hn, rfl⟩ := List.mem_map.mp hk
    exact onCircle_even (hO n hn) hs
  · rw [h js hj, e2]

theorem cAN_roll (hF : 2 ≤ w.len) (hO : ∀ n ∈ ns, OnCircle w.len L n) (hd : ds.length = ns.length)
    (h : ∀ js, InB ns js → X' js = X (rollIx ns (ds.map (2 ^ L * ·)) js)) :
    ∀ s, s ≤ L → ∀ ks, InB (levelLens w.len ns s) ks →
      cAN .periodic w ns X' s ks = cAN .periodic w ns X s (rollIx (ns.map (· / 2 ^ s)) (ds.map (2 ^ (L - s) * ·)) ks)
  | 0, _, ks, hk => by
    rw [levelLens_zero] at hk
    have : ns.map (· / 2 ^ 0) = ns := by simp
    rw [this]
    exact h ks hk
  | s + 1, hs, ks, hk => by
    refine bandN_roll hF hO hd (by omega) (by simp [lowBand]) (cAN_roll hF hO hd h s (by omega)) ?_
    rw [hk.length_eq, levelLens_length]

theorem cDN_roll (hF : 2 ≤ w.len) (hO : ∀ n ∈ ns, OnCircle w.len L n) (hd : ds.length = ns.length)
    (h : ∀ js, InB ns js → X' js = X (rollIx ns (ds.map (2 ^ L * ·)) js)) {s : Nat} (hs : s < L) {bs : List Bool}
    (hb : bs.length = ns.length) {ks : List Nat} (hk : ks.length = ns.length) :
    cDN .periodic w ns X' s bs ks =
      cDN .periodic w ns X s bs (rollIx (ns.map (· / 2 ^ (s + 1))) (ds.map (2 ^ (L - (s + 1)) * ·)) ks) :=
  bandN_roll hF hO hd hs hb (cAN_roll hF hO hd h s hs.le) hk

theorem step_roll (hF : 2 ≤ w.len) {n d : Nat} (hO : OnCircle w.len L n) {s : Nat} (hs : s < L) {f : List R} {u u' : Nat → R}
    (h : ∀ k, k < levelLen w.len n s → u' k = u ((k + 2 ^ (L - s) * d) % (n / 2 ^ s))) (k : Nat) :
    dwtStep .periodic f (levelLen w.len n s) u' k =
      dwtStep .periodic f (levelLen w.len n s) u ((k + 2 ^ (L - (s + 1)) * d) % (n / 2 ^ (s + 1))) := by
  have he := onCircle_even hO hs
  rw [onCircle_level hF hO s hs] at h ⊢
  rw [pow_succ, ← Nat.div_div_eq_div_mul]
  refine dwtStep_roll he.1 he.2 (fun j hj => ?_) k
  rw [h j hj, show L - s = L - (s + 1) + 1 by omega, pow_succ, mul_comm _ 2, mul_assoc]

theorem cA_roll (hF : 2 ≤ w.len) {n d : Nat} (hO : OnCircle w.len L n) {v v' : Nat → R}
    (h : ∀ j, j < n → v' j = v ((j + 2 ^ L * d) % n)) : ∀ s, s ≤ L → ∀ k, k < levelLen w.len n s →
      cA .periodic w n v' s k = cA .periodic w n v s ((k + 2 ^ (L - s) * d) % (n / 2 ^ s))
  | 0, _, k, hk => by
    rw [pow_zero, Nat.div_one]
    exact h k hk
  | s + 1, hs, k, _ => step_roll hF hO (by omega) (cA_roll hF hO h s (by omega)) k

theorem rolled_of {ax Ks ps cs es : List Nat} {x y t t' : Tensor R} {f f' : (List Nat → R) → List Nat → R}
    (hn : ax.Nodup) (hlt : ∀ a ∈ ax, a < x.shape.length) (hxy : Rolled ax (sizes ax x.shape) es x y) (he : es.length = ax.length)
    (hp : List.Forall₂ (fun p K => 0 < p ∧ p ≤ K) ps Ks) (hc : cs.length = ax.length) (hK : Ks.length = ax.length)
    (ht : AlongAxes ax Ks f x t) (ht' : AlongAxes ax Ks f' y t')
    (hf : ∀ X X' : List Nat → R, (∀ js, InB (sizes ax x.shape) js → X' js = X (rollIx (sizes ax x.shape) es js)) →
      ∀ ks, InB Ks ks → f' X' ks = f X (rollIx ps cs ks)) : Rolled ax ps cs t t' := by
  have hs : t'.shape = t.shape := by rw [ht'.shape, ht.shape, hxy.shape]
  refine ⟨by rw [ht'.md, ht.md, hxy.md], hs, fun idx hidx => ?_⟩
  have hl : idx.length = x.shape.length := by rw [hidx.length_eq, ht.shape, setMany_length]
  have hlti : ∀ a ∈ ax, a < idx.length := by rw [hl]; exact hlt
  have hts : sizes ax t.shape = Ks := by rw [ht.shape, sizes_setMany hn hlt hK]
  have hk : InB Ks (sizes ax idx) := by
    rw [← hts]
    exact inB_sizes (by rw [ht.shape, setMany_length]; exact hlt) hidx
  have hpl : ps.length = ax.length := by rw [hp.length_eq, hK]
  rw [ht'.get idx (by rw [hs]; exact hidx), hf (plane x ax idx) (plane y ax idx) (fun js hj => ?_) _ hk]
  · have hrl : (rollIx ps cs (sizes ax idx)).length = ax.length := by
      rw [rollIx_length (by rw [hpl]; simp [sizes]) (by rw [hc]; simp [sizes])]
      simp [sizes]
    have hb : InB t.shape (setMany idx ax (rollIx ps cs (sizes ax idx))) :=
      inB_setMany hn (by rw [ht.shape, setMany_length]; exact hlt) (Ks := Ks) hK
        (by rw [ht.shape, setMany_setMany hn hlt hK, ← ht.shape]; exact hidx)
        (by rw [hts]; exact inB_rollIx hp (by rw [hc, hK]) (by rw [hK]; simp [sizes]))
    rw [ht.get _ hb, sizes_setMany hn hlti hrl, plane_setMany hn hlti]
  · have hjl : js.length = ax.length := by rw [hj.length_eq]; simp [sizes]
    have hrl : (rollIx (sizes ax x.shape) es js).length = ax.length := by
      rw [rollIx_length (by rw [hjl]; simp [sizes]) (by rw [hjl, he]), hjl]
    have hb : InB x.shape (setMany idx ax js) := inB_setMany hn hlt hK (by rw [← ht.shape]; exact hidx) hj
    unfold plane
    rw [if_pos hjl, if_pos hrl, hxy.get _ hb, sizes_setMany hn hlti hjl, setMany_setMany hn hlti hrl]

theorem onCircle_forall {F : Nat} (hF : 2 ≤ F) {s : Nat} (hs : s ≤ L) : ∀ {ns : List Nat}, (∀ n ∈ ns, OnCircle F L n) →
    List.Forall₂ (fun p K => 0 < p ∧ p ≤ K) (ns.map (· / 2 ^ s)) (levelLens F ns s)
  | [], _ => .nil
  | n :: ns, h => .cons (onCircle_level_le hF (h n (by simp)) hs) (onCircle_forall hF hs fun n hn => h n (by simp [hn]))

theorem coeffsRolled_of {ax : List Nat} {n : Nat} {x y : Tensor R} {c c' : Coeffs R}
    {D : (List Bool → Tensor R → Prop) → Entry R → Prop} (hax : ax.length = n)
    (hD : ∀ (P : List Bool → Tensor R → Prop) (e : Entry R) bs t, D P e → HoldsBand e bs t → bs.length = n ∧ P bs t)
    (hF : 2 ≤ w.len) (hn : ax.Nodup) (hlt : ∀ a ∈ ax, a < x.shape.length)
    (hO : ∀ n ∈ sizes ax x.shape, OnCircle w.len L n) (hd : ds.length = ax.length)
    (hxy : Rolled ax (sizes ax x.shape) (ds.map (2 ^ L * ·)) x y)
    {m m' : Mode} (hm : m = .periodic ∨ L = 0) (hm' : m' = .periodic ∨ L = 0)
    (h : IsDwtN D m w ax L x c) (h' : IsDwtN D m' w ax L y c') : CoeffsRolled ax (sizes ax x.shape) ds c c' := by
  have hs : (sizes ax x.shape).length = ax.length := by simp [sizes]
  have hsy : sizes ax y.shape = sizes ax x.shape := by rw [hxy.shape]
  refine ⟨by rw [h.kind, h'.kind], by rw [h.length, h'.length], ?_, fun q e e' hq hq' bs t t' hb hb' => ?_⟩
  · obtain ⟨t, k1, k2⟩ := h.approx
    obtain ⟨t', l1, l2⟩ := h'.approx
    unfold IsApprox at k2 l2
    rw [hsy] at l2
    refine ⟨t, t', k1, l1, ?_⟩
    rw [h.length, Nat.add_sub_cancel]
    refine rolled_of hn hlt hxy (by simpa using hd) (onCircle_forall hF le_rfl hO) hd (by rw [levelLens_length, hs]) k2 l2
      fun X X' hX ks hk => ?_
    have hmm : cAN m w (sizes ax x.shape) X L = cAN .periodic w (sizes ax x.shape) X L := by
      rcases hm with rfl | rfl
      · rfl
      · rfl
    have hmm' : cAN m' w (sizes ax x.shape) X' L = cAN .periodic w (sizes ax x.shape) X' L := by
      rcases hm' with rfl | rfl
      · rfl
      · rfl
    have := cAN_roll hF hO (by rw [hd, hs]) hX L le_rfl ks hk
    show cAN m' w (sizes ax x.shape) X' L ks = cAN m w (sizes ax x.shape) X L _
    rw [hmm, hmm', this]
    simp
  · have hlen : q + 1 < c.items.length := (List.getElem?_eq_some_iff.mp hq).1
    rw [h.length] at hlen
    obtain ⟨s, hsL, rfl⟩ : ∃ s, s < L ∧ q = L - (s + 1) := ⟨L - (q + 1), by omega, by omega⟩
    rw [h.length, show L + 1 - 1 - (L - (s + 1)) = s + 1 by omega]
    rw [show L - (s + 1) + 1 = L - s by omega] at hq hq'
    obtain ⟨e1, k1, k2⟩ := h.detail s hsL
    obtain ⟨e1', l1, l2⟩ := h'.detail s hsL
    rw [hq] at k1; cases k1
    rw [hq'] at l1; cases l1
    obtain ⟨m1, m2⟩ := hD _ _ _ _ k2 hb
    obtain ⟨-, m3⟩ := hD _ _ _ _ l2 hb'
    obtain rfl : m = .periodic := hm.resolve_right (by omega)
    obtain rfl : m' = .periodic := hm'.resolve_right (by omega)
    unfold IsBand at m2 m3
    rw [hsy] at m3
    exact rolled_of hn hlt hxy (by simpa using hd) (onCircle_forall hF (by omega) hO) (by simpa using hd) (by rw [levelLens_length, hs])
      m2 m3 fun X X' hX ks hk => cDN_roll hF hO (by rw [hd, hs]) hX hsL (by rw [m1, hs, hax]) (by rw [hk.length_eq, levelLens_length])

end

theorem rolled_trel [CommSemiring R] {ax ps ds : List Nat} {x y : Tensor R} (h : Rolled ax ps ds x y) : TRel (fun _ _ => True) x y :=
  ⟨h.md, h.shape, fun _ => trivial⟩

theorem wrel_true [CommSemiring R] (w : Wavelet R) : WRel (fun _ _ => True) w w := by
  have key : ∀ f : List R, List.Forall₂ (fun _ _ => True) f f := by
    intro f
    induction f with
    | nil => exact .nil
    | cons a f ih => exact .cons trivial ih
  exact ⟨key _, key _, key _, key _⟩

namespace Props
variable [CommSemiring R]

/-- **C83, all levels.** In periodic mode the coefficients of a level of even length repeat after half that length. -/
theorem c83_repeat (x : Tensor R) (w : Wavelet R) (mode : Option String) (level : Option Int) (axis : AxisHint) (cs : List (Tensor R))
    (hm : Selects mode .periodic) (hF : 2 ≤ w.len) (hhi : w.decHi.length = w.len) (hcs : wavedec x w mode level axis = .ok cs)
    (q s : Nat) (t : Tensor R) (hs : s + max q 1 + 1 = cs.length) (ht : cs[q]? = some t)
    (he : levelLen w.len (x.shape.getD (axis1 axis x.rank) 0) s % 2 = 0) (idx : List Nat) (hidx : InB t.shape idx)
    (hk : idx.getD (axis1 axis x.rank) 0 + levelLen w.len (x.shape.getD (axis1 axis x.rank) 0) s / 2 <
      t.shape.getD (axis1 axis x.rank) 0) :
    t.get (idx.set (axis1 axis x.rank) (idx.getD (axis1 axis x.rank) 0 +
      levelLen w.len (x.shape.getD (axis1 axis x.rank) 0) s / 2)) = t.get idx := by
  obtain ⟨m, hm', h⟩ := c02_wavedec_textbook x w mode level axis cs hF hhi hcs
  generalize axis1 axis x.rank = a at *
  generalize levels level w.len (x.shape.getD a 0) = L at *
  have hs : s + max q 1 = L := by have := h.length; omega
  obtain rfl := selects_unique hm (hm'.resolve_right (by omega))
  have key : ∀ (s K : Nat) (f : List R) (v : (Nat → R) → Nat → R), levelLen w.len (x.shape.getD a 0) s % 2 = 0 →
      AlongAxis a K (fun u => dwtStep .periodic f (levelLen w.len (x.shape.getD a 0) s) (v u)) x t →
      idx.getD a 0 + levelLen w.len (x.shape.getD a 0) s / 2 < t.shape.getD a 0 →
      t.get (idx.set a (idx.getD a 0 + levelLen w.len (x.shape.getD a 0) s / 2)) = t.get idx := by
    intro s K f v he hA hk
    have hla : a < t.shape.length := by
      by_contra hc
      have h0 : t.shape.getD a 0 = 0 := List.getD_eq_default _ _ (not_lt.mp hc)
      rw [h0] at hk
      exact absurd hk (Nat.not_lt_zero _)
    have hla' : a < idx.length := by rw [hidx.length_eq]; exact hla
    have hb : InB t.shape (idx.set a (idx.getD a 0 + levelLen w.len (x.shape.getD a 0) s / 2)) :=
      (inB_set_iff (x := t.shape.getD a 0) hla (by rw [set_getD_self hla]; exact hidx)).mpr hk
    rw [hA.get _ hb, hA.get _ hidx, getD_set_self hla']
    have : line x a (idx.set a (idx.getD a 0 + levelLen w.len (x.shape.getD a 0) s / 2)) = line x a idx := by
      funext j
      unfold line
      rw [List.set_set]
    rw [this, dwtStep_mod he, dwtStep_mod he (k := idx.getD a 0), Nat.add_mod_right]
  match q, hs, ht with
  | 0, hs, ht =>
    obtain rfl : L = s + 1 := by omega
    exact key s _ w.decLo (fun u => cA .periodic w (x.shape.getD a 0) u s) he (h.approx t ht) hk
  | q + 1, hs, ht =>
    obtain rfl : q = L - (s + 1) := by omega
    rw [show L - (s + 1) + 1 = L - s by omega] at ht
    exact key s _ w.decHi (fun u => cA .periodic w (x.shape.getD a 0) u s) he (h.detail s t (by omega) ht) hk

/-- **C83, one axis.** In periodic mode a signal rolled by `2^L d` samples has the coefficients of the signal, rolled: the
approximation by `d` on a circle of `n / 2^L` points, the details of entry `q` by `2^(q-1) d` on a circle of `n / 2^(L-(q-1))`
points. -/
theorem c83_roll (x y : Tensor R) (w : Wavelet R) (mode : Option String) (L : Nat) (axis : AxisHint) (d : Nat)
    (hm : Selects mode .periodic) (hF : 2 ≤ w.len) (hhi : w.decHi.length = w.len) (hg : GoodAxes axis x.rank 1)
    (hO : OnCircle w.len L (x.shape.getD (axis1 axis x.rank) 0))
    (hxy : Rolled [axis1 axis x.rank] [x.shape.getD (axis1 axis x.rank) 0] [2 ^ L * d] x y) :
    Two (fun cs cs' => cs'.length = cs.length ∧ ∀ q t t', cs[q]? = some t → cs'[q]? = some t' →
        Rolled [axis1 axis x.rank] [x.shape.getD (axis1 axis x.rank) 0 / 2 ^ (L - (q - 1))] [2 ^ (q - 1) * d] t t')
      (wavedec x w mode (some (L : Int)) axis) (wavedec y w mode (some (L : Int)) axis) := by
  have hr : y.rank = x.rank := by unfold Tensor.rank; rw [hxy.shape]
  have ha : axis1 axis x.rank < x.shape.length := axis1_lt hg
  refine scaledTwo (rel_wavedec closed_true (rolled_trel hxy) (wrel_true w) mode _ axis) fun cs cs' e e' => ?_
  obtain ⟨m, hm1, h⟩ := c02_wavedec_textbook x w mode _ axis cs hF hhi e
  obtain ⟨m', hm2, h'⟩ := c02_wavedec_textbook y w mode _ axis cs' hF hhi e'
  rw [hr, hxy.shape] at hm2 h'
  have hL : ∀ n : Nat, levels (some (L : Int)) w.len n = L := fun l => by simp [levels]
  rw [hL] at hm1 hm2 h h'
  generalize axis1 axis x.rank = a at *
  refine ⟨by rw [h.length, h'.length], fun q t t' hq hq' => ?_⟩
  have hlt' : q < cs.length := (List.getElem?_eq_some_iff.mp hq).1
  rw [h.length] at hlt'
  have hlev : ∀ s, s ≤ L → List.Forall₂ (fun p K => 0 < p ∧ p ≤ K) [x.shape.getD a 0 / 2 ^ s] [levelLen w.len (x.shape.getD a 0) s] :=
    fun s hs => .cons (onCircle_level_le hF hO hs) .nil
  match q, hq, hq' with
  | 0, hq, hq' =>
    have h8 := h'.approx t' hq'
    rw [hxy.shape] at h8
    refine rolled_of (by simp) (by simpa using ha) hxy rfl (hlev L le_rfl) rfl rfl (alongAxis_axes (h.approx t hq)) (alongAxis_axes h8)
      fun X X' hX ks hk => ?_
    have hmm : m = m' ∨ L = 0 := by
      rcases hm1 with h1 | h1
      · exact hm2.imp (fun h2 => selects_unique h1 h2) id
      · exact Or.inr h1
    match ks, hk with
    | [k], hk =>
      have := cA_roll hF hO (w := w) (v := fun j => X [j]) (v' := fun j => X' [j]) (fun j hj => hX [j] ⟨hj, trivial⟩) L le_rfl k hk.1
      have e1 : ∀ (m : Mode) v, (Selects mode m ∨ L = 0) → cA m w (x.shape.getD a 0) v L = cA .periodic w (x.shape.getD a 0) v L := by
        intro m v hh
        rcases hh with hh | rfl
        · rw [selects_unique hh hm]
        · rfl
      show cA m' w (x.shape.getD a 0) (fun j => X' [j]) L k = cA m w (x.shape.getD a 0) (fun j => X [j]) L _
      rw [e1 m _ hm1, e1 m' _ hm2, this]
      simp [rollIx]
  | q + 1, hq, hq' =>
    obtain ⟨s, hs, rfl⟩ : ∃ s, s < L ∧ q = L - (s + 1) := ⟨L - (q + 1), by omega, by omega⟩
    obtain rfl := selects_unique hm (hm1.resolve_right (by omega))
    obtain rfl := selects_unique hm (hm2.resolve_right (by omega))
    rw [show L - (L - (s + 1) + 1 - 1) = s + 1 by omega, Nat.add_sub_cancel]
    rw [show L - (s + 1) + 1 = L - s by omega] at hq hq'
    have h8 := h'.detail s t' hs hq'
    rw [hxy.shape] at h8
    refine rolled_of (by simp) (by simpa using ha) hxy rfl (hlev (s + 1) (by omega)) rfl rfl (alongAxis_axes (h.detail s t hs hq))
      (alongAxis_axes h8) fun X X' hX ks hk => ?_
    match ks, hk with
    | [k], hk =>
      exact step_roll hF hO hs (cA_roll hF hO (w := w) (v := fun j => X [j]) (v' := fun j => X' [j])
        (fun j hj => hX [j] ⟨hj, trivial⟩) s hs.le) k

/-- **C83, two axes.** In periodic mode a signal rolled by `2^L` times `ds` has the coefficients of the signal, rolled. -/
theorem c83_roll_wavedec2 (x y : Tensor R) (w : Wavelet R) (mode : Option String) (L : Nat) (axes : AxisHint) (ds : List Nat)
    (hm : Selects mode .periodic) (hF : 2 ≤ w.len) (hhi : w.decHi.length = w.len) (hd : ds.length = 2)
    (hO : ∀ n ∈ sizes (axesOf axes x.rank 2) x.shape, OnCircle w.len L n)
    (hxy : Rolled (axesOf axes x.rank 2) (sizes (axesOf axes x.rank 2) x.shape) (ds.map (2 ^ L * ·)) x y) :
    Two (CoeffsRolled (axesOf axes x.rank 2) (sizes (axesOf axes x.rank 2) x.shape) ds)
      (wavedec2 x w mode (some (L : Int)) axes) (wavedec2 y w mode (some (L : Int)) axes) := by
  have hr : y.rank = x.rank := by unfold Tensor.rank; rw [hxy.shape]
  refine scaledTwo (rel_wavedec2 closed_true (rolled_trel hxy) (wrel_true w) mode _ axes) fun c c' e e' => ?_
  obtain ⟨hg, -, m, hm1, -, h⟩ := wavedec2_ok hF hhi e
  obtain ⟨-, -, m', hm2, -, h'⟩ := wavedec2_ok hF hhi e'
  rw [hr] at hm2 h'
  have hL : ∀ l : List Nat, levelsN (some (L : Int)) w.len l = L := fun l => by simp [levelsN]
  rw [hL] at hm1 hm2 h h'
  exact coeffsRolled_of (by simp [axesOf, hg.len]) (fun _ _ _ _ => IsTuple.holds) hF hg.nodup hg.lt hO (by simp [axesOf, hg.len, hd]) hxy
    (hm1.imp (fun k => selects_unique k hm) id) (hm2.imp (fun k => selects_unique k hm) id) h h'

/-- **C83, three axes.** -/
theorem c83_roll_wavedec3 (x y : Tensor R) (w : Wavelet R) (mode : Option String) (L : Nat) (axes : AxisHint) (ds : List Nat)
    (hm : Selects mode .periodic) (hF : 2 ≤ w.len) (hhi : w.decHi.length = w.len) (hL0 : 0 < L) (hd : ds.length = 3)
    (hO : ∀ n ∈ sizes (axesOf axes x.rank 3) x.shape, OnCircle w.len L n)
    (hxy : Rolled (axesOf axes x.rank 3) (sizes (axesOf axes x.rank 3) x.shape) (ds.map (2 ^ L * ·)) x y) :
    Two (CoeffsRolled (axesOf axes x.rank 3) (sizes (axesOf axes x.rank 3) x.shape) ds)
      (wavedec3 x w mode (some (L : Int)) axes) (wavedec3 y w mode (some (L : Int)) axes) := by
  have hr : y.rank = x.rank := by unfold Tensor.rank; rw [hxy.shape]
  refine scaledTwo (rel_wavedec3 closed_true (rolled_trel hxy) (wrel_true w) mode _ axes) fun c c' e e' => ?_
  have hL : ∀ l : List Nat, levelsN (some (L : Int)) w.len l = L := fun l => by simp [levelsN]
  obtain ⟨hg, -, m, hm1, -, h⟩ := wavedec3_ok hF hhi (by rw [hL]; exact hL0) e
  obtain ⟨-, -, m', hm2, -, h'⟩ := wavedec3_ok hF hhi (by rw [hL]; exact hL0) e'
  rw [hr] at h'
  rw [hL] at h h'
  exact coeffsRolled_of (n := 3) (by simp [axesOf, hg.len]) (fun _ _ _ _ => IsDict.holds (by decide)) hF hg.nodup hg.lt hO
    (by simp [axesOf, hg.len, hd]) hxy (Or.inl (selects_unique hm1 hm)) (Or.inl (selects_unique hm2 hm)) h h'

theorem roll_fs (n : Nat) (hn : 1 ≤ n) (x y : Tensor R) (w : Wavelet R) (mode : Option String) (L : Nat) (axes : AxisHint)
    (ds : List Nat) (hm : Selects mode .periodic) (hF : 2 ≤ w.len) (hhi : w.decHi.length = w.len) (hd : ds.length = n)
    (hO : ∀ k ∈ sizes (axesOf axes x.rank n) x.shape, OnCircle w.len L k)
    (hxy : Rolled (axesOf axes x.rank n) (sizes (axesOf axes x.rank n) x.shape) (ds.map (2 ^ L * ·)) x y) :
    Two (CoeffsRolled (axesOf axes x.rank n) (sizes (axesOf axes x.rank n) x.shape) ds)
      (fswavedecn x w n mode (some (L : Int)) axes) (fswavedecn y w n mode (some (L : Int)) axes) := by
  have hr : y.rank = x.rank := by unfold Tensor.rank; rw [hxy.shape]
  refine scaledTwo (rel_fswavedecn closed_true (rolled_trel hxy) (wrel_true w) n mode _ axes) fun c c' e e' => ?_
  obtain ⟨hg, -, -, m, hm1, -, h⟩ := fswavedecn_ok hn hF hhi e
  obtain ⟨-, -, -, m', hm2, -, h'⟩ := fswavedecn_ok hn hF hhi e'
  rw [hr] at hm2 h'
  have hL : ∀ l : List Nat, levelsN (some (L : Int)) w.len l = L := fun l => by simp [levelsN]
  rw [hL] at hm1 hm2 h h'
  exact coeffsRolled_of (by simp [axesOf, hg.len]) (fun _ _ _ _ => IsDict.holds sepKeys_length) hF hg.nodup hg.lt hO
    (by simp [axesOf, hg.len, hd]) hxy (hm1.imp (fun k => selects_unique k hm) id) (hm2.imp (fun k => selects_unique k hm) id) h h'

/-- **C83, separable transform along two axes.** -/
theorem c83_roll_fswavedec2 (x y : Tensor R) (w : Wavelet R) (mode : Option String) (L : Nat) (axes : AxisHint) (ds : List Nat)
    (hm : Selects mode .periodic) (hF : 2 ≤ w.len) (hhi : w.decHi.length = w.len) (hd : ds.length = 2)
    (hO : ∀ n ∈ sizes (axesOf axes x.rank 2) x.shape, OnCircle w.len L n)
    (hxy : Rolled (axesOf axes x.rank 2) (sizes (axesOf axes x.rank 2) x.shape) (ds.map (2 ^ L * ·)) x y) :
    Two (CoeffsRolled (axesOf axes x.rank 2) (sizes (axesOf axes x.rank 2) x.shape) ds)
      (fswavedec2 x w mode (some (L : Int)) axes) (fswavedec2 y w mode (some (L : Int)) axes) :=
  roll_fs 2 (by omega) x y w mode L axes ds hm hF hhi hd hO hxy

/-- **C83, separable transform along three axes.** -/
theorem c83_roll_fswavedec3 (x y : Tensor R) (w : Wavelet R) (mode : Option String) (L : Nat) (axes : AxisHint) (ds : List Nat)
    (hm : Selects mode .periodic) (hF : 2 ≤ w.len) (hhi : w.decHi.length = w.len) (hd : ds.length = 3)
    (hO : ∀ n ∈ sizes (axesOf axes x.rank 3) x.shape, OnCircle w.len L n)
    (hxy : Rolled (axesOf axes x.rank 3) (sizes (axesOf axes x.rank 3) x.shape) (ds.map (2 ^ L * ·)) x y) :
    Two (CoeffsRolled (axesOf axes x.rank 3) (sizes (axesOf axes x.rank 3) x.shape) ds)
      (fswavedec3 x w mode (some (L : Int)) axes) (fswavedec3 y w mode (some (L : Int)) axes) :=
  roll_fs 3 (by omega) x y w mode L axes ds hm hF hhi hd hO hxy

/-! ### Concrete cases -/

/-- The tensor rolled along the axes. -/
def rollT (ax ps ds : List Nat) (t : Tensor R) : Tensor R :=
  ofFn t.md t.shape fun idx => t.get (setMany idx ax (rollIx ps ds (sizes ax idx)))

theorem rollT_rolled (ax ps ds : List Nat) (t : Tensor R) : Rolled ax ps ds t (rollT ax ps ds t) :=
  ⟨rfl, rfl, fun _ hidx => ofFn_get_of _ _ hidx⟩

/-- Four taps, one level of 14 samples, rolled by six samples. -/
example : ∃ cs cs', wavedec exMir exW4 (some "periodic") (some 1) (.int (-1)) = .ok cs ∧
    wavedec (rollT [1] [14] [6] exMir) exW4 (some "periodic") (some 1) (.int (-1)) = .ok cs' ∧
    cs'.length = cs.length ∧ ∀ q t t', cs[q]? = some t → cs'[q]? = some t' → Rolled [1] [14 / 2 ^ (1 - (q - 1))] [2 ^ (q - 1) * 3] t t' := by
  obtain ⟨h1, h2⟩ := wavedec_char (mode := some "periodic") (x := exMir) (level := some 1) (h := .int (-1)) (w := exW4) (by decide) rfl
  obtain ⟨cs, hcs, -⟩ := (h2 exMir_axes rfl).2.1 .periodic (Or.inl rfl) (by
    intro s hs
    have h : s < 1 := hs
    obtain rfl : s = 0 := by omega
    simp only [Mode.Admits]; decide)
  have h := c83_roll exMir (rollT [1] [14] [6] exMir) exW4 (some "periodic") 1 (.int (-1)) 3 (Or.inl rfl) (by decide) rfl exMir_axes
    ⟨by decide, by decide, Or.inl (by decide)⟩ (rollT_rolled _ _ _ _)
  change Two _ (wavedec exMir exW4 (some "periodic") (some 1) (.int (-1))) (wavedec _ exW4 (some "periodic") (some 1) (.int (-1))) at h
  rw [hcs] at h
  generalize wavedec (rollT [1] [14] [6] exMir) exW4 (some "periodic") (some 1) (.int (-1)) = r at h ⊢
  cases h with
  | ok h => exact ⟨cs, _, hcs, rfl, h⟩

/-- The coefficients of that level repeat after seven: there are eight of them. -/
example : ∃ cs t, wavedec exMir exW4 (some "periodic") (some 1) (.int (-1)) = .ok cs ∧ cs[1]? = some t ∧
    t.get [1, 7] = t.get [1, 0] := by
  obtain ⟨h1, h2⟩ := wavedec_char (mode := some "periodic") (x := exMir) (level := some 1) (h := .int (-1)) (w := exW4) (by decide) rfl
  obtain ⟨cs, hcs, hd⟩ := (h2 exMir_axes rfl).2.1 .periodic (Or.inl rfl) (by
    intro s hs
    have h : s < 1 := hs
    obtain rfl : s = 0 := by omega
    simp only [Mode.Admits]; decide)
  have hl : cs.length = 2 := hd.length
  obtain ⟨t, ht⟩ : ∃ t, cs[1]? = some t := ⟨cs[1], List.getElem?_eq_getElem (by omega)⟩
  have hsh : t.shape = [2, 8] := (hd.detail 0 t (by decide) ht).shape
  exact ⟨cs, t, hcs, ht, c83_repeat exMir exW4 (some "periodic") (some 1) (.int (-1)) cs (Or.inl rfl) (by decide) rfl hcs 1 0 t
    (by rw [hl]; rfl) ht (by decide) [1, 0] (by rw [hsh]; exact ⟨by decide, by decide, trivial⟩) (by rw [hsh]; decide)⟩

/-- Two levels of the Haar transform of an image of 4 rows and 8 columns, rolled by 4 columns. -/
example : ∃ c c', wavedec2 (slope [4, 8] 1) haar (some "periodic") (some 2) .none = .ok c ∧
    wavedec2 (rollT [0, 1] [4, 8] [0, 4] (slope [4, 8] 1)) haar (some "periodic") (some 2) .none = .ok c' ∧
    CoeffsRolled [0, 1] [4, 8] [0, 1] c c' := by
  have hg : GoodAxes .none (slope [4, 8] 1).rank 2 := goodAxes_none (by decide) (by decide)
  have hs : sizes (axesOf .none (slope [4, 8] 1).rank 2) (slope [4, 8] 1).shape = [4, 8] := rfl
  obtain ⟨c, hc⟩ := (c16_wavedec2_succeeds_iff (slope [4, 8] 1) haar (some "periodic") .periodic (some 2) .none (Or.inl rfl) (by decide)
    rfl).mpr ⟨hg, Or.inr rfl, by
      rw [hs]
      intro s h k hk
      have h' : s < 2 := h
      have h01 : s = 0 ∨ s = 1 := by omega
      rcases h01 with rfl | rfl
      · have : k = 4 ∨ k = 8 := by simpa [levelLens, levelLen] using hk
        rcases this with rfl | rfl <;> (simp only [Mode.Admits]; decide)
      · have : k = 2 ∨ k = 4 := by simpa [levelLens, levelLen, outLen, haar, Wavelet.len] using hk
        rcases this with rfl | rfl <;> (simp only [Mode.Admits]; decide)⟩
  have h := c83_roll_wavedec2 (slope [4, 8] 1) (rollT [0, 1] [4, 8] [0, 4] (slope [4, 8] 1)) haar (some "periodic") 2 .none [0, 1]
    (Or.inl rfl) (by decide) rfl rfl (by
      rw [hs]
      intro n hn
      simp only [List.mem_cons, List.not_mem_nil, or_false] at hn
      rcases hn with rfl | rfl <;> exact ⟨by decide, by decide, Or.inr (by decide)⟩) (rollT_rolled _ _ _ _)
  change Two _ (wavedec2 (slope [4, 8] 1) haar (some "periodic") (some 2) .none)
    (wavedec2 (rollT [0, 1] [4, 8] [0, 4] (slope [4, 8] 1)) haar (some "periodic") (some 2) .none) at h
  rw [hc] at h
  generalize wavedec2 (rollT [0, 1] [4, 8] [0, 4] (slope [4, 8] 1)) haar (some "periodic") (some 2) .none = r at h ⊢
  cases h with
  | ok h => exact ⟨c, _, hc, rfl, h⟩

/-- The hypotheses of the other transforms. -/
example : Two (CoeffsRolled [0, 1, 2] [4, 8, 2] [1, 3, 0]) (wavedec3 (slope [4, 8, 2] 1) exW4 (some "periodic") (some 1) .none)
      (wavedec3 (rollT [0, 1, 2] [4, 8, 2] [2, 6, 0] (slope [4, 8, 2] 1)) exW4 (some "periodic") (some 1) .none) ∧
    Two (CoeffsRolled [0, 1, 2] [4, 8, 2] [1, 3, 0]) (fswavedec3 (slope [4, 8, 2] 1) exW4 (some "periodic") (some 1) .none)
      (fswavedec3 (rollT [0, 1, 2] [4, 8, 2] [2, 6, 0] (slope [4, 8, 2] 1)) exW4 (some "periodic") (some 1) .none) ∧
    Two (CoeffsRolled [0, 1] [4, 8] [1, 3]) (fswavedec2 (slope [4, 8] 1) haar (some "periodic") (some 2) .none)
      (fswavedec2 (rollT [0, 1] [4, 8] [4, 12] (slope [4, 8] 1)) haar (some "periodic") (some 2) .none) := by
  have h3 : ∀ n ∈ sizes (axesOf .none 3 3) [4, 8, 2], OnCircle exW4.len 1 n := by
    intro n hn
    have : n = 4 ∨ n = 8 ∨ n = 2 := by simpa [sizes, axesOf, resolve, axisOf, List.range_succ] using hn
    rcases this with rfl | rfl | rfl <;> exact ⟨by decide, by decide, Or.inl (by decide)⟩
  have h2 : ∀ n ∈ sizes (axesOf .none 2 2) [4, 8], OnCircle haar.len 2 n := by
    intro n hn
    have : n = 4 ∨ n = 8 := by simpa [sizes, axesOf, resolve, axisOf, List.range_succ] using hn
    rcases this with rfl | rfl <;> exact ⟨by decide, by decide, Or.inr (by decide)⟩
  exact ⟨c83_roll_wavedec3 (slope [4, 8, 2] 1) _ exW4 _ 1 .none [1, 3, 0] (Or.inl rfl) (by decide) rfl (by decide) rfl h3 (rollT_rolled _ _ _ _),
    c83_roll_fswavedec3 (slope [4, 8, 2] 1) _ exW4 _ 1 .none [1, 3, 0] (Or.inl rfl) (by decide) rfl rfl h3 (rollT_rolled _ _ _ _),
    c83_roll_fswavedec2 (slope [4, 8] 1) _ haar _ 2 .none [1, 3] (Or.inl rfl) (by decide) rfl rfl h2 (rollT_rolled _ _ _ _)⟩

end Props
end Verif
