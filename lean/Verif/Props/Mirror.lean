/-
C81: mirroring.
-/
import Verif.Spec.Mirror
import Verif.Props.ZeroModeN

namespace Verif
open Tensor Spec
variable {R : Type}

/-! ### One step -/

theorem extIdx_mirror {m : Mode} {n : Nat} (hn : m = .zero ∨ 1 ≤ n) (i : ℤ) :
    extIdx m n ((n : ℤ) - 1 - i) = (extIdx m n i).map fun j => n - 1 - j := by
  cases m with
  | zero =>
    simp only [extIdx]
    by_cases h : 0 ≤ i ∧ i < n
    · rw [if_pos h, if_pos (by omega)]
      simp only [Option.map_some, Option.some.injEq]
      omega
    · rw [if_neg h, if_neg (by omega)]
      rfl
  | constant =>
    have hn : 1 ≤ n := hn.resolve_left (by simp)
    simp only [extIdx]
    split_ifs <;> simp only [Option.map_some, Option.some.injEq] <;> omega
  | periodic =>
    have hn : 1 ≤ n := hn.resolve_left (by simp)
    simp only [extIdx]
    simp only [Option.map_some, Option.some.injEq]
    have h1 := Int.emod_nonneg i (show (n : ℤ) ≠ 0 by omega)
    have h2 := Int.emod_lt_of_pos i (show (0 : ℤ) < n by omega)
    have e : ((n : ℤ) - 1 - i) % n = (n : ℤ) - 1 - i % n := by
      have : (n : ℤ) - 1 - i = ((n : ℤ) - 1 - i % n) + n * (-(i / n)) := by
        have := Int.emod_add_mul_ediv i n
        linarith
      rw [this, Int.add_mul_emod_self_left, Int.emod_eq_of_lt (by omega) (by omega)]
    rw [e]
    omega
  | symmetric =>
    have hn : 1 ≤ n := hn.resolve_left (by simp)
    simp only [extIdx]
    simp only [Option.map_some, Option.some.injEq]
    have h1 := Int.emod_nonneg i (show (2 * n : ℤ) ≠ 0 by omega)
    have h2 := Int.emod_lt_of_pos i (show (0 : ℤ) < 2 * n by omega)
    have e0 : (n : ℤ) - 1 - i = ((n : ℤ) - 1 - i % (2 * n)) + 2 * n * (-(i / (2 * n))) := by
      have := Int.emod_add_mul_ediv i (2 * n)
      linarith
    by_cases hr : i % (2 * n) < n
    · have e : ((n : ℤ) - 1 - i) % (2 * n) = (n : ℤ) - 1 - i % (2 * n) := by
        rw [e0, Int.add_mul_emod_self_left, Int.emod_eq_of_lt (by omega) (by omega)]
      rw [e, if_pos (by omega), if_pos (by omega)]
      omega
    · have e : ((n : ℤ) - 1 - i) % (2 * n) = 3 * (n : ℤ) - 1 - i % (2 * n) := by
        rw [e0, show (n : ℤ) - 1 - i % (2 * n) = (3 * (n : ℤ) - 1 - i % (2 * n)) + 2 * n * (-1) by ring, add_assoc, ← mul_add,
          Int.add_mul_emod_self_left, Int.emod_eq_of_lt (by omega) (by omega)]
      rw [e, if_neg (show ¬ (i % (2 * n)).toNat < n by omega)]
      split_ifs <;> omega
  | reflect =>
    have hn : 1 ≤ n := hn.resolve_left (by simp)
    simp only [extIdx]
    by_cases h1n : n ≤ 1
    · rw [if_pos h1n, if_pos h1n]
      simp only [Option.map_some, Option.some.injEq]
      omega
    rw [if_neg h1n, if_neg h1n]
    simp only [Option.map_some, Option.some.injEq]
    have h1 := Int.emod_nonneg i (show (2 * n - 2 : ℤ) ≠ 0 by omega)
    have h2 := Int.emod_lt_of_pos i (show (0 : ℤ) < 2 * n - 2 by omega)
    have e0 : (n : ℤ) - 1 - i = ((n : ℤ) - 1 - i % (2 * n - 2)) + (2 * n - 2) * (-(i / (2 * n - 2))) := by
      have := Int.emod_add_mul_ediv i (2 * n - 2)
      linarith
    by_cases hr : i % (2 * n - 2) < n
    · have e : ((n : ℤ) - 1 - i) % (2 * n - 2) = (n : ℤ) - 1 - i % (2 * n - 2) := by
        rw [e0, Int.add_mul_emod_self_left, Int.emod_eq_of_lt (by omega) (by omega)]
      rw [e, if_pos (by omega), if_pos (by omega)]
      omega
    · have e : ((n : ℤ) - 1 - i) % (2 * n - 2) = 3 * (n : ℤ) - 3 - i % (2 * n - 2) := by
        rw [e0, show (n : ℤ) - 1 - i % (2 * n - 2) = (3 * (n : ℤ) - 3 - i % (2 * n - 2)) + (2 * n - 2) * (-1) by ring, add_assoc,
          ← mul_add, Int.add_mul_emod_self_left, Int.emod_eq_of_lt (by omega) (by omega)]
      rw [e, if_neg (show ¬ (i % (2 * n - 2)).toNat < n by omega)]
      split_ifs <;> omega

theorem extIdx_lt' {m : Mode} {n : Nat} (hn : m = .zero ∨ 1 ≤ n) {i : ℤ} {j : Nat} (h : extIdx m n i = some j) : j < n := by
  rcases hn with rfl | hn
  · simp only [extIdx] at h
    split_ifs at h with h0
    cases h
    omega
  · exact extIdx_lt hn h

section
variable [CommSemiring R]

theorem Spec.MirroredDec.len_eq {ε : R} {w w' : Wavelet R} (hw : MirroredDec ε w w') : w'.len = w.len := by
  show w'.decLo.length = _
  rw [hw.lo, List.length_reverse]
  rfl

theorem ext_mirror {m : Mode} {n : Nat} (hn : m = .zero ∨ 1 ≤ n) {η : R} {v v' : Nat → R}
    (h : ∀ j, j < n → v' j = η * v (n - 1 - j)) (i : ℤ) : ext m n v' i = η * ext m n v ((n : ℤ) - 1 - i) := by
  unfold ext
  rw [extIdx_mirror hn]
  cases e : extIdx m n i with
  | none => simp
  | some j => exact h j (extIdx_lt' hn e)

theorem dwtStep_mirror {m : Mode} {F n : Nat} (hF : 2 ≤ F) (he : F % 2 = 0) (hn : m = .zero ∨ 1 ≤ n) (hn2 : n % 2 = 0)
    {c η : R} {f f' : List R} (hf : f.length = F) (hf' : f' = (f.map fun a => c * a).reverse) {v v' : Nat → R}
    (h : ∀ j, j < n → v' j = η * v (n - 1 - j)) {k : Nat} (hk : k < outLen F n) :
    dwtStep m f' n v' k = (c * η) * dwtStep m f n v (outLen F n - 1 - k) := by
  subst hf'
  unfold dwtStep analysis
  rw [List.length_reverse, List.length_map, hf, Finset.mul_sum, ← Finset.sum_range_reflect]
  refine Finset.sum_congr rfl fun j hj => ?_
  rw [Finset.mem_range] at hj
  rw [ext_mirror hn h]
  have e1 : ((f.map fun a => c * a).reverse).getD (F - 1 - j) 0 = c * f.getD j 0 := by
    rw [List.getD_eq_getElem?_getD, List.getD_eq_getElem?_getD, List.getElem?_reverse (by simp; omega)]
    simp only [List.length_map, hf]
    rw [show F - 1 - (F - 1 - j) = j by omega, List.getElem?_map, List.getElem?_eq_getElem (by omega)]
    rfl
  have e2 : (n : ℤ) - 1 - (2 * (k : ℤ) + 1 - ((F - 1 - j : ℕ) : ℤ)) = 2 * ((outLen F n - 1 - k : ℕ) : ℤ) + 1 - j := by
    unfold outLen at *
    omega
  rw [e1, e2]
  ring

theorem admits_pos {m : Mode} {F n : Nat} (h : m.Admits F n) : m = .zero ∨ 1 ≤ n := by
  cases m
  · exact Or.inl rfl
  all_goals
    simp only [Mode.Admits] at h
    omega

theorem cA_mirror {m : Mode} {w w' : Wavelet R} {ε : R} {n L : Nat} (hF : 2 ≤ w.len) (he : w.len % 2 = 0)
    (hw : MirroredDec ε w w') (hA : ∀ s, s < L → m.Admits w.len (levelLen w.len n s)) (hE : EvenLevels w.len n L) {v v' : Nat → R}
    (h : ∀ j, j < n → v' j = v (n - 1 - j)) : ∀ s, s ≤ L → ∀ k, k < levelLen w.len n s →
      cA m w' n v' s k = cA m w n v s (levelLen w.len n s - 1 - k)
  | 0, _, k, hk => h k hk
  | s + 1, hs, k, hk => by
    have hl : w'.len = w.len := by
      show w'.decLo.length = _
      rw [hw.lo, List.length_reverse]
      rfl
    show dwtStep m w'.decLo (levelLen w'.len n s) (cA m w' n v' s) k =
      dwtStep m w.decLo (levelLen w.len n s) (cA m w n v s) (outLen w.len (levelLen w.len n s) - 1 - k)
    rw [hl, dwtStep_mirror (c := 1) (η := 1) hF he (admits_pos (hA s (by omega))) (hE s (by omega)) (f := w.decLo) rfl
      (by simpa using hw.lo) (v := cA m w n v s) (fun j hj => by rw [one_mul]; exact cA_mirror hF he hw hA hE h s (by omega) j hj)
      hk]
    ring

theorem cD_mirror {m : Mode} {w w' : Wavelet R} {ε : R} {n L : Nat} (hF : 2 ≤ w.len) (he : w.len % 2 = 0)
    (hhi : w.decHi.length = w.len) (hw : MirroredDec ε w w') (hA : ∀ s, s < L → m.Admits w.len (levelLen w.len n s))
    (hE : EvenLevels w.len n L) {v v' : Nat → R}
    (h : ∀ j, j < n → v' j = v (n - 1 - j)) {s : Nat} (hs : s < L) {k : Nat} (hk : k < levelLen w.len n (s + 1)) :
      cD m w' n v' s k = ε * cD m w n v s (levelLen w.len n (s + 1) - 1 - k) := by
  have hl : w'.len = w.len := by
    show w'.decLo.length = _
    rw [hw.lo, List.length_reverse]
    rfl
  show dwtStep m w'.decHi (levelLen w'.len n s) (cA m w' n v' s) k =
    ε * dwtStep m w.decHi (levelLen w.len n s) (cA m w n v s) (outLen w.len (levelLen w.len n s) - 1 - k)
  rw [hl, dwtStep_mirror (c := ε) (η := 1) hF he (admits_pos (hA s hs)) (hE s hs) (f := w.decHi) hhi
    hw.hi (v := cA m w n v s) (fun j hj => by rw [one_mul]; exact cA_mirror hF he hw hA hE h s (by omega) j hj) hk, mul_one]

/-! ### Several axes -/

/-- The positions counted from the other end. -/
def revIx : List Nat → List Nat → List Nat
  | n :: ns, k :: ks => (n - 1 - k) :: revIx ns ks
  | _, _ => []

theorem revIx_length : ∀ (ns ks : List Nat), ks.length = ns.length → (revIx ns ks).length = ns.length
  | [], [], _ => rfl
  | n :: ns, k :: ks, h => by simp [revIx, revIx_length ns ks (by simpa using h)]
  | [], _ :: _, h => by simp at h
  | _ :: _, [], h => by simp at h

theorem dwtN_mirror_mul {m : Mode} {F : Nat} (hF : 2 ≤ F) (he : F % 2 = 0) (w : Wavelet R) {w' : Wavelet R} {ε : R}
    (hw : MirroredDec ε w w') (hlo : w.decLo.length = F) (hhi : w.decHi.length = F) :
    ∀ {bs : List Bool} {ns ks : List Nat} {η : R} {X X' : List Nat → R} (_ : bs.length = ns.length) (_ : ∀ n ∈ ns, m = .zero ∨ 1 ≤ n)
      (_ : ∀ n ∈ ns, n % 2 = 0) (_ : ∀ js, InB ns js → X' js = η * X (revIx ns js)) (_ : InB (ns.map (outLen F)) ks),
      dwtN m ((bandFilt w'.decLo w'.decHi bs).zip ns) X' ks =
        (ε ^ bs.count true * η) * dwtN m ((bandFilt w.decLo w.decHi bs).zip ns) X (revIx (ns.map (outLen F)) ks)
  | [], [], [], η, X, X', _, _, _, hX, _ => by
    show X' [] = ε ^ 0 * η * X []
    rw [hX [] trivial]
    simp [revIx]
  | b :: bs, n :: ns, k :: ks, η, X, X', hl, hp, h2, hX, hk => by
    have hk' : k < outLen F n ∧ InB (ns.map (outLen F)) ks := hk
    have ih : ∀ j, j < n → dwtN m ((bandFilt w'.decLo w'.decHi bs).zip ns) (fun js => X' (j :: js)) ks =
        (ε ^ bs.count true * η) * dwtN m ((bandFilt w.decLo w.decHi bs).zip ns) (fun js => X ((n - 1 - j) :: js))
          (revIx (ns.map (outLen F)) ks) := fun j hj =>
      dwtN_mirror_mul hF he w hw hlo hhi (by simpa using hl) (fun i hi => hp i (by simp [hi])) (fun i hi => h2 i (by simp [hi]))
        (fun js hjs => hX (j :: js) ⟨hj, hjs⟩) hk'.2
    have key := fun {c : R} {f f' : List R} (h1 : f.length = F) (h3 : f' = (f.map fun a => c * a).reverse) =>
      dwtStep_mirror (m := m) hF he (hp n (by simp)) (h2 n (by simp)) h1 h3 (η := ε ^ bs.count true * η)
        (v := fun j => dwtN m ((bandFilt w.decLo w.decHi bs).zip ns) (fun js => X (j :: js)) (revIx (ns.map (outLen F)) ks))
        (v' := fun j => dwtN m ((bandFilt w'.decLo w'.decHi bs).zip ns) (fun js => X' (j :: js)) ks) ih hk'.1
    cases b with
    | false =>
      have := key (c := 1) hlo (f' := w'.decLo) (by simpa using hw.lo)
      rw [one_mul] at this
      rw [List.count_cons_of_ne (by decide)]
      exact this
    | true =>
      have := key (c := ε) hhi hw.hi
      rw [List.count_cons_self, pow_succ, mul_comm (ε ^ _) ε, mul_assoc ε]
      exact this
  | [], [], _ :: _, _, _, _, _, _, _, _, h => h.elim
  | _ :: _, _ :: _, [], _, _, _, _, _, _, _, h => h.elim
  | [], _ :: _, _, _, _, _, hl, _, _, _, _ => by simp at hl
  | _ :: _, [], _, _, _, _, hl, _, _, _, _ => by simp at hl

theorem dwtN_mirror {m : Mode} {F : Nat} (hF : 2 ≤ F) (he : F % 2 = 0) (w : Wavelet R) {w' : Wavelet R} {ε : R}
    (hw : MirroredDec ε w w') (hlo : w.decLo.length = F) (hhi : w.decHi.length = F)
    {bs : List Bool} {ns ks : List Nat} {X X' : List Nat → R} (h1 : bs.length = ns.length) (h2 : ∀ n ∈ ns, m = .zero ∨ 1 ≤ n)
    (h3 : ∀ n ∈ ns, n % 2 = 0) (h4 : ∀ js, InB ns js → X' js = X (revIx ns js)) (h5 : InB (ns.map (outLen F)) ks) :
    dwtN m ((bandFilt w'.decLo w'.decHi bs).zip ns) X' ks =
      ε ^ bs.count true * dwtN m ((bandFilt w.decLo w.decHi bs).zip ns) X (revIx (ns.map (outLen F)) ks) := by
  rw [dwtN_mirror_mul hF he w hw hlo hhi (η := 1) h1 h2 h3 (fun js hj => by rw [one_mul]; exact h4 js hj) h5, mul_one]

theorem cAN_mirror {m : Mode} {w w' : Wavelet R} {ε : R} {ns : List Nat} {L : Nat} (hF : 2 ≤ w.len) (he : w.len % 2 = 0)
    (hhi : w.decHi.length = w.len) (hw : MirroredDec ε w w') (hA : LevelsAdmit m w.len ns L)
    (hE : ∀ n ∈ ns, EvenLevels w.len n L) {X X' : List Nat → R} (h : ∀ js, InB ns js → X' js = X (revIx ns js)) :
    ∀ s, s ≤ L → ∀ ks, InB (levelLens w.len ns s) ks → cAN m w' ns X' s ks = cAN m w ns X s (revIx (levelLens w.len ns s) ks)
  | 0, _, ks, hk => by
    rw [levelLens_zero] at *
    exact h ks hk
  | s + 1, hs, ks, hk => by
    have hl : w'.len = w.len := by
      show w'.decLo.length = _
      rw [hw.lo, List.length_reverse]
      rfl
    rw [levelLens_succ] at hk ⊢
    show dwtN m ((bandFilt w'.decLo w'.decHi (lowBand ns.length)).zip (levelLens w'.len ns s)) (cAN m w' ns X' s) ks = _
    have hc : (lowBand ns.length).count true = 0 := by simp [lowBand, List.count_replicate]
    rw [hl, dwtN_mirror hF he w hw rfl hhi (by simp [lowBand, levelLens]) (fun n hn => admits_pos (hA s (by omega) n hn))
      (fun n hn => ?_) (cAN_mirror hF he hhi hw hA hE h s (by omega)) hk, hc, pow_zero, one_mul]
    · rfl
    · unfold levelLens at hn
      obtain ⟨n0, h0, rfl⟩ := List.mem_map.mp hn
      exact hE n0 h0 s (by omega)

theorem cDN_mirror {m : Mode} {w w' : Wavelet R} {ε : R} {ns : List Nat} {L : Nat} (hF : 2 ≤ w.len) (he : w.len % 2 = 0)
    (hhi : w.decHi.length = w.len) (hw : MirroredDec ε w w') (hA : LevelsAdmit m w.len ns L)
    (hE : ∀ n ∈ ns, EvenLevels w.len n L) {X X' : List Nat → R} (h : ∀ js, InB ns js → X' js = X (revIx ns js))
    {s : Nat} (hs : s < L) {bs : List Bool} (hb : bs.length = ns.length) (ks : List Nat)
    (hk : InB (levelLens w.len ns (s + 1)) ks) :
    cDN m w' ns X' s bs ks = ε ^ bs.count true * cDN m w ns X s bs (revIx (levelLens w.len ns (s + 1)) ks) := by
  have hl : w'.len = w.len := by
    show w'.decLo.length = _
    rw [hw.lo, List.length_reverse]
    rfl
  rw [levelLens_succ] at hk ⊢
  show dwtN m ((bandFilt w'.decLo w'.decHi bs).zip (levelLens w'.len ns s)) (cAN m w' ns X' s) ks = _
  rw [hl, dwtN_mirror hF he w hw rfl hhi (by rw [levelLens_length, hb]) (fun n hn => admits_pos (hA s (by omega) n hn))
    (fun n hn => ?_) (cAN_mirror hF he hhi hw hA hE h s (by omega)) hk]
  · rfl
  · unfold levelLens at hn
    obtain ⟨n0, h0, rfl⟩ := List.mem_map.mp hn
    exact hE n0 h0 s (by omega)

/-! ### Tensors -/

theorem revIx_sizes (ax S idx : List Nat) :
    revIx (sizes ax S) (sizes ax idx) = ax.map fun a => S.getD a 0 - 1 - idx.getD a 0 := by
  induction ax with
  | nil => rfl
  | cons a ax ih =>
    show (S.getD a 0 - 1 - idx.getD a 0) :: revIx (sizes ax S) (sizes ax idx) = _
    rw [ih]
    rfl

theorem inB_revIx : ∀ {ns ks : List Nat}, InB ns ks → InB ns (revIx ns ks)
  | [], [], _ => trivial
  | n :: ns, k :: ks, h => ⟨by have := h.1; show n - 1 - k < n; omega, inB_revIx h.2⟩
  | [], _ :: _, h => h.elim
  | _ :: _, [], h => h.elim

theorem flipped_of {ax Ks : List Nat} {c : R} {x y t t' : Tensor R} {f f' : (List Nat → R) → List Nat → R}
    (hn : ax.Nodup) (hlt : ∀ a ∈ ax, a < x.shape.length) (hxy : Flipped ax 1 x y) (hK : Ks.length = ax.length)
    (ht : AlongAxes ax Ks f x t) (ht' : AlongAxes ax Ks f' y t')
    (hf : ∀ X X' : List Nat → R, (∀ js, InB (sizes ax x.shape) js → X' js = X (revIx (sizes ax x.shape) js)) →
      ∀ ks, InB Ks ks → f' X' ks = c * f X (revIx Ks ks)) : Flipped ax c t t' := by
  have hs : t'.shape = t.shape := by rw [ht'.shape, ht.shape, hxy.shape]
  refine ⟨by rw [ht'.md, ht.md, hxy.md], hs, fun idx hidx => ?_⟩
  have hl : idx.length = x.shape.length := by rw [hidx.length_eq, ht.shape, setMany_length]
  have hlti : ∀ a ∈ ax, a < idx.length := by rw [hl]; exact hlt
  have hts : sizes ax t.shape = Ks := by rw [ht.shape, sizes_setMany hn hlt hK]
  have hk : InB Ks (sizes ax idx) := by
    rw [← hts]
    exact inB_sizes (by rw [ht.shape, setMany_length]; exact hlt) hidx
  rw [ht'.get idx (by rw [hs]; exact hidx), hf (plane x ax idx) (plane y ax idx) (fun js hj => ?_) _ hk]
  · rw [← revIx_sizes, hts]
    have hrl : (revIx Ks (sizes ax idx)).length = ax.length := by rw [revIx_length _ _ hk.length_eq, hK]
    have hb : InB t.shape (setMany idx ax (revIx Ks (sizes ax idx))) :=
      inB_setMany hn (by rw [ht.shape, setMany_length]; exact hlt) (Ks := Ks) hK
        (by rw [ht.shape, setMany_setMany hn hlt hK, ← ht.shape]; exact hidx) (by rw [hts]; exact inB_revIx hk)
    rw [ht.get _ hb, sizes_setMany hn hlti hrl, plane_setMany hn hlti]
  · have hjl : js.length = ax.length := by rw [hj.length_eq]; simp [sizes]
    have hrl : (revIx (sizes ax x.shape) js).length = ax.length := by rw [revIx_length _ _ hj.length_eq]; simp [sizes]
    have hb : InB x.shape (setMany idx ax js) := inB_setMany hn hlt hK (by rw [← ht.shape]; exact hidx) hj
    unfold plane
    rw [if_pos hjl, if_pos hrl, hxy.get _ hb, one_mul, ← revIx_sizes, sizes_setMany hn hlti hjl, setMany_setMany hn hlti hrl]

theorem alongAxis_axes {a K : Nat} {f : (Nat → R) → Nat → R} {x t : Tensor R} (h : AlongAxis a K f x t) :
    AlongAxes [a] [K] (fun X ks => f (fun j => X [j]) (ks.getD 0 0)) x t := by
  refine ⟨h.md, h.shape, fun idx hidx => ?_⟩
  rw [h.get idx hidx]
  rfl

theorem coeffsFlipped_of {m : Mode} {w w' : Wavelet R} {ε : R} {ax : List Nat} {L n : Nat} {x y : Tensor R} {c c' : Coeffs R}
    {D : (List Bool → Tensor R → Prop) → Entry R → Prop} (hax : ax.length = n)
    (hD : ∀ (P : List Bool → Tensor R → Prop) (e : Entry R) bs t, D P e → HoldsBand e bs t → bs.length = n ∧ P bs t)
    (hF : 2 ≤ w.len) (he : w.len % 2 = 0) (hhi : w.decHi.length = w.len) (hw : MirroredDec ε w w')
    (hn : ax.Nodup) (hlt : ∀ a ∈ ax, a < x.shape.length) (hA : LevelsAdmit m w.len (sizes ax x.shape) L)
    (hE : ∀ a ∈ ax, EvenLevels w.len (x.shape.getD a 0) L) (hxy : Flipped ax 1 x y)
    (h : IsDwtN D m w ax L x c) (h' : IsDwtN D m w' ax L y c') : CoeffsFlipped ax ε c c' := by
  have hl : w'.len = w.len := by
    show w'.decLo.length = _
    rw [hw.lo, List.length_reverse]
    rfl
  have hs : (sizes ax x.shape).length = ax.length := by simp [sizes]
  have hE' : ∀ k ∈ sizes ax x.shape, EvenLevels w.len k L := by
    intro k hk
    obtain ⟨a, ha, rfl⟩ := List.mem_map.mp hk
    exact hE a ha
  refine ⟨by rw [h.kind, h'.kind], by rw [h.length, h'.length], ?_, fun q e e' hq hq' bs t t' hb hb' => ?_⟩
  · obtain ⟨t, k1, k2⟩ := h.approx
    obtain ⟨t', l1, l2⟩ := h'.approx
    unfold IsApprox at l2
    rw [hxy.shape, hl] at l2
    refine ⟨t, t', k1, l1, flipped_of hn hlt hxy (by rw [levelLens_length, hs]) k2 l2 fun X X' hX ks hk => ?_⟩
    rw [one_mul]
    exact cAN_mirror hF he hhi hw hA hE' hX L le_rfl ks hk
  · have hlen : q + 1 < c.items.length := (List.getElem?_eq_some_iff.mp hq).1
    rw [h.length] at hlen
    obtain ⟨s, hsL, rfl⟩ : ∃ s, s < L ∧ q = L - (s + 1) := ⟨L - (q + 1), by omega, by omega⟩
    rw [show L - (s + 1) + 1 = L - s by omega] at hq hq'
    obtain ⟨e1, k1, k2⟩ := h.detail s hsL
    obtain ⟨e1', l1, l2⟩ := h'.detail s hsL
    rw [hq] at k1; cases k1
    rw [hq'] at l1; cases l1
    obtain ⟨m1, m2⟩ := hD _ _ _ _ k2 hb
    obtain ⟨-, m3⟩ := hD _ _ _ _ l2 hb'
    unfold IsBand at m3
    rw [hxy.shape, hl] at m3
    exact flipped_of hn hlt hxy (by rw [levelLens_length, hs]) m2 m3 fun X X' hX ks hk =>
      cDN_mirror hF he hhi hw hA hE' hX hsL (by rw [hs, hax, m1]) ks hk

theorem mirrorN {w w' : Wavelet R} {ε : R} {n L : Nat} {mode : Option String} {axes : AxisHint} {x y : Tensor R} {c : Coeffs R}
    {r r' : Except Err (Coeffs R)} {D : (List Bool → Tensor R → Prop) → Entry R → Prop}
    (hD : ∀ (P : List Bool → Tensor R → Prop) (e : Entry R) bs t, D P e → HoldsBand e bs t → bs.length = n ∧ P bs t)
    (hF : 2 ≤ w.len) (he : w.len % 2 = 0) (hhi : w.decHi.length = w.len) (hw : MirroredDec ε w w')
    (hr : Props.DecChar n D w mode axes x L r) (hr' : Props.DecChar n D w' mode axes y L r')
    (hE : ∀ a ∈ axesOf axes x.rank n, EvenLevels w.len (x.shape.getD a 0) L)
    (hxy : Flipped (axesOf axes x.rank n) 1 x y) (hc : r = .ok c) :
    ∃ c', r' = .ok c' ∧ CoeffsFlipped (axesOf axes x.rank n) ε c c' := by
  obtain ⟨hg, hdt, m, hm, hA, h⟩ := hr.good c hc
  have hl : w'.len = w.len := by
    show w'.decLo.length = _
    rw [hw.lo, List.length_reverse]
    rfl
  have hrk : y.rank = x.rank := by
    unfold Tensor.rank
    rw [hxy.shape]
  obtain ⟨c', e, h'⟩ := hr'.ok m (by rw [hrk]; exact hg) (by rw [hxy.md]; exact hdt) (hm.imp id fun h => h.1)
    (by rw [hrk, hl, hxy.shape]; exact hA)
  rw [hrk] at h'
  exact ⟨c', e, coeffsFlipped_of (by simp [axesOf, hg.len]) hD hF he hhi hw hg.nodup hg.lt hA hE hxy h h'⟩

/-! ### Synthesis -/

theorem tap_mirror {F : Nat} {c : R} {f f' : List R} (hf : f.length = F) (hf' : f' = (f.map fun a => c * a).reverse) (i : ℤ) :
    tap f' i = c * tap f ((F : ℤ) - 1 - i) := by
  have hl : f'.length = F := by rw [hf']; simpa using hf
  unfold tap
  by_cases h0 : 0 ≤ i
  · by_cases h1 : i < F
    · rw [if_pos h0, if_pos (by omega), hf']
      rw [List.getD_eq_getElem?_getD, List.getD_eq_getElem?_getD, List.getElem?_reverse (by simp; omega)]
      simp only [List.length_map, hf]
      rw [show ((F : ℤ) - 1 - i).toNat = F - 1 - i.toNat by omega, List.getElem?_map, List.getElem?_eq_getElem (by omega)]
      rfl
    · rw [if_pos h0, if_neg (by omega), List.getD_eq_default _ _ (by omega), mul_zero]
  · rw [if_neg h0, if_pos (by omega), List.getD_eq_default _ _ (by omega), mul_zero]

theorem synthesis_mirror {F K N : Nat} {ε δ : R} (hεδ : ε * δ = 1) {f₀ f₁ f₀' f₁' : List R} (h0 : f₀.length = F)
    (h1 : f₁.length = F) (h0' : f₀' = f₀.reverse) (h1' : f₁' = (f₁.map fun a => ε * a).reverse) {lo lo' hi hi' : Nat → R}
    (hlo : ∀ k, k < K → lo' k = lo (K - 1 - k)) (hhi : ∀ k, k < K → hi' k = δ * hi (K - 1 - k)) (hF : 2 ≤ F)
    (hN : N = 2 * K + 2 - F) {m : Nat} (hm : m < N) :
    synthesis f₀' f₁' K lo' hi' ((m + (F - 2) : ℕ) : ℤ) = synthesis f₀ f₁ K lo hi ((N - 1 - m + (F - 2) : ℕ) : ℤ) := by
  unfold synthesis
  rw [← Finset.sum_range_reflect]
  refine Finset.sum_congr rfl fun k hk => ?_
  rw [Finset.mem_range] at hk
  rw [hlo _ (by omega), hhi _ (by omega), tap_mirror (c := 1) h0 (by simpa using h0'), tap_mirror h1 h1',
    show K - 1 - (K - 1 - k) = k by omega]
  have e : (F : ℤ) - 1 - (((m + (F - 2) : ℕ) : ℤ) - 2 * ((K - 1 - k : ℕ) : ℤ)) =
      ((N - 1 - m + (F - 2) : ℕ) : ℤ) - 2 * (k : ℤ) := by omega
  rw [e, one_mul]
  congr 1
  calc ε * tap f₁ _ * (δ * hi k) = ε * δ * (tap f₁ _ * hi k) := by ring
    _ = _ := by rw [hεδ, one_mul]

theorem idwt_mirror {F : Nat} {ε δ : R} (hεδ : ε * δ = 1) {f₀ f₁ f₀' f₁' : List R} (h0 : f₀.length = F)
    (h1 : f₁.length = F) (h0' : f₀' = f₀.reverse) (h1' : f₁' = (f₁.map fun a => ε * a).reverse) (hF : 2 ≤ F) :
    ∀ (K : Nat) (ds ds' : List (Nat × (Nat → R))) (lo lo' : Nat → R), ExactFit F K (ds.map Prod.fst) →
      (∀ k, k < K → lo' k = lo (K - 1 - k)) →
      List.Forall₂ (fun d d' => d'.1 = d.1 ∧ ∀ k, k < d.1 → d'.2 k = δ * d.2 (d.1 - 1 - k)) ds ds' → ∀ m,
      m < idwtLen F K (ds.map Prod.fst) →
      idwt f₀' f₁' F lo' ds' m = idwt f₀ f₁ F lo ds (idwtLen F K (ds.map Prod.fst) - 1 - m)
  | K, [], [], lo, lo', _, hlo, _, m, hm => hlo m hm
  | K, [(D, hi)], [(D', hi')], lo, lo', hx, hlo, hd, m, hm => by
    cases hd with
    | cons h _ =>
      obtain ⟨rfl, hk⟩ := h
      obtain ⟨rfl, -⟩ : D' = K ∧ 1 ≤ K := hx
      exact synthesis_mirror hεδ h0 h1 h0' h1' hlo hk hF rfl hm
  | K, (D, hi) :: (n, hi2) :: rest, (D', hi') :: (n', hi2') :: rest', lo, lo', hx, hlo, hd, m, hm => by
    cases hd with
    | cons h hd =>
      obtain ⟨rfl, hk⟩ := h
      obtain ⟨rfl, -, hn, hx⟩ : D' = K ∧ 1 ≤ K ∧ n + F = 2 * K + 2 ∧ ExactFit F n (n :: rest.map Prod.fst) := hx
      exact idwt_mirror hεδ h0 h1 h0' h1' hF n ((n, hi2) :: rest) ((n', hi2') :: rest') _ _ hx
        (fun k hk' => synthesis_mirror hεδ h0 h1 h0' h1' hlo hk hF (by omega) hk') hd m hm
  | _, [_], [], _, _, _, _, hd, _, _ => by cases hd
  | _, [_], _ :: _ :: _, _, _, _, _, hd, _, _ => by cases hd with | cons _ h => cases h
  | _, _ :: _ :: _, [], _, _, _, _, hd, _, _ => by cases hd
  | _, _ :: _ :: _, [_], _, _, _, _, hd, _, _ => by cases hd with | cons _ h => cases h
  | _, [], _ :: _, _, _, _, _, hd, _, _ => by cases hd

theorem exactFit_consistent {F : Nat} : ∀ {K : Nat} {ds : List Nat}, ExactFit F K ds → Consistent F K ds
  | _, [], _ => trivial
  | _, [_], h => h
  | _, _ :: _ :: _, h => ⟨h.1, h.2.1, Or.inl h.2.2.1, exactFit_consistent h.2.2.2⟩

theorem flipped_line {a : Nat} {c : R} {x y : Tensor R} (h : Flipped [a] c x y) {idx : List Nat} (ha : a < x.shape.length)
    {K : Nat} (hidx : InB (x.shape.set a K) idx) {k : Nat} (hk : k < x.shape.getD a 0) :
    line y a idx k = c * line x a idx (x.shape.getD a 0 - 1 - k) := by
  have hla : a < idx.length := by rw [hidx.length_eq]; simpa using ha
  unfold line
  rw [h.get _ ((inB_set_iff ha hidx).mpr hk)]
  show c * x.get ((idx.set a k).set a (x.shape.getD a 0 - 1 - (idx.set a k).getD a 0)) = _
  rw [List.set_set, getD_set_self hla]

end

namespace Props
variable [CommSemiring R]

/-- **C81.** Transforming a signal read backwards with the mirrored filters gives the coefficients read backwards (details
with the factor `ε` of the mirrored high-pass filter), in every mode, if the lengths of all levels that are transformed are
even.  In particular (`w' = w`) a wavelet with symmetric low-pass and (anti)symmetric high-pass filter has no preferred
direction. -/
theorem c81_mirror (x y : Tensor R) (w w' : Wavelet R) (ε : R) (mode : Option String) (level : Option Int) (axis : AxisHint)
    (cs : List (Tensor R)) (hF : 2 ≤ w.len) (he : w.len % 2 = 0) (hhi : w.decHi.length = w.len) (hw : MirroredDec ε w w')
    (hxy : Flipped [axis1 axis x.rank] 1 x y)
    (hE : EvenLevels w.len (x.shape.getD (axis1 axis x.rank) 0) (levels level w.len (x.shape.getD (axis1 axis x.rank) 0)))
    (hcs : wavedec x w mode level axis = .ok cs) :
    ∃ cs', wavedec y w' mode level axis = .ok cs' ∧ cs'.length = cs.length ∧
      ∀ q t t', cs[q]? = some t → cs'[q]? = some t' → Flipped [axis1 axis x.rank] (if q = 0 then 1 else ε) t t' := by
  have hl : w'.len = w.len := by
    show w'.decLo.length = _
    rw [hw.lo, List.length_reverse]
    rfl
  have hhi' : w'.decHi.length = w'.len := by rw [hw.hi, hl]; simpa using hhi
  obtain ⟨h1, h2⟩ := wavedec_char (mode := mode) (x := x) (level := level) (h := axis) hF hhi
  have hg : GoodAxes axis x.rank 1 ∧ isDtypeSupported x.md.dtype = true := by
    by_contra hg
    obtain ⟨e, he⟩ := h1 hg
    rw [he] at hcs; cases hcs
  have hrk : y.rank = x.rank := by
    unfold Tensor.rank
    rw [hxy.shape]
  obtain ⟨-, k2⟩ := wavedec_char (mode := mode) (x := y) (level := level) (h := axis) (w := w') (by rw [hl]; exact hF) hhi'
  obtain ⟨h3, h4, h5, h6⟩ := h2 hg.1 hg.2
  obtain ⟨k3, k4, -⟩ := k2 (by rw [hrk]; exact hg.1) (by rw [hxy.md]; exact hg.2)
  rw [hrk, hl, hxy.shape] at k3 k4
  have hax : axis1 axis x.rank < x.shape.length := axis1_lt hg.1
  generalize axis1 axis x.rank = a at *
  generalize levels level w.len (x.shape.getD a 0) = L at *
  have main : ∀ (m : Mode) (cs' : List (Tensor R)), (∀ s, s < L → m.Admits w.len (levelLen w.len (x.shape.getD a 0) s)) →
      IsDwt m w a L x cs → IsDwt m w' a L y cs' → cs'.length = cs.length ∧
      ∀ q t t', cs[q]? = some t → cs'[q]? = some t' → Flipped [a] (if q = 0 then 1 else ε) t t' := by
    intro m cs' hA hd hd'
    have hn : [a].Nodup := by simp
    have hlt : ∀ b ∈ [a], b < x.shape.length := by simpa using hax
    have hsz : sizes [a] x.shape = [x.shape.getD a 0] := rfl
    refine ⟨by rw [hd.length, hd'.length], fun q t t' hq hq' => ?_⟩
    have hX : ∀ {n : Nat} {X X' : List Nat → R}, (∀ js, InB [n] js → X' js = X (revIx [n] js)) →
        ∀ j, j < n → X' [j] = X [n - 1 - j] := fun h j hj => h [j] ⟨hj, trivial⟩
    match q, hq, hq' with
    | 0, hq, hq' =>
      have h8 := hd'.approx t' hq'
      rw [hxy.shape, hl] at h8
      refine flipped_of hn hlt hxy (by simp) (alongAxis_axes (hd.approx t hq)) (alongAxis_axes h8) fun X X' h ks hk => ?_
      match ks, hk with
      | [k], hk =>
        rw [if_pos rfl, one_mul]
        exact cA_mirror hF he hw hA hE (hX h) L le_rfl k hk.1
    | q + 1, hq, hq' =>
      have hlt' : q + 1 < cs.length := (List.getElem?_eq_some_iff.mp hq).1
      rw [hd.length] at hlt'
      obtain ⟨s, hs, rfl⟩ : ∃ s, s < L ∧ q = L - (s + 1) := ⟨L - (q + 1), by omega, by omega⟩
      rw [if_neg (by omega)]
      rw [show L - (s + 1) + 1 = L - s by omega] at hq hq'
      have h8 := hd'.detail s t' hs hq'
      rw [hxy.shape, hl] at h8
      refine flipped_of hn hlt hxy (by simp) (alongAxis_axes (hd.detail s t hs hq)) (alongAxis_axes h8) fun X X' h ks hk => ?_
      match ks, hk with
      | [k], hk => exact cD_mirror hF he hhi hw hA hE (hX h) hs hk.1
  by_cases hm : ∃ m, Selects mode m
  · obtain ⟨m, hm⟩ := hm
    have hA : ∀ s, s < L → m.Admits w.len (levelLen w.len (x.shape.getD a 0) s) := by
      by_contra hA
      push Not at hA
      rw [h5 m hm hA] at hcs; cases hcs
    obtain ⟨cs0, e, hd⟩ := h4 m hm hA
    rw [e] at hcs; cases hcs
    obtain ⟨cs', e', hd'⟩ := k4 m hm hA
    exact ⟨cs', e', main m cs' hA hd hd'⟩
  · push Not at hm
    rcases Nat.eq_zero_or_pos L with rfl | hL
    · obtain ⟨cs0, e, hd⟩ := h3 rfl .zero
      rw [e] at hcs; cases hcs
      obtain ⟨cs', e', hd'⟩ := k3 rfl .zero
      exact ⟨cs', e', main .zero cs' (fun s hs => absurd hs (by omega)) hd hd'⟩
    · rw [h6 hL hm] at hcs; cases hcs

/-- **C81, synthesis.** Reconstructing from coefficients read backwards with the mirrored synthesis filters gives the
reconstruction read backwards, if the lengths fit exactly (no sample is cut off on the way). -/
theorem c81_mirror_waverec (w w' : Wavelet R) (ε δ : R) (F : Nat) (axis : AxisHint) (md : Meta) (S : List Nat)
    (c0 c0' : Tensor R) (rest rest' : List (Tensor R)) (hF : 2 ≤ F) (h0 : w.recLo.length = F) (h1 : w.recHi.length = F)
    (hw : MirroredRec ε w w') (hεδ : ε * δ = 1) (hg : GoodAxes axis S.length 1)
    (hdt : md.dtype = .float32 ∨ md.dtype = .float64)
    (hcs : SameBut (axis1 axis S.length) md S (c0 :: rest))
    (hx : ExactFit F (c0.shape.getD (axis1 axis S.length) 0) (rest.map (·.shape.getD (axis1 axis S.length) 0)))
    (hc0 : Flipped [axis1 axis S.length] 1 c0 c0') (hrest : List.Forall₂ (Flipped [axis1 axis S.length] δ) rest rest') :
    ∃ z z', waverec (c0 :: rest) w axis = .ok z ∧ waverec (c0' :: rest') w' axis = .ok z' ∧
      Flipped [axis1 axis S.length] 1 z z' := by
  have hd : isDtypeSupported md.dtype = true := by unfold isDtypeSupported; simpa using hdt
  have ha : axis1 axis S.length < S.length := axis1_lt hg
  have h0' : w'.recLo.length = F := by rw [hw.lo]; simpa using h0
  have h1' : w'.recHi.length = F := by rw [hw.hi]; simpa using h1
  have hmem : ∀ t' ∈ rest', ∃ t ∈ rest, Flipped [axis1 axis S.length] δ t t' := by
    intro t' ht'
    obtain ⟨i, hi, rfl⟩ := List.mem_iff_getElem.mp ht'
    have hl := hrest.length_eq
    exact ⟨rest[i], List.getElem_mem _, hrest.get (by omega) hi⟩
  have hcs' : SameBut (axis1 axis S.length) md S (c0' :: rest') := by
    refine ⟨fun c hc => ?_, fun c hc => ?_⟩
    · rcases List.mem_cons.mp hc with rfl | hc
      · rw [hc0.md]; exact hcs.md c0 (by simp)
      · obtain ⟨t, ht, hf⟩ := hmem c hc
        rw [hf.md]; exact hcs.md t (by simp [ht])
    · rcases List.mem_cons.mp hc with rfl | hc
      · rw [hc0.shape]; exact hcs.shape c0 (by simp)
      · obtain ⟨t, ht, hf⟩ := hmem c hc
        rw [hf.shape]; exact hcs.shape t (by simp [ht])
  have hlens : rest'.map (·.shape.getD (axis1 axis S.length) 0) = rest.map (·.shape.getD (axis1 axis S.length) 0) := by
    clear hcs hcs' hx hmem
    induction hrest with
    | nil => rfl
    | cons h _ ih => rw [List.map_cons, List.map_cons, ih, h.shape]
  obtain ⟨z, ez, z1, z2, z3⟩ := (waverec_gen hF h0 h1 hg hd hcs).1 (exactFit_consistent hx)
  obtain ⟨z', ez', z1', z2', z3'⟩ := (waverec_gen hF h0' h1' hg hd hcs').1 (by
    rw [hlens, hc0.shape]; exact exactFit_consistent hx)
  rw [hlens, hc0.shape] at z2'
  generalize axis1 axis S.length = a at *
  generalize hN : idwtLen F (c0.shape.getD a 0) (rest.map (·.shape.getD a 0)) = N at *
  refine ⟨z, z', ez, ez', by rw [z1, z1'], by rw [z2, z2'], fun idx hidx => ?_⟩
  have hidx' := hidx
  rw [z2] at hidx'
  have hla : a < idx.length := by rw [hidx'.length_eq]; simpa using ha
  have hka : idx.getD a 0 < N := by
    have := hidx'.getD_lt (d := a) (by simpa using ha)
    rwa [getD_set_self ha] at this
  have hza : z.shape.getD a 0 = N := by rw [z2, getD_set_self ha]
  have hshape : ∀ t ∈ c0 :: rest, InB (t.shape.set a N) idx ∧ a < t.shape.length := by
    intro t ht
    have e := hcs.shape t ht
    refine ⟨?_, by rw [e]; simpa using ha⟩
    rw [e, List.set_set]
    exact hidx'
  show z'.get idx = 1 * z.get (idx.set a (z.shape.getD a 0 - 1 - idx.getD a 0))
  have hb : InB z.shape (idx.set a (N - 1 - idx.getD a 0)) :=
    (inB_set_iff (x := N) (by rw [z2]; simpa using ha) (by rw [z2, List.set_set]; exact hidx')).mpr (by rw [hza]; omega)
  have hline : ∀ (t : Tensor R) k, line t a (idx.set a k) = line t a idx := by
    intro t k
    funext j
    unfold line
    rw [List.set_set]
  rw [hza, one_mul, z3' idx (by rw [z2', ← z2]; exact hidx), z3 _ hb, getD_set_self hla]
  simp only [hline]
  have e1 : (rest.map fun c => (c.shape.getD a 0, line c a idx)).map Prod.fst = rest.map (·.shape.getD a 0) := by
    rw [List.map_map]; rfl
  have := idwt_mirror hεδ h0 h1 hw.lo hw.hi hF (c0.shape.getD a 0) (rest.map fun c => (c.shape.getD a 0, line c a idx))
    (rest'.map fun c => (c.shape.getD a 0, line c a idx)) (line c0 a idx) (line c0' a idx) (by rw [e1]; exact hx)
    (fun k hk => by
      have h2 := hshape c0 (by simp)
      rw [flipped_line hc0 h2.2 h2.1 hk, one_mul]) ?_ (idx.getD a 0) (by rw [e1, hN]; exact hka)
  · rw [e1, hN] at this
    exact this
  · rw [List.forall₂_map_left_iff, List.forall₂_map_right_iff]
    have hs2 : ∀ t ∈ rest, InB (t.shape.set a N) idx ∧ a < t.shape.length := fun t ht => hshape t (by simp [ht])
    clear hx hN hcs hcs' ez ez' z3 z3' hlens hmem hshape e1
    induction hrest with
    | nil => exact .nil
    | @cons t t' l l' h _ ih =>
      refine .cons ⟨by rw [h.shape], fun k hk => ?_⟩ (ih fun t ht => hs2 t (by simp [ht]))
      have h2 := hs2 t (by simp)
      exact flipped_line h h2.2 h2.1 hk

/-- **C81, several axes.** The same for `wavedec2`, mirrored along both axes; every high-pass letter of a band contributes a
factor `ε`. -/
theorem c81_mirror_wavedec2 (x y : Tensor R) (w w' : Wavelet R) (ε : R) (mode : Option String) (L : Nat) (axes : AxisHint)
    (c : Coeffs R) (hF : 2 ≤ w.len) (he : w.len % 2 = 0) (hhi : w.decHi.length = w.len) (hw : MirroredDec ε w w')
    (hxy : Flipped (axesOf axes x.rank 2) 1 x y) (hE : ∀ a ∈ axesOf axes x.rank 2, EvenLevels w.len (x.shape.getD a 0) L)
    (hc : wavedec2 x w mode (some L) axes = .ok c) :
    ∃ c', wavedec2 y w' mode (some L) axes = .ok c' ∧ CoeffsFlipped (axesOf axes x.rank 2) ε c c' :=
  mirrorN (fun _ _ _ _ => IsTuple.holds) hF he hhi hw (decChar2 x w _ L axes hF hhi)
    (decChar2 y w' _ L axes (by rw [hw.len_eq]; exact hF) (by rw [hw.len_eq, hw.hi]; simpa using hhi)) hE hxy hc

theorem c81_mirror_wavedec3 (x y : Tensor R) (w w' : Wavelet R) (ε : R) (mode : Option String) (L : Nat) (axes : AxisHint)
    (c : Coeffs R) (hF : 2 ≤ w.len) (he : w.len % 2 = 0) (hhi : w.decHi.length = w.len) (hL : 0 < L) (hw : MirroredDec ε w w')
    (hxy : Flipped (axesOf axes x.rank 3) 1 x y) (hE : ∀ a ∈ axesOf axes x.rank 3, EvenLevels w.len (x.shape.getD a 0) L)
    (hc : wavedec3 x w mode (some L) axes = .ok c) :
    ∃ c', wavedec3 y w' mode (some L) axes = .ok c' ∧ CoeffsFlipped (axesOf axes x.rank 3) ε c c' :=
  mirrorN (fun _ _ _ _ => IsDict.holds (by decide)) hF he hhi hw (decChar3 x w _ L axes hF hhi hL)
    (decChar3 y w' _ L axes (by rw [hw.len_eq]; exact hF) (by rw [hw.len_eq, hw.hi]; simpa using hhi) hL) hE hxy hc

theorem c81_mirror_fswavedec2 (x y : Tensor R) (w w' : Wavelet R) (ε : R) (mode : Option String) (L : Nat) (axes : AxisHint)
    (c : Coeffs R) (hF : 2 ≤ w.len) (he : w.len % 2 = 0) (hhi : w.decHi.length = w.len) (hw : MirroredDec ε w w')
    (hxy : Flipped (axesOf axes x.rank 2) 1 x y) (hE : ∀ a ∈ axesOf axes x.rank 2, EvenLevels w.len (x.shape.getD a 0) L)
    (hc : fswavedec2 x w mode (some L) axes = .ok c) :
    ∃ c', fswavedec2 y w' mode (some L) axes = .ok c' ∧ CoeffsFlipped (axesOf axes x.rank 2) ε c c' :=
  mirrorN (fun _ _ _ _ => IsDict.holds sepKeys_length) hF he hhi hw (decCharS x w 2 _ L axes (by omega) hF hhi)
    (decCharS y w' 2 _ L axes (by omega) (by rw [hw.len_eq]; exact hF) (by rw [hw.len_eq, hw.hi]; simpa using hhi)) hE hxy hc

theorem c81_mirror_fswavedec3 (x y : Tensor R) (w w' : Wavelet R) (ε : R) (mode : Option String) (L : Nat) (axes : AxisHint)
    (c : Coeffs R) (hF : 2 ≤ w.len) (he : w.len % 2 = 0) (hhi : w.decHi.length = w.len) (hw : MirroredDec ε w w')
    (hxy : Flipped (axesOf axes x.rank 3) 1 x y) (hE : ∀ a ∈ axesOf axes x.rank 3, EvenLevels w.len (x.shape.getD a 0) L)
    (hc : fswavedec3 x w mode (some L) axes = .ok c) :
    ∃ c', fswavedec3 y w' mode (some L) axes = .ok c' ∧ CoeffsFlipped (axesOf axes x.rank 3) ε c c' :=
  mirrorN (fun _ _ _ _ => IsDict.holds sepKeys_length) hF he hhi hw (decCharS x w 3 _ L axes (by omega) hF hhi)
    (decCharS y w' 3 _ L axes (by omega) (by rw [hw.len_eq]; exact hF) (by rw [hw.len_eq, hw.hi]; simpa using hhi)) hE hxy hc

/-- Every tensor can be read backwards. -/
theorem flipped_exists (x : Tensor R) (ax : List Nat) : ∃ y, Flipped ax 1 x y :=
  ⟨ofFn x.md x.shape fun idx => x.get (setMany idx ax (ax.map fun a => x.shape.getD a 0 - 1 - idx.getD a 0)),
    ⟨rfl, rfl, fun idx hidx => by rw [ofFn_get_of _ _ hidx, one_mul]⟩⟩

/-- The Haar wavelet has a symmetric low-pass and an antisymmetric high-pass filter. -/
theorem haar_mirrored : MirroredDec (-1) haar haar ∧ MirroredRec (-1) haar haar := by
  refine ⟨⟨rfl, ?_⟩, ⟨rfl, ?_⟩⟩
  · show ([-1/2, 1/2] : List ℚ) = [-1 * (1/2), -1 * (-1/2)]
    norm_num
  · show ([1, -1] : List ℚ) = [-1 * -1, -1 * 1]
    norm_num

/-- A batch of two signals of length 14. -/
def exMir : Tensor ℚ := ofFn ⟨.float32, 1⟩ [2, 14] fun i => (i.getD 1 0 : ℚ) ^ 2 + 100 * (i.getD 0 0 : ℚ)

theorem exMir_axes : GoodAxes (.int (-1)) exMir.rank 1 :=
  ⟨le_rfl, rfl, ⟨by
    intro a ha
    simp only [resolve, List.mem_singleton] at ha
    subst ha
    exact ⟨by decide, by decide⟩, by decide⟩⟩

/-- A four-tap filter bank and its mirror image. -/
def exW4 : Wavelet ℚ := ⟨[1, 2, 3, 5], [1, -2, 0, 7], [1, 0, 2, 4], [3, 1, 4, 1]⟩

def exW4m : Wavelet ℚ := ⟨[5, 3, 2, 1], [7, 0, -2, 1], [4, 2, 0, 1], [1, 4, 1, 3]⟩

theorem exW4_mirrored : MirroredDec 1 exW4 exW4m ∧ MirroredRec 1 exW4 exW4m := by
  refine ⟨⟨rfl, ?_⟩, ⟨rfl, ?_⟩⟩
  · simp [exW4, exW4m]
  · simp [exW4, exW4m]

/-- A case: two levels (of lengths 14 and 8) with filters that are not symmetric, in the default mode. -/
example : ∃ cs y cs', wavedec exMir exW4 none (some 2) (.int (-1)) = .ok cs ∧ Flipped [1] 1 exMir y ∧
    wavedec y exW4m none (some 2) (.int (-1)) = .ok cs' ∧ cs'.length = cs.length ∧
    ∀ q t t', cs[q]? = some t → cs'[q]? = some t' → Flipped [1] (if q = 0 then 1 else 1) t t' := by
  obtain ⟨h1, h2⟩ := wavedec_char (mode := none) (x := exMir) (level := some 2) (h := .int (-1)) (w := exW4) (by decide) rfl
  have h01 : ∀ s, s < levels (some 2) exW4.len 14 → s = 0 ∨ s = 1 := by
    intro s hs
    have h : s < 2 := hs
    omega
  obtain ⟨cs, hcs, -⟩ := (h2 exMir_axes rfl).2.1 .reflect (Or.inr ⟨rfl, rfl⟩) (by
    intro s hs
    rcases h01 s hs with rfl | rfl <;> (simp only [Mode.Admits]; decide))
  obtain ⟨y, hy⟩ := flipped_exists exMir [1]
  obtain ⟨cs', k1, k2, k3⟩ := c81_mirror exMir y exW4 exW4m 1 none (some 2) (.int (-1)) cs (by decide) rfl rfl exW4_mirrored.1
    (show Flipped [axis1 (.int (-1)) exMir.rank] 1 exMir y from (show axis1 (.int (-1)) exMir.rank = 1 from rfl) ▸ hy) (by
    intro s hs
    rcases h01 s hs with rfl | rfl <;> decide) hcs
  exact ⟨cs, y, cs', hcs, hy, k1, k2, k3⟩

/-- A case in two dimensions: the Haar transform of a mirrored image. -/
example : ∃ c y c', wavedec2 exMir haar (some "periodic") (some 1) .none = .ok c ∧ Flipped [0, 1] 1 exMir y ∧
    wavedec2 y haar (some "periodic") (some 1) .none = .ok c' ∧ CoeffsFlipped [0, 1] (-1) c c' := by
  have hg : GoodAxes .none exMir.rank 2 := ⟨by decide, rfl, ⟨by
    intro a ha
    have h : a = -2 ∨ a = -1 := by simpa [resolve, List.range_succ] using ha
    rcases h with rfl | rfl <;> exact ⟨by decide, by decide⟩, by decide⟩⟩
  have hs : sizes (axesOf .none exMir.rank 2) exMir.shape = [2, 14] := rfl
  obtain ⟨c, hc⟩ := (c16_wavedec2_succeeds_iff exMir haar (some "periodic") .periodic (some 1) .none (Or.inl rfl) (by decide)
    rfl).mpr ⟨hg, Or.inl rfl, by
      rw [hs]
      intro s h k hk
      have h' : s < 1 := h
      obtain rfl : s = 0 := by omega
      rw [levelLens_zero] at hk
      simp only [List.mem_cons, List.not_mem_nil, or_false] at hk
      rcases hk with rfl | rfl <;> (simp only [Mode.Admits]; decide)⟩
  obtain ⟨y, hy⟩ := flipped_exists exMir [0, 1]
  obtain ⟨c', k1, k2⟩ := c81_mirror_wavedec2 exMir y haar haar (-1) (some "periodic") 1 .none c (by decide) rfl rfl haar_mirrored.1
    hy (by
      intro a ha s hs
      obtain rfl : s = 0 := by omega
      have h : a = 0 ∨ a = 1 := by simpa [axesOf, resolve, List.range_succ, axisOf, Tensor.rank, exMir] using ha
      rcases h with rfl | rfl <;> decide) hc
  exact ⟨c, y, c', hc, hy, k1, k2⟩

/-- A case for the synthesis: levels of lengths 5, 8 and four-tap filters. -/
example : ∃ z z', waverec [ofFn ⟨.float32, 0⟩ [5] fun i => (i.getD 0 0 : ℚ), ofFn ⟨.float32, 0⟩ [5] fun _ => 3,
      ofFn ⟨.float32, 0⟩ [8] fun _ => 1] exW4 (.int (-1)) = .ok z ∧
    waverec [ofFn ⟨.float32, 0⟩ [5] fun i => (4 - i.getD 0 0 : ℚ), ofFn ⟨.float32, 0⟩ [5] fun _ => 3,
      ofFn ⟨.float32, 0⟩ [8] fun _ => 1] exW4m (.int (-1)) = .ok z' ∧ Flipped [0] 1 z z' := by
  have hc : ∀ (n : Nat) (a : ℚ), Flipped [0] 1 (ofFn ⟨.float32, 0⟩ [n] fun _ => a) (ofFn ⟨.float32, 0⟩ [n] fun _ => a) := by
    intro n a
    refine ⟨rfl, rfl, fun idx hidx => ?_⟩
    match idx, hidx with
    | [i], hidx =>
      have h1 : i < n := hidx.1
      have h3 : InB [n] [i] := ⟨h1, trivial⟩
      have h2 : InB [n] [n - 1 - i] := ⟨by omega, trivial⟩
      rw [ofFn_get_of _ _ h3, one_mul]
      show a = (ofFn ⟨.float32, 0⟩ [n] fun _ => a).get [n - 1 - i]
      rw [ofFn_get_of _ _ h2]
  refine c81_mirror_waverec exW4 exW4m 1 1 4 (.int (-1)) ⟨.float32, 0⟩ [8] _ _ _ _ (by decide) rfl rfl exW4_mirrored.2 (by norm_num)
    ⟨le_rfl, rfl, ⟨by
      intro a ha
      simp only [resolve, List.mem_singleton] at ha
      subst ha
      exact ⟨by decide, by decide⟩, by decide⟩⟩ (Or.inl rfl) ⟨by simp [ofFn_md], ?_⟩ ⟨rfl, by decide, rfl, rfl, by decide⟩ ?_
    (.cons (hc 5 3) (.cons (hc 8 1) .nil))
  · intro c hc
    simp only [List.mem_cons, List.not_mem_nil, or_false] at hc
    rcases hc with rfl | rfl | rfl <;> rfl
  · refine ⟨rfl, rfl, fun idx hidx => ?_⟩
    match idx, hidx with
    | [i], hidx =>
      have h1 : i < 5 := hidx.1
      have h3 : InB [5] [i] := ⟨h1, trivial⟩
      have h2 : InB [5] [4 - i] := ⟨by omega, trivial⟩
      rw [ofFn_get_of _ _ h3, one_mul]
      show _ = (ofFn ⟨.float32, 0⟩ [5] fun i => (i.getD 0 0 : ℚ)).get [4 - i]
      rw [ofFn_get_of _ _ h2]
      show (4 - (i : ℚ)) = ((4 - i : ℕ) : ℚ)
      rw [Nat.cast_sub (by omega)]
      norm_num

end Props
end Verif
