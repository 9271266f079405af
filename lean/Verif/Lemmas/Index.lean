import Verif.Torch.Tensor
import Mathlib.Data.List.GetD
import Mathlib.Data.List.Nodup
import Mathlib.Data.List.NodupEquivFin
import Mathlib.Tactic.Ring

/-! Index arithmetic: `InB`, `ravel`, `unravel`, permutations of axes. -/

namespace Verif

theorem InB.length_eq : ∀ {s i : List Nat}, InB s i → i.length = s.length
  | [], [], _ => rfl
  | _ :: _, _ :: _, h => by simp [InB.length_eq h.2]

theorem inB_iff : ∀ {s i : List Nat},
    InB s i ↔ i.length = s.length ∧ ∀ d, d < s.length → i.getD d 0 < s.getD d 0
  | [], [] => by simp
  | [], _ :: _ => by simp
  | _ :: _, [] => by simp
  | s :: ss, i :: is => by
    rw [inB_cons_cons, inB_iff]
    constructor
    · rintro ⟨h1, h2, h3⟩
      refine ⟨by simp [h2], ?_⟩
      intro d hd
      cases d with
      | zero => simpa using h1
      | succ d => simpa using h3 d (by simpa using hd)
    · rintro ⟨h1, h2⟩
      refine ⟨by simpa using h2 0 (by simp), by simpa using h1, ?_⟩
      intro d hd
      simpa using h2 (d + 1) (by simpa using hd)

theorem InB.getD_lt {s i : List Nat} (h : InB s i) {d : Nat} (hd : d < s.length) :
    i.getD d 0 < s.getD d 0 := (inB_iff.mp h).2 d hd

theorem inB_append : ∀ {s i t j : List Nat}, i.length = s.length →
    (InB (s ++ t) (i ++ j) ↔ InB s i ∧ InB t j)
  | [], [], t, j, _ => by simp
  | _ :: ss, _ :: is, t, j, h => by
    have h' : is.length = ss.length := by simpa using h
    simp [inB_append h', and_assoc]

theorem InB.append {s i t j : List Nat} (h : InB s i) (h' : InB t j) : InB (s ++ t) (i ++ j) :=
  (inB_append h.length_eq).mpr ⟨h, h'⟩

theorem prodL_append : ∀ (s t : List Nat), prodL (s ++ t) = prodL s * prodL t
  | [], t => by simp
  | a :: s, t => by simp [prodL_append s t, mul_assoc]

theorem ravel_lt : ∀ {s i : List Nat}, InB s i → ravel s i < prodL s
  | [], [], _ => by simp [ravel]
  | s :: ss, i :: is, h => by
    have h2 := ravel_lt h.2
    have h1 : i + 1 ≤ s := h.1
    simp only [ravel, prodL_cons]
    calc i * prodL ss + ravel ss is < i * prodL ss + prodL ss := by omega
      _ = (i + 1) * prodL ss := by ring
      _ ≤ s * prodL ss := Nat.mul_le_mul_right _ h1

theorem unravel_ravel : ∀ {s i : List Nat}, InB s i → unravel s (ravel s i) = i
  | [], [], _ => rfl
  | s :: ss, i :: is, h => by
    have h2 := ravel_lt h.2
    have hp : 0 < prodL ss := by omega
    simp only [ravel, unravel]
    rw [show i * prodL ss + ravel ss is = ravel ss is + prodL ss * i by ring,
      Nat.add_mul_div_left _ _ hp, Nat.div_eq_of_lt h2, Nat.add_mul_mod_self_left,
      Nat.mod_eq_of_lt h2, unravel_ravel h.2, Nat.zero_add]

theorem inB_unravel : ∀ {s : List Nat} {k : Nat}, k < prodL s → InB s (unravel s k)
  | [], _, _ => trivial
  | s :: ss, k, h => by
    simp only [prodL_cons] at h
    have hp : 0 < prodL ss := Nat.pos_of_ne_zero fun h0 => by simp [h0] at h
    refine ⟨Nat.div_lt_of_lt_mul (by rw [Nat.mul_comm] at h; exact h), inB_unravel (Nat.mod_lt _ hp)⟩

theorem ravel_unravel : ∀ {s : List Nat} {k : Nat}, k < prodL s → ravel s (unravel s k) = k
  | [], k, h => by simp at h; simp [ravel, h]
  | s :: ss, k, h => by
    simp only [prodL_cons] at h
    have hp : 0 < prodL ss := Nat.pos_of_ne_zero fun h0 => by simp [h0] at h
    simp only [unravel, ravel]
    rw [ravel_unravel (Nat.mod_lt _ hp)]
    rw [Nat.mul_comm]; exact Nat.div_add_mod _ _

theorem ravel_append : ∀ {s i t j : List Nat}, i.length = s.length →
    ravel (s ++ t) (i ++ j) = ravel s i * prodL t + ravel t j
  | [], [], t, j, _ => by simp [ravel]
  | _ :: ss, _ :: is, t, j, h => by
    have h' : is.length = ss.length := by simpa using h
    simp only [List.cons_append, ravel, ravel_append h', prodL_append]
    ring

/-- `ravel` of an in-bounds index determines it. -/
theorem ravel_inj {s i j : List Nat} (hi : InB s i) (hj : InB s j) (h : ravel s i = ravel s j) :
    i = j := by rw [← unravel_ravel hi, ← unravel_ravel hj, h]

namespace Tensor
variable {R : Type} [Zero R]

theorem reshape_ok {t : Tensor R} {sh : List Nat} (h : prodL sh = prodL t.shape) :
    ∃ u, t.reshape sh = .ok u ∧ u.md = t.md ∧ u.shape = sh ∧
      ∀ i j, InB t.shape i → InB sh j → ravel sh j = ravel t.shape i → u.get j = t.get i := by
  refine ⟨_, if_pos h, rfl, rfl, ?_⟩
  intro i j hi hj hr
  rw [ofFn_get_of _ _ hj, hr, unravel_ravel hi]

end Tensor

/-! ### Picking axes -/

/-- the entries of `l` at the positions `ds`. -/
def pick (ds l : List Nat) : List Nat := ds.map fun d => l.getD d 0

@[simp] theorem pick_length (ds l : List Nat) : (pick ds l).length = ds.length := by simp [pick]

theorem pick_append (d e l : List Nat) : pick (d ++ e) l = pick d l ++ pick e l := by simp [pick]

theorem pick_range (l : List Nat) : pick (List.range l.length) l = l := by
  apply List.ext_getElem
  · simp [pick]
  · intro n h1 h2
    simp [pick, List.getD_eq_getElem?_getD, List.getElem?_eq_getElem h2]

theorem pick_getD (ds l : List Nat) {k : Nat} (hk : k < ds.length) :
    (pick ds l).getD k 0 = l.getD (ds.getD k 0) 0 := by
  simp [pick, List.getD_eq_getElem?_getD, hk]

/-- A full list of axes of a rank-`r` tensor. -/
structure IsPerm (ds : List Nat) (r : Nat) : Prop where
  nodup : ds.Nodup
  len : ds.length = r
  lt : ∀ d ∈ ds, d < r

theorem IsPerm.perm {ds : List Nat} {r : Nat} (h : IsPerm ds r) : ds.Perm (List.range r) := by
  have hs : ds ⊆ List.range r := fun d hd => List.mem_range.mpr (h.lt d hd)
  exact (h.nodup.subperm hs).perm_of_length_le (by simp [h.len])

theorem IsPerm.mem {ds : List Nat} {r d : Nat} (h : IsPerm ds r) : d ∈ ds ↔ d < r := by
  rw [h.perm.mem_iff, List.mem_range]

theorem isPerm_range (r : Nat) : IsPerm (List.range r) r :=
  ⟨List.nodup_range, by simp, fun d hd => List.mem_range.mp hd⟩

/-- A list of length `r` is determined by its entries along a full list of axes. -/
theorem IsPerm.pick_inj {ds : List Nat} {r : Nat} (h : IsPerm ds r) {l l' : List Nat}
    (hl : l.length = r) (hl' : l'.length = r) (hp : pick ds l = pick ds l') : l = l' := by
  apply List.ext_getElem (by omega)
  intro n h1 h2
  have hn : n ∈ ds := h.mem.mpr (by omega)
  have := (List.map_inj_left.mp hp) n hn
  simpa [List.getD_eq_getElem?_getD, h1, h2] using this

theorem IsPerm.inB_pick {ds : List Nat} {r : Nat} (h : IsPerm ds r) {s i : List Nat}
    (hs : s.length = r) (hi : i.length = r) : InB (pick ds s) (pick ds i) ↔ InB s i := by
  rw [inB_iff, inB_iff]
  constructor
  · rintro ⟨_, h2⟩
    refine ⟨by omega, fun d hd => ?_⟩
    have hd' : d ∈ ds := h.mem.mpr (by omega)
    have hlt := List.idxOf_lt_length_of_mem hd'
    have := h2 (ds.idxOf d) (by simpa using hlt)
    rw [pick_getD _ _ hlt, pick_getD _ _ hlt, List.getD_eq_getElem _ _ hlt,
      List.getElem_idxOf] at this
    exact this
  · rintro ⟨_, h2⟩
    refine ⟨by simp, fun d hd => ?_⟩
    rw [pick_length] at hd
    rw [pick_getD _ _ hd, pick_getD _ _ hd]
    apply h2
    rw [hs]
    apply h.lt
    rw [List.getD_eq_getElem _ _ hd]
    exact List.getElem_mem _

/-- The inverse of a full list of axes. -/
def invPerm (ds : List Nat) : List Nat := (List.range ds.length).map fun d => ds.idxOf d

theorem IsPerm.inv {ds : List Nat} {r : Nat} (h : IsPerm ds r) : IsPerm (invPerm ds) r := by
  refine ⟨?_, by simp [invPerm, h.len], ?_⟩
  · unfold invPerm
    refine List.Nodup.map_on ?_ List.nodup_range
    intro a ha b hb hab
    rw [List.mem_range, h.len] at ha hb
    have hla := List.idxOf_lt_length_of_mem (h.mem.mpr ha)
    have hlb := List.idxOf_lt_length_of_mem (h.mem.mpr hb)
    have e1 := List.getElem_idxOf hla
    have e2 := List.getElem_idxOf hlb
    rw [← e1, ← e2]
    congr 1
  · intro d hd
    simp only [invPerm, List.mem_map, List.mem_range] at hd
    obtain ⟨a, ha, rfl⟩ := hd
    have := List.idxOf_lt_length_of_mem (h.mem.mpr (by rw [h.len] at ha; exact ha) : a ∈ ds)
    rwa [h.len] at this

/-- reading a picked list at the position of `d` gives entry `d`. -/
theorem IsPerm.getD_idxOf {ds : List Nat} {r d : Nat} (h : IsPerm ds r) (hd : d < r)
    (l : List Nat) : (pick ds l).getD (ds.idxOf d) 0 = l.getD d 0 := by
  have hlt := List.idxOf_lt_length_of_mem (h.mem.mpr hd)
  rw [pick_getD _ _ hlt, List.getD_eq_getElem _ _ hlt, List.getElem_idxOf]

theorem IsPerm.pick_inv {ds : List Nat} {r : Nat} (h : IsPerm ds r) {l : List Nat}
    (hl : l.length = r) : pick (invPerm ds) (pick ds l) = l := by
  apply List.ext_getElem
  · simp [invPerm, h.len, hl]
  · intro n h1 h2
    have hn : n < r := by omega
    have : (pick (invPerm ds) (pick ds l)).getD n 0 = l.getD n 0 := by
      rw [pick_getD _ _ (by simpa using h1)]
      rw [show (invPerm ds).getD n 0 = ds.idxOf n from ?_]
      · exact h.getD_idxOf hn l
      · rw [List.getD_eq_getElem _ _ (by simpa using h1)]
        simp [invPerm]
    rwa [List.getD_eq_getElem _ _ h1, List.getD_eq_getElem _ _ h2] at this

theorem IsPerm.inv_idxOf {ds : List Nat} {r d : Nat} (h : IsPerm ds r) (hd : d < r) :
    (invPerm ds).idxOf d = ds.getD d 0 := by
  have hdl : d < ds.length := by rw [h.len]; exact hd
  have hmem : ds.getD d 0 ∈ ds := by
    rw [List.getD_eq_getElem _ _ hdl]; exact List.getElem_mem _
  have hlt : ds.getD d 0 < (invPerm ds).length := by
    rw [h.inv.len]; exact h.lt _ hmem
  have key : (invPerm ds)[ds.getD d 0]'hlt = d := by
    simp only [invPerm, List.getElem_map, List.getElem_range]
    simp only [List.getD_eq_getElem _ _ hdl]
    exact h.nodup.idxOf_getElem d hdl
  conv_lhs => rw [← key]
  exact h.inv.nodup.idxOf_getElem _ hlt

theorem IsPerm.pick_pick_inv {ds : List Nat} {r : Nat} (h : IsPerm ds r) {l : List Nat}
    (hl : l.length = r) : pick ds (pick (invPerm ds) l) = l := by
  apply h.inv.pick_inj (by simp [h.len]) hl
  rw [h.pick_inv]
  simp [h.inv.len]

theorem inB_set_iff {s idx : List Nat} {a x j : Nat} (ha : a < s.length) (h : InB (s.set a x) idx) :
    InB s (idx.set a j) ↔ j < s.getD a 0 := by
  rw [inB_iff] at h ⊢
  obtain ⟨h1, h2⟩ := h
  rw [List.length_set] at h1
  simp only [List.length_set, h1, true_and]
  constructor
  · intro h3
    have := h3 a ha
    simp only [List.getD_eq_getElem?_getD] at this
    rwa [List.getElem?_set_self (by omega), Option.getD_some, ← List.getD_eq_getElem?_getD] at this
  · intro hj d hd
    by_cases hda : d = a
    · subst hda
      simp only [List.getD_eq_getElem?_getD]
      rw [List.getElem?_set_self (by omega), Option.getD_some, ← List.getD_eq_getElem?_getD]
      exact hj
    · have := h2 d (by simpa using hd)
      simp only [List.getD_eq_getElem?_getD] at this ⊢
      rw [List.getElem?_set_ne (by omega)] at this ⊢
      exact this

theorem getD_set_self {s : List Nat} {a x : Nat} (ha : a < s.length) : (s.set a x).getD a 0 = x := by
  simp only [List.getD_eq_getElem?_getD]
  rw [List.getElem?_set_self ha]; rfl

theorem getD_set_ne {s : List Nat} {a b x : Nat} (h : a ≠ b) : (s.set a x).getD b 0 = s.getD b 0 := by
  simp only [List.getD_eq_getElem?_getD]
  rw [List.getElem?_set_ne h]

theorem inB_set_getD {s idx : List Nat} {a x : Nat} (ha : a < s.length) (h : InB (s.set a x) idx) :
    idx.getD a 0 < x := by
  have := h.getD_lt (d := a) (by simpa using ha)
  rwa [getD_set_self ha] at this

theorem set_getD_self {l : List Nat} {a : Nat} (ha : a < l.length) : l.set a (l.getD a 0) = l := by
  rw [List.getD_eq_getElem?_getD, List.getElem?_eq_getElem ha, Option.getD_some, List.set_getElem_self]

end Verif
