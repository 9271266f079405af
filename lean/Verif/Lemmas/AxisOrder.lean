/-
Transforms along several axes do not depend on the order in which the axes are listed, provided every band letter
stays with its axis.
-/
import Verif.Lemmas.TopNd
import Verif.Lemmas.MatNTop
import Verif.Lemmas.Energy
import Verif.Lemmas.Packet2

namespace Verif
open Tensor Spec
variable {R : Type}

/-! ### Finite functionals commute -/

/-- A functional which is a finite combination of samples. -/
def IsFin [CommSemiring R] (φ : (Nat → R) → R) : Prop :=
  ∃ l : List (R × Nat), ∀ v, φ v = (l.map fun p => p.1 * v p.2).sum

namespace IsFin
variable [CommSemiring R] {φ ψ : (Nat → R) → R}

theorem zero : IsFin (fun _ : Nat → R => (0 : R)) := ⟨[], fun _ => rfl⟩

theorem eval (j : Nat) : IsFin (fun v : Nat → R => v j) := ⟨[(1, j)], fun v => by simp⟩

theorem add (h : IsFin φ) (h' : IsFin ψ) : IsFin (fun v => φ v + ψ v) := by
  obtain ⟨l, hl⟩ := h
  obtain ⟨l', hl'⟩ := h'
  exact ⟨l ++ l', fun v => by show φ v + ψ v = _; rw [hl, hl', List.map_append, List.sum_append]⟩

theorem smul (c : R) (h : IsFin φ) : IsFin (fun v => c * φ v) := by
  obtain ⟨l, hl⟩ := h
  refine ⟨l.map fun p => (c * p.1, p.2), fun v => ?_⟩
  show c * φ v = _
  rw [hl, List.map_map, ← List.sum_map_mul_left]
  refine congrArg List.sum (List.map_congr_left fun p _ => ?_)
  simp [mul_assoc]

theorem sum {n : Nat} {f : Nat → (Nat → R) → R} (h : ∀ i, IsFin (f i)) :
    IsFin (fun v => ∑ i ∈ Finset.range n, f i v) := by
  induction n with
  | zero => simpa using zero
  | succ n ih => simpa only [Finset.sum_range_succ] using ih.add (h n)

theorem comm (h : IsFin φ) (h' : IsFin ψ) (G : Nat → Nat → R) :
    φ (fun j => ψ fun i => G j i) = ψ fun i => φ fun j => G j i := by
  obtain ⟨l, hl⟩ := h
  obtain ⟨l', hl'⟩ := h'
  rw [hl, hl']
  simp only [hl, hl']
  clear hl hl'
  induction l with
  | nil => simp
  | cons p l ih =>
    simp only [List.map_cons, List.sum_cons, mul_add] at ih ⊢
    rw [List.sum_map_add, ← ih, ← List.sum_map_mul_left]
    congr 2
    refine List.map_congr_left fun q _ => ?_
    ring

end IsFin

theorem isFin_ext [CommSemiring R] (m : Mode) (n : Nat) (i : ℤ) : IsFin (fun v : Nat → R => ext m n v i) := by
  unfold ext
  cases extIdx m n i with
  | none => exact IsFin.zero
  | some j => exact IsFin.eval j

theorem isFin_dwtStep [CommSemiring R] (m : Mode) (h : List R) (n k : Nat) : IsFin (fun v : Nat → R => dwtStep m h n v k) := by
  unfold dwtStep analysis
  exact IsFin.sum fun j => (isFin_ext m n _).smul _

theorem isFin_rowTimes [CommSemiring R] (m : Mode) (M : Nat → Nat → R) (n i : Nat) :
    IsFin (fun v : Nat → R => rowTimes m M n v i) := by
  unfold rowTimes evenExt
  exact IsFin.sum fun j => (isFin_ext m n _).smul _

/-! ### Applying an operation along each of a list of axes -/

/-- Apply the operations along their axes to a function of positions. -/
def alongList : List (Nat × ((Nat → R) → Nat → R)) → (List Nat → R) → List Nat → R
  | [], g, q => g q
  | (a, T) :: l, g, q => T (fun j => alongList l g (q.set a j)) (q.getD a 0)

theorem alongList_perm [CommSemiring R] {l l' : List (Nat × ((Nat → R) → Nat → R))} (hp : l.Perm l') :
    (l.map Prod.fst).Nodup → (∀ p ∈ l, ∀ k, IsFin fun v => p.2 v k) → ∀ g q, alongList l g q = alongList l' g q := by
  induction hp with
  | nil => intro _ _ g q; rfl
  | cons p _ ih =>
    intro hn hl g q
    simp only [List.map_cons, List.nodup_cons] at hn
    have e := ih hn.2 (fun p hp => hl p (List.mem_cons_of_mem _ hp)) g
    show p.2 _ _ = p.2 _ _
    simp only [e]
  | swap p p' l =>
    intro hn hl g q
    obtain ⟨a, T⟩ := p
    obtain ⟨b, S⟩ := p'
    have hab : b ≠ a := by
      simp only [List.map_cons, List.nodup_cons, List.mem_cons, not_or] at hn
      exact hn.1.1
    show S (fun j => T (fun i => alongList l g ((q.set b j).set a i)) ((q.set b j).getD a 0)) (q.getD b 0) =
      T (fun i => S (fun j => alongList l g ((q.set a i).set b j)) ((q.set a i).getD b 0)) (q.getD a 0)
    simp only [getD_set_ne hab, getD_set_ne (Ne.symm hab), List.set_comm _ _ hab]
    exact IsFin.comm (hl (b, S) (by simp) _) (hl (a, T) (by simp) _) _
  | trans h1 _ ih1 ih2 =>
    intro hn hl g q
    rw [ih1 hn hl, ih2 ((h1.map Prod.fst).nodup_iff.mp hn) fun p hp => hl p (h1.mem_iff.mpr hp)]

/-- One step along every axis; the operation of an axis depends on its letter and its size. -/
def opStep (op : Bool → Nat → (Nat → R) → Nat → R) : BandStep R
  | b :: bs, n :: ns, X, k :: ks => op b n (fun j => opStep op bs ns (fun js => X (j :: js)) ks) k
  | _, _, X, _ => X []

/-- The operations of a band along the axes. -/
def opsAt (op : Bool → Nat → (Nat → R) → Nat → R) (f : Nat → Nat) (ax : List Nat) (bs : List Bool) :
    List (Nat × ((Nat → R) → Nat → R)) := (ax.zip bs).map fun p => (p.1, op p.2 (f p.1))

theorem opsAt_perm (op : Bool → Nat → (Nat → R) → Nat → R) (f : Nat → Nat) {ax ax' : List Nat} {bs bs' : List Bool}
    (h : (ax.zip bs).Perm (ax'.zip bs')) : (opsAt op f ax bs).Perm (opsAt op f ax' bs') := h.map _

theorem opsAt_fst (op : Bool → Nat → (Nat → R) → Nat → R) (f : Nat → Nat) {ax : List Nat} {bs : List Bool}
    (h : bs.length = ax.length) : (opsAt op f ax bs).map Prod.fst = ax := by
  unfold opsAt
  rw [List.map_map]
  show (ax.zip bs).map Prod.fst = ax
  exact List.map_fst_zip (by omega)

theorem opStep_along (op : Bool → Nat → (Nat → R) → Nat → R) (f : Nat → Nat) (g : List Nat → R) :
    ∀ (ax : List Nat) (bs : List Bool) (idx ks : List Nat) (X : List Nat → R), bs.length = ax.length → ks.length = ax.length →
      ax.Nodup → (∀ a ∈ ax, a < idx.length) →
      (∀ js, js.length = ax.length → X js = g (setMany idx ax js)) →
      opStep op bs (ax.map f) X ks = alongList (opsAt op f ax bs) g (setMany idx ax ks)
  | [], [], idx, [], X, _, _, _, _, hX => hX [] rfl
  | a :: ax, b :: bs, idx, k :: ks, X, hb, hk, hn, hlt, hX => by
    simp only [List.nodup_cons] at hn
    have ha : a < idx.length := hlt a (by simp)
    show op b (f a) (fun j => opStep op bs (ax.map f) (fun js => X (j :: js)) ks) k =
      op b (f a) (fun j => alongList (opsAt op f ax bs) g ((setMany (idx.set a k) ax ks).set a j))
        ((setMany (idx.set a k) ax ks).getD a 0)
    rw [setMany_getD_not_mem _ _ _ hn.1, getD_set_self ha]
    congr 1
    funext j
    rw [setMany_set_comm _ _ _ _ _ hn.1, List.set_set]
    exact opStep_along op f g ax bs (idx.set a j) ks _ (by simpa using hb) (by simpa using hk) hn.2
      (fun c hc => by rw [List.length_set]; exact hlt c (by simp [hc])) fun js hjs => hX (j :: js) (by simpa using hjs)

theorem opStep_dwtN [NonUnitalNonAssocSemiring R] (m : Mode) (w : Wavelet R) : ∀ (bs : List Bool) (ns : List Nat) (X : List Nat → R)
    (ks : List Nat), bandN m w bs ns X ks = opStep (fun b n => dwtStep m (if b then w.decHi else w.decLo) n) bs ns X ks
  | [], ns, X, ks => by cases ns <;> cases ks <;> rfl
  | b :: bs, [], X, ks => by cases ks <;> rfl
  | b :: bs, n :: ns, X, [] => rfl
  | b :: bs, n :: ns, X, k :: ks => by
    show dwtStep m _ n (fun j => bandN m w bs ns (fun js => X (j :: js)) ks) k = _
    simp only [opStep_dwtN m w bs ns]
    rfl

theorem opStep_matBand [NonUnitalNonAssocSemiring R] (m : Mode) (A : Nat → Nat → Nat → R) : ∀ (bs : List Bool) (ns : List Nat)
    (X : List Nat → R) (ks : List Nat),
    matBand m A bs ns X ks = opStep (fun b n => if b then stepHi m A n else stepLo m A n) bs ns X ks
  | [], ns, X, ks => by cases ns <;> cases ks <;> rfl
  | b :: bs, [], X, ks => by cases ks <;> rfl
  | b :: bs, n :: ns, X, [] => rfl
  | b :: bs, n :: ns, X, k :: ks => by
    show (if b then stepHi m A n else stepLo m A n) (fun j => matBand m A bs ns (fun js => X (j :: js)) ks) k = _
    simp only [opStep_matBand m A bs ns]
    rfl

theorem setMany_perm (φ : Nat → Nat) {ax ax' : List Nat} (hp : ax.Perm ax') : ∀ l,
    setMany l ax (ax.map φ) = setMany l ax' (ax'.map φ) := by
  induction hp with
  | nil => intro l; rfl
  | cons a _ ih => intro l; exact ih _
  | swap a b ax =>
    intro l
    show setMany ((l.set b (φ b)).set a (φ a)) ax (ax.map φ) = setMany ((l.set a (φ a)).set b (φ b)) ax (ax.map φ)
    by_cases hab : b = a
    · subst hab; rfl
    · rw [List.set_comm _ _ hab]
  | trans _ _ ih1 ih2 => intro l; rw [ih1, ih2]

theorem zip_lowBand : ∀ (ax : List Nat), ax.zip (lowBand ax.length) = ax.map fun a => (a, false)
  | [] => rfl
  | a :: ax => by
    show (a, false) :: ax.zip (lowBand ax.length) = _
    rw [zip_lowBand ax]; rfl

theorem setMany_sizes {ax idx : List Nat} (h : ∀ a ∈ ax, a < idx.length) : setMany idx ax (sizes ax idx) = idx :=
  setMany_pick_self idx ax h

/-- An operation on planes in terms of positions of the whole tensor. -/
theorem alongAxes_iff [Zero R] {ax Ks : List Nat} {f : (List Nat → R) → List Nat → R} {x z : Tensor R} {G : List Nat → R}
    (hf : ∀ idx, idx.length = x.rank → f (plane x ax idx) (sizes ax idx) = G idx) :
    AlongAxes ax Ks f x z ↔ z.md = x.md ∧ z.shape = setMany x.shape ax Ks ∧ ∀ idx, InB z.shape idx → z.get idx = G idx := by
  have hl : z.shape = setMany x.shape ax Ks → ∀ idx, InB z.shape idx → idx.length = x.rank := by
    intro hs idx hi
    rw [hi.length_eq, hs, setMany_length]; rfl
  constructor
  · rintro ⟨h1, h2, h3⟩
    exact ⟨h1, h2, fun idx hi => by rw [h3 idx hi, hf idx (hl h2 idx hi)]⟩
  · rintro ⟨h1, h2, h3⟩
    exact ⟨h1, h2, fun idx hi => by rw [h3 idx hi, hf idx (hl h2 idx hi)]⟩

section conv
variable [CommSemiring R] (m : Mode) (w : Wavelet R)

/-- The operation of an axis in the convolution transforms. -/
def cop (b : Bool) (n : Nat) : (Nat → R) → Nat → R := dwtStep m (if b then w.decHi else w.decLo) n

/-- The approximations as functions of the positions of the whole tensor. -/
def posA (S ax : List Nat) (g : List Nat → R) : Nat → List Nat → R
  | 0 => g
  | s + 1 => alongList (opsAt (cop m w) (fun a => levelLen w.len (S.getD a 0) s) ax (lowBand ax.length)) (posA S ax g s)

theorem posA_perm {S ax ax' : List Nat} (hp : ax.Perm ax') (hn : ax.Nodup) (g : List Nat → R) : ∀ s,
    posA m w S ax g s = posA m w S ax' g s
  | 0 => rfl
  | s + 1 => by
    funext q
    show alongList _ (posA m w S ax g s) q = alongList _ (posA m w S ax' g s) q
    rw [posA_perm hp hn g s]
    refine alongList_perm (opsAt_perm _ _ ?_) ?_ ?_ _ _
    · rw [zip_lowBand, zip_lowBand]; exact hp.map _
    · rw [opsAt_fst _ _ (by simp [lowBand])]; exact hn
    · intro p hp k
      unfold opsAt at hp
      rw [List.mem_map] at hp
      obtain ⟨r, -, rfl⟩ := hp
      exact isFin_dwtStep _ _ _ _

theorem cAN_pos {S ax : List Nat} (hn : ax.Nodup) {idx : List Nat} (hlt : ∀ a ∈ ax, a < idx.length) {X g : List Nat → R}
    (hX : ∀ js, js.length = ax.length → X js = g (setMany idx ax js)) : ∀ s js, js.length = ax.length →
    cAN m w (sizes ax S) X s js = posA m w S ax g s (setMany idx ax js)
  | 0, js, hj => hX js hj
  | s + 1, js, hj => by
    show bandN m w (lowBand (sizes ax S).length) (levelLens w.len (sizes ax S) s) (cAN m w (sizes ax S) X s) js = _
    rw [opStep_dwtN]
    have e1 : (sizes ax S).length = ax.length := by simp [sizes]
    have e2 : levelLens w.len (sizes ax S) s = ax.map fun a => levelLen w.len (S.getD a 0) s := by
      unfold levelLens sizes; rw [List.map_map]; rfl
    rw [e1, e2]
    exact opStep_along (cop m w) _ (posA m w S ax g s) ax _ idx js _ (by simp [lowBand]) hj hn hlt
      fun ks hk => cAN_pos hn hlt hX s ks hk

theorem cDN_pos {S ax : List Nat} (hn : ax.Nodup) {idx : List Nat} (hlt : ∀ a ∈ ax, a < idx.length) {X g : List Nat → R}
    (hX : ∀ js, js.length = ax.length → X js = g (setMany idx ax js)) (s : Nat) {bs : List Bool} (hb : bs.length = ax.length)
    {js : List Nat} (hj : js.length = ax.length) :
    cDN m w (sizes ax S) X s bs js = alongList (opsAt (cop m w) (fun a => levelLen w.len (S.getD a 0) s) ax bs)
      (posA m w S ax g s) (setMany idx ax js) := by
  show bandN m w bs (levelLens w.len (sizes ax S) s) (cAN m w (sizes ax S) X s) js = _
  rw [opStep_dwtN]
  have e2 : levelLens w.len (sizes ax S) s = ax.map fun a => levelLen w.len (S.getD a 0) s := by
    unfold levelLens sizes; rw [List.map_map]; rfl
  rw [e2]
  exact opStep_along (cop m w) _ (posA m w S ax g s) ax _ idx js _ hb hj hn hlt
    fun ks hk => cAN_pos m w hn hlt hX s ks hk

theorem plane_pos {x : Tensor R} {ax idx : List Nat} (js : List Nat) (h : js.length = ax.length) :
    plane x ax idx js = x.get (setMany idx ax js) := if_pos h

theorem levelLens_sizes (F : Nat) (ax S : List Nat) (s : Nat) :
    levelLens F (sizes ax S) s = ax.map fun a => levelLen F (S.getD a 0) s := by
  unfold levelLens sizes; rw [List.map_map]; rfl

variable {m w}

theorem isApprox_perm {ax ax' : List Nat} (hp : ax.Perm ax') (hn : ax.Nodup) {x : Tensor R} (hlt : ∀ a ∈ ax, a < x.rank) {L : Nat}
    {t : Tensor R} (h : IsApprox m w ax x L t) : IsApprox m w ax' x L t := by
  have key : ∀ ax : List Nat, ax.Nodup → (∀ a ∈ ax, a < x.rank) → (IsApprox m w ax x L t ↔ _) := fun ax hn hlt =>
    alongAxes_iff (G := posA m w x.shape ax x.get L) fun idx hi => by
      rw [cAN_pos m w hn (by rw [hi]; exact hlt) plane_pos L _ (by simp [sizes]), setMany_sizes (by rw [hi]; exact hlt)]
  rw [key ax hn hlt] at h
  rw [key ax' (hp.nodup_iff.mp hn) fun a ha => hlt a (hp.mem_iff.mpr ha)]
  obtain ⟨h1, h2, h3⟩ := h
  refine ⟨h1, ?_, fun idx hi => ?_⟩
  · rw [h2, levelLens_sizes, levelLens_sizes, setMany_perm _ hp]
  · rw [h3 idx hi, posA_perm m w hp hn]

theorem isBand_perm {ax ax' : List Nat} (hp : ax.Perm ax') (hn : ax.Nodup) {x : Tensor R} (hlt : ∀ a ∈ ax, a < x.rank) {s : Nat}
    {bs bs' : List Bool} (hb : bs.length = ax.length) (hb' : bs'.length = ax'.length) (hz : (ax.zip bs).Perm (ax'.zip bs'))
    {t : Tensor R} (h : IsBand m w ax x s bs t) : IsBand m w ax' x s bs' t := by
  have key : ∀ (ax : List Nat) (bs : List Bool), bs.length = ax.length → ax.Nodup → (∀ a ∈ ax, a < x.rank) →
      (IsBand m w ax x s bs t ↔ _) := fun ax bs hb hn hlt =>
    alongAxes_iff (G := alongList (opsAt (cop m w) (fun a => levelLen w.len (x.shape.getD a 0) s) ax bs)
      (posA m w x.shape ax x.get s)) fun idx hi => by
      rw [cDN_pos m w hn (by rw [hi]; exact hlt) plane_pos s hb (by simp [sizes]), setMany_sizes (by rw [hi]; exact hlt)]
  rw [key ax bs hb hn hlt] at h
  rw [key ax' bs' hb' (hp.nodup_iff.mp hn) fun a ha => hlt a (hp.mem_iff.mpr ha)]
  obtain ⟨h1, h2, h3⟩ := h
  refine ⟨h1, ?_, fun idx hi => ?_⟩
  · rw [h2, levelLens_sizes, levelLens_sizes, setMany_perm _ hp]
  · rw [h3 idx hi, posA_perm m w hp hn]
    refine alongList_perm (opsAt_perm _ _ hz) ?_ ?_ _ _
    · rw [opsAt_fst _ _ hb]; exact hn
    · intro p hp k
      unfold opsAt at hp
      rw [List.mem_map] at hp
      obtain ⟨r, -, rfl⟩ := hp
      exact isFin_dwtStep _ _ _ _

end conv

section mat
variable [CommSemiring R] (m : Mode) (A : Nat → Nat → Nat → R)

/-- The operation of an axis in the separable matrix transforms. -/
def mop (b : Bool) (n : Nat) : (Nat → R) → Nat → R := if b then stepHi m A n else stepLo m A n

theorem isFin_mop (b : Bool) (n k : Nat) : IsFin (fun v : Nat → R => mop m A b n v k) := by
  unfold mop
  cases b
  · exact isFin_rowTimes _ _ _ _
  · exact isFin_rowTimes _ _ _ _

/-- The approximations as functions of the positions of the whole tensor, from the sizes `f` of the axes. -/
def posM (ax : List Nat) : (f : Nat → Nat) → (g : List Nat → R) → Nat → List Nat → R
  | _, g, 0 => g
  | f, g, s + 1 => posM ax (fun a => evenLen (f a) / 2) (alongList (opsAt (mop m A) f ax (lowBand ax.length)) g) s

/-- The details likewise. -/
def posMD (ax : List Nat) (bs : List Bool) : (f : Nat → Nat) → (g : List Nat → R) → Nat → List Nat → R
  | f, g, 0 => alongList (opsAt (mop m A) f ax bs) g
  | f, g, s + 1 => posMD ax bs (fun a => evenLen (f a) / 2) (alongList (opsAt (mop m A) f ax (lowBand ax.length)) g) s

theorem opsAt_mop_perm {ax ax' : List Nat} {bs bs' : List Bool} (hn : ax.Nodup) (hb : bs.length = ax.length)
    (hz : (ax.zip bs).Perm (ax'.zip bs')) (f : Nat → Nat) (g : List Nat → R) :
    alongList (opsAt (mop m A) f ax bs) g = alongList (opsAt (mop m A) f ax' bs') g := by
  funext q
  refine alongList_perm (opsAt_perm _ _ hz) ?_ ?_ _ _
  · rw [opsAt_fst _ _ hb]; exact hn
  · intro p hp k
    unfold opsAt at hp
    rw [List.mem_map] at hp
    obtain ⟨r, -, rfl⟩ := hp
    exact isFin_mop _ _ _ _ _

theorem zip_low_perm {ax ax' : List Nat} (hp : ax.Perm ax') :
    (ax.zip (lowBand ax.length)).Perm (ax'.zip (lowBand ax'.length)) := by
  rw [zip_lowBand, zip_lowBand]; exact hp.map _

theorem posM_perm {ax ax' : List Nat} (hp : ax.Perm ax') (hn : ax.Nodup) : ∀ s f g, posM m A ax f g s = posM m A ax' f g s
  | 0, f, g => rfl
  | s + 1, f, g => by
    show posM m A ax _ _ s = posM m A ax' _ _ s
    rw [posM_perm hp hn s, opsAt_mop_perm m A hn (by simp [lowBand]) (zip_low_perm hp)]

theorem posMD_perm {ax ax' : List Nat} (hp : ax.Perm ax') (hn : ax.Nodup) {bs bs' : List Bool} (hb : bs.length = ax.length)
    (hz : (ax.zip bs).Perm (ax'.zip bs')) : ∀ s f g, posMD m A ax bs f g s = posMD m A ax' bs' f g s
  | 0, f, g => opsAt_mop_perm m A hn hb hz f g
  | s + 1, f, g => by
    show posMD m A ax bs _ _ s = posMD m A ax' bs' _ _ s
    rw [posMD_perm hp hn hb hz s, opsAt_mop_perm m A hn (by simp [lowBand]) (zip_low_perm hp)]

theorem matBand_pos {ax : List Nat} (hn : ax.Nodup) {idx : List Nat} (hlt : ∀ a ∈ ax, a < idx.length) {bs : List Bool}
    (hb : bs.length = ax.length) (f : Nat → Nat) {X g : List Nat → R}
    (hX : ∀ js, js.length = ax.length → X js = g (setMany idx ax js)) (js : List Nat) (hj : js.length = ax.length) :
    matBand m A bs (ax.map f) X js = alongList (opsAt (mop m A) f ax bs) g (setMany idx ax js) := by
  rw [opStep_matBand]
  exact opStep_along (mop m A) f g ax bs idx js X hb hj hn hlt hX

theorem bandA_pos {ax : List Nat} (hn : ax.Nodup) {idx : List Nat} (hlt : ∀ a ∈ ax, a < idx.length) : ∀ s (f : Nat → Nat)
    (X g : List Nat → R), (∀ js, js.length = ax.length → X js = g (setMany idx ax js)) → ∀ js, js.length = ax.length →
    bandA (matBand m A) (ax.map f) X s js = posM m A ax f g s (setMany idx ax js)
  | 0, f, X, g, hX, js, hj => hX js hj
  | s + 1, f, X, g, hX, js, hj => by
    show bandA (matBand m A) (halfLens (ax.map f)) (matBand m A (lowBand (ax.map f).length) (ax.map f) X) s js = _
    rw [show halfLens (ax.map f) = ax.map (fun a => evenLen (f a) / 2) by unfold halfLens; rw [List.map_map]; rfl,
      List.length_map]
    exact bandA_pos hn hlt s _ _ _ (matBand_pos m A hn hlt (by simp [lowBand]) f hX) js hj

theorem bandD_pos {ax : List Nat} (hn : ax.Nodup) {idx : List Nat} (hlt : ∀ a ∈ ax, a < idx.length) {bs : List Bool}
    (hb : bs.length = ax.length) : ∀ s (f : Nat → Nat)
    (X g : List Nat → R), (∀ js, js.length = ax.length → X js = g (setMany idx ax js)) → ∀ js, js.length = ax.length →
    bandD (matBand m A) (ax.map f) X s bs js = posMD m A ax bs f g s (setMany idx ax js)
  | 0, f, X, g, hX, js, hj => matBand_pos m A hn hlt hb f hX js hj
  | s + 1, f, X, g, hX, js, hj => by
    show bandD (matBand m A) (halfLens (ax.map f)) (matBand m A (lowBand (ax.map f).length) (ax.map f) X) s bs js = _
    rw [show halfLens (ax.map f) = ax.map (fun a => evenLen (f a) / 2) by unfold halfLens; rw [List.map_map]; rfl,
      List.length_map]
    exact bandD_pos hn hlt hb s _ _ _ (matBand_pos m A hn hlt (by simp [lowBand]) f hX) js hj

theorem mLens_sizes (ax S : List Nat) (s : Nat) : mLens (sizes ax S) s = ax.map fun a => mLen (S.getD a 0) s := by
  unfold mLens sizes; rw [List.map_map]; rfl

variable {m A}

theorem matApprox_perm {ax ax' : List Nat} (hp : ax.Perm ax') (hn : ax.Nodup) {x : Tensor R} (hlt : ∀ a ∈ ax, a < x.rank) {L : Nat}
    {t : Tensor R}
    (h : AlongAxes ax (mLens (sizes ax x.shape) L) (fun X => bandA (matBand m A) (sizes ax x.shape) X L) x t) :
    AlongAxes ax' (mLens (sizes ax' x.shape) L) (fun X => bandA (matBand m A) (sizes ax' x.shape) X L) x t := by
  have key : ∀ ax : List Nat, ax.Nodup → (∀ a ∈ ax, a < x.rank) →
      (AlongAxes ax (mLens (sizes ax x.shape) L) (fun X => bandA (matBand m A) (sizes ax x.shape) X L) x t ↔ _) := fun ax hn hlt =>
    alongAxes_iff (G := posM m A ax (fun a => x.shape.getD a 0) x.get L) fun idx hi =>
      (bandA_pos m A hn (by rw [hi]; exact hlt) L _ _ _ plane_pos _ (by simp [sizes])).trans
        (by rw [setMany_sizes (by rw [hi]; exact hlt)])
  rw [key ax hn hlt] at h
  rw [key ax' (hp.nodup_iff.mp hn) fun a ha => hlt a (hp.mem_iff.mpr ha)]
  obtain ⟨h1, h2, h3⟩ := h
  refine ⟨h1, ?_, fun idx hi => ?_⟩
  · rw [h2, mLens_sizes, mLens_sizes, setMany_perm _ hp]
  · rw [h3 idx hi, posM_perm m A hp hn]

theorem matDetail_perm {ax ax' : List Nat} (hp : ax.Perm ax') (hn : ax.Nodup) {x : Tensor R} (hlt : ∀ a ∈ ax, a < x.rank) {s : Nat}
    {bs bs' : List Bool} (hb : bs.length = ax.length) (hb' : bs'.length = ax'.length) (hz : (ax.zip bs).Perm (ax'.zip bs'))
    {t : Tensor R}
    (h : AlongAxes ax (mLens (sizes ax x.shape) (s + 1)) (fun X => bandD (matBand m A) (sizes ax x.shape) X s bs) x t) :
    AlongAxes ax' (mLens (sizes ax' x.shape) (s + 1)) (fun X => bandD (matBand m A) (sizes ax' x.shape) X s bs') x t := by
  have key : ∀ (ax : List Nat) (bs : List Bool), bs.length = ax.length → ax.Nodup → (∀ a ∈ ax, a < x.rank) →
      (AlongAxes ax (mLens (sizes ax x.shape) (s + 1)) (fun X => bandD (matBand m A) (sizes ax x.shape) X s bs) x t ↔ _) :=
    fun ax bs hb hn hlt =>
    alongAxes_iff (G := posMD m A ax bs (fun a => x.shape.getD a 0) x.get s) fun idx hi =>
      (bandD_pos m A hn (by rw [hi]; exact hlt) hb s _ _ _ plane_pos _ (by simp [sizes])).trans
        (by rw [setMany_sizes (by rw [hi]; exact hlt)])
  rw [key ax bs hb hn hlt] at h
  rw [key ax' bs' hb' (hp.nodup_iff.mp hn) fun a ha => hlt a (hp.mem_iff.mpr ha)]
  obtain ⟨h1, h2, h3⟩ := h
  refine ⟨h1, ?_, fun idx hi => ?_⟩
  · rw [h2, mLens_sizes, mLens_sizes, setMany_perm _ hp]
  · rw [h3 idx hi, posMD_perm m A hp hn hb hz]

end mat

/-! ### Levels -/

theorem autoLevelN_perm (F : Nat) {ns ns' : List Nat} (h : ns.Perm ns') : autoLevelN F ns = autoLevelN F ns' := by
  have e : ∀ ns : List Nat, ∀ b, autoLevelN F (b :: ns) = ns.foldr (fun n r => min (autoLevel F n) r) (autoLevel F b) := by
    intro ns
    induction ns with
    | nil => intro b; rfl
    | cons a l ih =>
      intro b
      show min (autoLevel F b) (autoLevelN F (a :: l)) = min (autoLevel F a) _
      rw [ih a]
      clear ih
      induction l with
      | nil => exact Nat.min_comm _ _
      | cons c l ih =>
        simp only [List.foldr_cons]
        omega
  have e' : ∀ ns : List Nat, ns ≠ [] → ∀ q, q ≤ autoLevelN F ns ↔ ∀ n ∈ ns, q ≤ autoLevel F n := by
    intro ns
    induction ns with
    | nil => intro h; exact absurd rfl h
    | cons a l ih =>
      intro _ q
      cases l with
      | nil => simp [autoLevelN]
      | cons c l =>
        show q ≤ min (autoLevel F a) (autoLevelN F (c :: l)) ↔ _
        rw [Nat.le_min, ih (by simp)]
        simp
  by_cases h0 : ns = []
  · subst h0
    rw [h.nil_eq.symm]
  · have h1 : ns' ≠ [] := fun h' => h0 (by rw [h'] at h; exact h.eq_nil)
    refine Nat.le_antisymm ?_ ?_
    · rw [e' ns' h1]
      intro n hn
      exact (e' ns h0 _).mp le_rfl n (h.mem_iff.mpr hn)
    · rw [e' ns h0]
      intro n hn
      exact (e' ns' h1 _).mp le_rfl n (h.mem_iff.mp hn)

theorem levelsN_perm (level : Option Int) (F : Nat) {ns ns' : List Nat} (h : ns.Perm ns') :
    levelsN level F ns = levelsN level F ns' := by
  unfold levelsN
  cases level with
  | none => exact autoLevelN_perm F h
  | some l => rfl

theorem levelsAdmit_perm {m : Mode} {F L : Nat} {ns ns' : List Nat} (h : ns.Perm ns') (ha : LevelsAdmit m F ns L) :
    LevelsAdmit m F ns' L := fun s hs k hk => ha s hs k ((h.map fun n => levelLen F n s).mem_iff.mpr hk)

theorem mLevelsN_perm (F : Nat) : ∀ (L : Nat) {ns ns' : List Nat}, ns.Perm ns' → mLevelsN F L ns = mLevelsN F L ns'
  | 0, _, _, _ => rfl
  | L + 1, ns, ns', h => by
    have e : (∃ n ∈ ns, n < F) ↔ ∃ n ∈ ns', n < F :=
      ⟨fun ⟨n, a, b⟩ => ⟨n, h.mem_iff.mp a, b⟩, fun ⟨n, a, b⟩ => ⟨n, h.mem_iff.mpr a, b⟩⟩
    have ih := mLevelsN_perm F L (h.map fun n => evenLen n / 2)
    unfold mLevelsN
    simp only [e]
    unfold halfLens
    rw [ih]

end Verif
