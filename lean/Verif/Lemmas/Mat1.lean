/-
The one-dimensional matrix transform: the decomposition and reconstruction loops.
-/
import Verif.Model.Mat1
import Verif.Spec.Mat1
import Verif.Lemmas.BatchMm
import Verif.Lemmas.Swt
import Verif.Props.Util

namespace Verif
open Tensor Spec
variable {R : Type}

/-- A matrix whose columns are the signals `X b`. -/
structure Cols [Zero R] (t : Tensor R) (md : Meta) (n B : Nat) (X : Nat → Nat → R) : Prop where
  md : t.md = md
  shape : t.shape = [n, B]
  get : ∀ k b, k < n → b < B → t.get [k, b] = X b k

theorem Shows.matT [Zero R] {t : Tensor R} {md : Meta} {B n : Nat} {X : Nat → Nat → R}
    (h : Shows t md B n X) : Cols t.matT md n B X :=
  ⟨h.md, matT_shape h.shape, fun k b hk hb => by rw [matT_get h.shape hk hb]; exact h.get b k hb hk⟩

theorem Cols.matT [Zero R] {t : Tensor R} {md : Meta} {B n : Nat} {X : Nat → Nat → R}
    (h : Cols t md n B X) : Shows t.matT md B n X :=
  ⟨h.md, matT_shape h.shape, fun b k hb hk => by rw [matT_get h.shape hb hk]; exact h.get k b hk hb⟩

theorem Cols.congr [Zero R] {t : Tensor R} {md : Meta} {B n : Nat} {X Y : Nat → Nat → R}
    (h : Cols t md n B X) (he : ∀ b k, b < B → k < n → X b k = Y b k) : Cols t md n B Y :=
  ⟨h.md, h.shape, fun k b hk hb => by rw [h.get k b hk hb, he b k hb hk]⟩

theorem evenLen_even (n : Nat) : evenLen n % 2 = 0 := by unfold evenLen; omega
theorem le_evenLen (n : Nat) : n ≤ evenLen n := by unfold evenLen; omega
theorem evenLen_of_even {n : Nat} (h : n % 2 = 0) : evenLen n = n := by unfold evenLen; omega

theorem evenExt_inside [Zero R] (m : Mode) {n j : Nat} (v : Nat → R) (h : j < n) : evenExt m n v j = v j :=
  ext_inside m v h

/-- One more sample on the right always fits for signals of at least two samples. -/
theorem fits_one {m : Mode} {n : Nat} (h : 2 ≤ n) : Props.Fits m n 0 1 := by
  cases m <;> simp [Props.Fits] <;> omega

theorem Extended.shows [Zero R] {m : Mode} {t u : Tensor R} {md : Meta} {B n : Nat} {X : Nat → Nat → R}
    (h : Shows t md B n X) (hn : 0 < n) (hu : Extended m t 1 0 1 u) :
    Shows u md B (n + 1) (fun b => evenExt m n (X b)) := by
  have hs := hu.shape
  rw [h.shape] at hs
  simp only [List.set_cons_succ, List.set_cons_zero, List.getD_cons_succ, List.getD_cons_zero, Nat.zero_add] at hs
  refine ⟨hu.md.trans h.md, hs, ?_⟩
  intro b k hb hk
  rw [hu.get _ (by rw [hs]; exact ⟨hb, hk, trivial⟩), h.shape]
  simp only [List.getD_cons_succ, List.getD_cons_zero, Nat.cast_zero, sub_zero]
  unfold evenExt
  refine ext_congr hn ?_ _
  intro j hj
  exact h.get b j hb hj

theorem decPad_false [NonUnitalNonAssocSemiring R] (mode : Option String) (lo : Tensor R) :
    decPad mode false lo = .ok lo := rfl

theorem decPad_ok [NonUnitalNonAssocSemiring R] {mode : Option String} {m : Mode} (hm : Selects mode m)
    {lo : Tensor R} {md : Meta} {n B : Nat} {X : Nat → Nat → R} (h : Cols lo md n B X) (hn : 2 ≤ n) :
    ∃ u, decPad mode (decide (n % 2 ≠ 0)) lo = .ok u ∧
      Cols u md (evenLen n) B (fun b => evenExt m n (X b)) := by
  by_cases ho : n % 2 = 0
  · refine ⟨lo, ?_, ?_⟩
    · rw [decide_eq_false (by simpa using ho)]; rfl
    · rw [evenLen_of_even ho]
      exact h.congr fun b k _ hk => (evenExt_inside m _ hk).symm
  · have hT := h.matT
    have e1 := unsqueeze1_ok hT.shape
    have hw : (withChannel lo.matT).shape = [B, 1, n] := withChannel_shape hT.shape
    have hrk : (withChannel lo.matT).rank = 3 := by unfold Tensor.rank; rw [hw]; rfl
    obtain ⟨u, e2, hu⟩ := Props.c08_mode_extension (withChannel lo.matT) mode m 0 1 hm (by omega)
      (by rw [hrk, hw]; exact fits_one hn)
    rw [hrk] at hu
    have hus : u.shape = [B, 1, n + 1] := by
      rw [hu.shape, hw]; simp
    obtain ⟨q1, q2, q3⟩ := squeeze1_ok (t := u) hus
    refine ⟨u.squeeze1.matT, ?_, ?_⟩
    · rw [decide_eq_true (by simpa using ho)]
      unfold decPad
      rw [if_pos rfl]
      simp only [bind, Except.bind, e1, e2]
      rfl
    · have he : evenLen n = n + 1 := by unfold evenLen; omega
      rw [he]
      apply Shows.matT
      refine ⟨by rw [q1, hu.md, withChannel_md]; exact hT.md, q2, ?_⟩
      intro b k hb hk
      rw [q3 b [k] hb ⟨hk, trivial⟩, hu.get _ (by rw [hus]; exact ⟨hb, Nat.one_pos, hk, trivial⟩), hw]
      simp only [List.getD_cons_succ, List.getD_cons_zero, Nat.cast_zero, sub_zero]
      unfold evenExt
      refine ext_congr (by omega) ?_ _
      intro j hj
      show (withChannel lo.matT).get [b, 0, j] = _
      rw [withChannel_get hT.shape b [j]]
      exact hT.get b j hb hj

theorem Cols.slice [Zero R] {t : Tensor R} {md : Meta} {n B a b : Nat} {X : Nat → Nat → R}
    (h : Cols t md n B X) (hab : a ≤ b) (hb : b ≤ n) :
    Cols (t.slice 0 a b) md (b - a) B (fun c k => X c (a + k)) := by
  have hs : (t.slice 0 a b).shape = [b - a, B] := by
    unfold Tensor.slice
    rw [h.shape]
    show [min b n - a, B] = _
    rw [Nat.min_eq_left hb]
  refine ⟨h.md, hs, ?_⟩
  intro k c hk hc
  unfold Tensor.slice at hs ⊢
  rw [ofFn_get_of _ _ (by
    have : ([k, c] : List Nat) = [k, c] := rfl
    show InB (t.shape.set 0 _) [k, c]
    rw [show t.shape.set 0 (min b (t.shape.getD 0 0) - a) = [b - a, B] from hs]
    exact ⟨hk, hc, trivial⟩)]
  show t.get [k + a, c] = _
  rw [h.get _ _ (by omega) hc, Nat.add_comm]

/-- The matrices a build produces: one per level, for the even lengths. -/
def builtMats {α : Type} (C : Nat → α) (F : Nat) : Nat → Nat → List α
  | 0, _ => []
  | L + 1, n => if n < F then [] else C (evenLen n) :: builtMats C F L (evenLen n / 2)

/-- The pad flags a build produces. -/
def builtPads (F : Nat) : Nat → Nat → List Bool
  | 0, _ => []
  | L + 1, n => if n < F then [] else decide (n % 2 ≠ 0) :: builtPads F L (evenLen n / 2)

/-- The sizes a build produces. -/
def builtSizes (F : Nat) : Nat → Nat → List Nat
  | 0, n => [n]
  | L + 1, n => if n < F then [n] else evenLen n :: builtSizes F L (evenLen n / 2)

theorem builtMats_length {α : Type} (C : Nat → α) (F : Nat) : ∀ L n, (builtMats C F L n).length = mLevels F L n
  | 0, _ => rfl
  | L + 1, n => by
    unfold builtMats mLevels
    split_ifs
    · rfl
    · rw [List.length_cons, builtMats_length C F L]

theorem mLevels_le (F : Nat) : ∀ L n, mLevels F L n ≤ L
  | 0, _ => le_refl _
  | L + 1, n => by
    unfold mLevels
    split_ifs
    · omega
    · have := mLevels_le F L (evenLen n / 2); omega

theorem builtMats_levels {α : Type} (C : Nat → α) (F : Nat) : ∀ L n,
    builtMats C F (mLevels F L n) n = builtMats C F L n
  | 0, _ => rfl
  | L + 1, n => by
    conv_lhs => unfold mLevels
    by_cases h : n < F
    · rw [if_pos h]
      unfold builtMats
      rw [if_pos h]
    · rw [if_neg h]
      show (if n < F then [] else C (evenLen n) :: builtMats C F (mLevels F L (evenLen n / 2)) (evenLen n / 2)) = _
      rw [builtMats_levels C F L]
      rfl

/-- The family `C` consists of square matrices with meta data `md`, denoting the family `A`. -/
structure Family [AddCommMonoid R] (C : Nat → Coo R) (A : Nat → Nat → Nat → R) (md : Meta) (F : Nat) (N : Nat) : Prop where
  md : ∀ m, m % 2 = 0 → F ≤ m → m ≤ N → (C m).md = md
  rows : ∀ m, m % 2 = 0 → F ≤ m → m ≤ N → (C m).rows = m
  cols : ∀ m, m % 2 = 0 → F ≤ m → m ≤ N → (C m).cols = m
  den : ∀ m i j, m % 2 = 0 → F ≤ m → m ≤ N → i < m → j < m → (C m).den i j = A m i j

theorem evenLen_half_le {n N : Nat} (h2 : 2 ≤ n) (h : evenLen n ≤ N) : evenLen (evenLen n / 2) ≤ N := by
  unfold evenLen at *; omega

theorem matDecLoop_ok [NonUnitalNonAssocSemiring R] {mode : Option String} {m : Mode} (hm : Selects mode m)
    {C : Nat → Coo R} {A : Nat → Nat → Nat → R} {md : Meta} {F B N : Nat} (hF : 2 ≤ F) (hC : Family C A md F N) :
    ∀ (L n : Nat) {lo : Tensor R} {X : Nat → Nat → R}, evenLen n ≤ N → Cols lo md n B X →
    ∃ r ds, matDecLoop mode (builtMats C F L n) (builtPads F L n) lo = .ok (r, ds) ∧
      ds.length = mLevels F L n ∧
      Cols r md (mLen n (mLevels F L n)) B (fun b => mA m A n (X b) (mLevels F L n)) ∧
      ∀ s d, ds[s]? = some d → Cols d md (mLen n (s + 1)) B (fun b => mD m A n (X b) s)
  | 0, n, lo, X, hN, h => ⟨lo, [], rfl, rfl, h, by simp⟩
  | L + 1, n, lo, X, hN, h => by
    by_cases hn : n < F
    · refine ⟨lo, [], ?_, ?_, ?_, by simp⟩
      · unfold builtMats; rw [if_pos hn]; rfl
      · unfold mLevels; rw [if_pos hn]; rfl
      · have : mLevels F (L + 1) n = 0 := by unfold mLevels; rw [if_pos hn]
        rw [this]; exact h
    · obtain ⟨u, e1, hu⟩ := decPad_ok hm h (by omega)
      have ee := evenLen_even n
      have el := le_evenLen n
      have c1 := hC.md (evenLen n) ee (by omega) hN
      have c2 := hC.rows (evenLen n) ee (by omega) hN
      have c3 := hC.cols (evenLen n) ee (by omega) hN
      obtain ⟨c, e2, k1, k2, k3⟩ := Coo.mmDense_ok (A := C (evenLen n)) (X := u) (k := B)
        (by rw [c3]; exact hu.shape) (by rw [c1, hu.md])
      have hc : Cols c md (evenLen n) B (fun b => rowTimes m (A (evenLen n)) n (X b)) := by
        refine ⟨k1.trans hu.md, by rw [k2, c2], ?_⟩
        intro k b hk hb
        rw [k3 k b (by omega) hb, c3]
        unfold rowTimes
        refine Finset.sum_congr rfl fun j hj => ?_
        rw [Finset.mem_range] at hj
        rw [hC.den (evenLen n) k j ee (by omega) hN hk hj, hu.get j b hj hb]
      have hm0 : c.shape.getD 0 0 = evenLen n := by rw [hc.shape]; rfl
      have hlo := hc.slice (a := 0) (b := evenLen n / 2) (by omega) (by omega)
      have hhi := hc.slice (a := evenLen n / 2) (b := evenLen n) (by omega) (by omega)
      rw [Nat.sub_zero] at hlo
      rw [show evenLen n - evenLen n / 2 = evenLen n / 2 by omega] at hhi
      have hlo' : Cols (c.slice 0 0 (evenLen n / 2)) md (evenLen n / 2) B (fun b => stepLo m A n (X b)) :=
        hlo.congr fun b k _ _ => by rw [Nat.zero_add]; rfl
      obtain ⟨r, ds, e3, i1, i2, i3⟩ := matDecLoop_ok hm hF hC L (evenLen n / 2) (evenLen_half_le (by omega) hN) hlo'
      have hl : mLevels F (L + 1) n = mLevels F L (evenLen n / 2) + 1 := by
        conv_lhs => unfold mLevels
        rw [if_neg hn]
      refine ⟨r, c.slice 0 (evenLen n / 2) (evenLen n) :: ds, ?_, ?_, ?_, ?_⟩
      · unfold builtMats builtPads
        rw [if_neg hn, if_neg hn]
        simp only [matDecLoop, bind, Except.bind, e1, e2]
        rw [hm0, if_pos ⟨ee, by omega⟩, e3]
        rfl
      · rw [List.length_cons, i1, hl]
      · rw [hl]; exact i2
      · intro s d hd
        cases s with
        | zero =>
          rw [List.getElem?_cons_zero, Option.some.injEq] at hd
          subst hd
          exact hhi
        | succ s =>
          rw [List.getElem?_cons_succ] at hd
          exact i3 s d hd

end Verif
