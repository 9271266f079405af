/-
Properties C27–C29: the packet node orders (src/ptwt/packets.py).
-/
import Verif.Model.PacketOrder
import Mathlib.Data.List.Nodup
import Mathlib.Data.Nat.Bitwise
import Mathlib.Tactic.Ring

namespace Verif.Props

/-! ### C27: natural order -/

/-- `u` comes before `v` in the lexicographic order given by the order of the alphabet. -/
def KeyLt (alphabet : List Char) (u v : Key) : Prop :=
  ∃ p a b s t, u = p ++ a :: s ∧ v = p ++ b :: t ∧ alphabet.idxOf a < alphabet.idxOf b

theorem mem_pyProduct (al : List Char) : ∀ (n : Nat) (k : Key),
    k ∈ pyProduct al n ↔ k.length = n ∧ ∀ c ∈ k, c ∈ al
  | 0, k => by
    simp only [pyProduct, List.mem_singleton, List.length_eq_zero_iff]
    constructor
    · rintro rfl; simp
    · exact fun h => h.1
  | n + 1, k => by
    simp only [pyProduct, List.mem_flatMap, List.mem_map]
    constructor
    · rintro ⟨p, hp, c, hc, rfl⟩
      rw [mem_pyProduct al n] at hp
      refine ⟨by simp [hp.1], ?_⟩
      intro d hd
      rcases List.mem_append.mp hd with h | h
      · exact hp.2 d h
      · simp only [List.mem_singleton] at h; rwa [h]
    · rintro ⟨hl, hc⟩
      have hne : k ≠ [] := by rintro rfl; simp at hl
      refine ⟨k.dropLast, ?_, k.getLast hne, hc _ (List.getLast_mem hne),
        List.dropLast_append_getLast hne⟩
      rw [mem_pyProduct al n]
      refine ⟨by simp [hl], fun c h => hc c (List.mem_of_mem_dropLast h)⟩

theorem KeyLt.append {al : List Char} {u v : Key} (h : KeyLt al u v) (s t : Key) :
    KeyLt al (u ++ s) (v ++ t) := by
  obtain ⟨p, a, b, s', t', rfl, rfl, hab⟩ := h
  exact ⟨p, a, b, s' ++ s, t' ++ t, by simp, by simp, hab⟩

theorem pyProduct_sorted {al : List Char} (ha : al.Nodup) : ∀ n, (pyProduct al n).Pairwise (KeyLt al)
  | 0 => by simp [pyProduct]
  | n + 1 => by
    simp only [pyProduct]
    rw [List.pairwise_flatMap]
    constructor
    · intro p _
      rw [List.pairwise_map, List.pairwise_iff_getElem]
      intro i j hi hj hij
      refine ⟨p, al[i], al[j], [], [], rfl, rfl, ?_⟩
      rw [ha.idxOf_getElem, ha.idxOf_getElem]; exact hij
    · refine (pyProduct_sorted ha n).imp fun {u v} h => ?_
      simp only [List.mem_map]
      rintro _ ⟨c, _, rfl⟩ _ ⟨d, _, rfl⟩
      exact h.append _ _

theorem keyLt_irrefl {al : List Char} {u v : Key} (h : KeyLt al u v) : u ≠ v := by
  rintro rfl
  obtain ⟨p, a, b, s, t, h1, h2, hab⟩ := h
  rw [h1] at h2
  have := List.append_cancel_left h2
  simp only [List.cons.injEq] at this
  rw [this.1] at hab
  exact lt_irrefl _ hab

theorem pyProduct_nodup {al : List Char} (ha : al.Nodup) (n : Nat) : (pyProduct al n).Nodup :=
  (pyProduct_sorted ha n).imp keyLt_irrefl

theorem pyProduct_length (al : List Char) : ∀ n, (pyProduct al n).length = al.length ^ n
  | 0 => rfl
  | n + 1 => by
    simp [pyProduct, List.length_flatMap, pyProduct_length al n, pow_succ]

/-- **C27 (1d).** The natural order lists every key of the level exactly once, in lexicographic
order with `a` before `d`. -/
theorem c27_natural_1d (level : Nat) : ∃ l, getLevel level "natural" = .ok l ∧
    l.Nodup ∧ l.length = 2 ^ level ∧
    (∀ k : Key, k ∈ l ↔ k.length = level ∧ ∀ c ∈ k, c = 'a' ∨ c = 'd') ∧
    l.Pairwise (KeyLt ['a', 'd']) := by
  refine ⟨pyProduct ['a', 'd'] level, rfl, pyProduct_nodup (by decide) _, pyProduct_length _ _, ?_,
    pyProduct_sorted (by decide) _⟩
  intro k
  rw [mem_pyProduct]
  simp

/-- **C27 (2d).** The same for the alphabet `a`, `h`, `v`, `d`. -/
theorem c27_natural_2d (level : Nat) : ∃ l, getLevel2 level "natural" = .ok (.list l) ∧
    l.Nodup ∧ l.length = 4 ^ level ∧
    (∀ k : Key, k ∈ l ↔ k.length = level ∧ ∀ c ∈ k, c = 'a' ∨ c = 'h' ∨ c = 'v' ∨ c = 'd') ∧
    l.Pairwise (KeyLt ['a', 'h', 'v', 'd']) := by
  refine ⟨pyProduct ['a', 'h', 'v', 'd'] level, rfl, pyProduct_nodup (by decide) _,
    pyProduct_length _ _, ?_, pyProduct_sorted (by decide) _⟩
  intro k
  rw [mem_pyProduct]
  simp

/-- Other order strings are a ValueError in both classes. -/
theorem c27_unknown_order (level : Nat) (s : String) (h1 : s ≠ "freq") (h2 : s ≠ "natural") :
    getLevel level s = .error .valueError ∧ (∃ e, getLevel2 level s = .error e ∧ e = .valueError) := by
  constructor
  · unfold getLevel; rw [if_neg h1, if_neg h2]
  · refine ⟨_, ?_, rfl⟩
    unfold getLevel2; rw [if_neg h1, if_neg h2]

/-! ### C28: frequency order -/

/-- The binary reflected Gray code of `i`. -/
def gray (i : Nat) : Nat := i ^^^ (i >>> 1)

/-- The `n` low bits of `g` as a key, most significant bit first; a set bit is `y`. -/
def bitsKey (x y : Char) (n g : Nat) : Key :=
  (List.range n).map fun p => if g.testBit (n - 1 - p) then y else x

theorem gray_testBit (i k : Nat) : (gray i).testBit k = (i.testBit k ^^ i.testBit (k + 1)) := by
  unfold gray
  rw [Nat.testBit_xor, Nat.testBit_shiftRight, Nat.add_comm 1 k]

theorem bitsKey_succ (x y : Char) (n g : Nat) :
    bitsKey x y (n + 1) g = (if g.testBit n then y else x) :: bitsKey x y n g := by
  unfold bitsKey
  rw [List.range_succ_eq_map, List.map_cons, List.map_map]
  simp only [Nat.add_sub_cancel, Nat.sub_zero, List.cons.injEq, true_and]
  apply List.map_congr_left
  intro p hp
  simp only [Function.comp]
  rw [show n - (p + 1) = n - 1 - p by omega]

theorem bitsKey_congr {x y : Char} {n g g' : Nat} (h : ∀ k, k < n → g.testBit k = g'.testBit k) :
    bitsKey x y n g = bitsKey x y n g' := by
  unfold bitsKey
  apply List.map_congr_left
  intro p hp
  rw [List.mem_range] at hp
  rw [h _ (by omega)]

theorem graycodeLoop_eq (x y : Char) : ∀ k, graycodeLoop x y k =
    (List.range (2 ^ (k + 1))).map fun i => bitsKey x y (k + 1) (gray i)
  | 0 => by
    simp [graycodeLoop, bitsKey, List.range_succ, gray]
  | k + 1 => by
    rw [graycodeLoop, graycodeLoop_eq x y k, pow_succ 2 (k + 1), Nat.mul_two, List.range_add,
      List.map_append]
    congr 1
    · rw [List.map_map]
      apply List.map_congr_left
      intro i hi
      rw [List.mem_range] at hi
      simp only [Function.comp]
      rw [bitsKey_succ x y (k + 1), gray_testBit, Nat.testBit_lt_two_pow hi,
        Nat.testBit_lt_two_pow (lt_of_lt_of_le hi (Nat.pow_le_pow_right (by omega) (by omega)))]
      rfl
    · rw [← List.map_reverse, List.map_map, List.map_map]
      apply List.ext_getElem
      · simp
      · intro i h1 h2
        simp only [List.length_map, List.length_reverse, List.length_range] at h1 h2
        simp only [List.getElem_map, List.getElem_reverse, List.getElem_range, List.length_range,
          Function.comp]
        set j := 2 ^ (k + 1) - 1 - i with hj
        have hjl : j < 2 ^ (k + 1) := by omega
        have e : 2 ^ (k + 1) + i = 2 ^ (k + 2) - (j + 1) := by
          rw [pow_succ 2 (k + 1)]; omega
        have hjl2 : j < 2 ^ (k + 2) := lt_of_lt_of_le hjl (Nat.pow_le_pow_right (by omega) (by omega))
        rw [bitsKey_succ x y (k + 1), gray_testBit, e, Nat.testBit_two_pow_sub_succ hjl2,
          Nat.testBit_two_pow_sub_succ hjl2, Nat.testBit_lt_two_pow hjl]
        simp only [Nat.lt_succ_self, decide_true, lt_irrefl, decide_false, Bool.false_and,
          Bool.not_false, Bool.and_self, Bool.xor_false, if_true]
        congr 1
        apply bitsKey_congr
        intro p hp
        rw [gray_testBit, gray_testBit, Nat.testBit_two_pow_sub_succ hjl2,
          Nat.testBit_two_pow_sub_succ hjl2]
        rw [decide_eq_true (by omega : p < k + 2), decide_eq_true (by omega : p + 1 < k + 2)]
        simp

theorem getGraycodeOrder_eq (x y : Char) (n : Nat) : getGraycodeOrder n x y =
    (List.range (2 ^ n)).map fun i => bitsKey x y n (gray i) := by
  unfold getGraycodeOrder
  cases n with
  | zero => rfl
  | succ n => rw [if_neg (by omega), Nat.add_sub_cancel, graycodeLoop_eq]

theorem bitsKey_inj {x y : Char} (hxy : x ≠ y) {n g g' : Nat} (h : bitsKey x y n g = bitsKey x y n g') :
    ∀ k, k < n → g.testBit k = g'.testBit k := by
  intro k hk
  have := congrArg (fun l => l[n - 1 - k]?) h
  simp only [bitsKey, List.getElem?_map, List.getElem?_range (show n - 1 - k < n by omega),
    Option.map_some, Option.some.injEq, show n - 1 - (n - 1 - k) = k by omega] at this
  revert this
  cases g.testBit k <;> cases g'.testBit k <;> simp [hxy, hxy.symm]

theorem gray_inj_bits {n i j : Nat} (hi : i < 2 ^ n) (hj : j < 2 ^ n)
    (h : ∀ k, k < n → (gray i).testBit k = (gray j).testBit k) : i = j := by
  have key : ∀ d k, n ≤ k + d → i.testBit k = j.testBit k := by
    intro d
    induction d with
    | zero =>
      intro k hk
      rw [Nat.testBit_lt_two_pow (lt_of_lt_of_le hi (Nat.pow_le_pow_right (by omega) (by omega))),
        Nat.testBit_lt_two_pow (lt_of_lt_of_le hj (Nat.pow_le_pow_right (by omega) (by omega)))]
    | succ d ih =>
      intro k hk
      by_cases hkn : k < n
      · have h1 := h k hkn
        rw [gray_testBit, gray_testBit, ih (k + 1) (by omega)] at h1
        revert h1
        cases i.testBit k <;> cases j.testBit k <;> cases j.testBit (k + 1) <;> simp
      · exact ih k (by omega)
  exact Nat.eq_of_testBit_eq fun k => key n k (by omega)

theorem grayList_nodup {x y : Char} (hxy : x ≠ y) (n : Nat) :
    ((List.range (2 ^ n)).map fun i => bitsKey x y n (gray i)).Nodup := by
  rw [List.nodup_map_iff_inj_on List.nodup_range]
  intro i hi j hj h
  rw [List.mem_range] at hi hj
  exact gray_inj_bits hi hj (bitsKey_inj hxy h)

theorem bitsKey_surj {x y : Char} : ∀ {n : Nat} {k : Key}, k.length = n → (∀ c ∈ k, c = x ∨ c = y) →
    ∃ b : Nat → Bool, k = (List.range n).map fun p => if b p then y else x
  | n, k, hk, hc => by
    refine ⟨fun p => decide (k.getD p x = y), ?_⟩
    apply List.ext_getElem (by simp [hk])
    intro i h1 h2
    simp only [List.getElem_map, List.getElem_range, decide_eq_true_eq]
    rw [List.getD_eq_getElem _ _ h1]
    rcases hc _ (List.getElem_mem h1) with h | h
    · rw [h]; split_ifs with h' <;> simp [h']
    · rw [h]; simp

/-- Every bit string is the Gray code of some `i < 2^n`. -/
theorem gray_surj : ∀ (n : Nat) (b : Nat → Bool), ∃ i, i < 2 ^ n ∧
    ∀ k, k < n → (gray i).testBit k = b k
  | n, b => by
    -- prefix parities from the top
    let i := Nat.ofBits fun k : Fin n => (List.range' k (n - k)).foldr (fun j r => b j ^^ r) false
    refine ⟨i, Nat.ofBits_lt_two_pow _, ?_⟩
    have hb : ∀ k, i.testBit k = (List.range' k (n - k)).foldr (fun j r => b j ^^ r) false := by
      intro k
      by_cases hk : k < n
      · exact Nat.testBit_ofBits_lt _ _ hk
      · rw [Nat.testBit_ofBits_ge _ _ (by omega), show n - k = 0 by omega]; rfl
    intro k hk
    rw [gray_testBit, hb, hb, show n - k = (n - (k + 1)) + 1 by omega, List.range'_succ,
      List.foldr_cons]
    cases b k <;> simp

theorem grayList_mem {x y : Char} (n : Nat) (k : Key) :
    k ∈ ((List.range (2 ^ n)).map fun i => bitsKey x y n (gray i)) ↔
      k.length = n ∧ ∀ c ∈ k, c = x ∨ c = y := by
  constructor
  · intro h
    obtain ⟨i, _, rfl⟩ := List.mem_map.mp h
    refine ⟨by simp [bitsKey], ?_⟩
    intro c hc
    obtain ⟨p, _, rfl⟩ := List.mem_map.mp hc
    split_ifs <;> simp
  · rintro ⟨hl, hc⟩
    obtain ⟨b, rfl⟩ := bitsKey_surj hl hc
    obtain ⟨i, hi, hb⟩ := gray_surj n fun k => b (n - 1 - k)
    refine List.mem_map.mpr ⟨i, List.mem_range.mpr hi, ?_⟩
    unfold bitsKey
    apply List.map_congr_left
    intro p hp
    rw [List.mem_range] at hp
    rw [hb _ (by omega), show n - 1 - (n - 1 - p) = p by omega]

/-- The number of positions at which two keys differ. -/
def hamming : Key → Key → Nat
  | a :: u, b :: v => (if a = b then 0 else 1) + hamming u v
  | _, _ => 0

theorem hamming_self : ∀ u : Key, hamming u u = 0
  | [] => rfl
  | a :: u => by simp [hamming, hamming_self u]

theorem hamming_comm : ∀ u v : Key, hamming u v = hamming v u
  | [], [] => rfl
  | [], _ :: _ => rfl
  | _ :: _, [] => rfl
  | a :: u, b :: v => by simp only [hamming, hamming_comm u v, eq_comm]

theorem graycodeLoop_ne (x y : Char) (k : Nat) : graycodeLoop x y k ≠ [] := by
  cases k <;> simp [graycodeLoop]
  intro h; exact absurd h (graycodeLoop_ne x y _)

theorem graycodeLoop_chain {x y : Char} (hxy : x ≠ y) : ∀ k,
    (graycodeLoop x y k).IsChain fun u v => hamming u v = 1
  | 0 => by simp [graycodeLoop, hamming, hxy]
  | k + 1 => by
    have ih := graycodeLoop_chain hxy k
    rw [graycodeLoop]
    apply List.IsChain.append
    · rw [List.isChain_map]
      exact ih.imp fun _ _ h => by simp [hamming, h]
    · rw [List.isChain_map, List.isChain_reverse]
      exact ih.imp fun u v h => by simp [hamming, hamming_comm v u, h]
    · intro u hu v hv
      simp only [List.getLast?_map, List.head?_map, List.head?_reverse, Option.mem_def,
        Option.map_eq_some_iff] at hu hv
      obtain ⟨u', hu', rfl⟩ := hu
      obtain ⟨v', hv', rfl⟩ := hv
      rw [hu'] at hv'
      cases hv'
      simp [hamming, hxy, hamming_self]

/-- **C28.** The frequency order lists every key of the level exactly once; key number `i` is the
binary reflected Gray code of `i` (`d` for a set bit, most significant bit first); consecutive keys
differ in exactly one position. -/
theorem c28_freq_is_gray (level : Nat) : ∃ l, getLevel level "freq" = .ok l ∧
    l.Nodup ∧ l.length = 2 ^ level ∧
    (∀ k : Key, k ∈ l ↔ k.length = level ∧ ∀ c ∈ k, c = 'a' ∨ c = 'd') ∧
    (∀ i, i < 2 ^ level → l[i]? = some (bitsKey 'a' 'd' level (gray i))) ∧
    l.IsChain fun u v => hamming u v = 1 := by
  refine ⟨getGraycodeOrder level 'a' 'd', rfl, ?_, ?_, ?_, ?_, ?_⟩
  · rw [getGraycodeOrder_eq]; exact grayList_nodup (by decide) _
  · rw [getGraycodeOrder_eq]; simp
  · intro k; rw [getGraycodeOrder_eq]; exact grayList_mem _ _
  · intro i hi; rw [getGraycodeOrder_eq]; simp [hi]
  · unfold getGraycodeOrder
    split_ifs
    · simp
    · exact graycodeLoop_chain (by decide) _

/-- The level-3 order, as documented by pywt. -/
example : (getLevel 3 "freq").map (List.map String.ofList) =
    .ok ["aaa", "aad", "add", "ada", "dda", "ddd", "dad", "daa"] := by decide

/-! ### C29: the two-dimensional frequency grid -/

/-- The 2d filter letter with row filter `r` and column filter `c` (`true`: high-pass). -/
def letter2 (r c : Bool) : Char :=
  match r, c with
  | false, false => 'a'
  | true, false => 'h'
  | false, true => 'v'
  | true, true => 'd'

/-- The key whose row path is the bits of `g` and whose column path is the bits of `g'`. -/
def gridKey (n g g' : Nat) : Key :=
  (List.range n).map fun p => letter2 (g.testBit (n - 1 - p)) (g'.testBit (n - 1 - p))

theorem nodesDict_fold (l : List Key) : ∀ (d : PMap Key (PMap Key Key))
    (hinj : ∀ k ∈ l, ∀ k' ∈ l, expand2dPath k = expand2dPath k' → k = k') (hn : l.Nodup) (r c : Key),
    ((l.foldl nodesDictStep d) r).bind (· c) =
      match l.find? (fun k => decide (expand2dPath k = (r, c))) with
      | some k => some k
      | none => (d r).bind (· c) := by
  induction l with
  | nil => intro d _ _ r c; rfl
  | cons a l ih =>
    intro d hinj hn r c
    rw [List.foldl_cons, ih _ (fun k hk k' hk' => hinj k (by simp [hk]) k' (by simp [hk']))
      (List.nodup_cons.mp hn).2, List.find?_cons]
    by_cases h : expand2dPath a = (r, c)
    · simp only [h, decide_true]
      have hnone : l.find? (fun k => decide (expand2dPath k = (r, c))) = none := by
        rw [List.find?_eq_none]
        intro k hk
        simp only [decide_eq_true_eq]
        intro hk'
        have := hinj a (by simp) k (by simp [hk]) (h.trans hk'.symm)
        rw [this] at hn
        exact (List.nodup_cons.mp hn).1 hk
      rw [hnone]
      unfold nodesDictStep PMap.set
      rw [h]
      simp
    · simp only [h, decide_false]
      congr 1
      unfold nodesDictStep PMap.set
      by_cases h1 : r = (expand2dPath a).1
      · rw [if_pos h1]
        have h2 : c ≠ (expand2dPath a).2 := fun h2 => h (by rw [h1, h2])
        simp only [Option.bind_some, if_neg h2]
        rw [← h1]
        cases d r <;> rfl
      · rw [if_neg h1]

theorem nodesDict_isSome (l : List Key) : ∀ (d : PMap Key (PMap Key Key)) (r : Key),
    ((l.foldl nodesDictStep d) r).isSome = ((d r).isSome || l.any fun k => (expand2dPath k).1 = r) := by
  induction l with
  | nil => intro d r; simp
  | cons a l ih =>
    intro d r
    rw [List.foldl_cons, ih, List.any_cons]
    unfold nodesDictStep PMap.set
    by_cases h : r = (expand2dPath a).1
    · simp [h]
    · simp [h, Ne.symm h]

/-- Row and column paths determine a 2d key. -/
theorem expand2dPath_inj : ∀ (k k' : Key), (∀ c ∈ k, c = 'a' ∨ c = 'h' ∨ c = 'v' ∨ c = 'd') →
    (∀ c ∈ k', c = 'a' ∨ c = 'h' ∨ c = 'v' ∨ c = 'd') → expand2dPath k = expand2dPath k' → k = k'
  | [], [], _, _, _ => rfl
  | [], _ :: _, _, _, h => by simp [expand2dPath] at h
  | _ :: _, [], _, _, h => by simp [expand2dPath] at h
  | a :: k, b :: k', h1, h2, h => by
    simp only [expand2dPath, List.map_cons, Prod.mk.injEq, List.cons.injEq] at h
    have e := expand2dPath_inj k k' (fun c hc => h1 c (by simp [hc])) (fun c hc => h2 c (by simp [hc]))
      (by simp only [expand2dPath, Prod.mk.injEq]; exact ⟨h.1.2, h.2.2⟩)
    have hab : a = b := by
      have ha := h1 a (by simp)
      have hb := h2 b (by simp)
      obtain ⟨⟨e1, -⟩, e2, -⟩ := h
      revert e1 e2
      rcases ha with rfl | rfl | rfl | rfl <;> rcases hb with rfl | rfl | rfl | rfl <;> decide
    rw [hab, e]

theorem gridKey_mem (n g g' : Nat) : gridKey n g g' ∈ getNaturalOrder2 n := by
  unfold getNaturalOrder2
  rw [mem_pyProduct]
  refine ⟨by simp [gridKey], ?_⟩
  intro c hc
  obtain ⟨p, _, rfl⟩ := List.mem_map.mp hc
  cases g.testBit (n - 1 - p) <;> cases g'.testBit (n - 1 - p) <;> simp [letter2]

theorem expand_gridKey (n g g' : Nat) :
    expand2dPath (gridKey n g g') = (bitsKey 'l' 'h' n g, bitsKey 'l' 'h' n g') := by
  unfold expand2dPath gridKey bitsKey
  simp only [List.map_map, Prod.mk.injEq]
  constructor <;>
  · apply List.map_congr_left
    intro p _
    simp only [Function.comp]
    cases g.testBit (n - 1 - p) <;> cases g'.testBit (n - 1 - p) <;> rfl

theorem natural2_chars {n : Nat} {k : Key} (h : k ∈ getNaturalOrder2 n) :
    ∀ c ∈ k, c = 'a' ∨ c = 'h' ∨ c = 'v' ∨ c = 'd' := by
  unfold getNaturalOrder2 at h
  rw [mem_pyProduct] at h
  simpa using h.2

theorem nodesDict_lookup (n g g' : Nat) :
    (nodesDict n (bitsKey 'l' 'h' n g)).bind (· (bitsKey 'l' 'h' n g')) = some (gridKey n g g') := by
  unfold nodesDict
  rw [nodesDict_fold _ _ (fun k hk k' hk' => expand2dPath_inj k k' (natural2_chars hk) (natural2_chars hk'))
    (pyProduct_nodup (by decide) _)]
  have : (getNaturalOrder2 n).find? (fun k => decide (expand2dPath k =
      (bitsKey 'l' 'h' n g, bitsKey 'l' 'h' n g'))) = some (gridKey n g g') := by
    cases hf : (getNaturalOrder2 n).find? (fun k => decide (expand2dPath k =
      (bitsKey 'l' 'h' n g, bitsKey 'l' 'h' n g'))) with
    | none =>
      rw [List.find?_eq_none] at hf
      exact absurd (by simp [expand_gridKey]) (hf _ (gridKey_mem n g g'))
    | some k =>
      have h1 := List.find?_some hf
      simp only [decide_eq_true_eq] at h1
      rw [← expand_gridKey] at h1
      rw [expand2dPath_inj _ _ (natural2_chars (List.mem_of_find?_eq_some hf))
        (natural2_chars (gridKey_mem n g g')) h1]
  rw [this]

theorem getFreqOrder2_eq (n : Nat) (hn : 1 ≤ n) : getFreqOrder2 n =
    (List.range (2 ^ n)).map fun i => (List.range (2 ^ n)).map fun j => gridKey n (gray i) (gray j) := by
  obtain ⟨k, rfl⟩ : ∃ k, n = k + 1 := ⟨n - 1, by omega⟩
  unfold getFreqOrder2
  simp only [Nat.add_sub_cancel]
  rw [graycodeLoop_eq, List.filterMap_map]
  have hrow : ∀ i, ∃ row, nodesDict (k + 1) (bitsKey 'l' 'h' (k + 1) (gray i)) = some row ∧
      ∀ j, row (bitsKey 'l' 'h' (k + 1) (gray j)) = some (gridKey (k + 1) (gray i) (gray j)) := by
    intro i
    cases h : nodesDict (k + 1) (bitsKey 'l' 'h' (k + 1) (gray i)) with
    | none =>
      have := nodesDict_lookup (k + 1) (gray i) 0
      rw [h] at this; cases this
    | some row =>
      refine ⟨row, rfl, fun j => ?_⟩
      have := nodesDict_lookup (k + 1) (gray i) (gray j)
      rw [h] at this; exact this
  rw [List.map_filterMap]
  rw [List.filterMap_eq_map_iff_forall_eq_some.mpr]
  intro i _
  obtain ⟨row, h1, h2⟩ := hrow i
  simp only [Function.comp, h1, Option.map_some, Option.some.injEq]
  rw [List.filterMap_map]
  rw [List.filterMap_eq_map_iff_forall_eq_some.mpr]
  intro j _
  exact h2 j

/-- **C29.** For `level ≥ 1` the 2d frequency order is a `2^level × 2^level` grid; the key in row `i`
and column `j` has the Gray code of `i` as its row filter path and that of `j` as its column filter
path. -/
theorem c29_freq_grid (level : Nat) (hl : 1 ≤ level) :
    ∃ g, getLevel2 level "freq" = .ok (.grid g) ∧ g.length = 2 ^ level ∧
      (∀ row ∈ g, row.length = 2 ^ level) ∧
      ∀ i j, i < 2 ^ level → j < 2 ^ level →
        (g[i]?.bind (·[j]?)) = some (gridKey level (gray i) (gray j)) := by
  refine ⟨getFreqOrder2 level, rfl, ?_, ?_, ?_⟩ <;> rw [getFreqOrder2_eq _ hl]
  · simp
  · intro row hr
    obtain ⟨i, _, rfl⟩ := List.mem_map.mp hr
    simp
  · intro i j hi hj
    simp [hi, hj]

/-- **C29.** The grid contains every key of the level exactly once. -/
theorem c29_grid_complete (level : Nat) (hl : 1 ≤ level) :
    ∃ g, getLevel2 level "freq" = .ok (.grid g) ∧ g.flatten.Nodup ∧
      ∀ k : Key, k ∈ g.flatten ↔ k.length = level ∧ ∀ c ∈ k, c = 'a' ∨ c = 'h' ∨ c = 'v' ∨ c = 'd' := by
  refine ⟨getFreqOrder2 level, rfl, ?_⟩
  have hgk : ∀ {g g' h h'}, gridKey level g g' = gridKey level h h' →
      (∀ p, p < level → g.testBit p = h.testBit p) ∧ (∀ p, p < level → g'.testBit p = h'.testBit p) := by
    intro g g' h h' e
    have := congrArg expand2dPath e
    rw [expand_gridKey, expand_gridKey] at this
    simp only [Prod.mk.injEq] at this
    exact ⟨bitsKey_inj (by decide) this.1, bitsKey_inj (by decide) this.2⟩
  constructor
  · rw [getFreqOrder2_eq _ hl, List.nodup_flatten]
    constructor
    · intro row hr
      obtain ⟨i, hi, rfl⟩ := List.mem_map.mp hr
      rw [List.nodup_map_iff_inj_on List.nodup_range]
      intro j hj j' hj' e
      rw [List.mem_range] at hj hj'
      exact gray_inj_bits hj hj' (hgk e).2
    · rw [List.pairwise_map]
      refine List.nodup_range.imp_of_mem fun {i i'} hi hi' hne => ?_
      rw [List.mem_range] at hi hi'
      rw [List.disjoint_left]
      intro u hu hu'
      obtain ⟨j, _, rfl⟩ := List.mem_map.mp hu
      obtain ⟨j', _, e⟩ := List.mem_map.mp hu'
      exact hne (gray_inj_bits hi hi' (hgk e.symm).1)
  intro k
  constructor
  · intro h
    rw [getFreqOrder2_eq _ hl] at h
    obtain ⟨row, hr, hk⟩ := List.mem_flatten.mp h
    obtain ⟨i, _, rfl⟩ := List.mem_map.mp hr
    obtain ⟨j, _, rfl⟩ := List.mem_map.mp hk
    exact ⟨by simp [gridKey], natural2_chars (gridKey_mem _ _ _)⟩
  · rintro ⟨hk, hc⟩
    rw [getFreqOrder2_eq _ hl]
    obtain ⟨i, hi, hbi⟩ := gray_surj level fun p =>
      decide ((expandedPaths (k.getD (level - 1 - p) 'a')).1 = 'h')
    obtain ⟨j, hj, hbj⟩ := gray_surj level fun p =>
      decide ((expandedPaths (k.getD (level - 1 - p) 'a')).2 = 'h')
    refine List.mem_flatten.mpr ⟨_, List.mem_map.mpr ⟨i, List.mem_range.mpr hi, rfl⟩,
      List.mem_map.mpr ⟨j, List.mem_range.mpr hj, ?_⟩⟩
    unfold gridKey
    apply List.ext_getElem (by simp [hk])
    intro p h1 h2
    simp only [List.getElem_map, List.getElem_range]
    have hp : p < level := by rwa [← hk]
    rw [hbi _ (by omega), hbj _ (by omega), show level - 1 - (level - 1 - p) = p by omega,
      List.getD_eq_getElem _ _ h2]
    rcases hc _ (List.getElem_mem h2) with h | h | h | h <;> rw [h] <;> decide

/-- At level 0 the grid is empty although the natural order has the root key. -/
theorem c29_level_zero : getLevel2 0 "freq" = .ok (.grid []) ∧ getLevel2 0 "natural" = .ok (.list [[]]) :=
  ⟨rfl, rfl⟩

example : (getFreqOrder2 1).map (List.map String.ofList) = [["a", "v"], ["h", "d"]] := by decide

end Verif.Props
