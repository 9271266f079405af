/-
C56: the flat list of two-dimensional coefficients and the frequency bins of a packet level.
-/
import Verif.Model.Helpers
import Verif.Spec.Helpers
import Verif.Lemmas.Energy
import Verif.Props.PacketOrder
import Verif.Props.ConvNd
import Mathlib.Algebra.Order.Field.Basic
import Mathlib.Algebra.Field.Rat
import Mathlib.Algebra.Order.Ring.Rat
import Mathlib.Tactic.Linarith
import Mathlib.Tactic.FieldSimp

namespace Verif.Props
open Tensor Spec
variable {R : Type}

/-! ### Flattening -/

theorem ravel_lex : ∀ {s i j : List Nat}, InB s i → InB s j → List.Lex (· < ·) i j → ravel s i < ravel s j
  | [], [], [], _, _, h => by cases h
  | n :: s, a :: i, b :: j, hi, hj, h => by
    cases h with
    | cons h =>
      have := ravel_lex hi.2 hj.2 h
      show a * prodL s + _ < a * prodL s + _
      omega
    | rel h =>
      have h1 := ravel_lt hi.2
      have h2 : (a + 1) * prodL s ≤ b * prodL s := Nat.mul_le_mul_right _ h
      show a * prodL s + _ < b * prodL s + _
      rw [Nat.succ_mul] at h2
      omega
  | [], _ :: _, _, hi, _, _ => absurd hi id
  | [], [], _ :: _, _, hj, _ => absurd hj id
  | _ :: _, [], _, hi, _, _ => absurd hi id
  | _ :: _, _ :: _, [], _, hj, _ => absurd hj id

theorem flattenAll_rowMajor [Zero R] (t : Tensor R) : RowMajor t (flattenAll t) := by
  refine ⟨rfl, rfl, ravel t.shape, ?_, ?_, fun i j hi hj => ravel_lex hi hj⟩
  · intro i hi
    refine ⟨ravel_lt hi, ?_⟩
    unfold flattenAll
    rw [ofFn_get_of _ _ (by exact ⟨ravel_lt hi, trivial⟩)]
    show t.get (unravel t.shape (ravel t.shape i)) = _
    rw [unravel_ravel hi]
  · intro k hk
    exact ⟨unravel t.shape k, inB_unravel hk, ravel_unravel hk⟩

theorem flattenLoop_ok [Zero R] (flat : Bool) : ∀ (ds : List (Entry R)), (∀ e ∈ ds, ∃ h v d, e = .tuple h v d) →
    flattenLoop flat ds = .ok ((ds.flatMap entryTensors).map (processTensor flat))
  | [], _ => rfl
  | e :: ds, h => by
    obtain ⟨a, b, c, rfl⟩ := h e (by simp)
    unfold flattenLoop
    rw [flattenLoop_ok flat ds fun e he => h e (by simp [he])]
    simp [entryValues, entryTensors, bind, Except.bind, pure, Except.pure]

theorem flatten_ok [Zero R] {L : Nat} {c : Coeffs R} (h : IsCoeffs2 L c) (flat : Bool) :
    flatten2dCoeffs c flat = .ok ((c.items.flatMap entryTensors).map (processTensor flat)) := by
  obtain ⟨a, ds, e, _, hd⟩ := h
  obtain ⟨il, items⟩ := c
  simp only at e
  subst e
  unfold flatten2dCoeffs
  simp only [flattenLoop_ok flat ds hd, bind, Except.bind, pure, Except.pure]
  simp [entryTensors]

theorem tuples_length [Zero R] : ∀ (ds : List (Entry R)), (∀ e ∈ ds, ∃ h v d, e = .tuple h v d) →
    (ds.flatMap entryTensors).length = 3 * ds.length
  | [], _ => rfl
  | e :: ds, h => by
    obtain ⟨a, b, c, rfl⟩ := h e (by simp)
    rw [List.flatMap_cons, List.length_append, tuples_length ds fun e he => h e (by simp [he])]
    simp only [entryTensors, List.length_cons, List.length_nil]
    omega

/-- **C56.** `_flatten_2d_coeff_lst` of an approximation and `L` triples returns `1 + 3 L` tensors in the order of the
container: the approximation first, then the tensors of the triples level by level. With flattening each of them
lists the entries in row-major order; without, they are the tensors themselves. -/
theorem c56_flatten [Zero R] {L : Nat} {c : Coeffs R} (h : IsCoeffs2 L c) :
    (∃ ts, flatten2dCoeffs c true = .ok ts ∧ ts.length = 1 + 3 * L ∧
      List.Forall₂ RowMajor (c.items.flatMap entryTensors) ts) ∧
    flatten2dCoeffs c false = .ok (c.items.flatMap entryTensors) := by
  refine ⟨⟨_, flatten_ok h true, ?_, ?_⟩, ?_⟩
  · obtain ⟨a, ds, e, hl, hd⟩ := h
    rw [List.length_map, e, List.flatMap_cons, List.length_append, tuples_length ds hd, hl]
    rfl
  · rw [List.forall₂_map_right_iff]
    exact List.forall₂_same.mpr fun t _ => flattenAll_rowMajor t
  · rw [flatten_ok h false]
    congr 1
    have : (processTensor false : Tensor R → Tensor R) = id := by funext t; rfl
    rw [this, List.map_id]

theorem boxSum_flat [AddCommMonoid R] : ∀ (s : List Nat) (g : List Nat → R),
    boxSum s g = ∑ k ∈ Finset.range (prodL s), g (unravel s k)
  | [], g => by simp [boxSum, unravel]
  | n :: s, g => by
    rw [prodL_cons, Nat.mul_comm, sum_range_mul]
    show (∑ i ∈ Finset.range n, boxSum s fun js => g (i :: js)) = _
    refine Finset.sum_congr rfl fun i _ => ?_
    rw [boxSum_flat s]
    refine Finset.sum_congr rfl fun r hr => ?_
    rw [Finset.mem_range] at hr
    rw [unravel, Nat.add_comm, Nat.add_mul_mod_self_right, Nat.mod_eq_of_lt hr,
      Nat.add_mul_div_right _ _ (by omega), Nat.div_eq_of_lt hr, Nat.zero_add]

theorem flattenAll_energy [CommRing R] (t : Tensor R) : energy (flattenAll t) = energy t := by
  unfold energy
  rw [boxSum_flat t.shape]
  show (∑ k ∈ Finset.range (prodL t.shape), (flattenAll t).get [k] ^ 2) = _
  refine Finset.sum_congr rfl fun k hk => ?_
  rw [Finset.mem_range] at hk
  unfold flattenAll
  rw [ofFn_get_of _ _ (by exact ⟨hk, trivial⟩)]
  rfl

/-- **C56.** Every result of `wavedec2` can be flattened: one vector for the approximation and three for each level, all
on the device and in the dtype of the input. -/
theorem c56_wavedec2 [Semiring R] (x : Tensor R) (w : Wavelet R) (mode : Option String) (level : Option Int)
    (axes : AxisHint) (c : Coeffs R) (hF : 2 ≤ w.len) (hhi : w.decHi.length = w.len)
    (hc : wavedec2 x w mode level axes = .ok c) :
    IsCoeffs2 (levelsN level w.len (sizes (axesOf axes x.rank 2) x.shape)) c ∧
    ∃ ts, flatten2dCoeffs c true = .ok ts ∧
      ts.length = 1 + 3 * levelsN level w.len (sizes (axesOf axes x.rank 2) x.shape) ∧
      ∀ t ∈ ts, t.rank = 1 ∧ t.md = x.md := by
  obtain ⟨m, -, h⟩ := c16_wavedec2_textbook x w mode level axes c hF hhi hc
  set L := levelsN level w.len (sizes (axesOf axes x.rank 2) x.shape) with hL
  obtain ⟨t, ht, hta⟩ := h.approx
  have hl := h.length
  have hdet := h.detail
  have h2 : IsCoeffs2 L c ∧ ∀ u ∈ c.items.flatMap entryTensors, u.md = x.md := by
    obtain ⟨il, items⟩ := c
    match items, ht, hl, hdet with
    | e0 :: ds, ht, hl, hdet =>
    obtain rfl : e0 = .tensor t := by simpa using ht
    have hdl : ds.length = L := by simpa using hl
    have hds : ∀ e ∈ ds, ∃ h v d, e = .tuple h v d ∧ h.md = x.md ∧ v.md = x.md ∧ d.md = x.md := by
      intro e he
      obtain ⟨i, hi, rfl⟩ := List.mem_iff_getElem.mp he
      obtain ⟨e', he', hde⟩ := hdet (L - 1 - i) (by omega)
      rw [show L - (L - 1 - i) = i + 1 by omega, List.getElem?_cons_succ, List.getElem?_eq_getElem hi] at he'
      obtain rfl : ds[i] = e' := by simpa using he'
      obtain ⟨h, v, d, e, a1, a2, a3⟩ := hde
      exact ⟨h, v, d, e, a1.md, a2.md, a3.md⟩
    refine ⟨⟨t, ds, rfl, hdl, fun e he => ?_⟩, ?_⟩
    · obtain ⟨h, v, d, e, _⟩ := hds e he
      exact ⟨h, v, d, e⟩
    · intro u hu
      rw [List.flatMap_cons, List.mem_append] at hu
      rcases hu with hu | hu
      · obtain rfl : u = t := by simpa [entryTensors] using hu
        exact hta.md
      · obtain ⟨e, he, hu⟩ := List.mem_flatMap.mp hu
        obtain ⟨h, v, d, rfl, a1, a2, a3⟩ := hds e he
        have : u = h ∨ u = v ∨ u = d := by simpa [entryTensors] using hu
        rcases this with rfl | rfl | rfl <;> assumption
  refine ⟨h2.1, ?_⟩
  obtain ⟨⟨ts, e, hlen, hr⟩, -⟩ := c56_flatten h2.1
  refine ⟨ts, e, hlen, fun u hu => ?_⟩
  obtain ⟨i, hi, rfl⟩ := List.mem_iff_getElem.mp hu
  have hi' : i < (c.items.flatMap entryTensors).length := by rw [hr.length_eq]; exact hi
  have := (List.forall₂_iff_get.mp hr).2 i hi' hi
  simp only [List.get_eq_getElem] at this
  exact ⟨by unfold Tensor.rank; rw [this.shape]; rfl, by rw [this.md]; exact h2.2 _ (List.getElem_mem hi')⟩

/-- **C56.** Flattening loses nothing: containers whose tensors have the same shapes and whose flat lists agree hold the
same tensors; and the sum of the squares of the flat list is that of the container. -/
theorem c56_lossless [CommRing R] {L : Nat} {c c' : Coeffs R} (h : IsCoeffs2 L c) (h' : IsCoeffs2 L c') {ts : List (Tensor R)}
    (e : flatten2dCoeffs c true = .ok ts) :
    (ts.map energy).sum = coeffEnergy c ∧
    (flatten2dCoeffs c' true = .ok ts →
      (c.items.flatMap entryTensors).map Tensor.shape = (c'.items.flatMap entryTensors).map Tensor.shape →
      c.items = c'.items) := by
  rw [flatten_ok h true] at e
  injection e with e
  refine ⟨?_, ?_⟩
  · rw [← e, List.map_map]
    have : (energy ∘ processTensor true : Tensor R → R) = energy := by funext t; exact flattenAll_energy t
    rw [this]
    unfold coeffEnergy
    generalize c.items = l
    induction l with
    | nil => rfl
    | cons a l ih => rw [List.flatMap_cons, List.map_append, List.sum_append, ih, List.map_cons, List.sum_cons]; rfl
  · intro e' hs
    rw [flatten_ok h' true] at e'
    injection e' with e'
    rw [← e'] at e
    have hinj : ∀ (l l' : List (Tensor R)), l.map (processTensor true) = l'.map (processTensor true) →
        l.map Tensor.shape = l'.map Tensor.shape → l = l' := by
      intro l
      induction l with
      | nil => intro l' h1 _; cases l' <;> simp_all
      | cons t l ih =>
        intro l' h1 h2
        cases l' with
        | nil => simp at h1
        | cons t' l' =>
          simp only [List.map_cons, List.cons.injEq] at h1 h2
          rw [ih l' h1.2 h2.2]
          congr 1
          have hf : flattenAll t = flattenAll t' := h1.1
          refine Tensor.ext' (show t.md = t'.md from congrArg (fun u => u.md) hf) h2.1 fun i hi => ?_
          have g : ∀ t : Tensor R, InB t.shape i → (flattenAll t).get [ravel t.shape i] = t.get i := by
            intro t hi
            unfold flattenAll
            rw [ofFn_get_of _ _ (by exact ⟨ravel_lt hi, trivial⟩)]
            show t.get (unravel t.shape (ravel t.shape i)) = _
            rw [unravel_ravel hi]
          rw [← g t hi, ← g t' (h2.1 ▸ hi), hf, h2.1]
    have hl := hinj _ _ e hs
    obtain ⟨a, ds, ei, hl1, hd⟩ := h
    obtain ⟨a', ds', ei', hl2, hd'⟩ := h'
    rw [ei, ei'] at hl ⊢
    have hl' : a = a' ∧ ds.flatMap entryTensors = ds'.flatMap entryTensors := by simpa [entryTensors] using hl
    obtain ⟨rfl, hl'⟩ := hl'
    congr 1
    clear e e' hs hl ei ei'
    subst hl1
    induction ds generalizing ds' with
    | nil => exact (List.length_eq_zero_iff.mp hl2).symm
    | cons x ds ih =>
      cases ds' with
      | nil => simp at hl2
      | cons y ds' =>
        obtain ⟨p, q, r, rfl⟩ := hd x (by simp)
        obtain ⟨p', q', r', rfl⟩ := hd' y (by simp)
        have hh : p = p' ∧ q = q' ∧ r = r' ∧ ds.flatMap entryTensors = ds'.flatMap entryTensors := by
          simpa [entryTensors] using hl'
        obtain ⟨rfl, rfl, rfl, h4⟩ := hh
        rw [ih (fun e he => hd e (by simp [he])) ds' (fun e he => hd' e (by simp [he])) h4 (by simpa using hl2)]

/-- **C56.** What is refused: an empty container (IndexError), a container that does not begin with a tensor and one
with a dictionary after complete triples (AttributeError). -/
theorem c56_flatten_errors [Zero R] (il flat : Bool) (a h v d : Tensor R) (kv : List (String × Tensor R))
    (ds es : List (Entry R)) (hd : ∀ e ∈ ds, ∃ h v d, e = .tuple h v d) :
    flatten2dCoeffs ⟨il, ([] : List (Entry R))⟩ flat = .error .indexError ∧
    flatten2dCoeffs ⟨il, .tuple h v d :: es⟩ flat = .error .attributeError ∧
    flatten2dCoeffs ⟨il, .tensor a :: ds ++ .dict kv :: es⟩ flat = .error .attributeError := by
  refine ⟨rfl, rfl, ?_⟩
  have : flattenLoop flat (ds ++ .dict kv :: es) = .error .attributeError := by
    induction ds with
    | nil => rfl
    | cons x ds ih =>
      obtain ⟨p, q, r, rfl⟩ := hd x (by simp)
      rw [List.cons_append, flattenLoop, ih fun e he => hd e (by simp [he])]
      rfl
  unfold flatten2dCoeffs
  simp only [List.cons_append, this]
  rfl

/-! ### Frequency bins -/

/-- **C56.** `_wpfreq(fs, level)` has `2^level` bins (none for a negative level), bin `n` being `n · fs / 2^(level+1)`:
the bins start at 0, are increasing and stay below the Nyquist frequency `fs/2`, which they divide evenly. -/
theorem c56_bins [Field R] [LinearOrder R] [IsStrictOrderedRing R] (fs : R) (level : Nat) :
    (wpfreq fs level).length = 2 ^ level ∧
    (∀ n : Nat, n < 2 ^ level → (wpfreq fs level)[n]? = some (n * fs / 2 ^ (level + 1))) ∧
    (0 < fs → (wpfreq fs level).Pairwise (· < ·) ∧ ∀ f ∈ wpfreq fs level, 0 ≤ f ∧ f < fs / 2) ∧
    ∀ k : Nat, 0 < k → wpfreq fs (-(k : Int)) = [] := by
  have hlen : (if (level : Int) < 0 then 0 else 2 ^ ((level : Int)).toNat) = 2 ^ level := by
    rw [if_neg (by omega)]
    simp
  have hbin : ∀ n : Nat, fs / 2 * ((n : R) / 2 ^ (level : Int)) = n * fs / 2 ^ (level + 1) := by
    intro n
    rw [zpow_natCast, pow_succ]
    field_simp
  have heq : wpfreq fs level = (List.range (2 ^ level)).map fun n : Nat => (n : R) * fs / 2 ^ (level + 1) := by
    unfold wpfreq
    rw [hlen]
    exact List.map_congr_left fun n _ => hbin n
  have h2 : (0 : R) < 2 ^ (level + 1) := by positivity
  refine ⟨by rw [heq]; simp, ?_, ?_, ?_⟩
  · intro n hn
    rw [heq, List.getElem?_map, List.getElem?_range hn]
    rfl
  · intro hfs
    rw [heq]
    refine ⟨?_, ?_⟩
    · rw [List.pairwise_map]
      refine List.pairwise_lt_range.imp fun {a b} hab => ?_
      have : (a : R) < b := by exact_mod_cast hab
      exact (div_lt_div_iff_of_pos_right h2).mpr (mul_lt_mul_of_pos_right this hfs)
    · intro f hf
      obtain ⟨n, hn, rfl⟩ := List.mem_map.mp hf
      rw [List.mem_range] at hn
      have hn' : (n : R) < 2 ^ level := by exact_mod_cast hn
      refine ⟨by positivity, ?_⟩
      rw [div_lt_div_iff₀ h2 (by norm_num), pow_succ]
      have := mul_lt_mul_of_pos_right hn' hfs
      nlinarith
  · intro k hk
    unfold wpfreq
    rw [if_pos (by omega)]
    rfl

theorem gray_double (i : Nat) (b : Bool) (k : Nat) :
    (gray (2 * i + b.toNat)).testBit (k + 1) = (gray i).testBit k := by
  have h : ∀ j, (2 * i + b.toNat).testBit (j + 1) = i.testBit j := by
    intro j
    rw [Nat.testBit_succ]
    congr 1
    cases b <;> simp <;> omega
  rw [gray_testBit, gray_testBit, h, h]

theorem bitsKey_last (x y : Char) (n g : Nat) :
    bitsKey x y (n + 1) g = bitsKey x y n (g / 2) ++ [if g.testBit 0 then y else x] := by
  unfold bitsKey
  rw [List.range_succ, List.map_append]
  congr 1
  · refine List.map_congr_left fun p hp => ?_
    rw [List.mem_range] at hp
    rw [show n + 1 - 1 - p = (n - 1 - p) + 1 by omega, Nat.testBit_succ]
  · simp

/-- **C56.** The bins belong to the packets in frequency order: the two children of the packet with bin `i` have the
bins `2 i` and `2 i + 1` of the next level, which halve the band of their parent (the upper letter comes first
if `i` is odd). -/
theorem c56_children [Field R] [LinearOrder R] [IsStrictOrderedRing R] (fs : R) (level : Nat) {keys keys' : List Key}
    (h : getLevel level "freq" = .ok keys) (h' : getLevel (level + 1) "freq" = .ok keys') {i : Nat} {key : Key}
    (hi : keys[i]? = some key) :
    keys'[2 * i]? = some (key ++ [if i % 2 = 0 then 'a' else 'd']) ∧
    keys'[2 * i + 1]? = some (key ++ [if i % 2 = 0 then 'd' else 'a']) ∧
    ∃ f f' : R, (wpfreq fs level)[i]? = some f ∧ (wpfreq fs ((level + 1 : Nat) : Int))[2 * i]? = some f ∧
      (wpfreq fs ((level + 1 : Nat) : Int))[2 * i + 1]? = some f' ∧ f' = f + fs / 2 / 2 ^ level / 2 := by
  obtain ⟨l, e, _, hl, _, hg, _⟩ := c28_freq_is_gray level
  obtain ⟨l', e', _, hl', _, hg', _⟩ := c28_freq_is_gray (level + 1)
  rw [h] at e
  injection e with e
  subst e
  rw [h'] at e'
  injection e' with e'
  subst e'
  have hlt : i < 2 ^ level := by rw [← hl]; exact (List.getElem?_eq_some_iff.mp hi).1
  rw [hg i hlt] at hi
  injection hi with hi
  have hlt' : 2 * i + 1 < 2 ^ (level + 1) := by rw [pow_succ]; omega
  have hkey : ∀ b : Bool, bitsKey 'a' 'd' (level + 1) (gray (2 * i + b.toNat))
      = key ++ [if (gray (2 * i + b.toNat)).testBit 0 then 'd' else 'a'] := by
    intro b
    rw [bitsKey_last, ← hi]
    congr 1
    refine bitsKey_congr fun k _ => ?_
    rw [← Nat.testBit_succ, gray_double]
  have hbit : ∀ b : Bool, (gray (2 * i + b.toNat)).testBit 0 = (b ^^ decide (i % 2 = 1)) := by
    intro b
    rw [gray_testBit, Nat.testBit_succ]
    have h1 : (2 * i + b.toNat) / 2 = i := by cases b <;> simp <;> omega
    rw [h1, Nat.testBit_zero, Nat.testBit_zero]
    cases b <;> simp [Nat.add_mod]
  obtain ⟨_, b1, _⟩ := c56_bins fs level
  obtain ⟨_, b2, _⟩ := c56_bins fs (level + 1)
  refine ⟨?_, ?_, _, _, b1 i hlt, ?_, b2 (2 * i + 1) hlt', ?_⟩
  · have := hkey false
    rw [hbit] at this
    rw [hg' (2 * i) (by omega)]
    simp only [Bool.toNat_false, Nat.add_zero] at this
    rw [this]
    rcases Nat.mod_two_eq_zero_or_one i with h0 | h0 <;> simp [h0]
  · have := hkey true
    rw [hbit] at this
    rw [hg' (2 * i + 1) hlt']
    simp only [Bool.toNat_true] at this
    rw [this]
    rcases Nat.mod_two_eq_zero_or_one i with h0 | h0 <;> simp [h0]
  · rw [b2 (2 * i) (by omega)]
    congr 1
    push_cast
    rw [pow_succ 2 (level + 1)]
    field_simp
  · push_cast
    rw [pow_succ 2 (level + 1), pow_succ]
    field_simp

example : wpfreq (1000 : ℚ) 2 = [0, 125, 250, 375] := by decide +kernel

example : ∃ keys keys', getLevel 2 "freq" = .ok keys ∧ getLevel 3 "freq" = .ok keys' ∧ keys[3]? = some ['d', 'a'] ∧
    keys'[6]? = some ['d', 'a', 'd'] := ⟨_, _, rfl, rfl, rfl, rfl⟩

example : IsCoeffs2 2 (⟨false, [.tensor (ofFn ⟨.float64, 0⟩ [2, 3] fun i => (i.getD 1 0 : ℚ)),
    .tuple (ofFn ⟨.float64, 0⟩ [2, 3] fun _ => 1) (ofFn ⟨.float64, 0⟩ [2, 3] fun _ => 2) (ofFn ⟨.float64, 0⟩ [2, 3] fun _ => 3),
    .tuple (ofFn ⟨.float64, 0⟩ [4, 5] fun _ => 1) (ofFn ⟨.float64, 0⟩ [4, 5] fun _ => 2)
      (ofFn ⟨.float64, 0⟩ [4, 5] fun _ => 3)]⟩ : Coeffs ℚ) :=
  ⟨_, _, rfl, rfl, by simp⟩

end Verif.Props
