/-
C79: the packet image of the deepfake example shows every packet once, at the position given by its frequencies.
-/
import Verif.Model.PacketPlot
import Verif.Props.PacketOrder
import Verif.Lemmas.SepAlias

namespace Verif
open Tensor
variable {R : Type} [Zero R]

/-! ### Concatenation of equal blocks -/

theorem npConcatGo_rows {m : Meta} {h w : Nat} (B : Nat → Tensor R) (hB : ∀ q, (B q).md = m ∧ (B q).shape = [h, w]) :
    ∀ n k (t : Tensor R), t.md = m → t.shape = [k * h, w] →
      (∀ q r c, q < k → r < h → c < w → t.get [q * h + r, c] = (B q).get [r, c]) →
      ∃ z, npConcatGo 0 t ((List.range' k n).map B) = .ok z ∧ z.md = m ∧ z.shape = [(k + n) * h, w] ∧
        ∀ q r c, q < k + n → r < h → c < w → z.get [q * h + r, c] = (B q).get [r, c]
  | 0, k, t, hm, hs, hg => ⟨t, rfl, hm, hs, hg⟩
  | n + 1, k, t, hm, hs, hg => by
    obtain ⟨bm, bs⟩ := hB k
    rw [List.range'_succ, List.map_cons]
    unfold npConcatGo
    have e : cat2 t (B k) 0 = .ok (ofFn m [(k + 1) * h, w] fun i =>
        if i.getD 0 0 < k * h then t.get i else (B k).get (i.set 0 (i.getD 0 0 - k * h))) := by
      unfold cat2
      rw [if_pos ⟨by rw [hm, bm], by rw [hs, bs]; rfl, by rw [hs, bs]; rfl⟩]
      rw [hs, bs, hm]
      simp [Nat.add_mul]
    rw [e]
    simp only
    obtain ⟨z, z1, z2, z3, z4⟩ := npConcatGo_rows B hB n (k + 1) (ofFn m [(k + 1) * h, w] fun i =>
        if i.getD 0 0 < k * h then t.get i else (B k).get (i.set 0 (i.getD 0 0 - k * h))) rfl rfl (by
      intro q r c hq hr hc
      have hlt : q * h + r < (k + 1) * h := by
        calc q * h + r < q * h + h := by omega
          _ = (q + 1) * h := by ring
          _ ≤ (k + 1) * h := Nat.mul_le_mul_right _ hq
      rw [ofFn_get_of _ _ (by simp [hlt, hc])]
      by_cases hqk : q < k
      · have : q * h + r < k * h := by
          calc q * h + r < q * h + h := by omega
            _ = (q + 1) * h := by ring
            _ ≤ k * h := Nat.mul_le_mul_right _ hqk
        simp only [List.getD_cons_zero, this, if_true]
        exact hg q r c hqk hr hc
      · obtain rfl : q = k := by omega
        simp)
    refine ⟨z, z1, z2, by rw [z3, show k + 1 + n = k + (n + 1) by omega], fun q r c hq => z4 q r c (by omega)⟩

theorem npConcatGo_cols {m : Meta} {h w : Nat} (B : Nat → Tensor R) (hB : ∀ q, (B q).md = m ∧ (B q).shape = [h, w]) :
    ∀ n k (t : Tensor R), t.md = m → t.shape = [h, k * w] →
      (∀ q r c, q < k → r < h → c < w → t.get [r, q * w + c] = (B q).get [r, c]) →
      ∃ z, npConcatGo 1 t ((List.range' k n).map B) = .ok z ∧ z.md = m ∧ z.shape = [h, (k + n) * w] ∧
        ∀ q r c, q < k + n → r < h → c < w → z.get [r, q * w + c] = (B q).get [r, c]
  | 0, k, t, hm, hs, hg => ⟨t, rfl, hm, hs, hg⟩
  | n + 1, k, t, hm, hs, hg => by
    obtain ⟨bm, bs⟩ := hB k
    rw [List.range'_succ, List.map_cons]
    unfold npConcatGo
    have e : cat2 t (B k) 1 = .ok (ofFn m [h, (k + 1) * w] fun i =>
        if i.getD 1 0 < k * w then t.get i else (B k).get (i.set 1 (i.getD 1 0 - k * w))) := by
      unfold cat2
      rw [if_pos ⟨by rw [hm, bm], by rw [hs, bs]; rfl, by rw [hs, bs]; rfl⟩]
      rw [hs, bs, hm]
      simp [Nat.add_mul]
    rw [e]
    simp only
    obtain ⟨z, z1, z2, z3, z4⟩ := npConcatGo_cols B hB n (k + 1) (ofFn m [h, (k + 1) * w] fun i =>
        if i.getD 1 0 < k * w then t.get i else (B k).get (i.set 1 (i.getD 1 0 - k * w))) rfl rfl (by
      intro q r c hq hr hc
      have hlt : q * w + c < (k + 1) * w := by
        calc q * w + c < q * w + w := by omega
          _ = (q + 1) * w := by ring
          _ ≤ (k + 1) * w := Nat.mul_le_mul_right _ hq
      rw [ofFn_get_of _ _ (by simp [hlt, hr])]
      by_cases hqk : q < k
      · have : q * w + c < k * w := by
          calc q * w + c < q * w + w := by omega
            _ = (q + 1) * w := by ring
            _ ≤ k * w := Nat.mul_le_mul_right _ hqk
        simp only [List.getD_cons_succ, List.getD_cons_zero, this, if_true]
        exact hg q r c hqk hr hc
      · obtain rfl : q = k := by omega
        simp)
    refine ⟨z, z1, z2, by rw [z3, show k + 1 + n = k + (n + 1) by omega], fun q r c hq => z4 q r c (by omega)⟩

theorem npConcatFirst_ok {m : Meta} {h w : Nat} (B : Nat → Tensor R) (hB : ∀ q, (B q).md = m ∧ (B q).shape = [h, w])
    (n : Nat) (hn : 0 < n) :
    ∃ z, npConcatFirst ((List.range n).map B) = .ok z ∧ z.md = m ∧ z.shape = [n * h, w] ∧
      ∀ q r c, q < n → r < h → c < w → z.get [q * h + r, c] = (B q).get [r, c] := by
  obtain ⟨k, rfl⟩ : ∃ k, n = k + 1 := ⟨n - 1, by omega⟩
  rw [List.range_eq_range', List.range'_succ, List.map_cons]
  unfold npConcatFirst
  simp only
  rw [if_neg (by simp [Tensor.rank, (hB 0).2])]
  obtain ⟨z, z1, z2, z3, z4⟩ := npConcatGo_rows B hB k 1 (B 0) (hB 0).1 (by rw [(hB 0).2, one_mul]) (by
    intro q r c hq _ _
    obtain rfl : q = 0 := by omega
    simp)
  rw [Nat.add_comm 1 k] at z3 z4
  exact ⟨z, z1, z2, z3, z4⟩

theorem npConcatLast_ok {m : Meta} {h w : Nat} (B : Nat → Tensor R) (hB : ∀ q, (B q).md = m ∧ (B q).shape = [h, w])
    (n : Nat) (hn : 0 < n) :
    ∃ z, npConcatLast ((List.range n).map B) = .ok z ∧ z.md = m ∧ z.shape = [h, n * w] ∧
      ∀ q r c, q < n → r < h → c < w → z.get [r, q * w + c] = (B q).get [r, c] := by
  obtain ⟨k, rfl⟩ : ∃ k, n = k + 1 := ⟨n - 1, by omega⟩
  rw [List.range_eq_range', List.range'_succ, List.map_cons]
  unfold npConcatLast
  simp only
  rw [if_neg (by simp [Tensor.rank, (hB 0).2])]
  have e1 : (B 0).rank - 1 = 1 := by simp [Tensor.rank, (hB 0).2]
  rw [e1]
  obtain ⟨z, z1, z2, z3, z4⟩ := npConcatGo_cols B hB k 1 (B 0) (hB 0).1 (by rw [(hB 0).2, one_mul]) (by
    intro q r c hq _ _
    obtain rfl : q = 0 := by omega
    simp)
  rw [Nat.add_comm 1 k] at z3 z4
  exact ⟨z, z1, z2, z3, z4⟩

theorem mapM_blocks_ok {ε α β γ : Type} {f : α → Except ε β} {p : γ → α} {g : γ → β} :
    ∀ {l : List γ}, (∀ a ∈ l, f (p a) = .ok (g a)) → (l.map p).mapM f = .ok (l.map g)
  | [], _ => rfl
  | a :: l, h => by
    rw [List.map_cons, List.mapM_cons, h a (by simp), mapM_blocks_ok fun b hb => h b (by simp [hb])]
    rfl

theorem mapM_blocks_err {ε α β γ : Type} {f : α → Except ε β} {p : γ → α} {e : ε} :
    ∀ {l : List γ}, (∀ a ∈ l, (∃ b, f (p a) = .ok b) ∨ f (p a) = .error e) → (∃ a ∈ l, f (p a) = .error e) →
      (l.map p).mapM f = .error e
  | [], _, h => by obtain ⟨a, ha, -⟩ := h; cases ha
  | a :: l, h, h' => by
    rw [List.map_cons, List.mapM_cons]
    rcases h a (by simp) with ⟨b, hb⟩ | hb
    · have : (l.map p).mapM f = .error e := by
        refine mapM_blocks_err (fun c hc => h c (by simp [hc])) ?_
        obtain ⟨c, hc, he⟩ := h'
        rcases List.mem_cons.mp hc with rfl | hc
        · rw [hb] at he
          cases he
        · exact ⟨c, hc, he⟩
      rw [hb, this]
      rfl
    · rw [hb]
      rfl

namespace Props
open Tensor

/-! ### The position of a key in natural order -/

/-- The number of a key in natural order. -/
noncomputable def natPos (level i j : Nat) : Nat := (getNaturalOrder2 level).idxOf (gridKey level (gray i) (gray j))

theorem natPos_lt (level i j : Nat) : natPos level i j < 4 ^ level := by
  have := List.idxOf_lt_length_iff.mpr (gridKey_mem level (gray i) (gray j))
  rwa [show (getNaturalOrder2 level).length = 4 ^ level from pyProduct_length _ _] at this

theorem natPos_get (level i j : Nat) :
    (getNaturalOrder2 level)[natPos level i j]? = some (gridKey level (gray i) (gray j)) := by
  have := List.idxOf_lt_length_iff.mpr (gridKey_mem level (gray i) (gray j))
  unfold natPos
  rw [List.getElem?_eq_getElem this, List.getElem_idxOf]

theorem idxOf?_of_mem {α : Type} [BEq α] [LawfulBEq α] {a : α} : ∀ {l : List α}, a ∈ l → l.idxOf? a = some (l.idxOf a)
  | [], h => by cases h
  | b :: l, h => by
    rw [List.idxOf?_cons, List.idxOf_cons]
    by_cases hb : b = a
    · simp [hb]
    · rcases List.mem_cons.mp h with rfl | h
      · exact absurd rfl hb
      · have : (b == a) = false := by simpa using hb
        rw [idxOf?_of_mem h, this]
        rfl

theorem idxOf?_natPos (level i j : Nat) :
    (getNaturalOrder2 level).idxOf? (gridKey level (gray i) (gray j)) = some (natPos level i j) :=
  idxOf?_of_mem (gridKey_mem _ _ _)

/-- Different blocks show different packets. -/
theorem natPos_inj {level i j i' j' : Nat} (hl : 1 ≤ level) (hi : i < 2 ^ level) (hj : j < 2 ^ level) (hi' : i' < 2 ^ level)
    (hj' : j' < 2 ^ level) (e : natPos level i j = natPos level i' j') : i = i' ∧ j = j' := by
  have h1 := natPos_get level i j
  rw [e, natPos_get] at h1
  have e : gridKey level (gray i') (gray j') = gridKey level (gray i) (gray j) := by simpa using h1
  have h2 := congrArg expand2dPath e
  rw [expand_gridKey, expand_gridKey] at h2
  simp only [Prod.mk.injEq] at h2
  have hn := grayList_nodup (x := 'l') (y := 'h') (by decide) level
  have key : ∀ {a b : Nat}, a < 2 ^ level → b < 2 ^ level →
      bitsKey 'l' 'h' level (gray a) = bitsKey 'l' 'h' level (gray b) → a = b := by
    intro a b ha hb hab
    have hN := hn
    refine List.inj_on_of_nodup_map hN (by simpa using ha) (by simpa using hb) hab
  exact ⟨(key hi' hi h2.1).symm, (key hj' hj h2.2).symm⟩

/-- Every packet is shown. -/
theorem natPos_surj {level k : Nat} (hl : 1 ≤ level) (hk : k < 4 ^ level) :
    ∃ i j, i < 2 ^ level ∧ j < 2 ^ level ∧ natPos level i j = k := by
  have hlen : (getNaturalOrder2 level).length = 4 ^ level := pyProduct_length _ _
  have hm : (getNaturalOrder2 level)[k]'(by omega) ∈ getNaturalOrder2 level := List.getElem_mem _
  obtain ⟨g, hg, -, hc⟩ := c29_grid_complete level hl
  cases hg
  have h1 := (hc ((getNaturalOrder2 level)[k]'(by omega))).mpr ⟨((mem_pyProduct _ _ _).mp hm).1, natural2_chars hm⟩
  rw [getFreqOrder2_eq _ hl] at h1
  obtain ⟨row, hr, h1⟩ := List.mem_flatten.mp h1
  obtain ⟨i, hi, rfl⟩ := List.mem_map.mp hr
  obtain ⟨j, hj, h1⟩ := List.mem_map.mp h1
  refine ⟨i, j, by simpa using hi, by simpa using hj, ?_⟩
  have hn : (getNaturalOrder2 level).Nodup := pyProduct_nodup (by decide) _
  unfold natPos
  rw [h1]
  exact hn.idxOf_getElem k _

/-! ### The image -/

theorem image_ok (packets : Tensor R) (P h w level : Nat) (hl : 1 ≤ level) (hs : packets.shape = [P, h, w])
    (hP : 4 ^ level ≤ P) :
    ∃ img, generateFrequencyPacketImage packets level = .ok img ∧ img.md = packets.md ∧
      img.shape = [2 ^ level * h, 2 ^ level * w] ∧
      ∀ i j r c, i < 2 ^ level → j < 2 ^ level → r < h → c < w →
        img.get [i * h + r, j * w + c] = packets.get [natPos level i j, r, c] := by
  have hpos : 0 < 2 ^ level := by positivity
  have hsel : ∀ i j, packetOfPath packets (getNaturalOrder2 level) (gridKey level (gray i) (gray j)) =
      .ok (ofFn packets.md [h, w] fun q => packets.get (natPos level i j :: q)) := by
    intro i j
    unfold packetOfPath
    rw [idxOf?_natPos]
    unfold selectFirst
    simp only [hs]
    rw [if_pos (lt_of_lt_of_le (natPos_lt level i j) hP)]
  have hrow : ∀ i, ∃ z, packetRow packets (getNaturalOrder2 level)
      ((List.range (2 ^ level)).map fun j => gridKey level (gray i) (gray j)) = .ok z ∧ z.md = packets.md ∧
      z.shape = [h, 2 ^ level * w] ∧ ∀ j r c, j < 2 ^ level → r < h → c < w →
        z.get [r, j * w + c] = packets.get [natPos level i j, r, c] := by
    intro i
    obtain ⟨z, z1, z2, z3, z4⟩ := npConcatLast_ok
      (fun j => ofFn packets.md [h, w] fun q => packets.get (natPos level i j :: q)) (m := packets.md) (h := h) (w := w)
      (fun _ => ⟨rfl, rfl⟩) (2 ^ level) hpos
    refine ⟨z, ?_, z2, z3, fun j r c hj hr hc => ?_⟩
    · unfold packetRow
      rw [mapM_blocks_ok (l := List.range (2 ^ level)) fun j _ => hsel i j]
      exact z1
    · rw [z4 j r c hj hr hc, ofFn_get_of _ _ (by simp [hr, hc])]
  choose Z hZ using hrow
  obtain ⟨z, z1, z2, z3, z4⟩ := npConcatFirst_ok Z (m := packets.md) (h := h) (w := 2 ^ level * w)
    (fun i => ⟨(hZ i).2.1, (hZ i).2.2.1⟩) (2 ^ level) hpos
  refine ⟨z, ?_, z2, z3, fun i j r c hi hj hr hc => ?_⟩
  · unfold generateFrequencyPacketImage
    rw [getFreqOrder2_eq _ hl, mapM_blocks_ok (l := List.range (2 ^ level)) fun i _ => (hZ i).1]
    exact z1
  · have hlt : j * w + c < 2 ^ level * w := by
      calc j * w + c < j * w + w := by omega
        _ = (j + 1) * w := by ring
        _ ≤ _ := Nat.mul_le_mul_right _ hj
    rw [z4 i r (j * w + c) hi hr hlt]
    exact (hZ i).2.2.2 j r c hj hr hc

/-- **C79.** The image has `2^degree` by `2^degree` blocks; the block in row `i` and column `j` is the packet whose key has the
Gray code of `i` as its row filter path and that of `j` as its column filter path, taken at the position of the key in natural
order. -/
theorem c79_image (packets : Tensor R) (P h w degree : Nat) (hd : 1 ≤ degree) (hs : packets.shape = [P, h, w])
    (hP : 4 ^ degree ≤ P) :
    ∃ img natural, getLevel2 degree "natural" = .ok (.list natural) ∧
      generateFrequencyPacketImage packets degree = .ok img ∧ img.md = packets.md ∧
      img.shape = [2 ^ degree * h, 2 ^ degree * w] ∧
      ∀ i j, i < 2 ^ degree → j < 2 ^ degree → ∃ k, natural[k]? = some (gridKey degree (gray i) (gray j)) ∧
        ∀ r c, r < h → c < w → img.get [i * h + r, j * w + c] = packets.get [k, r, c] := by
  obtain ⟨img, h1, h2, h3, h4⟩ := image_ok packets P h w degree hd hs hP
  exact ⟨img, _, rfl, h1, h2, h3, fun i j hi hj => ⟨_, natPos_get degree i j, fun r c => h4 i j r c hi hj⟩⟩

/-- **C79.** Every packet of the level is shown in exactly one block. -/
theorem c79_every_packet_once (packets : Tensor R) (P h w degree : Nat) (hd : 1 ≤ degree) (hs : packets.shape = [P, h, w])
    (hP : 4 ^ degree ≤ P) :
    ∃ img, ∃ block : Nat → Nat × Nat, generateFrequencyPacketImage packets degree = .ok img ∧
      (∀ k, k < 4 ^ degree → (block k).1 < 2 ^ degree ∧ (block k).2 < 2 ^ degree ∧
        ∀ r c, r < h → c < w → img.get [(block k).1 * h + r, (block k).2 * w + c] = packets.get [k, r, c]) ∧
      (∀ k k', k < 4 ^ degree → k' < 4 ^ degree → block k = block k' → k = k') ∧
      ∀ i j, i < 2 ^ degree → j < 2 ^ degree → ∃ k, k < 4 ^ degree ∧ block k = (i, j) := by
  obtain ⟨img, h1, h2, h3, h4⟩ := image_ok packets P h w degree hd hs hP
  have hb : ∀ k, ∃ b : Nat × Nat, k < 4 ^ degree → b.1 < 2 ^ degree ∧ b.2 < 2 ^ degree ∧ natPos degree b.1 b.2 = k := by
    intro k
    by_cases hk : k < 4 ^ degree
    · obtain ⟨i, j, hi, hj, e⟩ := natPos_surj hd hk
      exact ⟨(i, j), fun _ => ⟨hi, hj, e⟩⟩
    · exact ⟨(0, 0), fun h => absurd h hk⟩
  choose block hblock using hb
  refine ⟨img, block, h1, fun k hk => ?_, fun k k' hk hk' e => ?_, fun i j hi hj => ?_⟩
  · obtain ⟨b1, b2, b3⟩ := hblock k hk
    refine ⟨b1, b2, fun r c hr hc => ?_⟩
    rw [h4 _ _ r c b1 b2 hr hc, b3]
  · rw [← (hblock k hk).2.2, ← (hblock k' hk').2.2, e]
  · have hk := natPos_lt degree i j
    obtain ⟨b1, b2, b3⟩ := hblock _ hk
    obtain ⟨e1, e2⟩ := natPos_inj hd b1 b2 hi hj b3
    exact ⟨_, hk, Prod.ext e1 e2⟩

/-- **C79.** If the array holds the packets of a tree in natural order, block `(i, j)` shows the packet of the key with the Gray
codes of `i` and `j`. -/
theorem c79_tree (packets : Tensor R) (P h w degree : Nat) (hd : 1 ≤ degree) (hs : packets.shape = [P, h, w])
    (hP : 4 ^ degree ≤ P) (value : Key → Tensor R) (natural : List Key)
    (hn : getLevel2 degree "natural" = .ok (.list natural))
    (hv : ∀ k key, natural[k]? = some key → ∀ r c, r < h → c < w → packets.get [k, r, c] = (value key).get [r, c]) :
    ∃ img, generateFrequencyPacketImage packets degree = .ok img ∧
      ∀ i j r c, i < 2 ^ degree → j < 2 ^ degree → r < h → c < w →
        img.get [i * h + r, j * w + c] = (value (gridKey degree (gray i) (gray j))).get [r, c] := by
  obtain ⟨img, h1, h2, h3, h4⟩ := image_ok packets P h w degree hd hs hP
  cases hn
  exact ⟨img, h1, fun i j r c hi hj hr hc => by rw [h4 i j r c hi hj hr hc, hv _ _ (natPos_get degree i j) r c hr hc]⟩

/-- **C79.** Nothing is lost: two packet arrays with the same image hold the same packets. -/
theorem c79_injective (p q : Tensor R) (P Q h w degree : Nat) (hd : 1 ≤ degree) (hp : p.shape = [P, h, w])
    (hq : q.shape = [Q, h, w]) (hP : 4 ^ degree ≤ P) (hQ : 4 ^ degree ≤ Q)
    (e : generateFrequencyPacketImage p degree = generateFrequencyPacketImage q degree) :
    ∀ k r c, k < 4 ^ degree → r < h → c < w → p.get [k, r, c] = q.get [k, r, c] := by
  intro k r c hk hr hc
  obtain ⟨i1, h1, -, -, h4⟩ := image_ok p P h w degree hd hp hP
  obtain ⟨i2, k1, -, -, k4⟩ := image_ok q Q h w degree hd hq hQ
  rw [h1, k1] at e
  cases e
  obtain ⟨i, j, hi, hj, rfl⟩ := natPos_surj hd hk
  rw [← h4 i j r c hi hj hr hc, k4 i j r c hi hj hr hc]

/-- **C79.** Too few packets: IndexError; degree zero: ValueError, for every array. -/
theorem c79_errors (packets : Tensor R) :
    generateFrequencyPacketImage packets 0 = .error .valueError ∧
    ∀ P h w degree, 1 ≤ degree → packets.shape = [P, h, w] → P < 4 ^ degree →
      generateFrequencyPacketImage packets degree = .error .indexError := by
  refine ⟨rfl, fun P h w degree hd hs hP => ?_⟩
  have hpos : 0 < 2 ^ degree := by positivity
  have hsel : ∀ i j, packetOfPath packets (getNaturalOrder2 degree) (gridKey degree (gray i) (gray j)) =
      if natPos degree i j < P then .ok (ofFn packets.md [h, w] fun q => packets.get (natPos degree i j :: q))
      else .error .indexError := by
    intro i j
    unfold packetOfPath
    rw [idxOf?_natPos]
    unfold selectFirst
    simp only [hs]
  -- a row either is complete or raises
  have hrow : ∀ i, (∃ z, packetRow packets (getNaturalOrder2 degree)
      ((List.range (2 ^ degree)).map fun j => gridKey degree (gray i) (gray j)) = .ok z ∧
        ∀ j, j < 2 ^ degree → natPos degree i j < P) ∨
      packetRow packets (getNaturalOrder2 degree)
        ((List.range (2 ^ degree)).map fun j => gridKey degree (gray i) (gray j)) = .error .indexError := by
    intro i
    by_cases hall : ∀ j, j < 2 ^ degree → natPos degree i j < P
    · left
      obtain ⟨z, z1, -⟩ := npConcatLast_ok
        (fun j => ofFn packets.md [h, w] fun q => packets.get (natPos degree i j :: q)) (m := packets.md) (h := h) (w := w)
        (fun _ => ⟨rfl, rfl⟩) (2 ^ degree) hpos
      refine ⟨z, ?_, hall⟩
      unfold packetRow
      rw [mapM_blocks_ok (l := List.range (2 ^ degree)) fun j hj => by
        rw [hsel i j, if_pos (hall j (by simpa using hj))]]
      exact z1
    · right
      push Not at hall
      obtain ⟨j, hj, hlt⟩ := hall
      unfold packetRow
      rw [mapM_blocks_err (l := List.range (2 ^ degree)) (e := .indexError) (fun j _ => by
        rw [hsel i j]
        split_ifs
        · exact Or.inl ⟨_, rfl⟩
        · exact Or.inr rfl) ⟨j, by simpa using hj, by rw [hsel i j, if_neg (by omega)]⟩]
      rfl
  obtain ⟨i, j, hi, hj, e⟩ := natPos_surj hd hP
  unfold generateFrequencyPacketImage
  rw [getFreqOrder2_eq _ hd, mapM_blocks_err (l := List.range (2 ^ degree)) (e := .indexError) (fun i _ => by
    rcases hrow i with ⟨z, hz, -⟩ | hz
    · exact Or.inl ⟨z, hz⟩
    · exact Or.inr hz) ⟨i, by simpa using hi, by
      rcases hrow i with ⟨z, hz, hlt⟩ | hz
      · exact absurd (hlt j hj) (by omega)
      · exact hz⟩]
  rfl

end Props
end Verif
