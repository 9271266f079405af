/- Concrete cases for the theorems about packets without boundary filters (C25, C26, C30, C31, C44, C49, C62, C71). -/
import Verif.Witness.Setup
import Verif.Props.Cascade
import Verif.Props.CascadePacket
import Verif.Props.Orientation
import Verif.Props.PacketDict
import Verif.Props.Packet2

namespace Verif.Witness
open Tensor Spec Props Backend

/-! ### Packets of signals -/

abbrev P1 := packet1 haar (some "symmetric") (-2)

theorem reads {T : Type} (k k' : Key) : ∀ op ∈ [(Op.read k : Op T), .init [k']], IsRead op := by
  intro op hop
  simp only [List.mem_cons, List.not_mem_nil, or_false] at hop
  rcases hop with rfl | rfl <;> trivial

theorem no_reads {T : Type} : ∀ op ∈ ([] : List (Op T)), IsRead op := fun _ h => absurd h List.not_mem_nil

/-- Two levels of a batch of signals; nodes are read in any order before. -/
theorem p1 (st : Pkt Unit (Tensor ℚ)) (ops : List (Op (Tensor ℚ))) (ho : ∀ op ∈ ops, IsRead op) {key : Key}
    (hk : (key.length : Int) ≤ 2) (hc : ∀ c ∈ key, c = 'a' ∨ c = 'd') :
    ∃ v, (P1.run st (.transform exX (some 2) :: ops ++ [.read key])).1.getLast? = some (.value v) :=
  c25_readable haar (some "symmetric") (-2) .symmetric (Or.inl rfl) (by decide) rfl _ _ _ 2 (Or.inl rfl)
    ⟨by decide, by decide⟩ (Or.inr rfl) ops ho key hk hc (fun s _ => levelLen_pos (by decide) (by decide) s)

theorem da : ∀ c ∈ ['d', 'a'], c = 'a' ∨ c = 'd' := by simp

example := (p1 (empty ()) _ (reads ['d'] ['a', 'd']) (key := ['d', 'a']) (by decide) da).imp fun v h =>
  c25_value haar (some "symmetric") (-2) .symmetric (Or.inl rfl) (by decide) rfl _ _ _ 2 (Or.inl rfl) _ (reads ['d'] ['a', 'd']) _ v h
example (st : Pkt Unit (Tensor ℚ)) := c25_order_independent haar (some "symmetric") (-2) (by decide) rfl (empty ()) st exX (some 2) 2 (Or.inl rfl)
  _ [] (reads ['d'] ['a', 'd']) no_reads ['d', 'a']
/-- The default maximum level. -/
example (st : Pkt Unit (Tensor ℚ)) := c25_order_independent haar (some "symmetric") (-2) (by decide) rfl (empty ()) st exX none 1
  (Or.inr ⟨rfl, ⟨by decide, by decide⟩, by decide⟩) _ [] (reads ['d'] ['a', 'd']) no_reads ['d', 'a']

/-- The state after `transform`. -/
def st1 : Pkt Unit (Tensor ℚ) := (P1.step (empty ()) (.transform exX (some 2))).2

example := c26_too_long P1 st1 2 rfl ['a', 'd', 'a'] rfl (by decide)
example := c26_last_letter P1 st1 2 rfl ['a'] 'x' rfl (by decide) (by decide)
example := c26_reads_keep P1 (empty ()) exX (some 2) [] no_reads ['d'] [] exX rfl
example := c30_reconstruct haar (some "symmetric") (-2) 2 haar_pr (by decide) rfl (empty ()) exX (some 2) 1 (Or.inl rfl) _
  (reads ['d'] ['a', 'd'])
example := c30_level_zero P1 (P1.step (empty ()) (.transform exX (some 0))).2 0 rfl (by decide)
example (before after : List (Op (Tensor ℚ))) := c31_transform_forgets haar (some "symmetric") (-2) (by decide) rfl before after (empty ()) exX
  (some 2) 2 (Or.inl rfl)
example := c31_failed_transform haar (some "symmetric") (-5) st1 2 rfl exX (fun h => by have := h.1; simp [exX, rank, ofFn] at this)
theorem pair1 : ∃ lo hi, wavedec exX haar (some "symmetric") (some 1) (.int (-2)) = .ok [lo, hi] := by
  obtain ⟨cs, h1⟩ := c04_total_modes exX haar (some "symmetric") .symmetric (some 1) (.int (-2)) (Or.inl rfl) (by decide) rfl
    exX_axes (Or.inr rfl) (by decide) (Or.inr (Or.inr rfl))
  obtain ⟨m, -, hd⟩ := c02_wavedec_textbook exX haar _ _ _ cs (by decide) rfl h1
  match cs, hd.length with
  | [a, d], _ => exact ⟨a, d, h1⟩
example (t : Tensor ℚ) := pair1.imp fun lo h => h.imp fun hi h => c49_absent_overwritten haar (some "symmetric") (-2) (empty ()) exX t 2
  (by decide) lo hi h ⟨by decide, by decide⟩
example (t : Tensor ℚ) := pair1.imp fun lo h => h.imp fun hi h => c71_sibling_reverted haar (some "symmetric") (-2) (empty ()) exX t 2
  (by decide) lo hi h ⟨by decide, by decide⟩

/-! ### Packets of images -/

abbrev P2 (sep : Bool) := packet2 haar (some "symmetric") [-2, -1] sep

theorem exP_admit (n : Nat) : LevelsAdmit .symmetric haar.len (sizes (planeAxes [-2, -1] exP.rank) exP.shape) n := by
  intro s _ k hk
  obtain ⟨n, hn, rfl⟩ := List.mem_map.mp hk
  have : n = 3 ∨ n = 5 := by simpa [sizes, planeAxes, axesOf, resolve, exP, axisOf, Tensor.rank, Tensor.ofFn] using hn
  exact levelLen_pos (by decide) (by rcases this with rfl | rfl <;> decide) s

theorem hv : ∀ c ∈ ['h', 'v'], c = 'a' ∨ c = 'h' ∨ c = 'v' ∨ c = 'd' := by simp

theorem p2 (sep : Bool) (st : Pkt Unit (Tensor ℚ)) (ops : List (Op (Tensor ℚ))) (ho : ∀ op ∈ ops, IsRead op) {key : Key}
    (hk : (key.length : Int) ≤ 2) (hc : ∀ c ∈ key, c = 'a' ∨ c = 'h' ∨ c = 'v' ∨ c = 'd') :
    ∃ v, ((P2 sep).run st (.transform exP (some 2) :: ops ++ [.read key])).1.getLast? = some (.value v) :=
  c25_2d_readable haar (some "symmetric") [-2, -1] sep .symmetric (Or.inl rfl) (by decide) rfl _ _ _ 2 (Or.inl rfl)
    exP_good (Or.inr rfl) ops ho key hk hc (exP_admit _)

example (sep : Bool) := (p2 sep (empty ()) _ (reads ['d'] ['a', 'd']) (key := ['h', 'v']) (by decide) hv).imp fun v h =>
  c25_2d_value haar (some "symmetric") [-2, -1] sep .symmetric (Or.inl rfl) (by decide) rfl _ _ (Or.inr rfl) _ 2 (Or.inl rfl) _
    (reads ['d'] ['a', 'd']) _ v h
example (sep : Bool) (st : Pkt Unit (Tensor ℚ)) := c25_2d_order_independent haar (some "symmetric") [-2, -1] sep (by decide) rfl (empty ()) st
  exP (some 2) 2 (Or.inl rfl) _ [] (reads ['d'] ['a', 'd']) no_reads ['h', 'v']
/-- The default maximum level comes from the shorter axis. -/
example (sep : Bool) (st : Pkt Unit (Tensor ℚ)) := c25_2d_order_independent haar (some "symmetric") [-2, -1] sep (by decide) rfl (empty ()) st
  exP none 1 (Or.inr ⟨rfl, -2, -1, 3, 5, rfl, exP_good.valid, rfl, rfl, by decide⟩) _ [] (reads ['d'] ['a', 'd']) no_reads ['h', 'v']
example (sep : Bool) (before after : List (Op (Tensor ℚ))) := c31_2d_transform_forgets haar (some "symmetric") [-2, -1] sep (by decide) rfl
  before after (empty ()) exP (some 2) 2 (Or.inl rfl)
example (sep : Bool) := c31_2d_failed_transform haar (some "symmetric") [-7, -1] sep ((P2 sep).step (empty ()) (.transform exP (some 2))).2 2 rfl
  exP (fun h => by have := (h.1 (-7) (by simp)).1; simp [exP, rank, ofFn] at this)
example (sep : Bool) := c30_2d_reconstruct haar (some "symmetric") [-2, -1] sep 2 haar_pr (by decide) rfl (empty ()) exP (some 2) 1 (Or.inl rfl) _
  (reads ['d'] ['a', 'd'])

/-! ### C44 -/

example := (p2 true (empty ()) _ (reads ['d'] ['a', 'd']) (key := ['h', 'v']) (by decide) hv).imp fun v h =>
  (p2 false (empty ()) _ (reads ['d'] ['a', 'd']) (key := exchangeLetters ['h', 'v']) (by decide) (by decide)).imp fun v' h' =>
    c44_packets_agree haar (some "symmetric") [-2, -1] .symmetric (Or.inl rfl) (by decide) rfl _ _ exP (Or.inr rfl) (some 2) 2 (Or.inl rfl)
      _ _ (reads ['d'] ['a', 'd']) (reads ['d'] ['a', 'd']) ['h', 'v'] v v' h h'
example := c44_packets_exchanged haar (some "symmetric") [-2, -1] .symmetric (Or.inl rfl) (by decide) rfl (empty ()) (empty ()) exP (Or.inr rfl)
  exP_good (some 2) 2 (Or.inl rfl) _ _ (reads ['d'] ['a', 'd']) no_reads ['h', 'v'] (by decide) hv (exP_admit _)

/-! ### C62 -/

example (k : Key) := (p1 (empty ()) _ (reads ['d'] ['a', 'd']) (key := ['d', 'a']) (by decide) da).imp fun u h =>
  c62_packet haar (some "symmetric") (-2) (by decide) rfl _ (empty ()) exX u _ 2 (Or.inl rfl) _ [] _ (reads ['d'] ['a', 'd']) no_reads
    (reads ['a'] ['d']) _ h k
example (sep : Bool) (k : Key) := (p2 sep (empty ()) _ (reads ['d'] ['a', 'd']) (key := ['h', 'v']) (by decide) hv).imp fun u h =>
  c62_packet2 haar (some "symmetric") [-2, -1] sep (by decide) rfl _ (empty ()) exP u _ 2 (Or.inl rfl) _ [] _ (reads ['d'] ['a', 'd']) no_reads
    (reads ['a'] ['d']) _ h k
example := ex_wavedec.imp fun cs h => c62_packet_is_wavedec haar (some "symmetric") (-2) (by decide) rfl (empty ()) exX (some 3) 3 (Or.inl rfl) _
  (reads ['d'] ['a', 'd']) 2 (by decide) cs h

theorem coeffs_head {c : Coeffs ℚ} {t : Tensor ℚ} (h : c.items[0]? = some (.tensor t)) : ∃ ds, c = ⟨c.isList, .tensor t :: ds⟩ := by
  obtain ⟨il, items⟩ := c
  cases items with
  | nil => simp at h
  | cons e es => simp only [List.getElem?_cons_zero, Option.some.injEq] at h; exact ⟨es, by rw [h]⟩

/-- One level of a batch of images along the last and the first axis. -/
theorem img1 (L : Nat) : ∃ a ds, wavedec2 exI lattice (some "zero") (some (L : Int)) (.seq [2, -3]) = .ok ⟨false, .tensor a :: ds⟩ := by
  obtain ⟨c, hc⟩ := (c16_wavedec2_succeeds_iff exI lattice (some "zero") .zero (some (L : Int)) (.seq [2, -3]) (Or.inl rfl) (by decide) rfl).mpr
    ⟨exI_axes, Or.inr rfl, fun s _ k _ => by show 4 ≤ 4 + k + k % 2; omega⟩
  obtain ⟨-, -, m, -, -, hdwt⟩ := wavedec2_ok (by decide) rfl hc
  obtain ⟨t, ht, -⟩ := hdwt.approx
  obtain ⟨ds, hd⟩ := coeffs_head ht
  rw [hd, hdwt.kind] at hc
  exact ⟨t, ds, hc⟩

theorem fimg1 (L : Nat) : ∃ a ds, fswavedec2 exI lattice (some "zero") (some (L : Int)) (.seq [2, -3]) = .ok ⟨false, .tensor a :: ds⟩ := by
  obtain ⟨a, ds, h0⟩ := img1 L
  exact ⟨a, _, (c19_fswavedec2 exI lattice (some "zero") (some (L : Int)) (.seq [2, -3]) (by decide) rfl (by simp) _).mpr ⟨_, h0, rfl⟩⟩

theorem vol1 (L : Nat) (hL : 0 < L) :
    ∃ a ds, wavedec3 exV lattice (some "zero") (some (L : Int)) (.seq [1, -1, 0]) = .ok ⟨false, .tensor a :: ds⟩ := by
  obtain ⟨-, h2⟩ := wavedec3_char (mode := some "zero") (x := exV) (w := lattice) (level := some (L : Int)) (h := .seq [1, -1, 0])
    (by decide) rfl
  obtain ⟨c, hc, -⟩ := (h2 exV_axes (by decide) (by simpa [levelsN] using hL)).1 .zero (Or.inl rfl) (fun s _ k _ => by
    show 4 ≤ 4 + k + k % 2
    omega)
  obtain ⟨-, -, m, -, -, hdwt⟩ := wavedec3_ok (by decide) rfl (by simpa [levelsN] using hL) hc
  obtain ⟨t, ht, -⟩ := hdwt.approx
  obtain ⟨ds, hd⟩ := coeffs_head ht
  rw [hd, hdwt.kind] at hc
  exact ⟨t, ds, hc⟩

theorem fvol1 (L : Nat) (hL : 0 < L) :
    ∃ a ds, fswavedec3 exV lattice (some "zero") (some (L : Int)) (.seq [1, -1, 0]) = .ok ⟨false, .tensor a :: ds⟩ := by
  obtain ⟨a, ds, h0⟩ := vol1 L hL
  obtain ⟨c, hc⟩ := (c19_fswavedec3 exV lattice (some "zero") (some (L : Int)) (.seq [1, -1, 0]) (by decide) rfl (by simp [levelsN]; omega)).1.mp
    ⟨_, h0⟩
  obtain ⟨-, -, -, m, -, -, hdwt⟩ := fswavedecn_ok (n := 3) (by omega) (by decide) rfl hc
  obtain ⟨t, ht, -⟩ := hdwt.approx
  obtain ⟨ds, hd⟩ := coeffs_head ht
  rw [hd, hdwt.kind] at hc
  exact ⟨t, ds, hc⟩

example (c : Coeffs ℚ) := (img1 1).imp fun a h => h.imp fun ds h => c62_wavedec2 exI a lattice (some "zero") 1 2 _ _ ds (by decide) rfl h c
example (c : Coeffs ℚ) := (vol1 1 (by decide)).imp fun a h => h.imp fun ds h => c62_wavedec3 exV a lattice (some "zero") 1 2 _ _ ds (by decide) rfl
  (by decide) (by decide) h c
example (c : Coeffs ℚ) := (fimg1 1).imp fun a h => h.imp fun ds h => c62_fswavedec2 exI a lattice (some "zero") 1 2 _ _ ds (by decide) rfl h c
example (c : Coeffs ℚ) := (fvol1 1 (by decide)).imp fun a h => h.imp fun ds h => c62_fswavedec3 exV a lattice (some "zero") 1 2 _ _ ds (by decide) rfl
  h c
example := (img1 1).imp fun a h => h.imp fun ds h => (img1 3).imp fun a' h' => h'.imp fun ds' h' =>
  c62_intermediate2 exI a lattice 4 (some "zero") 1 2 _ _ ds _ (pr_of_orth lattice_orth) (by decide) rfl h h'
example := (vol1 1 (by decide)).imp fun a h => h.imp fun ds h => (vol1 3 (by decide)).imp fun a' h' => h'.imp fun ds' h' =>
  c62_intermediate3 exV a lattice 4 (some "zero") 1 2 _ _ ds _ (pr_of_orth lattice_orth) (by decide) rfl (by decide) (by decide) h h'
example := (img1 2).imp fun a h => h.imp fun ds h => c62_packet2_is_wavedec2 lattice (some "zero") [2, -3] true (by decide) rfl (empty ()) exI
  (some 3) 3 (Or.inl rfl) _ (reads ['d'] ['a', 'd']) 2 (by decide) (by decide) false a ds h
example := pair1.imp fun a h => h.imp fun d h => ex_wavedec.imp fun cs h' =>
  c62_intermediate exX a haar 2 (some "symmetric") 1 1 (.int (-2)) [d] cs haar_pr (by decide) rfl h h'
/-- A mode that does not exist is refused on every level. -/
example := c62_wavedec_fails exX haar (some "foo") 1 2 (.int (-2)) (by decide) rfl exX_axes (Or.inr rfl) .valueError
  (c04_unknown_mode exX haar (some "foo") (some 1) (.int (-2)) (by
    rintro m (h | ⟨h, -⟩)
    · cases m <;> simp [Mode.name] at h
    · cases h) (by decide) rfl exX_axes (Or.inr rfl) (by decide))

/-! ### C30 -/

/-- Two objects with the same leaves and different inner nodes. -/
def obj {T : Type} (leaf old : Key → T) : Pkt Unit T := ⟨fun k => if k.length = 1 then some (leaf k) else some (old k), some 1, ()⟩

example : ∃ lo hi v, wavedec exX haar (some "symmetric") (some 1) (.int (-2)) = .ok [lo, hi] ∧
    (∃ s, P1.step (obj (fun k => if k = ['a'] then lo else hi) fun _ => exX) .reconstruct = (.done, s) ∧ s.data [] = some v) ∧
    ∃ s, P1.step (obj (fun k => if k = ['a'] then lo else hi) fun _ => bump exX) .reconstruct = (.done, s) ∧ s.data [] = some v := by
  obtain ⟨lo, hi, h⟩ := pair1
  obtain ⟨z, ez, -⟩ := c01_perfect_reconstruction exX haar 2 _ _ _ _ haar_pr (by decide) rfl h
  obtain ⟨m, -, hd⟩ := c02_wavedec_textbook exX haar _ _ _ _ (by decide) rfl h
  have hr : lo.rank = 2 := by
    show lo.shape.length = 2
    rw [(hd.approx lo rfl).shape, List.length_set]; rfl
  refine ⟨lo, hi, z, h, c30_only_leaves haar (some "symmetric") (-2) (by decide) rfl (obj (fun k => if k = ['a'] then lo else hi) fun _ => exX)
    (obj (fun k => if k = ['a'] then lo else hi) fun _ => bump exX) 1 rfl rfl (fun k => if k = ['a'] then lo else hi) (fun _ => exX) (fun _ => bump exX)
    (fun k hk _ => by simp [obj, hk]) (fun k hk _ => by simp [obj, Nat.ne_of_lt hk]) (fun _ _ _ _ => rfl) z ?_⟩
  simp only [rebuild, List.mapM_cons, List.mapM_nil, packetSyn1, bind, Except.bind, pure, Except.pure, List.nil_append, if_true]
  rw [sizeAt_ok (by rw [hr]; exact ⟨by decide, by decide⟩), if_neg (by decide)]
  simp only [ez]
example := c30_missing_leaf P1 (packet1_complete haar (some "symmetric") (-2)) st1 1 rfl ['a', 'd'] rfl (by decide) rfl

def four {T : Type} (a h v d : T) (k : Key) : T := if k = ['a'] then a else if k = ['h'] then h else if k = ['v'] then v else d

example : ∃ a h v d z, wavedec2 exI lattice (some "zero") (some 1) (.seq [2, -3]) = .ok ⟨false, [.tensor a, .tuple h v d]⟩ ∧
    (∃ s, (packet2 lattice (some "zero") [2, -3] false).step (obj (four a h v d) fun _ => exI) .reconstruct = (.done, s) ∧ s.data [] = some z) ∧
    ∃ s, (packet2 lattice (some "zero") [2, -3] false).step (obj (four a h v d) fun _ => bump exI) .reconstruct = (.done, s) ∧
      s.data [] = some z := by
  obtain ⟨a, ds, h1⟩ := img1 1
  obtain ⟨-, -, m, -, -, hdwt⟩ := wavedec2_ok (by decide) rfl h1
  obtain ⟨e, he, hvd⟩ := hdwt.detail 0 (by decide)
  obtain ⟨h, v, d, rfl, -⟩ := hvd
  have hds : ds = [.tuple h v d] := by
    have hl : ds.length = 1 := by simpa [levelsN] using hdwt.length
    match ds, hl with
    | [e], _ =>
      have he : some e = some (.tuple h v d) := he
      rw [Option.some.inj he]
  subst hds
  obtain ⟨t, ht, hap⟩ := hdwt.approx
  cases ht
  have hr : a.rank = 3 := by
    show a.shape.length = 3
    rw [hap.shape, setMany_length]; rfl
  obtain ⟨z, ez, -⟩ := c15_perfect_reconstruction exI lattice 4 _ _ _ _ (pr_of_orth lattice_orth) (by decide) rfl h1
  refine ⟨a, h, v, d, z, h1, c30_2d_only_leaves lattice (some "zero") [2, -3] false (by decide) rfl (obj (four a h v d) fun _ => exI)
    (obj (four a h v d) fun _ => bump exI) 1 rfl rfl (four a h v d) (fun _ => exI) (fun _ => bump exI)
    (fun k hk _ => by simp [obj, hk]) (fun k hk _ => by simp [obj, Nat.ne_of_lt hk]) (fun _ _ _ _ => rfl) z ?_⟩
  simp only [rebuild, List.mapM_cons, List.mapM_nil, packetSyn2, bind, Except.bind, pure, Except.pure, List.nil_append, if_true, four]
  simp only [List.cons.injEq, and_true, if_true, show ('h' : Char) ≠ 'a' by decide, show ('v' : Char) ≠ 'a' by decide,
    show ('v' : Char) ≠ 'h' by decide, show ('d' : Char) ≠ 'a' by decide, show ('d' : Char) ≠ 'h' by decide, show ('d' : Char) ≠ 'v' by decide,
    if_false, planeSizes_ok (by rw [hr]; exact exI_axes : GoodAxes (.seq [2, -3]) a.rank 2), ez, Bool.false_eq_true]

/-! ### C71 -/

theorem looks {T : Type} (k : Key) : ∀ op ∈ [DictOp.base (.read k), .contains k, (.pop ['a'] none : DictOp T)], LooksUp op := by
  intro op hop
  simp only [List.mem_cons, List.not_mem_nil, or_false] at hop
  rcases hop with rfl | rfl | rfl <;> trivial

theorem no_drop {T : Type} (k : Key) : ∀ op ∈ [DictOp.base (.read k), .contains k, (.pop ['a'] none : DictOp T)], ¬ DropsRoot op := by
  intro op hop
  simp only [List.mem_cons, List.not_mem_nil, or_false] at hop
  rcases hop with rfl | rfl | rfl <;> simp [DropsRoot]

/-- Reading a node of depth two from the fresh object. -/
theorem read1 : ∃ v st', P1.dictStep st1 (.base (.read ['d', 'a'])) = (.base (.value v), st') := by
  obtain ⟨v, h⟩ := p1 (empty ()) [] no_reads (key := ['d', 'a']) (by decide) da
  have : (P1.step st1 (.read ['d', 'a'])).1 = .value v := by simpa [Backend.run, st1] using h
  exact ⟨v, (P1.step st1 (.read ['d', 'a'])).2, by rw [dictStep, this]⟩

example := c71_del_absent P1 st1 ['d'] rfl
example := c71_del_present P1 st1 [] rfl
example (q : Key) := c71_lazy P1 (empty ()) exX (some 2) [['d', 'a']] (by
  obtain ⟨v, st', h⟩ := read1
  intro o ho
  refine ⟨v, ?_⟩
  have h : P1.dictStep (P1.dictStep (empty ()) (.base (.transform exX (some 2)))).2 (.base (.read ['d', 'a'])) = (.base (.value v), st') := h
  simpa [Backend.dictRun, h] using ho) q
example := c71_orphan P1 (P1.dictStep st1 (.del [])).2 2 rfl ['a'] (by decide) (fun p hp => by
  rcases p with _ | ⟨a, _ | ⟨b, p⟩⟩
  · rfl
  · obtain ⟨t, ht⟩ := hp
    rfl
  · obtain ⟨t, ht⟩ := hp
    simp at ht)
example (t : Tensor ℚ) := read1.imp fun v h => h.imp fun st' h => c71_setdefault_readable P1 st1 st' ['d', 'a'] t v h
example (t : Tensor ℚ) := c71_setdefault_beyond P1 st1 2 rfl ['a', 'a', 'a'] (by decide) rfl t
example (st : Pkt Unit (Tensor ℚ)) (sep : Bool) (d : Option (Tensor ℚ)) := c71_2d_lookups haar (some "symmetric") [-2, -1] sep (by decide) rfl
  (empty ()) st exP (some 2) 2 (Or.inl rfl) _ (looks ['h', 'v']) (no_drop ['h', 'v']) ['d', 'h'] d
/-- The value exists (see `p2`), so the hypothesis of `c71_never_wrong` holds. -/
example (st : Pkt Unit (Tensor ℚ)) : ∃ v, (P1.run st [.transform exX (some 2), .read ['d', 'a']]).1.getLast? = some (.value v) := by
  obtain ⟨v, h⟩ := p1 (empty ()) [] no_reads (key := ['d', 'a']) (by decide) da
  obtain ⟨o, h1, h2, -⟩ := c71_lookups haar (some "symmetric") (-2) (by decide) rfl (empty ()) (empty ()) exX (some 2) 2 (Or.inl rfl) _
    (looks ['d', 'a']) (no_drop ['d', 'a']) ['d', 'a'] none
  have h : (P1.run (empty ()) [.transform exX (some 2), .read ['d', 'a']]).1.getLast? = some (.value v) := h
  rw [h] at h1
  cases h1
  exact ⟨v, c71_never_wrong haar (some "symmetric") (-2) (by decide) rfl (empty ()) st exX (some 2) 2 (Or.inl rfl) _ (looks ['d', 'a']) ['d', 'a'] v h2⟩
example (sep : Bool) (st : Pkt Unit (Tensor ℚ)) : ∃ v, ((P2 sep).run st [.transform exP (some 2), .read ['h', 'v']]).1.getLast? = some (.value v) := by
  obtain ⟨v, h⟩ := p2 sep (empty ()) [] no_reads (key := ['h', 'v']) (by decide) hv
  obtain ⟨o, h1, h2, -⟩ := c71_2d_lookups haar (some "symmetric") [-2, -1] sep (by decide) rfl (empty ()) (empty ()) exP (some 2) 2 (Or.inl rfl) _
    (looks ['h', 'v']) (no_drop ['h', 'v']) ['h', 'v'] none
  have h : ((P2 sep).run (empty ()) [.transform exP (some 2), .read ['h', 'v']]).1.getLast? = some (.value v) := h
  rw [h] at h1
  cases h1
  exact ⟨v, c71_2d_never_wrong haar (some "symmetric") [-2, -1] sep (by decide) rfl (empty ()) st exP (some 2) 2 (Or.inl rfl) _ (looks ['h', 'v'])
    ['h', 'v'] v h2⟩

theorem before_md {md : Meta} {x : Tensor ℚ} (hx : x.md = md) : ∀ op ∈ [Op.transform x (some 1), .read ['a']], OpMd md op := by
  intro op hop
  simp only [List.mem_cons, List.not_mem_nil, or_false] at hop
  rcases hop with rfl | rfl
  · exact hx
  · trivial

example (la : LinAlg ℚ) (d : Option (Tensor ℚ)) := c71_boundary_lookups la haar "qr" (-2) (by decide) ⟨.float64, 0⟩ _ (before_md (x := exI) rfl) exX rfl
  (some 2) 2 (Or.inl rfl) _ (looks ['d', 'a']) (no_drop ['d', 'a']) ['a', 'a'] d
example (la : LinAlg ℚ) (sep : Bool) (d : Option (Tensor ℚ)) := c71_2d_boundary_lookups la haar "qr" [-2, -1] sep (by decide) ⟨.float64, 0⟩ _
  (before_md (x := exI) rfl) exP rfl (some 2) 2 (Or.inl rfl) _ (looks ['h', 'v']) (no_drop ['h', 'v']) ['d', 'h'] d
example (sep : Bool) := c71_2d_round_trip haar (some "symmetric") [-2, -1] sep 2 haar_pr (by decide) rfl .symmetric (Or.inl rfl) (empty ()) exP (some 2) 1
  (Or.inl rfl) exP_good (Or.inr rfl) (exP_admit _) _ (looks ['h', 'v']) (no_drop ['h', 'v']) (getNaturalOrder2 2) (mem_allKeys2 2) [['a'], ['d']] (by
    intro k hk
    simp only [List.mem_cons, List.not_mem_nil, or_false] at hk
    rcases hk with rfl | rfl <;> simp)

end Verif.Witness
