import Verif.Lemmas.SepRec

/-! The separable synthesis computes the textbook synthesis along every axis. -/

namespace Verif
open Tensor Spec
variable {R : Type}

/-! ### Keys -/

/-- The key naming a band. -/
def keyOf (bs : List Bool) : String := String.ofList (bs.map fun b => if b then 'd' else 'a')

theorem bandOfKey_keyOf (bs : List Bool) : bandOfKey (keyOf bs) = bs := by
  unfold bandOfKey keyOf
  rw [String.toList_ofList, List.map_map]
  conv_rhs => rw [← List.map_id bs]
  apply List.map_congr_left
  intro b _
  cases b <;> decide

theorem keyOf_inj {bs bs' : List Bool} (h : keyOf bs = keyOf bs') : bs = bs' := by
  rw [← bandOfKey_keyOf bs, h, bandOfKey_keyOf]

theorem keyOf_length (bs : List Bool) : (keyOf bs).length = bs.length := by
  unfold keyOf; rw [String.length_ofList, List.length_map]

theorem keyTail_keyOf (b : Bool) (bs : List Bool) : keyTail (keyOf (b :: bs)) = keyOf bs := by
  unfold keyTail keyOf
  rw [String.toList_ofList]; rfl

theorem d_append_keyOf (bs : List Bool) : "d" ++ keyOf bs = keyOf (true :: bs) := by
  apply String.toList_injective
  unfold keyOf
  simp only [String.toList_append, String.toList_ofList]
  rfl

theorem a_append_keyOf (bs : List Bool) : "a" ++ keyOf bs = keyOf (false :: bs) := by
  apply String.toList_injective
  unfold keyOf
  simp only [String.toList_append, String.toList_ofList]
  rfl

theorem keyOf_ne_empty (b : Bool) (bs : List Bool) : keyOf (b :: bs) ≠ "" := by
  intro h
  have := congrArg String.length h
  rw [keyOf_length] at this
  exact absurd this (by simp)

theorem keyOf_nil : keyOf [] = "" := by
  apply String.toList_injective
  unfold keyOf
  rw [String.toList_ofList]; rfl

theorem keyOf_head (b : Bool) (bs : List Bool) : (keyOf (b :: bs)).toList.head? = some 'a' ↔ b = false := by
  unfold keyOf
  rw [String.toList_ofList]
  cases b <;> simp

theorem keyOf_low (n : Nat) : keyOf (lowBand n) = aKey n := by
  unfold keyOf lowBand aKey
  rw [List.map_replicate]; rfl

/-! ### Sums -/

theorem synthesis_comm [CommSemiring R] (f₀ f₁ : List R) (K K' : Nat) (c : Bool → Bool → Nat → Nat → R) (m m' : ℤ) :
    synthesis f₀ f₁ K
      (fun k => synthesis f₀ f₁ K' (fun k' => c false false k k') (fun k' => c false true k k') m')
      (fun k => synthesis f₀ f₁ K' (fun k' => c true false k k') (fun k' => c true true k k') m') m
    = synthesis f₀ f₁ K'
      (fun k' => synthesis f₀ f₁ K (fun k => c false false k k') (fun k => c true false k k') m)
      (fun k' => synthesis f₀ f₁ K (fun k => c false true k k') (fun k => c true true k k') m) m' := by
  unfold synthesis
  simp only [Finset.mul_sum, ← Finset.sum_add_distrib]
  rw [Finset.sum_comm]
  refine Finset.sum_congr rfl fun k _ => Finset.sum_congr rfl fun k' _ => ?_
  ring

/-- Synthesis along the last axis can be done last. -/
theorem synN_snoc [CommSemiring R] (f₀ f₁ : List R) (K : Nat) (m : ℤ) :
    ∀ (Ks : List Nat) (c : List Bool → List Nat → R) (ms : List ℤ), ms.length = Ks.length →
      synN f₀ f₁ (Ks ++ [K]) c (ms ++ [m])
      = synthesis f₀ f₁ K (fun k => synN f₀ f₁ Ks (fun bs ks => c (bs ++ [false]) (ks ++ [k])) ms)
          (fun k => synN f₀ f₁ Ks (fun bs ks => c (bs ++ [true]) (ks ++ [k])) ms) m
  | [], c, [], _ => rfl
  | K' :: Ks, c, m' :: ms, h => by
    simp only [List.cons_append, synN]
    have h' : ms.length = Ks.length := by simpa using h
    simp only [synN_snoc f₀ f₁ K m Ks _ ms h']
    exact synthesis_comm f₀ f₁ K' K (fun b b' k' k => synN f₀ f₁ Ks
      (fun bs ks => c (b :: (bs ++ [b'])) (k' :: (ks ++ [k]))) ms) m' m

/-! ### One axis -/

/-- `t` contains the values `X` on the box `B × Ks`; it may be larger. -/
structure CoversN [Zero R] (t : Tensor R) (md : Meta) (B : Nat) (Ks : List Nat) (X : Nat → List Nat → R) :
    Prop where
  md : t.md = md
  rank : t.rank = Ks.length + 1
  le : ∀ i, i < Ks.length + 1 → (B :: Ks).getD i 0 ≤ t.shape.getD i 0
  get : ∀ b ks, b < B → InB Ks ks → t.get (b :: ks) = X b ks

theorem ShowsN.covers [Zero R] {t : Tensor R} {md : Meta} {B : Nat} {Ks : List Nat} {X : Nat → List Nat → R}
    (h : ShowsN t md B Ks X) : CoversN t md B Ks X :=
  ⟨h.md, h.rank, fun i _ => by rw [h.shape], h.get⟩

theorem set_middle (l r : List Nat) (x v : Nat) : (l ++ x :: r).set l.length v = l ++ v :: r := by simp

theorem getD_middle (l r : List Nat) (x : Nat) : (l ++ x :: r).getD l.length 0 = x := by
  simp

theorem sepRec1_showsN [NonUnitalNonAssocSemiring R] {w : Wavelet R} {F : Nat} {md : Meta} {B K : Nat}
    {Ns Ks : List Nat} {a d : Tensor R} {X Y : Nat → List Nat → R}
    (hF : 2 ≤ F) (h0 : w.recLo.length = F) (h1 : w.recHi.length = F) (hdt : isDtypeSupported md.dtype = true)
    (hK : 1 ≤ K) (ha : CoversN a md B (Ns ++ K :: Ks) X) (hd : ShowsN d md B (Ns ++ K :: Ks) Y) :
    ∃ z, sepRec1 w (Ks.length + 1) a d = .ok z ∧ ShowsN z md B (Ns ++ (2 * K + 2 - F) :: Ks)
      (fun b ks => synthesis w.recLo w.recHi K (fun k => X b (ks.set Ns.length k))
        (fun k => Y b (ks.set Ns.length k)) ((ks.getD Ns.length 0 + (F - 2) : ℕ) : ℤ)) := by
  have hdr : d.rank = Ns.length + Ks.length + 2 := by rw [hd.rank]; simp; omega
  have hp : d.rank - (Ks.length + 1) = Ns.length + 1 := by omega
  have hKe : d.shape.getD (Ns.length + 1) 0 = K := by
    rw [hd.shape]
    show (Ns ++ K :: Ks).getD Ns.length 0 = K
    exact getD_middle _ _ _
  obtain ⟨z, ez, zm, zs, zg⟩ := sepRec1_ok (w := w) (k := Ks.length + 1) hF h0 h1 hdt ha.md hd.md
    (by rw [ha.rank, hd.rank])
    (by
      intro i hi
      rw [hd.shape]
      rw [hd.rank] at hi
      exact ha.le i hi)
    (by omega) (by omega) (by rw [hp, hKe]; exact hK)
  rw [hp, hKe] at zs zg
  rw [hd.shape] at zs
  have zs' : z.shape = B :: (Ns ++ (2 * K + 2 - F) :: Ks) := by
    rw [zs, List.set_cons_succ, set_middle]
  refine ⟨z, ez, zm, zs', ?_⟩
  intro b ks hb hk
  rw [zg (b :: ks) (by rw [zs']; exact ⟨hb, hk⟩)]
  have hin : ∀ k, k < K → InB (Ns ++ K :: Ks) (ks.set Ns.length k) := by
    intro k hk'
    have : (Ns ++ (2 * K + 2 - F) :: Ks) = (Ns ++ K :: Ks).set Ns.length (2 * K + 2 - F) := by
      rw [set_middle]
    rw [this] at hk
    rw [inB_set_iff (by simp) hk, getD_middle]
    exact hk'
  refine synthesis_congr ?_ ?_
  · intro k hk'
    exact ha.get b _ hb (hin k hk')
  · intro k hk'
    exact hd.get b _ hb (hin k hk')

/-! ### All axes -/

/-- The dictionary names every band of `n` axes, and nothing else, and the bands satisfy `P`. -/
structure DictOk [Zero R] (n : Nat) (P : List Bool → Tensor R → Prop) (kv : List (String × Tensor R)) : Prop where
  key : ∀ q ∈ kv, q.1 = keyOf (bandOfKey q.1)
  len : ∀ q ∈ kv, (bandOfKey q.1).length = n
  val : ∀ q ∈ kv, P (bandOfKey q.1) q.2
  all : ∀ bs : List Bool, bs.length = n → keyOf bs ∈ kv.map Prod.fst

theorem DictOk.get [Zero R] {n : Nat} {P : List Bool → Tensor R → Prop} {kv : List (String × Tensor R)}
    (h : DictOk n P kv) {bs : List Bool} (hb : bs.length = n) : ∃ t, dictGet kv (keyOf bs) = .ok t ∧ P bs t := by
  unfold dictGet
  cases hf : kv.find? fun p => p.1 = keyOf bs with
  | none =>
    exfalso
    rw [List.find?_eq_none] at hf
    obtain ⟨q, hq, he⟩ := List.mem_map.mp (h.all bs hb)
    exact hf q hq (by simp [he])
  | some p =>
    have h1 := List.mem_of_find?_eq_some hf
    have h2 := List.find?_some hf
    simp only [decide_eq_true_eq] at h2
    have h3 := h.val p h1
    rw [h2, bandOfKey_keyOf] at h3
    exact ⟨p.2, rfl, h3⟩

theorem DictOk.aKeys [Zero R] {n : Nat} {P : List Bool → Tensor R → Prop} {kv : List (String × Tensor R)}
    (h : DictOk (n + 1) P kv) : ∃ ks : List String, Verif.aKeys kv = .ok ks ∧
      (∀ k ∈ ks, ∃ bs : List Bool, bs.length = n ∧ k = keyOf (false :: bs)) ∧
      (∀ bs : List Bool, bs.length = n → keyOf (false :: bs) ∈ ks) := by
  have hcons : ∀ q ∈ kv, ∃ b bs, bandOfKey q.1 = b :: bs ∧ bs.length = n := by
    intro q hq
    have := h.len q hq
    match hb : bandOfKey q.1, this with
    | b :: bs, hl => exact ⟨b, bs, rfl, by simpa using hl⟩
  refine ⟨(kv.map Prod.fst).filter fun k => k.toList.head? = some 'a', ?_, ?_, ?_⟩
  · unfold Verif.aKeys
    rw [if_neg]
    intro hany
    rw [List.any_eq_true] at hany
    obtain ⟨q, hq, he⟩ := hany
    simp only [decide_eq_true_eq] at he
    obtain ⟨b, bs, hb, -⟩ := hcons q hq
    have := h.key q hq
    rw [hb, he] at this
    exact keyOf_ne_empty b bs this.symm
  · intro k hk
    rw [List.mem_filter] at hk
    obtain ⟨hk1, hk2⟩ := hk
    obtain ⟨q, hq, rfl⟩ := List.mem_map.mp hk1
    obtain ⟨b, bs, hb, hl⟩ := hcons q hq
    have he := h.key q hq
    rw [hb] at he
    simp only [decide_eq_true_eq] at hk2
    rw [he, keyOf_head] at hk2
    subst hk2
    exact ⟨bs, hl, he⟩
  · intro bs hl
    rw [List.mem_filter]
    refine ⟨h.all _ (by simp [hl]), ?_⟩
    simp only [decide_eq_true_eq]
    exact (keyOf_head false bs).mpr rfl

section
variable [CommSemiring R] {w : Wavelet R} {F : Nat} {md : Meta} {B : Nat}

/-- The state of the synthesis: the axes with coefficient sizes `Ks₁` are synthesised, those with sizes
`Ks₂` are not. -/
def part (w : Wavelet R) (F : Nat) (c : Nat → List Bool → List Nat → R) (Ks₁ : List Nat) (bs : List Bool)
    (b : Nat) (ks : List Nat) : R :=
  synN w.recLo w.recHi Ks₁ (fun bs' ks' => c b (bs' ++ bs) (ks' ++ ks.drop Ks₁.length))
    ((ks.take Ks₁.length).map fun k => ((k + (F - 2) : ℕ) : ℤ))

theorem part_step (c : Nat → List Bool → List Nat → R) (Ks₁ : List Nat) (K : Nat) (bs : List Bool) (b : Nat)
    (ks : List Nat) (hl : Ks₁.length < ks.length) :
    synthesis w.recLo w.recHi K (fun k => part w F c Ks₁ (false :: bs) b (ks.set Ks₁.length k))
      (fun k => part w F c Ks₁ (true :: bs) b (ks.set Ks₁.length k))
      ((ks.getD Ks₁.length 0 + (F - 2) : ℕ) : ℤ)
    = part w F c (Ks₁ ++ [K]) bs b ks := by
  obtain ⟨l, x, r, rfl, hll⟩ : ∃ l x r, ks = l ++ x :: r ∧ l.length = Ks₁.length :=
    ⟨ks.take Ks₁.length, ks[Ks₁.length], ks.drop (Ks₁.length + 1), by simp, by simp; omega⟩
  rw [← hll, getD_middle]
  simp only [set_middle]
  unfold part
  simp only [← hll, List.length_append, List.length_singleton, List.drop_left, List.take_left]
  have e1 : (l ++ x :: r).take (l.length + 1) = l ++ [x] := by
    rw [show l ++ x :: r = (l ++ [x]) ++ r by simp, show l.length + 1 = (l ++ [x]).length by simp, List.take_left]
  have e2 : (l ++ x :: r).drop (l.length + 1) = r := by
    rw [show l ++ x :: r = (l ++ [x]) ++ r by simp, show l.length + 1 = (l ++ [x]).length by simp, List.drop_left]
  rw [e1, e2, List.map_append, List.map_cons, List.map_nil, synN_snoc _ _ _ _ _ _ _ (by simpa using hll)]
  simp only [List.append_assoc, List.singleton_append, List.cons_append, List.nil_append]

/-- The bands in the state of the synthesis: only the purely low-pass band may be too large. -/
def PartOk (w : Wavelet R) (F : Nat) (md : Meta) (B : Nat) (c : Nat → List Bool → List Nat → R)
    (Ks₁ Ks₂ : List Nat) (bs : List Bool) (t : Tensor R) : Prop :=
  CoversN t md B ((Ks₁.map fun K => 2 * K + 2 - F) ++ Ks₂) (part w F c Ks₁ bs) ∧
    (true ∈ bs → ShowsN t md B ((Ks₁.map fun K => 2 * K + 2 - F) ++ Ks₂) (part w F c Ks₁ bs))

theorem inB_len_lt {l r : List Nat} {x : Nat} {ks : List Nat} (h : InB (l ++ x :: r) ks) : l.length < ks.length := by
  rw [h.length_eq]; simp

/-- One pair of bands. -/
theorem pair_ok (hF : 2 ≤ F) (h0 : w.recLo.length = F) (h1 : w.recHi.length = F)
    (hdt : isDtypeSupported md.dtype = true) {c : Nat → List Bool → List Nat → R} {Ks₁ Ks₂ : List Nat} {K : Nat}
    (hK : 1 ≤ K) {bs : List Bool} {a d : Tensor R} (ha : PartOk w F md B c Ks₁ (K :: Ks₂) (false :: bs) a)
    (hd : PartOk w F md B c Ks₁ (K :: Ks₂) (true :: bs) d) :
    ∃ z, sepRec1 w (Ks₂.length + 1) a d = .ok z ∧
      ShowsN z md B (((Ks₁ ++ [K]).map fun K => 2 * K + 2 - F) ++ Ks₂) (part w F c (Ks₁ ++ [K]) bs) := by
  obtain ⟨z, ez, hz⟩ := sepRec1_showsN hF h0 h1 hdt hK ha.1 (hd.2 (by simp))
  refine ⟨z, ez, ?_⟩
  rw [List.map_append, List.map_cons, List.map_nil, List.append_assoc, List.singleton_append]
  refine hz.congr ?_
  intro b ks _ hk
  have hl : Ks₁.length < ks.length := by simpa using inB_len_lt hk
  rw [List.length_map]
  exact part_step c Ks₁ K bs b ks hl

/-- The loop over the keys starting with `a`, if more than one letter is left. -/
theorem idwtnLoop_ok (hF : 2 ≤ F) (h0 : w.recLo.length = F) (h1 : w.recHi.length = F)
    (hdt : isDtypeSupported md.dtype = true) {c : Nat → List Bool → List Nat → R} {Ks₁ Ks₂ : List Nat} {K : Nat}
    (hK : 1 ≤ K) {kv : List (String × Tensor R)}
    (hkv : DictOk (Ks₂.length + 1) (PartOk w F md B c Ks₁ (K :: Ks₂)) kv) (h2 : 1 ≤ Ks₂.length) :
    ∀ (ks : List String), (∀ k ∈ ks, ∃ bs : List Bool, bs.length = Ks₂.length ∧ k = keyOf (false :: bs)) →
      ∀ done, ∃ new, idwtnLoop w kv ks done = .ok (.inr (done ++ new)) ∧ new.map Prod.fst = ks.map keyTail ∧
        ∀ q ∈ new, ShowsN q.2 md B (((Ks₁ ++ [K]).map fun K => 2 * K + 2 - F) ++ Ks₂)
          (part w F c (Ks₁ ++ [K]) (bandOfKey q.1))
  | [], _, done => ⟨[], by simp [idwtnLoop], rfl, by simp⟩
  | k :: ks, hk, done => by
    obtain ⟨bs, hbl, rfl⟩ := hk k (by simp)
    obtain ⟨a, ea, ha⟩ := hkv.get (bs := false :: bs) (by simp [hbl])
    obtain ⟨d, ed, hd⟩ := hkv.get (bs := true :: bs) (by simp [hbl])
    obtain ⟨z, ez, hz⟩ := pair_ok hF h0 h1 hdt hK ha hd
    obtain ⟨new, en, hn1, hn2⟩ := idwtnLoop_ok hF h0 h1 hdt hK hkv h2 ks (fun k hk' => hk k (by simp [hk']))
      (done ++ [(keyOf bs, z)])
    refine ⟨(keyOf bs, z) :: new, ?_, ?_, ?_⟩
    · unfold idwtnLoop
      have hne : keyOf bs ≠ "" := by
        match bs, hbl with
        | b :: bs, _ => exact keyOf_ne_empty b bs
        | [], hbl => simp at hbl; omega
      have hlen : (keyOf (false :: bs)).length = Ks₂.length + 1 := by rw [keyOf_length]; simp [hbl]
      rw [keyTail_keyOf, d_append_keyOf]
      simp only [bind, Except.bind, ea, ed, hlen, ez]
      rw [if_neg hne, en]
      simp
    · simp only [List.map_cons, hn1, keyTail_keyOf]
    · intro q hq
      rcases List.mem_cons.mp hq with rfl | hq
      · dsimp only
        rw [bandOfKey_keyOf]
        exact hz
      · exact hn2 q hq

/-- The separable synthesis from any state on. -/
theorem sepIdwtn_ok (hF : 2 ≤ F) (h0 : w.recLo.length = F) (h1 : w.recHi.length = F)
    (hdt : isDtypeSupported md.dtype = true) {c : Nat → List Bool → List Nat → R} :
    ∀ (Ks₂ Ks₁ : List Nat) (kv : List (String × Tensor R)), 1 ≤ Ks₂.length → (∀ K ∈ Ks₂, 1 ≤ K) →
      DictOk Ks₂.length (PartOk w F md B c Ks₁ Ks₂) kv →
      ∃ z, sepIdwtn w Ks₂.length kv = .ok z ∧
        ShowsN z md B ((Ks₁ ++ Ks₂).map fun K => 2 * K + 2 - F)
          (fun b => synFrom w.recLo w.recHi F (Ks₁ ++ Ks₂) (c b))
  | [], _, _, h, _, _ => absurd h (by simp)
  | [K], Ks₁, kv, _, hK, hkv => by
    obtain ⟨ks, ek, hk1, hk2⟩ := DictOk.aKeys (n := 0) hkv
    obtain ⟨a, ea, ha⟩ := hkv.get (bs := [false]) rfl
    obtain ⟨d, ed, hd⟩ := hkv.get (bs := [true]) rfl
    obtain ⟨z, ez, hz⟩ := pair_ok (Ks₂ := []) hF h0 h1 hdt (hK K (by simp)) ha hd
    refine ⟨z, ?_, ?_⟩
    · have hne := hk2 [] rfl
      match ks, hne with
      | k :: ks, _ =>
        obtain ⟨bs, hbl, rfl⟩ := hk1 k (by simp)
        have : bs = [] := List.length_eq_zero_iff.mp hbl
        subst this
        have hlen : (keyOf [false]).length = 0 + 1 := by rw [keyOf_length]; rfl
        show sepIdwtn w (0 + 1) kv = _
        unfold sepIdwtn idwtnLoop
        simp only [bind, Except.bind, ek, keyTail_keyOf, d_append_keyOf, ea, ed, hlen]
        rw [show sepRec1 w (0 + 1) a d = .ok z from ez]
        simp only [keyOf_nil, if_true]
        rfl
    · rw [List.append_nil] at hz
      refine hz.congr ?_
      intro b ks _ hk
      unfold part synFrom
      have hl : ks.length = (Ks₁ ++ [K]).length := by rw [hk.length_eq, List.length_map]
      rw [← hl, List.take_length, List.drop_length]
      simp
  | K :: K' :: Ks₂, Ks₁, kv, _, hK, hkv => by
    obtain ⟨ks, ek, hk1, hk2⟩ := DictOk.aKeys hkv
    obtain ⟨new, en, hn1, hn2⟩ := idwtnLoop_ok (Ks₂ := K' :: Ks₂) hF h0 h1 hdt (hK K (by simp)) hkv (by simp) ks hk1 []
    rw [List.nil_append] at en
    obtain ⟨z, ez, hz⟩ := sepIdwtn_ok hF h0 h1 hdt (K' :: Ks₂) (Ks₁ ++ [K]) new (by simp)
      (fun k hk => hK k (by simp [List.mem_cons.mp hk])) (c := c) (by
        have hmem : ∀ q ∈ new, ∃ bs : List Bool, bs.length = (K' :: Ks₂).length ∧ q.1 = keyOf bs := by
          intro q hq
          have : q.1 ∈ ks.map keyTail := by rw [← hn1]; exact List.mem_map.mpr ⟨q, hq, rfl⟩
          obtain ⟨k, hk, he⟩ := List.mem_map.mp this
          obtain ⟨bs, hbl, rfl⟩ := hk1 k hk
          rw [keyTail_keyOf] at he
          exact ⟨bs, hbl, he.symm⟩
        refine ⟨?_, ?_, ?_, ?_⟩
        · intro q hq
          obtain ⟨bs, -, he⟩ := hmem q hq
          rw [he, bandOfKey_keyOf]
        · intro q hq
          obtain ⟨bs, hbl, he⟩ := hmem q hq
          rw [he, bandOfKey_keyOf, hbl]
        · intro q hq
          exact ⟨(hn2 q hq).covers, fun _ => hn2 q hq⟩
        · intro bs hbl
          rw [hn1]
          exact List.mem_map.mpr ⟨_, hk2 bs hbl, keyTail_keyOf _ _⟩)
    refine ⟨z, ?_, ?_⟩
    · show sepIdwtn w ((K' :: Ks₂).length + 1) kv = _
      unfold sepIdwtn
      simp only [bind, Except.bind, ek, en]
      exact ez
    · simpa using hz

end
end Verif
