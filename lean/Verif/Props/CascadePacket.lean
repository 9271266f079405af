/-
C62 for wavelet packets: a subtree is the packet tree of its root, and the nodes along the approximations are the
coefficients of the discrete wavelet transform.
-/
import Verif.Props.Cascade
import Verif.Props.PacketMat
import Verif.Props.PacketMat2

namespace Verif
open Tensor Spec

/-- Reading below a node is reading from the node. -/
theorem readResult_nested {T : Type} {dec : T → Except Err (List T)} {al : List Char} {L : Int} {x u : T} {key : Key}
    (h : readResult dec al L x key = .ok u) (k : Key) :
    readResult dec al L x (key ++ k) = readResult dec al (L - key.length) u k := by
  by_cases h0 : key = []
  · subst h0
    cases h
    simp [readResult]
  by_cases h1 : k = []
  · subst h1
    rw [List.append_nil, h]
    simp [readResult]
  unfold readResult at h ⊢
  rw [if_neg h0] at h
  split_ifs at h with h2 h3
  rw [if_neg (by simp [h0]), if_neg h1]
  have e : (L < ((key ++ k).length : Int)) ↔ (L - key.length < (k.length : Int)) := by
    rw [List.length_append]; push_cast; constructor <;> intro h <;> omega
  simp only [e]
  split_ifs with h4 h5 h6 h6
  · rfl
  · rw [walk_append, h]; rfl
  · exact absurd (fun c hc => h5 c (List.mem_append_right _ hc)) h6
  · exact absurd (fun c hc => (List.mem_append.mp hc).elim (h3 c) (h6 c)) h5
  · rfl

end Verif

namespace Verif.Props
open Tensor Spec
variable {R : Type}

/-- Reading below a node of a used object is reading from an object that was given the node. -/
theorem nested_read {C T : Type} {B : Backend C T} {Inv : C → Prop} {Dom : T → Prop} {dec : T → Except Err (List T)}
    {syn : List T → Except Err T} (hP : B.Pure Inv Dom dec syn) {st st' : Pkt C T} (hi : Inv st.cache) (hi' : Inv st'.cache)
    {x u : T} (hx : Dom x) {ml : Option Int} {L : Int} (hL : ml = some L ∨ ml = none ∧ B.defaultLevel x = .ok L)
    {ops ops' ops'' : List (Backend.Op T)} (ho : ∀ op ∈ ops, IsRead op) (ho' : ∀ op ∈ ops', IsRead op)
    (ho'' : ∀ op ∈ ops'', IsRead op) {key : Key}
    (hu : (B.run st (.transform x ml :: ops ++ [.read key])).1.getLast? = some (.value u)) (k : Key) :
    (B.run st (.transform x ml :: ops' ++ [.read (key ++ k)])).1.getLast?
      = (B.run st' (.transform u (some (L - key.length)) :: ops'' ++ [.read k])).1.getLast? := by
  have hg := run_transform_good hP hi hx hL ops ho
  rw [last_outcome, read_after hP hg] at hu
  have hr : readResult dec B.alphabet L x key = .ok u := by
    cases e : readResult dec B.alphabet L x key with
    | error _ => rw [e] at hu; simp [outOf] at hu
    | ok v => rw [e] at hu; simp only [outOf, Option.some.injEq, Backend.Out.value.injEq] at hu; rw [hu]
  have hdu : Dom u := by
    unfold readResult at hr
    split_ifs at hr
    · cases hr; exact hx
    · exact walk_dom hP key hx hr
  have hg' := run_transform_good hP hi hx hL ops' ho'
  have hg'' := run_transform_good hP hi' hdu (ml := some (L - key.length)) (L := L - key.length) (Or.inl rfl) ops'' ho''
  rw [last_outcome, last_outcome, read_after hP hg', read_after hP hg'', readResult_nested hr]

/-- **C62**, packets.  If the node `key` of a packet object holds `u`, then every further read below it, `key + k`, has the
outcome (value or exception) of reading `k` from an object that was given `u` with the remaining number of levels. -/
theorem c62_packet [NonUnitalNonAssocSemiring R] (w : Wavelet R) (mode : Option String) (axis : Int) (hF : 2 ≤ w.len)
    (hhi : w.decHi.length = w.len) (st st' : Pkt Unit (Tensor R)) (x u : Tensor R) (ml : Option Int) (L : Int)
    (hL : PacketLevel w axis x ml L) (ops ops' ops'' : List (Backend.Op (Tensor R))) (ho : ∀ op ∈ ops, IsRead op)
    (ho' : ∀ op ∈ ops', IsRead op) (ho'' : ∀ op ∈ ops'', IsRead op) (key : Key)
    (hu : ((packet1 w mode axis).run st (.transform x ml :: ops ++ [.read key])).1.getLast? = some (.value u)) (k : Key) :
    ((packet1 w mode axis).run st (.transform x ml :: ops' ++ [.read (key ++ k)])).1.getLast?
      = ((packet1 w mode axis).run st' (.transform u (some (L - key.length)) :: ops'' ++ [.read k])).1.getLast? :=
  nested_read (packet1_pure hF hhi) trivial trivial trivial (packetLevel1_eq hF hL) ho ho' ho'' hu k

/-- **C62**, packets of images. -/
theorem c62_packet2 [Semiring R] (w : Wavelet R) (mode : Option String) (axes : List Int) (sep : Bool) (hF : 2 ≤ w.len)
    (hhi : w.decHi.length = w.len) (st st' : Pkt Unit (Tensor R)) (x u : Tensor R) (ml : Option Int) (L : Int)
    (hL : PacketLevel2 w axes x ml L) (ops ops' ops'' : List (Backend.Op (Tensor R))) (ho : ∀ op ∈ ops, IsRead op)
    (ho' : ∀ op ∈ ops', IsRead op) (ho'' : ∀ op ∈ ops'', IsRead op) (key : Key)
    (hu : ((packet2 w mode axes sep).run st (.transform x ml :: ops ++ [.read key])).1.getLast? = some (.value u)) (k : Key) :
    ((packet2 w mode axes sep).run st (.transform x ml :: ops' ++ [.read (key ++ k)])).1.getLast?
      = ((packet2 w mode axes sep).run st' (.transform u (some (L - key.length)) :: ops'' ++ [.read k])).1.getLast? :=
  nested_read (packet2_pure hF hhi) trivial trivial trivial (packetLevel2_eq hF hL) ho ho' ho'' hu k

/-- **C62**, packets with boundary filters; both objects may have been used before (with tensors of this dtype and
device). -/
theorem c62_packet_boundary [Field R] [DecidableEq R] (la : LinAlg R) (w : Wavelet R) (orth : String) (axis : Int)
    (hF : 2 ≤ w.len) (md : Meta) (before before' : List (Backend.Op (Tensor R))) (hb : ∀ op ∈ before, OpMd md op)
    (hb' : ∀ op ∈ before', OpMd md op) (x u : Tensor R) (hx : x.md = md) (ml : Option Int) (L : Int)
    (hL : PacketLevel w axis x ml L) (ops ops' ops'' : List (Backend.Op (Tensor R))) (ho : ∀ op ∈ ops, IsRead op)
    (ho' : ∀ op ∈ ops', IsRead op) (ho'' : ∀ op ∈ ops'', IsRead op) (key : Key)
    (hu : ((packetMat1 la w orth axis).run ((packetMat1 la w orth axis).run (Backend.empty MatCache1.empty) before).2
      (.transform x ml :: ops ++ [.read key])).1.getLast? = some (.value u)) (k : Key) :
    ((packetMat1 la w orth axis).run ((packetMat1 la w orth axis).run (Backend.empty MatCache1.empty) before).2
        (.transform x ml :: ops' ++ [.read (key ++ k)])).1.getLast?
      = ((packetMat1 la w orth axis).run ((packetMat1 la w orth axis).run (Backend.empty MatCache1.empty) before').2
        (.transform u (some (L - key.length)) :: ops'' ++ [.read k])).1.getLast? :=
  nested_read (packetMat1_pure (md := md)) (used_inv md before hb) (used_inv md before' hb') hx (packetMatLevel_eq hF hL)
    ho ho' ho'' hu k

/-- **C62**, packets of images with boundary filters. -/
theorem c62_packet2_boundary [Field R] [DecidableEq R] (la : LinAlg R) (w : Wavelet R) (orth : String) (axes : List Int)
    (sep : Bool) (hF : 2 ≤ w.len) (md : Meta) (before before' : List (Backend.Op (Tensor R)))
    (hb : ∀ op ∈ before, OpMd md op) (hb' : ∀ op ∈ before', OpMd md op) (x u : Tensor R) (hx : x.md = md)
    (ml : Option Int) (L : Int) (hL : PacketLevel2 w axes x ml L) (ops ops' ops'' : List (Backend.Op (Tensor R)))
    (ho : ∀ op ∈ ops, IsRead op) (ho' : ∀ op ∈ ops', IsRead op) (ho'' : ∀ op ∈ ops'', IsRead op) (key : Key)
    (hu : ((packetMat2 la w orth axes sep).run
      ((packetMat2 la w orth axes sep).run (Backend.empty MatCache2.empty) before).2
      (.transform x ml :: ops ++ [.read key])).1.getLast? = some (.value u)) (k : Key) :
    ((packetMat2 la w orth axes sep).run
        ((packetMat2 la w orth axes sep).run (Backend.empty MatCache2.empty) before).2
        (.transform x ml :: ops' ++ [.read (key ++ k)])).1.getLast?
      = ((packetMat2 la w orth axes sep).run
        ((packetMat2 la w orth axes sep).run (Backend.empty MatCache2.empty) before').2
        (.transform u (some (L - key.length)) :: ops'' ++ [.read k])).1.getLast? :=
  nested_read (packetMat2_pure (md := md)) (used_inv2 md before hb) (used_inv2 md before' hb') hx
    (packetMatLevel2_eq hF hL) ho ho' ho'' hu k

/-! ### Packets contain the transform -/

theorem packetLine_low [NonUnitalNonAssocSemiring R] (m : Mode) (w : Wavelet R) : ∀ (s n : Nat) (v : Nat → R),
    packetLine m w n v (List.replicate s 'a') = cA m w n v s
  | 0, _, _ => rfl
  | s + 1, n, v => by
    rw [List.replicate_succ, packetLine, if_pos rfl, packetLine_low m w s, cA_shift]

theorem packetLine_low_high [NonUnitalNonAssocSemiring R] (m : Mode) (w : Wavelet R) : ∀ (s n : Nat) (v : Nat → R),
    packetLine m w n v (List.replicate s 'a' ++ ['d']) = cD m w n v s
  | 0, _, _ => by
    rw [List.replicate_zero, List.nil_append, packetLine, if_neg (by decide)]
    rfl
  | s + 1, n, v => by
    rw [List.replicate_succ, List.cons_append, packetLine, if_pos rfl, packetLine_low_high m w s]
    unfold cD
    rw [cA_shift, levelLen_shift]

theorem packetPlane_low [NonUnitalNonAssocSemiring R] (m : Mode) (w : Wavelet R) (sep : Bool) :
    ∀ (s : Nat) (ns : List Nat) (X : List Nat → R), ns.length = 2 →
    packetPlane (bandN m w) (nextLens w.len) (packetBand sep) ns X (List.replicate s 'a') = cAN m w ns X s
  | 0, _, _, _ => rfl
  | s + 1, ns, X, h => by
    have hb : packetBand sep 'a' = lowBand ns.length := by rw [h]; cases sep <;> rfl
    rw [List.replicate_succ, packetPlane, hb, packetPlane_low m w sep s _ _ (by simpa [nextLens] using h)]
    exact cAN_shift m w ns X s

theorem packetPlane_low_high [NonUnitalNonAssocSemiring R] (m : Mode) (w : Wavelet R) (sep : Bool) (c : Char) :
    ∀ (s : Nat) (ns : List Nat) (X : List Nat → R), ns.length = 2 →
    packetPlane (bandN m w) (nextLens w.len) (packetBand sep) ns X (List.replicate s 'a' ++ [c])
      = cDN m w ns X s (packetBand sep c)
  | 0, ns, X, _ => by
    rw [List.replicate_zero, List.nil_append, packetPlane]
    show bandN m w _ ns X = bandN m w _ (levelLens w.len ns 0) X
    rw [levelLens_zero]
  | s + 1, ns, X, h => by
    have hb : packetBand sep 'a' = lowBand ns.length := by rw [h]; cases sep <;> rfl
    rw [List.replicate_succ, List.cons_append, packetPlane, hb,
      packetPlane_low_high m w sep c s _ _ (by simpa [nextLens] using h)]
    exact cDN_shift m w ns X s _

/-- **C62**, packets.  A packet object with at least `L` levels contains the coefficients of `wavedec` with `L` levels, no
matter what was read before: `"aa…a"` is the approximation, `"a…ad"` with `s` letters `a` the details of level
`s + 1`. -/
theorem c62_packet_is_wavedec [NonUnitalNonAssocSemiring R] (w : Wavelet R) (mode : Option String) (axis : Int)
    (hF : 2 ≤ w.len) (hhi : w.decHi.length = w.len) (st : Pkt Unit (Tensor R)) (x : Tensor R) (ml : Option Int) (N : Int)
    (hN : PacketLevel w axis x ml N) (ops : List (Backend.Op (Tensor R))) (ho : ∀ op ∈ ops, IsRead op)
    (L : Nat) (hL : (L : Int) ≤ N) (cs : List (Tensor R))
    (hc : wavedec x w mode (some (L : Int)) (.int axis) = .ok cs) :
    (∀ t, cs[0]? = some t → ((packet1 w mode axis).run st
      (.transform x ml :: ops ++ [.read (List.replicate L 'a')])).1.getLast? = some (.value t)) ∧
    ∀ s t, s < L → cs[L - s]? = some t → ((packet1 w mode axis).run st
      (.transform x ml :: ops ++ [.read (List.replicate s 'a' ++ ['d'])])).1.getLast? = some (.value t) := by
  have key := wavedec_char (mode := mode) (x := x) (level := some (L : Int)) (h := .int axis) hF hhi
  dsimp only at key
  simp only [levels, Int.toNat_natCast] at key
  by_cases hgd : GoodAxes (.int axis) x.rank 1 ∧ isDtypeSupported x.md.dtype = true
  swap
  · obtain ⟨e, he⟩ := key.1 hgd
    rw [he] at hc; cases hc
  obtain ⟨hg, hd⟩ := hgd
  have hdt : x.md.dtype = .float32 ∨ x.md.dtype = .float64 := by
    unfold isDtypeSupported at hd; simpa using hd
  have hax : ValidAxis x.rank axis := hg.valid.valid axis (by simp [resolve])
  have e1 : axis1 (.int axis) x.rank = axisOf x.rank axis := rfl
  rw [e1] at key
  have huni : ∀ {K : Nat} {f : (Nat → R) → Nat → R} {t t' : Tensor R}, AlongAxis (axisOf x.rank axis) K f x t →
      AlongAxis (axisOf x.rank axis) K f x t' → t = t' := by
    intro K f t t' h h'
    have hs : t.shape = t'.shape := h.shape.trans h'.shape.symm
    exact Tensor.ext' (h.md.trans h'.md.symm) hs fun idx hidx => by
      rw [h.get idx hidx, h'.get idx (by rw [← hs]; exact hidx)]
  obtain ⟨k1, k2, k3, k4⟩ := key.2 hg hd
  by_cases h0 : L = 0
  · subst h0
    refine ⟨fun t ht => ?_, fun s t hs => by omega⟩
    obtain ⟨cs', e, h⟩ := k1 rfl .zero
    rw [e] at hc; cases hc
    have hP := packet1_pure (w := w) (mode := mode) (axis := axis) hF hhi
    have hgs := run_transform_good hP (st := st) trivial (x := x) trivial (packetLevel1_eq hF hN) ops ho
    rw [last_outcome, read_after hP hgs]
    have hx : AlongAxis (axisOf x.rank axis) (x.shape.getD (axisOf x.rank axis) 0) (fun v => v) x x := by
      refine ⟨rfl, (set_getD_self (axisOf_lt hax)).symm, fun idx hidx => ?_⟩
      show _ = x.get (idx.set _ _)
      rw [set_getD_self (by rw [hidx.length_eq]; exact axisOf_lt hax)]
    have := huni hx (h.approx t ht)
    rw [← this]
    rfl
  · have hm : ∃ m, Selects mode m := by
      by_contra hm
      push Not at hm
      rw [k4 (by omega) hm] at hc; cases hc
    obtain ⟨m, hm⟩ := hm
    have hA : ∀ s, s < L → m.Admits w.len (levelLen w.len (x.shape.getD (axisOf x.rank axis) 0) s) := by
      by_contra hA
      push Not at hA
      rw [k3 m hm hA] at hc; cases hc
    obtain ⟨cs', e, h⟩ := k2 m hm hA
    rw [e] at hc; cases hc
    refine ⟨fun t ht => ?_, fun s t hs ht => ?_⟩
    · obtain ⟨v, hv⟩ := c25_readable w mode axis m hm hF hhi st x ml N hN hax hdt ops ho (List.replicate L 'a')
        (by simpa using hL) (by intro c hc; exact Or.inl (List.eq_of_mem_replicate hc))
        (by simpa using hA)
      rw [hv]
      rcases c25_value w mode axis m hm hF hhi st x ml N hN ops ho _ v hv with ⟨hk, -⟩ | ⟨-, -, -, hval⟩
      · exact absurd (by simpa using hk) h0
      · simp only [List.length_replicate, packetLine_low] at hval
        rw [huni hval (h.approx t ht)]
    · obtain ⟨v, hv⟩ := c25_readable w mode axis m hm hF hhi st x ml N hN hax hdt ops ho
        (List.replicate s 'a' ++ ['d']) (by simp; omega)
        (by
          intro c hc
          rcases List.mem_append.mp hc with hc | hc
          · exact Or.inl (List.eq_of_mem_replicate hc)
          · exact Or.inr (by simpa using hc))
        (by intro r hr; exact hA r (by simp at hr; omega))
      rw [hv]
      rcases c25_value w mode axis m hm hF hhi st x ml N hN ops ho _ v hv with ⟨hk, -⟩ | ⟨-, -, -, hval⟩
      · simp at hk
      · simp only [List.length_append, List.length_replicate, packetLine_low_high] at hval
        rw [huni hval (h.detail s t hs ht)]

/-- **C62**, packets of images.  A packet object with at least `L ≥ 1` levels contains the coefficients of `wavedec2`:
`"aa…a"` is the approximation, and `"a…ah"`, `"a…av"`, `"a…ad"` are the detail tensors — with `separable=True` the letters
`h` and `v` are exchanged. -/
theorem c62_packet2_is_wavedec2 [Semiring R] (w : Wavelet R) (mode : Option String) (axes : List Int) (sep : Bool)
    (hF : 2 ≤ w.len) (hhi : w.decHi.length = w.len) (st : Pkt Unit (Tensor R)) (x : Tensor R) (ml : Option Int) (N : Int)
    (hN : PacketLevel2 w axes x ml N) (ops : List (Backend.Op (Tensor R))) (ho : ∀ op ∈ ops, IsRead op)
    (L : Nat) (h0 : 0 < L) (hL : (L : Int) ≤ N) (il : Bool) (a : Tensor R) (ds : List (Entry R))
    (hc : wavedec2 x w mode (some (L : Int)) (.seq axes) = .ok ⟨il, .tensor a :: ds⟩) :
    ((packet2 w mode axes sep).run st
      (.transform x ml :: ops ++ [.read (List.replicate L 'a')])).1.getLast? = some (.value a) ∧
    ∀ s h v d, s < L → ds[L - 1 - s]? = some (.tuple h v d) →
      ∀ c t, (c, t) ∈ [(if sep then 'v' else 'h', h), (if sep then 'h' else 'v', v), ('d', d)] →
        ((packet2 w mode axes sep).run st
          (.transform x ml :: ops ++ [.read (List.replicate s 'a' ++ [c])])).1.getLast? = some (.value t) := by
  obtain ⟨hg, hd, m, hm, hA, h⟩ := (decChar2 x w mode L (.seq axes) hF hhi).good _ hc
  have hm : Selects mode m := hm.elim id fun h => by omega
  have hdt : x.md.dtype = .float32 ∨ x.md.dtype = .float64 := by
    unfold isDtypeSupported at hd; simpa using hd
  have huni : ∀ {Ks : List Nat} {f : (List Nat → R) → List Nat → R} {z z' : Tensor R},
      AlongAxes (planeAxes axes x.rank) Ks f x z → AlongAxes (planeAxes axes x.rank) Ks f x z' → z = z' := by
    intro K f t t' h h'
    have hs : t.shape = t'.shape := h.shape.trans h'.shape.symm
    exact Tensor.ext' (h.md.trans h'.md.symm) hs fun idx hidx => by
      rw [h.get idx hidx, h'.get idx (by rw [← hs]; exact hidx)]
  have hl2 : (sizes (planeAxes axes x.rank) x.shape).length = 2 := by simp [sizes, axesOf, hg.len]
  constructor
  · obtain ⟨t, e1, ht⟩ := h.approx
    obtain rfl : a = t := by simpa using e1
    obtain ⟨v, hv⟩ := c25_2d_readable w mode axes sep m hm hF hhi st x ml N hN hg hdt ops ho (List.replicate L 'a')
      (by simpa using hL) (by intro c hc; exact Or.inl (List.eq_of_mem_replicate hc)) (by simpa using hA)
    rw [hv]
    rcases c25_2d_value w mode axes sep m hm hF hhi st x hdt ml N hN ops ho _ v hv with ⟨hk, -⟩ | ⟨-, -, -, hval⟩
    · exact absurd (by simpa using hk) (by omega : ¬ L = 0)
    · simp only [List.length_replicate, packetPlane_low m w sep _ _ _ hl2] at hval
      rw [huni hval ht]
  · intro s hh hv' dd hs hds c t hct
    obtain ⟨e, e1, hD⟩ := h.detail s hs
    simp only at e1
    rw [show L - s = (L - 1 - s) + 1 by omega, List.getElem?_cons_succ, hds] at e1
    obtain rfl := Option.some.inj e1
    obtain ⟨p, q, r, e2, hp, hq, hr⟩ := hD
    obtain ⟨rfl, rfl, rfl⟩ : hh = p ∧ hv' = q ∧ dd = r := by simpa using e2
    have hcm : c = 'a' ∨ c = 'h' ∨ c = 'v' ∨ c = 'd' := by
      simp only [List.mem_cons, Prod.mk.injEq, List.not_mem_nil, or_false] at hct
      rcases hct with ⟨rfl, -⟩ | ⟨rfl, -⟩ | ⟨rfl, -⟩ <;> cases sep <;> simp
    obtain ⟨v, hv⟩ := c25_2d_readable w mode axes sep m hm hF hhi st x ml N hN hg hdt ops ho
      (List.replicate s 'a' ++ [c]) (by simp; omega)
      (by
        intro c' hc'
        rcases List.mem_append.mp hc' with hc' | hc'
        · exact Or.inl (List.eq_of_mem_replicate hc')
        · rw [List.mem_singleton] at hc'; rw [hc']; exact hcm)
      (by intro r hr; exact hA r (by simp at hr; omega))
    rw [hv]
    rcases c25_2d_value w mode axes sep m hm hF hhi st x hdt ml N hN ops ho _ v hv with ⟨hk, -⟩ | ⟨-, -, -, hval⟩
    · simp at hk
    · simp only [List.length_append, List.length_replicate, packetPlane_low_high m w sep c _ _ _ hl2] at hval
      have : IsBand m w (planeAxes axes x.rank) x s (packetBand sep c) t := by
        simp only [List.mem_cons, Prod.mk.injEq, List.not_mem_nil, or_false] at hct
        rcases hct with ⟨rfl, rfl⟩ | ⟨rfl, rfl⟩ | ⟨rfl, rfl⟩ <;> cases sep <;> assumption
      rw [huni hval this]

end Verif.Props
