import Verif.Lemmas.PadNd
import Verif.Model.Conv3
import Verif.Lemmas.Top1

/-! Tensor level of the multidimensional convolution transforms. -/

namespace Verif
open Tensor Spec
variable {R : Type}

/-- `y : [B, Ks…]` shows the functions `X b`. -/
structure ShowsN [Zero R] (y : Tensor R) (md : Meta) (B : Nat) (Ks : List Nat) (X : Nat → List Nat → R) :
    Prop where
  md : y.md = md
  shape : y.shape = B :: Ks
  get : ∀ b ks, b < B → InB Ks ks → y.get (b :: ks) = X b ks

/-- The same with a channel axis. -/
structure ShowsChN [Zero R] (y : Tensor R) (md : Meta) (B : Nat) (Ks : List Nat) (X : Nat → List Nat → R) :
    Prop where
  md : y.md = md
  shape : y.shape = B :: 1 :: Ks
  get : ∀ b ks, b < B → InB Ks ks → y.get (b :: 0 :: ks) = X b ks

section basic
variable [Zero R]

theorem ShowsChN.squeeze1 {y : Tensor R} {md : Meta} {B : Nat} {Ks : List Nat} {X : Nat → List Nat → R}
    (h : ShowsChN y md B Ks X) : ShowsN y.squeeze1 md B Ks X := by
  obtain ⟨h1, h2, h3⟩ := squeeze1_ok h.shape
  refine ⟨h1.trans h.md, h2, ?_⟩
  intro b k hb hk
  rw [h3 b k hb hk]; exact h.get b k hb hk

theorem ShowsN.withChannel {y : Tensor R} {md : Meta} {B : Nat} {Ks : List Nat} {X : Nat → List Nat → R}
    (h : ShowsN y md B Ks X) : ShowsChN (withChannel y) md B Ks X := by
  refine ⟨(withChannel_md y).trans h.md, withChannel_shape h.shape, ?_⟩
  intro b k hb hk
  rw [withChannel_get h.shape]; exact h.get b k hb hk

theorem ShowsN.congr {y : Tensor R} {md : Meta} {B : Nat} {Ks : List Nat} {X Y : Nat → List Nat → R}
    (h : ShowsN y md B Ks X) (hxy : ∀ b k, b < B → InB Ks k → X b k = Y b k) : ShowsN y md B Ks Y :=
  ⟨h.md, h.shape, fun b k hb hk => (h.get b k hb hk).trans (hxy b k hb hk)⟩

theorem stack0_ok {ts : List (Tensor R)} {md : Meta} {s : List Nat} (hne : ts ≠ [])
    (h : ∀ t ∈ ts, t.md = md ∧ t.shape = s) :
    ∃ t, stack0 ts = .ok t ∧ t.md = md ∧ t.shape = ts.length :: s ∧
      ∀ o u i, ts[o]? = some u → t.get (o :: i) = u.get i := by
  cases ts with
  | nil => exact absurd rfl hne
  | cons a ts =>
    have ha := h a (by simp)
    refine ⟨_, if_pos (fun u hu => ?_), ha.1, by simp [ha.2], ?_⟩
    · have := h u (by simp [hu])
      exact ⟨this.2.trans ha.2.symm, this.1.trans ha.1.symm⟩
    · intro o u i hu
      have ho := (List.getElem?_eq_some_iff.mp hu).1
      have hus := (h u (List.mem_of_getElem? hu)).2
      by_cases hi : InB s i
      · rw [ofFn_get_of _ _ (by rw [ha.2]; exact ⟨by simpa using ho, hi⟩)]
        simp only [List.headD_cons, List.tail_cons, hu]
      · rw [u.supp i (by rw [hus]; exact hi)]
        apply Tensor.supp
        intro hin
        rw [ofFn_shape, ha.2] at hin
        exact hi hin.2

theorem stack1_ok {ts : List (Tensor R)} {md : Meta} {B : Nat} {ss : List Nat} (hne : ts ≠ [])
    (h : ∀ t ∈ ts, t.md = md ∧ t.shape = B :: ss) :
    ∃ t, stack1 ts = .ok t ∧ t.md = md ∧ t.shape = B :: ts.length :: ss ∧
      ∀ b o u i, b < B → InB ss i → ts[o]? = some u → t.get (b :: o :: i) = u.get (b :: i) := by
  cases ts with
  | nil => exact absurd rfl hne
  | cons a ts =>
    have ha := h a (by simp)
    have e : stack1 (a :: ts) = if ∀ u ∈ ts, u.shape = a.shape ∧ u.md = a.md then
        .ok (ofFn a.md (B :: (ts.length + 1) :: ss) fun i =>
            match (a :: ts)[i.tail.headD 0]? with
            | some u => u.get (i.headD 0 :: i.tail.tail)
            | none => 0)
        else .error .runtimeError := by
      unfold stack1
      simp only [ha.2]
      rfl
    rw [e]
    refine ⟨_, if_pos (fun u hu => ?_), ha.1, by simp, ?_⟩
    · have := h u (by simp [hu])
      exact ⟨this.2.trans ha.2.symm, this.1.trans ha.1.symm⟩
    · intro b o u i hb hi hu
      have ho := (List.getElem?_eq_some_iff.mp hu).1
      rw [ofFn_get_of _ _ (by exact ⟨hb, by simpa using ho, hi⟩)]
      simp only [List.headD_cons, List.tail_cons, hu]

theorem split1_ok {t : Tensor R} {B C : Nat} {ss : List Nat} (hs : t.shape = B :: C :: ss) :
    (split1 t).length = C ∧ ∀ o u, (split1 t)[o]? = some u → u.md = t.md ∧ u.shape = B :: 1 :: ss ∧
      ∀ b k, b < B → InB ss k → u.get (b :: 0 :: k) = t.get (b :: o :: k) := by
  unfold split1
  rw [hs]
  refine ⟨by simp, ?_⟩
  intro o u hu
  simp only [List.getElem?_map, Option.map_eq_some_iff] at hu
  obtain ⟨j, hj, rfl⟩ := hu
  have hjo := (List.getElem?_eq_some_iff.mp hj)
  obtain ⟨h1, h2⟩ := hjo
  rw [List.getElem_range] at h2
  subst h2
  refine ⟨rfl, rfl, ?_⟩
  intro b k hb hk
  rw [ofFn_get_of _ _ (by exact ⟨hb, Nat.one_pos, hk⟩)]
  rfl

end basic

/-! ### Filters -/

/-- The product of one factor per axis. -/
def filtProd [Semiring R] (g : Bool → Nat → R) : List Bool → List Nat → R
  | b :: bs, j :: js => g b j * filtProd g bs js
  | _, _ => 1

/-- A stack of product filters, one per band. -/
structure IsFilt [Semiring R] (t : Tensor R) (md : Meta) (n F : Nat) (bands : List (List Bool))
    (g : Bool → Nat → R) : Prop where
  md : t.md = md
  shape : t.shape = bands.length :: 1 :: List.replicate n F
  get : ∀ o bs js, bands[o]? = some bs → InB (List.replicate n F) js →
    t.get (o :: 0 :: js) = filtProd g bs js

/-- The bands in the order of `_construct_2d_filt`. -/
def bands2 : List (List Bool) := [[false, false], [true, false], [false, true], [true, true]]

/-- The bands in the order of `_construct_3d_filt`. -/
def bands3' : List (List Bool) := [[false, false, false], [false, false, true], [false, true, false],
  [false, true, true], [true, false, false], [true, false, true], [true, true, false], [true, true, true]]

theorem outer_get [Mul R] [Zero R] {a b : Tensor R} {ia ib : List Nat} (ha : InB a.shape ia)
    (hb : InB b.shape ib) :
    (outer a b).get [ravel a.shape ia, ravel b.shape ib] = a.get ia * b.get ib := by
  unfold outer
  rw [ofFn_get_of _ _ (by exact ⟨ravel_lt ha, ravel_lt hb, trivial⟩)]
  simp only [List.getD_cons_zero, List.getD_cons_succ, unravel_ravel ha, unravel_ravel hb]

/-- The tap used at position `j` of a (possibly flipped) filter of length `F`. -/
def tapAt [Zero R] (lo hi : List R) (flip : Bool) (F : Nat) (b : Bool) (j : Nat) : R :=
  (if b then hi else lo).getD (if flip then F - 1 - j else j) 0

theorem createTensor_tap [Zero R] {lo hi : List R} {F : Nat} (h1 : lo.length = F) (h2 : hi.length = F)
    (flip : Bool) (md : Meta) (b : Bool) {j : Nat} (hj : j < F) :
    (createTensor (if b then hi else lo) flip md).get [0, j] = tapAt lo hi flip F b j := by
  have hl : (if b then hi else lo).length = F := by cases b <;> assumption
  rw [createTensor_get (by omega)]
  unfold tapAt
  rw [hl]

section filt
variable [Semiring R] {lo hi : List R} {F : Nat}

theorem outer2_get (h1 : lo.length = F) (h2 : hi.length = F) (flip : Bool) (md : Meta) (a b : Bool)
    {i j : Nat} (hi' : i < F) (hj : j < F) :
    (outer (createTensor (if a then hi else lo) flip md) (createTensor (if b then hi else lo) flip md)).get
      [i, j] = tapAt lo hi flip F a i * tapAt lo hi flip F b j := by
  have hla : (if a then hi else lo).length = F := by cases a <;> assumption
  have hlb : (if b then hi else lo).length = F := by cases b <;> assumption
  have := outer_get (a := createTensor (if a then hi else lo) flip md)
    (b := createTensor (if b then hi else lo) flip md) (ia := [0, i]) (ib := [0, j])
    (by simp [createTensor, hla, hi']) (by simp [createTensor, hlb, hj])
  rw [createTensor_tap h1 h2 flip md a hi', createTensor_tap h1 h2 flip md b hj] at this
  rw [← this]
  simp [createTensor, ravel]

theorem outer2_shape (h1 : lo.length = F) (h2 : hi.length = F) (flip : Bool) (md : Meta) (a b : Bool) :
    (outer (createTensor (if a then hi else lo) flip md)
      (createTensor (if b then hi else lo) flip md)).shape = [F, F] := by
  have hla : (if a then hi else lo).length = F := by cases a <;> assumption
  have hlb : (if b then hi else lo).length = F := by cases b <;> assumption
  simp [outer, createTensor, hla, hlb]

theorem construct2d_ok (h1 : lo.length = F) (h2 : hi.length = F) (flip : Bool) (md : Meta) :
    ∃ t, construct2dFilt (createTensor lo flip md) (createTensor hi flip md) = .ok t ∧
      IsFilt t md 2 F bands2 (tapAt lo hi flip F) := by
  have key : ∀ (bs : List Bool) {a b : Bool}, bs = [a, b] → ∀ js, InB [F, F] js →
      (outer (createTensor (if a then hi else lo) flip md)
        (createTensor (if b then hi else lo) flip md)).get js = filtProd (tapAt lo hi flip F) bs js := by
    rintro _ a b rfl js hjs
    match js, hjs with
    | [i, j], ⟨hi', hj, _⟩ => rw [outer2_get h1 h2 flip md a b hi' hj]; simp [filtProd]
  have e : construct2dFilt (createTensor lo flip md) (createTensor hi flip md)
      = unsqueezeFilt (stack0 (bands2.map fun bs =>
          outer (createTensor (if bs.getD 0 false then hi else lo) flip md)
            (createTensor (if bs.getD 1 false then hi else lo) flip md))) := rfl
  obtain ⟨t, et, t1, t2, t3⟩ := stack0_ok (ts := bands2.map fun bs =>
      outer (createTensor (if bs.getD 0 false then hi else lo) flip md)
            (createTensor (if bs.getD 1 false then hi else lo) flip md)) (md := md) (s := [F, F])
    (by simp [bands2]) (by
      intro t ht
      simp only [List.mem_map] at ht
      obtain ⟨bs, -, rfl⟩ := ht
      exact ⟨rfl, outer2_shape h1 h2 flip md _ _⟩)
  refine ⟨withChannel t, ?_, (withChannel_md t).trans t1, ?_, ?_⟩
  · rw [e, et]
    show t.unsqueeze1 = _
    exact unsqueeze1_ok t2
  · rw [withChannel_shape t2]; rfl
  · intro o bs js ho hjs
    rw [withChannel_get t2, t3 o _ js (by rw [List.getElem?_map, ho]; rfl)]
    refine key bs ?_ js hjs
    have hm := List.mem_of_getElem? ho
    simp only [bands2, List.mem_cons, List.not_mem_nil, or_false] at hm
    rcases hm with rfl | rfl | rfl | rfl <;> rfl

theorem outer3_ok (h1 : lo.length = F) (h2 : hi.length = F) (flip : Bool) (md : Meta) (a b c : Bool) :
    ∃ t, (outer (createTensor (if a then hi else lo) flip md)
        (outer (createTensor (if b then hi else lo) flip md)
          (createTensor (if c then hi else lo) flip md))).reshape [F, F, F] = .ok t ∧ t.md = md ∧
      t.shape = [F, F, F] ∧ ∀ js, InB [F, F, F] js →
        t.get js = filtProd (tapAt lo hi flip F) [a, b, c] js := by
  have hla : (if a then hi else lo).length = F := by cases a <;> assumption
  set A := createTensor (if a then hi else lo) flip md with hA
  set Bt := outer (createTensor (if b then hi else lo) flip md)
          (createTensor (if c then hi else lo) flip md) with hB
  have hAs : A.shape = [1, F] := by simp [hA, createTensor, hla]
  have hBs : Bt.shape = [F, F] := outer2_shape h1 h2 flip md b c
  have hos : (outer A Bt).shape = [F, F * F] := by simp [outer, hAs, hBs]
  obtain ⟨t, et, t1, t2, t3⟩ := reshape_ok (t := outer A Bt) (sh := [F, F, F])
    (by rw [hos]; simp)
  refine ⟨t, et, t1, t2, ?_⟩
  intro js hjs
  match js, hjs with
  | [i, j, k], ⟨hi', hj, hk, _⟩ =>
    have hin : InB [F, F] [j, k] := ⟨hj, hk, trivial⟩
    have hr := ravel_lt hin
    have := t3 [i, ravel [F, F] [j, k]] [i, j, k] (by
        rw [hos]; exact ⟨hi', by simpa using hr, trivial⟩) ⟨hi', hj, hk, trivial⟩
      (by rw [hos]; simp [ravel])
    rw [this]
    have hg := outer_get (a := A) (b := Bt) (ia := [0, i]) (ib := [j, k])
      (by rw [hAs]; exact ⟨Nat.one_pos, hi', trivial⟩) (by rw [hBs]; exact hin)
    rw [hAs, hBs, show ravel [1, F] [0, i] = i by simp [ravel]] at hg
    rw [hg, hA, createTensor_tap h1 h2 flip md a hi', hB, outer2_get h1 h2 flip md b c hj hk]
    simp [filtProd]

theorem construct3d_ok (h1 : lo.length = F) (h2 : hi.length = F) (flip : Bool) (md : Meta) :
    ∃ t, construct3dFilt (createTensor lo flip md) (createTensor hi flip md) = .ok t ∧
      IsFilt t md 3 F bands3' (tapAt lo hi flip F) := by
  have hsz : (createTensor lo flip md).sizeFromEnd 1 = F := by
    simp [Tensor.sizeFromEnd, createTensor, h1]
  have key := outer3_ok h1 h2 flip md
  choose f e f1 f2 f3 using key
  have e' : construct3dFilt (createTensor lo flip md) (createTensor hi flip md)
      = unsqueezeFilt (stack0 (bands3'.map fun bs =>
          f (bs.getD 0 false) (bs.getD 1 false) (bs.getD 2 false))) := by
    unfold construct3dFilt
    simp only [hsz]
    have e000 := e false false false
    have e001 := e false false true
    have e010 := e false true false
    have e011 := e false true true
    have e100 := e true false false
    have e101 := e true false true
    have e110 := e true true false
    have e111 := e true true true
    simp only [if_true, Bool.false_eq_true, if_false] at e000 e001 e010 e011 e100 e101 e110 e111
    simp only [bind, Except.bind, e000, e001, e010, e011, e100, e101, e110, e111]
    rfl
  obtain ⟨t, et, t1, t2, t3⟩ := stack0_ok (ts := bands3'.map fun bs =>
      f (bs.getD 0 false) (bs.getD 1 false) (bs.getD 2 false)) (md := md) (s := [F, F, F])
    (by simp [bands3']) (by
      intro t ht
      simp only [List.mem_map] at ht
      obtain ⟨bs, -, rfl⟩ := ht
      exact ⟨f1 _ _ _, f2 _ _ _⟩)
  refine ⟨withChannel t, ?_, (withChannel_md t).trans t1, ?_, ?_⟩
  · rw [e', et]
    show t.unsqueeze1 = _
    exact unsqueeze1_ok t2
  · rw [withChannel_shape t2]; rfl
  · intro o bs js ho hjs
    rw [withChannel_get t2, t3 o _ js (by rw [List.getElem?_map, ho]; rfl), f3 _ _ _ js hjs]
    congr 1
    have hm := List.mem_of_getElem? ho
    simp only [bands3', List.mem_cons, List.not_mem_nil, or_false] at hm
    rcases hm with rfl | rfl | rfl | rfl | rfl | rfl | rfl | rfl <;> rfl

end filt

/-! ### One analysis step -/

theorem dwtN_congr [NonUnitalNonAssocSemiring R] {m : Mode} {F : Nat} :
    ∀ (fs : List (List R)) (ns : List Nat), (∀ n ∈ ns, m.Admits F n) → fs.length = ns.length →
      ∀ (X Y : List Nat → R), (∀ js, InB ns js → X js = Y js) → ∀ ks, ks.length = ns.length →
        dwtN m (fs.zip ns) X ks = dwtN m (fs.zip ns) Y ks
  | [], [], _, _, X, Y, h, ks, _ => by simp only [List.zip_nil_left, dwtN]; exact h [] trivial
  | f :: fs, n :: ns, ha, hl, X, Y, h, k :: ks, hk => by
    simp only [List.zip_cons_cons, dwtN]
    refine dwtStep_congr (ha n (by simp)) (fun j hj => ?_) _ _
    exact dwtN_congr fs ns (fun n hn => ha n (by simp [hn])) (by simpa using hl) _ _
      (fun js hjs => h (j :: js) ⟨hj, hjs⟩) ks (by simpa using hk)

theorem bandN_congr [NonUnitalNonAssocSemiring R] {m : Mode} {w : Wavelet R} {ns : List Nat}
    (ha : ∀ n ∈ ns, m.Admits w.len n) {bs : List Bool} (hb : bs.length = ns.length)
    {X Y : List Nat → R} (h : ∀ js, InB ns js → X js = Y js) {ks : List Nat} (hk : ks.length = ns.length) :
    bandN m w bs ns X ks = bandN m w bs ns Y ks :=
  dwtN_congr (F := w.len) _ ns ha (by simp [bandFilt, hb]) X Y h ks hk

theorem filtRev_eq [Semiring R] (lo hi : List R) (F : Nat) : ∀ (bs : List Bool) (js : List Nat),
    filtRev F (bandFilt lo hi bs) js = filtProd (tapAt lo hi true F) bs js
  | [], _ => by simp [bandFilt, filtRev, filtProd]
  | _ :: _, [] => by simp [bandFilt, filtRev, filtProd]
  | b :: bs, j :: js => by
    have := filtRev_eq lo hi F bs js
    unfold bandFilt at this
    simp only [bandFilt, List.map_cons, filtRev, filtProd, this]
    rfl

theorem allPairs_pad {F : Nat} (hF : 2 ≤ F) : ∀ (ns : List Nat), (∀ n ∈ ns, 4 ≤ F + n + n % 2) →
    AllPairs (fun N F => 1 ≤ F ∧ F ≤ N) (ns.map (padLen F)) (List.replicate ns.length F)
  | [], _ => trivial
  | n :: ns, h => by
    refine ⟨⟨by omega, ?_⟩, allPairs_pad hF ns fun n hn => h n (by simp [hn])⟩
    have := h n (by simp)
    unfold padLen; omega

theorem zip_pad {F : Nat} (hF : 2 ≤ F) : ∀ (ns : List Nat), (∀ n ∈ ns, 4 ≤ F + n + n % 2) →
    List.zipWith (fun N F => (N - F) / 2 + 1) (ns.map (padLen F)) (List.replicate ns.length F)
      = ns.map (outLen F)
  | [], _ => rfl
  | n :: ns, h => by
    simp only [List.map_cons, List.length_cons, List.replicate_succ, List.zipWith_cons_cons,
      zip_pad hF ns fun n hn => h n (by simp [hn])]
    rw [← conv_len hF (h n (by simp))]
    rfl

theorem inB_pad {F : Nat} (hF : 2 ≤ F) : ∀ (ns ks js : List Nat), (∀ n ∈ ns, 4 ≤ F + n + n % 2) →
    InB (ns.map (outLen F)) ks → InB (List.replicate ns.length F) js →
    InB (ns.map (padLen F)) (List.zipWith (fun k j => 2 * k + j) ks js)
  | [], [], [], _, _, _ => trivial
  | n :: ns, k :: ks, j :: js, h, h1, h2 => by
    refine ⟨?_, inB_pad hF ns ks js (fun n hn => h n (by simp [hn])) h1.2 h2.2⟩
    have a1 : k < outLen F n := h1.1
    have a2 : j < F := h2.1
    have := h n (by simp)
    unfold outLen at a1
    show 2 * k + j < padLen F n
    unfold padLen
    omega

/-- One step of the analysis loops: padding and convolution with all product filters. -/
theorem analysisN_ok [Semiring R] {m : Mode} {w : Wavelet R} {t filt : Tensor R} {md : Meta} {B : Nat}
    {ns : List Nat} {X : Nat → List Nat → R} {bands : List (List Bool)} (hF : 2 ≤ w.len)
    (hhi : w.decHi.length = w.len) (hns : 1 ≤ ns.length) (hbl : ∀ bs ∈ bands, bs.length = ns.length)
    (hf : IsFilt filt md ns.length w.len bands (tapAt w.decLo w.decHi true w.len))
    (ht : ShowsChN t md B ns X) (ha : ∀ n ∈ ns, m.Admits w.len n) :
    ∃ p res, fwtPad t w (some m.name) ns.length = .ok p ∧ p.rank = ns.length + 2 ∧
      convNd p filt 2 = .ok res ∧ res.md = md ∧
      res.shape = B :: bands.length :: ns.map (outLen w.len) ∧
      ∀ b o bs ks, b < B → bands[o]? = some bs → InB (ns.map (outLen w.len)) ks →
        res.get (b :: o :: ks) = bandN m w bs ns (X b) ks := by
  have hsz : ∀ n ∈ ns, 4 ≤ w.len + n + n % 2 := fun n hn => admits_size hF (ha n hn)
  obtain ⟨p, ep, p1, p2, p3⟩ := fwtPadN_ok m hF hns ht.shape fun n hn => admits_padOk (ha n hn)
  refine ⟨p, ?_⟩
  have ec : convNd p filt 2 = .ok (ofFn p.md (B :: bands.length :: ns.map (outLen w.len)) fun i =>
      match i with
      | b :: o :: ks => ∑ c ∈ Finset.range 1, boxSum (List.replicate ns.length w.len) fun js =>
          filt.get (o :: c :: js) * p.get (b :: c :: List.zipWith (fun k j => 2 * k + j) ks js)
      | _ => 0) := by
    unfold convNd
    rw [p2, hf.shape]
    simp only
    rw [if_pos ⟨trivial, by rw [p1, ht.md, hf.md], allPairs_pad hF ns hsz, by omega⟩, zip_pad hF ns hsz]
    rfl
  refine ⟨_, ep, by unfold Tensor.rank; rw [p2]; simp, ec, p1.trans ht.md, rfl, ?_⟩
  intro b o bs ks hb ho hk
  have ho' := (List.getElem?_eq_some_iff.mp ho).1
  have hbs := hbl bs (List.mem_of_getElem? ho)
  have hkl : ks.length = ns.length := by have := hk.length_eq; simpa using this
  rw [ofFn_get_of _ _ (by exact ⟨hb, ho', hk⟩)]
  simp only [Finset.sum_range_one]
  have hfl : (bandFilt w.decLo w.decHi bs).length = ns.length := by simp [bandFilt, hbs]
  have hrep : (bandFilt w.decLo w.decHi bs).map (fun _ => w.len) = List.replicate ns.length w.len := by
    rw [List.map_const', hfl]
  have hc := conv_dwtN m hF (bandFilt w.decLo w.decHi bs) ns ks (fun js => t.get (b :: 0 :: js)) (by
      intro f hf
      simp only [bandFilt, List.mem_map] at hf
      obtain ⟨c, -, rfl⟩ := hf
      cases c
      · rfl
      · exact hhi) hfl.symm (by rw [hkl, hfl])
  rw [hrep] at hc
  have hg := bandN_congr ha hbs (X := fun js => t.get (b :: 0 :: js)) (Y := X b)
    (fun js hjs => ht.get b js hb hjs) hkl
  rw [← hg]
  unfold bandN
  rw [← hc]
  apply boxSum_congr
  intro js hjs
  rw [hf.get o bs js ho hjs, filtRev_eq, p3 b 0 _ hb Nat.one_pos (inB_pad hF ns ks js hsz hk hjs)]
  congr 2
  rw [List.map_zipWith]

/-! ### One synthesis step -/

theorem filtTap_eq [Semiring R] (f₀ f₁ : List R) (F : Nat) : ∀ (bs : List Bool) (js : List Nat),
    filtTap f₀ f₁ bs (js.map fun (j : Nat) => (j : ℤ)) = filtProd (tapAt f₀ f₁ false F) bs js
  | [], _ => by simp [filtTap, filtProd]
  | _ :: _, [] => by simp [filtTap, filtProd]
  | b :: bs, j :: js => by
    simp only [List.map_cons, filtTap, filtProd, filtTap_eq f₀ f₁ F bs js]
    congr 1

/-- Outside of the filters the product of the taps vanishes. -/
theorem filtTap_zero [Semiring R] {f₀ f₁ : List R} {F : Nat} (h0 : f₀.length = F) (h1 : f₁.length = F) :
    ∀ (bs : List Bool) (ms ks : List Nat), ms.length = bs.length → ks.length = bs.length →
      ¬ (AllPairs (fun m k => 2 * k ≤ m) ms ks ∧
        InB (List.replicate bs.length F) (List.zipWith (fun m k => m - 2 * k) ms ks)) →
      filtTap f₀ f₁ bs (List.zipWith (fun (m : ℤ) (k : Nat) => m - 2 * k) (ms.map fun (m : Nat) => (m : ℤ)) ks)
        = 0
  | [], [], [], _, _, h => absurd ⟨trivial, trivial⟩ h
  | b :: bs, m :: ms, k :: ks, hm, hk, h => by
    simp only [List.map_cons, List.zipWith_cons_cons, filtTap]
    have hl : (if b then f₁ else f₀).length = F := by cases b <;> assumption
    by_cases hc : 2 * k ≤ m ∧ m - 2 * k < F
    · rw [filtTap_zero h0 h1 bs ms ks (by simpa using hm) (by simpa using hk), mul_zero]
      rintro ⟨a, b⟩
      exact h ⟨⟨hc.1, a⟩, ⟨hc.2, b⟩⟩
    · have : tap (if b then f₁ else f₀) ((m : ℤ) - 2 * k) = 0 := by
        by_cases hn : (m : ℤ) - 2 * k < 0
        · exact tap_neg _ hn
        · exact tap_ge _ (by omega)
      rw [this, zero_mul]

theorem filtTap_in [Semiring R] {f₀ f₁ : List R} {F : Nat} : ∀ (bs : List Bool) (ms ks : List Nat),
      AllPairs (fun m k => 2 * k ≤ m) ms ks →
      filtTap f₀ f₁ bs (List.zipWith (fun (m : ℤ) (k : Nat) => m - 2 * k) (ms.map fun (m : Nat) => (m : ℤ)) ks)
        = filtProd (tapAt f₀ f₁ false F) bs (List.zipWith (fun m k => m - 2 * k) ms ks) := by
  intro bs ms ks h
  rw [← filtTap_eq]
  congr 1
  induction ms generalizing ks with
  | nil => cases ks <;> simp
  | cons m ms ih =>
    cases ks with
    | nil => exact h.elim
    | cons k ks =>
      simp only [List.map_cons, List.zipWith_cons_cons, ih ks h.2]
      congr 1
      have := h.1
      simp only at this
      omega

/-- One transposed convolution of stacked bands is the textbook synthesis along every axis. -/
theorem synthesisN_ok [Semiring R] {f₀ f₁ : List R} {F : Nat} {filt : Tensor R} {md : Meta} {B : Nat}
    {Ks : List Nat} {ts : List (Tensor R)} {bands : List (List Bool)} {c : Nat → List Bool → List Nat → R}
    (hF : 1 ≤ F) (h0 : f₀.length = F) (h1 : f₁.length = F) (hK : ∀ K ∈ Ks, 1 ≤ K)
    (hf : IsFilt filt md Ks.length F bands (tapAt f₀ f₁ false F))
    (hbl : ∀ bs ∈ bands, bs.length = Ks.length)
    (hsum : ∀ g : List Bool → R, ∑ o ∈ Finset.range bands.length, g (bands.getD o [])
      = bandSum Ks.length g)
    (hne : bands ≠ [])
    (hts : List.Forall₂ (fun bs t => ShowsN t md B Ks (fun b => c b bs)) bands ts) :
    ∃ st r, stack1 ts = .ok st ∧ st.rank = Ks.length + 2 ∧ convTransposeNd st filt 2 = .ok r ∧
      ShowsN r.squeeze1 md B (Ks.map fun K => (K - 1) * 2 + F)
        (fun b ms => synN f₀ f₁ Ks (c b) (ms.map fun (m : Nat) => (m : ℤ))) := by
  have hlen : bands.length = ts.length := hts.length_eq
  obtain ⟨st, es, s1, s2, s3⟩ := stack1_ok (ts := ts) (md := md) (B := B) (ss := Ks)
    (by intro h; rw [h] at hlen; exact hne (List.length_eq_zero_iff.mp hlen))
    (by
      intro t ht
      obtain ⟨i, hi⟩ := List.getElem?_of_mem ht
      obtain ⟨bs, -, h⟩ := forall₂_getElem? hts hi
      exact ⟨h.md, h.shape⟩)
  refine ⟨st, ?_⟩
  have hap : AllPairs (fun N F => 1 ≤ N ∧ 1 ≤ F) Ks (List.replicate Ks.length F) := by
    clear hf hbl hsum hts s2 s3
    induction Ks with
    | nil => trivial
    | cons K Ks ih =>
      exact ⟨⟨hK K (by simp), hF⟩, ih fun K hK' => hK K (by simp [hK'])⟩
  have hzip : List.zipWith (fun N F => (N - 1) * 2 + F) Ks (List.replicate Ks.length F)
      = Ks.map fun K => (K - 1) * 2 + F := by
    clear hf hbl hsum hts s2 s3 hK hap
    induction Ks with
    | nil => rfl
    | cons K Ks ih =>
      simp only [List.length_cons, List.replicate_succ, List.zipWith_cons_cons, List.map_cons, ih]
  have er : convTransposeNd st filt 2 = .ok (ofFn st.md (B :: 1 :: Ks.map fun K => (K - 1) * 2 + F) fun i =>
      match i with
      | b :: o :: ms => ∑ c ∈ Finset.range bands.length, boxSum Ks fun ks =>
          if AllPairs (fun m k => 2 * k ≤ m) ms ks then
            filt.get (c :: o :: List.zipWith (fun m k => m - 2 * k) ms ks) * st.get (b :: c :: ks)
          else 0
      | _ => 0) := by
    unfold convTransposeNd
    rw [s2, hf.shape]
    simp only
    rw [if_pos ⟨hlen.symm, by rw [s1, hf.md], hap⟩, hzip, hlen]
    rfl
  refine ⟨_, es, by unfold Tensor.rank; rw [s2]; simp, er, ShowsChN.squeeze1 ⟨s1, rfl, ?_⟩⟩
  intro b ms hb hm
  rw [ofFn_get_of _ _ (by exact ⟨hb, Nat.one_pos, hm⟩)]
  have hml : ms.length = Ks.length := by have := hm.length_eq; simpa using this
  rw [synN_eq _ _ _ _ _ (by simpa using hml), ← hsum]
  refine Finset.sum_congr rfl fun o ho => ?_
  rw [Finset.mem_range] at ho
  have hbo : bands[o]? = some (bands.getD o []) := by
    rw [List.getD_eq_getElem _ _ ho, List.getElem?_eq_getElem ho]
  have hbol := hbl _ (List.mem_of_getElem? hbo)
  obtain ⟨u, hu, hsh⟩ := forall₂_getElem?' hts hbo
  apply boxSum_congr
  intro ks hks
  have hkl := hks.length_eq
  rw [s3 b o u ks hb hks hu, hsh.get b ks hb hks]
  by_cases hc : AllPairs (fun m k => 2 * k ≤ m) ms ks
  · rw [if_pos hc]
    by_cases hin : InB (List.replicate Ks.length F) (List.zipWith (fun m k => m - 2 * k) ms ks)
    · rw [hf.get o _ _ hbo hin, filtTap_in (F := F) _ _ _ hc]
    · rw [filtTap_zero h0 h1 _ ms ks (by omega) (by omega), zero_mul, filt.supp, zero_mul]
      · rw [hf.shape]
        rintro ⟨_, _, h⟩
        exact hin h
      · rw [hbol]
        exact fun h => hin h.2
  · rw [if_neg hc, filtTap_zero h0 h1 _ ms ks (by omega) (by omega) (fun h => hc h.1), zero_mul]

end Verif
