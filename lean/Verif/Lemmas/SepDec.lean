import Verif.Lemmas.TopNd
import Verif.Model.SepConv

/-! The separable analysis computes the textbook bands. -/

namespace Verif
open Tensor Spec
variable {R : Type}

/-- One level of `wavedec` along the axis `-(k+1)`. -/
theorem wavedec_one [NonUnitalNonAssocSemiring R] {w : Wavelet R} {t : Tensor R} {mode : Option String} {k : Nat}
    (hF : 2 ≤ w.len) (hhi : w.decHi.length = w.len) (hdt : isDtypeSupported t.md.dtype = true)
    (hk : k < t.rank) :
    (∀ m : Mode, Selects mode m → m.Admits w.len (t.shape.getD (t.rank - (k + 1)) 0) →
      ∃ a d, wavedec t w mode (some 1) (.int (-((k : Int) + 1))) = .ok [a, d] ∧
        AlongAxis (t.rank - (k + 1)) (outLen w.len (t.shape.getD (t.rank - (k + 1)) 0))
          (dwtStep m w.decLo (t.shape.getD (t.rank - (k + 1)) 0)) t a ∧
        AlongAxis (t.rank - (k + 1)) (outLen w.len (t.shape.getD (t.rank - (k + 1)) 0))
          (dwtStep m w.decHi (t.shape.getD (t.rank - (k + 1)) 0)) t d) ∧
    (∀ m : Mode, Selects mode m → ¬ m.Admits w.len (t.shape.getD (t.rank - (k + 1)) 0) →
      wavedec t w mode (some 1) (.int (-((k : Int) + 1))) = .error (shortErr m w.len)) ∧
    ((∀ m, ¬ Selects mode m) → wavedec t w mode (some 1) (.int (-((k : Int) + 1))) = .error .valueError) := by
  have hax : axis1 (.int (-((k : Int) + 1))) t.rank = t.rank - (k + 1) := by
    simp only [axis1, axesOf, resolve, List.map_cons, List.map_nil, List.headD_cons, axisOf]
    rw [if_pos (by omega)]
    omega
  have hg : GoodAxes (.int (-((k : Int) + 1))) t.rank 1 := by
    refine ⟨le_rfl, rfl, ?_, by simp [resolve]⟩
    intro a ha
    simp only [resolve, List.mem_singleton] at ha
    subst ha
    constructor <;> omega
  obtain ⟨-, h2⟩ := wavedec_char (mode := mode) (x := t) (level := some 1) (h := .int (-((k : Int) + 1))) hF hhi
  rw [hax] at h2
  obtain ⟨-, h4, h5, h6⟩ := h2 hg hdt
  refine ⟨?_, ?_, ?_⟩
  · intro m hm ha
    obtain ⟨cs, e, hd⟩ := h4 m hm (by
      intro s hs
      have : s = 0 := by
        have : s < 1 := hs
        omega
      subst this
      exact ha)
    have hl : cs.length = 2 := hd.length
    match cs, hl with
    | [a, d], _ => exact ⟨a, d, e, hd.approx a rfl, hd.detail 0 d Nat.one_pos rfl⟩
  · intro m hm ha
    exact h5 m hm ⟨0, Nat.one_pos, ha⟩
  · intro hm
    exact h6 Nat.one_pos hm

theorem alongAxis_rank [Zero R] {a K : Nat} {f : (Nat → R) → Nat → R} {x z : Tensor R}
    (h : AlongAxis a K f x z) : z.rank = x.rank := by
  unfold Tensor.rank; rw [h.shape, List.length_set]

/-- One more axis: an operation along axis `a` after operations along other axes. -/
theorem alongAxes_cons [NonUnitalNonAssocSemiring R] {m : Mode} {f : List R} {a : Nat} {ax Ks : List Nat}
    {fs : List (List R × Nat)} {K : Nat} {y t z : Tensor R} (ha : a ∉ ax) (hlt : a < y.rank)
    {F : Nat} (hadm : m.Admits F (y.shape.getD a 0))
    (ht : AlongAxes ax Ks (dwtN m fs) y t)
    (hz : AlongAxis a K (dwtStep m f (y.shape.getD a 0)) t z) :
    AlongAxes (a :: ax) (K :: Ks) (dwtN m ((f, y.shape.getD a 0) :: fs)) y z := by
  have hsw : ∀ (ax Ks l : List Nat), a ∉ ax → (setMany l ax Ks).set a K = setMany (l.set a K) ax Ks := by
    intro ax
    induction ax with
    | nil => intro Ks l _; cases Ks <;> rfl
    | cons b ax ih =>
      intro Ks l h
      cases Ks with
      | nil => rfl
      | cons k Ks =>
        show (setMany (l.set b k) ax Ks).set a K = setMany ((l.set a K).set b k) ax Ks
        rw [ih Ks _ (by simp at h; exact h.2), List.set_comm _ _ (by simp at h; exact fun e => h.1 e.symm)]
  have hs : z.shape = setMany (y.shape.set a K) ax Ks := by rw [hz.shape, ht.shape, hsw ax Ks _ ha]
  refine ⟨hz.md.trans ht.md, hs, ?_⟩
  intro idx hidx
  rw [hz.get idx hidx]
  have hil : idx.length = y.rank := by
    rw [hidx.length_eq, hs, setMany_length, List.length_set]; rfl
  show _ = dwtStep m f (y.shape.getD a 0) (fun j => dwtN m fs (fun js => plane y (a :: ax) idx (j :: js))
    (sizes ax idx)) (idx.getD a 0)
  refine dwtStep_congr hadm (fun j hj => ?_) _ _
  · show line t a idx j = _
    unfold line
    have hat : a < t.shape.length := by rw [ht.shape, setMany_length]; exact hlt
    have htn : t.shape.getD a 0 = y.shape.getD a 0 := by
      rw [ht.shape, setMany_getD_not_mem _ _ _ ha]
    have hsz : sizes ax (idx.set a j) = sizes ax idx := by
      unfold sizes
      apply List.map_congr_left
      intro b hb
      exact getD_set_ne (fun e => ha (e ▸ hb))
    have hpl : plane y ax (idx.set a j) = fun js => plane y (a :: ax) idx (j :: js) := by
      funext js
      unfold plane
      by_cases h : js.length = ax.length
      · rw [if_pos h, if_pos (by simpa using h)]; rfl
      · rw [if_neg h, if_neg (by simpa using h)]
    by_cases hin : InB t.shape (idx.set a j)
    · rw [ht.get _ hin, hsz, hpl]
    · exfalso
      apply hin
      have h1 : InB (t.shape.set a K) idx := by rw [← hz.shape]; exact hidx
      rw [inB_set_iff hat h1, htn]
      exact hj

/-- The keys of a separable transform, in insertion order. -/
def sepKeys : Nat → String → List String
  | 0, key => [key]
  | n + 1, key => sepKeys n ("a" ++ key) ++ sepKeys n ("d" ++ key)

theorem bandOfKey_a (key : String) : bandOfKey ("a" ++ key) = false :: bandOfKey key := by
  unfold bandOfKey; rw [String.toList_append]; rfl

theorem bandOfKey_d (key : String) : bandOfKey ("d" ++ key) = true :: bandOfKey key := by
  unfold bandOfKey; rw [String.toList_append]; rfl

theorem alongAxes_nil [NonUnitalNonAssocSemiring R] (m : Mode) (y : Tensor R) :
    AlongAxes [] [] (dwtN m []) y y :=
  ⟨rfl, rfl, fun _ _ => rfl⟩

section
variable [NonUnitalNonAssocSemiring R] {w : Wavelet R} {mode : Option String} {m : Mode}

theorem sepDwtn_ok (hF : 2 ≤ w.len) (hhi : w.decHi.length = w.len) (hm : Selects mode m) {y : Tensor R}
    (hdt : isDtypeSupported y.md.dtype = true) {N : Nat} (hr : y.rank = N + 1)
    (hadm : ∀ p, 1 ≤ p → p ≤ N → m.Admits w.len (y.shape.getD p 0)) :
    ∀ (j len : Nat) (key : String) (t : Tensor R), j + len = N → key.length = len →
      AlongAxes (List.range' (j + 1) len) ((sizes (List.range' (j + 1) len) y.shape).map (outLen w.len))
        (dwtN m ((bandFilt w.decLo w.decHi (bandOfKey key)).zip (sizes (List.range' (j + 1) len) y.shape))) y t →
      ∃ kv, sepDwtn w mode j key t = .ok kv ∧ kv.map Prod.fst = sepKeys j key ∧
        ∀ q ∈ kv, AlongAxes (List.range' 1 N) ((sizes (List.range' 1 N) y.shape).map (outLen w.len))
          (dwtN m ((bandFilt w.decLo w.decHi (bandOfKey q.1)).zip (sizes (List.range' 1 N) y.shape))) y q.2
  | 0, len, key, t, hj, hk, ht => by
    have : len = N := by omega
    subst this
    refine ⟨[(key, t)], rfl, rfl, ?_⟩
    intro q hq
    simp only [List.mem_singleton] at hq
    subst hq
    exact ht
  | j + 1, len, key, t, hj, hk, ht => by
    have htr : t.rank = N + 1 := by rw [← hr]; unfold Tensor.rank; rw [ht.shape, setMany_length]
    have hpos : t.rank - (len + 1) = j + 1 := by omega
    have hnot : j + 1 ∉ List.range' (j + 1 + 1) len := by
      rw [List.mem_range'_1]; omega
    have hsz : t.shape.getD (j + 1) 0 = y.shape.getD (j + 1) 0 := by
      rw [ht.shape, setMany_getD_not_mem _ _ _ hnot]
    have h1 := (wavedec_one (mode := mode) (k := len) hF hhi (t := t) (by rw [ht.md]; exact hdt) (by omega)).1 m hm
    rw [hpos, hsz] at h1
    obtain ⟨a, d, e, ha, hd⟩ := h1 (hadm (j + 1) (by omega) (by omega))
    have ha' := alongAxes_cons hnot (by omega) (hadm (j + 1) (by omega) (by omega)) ht ha
    have hd' := alongAxes_cons hnot (by omega) (hadm (j + 1) (by omega) (by omega)) ht hd
    obtain ⟨kva, ea, fa, pa⟩ := sepDwtn_ok hF hhi hm hdt hr hadm j (len + 1) ("a" ++ key) a (by omega)
      (by rw [String.length_append, hk]; show 1 + len = _; omega)
      (by rw [bandOfKey_a]; exact ha')
    obtain ⟨kvd, ed, fd, pd⟩ := sepDwtn_ok hF hhi hm hdt hr hadm j (len + 1) ("d" ++ key) d (by omega)
      (by rw [String.length_append, hk]; show 1 + len = _; omega)
      (by rw [bandOfKey_d]; exact hd')
    refine ⟨kva ++ kvd, ?_, ?_, ?_⟩
    · unfold sepDwtn
      simp only [hk, bind, Except.bind, e, ea, ed]
      rfl
    · rw [List.map_append, fa, fd]; rfl
    · intro q hq
      rcases List.mem_append.mp hq with h | h
      · exact pa q h
      · exact pd q h

theorem sepDwtn_inv (hF : 2 ≤ w.len) (hhi : w.decHi.length = w.len) (hm : Selects mode m) :
    ∀ (j : Nat) (key : String) (t : Tensor R) kv, isDtypeSupported t.md.dtype = true →
      t.rank = j + key.length + 1 → sepDwtn w mode j key t = .ok kv →
      ∀ p, 1 ≤ p → p ≤ j → m.Admits w.len (t.shape.getD p 0)
  | 0, _, _, _, _, _, _, p, h1, h2 => absurd h1 (by omega)
  | j + 1, key, t, kv, hdt, hr, h, p, h1, h2 => by
    have hpos : t.rank - (key.length + 1) = j + 1 := by omega
    obtain ⟨g1, g2, -⟩ := wavedec_one (mode := mode) (k := key.length) hF hhi hdt (by omega)
    rw [hpos] at g1 g2
    by_cases hadm : m.Admits w.len (t.shape.getD (j + 1) 0)
    · obtain ⟨a, d, e, ha, hd⟩ := g1 m hm hadm
      rcases Nat.eq_or_lt_of_le h2 with rfl | hlt
      · exact hadm
      · unfold sepDwtn at h
        simp only [bind, Except.bind, e] at h
        cases ea : sepDwtn w mode j ("a" ++ key) a with
        | error _ => rw [ea] at h; cases h
        | ok kva =>
          have := sepDwtn_inv hF hhi hm j ("a" ++ key) a kva (by rw [ha.md]; exact hdt)
            (by rw [alongAxis_rank ha, hr, String.length_append]; show _ = j + (1 + key.length) + 1; omega) ea p h1 (by omega)
          rwa [ha.shape, getD_set_ne (by omega)] at this
    · unfold sepDwtn at h
      simp only [bind, Except.bind, g2 m hm hadm] at h
      cases h

theorem sepDwtn_unknown (hF : 2 ≤ w.len) (hhi : w.decHi.length = w.len) (hm : ∀ m, ¬ Selects mode m)
    {j : Nat} {t : Tensor R} (hdt : isDtypeSupported t.md.dtype = true) (hr : t.rank = j + 2) :
    sepDwtn w mode (j + 1) "" t = .error .valueError := by
  obtain ⟨-, -, g3⟩ := wavedec_one (mode := mode) (k := 0) hF hhi hdt (by omega)
  unfold sepDwtn
  have : ("" : String).length = 0 := rfl
  simp only [bind, Except.bind, this, g3 hm]

end

theorem setMany_range' : ∀ (l pre ks : List Nat), ks.length = l.length →
    setMany (pre ++ l) (List.range' pre.length l.length) ks = pre ++ ks
  | [], pre, [], _ => rfl
  | x :: l, pre, k :: ks, h => by
    show setMany ((pre ++ x :: l).set pre.length k) (List.range' (pre.length + 1) l.length) ks = _
    have e : (pre ++ x :: l).set pre.length k = (pre ++ [k]) ++ l := by simp
    have := setMany_range' l (pre ++ [k]) ks (by simpa using h)
    rw [List.length_append] at this
    rw [e]
    exact this.trans (by simp)

theorem sizes_range' : ∀ (l pre : List Nat), sizes (List.range' pre.length l.length) (pre ++ l) = l
  | [], _ => rfl
  | x :: l, pre => by
    show (pre ++ x :: l).getD pre.length 0 :: sizes (List.range' (pre.length + 1) l.length) (pre ++ x :: l) = _
    have := sizes_range' l (pre ++ [x])
    rw [List.length_append] at this
    rw [show pre ++ x :: l = (pre ++ [x]) ++ l by simp]
    rw [show List.range' (pre.length + 1) l.length = List.range' (pre.length + [x].length) l.length from rfl, this]
    simp

theorem ofList_cons_append (n : Nat) (key : String) :
    aKey n ++ ("a" ++ key) = aKey (n + 1) ++ key := by
  apply String.toList_injective
  unfold aKey
  simp only [String.toList_append, String.toList_ofList]
  rw [List.replicate_succ']
  simp

theorem aKey_mem_sepKeys : ∀ (n : Nat) (key : String), aKey n ++ key ∈ sepKeys n key
  | 0, key => by
    have : aKey 0 ++ key = key := by
      apply String.toList_injective
      simp [aKey]
    rw [this]; simp [sepKeys]
  | n + 1, key => by
    have := aKey_mem_sepKeys n ("a" ++ key)
    rw [ofList_cons_append] at this
    exact List.mem_append_left _ this

theorem sepKeys_length : ∀ (n : Nat) (key k : String), k ∈ sepKeys n key → k.length = n + key.length
  | 0, key, k, h => by simp only [sepKeys, List.mem_singleton] at h; subst h; omega
  | n + 1, key, k, h => by
    rcases List.mem_append.mp h with h | h
    · rw [sepKeys_length n _ k h, String.length_append]
      show n + (1 + key.length) = _
      omega
    · rw [sepKeys_length n _ k h, String.length_append]
      show n + (1 + key.length) = _
      omega

theorem bandOfKey_length (k : String) : (bandOfKey k).length = k.length := by
  unfold bandOfKey; rw [List.length_map, String.length_toList]

theorem bandOfKey_aKey (n : Nat) : bandOfKey (aKey n) = lowBand n := by
  unfold bandOfKey aKey lowBand
  rw [String.toList_ofList, List.map_replicate]
  rfl

theorem dictPop_ok [Zero R] {kv : List (String × Tensor R)} {key : String} (h : key ∈ kv.map Prod.fst) :
    ∃ t, (key, t) ∈ kv ∧ dictPop kv key = .ok (t, kv.filter fun p => p.1 ≠ key) := by
  unfold dictPop dictGet
  cases hf : kv.find? fun p => p.1 = key with
  | none =>
    exfalso
    rw [List.find?_eq_none] at hf
    obtain ⟨q, hq, rfl⟩ := List.mem_map.mp h
    exact hf q hq (by simp)
  | some p =>
    have h1 := List.mem_of_find?_eq_some hf
    have h2 := List.find?_some hf
    simp only [decide_eq_true_eq] at h2
    subst h2
    exact ⟨p.2, h1, rfl⟩

/-- The keys of the detail dictionaries of a separable transform. -/
def sepDetailKeys (n : Nat) : List String := (sepKeys n "").filter fun k => k ≠ aKey n

theorem sepDetailKeys2 : sepDetailKeys 2 = ["da", "ad", "dd"] := by decide

theorem sepDetailKeys3 : sepDetailKeys 3 = ["daa", "ada", "dda", "aad", "dad", "add", "ddd"] := by decide

section
variable [NonUnitalNonAssocSemiring R] {w : Wavelet R} {mode : Option String} {m : Mode} {md : Meta} {B n : Nat}

theorem showsN_of_range {t u : Tensor R} {ns : List Nat} {X : Nat → List Nat → R} {bs : List Bool}
    (ht : ShowsN t md B ns X) (hadm : ∀ k ∈ ns, m.Admits w.len k) (hb : bs.length = ns.length)
    (h : AlongAxes (List.range' 1 ns.length) (ns.map (outLen w.len))
      (dwtN m ((bandFilt w.decLo w.decHi bs).zip ns)) t u) :
    ShowsN u md B (ns.map (outLen w.len)) (fun b => bandN m w bs ns (X b)) := by
  have hs : u.shape = B :: ns.map (outLen w.len) := by
    rw [h.shape, ht.shape]
    exact setMany_range' ns [B] _ (by simp)
  refine ⟨h.md.trans ht.md, hs, ?_⟩
  intro b ks hb' hk
  have hkl : ks.length = ns.length := by rw [hk.length_eq, List.length_map]
  rw [h.get (b :: ks) (by rw [hs]; exact ⟨hb', hk⟩)]
  have h1 : sizes (List.range' 1 ns.length) (b :: ks) = ks := by rw [← hkl]; exact sizes_range' ks [b]
  rw [h1]
  refine bandN_congr hadm hb (fun js hjs => ?_) hkl
  unfold plane
  rw [if_pos (by rw [hjs.length_eq, List.length_range'])]
  have h2 : setMany (b :: ks) (List.range' 1 ns.length) js = b :: js := by
    rw [← hkl]
    exact setMany_range' ks [b] js (by rw [hjs.length_eq, hkl])
  rw [h2, ht.get b js hb' hjs]

theorem sepStep_ok (hF : 2 ≤ w.len) (hhi : w.decHi.length = w.len) (hm : Selects mode m)
    (hdt : isDtypeSupported md.dtype = true) :
    StepOk (sepStep w mode n) m w md B n (IsDict (sepDetailKeys n)) (fun ns X t => ShowsN t md B ns X)
      (fun ns X t => ShowsN t md B ns X) := by
  intro ns X t hn ht hadm
  subst hn
  have hr : t.rank = ns.length + 1 := ht.rank
  have hsz : sizes (List.range' 1 ns.length) t.shape = ns := by rw [ht.shape]; exact sizes_range' ns [B]
  obtain ⟨kv, e, hk, hp⟩ := sepDwtn_ok hF hhi hm (y := t) (by rw [ht.md]; exact hdt) hr
    (by
      intro p h1 h2
      rw [ht.shape]
      obtain ⟨q, rfl⟩ : ∃ q, p = q + 1 := ⟨p - 1, by omega⟩
      show m.Admits w.len (ns.getD q 0)
      rw [List.getD_eq_getElem _ _ (by omega)]
      exact hadm _ (List.getElem_mem _))
    ns.length 0 "" t (by omega) rfl (by exact alongAxes_nil m t)
  rw [hsz] at hp
  have hp' : ∀ q ∈ kv, ShowsN q.2 md B (ns.map (outLen w.len)) (fun b => bandN m w (bandOfKey q.1) ns (X b)) := by
    intro q hq
    refine showsN_of_range ht hadm ?_ (hp q hq)
    rw [bandOfKey_length, sepKeys_length ns.length "" q.1 (by rw [← hk]; exact List.mem_map.mpr ⟨q, hq, rfl⟩)]
    rfl
  have hmem : aKey ns.length ∈ kv.map Prod.fst := by
    rw [hk]
    have := aKey_mem_sepKeys ns.length ""
    rwa [String.append_empty] at this
  obtain ⟨a, ha, ep⟩ := dictPop_ok hmem
  refine ⟨a, .dict (kv.filter fun p => p.1 ≠ aKey ns.length), ?_, ?_, ?_⟩
  · unfold sepStep
    rw [hr]
    simp only [Nat.add_sub_cancel, bind, Except.bind, e, ep]
    rfl
  · have := hp' _ ha
    rwa [bandOfKey_aKey] at this
  · refine ⟨_, rfl, ?_, ?_⟩
    · unfold sepDetailKeys
      rw [← hk, List.filter_map]
      rfl
    · intro q hq
      exact hp' q (List.mem_filter.mp hq).1

theorem sepStep_inv (hF : 2 ≤ w.len) (hhi : w.decHi.length = w.len) (hm : Selects mode m)
    (hdt : isDtypeSupported md.dtype = true) {ns : List Nat} {X : Nat → List Nat → R} {t : Tensor R} {q}
    (ht : ShowsN t md B ns X) (h : sepStep w mode n t = .ok q) : ∀ k ∈ ns, m.Admits w.len k := by
  have hr : t.rank = ns.length + 1 := ht.rank
  unfold sepStep at h
  rw [hr, Nat.add_sub_cancel] at h
  simp only [bind, Except.bind] at h
  cases e : sepDwtn w mode ns.length "" t with
  | error _ => rw [e] at h; cases h
  | ok kv =>
    intro k hk
    obtain ⟨i, hi, rfl⟩ := List.getElem_of_mem hk
    have := sepDwtn_inv hF hhi hm ns.length "" t kv (by rw [ht.md]; exact hdt) (by rw [hr]; rfl) e
      (i + 1) (by omega) (by omega)
    rw [ht.shape] at this
    change m.Admits w.len (ns.getD i 0) at this
    rwa [List.getD_eq_getElem _ _ hi] at this

theorem sepDecLoop_eq : ∀ (L : Nat) (t : Tensor R), sepDecLoop w mode n L t = decLoop (sepStep w mode n) L t
  | 0, _ => rfl
  | L + 1, t => by
    unfold sepDecLoop decLoop
    simp only [sepDecLoop_eq L]

end

end Verif
