import Verif.Lemmas.SepTop

/-! One reconstruction step of the separable synthesis along one axis. -/

namespace Verif
open Tensor Spec
variable {R : Type}

theorem list_eq_getD {l l' : List Nat} (hl : l.length = l'.length)
    (h : ∀ i, i < l.length → l.getD i 0 = l'.getD i 0) : l = l' := by
  apply List.ext_getElem hl
  intro i h1 h2
  have := h i h1
  rwa [List.getD_eq_getElem _ _ h1, List.getD_eq_getElem _ _ h2] at this

/-- Exchange the entries at two positions. -/
def swp (a b : Nat) (l : List Nat) : List Nat := (l.set a (l.getD b 0)).set b (l.getD a 0)

theorem swp_length (a b : Nat) (l : List Nat) : (swp a b l).length = l.length := by simp [swp]

theorem swp_getD {a b i : Nat} {l : List Nat} (ha : a < l.length) (hb : b < l.length) :
    (swp a b l).getD i 0 = if i = b then l.getD a 0 else if i = a then l.getD b 0 else l.getD i 0 := by
  unfold swp
  by_cases h1 : i = b
  · subst h1; rw [if_pos rfl, getD_set_self (by simpa using hb)]
  · rw [if_neg h1, getD_set_ne (Ne.symm h1)]
    by_cases h2 : i = a
    · subst h2; rw [if_pos rfl, getD_set_self ha]
    · rw [if_neg h2, getD_set_ne (Ne.symm h2)]

theorem swp_swp {a b : Nat} {l : List Nat} (ha : a < l.length) (hb : b < l.length) :
    swp a b (swp a b l) = l := by
  apply list_eq_getD (by simp [swp_length])
  intro i _
  rw [swp_getD (by rw [swp_length]; exact ha) (by rw [swp_length]; exact hb)]
  simp only [swp_getD ha hb]
  split_ifs <;> simp_all

theorem inB_swp {a b : Nat} {s l : List Nat} (ha : a < s.length) (hb : b < s.length) (h : InB s l) :
    InB (swp a b s) (swp a b l) := by
  have hl := h.length_eq
  rw [inB_iff]
  refine ⟨by rw [swp_length, swp_length, hl], ?_⟩
  intro d hd
  rw [swp_length] at hd
  rw [swp_getD ha hb, swp_getD (by omega) (by omega)]
  split_ifs
  · exact h.getD_lt ha
  · exact h.getD_lt hb
  · exact h.getD_lt hd

/-- The second position of the exchange is set, seen after the exchange. -/
theorem swp_set {a b v : Nat} {l : List Nat} (ha : a < l.length) (hb : b < l.length) :
    swp a b (l.set b v) = (swp a b l).set a v := by
  apply list_eq_getD (by simp [swp_length])
  intro i hi
  rw [swp_length, List.length_set] at hi
  rw [swp_getD (by simpa using ha) (by simpa using hb)]
  by_cases h2 : i = a
  · subst h2
    rw [getD_set_self (s := swp i b l) (by rw [swp_length]; exact hi)]
    by_cases h1 : i = b
    · subst h1; rw [if_pos rfl, getD_set_self hi]
    · rw [if_neg h1, if_pos rfl, getD_set_self hb]
  · rw [getD_set_ne (Ne.symm h2), swp_getD ha hb]
    by_cases h1 : i = b
    · subst h1; rw [if_pos rfl, if_pos rfl, getD_set_ne h2]
    · rw [if_neg h1, if_neg h2, if_neg h1, if_neg h2, getD_set_ne (Ne.symm h1)]

theorem swp_set' {a b v : Nat} {l : List Nat} (ha : a < l.length) (hb : b < l.length) :
    swp a b ((swp a b l).set a v) = l.set b v := by
  rw [← swp_set ha hb, swp_swp (by simpa using ha) (by simpa using hb)]

/-- Set the last entry. -/
theorem set_last {l : List Nat} {v : Nat} (h : 0 < l.length) : l.set (l.length - 1) v = l.dropLast ++ [v] := by
  rcases List.eq_nil_or_concat l with rfl | ⟨q, x, rfl⟩
  · simp at h
  · simp

theorem last_eq {l : List Nat} (h : 0 < l.length) : l = l.dropLast ++ [l.getD (l.length - 1) 0] := by
  rcases List.eq_nil_or_concat l with rfl | ⟨q, x, rfl⟩
  · simp at h
  · simp

theorem getLastD_eq {l : List Nat} (h : 0 < l.length) : l.getLastD 0 = l.getD (l.length - 1) 0 := by
  rcases List.eq_nil_or_concat l with rfl | ⟨q, x, rfl⟩
  · simp at h
  · simp

theorem inB_concat {q s : List Nat} {i n : Nat} : InB (s ++ [n]) (q ++ [i]) ↔ InB s q ∧ i < n := by
  constructor
  · intro h
    have hl := h.length_eq
    simp at hl
    have := (inB_append (s := s) (i := q) (t := [n]) (j := [i]) hl).mp h
    exact ⟨this.1, this.2.1⟩
  · intro h
    exact h.1.append ⟨h.2, trivial⟩

section
variable [Zero R]

theorem transposeLast_ok {t : Tensor R} {k : Nat} (h1 : 1 ≤ k) (h2 : k ≤ t.rank) :
    ∃ u, transposeLast t k = .ok u ∧ u.md = t.md ∧ u.shape = swp (t.rank - 1) (t.rank - k) t.shape ∧
      ∀ idx, InB t.shape idx → u.get (swp (t.rank - 1) (t.rank - k) idx) = t.get idx := by
  have ha : t.rank - 1 < t.shape.length := by show _ < t.rank; omega
  have hb : t.rank - k < t.shape.length := by show _ < t.rank; omega
  refine ⟨_, if_pos ⟨h1, h2⟩, rfl, rfl, ?_⟩
  intro idx hidx
  have := inB_swp ha hb hidx
  refine (ofFn_get_of t.md (s := swp (t.rank - 1) (t.rank - k) t.shape)
    (fun i => t.get (swp (t.rank - 1) (t.rank - k) i)) this).trans ?_
  rw [swp_swp (by rw [hidx.length_eq]; exact ha) (by rw [hidx.length_eq]; exact hb)]

theorem flatLast_ok {t : Tensor R} {Q : List Nat} {K : Nat} (hs : t.shape = Q ++ [K]) (hK : 1 ≤ K) :
    ∃ u, flatLast t = .ok u ∧ u.md = t.md ∧ u.shape = [prodL Q, K] ∧
      ∀ q j, InB Q q → j < K → u.get [ravel Q q, j] = t.get (q ++ [j]) := by
  have e1 : t.shape.getLastD 0 = K := by rw [hs]; simp
  have e2 : t.shape.dropLast = Q := by rw [hs]; simp
  obtain ⟨u, eu, hm, hsh, hg⟩ := reshape_ok (t := t) (sh := [prodL Q, K]) (by
    rw [hs, prodL_append]; simp)
  refine ⟨u, ?_, hm, hsh, ?_⟩
  · unfold flatLast
    rw [e1, e2, if_neg (by omega)]
    exact eu
  · intro q j hq hj
    apply hg
    · rw [hs]; exact inB_concat.mpr ⟨hq, hj⟩
    · exact ⟨ravel_lt hq, hj, trivial⟩
    · rw [hs, ravel_append hq.length_eq]
      simp [ravel, prodL]

theorem unflatLast_ok {t : Tensor R} {Q : List Nat} {K : Nat} (hs : t.shape = [prodL Q, K]) :
    ∃ u, t.reshape (Q ++ [K]) = .ok u ∧ u.md = t.md ∧ u.shape = Q ++ [K] ∧
      ∀ q j, InB Q q → j < K → u.get (q ++ [j]) = t.get [ravel Q q, j] := by
  obtain ⟨u, eu, hm, hsh, hg⟩ := reshape_ok (t := t) (sh := Q ++ [K]) (by
    rw [hs, prodL_append]; simp)
  refine ⟨u, eu, hm, hsh, ?_⟩
  intro q j hq hj
  apply hg
  · rw [hs]; exact ⟨ravel_lt hq, hj, trivial⟩
  · exact inB_concat.mpr ⟨hq, hj⟩
  · rw [hs, ravel_append hq.length_eq]
    simp [ravel, prodL]

theorem cropTo_ok {t : Tensor R} {S : List Nat} (hl : t.rank = S.length)
    (h : ∀ i, i < S.length → S.getD i 0 ≤ t.shape.getD i 0) :
    ∃ u, cropTo t S = .ok u ∧ u.md = t.md ∧ u.shape = S ∧ ∀ idx, InB S idx → u.get idx = t.get idx := by
  have e : ((List.range t.rank).map fun i =>
      if i < S.length then min (S.getD i 0) (t.shape.getD i 0) else t.shape.getD i 0) = S := by
    apply list_eq_getD (by simp [hl])
    intro i hi
    simp only [List.length_map, List.length_range, hl] at hi
    rw [List.getD_eq_getElem _ _ (by simpa [hl] using hi)]
    simp only [List.getElem_map, List.getElem_range]
    rw [if_pos hi]
    exact min_eq_left (h i hi)
  refine ⟨_, if_neg (by omega), rfl, e, ?_⟩
  intro idx hidx
  rw [ofFn_get_of _ _ (by rw [e]; exact hidx)]

end

theorem synthesis_congr [NonUnitalNonAssocSemiring R] {f₀ f₁ : List R} {K : Nat} {a a' d d' : Nat → R} {m : ℤ}
    (h0 : ∀ k, k < K → a k = a' k) (h1 : ∀ k, k < K → d k = d' k) :
    synthesis f₀ f₁ K a d m = synthesis f₀ f₁ K a' d' m := by
  unfold synthesis
  refine Finset.sum_congr rfl fun k hk => ?_
  rw [Finset.mem_range] at hk
  rw [h0 k hk, h1 k hk]

/-- Reconstruction of one pair of bands along one axis; the approximation may be larger than the
detail. -/
theorem sepRec1_ok [NonUnitalNonAssocSemiring R] {w : Wavelet R} {F : Nat} {md : Meta} {a d : Tensor R} {k : Nat}
    (hF : 2 ≤ F) (h0 : w.recLo.length = F) (h1 : w.recHi.length = F) (hdt : isDtypeSupported md.dtype = true)
    (ham : a.md = md) (hdm : d.md = md) (hr : a.rank = d.rank)
    (hle : ∀ i, i < d.rank → d.shape.getD i 0 ≤ a.shape.getD i 0)
    (hk1 : 1 ≤ k) (hk2 : k ≤ d.rank) (hK : 1 ≤ d.shape.getD (d.rank - k) 0) :
    ∃ z, sepRec1 w k a d = .ok z ∧ z.md = md ∧
      z.shape = d.shape.set (d.rank - k) (2 * d.shape.getD (d.rank - k) 0 + 2 - F) ∧
      ∀ idx, InB z.shape idx → z.get idx = synthesis w.recLo w.recHi (d.shape.getD (d.rank - k) 0)
        (line a (d.rank - k) idx) (line d (d.rank - k) idx)
        ((idx.getD (d.rank - k) 0 + (F - 2) : ℕ) : ℤ) := by
  obtain ⟨S, hS⟩ : ∃ S, d.shape = S := ⟨_, rfl⟩
  have hSr : d.rank = S.length := by unfold Tensor.rank; rw [hS]
  rw [hSr] at hr hle hk2 hK ⊢
  rw [hS] at hle hK ⊢
  set r := S.length with hrdef
  set p := r - k with hp
  set K := S.getD p 0 with hKdef
  have hpr : p < r := by omega
  have hlr : r - 1 < r := by omega
  obtain ⟨a', ea, am, as, ag⟩ := cropTo_ok (t := a) (S := S) hr hle
  have har : a'.rank = r := by unfold Tensor.rank; rw [as]
  obtain ⟨ta, eta, tam, tas, tag⟩ := transposeLast_ok (t := a') (k := k) hk1 (by rw [har]; exact hk2)
  obtain ⟨td, etd, tdm, tds, tdg⟩ := transposeLast_ok (t := d) (k := k) hk1 (by rw [hSr]; exact hk2)
  rw [har, as] at tas tag
  rw [hSr, hS] at tds tdg
  rw [← hp] at tas tag tds tdg
  -- the transposed shape
  set T := swp (r - 1) p S with hT
  have hTl : T.length = r := by rw [hT, swp_length]
  have hTe : T = T.dropLast ++ [K] := by
    have := last_eq (l := T) (by omega)
    rw [hTl] at this
    have e : T.getD (r - 1) 0 = K := by
      rw [hT, swp_getD hlr hpr]
      by_cases h : r - 1 = p
      · rw [if_pos h, hKdef, h]
      · rw [if_neg h, if_pos rfl]
    rwa [e] at this
  obtain ⟨Q, hQ⟩ : ∃ Q, T.dropLast = Q := ⟨_, rfl⟩
  rw [hQ] at hTe
  obtain ⟨fa, efa, fam, fas, fag⟩ := flatLast_ok (t := ta) (Q := Q) (K := K) (by rw [tas]; exact hTe) hK
  obtain ⟨fd, efd, fdm, fds, fdg⟩ := flatLast_ok (t := td) (Q := Q) (K := K) (by rw [tds]; exact hTe) hK
  have hg2 : GoodAxes .none 2 1 := by
    refine ⟨le_rfl, rfl, ?_, by decide⟩
    intro x hx
    simp only [resolve, List.range_one, List.map_cons, List.map_nil, List.mem_singleton] at hx
    subst hx
    exact ⟨by decide, by decide⟩
  have hg1 : GoodAxes .none ([prodL Q, K] : List Nat).length 1 := hg2
  have hax1 : axis1 .none ([prodL Q, K] : List Nat).length = 1 := by simp [axis1, axesOf, resolve, axisOf]
  obtain ⟨hgen, -⟩ := waverec_gen (w := w) (h := .none) (md := md) (S := [prodL Q, K]) (c0 := fa) (rest := [fd]) hF h0 h1
    hg1 hdt (by
      rw [hax1]
      refine ⟨?_, ?_⟩
      · intro c hc
        simp only [List.mem_cons, List.not_mem_nil, or_false] at hc
        rcases hc with rfl | rfl
        · rw [fam, tam, am, ham]
        · rw [fdm, tdm, hdm]
      · intro c hc
        simp only [List.mem_cons, List.not_mem_nil, or_false] at hc
        rcases hc with rfl | rfl
        · rw [fas]; rfl
        · rw [fds]; rfl)
  rw [hax1] at hgen
  have ha1 : fa.shape.getD 1 0 = K := by rw [fas]; rfl
  have hd1 : fd.shape.getD 1 0 = K := by rw [fds]; rfl
  simp only [List.map_cons, List.map_nil, ha1, hd1, idwtLen, idwt] at hgen
  obtain ⟨z0, ez0, zm, zs, zg⟩ := hgen ⟨rfl, hK⟩
  replace zs : z0.shape = [prodL Q, 2 * K + 2 - F] := zs
  obtain ⟨z1, ez1, z1m, z1s, z1g⟩ := unflatLast_ok (t := z0) (Q := Q) zs
  have hz1r : z1.rank = r := by
    unfold Tensor.rank; rw [z1s]
    have : (Q ++ [K]).length = r := by rw [← hTe, hTl]
    simpa using this
  obtain ⟨z, ez, zzm, zzs, zzg⟩ := transposeLast_ok (t := z1) (k := k) hk1 (by rw [hz1r]; exact hk2)
  rw [hz1r, ← hp] at zzs zzg
  have hSs : z.shape = S.set p (2 * K + 2 - F) := by
    rw [zzs, z1s]
    have : Q ++ [2 * K + 2 - F] = T.set (r - 1) (2 * K + 2 - F) := by
      have := set_last (l := T) (v := 2 * K + 2 - F) (by omega)
      rw [hTl, hQ] at this
      exact this.symm
    rw [this, hT, swp_set' hlr hpr]
  refine ⟨z, ?_, ?_, hSs, ?_⟩
  · unfold sepRec1
    rw [hS]
    have e1 : ta.shape.dropLast = Q := by rw [tas, hQ]
    have e2 : z0.shape.getLastD 0 = 2 * K + 2 - F := by rw [zs]; rfl
    simp only [bind, Except.bind, ea, eta, etd, efa, efd, ez0, e1, e2, ez1]
    exact ez
  · rw [zzm, z1m, zm]
  · intro idx hidx
    rw [hSs] at hidx
    have hil : idx.length = r := by rw [hidx.length_eq, List.length_set]
    have hpos : idx.getD p 0 < 2 * K + 2 - F := inB_set_getD hpr hidx
    -- the swapped index
    have hsw : swp (r - 1) p idx = (swp (r - 1) p idx).dropLast ++ [idx.getD p 0] := by
      have := last_eq (l := swp (r - 1) p idx) (by rw [swp_length]; omega)
      rw [swp_length, hil] at this
      have e : (swp (r - 1) p idx).getD (r - 1) 0 = idx.getD p 0 := by
        rw [swp_getD (by omega) (by omega)]
        by_cases h : r - 1 = p
        · rw [if_pos h, h]
        · rw [if_neg h, if_pos rfl]
      rwa [e] at this
    obtain ⟨q, hq⟩ : ∃ q, (swp (r - 1) p idx).dropLast = q := ⟨_, rfl⟩
    rw [hq] at hsw
    have hinz : InB (swp (r - 1) p (S.set p (2 * K + 2 - F))) (swp (r - 1) p idx) :=
      inB_swp (by rw [List.length_set]; exact hlr) (by rw [List.length_set]; exact hpr) hidx
    have hzsh : swp (r - 1) p (S.set p (2 * K + 2 - F)) = Q ++ [2 * K + 2 - F] := by
      rw [swp_set hlr hpr, ← hT]
      have := set_last (l := T) (v := 2 * K + 2 - F) (by omega)
      rw [hTl, hQ] at this
      exact this
    rw [hzsh, hsw, inB_concat] at hinz
    have hzz := zzg (q ++ [idx.getD p 0]) (by rw [z1s]; exact inB_concat.mpr hinz)
    rw [← hsw, swp_swp (by omega) (by omega)] at hzz
    rw [hzz, hsw, z1g q _ hinz.1 hinz.2, zg _ (by rw [zs]; exact ⟨ravel_lt hinz.1, hinz.2, trivial⟩)]
    have hj : ∀ j, q ++ [j] = swp (r - 1) p (idx.set p j) := by
      intro j
      rw [swp_set (by omega) (by omega)]
      have := set_last (l := swp (r - 1) p idx) (v := j) (by rw [swp_length]; omega)
      rw [swp_length, hil, hq] at this
      exact this.symm
    have hinS : ∀ j, j < K → InB S (idx.set p j) := by
      intro j hj
      rw [inB_set_iff hpr hidx]
      exact hj
    refine synthesis_congr ?_ ?_
    · intro j hjK
      show fa.get [ravel Q q, j] = a.get (idx.set p j)
      rw [fag q j hinz.1 hjK, hj, tag _ (hinS j hjK), ag _ (hinS j hjK)]
    · intro j hjK
      show fd.get [ravel Q q, j] = d.get (idx.set p j)
      rw [fdg q j hinz.1 hjK, hj, tdg _ (hinS j hjK)]

end Verif
