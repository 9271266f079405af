import Verif.Lemmas.ErrNd
import Verif.Lemmas.Rec1
import Verif.Lemmas.Char1
import Verif.Spec.Containers

/-! The analysis and synthesis loops of the multidimensional transforms. -/

namespace Verif
open Tensor Spec
variable {R : Type}

/-! ### Analysis -/

/-- The shape of the analysis loops. -/
def decLoop [Zero R] (step : Tensor R → Except Err (Tensor R × Entry R)) :
    Nat → Tensor R → Except Err (Tensor R × List (Entry R))
  | 0, t => .ok (t, [])
  | L + 1, t => do
    let q ← step t
    let r ← decLoop step L q.1
    pure (r.1, q.2 :: r.2)

/-- The body of the loop of `wavedec2`. -/
def step2 [NonUnitalNonAssocSemiring R] (w : Wavelet R) (mode : Option String) (filt t : Tensor R) :
    Except Err (Tensor R × Entry R) := do
  let p ← fwtPad t w mode 2
  let res ← conv2d p filt 2
  match split1 res with
  | [ll, lh, hl, hh] => pure (ll, .tuple lh.squeeze1 hl.squeeze1 hh.squeeze1)
  | _ => .error .valueError

/-- The body of the loop of `wavedec3`. -/
def step3 [NonUnitalNonAssocSemiring R] (w : Wavelet R) (mode : Option String) (filt t : Tensor R) :
    Except Err (Tensor R × Entry R) := do
  let t ← ensureChannel3 t
  let p ← fwtPad t w mode 3
  let res ← conv3d p filt 2
  match (split1 res).map Tensor.squeeze1 with
  | [lll, llh, lhl, lhh, hll, hlh, hhl, hhh] =>
    pure (lll, .dict [("aad", llh), ("ada", lhl), ("add", lhh), ("daa", hll), ("dad", hlh),
        ("dda", hhl), ("ddd", hhh)])
  | _ => .error .valueError

theorem wavedec2Loop_eq [NonUnitalNonAssocSemiring R] (w : Wavelet R) (mode : Option String)
    (filt : Tensor R) : ∀ (L : Nat) (t : Tensor R),
      wavedec2Loop w mode filt L t = decLoop (step2 w mode filt) L t
  | 0, _ => rfl
  | L + 1, t => by
    unfold wavedec2Loop decLoop step2
    simp only [bind, Except.bind, wavedec2Loop_eq w mode filt L]
    cases fwtPad t w mode 2 with
    | error _ => rfl
    | ok p =>
      cases hc : conv2d p filt 2 with
      | error _ => simp only [hc]
      | ok res =>
        simp only [hc]
        rcases split1 res with _ | ⟨a, _ | ⟨b, _ | ⟨c, _ | ⟨d, _ | ⟨e, l⟩⟩⟩⟩⟩ <;> rfl

theorem wavedec3Loop_eq [NonUnitalNonAssocSemiring R] (w : Wavelet R) (mode : Option String)
    (filt : Tensor R) : ∀ (L : Nat) (t : Tensor R),
      wavedec3Loop w mode filt L t = decLoop (step3 w mode filt) L t
  | 0, _ => rfl
  | L + 1, t => by
    unfold wavedec3Loop decLoop step3
    simp only [bind, Except.bind, wavedec3Loop_eq w mode filt L]
    cases ensureChannel3 t with
    | error _ => rfl
    | ok t =>
      simp only
      cases fwtPad t w mode 3 with
      | error _ => rfl
      | ok p =>
        cases hc : conv3d p filt 2 with
        | error _ => simp only [hc]
        | ok res =>
          simp only [hc]
          rcases (split1 res).map Tensor.squeeze1 with
            _ | ⟨a, _ | ⟨b, _ | ⟨c, _ | ⟨d, _ | ⟨e, _ | ⟨f, _ | ⟨g, _ | ⟨h, _ | ⟨i, l⟩⟩⟩⟩⟩⟩⟩⟩⟩ <;> rfl

theorem levelLens_shift (F : Nat) (ns : List Nat) (s : Nat) :
    levelLens F (ns.map (outLen F)) s = levelLens F ns (s + 1) := by
  unfold levelLens
  rw [List.map_map]
  apply List.map_congr_left
  intro n _
  exact levelLen_shift F n s

theorem levelLens_zero (F : Nat) (ns : List Nat) : levelLens F ns 0 = ns := by
  unfold levelLens
  simp [levelLen]

theorem levelLens_succ (F : Nat) (ns : List Nat) (s : Nat) :
    levelLens F ns (s + 1) = (levelLens F ns s).map (outLen F) := by
  unfold levelLens
  rw [List.map_map]; rfl

theorem levelLens_length (F : Nat) (ns : List Nat) (s : Nat) : (levelLens F ns s).length = ns.length := by
  simp [levelLens]

theorem cAN_shift [NonUnitalNonAssocSemiring R] (m : Mode) (w : Wavelet R) (ns : List Nat)
    (X : List Nat → R) : ∀ s, cAN m w (ns.map (outLen w.len)) (bandN m w (lowBand ns.length) ns X) s
      = cAN m w ns X (s + 1)
  | 0 => by
    show bandN m w (lowBand ns.length) ns X = bandN m w (lowBand ns.length) (levelLens w.len ns 0) X
    rw [levelLens_zero]
  | s + 1 => by
    show bandN m w (lowBand _) (levelLens w.len (ns.map (outLen w.len)) s) (cAN m w (ns.map (outLen w.len))
      (bandN m w (lowBand ns.length) ns X) s) = bandN m w (lowBand ns.length) (levelLens w.len ns (s + 1))
        (cAN m w ns X (s + 1))
    rw [cAN_shift m w ns X s, levelLens_shift, List.length_map]

theorem cDN_shift [NonUnitalNonAssocSemiring R] (m : Mode) (w : Wavelet R) (ns : List Nat)
    (X : List Nat → R) (s : Nat) (bs : List Bool) :
    cDN m w (ns.map (outLen w.len)) (bandN m w (lowBand ns.length) ns X) s bs = cDN m w ns X (s + 1) bs := by
  unfold cDN
  rw [cAN_shift, levelLens_shift]

section dec
variable [NonUnitalNonAssocSemiring R] {step : Tensor R → Except Err (Tensor R × Entry R)} {m : Mode}
  {w : Wavelet R} {md : Meta} {B n : Nat} {D : (List Bool → Tensor R → Prop) → Entry R → Prop}
  {St St1 : List Nat → (Nat → List Nat → R) → Tensor R → Prop}

/-- What a step of an analysis loop does to a signal which admits the mode. -/
def StepOk (step : Tensor R → Except Err (Tensor R × Entry R)) (m : Mode) (w : Wavelet R) (md : Meta)
    (B n : Nat) (D : (List Bool → Tensor R → Prop) → Entry R → Prop)
    (St St1 : List Nat → (Nat → List Nat → R) → Tensor R → Prop) : Prop :=
  ∀ ns X t, ns.length = n → St ns X t → (∀ k ∈ ns, m.Admits w.len k) →
    ∃ t' e, step t = .ok (t', e) ∧
      St1 (ns.map (outLen w.len)) (fun b => bandN m w (lowBand n) ns (X b)) t' ∧
      D (fun bs u => ShowsN u md B (ns.map (outLen w.len)) (fun b => bandN m w bs ns (X b))) e

theorem decLoop_ok (h1 : ∀ ns X t, St1 ns X t → St ns X t) (hstep : StepOk step m w md B n D St St1) :
    ∀ (L : Nat) (ns : List Nat) (X : Nat → List Nat → R) (t : Tensor R), ns.length = n → St ns X t →
      (∀ s, s < L → ∀ k ∈ levelLens w.len ns s, m.Admits w.len k) →
      ∃ r ds, decLoop step L t = .ok (r, ds) ∧ (L = 0 → r = t) ∧
        (0 < L → St1 (levelLens w.len ns L) (fun b => cAN m w ns (X b) L) r) ∧ ds.length = L ∧
        ∀ s e, ds[s]? = some e →
          D (fun bs u => ShowsN u md B (levelLens w.len ns (s + 1)) (fun b => cDN m w ns (X b) s bs)) e
  | 0, ns, X, t, _, _, _ => ⟨t, [], rfl, fun _ => rfl, fun h => absurd h (lt_irrefl _), rfl, by simp⟩
  | L + 1, ns, X, t, hn, ht, ha => by
    have ha0 : ∀ k ∈ ns, m.Admits w.len k := by
      have := ha 0 (by omega)
      rwa [levelLens_zero] at this
    obtain ⟨t', e, es, ht', he⟩ := hstep ns X t hn ht ha0
    obtain ⟨r, ds, el, hr0, hr1, hdl, hds⟩ := decLoop_ok h1 hstep L (ns.map (outLen w.len)) _ t'
      (by simpa using hn) (h1 _ _ _ ht') (by
        intro s hs
        rw [levelLens_shift]
        exact ha (s + 1) (by omega))
    subst hn
    refine ⟨r, e :: ds, ?_, fun h => absurd h (by omega), fun _ => ?_, by simp [hdl], ?_⟩
    · unfold decLoop
      simp only [bind, Except.bind, es, el]
      rfl
    · rcases Nat.eq_zero_or_pos L with hL | hL
      · subst hL
        rw [hr0 rfl, levelLens_succ, levelLens_zero]
        have : (fun b => cAN m w ns (X b) (0 + 1)) = fun b => bandN m w (lowBand ns.length) ns (X b) := by
          funext b
          rw [← cAN_shift]; rfl
        rw [this]
        exact ht'
      · have := hr1 hL
        rw [levelLens_shift] at this
        simpa only [cAN_shift] using this
    · intro s e' hs
      cases s with
      | zero =>
        simp only [List.getElem?_cons_zero, Option.some.injEq] at hs
        subst hs
        rw [levelLens_succ, levelLens_zero]
        have : ∀ b bs, cDN m w ns (X b) 0 bs = bandN m w bs ns (X b) := by
          intro b bs
          unfold cDN
          rw [levelLens_zero]; rfl
        simp only [this]
        exact he
      | succ s =>
        have := hds s e' (by simpa using hs)
        rw [levelLens_shift] at this
        simpa only [cDN_shift] using this

/-- If the loop succeeds every level admits the mode. -/
theorem decLoop_inv (h1 : ∀ ns X t, St1 ns X t → St ns X t) (hstep : StepOk step m w md B n D St St1)
    (hinv : ∀ ns X t q, ns.length = n → St ns X t → step t = .ok q → ∀ k ∈ ns, m.Admits w.len k) :
    ∀ (L : Nat) (ns : List Nat) (X : Nat → List Nat → R) (t : Tensor R) q, ns.length = n → St ns X t →
      decLoop step L t = .ok q → ∀ s, s < L → ∀ k ∈ levelLens w.len ns s, m.Admits w.len k
  | 0, _, _, _, _, _, _, _, s, hs => absurd hs (by omega)
  | L + 1, ns, X, t, q, hn, ht, h, s, hs => by
    unfold decLoop at h
    simp only [bind, Except.bind] at h
    cases es : step t with
    | error _ => rw [es] at h; cases h
    | ok q' =>
      have ha0 := hinv ns X t q' hn ht es
      rw [es] at h
      simp only at h
      cases s with
      | zero => rw [levelLens_zero]; exact ha0
      | succ s =>
        obtain ⟨t', e, es', ht', -⟩ := hstep ns X t hn ht ha0
        rw [es] at es'
        cases es'
        simp only at h
        cases er : decLoop step L t' with
        | error _ => rw [er] at h; cases h
        | ok q'' =>
          have := decLoop_inv h1 hstep hinv L _ _ t' q'' (by simpa using hn) (h1 _ _ _ ht') er s (by omega)
          rwa [levelLens_shift] at this

end dec

theorem bands2_len : ∀ bs ∈ bands2, bs.length = 2 := by
  intro bs h
  simp only [bands2, List.mem_cons, List.not_mem_nil, or_false] at h
  rcases h with rfl | rfl | rfl | rfl <;> rfl

theorem bands3_len : ∀ bs ∈ bands3', bs.length = 3 := by
  intro bs h
  simp only [bands3', List.mem_cons, List.not_mem_nil, or_false] at h
  rcases h with rfl | rfl | rfl | rfl | rfl | rfl | rfl | rfl <;> rfl

theorem key_aad : bandOfKey "aad" = [false, false, true] := by decide
theorem key_ada : bandOfKey "ada" = [false, true, false] := by decide
theorem key_add : bandOfKey "add" = [false, true, true] := by decide
theorem key_daa : bandOfKey "daa" = [true, false, false] := by decide
theorem key_dad : bandOfKey "dad" = [true, false, true] := by decide
theorem key_dda : bandOfKey "dda" = [true, true, false] := by decide
theorem key_ddd : bandOfKey "ddd" = [true, true, true] := by decide

section steps
variable [Semiring R] {m : Mode} {w : Wavelet R} {md : Meta} {B : Nat} {filt : Tensor R}

/-- The size-one slices of the convolution show the bands. -/
theorem split_bands {res : Tensor R} {bands : List (List Bool)} {ns : List Nat} {X : Nat → List Nat → R}
    (h1 : res.md = md) (h2 : res.shape = B :: bands.length :: ns.map (outLen w.len))
    (h3 : ∀ b o bs ks, b < B → bands[o]? = some bs → InB (ns.map (outLen w.len)) ks →
        res.get (b :: o :: ks) = bandN m w bs ns (X b) ks) :
    (split1 res).length = bands.length ∧ ∀ (o : Nat) bs u, bands[o]? = some bs → (split1 res)[o]? = some u →
      ShowsChN u md B (ns.map (outLen w.len)) (fun b => bandN m w bs ns (X b)) := by
  obtain ⟨s1, s2⟩ := split1_ok h2
  refine ⟨s1, ?_⟩
  intro o bs u hb hu
  obtain ⟨u1, u2, u3⟩ := s2 o u hu
  refine ⟨u1.trans h1, u2, ?_⟩
  intro b k hb' hk
  rw [u3 b k hb' hk]
  exact h3 b o bs k hb' hb hk

theorem step2_ok (hF : 2 ≤ w.len) (hhi : w.decHi.length = w.len)
    (hf : IsFilt filt md 2 w.len bands2 (tapAt w.decLo w.decHi true w.len)) :
    StepOk (step2 w (some m.name) filt) m w md B 2 IsTuple (fun ns X t => ShowsChN t md B ns X)
      (fun ns X t => ShowsChN t md B ns X) := by
  intro ns X t hn ht ha
  obtain ⟨p, res, ep, pr, er, r1, r2, r3⟩ := analysisN_ok (filt := filt) (bands := bands2) hF hhi
    (by omega) (by rw [hn]; exact bands2_len) (by rw [hn]; exact hf) ht ha
  obtain ⟨s1, s2⟩ := split_bands r1 r2 r3
  rcases hsp : split1 res with _ | ⟨a, _ | ⟨b, _ | ⟨c, _ | ⟨d, _ | ⟨e, l⟩⟩⟩⟩⟩ <;>
    rw [hsp] at s1 <;> simp only [bands2, List.length_cons, List.length_nil] at s1 <;> try omega
  rw [hsp] at s2
  refine ⟨a, .tuple b.squeeze1 c.squeeze1 d.squeeze1, ?_, s2 0 _ a rfl rfl, ?_⟩
  · unfold step2
    rw [hn] at ep
    rw [hn] at pr
    have : conv2d p filt 2 = .ok res := by unfold conv2d; rw [if_pos pr]; exact er
    simp only [bind, Except.bind, ep, this, hsp]
    rfl
  · exact ⟨_, _, _, rfl, (s2 1 _ b rfl rfl).squeeze1, (s2 2 _ c rfl rfl).squeeze1,
      (s2 3 _ d rfl rfl).squeeze1⟩

theorem step2_inv (hF : 2 ≤ w.len)
    (hf : IsFilt filt md 2 w.len bands2 (tapAt w.decLo w.decHi true w.len)) {ns : List Nat}
    {X : Nat → List Nat → R} {t : Tensor R} {q : Tensor R × Entry R} (hn : ns.length = 2)
    (ht : ShowsChN t md B ns X) (h : step2 w (some m.name) filt t = .ok q) :
    ∀ k ∈ ns, m.Admits w.len k := by
  unfold step2 at h
  simp only [bind, Except.bind] at h
  cases ep : fwtPad t w (some m.name) 2 with
  | error _ => rw [ep] at h; cases h
  | ok p =>
    rw [ep] at h
    simp only at h
    cases ec : conv2d p filt 2 with
    | error _ => rw [ec] at h; cases h
    | ok res =>
      have ec' : convNd p filt 2 = .ok res := by
        unfold conv2d at ec
        split_ifs at ec
        exact ec
      exact analysisN_inv hF (by omega) ht.shape hf.shape (by rw [hn]; exact ep) ec'

/-- The states of the loop of `wavedec3`: with or without channel axis. -/
def St3 (md : Meta) (B : Nat) (ns : List Nat) (X : Nat → List Nat → R) (t : Tensor R) : Prop :=
  ShowsChN t md B ns X ∨ ShowsN t md B ns X

theorem ensureChannel3_ok {ns : List Nat} {X : Nat → List Nat → R} {t : Tensor R} (hn : ns.length = 3)
    (ht : St3 md B ns X t) : ∃ t', ensureChannel3 t = .ok t' ∧ ShowsChN t' md B ns X := by
  unfold ensureChannel3
  rcases ht with ht | ht
  · rw [if_neg (by unfold Tensor.rank; rw [ht.shape]; simp [hn])]
    exact ⟨t, rfl, ht⟩
  · rw [if_pos (by unfold Tensor.rank; rw [ht.shape]; simp [hn]), unsqueeze1_ok ht.shape]
    exact ⟨_, rfl, ht.withChannel⟩

theorem step3_ok (hF : 2 ≤ w.len) (hhi : w.decHi.length = w.len)
    (hf : IsFilt filt md 3 w.len bands3' (tapAt w.decLo w.decHi true w.len)) :
    StepOk (step3 w (some m.name) filt) m w md B 3 (IsDict keys3) (fun ns X t => St3 md B ns X t)
      (fun ns X t => ShowsN t md B ns X) := by
  intro ns X t₀ hn ht₀ ha
  obtain ⟨t, et, ht⟩ := ensureChannel3_ok hn ht₀
  obtain ⟨p, res, ep, pr, er, r1, r2, r3⟩ := analysisN_ok (filt := filt) (bands := bands3') hF hhi
    (by omega) (by rw [hn]; exact bands3_len) (by rw [hn]; exact hf) ht ha
  obtain ⟨s1, s2⟩ := split_bands r1 r2 r3
  rcases hsp : split1 res with
      _ | ⟨a, _ | ⟨b, _ | ⟨c, _ | ⟨d, _ | ⟨e, _ | ⟨f, _ | ⟨g, _ | ⟨h, _ | ⟨i, l⟩⟩⟩⟩⟩⟩⟩⟩⟩ <;>
    rw [hsp] at s1 <;> simp only [bands3', List.length_cons, List.length_nil] at s1 <;> try omega
  rw [hsp] at s2
  refine ⟨a.squeeze1, .dict [("aad", b.squeeze1), ("ada", c.squeeze1), ("add", d.squeeze1),
    ("daa", e.squeeze1), ("dad", f.squeeze1), ("dda", g.squeeze1), ("ddd", h.squeeze1)], ?_,
    (s2 0 _ a rfl rfl).squeeze1, ?_⟩
  · unfold step3
    rw [hn] at ep
    rw [hn] at pr
    have : conv3d p filt 2 = .ok res := by unfold conv3d; rw [if_pos pr]; exact er
    simp only [bind, Except.bind, et, ep, this, hsp]
    rfl
  · refine ⟨_, rfl, rfl, ?_⟩
    intro q hq
    simp only [List.mem_cons, List.not_mem_nil, or_false] at hq
    rcases hq with rfl | rfl | rfl | rfl | rfl | rfl | rfl <;> dsimp only
    · rw [key_aad]; exact (s2 1 _ b rfl rfl).squeeze1
    · rw [key_ada]; exact (s2 2 _ c rfl rfl).squeeze1
    · rw [key_add]; exact (s2 3 _ d rfl rfl).squeeze1
    · rw [key_daa]; exact (s2 4 _ e rfl rfl).squeeze1
    · rw [key_dad]; exact (s2 5 _ f rfl rfl).squeeze1
    · rw [key_dda]; exact (s2 6 _ g rfl rfl).squeeze1
    · rw [key_ddd]; exact (s2 7 _ h rfl rfl).squeeze1

theorem step3_inv (hF : 2 ≤ w.len)
    (hf : IsFilt filt md 3 w.len bands3' (tapAt w.decLo w.decHi true w.len)) {ns : List Nat}
    {X : Nat → List Nat → R} {t : Tensor R} {q : Tensor R × Entry R} (hn : ns.length = 3)
    (ht : St3 md B ns X t) (h : step3 w (some m.name) filt t = .ok q) :
    ∀ k ∈ ns, m.Admits w.len k := by
  obtain ⟨t', et, ht'⟩ := ensureChannel3_ok hn ht
  unfold step3 at h
  simp only [bind, Except.bind, et] at h
  cases ep : fwtPad t' w (some m.name) 3 with
  | error _ => rw [ep] at h; cases h
  | ok p =>
    rw [ep] at h
    simp only at h
    cases ec : conv3d p filt 2 with
    | error _ => rw [ec] at h; cases h
    | ok res =>
      have ec' : convNd p filt 2 = .ok res := by
        unfold conv3d at ec
        split_ifs at ec
        exact ec
      exact analysisN_inv hF (by omega) ht'.shape hf.shape (by rw [hn]; exact ep) ec'

end steps

end Verif
