/-
C82 for the stationary transform.
-/
import Verif.Props.Scaled
import Verif.Props.Swt

namespace Verif
open Tensor Spec
variable {R : Type}

theorem swtStep_scale [CommSemiring R] {n d : Nat} (c η : R) (f : List R) {v v' : Nat → R} (h : ∀ j, v' j = η * v j) (k : Nat) :
    swtStep (f.map fun a => c * a) d n v' k = (c * η) * swtStep f d n v k := by
  unfold swtStep
  rw [List.length_map, Finset.mul_sum]
  refine Finset.sum_congr rfl fun j _ => ?_
  rw [getD_scale, ext_scale η h]
  ring

theorem swtA_scale [CommSemiring R] {α β γ δ : R} {w w' : Wavelet R} (hw : ScaledBank α β γ δ w w') {n : Nat} (v : Nat → R) :
    ∀ s k, swtA w' n v s k = α ^ s * swtA w n v s k
  | 0, k => by simp [swtA]
  | s + 1, k => by
    show swtStep w'.decLo (2 ^ s) n (swtA w' n v s) k = _
    rw [hw.decLo, swtStep_scale α (α ^ s) _ (swtA_scale hw v s), pow_succ']
    rfl

theorem swtD_scale [CommSemiring R] {α β γ δ : R} {w w' : Wavelet R} (hw : ScaledBank α β γ δ w w') {n : Nat} (v : Nat → R)
    (s k : Nat) : swtD w' n v s k = (α ^ s * β) * swtD w n v s k := by
  show swtStep w'.decHi (2 ^ s) n (swtA w' n v s) k = _
  rw [hw.decHi, swtStep_scale β (α ^ s) _ (swtA_scale hw v s), mul_comm β]
  rfl

theorem ext_scale_on [CommSemiring R] {n : Nat} (hn : 0 < n) (η : R) {v v' : Nat → R} (h : ∀ j, j < n → v' j = η * v j) (i : ℤ) :
    ext .periodic n v' i = η * ext .periodic n v i := by
  unfold ext
  cases hi : extIdx .periodic n i with
  | none => simp
  | some j => exact h j (extIdx_lt hn hi)

/-- The details a stationary reconstruction gets, as functions. -/
def SwtFuns [CommSemiring R] (γ δ : R) (n : Nat) : List (Nat → R) → List (Nat → R) → Prop
  | [], [] => True
  | h :: hs, h' :: hs' => (∀ k, k < n → h' k = γ ^ hs.length * δ * h k) ∧ SwtFuns γ δ n hs hs'
  | _, _ => False

theorem iswtFrom_scale [Field R] {γ δ : R} {n : Nat} (hn : 0 < n) (f₀ f₁ : List R) (hl : f₁.length = f₀.length) :
    ∀ (his his' : List (Nat → R)) (lo lo' : Nat → R), SwtFuns γ δ n his his' →
      (∀ k, k < n → lo' k = γ ^ his.length * lo k) → ∀ m, m < n →
      iswtFrom (f₀.map fun a => γ * a) (f₁.map fun a => δ * a) n lo his m = iswtFrom f₀ f₁ n lo' his' m
  | [], [], lo, lo', _, h0, m, hm => by
    show lo m = lo' m
    rw [h0 m hm]; simp
  | hi :: his, hi' :: his', lo, lo', hf, h0, m, hm => by
    have hlen : his'.length = his.length := by
      have : ∀ (a b : List (Nat → R)), SwtFuns γ δ n a b → b.length = a.length := by
        intro a
        induction a with
        | nil => intro b h; cases b with | nil => rfl | cons => exact h.elim
        | cons x a ih => intro b h; cases b with | nil => exact h.elim | cons y b => simp [ih b h.2]
      exact this _ _ hf.2
    show iswtFrom _ _ n (iswtStep _ _ (2 ^ his.length) n lo hi) his m = iswtFrom f₀ f₁ n (iswtStep f₀ f₁ (2 ^ his'.length) n lo' hi') his' m
    rw [hlen]
    refine iswtFrom_scale hn f₀ f₁ hl his his' _ _ hf.2 (fun k hk => ?_) m hm
    unfold iswtStep
    rw [List.length_map, ← mul_div_assoc, Finset.mul_sum]
    congr 1
    refine Finset.sum_congr rfl fun j _ => ?_
    rw [getD_scale, getD_scale, ext_scale_on hn _ h0, ext_scale_on hn _ hf.1, List.length_cons, pow_succ]
    ring
  | [], _ :: _, _, _, h, _, _, _ => h.elim
  | _ :: _, [], _, _, h, _, _, _ => h.elim

namespace Props

/-- **C82, stationary analysis.** Multiplying the analysis filters by `α` and `β` multiplies the approximation of `swt` by
`α ^ L` and the detail with `s` levels before it (towards the signal) by `α ^ s β`. -/
theorem c82_swt [CommSemiring R] (x : Tensor R) (w w' : Wavelet R) (α β γ δ : R) (level : Option Int) (axis : AxisHint)
    (hg : GoodAxes axis x.rank 1) (hdt : x.md.dtype = .float32 ∨ x.md.dtype = .float64) (hF : 2 ≤ w.len)
    (he : w.len % 2 = 0) (hhi : w.decHi.length = w.len) (hn : 0 < x.shape.getD (axis1 axis x.rank) 0)
    (hwr : WrapOk (x.shape.getD (axis1 axis x.rank) 0) w.len (swtLevel level (x.shape.getD (axis1 axis x.rank) 0)))
    (hw : ScaledBank α β γ δ w w') :
    ∃ cs cs', swt x w level axis = .ok cs ∧ swt x w' level axis = .ok cs' ∧ cs'.length = cs.length ∧
      ∀ q t t', cs[q]? = some t → cs'[q]? = some t' →
        Times (if q = 0 then α ^ (cs.length - 1) else α ^ (cs.length - 1 - q) * β) t t' := by
  have hhi' : w'.decHi.length = w'.len := by rw [hw.len, hw.decHi]; simpa using hhi
  obtain ⟨cs, e, h⟩ := c24_textbook x w level axis hg hdt hF he hhi hn hwr
  obtain ⟨cs', e', h'⟩ := c24_textbook x w' level axis hg hdt (by rw [hw.len]; exact hF) (by rw [hw.len]; exact he) hhi' hn
    (by rw [hw.len]; exact hwr)
  refine ⟨cs, cs', e, e', by rw [h.length, h'.length], ?_⟩
  generalize axis1 axis x.rank = a at *
  generalize swtLevel level (x.shape.getD a 0) = L at *
  intro q t t' hq hq'
  rw [h.length, Nat.add_sub_cancel]
  match q, hq, hq' with
  | 0, hq, hq' =>
    rw [if_pos rfl]
    exact times_of (alongAxis_axes (h.approx t hq)) (alongAxis_axes (h'.approx t' hq')) fun X ks hk => swtA_scale hw _ L _
  | q + 1, hq, hq' =>
    have hlt' : q + 1 < cs.length := (List.getElem?_eq_some_iff.mp hq).1
    rw [h.length] at hlt'
    obtain ⟨s, hs, rfl⟩ : ∃ s, s < L ∧ q = L - (s + 1) := ⟨L - (q + 1), by omega, by omega⟩
    rw [if_neg (by omega), show L - (L - (s + 1) + 1) = s by omega]
    rw [show L - (s + 1) + 1 = L - s by omega] at hq hq'
    exact times_of (alongAxis_axes (h.detail s t hs hq)) (alongAxis_axes (h'.detail s t' hs hq')) fun X ks hk =>
      swtD_scale hw _ s _

theorem swtFuns_of [CommSemiring R] {γ δ : R} {S : List Nat} {a : Nat} (ha : a < S.length) {idx : List Nat} (hi : InB S idx) :
    ∀ {rest rest' : List (Tensor R)}, (∀ t ∈ rest, t.shape = S) → rest'.length = rest.length →
      (∀ q t t', rest[q]? = some t → rest'[q]? = some t' → Times (γ ^ (rest.length - 1 - q) * δ) t t') →
      SwtFuns γ δ (S.getD a 0) (rest.map fun c => line c a idx) (rest'.map fun c => line c a idx)
  | [], [], _, _, _ => trivial
  | t :: rest, t' :: rest', hs, hl, hr => by
    refine ⟨fun k hk => ?_, swtFuns_of ha hi (fun t ht => hs t (by simp [ht])) (by simpa using hl) fun q u u' hu hu' => ?_⟩
    · have h := hr 0 t t' rfl rfl
      have := h.get (idx.set a k) (by
        rw [hs t (by simp), inB_iff]
        have hil : idx.length = S.length := hi.length_eq
        refine ⟨by simp [hil], fun d hd => ?_⟩
        by_cases hda : d = a
        · subst hda
          rw [getD_set_self (by omega)]
          exact hk
        · rw [getD_set_ne (Ne.symm hda)]
          exact (inB_iff.mp hi).2 d hd)
      rw [List.length_map]
      unfold line
      simpa using this
    · have := hr (q + 1) u u' hu hu'
      rwa [show (t :: rest).length - 1 - (q + 1) = rest.length - 1 - q by simp; omega] at this
  | [], _ :: _, _, h, _ => by simp at h
  | _ :: _, [], _, h, _ => by simp at h

/-- **C82, stationary synthesis.** `iswt` with synthesis filters multiplied by `γ` and `δ` is `iswt` of coefficients multiplied
by the corresponding powers. -/
theorem c82_iswt [Field R] (w w' : Wavelet R) (α β γ δ : R) (F : Nat) (axis : AxisHint) (md : Meta) (S : List Nat)
    (c0 c0' : Tensor R) (rest rest' : List (Tensor R)) (hF : 2 ≤ F) (he : F % 2 = 0) (h0 : w.recLo.length = F)
    (h1 : w.recHi.length = F) (hw : ScaledBank α β γ δ w w') (hg : GoodAxes axis S.length 1)
    (hdt : md.dtype = .float32 ∨ md.dtype = .float64) (hn : 0 < S.getD (axis1 axis S.length) 0)
    (hwr : WrapOk (S.getD (axis1 axis S.length) 0) F rest.length)
    (hmd : ∀ c ∈ c0 :: rest, c.md = md) (hsh : ∀ c ∈ c0 :: rest, c.shape = S)
    (hc0 : Times (γ ^ rest.length) c0 c0') (hl : rest'.length = rest.length)
    (hr : ∀ q t t', rest[q]? = some t → rest'[q]? = some t' → Times (γ ^ (rest.length - 1 - q) * δ) t t') :
    ∃ z, iswt (c0 :: rest) w' axis = .ok z ∧ iswt (c0' :: rest') w axis = .ok z := by
  have h0' : w'.recLo.length = F := by rw [hw.recLo]; simpa using h0
  have h1' : w'.recHi.length = F := by rw [hw.recHi]; simpa using h1
  have ha : axis1 axis S.length < S.length := axis1_lt hg
  have hmem : ∀ t' ∈ rest', ∃ t ∈ rest, t'.md = t.md ∧ t'.shape = t.shape := by
    intro t' ht'
    obtain ⟨i, hi, rfl⟩ := List.mem_iff_getElem.mp ht'
    have h := hr i _ _ (List.getElem?_eq_getElem (by omega)) (List.getElem?_eq_getElem hi)
    exact ⟨rest[i], List.getElem_mem _, h.md, h.shape⟩
  obtain ⟨z, ez, z1, z2, z3⟩ := c23_inverse_textbook w' F axis md S c0 rest hF he h0' h1' hg hdt hn hwr hmd hsh
  obtain ⟨z', ez', z1', z2', z3'⟩ := c23_inverse_textbook w F axis md S c0' rest' hF he h0 h1 hg hdt hn (by rw [hl]; exact hwr)
    (fun c hc => by
      rcases List.mem_cons.mp hc with rfl | hc
      · rw [hc0.md]; exact hmd c0 (by simp)
      · obtain ⟨t, ht, hf, _⟩ := hmem c hc
        rw [hf]; exact hmd t (by simp [ht]))
    (fun c hc => by
      rcases List.mem_cons.mp hc with rfl | hc
      · rw [hc0.shape]; exact hsh c0 (by simp)
      · obtain ⟨t, ht, _, hf⟩ := hmem c hc
        rw [hf]; exact hsh t (by simp [ht]))
  refine ⟨z, ez, ?_⟩
  rw [ez']
  congr 1
  refine Tensor.ext' (by rw [z1, z1']) (by rw [z2, z2']) fun idx hidx => ?_
  rw [z2'] at hidx
  rw [z3 idx hidx, z3' idx hidx, hw.recLo, hw.recHi]
  refine (iswtFrom_scale hn _ _ (by rw [h0, h1]) _ _ _ _ (swtFuns_of ha hidx (fun t ht => hsh t (by simp [ht])) hl hr)
    (fun k hk => ?_) _ ((inB_iff.mp hidx).2 _ ha)).symm
  have := swtFuns_of (γ := 1) (δ := γ ^ rest.length) ha hidx (rest := [c0]) (rest' := [c0'])
    (fun t ht => hsh t (by simp at ht; simp [ht])) rfl (by
      intro q t t' h h'
      match q, h, h' with
      | 0, h, h' => cases h; cases h'; simpa using hc0
      | _ + 1, h, _ => simp at h)
  simpa using this.1 k hk

/-! ### The hypotheses can be met -/

theorem exAxis0 : GoodAxes (.int 0) 2 1 := ⟨by decide, by decide, ⟨by
  intro a ha
  simp [resolve] at ha
  subst ha
  exact ⟨by decide, by decide⟩, by simp [resolve]⟩⟩

/-- Two levels of the stationary transform of a signal of length 8, axis 0 of a batch, with a four-tap bank and the bank with
its filters multiplied by 2, 3, 5 and 7. -/
example : ∃ cs cs', swt (slope [8, 3] 1) exW4 (some 2) (.int 0) = .ok cs ∧ swt (slope [8, 3] 1) exW4s (some 2) (.int 0) = .ok cs' ∧
    cs'.length = cs.length ∧ ∀ q t t', cs[q]? = some t → cs'[q]? = some t' →
      Times (if q = 0 then 2 ^ (cs.length - 1) else 2 ^ (cs.length - 1 - q) * 3) t t' :=
  c82_swt (slope [8, 3] 1) exW4 exW4s 2 3 5 7 (some 2) (.int 0) exAxis0 (.inr rfl) (by decide)
    (by decide) rfl (by decide) (by
      intro s hs
      have hs : s < 2 := hs
      interval_cases s
      · exact .inr (by decide)
      · exact .inr (by decide)) exW4s_scaled

example : ∃ z, iswt [slope [8, 3] 1, slope [8, 3] 2, slope [8, 3] 3] exW4s (.int 0) = .ok z ∧
    iswt [timesT (5 ^ 2) (slope [8, 3] 1), timesT (5 * 7) (slope [8, 3] 2), timesT 7 (slope [8, 3] 3)] exW4 (.int 0) = .ok z :=
  c82_iswt exW4 exW4s 2 3 5 7 4 (.int 0) ⟨.float64, 0⟩ [8, 3] _ _ [slope [8, 3] 2, slope [8, 3] 3]
    [timesT (5 * 7) (slope [8, 3] 2), timesT 7 (slope [8, 3] 3)] (by decide) (by decide) rfl rfl exW4s_scaled
    exAxis0 (.inr rfl) (by decide) (by
      intro s hs
      have hs : s < 2 := hs
      interval_cases s
      · exact .inr (by decide)
      · exact .inr (by decide)) (by simp [slope]) (by simp [slope]) (timesT_times _ _) rfl (by
      intro q t t' h h'
      match q, h, h' with
      | 0, h, h' => cases h; cases h'; simpa using timesT_times (5 * 7 : ℚ) (slope [8, 3] 2)
      | 1, h, h' => cases h; cases h'; simpa using timesT_times (7 : ℚ) (slope [8, 3] 3)
      | _ + 2, h, _ => simp at h)

end Props
end Verif
