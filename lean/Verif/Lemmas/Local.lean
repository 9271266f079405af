import Verif.Spec.Local
import Verif.Lemmas.Ext
import Verif.Lemmas.LoopNd

/-! Locality of the textbook transform. -/

namespace Verif.Spec
open Finset
variable {R : Type}

theorem Inside.step {F s lo hi k t : Nat} (h : Inside F (s + 1) lo hi k) (ht : t < F) :
    t ≤ 2 * k + 1 ∧ Inside F s lo hi (2 * k + 1 - t) := by
  obtain ⟨h1, h2⟩ := h
  obtain ⟨p, hp⟩ : ∃ p, 2 ^ s = p + 1 := ⟨2 ^ s - 1, by have := Nat.one_le_two_pow (n := s); omega⟩
  have e2 : 2 ^ (s + 1) = 2 * (p + 1) := by rw [pow_succ, hp]; ring
  rw [e2] at h1 h2
  have e3 : 2 * (p + 1) - 1 = p + (p + 1) := by omega
  rw [e3, Nat.add_mul] at h1
  have hle : t ≤ F - 1 := by omega
  have h4 : (p + 1) * t ≤ (p + 1) * (F - 1) := Nat.mul_le_mul_left _ hle
  have h5 : 2 * (p + 1) * (k + 1) = (p + 1) * (2 * k + 2) := by ring
  rw [h5] at h1 h2
  have h6 : (p + 1) * t < (p + 1) * (2 * k + 2) := by omega
  have h7 : t < 2 * k + 2 := Nat.lt_of_mul_lt_mul_left h6
  refine ⟨by omega, ?_⟩
  unfold Inside
  rw [hp, show 2 * k + 1 - t + 1 = 2 * k + 2 - t by omega, Nat.mul_sub (p + 1) (2 * k + 2) t, show p + 1 - 1 = p by omega]
  generalize (p + 1) * (2 * k + 2) = A at *
  generalize (p + 1) * t = B at *
  generalize (p + 1) * (F - 1) = D at *
  constructor
  · omega
  · omega

theorem levelLen_ge {F : Nat} (hF : 2 ≤ F) (n : Nat) : ∀ s, n ≤ 2 ^ s * levelLen F n s
  | 0 => by simp [levelLen]
  | s + 1 => by
    have ih := levelLen_ge hF n s
    have : levelLen F n s ≤ 2 * levelLen F n (s + 1) := by
      show _ ≤ 2 * outLen F (levelLen F n s)
      unfold outLen
      omega
    calc n ≤ 2 ^ s * levelLen F n s := ih
      _ ≤ 2 ^ s * (2 * levelLen F n (s + 1)) := Nat.mul_le_mul_left _ this
      _ = 2 ^ (s + 1) * levelLen F n (s + 1) := by rw [pow_succ]; ring

theorem Inside.lt {F s lo hi k n c : Nat} (hF : 2 ≤ F) (h : Inside F s lo hi k) (hn : hi + 2 ^ s * c ≤ n) :
    k + c < levelLen F n s := by
  have h1 := levelLen_ge hF n s
  have h2 : 2 ^ s * (k + 1 + c) ≤ 2 ^ s * levelLen F n s := by
    rw [Nat.mul_add]
    exact le_trans (Nat.add_le_add_right h.2 _) (le_trans hn h1)
  have h3 : k + 1 + c ≤ levelLen F n s := Nat.le_of_mul_le_mul_left h2 (by positivity)
  omega

/-- All coordinates satisfy the predicate of their window. -/
def AllW (P : Window → Nat → Prop) : List Window → List Nat → Prop
  | [], [] => True
  | w :: ws, k :: ks => P w k ∧ AllW P ws ks
  | _, _ => False

theorem insideN_eq (F s : Nat) : ∀ ws ks, InsideN F s ws ks ↔ AllW (fun w k => Inside F s w.lo w.hi k) ws ks
  | [], [] => Iff.rfl
  | w :: ws, k :: ks => by
    simp only [InsideN, AllW]
    rw [insideN_eq F s ws ks]
  | [], _ :: _ => Iff.rfl
  | _ :: _, [] => Iff.rfl

def GoodW (P : Window → Nat → Prop) (u : Nat) : List Window → List Nat → List Nat → Prop
  | [], [], [] => True
  | w :: ws, n :: ns, n' :: ns' => (∀ j, P w j → j < n ∧ j + u * w.shift < n') ∧ GoodW P u ws ns ns'
  | _, _, _ => False

theorem dwtN_local [NonUnitalNonAssocSemiring R] {m m' : Mode} {F c : Nat} {P Q : Window → Nat → Prop}
    (hPQ : ∀ w k t, Q w k → t < F → t ≤ 2 * k + 1 ∧ P w (2 * k + 1 - t)) :
    ∀ (ws : List Window) (fs : List (List R)) (ns ns' : List Nat) (X X' : List Nat → R) (ks : List Nat),
      fs.length = ws.length → (∀ f ∈ fs, f.length = F) → GoodW P (2 * c) ws ns ns' →
      (∀ js, AllW P ws js → X js = X' (moved (2 * c) ws js)) → AllW Q ws ks →
      dwtN m (fs.zip ns) X ks = dwtN m' (fs.zip ns') X' (moved c ws ks)
  | [], fs, ns, ns', X, X', ks, hl, hf, hg, hX, hk => by
    cases fs with
    | cons => simp at hl
    | nil =>
      simp only [List.zip_nil_left, dwtN]
      exact hX [] trivial
  | w :: ws, [], _, _, _, _, _, hl, _, _, _, _ => by simp at hl
  | w :: ws, f :: fs, [], ns', X, X', ks, hl, hf, hg, hX, hk => hg.elim
  | w :: ws, f :: fs, n :: ns, [], X, X', ks, hl, hf, hg, hX, hk => hg.elim
  | w :: ws, f :: fs, n :: ns, n' :: ns', X, X', [], hl, hf, hg, hX, hk => hk.elim
  | w :: ws, f :: fs, n :: ns, n' :: ns', X, X', k :: ks, hl, hf, hg, hX, hk => by
    simp only [List.zip_cons_cons, moved, dwtN]
    unfold dwtStep analysis
    refine sum_congr rfl fun t ht => ?_
    have hfl : f.length = F := hf f (by simp)
    have ht' : t < F := by rw [← hfl]; exact mem_range.mp ht
    obtain ⟨h1, h2⟩ := hPQ w k t hk.1 ht'
    obtain ⟨h3, h4⟩ := hg.1 _ h2
    have e1 : (2 * (k : ℤ) + 1 - t) = ((2 * k + 1 - t : ℕ) : ℤ) := by omega
    have e2 : (2 * ((k + c * w.shift : ℕ) : ℤ) + 1 - t) = ((2 * k + 1 - t + 2 * c * w.shift : ℕ) : ℤ) := by
      push_cast [h1]
      ring
    rw [e1, e2, ext_inside m _ h3, ext_inside m' _ h4]
    congr 1
    exact dwtN_local hPQ ws fs ns ns' _ _ ks (by simpa using hl) (fun g hg => hf g (by simp [hg])) hg.2
      (fun js hjs => hX (_ :: js) ⟨h2, hjs⟩) hk.2

theorem fits_good {F : Nat} (hF : 2 ≤ F) {S s : Nat} (hs : s ≤ S) :
    ∀ (ws : List Window) (ns ns' : List Nat), WindowsFit (2 ^ S) ws ns ns' →
      GoodW (fun w k => Inside F s w.lo w.hi k) (2 ^ (S - s)) ws (levelLens F ns s) (levelLens F ns' s)
  | [], [], [], _ => trivial
  | w :: ws, n :: ns, n' :: ns', h => by
    refine ⟨?_, fits_good hF hs ws ns ns' h.2.2⟩
    intro j hj
    refine ⟨by simpa using hj.lt hF (c := 0) (by simpa using h.1), hj.lt hF ?_⟩
    rw [← Nat.mul_assoc, ← pow_add, show s + (S - s) = S by omega]
    exact h.2.1
  | [], [], _ :: _, h => h.elim
  | [], _ :: _, _, h => h.elim
  | _ :: _, [], _, h => h.elim
  | _ :: _, _ :: _, [], h => h.elim

theorem fits_length {u : Nat} : ∀ (ws : List Window) (ns ns' : List Nat), WindowsFit u ws ns ns' →
    ws.length = ns.length ∧ ns'.length = ns.length
  | [], [], [], _ => ⟨rfl, rfl⟩
  | w :: ws, n :: ns, n' :: ns', h => by
    obtain ⟨h1, h2⟩ := fits_length ws ns ns' h.2.2
    exact ⟨by simp [h1], by simp [h2]⟩
  | [], [], _ :: _, h => h.elim
  | [], _ :: _, _, h => h.elim
  | _ :: _, [], _, h => h.elim
  | _ :: _, _ :: _, [], h => h.elim

theorem cDN_local_of [NonUnitalNonAssocSemiring R] {m m' : Mode} {w : Wavelet R} (hF : 2 ≤ w.len)
    (hhi : w.decHi.length = w.len) {S s : Nat} (hs : s + 1 ≤ S) {ws : List Window} {ns ns' : List Nat}
    (hfit : WindowsFit (2 ^ S) ws ns ns') {bs : List Bool} (hb : bs.length = ws.length) {X X' : List Nat → R}
    (ih : ∀ ks, InsideN w.len s ws ks → cAN m w ns X s ks = cAN m' w ns' X' s (moved (2 ^ (S - s)) ws ks))
    (ks : List Nat) (hk : InsideN w.len (s + 1) ws ks) :
    cDN m w ns X s bs ks = cDN m' w ns' X' s bs (moved (2 ^ (S - (s + 1))) ws ks) := by
  have e : 2 ^ (S - s) = 2 * 2 ^ (S - (s + 1)) := by
    rw [← pow_succ', show S - (s + 1) + 1 = S - s by omega]
  have hg := fits_good hF (show s ≤ S by omega) ws ns ns' hfit
  rw [e] at hg ih
  unfold cDN bandN
  refine dwtN_local (F := w.len) (P := fun w' k => Inside w.len s w'.lo w'.hi k)
    (Q := fun w' k => Inside w.len (s + 1) w'.lo w'.hi k) (fun w' k t h ht => h.step ht) ws _ _ _ _ _ ks ?_ ?_ hg ?_
    ((insideN_eq _ _ _ _).mp hk)
  · unfold bandFilt; simpa using hb
  · intro f hf
    unfold bandFilt at hf
    obtain ⟨b, -, rfl⟩ := List.mem_map.mp hf
    cases b
    · rfl
    · exact hhi
  · intro js hjs
    exact ih js ((insideN_eq _ _ _ _).mpr hjs)

theorem cAN_local [NonUnitalNonAssocSemiring R] {m m' : Mode} {w : Wavelet R} (hF : 2 ≤ w.len)
    (hhi : w.decHi.length = w.len) {S : Nat} {ws : List Window} {ns ns' : List Nat}
    (hfit : WindowsFit (2 ^ S) ws ns ns') {X X' : List Nat → R}
    (hX : ∀ js, InsideN w.len 0 ws js → X js = X' (moved (2 ^ S) ws js)) :
    ∀ s, s ≤ S → ∀ ks, InsideN w.len s ws ks → cAN m w ns X s ks = cAN m' w ns' X' s (moved (2 ^ (S - s)) ws ks)
  | 0, _, ks, hk => hX ks hk
  | s + 1, hs, ks, hk => by
    obtain ⟨h1, h2⟩ := fits_length ws ns ns' hfit
    have := cDN_local_of (m := m) (m' := m') hF hhi hs hfit (bs := lowBand ns.length) (by simp [lowBand, h1])
      (fun ks hk => cAN_local hF hhi hfit hX s (by omega) ks hk) ks hk
    show cDN m w ns X s (lowBand ns.length) ks = cDN m' w ns' X' s (lowBand ns'.length) _
    rw [h2]
    exact this

theorem cDN_local [NonUnitalNonAssocSemiring R] {m m' : Mode} {w : Wavelet R} (hF : 2 ≤ w.len)
    (hhi : w.decHi.length = w.len) {S : Nat} {ws : List Window} {ns ns' : List Nat}
    (hfit : WindowsFit (2 ^ S) ws ns ns') {X X' : List Nat → R}
    (hX : ∀ js, InsideN w.len 0 ws js → X js = X' (moved (2 ^ S) ws js)) {s : Nat} (hs : s + 1 ≤ S) {bs : List Bool}
    (hb : bs.length = ws.length) (ks : List Nat) (hk : InsideN w.len (s + 1) ws ks) :
    cDN m w ns X s bs ks = cDN m' w ns' X' s bs (moved (2 ^ (S - (s + 1))) ws ks) :=
  cDN_local_of hF hhi hs hfit hb (cAN_local hF hhi hfit hX s (by omega)) ks hk

/-! ### One axis -/

theorem cAN_one [NonUnitalNonAssocSemiring R] (m : Mode) (w : Wavelet R) (n : Nat) (v : Nat → R) :
    ∀ s k, cAN m w [n] (fun js => v (js.headD 0)) s [k] = cA m w n v s k
  | 0, k => rfl
  | s + 1, k => by
    show dwtStep m w.decLo (levelLen w.len n s) (fun j => cAN m w [n] (fun js => v (js.headD 0)) s [j]) k = _
    rw [funext fun j => cAN_one m w n v s j]
    rfl

theorem cDN_one [NonUnitalNonAssocSemiring R] (m : Mode) (w : Wavelet R) (n : Nat) (v : Nat → R) (s k : Nat) :
    cDN m w [n] (fun js => v (js.headD 0)) s [true] [k] = cD m w n v s k := by
  show dwtStep m w.decHi (levelLen w.len n s) (fun j => cAN m w [n] (fun js => v (js.headD 0)) s [j]) k = _
  rw [funext fun j => cAN_one m w n v s j]
  rfl

end Verif.Spec
