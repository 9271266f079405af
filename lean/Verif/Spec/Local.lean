/-
Specification side: which samples a coefficient depends on.  Nothing here refers to the model of the code except the
container types.
-/
import Verif.Spec.Containers
import Mathlib.Algebra.Polynomial.Eval.Degree

namespace Verif.Spec
variable {R : Type}

/-- The coefficient `k` of level `s` of a transform with `F` taps is computed from the samples
`2^s (k+1) - 1 - (2^s - 1) (F - 1), …, 2^s (k+1) - 1` of an infinite signal; they all lie in the window `lo ≤ t < hi`. -/
def Inside (F s lo hi k : Nat) : Prop := lo + (2 ^ s - 1) * (F - 1) + 1 ≤ 2 ^ s * (k + 1) ∧ 2 ^ s * (k + 1) ≤ hi

/-- A window `lo ≤ t < hi` of one signal which is compared with the window of another signal that begins `shift` units
later. -/
structure Window where
  lo : Nat
  hi : Nat
  shift : Nat

/-- `Inside` along every axis, one window per axis. -/
def InsideN (F s : Nat) : List Window → List Nat → Prop
  | [], [] => True
  | w :: ws, k :: ks => Inside F s w.lo w.hi k ∧ InsideN F s ws ks
  | _, _ => False

/-- The windows lie in the signals: the first one has the sizes `ns`, the second one `ns'`; a unit of shift is `u`
samples. -/
def WindowsFit (u : Nat) : List Window → List Nat → List Nat → Prop
  | [], [], [] => True
  | w :: ws, n :: ns, n' :: ns' => w.hi ≤ n ∧ w.hi + u * w.shift ≤ n' ∧ WindowsFit u ws ns ns'
  | _, _, _ => False

/-- The position in the second signal that belongs to the position `ks` in the first one. -/
def moved (u : Nat) : List Window → List Nat → List Nat
  | w :: ws, k :: ks => (k + u * w.shift) :: moved u ws ks
  | _, _ => []

/-- The tensor `t` of the entry `e` holds the band `bs`. -/
def HoldsBand [Zero R] (e : Entry R) (bs : List Bool) (t : Tensor R) : Prop :=
  match e with
  | .tuple h v d => bs = [true, false] ∧ t = h ∨ bs = [false, true] ∧ t = v ∨ bs = [true, true] ∧ t = d
  | .dict kv => ∃ key, (key, t) ∈ kv ∧ bs = bandOfKey key
  | _ => False

/-- The filter has (at least) `p` vanishing moments: it annihilates the samples of `1, t, …, t^(p-1)`. -/
def VanishingMoments [Semiring R] (p : Nat) (h : List R) : Prop :=
  ∀ m, m < p → ∑ j ∈ Finset.range h.length, h.getD j 0 * (j : R) ^ m = 0

/-- The planes of two tensors agree on the windows. -/
def SameOn [Zero R] (F s u : Nat) (ws : List Window) (t : Tensor R) (ax idx : List Nat) (t' : Tensor R)
    (ax' idx' : List Nat) : Prop :=
  ∀ ks, InsideN F s ws ks → plane t ax idx ks = plane t' ax' idx' (moved u ws ks)

/-- Details and approximation of two transforms agree wherever the samples below do. -/
structure AgreeN [Zero R] (F S : Nat) (ws : List Window) (c : Coeffs R) (ax idx : List Nat) (c' : Coeffs R)
    (ax' idx' : List Nat) : Prop where
  detail : ∀ s, s < S → s + 1 < c.items.length → s + 1 < c'.items.length → ∀ e e' bs t t',
    c.items[c.items.length - 1 - s]? = some e → c'.items[c'.items.length - 1 - s]? = some e' →
    HoldsBand e bs t → HoldsBand e' bs t' → SameOn F (s + 1) (2 ^ (S - (s + 1))) ws t ax idx t' ax' idx'
  approx : c.items.length = c'.items.length → c.items.length ≤ S + 1 → ∃ a a', c.items[0]? = some (.tensor a) ∧
    c'.items[0]? = some (.tensor a') ∧
    SameOn F (c.items.length - 1) (2 ^ (S - (c.items.length - 1))) ws a ax idx a' ax' idx'

end Verif.Spec
