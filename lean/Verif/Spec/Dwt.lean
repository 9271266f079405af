/-
Specification side: infinite signal extensions, the textbook decimated wavelet transform and
its inverse.  Nothing here refers to the model of the code.
-/
import Verif.Spec.Wavelet
import Mathlib.Data.Nat.Find

namespace Verif.Spec
variable {R : Type}

/-- The boundary extension modes, named as in pywt / `constants.py:82-107`. -/
inductive Mode where
  | zero | constant | reflect | periodic | symmetric
  deriving DecidableEq, Repr

/-- Which sample of a length-`n` signal an extended signal shows at position `i : ℤ`
(`none`: the value 0). -/
def extIdx : Mode → Nat → ℤ → Option Nat
  | .zero, n, i => if 0 ≤ i ∧ i < n then some i.toNat else none
  | .constant, n, i =>                       -- x1 x1 | x1 x2 ... xn | xn xn
      if i < 0 then some 0 else if i < n then some i.toNat else some (n - 1)
  | .periodic, n, i => some (i % n).toNat    -- xn-1 xn | x1 x2 ... xn | x1 x2
  | .symmetric, n, i =>                      -- x2 x1 | x1 x2 ... xn | xn xn-1, period 2n
      let r := (i % (2 * n)).toNat
      some (if r < n then r else 2 * n - 1 - r)
  | .reflect, n, i =>                        -- x3 x2 | x1 x2 ... xn | xn-1 xn-2, period 2n-2
      if n ≤ 1 then some 0
      else
        let r := (i % (2 * n - 2)).toNat
        some (if r < n then r else 2 * n - 2 - r)

/-- The documented name of a mode, `constants.py:82-107`. -/
def Mode.name : Mode → String
  | .zero => "zero" | .constant => "constant" | .reflect => "reflect"
  | .periodic => "periodic" | .symmetric => "symmetric"

/-- Signals of length `n` on which one analysis step with filter length `F ≥ 2` is possible in a
given mode: reflection and wrap-around must stay within one period of the signal. -/
def Mode.Admits : Mode → (F n : Nat) → Prop
  | .zero, F, n => 4 ≤ F + n + n % 2
  | .constant, _, n => 1 ≤ n
  | .symmetric, _, n => 1 ≤ n
  | .reflect, F, n => F - 2 + n % 2 < n
  | .periodic, F, n => F - 2 + n % 2 ≤ n ∧ 1 ≤ n

/-- The infinite extension of the finite signal `x 0, ..., x (n-1)`. -/
def ext [Zero R] (m : Mode) (n : Nat) (x : Nat → R) (i : ℤ) : R :=
  match extIdx m n i with
  | some j => x j
  | none => 0

/-- Filter with `h` and keep every second output: `c[k] = ∑ⱼ h[j] e(2k+1-j)`. -/
def analysis [NonUnitalNonAssocSemiring R] (h : List R) (e : ℤ → R) (k : Nat) : R :=
  ∑ j ∈ Finset.range h.length, h.getD j 0 * e (2 * (k : ℤ) + 1 - j)

/-- Number of coefficients produced from `n` samples by a filter of length `F`
(for even `F` this is pywt's `⌊(n+F-1)/2⌋`). -/
def outLen (F n : Nat) : Nat := (n + n % 2 + F - 2) / 2

/-- One analysis step with filter `h` on a signal of length `n`. -/
def dwtStep [NonUnitalNonAssocSemiring R] (m : Mode) (h : List R) (n : Nat) (x : Nat → R)
    (k : Nat) : R :=
  analysis h (ext m n x) k

/-- Length of the level-`s` coefficients. -/
def levelLen (F n : Nat) : Nat → Nat
  | 0 => n
  | s + 1 => outLen F (levelLen F n s)

/-- Level-`s` approximation coefficients (level 0 is the signal itself). -/
def cA [NonUnitalNonAssocSemiring R] (m : Mode) (w : Wavelet R) (n : Nat) (x : Nat → R) :
    Nat → Nat → R
  | 0 => x
  | s + 1 => dwtStep m w.decLo (levelLen w.len n s) (cA m w n x s)

/-- Level-`s+1` detail coefficients. -/
def cD [NonUnitalNonAssocSemiring R] (m : Mode) (w : Wavelet R) (n : Nat) (x : Nat → R)
    (s : Nat) : Nat → R :=
  dwtStep m w.decHi (levelLen w.len n s) (cA m w n x s)

/-- Upsample by two, filter, add: `y(m) = ∑ₖ f₀[m-2k] lo[k] + f₁[m-2k] hi[k]`. -/
def synthesis [NonUnitalNonAssocSemiring R] (f₀ f₁ : List R) (K : Nat) (lo hi : Nat → R)
    (m : ℤ) : R :=
  ∑ k ∈ Finset.range K, (tap f₀ (m - 2 * k) * lo k + tap f₁ (m - 2 * k) * hi k)

/-- The textbook inverse transform: repeatedly synthesise and drop the first `F - 2` samples (the
filter delay).  Every detail comes with its length. -/
def idwt [NonUnitalNonAssocSemiring R] (f₀ f₁ : List R) (F : Nat) :
    (lo : Nat → R) → (details : List (Nat × (Nat → R))) → Nat → R
  | lo, [] => lo
  | lo, (K, hi) :: rest =>
    idwt f₀ f₁ F (fun m => synthesis f₀ f₁ K lo hi ((m + (F - 2) : ℕ) : ℤ)) rest

/-- Length of the inverse transform, from the length of the approximation and of the details: a
step yields the length of the next detail, the last one all `2K - (F-2)` valid samples. -/
def idwtLen (F : Nat) : Nat → List Nat → Nat
  | K, [] => K
  | _, [d] => 2 * d + 2 - F
  | _, _ :: n :: rest => idwtLen F n (n :: rest)

/-- The lengths of approximation and details fit together: both bands of a level agree and are not
empty, and the next level has the length of the synthesised signal or one less. -/
def Consistent (F : Nat) : Nat → List Nat → Prop
  | _, [] => True
  | K, [d] => d = K ∧ 1 ≤ K
  | K, d :: n :: rest => d = K ∧ 1 ≤ K ∧ (n + F = 2 * K + 2 ∨ n + F = 2 * K + 1) ∧
      Consistent F n (n :: rest)

/-- The next level has a size which is neither the synthesised length nor one less (and no band
clash occurs before). -/
def SizeClash (F : Nat) : Nat → List Nat → Prop
  | _, [] => False
  | _, [_] => False
  | K, d :: n :: rest => d = K ∧ 1 ≤ K ∧
      (¬ (n + F = 2 * K + 2 ∨ n + F = 2 * K + 1) ∨
        (n + F = 2 * K + 2 ∨ n + F = 2 * K + 1) ∧ SizeClash F n (n :: rest))

/-- The mode string (or `None`, which means `reflect`) selects the boundary extension `m`. -/
def Selects (mode : Option String) (m : Mode) : Prop :=
  mode = some m.name ∨ mode = none ∧ m = .reflect

/-- pywt's automatic level: the largest `L` with `(F-1) 2^L ≤ n`, 0 if there is none. -/
def autoLevel (F n : Nat) : Nat := Nat.findGreatest (fun L => (F - 1) * 2 ^ L ≤ n) n

/-- The number of levels a `level` argument asks for: negative levels count as 0, `None` is
automatic. -/
def levels (level : Option Int) (F n : Nat) : Nat :=
  match level with
  | some l => l.toNat
  | none => autoLevel F n

end Verif.Spec
