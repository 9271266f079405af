/-
Specification side: one-dimensional operations along one axis of a tensor.
-/
import Verif.Torch.Tensor
import Verif.Spec.Dwt

namespace Verif.Spec
variable {R : Type} [Zero R]

/-- The samples along axis `a` through position `idx`. -/
def line (t : Tensor R) (a : Nat) (idx : List Nat) : Nat → R :=
  fun j => t.get (idx.set a j)

/-- `z` arises from `x` by applying the one-dimensional operation `f` (with `K` output samples)
to every line of `x` along axis `a`; all other axes are carried along. -/
structure AlongAxis (a K : Nat) (f : (Nat → R) → Nat → R) (x z : Tensor R) : Prop where
  md : z.md = x.md
  shape : z.shape = x.shape.set a K
  get : ∀ idx, InB z.shape idx → z.get idx = f (line x a idx) (idx.getD a 0)

/-- `u` is `t` extended by `l` samples before and `r` samples after along axis `a`. -/
structure Extended (m : Mode) (t : Tensor R) (a l r : Nat) (u : Tensor R) : Prop where
  md : u.md = t.md
  shape : u.shape = t.shape.set a (l + t.shape.getD a 0 + r)
  get : ∀ idx, InB u.shape idx →
    u.get idx = ext m (t.shape.getD a 0) (line t a idx) ((idx.getD a 0 : ℤ) - l)

/-- A coefficient list with the textbook coefficients. -/
structure IsDwt {R : Type} [NonUnitalNonAssocSemiring R] (m : Mode) (w : Wavelet R) (a L : Nat) (x : Tensor R)
    (cs : List (Tensor R)) : Prop where
  length : cs.length = L + 1
  approx : ∀ t, cs[0]? = some t → AlongAxis a (levelLen w.len (x.shape.getD a 0) L)
    (fun v => cA m w (x.shape.getD a 0) v L) x t
  detail : ∀ s d, s < L → cs[L - s]? = some d →
    AlongAxis a (levelLen w.len (x.shape.getD a 0) (s + 1)) (fun v => cD m w (x.shape.getD a 0) v s) x d

/-- A list of coefficients which agree in everything but the size along axis `a`. -/
structure SameBut (a : Nat) (md : Meta) (S : List Nat) (cs : List (Tensor R)) : Prop where
  md : ∀ c ∈ cs, c.md = md
  shape : ∀ c ∈ cs, c.shape = S.set a (c.shape.getD a 0)

end Verif.Spec
