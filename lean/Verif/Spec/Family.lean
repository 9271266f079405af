/-
Specification side of C67 and C68.

C67: changing the numbers.  A function between two rings is applied entry by entry to tensors, filter banks,
containers and results.

C68: families of inputs.  A family is a function of a parameter `θ : E` (the weights of a network, a learning
rate, a time, …).  A class `𝓕` of number-valued functions of the parameter (the differentiable ones, the smooth
ones, the polynomial ones, …) is lifted to families of tensors, filter banks, containers and results of calls.
-/
import Verif.Spec.Rel

namespace Verif.Spec
variable {R S E K : Type}

/-- Apply a function that maps zero to zero to every entry of a tensor. -/
def mapT [Zero R] [Zero S] (φ : ZeroHom R S) (x : Tensor R) : Tensor S where
  md := x.md
  shape := x.shape
  get i := φ (x.get i)
  supp i h := by rw [x.supp i h, map_zero]

/-- Apply a function to every tap of a filter bank. -/
def mapW (φ : R → S) (w : Wavelet R) : Wavelet S :=
  ⟨w.decLo.map φ, w.decHi.map φ, w.recLo.map φ, w.recHi.map φ⟩

/-- Apply a function to every tensor of an entry of a container. -/
def mapE [Zero R] [Zero S] (φ : Tensor R → Tensor S) : Entry R → Entry S
  | .tensor x => .tensor (φ x)
  | .tuple a b c => .tuple (φ a) (φ b) (φ c)
  | .dict kv => .dict (kv.map fun p => (p.1, φ p.2))
  | .other => .other

/-- Apply a function to every tensor of a container. -/
def mapC [Zero R] [Zero S] (φ : Tensor R → Tensor S) (c : Coeffs R) : Coeffs S :=
  ⟨c.isList, c.items.map (mapE φ)⟩

/-- A class of number-valued functions of the parameter that contains the zero function and is closed under
sums and products. -/
structure FunClass [NonUnitalNonAssocSemiring K] (𝓕 : (E → K) → Prop) : Prop where
  zero : 𝓕 fun _ => 0
  add : ∀ {f g}, 𝓕 f → 𝓕 g → 𝓕 fun θ => f θ + g θ
  mul : ∀ {f g}, 𝓕 f → 𝓕 g → 𝓕 fun θ => f θ * g θ

/-- A family of tensors: dtype, device and shape do not depend on the parameter and every entry is a function of
the class. -/
def FamT [Zero K] (𝓕 : (E → K) → Prop) (x : E → Tensor K) : Prop :=
  ∃ md shape, (∀ θ, (x θ).md = md ∧ (x θ).shape = shape) ∧ ∀ i, 𝓕 fun θ => (x θ).get i

/-- A family of lists: the length does not depend on the parameter and every item is a family of the class. -/
def FamList {α : Type} (𝓐 : (E → α) → Prop) (l : E → List α) : Prop :=
  ∃ fs : List (E → α), (∀ f ∈ fs, 𝓐 f) ∧ ∀ θ, l θ = fs.map fun f => f θ

/-- A family of filter banks: the lengths do not depend on the parameter and every tap is a function of the
class. -/
structure FamW (𝓕 : (E → K) → Prop) (w : E → Wavelet K) : Prop where
  decLo : FamList 𝓕 fun θ => (w θ).decLo
  decHi : FamList 𝓕 fun θ => (w θ).decHi
  recLo : FamList 𝓕 fun θ => (w θ).recLo
  recHi : FamList 𝓕 fun θ => (w θ).recHi

/-- A family of entries of a container: kind and keys do not depend on the parameter. -/
inductive FamE [Zero K] (𝓐 : (E → Tensor K) → Prop) : (E → Entry K) → Prop where
  | tensor {x : E → Tensor K} : 𝓐 x → FamE 𝓐 fun θ => .tensor (x θ)
  | tuple {a b c : E → Tensor K} : 𝓐 a → 𝓐 b → 𝓐 c → FamE 𝓐 fun θ => .tuple (a θ) (b θ) (c θ)
  | dict {kv : List (String × (E → Tensor K))} : (∀ p ∈ kv, 𝓐 p.2) →
      FamE 𝓐 fun θ => .dict (kv.map fun p => (p.1, p.2 θ))
  | other : FamE 𝓐 fun _ => .other

/-- A family of containers: list or tuple, and the number of entries, do not depend on the parameter. -/
structure FamC [Zero K] (𝓐 : (E → Tensor K) → Prop) (c : E → Coeffs K) : Prop where
  kind : ∃ b, ∀ θ, (c θ).isList = b
  items : FamList (FamE 𝓐) fun θ => (c θ).items

/-- A family of calls: either every call raises the same exception, or all of them succeed and the results form a
family of the class. -/
def FamR {α : Type} (𝓐 : (E → α) → Prop) (r : E → Except Err α) : Prop :=
  (∃ e, ∀ θ, r θ = .error e) ∨ ∃ a : E → α, 𝓐 a ∧ ∀ θ, r θ = .ok (a θ)

end Verif.Spec
