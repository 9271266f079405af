/-
Specification side of C67 and C68 for packet objects and for the losses of the learnable wavelets.
-/
import Verif.Spec.Family
import Verif.Model.Packets
import Verif.Model.Losses

namespace Verif.Spec
open Backend
variable {T T' R S E K : Type}

/-- Apply a function to the tensor an operation carries. -/
def mapOp (φ : T → T') : Op T → Op T'
  | .read k => .read k
  | .init ks => .init ks
  | .set k t => .set k (φ t)
  | .transform x L => .transform (φ x) L
  | .reconstruct => .reconstruct

/-- Apply a function to the tensor of an outcome. -/
def mapOut (φ : T → T') : Out T → Out T'
  | .value t => .value (φ t)
  | .done => .done
  | .raised e => .raised e

/-- Apply a function to the four filters. -/
def mapB [Zero R] [Zero S] (φ : Tensor R → Tensor S) (b : FilterTensors R) : FilterTensors S :=
  ⟨φ b.decLo, φ b.decHi, φ b.recLo, φ b.recHi⟩

/-- A family of operations: only the tensor depends on the parameter. -/
inductive FamOp (𝓐 : (E → T) → Prop) : (E → Op T) → Prop where
  | read (k : Key) : FamOp 𝓐 fun _ => .read k
  | init (ks : List Key) : FamOp 𝓐 fun _ => .init ks
  | set (k : Key) {t : E → T} : 𝓐 t → FamOp 𝓐 fun θ => .set k (t θ)
  | transform {x : E → T} (L : Option Int) : 𝓐 x → FamOp 𝓐 fun θ => .transform (x θ) L
  | reconstruct : FamOp 𝓐 fun _ => .reconstruct

/-- A family of outcomes: the same exception for all parameters, or values that form a family. -/
inductive FamOut (𝓐 : (E → T) → Prop) : (E → Out T) → Prop where
  | value {t : E → T} : 𝓐 t → FamOut 𝓐 fun θ => .value (t θ)
  | done : FamOut 𝓐 fun _ => .done
  | raised (e : Err) : FamOut 𝓐 fun _ => .raised e

/-- A family of the four filters of a learnable wavelet. -/
structure FamB [Zero K] (𝓐 : (E → Tensor K) → Prop) (b : E → FilterTensors K) : Prop where
  decLo : 𝓐 fun θ => (b θ).decLo
  decHi : 𝓐 fun θ => (b θ).decHi
  recLo : 𝓐 fun θ => (b θ).recLo
  recHi : 𝓐 fun θ => (b θ).recHi

end Verif.Spec
