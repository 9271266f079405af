/-
Specification side: histories of three packet objects that differ only in the tensors.
-/
import Verif.Spec.Lin
import Verif.Model.Packets

namespace Verif.Spec
open Backend
variable {T : Type}

/-- Three operations of the same kind; the tensors handed over are related by `P`. -/
inductive Op3 (P : T → T → T → Prop) : Op T → Op T → Op T → Prop where
  | read (k : Key) : Op3 P (.read k) (.read k) (.read k)
  | init (ks : List Key) : Op3 P (.init ks) (.init ks) (.init ks)
  | set (k : Key) {x y z : T} : P x y z → Op3 P (.set k x) (.set k y) (.set k z)
  | transform (L : Option Int) {x y z : T} : P x y z →
      Op3 P (.transform x L) (.transform y L) (.transform z L)
  | reconstruct : Op3 P .reconstruct .reconstruct .reconstruct

/-- Three outcomes of the same kind: values related by `P`, no value, or the same exception. -/
inductive Out3 (P : T → T → T → Prop) : Out T → Out T → Out T → Prop where
  | value {x y z : T} : P x y z → Out3 P (.value x) (.value y) (.value z)
  | done : Out3 P .done .done .done
  | raised (e : Err) : Out3 P (.raised e) (.raised e) (.raised e)

end Verif.Spec
