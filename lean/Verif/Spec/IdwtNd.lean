/-
Specification side: the inverse wavelet transform along several axes, for arbitrary
coefficients.  Of the model only the container types `Entry` and `Coeffs` are used.
-/
import Verif.Spec.Containers
import Verif.Torch.Conv
import Mathlib.Algebra.Ring.Basic

namespace Verif.Spec
open Tensor (boxSum)
variable {R : Type}

/-- Synthesis along every axis: the one-dimensional synthesis along the first axis of the synthesis along the
others.  `c bs` is the band `bs` (`false` low pass, `true` high pass, one letter per axis). -/
def synthesisN [NonUnitalNonAssocSemiring R] (f₀ f₁ : List R) :
    List Nat → (List Bool → List Nat → R) → List ℤ → R
  | K :: Ks, c, m :: ms =>
    synthesis f₀ f₁ K (fun k => synthesisN f₀ f₁ Ks (fun bs ks => c (false :: bs) (k :: ks)) ms)
      (fun k => synthesisN f₀ f₁ Ks (fun bs ks => c (true :: bs) (k :: ks)) ms) m
  | _, c, _ => c [] []

/-- The inverse transform along several axes: repeatedly synthesise and drop the first `F - 2` samples along every
axis.  Every level of details comes with its sizes; the band without a high-pass letter is what the levels before
gave. -/
def idwtN [NonUnitalNonAssocSemiring R] (f₀ f₁ : List R) (F : Nat) :
    (lo : List Nat → R) → (details : List (List Nat × (List Bool → List Nat → R))) → List Nat → R
  | lo, [] => lo
  | lo, (Ks, hi) :: rest =>
    idwtN f₀ f₁ F (fun ks => synthesisN f₀ f₁ Ks (fun bs => if true ∈ bs then hi bs else lo)
      (ks.map fun k => ((k + (F - 2) : ℕ) : ℤ))) rest

/-- The sizes of the inverse transform, from those of the approximation and of the details. -/
def idwtLenN (F : Nat) : List Nat → List (List Nat) → List Nat
  | Ks, [] => Ks
  | _, [d] => d.map fun K => 2 * K + 2 - F
  | _, _ :: n :: rest => idwtLenN F n (n :: rest)

/-- The next level has, along every axis, the size of the synthesised signal or one less. -/
def NextFits (F : Nat) (Ks ns : List Nat) : Prop :=
  List.Forall₂ (fun K n => n + F = 2 * K + 2 ∨ n + F = 2 * K + 1) Ks ns

/-- The sizes of approximation and details fit together: all bands of a level agree and are not empty, and the
next level fits. -/
def ConsistentN (F : Nat) : List Nat → List (List Nat) → Prop
  | _, [] => True
  | Ks, [d] => d = Ks ∧ ∀ K ∈ Ks, 1 ≤ K
  | Ks, d :: n :: rest => d = Ks ∧ (∀ K ∈ Ks, 1 ≤ K) ∧ NextFits F Ks n ∧ ConsistentN F n (n :: rest)

/-- Some level has sizes which do not fit (and nothing is wrong before). -/
def SizeClashN (F : Nat) : List Nat → List (List Nat) → Prop
  | _, [] => False
  | _, [_] => False
  | Ks, d :: n :: rest => d = Ks ∧ (∀ K ∈ Ks, 1 ≤ K) ∧
      (¬ NextFits F Ks n ∨ NextFits F Ks n ∧ SizeClashN F n (n :: rest))

/-- The tensor of the band `bs` in a detail entry. -/
def bandGet [Zero R] (e : Entry R) (bs : List Bool) : Option (Tensor R) :=
  match e with
  | .tuple h v d =>
    if bs = [true, false] then some h else if bs = [false, true] then some v
    else if bs = [true, true] then some d else none
  | .dict kv => (kv.find? fun q => bandOfKey q.1 == bs).map Prod.snd
  | _ => none

/-- The plane of the band `bs` of a detail entry (0 if there is no such band). -/
def bandPlane [Zero R] (e : Entry R) (ax idx : List Nat) (bs : List Bool) : List Nat → R :=
  match bandGet e bs with
  | some t => plane t ax idx
  | none => fun _ => 0

/-- The tensor has the meta data `md` and the shape `s`. -/
def Uniform [Zero R] (md : Meta) (s : List Nat) (t : Tensor R) : Prop := t.md = md ∧ t.shape = s

end Verif.Spec
