/- Concrete cases for the theorems of `Verif.Props.LeastSquares` and `Verif.Props.Adjoint` (C72, C60). -/
import Verif.Witness.Setup

namespace Verif.Witness
open Tensor Spec Props

example := w1.imp fun cs h => c72_isometry_1d exI (bump exI) lattice 4 _ _ _ cs lattice_orth (Or.inl rfl) h (bump_same _)
example := w2.imp fun c h => c72_isometry_2d exI (bump exI) lattice 4 _ _ _ c lattice_orth (Or.inl rfl) h.1 (bump_same _)
example := w3.imp fun c h => c72_isometry_3d exV (bump exV) lattice 4 _ _ _ c lattice_orth (Or.inl rfl) (by decide) h.1 (bump_same _)
example := f2.imp fun c h => c72_isometry_fs2 exI (bump exI) lattice 4 _ _ _ c lattice_orth (Or.inl rfl) h.1 (bump_same _)
example := f3.imp fun c h => c72_isometry_fs3 exV (bump exV) lattice 4 _ _ _ c lattice_orth (Or.inl rfl) h.1 (bump_same _)
example := s1.imp fun cs h => c72_isometry_swt exI lattice 4 _ _ (bump exI) cs lattice_orth exI_axis1 (by decide) (by decide) sw_wrap h
  (bump_same _)
example := w1.imp fun cs h => c72_pythagoras_1d exI lattice 4 _ _ _ cs (ones cs) lattice_orth (Or.inl rfl) h (ones_same _)
example := w3.imp fun c h => c72_pythagoras_3d exV lattice 4 _ _ _ c (onesC c) lattice_orth (Or.inl rfl) (by decide) h.1 h.2
example := f2.imp fun c h => c72_pythagoras_fs2 exI lattice 4 _ _ _ c (onesC c) lattice_orth (Or.inl rfl) h.1 h.2
example := f3.imp fun c h => c72_pythagoras_fs3 exV lattice 4 _ _ _ c (onesC c) lattice_orth (Or.inl rfl) h.1 h.2
example := s1.imp fun cs h => c72_pythagoras_swt exI lattice 4 _ _ cs (ones cs) lattice_orth exI_axis1 (by decide) (by decide) sw_wrap h
  (ones_same _)
example := w1.imp fun cs h => c72_least_squares_1d exI lattice 4 _ _ _ cs (ones cs) lattice_orth (Or.inl rfl) h (ones_same _)
example := w2.imp fun c h => c72_least_squares_2d exI lattice 4 _ _ _ c (onesC c) lattice_orth (Or.inl rfl) h.1 h.2
example := w3.imp fun c h => c72_least_squares_3d exV lattice 4 _ _ _ c (onesC c) lattice_orth (Or.inl rfl) (by decide) h.1 h.2
example := f2.imp fun c h => c72_least_squares_fs2 exI lattice 4 _ _ _ c (onesC c) lattice_orth (Or.inl rfl) h.1 h.2
example := f3.imp fun c h => c72_least_squares_fs3 exV lattice 4 _ _ _ c (onesC c) lattice_orth (Or.inl rfl) h.1 h.2
example := s1.imp fun cs h => c72_least_squares_swt exI lattice 4 _ _ cs (ones cs) lattice_orth exI_axis1 (by decide) (by decide) sw_wrap h
  (ones_same _)
example := w1.imp fun cs h => c72_contraction_1d exI lattice 4 _ _ _ cs (ones cs) cs lattice_orth (Or.inl rfl) h (ones_same _)
  (List.forall₂_same.mpr fun _ _ => ⟨rfl, rfl⟩)
example := w2.imp fun c h => c72_contraction_2d exI lattice 4 _ _ _ c (onesC c) c lattice_orth (Or.inl rfl) h.1 h.2
  (form_trans h.2 (form_symm h.2))
example := w3.imp fun c h => c72_contraction_3d exV lattice 4 _ _ _ c (onesC c) c lattice_orth (Or.inl rfl) (by decide) h.1 h.2
  (form_trans h.2 (form_symm h.2))
example := f2.imp fun c h => c72_contraction_fs2 exI lattice 4 _ _ _ c (onesC c) c lattice_orth (Or.inl rfl) h.1 h.2
  (form_trans h.2 (form_symm h.2))
example := f3.imp fun c h => c72_contraction_fs3 exV lattice 4 _ _ _ c (onesC c) c lattice_orth (Or.inl rfl) h.1 h.2
  (form_trans h.2 (form_symm h.2))
example := s1.imp fun cs h => c72_contraction_swt exI lattice 4 _ _ cs (ones cs) cs lattice_orth exI_axis1 (by decide) (by decide) sw_wrap h
  (ones_same _) (List.forall₂_same.mpr fun _ _ => ⟨rfl, rfl⟩)

example := w3.imp fun c h => c60_adjoint_3d exV lattice 4 _ _ _ c (onesC c) (mirrored_of_orth lattice_orth) (Or.inl rfl) (by decide) h.1 h.2
example := f2.imp fun c h => c60_adjoint_fs2 exI lattice 4 _ _ _ c (onesC c) (mirrored_of_orth lattice_orth) (Or.inl rfl) h.1 h.2
example := f3.imp fun c h => c60_adjoint_fs3 exV lattice 4 _ _ _ c (onesC c) (mirrored_of_orth lattice_orth) (Or.inl rfl) h.1 h.2
example := f2.imp fun c h => c60_energy_fs2 exI lattice 4 _ _ _ c lattice_orth (Or.inl rfl) h.1

end Verif.Witness
