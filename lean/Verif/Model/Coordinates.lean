import Mathlib.Data.Matrix.Mul
import Mathlib.Analysis.SpecialFunctions.Trigonometric.Basic
/-
  Model of src/coordinates/coordinate_base.cpp, polar_coordinate.cpp, basis_matrix_coordinate.cpp and of
  src/property_cards/orthotropic_element_property_card_3D.cpp.
-/
namespace Verif.Coord
open Matrix

/-- The index pairs of the six-component vectors (xx, yy, zz, xy, yz, zx), coordinate_base.cpp:38-44, 80-86. -/
def ids (k : Fin 6) : Fin 3 × Fin 3 :=
  match k with
  | 0 => (0, 0)
  | 1 => (1, 1)
  | 2 => (2, 2)
  | 3 => (0, 1)
  | 4 => (1, 2)
  | 5 => (2, 0)

/-- `stress_strain_transformation_matrix(T, mat)`, coordinate_base.cpp:31-68: column `j < 3` is written by line 49, column `j + 3` by line 57. -/
def voigtMat {K : Type} [Add K] [Mul K] (T : Matrix (Fin 3) (Fin 3) K) : Matrix (Fin 6) (Fin 6) K := fun i j =>
  if j.val < 3 then T (ids j).1 (ids i).1 * T (ids j).2 (ids i).2
  else T (ids j).1 (ids i).1 * T (ids j).2 (ids i).2 + T (ids j).1 (ids i).2 * T (ids j).2 (ids i).1

/-- `stress_strain_transformation_matrix_sens(T, dT, mat)`, coordinate_base.cpp:72-102. -/
def voigtMatSens {K : Type} [Add K] [Mul K] (T dT : Matrix (Fin 3) (Fin 3) K) : Matrix (Fin 6) (Fin 6) K := fun i j =>
  if j.val < 3 then dT (ids j).1 (ids i).1 * T (ids j).2 (ids i).2 + T (ids j).1 (ids i).1 * dT (ids j).2 (ids i).2
  else dT (ids j).1 (ids i).1 * T (ids j).2 (ids i).2 + T (ids j).1 (ids i).1 * dT (ids j).2 (ids i).2
    + dT (ids j).1 (ids i).2 * T (ids j).2 (ids i).1 + T (ids j).1 (ids i).2 * dT (ids j).2 (ids i).1

/-- `PolarCoordinate::operator()`, polar_coordinate.cpp:37-51, for the angle `theta` returned by the user's function. -/
noncomputable def polar (theta : ℝ) : Matrix (Fin 3) (Fin 3) ℝ := fun i j =>
  if i = 0 ∧ j = 0 then Real.cos theta
  else if i = 1 ∧ j = 0 then Real.sin theta
  else if i = 0 ∧ j = 1 then -Real.sin theta
  else if i = 1 ∧ j = 1 then Real.cos theta
  else if i = 2 ∧ j = 2 then 1
  else 0

/-- `PolarCoordinate::derivative`, polar_coordinate.cpp:55-70. -/
noncomputable def polarDeriv (theta dtheta : ℝ) : Matrix (Fin 3) (Fin 3) ℝ := fun i j =>
  if i = 0 ∧ j = 0 then -Real.sin theta * dtheta
  else if i = 1 ∧ j = 0 then Real.cos theta * dtheta
  else if i = 0 ∧ j = 1 then -Real.cos theta * dtheta
  else if i = 1 ∧ j = 1 then -Real.sin theta * dtheta
  else 0

section ortho3d
variable {K : Type} [CommRing K]

/-- `OrthotropicProperty3D::StiffnessMatrix::operator()`, orthotropic_element_property_card_3D.cpp:217-245. -/
def stiffness3D (C : Matrix (Fin 6) (Fin 6) K) (A : Matrix (Fin 3) (Fin 3) K) : Matrix (Fin 6) (Fin 6) K :=
  voigtMat Aᵀ * C * (voigtMat Aᵀ)ᵀ

/-- `OrthotropicProperty3D::StiffnessMatrix::derivative`, orthotropic_element_property_card_3D.cpp:249-276. -/
def stiffness3DDeriv (C dC : Matrix (Fin 6) (Fin 6) K) (A dA : Matrix (Fin 3) (Fin 3) K) : Matrix (Fin 6) (Fin 6) K :=
  voigtMatSens Aᵀ dAᵀ * C * (voigtMat Aᵀ)ᵀ + voigtMat Aᵀ * dC * (voigtMat Aᵀ)ᵀ + voigtMat Aᵀ * C * (voigtMatSens Aᵀ dAᵀ)ᵀ

/-- `OrthotropicProperty3D::ThermalExpansionMatrix::operator()`, orthotropic_element_property_card_3D.cpp:332-356. -/
def expansion3D (C : Matrix (Fin 6) (Fin 6) K) (al : Matrix (Fin 6) (Fin 1) K) (A : Matrix (Fin 3) (Fin 3) K) : Matrix (Fin 6) (Fin 1) K :=
  voigtMat Aᵀ * C * al

/-- `OrthotropicProperty3D::ThermalExpansionMatrix::derivative`, orthotropic_element_property_card_3D.cpp:363-394. -/
def expansion3DDeriv (C dC : Matrix (Fin 6) (Fin 6) K) (al dal : Matrix (Fin 6) (Fin 1) K) (A dA : Matrix (Fin 3) (Fin 3) K) : Matrix (Fin 6) (Fin 1) K :=
  voigtMatSens Aᵀ dAᵀ * C * al + voigtMat Aᵀ * dC * al + voigtMat Aᵀ * C * dal

/-- `OrthotropicProperty3D::ThermalConductanceMatrix::operator()`, orthotropic_element_property_card_3D.cpp:454-467. -/
def conductance3D (k A : Matrix (Fin 3) (Fin 3) K) : Matrix (Fin 3) (Fin 3) K := Aᵀ * k * A

/-- `OrthotropicProperty3D::ThermalConductanceMatrix::derivative`, orthotropic_element_property_card_3D.cpp:472-491. -/
def conductance3DDeriv (k dk A dA : Matrix (Fin 3) (Fin 3) K) : Matrix (Fin 3) (Fin 3) K := dAᵀ * k * A + Aᵀ * dk * A + Aᵀ * k * dA

end ortho3d
end Verif.Coord
