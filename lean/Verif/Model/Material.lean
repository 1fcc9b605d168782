import Mathlib.Data.Real.Basic
import Mathlib.Data.Matrix.Mul
import Mathlib.Data.Fin.VecNotation
import Mathlib.LinearAlgebra.Matrix.Notation
/-
  Material property cards: `property_cards/isotropic_material_property_card.cpp`, `property_cards/orthotropic_material_property_card.cpp`.
  Simplifications common to the file: `Real` is ℝ; a `FieldFunction<Real>` enters through its value and its derivative at the evaluation point;
  division by zero follows Lean (`x / 0 = 0`), so theorems carry the hypotheses that make the divisors nonzero.
-/
namespace Verif.Material
open Matrix

/-! ### Isotropic card -/

/-- `StiffnessMatrix1D::operator()` (isotropic_material_property_card.cpp:280-290). -/
noncomputable def iso1D (E nu : ℝ) : Matrix (Fin 2) (Fin 2) ℝ := !![E, 0; 0, E / 2 / (1 + nu)]

/-- `StiffnessMatrix1D::derivative` (isotropic_material_property_card.cpp:294-317). -/
noncomputable def dIso1D (E nu dE dnu : ℝ) : Matrix (Fin 2) (Fin 2) ℝ :=
  dE • !![1, 0; 0, 1 / 2 / (1 + nu)] + dnu • !![0, 0; 0, -E / 2 / (1 + nu) ^ 2]

/-- `TransverseShearStiffnessMatrix::operator()` (isotropic_material_property_card.cpp:335-345). -/
noncomputable def isoShear (E nu : ℝ) : Matrix (Fin 2) (Fin 2) ℝ := !![E / 2 / (1 + nu), 0; 0, E / 2 / (1 + nu)]

/-- `TransverseShearStiffnessMatrix::derivative` (isotropic_material_property_card.cpp:350-374): the derivative is computed into the local `dm` (361-363) and never
added to the output `m`, which stays zero. -/
noncomputable def dIsoShear (E nu dE dnu : ℝ) : Matrix (Fin 2) (Fin 2) ℝ :=
  let dG := 1 / 2 / (1 + nu) * dE + -E / 2 / (1 + nu) ^ 2 * dnu
  let _dm : Matrix (Fin 2) (Fin 2) ℝ := !![dG, 0; 0, dG]
  0

/-- `StiffnessMatrix2D::operator()` (isotropic_material_property_card.cpp:396-426). -/
noncomputable def iso2D (planeStress : Bool) (E nu : ℝ) : Matrix (Fin 3) (Fin 3) ℝ :=
  if planeStress then
    !![E / (1 - nu * nu), E * nu / (1 - nu * nu), 0; E * nu / (1 - nu * nu), E / (1 - nu * nu), 0; 0, 0, E / 2 / (1 + nu)]
  else
    !![E * (1 - nu) / ((1 + nu) * (1 - 2 * nu)), E * nu / ((1 + nu) * (1 - 2 * nu)), 0;
       E * nu / ((1 + nu) * (1 - 2 * nu)), E * (1 - nu) / ((1 + nu) * (1 - 2 * nu)), 0; 0, 0, E / 2 / (1 + nu)]

/-- `StiffnessMatrix2D::derivative` (isotropic_material_property_card.cpp:432-493). -/
noncomputable def dIso2D (planeStress : Bool) (E nu dE dnu : ℝ) : Matrix (Fin 3) (Fin 3) ℝ :=
  if planeStress then
    dE • !![1 / (1 - nu * nu), 1 * nu / (1 - nu * nu), 0; 1 * nu / (1 - nu * nu), 1 / (1 - nu * nu), 0; 0, 0, 1 / 2 / (1 + nu)] +
    dnu • !![E / (1 - nu * nu) ^ 2 * 2 * nu, E / (1 - nu * nu) + E * nu / (1 - nu * nu) ^ 2 * 2 * nu, 0;
             E / (1 - nu * nu) + E * nu / (1 - nu * nu) ^ 2 * 2 * nu, E / (1 - nu * nu) ^ 2 * 2 * nu, 0; 0, 0, -E / 2 / (1 + nu) ^ 2]
  else
    dE • !![1 * (1 - nu) / ((1 + nu) * (1 - 2 * nu)), 1 * nu / ((1 + nu) * (1 - 2 * nu)), 0;
            1 * nu / ((1 + nu) * (1 - 2 * nu)), 1 * (1 - nu) / ((1 + nu) * (1 - 2 * nu)), 0; 0, 0, 1 / 2 / (1 + nu)] +
    dnu • !![E * 2 * nu * (2 - nu) / (2 * nu * nu + nu - 1) ^ 2, (2 * nu * nu * E + E) / (2 * nu * nu + nu - 1) ^ 2, 0;
             (2 * nu * nu * E + E) / (2 * nu * nu + nu - 1) ^ 2, E * 2 * nu * (2 - nu) / (2 * nu * nu + nu - 1) ^ 2, 0;
             0, 0, -E / 2 / (1 + nu) ^ 2]

/-- The loop shape of the 3D matrices (isotropic_material_property_card.cpp:520-527): `a` on the diagonal and `b` off the diagonal of the direct block, `g` on the shear diagonal. -/
def fill3D (a b g : ℝ) : Matrix (Fin 6) (Fin 6) ℝ :=
  !![a, b, b, 0, 0, 0; b, a, b, 0, 0, 0; b, b, a, 0, 0, 0; 0, 0, 0, g, 0, 0; 0, 0, 0, 0, g, 0; 0, 0, 0, 0, 0, g]

/-- `StiffnessMatrix3D::operator()` (isotropic_material_property_card.cpp:513-528). -/
noncomputable def iso3D (E nu : ℝ) : Matrix (Fin 6) (Fin 6) ℝ :=
  fill3D (E * (1 - nu) / (1 - nu - 2 * nu * nu)) (E * nu / (1 - nu - 2 * nu * nu)) (E / 2 / (1 + nu))

/-- `StiffnessMatrix3D::derivative` (isotropic_material_property_card.cpp:534-567). -/
noncomputable def dIso3D (E nu dE dnu : ℝ) : Matrix (Fin 6) (Fin 6) ℝ :=
  dE • fill3D ((1 - nu) / (1 - nu - 2 * nu * nu)) (nu / (1 - nu - 2 * nu * nu)) (1 / 2 / (1 + nu)) +
  dnu • fill3D (-E / (1 - nu - 2 * nu * nu) + E * (1 - nu) / (1 - nu - 2 * nu * nu) ^ 2 * (1 + 4 * nu))
    (E / (1 - nu - 2 * nu * nu) + E * nu / (1 - nu - 2 * nu * nu) ^ 2 * (1 + 4 * nu)) (-E / 2 / (1 + nu) ^ 2)

/-- `InertiaMatrix3D::operator()` and, on the derivative of `rho`, `::derivative` (isotropic_material_property_card.cpp:581-609, orthotropic_material_property_card.cpp:839-867). -/
def inertia3D (rho : ℝ) : Matrix (Fin 3) (Fin 3) ℝ := !![rho, 0, 0; 0, rho, 0; 0, 0, rho]

/-- Rows of the thermal expansion vector for a dimension (isotropic_material_property_card.cpp:621-633): 2, 3, 6 for dimensions 1, 2, 3. -/
def thermalRows : Nat → Nat
  | 1 => 2
  | 2 => 3
  | 3 => 6
  | _ => 0

/-- `ThermalExpansionMatrix::operator()` and, on derivatives, `::derivative`: the isotropic card uses one `alpha` for all directions
(isotropic_material_property_card.cpp:614-670), the orthotropic card one per direction (orthotropic_material_property_card.cpp:871-930). -/
def thermalExp (dim : Nat) (alpha : Nat → ℝ) : Fin (thermalRows dim) → ℝ := fun i => if i.1 < dim then alpha i else 0

/-- `ThermalCapacitanceMatrix::operator()` (isotropic_material_property_card.cpp:677-689, orthotropic_material_property_card.cpp:937-949). -/
def capacitance (cp rho : ℝ) : ℝ := cp * rho

/-- `ThermalCapacitanceMatrix::derivative` (isotropic_material_property_card.cpp:696-710, orthotropic_material_property_card.cpp:956-970). -/
def dCapacitance (cp rho dcp drho : ℝ) : ℝ := dcp * rho + cp * drho

/-- `ThermalConductanceMatrix::operator()` and, on derivatives, `::derivative`: `k` times the identity for the isotropic card (isotropic_material_property_card.cpp:716-747),
a diagonal for the orthotropic one (orthotropic_material_property_card.cpp:976-1007). -/
def conductance (dim : Nat) (k : Nat → ℝ) : Matrix (Fin dim) (Fin dim) ℝ := fun i j => if i = j then k i else 0

/-! ### The cards' lazily created matrices -/

/-- What kind of stiffness matrix an object returned by the card computes. -/
inductive Kind where
  | k1D
  | k2D (planeStress : Bool)
  | k3D
deriving DecidableEq, Repr

/-- The cached pointers `_stiff_mat_1d/_2d/_3d` of a card (isotropic_material_property_card.cpp:753-757): whether the object exists, and the flag stored in the 2D object. -/
structure Cache where
  m1 : Bool := false
  m2 : Option Bool := none
  m3 : Bool := false

/-- `stiffness_matrix(dim, plane_stress)` (isotropic_material_property_card.cpp:797-841; orthotropic_material_property_card.cpp:1056-1112 has the same structure):
creates the object on the first request for the dimension and returns the stored one ever after.  `none` is `libmesh_error`. -/
def stiffnessMatrix (c : Cache) (dim : Nat) (planeStress : Bool) : Option (Kind × Cache) :=
  match dim with
  | 1 => some (.k1D, { c with m1 := true })
  | 2 =>
    match c.m2 with
    | none => some (.k2D planeStress, { c with m2 := some planeStress })
    | some f => some (.k2D f, c)
  | 3 => some (.k3D, { c with m3 := true })
  | _ => none

/-- A history of requests on one card, oldest first. -/
def runRequests (c : Cache) : List (Nat × Bool) → Option Cache
  | [] => some c
  | (d, ps) :: l => (stiffnessMatrix c d ps).bind fun r => runRequests r.2 l

/-! ### Orthotropic card -/

/-- The elastic constants read by the orthotropic matrices (or their derivatives). -/
structure Ortho where
  E11 : ℝ
  E22 : ℝ
  E33 : ℝ
  nu12 : ℝ
  nu23 : ℝ
  nu31 : ℝ
  G12 : ℝ
  G13 : ℝ
  G23 : ℝ

/-- `StiffnessMatrix1D::operator()` and, on derivatives, `::derivative` (orthotropic_material_property_card.cpp:355-384). -/
def ortho1D (E11 G12 : ℝ) : Matrix (Fin 2) (Fin 2) ℝ := !![E11, 0; 0, G12]

/-- `TransverseShearStiffnessMatrix::operator()` and, on derivatives, `::derivative` (orthotropic_material_property_card.cpp:398-450). -/
def orthoShear (G12 : ℝ) : Matrix (Fin 2) (Fin 2) ℝ := !![G12, 0; 0, G12]

/-- The divisor of the plane strain entries (orthotropic_material_property_card.cpp:521-534). -/
def strainDen (E11 E22 E33 nu12 nu23 nu31 : ℝ) : ℝ :=
  (E22 * E22) * E33 * (nu12 * nu12) + E11 * (E33 * E33) * (nu23 * nu23) + (E11 * E11) * E22 * (nu31 * nu31) - E11 * E22 * E33 +
    E11 * E22 * E33 * nu12 * nu23 * nu31 * 2

/-- `StiffnessMatrix2D::operator()` (orthotropic_material_property_card.cpp:484-536). -/
noncomputable def ortho2D (planeStress : Bool) (c : Ortho) : Matrix (Fin 3) (Fin 3) ℝ :=
  if planeStress then
    let nu21 := c.nu12 * c.E22 / c.E11
    let D := 1 - c.nu12 * nu21
    !![c.E11 / D, nu21 * c.E11 / D, 0; c.nu12 * c.E22 / D, c.E22 / D, 0; 0, 0, c.G12]
  else
    let den := strainDen c.E11 c.E22 c.E33 c.nu12 c.nu23 c.nu31
    let m01 := -(c.E11 * c.E22 * c.E33 * (c.E22 * c.nu12 + c.E11 * c.nu23 * c.nu31)) / den
    !![-((c.E11 * c.E11) * c.E33 * (c.E22 - c.E33 * (c.nu23 * c.nu23))) / den, m01, 0;
       m01, -(c.E11 * (c.E22 * c.E22) * (c.E33 - c.E11 * (c.nu31 * c.nu31))) / den, 0; 0, 0, c.G12]

/-- The plane stress branch of `StiffnessMatrix2D::derivative` (orthotropic_material_property_card.cpp:566-588) as a function of the values in the local variables
`E11, E22, nu12` and their derivatives.  Line 587 adds a 3x3 block to a 2x2 block; with assertions disabled Eigen reads the leading 2x2 part. -/
noncomputable def dPlaneStress (E11 E22 nu12 dE11 dE22 dnu12 dG12 : ℝ) : Matrix (Fin 3) (Fin 3) ℝ :=
  let nu21 := nu12 * E22 / E11
  let dnu21 := dnu12 * E22 / E11 + nu12 * dE22 / E11 - nu12 * E22 / E11 / E11 * dE11
  let D := 1 - nu12 * nu21
  let dD := -dnu12 * nu21 - nu12 * dnu21
  !![E11 * (-dD / D / D) + dE11 / D, nu21 * E11 * (-dD / D / D) + (nu21 * dE11 + dnu21 * E11) / D, 0;
     nu12 * E22 * (-dD / D / D) + (nu12 * dE22 + dnu12 * E22) / D, E22 * (-dD / D / D) + dE22 / D, 0; 0, 0, dG12]

/-- The expression assigned to `m(0,0)` in the plane strain branch (orthotropic_material_property_card.cpp:591-611). -/
noncomputable def dStrain00 (E11 E22 E33 nu12 nu23 nu31 dE11 dE22 dE33 dnu12 dnu23 dnu31 : ℝ) : ℝ :=
    1 / ((E22 * E22) * E33 * (nu12 * nu12) + E11 * (E33 * E33) * (nu23 * nu23) + (E11 * E11) * E22 * (nu31 * nu31) - E11 * E22 * E33 + E11 * E22 * E33 *
    nu12 * nu23 * nu31 * 2)^2 * (E11 * (E11 * (E22 * E22) * (E33 * E33) * dE11 + E11 * (E33 * E33 * E33 * E33) * dE11 * (nu23 * nu23 * nu23 * nu23) - E11
    * E22 * (E33 * E33 * E33) * dE11 * (nu23 * nu23) * 2) + nu31 * (E11 * ((E11 * E11 * E11) * (E22 * E22) * E33 * dnu31 * 2 + (E11 * E11) * (E22 * E22) *
    (E33 * E33) * dnu12 * nu23 * 2 - (E11 * E11) * E22 * (E33 * E33 * E33) * dnu12 * (nu23 * nu23 * nu23) * 2 - (E11 * E11 * E11) * E22 * (E33 * E33) *
    dnu31 * (nu23 * nu23) * 2) + E11 * nu12 * ((E11 * E11) * (E22 * E22) * (E33 * E33) * dnu23 * 2 - (E11 * E11) * (E33 * E33 * E33) * dE22 * (nu23 * nu23
    * nu23) * 2 + (E11 * E11) * E22 * (E33 * E33) * dE33 * (nu23 * nu23 * nu23) * 2 + (E11 * E11) * E22 * (E33 * E33 * E33) * dnu23 * (nu23 * nu23) * 2 -
    E11 * (E22 * E22) * (E33 * E33) * dE11 * nu23 * 2 + E11 * E22 * (E33 * E33 * E33) * dE11 * (nu23 * nu23 * nu23) * 2)) + E11 * nu12 * (E11 * (E22 * E22
    * E22) * (E33 * E33) * dnu12 * 2 - E11 * (E22 * E22) * (E33 * E33 * E33) * dnu12 * (nu23 * nu23) * 2 + (E11 * E11) * (E22 * E22) * (E33 * E33) * dnu31
    * nu23 * 2 - (E11 * E11) * E22 * (E33 * E33 * E33) * dnu31 * (nu23 * nu23 * nu23) * 2) - E11 * (nu31 * nu31) * ((E11 * E11 * E11) * (E22 * E22) * dE33
    + (E11 * E11 * E11) * (E33 * E33) * dE22 * (nu23 * nu23) - (E11 * E11 * E11) * E22 * E33 * dE33 * (nu23 * nu23) * 2 - (E11 * E11 * E11) * E22 * (E33 *
    E33) * dnu23 * nu23 * 2) + E11 * (nu12 * nu12) * ((E22 * E22 * E22) * (E33 * E33) * dE11 * (-2) + E11 * (E22 * E22) * (E33 * E33) * dE22 + (E22 * E22)
    * (E33 * E33 * E33) * dE11 * (nu23 * nu23) * 2 + E11 * (E22 * E22) * (E33 * E33) * dE33 * (nu23 * nu23) - E11 * E22 * (E33 * E33 * E33) * dE22 * (nu23
    * nu23) * 2 + E11 * (E22 * E22) * (E33 * E33 * E33) * dnu23 * nu23 * 2))

/-- The expression assigned to `m(1,1)` in the plane strain branch (orthotropic_material_property_card.cpp:613-633). -/
noncomputable def dStrain11 (E11 E22 E33 nu12 nu23 nu31 dE11 dE22 dE33 dnu12 dnu23 dnu31 : ℝ) : ℝ :=
    1 / ((E22 * E22) * E33 * (nu12 * nu12) + E11 * (E33 * E33) * (nu23 * nu23) + (E11 * E11) * E22 * (nu31 * nu31) - E11 * E22 * E33 + E11 * E22 * E33 *
    nu12 * nu23 * nu31 * 2)^2 * (E22 * ((E11 * E11) * E22 * (E33 * E33) * dE22 + (E11 * E11 * E11 * E11) * E22 * dE22 * (nu31 * nu31 * nu31 * nu31) - (E11
    * E11 * E11) * E22 * E33 * dE22 * (nu31 * nu31) * 2) + nu23 * (E22 * ((E11 * E11) * E22 * (E33 * E33 * E33) * dnu23 * 2 + (E11 * E11) * (E22 * E22) *
    (E33 * E33) * dnu12 * nu31 * 2 - (E11 * E11 * E11) * (E22 * E22) * E33 * dnu12 * (nu31 * nu31 * nu31) * 2 - (E11 * E11 * E11) * E22 * (E33 * E33) *
    dnu23 * (nu31 * nu31) * 2) + E22 * nu12 * ((E11 * E11) * (E22 * E22) * (E33 * E33) * dnu31 * 2 - (E11 * E11 * E11) * (E22 * E22) * dE33 * (nu31 * nu31
    * nu31) * 2 + (E11 * E11) * (E22 * E22) * E33 * dE11 * (nu31 * nu31 * nu31) * 2 + (E11 * E11 * E11) * (E22 * E22) * E33 * dnu31 * (nu31 * nu31) * 2 -
    (E11 * E11) * E22 * (E33 * E33) * dE22 * nu31 * 2 + (E11 * E11 * E11) * E22 * E33 * dE22 * (nu31 * nu31 * nu31) * 2)) + E22 * nu12 * (E11 * (E22 * E22
    * E22) * (E33 * E33) * dnu12 * 2 - (E11 * E11) * (E22 * E22 * E22) * E33 * dnu12 * (nu31 * nu31) * 2 + (E11 * E11) * (E22 * E22) * (E33 * E33) * dnu23
    * nu31 * 2 - (E11 * E11 * E11) * (E22 * E22) * E33 * dnu23 * (nu31 * nu31 * nu31) * 2) - E22 * (nu12 * nu12) * ((E22 * E22 * E22) * (E33 * E33) * dE11
    + (E11 * E11) * (E22 * E22 * E22) * dE33 * (nu31 * nu31) - E11 * (E22 * E22 * E22) * E33 * dE11 * (nu31 * nu31) * 2 - (E11 * E11) * (E22 * E22 * E22)
    * E33 * dnu31 * nu31 * 2) + E22 * (nu23 * nu23) * ((E11 * E11) * (E33 * E33 * E33) * dE22 * (-2) + (E11 * E11) * E22 * (E33 * E33) * dE33 + (E11 * E11
    * E11) * (E33 * E33) * dE22 * (nu31 * nu31) * 2 + (E11 * E11) * E22 * (E33 * E33) * dE11 * (nu31 * nu31) - (E11 * E11 * E11) * E22 * E33 * dE33 *
    (nu31 * nu31) * 2 + (E11 * E11 * E11) * E22 * (E33 * E33) * dnu31 * nu31 * 2))

/-- The expression assigned to `m(0,1)` and `m(1,0)` in the plane strain branch (orthotropic_material_property_card.cpp:637-659). -/
noncomputable def dStrain01 (E11 E22 E33 nu12 nu23 nu31 dE11 dE22 dE33 dnu12 dnu23 dnu31 : ℝ) : ℝ :=
    -1 / ((E22 * E22) * E33 * (nu12 * nu12) + E11 * (E33 * E33) * (nu23 * nu23) + (E11 * E11) * E22 * (nu31 * nu31) - E11 * E22 * E33 + E11 * E22 * E33 *
    nu12 * nu23 * nu31 * 2)^2 * (-nu31 * ((E33 * E33) * ((E11 * E11 * E11) * (E22 * E22) * dnu23 + (E11 * E11) * (E22 * E22) * dE11 * nu23 + (E11 * E11 *
    E11) * E22 * dE33 * (nu23 * nu23 * nu23)) - (E33 * E33 * E33) * ((E11 * E11 * E11) * dE22 * (nu23 * nu23 * nu23) + (E11 * E11) * E22 * dE11 * (nu23 *
    nu23 * nu23) - (E11 * E11 * E11) * E22 * dnu23 * (nu23 * nu23))) + (nu31 * nu31 * nu31) * ((E11 * E11 * E11 * E11) * (E22 * E22) * E33 * dnu23 + (E11
    * E11 * E11 * E11) * (E22 * E22) * dE33 * nu23) - (nu12 * nu12) * ((E33 * E33) * (E11 * (E22 * E22 * E22 * E22) * dnu12 + (E11 * E11) * (E22 * E22 *
    E22) * dnu31 * nu23) - (E33 * E33) * nu31 * (-(E11 * E11) * (E22 * E22 * E22) * dnu23 + E11 * (E22 * E22 * E22) * dE11 * nu23 * 2 + (E11 * E11) * (E22
    * E22) * dE22 * nu23)) + (nu31 * nu31) * (E33 * ((E11 * E11 * E11) * (E22 * E22 * E22) * dnu12 - (E11 * E11 * E11 * E11) * (E22 * E22) * dnu31 * nu23)
    - (E11 * E11 * E11) * (E22 * E22) * (E33 * E33) * dnu12 * (nu23 * nu23) * 2) + nu12 * ((nu31 * nu31) * (-E33 * ((E11 * E11) * (E22 * E22 * E22) * dE11
    - (E11 * E11 * E11) * (E22 * E22) * dE22) + (E11 * E11 * E11) * (E22 * E22 * E22) * dE33 + (E11 * E11) * (E22 * E22) * (E33 * E33) * dE11 * (nu23 *
    nu23) * 2) - (E33 * E33) * ((E11 * E11) * (E22 * E22) * dE22 + (E11 * E11) * (E22 * E22) * dE33 * (nu23 * nu23)) + (E33 * E33 * E33) * ((E11 * E11) *
    E22 * dE22 * (nu23 * nu23) * 2 - (E11 * E11) * (E22 * E22) * dnu23 * nu23 * 2) - nu31 * ((E11 * E11 * E11) * (E22 * E22 * E22) * E33 * dnu31 * 2 +
    (E11 * E11) * (E22 * E22 * E22) * (E33 * E33) * dnu12 * nu23 * 2)) + (E33 * E33 * E33) * ((E11 * E11 * E11) * E22 * dnu31 * (nu23 * nu23 * nu23) +
    (E11 * E11) * (E22 * E22) * dnu12 * (nu23 * nu23)) - (E33 * E33) * ((E11 * E11) * (E22 * E22 * E22) * dnu12 + (E11 * E11 * E11) * (E22 * E22) * dnu31
    * nu23) + (E22 * E22 * E22 * E22) * (E33 * E33) * dE11 * (nu12 * nu12 * nu12))

/-- The plane strain branch as a function of the values in its local variables. -/
noncomputable def dPlaneStrain (E11 E22 E33 nu12 nu23 nu31 dE11 dE22 dE33 dnu12 dnu23 dnu31 dG12 : ℝ) : Matrix (Fin 3) (Fin 3) ℝ :=
  !![dStrain00 E11 E22 E33 nu12 nu23 nu31 dE11 dE22 dE33 dnu12 dnu23 dnu31, dStrain01 E11 E22 E33 nu12 nu23 nu31 dE11 dE22 dE33 dnu12 dnu23 dnu31, 0;
     dStrain01 E11 E22 E33 nu12 nu23 nu31 dE11 dE22 dE33 dnu12 dnu23 dnu31, dStrain11 E11 E22 E33 nu12 nu23 nu31 dE11 dE22 dE33 dnu12 dnu23 dnu31, 0;
     0, 0, dG12]

/-- `StiffnessMatrix2D::derivative` (orthotropic_material_property_card.cpp:542-661).  Lines 560-562 read nu12, nu23 and nu31 all into the local variable `nu12` and their
derivatives all into `dnu12df`, so `nu12` ends up with the value of nu31; the locals `nu23, nu31, dnu23df, dnu31df` are never assigned.  The plane stress branch does not use
them; the plane strain branch reads them uninitialised: undefined behaviour, `none`. -/
noncomputable def dOrtho2D (planeStress : Bool) (c dc : Ortho) : Option (Matrix (Fin 3) (Fin 3) ℝ) :=
  let nu12 := c.nu31
  let dnu12 := dc.nu31
  if planeStress then some (dPlaneStress c.E11 c.E22 nu12 dc.E11 dc.E22 dnu12 dc.G12) else none

/-- The names of the parameter functions inserted in `_functions` by the constructor of `StiffnessMatrix2D` (orthotropic_material_property_card.cpp:474-477). -/
def ortho2DFunctions : List String := ["E11", "E22", "nu12", "G12"]

/-- The same for `StiffnessMatrix3D` (orthotropic_material_property_card.cpp:686-694). -/
def ortho3DFunctions : List String := ["E11", "E22", "E33", "nu12", "nu31", "nu23", "G12", "G13", "G23"]

/-- The common divisor `D` of the 3D matrix (orthotropic_material_property_card.cpp:717-720). -/
noncomputable def orthoD (c : Ortho) : ℝ :=
  let nu21 := c.nu12 * c.E22 / c.E11
  let nu13 := c.nu31 * c.E11 / c.E33
  let nu32 := c.nu23 * c.E33 / c.E22
  1 - c.nu12 * nu21 - nu13 * c.nu31 - c.nu23 * nu32 - c.nu12 * c.nu23 * c.nu31 - nu13 * nu21 * nu32

/-- The direct block before division (orthotropic_material_property_card.cpp:723-733). -/
noncomputable def orthoN (c : Ortho) : Matrix (Fin 3) (Fin 3) ℝ :=
  let nu21 := c.nu12 * c.E22 / c.E11
  let nu13 := c.nu31 * c.E11 / c.E33
  let nu32 := c.nu23 * c.E33 / c.E22
  !![(1 - c.nu23 * nu32) * c.E11, (nu21 + c.nu23 * c.nu31) * c.E11, (c.nu31 + nu21 * nu32) * c.E11;
     (c.nu12 + nu13 * nu32) * c.E22, (1 - nu13 * c.nu31) * c.E22, (nu32 + c.nu12 * c.nu31) * c.E22;
     (nu13 + c.nu12 * c.nu23) * c.E33, (c.nu23 + nu13 * nu21) * c.E33, (1 - c.nu12 * nu21) * c.E33]

/-- A 6x6 matrix from a direct block and three shear entries. -/
def blocks6 (M : Matrix (Fin 3) (Fin 3) ℝ) (g3 g4 g5 : ℝ) : Matrix (Fin 6) (Fin 6) ℝ :=
  !![M 0 0, M 0 1, M 0 2, 0, 0, 0; M 1 0, M 1 1, M 1 2, 0, 0, 0; M 2 0, M 2 1, M 2 2, 0, 0, 0;
     0, 0, 0, g3, 0, 0; 0, 0, 0, 0, g4, 0; 0, 0, 0, 0, 0, g5]

/-- `StiffnessMatrix3D::operator()` (orthotropic_material_property_card.cpp:702-739). -/
noncomputable def ortho3D (c : Ortho) : Matrix (Fin 6) (Fin 6) ℝ :=
  blocks6 (Matrix.of fun i j => orthoN c i j / orthoD c) c.G12 c.G23 c.G13

/-- `dDdf` (orthotropic_material_property_card.cpp:775-791). -/
noncomputable def dOrthoD (c dc : Ortho) : ℝ :=
  let nu21 := c.nu12 * c.E22 / c.E11
  let dnu21 := dc.nu12 * c.E22 / c.E11 + c.nu12 * dc.E22 / c.E11 - c.nu12 * c.E22 / c.E11 / c.E11 * dc.E11
  let nu13 := c.nu31 * c.E11 / c.E33
  let dnu13 := dc.nu31 * c.E11 / c.E33 + c.nu31 * dc.E11 / c.E33 - c.nu31 * c.E11 / c.E33 / c.E33 * dc.E33
  let nu32 := c.nu23 * c.E33 / c.E22
  let dnu32 := dc.nu23 * c.E33 / c.E22 + c.nu23 * dc.E33 / c.E22 - c.nu23 * c.E33 / c.E22 / c.E22 * dc.E22
  0 - dc.nu12 * nu21 - c.nu12 * dnu21 - dnu13 * c.nu31 - nu13 * dc.nu31 - dc.nu23 * nu32 - c.nu23 * dnu32 -
    dc.nu12 * c.nu23 * c.nu31 - c.nu12 * dc.nu23 * c.nu31 - c.nu12 * c.nu23 * dc.nu31 -
    dnu13 * nu21 * nu32 - nu13 * dnu21 * nu32 - nu13 * nu21 * dnu32

/-- The matrix `dm` (orthotropic_material_property_card.cpp:811-821). -/
noncomputable def dOrthoN (c dc : Ortho) : Matrix (Fin 3) (Fin 3) ℝ :=
  let nu21 := c.nu12 * c.E22 / c.E11
  let dnu21 := dc.nu12 * c.E22 / c.E11 + c.nu12 * dc.E22 / c.E11 - c.nu12 * c.E22 / c.E11 / c.E11 * dc.E11
  let nu13 := c.nu31 * c.E11 / c.E33
  let dnu13 := dc.nu31 * c.E11 / c.E33 + c.nu31 * dc.E11 / c.E33 - c.nu31 * c.E11 / c.E33 / c.E33 * dc.E33
  let nu32 := c.nu23 * c.E33 / c.E22
  let dnu32 := dc.nu23 * c.E33 / c.E22 + c.nu23 * dc.E33 / c.E22 - c.nu23 * c.E33 / c.E22 / c.E22 * dc.E22
  !![(-dc.nu23 * nu32 - c.nu23 * dnu32) * c.E11 + (1 - c.nu23 * nu32) * dc.E11,
     (dnu21 + dc.nu23 * c.nu31 + c.nu23 * dc.nu31) * c.E11 + (nu21 + c.nu23 * c.nu31) * dc.E11,
     (dc.nu31 + dnu21 * nu32 + nu21 * dnu32) * c.E11 + (c.nu31 + nu21 * nu32) * dc.E11;
     (dc.nu12 + dnu13 * nu32 + nu13 * dnu32) * c.E22 + (c.nu12 + nu13 * nu32) * dc.E22,
     (-dnu13 * c.nu31 - nu13 * dc.nu31) * c.E22 + (1 - nu13 * c.nu31) * dc.E22,
     (dnu32 + dc.nu12 * c.nu31 + c.nu12 * dc.nu31) * c.E22 + (nu32 + c.nu12 * c.nu31) * dc.E22;
     (dnu13 + dc.nu12 * c.nu23 + c.nu12 * dc.nu23) * c.E33 + (nu13 + c.nu12 * c.nu23) * dc.E33,
     (dc.nu23 + dnu13 * nu21 + nu13 * dnu21) * c.E33 + (c.nu23 + nu13 * nu21) * dc.E33,
     (-dc.nu12 * nu21 - c.nu12 * dnu21) * c.E33 + (1 - c.nu12 * nu21) * dc.E33]

/-- `StiffnessMatrix3D::derivative` (orthotropic_material_property_card.cpp:745-824). -/
noncomputable def dOrtho3D (c dc : Ortho) : Matrix (Fin 6) (Fin 6) ℝ :=
  blocks6 (Matrix.of fun i j => orthoN c i j * (-dOrthoD c dc / orthoD c / orthoD c) + dOrthoN c dc i j / orthoD c) dc.G12 dc.G23 dc.G13

end Verif.Material
