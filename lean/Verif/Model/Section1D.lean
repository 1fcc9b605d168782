import Verif.Model.Section2D
/-
  Model of the rectangular beam section: src/property_cards/solid_1d_section_element_property_card.cpp, and of the property names used by
  multilayer_1d_section_element_property_card.cpp.  Parameters are given by their values and derivatives at the evaluation point.  The prestress matrices are left out:
  `prestress_A_matrix`/`prestress_B_matrix` (1933-2008) return an uninitialised pointer.  The constant .21 is the rational 21/100.
-/
namespace Verif.Section1D
open Matrix
variable {m n k : Type*}

/-- `Area` (solid_1d_section_element_property_card.cpp:44-63). -/
def area (hy hz : ℝ) : ℝ := hy * hz
/-- `Area::derivative` (54-63). -/
def dArea (hy dhy hz dhz : ℝ) : ℝ := dhy * hz + hy * dhz

/-- `TorsionalConstant::operator()` (solid_1d_section_element_property_card.cpp:86-105). -/
noncomputable def torsion (hy hz : ℝ) : ℝ :=
  let a := if hy > hz then hy else hz
  let b := if hy > hz then hz else hy
  a * b ^ 3 * (1 / 3 - 21 / 100 * b / a * (1 - (b / a) ^ 4 / 12))

/-- `TorsionalConstant::derivative` (solid_1d_section_element_property_card.cpp:108-133). -/
noncomputable def dTorsion (hy dhy hz dhz : ℝ) : ℝ :=
  let a := if hy > hz then hy else hz
  let da := if hy > hz then dhy else dhz
  let b := if hy > hz then hz else hy
  let db := if hy > hz then dhz else dhy
  da * b ^ 3 * (1 / 3 - 21 / 100 * b / a * (1 - (b / a) ^ 4 / 12)) +
  a * 3 * b ^ 2 * db * (1 / 3 - 21 / 100 * b / a * (1 - (b / a) ^ 4 / 12)) +
  a * b ^ 3 * (-(21 / 100) * db / a * (1 - (b / a) ^ 4 / 12) + (21 / 100 * b / a ^ 2 * da * (1 - (b / a) ^ 4 / 12)) +
    (-(21 / 100) * b / a * (-4 * b ^ 3 * db / a ^ 4 / 12 + 4 * b ^ 4 / a ^ 5 * da / 12)))

/-- `PolarInertia` (solid_1d_section_element_property_card.cpp:161-172). -/
noncomputable def polar (hy hz offy offz : ℝ) : ℝ := hy * hz * ((hy ^ 2 + hz ^ 2) / 12 + offy ^ 2 + offz ^ 2)
/-- `PolarInertia::derivative` (174-190). -/
noncomputable def dPolar (hy dhy hz dhz offy doffy offz doffz : ℝ) : ℝ :=
  (dhy * hz + hy * dhz) * ((hy ^ 2 + hz ^ 2) / 12 + offy ^ 2 + offz ^ 2) + 2 * hy * hz * ((hy * dhy + hz * dhz) / 12 + offy * doffy + offz * doffz)

/-- `AreaYMoment` with the z offset, `AreaZMoment` with the y offset (solid_1d_section_element_property_card.cpp:220-229, 271-280). -/
def areaMoment (hy hz off : ℝ) : ℝ := hy * hz * off
/-- Their `derivative` (232-242, 283-293). -/
def dAreaMoment (hy dhy hz dhz off doff : ℝ) : ℝ := dhy * hz * off + hy * dhz * off + hy * hz * doff

/-- `AreaInertiaMatrix` (solid_1d_section_element_property_card.cpp:330-344). -/
noncomputable def areaInertia (hy hz offy offz : ℝ) : Matrix (Fin 2) (Fin 2) ℝ :=
  !![hz * hy ^ 3 / 12 + hy * hz * offy ^ 2, hy * hz * offy * offz; hy * hz * offy * offz, hy * hz ^ 3 / 12 + hy * hz * offz ^ 2]
/-- `AreaInertiaMatrix::derivative` (347-366). -/
noncomputable def dAreaInertia (hy dhy hz dhz offy doffy offz doffz : ℝ) : Matrix (Fin 2) (Fin 2) ℝ :=
  let c := dhy * hz * offy * offz + hy * dhz * offy * offz + hy * hz * doffy * offz + hy * hz * offy * doffz
  !![dhz * hy ^ 3 / 12 + hz * hy ^ 2 / 4 * dhy + dhy * hz * offy ^ 2 + hy * dhz * offy ^ 2 + 2 * hy * hz * offy * doffy, c;
     c, dhy * hz ^ 3 / 12 + hy * hz ^ 2 / 4 * dhz + dhy * hz * offz ^ 2 + hy * dhz * offz ^ 2 + 2 * hy * hz * offz * doffz]

/-- `ExtensionStiffnessMatrix::operator()` (solid_1d_section_element_property_card.cpp:824-835). -/
def beamA (A J : ℝ) (C : Matrix (Fin 2) (Fin 2) ℝ) : Matrix (Fin 2) (Fin 2) ℝ := !![C 0 0 * A, C 0 1 * A; C 1 0 * J, C 1 1 * J]
/-- Its `derivative` (841-861). -/
def dBeamA (A dA J dJ : ℝ) (C dC : Matrix (Fin 2) (Fin 2) ℝ) : Matrix (Fin 2) (Fin 2) ℝ := beamA dA dJ C + beamA A J dC

/-- `ExtensionBendingStiffnessMatrix::operator()` (solid_1d_section_element_property_card.cpp:884-897). -/
def beamB (Ay Az : ℝ) (C : Matrix (Fin 2) (Fin 2) ℝ) : Matrix (Fin 2) (Fin 2) ℝ := !![C 0 0 * Az, C 0 0 * Ay; C 1 0 * 0, C 1 1 * 0]
/-- Its `derivative` (904-923). -/
def dBeamB (Ay dAy Az dAz : ℝ) (C dC : Matrix (Fin 2) (Fin 2) ℝ) : Matrix (Fin 2) (Fin 2) ℝ := beamB dAy dAz C + beamB Ay Az dC

/-- `BendingStiffnessMatrix::operator()` (solid_1d_section_element_property_card.cpp:941-951). -/
def beamD (I C : Matrix (Fin 2) (Fin 2) ℝ) : Matrix (Fin 2) (Fin 2) ℝ := C 0 0 • I
/-- Its `derivative` (961-975). -/
def dBeamD (I dI C dC : Matrix (Fin 2) (Fin 2) ℝ) : Matrix (Fin 2) (Fin 2) ℝ := dC 0 0 • I + C 0 0 • dI

/-- `ShearCoefficientMatrix` and its derivative (solid_1d_section_element_property_card.cpp:417-439). -/
def shearCoeff (Kzz Kyy : ℝ) : Matrix (Fin 2) (Fin 2) ℝ := !![Kzz, 0; 0, Kyy]

/-- `TransverseStiffnessMatrix::operator()` (solid_1d_section_element_property_card.cpp:541-561). -/
def beamShear (A : ℝ) (Kappa G : Matrix (Fin 2) (Fin 2) ℝ) : Matrix (Fin 2) (Fin 2) ℝ := Matrix.of fun i j => G i j * A * Kappa i j

/-- `TransverseStiffnessMatrix::derivative` (solid_1d_section_element_property_card.cpp:563-578).  Unlike every other section matrix it writes the four entries of
`m` without giving `m` a size: with an argument smaller than 2x2 the writes are out of bounds (undefined behaviour, `none`). -/
def dBeamShear (mRows mCols : Nat) (A dA : ℝ) (Kappa dKappa G dG : Matrix (Fin 2) (Fin 2) ℝ) : Option (Matrix (Fin 2) (Fin 2) ℝ) :=
  if mRows < 2 ∨ mCols < 2 then none
  else some (Matrix.of fun i j => dG i j * Kappa i j * A + G i j * dKappa i j * A + G i j * Kappa i j * dA)

/-- Size of the matrix that the Timoshenko operator passes to `derivative` at its first quadrature point: a default constructed Eigen matrix
(timoshenko_bending_operator.cpp:181-201). -/
def timoshenkoArg : Nat × Nat := (0, 0)

/-- `InertiaMatrix::operator()` (solid_1d_section_element_property_card.cpp:1007-1039). -/
def beamInertia (rho A Ay Az Ip : ℝ) (I : Matrix (Fin 2) (Fin 2) ℝ) : Matrix (Fin 6) (Fin 6) ℝ :=
  rho • !![A, 0, 0, 0, Ay, Az; 0, A, 0, 0, 0, 0; 0, 0, A, 0, 0, 0; 0, 0, 0, Ip, 0, 0; Ay, 0, 0, 0, I 1 1, I 0 1; Az, 0, 0, 0, I 0 1, I 0 0]
/-- Its `derivative` (1049-1091). -/
def dBeamInertia (rho drho A dA Ay dAy Az dAz Ip dIp : ℝ) (I dI : Matrix (Fin 2) (Fin 2) ℝ) : Matrix (Fin 6) (Fin 6) ℝ :=
  beamInertia drho A Ay Az Ip I + beamInertia rho dA dAy dAz dIp dI

/-- `ThermalExpansionAMatrix::operator()` (solid_1d_section_element_property_card.cpp:1113-1125). -/
def beamThermalA (A : ℝ) (C : Matrix (Fin 2) (Fin 2) ℝ) (a : Matrix (Fin 2) (Fin 1) ℝ) : Matrix (Fin 2) (Fin 1) ℝ := A • (C * a)
/-- Its `derivative` (1132-1153). -/
def dBeamThermalA (A dA : ℝ) (C dC : Matrix (Fin 2) (Fin 2) ℝ) (a da : Matrix (Fin 2) (Fin 1) ℝ) : Matrix (Fin 2) (Fin 1) ℝ :=
  dA • (C * a) + A • (C * da + dC * a)
/-- `ThermalExpansionBMatrix::operator()` (solid_1d_section_element_property_card.cpp:1178-1192). -/
def beamThermalB (Ay Az : ℝ) (C : Matrix (Fin 2) (Fin 2) ℝ) (a : Matrix (Fin 2) (Fin 1) ℝ) : Matrix (Fin 2) (Fin 1) ℝ :=
  !![(C * a) 0 0 * Az; Ay * (C * a) 0 0]
/-- Its `derivative` (1200-1224). -/
def dBeamThermalB (Ay dAy Az dAz : ℝ) (C dC : Matrix (Fin 2) (Fin 2) ℝ) (a da : Matrix (Fin 2) (Fin 1) ℝ) : Matrix (Fin 2) (Fin 1) ℝ :=
  !![(C * a) 0 0 * dAz; dAy * (C * a) 0 0] + !![(C * da + dC * a) 0 0 * Az; Ay * (C * da + dC * a) 0 0]

/-! ### Property names -/

/-- A property card: name and value of each property, last added first (`FunctionSetBase`: function_set_base.h:36-107). -/
abbrev Card := List (String × ℝ)

/-- `FunctionSetBase::get`; `none` is the error "property not found". -/
def Card.get (c : Card) (nm : String) : Option ℝ := (c.find? fun p => p.1 == nm).map (·.2)

/-- `Multilayer1DSectionElementPropertyCard::set_layers` (multilayer_1d_section_element_property_card.cpp:172-201): adds to each layer a layer offset, whose name is
"hz_offset" (35). -/
noncomputable def setLayers1D (base : ℝ) (cards : List Card) : List Card :=
  let hz := cards.map fun c => (c.get "hz").getD 0
  cards.zipIdx.map fun (c, i) => ("hz_offset", Section2D.layerOffset base hz i) :: c

/-- The z offset with which `Solid1DSectionElementPropertyCard::init` (solid_1d_section_element_property_card.cpp:1638-1674) builds the section: the property "hz_off". -/
def zOffset (c : Card) : Option ℝ := c.get "hz_off"

end Verif.Section1D
