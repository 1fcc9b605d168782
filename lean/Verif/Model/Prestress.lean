import Mathlib.Data.Real.Basic
import Mathlib.Data.Matrix.Basic
import Mathlib.LinearAlgebra.Matrix.Notation
import Verif.Model.Exec
/-
  Model of the prestress of the section cards (src/property_cards/solid_1d_section_element_property_card.cpp, solid_2d_section_element_property_card.cpp) and of the solid card of isotropic materials
  (src/property_cards/isotropic_element_property_card_3D.cpp).
-/
namespace Verif.Prestress
open Matrix

abbrev M3 := Matrix (Fin 3) (Fin 3) ℝ

/-- The leading block of a matrix, as the loops `m(i,j) = s(i,j)*...` with `i, j < 2` read it. -/
def lead (s : M3) : Matrix (Fin 2) (Fin 2) ℝ := Matrix.of fun i j => s i.castSucc j.castSucc

/-- `s *= T; s = T.transpose() * s`, solid_2d_section_element_property_card.cpp:765-766, 868-869; solid_1d_section_element_property_card.cpp:1258-1259, 1332. -/
def turned (s T : M3) : M3 := Tᵀ * (s * T)

/-- Plate: `PrestressAMatrix::operator()`, src/property_cards/solid_2d_section_element_property_card.cpp:752-771. -/
def plateA (s T : M3) (h : ℝ) : Matrix (Fin 2) (Fin 2) ℝ := h • lead (turned s T)

/-- Plate: `PrestressAMatrix::derivative`, solid_2d_section_element_property_card.cpp:778-815.  `s` is overwritten by the turned stress (792-793) before it is used with `dT` (800-808). -/
def dPlateA (s ds T dT : M3) (h dh : ℝ) : Matrix (Fin 2) (Fin 2) ℝ :=
  let s1 := turned s T
  let d := Tᵀ * (ds * T) + Tᵀ * (s1 * dT) + dTᵀ * (s1 * T)
  h • lead d + dh • lead s1

/-- Plate: `PrestressBMatrix::operator()`, solid_2d_section_element_property_card.cpp:854-874. -/
def plateB (s T : M3) (h off : ℝ) : Matrix (Fin 2) (Fin 2) ℝ := (h * off) • lead (turned s T)

/-- Plate: `PrestressBMatrix::derivative`, solid_2d_section_element_property_card.cpp:880-918 (903-911: `dTᵀ s dT` and `Tᵀ s T` are added). -/
def dPlateB (s ds T dT : M3) (h dh off doff : ℝ) : Matrix (Fin 2) (Fin 2) ℝ :=
  let s1 := turned s T
  let d := Tᵀ * (ds * T) + dTᵀ * (s1 * dT) + Tᵀ * (s1 * T)
  (h * off) • lead d + (dh * off + h * doff) • lead s1

/-- Beam: `PrestressAMatrix::operator()`, src/property_cards/solid_1d_section_element_property_card.cpp:1245-1262. -/
def beamA (s T : M3) (A : ℝ) : Matrix (Fin 2) (Fin 2) ℝ := !![turned s T 0 0 * A, 0; 0, 0]

/-- Beam: `PrestressAMatrix::derivative`, solid_1d_section_element_property_card.cpp:1268-1294.  The statement `ds * T;` (1287) discards its result. -/
def dBeamA (s ds T dT : M3) (A dA : ℝ) : Matrix (Fin 2) (Fin 2) ℝ :=
  let s1 := turned s T
  let d := Tᵀ * ds + (Tᵀ * s1 * dT + dTᵀ * s1 * T)
  !![s1 0 0 * dA + d 0 0 * A, 0; 0, 0]

/-- Beam: `PrestressBMatrix::operator()`, solid_1d_section_element_property_card.cpp:1318-1337. -/
def beamB (s T : M3) (Ay Az : ℝ) : Matrix (Fin 2) (Fin 2) ℝ := !![turned s T 0 0 * Az, turned s T 0 0 * Ay; 0, 0]

/-- Beam: `PrestressBMatrix::derivative`, solid_1d_section_element_property_card.cpp:1344-1370. -/
def dBeamB (s ds T dT : M3) (Ay dAy Az dAz : ℝ) : Matrix (Fin 2) (Fin 2) ℝ :=
  let s1 := turned s T
  let d := Tᵀ * ds * T + Tᵀ * s1 * dT + dTᵀ * s1 * T
  !![s1 0 0 * dAz + d 0 0 * Az, s1 0 0 * dAy + d 0 0 * Ay; 0, 0]

/-- The cards. -/
inductive Card where
  | solid1d | solid2d | iso3d
deriving DecidableEq

/-- `prestress_A_matrix` and `prestress_B_matrix` of the cards in a release build, followed by an evaluation of the returned function: the section cards return an uninitialised pointer, the solid card a null pointer
(solid_1d_section_element_property_card.cpp:1933-2008 and solid_2d_section_element_property_card.cpp:1260-1290, the construction is commented out; isotropic_element_property_card_3D.cpp:574-591).  Debug builds stop at `libmesh_assert(false)`. -/
def evaluatePrestress (debug : Bool) (_ : Card) : Exec (Matrix (Fin 2) (Fin 2) ℝ) := if debug then .error .assertFail else .error .ub

/-! ### isotropic_element_property_card_3D.cpp -/

/-- A matrix function of the material at a point: value and derivative along a parameter. -/
structure Fn (m n : Nat) where
  value : Matrix (Fin m) (Fin n) ℝ
  deriv : Matrix (Fin m) (Fin n) ℝ

/-- What the card hands out: an evaluated function; the derivative may end in `libmesh_error`. -/
structure CardFn (m n : Nat) where
  value : Matrix (Fin m) (Fin n) ℝ
  deriv : Exec (Matrix (Fin m) (Fin n) ℝ)

/-- `StiffnessMatrix`, `InertiaMatrix`, `ThermalConductanceMatrix`, `ThermalCapacitanceMatrix` of the solid card, isotropic_element_property_card_3D.cpp:202-255, 351-408, 422-443, 496-517, 594-639: the material matrix itself. -/
def passed {m n : Nat} (f : Fn m n) : CardFn m n := ⟨f.value, .ok f.deriv⟩

/-- `ThermalExpansionMatrix` (for `thermal_expansion_A_matrix` and `thermal_expansion_B_matrix`), isotropic_element_property_card_3D.cpp:273-296, 520-561: stiffness times expansion; its derivative is `libmesh_error()`. -/
def thermal (c : Fn 6 6) (a : Fn 6 1) : CardFn 6 1 := ⟨c.value * a.value, .error .error⟩

end Verif.Prestress
