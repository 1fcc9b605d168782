import Mathlib.LinearAlgebra.Matrix.Notation
import Mathlib.Data.Real.Basic
/-
  Model of the plate sections: src/property_cards/solid_2d_section_element_property_card.cpp and multilayer_{1,2}d_section_element_property_card.cpp.
  Parameters (h, off, rho, kappa, material matrices) are given by their values and derivatives at the evaluation point.  The prestress matrices are left out:
  `prestress_A_matrix`/`prestress_B_matrix` (1260-1290) return an uninitialised pointer.
-/
namespace Verif.Section2D
open Matrix
variable {m n k : Type*}

/-- `ExtensionStiffnessMatrix::operator()` (solid_2d_section_element_property_card.cpp:394-403); also the thermal conductance and capacitance matrices
(940-951, 994-1005). -/
def plateA (h : ℝ) (C : Matrix m n ℝ) : Matrix m n ℝ := h • C

/-- Their `derivative` (solid_2d_section_element_property_card.cpp:409-424, 957-971, 1011-1027). -/
def dPlateA (h dh : ℝ) (C dC : Matrix m n ℝ) : Matrix m n ℝ := dh • C + h • dC

/-- `ExtensionBendingStiffnessMatrix::operator()` (solid_2d_section_element_property_card.cpp:447-457). -/
def plateB (h off : ℝ) (C : Matrix m n ℝ) : Matrix m n ℝ := (h * off) • C

/-- Its `derivative` (solid_2d_section_element_property_card.cpp:463-477). -/
def dPlateB (h dh off doff : ℝ) (C dC : Matrix m n ℝ) : Matrix m n ℝ := (dh * off + h * doff) • C + (h * off) • dC

/-- `BendingStiffnessMatrix::operator()` (solid_2d_section_element_property_card.cpp:498-508). -/
noncomputable def plateD (h off : ℝ) (C : Matrix m n ℝ) : Matrix m n ℝ := (h ^ 3 / 12 + h * off ^ 2) • C

/-- Its `derivative` (solid_2d_section_element_property_card.cpp:514-531). -/
noncomputable def dPlateD (h dh off doff : ℝ) (C dC : Matrix m n ℝ) : Matrix m n ℝ :=
  (h ^ 2 / 4 * dh + dh * off ^ 2 + h * 2 * off * doff) • C + (h ^ 3 / 12 + h * off ^ 2) • dC

/-- `TransverseStiffnessMatrix::operator()` (solid_2d_section_element_property_card.cpp:124-134). -/
def plateShear (h kappa : ℝ) (G : Matrix m n ℝ) : Matrix m n ℝ := kappa • (h • G)

/-- Its `derivative` (solid_2d_section_element_property_card.cpp:136-149). -/
def dPlateShear (h dh kappa dkappa : ℝ) (G dG : Matrix m n ℝ) : Matrix m n ℝ := (dh * kappa + h * dkappa) • G + kappa • (h • dG)

/-- `ThermalExpansionAMatrix::operator()` (solid_2d_section_element_property_card.cpp:623-635). -/
def plateThermalA [Fintype n] (h : ℝ) (C : Matrix m n ℝ) (a : Matrix n k ℝ) : Matrix m k ℝ := h • (C * a)

/-- Its `derivative` (solid_2d_section_element_property_card.cpp:643-664). -/
def dPlateThermalA [Fintype n] (h dh : ℝ) (C dC : Matrix m n ℝ) (a da : Matrix n k ℝ) : Matrix m k ℝ := dh • (C * a) + h • (C * da + dC * a)

/-- `ThermalExpansionBMatrix::operator()` (solid_2d_section_element_property_card.cpp:689-702). -/
def plateThermalB [Fintype n] (h off : ℝ) (C : Matrix m n ℝ) (a : Matrix n k ℝ) : Matrix m k ℝ := (h * off) • (C * a)

/-- Its `derivative` (solid_2d_section_element_property_card.cpp:709-731). -/
def dPlateThermalB [Fintype n] (h dh off doff : ℝ) (C dC : Matrix m n ℝ) (a da : Matrix n k ℝ) : Matrix m k ℝ :=
  (dh * off + h * doff) • (C * a) + (h * off) • (C * da + dC * a)

/-- `InertiaMatrix::operator()` (solid_2d_section_element_property_card.cpp:554-574). -/
noncomputable def plateInertia (h off rho : ℝ) : Matrix (Fin 6) (Fin 6) ℝ :=
  rho • !![h, 0, 0, 0, off * h, 0; 0, h, 0, -off * h, 0, 0; 0, 0, h, 0, 0, 0; 0, -off * h, 0, h ^ 3 / 12 + h * off ^ 2, 0, 0;
    off * h, 0, 0, 0, h ^ 3 / 12 + h * off ^ 2, 0; 0, 0, 0, 0, 0, h ^ 3 / 12 * (1 / 1000000)]

/-- Its `derivative` (solid_2d_section_element_property_card.cpp:581-601). -/
noncomputable def dPlateInertia (h dh off doff rho drho : ℝ) : Matrix (Fin 6) (Fin 6) ℝ :=
  let d := drho * h + rho * dh
  let r := drho * h ^ 3 / 12 + rho * h ^ 2 / 4 * dh
  !![d, 0, 0, 0, doff * h + off * dh, 0; 0, d, 0, -doff * h - off * dh, 0, 0; 0, 0, d, 0, 0, 0; 0, -doff * h - off * dh, 0, r, 0, 0;
    doff * h + off * dh, 0, 0, 0, r, 0; 0, 0, 0, 0, 0, r * (1 / 1000000)]

/-! ### Multilayer sections -/

/-- `LayerOffset::operator()` (multilayer_2d_section_element_property_card.cpp:51-69, multilayer_1d_section_element_property_card.cpp:49-67), for the layer number
`l` of a stack with thicknesses `hs`.  Applied to the derivatives of the thicknesses it is `LayerOffset::derivative` (72-91, 70-89), whose code is the same.
`set_layers` creates it with `l < hs.length` only; the value for other `l` is a filler. -/
noncomputable def layerOffset (base : ℝ) (hs : List ℝ) (l : Nat) : ℝ :=
  let m := (List.range l).foldl (fun m i => m + hs.getD i 0) 0
  let m := m + 1 / 2 * hs.getD l 0
  (List.range hs.length).foldl (fun m i => m - 1 / 2 * (1 + base) * hs.getD i 0) m

/-- `Matrix::operator()`, and `::derivative` when applied to derivatives of the layer matrices (multilayer_2d_section_element_property_card.cpp:118-151,
multilayer_1d_section_element_property_card.cpp:118-150), for at least one layer (with none the value is left as it was). -/
def layered (ms : List (Matrix m n ℝ)) : Matrix m n ℝ := ms.foldl (· + ·) 0

/-- A layer: thickness and material matrix. -/
structure Layer (m n : Type*) where
  h : ℝ
  C : Matrix m n ℝ

/-- `set_layers` (multilayer_2d_section_element_property_card.cpp:184-211) followed by `stiffness_A_matrix`, `stiffness_B_matrix`, `stiffness_D_matrix`
(252-302): layer `l` has the property "off" given by `layerOffset`; the matrices of the layers are summed. -/
noncomputable def laminate (f : (h off : ℝ) → Matrix m n ℝ → Matrix m n ℝ) (base : ℝ) (ls : List (Layer m n)) : Matrix m n ℝ :=
  layered ((List.range ls.length).map fun l => f (ls.map (·.h) |>.getD l 0) (layerOffset base (ls.map (·.h)) l) ((ls.map (·.C)).getD l 0))

/-- The thickness objects deleted when a multilayer card is destroyed: the destructor deletes every layer offset (multilayer_2d_section_element_property_card.cpp:167-171),
and the destructor of each layer offset deletes the thickness functions of all layers (45-49). -/
def deletedThicknesses (hs : List Nat) : List Nat := (List.range hs.length).flatMap fun _ => hs

end Verif.Section2D
