import Verif.Model.SteadyLoads
import Verif.Model.Solid
/-
  Solid elements in a steady analysis: `elem_calculations` and `elem_sensitivity_calculations` (src/elasticity/structural_nonlinear_assembly.cpp:113-139, 173-197) with `StructuralElement3D`
  (src/elasticity/solid_element_3d.cpp) and `IsotropicElementPropertyCard3D` with an isotropic material (src/property_cards/isotropic_element_property_card_3D.cpp:193-221, 422-431).
-/
namespace Verif.Steady
open Verif Verif.SecDep Verif.GeomElem Verif.StructLoads Verif.Material

variable {n : Nat} {X : Type}

/-- The functions a solid is made of. -/
structure SolidFns where
  E : Nat
  nu : Nat

/-- `stiffness_matrix(3)` of the material (isotropic_material_property_card.cpp:787-843; isotropic_element_property_card_3D.cpp:422-431): no function of the card itself is used. -/
def solidFns (hp : Fn.Heap) (c : Card) : Exec SolidFns := do
  let E ← c.material.get (isField hp) "E"
  let nu ← c.material.get (isField hp) "nu"
  pure ⟨E, nu⟩

/-- A solid element with its card; `heat` is the temperature load on its subdomain, if any: expansion matrix and temperatures at the points. -/
structure SolidData (n : Nat) (X : Type) where
  hp : Fn.Heap
  F : Funcs X
  card : Card
  nl : Bool
  qs : List (Solid.Vqp n X)
  heat : Option (Fam (Solid.Vqp n X) Solid.Thermal)

/-- The stiffness at a point (isotropic_element_property_card_3D.cpp:202-209). -/
noncomputable def solidMatAt (F : Funcs X) (P : SolidFns) (v : Nat → ℝ) (x : X) : Fin 6 → Fin 6 → ℝ := iso3D (F.val v P.E x) (F.val v P.nu x)
/-- Its `derivative` (isotropic_element_property_card_3D.cpp:213-221). -/
noncomputable def dSolidMatAt (F : Funcs X) (P : SolidFns) (v : Nat → ℝ) (p : Nat) (x : X) : Fin 6 → Fin 6 → ℝ := dIso3D (F.val v P.E x) (F.val v P.nu x) (F.der v P.E p x) (F.der v P.nu p x)

/-- The points with the stiffness for given parameter values. -/
noncomputable def solidElem (F : Funcs X) (P : SolidFns) (v : Nat → ℝ) (qs : List (Solid.Vqp n X)) : Solid.Elem n X := qs.map fun q => (q, solidMatAt F P v q.x)

/-- `thermal_residual` of a heated solid (solid_element_3d.cpp:951-1089). -/
noncomputable def SolidData.heatRes (E : SolidData n X) (t : ℝ) (u : Dof n → ℝ) (a : Dof n) : ℝ := match E.heat with
  | none => 0
  | some th => Solid.thermalRes E.nl (E.qs.map fun q => (q, th.val t q)) u a
/-- Its Jacobian. -/
noncomputable def SolidData.heatJac (E : SolidData n X) (t : ℝ) (a b : Dof n) : ℝ := match E.heat with
  | none => 0
  | some th => Solid.thermalJac E.nl (E.qs.map fun q => (q, th.val t q)) a b

/-- `internal_residual` (solid_element_3d.cpp:136-423) and the temperature load. -/
noncomputable def solidForce (E : SolidData n X) (v : Nat → ℝ) (p : Nat) (t : ℝ) (u : Dof n → ℝ) : Exec (Dof n → ℝ) := do
  let P ← solidFns E.hp E.card
  pure fun a => Solid.internalRes E.nl (solidElem E.F P (Function.update v p t) E.qs) u a + E.heatRes t u a

/-- The Jacobian; the matrix is zero before (structural_nonlinear_assembly.cpp:124), `internal_residual` ends with the addition to the rotational diagonal (solid_element_3d.cpp:415-417). -/
noncomputable def solidJac (E : SolidData n X) (v : Nat → ℝ) (p : Nat) (t : ℝ) (u : Dof n → ℝ) : Exec (Dof n → Dof n → ℝ) := do
  let P ← solidFns E.hp E.card
  pure fun a b => Solid.internalJac E.nl (solidElem E.F P (Function.update v p t) E.qs) u (fun _ _ => 0) a b + E.heatJac t a b

/-- `internal_residual_sensitivity` (solid_element_3d.cpp:567-788; there is no dependency query) and `thermal_residual_sensitivity` (1094-1104), which is `libmesh_error()`. -/
noncomputable def solidSens (E : SolidData n X) (v : Nat → ℝ) (p : Nat) (t : ℝ) (u : Dof n → ℝ) : Exec (Dof n → ℝ) := do
  let P ← solidFns E.hp E.card
  if E.heat.isSome then .error .error
  else pure (Solid.internalSens E.nl (solidElem E.F P (Function.update v p t) E.qs) (fun q => dSolidMatAt E.F P (Function.update v p t) p q.x) u)

/-- A solid with its other loads. -/
noncomputable def loadedSolid (E : SolidData n X) (A : Attached n) (v : Nat → ℝ) (p : Nat) (dof : Nat → Nat) (asked : Bool) : PElem :=
  loadedElem (solidForce E v p) (solidJac E v p) (solidSens E v p) A dof asked

/-- `surface_pressure_residual` on a side of a solid and its sensitivity (solid_element_3d.cpp:817-944). -/
def solidPressureOp (p : Fam X ℝ) (pts : List (Qp n X)) : Op n :=
  ⟨fun t _ => pressureSide none none (p.at t) pts, fun _ _ _ _ => 0, fun t _ => pressureSideSens none none (p.at t) pts⟩

end Verif.Steady
