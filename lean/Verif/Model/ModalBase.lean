import Verif.Model.ModalSens
import Verif.Model.ShellDot
/-
  Natural frequencies of a loaded structure: the modal eigenproblem about a base solution (`set_base_solution`, src/base/eigenproblem_assembly.cpp:53-83).  `U t` is the base solution at the parameter value `t`
  (`_base_sol`), `V` the vector given as its sensitivity (`_base_sol_sensitivity`).  No side or volume loads on the elements.
-/
namespace Verif.Modal
open Verif Verif.SecDep Verif.GeomElem Verif.StructLoads Verif.Steady

variable {n : Nat} {X : Type}

/-- `sol(i) = (*localized_solution)(dof_indices[i])` (eigenproblem_assembly.cpp:152-157, 254-270). -/
def gather (dof : Nat → Nat) (u : Nat → ℝ) (d : Dof n) : ℝ := u (dof d.row)

/-- Jacobian of `internal_residual_sensitivity` of a beam in the state `u` (structural_element_1d.cpp:683-813): nothing if the card does not depend on the parameter. -/
noncomputable def barJacSens (E : BeamData n X) (P : Bar) (v : Nat → ℝ) (p : Nat) (u : Dof n → ℝ) : Dof n → Dof n → ℝ :=
  if E.card.dependsOn E.hp p then matToGlobal E.T (Beam.localJac E.nl E.bend ⟨E.qs.map fun q => (q, dBarSec E.F P v p q.x), []⟩ (vecToLocal E.T u)) else fun _ _ => 0

/-- `mat_A` of `elem_sensitivity_calculations` of a beam with bending when there is a base solution (structural_modal_eigenproblem_assembly.cpp:139-149): `internal_residual_sensitivity`, then
`internal_residual_jac_dot_state_sensitivity` (structural_element_1d.cpp:820-1037) with the sensitivity `w` of the base solution. -/
noncomputable def barStiffSensAt (E : BeamData n X) (v : Nat → ℝ) (p : Nat) (u w : Dof n → ℝ) : Exec (Dof n → Dof n → ℝ) := do
  let P ← E.card.bar E.hp
  pure fun a b => barJacSens E P v p u a b + Beam.jacDotGlobal E.T E.nl (barElem E.F P v E.qs) u w a b

/-- `elem_calculations` and `elem_sensitivity_calculations` of a beam about the base solution (structural_modal_eigenproblem_assembly.cpp:95-150). -/
noncomputable def beamModalAt (E : BeamData n X) (diag : Bool) (pts : List (Qp n X)) (v : Nat → ℝ) (p : Nat) (dof : Nat → Nat) (U : ℝ → Nat → ℝ) (V : Nat → ℝ) : MElem where
  n := 6 * n
  dof := dof
  A := fun t => matVal (barJac E.hp E.F E.card E.T E.nl E.bend E.qs (gather dof (U t)) (Function.update v p t))
  B := fun t => matVal (barMass E diag pts (Function.update v p t))
  dA := fun t => matVal (barStiffSensAt E (Function.update v p t) p (gather dof (U t)) (gather dof V))
  dB := fun t => matVal (barMassSens E diag pts (Function.update v p t) p)

/-- Jacobian of `internal_residual_sensitivity` of a shell in the state `u` (structural_element_2d.cpp:1234-1397), which has no drilling entries. -/
noncomputable def plateJacSens (E : ShellData n X) (P : Plate) (v : Nat → ℝ) (p : Nat) (u : Dof n → ℝ) : Dof n → Dof n → ℝ :=
  if E.card.dependsOn E.hp p then
    matToGlobal E.T (Shell.localJac E.nl E.bend ⟨E.qs.map fun q => (q, dPlateSec E.F E.stress P v p q.x), E.ss.map fun q => (q, dPlateG E.F P v p q.x)⟩ (vecToLocal E.T u))
  else fun _ _ => 0

/-- The same as `barStiffSensAt` for a shell (structural_element_2d.cpp:1571-1760). -/
noncomputable def plateStiffSensAt (E : ShellData n X) (v : Nat → ℝ) (p : Nat) (u w : Dof n → ℝ) : Exec (Dof n → Dof n → ℝ) := do
  let P ← E.card.plate E.hp !E.ss.isEmpty
  pure fun a b => plateJacSens E P v p u a b + Shell.jacDotGlobal E.T E.nl E.bend (plateElem E.F E.stress P v E.qs E.ss) u w a b

/-- The same as `beamModalAt` for a shell. -/
noncomputable def shellModalAt (E : ShellData n X) (diag : Bool) (pts : List (Qp n X)) (v : Nat → ℝ) (p : Nat) (dof : Nat → Nat) (U : ℝ → Nat → ℝ) (V : Nat → ℝ) : MElem where
  n := 6 * n
  dof := dof
  A := fun t => matVal (plateJac E.hp E.F E.card E.stress E.T E.nl E.bend E.qs E.ss (gather dof (U t)) (Function.update v p t))
  B := fun t => matVal (plateMass E diag pts (Function.update v p t))
  dA := fun t => matVal (plateStiffSensAt E (Function.update v p t) p (gather dof (U t)) (gather dof V))
  dB := fun t => matVal (plateMassSens E diag pts (Function.update v p t) p)

end Verif.Modal
