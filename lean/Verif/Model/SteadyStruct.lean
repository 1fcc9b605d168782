import Verif.Model.SteadySens
import Verif.Model.SectionDeps
/-
  Shells and beams in a steady analysis: `StructuralNonlinearAssemblyElemOperations::elem_calculations` and `elem_sensitivity_calculations` (src/elasticity/structural_nonlinear_assembly.cpp:113-139, 173-197) for elements
  without side and volume loads (the loads of the analysis are point loads).
-/
namespace Verif.Steady
open Verif Verif.SecDep Verif.GeomElem

variable {n : Nat} {X : Type}

/-- The element vector: entry `row` of every degree of freedom (structural_element_base.cpp:1592-1593). -/
noncomputable def flat (r : Dof n → ℝ) (a : Nat) : ℝ := ∑ d : Dof n, if d.row = a then r d else 0
/-- The element matrix. -/
noncomputable def flat2 (J : Dof n → Dof n → ℝ) (a b : Nat) : ℝ := ∑ d : Dof n, ∑ e : Dof n, if d.row = a ∧ e.row = b then J d e else 0

/-- Jacobian of the internal force of a shell (structural_element_2d.cpp:1076-1227) with the section stiffness for given parameter values. -/
noncomputable def plateJac (hp : Fn.Heap) (F : Funcs X) (c : Card) (ps : Bool) (T : Option (Fin 3 → Fin 3 → ℝ)) (nl bend : Bool) (qs : List (Shell.Sqp n X)) (ss : List (Shell.ShearQp n X)) (u : Dof n → ℝ) (v : Nat → ℝ) :
    Exec (Dof n → Dof n → ℝ) := do
  let P ← c.plate hp !ss.isEmpty
  pure (Shell.internalJac T nl bend (plateElem F ps P v qs ss) u)

/-- Jacobian of the internal force of a beam (structural_element_1d.cpp:546-676); the matrix is zero before (structural_nonlinear_assembly.cpp:124). -/
noncomputable def barJac (hp : Fn.Heap) (F : Funcs X) (c : Card) (T : Option (Fin 3 → Fin 3 → ℝ)) (nl bend : Bool) (qs : List (Beam.Bqp n X)) (u : Dof n → ℝ) (v : Nat → ℝ) : Exec (Dof n → Dof n → ℝ) := do
  let P ← c.bar hp
  pure (Beam.internalJac T nl bend (barElem F P v qs) u fun _ _ => 0)

/-- What a calculation leaves in the element vector; a failing one ends the program, which the theorems exclude. -/
noncomputable def vecOf (x : Exec (Dof n → ℝ)) : Nat → ℝ := match x with | .ok r => flat r | .error _ => fun _ => 0
/-- The same for the matrix. -/
noncomputable def matVal (x : Exec (Dof n → Dof n → ℝ)) : Nat → Nat → ℝ := match x with | .ok r => flat2 r | .error _ => fun _ _ => 0

/-- A shell element with its card. -/
structure ShellData (n : Nat) (X : Type) where
  hp : Fn.Heap
  F : Funcs X
  card : Card
  stress : Bool
  T : Option (Fin 3 → Fin 3 → ℝ)
  nl : Bool
  bend : Bool
  qs : List (Shell.Sqp n X)
  ss : List (Shell.ShearQp n X)

/-- `elem_calculations` and `elem_sensitivity_calculations` of a shell (structural_nonlinear_assembly.cpp:113-139, 173-197): vector and matrix are zero before. -/
noncomputable def shellElem (E : ShellData n X) (v : Nat → ℝ) (p : Nat) (dof : Nat → Nat) (asked : Bool) : PElem where
  n := 6 * n
  dof := dof
  diag := false
  asked := asked
  res := fun t u => vecOf (plateForce E.hp E.F E.card E.stress E.T E.nl E.bend E.qs E.ss (fun d => u d.row) (Function.update v p t))
  jac := fun t u => matVal (plateJac E.hp E.F E.card E.stress E.T E.nl E.bend E.qs E.ss (fun d => u d.row) (Function.update v p t))
  sens := fun t u => vecOf (plateSens E.hp E.F E.card E.stress E.T E.nl E.bend E.qs E.ss (fun d => u d.row) (Function.update v p t) p fun _ => 0)

/-- A beam element with its card. -/
structure BeamData (n : Nat) (X : Type) where
  hp : Fn.Heap
  F : Funcs X
  card : Card
  T : Option (Fin 3 → Fin 3 → ℝ)
  nl : Bool
  bend : Bool
  qs : List (Beam.Bqp n X)

/-- The same for a beam without transverse shear. -/
noncomputable def beamElem (E : BeamData n X) (v : Nat → ℝ) (p : Nat) (dof : Nat → Nat) (asked : Bool) : PElem where
  n := 6 * n
  dof := dof
  diag := false
  asked := asked
  res := fun t u => vecOf (barForce E.hp E.F E.card E.T E.nl E.bend E.qs (fun d => u d.row) (Function.update v p t))
  jac := fun t u => matVal (barJac E.hp E.F E.card E.T E.nl E.bend E.qs (fun d => u d.row) (Function.update v p t))
  sens := fun t u => vecOf (barSens E.hp E.F E.card E.T E.nl E.bend E.qs (fun d => u d.row) (Function.update v p t) p fun _ => 0)

end Verif.Steady
