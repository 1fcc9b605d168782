import Verif.Model.CutAsm
/-
  Update of the condensed (void) part of the solution during a nonlinear solve: src/level_set/level_set_void_solution.cpp.
  PETSc's convention: an iteration replaces the solution `X` by `X - lambda Y`; `SNESGetSolutionUpdate` returns the direction `Y`, `lambda` is the step of the line search.
-/
namespace Verif.VoidSol
open Verif.CutAsm
open Verif.InterfaceDofs (Solver updatedSol)

noncomputable section

/-- One element of `update_void_solution` (level_set_void_solution.cpp:225-301): stored solution on the void dofs, residual and Jacobian of the whole element times the volume fraction, and the update, which is
also stored (interface_dof_handler.cpp:456).  Elements that are not factored are left alone. -/
def updateElem (solve : Solver) (X dX : Nat → ℝ) (e : Elem) : Elem :=
  match e.factor with
  | some F => { e with factor := some { F with stored := updatedSol solve (fullJac e (elemSol e X)) (fullRes e (elemSol e X)) F.u F.f (elemSol e X) (fun a => dX (e.dof a)) } }
  | none => e

/-- `update_void_solution` (level_set_void_solution.cpp:181-303). -/
def updateVoid (solve : Solver) (X dX : Nat → ℝ) (es : List Elem) : List Elem := es.map (updateElem solve X dX)

/-- The solve as the monitor sees it: the solution, the vector `old_solution`, the elements with their stored solutions. -/
structure Solve where
  X : Nat → ℝ
  old : Nat → ℝ
  es : List Elem

/-- Monitor with `its == 0` (level_set_void_solution.cpp:57-59, 87-88). -/
def start (X : Nat → ℝ) (es : List Elem) : Solve := ⟨X, X, es⟩

/-- One iteration: PETSc's step, then the monitor with `its > 0` (level_set_void_solution.cpp:60-88): the update uses `-Y`, not the step taken. -/
def iterate (solve : Solver) (s : Solve) (Y : Nat → ℝ) (lambda : ℝ) : Solve :=
  ⟨fun g => s.X g - lambda * Y g, fun g => s.X g - lambda * Y g, updateVoid solve s.old (fun g => -Y g) s.es⟩

/-- A history of iterations. -/
def run (solve : Solver) (s : Solve) (steps : List ((Nat → ℝ) × ℝ)) : Solve := steps.foldl (fun s p => iterate solve s p.1 p.2) s

end

end Verif.VoidSol
