import Verif.Model.Assembly
import Verif.Model.Transient
import Mathlib.Algebra.Module.Pi
import Mathlib.Algebra.BigOperators.Group.Finset.Basic
/-
  Assembly of one time step: src/base/transient_assembly.cpp, src/level_set/level_set_reinitialization_transient_assembly.cpp, with the local quantities of src/solver/transient_solver_base.cpp:514-732 and
  the element routines of the three solvers.  Constraints are those of `Verif.Model.Assembly`; processes are added; element operations are parameters.
-/
namespace Verif.TrAsm
open Verif Verif.Asm Verif.Transient

noncomputable section

/-- One active element: `fm`, `fx`, `B` are what the element operations return in `elem_calculations` for the element solution, velocity and acceleration; `prod` is `linearized_jacobian_solution_product` for the
element state and its perturbation; `dfm`, `dfx` the sensitivities; `damp` is `f_m_jac_xdot` of the version of `elem_calculations` for first order systems. -/
structure Elem where
  n : Nat
  dof : Nat → Nat
  fm : ElemState (Nat → ℝ) → Nat → ℝ
  fx : ElemState (Nat → ℝ) → Nat → ℝ
  B : ElemState (Nat → ℝ) → Blocks (Nat → Nat → ℝ)
  prod : ElemState (Nat → ℝ) → ElemState (Nat → ℝ) → Nat → ℝ
  dfm : ElemState (Nat → ℝ) → Nat → ℝ
  dfx : ElemState (Nat → ℝ) → Nat → ℝ
  damp : ElemState (Nat → ℝ) → Nat → Nat → ℝ

/-- The three time integrators. -/
inductive Solver where
  | first (beta : ℝ)
  | second (beta gamma : ℝ)
  | alpha (c : GACoef)

/-- `build_local_quantities` (transient_solver_base.cpp:514-592), `high`: `_if_highest_derivative_solution`. A first order solver has no acceleration. -/
def localQty (S : Solver) (high : Bool) (dt : ℝ) (h : Hist (Nat → ℝ)) (X : Nat → ℝ) : ElemState (Nat → ℝ) :=
  if high then ⟨h.sol 0, h.vel 0, h.acc 0⟩
  else match S with
    | .first b => ⟨X, fonVel b dt h X, 0⟩
    | .second b g => ⟨X, sonVel b g dt h X, sonAcc b dt h X⟩
    | .alpha c => ⟨X, sonVel c.beta c.gamma dt h X, sonAcc c.beta dt h X⟩

/-- `set_element_data` (first_order_newmark_transient_solver.cpp:43-73, second_order_newmark_transient_solver.cpp:45-78, generalized_alpha_transient_solver.cpp:65-105). -/
def elemState (S : Solver) (h : Hist (Nat → ℝ)) (q : ElemState (Nat → ℝ)) (e : Elem) : ElemState (Nat → ℝ) :=
  match S with
  | .alpha c => ⟨fun a => (1 - c.alpha_f) * q.x (e.dof a) + c.alpha_f * h.sol 1 (e.dof a), fun a => (1 - c.alpha_f) * q.v (e.dof a) + c.alpha_f * h.vel 1 (e.dof a),
      fun a => (1 - c.alpha_m) * q.a (e.dof a) + c.alpha_m * h.acc 1 (e.dof a)⟩
  | _ => ⟨fun a => q.x (e.dof a), fun a => q.v (e.dof a), fun a => q.a (e.dof a)⟩

/-- `elem_calculations` of the solvers, vector (first_order_newmark_transient_solver.cpp:241, 273; second_order_newmark_transient_solver.cpp:330-365; generalized_alpha_transient_solver.cpp:240-285). -/
def elemVec (e : Elem) (s : ElemState (Nat → ℝ)) (a : Nat) : ℝ := e.fm s a + e.fx s a

/-- `elem_calculations` of the solvers, matrix (see `fonJac`, `sonJac`, `gaJac`). -/
def elemMat (S : Solver) (high : Bool) (dt : ℝ) (B : Blocks (Nat → Nat → ℝ)) : Nat → Nat → ℝ :=
  match S with
  | .first b => fonJac high b dt B
  | .second b g => sonJac high b g dt B
  | .alpha c => gaJac high c dt B

/-- Residual part of the element loop on one process (transient_assembly.cpp:83, 106-160). -/
def resProc (C : Nat → Bool) (S : Solver) (high : Bool) (dt : ℝ) (h : Hist (Nat → ℝ)) (X : Nat → ℝ) (es : List Elem) : Nat → ℝ :=
  es.foldl (fun R e => addVector e.n e.dof (conVec C e.dof (elemVec e (elemState S h (localQty S high dt h X) e))) R) fun _ => 0

/-- `residual_and_jacobian` (transient_assembly.cpp:62-176), `R`, after `close` (174), without a post assembly operation (163-164). -/
def residual (C : Nat → Bool) (S : Solver) (high : Bool) (dt : ℝ) (h : Hist (Nat → ℝ)) (X : Nat → ℝ) (ps : List (List Elem)) (i : Nat) : ℝ :=
  (ps.map fun es => resProc C S high dt h X es i).sum

/-- Matrix part of the element loop (84, 106-160). -/
def jacProc (C : Nat → Bool) (S : Solver) (high : Bool) (dt : ℝ) (h : Hist (Nat → ℝ)) (X : Nat → ℝ) (es : List Elem) : Nat → Nat → ℝ :=
  es.foldl (fun J e => addMatrix e.n e.dof (conMat C e.dof (elemMat S high dt (e.B (elemState S h (localQty S high dt h X) e)))) J) fun _ _ => 0

/-- `residual_and_jacobian` (62-176), `J`, with `close_matrix` (175). -/
def jacobian (C : Nat → Bool) (S : Solver) (high : Bool) (dt : ℝ) (h : Hist (Nat → ℝ)) (X : Nat → ℝ) (ps : List (List Elem)) (i j : Nat) : ℝ :=
  (ps.map fun es => jacProc C S high dt h X es i j).sum

/-- `build_perturbed_local_quantities` (transient_solver_base.cpp:653-732) for the usual mode. -/
def perturbed (S : Solver) (dt : ℝ) (dX : Nat → ℝ) : ElemState (Nat → ℝ) :=
  match S with
  | .first b => ⟨dX, fonDeltaVel b dt dX, 0⟩
  | .second b g => ⟨dX, sonDeltaVel b g dt dX, sonDeltaAcc b dt dX⟩
  | .alpha c => ⟨dX, sonDeltaVel c.beta c.gamma dt dX, sonDeltaAcc c.beta dt dX⟩

/-- `set_element_perturbed_data` (first_order_newmark_transient_solver.cpp:112-142, second_order_newmark_transient_solver.cpp:115-150, generalized_alpha_transient_solver.cpp:155-188): copied. -/
def restrict (e : Elem) (q : ElemState (Nat → ℝ)) : ElemState (Nat → ℝ) := ⟨fun a => q.x (e.dof a), fun a => q.v (e.dof a), fun a => q.a (e.dof a)⟩

/-- `linearized_jacobian_solution_product` (transient_assembly.cpp:181-283) on one process. -/
def prodProc (C : Nat → Bool) (S : Solver) (dt : ℝ) (h : Hist (Nat → ℝ)) (X dX : Nat → ℝ) (es : List Elem) : Nat → ℝ :=
  es.foldl (fun R e => addVector e.n e.dof (conVec C e.dof (e.prod (elemState S h (localQty S false dt h X) e) (restrict e (perturbed S dt dX)))) R) fun _ => 0

/-- All processes (282). -/
def product (C : Nat → Bool) (S : Solver) (dt : ℝ) (h : Hist (Nat → ℝ)) (X dX : Nat → ℝ) (ps : List (List Elem)) (i : Nat) : ℝ := (ps.map fun es => prodProc C S dt h X dX es i).sum

/-- `elem_sensitivity_contribution_previous_timestep`; `q`: sensitivities stored with index 1 (transient_assembly.cpp:316, 345; first_order_newmark_transient_solver.cpp:321-354;
second_order_newmark_transient_solver.cpp:416-451, for generalized-alpha the values are those of index 1, too, as the weights add up to one, generalized_alpha_transient_solver.cpp:109-151). The second order
version is asserted away in debug builds; in release builds it uses the first order formula with the first order element matrix. `gamma` does not enter. -/
def prevContribution (dbg : Bool) (S : Solver) (dt : ℝ) (e : Elem) (s q : ElemState (Nat → ℝ)) : Exec (Nat → ℝ) :=
  match S with
  | .first b => .ok fun a => -1 * ∑ j ∈ Finset.range e.n, (e.B s).m_xd a j * ((1 / b / dt) * q.x j + (1 - b) / b * q.v j)
  | .second b _ => if dbg then .error .assertFail else .ok fun a => 0 - ∑ j ∈ Finset.range e.n, e.damp s a j * ((1 / b / dt) * q.x j + (1 - b) / b * q.v j)
  | .alpha c => if dbg then .error .assertFail else .ok fun a => 0 - ∑ j ∈ Finset.range e.n, e.damp s a j * ((1 / c.beta / dt) * q.x j + (1 - c.beta) / c.beta * q.v j)

/-- Body of the element loop of `sensitivity_assemble` (transient_assembly.cpp:327-370). -/
def sensElem (dbg : Bool) (C : Nat → Bool) (S : Solver) (dt : ℝ) (h hs : Hist (Nat → ℝ)) (X : Nat → ℝ) (R : Nat → ℝ) (e : Elem) : Exec (Nat → ℝ) := do
  let s := elemState S h (localQty S false dt h X) e
  let w ← prevContribution dbg S dt e s (restrict e ⟨hs.sol 1, hs.vel 1, hs.acc 1⟩)
  .ok (addVector e.n e.dof (conVec C e.dof fun a => e.dfm s a + e.dfx s a + w a) R)

/-- `sensitivity_assemble(f, rhs)` (transient_assembly.cpp:287-385) on one process: `X` is the solution of the system, `hs` the stored sensitivities. -/
def sensProc (dbg : Bool) (C : Nat → Bool) (S : Solver) (dt : ℝ) (h hs : Hist (Nat → ℝ)) (X : Nat → ℝ) (es : List Elem) : Exec (Nat → ℝ) := es.foldlM (sensElem dbg C S dt h hs X) fun _ => 0

/-- All processes (382). -/
def sensRhs (dbg : Bool) (C : Nat → Bool) (S : Solver) (dt : ℝ) (h hs : Hist (Nat → ℝ)) (X : Nat → ℝ) (ps : List (List Elem)) : Exec (Nat → ℝ) := do
  let Rs ← ps.mapM (sensProc dbg C S dt h hs X)
  .ok fun i => (Rs.map fun R => R i).sum

/-! ### Reinitialization of a level set -/

/-- An element whose operations also know the reference solution (level_set_transient_assembly.cpp:43-51). -/
abbrev RefElem := (Nat → ℝ) → Elem

/-- `set_reference_solution` (level_set_reinitialization_transient_assembly.cpp:56-62). -/
def setReference (dbg : Bool) (ref : Option (Nat → ℝ)) (sol : Nat → ℝ) : Exec (Option (Nat → ℝ)) := if dbg && ref.isSome then .error .assertFail else .ok (some sol)

/-- Element operations with the reference solution of the element (level_set_reinitialization_transient_assembly.cpp:138-145). -/
def withRef (ref : Nat → ℝ) (dof : Nat → Nat) (e : RefElem) : Elem := e fun a => ref (dof a)

/-- `residual_and_jacobian` (level_set_reinitialization_transient_assembly.cpp:66-187): without a reference solution a null pointer is dereferenced (109-110). Otherwise the loop of the base class with the reference
solution given to each element. -/
def reinitResidual (C : Nat → Bool) (S : Solver) (dt : ℝ) (h : Hist (Nat → ℝ)) (ref : Option (Nat → ℝ)) (X : Nat → ℝ) (ps : List (List ((Nat → Nat) × RefElem))) : Exec (Nat → ℝ) :=
  match ref with
  | none => .error .ub
  | some r => .ok fun i => (ps.map fun es => resProc C S false dt h X (es.map fun e => withRef r e.1 e.2) i).sum

/-- The matrix of the same call. -/
def reinitJacobian (C : Nat → Bool) (S : Solver) (dt : ℝ) (h : Hist (Nat → ℝ)) (ref : Option (Nat → ℝ)) (X : Nat → ℝ) (ps : List (List ((Nat → Nat) × RefElem))) : Exec (Nat → Nat → ℝ) :=
  match ref with
  | none => .error .ub
  | some r => .ok fun i j => (ps.map fun es => jacProc C S false dt h X (es.map fun e => withRef r e.1 e.2) i j).sum

end
end Verif.TrAsm
