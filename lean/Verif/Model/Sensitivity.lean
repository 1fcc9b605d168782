import Mathlib.LinearAlgebra.Matrix.NonsingularInverse
import Mathlib.Data.Real.Basic
import Verif.Model.Exec
/-
  Model of NonlinearSystem::sensitivity_solve / adjoint_solve (src/base/nonlinear_system.cpp:741-847) and of the two ways to
  obtain the total derivative of an output, AssemblyBase::calculate_output_direct_sensitivity /
  calculate_output_adjoint_sensitivity (src/base/assembly_base.cpp:434-590).
  Assembled quantities are parameters (their assembly is modelled in Model/Assembly); the linear solver is a
  parameter with contract "it returns a solution of the system it is given".
-/
namespace Verif.Sens
open Verif Matrix

noncomputable section
variable {n : Nat}

/-- What the assembly object delivers for one parameter `p` and one scalar output `q`, as functions of the state handed to it:
Jacobian (`residual_and_jacobian`), residual sensitivity (`sensitivity_assemble`), `dq/dX`
(`calculate_output_derivative`) and partial `dq/dp` (`calculate_output_direct_sensitivity` with `dXdp == nullptr` followed by
`output_sensitivity_total`). -/
structure Asm (n : Nat) where
  jac : (Fin n → ℝ) → Matrix (Fin n) (Fin n) ℝ
  dRdp : (Fin n → ℝ) → (Fin n → ℝ)
  dqdX : (Fin n → ℝ) → (Fin n → ℝ)
  dqdp : (Fin n → ℝ) → ℝ

/-- The linear solver: `solve A b` and `adjoint_solve A b` (which solves with the transposed matrix). -/
structure LinSolver (n : Nat) where
  solve : Matrix (Fin n) (Fin n) ℝ → (Fin n → ℝ) → (Fin n → ℝ)

/-- `enforce_constraints_exactly(…, homogeneous = true)` for Dirichlet constraints on the dofs `C` (line 786; line 843 for the
adjoint with homogeneous adjoint boundary values). -/
def enforce (C : Fin n → Bool) (x : Fin n → ℝ) : Fin n → ℝ := fun i => if C i then 0 else x i

/-- `sensitivity_solve` (741-794): `matrix` is the current content of the system matrix, overwritten if
`assemble` (line 762-763 uses the argument `X`). Returns the sensitivity solution. -/
def sensitivitySolve (a : Asm n) (ls : LinSolver n) (C : Fin n → Bool) (matrix : Matrix (Fin n) (Fin n) ℝ)
    (X : Fin n → ℝ) (assemble : Bool) : Fin n → ℝ :=
  let J := if assemble then a.jac X else matrix
  let rhs := (-1 : ℝ) • a.dRdp X
  enforce C (ls.solve J rhs)

/-- `adjoint_solve` (798-847): note that line 821 assembles the Jacobian at `*solution`, not at the argument `X`. -/
def adjointSolve (a : Asm n) (ls : LinSolver n) (C : Fin n → Bool) (matrix : Matrix (Fin n) (Fin n) ℝ)
    (solution X : Fin n → ℝ) (assemble : Bool) : Fin n → ℝ :=
  let J := if assemble then a.jac solution else matrix
  let rhs := (-1 : ℝ) • a.dqdX X
  enforce C (ls.solve Jᵀ rhs)

/-- assembly_base.cpp:434-550 followed by `output_sensitivity_total`: the output object accumulates the partial derivative plus the
contribution of the solution sensitivity. -/
def directTotal (a : Asm n) (X dX : Fin n → ℝ) : ℝ := a.dqdp X + a.dqdX X ⬝ᵥ dX

/-- `calculate_output_adjoint_sensitivity` (assembly_base.cpp:555-590). -/
def adjointTotal (a : Asm n) (X adj : Fin n → ℝ) (includePartial : Bool) : ℝ :=
  let dq := adj ⬝ᵥ a.dRdp X
  if includePartial then dq + a.dqdp X else dq

/-- `calculate_output_adjoint_sensitivity_multiple_parameters_no_direct` (assembly_base.cpp:594-639):
one residual sensitivity per parameter, no partial term. -/
def adjointMulti (as : List (Asm n)) (X adj : Fin n → ℝ) : List ℝ :=
  let rhs := as.map (fun a => a.dRdp X)
  rhs.map (fun r => adj ⬝ᵥ r)

end
end Verif.Sens
