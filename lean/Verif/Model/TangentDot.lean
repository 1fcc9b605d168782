import Verif.Model.Assembly
/-
  Model of NonlinearImplicitAssembly::second_derivative_dot_solution_assembly (src/base/nonlinear_implicit_assembly.cpp:387-509): the matrix `d_JdX_dX`, the change of the assembled tangent
  along a change `dX` of the solution.  Elements and constraints are those of Model/Assembly.lean.
-/
namespace Verif.Asm
noncomputable section

/-- An element together with the matrix that `elem_second_derivative_dot_solution_assembly` returns for the element solution and its change (nonlinear_implicit_assembly.cpp:469-486). -/
structure DotElem extends Elem where
  dot : (Nat → ℝ) → (Nat → ℝ) → Nat → Nat → ℝ

/-- A structural element: `mat` is the sum of the internal tangent and of the tangent of the loads (structural_nonlinear_assembly.cpp:112-150), but
`elem_second_derivative_dot_solution_assembly` (291-302) calls only `internal_residual_jac_dot_state_sensitivity`. -/
def structElem (n : Nat) (dof : Nat → Nat) (vec : (Nat → ℝ) → Nat → ℝ) (internal load : (Nat → ℝ) → Nat → Nat → ℝ) (internalDot : (Nat → ℝ) → (Nat → ℝ) → Nat → Nat → ℝ) : DotElem :=
  { n := n, dof := dof, diag := false, vec := vec, mat := fun x a b => internal x a b + load x a b, prod := fun x d a => loop n (fun b s => s + (internal x a b + load x a b) * d b) 0, dot := internalDot }

/-- Body of the element loop (nonlinear_implicit_assembly.cpp:453-501): elements of the diagonal subdomains are skipped; the matrix is constrained like a Jacobian. -/
def dotElem (C : Nat → Bool) (X dX : Nat → ℝ) (J : Nat → Nat → ℝ) (e : DotElem) : Nat → Nat → ℝ :=
  if e.diag then J else addMatrix e.n e.dof (conMat C e.dof (e.dot (e.sol X) (e.sol dX))) J

/-- `d_JdX_dX` after `close()` (nonlinear_implicit_assembly.cpp:401, 508): the processes, each with its elements. -/
def tangentDot (C : Nat → Bool) (X dX : Nat → ℝ) (ps : List (List DotElem)) : Nat → Nat → ℝ :=
  ps.foldl (fun J p => fun i j => J i j + (p.foldl (dotElem C X dX) (fun _ _ => 0)) i j) (fun _ _ => 0)

end
end Verif.Asm
