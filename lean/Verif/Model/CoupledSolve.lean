import Mathlib.Data.Real.Basic
import Mathlib.Algebra.BigOperators.Group.Finset.Basic
import Mathlib.Algebra.BigOperators.Fin
import Mathlib.Data.Fintype.BigOperators
/-
  Model of the drivers of the multiphysics solver: src/solver/multiphysics_nonlinear_solver.cpp.  The products of the blocks are in Model/Coupled; here are the
  constraints, the vectors the callbacks change, and the transfer of solutions between the systems and the monolithic vector.
-/
namespace Verif.CoupledSolve

/-! ### constraints -/

/-- Constraint rows of a `DofMap`: for a constrained degree of freedom the coefficients and the inhomogeneity (libMesh). -/
abbrev Con (α : Type) := α → Option ((α → ℝ) × ℝ)

/-- `DofMap::enforce_constraints_exactly(sys, v, homogeneous)` (libMesh): constrained entries are overwritten in place; the inhomogeneity is left out when
`homogeneous`. -/
noncomputable def enforce {α : Type} [Fintype α] (homogeneous : Bool) (c : Con α) (v : α → ℝ) : α → ℝ := fun d =>
  match c d with
  | none => v d
  | some (a, h) => ∑ k, a k * v k + if homogeneous then 0 else h

section callbacks
variable {nd : Nat} {D : Fin nd → Type} [∀ i, Fintype (D i)]

/-- What the disciplines provide. `residual` and `jacobian` are `residual_and_jacobian` of the discipline, `product` its `linearized_jacobian_solution_product`. The last
argument stands for what the pre-residual update object handed to the disciplines (all solutions, or all solutions and perturbations); `none` without such an object. -/
structure Physics (D : Fin nd → Type) where
  con : ∀ i, Con (D i)
  residual : ∀ i, (D i → ℝ) → Option (∀ k, D k → ℝ) → D i → ℝ
  jacobian : ∀ i, (D i → ℝ) → Option (∀ k, D k → ℝ) → D i → D i → ℝ
  product : ∀ i, (D i → ℝ) → (D i → ℝ) → Option ((∀ k, D k → ℝ) × (∀ k, D k → ℝ)) → D i → ℝ
  update : Bool

/-- `__mast_multiphysics_petsc_snes_residual` (multiphysics_nonlinear_solver.cpp:168-281): the vector `x` of the nonlinear solver after the call, and the residual.
The sub-vectors are views of `x`, so that the constraints are enforced in `x` itself (206-216, 276). -/
noncomputable def snesResidual (P : Physics D) (x : ∀ i, D i → ℝ) : (∀ i, D i → ℝ) × (∀ i, D i → ℝ) :=
  let x' := fun i => enforce false (P.con i) (x i)
  (x', fun i => P.residual i (x' i) (if P.update then some x' else none))

/-- `__mast_multiphysics_petsc_snes_jacobian` (multiphysics_nonlinear_solver.cpp:287-386): the vector after the call, and the matrices of the systems. -/
noncomputable def snesJacobian (P : Physics D) (x : ∀ i, D i → ℝ) : (∀ i, D i → ℝ) × (∀ i, D i → D i → ℝ) :=
  let x' := fun i => enforce false (P.con i) (x i)
  (x', fun i => P.jacobian i (x' i) (if P.update then some x' else none))

/-- `__mast_multiphysics_petsc_mat_mult` for block `(i, j)` (multiphysics_nonlinear_solver.cpp:45-163): block `j` of the vector being multiplied after the call, and the
product. `x` is the current iterate (`SNESGetSolution`), not changed here. The constraints are enforced, homogeneously, in the vector being multiplied (104-113). -/
noncomputable def matMult (P : Physics D) (x : ∀ k, D k → ℝ) (i j : Fin nd) (dx : D j → ℝ) : (D j → ℝ) × (D i → ℝ) :=
  let dx' := enforce true (P.con j) dx
  let d : ∀ k, D k → ℝ := fun k => if h : k = j then h ▸ dx' else fun _ => 0
  (dx', P.product i (x i) (d i) (if P.update then some (x, d) else none))

/-- State of the multiplication by the nested matrix: the vector being multiplied and the result. -/
structure Mul (D : Fin nd → Type) where
  dx : ∀ k, D k → ℝ
  y : ∀ k, D k → ℝ

/-- One block of PETSc's multiplication by a nested matrix: `y_i += A_ij dx_j` (MatMult_Nest). The matrix of the system on the diagonal, the shell elsewhere
(multiphysics_nonlinear_solver.cpp:483-537). `A` are the matrices of the last `snesJacobian`. -/
noncomputable def mulBlock (P : Physics D) (A : ∀ i, D i → D i → ℝ) (x : ∀ k, D k → ℝ) (s : Mul D) (ij : Fin nd × Fin nd) : Mul D :=
  let i := ij.1
  let j := ij.2
  if i = j then { s with y := Function.update s.y i fun r => s.y i r + ∑ c, A i r c * s.dx i c }
  else
    let p := matMult P x i j (s.dx j)
    { dx := Function.update s.dx j p.1, y := Function.update s.y i fun r => s.y i r + p.2 r }

/-- Multiplication by the nested matrix (540-544): rows in order, in each row the columns in order. -/
noncomputable def nestMul (P : Physics D) (A : ∀ i, D i → D i → ℝ) (x dx : ∀ k, D k → ℝ) : Mul D :=
  ((List.finRange nd).flatMap fun i => (List.finRange nd).map fun j => (i, j)).foldl (mulBlock P A x) { dx := dx, y := fun _ _ => 0 }

end callbacks

/-! ### transfer of the solutions -/

/-- First index of processor `p` in the vector of system `i`; `nl p i` is the number of degrees of freedom of system `i` on processor `p` (`first_local_index`). -/
def first (nl : Nat → Nat → Nat) (i p : Nat) : Nat := ∑ q ∈ Finset.range p, nl q i

/-- Where the degrees of freedom of system `i` on processor `p` begin in the monolithic vector (`MatNestGetISs`, multiphysics_nonlinear_solver.cpp:564; PETSc numbers
the processors' parts one after the other, in each part the systems one after the other). -/
def offset (nd : Nat) (nl : Nat → Nat → Nat) (p i : Nat) : Nat := ∑ q ∈ Finset.range p, ∑ j ∈ Finset.range nd, nl q j + ∑ j ∈ Finset.range i, nl p j

/-- The vectors of a system that the solver touches or that users read: `solution` and `current_local_solution`. -/
structure Sys where
  solution : Nat → ℝ
  current : Nat → ℝ

/-- The loop copying the solutions to the monolithic vector (multiphysics_nonlinear_solver.cpp:588-623), all processors. -/
def pack (np nd : Nat) (nl : Nat → Nat → Nat) (sys : Nat → Sys) (x : Nat → ℝ) : Nat → ℝ :=
  (List.range nd).foldl (fun x i => (List.range np).foldl (fun x p => (List.range (nl p i)).foldl (fun x k =>
    Function.update x (offset nd nl p i + k) ((sys i).solution (first nl i p + k))) x) x) x

/-- The loop copying the result back (multiphysics_nonlinear_solver.cpp:694-727), all processors. `System::update` is not called. -/
def unpack (np nd : Nat) (nl : Nat → Nat → Nat) (x : Nat → ℝ) (sys : Nat → Sys) : Nat → Sys :=
  (List.range nd).foldl (fun s i => (List.range np).foldl (fun s p => (List.range (nl p i)).foldl (fun s k =>
    Function.update s i { s i with solution := Function.update (s i).solution (first nl i p + k) (x (offset nd nl p i + k)) }) s) s) sys

/-- `MultiphysicsNonlinearSolverBase::solve` (multiphysics_nonlinear_solver.cpp:450-744); `snes` is what the nonlinear solver does with the vector. -/
def solve (np nd : Nat) (nl : Nat → Nat → Nat) (snes : (Nat → ℝ) → Nat → ℝ) (sys : Nat → Sys) : Nat → Sys :=
  unpack np nd nl (snes (pack np nd nl sys fun _ => 0)) sys

end Verif.CoupledSolve
