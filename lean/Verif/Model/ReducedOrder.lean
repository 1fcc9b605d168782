import Mathlib.Algebra.BigOperators.Group.Finset.Basic
import Mathlib.Data.Complex.Basic
import Verif.Model.Assembly
import Verif.Model.Exec
/-
  Reduced order matrices: `StructuralFluidInteractionAssembly::assemble_reduced_order_quantity(_sensitivity)` (src/elasticity/structural_fluid_interaction_assembly.cpp:105-388) with
  `FluidStructureAssemblyElemOperations` (fluid_structure_assembly_elem_operations.cpp:77-236), and the generalized aerodynamic force matrix (fsi_generalized_aero_force_assembly.cpp:119-278).
  Reals stand for double.  `DofMap::constrain_element_*` is modelled for Dirichlet constraints (see `Asm.conMat`); constraint rows that refer to other dofs would enlarge the element matrix and make the
  product with `basis_mat` ill-formed, they are outside the model.  `parallel_sum` (C07) is the sum over the processes.
-/
namespace Verif.ReducedOrder
open Verif
open Verif.Asm (conMat conVec)

noncomputable section

/-- `StructuralQuantityType` (structural_fluid_interaction_assembly.h:33-39). -/
inductive Qty where
  | mass | damping | stiffness | force | invalid
deriving DecidableEq

/-- Jacobians of one element (or their sensitivities) at the base solution: `inertXddot`, `inertXdot`, `inertX` are the three matrices of `inertial_residual`; `internal` the matrix of `internal_residual`;
`stateDot` the matrix of `internal_residual_jac_dot_state_sensitivity`; `loadXdot`, `loadX` the two matrices of the side and volume loads together. -/
structure Jac where
  inertXddot : Nat → Nat → ℝ
  inertXdot : Nat → Nat → ℝ
  inertX : Nat → Nat → ℝ
  internal : Nat → Nat → ℝ
  prestress : Nat → Nat → ℝ
  stateDot : Nat → Nat → ℝ
  sideXdot : Nat → Nat → ℝ
  sideX : Nat → Nat → ℝ
  volXdot : Nat → Nat → ℝ
  volX : Nat → Nat → ℝ

/-- One active element: dofs, its Jacobians as a function of the element solution, and their sensitivities as a function of the element solution and its sensitivity. -/
structure Elem where
  n : Nat
  dof : Nat → Nat
  jac : (Nat → ℝ) → Jac
  sens : (Nat → ℝ) → (Nat → ℝ) → Jac

/-- `elem_calculations` (fluid_structure_assembly_elem_operations.cpp:78-140): `mat` is zeroed first; a quantity that is not a matrix ends in `libmesh_error`. -/
def elemCalc (j : Jac) : Qty → Exec (Nat → Nat → ℝ)
  | .mass => .ok fun a b => 0 + j.inertXddot a b
  | .damping => .ok fun a b => 0 + j.inertXdot a b + j.sideXdot a b + j.volXdot a b
  | .stiffness => .ok fun a b => 0 + j.internal a b + j.inertX a b + j.sideX a b + j.volX a b
  | _ => .error .error

/-- `elem_sensitivity_calculations` (fluid_structure_assembly_elem_operations.cpp:167-236); `base`: `_base_sol` of the operations object, set by `use_base_sol_for_sensitivity(true)`. -/
def elemSensCalc (base : Bool) (j : Jac) : Qty → Exec (Nat → Nat → ℝ)
  | .mass => .ok fun a b => 0 + j.inertXddot a b
  | .damping => .ok fun a b => 0 + j.inertXdot a b + j.sideXdot a b + j.volXdot a b
  | .stiffness => .ok fun a b => 0 + j.internal a b + (if base then j.stateDot a b else 0) + j.inertX a b + j.sideX a b + j.volX a b
  | _ => .error .error

/-- `basis_mat.transpose() * mat * basis_mat` (structural_fluid_interaction_assembly.cpp:211, 363) with `basis_mat(a, r) = basis[r](dof_indices[a])` (178-179). -/
def project (e : Elem) (basis : Nat → Nat → ℝ) (m : Nat → Nat → ℝ) (r s : Nat) : ℝ :=
  ∑ b ∈ Finset.range e.n, (∑ a ∈ Finset.range e.n, basis r (e.dof a) * m a b) * basis s (e.dof b)

/-- The element solution: zero without a base solution (structural_fluid_interaction_assembly.cpp:167-175, 316-334). -/
def elemSol (e : Elem) (base : Option (Nat → ℝ)) : Nat → ℝ := fun a => match base with | some X => X (e.dof a) | none => 0

/-- The element loop of `assemble_reduced_order_quantity` on one process for one requested quantity (structural_fluid_interaction_assembly.cpp:123-217). The loop over the requested quantities (200-212) treats
each matrix of the map on its own. -/
def assembleProc (C : Nat → Bool) (base : Option (Nat → ℝ)) (basis : Nat → Nat → ℝ) (q : Qty) (es : List Elem) : Exec (Nat → Nat → ℝ) :=
  es.foldlM (fun M e => do
    let mat ← elemCalc (e.jac (elemSol e base)) q
    .ok fun r s => M r s + project e basis (conMat C e.dof mat) r s) (fun _ _ => 0)

/-- The element loop of `assemble_reduced_order_quantity_sensitivity` (structural_fluid_interaction_assembly.cpp:261-369); `flag` is the state of the operations object before: it is set to true with the first
element when there is a base solution (329-331) and never reset. -/
def sensProc (C : Nat → Bool) (flag : Bool) (base : Option ((Nat → ℝ) × (Nat → ℝ))) (basis : Nat → Nat → ℝ) (q : Qty) (es : List Elem) : Exec (Nat → Nat → ℝ) :=
  es.foldlM (fun M e => do
    let mat ← elemSensCalc (flag || base.isSome) (e.sens (elemSol e (base.map (·.1))) (elemSol e (base.map (·.2)))) q
    .ok fun r s => M r s + project e basis (conMat C e.dof mat) r s) (fun _ _ => 0)

/-- `parallel_sum` (structural_fluid_interaction_assembly.cpp:230-235): all processes get the sum. -/
def allReduce (Ms : List (Nat → Nat → ℝ)) (r s : Nat) : ℝ := (Ms.map fun M => M r s).sum

/-- `assemble_reduced_order_quantity` for one quantity of the map, all processes. -/
def assemble (C : Nat → Bool) (base : Option (Nat → ℝ)) (basis : Nat → Nat → ℝ) (q : Qty) (ps : List (List Elem)) : Exec (Nat → Nat → ℝ) := do
  let Ms ← ps.mapM (assembleProc C base basis q)
  .ok (allReduce Ms)

/-- `assemble_reduced_order_quantity_sensitivity` for one quantity of the map, all processes. -/
def assembleSens (C : Nat → Bool) (flag : Bool) (base : Option ((Nat → ℝ) × (Nat → ℝ))) (basis : Nat → Nat → ℝ) (q : Qty) (ps : List (List Elem)) : Exec (Nat → Nat → ℝ) := do
  let Ms ← ps.mapM (sensProc C flag base basis q)
  .ok (allReduce Ms)

/-- An element in the aerodynamic force loop: `force i` is the complex vector of `elem_aerodynamic_force_calculations` (fluid_structure_assembly_elem_operations.cpp:144-161) after the fluid has been solved for
the motion of basis vector `i`. -/
structure AeroElem where
  n : Nat
  dof : Nat → Nat
  force : Nat → Nat → ℂ

/-- Column `i` of the matrix on one process (fsi_generalized_aero_force_assembly.cpp:201-261): real and imaginary parts are constrained separately (245-254), then `mat.col(i) += basis_mat.transpose() * vec`. -/
def aeroProc (C : Nat → Bool) (basis : Nat → Nat → ℝ) (es : List AeroElem) (r i : Nat) : ℂ :=
  es.foldl (fun acc e => acc + ∑ a ∈ Finset.range e.n,
    (basis r (e.dof a) : ℂ) * ⟨conVec C e.dof (fun a => (e.force i a).re) a, conVec C e.dof (fun a => (e.force i a).im) a⟩) 0

/-- `assemble_generalized_aerodynamic_force_matrix` (fsi_generalized_aero_force_assembly.cpp:120-278): `localized_basis[0]` is read before the loop (159). -/
def aero (C : Nat → Bool) (nBasis : Nat) (basis : Nat → Nat → ℝ) (ps : List (List AeroElem)) : Exec (Nat → Nat → ℂ) :=
  if nBasis = 0 then .error .ub else .ok fun r i => (ps.map fun es => aeroProc C basis es r i).sum

end
end Verif.ReducedOrder
