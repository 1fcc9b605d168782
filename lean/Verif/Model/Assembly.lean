import Mathlib.Data.Real.Basic
import Verif.Model.Exec
/-
  Model of NonlinearImplicitAssembly::residual_and_jacobian (src/base/nonlinear_implicit_assembly.cpp:64-266),
  linearized_jacobian_solution_product (271-383) and sensitivity_assemble (approx. 515-686).
  Global vectors/matrices are functions of dof numbers.  Element calculations are parameters (functions of the element
  solution).  `DofMap::constrain_element_*` is modelled for Dirichlet constraints (rows without entries), which is libMesh
  behaviour, not MAST code: constrained entries of vectors are zeroed; constrained rows and columns of matrices are zeroed and get
  a unit diagonal.
-/
namespace Verif.Asm
open Verif

noncomputable section

/-- One active element: `n = dof_indices.size()`, `dof a = dof_indices[a]`; `diag` says that its subdomain is in
`diagonal_elem_subdomain_id`; `vec`, `mat`, `prod` are what the element operations compute from the element solution
(and perturbed solution). -/
structure Elem where
  n : Nat
  dof : Nat → Nat
  diag : Bool
  vec : (Nat → ℝ) → Nat → ℝ
  mat : (Nat → ℝ) → Nat → Nat → ℝ
  prod : (Nat → ℝ) → (Nat → ℝ) → Nat → ℝ

/-- One node of a point load: dofs of the node and the load vector evaluated there. -/
structure NodeLoad where
  n : Nat
  dof : Nat → Nat
  load : Nat → ℝ

/-- `vec.add_vector(v, dof_indices)`. -/
def addVector (n : Nat) (dof : Nat → Nat) (v : Nat → ℝ) (R : Nat → ℝ) : Nat → ℝ :=
  loop n (fun a R => fun i => if i = dof a then R i + v a else R i) R

/-- `J.add_matrix(m, dof_indices)`. -/
def addMatrix (n : Nat) (dof : Nat → Nat) (m : Nat → Nat → ℝ) (J : Nat → Nat → ℝ) : Nat → Nat → ℝ :=
  loop n (fun a J => loop n (fun b J => fun i j => if i = dof a ∧ j = dof b then J i j + m a b else J i j) J) J

/-- `constrain_element_vector` / the vector part of `constrain_element_matrix_and_vector`. -/
def conVec (C : Nat → Bool) (dof : Nat → Nat) (v : Nat → ℝ) : Nat → ℝ := fun a => if C (dof a) then 0 else v a

/-- `constrain_element_matrix` / matrix part of `constrain_element_matrix_and_vector`. -/
def conMat (C : Nat → Bool) (dof : Nat → Nat) (m : Nat → Nat → ℝ) : Nat → Nat → ℝ :=
  fun a b => if C (dof a) || C (dof b) then (if a = b then 1 else 0) else m a b

/-- Lines 145-146: element solution. -/
def Elem.sol (e : Elem) (X : Nat → ℝ) : Nat → ℝ := fun a => X (e.dof a)

/-- Body of the element loop, residual part (117-185). -/
def resElem (C : Nat → Bool) (X : Nat → ℝ) (R : Nat → ℝ) (e : Elem) : Nat → ℝ :=
  if e.diag then R else addVector e.n e.dof (conVec C e.dof (e.vec (e.sol X))) R

/-- Lines 219-245: one node of a point load on a process owning the dofs `[first, last)`. -/
def resLoad (C : Nat → Bool) (first last : Nat) (R : Nat → ℝ) (l : NodeLoad) : Nat → ℝ :=
  let vec := fun i => (-1 : ℝ) * l.load i
  let vec' := fun i => if l.dof i < first ∨ l.dof i ≥ last then 0 else vec i
  addVector l.n l.dof (conVec C l.dof vec') R

/-- One process: its active local elements and its dof range. -/
structure Proc where
  elems : List Elem
  first : Nat
  last : Nat

/-- Contribution of one process to the residual: zero (81), element loop (111-186), point loads (190-247). -/
def resProc (C : Nat → Bool) (X : Nat → ℝ) (loads : List NodeLoad) (p : Proc) : Nat → ℝ :=
  loads.foldl (resLoad C p.first p.last) (p.elems.foldl (resElem C X) (fun _ => 0))

/-- `R->close()` (260): off-process contributions are summed at their owner. -/
def residual (C : Nat → Bool) (X : Nat → ℝ) (loads : List NodeLoad) (ps : List Proc) : Nat → ℝ :=
  ps.foldl (fun R p => fun i => R i + resProc C X loads p i) (fun _ => 0)

/-- Body of the element loop, Jacobian part (117-185). -/
def jacElem (C : Nat → Bool) (X : Nat → ℝ) (J : Nat → Nat → ℝ) (e : Elem) : Nat → Nat → ℝ :=
  if e.diag then
    addMatrix e.n e.dof (conMat C e.dof (fun a b => if a = b then 1e-24 else 0)) J
  else addMatrix e.n e.dof (conMat C e.dof (e.mat (e.sol X))) J

/-- The assembled Jacobian (82, 111-186, 265). -/
def jacobian (C : Nat → Bool) (X : Nat → ℝ) (ps : List Proc) : Nat → Nat → ℝ :=
  ps.foldl (fun J p => fun i j => J i j + (p.elems.foldl (jacElem C X) (fun _ _ => 0)) i j) (fun _ _ => 0)

/-- `linearized_jacobian_solution_product` (271-383). -/
def jacProduct (C : Nat → Bool) (X dX : Nat → ℝ) (ps : List Proc) : Nat → ℝ :=
  ps.foldl (fun R p => fun i => R i +
    (p.elems.foldl (fun R e => if e.diag then R else
      addVector e.n e.dof (conVec C e.dof (e.prod (e.sol X) (e.sol dX))) R) (fun _ => 0)) i) (fun _ => 0)

end
end Verif.Asm
