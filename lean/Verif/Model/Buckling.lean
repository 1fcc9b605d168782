import Verif.Model.Assembly
import Verif.Model.Exec
/-
  Buckling eigenproblem: src/elasticity/structural_buckling_eigenproblem_assembly.cpp and structural_buckling_eigenproblem_elem_operations.cpp, with the sensitivity loop of
  src/base/eigenproblem_assembly.cpp:184-295.  Reals stand for double.  The four Jacobians of an element are parameters (subject of C111, C114, C116-C121).
-/
namespace Verif.Buckling
open Verif
open Verif.Asm (addMatrix conMat)

noncomputable section

/-- One active element: local to global dofs and the Jacobians added by `internal_residual`, `prestress_residual`, `side_external_residual` and `volume_external_residual` for a value of the load parameter and
an element solution; `sens` is the sum added by the four sensitivity routines. -/
structure Elem where
  n : Nat
  dof : Nat → Nat
  internal : ℝ → (Nat → ℝ) → Nat → Nat → ℝ
  prestress : ℝ → (Nat → ℝ) → Nat → Nat → ℝ
  side : ℝ → (Nat → ℝ) → Nat → Nat → ℝ
  vol : ℝ → (Nat → ℝ) → Nat → Nat → ℝ
  sens : ℝ → (Nat → ℝ) → (Nat → ℝ) → Nat → Nat → ℝ

/-- `set_buckling_data` (structural_buckling_eigenproblem_assembly.cpp:61-75). -/
structure Data where
  linearized : Bool
  lambda1 : ℝ
  lambda2 : ℝ
  sol1 : Nat → ℝ
  sol2 : Nat → ℝ

/-- What one process holds: the load parameter, `_physics_elem` of the element operations, the number of element objects that nobody can delete any more, and the contributions to the two matrices. -/
structure St where
  param : ℝ
  busy : Bool
  leaked : Nat
  A : Nat → Nat → ℝ
  B : Nat → Nat → ℝ

/-- `elem_calculations` (structural_buckling_eigenproblem_elem_operations.cpp:80-107). -/
def elemCalc (e : Elem) (lam : ℝ) (u : Nat → ℝ) (a b : Nat) : ℝ := 0 + e.internal lam u a b + e.prestress lam u a b + e.side lam u a b + e.vol lam u a b

/-- `init` of the element operations (structural_buckling_eigenproblem_elem_operations.cpp:63-75): the assertion exists in debug builds; the pointer is overwritten. -/
def initElem (dbg : Bool) (s : St) : Exec St :=
  if dbg && s.busy then .error .assertFail
  else .ok { s with busy := true, leaked := if s.busy then s.leaked + 1 else s.leaked }

/-- Body of the element loop (structural_buckling_eigenproblem_assembly.cpp:138-190). There is no `clear_elem`. -/
def assembleElem (dbg : Bool) (C : Nat → Bool) (d : Data) (s : St) (e : Elem) : Exec St := do
  let s := { s with param := d.lambda1 }
  let s ← initElem dbg s
  let matA := elemCalc e s.param (fun a => d.sol1 (e.dof a))
  let s := { s with A := addMatrix e.n e.dof (conMat C e.dof matA) s.A }
  let s := { s with param := d.lambda2 }
  let matB := fun a b => elemCalc e s.param (fun a => d.sol2 (e.dof a)) a b * (-1)
  let matB := if d.linearized then fun a b => matB a b + matA a b else matB
  .ok { s with B := addMatrix e.n e.dof (conMat C e.dof matB) s.B }

/-- `eigenproblem_assemble` (structural_buckling_eigenproblem_assembly.cpp:94-195) on one process. -/
def assemble (dbg : Bool) (C : Nat → Bool) (d : Data) (es : List Elem) (s : St) : Exec St :=
  es.foldlM (assembleElem dbg C d) { s with A := fun _ _ => 0, B := fun _ _ => 0 }

/-- `A->close(); B->close()` (structural_buckling_eigenproblem_assembly.cpp:193-194): contributions of all processes are added. -/
def globalA (ss : List St) (i j : Nat) : ℝ := (ss.map fun s => s.A i j).sum

/-- See `globalA`. -/
def globalB (ss : List St) (i j : Nat) : ℝ := (ss.map fun s => s.B i j).sum

/-- `critical_point_estimate_from_eigenproblem` (structural_buckling_eigenproblem_assembly.cpp:204-216). -/
def criticalPoint (d : Data) (v : ℝ) : ℝ :=
  if d.linearized then d.lambda1 + v * (d.lambda2 - d.lambda1) else d.lambda1 + v / (1 + v) * (d.lambda2 - d.lambda1)

/-- `eigenproblem_sensitivity_assemble` (eigenproblem_assembly.cpp:184-295) with `elem_sensitivity_calculations` (structural_buckling_eigenproblem_elem_operations.cpp:113-142): the element matrix `mat_B`
stays zero.  `base`: the base solution and its sensitivity, if set.  The load parameter keeps whatever value it has. -/
def sensAssemble (C : Nat → Bool) (base : Option ((Nat → ℝ) × (Nat → ℝ))) (param : ℝ) (es : List Elem) : (Nat → Nat → ℝ) × (Nat → Nat → ℝ) :=
  es.foldl (fun M e =>
    let u := fun a => match base with | some s => s.1 (e.dof a) | none => 0
    let du := fun a => match base with | some s => s.2 (e.dof a) | none => 0
    (addMatrix e.n e.dof (conMat C e.dof (e.sens param u du)) M.1, addMatrix e.n e.dof (conMat C e.dof (fun _ _ => 0)) M.2)) (fun _ _ => 0, fun _ _ => 0)

end
end Verif.Buckling
