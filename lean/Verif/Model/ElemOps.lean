import Verif.Model.GeomElem
/-
  What the assemblies ask of an element: structural_nonlinear_assembly.cpp, structural_transient_assembly.cpp, structural_modal_eigenproblem_assembly.cpp (src/elasticity),
  heat_conduction_nonlinear_assembly.cpp, heat_conduction_transient_assembly.cpp (src/heat_conduction), get_elem_boundary_velocity_data (src/base/assembly_elem_operation.cpp),
  check_element_numerical_jacobian (src/base/nonlinear_implicit_assembly_elem_operations.cpp).  The element functions add to their arguments, which are zero on entry; they appear here as the terms they add.
-/
namespace Verif.ElemOps

variable {D : Type}

abbrev Vec (D : Type) := D → ℝ
abbrev Mat (D : Type) := D → D → ℝ

/-- Terms one structural element adds, for displacement `u`, velocity `v`, acceleration `a` (structural_element_base.h:140-260): `internal_residual`, `side_external_residual`, `volume_external_residual`,
`inertial_residual`, `prestress_residual`; `X`, `Xdot`, `Xddot` are the Jacobians.  `damping_residual` does nothing (structural_element_base.h:164-171). -/
structure Terms (D : Type) where
  internal : Vec D → Vec D
  internalX : Vec D → Mat D
  side : Vec D → Vec D → Vec D
  sideXdot : Vec D → Vec D → Mat D
  sideX : Vec D → Vec D → Mat D
  vol : Vec D → Vec D → Vec D
  volXdot : Vec D → Vec D → Mat D
  volX : Vec D → Vec D → Mat D
  inertial : Vec D → Vec D → Vec D → Vec D
  inertialXddot : Vec D → Vec D → Vec D → Mat D
  inertialXdot : Vec D → Vec D → Vec D → Mat D
  inertialX : Vec D → Vec D → Vec D → Mat D
  prestress : Vec D → Vec D

/-- `StructuralNonlinearAssemblyElemOperations::elem_calculations` after `set_elem_solution`, which sets velocity and acceleration to zero (structural_nonlinear_assembly.cpp:47-57, 114-139). -/
def staticVec (e : Terms D) (u : Vec D) : Vec D := fun i => e.internal u i + e.side u (fun _ => 0) i + e.vol u (fun _ => 0) i
def staticMat (e : Terms D) (u : Vec D) : Mat D := fun i j => e.internalX u i j + e.sideX u (fun _ => 0) i j + e.volX u (fun _ => 0) i j

/-- `StructuralModalEigenproblemAssemblyElemOperations::elem_calculations` (structural_modal_eigenproblem_assembly.cpp:50-60, 96-116): the load velocity Jacobians and the inertial velocity Jacobian go to a
scratch matrix. -/
def modalA (e : Terms D) (u : Vec D) : Mat D := fun i j =>
  e.internalX u i j + e.sideX u (fun _ => 0) i j + e.volX u (fun _ => 0) i j + e.inertialX u (fun _ => 0) (fun _ => 0) i j
def modalB (e : Terms D) (u : Vec D) : Mat D := e.inertialXddot u (fun _ => 0) (fun _ => 0)

/-- `elem_calculations` for second order systems (structural_transient_assembly.cpp:88-126): the velocity Jacobians of the loads, whose forces are in `f_x`, are added to `f_m_jac_xdot`. -/
structure Second (D : Type) where
  fm : Vec D
  fx : Vec D
  fmXddot : Mat D
  fmXdot : Mat D
  fmX : Mat D
  fxXdot : Mat D
  fxX : Mat D

def second (e : Terms D) (u v a : Vec D) : Second D where
  fm := e.inertial u v a
  fx := fun i => e.internal u i + e.side u v i + e.vol u v i
  fmXddot := e.inertialXddot u v a
  fmXdot := fun i j => e.sideXdot u v i j + e.volXdot u v i j + e.inertialXdot u v a i j
  fmX := e.inertialX u v a
  fxXdot := fun _ _ => 0
  fxX := fun i j => e.internalX u i j + e.sideX u v i j + e.volX u v i j

/-- `elem_calculations` for first order systems (structural_transient_assembly.cpp:48-81): only the damping, which is nothing, adds to `f_m`. -/
structure First (D : Type) where
  fm : Vec D
  fx : Vec D
  fmXdot : Mat D
  fmX : Mat D
  fxX : Mat D

def first (e : Terms D) (u v : Vec D) : First D where
  fm := fun _ => 0
  fx := fun i => e.internal u i + e.side u v i + e.vol u v i
  fmXdot := fun i j => e.sideXdot u v i j + e.volXdot u v i j
  fmX := fun _ _ => 0
  fxX := fun i j => e.internalX u i j + e.sideX u v i j + e.volX u v i j

/-- `elem_calculations` of the second order Newmark solver (second_order_newmark_transient_solver.cpp:319-323, 367-373); `k` and `c` are `1/beta/dt/dt` and `gamma/beta/dt`. -/
def newmarkVec (o : Second D) : Vec D := fun i => o.fm i + o.fx i
def newmarkMat (k c : ℝ) (o : Second D) : Mat D := fun i j => k * o.fmXddot i j + c * (o.fmXdot i j + o.fxXdot i j) + (o.fmX i j + o.fxX i j)

/-- Terms of the sensitivity for a parameter (structural_element_base.h:296-400): the derivatives of vectors and displacement Jacobians at fixed solution, and `internal_residual_jac_dot_state_sensitivity`. -/
structure Sens (D : Type) where
  internal : Vec D
  side : Vec D
  vol : Vec D
  inertial : Vec D
  internalX : Mat D
  sideX : Mat D
  volX : Mat D
  inertialXddot : Mat D
  inertialX : Mat D
  internalDot : Mat D

/-- `elem_sensitivity_calculations` of the static and of the transient problem (structural_nonlinear_assembly.cpp:174-197; structural_transient_assembly.cpp:170-204). -/
def staticSens (s : Sens D) : Vec D := fun i => s.internal i + s.side i + s.vol i
def transientSens (s : Sens D) : Vec D × Vec D := (s.inertial, fun i => s.internal i + s.side i + s.vol i)

/-- `elem_sensitivity_calculations` of the modal problem (structural_modal_eigenproblem_assembly.cpp:123-150); `base` tells that the base solution depends on the parameter. -/
def modalSensA (s : Sens D) (base : Bool) : Mat D := fun i j => s.internalX i j + s.sideX i j + s.volX i j + s.inertialX i j + if base then s.internalDot i j else 0
def modalSensB (s : Sens D) : Mat D := s.inertialXddot

/-! ### Heat conduction -/

/-- Terms of a heat conduction element: `internal_residual`, `side_external_residual`, `volume_external_residual`, `velocity_residual` for temperature `u` and rate `v`. -/
structure HeatTerms (D : Type) where
  internal : Vec D → Vec D
  side : Vec D → Vec D
  vol : Vec D → Vec D
  velocity : Vec D → Vec D → Vec D

/-- heat_conduction_nonlinear_assembly.cpp:83-98; heat_conduction_transient_assembly.cpp:47-72. -/
def heatStatic (e : HeatTerms D) (u : Vec D) : Vec D := fun i => e.internal u i + e.side u i + e.vol u i
def heatTransient (e : HeatTerms D) (u v : Vec D) : Vec D × Vec D := (e.velocity u v, fun i => e.internal u i + e.side u i + e.vol u i)

/-! ### Boundary velocity -/

/-- Body of the loop over the conditions of side `s` (assembly_elem_operation.cpp:228-245): a condition is its velocity when it is a `BOUNDARY_VELOCITY`. -/
def velocityStep {F : Type} (s : Nat) (acc : Option (F × Nat)) (b : Option F) : Option (F × Nat) := match b with | some f => some (f, s) | none => acc

/-- `get_elem_boundary_velocity_data` (assembly_elem_operation.cpp:207-249): `loads` are the boundary conditions of each side in the order of the map; the last velocity is returned with its side. -/
def velocityData {F : Type} (loads : List (Nat × List (Option F))) : Option (F × Nat) := loads.foldl (fun acc s => s.2.foldl (velocityStep s.1) acc) none

/-- `elem_topology_sensitivity_calculations(f, vec)` (structural_nonlinear_assembly.cpp:203-240; heat_conduction_nonlinear_assembly.cpp:123-154): `term f s` is what the element adds for velocity `f` on
side `s`; `vec` keeps its value when there is no velocity. -/
def boundaryTerm {F : Type} (term : F → Nat → Vec D) (loads : List (Nat × List (Option F))) (vec : Vec D) : Vec D :=
  match velocityData loads with
  | some (f, s) => term f s
  | none => vec

/-! ### Comparison of Jacobians -/

/-- `is_numerical_zero`, `compare` (nonlinear_implicit_assembly_elem_operations.cpp:42-69). -/
noncomputable def isZero (v eps : ℝ) : Bool := decide (|v| ≤ eps)
noncomputable def compare (v1 v2 tol : ℝ) : Bool :=
  if isZero v1 (1 / 10 ^ 7) && isZero v2 (1 / 10 ^ 7) then true
  else if isZero (v1 - v2) (1 / 10 ^ 7) then true
  else if |v1| > 0 then decide (|(v1 - v2) / v1| ≤ tol)
  else false

/-- `compare_matrix` (nonlinear_implicit_assembly_elem_operations.cpp:72-96) for `n` by `n` matrices: the entries reported, and the result. -/
noncomputable def compareMatrix (n : Nat) (m0 m : Nat → Nat → ℝ) (tol : ℝ) : List (Nat × Nat) × Bool :=
  (List.range n).foldl (fun s i => (List.range n).foldl (fun s j => if compare (m0 i j) (m i j) tol then s else (s.1 ++ [(i, j)], false)) s) ([], true)

/-- The element behind the operations: its solution and what `elem_calculations` returns. -/
structure ElemState where
  sol : Nat → ℝ

/-- The loop of `check_element_numerical_jacobian` (nonlinear_implicit_assembly_elem_operations.cpp:103-145): finite difference Jacobian, reported entries, element afterwards. -/
noncomputable def checkJacobian (n : Nat) (res : (Nat → ℝ) → Nat → ℝ) (jac : (Nat → ℝ) → Nat → Nat → ℝ) (delta : ℝ) (sol : Nat → ℝ) : (Nat → Nat → ℝ) × List (Nat × Nat) × ElemState :=
  let e0 : ElemState := ⟨sol⟩
  let run := (List.range n).foldl (fun (s : ElemState × (Nat → Nat → ℝ)) i =>
    let dsol : Nat → ℝ := fun k => if k = i then sol k + delta else sol k
    (⟨dsol⟩, fun r c => if c = i then (res dsol r - res e0.sol r) / delta else s.2 r c)) (e0, fun _ _ => 0)
  (run.2, (compareMatrix n run.2 (jac e0.sol) (1 / 10 ^ 5)).1, ⟨sol⟩)

end Verif.ElemOps
