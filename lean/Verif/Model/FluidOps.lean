import Verif.Model.Exec
import Verif.Model.FluidElem
/-
  Side loads and element operations of the transient flow analysis: src/fluid/conservative_fluid_element_base.cpp 445-765, conservative_fluid_transient_assembly.cpp.
-/
namespace Verif.FluidOps

open Verif.Fluid

/-- `(*bc_it)->type()`: the types that occur in the switches (conservative_fluid_element_base.cpp:507-545, 592-661, 696-733), and any other. -/
inductive Bc where
  | symmetry | slip | noslip | far | dirichlet | other
deriving DecidableEq

/-- One boundary condition of one side: the entries of `loads`, flattened over the sides (conservative_fluid_element_base.cpp:491-505).  `qs`: the quadrature points of the side with the steady and the perturbed
wall motion of the condition; `inf`: the free stream at a point. -/
structure Load where
  type : Bc
  qs : List LinWallQp
  inf : SideQp → Var → ℝ

/-- The points of a side without wall motion. -/
def Load.pts (L : Load) : List SideQp := L.qs.map (·.toSideQp)

/-- The points of a side with the steady wall motion. -/
def Load.wall (L : Load) : List WallQp := L.qs.map (·.toWallQp)

/-- Matrix of an element: two pairs of variable and node. -/
abbrev FMat := Var → Nat → Var → Nat → ℝ

/-- One pass through the switch of `side_external_residual` (conservative_fluid_element_base.cpp:507-545): residual. -/
noncomputable def loadRes (c : Ctx) (sol f : Field) (L : Load) : Exec Field :=
  match L.type with
  | .symmetry => .ok fun v a => f v a + symRes c L.pts sol v a
  | .slip => .ok fun v a => f v a + slipRes c L.wall sol v a
  | .noslip => .ok fun v a => f v a + noslipRes c L.pts sol v a
  | .far => .ok fun v a => f v a + farRes c L.pts L.inf sol v a
  | .dirichlet => .ok f
  | .other => .error .error

/-- The same for the Jacobian. -/
noncomputable def loadJac (c : Ctx) (sol : Field) (J : FMat) (L : Load) : Exec FMat :=
  match L.type with
  | .symmetry => .ok fun v a u b => J v a u b + symJac c L.pts sol v a u b
  | .slip => .ok fun v a u b => J v a u b + slipJac c L.wall sol v a u b
  | .noslip => .ok fun v a u b => J v a u b + noslipJac c L.pts sol v a u b
  | .far => .ok fun v a u b => J v a u b + farJac c L.pts sol v a u b
  | .dirichlet => .ok J
  | .other => .error .error

/-- `side_external_residual` (conservative_fluid_element_base.cpp:485-549): residual. -/
noncomputable def sideRes (c : Ctx) (loads : List Load) (sol f : Field) : Exec Field := loads.foldlM (m := Exec) (loadRes c sol) f

/-- `side_external_residual` (conservative_fluid_element_base.cpp:485-549): Jacobian. -/
noncomputable def sideJac (c : Ctx) (loads : List Load) (sol : Field) (J : FMat) : Exec FMat := loads.foldlM (m := Exec) (loadJac c sol) J

/-- One pass through the switch of `linearized_side_external_residual` (conservative_fluid_element_base.cpp:592-661); `f_jac_x` and `local_f` are zeroed before each use; there is no case for the no slip wall. -/
noncomputable def loadLin (c : Ctx) (sol D f : Field) (L : Load) : Exec Field :=
  match L.type with
  | .symmetry => .ok fun v a => f v a + jacMul c (symJac c L.pts sol v a) D
  | .slip => .ok fun v a => f v a + linSlipRes c L.qs sol D v a
  | .far => .ok fun v a => f v a + jacMul c (farJac c L.pts sol v a) D
  | .dirichlet => .ok f
  | .noslip => .error .error
  | .other => .error .error

/-- `linearized_side_external_residual` (conservative_fluid_element_base.cpp:555-666). -/
noncomputable def sideLin (c : Ctx) (loads : List Load) (sol D f : Field) : Exec Field := loads.foldlM (m := Exec) (loadLin c sol D) f

/-- The sensitivities of the symmetry, slip and no slip residuals are empty functions (conservative_fluid_element_base.cpp:1058-1068, 1409-1418, 1612-1622). -/
def wallSens (f : Field) : Field := f

/-- One pass through the switch of `side_external_residual_sensitivity` (conservative_fluid_element_base.cpp:696-733).  The case of the slip wall has no `break`: it goes on with the one of the no slip wall.  No case
looks at the parameter. -/
noncomputable def loadSens (c : Ctx) (fl : Flight) (sol f : Field) (L : Load) : Exec Field :=
  match L.type with
  | .symmetry => .ok (wallSens f)
  | .slip => .ok (wallSens (wallSens f))
  | .noslip => .ok (wallSens f)
  | .far => if farSensVec c.d fl = none then .error .ub else .ok fun v a => f v a + (farResSens c L.pts fl sol v a).getD 0
  | .dirichlet => .ok f
  | .other => .error .error

/-- `side_external_residual_sensitivity` (conservative_fluid_element_base.cpp:672-737). -/
noncomputable def sideSens (c : Ctx) (fl : Flight) (loads : List Load) (sol f : Field) : Exec Field := loads.foldlM (m := Exec) (loadSens c fl sol) f

/-- `f_m`, `f_x` of `elem_calculations` (conservative_fluid_transient_assembly.cpp:45-71). -/
noncomputable def elemCalc (c : Ctx) (T : Tau) (dc : Shock) (qs : List Qp) (loads : List Load) (sol vel : Field) : Exec (Field × Field) := do
  let fx ← sideRes c loads sol fun v a => 0 + internalRes c T dc qs sol v a
  .ok (fun v a => 0 + velocityRes c T qs sol vel v a, fx)

/-- `f_m_jac_xdot`, `f_m_jac`, `f_x_jac` of `elem_calculations` with `if_jac` (conservative_fluid_transient_assembly.cpp:45-71); `velocity_residual` leaves `jac` as it is (conservative_fluid_element_base.cpp:425-436). -/
noncomputable def elemJac (c : Ctx) (T : Tau) (dc : Shock) (qs : List Qp) (loads : List Load) (sol : Field) : Exec (FMat × FMat × FMat) := do
  let fx ← sideJac c loads sol fun v a u b => 0 + internalJac c T dc qs sol v a u b
  .ok (fun v a u b => 0 + velocityJacXdot c T qs sol v a u b, fun _ _ _ _ => 0, fx)

/-- `linearized_jacobian_solution_product` (conservative_fluid_transient_assembly.cpp:75-98) with `linearized_velocity_residual` (conservative_fluid_element_base.cpp:446-480); `D`, `Dv`: `_delta_sol`, `_delta_vel`. -/
noncomputable def elemProduct (c : Ctx) (T : Tau) (dc : Shock) (qs : List Qp) (loads : List Load) (sol D Dv : Field) : Exec Field := do
  let f ← sideLin c loads sol D fun v a => 0 + linInternalRes c T dc qs sol D v a
  .ok fun v a => f v a + (jacMul c (fun _ _ => 0) D + jacMul c (velocityJacXdot c T qs sol v a) Dv)

/-- `f_m`, `f_x` of `elem_sensitivity_calculations` (conservative_fluid_transient_assembly.cpp:104-130): `internal_residual_sensitivity` and `velocity_residual_sensitivity` are empty (conservative_fluid_element_base.cpp:745-765). -/
noncomputable def elemSens (c : Ctx) (fl : Flight) (loads : List Load) (sol : Field) : Exec (Field × Field) := do
  let fx ← sideSens c fl loads sol fun _ _ => 0
  .ok (fun _ _ => 0, fx)

end Verif.FluidOps
