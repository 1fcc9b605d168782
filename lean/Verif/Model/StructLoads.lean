import Verif.Model.GeomElem
import Mathlib.Algebra.BigOperators.Fin
/-
  Loads and inertia of the structural elements: src/elasticity/structural_element_base.cpp, and the side loads of structural_element_1d.cpp, structural_element_2d.cpp, solid_element_3d.cpp.
  Reals stand for double; an element is given by its quadrature data (`FEBase`), values of field functions are parameters.  Element vectors are indexed by `GeomElem.Dof` (variable, node), the flat
  numbering is C111_rows.  Systems have the six variables of `StructuralSystemInitialization`.
-/
namespace Verif.StructLoads
open Verif.GeomElem

/-- One of the six variables: (false, k) is the translation `k`, (true, k) the rotation `k`. -/
abbrev Var6 := Bool × Fin 3

/-- One quadrature point of an element or of a side (`get_xyz`, `get_JxW`, `get_phi`, `get_normals_for_local_coordinate`). -/
structure Qp (n : Nat) (X : Type) where
  x : X
  JxW : ℝ
  phi : Fin n → ℝ
  normal : Fin 3 → ℝ

/-- A field function with its `derivative` for the parameter. -/
structure Field (X V : Type) where
  val : X → V
  der : X → V

variable {n : Nat} {X : Type}

/-- `Bmat.reinit(6, phi_vec)` times an element vector: the interpolated variable (structural_element_base.cpp:317-321). -/
def interp (q : Qp n X) (u : Dof n → ℝ) (v : Var6) : ℝ := ∑ i, q.phi i * u (v.1, v.2, i)

/-- `local_f += JxW[qp] * vec_n2` with `Bmat.vector_mult_transpose(vec_n2, force)` over all points (structural_element_base.cpp:1209-1227). -/
def nodalForce (pts : List (Qp n X)) (force : Qp n X → Var6 → ℝ) (a : Dof n) : ℝ :=
  (pts.map fun q => q.JxW * (q.phi a.2.2 * force q (a.1, a.2.1))).sum

/-- `f -= vec_n2` after the transformation to the global frame (structural_element_base.cpp:1230-1231). -/
def external (T : Option (Fin 3 → Fin 3 → ℝ)) (pts : List (Qp n X)) (force : Qp n X → Var6 → ℝ) (a : Dof n) : ℝ := -vecToGlobal T (nodalForce pts force) a

/-- `force(i_dim) = s * normal(i_dim)`; the rotational rows stay zero (structural_element_base.cpp:1204, 1221-1222). -/
def along (s : ℝ) (m : Fin 3 → ℝ) (v : Var6) : ℝ := if v.1 then 0 else s * m v.2

/-- `normal(_elem.dim()) = -1.` (structural_element_base.cpp:1189-1192). -/
def elemNormal (dim : Nat) (k : Fin 3) : ℝ := if k.val = dim then -1 else 0

/-- `surface_pressure_residual` on the element (structural_element_base.cpp:1169-1235). -/
def pressureVol (T : Option (Fin 3 → Fin 3 → ℝ)) (dim : Nat) (p : X → ℝ) (pts : List (Qp n X)) : Dof n → ℝ :=
  external T pts fun q => along (p q.x) (elemNormal dim)

/-- `surface_pressure_residual_sensitivity` on the element (structural_element_base.cpp:1244-1311). -/
def pressureVolSens (T : Option (Fin 3 → Fin 3 → ℝ)) (dim : Nat) (p : Field X ℝ) (pts : List (Qp n X)) : Dof n → ℝ :=
  external T pts fun q => along (p.der q.x) (elemNormal dim)

/-- `JxW_Vn` (structural_element_base.cpp:548-555, 1370-1377): `vel` is `vel_f.derivative(p, ...)`, `dim` components. -/
def jxwVn (dim : Nat) (vel : X → Fin 3 → ℝ) (q : Qp n X) : ℝ := q.JxW * ∑ k : Fin 3, if k.val < dim then vel q.x k * q.normal k else 0

/-- The points of a side with `JxW_Vn` in place of `JxW`. -/
def moving (dim : Nat) (vel : X → Fin 3 → ℝ) (pts : List (Qp n X)) : List (Qp n X) := pts.map fun q => { q with JxW := jxwVn dim vel q }

/-- `surface_pressure_boundary_velocity` (structural_element_base.cpp:1318-1403). -/
def pressureBndVel (T : Option (Fin 3 → Fin 3 → ℝ)) (dim : Nat) (p : X → ℝ) (vel : X → Fin 3 → ℝ) (pts : List (Qp n X)) : Dof n → ℝ :=
  external T (moving dim vel pts) fun q => along (p q.x) (elemNormal dim)

/-- `linearized_surface_pressure_residual` (structural_element_base.cpp:1411-1481): `dn_rot` stays zero. -/
def pressureLin (T : Option (Fin 3 → Fin 3 → ℝ)) (dim : Nat) (p dp : X → ℝ) (pts : List (Qp n X)) : Dof n → ℝ :=
  external T pts fun q v => if v.1 then 0 else p q.x * 0 + dp q.x * elemNormal dim v.2

/-- `surface_pressure_residual` on a side: `sec` is the thickness (structural_element_2d.cpp:2857-2924), the area (structural_element_1d.cpp:1620-1690) or absent (solid_element_3d.cpp:817-876; no
local frame, `T = none`). -/
def pressureSide (T : Option (Fin 3 → Fin 3 → ℝ)) (sec : Option (Field X ℝ)) (p : Field X ℝ) (pts : List (Qp n X)) : Dof n → ℝ :=
  external T pts fun q => along (match sec with | some h => p.val q.x * h.val q.x | none => p.val q.x) q.normal

/-- `surface_pressure_residual_sensitivity` on a side (structural_element_2d.cpp:2932-3005, structural_element_1d.cpp:1698-1773, solid_element_3d.cpp:884-944). -/
def pressureSideSens (T : Option (Fin 3 → Fin 3 → ℝ)) (sec : Option (Field X ℝ)) (p : Field X ℝ) (pts : List (Qp n X)) : Dof n → ℝ :=
  external T pts fun q => along (match sec with | some h => p.val q.x * h.der q.x + p.der q.x * h.val q.x | none => p.der q.x) q.normal

/-- `surface_traction_residual` of the shell element (structural_element_2d.cpp:2358-2420). -/
def traction (T : Option (Fin 3 → Fin 3 → ℝ)) (h : Field X ℝ) (t : Field X (Fin 3 → ℝ)) (pts : List (Qp n X)) : Dof n → ℝ :=
  external T pts fun q v => if v.1 then 0 else t.val q.x v.2 * h.val q.x

/-- `surface_traction_residual_sensitivity` of the shell element (structural_element_2d.cpp:2426-2500). -/
def tractionSens (T : Option (Fin 3 → Fin 3 → ℝ)) (h : Field X ℝ) (t : Field X (Fin 3 → ℝ)) (pts : List (Qp n X)) : Dof n → ℝ :=
  external T pts fun q v => if v.1 then 0 else t.val q.x v.2 * h.der q.x + t.der q.x v.2 * h.val q.x

/-! ### Inertia -/

/-- `local_jac` of the consistent inertia (structural_element_base.cpp:309-332): `JxW * B^T M B`, entry (a, b). -/
def consistent (M : Qp n X → Var6 → Var6 → ℝ) (pts : List (Qp n X)) (a b : Dof n) : ℝ :=
  (pts.map fun q => q.JxW * (q.phi a.2.2 * (M q (a.1, a.2.1) (b.1, b.2.1) * q.phi b.2.2))).sum

/-- `local_f` of the consistent inertia (structural_element_base.cpp:319-324): `JxW * B^T (M B accel)`. -/
def consistentRes (M : Qp n X → Var6 → Var6 → ℝ) (pts : List (Qp n X)) (acc : Dof n → ℝ) (a : Dof n) : ℝ :=
  (pts.map fun q => q.JxW * (q.phi a.2.2 * ∑ b : Dof n, M q (a.1, a.2.1) (b.1, b.2.1) * q.phi b.2.2 * acc b)).sum

/-- `local_jac` of the lumped inertia (structural_element_base.cpp:293-303): the matrix `M0` of the first quadrature point, volume shared by the shape functions. -/
noncomputable def lumped (M0 : Var6 → Var6 → ℝ) (pts : List (Qp n X)) (a b : Dof n) : ℝ :=
  if a = b then (pts.map fun q => q.JxW).sum / n * M0 (a.1, a.2.1) (a.1, a.2.1) else 0

/-- `inertial_residual` for line and surface elements: Jacobian in the local frame (structural_element_base.cpp:291-333).  `xyz[0]` without quadrature points is undefined behaviour: `none`. -/
noncomputable def inertiaJac (diag : Bool) (M : X → Var6 → Var6 → ℝ) (pts : List (Qp n X)) : Option (Dof n → Dof n → ℝ) :=
  if diag then (match pts with | [] => none | q0 :: _ => some (lumped (M q0.x) pts)) else some (consistent (fun q => M q.x) pts)

/-- `inertial_residual` for line and surface elements: vector in the local frame (structural_element_base.cpp:305, 319-324). -/
noncomputable def inertiaLocal (diag : Bool) (M : X → Var6 → Var6 → ℝ) (pts : List (Qp n X)) (acc : Dof n → ℝ) : Option (Dof n → ℝ) :=
  if diag then (match pts with | [] => none | q0 :: _ => some fun a => ∑ b, lumped (M q0.x) pts a b * acc b) else some (consistentRes (fun q => M q.x) pts acc)

/-- `inertial_residual` for line and surface elements (structural_element_base.cpp:257-353): acceleration taken to the local frame by `set_acceleration` (169-192), vector and matrix added to the arguments
in the global frame. -/
noncomputable def inertiaRes (T : Option (Fin 3 → Fin 3 → ℝ)) (diag : Bool) (M : X → Var6 → Var6 → ℝ) (pts : List (Qp n X)) (acc : Dof n → ℝ) : Option (Dof n → ℝ) :=
  (inertiaLocal diag M pts (vecToLocal T acc)).map (vecToGlobal T)

/-- `jac_xddot` (structural_element_base.cpp:340-343). -/
noncomputable def inertiaMass (T : Option (Fin 3 → Fin 3 → ℝ)) (diag : Bool) (M : X → Var6 → Var6 → ℝ) (pts : List (Qp n X)) : Option (Dof n → Dof n → ℝ) := (inertiaJac diag M pts).map (matToGlobal T)

/-- `inertial_residual_sensitivity` for line and surface elements (structural_element_base.cpp:403-501): the derivative of the inertia matrix in place of the matrix. -/
noncomputable def inertiaSens (T : Option (Fin 3 → Fin 3 → ℝ)) (diag : Bool) (M : Field X (Var6 → Var6 → ℝ)) (pts : List (Qp n X)) (acc : Dof n → ℝ) : Option (Dof n → ℝ) :=
  inertiaRes T diag M.der pts acc

/-- `inertial_residual_boundary_velocity` (structural_element_base.cpp:508-623). -/
noncomputable def inertiaBndVel (T : Option (Fin 3 → Fin 3 → ℝ)) (dim : Nat) (diag : Bool) (M : X → Var6 → Var6 → ℝ) (vel : X → Fin 3 → ℝ) (pts : List (Qp n X)) (acc : Dof n → ℝ) : Option (Dof n → ℝ) :=
  inertiaRes T diag M (moving dim vel pts) acc

/-- The 3 by 3 inertia matrix of a solid material acting on the translations only (`f.topRows(3*n_phi)`, solid_element_3d.cpp:63-65, 98, 118). -/
def solidMat (M : Fin 3 → Fin 3 → ℝ) (v w : Var6) : ℝ := if v.1 ∨ w.1 then 0 else M v.2 w.2

/-- `StructuralElement3D::inertial_residual` (solid_element_3d.cpp:49-130) with the vector `f` found on entry: the inertia matrix of the FIRST quadrature point is used at every point (105); the lumped
branch assigns the first `3 n` rows (98), the consistent branch adds to them. -/
noncomputable def inertia3 (diag : Bool) (M : X → Fin 3 → Fin 3 → ℝ) (pts : List (Qp n X)) (acc f : Dof n → ℝ) : Option (Dof n → ℝ) :=
  match pts with
  | [] => if diag then none else some f
  | q0 :: _ => some fun a =>
      if diag then (if a.1 then f a else ∑ b, lumped (solidMat (M q0.x)) pts a b * acc b)
      else f a + consistentRes (fun _ => solidMat (M q0.x)) pts acc a

/-- Outcome of a routine that may read outside a matrix. -/
inductive Out (α : Type)
  | ok (v : α)
  | ub

/-- `inertial_residual_sensitivity` of a solid element: inherited from the base (structural_element_base.cpp:403-501; solid_element_3d.h does not override it), which reads entries (0..5, 0..5) of the matrix
delivered by the card; `msize` is its size, 3 for the cards of solid sections (isotropic_element_property_card_3D.cpp:249-255, isotropic_material_property_card.cpp). -/
noncomputable def inertiaSens3 (diag : Bool) (msize : Nat) (dM : X → Var6 → Var6 → ℝ) (pts : List (Qp n X)) (acc : Dof n → ℝ) : Out (Dof n → ℝ) :=
  if msize < 6 ∧ pts ≠ [] then .ub else match inertiaRes none diag dM pts acc with | some f => .ok f | none => .ub

/-! ### Dispatch of the loads -/

/-- `BoundaryConditionType` (base/boundary_condition_base.h:29-51). -/
inductive Kind
  | surfacePressure | surfaceTraction | surfaceTractionShifted | pointLoad | pointMoment | pistonTheory | dirichlet | temperature | heatFlux | convection | radiation | heatSource
  | noSlipWall | symmetryWall | slipWall | farField | exhaust | isothermal | adiabatic | boundaryVelocity
  deriving DecidableEq, Repr

/-- What a dispatch loop does with a kind of load: add the contribution of a routine, skip, or `libmesh_error`. -/
inductive Act
  | add | skip | error
  deriving DecidableEq, Repr

/-- `side_external_residual` (structural_element_base.cpp:652-697). -/
def sideAct : Kind → Act
  | .surfacePressure => .add | .surfaceTraction => .add | .surfaceTractionShifted => .add | .pistonTheory => .add
  | .boundaryVelocity => .skip | .dirichlet => .skip
  | _ => .error

/-- `side_external_residual_sensitivity` (structural_element_base.cpp:995-1044). -/
def sideSensAct : Kind → Act
  | .surfacePressure => .add | .surfaceTraction => .add | .surfaceTractionShifted => .add | .pistonTheory => .add
  | .boundaryVelocity => .skip | .dirichlet => .skip
  | _ => .error

/-- `volume_external_residual` (structural_element_base.cpp:824-851). -/
def volAct : Kind → Act
  | .surfacePressure => .add | .pistonTheory => .add | .temperature => .add
  | _ => .error

/-- `volume_external_residual_sensitivity` (structural_element_base.cpp:1074-1103). -/
def volSensAct : Kind → Act
  | .surfacePressure => .add | .pistonTheory => .add | .temperature => .add
  | _ => .error

/-- `volume_external_residual_boundary_velocity` (structural_element_base.cpp:1134-1161). -/
def volVelAct : Kind → Act
  | .surfacePressure => .add | .temperature => .add
  | _ => .error

/-- `linearized_side_external_residual` (structural_element_base.cpp:728-741). -/
def sideLinAct : Kind → Act
  | .boundaryVelocity => .skip | .dirichlet => .skip
  | _ => .error

/-- `linearized_frequency_domain_side_external_residual` (structural_element_base.cpp:773-794). -/
def sideFreqAct : Kind → Act
  | .surfacePressure => .add | .boundaryVelocity => .skip | .dirichlet => .skip
  | _ => .error

/-- `linearized_volume_external_residual` (structural_element_base.cpp:881-911). -/
def volLinAct : Kind → Act
  | .surfacePressure => .add | .temperature => .add
  | _ => .error

/-- `linearized_frequency_domain_volume_external_residual` (structural_element_base.cpp:941-958). -/
def volFreqAct : Kind → Act
  | .surfacePressure => .add
  | _ => .error

variable {L V : Type}

/-- The body of a dispatch loop: `none` once `libmesh_error` is reached. -/
def step [Add V] (act : Kind → Act) (kind : L → Kind) (routine : L → V) (f : Option V) (l : L) : Option V :=
  match f with
  | none => none
  | some f => match act (kind l) with | .add => some (f + routine l) | .skip => some f | .error => none

/-- The loop over `loads` (structural_element_base.cpp:636-700): sides in increasing order, loads of a side in the order of `external_side_loads_for_quadrature_elem`. -/
def sideLoop [Add V] (act : Kind → Act) (kind : L → Kind) (routine : Nat → L → V) (nSides : Nat) (ids : Nat → List Nat) (bc : List (Nat × L)) (f : V) : Option V :=
  (sideLoads nSides ids bc).foldl (fun f e => e.2.foldl (step act kind (routine e.1)) f) (some f)

/-- The loop over the loads of the subdomain (structural_element_base.cpp:818-852). -/
def volLoop [Add V] (act : Kind → Act) (kind : L → Kind) (routine : L → V) (sid : Nat) (bc : List (Nat × L)) (f : V) : Option V :=
  ((bc.filter fun e => e.1 == sid).map fun e => e.2).foldl (step act kind routine) (some f)

end Verif.StructLoads
