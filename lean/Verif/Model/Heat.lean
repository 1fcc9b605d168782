import Mathlib.Data.Real.Basic
import Mathlib.Data.Matrix.Mul
import Mathlib.Algebra.BigOperators.Fin
/-
  Heat conduction element: src/heat_conduction/heat_conduction_elem_base.cpp, heat_conduction_nonlinear_assembly.cpp, heat_conduction_transient_assembly.cpp.
  Reals stand for double.  A finite element is given by its quadrature data; the values of material, section and load functions and their derivative functions are parameters (they are
  the `operator()` and `derivative` of the field functions).  Accumulation `f += ...` over quadrature points is written as a sum over the list of points.
-/
namespace Verif.Heat

/-- One quadrature point of an `n` node element in `d` dimensions (`FEBase::get_JxW`, `get_xyz`, `get_phi`, `get_dphi`, `get_normals_for_local_coordinate`): the normal is used for sides only. -/
structure Qp (n d : Nat) (X : Type) where
  x : X
  JxW : ℝ
  phi : Fin n → ℝ
  dphi : Fin n → Fin d → ℝ
  normal : Fin d → ℝ

/-- Material data: `thermal_conductance_matrix`, entry (0,0) of `thermal_capacitance_matrix`, and their derivatives with respect to the active solution and the parameter
(heat_conduction_elem_base.cpp:75-76, 127-129, 179-180, 206-208, 591, 745).  The optional temperature is the value set in the active solution function. -/
structure Mat (d : Nat) (X : Type) where
  active : Bool
  diag : Bool
  k : X → Option ℝ → Fin d → Fin d → ℝ
  dkT : X → Option ℝ → Fin d → Fin d → ℝ
  dkP : X → Option ℝ → Fin d → Fin d → ℝ
  c : X → Option ℝ → ℝ
  dcT : X → Option ℝ → ℝ
  dcP : X → Option ℝ → ℝ

variable {n d : Nat} {X : Type}

/-- `Bmat.right_multiply(vec1, _sol)` for one variable (heat_conduction_elem_base.cpp:86, 1857-1873). -/
def interp (q : Qp n d X) (u : Fin n → ℝ) : ℝ := ∑ a, q.phi a * u a

/-- `dBmat[j].right_multiply(vec1, _sol)` (heat_conduction_elem_base.cpp:100, 1880-1898). -/
def grad (q : Qp n d X) (u : Fin n → ℝ) (j : Fin d) : ℝ := ∑ a, q.dphi a j * u a

/-- Value visible to the material through `_active_sol_function` (heat_conduction_elem_base.cpp:88-90). -/
def temp (m : Mat d X) (q : Qp n d X) (u : Fin n → ℝ) : Option ℝ := if m.active then some (interp q u) else none

/-- `flux` (heat_conduction_elem_base.cpp:98-104). -/
def heatFlux (k : Fin d → Fin d → ℝ) (g : Fin d → ℝ) (i : Fin d) : ℝ := ∑ j, g j * k i j

/-- `internal_residual`, vector part (heat_conduction_elem_base.cpp:82-111). -/
def internalRes (m : Mat d X) (pts : List (Qp n d X)) (u : Fin n → ℝ) (a : Fin n) : ℝ :=
  (pts.map fun q => ∑ i, q.JxW * (q.dphi a i * heatFlux (m.k q.x (temp m q u)) (grad q u) i)).sum

/-- `internal_residual`, Jacobian (heat_conduction_elem_base.cpp:114-143). -/
noncomputable def internalJac (m : Mat d X) (pts : List (Qp n d X)) (u : Fin n → ℝ) (a b : Fin n) : ℝ :=
  (pts.map fun q => (∑ i, ∑ j, q.JxW * m.k q.x (temp m q u) i j * (q.dphi a i * q.dphi b j)) +
    if m.active then ∑ j, ∑ i, if m.dkT q.x (temp m q u) i j ≠ 0 then q.JxW * grad q u j * m.dkT q.x (temp m q u) i j * (q.dphi a i * q.phi b) else 0 else 0).sum

/-- `internal_residual_sensitivity` (heat_conduction_elem_base.cpp:581-611). -/
def internalSens (m : Mat d X) (pts : List (Qp n d X)) (u : Fin n → ℝ) (a : Fin n) : ℝ :=
  (pts.map fun q => ∑ i, q.JxW * (q.dphi a i * heatFlux (m.dkP q.x (temp m q u)) (grad q u) i)).sum

/-- `JxW_Vn` (heat_conduction_elem_base.cpp:658-665): `vel` is `vel_f.derivative(p, ...)`. -/
def jxwVn (vel : X → Fin d → ℝ) (q : Qp n d X) : ℝ := q.JxW * ∑ i, vel q.x i * q.normal i

/-- `internal_residual_boundary_velocity` (heat_conduction_elem_base.cpp:668-698); `pts` are the quadrature points of the side. -/
def internalBndVel (m : Mat d X) (vel : X → Fin d → ℝ) (pts : List (Qp n d X)) (u : Fin n → ℝ) (a : Fin n) : ℝ :=
  (pts.map fun q => ∑ i, jxwVn vel q * (q.dphi a i * heatFlux (m.k q.x (temp m q u)) (grad q u) i)).sum

/-- `local_f` of `velocity_residual` (heat_conduction_elem_base.cpp:182-196). -/
def velLocal (m : Mat d X) (pts : List (Qp n d X)) (u v : Fin n → ℝ) (a : Fin n) : ℝ :=
  (pts.map fun q => q.JxW * m.c q.x (temp m q u) * (q.phi a * interp q v)).sum

/-- `jac_xdot` before lumping (heat_conduction_elem_base.cpp:198-201). -/
def massMat (m : Mat d X) (pts : List (Qp n d X)) (u : Fin n → ℝ) (a b : Fin n) : ℝ :=
  (pts.map fun q => q.JxW * m.c q.x (temp m q u) * (q.phi a * q.phi b)).sum

/-- Row sums on the diagonal (heat_conduction_elem_base.cpp:222-227). -/
def lump (M : Fin n → Fin n → ℝ) (a b : Fin n) : ℝ := if a = b then ∑ j, M a j else 0

/-- `velocity_residual`, vector part, `jac_xdot` being zero on entry as in `elem_calculations` (heat_conduction_elem_base.cpp:155-243; heat_conduction_transient_assembly.cpp:59-71). -/
def velRes (m : Mat d X) (pts : List (Qp n d X)) (u v : Fin n → ℝ) (a : Fin n) : ℝ :=
  if m.diag then ∑ b, lump (massMat m pts u) a b * v b else velLocal m pts u v a

/-- `velocity_residual`, `jac_xdot` on exit (heat_conduction_elem_base.cpp:198-201, 220-236). -/
def velJacXdot (m : Mat d X) (req : Bool) (pts : List (Qp n d X)) (u : Fin n → ℝ) (a b : Fin n) : ℝ :=
  if req then (if m.diag then lump (massMat m pts u) a b else massMat m pts u a b) else 0

/-- `velocity_residual`, `jac` on exit (heat_conduction_elem_base.cpp:204-215, 232-235): also when the mass matrix is lumped. -/
noncomputable def velJac (m : Mat d X) (req : Bool) (pts : List (Qp n d X)) (u v : Fin n → ℝ) (a b : Fin n) : ℝ :=
  if req then (pts.map fun q => if m.active then (if m.dcT q.x (temp m q u) ≠ 0 then q.JxW * interp q v * m.dcT q.x (temp m q u) * (q.phi a * q.phi b) else 0) else 0).sum else 0

/-- `velocity_residual_sensitivity` (heat_conduction_elem_base.cpp:736-771). -/
def velSens (m : Mat d X) (pts : List (Qp n d X)) (u v : Fin n → ℝ) (a : Fin n) : ℝ :=
  if m.diag then ∑ b, lump (fun a b => (pts.map fun q => q.JxW * m.dcP q.x (temp m q u) * (q.phi a * q.phi b)).sum) a b * v b
  else (pts.map fun q => q.JxW * m.dcP q.x (temp m q u) * (q.phi a * interp q v)).sum

/-- A real field function with its `derivative` for the parameter. -/
structure Field (X : Type) where
  val : X → ℝ
  der : X → ℝ

/-- A boundary condition (heat_conduction_elem_base.cpp:271-301, 331-360) with the functions it looks up; the ambient temperature, zero reference and constant of the radiation load are
`Parameter`s, with their derivative for the parameter of the sensitivity (1 if they are that parameter). -/
inductive Load (X : Type)
  | flux (q : Field X)
  | convection (h amb : Field X)
  | radiation (eps : Field X) (amb zero sb damb dzero dsb : ℝ)
  | source (q : Field X)
  | dirichlet
  | other

/-- `th` (heat_conduction_elem_base.cpp:908-909): section size, 1 without a section function. -/
def thick (sec : Option (Field X)) (x : X) : ℝ := match sec with | some s => s.val x | none => 1

/-- `dth` (heat_conduction_elem_base.cpp:990-998). -/
def dthick (sec : Option (Field X)) (x : X) : ℝ := match sec with | some s => s.der x | none => 0

/-- Integrand of a side load (heat_conduction_elem_base.cpp:911, 1144, 1450-1451); `none` is `libmesh_error`. -/
def sideTerm (sec : Option (Field X)) (x : X) (T : ℝ) : Load X → Option ℝ
  | .flux q => some (q.val x * thick sec x)
  | .convection h amb => some (thick sec x * h.val x * (T - amb.val x))
  | .radiation eps amb zero sb _ _ _ => some (sb * eps.val x * thick sec x * ((T + zero) ^ 4 - (amb + zero) ^ 4))
  | .dirichlet => some 0
  | .source _ => none
  | .other => none

/-- Factor of the Jacobian of a side load (heat_conduction_elem_base.cpp:1150, 1457). -/
def sideJacTerm (sec : Option (Field X)) (x : X) (T : ℝ) : Load X → ℝ
  | .convection h _ => thick sec x * h.val x
  | .radiation eps _ zero sb _ _ _ => sb * eps.val x * thick sec x * 4 * (T + zero) ^ 3
  | _ => 0

/-- Integrand of the sensitivity of a side load (heat_conduction_elem_base.cpp:1000, 1271-1273, 1579-1580). -/
def sideSensTerm (sec : Option (Field X)) (x : X) (T : ℝ) : Load X → ℝ
  | .flux q => q.val x * dthick sec x + q.der x * thick sec x
  | .convection h amb => thick sec x * h.der x * (T - amb.val x) + thick sec x * h.val x * (-amb.der x) + dthick sec x * h.val x * (T - amb.val x)
  | .radiation eps amb zero sb _ _ _ => sb * (eps.der x * thick sec x + eps.val x * dthick sec x) * ((T + zero) ^ 4 - (amb + zero) ^ 4)
  | _ => 0

/-- Integrand of a volume load (heat_conduction_elem_base.cpp:949, 1200, 1507-1508, 1743); `none` is `libmesh_error`. -/
def volTerm (sec : Option (Field X)) (x : X) (T : ℝ) : Load X → Option ℝ
  | .flux q => some (q.val x)
  | .convection h amb => some (h.val x * (T - amb.val x))
  | .radiation eps amb zero sb _ _ _ => some (sb * eps.val x * ((T + zero) ^ 4 - (amb + zero) ^ 4))
  | .source q => some (-(q.val x * thick sec x))
  | .dirichlet => none
  | .other => none

/-- Factor of the Jacobian of a volume load (heat_conduction_elem_base.cpp:1206, 1514). -/
def volJacTerm (_sec : Option (Field X)) (x : X) (T : ℝ) : Load X → ℝ
  | .convection h _ => h.val x
  | .radiation eps _ zero sb _ _ _ => sb * eps.val x * 4 * (T + zero) ^ 3
  | _ => 0

/-- Integrand of the sensitivity of a volume load (heat_conduction_elem_base.cpp:1036, 1323-1324, 1628-1629, 1789). -/
def volSensTerm (sec : Option (Field X)) (x : X) (T : ℝ) : Load X → ℝ
  | .flux q => q.der x
  | .convection h amb => h.der x * (T - amb.val x) + h.val x * (-amb.der x)
  | .radiation eps amb zero sb _ _ _ => sb * eps.der x * ((T + zero) ^ 4 - (amb + zero) ^ 4)
  | .source q => -(q.der x * thick sec x + q.val x * dthick sec x)
  | _ => 0

/-- Contribution of one load to the residual (heat_conduction_elem_base.cpp:900-912, 1128-1144, 1438-1451, 1732-1744); `none` only for unsupported loads: the error is raised before any
quadrature point is visited. -/
def loadRes (term : X → ℝ → Load X → Option ℝ) (pts : List (Qp n d X)) (u : Fin n → ℝ) (l : Load X) (a : Fin n) : ℝ :=
  (pts.map fun q => q.JxW * q.phi a * ((term q.x (interp q u) l).getD 0)).sum

/-- Contribution of one load to the Jacobian (heat_conduction_elem_base.cpp:1146-1151, 1453-1458). -/
def loadJac (term : X → ℝ → Load X → ℝ) (pts : List (Qp n d X)) (u : Fin n → ℝ) (l : Load X) (a b : Fin n) : ℝ :=
  (pts.map fun q => q.JxW * (q.phi a * q.phi b) * term q.x (interp q u) l).sum

/-- Contribution of one load to the sensitivity (heat_conduction_elem_base.cpp:981-1001, 1246-1274, 1559-1581). -/
def loadSens (term : X → ℝ → Load X → ℝ) (pts : List (Qp n d X)) (u : Fin n → ℝ) (l : Load X) (a : Fin n) : ℝ :=
  (pts.map fun q => q.JxW * q.phi a * term q.x (interp q u) l).sum

/-- Contribution of one load to the boundary velocity term (heat_conduction_elem_base.cpp:1085-1095, 1380-1395, 1692-1704, 1837-1849); `pts` are the points of the side. -/
def loadBndVel (term : X → ℝ → Load X → Option ℝ) (vel : X → Fin d → ℝ) (pts : List (Qp n d X)) (u : Fin n → ℝ) (l : Load X) (a : Fin n) : ℝ :=
  (pts.map fun q => jxwVn vel q * q.phi a * ((term q.x (interp q u) l).getD 0)).sum

/-- Loads a side loop accepts (heat_conduction_elem_base.cpp:271-301). -/
def sideOk : Load X → Bool
  | .source _ => false
  | .other => false
  | _ => true

/-- Loads a volume loop accepts (heat_conduction_elem_base.cpp:331-360). -/
def volOk : Load X → Bool
  | .dirichlet => false
  | .other => false
  | _ => true

/-- `external_side_loads_for_quadrature_elem` (mesh/geom_elem.cpp:191-210): `ids s` are the boundary ids of side `s`; the multimap is the list of its entries. -/
def sideLoads (nSides : Nat) (ids : Nat → List Nat) (bc : List (Nat × Load X)) : List (Nat × Load X) :=
  (List.range nSides).flatMap fun s => (ids s).flatMap fun b => (bc.filter fun e => e.1 == b).map fun e => (s, e.2)

/-- Loads of the subdomain (heat_conduction_elem_base.cpp:325-329). -/
def volLoads (sid : Nat) (bc : List (Nat × Load X)) : List (Load X) := (bc.filter fun e => e.1 == sid).map fun e => e.2

/-- Data of an element: points of the domain and of each side, sides, boundary ids, subdomain, section. -/
structure Elem (n d : Nat) (X : Type) where
  pts : List (Qp n d X)
  sidePts : Nat → List (Qp n d X)
  nSides : Nat
  ids : Nat → List Nat
  sid : Nat
  sec : Option (Field X)

/-- `elem_calculations`, residual (heat_conduction_nonlinear_assembly.cpp:83-98): `none` if a load is not supported. -/
def elemRes (m : Mat d X) (e : Elem n d X) (sbc vbc : List (Nat × Load X)) (u : Fin n → ℝ) : Option (Fin n → ℝ) :=
  if (sideLoads e.nSides e.ids sbc).all (fun l => sideOk l.2) && (volLoads e.sid vbc).all volOk then
    some fun a => internalRes m e.pts u a + ((sideLoads e.nSides e.ids sbc).map fun l => loadRes (sideTerm e.sec) (e.sidePts l.1) u l.2 a).sum +
      ((volLoads e.sid vbc).map fun l => loadRes (volTerm e.sec) e.pts u l a).sum
  else none

/-- `elem_calculations`, Jacobian (heat_conduction_nonlinear_assembly.cpp:83-98). -/
noncomputable def elemJac (m : Mat d X) (e : Elem n d X) (sbc vbc : List (Nat × Load X)) (u : Fin n → ℝ) (a b : Fin n) : ℝ :=
  internalJac m e.pts u a b + ((sideLoads e.nSides e.ids sbc).map fun l => loadJac (sideJacTerm e.sec) (e.sidePts l.1) u l.2 a b).sum +
    ((volLoads e.sid vbc).map fun l => loadJac (volJacTerm e.sec) e.pts u l a b).sum

/-- `elem_sensitivity_calculations` (heat_conduction_nonlinear_assembly.cpp:105-118). -/
def elemSens (m : Mat d X) (e : Elem n d X) (sbc vbc : List (Nat × Load X)) (u : Fin n → ℝ) (a : Fin n) : ℝ :=
  internalSens m e.pts u a + ((sideLoads e.nSides e.ids sbc).map fun l => loadSens (sideSensTerm e.sec) (e.sidePts l.1) u l.2 a).sum +
    ((volLoads e.sid vbc).map fun l => loadSens (volSensTerm e.sec) e.pts u l a).sum

/-- `elem_topology_sensitivity_calculations` (heat_conduction_nonlinear_assembly.cpp:122-154): internal and volume load terms on side `s`. -/
def elemTopo (m : Mat d X) (e : Elem n d X) (vel : X → Fin d → ℝ) (s : Nat) (vbc : List (Nat × Load X)) (u : Fin n → ℝ) (a : Fin n) : ℝ :=
  internalBndVel m vel (e.sidePts s) u a + ((volLoads e.sid vbc).map fun l => loadBndVel (volTerm e.sec) vel (e.sidePts s) u l a).sum

end Verif.Heat
