import Verif.Model.Fluid
import Verif.Model.FluidDiff
import Mathlib.Algebra.BigOperators.Group.List.Basic
/-
  Conservative fluid element: src/fluid/conservative_fluid_element_base.cpp, fluid_elem_base.cpp 2474-2559, integrated_force_output.cpp.
  Element vectors are indexed by (variable, node), matrices by two such pairs; sums over the variables run over all five names and the matrices of `Verif.Model.Fluid` carry zeros at the
  variables a lower dimension does not have.  Rows and columns are meaningful at the variables with `act d v`.
-/
namespace Verif.Fluid

open Finset in
section
/-- Quadrature point in the element: `JxW`, `phi`, gradient (direction, node) and second derivatives (two directions, node) (conservative_fluid_element_base.cpp:59-62, 115-132). -/
structure Qp where
  w : ℝ
  phi : Nat → ℝ
  dphi : Nat → Nat → ℝ
  d2phi : Nat → Nat → Nat → ℝ

/-- Quadrature point on a side: also the outward normal (conservative_fluid_element_base.cpp:982-985, 1089-1093). -/
structure SideQp where
  w : ℝ
  phi : Nat → ℝ
  dphi : Nat → Nat → ℝ
  n : Fin 3 → ℝ

/-- Dimension, number of shape functions, gas constants and `if_viscous()` of an element. -/
structure Ctx where
  d : Nat
  n : Nat
  cp : ℝ
  cv : ℝ
  visc : Bool

/-- Element vector: variable, node. -/
abbrev Field := Var → Nat → ℝ

/-- `FEMOperatorMatrix::right_multiply` / `vector_mult` with the operators of `_initialize_fem_*_operator` (conservative_fluid_element_base.cpp:118, 201, 219). -/
def interp (c : Ctx) (ψ : Nat → ℝ) (x : Field) : Var → ℝ := fun v => if act c.d v then ∑ a ∈ range c.n, ψ a * x v a else 0

/-- The gas of the flight condition. -/
noncomputable def Ctx.gas (c : Ctx) : Gas := gasInit c.cp c.cv

/-- `primitive_sol` at a quadrature point (conservative_fluid_element_base.cpp:118-125). -/
noncomputable def stateAt (c : Ctx) (ψ : Nat → ℝ) (x : Field) : Prim := prim c.d (interp c ψ x) c.cp c.cv c.visc

/-- `AiBi_adv * _sol` (conservative_fluid_element_base.cpp:145-154, 207). -/
noncomputable def strong (c : Ctx) (q : Qp) (x : Field) (v : Var) : ℝ :=
  ∑ i ∈ range c.d, ∑ y, fluxJac c.d i c.gas (stateAt c q.phi x) v y * interp c (q.dphi i) x y

/-- Stabilisation matrix `tau` as a function of the quadrature point and the element solution (`calculate_barth_tau_matrix`, fluid_elem_base.cpp:2518-2519; its `tau_sens` stays zero). -/
abbrev Tau := Qp → Field → Var → Var → ℝ

/-- Shock capturing coefficients `dc` (conservative_fluid_element_base.cpp:86, 170-177): zero unless enabled. -/
abbrev Shock := Qp → Field → Nat → ℝ

/-- `LS_operator(x, (v, a))` (fluid_elem_base.cpp:2522-2526, 2558): `tau^T ∑ A_i^T dB_i`. -/
noncomputable def lsOp (c : Ctx) (T : Tau) (q : Qp) (sol : Field) (x v : Var) (a : Nat) : ℝ :=
  ∑ y, T q sol y x * ∑ i ∈ range c.d, fluxJac c.d i c.gas (stateAt c q.phi sol) v y * q.dphi i a

/-- `LS_sens((v, a), (u, b))` (fluid_elem_base.cpp:2531-2548); the part with `tau_sens` is zero. -/
noncomputable def lsSens (c : Ctx) (T : Tau) (q : Qp) (sol : Field) (v : Var) (a : Nat) (u : Var) (b : Nat) : ℝ :=
  ∑ i ∈ range c.d, q.phi b * (q.dphi i a * ∑ y, fluxJacSensCons c.d i u c.gas (stateAt c q.phi sol) v y * ∑ x, T q sol y x * strong c q sol x)

/-- `dprim_dx` at a point (fluid_elem_base.cpp:273-274). -/
noncomputable def primGrad (c : Ctx) (phi : Nat → ℝ) (dphi : Nat → Nat → ℝ) (sol : Field) : Nat → Var → ℝ :=
  gradPrim c.d c.gas (stateAt c phi sol) (fun i => interp c (dphi i) sol)

/-- `stress` at a point (conservative_fluid_element_base.cpp:137-142). -/
noncomputable def stressAt (c : Ctx) (phi : Nat → ℝ) (dphi : Nat → Nat → ℝ) (sol : Field) : Nat → Nat → ℝ :=
  stress c.d (stateAt c phi sol).mu (stateAt c phi sol).lambda (primGrad c phi dphi sol)

/-- Viscous flux at a quadrature point (conservative_fluid_element_base.cpp:190-194). -/
noncomputable def viscAt (c : Ctx) (q : Qp) (sol : Field) (i : Nat) : Var → ℝ :=
  diffFlux c.d i (stateAt c q.phi sol) (stressAt c q.phi q.dphi sol) (tempGrad c.d (primGrad c q.phi q.dphi sol))

/-- Contribution of one quadrature point to `f` of `internal_residual` (conservative_fluid_element_base.cpp:180-222). -/
noncomputable def resQp (c : Ctx) (T : Tau) (dc : Shock) (sol : Field) (v : Var) (a : Nat) (q : Qp) : ℝ :=
  (∑ i ∈ range c.d, (-(q.w * (q.dphi i a * flux c.d i (stateAt c q.phi sol) v)) + (if c.visc then q.w * (q.dphi i a * viscAt c q sol i v) else 0) +
      q.w * dc q sol i * (q.dphi i a * interp c (q.dphi i) sol v))) +
    q.w * ∑ x, lsOp c T q sol x v a * strong c q sol x -
    (if c.visc then q.w * ∑ i ∈ range c.d, ∑ j ∈ range c.d, ∑ x, lsOp c T q sol x v a * ∑ y, kCons c.d i j c.gas (stateAt c q.phi sol) x y * interp c (q.d2phi i j) sol y else 0)

/-- `f` of `internal_residual` (conservative_fluid_element_base.cpp:55-293). -/
noncomputable def internalRes (c : Ctx) (T : Tau) (dc : Shock) (qs : List Qp) (sol : Field) (v : Var) (a : Nat) : ℝ := (qs.map (resQp c T dc sol v a)).sum

/-- `A_sens.col((u, b))` (conservative_fluid_element_base.cpp:237-243). -/
noncomputable def aSens (c : Ctx) (q : Qp) (sol : Field) (x u : Var) (b : Nat) : ℝ :=
  ∑ i ∈ range c.d, q.phi b * ∑ y, fluxJacSensCons c.d i u c.gas (stateAt c q.phi sol) x y * interp c (q.dphi i) sol y

/-- Contribution of one quadrature point to `jac` of `internal_residual` (conservative_fluid_element_base.cpp:225-289). -/
noncomputable def jacQp (c : Ctx) (T : Tau) (dc : Shock) (sol : Field) (v : Var) (a : Nat) (u : Var) (b : Nat) (q : Qp) : ℝ :=
  (∑ i ∈ range c.d, (-(q.w * (q.dphi i a * (fluxJac c.d i c.gas (stateAt c q.phi sol) v u * q.phi b))) +
      (if c.visc then ∑ j ∈ range c.d, q.w * (q.dphi i a * (kCons c.d i j c.gas (stateAt c q.phi sol) v u * q.dphi j b)) else 0) +
      q.w * dc q sol i * (if v = u then q.dphi i a * q.dphi i b else 0))) +
    q.w * (∑ x, lsOp c T q sol x v a * ∑ i ∈ range c.d, fluxJac c.d i c.gas (stateAt c q.phi sol) x u * q.dphi i b) -
    (if c.visc then q.w * ∑ i ∈ range c.d, ∑ j ∈ range c.d, ∑ x, lsOp c T q sol x v a * (kCons c.d i j c.gas (stateAt c q.phi sol) x u * q.d2phi i j b) else 0) +
    q.w * (∑ x, lsOp c T q sol x v a * aSens c q sol x u b) + q.w * lsSens c T q sol v a u b

/-- `jac` of `internal_residual` (conservative_fluid_element_base.cpp:55-293). -/
noncomputable def internalJac (c : Ctx) (T : Tau) (dc : Shock) (qs : List Qp) (sol : Field) (v : Var) (a : Nat) (u : Var) (b : Nat) : ℝ := (qs.map (jacQp c T dc sol v a u b)).sum

/-- Jacobian times an element vector (`f_jac_x * _delta_sol`, conservative_fluid_element_base.cpp:324). -/
noncomputable def jacMul (c : Ctx) (J : Var → Nat → ℝ) (D : Field) : ℝ := ∑ u, if act c.d u then ∑ b ∈ range c.n, J u b * D u b else 0

/-- `linearized_internal_residual` (conservative_fluid_element_base.cpp:300-327). -/
noncomputable def linInternalRes (c : Ctx) (T : Tau) (dc : Shock) (qs : List Qp) (sol D : Field) (v : Var) (a : Nat) : ℝ := jacMul c (internalJac c T dc qs sol v a) D

/-- `f` of `velocity_residual` (conservative_fluid_element_base.cpp:379-423). -/
noncomputable def velocityRes (c : Ctx) (T : Tau) (qs : List Qp) (sol vel : Field) (v : Var) (a : Nat) : ℝ :=
  (qs.map fun q => q.w * (q.phi a * interp c q.phi vel v) + q.w * ∑ x, lsOp c T q sol x v a * interp c q.phi vel x).sum

/-- `jac_xdot` of `velocity_residual` (conservative_fluid_element_base.cpp:425-436); `jac` is left as it is. -/
noncomputable def velocityJacXdot (c : Ctx) (T : Tau) (qs : List Qp) (sol : Field) (v : Var) (a : Nat) (u : Var) (b : Nat) : ℝ :=
  (qs.map fun q => q.w * (if v = u then q.phi a * q.phi b else 0) + q.w * (lsOp c T q sol u v a * q.phi b)).sum

/-- Eigenvalues kept by the split: `eig_val(j) < 0` or `> 0` (conservative_fluid_element_base.cpp:1697-1702, 1718-1723). -/
noncomputable def keep (pos : Bool) (l : ℝ) : ℝ := if pos then (if 0 < l then l else 0) else (if l < 0 then l else 0)

/-- `mat1_n1n1` of the far field: `L^-T Λ^± L^T` (conservative_fluid_element_base.cpp:1697-1704, 1718-1725). -/
noncomputable def split (pos : Bool) (d : Nat) (g : Gas) (s : Prim) (n : Fin 3 → ℝ) (x y : Var) : ℝ :=
  ∑ w, rightEig d g s n x w * keep pos (eigVals d s n w) * leftEig d g s n y w

/-- The two fluxes of the far field (conservative_fluid_element_base.cpp:1706-1729). -/
noncomputable def farFlux (c : Ctx) (U inf : Var → ℝ) (n : Fin 3 → ℝ) (v : Var) : ℝ :=
  (∑ y, split false c.d c.gas (prim c.d U c.cp c.cv c.visc) n v y * inf y) + ∑ y, split true c.d c.gas (prim c.d U c.cp c.cv c.visc) n v y * U y

/-- `f` of `far_field_surface_residual` (conservative_fluid_element_base.cpp:1672-1729); `inf` is `inf_sol` at the point, or `get_infinity_vars`. -/
noncomputable def farRes (c : Ctx) (qs : List SideQp) (inf : SideQp → Var → ℝ) (sol : Field) (v : Var) (a : Nat) : ℝ :=
  (qs.map fun q => q.w * (q.phi a * farFlux c (interp c q.phi sol) (inf q) q.n v)).sum

/-- `jac` of `far_field_surface_residual` (conservative_fluid_element_base.cpp:1732-1750). -/
noncomputable def farJac (c : Ctx) (qs : List SideQp) (sol : Field) (v : Var) (a : Nat) (u : Var) (b : Nat) : ℝ :=
  (qs.map fun q => q.w * (q.phi a * (split true c.d c.gas (stateAt c q.phi sol) q.n v u * q.phi b))).sum

/-- Variable number `k` of a `d` dimensional problem (fluid_elem_base.cpp:47-66). -/
def varIdx (d k : Nat) : Option Var :=
  if k = 0 then some .rho else if k ≤ d then some (mvar (k - 1)) else if k = d + 1 then some .en else none

/-- `vec2_n1` of `far_field_surface_residual_sensitivity` (conservative_fluid_element_base.cpp:1842-1849): positions 0, 1, 2, 3 of a vector of `d + 2` entries are written, whatever the
parameter and the dimension; `none` is the write outside the vector. -/
noncomputable def farSensVec (d : Nat) (f : Flight) : Option (Var → ℝ) :=
  ([(0, (1 : ℝ)), (1, f.rho * f.vel * f.dir 0 / f.rho), (2, f.rho * f.vel * f.dir 1 / f.rho), (3, (f.rho * f.cv * f.T + f.q0) / f.rho)] : List (Nat × ℝ)).foldl
    (fun acc p => acc.bind fun V => (varIdx d p.1).map fun v => fun w => if w = v then p.2 else V w) (some fun _ => 0)

/-- `f` of `far_field_surface_residual_sensitivity` (conservative_fluid_element_base.cpp:1806-1855). -/
noncomputable def farResSens (c : Ctx) (qs : List SideQp) (f : Flight) (sol : Field) (v : Var) (a : Nat) : Option ℝ :=
  (farSensVec c.d f).map fun V => (qs.map fun q => q.w * (q.phi a * ∑ y, split false c.d c.gas (stateAt c q.phi sol) q.n v y * V y)).sum

/-- Motion of a wall at a side quadrature point: velocity and rotation of the normal, zero when the boundary condition does not have them (conservative_fluid_element_base.cpp:1128-1140,
1177-1184). -/
structure WallQp extends SideQp where
  dw : Fin 3 → ℝ
  dn : Fin 3 → ℝ

/-- `ni`: the entries beyond the dimension stay zero (conservative_fluid_element_base.cpp:1106, 1167-1168). -/
def sideNormal (d : Nat) (n : Fin 3 → ℝ) : Fin 3 → ℝ := fun i => if i.val < d then n i else 0

/-- `get_uvec` (primitive_fluid_solution.cpp:125-140). -/
def uv (s : Prim) : Fin 3 → ℝ
  | 0 => s.u1
  | 1 => s.u2
  | 2 => s.u3

/-- `segment(1, dim) += x * ni` (conservative_fluid_element_base.cpp:1192): entry of variable `v`. -/
def momEntry (d : Nat) (z : Fin 3 → ℝ) : Var → ℝ
  | .m1 => if 1 ≤ d then z 0 else 0
  | .m2 => if 2 ≤ d then z 1 else 0
  | .m3 => if 3 ≤ d then z 2 else 0
  | _ => 0

/-- `ui_ni` (conservative_fluid_element_base.cpp:1186). -/
def uini (d : Nat) (s : Prim) (n dw dn : Fin 3 → ℝ) : ℝ := (∑ i, dw i * (sideNormal d n i + dn i)) - ∑ i, uv s i * dn i

/-- `flux` of the slip wall (conservative_fluid_element_base.cpp:1189-1192). -/
noncomputable def slipFlux (c : Ctx) (U : Var → ℝ) (n dw dn : Fin 3 → ℝ) (v : Var) : ℝ :=
  let s := prim c.d U c.cp c.cv c.visc
  uini c.d s n dw dn * U v + (if v = .en then uini c.d s n dw dn * s.p else 0) + momEntry c.d (fun i => s.p * sideNormal c.d n i) v

/-- `f` of `slip_wall_surface_residual` (conservative_fluid_element_base.cpp:1145-1195). -/
noncomputable def slipRes (c : Ctx) (qs : List WallQp) (sol : Field) (v : Var) (a : Nat) : ℝ :=
  (qs.map fun q => q.w * (q.phi a * slipFlux c (interp c q.phi sol) q.n q.dw q.dn v)).sum

/-- `jac` of `slip_wall_surface_residual` (conservative_fluid_element_base.cpp:1197-1209). -/
noncomputable def slipJac (c : Ctx) (qs : List WallQp) (sol : Field) (v : Var) (a : Nat) (u : Var) (b : Nat) : ℝ :=
  (qs.map fun q => q.w * (q.phi a * (wallJac c.d c.gas (stateAt c q.phi sol) (uini c.d (stateAt c q.phi sol) q.n q.dw q.dn) q.n q.dn v u * q.phi b))).sum

/-- `f` of `symmetry_surface_residual` (conservative_fluid_element_base.cpp:1008-1030). -/
noncomputable def symRes (c : Ctx) (qs : List SideQp) (sol : Field) (v : Var) (a : Nat) : ℝ :=
  (qs.map fun q => q.w * (q.phi a * momEntry c.d (fun i => (stateAt c q.phi sol).p * q.n i) v)).sum

/-- `jac` of `symmetry_surface_residual` (conservative_fluid_element_base.cpp:1032-1044). -/
noncomputable def symJac (c : Ctx) (qs : List SideQp) (sol : Field) (v : Var) (a : Nat) (u : Var) (b : Nat) : ℝ :=
  (qs.map fun q => q.w * (q.phi a * (wallJac c.d c.gas (stateAt c q.phi sol) 0 q.n (fun _ => 0) v u * q.phi b))).sum

/-- Perturbed wall motion (conservative_fluid_element_base.cpp:1250-1251, 1347-1365). -/
structure LinWallQp extends WallQp where
  Dw : Fin 3 → ℝ
  Dn : Fin 3 → ℝ

/-- `get_duvec` (small_disturbance_primitive_fluid_solution.cpp:128-143). -/
def duv (δ : DPrim) : Fin 3 → ℝ
  | 0 => δ.du1
  | 1 => δ.du2
  | 2 => δ.du3

/-- `flux` of the linearized slip wall (conservative_fluid_element_base.cpp:1345-1381). -/
noncomputable def linSlipFlux (c : Ctx) (U D : Var → ℝ) (q : LinWallQp) (v : Var) : ℝ :=
  let s := prim c.d U c.cp c.cv c.visc
  let δ := dprim c.d s D c.visc
  let un := uini c.d s q.n q.dw q.dn
  let Dv := (∑ i, q.Dw i * (sideNormal c.d q.n i + q.dn i)) + (∑ i, q.dw i * q.Dn i) - (∑ i, uv s i * q.Dn i) - ∑ i, duv δ i * q.dn i
  un * D v + (if v = .en then un * δ.dp else 0) + Dv * U v + (if v = .en then Dv * s.p else 0) + momEntry c.d (fun i => δ.dp * sideNormal c.d q.n i) v

/-- `f` of `linearized_slip_wall_surface_residual` (conservative_fluid_element_base.cpp:1293-1384). -/
noncomputable def linSlipRes (c : Ctx) (qs : List LinWallQp) (sol D : Field) (v : Var) (a : Nat) : ℝ :=
  (qs.map fun q => q.w * (q.phi a * linSlipFlux c (interp c q.phi sol) (interp c q.phi D) q v)).sum

/-- `flux` of the no slip wall (conservative_fluid_element_base.cpp:1538-1568): `ui_ni`, `uvec` and `temp_grad` are zero; the velocity and normal rotation of the boundary condition are
looked up (1483-1490) and not used. -/
noncomputable def noslipFlux (c : Ctx) (q : SideQp) (sol : Field) (v : Var) : ℝ :=
  momEntry c.d (fun i => (stateAt c q.phi sol).p * q.n i - ∑ j : Fin 3, if j.val < c.d then q.n j * stressAt c q.phi q.dphi sol i j else 0) v

/-- `f` of `noslip_wall_surface_residual` (conservative_fluid_element_base.cpp:1493-1572). -/
noncomputable def noslipRes (c : Ctx) (qs : List SideQp) (sol : Field) (v : Var) (a : Nat) : ℝ := (qs.map fun q => q.w * (q.phi a * noslipFlux c q sol v)).sum

/-- State handed to `calculate_diffusion_flux_jacobian_primitive_vars` with `uvec = 0` and `zero_kth` (conservative_fluid_element_base.cpp:1557, 1591-1596). -/
def still (s : Prim) : Prim := { s with u1 := 0, u2 := 0, u3 := 0, kth := 0 }

/-- `jac` of `noslip_wall_surface_residual` (conservative_fluid_element_base.cpp:1574-1603). -/
noncomputable def noslipJac (c : Ctx) (qs : List SideQp) (sol : Field) (v : Var) (a : Nat) (u : Var) (b : Nat) : ℝ :=
  (qs.map fun q => q.w * (q.phi a * (wallJac c.d c.gas (stateAt c q.phi sol) 0 q.n (fun _ => 0) v u * q.phi b)) -
    ∑ i : Fin 3, if i.val < c.d then ∑ j ∈ range c.d,
      q.w * (q.phi a * ((∑ y, kPrim c.d i j (still (stateAt c q.phi sol)) v y * dprimDcons c.d c.gas (stateAt c q.phi sol) y u) * q.dphi j b)) * q.n i else 0).sum

/-- `f` of `side_integrated_force` (conservative_fluid_element_base.cpp:807-846), entries below the dimension; the others keep their value. -/
noncomputable def sideForce (c : Ctx) (qs : List SideQp) (sol : Field) (k : Fin 3) : ℝ :=
  if k.val < c.d then
    (qs.map fun q => q.w * (stateAt c q.phi sol).p * q.n k -
      if c.visc then ∑ i : Fin 3, if i.val < c.d then q.w * stressAt c q.phi q.dphi sol k i * q.n i else 0 else 0).sum
  else 0

/-- Momentum variable of row `1 + k` (conservative_fluid_element_base.cpp:871). -/
def mrow : Fin 3 → Var
  | 0 => .m1
  | 1 => .m2
  | 2 => .m3

/-- `dfdX` of `side_integrated_force` (conservative_fluid_element_base.cpp:850-874). -/
noncomputable def sideForceJac (c : Ctx) (qs : List SideQp) (sol : Field) (k : Fin 3) (u : Var) (b : Nat) : ℝ :=
  if k.val < c.d then
    (qs.map fun q => q.w * (dpdX c.d c.gas (stateAt c q.phi sol) u * q.phi b) * q.n k -
      if c.visc then ∑ i : Fin 3, if i.val < c.d then ∑ j ∈ range c.d, q.w * (kCons c.d i j c.gas (stateAt c q.phi sol) (mrow k) u * q.dphi j b) * q.n i else 0 else 0).sum
  else 0

/-- `f` of `side_integrated_force_sensitivity` for an inviscid flow (conservative_fluid_element_base.cpp:917-940). -/
noncomputable def sideForceSens (c : Ctx) (qs : List SideQp) (sol D : Field) (k : Fin 3) : ℝ :=
  if k.val < c.d then (qs.map fun q => q.w * (dprim c.d (stateAt c q.phi sol) (interp c q.phi D) c.visc).dp * q.n k).sum else 0

/-- `_n_vec /= _n_vec.norm()` (integrated_force_output.cpp:42). -/
noncomputable def unitVec (n : Fin 3 → ℝ) : Fin 3 → ℝ := fun i => n i / Real.sqrt (∑ j, n j ^ 2)

/-- One pass of the loop of `evaluate` (integrated_force_output.cpp:126-131): the side adds its force to `f`, which is not cleared between sides, and `f` is added to the output. -/
def evalStep (nv : Fin 3 → ℝ) (acc : (Fin 3 → ℝ) × ℝ) (side : Fin 3 → ℝ) : (Fin 3 → ℝ) × ℝ :=
  let f := fun k => acc.1 k + side k
  (f, acc.2 + ∑ k, f k * nv k)

/-- `IntegratedForceOutput::evaluate` on one element (integrated_force_output.cpp:113-132): `sides` are the forces of its sides on the selected boundaries, `nvec` the direction given to
the constructor.  `evaluate_sensitivity` (137-156) and `output_derivative_for_elem` (161-183) have the same loop with the sensitivity and the derivative of the force. -/
noncomputable def evalElem (nvec : Fin 3 → ℝ) (sides : List (Fin 3 → ℝ)) (total : ℝ) : ℝ := (sides.foldl (evalStep (unitVec nvec)) (fun _ => 0, total)).2

/-- Output after the loop over the elements (integrated_force_output.cpp:71-95, 113-132). -/
noncomputable def forceOutput (nvec : Fin 3 → ℝ) (elems : List (List (Fin 3 → ℝ))) : ℝ := elems.foldl (fun t e => evalElem nvec e t) 0

end
end Verif.Fluid
