import Verif.Model.Shell
/-
  Derivative of the shell tangent along the solution sensitivity, and boundary-velocity contributions of a moving side: src/elasticity/structural_element_2d.cpp, mindlin_bending_operator.cpp.
-/
namespace Verif.Shell
open Verif.GeomElem Verif.StructLoads

variable {n : Nat} {X : Type}

/-- `vec2_n1` of `internal_residual_jac_dot_state_sensitivity` (structural_element_2d.cpp:1665-1694), with bending; `w` is the sensitivity of the solution (`_local_sol_sens`).  Only the linear strain and
the von Karman strain are varied. -/
def stressDot (S : Stiff) (q : Sqp n X) (u w : Dof n → ℝ) (r : Fin 3) : ℝ :=
  mv S.A (app (Blin q) w) r + mv S.B (app q.bend w) r
  + mv S.A ![vkMat q u 0 0 * vkMat q w 0 0, vkMat q u 1 1 * vkMat q w 1 1, vkMat q u 0 0 * vkMat q w 1 1 + vkMat q u 1 1 * vkMat q w 0 0] r

/-- One quadrature point of `internal_residual_jac_dot_state_sensitivity` (structural_element_2d.cpp:1699-1753), with bending and nonlinear strain; `vkMat q w` is `vk_dwdxi_mat_sens`
(structural_element_2d.cpp:102-145). -/
def jacDot (S : Stiff) (q : Sqp n X) (u w : Dof n → ℝ) (a b : Dof n) : ℝ :=
  q.JxW * sandwich (Bvk q) (mm (tr (vkMat q w)) S.A) (Blin q) a b
  + q.JxW * sandwich (Bvk q) (mm (tr (vkMat q w)) S.B) q.bend a b
  + q.JxW * sandwich (Bvk q) (mm (mm (tr (vkMat q w)) S.A) (vkMat q u)) (Bvk q) a b
  + q.JxW * sandwich (Bvk q) (mm (mm (tr (vkMat q u)) S.A) (vkMat q w)) (Bvk q) a b
  + q.JxW * sandwich (Blin q) (mm S.A (vkMat q w)) (Bvk q) a b
  + q.JxW * sandwich q.bend (mm (tr S.B) (vkMat q w)) (Bvk q) a b
  + q.JxW * sandwich (Bvk q) (stressMat (stressDot S q u w)) (Bvk q) a b

/-- What `internal_residual_jac_dot_state_sensitivity` adds to `jac` (structural_element_2d.cpp:1571-1760): nothing for linear strain (1636-1637); without bending `Bmat_vk`, `Bmat_bend` and the von Karman
matrices stay empty, so nothing either. -/
def jacDotGlobal (T : Option (Fin 3 → Fin 3 → ℝ)) (nl bend : Bool) (e : Elem n X) (u w : Dof n → ℝ) (a b : Dof n) : ℝ :=
  matToGlobal T (fun c d => if nl && bend then (e.pts.map fun p => jacDot p.2 p.1 (vecToLocal T u) (vecToLocal T w) c d).sum else 0) a b

/-! ### Moving side -/

/-- `vn` (structural_element_2d.cpp:1492-1495, 3513-3516; mindlin_bending_operator.cpp:280-283): the first two components of the velocity, in the global frame, times the normal in the frame of the element. -/
def normalVel (v : Fin 3 → ℝ) (nrm : Fin 2 → ℝ) : ℝ := v 0 * nrm 0 + v 1 * nrm 1

/-- Quadrature point of a side with its outward normal in the frame of the element and the section stiffness. -/
structure SidePt (n : Nat) (X : Type) where
  q : Sqp n X
  nrm : Fin 2 → ℝ
  S : Stiff

/-- The same for the quadrature of the transverse shear on the side. -/
structure SideShear (n : Nat) (X : Type) where
  q : ShearQp n X
  nrm : Fin 2 → ℝ
  G : Fin 2 → Fin 2 → ℝ

/-- `local_f` of `internal_residual_boundary_velocity` (structural_element_2d.cpp:1490-1555, mindlin_bending_operator.cpp:228-305): the weights `JxW` are multiplied with `vn` and the operations of the
internal residual are applied. -/
noncomputable def bndLocal (nl bend : Bool) (pts : List (SidePt n X)) (shear : List (SideShear n X)) (v : X → Fin 3 → ℝ) (u : Dof n → ℝ) (a : Dof n) : ℝ :=
  (pts.map fun p => opRes nl bend p.S { p.q with JxW := p.q.JxW * normalVel (v p.q.x) p.nrm } u a).sum
  + (if bend then (shear.map fun p => shearRes p.G { p.q with JxW := p.q.JxW * normalVel (v p.q.x) p.nrm } u a).sum else 0)

/-- `internal_residual_boundary_velocity` (structural_element_2d.cpp:1402-1565): what is added to `f`. -/
noncomputable def bndRes (T : Option (Fin 3 → Fin 3 → ℝ)) (nl bend : Bool) (pts : List (SidePt n X)) (shear : List (SideShear n X)) (v : X → Fin 3 → ℝ) (u : Dof n → ℝ) : Dof n → ℝ :=
  globalRes T (bndLocal nl bend pts shear v) u

/-- Its Jacobian, added to `jac` (structural_element_2d.cpp:1561-1564). -/
noncomputable def bndJac (T : Option (Fin 3 → Fin 3 → ℝ)) (nl bend : Bool) (pts : List (SidePt n X)) (shear : List (SideShear n X)) (v : X → Fin 3 → ℝ) (u : Dof n → ℝ) : Dof n → Dof n → ℝ :=
  matToGlobal T fun a b => (pts.map fun p => opJac nl bend p.S { p.q with JxW := p.q.JxW * normalVel (v p.q.x) p.nrm } (vecToLocal T u) a b).sum
    + (if bend then (shear.map fun p => shearJac p.G { p.q with JxW := p.q.JxW * normalVel (v p.q.x) p.nrm } a b).sum else 0)

/-- Quadrature point of a side with its normal and the thermal data. -/
structure SideThermal (n : Nat) (X : Type) where
  q : Sqp n X
  nrm : Fin 2 → ℝ
  th : Thermal

/-- Minus `local_f` of `thermal_residual_boundary_velocity` (structural_element_2d.cpp:3511-3610): the weights are multiplied with `vn`. -/
def bndThermalLocal (nl bend : Bool) (pts : List (SideThermal n X)) (v : X → Fin 3 → ℝ) (u : Dof n → ℝ) (a : Dof n) : ℝ :=
  thermalLocal nl bend (pts.map fun p => ({ p.q with JxW := p.q.JxW * normalVel (v p.q.x) p.nrm }, p.th)) u a

/-- `thermal_residual_boundary_velocity` (structural_element_2d.cpp:3420-3619): `f -= local_f`. -/
def bndThermal (T : Option (Fin 3 → Fin 3 → ℝ)) (nl bend : Bool) (pts : List (SideThermal n X)) (v : X → Fin 3 → ℝ) (u : Dof n → ℝ) : Dof n → ℝ :=
  globalRes T (bndThermalLocal nl bend pts v) u

/-- Its Jacobian (structural_element_2d.cpp:3589-3618): `jac -= local_jac`, no scaling. -/
def bndThermalJac (T : Option (Fin 3 → Fin 3 → ℝ)) (nl bend : Bool) (pts : List (SideThermal n X)) (v : X → Fin 3 → ℝ) : Dof n → Dof n → ℝ :=
  matToGlobal T (thermalLocalJac nl bend 1 (pts.map fun p => ({ p.q with JxW := p.q.JxW * normalVel (v p.q.x) p.nrm }, p.th)))

end Verif.Shell
