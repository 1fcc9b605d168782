import Verif.Model.Shell
/-
  Traction on a side that approximates an immersed interface (shifted boundary method): src/elasticity/structural_element_2d.cpp 2508-2851, with the stress and stress gradient at the side
  (4177-5080).  Reals stand for double.  The interface search, its normal and their derivatives (`LevelSetBoundaryVelocity`, C75 ff.) are functions here; hmax, computed and not used, is left out.
-/
namespace Verif.ShiftTrac
open Verif.GeomElem Verif.StructLoads Verif.Shell

/-- A quadrature point of the side: `q.x` is `qpoint`, `d2 k i` is `d2phi[.][qp](k, i)`, `face` is `face_normals[qp]`. -/
structure Bqp (n : Nat) where
  q : Sqp n V3
  d2 : Fin 2 → Fin 2 → Fin n → ℝ
  face : V3

/-- What the routine evaluates: nearest interface point of a quadrature point, traction and interface normal at a point, thickness and plane stress stiffness at a quadrature point.  The same record holds the
derivatives for a parameter. -/
structure Data where
  bnd : V3 → V3
  trac : V3 → V3
  normal : V3 → V3
  h : V3 → ℝ
  C : V3 → Fin 3 → Fin 3 → ℝ

variable {n : Nat}

/-- `_surface_normal_voigt_notation` (structural_element_2d.cpp:5052-5080). -/
def voigtN (m : V3) : Fin 2 → Fin 3 → ℝ := ![![m 0, 0, m 1], ![0, m 1, m 0]]

/-- `dBmat_lin[i]` of `initialize_strain_operator_gradient` (structural_element_2d.cpp:277-297). -/
def dB (b : Bqp n) (i : Fin 2) : Fin 3 → Dof n → ℝ := ![shape U (b.d2 0 i), shape V (b.d2 1 i), fun a => shape V (b.d2 0 i) a + shape U (b.d2 1 i) a]

/-- `stress` of `_compute_stress` (structural_element_2d.cpp:4295-4351). -/
noncomputable def stress (nl : Bool) (C : Fin 3 → Fin 3 → ℝ) (b : Bqp n) (u : Dof n → ℝ) : Fin 3 → ℝ := mv C (strainMem nl b.q u)
/-- `dstress_dX` of `_compute_stress` (structural_element_2d.cpp:4354-4382): the operator of the linear strain, with either strain. -/
def dstress (C : Fin 3 → Fin 3 → ℝ) (b : Bqp n) (r : Fin 3) (a : Dof n) : ℝ := ∑ s, C r s * Blin b.q s a

/-- Column `i` of `stress_grad` of `_compute_stress_gradient` (structural_element_2d.cpp:299-300, 4780-4830; with `dC` for `C` it is `_compute_stress_gradient_sensitivity`, 4998-5048). -/
def stressGrad (C : Fin 3 → Fin 3 → ℝ) (b : Bqp n) (u : Dof n → ℝ) (i : Fin 2) : Fin 3 → ℝ := mv C (app (dB b i) u)
/-- `stress_grad_dX[i]` (structural_element_2d.cpp:4833-4865). -/
def dstressGrad (C : Fin 3 → Fin 3 → ℝ) (b : Bqp n) (i : Fin 2) (r : Fin 3) (a : Dof n) : ℝ := ∑ s, C r s * dB b i s a

/-- First two components of a point. -/
def xy (k : Fin 2) : Fin 3 := ![0, 1] k

/-- `bnd_pt(i_dim) - qpoint[qp](i_dim)`. -/
def gap (D : Data) (b : Bqp n) (i : Fin 2) : ℝ := D.bnd b.q.x (xy i) - b.q.x (xy i)
/-- `normal` (structural_element_2d.cpp:2589-2592): at the interface point. -/
def nrm (D : Data) (b : Bqp n) : V3 := D.normal (D.bnd b.q.x)

/-- `force.topRows(2)` (structural_element_2d.cpp:2591-2613, again 2811-2827). -/
noncomputable def force (nl : Bool) (D : Data) (b : Bqp n) (u : Dof n → ℝ) (k : Fin 2) : ℝ :=
  D.trac (D.bnd b.q.x) (xy k) + mv (voigtN fun j => b.face j - nrm D b j) (stress nl (D.C b.q.x) b u) k
  - ∑ i, mv (voigtN (nrm D b)) (stressGrad (D.C b.q.x) b u i) k * gap D b i

/-- `force`, six rows (structural_element_2d.cpp:2550): rows 2 to 5 stay zero. -/
def top (F : Fin 2 → ℝ) (v : Var6) : ℝ := if v.1 then 0 else if v.2 = 0 then F 0 else if v.2 = 1 then F 1 else 0

/-- `local_f` (structural_element_2d.cpp:2575-2625). -/
noncomputable def localRes (nl : Bool) (D : Data) (pts : List (Bqp n)) (u : Dof n → ℝ) (a : Dof n) : ℝ :=
  (pts.map fun b => D.h b.q.x * b.q.JxW * (b.q.phi a.2.2 * top (force nl D b u) (a.1, a.2.1))).sum

/-- What `surface_traction_residual_shifted_boundary` adds to `f` (structural_element_2d.cpp:2647-2648); `u` is the solution in the global frame. -/
noncomputable def residual (nl : Bool) (T : Option (Fin 3 → Fin 3 → ℝ)) (D : Data) (pts : List (Bqp n)) (u : Dof n → ℝ) (a : Dof n) : ℝ := -vecToGlobal T (localRes nl D pts (vecToLocal T u)) a

/-- `mat1_n1n2.topLeftCorner(2, n2)` (structural_element_2d.cpp:2630-2639). -/
noncomputable def forceJac (D : Data) (b : Bqp n) (k : Fin 2) (c : Dof n) : ℝ :=
  ∑ r, voigtN (fun j => b.face j - nrm D b j) k r * dstress (D.C b.q.x) b r c - ∑ i, gap D b i * ∑ r, voigtN (nrm D b) k r * dstressGrad (D.C b.q.x) b i r c

/-- `local_jac` (structural_element_2d.cpp:2641-2642). -/
noncomputable def localJac (D : Data) (pts : List (Bqp n)) (a c : Dof n) : ℝ :=
  (pts.map fun b => D.h b.q.x * b.q.JxW * (b.q.phi a.2.2 * top (fun k => forceJac D b k c) (a.1, a.2.1))).sum

/-- What is added to `jac` (structural_element_2d.cpp:2650-2653). -/
noncomputable def jacobian (T : Option (Fin 3 → Fin 3 → ℝ)) (D : Data) (pts : List (Bqp n)) (a c : Dof n) : ℝ := -matToGlobal T (localJac D pts) a c

/-- First `force.topRows(2)` of the sensitivity (structural_element_2d.cpp:2742-2790): `E` holds `search_nearest_interface_point_derivative`, `trac_func.derivative`, `normal_derivative_at_point`,
`t_func.derivative` and `mat_stiff.derivative`; the traction and normal derivatives are evaluated at the interface point. -/
noncomputable def forceSens (nl : Bool) (D E : Data) (b : Bqp n) (u : Dof n → ℝ) (k : Fin 2) : ℝ :=
  E.trac (D.bnd b.q.x) (xy k) + mv (voigtN fun j => b.face j - nrm D b j) (stress nl (E.C b.q.x) b u) k
  - mv (voigtN (E.normal (D.bnd b.q.x))) (stress nl (D.C b.q.x) b u) k
  - ∑ i, mv (voigtN (E.normal (D.bnd b.q.x))) (stressGrad (D.C b.q.x) b u i) k * gap D b i
  - ∑ i, mv (voigtN (nrm D b)) (stressGrad (D.C b.q.x) b u i) k * E.bnd b.q.x (xy i)
  - ∑ i, mv (voigtN (nrm D b)) (stressGrad (E.C b.q.x) b u i) k * gap D b i

/-- `local_f` of the sensitivity (structural_element_2d.cpp:2793-2831). -/
noncomputable def localSens (nl : Bool) (D E : Data) (pts : List (Bqp n)) (u : Dof n → ℝ) (a : Dof n) : ℝ :=
  (pts.map fun b => D.h b.q.x * b.q.JxW * (b.q.phi a.2.2 * top (forceSens nl D E b u) (a.1, a.2.1))
    + E.h b.q.x * b.q.JxW * (b.q.phi a.2.2 * top (force nl D b u) (a.1, a.2.1))).sum

/-- What `surface_traction_residual_shifted_boundary_sensitivity` adds to `f` (structural_element_2d.cpp:2841-2842). -/
noncomputable def sensitivity (nl : Bool) (T : Option (Fin 3 → Fin 3 → ℝ)) (D E : Data) (pts : List (Bqp n)) (u : Dof n → ℝ) (a : Dof n) : ℝ :=
  -vecToGlobal T (localSens nl D E pts (vecToLocal T u)) a

/-- What it adds to `jac` on request, with assertions off (structural_element_2d.cpp:2834-2847): `local_jac` is never written. -/
def sensJac (T : Option (Fin 3 → Fin 3 → ℝ)) (a c : Dof n) : ℝ := -matToGlobal T (fun _ _ => 0) a c
end Verif.ShiftTrac
