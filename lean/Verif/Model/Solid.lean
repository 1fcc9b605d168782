import Verif.Model.Shell
/-
  Solid element: src/elasticity/solid_element_3d.cpp (no local frame; the first loop of `internal_residual`, lines 203-265, is commented out in the code, so the incompatible modes enter only
  as `Gmat * alpha` with `Gmat = 0`, `alpha = 0`; that zero term is left out).  Reals stand for double.
-/
namespace Verif.Solid
open Verif.GeomElem Verif.StructLoads Verif.Shell

/-- Quadrature point: `JxW` and `dphi[i][qp](k)`. -/
structure Vqp (n : Nat) (X : Type) where
  x : X
  JxW : ℝ
  d : Fin 3 → Fin n → ℝ

variable {n : Nat} {X : Type}

/-- `Bmat_lin` (solid_element_3d.cpp:1359-1361, 1380-1382, 1400-1402). -/
def Blin (q : Vqp n X) : Fin 6 → Dof n → ℝ :=
  ![shape U (q.d 0), shape V (q.d 1), shape W (q.d 2), fun a => shape V (q.d 0) a + shape U (q.d 1) a, fun a => shape W (q.d 1) a + shape V (q.d 2) a, fun a => shape W (q.d 0) a + shape U (q.d 2) a]

/-- `Bmat_nl_x`, `Bmat_nl_y`, `Bmat_nl_z` (solid_element_3d.cpp:1366-1368, 1387-1389, 1407-1409). -/
def Bdir (q : Vqp n X) (k : Fin 3) : Fin 3 → Dof n → ℝ := ![shape U (q.d k), shape V (q.d k), shape W (q.d k)]
/-- `Bmat_nl_u`, `Bmat_nl_v`, `Bmat_nl_w` (solid_element_3d.cpp:1371-1373, 1392-1394, 1412-1414). -/
def Bvar (q : Vqp n X) (c : Fin 3) : Fin 3 → Dof n → ℝ := ![shape (false, c) (q.d 0), shape (false, c) (q.d 1), shape (false, c) (q.d 2)]

/-- `ddisp_dx`, `ddisp_dy`, `ddisp_dz` (solid_element_3d.cpp:1423-1425). -/
def ddisp (q : Vqp n X) (u : Dof n → ℝ) (k : Fin 3) : Fin 3 → ℝ := app (Bdir q k) u

/-- `F` (solid_element_3d.cpp:1431-1433). -/
def gradF (q : Vqp n X) (u : Dof n → ℝ) (i j : Fin 3) : ℝ := ddisp q u j i
/-- `E` (solid_element_3d.cpp:1436). -/
noncomputable def gradE (q : Vqp n X) (u : Dof n → ℝ) (i j : Fin 3) : ℝ := 1 / 2 * (gradF q u i j + gradF q u j i + ∑ k, gradF q u k i * gradF q u k j)

/-- `epsilon` (solid_element_3d.cpp:1439-1444, 1462). -/
noncomputable def strain (nl : Bool) (q : Vqp n X) (u : Dof n → ℝ) : Fin 6 → ℝ :=
  if nl then ![gradE q u 0 0, gradE q u 1 1, gradE q u 2 2, gradE q u 0 1 + gradE q u 1 0, gradE q u 1 2 + gradE q u 2 1, gradE q u 0 2 + gradE q u 2 0] else app (Blin q) u

/-- `mat_x`, `mat_y`, `mat_z` (solid_element_3d.cpp:1448-1459; zero otherwise, 1326-1328). -/
def mat (q : Vqp n X) (u : Dof n → ℝ) : Fin 3 → Fin 6 → Fin 3 → ℝ :=
  ![![ddisp q u 0, 0, 0, ddisp q u 1, 0, ddisp q u 2], ![0, ddisp q u 1, 0, ddisp q u 0, ddisp q u 2, 0], ![0, 0, ddisp q u 2, 0, ddisp q u 1, ddisp q u 0]]

/-- `stress` (solid_element_3d.cpp:289, 1235); `C` is `material_mat`. -/
noncomputable def stress (nl : Bool) (C : Fin 6 → Fin 6 → ℝ) (q : Vqp n X) (u : Dof n → ℝ) : Fin 6 → ℝ := mv C (strain nl q u)

/-- `B^T` of the strain variation applied to a stress vector (solid_element_3d.cpp:296-316; also 664-684, 1036-1055). -/
noncomputable def strainT (nl : Bool) (q : Vqp n X) (u : Dof n → ℝ) (s : Fin 6 → ℝ) (a : Dof n) : ℝ :=
  q.JxW * appT (Blin q) s a + if nl then ∑ k, q.JxW * appT (Bdir q k) (mvT (mat q u k) s) a else 0

/-- One quadrature point of `internal_residual`, vector (solid_element_3d.cpp:272-316). -/
noncomputable def opRes (nl : Bool) (C : Fin 6 → Fin 6 → ℝ) (q : Vqp n X) (u : Dof n → ℝ) (a : Dof n) : ℝ := strainT nl q u (stress nl C q u) a

/-- `mat4_33` (solid_element_3d.cpp:388-393, 1062-1067). -/
def stressMat (s : Fin 6 → ℝ) : Fin 3 → Fin 3 → ℝ := ![![s 0, s 3, s 5], ![s 3, s 1, s 4], ![s 5, s 4, s 2]]

/-- Geometric stiffness (solid_element_3d.cpp:395-408, 1069-1082). -/
def geom (s : Fin 6 → ℝ) (q : Vqp n X) (a b : Dof n) : ℝ := ∑ c, q.JxW * sandwich (Bvar q c) (stressMat s) (Bvar q c) a b

/-- One quadrature point of `internal_residual`, Jacobian (solid_element_3d.cpp:318-410). -/
noncomputable def opJac (nl : Bool) (C : Fin 6 → Fin 6 → ℝ) (q : Vqp n X) (u : Dof n → ℝ) (a b : Dof n) : ℝ :=
  q.JxW * sandwich (Blin q) C (Blin q) a b
  + if nl then (∑ k, q.JxW * sandwich (Bdir q k) (mm (tr (mat q u k)) C) (Blin q) a b)
      + (∑ i, (q.JxW * sandwich (Blin q) (mm C (mat q u i)) (Bdir q i) a b + ∑ k, q.JxW * sandwich (Bdir q k) (mm (tr (mat q u k)) (mm C (mat q u i))) (Bdir q i) a b))
      + geom (stress nl C q u) q a b
    else 0

/-- An element: quadrature points with `material_mat`. -/
abbrev Elem (n : Nat) (X : Type) := List (Vqp n X × (Fin 6 → Fin 6 → ℝ))

/-- `internal_residual`, what is added to `f` (solid_element_3d.cpp:136-423). -/
noncomputable def internalRes (nl : Bool) (e : Elem n X) (u : Dof n → ℝ) (a : Dof n) : ℝ := (e.map fun p => opRes nl p.2 p.1 u a).sum
/-- What is added to `jac` before the last statement. -/
noncomputable def materialJac (nl : Bool) (e : Elem n X) (u : Dof n → ℝ) (a b : Dof n) : ℝ := (e.map fun p => opJac nl p.2 p.1 u a b).sum

/-- `jac.diagonal().maxCoeff()` (solid_element_3d.cpp:417). -/
noncomputable def diagMax (J : Dof n → Dof n → ℝ) : ℝ := ((Finset.univ.image fun a => J a a).max).unbotD 0

/-- `jac.bottomRightCorner(n2, n2) += Identity * 1.0e-20 * maxCoeff` (solid_element_3d.cpp:415-417): the rotational block of the six-variable system. -/
noncomputable def regularize (J : Dof n → Dof n → ℝ) (a b : Dof n) : ℝ := if a = b ∧ a.1 = true then J a b + 1 / 10 ^ 20 * diagMax J else J a b

/-- `jac` after `internal_residual`, from `J0`. -/
noncomputable def internalJac (nl : Bool) (e : Elem n X) (u : Dof n → ℝ) (J0 : Dof n → Dof n → ℝ) : Dof n → Dof n → ℝ := regularize fun a b => J0 a b + materialJac nl e u a b

/-- `internal_residual_sensitivity` (solid_element_3d.cpp:567-788): `dC` is `mat_stiff->derivative(p, ...)`. -/
noncomputable def internalSens (nl : Bool) (e : Elem n X) (dC : Vqp n X → Fin 6 → Fin 6 → ℝ) (u : Dof n → ℝ) (a : Dof n) : ℝ := (e.map fun p => opRes nl (dC p.1) p.1 u a).sum
/-- Its Jacobian before the last statement. -/
noncomputable def sensJac (nl : Bool) (e : Elem n X) (dC : Vqp n X → Fin 6 → Fin 6 → ℝ) (u : Dof n → ℝ) (a b : Dof n) : ℝ := (e.map fun p => opJac nl (dC p.1) p.1 u a b).sum

/-- What `calculate_stress` stores for each quadrature point: stress, strain and `JxW` (solid_element_3d.cpp:1214-1262, no derivative and no parameter). -/
noncomputable def recovered (nl : Bool) (e : Elem n X) (u : Dof n → ℝ) : List (Vqp n X × (Fin 6 → ℝ) × (Fin 6 → ℝ) × ℝ) :=
  e.map fun p => (p.1, stress nl p.2 p.1 u, strain nl p.1 u, p.1.JxW)

/-- Outcome of a routine: the addition to `f` and `jac`, or `libmesh_error()`. -/
inductive Result (n : Nat) where
  | add (f : Dof n → ℝ) (j : Dof n → Dof n → ℝ)
  | error

/-- Thermal data at a point: `material_exp_A_mat`, temperature and reference temperature. -/
structure Thermal where
  exp : Fin 6 → ℝ
  temp : ℝ
  ref : ℝ

/-- `vec1_n1` (solid_element_3d.cpp:1018-1020). -/
def Thermal.load (h : Thermal) (r : Fin 6) : ℝ := h.exp r * (h.temp - h.ref)

/-- `thermal_residual` (solid_element_3d.cpp:951-1089). -/
noncomputable def thermalRes (nl : Bool) (e : List (Vqp n X × Thermal)) (u : Dof n → ℝ) (a : Dof n) : ℝ := -(e.map fun p => strainT nl p.1 u p.2.load a).sum
noncomputable def thermalJac (nl : Bool) (e : List (Vqp n X × Thermal)) (a b : Dof n) : ℝ := if nl then -(e.map fun p => geom p.2.load p.1 a b).sum else 0
/-- `thermal_residual_sensitivity` (solid_element_3d.cpp:1094-1104). -/
def thermalSens : Result n := .error
/-- `prestress_residual` and its sensitivity (solid_element_3d.cpp:793-810). -/
def prestress : Result n := .add (fun _ => 0) fun _ _ => 0
/-- `piston_theory_residual` and its sensitivity (solid_element_3d.cpp:1110-1140). -/
def piston : Result n := .error

/-! ### Incompatible mode mapping -/

/-- `T0` (solid_element_3d.cpp:1675-1715); `J a i` is `jac(a, i)`, the derivative of coordinate `i` along reference direction `a`. -/
def T0 (J : Fin 3 → Fin 3 → ℝ) : Fin 6 → Fin 6 → ℝ :=
  ![![J 0 0 * J 0 0, J 1 0 * J 1 0, J 2 0 * J 2 0, 2 * J 0 0 * J 1 0, 2 * J 1 0 * J 2 0, 2 * J 2 0 * J 0 0],
    ![J 0 1 * J 0 1, J 1 1 * J 1 1, J 2 1 * J 2 1, 2 * J 0 1 * J 1 1, 2 * J 1 1 * J 2 1, 2 * J 2 1 * J 0 1],
    ![J 0 2 * J 0 2, J 1 2 * J 1 2, J 2 2 * J 2 2, 2 * J 0 2 * J 1 2, 2 * J 1 2 * J 2 2, 2 * J 2 2 * J 0 2],
    ![J 0 0 * J 0 1, J 1 0 * J 1 1, J 2 0 * J 2 1, J 0 0 * J 1 1 + J 1 0 * J 0 1, J 1 0 * J 2 1 + J 2 0 * J 1 1, J 2 1 * J 0 0 + J 2 0 * J 0 1],
    ![J 0 1 * J 0 2, J 1 1 * J 1 2, J 2 1 * J 2 2, J 0 1 * J 1 2 + J 1 1 * J 0 2, J 1 1 * J 2 2 + J 2 1 * J 1 2, J 2 2 * J 0 1 + J 2 1 * J 0 2],
    ![J 0 0 * J 0 2, J 1 0 * J 1 2, J 2 0 * J 2 2, J 0 0 * J 1 2 + J 1 0 * J 0 2, J 1 0 * J 2 2 + J 2 0 * J 1 2, J 2 2 * J 0 0 + J 2 0 * J 0 2]]

/-- Nonzero columns of `Bmat_inc`: (row, mode, function of the reference coordinates) (solid_element_3d.cpp:1543-1583). -/
def modes (xi eta phi : ℝ) : List (Fin 6 × Fin 30 × ℝ) :=
  [(0, 0, xi), (0, 15, xi * eta), (0, 16, xi * phi), (0, 24, xi * eta * phi), (1, 1, eta), (1, 17, xi * eta), (1, 18, eta * phi), (1, 25, xi * eta * phi),
   (2, 2, phi), (2, 19, xi * phi), (2, 20, eta * phi), (2, 26, xi * eta * phi), (3, 3, xi), (3, 4, eta), (3, 9, xi * phi), (3, 10, eta * phi), (3, 21, xi * eta), (3, 27, xi * eta * phi),
   (4, 5, eta), (4, 6, phi), (4, 11, xi * eta), (4, 12, xi * phi), (4, 22, eta * phi), (4, 28, xi * eta * phi), (5, 7, xi), (5, 8, phi), (5, 13, xi * eta), (5, 14, eta * phi), (5, 23, xi * phi), (5, 29, xi * eta * phi)]

/-- `Bmat` as a matrix. -/
def Bmode (xi eta phi : ℝ) (r : Fin 6) (m : Fin 30) : ℝ := ((modes xi eta phi).filterMap fun e => if e.1 = r ∧ e.2.1 = m then some e.2.2 else none).sum

/-- `G_mat` (solid_element_3d.cpp:1586-1587, 1717): `Ti` is `T0.inverse()` at the centre, `j0` and `j` the determinants at the centre and at the point. -/
noncomputable def Gmat (j0 : ℝ) (Ti : Fin 6 → Fin 6 → ℝ) (j xi eta phi : ℝ) (r : Fin 6) (m : Fin 30) : ℝ := (∑ s, j0 * Ti s r * Bmode xi eta phi s m) / j
end Verif.Solid
