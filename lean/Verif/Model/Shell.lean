import Verif.Model.StructLoads
import Mathlib.Data.Matrix.Mul
import Mathlib.Algebra.BigOperators.Fin
/-
  Shell / plate / membrane element: src/elasticity/structural_element_2d.cpp, mindlin_bending_operator.cpp.
  Reals stand for double; section stiffness matrices A, B, D are given per quadrature point (the values or the parameter derivatives of the section functions).  Operators (`FEMOperatorMatrix`) are dense
  functions of (row, degree of freedom); the storage of the operator is the subject of C01-C04.
-/
namespace Verif.Shell
open Verif.GeomElem Verif.StructLoads

/-- Quadrature point of a surface element: `JxW`, `phi`, `dphi` in the local x and y directions, and the bending operator of that point (`Bmat_bend`; Mindlin below, any other operator has this form). -/
structure Sqp (n : Nat) (X : Type) where
  x : X
  JxW : ℝ
  phi : Fin n → ℝ
  dx : Fin n → ℝ
  dy : Fin n → ℝ
  bend : Fin 3 → Dof n → ℝ

variable {n : Nat} {X : Type}

/-- `set_shape_function(r, v, phi)`: one block of an operator row. -/
def shape (v : Var6) (phi : Fin n → ℝ) (a : Dof n) : ℝ := if (a.1, a.2.1) = v then phi a.2.2 else 0

abbrev U : Var6 := (false, 0)
abbrev V : Var6 := (false, 1)
abbrev W : Var6 := (false, 2)
abbrev TX : Var6 := (true, 0)
abbrev TY : Var6 := (true, 1)

/-- `Bmat_lin` (structural_element_2d.cpp:185-186, 203-204). -/
def Blin (q : Sqp n X) : Fin 3 → Dof n → ℝ := ![shape U q.dx, shape V q.dy, fun a => shape V q.dx a + shape U q.dy a]
/-- `Bmat_nl_x` (structural_element_2d.cpp:191-192). -/
def Bx (q : Sqp n X) : Fin 2 → Dof n → ℝ := ![shape U q.dx, shape V q.dx]
/-- `Bmat_nl_y` (structural_element_2d.cpp:209-210). -/
def By (q : Sqp n X) : Fin 2 → Dof n → ℝ := ![shape U q.dy, shape V q.dy]
/-- `Bmat_nl_u` (structural_element_2d.cpp:195, 213). -/
def Bu (q : Sqp n X) : Fin 2 → Dof n → ℝ := ![shape U q.dx, shape U q.dy]
/-- `Bmat_nl_v` (structural_element_2d.cpp:196, 214). -/
def Bv (q : Sqp n X) : Fin 2 → Dof n → ℝ := ![shape V q.dx, shape V q.dy]
/-- `Bmat_vk` (structural_element_2d.cpp:84, 95). -/
def Bvk (q : Sqp n X) : Fin 2 → Dof n → ℝ := ![shape W q.dx, shape W q.dy]

/-- `B.vector_mult(r, u)`. -/
def app {m : Nat} (B : Fin m → Dof n → ℝ) (u : Dof n → ℝ) (r : Fin m) : ℝ := ∑ a, B r a * u a
/-- `B.vector_mult_transpose(r, s)`. -/
def appT {m : Nat} (B : Fin m → Dof n → ℝ) (s : Fin m → ℝ) (a : Dof n) : ℝ := ∑ r, B r a * s r
/-- `M * s` for Eigen matrices. -/
def mv {m k : Nat} (M : Fin m → Fin k → ℝ) (s : Fin k → ℝ) (r : Fin m) : ℝ := ∑ j, M r j * s j
/-- `M.transpose() * s`. -/
def mvT {m k : Nat} (M : Fin m → Fin k → ℝ) (s : Fin m → ℝ) (j : Fin k) : ℝ := ∑ r, M r j * s r
/-- `M * N` and `M.transpose()`. -/
def mm {m k l : Nat} (M : Fin m → Fin k → ℝ) (N : Fin k → Fin l → ℝ) (r : Fin m) (j : Fin l) : ℝ := ∑ s, M r s * N s j
def tr {m k : Nat} (M : Fin m → Fin k → ℝ) (j : Fin k) (r : Fin m) : ℝ := M r j
/-- `B2.left_multiply(m, C); B1.right_multiply_transpose(r, m)`: `B1^T C B2`. -/
def sandwich {m k : Nat} (B1 : Fin m → Dof n → ℝ) (C : Fin m → Fin k → ℝ) (B2 : Fin k → Dof n → ℝ) (a b : Dof n) : ℝ := ∑ r, ∑ s, B1 r a * C r s * B2 s b

/-- `ddisp_dx`, `ddisp_dy` (structural_element_2d.cpp:221-222). -/
def ddx (q : Sqp n X) (u : Dof n → ℝ) : Fin 2 → ℝ := app (Bx q) u
def ddy (q : Sqp n X) (u : Dof n → ℝ) : Fin 2 → ℝ := app (By q) u

/-- `F` (structural_element_2d.cpp:228-229): displacement gradient, columns. -/
def gradF (q : Sqp n X) (u : Dof n → ℝ) (i j : Fin 2) : ℝ := if j = 0 then ddx q u i else ddy q u i
/-- `E` (structural_element_2d.cpp:232). -/
noncomputable def gradE (q : Sqp n X) (u : Dof n → ℝ) (i j : Fin 2) : ℝ := 1 / 2 * (gradF q u i j + gradF q u j i + ∑ k, gradF q u k i * gradF q u k j)

/-- `epsilon` of `initialize_green_lagrange_strain_operator` (structural_element_2d.cpp:188-248). -/
noncomputable def strainMem (nl : Bool) (q : Sqp n X) (u : Dof n → ℝ) : Fin 3 → ℝ :=
  if nl then ![gradE q u 0 0, gradE q u 1 1, gradE q u 0 1 + gradE q u 1 0] else app (Blin q) u

/-- `mat_x` (structural_element_2d.cpp:241-242). -/
def matX (q : Sqp n X) (u : Dof n → ℝ) : Fin 3 → Fin 2 → ℝ := ![ddx q u, fun _ => 0, ddy q u]
/-- `mat_y` (structural_element_2d.cpp:244-245). -/
def matY (q : Sqp n X) (u : Dof n → ℝ) : Fin 3 → Fin 2 → ℝ := ![fun _ => 0, ddy q u, ddx q u]

/-- `dw/dx`, `dw/dy` (structural_element_2d.cpp:80-83, 91-94). -/
def dwx (q : Sqp n X) (u : Dof n → ℝ) : ℝ := ∑ i, q.dx i * u (false, 2, i)
def dwy (q : Sqp n X) (u : Dof n → ℝ) : ℝ := ∑ i, q.dy i * u (false, 2, i)

/-- `vk_dwdxi_mat` (structural_element_2d.cpp:85-86, 96-97). -/
def vkMat (q : Sqp n X) (u : Dof n → ℝ) : Fin 3 → Fin 2 → ℝ := ![![dwx q u, 0], ![0, dwy q u], ![dwy q u, dwx q u]]
/-- `vk_strain` (structural_element_2d.cpp:87-88, 98-99). -/
noncomputable def vkStrain (q : Sqp n X) (u : Dof n → ℝ) : Fin 3 → ℝ := ![1 / 2 * dwx q u * dwx q u, 1 / 2 * dwy q u * dwy q u, dwx q u * dwy q u]

/-- Section stiffness at a point: `material_A_mat`, `material_B_mat`, `material_D_mat`. -/
structure Stiff where
  A : Fin 3 → Fin 3 → ℝ
  B : Fin 3 → Fin 3 → ℝ
  D : Fin 3 → Fin 3 → ℝ

/-- `vec2_n1` before it is used (structural_element_2d.cpp:1816, 1823, 1833): membrane stress resultant. -/
noncomputable def memStress (nl bend : Bool) (S : Stiff) (q : Sqp n X) (u : Dof n → ℝ) (r : Fin 3) : ℝ :=
  mv S.A (strainMem nl q u) r + (if bend then mv S.B (app q.bend u) r + (if nl then mv S.A (vkStrain q u) r else 0) else 0)

/-- `strain_mem` after the von Karman strain is added (structural_element_2d.cpp:1832). -/
noncomputable def strainTot (nl bend : Bool) (q : Sqp n X) (u : Dof n → ℝ) (r : Fin 3) : ℝ := strainMem nl q u r + if bend && nl then vkStrain q u r else 0

/-- `stress` (structural_element_2d.cpp:1839-1842). -/
def stressMat (s : Fin 3 → ℝ) : Fin 2 → Fin 2 → ℝ := ![![s 0, s 2], ![s 2, s 1]]

/-- `_internal_residual_operation`, vector part (structural_element_2d.cpp:1804-1883): one quadrature point. -/
noncomputable def opRes (nl bend : Bool) (S : Stiff) (q : Sqp n X) (u : Dof n → ℝ) (a : Dof n) : ℝ :=
  q.JxW * appT (Blin q) (memStress nl bend S q u) a
  + (if nl then q.JxW * appT (Bx q) (mvT (matX q u) (memStress nl bend S q u)) a + q.JxW * appT (By q) (mvT (matY q u) (memStress nl bend S q u)) a else 0)
  + (if bend then (if nl then q.JxW * appT (Bvk q) (mvT (vkMat q u) (memStress nl bend S q u)) a else 0)
      + q.JxW * appT q.bend (mvT S.B (strainTot nl bend q u)) a + q.JxW * appT q.bend (mv S.D (app q.bend u)) a else 0)

/-- Terms 1891-1959 of the Jacobian. -/
noncomputable def jacNl (bend : Bool) (S : Stiff) (q : Sqp n X) (u : Dof n → ℝ) (a b : Dof n) : ℝ :=
  q.JxW * sandwich (Blin q) (mm S.A (matX q u)) (Bx q) a b + q.JxW * sandwich (Blin q) (mm S.A (matY q u)) (By q) a b
  + q.JxW * sandwich (Bx q) (mm (tr (matX q u)) S.A) (Blin q) a b + q.JxW * sandwich (Bx q) (mm (tr (matX q u)) (mm S.A (matX q u))) (Bx q) a b
  + q.JxW * sandwich (Bx q) (mm (tr (matX q u)) (mm S.A (matY q u))) (By q) a b
  + q.JxW * sandwich (By q) (mm (tr (matY q u)) S.A) (Blin q) a b + q.JxW * sandwich (By q) (mm (tr (matY q u)) (mm S.A (matX q u))) (Bx q) a b
  + q.JxW * sandwich (By q) (mm (tr (matY q u)) (mm S.A (matY q u))) (By q) a b
  + q.JxW * sandwich (Bu q) (stressMat (memStress true bend S q u)) (Bu q) a b + q.JxW * sandwich (Bv q) (stressMat (memStress true bend S q u)) (Bv q) a b

/-- Terms 1962-2000 of the Jacobian.  The comment of the code says `stress` there too; it holds the membrane resultant of lines 1839-1842 although `vec2_n1` has been overwritten (1879). -/
noncomputable def jacVk (S : Stiff) (q : Sqp n X) (u : Dof n → ℝ) (a b : Dof n) : ℝ :=
  q.JxW * sandwich (Blin q) (mm S.A (vkMat q u)) (Bvk q) a b + q.JxW * sandwich (Bvk q) (mm (tr (vkMat q u)) S.A) (Blin q) a b
  + q.JxW * sandwich (Bvk q) (stressMat (memStress true true S q u)) (Bvk q) a b + q.JxW * sandwich (Bvk q) (mm (mm (tr (vkMat q u)) S.A) (vkMat q u)) (Bvk q) a b
  + q.JxW * sandwich q.bend (mm (tr S.B) (vkMat q u)) (Bvk q) a b + q.JxW * sandwich (Bvk q) (mm (tr (vkMat q u)) S.B) q.bend a b

/-- `_internal_residual_operation`, Jacobian (structural_element_2d.cpp:1885-2018). -/
noncomputable def opJac (nl bend : Bool) (S : Stiff) (q : Sqp n X) (u : Dof n → ℝ) (a b : Dof n) : ℝ :=
  q.JxW * sandwich (Blin q) S.A (Blin q) a b + (if nl then jacNl bend S q u a b else 0)
  + (if bend then (if nl then jacVk S q u a b else 0) + q.JxW * sandwich q.bend (tr S.B) (Blin q) a b + q.JxW * sandwich (Blin q) S.B q.bend a b + q.JxW * sandwich q.bend S.D q.bend a b else 0)

/-! ### Transverse shear -/

/-- Point of the reduced quadrature for the transverse shear: `dphi` and `phi` (mindlin_bending_operator.cpp:105-112). -/
structure ShearQp (n : Nat) (X : Type) where
  x : X
  JxW : ℝ
  phi : Fin n → ℝ
  dx : Fin n → ℝ
  dy : Fin n → ℝ

/-- Mindlin `Bmat_bend` for the offset `z` (mindlin_bending_operator.cpp:60-87; `z = 1` in the residual). -/
def mindlin (z : ℝ) (dx dy : Fin n → ℝ) : Fin 3 → Dof n → ℝ :=
  ![shape TY fun i => dx i * z, shape TX fun i => dy i * z * (-1), fun a => shape TX (fun i => dx i * z * (-1)) a + shape TY (fun i => dy i * z) a]

/-- `Bmat_trans` (mindlin_bending_operator.cpp:330-345). -/
def shearOp (q : ShearQp n X) : Fin 2 → Dof n → ℝ :=
  ![fun a => shape W q.dx a + shape TY q.phi a, fun a => shape W q.dy a + shape TX (fun i => -q.phi i) a]

/-- `_transverse_shear_operations` (mindlin_bending_operator.cpp:349-352): vector. -/
def shearRes (G : Fin 2 → Fin 2 → ℝ) (q : ShearQp n X) (u : Dof n → ℝ) (a : Dof n) : ℝ := q.JxW * appT (shearOp q) (mv G (app (shearOp q) u)) a
/-- Jacobian. -/
def shearJac (G : Fin 2 → Fin 2 → ℝ) (q : ShearQp n X) (a b : Dof n) : ℝ := q.JxW * sandwich (shearOp q) G (shearOp q) a b

/-! ### Assembled element -/

/-- An element: quadrature points with section stiffness, and the points of the transverse shear (empty without it). -/
structure Elem (n : Nat) (X : Type) where
  pts : List (Sqp n X × Stiff)
  shear : List (ShearQp n X × (Fin 2 → Fin 2 → ℝ))

/-- `local_f` of `internal_residual` (structural_element_2d.cpp:1152-1208). -/
noncomputable def localRes (nl bend : Bool) (e : Elem n X) (u : Dof n → ℝ) (a : Dof n) : ℝ :=
  (e.pts.map fun p => opRes nl bend p.2 p.1 u a).sum + (if bend then (e.shear.map fun p => shearRes p.2 p.1 u a).sum else 0)

/-- `local_jac` before the drilling entries (structural_element_2d.cpp:1152-1208). -/
noncomputable def localJac (nl bend : Bool) (e : Elem n X) (u : Dof n → ℝ) (a b : Dof n) : ℝ :=
  (e.pts.map fun p => opJac nl bend p.2 p.1 u a b).sum + (if bend then (e.shear.map fun p => shearJac p.2 p.1 a b).sum else 0)

/-- `local_jac(5*n_phi+i, 5*n_phi+i) = 1.0e-8` (structural_element_2d.cpp:1217-1221). -/
noncomputable def drilling (J : Dof n → Dof n → ℝ) (a b : Dof n) : ℝ := if a = b ∧ a.1 = true ∧ a.2.1 = 2 then 1 / 100000000 else J a b

/-- `internal_residual` (structural_element_2d.cpp:1076-1227). -/
noncomputable def internalRes (T : Option (Fin 3 → Fin 3 → ℝ)) (nl bend : Bool) (e : Elem n X) (u : Dof n → ℝ) : Dof n → ℝ := globalRes T (localRes nl bend e) u
/-- Its Jacobian. -/
noncomputable def internalJac (T : Option (Fin 3 → Fin 3 → ℝ)) (nl bend : Bool) (e : Elem n X) (u : Dof n → ℝ) : Dof n → Dof n → ℝ := matToGlobal T (drilling (localJac nl bend e (vecToLocal T u)))

/-- An element whose stiffness matrices are replaced by their parameter derivatives: what `internal_residual_sensitivity` evaluates (structural_element_2d.cpp:1326-1384). -/
def Elem.deriv (e : Elem n X) (dS : Sqp n X → Stiff) (dG : ShearQp n X → Fin 2 → Fin 2 → ℝ) : Elem n X := ⟨e.pts.map fun p => (p.1, dS p.1), e.shear.map fun p => (p.1, dG p.1)⟩

/-- `internal_residual_sensitivity` (structural_element_2d.cpp:1234-1397). -/
noncomputable def internalSens (T : Option (Fin 3 → Fin 3 → ℝ)) (nl bend : Bool) (e : Elem n X) (dS : Sqp n X → Stiff) (dG : ShearQp n X → Fin 2 → Fin 2 → ℝ) (u : Dof n → ℝ) : Dof n → ℝ :=
  internalRes T nl bend (e.deriv dS dG) u

/-! ### Thermal and prestress loads -/

/-- `thermal_residual` at a point, without the final minus sign (structural_element_2d.cpp:3102-3166); `ta = material_exp_A_mat * delta_t`, `tb = material_exp_B_mat * delta_t`. -/
def thermalOp (nl bend : Bool) (ta tb : Fin 3 → ℝ) (q : Sqp n X) (u : Dof n → ℝ) (a : Dof n) : ℝ :=
  q.JxW * appT (Blin q) ta a + (if nl then q.JxW * appT (Bx q) (mvT (matX q u) ta) a + q.JxW * appT (By q) (mvT (matY q u) ta) a else 0)
  + (if bend then q.JxW * appT q.bend tb a + (if nl then q.JxW * appT (Bvk q) (mvT (vkMat q u) ta) a else 0) else 0)

/-- Its Jacobian (structural_element_2d.cpp:3168-3188); `Bmat_vk` stays empty without bending. -/
def thermalOpJac (nl bend : Bool) (ta : Fin 3 → ℝ) (q : Sqp n X) (a b : Dof n) : ℝ :=
  if nl then q.JxW * sandwich (Bu q) (stressMat ta) (Bu q) a b + q.JxW * sandwich (Bv q) (stressMat ta) (Bv q) a b + (if bend then q.JxW * sandwich (Bvk q) (stressMat ta) (Bvk q) a b else 0) else 0

/-- Thermal load data at a point: expansion matrices and temperatures. -/
structure Thermal where
  expA : Fin 3 → ℝ
  expB : Fin 3 → ℝ
  temp : ℝ
  ref : ℝ

/-- `thermal_residual` (structural_element_2d.cpp:3012-3200), local frame. -/
def thermalLocal (nl bend : Bool) (pts : List (Sqp n X × Thermal)) (u : Dof n → ℝ) (a : Dof n) : ℝ :=
  -(pts.map fun p => thermalOp nl bend (fun r => p.2.expA r * (p.2.temp - p.2.ref)) (fun r => p.2.expB r * (p.2.temp - p.2.ref)) p.1 u a).sum

/-- `jac -= scaling * ...` (structural_element_2d.cpp:3194-3197). -/
def thermalLocalJac (nl bend : Bool) (scaling : ℝ) (pts : List (Sqp n X × Thermal)) (a b : Dof n) : ℝ :=
  -(scaling * (pts.map fun p => thermalOpJac nl bend (fun r => p.2.expA r * (p.2.temp - p.2.ref)) p.1 a b).sum)

/-- `prestress_residual` at a point (structural_element_2d.cpp:2127-2176): `pa`, `pb` prestress resultants; there is no Green-Lagrange in-plane term. -/
def prestressOp (nl bend : Bool) (pa pb : Fin 3 → ℝ) (q : Sqp n X) (u : Dof n → ℝ) (a : Dof n) : ℝ :=
  q.JxW * appT (Blin q) pa a + (if bend then (if nl then q.JxW * appT (Bvk q) (mvT (vkMat q u) pa) a else 0) + q.JxW * appT q.bend pb a else 0)

/-- Its Jacobian (structural_element_2d.cpp:2178-2185). -/
def prestressOpJac (nl bend : Bool) (pm : Fin 2 → Fin 2 → ℝ) (q : Sqp n X) (a b : Dof n) : ℝ := if bend && nl then q.JxW * sandwich (Bvk q) pm (Bvk q) a b else 0

/-- `_convert_prestress_A_mat_to_vector`, `_convert_prestress_B_mat_to_vector` (structural_element_2d.cpp:2024-2048). -/
def prestressVec (m : Fin 2 → Fin 2 → ℝ) : Fin 3 → ℝ := ![m 0 0, m 1 1, m 0 1]

/-- `prestress_residual` (structural_element_2d.cpp:2059-2198); each point has the matrices `prestress_mat_A`, `prestress_mat_B`.  The `if_prestressed()` test and the cards that compute the matrices are not
modelled here. -/
def prestressRes (T : Option (Fin 3 → Fin 3 → ℝ)) (nl bend : Bool) (pts : List (Sqp n X × (Fin 2 → Fin 2 → ℝ) × (Fin 2 → Fin 2 → ℝ))) (u : Dof n → ℝ) : Dof n → ℝ :=
  globalRes T (fun v a => (pts.map fun p => prestressOp nl bend (prestressVec p.2.1) (prestressVec p.2.2) p.1 v a).sum) u
/-- Its Jacobian (structural_element_2d.cpp:2178-2194). -/
def prestressJac (T : Option (Fin 3 → Fin 3 → ℝ)) (nl bend : Bool) (pts : List (Sqp n X × (Fin 2 → Fin 2 → ℝ) × (Fin 2 → Fin 2 → ℝ))) : Dof n → Dof n → ℝ :=
  matToGlobal T fun a b => (pts.map fun p => prestressOpJac nl bend p.2.1 p.1 a b).sum
/-- `prestress_residual_sensitivity` (structural_element_2d.cpp:2205-2350): the same with the parameter derivatives of the matrices. -/
def prestressSens (T : Option (Fin 3 → Fin 3 → ℝ)) (nl bend : Bool) (pts : List (Sqp n X × (Fin 2 → Fin 2 → ℝ) × (Fin 2 → Fin 2 → ℝ))) (u : Dof n → ℝ) : Dof n → ℝ := prestressRes T nl bend pts u

/-- `thermal_residual` in the global frame (structural_element_2d.cpp:3190-3200). -/
def thermalRes (T : Option (Fin 3 → Fin 3 → ℝ)) (nl bend : Bool) (pts : List (Sqp n X × Thermal)) (u : Dof n → ℝ) : Dof n → ℝ := globalRes T (thermalLocal nl bend pts) u
def thermalJac (T : Option (Fin 3 → Fin 3 → ℝ)) (nl bend : Bool) (scaling : ℝ) (pts : List (Sqp n X × Thermal)) : Dof n → Dof n → ℝ := matToGlobal T (thermalLocalJac nl bend scaling pts)

/-- `thermal_residual_sensitivity`, vector (structural_element_2d.cpp:3208-3414); per point the values and the parameter derivatives of the expansion matrices and temperatures. -/
def thermalSens (T : Option (Fin 3 → Fin 3 → ℝ)) (nl bend : Bool) (pts : List (Sqp n X × Thermal × Thermal)) (u : Dof n → ℝ) : Dof n → ℝ :=
  globalRes T (fun v a => -(pts.map fun p => thermalOp nl bend
    (fun r => p.2.1.expA r * (p.2.2.temp - p.2.2.ref) + p.2.2.expA r * (p.2.1.temp - p.2.1.ref))
    (fun r => p.2.1.expB r * (p.2.2.temp - p.2.2.ref) + p.2.2.expB r * (p.2.1.temp - p.2.1.ref)) p.1 v a).sum) u

end Verif.Shell
