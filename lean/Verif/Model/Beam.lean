import Verif.Model.Shell
/-
  Beam / truss element: src/elasticity/structural_element_1d.cpp, bernoulli_bending_operator.h, timoshenko_bending_operator.cpp.
  Reals stand for double.  Operators have two rows as in the code; row 1 is set only in `Bmat_mem` (torsion).
-/
namespace Verif.Beam
open Verif.GeomElem Verif.StructLoads Verif.Shell

/-- Quadrature point of a line element: `JxW`, `dphi/dx`, and the rows 0 of `Bmat_bend_v`, `Bmat_bend_w` (bending operators below). -/
structure Bqp (n : Nat) (X : Type) where
  x : X
  JxW : ℝ
  dx : Fin n → ℝ
  bv : Dof n → ℝ
  bw : Dof n → ℝ

variable {n : Nat} {X : Type}

abbrev TZ : Var6 := (true, 2)

/-- `Bmat_mem` (structural_element_1d.cpp:72-75). -/
def Bmem (q : Bqp n X) : Fin 2 → Dof n → ℝ := ![shape U q.dx, shape TX q.dx]
/-- `Bmat_v_vk`, `Bmat_w_vk` (structural_element_1d.cpp:117-118). -/
def Bvv (q : Bqp n X) : Fin 2 → Dof n → ℝ := ![shape V q.dx, fun _ => 0]
def Bww (q : Bqp n X) : Fin 2 → Dof n → ℝ := ![shape W q.dx, fun _ => 0]
/-- `Bmat_bend_v`, `Bmat_bend_w`. -/
def Bbv (q : Bqp n X) : Fin 2 → Dof n → ℝ := ![q.bv, fun _ => 0]
def Bbw (q : Bqp n X) : Fin 2 → Dof n → ℝ := ![q.bw, fun _ => 0]

/-- `vk_dvdxi_mat(0,0)`, `vk_dwdxi_mat(0,0)` (structural_element_1d.cpp:111-120). -/
def dvx (q : Bqp n X) (u : Dof n → ℝ) : ℝ := ∑ i, q.dx i * u (false, 1, i)
def dwx (q : Bqp n X) (u : Dof n → ℝ) : ℝ := ∑ i, q.dx i * u (false, 2, i)

/-- `vk_strain` (structural_element_1d.cpp:121). -/
noncomputable def vkStrain (q : Bqp n X) (u : Dof n → ℝ) : Fin 2 → ℝ := ![1 / 2 * (dvx q u * dvx q u + dwx q u * dwx q u), 0]

/-- Section stiffness at a point: `material_A_mat`, `material_B_mat`, `material_D_mat`. -/
structure Sec where
  A : Fin 2 → Fin 2 → ℝ
  B : Fin 2 → Fin 2 → ℝ
  D : Fin 2 → Fin 2 → ℝ

/-- `stress(0,0)` (structural_element_1d.cpp:1078-1121): axial force. -/
noncomputable def axial (nl bend : Bool) (S : Sec) (q : Bqp n X) (u : Dof n → ℝ) : ℝ :=
  mv S.A (app (Bmem q) u) 0 + (if bend then S.B 0 0 * app (Bbv q) u 0 + S.B 0 1 * app (Bbw q) u 0 + (if nl then mv S.A (vkStrain q u) 0 else 0) else 0)

/-- `vec1_n1` (structural_element_1d.cpp:1124-1127). -/
noncomputable def force (nl bend : Bool) (S : Sec) (q : Bqp n X) (u : Dof n → ℝ) : Fin 2 → ℝ := ![axial nl bend S q u, mv S.A (app (Bmem q) u) 1]

/-- `stress(1,1)`: axial strain (structural_element_1d.cpp:1084, 1119). -/
noncomputable def strain (nl : Bool) (q : Bqp n X) (u : Dof n → ℝ) : ℝ := app (Bmem q) u 0 + if nl then vkStrain q u 0 else 0

/-- `vec2_n1` at structural_element_1d.cpp:1146: entry 1 is left over from the last use of the vector. -/
noncomputable def strainVec (nl : Bool) (q : Bqp n X) (u : Dof n → ℝ) : Fin 2 → ℝ := ![strain nl q u, if nl then vkStrain q u 1 else app (Bbw q) u 1]

/-- `_internal_residual_operation`, vector (structural_element_1d.cpp:1131-1176). -/
noncomputable def opRes (nl bend : Bool) (S : Sec) (q : Bqp n X) (u : Dof n → ℝ) (a : Dof n) : ℝ :=
  q.JxW * appT (Bmem q) (force nl bend S q u) a
  + if bend then
      (if nl then q.JxW * dvx q u * appT (Bvv q) (force nl bend S q u) a + q.JxW * dwx q u * appT (Bww q) (force nl bend S q u) a else 0)
      + q.JxW * S.B 0 0 * appT (Bbv q) (strainVec nl q u) a + q.JxW * S.B 0 1 * appT (Bbw q) (strainVec nl q u) a
      + q.JxW * S.D 0 0 * appT (Bbv q) (app (Bbv q) u) a + q.JxW * S.D 1 0 * appT (Bbw q) (app (Bbv q) u) a
      + q.JxW * S.D 1 1 * appT (Bbw q) (app (Bbw q) u) a + q.JxW * S.D 0 1 * appT (Bbv q) (app (Bbw q) u) a
    else 0

/-- `B1.right_multiply_transpose(r, B2)`: `B1^T B2`. -/
def gram (B1 B2 : Fin 2 → Dof n → ℝ) (a b : Dof n) : ℝ := ∑ r, B1 r a * B2 r b

/-- von Karman terms of the Jacobian (structural_element_1d.cpp:1187-1249). -/
noncomputable def jacVk (S : Sec) (q : Bqp n X) (u : Dof n → ℝ) (a b : Dof n) : ℝ :=
  q.JxW * dvx q u * S.A 0 0 * gram (Bmem q) (Bvv q) a b + q.JxW * dwx q u * S.A 0 0 * gram (Bmem q) (Bww q) a b
  + q.JxW * dvx q u * S.A 0 0 * gram (Bvv q) (Bmem q) a b + q.JxW * dwx q u * S.A 0 0 * gram (Bww q) (Bmem q) a b
  + q.JxW * axial true true S q u * gram (Bvv q) (Bvv q) a b + q.JxW * dvx q u * dvx q u * S.A 0 0 * gram (Bvv q) (Bvv q) a b
  + q.JxW * axial true true S q u * gram (Bww q) (Bww q) a b + q.JxW * dwx q u * dwx q u * S.A 0 0 * gram (Bww q) (Bww q) a b
  + q.JxW * dvx q u * dwx q u * S.A 0 0 * gram (Bvv q) (Bww q) a b + q.JxW * dwx q u * dvx q u * S.A 0 0 * gram (Bww q) (Bvv q) a b
  + q.JxW * dvx q u * S.B 0 0 * gram (Bbv q) (Bvv q) a b + q.JxW * dvx q u * S.B 0 1 * gram (Bbw q) (Bvv q) a b
  + q.JxW * dwx q u * S.B 0 0 * gram (Bbv q) (Bww q) a b + q.JxW * dwx q u * S.B 0 1 * gram (Bbw q) (Bww q) a b
  + q.JxW * dvx q u * S.B 0 0 * gram (Bvv q) (Bbv q) a b + q.JxW * dwx q u * S.B 0 0 * gram (Bww q) (Bbv q) a b
  + q.JxW * dvx q u * S.B 0 1 * gram (Bvv q) (Bbw q) a b + q.JxW * dwx q u * S.B 0 1 * gram (Bww q) (Bbw q) a b

/-- `_internal_residual_operation`, Jacobian (structural_element_1d.cpp:1178-1279). -/
noncomputable def opJac (nl bend : Bool) (S : Sec) (q : Bqp n X) (u : Dof n → ℝ) (a b : Dof n) : ℝ :=
  q.JxW * sandwich (Bmem q) S.A (Bmem q) a b
  + if bend then (if nl then jacVk S q u a b else 0)
      + q.JxW * S.B 0 0 * gram (Bbv q) (Bmem q) a b + q.JxW * S.B 0 1 * gram (Bbw q) (Bmem q) a b
      + q.JxW * S.B 0 0 * gram (Bmem q) (Bbv q) a b + q.JxW * S.B 0 1 * gram (Bmem q) (Bbw q) a b
      + q.JxW * S.D 0 0 * gram (Bbv q) (Bbv q) a b + q.JxW * S.D 1 1 * gram (Bbw q) (Bbw q) a b
      + q.JxW * S.D 1 0 * gram (Bbw q) (Bbv q) a b + q.JxW * S.D 0 1 * gram (Bbv q) (Bbw q) a b
    else 0

/-! ### Bending operators -/

/-- Bernoulli `Bmat_v`, `Bmat_w` rows 0 for offsets `y`, `z` on a two-node element of length `L` at the reference coordinate `xi` (bernoulli_bending_operator.h:108-153). -/
noncomputable def bernoulliV (L xi y : ℝ) (a : Dof 2) : ℝ :=
  shape V ![1 / 2 / L * (0 + 12 / L * xi) * -y, 1 / 2 / L * (0 - 12 / L * xi) * -y] a + shape TZ ![1 / 2 / L * (-2 + 6 * xi) * -y, 1 / 2 / L * (2 + 6 * xi) * -y] a
noncomputable def bernoulliW (L xi z : ℝ) (a : Dof 2) : ℝ :=
  shape W ![1 / 2 / L * (0 + 12 / L * xi) * -z, 1 / 2 / L * (0 - 12 / L * xi) * -z] a + shape TY ![1 / 2 / L * (-2 + 6 * xi) * z, 1 / 2 / L * (2 + 6 * xi) * z] a

/-- Timoshenko rows 0 (timoshenko_bending_operator.cpp:60-83). -/
def timoshenkoV (y : ℝ) (dx : Fin n → ℝ) : Dof n → ℝ := shape TZ fun i => dx i * -y
def timoshenkoW (z : ℝ) (dx : Fin n → ℝ) : Dof n → ℝ := shape TY fun i => dx i * z

/-- Transverse shear operators (timoshenko_bending_operator.cpp:243-252): both use row 0. -/
def shearV (phi dx : Fin n → ℝ) : Fin 2 → Dof n → ℝ := ![fun a => shape V dx a + shape TZ (fun i => phi i * -1) a, fun _ => 0]
def shearW (phi dx : Fin n → ℝ) : Fin 2 → Dof n → ℝ := ![fun a => shape W dx a + shape TY phi a, fun _ => 0]

/-- Shear quadrature point. -/
structure Shqp (n : Nat) (X : Type) where
  x : X
  JxW : ℝ
  phi : Fin n → ℝ
  dx : Fin n → ℝ

/-- `_transverse_shear_operations` (timoshenko_bending_operator.cpp:254-276). -/
def shearRes (G : Fin 2 → Fin 2 → ℝ) (q : Shqp n X) (u : Dof n → ℝ) (a : Dof n) : ℝ :=
  q.JxW * appT (shearV q.phi q.dx) (mv G (app (shearV q.phi q.dx) u)) a + q.JxW * appT (shearW q.phi q.dx) (mv G (app (shearW q.phi q.dx) u)) a
def shearJac (G : Fin 2 → Fin 2 → ℝ) (q : Shqp n X) (a b : Dof n) : ℝ :=
  q.JxW * sandwich (shearV q.phi q.dx) G (shearV q.phi q.dx) a b + q.JxW * sandwich (shearW q.phi q.dx) G (shearW q.phi q.dx) a b

/-! ### Assembled element -/

/-- Element: quadrature points with section stiffness; points of the transverse shear (none for Bernoulli). -/
structure Elem (n : Nat) (X : Type) where
  pts : List (Bqp n X × Sec)
  shear : List (Shqp n X × (Fin 2 → Fin 2 → ℝ))

/-- `local_f`, `local_jac` of `internal_residual` (structural_element_1d.cpp:618-650). -/
noncomputable def localRes (nl bend : Bool) (e : Elem n X) (u : Dof n → ℝ) (a : Dof n) : ℝ :=
  (e.pts.map fun p => opRes nl bend p.2 p.1 u a).sum + if bend then (e.shear.map fun p => shearRes p.2 p.1 u a).sum else 0
noncomputable def localJac (nl bend : Bool) (e : Elem n X) (u : Dof n → ℝ) (a b : Dof n) : ℝ :=
  (e.pts.map fun p => opJac nl bend p.2 p.1 u a b).sum + if bend then (e.shear.map fun p => shearJac p.2 p.1 a b).sum else 0

/-- `eps` (structural_element_1d.cpp:36): the literal rounds to 2^-52. -/
noncomputable def eps : ℝ := 1 / 2 ^ 52

/-- `jac.diagonal().maxCoeff()` (structural_element_1d.cpp:663). -/
noncomputable def diagMax (J : Dof n → Dof n → ℝ) : ℝ := ((Finset.univ.image fun a => J a a).max).unbotD 0

/-- Regularisation without bending (structural_element_1d.cpp:660-672); acts on the caller's accumulated matrix. -/
noncomputable def regularize (J : Dof n → Dof n → ℝ) (a b : Dof n) : ℝ := if a = b ∧ |J a a| < eps then J a b + eps * diagMax J else J a b

/-- `internal_residual` (structural_element_1d.cpp:546-676). -/
noncomputable def internalRes (T : Option (Fin 3 → Fin 3 → ℝ)) (nl bend : Bool) (e : Elem n X) (u : Dof n → ℝ) : Dof n → ℝ := globalRes T (localRes nl bend e) u
/-- What `jac` holds afterwards, from `J0`. -/
noncomputable def internalJac (T : Option (Fin 3 → Fin 3 → ℝ)) (nl bend : Bool) (e : Elem n X) (u : Dof n → ℝ) (J0 : Dof n → Dof n → ℝ) : Dof n → Dof n → ℝ :=
  let J := fun a b => J0 a b + matToGlobal T (localJac nl bend e (vecToLocal T u)) a b
  if bend then J else regularize J

/-- `internal_residual_sensitivity` (structural_element_1d.cpp:683-813), for a parameter the property depends on. -/
noncomputable def internalSens (T : Option (Fin 3 → Fin 3 → ℝ)) (nl bend : Bool) (e : Elem n X) (dS : Bqp n X → Sec) (dG : Shqp n X → Fin 2 → Fin 2 → ℝ) (u : Dof n → ℝ) : Dof n → ℝ :=
  internalRes T nl bend ⟨e.pts.map fun p => (p.1, dS p.1), e.shear.map fun p => (p.1, dG p.1)⟩ u

/-- `stress(0,0)` of `internal_residual_jac_dot_state_sensitivity` (structural_element_1d.cpp:905-949), with bending. -/
noncomputable def axialDot (S : Sec) (q : Bqp n X) (u w : Dof n → ℝ) : ℝ :=
  mv S.A (app (Bmem q) w) 0 + S.B 0 0 * app (Bbv q) w 0 + S.B 0 1 * app (Bbw q) w 0 + mv S.A ![dvx q u * dvx q w + dwx q u * dwx q w, 0] 0

/-- `internal_residual_jac_dot_state_sensitivity` at a point, with bending and nonlinear strain (structural_element_1d.cpp:956-1030); `w` is the sensitivity of the solution. -/
noncomputable def jacDot (S : Sec) (q : Bqp n X) (u w : Dof n → ℝ) (a b : Dof n) : ℝ :=
  q.JxW * dvx q w * S.A 0 0 * gram (Bmem q) (Bvv q) a b + q.JxW * dwx q w * S.A 0 0 * gram (Bmem q) (Bww q) a b
  + q.JxW * dvx q w * S.A 0 0 * gram (Bvv q) (Bmem q) a b + q.JxW * dwx q w * S.A 0 0 * gram (Bww q) (Bmem q) a b
  + q.JxW * axialDot S q u w * gram (Bvv q) (Bvv q) a b
  + q.JxW * dvx q w * dvx q u * S.A 0 0 * gram (Bvv q) (Bvv q) a b + q.JxW * dvx q u * dvx q w * S.A 0 0 * gram (Bvv q) (Bvv q) a b
  + q.JxW * axialDot S q u w * gram (Bww q) (Bww q) a b
  + q.JxW * dwx q u * dwx q w * S.A 0 0 * gram (Bww q) (Bww q) a b + q.JxW * dwx q u * dwx q w * S.A 0 0 * gram (Bww q) (Bww q) a b
  + q.JxW * dvx q u * dwx q w * S.A 0 0 * gram (Bvv q) (Bww q) a b + q.JxW * dvx q w * dwx q u * S.A 0 0 * gram (Bvv q) (Bww q) a b
  + q.JxW * dwx q u * dvx q w * S.A 0 0 * gram (Bww q) (Bvv q) a b + q.JxW * dwx q w * dvx q u * S.A 0 0 * gram (Bww q) (Bvv q) a b
  + q.JxW * dvx q w * S.B 0 0 * gram (Bbv q) (Bvv q) a b + q.JxW * dvx q w * S.B 0 1 * gram (Bbw q) (Bvv q) a b
  + q.JxW * dwx q w * S.B 0 0 * gram (Bbv q) (Bww q) a b + q.JxW * dwx q w * S.B 0 1 * gram (Bbw q) (Bww q) a b
  + q.JxW * dvx q w * S.B 0 1 * gram (Bvv q) (Bbv q) a b + q.JxW * dwx q w * S.B 0 0 * gram (Bww q) (Bbv q) a b
  + q.JxW * dvx q w * S.B 0 1 * gram (Bvv q) (Bbw q) a b + q.JxW * dwx q w * S.B 0 1 * gram (Bww q) (Bbw q) a b

/-- What `internal_residual_jac_dot_state_sensitivity` adds to `jac`, with bending (structural_element_1d.cpp:820-1037): nothing for linear strain. -/
noncomputable def jacDotGlobal (T : Option (Fin 3 → Fin 3 → ℝ)) (nl : Bool) (e : Elem n X) (u w : Dof n → ℝ) (a b : Dof n) : ℝ :=
  if nl then matToGlobal T (fun c d => (e.pts.map fun p => jacDot p.2 p.1 (vecToLocal T u) (vecToLocal T w) c d).sum) a b else 0

/-! ### Thermal load and prestress -/

/-- Thermal data at a point: expansion vectors and temperatures. -/
structure Thermal where
  expA : Fin 2 → ℝ
  expB : Fin 2 → ℝ
  temp : ℝ
  ref : ℝ

/-- Load vector at a point of `thermal_residual` and of `prestress_residual` (structural_element_1d.cpp:1881-1913 and 1407-1428): `ta`, `tb` are `vec1_n1`, `vec2_n1` or the prestress vectors; the same vector `tb` meets row 0 of both
bending operators.  `vk^T ta` is `(dv ta_0, 0)`. -/
def loadOp (nl bend : Bool) (ta tb : Fin 2 → ℝ) (q : Bqp n X) (u : Dof n → ℝ) (a : Dof n) : ℝ :=
  q.JxW * appT (Bmem q) ta a
  + if bend then q.JxW * appT (Bbv q) tb a + q.JxW * appT (Bbw q) tb a
      + (if nl then q.JxW * appT (Bvv q) ![dvx q u * ta 0, 0] a + q.JxW * appT (Bww q) ![dwx q u * ta 0, 0] a else 0)
    else 0

/-- Its Jacobian (structural_element_1d.cpp:1915-1928 and 1430-1444): `m` is `stress` or `prestress_mat_A`. -/
def loadOpJac (nl bend : Bool) (m : Fin 2 → Fin 2 → ℝ) (q : Bqp n X) (a b : Dof n) : ℝ :=
  if bend && nl then q.JxW * sandwich (Bvv q) m (Bvv q) a b + q.JxW * sandwich (Bww q) m (Bww q) a b else 0

/-- `stress`: only entry (0,0) is set (structural_element_1d.cpp:1807, 1875). -/
def stressMat (s : ℝ) : Fin 2 → Fin 2 → ℝ := ![![s, 0], ![0, 0]]

/-- `thermal_residual` (structural_element_1d.cpp:1781-1943). -/
def thermalRes (T : Option (Fin 3 → Fin 3 → ℝ)) (nl bend : Bool) (pts : List (Bqp n X × Thermal)) (u : Dof n → ℝ) : Dof n → ℝ :=
  globalRes T (fun v a => -(pts.map fun p => loadOp nl bend (fun r => p.2.expA r * (p.2.temp - p.2.ref)) (fun r => p.2.expB r * (p.2.temp - p.2.ref)) p.1 v a).sum) u
def thermalJac (T : Option (Fin 3 → Fin 3 → ℝ)) (nl bend : Bool) (scaling : ℝ) (pts : List (Bqp n X × Thermal)) : Dof n → Dof n → ℝ :=
  matToGlobal T fun a b => -(scaling * (pts.map fun p => loadOpJac nl bend (stressMat (p.2.expA 0 * (p.2.temp - p.2.ref))) p.1 a b).sum)

/-- `thermal_residual_sensitivity` (structural_element_1d.cpp:1949-2118). -/
def thermalSens (T : Option (Fin 3 → Fin 3 → ℝ)) (nl bend : Bool) (pts : List (Bqp n X × Thermal × Thermal)) (u : Dof n → ℝ) : Dof n → ℝ :=
  globalRes T (fun v a => -(pts.map fun p => loadOp nl bend
    (fun r => p.2.1.expA r * (p.2.2.temp - p.2.2.ref) + p.2.2.expA r * (p.2.1.temp - p.2.1.ref))
    (fun r => p.2.1.expB r * (p.2.2.temp - p.2.2.ref) + p.2.2.expB r * (p.2.1.temp - p.2.1.ref)) p.1 v a).sum) u

/-- `_convert_prestress_A_mat_to_vector`, `_convert_prestress_B_mat_to_vector` (structural_element_1d.cpp:1285-1304). -/
def prestressA (m : Fin 2 → Fin 2 → ℝ) : Fin 2 → ℝ := ![m 0 0, 0]
def prestressB (m : Fin 2 → Fin 2 → ℝ) : Fin 2 → ℝ := ![m 0 0, m 0 1]

/-- `prestress_residual` (structural_element_1d.cpp:1309-1457). -/
def prestressRes (T : Option (Fin 3 → Fin 3 → ℝ)) (nl bend : Bool) (pts : List (Bqp n X × (Fin 2 → Fin 2 → ℝ) × (Fin 2 → Fin 2 → ℝ))) (u : Dof n → ℝ) : Dof n → ℝ :=
  globalRes T (fun v a => (pts.map fun p => loadOp nl bend (prestressA p.2.1) (prestressB p.2.2) p.1 v a).sum) u
def prestressJac (T : Option (Fin 3 → Fin 3 → ℝ)) (nl bend : Bool) (pts : List (Bqp n X × (Fin 2 → Fin 2 → ℝ) × (Fin 2 → Fin 2 → ℝ))) : Dof n → Dof n → ℝ :=
  matToGlobal T fun a b => (pts.map fun p => loadOpJac nl bend p.2.1 p.1 a b).sum

/-- `prestress_residual_sensitivity`, vector (structural_element_1d.cpp:1463-1613): the same operations on the derivatives of the prestress matrices. -/
def prestressSens (T : Option (Fin 3 → Fin 3 → ℝ)) (nl bend : Bool) (pts : List (Bqp n X × (Fin 2 → Fin 2 → ℝ) × (Fin 2 → Fin 2 → ℝ))) (u : Dof n → ℝ) : Dof n → ℝ :=
  prestressRes T nl bend pts u

end Verif.Beam
