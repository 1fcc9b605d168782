import Verif.Model.Solid
import Verif.Props.ShellTangent
import Verif.Props.StructInertia
import Mathlib.Tactic.LinearCombination
import Mathlib.Tactic.FinCases
/-
  C121: the solid element is the gradient of its strain energy, its tangent is the derivative of its residual, and rigid motions do no work.
-/
namespace Verif.Solid
open Verif.GeomElem Verif.StructLoads
open Verif.Shell (shape U V W app appT mv mvT mm tr sandwich sum_shape unitDof sum_unit sandwich_sum sum_sandwich hasDeriv_quad zero_line list_sum_apply list_add)

/-! ### Specification -/
section Spec
variable {n : Nat} {X : Type}

/-- Gradient of the displacement at a point: component `c`, direction `k`. -/
def grad (q : Vqp n X) (u : Dof n → ℝ) (c k : Fin 3) : ℝ := ∑ i, q.d k i * u (false, c, i)

/-- Deformation gradient. -/
def deform (q : Vqp n X) (u : Dof n → ℝ) (c k : Fin 3) : ℝ := (if c = k then 1 else 0) + grad q u c k

/-- Strain tensor: Green-Lagrange `(F^T F - 1) / 2`, or the symmetric part of the gradient. -/
noncomputable def tensor (nl : Bool) (q : Vqp n X) (u : Dof n → ℝ) (i j : Fin 3) : ℝ :=
  if nl then ((∑ c, deform q u c i * deform q u c j) - if i = j then 1 else 0) / 2 else (grad q u i j + grad q u j i) / 2

/-- Engineering components xx, yy, zz, xy, yz, zx of a symmetric tensor of strain. -/
def voigt (t : Fin 3 → Fin 3 → ℝ) : Fin 6 → ℝ := ![t 0 0, t 1 1, t 2 2, 2 * t 0 1, 2 * t 1 2, 2 * t 2 0]

/-- Strain energy of the element. -/
noncomputable def energy (nl : Bool) (e : Elem n X) (u : Dof n → ℝ) : ℝ :=
  (e.map fun p => p.1.JxW * (1 / 2 * ∑ r, ∑ s, voigt (tensor nl p.1 u) r * p.2 r s * voigt (tensor nl p.1 u) s)).sum

/-- The material matrix is symmetric at every point. -/
def SymmC (e : Elem n X) : Prop := ∀ p ∈ e, ∀ r s, p.2 r s = p.2 s r

/-- Shape functions reproduce constants and the nodal coordinates `x`. -/
structure Affine (x : Fin n → Fin 3 → ℝ) (q : Vqp n X) : Prop where
  c : ∀ k, ∑ i, q.d k i = 0
  x : ∀ k l, ∑ i, q.d k i * x i l = if k = l then 1 else 0

/-- Nodal displacements of the motion that takes the deformed position `y` to `Q y + c`. -/
def moved (x : Fin n → Fin 3 → ℝ) (Q : Fin 3 → Fin 3 → ℝ) (c : Fin 3 → ℝ) (u : Dof n → ℝ) : Dof n → ℝ := fun a =>
  if a.1 then u a else c a.2.1 + (∑ l, Q a.2.1 l * (x a.2.2 l + u (false, l, a.2.2))) - x a.2.2 a.2.1

/-- Velocity `c + Ω y` of the nodes at the positions `x + s u`. -/
def spin (x : Fin n → Fin 3 → ℝ) (s : ℝ) (u : Dof n → ℝ) (c : Fin 3 → ℝ) (Ω : Fin 3 → Fin 3 → ℝ) : Dof n → ℝ := fun a =>
  if a.1 then 0 else c a.2.1 + ∑ l, Ω a.2.1 l * (x a.2.2 l + s * u (false, l, a.2.2))
end Spec

variable {n : Nat} {X : Type}

/-! ### Strain -/

theorem grad_shape (q : Vqp n X) (u : Dof n → ℝ) (c k : Fin 3) : ∑ a, shape (false, c) (q.d k) a * u a = grad q u c k := sum_shape _ _ _
theorem grad_unit (q : Vqp n X) (a : Dof n) (c k : Fin 3) : grad q (unitDof a) c k = shape (false, c) (q.d k) a := by rw [← grad_shape, sum_unit]
theorem grad_add (q : Vqp n X) (u w : Dof n → ℝ) (t : ℝ) (c k : Fin 3) : grad q (fun b => u b + t * w b) c k = grad q u c k + t * grad q w c k := by
  simp only [grad, mul_add, Finset.sum_add_distrib, Finset.mul_sum]; congr 1; exact Finset.sum_congr rfl fun i _ => by ring

theorem app_dir (q : Vqp n X) (u : Dof n → ℝ) (k c : Fin 3) : app (Bdir q k) u c = grad q u c k := by
  fin_cases c <;> exact grad_shape _ _ _ _
theorem app_var (q : Vqp n X) (u : Dof n → ℝ) (k c : Fin 3) : app (Bvar q c) u k = grad q u c k := by
  fin_cases k <;> exact grad_shape _ _ _ _
theorem ddisp_eq (q : Vqp n X) (u : Dof n → ℝ) (k c : Fin 3) : ddisp q u k c = grad q u c k := app_dir _ _ _ _
theorem dir_unit (q : Vqp n X) (a : Dof n) (k c : Fin 3) : Bdir q k c a = grad q (unitDof a) c k := by
  rw [← app_dir, app, sum_unit]
theorem var_unit (q : Vqp n X) (a : Dof n) (k c : Fin 3) : Bvar q c k a = grad q (unitDof a) c k := by
  rw [← app_var, app, sum_unit]

/-- Linear strain of a gradient. -/
def lin (q : Vqp n X) (w : Dof n → ℝ) : Fin 6 → ℝ :=
  ![grad q w 0 0, grad q w 1 1, grad q w 2 2, grad q w 1 0 + grad q w 0 1, grad q w 2 1 + grad q w 1 2, grad q w 2 0 + grad q w 0 2]

/-- Quadratic strain, as a symmetric bilinear form. -/
def quad (q : Vqp n X) (u w : Dof n → ℝ) : Fin 6 → ℝ :=
  ![∑ c, grad q u c 0 * grad q w c 0, ∑ c, grad q u c 1 * grad q w c 1, ∑ c, grad q u c 2 * grad q w c 2,
    ∑ c, (grad q u c 0 * grad q w c 1 + grad q u c 1 * grad q w c 0), ∑ c, (grad q u c 1 * grad q w c 2 + grad q u c 2 * grad q w c 1), ∑ c, (grad q u c 2 * grad q w c 0 + grad q u c 0 * grad q w c 2)]

theorem app_lin (q : Vqp n X) (u : Dof n → ℝ) : app (Blin q) u = lin q u := by
  funext r
  fin_cases r <;> simp only [app, Blin, lin] <;> simp [add_mul, Finset.sum_add_distrib, grad_shape]

theorem lin_unit (q : Vqp n X) (a : Dof n) (r : Fin 6) : Blin q r a = lin q (unitDof a) r := by
  rw [← app_lin, app, sum_unit]

/-- C121: the strain of the element is the Green-Lagrange strain, or its linear part. -/
theorem C121_strain (nl : Bool) (q : Vqp n X) (u : Dof n → ℝ) (r : Fin 6) : strain nl q u r = voigt (tensor nl q u) r := by
  cases nl
  · simp only [strain, app_lin, Bool.false_eq_true, if_false]
    fin_cases r <;> simp [lin, voigt, tensor] <;> ring
  · fin_cases r <;> simp [strain, voigt, tensor, gradE, gradF, ddisp_eq, deform, Fin.sum_univ_three] <;> ring

theorem strain_eq (nl : Bool) (q : Vqp n X) (u : Dof n → ℝ) (r : Fin 6) : strain nl q u r = lin q u r + if nl then 1 / 2 * quad q u u r else 0 := by
  cases nl
  · simp [strain, app_lin]
  · fin_cases r <;> simp [strain, gradE, gradF, ddisp_eq, lin, quad, Fin.sum_univ_three] <;> ring

theorem mat_quad (q : Vqp n X) (u w : Dof n → ℝ) (r : Fin 6) : ∑ k, ∑ c, mat q u k r c * grad q w c k = quad q u w r := by
  fin_cases r <;> simp [mat, ddisp_eq, quad, Fin.sum_univ_three] <;> ring

/-! ### Variations -/

/-- Variation of the strain. -/
def dStrain (nl : Bool) (q : Vqp n X) (u w : Dof n → ℝ) (r : Fin 6) : ℝ := lin q w r + if nl then quad q u w r else 0
/-- Second variation. -/
def ddStrain (nl : Bool) (q : Vqp n X) (v w : Dof n → ℝ) (r : Fin 6) : ℝ := if nl then quad q v w r else 0

theorem lin_add (q : Vqp n X) (u w : Dof n → ℝ) (t : ℝ) (r : Fin 6) : lin q (fun b => u b + t * w b) r = lin q u r + t * lin q w r := by
  fin_cases r <;> simp [lin, grad_add] <;> ring
theorem quad_add (q : Vqp n X) (u w z : Dof n → ℝ) (t : ℝ) (r : Fin 6) : quad q (fun b => u b + t * w b) z r = quad q u z r + t * quad q w z r := by
  fin_cases r <;> simp [quad, grad_add, Fin.sum_univ_three] <;> ring
theorem quad_symm (q : Vqp n X) (u w : Dof n → ℝ) (r : Fin 6) : quad q u w r = quad q w u r := by
  fin_cases r <;> simp [quad, Fin.sum_univ_three] <;> ring
theorem quad_add_right (q : Vqp n X) (u w z : Dof n → ℝ) (t : ℝ) (r : Fin 6) : quad q z (fun b => u b + t * w b) r = quad q z u r + t * quad q z w r := by
  rw [quad_symm, quad_add, quad_symm q u, quad_symm q w]

theorem strain_add (nl : Bool) (q : Vqp n X) (u w : Dof n → ℝ) (t : ℝ) (r : Fin 6) :
    strain nl q (fun b => u b + t * w b) r = strain nl q u r + t * dStrain nl q u w r + t ^ 2 * (1 / 2 * ddStrain nl q w w r) := by
  simp only [strain_eq, dStrain, ddStrain]
  cases nl
  · simp [lin_add]
  · simp only [if_true, lin_add, quad_add, quad_add_right]
    rw [quad_symm q w u]; ring

theorem dStrain_add (nl : Bool) (q : Vqp n X) (u w z : Dof n → ℝ) (t : ℝ) (r : Fin 6) :
    dStrain nl q (fun b => u b + t * w b) z r = dStrain nl q u z r + t * ddStrain nl q w z r := by
  cases nl <;> simp [dStrain, ddStrain, quad_add] ; ring

theorem strain_deriv (nl : Bool) (q : Vqp n X) (u w : Dof n → ℝ) (r : Fin 6) : HasDerivAt (fun t : ℝ => strain nl q (fun b => u b + t * w b) r) (dStrain nl q u w r) 0 := by
  simp only [strain_add]; exact hasDeriv_quad _ _ _
theorem dStrain_deriv (nl : Bool) (q : Vqp n X) (u w z : Dof n → ℝ) (r : Fin 6) : HasDerivAt (fun t : ℝ => dStrain nl q (fun b => u b + t * w b) z r) (ddStrain nl q w z r) 0 := by
  simp only [dStrain_add]; simpa using hasDeriv_quad (dStrain nl q u z r) (ddStrain nl q w z r) 0

theorem swap {m k : Nat} (β : Fin k → ℝ) (M : Fin m → Fin k → ℝ) (s : Fin m → ℝ) : ∑ c, β c * ∑ r, M r c * s r = ∑ r, s r * ∑ c, M r c * β c := by
  simp only [Finset.mul_sum]
  rw [Finset.sum_comm]
  exact Finset.sum_congr rfl fun r _ => Finset.sum_congr rfl fun c _ => by ring

/-- `strainT` is the stress times the variation of the strain. -/
theorem strainT_eq (nl : Bool) (q : Vqp n X) (u : Dof n → ℝ) (s : Fin 6 → ℝ) (a : Dof n) : strainT nl q u s a = q.JxW * ∑ r, s r * dStrain nl q u (unitDof a) r := by
  have h1 : appT (Blin q) s a = ∑ r, s r * lin q (unitDof a) r := by
    unfold appT; exact Finset.sum_congr rfl fun r _ => by rw [lin_unit]; ring
  have h2 : ∑ k, q.JxW * appT (Bdir q k) (mvT (mat q u k) s) a = q.JxW * ∑ r, s r * quad q u (unitDof a) r := by
    rw [← Finset.mul_sum]
    congr 1
    simp only [← mat_quad, appT, mvT, dir_unit, swap, Finset.mul_sum (s := (Finset.univ : Finset (Fin 3)))]
    rw [Finset.sum_comm]
  unfold strainT
  cases nl
  · simp [h1, dStrain]
  · simp only [if_true, h1, h2, dStrain, mul_add, Finset.sum_add_distrib]

theorem opRes_eq (nl : Bool) (C : Fin 6 → Fin 6 → ℝ) (q : Vqp n X) (u : Dof n → ℝ) (a : Dof n) :
    opRes nl C q u a = q.JxW * ∑ r, (∑ s, C r s * strain nl q u s) * dStrain nl q u (unitDof a) r := strainT_eq _ _ _ _ _

/-- Tangent of a point. -/
noncomputable def tangent (nl : Bool) (C : Fin 6 → Fin 6 → ℝ) (q : Vqp n X) (u : Dof n → ℝ) (a : Dof n) (w : Dof n → ℝ) : ℝ :=
  q.JxW * ∑ r, ((∑ s, C r s * dStrain nl q u w s) * dStrain nl q u (unitDof a) r + stress nl C q u r * ddStrain nl q w (unitDof a) r)

theorem opRes_deriv (nl : Bool) (C : Fin 6 → Fin 6 → ℝ) (q : Vqp n X) (u w : Dof n → ℝ) (a : Dof n) :
    HasDerivAt (fun t : ℝ => opRes nl C q (fun b => u b + t * w b) a) (tangent nl C q u a w) 0 := by
  simp only [opRes_eq]
  refine HasDerivAt.congr_deriv (HasDerivAt.const_mul q.JxW (HasDerivAt.fun_sum fun r _ => HasDerivAt.fun_mul
    (HasDerivAt.fun_sum fun s _ => (strain_deriv nl q u w s).const_mul (C r s)) (dStrain_deriv nl q u w (unitDof a) r))) ?_
  simp only [tangent, zero_line, stress, mv]

theorem geom_eq (s : Fin 6 → ℝ) (q : Vqp n X) (a : Dof n) (w : Dof n → ℝ) : ∑ b, geom s q a b * w b = q.JxW * ∑ r, s r * quad q w (unitDof a) r := by
  have h : ∑ b, geom s q a b * w b = ∑ c, ∑ b, q.JxW * sandwich (Bvar q c) (stressMat s) (Bvar q c) a b * w b := by
    simp only [geom, Finset.sum_mul]; exact Finset.sum_comm
  simp only [h, sum_sandwich, app_var, var_unit]
  simp [Fin.sum_univ_succ, stressMat, quad]
  ring

theorem left_swap {m k l : Nat} (β : Fin k → ℝ) (M : Fin m → Fin k → ℝ) (D : Fin m → Fin l → ℝ) (y : Fin l → ℝ) :
    ∑ c, ∑ s, β c * (∑ r, M r c * D r s) * y s = ∑ r, (∑ s, D r s * y s) * ∑ c, M r c * β c := by
  simp only [Finset.mul_sum, Finset.sum_mul]
  have h : ∀ c, ∑ s, ∑ r, β c * (M r c * D r s) * y s = ∑ r, ∑ s, β c * (M r c * D r s) * y s := fun c => Finset.sum_comm
  simp only [h]
  rw [Finset.sum_comm]
  exact Finset.sum_congr rfl fun r _ => Finset.sum_congr rfl fun c _ => Finset.sum_congr rfl fun s _ => by ring

theorem right_swap {m k l : Nat} (β : Fin m → ℝ) (C : Fin m → Fin k → ℝ) (M : Fin k → Fin l → ℝ) (y : Fin l → ℝ) :
    ∑ r, ∑ c, β r * (∑ s, C r s * M s c) * y c = ∑ r, (∑ s, C r s * ∑ c, M s c * y c) * β r := by
  refine Finset.sum_congr rfl fun r _ => ?_
  simp only [Finset.mul_sum, Finset.sum_mul]
  rw [Finset.sum_comm]
  exact Finset.sum_congr rfl fun s _ => Finset.sum_congr rfl fun c _ => by ring

/-- Tangent of the material part for two strain operators given by their variations. -/
theorem apply_lin (C : Fin 6 → Fin 6 → ℝ) (q : Vqp n X) (a : Dof n) (w : Dof n → ℝ) :
    ∑ b, q.JxW * sandwich (Blin q) C (Blin q) a b * w b = q.JxW * ∑ r, (∑ s, C r s * lin q w s) * lin q (unitDof a) r := by
  rw [sum_sandwich, app_lin]
  simp only [lin_unit, Finset.sum_mul]
  congr 1
  exact Finset.sum_congr rfl fun r _ => Finset.sum_congr rfl fun s _ => by ring

theorem apply_lin_dir (C : Fin 6 → Fin 6 → ℝ) (q : Vqp n X) (u : Dof n → ℝ) (i : Fin 3) (a : Dof n) (w : Dof n → ℝ) :
    ∑ b, q.JxW * sandwich (Blin q) (mm C (mat q u i)) (Bdir q i) a b * w b = q.JxW * ∑ r, (∑ s, C r s * ∑ c, mat q u i s c * grad q w c i) * lin q (unitDof a) r := by
  rw [sum_sandwich]
  simp only [lin_unit, mm, app_dir]
  rw [right_swap]

theorem apply_dir_lin (C : Fin 6 → Fin 6 → ℝ) (q : Vqp n X) (u : Dof n → ℝ) (k : Fin 3) (a : Dof n) (w : Dof n → ℝ) :
    ∑ b, q.JxW * sandwich (Bdir q k) (mm (tr (mat q u k)) C) (Blin q) a b * w b = q.JxW * ∑ r, (∑ s, C r s * lin q w s) * ∑ c, mat q u k r c * grad q (unitDof a) c k := by
  rw [sum_sandwich, app_lin]
  simp only [dir_unit, mm, tr]
  rw [left_swap]

theorem apply_dir_dir (C : Fin 6 → Fin 6 → ℝ) (q : Vqp n X) (u : Dof n → ℝ) (i k : Fin 3) (a : Dof n) (w : Dof n → ℝ) :
    ∑ b, q.JxW * sandwich (Bdir q k) (mm (tr (mat q u k)) (mm C (mat q u i))) (Bdir q i) a b * w b
      = q.JxW * ∑ r, (∑ s, C r s * ∑ c, mat q u i s c * grad q w c i) * ∑ c, mat q u k r c * grad q (unitDof a) c k := by
  rw [sum_sandwich]
  simp only [dir_unit, mm, tr, app_dir]
  rw [left_swap]
  congr 1
  refine Finset.sum_congr rfl fun r _ => ?_
  congr 1
  simp only [Finset.mul_sum, Finset.sum_mul]
  rw [Finset.sum_comm]
  exact Finset.sum_congr rfl fun s _ => Finset.sum_congr rfl fun c _ => by ring

theorem opJac_eq (nl : Bool) (C : Fin 6 → Fin 6 → ℝ) (q : Vqp n X) (u : Dof n → ℝ) (a : Dof n) (w : Dof n → ℝ) :
    ∑ b, opJac nl C q u a b * w b = tangent nl C q u a w := by
  cases nl
  · simp only [opJac, Bool.false_eq_true, if_false, add_zero, apply_lin, tangent, dStrain, ddStrain, mul_zero]
  have h : ∑ b, opJac true C q u a b * w b = ∑ b, q.JxW * sandwich (Blin q) C (Blin q) a b * w b
      + (∑ k, ∑ b, q.JxW * sandwich (Bdir q k) (mm (tr (mat q u k)) C) (Blin q) a b * w b)
      + (∑ i, (∑ b, q.JxW * sandwich (Blin q) (mm C (mat q u i)) (Bdir q i) a b * w b
          + ∑ k, ∑ b, q.JxW * sandwich (Bdir q k) (mm (tr (mat q u k)) (mm C (mat q u i))) (Bdir q i) a b * w b))
      + ∑ b, geom (stress true C q u) q a b * w b := by
    simp only [opJac, if_true, Fin.sum_univ_three, ← Finset.sum_add_distrib]
    exact Finset.sum_congr rfl fun b _ => by ring
  rw [h, geom_eq]
  simp only [apply_lin, apply_lin_dir, apply_dir_lin, apply_dir_dir, tangent, dStrain, ddStrain, if_true]
  generalize stress true C q u = σ
  have e1 : ∑ k, q.JxW * ∑ r, (∑ s, C r s * lin q w s) * ∑ c, mat q u k r c * grad q (unitDof a) c k = q.JxW * ∑ r, (∑ s, C r s * lin q w s) * quad q u (unitDof a) r := by
    rw [← Finset.mul_sum, Finset.sum_comm]; simp only [← Finset.mul_sum, mat_quad]
  have e2 : ∀ y : Fin 6 → ℝ, ∑ i, q.JxW * ∑ r, (∑ s, C r s * ∑ c, mat q u i s c * grad q w c i) * y r = q.JxW * ∑ r, (∑ s, C r s * quad q u w s) * y r := by
    intro y
    rw [← Finset.mul_sum, Finset.sum_comm]
    congr 1
    refine Finset.sum_congr rfl fun r _ => ?_
    rw [← Finset.sum_mul, Finset.sum_comm]
    simp only [← Finset.mul_sum, mat_quad]
  have e3 : ∑ i, ∑ k, q.JxW * ∑ r, (∑ s, C r s * ∑ c, mat q u i s c * grad q w c i) * ∑ c, mat q u k r c * grad q (unitDof a) c k = q.JxW * ∑ r, (∑ s, C r s * quad q u w s) * quad q u (unitDof a) r := by
    rw [Finset.sum_comm]
    simp only [e2]
    rw [← Finset.mul_sum, Finset.sum_comm]; simp only [← Finset.mul_sum, mat_quad]
  rw [Finset.sum_add_distrib, e1, e2, e3]
  simp only [← Finset.sum_add_distrib, ← mul_add]
  congr 1
  refine Finset.sum_congr rfl fun r _ => ?_
  simp only [mul_add, Finset.sum_add_distrib]
  ring

/-! ### Element -/

/-- C121: the matrix added by the residual is the derivative of the vector it adds. -/
theorem C121_jacobian (nl : Bool) (e : Elem n X) (u : Dof n → ℝ) : IsJacobian (internalRes nl e) (materialJac nl e u) u := by
  intro w a
  refine HasDerivAt.congr_deriv (hasDerivAt_list e (fun t p => opRes nl p.2 p.1 (fun b => u b + t * w b) a) (fun p => tangent nl p.2 p.1 u a w) 0 fun p _ => opRes_deriv nl p.2 p.1 u w a) ?_
  simp only [materialJac]
  rw [list_sum_apply e (fun p b => opJac nl p.2 p.1 u a b) w]
  exact list_congr _ _ _ fun p _ => (opJac_eq nl p.2 p.1 u a w).symm

end Verif.Solid
