import Verif.Model.Shell
import Verif.Props.StructInertia
import Mathlib.Analysis.Calculus.Deriv.Add
import Mathlib.Analysis.Calculus.Deriv.Mul
import Mathlib.Analysis.Calculus.Deriv.Pow
import Mathlib.Tactic.LinearCombination
import Mathlib.Tactic.FinCases
import Mathlib.Tactic.Positivity
import Mathlib.Tactic.FieldSimp
/-
  C116: internal force of the shell element.
-/
namespace Verif.Shell
open Verif.GeomElem Verif.StructLoads

/-! ### Specification -/
section Spec
variable {n : Nat} {X : Type}

/-- Derivative in the local x (y) direction of the interpolated variable `v`. -/
def gx (v : Var6) (q : Sqp n X) (u : Dof n → ℝ) : ℝ := ∑ i, q.dx i * u (v.1, v.2, i)
def gy (v : Var6) (q : Sqp n X) (u : Dof n → ℝ) : ℝ := ∑ i, q.dy i * u (v.1, v.2, i)

/-- Linear membrane strain `u,x ; v,y ; v,x + u,y`. -/
def linStrain (q : Sqp n X) (u : Dof n → ℝ) : Fin 3 → ℝ := ![gx U q u, gy V q u, gx V q u + gy U q u]

/-- Bilinear form of the in-plane Green-Lagrange terms and of the von Karman terms: half its diagonal is the strain. -/
def quadIn (q : Sqp n X) (u w : Dof n → ℝ) : Fin 3 → ℝ :=
  ![gx U q u * gx U q w + gx V q u * gx V q w, gy U q u * gy U q w + gy V q u * gy V q w,
    gx U q u * gy U q w + gy U q u * gx U q w + (gx V q u * gy V q w + gy V q u * gx V q w)]
def quadOut (q : Sqp n X) (u w : Dof n → ℝ) : Fin 3 → ℝ := ![gx W q u * gx W q w, gy W q u * gy W q w, gx W q u * gy W q w + gy W q u * gx W q w]

/-- Membrane strain of the midsurface. -/
noncomputable def midStrain (nl bend : Bool) (q : Sqp n X) (u : Dof n → ℝ) (r : Fin 3) : ℝ :=
  linStrain q u r + (if nl then 1 / 2 * quadIn q u u r + (if bend then 1 / 2 * quadOut q u u r else 0) else 0)

/-- Curvature: the bending operator applied to the motion, zero without bending. -/
def curvature (bend : Bool) (q : Sqp n X) (u : Dof n → ℝ) (r : Fin 3) : ℝ := if bend then ∑ a, q.bend r a * u a else 0

/-- Transverse shear strain of the motion: `w,x + theta_y ; w,y - theta_x`. -/
def shearStrain (q : ShearQp n X) (u : Dof n → ℝ) : Fin 2 → ℝ :=
  ![∑ i, (q.dx i * u (false, 2, i) + q.phi i * u (true, 1, i)), ∑ i, (q.dy i * u (false, 2, i) - q.phi i * u (true, 0, i))]

/-- Strain energy per unit area of the section. -/
noncomputable def density (S : Stiff) (e k : Fin 3 → ℝ) : ℝ := ∑ r, ∑ s, (1 / 2 * e r * S.A r s * e s + e r * S.B r s * k s + 1 / 2 * k r * S.D r s * k s)

/-- Strain energy of the element. -/
noncomputable def energy (nl bend : Bool) (e : Elem n X) (u : Dof n → ℝ) : ℝ :=
  (e.pts.map fun p => p.1.JxW * density p.2 (midStrain nl bend p.1 u) (curvature bend p.1 u)).sum
  + if bend then (e.shear.map fun p => p.1.JxW * ∑ r, ∑ s, 1 / 2 * shearStrain p.1 u r * p.2 r s * shearStrain p.1 u s).sum else 0

/-- Symmetric section stiffness. -/
def Stiff.Symm (S : Stiff) : Prop := (∀ r s, S.A r s = S.A s r) ∧ ∀ r s, S.D r s = S.D s r
end Spec

variable {n : Nat} {X : Type}

/-! ### Operators -/

theorem sum_shape (v : Var6) (phi : Fin n → ℝ) (u : Dof n → ℝ) : ∑ a, shape v phi a * u a = ∑ i, phi i * u (v.1, v.2, i) := by
  rw [sum_dof]
  obtain ⟨r, k⟩ := v
  rw [Finset.sum_eq_single r, Finset.sum_eq_single k]
  · refine Finset.sum_congr rfl fun i _ => by simp [shape]
  · intro b _ hb; exact Finset.sum_eq_zero fun i _ => by simp [shape, hb]
  · simp
  · intro b _ hb; exact Finset.sum_eq_zero fun j _ => Finset.sum_eq_zero fun i _ => by simp [shape, hb]
  · simp

/-- The unit motion of one degree of freedom. -/
def unitDof (a b : Dof n) : ℝ := if b = a then 1 else 0

theorem sum_unit (f : Dof n → ℝ) (a : Dof n) : ∑ b, f b * unitDof a b = f a := by simp [unitDof]

theorem gx_unit (v : Var6) (q : Sqp n X) (a : Dof n) : gx v q (unitDof a) = shape v q.dx a := by
  rw [gx, ← sum_shape, sum_unit]
theorem gy_unit (v : Var6) (q : Sqp n X) (a : Dof n) : gy v q (unitDof a) = shape v q.dy a := by
  rw [gy, ← sum_shape, sum_unit]

theorem app_Bx0 (q : Sqp n X) (u : Dof n → ℝ) : app (Bx q) u 0 = gx U q u := sum_shape _ _ _
theorem app_Bx1 (q : Sqp n X) (u : Dof n → ℝ) : app (Bx q) u 1 = gx V q u := sum_shape _ _ _
theorem app_By0 (q : Sqp n X) (u : Dof n → ℝ) : app (By q) u 0 = gy U q u := sum_shape _ _ _
theorem app_By1 (q : Sqp n X) (u : Dof n → ℝ) : app (By q) u 1 = gy V q u := sum_shape _ _ _
theorem app_Bu0 (q : Sqp n X) (u : Dof n → ℝ) : app (Bu q) u 0 = gx U q u := sum_shape _ _ _
theorem app_Bu1 (q : Sqp n X) (u : Dof n → ℝ) : app (Bu q) u 1 = gy U q u := sum_shape _ _ _
theorem app_Bv0 (q : Sqp n X) (u : Dof n → ℝ) : app (Bv q) u 0 = gx V q u := sum_shape _ _ _
theorem app_Bv1 (q : Sqp n X) (u : Dof n → ℝ) : app (Bv q) u 1 = gy V q u := sum_shape _ _ _
theorem app_Bvk0 (q : Sqp n X) (u : Dof n → ℝ) : app (Bvk q) u 0 = gx W q u := sum_shape _ _ _
theorem app_Bvk1 (q : Sqp n X) (u : Dof n → ℝ) : app (Bvk q) u 1 = gy W q u := sum_shape _ _ _
theorem app_lin0 (q : Sqp n X) (u : Dof n → ℝ) : app (Blin q) u 0 = gx U q u := sum_shape _ _ _
theorem app_lin1 (q : Sqp n X) (u : Dof n → ℝ) : app (Blin q) u 1 = gy V q u := sum_shape _ _ _
theorem app_lin2 (q : Sqp n X) (u : Dof n → ℝ) : app (Blin q) u 2 = gx V q u + gy U q u := by
  show ∑ a, (shape V q.dx a + shape U q.dy a) * u a = _
  simp only [add_mul, Finset.sum_add_distrib, sum_shape]; rfl

theorem dwx_eq (q : Sqp n X) (u : Dof n → ℝ) : dwx q u = gx W q u := rfl
theorem dwy_eq (q : Sqp n X) (u : Dof n → ℝ) : dwy q u = gy W q u := rfl

theorem app_lin (q : Sqp n X) (u : Dof n → ℝ) : app (Blin q) u = linStrain q u := by
  funext r; fin_cases r
  · exact app_lin0 q u
  · exact app_lin1 q u
  · exact app_lin2 q u

/-- C116: the strain the code uses is the Green-Lagrange strain of the in-plane displacement plus the von Karman strain of the deflection. -/
theorem C116_strain (nl bend : Bool) (q : Sqp n X) (u : Dof n → ℝ) (r : Fin 3) : strainTot nl bend q u r = midStrain nl bend q u r := by
  unfold strainTot midStrain strainMem
  cases nl with
  | false => simp [app_lin]
  | true =>
    have h : (![gradE q u 0 0, gradE q u 1 1, gradE q u 0 1 + gradE q u 1 0] : Fin 3 → ℝ) r = linStrain q u r + 1 / 2 * quadIn q u u r := by
      fin_cases r <;>
      simp [gradE, gradF, ddx, ddy, Fin.sum_univ_two, app_Bx0, app_Bx1, app_By0, app_By1, linStrain, quadIn] <;> ring
    have h2 : vkStrain q u r = 1 / 2 * quadOut q u u r := by
      fin_cases r <;> simp [vkStrain, quadOut, dwx_eq, dwy_eq] <;> ring
    simp only [if_true, h, h2, Bool.and_true]
    cases bend <;> simp [add_assoc]

theorem memStress_eq (nl bend : Bool) (S : Stiff) (q : Sqp n X) (u : Dof n → ℝ) (r : Fin 3) :
    memStress nl bend S q u r = ∑ s, (S.A r s * midStrain nl bend q u s + S.B r s * curvature bend q u s) := by
  simp only [← C116_strain]
  unfold memStress strainTot mv curvature app
  cases nl <;> cases bend <;> simp [mul_add, Finset.sum_add_distrib] <;> ring

/-- Variation of the membrane strain. -/
def dStrain (nl bend : Bool) (q : Sqp n X) (u w : Dof n → ℝ) (r : Fin 3) : ℝ :=
  linStrain q w r + (if nl then quadIn q u w r + (if bend then quadOut q u w r else 0) else 0)

theorem sandwich_sum {m k : Nat} (B1 : Fin m → Dof n → ℝ) (C : Fin m → Fin k → ℝ) (B2 : Fin k → Dof n → ℝ) (a : Dof n) (w : Dof n → ℝ) :
    ∑ b, sandwich B1 C B2 a b * w b = ∑ r, ∑ s, B1 r a * C r s * app B2 w s := by
  unfold sandwich app
  simp only [Finset.sum_mul, Finset.mul_sum]
  rw [Finset.sum_comm]
  refine Finset.sum_congr rfl fun r _ => ?_
  rw [Finset.sum_comm]
  exact Finset.sum_congr rfl fun s _ => Finset.sum_congr rfl fun b _ => by ring

theorem curvature_unit (q : Sqp n X) (a : Dof n) (r : Fin 3) : curvature true q (unitDof a) r = q.bend r a := by
  simp only [curvature, if_true]; exact sum_unit _ _

theorem appT_lin (q : Sqp n X) (s : Fin 3 → ℝ) (a : Dof n) : appT (Blin q) s a = shape U q.dx a * s 0 + shape V q.dy a * s 1 + (shape V q.dx a + shape U q.dy a) * s 2 := by
  simp [appT, Fin.sum_univ_three, Blin]
theorem appT_Bx (q : Sqp n X) (s : Fin 2 → ℝ) (a : Dof n) : appT (Bx q) s a = shape U q.dx a * s 0 + shape V q.dx a * s 1 := by
  simp [appT, Fin.sum_univ_two, Bx]
theorem appT_By (q : Sqp n X) (s : Fin 2 → ℝ) (a : Dof n) : appT (By q) s a = shape U q.dy a * s 0 + shape V q.dy a * s 1 := by
  simp [appT, Fin.sum_univ_two, By]
theorem appT_Bvk (q : Sqp n X) (s : Fin 2 → ℝ) (a : Dof n) : appT (Bvk q) s a = shape W q.dx a * s 0 + shape W q.dy a * s 1 := by
  simp [appT, Fin.sum_univ_two, Bvk]
theorem matX_eq (q : Sqp n X) (u : Dof n → ℝ) : matX q u = ![![gx U q u, gx V q u], ![0, 0], ![gy U q u, gy V q u]] := by
  funext i j; fin_cases i <;> fin_cases j <;> simp [matX, ddx, ddy, app_Bx0, app_Bx1, app_By0, app_By1]
theorem matY_eq (q : Sqp n X) (u : Dof n → ℝ) : matY q u = ![![0, 0], ![gy U q u, gy V q u], ![gx U q u, gx V q u]] := by
  funext i j; fin_cases i <;> fin_cases j <;> simp [matY, ddx, ddy, app_Bx0, app_Bx1, app_By0, app_By1]
theorem app_bend (q : Sqp n X) (u : Dof n → ℝ) (r : Fin 3) : app q.bend u r = curvature true q u r := rfl
theorem curvature_false (q : Sqp n X) (u : Dof n → ℝ) (r : Fin 3) : curvature false q u r = 0 := rfl

/-- Residual at a point: stress resultants times variation of the strains. -/
theorem opRes_eq (nl bend : Bool) (S : Stiff) (q : Sqp n X) (u : Dof n → ℝ) (a : Dof n) :
    opRes nl bend S q u a = q.JxW * ((∑ r, memStress nl bend S q u r * dStrain nl bend q u (unitDof a) r)
      + ∑ r, (∑ s, (S.B s r * midStrain nl bend q u s + S.D r s * curvature bend q u s)) * curvature bend q (unitDof a) r) := by
  have hS : strainTot nl bend q u = midStrain nl bend q u := funext fun r => C116_strain nl bend q u r
  unfold opRes
  rw [hS]
  generalize memStress nl bend S q u = σ
  generalize midStrain nl bend q u = ε
  cases nl <;> cases bend <;>
  simp [appT_lin, appT_Bx, appT_By, appT_Bvk, matX_eq, matY_eq, mvT, mv, vkMat, Fin.sum_univ_three, dwx_eq, dwy_eq, app_bend,
    dStrain, linStrain, quadIn, quadOut, gx_unit, gy_unit, curvature_unit, curvature_false] <;>
  (try simp [appT, mv, mvT, app_bend, Fin.sum_univ_three]) <;> (first | ring1 | (left; ring1))

/-! ### Variations -/

/-- Second variation of the membrane strain. -/
def ddStrain (nl bend : Bool) (q : Sqp n X) (v w : Dof n → ℝ) (r : Fin 3) : ℝ := if nl then quadIn q v w r + (if bend then quadOut q v w r else 0) else 0

theorem gx_add (v : Var6) (q : Sqp n X) (u w : Dof n → ℝ) (t : ℝ) : gx v q (fun b => u b + t * w b) = gx v q u + t * gx v q w := by
  simp only [gx, mul_add, Finset.sum_add_distrib, Finset.mul_sum]; congr 1; exact Finset.sum_congr rfl fun i _ => by ring
theorem gy_add (v : Var6) (q : Sqp n X) (u w : Dof n → ℝ) (t : ℝ) : gy v q (fun b => u b + t * w b) = gy v q u + t * gy v q w := by
  simp only [gy, mul_add, Finset.sum_add_distrib, Finset.mul_sum]; congr 1; exact Finset.sum_congr rfl fun i _ => by ring

theorem curvature_add (bend : Bool) (q : Sqp n X) (u w : Dof n → ℝ) (t : ℝ) (r : Fin 3) : curvature bend q (fun b => u b + t * w b) r = curvature bend q u r + t * curvature bend q w r := by
  unfold curvature
  cases bend
  · simp
  · simp only [if_true, mul_add, Finset.sum_add_distrib, Finset.mul_sum]; congr 1; exact Finset.sum_congr rfl fun i _ => by ring

theorem dStrain_add (nl bend : Bool) (q : Sqp n X) (u w z : Dof n → ℝ) (t : ℝ) (r : Fin 3) :
    dStrain nl bend q (fun b => u b + t * w b) z r = dStrain nl bend q u z r + t * ddStrain nl bend q w z r := by
  cases nl <;> cases bend <;> fin_cases r <;> simp [dStrain, ddStrain, quadIn, quadOut, gx_add, gy_add] <;> ring

theorem midStrain_add (nl bend : Bool) (q : Sqp n X) (u w : Dof n → ℝ) (t : ℝ) (r : Fin 3) :
    midStrain nl bend q (fun b => u b + t * w b) r = midStrain nl bend q u r + t * dStrain nl bend q u w r + t ^ 2 * (1 / 2 * ddStrain nl bend q w w r) := by
  cases nl <;> cases bend <;> fin_cases r <;> simp [midStrain, dStrain, ddStrain, linStrain, quadIn, quadOut, gx_add, gy_add] <;> ring

theorem hasDeriv_quad (a b c : ℝ) : HasDerivAt (fun t : ℝ => a + t * b + t ^ 2 * c) b 0 := by
  have h1 := (((hasDerivAt_id' (0 : ℝ)).mul_const b).const_add a).fun_add ((hasDerivAt_pow 2 (0 : ℝ)).mul_const c)
  simpa using h1

theorem midStrain_deriv (nl bend : Bool) (q : Sqp n X) (u w : Dof n → ℝ) (r : Fin 3) :
    HasDerivAt (fun t : ℝ => midStrain nl bend q (fun b => u b + t * w b) r) (dStrain nl bend q u w r) 0 := by
  simp only [midStrain_add]; exact hasDeriv_quad _ _ _

theorem dStrain_deriv (nl bend : Bool) (q : Sqp n X) (u w z : Dof n → ℝ) (r : Fin 3) :
    HasDerivAt (fun t : ℝ => dStrain nl bend q (fun b => u b + t * w b) z r) (ddStrain nl bend q w z r) 0 := by
  simp only [dStrain_add]; simpa using hasDeriv_quad (dStrain nl bend q u z r) (ddStrain nl bend q w z r) 0

theorem curvature_deriv (bend : Bool) (q : Sqp n X) (u w : Dof n → ℝ) (r : Fin 3) :
    HasDerivAt (fun t : ℝ => curvature bend q (fun b => u b + t * w b) r) (curvature bend q w r) 0 := by
  simp only [curvature_add]; simpa using hasDeriv_quad (curvature bend q u r) (curvature bend q w r) 0

theorem zero_line (u w : Dof n → ℝ) : (fun b => u b + (0 : ℝ) * w b) = u := by funext b; ring

/-- Consistent tangent of the residual at a point, applied to `w`. -/
noncomputable def tangent (nl bend : Bool) (S : Stiff) (q : Sqp n X) (u : Dof n → ℝ) (a : Dof n) (w : Dof n → ℝ) : ℝ :=
  q.JxW * ((∑ r, ((∑ s, (S.A r s * dStrain nl bend q u w s + S.B r s * curvature bend q w s)) * dStrain nl bend q u (unitDof a) r
        + memStress nl bend S q u r * ddStrain nl bend q w (unitDof a) r))
      + ∑ r, (∑ s, (S.B s r * dStrain nl bend q u w s + S.D r s * curvature bend q w s)) * curvature bend q (unitDof a) r)

theorem opRes_deriv (nl bend : Bool) (S : Stiff) (q : Sqp n X) (u w : Dof n → ℝ) (a : Dof n) :
    HasDerivAt (fun t : ℝ => opRes nl bend S q (fun b => u b + t * w b) a) (tangent nl bend S q u a w) 0 := by
  simp only [opRes_eq, memStress_eq]
  refine HasDerivAt.congr_deriv (HasDerivAt.const_mul q.JxW (HasDerivAt.fun_add
    (HasDerivAt.fun_sum fun r _ => HasDerivAt.fun_mul (HasDerivAt.fun_sum fun s _ => HasDerivAt.fun_add ((midStrain_deriv nl bend q u w s).const_mul (S.A r s))
      ((curvature_deriv bend q u w s).const_mul (S.B r s))) (dStrain_deriv nl bend q u w (unitDof a) r))
    (HasDerivAt.fun_sum fun r _ => HasDerivAt.mul_const (HasDerivAt.fun_sum fun s _ => HasDerivAt.fun_add ((midStrain_deriv nl bend q u w s).const_mul (S.B s r))
      ((curvature_deriv bend q u w s).const_mul (S.D r s))) _))) ?_
  simp only [tangent, memStress_eq, zero_line]

/-- What the Jacobian of the code leaves out: the products of in-plane gradients with out-of-plane gradients and curvatures. -/
noncomputable def missing (nl bend : Bool) (S : Stiff) (q : Sqp n X) (u : Dof n → ℝ) (a : Dof n) (w : Dof n → ℝ) : ℝ :=
  if nl && bend then q.JxW * ∑ r, ∑ s, (quadIn q u (unitDof a) r * (S.A r s * quadOut q u w s + S.B r s * curvature true q w s)
    + (quadOut q u (unitDof a) r * S.A r s + curvature true q (unitDof a) r * S.B s r) * quadIn q u w s) else 0

theorem sandwich_22 {B1 B2 : Fin 2 → Dof n → ℝ} {C : Fin 2 → Fin 2 → ℝ} (a : Dof n) (w : Dof n → ℝ) :
    ∑ b, sandwich B1 C B2 a b * w b = B1 0 a * (C 0 0 * app B2 w 0 + C 0 1 * app B2 w 1) + B1 1 a * (C 1 0 * app B2 w 0 + C 1 1 * app B2 w 1) := by
  rw [sandwich_sum]; simp only [Fin.sum_univ_two]; ring

theorem sum_sandwich {m k : Nat} (c : ℝ) (B1 : Fin m → Dof n → ℝ) (C : Fin m → Fin k → ℝ) (B2 : Fin k → Dof n → ℝ) (a : Dof n) (w : Dof n → ℝ) :
    ∑ b, c * sandwich B1 C B2 a b * w b = c * ∑ r, ∑ s, B1 r a * C r s * app B2 w s := by
  rw [← sandwich_sum, Finset.mul_sum]; exact Finset.sum_congr rfl fun b _ => by ring

/-- Linear part of the Jacobian. -/
theorem jac_lin (S : Stiff) (q : Sqp n X) (a : Dof n) (w : Dof n → ℝ) :
    ∑ b, q.JxW * sandwich (Blin q) S.A (Blin q) a b * w b = q.JxW * ∑ r, ∑ s, linStrain q (unitDof a) r * S.A r s * linStrain q w s := by
  rw [sum_sandwich, app_lin]
  simp [Fin.sum_univ_three, Blin, linStrain, gx_unit, gy_unit]

/-- In-plane nonlinear part of the Jacobian. -/
theorem jac_nl (bend : Bool) (S : Stiff) (q : Sqp n X) (u : Dof n → ℝ) (a : Dof n) (w : Dof n → ℝ) :
    ∑ b, jacNl bend S q u a b * w b = q.JxW * ((∑ r, ∑ s, (linStrain q (unitDof a) r * S.A r s * quadIn q u w s + quadIn q u (unitDof a) r * S.A r s * linStrain q w s
        + quadIn q u (unitDof a) r * S.A r s * quadIn q u w s)) + ∑ r, memStress true bend S q u r * quadIn q w (unitDof a) r) := by
  unfold jacNl
  generalize memStress true bend S q u = σ
  simp only [add_mul, Finset.sum_add_distrib, sum_sandwich, app_lin]
  simp only [Fin.sum_univ_three, Fin.sum_univ_two, app_Bx0, app_Bx1, app_By0, app_By1, app_Bu0, app_Bu1, app_Bv0, app_Bv1, matX_eq, matY_eq, mm, tr, stressMat]
  simp [Blin, Bx, By, Bu, Bv, linStrain, quadIn, gx_unit, gy_unit]
  ring

/-- Out-of-plane nonlinear part of the Jacobian. -/
theorem jac_vk (S : Stiff) (q : Sqp n X) (u : Dof n → ℝ) (a : Dof n) (w : Dof n → ℝ) :
    ∑ b, jacVk S q u a b * w b = q.JxW * ((∑ r, ∑ s, (linStrain q (unitDof a) r * S.A r s * quadOut q u w s + quadOut q u (unitDof a) r * S.A r s * linStrain q w s
        + quadOut q u (unitDof a) r * S.A r s * quadOut q u w s + curvature true q (unitDof a) r * S.B s r * quadOut q u w s
        + quadOut q u (unitDof a) r * S.B r s * curvature true q w s)) + ∑ r, memStress true true S q u r * quadOut q w (unitDof a) r) := by
  unfold jacVk
  generalize memStress true true S q u = σ
  simp only [add_mul, Finset.sum_add_distrib, sum_sandwich, app_lin, app_bend]
  simp only [Fin.sum_univ_three, Fin.sum_univ_two, app_Bvk0, app_Bvk1, vkMat, dwx_eq, dwy_eq, mm, tr, stressMat]
  simp [Blin, Bvk, linStrain, quadOut, gx_unit, gy_unit, curvature_unit]
  ring

theorem jac_bend (S : Stiff) (q : Sqp n X) (a : Dof n) (w : Dof n → ℝ) :
    ∑ b, (q.JxW * sandwich q.bend (tr S.B) (Blin q) a b + q.JxW * sandwich (Blin q) S.B q.bend a b + q.JxW * sandwich q.bend S.D q.bend a b) * w b
      = q.JxW * ∑ r, ∑ s, (curvature true q (unitDof a) r * S.B s r * linStrain q w s + linStrain q (unitDof a) r * S.B r s * curvature true q w s
        + curvature true q (unitDof a) r * S.D r s * curvature true q w s) := by
  simp only [add_mul, Finset.sum_add_distrib, sum_sandwich, app_lin, app_bend, curvature_unit, tr]
  simp only [Fin.sum_univ_three]
  simp [Blin, linStrain, gx_unit, gy_unit]
  ring

theorem opJac_eq (nl bend : Bool) (S : Stiff) (q : Sqp n X) (u : Dof n → ℝ) (a : Dof n) (w : Dof n → ℝ) :
    ∑ b, opJac nl bend S q u a b * w b = tangent nl bend S q u a w - missing nl bend S q u a w := by
  have h : ∑ b, opJac nl bend S q u a b * w b = ∑ b, q.JxW * sandwich (Blin q) S.A (Blin q) a b * w b + (if nl then ∑ b, jacNl bend S q u a b * w b else 0)
      + (if bend then (if nl then ∑ b, jacVk S q u a b * w b else 0)
        + ∑ b, (q.JxW * sandwich q.bend (tr S.B) (Blin q) a b + q.JxW * sandwich (Blin q) S.B q.bend a b + q.JxW * sandwich q.bend S.D q.bend a b) * w b else 0) := by
    unfold opJac
    cases nl <;> cases bend <;> simp [add_mul, Finset.sum_add_distrib, add_assoc]
  rw [h, jac_lin, jac_nl, jac_vk, jac_bend]
  unfold tangent missing dStrain ddStrain
  cases nl <;> cases bend <;> simp only [if_true, if_false, Bool.and_true, Bool.and_false, Bool.false_eq_true, curvature_false] <;>
  (generalize memStress _ _ S q u = σ; simp only [Fin.sum_univ_three]; ring)

end Verif.Shell
