import Verif.Model.Beam
import Verif.Props.ShellTangent
/-
  C118: internal force of beams and trusses.
-/
namespace Verif.Beam
open Verif.GeomElem Verif.StructLoads
open Verif.Shell hiding opRes opJac jacVk vkStrain localRes localJac internalRes internalJac internalSens shearRes shearJac dwx

/-! ### Specification -/
section Spec
variable {n : Nat} {X : Type}

/-- Derivative along the beam of the interpolated variable `v`. -/
def slope (v : Var6) (q : Bqp n X) (u : Dof n → ℝ) : ℝ := ∑ i, q.dx i * u (v.1, v.2, i)

/-- Axial strain of the axis: `u' + (v'^2 + w'^2) / 2`, the quadratic part with bending and nonlinear strain only. -/
noncomputable def stretch (nl bend : Bool) (q : Bqp n X) (u : Dof n → ℝ) : ℝ := slope U q u + if nl && bend then 1 / 2 * (slope V q u ^ 2 + slope W q u ^ 2) else 0

/-- Bending strains at unit offset in the two planes. -/
def kv (q : Bqp n X) (u : Dof n → ℝ) : ℝ := ∑ a, q.bv a * u a
def kw (q : Bqp n X) (u : Dof n → ℝ) : ℝ := ∑ a, q.bw a * u a

/-- Transverse shear strains `v' - theta_z`, `w' + theta_y`. -/
def gamV (q : Shqp n X) (u : Dof n → ℝ) : ℝ := ∑ i, (q.dx i * u (false, 1, i) - q.phi i * u (true, 2, i))
def gamW (q : Shqp n X) (u : Dof n → ℝ) : ℝ := ∑ i, (q.dx i * u (false, 2, i) + q.phi i * u (true, 1, i))

/-- Strain energy per unit length of the section: stretch `e`, twist `t`, bending strains `a`, `b`. -/
noncomputable def density (S : Sec) (bend : Bool) (e t a b : ℝ) : ℝ :=
  1 / 2 * S.A 0 0 * e ^ 2 + 1 / 2 * S.A 1 1 * t ^ 2 + if bend then e * (S.B 0 0 * a + S.B 0 1 * b) + 1 / 2 * (S.D 0 0 * a ^ 2 + 2 * S.D 0 1 * a * b + S.D 1 1 * b ^ 2) else 0

/-- Strain energy of the element. -/
noncomputable def energy (nl bend : Bool) (e : Elem n X) (u : Dof n → ℝ) : ℝ :=
  (e.pts.map fun p => p.1.JxW * density p.2 bend (stretch nl bend p.1 u) (slope TX p.1 u) (kv p.1 u) (kw p.1 u)).sum
  + if bend then (e.shear.map fun p => p.1.JxW * (1 / 2 * p.2 0 0 * gamV p.1 u ^ 2 + 1 / 2 * p.2 1 1 * gamW p.1 u ^ 2)).sum else 0

/-- Axial force and torsion are not coupled by the section. -/
def Sec.Uncoupled (S : Sec) : Prop := S.A 0 1 = 0 ∧ S.A 1 0 = 0
def Sec.SymmD (S : Sec) : Prop := S.D 1 0 = S.D 0 1
end Spec

variable {n : Nat} {X : Type}

/-! ### Operators -/

theorem app_mem0 (q : Bqp n X) (u : Dof n → ℝ) : app (Bmem q) u 0 = slope U q u := sum_shape _ _ _
theorem app_mem1 (q : Bqp n X) (u : Dof n → ℝ) : app (Bmem q) u 1 = slope TX q u := sum_shape _ _ _
theorem app_v0 (q : Bqp n X) (u : Dof n → ℝ) : app (Bvv q) u 0 = slope V q u := sum_shape _ _ _
theorem app_w0 (q : Bqp n X) (u : Dof n → ℝ) : app (Bww q) u 0 = slope W q u := sum_shape _ _ _
theorem app_bv0 (q : Bqp n X) (u : Dof n → ℝ) : app (Bbv q) u 0 = kv q u := rfl
theorem app_bw0 (q : Bqp n X) (u : Dof n → ℝ) : app (Bbw q) u 0 = kw q u := rfl
theorem app_v1 (q : Bqp n X) (u : Dof n → ℝ) : app (Bvv q) u 1 = 0 := by simp [app, Bvv]
theorem app_w1 (q : Bqp n X) (u : Dof n → ℝ) : app (Bww q) u 1 = 0 := by simp [app, Bww]
theorem app_bv1 (q : Bqp n X) (u : Dof n → ℝ) : app (Bbv q) u 1 = 0 := by simp [app, Bbv]
theorem app_bw1 (q : Bqp n X) (u : Dof n → ℝ) : app (Bbw q) u 1 = 0 := by simp [app, Bbw]
theorem dvx_eq (q : Bqp n X) (u : Dof n → ℝ) : dvx q u = slope V q u := rfl
theorem dwx_eq (q : Bqp n X) (u : Dof n → ℝ) : dwx q u = slope W q u := rfl

theorem slope_unit (v : Var6) (q : Bqp n X) (a : Dof n) : slope v q (unitDof a) = shape v q.dx a := by rw [slope, ← sum_shape, sum_unit]
theorem kv_unit (q : Bqp n X) (a : Dof n) : kv q (unitDof a) = q.bv a := sum_unit _ _
theorem kw_unit (q : Bqp n X) (a : Dof n) : kw q (unitDof a) = q.bw a := sum_unit _ _

theorem appT_mem (q : Bqp n X) (s : Fin 2 → ℝ) (a : Dof n) : appT (Bmem q) s a = slope U q (unitDof a) * s 0 + slope TX q (unitDof a) * s 1 := by
  simp [appT, Fin.sum_univ_two, Bmem, slope_unit]
theorem appT_v (q : Bqp n X) (s : Fin 2 → ℝ) (a : Dof n) : appT (Bvv q) s a = slope V q (unitDof a) * s 0 := by simp [appT, Fin.sum_univ_two, Bvv, slope_unit]
theorem appT_w (q : Bqp n X) (s : Fin 2 → ℝ) (a : Dof n) : appT (Bww q) s a = slope W q (unitDof a) * s 0 := by simp [appT, Fin.sum_univ_two, Bww, slope_unit]
theorem appT_bv (q : Bqp n X) (s : Fin 2 → ℝ) (a : Dof n) : appT (Bbv q) s a = kv q (unitDof a) * s 0 := by simp [appT, Fin.sum_univ_two, Bbv, kv_unit]
theorem appT_bw (q : Bqp n X) (s : Fin 2 → ℝ) (a : Dof n) : appT (Bbw q) s a = kw q (unitDof a) * s 0 := by simp [appT, Fin.sum_univ_two, Bbw, kw_unit]

theorem gram_sum (c : ℝ) (B1 B2 : Fin 2 → Dof n → ℝ) (a : Dof n) (w : Dof n → ℝ) : ∑ b, c * gram B1 B2 a b * w b = c * appT B1 (app B2 w) a := by
  unfold gram appT app
  simp only [Finset.mul_sum, Finset.sum_mul]
  rw [Finset.sum_comm]
  exact Finset.sum_congr rfl fun r _ => Finset.sum_congr rfl fun b _ => by ring

/-- Variation of the stretch. -/
def dStretch (nl bend : Bool) (q : Bqp n X) (u w : Dof n → ℝ) : ℝ := slope U q w + if nl && bend then slope V q u * slope V q w + slope W q u * slope W q w else 0
def ddStretch (nl bend : Bool) (q : Bqp n X) (v w : Dof n → ℝ) : ℝ := if nl && bend then slope V q v * slope V q w + slope W q v * slope W q w else 0

theorem axial_eq (nl bend : Bool) (S : Sec) (q : Bqp n X) (u : Dof n → ℝ) :
    axial nl bend S q u = S.A 0 0 * stretch nl bend q u + S.A 0 1 * slope TX q u + if bend then S.B 0 0 * kv q u + S.B 0 1 * kw q u else 0 := by
  unfold axial stretch
  cases nl <;> cases bend <;> simp [mv, Fin.sum_univ_two, app_mem0, app_mem1, app_bv0, app_bw0, vkStrain, dvx_eq, dwx_eq] <;> ring

/-- Residual at a point: forces times variations of the strains. -/
theorem opRes_eq (nl bend : Bool) (S : Sec) (q : Bqp n X) (u : Dof n → ℝ) (a : Dof n) :
    opRes nl bend S q u a = q.JxW * (axial nl bend S q u * dStretch nl bend q u (unitDof a) + (S.A 1 0 * slope U q u + S.A 1 1 * slope TX q u) * slope TX q (unitDof a)
      + if bend then (S.B 0 0 * stretch nl bend q u + S.D 0 0 * kv q u + S.D 0 1 * kw q u) * kv q (unitDof a)
        + (S.B 0 1 * stretch nl bend q u + S.D 1 0 * kv q u + S.D 1 1 * kw q u) * kw q (unitDof a) else 0) := by
  unfold opRes
  simp only [appT_mem, appT_v, appT_w, appT_bv, appT_bw, force, strainVec, strain, app_mem0, app_bv0, app_bw0, dvx_eq, dwx_eq]
  generalize axial nl bend S q u = N
  cases nl <;> cases bend <;> simp [dStretch, stretch, mv, Fin.sum_univ_two, app_mem0, app_mem1, vkStrain, dvx_eq, dwx_eq] <;> first | ring1 | (left; ring1)

theorem slope_add (v : Var6) (q : Bqp n X) (u w : Dof n → ℝ) (t : ℝ) : slope v q (fun b => u b + t * w b) = slope v q u + t * slope v q w := by
  simp only [slope, mul_add, Finset.sum_add_distrib, Finset.mul_sum]; congr 1; exact Finset.sum_congr rfl fun i _ => by ring
theorem kv_add (q : Bqp n X) (u w : Dof n → ℝ) (t : ℝ) : kv q (fun b => u b + t * w b) = kv q u + t * kv q w := by
  simp only [kv, mul_add, Finset.sum_add_distrib, Finset.mul_sum]; congr 1; exact Finset.sum_congr rfl fun i _ => by ring
theorem kw_add (q : Bqp n X) (u w : Dof n → ℝ) (t : ℝ) : kw q (fun b => u b + t * w b) = kw q u + t * kw q w := by
  simp only [kw, mul_add, Finset.sum_add_distrib, Finset.mul_sum]; congr 1; exact Finset.sum_congr rfl fun i _ => by ring

theorem slope_deriv (v : Var6) (q : Bqp n X) (u w : Dof n → ℝ) : HasDerivAt (fun t : ℝ => slope v q (fun b => u b + t * w b)) (slope v q w) 0 := by
  simp only [slope_add]; simpa using hasDeriv_quad (slope v q u) (slope v q w) 0
theorem kv_deriv (q : Bqp n X) (u w : Dof n → ℝ) : HasDerivAt (fun t : ℝ => kv q (fun b => u b + t * w b)) (kv q w) 0 := by
  simp only [kv_add]; simpa using hasDeriv_quad (kv q u) (kv q w) 0
theorem kw_deriv (q : Bqp n X) (u w : Dof n → ℝ) : HasDerivAt (fun t : ℝ => kw q (fun b => u b + t * w b)) (kw q w) 0 := by
  simp only [kw_add]; simpa using hasDeriv_quad (kw q u) (kw q w) 0
theorem stretch_deriv (nl bend : Bool) (q : Bqp n X) (u w : Dof n → ℝ) : HasDerivAt (fun t : ℝ => stretch nl bend q (fun b => u b + t * w b)) (dStretch nl bend q u w) 0 := by
  have h : (fun t : ℝ => stretch nl bend q (fun b => u b + t * w b)) = fun t => stretch nl bend q u + t * dStretch nl bend q u w + t ^ 2 * (1 / 2 * ddStretch nl bend q w w) := by
    funext t; cases nl <;> cases bend <;> simp [stretch, dStretch, ddStretch, slope_add] <;> ring
  rw [h]; exact hasDeriv_quad _ _ _
theorem dStretch_deriv (nl bend : Bool) (q : Bqp n X) (u w z : Dof n → ℝ) : HasDerivAt (fun t : ℝ => dStretch nl bend q (fun b => u b + t * w b) z) (ddStretch nl bend q w z) 0 := by
  have h : (fun t : ℝ => dStretch nl bend q (fun b => u b + t * w b) z) = fun t => dStretch nl bend q u z + t * ddStretch nl bend q w z + t ^ 2 * 0 := by
    funext t; cases nl <;> cases bend <;> simp [dStretch, ddStretch, slope_add] <;> ring
  rw [h]; exact hasDeriv_quad _ _ _

theorem axial_deriv (nl bend : Bool) (S : Sec) (q : Bqp n X) (u w : Dof n → ℝ) : HasDerivAt (fun t : ℝ => axial nl bend S q (fun b => u b + t * w b))
    (S.A 0 0 * dStretch nl bend q u w + S.A 0 1 * slope TX q w + if bend then S.B 0 0 * kv q w + S.B 0 1 * kw q w else 0) 0 := by
  simp only [axial_eq]
  refine HasDerivAt.fun_add (((stretch_deriv nl bend q u w).const_mul _).fun_add ((slope_deriv TX q u w).const_mul _)) ?_
  cases bend
  · simpa using hasDerivAt_const (0 : ℝ) (0 : ℝ)
  · simpa using ((kv_deriv q u w).const_mul (S.B 0 0)).fun_add ((kw_deriv q u w).const_mul (S.B 0 1))

theorem mem_apply (S : Sec) (q : Bqp n X) (a : Dof n) (w : Dof n → ℝ) :
    ∑ b, q.JxW * sandwich (Bmem q) S.A (Bmem q) a b * w b = q.JxW * ((S.A 0 0 * slope U q w + S.A 0 1 * slope TX q w) * slope U q (unitDof a)
      + (S.A 1 0 * slope U q w + S.A 1 1 * slope TX q w) * slope TX q (unitDof a)) := by
  rw [sum_sandwich]; simp only [Fin.sum_univ_two, app_mem0, app_mem1]; simp [Bmem, slope_unit]; left; ring

theorem vk_apply (S : Sec) (q : Bqp n X) (u : Dof n → ℝ) (a : Dof n) (w : Dof n → ℝ) :
    ∑ b, jacVk S q u a b * w b = q.JxW * (S.A 0 0 * (ddStretch true true q u w * slope U q (unitDof a) + ddStretch true true q u (unitDof a) * slope U q w + ddStretch true true q u w * ddStretch true true q u (unitDof a))
      + axial true true S q u * ddStretch true true q w (unitDof a)
      + (S.B 0 0 * kv q (unitDof a) + S.B 0 1 * kw q (unitDof a)) * ddStretch true true q u w + (S.B 0 0 * kv q w + S.B 0 1 * kw q w) * ddStretch true true q u (unitDof a)) := by
  unfold jacVk
  generalize axial true true S q u = N
  simp only [add_mul, Finset.sum_add_distrib, gram_sum, appT_mem, appT_v, appT_w, appT_bv, appT_bw]
  simp only [app_mem0, app_v0, app_w0, app_bv0, app_bw0, app_v1, app_w1, app_bv1, app_bw1, dvx_eq, dwx_eq]
  simp only [ddStretch, Bool.and_self, if_true]
  ring

theorem bend_apply (S : Sec) (q : Bqp n X) (a : Dof n) (w : Dof n → ℝ) :
    ∑ b, (q.JxW * S.B 0 0 * gram (Bbv q) (Bmem q) a b + q.JxW * S.B 0 1 * gram (Bbw q) (Bmem q) a b
      + q.JxW * S.B 0 0 * gram (Bmem q) (Bbv q) a b + q.JxW * S.B 0 1 * gram (Bmem q) (Bbw q) a b
      + q.JxW * S.D 0 0 * gram (Bbv q) (Bbv q) a b + q.JxW * S.D 1 1 * gram (Bbw q) (Bbw q) a b
      + q.JxW * S.D 1 0 * gram (Bbw q) (Bbv q) a b + q.JxW * S.D 0 1 * gram (Bbv q) (Bbw q) a b) * w b
    = q.JxW * ((S.B 0 0 * kv q w + S.B 0 1 * kw q w) * slope U q (unitDof a) + (S.B 0 0 * slope U q w + S.D 0 0 * kv q w + S.D 0 1 * kw q w) * kv q (unitDof a)
        + (S.B 0 1 * slope U q w + S.D 1 0 * kv q w + S.D 1 1 * kw q w) * kw q (unitDof a)) := by
  simp only [add_mul, Finset.sum_add_distrib, gram_sum, appT_mem, appT_v, appT_w, appT_bv, appT_bw]
  simp only [app_mem0, app_v0, app_w0, app_bv0, app_bw0, app_v1, app_w1, app_bv1, app_bw1]
  ring

theorem opJac_apply (nl bend : Bool) (S : Sec) (q : Bqp n X) (u : Dof n → ℝ) (a : Dof n) (w : Dof n → ℝ) (h : S.A 0 1 = 0) :
    ∑ b, opJac nl bend S q u a b * w b = q.JxW * ((S.A 0 0 * dStretch nl bend q u w + S.A 0 1 * slope TX q w + if bend then S.B 0 0 * kv q w + S.B 0 1 * kw q w else 0) * dStretch nl bend q u (unitDof a)
      + axial nl bend S q u * ddStretch nl bend q w (unitDof a) + (S.A 1 0 * slope U q w + S.A 1 1 * slope TX q w) * slope TX q (unitDof a)
      + if bend then (S.B 0 0 * dStretch nl bend q u w + S.D 0 0 * kv q w + S.D 0 1 * kw q w) * kv q (unitDof a)
        + (S.B 0 1 * dStretch nl bend q u w + S.D 1 0 * kv q w + S.D 1 1 * kw q w) * kw q (unitDof a) else 0) := by
  have hv := vk_apply S q u a w
  have hb := bend_apply S q a w
  have hm := mem_apply S q a w
  have hs : ∀ v z : Dof n → ℝ, dStretch true true q v z = slope U q z + ddStretch true true q v z := fun v z => by simp [dStretch, ddStretch]
  cases bend
  · have : ∀ b, opJac nl false S q u a b = q.JxW * sandwich (Bmem q) S.A (Bmem q) a b := fun b => by simp [opJac]
    simp only [this, hm]
    cases nl <;> simp [dStretch, ddStretch]
  · cases nl
    · have : ∀ b, opJac false true S q u a b * w b = q.JxW * sandwich (Bmem q) S.A (Bmem q) a b * w b + (q.JxW * S.B 0 0 * gram (Bbv q) (Bmem q) a b + q.JxW * S.B 0 1 * gram (Bbw q) (Bmem q) a b
      + q.JxW * S.B 0 0 * gram (Bmem q) (Bbv q) a b + q.JxW * S.B 0 1 * gram (Bmem q) (Bbw q) a b
      + q.JxW * S.D 0 0 * gram (Bbv q) (Bbv q) a b + q.JxW * S.D 1 1 * gram (Bbw q) (Bbw q) a b
      + q.JxW * S.D 1 0 * gram (Bbw q) (Bbv q) a b + q.JxW * S.D 0 1 * gram (Bbv q) (Bbw q) a b) * w b := fun b => by
        unfold opJac; simp only [Bool.false_eq_true, if_false, if_true]; ring
      simp only [this, Finset.sum_add_distrib, hm, hb]
      simp only [dStretch, ddStretch, Bool.false_and, Bool.false_eq_true, if_false, if_true]; ring
    · have : ∀ b, opJac true true S q u a b * w b = q.JxW * sandwich (Bmem q) S.A (Bmem q) a b * w b + jacVk S q u a b * w b + (q.JxW * S.B 0 0 * gram (Bbv q) (Bmem q) a b + q.JxW * S.B 0 1 * gram (Bbw q) (Bmem q) a b
      + q.JxW * S.B 0 0 * gram (Bmem q) (Bbv q) a b + q.JxW * S.B 0 1 * gram (Bmem q) (Bbw q) a b
      + q.JxW * S.D 0 0 * gram (Bbv q) (Bbv q) a b + q.JxW * S.D 1 1 * gram (Bbw q) (Bbw q) a b
      + q.JxW * S.D 1 0 * gram (Bbw q) (Bbv q) a b + q.JxW * S.D 0 1 * gram (Bbv q) (Bbw q) a b) * w b := fun b => by
        unfold opJac; simp only [if_true]; ring
      simp only [this, Finset.sum_add_distrib, hm, hb, hv, hs, if_true, h]
      ring

theorem opRes_deriv (nl bend : Bool) (S : Sec) (q : Bqp n X) (u w : Dof n → ℝ) (a : Dof n) (h : S.A 0 1 = 0) :
    HasDerivAt (fun t : ℝ => opRes nl bend S q (fun b => u b + t * w b) a) (∑ b, opJac nl bend S q u a b * w b) 0 := by
  rw [opJac_apply _ _ _ _ _ _ _ h]
  simp only [opRes_eq]
  refine HasDerivAt.congr_deriv (HasDerivAt.const_mul q.JxW (HasDerivAt.fun_add (HasDerivAt.fun_add ((axial_deriv nl bend S q u w).fun_mul (dStretch_deriv nl bend q u w (unitDof a)))
    ((((slope_deriv U q u w).const_mul (S.A 1 0)).fun_add ((slope_deriv TX q u w).const_mul (S.A 1 1))).mul_const _))
    (g' := if bend then (S.B 0 0 * dStretch nl bend q u w + S.D 0 0 * kv q w + S.D 0 1 * kw q w) * kv q (unitDof a)
        + (S.B 0 1 * dStretch nl bend q u w + S.D 1 0 * kv q w + S.D 1 1 * kw q w) * kw q (unitDof a) else 0) ?_)) ?_
  · cases bend
    · simpa using hasDerivAt_const (0 : ℝ) (0 : ℝ)
    · have hk := fun (b d1 d2 c : ℝ) => ((((stretch_deriv nl true q u w).const_mul b).fun_add ((kv_deriv q u w).const_mul d1)).fun_add ((kw_deriv q u w).const_mul d2)).mul_const c
      simpa using (hk _ _ _ _).fun_add (hk _ _ _ _)
  · simp only [zero_line]

/-! ### Transverse shear -/

theorem app_sv0 (q : Shqp n X) (u : Dof n → ℝ) : app (shearV q.phi q.dx) u 0 = gamV q u := by
  show ∑ a, (shape V q.dx a + shape TZ (fun i => q.phi i * -1) a) * u a = _
  simp only [add_mul, Finset.sum_add_distrib, sum_shape]
  simp [gamV, Finset.sum_sub_distrib, sub_eq_add_neg, Finset.sum_add_distrib, Finset.sum_neg_distrib]
theorem app_sw0 (q : Shqp n X) (u : Dof n → ℝ) : app (shearW q.phi q.dx) u 0 = gamW q u := by
  show ∑ a, (shape W q.dx a + shape TY q.phi a) * u a = _
  simp only [add_mul, Finset.sum_add_distrib, sum_shape]
  simp [gamW, Finset.sum_add_distrib]
theorem app_sv1 (q : Shqp n X) (u : Dof n → ℝ) : app (shearV q.phi q.dx) u 1 = 0 := by simp [app, shearV]
theorem app_sw1 (q : Shqp n X) (u : Dof n → ℝ) : app (shearW q.phi q.dx) u 1 = 0 := by simp [app, shearW]
theorem sv_unit (q : Shqp n X) (a : Dof n) : shearV q.phi q.dx 0 a = gamV q (unitDof a) := by rw [← app_sv0, app, sum_unit]
theorem sw_unit (q : Shqp n X) (a : Dof n) : shearW q.phi q.dx 0 a = gamW q (unitDof a) := by rw [← app_sw0, app, sum_unit]

theorem shearRes_eq (G : Fin 2 → Fin 2 → ℝ) (q : Shqp n X) (u : Dof n → ℝ) (a : Dof n) :
    shearRes G q u a = q.JxW * G 0 0 * (gamV q u * gamV q (unitDof a) + gamW q u * gamW q (unitDof a)) := by
  have h1 : shearV q.phi q.dx 1 a = 0 := rfl
  have h2 : shearW q.phi q.dx 1 a = 0 := rfl
  simp only [shearRes, appT, mv, Fin.sum_univ_two, app_sv0, app_sv1, app_sw0, app_sw1, sv_unit, sw_unit, h1, h2]; ring

theorem shearJac_eq (G : Fin 2 → Fin 2 → ℝ) (q : Shqp n X) (a : Dof n) (w : Dof n → ℝ) : ∑ b, shearJac G q a b * w b = shearRes G q w a := by
  have h1 : shearV q.phi q.dx 1 a = 0 := rfl
  have h2 : shearW q.phi q.dx 1 a = 0 := rfl
  simp only [shearJac, add_mul, Finset.sum_add_distrib, sum_sandwich, shearRes_eq, Fin.sum_univ_two, app_sv0, app_sv1, app_sw0, app_sw1, sv_unit, sw_unit, h1, h2]; ring

theorem gamV_deriv (q : Shqp n X) (u w : Dof n → ℝ) : HasDerivAt (fun t : ℝ => gamV q (fun b => u b + t * w b)) (gamV q w) 0 := by
  have h : (fun t : ℝ => gamV q (fun b => u b + t * w b)) = fun t => gamV q u + t * gamV q w + t ^ 2 * 0 := by
    funext t; simp only [← app_sv0, app, mul_add, Finset.sum_add_distrib, Finset.mul_sum, mul_zero, add_zero]; congr 1; exact Finset.sum_congr rfl fun i _ => by ring
  rw [h]; exact hasDeriv_quad _ _ _
theorem gamW_deriv (q : Shqp n X) (u w : Dof n → ℝ) : HasDerivAt (fun t : ℝ => gamW q (fun b => u b + t * w b)) (gamW q w) 0 := by
  have h : (fun t : ℝ => gamW q (fun b => u b + t * w b)) = fun t => gamW q u + t * gamW q w + t ^ 2 * 0 := by
    funext t; simp only [← app_sw0, app, mul_add, Finset.sum_add_distrib, Finset.mul_sum, mul_zero, add_zero]; congr 1; exact Finset.sum_congr rfl fun i _ => by ring
  rw [h]; exact hasDeriv_quad _ _ _

theorem shearRes_deriv (G : Fin 2 → Fin 2 → ℝ) (q : Shqp n X) (u w : Dof n → ℝ) (a : Dof n) : HasDerivAt (fun t : ℝ => shearRes G q (fun b => u b + t * w b) a) (shearRes G q w a) 0 := by
  simp only [shearRes_eq]
  exact HasDerivAt.const_mul _ (((gamV_deriv q u w).mul_const _).fun_add ((gamW_deriv q u w).mul_const _))

/-! ### Theorems -/

/-- C118: the Jacobian is the derivative of the residual, for linear and nonlinear strain, with and without bending, for a section without coupling of torsion into the axial force. -/
theorem C118_jacobian (nl bend : Bool) (e : Elem n X) (h : ∀ p ∈ e.pts, p.2.A 0 1 = 0) (u : Dof n → ℝ) : IsJacobian (localRes nl bend e) (localJac nl bend e u) u := by
  intro w a
  have h1 := hasDerivAt_list e.pts (fun t p => opRes nl bend p.2 p.1 (fun b => u b + t * w b) a) (fun p => ∑ b, opJac nl bend p.2 p.1 u a b * w b) 0 fun p hp => opRes_deriv nl bend p.2 p.1 u w a (h p hp)
  have h2 := hasDerivAt_list e.shear (fun t p => shearRes p.2 p.1 (fun b => u b + t * w b) a) (fun p => ∑ b, shearJac p.2 p.1 a b * w b) 0 fun p _ => by rw [shearJac_eq]; exact shearRes_deriv p.2 p.1 u w a
  unfold localRes localJac
  cases bend
  · simpa [list_sum_apply] using h1
  · simpa [add_mul, Finset.sum_add_distrib, list_sum_apply] using h1.fun_add h2

/-- C118: with bending, what the element adds to the Jacobian is the derivative of what it adds to the residual, in any frame. -/
theorem C118_global_jacobian (T : Option (Fin 3 → Fin 3 → ℝ)) (nl : Bool) (e : Elem n X) (h : ∀ p ∈ e.pts, p.2.A 0 1 = 0) (u : Dof n → ℝ) (J0 : Dof n → Dof n → ℝ) :
    IsJacobian (internalRes T nl true e) (fun a b => internalJac T nl true e u J0 a b - J0 a b) u := by
  have := C111_jacobian T (localRes nl true e) (localJac nl true e (vecToLocal T u)) u (C118_jacobian nl true e h (vecToLocal T u))
  have h2 : (fun a b => internalJac T nl true e u J0 a b - J0 a b) = matToGlobal T (localJac nl true e (vecToLocal T u)) := by funext a b; simp [internalJac]
  rw [h2]; exact this

/-- C118, without bending: the regularisation changes the accumulated matrix only on diagonal entries smaller than 2^-52, by 2^-52 times the largest diagonal entry. -/
theorem C118_truss_partial (T : Option (Fin 3 → Fin 3 → ℝ)) (nl : Bool) (e : Elem n X) (h : ∀ p ∈ e.pts, p.2.A 0 1 = 0) (u : Dof n → ℝ) (J0 : Dof n → Dof n → ℝ) :
    ∃ K : Dof n → Dof n → ℝ, IsJacobian (internalRes T nl false e) K u ∧ ∀ a b, internalJac T nl false e u J0 a b = J0 a b + K a b ∨
      (a = b ∧ |J0 a a + K a a| < 1 / 2 ^ 52 ∧ ∃ c, internalJac T nl false e u J0 a b = J0 a b + K a b + 1 / 2 ^ 52 * (J0 c c + K c c) ∧ ∀ d, J0 d d + K d d ≤ J0 c c + K c c) := by
  refine ⟨matToGlobal T (localJac nl false e (vecToLocal T u)), C111_jacobian T _ _ u (C118_jacobian nl false e h (vecToLocal T u)), fun a b => ?_⟩
  have he : (1 / 2 ^ 52 : ℝ) = eps := rfl
  simp only [internalJac, Bool.false_eq_true, if_false, regularize, he]
  by_cases hc : a = b ∧ |J0 a a + matToGlobal T (localJac nl false e (vecToLocal T u)) a a| < eps
  · rw [if_pos hc]
    right
    obtain ⟨rfl, hc⟩ := hc
    refine ⟨rfl, hc, ?_⟩
    unfold diagMax
    set f := fun c => J0 c c + matToGlobal T (localJac nl false e (vecToLocal T u)) c c with hf
    have hne : (Finset.univ.image f).Nonempty := ⟨f a, Finset.mem_image_of_mem f (Finset.mem_univ a)⟩
    obtain ⟨m, hm⟩ := Finset.max_of_nonempty hne
    obtain ⟨c, _, hcm⟩ := Finset.mem_image.mp (Finset.mem_of_max hm)
    refine ⟨c, ?_, fun d => ?_⟩
    · rw [hm]; simp only [WithBot.unbotD_coe, ← hcm]
      rfl
    · have := Finset.le_max_of_eq (Finset.mem_image_of_mem f (Finset.mem_univ d)) hm
      rw [← hcm] at this
      exact this
  · rw [if_neg hc]
    left; rfl

theorem slope_lin (v : Var6) (q : Bqp n X) (w : Dof n → ℝ) : ∑ a, slope v q (unitDof a) * w a = slope v q w := by simp only [slope_unit]; exact sum_shape _ _ _
theorem kv_lin (q : Bqp n X) (w : Dof n → ℝ) : ∑ a, kv q (unitDof a) * w a = kv q w := by simp only [kv_unit]; rfl
theorem kw_lin (q : Bqp n X) (w : Dof n → ℝ) : ∑ a, kw q (unitDof a) * w a = kw q w := by simp only [kw_unit]; rfl
theorem dStretch_lin (nl bend : Bool) (q : Bqp n X) (u w : Dof n → ℝ) : ∑ a, dStretch nl bend q u (unitDof a) * w a = dStretch nl bend q u w := by
  have hm : ∀ (c : ℝ) (f : Dof n → ℝ), ∑ a, c * f a * w a = c * ∑ a, f a * w a := fun c f => by rw [Finset.mul_sum]; exact Finset.sum_congr rfl fun a _ => by ring
  cases nl <;> cases bend <;> simp [dStretch, add_mul, Finset.sum_add_distrib, hm, slope_lin]

theorem sum_const (c : ℝ) (f w : Dof n → ℝ) : ∑ a, c * f a * w a = c * ∑ a, f a * w a := by rw [Finset.mul_sum]; exact Finset.sum_congr rfl fun a _ => by ring

theorem opRes_work (nl bend : Bool) (S : Sec) (q : Bqp n X) (u w : Dof n → ℝ) :
    ∑ a, opRes nl bend S q u a * w a = q.JxW * (axial nl bend S q u * dStretch nl bend q u w + (S.A 1 0 * slope U q u + S.A 1 1 * slope TX q u) * slope TX q w
      + if bend then (S.B 0 0 * stretch nl bend q u + S.D 0 0 * kv q u + S.D 0 1 * kw q u) * kv q w
        + (S.B 0 1 * stretch nl bend q u + S.D 1 0 * kv q u + S.D 1 1 * kw q u) * kw q w else 0) := by
  simp only [opRes_eq, mul_assoc q.JxW, ← Finset.mul_sum]
  congr 1
  cases bend
  · simp only [Bool.false_eq_true, if_false, add_zero]
    generalize S.A 1 0 * slope U q u + S.A 1 1 * slope TX q u = c
    simp only [add_mul, Finset.sum_add_distrib, sum_const, dStretch_lin, slope_lin]
  · simp only [if_true]
    generalize S.A 1 0 * slope U q u + S.A 1 1 * slope TX q u = c1
    generalize S.B 0 0 * stretch nl true q u + S.D 0 0 * kv q u + S.D 0 1 * kw q u = c2
    generalize S.B 0 1 * stretch nl true q u + S.D 1 0 * kv q u + S.D 1 1 * kw q u = c3
    simp only [add_mul, Finset.sum_add_distrib, sum_const, dStretch_lin, slope_lin, kv_lin, kw_lin]

theorem shearRes_work (G : Fin 2 → Fin 2 → ℝ) (q : Shqp n X) (u w : Dof n → ℝ) : ∑ a, shearRes G q u a * w a = q.JxW * G 0 0 * (gamV q u * gamV q w + gamW q u * gamW q w) := by
  have h1 : ∑ a, gamV q (unitDof a) * w a = gamV q w := by simp only [← sv_unit]; exact app_sv0 q w
  have h2 : ∑ a, gamW q (unitDof a) * w a = gamW q w := by simp only [← sw_unit]; exact app_sw0 q w
  simp only [shearRes_eq, sum_const]
  congr 1
  simp only [add_mul, Finset.sum_add_distrib, sum_const, h1, h2]

/-- C118, partial: the residual is the gradient of the strain energy for a section without torsion coupling and symmetric bending stiffness, if the two transverse shear stiffnesses are equal. -/
theorem C118_energy_partial (T : Option (Fin 3 → Fin 3 → ℝ)) (nl bend : Bool) (e : Elem n X) (h : ∀ p ∈ e.pts, p.2.Uncoupled ∧ p.2.SymmD) (hG : ∀ p ∈ e.shear, p.2 1 1 = p.2 0 0) (u w : Dof n → ℝ) :
    HasDerivAt (fun t : ℝ => energy nl bend e (vecToLocal T fun b => u b + t * w b)) (work (internalRes T nl bend e u) w) 0 := by
  simp only [local_lin, work, internalRes, globalRes, C111_work]
  generalize vecToLocal T u = v
  generalize vecToLocal T w = z
  unfold energy localRes
  have h1 := hasDerivAt_list e.pts (fun t p => p.1.JxW * density p.2 bend (stretch nl bend p.1 fun b => v b + t * z b) (slope TX p.1 fun b => v b + t * z b) (kv p.1 fun b => v b + t * z b) (kw p.1 fun b => v b + t * z b))
    (fun p => ∑ a, opRes nl bend p.2 p.1 v a * z a) 0 fun p hp => by
      rw [opRes_work]
      refine HasDerivAt.const_mul p.1.JxW ?_
      obtain ⟨⟨hA, hA'⟩, hD⟩ := h p hp
      unfold density
      have he := stretch_deriv nl bend p.1 v z
      have ht := slope_deriv TX p.1 v z
      have ha := kv_deriv p.1 v z
      have hb := kw_deriv p.1 v z
      cases bend
      · simp only [Bool.false_eq_true, if_false, add_zero]
        refine HasDerivAt.congr_deriv (((he.fun_pow 2).const_mul (1 / 2 * p.2.A 0 0)).fun_add ((ht.fun_pow 2).const_mul (1 / 2 * p.2.A 1 1))) ?_
        simp only [zero_line, axial_eq, hA, hA', Bool.false_eq_true, if_false]; ring
      · simp only [if_true]
        refine HasDerivAt.congr_deriv ((((he.fun_pow 2).const_mul (1 / 2 * p.2.A 0 0)).fun_add ((ht.fun_pow 2).const_mul (1 / 2 * p.2.A 1 1))).fun_add
          ((he.fun_mul ((ha.const_mul (p.2.B 0 0)).fun_add (hb.const_mul (p.2.B 0 1)))).fun_add ((((((ha.fun_pow 2).const_mul (p.2.D 0 0)).fun_add ((ha.const_mul (2 * p.2.D 0 1)).fun_mul hb)).fun_add
            ((hb.fun_pow 2).const_mul (p.2.D 1 1)))).const_mul (1 / 2)))) ?_
        rw [Sec.SymmD] at hD
        simp only [zero_line, axial_eq, hA, hA', hD, if_true]; ring
  have h2 := hasDerivAt_list e.shear (fun t p => p.1.JxW * (1 / 2 * p.2 0 0 * gamV p.1 (fun b => v b + t * z b) ^ 2 + 1 / 2 * p.2 1 1 * gamW p.1 (fun b => v b + t * z b) ^ 2))
    (fun p => ∑ a, shearRes p.2 p.1 v a * z a) 0 fun p hp => by
      rw [shearRes_work]
      refine HasDerivAt.congr_deriv (HasDerivAt.const_mul p.1.JxW ((((gamV_deriv p.1 v z).fun_pow 2).const_mul (1 / 2 * p.2 0 0)).fun_add (((gamW_deriv p.1 v z).fun_pow 2).const_mul (1 / 2 * p.2 1 1)))) ?_
      simp only [zero_line, hG p hp]; ring
  cases bend
  · simpa [list_sum_apply] using h1
  · simpa [add_mul, Finset.sum_add_distrib, list_sum_apply] using h1.fun_add h2

end Verif.Beam
