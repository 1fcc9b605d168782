import Verif.Props.ShellLoads
/-
  C117: thermal load and prestress of the shell element.
-/
namespace Verif.Shell
open Verif.GeomElem Verif.StructLoads
variable {n : Nat} {X : Type}

theorem thermalOp_eq (nl bend : Bool) (ta tb : Fin 3 → ℝ) (q : Sqp n X) (u : Dof n → ℝ) (a : Dof n) :
    thermalOp nl bend ta tb q u a = q.JxW * ∑ r, (ta r * dStrain nl bend q u (unitDof a) r + tb r * curvature bend q (unitDof a) r) := by
  unfold thermalOp
  cases nl <;> cases bend <;>
  simp [appT_lin, appT_Bx, appT_By, appT_Bvk, matX_eq, matY_eq, mvT, vkMat, Fin.sum_univ_three, dwx_eq, dwy_eq,
    dStrain, linStrain, quadIn, quadOut, gx_unit, gy_unit, curvature_unit, curvature_false] <;>
  (try simp [appT, Fin.sum_univ_three]) <;> (first | ring1 | (left; ring1))

theorem thermalOpJac_eq (nl bend : Bool) (ta : Fin 3 → ℝ) (q : Sqp n X) (a : Dof n) (w : Dof n → ℝ) :
    ∑ b, thermalOpJac nl bend ta q a b * w b = q.JxW * ∑ r, ta r * ddStrain nl bend q w (unitDof a) r := by
  unfold thermalOpJac ddStrain
  cases nl
  · simp
  · cases bend <;> simp only [if_true, Bool.false_eq_true, if_false, add_zero, add_mul, Finset.sum_add_distrib, sum_sandwich] <;>
    simp only [Fin.sum_univ_three, Fin.sum_univ_two, app_Bu0, app_Bu1, app_Bv0, app_Bv1, app_Bvk0, app_Bvk1, stressMat] <;>
    simp [Bu, Bv, Bvk, quadIn, quadOut, gx_unit, gy_unit] <;> ring

theorem thermalOp_deriv (nl bend : Bool) (ta tb : Fin 3 → ℝ) (q : Sqp n X) (u w : Dof n → ℝ) (a : Dof n) :
    HasDerivAt (fun t : ℝ => thermalOp nl bend ta tb q (fun b => u b + t * w b) a) (∑ b, thermalOpJac nl bend ta q a b * w b) 0 := by
  simp only [thermalOp_eq, thermalOpJac_eq]
  refine HasDerivAt.const_mul _ (HasDerivAt.fun_sum fun r _ => ?_)
  simpa using ((dStrain_deriv nl bend q u w (unitDof a) r).const_mul (ta r)).add_const (tb r * curvature bend q (unitDof a) r)

/-- C117: the thermal Jacobian of the code is the derivative of the thermal residual, for linear and nonlinear strain, with and without bending, in any frame, if the load is given no Jacobian scaling. -/
theorem C117_thermal_jacobian (T : Option (Fin 3 → Fin 3 → ℝ)) (nl bend : Bool) (pts : List (Sqp n X × Thermal)) (u : Dof n → ℝ) :
    IsJacobian (thermalRes T nl bend pts) (thermalJac T nl bend 1 pts) u := by
  refine C111_jacobian T (thermalLocal nl bend pts) (thermalLocalJac nl bend 1 pts) u fun w a => ?_
  unfold thermalLocal thermalLocalJac
  simp only [neg_mul, one_mul, Finset.sum_neg_distrib]
  refine HasDerivAt.fun_neg ?_
  simp only [list_sum_apply]
  exact hasDerivAt_list pts _ _ 0 fun p _ => thermalOp_deriv nl bend _ _ p.1 _ w a

/-- C117: with a Jacobian scaling `s` the reported Jacobian is `s` times the derivative. -/
theorem C117_scaling (T : Option (Fin 3 → Fin 3 → ℝ)) (nl bend : Bool) (s : ℝ) (pts : List (Sqp n X × Thermal)) (u w : Dof n → ℝ) (a : Dof n) :
    HasDerivAt (fun t : ℝ => s * thermalRes T nl bend pts (fun b => u b + t * w b) a) (∑ b, thermalJac T nl bend s pts a b * w b) 0 := by
  refine HasDerivAt.congr_deriv ((C117_thermal_jacobian T nl bend pts u w a).const_mul s) ?_
  unfold thermalJac
  rw [mat_apply, mat_apply]
  have : (fun c => ∑ d, thermalLocalJac nl bend s pts c d * vecToLocal T w d) = fun c => s * ∑ d, thermalLocalJac nl bend 1 pts c d * vecToLocal T w d := by
    funext c; rw [Finset.mul_sum]; exact Finset.sum_congr rfl fun d _ => by unfold thermalLocalJac; ring
  rw [this]
  cases T with
  | none => rfl
  | some M => simp only [vecToGlobal]; rw [Finset.mul_sum]; exact Finset.sum_congr rfl fun b _ => by ring

theorem potential_deriv (nl bend : Bool) (ta tb : Fin 3 → ℝ) (q : Sqp n X) (u w : Dof n → ℝ) :
    HasDerivAt (fun t : ℝ => potential nl bend ta tb q fun b => u b + t * w b) (∑ a, thermalOp nl bend ta tb q u a * w a) 0 := by
  unfold potential
  refine HasDerivAt.congr_deriv (HasDerivAt.const_mul q.JxW (HasDerivAt.fun_sum fun r _ => ((midStrain_deriv nl bend q u w r).const_mul (ta r)).fun_add ((curvature_deriv bend q u w r).const_mul (tb r)))) ?_
  simp only [thermalOp_eq, mul_assoc q.JxW, ← Finset.mul_sum]
  congr 1
  simp only [Finset.sum_mul]
  rw [Finset.sum_comm]
  refine Finset.sum_congr rfl fun r _ => ?_
  rw [← dStrain_lin nl bend q u w r, ← curvature_lin bend q w r]
  simp only [Finset.mul_sum, ← Finset.sum_add_distrib]
  exact Finset.sum_congr rfl fun a _ => by ring

/-- C117: the thermal residual is minus the gradient of the work of the thermal resultants `[C]{alpha} (T - T0)` on the strains the element uses. -/
theorem C117_thermal_energy (T : Option (Fin 3 → Fin 3 → ℝ)) (nl bend : Bool) (pts : List (Sqp n X × Thermal)) (u w : Dof n → ℝ) :
    HasDerivAt (fun t : ℝ => -(pts.map fun p => potential nl bend (fun r => p.2.expA r * (p.2.temp - p.2.ref)) (fun r => p.2.expB r * (p.2.temp - p.2.ref)) p.1 (vecToLocal T fun b => u b + t * w b)).sum)
      (work (thermalRes T nl bend pts u) w) 0 := by
  simp only [local_lin, work, thermalRes, globalRes, C111_work]
  unfold thermalLocal
  simp only [neg_mul, Finset.sum_neg_distrib, list_sum_apply]
  exact HasDerivAt.fun_neg (hasDerivAt_list pts _ _ 0 fun p _ => potential_deriv nl bend _ _ p.1 _ _)

/-- C117: the sensitivity of the thermal load is its derivative with respect to a parameter of the expansion matrices and of the two temperatures. -/
theorem C117_thermal_sensitivity (T : Option (Fin 3 → Fin 3 → ℝ)) (nl bend : Bool) (qs : List (Sqp n X)) (th : ℝ → Sqp n X → Thermal) (dth : Sqp n X → Thermal) (t0 : ℝ)
    (hA : ∀ q ∈ qs, ∀ r, HasDerivAt (fun t => (th t q).expA r) ((dth q).expA r) t0) (hB : ∀ q ∈ qs, ∀ r, HasDerivAt (fun t => (th t q).expB r) ((dth q).expB r) t0)
    (hT : ∀ q ∈ qs, HasDerivAt (fun t => (th t q).temp) ((dth q).temp) t0) (hR : ∀ q ∈ qs, HasDerivAt (fun t => (th t q).ref) ((dth q).ref) t0) (u : Dof n → ℝ) (a : Dof n) :
    HasDerivAt (fun t => thermalRes T nl bend (qs.map fun q => (q, th t q)) u a) (thermalSens T nl bend (qs.map fun q => (q, th t0 q, dth q)) u a) t0 := by
  unfold thermalRes thermalSens globalRes
  refine hasDerivAt_global T _ _ t0 (fun b => ?_) a
  generalize vecToLocal T u = v
  unfold thermalLocal
  simp only [List.map_map, Function.comp_def]
  refine HasDerivAt.fun_neg (hasDerivAt_list qs _ _ t0 fun q hq => ?_)
  simp only [thermalOp_eq]
  refine HasDerivAt.const_mul _ (HasDerivAt.fun_sum fun r _ => HasDerivAt.fun_add (HasDerivAt.mul_const ?_ _) (HasDerivAt.mul_const ?_ _))
  · exact HasDerivAt.congr_deriv ((hA q hq r).fun_mul ((hT q hq).fun_sub (hR q hq))) (by ring)
  · exact HasDerivAt.congr_deriv ((hB q hq r).fun_mul ((hT q hq).fun_sub (hR q hq))) (by ring)

/-! ### Prestress -/

/-- Variation of the strain without in-plane quadratic terms. -/
def dVk (nl bend : Bool) (q : Sqp n X) (u w : Dof n → ℝ) (r : Fin 3) : ℝ := linStrain q w r + if nl && bend then quadOut q u w r else 0

theorem prestressOp_eq (nl bend : Bool) (pa pb : Fin 3 → ℝ) (q : Sqp n X) (u : Dof n → ℝ) (a : Dof n) :
    prestressOp nl bend pa pb q u a = q.JxW * ∑ r, (pa r * dVk nl bend q u (unitDof a) r + pb r * curvature bend q (unitDof a) r) := by
  unfold prestressOp
  cases nl <;> cases bend <;>
  simp [appT_lin, appT_Bvk, mvT, vkMat, Fin.sum_univ_three, dwx_eq, dwy_eq, dVk, linStrain, quadOut, gx_unit, gy_unit, curvature_unit, curvature_false] <;>
  (try simp [appT, Fin.sum_univ_three]) <;> (first | ring1 | (left; ring1))

theorem dVk_add (nl bend : Bool) (q : Sqp n X) (u w z : Dof n → ℝ) (t : ℝ) (r : Fin 3) :
    dVk nl bend q (fun b => u b + t * w b) z r = dVk nl bend q u z r + t * (if nl && bend then quadOut q w z r else 0) := by
  cases nl <;> cases bend <;> fin_cases r <;> simp [dVk, quadOut, gx_add, gy_add] <;> ring

/-- C117: the prestress Jacobian is the derivative of the prestress residual, for symmetric prestress matrices. -/
theorem C117_prestress_jacobian (T : Option (Fin 3 → Fin 3 → ℝ)) (nl bend : Bool) (pts : List (Sqp n X × (Fin 2 → Fin 2 → ℝ) × (Fin 2 → Fin 2 → ℝ))) (hs : ∀ p ∈ pts, p.2.1 1 0 = p.2.1 0 1) (u : Dof n → ℝ) :
    IsJacobian (prestressRes T nl bend pts) (prestressJac T nl bend pts) u := by
  refine C111_jacobian T _ _ u fun w a => ?_
  simp only [list_sum_apply]
  refine hasDerivAt_list pts _ _ 0 fun p hp => ?_
  simp only [prestressOp_eq, dVk_add]
  refine HasDerivAt.congr_deriv (HasDerivAt.const_mul _ (HasDerivAt.fun_sum fun r _ => HasDerivAt.add_const _ (HasDerivAt.const_mul _ (HasDerivAt.const_add _ ((hasDerivAt_id' (0 : ℝ)).mul_const _))))) ?_
  unfold prestressOpJac
  cases nl <;> cases bend <;> simp only [Bool.and_true, Bool.and_false, Bool.false_eq_true, if_true, if_false, zero_mul, mul_zero, Finset.sum_const_zero]
  rw [sum_sandwich]
  simp only [Fin.sum_univ_three, Fin.sum_univ_two, app_Bvk0, app_Bvk1, prestressVec, hs p hp]
  simp [Bvk, quadOut, gx_unit, gy_unit]
  left; ring

/-- A sheared prestress meets the hypothesis and gives a nonzero Jacobian. -/
example : (![![1, 2], ![2, 3]] : Fin 2 → Fin 2 → ℝ) 1 0 = (![![1, 2], ![2, 3]] : Fin 2 → Fin 2 → ℝ) 0 1 ∧ prestressOpJac true true ![![1, 2], ![2, 3]] triQp (false, 2, 1) (false, 2, 2) = 1 := by
  refine ⟨by simp, ?_⟩
  simp [prestressOpJac, sandwich, Bvk, shape, triQp, Fin.sum_univ_two]

theorem dVk_lin (nl bend : Bool) (q : Sqp n X) (u w : Dof n → ℝ) (r : Fin 3) : ∑ a, dVk nl bend q u (unitDof a) r * w a = dVk nl bend q u w r := by
  have hx : ∀ v : Var6, ∑ a, shape v q.dx a * w a = gx v q w := fun v => sum_shape _ _ _
  have hy : ∀ v : Var6, ∑ a, shape v q.dy a * w a = gy v q w := fun v => sum_shape _ _ _
  have hm : ∀ (c : ℝ) (f : Dof n → ℝ), ∑ a, c * f a * w a = c * ∑ a, f a * w a := fun c f => by rw [Finset.mul_sum]; exact Finset.sum_congr rfl fun a _ => by ring
  cases nl <;> cases bend <;> fin_cases r <;>
  simp [dVk, linStrain, quadOut, gx_unit, gy_unit, add_mul, Finset.sum_add_distrib, hx, hy, hm]

theorem vkOnly_deriv (nl bend : Bool) (q : Sqp n X) (u w : Dof n → ℝ) (r : Fin 3) : HasDerivAt (fun t : ℝ => vkOnly nl bend q (fun b => u b + t * w b) r) (dVk nl bend q u w r) 0 := by
  have : (fun t : ℝ => vkOnly nl bend q (fun b => u b + t * w b) r) = fun t => vkOnly nl bend q u r + t * dVk nl bend q u w r + t ^ 2 * (if nl && bend then 1 / 2 * quadOut q w w r else 0) := by
    funext t
    cases nl <;> cases bend <;> fin_cases r <;> simp [vkOnly, dVk, linStrain, quadOut, gx_add, gy_add] <;> ring
  rw [this]; exact hasDeriv_quad _ _ _

/-- C117, partial: the prestress residual is the gradient of the work of the prestress on the linear and von Karman strain only; the full claim has the nonlinear strain of the element. -/
theorem C117_prestress_energy_partial (T : Option (Fin 3 → Fin 3 → ℝ)) (nl bend : Bool) (pts : List (Sqp n X × (Fin 2 → Fin 2 → ℝ) × (Fin 2 → Fin 2 → ℝ))) (u w : Dof n → ℝ) :
    HasDerivAt (fun t : ℝ => (pts.map fun p => p.1.JxW * ∑ r, (prestressVec p.2.1 r * vkOnly nl bend p.1 (vecToLocal T fun b => u b + t * w b) r
        + prestressVec p.2.2 r * curvature bend p.1 (vecToLocal T fun b => u b + t * w b) r)).sum) (work (prestressRes T nl bend pts u) w) 0 := by
  simp only [local_lin, work, prestressRes, globalRes, C111_work, list_sum_apply]
  generalize vecToLocal T u = v
  generalize vecToLocal T w = z
  refine hasDerivAt_list pts _ _ 0 fun p _ => ?_
  refine HasDerivAt.congr_deriv (HasDerivAt.const_mul p.1.JxW (HasDerivAt.fun_sum fun r _ => ((vkOnly_deriv nl bend p.1 v z r).const_mul _).fun_add ((curvature_deriv bend p.1 v z r).const_mul _))) ?_
  simp only [prestressOp_eq, mul_assoc p.1.JxW, ← Finset.mul_sum]
  congr 1
  simp only [Finset.sum_mul]
  rw [Finset.sum_comm]
  refine Finset.sum_congr rfl fun r _ => ?_
  rw [← dVk_lin nl bend p.1 v z r, ← curvature_lin bend p.1 z r]
  simp only [Finset.mul_sum, ← Finset.sum_add_distrib]
  exact Finset.sum_congr rfl fun a _ => by ring

/-- C117 fails for a prestressed membrane with nonlinear strain: stretched, the residual is not the gradient of the work of the prestress on the strain of the element. -/
theorem C117_prestress_energy_fails : ∃ (pts : List (Sqp 3 Unit × (Fin 2 → Fin 2 → ℝ) × (Fin 2 → Fin 2 → ℝ))) (u w : Dof 3 → ℝ),
    ¬ HasDerivAt (fun t : ℝ => (pts.map fun p => potential true false (prestressVec p.2.1) (prestressVec p.2.2) p.1 fun b => u b + t * w b).sum) (work (prestressRes none true false pts u) w) 0 := by
  refine ⟨[(triQp, (fun i j => if i = j then 1 else 0), fun _ _ => 0)], pull, unitDof (false, 0, 1), fun h => ?_⟩
  have h1 := hasDerivAt_list [(triQp, ((fun i j => if i = j then 1 else 0 : Fin 2 → Fin 2 → ℝ)), (fun _ _ => 0 : Fin 2 → Fin 2 → ℝ))]
    (fun t p => potential true false (prestressVec p.2.1) (prestressVec p.2.2) p.1 fun b => pull b + t * unitDof (false, 0, 1) b) _ 0
    fun p _ => potential_deriv true false (prestressVec p.2.1) (prestressVec p.2.2) p.1 pull (unitDof (false, 0, 1))
  have h2 := h.unique h1
  simp only [work, sum_unit, prestressRes, globalRes, vecToGlobal, vecToLocal, List.map_cons, List.map_nil, List.sum_cons, List.sum_nil, add_zero, prestressOp_eq, thermalOp_eq] at h2
  simp [Fin.sum_univ_three, prestressVec, dVk, dStrain, linStrain, quadIn, quadOut, gx, gy, unitDof, triQp, pull, curvature] at h2

/-- C117: the sensitivity of the prestress residual is its derivative with respect to a parameter of the prestress. -/
theorem C117_prestress_sensitivity (T : Option (Fin 3 → Fin 3 → ℝ)) (nl bend : Bool) (qs : List (Sqp n X)) (A B : ℝ → Sqp n X → Fin 2 → Fin 2 → ℝ) (dA dB : Sqp n X → Fin 2 → Fin 2 → ℝ) (t0 : ℝ)
    (hA : ∀ q ∈ qs, ∀ i j, HasDerivAt (fun t => A t q i j) (dA q i j) t0) (hB : ∀ q ∈ qs, ∀ i j, HasDerivAt (fun t => B t q i j) (dB q i j) t0) (u : Dof n → ℝ) (a : Dof n) :
    HasDerivAt (fun t => prestressRes T nl bend (qs.map fun q => (q, A t q, B t q)) u a) (prestressSens T nl bend (qs.map fun q => (q, dA q, dB q)) u a) t0 := by
  unfold prestressSens prestressRes globalRes
  refine hasDerivAt_global T _ _ t0 (fun b => ?_) a
  generalize vecToLocal T u = v
  simp only [List.map_map, Function.comp_def]
  refine hasDerivAt_list qs _ _ t0 fun q hq => ?_
  simp only [prestressOp_eq]
  have hv : ∀ (M : ℝ → Fin 2 → Fin 2 → ℝ) (dM : Fin 2 → Fin 2 → ℝ), (∀ i j, HasDerivAt (fun t => M t i j) (dM i j) t0) → ∀ r, HasDerivAt (fun t => prestressVec (M t) r) (prestressVec dM r) t0 := by
    intro M dM h r
    fin_cases r
    · exact h 0 0
    · exact h 1 1
    · exact h 0 1
  exact HasDerivAt.const_mul _ (HasDerivAt.fun_sum fun r _ => HasDerivAt.fun_add ((hv _ _ (hA q hq) r).mul_const _) ((hv _ _ (hB q hq) r).mul_const _))

end Verif.Shell
