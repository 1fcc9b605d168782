import Verif.Props.BeamMore
/-
  C120: thermal load and prestress of the beam.
-/
namespace Verif.Beam
open Verif.GeomElem Verif.StructLoads
open Verif.Shell hiding opRes opJac jacVk vkStrain localRes localJac internalRes internalJac internalSens shearRes shearJac dwx rigid Affine Elem density energy stressMat Thermal
  thermalRes thermalJac thermalSens prestressRes prestressJac prestressSens
variable {n : Nat} {X : Type}

/-- Specification: work at a point of the axial force and torque `ta` and of the moments `tb` on stretch, twist and the bending strains of the two planes. -/
noncomputable def workAt (nl bend : Bool) (ta tb : Fin 2 → ℝ) (q : Bqp n X) (u : Dof n → ℝ) : ℝ :=
  q.JxW * (ta 0 * stretch nl bend q u + ta 1 * slope TX q u + if bend then tb 0 * kv q u + tb 1 * kw q u else 0)

theorem loadOp_eq (nl bend : Bool) (ta tb : Fin 2 → ℝ) (q : Bqp n X) (u : Dof n → ℝ) (a : Dof n) :
    loadOp nl bend ta tb q u a = q.JxW * (ta 0 * dStretch nl bend q u (unitDof a) + ta 1 * slope TX q (unitDof a) + if bend then tb 0 * kv q (unitDof a) + tb 0 * kw q (unitDof a) else 0) := by
  unfold loadOp
  simp only [appT_mem, appT_v, appT_w, appT_bv, appT_bw, dvx_eq, dwx_eq]
  cases nl <;> cases bend <;> simp [dStretch] <;> first | ring1 | (left; ring1)

theorem loadOpJac_eq (nl bend : Bool) (m : Fin 2 → Fin 2 → ℝ) (q : Bqp n X) (a : Dof n) (w : Dof n → ℝ) :
    ∑ b, loadOpJac nl bend m q a b * w b = q.JxW * (m 0 0 * ddStretch nl bend q w (unitDof a)) := by
  unfold loadOpJac ddStretch
  cases nl <;> cases bend <;> simp only [Bool.and_true, Bool.and_false, Bool.false_eq_true, if_true, if_false, zero_mul, mul_zero, Finset.sum_const_zero]
  simp only [add_mul, Finset.sum_add_distrib, sum_sandwich, Fin.sum_univ_two, app_v0, app_v1, app_w0, app_w1]
  simp [Bvv, Bww, slope_unit]; ring

theorem loadOp_deriv (nl bend : Bool) (ta tb : Fin 2 → ℝ) (m : Fin 2 → Fin 2 → ℝ) (hm : m 0 0 = ta 0) (q : Bqp n X) (u w : Dof n → ℝ) (a : Dof n) :
    HasDerivAt (fun t : ℝ => loadOp nl bend ta tb q (fun b => u b + t * w b) a) (∑ b, loadOpJac nl bend m q a b * w b) 0 := by
  simp only [loadOp_eq, loadOpJac_eq, hm]
  exact HasDerivAt.const_mul _ ((((dStretch_deriv nl bend q u w (unitDof a)).const_mul (ta 0)).add_const _).add_const _)

/-- C120: the thermal Jacobian with scaling `s` is `s` times the derivative of the thermal residual. -/
theorem C120_thermal_jacobian (T : Option (Fin 3 → Fin 3 → ℝ)) (nl bend : Bool) (s : ℝ) (pts : List (Bqp n X × Thermal)) (u : Dof n → ℝ) :
    IsJacobian (fun u a => s * thermalRes T nl bend pts u a) (thermalJac T nl bend s pts) u := by
  have h := C111_jacobian T (fun v a => s * -(pts.map fun p => loadOp nl bend (fun r => p.2.expA r * (p.2.temp - p.2.ref)) (fun r => p.2.expB r * (p.2.temp - p.2.ref)) p.1 v a).sum)
    (fun a b => -(s * (pts.map fun p => loadOpJac nl bend (stressMat (p.2.expA 0 * (p.2.temp - p.2.ref))) p.1 a b).sum)) u fun w a => by
      simp only [neg_mul, mul_assoc s, Finset.sum_neg_distrib, ← Finset.mul_sum, list_sum_apply, mul_neg]
      exact HasDerivAt.fun_neg (HasDerivAt.const_mul s (hasDerivAt_list pts _ _ 0 fun p _ => by refine loadOp_deriv nl bend _ _ _ ?_ p.1 _ w a; rfl))
  have he : (fun (u : Dof n → ℝ) a => s * thermalRes T nl bend pts u a) = globalRes T (fun v a => s * -(pts.map fun p => loadOp nl bend (fun r => p.2.expA r * (p.2.temp - p.2.ref)) (fun r => p.2.expB r * (p.2.temp - p.2.ref)) p.1 v a).sum) := by
    funext u a
    unfold thermalRes globalRes
    cases T with
    | none => rfl
    | some M => simp only [vecToGlobal, Finset.mul_sum]; exact Finset.sum_congr rfl fun b _ => by ring
  rw [he]; exact h

theorem workAt_deriv (nl bend : Bool) (ta tb : Fin 2 → ℝ) (hb : bend = true → tb 1 = tb 0) (q : Bqp n X) (u w : Dof n → ℝ) :
    HasDerivAt (fun t : ℝ => workAt nl bend ta tb q fun b => u b + t * w b) (∑ a, loadOp nl bend ta tb q u a * w a) 0 := by
  unfold workAt
  have h1 := ((stretch_deriv nl bend q u w).const_mul (ta 0)).fun_add ((slope_deriv TX q u w).const_mul (ta 1))
  have hs : ∑ a, loadOp nl bend ta tb q u a * w a = q.JxW * (ta 0 * dStretch nl bend q u w + ta 1 * slope TX q w + if bend then tb 0 * kv q w + tb 0 * kw q w else 0) := by
    simp only [loadOp_eq, mul_assoc q.JxW, ← Finset.mul_sum]
    congr 1
    cases bend
    · simp only [Bool.false_eq_true, if_false, add_zero, add_mul, Finset.sum_add_distrib, sum_const, dStretch_lin, slope_lin]
    · simp only [if_true, add_mul, Finset.sum_add_distrib, sum_const, dStretch_lin, slope_lin, kv_lin, kw_lin]
  rw [hs]
  refine HasDerivAt.const_mul _ ?_
  cases bend
  · simpa using h1
  · rw [hb rfl]
    simp only [if_true]
    exact h1.fun_add (((kv_deriv q u w).const_mul (tb 0)).fun_add ((kw_deriv q u w).const_mul (tb 0)))

/-- C120, partial: the thermal residual is minus the gradient of the work of the thermal resultants if the bending entries for the two planes are equal (both zero without offsets), or without bending. -/
theorem C120_thermal_energy_partial (T : Option (Fin 3 → Fin 3 → ℝ)) (nl bend : Bool) (pts : List (Bqp n X × Thermal)) (hb : ∀ p ∈ pts, bend = true → p.2.expB 1 = p.2.expB 0) (u w : Dof n → ℝ) :
    HasDerivAt (fun t : ℝ => -(pts.map fun p => workAt nl bend (fun r => p.2.expA r * (p.2.temp - p.2.ref)) (fun r => p.2.expB r * (p.2.temp - p.2.ref)) p.1 (vecToLocal T fun b => u b + t * w b)).sum)
      (work (thermalRes T nl bend pts u) w) 0 := by
  simp only [local_lin, work, thermalRes, globalRes, C111_work, neg_mul, Finset.sum_neg_distrib, list_sum_apply]
  exact HasDerivAt.fun_neg (hasDerivAt_list pts _ _ 0 fun p hp => workAt_deriv nl bend _ _ (fun h => by rw [hb p hp h]) p.1 _ _)

/-- A heated bar with an offset in y: `expB = (1, 0)`. -/
def heated : Thermal := ⟨![1, 0], ![1, 0], 2, 1⟩

/-- C120 fails for a heated beam offset in y only: it is bent in the x-z plane as well, where the thermal resultants do no work. -/
theorem C120_thermal_energy_fails : ¬ HasDerivAt (fun t : ℝ => -workAt false true (fun r => heated.expA r * (heated.temp - heated.ref)) (fun r => heated.expB r * (heated.temp - heated.ref)) barQp (fun b => 0 + t * unitDof (true, 1, 1) b))
    (work (thermalRes none false true [(barQp, heated)] fun _ => 0) (unitDof (true, 1, 1))) 0 := by
  intro h
  have h1 : HasDerivAt (fun t : ℝ => -workAt false true (fun r => heated.expA r * (heated.temp - heated.ref)) (fun r => heated.expB r * (heated.temp - heated.ref)) barQp (fun b => 0 + t * unitDof (true, 1, 1) b)) 0 0 := by
    have hz : (fun t : ℝ => -workAt false true (fun r => heated.expA r * (heated.temp - heated.ref)) (fun r => heated.expB r * (heated.temp - heated.ref)) barQp (fun b => 0 + t * unitDof (true, 1, 1) b)) = fun _ => 0 := by
      funext t
      have k : kv barQp (fun b => 0 + t * unitDof (true, 1, 1) b) = 0 := by
        simp only [kv, barQp, timoshenkoV, sum_shape]; simp [unitDof]
      simp only [workAt, stretch, slope, k]
      simp [heated, unitDof]
    rw [hz]; exact hasDerivAt_const _ _
  have h2 := h.unique h1
  simp only [work, sum_unit, thermalRes, globalRes, vecToGlobal, vecToLocal, List.map_cons, List.map_nil, List.sum_cons, List.sum_nil, loadOp_eq, kv_unit, kw_unit, slope_unit, dStretch] at h2
  simp [heated, barQp, timoshenkoV, timoshenkoW, shape] at h2
  norm_num at h2

/-- C120: the sensitivity of the thermal load is its derivative with respect to a parameter of the expansion vectors and of the two temperatures. -/
theorem C120_thermal_sensitivity (T : Option (Fin 3 → Fin 3 → ℝ)) (nl bend : Bool) (qs : List (Bqp n X)) (th : ℝ → Bqp n X → Thermal) (dth : Bqp n X → Thermal) (t0 : ℝ)
    (hA : ∀ q ∈ qs, ∀ r, HasDerivAt (fun t => (th t q).expA r) ((dth q).expA r) t0) (hB : ∀ q ∈ qs, ∀ r, HasDerivAt (fun t => (th t q).expB r) ((dth q).expB r) t0)
    (hT : ∀ q ∈ qs, HasDerivAt (fun t => (th t q).temp) ((dth q).temp) t0) (hR : ∀ q ∈ qs, HasDerivAt (fun t => (th t q).ref) ((dth q).ref) t0) (u : Dof n → ℝ) (a : Dof n) :
    HasDerivAt (fun t => thermalRes T nl bend (qs.map fun q => (q, th t q)) u a) (thermalSens T nl bend (qs.map fun q => (q, th t0 q, dth q)) u a) t0 := by
  unfold thermalRes thermalSens globalRes
  refine hasDerivAt_global T _ _ t0 (fun b => ?_) a
  generalize vecToLocal T u = v
  simp only [List.map_map, Function.comp_def]
  refine HasDerivAt.fun_neg (hasDerivAt_list qs _ _ t0 fun q hq => ?_)
  simp only [loadOp_eq]
  have hp : ∀ r, HasDerivAt (fun t => (th t q).expA r * ((th t q).temp - (th t q).ref)) ((th t0 q).expA r * ((dth q).temp - (dth q).ref) + (dth q).expA r * ((th t0 q).temp - (th t0 q).ref)) t0 := fun r =>
    HasDerivAt.congr_deriv ((hA q hq r).fun_mul ((hT q hq).fun_sub (hR q hq))) (by ring)
  have hp' : ∀ r, HasDerivAt (fun t => (th t q).expB r * ((th t q).temp - (th t q).ref)) ((th t0 q).expB r * ((dth q).temp - (dth q).ref) + (dth q).expB r * ((th t0 q).temp - (th t0 q).ref)) t0 := fun r =>
    HasDerivAt.congr_deriv ((hB q hq r).fun_mul ((hT q hq).fun_sub (hR q hq))) (by ring)
  cases bend
  · simpa using HasDerivAt.const_mul q.JxW (((hp 0).mul_const (dStretch nl false q v (unitDof b))).fun_add ((hp 1).mul_const (slope TX q (unitDof b))))
  · simpa using HasDerivAt.const_mul q.JxW ((((hp 0).mul_const (dStretch nl true q v (unitDof b))).fun_add ((hp 1).mul_const (slope TX q (unitDof b)))).fun_add (((hp' 0).mul_const (kv q (unitDof b))).fun_add ((hp' 0).mul_const (kw q (unitDof b)))))

/-- C120: the prestress Jacobian is the derivative of the prestress residual. -/
theorem C120_prestress_jacobian (T : Option (Fin 3 → Fin 3 → ℝ)) (nl bend : Bool) (pts : List (Bqp n X × (Fin 2 → Fin 2 → ℝ) × (Fin 2 → Fin 2 → ℝ))) (u : Dof n → ℝ) :
    IsJacobian (prestressRes T nl bend pts) (prestressJac T nl bend pts) u := by
  refine C111_jacobian T _ _ u fun w a => ?_
  simp only [list_sum_apply]
  exact hasDerivAt_list pts _ _ 0 fun p _ => by refine loadOp_deriv nl bend _ _ _ ?_ p.1 _ w a; rfl

/-- C120, partial: the prestress residual is the gradient of the work of the axial prestress and of the prestress moments if the moments of the two planes are equal, or without bending. -/
theorem C120_prestress_energy_partial (T : Option (Fin 3 → Fin 3 → ℝ)) (nl bend : Bool) (pts : List (Bqp n X × (Fin 2 → Fin 2 → ℝ) × (Fin 2 → Fin 2 → ℝ))) (hb : ∀ p ∈ pts, bend = true → p.2.2 0 1 = p.2.2 0 0) (u w : Dof n → ℝ) :
    HasDerivAt (fun t : ℝ => (pts.map fun p => workAt nl bend ![p.2.1 0 0, 0] ![p.2.2 0 0, p.2.2 0 1] p.1 (vecToLocal T fun b => u b + t * w b)).sum) (work (prestressRes T nl bend pts u) w) 0 := by
  simp only [local_lin, work, prestressRes, globalRes, C111_work, list_sum_apply]
  exact hasDerivAt_list pts _ _ 0 fun p hp => workAt_deriv nl bend _ _ (fun h => hb p hp h) p.1 _ _

/-- C120 fails for a prestress moment in one plane. -/
theorem C120_prestress_energy_fails : ¬ HasDerivAt (fun t : ℝ => workAt false true ![1, 0] ![0, 1] barQp (fun b => 0 + t * unitDof (true, 1, 1) b))
    (work (prestressRes none false true [(barQp, ![![1, 0], ![0, 0]], ![![0, 1], ![0, 0]])] fun _ => 0) (unitDof (true, 1, 1))) 0 := by
  intro h
  have h1 : HasDerivAt (fun t : ℝ => workAt false true ![1, 0] ![0, 1] barQp (fun b => 0 + t * unitDof (true, 1, 1) b)) 1 0 := by
    have hz : (fun t : ℝ => workAt false true ![1, 0] ![0, 1] barQp (fun b => 0 + t * unitDof (true, 1, 1) b)) = fun t => t := by
      funext t
      have k : kw barQp (fun b => 0 + t * unitDof (true, 1, 1) b) = t := by
        simp only [kw, barQp, timoshenkoW, sum_shape]; simp [unitDof]
      simp only [workAt, stretch, slope, k]
      simp [unitDof, barQp]
    rw [hz]; exact hasDerivAt_id' 0
  have h2 := h.unique h1
  simp only [work, sum_unit, prestressRes, globalRes, vecToGlobal, vecToLocal, List.map_cons, List.map_nil, List.sum_cons, List.sum_nil, loadOp_eq, prestressA, prestressB, kv_unit, kw_unit, slope_unit, dStretch] at h2
  simp [barQp, timoshenkoV, timoshenkoW, shape] at h2

/-- C120: the sensitivity of the prestress residual is its derivative with respect to a parameter of the prestress. -/
theorem C120_prestress_sensitivity (T : Option (Fin 3 → Fin 3 → ℝ)) (nl bend : Bool) (qs : List (Bqp n X)) (A B : ℝ → Bqp n X → Fin 2 → Fin 2 → ℝ) (dA dB : Bqp n X → Fin 2 → Fin 2 → ℝ) (t0 : ℝ)
    (hA : ∀ q ∈ qs, ∀ i j, HasDerivAt (fun t => A t q i j) (dA q i j) t0) (hB : ∀ q ∈ qs, ∀ i j, HasDerivAt (fun t => B t q i j) (dB q i j) t0) (u : Dof n → ℝ) (a : Dof n) :
    HasDerivAt (fun t => prestressRes T nl bend (qs.map fun q => (q, A t q, B t q)) u a) (prestressSens T nl bend (qs.map fun q => (q, dA q, dB q)) u a) t0 := by
  unfold prestressSens prestressRes globalRes
  refine hasDerivAt_global T _ _ t0 (fun b => ?_) a
  generalize vecToLocal T u = v
  simp only [List.map_map, Function.comp_def]
  refine hasDerivAt_list qs _ _ t0 fun q hq => ?_
  simp only [loadOp_eq, prestressA, prestressB]
  have h0 := (hA q hq 0 0).mul_const (dStretch nl bend q v (unitDof b))
  cases bend
  · simpa using HasDerivAt.const_mul q.JxW h0
  · simpa using HasDerivAt.const_mul q.JxW (h0.fun_add (((hB q hq 0 0).mul_const (kv q (unitDof b))).fun_add ((hB q hq 0 0).mul_const (kw q (unitDof b)))))

/-- A nonzero geometric stiffness. -/
example : loadOpJac true true ![![3, 0], ![0, 0]] barQp (false, 1, 1) (false, 1, 0) = -3 := by
  simp [loadOpJac, sandwich, Bvv, Bww, shape, barQp, Fin.sum_univ_two]

end Verif.Beam
