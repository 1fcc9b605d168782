import Verif.Props.StructLoads
import Mathlib.Analysis.Calculus.Deriv.Add
import Mathlib.Analysis.Calculus.Deriv.Mul
import Mathlib.Tactic.LinearCombination
import Mathlib.Tactic.FinCases
import Mathlib.Tactic.Positivity
import Mathlib.Tactic.FieldSimp
/-
  C114: pressure and traction loads do the virtual work they should, and their sensitivities are derivatives.
  C115: inertia of the structural elements.
-/
namespace Verif.StructLoads
open Verif.GeomElem

/-! ### Specification -/
section Spec
variable {n : Nat} {X : Type}

/-- Interpolated local displacement at a point. -/
def dispAt (T : Option (Fin 3 → Fin 3 → ℝ)) (q : Qp n X) (u : Dof n → ℝ) (k : Fin 3) : ℝ := ∑ i, q.phi i * vecToLocal T u (false, k, i)

/-- Interpolated local motion at a point: displacement and rotation. -/
def motionAt (T : Option (Fin 3 → Fin 3 → ℝ)) (q : Qp n X) (u : Dof n → ℝ) (v : Var6) : ℝ := ∑ i, q.phi i * vecToLocal T u (v.1, v.2, i)

/-- Work of an element vector. -/
def work (f u : Dof n → ℝ) : ℝ := ∑ a, f a * u a

/-- Quadrature. -/
def integral (pts : List (Qp n X)) (g : Qp n X → ℝ) : ℝ := (pts.map fun q => q.JxW * g q).sum

/-- Rigid translation with the global velocity or acceleration `c`. -/
def translation (c : Fin 3 → ℝ) (a : Dof n) : ℝ := if a.1 then 0 else c a.2.1

/-- The matrix of a symmetric positive semidefinite form. -/
def Psd {ι : Type} [Fintype ι] (J : ι → ι → ℝ) : Prop := (∀ a b, J a b = J b a) ∧ ∀ w : ι → ℝ, 0 ≤ ∑ a, w a * ∑ b, J a b * w b

/-- Component `k` in the global frame of the local axis `d`. -/
def axisOf (T : Option (Fin 3 → Fin 3 → ℝ)) (k d : Fin 3) : ℝ := match T with | some M => M k d | none => if k = d then 1 else 0

/-- Partition of unity. -/
def Unity (q : Qp n X) : Prop := ∑ i, q.phi i = 1
end Spec

variable {n : Nat} {X : Type}

theorem vecToGlobal_neg (T : Option (Fin 3 → Fin 3 → ℝ)) (f : Dof n → ℝ) (a : Dof n) : -vecToGlobal T f a = vecToGlobal T (fun b => -f b) a := by
  cases T <;> simp [vecToGlobal, Finset.sum_neg_distrib]

theorem sum_list {α β : Type} [Fintype α] (l : List β) (g : β → α → ℝ) : ∑ a, (l.map fun q => g q a).sum = (l.map fun q => ∑ a, g q a).sum := by
  induction l with
  | nil => simp
  | cons b l ih => simp [Finset.sum_add_distrib, ih]

theorem list_congr {β : Type} (l : List β) (f g : β → ℝ) (h : ∀ q ∈ l, f q = g q) : (l.map f).sum = (l.map g).sum := by rw [List.map_congr_left h]

theorem list_mul {β : Type} (l : List β) (f : β → ℝ) (c : ℝ) : (l.map f).sum * c = (l.map fun q => f q * c).sum := by
  induction l with
  | nil => simp
  | cons b l ih => simp [add_mul, ih]

theorem list_neg {β : Type} (l : List β) (f : β → ℝ) : -(l.map f).sum = (l.map fun q => -f q).sum := by
  induction l with
  | nil => simp
  | cons b l ih => simp [neg_add, ← ih, add_comm]

/-- Virtual work of an external load: minus the integral of force times motion. -/
theorem external_work (T : Option (Fin 3 → Fin 3 → ℝ)) (pts : List (Qp n X)) (force : Qp n X → Var6 → ℝ) (u : Dof n → ℝ) :
    work (external T pts force) u = -integral pts fun q => ∑ v, force q v * motionAt T q u v := by
  unfold work external
  simp only [vecToGlobal_neg]
  rw [C111_work]
  unfold nodalForce integral motionAt
  simp only [neg_mul, Finset.sum_neg_distrib]
  congr 1
  simp only [list_mul]
  rw [sum_list]
  refine list_congr _ _ _ fun q _ => ?_
  rw [sum_dof, Fintype.sum_prod_type, Finset.mul_sum]
  refine Finset.sum_congr rfl fun r _ => ?_
  rw [Finset.mul_sum]
  refine Finset.sum_congr rfl fun k _ => ?_
  rw [Finset.mul_sum, Finset.mul_sum]
  exact Finset.sum_congr rfl fun i _ => by ring

theorem along_work (s : ℝ) (m : Fin 3 → ℝ) (T : Option (Fin 3 → Fin 3 → ℝ)) (q : Qp n X) (u : Dof n → ℝ) : ∑ v, along s m v * motionAt T q u v = s * ∑ k, m k * dispAt T q u k := by
  rw [Fintype.sum_prod_type]
  simp [along, motionAt, dispAt, Finset.mul_sum, mul_assoc]

/-! ### C114 -/

/-- A pressure on a line or surface element does the work of a force `p` per unit length or area against the local axis following the element's own axes (`y` for a line, `z` for a surface): the residual, which
has the loads with a minus sign, works `+∫ p u`. -/
theorem C114_pressure (T : Option (Fin 3 → Fin 3 → ℝ)) (dim : Fin 3) (p : X → ℝ) (pts : List (Qp n X)) (u : Dof n → ℝ) :
    work (pressureVol T dim.val p pts) u = integral pts fun q => p q.x * dispAt T q u dim := by
  unfold pressureVol
  rw [external_work]
  simp only [along_work]
  unfold integral
  rw [list_neg]
  refine list_congr _ _ _ fun q _ => ?_
  have : ∑ k, elemNormal dim.val k * dispAt T q u k = -dispAt T q u dim := by
    rw [Finset.sum_eq_single dim]
    · simp [elemNormal]
    · intro b _ hb; simp [elemNormal, Fin.val_inj, hb]
    · simp
  simp only [this]; ring

/-- A pressure on a side works along the outward normal of the side, times thickness or area. -/
theorem C114_side_pressure (T : Option (Fin 3 → Fin 3 → ℝ)) (sec : Option (Field X ℝ)) (p : Field X ℝ) (pts : List (Qp n X)) (u : Dof n → ℝ) :
    work (pressureSide T sec p pts) u = -integral pts fun q => p.val q.x * ((sec.map fun h => h.val q.x).getD 1) * ∑ k, q.normal k * dispAt T q u k := by
  unfold pressureSide
  rw [external_work]
  simp only [along_work]
  congr 1
  unfold integral
  refine list_congr _ _ _ fun q _ => ?_
  cases sec <;> simp

/-- A traction works with its local components, times the thickness. -/
theorem C114_traction (T : Option (Fin 3 → Fin 3 → ℝ)) (h : Field X ℝ) (t : Field X (Fin 3 → ℝ)) (pts : List (Qp n X)) (u : Dof n → ℝ) :
    work (traction T h t pts) u = -integral pts fun q => h.val q.x * ∑ k, t.val q.x k * dispAt T q u k := by
  unfold traction
  rw [external_work]
  congr 1
  unfold integral
  refine list_congr _ _ _ fun q _ => ?_
  beta_reduce
  rw [Fintype.sum_prod_type]
  simp only [Fintype.sum_bool, if_true, zero_mul, Finset.sum_const_zero, zero_add, Bool.false_eq_true, if_false, Finset.mul_sum]
  refine Finset.sum_congr rfl fun k _ => ?_
  simp only [motionAt, dispAt]; ring

theorem hasDerivAt_list {β : Type} (l : List β) (g : ℝ → β → ℝ) (g' : β → ℝ) (t0 : ℝ) (h : ∀ q ∈ l, HasDerivAt (fun t => g t q) (g' q) t0) :
    HasDerivAt (fun t => (l.map (g t)).sum) (l.map g').sum t0 := by
  induction l with
  | nil => simpa using hasDerivAt_const t0 (0:ℝ)
  | cons b l ih =>
    simp only [List.map_cons, List.sum_cons]
    exact HasDerivAt.add (h b (by simp)) (ih fun q hq => h q (by simp [hq]))

theorem hasDerivAt_global (T : Option (Fin 3 → Fin 3 → ℝ)) (f : ℝ → Dof n → ℝ) (f' : Dof n → ℝ) (t0 : ℝ) (h : ∀ a, HasDerivAt (fun t => f t a) (f' a) t0) (a : Dof n) :
    HasDerivAt (fun t => vecToGlobal T (f t) a) (vecToGlobal T f' a) t0 := by
  cases T with
  | none => exact h a
  | some M =>
    simp only [vecToGlobal]
    exact HasDerivAt.fun_sum fun b _ => (h b).const_mul _

theorem external_deriv (T : Option (Fin 3 → Fin 3 → ℝ)) (pts : List (Qp n X)) (force : ℝ → Qp n X → Var6 → ℝ) (dforce : Qp n X → Var6 → ℝ) (t0 : ℝ)
    (h : ∀ q ∈ pts, ∀ v, HasDerivAt (fun t => force t q v) (dforce q v) t0) (a : Dof n) : HasDerivAt (fun t => external T pts (force t) a) (external T pts dforce a) t0 := by
  unfold external
  refine HasDerivAt.fun_neg (hasDerivAt_global T _ _ t0 (fun b => ?_) a)
  unfold nodalForce
  exact hasDerivAt_list _ _ _ _ fun q hq => ((h q hq _).const_mul _).const_mul _

/-- The sensitivities of the element pressure, side pressure and traction are the derivatives with respect to the parameter, including section sizes. -/
theorem C114_sensitivity (T : Option (Fin 3 → Fin 3 → ℝ)) (dim : Nat) (p h : ℝ → X → ℝ) (tr : ℝ → X → Fin 3 → ℝ) (dp dh : X → ℝ) (dtr : X → Fin 3 → ℝ) (t0 : ℝ) (pts : List (Qp n X))
    (hp : ∀ q ∈ pts, HasDerivAt (fun t => p t q.x) (dp q.x) t0) (hh : ∀ q ∈ pts, HasDerivAt (fun t => h t q.x) (dh q.x) t0) (ht : ∀ q ∈ pts, ∀ k, HasDerivAt (fun t => tr t q.x k) (dtr q.x k) t0) (a : Dof n) :
    HasDerivAt (fun t => pressureVol T dim (p t) pts a) (pressureVolSens T dim ⟨p t0, dp⟩ pts a) t0 ∧
    HasDerivAt (fun t => pressureSide T (some ⟨h t, dh⟩) ⟨p t, dp⟩ pts a) (pressureSideSens T (some ⟨h t0, dh⟩) ⟨p t0, dp⟩ pts a) t0 ∧
    HasDerivAt (fun t => pressureSide T none ⟨p t, dp⟩ pts a) (pressureSideSens T none ⟨p t0, dp⟩ pts a) t0 ∧
    HasDerivAt (fun t => traction T ⟨h t, dh⟩ ⟨tr t, dtr⟩ pts a) (tractionSens T ⟨h t0, dh⟩ ⟨tr t0, dtr⟩ pts a) t0 := by
  have hal : ∀ (s : ℝ → ℝ) (s' : ℝ) (m : Fin 3 → ℝ) (v : Var6), HasDerivAt s s' t0 → HasDerivAt (fun t => along (s t) m v) (along s' m v) t0 := by
    intro s s' m v hs
    unfold along
    by_cases hv : v.1 = true
    · simp only [hv, if_true]; exact hasDerivAt_const t0 (0:ℝ)
    · simp only [hv, if_false]; exact hs.mul_const _
  refine ⟨external_deriv T pts _ _ t0 (fun q hq v => hal _ _ _ _ (hp q hq)) a, external_deriv T pts _ _ t0 (fun q hq v => hal _ _ _ _ ?_) a,
    external_deriv T pts _ _ t0 (fun q hq v => hal _ _ _ _ (hp q hq)) a, external_deriv T pts _ _ t0 (fun q hq v => ?_) a⟩
  · exact ((hp q hq).mul (hh q hq)).congr_deriv (by simp only; ring)
  · by_cases hv : v.1 = true
    · simp only [hv, if_true]; exact hasDerivAt_const t0 (0:ℝ)
    · have hv' : v.1 = false := by simpa using hv
      simp only [hv', if_false]
      exact ((ht q hq v.2).mul (hh q hq)).congr_deriv (by simp; ring)

/-- The linearised pressure is the derivative of the pressure load in the direction of the perturbation. -/
theorem C114_linearized (T : Option (Fin 3 → Fin 3 → ℝ)) (dim : Nat) (p dp : X → ℝ) (pts : List (Qp n X)) (a : Dof n) :
    HasDerivAt (fun t => pressureVol T dim (fun x => p x + t * dp x) pts a) (pressureLin T dim p dp pts a) 0 := by
  refine external_deriv T pts _ _ 0 (fun q _ v => ?_) a
  unfold along
  by_cases hv : v.1 = true
  · simp only [hv, if_true]; exact hasDerivAt_const (0:ℝ) (0:ℝ)
  · simp only [hv, if_false]
    exact ((((hasDerivAt_id' (0:ℝ)).mul_const (dp q.x)).const_add (p q.x)).mul_const _).congr_deriv (by simp)

/-- Weight of a moving boundary: the boundary velocity term works like the load with the normal velocity as extra weight; it sees the first `dim` components of the velocity only through the normal velocity. -/
theorem C114_boundary_velocity (T : Option (Fin 3 → Fin 3 → ℝ)) (dim : Fin 3) (p : X → ℝ) (vel : X → Fin 3 → ℝ) (pts : List (Qp n X)) (u : Dof n → ℝ) :
    work (pressureBndVel T dim.val p vel pts) u = integral pts fun q => (∑ k : Fin 3, if k.val < dim.val then vel q.x k * q.normal k else 0) * (p q.x * dispAt T q u dim) := by
  have := C114_pressure T dim p (moving dim.val vel pts) u
  unfold pressureBndVel
  unfold pressureVol at this
  rw [this]
  unfold integral moving
  rw [List.map_map]
  refine list_congr _ _ _ fun q _ => ?_
  simp only [Function.comp, jxwVn, dispAt]
  ring

/-- Resultant of a pressure for shape functions that sum to one: minus the integral of the pressure along the local axis, in global components. -/
theorem C114_resultant (T : Option (Fin 3 → Fin 3 → ℝ)) (dim : Fin 3) (p : X → ℝ) (pts : List (Qp n X)) (hu : ∀ q ∈ pts, Unity q) (k : Fin 3) :
    ∑ i, pressureVol T dim.val p pts (false, k, i) = (integral pts fun q => p q.x) * axisOf T k dim := by
  have h := C114_pressure T dim p pts (translation (n := n) (fun j => if j = k then 1 else 0))
  have hw : work (pressureVol T dim.val p pts) (translation fun j => if j = k then 1 else 0) = ∑ i, pressureVol T dim.val p pts (false, k, i) := by
    unfold work
    rw [sum_dof]
    simp [translation]
  rw [hw] at h
  rw [h]
  unfold integral
  rw [list_mul]
  refine list_congr _ _ _ fun q hq => ?_
  have hv : ∀ i, vecToLocal T (translation (n := n) (fun j => if j = k then 1 else 0)) (false, dim, i) = axisOf T k dim := by
    intro i
    cases T with
    | none => simp [vecToLocal, translation, axisOf, eq_comm]
    | some M => simp [vecToLocal, translation, dofMat, sum_dof, axisOf]
  simp only [dispAt, hv, ← Finset.sum_mul]
  rw [show ∑ i, q.phi i = 1 from hu q hq]; simp only [one_mul]; ring

/-- One node, weight two, pressure three on a surface element without local frame: the residual is +6 along z. -/
example : pressureVol (n := 1) none 2 (fun _ : Unit => 3) [⟨(), 2, fun _ => 1, fun _ => 0⟩] (false, 2, 0) = 6 := by
  simp [pressureVol, external, vecToGlobal, nodalForce, along, elemNormal]; norm_num

/-! ### C115 -/

theorem consistentRes_eq (M : Qp n X → Var6 → Var6 → ℝ) (pts : List (Qp n X)) (acc : Dof n → ℝ) (a : Dof n) : consistentRes M pts acc a = ∑ b, consistent M pts a b * acc b := by
  unfold consistentRes consistent
  simp only [list_mul]
  rw [sum_list]
  refine list_congr _ _ _ fun q _ => ?_
  rw [Finset.mul_sum, Finset.mul_sum]
  exact Finset.sum_congr rfl fun b _ => by ring

theorem inertiaLocal_eq (diag : Bool) (M : X → Var6 → Var6 → ℝ) (pts : List (Qp n X)) (acc : Dof n → ℝ) :
    inertiaLocal diag M pts acc = (inertiaJac diag M pts).map fun J a => ∑ b, J a b * acc b := by
  unfold inertiaLocal inertiaJac
  cases diag
  · simp only [Bool.false_eq_true, if_false, Option.map_some]
    congr 1; funext a; exact consistentRes_eq _ _ _ _
  · simp only [if_true]
    cases pts <;> rfl

/-- The mass matrix is the Jacobian of the inertial residual with respect to the accelerations, in the global frame, for both formulations; they are undefined together. -/
theorem C115_jacobian (T : Option (Fin 3 → Fin 3 → ℝ)) (diag : Bool) (M : X → Var6 → Var6 → ℝ) (pts : List (Qp n X)) :
    (inertiaMass T diag M pts = none ∧ ∀ acc : Dof n → ℝ, inertiaRes T diag M pts acc = none) ∨
    ∃ J R, inertiaMass T diag M pts = some J ∧ (∀ acc, inertiaRes T diag M pts acc = some (R acc)) ∧ (∀ acc a, R acc a = ∑ b, J a b * acc b) ∧ ∀ acc : Dof n → ℝ, IsJacobian R J acc := by
  unfold inertiaMass inertiaRes
  simp only [inertiaLocal_eq]
  cases h : inertiaJac diag M pts with
  | none => left; simp
  | some J =>
    right
    have hlin : ∀ acc a, vecToGlobal T (fun a => ∑ b, J a b * vecToLocal T acc b) a = ∑ b, matToGlobal T J a b * acc b := fun acc a => mat_apply T J acc a |>.symm
    refine ⟨matToGlobal T J, fun acc => vecToGlobal T (fun a => ∑ b, J a b * vecToLocal T acc b), by simp, by simp, hlin, ?_⟩
    intro acc w a
    simp only [hlin]
    have : (fun t : ℝ => ∑ b, matToGlobal T J a b * (acc b + t * w b)) = fun t => (∑ b, matToGlobal T J a b * acc b) + t * ∑ b, matToGlobal T J a b * w b := by
      funext t; rw [Finset.mul_sum, ← Finset.sum_add_distrib]; exact Finset.sum_congr rfl fun b _ => by ring
    rw [this]
    exact (((hasDerivAt_id' (0:ℝ)).mul_const _).const_add _).congr_deriv (by simp)


theorem consistent_work (M : Qp n X → Var6 → Var6 → ℝ) (pts : List (Qp n X)) (acc w : Dof n → ℝ) :
    ∑ a, w a * ∑ b, consistent M pts a b * acc b = integral pts fun q => ∑ v, ∑ v', interp q w v * M q v v' * interp q acc v' := by
  simp only [← consistentRes_eq]
  unfold consistentRes integral
  simp only [mul_comm (w _), list_mul]
  rw [sum_list]
  refine list_congr _ _ _ fun q _ => ?_
  have inner : ∀ v : Var6, ∑ b : Dof n, M q v (b.1, b.2.1) * q.phi b.2.2 * acc b = ∑ v' : Var6, M q v v' * interp q acc v' := by
    intro v
    rw [sum_dof, Fintype.sum_prod_type]
    refine Finset.sum_congr rfl fun r _ => Finset.sum_congr rfl fun k _ => ?_
    rw [interp, Finset.mul_sum]
    exact Finset.sum_congr rfl fun i _ => by ring
  simp only [inner]
  rw [sum_dof, Fintype.sum_prod_type, Finset.mul_sum]
  refine Finset.sum_congr rfl fun r _ => ?_
  rw [Finset.mul_sum]
  refine Finset.sum_congr rfl fun k _ => ?_
  rw [Finset.mul_sum, interp]
  have : ∀ v', (∑ i, q.phi i * w (r, k, i)) * M q (r, k) v' * interp q acc v' = ∑ i, (q.phi i * w (r, k, i)) * (M q (r, k) v' * interp q acc v') := by
    intro v'; rw [Finset.sum_mul, Finset.sum_mul]; exact Finset.sum_congr rfl fun i _ => by ring
  simp only [this]
  rw [← Finset.mul_sum, Finset.sum_comm, Finset.mul_sum]
  refine Finset.sum_congr rfl fun i _ => ?_
  rw [← Finset.mul_sum]; ring

theorem lumped_work (M0 : Var6 → Var6 → ℝ) (pts : List (Qp n X)) (acc w : Dof n → ℝ) :
    ∑ a, w a * ∑ b, lumped M0 pts a b * acc b = ∑ a, (pts.map fun q => q.JxW).sum / n * M0 (a.1, a.2.1) (a.1, a.2.1) * (w a * acc a) := by
  refine Finset.sum_congr rfl fun a _ => ?_
  rw [Finset.sum_eq_single a]
  · simp only [lumped, if_true]; ring
  · intro b _ hb; simp [lumped, Ne.symm hb]
  · simp

/-- Principle of virtual work for the consistent formulation: the inertial residual works as the integral of the inertia matrix between the interpolated acceleration and the interpolated motion, both in the local
frame; for the lumped formulation as point masses at the nodes. -/
theorem C115_work (T : Option (Fin 3 → Fin 3 → ℝ)) (M : X → Var6 → Var6 → ℝ) (pts : List (Qp n X)) (acc w : Dof n → ℝ) :
    (∃ f, inertiaRes T false M pts acc = some f ∧ work f w = integral pts fun q => ∑ v, ∑ v', motionAt T q w v * M q.x v v' * motionAt T q acc v') ∧
    ∀ q0 rest, pts = q0 :: rest → ∃ f, inertiaRes T true M pts acc = some f ∧
      work f w = ∑ a, (integral pts fun _ => 1) / n * M q0.x (a.1, a.2.1) (a.1, a.2.1) * (vecToLocal T w a * vecToLocal T acc a) := by
  have hw : ∀ f, work (vecToGlobal T f) w = ∑ a, vecToLocal T w a * f a := by
    intro f; unfold work; rw [C111_work]; exact Finset.sum_congr rfl fun _ _ => mul_comm _ _
  constructor
  · refine ⟨_, rfl, ?_⟩
    rw [hw]
    simp only [consistentRes_eq]
    rw [consistent_work]
    rfl
  · rintro q0 rest rfl
    refine ⟨_, rfl, ?_⟩
    rw [hw, lumped_work]
    simp [integral]

/-- The mass matrix is symmetric and positive semidefinite whenever the inertia matrices are and the quadrature weights are nonnegative. -/
theorem C115_psd (T : Option (Fin 3 → Fin 3 → ℝ)) (diag : Bool) (M : X → Var6 → Var6 → ℝ) (pts : List (Qp n X)) (hM : ∀ q ∈ pts, Psd (M q.x)) (hJ : ∀ q ∈ pts, 0 ≤ q.JxW) (J : Dof n → Dof n → ℝ)
    (h : inertiaMass T diag M pts = some J) : Psd J := by
  unfold inertiaMass at h
  cases hj : inertiaJac diag M pts with
  | none => rw [hj] at h; exact absurd h (by simp)
  | some K =>
    rw [hj] at h
    simp only [Option.map_some, Option.some.injEq] at h
    subst h
    have hK : Psd K := by
      unfold inertiaJac at hj
      cases diag with
      | false =>
        simp only [Bool.false_eq_true, if_false, Option.some.injEq] at hj
        subst hj
        constructor
        · intro a b
          unfold consistent
          refine list_congr _ _ _ fun q hq => ?_
          beta_reduce; rw [(hM q hq).1 (a.1, a.2.1)]; ring
        · intro w
          rw [consistent_work]
          unfold integral
          refine List.sum_nonneg fun x hx => ?_
          rw [List.mem_map] at hx
          obtain ⟨q, hq, rfl⟩ := hx
          refine mul_nonneg (hJ q hq) ?_
          have := (hM q hq).2 (interp q w)
          simpa only [Finset.mul_sum, mul_assoc] using this
      | true =>
        simp only [if_true] at hj
        cases pts with
        | nil => exact absurd hj (by simp)
        | cons q0 rest =>
          simp only [Option.some.injEq] at hj
          subst hj
          constructor
          · intro a b
            unfold lumped
            by_cases hab : a = b
            · rw [hab]
            · rw [if_neg hab, if_neg (Ne.symm hab)]
          · intro w
            rw [lumped_work]
            refine Finset.sum_nonneg fun a _ => ?_
            have hv : 0 ≤ ((q0 :: rest).map fun q => q.JxW).sum := List.sum_nonneg fun x hx => by
              rw [List.mem_map] at hx
              obtain ⟨q, hq, rfl⟩ := hx
              exact hJ q hq
            have hd : 0 ≤ M q0.x (a.1, a.2.1) (a.1, a.2.1) := by
              have := (hM q0 (by simp)).2 (fun v => if v = (a.1, a.2.1) then 1 else 0)
              simpa using this
            exact mul_nonneg (mul_nonneg (div_nonneg hv (Nat.cast_nonneg _)) hd) (mul_self_nonneg _)
    have hq := C111_quadratic T K
    exact ⟨hq.2.1 hK.1, hq.2.2.1 hK.2⟩

/-- Sensitivity: the derivative of the inertial residual at fixed accelerations when `dM` is the derivative of the inertia matrix. -/
theorem C115_sensitivity (T : Option (Fin 3 → Fin 3 → ℝ)) (diag : Bool) (M : ℝ → X → Var6 → Var6 → ℝ) (dM : X → Var6 → Var6 → ℝ) (t0 : ℝ) (pts : List (Qp n X)) (acc : Dof n → ℝ)
    (hM : ∀ q ∈ pts, ∀ v v', HasDerivAt (fun t => M t q.x v v') (dM q.x v v') t0) (g : Dof n → ℝ) (h : inertiaSens T diag ⟨M t0, dM⟩ pts acc = some g) :
    ∃ f : ℝ → Dof n → ℝ, (∀ t, inertiaRes T diag (M t) pts acc = some (f t)) ∧ ∀ a, HasDerivAt (fun t => f t a) (g a) t0 := by
  unfold inertiaSens inertiaRes inertiaLocal at h
  unfold inertiaRes inertiaLocal
  cases diag with
  | false =>
    simp only [Bool.false_eq_true, if_false, Option.map_some, Option.some.injEq] at h ⊢
    subst h
    refine ⟨_, fun t => rfl, fun a => hasDerivAt_global T _ _ t0 (fun b => ?_) a⟩
    unfold consistentRes
    refine hasDerivAt_list _ _ _ _ fun q hq => ?_
    exact ((HasDerivAt.fun_sum fun c _ => ((hM q hq _ _).mul_const _).mul_const _).const_mul _).const_mul _
  | true =>
    cases pts with
    | nil => simp at h
    | cons q0 rest =>
      simp only [if_true, Option.map_some, Option.some.injEq] at h ⊢
      subst h
      refine ⟨_, fun t => rfl, fun a => hasDerivAt_global T _ _ t0 (fun b => ?_) a⟩
      refine HasDerivAt.fun_sum fun c _ => ?_
      unfold lumped
      by_cases hbc : b = c
      · simp only [if_pos hbc]; exact ((hM q0 (by simp) _ _).const_mul _).mul_const _
      · simp only [if_neg hbc, zero_mul]; exact hasDerivAt_const t0 (0:ℝ)

/-- A section without coupling: mass `m` per unit length, area or volume. -/
def Massive (m : ℝ) (M : Var6 → Var6 → ℝ) : Prop := ∀ k k' : Fin 3, M (false, k) (false, k') = if k = k' then m else 0

theorem local_translation (T : Fin 3 → Fin 3 → ℝ) (c : Fin 3 → ℝ) (r : Bool) (k : Fin 3) (i : Fin n) : vecToLocal (some T) (translation c) (r, k, i) = if r then 0 else ∑ j, T j k * c j := by
  simp only [vecToLocal, translation, dofMat, sum_dof, Fintype.sum_bool]
  cases r <;> simp

/-- A rigid translation: the resultant of the consistent inertia force is the mass of the element times the acceleration, whatever the frame. -/
theorem C115_translation (T : Option (Fin 3 → Fin 3 → ℝ)) (hT : Frame T) (M : X → Var6 → Var6 → ℝ) (m : X → ℝ) (pts : List (Qp n X)) (hu : ∀ q ∈ pts, Unity q) (hm : ∀ q ∈ pts, Massive (m q.x) (M q.x))
    (c : Fin 3 → ℝ) (k : Fin 3) : ∃ f, inertiaRes T false M pts (translation c) = some f ∧ ∑ i, f (false, k, i) = (integral pts fun q => m q.x) * c k := by
  obtain ⟨f, hf, hw⟩ := (C115_work T M pts (translation c) (translation (n := n) (fun j => if j = k then 1 else 0))).1
  refine ⟨f, hf, ?_⟩
  have h0 : work f (translation fun j => if j = k then 1 else 0) = ∑ i, f (false, k, i) := by
    unfold work; rw [sum_dof]; simp [translation]
  rw [← h0, hw]
  unfold integral
  rw [list_mul]
  refine list_congr _ _ _ fun q hq => ?_
  have hmot : ∀ (d : Fin 3 → ℝ) (v : Var6), motionAt T q (translation d) v = if v.1 then 0 else (match T with | some N => ∑ j, N j v.2 * d j | none => d v.2) := by
    intro d v
    unfold motionAt
    cases T with
    | none =>
      simp only [vecToLocal, translation]
      rw [← Finset.sum_mul, show ∑ i, q.phi i = 1 from hu q hq, one_mul]
    | some N =>
      simp only [local_translation]
      rw [← Finset.sum_mul, show ∑ i, q.phi i = 1 from hu q hq, one_mul]
  simp only [hmot]
  rw [Fintype.sum_prod_type]
  simp only [Fintype.sum_prod_type, Fintype.sum_bool, if_true, zero_mul, Finset.sum_const_zero, zero_add, Bool.false_eq_true, if_false, mul_zero, add_zero]
  have hk := hm q hq
  simp only [Massive] at hk
  simp only [hk]
  cases T with
  | none => simp; ring
  | some N =>
    have hrows := rows (hT N rfl)
    have : ∀ (x : Fin 3), (∑ x_1, (∑ j, N j x * if j = k then 1 else 0) * (if x = x_1 then m q.x else 0) * ∑ j, N j x_1 * c j) = m q.x * (N k x * ∑ j, N j x * c j) := by
      intro x
      rw [Finset.sum_eq_single x]
      · simp; ring
      · intro b _ hb; simp [Ne.symm hb]
      · simp
    simp only [this]
    rw [← Finset.mul_sum]
    have e : ∑ x, N k x * ∑ j, N j x * c j = c k := by
      simp only [Finset.mul_sum]
      rw [Finset.sum_comm]
      rw [Finset.sum_eq_single k]
      · have := hrows k k
        simp only [if_true] at this
        have h2 : ∑ x, N k x * (N k x * c k) = (∑ x, N k x * N k x) * c k := by rw [Finset.sum_mul]; exact Finset.sum_congr rfl fun _ _ => by ring
        rw [h2, this, one_mul]
      · intro b _ hb
        have := hrows k b
        rw [if_neg (Ne.symm hb)] at this
        have h2 : ∑ x, N k x * (N b x * c b) = (∑ x, N k x * N b x) * c b := by rw [Finset.sum_mul]; exact Finset.sum_congr rfl fun _ _ => by ring
        rw [h2, this, zero_mul]
      · simp
    rw [e]; ring

/-- The boundary velocity term is the inertial residual weighted with the normal velocity: linear in the velocity and blind to components beyond `dim` and to tangential velocity. -/
theorem C115_boundary_velocity (T : Option (Fin 3 → Fin 3 → ℝ)) (dim : Nat) (M : X → Var6 → Var6 → ℝ) (vel : X → Fin 3 → ℝ) (pts : List (Qp n X)) (acc w : Dof n → ℝ) :
    ∃ f, inertiaBndVel T dim false M vel pts acc = some f ∧
      work f w = integral pts fun q => (∑ k : Fin 3, if k.val < dim then vel q.x k * q.normal k else 0) * ∑ v, ∑ v', motionAt T q w v * M q.x v v' * motionAt T q acc v' := by
  obtain ⟨f, hf, hw⟩ := (C115_work T M (moving dim vel pts) acc w).1
  refine ⟨f, hf, ?_⟩
  rw [hw]
  unfold integral moving
  rw [List.map_map]
  refine list_congr _ _ _ fun q _ => ?_
  simp only [Function.comp, jxwVn, motionAt, mul_assoc]

/-! Solids -/

theorem consistentRes_congr {n : Nat} {X : Type} (M N : Qp n X → Var6 → Var6 → ℝ) (pts : List (Qp n X)) (h : ∀ q ∈ pts, M q = N q) (acc : Dof n → ℝ) (a : Dof n) : consistentRes M pts acc a = consistentRes N pts acc a := by
  unfold consistentRes
  exact list_congr _ _ _ fun q hq => by rw [h q hq]

/-- Full statement: the inertial residual of a solid element adds to `f` the consistent or lumped inertia force of the translations.  Proved when the inertia matrix is the same at all points, and for the
lumped branch when `f` is zero on entry. -/
theorem C115_solid_partial (diag : Bool) (M : X → Fin 3 → Fin 3 → ℝ) (M0 : Fin 3 → Fin 3 → ℝ) (q0 : Qp n X) (pts : List (Qp n X)) (hM : ∀ q ∈ q0 :: pts, M q.x = M0) (acc f : Dof n → ℝ)
    (hf : diag = true → f = fun _ => 0) :
    ∃ g, inertiaRes none diag (fun x => solidMat (M x)) (q0 :: pts) acc = some g ∧ inertia3 diag M (q0 :: pts) acc f = some fun a => f a + g a := by
  cases diag with
  | false =>
    refine ⟨_, rfl, ?_⟩
    unfold inertia3
    simp only [Bool.false_eq_true, if_false, Option.some.injEq]
    funext a
    simp only [vecToGlobal, vecToLocal]
    congr 1
    exact consistentRes_congr _ _ _ (fun q hq => by simp only [hM q hq, hM q0 (by simp)]) acc a
  | true =>
    refine ⟨_, rfl, ?_⟩
    unfold inertia3
    simp only [if_true, Option.some.injEq]
    funext a
    simp only [vecToGlobal, vecToLocal, hf rfl, zero_add]
    split
    · rename_i ha
      rw [eq_comm]
      refine Finset.sum_eq_zero fun b _ => ?_
      by_cases hab : a = b <;> simp [lumped, hab, solidMat]
      subst hab; intro h; exact absurd (h.symm.trans ha) (by simp)
    · rfl

/-- Two points of equal weight with densities 1 and 3 and one node. -/
def varying : List (Qp 1 Bool) := [⟨false, 1, fun _ => 1, fun _ => 0⟩, ⟨true, 1, fun _ => 1, fun _ => 0⟩]
def rho (b : Bool) : ℝ := if b then 3 else 1

/-- Finding: with a density varying over the element the lumped formulation, and the consistent formulation of solids, have the wrong total mass (the density of the first quadrature point is used throughout). -/
theorem C115_varying_fails : (integral varying fun q => rho q.x) = 4 ∧
    (∃ f, inertiaRes none true (fun x v v' => if v = v' then rho x else 0) varying (translation fun _ => 1) = some f ∧ ∑ i, f (false, 0, i) = 2) ∧
    (∃ f, inertia3 false (fun x k k' => if k = k' then rho x else 0) varying (translation fun _ => 1) (fun _ => 0) = some f ∧ ∑ i, f (false, 0, i) = 2) := by
  refine ⟨by simp [integral, varying, rho]; norm_num, ⟨_, rfl, ?_⟩, ⟨_, rfl, ?_⟩⟩
  · simp only [vecToGlobal, vecToLocal, Finset.univ_unique, Fin.default_eq_zero, Finset.sum_singleton, sum_dof, lumped, varying, translation, rho]
    simp [Fin.sum_univ_three]; norm_num
  · simp only [Finset.univ_unique, Fin.default_eq_zero, Finset.sum_singleton, consistentRes, sum_dof, varying, translation, rho, solidMat]
    simp [Fin.sum_univ_three]; norm_num

/-- Finding: the lumped branch of the solid element discards what `f` held: an element vector with a 5 in a translational row and zero acceleration comes back as zero. -/
theorem C115_solid_overwrite_fails : ∃ (pts : List (Qp 1 Bool)) (M : Bool → Fin 3 → Fin 3 → ℝ) (f g : Dof 1 → ℝ), inertia3 true M pts (fun _ => 0) f = some g ∧ f (false, 0, 0) = 5 ∧ g (false, 0, 0) = 0 := by
  refine ⟨varying, fun _ _ _ => 1, fun _ => 5, _, rfl, rfl, ?_⟩
  simp

/-- Finding: the sensitivity of the inertial residual of a solid element reads a 3 by 3 matrix as if it were 6 by 6, for every element, every state and both formulations. -/
theorem C115_solid_sensitivity_fails (diag : Bool) (dM : X → Var6 → Var6 → ℝ) (pts : List (Qp n X)) (acc : Dof n → ℝ) (h : pts ≠ []) : inertiaSens3 diag 3 dM pts acc = .ub := by
  simp [inertiaSens3, h]

/-- Hypotheses of C115_translation and C115_psd: two points, mass 1 and 3. -/
example : (∀ q ∈ varying, Unity q) ∧ (∀ q ∈ varying, Massive (rho q.x) (fun v v' => if v = v' then rho q.x else 0)) ∧ (∀ q ∈ varying, Psd (fun v v' : Var6 => if v = v' then rho q.x else 0)) ∧ ∀ q ∈ varying, 0 ≤ q.JxW := by
  refine ⟨by simp [varying, Unity], fun q _ k k' => by simp, fun q _ => ⟨fun a b => by simp only [eq_comm], fun w => ?_⟩, by simp [varying]⟩
  refine Finset.sum_nonneg fun a _ => ?_
  have : 0 ≤ rho q.x := by unfold rho; split <;> norm_num
  simp only [ite_mul, zero_mul, Finset.sum_ite_eq, Finset.mem_univ, if_true]
  nlinarith [mul_self_nonneg (w a), mul_nonneg this (mul_self_nonneg (w a))]

end Verif.StructLoads
