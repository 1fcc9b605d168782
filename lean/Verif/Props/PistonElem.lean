import Verif.Model.PistonElem
import Verif.Props.Piston
import Verif.Props.Shell
import Verif.Props.StructInertia
import Mathlib.Tactic.LinearCombination
import Mathlib.Tactic.Positivity
import Mathlib.Tactic.FinCases
import Mathlib.Tactic.IntervalCases
/-
  C152: piston theory load of a shell.
  C153: piston theory load of a beam.
-/
namespace Verif.PistonElem
open Verif.GeomElem Verif.StructLoads Verif.Piston
open Verif.Shell (shape app appT sandwich sum_shape sandwich_sum unitDof sum_unit)

variable {n : Nat} {X : Type}

/-! ### Specification -/

/-- The stream is supersonic and moves. -/
def Fast (s : Stream) : Prop := 1 < s.M * s.M ∧ s.V ≠ 0

/-- Displacement component `k` at a point (`k = 2`: normal to a shell). -/
def disp (k : Fin 3) (q : Pqp n X) (u : Dof n → ℝ) : ℝ := ∑ i, q.phi i * u (false, k, i)

/-- Slopes of displacement component `k`. -/
def slopeX (k : Fin 3) (q : Pqp n X) (u : Dof n → ℝ) : ℝ := ∑ i, q.dx i * u (false, k, i)
def slopeY (k : Fin 3) (q : Pqp n X) (u : Dof n → ℝ) : ℝ := ∑ i, q.dy i * u (false, k, i)

/-- Piston pressure of a stream on a surface with the given slope along the stream and velocity normal to the surface. -/
noncomputable def pistonPressure (order : Nat) (s : Stream) (slope velocity : ℝ) : ℝ := pressure order ⟨s.V, s.M, s.rho, s.gamma, slope, velocity⟩

/-- Differentiable dependence of a stream on a parameter. -/
structure StreamFamily (s : ℝ → Stream) (d : Stream) : Prop where
  V : HasDerivAt (fun t => (s t).V) d.V 0
  M : HasDerivAt (fun t => (s t).M) d.M 0
  rho : HasDerivAt (fun t => (s t).rho) d.rho 0
  gamma : HasDerivAt (fun t => (s t).gamma) d.gamma 0

/-! ### Lemmas -/

theorem Fast.flow {s : Stream} (h : Fast s) (a b : ℝ) : Supersonic (s.flow a b) := h

theorem rate_eq (q : Pqp n X) (v : Dof n → ℝ) : rate q v = disp 2 q v := by
  unfold rate app Bw disp
  simp only [Matrix.cons_val_zero]
  exact sum_shape _ _ _

theorem slopeVal_eq (m : Fin 3 → ℝ) (q : Pqp n X) (u : Dof n → ℝ) : slopeVal m q u = slopeX 2 q u * m 0 + slopeY 2 q u * m 1 := rfl

theorem disp_line (k : Fin 3) (q : Pqp n X) (u w : Dof n → ℝ) (t : ℝ) : disp k q (fun b => u b + t * w b) = disp k q u + t * disp k q w := by
  unfold disp
  rw [Finset.mul_sum, ← Finset.sum_add_distrib]
  exact Finset.sum_congr rfl fun i _ => by ring

theorem slopeX_line (k : Fin 3) (q : Pqp n X) (u w : Dof n → ℝ) (t : ℝ) : slopeX k q (fun b => u b + t * w b) = slopeX k q u + t * slopeX k q w := by
  unfold slopeX
  rw [Finset.mul_sum, ← Finset.sum_add_distrib]
  exact Finset.sum_congr rfl fun i _ => by ring

theorem slopeY_line (k : Fin 3) (q : Pqp n X) (u w : Dof n → ℝ) (t : ℝ) : slopeY k q (fun b => u b + t * w b) = slopeY k q u + t * slopeY k q w := by
  unfold slopeY
  rw [Finset.mul_sum, ← Finset.sum_add_distrib]
  exact Finset.sum_congr rfl fun i _ => by ring

theorem shellForce_eq (order : Nat) (s : X → Stream) (m : Fin 3 → ℝ) (pts : List (Pqp n X)) (u udot : Dof n → ℝ) (a : Dof n) :
    shellForce order s m pts u udot a = (pts.map fun q => q.JxW * -pistonPressure order (s q.x) (slopeX 2 q u * m 0 + slopeY 2 q u * m 1) (disp 2 q udot) * shape Shell.W q.phi a).sum := by
  unfold shellForce
  congr 1
  refine List.map_congr_left fun q _ => ?_
  simp only [appT, Bw, Fin.sum_univ_two, Matrix.cons_val_zero, Matrix.cons_val_one, slopeVal_eq, rate_eq, Stream.flow, pistonPressure]
  ring

theorem sum_list' {α β : Type} [Fintype β] (l : List α) (f : α → β → ℝ) : ∑ b, (l.map fun q => f q b).sum = (l.map fun q => ∑ b, f q b).sum := by
  induction l with
  | nil => simp
  | cons q l ih => simp only [List.map_cons, List.sum_cons, Finset.sum_add_distrib, ih]

theorem list_mul_right {α : Type} (l : List α) (f : α → ℝ) (c : ℝ) : (l.map f).sum * c = (l.map fun q => f q * c).sum := by
  induction l with
  | nil => simp
  | cons q l ih => simp only [List.map_cons, List.sum_cons, add_mul, ih]

/-- Pressure along a path of slope and velocity. -/
theorem pressure_path (order : Nat) (s : Stream) (h : Fast s) (a da b db : ℝ) :
    HasDerivAt (fun t => pistonPressure order s (a + t * da) (b + t * db)) (pressureX order (s.flow a b) * da + pressureXdot order (s.flow a b) * db) 0 := by
  have c : ∀ x : ℝ, HasDerivAt (fun _ : ℝ => x) 0 0 := fun x => hasDerivAt_const _ _
  have ln : ∀ x y : ℝ, HasDerivAt (fun t : ℝ => x + t * y) y 0 := fun x y => by simpa using ((hasDerivAt_id' (0:ℝ)).mul_const y).const_add x
  have key : ∀ da db : ℝ, HasDerivAt (fun t => pistonPressure order s (a + t * da) (b + t * db)) (pressureSens order (s.flow a b) ⟨0, 0, 0, 0, da, db⟩) 0 := by
    intro da db
    have := C112_sensitivity order (fun t => ⟨s.V, s.M, s.rho, s.gamma, a + t * da, b + t * db⟩) ⟨0, 0, 0, 0, da, db⟩ ⟨c _, c _, c _, c _, ln a da, ln b db⟩ ⟨h.1, h.2⟩
    refine this.congr_deriv ?_
    simp only [Stream.flow, zero_mul, add_zero]
  have hx : pressureX order (s.flow a b) = pressureSens order (s.flow a b) ⟨0, 0, 0, 0, 1, 0⟩ := by
    have h1 := (C112_derivatives order (s.flow a b) h).1
    have h2 := key 1 0
    have h3 : HasDerivAt (fun t : ℝ => a + t * 1) 1 0 := ln a 1
    have h1' : HasDerivAt (fun w => pressure order { s.flow a b with dwdx := w }) (pressureX order (s.flow a b)) (a + 0 * 1) := by simpa [Stream.flow] using h1
    have h4 := HasDerivAt.comp (0:ℝ) h1' h3
    refine HasDerivAt.unique (h4.congr_deriv (mul_one _) |>.congr_of_eventuallyEq ?_) h2
    refine Filter.Eventually.of_forall fun t => ?_
    simp [pistonPressure, Stream.flow, Function.comp]
  have ht : pressureXdot order (s.flow a b) = pressureSens order (s.flow a b) ⟨0, 0, 0, 0, 0, 1⟩ := by
    have h1 := (C112_derivatives order (s.flow a b) h).2
    have h2 := key 0 1
    have h3 : HasDerivAt (fun t : ℝ => b + t * 1) 1 0 := ln b 1
    have h1' : HasDerivAt (fun w => pressure order { s.flow a b with dwdt := w }) (pressureXdot order (s.flow a b)) (b + 0 * 1) := by simpa [Stream.flow] using h1
    have h4 := HasDerivAt.comp (0:ℝ) h1' h3
    refine HasDerivAt.unique (h4.congr_deriv (mul_one _) |>.congr_of_eventuallyEq ?_) h2
    refine Filter.Eventually.of_forall fun t => ?_
    simp [pistonPressure, Stream.flow, Function.comp]
  refine (key da db).congr_deriv ?_
  rw [hx, ht]
  have e1 : ∀ da db : ℝ, dv1 (s.flow a b) ⟨0, 0, 0, 0, da, db⟩ = da * dv1 (s.flow a b) ⟨0, 0, 0, 0, 1, 0⟩ + db * dv1 (s.flow a b) ⟨0, 0, 0, 0, 0, 1⟩ := by
    intros; simp only [dv1, dmf]; ring
  have e0 : ∀ da db : ℝ, dv0 (s.flow a b) ⟨0, 0, 0, 0, da, db⟩ = da * dv0 (s.flow a b) ⟨0, 0, 0, 0, 1, 0⟩ + db * dv0 (s.flow a b) ⟨0, 0, 0, 0, 0, 1⟩ := by
    intros; simp only [dv0, dmf]; ring
  have e2 : ∀ da db : ℝ, dv2 (s.flow a b) ⟨0, 0, 0, 0, da, db⟩ = da * dv2 (s.flow a b) ⟨0, 0, 0, 0, 1, 0⟩ + db * dv2 (s.flow a b) ⟨0, 0, 0, 0, 0, 1⟩ := by
    intros; simp only [dv2, dmf]; ring
  have e3 : ∀ da db : ℝ, df1 (s.flow a b) ⟨0, 0, 0, 0, da, db⟩ = 0 := by intros; simp [df1]
  simp only [pressureSens, e3, dv3]
  rw [e1 da db, e0 da db, e2 da db]
  unfold byOrder
  split <;> ring

/-- Derivative of the local load of a shell along a path of displacement and velocity. -/
theorem shellForce_path (order : Nat) (s : X → Stream) (m : Fin 3 → ℝ) (pts : List (Pqp n X)) (hf : ∀ q ∈ pts, Fast (s q.x)) (u v du dv : Dof n → ℝ) (a : Dof n) :
    HasDerivAt (fun t => shellForce order s m pts (fun b => u b + t * du b) (fun b => v b + t * dv b) a)
      (pts.map fun q => q.JxW * -(pressureX order ((s q.x).flow (slopeVal m q u) (rate q v)) * slopeVal m q du + pressureXdot order ((s q.x).flow (slopeVal m q u) (rate q v)) * disp 2 q dv) *
        shape Shell.W q.phi a).sum 0 := by
  simp only [shellForce_eq]
  refine hasDerivAt_list pts _ _ 0 fun q hq => ?_
  refine HasDerivAt.mul_const (HasDerivAt.const_mul _ (HasDerivAt.fun_neg ?_)) _
  refine (pressure_path order (s q.x) (hf q hq) (slopeVal m q u) (slopeVal m q du) (rate q v) (disp 2 q dv)).congr_of_eventuallyEq (Filter.Eventually.of_forall fun t => ?_)
  simp only [disp_line, slopeX_line, slopeY_line, slopeVal_eq, rate_eq]
  congr 1
  ring

/-! ### C152 -/

/-- Flow direction in the axes of a shell with frame `T`. -/
theorem shellDir_some (T : Fin 3 → Fin 3 → ℝ) (dir : Fin 3 → ℝ) : shellDir (some T) dir = .ok (localDir T dir) := rfl

/-- C152: the residual a shell reports for its piston theory load does, over any virtual displacement, the work of the pressure of the stream against the motion of the surface normal to itself; the slope
entering the pressure is taken along the flow direction, the velocity is that of the surface. -/
theorem C152_work (order : Nat) (s : X → Stream) (dir : Fin 3 → ℝ) (T : Fin 3 → Fin 3 → ℝ) (pts : List (Pqp n X)) (u udot : Dof n → ℝ) :
    ∃ f, shellRes order s dir (some T) pts u udot = .ok f ∧ ∀ δ : Dof n → ℝ, work f δ = (pts.map fun q => q.JxW *
      pistonPressure order (s q.x)
        (slopeX 2 q (vecToLocal (some T) u) * (∑ j, T j 0 * dir j) + slopeY 2 q (vecToLocal (some T) u) * (∑ j, T j 1 * dir j)) (disp 2 q (vecToLocal (some T) udot)) *
      disp 2 q (vecToLocal (some T) δ)).sum := by
  refine ⟨_, rfl, fun δ => ?_⟩
  unfold work
  simp only [neg_mul, Finset.sum_neg_distrib]
  rw [C111_work]
  simp only [shellForce_eq, list_mul_right]
  rw [sum_list', list_neg]
  congr 1
  refine List.map_congr_left fun q _ => ?_
  have : ∀ c : ℝ, ∑ a, c * shape Shell.W q.phi a * vecToLocal (some T) δ a = c * disp 2 q (vecToLocal (some T) δ) := by
    intro c
    rw [disp, ← sum_shape Shell.W q.phi, Finset.mul_sum]
    exact Finset.sum_congr rfl fun _ _ => by ring
  rw [this]
  simp only [localDir]
  ring

/-- C152: the velocity Jacobian is exact. -/
theorem C152_velocity_jacobian (order : Nat) (s : X → Stream) (dir : Fin 3 → ℝ) (T : Fin 3 → Fin 3 → ℝ) (pts : List (Pqp n X)) (hf : ∀ q ∈ pts, Fast (s q.x)) (u udot : Dof n → ℝ) :
    ∃ (f : (Dof n → ℝ) → Dof n → ℝ) (J : Dof n → Dof n → ℝ), (∀ v, shellRes order s dir (some T) pts u v = .ok (f v)) ∧ shellResJacXdot order s dir (some T) pts u udot = .ok J ∧ IsJacobian f J udot := by
  refine ⟨_, _, fun v => rfl, rfl, fun w a => ?_⟩
  simp only [neg_mul, Finset.sum_neg_distrib]
  refine HasDerivAt.fun_neg ?_
  refine C111_jacobian (some T) (fun v => shellForce order s (localDir T dir) pts (vecToLocal (some T) u) v) _ udot (fun w a => ?_) w a
  have := shellForce_path order s (localDir T dir) pts hf (vecToLocal (some T) u) (vecToLocal (some T) udot) (fun _ => 0) w a
  simp only [mul_zero, add_zero] at this
  refine this.congr_deriv ?_
  simp only [shellJacXdot, list_mul_right]
  rw [sum_list']
  congr 1
  refine List.map_congr_left fun q _ => ?_
  have e : slopeVal (localDir T dir) q (fun _ => (0:ℝ)) = 0 := by simp [slopeVal]
  have e2 : ∑ b, (∑ r, Bw q r a * Bw q r b) * w b = shape Shell.W q.phi a * disp 2 q w := by
    simp only [Fin.sum_univ_two, Bw, Matrix.cons_val_zero, Matrix.cons_val_one, mul_zero, add_zero]
    rw [disp, ← sum_shape Shell.W q.phi, Finset.mul_sum]
    exact Finset.sum_congr rfl fun _ _ => by ring
  have e3 : ∀ c : ℝ, ∑ b, c * (∑ r, Bw q r a * Bw q r b) * w b = c * ∑ b, (∑ r, Bw q r a * Bw q r b) * w b := fun c => by
    rw [Finset.mul_sum]; exact Finset.sum_congr rfl fun _ _ => by ring
  rw [e3, e2, e]
  ring

theorem sandwich_y (q : Pqp n X) (y : ℝ) (a b : Dof n) : sandwich (Bw q) ![![0, 0], ![0, y]] (dB q) a b = 0 := by simp [sandwich, Fin.sum_univ_two, Bw]

theorem sandwich_x (q : Pqp n X) (x : ℝ) (a b : Dof n) : sandwich (Bw q) ![![x, 0], ![0, 0]] (dB q) a b = shape Shell.W q.phi a * x * shape Shell.W q.dx b := by
  simp [sandwich, Fin.sum_univ_two, Bw, dB]

/-- C152 (part): the displacement Jacobian is exact when the flow has no component along the local y axis.  Missing: other directions, `C152_jacobian_fails`. -/
theorem C152_jacobian_partial (order : Nat) (s : X → Stream) (dir : Fin 3 → ℝ) (T : Fin 3 → Fin 3 → ℝ) (hy : ∑ j, T j 1 * dir j = 0) (pts : List (Pqp n X)) (hf : ∀ q ∈ pts, Fast (s q.x))
    (u udot : Dof n → ℝ) :
    ∃ (f : (Dof n → ℝ) → Dof n → ℝ) (J : Dof n → Dof n → ℝ), (∀ v, shellRes order s dir (some T) pts v udot = .ok (f v)) ∧ shellResJac order s dir (some T) pts u udot = .ok J ∧ IsJacobian f J u := by
  refine ⟨_, _, fun v => rfl, rfl, fun w a => ?_⟩
  simp only [neg_mul, Finset.sum_neg_distrib]
  refine HasDerivAt.fun_neg ?_
  refine C111_jacobian (some T) (fun v => shellForce order s (localDir T dir) pts v (vecToLocal (some T) udot)) _ u (fun w a => ?_) w a
  have := shellForce_path order s (localDir T dir) pts hf (vecToLocal (some T) u) (vecToLocal (some T) udot) w (fun _ => 0) a
  simp only [mul_zero, add_zero] at this
  refine this.congr_deriv ?_
  simp only [shellJac, list_mul_right]
  rw [sum_list']
  congr 1
  refine List.map_congr_left fun q _ => ?_
  have hy' : localDir T dir 1 = 0 := hy
  have e : disp 2 q (fun _ => (0:ℝ)) = 0 := by simp [disp]
  have e2 : slopeVal (localDir T dir) q w = ∑ b, localDir T dir 0 * (shape Shell.W q.dx b * w b) := by
    rw [slopeVal_eq, hy', ← Finset.mul_sum, sum_shape]
    simp only [slopeX]; ring
  simp only [sandwich_y, sandwich_x, e, mul_zero, add_zero]
  rw [e2, Finset.mul_sum, ← Finset.sum_neg_distrib, Finset.mul_sum, Finset.sum_mul]
  exact Finset.sum_congr rfl fun _ _ => by ring

/-- Centroid of the unit triangle. -/
noncomputable def centroid : Pqp 3 Unit := ⟨(), 1 / 2, ![1 / 3, 1 / 3, 1 / 3], ![-1, 1, 0], ![-1, 0, 1]⟩

/-- Frame of an element in the global yz plane: local axes are global y, z, x. -/
def upright : Fin 3 → Fin 3 → ℝ := tmat ![0, 1, 0] ![0, 0, 1] ![1, 0, 0]

theorem upright_orthonormal : Orthonormal upright := by
  intro a b
  fin_cases a <;> fin_cases b <;> simp [upright, tmat, dot, Fin.sum_univ_three]

/-- C152 (what the code does not do): the displacement Jacobian never contains the slope across the local x axis, whatever the flow direction, so for a flow along the local y axis it is not the Jacobian. -/
theorem C152_jacobian_fails : (∀ (n : Nat) (order : Nat) (s : Unit → Stream) (m : Fin 3 → ℝ) (pts : List (Pqp n Unit)) (u v : Dof n → ℝ), m 0 = 0 → shellJac order s m pts u v = fun _ _ => 0) ∧
    ∃ (s : Unit → Stream) (dir : Fin 3 → ℝ) (T : Fin 3 → Fin 3 → ℝ) (pts : List (Pqp 3 Unit)) (u udot : Dof 3 → ℝ) (f : (Dof 3 → ℝ) → Dof 3 → ℝ) (J : Dof 3 → Dof 3 → ℝ),
      Orthonormal T ∧ (∀ q ∈ pts, Fast (s q.x)) ∧ (∀ v, shellRes 1 s dir (some T) pts v udot = .ok (f v)) ∧ shellResJac 1 s dir (some T) pts u udot = .ok J ∧ ¬ IsJacobian f J u := by
  have zero : ∀ (n : Nat) (order : Nat) (s : Unit → Stream) (m : Fin 3 → ℝ) (pts : List (Pqp n Unit)) (u v : Dof n → ℝ), m 0 = 0 → shellJac order s m pts u v = fun _ _ => 0 := by
    intro n order s m pts u v h
    funext a b
    simp only [shellJac, sandwich_y, sandwich_x, h, mul_zero, zero_mul, add_zero, List.map_const', List.sum_replicate, smul_zero]
  refine ⟨zero, fun _ => ⟨1, 2, 1, 1⟩, ![0, 0, 1], upright, [centroid], fun _ => 0, fun _ => 0, _, _, upright_orthonormal, ?_, fun v => rfl, rfl, fun h => ?_⟩
  · intro q _; exact ⟨by norm_num, one_ne_zero⟩
  have m0 : localDir upright ![0, 0, 1] 0 = 0 := by simp [localDir, upright, tmat, Fin.sum_univ_three]
  have m1 : localDir upright ![0, 0, 1] 1 = 1 := by simp [localDir, upright, tmat, Fin.sum_univ_three]
  -- the derivative the force really has
  have hL : IsJacobian (globalRes (some upright) fun v => shellForce 1 (fun _ => ⟨1, 2, 1, 1⟩) (localDir upright ![0, 0, 1]) [centroid] v (vecToLocal (some upright) fun _ => 0))
      (matToGlobal (some upright) fun _ _ => 0) (fun _ => 0) := by
    intro w a
    have := (h w a).neg
    simp only [zero _ _ _ _ _ _ _ m0] at this
    refine (this.congr_of_eventuallyEq (Filter.Eventually.of_forall fun t => ?_)).congr_deriv ?_
    · simp [globalRes]
    · simp
  -- move the third node along the global x axis, the local normal
  have hp : 0 < Real.sqrt 3 := Real.sqrt_pos.2 (by norm_num)
  have hd := hL (fun b => if b = (false, 0, 2) then 1 else 0) (false, 0, 0)
  have hz : ∑ b, matToGlobal (some upright) (fun _ _ : Dof 3 => (0:ℝ)) (false, 0, 0) b * (if b = (false, 0, 2) then 1 else 0) = 0 := by simp [matToGlobal]
  rw [hz] at hd
  have ev : ∀ t : ℝ, globalRes (some upright) (fun v => shellForce 1 (fun _ => ⟨1, 2, 1, 1⟩) (localDir upright ![0, 0, 1]) [centroid] v (vecToLocal (some upright) fun _ => 0))
      (fun b => (0:ℝ) + t * (if b = (false, 0, 2) then 1 else 0)) (false, 0, 0) = -(t / (6 * Real.sqrt 3)) := by
    intro t
    have hw : ∀ i : Fin 3, vecToLocal (some upright) (fun b : Dof 3 => (0:ℝ) + t * (if b = (false, 0, 2) then 1 else 0)) (false, 2, i) = if i = 2 then t else 0 := by
      intro i
      have := congrFun (C111_nodal upright (fun b : Dof 3 => (0:ℝ) + t * (if b = (false, 0, 2) then 1 else 0)) false i).1 2
      simp only [nodal] at this
      rw [this]
      fin_cases i <;> simp [toLocalVec, upright, tmat, dot, Fin.sum_univ_three, nodal]
    have := congrFun (C111_nodal upright (shellForce 1 (fun _ => ⟨1, 2, 1, 1⟩) (localDir upright ![0, 0, 1]) [centroid]
      (vecToLocal (some upright) (fun b : Dof 3 => (0:ℝ) + t * (if b = (false, 0, 2) then 1 else 0))) (vecToLocal (some upright) fun _ => 0)) false 0).2 0
    simp only [nodal] at this
    unfold globalRes
    rw [this]
    have hs : slopeY 2 centroid (vecToLocal (some upright) (fun b : Dof 3 => (0:ℝ) + t * (if b = (false, 0, 2) then 1 else 0))) = t := by
      simp only [slopeY, hw, Fin.sum_univ_three, centroid]; simp
    have hv : disp 2 centroid (vecToLocal (some upright) fun _ => (0:ℝ)) = 0 := by simp [disp, vecToLocal]
    simp only [toGlobalVec, upright, tmat, Fin.sum_univ_three, nodal]
    rw [shellForce_eq, shellForce_eq, shellForce_eq]
    change _ = _
    have m0' : localDir (tmat ![0, 1, 0] ![0, 0, 1] ![1, 0, 0]) ![0, 0, 1] 0 = 0 := m0
    have m1' : localDir (tmat ![0, 1, 0] ![0, 0, 1] ![1, 0, 0]) ![0, 0, 1] 1 = 1 := m1
    change slopeY 2 centroid (vecToLocal (some (tmat ![0, 1, 0] ![0, 0, 1] ![1, 0, 0])) _) = t at hs
    change disp 2 centroid (vecToLocal (some (tmat ![0, 1, 0] ![0, 0, 1] ![1, 0, 0])) _) = 0 at hv
    simp only [List.map_cons, List.map_nil, List.sum_cons, List.sum_nil, m0', m1', hs, hv, shape]
    simp [centroid, pistonPressure, pressure, byOrder, v1]
    norm_num
    ring
  have hd' := hd.congr_of_eventuallyEq (Filter.Eventually.of_forall fun t => (ev t).symm)
  have hd2 : HasDerivAt (fun t : ℝ => -(t / (6 * Real.sqrt 3))) (-(1 / (6 * Real.sqrt 3))) 0 := ((hasDerivAt_id' (0:ℝ)).div_const _).neg
  have := hd'.unique hd2
  have h6 : 0 < 1 / (6 * Real.sqrt 3) := by positivity
  linarith

/-- C152 (what the code does not do): an element parallel to the global xy plane has no frame matrix, and the load is computed from entries outside an empty vector. -/
theorem C152_flat_fails (m : Nat) (nodes : Nat → V3) (y : Option V3) (bending : Bool) (hz : ∀ i, i < m → nodes i 2 = nodes 0 2) (order : Nat) (s : X → Stream) (dir : Fin 3 → ℝ) (pts : List (Pqp n X))
    (u udot : Dof n → ℝ) :
    shellRes order s dir (init 2 m nodes y bending).tMatrix pts u udot = .ub ∧ shellResJac order s dir (init 2 m nodes y bending).tMatrix pts u udot = .ub ∧
      shellResJacXdot order s dir (init 2 m nodes y bending).tMatrix pts u udot = .ub := by
  have h : (init 2 m nodes y bending).tMatrix = none := by
    simp only [init]
    rw [if_neg]
    · simp [Outcome.tMatrix]
    · rintro ⟨i, _, h2, h⟩
      exact h (by rw [hz i h2, sub_self, abs_zero])
  rw [h]
  exact ⟨rfl, rfl, rfl⟩

/-- Non-vacuity of `C152_flat_fails`: the unit triangle in the plane `z = 0`. -/
example : ∀ i, i < 3 → (fun i : Nat => (if i = 0 then ![0, 0, 0] else if i = 1 then ![1, 0, 0] else ![0, 1, 0] : V3)) i 2 = (fun i : Nat => (if i = 0 then ![0, 0, 0] else if i = 1 then ![1, 0, 0] else ![0, 1, 0] : V3)) 0 2 := by
  intro i hi
  interval_cases i <;> simp

/-- The first order load with Mach number at least the square root of two damps the motion: the velocity Jacobian of the residual is positive semidefinite. -/
theorem C152_damping (s : X → Stream) (dir : Fin 3 → ℝ) (T : Fin 3 → Fin 3 → ℝ) (pts : List (Pqp n X)) (hs : ∀ q ∈ pts, 2 ≤ (s q.x).M * (s q.x).M ∧ 0 ≤ (s q.x).V ∧ 0 ≤ (s q.x).rho ∧ 0 ≤ q.JxW)
    (u udot : Dof n → ℝ) : ∃ J, shellResJacXdot 1 s dir (some T) pts u udot = .ok J ∧ ∀ w : Dof n → ℝ, 0 ≤ ∑ a, w a * ∑ b, J a b * w b := by
  refine ⟨_, rfl, fun w => ?_⟩
  have key := (C111_quadratic (some T) (fun a b => -shellJacXdot 1 s (localDir T dir) pts (vecToLocal (some T) u) (vecToLocal (some T) udot) a b)).2.2.1 ?_ w
  · refine le_of_le_of_eq key (Finset.sum_congr rfl fun a _ => ?_)
    congr 1
    refine Finset.sum_congr rfl fun b _ => ?_
    congr 1
    simp [matToGlobal]
  · intro w
    have e : ∑ a, w a * ∑ b, -shellJacXdot 1 s (localDir T dir) pts (vecToLocal (some T) u) (vecToLocal (some T) udot) a b * w b =
        (pts.map fun q => q.JxW * pressureXdot 1 ((s q.x).flow (slopeVal (localDir T dir) q (vecToLocal (some T) u)) (rate q (vecToLocal (some T) udot))) * disp 2 q w ^ 2).sum := by
      simp only [shellJacXdot, list_neg, list_mul_right]
      simp only [sum_list']
      simp only [← List.sum_map_mul_left, List.map_map]
      rw [show (∑ a, (List.map (fun q => w a * ∑ b, -(q.JxW * pressureXdot 1 ((s q.x).flow (slopeVal (localDir T dir) q (vecToLocal (some T) u)) (rate q (vecToLocal (some T) udot))) * -1 *
          ∑ r, Bw q r a * Bw q r b) * w b) pts).sum) = _ from sum_list' pts _]
      congr 1
      refine List.map_congr_left fun q _ => ?_
      have e1 : disp 2 q w = ∑ a, shape Shell.W q.phi a * w a := (sum_shape Shell.W q.phi w).symm
      rw [e1, sq, Finset.sum_mul_sum, Finset.mul_sum]
      refine Finset.sum_congr rfl fun a _ => ?_
      rw [Finset.mul_sum, Finset.mul_sum]
      refine Finset.sum_congr rfl fun b _ => ?_
      simp only [Fin.sum_univ_two, Bw, Matrix.cons_val_zero, Matrix.cons_val_one, mul_zero, add_zero]
      ring
    rw [e]
    refine List.sum_nonneg fun x hx => ?_
    obtain ⟨q, hq, rfl⟩ := List.mem_map.1 hx
    obtain ⟨hM, hV, hr, hJ⟩ := hs q hq
    have h1 : 0 ≤ pressureXdot 1 ((s q.x).flow (slopeVal (localDir T dir) q (vecToLocal (some T) u)) (rate q (vecToLocal (some T) udot))) := by
      simp only [pressureXdot, byOrder, f1, mf, Stream.flow]
      have : 0 ≤ ((s q.x).M * (s q.x).M - 2) / ((s q.x).M * (s q.x).M - 1) := div_nonneg (by linarith) (by linarith)
      have h2 : 0 ≤ (s q.x).rho / Real.sqrt ((s q.x).M * (s q.x).M - 1) := div_nonneg hr (Real.sqrt_nonneg _)
      exact mul_nonneg h2 (mul_nonneg this hV)
    exact mul_nonneg (mul_nonneg hJ h1) (sq_nonneg _)

/-- C152: the sensitivity of the load to a parameter of the stream is the derivative. -/
theorem C152_sensitivity (order : Nat) (s : ℝ → X → Stream) (d : X → Stream) (dir : Fin 3 → ℝ) (T : Fin 3 → Fin 3 → ℝ) (pts : List (Pqp n X)) (hs : ∀ q ∈ pts, StreamFamily (fun t => s t q.x) (d q.x))
    (hf : ∀ q ∈ pts, Fast (s 0 q.x)) (u udot : Dof n → ℝ) :
    ∃ (f : ℝ → Dof n → ℝ) (f' : Dof n → ℝ), (∀ t, shellRes order (s t) dir (some T) pts u udot = .ok (f t)) ∧ shellResSens order (s 0) d dir (some T) pts u udot = .ok f' ∧
      ∀ a, HasDerivAt (fun t => f t a) (f' a) 0 := by
  refine ⟨_, _, fun t => rfl, rfl, fun a => ?_⟩
  have c : ∀ x : ℝ, HasDerivAt (fun _ : ℝ => x) 0 0 := fun x => hasDerivAt_const _ _
  refine HasDerivAt.fun_neg (hasDerivAt_global (some T) _ _ 0 (fun b => ?_) a)
  unfold shellForce shellForceSens
  refine hasDerivAt_list pts _ _ 0 fun q hq => HasDerivAt.const_mul _ ?_
  unfold appT
  refine HasDerivAt.fun_sum fun r _ => HasDerivAt.const_mul _ ?_
  have h := C112_sensitivity order (fun t => (s t q.x).flow (slopeVal (localDir T dir) q (vecToLocal (some T) u)) (rate q (vecToLocal (some T) udot))) (d q.x).dflow
    ⟨(hs q hq).V, (hs q hq).M, (hs q hq).rho, (hs q hq).gamma, c _, c _⟩ (hf q hq)
  fin_cases r
  · exact h.mul_const _
  · exact c 0

/-- C152: the sensitivities of both Jacobians are the derivatives of the reported Jacobians. -/
theorem C152_jacobian_sensitivity (order : Nat) (s : ℝ → X → Stream) (d : X → Stream) (dir : Fin 3 → ℝ) (T : Fin 3 → Fin 3 → ℝ) (pts : List (Pqp n X))
    (hs : ∀ q ∈ pts, StreamFamily (fun t => s t q.x) (d q.x)) (hf : ∀ q ∈ pts, Fast (s 0 q.x)) (u udot : Dof n → ℝ) :
    ∃ (J K : ℝ → Dof n → Dof n → ℝ) (J' K' : Dof n → Dof n → ℝ), (∀ t, shellResJac order (s t) dir (some T) pts u udot = .ok (J t)) ∧ shellResJacSens order (s 0) d dir (some T) pts u udot = .ok J' ∧
      (∀ t, shellResJacXdot order (s t) dir (some T) pts u udot = .ok (K t)) ∧ shellResJacXdotSens order (s 0) d dir (some T) pts u udot = .ok K' ∧
      ∀ a b, HasDerivAt (fun t => J t a b) (J' a b) 0 ∧ HasDerivAt (fun t => K t a b) (K' a b) 0 := by
  refine ⟨_, _, _, _, fun t => rfl, rfl, fun t => rfl, rfl, fun a b => ?_⟩
  have c : ∀ x : ℝ, HasDerivAt (fun _ : ℝ => x) 0 0 := fun x => hasDerivAt_const _ _
  have h : ∀ q ∈ pts, _ := fun q hq => C112_second_partial order (fun t => (s t q.x).flow (slopeVal (localDir T dir) q (vecToLocal (some T) u)) (rate q (vecToLocal (some T) udot))) (d q.x).dflow
    ⟨(hs q hq).V, (hs q hq).M, (hs q hq).rho, (hs q hq).gamma, c _, c _⟩ (hf q hq) rfl rfl
  constructor
  · refine HasDerivAt.fun_neg ?_
    simp only [matToGlobal]
    refine HasDerivAt.fun_sum fun e _ => HasDerivAt.mul_const (HasDerivAt.fun_sum fun g _ => HasDerivAt.const_mul _ ?_) _
    unfold shellJac shellJacSens
    refine hasDerivAt_list pts _ _ 0 fun q hq => ?_
    exact (((((h q hq).1).const_mul _).mul_const _).mul_const _).fun_add (((((h q hq).1).const_mul _).mul_const _).mul_const _)
  · refine HasDerivAt.fun_neg ?_
    simp only [matToGlobal]
    refine HasDerivAt.fun_sum fun e _ => HasDerivAt.mul_const (HasDerivAt.fun_sum fun g _ => HasDerivAt.const_mul _ ?_) _
    unfold shellJacXdot shellJacXdotSens
    refine hasDerivAt_list pts _ _ 0 fun q hq => ?_
    exact ((((h q hq).2).const_mul _).mul_const _).mul_const _

/-- Non-vacuity of C152: a Mach 2 flow along the local x axis of an upright triangle, with the speed as parameter. -/
example : Orthonormal upright ∧ (∑ j, upright j 1 * (![0, 1, 0] : Fin 3 → ℝ) j = 0) ∧ (∀ q ∈ [centroid], Fast ((fun _ => ⟨680, 2, 1, 1⟩ : Unit → Stream) q.x)) ∧
    (∀ q ∈ [centroid], StreamFamily (fun t => (fun _ : Unit => (⟨680 + t, 2, 1, 1⟩ : Stream)) q.x) ((fun _ : Unit => (⟨1, 0, 0, 0⟩ : Stream)) q.x)) ∧
    (∀ q ∈ [centroid], 2 ≤ ((fun _ => ⟨680, 2, 1, 1⟩ : Unit → Stream) q.x).M * ((fun _ => ⟨680, 2, 1, 1⟩ : Unit → Stream) q.x).M ∧ 0 ≤ q.JxW) := by
  refine ⟨upright_orthonormal, by simp [upright, tmat, Fin.sum_univ_three], fun q _ => ⟨by norm_num, by norm_num⟩, fun q _ => ⟨?_, hasDerivAt_const _ _, hasDerivAt_const _ _, hasDerivAt_const _ _⟩, ?_⟩
  · exact (hasDerivAt_id' (0:ℝ)).const_add 680
  · intro q hq
    rw [List.mem_singleton.1 hq]
    exact ⟨by norm_num, by norm_num [centroid]⟩

/-! ### C153 -/

/-- Local load of a beam: the pressure of the motion in `v` acts against `v`, nothing acts on `w`. -/
theorem beamForce_eq (order : Nat) (s : X → Stream) (pts : List (Pqp n X)) (u udot : Dof n → ℝ) (a : Dof n) :
    beamForce order s pts u udot a = (pts.map fun q => q.JxW * -pistonPressure order (s q.x) (slopeX 1 q u) (disp 1 q udot) * shape Shell.V q.phi a).sum := by
  unfold beamForce
  congr 1
  refine List.map_congr_left fun q _ => ?_
  have e : app (beamBv q) udot 0 = disp 1 q udot := by
    simp only [app, beamBv, Matrix.cons_val_zero]
    exact sum_shape Shell.V q.phi udot
  simp only [appT, Fin.sum_univ_two, beamFlowV, e, Stream.flow, pistonPressure, slopeX, beamNormal, elemNormal]
  simp [beamBv]
  ring

/-- C153: the residual a beam reports for its piston theory load does, over any virtual displacement, the work of the pressure against the motion along the local y axis; slope and velocity are those of that
displacement component. -/
theorem C153_work (order : Nat) (s : X → Stream) (T : Option (Fin 3 → Fin 3 → ℝ)) (pts : List (Pqp n X)) (u udot δ : Dof n → ℝ) :
    work (beamRes order s T pts u udot) δ = (pts.map fun q => q.JxW * pistonPressure order (s q.x) (slopeX 1 q (vecToLocal T u)) (disp 1 q (vecToLocal T udot)) * disp 1 q (vecToLocal T δ)).sum := by
  unfold work beamRes
  simp only [neg_mul, Finset.sum_neg_distrib]
  rw [C111_work]
  simp only [beamForce_eq, list_mul_right]
  rw [sum_list', list_neg]
  congr 1
  refine List.map_congr_left fun q _ => ?_
  have : ∀ c : ℝ, ∑ a, c * shape Shell.V q.phi a * vecToLocal T δ a = c * disp 1 q (vecToLocal T δ) := by
    intro c
    rw [disp, ← sum_shape Shell.V q.phi, Finset.mul_sum]
    exact Finset.sum_congr rfl fun _ _ => by ring
  rw [this]
  ring

theorem beamForce_path (order : Nat) (s : X → Stream) (pts : List (Pqp n X)) (hf : ∀ q ∈ pts, Fast (s q.x)) (u v du dv : Dof n → ℝ) (a : Dof n) :
    HasDerivAt (fun t => beamForce order s pts (fun b => u b + t * du b) (fun b => v b + t * dv b) a)
      (pts.map fun q => q.JxW * -(pressureX order ((s q.x).flow (slopeX 1 q u) (disp 1 q v)) * slopeX 1 q du + pressureXdot order ((s q.x).flow (slopeX 1 q u) (disp 1 q v)) * disp 1 q dv) *
        shape Shell.V q.phi a).sum 0 := by
  simp only [beamForce_eq]
  refine hasDerivAt_list pts _ _ 0 fun q hq => ?_
  refine HasDerivAt.mul_const (HasDerivAt.const_mul _ (HasDerivAt.fun_neg ?_)) _
  refine (pressure_path order (s q.x) (hf q hq) (slopeX 1 q u) (slopeX 1 q du) (disp 1 q v) (disp 1 q dv)).congr_of_eventuallyEq (Filter.Eventually.of_forall fun t => ?_)
  simp only [disp_line, slopeX_line]

theorem beamFlowV_eq (s : Stream) (q : Pqp n X) (u v : Dof n → ℝ) : beamFlowV s q u v = s.flow (slopeX 1 q u) (disp 1 q v) := by
  have e : app (beamBv q) v 0 = disp 1 q v := by
    simp only [app, beamBv, Matrix.cons_val_zero]
    exact sum_shape Shell.V q.phi v
  simp only [beamFlowV, e, slopeX]

/-- C153: both Jacobians of the beam load are exact. -/
theorem C153_jacobians (order : Nat) (s : X → Stream) (T : Option (Fin 3 → Fin 3 → ℝ)) (pts : List (Pqp n X)) (hf : ∀ q ∈ pts, Fast (s q.x)) (u udot : Dof n → ℝ) :
    IsJacobian (fun v => beamRes order s T pts v udot) (beamResJac order s T pts u udot) u ∧ IsJacobian (fun v => beamRes order s T pts u v) (beamResJacXdot order s T pts u udot) udot := by
  have n1 : beamNormal 1 = -1 := by simp [beamNormal, elemNormal]
  have n2 : beamNormal 2 = 0 := by simp [beamNormal, elemNormal]
  constructor
  · intro w a
    simp only [beamRes, beamResJac, neg_mul, Finset.sum_neg_distrib]
    refine HasDerivAt.fun_neg ?_
    refine C111_jacobian T (fun v => beamForce order s pts v (vecToLocal T udot)) _ u (fun w a => ?_) w a
    have := beamForce_path order s pts hf (vecToLocal T u) (vecToLocal T udot) w (fun _ => 0) a
    simp only [mul_zero, add_zero] at this
    refine this.congr_deriv ?_
    simp only [beamJac, list_mul_right]
    rw [sum_list']
    congr 1
    refine List.map_congr_left fun q _ => ?_
    have e : disp 1 q (fun _ => (0:ℝ)) = 0 := by simp [disp]
    have e2 : slopeX 1 q w = ∑ b, shape Shell.V q.dx b * w b := (sum_shape Shell.V q.dx w).symm
    simp only [n1, n2, beamFlowV_eq, e, mul_zero, add_zero, zero_mul, Fin.sum_univ_two, beamBv, beamDv, Matrix.cons_val_zero, Matrix.cons_val_one]
    rw [e2, Finset.mul_sum, ← Finset.sum_neg_distrib, Finset.mul_sum, Finset.sum_mul]
    exact Finset.sum_congr rfl fun _ _ => by ring
  · intro w a
    simp only [beamRes, beamResJacXdot, neg_mul, Finset.sum_neg_distrib]
    refine HasDerivAt.fun_neg ?_
    refine C111_jacobian T (fun v => beamForce order s pts (vecToLocal T u) v) _ udot (fun w a => ?_) w a
    have := beamForce_path order s pts hf (vecToLocal T u) (vecToLocal T udot) (fun _ => 0) w a
    simp only [mul_zero, add_zero] at this
    refine this.congr_deriv ?_
    simp only [beamJacXdot, list_mul_right]
    rw [sum_list']
    congr 1
    refine List.map_congr_left fun q _ => ?_
    have e : slopeX 1 q (fun _ => (0:ℝ)) = 0 := by simp [slopeX]
    have e2 : disp 1 q w = ∑ b, shape Shell.V q.phi b * w b := (sum_shape Shell.V q.phi w).symm
    simp only [n1, n2, beamFlowV_eq, e, mul_zero, zero_add, add_zero, zero_mul, Fin.sum_univ_two, beamBv, Matrix.cons_val_zero, Matrix.cons_val_one]
    rw [e2, Finset.mul_sum, ← Finset.sum_neg_distrib, Finset.mul_sum, Finset.sum_mul]
    exact Finset.sum_congr rfl fun _ _ => by ring

/-- C153: the sensitivity of the beam load to a parameter of the stream is the derivative. -/
theorem C153_sensitivity (order : Nat) (s : ℝ → X → Stream) (d : X → Stream) (T : Option (Fin 3 → Fin 3 → ℝ)) (pts : List (Pqp n X)) (hs : ∀ q ∈ pts, StreamFamily (fun t => s t q.x) (d q.x))
    (hf : ∀ q ∈ pts, Fast (s 0 q.x)) (u udot : Dof n → ℝ) (a : Dof n) :
    HasDerivAt (fun t => beamRes order (s t) T pts u udot a) (beamResSens order (s 0) d T pts u udot a) 0 := by
  have c : ∀ x : ℝ, HasDerivAt (fun _ : ℝ => x) 0 0 := fun x => hasDerivAt_const _ _
  unfold beamRes beamResSens
  refine HasDerivAt.fun_neg (hasDerivAt_global T _ _ 0 (fun b => ?_) a)
  unfold beamForce beamForceSens
  refine hasDerivAt_list pts _ _ 0 fun q hq => ?_
  unfold appT
  have hv := C112_sensitivity order (fun t => beamFlowV (s t q.x) q (vecToLocal T u) (vecToLocal T udot)) (d q.x).dflow
    ⟨(hs q hq).V, (hs q hq).M, (hs q hq).rho, (hs q hq).gamma, c _, c _⟩ (hf q hq)
  have hw := C112_sensitivity order (fun t => beamFlowW (s t q.x) q (vecToLocal T u) (vecToLocal T udot)) (d q.x).dflow
    ⟨(hs q hq).V, (hs q hq).M, (hs q hq).rho, (hs q hq).gamma, c _, c _⟩ (hf q hq)
  refine HasDerivAt.fun_add (HasDerivAt.const_mul _ (HasDerivAt.fun_sum fun r _ => HasDerivAt.const_mul _ ?_)) (HasDerivAt.const_mul _ (HasDerivAt.fun_sum fun r _ => HasDerivAt.const_mul _ ?_))
  · fin_cases r
    · exact hv.mul_const _
    · exact c 0
  · fin_cases r
    · exact c 0
    · exact hw.mul_const _

/-- Load with the slope taken along the direction of the stream. -/
noncomputable def alongFlow (order : Nat) (s : X → Stream) (dir : Fin 3 → ℝ) (T : Fin 3 → Fin 3 → ℝ) (pts : List (Pqp n X)) (u udot δ : Dof n → ℝ) : ℝ :=
  (pts.map fun q => q.JxW * pistonPressure order (s q.x) (slopeX 1 q (vecToLocal (some T) u) * ∑ j, T j 0 * dir j) (disp 1 q (vecToLocal (some T) udot)) * disp 1 q (vecToLocal (some T) δ)).sum

/-- C153 (part): when the stream runs along the axis of the beam, from its first to its second node, the load is the one of the stream.  Missing: other directions, `C153_direction_fails`. -/
theorem C153_direction_partial (order : Nat) (s : X → Stream) (dir : Fin 3 → ℝ) (T : Fin 3 → Fin 3 → ℝ) (hd : ∑ j, T j 0 * dir j = 1) (pts : List (Pqp n X)) (u udot δ : Dof n → ℝ) :
    work (beamRes order s (some T) pts u udot) δ = alongFlow order s dir T pts u udot δ := by
  simp only [C153_work, alongFlow, hd, mul_one]

/-- Midpoint of the unit line. -/
noncomputable def midpoint' : Pqp 2 Unit := ⟨(), 1, ![1 / 2, 1 / 2], ![-1, 1], ![0, 0]⟩

/-- C153 (what the code does not do): the direction of the stream is not used, so for a stream from the second to the first node the load has the wrong sign. -/
theorem C153_direction_fails : ∃ (s : Unit → Stream) (dir : Fin 3 → ℝ) (T : Fin 3 → Fin 3 → ℝ) (pts : List (Pqp 2 Unit)) (u δ : Dof 2 → ℝ), Orthonormal T ∧ (∑ j, dir j * dir j = 1) ∧ (∀ q ∈ pts, Fast (s q.x)) ∧
    0 < work (beamRes 1 s (some T) pts u fun _ => 0) δ ∧ alongFlow 1 s dir T pts u (fun _ => 0) δ < 0 := by
  refine ⟨fun _ => ⟨1, 2, 1, 1⟩, ![0, -1, 0], upright, [midpoint'], fun b => if b = (false, 2, 1) then 1 else 0, fun b => if b = (false, 2, 1) then 1 else 0, upright_orthonormal, ?_, ?_, ?_⟩
  · simp [Fin.sum_univ_three]
  · intro q _; exact ⟨by norm_num, one_ne_zero⟩
  have hw : ∀ i : Fin 2, vecToLocal (some upright) (fun b : Dof 2 => (if b = (false, 2, 1) then 1 else 0 : ℝ)) (false, 1, i) = if i = 1 then 1 else 0 := by
    intro i
    have := congrFun (C111_nodal upright (fun b : Dof 2 => (if b = (false, 2, 1) then 1 else 0 : ℝ)) false i).1 1
    simp only [nodal] at this
    rw [this]
    fin_cases i <;> simp [toLocalVec, upright, tmat, Fin.sum_univ_three, nodal]
  have hz : disp 1 midpoint' (vecToLocal (some upright) fun _ => (0:ℝ)) = 0 := by simp [disp, vecToLocal]
  have h1 : slopeX 1 midpoint' (vecToLocal (some upright) fun b : Dof 2 => (if b = (false, 2, 1) then 1 else 0 : ℝ)) = 1 := by
    simp [slopeX, hw, midpoint', Fin.sum_univ_two]
  have h2 : disp 1 midpoint' (vecToLocal (some upright) fun b : Dof 2 => (if b = (false, 2, 1) then 1 else 0 : ℝ)) = 1 / 2 := by
    simp [disp, hw, midpoint', Fin.sum_univ_two]
  have h3 : ∑ j, upright j 0 * (![0, -1, 0] : Fin 3 → ℝ) j = -1 := by simp [upright, tmat, Fin.sum_univ_three]
  have hp : 0 < Real.sqrt 3 := Real.sqrt_pos.2 (by norm_num)
  have hp' : ∀ a : ℝ, pistonPressure 1 ⟨1, 2, 1, 1⟩ a 0 = a / Real.sqrt 3 := by
    intro a
    simp [pistonPressure, pressure, byOrder, v1]
    norm_num
    ring
  have hJ : midpoint'.JxW = 1 := rfl
  rw [C153_work]
  simp only [alongFlow, List.map_cons, List.map_nil, List.sum_cons, List.sum_nil, hz, h1, h2, h3, hp', hJ]
  constructor
  · positivity
  · have : 0 < 1 / Real.sqrt 3 := by positivity
    have e : 1 * (1 * -1 / Real.sqrt 3) * (1 / 2) + 0 = -(1 / Real.sqrt 3) / 2 := by ring
    rw [e]; linarith

/-- Non-vacuity of C153: a stream along an upright beam. -/
example : Orthonormal upright ∧ (∑ j, upright j 0 * (![0, 1, 0] : Fin 3 → ℝ) j = 1) ∧ (∀ q ∈ [midpoint'], Fast ((fun _ => ⟨680, 2, 1, 1⟩ : Unit → Stream) q.x)) :=
  ⟨upright_orthonormal, by simp [upright, tmat, Fin.sum_univ_three], fun q _ => ⟨by norm_num, by norm_num⟩⟩

end Verif.PistonElem
