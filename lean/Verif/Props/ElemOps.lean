import Verif.Model.ElemOps
import Mathlib.Analysis.Calculus.Deriv.Add
import Mathlib.Analysis.Calculus.Deriv.Mul
import Mathlib.Analysis.Calculus.Deriv.Pow
import Mathlib.Tactic.LinearCombination
import Mathlib.Tactic.FieldSimp
import Mathlib.Tactic.Positivity
import Mathlib.Algebra.BigOperators.Field
/-
  C154: the static, modal and transient structural problems are one set of equations.
  C155: boundary velocity of an element with several moving sides.
  C156: the check of an element Jacobian by finite differences.
-/
namespace Verif.ElemOps

variable {D : Type} [Fintype D]

/-! ### Specification -/

/-- `u + t w`. -/
def line (u w : Vec D) (t : ℝ) : Vec D := fun i => u i + t * w i

/-- Matrix times vector. -/
def ap (M : Mat D) (w : Vec D) (i : D) : ℝ := ∑ j, M i j * w j

/-- The element computes the derivatives of each of its own terms (what C111-C121, C152 and C153 are about). -/
structure Exact (e : Terms D) : Prop where
  internal : ∀ u w i, HasDerivAt (fun t => e.internal (line u w t) i) (ap (e.internalX u) w i) 0
  side : ∀ u v w y i, HasDerivAt (fun t => e.side (line u w t) (line v y t) i) (ap (e.sideX u v) w i + ap (e.sideXdot u v) y i) 0
  vol : ∀ u v w y i, HasDerivAt (fun t => e.vol (line u w t) (line v y t) i) (ap (e.volX u v) w i + ap (e.volXdot u v) y i) 0
  inertial : ∀ u v a w y z i, HasDerivAt (fun t => e.inertial (line u w t) (line v y t) (line a z t) i)
    (ap (e.inertialX u v a) w i + ap (e.inertialXdot u v a) y i + ap (e.inertialXddot u v a) z i) 0

/-- The equation of motion of the element: inertia, internal force and loads. -/
def motion (e : Terms D) (u v a : Vec D) : Vec D := fun i => e.inertial u v a i + e.internal u i + e.side u v i + e.vol u v i

/-! ### Lemmas -/

theorem ap_add (M N : Mat D) (w : Vec D) (i : D) : ap (fun i j => M i j + N i j) w i = ap M w i + ap N w i := by
  simp only [ap, add_mul, Finset.sum_add_distrib]

theorem ap_smul (c : ℝ) (M : Mat D) (w : Vec D) (i : D) : ap (fun i j => c * M i j) w i = c * ap M w i := by
  simp only [ap, mul_assoc, Finset.mul_sum]

theorem ap_scale (c : ℝ) (M : Mat D) (w : Vec D) (i : D) : ap M (fun j => c * w j) i = c * ap M w i := by
  simp only [ap, Finset.mul_sum]
  exact Finset.sum_congr rfl fun _ _ => by ring

theorem ap_zero (M : Mat D) (i : D) : ap M (fun _ => 0) i = 0 := by simp [ap]

omit [Fintype D] in
theorem line_zero (u : Vec D) (t : ℝ) : line u (fun _ => 0) t = u := by funext i; simp [line]

theorem motion_deriv (e : Terms D) (h : Exact e) (u v a w y z : Vec D) (i : D) :
    HasDerivAt (fun t => motion e (line u w t) (line v y t) (line a z t) i)
      (ap (e.inertialX u v a) w i + ap (e.internalX u) w i + ap (e.sideX u v) w i + ap (e.volX u v) w i + (ap (e.inertialXdot u v a) y i + ap (e.sideXdot u v) y i + ap (e.volXdot u v) y i) +
        ap (e.inertialXddot u v a) z i) 0 := by
  refine ((((h.inertial u v a w y z i).fun_add (h.internal u w i)).fun_add (h.side u v w y i)).fun_add (h.vol u v w y i)).congr_deriv ?_
  ring

/-! ### C154 -/

omit [Fintype D] in
/-- C154: the static problem, the steady state of the transient problem and the equation of motion at rest are the same, as soon as an unaccelerated element has no inertia force. -/
theorem C154_steady (e : Terms D) (u : Vec D) (h : ∀ i, e.inertial u (fun _ => 0) (fun _ => 0) i = 0) :
    staticVec e u = motion e u (fun _ => 0) (fun _ => 0) ∧ newmarkVec (second e u (fun _ => 0) (fun _ => 0)) = staticVec e u ∧
      (fun i => (first e u (fun _ => 0)).fm i + (first e u (fun _ => 0)).fx i) = staticVec e u := by
  refine ⟨?_, ?_, ?_⟩ <;> funext i <;> simp [staticVec, motion, newmarkVec, second, first, h i]

/-- C154: the transient residual is the equation of motion at every state, and the matrix the Newmark solver assembles is its Jacobian with velocity and acceleration moving as `c` and `k` times the
solution. -/
theorem C154_transient (e : Terms D) (h : Exact e) (k c : ℝ) (u v a w : Vec D) (i : D) :
    newmarkVec (second e u v a) = motion e u v a ∧
      HasDerivAt (fun t => newmarkVec (second e (line u w t) (line v (fun j => c * w j) t) (line a (fun j => k * w j) t)) i) (ap (newmarkMat k c (second e u v a)) w i) 0 := by
  have e1 : ∀ u v a : Vec D, newmarkVec (second e u v a) = motion e u v a := by
    intro u v a; funext i; simp only [newmarkVec, second, motion]; ring
  refine ⟨e1 u v a, ?_⟩
  simp only [e1]
  refine (motion_deriv e h u v a w _ _ i).congr_deriv ?_
  have : newmarkMat k c (second e u v a) = fun i j => k * e.inertialXddot u v a i j + c * (e.sideXdot u v i j + e.volXdot u v i j + e.inertialXdot u v a i j + 0) +
      (e.inertialX u v a i j + (e.internalX u i j + e.sideX u v i j + e.volX u v i j)) := rfl
  rw [this]
  simp only [ap, ← Finset.sum_add_distrib]
  exact Finset.sum_congr rfl fun _ _ => by ring

/-- C154: the static matrix is the Jacobian of the static residual. -/
theorem C154_static (e : Terms D) (h : Exact e) (u w : Vec D) (i : D) : HasDerivAt (fun t => staticVec e (line u w t) i) (ap (staticMat e u) w i) 0 := by
  have hs := h.side u (fun _ => 0) w (fun _ => 0) i
  have hv := h.vol u (fun _ => 0) w (fun _ => 0) i
  simp only [line_zero, ap_zero, add_zero] at hs hv
  refine (((h.internal u w i).fun_add hs).fun_add hv).congr_deriv ?_
  unfold staticMat
  rw [ap_add, ap_add]

/-- C154: the two matrices of the modal problem are those of small free vibrations about the base state: the equation of motion along `(x, 0, -lambda x)` is `(A - lambda B) x` to first order. -/
theorem C154_modes (e : Terms D) (h : Exact e) (u x : Vec D) (lambda : ℝ) (i : D) :
    HasDerivAt (fun t => motion e (line u x t) (fun _ => 0) (fun j => t * -(lambda * x j)) i) (ap (modalA e u) x i - lambda * ap (modalB e u) x i) 0 := by
  have := motion_deriv e h u (fun _ => 0) (fun _ => 0) x (fun _ => 0) (fun j => -(lambda * x j)) i
  simp only [line_zero, ap_zero, add_zero] at this
  refine (this.congr_of_eventuallyEq (Filter.Eventually.of_forall fun t => ?_)).congr_deriv ?_
  · have : line (fun _ => 0) (fun j => -(lambda * x j)) t = fun j => t * -(lambda * x j) := by funext j; simp [line]
    exact congrArg (fun z => motion e (line u x t) (fun _ => 0) z i) this.symm
  · have e1 : ap (e.inertialXddot u (fun _ => 0) fun _ => 0) (fun j => -(lambda * x j)) i = -(lambda * ap (modalB e u) x i) := by
      have : (fun j => -(lambda * x j)) = fun j => -lambda * x j := by funext j; ring
      rw [this, ap_scale]; simp only [modalB]; ring
    rw [e1]
    unfold modalA
    rw [ap_add, ap_add, ap_add]
    ring

/-- One degree of freedom with stiffness 1, mass 1 and a load `-c v` from the velocity on its surface. -/
def damped (c : ℝ) : Terms Unit where
  internal := fun u => u
  internalX := fun _ _ _ => 1
  side := fun _ _ _ => 0
  sideXdot := fun _ _ _ _ => 0
  sideX := fun _ _ _ _ => 0
  vol := fun _ v i => c * v i
  volXdot := fun _ _ _ _ => c
  volX := fun _ _ _ _ => 0
  inertial := fun _ _ a => a
  inertialXddot := fun _ _ _ _ _ => 1
  inertialXdot := fun _ _ _ _ _ => 0
  inertialX := fun _ _ _ _ _ => 0
  prestress := fun _ _ => 1

theorem damped_exact (c : ℝ) : Exact (damped c) := by
  have ln : ∀ x y : ℝ, HasDerivAt (fun t : ℝ => x + t * y) y 0 := fun x y => by simpa using ((hasDerivAt_id' (0:ℝ)).mul_const y).const_add x
  refine ⟨fun u w i => ?_, fun u v w y i => ?_, fun u v w y i => ?_, fun u v a w y z i => ?_⟩
  · simpa [damped, line, ap] using ln (u i) (w i)
  · simpa [damped, line, ap] using hasDerivAt_const (0:ℝ) (0:ℝ)
  · simpa [damped, line, ap] using (ln (v i) (y i)).const_mul c
  · simpa [damped, line, ap] using ln (a i) (z i)

/-- Non-vacuity of C154. -/
example : Exact (damped 2) ∧ (∀ i, (damped 2).inertial (fun _ => 1) (fun _ => 0) (fun _ => 0) i = 0) ∧ (damped 2).volXdot (fun _ => 0) (fun _ => 0) () () = 2 := ⟨damped_exact 2, fun _ => rfl, rfl⟩

/-- C154 (what the code does not do): the velocity Jacobian of the loads, which are part of `f_x`, is reported as part of the velocity Jacobian of `f_m`; separately neither is the derivative of its vector. -/
theorem C154_split_fails : ∃ (e : Terms Unit), Exact e ∧ (∃ u v a y : Vec Unit,
    ¬ HasDerivAt (fun t => (second e u (line v y t) a).fx ()) (ap (second e u v a).fxXdot y ()) 0 ∧ ¬ HasDerivAt (fun t => (second e u (line v y t) a).fm ()) (ap (second e u v a).fmXdot y ()) 0) := by
  refine ⟨damped 2, damped_exact 2, fun _ => 0, fun _ => 0, fun _ => 0, fun _ => 1, fun h => ?_, fun h => ?_⟩
  · have h2 : HasDerivAt (fun t : ℝ => (second (damped 2) (fun _ => 0) (line (fun _ => 0) (fun _ => 1) t) fun _ => 0).fx ()) 2 0 := by
      simpa [second, damped, line] using (hasDerivAt_id' (0:ℝ)).const_mul (2:ℝ)
    have := h.unique h2
    simp [ap, second] at this
  · have h2 : HasDerivAt (fun t : ℝ => (second (damped 2) (fun _ => 0) (line (fun _ => 0) (fun _ => 1) t) fun _ => 0).fm ()) 0 0 := by
      simpa [second, damped, line] using hasDerivAt_const (0:ℝ) (0:ℝ)
    have := h.unique h2
    simp [ap, second, damped] at this

omit [Fintype D] in
/-- C154 (what the code does not do): as a first order problem a structure has no inertia and no damping; when the loads do not depend on the velocity the residual does not either, and the matrix of the
initial velocity problem is zero. -/
theorem C154_first_order_fails (e : Terms D) (hs : ∀ u v i j, e.sideXdot u v i j = 0) (hv : ∀ u v i j, e.volXdot u v i j = 0) (u v : Vec D) :
    (first e u v).fm = (fun _ => 0) ∧ (first e u v).fmXdot = fun _ _ => 0 := by
  refine ⟨rfl, ?_⟩
  funext i j
  simp [first, hs, hv]

/-- C154 (what the code does not do): prestress enters the buckling problem only; the static, modal and transient operations never ask for it, so a prestressed element at rest without loads is in equilibrium
for them. -/
theorem C154_prestress_fails : ∃ e : Terms Unit, e.prestress (fun _ => 0) () ≠ 0 ∧ staticVec e (fun _ => 0) = (fun _ => 0) ∧ newmarkVec (second e (fun _ => 0) (fun _ => 0) (fun _ => 0)) = (fun _ => 0) ∧
    (fun i => staticVec e (fun _ => 0) i + e.prestress (fun _ => 0) i) ≠ fun _ => 0 := by
  refine ⟨damped 0, one_ne_zero, by funext i; simp [staticVec, damped], by funext i; simp [newmarkVec, second, damped], fun h => ?_⟩
  have := congrFun h ()
  simp [staticVec, damped] at this

/-- C154: the sensitivity of the static problem is the derivative of the static residual at fixed solution, that of the transient problem the derivative of inertia and of the other forces, and their sum that of
the equation of motion. -/
theorem C154_sensitivity (e : ℝ → Terms D) (s : Sens D) (u v a : Vec D) (hi : ∀ i, HasDerivAt (fun q => (e q).internal u i) (s.internal i) 0) (hs : ∀ i, HasDerivAt (fun q => (e q).side u v i) (s.side i) 0)
    (hv : ∀ i, HasDerivAt (fun q => (e q).vol u v i) (s.vol i) 0) (hm : ∀ i, HasDerivAt (fun q => (e q).inertial u v a i) (s.inertial i) 0) (i : D) :
    (v = (fun _ => 0) → HasDerivAt (fun q => staticVec (e q) u i) (staticSens s i) 0) ∧ HasDerivAt (fun q => (second (e q) u v a).fm i) ((transientSens s).1 i) 0 ∧
      HasDerivAt (fun q => (second (e q) u v a).fx i) ((transientSens s).2 i) 0 ∧ HasDerivAt (fun q => motion (e q) u v a i) ((transientSens s).1 i + (transientSens s).2 i) 0 := by
  have h := ((hi i).fun_add (hs i)).fun_add (hv i)
  refine ⟨fun h0 => ?_, hm i, h, ?_⟩
  · subst h0; exact h
  · exact (((h.fun_add (hm i)).congr_of_eventuallyEq (Filter.Eventually.of_forall fun q => by simp only [motion]; ring)).congr_deriv (by simp only [transientSens]; ring))

/-- What the terms of a sensitivity must be for the matrix to be right: `q` is the parameter, `u q` the base solution. -/
structure SensExact (e : ℝ → Terms D) (u : ℝ → Vec D) (s : Sens D) : Prop where
  internalX : ∀ i j, HasDerivAt (fun q => (e q).internalX (u q) i j) (s.internalX i j + s.internalDot i j) 0
  sideX : ∀ i j, HasDerivAt (fun q => (e q).sideX (u 0) (fun _ => 0) i j) (s.sideX i j) 0
  volX : ∀ i j, HasDerivAt (fun q => (e q).volX (u 0) (fun _ => 0) i j) (s.volX i j) 0
  inertialX : ∀ i j, HasDerivAt (fun q => (e q).inertialX (u 0) (fun _ => 0) (fun _ => 0) i j) (s.inertialX i j) 0
  inertialXddot : ∀ i j, HasDerivAt (fun q => (e q).inertialXddot (u 0) (fun _ => 0) (fun _ => 0) i j) (s.inertialXddot i j) 0

omit [Fintype D] in
/-- C154 (part): the sensitivities of the modal matrices, with the term of the base solution, are their derivatives when the load and inertia Jacobians do not depend on the solution.  Missing: loads whose
Jacobian depends on the solution, `C154_modal_sensitivity_fails`. -/
theorem C154_modal_sensitivity_partial (e : ℝ → Terms D) (u : ℝ → Vec D) (s : Sens D) (h : SensExact e u s)
    (hl : ∀ q u' i j, (e q).sideX u' (fun _ => 0) i j = (e q).sideX (u 0) (fun _ => 0) i j ∧ (e q).volX u' (fun _ => 0) i j = (e q).volX (u 0) (fun _ => 0) i j ∧
      (e q).inertialX u' (fun _ => 0) (fun _ => 0) i j = (e q).inertialX (u 0) (fun _ => 0) (fun _ => 0) i j ∧
      (e q).inertialXddot u' (fun _ => 0) (fun _ => 0) i j = (e q).inertialXddot (u 0) (fun _ => 0) (fun _ => 0) i j) (i j : D) :
    HasDerivAt (fun q => modalA (e q) (u q) i j) (modalSensA s true i j) 0 ∧ HasDerivAt (fun q => modalB (e q) (u q) i j) (modalSensB s i j) 0 := by
  constructor
  · have := (((h.internalX i j).fun_add (h.sideX i j)).fun_add (h.volX i j)).fun_add (h.inertialX i j)
    refine (this.congr_of_eventuallyEq (Filter.Eventually.of_forall fun q => ?_)).congr_deriv ?_
    · simp only [modalA]
      rw [(hl q (u q) i j).1, (hl q (u q) i j).2.1, (hl q (u q) i j).2.2.1]
    · simp only [modalSensA, if_true]; ring
  · refine (h.inertialXddot i j).congr_of_eventuallyEq (Filter.Eventually.of_forall fun q => ?_)
    simp only [modalB]
    exact (hl q (u q) i j).2.2.2

/-- One degree of freedom with unit stiffness and a load `u^2`, like a second order piston load. -/
def following : Terms Unit := { damped 0 with vol := fun u _ i => u i ^ 2, volX := fun u _ i _ => 2 * u i, volXdot := fun _ _ _ _ => 0 }

theorem following_exact : Exact following := by
  have ln : ∀ x y : ℝ, HasDerivAt (fun t : ℝ => x + t * y) y 0 := fun x y => by simpa using ((hasDerivAt_id' (0:ℝ)).mul_const y).const_add x
  refine ⟨(damped_exact 0).internal, (damped_exact 0).side, fun u v w y i => ?_, (damped_exact 0).inertial⟩
  have := (ln (u i) (w i)).fun_pow 2
  refine this.congr_deriv ?_
  simp [ap, following]

/-- C154 (what the code does not do): the change of the load Jacobian with the base solution is left out of the sensitivity of the modal stiffness. -/
theorem C154_modal_sensitivity_fails : ∃ (e : ℝ → Terms Unit) (u : ℝ → Vec Unit) (s : Sens Unit), (∀ q, Exact (e q)) ∧ SensExact e u s ∧
    ¬ HasDerivAt (fun q => modalA (e q) (u q) () ()) (modalSensA s true () ()) 0 := by
  refine ⟨fun _ => following, fun q _ => q, ⟨fun _ => 0, fun _ => 0, fun _ => 0, fun _ => 0, fun _ _ => 0, fun _ _ => 0, fun _ _ => 0, fun _ _ => 0, fun _ _ => 0, fun _ _ => 0⟩, fun _ => following_exact,
    ⟨fun i j => ?_, fun i j => hasDerivAt_const _ _, fun i j => hasDerivAt_const _ _, fun i j => hasDerivAt_const _ _, fun i j => hasDerivAt_const _ _⟩, fun h => ?_⟩
  · simpa [following, damped] using hasDerivAt_const (0:ℝ) (1:ℝ)
  · have h2 : HasDerivAt (fun q : ℝ => modalA following (fun _ => q) () ()) 2 0 := by
      simpa [modalA, following, damped] using ((hasDerivAt_id' (0:ℝ)).const_mul (2:ℝ)).const_add (1:ℝ)
    have := h.unique h2
    simp [modalSensA] at this

omit [Fintype D] in
/-- C154: a steady temperature field is a steady state of the transient heat problem. -/
theorem C154_heat_steady (e : HeatTerms D) (u : Vec D) (h : ∀ i, e.velocity u (fun _ => 0) i = 0) :
    (fun i => (heatTransient e u (fun _ => 0)).1 i + (heatTransient e u (fun _ => 0)).2 i) = heatStatic e u := by
  funext i
  simp [heatTransient, heatStatic, h i]

example : ∃ e : HeatTerms Unit, (∀ i, e.velocity (fun _ => 1) (fun _ => 0) i = 0) ∧ heatStatic e (fun _ => 1) () = 3 :=
  ⟨⟨fun u i => 3 * u i, fun _ _ => 0, fun _ _ => 0, fun _ v => v⟩, fun _ => rfl, by simp [heatStatic]⟩

/-! ### C155 -/

/-- The moving sides of an element with their velocities. -/
def moving {F : Type} (loads : List (Nat × List (Option F))) : List (F × Nat) := loads.flatMap fun s => s.2.filterMap fun b => b.map fun f => (f, s.1)

theorem inner_last {F : Type} (s : Nat) (l : List (Option F)) (acc : Option (F × Nat)) :
    l.foldl (velocityStep s) acc = ((l.filterMap fun b => b.map fun f => (f, s)).getLast?).or acc := by
  induction l generalizing acc with
  | nil => simp
  | cons b l ih =>
    rw [List.foldl_cons, ih]
    cases b with
    | none => simp [velocityStep]
    | some f =>
      simp only [velocityStep]
      cases h : (List.filterMap (fun b => Option.map (fun f => (f, s)) b) l).getLast? with
      | none => simp [List.getLast?_cons, h]
      | some p => simp [List.getLast?_cons, h]

theorem velocityData_eq {F : Type} (loads : List (Nat × List (Option F))) : velocityData loads = (moving loads).getLast? := by
  have gen : ∀ acc : Option (F × Nat), loads.foldl (fun acc s => s.2.foldl (velocityStep s.1) acc) acc = ((moving loads).getLast?).or acc := by
    induction loads with
    | nil => intro acc; simp [moving]
    | cons s l ih =>
      intro acc
      rw [List.foldl_cons, inner_last, ih]
      simp only [moving, List.flatMap_cons, List.getLast?_append]
      rw [Option.or_assoc]
  unfold velocityData
  rw [gen]
  simp

omit [Fintype D] in
/-- C155 (part): with at most one moving side the topology sensitivity is the sum over the moving sides of the element; without any the vector keeps its value.  Missing: several sides, `C155_corner_fails`. -/
theorem C155_boundary_partial {F : Type} (term : F → Nat → Vec D) (loads : List (Nat × List (Option F))) (h : (moving loads).length ≤ 1) (vec : Vec D) (i : D) :
    boundaryTerm term loads vec i = if moving loads = [] then vec i else ((moving loads).map fun p => term p.1 p.2 i).sum := by
  unfold boundaryTerm
  rw [velocityData_eq]
  rcases hm : moving loads with _ | ⟨p, l⟩
  · simp
  · rw [hm] at h
    have : l = [] := by simpa using h
    subst this
    simp

omit [Fintype D] in
/-- C155 (what the code does not do): of several moving sides only the last counts. -/
theorem C155_corner_fails {F : Type} (term : F → Nat → Vec D) (loads : List (Nat × List (Option F))) (p : F × Nat) (l : List (F × Nat)) (h : moving loads = l ++ [p]) (i : D) (hne : (l.map fun p => term p.1 p.2 i).sum ≠ 0) :
    boundaryTerm term loads (fun _ => 0) i ≠ ((moving loads).map fun p => term p.1 p.2 i).sum := by
  unfold boundaryTerm
  rw [velocityData_eq, h]
  simp only [List.getLast?_append, List.getLast?_singleton, Option.some_or, List.map_append, List.sum_append, List.map_cons, List.map_nil, List.sum_cons, List.sum_nil, add_zero]
  intro he
  exact hne (by linarith)

/-- Non-vacuity of C155: an element at a corner of the moving boundary, and one with a single moving side. -/
example : moving [(0, [some (1:ℕ)]), (2, [none, some 5])] = [(1, 0)] ++ [(5, 2)] ∧ (moving [(0, [none, some (1:ℕ)]), (1, [none])]).length ≤ 1 ∧
    boundaryTerm (D := Unit) (fun (f : ℕ) _ _ => (f:ℝ)) [(0, [some 1]), (2, [none, some 5])] (fun _ => 0) () = 5 := by
  refine ⟨rfl, by decide, ?_⟩
  simp [boundaryTerm, velocityData, velocityStep]

/-! ### C156 -/

theorem compare_iff (v1 v2 tol : ℝ) (h0 : 0 ≤ tol) : compare v1 v2 tol = true ↔ (|v1| ≤ 1 / 10 ^ 7 ∧ |v2| ≤ 1 / 10 ^ 7) ∨ |v1 - v2| ≤ 1 / 10 ^ 7 ∨ |v1 - v2| ≤ tol * |v1| := by
  unfold compare isZero
  split_ifs with h1 h2 h3
  · simp only [true_iff]
    left
    simpa using h1
  · simp only [true_iff]
    right; left
    simpa using h2
  · have hv : |v1| ≠ 0 := h3.ne'
    rw [decide_eq_true_eq, abs_div, div_le_iff₀ h3]
    constructor
    · intro h; right; right; exact h
    · rintro (⟨a, b⟩ | h | h)
      · simp only [Bool.and_eq_true, decide_eq_true_eq] at h1
        exact absurd ⟨a, b⟩ h1
      · simp only [decide_eq_true_eq] at h2
        exact absurd h h2
      · exact h
  · simp only [Bool.false_eq_true, false_iff]
    have hv : |v1| = 0 := le_antisymm (not_lt.1 h3) (abs_nonneg _)
    simp only [Bool.and_eq_true, decide_eq_true_eq] at h1 h2
    rintro (h | h | h)
    · exact h1 h
    · exact h2 h
    · rw [hv, mul_zero] at h
      exact h2 (h.trans (by positivity))

/-- C156: two numbers that pass the comparison differ by at most `2e-7` or by the relative tolerance; numbers closer than `1e-7` always pass. -/
theorem C156_compare (v1 v2 tol : ℝ) (h0 : 0 ≤ tol) : (compare v1 v2 tol = true → |v1 - v2| ≤ max (2 / 10 ^ 7) (tol * |v1|)) ∧ (|v1 - v2| ≤ max (1 / 10 ^ 7) (tol * |v1|) → compare v1 v2 tol = true) := by
  rw [compare_iff v1 v2 tol h0]
  constructor
  · rintro (⟨a, b⟩ | h | h)
    · refine le_max_of_le_left ((abs_sub _ _).trans ?_)
      linarith
    · exact le_max_of_le_left (h.trans (by norm_num))
    · exact le_max_of_le_right h
  · intro h
    rcases le_max_iff.1 h with h | h
    · exact Or.inr (Or.inl h)
    · exact Or.inr (Or.inr h)

theorem inner_report (n : Nat) (i : Nat) (m0 m : Nat → Nat → ℝ) (tol : ℝ) (s : List (Nat × Nat) × Bool) :
    (List.range n).foldl (fun s j => if compare (m0 i j) (m i j) tol then s else (s.1 ++ [(i, j)], false)) s =
      (s.1 ++ ((List.range n).filter fun j => !compare (m0 i j) (m i j) tol).map fun j => (i, j), s.2 && (List.range n).all fun j => compare (m0 i j) (m i j) tol) := by
  induction n with
  | zero => simp
  | succ n ih =>
    rw [List.range_succ, List.foldl_append, ih, List.filter_append, List.all_append]
    simp only [List.foldl_cons, List.foldl_nil, List.map_append]
    by_cases h : compare (m0 i n) (m i n) tol = true
    · simp [h]
    · simp [h]

theorem compareMatrix_eq (n k : Nat) (m0 m : Nat → Nat → ℝ) (tol : ℝ) (s : List (Nat × Nat) × Bool) :
    (List.range k).foldl (fun s i => (List.range n).foldl (fun s j => if compare (m0 i j) (m i j) tol then s else (s.1 ++ [(i, j)], false)) s) s =
      (s.1 ++ (List.range k).flatMap (fun i => ((List.range n).filter fun j => !compare (m0 i j) (m i j) tol).map fun j => (i, j)),
        s.2 && (List.range k).all fun i => (List.range n).all fun j => compare (m0 i j) (m i j) tol) := by
  induction k with
  | zero => simp
  | succ k ih =>
    rw [List.range_succ, List.foldl_append, ih, List.flatMap_append, List.all_append]
    simp only [List.foldl_cons, List.foldl_nil, inner_report]
    simp [Bool.and_assoc]

/-- C156: the matrix comparison reports exactly the entries that fail and succeeds exactly when none fails. -/
theorem C156_matrix (n : Nat) (m0 m : Nat → Nat → ℝ) (tol : ℝ) :
    (∀ i j, (i, j) ∈ (compareMatrix n m0 m tol).1 ↔ i < n ∧ j < n ∧ compare (m0 i j) (m i j) tol = false) ∧
      ((compareMatrix n m0 m tol).2 = true ↔ ∀ i < n, ∀ j < n, compare (m0 i j) (m i j) tol = true) := by
  unfold compareMatrix
  rw [compareMatrix_eq]
  constructor
  · intro i j
    simp only [List.nil_append, List.mem_flatMap, List.mem_range, List.mem_map, List.mem_filter, Bool.not_eq_true', Prod.mk.injEq]
    constructor
    · rintro ⟨a, ha, b, ⟨hb, hc⟩, rfl, rfl⟩
      exact ⟨ha, hb, hc⟩
    · rintro ⟨ha, hb, hc⟩
      exact ⟨i, ha, j, ⟨hb, hc⟩, rfl, rfl⟩
  · simp

/-- The finite difference Jacobian the check builds. -/
theorem check_jac (n : Nat) (res : (Nat → ℝ) → Nat → ℝ) (jac : (Nat → ℝ) → Nat → Nat → ℝ) (delta : ℝ) (sol : Nat → ℝ) (r c : Nat) (hc : c < n) :
    (checkJacobian n res jac delta sol).1 r c = (res (fun k => if k = c then sol k + delta else sol k) r - res sol r) / delta := by
  have gen : ∀ m, c < m → (((List.range m).foldl (fun (s : ElemState × (Nat → Nat → ℝ)) i =>
      let dsol : Nat → ℝ := fun k => if k = i then sol k + delta else sol k
      (⟨dsol⟩, fun r c => if c = i then (res dsol r - res sol r) / delta else s.2 r c)) (⟨sol⟩, fun _ _ => 0)).2 r c) = (res (fun k => if k = c then sol k + delta else sol k) r - res sol r) / delta := by
    intro m
    induction m with
    | zero => intro h; omega
    | succ m ih =>
      intro h
      rw [List.range_succ, List.foldl_append]
      simp only [List.foldl_cons, List.foldl_nil]
      by_cases hm : c = m
      · subst hm; simp
      · rw [if_neg hm]; exact ih (by omega)
  exact gen n hc

/-- C156: the check leaves the element with its solution; when it reports nothing, every entry of the Jacobian is within `2e-7` or one part in `1e5` of the divided difference of the residual; and for a
residual that is affine in the solution, with its exact Jacobian, it reports nothing, whatever the step. -/
theorem C156_check (n : Nat) (res : (Nat → ℝ) → Nat → ℝ) (jac : (Nat → ℝ) → Nat → Nat → ℝ) (delta : ℝ) (sol : Nat → ℝ) :
    (checkJacobian n res jac delta sol).2.2.sol = sol ∧
    ((checkJacobian n res jac delta sol).2.1 = [] → ∀ i < n, ∀ j < n,
      |(res (fun k => if k = j then sol k + delta else sol k) i - res sol i) / delta - jac sol i j| ≤
        max (2 / 10 ^ 7) (1 / 10 ^ 5 * |(res (fun k => if k = j then sol k + delta else sol k) i - res sol i) / delta|)) ∧
    (delta ≠ 0 → (∀ i < n, ∀ j < n, ∀ t, res (fun k => if k = j then sol k + t else sol k) i = res sol i + t * jac sol i j) → (checkJacobian n res jac delta sol).2.1 = []) := by
  refine ⟨rfl, fun h i hi j hj => ?_, fun hd h => ?_⟩
  · have hm := (C156_matrix n (checkJacobian n res jac delta sol).1 (jac sol) (1 / 10 ^ 5)).1 i j
    have hl : (compareMatrix n (checkJacobian n res jac delta sol).1 (jac sol) (1 / 10 ^ 5)).1 = [] := h
    rw [hl] at hm
    have ht : compare ((checkJacobian n res jac delta sol).1 i j) (jac sol i j) (1 / 10 ^ 5) = true := by
      by_contra hc
      exact absurd (hm.2 ⟨hi, hj, by simpa using hc⟩) (by simp)
    have := (C156_compare _ _ _ (by positivity)).1 ht
    rwa [check_jac n res jac delta sol i j hj] at this
  · refine List.eq_nil_iff_forall_not_mem.2 fun p hp => ?_
    obtain ⟨i, j⟩ := p
    obtain ⟨hi, hj, hc⟩ := ((C156_matrix n (checkJacobian n res jac delta sol).1 (jac sol) (1 / 10 ^ 5)).1 i j).1 hp
    have ht : compare ((checkJacobian n res jac delta sol).1 i j) (jac sol i j) (1 / 10 ^ 5) = true := by
      refine (C156_compare _ _ _ (by positivity)).2 ?_
      rw [check_jac n res jac delta sol i j hj, h i hi j hj delta]
      have : (res sol i + delta * jac sol i j - res sol i) / delta - jac sol i j = 0 := by field_simp; ring
      rw [this, abs_zero]
      exact le_max_of_le_left (by positivity)
    rw [ht] at hc
    exact absurd hc (by simp)

/-- Non-vacuity of C156: an affine residual, and a wrong entry that is reported. -/
example : (∀ t : ℝ, (fun (u : Nat → ℝ) (_ : Nat) => 3 * u 0 + 1) (fun k => if k = 0 then (2:ℝ) + t else 2) 0 = (fun (u : Nat → ℝ) (_ : Nat) => 3 * u 0 + 1) (fun _ => 2) 0 + t * 3) ∧
    compare 3 4 (1 / 10 ^ 5) = false := by
  refine ⟨fun t => by simp; ring, ?_⟩
  by_contra h
  rw [Bool.not_eq_false] at h
  have := (C156_compare 3 4 (1 / 10 ^ 5) (by positivity)).1 h
  rw [le_max_iff] at this
  norm_num at this

end Verif.ElemOps
