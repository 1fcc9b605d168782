import Verif.Model.FluidElem
import Verif.Props.FluidSens
import Verif.Props.FluidDiff
import Mathlib.Algebra.BigOperators.Ring.Finset
import Mathlib.Analysis.Calculus.Deriv.Add
import Mathlib.Analysis.Calculus.Deriv.Mul
import Mathlib.Tactic.Abel
/-
  C141: conservation in the fluid element.  C142: Jacobian of the internal residual.
-/
namespace Verif.Fluid

open Finset

section Spec

/-- Element vector moved from `x` along `D`. -/
def moved (x D : Field) (t : ℝ) : Field := fun v a => x v a + t * D v a

/-- The gradients of the shape functions add up to zero at every point. -/
def GradSum (c : Ctx) (qs : List Qp) : Prop := ∀ q ∈ qs, ∀ i < c.d, ∑ a ∈ range c.n, q.dphi i a = 0

/-- The shape functions add up to one at every point. -/
def PhiSum (c : Ctx) (qs : List Qp) : Prop := ∀ q ∈ qs, ∑ a ∈ range c.n, q.phi a = 1

end Spec

theorem list_sum_zero {α : Type} (l : List α) (f : α → ℝ) (h : ∀ q ∈ l, f q = 0) : (l.map f).sum = 0 := by
  induction l with
  | nil => rfl
  | cons q l ih => rw [List.map_cons, List.sum_cons, h q (by simp), ih fun r hr => h r (by simp [hr]), add_zero]

theorem sum_list_map {α : Type} (l : List α) (f : Nat → α → ℝ) (n : Nat) : ∑ a ∈ range n, (l.map (f a)).sum = (l.map fun q => ∑ a ∈ range n, f a q).sum := by
  induction l with
  | nil => simp
  | cons q l ih => simp only [List.map_cons, List.sum_cons, Finset.sum_add_distrib, ih]

theorem list_congr' {α : Type} (l : List α) (f g : α → ℝ) (h : ∀ q ∈ l, f q = g q) : (l.map f).sum = (l.map g).sum := by
  induction l with
  | nil => rfl
  | cons q l ih => rw [List.map_cons, List.sum_cons, List.map_cons, List.sum_cons, h q (by simp), ih fun r hr => h r (by simp [hr])]

theorem sum_lsOp (c : Ctx) (T : Tau) (q : Qp) (sol : Field) (x v : Var) (h : ∀ i < c.d, ∑ a ∈ range c.n, q.dphi i a = 0) : ∑ a ∈ range c.n, lsOp c T q sol x v a = 0 := by
  unfold lsOp
  rw [Finset.sum_comm]
  refine Finset.sum_eq_zero fun y _ => ?_
  rw [← Finset.mul_sum, Finset.sum_comm]
  rw [Finset.sum_eq_zero, mul_zero]
  intro i hi
  rw [← Finset.mul_sum, h i (Finset.mem_range.1 hi), mul_zero]

/-- C141: whatever the state, the stabilisation and the shock capturing, viscous or not, the internal residual conserves mass, momentum and energy: summed over the nodes it vanishes for
each variable, once the gradients of the shape functions add up to zero. -/
theorem C141_conservation (c : Ctx) (T : Tau) (dc : Shock) (qs : List Qp) (sol : Field) (h : GradSum c qs) (v : Var) : ∑ a ∈ range c.n, internalRes c T dc qs sol v a = 0 := by
  unfold internalRes
  rw [sum_list_map qs (fun a q => resQp c T dc sol v a q)]
  refine list_sum_zero qs _ fun q hq => ?_
  have hq := h q hq
  unfold resQp
  rw [Finset.sum_sub_distrib, Finset.sum_add_distrib]
  have e1 : ∑ a ∈ range c.n, ∑ i ∈ range c.d, (-(q.w * (q.dphi i a * flux c.d i (stateAt c q.phi sol) v)) + (if c.visc then q.w * (q.dphi i a * viscAt c q sol i v) else 0) +
      q.w * dc q sol i * (q.dphi i a * interp c (q.dphi i) sol v)) = 0 := by
    rw [Finset.sum_comm]
    refine Finset.sum_eq_zero fun i hi => ?_
    have := hq i (Finset.mem_range.1 hi)
    calc _ = ∑ a ∈ range c.n, q.dphi i a * (-(q.w * flux c.d i (stateAt c q.phi sol) v) + (if c.visc then q.w * viscAt c q sol i v else 0) + q.w * dc q sol i * interp c (q.dphi i) sol v) := by
          refine Finset.sum_congr rfl fun a _ => ?_
          split_ifs <;> ring
      _ = 0 := by rw [← Finset.sum_mul, this, zero_mul]
  have e2 : ∑ a ∈ range c.n, q.w * ∑ x, lsOp c T q sol x v a * strong c q sol x = 0 := by
    rw [← Finset.mul_sum, Finset.sum_comm, Finset.sum_eq_zero, mul_zero]
    intro x _
    rw [← Finset.sum_mul, sum_lsOp c T q sol x v hq, zero_mul]
  have e3 : ∑ a ∈ range c.n, (if c.visc then q.w * ∑ i ∈ range c.d, ∑ j ∈ range c.d, ∑ x, lsOp c T q sol x v a *
      ∑ y, kCons c.d i j c.gas (stateAt c q.phi sol) x y * interp c (q.d2phi i j) sol y else 0) = 0 := by
    split_ifs
    · rw [← Finset.mul_sum, Finset.sum_comm, Finset.sum_eq_zero, mul_zero]
      intro i _
      rw [Finset.sum_comm]
      refine Finset.sum_eq_zero fun j _ => ?_
      rw [Finset.sum_comm]
      refine Finset.sum_eq_zero fun x _ => ?_
      rw [← Finset.sum_mul, sum_lsOp c T q sol x v hq, zero_mul]
    · simp
  rw [e1, e2, e3]; ring

/-- C141: summed over the nodes, the velocity residual is the integral of the rate of change of the variable: the stabilisation moves nothing in or out of the element. -/
theorem C141_storage (c : Ctx) (T : Tau) (qs : List Qp) (sol vel : Field) (h : GradSum c qs) (hp : PhiSum c qs) (v : Var) :
    ∑ a ∈ range c.n, velocityRes c T qs sol vel v a = (qs.map fun q => q.w * interp c q.phi vel v).sum := by
  unfold velocityRes
  rw [sum_list_map qs (fun a q => q.w * (q.phi a * interp c q.phi vel v) + q.w * ∑ x, lsOp c T q sol x v a * interp c q.phi vel x)]
  refine list_congr' qs _ _ fun q hq => ?_
  rw [Finset.sum_add_distrib]
  have e1 : ∑ a ∈ range c.n, q.w * (q.phi a * interp c q.phi vel v) = q.w * interp c q.phi vel v := by
    rw [← Finset.mul_sum, ← Finset.sum_mul, hp q hq, one_mul]
  have e2 : ∑ a ∈ range c.n, q.w * ∑ x, lsOp c T q sol x v a * interp c q.phi vel x = 0 := by
    rw [← Finset.mul_sum, Finset.sum_comm, Finset.sum_eq_zero, mul_zero]
    intro x _
    rw [← Finset.sum_mul, sum_lsOp c T q sol x v (h q hq), zero_mul]
  rw [e1, e2, add_zero]

theorem jacMul_mul (c : Ctx) (X : Var → ℝ) (ψ : Nat → ℝ) (D : Field) : jacMul c (fun u b => X u * ψ b) D = ∑ u, X u * interp c ψ D u := by
  unfold jacMul interp
  refine Finset.sum_congr rfl fun u _ => ?_
  split_ifs
  · rw [Finset.mul_sum]; refine Finset.sum_congr rfl fun b _ => by ring
  · simp

theorem jacMul_add (c : Ctx) (J K : Var → Nat → ℝ) (D : Field) : jacMul c (fun u b => J u b + K u b) D = jacMul c J D + jacMul c K D := by
  unfold jacMul
  rw [← Finset.sum_add_distrib]
  refine Finset.sum_congr rfl fun u _ => ?_
  split_ifs
  · rw [← Finset.sum_add_distrib]; refine Finset.sum_congr rfl fun b _ => by ring
  · simp

theorem jacMul_smul (c : Ctx) (r : ℝ) (J : Var → Nat → ℝ) (D : Field) : jacMul c (fun u b => r * J u b) D = r * jacMul c J D := by
  unfold jacMul
  rw [Finset.mul_sum]
  refine Finset.sum_congr rfl fun u _ => ?_
  split_ifs
  · rw [Finset.mul_sum]; refine Finset.sum_congr rfl fun b _ => by ring
  · simp

theorem jacMul_list {α : Type} (c : Ctx) (l : List α) (J : α → Var → Nat → ℝ) (D : Field) :
    jacMul c (fun u b => (l.map fun q => J q u b).sum) D = (l.map fun q => jacMul c (J q) D).sum := by
  induction l with
  | nil => simp [jacMul]
  | cons q l ih =>
    simp only [List.map_cons, List.sum_cons]
    rw [← ih, ← jacMul_add]

theorem jacMul_sum {ι : Type} (c : Ctx) (s : Finset ι) (J : ι → Var → Nat → ℝ) (D : Field) :
    jacMul c (fun u b => ∑ i ∈ s, J i u b) D = ∑ i ∈ s, jacMul c (J i) D := by
  classical
  induction s using Finset.induction_on with
  | empty => simp [jacMul]
  | insert i s hi ih => simp only [Finset.sum_insert hi]; rw [jacMul_add, ih]

theorem sum_delta (v : Var) (F : Var → ℝ) : ∑ u, (if v = u then 1 else 0) * F u = F v := by simp

/-- C141: the Jacobian of the velocity residual with respect to the velocity is exact: the residual is that matrix times the velocity. -/
theorem C141_velocity_jacobian (c : Ctx) (T : Tau) (qs : List Qp) (sol vel : Field) (v : Var) (a : Nat) :
    velocityRes c T qs sol vel v a = jacMul c (velocityJacXdot c T qs sol v a) vel := by
  unfold velocityRes velocityJacXdot
  rw [jacMul_list c qs (fun q u b => q.w * (if v = u then q.phi a * q.phi b else 0) + q.w * (lsOp c T q sol u v a * q.phi b)) vel]
  refine list_congr' qs _ _ fun q _ => ?_
  rw [jacMul_add, jacMul_smul, jacMul_smul, jacMul_mul]
  have : (fun (u : Var) (b : Nat) => if v = u then q.phi a * q.phi b else 0) = fun u b => ((if v = u then 1 else 0) * q.phi a) * q.phi b := by
    funext u b; split_ifs <;> ring
  rw [this, jacMul_mul]
  congr 2
  rw [Finset.sum_congr rfl fun u _ => mul_assoc (if v = u then (1:ℝ) else 0) (q.phi a) (interp c q.phi vel u), sum_delta]

/-- Points of a two-node line element used in the examples. -/
noncomputable def lineQp : Qp := ⟨1, fun _ => 1 / 2, fun _ a => if a = 0 then -1 else 1, fun _ _ _ => 0⟩

/-- Non-vacuity of C141: the two-node line element, viscous, one dimension. -/
example : GradSum ⟨1, 2, 7, 5, true⟩ [lineQp] ∧ PhiSum ⟨1, 2, 7, 5, true⟩ [lineQp] := by
  constructor
  · intro q hq i _; simp only [List.mem_singleton] at hq; subst hq; simp [lineQp, Finset.sum_range_succ]
  · intro q hq; simp only [List.mem_singleton] at hq; subst hq; simp [lineQp, Finset.sum_range_succ]

section jacobian

theorem interp_moved (c : Ctx) (ψ : Nat → ℝ) (x D : Field) (t : ℝ) : interp c ψ (moved x D t) = fun v => interp c ψ x v + t * interp c ψ D v := by
  funext v
  unfold interp moved
  split_ifs
  · rw [Finset.mul_sum, ← Finset.sum_add_distrib]; refine Finset.sum_congr rfl fun a _ => by ring
  · simp

/-- Derivative of the advection Jacobian along any direction. -/
theorem fluxJac_along (d : Nat) (hd : d = 1 ∨ d = 2 ∨ d = 3) (i : Fin 3) (hi : i.val < d) (cp cv : ℝ) (hv : cv ≠ 0) (U D : Var → ℝ) (hr : U .rho ≠ 0) (v w : Var) :
    DerivAlong (fun W => fluxJac d i (gasInit cp cv) (prim d W cp cv false) v w) U D (∑ c, fluxJacSensCons d i c (gasInit cp cv) (prim d U cp cv false) v w * D c) := by
  set F : (Var → ℝ) → ℝ := fun q => fluxJac d i (gasInit cp cv) (primState d cp cv q) v w with hF
  set q0 := primVec (prim d U cp cv false) with hq0
  have hfd : HasFDerivAt F (fderiv ℝ F q0) q0 := (fluxJac_diff d hd i cp cv v w q0).hasFDerivAt
  have hq : ∀ E : Var → ℝ, HasDerivAt (fun t : ℝ => primVec (prim d (fun r => U r + t * E r) cp cv false)) (fun r => ∑ c, dprimDcons d (gasInit cp cv) (prim d U cp cv false) r c * E c) 0 := by
    intro E
    rw [hasDerivAt_pi]
    intro r
    exact C99_derivative d hd U E cp cv false hr hv r
  have key : ∀ E : Var → ℝ, HasDerivAt (fun t : ℝ => fluxJac d i (gasInit cp cv) (prim d (fun r => U r + t * E r) cp cv false) v w)
      (fderiv ℝ F q0 (fun r => ∑ c, dprimDcons d (gasInit cp cv) (prim d U cp cv false) r c * E c)) 0 := by
    intro E
    have e0 : q0 = primVec (prim d (fun r => U r + (0:ℝ) * E r) cp cv false) := by simp [hq0]
    have h3 := HasFDerivAt.comp_hasDerivAt_of_eq (x := (0:ℝ)) hfd (hq E) e0
    have hfun : (F ∘ fun t : ℝ => primVec (prim d (fun r => U r + t * E r) cp cv false)) = fun t : ℝ => fluxJac d i (gasInit cp cv) (prim d (fun r => U r + t * E r) cp cv false) v w := by
      funext t
      simp only [Function.comp, hF]
      rw [← prim_eq_primState d cp cv hv]
    rwa [hfun] at h3
  refine HasDerivAt.congr_deriv (key D) ?_
  have hunit : ∀ c, fluxJacSensCons d i c (gasInit cp cv) (prim d U cp cv false) v w = fderiv ℝ F q0 (fun r => dprimDcons d (gasInit cp cv) (prim d U cp cv false) r c) := by
    intro c
    have h1 := C101_conservative d hd i hi c cp cv hv U hr v w
    have h2 := key (fun r => if r = c then 1 else 0)
    have := h1.unique h2
    rw [this]; congr 1; funext r; simp
  simp only [hunit]
  have hdec : (fun r => ∑ c, dprimDcons d (gasInit cp cv) (prim d U cp cv false) r c * D c) = ∑ c, D c • (fun r => dprimDcons d (gasInit cp cv) (prim d U cp cv false) r c) := by
    funext r
    rw [Finset.sum_apply]
    refine Finset.sum_congr rfl fun c _ => by simp [mul_comm]
  rw [hdec, map_sum]
  refine Finset.sum_congr rfl fun c _ => by rw [map_smul, smul_eq_mul, mul_comm]

variable (c : Ctx) (hd : c.d = 1 ∨ c.d = 2 ∨ c.d = 3) (hvis : c.visc = false) (hv : c.cv ≠ 0) (sol D : Field) (q : Qp) (hr : interp c q.phi sol .rho ≠ 0)

include hd in
theorem fin_of (i : Nat) (hi : i < c.d) : ∃ k : Fin 3, k.val = i ∧ k.val < c.d := ⟨⟨i, by omega⟩, rfl, hi⟩

/-- Change of the advection Jacobian along `D` as the code computes it: `∑_u ∂A_i/∂u D_u`. -/
noncomputable def dA (i : Nat) (v y : Var) : ℝ := ∑ u, fluxJacSensCons c.d i u c.gas (stateAt c q.phi sol) v y * interp c q.phi D u

include hd hvis hv hr in
theorem dA_deriv (i : Nat) (hi : i < c.d) (v y : Var) : HasDerivAt (fun t => fluxJac c.d i c.gas (stateAt c q.phi (moved sol D t)) v y) (dA c sol D q i v y) 0 := by
  obtain ⟨k, rfl, hk⟩ := fin_of c hd i hi
  have := fluxJac_along c.d hd k hk c.cp c.cv hv (interp c q.phi sol) (interp c q.phi D) hr v y
  unfold DerivAlong at this
  unfold dA stateAt
  rw [hvis]
  simp only [interp_moved]
  exact this

include hd hvis hv hr in
theorem flux_deriv (i : Nat) (hi : i < c.d) (v : Var) : HasDerivAt (fun t => flux c.d i (stateAt c q.phi (moved sol D t)) v)
    (∑ u, fluxJac c.d i c.gas (stateAt c q.phi sol) v u * interp c q.phi D u) 0 := by
  obtain ⟨k, rfl, hk⟩ := fin_of c hd i hi
  have := C100_flux_jacobian c.d hd k hk (interp c q.phi sol) (interp c q.phi D) c.cp c.cv false hr hv v
  unfold DerivAlong at this
  unfold stateAt
  rw [hvis]
  simp only [interp_moved]
  exact this

theorem grad_deriv (ψ : Nat → ℝ) (v : Var) : HasDerivAt (fun t => interp c ψ (moved sol D t) v) (interp c ψ D v) 0 := by
  simp only [interp_moved]
  exact line (interp c ψ sol) (interp c ψ D) v

theorem moved_zero : moved sol D 0 = sol := by funext v a; simp [moved]

include hd hvis hv hr in
theorem strong_deriv (x : Var) : HasDerivAt (fun t => strong c q (moved sol D t) x)
    (∑ i ∈ range c.d, ∑ y, (dA c sol D q i x y * interp c (q.dphi i) sol y + fluxJac c.d i c.gas (stateAt c q.phi sol) x y * interp c (q.dphi i) D y)) 0 := by
  unfold strong
  refine HasDerivAt.fun_sum fun i hi => HasDerivAt.fun_sum fun y _ => ?_
  have := (dA_deriv c hd hvis hv sol D q hr i (Finset.mem_range.1 hi) x y).fun_mul (grad_deriv c sol D (q.dphi i) y)
  rw [moved_zero] at this
  exact this

include hd hvis hv hr in
theorem lsOp_deriv (T : Tau) (T' : Var → Var → ℝ) (hT : ∀ y x, HasDerivAt (fun t => T q (moved sol D t) y x) (T' y x) 0) (x v : Var) (a : Nat) :
    HasDerivAt (fun t => lsOp c T q (moved sol D t) x v a)
      (∑ y, (T' y x * (∑ i ∈ range c.d, fluxJac c.d i c.gas (stateAt c q.phi sol) v y * q.dphi i a) + T q sol y x * ∑ i ∈ range c.d, dA c sol D q i v y * q.dphi i a)) 0 := by
  unfold lsOp
  refine HasDerivAt.fun_sum fun y _ => ?_
  have h2 : HasDerivAt (fun t => ∑ i ∈ range c.d, fluxJac c.d i c.gas (stateAt c q.phi (moved sol D t)) v y * q.dphi i a) (∑ i ∈ range c.d, dA c sol D q i v y * q.dphi i a) 0 :=
    HasDerivAt.fun_sum fun i hi => (dA_deriv c hd hvis hv sol D q hr i (Finset.mem_range.1 hi) v y).mul_const _
  have := (hT y x).fun_mul h2
  rw [moved_zero] at this
  exact this

/-- Jacobian of one point times a direction. -/
theorem jacQp_mul (hvis : c.visc = false) (T : Tau) (dc : Shock) (v : Var) (a : Nat) :
    jacMul c (fun u b => jacQp c T dc sol v a u b q) D =
      (∑ i ∈ range c.d, (-(q.w * (q.dphi i a * ∑ u, fluxJac c.d i c.gas (stateAt c q.phi sol) v u * interp c q.phi D u)) + q.w * dc q sol i * (q.dphi i a * interp c (q.dphi i) D v))) +
      q.w * (∑ x, lsOp c T q sol x v a * ∑ i ∈ range c.d, ∑ u, fluxJac c.d i c.gas (stateAt c q.phi sol) x u * interp c (q.dphi i) D u) +
      q.w * (∑ x, lsOp c T q sol x v a * ∑ i ∈ range c.d, ∑ y, dA c sol D q i x y * interp c (q.dphi i) sol y) +
      q.w * ∑ i ∈ range c.d, q.dphi i a * ∑ y, dA c sol D q i v y * ∑ x, T q sol y x * strong c q sol x := by
  unfold jacQp
  simp only [hvis, Bool.false_eq_true, if_false, sub_zero, add_zero]
  rw [jacMul_add, jacMul_add, jacMul_add, jacMul_smul, jacMul_smul, jacMul_smul, jacMul_sum]
  congr 1
  congr 1
  congr 1
  · refine Finset.sum_congr rfl fun i _ => ?_
    rw [jacMul_add]
    congr 1
    · have : (fun (u : Var) (b : Nat) => -(q.w * (q.dphi i a * (fluxJac c.d i c.gas (stateAt c q.phi sol) v u * q.phi b)))) =
        fun u b => (-(q.w * q.dphi i a)) * (fluxJac c.d i c.gas (stateAt c q.phi sol) v u * q.phi b) := by funext u b; ring
      rw [this, jacMul_smul, jacMul_mul]; ring
    · have : (fun (u : Var) (b : Nat) => q.w * dc q sol i * (if v = u then q.dphi i a * q.dphi i b else 0)) =
        fun u b => ((if v = u then 1 else 0) * (q.w * dc q sol i * q.dphi i a)) * q.dphi i b := by funext u b; split_ifs <;> ring
      rw [this, jacMul_mul, Finset.sum_congr rfl fun u _ => mul_assoc (if v = u then (1:ℝ) else 0) _ _, sum_delta]; ring
  · congr 1
    rw [jacMul_sum]
    refine Finset.sum_congr rfl fun x _ => ?_
    rw [jacMul_smul, jacMul_sum]
    congr 1
    exact Finset.sum_congr rfl fun i _ => jacMul_mul c _ _ D
  · congr 1
    rw [jacMul_sum]
    refine Finset.sum_congr rfl fun x _ => ?_
    rw [jacMul_smul]
    congr 1
    unfold aSens dA
    rw [jacMul_sum]
    refine Finset.sum_congr rfl fun i _ => ?_
    have : (fun (u : Var) (b : Nat) => q.phi b * ∑ y, fluxJacSensCons c.d i u c.gas (stateAt c q.phi sol) x y * interp c (q.dphi i) sol y) =
      fun u b => (∑ y, fluxJacSensCons c.d i u c.gas (stateAt c q.phi sol) x y * interp c (q.dphi i) sol y) * q.phi b := by funext u b; ring
    rw [this, jacMul_mul]
    simp only [Finset.sum_mul]
    rw [Finset.sum_comm]
    exact Finset.sum_congr rfl fun y _ => Finset.sum_congr rfl fun u _ => by ring
  · congr 1
    unfold lsSens dA
    rw [jacMul_sum]
    refine Finset.sum_congr rfl fun i _ => ?_
    have : (fun (u : Var) (b : Nat) => q.phi b * (q.dphi i a * ∑ y, fluxJacSensCons c.d i u c.gas (stateAt c q.phi sol) v y * ∑ x, T q sol y x * strong c q sol x)) =
      fun u b => (q.dphi i a * ∑ y, fluxJacSensCons c.d i u c.gas (stateAt c q.phi sol) v y * ∑ x, T q sol y x * strong c q sol x) * q.phi b := by funext u b; ring
    rw [this, jacMul_mul]
    have : ∀ u, (q.dphi i a * ∑ y, fluxJacSensCons c.d i u c.gas (stateAt c q.phi sol) v y * ∑ x, T q sol y x * strong c q sol x) * interp c q.phi D u =
      q.dphi i a * ((∑ y, fluxJacSensCons c.d i u c.gas (stateAt c q.phi sol) v y * ∑ x, T q sol y x * strong c q sol x) * interp c q.phi D u) := fun u => by ring
    rw [Finset.sum_congr rfl fun u _ => this u, ← Finset.mul_sum]
    congr 1
    simp only [Finset.sum_mul (s := (Finset.univ : Finset Var)) (f := fun y => fluxJacSensCons c.d i _ c.gas (stateAt c q.phi sol) v y * _)]
    rw [Finset.sum_comm]
    refine Finset.sum_congr rfl fun y _ => ?_
    rw [Finset.sum_mul]
    refine Finset.sum_congr rfl fun u _ => by ring

/-- What the code leaves out at one point: the change of the stabilisation matrix and of the shock capturing coefficient. -/
noncomputable def missing (dc' : Nat → ℝ) (T' : Var → Var → ℝ) (v : Var) (a : Nat) : ℝ :=
  q.w * (∑ i ∈ range c.d, q.dphi i a * ∑ y, fluxJac c.d i c.gas (stateAt c q.phi sol) v y * ∑ x, T' y x * strong c q sol x) +
    ∑ i ∈ range c.d, q.w * dc' i * (q.dphi i a * interp c (q.dphi i) sol v)

include hd hvis hv hr in
theorem resQp_deriv (T : Tau) (T' : Var → Var → ℝ) (hT : ∀ y x, HasDerivAt (fun t => T q (moved sol D t) y x) (T' y x) 0) (dc : Shock) (dc' : Nat → ℝ)
    (hdc : ∀ i, HasDerivAt (fun t => dc q (moved sol D t) i) (dc' i) 0) (v : Var) (a : Nat) :
    HasDerivAt (fun t => resQp c T dc (moved sol D t) v a q) (jacMul c (fun u b => jacQp c T dc sol v a u b q) D + missing c sol q dc' T' v a) 0 := by
  unfold resQp
  simp only [hvis, Bool.false_eq_true, if_false, sub_zero, add_zero]
  have h1 : HasDerivAt (fun t => ∑ i ∈ range c.d, (-(q.w * (q.dphi i a * flux c.d i (stateAt c q.phi (moved sol D t)) v)) + q.w * dc q (moved sol D t) i * (q.dphi i a * interp c (q.dphi i) (moved sol D t) v)))
      (∑ i ∈ range c.d, (-(q.w * (q.dphi i a * ∑ u, fluxJac c.d i c.gas (stateAt c q.phi sol) v u * interp c q.phi D u)) +
        (q.w * dc' i * (q.dphi i a * interp c (q.dphi i) sol v) + q.w * dc q sol i * (q.dphi i a * interp c (q.dphi i) D v)))) 0 := by
    refine HasDerivAt.fun_sum fun i hi => HasDerivAt.fun_add ?_ ?_
    · exact (((flux_deriv c hd hvis hv sol D q hr i (Finset.mem_range.1 hi) v).const_mul (q.dphi i a)).const_mul q.w).fun_neg
    · have := ((hdc i).const_mul q.w).fun_mul ((grad_deriv c sol D (q.dphi i) v).const_mul (q.dphi i a))
      rw [moved_zero] at this
      exact this
  have h2 : HasDerivAt (fun t => q.w * ∑ x, lsOp c T q (moved sol D t) x v a * strong c q (moved sol D t) x) _ 0 :=
    (HasDerivAt.fun_sum fun x (_ : x ∈ Finset.univ) => (lsOp_deriv c hd hvis hv sol D q hr T T' hT x v a).fun_mul (strong_deriv c hd hvis hv sol D q hr x)).const_mul q.w
  refine HasDerivAt.congr_deriv (h1.fun_add h2) ?_
  rw [moved_zero, jacQp_mul c sol D q hvis T dc v a]
  unfold missing
  have e1 : ∑ x, (∑ y, (T' y x * (∑ i ∈ range c.d, fluxJac c.d i c.gas (stateAt c q.phi sol) v y * q.dphi i a) + T q sol y x * ∑ i ∈ range c.d, dA c sol D q i v y * q.dphi i a)) * strong c q sol x =
      (∑ i ∈ range c.d, q.dphi i a * ∑ y, fluxJac c.d i c.gas (stateAt c q.phi sol) v y * ∑ x, T' y x * strong c q sol x) +
      ∑ i ∈ range c.d, q.dphi i a * ∑ y, dA c sol D q i v y * ∑ x, T q sol y x * strong c q sol x := by
    have sw : ∀ (M : Var → Var → ℝ) (B : Nat → Var → ℝ), ∑ x, (∑ y, M y x * ∑ i ∈ range c.d, B i y * q.dphi i a) * strong c q sol x =
        ∑ i ∈ range c.d, q.dphi i a * ∑ y, B i y * ∑ x, M y x * strong c q sol x := by
      intro M B
      simp only [Finset.sum_mul, Finset.mul_sum]
      rw [Finset.sum_comm]
      rw [Finset.sum_congr rfl fun y _ => Finset.sum_comm]
      rw [Finset.sum_comm]
      refine Finset.sum_congr rfl fun i _ => Finset.sum_congr rfl fun y _ => Finset.sum_congr rfl fun x _ => by ring
    rw [← sw T' (fun i y => fluxJac c.d i c.gas (stateAt c q.phi sol) v y), ← sw (T q sol) (fun i y => dA c sol D q i v y), ← Finset.sum_add_distrib]
    refine Finset.sum_congr rfl fun x _ => ?_
    rw [Finset.sum_add_distrib, add_mul]
  have e2 : ∀ x, ∑ i ∈ range c.d, ∑ y, (dA c sol D q i x y * interp c (q.dphi i) sol y + fluxJac c.d i c.gas (stateAt c q.phi sol) x y * interp c (q.dphi i) D y) =
      (∑ i ∈ range c.d, ∑ y, dA c sol D q i x y * interp c (q.dphi i) sol y) + ∑ i ∈ range c.d, ∑ y, fluxJac c.d i c.gas (stateAt c q.phi sol) x y * interp c (q.dphi i) D y := by
    intro x
    rw [← Finset.sum_add_distrib]
    exact Finset.sum_congr rfl fun i _ => Finset.sum_add_distrib
  rw [Finset.sum_add_distrib, Finset.sum_add_distrib, Finset.sum_add_distrib, e1]
  simp only [e2, mul_add, Finset.sum_add_distrib]
  ring

end jacobian

theorem hasDerivAt_listsum {α : Type} (l : List α) (f : ℝ → α → ℝ) (f' : α → ℝ) (h : ∀ q ∈ l, HasDerivAt (fun t => f t q) (f' q) 0) :
    HasDerivAt (fun t => (l.map (f t)).sum) (l.map f').sum 0 := by
  induction l with
  | nil => simpa using hasDerivAt_const (0:ℝ) (0:ℝ)
  | cons q l ih =>
    simp only [List.map_cons, List.sum_cons]
    exact (h q (by simp)).fun_add (ih fun r hr => h r (by simp [hr]))

/-- C142 (part): for an inviscid flow in any dimension, at every state with nonzero density at the quadrature points, the derivative of the internal residual along any direction is the
element Jacobian (hence the linearized residual) plus exactly the terms the code omits: the change of the stabilisation matrix (`tau_sens` stays zero) and of the shock capturing coefficient. -/
theorem C142_jacobian_partial (c : Ctx) (hd : c.d = 1 ∨ c.d = 2 ∨ c.d = 3) (hvis : c.visc = false) (hv : c.cv ≠ 0) (qs : List Qp) (sol D : Field) (hr : ∀ q ∈ qs, interp c q.phi sol .rho ≠ 0)
    (T : Tau) (T' : Qp → Var → Var → ℝ) (hT : ∀ q ∈ qs, ∀ y x, HasDerivAt (fun t => T q (moved sol D t) y x) (T' q y x) 0) (dc : Shock) (dc' : Qp → Nat → ℝ)
    (hdc : ∀ q ∈ qs, ∀ i, HasDerivAt (fun t => dc q (moved sol D t) i) (dc' q i) 0) (v : Var) (a : Nat) :
    HasDerivAt (fun t => internalRes c T dc qs (moved sol D t) v a) (linInternalRes c T dc qs sol D v a +
      (qs.map fun q => q.w * (∑ i ∈ range c.d, q.dphi i a * ∑ y, fluxJac c.d i c.gas (stateAt c q.phi sol) v y * ∑ x, T' q y x * strong c q sol x) +
        ∑ i ∈ range c.d, q.w * dc' q i * (q.dphi i a * interp c (q.dphi i) sol v)).sum) 0 := by
  have := hasDerivAt_listsum qs (fun t q => resQp c T dc (moved sol D t) v a q) (fun q => jacMul c (fun u b => jacQp c T dc sol v a u b q) D + missing c sol q (dc' q) (T' q) v a)
    fun q hq => resQp_deriv c hd hvis hv sol D q (hr q hq) T (T' q) (hT q hq) dc (dc' q) (hdc q hq) v a
  unfold internalRes
  refine HasDerivAt.congr_deriv this ?_
  have e : linInternalRes c T dc qs sol D v a = (qs.map fun q => jacMul c (fun u b => jacQp c T dc sol v a u b q) D).sum := by
    unfold linInternalRes internalJac
    exact jacMul_list c qs (fun q u b => jacQp c T dc sol v a u b q) D
  rw [e]
  rw [show (fun q => jacMul c (fun u b => jacQp c T dc sol v a u b q) D + missing c sol q (dc' q) (T' q) v a) =
    fun q => (fun q => jacMul c (fun u b => jacQp c T dc sol v a u b q) D) q + (fun q => missing c sol q (dc' q) (T' q) v a) q from rfl, List.sum_map_add]
  rfl

/-- C142: at a uniform flow the Jacobian is exact, whatever differentiable stabilisation and shock capturing are used. -/
theorem C142_uniform (c : Ctx) (hd : c.d = 1 ∨ c.d = 2 ∨ c.d = 3) (hvis : c.visc = false) (hv : c.cv ≠ 0) (qs : List Qp) (h1 : PhiSum c qs) (h0 : GradSum c qs) (U : Var → ℝ) (hU : U .rho ≠ 0)
    (D : Field) (T : Tau) (T' : Qp → Var → Var → ℝ) (hT : ∀ q ∈ qs, ∀ y x, HasDerivAt (fun t => T q (moved (fun v _ => U v) D t) y x) (T' q y x) 0) (dc : Shock) (dc' : Qp → Nat → ℝ)
    (hdc : ∀ q ∈ qs, ∀ i, HasDerivAt (fun t => dc q (moved (fun v _ => U v) D t) i) (dc' q i) 0) (v : Var) (a : Nat) :
    HasDerivAt (fun t => internalRes c T dc qs (moved (fun v _ => U v) D t) v a) (linInternalRes c T dc qs (fun v _ => U v) D v a) 0 := by
  have hg : ∀ q ∈ qs, ∀ i < c.d, ∀ y, interp c (q.dphi i) (fun v _ => U v) y = 0 := by
    intro q hq i hi y
    unfold interp
    rw [← Finset.sum_mul, h0 q hq i hi]; simp
  have hr : ∀ q ∈ qs, interp c q.phi (fun v _ => U v) .rho ≠ 0 := by
    intro q hq
    unfold interp
    rw [← Finset.sum_mul, h1 q hq]; simpa [act] using hU
  refine HasDerivAt.congr_deriv (C142_jacobian_partial c hd hvis hv qs _ D hr T T' hT dc dc' hdc v a) ?_
  rw [list_sum_zero, add_zero]
  intro q hq
  have hs : ∀ x, strong c q (fun v _ => U v) x = 0 := by
    intro x
    unfold strong
    refine Finset.sum_eq_zero fun i hi => Finset.sum_eq_zero fun y _ => ?_
    rw [hg q hq i (Finset.mem_range.1 hi) y, mul_zero]
  have : ∑ i ∈ range c.d, q.w * dc' q i * (q.dphi i a * interp c (q.dphi i) (fun v _ => U v) v) = 0 :=
    Finset.sum_eq_zero fun i hi => by rw [hg q hq i (Finset.mem_range.1 hi) v]; ring
  rw [this]
  simp [hs]

/-- Non-vacuity of C142: the line element with a nonuniform state and a frozen stabilisation. -/
example : interp ⟨1, 2, 7, 5, false⟩ lineQp.phi (fun v a => if v = .rho then 1 + a else 3) .rho ≠ 0 ∧
    (∀ y x, HasDerivAt (fun t => (fun (_ : Qp) (_ : Field) (_ _ : Var) => (2 : ℝ)) lineQp (moved (fun v a => if v = .rho then 1 + (a : ℝ) else 3) (fun _ _ => 1) t) y x) 0 0) := by
  refine ⟨by norm_num [interp, act, lineQp, Finset.sum_range_succ], fun y x => hasDerivAt_const _ _⟩

end Verif.Fluid
