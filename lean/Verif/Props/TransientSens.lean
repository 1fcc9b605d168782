import Verif.Model.TransientSens
import Verif.Props.Transient
import Mathlib.Analysis.Calculus.Deriv.Prod
import Mathlib.Analysis.Calculus.Deriv.Comp
/-
  C178: the sensitivity histories of the transient solvers are the derivatives of the histories of the analysis.  C40: growth factor of the stabilized solver.
-/
namespace Verif.Transient

/-! ### Specification -/
section spec
variable {V : Type*} [NormedAddCommGroup V] [NormedSpace ℝ V]

/-- The stored vectors `H'` are the derivatives, at the parameter value `p`, of the vectors stored by the analysis for the parameter value `q`. -/
structure IsDeriv (H : ℝ → Hist V) (H' : Hist V) (p : ℝ) : Prop where
  sol : ∀ i, HasDerivAt (fun q => (H q).sol i) (H'.sol i) p
  vel : ∀ i, HasDerivAt (fun q => (H q).vel i) (H'.vel i) p
  acc : ∀ i, HasDerivAt (fun q => (H q).acc i) (H'.acc i) p

/-- The update formulas of an integrator commute with differentiation. -/
def Commutes (S : Integrator V) : Prop :=
  ∀ (dt : ℝ) (H : ℝ → Hist V) (H' : Hist V) (x : ℝ → V) (dx : V) (p : ℝ), IsDeriv H H' p → HasDerivAt x dx p →
    HasDerivAt (fun q => S.updVel dt (H q) (x q)) (S.updVel dt H' dx) p ∧ HasDerivAt (fun q => S.updAcc dt (H q) (x q)) (S.updAcc dt H' dx) p

/-- A sequence of time steps of `M v + r(p, x) = 0` solved by the first order Newmark solver for every parameter value, with sensitivities that solve the system the solver
assembles (C78): Jacobian times `dx` plus partial derivative plus contribution of the previous step is zero. A step is (solution for each parameter value, sensitivity,
step size). The Jacobian is injective and the solution is differentiable. -/
def SolvedSteps (beta : ℝ) (M : V →L[ℝ] V) (r : ℝ × V → V) (r_p : V → V) (K : V → V →L[ℝ] V) (p : ℝ) : (ℝ → Both V) → List ((ℝ → V) × V × ℝ) → Prop
  | _, [] => True
  | s, (x, dx, dt) :: l =>
    (∀ q, M (fonVel beta dt (s q).val (x q)) + r (q, x q) = 0) ∧ DifferentiableAt ℝ x p ∧
    HasFDerivAt r ((ContinuousLinearMap.toSpanSingleton ℝ (r_p (x p))).coprod (K (x p))) (p, x p) ∧
    Function.Injective (fonJac false beta dt ⟨0, M, 0, 0, K (x p)⟩ : V →L[ℝ] V) ∧
    (fonJac false beta dt ⟨0, M, 0, 0, K (x p)⟩ : V →L[ℝ] V) dx + r_p (x p) + fonPrevContribution false beta dt M ((s p).dsol 1) ((s p).dvel 1) 0 = 0 ∧
    SolvedSteps beta M r r_p K p (fun q => pairStep (fonSolver beta) (s q) (x q) dx dt) l

end spec

/-! ### the histories are those of the analysis driver -/
section alg
variable {V : Type*} [AddCommGroup V] [Module ℝ V]

/-- Vectors without the clock. -/
def SameVec (a b : Hist V) : Prop := a.sol = b.sol ∧ a.vel = b.vel ∧ a.acc = b.acc

theorem shiftSens_eq (order k : Nat) (s : Both V) : shiftSens order k s =
    { s with dsol := (shiftLoop order k s.sens).sol, dvel := (shiftLoop order k s.sens).vel, dacc := (shiftLoop order k s.sens).acc } := by
  induction k generalizing s with
  | zero => rfl
  | succ k ih =>
    rw [shiftSens, ih, shiftLoop]
    rfl

theorem advanceSens_eq (S : Integrator V) (s : Both V) (dx : V) (dt : ℝ) : advanceSens S (storeSens s dx) dt =
    { s with dsol := (advance S s.sens dx dt false).sol, dvel := (advance S s.sens dx dt false).vel, dacc := (advance S s.sens dx dt false).acc, time := s.time + dt, firstSens := false } := by
  unfold advanceSens advance
  dsimp only
  rw [shiftSens_eq]
  by_cases ho : S.order > 1
  · simp only [ho, if_true]
    rfl
  · simp only [ho, if_false]
    rfl

theorem pairStep_eq (S : Integrator V) (s : Both V) (x dx : V) (dt : ℝ) : pairStep S s x dx dt =
    { sol := (advance S s.val x dt false).sol, vel := (advance S s.val x dt false).vel, acc := (advance S s.val x dt false).acc,
      dsol := (advance S s.sens dx dt false).sol, dvel := (advance S s.sens dx dt false).vel, dacc := (advance S s.sens dx dt false).acc,
      time := s.time + dt, first := false, firstSens := false } := by
  have h1 : advanceVal S (storeSens s dx) x dt false = storeSens (advanceVal S s x dt false) dx := rfl
  have h2 : (advanceVal S s x dt false).sens = { s.sens with time := (advance S s.val x dt false).time } := rfl
  have ht : (advance S s.val x dt false).time = s.time := by rw [advance_time]; simp [Both.val]
  unfold pairStep
  rw [h1, advanceSens_eq, h2, ht]
  show Both.mk _ _ _ _ _ _ ((advance S s.val x dt false).time + dt) _ _ = _
  rw [ht]
  rfl

theorem advance_congr_time (S : Integrator V) (h : Hist V) (x : V) (dt t : ℝ) (hv : ∀ dt (h : Hist V) x t, S.updVel dt { h with time := t } x = S.updVel dt h x)
    (ha : ∀ dt (h : Hist V) x t, S.updAcc dt { h with time := t } x = S.updAcc dt h x) : SameVec (advance S { h with time := t } x dt false) (advance S h x dt false) := by
  have e : preShift S { h with time := t } x dt = { preShift S h x dt with time := t } := by
    unfold preShift
    dsimp only
    have e1 := hv dt { h with sol := setAt h.sol 0 x } x t
    have e2 := ha dt { h with sol := setAt h.sol 0 x, vel := setAt h.vel 0 (S.updVel dt { h with sol := setAt h.sol 0 x } x) } x t
    dsimp only at e1 e2
    have x0 : setAt h.sol 0 x 0 = x := by simp [setAt]
    rw [x0, e1]
    split
    · rw [e2]
    · rfl
  have e' : ∀ (k : Nat) (g : Hist V), shiftLoop S.order k { g with time := t } = { shiftLoop S.order k g with time := t } := by
    intro k
    induction k with
    | zero => intro g; rfl
    | succ k ih => intro g; exact ih (shiftBody S.order (k + 1) g)
  rw [advance_eq, advance_eq, e]
  simp only [Bool.false_eq_true, if_false]
  rw [e']
  exact ⟨rfl, rfl, rfl⟩

/-- The formulas of the Newmark solvers do not read the clock. -/
theorem clock_free (beta gamma : ℝ) : (∀ dt (h : Hist V) x t, (fonSolver beta).updVel dt { h with time := t } x = (fonSolver beta).updVel dt h x) ∧
    (∀ dt (h : Hist V) x t, (fonSolver beta).updAcc dt { h with time := t } x = (fonSolver beta).updAcc dt h x) ∧
    (∀ dt (h : Hist V) x t, (sonSolver beta gamma).updVel dt { h with time := t } x = (sonSolver beta gamma).updVel dt h x) ∧
    (∀ dt (h : Hist V) x t, (sonSolver beta gamma).updAcc dt { h with time := t } x = (sonSolver beta gamma).updAcc dt h x) :=
  ⟨fun _ _ _ _ => rfl, fun _ _ _ _ => rfl, fun _ _ _ _ => rfl, fun _ _ _ _ => rfl⟩

theorem pairRun_append (S : Integrator V) (s : Both V) (l : List (V × V × ℝ)) (q : V × V × ℝ) :
    pairRun S s (l ++ [q]) = pairStep S (pairRun S s l) q.1 q.2.1 q.2.2 := by
  simp [pairRun, List.foldl_append]

/-- C178: with the analysis not incrementing the clock, the clock advances by the step size once per pair of calls. -/
theorem C178_time (S : Integrator V) (s : Both V) (steps : List (V × V × ℝ)) : (pairRun S s steps).time = s.time + (steps.map fun q => q.2.2).sum := by
  induction steps using List.reverseRecOn with
  | nil => simp [pairRun]
  | append_singleton l q ih =>
    rw [pairRun_append, pairStep_eq]
    show (pairRun S s l).time + q.2.2 = _
    rw [ih]
    simp [add_assoc]

/-- C178: the vectors of the analysis are not affected by the sensitivity calls: they are those of a run without sensitivities. -/
theorem C178_analysis_unaffected (S : Integrator V) (s : Both V) (steps : List (V × V × ℝ)) (hv : ∀ dt (h : Hist V) x t, S.updVel dt { h with time := t } x = S.updVel dt h x)
    (ha : ∀ dt (h : Hist V) x t, S.updAcc dt { h with time := t } x = S.updAcc dt h x) :
    SameVec (pairRun S s steps).val (run S s.val (steps.map fun q => (q.1, q.2.2, false))) := by
  induction steps using List.reverseRecOn with
  | nil => exact ⟨rfl, rfl, rfl⟩
  | append_singleton l q ih =>
    rw [pairRun_append, pairStep_eq, List.map_append, List.map_singleton, run_append]
    obtain ⟨h1, h2, h3⟩ := ih
    have e : (run S s.val (l.map fun q => (q.1, q.2.2, false))) = { (pairRun S s l).val with time := (run S s.val (l.map fun q => (q.1, q.2.2, false))).time } := by
      dsimp only
      rw [h1, h2, h3]
    rw [e]
    obtain ⟨k1, k2, k3⟩ := advance_congr_time S (pairRun S s l).val q.1 q.2.2 (run S s.val (l.map fun q => (q.1, q.2.2, false))).time hv ha
    exact ⟨k1.symm, k2.symm, k3.symm⟩

/-- C178: the sensitivity vectors are what the analysis driver makes of the sensitivities, so that (C33) the vector with index `i` is that of `i` steps ago. -/
theorem C178_same_driver (S : Integrator V) (s : Both V) (steps : List (V × V × ℝ)) (hv : ∀ dt (h : Hist V) x t, S.updVel dt { h with time := t } x = S.updVel dt h x)
    (ha : ∀ dt (h : Hist V) x t, S.updAcc dt { h with time := t } x = S.updAcc dt h x) :
    SameVec (pairRun S s steps).sens (run S s.sens (steps.map fun q => (q.2.1, q.2.2, false))) := by
  induction steps using List.reverseRecOn with
  | nil => exact ⟨rfl, rfl, rfl⟩
  | append_singleton l q ih =>
    rw [pairRun_append, pairStep_eq, List.map_append, List.map_singleton, run_append]
    obtain ⟨h1, h2, h3⟩ := ih
    have e : (run S s.sens (l.map fun q => (q.2.1, q.2.2, false))) = { (pairRun S s l).sens with time := (run S s.sens (l.map fun q => (q.2.1, q.2.2, false))).time } := by
      dsimp only
      rw [h1, h2, h3]
    rw [e]
    obtain ⟨k1, k2, k3⟩ := advance_congr_time S (pairRun S s l).sens q.2.1 q.2.2 (run S s.sens (l.map fun q => (q.2.1, q.2.2, false))).time hv ha
    exact ⟨k1.symm, k2.symm, k3.symm⟩

example : (pairRun (fonSolver (V := ℝ) 1) (fresh 0 0) [(1, 2, 1), (3, 5, 2)]).dsol 1 = 5 ∧ (pairRun (fonSolver (V := ℝ) 1) (fresh 0 0) [(1, 2, 1), (3, 5, 2)]).time = 3 := by
  constructor
  · simp only [pairRun, List.foldl_cons, List.foldl_nil, pairStep_eq, advance_sol]
    simp [fonSolver]
  · rw [C178_time]; simp [fresh]; norm_num

/-- C178 fails: with the default argument of `advance_time_step` both calls of a step advance the clock: it runs twice as fast. -/
theorem C178_double_time_fails (S : Integrator V) (s : Both V) (x dx : V) (dt : ℝ) :
    (advanceSens S (advanceVal S (storeSens s dx) x dt true) dt).time = s.time + 2 * dt := by
  have h1 : advanceVal S (storeSens s dx) x dt true = storeSens (advanceVal S s x dt true) dx := rfl
  rw [h1, advanceSens_eq]
  show (advance S s.val x dt true).time + dt = _
  rw [advance_time]
  simp [Both.val]
  ring

/-! ### first calls -/

/-- C178: after attaching the element operations again the first step of the analysis can be made, in every build. -/
theorem C178_analysis_restarts (dbg : Bool) (S : Integrator V) (s : Both V) (x dvec : V) (dt : ℝ) (incr : Bool) : (initVal dbg S (attach s) x dvec dt incr).isSome := by
  simp [initVal, attach]

/-- C178 fails: the flag of the sensitivity analysis is never set again. After one sensitivity step the initial sensitivity step of a second run aborts in debug builds,
even after the element operations were attached again. -/
theorem C178_second_run_fails (S : Integrator V) (s : Both V) (dt dt' : ℝ) (dvec : V) : initSens true S (attach (advanceSens S s dt)) dvec dt' = none := by
  have : (attach (advanceSens S s dt)).firstSens = false := rfl
  simp [initSens, this]

/-- A sensitivity analysis that begins with `initSens` on a new solver is accepted. -/
example (S : Integrator V) (x dvec : V) (dt : ℝ) : (initSens true S (attach (fresh x 0)) dvec dt).isSome := by
  simp [initSens, attach, fresh]

end alg

/-! ### derivatives -/
section calculus
variable {V : Type*} [NormedAddCommGroup V] [NormedSpace ℝ V]

theorem setAt_deriv (f : ℝ → Nat → V) (f' : Nat → V) (x : ℝ → V) (dx : V) (p : ℝ) (k : Nat) (hf : ∀ i, HasDerivAt (fun q => f q i) (f' i) p) (hx : HasDerivAt x dx p) (i : Nat) :
    HasDerivAt (fun q => setAt (f q) k (x q) i) (setAt f' k dx i) p := by
  unfold setAt
  by_cases h : i = k
  · simp only [h, if_true]; exact hx
  · simp only [h, if_false]; exact hf i

theorem shift_deriv (order k : Nat) (H : ℝ → Hist V) (H' : Hist V) (p : ℝ) (h : IsDeriv H H' p) : IsDeriv (fun q => shiftLoop order k (H q)) (shiftLoop order k H') p := by
  induction k generalizing H H' with
  | zero => exact h
  | succ k ih =>
    refine ih (fun q => shiftBody order (k + 1) (H q)) (shiftBody order (k + 1) H') ⟨?_, ?_, ?_⟩
    · intro i; exact setAt_deriv _ _ _ _ _ _ h.sol (h.sol _) i
    · intro i; exact setAt_deriv _ _ _ _ _ _ h.vel (h.vel _) i
    · intro i
      unfold shiftBody
      by_cases ho : order > 1
      · simp only [ho, if_true]; exact setAt_deriv _ _ _ _ _ _ h.acc (h.acc _) i
      · simp only [ho, if_false]; exact h.acc i

theorem advance_deriv (S : Integrator V) (hS : Commutes S) (H : ℝ → Hist V) (H' : Hist V) (x : ℝ → V) (dx : V) (dt p : ℝ) (h : IsDeriv H H' p) (hx : HasDerivAt x dx p) :
    IsDeriv (fun q => advance S (H q) (x q) dt false) (advance S H' dx dt false) p := by
  unfold advance
  dsimp only
  simp only [Bool.false_eq_true, if_false]
  apply shift_deriv
  have s0 : ∀ i, HasDerivAt (fun q => setAt (H q).sol 0 (x q) i) (setAt H'.sol 0 dx i) p := setAt_deriv _ _ _ _ _ _ h.sol hx
  have a1 : IsDeriv (fun q => { H q with sol := setAt (H q).sol 0 (x q) }) { H' with sol := setAt H'.sol 0 dx } p := ⟨s0, h.vel, h.acc⟩
  have v1 := (hS dt _ _ _ _ p a1 (s0 0)).1
  have a2 : IsDeriv (fun q => { H q with sol := setAt (H q).sol 0 (x q), vel := setAt (H q).vel 0 (S.updVel dt { H q with sol := setAt (H q).sol 0 (x q) } (setAt (H q).sol 0 (x q) 0)) })
      { H' with sol := setAt H'.sol 0 dx, vel := setAt H'.vel 0 (S.updVel dt { H' with sol := setAt H'.sol 0 dx } (setAt H'.sol 0 dx 0)) } p :=
    ⟨s0, setAt_deriv _ _ _ _ _ _ h.vel v1, h.acc⟩
  by_cases ho : S.order > 1
  · simp only [ho, if_true]
    exact ⟨a2.sol, a2.vel, setAt_deriv _ _ _ _ _ _ h.acc (hS dt _ _ _ _ p a2 (s0 0)).2⟩
  · simp only [ho, if_false]
    exact a2

/-- C178: the update formulas of the first and second order Newmark solvers (and of generalized-alpha, which inherits the latter) commute with differentiation. -/
theorem C178_formulas (beta gamma : ℝ) : Commutes (V := V) (fonSolver beta) ∧ Commutes (V := V) (sonSolver beta gamma) := by
  refine ⟨fun dt H H' x dx p h hx => ⟨?_, h.acc 0⟩, fun dt H H' x dx p h hx => ⟨?_, ?_⟩⟩
  · exact ((hx.fun_add ((h.sol 1).fun_const_smul (-1 : ℝ))).fun_const_smul (1 / beta / dt)).fun_add ((h.vel 1).fun_const_smul (-(1 - beta) / beta))
  · exact (((hx.fun_add ((h.sol 1).fun_const_smul (-1 : ℝ))).fun_const_smul (gamma / beta / dt)).fun_add ((h.vel 1).fun_const_smul (1 - gamma / beta))).fun_add
      ((h.acc 1).fun_const_smul ((1 - gamma / 2 / beta) * dt))
  · exact (((hx.fun_add ((h.sol 1).fun_const_smul (-1 : ℝ))).fun_const_smul (1 / beta / dt / dt)).fun_add ((h.vel 1).fun_const_smul (-1 / beta / dt))).fun_add
      ((h.acc 1).fun_const_smul (-(1 / 2 - beta) / beta))

/-- The state after the steps, with the solutions for the parameter value `q`. -/
def atParam (S : Integrator V) (s : ℝ → Both V) (steps : List ((ℝ → V) × V × ℝ)) (q : ℝ) : Both V := pairRun S (s q) (steps.map fun k => (k.1 q, k.2.1, k.2.2))

theorem pair_deriv (S : Integrator V) (hS : Commutes S) (s : ℝ → Both V) (p : ℝ) (h : IsDeriv (fun q => (s q).val) (s p).sens p) (x : ℝ → V) (dx : V) (dt : ℝ)
    (hx : HasDerivAt x dx p) : IsDeriv (fun q => (pairStep S (s q) (x q) dx dt).val) (pairStep S (s p) (x p) dx dt).sens p := by
  have := advance_deriv S hS _ _ x dx dt p h hx
  simp only [pairStep_eq]
  exact ⟨this.sol, this.vel, this.acc⟩

/-- C178: if the sensitivity of every accepted solution is its derivative, then after any number of steps every stored sensitivity vector (solution, velocity, acceleration,
every index) is the derivative of the corresponding vector of the analysis. -/
theorem C178_histories (S : Integrator V) (hS : Commutes S) (s : ℝ → Both V) (p : ℝ) (h : IsDeriv (fun q => (s q).val) (s p).sens p) (steps : List ((ℝ → V) × V × ℝ))
    (hx : ∀ k ∈ steps, HasDerivAt k.1 k.2.1 p) : IsDeriv (fun q => (atParam S s steps q).val) (atParam S s steps p).sens p := by
  induction steps generalizing s with
  | nil => exact h
  | cons k l ih =>
    exact ih (fun q => pairStep S (s q) (k.1 q) k.2.1 k.2.2) (pair_deriv S hS s p h _ _ _ (hx k (by simp))) (fun j hj => hx j (by simp [hj]))

/-- C178, whole runs of the first order solver: if every step solves its equations for every parameter value and every sensitivity solves the system assembled by the
solver, then the sensitivities are the derivatives of the solutions and the stored vectors are the derivatives of the stored vectors. -/
theorem C178_first_order_runs (beta : ℝ) (M : V →L[ℝ] V) (r : ℝ × V → V) (r_p : V → V) (K : V → V →L[ℝ] V) (p : ℝ) (s : ℝ → Both V)
    (h : IsDeriv (fun q => (s q).val) (s p).sens p) (steps : List ((ℝ → V) × V × ℝ)) (hsol : SolvedSteps beta M r r_p K p s steps) :
    (∀ k ∈ steps, HasDerivAt k.1 k.2.1 p) ∧ IsDeriv (fun q => (atParam (fonSolver beta) s steps q).val) (atParam (fonSolver beta) s steps p).sens p := by
  induction steps generalizing s with
  | nil => exact ⟨by simp, h⟩
  | cons k l ih =>
    obtain ⟨x, dx, dt⟩ := k
    obtain ⟨h0, hd, hr, hi, hJ, hl⟩ := hsol
    have hx : HasDerivAt x dx p := by
      have hx' := hd.hasDerivAt
      have ht := C78_first_order_total_derivative beta dt M r (r_p (x p)) (K (x p)) x (fun q => (s q).val) p (deriv x p) ((s p).dsol 1) ((s p).dvel 1) hr hx' (h.sol 1) (h.vel 1)
      have hz : (fun q => M (fonVel beta dt (s q).val (x q)) + r (q, x q)) = fun _ => 0 := funext h0
      rw [hz] at ht
      have e := ht.unique (hasDerivAt_const p (0 : V))
      have e2 : (fonJac false beta dt ⟨0, M, 0, 0, K (x p)⟩ : V →L[ℝ] V) (deriv x p) = (fonJac false beta dt ⟨0, M, 0, 0, K (x p)⟩ : V →L[ℝ] V) dx := by
        have := e.trans hJ.symm
        rw [add_assoc, add_assoc] at this
        exact add_right_cancel this
      rw [← hi e2]
      exact hx'
    have hp := pair_deriv (fonSolver beta) (C178_formulas beta 0).1 s p h x dx dt hx
    obtain ⟨i1, i2⟩ := ih _ hp hl
    refine ⟨fun k hk => ?_, i2⟩
    rcases List.mem_cons.1 hk with rfl | hk
    · exact hx
    · exact i1 k hk

/-- Two steps of `v + x = p`, `x(0) = 1`, backward Euler with step size 1: the solutions are `(1 + p) / 2` and `(1 + 3 p) / 4`. -/
example (p : ℝ) : SolvedSteps (V := ℝ) 1 (ContinuousLinearMap.id ℝ ℝ) (fun q => q.2 - q.1) (fun _ => -1) (fun _ => ContinuousLinearMap.id ℝ ℝ) p
    (fun _ => { fresh (1 : ℝ) 0 with sol := fun _ => 1 }) [(fun q => (1 + q) / 2, 1 / 2, 1), (fun q => (1 + 3 * q) / 4, 3 / 4, 1)] := by
  have hr : ∀ y : ℝ, HasFDerivAt (fun q : ℝ × ℝ => q.2 - q.1) ((ContinuousLinearMap.toSpanSingleton ℝ (-1 : ℝ)).coprod (ContinuousLinearMap.id ℝ ℝ)) (p, y) := by
    intro y
    refine ((hasFDerivAt_snd (𝕜 := ℝ) (p := (p, y))).sub (hasFDerivAt_fst (𝕜 := ℝ) (p := (p, y)))).congr_fderiv ?_
    ext <;> simp
  have hi : Function.Injective (fonJac false 1 1 ⟨0, ContinuousLinearMap.id ℝ ℝ, 0, 0, ContinuousLinearMap.id ℝ ℝ⟩ : ℝ →L[ℝ] ℝ) := by
    intro a b h
    simp [fonJac] at h
    linarith
  refine ⟨?_, by fun_prop, hr _, hi, ?_, ?_, by fun_prop, hr _, hi, ?_, trivial⟩
  · intro q; simp [fonVel, fresh, Both.val]; ring
  · simp [fonJac, fonPrevContribution, fresh]; norm_num
  · intro q
    simp [pairStep_eq, Both.val, Both.sens, advance_sol, advance_vel, preShift, fonSolver, fonVel, fresh, setAt]; ring
  · simp [pairStep_eq, Both.val, Both.sens, advance_sol, advance_vel, preShift, fonSolver, fonVel, fresh, setAt, fonJac, fonPrevContribution]; norm_num

/-! ### initial derivative -/

/-- Highest derivative stored with index 0. -/
def topVal (S : Integrator V) (s : Both V) : V := if S.order = 1 then s.vel 0 else s.acc 0
/-- Its sensitivity. -/
def topSens (S : Integrator V) (s : Both V) : V := if S.order = 1 then s.dvel 0 else s.dacc 0


theorem shift_top (order k : Nat) (h : Hist V) : (shiftLoop order k h).vel 0 = h.vel 0 ∧ (shiftLoop order k h).acc 0 = h.acc 0 := by
  induction k generalizing h with
  | zero => exact ⟨rfl, rfl⟩
  | succ k ih =>
    obtain ⟨h1, h2⟩ := ih (shiftBody order (k + 1) h)
    refine ⟨h1.trans (by simp [shiftBody, setAt]), h2.trans ?_⟩
    unfold shiftBody
    by_cases ho : order > 1 <;> simp [ho, setAt]

theorem initVal_top {dbg : Bool} {S : Integrator V} {s a : Both V} {x dvec : V} {dt : ℝ} {incr : Bool} (h : initVal dbg S s x dvec dt incr = some a) :
    topVal S a = topVal S s - dvec := by
  unfold initVal at h
  split at h
  · exact absurd h (by intro h; cases h)
  obtain rfl := Option.some.inj h
  have t : ∀ g : Hist V, topVal S ({ s.setVal (if incr then { g with time := g.time + dt } else g) with first := false } : Both V) = if S.order = 1 then g.vel 0 else g.acc 0 := by
    intro g
    cases incr <;> rfl
  rw [t, (shift_top _ _ _).1, (shift_top _ _ _).2]
  unfold topVal
  by_cases ho : S.order = 1 <;> simp [ho, setAt, Both.val]

theorem initSens_top {dbg : Bool} {S : Integrator V} {s b : Both V} {dvec : V} {dt : ℝ} (h : initSens dbg S s dvec dt = some b) : topSens S b = topSens S s - dvec := by
  unfold initSens at h
  split at h
  · exact absurd h (by intro h; cases h)
  obtain rfl := Option.some.inj h
  rw [shiftSens_eq]
  unfold topSens
  dsimp only
  rw [(shift_top _ _ _).1, (shift_top _ _ _).2]
  by_cases ho : S.order = 1 <;> simp [ho, setAt, Both.sens]

theorem initVal_keeps {dbg : Bool} {S : Integrator V} {s a : Both V} {x dvec : V} {dt : ℝ} {incr : Bool} (h : initVal dbg S s x dvec dt incr = some a) :
    a.dsol = s.dsol ∧ a.dvel = s.dvel ∧ a.dacc = s.dacc ∧ a.firstSens = s.firstSens := by
  unfold initVal at h
  split at h
  · exact absurd h (by intro h; cases h)
  obtain rfl := Option.some.inj h
  exact ⟨rfl, rfl, rfl, rfl⟩

/-- C178, initial step, exactly when it is right: the equations are `M w + g(q) = 0` for the highest derivative `w`, where `g` depends on the parameter directly (`g_p`) and
through the initial state (`g_s`). The sensitivity stored for `w` is its derivative if and only if the sensitivity vector held `-M⁻¹ g_s` before the call. -/
theorem C178_initial_iff (dbg : Bool) (S : Integrator V) (M Minv : V →L[ℝ] V) (hM : ∀ w, Minv (M w) = w) (g : ℝ → V) (g_p g_s : V) (p : ℝ) (hg : HasDerivAt g (g_p + g_s) p)
    (s a : ℝ → Both V) (x : ℝ → V) (dt : ℝ) (b : Both V) (ha : ∀ q, initVal dbg S (s q) (x q) (Minv (M (topVal S (s q)) + g q)) dt false = some (a q))
    (hb : initSens dbg S (a p) (Minv g_p) dt = some b) :
    HasDerivAt (fun q => topVal S (a q)) (topSens S b) p ↔ topSens S (s p) = -Minv g_s := by
  have e1 : (fun q => topVal S (a q)) = fun q => -Minv (g q) := by
    funext q
    rw [initVal_top (ha q), map_add, hM]
    abel
  have e2 : topSens S b = topSens S (s p) - Minv g_p := by
    rw [initSens_top hb]
    obtain ⟨_, k2, k3, _⟩ := initVal_keeps (ha p)
    unfold topSens
    rw [k2, k3]
  have hd : HasDerivAt (fun q => -Minv (g q)) (-Minv (g_p + g_s)) p := ((Minv.hasFDerivAt).comp_hasDerivAt p hg).neg
  rw [e1, e2]
  constructor
  · intro h
    have := h.unique hd
    rw [map_add, neg_add] at this
    have h2 : topSens S (s p) = (topSens S (s p) - Minv g_p) + Minv g_p := by abel
    rw [h2, this]
    abel
  · intro h
    rw [h]
    refine hd.congr_deriv ?_
    rw [map_add]
    abel

/-- C178, initial step: with an initial state that does not depend on the parameter and a new solver, every stored sensitivity vector is the derivative of the stored vector
after the two initial calls. Missing: initial states that depend on the parameter (see the failures below). -/
theorem C178_initial_partial (dbg : Bool) (S : Integrator V) (ho : S.order = 1 ∨ S.order = 2) (M Minv : V →L[ℝ] V) (hM : ∀ w, Minv (M w) = w) (g : ℝ → V) (g_p : V) (p : ℝ)
    (hg : HasDerivAt g g_p p) (x : V) (t dt : ℝ) (s a : ℝ → Both V) (b : Both V) (hs : ∀ q, s q = attach (fresh x t))
    (ha : ∀ q, initVal dbg S (s q) x (Minv (M (topVal S (s q)) + g q)) dt false = some (a q)) (hb : initSens dbg S (a p) (Minv g_p) dt = some b) :
    IsDeriv (fun q => (a q).val) b.sens p := by
  have e1 : ∀ q, (a q).val = shiftLoop S.order (S.nStore - 1)
      (if S.order = 1 then ⟨fun i => if i = 0 then x else 0, setAt (0 : Nat → V) 0 (-Minv (g q)), 0, t⟩ else ⟨fun i => if i = 0 then x else 0, 0, setAt (0 : Nat → V) 0 (-Minv (g q)), t⟩) := by
    intro q
    have h := ha q
    unfold initVal at h
    split at h
    · exact absurd h (by intro h; cases h)
    have h' := Option.some.inj h
    rw [← h', hs q]
    have hsol : setAt (fun i => if i = 0 then x else (0 : V)) 0 x = fun i => if i = 0 then x else 0 := by
      funext i; unfold setAt; split <;> simp_all
    rcases ho with ho | ho
    · simp only [Both.setVal, Both.val, attach, fresh, topVal, ho, if_true, Bool.false_eq_true, if_false, Pi.zero_apply, map_zero, zero_add, zero_sub, hsol]
    · simp only [Both.setVal, Both.val, attach, fresh, topVal, ho, Bool.false_eq_true, if_false, if_true, Pi.zero_apply, map_zero, zero_add, zero_sub, hsol, OfNat.ofNat_ne_one]
  have e2 : SameVec b.sens (shiftLoop S.order (S.nStore - 1)
      (if S.order = 1 then ⟨0, setAt (0 : Nat → V) 0 (-Minv g_p), 0, t⟩ else ⟨0, 0, setAt (0 : Nat → V) 0 (-Minv g_p), t⟩)) := by
    obtain ⟨k1, k2, k3, k4⟩ := initVal_keeps (ha p)
    have kt : (a p).time = t := by
      have := congrArg Hist.time (e1 p)
      rw [shiftLoop_time] at this
      refine (show (a p).time = _ from this).trans ?_
      split <;> rfl
    have z1 : (s p).dsol = 0 := by rw [hs p]; rfl
    have z2 : (s p).dvel = 0 := by rw [hs p]; rfl
    have z3 : (s p).dacc = 0 := by rw [hs p]; rfl
    unfold initSens at hb
    split at hb
    · exact absurd hb (by intro h; cases h)
    obtain rfl := Option.some.inj hb
    rw [shiftSens_eq]
    rcases ho with ho | ho
    · simp only [Both.sens, ho, if_true, k1, k2, k3, z1, z2, z3, kt, Pi.zero_apply, zero_sub]
      exact ⟨rfl, rfl, rfl⟩
    · simp only [Both.sens, ho, k1, k2, k3, z1, z2, z3, kt, Pi.zero_apply, zero_sub, OfNat.ofNat_ne_one, if_false]
      exact ⟨rfl, rfl, rfl⟩
  have hd : HasDerivAt (fun q => -Minv (g q)) (-Minv g_p) p := ((Minv.hasFDerivAt).comp_hasDerivAt p hg).neg
  have z : ∀ i : Nat, HasDerivAt (fun _ : ℝ => (0 : Nat → V) i) ((0 : Nat → V) i) p := fun i => hasDerivAt_const p _
  have key : IsDeriv (fun q => (a q).val) (shiftLoop S.order (S.nStore - 1)
      (if S.order = 1 then ⟨0, setAt (0 : Nat → V) 0 (-Minv g_p), 0, t⟩ else ⟨0, 0, setAt (0 : Nat → V) 0 (-Minv g_p), t⟩)) p := by
    simp only [e1]
    apply shift_deriv
    by_cases h1 : S.order = 1
    · simp only [h1, if_true]
      exact ⟨fun i => hasDerivAt_const p _, setAt_deriv (fun _ => 0) _ _ _ _ _ z hd, z⟩
    · simp only [h1, if_false]
      exact ⟨fun i => hasDerivAt_const p _, z, setAt_deriv (fun _ => 0) _ _ _ _ _ z hd⟩
  obtain ⟨f1, f2, f3⟩ := e2
  exact ⟨fun i => f1 ▸ key.sol i, fun i => f2 ▸ key.vel i, fun i => f3 ▸ key.acc i⟩

/-- The hypotheses are met: `v + p = 0`, first order solver. -/
example (q : ℝ) : ∃ a b, initVal true (fonSolver (V := ℝ) 1) (attach (fresh 1 0)) 1 (topVal (fonSolver (V := ℝ) 1) (attach (fresh 1 0)) + q) 1 false = some a ∧
    initSens true (fonSolver (V := ℝ) 1) a 1 1 = some b := ⟨_, _, rfl, rfl⟩

end calculus

/-- C178 fails: `v + x = 0` with initial value `x = p`: the velocity is `-p`, its sensitivity `-1`; the sensitivity vector stays 0 since the residual does not depend on the
parameter directly. -/
theorem C178_initial_state_fails : ∃ (a : ℝ → Both ℝ) (b : Both ℝ),
    (∀ q, initVal true (fonSolver 1) (attach (fresh q 0)) q (topVal (fonSolver (V := ℝ) 1) (attach (fresh q 0)) + q) 1 false = some (a q)) ∧
    initSens true (fonSolver 1) (a 1) 0 1 = some b ∧ (∀ q, (a q).vel 0 = -q) ∧ b.dvel 0 = 0 ∧ ¬ HasDerivAt (fun q => (a q).vel 0) (b.dvel 0) 1 := by
  have hv : ∀ q a, initVal true (fonSolver 1) (attach (fresh q 0)) q (topVal (fonSolver (V := ℝ) 1) (attach (fresh q 0)) + q) 1 false = some a → a.vel 0 = -q := by
    intro q a h
    have := initVal_top h
    simpa [topVal, fonSolver, attach, fresh] using this
  refine ⟨fun q => (initVal true (fonSolver 1) (attach (fresh q 0)) q (topVal (fonSolver (V := ℝ) 1) (attach (fresh q 0)) + q) 1 false).get rfl, _, fun q => rfl, rfl, fun q => hv q _ rfl, ?_, ?_⟩
  · simp [shiftSens, shiftSensBody, fonSolver, setAt, initVal, attach, fresh, Both.setVal]
  · intro h
    have e : (fun q => ((initVal true (fonSolver 1) (attach (fresh q 0)) q (topVal (fonSolver (V := ℝ) 1) (attach (fresh q 0)) + q) 1 false).get rfl).vel 0) = fun q => -q :=
      funext fun q => hv q _ rfl
    rw [e] at h
    have := h.unique (hasDerivAt_id' (1 : ℝ)).neg
    simp [shiftSens, shiftSensBody, fonSolver, setAt, initVal, attach, fresh, Both.setVal] at this

/-! ### growth factor of the stabilized solver (C40) -/

theorem foldl_max_ge (l : List (ℝ × ℝ)) (m : ℝ) : m ≤ l.foldl (fun m r => max m (varNorm r)) m ∧ ∀ r ∈ l, varNorm r ≤ l.foldl (fun m r => max m (varNorm r)) m := by
  induction l generalizing m with
  | nil => exact ⟨le_refl _, by simp⟩
  | cons q l ih =>
    obtain ⟨h1, h2⟩ := ih (max m (varNorm q))
    refine ⟨(le_max_left _ _).trans h1, fun r hr => ?_⟩
    rcases List.mem_cons.1 hr with rfl | hr
    · exact (le_max_right _ _).trans h1
    · exact h2 r hr

/-- C40: when the growth factor is within the bound, the norm of every variable that was not zero grows by at most the bound. -/
theorem C40_norm_factor (l : List (ℝ × ℝ)) (a : ℝ) (h : normFactor l ≤ a) (q : ℝ × ℝ) (hq : q ∈ l) (h0 : 0 < q.1) : q.2 ≤ a * q.1 := by
  have hv : varNorm q ≤ a := by
    cases l with
    | nil => simp at hq
    | cons r l =>
      obtain ⟨h1, h2⟩ := foldl_max_ge l (varNorm r)
      rcases List.mem_cons.1 hq with rfl | hq
      · exact h1.trans h
      · exact (h2 q hq).trans h
  rw [varNorm, if_pos h0, div_le_iff₀ h0] at hv
  exact hv

theorem foldl_max_le (l : List (ℝ × ℝ)) (m a : ℝ) (hm : m ≤ a) (h : ∀ r ∈ l, varNorm r ≤ a) : l.foldl (fun m r => max m (varNorm r)) m ≤ a := by
  induction l generalizing m with
  | nil => exact hm
  | cons q l ih => exact ih _ (max_le hm (h q (by simp))) fun r hr => h r (by simp [hr])

/-- C40: conversely, when no variable that was not zero grows by more than the bound, the factor is within it. -/
theorem C40_norm_factor_conv (l : List (ℝ × ℝ)) (a : ℝ) (ha : 0 ≤ a) (h : ∀ q ∈ l, 0 < q.1 → q.2 ≤ a * q.1) : normFactor l ≤ a := by
  have hv : ∀ q ∈ l, varNorm q ≤ a := by
    intro q hq
    unfold varNorm
    split
    · rename_i h0
      rw [div_le_iff₀ h0]
      exact h q hq h0
    · exact ha
  cases l with
  | nil => exact ha
  | cons r l => exact foldl_max_le l _ a (hv r (by simp)) fun q hq => hv q (by simp [hq])

example : normFactor [(2, 1), (1, 3)] = 3 ∧ normFactor [(2, 1), (4, 2)] ≤ 1 := by
  constructor
  · simp [normFactor, varNorm]; norm_num
  · simp [normFactor, varNorm]; norm_num

/-- C40 fails: a variable that was zero does not count, however large it becomes: the step is accepted with any bound. -/
theorem C40_norm_zero_fails (n : ℝ) : normFactor [(1, 1), (0, n)] = 1 := by simp [normFactor, varNorm]

end Verif.Transient
