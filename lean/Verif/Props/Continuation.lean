import Mathlib.Analysis.Calculus.Deriv.Add
import Mathlib.Analysis.Calculus.Deriv.Mul
import Mathlib.LinearAlgebra.Matrix.DotProduct
import Mathlib.Tactic.FieldSimp
import Mathlib.Tactic.Linarith
import Mathlib.Tactic.Ring
import Mathlib.Tactic.NormNum
import Mathlib.Tactic.Module
import Verif.Model.Continuation
/-
  C34-C37: continuation solvers.
-/
namespace Verif.Cont
open Matrix
variable {S D : Type}

/-! ### Specification -/

/-- The residual is small enough, absolutely or relative to the norm at the start of the step. -/
def Converged (P : Params) (norm0 norm : ℝ) : Prop := norm < P.abs_tol ∨ (norm0 ≠ 0 ∧ norm / norm0 < P.rel_tol)

/-! ### C34 -/

theorem body_cases (P : Params) (Q : Problem S D) (s0 : S) (d0 : D) (n0 : ℝ) (c : Cfg S D) :
    let c' := body P Q s0 d0 n0 c
    (c'.s = s0 ∧ c'.d = d0 ∧ c'.iter = 0 ∧ c'.arc = max P.min_step (1 / 2 * c.arc) ∧ P.min_step < c.arc ∧ c'.cont = true
        ∧ P.max_it ≤ c.iter + 1) ∨
    (c'.iter = c.iter + 1 ∧ c'.arc = c.arc ∧ P.max_it ≤ c.iter + 1 ∧ c.arc ≤ P.min_step ∧ c'.cont = false) ∨
    (c'.iter = c.iter + 1 ∧ c'.arc = c.arc ∧ c.iter + 1 < P.max_it ∧ (c'.cont = false ↔ Converged P n0 c'.norm)) := by
  simp only [body]
  by_cases h1 : P.max_it ≤ c.iter + 1
  · rw [if_pos h1]
    by_cases h2 : P.min_step < c.arc
    · rw [if_pos h2]; left; simp [h1, h2]
    · rw [if_neg h2]; right; left; exact ⟨rfl, rfl, h1, not_lt.1 h2, rfl⟩
  · rw [if_neg h1]
    right; right
    refine ⟨rfl, rfl, by omega, ?_⟩
    unfold Converged
    dsimp only
    split
    · rename_i h; simp [h]
    · rename_i h
      split
      · rename_i h'; simp [h']
      · rename_i h'; simp [h, h']

/-- Everything the loop maintains. -/
structure Inv (P : Params) (s0 : S) (arc0 n0 : ℝ) (c : Cfg S D) : Prop where
  start : c.iter = 0 → c.s = s0
  arcUp : c.arc ≤ arc0
  arcLow : min P.min_step arc0 ≤ c.arc
  done : c.cont = false → (Converged P n0 c.norm ∨ (P.max_it ≤ c.iter ∧ c.arc ≤ P.min_step))
  pos : c.cont = false → 1 ≤ c.iter

theorem inv_pass (P : Params) (hmin : 0 ≤ P.min_step) (Q : Problem S D) (s0 : S) (d0 : D) (arc0 n0 : ℝ) (c : Cfg S D)
    (h : Inv P s0 arc0 n0 c) : Inv P s0 arc0 n0 (pass P Q s0 d0 n0 c) := by
  unfold pass
  split
  · rcases body_cases P Q s0 d0 n0 c with ⟨e1, _, e3, e4, e5, e6, _⟩ | ⟨e1, e2, e3, e4, e5⟩ | ⟨e1, e2, e3, e4⟩
    · refine ⟨fun _ => e1, ?_, ?_, fun h' => by rw [e6] at h'; simp at h', fun h' => by rw [e6] at h'; simp at h'⟩
      · rw [e4]
        have := h.arcUp
        exact max_le (by linarith) (by linarith)
      · rw [e4]; exact le_trans (min_le_left _ _) (le_max_left _ _)
    · exact ⟨fun h' => by omega, by rw [e2]; exact h.arcUp, by rw [e2]; exact h.arcLow, fun _ => Or.inr ⟨by omega, by rw [e2]; exact e4⟩,
        fun _ => by omega⟩
    · exact ⟨fun h' => by omega, by rw [e2]; exact h.arcUp, by rw [e2]; exact h.arcLow, fun h' => Or.inl (e4.1 h'), fun _ => by omega⟩
  · exact h

theorem inv_solve (P : Params) (hmin : 0 ≤ P.min_step) (Q : Problem S D) (s0 : S) (d0 : D) (arc : ℝ) (k : Nat) :
    Inv P s0 arc (Q.resNorm arc s0 d0).1 (solveUpTo P Q s0 d0 arc k) := by
  unfold solveUpTo
  induction k with
  | zero =>
    exact ⟨fun _ => rfl, le_refl _, min_le_right _ _, fun h => by simp [start] at h, fun h => by simp [start] at h⟩
  | succ k ih => rw [Function.iterate_succ_apply']; exact inv_pass P hmin Q s0 d0 arc _ _ ih

/-- C34, restoration: whenever the solver is about to begin an attempt (first or retried), after any number of passes and for any behaviour of the
Newton iterations, solution and load parameter are those at entry. -/
theorem C34_retry_restores (P : Params) (hmin : 0 ≤ P.min_step) (Q : Problem S D) (s0 : S) (d0 : D) (arc : ℝ) (k : Nat)
    (h : (solveUpTo P Q s0 d0 arc k).iter = 0) : (solveUpTo P Q s0 d0 arc k).s = s0 :=
  (inv_solve P hmin Q s0 d0 arc k).start h

/-- C34, restoration of the search direction: a pass that starts a retry puts back the direction data saved at entry and halves the step. -/
theorem C34_retry_restores_direction (P : Params) (Q : Problem S D) (s0 : S) (d0 : D) (n0 : ℝ) (c : Cfg S D)
    (h : (body P Q s0 d0 n0 c).iter = 0) :
    (body P Q s0 d0 n0 c).d = d0 ∧ (body P Q s0 d0 n0 c).s = s0 ∧
      (body P Q s0 d0 n0 c).arc = max P.min_step (c.arc / 2) := by
  rcases body_cases P Q s0 d0 n0 c with ⟨e1, e2, _, e4, _⟩ | ⟨e1, _⟩ | ⟨e1, _⟩
  · exact ⟨e2, e1, by rw [e4]; congr 1; ring⟩
  · omega
  · omega

/-- C34, step bounds during the step: the arc length never grows and never drops below the minimum (if it starts above it). -/
theorem C34_arc_bounds (P : Params) (hmin : 0 ≤ P.min_step) (Q : Problem S D) (s0 : S) (d0 : D) (arc : ℝ) (ha : P.min_step ≤ arc) (k : Nat) :
    P.min_step ≤ (solveUpTo P Q s0 d0 arc k).arc ∧ (solveUpTo P Q s0 d0 arc k).arc ≤ arc := by
  have h := inv_solve P hmin Q s0 d0 arc k
  exact ⟨by have := h.arcLow; rwa [min_eq_left ha] at this, h.arcUp⟩

theorem terminates_aux (P : Params) (hmin : 0 < P.min_step) (Q : Problem S D) (s0 : S) (d0 : D) (n0 : ℝ) (m : Nat) :
    ∀ (r : Nat) (c : Cfg S D), c.arc ≤ 2 ^ m * P.min_step → P.max_it - c.iter ≤ r →
      ∃ k, ((pass P Q s0 d0 n0)^[k] c).cont = false := by
  induction m with
  | zero =>
    intro r
    induction r with
    | zero =>
      intro c ha hr
      by_cases hc : c.cont = true
      · refine ⟨1, ?_⟩
        rw [Function.iterate_one, pass, if_pos hc]
        rcases body_cases P Q s0 d0 n0 c with ⟨_, _, _, _, e5, _⟩ | ⟨_, _, _, _, e5⟩ | ⟨_, _, e3, _⟩
        · simp at ha; linarith
        · exact e5
        · omega
      · exact ⟨0, by simpa using hc⟩
    | succ r ih =>
      intro c ha hr
      by_cases hc : c.cont = true
      · rcases body_cases P Q s0 d0 n0 c with ⟨_, _, _, _, e5, _⟩ | ⟨_, _, _, _, e5⟩ | ⟨e1, e2, e3, _⟩
        · simp at ha; linarith
        · exact ⟨1, by rw [Function.iterate_one, pass, if_pos hc]; exact e5⟩
        · obtain ⟨k, hk⟩ := ih (body P Q s0 d0 n0 c) (by rw [e2]; exact ha) (by omega)
          exact ⟨k + 1, by rw [Function.iterate_succ_apply, pass, if_pos hc]; exact hk⟩
      · exact ⟨0, by simpa using hc⟩
  | succ m ihm =>
    have hrestart : ∀ c : Cfg S D, c.arc ≤ 2 ^ (m + 1) * P.min_step → P.min_step < c.arc →
        max P.min_step (1 / 2 * c.arc) ≤ 2 ^ m * P.min_step := by
      intro c ha _
      refine max_le ?_ ?_
      · exact le_mul_of_one_le_left hmin.le (one_le_pow₀ (by norm_num))
      · rw [pow_succ] at ha; linarith
    intro r
    induction r with
    | zero =>
      intro c ha hr
      by_cases hc : c.cont = true
      · rcases body_cases P Q s0 d0 n0 c with ⟨_, _, e3, e4, e5, _⟩ | ⟨_, _, _, _, e5⟩ | ⟨_, _, e3, _⟩
        · obtain ⟨k, hk⟩ := ihm P.max_it (body P Q s0 d0 n0 c) (by rw [e4]; exact hrestart c ha e5) (by omega)
          exact ⟨k + 1, by rw [Function.iterate_succ_apply, pass, if_pos hc]; exact hk⟩
        · exact ⟨1, by rw [Function.iterate_one, pass, if_pos hc]; exact e5⟩
        · omega
      · exact ⟨0, by simpa using hc⟩
    | succ r ih =>
      intro c ha hr
      by_cases hc : c.cont = true
      · rcases body_cases P Q s0 d0 n0 c with ⟨_, _, e3, e4, e5, _⟩ | ⟨_, _, _, _, e5⟩ | ⟨e1, e2, e3, _⟩
        · obtain ⟨k, hk⟩ := ihm P.max_it (body P Q s0 d0 n0 c) (by rw [e4]; exact hrestart c ha e5) (by omega)
          exact ⟨k + 1, by rw [Function.iterate_succ_apply, pass, if_pos hc]; exact hk⟩
        · exact ⟨1, by rw [Function.iterate_one, pass, if_pos hc]; exact e5⟩
        · obtain ⟨k, hk⟩ := ih (body P Q s0 d0 n0 c) (by rw [e2]; exact ha) (by omega)
          exact ⟨k + 1, by rw [Function.iterate_succ_apply, pass, if_pos hc]; exact hk⟩
      · exact ⟨0, by simpa using hc⟩

/-- C34, termination: with a positive minimum step the loop ends, whatever the Newton iterations do. -/
theorem C34_terminates (P : Params) (hmin : 0 < P.min_step) (Q : Problem S D) (s0 : S) (d0 : D) (arc : ℝ) :
    ∃ k, (solveUpTo P Q s0 d0 arc k).cont = false := by
  obtain ⟨m, hm⟩ := pow_unbounded_of_one_lt (arc / P.min_step) (one_lt_two)
  refine terminates_aux P hmin Q s0 d0 _ m P.max_it (start Q s0 d0 arc) ?_ (by simp)
  have : arc ≤ 2 ^ m * P.min_step := by rw [div_lt_iff₀ hmin] at hm; exact hm.le
  exact this

/-- C34, outcome: when the loop ends the residual has converged, or the iterations were used up at (or below) the minimum step. -/
theorem C34_outcome (P : Params) (hmin : 0 ≤ P.min_step) (Q : Problem S D) (s0 : S) (d0 : D) (arc : ℝ) (k : Nat)
    (h : (solveUpTo P Q s0 d0 arc k).cont = false) :
    Converged P (Q.resNorm arc s0 d0).1 (solveUpTo P Q s0 d0 arc k).norm ∨
      (P.max_it ≤ (solveUpTo P Q s0 d0 arc k).iter ∧ (solveUpTo P Q s0 d0 arc k).arc ≤ P.min_step) :=
  (inv_solve P hmin Q s0 d0 arc k).done h

/-- C34, step-size adaptation: a step size within the bounds stays within them. -/
theorem C34_adapt_bounds (P : Params) (hmm : P.min_step ≤ P.max_step) (hmin : 0 ≤ P.min_step) (iter : Nat) (arc : ℝ)
    (h1 : P.min_step ≤ arc) (h2 : arc ≤ P.max_step) :
    P.min_step ≤ adapt P iter arc ∧ adapt P iter arc ≤ P.max_step := by
  unfold adapt
  split
  · exact ⟨h1, h2⟩
  · dsimp only
    split
    · rename_i hf
      have : arc ≤ ((P.desired : ℝ) / (iter + 1)) ^ P.expo * arc := le_mul_of_one_le_left (by linarith) hf.le
      exact ⟨le_min hmm (by linarith), min_le_left _ _⟩
    · split
      · rename_i hf
        have : ((P.desired : ℝ) / (iter + 1)) ^ P.expo * arc ≤ arc := mul_le_of_le_one_left (by linarith) hf.le
        exact ⟨le_max_left _ _, max_le hmm (by linarith)⟩
      · exact ⟨h1, h2⟩

/-- A Newton iteration that never gets anywhere: the state counts iterations, the residual norm is always 1. -/
def stuck : Problem Nat Unit := ⟨fun _ s d => (s + 1, d), fun _ _ d => (1, d)⟩

/-- C34 fails in the form "accepts a converged state or leaves the state of entry": when the iterations are exhausted at the minimum step the
unconverged iterate is left in place, and `solve()` returns normally. -/
theorem C34_unconverged_state_kept_fails :
    ∃ (P : Params) (Q : Problem Nat Unit) (s0 : Nat) (arc : ℝ) (k : Nat), 0 < P.min_step ∧ P.min_step ≤ arc ∧ 0 < P.abs_tol ∧
      (solveUpTo P Q s0 () arc k).cont = false ∧ (solveUpTo P Q s0 () arc k).s ≠ s0 ∧
      ¬ Converged P (Q.resNorm arc s0 ()).1 (solveUpTo P Q s0 () arc k).norm := by
  refine ⟨⟨1, 1 / 2, 1 / 2, 1, 2, 1, 1⟩, stuck, 0, 1, 1, by norm_num, by norm_num, by norm_num, ?_, ?_, ?_⟩
  · simp [solveUpTo, pass, body, start, stuck]
  · simp [solveUpTo, pass, body, start, stuck]
  · simp [solveUpTo, pass, body, start, stuck, Converged]; norm_num

/-- C34 and the default parameters: right after `initialize` the arc length is `√2`, below the default minimum step 2, so a failed first step is not
retried, and the "reduced" step after a slowly converging one is larger than the step it reduces. -/
theorem C34_initial_step_below_minimum_fails (nX dp : ℝ) (hX : 0 < nX) (hp : dp ≠ 0) :
    (initScales nX dp).2.2 = Real.sqrt 2 ∧ (initScales nX dp).2.2 < defaults.min_step ∧
      (initScales nX dp).2.2 < adapt defaults 9 (initScales nX dp).2.2 := by
  have e : (initScales nX dp).2.2 = Real.sqrt 2 := by
    simp only [initScales]
    congr 1
    have : |dp| ≠ 0 := abs_ne_zero.2 hp
    have h2 : |dp| ^ 2 = dp ^ 2 := sq_abs dp
    have hd2 : dp ^ 2 ≠ 0 := pow_ne_zero 2 hp
    rw [one_div_pow, h2, one_div_pow]
    field_simp
    norm_num
  have hs : Real.sqrt 2 < 2 := by
    rw [Real.sqrt_lt' (by norm_num)]; norm_num
  refine ⟨e, by rw [e]; exact hs, ?_⟩
  rw [e]
  have hf : ((defaults.desired : ℝ) / ((9 : ℕ) + 1)) ^ defaults.expo < 1 :=
    Real.rpow_lt_one (by positivity) (by simp [defaults]; norm_num) (by simp [defaults])
  unfold adapt
  dsimp only
  rw [if_neg (by norm_num), if_neg (by linarith), if_pos hf]
  exact lt_of_lt_of_le hs (le_max_left _ _)

/-- Non-vacuity: the stuck problem with room for two retries terminates at the minimum step. -/
example : ∃ k, (solveUpTo ⟨1, 1 / 2, 1 / 2, 1, 2, 1, 1⟩ stuck 0 () 4 k).cont = false := C34_terminates _ (by norm_num) _ _ _ _

example : (solveUpTo ⟨1, 1 / 2, 1 / 2, 1, 2, 1, 1⟩ stuck 0 () 4 1).iter = 0 ∧ (solveUpTo ⟨1, 1 / 2, 1 / 2, 1, 2, 1, 1⟩ stuck 0 () 4 1).arc = 2 := by
  constructor
  · simp [solveUpTo, pass, body, start, stuck]
  · simp [solveUpTo, pass, body, start, stuck]; norm_num

/-! ### C35 -/

/-- C35, partial: a pass that converges before the last permitted iteration ends the loop with the new state. Missing: the last permitted iteration
(see `C35_fails`). -/
theorem C35_early_convergence_accepted_partial (P : Params) (Q : Problem S D) (s0 : S) (d0 : D) (n0 : ℝ) (c : Cfg S D)
    (hlt : c.iter + 1 < P.max_it)
    (hconv : Converged P n0 (Q.resNorm c.arc (Q.newton c.arc c.s c.d).1 (Q.newton c.arc c.s c.d).2).1) :
    (body P Q s0 d0 n0 c).cont = false ∧ (body P Q s0 d0 n0 c).s = (Q.newton c.arc c.s c.d).1 := by
  unfold body
  dsimp only
  rw [if_neg (by omega)]
  refine ⟨?_, rfl⟩
  rcases hconv with h | h
  · simp [h]
  · simp [h]

/-- C35 fails: convergence at the last permitted iteration with a step above the minimum is thrown away: the state is reset and the step retried. -/
theorem C35_fails :
    ∃ (P : Params) (Q : Problem Nat Unit) (c : Cfg Nat Unit) (n0 : ℝ), c.iter + 1 = P.max_it ∧ P.min_step < c.arc ∧
      Converged P n0 (Q.resNorm c.arc (Q.newton c.arc c.s c.d).1 (Q.newton c.arc c.s c.d).2).1 ∧
      (body P Q 0 () n0 c).cont = true ∧ (body P Q 0 () n0 c).s = 0 ∧ (Q.newton c.arc c.s c.d).1 ≠ 0 := by
  refine ⟨⟨2, 1 / 2, 1 / 2, 1, 2, 1, 1⟩, ⟨fun _ s d => (s + 1, d), fun _ _ d => (0, d)⟩, ⟨1, (), 2, 1, 1, true⟩, 1, rfl, by norm_num, ?_, ?_, ?_, ?_⟩
  · left; norm_num
  · simp [body]
  · simp [body]
  · simp

/-! ### C36 -/
variable {n : Type} [Fintype n]

/-- Specification: the Newton equations of the extended system. -/
def SolvesNewton (J : Matrix n n ℝ) (f fp gX : n → ℝ) (gp g : ℝ) (d : (n → ℝ) × ℝ) : Prop :=
  J *ᵥ d.1 + d.2 • fp = -f ∧ gX ⬝ᵥ d.1 + gp * d.2 = -g

/-- the bordered system assembled on the coupled path is exactly the Newton system. -/
theorem C36_bordered_is_newton (J : Matrix n n ℝ) (f fp gX : n → ℝ) (gp g : ℝ) (y : Option n → ℝ) :
    borderedMat J fp gX gp *ᵥ y = borderedRhs f g ↔ SolvesNewton J f fp gX gp g (fun i => y (some i), y none) := by
  have h1 : ∀ i, (borderedMat J fp gX gp *ᵥ y) (some i) = (J *ᵥ (fun i => y (some i))) i + y none * fp i := by
    intro i
    simp only [mulVec, dotProduct, Fintype.sum_option, borderedMat]; ring
  have h2 : (borderedMat J fp gX gp *ᵥ y) none = gX ⬝ᵥ (fun i => y (some i)) + gp * y none := by
    simp only [mulVec, dotProduct, Fintype.sum_option, borderedMat]; ring
  constructor
  · intro h
    constructor
    · funext i
      have := congrFun h (some i)
      rw [h1] at this
      simpa [borderedRhs] using this
    · have := congrFun h none
      rw [h2] at this
      simpa [borderedRhs] using this
  · rintro ⟨ha, hb⟩
    funext o
    cases o with
    | none => rw [h2]; simpa [borderedRhs] using hb
    | some i => rw [h1]; have := congrFun ha i; simpa [borderedRhs] using this

/-- C36: with an exact linear solver and a regular constraint, the Schur path (with `dXdp` computed inside, or supplied by the caller for the same Jacobian)
solves the same Newton system. -/
theorem C36_schur_solves_newton (J : Matrix n n ℝ) (solve : (n → ℝ) → (n → ℝ)) (hs : ∀ b, J *ᵥ solve b = b)
    (hl : ∀ x, solve (J *ᵥ x) = x) (f fp gX : n → ℝ) (gp g : ℝ) (u1 u2 : Bool) (dXdp : n → ℝ)
    (hin : (u1 || u2) = false → J *ᵥ dXdp = -fp) (ha : gp - gX ⬝ᵥ solve fp ≠ 0) :
    SolvesNewton J f fp gX gp g (schur solve f fp gX gp g u1 u2 dXdp) := by
  have hlin : ∀ c : ℝ, solve (-(f + c • fp)) = -(solve f) - c • solve fp := by
    intro c
    rw [← hl (-(solve f) - c • solve fp)]
    congr 1
    rw [mulVec_sub, mulVec_neg, mulVec_smul, hs, hs]; module
  have hd : (if u1 || u2 then (-1 : ℝ) • solve fp else dXdp) = -(solve fp) := by
    split
    · module
    · rename_i h
      have := hin (by simpa using h)
      rw [← hl dXdp, this, ← hl (-(solve fp)), mulVec_neg, hs]
  unfold schur SolvesNewton
  simp only [hd]
  rw [neg_one_smul]
  constructor
  · rw [hs]; module
  · rw [hlin]
    simp only [dotProduct_sub, dotProduct_neg, dotProduct_smul, smul_eq_mul]
    have : gp + -(gX ⬝ᵥ solve fp) ≠ 0 := by rwa [← sub_eq_add_neg]
    field_simp
    ring

/-- C36: the two paths give the same increment whenever the bordered matrix is injective. -/
theorem C36_same_increment (J : Matrix n n ℝ) (solve : (n → ℝ) → (n → ℝ)) (hs : ∀ b, J *ᵥ solve b = b)
    (hl : ∀ x, solve (J *ᵥ x) = x) (f fp gX : n → ℝ) (gp g : ℝ) (ha : gp - gX ⬝ᵥ solve fp ≠ 0) (y : Option n → ℝ)
    (hy : borderedMat J fp gX gp *ᵥ y = borderedRhs f g) :
    (fun i => y (some i), y none) = schur solve f fp gX gp g true true 0 := by
  have h1 := (C36_bordered_is_newton J f fp gX gp g y).1 hy
  have h2 := C36_schur_solves_newton J solve hs hl f fp gX gp g true true 0 (by simp) ha
  obtain ⟨a1, b1⟩ := h1
  obtain ⟨a2, b2⟩ := h2
  generalize schur solve f fp gX gp g true true 0 = d at *
  obtain ⟨dX, dp⟩ := d
  simp only at *
  -- difference solves the homogeneous system
  have e : (fun i => y (some i)) - dX = -((y none - dp) • solve fp) := by
    rw [← hl ((fun i => y (some i)) - dX), mulVec_sub, eq_sub_of_add_eq a1, eq_sub_of_add_eq a2,
      ← hl (-((y none - dp) • solve fp)), mulVec_neg, mulVec_smul, hs]
    congr 1; module
  have hz : (y none - dp) * (gp - gX ⬝ᵥ solve fp) = 0 := by
    have : gX ⬝ᵥ ((fun i => y (some i)) - dX) + gp * (y none - dp) = 0 := by
      rw [dotProduct_sub]; linear_combination b1 - b2
    rw [e, dotProduct_neg, dotProduct_smul, smul_eq_mul] at this
    linear_combination this
  have hp : y none - dp = 0 := (mul_eq_zero.1 hz).resolve_right ha
  have hx : (fun i => y (some i)) - dX = 0 := by rw [e, hp]; simp
  exact Prod.ext (sub_eq_zero.1 hx) (sub_eq_zero.1 hp)

/-- Non-vacuity: `J = 1`, `f = 1`, `f_p = 1`, `g_X = 0`, `g_p = 1`. -/
example : (∀ b : Fin 1 → ℝ, (1 : Matrix (Fin 1) (Fin 1) ℝ) *ᵥ id b = b) ∧ (1 : ℝ) - (0 : Fin 1 → ℝ) ⬝ᵥ (fun _ => 1) ≠ 0 := by
  constructor
  · intro b; simp
  · simp

/-- C36: the arclength solver takes a Newton step if the matrix left over from the previous assembly is the one at the current iterate. -/
theorem C36_arclength_partial (J : Matrix n n ℝ) (solve : (n → ℝ) → (n → ℝ)) (hs : ∀ b, J *ᵥ solve b = b) (hl : ∀ x, solve (J *ᵥ x) = x) (f fp X0 X : n → ℝ) (sgn Xs ps arc p0 p : ℝ) :
    let G := gArc sgn Xs ps arc X0 p0 (-solve fp) X p
    G.2.1 - G.2.2 ⬝ᵥ solve fp ≠ 0 → SolvesNewton J f fp G.2.2 G.2.1 G.1 (arcNewton solve solve f fp sgn Xs ps arc X0 p0 X p) := by
  intro G ha
  have e : arcDXdp solve fp = -solve fp := by simp [arcDXdp]
  unfold arcNewton
  rw [e]
  exact C36_schur_solves_newton J solve hs hl f fp G.2.2 G.2.1 G.1 false false (-solve fp) (fun _ => by rw [mulVec_neg, hs]) ha

/-- C36 fails for the arclength solver: its Schur step takes `dXdp` from the matrix left over from the previous assembly, while using the re-assembled Jacobian
elsewhere, so the increment does not satisfy the linearised constraint. -/
theorem C36_arclength_stale_matrix_fails :
    ∃ (Jold Jnew : Matrix (Fin 1) (Fin 1) ℝ) (solveOld solveNew : (Fin 1 → ℝ) → (Fin 1 → ℝ)) (f fp X0 X : Fin 1 → ℝ) (p0 p : ℝ),
      (∀ b, Jold *ᵥ solveOld b = b) ∧ (∀ b, Jnew *ᵥ solveNew b = b) ∧ (∀ x, solveNew (Jnew *ᵥ x) = x) ∧
      let G := gArc 1 1 1 1 X0 p0 (arcDXdp solveOld fp) X p
      G.2.1 - G.2.2 ⬝ᵥ solveNew fp ≠ 0 ∧
      ¬ SolvesNewton Jnew f fp G.2.2 G.2.1 G.1 (arcNewton solveOld solveNew f fp 1 1 1 1 X0 p0 X p) := by
  refine ⟨1, (2 : ℝ) • 1, id, fun b => (1 / 2 : ℝ) • b, 0, fun _ => -1, 0, 0, 0, 0, by intro b; simp, ?_, ?_, ?_, ?_⟩
  · intro b; rw [smul_mulVec, one_mulVec, smul_smul]; norm_num
  · intro b; show (1 / 2 : ℝ) • _ = _; rw [smul_mulVec, one_mulVec, smul_smul]; norm_num
  · have h2 : (0 : ℝ) < Real.sqrt 2 := by positivity
    have h3 : 0 < (Real.sqrt 2)⁻¹ := inv_pos.2 h2
    simp [gArc, arcDXdp, dotProduct]
    norm_num
    intro h; linarith
  · intro h
    have h2 : (0 : ℝ) < Real.sqrt 2 := by positivity
    have := h.2
    simp [gArc, arcDXdp, arcNewton, schur, dotProduct] at this
    norm_num at this
    field_simp at this
    norm_num at this

/-! ### C37 -/

/-- The normalised direction has unit length. -/
theorem normalise_unit (tX : n → ℝ) (tp : ℝ) (h : tp ≠ 0 ∨ tX ⬝ᵥ tX ≠ 0) :
    (normalise tX tp).2 ^ 2 + (normalise tX tp).1 ⬝ᵥ (normalise tX tp).1 = 1 := by
  have hx : 0 ≤ tX ⬝ᵥ tX := Finset.sum_nonneg fun i _ => mul_self_nonneg _
  have hp : 0 < tp * tp + tX ⬝ᵥ tX := by
    rcases h with h | h
    · have : 0 < tp * tp := mul_self_pos.2 h
      linarith
    · have : 0 < tX ⬝ᵥ tX := lt_of_le_of_ne hx (Ne.symm h)
      have := mul_self_nonneg tp
      linarith
  have hv := Real.sq_sqrt hp.le
  have hv0 : Real.sqrt (tp * tp + tX ⬝ᵥ tX) ≠ 0 := (Real.sqrt_pos.2 hp).ne'
  simp only [normalise, Real.sq_sqrt hx, smul_dotProduct, dotProduct_smul, smul_eq_mul]
  generalize Real.sqrt (tp * tp + tX ⬝ᵥ tX) = v at *
  field_simp
  linear_combination -hv

/-- C37: the stored search direction has unit length, is tangent to the solution path in the scaled variables `(X_scale X, p_scale p)`, and never turns
back (positive component along the previous direction). -/
theorem C37_search_direction (J : Matrix n n ℝ) (solve : (n → ℝ) → (n → ℝ)) (hs : ∀ b, J *ᵥ solve b = b) (hl : ∀ x, solve (J *ᵥ x) = x)
    (fp t0X : n → ℝ) (t0p Xs ps : ℝ) (ha : t0p - t0X ⬝ᵥ solve ((Xs / ps) • fp) ≠ 0) :
    let t := searchDir solve fp t0X t0p Xs ps
    t.2 ^ 2 + t.1 ⬝ᵥ t.1 = 1 ∧ J *ᵥ t.1 + t.2 • ((Xs / ps) • fp) = 0 ∧ 0 < t0X ⬝ᵥ t.1 + t0p * t.2 := by
  have hN := C36_schur_solves_newton J solve hs hl 0 ((Xs / ps) • fp) t0X t0p (-1) false true 0 (by simp) ha
  unfold searchDir
  dsimp only
  generalize schur solve 0 ((Xs / ps) • fp) t0X t0p (-1) false true 0 = raw at *
  obtain ⟨tX, tp⟩ := raw
  obtain ⟨h1, h2⟩ := hN
  simp only [neg_zero, neg_neg] at h1 h2
  have hx : 0 ≤ tX ⬝ᵥ tX := Finset.sum_nonneg fun i _ => mul_self_nonneg _
  have hne : tp ≠ 0 ∨ tX ⬝ᵥ tX ≠ 0 := by
    by_contra hc
    push Not at hc
    have hz : tX = 0 := by simpa using (dotProduct_self_eq_zero).1 hc.2
    rw [hz, hc.1] at h2
    simp at h2
  have hp : 0 < tp * tp + tX ⬝ᵥ tX := by
    rcases hne with h | h
    · have : 0 < tp * tp := mul_self_pos.2 h
      linarith
    · have : 0 < tX ⬝ᵥ tX := lt_of_le_of_ne hx (Ne.symm h)
      have := mul_self_nonneg tp
      linarith
  refine ⟨normalise_unit tX tp hne, ?_, ?_⟩
  · simp only [normalise, Real.sq_sqrt hx]
    generalize Real.sqrt (tp * tp + tX ⬝ᵥ tX) = v
    have : J *ᵥ (1 / v) • tX + (tp / v) • (Xs / ps) • fp = (1 / v) • (J *ᵥ tX + tp • (Xs / ps) • fp) := by
      rw [mulVec_smul]; module
    rw [this, h1, smul_zero]
  · simp only [normalise, Real.sq_sqrt hx]
    have hv : 0 < Real.sqrt (tp * tp + tX ⬝ᵥ tX) := Real.sqrt_pos.2 hp
    generalize Real.sqrt (tp * tp + tX ⬝ᵥ tX) = v at *
    have : t0X ⬝ᵥ (1 / v) • tX + t0p * (tp / v) = (1 / v) * (t0X ⬝ᵥ tX + t0p * tp) := by
      rw [dotProduct_smul, smul_eq_mul]; ring
    rw [this, h2]; positivity

/-- C37: the derivatives handed to the corrector are those of the constraint, which is affine in `(X, p)` for a fixed direction: exact linearisation. -/
theorem C37_constraint_linearisation (Xs ps arc : ℝ) (X0 : n → ℝ) (p0 : ℝ) (tX : n → ℝ) (tp : ℝ) (X dX : n → ℝ) (p dp : ℝ) :
    gPseudo Xs ps arc X0 p0 tX tp (X + dX) (p + dp) =
      gPseudo Xs ps arc X0 p0 tX tp X p + ((Xs • tX) ⬝ᵥ dX + (ps * tp) * dp) := by
  simp only [gPseudo, add_dotProduct, smul_dotProduct, smul_eq_mul, dotProduct_comm tX dX]
  ring

/-- C37: after one Newton step of the pseudo-arclength solver the constraint (for the direction used) is satisfied exactly, and so is the
equilibrium equation linearised at the old point. -/
theorem C37_newton_step (J : Matrix n n ℝ) (solve : (n → ℝ) → (n → ℝ)) (hs : ∀ b, J *ᵥ solve b = b) (hl : ∀ x, solve (J *ᵥ x) = x)
    (f fp : n → ℝ) (Xs ps arc : ℝ) (X0 : n → ℝ) (p0 : ℝ) (t1 : (n → ℝ) × ℝ) (X : n → ℝ) (p : ℝ)
    (ha : ps * t1.2 - (Xs • t1.1) ⬝ᵥ solve fp ≠ 0) :
    let s := pseudoNewton solve f fp Xs ps arc X0 p0 t1 X p
    Xs * ((s.1 - X0) ⬝ᵥ t1.1) + ps * (s.2 - p0) * t1.2 = arc ∧ f + J *ᵥ (s.1 - X) + (s.2 - p) • fp = 0 := by
  have hN := C36_schur_solves_newton J solve hs hl f fp (Xs • t1.1) (ps * t1.2) (gPseudo Xs ps arc X0 p0 t1.1 t1.2 X p) true true 0 (by simp) ha
  unfold pseudoNewton
  dsimp only
  generalize schur solve f fp (Xs • t1.1) (ps * t1.2) (gPseudo Xs ps arc X0 p0 t1.1 t1.2 X p) true true 0 = d at *
  obtain ⟨h1, h2⟩ := hN
  constructor
  · have hg : gPseudo Xs ps arc X0 p0 t1.1 t1.2 (X + d.1) (p + d.2) = 0 := by rw [C37_constraint_linearisation, h2]; ring
    simp only [gPseudo, neg_one_smul, ← sub_eq_add_neg] at hg
    linarith
  · rw [add_sub_cancel_left, add_sub_cancel_left, add_assoc, h1]; simp

/-- C37, arclength: for a fixed path derivative `v = dX/dp` the constraint of the arclength solver is the projection of the scaled increment
`(X_scale (X - X0), p_scale (p - p0))` on a unit tangent `(tX, tp)` of the path `X' = v p'` in the scaled variables, minus the arc length, oriented by the sign chosen at
initialisation; and it is affine with the returned derivatives. -/
theorem C37_arclength_constraint (sgn Xs ps arc : ℝ) (hsgn : sgn = 1 ∨ sgn = -1) (X0 : n → ℝ) (p0 : ℝ) (v X dX : n → ℝ) (p dp : ℝ) :
    let G := gArc sgn Xs ps arc X0 p0 v X p
    (gArc sgn Xs ps arc X0 p0 v (X + dX) (p + dp)).1 = G.1 + (G.2.2 ⬝ᵥ dX + G.2.1 * dp) ∧
    ∃ (tX : n → ℝ) (tp : ℝ), tX ⬝ᵥ tX + tp ^ 2 = 1 ∧ tX = (Xs * tp / ps) • v ∧ 0 < sgn * tp ∧
      G.1 = Xs * ((X - X0) ⬝ᵥ tX) + ps * (p - p0) * tp - arc := by
  constructor
  · simp only [gArc, add_dotProduct, smul_dotProduct, smul_eq_mul, dotProduct_comm v dX]
    ring
  · have hv : 0 ≤ v ⬝ᵥ v := Finset.sum_nonneg fun i _ => mul_self_nonneg _
    have hp : 0 < (Xs / ps) ^ 2 * (v ⬝ᵥ v) + 1 := by positivity
    have hsq := Real.sq_sqrt (show 0 ≤ 1 / ((Xs / ps) ^ 2 * (v ⬝ᵥ v) + 1) by positivity)
    have hs2 : sgn ^ 2 = 1 := by rcases hsgn with h | h <;> rw [h] <;> norm_num
    have hw0 : 0 < Real.sqrt (1 / ((Xs / ps) ^ 2 * (v ⬝ᵥ v) + 1)) := Real.sqrt_pos.mpr (by positivity)
    refine ⟨(Xs * (sgn * Real.sqrt (1 / ((Xs / ps) ^ 2 * (v ⬝ᵥ v) + 1))) / ps) • v, sgn * Real.sqrt (1 / ((Xs / ps) ^ 2 * (v ⬝ᵥ v) + 1)), ?_, rfl, ?_, ?_⟩
    · rw [smul_dotProduct, dotProduct_smul, smul_eq_mul, smul_eq_mul]
      generalize hw : Real.sqrt (1 / ((Xs / ps) ^ 2 * (v ⬝ᵥ v) + 1)) = w at *
      have : Xs * (sgn * w) / ps * (Xs * (sgn * w) / ps * (v ⬝ᵥ v)) + (sgn * w) ^ 2 =
          sgn ^ 2 * w ^ 2 * ((Xs / ps) ^ 2 * (v ⬝ᵥ v) + 1) := by ring
      rw [this, hs2, hsq, one_mul, one_div, inv_mul_cancel₀ hp.ne']
    · rw [← mul_assoc, ← pow_two, hs2, one_mul]; exact hw0
    · simp only [gArc, neg_one_smul, ← sub_eq_add_neg, dotProduct_smul, smul_eq_mul]
      ring

/-- Non-vacuity for the search direction: `J = 1`, `f_p = 0`, previous direction along `p`. -/
example : (1 : ℝ) - (0 : Fin 1 → ℝ) ⬝ᵥ id ((1 / 1 : ℝ) • (0 : Fin 1 → ℝ)) ≠ 0 := by simp

end Verif.Cont
