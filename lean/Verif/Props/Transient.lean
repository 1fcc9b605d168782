import Mathlib.Analysis.Calculus.FDeriv.Add
import Mathlib.Analysis.Calculus.FDeriv.Mul
import Mathlib.Analysis.Calculus.FDeriv.Prod
import Mathlib.Analysis.Calculus.FDeriv.Comp
import Mathlib.Analysis.Calculus.Deriv.Add
import Mathlib.Analysis.Calculus.Deriv.Mul
import Mathlib.Analysis.Calculus.Deriv.Prod
import Mathlib.Analysis.Calculus.Deriv.Comp
import Mathlib.Data.Matrix.Mul
import Mathlib.LinearAlgebra.Matrix.Charpoly.Basic
import Mathlib.LinearAlgebra.Matrix.Symmetric
import Mathlib.Tactic.Module
import Mathlib.Tactic.FieldSimp
import Mathlib.Tactic.Linarith
import Mathlib.Tactic.Ring
import Mathlib.Tactic.NormNum
import Verif.Model.Transient
/-
  C26-C33, C78, C79: time integrators.
-/
namespace Verif.Transient

section alg
variable {V : Type*} [AddCommGroup V] [Module ℝ V]

/-! ### C33: history -/

theorem shiftLoop_sol (order k : Nat) (h : Hist V) (i : Nat) :
    (shiftLoop order k h).sol i = if 1 ≤ i ∧ i ≤ k then h.sol (i - 1) else h.sol i := by
  induction k generalizing h with
  | zero => simp only [shiftLoop]; rw [if_neg (by omega)]
  | succ k ih =>
    rw [shiftLoop, ih]
    simp only [shiftBody, setAt]
    by_cases h1 : 1 ≤ i ∧ i ≤ k
    · rw [if_pos h1, if_neg (show i - 1 ≠ k + 1 by omega), if_pos (show 1 ≤ i ∧ i ≤ k + 1 by omega)]
    · rw [if_neg h1]
      by_cases h2 : i = k + 1
      · subst h2; rw [if_pos rfl, if_pos (by omega)]
      · rw [if_neg h2, if_neg (by omega)]

theorem shiftLoop_vel (order k : Nat) (h : Hist V) (i : Nat) :
    (shiftLoop order k h).vel i = if 1 ≤ i ∧ i ≤ k then h.vel (i - 1) else h.vel i := by
  induction k generalizing h with
  | zero => simp only [shiftLoop]; rw [if_neg (by omega)]
  | succ k ih =>
    rw [shiftLoop, ih]
    simp only [shiftBody, setAt]
    by_cases h1 : 1 ≤ i ∧ i ≤ k
    · rw [if_pos h1, if_neg (show i - 1 ≠ k + 1 by omega), if_pos (show 1 ≤ i ∧ i ≤ k + 1 by omega)]
    · rw [if_neg h1]
      by_cases h2 : i = k + 1
      · subst h2; rw [if_pos rfl, if_pos (by omega)]
      · rw [if_neg h2, if_neg (by omega)]

theorem shiftLoop_acc (order k : Nat) (ho : order > 1) (h : Hist V) (i : Nat) :
    (shiftLoop order k h).acc i = if 1 ≤ i ∧ i ≤ k then h.acc (i - 1) else h.acc i := by
  induction k generalizing h with
  | zero => simp only [shiftLoop]; rw [if_neg (by omega)]
  | succ k ih =>
    rw [shiftLoop, ih]
    simp only [shiftBody, setAt, if_pos ho]
    by_cases h1 : 1 ≤ i ∧ i ≤ k
    · rw [if_pos h1, if_neg (show i - 1 ≠ k + 1 by omega), if_pos (show 1 ≤ i ∧ i ≤ k + 1 by omega)]
    · rw [if_neg h1]
      by_cases h2 : i = k + 1
      · subst h2; rw [if_pos rfl, if_pos (by omega)]
      · rw [if_neg h2, if_neg (by omega)]

theorem shiftLoop_time (order k : Nat) (h : Hist V) : (shiftLoop order k h).time = h.time := by
  induction k generalizing h with
  | zero => rfl
  | succ k ih => rw [shiftLoop, ih]; rfl

/-- State just before the shift in `advance`. -/
def preShift (S : Integrator V) (h : Hist V) (x : V) (dt : ℝ) : Hist V :=
  let h := { h with sol := setAt h.sol 0 x }
  let h := { h with vel := setAt h.vel 0 (S.updVel dt h (h.sol 0)) }
  if S.order > 1 then { h with acc := setAt h.acc 0 (S.updAcc dt h (h.sol 0)) } else h

theorem advance_eq (S : Integrator V) (h : Hist V) (x : V) (dt : ℝ) (b : Bool) :
    advance S h x dt b = if b then { shiftLoop S.order (S.nStore - 1) (preShift S h x dt) with
      time := (shiftLoop S.order (S.nStore - 1) (preShift S h x dt)).time + dt }
      else shiftLoop S.order (S.nStore - 1) (preShift S h x dt) := rfl

theorem advance_sol (S : Integrator V) (h : Hist V) (x : V) (dt : ℝ) (b : Bool) (i : Nat) :
    (advance S h x dt b).sol i = if 1 ≤ i ∧ i ≤ S.nStore - 1 then (if i = 1 then x else h.sol (i - 1)) else
      (if i = 0 then x else h.sol i) := by
  have h1 : (advance S h x dt b).sol i = (shiftLoop S.order (S.nStore - 1) (preShift S h x dt)).sol i := by
    rw [advance_eq]; cases b <;> rfl
  rw [h1, shiftLoop_sol]
  have h2 : ∀ k, (preShift S h x dt).sol k = if k = 0 then x else h.sol k := by
    intro k; unfold preShift; dsimp only; split <;> rfl
  simp only [h2]
  by_cases hi : 1 ≤ i ∧ i ≤ S.nStore - 1
  · rw [if_pos hi, if_pos hi]
    by_cases hi1 : i = 1
    · subst hi1; simp
    · rw [if_neg (by omega), if_neg hi1]
  · rw [if_neg hi, if_neg hi]

theorem advance_vel (S : Integrator V) (h : Hist V) (x : V) (dt : ℝ) (b : Bool) (i : Nat) :
    (advance S h x dt b).vel i =
      if 1 ≤ i ∧ i ≤ S.nStore - 1 then (if i = 1 then (preShift S h x dt).vel 0 else h.vel (i - 1)) else
      (if i = 0 then (preShift S h x dt).vel 0 else h.vel i) := by
  have h1 : (advance S h x dt b).vel i = (shiftLoop S.order (S.nStore - 1) (preShift S h x dt)).vel i := by
    rw [advance_eq]; cases b <;> rfl
  rw [h1, shiftLoop_vel]
  have h2 : ∀ k, k ≠ 0 → (preShift S h x dt).vel k = h.vel k := by
    intro k hk; unfold preShift; dsimp only; split <;> simp [setAt, hk]
  by_cases hi : 1 ≤ i ∧ i ≤ S.nStore - 1
  · rw [if_pos hi, if_pos hi]
    by_cases hi1 : i = 1
    · subst hi1; simp
    · rw [if_neg hi1, h2 _ (by omega)]
  · rw [if_neg hi, if_neg hi]
    by_cases h0 : i = 0
    · subst h0; simp
    · rw [if_neg h0, h2 _ h0]

theorem advance_acc (S : Integrator V) (ho : S.order > 1) (h : Hist V) (x : V) (dt : ℝ) (b : Bool) (i : Nat) :
    (advance S h x dt b).acc i =
      if 1 ≤ i ∧ i ≤ S.nStore - 1 then (if i = 1 then (preShift S h x dt).acc 0 else h.acc (i - 1)) else
      (if i = 0 then (preShift S h x dt).acc 0 else h.acc i) := by
  have h1 : (advance S h x dt b).acc i = (shiftLoop S.order (S.nStore - 1) (preShift S h x dt)).acc i := by
    rw [advance_eq]; cases b <;> rfl
  rw [h1, shiftLoop_acc _ _ ho]
  have h2 : ∀ k, k ≠ 0 → (preShift S h x dt).acc k = h.acc k := by
    intro k hk; unfold preShift; dsimp only; rw [if_pos ho]; simp [setAt, hk]
  by_cases hi : 1 ≤ i ∧ i ≤ S.nStore - 1
  · rw [if_pos hi, if_pos hi]
    by_cases hi1 : i = 1
    · subst hi1; simp
    · rw [if_neg hi1, h2 _ (by omega)]
  · rw [if_neg hi, if_neg hi]
    by_cases h0 : i = 0
    · subst h0; simp
    · rw [if_neg h0, h2 _ h0]

theorem advance_time (S : Integrator V) (h : Hist V) (x : V) (dt : ℝ) (b : Bool) :
    (advance S h x dt b).time = h.time + if b then dt else 0 := by
  have h2 : (preShift S h x dt).time = h.time := by unfold preShift; dsimp only; split <;> rfl
  rw [advance_eq]
  cases b
  · simp [shiftLoop_time, h2]
  · simp [shiftLoop_time, h2]

theorem run_append (S : Integrator V) (h : Hist V) (l : List (V × ℝ × Bool)) (s : V × ℝ × Bool) :
    run S h (l ++ [s]) = advance S (run S h l) s.1 s.2.1 s.2.2 := by
  simp [run, List.foldl_append]

/-- C33, solutions: after any number of steps, the vector reported for "`i` steps back" is the solution accepted `i-1` steps before the last one
(the last accepted one for `i = 1`, which is what the next step uses as previous solution), for every `i` up to the stored length. -/
theorem C33_solution_history (S : Integrator V) (h : Hist V) (steps : List (V × ℝ × Bool)) (i : Nat)
    (h1 : 1 ≤ i) (hi : i < S.nStore) (hm : i ≤ steps.length) :
    (run S h steps).sol i = (steps[steps.length - i]'(by omega)).1 := by
  induction steps using List.reverseRecOn generalizing i with
  | nil => simp at hm; omega
  | append_singleton l s ih =>
    rw [run_append, advance_sol, if_pos (by omega)]
    by_cases hi1 : i = 1
    · subst hi1; simp
    · rw [if_neg hi1]
      simp only [List.length_append, List.length_singleton] at hm
      rw [ih (i - 1) (by omega) (by omega) (by omega)]
      have : (l ++ [s]).length - i = l.length - (i - 1) := by simp; omega
      simp only [this]
      rw [List.getElem_append_left (by omega)]

/-- C33, velocities: the `i`-th stored velocity is the current velocity as it was right after the step `i-1` steps before the last one. -/
theorem C33_velocity_history (S : Integrator V) (h : Hist V) (steps : List (V × ℝ × Bool)) (i : Nat)
    (h1 : 1 ≤ i) (hi : i < S.nStore) (hm : i ≤ steps.length) :
    (run S h steps).vel i = (run S h (steps.take (steps.length - i + 1))).vel 0 := by
  induction steps using List.reverseRecOn generalizing i with
  | nil => simp at hm; omega
  | append_singleton l s ih =>
    by_cases hi1 : i = 1
    · subst hi1
      rw [List.take_of_length_le (by simp), run_append, advance_vel, advance_vel, if_pos (by omega), if_pos rfl,
        if_neg (by omega), if_pos rfl]
    · simp only [List.length_append, List.length_singleton] at hm
      have hlen : (l ++ [s]).length - i + 1 = l.length - (i - 1) + 1 := by simp; omega
      rw [run_append, advance_vel, if_pos (by omega), if_neg hi1, ih (i - 1) (by omega) (by omega) (by omega), hlen,
        List.take_append_of_le_length (by omega)]

/-- C33, accelerations of second-order systems. -/
theorem C33_acceleration_history (S : Integrator V) (ho : S.order > 1) (h : Hist V) (steps : List (V × ℝ × Bool)) (i : Nat)
    (h1 : 1 ≤ i) (hi : i < S.nStore) (hm : i ≤ steps.length) :
    (run S h steps).acc i = (run S h (steps.take (steps.length - i + 1))).acc 0 := by
  induction steps using List.reverseRecOn generalizing i with
  | nil => simp at hm; omega
  | append_singleton l s ih =>
    by_cases hi1 : i = 1
    · subst hi1
      rw [List.take_of_length_le (by simp), run_append, advance_acc S ho, advance_acc S ho, if_pos (by omega), if_pos rfl,
        if_neg (by omega), if_pos rfl]
    · simp only [List.length_append, List.length_singleton] at hm
      have hlen : (l ++ [s]).length - i + 1 = l.length - (i - 1) + 1 := by simp; omega
      rw [run_append, advance_acc S ho, if_pos (by omega), if_neg hi1, ih (i - 1) (by omega) (by omega) (by omega), hlen,
        List.take_append_of_le_length (by omega)]

/-- C33, time: the clock advances by the sizes of the steps that asked for it. -/
theorem C33_time (S : Integrator V) (h : Hist V) (steps : List (V × ℝ × Bool)) :
    (run S h steps).time = h.time + (steps.map (fun s => if s.2.2 then s.2.1 else 0)).sum := by
  induction steps using List.reverseRecOn with
  | nil => simp [run]
  | append_singleton l s ih => rw [run_append, advance_time, ih]; simp; ring

/-- Non-vacuity: a first-order solver storing two iterates after three steps. -/
example : (run (fonSolver (V := ℝ) 1) ⟨fun _ => 0, fun _ => 0, fun _ => 0, 0⟩
    [(1, 1, true), (5, 2, true), (7, 1, false)]).sol 1 = 7 ∧
    (run (fonSolver (V := ℝ) 1) ⟨fun _ => 0, fun _ => 0, fun _ => 0, 0⟩
    [(1, 1, true), (5, 2, true), (7, 1, false)]).time = 3 := by
  refine ⟨?_, ?_⟩
  · rw [C33_solution_history _ _ _ 1 (by norm_num) (by decide) (by simp)]; rfl
  · rw [C33_time]; norm_num

/-! ### C26, C28: integration rules -/

/-- Previous vectors after an advance (two stored iterates). -/
theorem advance_fon (beta : ℝ) (h : Hist V) (x : V) (dt : ℝ) (b : Bool) :
    (advance (fonSolver beta) h x dt b).sol 1 = x ∧
    (advance (fonSolver beta) h x dt b).vel 1 = fonVel beta dt h x ∧
    (advance (fonSolver beta) h x dt b).vel 0 = fonVel beta dt h x := by
  refine ⟨?_, ?_, ?_⟩
  · rw [advance_sol]; simp [fonSolver]
  · rw [advance_vel]; simp [fonSolver, preShift, fonVel, setAt]
  · rw [advance_vel]; simp [fonSolver, preShift, fonVel, setAt]

theorem advance_son (beta gamma : ℝ) (h : Hist V) (x : V) (dt : ℝ) (b : Bool) :
    (advance (sonSolver beta gamma) h x dt b).sol 1 = x ∧
    (advance (sonSolver beta gamma) h x dt b).vel 1 = sonVel beta gamma dt h x ∧
    (advance (sonSolver beta gamma) h x dt b).acc 1 = sonAcc beta dt h x := by
  refine ⟨?_, ?_, ?_⟩
  · rw [advance_sol]; simp [sonSolver]
  · rw [advance_vel]; simp [sonSolver, preShift, sonVel, setAt]
  · rw [advance_acc _ (by simp [sonSolver])]; simp [sonSolver, preShift, sonAcc, setAt]

/-- C26: after a step of the first-order solver the new and previous states satisfy `x₁ = x₀ + dt ((1-β) v₀ + β v₁)`. -/
theorem C26_integration_rule (beta dt : ℝ) (hb : beta ≠ 0) (hd : dt ≠ 0) (h : Hist V) (x : V) (b : Bool) :
    let h' := advance (fonSolver beta) h x dt b
    h'.sol 1 = h.sol 1 + dt • ((1 - beta) • h.vel 1 + beta • h'.vel 1) := by
  obtain ⟨e1, e2, _⟩ := advance_fon beta h x dt b
  simp only [e1, e2, fonVel]
  match_scalars <;> field_simp <;> ring

/-- C26, uniqueness: the reported velocity is the only one compatible with that rule. -/
theorem C26_velocity_unique (beta dt : ℝ) (hb : beta ≠ 0) (hd : dt ≠ 0) (h : Hist V) (x v : V) (b : Bool)
    (hv : x = h.sol 1 + dt • ((1 - beta) • h.vel 1 + beta • v)) :
    (advance (fonSolver beta) h x dt b).vel 1 = v := by
  rw [(advance_fon beta h x dt b).2.1, hv, fonVel]
  match_scalars <;> field_simp <;> ring

/-- C26, increments: the velocity increment reported for a solution increment is the exact difference of the velocities. -/
theorem C26_increment (beta dt : ℝ) (h : Hist V) (x dx : V) :
    fonVel beta dt h (x + dx) - fonVel beta dt h x = fonDeltaVel beta dt dx := by
  simp only [fonVel, fonDeltaVel]; module

example : ((1 : ℝ) / 2 ≠ 0) ∧ ((1 : ℝ) / 10 ≠ 0) := by norm_num

/-- C28: kinematic relations after a step of the second-order solver. -/
theorem C28_newmark_relations (beta gamma dt : ℝ) (hb : beta ≠ 0) (hd : dt ≠ 0) (h : Hist V) (x : V) (b : Bool) :
    let h' := advance (sonSolver beta gamma) h x dt b
    h'.sol 1 = h.sol 1 + dt • h.vel 1 + (dt ^ 2) • ((1 / 2 - beta) • h.acc 1 + beta • h'.acc 1) ∧
    h'.vel 1 = h.vel 1 + dt • ((1 - gamma) • h.acc 1 + gamma • h'.acc 1) := by
  obtain ⟨e1, e2, e3⟩ := advance_son beta gamma h x dt b
  simp only [e1, e2, e3, sonVel, sonAcc]
  constructor
  · match_scalars <;> field_simp <;> ring
  · match_scalars <;> field_simp <;> ring

/-- C28, increments. -/
theorem C28_increment (beta gamma dt : ℝ) (h : Hist V) (x dx : V) :
    sonVel beta gamma dt h (x + dx) - sonVel beta gamma dt h x = sonDeltaVel beta gamma dt dx ∧
    sonAcc beta dt h (x + dx) - sonAcc beta dt h x = sonDeltaAcc beta dt dx := by
  simp only [sonVel, sonAcc, sonDeltaVel, sonDeltaAcc]
  constructor <;> module

/-- Specification: the motion `x(t) = p + t q + t²/2 r`, its velocity and its acceleration. -/
noncomputable def quad (p q r : V) (t : ℝ) : V := p + t • q + (t ^ 2 / 2) • r
noncomputable def quadVel (q r : V) (t : ℝ) : V := q + t • r

/-- Step sizes accumulate: `times t₀ [d₁,d₂,...]` lists `t₀+d₁, t₀+d₁+d₂, ...`. -/
def times (t : ℝ) : List ℝ → List ℝ
  | [] => []
  | d :: ds => (t + d) :: times (t + d) ds

/-- C28, exactness: for every constant-acceleration motion, any (non-zero) step sizes and any number of steps, feeding the exact positions
yields the exact velocities and accelerations. -/
theorem C28_exact_quadratic (beta gamma : ℝ) (hb : beta ≠ 0) (p q r : V) (ds : List ℝ) (hds : ∀ d ∈ ds, d ≠ 0) (t : ℝ) (h : Hist V)
    (hx : h.sol 1 = quad p q r t) (hv : h.vel 1 = quadVel q r t) (ha : h.acc 1 = r) :
    let h' := run (sonSolver beta gamma) h ((List.zip (times t ds) ds).map (fun s => (quad p q r s.1, s.2, true)))
    h'.sol 1 = quad p q r (t + ds.sum) ∧ h'.vel 1 = quadVel q r (t + ds.sum) ∧ h'.acc 1 = r := by
  induction ds generalizing t h with
  | nil => simp [run, hx, hv, ha]
  | cons d ds ih =>
    have hd : d ≠ 0 := hds d (by simp)
    obtain ⟨e1, e2, e3⟩ := advance_son beta gamma h (quad p q r (t + d)) d true
    have := ih (fun d' hd' => hds d' (by simp [hd'])) (t + d) (advance (sonSolver beta gamma) h (quad p q r (t + d)) d true) e1
      (by rw [e2]; simp only [sonVel, hx, hv, ha, quad, quadVel]; match_scalars <;> field_simp <;> ring)
      (by rw [e3]; simp only [sonAcc, hx, hv, ha, quad, quadVel]; match_scalars <;> field_simp <;> ring)
    rw [List.sum_cons, ← add_assoc]
    exact this

example : quad (V := ℝ) 1 2 3 2 = 11 ∧ times 0 [1, 1] = [0 + 1, 0 + 1 + 1] := by
  constructor
  · simp only [quad, smul_eq_mul]; norm_num
  · rfl

/-! ### C79: initial highest derivative -/

/-- C79, second-order Newmark (and, identically, the first-order solver): if the residual is affine in the acceleration with matrix `M`
and the linear solver inverts `M`, the initial acceleration satisfies the equation of motion at the initial state. -/
theorem C79_newmark_initial_acceleration (F : ElemState V → V) (M : V →ₗ[ℝ] V) (g : V → V → V)
    (hF : ∀ s, F s = M s.a + g s.x s.v) (solve : V → V) (hs : ∀ r, M (solve r) = r) (h : Hist V) :
    F ⟨h.sol 0, h.vel 0, sonInit F solve h⟩ = 0 := by
  rw [hF]
  simp only [sonInit, highest, sonElemState, map_sub, hs, hF]
  abel

/-- C79 fails for generalized-alpha: with zero previous vectors (as created), the computed initial acceleration of `a + x = 0`, `x₀ = 1`
with the default coefficients (`ρ∞ = 0.2`) is `-5/6`, not `-1`. -/
theorem C79_generalized_alpha_fails :
    ∃ (F : ElemState ℝ → ℝ) (M : ℝ →ₗ[ℝ] ℝ) (g : ℝ → ℝ → ℝ) (solve : ℝ → ℝ) (h : Hist ℝ),
      (∀ s, F s = M s.a + g s.x s.v) ∧ (∀ r, M (solve r) = r) ∧ h.sol 0 = 1 ∧ h.sol 1 = 0 ∧
      gaInit (gaCoef (1 / 5)) F solve h = -(5 / 6) ∧ F ⟨h.sol 0, h.vel 0, gaInit (gaCoef (1 / 5)) F solve h⟩ ≠ 0 := by
  refine ⟨fun s => s.a + s.x, LinearMap.id, fun x _ => x, id, ⟨fun i => if i = 0 then 1 else 0, fun _ => 0, fun _ => 0, 0⟩,
    fun s => rfl, fun r => rfl, rfl, rfl, ?_, ?_⟩
  · simp only [gaInit, highest, gaElemState, gaCoef, smul_eq_mul, id]; norm_num
  · simp only [gaInit, highest, gaElemState, gaCoef, smul_eq_mul, id]; norm_num

end alg

/-! ### C27, C29: stability and energy -/
section energy
open Matrix
variable {n : Type*} [Fintype n]

theorem symm_dot (M : Matrix n n ℝ) (hM : M.IsSymm) (u v : n → ℝ) : u ⬝ᵥ M *ᵥ v = v ⬝ᵥ M *ᵥ u := by
  rw [dotProduct_mulVec, ← mulVec_transpose, hM.eq, dotProduct_comm]

/-- Specification: every accepted step solves `M v + K x = 0` at its end, and so does the starting state. -/
def SolvesFirst (beta : ℝ) (M K : Matrix n n ℝ) : Hist (n → ℝ) → List ((n → ℝ) × ℝ × Bool) → Prop
  | h, [] => M *ᵥ h.vel 1 + K *ᵥ h.sol 1 = 0
  | h, s :: l => M *ᵥ h.vel 1 + K *ᵥ h.sol 1 = 0 ∧ s.2.1 > 0 ∧
      SolvesFirst beta M K (advance (fonSolver beta) h s.1 s.2.1 s.2.2) l

theorem SolvesFirst.head {beta : ℝ} {M K : Matrix n n ℝ} {h : Hist (n → ℝ)} {l} (H : SolvesFirst beta M K h l) :
    M *ᵥ h.vel 1 + K *ᵥ h.sol 1 = 0 := by
  cases l with
  | nil => exact H
  | cons s l => exact H.1

/-- One step of the `θ`-type identity. -/
theorem fon_step_identity (beta dt : ℝ) (hb : beta ≠ 0) (hd : dt ≠ 0) (M K : Matrix n n ℝ) (hM : M.IsSymm) (h : Hist (n → ℝ))
    (x : n → ℝ) (b : Bool)
    (h0 : M *ᵥ h.vel 1 + K *ᵥ h.sol 1 = 0)
    (h1 : M *ᵥ (advance (fonSolver beta) h x dt b).vel 1 + K *ᵥ (advance (fonSolver beta) h x dt b).sol 1 = 0) :
    x ⬝ᵥ M *ᵥ x = h.sol 1 ⬝ᵥ M *ᵥ h.sol 1
      - (2 * beta - 1) * ((x - h.sol 1) ⬝ᵥ M *ᵥ (x - h.sol 1))
      - 2 * dt * ((beta • x + (1 - beta) • h.sol 1) ⬝ᵥ K *ᵥ (beta • x + (1 - beta) • h.sol 1)) := by
  have hr := C26_integration_rule beta dt hb hd h x b
  obtain ⟨e1, e2, _⟩ := advance_fon beta h x dt b
  simp only at hr
  rw [e1] at hr h1
  generalize (advance (fonSolver beta) h x dt b).vel 1 = v1 at *
  generalize h.sol 1 = x0 at *
  generalize h.vel 1 = v0 at *
  have hdx : x - x0 = dt • ((1 - beta) • v0 + beta • v1) := by rw [hr]; abel_nf
  have hMdx : M *ᵥ (x - x0) = -(dt • (K *ᵥ (beta • x + (1 - beta) • x0))) := by
    rw [hdx, mulVec_smul, mulVec_add, mulVec_smul, mulVec_smul, mulVec_add, mulVec_smul, mulVec_smul,
      eq_neg_of_add_eq_zero_left h0, eq_neg_of_add_eq_zero_left h1]
    module
  have key : (beta • x + (1 - beta) • x0) ⬝ᵥ M *ᵥ (x - x0) =
      -(dt * ((beta • x + (1 - beta) • x0) ⬝ᵥ K *ᵥ (beta • x + (1 - beta) • x0))) := by
    rw [hMdx, dotProduct_neg, dotProduct_smul, smul_eq_mul]
  have hs := symm_dot M hM x x0
  simp only [mulVec_sub, dotProduct_sub, sub_dotProduct, add_dotProduct, smul_dotProduct, smul_eq_mul] at key ⊢
  rw [hs] at key ⊢
  have : ∀ A B C D : ℝ, beta * A + (1 - beta) * B - (beta * B + (1 - beta) * C) = -(dt * D) →
      A = C - (2 * beta - 1) * (A - B - (B - C)) - 2 * dt * D := by
    intro A B C D hk; linear_combination 2 * hk
  apply this
  linear_combination key

/-- C27: for `M v + K x = 0` with `M` symmetric positive semidefinite, `K` positive semidefinite (not necessarily symmetric), every `β ≥ 1/2`,
every sequence of positive step sizes and every number of steps: the `M`-norm of the solution never grows. -/
theorem C27_stable (beta : ℝ) (hb : 1 / 2 ≤ beta) (M K : Matrix n n ℝ) (hM : M.IsSymm) (hMp : ∀ u, 0 ≤ u ⬝ᵥ M *ᵥ u)
    (hKp : ∀ u, 0 ≤ u ⬝ᵥ K *ᵥ u) (steps : List ((n → ℝ) × ℝ × Bool)) (h : Hist (n → ℝ))
    (H : SolvesFirst beta M K h steps) :
    (run (fonSolver beta) h steps).sol 1 ⬝ᵥ M *ᵥ (run (fonSolver beta) h steps).sol 1 ≤ h.sol 1 ⬝ᵥ M *ᵥ h.sol 1 := by
  induction steps generalizing h with
  | nil => simp [run]
  | cons s l ih =>
    obtain ⟨h0, hd, H'⟩ := H
    have hi := ih _ H'
    have hid := fon_step_identity beta s.2.1 (by linarith) hd.ne' M K hM h s.1 s.2.2 h0 H'.head
    have h1 := hMp (s.1 - h.sol 1)
    have h2 := hKp (beta • s.1 + (1 - beta) • h.sol 1)
    rw [(advance_fon beta h s.1 s.2.1 s.2.2).1] at hi
    have h3 : 0 ≤ (2 * beta - 1) * ((s.1 - h.sol 1) ⬝ᵥ M *ᵥ (s.1 - h.sol 1)) := mul_nonneg (by linarith) h1
    have h4 := mul_nonneg hd.le h2
    refine le_trans hi ?_
    rw [hid]; nlinarith

/-- C27, scalar form as in the property statement: `v = -λ x`, one step. -/
theorem C27_scalar_step (beta dt lam x0 x1 : ℝ) (hb : 1 / 2 ≤ beta) (hd : 0 < dt) (hl : 0 ≤ lam)
    (h : Hist ℝ) (hx : h.sol 1 = x0) (hv : h.vel 1 = -lam * x0) (h1 : fonVel beta dt h x1 = -lam * x1) : |x1| ≤ |x0| := by
  have hb0 : beta ≠ 0 := by linarith
  simp only [fonVel, hx, hv, smul_eq_mul] at h1
  field_simp at h1
  have e : (1 + beta * dt * lam) * x1 = (1 - (1 - beta) * dt * lam) * x0 := by linear_combination h1
  have hp : 0 < 1 + beta * dt * lam := by positivity
  have : |1 + beta * dt * lam| * |x1| = |1 - (1 - beta) * dt * lam| * |x0| := by rw [← abs_mul, ← abs_mul, e]
  have hdl : 0 ≤ dt * lam := by positivity
  have hle : |1 - (1 - beta) * dt * lam| ≤ |1 + beta * dt * lam| := by
    rw [abs_of_pos hp, abs_le]; constructor <;> nlinarith
  have hp' : 0 < |1 + beta * dt * lam| := abs_pos.2 hp.ne'
  have := mul_le_mul_of_nonneg_right hle (abs_nonneg x0)
  nlinarith [abs_nonneg x1]

/-- Non-vacuity: one step of `v = -x` from 1 with `β = 1`, `dt = 1` lands on 1/2. -/
example : fonVel 1 1 (⟨fun _ => 1, fun _ => -1, fun _ => 0, 0⟩ : Hist ℝ) (1 / 2) = -1 * (1 / 2) := by
  simp [fonVel]; norm_num

example : SolvesFirst (n := Fin 1) 1 1 1 ⟨fun _ _ => 1, fun _ _ => -1, fun _ _ => 0, 0⟩ [(fun _ => 1 / 2, 1, true)] := by
  refine ⟨?_, by norm_num, ?_⟩
  · funext i; simp
  · show (1 : Matrix (Fin 1) (Fin 1) ℝ) *ᵥ _ + (1 : Matrix (Fin 1) (Fin 1) ℝ) *ᵥ _ = 0
    rw [(advance_fon _ _ _ _ _).1, (advance_fon _ _ _ _ _).2.1]
    funext i; simp [fonVel]; norm_num

/-- Specification: every state satisfies `M a + K x = 0`. -/
def SolvesSecond (beta gamma : ℝ) (M K : Matrix n n ℝ) : Hist (n → ℝ) → List ((n → ℝ) × ℝ × Bool) → Prop
  | h, [] => M *ᵥ h.acc 1 + K *ᵥ h.sol 1 = 0
  | h, s :: l => M *ᵥ h.acc 1 + K *ᵥ h.sol 1 = 0 ∧ s.2.1 ≠ 0 ∧
      SolvesSecond beta gamma M K (advance (sonSolver beta gamma) h s.1 s.2.1 s.2.2) l

theorem SolvesSecond.head {beta gamma : ℝ} {M K : Matrix n n ℝ} {h : Hist (n → ℝ)} {l} (H : SolvesSecond beta gamma M K h l) :
    M *ᵥ h.acc 1 + K *ᵥ h.sol 1 = 0 := by
  cases l with
  | nil => exact H
  | cons s l => exact H.1

/-- Specification: mechanical energy of the state kept by the solver. -/
noncomputable def energy (M K : Matrix n n ℝ) (h : Hist (n → ℝ)) : ℝ :=
  1 / 2 * (h.vel 1 ⬝ᵥ M *ᵥ h.vel 1) + 1 / 2 * (h.sol 1 ⬝ᵥ K *ᵥ h.sol 1)

/-- C29: with the default coefficients `β = 1/4`, `γ = 1/2` the energy is the same after any number of steps of any sizes. -/
theorem C29_energy_conserved (M K : Matrix n n ℝ) (hM : M.IsSymm) (hK : K.IsSymm)
    (steps : List ((n → ℝ) × ℝ × Bool)) (h : Hist (n → ℝ)) (H : SolvesSecond (1 / 4) (1 / 2) M K h steps) :
    energy M K (run (sonSolver (1 / 4) (1 / 2)) h steps) = energy M K h := by
  induction steps generalizing h with
  | nil => simp [run]
  | cons s l ih =>
    obtain ⟨h0, hd, H'⟩ := H
    have hi := ih _ H'
    refine Eq.trans hi ?_
    have h1 := H'.head
    have hr := C28_newmark_relations (1 / 4) (1 / 2) s.2.1 (by norm_num) hd h s.1 s.2.2
    simp only at hr
    unfold energy
    obtain ⟨hr1, hr2⟩ := hr
    generalize (advance (sonSolver (1 / 4) (1 / 2)) h s.1 s.2.1 s.2.2).sol 1 = x1 at *
    generalize (advance (sonSolver (1 / 4) (1 / 2)) h s.1 s.2.1 s.2.2).vel 1 = v1 at *
    generalize (advance (sonSolver (1 / 4) (1 / 2)) h s.1 s.2.1 s.2.2).acc 1 = a1 at *
    generalize h.sol 1 = x0 at *
    generalize h.vel 1 = v0 at *
    generalize h.acc 1 = a0 at *
    generalize s.2.1 = dt at *
    -- x1 - x0 = dt/2 (v0 + v1), v1 - v0 = dt/2 (a0 + a1)
    have ev : v1 - v0 = (dt / 2) • (a0 + a1) := by rw [hr2]; module
    have ex : x1 - x0 = (dt / 2) • (v0 + v1) := by rw [hr1, hr2]; module
    have k1 : (v1 + v0) ⬝ᵥ M *ᵥ (v1 - v0) = v1 ⬝ᵥ M *ᵥ v1 - v0 ⬝ᵥ M *ᵥ v0 := by
      simp only [mulVec_sub, dotProduct_sub, add_dotProduct]
      rw [symm_dot M hM v0 v1]; ring
    have k2 : (x1 - x0) ⬝ᵥ K *ᵥ (x1 + x0) = x1 ⬝ᵥ K *ᵥ x1 - x0 ⬝ᵥ K *ᵥ x0 := by
      simp only [mulVec_add, dotProduct_add, sub_dotProduct]
      rw [symm_dot K hK x0 x1]; ring
    have k3 : M *ᵥ (v1 - v0) = -((dt / 2) • (K *ᵥ (x1 + x0))) := by
      rw [ev, mulVec_smul, mulVec_add, mulVec_add, eq_neg_of_add_eq_zero_left h0, eq_neg_of_add_eq_zero_left h1]
      module
    rw [k3, dotProduct_neg, dotProduct_smul, smul_eq_mul] at k1
    rw [ex, smul_dotProduct, smul_eq_mul, add_comm v0 v1] at k2
    linear_combination -(1 / 2) * k1 - (1 / 2) * k2

/-- Non-vacuity: one step of `a + x = 0` with `dt = 2`: `x : 1 → 0`, `v : 0 → -1`. -/
example : SolvesSecond (n := Fin 1) (1 / 4) (1 / 2) 1 1 ⟨fun _ _ => 1, fun _ _ => 0, fun _ _ => -1, 0⟩ [(fun _ => 0, 2, true)] := by
  refine ⟨?_, by norm_num, ?_⟩
  · funext i; simp
  · show (1 : Matrix (Fin 1) (Fin 1) ℝ) *ᵥ _ + (1 : Matrix (Fin 1) (Fin 1) ℝ) *ᵥ _ = 0
    rw [(advance_son _ _ _ _ _ _).1, (advance_son _ _ _ _ _ _).2.2]
    funext i; simp [sonAcc]; norm_num

end energy

/-! ### C30, C32: Jacobians -/
section calculus
variable {V : Type*} [NormedAddCommGroup V] [NormedSpace ℝ V]

/-- Contract of a second-order element: inertial force `fm(x,v,a)` and other forces `fx(x,v)`, differentiable at the state the element was given,
with the returned blocks as partial derivatives. -/
structure IsElement (fm : V × V × V → V) (fx : V × V → V) (s : ElemState V) (B : Blocks (V →L[ℝ] V)) : Prop where
  m : HasFDerivAt fm (B.m_x.coprod (B.m_xd.coprod B.m_xdd)) (s.x, s.v, s.a)
  x : HasFDerivAt fx (B.x_x.coprod B.x_xd) (s.x, s.v)

theorem hasFDerivAt_affine (c : ℝ) (w : V) (x : V) : HasFDerivAt (fun y : V => c • y + w) (c • ContinuousLinearMap.id ℝ V) x :=
  ((hasFDerivAt_id x).const_smul c).add_const w

theorem sonVel_eq (beta gamma dt : ℝ) (h : Hist V) (x : V) :
    sonVel beta gamma dt h x = (gamma / beta / dt) • x + sonVel beta gamma dt h 0 := by
  simp only [sonVel]; module
theorem sonAcc_eq (beta dt : ℝ) (h : Hist V) (x : V) :
    sonAcc beta dt h x = (1 / beta / dt / dt) • x + sonAcc beta dt h 0 := by
  simp only [sonAcc]; module
theorem fonVel_eq (beta dt : ℝ) (h : Hist V) (x : V) : fonVel beta dt h x = (1 / beta / dt) • x + fonVel beta dt h 0 := by
  simp only [fonVel]; module

/-- Chain rule used by all three solvers: the state seen by the element is affine in `x` with the factors `c0, c1, c2`. -/
theorem total_derivative (fm : V × V × V → V) (fx : V × V → V) (loc : V → ElemState V) (c0 c1 c2 : ℝ) (w0 w1 w2 : V)
    (hl : ∀ y, loc y = ⟨c0 • y + w0, c1 • y + w1, c2 • y + w2⟩) (B : Blocks (V →L[ℝ] V)) (x : V) (hE : IsElement fm fx (loc x) B) :
    HasFDerivAt (fun y => fm ((loc y).x, (loc y).v, (loc y).a) + fx ((loc y).x, (loc y).v))
      (c2 • B.m_xdd + c1 • (B.m_xd + B.x_xd) + c0 • (B.m_x + B.x_x)) x := by
  have h0 : HasFDerivAt (fun y => (loc y).x) (c0 • ContinuousLinearMap.id ℝ V) x := by
    simp only [hl]; exact hasFDerivAt_affine c0 w0 x
  have h1 : HasFDerivAt (fun y => (loc y).v) (c1 • ContinuousLinearMap.id ℝ V) x := by
    simp only [hl]; exact hasFDerivAt_affine c1 w1 x
  have h2 : HasFDerivAt (fun y => (loc y).a) (c2 • ContinuousLinearMap.id ℝ V) x := by
    simp only [hl]; exact hasFDerivAt_affine c2 w2 x
  have hm := HasFDerivAt.comp x (f := fun y => ((loc y).x, (loc y).v, (loc y).a)) hE.m (h0.prodMk (h1.prodMk h2))
  have hx := HasFDerivAt.comp x (f := fun y => ((loc y).x, (loc y).v)) hE.x (h0.prodMk h1)
  have := hm.add hx
  refine this.congr_fderiv ?_
  ext y
  simp
  module

/-- C30, second-order Newmark: the element matrix is the derivative, with respect to the new solution, of the element residual evaluated with the
solver's own velocity and acceleration updates. -/
theorem C30_second_order_jacobian (beta gamma dt : ℝ) (h : Hist V) (fm : V × V × V → V) (fx : V × V → V) (B : Blocks (V →L[ℝ] V)) (x : V)
    (hE : IsElement fm fx (sonLocal beta gamma dt h x) B) :
    HasFDerivAt (fun y => let s := sonLocal beta gamma dt h y; fm (s.x, s.v, s.a) + fx (s.x, s.v)) (sonJac false beta gamma dt B) x := by
  have := total_derivative fm fx (sonLocal beta gamma dt h) 1 (gamma / beta / dt) (1 / beta / dt / dt) 0
    (sonVel beta gamma dt h 0) (sonAcc beta dt h 0) (fun y => by
    simp only [sonLocal, sonElemState]
    rw [sonVel_eq, sonAcc_eq, one_smul, add_zero]) B x hE
  refine this.congr_fderiv ?_
  simp [sonJac]

/-- C30, generalized-alpha: the same with the weighted state. -/
theorem C30_generalized_alpha_jacobian (c : GACoef) (dt : ℝ) (h : Hist V) (fm : V × V × V → V) (fx : V × V → V)
    (B : Blocks (V →L[ℝ] V)) (x : V) (hE : IsElement fm fx (gaLocal c dt h x) B) :
    HasFDerivAt (fun y => let s := gaLocal c dt h y; fm (s.x, s.v, s.a) + fx (s.x, s.v)) (gaJac false c dt B) x := by
  have := total_derivative fm fx (gaLocal c dt h) (1 - c.alpha_f) ((1 - c.alpha_f) * (c.gamma / c.beta / dt))
    ((1 - c.alpha_m) * (1 / c.beta / dt / dt)) (c.alpha_f • h.sol 1)
    ((1 - c.alpha_f) • sonVel c.beta c.gamma dt h 0 + c.alpha_f • h.vel 1)
    ((1 - c.alpha_m) • sonAcc c.beta dt h 0 + c.alpha_m • h.acc 1) (fun y => by
      simp only [gaLocal, gaElemState]
      rw [sonVel_eq, sonAcc_eq, smul_add, smul_add, smul_smul, smul_smul, add_assoc, add_assoc]) B x hE
  refine this.congr_fderiv ?_
  simp only [gaJac, Bool.false_eq_true, if_false]
  rw [mul_comm (1 - c.alpha_f), mul_comm (1 - c.alpha_m)]

/-- C30, first-order Newmark. -/
theorem C30_first_order_jacobian (beta dt : ℝ) (h : Hist V) (fm : V × V → V) (fx : V → V) (B : Blocks (V →L[ℝ] V)) (x : V)
    (hm : HasFDerivAt fm (B.m_x.coprod B.m_xd) (x, fonVel beta dt h x)) (hx : HasFDerivAt fx B.x_x x) :
    HasFDerivAt (fun y => fm (y, fonVel beta dt h y) + fx y) (fonJac false beta dt B) x := by
  have h1 : HasFDerivAt (fun y => fonVel beta dt h y) ((1 / beta / dt) • ContinuousLinearMap.id ℝ V) x := by
    rw [funext (fonVel_eq beta dt h)]
    exact hasFDerivAt_affine _ _ x
  have hc := HasFDerivAt.comp x (f := fun y => (y, fonVel beta dt h y)) hm ((hasFDerivAt_id x).prodMk h1)
  refine (hc.add hx).congr_fderiv ?_
  ext y
  simp [fonJac]
  module

/-- Non-vacuity: the spring-damper element `a + v + x` (scalar) satisfies the contract at every state. -/
example (s : ElemState ℝ) : IsElement (fun p : ℝ × ℝ × ℝ => p.2.2) (fun p : ℝ × ℝ => p.2 + p.1)
    s ⟨ContinuousLinearMap.id ℝ ℝ, 0, 0, ContinuousLinearMap.id ℝ ℝ, ContinuousLinearMap.id ℝ ℝ⟩ := by
  constructor
  · have : (fun p : ℝ × ℝ × ℝ => p.2.2) = (ContinuousLinearMap.coprod 0 (ContinuousLinearMap.coprod 0 (ContinuousLinearMap.id ℝ ℝ)) :
        ℝ × ℝ × ℝ →L[ℝ] ℝ) := by ext p; simp
    rw [this]; exact ContinuousLinearMap.hasFDerivAt _
  · have : (fun p : ℝ × ℝ => p.2 + p.1) = (ContinuousLinearMap.coprod (ContinuousLinearMap.id ℝ ℝ) (ContinuousLinearMap.id ℝ ℝ) :
        ℝ × ℝ →L[ℝ] ℝ) := by ext p; simp [add_comm]
    rw [this]; exact ContinuousLinearMap.hasFDerivAt _

/-- Contract of an element's linearised product: it multiplies its Jacobian blocks with the perturbed vectors it was given. -/
def elemProduct (B : Blocks (V →L[ℝ] V)) (d : ElemState V) : V :=
  B.m_xdd d.a + (B.m_xd + B.x_xd) d.v + (B.m_x + B.x_x) d.x

/-- C32 for second-order Newmark: the product computed with the perturbed data equals the Jacobian times the perturbation. -/
theorem C32_newmark_product (beta gamma dt : ℝ) (B : Blocks (V →L[ℝ] V)) (dx : V) :
    elemProduct B (sonPerturbed beta gamma dt dx) = sonJac false beta gamma dt B dx := by
  simp [elemProduct, sonPerturbed, sonJac, sonDeltaVel, sonDeltaAcc]

/-- C32 for first-order Newmark. -/
theorem C32_first_order_product (beta dt : ℝ) (B : Blocks (V →L[ℝ] V)) (hx : B.x_xd = 0) (dx : V) :
    elemProduct B (fonPerturbed beta dt dx) = fonJac false beta dt B dx := by
  simp [elemProduct, fonPerturbed, fonJac, fonDeltaVel, hx]

/-- C32 is false for generalized-alpha: the perturbed vectors are handed over without the `1-α` weights that the Jacobian contains. -/
theorem C32_generalized_alpha_fails :
    ∃ (c : GACoef) (rho dt : ℝ) (B : Blocks (ℝ →L[ℝ] ℝ)) (dx : ℝ), c = gaCoef rho ∧ 0 ≤ rho ∧ rho ≤ 1 ∧ 0 < dt ∧
      (let d := sonPerturbed c.beta c.gamma dt dx; elemProduct B (gaElemPerturbed d.x d.v d.a)) ≠ gaJac false c dt B dx := by
  refine ⟨gaCoef (1 / 2), 1 / 2, 1, ⟨0, 0, 0, 0, ContinuousLinearMap.id ℝ ℝ⟩, 1, rfl, by norm_num, by norm_num, by norm_num, ?_⟩
  simp [elemProduct, gaElemPerturbed, sonPerturbed, gaJac, gaCoef]
  norm_num

/-- C32, partial: the generalized-alpha product agrees with the Jacobian exactly when no weighting is in effect. -/
theorem C32_generalized_alpha_unweighted_partial (c : GACoef) (hm : c.alpha_m = 0) (hf : c.alpha_f = 0) (dt : ℝ)
    (B : Blocks (V →L[ℝ] V)) (dx : V) :
    (let d := sonPerturbed c.beta c.gamma dt dx; elemProduct B (gaElemPerturbed d.x d.v d.a)) = gaJac false c dt B dx := by
  simp [elemProduct, gaElemPerturbed, sonPerturbed, gaJac, hm, hf, sonDeltaVel, sonDeltaAcc]

/-! ### C78: transient sensitivity -/

/-- C78, first-order solver: along a one-parameter family of problems, with `x(p)` the new solution and `x₀(p)`, `v₀(p)` the previous vectors, the total
derivative of the residual is Jacobian times `dx/dp` plus the partial derivative plus the contribution of the previous time step added by the
solver (`M` is linear here: mass residual `Mp(p)·v + r(p, x)` with constant matrix `M`). -/
theorem C78_first_order_total_derivative (beta dt : ℝ) (M : V →L[ℝ] V) (r : ℝ × V → V) (r_p : V) (K : V →L[ℝ] V)
    (x : ℝ → V) (h : ℝ → Hist V) (p : ℝ) (dx dx0 dv0 : V)
    (hr : HasFDerivAt r ((ContinuousLinearMap.toSpanSingleton ℝ r_p).coprod K) (p, x p))
    (hx : HasDerivAt x dx p) (hx0 : HasDerivAt (fun q => (h q).sol 1) dx0 p) (hv0 : HasDerivAt (fun q => (h q).vel 1) dv0 p) :
    HasDerivAt (fun q => M (fonVel beta dt (h q) (x q)) + r (q, x q))
      (fonJac false beta dt ⟨0, M, 0, 0, K⟩ dx + r_p + fonPrevContribution false beta dt M dx0 dv0 0) p := by
  have h1 : HasDerivAt (fun q => fonVel beta dt (h q) (x q))
      ((1 / beta / dt) • (dx - dx0) - ((1 - beta) / beta) • dv0) p := by
    have := ((hx.sub hx0).const_smul (1 / beta / dt)).sub (hv0.const_smul ((1 - beta) / beta))
    have e : (fun q => fonVel beta dt (h q) (x q)) =
        (1 / beta / dt) • (x - fun q => (h q).sol 1) - ((1 - beta) / beta) • (fun q => (h q).vel 1) := by
      funext q
      simp only [fonVel, Pi.sub_apply, Pi.smul_apply]; module
    rw [e]; exact this
  have h2 := HasFDerivAt.comp_hasDerivAt (l := M) (l' := M) (f := fun q => fonVel beta dt (h q) (x q)) p M.hasFDerivAt h1
  have h3 := HasFDerivAt.comp_hasDerivAt (f := fun q => (q, x q)) p hr ((hasDerivAt_id p).prodMk hx)
  have h4 := h2.add h3
  have e : M ((1 / beta / dt) • (dx - dx0) - ((1 - beta) / beta) • dv0) +
      ((ContinuousLinearMap.toSpanSingleton ℝ r_p).coprod K) (1, dx) =
      fonJac false beta dt ⟨0, M, 0, 0, K⟩ dx + r_p + fonPrevContribution false beta dt M dx0 dv0 0 := by
    simp [fonJac, fonPrevContribution]
    module
  rw [← e]
  exact h4

/-- C78 cannot be used through the public driver: `TransientSolverBase` calls the five-argument `sensitivity_assemble` on the assembly object, which
`TransientAssembly` does not override, so the call reaches the unimplemented base function in both build modes. -/
theorem C78_transient_sensitivity_unreachable_fails (dbg : Bool) :
    sensitivityAssemble dbg .transient ≠ .assembled := by
  cases dbg <;> decide

example : sensitivityAssemble true .nonlinearImplicit = .assembled := rfl

end calculus

/-! ### C31: generalized-alpha coefficients -/
section ga
open Matrix

/-- C31: for every admissible spectral radius the coefficients meet the second-order accuracy condition and the conditions for unconditional stability
`α_m ≤ α_f ≤ 1/2`, `β ≥ 1/4 + (α_f - α_m)/2`. -/
theorem C31_accuracy_and_stability (rho : ℝ) (h0 : 0 ≤ rho) (h1 : rho ≤ 1) :
    let c := gaCoef rho
    c.gamma = 1 / 2 - c.alpha_m + c.alpha_f ∧ c.alpha_m ≤ c.alpha_f ∧ c.alpha_f ≤ 1 / 2 ∧
      1 / 4 + 1 / 2 * (c.alpha_f - c.alpha_m) ≤ c.beta ∧ 1 / 2 ≤ c.gamma ∧ 0 < c.beta := by
  have hp : 0 < rho + 1 := by linarith
  have e : (gaCoef rho).alpha_f - (gaCoef rho).alpha_m = (1 - rho) / (rho + 1) := by
    simp only [gaCoef]; field_simp; ring
  have hd : 0 ≤ (gaCoef rho).alpha_f - (gaCoef rho).alpha_m := by rw [e]; exact div_nonneg (by linarith) hp.le
  have hb : (gaCoef rho).beta = 1 / 4 * (1 + ((gaCoef rho).alpha_f - (gaCoef rho).alpha_m)) ^ 2 := by
    simp only [gaCoef]; ring
  have hg : (gaCoef rho).gamma = 1 / 2 - (gaCoef rho).alpha_m + (gaCoef rho).alpha_f := rfl
  refine ⟨rfl, by linarith, ?_, ?_, by linarith, ?_⟩
  · show rho / (rho + 1) ≤ 1 / 2
    rw [div_le_div_iff₀ hp (by norm_num)]; linarith
  · rw [hb]; nlinarith
  · rw [hb]; positivity

/-- Amplification matrix of the scheme in the high-frequency limit, acting on `(x, dt·v, dt²·a)`: the equation of motion degenerates to
"element displacement = 0" (the stiffness term dominates), the rest are the solver's updates with `dt = 1`. -/
noncomputable def ampInf (c : GACoef) : Matrix (Fin 3) (Fin 3) ℝ := fun i j =>
  let e : Hist ℝ := ⟨fun _ => if j = 0 then 1 else 0, fun _ => if j = 1 then 1 else 0, fun _ => if j = 2 then 1 else 0, 0⟩
  let x1 := -(c.alpha_f / (1 - c.alpha_f)) * e.sol 1
  if i = 0 then x1 else if i = 1 then sonVel c.beta c.gamma 1 e x1 else sonAcc c.beta 1 e x1

/-- the new displacement used in `ampInf` is the one for which the element sees a zero displacement. -/
theorem ampInf_displacement (c : GACoef) (hf : c.alpha_f ≠ 1) (h : Hist ℝ) :
    (gaLocal c 1 h (-(c.alpha_f / (1 - c.alpha_f)) * h.sol 1)).x = 0 := by
  have : 1 - c.alpha_f ≠ 0 := sub_ne_zero.2 (Ne.symm hf)
  simp only [gaLocal, gaElemState, smul_eq_mul]
  field_simp; ring

/-- C31: the user-supplied value is the spectral radius at infinite frequency: the characteristic polynomial of the amplification matrix
is `(X + ρ)³`, for every `ρ` in `[0,1]`. -/
theorem C31_spectral_radius (rho : ℝ) (h0 : 0 ≤ rho) (h1 : rho ≤ 1) (t : ℝ) :
    (ampInf (gaCoef rho)).charpoly.eval t = (t + rho) ^ 3 := by
  have hp : rho + 1 ≠ 0 := by linarith
  have hf : 1 - (gaCoef rho).alpha_f = 1 / (rho + 1) := by simp only [gaCoef]; field_simp; ring
  have hx : (gaCoef rho).alpha_f / (1 - (gaCoef rho).alpha_f) = rho := by
    rw [hf]; simp only [gaCoef]; field_simp
  have hb : (gaCoef rho).beta = 1 / (rho + 1) ^ 2 := by simp only [gaCoef]; field_simp; ring
  have hg : (gaCoef rho).gamma = (3 - rho) / (2 * (rho + 1)) := by simp only [gaCoef]; field_simp; ring
  rw [Matrix.charpoly, det_fin_three]
  simp only [charmatrix_apply, ampInf, hx, hb, hg, sonVel, sonAcc, smul_eq_mul]
  simp
  field_simp
  ring

example : gaCoef 1 = ⟨1 / 2, 1 / 2, 1 / 2, 1 / 4⟩ := by simp only [gaCoef]; norm_num

end ga
end Verif.Transient
