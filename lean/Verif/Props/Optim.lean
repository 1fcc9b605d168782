import Mathlib.LinearAlgebra.Matrix.DotProduct
import Mathlib.Data.Matrix.Mul
import Mathlib.Analysis.Calculus.Deriv.Pow
import Mathlib.Analysis.Calculus.Deriv.Add
import Mathlib.Analysis.Calculus.Deriv.Mul
import Mathlib.Tactic.FieldSimp
import Mathlib.Tactic.Linarith
import Mathlib.Tactic.NormNum
import Mathlib.Tactic.Ring
import Verif.Lib.Loops
import Verif.Model.Optim
/-
  C42 (gradient verification), C43 (constraint statistics), C44 (GCMMA stopping), C45 (NLopt callback), C46 (NPSOL, DOT),
  C80 (GCMMA iterates and bounds), C81 (parametric line study).
-/
namespace Verif.Optim
open Finset Matrix

/-! ### C42 -/

theorem mismatch_iff (tol g fd : ℝ) : mismatch tol g fd = false ↔ |g - fd| ≤ tol * |g| := by
  unfold mismatch
  by_cases hg : g = 0
  · subst hg; simp
  · have : 0 < |g| := abs_pos.2 hg
    rw [if_neg hg, decide_eq_false_iff_not, not_lt, abs_div, div_le_iff₀ this]

/-- C42, verdict: `verify_gradients` accepts exactly when every objective and constraint gradient entry is within the relative tolerance of the difference quotient
(entries that are zero must match exactly), reading the constraint gradients at `i*m + j`. -/
theorem C42_verdict {n m : Nat} (f : (Fin n → ℝ) → ℝ) (g : Fin m → (Fin n → ℝ) → ℝ) (df : Fin n → ℝ) (dg : Nat → ℝ) (x : Fin n → ℝ) :
    verifyGradients m f g df dg x = true ↔
      (∀ i, |df i - fdiff f x i| ≤ 1 / 1000 * |df i|) ∧
      ∀ (j : Fin m) (i : Fin n), |dg (i * m + j) - fdiff (g j) x i| ≤ 1 / 1000 * |dg (i * m + j)| := by
  have e : fdTol = 1 / 1000 := by norm_num [fdTol]
  simp only [verifyGradients, Bool.and_eq_true, List.all_eq_true, List.mem_finRange, true_implies, Bool.not_eq_true', mismatch_iff, e]

/-- Specification: a quadratic function. -/
def Quadratic {n : Nat} (f : (Fin n → ℝ) → ℝ) : Prop :=
  ∃ (c : ℝ) (b : Fin n → ℝ) (Q : Matrix (Fin n) (Fin n) ℝ), ∀ x, f x = c + b ⬝ᵥ x + x ⬝ᵥ (Q *ᵥ x)

theorem quadratic_line {n : Nat} {f : (Fin n → ℝ) → ℝ} (hf : Quadratic f) (x : Fin n → ℝ) (i : Fin n) :
    ∃ a b c : ℝ, ∀ t, f (Function.update x i t) = a + b * (t - x i) + c * (t - x i) ^ 2 := by
  obtain ⟨c, b, Q, hf⟩ := hf
  let e : Fin n → ℝ := Pi.single i 1
  refine ⟨f x, b ⬝ᵥ e + x ⬝ᵥ (Q *ᵥ e) + e ⬝ᵥ (Q *ᵥ x), e ⬝ᵥ (Q *ᵥ e), fun t => ?_⟩
  have hu : Function.update x i t = x + (t - x i) • e := by
    funext k
    by_cases hk : k = i
    · subst hk; simp [e]
    · simp [e, hk]
  rw [hu, hf, hf]
  simp only [dotProduct_add, add_dotProduct, mulVec_add, mulVec_smul, dotProduct_smul, smul_dotProduct, smul_eq_mul]
  ring

/-- C42, exactness: for a quadratic function the difference quotient is the exact partial derivative, in every variable and at every point. -/
theorem C42_quadratic_exact {n : Nat} {f : (Fin n → ℝ) → ℝ} (hf : Quadratic f) (x : Fin n → ℝ) (i : Fin n) :
    HasDerivAt (fun t => f (Function.update x i t)) (fdiff f x i) (x i) := by
  obtain ⟨a, b, c, h⟩ := quadratic_line hf x i
  have hd : fdDelta ≠ 0 := by norm_num [fdDelta]
  have hfd : fdiff f x i = b := by
    simp only [fdiff, Function.update_idem, Function.update_self, h]
    field_simp
    ring
  rw [hfd]
  have e : (fun t => f (Function.update x i t)) = fun t => a + b * (t - x i) + c * (t - x i) ^ 2 := funext h
  rw [e]
  have h1 : HasDerivAt (fun t : ℝ => t - x i) 1 (x i) := (hasDerivAt_id _).sub_const _
  have := ((hasDerivAt_const (x i) a).add (h1.const_mul b)).add ((h1.pow 2).const_mul c)
  refine this.congr_deriv ?_
  simp

/-- C42: correct gradients of quadratic functions are always accepted, in any dimension. -/
theorem C42_correct_accepted {n m : Nat} (f : (Fin n → ℝ) → ℝ) (g : Fin m → (Fin n → ℝ) → ℝ) (hf : Quadratic f) (hg : ∀ j, Quadratic (g j))
    (df : Fin n → ℝ) (dg : Nat → ℝ) (x : Fin n → ℝ)
    (hdf : ∀ i, HasDerivAt (fun t => f (Function.update x i t)) (df i) (x i))
    (hdg : ∀ (j : Fin m) (i : Fin n), HasDerivAt (fun t => g j (Function.update x i t)) (dg (i * m + j)) (x i)) :
    verifyGradients m f g df dg x = true := by
  rw [C42_verdict]
  constructor
  · intro i; rw [(hdf i).unique (C42_quadratic_exact hf x i)]; simp
  · intro j i; rw [(hdg j i).unique (C42_quadratic_exact (hg j) x i)]; simp

/-- C42: for quadratic functions, a gradient entry that is off by more than 0.1 % of the reported value is always detected. -/
theorem C42_wrong_detected {n m : Nat} (f : (Fin n → ℝ) → ℝ) (g : Fin m → (Fin n → ℝ) → ℝ) (hg : ∀ j, Quadratic (g j))
    (df : Fin n → ℝ) (dg : Nat → ℝ) (x : Fin n → ℝ) (j : Fin m) (i : Fin n) (d : ℝ)
    (hd : HasDerivAt (fun t => g j (Function.update x i t)) d (x i)) (hoff : |dg (i * m + j) - d| > 1 / 1000 * |dg (i * m + j)|) :
    verifyGradients m f g df dg x = false := by
  by_contra h
  rw [Bool.not_eq_false, C42_verdict] at h
  have := h.2 j i
  rw [← hd.unique (C42_quadratic_exact (hg j) x i)] at this
  linarith

/-- C42 fails, restoration: the evaluator is never called again at the given point, its last evaluation is at the last variable decreased by the step. -/
theorem C42_left_perturbed_fails {n : Nat} (x : Fin (n + 1) → ℝ) :
    (evalPoints x).getLast (by simp [evalPoints]) = Function.update x (Fin.last n) (x (Fin.last n) - fdDelta) ∧
      (evalPoints x).getLast (by simp [evalPoints]) ≠ x := by
  have h : (evalPoints x).getLast (by simp [evalPoints]) = Function.update x (Fin.last n) (x (Fin.last n) - fdDelta) := by
    have e : ∃ l, evalPoints x = l ++ [Function.update x (Fin.last n) (x (Fin.last n) - fdDelta)] := by
      have h2 : x (Fin.last n) + fdDelta - 2 * fdDelta = x (Fin.last n) - fdDelta := by ring
      unfold evalPoints
      rw [List.finRange_succ_last]
      simp only [List.map_append, List.map_cons, List.map_nil, List.flatten_append, List.flatten_cons, List.flatten_nil, List.append_nil,
        Function.update_idem, Function.update_self, h2]
      exact ⟨x :: ((_ : List (List _)).flatten ++ [Function.update x (Fin.last n) (x (Fin.last n) + fdDelta)]), by
        simp only [List.cons_append, List.append_assoc, List.nil_append]; rfl⟩
    obtain ⟨l, hl⟩ := e
    simp [hl]
  refine ⟨h, ?_⟩
  rw [h]
  intro hx
  have := congrFun hx (Fin.last n)
  simp [fdDelta] at this

/-- Non-vacuity: `f(x,y) = x² + 3xy`, one constraint `y²`. -/
example : verifyGradients 1 (fun v : Fin 2 → ℝ => v 0 ^ 2 + 3 * v 0 * v 1) (fun _ v => v 1 ^ 2)
    (fun i => if i = 0 then 2 + 3 * 2 else 3) (fun k => if k = 0 then 0 else 4) (fun i => if i = 0 then 1 else 2) = true := by
  rw [C42_verdict]
  have hd : (1 / 10 ^ 5 : ℝ) = 1 / 100000 := by norm_num
  refine ⟨fun i => ?_, fun j i => ?_⟩
  · fin_cases i <;> norm_num [fdiff, fdDelta, Function.update]
  · fin_cases i <;> fin_cases j <;> norm_num [fdiff, fdDelta, Function.update]

/-! ### C43 -/

theorem stats_succ (tol : ℝ) (neq n : Nat) (f : Nat → ℝ) : stats tol neq (n + 1) f = statStep tol n (f (n + neq)) (stats tol neq n f) := rfl

/-- C43, counts: for every tolerance the report counts exactly the inequality constraints within the tolerance and those above it. -/
theorem C43_counts (tol : ℝ) (neq nineq : Nat) (f : Nat → ℝ) :
    (stats tol neq nineq f).active = ((range nineq).filter (fun i => |f (neq + i)| ≤ tol)).card ∧
    (stats tol neq nineq f).violated = ((range nineq).filter (fun i => tol < f (neq + i))).card := by
  induction nineq with
  | zero => simp [stats, loop]
  | succ n ih =>
    rw [stats_succ, range_add_one, filter_insert, filter_insert]
    have hn : ∀ (p : Nat → Prop) [DecidablePred p], n ∉ (range n).filter p := by intro p _ h; simp at h
    have hadd : n + neq = neq + n := Nat.add_comm _ _
    rw [hadd]
    by_cases h1 : |f (neq + n)| ≤ tol
    · have h2 : ¬ tol < f (neq + n) := not_lt.2 (le_trans (le_abs_self _) h1)
      rw [if_pos h1, if_neg h2, card_insert_of_notMem (hn _), ← ih.1, ← ih.2]
      simp only [statStep, if_pos h1]
      split <;> simp
    · by_cases h2 : tol < f (neq + n)
      · rw [if_neg h1, if_pos h2, card_insert_of_notMem (hn _), ← ih.1, ← ih.2]
        simp only [statStep, if_neg h1, gt_iff_lt, if_pos h2]
        split <;> simp
      · rw [if_neg h1, if_neg h2, ← ih.1, ← ih.2]
        simp only [statStep, if_neg h1, gt_iff_lt, if_neg h2]
        split <;> simp

theorem stats_max (tol : ℝ) (neq nineq : Nat) (f : Nat → ℝ) :
    -(10 : ℝ) ^ 20 ≤ (stats tol neq nineq f).maxVal ∧ (∀ i < nineq, f (neq + i) ≤ (stats tol neq nineq f).maxVal) ∧
    ((stats tol neq nineq f).maxVal = -(10 : ℝ) ^ 20 ∨
      ((stats tol neq nineq f).maxId < nineq ∧ f (neq + (stats tol neq nineq f).maxId) = (stats tol neq nineq f).maxVal ∧
        ∀ i < (stats tol neq nineq f).maxId, f (neq + i) < (stats tol neq nineq f).maxVal)) := by
  induction nineq with
  | zero => exact ⟨le_rfl, fun i hi => absurd hi (Nat.not_lt_zero i), Or.inl rfl⟩
  | succ n ih =>
    rw [stats_succ, Nat.add_comm n neq]
    generalize stats tol neq n f = s at ih ⊢
    have hs : ∀ v, (statStep tol n v s).maxVal = (if s.maxVal < v then v else s.maxVal) ∧
        (statStep tol n v s).maxId = (if s.maxVal < v then n else s.maxId) := by
      intro v; unfold statStep; dsimp only; split_ifs <;> simp_all
    rw [(hs _).1, (hs _).2]
    obtain ⟨h1, h2, h3⟩ := ih
    by_cases hlt : s.maxVal < f (neq + n)
    · simp only [if_pos hlt]
      refine ⟨by linarith, ?_, Or.inr ⟨by omega, by trivial, ?_⟩⟩
      · intro i hi
        rcases Nat.lt_succ_iff_lt_or_eq.1 hi with h | rfl
        · linarith [h2 i h]
        · exact le_rfl
      · intro i hi; linarith [h2 i hi]
    · simp only [if_neg hlt]
      refine ⟨h1, ?_, ?_⟩
      · intro i hi
        rcases Nat.lt_succ_iff_lt_or_eq.1 hi with h | rfl
        · exact h2 i h
        · exact not_lt.1 hlt
      · rcases h3 with h | ⟨h, h', h''⟩
        · exact Or.inl h
        · exact Or.inr ⟨by omega, h', h''⟩

/-- C43, most critical constraint: if some constraint exceeds `-10^20`, the reported value is the maximum of the inequality constraints and is attained (first) at the recorded index. -/
theorem C43_max (tol : ℝ) (neq nineq : Nat) (f : Nat → ℝ) (h : ∃ i < nineq, -(10 : ℝ) ^ 20 < f (neq + i)) :
    let s := stats tol neq nineq f
    s.maxId < nineq ∧ f (neq + s.maxId) = s.maxVal ∧ (∀ i < nineq, f (neq + i) ≤ s.maxVal) ∧ ∀ i < s.maxId, f (neq + i) < s.maxVal := by
  obtain ⟨_, h2, h3⟩ := stats_max tol neq nineq f
  obtain ⟨i, hi, hf⟩ := h
  rcases h3 with h3 | ⟨a, b, c⟩
  · have := h2 i hi; rw [h3] at this; linarith
  · exact ⟨a, b, h2, c⟩

/-- C43, edge: with all constraints at or below `-10^20` the reported "most critical" value is the constant `-10^20`. -/
theorem C43_max_floor (tol : ℝ) (neq nineq : Nat) (f : Nat → ℝ) (h : ∀ i < nineq, f (neq + i) ≤ -(10 : ℝ) ^ 20) :
    (stats tol neq nineq f).maxVal = -(10 : ℝ) ^ 20 := by
  obtain ⟨h1, _, h3⟩ := stats_max tol neq nineq f
  rcases h3 with h3 | ⟨a, b, _⟩
  · exact h3
  · exact le_antisymm (b ▸ h _ a) h1

example : (stats (1 / 10) 1 3 (fun i => if i = 0 then 9 else if i = 1 then -1 else if i = 2 then 5 else 1 / 20)).active = 1 ∧
    (stats (1 / 10) 1 3 (fun i => if i = 0 then 9 else if i = 1 then -1 else if i = 2 then 5 else 1 / 20)).violated = 1 ∧
    (stats (1 / 10) 1 3 (fun i => if i = 0 then 9 else if i = 1 then -1 else if i = 2 then 5 else 1 / 20)).maxId = 1 := by
  norm_num [stats, loop, statStep, abs_le]

/-! ### C44 -/

/-- What the objective buffer holds after `ite` outer iterations. -/
structure BufOK (n : Nat) (F0 : Nat → ℝ) (ite : Nat) (buf : Nat → ℝ) : Prop where
  recent : ∀ k, 1 ≤ k → k ≤ ite → ite < k + n → buf ((k - 1) % n) = F0 k
  unset : ∀ j, ite ≤ j → j < n → buf j = 0

theorem bufOK_step {n : Nat} (hn : 0 < n) {F0 : Nat → ℝ} {ite : Nat} {buf : Nat → ℝ} (h : BufOK n F0 ite buf) :
    BufOK n F0 (ite + 1) (fun j => if j = ite % n then F0 (ite + 1) else buf j) := by
  refine ⟨fun k h1 h2 h3 => ?_, fun j h1 h2 => ?_⟩
  · by_cases hk : k = ite + 1
    · subst hk; simp
    · have hne : (k - 1) % n ≠ ite % n := by
        intro he
        have hd : n ∣ ite - (k - 1) := (Nat.modEq_iff_dvd' (by omega)).1 he
        have := Nat.le_of_dvd (by omega) hd
        omega
      rw [if_neg hne, h.recent k h1 (by omega) (by omega)]
  · have : ite % n = ite := Nat.mod_eq_of_lt (by omega)
    rw [if_neg (by omega), h.unset j (by omega) h2]

theorem outer_spec (G : Gcmma) (hn : 0 < G.nrel) (F0 : Nat → ℝ) (fuel ite : Nat) (buf : Nat → ℝ) (h : BufOK G.nrel F0 ite buf) (k : Nat) (c : Bool)
    (hr : outer G F0 fuel ite buf = some (k, c)) :
    ite < k ∧ (∃ b, BufOK G.nrel F0 k b ∧ c = relConv G b) ∧ (c = true ∨ k = G.maxIters) ∧ (ite < G.maxIters → k ≤ G.maxIters) := by
  induction fuel generalizing ite buf with
  | zero => simp [outer] at hr
  | succ fuel ih =>
    rw [outer] at hr
    simp only [Nat.add_sub_cancel] at hr
    have hb := bufOK_step hn h
    split at hr
    · rename_i hc
      simp only [Option.some.injEq, Prod.mk.injEq] at hr
      obtain ⟨rfl, rfl⟩ := hr
      exact ⟨by omega, ⟨_, hb, rfl⟩, hc.symm, fun hm => by omega⟩
    · rename_i hc
      push Not at hc
      obtain ⟨a, b, d, e⟩ := ih (ite + 1) _ hb hr
      exact ⟨by omega, b, d, fun hm => e (by omega)⟩

/-- C44, convergence: if the driver stops on the relative-change test after at least `n` outer iterations, the last `n` objective values all lie within the tolerance of one of them
(relative when that value exceeds `sqrt(tol)`, absolute otherwise). -/
theorem C44_converged_window (G : Gcmma) (hn : 0 < G.nrel) (hg : 0 < G.geps) (F0 : Nat → ℝ) (fuel k : Nat)
    (hr : gcmma G F0 fuel = some (k, true)) (hk : G.nrel ≤ k) :
    ∃ r, k < r + G.nrel ∧ r ≤ k ∧ ∀ k', k < k' + G.nrel → k' ≤ k → |F0 k' - F0 r| < G.geps * (if Real.sqrt G.geps < F0 r then F0 r else 1) := by
  obtain ⟨_, ⟨b, hb, hc⟩, _⟩ := outer_spec G hn F0 fuel 0 _ ⟨fun k h1 h2 => by omega, fun j _ _ => rfl⟩ k true hr
  have hdiv := Nat.div_add_mod k G.nrel
  have hmod := Nat.mod_lt k hn
  refine ⟨G.nrel * (k / G.nrel), by omega, by omega, fun k' h1 h2 => ?_⟩
  have hq : 1 ≤ k / G.nrel := Nat.div_pos hk hn
  have hr1 : 1 ≤ G.nrel * (k / G.nrel) := Nat.mul_pos hn hq
  have href : (G.nrel * (k / G.nrel) - 1) % G.nrel = G.nrel - 1 := by
    obtain ⟨q, hq'⟩ : ∃ q, k / G.nrel = q + 1 := ⟨k / G.nrel - 1, by omega⟩
    rw [hq', Nat.mul_add, Nat.mul_one]
    have : G.nrel * q + G.nrel - 1 = (G.nrel - 1) + G.nrel * q := by omega
    rw [this, Nat.add_mul_mod_self_left, Nat.mod_eq_of_lt (by omega)]
  have hcur := hb.recent (G.nrel * (k / G.nrel)) hr1 (by omega) (by omega)
  rw [href] at hcur
  have hk'1 : 1 ≤ k' := by omega
  have hval := hb.recent k' hk'1 h2 h1
  have hjl : (k' - 1) % G.nrel < G.nrel := Nat.mod_lt _ hn
  have hsq : 0 ≤ Real.sqrt G.geps := Real.sqrt_nonneg _
  by_cases hj : (k' - 1) % G.nrel = G.nrel - 1
  · rw [hj, hcur] at hval
    rw [hval]; simp only [sub_self, abs_zero]
    split
    · rename_i h; exact mul_pos hg (by linarith)
    · linarith
  · have hall := hc.symm
    unfold relConv at hall
    rw [List.all_eq_true] at hall
    have := hall ((k' - 1) % G.nrel) (List.mem_range.2 (by omega))
    rw [hcur, hval] at this
    by_cases hpos : Real.sqrt G.geps < F0 (G.nrel * (k / G.nrel))
    · rw [if_pos hpos, decide_eq_true_eq] at this
      have hp : 0 < F0 (G.nrel * (k / G.nrel)) := lt_of_le_of_lt hsq hpos
      rw [abs_of_pos hp, div_lt_iff₀ hp] at this
      rw [if_pos hpos]; exact this
    · rw [if_neg hpos, decide_eq_true_eq] at this
      rw [if_neg hpos, mul_one]; exact this

/-- C44, early stop: if the test stops the driver before `n` iterations were made, all objective values so far are below the tolerance in magnitude (they are compared with the
zeros the buffer starts with). -/
theorem C44_early_stop (G : Gcmma) (F0 : Nat → ℝ) (fuel k : Nat) (hr : gcmma G F0 fuel = some (k, true)) (hk : k < G.nrel) :
    ∀ k', 1 ≤ k' → k' ≤ k → |F0 k'| < G.geps := by
  intro k' h1 h2
  obtain ⟨_, ⟨b, hb, hc⟩, _⟩ := outer_spec G (by omega) F0 fuel 0 _ ⟨fun k h1 h2 => by omega, fun j _ _ => rfl⟩ k true hr
  have hcur := hb.unset (G.nrel - 1) (by omega) (by omega)
  have hval := hb.recent k' h1 h2 (by omega)
  rw [Nat.mod_eq_of_lt (by omega)] at hval
  have hall := hc.symm
  unfold relConv at hall
  rw [List.all_eq_true] at hall
  have := hall (k' - 1) (List.mem_range.2 (by omega))
  rw [hcur, hval, if_neg (by simpa using Real.sqrt_nonneg _), decide_eq_true_eq, sub_zero] at this
  exact this

/-- C44, iteration limit: with a limit of at least one, the driver never exceeds it, and it stops within that many iterations whatever the objective does. -/
theorem C44_max_iterations (G : Gcmma) (hn : 0 < G.nrel) (hm : 0 < G.maxIters) (F0 : Nat → ℝ) (fuel : Nat) :
    (∀ k c, gcmma G F0 fuel = some (k, c) → k ≤ G.maxIters) ∧ (G.maxIters ≤ fuel → ∃ k c, gcmma G F0 fuel = some (k, c)) := by
  refine ⟨fun k c hr => (outer_spec G hn F0 fuel 0 _ ⟨fun k h1 h2 => by omega, fun j _ _ => rfl⟩ k c hr).2.2.2 hm, fun hf => ?_⟩
  have : ∀ fuel ite buf, ite < G.maxIters → G.maxIters ≤ ite + fuel → ∃ k c, outer G F0 fuel ite buf = some (k, c) := by
    intro fuel
    induction fuel with
    | zero => intro ite buf h1 h2; omega
    | succ fuel ih =>
      intro ite buf h1 h2
      rw [outer]
      split
      · exact ⟨_, _, rfl⟩
      · rename_i hc
        push Not at hc
        exact ih _ _ (by omega) (by omega)
  exact this fuel 0 _ hm (by omega)

/-- C44 fails: an objective that is small in the first iteration stops the driver as "converged" after a single iteration, whatever later iterations would do. -/
theorem C44_premature_stop_fails (G : Gcmma) (hn : 1 < G.nrel) (hg : 0 < G.geps) (F0 : Nat → ℝ) (h1 : |F0 1| < G.geps) (fuel : Nat) :
    gcmma G F0 (fuel + 1) = some (1, true) := by
  unfold gcmma
  rw [outer]
  have hc : relConv G (fun j => if j = (0 + 1 - 1) % G.nrel then F0 (0 + 1) else 0) = true := by
    unfold relConv
    rw [List.all_eq_true]
    intro i hi
    have hi := List.mem_range.1 hi
    have h0 : (0 + 1 - 1) % G.nrel = 0 := by simp
    simp only [h0]
    rw [if_neg (show ¬ G.nrel - 1 = 0 by omega), if_neg (by simpa using Real.sqrt_nonneg _), decide_eq_true_eq]
    by_cases hi0 : i = 0
    · subst hi0; simpa using h1
    · simpa [hi0] using hg
  rw [hc]; simp

/-- C44 fails: with a window of one iteration the driver always stops after the first iteration. -/
theorem C44_window_one_fails (G : Gcmma) (hn : G.nrel = 1) (F0 : Nat → ℝ) (fuel : Nat) : gcmma G F0 (fuel + 1) = some (1, true) := by
  unfold gcmma
  rw [outer]
  simp [relConv, hn]

/-- C44 fails: with the default iteration limit `0` the limit never acts; some objective histories keep the driver running forever. -/
theorem C44_default_limit_unbounded_fails :
    ∃ (G : Gcmma) (F0 : Nat → ℝ), G.maxIters = 0 ∧ G.nrel = 2 ∧ ∀ fuel, gcmma G F0 fuel = none := by
  refine ⟨⟨2, 0, 1 / 100⟩, fun k => if k % 2 = 1 then 1 else 2, rfl, rfl, ?_⟩
  have hs : Real.sqrt (1 / 100) = 1 / 10 := by
    rw [show (1 / 100 : ℝ) = (1 / 10) ^ 2 by norm_num, Real.sqrt_sq (by norm_num)]
  have key : ∀ fuel ite buf, (ite = 0 ∧ buf = (fun _ => 0) ∨ (1 ≤ ite ∧ buf 0 = 1 ∧ (buf 1 = 0 ∨ buf 1 = 2) ∧ (ite % 2 = 0 → buf 1 = 2))) →
      outer ⟨2, 0, 1 / 100⟩ (fun k => if k % 2 = 1 then (1 : ℝ) else 2) fuel ite buf = none := by
    intro fuel
    induction fuel with
    | zero => intros; rfl
    | succ fuel ih =>
      intro ite buf h
      rw [outer]
      simp only [Nat.add_sub_cancel]
      have hb : ∃ b0 b1, (fun j => if j = ite % 2 then (if (ite + 1) % 2 = 1 then (1 : ℝ) else 2) else buf j) 0 = b0 ∧
          (fun j => if j = ite % 2 then (if (ite + 1) % 2 = 1 then (1 : ℝ) else 2) else buf j) 1 = b1 ∧ b0 = 1 ∧ (b1 = 0 ∨ b1 = 2) ∧ ((ite + 1) % 2 = 0 → b1 = 2) := by
        refine ⟨_, _, rfl, rfl, ?_⟩
        rcases Nat.mod_two_eq_zero_or_one ite with hm | hm
        · have h1 : (ite + 1) % 2 = 1 := by omega
          rw [hm, h1]
          rcases h with ⟨_, rfl⟩ | ⟨_, h0, h2, _⟩
          · simp
          · simp [h2]
        · have h1 : (ite + 1) % 2 = 0 := by omega
          rw [hm, h1]
          rcases h with ⟨rfl, _⟩ | ⟨_, h0, _⟩
          · simp at hm
          · simp [h0]
      obtain ⟨b0, b1, e0, e1, hb0, hb1, hb2⟩ := hb
      have hc : relConv ⟨2, 0, 1 / 100⟩ (fun j => if j = ite % 2 then (if (ite + 1) % 2 = 1 then (1 : ℝ) else 2) else buf j) = false := by
        unfold relConv
        simp only [show (2 : ℕ) - 1 = 1 from rfl, List.range_one, List.all_cons, List.all_nil, Bool.and_true]
        simp only [e0, e1, hs, hb0]
        rcases hb1 with h | h
        · rw [h, if_neg (by norm_num)]; norm_num
        · rw [h, if_pos (by norm_num)]; norm_num [abs_of_neg, abs_of_pos]
      rw [hc]
      simp only [Nat.add_eq_zero_iff, one_ne_zero, and_false, Bool.false_eq_true, or_self, if_false]
      apply ih
      right
      exact ⟨by omega, e0.trans hb0, by simp only at e1 ⊢; rw [e1]; exact hb1, fun hm => e1.trans (hb2 hm)⟩
  intro fuel
  exact key fuel 0 _ (Or.inl ⟨rfl, rfl⟩)

/-- C44, inner iterations: at most `max_inner_iters + 1` subproblems are solved per outer iteration, and at least one. -/
theorem C44_inner_bound (innmax : Nat) (conser : Nat → Bool) : 1 ≤ inner innmax conser 0 ∧ inner innmax conser 0 ≤ innmax + 1 := by
  have : ∀ d k, innmax - k = d → 1 ≤ inner innmax conser k ∧ inner innmax conser k ≤ d + 1 := by
    intro d
    induction d with
    | zero => intro k hk; rw [inner, if_pos (by omega)]; simp
    | succ d ih =>
      intro k hk
      rw [inner, if_neg (by omega)]
      split
      · simp
      · have := ih (k + 1) (by omega); omega
  simpa using this innmax 0 (by omega)

/-- Non-vacuity: a constant objective stops as converged as soon as the window is full. -/
example : gcmma ⟨2, 10, 1 / 4⟩ (fun _ => 3) 5 = some (2, true) := by
  have hs : Real.sqrt (1 / 4) = 1 / 2 := by rw [show (1 / 4 : ℝ) = (1 / 2) ^ 2 by norm_num, Real.sqrt_sq (by norm_num)]
  have hs' : (Real.sqrt 4)⁻¹ = 1 / 2 := by rw [show (4 : ℝ) = 2 ^ 2 by norm_num, Real.sqrt_sq (by norm_num)]; norm_num
  norm_num [gcmma, outer, relConv, hs, hs']

example : inner 3 (fun k => k == 1) 0 = 2 := by simp [inner]

/-! ### C80: GCMMA iterates and variable bounds -/

/-- C80: from the second outer iteration on (the previous iterate is inside the bounds) backtracking keeps the candidate inside the variable bounds, however often it backtracks. -/
theorem C80_backtracking_stays_in_bounds {n : Nat} (c : (Fin n → ℝ) → ℝ) (lo hi xold1 xmma : Fin n → ℝ)
    (h1 : ∀ i, lo i ≤ xold1 i ∧ xold1 i ≤ hi i) (h2 : ∀ i, lo i ≤ xmma i ∧ xmma i ≤ hi i) (fuel : Nat) (y : Fin n → ℝ)
    (hr : backtrack c xold1 xmma fuel (2 / 100) xmma = some y) : c y ≤ 100 ∧ ∀ i, lo i ≤ y i ∧ y i ≤ hi i := by
  have key : ∀ fuel frac x, 0 ≤ frac → frac ≤ 1 → (∀ i, lo i ≤ x i ∧ x i ≤ hi i) → backtrack c xold1 xmma fuel frac x = some y →
      c y ≤ 100 ∧ ∀ i, lo i ≤ y i ∧ y i ≤ hi i := by
    intro fuel
    induction fuel with
    | zero => intro frac x _ _ _ h; simp [backtrack] at h
    | succ fuel ih =>
      intro frac x hf0 hf1 hx h
      rw [backtrack] at h
      split at h
      · refine ih (frac * frac) _ (mul_nonneg hf0 hf0) (by nlinarith) ?_ h
        intro i
        have a := h1 i; have b := h2 i
        constructor
        · nlinarith [mul_nonneg hf0 (sub_nonneg.2 b.1), mul_nonneg (sub_nonneg.2 hf1) (sub_nonneg.2 a.1)]
        · nlinarith [mul_nonneg hf0 (sub_nonneg.2 b.2), mul_nonneg (sub_nonneg.2 hf1) (sub_nonneg.2 a.2)]
      · rename_i hc
        simp only [Option.some.injEq] at h
        subst h
        exact ⟨not_lt.1 hc, hx⟩
  exact key fuel _ _ (by norm_num) (by norm_num) h2 hr

/-- C80 fails in the first outer iteration: the previous iterate is still the zero vector, so a single backtrack can leave the bounds (`1 ≤ x ≤ 2`, result `0.04`). -/
theorem C80_first_iteration_leaves_bounds_fails :
    ∃ (c : (Fin 1 → ℝ) → ℝ) (xmma y : Fin 1 → ℝ), (1 ≤ xmma 0 ∧ xmma 0 ≤ 2) ∧ backtrack c (fun _ => 0) xmma 2 (2 / 100) xmma = some y ∧ y 0 < 1 := by
  refine ⟨fun x => 1000 * (x 0 - 1), fun _ => 2, fun _ => 4 / 100, by norm_num, ?_, by norm_num⟩
  norm_num [backtrack]

/-- C80 fails: if the constraint exceeds 100 near the previous iterate, backtracking never ends. -/
theorem C80_backtracking_may_not_terminate_fails {n : Nat} (xold1 xmma : Fin n → ℝ) (fuel : Nat) (frac : ℝ) :
    backtrack (fun _ => 101) xold1 xmma fuel frac xmma = none := by
  have : ∀ fuel frac x, backtrack (fun _ : Fin n → ℝ => (101 : ℝ)) xold1 xmma fuel frac x = none := by
    intro fuel
    induction fuel with
    | zero => intros; rfl
    | succ fuel ih => intro frac x; rw [backtrack, if_pos (by norm_num), ih]
  exact this fuel frac xmma

example : backtrack (fun x : Fin 1 → ℝ => 1000 * (x 0 - 1)) (fun _ => 1) (fun _ => 2) 2 (2 / 100) (fun _ => 2) = some (fun _ => 1 + 2 / 100) := by
  norm_num [backtrack]

/-! ### C81: parametric line study -/

/-- C81: a line study with `divs > 0` evaluates `divs + 1` designs, from the first to the second design, equally spaced. -/
theorem C81_line_study {n : Nat} (divs : Nat) (hd : 0 < divs) (x1 x2 : Fin n → ℝ) :
    (lineStudy divs x1 x2).length = divs + 1 ∧ (lineStudy divs x1 x2)[0]? = some x1 ∧ (lineStudy divs x1 x2)[divs]? = some x2 ∧
    ∀ i (hi : i < divs), ∃ a b, (lineStudy divs x1 x2)[i]? = some a ∧ (lineStudy divs x1 x2)[i + 1]? = some b ∧
      ∀ j, b j - a j = (x2 j - x1 j) / divs := by
  have hd' : (divs : ℝ) ≠ 0 := by positivity
  have hget : ∀ i, i < divs + 1 → (lineStudy divs x1 x2)[i]? = some (fun j => (1 - (i : ℝ) / divs) * x1 j + ((i : ℝ) / divs) * x2 j) := by
    intro i hi
    simp [lineStudy, List.getElem?_range hi]
  refine ⟨by simp [lineStudy], ?_, ?_, ?_⟩
  · rw [hget 0 (by omega)]; simp
  · rw [hget divs (by omega)]; simp [hd']
  · intro i hi
    refine ⟨_, _, hget i (by omega), hget (i + 1) (by omega), fun j => ?_⟩
    push_cast
    field_simp
    ring

example : (lineStudy 2 (fun _ : Fin 1 => 0) (fun _ => 4))[1]? = some (fun _ => 2) := by
  simp [lineStudy]; norm_num

/-! ### C45, C46: callbacks -/

theorem loopE_fill {K : Type} (n b : Nat) (v : Nat → K) (w : Vec K) (h : b + n ≤ w.size) :
    ∃ w', loopE n (fun j (w : Vec K) => w.write (b + j) (v j)) w = .ok w' ∧ w'.size = w.size ∧
      ∀ a, w'.get a = if b ≤ a ∧ a < b + n then v (a - b) else w.get a := by
  obtain ⟨s, hs, h1, h2⟩ := loopE_inv (fun k (s : Vec K) => s.size = w.size ∧ ∀ a, s.get a = if b ≤ a ∧ a < b + k then v (a - b) else w.get a) n
    (fun j (w : Vec K) => w.write (b + j) (v j)) w ⟨rfl, fun a => by rw [if_neg (by omega)]⟩ (by
      intro i s hi ⟨e1, e2⟩
      refine ⟨_, Vec.write_ok (by omega) _, e1, fun a => ?_⟩
      dsimp only
      by_cases ha : a = b + i
      · subst ha; rw [if_pos rfl, if_pos (by omega)]; congr 1; omega
      · rw [if_neg ha, e2]
        by_cases hc : b ≤ a ∧ a < b + i
        · rw [if_pos hc, if_pos (by omega)]
        · rw [if_neg hc, if_neg (by omega)])
  exact ⟨s, hs, h1, h2⟩

theorem loopE_fill2 {K : Type} (m n b : Nat) (v : Nat → Nat → K) (w : Vec K) (h : b + m * n ≤ w.size) :
    ∃ w', loopE m (fun i (w : Vec K) => loopE n (fun j (w : Vec K) => w.write (b + i * n + j) (v i j)) w) w = .ok w' ∧ w'.size = w.size ∧
      (∀ i < m, ∀ j < n, w'.get (b + i * n + j) = v i j) ∧ ∀ a, (a < b ∨ b + m * n ≤ a) → w'.get a = w.get a := by
  obtain ⟨s, hs, h1, h2, h3⟩ := loopE_inv (fun k (s : Vec K) => s.size = w.size ∧ (∀ i < k, ∀ j < n, s.get (b + i * n + j) = v i j) ∧
      ∀ a, (a < b ∨ b + k * n ≤ a) → s.get a = w.get a) m
    (fun i (w : Vec K) => loopE n (fun j (w : Vec K) => w.write (b + i * n + j) (v i j)) w) w ⟨rfl, fun i hi => by omega, fun a _ => rfl⟩ (by
      intro i s hi ⟨e1, e2, e3⟩
      have hle : (i + 1) * n ≤ m * n := Nat.mul_le_mul_right _ hi
      have hsucc : (i + 1) * n = i * n + n := by ring
      obtain ⟨s', hs', f1, f2⟩ := loopE_fill n (b + i * n) (v i) s (by omega)
      refine ⟨s', hs', by omega, fun i' hi' j hj => ?_, fun a ha => ?_⟩
      · rw [f2]
        rcases Nat.lt_succ_iff_lt_or_eq.1 hi' with h' | rfl
        · have : (i' + 1) * n ≤ i * n := Nat.mul_le_mul_right _ h'
          have h'' : (i' + 1) * n = i' * n + n := by ring
          rw [if_neg (by omega), e2 i' h' j hj]
        · rw [if_pos (by omega)]; congr 1; omega
      · rw [f2, if_neg (by omega), e3 a (by omega)])
  exact ⟨s, hs, h1, h2, h3⟩

/-- C45, gradients: when NLopt asks for gradients (array of `m·n` entries), entry `i*n+j` becomes the derivative of constraint `i` with respect to variable `j`
(`evaluate` stores it at `j*m+i`), for every size. -/
theorem C45_gradient_layout {K : Type} (m n : Nat) (fvals dfdx result : Nat → K) (g : Vec K) (hg : g.size = m * n) :
    ∃ r g', nloptConstraints m n fvals dfdx result (some g) = .ok (r, some g') ∧ ∀ i < m, ∀ j < n, g'.get (i * n + j) = dfdx (j * m + i) := by
  obtain ⟨g', h1, _, h2, _⟩ := loopE_fill2 m n 0 (fun i j => dfdx (j * m + i)) g (by omega)
  simp only [Nat.zero_add] at h1 h2
  exact ⟨result, g', by simp only [nloptConstraints, h1]; rfl, h2⟩

/-- C45 fails, values: the constraint values are never delivered: for every problem and every call the `result` array is returned as it came in. -/
theorem C45_values_not_written_fails {K : Type} (m n : Nat) (fvals dfdx result : Nat → K) (g : Option (Vec K)) (r : Nat → K) (g' : Option (Vec K))
    (h : nloptConstraints m n fvals dfdx result g = .ok (r, g')) : r = result := by
  unfold nloptConstraints at h
  cases g with
  | none => simp at h; exact h.1.symm
  | some g =>
    simp only [bind, Except.bind] at h
    split at h
    · cases h
    · simp at h; exact h.1.symm

/-- C45 fails, history: the row written for each objective evaluation contains a zero objective and zero constraints, whatever their values are. -/
theorem C45_history_zero_fails (nconstr : Nat) (x : List ℝ) (obj : ℝ) (c : List ℝ) :
    (nloptRecord nconstr x obj c).x = x ∧ (nloptRecord nconstr x obj c).obj = 0 ∧ ∀ v ∈ (nloptRecord nconstr x obj c).f, v = 0 :=
  ⟨rfl, rfl, fun _ hv => List.eq_of_mem_replicate hv⟩

/-- C45 fails, tolerances: registering two or more constraints reads past the single tolerance that is provided; one constraint is fine. -/
theorem C45_tolerance_array_fails {K : Type} (tol : K) (m : Nat) : nloptTolRead tol (m + 2) = .error .ub ∧ nloptTolRead tol 1 = .ok [tol] := by
  constructor
  · unfold nloptTolRead
    rw [show m + 2 = 1 + 1 + m by omega, List.range_add, List.range_add]
    simp [List.mapM_append, bind, Except.bind]
  · rfl

example : (nloptConstraints 2 1 (fun _ => (5 : ℝ)) (fun k => k + 10) (fun _ => 7) (some ⟨2, fun _ => 0⟩)).isOk = true := by
  obtain ⟨r, g', h, _⟩ := C45_gradient_layout 2 1 (fun _ => (5 : ℝ)) (fun k => k + 10) (fun _ => 7) ⟨2, fun _ => 0⟩ rfl
  rw [h]; rfl

/-- C46, DOT: for every number of variables and constraints and every list of at most `NCON` active constraints (1-based numbers), the work array is large enough and receives the objective
gradient in its first `NDV` entries, followed by the gradients of the active constraints. -/
theorem C46_dot_gradients {K : Type} (ndv ncon : Nat) (hv : 0 < ndv) (hc : 0 < ncon) (df0 : Nat → K) (dfdx : Vec K) (hd : dfdx.size = ndv * ncon)
    (nact : Nat) (hn : nact ≤ ncon) (act : Nat → Nat) (ha : ∀ i < nact, 1 ≤ act i ∧ act i ≤ ncon) (wk : Vec K) (hw : wk.size = nrwk ndv ncon) :
    ∃ w, dotGradients ndv ncon df0 dfdx nact act wk = .ok w ∧ (∀ j < ndv, w.get j = df0 j) ∧
      ∀ i < nact, ∀ j < ndv, w.get ((i + 1) * ndv + j) = dfdx.get (j * ncon + (act i - 1)) := by
  have hsz : ndv + nact * ndv ≤ wk.size := by
    rw [hw]; unfold nrwk
    have h1 : nact * ndv ≤ ncon * ndv := Nat.mul_le_mul_right _ hn
    have h2 : ncon * ndv = ndv * ncon := Nat.mul_comm _ _
    have h3 : ndv * 1 ≤ ndv * ncon := Nat.mul_le_mul_left _ hc
    have := le_max_left (ndv * ncon * 10) 100000
    omega
  obtain ⟨w1, e1, s1, g1⟩ := loopE_fill ndv 0 df0 wk (by omega)
  obtain ⟨w2, e2, s2, g2, g3⟩ := loopE_fill2 nact ndv ndv (fun i j => dfdx.get (j * ncon + (act i - 1))) w1 (by omega)
  refine ⟨w2, ?_, fun j hj => ?_, fun i hi j hj => ?_⟩
  · unfold dotGradients
    simp only [Nat.zero_add] at e1
    rw [e1]
    simp only [bind, Except.bind]
    rw [← e2]
    have hin : ∀ i, i < nact → ∀ j, j < ndv → dfdx.read (j * ncon + act i - 1) = .ok (dfdx.get (j * ncon + (act i - 1))) := by
      intro i hi j hj
      have := ha i hi
      have hb := block_lt (a := ndv) (b := ncon) (j := j) (k := act i - 1) hj (by omega)
      rw [show j * ncon + act i - 1 = j * ncon + (act i - 1) by omega]
      exact Vec.read_ok (by omega)
    have cong : ∀ (k : Nat) (b1 b2 : Nat → Vec K → Exec (Vec K)) (s : Vec K), (∀ i < k, ∀ s, b1 i s = b2 i s) → loopE k b1 s = loopE k b2 s := by
      intro k b1 b2 s h
      induction k with
      | zero => rfl
      | succ k ih => rw [loopE, loopE, ih (fun i hi => h i (by omega))]; congr 1; funext s; exact h k (by omega) s
    apply cong
    intro i hi s
    apply cong
    intro j hj s
    rw [hin i hi j hj]
    show s.write ((i + 1) * ndv + j) _ = _
    congr 1; ring
  · rw [g3 j (Or.inl hj), g1, if_pos (by omega)]; rfl
  · rw [show (i + 1) * ndv + j = ndv + i * ndv + j by ring, g2 i hi j hj]

example : ∃ w, dotGradients 1 2 (fun _ => (4 : ℝ)) ⟨2, fun k => k⟩ 1 (fun _ => 2) ⟨nrwk 1 2, fun _ => 0⟩ = .ok w ∧ (∀ j < 1, w.get j = 4) ∧
    ∀ i < 1, ∀ j < 1, w.get ((i + 1) * 1 + j) = ((j * 2 + (2 - 1) : ℕ) : ℝ) := by
  simpa using C46_dot_gradients (K := ℝ) 1 2 (by norm_num) (by norm_num) (fun _ => 4) ⟨2, fun k => k⟩ rfl 1 (by norm_num) (fun _ => 2) (by simp) ⟨nrwk 1 2, fun _ => 0⟩ rfl

/-- C46 fails, NPSOL exit: SNOPT's exit family of an `INFORM` code is the code with its last digit removed (`10·⌊INFORM/10⌋`); the reported one is ten times the last digit, and the two
agree only for codes whose last two digits are equal. -/
theorem C46_npsol_exit_fails (inform : Nat) : npsolExit inform = inform / 10 * 10 ↔ inform % 10 = inform / 10 := by
  unfold npsolExit; omega

/-- In particular `INFORM = 1` (optimality conditions satisfied, family 0) is reported under family 10 (infeasible). -/
theorem C46_npsol_success_reported_infeasible_fails : npsolExit 1 = 10 := rfl

/-! ### Bounds and records -/

theorem write_both (n : Nat) (o : Nat) (f g : Nat → ℝ) (sz : Nat) (h : o + n ≤ sz) (l u : Nat → ℝ) :
    loopE n (fun i (b : Vec ℝ × Vec ℝ) => do
      let l ← b.1.write (i + o) (f i)
      let u ← b.2.write (i + o) (g i)
      .ok (l, u)) ((⟨sz, l⟩, ⟨sz, u⟩) : Vec ℝ × Vec ℝ) =
    .ok ((⟨sz, fun j => if o ≤ j ∧ j < o + n then f (j - o) else l j⟩, ⟨sz, fun j => if o ≤ j ∧ j < o + n then g (j - o) else u j⟩) : Vec ℝ × Vec ℝ) := by
  induction n with
  | zero =>
    have : ∀ j, ¬(o ≤ j ∧ j < o + 0) := fun j => by omega
    simp only [loopE, this, if_false]
  | succ n ih =>
    rw [loopE, ih (by omega)]
    have hw : n + o < sz := by omega
    simp only [bind, Except.bind, Vec.write, hw, if_true]
    have e : ∀ (f l : Nat → ℝ), (fun j => if j = n + o then f n else if o ≤ j ∧ j < o + n then f (j - o) else l j) = fun j => if o ≤ j ∧ j < o + (n + 1) then f (j - o) else l j := by
      intro f l
      funext j
      by_cases h1 : j = n + o
      · subst h1
        rw [if_pos rfl, if_pos (by omega)]
        congr 1; omega
      · rw [if_neg h1]
        by_cases h2 : o ≤ j ∧ j < o + n
        · rw [if_pos h2, if_pos (by omega)]
        · rw [if_neg h2, if_neg (by omega)]
    rw [e f l, e g u]

/-- The bounds of the NPSOL driver: those of the variables, then `[-1e20, 0]` for every constraint. -/
theorem npsolBounds_eq (n neq nineq : Nat) (xmin xmax : Nat → ℝ) : ∃ l u, npsolBounds n neq nineq xmin xmax = .ok (l, u) ∧ l.size = n + (neq + nineq) ∧ u.size = n + (neq + nineq) ∧
    (∀ i < n, l.get i = xmin i ∧ u.get i = xmax i) ∧ ∀ i < neq + nineq, l.get (n + i) = -10 ^ 20 ∧ u.get (n + i) = 0 := by
  have h1 := write_both n 0 xmin xmax (n + (neq + nineq)) (by omega) (fun _ => 0) (fun _ => 0)
  simp only [Nat.add_zero] at h1
  have h2 := write_both (neq + nineq) n (fun _ => -10 ^ 20) (fun _ => 0) (n + (neq + nineq)) (by omega)
    (fun j => if 0 ≤ j ∧ j < 0 + n then xmin (j - 0) else 0) (fun j => if 0 ≤ j ∧ j < 0 + n then xmax (j - 0) else 0)
  unfold npsolBounds
  rw [h1]
  simp only [bind, Except.bind] at h2 ⊢
  refine ⟨_, _, h2, rfl, rfl, ?_, ?_⟩
  · intro i hi
    have a : ¬(n ≤ i ∧ i < n + (neq + nineq)) := by omega
    have b : 0 ≤ i ∧ i < 0 + n := by omega
    simp only [a, b, if_true, if_false, Nat.sub_zero, and_self]
  · intro i hi
    have a : n ≤ n + i ∧ n + i < n + (neq + nineq) := by omega
    simp only [a, if_true, and_self]

/-- Designs NPSOL may return: variables and constraints within `BL`, `BU`. -/
def npsolFeasible (n m : Nat) (l u : Vec ℝ) (x c : Nat → ℝ) : Prop := (∀ i < n, l.get i ≤ x i ∧ x i ≤ u.get i) ∧ ∀ i < m, l.get (n + i) ≤ c i ∧ c i ≤ u.get (n + i)

/-- C46 (no equality constraints, and constraints above -1e20): the designs NPSOL may return are those within the bounds of the variables whose inequality constraints are not positive. -/
theorem C46_npsol_bounds_partial (n nineq : Nat) (xmin xmax : Nat → ℝ) (x c : Nat → ℝ) (hc : ∀ i < nineq, -10 ^ 20 ≤ c i) :
    ∃ l u, npsolBounds n 0 nineq xmin xmax = .ok (l, u) ∧ (npsolFeasible n nineq l u x c ↔ (∀ i < n, xmin i ≤ x i ∧ x i ≤ xmax i) ∧ ∀ i < nineq, c i ≤ 0) := by
  obtain ⟨l, u, h1, -, -, h2, h3⟩ := npsolBounds_eq n 0 nineq xmin xmax
  refine ⟨l, u, h1, ?_⟩
  unfold npsolFeasible
  constructor
  · rintro ⟨a, b⟩
    exact ⟨fun i hi => by have := a i hi; rwa [(h2 i hi).1, (h2 i hi).2] at this, fun i hi => by have := (b i hi).2; rwa [(h3 i (by omega)).2] at this⟩
  · rintro ⟨a, b⟩
    exact ⟨fun i hi => by rw [(h2 i hi).1, (h2 i hi).2]; exact a i hi, fun i hi => by rw [(h3 i (by omega)).1, (h3 i (by omega)).2]; exact ⟨hc i hi, b i hi⟩⟩

/-- C46 fails: equality constraints are given the bounds of inequality constraints.  Every design within the bounds of the variables whose equality constraints are negative is feasible for NPSOL. -/
theorem C46_npsol_equality_fails (n neq nineq : Nat) (xmin xmax : Nat → ℝ) (x c : Nat → ℝ) (hx : ∀ i < n, xmin i ≤ x i ∧ x i ≤ xmax i) (hc : ∀ i < neq + nineq, c i = -1) :
    ∃ l u, npsolBounds n neq nineq xmin xmax = .ok (l, u) ∧ npsolFeasible n (neq + nineq) l u x c := by
  obtain ⟨l, u, h1, -, -, h2, h3⟩ := npsolBounds_eq n neq nineq xmin xmax
  refine ⟨l, u, h1, fun i hi => by rw [(h2 i hi).1, (h2 i hi).2]; exact hx i hi, fun i hi => ?_⟩
  rw [(h3 i hi).1, (h3 i hi).2, hc i hi]
  norm_num

/-- Non-vacuity: one variable in `[0, 1]`, one equality constraint. -/
example : ∃ l u, npsolBounds 1 1 0 (fun _ => 0) (fun _ => 1) = .ok (l, u) ∧ npsolFeasible 1 1 l u (fun _ => 1 / 2) (fun _ => -1) :=
  C46_npsol_equality_fails 1 1 0 _ _ _ _ (fun i _ => by norm_num) (fun _ _ => rfl)

/-- C46, DOT: when the driver ends, the records are the designs of all calls in their order with the values `evaluate` gives there; the design of the last call, the first with `INFO = 0`, is recorded twice. -/
theorem C46_dot_records {X R : Type} (eval : X → R) (calls : List (Nat × X)) (rs : List (X × R)) (h : dotRecords eval calls = some rs) :
    ∃ pre x rest, calls = pre ++ (0, x) :: rest ∧ (∀ c ∈ pre, c.1 ≠ 0) ∧ rs = pre.map (fun c => (c.2, eval c.2)) ++ [(x, eval x), (x, eval x)] := by
  induction calls generalizing rs with
  | nil => simp [dotRecords] at h
  | cons c l ih =>
    obtain ⟨info, x⟩ := c
    unfold dotRecords at h
    by_cases hi : info = 0
    · rw [if_pos hi] at h
      exact ⟨[], x, l, by simp [hi], by simp, by simpa using (Option.some.inj h).symm⟩
    · rw [if_neg hi] at h
      simp only [Option.map_eq_some_iff] at h
      obtain ⟨rs', h', rfl⟩ := h
      obtain ⟨pre, y, rest, h1, h2, h3⟩ := ih rs' h'
      refine ⟨(info, x) :: pre, y, rest, by rw [h1]; rfl, ?_, by rw [h3]; rfl⟩
      intro c hc
      rcases List.mem_cons.1 hc with rfl | hc
      · exact hi
      · exact h2 c hc

example : dotRecords (fun x : Nat => x * x) [(1, 3), (2, 3), (0, 4)] = some [(3, 9), (3, 9), (4, 16), (4, 16)] := rfl

/-- C81 fails: the study writes designs with the objective 0 and all constraints 0, whatever the problem is; `evaluate` is not called. -/
theorem C81_values_fails {n : Nat} (m divs : Nat) (x1 x2 : Fin n → ℝ) : ∀ r ∈ lineRecords m divs x1 x2, r.2.1 = 0 ∧ r.2.2 = List.replicate m 0 := by
  intro r hr
  obtain ⟨x, -, rfl⟩ := List.mem_map.1 hr
  exact ⟨rfl, rfl⟩

end Verif.Optim
