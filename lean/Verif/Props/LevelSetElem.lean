import Verif.Model.LevelSetElem
import Mathlib.Analysis.Calculus.Deriv.Add
import Mathlib.Analysis.Calculus.Deriv.Mul
import Mathlib.Analysis.Calculus.Deriv.Pow
import Mathlib.Analysis.Calculus.Deriv.Inv
import Mathlib.Algebra.BigOperators.Field
import Mathlib.Tactic.LinearCombination
import Mathlib.Tactic.FieldSimp
import Mathlib.Tactic.Positivity
import Mathlib.Tactic.Linarith
import Mathlib.Tactic.NormNum
import Mathlib.Tactic.FinCases
/-
  C128: level set propagation and reinitialization element.
-/
namespace Verif.LevelSetElem
variable {n d : Nat} {X : Type}

/-! ### Specification -/

/-- Shape functions add up to one and their derivatives to zero. -/
structure Unity (q : Qp n d X) : Prop where
  one : ∑ i, q.N i = 1
  zero : ∀ k, ∑ i, q.dN k i = 0

/-- Directional derivative of the interpolated field `w` along `v`. -/
def along (q : Qp n d X) (v : Fin d → ℝ) (w : Fin n → ℝ) : ℝ := ∑ k, v k * grad q w k

/-- Inner product of two gradients. -/
def gdot (q : Qp n d X) (w u : Fin n → ℝ) : ℝ := ∑ k, grad q w k * grad q u k

/-! ### Lemmas -/

theorem len_sq (v : Fin d → ℝ) : len v ^ 2 = ∑ k, v k ^ 2 := Real.sq_sqrt (Finset.sum_nonneg fun k _ => sq_nonneg (v k))
theorem len_nonneg (v : Fin d → ℝ) : 0 ≤ len v := Real.sqrt_nonneg _
theorem len_pos {v : Fin d → ℝ} (h : v ≠ 0) : 0 < len v := by
  refine Real.sqrt_pos.mpr ?_
  obtain ⟨k, hk⟩ := Function.ne_iff.mp h
  exact Finset.sum_pos' (fun k _ => sq_nonneg (v k)) ⟨k, Finset.mem_univ k, by have : v k ≠ 0 := hk; positivity⟩

theorem tol_pos : 0 < tol := by unfold tol; norm_num

theorem adv_test (q : Qp n d X) (v : Fin d → ℝ) (w : Fin n → ℝ) : ∑ i, w i * adv q v i = along q v w := by
  simp only [adv, along, grad, Finset.mul_sum]
  rw [Finset.sum_comm]
  exact Finset.sum_congr rfl fun k _ => Finset.sum_congr rfl fun i _ => by ring

theorem val_test (q : Qp n d X) (w : Fin n → ℝ) : ∑ i, w i * q.N i = val q w := Finset.sum_congr rfl fun i _ => by ring

theorem gdot_test (q : Qp n d X) (c : ℝ) (w u : Fin n → ℝ) : ∑ i, w i * ∑ k, c * (q.dN k i * grad q u k) = c * gdot q w u := by
  simp only [gdot, grad, Finset.mul_sum, Finset.sum_mul]
  rw [Finset.sum_comm]
  refine Finset.sum_congr rfl fun k _ => ?_
  rw [Finset.sum_comm]
  exact Finset.sum_congr rfl fun i _ => Finset.sum_congr rfl fun j _ => by ring

/-- Weak form of one point. -/
theorem res_test (m : Mode n X) (q : Qp n d X) (u w : Fin n → ℝ) :
    ∑ i, w i * res m q u i = q.JxW * ((val q w + tau q (vel m q u) * along q (vel m q u) w) * flux m q u + dc q u (vel m q u) * gdot q w u) := by
  have h : ∀ i, w i * res m q u i = q.JxW * flux m q u * (w i * q.N i) + q.JxW * tau q (vel m q u) * flux m q u * (w i * adv q (vel m q u) i)
      + w i * ∑ k, q.JxW * dc q u (vel m q u) * (q.dN k i * grad q u k) := fun i => by unfold res; ring
  rw [Finset.sum_congr rfl fun i _ => h i, Finset.sum_add_distrib, Finset.sum_add_distrib, ← Finset.mul_sum, ← Finset.mul_sum, val_test, adv_test, gdot_test]
  ring

theorem vel_prop (Vn : X → ℝ) (q : Qp n d X) (u : Fin n → ℝ) (hg : grad q u ≠ 0) : ∑ k, vel (.propagate Vn) q u k * grad q u k = -(Vn q.x) * len (grad q u) := by
  have hl := len_pos hg
  have h : ∀ k, vel (.propagate Vn) q u k * grad q u k = -(Vn q.x) / len (grad q u) * grad q u k ^ 2 := fun k => by unfold vel; ring
  rw [Finset.sum_congr rfl fun k _ => h k, ← Finset.mul_sum, ← len_sq]
  field_simp

theorem flux_prop (Vn : X → ℝ) (q : Qp n d X) (u : Fin n → ℝ) (hg : grad q u ≠ 0) : flux (.propagate Vn) q u = -(Vn q.x) * len (grad q u) := by
  unfold flux; rw [vel_prop Vn q u hg]; simp [source]

theorem flux_reinit (ref : Fin n → ℝ) (q : Qp n d X) (u : Fin n → ℝ) (hg : len (grad q u) > tol) :
    flux (.reinit ref : Mode n X) q u = source (.reinit ref : Mode n X) q u * (len (grad q u) - 1) := by
  have hl : 0 < len (grad q u) := tol_pos.trans hg
  have h : ∀ k, vel (.reinit ref : Mode n X) q u k * grad q u k = source (.reinit ref : Mode n X) q u / len (grad q u) * grad q u k ^ 2 := fun k => by
    simp only [vel, hg, if_true]; ring
  unfold flux
  rw [Finset.sum_congr rfl fun k _ => h k, ← Finset.mul_sum, ← len_sq]
  field_simp

theorem grad_const {q : Qp n d X} (h : Unity q) (c : ℝ) : grad q (fun _ => c) = 0 := by
  funext k; simp [grad, ← Finset.sum_mul, h.zero k]

theorem grad_add (q : Qp n d X) (u v : Fin n → ℝ) (k : Fin d) : grad q (fun i => u i + v i) k = grad q u k + grad q v k := by
  simp [grad, mul_add, Finset.sum_add_distrib]

theorem grad_shift {q : Qp n d X} (h : Unity q) (u : Fin n → ℝ) (c : ℝ) : grad q (fun i => u i + c) = grad q u := by
  funext k; rw [grad_add q u fun _ => c, grad_const h]; simp

theorem list_sum_mul {ι : Type} (l : List ι) (w : Fin n → ℝ) (f : ι → Fin n → ℝ) : ∑ i, w i * (l.map fun q => f q i).sum = (l.map fun q => ∑ i, w i * f q i).sum := by
  induction l with
  | nil => simp
  | cons a l ih => simp only [List.map_cons, List.sum_cons, mul_add, Finset.sum_add_distrib, ih]

/-! ### C128 -/

theorem internalResidual_some {m : Mode n X} {e : List (Qp n d X)} {u : Fin n → ℝ} {r : (Fin n → ℝ) × (Fin n → Fin n → ℝ)} (h : internalResidual m e u = some r) :
    (∀ q ∈ e, ¬ undefined m q u) ∧ r.1 = (fun i => (e.map fun q => res m q u i).sum) ∧ r.2 = fun i j => (e.map fun q => jac m q u i j).sum := by
  unfold internalResidual at h
  split at h
  · simp at h
  · next hn => simp only [Option.some.injEq] at h; subst h; exact ⟨fun q hq hu => hn ⟨q, hq, hu⟩, rfl, rfl⟩

/-- C128: the residual of the propagation equation, tested with `w`, is the integral of the Hamilton-Jacobi operator `-Vn |grad phi|` against the streamline-upwind test function, plus artificial diffusion. -/
theorem C128_propagation {Vn : X → ℝ} {e : List (Qp n d X)} {u : Fin n → ℝ} {r} (h : internalResidual (.propagate Vn) e u = some r) (w : Fin n → ℝ) :
    ∑ i, w i * r.1 i = (e.map fun q => q.JxW * ((val q w + tau q (vel (.propagate Vn) q u) * along q (vel (.propagate Vn) q u) w) * (-(Vn q.x) * len (grad q u))
      + dc q u (vel (.propagate Vn) q u) * gdot q w u)).sum := by
  obtain ⟨hd, h1, _⟩ := internalResidual_some h
  rw [h1, list_sum_mul]
  refine congrArg List.sum (List.map_congr_left fun q hq => ?_)
  rw [res_test, flux_prop Vn q u (hd q hq)]

/-- C128: the total of the residual is the integral of `-Vn |grad phi|`: stabilization neither creates nor destroys level set. -/
theorem C128_conservation {Vn : X → ℝ} {e : List (Qp n d X)} (hu : ∀ q ∈ e, Unity q) {u : Fin n → ℝ} {r} (h : internalResidual (.propagate Vn) e u = some r) :
    ∑ i, r.1 i = (e.map fun q => q.JxW * (-(Vn q.x) * len (grad q u))).sum := by
  have := C128_propagation h fun _ => 1
  simp only [one_mul] at this
  rw [this]
  refine congrArg List.sum (List.map_congr_left fun q hq => ?_)
  simp [along, gdot, grad_const (hu q hq), val, (hu q hq).one]

/-- C128: with zero normal velocity nothing moves. -/
theorem C128_rest (e : List (Qp n d X)) (u : Fin n → ℝ) {r} (h : internalResidual (.propagate fun _ => 0) e u = some r) (i : Fin n) : r.1 i = 0 := by
  obtain ⟨_, h1, _⟩ := internalResidual_some h
  rw [h1]
  refine List.sum_eq_zero fun x hx => ?_
  obtain ⟨q, _, rfl⟩ := List.mem_map.mp hx
  simp [res, flux, vel, source, dc]

/-- C128: adding a constant to the level set changes neither residual nor tangent of the propagation equation. -/
theorem C128_shift (Vn : X → ℝ) {e : List (Qp n d X)} (hu : ∀ q ∈ e, Unity q) (u : Fin n → ℝ) (c : ℝ) :
    internalResidual (.propagate Vn) e (fun i => u i + c) = internalResidual (.propagate Vn) e u := by
  have hv : ∀ q ∈ e, vel (.propagate Vn) q (fun i => u i + c) = vel (.propagate Vn) q u := fun q hq => by funext k; simp only [vel, grad_shift (hu q hq)]
  have hs : ∀ q ∈ e, undefined (.propagate Vn) q (fun i => u i + c) ↔ undefined (.propagate Vn) q u := fun q hq => by simp only [undefined, grad_shift (hu q hq)]
  have h1 : ∀ i, (e.map fun q => res (.propagate Vn) q (fun i => u i + c) i) = e.map fun q => res (.propagate Vn) q u i := fun i => List.map_congr_left fun q hq => by
    simp only [res, flux, dc, source, hv q hq, grad_shift (hu q hq)]
  have h2 : ∀ i j, (e.map fun q => jac (.propagate Vn) q (fun i => u i + c) i j) = e.map fun q => jac (.propagate Vn) q u i j := fun i j => List.map_congr_left fun q hq => by
    simp only [jac, dc, hv q hq, grad_shift (hu q hq)]
  unfold internalResidual
  have h3 : (∃ q ∈ e, undefined (.propagate Vn) q (fun i => u i + c)) ↔ ∃ q ∈ e, undefined (.propagate Vn) q u :=
    exists_congr fun q => and_congr_right fun hq => hs q hq
  by_cases hh : ∃ q ∈ e, undefined (.propagate Vn) q u
  · rw [if_pos (h3.mpr hh), if_pos hh]
  · rw [if_neg fun h => hh (h3.mp h), if_neg hh]; simp only [h1, h2]

theorem tau_nonneg (q : Qp n d X) (v : Fin d → ℝ) : 0 ≤ tau q v := by
  unfold tau; split
  · exact div_nonneg zero_le_one (Finset.sum_nonneg fun i _ => abs_nonneg _)
  · exact le_rfl
theorem dc_nonneg (q : Qp n d X) (u : Fin n → ℝ) (v : Fin d → ℝ) : 0 ≤ dc q u v := by unfold dc; positivity

/-- C128: the stabilization of the propagation equation only dissipates: what it adds to the work on the level set itself is not negative. -/
theorem C128_dissipation {Vn : X → ℝ} {e : List (Qp n d X)} (hJ : ∀ q ∈ e, 0 ≤ q.JxW) {u : Fin n → ℝ} {r} (h : internalResidual (.propagate Vn) e u = some r) :
    (e.map fun q => q.JxW * (val q u * (-(Vn q.x) * len (grad q u)))).sum ≤ ∑ i, u i * r.1 i := by
  rw [C128_propagation h u]
  obtain ⟨hd, _, _⟩ := internalResidual_some h
  refine List.sum_le_sum fun q hq => ?_
  refine mul_le_mul_of_nonneg_left ?_ (hJ q hq)
  have h1 : along q (vel (.propagate Vn) q u) u = -(Vn q.x) * len (grad q u) := vel_prop Vn q u (hd q hq)
  have h2 : 0 ≤ gdot q u u := Finset.sum_nonneg fun k _ => mul_self_nonneg _
  rw [h1]
  nlinarith [mul_nonneg (tau_nonneg q (vel (.propagate Vn) q u)) (mul_self_nonneg (-(Vn q.x) * len (grad q u))), mul_nonneg (dc_nonneg q u (vel (.propagate Vn) q u)) h2]

/-- C128: the denominator of the upwind parameter does not vanish where it is used. -/
theorem C128_tau_defined (m : Mode n X) (q : Qp n d X) (u : Fin n → ℝ) (h : len (vel m q u) > tol) : 0 < ∑ i, |∑ k, q.dN k i * vel m q u k| := by
  refine lt_of_le_of_ne (Finset.sum_nonneg fun i _ => abs_nonneg _) fun h0 => ?_
  have hz : ∀ i, adv q (vel m q u) i = 0 := fun i => abs_eq_zero.mp ((Finset.sum_eq_zero_iff_of_nonneg fun i _ => abs_nonneg _).mp h0.symm i (Finset.mem_univ i))
  have ha : along q (vel m q u) u = 0 := by rw [← adv_test]; simp [hz]
  have hl : 0 < len (vel m q u) := tol_pos.trans h
  have hv : ∃ c, vel m q u = fun k => c * grad q u k := by
    cases m with
    | propagate Vn => exact ⟨-(Vn q.x) / len (grad q u), by funext k; simp only [vel]; ring⟩
    | reinit ref =>
      by_cases hg : len (grad q u) > tol
      · exact ⟨source (.reinit ref : Mode n X) q u / len (grad q u), by funext k; simp only [vel, hg, if_true]; ring⟩
      · exact ⟨0, by funext k; simp [vel, hg]⟩
  obtain ⟨c, hc⟩ := hv
  have : len (vel m q u) ^ 2 = c * along q (vel m q u) u := by
    rw [len_sq, along, Finset.mul_sum]
    refine Finset.sum_congr rfl fun k _ => ?_
    rw [hc]; ring
  rw [ha, mul_zero] at this
  nlinarith

/-- C128: the upwind part of the test function is bounded by the nodal values of the test function. -/
theorem C128_upwind_bounded (q : Qp n d X) (v : Fin d → ℝ) (w : Fin n → ℝ) {M : ℝ} (hM : ∀ i, |w i| ≤ M) (h0 : 0 ≤ M) : |tau q v * along q v w| ≤ M := by
  have h1 : |along q v w| ≤ M * ∑ i, |∑ k, q.dN k i * v k| := by
    rw [← adv_test, Finset.mul_sum]
    refine (Finset.abs_sum_le_sum_abs _ _).trans (Finset.sum_le_sum fun i _ => ?_)
    rw [abs_mul]; exact mul_le_mul_of_nonneg_right (hM i) (abs_nonneg _)
  have hs : 0 ≤ ∑ i, |∑ k, q.dN k i * v k| := Finset.sum_nonneg fun i _ => abs_nonneg _
  unfold tau
  split
  · rcases hs.eq_or_lt with h | h
    · rw [← h]; simpa using h0
    · rw [abs_mul, abs_of_pos (by positivity), div_mul_eq_mul_div, one_mul, div_le_iff₀ h]; exact h1
  · simpa using h0

/-- C128: reinitialization drives the gradient to length one: the residual tested with `w` is the integral of `s (|grad phi| - 1)` plus artificial diffusion, where `s` has the sign of the reference level set and is at most one in size. -/
theorem C128_reinitialization {ref : Fin n → ℝ} {e : List (Qp n d X)} {u : Fin n → ℝ} (hg : ∀ q ∈ e, len (grad q u) > tol) {r} (h : internalResidual (.reinit ref : Mode n X) e u = some r) (w : Fin n → ℝ) :
    ∑ i, w i * r.1 i = (e.map fun q => q.JxW * ((val q w + tau q (vel (.reinit ref : Mode n X) q u) * along q (vel (.reinit ref : Mode n X) q u) w) * (source (.reinit ref : Mode n X) q u * (len (grad q u) - 1))
      + dc q u (vel (.reinit ref : Mode n X) q u) * gdot q w u)).sum := by
  obtain ⟨_, h1, _⟩ := internalResidual_some h
  rw [h1, list_sum_mul]
  refine congrArg List.sum (List.map_congr_left fun q hq => ?_)
  rw [res_test, flux_reinit ref q u (hg q hq)]

theorem C128_sign (ref u : Fin n → ℝ) (q : Qp n d X) : |source (.reinit ref : Mode n X) q u| ≤ 1 ∧ (0 < val q ref → 0 < source (.reinit ref : Mode n X) q u) ∧ (val q ref < 0 → source (.reinit ref : Mode n X) q u < 0)
    ∧ (val q ref = 0 → source (.reinit ref : Mode n X) q u = 0) := by
  have hn : 0 ≤ tol * len (grad q u) ^ 2 := mul_nonneg tol_pos.le (sq_nonneg _)
  have hs : ∀ h : val q ref ≠ 0, 0 < Real.sqrt (val q ref ^ 2 + tol * len (grad q u) ^ 2) := fun h => Real.sqrt_pos.mpr (by positivity)
  refine ⟨?_, fun h => div_pos h (hs h.ne'), fun h => div_neg_of_neg_of_pos h (hs h.ne), fun h => by simp [source, h]⟩
  by_cases h : val q ref = 0
  · simp [source, h]
  · show |val q ref / _| ≤ 1
    rw [abs_div, abs_of_pos (hs h), div_le_one (hs h)]
    exact Real.abs_le_sqrt (by linarith)

/-- C128: a signed distance function is stationary under reinitialization up to the artificial diffusion, and its mean is stationary. -/
theorem C128_distance_partial {ref : Fin n → ℝ} {e : List (Qp n d X)} {u : Fin n → ℝ} (hg : ∀ q ∈ e, len (grad q u) = 1) {r} (h : internalResidual (.reinit ref : Mode n X) e u = some r) :
    (∀ w : Fin n → ℝ, ∑ i, w i * r.1 i = (e.map fun q => q.JxW * (dc q u (vel (.reinit ref : Mode n X) q u) * gdot q w u)).sum) ∧ ((∀ q ∈ e, Unity q) → ∑ i, r.1 i = 0) := by
  have ht : ∀ q ∈ e, len (grad q u) > tol := fun q hq => by rw [hg q hq]; unfold tol; norm_num
  have h1 : ∀ w : Fin n → ℝ, ∑ i, w i * r.1 i = (e.map fun q => q.JxW * (dc q u (vel (.reinit ref : Mode n X) q u) * gdot q w u)).sum := fun w => by
    rw [C128_reinitialization ht h w]
    refine congrArg List.sum (List.map_congr_left fun q hq => ?_)
    rw [hg q hq]; ring
  refine ⟨h1, fun hu => ?_⟩
  have := h1 fun _ => 1
  simp only [one_mul] at this
  rw [this]
  refine List.sum_eq_zero fun x hx => ?_
  obtain ⟨q, hq, rfl⟩ := List.mem_map.mp hx
  simp [gdot, grad_const (hu q hq)]

/-- A line element of length one with one quadrature point at the centre. -/
noncomputable def bar : Qp 2 1 Unit := ⟨1, fun _ => 1 / 2, fun _ => ![-1, 1], fun _ _ => 2, ()⟩
theorem bar_unity : Unity bar := ⟨by simp [bar], fun k => by simp [bar, Fin.sum_univ_two]⟩
theorem bar_grad (u : Fin 2 → ℝ) : grad bar u = fun _ => u 1 - u 0 := by funext k; simp [grad, bar, Fin.sum_univ_two]; ring
theorem bar_len (u : Fin 2 → ℝ) : len (grad bar u) = |u 1 - u 0| := by rw [bar_grad]; simp [len, Real.sqrt_sq_eq_abs]

/-- C128 fails: the signed distance function `x + 1` of its own level set is not stationary under reinitialization, because the artificial diffusion is driven by the advection term without the source. -/
theorem C128_distance_fails : ∃ r, len (grad bar ![1, 2]) = 1 ∧ internalResidual (.reinit ![1, 2] : Mode 2 Unit) [bar] ![1, 2] = some r ∧ 0 < r.1 1 := by
  have hl : len (grad bar ![1, 2]) = 1 := by rw [bar_len]; norm_num
  have hg : grad bar ![1, 2] = fun _ => 1 := by rw [bar_grad]; funext k; norm_num
  have hu : ¬ ∃ q ∈ [bar], undefined (.reinit ![1, 2] : Mode 2 Unit) q ![1, 2] := by
    rintro ⟨q, hq, h, _⟩
    simp only [List.mem_singleton] at hq; subst hq
    rw [hg] at h; exact one_ne_zero (congrFun h 0)
  have hr : internalResidual (.reinit ![1, 2] : Mode 2 Unit) [bar] ![1, 2] 
      = some (fun i => ([bar].map fun q => res (.reinit ![1, 2] : Mode 2 Unit) q ![1, 2] i).sum, fun i j => ([bar].map fun q => jac (.reinit ![1, 2] : Mode 2 Unit) q ![1, 2] i j).sum) := if_neg hu
  refine ⟨_, hl, hr, ?_⟩
  have hd := (C128_distance_partial (n := 2) (d := 1) (X := Unit) (ref := ![1, 2]) (e := [bar]) (u := ![1, 2]) (fun q hq => by simp only [List.mem_singleton] at hq; subst hq; exact hl) hr).1 ![0, 1]
  simp only [Fin.sum_univ_two, Matrix.cons_val_zero, Matrix.cons_val_one, zero_mul, zero_add, one_mul] at hd
  show 0 < ([bar].map fun q => res (.reinit ![1, 2] : Mode 2 Unit) q ![1, 2] 1).sum
  rw [hd]
  have hg2 : gdot bar ![0, 1] ![1, 2] = 1 := by simp [gdot, bar_grad]; norm_num
  have hs : 0 < source (.reinit ![1, 2] : Mode 2 Unit) bar ![1, 2] := (C128_sign _ _ _).2.1 (by simp [val, bar, Fin.sum_univ_two]; norm_num)
  have hv : vel (.reinit ![1, 2] : Mode 2 Unit) bar ![1, 2] = fun _ => source (.reinit ![1, 2] : Mode 2 Unit) bar ![1, 2] := by
    funext k; simp only [vel]; rw [if_pos (by rw [hl]; unfold tol; norm_num), hl, hg]; ring
  have hdc : 0 < dc bar ![1, 2] (vel (.reinit ![1, 2] : Mode 2 Unit) bar ![1, 2]) := by
    unfold dc; rw [hv, hg]
    have := tol_pos
    simp only [Fin.sum_univ_one, mul_one]
    rw [abs_of_pos hs]; positivity
  simp only [List.map_cons, List.map_nil, List.sum_cons, List.sum_nil, add_zero, hg2, mul_one]
  exact mul_pos (by simp [bar]) hdc

/-- C128 fails for a level set that is flat at a quadrature point: residual and tangent of the propagation equation are NaN, whatever the normal velocity. -/
theorem C128_flat_fails (Vn : X → ℝ) {e : List (Qp n d X)} {q : Qp n d X} (hq : q ∈ e) (hu : Unity q) (c : ℝ) : internalResidual (.propagate Vn) e (fun _ => c) = none := by
  unfold internalResidual; rw [if_pos ⟨q, hq, grad_const hu c⟩]

/-! ### Tangent -/

theorem path_val (q : Qp n d X) (u v : Fin n → ℝ) (t : ℝ) : val q (fun i => u i + t * v i) = val q u + t * val q v := by
  simp only [val, mul_add, Finset.sum_add_distrib, Finset.mul_sum]
  exact congrArg _ (Finset.sum_congr rfl fun i _ => by ring)
theorem path_grad (q : Qp n d X) (u v : Fin n → ℝ) (t : ℝ) (k : Fin d) : grad q (fun i => u i + t * v i) k = grad q u k + t * grad q v k := by
  simp only [grad, mul_add, Finset.sum_add_distrib, Finset.mul_sum]
  exact congrArg _ (Finset.sum_congr rfl fun i _ => by ring)

theorem len_deriv {g : ℝ → Fin d → ℝ} {g' : Fin d → ℝ} (h : ∀ k, HasDerivAt (fun t => g t k) (g' k) 0) (h0 : g 0 ≠ 0) : HasDerivAt (fun t => len (g t)) ((∑ k, g 0 k * g' k) / len (g 0)) 0 := by
  have hs : HasDerivAt (fun t => ∑ k, g t k ^ 2) (∑ k, 2 * (g 0 k * g' k)) 0 := HasDerivAt.fun_sum fun k _ => by
    refine HasDerivAt.congr_deriv ((h k).fun_pow 2) ?_
    norm_num; ring
  have hne : (∑ k, g 0 k ^ 2) ≠ 0 := by rw [← len_sq]; exact (pow_pos (len_pos h0) 2).ne'
  refine HasDerivAt.congr_deriv (hs.sqrt hne) ?_
  rw [← Finset.mul_sum]
  show 2 * _ / (2 * len (g 0)) = _
  rw [mul_div_mul_left _ _ (two_ne_zero)]

theorem jac_row (m : Mode n X) (q : Qp n d X) (u w v : Fin n → ℝ) : ∑ i, ∑ j, w i * jac m q u i j * v j = q.JxW * ((val q w + tau q (vel m q u) * along q (vel m q u) w) * along q (vel m q u) v + dc q u (vel m q u) * gdot q w v) := by
  have h : ∀ i j, w i * jac m q u i j * v j = (w i * q.N i) * (q.JxW * ∑ k, vel m q u k * (q.dN k j * v j)) + q.JxW * dc q u (vel m q u) * ∑ k, (q.dN k i * w i) * (q.dN k j * v j)
      + q.JxW * tau q (vel m q u) * (w i * adv q (vel m q u) i) * (v j * adv q (vel m q u) j) := fun i j => by
    unfold jac; rw [Finset.sum_add_distrib]
    simp only [Finset.mul_sum, Finset.sum_mul, add_mul, mul_add]
    congr 1
    · congr 1
      · exact Finset.sum_congr rfl fun k _ => by ring
      · exact Finset.sum_congr rfl fun k _ => by ring
    · ring
  have ha : ∀ v : Fin n → ℝ, along q (vel m q u) v = ∑ j, ∑ k, vel m q u k * (q.dN k j * v j) := fun v => by
    rw [Finset.sum_comm]; simp only [along, grad, Finset.mul_sum]
  have hg : gdot q w v = ∑ i, ∑ j, ∑ k, (q.dN k i * w i) * (q.dN k j * v j) := by
    simp only [gdot, grad, Finset.sum_mul_sum]
    rw [Finset.sum_comm]
    refine Finset.sum_congr rfl fun i _ => ?_
    rw [Finset.sum_comm]
  have hs : ∑ i, ∑ j, w i * jac m q u i j * v j = (∑ i, w i * q.N i) * (q.JxW * ∑ j, ∑ k, vel m q u k * (q.dN k j * v j)) + q.JxW * dc q u (vel m q u) * (∑ i, ∑ j, ∑ k, (q.dN k i * w i) * (q.dN k j * v j))
      + q.JxW * tau q (vel m q u) * (∑ i, w i * adv q (vel m q u) i) * ∑ j, v j * adv q (vel m q u) j := by
    simp only [h, Finset.sum_add_distrib]
    congr 1
    · congr 1
      · rw [Finset.mul_sum, Finset.sum_mul_sum]
      · simp only [Finset.mul_sum]
    · rw [mul_assoc (q.JxW * tau q (vel m q u)), Finset.sum_mul_sum, Finset.mul_sum]
      refine Finset.sum_congr rfl fun i _ => ?_
      rw [Finset.mul_sum]
      exact Finset.sum_congr rfl fun j _ => by ring
  rw [hs, ← hg, ← ha, val_test, adv_test, adv_test]
  ring

/-- C128: the rows of the tangent add up to the derivative of the total of the residual; more generally the Galerkin part of the tangent is the derivative of the Galerkin part of the residual, since the direction of motion follows the gradient. -/
theorem C128_jacobian_partial (Vn : X → ℝ) {e : List (Qp n d X)} {u : Fin n → ℝ} {r} (h : internalResidual (.propagate Vn) e u = some r) (v : Fin n → ℝ) :
    (∀ w : Fin n → ℝ, HasDerivAt (fun t => (e.map fun q => q.JxW * (val q w * flux (.propagate Vn) q fun i => u i + t * v i)).sum)
      (e.map fun q => q.JxW * (val q w * along q (vel (.propagate Vn) q u) v)).sum 0) ∧
    (∀ w : Fin n → ℝ, ∑ i, ∑ j, w i * r.2 i j * v j = (e.map fun q => q.JxW * (val q w * along q (vel (.propagate Vn) q u) v)).sum
      + (e.map fun q => q.JxW * (tau q (vel (.propagate Vn) q u) * along q (vel (.propagate Vn) q u) w * along q (vel (.propagate Vn) q u) v + dc q u (vel (.propagate Vn) q u) * gdot q w v)).sum) ∧
    ((∀ q ∈ e, Unity q) → HasDerivAt (fun t => (e.map fun q => ∑ i, res (.propagate Vn) q (fun i => u i + t * v i) i).sum) (∑ i, ∑ j, r.2 i j * v j) 0) := by
  obtain ⟨hd, h1', h2⟩ := internalResidual_some h
  clear h1'
  have hgal : ∀ w : Fin n → ℝ, HasDerivAt (fun t => (e.map fun q => q.JxW * (val q w * flux (.propagate Vn) q fun i => u i + t * v i)).sum)
      (e.map fun q => q.JxW * (val q w * along q (vel (.propagate Vn) q u) v)).sum 0 := by
    intro w
    have h0 : ∀ q ∈ e, grad q u ≠ 0 := hd
    clear hd h h2
    induction e with
    | nil => simpa using hasDerivAt_const (0 : ℝ) (0 : ℝ)
    | cons q e ih =>
      simp only [List.map_cons, List.sum_cons]
      refine HasDerivAt.fun_add ?_ (ih fun p hp => h0 p (List.mem_cons_of_mem q hp))
      have hq := h0 q List.mem_cons_self
      refine HasDerivAt.const_mul _ (HasDerivAt.const_mul _ ?_)
      have hp : ∀ k, HasDerivAt (fun t : ℝ => grad q (fun i => u i + t * v i) k) (grad q v k) 0 := fun k => by
        simp only [path_grad]
        simpa using ((hasDerivAt_id' (0 : ℝ)).mul_const (grad q v k)).const_add (grad q u k)
      have hz : grad q (fun i => u i + (0 : ℝ) * v i) = grad q u := by funext k; simp [path_grad]
      have hl := len_deriv hp (by rw [hz]; exact hq)
      have hev : (fun t => flux (.propagate Vn) q fun i => u i + t * v i) =ᶠ[nhds 0] fun t => -(Vn q.x) * len (grad q fun i => u i + t * v i) := by
        have hc : ContinuousAt (fun t : ℝ => len (grad q fun i => u i + t * v i)) 0 := hl.continuousAt
        have hpos : 0 < len (grad q fun i => u i + (0 : ℝ) * v i) := by rw [hz]; exact len_pos hq
        filter_upwards [hc.eventually (lt_mem_nhds hpos)] with t ht
        refine flux_prop Vn q _ fun h => ?_
        rw [h] at ht; simp [len] at ht
      refine HasDerivAt.congr_of_eventuallyEq ?_ hev
      refine HasDerivAt.congr_deriv (hl.const_mul _) ?_
      rw [hz]
      simp only [along, vel, Finset.sum_div, Finset.mul_sum]
      exact Finset.sum_congr rfl fun k _ => by ring
  have hsum : ∀ w : Fin n → ℝ, ∑ i, ∑ j, w i * r.2 i j * v j = (e.map fun q => q.JxW * (val q w * along q (vel (.propagate Vn) q u) v)).sum
      + (e.map fun q => q.JxW * (tau q (vel (.propagate Vn) q u) * along q (vel (.propagate Vn) q u) w * along q (vel (.propagate Vn) q u) v + dc q u (vel (.propagate Vn) q u) * gdot q w v)).sum := by
    intro w
    rw [h2]
    clear hd h h2 hgal
    induction e with
    | nil => simp
    | cons q e ih =>
      simp only [List.map_cons, List.sum_cons, mul_add, add_mul, Finset.sum_add_distrib] at ih ⊢
      rw [ih, jac_row]; ring
  refine ⟨hgal, hsum, fun hu => ?_⟩
  have h1 := hsum fun _ => 1
  simp only [one_mul] at h1
  have hfun : (fun t => (e.map fun q => ∑ i, res (.propagate Vn) q (fun i => u i + t * v i) i).sum) = fun t => (e.map fun q => q.JxW * (val q (fun _ => 1) * flux (.propagate Vn) q fun i => u i + t * v i)).sum := by
    funext t
    refine congrArg List.sum (List.map_congr_left fun q hq => ?_)
    have := res_test (.propagate Vn) q (fun i => u i + t * v i) fun _ => 1
    simp only [one_mul] at this
    rw [this]; simp [along, gdot, grad_const (hu q hq)]
  rw [hfun]
  refine HasDerivAt.congr_deriv (hgal fun _ => 1) ?_
  rw [h1]
  have hz : (e.map fun q => q.JxW * (tau q (vel (.propagate Vn) q u) * along q (vel (.propagate Vn) q u) (fun _ => 1) * along q (vel (.propagate Vn) q u) v + dc q u (vel (.propagate Vn) q u) * gdot q (fun _ => 1) v)).sum = 0 := by
    refine List.sum_eq_zero fun x hx => ?_
    obtain ⟨q, hq, rfl⟩ := List.mem_map.mp hx
    simp [along, gdot, grad_const (hu q hq)]
  rw [hz, add_zero]

/-- C128: the velocity residual is linear in the velocity with matrix `jac_xdot`; its total is the integral of the rate of change. -/
theorem C128_velocity {m : Mode n X} {e : List (Qp n d X)} {u w : Fin n → ℝ} {r} (h : velocityResidual m e u w = some r) :
    (∀ i, r.1 i = ∑ j, r.2 i j * w j) ∧ ((∀ q ∈ e, Unity q) → ∑ i, r.1 i = (e.map fun q => q.JxW * val q w).sum) ∧ ∀ w', (velocityResidual m e u w').map Prod.snd = some r.2 := by
  unfold velocityResidual at h
  split at h
  · simp at h
  · next hn =>
    simp only [Option.some.injEq] at h; subst h
    refine ⟨fun i => ?_, fun hu => ?_, fun w' => by unfold velocityResidual; rw [if_neg hn]; rfl⟩
    · clear hn
      induction e with
      | nil => simp
      | cons q e ih =>
        simp only [List.map_cons, List.sum_cons, add_mul, Finset.sum_add_distrib] at ih ⊢
        rw [ih]
        congr 1
        simp only [val, Finset.mul_sum]
        congr 1 <;> exact Finset.sum_congr rfl fun j _ => by ring
    · clear hn
      induction e with
      | nil => simp
      | cons q e ih =>
        simp only [List.map_cons, List.sum_cons, Finset.sum_add_distrib] at ih ⊢
        rw [ih fun p hp => hu p (List.mem_cons_of_mem q hp)]
        congr 1
        have hq := hu q List.mem_cons_self
        have h1 : ∑ i, adv q (vel m q u) i = 0 := by
          have := adv_test q (vel m q u) fun _ => 1
          simp only [one_mul] at this
          rw [this]; simp [along, grad_const hq]
        rw [← Finset.mul_sum, ← Finset.sum_mul, hq.one, one_mul, ← Finset.mul_sum, ← Finset.sum_mul, ← Finset.sum_mul, h1]; ring

theorem bar_vel {g : ℝ} (hg : 0 < g) : vel (.propagate fun _ => 1 : Mode 2 Unit) bar ![0, g] = fun _ => -1 := by
  funext k
  simp only [vel]
  rw [bar_len, bar_grad]
  simp only [Matrix.cons_val_one, Matrix.cons_val_zero, sub_zero, abs_of_pos hg]
  field_simp
theorem bar_res {g : ℝ} (hg : 0 < g) : res (.propagate fun _ => 1 : Mode 2 Unit) bar ![0, g] 1 = g ^ 2 / 2 / Real.sqrt (tol + 4 * g ^ 2) := by
  have ht : tau bar (fun _ => -1) = 1 / 2 := by
    have h1 : len (fun _ : Fin 1 => (-1 : ℝ)) = 1 := by simp [len]
    unfold tau; rw [h1, if_pos (by unfold tol; norm_num)]
    simp [bar, Fin.sum_univ_two]; norm_num
  unfold res flux dc
  rw [bar_vel hg, ht, bar_grad]
  simp only [adv, source, bar, Fin.sum_univ_one, Matrix.cons_val_one, Matrix.cons_val_zero, sub_zero]
  rw [show |(-1) * g| = g by rw [neg_one_mul, abs_neg, abs_of_pos hg], show (2 * g) ^ 2 = 4 * g ^ 2 by ring]
  ring
theorem bar_jac : jac (.propagate fun _ => 1 : Mode 2 Unit) bar ![0, 1] 1 1 = 1 / 2 / Real.sqrt (tol + 4) := by
  have ht : tau bar (fun _ => -1) = 1 / 2 := by
    have h1 : len (fun _ : Fin 1 => (-1 : ℝ)) = 1 := by simp [len]
    unfold tau; rw [h1, if_pos (by unfold tol; norm_num)]
    simp [bar, Fin.sum_univ_two]; norm_num
  unfold jac dc
  rw [bar_vel one_pos, ht, bar_grad]
  simp only [adv, bar, Fin.sum_univ_one, Matrix.cons_val_one, Matrix.cons_val_zero, sub_zero]
  norm_num

/-- C128 fails for the tangent: it is not the derivative of the stabilized residual, already on a line element where only the artificial diffusion depends on the state. -/
theorem C128_jacobian_fails : ¬ HasDerivAt (fun t => res (.propagate fun _ => 1 : Mode 2 Unit) bar ![0, 1 + t] 1) (jac (.propagate fun _ => 1 : Mode 2 Unit) bar ![0, 1] 1 1) 0 := by
  intro h
  have hS : 0 < Real.sqrt (tol + 4) := Real.sqrt_pos.mpr (by have := tol_pos; linarith)
  have hS2 : Real.sqrt (tol + 4) ^ 2 = tol + 4 := Real.sq_sqrt (by have := tol_pos; linarith)
  have hp : HasDerivAt (fun t : ℝ => 1 + t) 1 0 := (hasDerivAt_id' (0 : ℝ)).const_add 1
  have hp2 : HasDerivAt (fun t : ℝ => (1 + t) ^ 2) 2 0 := HasDerivAt.congr_deriv (hp.fun_pow 2) (by norm_num)
  have hs : HasDerivAt (fun t : ℝ => Real.sqrt (tol + 4 * (1 + t) ^ 2)) (8 / (2 * Real.sqrt (tol + 4))) 0 := by
    have := ((hp2.const_mul 4).const_add tol).sqrt (by have := tol_pos; norm_num; linarith)
    refine HasDerivAt.congr_deriv this ?_
    norm_num
  have hd : HasDerivAt (fun t : ℝ => (1 + t) ^ 2 / 2 / Real.sqrt (tol + 4 * (1 + t) ^ 2)) ((1 * Real.sqrt (tol + 4) - 1 / 2 * (8 / (2 * Real.sqrt (tol + 4)))) / Real.sqrt (tol + 4) ^ 2) 0 := by
    have := (hp2.div_const 2).fun_div hs (by norm_num; exact hS.ne')
    refine HasDerivAt.congr_deriv this ?_
    norm_num
  have hev : (fun t => res (.propagate fun _ => 1 : Mode 2 Unit) bar ![0, 1 + t] 1) =ᶠ[nhds 0] fun t : ℝ => (1 + t) ^ 2 / 2 / Real.sqrt (tol + 4 * (1 + t) ^ 2) := by
    filter_upwards [lt_mem_nhds (show (-1 : ℝ) < 0 by norm_num)] with t ht
    exact bar_res (by linarith)
  have := h.unique (hd.congr_of_eventuallyEq hev)
  rw [bar_jac] at this
  have ht := tol_pos
  field_simp at this
  nlinarith

/-- Non-vacuity: a moving front on a line element. -/
example : ∃ r, internalResidual (.propagate fun _ => 1 : Mode 2 Unit) [bar] ![-1, 1] = some r ∧ ∑ i, r.1 i = -2 := by
  have hu : ¬ ∃ q ∈ [bar], undefined (.propagate fun _ => 1 : Mode 2 Unit) q ![-1, 1] := by
    rintro ⟨q, hq, h⟩
    simp only [List.mem_singleton] at hq; subst hq
    have := congrFun (h : grad bar ![-1, 1] = 0) 0
    rw [bar_grad] at this; norm_num at this
  have hr : internalResidual (.propagate fun _ => 1 : Mode 2 Unit) [bar] ![-1, 1]
      = some (fun i => ([bar].map fun q => res (.propagate fun _ => 1 : Mode 2 Unit) q ![-1, 1] i).sum, fun i j => ([bar].map fun q => jac (.propagate fun _ => 1 : Mode 2 Unit) q ![-1, 1] i j).sum) := if_neg hu
  refine ⟨_, hr, ?_⟩
  rw [C128_conservation (fun q hq => by simp only [List.mem_singleton] at hq; subst hq; exact bar_unity) hr]
  simp only [List.map_cons, List.map_nil, List.sum_cons, List.sum_nil, bar_len]
  simp [bar]; norm_num
end Verif.LevelSetElem
