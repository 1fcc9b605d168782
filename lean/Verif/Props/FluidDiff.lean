import Verif.Model.FluidDiff
import Verif.Props.FluidSens
import Mathlib.Tactic.Linarith
import Mathlib.Tactic.IntervalCases
/-
  C104: viscous stress, diffusion flux and diffusivity matrices.
-/
namespace Verif.Fluid

section Spec

/-- Newtonian stress `μ (∂_i u_j + ∂_j u_i) + λ δ_ij div u` for velocity gradients `P i (mvar j) = ∂_i u_j`. -/
noncomputable def newton (d : Nat) (mu lambda : ℝ) (P : Nat → Var → ℝ) (i j : Nat) : ℝ :=
  mu * (P i (mvar j) + P j (mvar i)) + (if i = j then lambda * ∑ k ∈ Finset.range d, P k (mvar k) else 0)

/-- Heat-conducting viscous flux in direction `i`: `(0, τ_i, u · τ_i + κ ∂_i T)`. -/
noncomputable def viscousFlux (d i : Nat) (s : Prim) (P : Nat → Var → ℝ) : Var → ℝ
  | .rho => 0
  | .m1 => newton d s.mu s.lambda P i 0
  | .m2 => if 2 ≤ d then newton d s.mu s.lambda P i 1 else 0
  | .m3 => if 3 ≤ d then newton d s.mu s.lambda P i 2 else 0
  | .en => s.u1 * newton d s.mu s.lambda P i 0 + (if 2 ≤ d then s.u2 * newton d s.mu s.lambda P i 1 else 0) + (if 3 ≤ d then s.u3 * newton d s.mu s.lambda P i 2 else 0) +
      s.kth * P i .en

end Spec

/-- C104: the stress tensor computed by the element is the Newtonian stress; in particular it is symmetric. -/
theorem C104_stress (d : Nat) (hd : d = 1 ∨ d = 2 ∨ d = 3) (mu lambda : ℝ) (P : Nat → Var → ℝ) (i j : Nat) (hi : i < d) (hj : j < d) :
    stress d mu lambda P i j = newton d mu lambda P i j ∧ stress d mu lambda P i j = stress d mu lambda P j i := by
  rcases hd with rfl | rfl | rfl <;> interval_cases i <;> interval_cases j <;>
    simp [stress, newton, addAt, mvar, List.range_succ, Finset.sum_range_succ] <;> (try constructor) <;> ring

/-- C104: the diffusion flux is `(0, τ_i, u · τ_i + κ ∂_i T)`. -/
theorem C104_flux (d : Nat) (hd : d = 1 ∨ d = 2 ∨ d = 3) (i : Nat) (hi : i < d) (s : Prim) (P : Nat → Var → ℝ) (v : Var) :
    diffFlux d i s (stress d s.mu s.lambda P) (tempGrad d P) v = viscousFlux d i s P v := by
  have h := fun j hj => (C104_stress d hd s.mu s.lambda P i j hi hj).1
  rcases hd with rfl | rfl | rfl <;> interval_cases i <;> cases v <;>
    simp [diffFlux, viscousFlux, at', h, List.range_succ, uvec, tempGrad]

/-- C104: the diffusivity matrices for the primitive variables reproduce the diffusion flux: `F_i = ∑_j K_ij ∂_j q`, for every velocity and temperature gradient. -/
theorem C104_primitive (d : Nat) (hd : d = 1 ∨ d = 2 ∨ d = 3) (i : Nat) (hi : i < d) (s : Prim) (P : Nat → Var → ℝ) (v : Var) :
    ∑ j ∈ Finset.range d, ∑ w, kPrim d i j s v w * P j w = viscousFlux d i s P v := by
  rcases hd with rfl | rfl | rfl <;> interval_cases i <;> cases v <;> simp only [Finset.sum_range_succ, Finset.sum_range_zero, sumVar] <;>
    simp [kPrim, viscousFlux, newton, at', mvar, Finset.sum_range_succ] <;> ring

set_option maxHeartbeats 8000000 in
/-- C104: the diffusivity matrices for the conservative variables are those for the primitive variables times the variable Jacobian. -/
theorem C104_chain (d : Nat) (hd : d = 1 ∨ d = 2 ∨ d = 3) (i j : Nat) (hi : i < d) (hj : j < d) (cp cv : ℝ) (hv : cv ≠ 0) (U : Var → ℝ) (hr : U .rho ≠ 0) (visc : Bool) (v w : Var) :
    kCons d i j (gasInit cp cv) (prim d U cp cv visc) v w = ∑ q, kPrim d i j (prim d U cp cv visc) v q * dprimDcons d (gasInit cp cv) (prim d U cp cv visc) q w := by
  have hk : 2 * (prim d U cp cv visc).k = (prim d U cp cv visc).u1 ^ 2 + (prim d U cp cv visc).u2 ^ 2 + (prim d U cp cv visc).u3 ^ 2 := by simp only [prim]; ring
  have hr' : (prim d U cp cv visc).rho ≠ 0 := hr
  have hk' : (prim d U cp cv visc).k = ((prim d U cp cv visc).u1 ^ 2 + (prim d U cp cv visc).u2 ^ 2 + (prim d U cp cv visc).u3 ^ 2) / 2 := by linarith
  have hu2 : d < 2 → (prim d U cp cv visc).u2 = 0 := by intro h; simp [prim, at', show ¬ 2 ≤ d by omega]
  have hu3 : d < 3 → (prim d U cp cv visc).u3 = 0 := by intro h; simp [prim, at', show ¬ 3 ≤ d by omega]
  generalize prim d U cp cv visc = s at *
  rw [sumVar]
  rcases hd with rfl | rfl | rfl <;> interval_cases i <;> interval_cases j <;> cases v <;> cases w <;>
    simp only [kCons, kPrim, dprimDcons, gasInit, at', Nat.reduceLeDiff, if_true, if_false, mul_zero, zero_mul, add_zero, zero_add, hk'] <;>
    first | done | ring1 | (field_simp; first | done | ring1 | (norm_num [hu2, hu3]; ring1) | (norm_num [hu2, hu3]))

/-- C104: so the diffusion flux is `∑_j K_ij ∂_j U` for every gradient of the conservative variables. -/
theorem C104_conservative (d : Nat) (hd : d = 1 ∨ d = 2 ∨ d = 3) (i : Nat) (hi : i < d) (cp cv : ℝ) (hv : cv ≠ 0) (U : Var → ℝ) (hr : U .rho ≠ 0) (visc : Bool) (G : Nat → Var → ℝ) (v : Var) :
    let s := prim d U cp cv visc
    let P := gradPrim d (gasInit cp cv) s G
    ∑ j ∈ Finset.range d, ∑ w, kCons d i j (gasInit cp cv) s v w * G j w = diffFlux d i s (stress d s.mu s.lambda P) (tempGrad d P) v := by
  intro s P
  rw [C104_flux d hd i hi s P v, ← C104_primitive d hd i hi s P v]
  refine Finset.sum_congr rfl fun j hj => ?_
  calc ∑ w, kCons d i j (gasInit cp cv) s v w * G j w
      = ∑ w, ∑ q, kPrim d i j s v q * (dprimDcons d (gasInit cp cv) s q w * G j w) := by
        refine Finset.sum_congr rfl fun w _ => ?_
        rw [C104_chain d hd i j hi (Finset.mem_range.1 hj) cp cv hv U hr visc v w, Finset.sum_mul]
        exact Finset.sum_congr rfl fun q _ => by ring
    _ = ∑ q, kPrim d i j s v q * P j q := by
        rw [Finset.sum_comm]
        refine Finset.sum_congr rfl fun q _ => ?_
        rw [← Finset.mul_sum]; rfl

/-- The line `U + t D`. -/
def lineAt (U D : Var → ℝ) (t : ℝ) : Var → ℝ := fun v => U v + t * D v

/-- C104 (violated): the sensitivity of the stress tensor is not the derivative of the stress tensor: it leaves out the change of `dprim_dcons`.  In one dimension, at the state with unit
density and velocity and unit gradient of the density, for a disturbance of the density only, the derivative of the velocity gradient is `2` and the element uses `-1 · 0 = 0` for the
second factor. -/
theorem C104_tensor_sensitivity_fails :
    ∃ (U D : Var → ℝ) (G DG : Nat → Var → ℝ) (cp cv : ℝ), 0 < U .rho ∧ 0 < cv ∧ cv < cp ∧ 0 < (prim 1 U cp cv true).T ∧
      ¬ HasDerivAt (fun t : ℝ => gradPrim 1 (gasInit cp cv) (prim 1 (lineAt U D t) cp cv true) (fun i v => G i v + t * DG i v) 0 .m1)
        (gradPrim 1 (gasInit cp cv) (prim 1 U cp cv true) DG 0 .m1) 0 := by
  refine ⟨fun v => match v with | .rho => 1 | .m1 => 1 | .en => 2 | _ => 0, fun v => match v with | .rho => 1 | _ => 0,
    fun _ v => match v with | .rho => 1 | _ => 0, fun _ _ => 0, 7, 5, by norm_num, by norm_num, by norm_num, by norm_num [prim, at'], ?_⟩
  intro h
  have hf : (fun t : ℝ => gradPrim 1 (gasInit 7 5) (prim 1 (lineAt (fun v => match v with | .rho => 1 | .m1 => 1 | .en => 2 | _ => 0) (fun v => match v with | .rho => 1 | _ => 0) t) 7 5 true)
      (fun i v => (match v with | .rho => (1:ℝ) | _ => 0) + t * 0) 0 .m1) = fun t : ℝ => -(1 / (1 + t)) / (1 + t) := by
    funext t
    simp only [gradPrim, sumVar]
    simp [dprimDcons, prim, lineAt, at']
  have h' : HasDerivAt (fun t : ℝ => -(1 / (1 + t)) / (1 + t)) 0 0 := by
    rw [← hf]
    refine HasDerivAt.congr_deriv h ?_
    simp [gradPrim]
  have hl : HasDerivAt (fun t : ℝ => 1 + t) 1 0 := (hasDerivAt_id (0:ℝ)).const_add 1
  have h1 := (((hasDerivAt_const (0:ℝ) (1:ℝ)).div hl (by norm_num)).neg).div hl (by norm_num)
  have := h1.unique h'
  norm_num at this

/-- C104 (partial): where the gradient of the conservative variables vanishes the sensitivities of the tensors are exact; in general they are the derivative at a frozen variable
Jacobian: the stress computed from `P + t PS` with `μ + t dμ`, `λ + t dλ`.  Missing: the derivative of `dprim_dcons` itself. -/
theorem C104_tensor_sensitivity_partial (d : Nat) (hd : d = 1 ∨ d = 2 ∨ d = 3) (mu lambda dmu dlambda : ℝ) (P PS : Nat → Var → ℝ) (i j : Nat) (hi : i < d) (hj : j < d) :
    HasDerivAt (fun t : ℝ => stress d (mu + t * dmu) (lambda + t * dlambda) (fun i v => P i v + t * PS i v) i j) (stressSens d mu lambda dmu dlambda P PS i j) 0 := by
  apply cubic_deriv
  intro x
  rcases hd with rfl | rfl | rfl <;> interval_cases i <;> interval_cases j <;>
    simp [stress, stressSens, addAt, mvar, List.range_succ] <;> ring

/-- Non-vacuity of C104: a nonzero stress. -/
example : stress 2 1 (-2 / 3) (fun i v => if i = 0 ∧ v = .m1 then 3 else 0) 0 0 = 4 := by
  rw [(C104_stress 2 (Or.inr (Or.inl rfl)) 1 (-2 / 3) _ 0 0 (by norm_num) (by norm_num)).1]
  simp [newton, mvar, Finset.sum_range_succ]; norm_num

end Verif.Fluid
