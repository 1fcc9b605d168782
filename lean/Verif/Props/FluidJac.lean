import Verif.Props.FluidPrim
import Mathlib.Data.Fintype.BigOperators
import Mathlib.Algebra.BigOperators.Ring.Finset
/-
  C99: conservative/primitive variable Jacobians.  C100: advection flux and pressure Jacobians, moving wall.
-/
namespace Verif.Fluid

section Spec

/-- Primitive variables `(ρ, u, T)` of a state. -/
def primVec (s : Prim) : Var → ℝ
  | .rho => s.rho
  | .m1 => s.u1
  | .m2 => s.u2
  | .m3 => s.u3
  | .en => s.T

/-- Unit vector of direction `i`, as momentum variable. -/
def mom : Fin 3 → Var
  | 0 => .m1
  | 1 => .m2
  | 2 => .m3

/-- Velocity component. -/
def velo (s : Prim) : Fin 3 → ℝ
  | 0 => s.u1
  | 1 => s.u2
  | 2 => s.u3

/-- Euler flux in direction `i`: `u_i U + p (0, e_i, u_i)`. -/
noncomputable def eulerFlux (d : Nat) (cp cv : ℝ) (i : Fin 3) (W : Var → ℝ) (v : Var) : ℝ :=
  let s := prim d W cp cv false
  velo s i * W v + (if v = mom i then s.p else 0) + (if v = .en then s.p * velo s i else 0)

/-- Flux through a wall with normal `n` and normal perturbation `dn`, moving with normal velocity `wn`, whose fluid normal velocity is `wn - u · dn`:
`(wn - u · dn) (U + p e_en) + p n`. -/
noncomputable def wallFlux (d : Nat) (cp cv wn : ℝ) (n dn : Fin 3 → ℝ) (W : Var → ℝ) (v : Var) : ℝ :=
  let s := prim d W cp cv false
  (wn - (s.u1 * dn 0 + s.u2 * dn 1 + s.u3 * dn 2)) * (W v + if v = .en then s.p else 0) +
    (match v with | .m1 => s.p * n 0 | .m2 => if 2 ≤ d then s.p * n 1 else 0 | .m3 => if 3 ≤ d then s.p * n 2 else 0 | _ => 0)

end Spec

theorem sumVar (f : Var → ℝ) : ∑ v, f v = f .rho + f .m1 + f .m2 + f .m3 + f .en := by
  rw [show (Finset.univ : Finset Var) = {.rho, .m1, .m2, .m3, .en} from rfl]
  simp; ring

set_option maxHeartbeats 2000000 in
/-- C99: the two variable Jacobians are inverse to each other on the variables of a `d` dimensional problem (and vanish elsewhere). -/
theorem C99_inverse (d : Nat) (hd : d = 1 ∨ d = 2 ∨ d = 3) (U : Var → ℝ) (cp cv : ℝ) (visc : Bool) (hr : U .rho ≠ 0) (hv : cv ≠ 0) (v w : Var) :
    (∑ q, dconsDprim d (gasInit cp cv) (prim d U cp cv visc) v q * dprimDcons d (gasInit cp cv) (prim d U cp cv visc) q w = if v = w ∧ act d v then 1 else 0) ∧
    (∑ q, dprimDcons d (gasInit cp cv) (prim d U cp cv visc) v q * dconsDprim d (gasInit cp cv) (prim d U cp cv visc) q w = if v = w ∧ act d v then 1 else 0) := by
  rcases hd with rfl | rfl | rfl <;> cases v <;> cases w <;>
    (constructor <;> rw [sumVar] <;> simp [dconsDprim, dprimDcons, gasInit, prim, at', act] <;> field_simp <;> ring)

/-- C99: `dprim_dcons` is the derivative of the primitive variables with respect to the conservative ones. -/
theorem C99_derivative (d : Nat) (hd : d = 1 ∨ d = 2 ∨ d = 3) (U D : Var → ℝ) (cp cv : ℝ) (visc : Bool) (hr : U .rho ≠ 0) (hv : cv ≠ 0) (v : Var) :
    DerivAlong (fun W => primVec (prim d W cp cv visc) v) U D (∑ w, dprimDcons d (gasInit cp cv) (prim d U cp cv visc) v w * D w) := by
  have key : (∑ w, dprimDcons d (gasInit cp cv) (prim d U cp cv visc) v w * D w) =
      (match v with
      | .rho => (dprim d (prim d U cp cv visc) D visc).drho
      | .m1 => (dprim d (prim d U cp cv visc) D visc).du1
      | .m2 => (dprim d (prim d U cp cv visc) D visc).du2
      | .m3 => (dprim d (prim d U cp cv visc) D visc).du3
      | .en => (dprim d (prim d U cp cv visc) D visc).dT) := by
    rcases hd with rfl | rfl | rfl <;> cases v <;> rw [sumVar] <;> simp [dprimDcons, gasInit, prim, dprim, at'] <;> field_simp <;> ring
  rw [key]
  cases v
  · exact d_rho d U D cp cv visc
  · exact d_u1 d U D cp cv visc hr
  · exact d_u2 d U D cp cv visc hr
  · exact d_u3 d U D cp cv visc hr
  · exact d_T d U D cp cv visc hr

/-- C100: the advection flux is the Euler flux `u_i U + p (0, e_i, u_i)`, for every direction of the space and every state with the dimension's variables only. -/
theorem C100_flux (d : Nat) (hd : d = 1 ∨ d = 2 ∨ d = 3) (i : Fin 3) (hi : i.val < d) (U : Var → ℝ) (h0 : ∀ v, act d v = false → U v = 0) (cp cv : ℝ) (hr : U .rho ≠ 0) (v : Var) :
    flux d i (prim d U cp cv false) v = eulerFlux d cp cv i U v := by
  rcases hd with rfl | rfl | rfl <;> fin_cases i <;> simp at hi <;> cases v <;>
    simp [flux, eulerFlux, prim, at', velo, mom, h0, act] <;> field_simp <;> ring

section jac
variable (d : Nat) (U D : Var → ℝ) (cp cv : ℝ) (visc : Bool)

theorem d_at2 {f : (Var → ℝ) → ℝ} {f' : ℝ} (n : Nat) (h : DerivAlong f U D f') : DerivAlong (fun W => at' n d (f W)) U D (at' n d f') := d_at' d n h

/-- Derivative of the flux in terms of the perturbed primitive variables. -/
noncomputable def dflux (i : Fin 3) (s : Prim) (δ : DPrim) : Var → ℝ := fun v =>
  let u := velo s i
  let du := match i with | 0 => δ.du1 | 1 => δ.du2 | 2 => δ.du3
  match v with
  | .rho => δ.drho * u + s.rho * du
  | .m1 => (δ.drho * u + s.rho * du) * s.u1 + s.rho * u * δ.du1 + (if i = 0 then δ.dp else 0)
  | .m2 => at' 2 d ((δ.drho * u + s.rho * du) * s.u2 + s.rho * u * δ.du2 + (if i = 1 then δ.dp else 0))
  | .m3 => at' 3 d ((δ.drho * u + s.rho * du) * s.u3 + s.rho * u * δ.du3 + (if i = 2 then δ.dp else 0))
  | .en => du * (s.rho * s.e + s.p) + u * (δ.drho * s.e + s.rho * δ.de + δ.dp)

theorem d_flux (hr : U .rho ≠ 0) (i : Fin 3) (v : Var) :
    DerivAlong (fun W => flux d i (prim d W cp cv visc) v) U D (dflux d i (prim d U cp cv visc) (dprim d (prim d U cp cv visc) D visc) v) := by
  have h0 := d_rho d U D cp cv visc
  have h1 := d_u1 d U D cp cv visc hr
  have h2 := d_u2 d U D cp cv visc hr
  have h3 := d_u3 d U D cp cv visc hr
  have he := d_e d U D cp cv visc hr
  have hp := d_p d U D cp cv visc hr
  unfold DerivAlong at *
  fin_cases i <;> cases v
  · exact HasDerivAt.congr_deriv (h0.mul h1) (by simp [dflux, velo])
  · exact HasDerivAt.congr_deriv (((h0.mul h1).mul h1).add hp) (by simp [dflux, velo])
  · exact HasDerivAt.congr_deriv (d_at' d 2 ((h0.mul h1).mul h2)) (by simp [dflux, velo])
  · exact HasDerivAt.congr_deriv (d_at' d 3 ((h0.mul h1).mul h3)) (by simp [dflux, velo])
  · exact HasDerivAt.congr_deriv (h1.mul ((h0.mul he).add hp)) (by simp [dflux, velo])
  · exact HasDerivAt.congr_deriv (h0.mul h2) (by simp [dflux, velo])
  · exact HasDerivAt.congr_deriv ((h0.mul h2).mul h1) (by simp [dflux, velo])
  · exact HasDerivAt.congr_deriv (d_at' d 2 (((h0.mul h2).mul h2).add hp)) (by simp [dflux, velo])
  · exact HasDerivAt.congr_deriv (d_at' d 3 ((h0.mul h2).mul h3)) (by simp [dflux, velo])
  · exact HasDerivAt.congr_deriv (h2.mul ((h0.mul he).add hp)) (by simp [dflux, velo])
  · exact HasDerivAt.congr_deriv (h0.mul h3) (by simp [dflux, velo])
  · exact HasDerivAt.congr_deriv ((h0.mul h3).mul h1) (by simp [dflux, velo])
  · exact HasDerivAt.congr_deriv (d_at' d 2 ((h0.mul h3).mul h2)) (by simp [dflux, velo])
  · exact HasDerivAt.congr_deriv (d_at' d 3 (((h0.mul h3).mul h3).add hp)) (by simp [dflux, velo])
  · exact HasDerivAt.congr_deriv (h3.mul ((h0.mul he).add hp)) (by simp [dflux, velo])

end jac

set_option maxHeartbeats 4000000 in
/-- C100: the advection Jacobian is the derivative of the advection flux with respect to the conservative variables. -/
theorem C100_flux_jacobian (d : Nat) (hd : d = 1 ∨ d = 2 ∨ d = 3) (i : Fin 3) (hi : i.val < d) (U D : Var → ℝ) (cp cv : ℝ) (visc : Bool) (hr : U .rho ≠ 0) (hv : cv ≠ 0) (v : Var) :
    DerivAlong (fun W => flux d i (prim d W cp cv visc) v) U D (∑ w, fluxJac d i (gasInit cp cv) (prim d U cp cv visc) v w * D w) := by
  refine HasDerivAt.congr_deriv (d_flux d U D cp cv visc hr i v) ?_
  rcases hd with rfl | rfl | rfl <;> fin_cases i <;> simp at hi <;> cases v <;> rw [sumVar] <;>
    simp [fluxJac, dflux, velo, gasInit, prim, dprim, at'] <;> field_simp <;> ring

/-- C100: the pressure derivative is the derivative of the pressure. -/
theorem C100_pressure_derivative (d : Nat) (hd : d = 1 ∨ d = 2 ∨ d = 3) (U D : Var → ℝ) (cp cv : ℝ) (visc : Bool) (hr : U .rho ≠ 0) (hv : cv ≠ 0) :
    DerivAlong (fun W => (prim d W cp cv visc).p) U D (∑ w, dpdX d (gasInit cp cv) (prim d U cp cv visc) w * D w) := by
  refine HasDerivAt.congr_deriv (d_p d U D cp cv visc hr) ?_
  rcases hd with rfl | rfl | rfl <;> rw [sumVar] <;> simp [dpdX, gasInit, prim, dprim, at'] <;> field_simp <;> ring

set_option maxHeartbeats 4000000 in
/-- C100: at a moving wall the Jacobian handed the fluid's normal velocity is the derivative of the wall flux. -/
theorem C100_wall_jacobian (d : Nat) (hd : d = 1 ∨ d = 2 ∨ d = 3) (n dn : Fin 3 → ℝ) (wn : ℝ) (U D : Var → ℝ) (h0 : ∀ v, act d v = false → U v = 0)
    (hD : ∀ v, act d v = false → D v = 0) (cp cv : ℝ) (hr : U .rho ≠ 0) (hv : cv ≠ 0) (v : Var) :
    let s := prim d U cp cv false
    DerivAlong (fun W => wallFlux d cp cv wn n dn W v) U D
      (∑ w, wallJac d (gasInit cp cv) s (wn - (s.u1 * dn 0 + s.u2 * dn 1 + s.u3 * dn 2)) n dn v w * D w) := by
  intro s
  have h1 := d_u1 d U D cp cv false hr
  have h2 := d_u2 d U D cp cv false hr
  have h3 := d_u3 d U D cp cv false hr
  have hp := d_p d U D cp cv false hr
  unfold DerivAlong at *
  have hun := (((h1.mul_const (dn 0)).add (h2.mul_const (dn 1))).add (h3.mul_const (dn 2))).const_sub wn
  cases v
  · refine HasDerivAt.congr_deriv ((hun.mul ((line U D .rho).add_const 0)).add_const 0) ?_
    rcases hd with rfl | rfl | rfl <;> rw [sumVar] <;> simp [s, wallJac, wallJac0, wallTmp, wallDun, gasInit, prim, dprim, at'] <;> field_simp <;> ring
  · refine HasDerivAt.congr_deriv ((hun.mul ((line U D .m1).add_const 0)).add (hp.mul_const (n 0))) ?_
    rcases hd with rfl | rfl | rfl <;> rw [sumVar] <;> simp [s, wallJac, wallJac0, wallTmp, wallDun, gasInit, prim, dprim, at'] <;> field_simp <;> ring
  · refine HasDerivAt.congr_deriv ((hun.mul ((line U D .m2).add_const 0)).add (d_at' d 2 (hp.mul_const (n 1)))) ?_
    rcases hd with rfl | rfl | rfl <;> rw [sumVar] <;> simp [s, wallJac, wallJac0, wallTmp, wallDun, gasInit, prim, dprim, at', h0, hD, act] <;> field_simp <;> ring
  · refine HasDerivAt.congr_deriv ((hun.mul ((line U D .m3).add_const 0)).add (d_at' d 3 (hp.mul_const (n 2)))) ?_
    rcases hd with rfl | rfl | rfl <;> rw [sumVar] <;> simp [s, wallJac, wallJac0, wallTmp, wallDun, gasInit, prim, dprim, at', h0, hD, act] <;> field_simp <;> ring
  · refine HasDerivAt.congr_deriv ((hun.mul ((line U D .en).add hp)).add_const 0) ?_
    rcases hd with rfl | rfl | rfl <;> rw [sumVar] <;> simp [s, wallJac, wallJac0, wallTmp, wallDun, gasInit, prim, dprim, at'] <;> field_simp <;> ring

/-- Non-vacuity of C99 and C100: a state with all components nonzero. -/
example : consOf 3 718 1 10 20 30 300 .rho ≠ 0 ∧ consOf 3 718 1 10 20 30 300 .m3 ≠ 0 ∧ (∀ v, act 2 v = false → consOf 2 718 1 10 20 30 300 v = 0) := by
  refine ⟨by norm_num [consOf], by norm_num [consOf], ?_⟩
  intro v; cases v <;> simp [act, consOf]

end Verif.Fluid
