import Verif.Props.FluidSens
import Mathlib.Tactic.Linarith
import Mathlib.Tactic.Positivity
/-
  C103: entropy variables.
-/
namespace Verif.Fluid

section Spec

/-- Entropy variables of Hughes, Franca and Mallet: `V = (1/ρι) (-ρE + ρι (γ + 1 - s), ρu, -ρ)` with `ι = c_v T`, `s = ln (p / ρ^γ)`. -/
noncomputable def entropyVar (d : Nat) (cp cv : ℝ) (W : Var → ℝ) : Var → ℝ := fun v =>
  let s := prim d W cp cv false
  match v with
  | .rho => -s.e / (cv * s.T) + cp / cv + 1 - Real.log (s.p / s.rho ^ (cp / cv))
  | .m1 => s.u1 / (cv * s.T)
  | .m2 => s.u2 / (cv * s.T)
  | .m3 => s.u3 / (cv * s.T)
  | .en => -1 / (cv * s.T)

end Spec

set_option maxHeartbeats 8000000 in
/-- C103: the two entropy-variable Jacobians are inverse to each other. -/
theorem C103_inverse (d : Nat) (hd : d = 1 ∨ d = 2 ∨ d = 3) (U : Var → ℝ) (cp cv : ℝ) (hr : U .rho ≠ 0) (hv : 0 < cv) (hc : cv < cp) (hT : (prim d U cp cv false).T ≠ 0) (v w : Var) :
    ∑ q, dUdV d (gasInit cp cv) (prim d U cp cv false) v q * dVdU d (gasInit cp cv) (prim d U cp cv false) q w = if v = w ∧ act d v = true then 1 else 0 := by
  rw [prim_eq_primState d cp cv hv.ne' U]
  have hr' : primVec (prim d U cp cv false) .rho ≠ 0 := hr
  have hT' : primVec (prim d U cp cv false) .en ≠ 0 := hT
  generalize primVec (prim d U cp cv false) = q at *
  have hg : cp - cv ≠ 0 := by linarith
  have hv' := hv.ne'
  rw [sumVar]
  have hgm : (cp / cv - 1) = (cp - cv) / cv := by field_simp
  rcases hd with rfl | rfl | rfl <;> cases v <;> cases w <;>
    simp only [dUdV, dVdU, primState, gasInit, at', Nat.reduceLeDiff, reduceCtorEq, if_true, if_false, act, decide_true, decide_false, Bool.false_eq_true, and_true, and_false, false_and, hgm] <;>
    first | ring1 | (field_simp; first | done | ring1)

set_option maxHeartbeats 2000000 in
/-- C103: the Jacobians are symmetric. -/
theorem C103_symmetric (d : Nat) (g : Gas) (s : Prim) (v w : Var) : dUdV d g s v w = dUdV d g s w v ∧ dVdU d g s v w = dVdU d g s w v := by
  cases v <;> cases w <;> exact ⟨rfl, rfl⟩

/-- C103: `dVdU` is positive definite on the variables of the dimension, at every state with positive density and temperature. -/
theorem C103_positive_definite (d : Nat) (hd : d = 1 ∨ d = 2 ∨ d = 3) (U : Var → ℝ) (cp cv : ℝ) (hr : 0 < U .rho) (hv : 0 < cv) (hc : cv < cp) (hT : 0 < (prim d U cp cv false).T)
    (x : Var → ℝ) (hx : ∃ v, act d v = true ∧ x v ≠ 0) :
    0 < ∑ v, ∑ w, x v * (dVdU d (gasInit cp cv) (prim d U cp cv false) v w * x w) := by
  rw [prim_eq_primState d cp cv hv.ne' U]
  have hr' : 0 < primVec (prim d U cp cv false) .rho := hr
  have hT' : 0 < primVec (prim d U cp cv false) .en := hT
  generalize primVec (prim d U cp cv false) = q at *
  set io := cv * q .en with hio
  have hi : 0 < io := mul_pos hv hT'
  set u2 := if 2 ≤ d then q .m2 else 0 with hu2
  set u3 := if 3 ≤ d then q .m3 else 0 with hu3
  set x2 := if 2 ≤ d then x .m2 else 0 with hx2
  set x3 := if 3 ≤ d then x .m3 else 0 with hx3
  set k := (q .m1 ^ 2 + u2 ^ 2 + u3 ^ 2) / 2 with hk
  have hgg : 1 < cp / cv := by rw [lt_div_iff₀ hv]; linarith
  have key : ∑ v, ∑ w, x v * (dVdU d (gasInit cp cv) (primState d cp cv q) v w * x w) = 1 / (q .rho * io ^ 2) *
      ((x .en + k * x .rho - (q .m1 * x .m1 + u2 * x2 + u3 * x3) - io * x .rho) ^ 2 + io ^ 2 * (cp / cv - 1) * x .rho ^ 2 +
        io * ((x .m1 - x .rho * q .m1) ^ 2 + (x2 - x .rho * u2) ^ 2 + (x3 - x .rho * u3) ^ 2)) := by
    have hr0 := hr'.ne'
    have hv0 := hv.ne'
    have hT0 := hT'.ne'
    simp only [sumVar]
    rcases hd with rfl | rfl | rfl <;> simp only [hk, hx2, hx3, hu2, hu3, hio, dVdU, primState, gasInit, at', Nat.reduceLeDiff, if_true, if_false] <;> field_simp <;> ring
  rw [key]
  have hpos : 0 < 1 / (q .rho * io ^ 2) := by positivity
  refine mul_pos hpos ?_
  by_contra hneg
  have a1 : 0 ≤ (x .en + k * x .rho - (q .m1 * x .m1 + u2 * x2 + u3 * x3) - io * x .rho) ^ 2 := sq_nonneg _
  have hg1 : 0 < io ^ 2 * (cp / cv - 1) := mul_pos (by positivity) (by linarith)
  have a2 : 0 ≤ io ^ 2 * (cp / cv - 1) * x .rho ^ 2 := mul_nonneg hg1.le (sq_nonneg _)
  have a3 : 0 ≤ io * (x .m1 - x .rho * q .m1) ^ 2 := mul_nonneg hi.le (sq_nonneg _)
  have a4 : 0 ≤ io * (x2 - x .rho * u2) ^ 2 := mul_nonneg hi.le (sq_nonneg _)
  have a5 : 0 ≤ io * (x3 - x .rho * u3) ^ 2 := mul_nonneg hi.le (sq_nonneg _)
  have e2 : io ^ 2 * (cp / cv - 1) * x .rho ^ 2 = 0 := by linarith
  have x0 : x .rho = 0 := by
    rcases mul_eq_zero.1 e2 with h | h
    · exact absurd h hg1.ne'
    · exact pow_eq_zero_iff (two_ne_zero) |>.1 h
  have sq0 : ∀ y : ℝ, io * y ^ 2 = 0 → y = 0 := by
    intro y hy
    rcases mul_eq_zero.1 hy with h | h
    · exact absurd h hi.ne'
    · exact pow_eq_zero_iff (two_ne_zero) |>.1 h
  have e3 := sq0 _ (le_antisymm (by linarith) a3)
  have e4 := sq0 _ (le_antisymm (by linarith) a4)
  have e5 := sq0 _ (le_antisymm (by linarith) a5)
  have e1 : x .en + k * x .rho - (q .m1 * x .m1 + u2 * x2 + u3 * x3) - io * x .rho = 0 := pow_eq_zero_iff (two_ne_zero) |>.1 (le_antisymm (by linarith) a1)
  rw [x0] at e1 e3 e4 e5
  have y1 : x .m1 = 0 := by linarith
  have y2 : x2 = 0 := by linarith
  have y3 : x3 = 0 := by linarith
  rw [y1, y2, y3] at e1
  have y4 : x .en = 0 := by linarith
  obtain ⟨v, hv1, hv2⟩ := hx
  cases v
  · exact hv2 x0
  · exact hv2 y1
  · have : 2 ≤ d := by simpa [act] using hv1
    rw [hx2, if_pos this] at y2; exact hv2 y2
  · have : 3 ≤ d := by simpa [act] using hv1
    rw [hx3, if_pos this] at y3; exact hv2 y3
  · exact hv2 y4

set_option maxHeartbeats 4000000 in
/-- C103: `dVdU` is the derivative of the entropy variables with respect to the conservative variables. -/
theorem C103_derivative (d : Nat) (hd : d = 1 ∨ d = 2 ∨ d = 3) (U D : Var → ℝ) (cp cv : ℝ) (hr : 0 < U .rho) (hv : 0 < cv) (hc : cv < cp) (hT : 0 < (prim d U cp cv false).T) (v : Var) :
    DerivAlong (fun W => entropyVar d cp cv W v) U D (∑ w, dVdU d (gasInit cp cv) (prim d U cp cv false) v w * D w) := by
  have h1 := d_u1 d U D cp cv false hr.ne'
  have h2 := d_u2 d U D cp cv false hr.ne'
  have h3 := d_u3 d U D cp cv false hr.ne'
  have he := d_e d U D cp cv false hr.ne'
  have hs := d_entropy d U D cp cv false hr hc hT
  have hdT := (d_T d U D cp cv false hr.ne').const_mul cv
  have hsim : (dprim d (prim d U cp cv false) D false).dentropy =
      (dprim d (prim d U cp cv false) D false).dp / (prim d U cp cv false).p - cp / cv * (dprim d (prim d U cp cv false) D false).drho / (prim d U cp cv false).rho := by
    have hq : 0 < (prim d U cp cv false).rho ^ (cp / cv) := Real.rpow_pos_of_pos hr _
    have hp : 0 < (prim d U cp cv false).p := mul_pos (mul_pos (by linarith) hT) hr
    have : (dprim d (prim d U cp cv false) D false).dentropy = ((dprim d (prim d U cp cv false) D false).dp / (prim d U cp cv false).rho ^ (cp / cv) -
      cp / cv * (prim d U cp cv false).p / (prim d U cp cv false).rho ^ (cp / cv + 1) * (dprim d (prim d U cp cv false) D false).drho) /
      ((prim d U cp cv false).p / (prim d U cp cv false).rho ^ (cp / cv)) := rfl
    rw [this]
    have hr' : 0 < (prim d U cp cv false).rho := hr
    have e1 : (prim d U cp cv false).rho ^ (cp / cv + 1) = (prim d U cp cv false).rho ^ (cp / cv) * (prim d U cp cv false).rho := by rw [Real.rpow_add hr', Real.rpow_one]
    rw [e1]
    generalize (prim d U cp cv false).rho = r at *
    generalize (dprim d (prim d U cp cv false) D false).drho = dr
    generalize (dprim d (prim d U cp cv false) D false).dp = dp
    generalize (prim d U cp cv false).p = p at *
    generalize cp / cv = g at *
    field_simp
  rw [hsim] at hs
  have hT0 : (fun t : ℝ => cv * (prim d (fun r => U r + t * D r) cp cv false).T) 0 ≠ 0 := by
    simp only [zero_mul, add_zero]; exact (mul_pos hv hT).ne'
  unfold DerivAlong at *
  have hr0 := hr.ne'
  have hv0 := hv.ne'
  have hc0 : cp - cv ≠ 0 := by linarith
  have hT1 : (prim d U cp cv false).T ≠ 0 := hT.ne'
  -- all perturbations in terms of the primitive variables
  set s := prim d U cp cv false with hsdef
  have hss : s = primState d cp cv (primVec s) := prim_eq_primState d cp cv hv0 U
  have key : ∀ dd : ℝ, dd = (∑ w, dVdU d (gasInit cp cv) s v w * D w) → HasDerivAt (fun t : ℝ => entropyVar d cp cv (fun r => U r + t * D r) v) dd 0 →
      HasDerivAt (fun t : ℝ => entropyVar d cp cv (fun r => U r + t * D r) v) (∑ w, dVdU d (gasInit cp cv) s v w * D w) 0 := by
    intro dd hdd h; rwa [hdd] at h
  have hρ : (primVec s) .rho ≠ 0 := hr0
  have hτ : (primVec s) .en ≠ 0 := hT1
  cases v
  · refine key _ ?_ ((((he.neg.div hdT hT0).add_const (cp / cv)).add_const 1).sub hs)
    simp only [Pi.neg_apply, zero_mul, add_zero, ← hsdef]
    rw [hss]
    generalize primVec s = q at *
    rcases hd with rfl | rfl | rfl <;> rw [sumVar] <;> simp [dVdU, gasInit, primState, dprim, at'] <;> field_simp <;> ring
  · refine key _ ?_ (h1.div hdT hT0)
    simp only [zero_mul, add_zero, ← hsdef]
    rw [hss]
    generalize primVec s = q at *
    rcases hd with rfl | rfl | rfl <;> rw [sumVar] <;> simp [dVdU, gasInit, primState, dprim, at'] <;> field_simp <;> ring
  · refine key _ ?_ (h2.div hdT hT0)
    simp only [zero_mul, add_zero, ← hsdef]
    rw [hss]
    generalize primVec s = q at *
    rcases hd with rfl | rfl | rfl <;> rw [sumVar] <;> simp [dVdU, gasInit, primState, dprim, at'] <;> field_simp <;> ring
  · refine key _ ?_ (h3.div hdT hT0)
    simp only [zero_mul, add_zero, ← hsdef]
    rw [hss]
    generalize primVec s = q at *
    rcases hd with rfl | rfl | rfl <;> rw [sumVar] <;> simp [dVdU, gasInit, primState, dprim, at'] <;> field_simp <;> ring
  · refine key _ ?_ ((hasDerivAt_const (0:ℝ) (-1:ℝ)).div hdT hT0)
    simp only [zero_mul, add_zero, ← hsdef]
    rw [hss]
    generalize primVec s = q at *
    rcases hd with rfl | rfl | rfl <;> rw [sumVar] <;> simp [dVdU, gasInit, primState, dprim, at'] <;> field_simp <;> ring

/-- Non-vacuity of C103: a state of air. -/
example : 0 < consOf 3 718 1 10 20 30 300 .rho ∧ 0 < (prim 3 (consOf 3 718 1 10 20 30 300) 1005 718 false).T := by
  refine ⟨by norm_num [consOf], by norm_num [consOf, prim, at']⟩

end Verif.Fluid
