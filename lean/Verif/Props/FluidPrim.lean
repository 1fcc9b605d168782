import Verif.Model.Fluid
import Mathlib.Analysis.Calculus.Deriv.Inv
import Mathlib.Analysis.Calculus.Deriv.Add
import Mathlib.Analysis.Calculus.Deriv.Mul
import Mathlib.Analysis.SpecialFunctions.Sqrt
import Mathlib.Analysis.SpecialFunctions.Log.Deriv
import Mathlib.Analysis.SpecialFunctions.Pow.Deriv
import Mathlib.Tactic.LinearCombination
import Mathlib.Tactic.FieldSimp
import Mathlib.Tactic.NormNum
/-
  C98: primitive variables, their perturbations, and the free stream.
-/
namespace Verif.Fluid

section Spec

/-- Conservative state of a fluid with the given density, velocity and temperature in dimension `d`: `(ρ, ρ u, ρ (c_v T + |u|²/2))`. -/
noncomputable def consOf (d : Nat) (cv rho u1 u2 u3 T : ℝ) : Var → ℝ
  | .rho => rho
  | .m1 => rho * u1
  | .m2 => if 2 ≤ d then rho * u2 else 0
  | .m3 => if 3 ≤ d then rho * u3 else 0
  | .en => rho * (cv * T + (u1 ^ 2 + (if 2 ≤ d then u2 ^ 2 else 0) + (if 3 ≤ d then u3 ^ 2 else 0)) / 2)

/-- `f'` is the derivative of `f` along the line `U + t D` at `t = 0`. -/
def DerivAlong (f : (Var → ℝ) → ℝ) (U D : Var → ℝ) (f' : ℝ) : Prop := HasDerivAt (fun t : ℝ => f (fun v => U v + t * D v)) f' 0

end Spec

theorem at'_mul (n d : Nat) (x y : ℝ) : at' n d x * at' n d y = at' n d (x * y) := by unfold at'; split_ifs <;> simp

/-- C98: for every density other than zero the primitive solution recovers the density, velocity and temperature the conservative state was made from, with the ideal gas pressure,
the speed of sound, the Mach number, the entropy and Sutherland's law. -/
theorem C98_primitive (d : Nat) (cp cv rho u1 u2 u3 T : ℝ) (visc : Bool) (hr : rho ≠ 0) (hc : cv ≠ 0) :
    let s := prim d (consOf d cv rho u1 u2 u3 T) cp cv visc
    s.rho = rho ∧ s.u1 = u1 ∧ s.u2 = (if 2 ≤ d then u2 else 0) ∧ s.u3 = (if 3 ≤ d then u3 else 0) ∧ s.T = T ∧
      s.p = rho * (cp - cv) * T ∧ s.a = Real.sqrt (cp / cv * (cp - cv) * T) ∧ 2 * s.k = s.u1 ^ 2 + s.u2 ^ 2 + s.u3 ^ 2 ∧ s.e = cv * s.T + s.k ∧
      s.mach = Real.sqrt (s.u1 ^ 2 + s.u2 ^ 2 + s.u3 ^ 2) / s.a ∧ s.entropy = Real.log (s.p / rho ^ (cp / cv)) ∧
      (visc = true → s.mu = 1458 / 10 ^ 9 * T ^ (3 / 2 : ℝ) / (T + 1104 / 10)) ∧ (visc = false → s.mu = 0) ∧ s.lambda = -(2 / 3) * s.mu ∧ s.kth = s.mu * cp / (72 / 100) := by
  intro s
  have h2 : s.u2 = (if 2 ≤ d then u2 else 0) := by simp only [s, prim, consOf, at']; split_ifs <;> field_simp
  have h3 : s.u3 = (if 3 ≤ d then u3 else 0) := by simp only [s, prim, consOf, at']; split_ifs <;> field_simp
  have h1 : s.u1 = u1 := by simp only [s, prim, consOf]; field_simp
  have hk : 2 * s.k = s.u1 ^ 2 + s.u2 ^ 2 + s.u3 ^ 2 := by simp only [s, prim]; ring
  have he : s.e = cv * T + s.k := by
    have hk' : s.k = (u1 ^ 2 + (if 2 ≤ d then u2 ^ 2 else 0) + (if 3 ≤ d then u3 ^ 2 else 0)) / 2 := by
      rw [h1, h2, h3] at hk
      have : s.k = (u1 ^ 2 + (if 2 ≤ d then u2 else 0) ^ 2 + (if 3 ≤ d then u3 else 0) ^ 2) / 2 := by linarith
      rw [this]; split_ifs <;> simp
    rw [hk']
    simp only [s, prim, consOf]; field_simp
  have hT : s.T = T := by
    have : s.T = (s.e - s.k) / cv := rfl
    rw [this, he]; field_simp; ring
  have hTT : (prim d (consOf d cv rho u1 u2 u3 T) cp cv visc).T = T := hT
  refine ⟨rfl, h1, h2, h3, hT, ?_, ?_, hk, by rw [he, hT], ?_, rfl, ?_, ?_, ?_, rfl⟩
  · have : s.p = (cp - cv) * s.T * rho := rfl
    rw [this, hT]; ring
  · have : s.a = Real.sqrt (cp / cv * (cp - cv) * s.T) := rfl
    rw [this, hT]
  · have : s.mach = Real.sqrt (2 * s.k) / s.a := rfl
    rw [this, hk]
  · intro hv
    have : s.mu = if visc then viscosity s.T else 0 := rfl
    rw [this, if_pos hv, hT, viscosity]; norm_num
  · intro hv
    have : s.mu = if visc then viscosity s.T else 0 := rfl
    rw [this, hv]; simp
  · have : s.lambda = -2 / 3 * s.mu := rfl
    rw [this]; ring

/-- Non-vacuity of C98: air at rest plus a third component, in three dimensions. -/
example : (prim 3 (consOf 3 718 1 10 20 30 300) 1005 718 false).T = 300 ∧ (prim 3 (consOf 3 718 1 10 20 30 300) 1005 718 false).p = 1 * (1005 - 718) * 300 := by
  obtain ⟨-, -, -, -, h, h', -⟩ := C98_primitive 3 1005 718 1 10 20 30 300 false (by norm_num) (by norm_num)
  exact ⟨h, h'⟩

/-- A path of states through `U` in direction `D`. -/
theorem line (U D : Var → ℝ) (v : Var) : HasDerivAt (fun t : ℝ => U v + t * D v) (D v) 0 := by
  simpa using ((hasDerivAt_id (0:ℝ)).mul_const (D v)).const_add (U v)

section deriv
variable (d : Nat) (U D : Var → ℝ) (cp cv : ℝ) (visc : Bool)

theorem d_rho : DerivAlong (fun W => (prim d W cp cv visc).rho) U D (dprim d (prim d U cp cv visc) D visc).drho := line U D .rho

theorem d_div (hr : U .rho ≠ 0) (v : Var) : HasDerivAt (fun t : ℝ => (U v + t * D v) / (U .rho + t * D .rho)) ((D v - D .rho * (U v / U .rho)) / U .rho) 0 := by
  have h := (line U D v).div (line U D .rho) (by simpa using hr)
  refine HasDerivAt.congr_deriv h ?_
  simp only [zero_mul, add_zero]
  field_simp

theorem d_at' {f : ℝ → ℝ} {f' x : ℝ} (n : Nat) (h : HasDerivAt f f' x) : HasDerivAt (fun t => at' n d (f t)) (at' n d f') x := by
  unfold at'; split_ifs
  · exact h
  · exact hasDerivAt_const _ _

theorem d_u1 (hr : U .rho ≠ 0) : DerivAlong (fun W => (prim d W cp cv visc).u1) U D (dprim d (prim d U cp cv visc) D visc).du1 := d_div U D hr .m1

theorem d_u2 (hr : U .rho ≠ 0) : DerivAlong (fun W => (prim d W cp cv visc).u2) U D (dprim d (prim d U cp cv visc) D visc).du2 := by
  have h := d_at' d 2 (d_div U D hr .m2)
  refine HasDerivAt.congr_deriv h ?_
  simp only [dprim, prim, at']; split_ifs <;> rfl

theorem d_u3 (hr : U .rho ≠ 0) : DerivAlong (fun W => (prim d W cp cv visc).u3) U D (dprim d (prim d U cp cv visc) D visc).du3 := by
  have h := d_at' d 3 (d_div U D hr .m3)
  refine HasDerivAt.congr_deriv h ?_
  simp only [dprim, prim, at']; split_ifs <;> rfl

theorem d_e (hr : U .rho ≠ 0) : DerivAlong (fun W => (prim d W cp cv visc).e) U D (dprim d (prim d U cp cv visc) D visc).de := d_div U D hr .en

theorem d_k (hr : U .rho ≠ 0) : DerivAlong (fun W => (prim d W cp cv visc).k) U D (dprim d (prim d U cp cv visc) D visc).dk := by
  have h1 := d_u1 d U D cp cv visc hr
  have h2 := d_u2 d U D cp cv visc hr
  have h3 := d_u3 d U D cp cv visc hr
  have h := (((h1.mul h1).add (h2.mul h2)).add (h3.mul h3)).mul_const (1 / 2 : ℝ)
  refine HasDerivAt.congr_deriv h ?_
  simp only [zero_mul, add_zero]
  have : (dprim d (prim d U cp cv visc) D visc).dk = (prim d U cp cv visc).u1 * (dprim d (prim d U cp cv visc) D visc).du1 +
    (prim d U cp cv visc).u2 * (dprim d (prim d U cp cv visc) D visc).du2 + (prim d U cp cv visc).u3 * (dprim d (prim d U cp cv visc) D visc).du3 := rfl
  rw [this]; ring

theorem d_T (hr : U .rho ≠ 0) : DerivAlong (fun W => (prim d W cp cv visc).T) U D (dprim d (prim d U cp cv visc) D visc).dT :=
  ((d_e d U D cp cv visc hr).sub (d_k d U D cp cv visc hr)).div_const cv

theorem d_p (hr : U .rho ≠ 0) : DerivAlong (fun W => (prim d W cp cv visc).p) U D (dprim d (prim d U cp cv visc) D visc).dp := by
  have h := ((d_T d U D cp cv visc hr).const_mul (cp - cv)).mul (d_rho d U D cp cv visc)
  refine HasDerivAt.congr_deriv h ?_
  simp only [zero_mul, add_zero]
  have : (dprim d (prim d U cp cv visc) D visc).dp = (cp - cv) * ((dprim d (prim d U cp cv visc) D visc).dT * (prim d U cp cv visc).rho +
    (prim d U cp cv visc).T * (dprim d (prim d U cp cv visc) D visc).drho) := rfl
  rw [this]; ring

theorem d_a (hr : U .rho ≠ 0) (hv : 0 < cv) (hc : cv < cp) (hT : 0 < (prim d U cp cv visc).T) :
    DerivAlong (fun W => (prim d W cp cv visc).a) U D (dprim d (prim d U cp cv visc) D visc).da := by
  have hg : 0 < cp / cv * (cp - cv) := mul_pos (div_pos (hv.trans hc) hv) (by linarith)
  have h := ((d_T d U D cp cv visc hr).const_mul (cp / cv * (cp - cv))).sqrt (by simp only [zero_mul, add_zero]; exact (mul_pos hg hT).ne')
  refine HasDerivAt.congr_deriv h ?_
  simp only [zero_mul, add_zero]
  have : (dprim d (prim d U cp cv visc) D visc).da = 1 / 2 * Real.sqrt (cp / cv * (cp - cv) / (prim d U cp cv visc).T) * (dprim d (prim d U cp cv visc) D visc).dT := rfl
  rw [this]
  generalize (prim d U cp cv visc).T = T at hT
  generalize (dprim d (prim d U cp cv visc) D visc).dT = dT
  generalize cp / cv * (cp - cv) = g at hg
  rw [Real.sqrt_div hg.le, Real.sqrt_mul hg.le]
  have e1 := Real.sqrt_pos.2 hg
  have e2 := Real.sqrt_pos.2 hT
  have e3 : Real.sqrt g ^ 2 = g := Real.sq_sqrt hg.le
  field_simp
  linear_combination (-dT) * e3

theorem d_mach (hr : U .rho ≠ 0) (hv : 0 < cv) (hc : cv < cp) (hT : 0 < (prim d U cp cv visc).T) (hk : 0 < (prim d U cp cv visc).k) :
    ∃ m, (dprim d (prim d U cp cv visc) D visc).dmach = some m ∧ DerivAlong (fun W => (prim d W cp cv visc).mach) U D m := by
  have : (dprim d (prim d U cp cv visc) D visc).dmach = if (prim d U cp cv visc).k = 0 then none else
    some ((dprim d (prim d U cp cv visc) D visc).dk / Real.sqrt (2 * (prim d U cp cv visc).k) / (prim d U cp cv visc).a -
      Real.sqrt (2 * (prim d U cp cv visc).k) / (prim d U cp cv visc).a ^ 2 * (dprim d (prim d U cp cv visc) D visc).da) := rfl
  rw [if_neg hk.ne'] at this
  refine ⟨_, this, ?_⟩
  have hg : 0 < cp / cv * (cp - cv) := mul_pos (div_pos (hv.trans hc) hv) (by linarith)
  have ha : 0 < (prim d U cp cv visc).a := Real.sqrt_pos.2 (mul_pos hg hT)
  have h := (((d_k d U D cp cv visc hr).const_mul 2).sqrt (by simp only [zero_mul, add_zero]; positivity)).div (d_a d U D cp cv visc hr hv hc hT)
    (by simp only [zero_mul, add_zero]; exact ha.ne')
  refine HasDerivAt.congr_deriv h ?_
  simp only [zero_mul, add_zero]
  have hs := Real.sqrt_pos.2 (show (0:ℝ) < 2 * (prim d U cp cv visc).k by positivity)
  field_simp

theorem d_entropy (hr : 0 < U .rho) (hc : cv < cp) (hT : 0 < (prim d U cp cv visc).T) :
    DerivAlong (fun W => (prim d W cp cv visc).entropy) U D (dprim d (prim d U cp cv visc) D visc).dentropy := by
  have hp : 0 < (prim d U cp cv visc).p := mul_pos (mul_pos (by linarith) hT) hr
  have h1 := (d_rho d U D cp cv visc).rpow_const (p := cp / cv) (Or.inl (by simpa [prim] using hr.ne'))
  have hq : 0 < (prim d U cp cv visc).rho ^ (cp / cv) := Real.rpow_pos_of_pos hr _
  have h2 := (d_p d U D cp cv visc hr.ne').div h1 (by simp only [zero_mul, add_zero]; exact hq.ne')
  have h := h2.log (by
    simp only [Pi.div_apply, zero_mul, add_zero]; exact (div_pos hp hq).ne')
  refine HasDerivAt.congr_deriv h ?_
  simp only [Pi.div_apply, zero_mul, add_zero]
  have : (dprim d (prim d U cp cv visc) D visc).dentropy = ((dprim d (prim d U cp cv visc) D visc).dp / (prim d U cp cv visc).rho ^ (cp / cv) -
    cp / cv * (prim d U cp cv visc).p / (prim d U cp cv visc).rho ^ (cp / cv + 1) * (dprim d (prim d U cp cv visc) D visc).drho) /
    ((prim d U cp cv visc).p / (prim d U cp cv visc).rho ^ (cp / cv)) := rfl
  rw [this]
  have hr' : 0 < (prim d U cp cv visc).rho := hr
  generalize (prim d U cp cv visc).rho = r at *
  generalize (dprim d (prim d U cp cv visc) D visc).drho = dr
  generalize (dprim d (prim d U cp cv visc) D visc).dp = dp
  generalize (prim d U cp cv visc).p = p at *
  generalize cp / cv = g at *
  have e1 : r ^ (g + 1) = r ^ g * r := by rw [Real.rpow_add hr', Real.rpow_one]
  have e2 : r ^ (g - 1) = r ^ g / r := by rw [Real.rpow_sub hr', Real.rpow_one]
  rw [e1, e2]
  field_simp

theorem d_mu (hr : U .rho ≠ 0) (hT : 0 < (prim d U cp cv visc).T) :
    DerivAlong (fun W => (prim d W cp cv visc).mu) U D (dprim d (prim d U cp cv visc) D visc).dmu := by
  cases visc
  · exact hasDerivAt_const _ _
  · have h1 := ((d_T d U D cp cv true hr).rpow_const (p := (3 / 2 : ℝ)) (Or.inl (by simp only [zero_mul, add_zero]; exact hT.ne'))).const_mul (1458 / 1000 * (1 / 10 ^ 6) : ℝ)
    have h2 := (d_T d U D cp cv true hr).add_const (1104 / 10 : ℝ)
    have h := h1.div h2 (by simp only [zero_mul, add_zero]; positivity)
    refine HasDerivAt.congr_deriv h ?_
    simp only [zero_mul, add_zero]
    have : (dprim d (prim d U cp cv true) D true).dmu = 1458 / 1000 * (1 / 10 ^ 6) * (dprim d (prim d U cp cv true) D true).dT *
      (3 / 2 * (prim d U cp cv true).T ^ (1 / 2 : ℝ) / ((prim d U cp cv true).T + 1104 / 10) -
        (prim d U cp cv true).T ^ (3 / 2 : ℝ) / ((prim d U cp cv true).T + 1104 / 10) ^ 2) := rfl
    rw [this]
    generalize (prim d U cp cv true).T = T at *
    rw [show (3 / 2 : ℝ) - 1 = 1 / 2 by norm_num]
    have : 0 < T + 1104 / 10 := by positivity
    field_simp

end deriv

/-- C98: the small-disturbance solution is, field by field, the derivative of the primitive solution along the disturbance, at every state with positive density, temperature and
speed. -/
theorem C98_perturbation (d : Nat) (U D : Var → ℝ) (cp cv : ℝ) (visc : Bool) (hr : 0 < U .rho) (hv : 0 < cv) (hc : cv < cp)
    (hT : 0 < (prim d U cp cv visc).T) (hk : 0 < (prim d U cp cv visc).k) :
    let δ := dprim d (prim d U cp cv visc) D visc
    DerivAlong (fun W => (prim d W cp cv visc).rho) U D δ.drho ∧ DerivAlong (fun W => (prim d W cp cv visc).u1) U D δ.du1 ∧
    DerivAlong (fun W => (prim d W cp cv visc).u2) U D δ.du2 ∧ DerivAlong (fun W => (prim d W cp cv visc).u3) U D δ.du3 ∧
    DerivAlong (fun W => (prim d W cp cv visc).T) U D δ.dT ∧ DerivAlong (fun W => (prim d W cp cv visc).p) U D δ.dp ∧
    DerivAlong (fun W => (prim d W cp cv visc).a) U D δ.da ∧ DerivAlong (fun W => (prim d W cp cv visc).e) U D δ.de ∧
    DerivAlong (fun W => (prim d W cp cv visc).k) U D δ.dk ∧ DerivAlong (fun W => (prim d W cp cv visc).entropy) U D δ.dentropy ∧
    (∃ m, δ.dmach = some m ∧ DerivAlong (fun W => (prim d W cp cv visc).mach) U D m) ∧
    DerivAlong (fun W => (prim d W cp cv visc).mu) U D δ.dmu ∧ DerivAlong (fun W => (prim d W cp cv visc).lambda) U D δ.dlambda ∧
    DerivAlong (fun W => (prim d W cp cv visc).kth) U D δ.dkth := by
  intro δ
  have hmu := d_mu d U D cp cv visc hr.ne' hT
  exact ⟨d_rho d U D cp cv visc, d_u1 d U D cp cv visc hr.ne', d_u2 d U D cp cv visc hr.ne', d_u3 d U D cp cv visc hr.ne', d_T d U D cp cv visc hr.ne',
    d_p d U D cp cv visc hr.ne', d_a d U D cp cv visc hr.ne' hv hc hT, d_e d U D cp cv visc hr.ne', d_k d U D cp cv visc hr.ne',
    d_entropy d U D cp cv visc hr hc hT, d_mach d U D cp cv visc hr.ne' hv hc hT hk, hmu, hmu.const_mul (-2 / 3),
    (hmu.mul_const cp).div_const Pr⟩

/-- Non-vacuity of C98_perturbation: a moving state of air. -/
example : 0 < consOf 3 718 1 10 20 30 300 .rho ∧ 0 < (prim 3 (consOf 3 718 1 10 20 30 300) 1005 718 true).T ∧ 0 < (prim 3 (consOf 3 718 1 10 20 30 300) 1005 718 true).k := by
  refine ⟨by norm_num [consOf], by norm_num [consOf, prim, at'], by norm_num [consOf, prim, at']⟩

/-- C98 (violated at rest): for every state at rest, whatever the disturbance, the perturbation of the Mach number is `0/0`. -/
theorem C98_at_rest_fails (d : Nat) (cp cv rho T : ℝ) (D : Var → ℝ) (visc : Bool) :
    (dprim d (prim d (consOf d cv rho 0 0 0 T) cp cv visc) D visc).dmach = none := by
  simp [dprim, prim, consOf, at']

/-- C98: the free stream of a flight condition with a normalised direction has the prescribed density, temperature, pressure, dynamic pressure and Mach number, and zero pressure
coefficient (three dimensions; in fewer, for directions in the space). -/
theorem C98_free_stream (d : Nat) (f : Flight) (visc : Bool) (hr : 0 < f.rho) (hv : 0 < f.cv) (hc : f.cv < f.cp) (hT : 0 < f.T) (hM : 0 ≤ f.mach)
    (hn : 0 < f.dir 0 ^ 2 + f.dir 1 ^ 2 + f.dir 2 ^ 2) (h2 : d < 2 → f.dir 1 = 0) (h3 : d < 3 → f.dir 2 = 0) :
    let s := prim d (infVars d f.init) f.cp f.cv visc
    s.rho = f.rho ∧ s.T = f.T ∧ s.p = f.p0 ∧ s.a = f.a ∧ s.mach = f.mach ∧ s.rho * s.k = f.q0 ∧ cPressure s f.p0 f.q0 = 0 := by
  intro s
  set N := Real.sqrt (f.dir 0 ^ 2 + f.dir 1 ^ 2 + f.dir 2 ^ 2) with hN
  have hN0 : 0 < N := Real.sqrt_pos.2 hn
  have hNsq : N ^ 2 = f.dir 0 ^ 2 + f.dir 1 ^ 2 + f.dir 2 ^ 2 := Real.sq_sqrt hn.le
  have hU : infVars d f.init = consOf d f.cv f.rho (f.vel * (f.dir 0 / N)) (f.vel * (f.dir 1 / N)) (f.vel * (f.dir 2 / N)) f.T := by
    have e2 : at' 2 d ((f.vel * (f.dir 1 / N)) ^ 2) = (f.vel * (f.dir 1 / N)) ^ 2 := by
      unfold at'; split_ifs with h
      · rfl
      · rw [h2 (by omega)]; simp
    have e3 : at' 3 d ((f.vel * (f.dir 2 / N)) ^ 2) = (f.vel * (f.dir 2 / N)) ^ 2 := by
      unfold at'; split_ifs with h
      · rfl
      · rw [h3 (by omega)]; simp
    funext v
    cases v
    · rfl
    · simp only [infVars, consOf, Flight.init, Flight.vel, Flight.a, ← hN]; ring
    · simp only [infVars, consOf, Flight.init, Flight.vel, Flight.a, ← hN, at']; split_ifs <;> ring
    · simp only [infVars, consOf, Flight.init, Flight.vel, Flight.a, ← hN, at']; split_ifs <;> ring
    · have : consOf d f.cv f.rho (f.vel * (f.dir 0 / N)) (f.vel * (f.dir 1 / N)) (f.vel * (f.dir 2 / N)) f.T .en =
        f.rho * (f.cv * f.T + ((f.vel * (f.dir 0 / N)) ^ 2 + at' 2 d ((f.vel * (f.dir 1 / N)) ^ 2) + at' 3 d ((f.vel * (f.dir 2 / N)) ^ 2)) / 2) := rfl
      rw [this, e2, e3]
      have : infVars d f.init .en = f.rho * f.cv * f.T + 1 / 2 * f.rho * f.vel ^ 2 := rfl
      rw [this]
      have : (f.vel * (f.dir 0 / N)) ^ 2 + (f.vel * (f.dir 1 / N)) ^ 2 + (f.vel * (f.dir 2 / N)) ^ 2 = f.vel ^ 2 := by
        field_simp; rw [hNsq]
      rw [this]; ring
  have P := C98_primitive d f.cp f.cv f.rho (f.vel * (f.dir 0 / N)) (f.vel * (f.dir 1 / N)) (f.vel * (f.dir 2 / N)) f.T visc hr.ne' hv.ne'
  rw [← hU] at P
  obtain ⟨p1, p2, p3, p4, p5, p6, p7, p8, p9, p10, -⟩ := P
  have hg : 0 < f.cp / f.cv * (f.cp - f.cv) * f.T := mul_pos (mul_pos (div_pos (hv.trans hc) hv) (by linarith)) hT
  have ha : 0 < f.a := Real.sqrt_pos.2 hg
  have hs2 : s.u2 = f.vel * (f.dir 1 / N) := by
    rw [p3]; split_ifs with h
    · rfl
    · rw [h2 (by omega)]; simp
  have hs3 : s.u3 = f.vel * (f.dir 2 / N) := by
    rw [p4]; split_ifs with h
    · rfl
    · rw [h3 (by omega)]; simp
  have hk : s.u1 ^ 2 + s.u2 ^ 2 + s.u3 ^ 2 = f.vel ^ 2 := by
    rw [hs2, hs3, show s.u1 = f.vel * (f.dir 0 / N) from p2]
    field_simp; rw [hNsq]
  refine ⟨p1, p5, p6, p7, ?_, ?_, ?_⟩
  · have : s.mach = Real.sqrt (s.u1 ^ 2 + s.u2 ^ 2 + s.u3 ^ 2) / s.a := p10
    rw [this, hk, Real.sqrt_sq (show 0 ≤ f.vel from mul_nonneg hM ha.le), show s.a = f.a from p7, Flight.vel]; field_simp
  · have : 2 * s.k = s.u1 ^ 2 + s.u2 ^ 2 + s.u3 ^ 2 := p8
    have hk' : s.k = f.vel ^ 2 / 2 := by linarith
    rw [hk', show s.rho = f.rho from p1, Flight.q0]; ring
  · rw [cPressure, show s.p = f.p0 from p6]; simp

/-- C98: the published sensitivities of the free stream with respect to density are its derivatives (first two components, energy). -/
theorem C98_sens_rho (f : Flight) (hr : f.rho ≠ 0) (v : Var) (x : ℝ) (h : infSensRho f v = some x) :
    HasDerivAt (fun r => infVars 3 { f with rho := r } v) x f.rho := by
  cases v <;> simp only [infSensRho, Option.some.injEq, reduceCtorEq] at h <;> subst h
  · exact hasDerivAt_id _
  · have := ((hasDerivAt_id f.rho).mul_const f.vel).mul_const (f.dir 0)
    refine HasDerivAt.congr_deriv this ?_
    field_simp
  · have := ((hasDerivAt_id f.rho).mul_const f.vel).mul_const (f.dir 1)
    refine HasDerivAt.congr_deriv this ?_
    field_simp
  · have := (((hasDerivAt_id f.rho).mul_const f.cv).mul_const f.T).add (((hasDerivAt_id f.rho).const_mul (1 / 2 : ℝ)).mul_const (f.vel ^ 2))
    refine HasDerivAt.congr_deriv this ?_
    simp only [Flight.q0]; field_simp

/-- C98: the published sensitivities of the free stream with respect to the Mach number are its derivatives. -/
theorem C98_sens_mach (f : Flight) (hm : f.mach ≠ 0) (v : Var) (x : ℝ) (h : infSensMach f v = some x) :
    HasDerivAt (fun m => infVars 3 { f with mach := m } v) x f.mach := by
  cases v <;> simp only [infSensMach, Option.some.injEq, reduceCtorEq] at h <;> subst h
  · have := (((hasDerivAt_id f.mach).mul_const f.a).const_mul f.rho).mul_const (f.dir 0)
    refine HasDerivAt.congr_deriv this ?_
    simp only [Flight.vel]; field_simp
  · have := (((hasDerivAt_id f.mach).mul_const f.a).const_mul f.rho).mul_const (f.dir 1)
    refine HasDerivAt.congr_deriv this ?_
    simp only [Flight.vel]; field_simp
  · have := ((((hasDerivAt_id f.mach).mul_const f.a).pow 2).const_mul (1 / 2 * f.rho)).const_add (f.rho * f.cv * f.T)
    refine HasDerivAt.congr_deriv this ?_
    simp only [Flight.q0, Flight.vel, id]; field_simp; norm_num; ring

/-- Non-vacuity of C98_sens_*: both tables are populated. -/
example (f : Flight) : infSensRho f .en ≠ none ∧ infSensMach f .m2 ≠ none := by simp [infSensRho, infSensMach]

end Verif.Fluid
