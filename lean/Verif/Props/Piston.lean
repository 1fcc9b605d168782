import Verif.Model.Piston
import Mathlib.Analysis.Calculus.Deriv.Mul
import Mathlib.Analysis.Calculus.Deriv.Inv
import Mathlib.Analysis.Calculus.Deriv.Pow
import Mathlib.Analysis.SpecialFunctions.Sqrt
import Mathlib.Analysis.Calculus.Deriv.MeanValue
import Mathlib.Tactic.LinearCombination
import Mathlib.Tactic.FieldSimp
import Mathlib.Tactic.Positivity
import Mathlib.Tactic.IntervalCases

/-!
C112: piston theory pressure, its derivatives and their sensitivities.
-/

namespace Verif.Piston

/-! ### Specification -/

/-- Physical flow: supersonic, moving. -/
def Supersonic (s : Flow) : Prop := 1 < s.M * s.M ∧ s.V ≠ 0

/-- Third order piston theory: `p = (1/2) rho V^2 cp`, with `cp` the truncated series in the downwash `U`. -/
noncomputable def series (order : Nat) (U gamma M : ℝ) : ℝ :=
  2 / Real.sqrt (M ^ 2 - 1) * (U + (if 2 ≤ order then (gamma + 1) / 4 * M * U ^ 2 else 0) + (if 3 ≤ order then (gamma + 1) / 12 * M ^ 2 * U ^ 3 else 0))

/-- Quasi-steady downwash `dw/dx + (M^2-2)/(M^2-1) (1/V) dw/dt`. -/
noncomputable def downwash (s : Flow) : ℝ := s.dwdx + (s.M ^ 2 - 2) / (s.M ^ 2 - 1) * (1 / s.V) * s.dwdt

/-- A family of flows depending on a parameter, with derivatives `d` at 0. -/
structure Family (s : ℝ → Flow) (d : Flow) : Prop where
  V : HasDerivAt (fun t => (s t).V) d.V 0
  M : HasDerivAt (fun t => (s t).M) d.M 0
  rho : HasDerivAt (fun t => (s t).rho) d.rho 0
  gamma : HasDerivAt (fun t => (s t).gamma) d.gamma 0
  dwdx : HasDerivAt (fun t => (s t).dwdx) d.dwdx 0
  dwdt : HasDerivAt (fun t => (s t).dwdt) d.dwdt 0

/-! ### Proofs -/

theorem sqrt_pos' {s : Flow} (h : Supersonic s) : 0 < Real.sqrt (s.M * s.M - 1) := Real.sqrt_pos.2 (by have := h.1; linarith)

theorem one_ne {s : Flow} (h : Supersonic s) : s.M * s.M - 1 ≠ 0 := by have := h.1; intro h'; linarith

theorem d_mf {s : ℝ → Flow} {d : Flow} (hs : Family s d) (h : Supersonic (s 0)) : HasDerivAt (fun t => mf (s t)) (dmf (s 0) d) 0 := by
  have hn := one_ne h
  have := ((hs.M.mul hs.M).sub_const 2).div ((hs.M.mul hs.M).sub_const 1) hn
  refine this.congr_deriv ?_
  simp only [dmf, Pi.mul_apply]
  field_simp
  ring

theorem d_f1 {s : ℝ → Flow} {d : Flow} (hs : Family s d) (h : Supersonic (s 0)) : HasDerivAt (fun t => f1 (s t)) (df1 (s 0) d) 0 := by
  have hn := one_ne h
  have hp := sqrt_pos' h
  have := hs.rho.div (((hs.M.mul hs.M).sub_const 1).sqrt hn) (by simpa using hp.ne')
  refine this.congr_deriv ?_
  have hq := Real.sq_sqrt (show 0 ≤ (s 0).M * (s 0).M - 1 by have := h.1; linarith)
  simp only [df1, Pi.mul_apply]
  field_simp
  ring

theorem d_v0 {s : ℝ → Flow} {d : Flow} (hs : Family s d) (h : Supersonic (s 0)) : HasDerivAt (fun t => v0 (s t)) (dv0 (s 0) d) 0 := by
  have hV := h.2
  have := hs.dwdx.add (((d_mf hs h).mul hs.dwdt).div hs.V hV)
  refine this.congr_deriv ?_
  simp only [dv0, Pi.mul_apply]
  field_simp
  ring

theorem d_v1 {s : ℝ → Flow} {d : Flow} (hs : Family s d) (h : Supersonic (s 0)) : HasDerivAt (fun t => v1 (s t)) (dv1 (s 0) d) 0 := by
  have := ((hs.V.mul hs.V).mul hs.dwdx).add (((d_mf hs h).mul hs.V).mul hs.dwdt)
  refine this.congr_deriv ?_
  simp only [dv1, Pi.mul_apply]
  ring

theorem d_w {s : ℝ → Flow} {d : Flow} (hs : Family s d) (h : Supersonic (s 0)) :
    HasDerivAt (fun t => (s t).V * (s t).dwdx + mf (s t) * (s t).dwdt) (d.V * (s 0).dwdx + (s 0).V * d.dwdx + (dmf (s 0) d * (s 0).dwdt + mf (s 0) * d.dwdt)) 0 :=
  (hs.V.mul hs.dwdx).add ((d_mf hs h).mul hs.dwdt)

theorem d_v2 {s : ℝ → Flow} {d : Flow} (hs : Family s d) (h : Supersonic (s 0)) : HasDerivAt (fun t => v2 (s t)) (dv2 (s 0) d) 0 := by
  refine ((d_w hs h).pow 2).congr_deriv ?_
  simp only [dv2]
  ring

theorem d_v3 {s : ℝ → Flow} {d : Flow} (hs : Family s d) (h : Supersonic (s 0)) : HasDerivAt (fun t => v3 (s t)) (dv3 (s 0) d) 0 :=
  ((d_v0 hs h).mul (d_v2 hs h)).congr_deriv (by simp only [dv3])

theorem d_order {l q c : ℝ → ℝ} {l' q' c' : ℝ} (order : Nat) (hl : HasDerivAt l l' 0) (hq : HasDerivAt q q' 0) (hc : HasDerivAt c c' 0) :
    HasDerivAt (fun t => byOrder order (l t) (q t) (c t)) (byOrder order l' q' c') 0 := by
  unfold byOrder
  split
  · exact (hl.add hc).add hq
  · exact hl.add hq
  · exact hl

theorem order_mul (order : Nat) (l q c k : ℝ) : byOrder order l q c * k = byOrder order (l * k) (q * k) (c * k) := by
  unfold byOrder; split <;> ring

/-- Terms of second and third order share this shape. -/
theorem d_second {s : ℝ → Flow} {d : Flow} (hs : Family s d) (h : Supersonic (s 0)) {g : ℝ → ℝ} {g' : ℝ} (hg : HasDerivAt g g' 0) :
    HasDerivAt (fun t => f1 (s t) * (s t).M * g t * ((s t).gamma + 1) / 4)
      (df1 (s 0) d * (s 0).M * g 0 * ((s 0).gamma + 1) / 4 + f1 (s 0) * (d.M * g 0 + (s 0).M * g') * ((s 0).gamma + 1) / 4 + f1 (s 0) * (s 0).M * g 0 / 4 * d.gamma) 0 := by
  refine (((((d_f1 hs h).mul hs.M).mul hg).mul (hs.gamma.add_const 1)).div_const 4).congr_deriv ?_
  simp only [Pi.mul_apply]
  ring

theorem d_third {s : ℝ → Flow} {d : Flow} (hs : Family s d) (h : Supersonic (s 0)) {g : ℝ → ℝ} {g' : ℝ} (hg : HasDerivAt g g' 0) :
    HasDerivAt (fun t => f1 (s t) * (s t).M * (s t).M * g t * ((s t).gamma + 1) / 12)
      (df1 (s 0) d * (s 0).M * (s 0).M * g 0 * ((s 0).gamma + 1) / 12 + f1 (s 0) * (s 0).M * (2 * d.M * g 0 + (s 0).M * g') * ((s 0).gamma + 1) / 12 +
        f1 (s 0) * (s 0).M * (s 0).M * g 0 / 12 * d.gamma) 0 := by
  refine ((((((d_f1 hs h).mul hs.M).mul hs.M).mul hg).mul (hs.gamma.add_const 1)).div_const 12).congr_deriv ?_
  simp only [Pi.mul_apply]
  ring

theorem pressure_eq (order : Nat) (s : Flow) : pressure order s = byOrder order (f1 s * v1 s) (f1 s * s.M * v2 s * (s.gamma + 1) / 4) (f1 s * s.M * s.M * v3 s * (s.gamma + 1) / 12) := by
  unfold pressure f1 byOrder; split <;> ring

/-- C112: the sensitivity of the pressure is its derivative for every differentiable dependence of the free stream and of the motion on a parameter, for every order. -/
theorem C112_sensitivity (order : Nat) (s : ℝ → Flow) (d : Flow) (hs : Family s d) (h : Supersonic (s 0)) : HasDerivAt (fun t => pressure order (s t)) (pressureSens order (s 0) d) 0 := by
  simp only [pressure_eq]
  exact (d_order order ((d_f1 hs h).mul (d_v1 hs h)) (d_second hs h (d_v2 hs h)) (d_third hs h (d_v3 hs h))).congr_deriv (by simp only [pressureSens]; congr 1; ring)

/-- C112: the slope and rate derivatives of the pressure are its derivatives with respect to the surface slope and the surface velocity. -/
theorem C112_derivatives (order : Nat) (s : Flow) (h : Supersonic s) :
    HasDerivAt (fun w => pressure order { s with dwdx := w }) (pressureX order s) s.dwdx ∧ HasDerivAt (fun w => pressure order { s with dwdt := w }) (pressureXdot order s) s.dwdt := by
  have key : ∀ (g : ℝ → Flow) (d : Flow), Family g d → g 0 = s → HasDerivAt (fun t => pressure order (g t)) (pressureSens order s d) 0 := fun g d hg h0 => h0 ▸ C112_sensitivity order g d hg (h0 ▸ h)
  have c : ∀ x : ℝ, HasDerivAt (fun _ : ℝ => x) 0 0 := fun x => hasDerivAt_const _ _
  have shift : ∀ (f : ℝ → ℝ) (f' x : ℝ), HasDerivAt (fun t => f (x + t)) f' 0 → HasDerivAt f f' x := by
    intro f f' x hf
    have h0 : HasDerivAt (fun t => f (x + t)) f' (x - x) := by simpa using hf
    have := HasDerivAt.scomp (h := fun y => y - x) x h0 ((hasDerivAt_id' x).sub_const x)
    simpa [Function.comp_def] using this
  constructor
  · refine shift _ _ _ ?_
    have := key (fun t => { s with dwdx := s.dwdx + t }) ⟨0, 0, 0, 0, 1, 0⟩ ⟨c _, c _, c _, c _, by simpa using (hasDerivAt_id' (0:ℝ)).const_add s.dwdx, c _⟩ (by simp)
    refine this.congr_deriv ?_
    simp only [pressureSens, pressureX, byOrder, dv1, dv2, dv3, dv0, df1, dmf, v2dw, v3dw]
    split <;> ring
  · refine shift _ _ _ ?_
    have := key (fun t => { s with dwdt := s.dwdt + t }) ⟨0, 0, 0, 0, 0, 1⟩ ⟨c _, c _, c _, c _, c _, by simpa using (hasDerivAt_id' (0:ℝ)).const_add s.dwdt⟩ (by simp)
    refine this.congr_deriv ?_
    simp only [pressureSens, pressureXdot, byOrder, dv1, dv2, dv3, dv0, df1, dmf, v2dwt, v3dwt]
    split <;> ring

/-- C112: with the motion of the surface held fixed, the sensitivities of the slope and rate derivatives are their derivatives. -/
theorem C112_second_partial (order : Nat) (s : ℝ → Flow) (d : Flow) (hs : Family s d) (h : Supersonic (s 0)) (hx : d.dwdx = 0) (ht : d.dwdt = 0) :
    HasDerivAt (fun t => pressureX order (s t)) (pressureXSens order (s 0) d) 0 ∧ HasDerivAt (fun t => pressureXdot order (s t)) (pressureXdotSens order (s 0) d) 0 := by
  have hV := h.2
  have e0 : dv0f (s 0) d = dv0 (s 0) d := by simp only [dv0f, dv0, hx, ht]; ring
  have e2 : dv2f (s 0) d = dv2 (s 0) d := by simp only [dv2f, dv2, hx, ht]; ring
  have w := d_w hs h
  have a2 : HasDerivAt (fun t => v2dw (s t)) (v2dwf (s 0) d) 0 := by
    refine ((w.const_mul 2).mul hs.V).congr_deriv ?_
    simp only [v2dwf, hx, ht]; ring
  have a3 : HasDerivAt (fun t => v3dw (s t)) (v3dwf (s 0) d) 0 := by
    refine (((d_v0 hs h).mul a2).add ((d_v2 hs h).const_mul 1)).congr_deriv ?_
    simp only [v3dwf, e0, e2]; ring
  have b2 : HasDerivAt (fun t => v2dwt (s t)) (v2dwtf (s 0) d) 0 := by
    refine ((w.const_mul 2).mul (d_mf hs h)).congr_deriv ?_
    simp only [v2dwtf, hx, ht]; ring
  have b3 : HasDerivAt (fun t => v3dwt (s t)) (v3dwtf (s 0) d) 0 := by
    refine ((((d_mf hs h).div hs.V hV).mul (d_v2 hs h)).add ((d_v0 hs h).mul b2)).congr_deriv ?_
    simp only [v3dwtf, e0, e2, Pi.mul_apply, Pi.div_apply]; field_simp; ring
  constructor
  · exact (d_order order ((d_f1 hs h).mul (hs.V.mul hs.V)) (d_second hs h a2) (d_third hs h a3)).congr_deriv (by simp only [pressureXSens, Pi.mul_apply]; congr 1; ring)
  · exact (d_order order ((d_f1 hs h).mul ((d_mf hs h).mul hs.V)) (d_second hs h b2) (d_third hs h b3)).congr_deriv (by simp only [pressureXdotSens, Pi.mul_apply]; congr 1; ring)

/-- C112 (what the code does not do): when the motion of the surface depends on the parameter the sensitivity of the slope derivative misses that part. -/
theorem C112_second_fails : ∃ (s : ℝ → Flow) (d : Flow), Family s d ∧ Supersonic (s 0) ∧ ¬ HasDerivAt (fun t => pressureX 2 (s t)) (pressureXSens 2 (s 0) d) 0 := by
  have c : ∀ x : ℝ, HasDerivAt (fun _ : ℝ => x) 0 0 := fun x => hasDerivAt_const _ _
  refine ⟨fun t => ⟨1, 2, 1, 1, t, 0⟩, ⟨0, 0, 0, 0, 1, 0⟩, ⟨c _, c _, c _, c _, hasDerivAt_id' 0, c _⟩, ⟨by norm_num, one_ne_zero⟩, fun h => ?_⟩
  have hp : 0 < Real.sqrt 3 := Real.sqrt_pos.2 (by norm_num)
  have e : (fun t : ℝ => pressureX 2 ⟨1, 2, 1, 1, t, 0⟩) = fun t => 1 / Real.sqrt 3 + 2 / Real.sqrt 3 * t := by
    funext t
    simp only [pressureX, byOrder, f1, v2dw, mf]
    norm_num
    ring
  have e0 : pressureXSens 2 ⟨1, 2, 1, 1, 0, 0⟩ ⟨0, 0, 0, 0, 1, 0⟩ = 0 := by simp [pressureXSens, byOrder, df1, v2dw, v2dwf, dmf]
  rw [e, e0] at h
  have h2 : HasDerivAt (fun t : ℝ => 1 / Real.sqrt 3 + 2 / Real.sqrt 3 * t) (2 / Real.sqrt 3) 0 := by simpa using ((hasDerivAt_id' (0:ℝ)).const_mul (2 / Real.sqrt 3)).const_add (1 / Real.sqrt 3)
  have := h.unique h2
  have : (2:ℝ) / Real.sqrt 3 > 0 := by positivity
  linarith

/-- C112: for the orders 1 to 3 the pressure is the dynamic pressure times the truncated series in the downwash, and the pressure coefficient of the structural element is that series. -/
theorem C112_series (order : Nat) (ho : 1 ≤ order ∧ order ≤ 3) (s : Flow) (h : Supersonic s) :
    pressure order s = 1 / 2 * s.rho * s.V ^ 2 * series order (downwash s) s.gamma s.M ∧ ∀ U gamma M, cp order U gamma M = some (series order U gamma M) := by
  have hV := h.2
  have hp := sqrt_pos' h
  have hn := one_ne h
  have e2 : s.M ^ 2 - 1 = s.M * s.M - 1 := by ring
  have hw : v1 s = s.V ^ 2 * downwash s ∧ v2 s = s.V ^ 2 * downwash s ^ 2 ∧ v0 s = downwash s := by
    have e2' : s.M ^ 2 - 2 = s.M * s.M - 2 := by ring
    simp only [v1, v2, v0, downwash, mf, e2, e2']
    refine ⟨?_, ?_, ?_⟩ <;> field_simp
  obtain ⟨h1, h2, h3⟩ := hw
  obtain ⟨lo, hi⟩ := ho
  constructor
  · simp only [pressure, v3, h1, h2, h3, series, e2]
    interval_cases order <;> simp [byOrder] <;> first | (field_simp; done) | (field_simp; ring)
  · intro U gamma M
    have e3 : M ^ 2 - 1 = M * M - 1 := by ring
    simp only [series, e3]
    interval_cases order <;> simp [cp] <;> ring

/-- C112: the derivative of the pressure coefficient is its derivative with respect to the downwash, with errors for the same orders. -/
theorem C112_dcp (order : Nat) (gamma M : ℝ) : (∀ U, cp order U gamma M = none ↔ ¬ (1 ≤ order ∧ order ≤ 3)) ∧ (∀ U, dcp order U gamma M = none ↔ ¬ (1 ≤ order ∧ order ≤ 3)) ∧
    ∀ (f : ℝ → ℝ) (f' U : ℝ), (∀ x, cp order x gamma M = some (f x)) → dcp order U gamma M = some f' → HasDerivAt f f' U := by
  have cases4 : order = 1 ∨ order = 2 ∨ order = 3 ∨ ¬ (1 ≤ order ∧ order ≤ 3) := by omega
  rcases cases4 with rfl | rfl | rfl | ho
  · refine ⟨by simp [cp], by simp [dcp], fun f f' U hf hf' => ?_⟩
    have : f = fun x => x * (2 / Real.sqrt (M * M - 1)) := funext fun x => (Option.some.inj (by simpa [cp] using hf x)).symm
    rw [this, ← Option.some.inj hf']
    exact (hasDerivAt_id' U).mul_const _
  · refine ⟨by simp [cp], by simp [dcp], fun f f' U hf hf' => ?_⟩
    have : f = fun x => ((gamma + 1) / 4 * M * x ^ 2 + x) * (2 / Real.sqrt (M * M - 1)) := funext fun x => (Option.some.inj (by simpa [cp] using hf x)).symm
    rw [this, ← Option.some.inj hf']
    refine ((((hasDerivAt_pow 2 U).const_mul ((gamma + 1) / 4 * M)).add (hasDerivAt_id' U)).mul_const _).congr_deriv ?_
    push_cast; ring
  · refine ⟨by simp [cp], by simp [dcp], fun f f' U hf hf' => ?_⟩
    have : f = fun x => ((gamma + 1) / 12 * M * M * x ^ 3 + (gamma + 1) / 4 * M * x ^ 2 + x) * (2 / Real.sqrt (M * M - 1)) := funext fun x => (Option.some.inj (by simpa [cp] using hf x)).symm
    rw [this, ← Option.some.inj hf']
    refine (((((hasDerivAt_pow 3 U).const_mul ((gamma + 1) / 12 * M * M)).add ((hasDerivAt_pow 2 U).const_mul ((gamma + 1) / 4 * M))).add (hasDerivAt_id' U)).mul_const _).congr_deriv ?_
    push_cast; ring
  · have h1 : ∀ U, cp order U gamma M = none := by
      intro U; unfold cp; split <;> first | rfl | (exfalso; apply ho; constructor <;> norm_num)
    have h2 : ∀ U, dcp order U gamma M = none := by
      intro U; unfold dcp; split <;> first | rfl | (exfalso; apply ho; constructor <;> norm_num)
    exact ⟨fun U => by simp [h1, ho], fun U => by simp [h2, ho], fun f f' U hf _ => by simp [h1] at hf⟩

/-- C112: of first and third order the pressure coefficient increases strictly with the downwash (for a ratio of specific heats between 1 and 3). -/
theorem C112_monotone (order : Nat) (ho : order = 1 ∨ order = 3) (gamma M : ℝ) (hg : 1 ≤ gamma) (hg3 : gamma < 3) (hM : 1 < M * M) (U : ℝ) : ∃ r, dcp order U gamma M = some r ∧ 0 < r := by
  have hp : 0 < Real.sqrt (M * M - 1) := Real.sqrt_pos.2 (by linarith)
  rcases ho with rfl | rfl
  · exact ⟨_, rfl, by positivity⟩
  · refine ⟨_, rfl, mul_pos ?_ (by positivity)⟩
    have h1 : 0 < 3 - gamma := by linarith
    have h2 : 0 < gamma + 1 := by linarith
    have : (gamma + 1) / 4 * M * M * U ^ 2 + (gamma + 1) / 2 * M * U + 1 = (gamma + 1) / 4 * (M * U + 1) ^ 2 + (3 - gamma) / 4 := by ring
    rw [this]
    have := sq_nonneg (M * U + 1)
    have h3 : 0 ≤ (gamma + 1) / 4 * (M * U + 1) ^ 2 := by positivity
    linarith

/-- C112 (what the code does not do): the pressure coefficient refuses orders other than 1, 2, 3; the pressure function silently returns the linear pressure for them. -/
theorem C112_order_fails : ∀ (order : Nat) (s : Flow), ¬ (1 ≤ order ∧ order ≤ 3) → pressure order s = pressure 1 s ∧ cp order (v0 s) s.gamma s.M = none := by
  intro order s ho
  refine ⟨?_, ((C112_dcp order s.gamma s.M).1 _).2 ho⟩
  unfold pressure byOrder
  split <;> first | rfl | (exfalso; apply ho; constructor <;> norm_num)

/-- Non-vacuity of C112: a Mach 2 flow. -/
example : Supersonic ⟨680, 2, 1.2, 1.4, 0.01, 3⟩ ∧ ∃ (s : ℝ → Flow) (d : Flow), Family s d ∧ Supersonic (s 0) ∧ d.M = 1 := by
  have c : ∀ x : ℝ, HasDerivAt (fun _ : ℝ => x) 0 0 := fun x => hasDerivAt_const _ _
  refine ⟨⟨by norm_num, by norm_num⟩, fun t => ⟨1, 2 + t, 1, 1, 0, 0⟩, ⟨0, 1, 0, 0, 0, 0⟩, ⟨c _, ?_, c _, c _, c _, c _⟩, ⟨by norm_num, one_ne_zero⟩, rfl⟩
  simpa using (hasDerivAt_id' (0:ℝ)).const_add 2

end Verif.Piston
