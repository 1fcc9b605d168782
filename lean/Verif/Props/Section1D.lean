import Verif.Model.Section1D
import Verif.Props.Section2D
/-
  C64 (beam section properties), C65 (torsion constant); C63 for beam stacks.
-/
namespace Verif.Section1D
open Matrix

/-! ### C64: section integrals -/

/-- Integral over the rectangle `[offy - hy/2, offy + hy/2] × [offz - hz/2, offz + hz/2]`. -/
noncomputable def rectInt (hy hz offy offz : ℝ) (f : ℝ → ℝ → ℝ) : ℝ :=
  ∫ y in (offy - hy / 2)..(offy + hy / 2), ∫ z in (offz - hz / 2)..(offz + hz / 2), f y z

theorem mom0 (h o : ℝ) : (∫ _z in (o - h / 2)..(o + h / 2), (1 : ℝ)) = h := by
  rw [intervalIntegral.integral_const]; simp
theorem mom1 (h o : ℝ) : (∫ z in (o - h / 2)..(o + h / 2), z) = h * o := by rw [integral_id]; ring
theorem mom2 (h o : ℝ) : (∫ z in (o - h / 2)..(o + h / 2), z ^ 2) = h ^ 3 / 12 + h * o ^ 2 := by rw [integral_pow]; push_cast; ring

/-- Moments of a quadratic polynomial over an interval. -/
theorem quadInt (h o a b c : ℝ) : (∫ z in (o - h / 2)..(o + h / 2), (a + b * z + c * z ^ 2)) = a * h + b * (h * o) + c * (h ^ 3 / 12 + h * o ^ 2) := by
  have i1 : IntervalIntegrable (fun _ : ℝ => a) MeasureTheory.volume (o - h / 2) (o + h / 2) := continuous_const.intervalIntegrable _ _
  have i2 : IntervalIntegrable (fun z : ℝ => b * z) MeasureTheory.volume (o - h / 2) (o + h / 2) := (continuous_const.mul continuous_id).intervalIntegrable _ _
  have i3 : IntervalIntegrable (fun z : ℝ => c * z ^ 2) MeasureTheory.volume (o - h / 2) (o + h / 2) :=
    (continuous_const.mul (continuous_id.pow 2)).intervalIntegrable _ _
  rw [intervalIntegral.integral_add (i1.add i2) i3, intervalIntegral.integral_add i1 i2, intervalIntegral.integral_const_mul, intervalIntegral.integral_const_mul,
    mom1, mom2, intervalIntegral.integral_const]
  simp only [smul_eq_mul]; ring

/-- The integral of a polynomial of degree two over the rectangle. -/
theorem rectInt_quad (hy hz offy offz a b c d e g : ℝ) :
    rectInt hy hz offy offz (fun y z => a + b * y + c * z + d * y ^ 2 + e * (y * z) + g * z ^ 2) =
      a * area hy hz + b * areaMoment hy hz offy + c * areaMoment hy hz offz + d * areaInertia hy hz offy offz 0 0 +
      e * areaInertia hy hz offy offz 0 1 + g * areaInertia hy hz offy offz 1 1 := by
  have inner : ∀ y, (∫ z in (offz - hz / 2)..(offz + hz / 2), (a + b * y + c * z + d * y ^ 2 + e * (y * z) + g * z ^ 2)) =
      (a * hz + c * (hz * offz) + g * (hz ^ 3 / 12 + hz * offz ^ 2)) + (b * hz + e * (hz * offz)) * y + (d * hz) * y ^ 2 := fun y => by
    have : (fun z => a + b * y + c * z + d * y ^ 2 + e * (y * z) + g * z ^ 2) = fun z => (a + b * y + d * y ^ 2) + (c + e * y) * z + g * z ^ 2 := by
      funext z; ring
    rw [this, quadInt]; ring
  unfold rectInt
  simp only [inner]
  rw [quadInt]
  simp [area, areaMoment, areaInertia]; ring

/-- C64: area, first moments and second moments are the integrals over the offset rectangle. -/
theorem C64_integrals (hy hz offy offz : ℝ) :
    area hy hz = rectInt hy hz offy offz (fun _ _ => 1) ∧
    areaMoment hy hz offz = rectInt hy hz offy offz (fun _ z => z) ∧
    areaMoment hy hz offy = rectInt hy hz offy offz (fun y _ => y) ∧
    areaInertia hy hz offy offz 0 0 = rectInt hy hz offy offz (fun y _ => y ^ 2) ∧
    areaInertia hy hz offy offz 1 1 = rectInt hy hz offy offz (fun _ z => z ^ 2) ∧
    areaInertia hy hz offy offz 0 1 = rectInt hy hz offy offz (fun y z => y * z) ∧
    areaInertia hy hz offy offz 1 0 = rectInt hy hz offy offz (fun y z => y * z) ∧
    polar hy hz offy offz = rectInt hy hz offy offz (fun y z => y ^ 2 + z ^ 2) := by
  have q := rectInt_quad hy hz offy offz
  have s : areaInertia hy hz offy offz 1 0 = areaInertia hy hz offy offz 0 1 := by simp [areaInertia]
  refine ⟨?_, ?_, ?_, ?_, ?_, ?_, ?_, ?_⟩
  · have := q 1 0 0 0 0 0; simp at this; exact this.symm
  · have := q 0 0 1 0 0 0; simp at this; exact this.symm
  · have := q 0 1 0 0 0 0; simp at this; exact this.symm
  · have := q 0 0 0 1 0 0; simp at this; exact this.symm
  · have := q 0 0 0 0 0 1; simp at this; exact this.symm
  · have := q 0 0 0 0 1 0; simp at this; exact this.symm
  · rw [s]; have := q 0 0 0 0 1 0; simp at this; exact this.symm
  · have := q 0 0 0 1 0 1; simp at this; rw [this]; simp [areaInertia, polar]; ring

/-- C64: the axial strain energy of the section, from the A, B, D matrices, is `E ∫∫ (ε + y κ₀ + z κ₁)²`. -/
theorem C64_energy (hy hz offy offz J : ℝ) (C : Matrix (Fin 2) (Fin 2) ℝ) (e k0 k1 : ℝ) :
    let A := beamA (area hy hz) J C
    let B := beamB (areaMoment hy hz offz) (areaMoment hy hz offy) C
    let D := beamD (areaInertia hy hz offy offz) C
    A 0 0 * e ^ 2 + 2 * e * (B 0 0 * k0 + B 0 1 * k1) + (D 0 0 * k0 ^ 2 + D 0 1 * (k0 * k1) + D 1 0 * (k0 * k1) + D 1 1 * k1 ^ 2) =
      C 0 0 * rectInt hy hz offy offz (fun y z => (e + y * k0 + z * k1) ^ 2) := by
  intro A B D
  have : (fun y z => (e + y * k0 + z * k1) ^ 2) = fun y z : ℝ => e ^ 2 + 2 * e * k0 * y + 2 * e * k1 * z + k0 ^ 2 * y ^ 2 + 2 * k0 * k1 * (y * z) + k1 ^ 2 * z ^ 2 := by
    funext y z; ring
  rw [this, rectInt_quad]
  simp [A, B, D, beamA, beamB, beamD, areaInertia, areaMoment, area]; ring

theorem rect_pos {hy hz : ℝ} (h1 : 0 < hy) (h2 : 0 < hz) (offy offz e k0 k1 : ℝ) (hne : e ≠ 0 ∨ k0 ≠ 0 ∨ k1 ≠ 0) :
    0 < rectInt hy hz offy offz (fun y z => (e + y * k0 + z * k1) ^ 2) := by
  have : (fun y z => (e + y * k0 + z * k1) ^ 2) = fun y z : ℝ => e ^ 2 + 2 * e * k0 * y + 2 * e * k1 * z + k0 ^ 2 * y ^ 2 + 2 * k0 * k1 * (y * z) + k1 ^ 2 * z ^ 2 := by
    funext y z; ring
  rw [this, rectInt_quad]
  have e1 : e ^ 2 * area hy hz + 2 * e * k0 * areaMoment hy hz offy + 2 * e * k1 * areaMoment hy hz offz + k0 ^ 2 * areaInertia hy hz offy offz 0 0 +
      2 * k0 * k1 * areaInertia hy hz offy offz 0 1 + k1 ^ 2 * areaInertia hy hz offy offz 1 1 =
      hy * hz * ((e + offy * k0 + offz * k1) ^ 2 + hy ^ 2 / 12 * k0 ^ 2 + hz ^ 2 / 12 * k1 ^ 2) := by
    simp [area, areaMoment, areaInertia]; ring
  rw [e1]
  apply mul_pos (mul_pos h1 h2)
  by_cases c0 : k0 = 0
  · by_cases c1 : k1 = 0
    · have he : e ≠ 0 := by tauto
      rw [c0, c1]
      simp; positivity
    · have := mul_pos (by positivity : 0 < hz ^ 2 / 12) (by positivity : 0 < k1 ^ 2)
      have := mul_nonneg (by positivity : 0 ≤ hy ^ 2 / 12) (sq_nonneg k0)
      have := sq_nonneg (e + offy * k0 + offz * k1)
      linarith
  · have := mul_pos (by positivity : 0 < hy ^ 2 / 12) (by positivity : 0 < k0 ^ 2)
    have := mul_nonneg (by positivity : 0 ≤ hz ^ 2 / 12) (sq_nonneg k1)
    have := sq_nonneg (e + offy * k0 + offz * k1)
    linarith

/-- C64: the axial-bending stiffness is positive definite for positive sides and modulus. -/
theorem C64_stiffness_posdef {hy hz : ℝ} (h1 : 0 < hy) (h2 : 0 < hz) (offy offz J : ℝ) {C : Matrix (Fin 2) (Fin 2) ℝ} (hE : 0 < C 0 0) (e k0 k1 : ℝ)
    (hne : e ≠ 0 ∨ k0 ≠ 0 ∨ k1 ≠ 0) :
    let A := beamA (area hy hz) J C
    let B := beamB (areaMoment hy hz offz) (areaMoment hy hz offy) C
    let D := beamD (areaInertia hy hz offy offz) C
    0 < A 0 0 * e ^ 2 + 2 * e * (B 0 0 * k0 + B 0 1 * k1) + (D 0 0 * k0 ^ 2 + D 0 1 * (k0 * k1) + D 1 0 * (k0 * k1) + D 1 1 * k1 ^ 2) := by
  intro A B D
  have := C64_energy hy hz offy offz J C e k0 k1
  simp only at this
  rw [this]
  exact mul_pos hE (rect_pos h1 h2 offy offz e k0 k1 hne)

/-- C64: kinetic energy: `ρ ∫∫ (u + z θy + y θz)²` for the axial motion plus translational and torsional parts; hence positive definite. -/
theorem C64_inertia (hy hz offy offz rho : ℝ) (x : Fin 6 → ℝ) :
    x ⬝ᵥ (beamInertia rho (area hy hz) (areaMoment hy hz offz) (areaMoment hy hz offy) (polar hy hz offy offz) (areaInertia hy hz offy offz) *ᵥ x) =
      rho * (rectInt hy hz offy offz (fun y z => (x 0 + y * x 5 + z * x 4) ^ 2) + rectInt hy hz offy offz (fun _ _ => 1) * (x 1 ^ 2 + x 2 ^ 2) +
        rectInt hy hz offy offz (fun y z => y ^ 2 + z ^ 2) * x 3 ^ 2) := by
  have e : (fun y z => (x 0 + y * x 5 + z * x 4) ^ 2) = fun y z : ℝ => x 0 ^ 2 + 2 * x 0 * x 5 * y + 2 * x 0 * x 4 * z + x 5 ^ 2 * y ^ 2 + 2 * x 5 * x 4 * (y * z) +
      x 4 ^ 2 * z ^ 2 := by
    funext y z; ring
  obtain ⟨i1, -, -, -, -, -, -, i8⟩ := C64_integrals hy hz offy offz
  rw [e, rectInt_quad, ← i1, ← i8]
  simp [beamInertia, dotProduct, mulVec, Fin.sum_univ_six]; ring

/-- C64: inertia positive definite and symmetric. -/
theorem C64_inertia_posdef {hy hz rho : ℝ} (h1 : 0 < hy) (h2 : 0 < hz) (hr : 0 < rho) (offy offz : ℝ) (x : Fin 6 → ℝ) (hx : x ≠ 0) :
    let M := beamInertia rho (area hy hz) (areaMoment hy hz offz) (areaMoment hy hz offy) (polar hy hz offy offz) (areaInertia hy hz offy offz)
    Mᵀ = M ∧ 0 < x ⬝ᵥ (M *ᵥ x) := by
  intro M
  constructor
  · ext i j; fin_cases i <;> fin_cases j <;> simp [M, beamInertia]
  simp only [M]
  rw [C64_inertia]
  apply mul_pos hr
  obtain ⟨i1, -, -, -, -, -, -, i8⟩ := C64_integrals hy hz offy offz
  rw [← i1, ← i8]
  have a0 : 0 < area hy hz := mul_pos h1 h2
  have a1 : 0 < polar hy hz offy offz := by unfold polar; positivity
  have q1 := mul_nonneg a0.le (by positivity : 0 ≤ x 1 ^ 2 + x 2 ^ 2)
  have q2 := mul_nonneg a1.le (sq_nonneg (x 3))
  by_cases c : x 0 ≠ 0 ∨ x 5 ≠ 0 ∨ x 4 ≠ 0
  · have := rect_pos h1 h2 offy offz (x 0) (x 5) (x 4) c
    linarith
  · push Not at c
    obtain ⟨c0, c5, c4⟩ := c
    have e0 : rectInt hy hz offy offz (fun y z => (x 0 + y * x 5 + z * x 4) ^ 2) = 0 := by simp [c0, c5, c4, rectInt]
    rw [e0]
    have c' : x 1 ≠ 0 ∨ x 2 ≠ 0 ∨ x 3 ≠ 0 := by
      by_contra h; push Not at h; obtain ⟨d1, d2, d3⟩ := h
      apply hx; funext i; fin_cases i
      exacts [c0, d1, d2, d3, c4, c5]
    rcases c' with c | c | c
    · have := mul_pos a0 (by positivity : 0 < x 1 ^ 2 + x 2 ^ 2); linarith
    · have := mul_pos a0 (by positivity : 0 < x 1 ^ 2 + x 2 ^ 2); linarith
    · have := mul_pos a1 (by positivity : 0 < x 3 ^ 2); linarith

section
variable {hy hz offy offz rho A Ay Az Ip J : ℝ → ℝ} {dhy dhz doffy doffz drho dA dAy dAz dIp dJ t : ℝ}
variable {C I : ℝ → Matrix (Fin 2) (Fin 2) ℝ} {dC dI : Matrix (Fin 2) (Fin 2) ℝ}

/-- C64: derivatives of the section properties. -/
theorem C64_deriv_properties (h1 : HasDerivAt hy dhy t) (h2 : HasDerivAt hz dhz t) (o1 : HasDerivAt offy doffy t) (o2 : HasDerivAt offz doffz t) :
    HasDerivAt (fun s => area (hy s) (hz s)) (dArea (hy t) dhy (hz t) dhz) t ∧
    HasDerivAt (fun s => areaMoment (hy s) (hz s) (offy s)) (dAreaMoment (hy t) dhy (hz t) dhz (offy t) doffy) t ∧
    HasDerivAt (fun s => areaMoment (hy s) (hz s) (offz s)) (dAreaMoment (hy t) dhy (hz t) dhz (offz t) doffz) t ∧
    HasDerivAt (fun s => polar (hy s) (hz s) (offy s) (offz s)) (dPolar (hy t) dhy (hz t) dhz (offy t) doffy (offz t) doffz) t ∧
    MatDeriv (fun s => areaInertia (hy s) (hz s) (offy s) (offz s)) (dAreaInertia (hy t) dhy (hz t) dhz (offy t) doffy (offz t) doffz) t := by
  have ha := h1.mul h2
  have mom : ∀ {o : ℝ → ℝ} {d : ℝ}, HasDerivAt o d t → HasDerivAt (fun s => areaMoment (hy s) (hz s) (o s)) (dAreaMoment (hy t) dhy (hz t) dhz (o t) d) t :=
    fun ho => (ha.mul ho).congr_deriv (by simp [dAreaMoment]; ring)
  refine ⟨ha, mom o1, mom o2, ?_, ?_⟩
  · refine (ha.mul (((((h1.pow 2).add (h2.pow 2)).div_const 12).add (o1.pow 2)).add (o2.pow 2))).congr_deriv ?_
    simp [dPolar]; ring
  · have c : HasDerivAt (fun s => hy s * hz s * offy s * offz s) (dhy * hz t * offy t * offz t + hy t * dhz * offy t * offz t + hy t * hz t * doffy * offz t +
        hy t * hz t * offy t * doffz) t := ((ha.mul o1).mul o2).congr_deriv (by simp; ring)
    intro i j
    fin_cases i <;> fin_cases j
    · refine (((h2.mul (h1.pow 3)).div_const 12).add (ha.mul (o1.pow 2))).congr_deriv ?_
      simp [dAreaInertia]; ring
    · exact c
    · exact c
    · refine (((h1.mul (h2.pow 3)).div_const 12).add (ha.mul (o2.pow 2))).congr_deriv ?_
      simp [dAreaInertia]; ring

/-- C64: derivatives of the section stiffness matrices. -/
theorem C64_deriv_stiffness (hA : HasDerivAt A dA t) (hJ : HasDerivAt J dJ t) (hAy : HasDerivAt Ay dAy t) (hAz : HasDerivAt Az dAz t) (hC : MatDeriv C dC t)
    (hI : MatDeriv I dI t) :
    MatDeriv (fun s => beamA (A s) (J s) (C s)) (dBeamA (A t) dA (J t) dJ (C t) dC) t ∧
    MatDeriv (fun s => beamB (Ay s) (Az s) (C s)) (dBeamB (Ay t) dAy (Az t) dAz (C t) dC) t ∧
    MatDeriv (fun s => beamD (I s) (C s)) (dBeamD (I t) dI (C t) dC) t := by
  have p : ∀ {i j} {a : ℝ → ℝ} {da : ℝ}, HasDerivAt a da t → HasDerivAt (fun s => C s i j * a s) (C t i j * da + dC i j * a t) t :=
    fun {i j a da} h => ((hC i j).mul h).congr_deriv (by ring)
  have z : ∀ {i j}, HasDerivAt (fun s => C s i j * (0 : ℝ)) (C t i j * 0 + dC i j * 0) t := p (hasDerivAt_const t 0)
  refine ⟨?_, ?_, MatDeriv.smul (hC 0 0) hI⟩
  · intro i j
    fin_cases i <;> fin_cases j
    exacts [p hA, p hA, p hJ, p hJ]
  · intro i j
    fin_cases i <;> fin_cases j
    exacts [p hAz, p hAy, z, z]

/-- C64: derivative of the inertia matrix. -/
theorem C64_deriv_inertia (hr : HasDerivAt rho drho t) (hA : HasDerivAt A dA t) (hAy : HasDerivAt Ay dAy t) (hAz : HasDerivAt Az dAz t)
    (hIp : HasDerivAt Ip dIp t) (hI : MatDeriv I dI t) :
    MatDeriv (fun s => beamInertia (rho s) (A s) (Ay s) (Az s) (Ip s) (I s))
      (dBeamInertia (rho t) drho (A t) dA (Ay t) dAy (Az t) dAz (Ip t) dIp (I t) dI) t := by
  have z : HasDerivAt (fun _ : ℝ => (0 : ℝ)) 0 t := hasDerivAt_const t 0
  refine MatDeriv.smul hr ?_
  intro i j
  fin_cases i <;> fin_cases j
  exacts [hA, z, z, z, hAy, hAz, z, hA, z, z, z, z, z, z, hA, z, z, z, z, z, z, hIp, z, z, hAy, z, z, z, hI 1 1, hI 0 1, hAz, z, z, z, hI 0 1, hI 0 0]

/-- C64: the thermal matrices are the section integrals of `C α`, `y C α` and `z C α` (in the order in which the stiffness energy pairs them with the curvatures). -/
theorem C64_thermal (hy hz offy offz : ℝ) (C : Matrix (Fin 2) (Fin 2) ℝ) (a : Matrix (Fin 2) (Fin 1) ℝ) :
    (∀ i, beamThermalA (area hy hz) C a i 0 = rectInt hy hz offy offz (fun _ _ => (C * a) i 0)) ∧
    beamThermalB (areaMoment hy hz offz) (areaMoment hy hz offy) C a 0 0 = rectInt hy hz offy offz (fun y _ => y * (C * a) 0 0) ∧
    beamThermalB (areaMoment hy hz offz) (areaMoment hy hz offy) C a 1 0 = rectInt hy hz offy offz (fun _ z => z * (C * a) 0 0) := by
  have q := rectInt_quad hy hz offy offz
  refine ⟨fun i => ?_, ?_, ?_⟩
  · have := q ((C * a) i 0) 0 0 0 0 0
    simp only [zero_mul, add_zero] at this
    rw [this]; simp [beamThermalA, mul_comm]
  · have := q 0 ((C * a) 0 0) 0 0 0 0
    simp only [zero_mul, add_zero, zero_add] at this
    simp only [mul_comm _ ((C * a) 0 0)]
    rw [this]; simp [beamThermalB]
  · have := q 0 0 ((C * a) 0 0) 0 0 0
    simp only [zero_mul, add_zero, zero_add] at this
    simp only [mul_comm _ ((C * a) 0 0)]
    rw [this]; simp [beamThermalB, mul_comm]

/-- C64: derivatives of the thermal matrices. -/
theorem C64_deriv_thermal {a : ℝ → Matrix (Fin 2) (Fin 1) ℝ} {da : Matrix (Fin 2) (Fin 1) ℝ} (hA : HasDerivAt A dA t) (hAy : HasDerivAt Ay dAy t)
    (hAz : HasDerivAt Az dAz t) (hC : MatDeriv C dC t) (ha : MatDeriv a da t) :
    MatDeriv (fun s => beamThermalA (A s) (C s) (a s)) (dBeamThermalA (A t) dA (C t) dC (a t) da) t ∧
    MatDeriv (fun s => beamThermalB (Ay s) (Az s) (C s) (a s)) (dBeamThermalB (Ay t) dAy (Az t) dAz (C t) dC (a t) da) t := by
  have hp : MatDeriv (fun s => C s * a s) (C t * da + dC * a t) t := (hC.mul ha).congr (add_comm _ _)
  refine ⟨MatDeriv.smul hA hp, ?_⟩
  intro i j
  fin_cases i <;> fin_cases j
  · exact ((hp 0 0).mul hAz).congr_deriv (by simp [dBeamThermalB]; ring)
  · exact (hAy.mul (hp 0 0)).congr_deriv (by simp [dBeamThermalB])

/-- C64: the transverse shear derivative, when the caller passes a matrix that already is at least 2x2. -/
theorem C64_deriv_shear_partial {Kap G : ℝ → Matrix (Fin 2) (Fin 2) ℝ} {dKap dG : Matrix (Fin 2) (Fin 2) ℝ} (hA : HasDerivAt A dA t) (hK : MatDeriv Kap dKap t)
    (hG : MatDeriv G dG t) {r c : Nat} (hr : 2 ≤ r) (hc : 2 ≤ c) :
    ∃ m, dBeamShear r c (A t) dA (Kap t) dKap (G t) dG = some m ∧ MatDeriv (fun s => beamShear (A s) (Kap s) (G s)) m t := by
  refine ⟨_, by rw [dBeamShear, if_neg (by omega)], fun i j => ?_⟩
  refine (((hG i j).mul hA).mul (hK i j)).congr_deriv ?_
  simp; ring
end

/-- C64, finding: the Timoshenko operator passes an empty matrix, and then the derivative writes out of bounds. -/
theorem C64_deriv_shear_fails (A dA : ℝ) (Kap dKap G dG : Matrix (Fin 2) (Fin 2) ℝ) :
    dBeamShear timoshenkoArg.1 timoshenkoArg.2 A dA Kap dKap G dG = none := by
  simp [dBeamShear, timoshenkoArg]

example : (0 : ℝ) < areaInertia 2 3 1 1 0 0 := by norm_num [areaInertia]
example : ∃ x : Fin 6 → ℝ, x ≠ 0 := ⟨fun _ => 1, fun h => by simpa using congrFun h 0⟩
example : HasDerivAt (fun s => polar s 2 s 1) (dPolar 3 1 2 0 3 1 1 0) 3 :=
  (C64_deriv_properties (hy := fun s => s) (hz := fun _ => 2) (offy := fun s => s) (offz := fun _ => 1) (hasDerivAt_id 3) (hasDerivAt_const _ _) (hasDerivAt_id 3)
    (hasDerivAt_const _ _)).2.2.2.1

/-! ### C63 for beam stacks -/

/-- C63, finding: for beams `set_layers` has no effect on the sections, whatever the stack: the layer offset is stored under a name that `init` does not read. -/
theorem C63_beam_stack_fails (base : ℝ) (cards : List Card) (i : Nat) (c : Card) (hi : cards[i]? = some c) :
    ∃ c', (setLayers1D base cards)[i]? = some c' ∧ zOffset c' = zOffset c := by
  refine ⟨_, by simp [setLayers1D, List.getElem?_zipIdx, hi]; rfl, ?_⟩
  simp [zOffset, Card.get, List.find?_cons]

/-- C63, finding, concrete case: two equal layers on top of each other keep the offsets given by the user (here 0), so they overlap. -/
theorem C63_beam_overlap_fails : (setLayers1D 0 [[("hz", 1), ("hz_off", 0)], [("hz", 1), ("hz_off", 0)]]).map zOffset = [some 0, some 0] := by
  simp [setLayers1D, zOffset, Card.get, List.find?_cons, List.zipIdx]

/-! ### C65 -/

/-- C65: symmetric in the sides. -/
theorem C65_symmetric (hy hz : ℝ) : torsion hy hz = torsion hz hy := by
  unfold torsion
  rcases lt_trichotomy hy hz with h | h | h
  · simp [h, not_lt.2 h.le]
  · subst h; simp
  · simp [h, not_lt.2 h.le]

theorem torsion_le {a b : ℝ} (h : b ≤ a) : torsion a b = a * b ^ 3 * (1 / 3 - 21 / 100 * b / a * (1 - (b / a) ^ 4 / 12)) := by
  unfold torsion
  rcases h.eq_or_lt with h | h
  · subst h; simp
  · simp [h]

/-- C65: the formula with `a` the longer and `b` the shorter side. -/
theorem C65_formula (hy hz : ℝ) :
    torsion hy hz = max hy hz * min hy hz ^ 3 * (1 / 3 - 21 / 100 * (min hy hz / max hy hz) * (1 - min hy hz ^ 4 / (12 * max hy hz ^ 4))) := by
  rcases le_total hz hy with h | h
  · rw [torsion_le h, max_eq_left h, min_eq_right h]; ring
  · rw [C65_symmetric, torsion_le h, max_eq_right h, min_eq_left h]; ring

theorem ratio_bounds {a b : ℝ} (hb : 0 < b) (h : b ≤ a) : 0 < b / a ∧ b / a ≤ 1 :=
  ⟨div_pos hb (hb.trans_le h), (div_le_one (hb.trans_le h)).2 h⟩

/-- C65: positive. -/
theorem C65_pos {hy hz : ℝ} (h1 : 0 < hy) (h2 : 0 < hz) : 0 < torsion hy hz := by
  have key : ∀ a b : ℝ, 0 < b → b ≤ a → 0 < torsion a b := fun a b hb h => by
    rw [torsion_le h]
    have ha := hb.trans_le h
    obtain ⟨r0, r1⟩ := ratio_bounds hb h
    have e : 21 / 100 * b / a * (1 - (b / a) ^ 4 / 12) = 21 / 100 * ((b / a) * (1 - (b / a) ^ 4 / 12)) := by ring
    have : (b / a) * (1 - (b / a) ^ 4 / 12) ≤ 1 := by
      have : 0 ≤ (b / a) ^ 4 := by positivity
      nlinarith
    apply mul_pos (by positivity)
    rw [e]; linarith
  rcases le_total hz hy with h | h
  · exact key _ _ h2 h
  · rw [C65_symmetric]; exact key _ _ h1 h

/-- C65: bounded by the polar moment of the centred section. -/
theorem C65_le_polar {hy hz : ℝ} (h1 : 0 < hy) (h2 : 0 < hz) : torsion hy hz ≤ polar hy hz 0 0 := by
  have key : ∀ a b : ℝ, 0 < b → b ≤ a → torsion a b ≤ polar a b 0 0 := fun a b hb h => by
    rw [torsion_le h]
    have ha := hb.trans_le h
    obtain ⟨r0, r1⟩ := ratio_bounds hb h
    set r := b / a with hr
    have hba : b = r * a := by rw [hr]; field_simp
    have e : a * b ^ 3 * (1 / 3 - 21 / 100 * b / a * (1 - r ^ 4 / 12)) = a ^ 4 * (r ^ 3 * (1 / 3 - 21 / 100 * r * (1 - r ^ 4 / 12))) := by
      rw [hba]; field_simp
    have e2 : polar a b 0 0 = a ^ 4 * (r * (1 + r ^ 2) / 12) := by rw [polar, hba]; ring
    rw [e, e2]
    apply mul_le_mul_of_nonneg_left _ (by positivity)
    have h3 : 0 ≤ r ^ 3 := by positivity
    have h4 : r ^ 4 ≤ 1 := pow_le_one₀ r0.le r1
    have h7 : r ^ 3 * r ^ 4 ≤ r ^ 3 := mul_le_of_le_one_right h3 h4
    have key2 : 3 * r ^ 2 - 231 / 100 * r ^ 3 ≤ 1 := by
      nlinarith [mul_nonneg r0.le (sq_nonneg (r - 866 / 1000)), sq_nonneg (r - 866 / 1000)]
    have : r ^ 3 * (1 / 3 - 21 / 100 * r * (1 - r ^ 4 / 12)) - r * (1 + r ^ 2) / 12 = r / 12 * (3 * r ^ 2 - 252 / 100 * r ^ 3 + 21 / 100 * (r ^ 3 * r ^ 4) - 1) := by ring
    have h5 : r / 12 * (3 * r ^ 2 - 252 / 100 * r ^ 3 + 21 / 100 * (r ^ 3 * r ^ 4) - 1) ≤ 0 :=
      mul_nonpos_of_nonneg_of_nonpos (by positivity) (by linarith)
    linarith
  rcases le_total hz hy with h | h
  · exact key _ _ h2 h
  · rw [C65_symmetric, show polar hy hz 0 0 = polar hz hy 0 0 by unfold polar; ring]; exact key _ _ h1 h

/-- C65: homogeneous of degree four. -/
theorem C65_homogeneous {c : ℝ} (hc : 0 < c) (hy hz : ℝ) : torsion (c * hy) (c * hz) = c ^ 4 * torsion hy hz := by
  have key : ∀ a b : ℝ, b ≤ a → torsion (c * a) (c * b) = c ^ 4 * torsion a b := fun a b h => by
    rw [torsion_le h, torsion_le (mul_le_mul_of_nonneg_left h hc.le)]
    have e1 : 21 / 100 * (c * b) / (c * a) = 21 / 100 * b / a := by
      rw [show 21 / 100 * (c * b) = c * (21 / 100 * b) by ring]; exact mul_div_mul_left _ _ hc.ne'
    have e2 : c * b / (c * a) = b / a := mul_div_mul_left _ _ hc.ne'
    rw [e1, e2]; ring
  rcases le_total hz hy with h | h
  · exact key _ _ h
  · rw [C65_symmetric, key _ _ h, C65_symmetric]

theorem hasDerivAt_torsion_formula {a b : ℝ → ℝ} {da db t : ℝ} (ha : HasDerivAt a da t) (hb : HasDerivAt b db t) (h0 : a t ≠ 0) :
    HasDerivAt (fun s => a s * b s ^ 3 * (1 / 3 - 21 / 100 * b s / a s * (1 - (b s / a s) ^ 4 / 12)))
      (da * b t ^ 3 * (1 / 3 - 21 / 100 * b t / a t * (1 - (b t / a t) ^ 4 / 12)) +
       a t * 3 * b t ^ 2 * db * (1 / 3 - 21 / 100 * b t / a t * (1 - (b t / a t) ^ 4 / 12)) +
       a t * b t ^ 3 * (-(21 / 100) * db / a t * (1 - (b t / a t) ^ 4 / 12) + (21 / 100 * b t / a t ^ 2 * da * (1 - (b t / a t) ^ 4 / 12)) +
        (-(21 / 100) * b t / a t * (-4 * b t ^ 3 * db / a t ^ 4 / 12 + 4 * b t ^ 4 / a t ^ 5 * da / 12)))) t := by
  have q := hb.div ha h0
  have q1 : HasDerivAt (fun s => 21 / 100 * b s / a s) (21 / 100 * ((db * a t - b t * da) / a t ^ 2)) t :=
    ((q.const_mul (21 / 100)).congr_of_eventuallyEq (Filter.Eventually.of_forall fun s => by simp; ring))
  refine ((ha.mul (hb.pow 3)).mul ((q1.mul (((q.pow 4).div_const 12).const_sub 1)).const_sub (1 / 3))).congr_deriv ?_
  simp only [Pi.mul_apply, Pi.pow_apply, Pi.div_apply]
  push_cast
  field_simp
  ring

/-- C65: `derivative` is the derivative, for sides of different length. -/
theorem C65_derivative {hy hz : ℝ → ℝ} {dhy dhz t : ℝ} (h1 : HasDerivAt hy dhy t) (h2 : HasDerivAt hz dhz t) (p1 : 0 < hy t) (p2 : 0 < hz t) (hne : hy t ≠ hz t) :
    HasDerivAt (fun s => torsion (hy s) (hz s)) (dTorsion (hy t) dhy (hz t) dhz) t := by
  rcases lt_or_gt_of_ne hne with h | h
  · have ev : ∀ᶠ s in nhds t, hy s < hz s := h1.continuousAt.eventually_lt h2.continuousAt h
    simp only [dTorsion, gt_iff_lt, not_lt.2 h.le, if_false]
    refine (hasDerivAt_torsion_formula h2 h1 p2.ne').congr_of_eventuallyEq (ev.mono fun s hs => ?_)
    show torsion _ _ = _
    rw [C65_symmetric, torsion_le hs.le]
  · have ev : ∀ᶠ s in nhds t, hz s < hy s := h2.continuousAt.eventually_lt h1.continuousAt h
    simp only [dTorsion, gt_iff_lt, h, if_true]
    refine (hasDerivAt_torsion_formula h1 h2 p1.ne').congr_of_eventuallyEq (ev.mono fun s hs => ?_)
    show torsion _ _ = _
    rw [torsion_le hs.le]

/-- C65: the exclusion of square sections is necessary: there the torsion constant has a kink and no derivative exists. -/
theorem C65_square_kink : ¬ DifferentiableAt ℝ (fun s => torsion s 1) 1 := by
  intro hd
  have hd := hd.hasDerivAt
  set D := deriv (fun s => torsion s 1) 1
  have r := hasDerivAt_torsion_formula (a := fun s => s) (b := fun _ => 1) (hasDerivAt_id 1) (hasDerivAt_const 1 (1 : ℝ)) one_ne_zero
  have l := hasDerivAt_torsion_formula (a := fun _ => 1) (b := fun s => s) (hasDerivAt_const 1 (1 : ℝ)) (hasDerivAt_id 1) one_ne_zero
  have hr : HasDerivWithinAt (fun s => torsion s 1) _ (Set.Ici 1) 1 :=
    r.hasDerivWithinAt.congr (fun s hs => torsion_le hs) (torsion_le le_rfl)
  have hl : HasDerivWithinAt (fun s => torsion s 1) _ (Set.Iic 1) 1 :=
    l.hasDerivWithinAt.congr (fun s hs => by rw [C65_symmetric]; exact torsion_le hs) (torsion_le le_rfl)
  have u1 := (uniqueDiffWithinAt_Ici (1 : ℝ)).eq_deriv _ hr hd.hasDerivWithinAt
  have u2 := (uniqueDiffWithinAt_Iic (1 : ℝ)).eq_deriv _ hl hd.hasDerivWithinAt
  norm_num at u1 u2
  linarith

example : torsion 2 1 = 2 * (1 / 3 - 21 / 200 * (1 - 1 / 192)) := by rw [torsion_le (by norm_num)]; norm_num
example : HasDerivAt (fun s => torsion s 1) (dTorsion 2 1 1 0) 2 :=
  C65_derivative (hy := fun s => s) (hz := fun _ => 1) (hasDerivAt_id 2) (hasDerivAt_const _ _) (by norm_num) (by norm_num) (by norm_num)

end Verif.Section1D
