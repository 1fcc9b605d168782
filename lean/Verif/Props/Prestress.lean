import Mathlib.Analysis.SpecialFunctions.Integrals.Basic
import Mathlib.Analysis.Calculus.Deriv.Mul
import Mathlib.Analysis.SpecialFunctions.Trigonometric.Deriv
import Mathlib.Algebra.BigOperators.Fin
import Mathlib.Tactic.FinCases
import Mathlib.Tactic.LinearCombination
import Mathlib.Tactic.Linarith
import Mathlib.Tactic.NormNum
import Mathlib.Tactic.Ring
import Verif.Model.Prestress
import Verif.Model.Section1D
/-
  C161: prestress resultants of plate and beam sections.  C162: the solid card of isotropic materials.
-/
namespace Verif.Prestress
open Matrix

/-! ### Specification -/

/-- The stress `s` in the axes given by the columns of `T`. -/
def rotated (s T : M3) (i j : Fin 3) : ℝ := ∑ k, ∑ l, T k i * s k l * T l j

/-- Entries of a matrix function have the entries of a matrix as derivatives. -/
def EntryDeriv {m n : Type} (f : ℝ → Matrix m n ℝ) (d : Matrix m n ℝ) : Prop := ∀ i j, HasDerivAt (fun q => f q i j) (d i j) 0

/-! ### Values -/

theorem turned_apply (s T : M3) (i j : Fin 3) : turned s T i j = rotated s T i j := by
  simp only [turned, rotated, Matrix.mul_apply, Matrix.transpose_apply]
  refine Finset.sum_congr rfl fun k _ => ?_
  rw [Finset.mul_sum]
  exact Finset.sum_congr rfl fun l _ => by ring

/-- C161: the plate resultants are the integrals through the thickness of the stress and of its moment, for a section shifted by the offset. -/
theorem C161_plate_value (s T : M3) (h off : ℝ) (i j : Fin 2) :
    plateA s T h i j = (∫ _z in (off - h / 2)..(off + h / 2), rotated s T i.castSucc j.castSucc) ∧
      plateB s T h off i j = ∫ z in (off - h / 2)..(off + h / 2), z * rotated s T i.castSucc j.castSucc := by
  constructor
  · rw [intervalIntegral.integral_const]
    simp only [plateA, lead, Matrix.smul_apply, Matrix.of_apply, turned_apply, smul_eq_mul]
    ring
  · rw [intervalIntegral.integral_mul_const, integral_id]
    simp only [plateB, lead, Matrix.smul_apply, Matrix.of_apply, turned_apply, smul_eq_mul]
    ring

/-- C161: the beam resultants are the integrals over the rectangular section of the axial stress and of its moments about the two axes (with the area moments of the section card). -/
theorem C161_beam_value (s T : M3) (hy hz offy offz : ℝ) :
    beamA s T (Section1D.area hy hz) 0 0 = (∫ _y in (offy - hy / 2)..(offy + hy / 2), ∫ _z in (offz - hz / 2)..(offz + hz / 2), rotated s T 0 0) ∧
      beamB s T (Section1D.areaMoment hy hz offz) (Section1D.areaMoment hy hz offy) 0 0 = (∫ y in (offy - hy / 2)..(offy + hy / 2), ∫ _z in (offz - hz / 2)..(offz + hz / 2), y * rotated s T 0 0) ∧
      beamB s T (Section1D.areaMoment hy hz offz) (Section1D.areaMoment hy hz offy) 0 1 = (∫ _y in (offy - hy / 2)..(offy + hy / 2), ∫ z in (offz - hz / 2)..(offz + hz / 2), z * rotated s T 0 0) ∧
      ∀ A Ay Az i j, (i ≠ 0 ∨ j ≠ 0 → beamA s T A i j = 0) ∧ (i ≠ 0 → beamB s T Ay Az i j = 0) := by
  refine ⟨?_, ?_, ?_, fun A Ay Az i j => ?_⟩
  rotate_left 3
  · fin_cases i <;> fin_cases j <;> simp [beamA, beamB]
  · simp only [intervalIntegral.integral_const, smul_eq_mul]
    simp only [beamA, Section1D.area, turned_apply, Matrix.of_apply, Matrix.cons_val_zero, Matrix.cons_val', Matrix.cons_val_fin_one]
    ring
  · simp only [intervalIntegral.integral_const, smul_eq_mul, intervalIntegral.integral_const_mul, intervalIntegral.integral_mul_const, integral_id]
    simp only [beamB, Section1D.areaMoment, turned_apply, Matrix.of_apply, Matrix.cons_val_zero, Matrix.cons_val', Matrix.cons_val_fin_one]
    ring
  · simp only [intervalIntegral.integral_const, smul_eq_mul, intervalIntegral.integral_const_mul, intervalIntegral.integral_mul_const, integral_id]
    simp only [beamB, Section1D.areaMoment, turned_apply, Matrix.of_apply, Matrix.cons_val_zero, Matrix.cons_val_one, Matrix.cons_val', Matrix.cons_val_fin_one]
    ring

/-! ### Derivatives -/

theorem rotated_deriv (s : ℝ → M3) (ds T : M3) (hs : EntryDeriv s ds) (i j : Fin 3) : HasDerivAt (fun q => rotated (s q) T i j) (rotated ds T i j) 0 :=
  HasDerivAt.fun_sum fun k _ => HasDerivAt.fun_sum fun l _ => ((hs k l).const_mul (T k i)).mul_const (T l j)

/-- C161: for a fixed orientation the derivative of the plate force resultant and of both beam moment resultants is right; for the beam force resultant the axes must in addition coincide with those of the stress. -/
theorem C161_derivative_partial (s : ℝ → M3) (ds T : M3) (hs : EntryDeriv s ds) (h A Ay Az : ℝ → ℝ) (dh dA dAy dAz : ℝ) (hh : HasDerivAt h dh 0) (hA : HasDerivAt A dA 0)
    (hAy : HasDerivAt Ay dAy 0) (hAz : HasDerivAt Az dAz 0) :
    EntryDeriv (fun q => plateA (s q) T (h q)) (dPlateA (s 0) ds T 0 (h 0) dh) ∧ EntryDeriv (fun q => beamB (s q) T (Ay q) (Az q)) (dBeamB (s 0) ds T 0 (Ay 0) dAy (Az 0) dAz) ∧
      (T = 1 → EntryDeriv (fun q => beamA (s q) T (A q)) (dBeamA (s 0) ds T 0 (A 0) dA)) := by
  have hd : ∀ i j, (Tᵀ * (ds * T)) i j = rotated ds T i j := turned_apply ds T
  have hd' : ∀ i j, (Tᵀ * ds * T) i j = rotated ds T i j := fun i j => by rw [Matrix.mul_assoc]; exact hd i j
  have hb : ∀ (a : ℝ → ℝ) (da : ℝ), HasDerivAt a da 0 → HasDerivAt (fun q => rotated (s q) T 0 0 * a q) (rotated (s 0) T 0 0 * da + rotated ds T 0 0 * a 0) 0 := fun a da ha =>
    HasDerivAt.congr_deriv ((rotated_deriv s ds T hs 0 0).fun_mul ha) (by ring)
  refine ⟨fun i j => ?_, fun i j => ?_, fun hT i j => ?_⟩
  · simp only [plateA, dPlateA, lead, Matrix.smul_apply, Matrix.add_apply, Matrix.of_apply, turned_apply, smul_eq_mul, Matrix.mul_zero, Matrix.transpose_zero, Matrix.zero_mul, Matrix.zero_apply, hd, add_zero]
    exact HasDerivAt.congr_deriv (hh.fun_mul (rotated_deriv s ds T hs _ _)) (by ring)
  · simp only [beamB, dBeamB, turned_apply, Matrix.mul_zero, Matrix.transpose_zero, Matrix.zero_mul, Matrix.add_apply, Matrix.zero_apply, hd', add_zero]
    fin_cases i <;> fin_cases j <;> simp only [Fin.zero_eta, Fin.mk_one, Fin.isValue, Matrix.of_apply, Matrix.cons_val', Matrix.cons_val_zero, Matrix.cons_val_one, Matrix.cons_val_fin_one]
    · exact hb Az dAz hAz
    · exact hb Ay dAy hAy
    · exact hasDerivAt_const _ _
    · exact hasDerivAt_const _ _
  · subst hT
    have e : (1 : M3)ᵀ * ds = (1 : M3)ᵀ * (ds * 1) := by rw [Matrix.mul_one]
    simp only [beamA, dBeamA, turned_apply, Matrix.mul_zero, Matrix.transpose_zero, Matrix.zero_mul, Matrix.add_apply, Matrix.zero_apply, add_zero]
    rw [e, hd]
    fin_cases i <;> fin_cases j <;> simp only [Fin.zero_eta, Fin.mk_one, Fin.isValue, Matrix.of_apply, Matrix.cons_val', Matrix.cons_val_zero, Matrix.cons_val_one, Matrix.cons_val_fin_one]
    · exact hb A dA hA
    · exact hasDerivAt_const _ _
    · exact hasDerivAt_const _ _
    · exact hasDerivAt_const _ _

example : ∃ (s : ℝ → M3) (ds : M3), EntryDeriv s ds ∧ ds ≠ 0 := by
  refine ⟨fun q => Matrix.of fun i j => if i = j then q else 0, 1, fun i j => ?_, one_ne_zero⟩
  simp only [Matrix.of_apply, Matrix.one_apply]
  split_ifs
  · exact hasDerivAt_id' 0
  · exact hasDerivAt_const _ _

/-- C161 fails: the derivative of the plate moment resultant contains the stress itself, even for a section that does not depend on the parameter at all. -/
theorem C161_plate_moment_fails (s T : M3) (h off : ℝ) (i j : Fin 2) : EntryDeriv (fun _ => plateB s T h off) 0 ∧
    dPlateB s 0 T 0 h 0 off 0 i j = h * off * rotated (turned s T) T i.castSucc j.castSucc := by
  refine ⟨fun i j => hasDerivAt_const _ _, ?_⟩
  simp only [dPlateB, lead, Matrix.smul_apply, Matrix.add_apply, Matrix.of_apply, smul_eq_mul, Matrix.mul_zero, Matrix.transpose_zero, Matrix.zero_mul, Matrix.zero_apply, zero_mul, mul_zero, add_zero, zero_add]
  exact congrArg (h * off * ·) (turned_apply (turned s T) T _ _)

/-- Unit stress along the first axis. -/
def unitStress : M3 := Matrix.of fun i j => if i = 0 ∧ j = 0 then 1 else 0

example : dPlateB unitStress 0 1 0 2 0 3 0 0 0 = 6 := by
  rw [(C161_plate_moment_fails unitStress 1 2 3 0 0).2]
  simp only [show (Fin.castSucc (0 : Fin 2)) = (0 : Fin 3) from rfl]
  simp [turned, unitStress, rotated, Fin.sum_univ_three]
  norm_num

/-- A rotation of a right angle plus `q` about the third axis. -/
noncomputable def quarter (q : ℝ) : M3 := !![-Real.sin q, -Real.cos q, 0; Real.cos q, -Real.sin q, 0; 0, 0, 1]

/-- The derivative of `quarter` at zero. -/
def dQuarter : M3 := !![-1, 0, 0; 0, -1, 0; 0, 0, 0]

theorem quarter_deriv : EntryDeriv quarter dQuarter := by
  have hs : HasDerivAt (fun q => -Real.sin q) (-1) 0 := by simpa using (Real.hasDerivAt_sin 0).fun_neg
  have hc : HasDerivAt (fun q => Real.cos q) 0 0 := by simpa using Real.hasDerivAt_cos 0
  have hc' : HasDerivAt (fun q => -Real.cos q) 0 0 := by simpa using hc.fun_neg
  intro i j
  fin_cases i <;> fin_cases j
  · exact hs
  · exact hc'
  · exact hasDerivAt_const _ _
  · exact hc
  · exact hs
  · exact hasDerivAt_const _ _
  · exact hasDerivAt_const _ _
  · exact hasDerivAt_const _ _
  · exact hasDerivAt_const _ _

/-- C161 fails: when the orientation depends on the parameter, the derivative of the plate force resultant has the wrong sign (stress along the first axis, orientation turned by a right angle). -/
theorem C161_plate_orientation_fails : HasDerivAt (fun q => plateA unitStress (quarter q) 1 0 1) 1 0 ∧ dPlateA unitStress 0 (quarter 0) dQuarter 1 0 0 1 = -1 := by
  constructor
  · have h : (fun q => plateA unitStress (quarter q) 1 0 1) = fun q => Real.sin q * Real.cos q := by
      funext q
      simp only [plateA, lead, Matrix.smul_apply, Matrix.of_apply, turned_apply, smul_eq_mul, one_mul]
      simp [rotated, Fin.sum_univ_three, unitStress, quarter]
    rw [h]
    refine HasDerivAt.congr_deriv ((Real.hasDerivAt_sin 0).fun_mul (Real.hasDerivAt_cos 0)) ?_
    simp
  · simp [dPlateA, lead, turned, unitStress, quarter, dQuarter, Matrix.mul_apply, Fin.sum_univ_three]

/-- C161 fails: the derivative of the beam force resultant is not rotated to the beam axes: for a beam along the second axis of the stress a stress growing along that axis has a derivative of zero. -/
theorem C161_beam_force_fails : EntryDeriv (fun q => (Matrix.of fun i j => if i = 1 ∧ j = 1 then q else 0 : M3)) (Matrix.of fun i j => if i = 1 ∧ j = 1 then 1 else 0) ∧
    HasDerivAt (fun q => beamA (Matrix.of fun i j => if i = 1 ∧ j = 1 then q else 0) (quarter 0) 1 0 0) 1 0 ∧
    dBeamA 0 (Matrix.of fun i j => if i = 1 ∧ j = 1 then 1 else 0) (quarter 0) 0 1 0 0 0 = 0 := by
  refine ⟨fun i j => ?_, ?_, ?_⟩
  · simp only [Matrix.of_apply]
    split_ifs
    · exact hasDerivAt_id' 0
    · exact hasDerivAt_const _ _
  · have h : (fun q => beamA (Matrix.of fun i j => if i = 1 ∧ j = 1 then q else 0) (quarter 0) 1 0 0) = fun q => q := by
      funext q
      simp only [beamA, turned_apply]
      simp [rotated, Fin.sum_univ_three, quarter]
    rw [h]
    exact hasDerivAt_id' 0
  · simp [dBeamA, turned, quarter, Matrix.mul_apply, Fin.sum_univ_three]

/-- C161 fails: no card hands out a prestress function: debug builds stop, release builds read an uninitialised or null pointer. -/
theorem C161_cards_fail (c : Card) : evaluatePrestress true c = .error .assertFail ∧ evaluatePrestress false c = .error .ub := ⟨rfl, rfl⟩

/-! ### C162 -/

/-- C162: stiffness, inertia, conductance and capacitance of a solid are those of the material, with their derivatives; the thermal stress matrix is the product of stiffness and expansion. -/
theorem C162_solid_card_partial {m n : Nat} (f : ℝ → Matrix (Fin m) (Fin n) ℝ) (df : Matrix (Fin m) (Fin n) ℝ) (hf : EntryDeriv f df) (c : Fn 6 6) (a : Fn 6 1) :
    (passed ⟨f 0, df⟩).value = f 0 ∧ (∃ d, (passed ⟨f 0, df⟩).deriv = .ok d ∧ EntryDeriv f d) ∧ ∀ i j, (thermal c a).value i j = ∑ k, c.value i k * a.value k j :=
  ⟨rfl, ⟨df, rfl, hf⟩, fun _ _ => Matrix.mul_apply⟩

example : ∃ (f : ℝ → Matrix (Fin 1) (Fin 1) ℝ) (df : Matrix (Fin 1) (Fin 1) ℝ), EntryDeriv f df ∧ df ≠ 0 := by
  refine ⟨fun q => Matrix.of fun _ _ => 3 * q, Matrix.of fun _ _ => 3, fun i j => ?_, fun h => ?_⟩
  · exact HasDerivAt.congr_deriv ((hasDerivAt_id' (0 : ℝ)).const_mul 3) (by simp)
  · have := congrFun (congrFun h 0) 0
    norm_num at this

/-- C162 fails: the sensitivity of the thermal stress of an isotropic solid is an error for every material and parameter. -/
theorem C162_thermal_sensitivity_fails (c : Fn 6 6) (a : Fn 6 1) : (thermal c a).deriv = .error .error := rfl

end Verif.Prestress
