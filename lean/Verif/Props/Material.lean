import Mathlib.Analysis.Calculus.Deriv.Inv
import Mathlib.Analysis.Calculus.Deriv.Pow
import Mathlib.LinearAlgebra.Matrix.DotProduct
import Mathlib.Tactic.FieldSimp
import Mathlib.Tactic.Linarith
import Mathlib.Tactic.NormNum
import Mathlib.Tactic.Ring
import Mathlib.Tactic.Positivity
import Verif.Lib.MatDeriv
import Verif.Model.Material
/-
  C56 (isotropic stiffness), C57 (isotropic sensitivities), C58 (requests), C59 (orthotropic stiffness), C60 (orthotropic sensitivities).
-/
namespace Verif.Material
open Matrix

/-! ### Specification: Hooke compliances -/

/-- Isotropic 3D compliance: direct strains `(σ_i - ν(σ_j + σ_k)) / E`, engineering shear strains `2(1+ν) τ / E`. -/
noncomputable def hooke3D (E nu : ℝ) : Matrix (Fin 6) (Fin 6) ℝ := fill3D (1 / E) (-nu / E) (2 * (1 + nu) / E)

/-- Plane stress compliance: the in-plane rows and columns (xx, yy, xy) of the 3D compliance. -/
noncomputable def hookePlaneStress (E nu : ℝ) : Matrix (Fin 3) (Fin 3) ℝ := (hooke3D E nu).submatrix ![0, 1, 3] ![0, 1, 3]

/-- Positive definite: symmetric with positive energy of every nonzero strain. -/
def PosDefQ {n : Nat} (M : Matrix (Fin n) (Fin n) ℝ) : Prop := M.transpose = M ∧ ∀ x : Fin n → ℝ, x ≠ 0 → 0 < x ⬝ᵥ (M *ᵥ x)

/-! ### C56 -/

/-- C56: the 3D matrix is the inverse of the Hooke compliance. -/
theorem C56_3d_inverse (E nu : ℝ) (hE : E ≠ 0) (h1 : 1 + nu ≠ 0) (h2 : 1 - 2 * nu ≠ 0) : iso3D E nu * hooke3D E nu = 1 := by
  have e : 1 - nu - 2 * nu * nu = (1 + nu) * (1 - 2 * nu) := by ring
  have h2' : 1 - nu * 2 ≠ 0 := by rwa [mul_comm nu]
  simp only [iso3D, e]
  ext i j
  fin_cases i <;> fin_cases j <;> simp [hooke3D, fill3D, Matrix.mul_apply, Fin.sum_univ_six] <;> field_simp <;> ring

/-- C56: the plane stress matrix is the inverse of the in-plane compliance (so zero out-of-plane stress). -/
theorem C56_plane_stress_inverse (E nu : ℝ) (hE : E ≠ 0) (h1 : 1 + nu ≠ 0) (h2 : 1 - nu ≠ 0) : iso2D true E nu * hookePlaneStress E nu = 1 := by
  have hd : 1 - nu * nu ≠ 0 := by
    have : 1 - nu * nu = (1 + nu) * (1 - nu) := by ring
    rw [this]; exact mul_ne_zero h1 h2
  have hd' : 1 - nu ^ 2 ≠ 0 := by rwa [pow_two]
  have e : hookePlaneStress E nu = !![1 / E, -nu / E, 0; -nu / E, 1 / E, 0; 0, 0, 2 * (1 + nu) / E] := by
    ext i j; fin_cases i <;> fin_cases j <;> rfl
  rw [e]
  ext i j
  fin_cases i <;> fin_cases j <;>
    simp [iso2D, Matrix.mul_apply, Fin.sum_univ_three] <;> field_simp <;> ring

/-- C56: the plane strain matrix is the in-plane restriction of the 3D matrix (so zero out-of-plane strain). -/
theorem C56_plane_strain_restriction (E nu : ℝ) : iso2D false E nu = (iso3D E nu).submatrix ![0, 1, 3] ![0, 1, 3] := by
  have : (1 + nu) * (1 - 2 * nu) = 1 - nu - 2 * nu * nu := by ring
  ext i j
  fin_cases i <;> fin_cases j <;> simp [iso2D, iso3D, fill3D, this]

/-- C56: the section matrices for beams and for transverse shear are the moduli of the 3D compliance: Young's modulus `1 / S₁₁`, shear modulus `1 / S₄₄`. -/
theorem C56_moduli (E nu : ℝ) :
    (E ≠ 0 → 1 + nu ≠ 0 → iso1D E nu * !![hooke3D E nu 0 0, 0; 0, hooke3D E nu 3 3] = 1) ∧
    (E ≠ 0 → 1 + nu ≠ 0 → isoShear E nu * !![hooke3D E nu 4 4, 0; 0, hooke3D E nu 5 5] = 1) := by
  refine ⟨fun hE h1 => ?_, fun hE h1 => ?_⟩ <;>
  · ext i j
    fin_cases i <;> fin_cases j <;> simp [iso1D, isoShear, hooke3D, fill3D, Matrix.mul_apply, Fin.sum_univ_two, hE] <;> field_simp

theorem posdef_fill3D {a b g : ℝ} (h1 : 0 < a - b) (h2 : 0 < a + 2 * b) (hg : 0 < g) : PosDefQ (fill3D a b g) := by
  constructor
  · ext i j; fin_cases i <;> fin_cases j <;> rfl
  · intro x hx
    have e : x ⬝ᵥ (fill3D a b g *ᵥ x) = (a - b) / 3 * ((x 0 - x 1) ^ 2 + (x 1 - x 2) ^ 2 + (x 2 - x 0) ^ 2) + (a + 2 * b) / 3 * (x 0 + x 1 + x 2) ^ 2 +
        g * (x 3 ^ 2 + x 4 ^ 2 + x 5 ^ 2) := by
      simp [dotProduct, mulVec, fill3D, Fin.sum_univ_six]; ring
    rw [e]
    by_contra hn
    push Not at hn
    have p1 : 0 ≤ (a - b) / 3 * ((x 0 - x 1) ^ 2 + (x 1 - x 2) ^ 2 + (x 2 - x 0) ^ 2) := by positivity
    have p2 : 0 ≤ (a + 2 * b) / 3 * (x 0 + x 1 + x 2) ^ 2 := by positivity
    have p3 : 0 ≤ g * (x 3 ^ 2 + x 4 ^ 2 + x 5 ^ 2) := by positivity
    have q1 : (x 0 - x 1) ^ 2 + (x 1 - x 2) ^ 2 + (x 2 - x 0) ^ 2 = 0 := by
      rcases mul_eq_zero.1 (le_antisymm (by linarith) p1) with h | h
      · linarith
      · exact h
    have q2 : (x 0 + x 1 + x 2) ^ 2 = 0 := by
      rcases mul_eq_zero.1 (le_antisymm (by linarith) p2) with h | h
      · linarith
      · exact h
    have q3 : x 3 ^ 2 + x 4 ^ 2 + x 5 ^ 2 = 0 := by
      rcases mul_eq_zero.1 (le_antisymm (by linarith) p3) with h | h
      · linarith
      · exact h
    have s01 := sq_nonneg (x 0 - x 1); have s12 := sq_nonneg (x 1 - x 2); have s20 := sq_nonneg (x 2 - x 0)
    have t3 := sq_nonneg (x 3); have t4 := sq_nonneg (x 4); have t5 := sq_nonneg (x 5)
    have e1 : x 0 - x 1 = 0 := pow_eq_zero_iff two_ne_zero |>.1 (by linarith)
    have e2 : x 1 - x 2 = 0 := pow_eq_zero_iff two_ne_zero |>.1 (by linarith)
    have e3 : x 0 + x 1 + x 2 = 0 := pow_eq_zero_iff two_ne_zero |>.1 q2
    have e4 : x 3 = 0 := pow_eq_zero_iff two_ne_zero |>.1 (by linarith)
    have e5 : x 4 = 0 := pow_eq_zero_iff two_ne_zero |>.1 (by linarith)
    have e6 : x 5 = 0 := pow_eq_zero_iff two_ne_zero |>.1 (by linarith)
    apply hx
    funext i
    fin_cases i <;> simp <;> linarith

theorem posdef_2 {a b g : ℝ} (h1 : 0 < a - b) (h2 : 0 < a + b) (hg : 0 < g) : PosDefQ (!![a, b, 0; b, a, 0; 0, 0, g] : Matrix (Fin 3) (Fin 3) ℝ) := by
  constructor
  · ext i j; fin_cases i <;> fin_cases j <;> rfl
  · intro x hx
    have e : x ⬝ᵥ ((!![a, b, 0; b, a, 0; 0, 0, g] : Matrix (Fin 3) (Fin 3) ℝ) *ᵥ x) =
        (a - b) / 2 * (x 0 - x 1) ^ 2 + (a + b) / 2 * (x 0 + x 1) ^ 2 + g * x 2 ^ 2 := by
      simp [dotProduct, mulVec, Fin.sum_univ_three]; ring
    rw [e]
    by_contra hn
    push Not at hn
    have p1 : 0 ≤ (a - b) / 2 * (x 0 - x 1) ^ 2 := by positivity
    have p2 : 0 ≤ (a + b) / 2 * (x 0 + x 1) ^ 2 := by positivity
    have p3 : 0 ≤ g * x 2 ^ 2 := by positivity
    have z : ∀ {c y : ℝ}, 0 < c → c * y ^ 2 = 0 → y = 0 := fun hc h => by
      rcases mul_eq_zero.1 h with h | h
      · exact absurd h hc.ne'
      · exact pow_eq_zero_iff two_ne_zero |>.1 h
    have e1 := z (half_pos h1) (le_antisymm (by linarith) p1)
    have e2 := z (half_pos h2) (le_antisymm (by linarith) p2)
    have e3 := z hg (le_antisymm (by linarith) p3)
    apply hx
    funext i
    fin_cases i <;> simp <;> linarith

/-- C56: symmetric positive definite for `E > 0` and `-1 < ν < 1/2`, in 1D, plane stress, plane strain, 3D, and transverse shear. -/
theorem C56_posdef (E nu : ℝ) (hE : 0 < E) (h1 : -1 < nu) (h2 : nu < 1 / 2) :
    PosDefQ (iso3D E nu) ∧ PosDefQ (iso2D true E nu) ∧ PosDefQ (iso2D false E nu) ∧ PosDefQ (iso1D E nu) ∧ PosDefQ (isoShear E nu) := by
  have a1 : 0 < 1 + nu := by linarith
  have a2 : 0 < 1 - 2 * nu := by linarith
  have a3 : 0 < 1 - nu := by linarith
  have a4 : 1 - nu * 2 ≠ 0 := by linarith
  have hd : 1 - nu - 2 * nu * nu = (1 + nu) * (1 - 2 * nu) := by ring
  have hs : 1 - nu * nu = (1 + nu) * (1 - nu) := by ring
  have hg : 0 < E / 2 / (1 + nu) := by positivity
  have hdiag : ∀ a b : ℝ, 0 < a → 0 < b → PosDefQ (!![a, 0; 0, b] : Matrix (Fin 2) (Fin 2) ℝ) := fun a b ha hb => by
    constructor
    · ext i j; fin_cases i <;> fin_cases j <;> rfl
    · intro x hx
      have e : x ⬝ᵥ ((!![a, 0; 0, b] : Matrix (Fin 2) (Fin 2) ℝ) *ᵥ x) = a * x 0 ^ 2 + b * x 1 ^ 2 := by
        simp [dotProduct, mulVec, Fin.sum_univ_two]; ring
      rw [e]
      by_cases h0 : x 0 = 0
      · have : x 1 ≠ 0 := fun h => hx (by funext i; fin_cases i <;> simp [h0, h])
        have : 0 < x 1 ^ 2 := by positivity
        have := mul_pos hb this
        rw [h0]; linarith [mul_pos hb ‹0 < x 1 ^ 2›]
      · have : 0 < x 0 ^ 2 := by positivity
        have h2 : 0 ≤ b * x 1 ^ 2 := by positivity
        have := mul_pos ha this
        linarith
  refine ⟨posdef_fill3D ?_ ?_ hg, ?_, ?_, hdiag _ _ hE hg, hdiag _ _ hg hg⟩
  · rw [hd]
    have : E * (1 - nu) / ((1 + nu) * (1 - 2 * nu)) - E * nu / ((1 + nu) * (1 - 2 * nu)) = E / (1 + nu) := by field_simp; ring
    rw [this]; positivity
  · rw [hd]
    have : E * (1 - nu) / ((1 + nu) * (1 - 2 * nu)) + 2 * (E * nu / ((1 + nu) * (1 - 2 * nu))) = E / (1 - 2 * nu) := by field_simp; ring
    rw [this]; positivity
  · simp only [iso2D, if_true]
    refine posdef_2 ?_ ?_ hg
    · rw [hs]
      have : E / ((1 + nu) * (1 - nu)) - E * nu / ((1 + nu) * (1 - nu)) = E / (1 + nu) := by field_simp
      rw [this]; positivity
    · rw [hs]
      have : E / ((1 + nu) * (1 - nu)) + E * nu / ((1 + nu) * (1 - nu)) = E / (1 - nu) := by field_simp
      rw [this]; positivity
  · simp only [iso2D, Bool.false_eq_true, if_false]
    refine posdef_2 ?_ ?_ hg
    · have : E * (1 - nu) / ((1 + nu) * (1 - 2 * nu)) - E * nu / ((1 + nu) * (1 - 2 * nu)) = E / (1 + nu) := by field_simp; ring
      rw [this]; positivity
    · have : E * (1 - nu) / ((1 + nu) * (1 - 2 * nu)) + E * nu / ((1 + nu) * (1 - 2 * nu)) = E / ((1 + nu) * (1 - 2 * nu)) := by field_simp; ring
      rw [this]; positivity

/-- Steel. -/
example : PosDefQ (iso3D 210 0.3) := (C56_posdef 210 0.3 (by norm_num) (by norm_num) (by norm_num)).1
/-- The bound on Poisson's ratio is needed: beyond 1/2 a hydrostatic strain has negative energy. -/
example : ¬ PosDefQ (iso3D 1 0.6) := fun h => by
  have := h.2 ![1, 1, 1, 0, 0, 0] (fun h => by have := congrFun h 0; simp at this)
  simp [iso3D, fill3D, dotProduct, mulVec, Fin.sum_univ_six] at this
  norm_num at this

/-! ### C57 -/

theorem hasDerivAt_shearG {E nu : ℝ → ℝ} {dE dnu t : ℝ} (hE : HasDerivAt E dE t) (hn : HasDerivAt nu dnu t) (h1 : 1 + nu t ≠ 0) :
    HasDerivAt (fun s => E s / 2 / (1 + nu s)) (1 / 2 / (1 + nu t) * dE + -E t / 2 / (1 + nu t) ^ 2 * dnu) t := by
  refine ((hE.div_const 2).div (hn.const_add 1) h1).congr_deriv ?_
  field_simp; ring

/-- C57: 1D, 2D plane stress, 2D plane strain and 3D derivatives are the derivatives, for any dependence of `E` and `ν` on the parameter. -/
theorem C57_derivative_partial {E nu : ℝ → ℝ} {dE dnu t : ℝ} (hE : HasDerivAt E dE t) (hn : HasDerivAt nu dnu t)
    (h1 : 1 + nu t ≠ 0) (h2 : 1 - 2 * nu t ≠ 0) (h3 : 1 - nu t ≠ 0) :
    MatDeriv (fun s => iso1D (E s) (nu s)) (dIso1D (E t) (nu t) dE dnu) t ∧
    MatDeriv (fun s => iso2D true (E s) (nu s)) (dIso2D true (E t) (nu t) dE dnu) t ∧
    MatDeriv (fun s => iso2D false (E s) (nu s)) (dIso2D false (E t) (nu t) dE dnu) t ∧
    MatDeriv (fun s => iso3D (E s) (nu s)) (dIso3D (E t) (nu t) dE dnu) t := by
  have hG := hasDerivAt_shearG hE hn h1
  have hd : 1 - nu t - 2 * nu t * nu t ≠ 0 := by
    have : 1 - nu t - 2 * nu t * nu t = (1 + nu t) * (1 - 2 * nu t) := by ring
    rw [this]; exact mul_ne_zero h1 h2
  have hs : 1 - nu t * nu t ≠ 0 := by
    have : 1 - nu t * nu t = (1 + nu t) * (1 - nu t) := by ring
    rw [this]; exact mul_ne_zero h1 h3
  have hsq : 2 * nu t * nu t + nu t - 1 ≠ 0 := fun h => hd (by linarith)
  have dS : HasDerivAt (fun s => 1 - nu s * nu s) (-(dnu * nu t + nu t * dnu)) t := (hn.mul hn).const_sub 1
  have dP : HasDerivAt (fun s => (1 + nu s) * (1 - 2 * nu s)) (dnu * (1 - 2 * nu t) + (1 + nu t) * (-(2 * dnu))) t :=
    (hn.const_add 1).mul ((hn.const_mul 2).const_sub 1)
  have dT : HasDerivAt (fun s => 1 - nu s - 2 * nu s * nu s) (-dnu - (2 * dnu * nu t + 2 * nu t * dnu)) t :=
    (hn.const_sub 1).sub ((hn.const_mul 2).mul hn)
  have hP0 : (1 + nu t) * (1 - 2 * nu t) ≠ 0 := mul_ne_zero h1 h2
  have eT : 1 - nu t - 2 * nu t * nu t = (1 + nu t) * (1 - 2 * nu t) := by ring
  have eQ : 2 * nu t * nu t + nu t - 1 = -((1 + nu t) * (1 - 2 * nu t)) := by ring
  have eS : 1 - nu t * nu t = (1 + nu t) * (1 - nu t) := by ring
  have c0 : HasDerivAt (fun _ : ℝ => (0 : ℝ)) 0 t := hasDerivAt_const t 0
  -- plane stress entries
  have s1 : HasDerivAt (fun s => E s / (1 - nu s * nu s)) (dE * (1 / (1 - nu t * nu t)) + dnu * (E t / (1 - nu t * nu t) ^ 2 * 2 * nu t)) t := by
    refine (hE.div dS hs).congr_deriv ?_
    field_simp; ring
  have s2 : HasDerivAt (fun s => E s * nu s / (1 - nu s * nu s))
      (dE * (nu t / (1 - nu t * nu t)) + dnu * (E t / (1 - nu t * nu t) + E t * nu t / (1 - nu t * nu t) ^ 2 * 2 * nu t)) t := by
    refine ((hE.mul hn).div dS hs).congr_deriv ?_
    simp only [Pi.mul_apply]; field_simp; ring
  -- plane strain entries
  have p1 : HasDerivAt (fun s => E s * (1 - nu s) / ((1 + nu s) * (1 - 2 * nu s)))
      (dE * ((1 - nu t) / ((1 + nu t) * (1 - 2 * nu t))) + dnu * (E t * 2 * nu t * (2 - nu t) / (2 * nu t * nu t + nu t - 1) ^ 2)) t := by
    refine ((hE.mul (hn.const_sub 1)).div dP hP0).congr_deriv ?_
    simp only [Pi.mul_apply, eQ]; field_simp; ring
  have p2 : HasDerivAt (fun s => E s * nu s / ((1 + nu s) * (1 - 2 * nu s)))
      (dE * (nu t / ((1 + nu t) * (1 - 2 * nu t))) + dnu * ((2 * nu t * nu t * E t + E t) / (2 * nu t * nu t + nu t - 1) ^ 2)) t := by
    refine ((hE.mul hn).div dP hP0).congr_deriv ?_
    simp only [Pi.mul_apply, eQ]; field_simp; ring
  -- 3D entries
  have t1 : HasDerivAt (fun s => E s * (1 - nu s) / (1 - nu s - 2 * nu s * nu s))
      (dE * ((1 - nu t) / (1 - nu t - 2 * nu t * nu t)) + dnu * (-E t / (1 - nu t - 2 * nu t * nu t) +
        E t * (1 - nu t) / (1 - nu t - 2 * nu t * nu t) ^ 2 * (1 + 4 * nu t))) t := by
    refine ((hE.mul (hn.const_sub 1)).div dT hd).congr_deriv ?_
    simp only [Pi.mul_apply]; rw [eT]; field_simp; ring
  have t2 : HasDerivAt (fun s => E s * nu s / (1 - nu s - 2 * nu s * nu s))
      (dE * (nu t / (1 - nu t - 2 * nu t * nu t)) + dnu * (E t / (1 - nu t - 2 * nu t * nu t) +
        E t * nu t / (1 - nu t - 2 * nu t * nu t) ^ 2 * (1 + 4 * nu t))) t := by
    refine ((hE.mul hn).div dT hd).congr_deriv ?_
    simp only [Pi.mul_apply]; rw [eT]; field_simp; ring
  have hG' : HasDerivAt (fun s => E s / 2 / (1 + nu s)) (dE * (1 / 2 / (1 + nu t)) + dnu * (-E t / 2 / (1 + nu t) ^ 2)) t :=
    hG.congr_deriv (by ring)
  refine ⟨?_, ?_, ?_, ?_⟩
  · intro i j
    have a : HasDerivAt E (dE * 1 + dnu * 0) t := hE.congr_deriv (by ring)
    have z : HasDerivAt (fun _ : ℝ => (0 : ℝ)) (dE * 0 + dnu * 0) t := c0.congr_deriv (by ring)
    fin_cases i <;> fin_cases j
    exacts [a, z, z, hG']
  · intro i j
    have z : HasDerivAt (fun _ : ℝ => (0 : ℝ)) (dE * 0 + dnu * 0) t := c0.congr_deriv (by ring)
    have s2' := s2.congr_deriv (show _ = dE * (1 * nu t / (1 - nu t * nu t)) +
      dnu * (E t / (1 - nu t * nu t) + E t * nu t / (1 - nu t * nu t) ^ 2 * 2 * nu t) by rw [one_mul])
    simp only [iso2D, dIso2D, if_true]
    fin_cases i <;> fin_cases j
    exacts [s1, s2', z, s2', s1, z, z, z, hG']
  · intro i j
    have z : HasDerivAt (fun _ : ℝ => (0 : ℝ)) (dE * 0 + dnu * 0) t := c0.congr_deriv (by ring)
    have p1' := p1.congr_deriv (show _ = dE * (1 * (1 - nu t) / ((1 + nu t) * (1 - 2 * nu t))) +
      dnu * (E t * 2 * nu t * (2 - nu t) / (2 * nu t * nu t + nu t - 1) ^ 2) by rw [one_mul])
    have p2' := p2.congr_deriv (show _ = dE * (1 * nu t / ((1 + nu t) * (1 - 2 * nu t))) +
      dnu * ((2 * nu t * nu t * E t + E t) / (2 * nu t * nu t + nu t - 1) ^ 2) by rw [one_mul])
    simp only [iso2D, dIso2D, Bool.false_eq_true, if_false]
    fin_cases i <;> fin_cases j
    exacts [p1', p2', z, p2', p1', z, z, z, hG']
  · intro i j
    have z : HasDerivAt (fun _ : ℝ => (0 : ℝ)) (dE * 0 + dnu * 0) t := c0.congr_deriv (by ring)
    simp only [iso3D, dIso3D]
    fin_cases i <;> fin_cases j
    exacts [t1, t2, t2, z, z, z, t2, t1, t2, z, z, z, t2, t2, t1, z, z, z, z, z, z, hG', z, z, z, z, z, z, hG', z, z, z, z, z, z, hG']

/-- C57: inertia, thermal expansion, capacitance and conductance derivatives. -/
theorem C57_thermal_inertia {rho cp : ℝ → ℝ} {drho dcp t : ℝ} (hr : HasDerivAt rho drho t) (hc : HasDerivAt cp dcp t)
    (dim : Nat) {al : ℝ → Nat → ℝ} {dal : Nat → ℝ} (ha : ∀ i, HasDerivAt (fun s => al s i) (dal i) t) :
    MatDeriv (fun s => inertia3D (rho s)) (inertia3D drho) t ∧
    (∀ i, HasDerivAt (fun s => thermalExp dim (al s) i) (thermalExp dim dal i) t) ∧
    HasDerivAt (fun s => capacitance (cp s) (rho s)) (dCapacitance (cp t) (rho t) dcp drho) t ∧
    MatDeriv (fun s => conductance dim (al s)) (conductance dim dal) t := by
  refine ⟨?_, ?_, hc.mul hr, ?_⟩
  · intro i j
    have z : HasDerivAt (fun _ : ℝ => (0 : ℝ)) 0 t := hasDerivAt_const t 0
    fin_cases i <;> fin_cases j
    exacts [hr, z, z, z, hr, z, z, z, hr]
  · intro i
    simp only [thermalExp]
    split
    · exact ha _
    · exact hasDerivAt_const _ _
  · intro i j
    simp only [conductance]
    split
    · exact ha _
    · exact hasDerivAt_const _ _

/-- C57: the thermal expansion acts on the direct strains only, and equally for the isotropic card. -/
theorem C57_thermal_expansion_shape (alpha : ℝ) :
    thermalExp 1 (fun _ => alpha) = ![alpha, 0] ∧ thermalExp 2 (fun _ => alpha) = ![alpha, alpha, 0] ∧
    thermalExp 3 (fun _ => alpha) = ![alpha, alpha, alpha, 0, 0, 0] := by
  refine ⟨?_, ?_, ?_⟩ <;> funext i
  · fin_cases i <;> rfl
  · fin_cases i <;> rfl
  · fin_cases i <;> rfl

/-- C57, finding: the derivative of the transverse shear matrix is always returned as zero; it is wrong whenever the shear modulus varies, e.g. for the
parameter `E` itself. -/
theorem C57_transverse_shear_fails (E nu dE dnu : ℝ) : dIsoShear E nu dE dnu = 0 ∧
    (1 + nu ≠ 0 → ¬ MatDeriv (fun s => isoShear s nu) (dIsoShear E nu 1 0) E) := by
  refine ⟨rfl, fun h hd => ?_⟩
  have h1 := hd 0 0
  have h2 := hasDerivAt_shearG (hasDerivAt_id E) (hasDerivAt_const E nu) h
  have := h1.unique h2
  simp [dIsoShear] at this
  exact (div_ne_zero (by norm_num : (2:ℝ)⁻¹ ≠ 0) h) this.symm

/-- The hypotheses of `C57_derivative_partial` at `E = 210 s`, `ν = 0.3`. -/
example : MatDeriv (fun s => iso3D (210 * s) 0.3) (dIso3D (210 * 1) 0.3 210 0) 1 :=
  (C57_derivative_partial (E := fun s => 210 * s) (nu := fun _ => 0.3) (by simpa using (hasDerivAt_id (1:ℝ)).const_mul 210) (hasDerivAt_const _ _)
    (by norm_num) (by norm_num) (by norm_num)).2.2.2

/-! ### C58 -/

/-- The kind a request asks for. -/
def asked : Nat → Bool → Kind
  | 1, _ => .k1D
  | 2, ps => .k2D ps
  | _, _ => .k3D

/-- C58: 1D and 3D requests are always answered with what was asked; 2D requests are answered with the flag of the first 2D request of the card's life. -/
theorem C58_answer (l : List (Nat × Bool)) (c : Cache) (h : runRequests {} l = some c) (d : Nat) (ps : Bool) (hd : d = 1 ∨ d = 2 ∨ d = 3) :
    ∃ c', stiffnessMatrix c d ps =
      some (asked d (((l.find? fun r => r.1 == 2).map fun r => if d = 2 then r.2 else ps).getD ps), c') := by
  have key : ∀ (l : List (Nat × Bool)) (c0 c : Cache), runRequests c0 l = some c →
      c.m2 = (c0.m2.orElse fun _ => (l.find? fun r => r.1 == 2).map Prod.snd) := by
    intro l
    induction l with
    | nil => intro c0 c h; simp only [runRequests, Option.some.injEq] at h; subst h; cases c0.m2 <;> simp
    | cons r l ih =>
      intro c0 c h
      obtain ⟨d, ps⟩ := r
      simp only [runRequests] at h
      match d, h with
      | 0, h => simp [stiffnessMatrix] at h
      | 1, h =>
        simp only [stiffnessMatrix, Option.bind_some] at h
        rw [ih _ _ h]
        simp
      | 2, h =>
        simp only [stiffnessMatrix] at h
        cases hm : c0.m2 with
        | none =>
          simp only [hm, Option.bind_some] at h
          rw [ih _ _ h]
          simp
        | some f =>
          simp only [hm, Option.bind_some] at h
          rw [ih _ _ h]
          simp [hm]
      | 3, h =>
        simp only [stiffnessMatrix, Option.bind_some] at h
        rw [ih _ _ h]
        simp
      | n + 4, h => simp [stiffnessMatrix] at h
  have hm := key l {} c h
  simp only [Option.orElse_none] at hm
  rcases hd with rfl | rfl | rfl
  · exact ⟨_, rfl⟩
  · simp only [stiffnessMatrix]
    cases hf : l.find? fun r => r.1 == 2 with
    | none => rw [hf] at hm; simp only [Option.map_none] at hm; rw [hm]; exact ⟨_, rfl⟩
    | some r => rw [hf] at hm; simp only [Option.map_some] at hm; rw [hm]; exact ⟨_, rfl⟩
  · exact ⟨_, rfl⟩

/-- C58 for cards on which all 2D requests use the same flag: every request is answered with what was asked. -/
theorem C58_uniform_flag_partial (l : List (Nat × Bool)) (c : Cache) (h : runRequests {} l = some c) (d : Nat) (ps : Bool) (hd : d = 1 ∨ d = 2 ∨ d = 3)
    (hu : ∀ r ∈ l, r.1 = 2 → r.2 = ps) : ∃ c', stiffnessMatrix c d ps = some (asked d ps, c') := by
  obtain ⟨c', hc'⟩ := C58_answer l c h d ps hd
  refine ⟨c', ?_⟩
  rw [hc']
  cases hf : l.find? fun r => r.1 == 2 with
  | none => rfl
  | some r =>
    have h2 := List.find?_some hf
    have := hu r (List.mem_of_find?_eq_some hf) (by simpa using h2)
    simp [this]

/-- C58, finding: after a plane stress request the same card answers a plane strain request with the plane stress matrix. -/
theorem C58_flag_ignored_fails : ∃ c, runRequests {} [(2, true)] = some c ∧ ∀ k c', stiffnessMatrix c 2 false = some (k, c') → k ≠ asked 2 false := by
  refine ⟨_, rfl, ?_⟩
  intro k c' h
  simp only [stiffnessMatrix, Option.some.injEq, Prod.mk.injEq] at h
  rw [← h.1]; decide

/-- The two matrices differ as soon as `ν ≠ 0`, so the wrong answer is observable. -/
theorem C58_difference_observable (E nu : ℝ) (hE : E ≠ 0) (hn : nu ≠ 0) (h1 : 1 + nu ≠ 0) (h2 : 1 - 2 * nu ≠ 0) (h3 : 1 - nu ≠ 0) : iso2D true E nu ≠ iso2D false E nu := by
  intro h
  have := congrFun (congrFun h 0) 1
  simp [iso2D] at this
  have hs : 1 - nu * nu = (1 + nu) * (1 - nu) := by ring
  rw [hs] at this
  have h2' : 1 - nu * 2 ≠ 0 := by rwa [mul_comm nu]
  field_simp at this
  apply hn; linarith

end Verif.Material
