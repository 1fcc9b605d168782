import Mathlib.Analysis.SpecialFunctions.Trigonometric.Deriv
import Mathlib.LinearAlgebra.Matrix.Determinant.Basic
import Mathlib.LinearAlgebra.Matrix.Trace
import Mathlib.Tactic.FinCases
import Mathlib.Tactic.LinearCombination
import Mathlib.Tactic.NormNum
import Mathlib.Tactic.Ring
import Verif.Lib.MatDeriv
import Verif.Model.Coordinates
/-
  C47 (stress transformation), C48 (polar frame), C66 (3D orthotropic property).
-/
namespace Verif.Coord
open Matrix

/-! ### Specification -/
section spec
variable {K : Type} [CommRing K]

/-- The six independent components of a stress tensor in the order xx, yy, zz, xy, yz, zx. -/
def voigt (S : Matrix (Fin 3) (Fin 3) K) : Fin 6 → K := fun k => match k with
  | 0 => S 0 0
  | 1 => S 1 1
  | 2 => S 2 2
  | 3 => S 0 1
  | 4 => S 1 2
  | 5 => S 2 0

/-- Engineering strain components of a strain tensor (doubled shear). -/
def engineering (E : Matrix (Fin 3) (Fin 3) K) : Fin 6 → K := fun k => match k with
  | 0 => E 0 0
  | 1 => E 1 1
  | 2 => E 2 2
  | 3 => 2 * E 0 1
  | 4 => 2 * E 1 2
  | 5 => 2 * E 2 0

end spec

section algebra
variable {K : Type} [CommRing K]

/-- C47: for every matrix `T` (orthonormal or not) and every symmetric tensor, multiplying the component vector by the transformation matrix gives the components of `Tᵀ S T`. -/
theorem C47_transform (T S : Matrix (Fin 3) (Fin 3) K) (hS : Sᵀ = S) : voigtMat T *ᵥ voigt S = voigt (Tᵀ * S * T) := by
  have h01 : S 1 0 = S 0 1 := congrFun (congrFun hS 0) 1
  have h12 : S 2 1 = S 1 2 := congrFun (congrFun hS 1) 2
  have h20 : S 0 2 = S 2 0 := congrFun (congrFun hS 2) 0
  funext i
  fin_cases i <;>
  · simp [Matrix.mulVec, dotProduct, Fin.sum_univ_succ, voigtMat, voigt, ids, Matrix.mul_apply, h01, h12, h20]
    ring

/-- Every six-component vector is the component vector of a symmetric tensor. -/
theorem voigt_surj (v : Fin 6 → K) : ∃ S : Matrix (Fin 3) (Fin 3) K, Sᵀ = S ∧ voigt S = v := by
  refine ⟨Matrix.of (fun i j => if i = j then (if i = 0 then v 0 else if i = 1 then v 1 else v 2)
    else if i.val + j.val = 1 then v 3 else if i.val + j.val = 3 then v 4 else v 5), ?_, ?_⟩
  · ext i j; fin_cases i <;> fin_cases j <;> simp
  · funext k; fin_cases k <;> simp [voigt]

theorem voigtMat_one : voigtMat (1 : Matrix (Fin 3) (Fin 3) K) = 1 := by
  ext i j
  obtain ⟨S, hS, h⟩ := voigt_surj (Pi.single j (1 : K))
  have := congrFun (C47_transform 1 S hS) i
  rw [Matrix.transpose_one, Matrix.one_mul, Matrix.mul_one, h] at this
  simpa [Matrix.one_apply, Pi.single_apply] using this

/-- C47: transformation by a product is the product of the transformations. -/
theorem C47_compose (T U : Matrix (Fin 3) (Fin 3) K) : voigtMat (T * U) = voigtMat U * voigtMat T := by
  have key : ∀ v, voigtMat (T * U) *ᵥ v = (voigtMat U * voigtMat T) *ᵥ v := by
    intro v
    obtain ⟨S, hS, rfl⟩ := voigt_surj v
    rw [C47_transform _ _ hS, ← Matrix.mulVec_mulVec, C47_transform _ _ hS, C47_transform]
    · simp only [Matrix.transpose_mul, Matrix.mul_assoc]
    · simp only [Matrix.transpose_mul, Matrix.transpose_transpose, hS, Matrix.mul_assoc]
  ext i j
  have := congrFun (key (Pi.single j 1)) i
  simpa using this

/-- C47: for an orthonormal frame the matrix of the transpose is the inverse. -/
theorem C47_inverse (T : Matrix (Fin 3) (Fin 3) K) (hT : Tᵀ * T = 1) : voigtMat Tᵀ * voigtMat T = 1 ∧ voigtMat T * voigtMat Tᵀ = 1 := by
  have h1 := voigtMat_one (K := K)
  have hT' : T * Tᵀ = 1 := mul_eq_one_comm.1 hT
  exact ⟨by rw [← C47_compose, hT', h1], by rw [← C47_compose, hT, h1]⟩

/-- C47: for an orthonormal frame the mean stress (sum of the first three components) does not change. -/
theorem C47_trace (T S : Matrix (Fin 3) (Fin 3) K) (hT : Tᵀ * T = 1) (hS : Sᵀ = S) :
    (voigtMat T *ᵥ voigt S) 0 + (voigtMat T *ᵥ voigt S) 1 + (voigtMat T *ᵥ voigt S) 2 = voigt S 0 + voigt S 1 + voigt S 2 := by
  rw [C47_transform T S hS]
  have h : (Tᵀ * S * T).trace = S.trace := by
    rw [Matrix.trace_mul_comm, ← Matrix.mul_assoc, mul_eq_one_comm.1 hT, Matrix.one_mul]
  simpa [Matrix.trace, Fin.sum_univ_succ, voigt, add_assoc] using h

/-- C66: contraction with the transpose of the (transposed-frame) transformation gives the engineering strain in the material frame. -/
theorem engineering_transform (A E : Matrix (Fin 3) (Fin 3) K) (hE : Eᵀ = E) :
    (voigtMat Aᵀ)ᵀ *ᵥ engineering E = engineering (Aᵀ * E * A) := by
  have h01 : E 1 0 = E 0 1 := congrFun (congrFun hE 0) 1
  have h12 : E 2 1 = E 1 2 := congrFun (congrFun hE 1) 2
  have h20 : E 0 2 = E 2 0 := congrFun (congrFun hE 2) 0
  funext i
  fin_cases i <;>
  · simp [Matrix.mulVec, dotProduct, Fin.sum_univ_succ, voigtMat, engineering, ids, Matrix.mul_apply, h01, h12, h20]
    ring

/-- C66, stress: for every material stiffness, frame and strain tensor, the rotated stiffness applied to the engineering strain is the component vector of
`A S' Aᵀ`, where `S'` is the material-frame stress caused by the material-frame strain `Aᵀ E A`. -/
theorem C66_stress (C : Matrix (Fin 6) (Fin 6) K) (A E S' : Matrix (Fin 3) (Fin 3) K) (hE : Eᵀ = E) (hS : S'ᵀ = S')
    (hlaw : voigt S' = C *ᵥ engineering (Aᵀ * E * A)) : stiffness3D C A *ᵥ engineering E = voigt (A * S' * Aᵀ) := by
  unfold stiffness3D
  rw [← Matrix.mulVec_mulVec, ← Matrix.mulVec_mulVec, engineering_transform A E hE, ← hlaw, C47_transform _ _ hS, Matrix.transpose_transpose]

/-- C66, energy: the strain energy computed with the rotated stiffness equals that of the material-frame strain. -/
theorem C66_energy (C : Matrix (Fin 6) (Fin 6) K) (A E : Matrix (Fin 3) (Fin 3) K) (hE : Eᵀ = E) :
    engineering E ⬝ᵥ (stiffness3D C A *ᵥ engineering E) = engineering (Aᵀ * E * A) ⬝ᵥ (C *ᵥ engineering (Aᵀ * E * A)) := by
  unfold stiffness3D
  rw [← Matrix.mulVec_mulVec, ← Matrix.mulVec_mulVec, engineering_transform A E hE, Matrix.dotProduct_mulVec, ← Matrix.mulVec_transpose,
    engineering_transform A E hE]

/-- C66: symmetry of the stiffness is kept. -/
theorem C66_symmetric (C : Matrix (Fin 6) (Fin 6) K) (A : Matrix (Fin 3) (Fin 3) K) (hC : Cᵀ = C) : (stiffness3D C A)ᵀ = stiffness3D C A := by
  simp only [stiffness3D, Matrix.transpose_mul, Matrix.transpose_transpose, hC, Matrix.mul_assoc]

/-- C66: an aligned frame (identity) leaves the stiffness and conductance unchanged. -/
theorem C66_identity_frame (C : Matrix (Fin 6) (Fin 6) K) (k : Matrix (Fin 3) (Fin 3) K) : stiffness3D C 1 = C ∧ conductance3D k 1 = k := by
  have h1 := voigtMat_one (K := K)
  simp [stiffness3D, conductance3D, h1]

/-- C66, thermal stress: the expansion matrix is the component vector of `A S' Aᵀ` with `S'` the material-frame stress of the material-frame expansion. -/
theorem C66_expansion (C : Matrix (Fin 6) (Fin 6) K) (al : Matrix (Fin 6) (Fin 1) K) (A S' : Matrix (Fin 3) (Fin 3) K) (hS : S'ᵀ = S')
    (hlaw : voigt S' = fun i => (C * al) i 0) : (fun i => expansion3D C al A i 0) = voigt (A * S' * Aᵀ) := by
  have : (fun i => expansion3D C al A i 0) = voigtMat Aᵀ *ᵥ (fun i => (C * al) i 0) := by
    funext i; simp only [expansion3D, Matrix.mul_assoc]; rfl
  rw [this, ← hlaw, C47_transform _ _ hS, Matrix.transpose_transpose]

/-- C66, conductance, weaker statement: what is computed is the conductance in the frame whose axes are the rows of `A` (the inverse rotation of the one used for the stiffness): with local gradient
`A g` the heat flux is `Aᵀ (k (A g))`. -/
theorem C66_conductance_partial (k A : Matrix (Fin 3) (Fin 3) K) (g : Fin 3 → K) : conductance3D k A *ᵥ g = Aᵀ *ᵥ (k *ᵥ (A *ᵥ g)) := by
  simp only [conductance3D, Matrix.mulVec_mulVec, Matrix.mul_assoc]

end algebra

/-- A rotation about the third axis with cosine 3/5 and sine 4/5. -/
def rot : Matrix (Fin 3) (Fin 3) ℚ := fun i j =>
  if i = 2 ∧ j = 2 then 1 else if i = 2 ∨ j = 2 then 0 else if i = j then 3 / 5 else if i = 0 then -4 / 5 else 4 / 5

theorem rot_orthonormal : rotᵀ * rot = 1 := by
  ext i j
  fin_cases i <;> fin_cases j <;> simp [rot, Matrix.mul_apply, Fin.sum_univ_succ, Matrix.one_apply] <;> norm_num

/-- C66 fails for the conductance: it is not `A k Aᵀ`, the tensor of the frame in which stiffness and expansion are rotated. -/
theorem C66_conductance_frame_fails : ∃ k A : Matrix (Fin 3) (Fin 3) ℚ, Aᵀ * A = 1 ∧ conductance3D k A ≠ A * k * Aᵀ := by
  refine ⟨Matrix.of fun i j => if i = 0 ∧ j = 0 then 1 else 0, rot, rot_orthonormal, fun h => ?_⟩
  have := congrFun (congrFun h 0) 1
  simp [conductance3D, rot, Matrix.mul_apply, Fin.sum_univ_succ] at this
  norm_num at this

/-- Non-vacuity of `C47_inverse`, `C47_trace`, `C66_stress`. -/
example : voigtMat rotᵀ * voigtMat rot = 1 := (C47_inverse rot rot_orthonormal).1

example : ∃ S' : Matrix (Fin 3) (Fin 3) ℚ, S'ᵀ = S' ∧
    voigt S' = (1 : Matrix (Fin 6) (Fin 6) ℚ) *ᵥ engineering (rotᵀ * Matrix.of (fun i j => if i = j then 2 else 1) * rot) := by
  obtain ⟨S, h1, h2⟩ := voigt_surj ((1 : Matrix (Fin 6) (Fin 6) ℚ) *ᵥ engineering (rotᵀ * Matrix.of (fun i j => if i = j then 2 else 1) * rot))
  exact ⟨S, h1, h2⟩

/-! ### Sensitivities -/

/-- C47: the sensitivity matrix is the derivative of the transformation matrix along any differentiable frame. -/
theorem C47_sensitivity (T : ℝ → Matrix (Fin 3) (Fin 3) ℝ) (dT : Matrix (Fin 3) (Fin 3) ℝ) (t : ℝ) (h : MatDeriv T dT t) :
    MatDeriv (fun s => voigtMat (T s)) (voigtMatSens (T t) dT) t := by
  intro i j
  simp only [voigtMat, voigtMatSens]
  split
  · exact (h _ _).mul (h _ _)
  · refine (((h _ _).mul (h _ _)).add ((h _ _).mul (h _ _))).congr_deriv ?_
    ring

/-- C66: derivatives of stiffness, expansion and conductance. -/
theorem C66_stiffness_derivative (C : ℝ → Matrix (Fin 6) (Fin 6) ℝ) (dC : Matrix (Fin 6) (Fin 6) ℝ) (A : ℝ → Matrix (Fin 3) (Fin 3) ℝ)
    (dA : Matrix (Fin 3) (Fin 3) ℝ) (t : ℝ) (hC : MatDeriv C dC t) (hA : MatDeriv A dA t) :
    MatDeriv (fun s => stiffness3D (C s) (A s)) (stiffness3DDeriv (C t) dC (A t) dA) t := by
  have hT := C47_sensitivity (fun s => (A s)ᵀ) dAᵀ t hA.transpose
  refine ((hT.mul hC).mul hT.transpose).congr ?_
  simp only [stiffness3DDeriv, Matrix.add_mul]

theorem C66_expansion_derivative (C : ℝ → Matrix (Fin 6) (Fin 6) ℝ) (dC : Matrix (Fin 6) (Fin 6) ℝ) (al : ℝ → Matrix (Fin 6) (Fin 1) ℝ)
    (dal : Matrix (Fin 6) (Fin 1) ℝ) (A : ℝ → Matrix (Fin 3) (Fin 3) ℝ) (dA : Matrix (Fin 3) (Fin 3) ℝ) (t : ℝ)
    (hC : MatDeriv C dC t) (hal : MatDeriv al dal t) (hA : MatDeriv A dA t) :
    MatDeriv (fun s => expansion3D (C s) (al s) (A s)) (expansion3DDeriv (C t) dC (al t) dal (A t) dA) t := by
  have hT := C47_sensitivity (fun s => (A s)ᵀ) dAᵀ t hA.transpose
  refine ((hT.mul hC).mul hal).congr ?_
  simp only [expansion3DDeriv, Matrix.add_mul]

theorem C66_conductance_derivative (k : ℝ → Matrix (Fin 3) (Fin 3) ℝ) (dk : Matrix (Fin 3) (Fin 3) ℝ) (A : ℝ → Matrix (Fin 3) (Fin 3) ℝ)
    (dA : Matrix (Fin 3) (Fin 3) ℝ) (t : ℝ) (hk : MatDeriv k dk t) (hA : MatDeriv A dA t) :
    MatDeriv (fun s => conductance3D (k s) (A s)) (conductance3DDeriv (k t) dk (A t) dA) t := by
  refine ((hA.transpose.mul hk).mul hA).congr ?_
  simp only [conductance3DDeriv, Matrix.add_mul]

/-! ### C48 -/

/-- C48: for every angle the polar frame is orthonormal. -/
theorem C48_orthonormal (th : ℝ) : (polar th)ᵀ * polar th = 1 := by
  have h := Real.sin_sq_add_cos_sq th
  ext i j
  fin_cases i <;> fin_cases j <;> simp [polar, Matrix.mul_apply, Fin.sum_univ_succ] <;> first | ring1 | linear_combination h

/-- C48: and right handed. -/
theorem C48_right_handed (th : ℝ) : (polar th).det = 1 := by
  have h := Real.sin_sq_add_cos_sq th
  rw [Matrix.det_fin_three]
  simp [polar]
  linear_combination h

/-- C48: when the angle is that of the point `(x, y)` at distance `r > 0` from the axis, the first axis is the radial direction, the second the circumferential one, the third the `z` axis. -/
theorem C48_axes (th r x y : ℝ) (hr : 0 < r) (hx : x = r * Real.cos th) (hy : y = r * Real.sin th) :
    (polar th 0 0 = x / r ∧ polar th 1 0 = y / r ∧ polar th 2 0 = 0) ∧
    (polar th 0 1 = -(y / r) ∧ polar th 1 1 = x / r ∧ polar th 2 1 = 0) ∧
    (polar th 0 2 = 0 ∧ polar th 1 2 = 0 ∧ polar th 2 2 = 1) := by
  have : r ≠ 0 := ne_of_gt hr
  subst hx hy
  simp [polar, this]

/-- C48: the derivative of the frame is the one returned. -/
theorem C48_derivative (th : ℝ → ℝ) (dth t : ℝ) (h : HasDerivAt th dth t) : MatDeriv (fun s => polar (th s)) (polarDeriv (th t) dth) t := by
  intro i j
  have hs := h.sin
  have hc := h.cos
  fin_cases i <;> fin_cases j <;> simp only [polar, polarDeriv, Fin.zero_eta, Fin.mk_one, Fin.reduceFinMk, Fin.isValue] <;> norm_num
  all_goals first
    | exact hasDerivAt_const _ _
    | (refine hc.congr_deriv ?_; ring)
    | (refine hs.congr_deriv ?_; ring)
    | (refine hs.neg.congr_deriv ?_; ring)

example : ∃ r x y : ℝ, 0 < r ∧ x = r * Real.cos 1 ∧ y = r * Real.sin 1 := ⟨2, _, _, by norm_num, rfl, rfl⟩

end Verif.Coord
