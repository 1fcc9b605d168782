import Verif.Props.Material
import Mathlib.LinearAlgebra.Matrix.NonsingularInverse
/-
  C59 (orthotropic stiffness), C60 (orthotropic sensitivities).
-/
namespace Verif.Material
open Matrix

/-! ### Specification: orthotropic compliance -/

/-- The direct part of the orthotropic compliance: `ε₁ = σ₁/E₁ - ν₁₂ σ₂/E₁ - ν₃₁ σ₃/E₃` and so on (`ν_ij/E_i = ν_ji/E_j`). -/
noncomputable def compl3 (c : Ortho) : Matrix (Fin 3) (Fin 3) ℝ :=
  !![1 / c.E11, -c.nu12 / c.E11, -c.nu31 / c.E33; -c.nu12 / c.E11, 1 / c.E22, -c.nu23 / c.E22; -c.nu31 / c.E33, -c.nu23 / c.E22, 1 / c.E33]

/-- The full compliance; shear strains in the order 12, 23, 13. -/
noncomputable def compl6 (c : Ortho) : Matrix (Fin 6) (Fin 6) ℝ := blocks6 (compl3 c) (1 / c.G12) (1 / c.G23) (1 / c.G13)

/-- In-plane compliance: rows and columns 11, 22, 12 of the full compliance. -/
noncomputable def compl2 (c : Ortho) : Matrix (Fin 3) (Fin 3) ℝ := (compl6 c).submatrix ![0, 1, 3] ![0, 1, 3]

/-- Nonzero moduli. -/
structure Ortho.Ok (c : Ortho) : Prop where
  e1 : c.E11 ≠ 0
  e2 : c.E22 ≠ 0
  e3 : c.E33 ≠ 0
  g1 : c.G12 ≠ 0
  g2 : c.G13 ≠ 0
  g3 : c.G23 ≠ 0

theorem blocks6_mul (A B : Matrix (Fin 3) (Fin 3) ℝ) (a b c a' b' c' : ℝ) :
    blocks6 A a b c * blocks6 B a' b' c' = blocks6 (A * B) (a * a') (b * b') (c * c') := by
  ext i j
  fin_cases i <;> fin_cases j <;> simp [blocks6, Matrix.mul_apply, Fin.sum_univ_six, Fin.sum_univ_three]

theorem blocks6_one : blocks6 1 1 1 1 = (1 : Matrix (Fin 6) (Fin 6) ℝ) := by
  ext i j
  fin_cases i <;> fin_cases j <;> simp [blocks6]

theorem orthoN_compl {c : Ortho} (h : c.Ok) : orthoN c * compl3 c = orthoD c • (1 : Matrix (Fin 3) (Fin 3) ℝ) := by
  obtain ⟨h1, h2, h3, -, -, -⟩ := h
  ext i j
  fin_cases i <;> fin_cases j <;> simp [orthoN, compl3, orthoD, Matrix.mul_apply, Fin.sum_univ_three] <;> field_simp <;> ring

/-- C59: the 3D matrix is the inverse of the orthotropic compliance. -/
theorem C59_3d_inverse {c : Ortho} (h : c.Ok) (hD : orthoD c ≠ 0) : ortho3D c * compl6 c = 1 := by
  have e : (Matrix.of fun i j => orthoN c i j / orthoD c) * compl3 c = 1 := by
    have e1 : (Matrix.of fun i j => orthoN c i j / orthoD c) = (1 / orthoD c) • orthoN c := by
      ext i j; simp [div_eq_inv_mul]
    rw [e1, Matrix.smul_mul, orthoN_compl h, smul_smul, one_div_mul_cancel hD, one_smul]
  unfold ortho3D compl6
  rw [blocks6_mul, e, mul_one_div_cancel h.g1, mul_one_div_cancel h.g2, mul_one_div_cancel h.g3, blocks6_one]

theorem orthoN_symm {c : Ortho} (h : c.Ok) : (orthoN c).transpose = orthoN c := by
  obtain ⟨h1, h2, h3, -, -, -⟩ := h
  ext i j
  fin_cases i <;> fin_cases j <;> simp [orthoN] <;> field_simp <;> ring

/-- C59: symmetric, 3D. -/
theorem C59_3d_symmetric {c : Ortho} (h : c.Ok) : (ortho3D c).transpose = ortho3D c := by
  have hs := orthoN_symm h
  have e : ∀ i j, orthoN c j i = orthoN c i j := fun i j => congrFun (congrFun hs i) j
  ext i j
  fin_cases i <;> fin_cases j <;> simp [ortho3D, blocks6] <;> rw [e]

/-- C59: the plane strain matrix is the in-plane restriction of the 3D matrix. -/
theorem C59_plane_strain_restriction {c : Ortho} (h : c.Ok) (hD : orthoD c ≠ 0) :
    ortho2D false c = (ortho3D c).submatrix ![0, 1, 3] ![0, 1, 3] := by
  have hs := orthoN_symm h
  have es : orthoN c 1 0 = orthoN c 0 1 := congrFun (congrFun hs 0) 1
  obtain ⟨h1, h2, h3, -, -, -⟩ := h
  have hden : strainDen c.E11 c.E22 c.E33 c.nu12 c.nu23 c.nu31 = -(c.E11 * c.E22 * c.E33) * orthoD c := by
    simp only [strainDen, orthoD]; field_simp; ring
  have e0 : -((c.E11 * c.E11) * c.E33 * (c.E22 - c.E33 * (c.nu23 * c.nu23))) = -(c.E11 * c.E22 * c.E33) * orthoN c 0 0 := by
    have q : orthoN c 0 0 = (1 - c.nu23 * (c.nu23 * c.E33 / c.E22)) * c.E11 := rfl
    rw [q]; field_simp
  have e1 : -(c.E11 * (c.E22 * c.E22) * (c.E33 - c.E11 * (c.nu31 * c.nu31))) = -(c.E11 * c.E22 * c.E33) * orthoN c 1 1 := by
    have q : orthoN c 1 1 = (1 - c.nu31 * c.E11 / c.E33 * c.nu31) * c.E22 := rfl
    rw [q]; field_simp
  have e01 : -(c.E11 * c.E22 * c.E33 * (c.E22 * c.nu12 + c.E11 * c.nu23 * c.nu31)) = -(c.E11 * c.E22 * c.E33) * orthoN c 0 1 := by
    have q : orthoN c 0 1 = (c.nu12 * c.E22 / c.E11 + c.nu23 * c.nu31) * c.E11 := rfl
    rw [q]; field_simp
  have hne : -(c.E11 * c.E22 * c.E33) ≠ 0 := neg_ne_zero.2 (mul_ne_zero (mul_ne_zero h1 h2) h3)
  have k : ∀ x, -(c.E11 * c.E22 * c.E33) * x / (-(c.E11 * c.E22 * c.E33) * orthoD c) = x / orthoD c := fun x => mul_div_mul_left _ _ hne
  simp only [ortho2D, Bool.false_eq_true, if_false, hden, e0, e1, e01, k]
  ext i j
  fin_cases i <;> fin_cases j <;> simp [ortho3D, blocks6, es]

/-- C59: the plane stress matrix is the inverse of the in-plane compliance. -/
theorem C59_plane_stress_inverse {c : Ortho} (h : c.Ok) (hD : 1 - c.nu12 * (c.nu12 * c.E22 / c.E11) ≠ 0) : ortho2D true c * compl2 c = 1 := by
  obtain ⟨h1, h2, h3, g1, -, -⟩ := h
  have e : compl2 c = !![1 / c.E11, -c.nu12 / c.E11, 0; -c.nu12 / c.E11, 1 / c.E22, 0; 0, 0, 1 / c.G12] := by
    ext i j; fin_cases i <;> fin_cases j <;> rfl
  have hD' : c.E11 - c.nu12 ^ 2 * c.E22 ≠ 0 := fun h => hD (by field_simp; linarith)
  rw [e]
  ext i j
  fin_cases i <;> fin_cases j <;> simp [ortho2D, Matrix.mul_apply, Fin.sum_univ_three] <;> field_simp <;> ring

/-- C59: symmetric, 2D. -/
theorem C59_2d_symmetric {c : Ortho} (h : c.E11 ≠ 0) (ps : Bool) : (ortho2D ps c).transpose = ortho2D ps c := by
  ext i j
  cases ps <;> fin_cases i <;> fin_cases j <;> simp [ortho2D] <;> field_simp

/-- Isotropic data. -/
noncomputable def isoData (E nu : ℝ) : Ortho := ⟨E, E, E, nu, nu, nu, E / 2 / (1 + nu), E / 2 / (1 + nu), E / 2 / (1 + nu)⟩

/-- C59: with isotropic data the orthotropic matrices are the isotropic ones. -/
theorem C59_isotropic (E nu : ℝ) (hE : E ≠ 0) (h1 : 1 + nu ≠ 0) (h2 : 1 - 2 * nu ≠ 0) :
    ortho3D (isoData E nu) = iso3D E nu ∧ (∀ ps, ortho2D ps (isoData E nu) = iso2D ps E nu) ∧
    ortho1D (isoData E nu).E11 (isoData E nu).G12 = iso1D E nu ∧ orthoShear (isoData E nu).G12 = isoShear E nu := by
  have hD : orthoD (isoData E nu) = (1 + nu) * (1 + nu) * (1 - 2 * nu) := by
    simp only [orthoD, isoData]; field_simp; ring
  have h2' : 1 - nu * 2 ≠ 0 := by rwa [mul_comm nu]
  have e : 1 - nu - 2 * nu * nu = (1 + nu) * (1 - 2 * nu) := by ring
  have hok : (isoData E nu).Ok := by
    have : E / 2 / (1 + nu) ≠ 0 := div_ne_zero (div_ne_zero hE two_ne_zero) h1
    exact ⟨hE, hE, hE, this, this, this⟩
  have h3 : ortho3D (isoData E nu) = iso3D E nu := by
    simp only [ortho3D, iso3D, hD, e]
    ext i j
    fin_cases i <;> fin_cases j <;> simp [blocks6, fill3D, orthoN, isoData] <;> field_simp <;> ring
  refine ⟨h3, ?_, rfl, rfl⟩
  intro ps
  cases ps
  · rw [C59_plane_strain_restriction hok (by rw [hD]; exact mul_ne_zero (mul_ne_zero h1 h1) h2), h3, C56_plane_strain_restriction]
  · ext i j
    fin_cases i <;> fin_cases j <;> simp [ortho2D, iso2D, isoData, hE] <;> ring

/-- C59: the stiffness is positive definite when the moduli, `1 - ν₁₂ν₂₁` and the determinant `D` are positive. -/
theorem C59_posdef {c : Ortho} (h1 : 0 < c.E11) (h2 : 0 < c.E22) (h3 : 0 < c.E33) (g1 : 0 < c.G12) (g2 : 0 < c.G13) (g3 : 0 < c.G23)
    (hp : 0 < 1 - c.nu12 * (c.nu12 * c.E22 / c.E11)) (hD : 0 < orthoD c) : PosDefQ (ortho3D c) := by
  have hok : c.Ok := ⟨h1.ne', h2.ne', h3.ne', g1.ne', g2.ne', g3.ne'⟩
  have hinv := C59_3d_inverse hok hD.ne'
  have hinv' : compl6 c * ortho3D c = 1 := _root_.mul_eq_one_comm.1 hinv
  refine ⟨C59_3d_symmetric hok, fun x hx => ?_⟩
  -- x = S y with y = C x
  set y := ortho3D c *ᵥ x with hy
  have hxy : x = compl6 c *ᵥ y := by rw [hy, mulVec_mulVec, hinv', one_mulVec]
  have hy0 : y ≠ 0 := fun h => hx (by rw [hxy, h, mulVec_zero])
  set P := 1 - c.nu12 * (c.nu12 * c.E22 / c.E11) with hP
  -- the energy in terms of the stress, by completing squares
  have e : x ⬝ᵥ y = 1 / c.E11 * (y 0 - c.nu12 * y 1 - c.nu31 * c.E11 / c.E33 * y 2) ^ 2 +
      P / c.E22 * (y 1 - (c.nu23 + c.nu12 * (c.nu31 * c.E22 / c.E33)) / P * y 2) ^ 2 + orthoD c / (P * c.E33) * y 2 ^ 2 +
      (1 / c.G12 * y 3 ^ 2 + 1 / c.G23 * y 4 ^ 2 + 1 / c.G13 * y 5 ^ 2) := by
    rw [hxy]
    have : (compl6 c *ᵥ y) ⬝ᵥ y = (1 / c.E11 * y 0 - c.nu12 / c.E11 * y 1 - c.nu31 / c.E33 * y 2) * y 0 +
        (-c.nu12 / c.E11 * y 0 + 1 / c.E22 * y 1 - c.nu23 / c.E22 * y 2) * y 1 +
        (-c.nu31 / c.E33 * y 0 - c.nu23 / c.E22 * y 1 + 1 / c.E33 * y 2) * y 2 +
        (1 / c.G12 * y 3 ^ 2 + 1 / c.G23 * y 4 ^ 2 + 1 / c.G13 * y 5 ^ 2) := by
      simp [dotProduct, mulVec, compl6, compl3, blocks6, Fin.sum_univ_six]; ring
    rw [this]
    congr 1
    have hD' : orthoD c = P - c.nu31 * (c.nu31 * c.E11 / c.E33) - c.nu23 * (c.nu23 * c.E33 / c.E22) - 2 * (c.nu12 * c.nu23 * c.nu31) := by
      rw [hP]; simp only [orthoD]; field_simp; ring
    have hPE : P = (c.E11 - c.nu12 ^ 2 * c.E22) / c.E11 := by rw [hP]; field_simp
    have hQ : c.E11 - c.nu12 ^ 2 * c.E22 ≠ 0 := fun h => hp.ne' (by rw [hPE, h, zero_div])
    rw [hD', hPE]
    field_simp
    ring
  rw [e]
  have q0 : 0 < 1 / c.E11 := by positivity
  have q1 : 0 < P / c.E22 := by positivity
  have q2 : 0 < orthoD c / (P * c.E33) := by positivity
  have q3 : 0 < 1 / c.G12 := by positivity
  have q4 : 0 < 1 / c.G23 := by positivity
  have q5 : 0 < 1 / c.G13 := by positivity
  by_contra hn
  push Not at hn
  have p0 := mul_nonneg q0.le (sq_nonneg (y 0 - c.nu12 * y 1 - c.nu31 * c.E11 / c.E33 * y 2))
  have p1 := mul_nonneg q1.le (sq_nonneg (y 1 - (c.nu23 + c.nu12 * (c.nu31 * c.E22 / c.E33)) / P * y 2))
  have p2 := mul_nonneg q2.le (sq_nonneg (y 2))
  have p3 := mul_nonneg q3.le (sq_nonneg (y 3))
  have p4 := mul_nonneg q4.le (sq_nonneg (y 4))
  have p5 := mul_nonneg q5.le (sq_nonneg (y 5))
  have z : ∀ {c y : ℝ}, 0 < c → c * y ^ 2 = 0 → y = 0 := fun hc h => by
    rcases mul_eq_zero.1 h with h | h
    · exact absurd h hc.ne'
    · exact pow_eq_zero_iff two_ne_zero |>.1 h
  have y2 := z q2 (le_antisymm (by linarith) p2)
  have y3 := z q3 (le_antisymm (by linarith) p3)
  have y4 := z q4 (le_antisymm (by linarith) p4)
  have y5 := z q5 (le_antisymm (by linarith) p5)
  have y1 := z q1 (le_antisymm (by linarith) p1)
  rw [y2, mul_zero, sub_zero] at y1
  have y0 := z q0 (le_antisymm (by linarith) p0)
  rw [y1, y2, mul_zero, mul_zero, sub_zero, sub_zero] at y0
  apply hy0
  funext i
  fin_cases i
  exacts [y0, y1, y2, y3, y4, y5]

/-- A concrete orthotropic material. -/
noncomputable def exOrtho : Ortho := ⟨10, 5, 4, 1/5, 1/10, 1/10, 2, 2, 2⟩

example : PosDefQ (ortho3D exOrtho) := by
  apply C59_posdef <;> norm_num [exOrtho, orthoD]
example : ortho3D exOrtho * compl6 exOrtho = 1 := by
  apply C59_3d_inverse
  · constructor <;> norm_num [exOrtho]
  · norm_num [exOrtho, orthoD]

/-! ### C60 -/

/-- A one-parameter family of constants with its derivative at `t`. -/
structure OrthoDeriv (c : ℝ → Ortho) (dc : Ortho) (t : ℝ) : Prop where
  e11 : HasDerivAt (fun s => (c s).E11) dc.E11 t
  e22 : HasDerivAt (fun s => (c s).E22) dc.E22 t
  e33 : HasDerivAt (fun s => (c s).E33) dc.E33 t
  n12 : HasDerivAt (fun s => (c s).nu12) dc.nu12 t
  n23 : HasDerivAt (fun s => (c s).nu23) dc.nu23 t
  n31 : HasDerivAt (fun s => (c s).nu31) dc.nu31 t
  g12 : HasDerivAt (fun s => (c s).G12) dc.G12 t
  g13 : HasDerivAt (fun s => (c s).G13) dc.G13 t
  g23 : HasDerivAt (fun s => (c s).G23) dc.G23 t

theorem hasDerivAt_ratio {a b e : ℝ → ℝ} {da db de t : ℝ} (ha : HasDerivAt a da t) (hb : HasDerivAt b db t) (he : HasDerivAt e de t) (h0 : e t ≠ 0) :
    HasDerivAt (fun s => a s * b s / e s) (da * b t / e t + a t * db / e t - a t * b t / e t / e t * de) t := by
  refine ((ha.mul hb).div he h0).congr_deriv ?_
  simp only [Pi.mul_apply]; field_simp

/-- C60, 3D: `derivative` is the derivative, for any dependence of the nine constants on the parameter. -/
theorem C60_3d {c : ℝ → Ortho} {dc : Ortho} {t : ℝ} (hc : OrthoDeriv c dc t) (h : (c t).Ok) (hD : orthoD (c t) ≠ 0) :
    MatDeriv (fun s => ortho3D (c s)) (dOrtho3D (c t) dc) t := by
  have n21 := hasDerivAt_ratio hc.n12 hc.e22 hc.e11 h.e1
  have n13 := hasDerivAt_ratio hc.n31 hc.e11 hc.e33 h.e3
  have n32 := hasDerivAt_ratio hc.n23 hc.e33 hc.e22 h.e2
  have dD : HasDerivAt (fun s => orthoD (c s)) (dOrthoD (c t) dc) t := by
    simp only [orthoD]
    refine ((((((hasDerivAt_const t (1:ℝ)).sub (hc.n12.mul n21)).sub (n13.mul hc.n31)).sub (hc.n23.mul n32)).sub
      ((hc.n12.mul hc.n23).mul hc.n31)).sub ((n13.mul n21).mul n32)).congr_deriv ?_
    simp only [Pi.mul_apply, dOrthoD]; ring
  have dN : MatDeriv (fun s => orthoN (c s)) (dOrthoN (c t) dc) t := by
    intro i j
    fin_cases i <;> fin_cases j
    · refine (((hc.n23.mul n32).const_sub 1).mul hc.e11).congr_deriv ?_
      simp only [dOrthoN, Pi.mul_apply, Pi.add_apply, Matrix.of_apply, Matrix.cons_val, Fin.isValue, Fin.mk_zero, Fin.mk_one, Fin.zero_eta, Fin.reduceFinMk]; ring
    · refine ((n21.add (hc.n23.mul hc.n31)).mul hc.e11).congr_deriv ?_
      simp only [dOrthoN, Pi.mul_apply, Pi.add_apply, Matrix.of_apply, Matrix.cons_val, Fin.isValue, Fin.mk_zero, Fin.mk_one, Fin.zero_eta, Fin.reduceFinMk]; ring
    · refine ((hc.n31.add (n21.mul n32)).mul hc.e11).congr_deriv ?_
      simp only [dOrthoN, Pi.mul_apply, Pi.add_apply, Matrix.of_apply, Matrix.cons_val, Fin.isValue, Fin.mk_zero, Fin.mk_one, Fin.zero_eta, Fin.reduceFinMk]; ring
    · refine ((hc.n12.add (n13.mul n32)).mul hc.e22).congr_deriv ?_
      simp only [dOrthoN, Pi.mul_apply, Pi.add_apply, Matrix.of_apply, Matrix.cons_val, Fin.isValue, Fin.mk_zero, Fin.mk_one, Fin.zero_eta, Fin.reduceFinMk]; ring
    · refine (((n13.mul hc.n31).const_sub 1).mul hc.e22).congr_deriv ?_
      simp only [dOrthoN, Pi.mul_apply, Pi.add_apply, Matrix.of_apply, Matrix.cons_val, Fin.isValue, Fin.mk_zero, Fin.mk_one, Fin.zero_eta, Fin.reduceFinMk]; ring
    · refine ((n32.add (hc.n12.mul hc.n31)).mul hc.e22).congr_deriv ?_
      simp only [dOrthoN, Pi.mul_apply, Pi.add_apply, Matrix.of_apply, Matrix.cons_val, Fin.isValue, Fin.mk_zero, Fin.mk_one, Fin.zero_eta, Fin.reduceFinMk]; ring
    · refine ((n13.add (hc.n12.mul hc.n23)).mul hc.e33).congr_deriv ?_
      simp only [dOrthoN, Pi.mul_apply, Pi.add_apply, Matrix.of_apply, Matrix.cons_val, Fin.isValue, Fin.mk_zero, Fin.mk_one, Fin.zero_eta, Fin.reduceFinMk]; ring
    · refine ((hc.n23.add (n13.mul n21)).mul hc.e33).congr_deriv ?_
      simp only [dOrthoN, Pi.mul_apply, Pi.add_apply, Matrix.of_apply, Matrix.cons_val, Fin.isValue, Fin.mk_zero, Fin.mk_one, Fin.zero_eta, Fin.reduceFinMk]; ring
    · refine (((hc.n12.mul n21).const_sub 1).mul hc.e33).congr_deriv ?_
      simp only [dOrthoN, Pi.mul_apply, Pi.add_apply, Matrix.of_apply, Matrix.cons_val, Fin.isValue, Fin.mk_zero, Fin.mk_one, Fin.zero_eta, Fin.reduceFinMk]; ring
  have dM : ∀ i j, HasDerivAt (fun s => orthoN (c s) i j / orthoD (c s))
      (orthoN (c t) i j * (-dOrthoD (c t) dc / orthoD (c t) / orthoD (c t)) + dOrthoN (c t) dc i j / orthoD (c t)) t := fun i j => by
    refine ((dN i j).div dD hD).congr_deriv ?_
    field_simp; ring
  intro i j
  have z : HasDerivAt (fun _ : ℝ => (0 : ℝ)) 0 t := hasDerivAt_const t 0
  fin_cases i <;> fin_cases j
  exacts [dM 0 0, dM 0 1, dM 0 2, z, z, z, dM 1 0, dM 1 1, dM 1 2, z, z, z, dM 2 0, dM 2 1, dM 2 2, z, z, z,
    z, z, z, hc.g12, z, z, z, z, z, z, hc.g23, z, z, z, z, z, z, hc.g13]

/-- C60: 1D and transverse shear. -/
theorem C60_1d_shear {E G : ℝ → ℝ} {dE dG t : ℝ} (hE : HasDerivAt E dE t) (hG : HasDerivAt G dG t) :
    MatDeriv (fun s => ortho1D (E s) (G s)) (ortho1D dE dG) t ∧ MatDeriv (fun s => orthoShear (G s)) (orthoShear dG) t := by
  have z : HasDerivAt (fun _ : ℝ => (0 : ℝ)) 0 t := hasDerivAt_const t 0
  constructor <;> intro i j <;> fin_cases i <;> fin_cases j
  exacts [hE, z, z, hG, hG, z, z, hG]

theorem hasDerivAt_quot {n d : ℝ → ℝ} {dn dd t : ℝ} (hn : HasDerivAt n dn t) (hd : HasDerivAt d dd t) (h0 : d t ≠ 0) :
    HasDerivAt (fun s => n s / d s) (n t * (-dd / d t / d t) + dn / d t) t := by
  refine (hn.div hd h0).congr_deriv ?_
  field_simp; ring

/-- The plane stress branch computes the derivative when its local variables hold the right values. -/
theorem dPlaneStress_correct {c : ℝ → Ortho} {dc : Ortho} {t : ℝ} (hc : OrthoDeriv c dc t) (h1 : (c t).E11 ≠ 0)
    (hD : 1 - (c t).nu12 * ((c t).nu12 * (c t).E22 / (c t).E11) ≠ 0) :
    MatDeriv (fun s => ortho2D true (c s)) (dPlaneStress (c t).E11 (c t).E22 (c t).nu12 dc.E11 dc.E22 dc.nu12 dc.G12) t := by
  have n21 := hasDerivAt_ratio hc.n12 hc.e22 hc.e11 h1
  have dD : HasDerivAt (fun s => 1 - (c s).nu12 * ((c s).nu12 * (c s).E22 / (c s).E11)) _ t := (hc.n12.mul n21).const_sub 1
  have z : HasDerivAt (fun _ : ℝ => (0 : ℝ)) 0 t := hasDerivAt_const t 0
  simp only [ortho2D, if_true, dPlaneStress]
  intro i j
  fin_cases i <;> fin_cases j
  · refine (hasDerivAt_quot hc.e11 dD hD).congr_deriv ?_
    simp [-mul_eq_mul_left_iff]; ring
  · refine (hasDerivAt_quot (n21.mul hc.e11) dD hD).congr_deriv ?_
    simp; ring
  · exact z
  · refine (hasDerivAt_quot (hc.n12.mul hc.e22) dD hD).congr_deriv ?_
    simp; ring
  · refine (hasDerivAt_quot hc.e22 dD hD).congr_deriv ?_
    simp [-mul_eq_mul_left_iff]; ring
  · exact z
  · exact z
  · exact z
  · exact hc.g12

/-- C60, plane stress: right when the functions nu12 and nu31 agree (value and derivative) at the evaluation point, since the code uses nu31 in place of nu12. -/
theorem C60_plane_stress_partial {c : ℝ → Ortho} {dc : Ortho} {t : ℝ} (hc : OrthoDeriv c dc t) (h1 : (c t).E11 ≠ 0)
    (hD : 1 - (c t).nu12 * ((c t).nu12 * (c t).E22 / (c t).E11) ≠ 0) (hn : (c t).nu31 = (c t).nu12) (hdn : dc.nu31 = dc.nu12) :
    ∃ m, dOrtho2D true (c t) dc = some m ∧ MatDeriv (fun s => ortho2D true (c s)) m t := by
  refine ⟨_, rfl, ?_⟩
  rw [hn, hdn]
  exact dPlaneStress_correct hc h1 hD

/-- C60, finding: with `ν₁₂ = 1/2, ν₃₁ = 0`, the plane stress derivative with respect to `E₁₁` is wrong. -/
theorem C60_plane_stress_fails : ∃ (c : ℝ → Ortho) (dc : Ortho), OrthoDeriv c dc 1 ∧ (c 1).Ok ∧ orthoD (c 1) ≠ 0 ∧
    ∀ m, dOrtho2D true (c 1) dc = some m → ¬ MatDeriv (fun s => ortho2D true (c s)) m 1 := by
  let c : ℝ → Ortho := fun s => ⟨s, 1, 1, 1/2, 0, 0, 1, 1, 1⟩
  let dc : Ortho := ⟨1, 0, 0, 0, 0, 0, 0, 0, 0⟩
  have hc : OrthoDeriv c dc 1 := ⟨hasDerivAt_id 1, hasDerivAt_const _ _, hasDerivAt_const _ _, hasDerivAt_const _ _, hasDerivAt_const _ _,
    hasDerivAt_const _ _, hasDerivAt_const _ _, hasDerivAt_const _ _, hasDerivAt_const _ _⟩
  refine ⟨c, dc, hc, ⟨?_, ?_, ?_, ?_, ?_, ?_⟩, ?_, ?_⟩
  any_goals norm_num [c]
  · norm_num [c, orthoD]
  · intro m hm hd
    have h2 := dPlaneStress_correct hc (by norm_num [c]) (by norm_num [c])
    have e := hd.unique h2
    simp only [dOrtho2D, if_true, Option.some.injEq] at hm
    rw [← hm] at e
    have := congrFun (congrFun e 0) 0
    norm_num [dPlaneStress, c, dc] at this

/-- C60: the long expressions of the plane strain branch are the derivative when the local variables hold the right values, so the only defect of the branch is in
the reading of the constants. -/
theorem C60_plane_strain_formula {c : ℝ → Ortho} {dc : Ortho} {t : ℝ} (hc : OrthoDeriv c dc t)
    (hden : strainDen (c t).E11 (c t).E22 (c t).E33 (c t).nu12 (c t).nu23 (c t).nu31 ≠ 0) :
    MatDeriv (fun s => ortho2D false (c s)) (dPlaneStrain (c t).E11 (c t).E22 (c t).E33 (c t).nu12 (c t).nu23 (c t).nu31
      dc.E11 dc.E22 dc.E33 dc.nu12 dc.nu23 dc.nu31 dc.G12) t := by
  have dd := (((((hc.e22.mul hc.e22).mul hc.e33).mul (hc.n12.mul hc.n12)).add ((hc.e11.mul (hc.e33.mul hc.e33)).mul (hc.n23.mul hc.n23))).add
    (((hc.e11.mul hc.e11).mul hc.e22).mul (hc.n31.mul hc.n31))).sub ((hc.e11.mul hc.e22).mul hc.e33) |>.add
    ((((((hc.e11.mul hc.e22).mul hc.e33).mul hc.n12).mul hc.n23).mul hc.n31).mul_const 2)
  have a0 := (((hc.e11.mul hc.e11).mul hc.e33).mul (hc.e22.sub (hc.e33.mul (hc.n23.mul hc.n23)))).neg
  have a1 := ((hc.e11.mul (hc.e22.mul hc.e22)).mul (hc.e33.sub (hc.e11.mul (hc.n31.mul hc.n31)))).neg
  have a01 := (((hc.e11.mul hc.e22).mul hc.e33).mul ((hc.e22.mul hc.n12).add ((hc.e11.mul hc.n23).mul hc.n31))).neg
  have z : HasDerivAt (fun _ : ℝ => (0 : ℝ)) 0 t := hasDerivAt_const t 0
  have d00 : HasDerivAt (fun s => ortho2D false (c s) 0 0) (dStrain00 (c t).E11 (c t).E22 (c t).E33 (c t).nu12 (c t).nu23 (c t).nu31
      dc.E11 dc.E22 dc.E33 dc.nu12 dc.nu23 dc.nu31) t := by
    refine (a0.div dd hden).congr_deriv ?_
    simp only [dStrain00, Pi.mul_apply, Pi.add_apply, Pi.sub_apply, Pi.neg_apply]
    rw [one_div, div_eq_inv_mul]; congr 1; ring
  have d11 : HasDerivAt (fun s => ortho2D false (c s) 1 1) (dStrain11 (c t).E11 (c t).E22 (c t).E33 (c t).nu12 (c t).nu23 (c t).nu31
      dc.E11 dc.E22 dc.E33 dc.nu12 dc.nu23 dc.nu31) t := by
    refine (a1.div dd hden).congr_deriv ?_
    simp only [dStrain11, Pi.mul_apply, Pi.add_apply, Pi.sub_apply, Pi.neg_apply]
    rw [one_div, div_eq_inv_mul]; congr 1; ring
  have d01 : HasDerivAt (fun s => ortho2D false (c s) 0 1) (dStrain01 (c t).E11 (c t).E22 (c t).E33 (c t).nu12 (c t).nu23 (c t).nu31
      dc.E11 dc.E22 dc.E33 dc.nu12 dc.nu23 dc.nu31) t := by
    refine (a01.div dd hden).congr_deriv ?_
    simp only [dStrain01, Pi.mul_apply, Pi.add_apply, Pi.sub_apply, Pi.neg_apply]
    rw [div_eq_inv_mul, show ∀ D P : ℝ, -1 / D ^ 2 * P = (D ^ 2)⁻¹ * (-P) from fun D P => by ring]; congr 1; ring
  intro i j
  fin_cases i <;> fin_cases j
  exacts [d00, d01, z, d01, d11, z, z, z, hc.g12]

/-- C60, finding: the plane strain derivative always reads uninitialised variables. -/
theorem C60_plane_strain_ub (c dc : Ortho) : dOrtho2D false c dc = none := rfl

/-- C60, finding: the plane strain matrix depends on `E33`, which is not among the functions through which the 2D matrix reports its dependence. -/
theorem C60_depends_on_fails : "E33" ∉ ortho2DFunctions ∧ ortho2D false exOrtho ≠ ortho2D false { exOrtho with E33 := 8 } := by
  refine ⟨by decide, fun h => ?_⟩
  have := congrFun (congrFun h 0) 0
  norm_num [ortho2D, exOrtho, strainDen] at this

/-- C60: for plane stress and 3D every constant that influences the matrix is reported. -/
theorem C60_depends_on_partial (c c' : Ortho) :
    ((c.E11 = c'.E11 ∧ c.E22 = c'.E22 ∧ c.nu12 = c'.nu12 ∧ c.G12 = c'.G12) → ortho2D true c = ortho2D true c') ∧
    ortho3DFunctions.length = 9 ∧ (∀ f ∈ ["E11", "E22", "nu12", "G12"], f ∈ ortho2DFunctions) := by
  refine ⟨fun ⟨a, b, d, e⟩ => by simp only [ortho2D, if_true, a, b, d, e], rfl, by decide⟩

example : MatDeriv (fun s => ortho3D { exOrtho with E33 := s }) (dOrtho3D exOrtho ⟨0, 0, 1, 0, 0, 0, 0, 0, 0⟩) 4 :=
  C60_3d (c := fun s => { exOrtho with E33 := s }) ⟨hasDerivAt_const _ _, hasDerivAt_const _ _, hasDerivAt_id 4, hasDerivAt_const _ _, hasDerivAt_const _ _,
    hasDerivAt_const _ _, hasDerivAt_const _ _, hasDerivAt_const _ _, hasDerivAt_const _ _⟩ (by constructor <;> norm_num [exOrtho])
    (by norm_num [exOrtho, orthoD])

end Verif.Material
