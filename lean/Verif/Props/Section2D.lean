import Verif.Model.Section2D
import Verif.Lib.MatDeriv
import Mathlib.Analysis.SpecialFunctions.Integrals.Basic
import Mathlib.Analysis.Calculus.Deriv.Pow
/-
  C61 (plate section stiffness), C62 (plate inertia), C63 (multilayer sections).
-/
namespace Verif.Section2D
open Matrix
variable {m n k : Type*}

/-! ### C61 -/

/-- C61: extension stiffness = ∫ C dz over the thickness `[off - h/2, off + h/2]`. -/
theorem C61_extension (h off : ℝ) (C : Matrix m n ℝ) (i : m) (j : n) :
    plateA h C i j = ∫ _z in (off - h / 2)..(off + h / 2), C i j := by
  rw [intervalIntegral.integral_const]
  simp only [plateA, Matrix.smul_apply, smul_eq_mul]
  ring

/-- C61: coupling stiffness = ∫ z C dz. -/
theorem C61_coupling (h off : ℝ) (C : Matrix m n ℝ) (i : m) (j : n) :
    plateB h off C i j = ∫ z in (off - h / 2)..(off + h / 2), z * C i j := by
  rw [intervalIntegral.integral_mul_const, integral_id]
  simp only [plateB, Matrix.smul_apply, smul_eq_mul]
  ring

/-- C61: bending stiffness = ∫ z² C dz. -/
theorem C61_bending (h off : ℝ) (C : Matrix m n ℝ) (i : m) (j : n) :
    plateD h off C i j = ∫ z in (off - h / 2)..(off + h / 2), z ^ 2 * C i j := by
  rw [intervalIntegral.integral_mul_const, integral_pow]
  simp only [plateD, Matrix.smul_apply, smul_eq_mul]
  push_cast
  ring

/-- C61: the thermal matrices are the through-thickness integrals of `C α` and `z C α`. -/
theorem C61_thermal [Fintype n] (h off : ℝ) (C : Matrix m n ℝ) (a : Matrix n k ℝ) (i : m) (j : k) :
    plateThermalA h C a i j = (∫ _z in (off - h / 2)..(off + h / 2), (C * a) i j) ∧
    plateThermalB h off C a i j = ∫ z in (off - h / 2)..(off + h / 2), z * (C * a) i j :=
  ⟨C61_extension h off (C * a) i j, C61_coupling h off (C * a) i j⟩

/-- C61: strain energy per unit area, `½ ∫ (ε + zκ)ᵀ C (ε + zκ) dz` doubled, is positive for a positive definite material matrix and `h > 0`. -/
theorem C61_energy [Fintype m] {h off : ℝ} {C : Matrix m m ℝ} (hh : 0 < h) (hC : ∀ x : m → ℝ, x ≠ 0 → 0 < x ⬝ᵥ (C *ᵥ x)) (e kap : m → ℝ)
    (hne : e ≠ 0 ∨ kap ≠ 0) :
    0 < e ⬝ᵥ (plateA h C *ᵥ e) + e ⬝ᵥ (plateB h off C *ᵥ kap) + kap ⬝ᵥ (plateB h off C *ᵥ e) + kap ⬝ᵥ (plateD h off C *ᵥ kap) := by
  have nn : ∀ x : m → ℝ, 0 ≤ x ⬝ᵥ (C *ᵥ x) := fun x => by
    by_cases h : x = 0
    · simp [h]
    · exact (hC x h).le
  have key : e ⬝ᵥ (plateA h C *ᵥ e) + e ⬝ᵥ (plateB h off C *ᵥ kap) + kap ⬝ᵥ (plateB h off C *ᵥ e) + kap ⬝ᵥ (plateD h off C *ᵥ kap) =
      h * ((e + off • kap) ⬝ᵥ (C *ᵥ (e + off • kap))) + h ^ 3 / 12 * (kap ⬝ᵥ (C *ᵥ kap)) := by
    simp only [plateA, plateB, plateD, smul_mulVec, mulVec_add, mulVec_smul, add_dotProduct, dotProduct_add, smul_dotProduct, dotProduct_smul, smul_eq_mul]
    ring
  rw [key]
  by_cases hk : kap = 0
  · subst hk
    have : 0 < (e + off • (0 : m → ℝ)) ⬝ᵥ (C *ᵥ (e + off • (0 : m → ℝ))) := hC _ (by simpa using hne)
    have h2 : (0 : m → ℝ) ⬝ᵥ (C *ᵥ (0 : m → ℝ)) = 0 := by simp
    rw [h2]; have := mul_pos hh this; linarith
  · have h1 := mul_nonneg hh.le (nn (e + off • kap))
    have h2 := mul_pos (by positivity : 0 < h ^ 3 / 12) (hC kap hk)
    linarith

section
variable {h off kappa : ℝ → ℝ} {dh doff dkappa t : ℝ} {C : ℝ → Matrix m n ℝ} {dC : Matrix m n ℝ} {a : ℝ → Matrix n k ℝ} {da : Matrix n k ℝ}

/-- C61: `derivative` of the extension matrix (and of the conductance and capacitance matrices). -/
theorem C61_deriv_extension (hh : HasDerivAt h dh t) (hC : MatDeriv C dC t) : MatDeriv (fun s => plateA (h s) (C s)) (dPlateA (h t) dh (C t) dC) t :=
  MatDeriv.smul hh hC

/-- C61: `derivative` of the coupling matrix. -/
theorem C61_deriv_coupling (hh : HasDerivAt h dh t) (ho : HasDerivAt off doff t) (hC : MatDeriv C dC t) :
    MatDeriv (fun s => plateB (h s) (off s) (C s)) (dPlateB (h t) dh (off t) doff (C t) dC) t :=
  MatDeriv.smul (hh.mul ho) hC

theorem hasDerivAt_bend (hh : HasDerivAt h dh t) (ho : HasDerivAt off doff t) :
    HasDerivAt (fun s => h s ^ 3 / 12 + h s * off s ^ 2) (h t ^ 2 / 4 * dh + dh * off t ^ 2 + h t * 2 * off t * doff) t := by
  refine (((hh.pow 3).div_const 12).add (hh.mul (ho.pow 2))).congr_deriv ?_
  simp; ring

/-- C61: `derivative` of the bending matrix. -/
theorem C61_deriv_bending (hh : HasDerivAt h dh t) (ho : HasDerivAt off doff t) (hC : MatDeriv C dC t) :
    MatDeriv (fun s => plateD (h s) (off s) (C s)) (dPlateD (h t) dh (off t) doff (C t) dC) t :=
  MatDeriv.smul (hasDerivAt_bend hh ho) hC

/-- C61: `derivative` of the transverse shear matrix. -/
theorem C61_deriv_shear (hh : HasDerivAt h dh t) (hk : HasDerivAt kappa dkappa t) (hC : MatDeriv C dC t) :
    MatDeriv (fun s => plateShear (h s) (kappa s) (C s)) (dPlateShear (h t) dh (kappa t) dkappa (C t) dC) t :=
  ((MatDeriv.smul hk (MatDeriv.smul hh hC))).congr (by
    ext i j; simp only [dPlateShear, Matrix.add_apply, Matrix.smul_apply, smul_eq_mul]; ring)

/-- C61: `derivative` of the thermal matrices. -/
theorem C61_deriv_thermal [Fintype n] (hh : HasDerivAt h dh t) (ho : HasDerivAt off doff t) (hC : MatDeriv C dC t) (ha : MatDeriv a da t) :
    MatDeriv (fun s => plateThermalA (h s) (C s) (a s)) (dPlateThermalA (h t) dh (C t) dC (a t) da) t ∧
    MatDeriv (fun s => plateThermalB (h s) (off s) (C s) (a s)) (dPlateThermalB (h t) dh (off t) doff (C t) dC (a t) da) t :=
  ⟨(MatDeriv.smul hh (hC.mul ha)).congr (by rw [dPlateThermalA, add_comm (dC * a t)]),
   (MatDeriv.smul (hh.mul ho) (hC.mul ha)).congr (by rw [dPlateThermalB, add_comm (dC * a t)]; rfl)⟩
end

example : MatDeriv (fun s => plateD s (s ^ 2) (s • (1 : Matrix (Fin 3) (Fin 3) ℝ))) (dPlateD 2 1 (2 ^ 2) (2 * 2) ((2 : ℝ) • 1) 1) 2 := by
  refine C61_deriv_bending (h := fun s => s) (off := fun s => s ^ 2) (C := fun s => s • 1) (hasDerivAt_id 2) ?_ ?_
  · simpa using hasDerivAt_pow 2 (2 : ℝ)
  · exact (MatDeriv.smul (hasDerivAt_id 2) (MatDeriv.const 1)).congr (by simp)
example : ∀ x : Fin 3 → ℝ, x ≠ 0 → 0 < x ⬝ᵥ ((1 : Matrix (Fin 3) (Fin 3) ℝ) *ᵥ x) := by
  intro x hx
  obtain ⟨i, hi⟩ : ∃ i, x i ≠ 0 := by by_contra h; push Not at h; exact hx (funext h)
  have h0 := mul_self_nonneg (x 0); have h1 := mul_self_nonneg (x 1); have h2 := mul_self_nonneg (x 2)
  have hp := mul_self_pos.2 hi
  simp only [one_mulVec, dotProduct, Fin.sum_univ_three]
  fin_cases i
  · change 0 < x 0 * x 0 at hp; linarith
  · change 0 < x 1 * x 1 at hp; linarith
  · change 0 < x 2 * x 2 at hp; linarith

/-! ### C62 -/

/-- Velocity of the point at height `z` for mid-surface velocities and rotation rates `(u, v, w, θx, θy, θz)`: `u + z θy, v - z θx, w`. -/
def kinN (z : ℝ) : Matrix (Fin 3) (Fin 6) ℝ := !![1, 0, 0, 0, z, 0; 0, 1, 0, -z, 0, 0; 0, 0, 1, 0, 0, 0]

/-- The drilling inertia added at `θz`. -/
noncomputable def drill (h rho : ℝ) : Matrix (Fin 6) (Fin 6) ℝ := fun i j => if i = 5 ∧ j = 5 then rho * h ^ 3 / 12 / 1000000 else 0

/-- C62: the inertia matrix is `∫ ρ NᵀN dz` over the thickness plus the drilling term. -/
theorem C62_integral (h off rho : ℝ) (i j : Fin 6) :
    plateInertia h off rho i j = (∫ z in (off - h / 2)..(off + h / 2), rho * ((kinN z)ᵀ * kinN z) i j) + drill h rho i j := by
  rw [intervalIntegral.integral_const_mul]
  have I1 : (∫ z in (off - h / 2)..(off + h / 2), z) = off * h := by rw [integral_id]; ring
  have I2 : (∫ z in (off - h / 2)..(off + h / 2), z ^ 2) = h ^ 3 / 12 + h * off ^ 2 := by rw [integral_pow]; push_cast; ring
  have I2' : (∫ z in (off - h / 2)..(off + h / 2), z * z) = h ^ 3 / 12 + h * off ^ 2 := by simp only [← pow_two]; exact I2
  have I1' : (∫ z in (off - h / 2)..(off + h / 2), -z) = -(off * h) := by rw [intervalIntegral.integral_neg, I1]
  have I0 : off + h / 2 - (off - h / 2) = h := by ring
  fin_cases i <;> fin_cases j <;>
    simp [plateInertia, drill, kinN, Matrix.mul_apply, Fin.sum_univ_three, I1, I1', I2', I0, -intervalIntegral.integral_neg] <;> ring

/-- C62: symmetric. -/
theorem C62_symmetric (h off rho : ℝ) : (plateInertia h off rho)ᵀ = plateInertia h off rho := by
  ext i j
  fin_cases i <;> fin_cases j <;> simp [plateInertia]

/-- C62: positive definite for positive thickness and density. -/
theorem C62_posdef {h off rho : ℝ} (hh : 0 < h) (hr : 0 < rho) (x : Fin 6 → ℝ) (hx : x ≠ 0) : 0 < x ⬝ᵥ (plateInertia h off rho *ᵥ x) := by
  have e : x ⬝ᵥ (plateInertia h off rho *ᵥ x) = rho * h * ((x 0 + off * x 4) ^ 2 + (x 1 - off * x 3) ^ 2 + x 2 ^ 2) +
      rho * (h ^ 3 / 12) * (x 3 ^ 2 + x 4 ^ 2 + 1 / 1000000 * x 5 ^ 2) := by
    simp [plateInertia, dotProduct, mulVec, Fin.sum_univ_six]; ring
  rw [e]
  have a1 : 0 < rho * h := by positivity
  have a2 : 0 < rho * (h ^ 3 / 12) := by positivity
  by_contra hn
  push Not at hn
  have q1 := mul_nonneg a1.le (by positivity : 0 ≤ (x 0 + off * x 4) ^ 2 + (x 1 - off * x 3) ^ 2 + x 2 ^ 2)
  have q2 := mul_nonneg a2.le (by positivity : 0 ≤ x 3 ^ 2 + x 4 ^ 2 + 1 / 1000000 * x 5 ^ 2)
  have z1 : (x 0 + off * x 4) ^ 2 + (x 1 - off * x 3) ^ 2 + x 2 ^ 2 = 0 := (mul_eq_zero.1 (le_antisymm (by linarith) q1)).resolve_left a1.ne'
  have z2 : x 3 ^ 2 + x 4 ^ 2 + 1 / 1000000 * x 5 ^ 2 = 0 := (mul_eq_zero.1 (le_antisymm (by linarith) q2)).resolve_left a2.ne'
  have s : ∀ y : ℝ, y ^ 2 ≤ 0 → y = 0 := fun y h => pow_eq_zero_iff two_ne_zero |>.1 (le_antisymm h (sq_nonneg y))
  have x3 : x 3 = 0 := s _ (by have := sq_nonneg (x 4); have := sq_nonneg (x 5); linarith)
  have x4 : x 4 = 0 := s _ (by have := sq_nonneg (x 3); have := sq_nonneg (x 5); linarith)
  have x5 : x 5 = 0 := s _ (by have := sq_nonneg (x 3); have := sq_nonneg (x 4); linarith)
  rw [x3, x4] at z1
  have x0 : x 0 = 0 := s _ (by have := sq_nonneg (x 1); have := sq_nonneg (x 2); nlinarith)
  have x1 : x 1 = 0 := s _ (by have := sq_nonneg (x 0); have := sq_nonneg (x 2); nlinarith)
  have x2 : x 2 = 0 := s _ (by have := sq_nonneg (x 0); have := sq_nonneg (x 1); nlinarith)
  apply hx; funext i
  fin_cases i
  exacts [x0, x1, x2, x3, x4, x5]

section
variable {h off rho : ℝ → ℝ} {dh doff drho t : ℝ}

/-- The derivative of the inertia matrix (specification). -/
theorem plateInertia_deriv (hh : HasDerivAt h dh t) (ho : HasDerivAt off doff t) (hr : HasDerivAt rho drho t) :
    MatDeriv (fun s => plateInertia (h s) (off s) (rho s))
      (let B := h t ^ 2 / 4 * dh + dh * off t ^ 2 + h t * 2 * off t * doff
       drho • plateInertia (h t) (off t) 1 + rho t • !![dh, 0, 0, 0, doff * h t + off t * dh, 0; 0, dh, 0, -doff * h t - off t * dh, 0, 0; 0, 0, dh, 0, 0, 0;
        0, -doff * h t - off t * dh, 0, B, 0, 0; doff * h t + off t * dh, 0, 0, 0, B, 0; 0, 0, 0, 0, 0, h t ^ 2 / 4 * dh * (1 / 1000000)]) t := by
  have z : HasDerivAt (fun _ : ℝ => (0 : ℝ)) 0 t := hasDerivAt_const t 0
  have b := hasDerivAt_bend hh ho
  have c : HasDerivAt (fun s => off s * h s) (doff * h t + off t * dh) t := ho.mul hh
  have c' : HasDerivAt (fun s => -off s * h s) (-doff * h t - off t * dh) t := (ho.neg.mul hh).congr_deriv (by simp; ring)
  have d : HasDerivAt (fun s => h s ^ 3 / 12 * (1 / 1000000)) (h t ^ 2 / 4 * dh * (1 / 1000000)) t := by
    refine (((hh.pow 3).div_const 12).mul_const (1 / 1000000)).congr_deriv ?_
    simp; ring
  have key : MatDeriv (fun s => plateInertia (h s) (off s) 1) (1 • !![dh, 0, 0, 0, doff * h t + off t * dh, 0; 0, dh, 0, -doff * h t - off t * dh, 0, 0; 0, 0, dh, 0, 0, 0;
        0, -doff * h t - off t * dh, 0, h t ^ 2 / 4 * dh + dh * off t ^ 2 + h t * 2 * off t * doff, 0, 0;
        doff * h t + off t * dh, 0, 0, 0, h t ^ 2 / 4 * dh + dh * off t ^ 2 + h t * 2 * off t * doff, 0; 0, 0, 0, 0, 0, h t ^ 2 / 4 * dh * (1 / 1000000)]) t := by
    simp only [plateInertia, one_smul]
    intro i j
    fin_cases i <;> fin_cases j
    exacts [hh, z, z, z, c, z, z, hh, z, c', z, z, z, z, hh, z, z, z, z, c', z, b, z, z, c, z, z, z, b, z, z, z, z, z, z, d]
  have := MatDeriv.smul hr key
  simp only [one_smul] at this
  have e : ∀ s, plateInertia (h s) (off s) (rho s) = rho s • plateInertia (h s) (off s) 1 := fun s => by simp [plateInertia]
  have e' : (fun s => plateInertia (h s) (off s) (rho s)) = fun s => rho s • plateInertia (h s) (off s) 1 := funext e
  rw [e']
  exact this

/-- C62: exactly when `derivative` is the derivative of the inertia matrix: the coupling terms lack the density and the rotary terms lack the offset, so both
discrepancies must vanish. -/
theorem C62_derivative_iff_partial (hh : HasDerivAt h dh t) (ho : HasDerivAt off doff t) (hr : HasDerivAt rho drho t) :
    MatDeriv (fun s => plateInertia (h s) (off s) (rho s)) (dPlateInertia (h t) dh (off t) doff (rho t) drho) t ↔
      drho * (off t * h t) + rho t * (doff * h t + off t * dh) = doff * h t + off t * dh ∧
      drho * (h t * off t ^ 2) + rho t * (dh * off t ^ 2 + h t * 2 * off t * doff) = 0 := by
  have hd := plateInertia_deriv hh ho hr
  constructor
  · intro hm
    have e := hd.unique hm
    have e1 := congrFun (congrFun e 0) 4
    have e2 := congrFun (congrFun e 3) 3
    simp [plateInertia, dPlateInertia] at e1 e2
    constructor <;> linarith
  · rintro ⟨a, b⟩
    refine hd.congr ?_
    ext i j
    fin_cases i <;> fin_cases j <;> simp [plateInertia, dPlateInertia] <;> linarith

/-- C62: with no offset the derivative is right, whatever the thickness and density do. -/
theorem C62_derivative_partial (hh : HasDerivAt h dh t) (ho : HasDerivAt off 0 t) (hr : HasDerivAt rho drho t) (h0 : off t = 0) :
    MatDeriv (fun s => plateInertia (h s) (off s) (rho s)) (dPlateInertia (h t) dh (off t) 0 (rho t) drho) t := by
  rw [C62_derivative_iff_partial hh ho hr, h0]
  constructor <;> ring
end

/-- C62, finding: a plate of density 2 with a fixed offset 1 has a wrong sensitivity with respect to the thickness. -/
theorem C62_derivative_fails : ∃ (h off rho : ℝ → ℝ) (dh doff drho t : ℝ), HasDerivAt h dh t ∧ HasDerivAt off doff t ∧ HasDerivAt rho drho t ∧
    0 < h t ∧ 0 < rho t ∧ ¬ MatDeriv (fun s => plateInertia (h s) (off s) (rho s)) (dPlateInertia (h t) dh (off t) doff (rho t) drho) t := by
  refine ⟨fun s => s, fun _ => 1, fun _ => 2, 1, 0, 0, 1, hasDerivAt_id 1, hasDerivAt_const _ _, hasDerivAt_const _ _, by norm_num, by norm_num, ?_⟩
  rw [C62_derivative_iff_partial (hasDerivAt_id' 1) (hasDerivAt_const _ _) (hasDerivAt_const _ _)]
  norm_num

example : MatDeriv (fun s => plateInertia s 0 (s ^ 2)) (dPlateInertia 3 1 0 0 (3 ^ 2) (2 * 3)) 3 :=
  C62_derivative_partial (h := fun s => s) (off := fun _ => 0) (rho := fun s => s ^ 2) (hasDerivAt_id 3) (hasDerivAt_const _ _)
    (by simpa using hasDerivAt_pow 2 (3 : ℝ)) rfl

/-! ### C63 -/

/-- Total thickness of a stack. -/
def total (hs : List ℝ) : ℝ := hs.sum

/-- Lower face of a layer. -/
noncomputable def bottom (base : ℝ) (hs : List ℝ) (l : Nat) : ℝ := layerOffset base hs l - hs.getD l 0 / 2

/-- Upper face of a layer. -/
noncomputable def top (base : ℝ) (hs : List ℝ) (l : Nat) : ℝ := layerOffset base hs l + hs.getD l 0 / 2

theorem foldl_add_range (f : Nat → ℝ) (n : Nat) (a : ℝ) : (List.range n).foldl (fun m i => m + f i) a = a + ∑ i ∈ Finset.range n, f i := by
  induction n with
  | zero => simp
  | succ n ih => rw [List.range_succ, List.foldl_append, ih, Finset.sum_range_succ]; simp [add_assoc]

theorem sum_getD (hs : List ℝ) : ∑ i ∈ Finset.range hs.length, hs.getD i 0 = hs.sum := by
  induction hs with
  | nil => simp
  | cons a t ih => rw [List.length_cons, Finset.sum_range_succ', List.sum_cons, ← ih, add_comm]; simp

theorem layerOffset_eq (base : ℝ) (hs : List ℝ) (l : Nat) :
    layerOffset base hs l = ∑ i ∈ Finset.range l, hs.getD i 0 + 1 / 2 * hs.getD l 0 - (1 + base) / 2 * total hs := by
  unfold layerOffset
  simp only [sub_eq_add_neg]
  rw [foldl_add_range (fun i => -(1 / 2 * (1 + base) * hs.getD i 0)), foldl_add_range]
  rw [Finset.sum_neg_distrib, ← Finset.mul_sum, sum_getD]
  simp only [total]; ring

theorem bottom_eq (base : ℝ) (hs : List ℝ) (l : Nat) : bottom base hs l = ∑ i ∈ Finset.range l, hs.getD i 0 - (1 + base) / 2 * total hs := by
  rw [bottom, layerOffset_eq]; ring

theorem top_eq (base : ℝ) (hs : List ℝ) (l : Nat) : top base hs l = ∑ i ∈ Finset.range (l + 1), hs.getD i 0 - (1 + base) / 2 * total hs := by
  rw [top, layerOffset_eq, Finset.sum_range_succ]; ring

/-- C63: the layers are stacked face to face. -/
theorem C63_face_to_face (base : ℝ) (hs : List ℝ) (l : Nat) : bottom base hs (l + 1) = top base hs l := by
  rw [bottom_eq, top_eq]

/-- C63: the first layer starts at `-(1 + base)/2 H`, the last one ends at `(1 - base)/2 H`. -/
theorem C63_extent (base : ℝ) (hs : List ℝ) (hne : hs ≠ []) :
    bottom base hs 0 = -((1 + base) / 2 * total hs) ∧ top base hs (hs.length - 1) = (1 - base) / 2 * total hs := by
  constructor
  · rw [bottom_eq]; simp
  · rw [top_eq, Nat.sub_add_cancel (List.length_pos_iff.2 hne), sum_getD]; simp only [total]; ring

/-- C63: `base = -1, 0, 1` put the reference plane at the lower face, the mid-plane and the upper face. -/
theorem C63_base (hs : List ℝ) (hne : hs ≠ []) :
    (bottom (-1) hs 0 = 0) ∧ (bottom 0 hs 0 = -(total hs / 2) ∧ top 0 hs (hs.length - 1) = total hs / 2) ∧ top 1 hs (hs.length - 1) = 0 := by
  rw [(C63_extent (-1) hs hne).1, (C63_extent 0 hs hne).1, (C63_extent 0 hs hne).2, (C63_extent 1 hs hne).2]
  refine ⟨by ring, ⟨by ring, by ring⟩, by ring⟩

theorem layered_eq_sum (f : Nat → Matrix m n ℝ) (N : Nat) : layered ((List.range N).map f) = ∑ l ∈ Finset.range N, f l := by
  induction N with
  | zero => simp [layered]
  | succ N ih =>
    rw [Finset.sum_range_succ, ← ih, layered, layered, List.range_succ, List.map_append, List.foldl_append]
    rfl

/-- C63: the laminate matrices are the through-thickness integrals of the material matrices of the layers, each over the interval it occupies. -/
theorem C63_laminate_integrals (base : ℝ) (ls : List (Layer m n)) (i : m) (j : n) :
    let hs := ls.map (·.h)
    let C : Nat → Matrix m n ℝ := fun l => (ls.map (·.C)).getD l 0
    laminate (fun h _ C => plateA h C) base ls i j = (∑ l ∈ Finset.range ls.length, ∫ _z in (bottom base hs l)..(top base hs l), C l i j) ∧
    laminate plateB base ls i j = (∑ l ∈ Finset.range ls.length, ∫ z in (bottom base hs l)..(top base hs l), z * C l i j) ∧
    laminate plateD base ls i j = (∑ l ∈ Finset.range ls.length, ∫ z in (bottom base hs l)..(top base hs l), z ^ 2 * C l i j) := by
  intro hs C
  refine ⟨?_, ?_, ?_⟩ <;> unfold laminate <;> rw [layered_eq_sum, Matrix.sum_apply] <;> refine Finset.sum_congr rfl fun l _ => ?_
  · exact C61_extension _ _ _ i j
  · exact C61_coupling _ _ _ i j
  · exact C61_bending _ _ _ i j

/-- C63: a stack of layers of one material is the equivalent single plate of thickness `H` with offset `-base H / 2`. -/
theorem C63_equivalent_plate (base : ℝ) (hs : List ℝ) (C : Matrix m n ℝ) :
    let ls : List (Layer m n) := hs.map fun h => ⟨h, C⟩
    laminate (fun h _ C => plateA h C) base ls = plateA (total hs) C ∧
    laminate plateB base ls = plateB (total hs) (-(base / 2 * total hs)) C ∧
    laminate plateD base ls = plateD (total hs) (-(base / 2 * total hs)) C := by
  intro ls
  have e1 : ls.map (·.h) = hs := by simp [ls, Function.comp_def]
  have e2 : ls.length = hs.length := by simp [ls]
  have e3 : ∀ l ∈ Finset.range hs.length, (ls.map (·.C)).getD l 0 = C := fun l hl => by
    have : l < hs.length := Finset.mem_range.1 hl
    simp [ls, List.getD, this]
  let S : Nat → ℝ := fun l => ∑ i ∈ Finset.range l, hs.getD i 0
  have hS : ∀ l, hs.getD l 0 = S (l + 1) - S l := fun l => by simp [S, Finset.sum_range_succ]
  have hoff : ∀ l, layerOffset base hs l = (S l + S (l + 1)) / 2 - (1 + base) / 2 * total hs := fun l => by
    rw [layerOffset_eq, hS]; show S l + _ - _ = _; ring
  have hT : S hs.length = total hs := sum_getD hs
  have h0 : S 0 = 0 := by simp [S]
  refine ⟨?_, ?_, ?_⟩ <;> unfold laminate <;> rw [layered_eq_sum, e1, e2]
  · rw [Finset.sum_congr rfl (g := fun l => (S (l + 1) - S l) • C) (fun l hl => by rw [e3 l hl, hS]; rfl), ← Finset.sum_smul, Finset.sum_range_sub, h0, sub_zero, hT]; rfl
  · let F : Nat → ℝ := fun l => (S l - (1 + base) / 2 * total hs) ^ 2 / 2
    rw [Finset.sum_congr rfl (g := fun l => (F (l + 1) - F l) • C) (fun l hl => by
      rw [e3 l hl, hS, hoff, plateB]; congr 1; simp only [F]; ring), ← Finset.sum_smul, Finset.sum_range_sub, plateB]
    congr 1; simp only [F, hT, h0]; ring
  · let F : Nat → ℝ := fun l => (S l - (1 + base) / 2 * total hs) ^ 3 / 3
    rw [Finset.sum_congr rfl (g := fun l => (F (l + 1) - F l) • C) (fun l hl => by
      rw [e3 l hl, hS, hoff, plateD]; congr 1; simp only [F]; ring), ← Finset.sum_smul, Finset.sum_range_sub, plateD]
    congr 1; simp only [F, hT, h0]; ring

/-- C63: `derivative` of the layer offset. -/
theorem C63_offset_derivative (base : ℝ) (N : Nat) (h : Fin N → ℝ → ℝ) (dh : Fin N → ℝ) (t : ℝ) (hd : ∀ i, HasDerivAt (h i) (dh i) t) (l : Nat) :
    HasDerivAt (fun s => layerOffset base (List.ofFn fun i => h i s) l) (layerOffset base (List.ofFn dh) l) t := by
  simp only [layerOffset_eq, total]
  have g : ∀ i, HasDerivAt (fun s => (List.ofFn fun i => h i s).getD i 0) ((List.ofFn dh).getD i 0) t := fun i => by
    by_cases hi : i < N
    · simp only [List.getD, List.getElem?_ofFn, hi, dif_pos, Option.getD_some]; exact hd ⟨i, hi⟩
    · simp only [List.getD, List.getElem?_ofFn, hi, dif_neg, not_false_iff, Option.getD_none]; exact hasDerivAt_const _ _
  have g2 : HasDerivAt (fun s => (List.ofFn fun i => h i s).sum) (List.ofFn dh).sum t := by
    simp only [List.sum_ofFn]; exact HasDerivAt.fun_sum fun i _ => hd i
  exact ((HasDerivAt.fun_sum fun i _ => g i).add ((g l).const_mul (1 / 2))).sub (g2.const_mul ((1 + base) / 2))

/-- C63: `derivative` of the laminate bending matrix: summing the layer derivatives, with the derivative of the layer offset, is the derivative of the sum. -/
theorem C63_laminate_derivative (base : ℝ) (N : Nat) (h : Fin N → ℝ → ℝ) (dh : Fin N → ℝ) (C : Fin N → ℝ → Matrix m n ℝ) (dC : Fin N → Matrix m n ℝ) (t : ℝ)
    (hd : ∀ i, HasDerivAt (h i) (dh i) t) (hC : ∀ i, MatDeriv (C i) (dC i) t) :
    MatDeriv (fun s => laminate plateD base (List.ofFn fun i => ⟨h i s, C i s⟩))
      (layered ((List.range N).map fun l => dPlateD ((List.ofFn fun i => h i t).getD l 0) ((List.ofFn dh).getD l 0) (layerOffset base (List.ofFn fun i => h i t) l)
        (layerOffset base (List.ofFn dh) l) ((List.ofFn fun i => C i t).getD l 0) ((List.ofFn dC).getD l 0))) t := by
  have g : ∀ i, HasDerivAt (fun s => (List.ofFn fun i => h i s).getD i 0) ((List.ofFn dh).getD i 0) t := fun i => by
    by_cases hi : i < N
    · simp only [List.getD, List.getElem?_ofFn, hi, dif_pos, Option.getD_some]; exact hd ⟨i, hi⟩
    · simp only [List.getD, List.getElem?_ofFn, hi, dif_neg, not_false_iff, Option.getD_none]; exact hasDerivAt_const _ _
  have gC : ∀ i, MatDeriv (fun s => (List.ofFn fun i => C i s).getD i 0) ((List.ofFn dC).getD i 0) t := fun i => by
    by_cases hi : i < N
    · simp only [List.getD, List.getElem?_ofFn, hi, dif_pos, Option.getD_some]; exact hC ⟨i, hi⟩
    · simp only [List.getD, List.getElem?_ofFn, hi, dif_neg, not_false_iff, Option.getD_none]; exact MatDeriv.const _
  rw [layered_eq_sum]
  intro i j
  simp only [laminate, layered_eq_sum, Matrix.sum_apply, List.length_ofFn, List.map_ofFn, Function.comp_def]
  exact HasDerivAt.fun_sum fun l _ => C61_deriv_bending (g l) (C63_offset_derivative base N h dh t hd l) (gC l) i j

/-- C63, finding: destroying a card with two or more layers deletes the thickness function of every layer more than once (and these functions belong to the caller). -/
theorem C63_destroy_fails (hs : List Nat) (h2 : 2 ≤ hs.length) : ∀ p ∈ hs, 2 ≤ (deletedThicknesses hs).count p := by
  intro p hp
  have hc : 1 ≤ hs.count p := List.count_pos_iff.2 hp
  have e : ∀ N, ((List.range N).flatMap fun _ => hs).count p = N * hs.count p := fun N => by
    induction N with
    | zero => simp
    | succ N ih => rw [List.range_succ, List.flatMap_append, List.count_append, ih]; simp; ring
  rw [deletedThicknesses, e]
  nlinarith

example : bottom 0 [1, 2, 3] 1 = -2 ∧ top 0 [1, 2, 3] 1 = 0 := by
  rw [bottom_eq, top_eq]; simp [Finset.sum_range_succ, total]; norm_num
example : (deletedThicknesses [7, 8]).count 7 = 2 := by decide

end Verif.Section2D
