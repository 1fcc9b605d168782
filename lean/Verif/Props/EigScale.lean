import Verif.Model.EigScale
import Mathlib.Analysis.Complex.Basic
import Mathlib.Algebra.BigOperators.Field
import Mathlib.Tactic.FieldSimp
import Mathlib.Tactic.LinearCombination
import Mathlib.Tactic.Linarith
import Mathlib.Tactic.NormNum
import Mathlib.Tactic.Ring
import Mathlib.Tactic.Positivity
/-
  C172 (scaling of the eigenvectors of the complex flutter eigenproblems).
-/
namespace Verif.EigScale
open Matrix

variable {n : Nat}

/-! ### Specification -/

/-- Column `i` of `V` is a right eigenvector of `beta A v = alpha B v`. -/
def RightEig (A B V : Matrix (Fin n) (Fin n) ℂ) (a b : Fin n → ℂ) (i : Fin n) : Prop := ∀ j, b i * ∑ k, A j k * V k i = a i * ∑ k, B j k * V k i
/-- Column `i` of `V` is a left eigenvector: `beta uᴴ A = alpha uᴴ B`. -/
def LeftEig (A B V : Matrix (Fin n) (Fin n) ℂ) (a b : Fin n → ℂ) (i : Fin n) : Prop := ∀ k, b i * ∑ j, star (V j i) * A j k = a i * ∑ j, star (V j i) * B j k
/-- `uᴴ B v` for column `i` of `U` and column `l` of `V`. -/
noncomputable def dot (U B V : Matrix (Fin n) (Fin n) ℂ) (i l : Fin n) : ℂ := ∑ j, ∑ k, star (U j i) * B j k * V k l

/-! ### Lemmas -/

theorem inner_eq (U B V : Matrix (Fin n) (Fin n) ℂ) (i l : Fin n) : inner U B V i l = dot U B V i l := by
  simp only [inner, dot, Matrix.mul_apply, Matrix.conjTranspose_apply, Finset.sum_mul]
  rw [Finset.sum_comm]

theorem dot_scaleLeft (U r B V : Matrix (Fin n) (Fin n) ℂ) (i l : Fin n) (h : r i i ≠ 0) : dot (scaleLeft U r) B V i l = star (1 / r i i) * dot U B V i l := by
  simp only [dot, scaleLeft, norm_pos_iff, h, ne_eq, not_false_eq_true, if_true, Finset.mul_sum, star_mul']
  exact Finset.sum_congr rfl fun j _ => Finset.sum_congr rfl fun k _ => by ring

theorem colNorm_sq (V : Matrix (Fin n) (Fin n) ℂ) (i : Fin n) : colNorm V i ^ 2 = ∑ j, ‖V j i‖ ^ 2 := Real.sq_sqrt (Finset.sum_nonneg fun _ _ => sq_nonneg _)

theorem colNorm_ne {V : Matrix (Fin n) (Fin n) ℂ} {i : Fin n} : colNorm V i ≠ 0 ↔ ∃ j, V j i ≠ 0 := by
  constructor
  · intro h
    by_contra hc
    push Not at hc
    exact h (by simp [colNorm, hc])
  · rintro ⟨j, hj⟩ h
    have h2 := colNorm_sq V i
    rw [h, zero_pow two_ne_zero] at h2
    have := (Finset.sum_eq_zero_iff_of_nonneg (fun k _ => sq_nonneg ‖V k i‖)).1 h2.symm j (Finset.mem_univ j)
    simp at this
    exact hj this

theorem dot_unit (U B V : Matrix (Fin n) (Fin n) ℂ) (i l : Fin n) : dot U B (unitCols V) i l = dot U B V i l / (colNorm V l : ℂ) := by
  simp only [dot, unitCols, Finset.sum_div]
  exact Finset.sum_congr rfl fun j _ => Finset.sum_congr rfl fun k _ => by ring

theorem scale_some {VL B VR L R : Matrix (Fin n) (Fin n) ℂ} (h : scale VL B VR = some (L, R)) : (∀ i, colNorm VR i ≠ 0) ∧ R = unitCols VR ∧ L = scaleLeft VL (inner VL B (unitCols VR)) := by
  unfold scale at h
  split_ifs at h with hc
  simp at h
  exact ⟨hc, h.2.symm, h.1.symm⟩

/-! ### C172 -/

/-- C172: the scaling succeeds whenever no right eigenvector is zero; the right eigenvectors then have unit length. -/
theorem C172_unit_right (VL B VR : Matrix (Fin n) (Fin n) ℂ) (h : ∀ i, ∃ j, VR j i ≠ 0) : ∃ L R, scale VL B VR = some (L, R) ∧ ∀ i, ∑ j, ‖R j i‖ ^ 2 = 1 := by
  have hc : ∀ i, colNorm VR i ≠ 0 := fun i => colNorm_ne.2 (h i)
  refine ⟨_, _, by rw [scale, if_pos hc], fun i => ?_⟩
  have h1 : ∀ j, ‖unitCols VR j i‖ ^ 2 = ‖VR j i‖ ^ 2 / colNorm VR i ^ 2 := by
    intro j
    simp only [unitCols, norm_div, Complex.norm_real, div_pow, Real.norm_eq_abs, sq_abs]
  rw [Finset.sum_congr rfl fun j _ => h1 j, ← Finset.sum_div, ← colNorm_sq, div_self (pow_ne_zero 2 (hc i))]

/-- C172: the scaled columns still are eigenvectors with the same eigenvalues. -/
theorem C172_still_eigenvectors {A VL B VR L R : Matrix (Fin n) (Fin n) ℂ} (h : scale VL B VR = some (L, R)) (a b : Fin n → ℂ) (i : Fin n) :
    (RightEig A B VR a b i → RightEig A B R a b i) ∧ (LeftEig A B VL a b i → LeftEig A B L a b i) := by
  obtain ⟨hc, rfl, rfl⟩ := scale_some h
  constructor
  · intro he j
    have := he j
    simp only [unitCols, mul_div_assoc', ← Finset.sum_div]
    rw [this]
  · intro he k
    have := he k
    unfold scaleLeft
    split_ifs with hp
    · have e1 : ∀ M : Matrix (Fin n) (Fin n) ℂ, ∑ j, star (VL j i * (1 / inner VL B (unitCols VR) i i)) * M j k = star (1 / inner VL B (unitCols VR) i i) * ∑ j, star (VL j i) * M j k := by
        intro M
        rw [Finset.mul_sum]
        exact Finset.sum_congr rfl fun j _ => by rw [star_mul']; ring
      rw [e1 A, e1 B]
      linear_combination star (1 / inner VL B (unitCols VR) i i) * this
    · exact this

/-- C172: after the scaling the inner products of left and right eigenvectors of the same index have modulus one (if they did not vanish), and those belonging to different eigenvalues vanish. -/
theorem C172_modulus_partial {A VL B VR L R : Matrix (Fin n) (Fin n) ℂ} (h : scale VL B VR = some (L, R)) {a b : Fin n → ℂ} (hr : ∀ i, RightEig A B VR a b i) (hl : ∀ i, LeftEig A B VL a b i) :
    (∀ i, dot VL B VR i i ≠ 0 → ‖dot L B R i i‖ = 1) ∧ ∀ i l, a i * b l ≠ a l * b i → dot L B R i l = 0 := by
  constructor
  · intro i hne
    obtain ⟨hc, rfl, rfl⟩ := scale_some h
    have hc' : (colNorm VR i : ℂ) ≠ 0 := by exact_mod_cast hc i
    have hd : dot VL B (unitCols VR) i i ≠ 0 := by rw [dot_unit]; exact div_ne_zero hne hc'
    have hrne : inner VL B (unitCols VR) i i ≠ 0 := by rw [inner_eq]; exact hd
    rw [dot_scaleLeft _ _ _ _ _ _ hrne, inner_eq, norm_mul, norm_star, norm_div, norm_one, one_div, inv_mul_cancel₀ (norm_ne_zero_iff.2 hd)]
  · intro i l hne
    have h1 : RightEig A B R a b l := (C172_still_eigenvectors h a b l).1 (hr l)
    have h2 : LeftEig A B L a b i := (C172_still_eigenvectors h a b i).2 (hl i)
    have e1 : ∀ M : Matrix (Fin n) (Fin n) ℂ, dot L M R i l = ∑ j, star (L j i) * ∑ k, M j k * R k l := by
      intro M
      exact Finset.sum_congr rfl fun j _ => by rw [Finset.mul_sum]; exact Finset.sum_congr rfl fun k _ => by ring
    have e2 : ∀ M : Matrix (Fin n) (Fin n) ℂ, dot L M R i l = ∑ k, (∑ j, star (L j i) * M j k) * R k l := by
      intro M
      unfold dot
      rw [Finset.sum_comm]
      exact Finset.sum_congr rfl fun k _ => by rw [Finset.sum_mul]
    have k1 : b l * dot L A R i l = a l * dot L B R i l := by
      rw [e1 A, e1 B, Finset.mul_sum, Finset.mul_sum]
      exact Finset.sum_congr rfl fun j _ => by linear_combination star (L j i) * h1 j
    have k2 : b i * dot L A R i l = a i * dot L B R i l := by
      rw [e2 A, e2 B, Finset.mul_sum, Finset.mul_sum]
      exact Finset.sum_congr rfl fun k _ => by linear_combination R k l * h2 k
    have : (a i * b l - a l * b i) * dot L B R i l = 0 := by linear_combination b i * k1 - b l * k2
    rcases mul_eq_zero.1 this with h | h
    · exact absurd (sub_eq_zero.1 h) hne
    · exact h

/-- C172: the inner product of a pair becomes one exactly if it was a nonzero real number to begin with, or more generally the square of its phase. -/
theorem C172_identity_partial {VL B VR L R : Matrix (Fin n) (Fin n) ℂ} (h : scale VL B VR = some (L, R)) (i : Fin n) (hne : dot VL B VR i i ≠ 0) :
    dot L B R i i = dot VL B VR i i / star (dot VL B VR i i) ∧ (dot L B R i i = 1 ↔ star (dot VL B VR i i) = dot VL B VR i i) := by
  have hs : star (dot VL B VR i i) ≠ 0 := star_ne_zero.2 hne
  have e : dot L B R i i = dot VL B VR i i / star (dot VL B VR i i) := by
    obtain ⟨hc, rfl, rfl⟩ := scale_some h
    have hc' : (colNorm VR i : ℂ) ≠ 0 := by exact_mod_cast hc i
    have hd : dot VL B (unitCols VR) i i ≠ 0 := by rw [dot_unit]; exact div_ne_zero hne hc'
    have hrne : inner VL B (unitCols VR) i i ≠ 0 := by rw [inner_eq]; exact hd
    have hcs : star (colNorm VR i : ℂ) = (colNorm VR i : ℂ) := Complex.conj_ofReal _
    rw [dot_scaleLeft _ _ _ _ _ _ hrne, inner_eq, dot_unit, star_div₀, star_div₀, star_one, hcs]
    field_simp
  refine ⟨e, ?_⟩
  rw [e, div_eq_one_iff_eq hs]
  exact eq_comm

/-- C172 (violated): the factor put on the left vectors is not conjugated, so the inner product with `B` need not become one: for the pencil `(1, i)` with unit vectors it becomes `-1`. -/
theorem C172_identity_fails : ∃ A VL B VR L R : Matrix (Fin 1) (Fin 1) ℂ, (∀ i, RightEig A B VR (fun _ => 1) (fun _ => Complex.I) i) ∧ (∀ i, LeftEig A B VL (fun _ => 1) (fun _ => Complex.I) i) ∧
    scale VL B VR = some (L, R) ∧ dot L B R 0 0 = -1 := by
  obtain ⟨L, R, h, -⟩ := C172_unit_right (n := 1) (fun _ _ => 1) (fun _ _ => Complex.I) (fun _ _ => 1) (fun i => ⟨0, by simp⟩)
  refine ⟨fun _ _ => 1, fun _ _ => 1, fun _ _ => Complex.I, fun _ _ => 1, L, R, ?_, ?_, h, ?_⟩
  · intro i j; simp
  · intro i j; simp
  · rw [(C172_identity_partial h 0 (by simp [dot])).1]
    simp [dot]

/-- Non-vacuity of the theorems above: a diagonal pencil with eigenvalues 1 and 2. -/
example : ∃ L R : Matrix (Fin 2) (Fin 2) ℂ, scale 1 (1 : Matrix (Fin 2) (Fin 2) ℂ) 1 = some (L, R) ∧ dot L 1 R 0 0 = 1 ∧ dot L 1 R 0 1 = 0 := by
  obtain ⟨L, R, h, -⟩ := C172_unit_right (1 : Matrix (Fin 2) (Fin 2) ℂ) 1 1 (fun i => ⟨i, by simp⟩)
  refine ⟨L, R, h, ?_, ?_⟩
  · exact ((C172_identity_partial h 0 (by simp [dot, Matrix.one_apply])).2).2 (by simp [dot, Matrix.one_apply])
  · refine (C172_modulus_partial (A := Matrix.diagonal fun i : Fin 2 => ((i : ℕ) : ℂ) + 1) h (a := fun i => ((i : ℕ) : ℂ) + 1) (b := fun _ => 1) ?_ ?_).2 0 1 ?_
    · intro i j; fin_cases i <;> fin_cases j <;> simp [Matrix.one_apply, Matrix.diagonal_apply]
    · intro i j; fin_cases i <;> fin_cases j <;> simp [Matrix.one_apply, Matrix.diagonal_apply]
    · norm_num

end Verif.EigScale
