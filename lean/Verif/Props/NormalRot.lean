import Mathlib.Analysis.Calculus.Deriv.Mul
import Mathlib.Analysis.Calculus.Deriv.Inv
import Mathlib.Analysis.SpecialFunctions.Sqrt
import Mathlib.Algebra.BigOperators.Fin
import Mathlib.Tactic.FinCases
import Mathlib.Tactic.FieldSimp
import Mathlib.Tactic.LinearCombination
import Mathlib.Tactic.Linarith
import Mathlib.Tactic.NormNum
import Mathlib.Tactic.Ring
import Verif.Props.LevelSetElem
import Verif.Model.NormalRot
/-
  C160: rotation of the surface normal.
-/
namespace Verif.NormalRot
open Verif.LevelSetElem (len len_sq len_pos len_deriv)

/-! ### Specification -/

/-- Cross product. -/
def cross (a b : Fin 3 → ℝ) : Fin 3 → ℝ := ![a 1 * b 2 - a 2 * b 1, a 2 * b 0 - a 0 * b 2, a 0 * b 1 - a 1 * b 0]

/-- Matrix times vector. -/
def ap (A : Fin 3 → Fin 3 → ℝ) (v : Fin 3 → ℝ) : Fin 3 → ℝ := fun i => ∑ j, A i j * v j

/-- Unit normal of the surface with tangents `t1`, `t2`. -/
noncomputable def unitNormal (t1 t2 : Fin 3 → ℝ) : Fin 3 → ℝ := fun i => cross t1 t2 i / len (cross t1 t2)

/-- Tangent `t` of the surface moved by `e` times a displacement with gradient `A`. -/
def moved (A : Fin 3 → Fin 3 → ℝ) (t : Fin 3 → ℝ) (e : ℝ) : Fin 3 → ℝ := fun i => t i + e * ap A t i

/-! ### Derivative of the normal -/

theorem moved_deriv (A : Fin 3 → Fin 3 → ℝ) (t : Fin 3 → ℝ) (i : Fin 3) : HasDerivAt (fun e => moved A t e i) (ap A t i) 0 := by
  have h := ((hasDerivAt_id' (0 : ℝ)).mul_const (ap A t i)).const_add (t i)
  exact h.congr_deriv (one_mul _)

theorem moved_zero (A : Fin 3 → Fin 3 → ℝ) (t : Fin 3 → ℝ) : moved A t 0 = t := by funext i; simp [moved]

/-- Derivative of the cross product of the moved tangents: `tr A · N − Aᵀ N`. -/
theorem cross_deriv (A : Fin 3 → Fin 3 → ℝ) (t1 t2 : Fin 3 → ℝ) (i : Fin 3) :
    HasDerivAt (fun e => cross (moved A t1 e) (moved A t2 e) i) ((∑ k, A k k) * cross t1 t2 i - ∑ k, A k i * cross t1 t2 k) 0 := by
  have h : ∀ a b c d : Fin 3, HasDerivAt (fun e => moved A t1 e a * moved A t2 e b - moved A t1 e c * moved A t2 e d)
      ((ap A t1 a * t2 b + t1 a * ap A t2 b) - (ap A t1 c * t2 d + t1 c * ap A t2 d)) 0 := by
    intro a b c d
    refine HasDerivAt.congr_deriv (((moved_deriv A t1 a).fun_mul (moved_deriv A t2 b)).fun_sub ((moved_deriv A t1 c).fun_mul (moved_deriv A t2 d))) ?_
    simp only [moved_zero]
  fin_cases i
  · refine HasDerivAt.congr_deriv (h 1 2 2 1) ?_
    simp [ap, cross, Fin.sum_univ_three]; ring
  · refine HasDerivAt.congr_deriv (h 2 0 0 2) ?_
    simp [ap, cross, Fin.sum_univ_three]; ring
  · refine HasDerivAt.congr_deriv (h 0 1 1 0) ?_
    simp [ap, cross, Fin.sum_univ_three]; ring

/-- The unit normal of a surface displaced with gradient `A` changes by `−Aᵀ n + (n · A n) n`. -/
theorem normal_deriv (A : Fin 3 → Fin 3 → ℝ) (t1 t2 : Fin 3 → ℝ) (h : cross t1 t2 ≠ 0) (i : Fin 3) :
    HasDerivAt (fun e => unitNormal (moved A t1 e) (moved A t2 e) i)
      (-(∑ k, A k i * unitNormal t1 t2 k) + (∑ j, unitNormal t1 t2 j * ap A (unitNormal t1 t2) j) * unitNormal t1 t2 i) 0 := by
  have h0 : (fun e => cross (moved A t1 e) (moved A t2 e)) 0 ≠ 0 := by simpa [moved_zero] using h
  have hl := len_deriv (g := fun e => cross (moved A t1 e) (moved A t2 e)) (fun k => cross_deriv A t1 t2 k) h0
  have hp := len_pos h
  have hz : len ((fun e => cross (moved A t1 e) (moved A t2 e)) 0) ≠ 0 := (len_pos h0).ne'
  refine HasDerivAt.congr_deriv ((cross_deriv A t1 t2 i).fun_div hl hz) ?_
  simp only [moved_zero]
  have hs := len_sq (cross t1 t2)
  simp only [unitNormal, ap, Fin.sum_univ_three] at *
  set N := cross t1 t2
  set L := len N
  have hL : L ≠ 0 := hp.ne'
  field_simp
  have hs' : N 0 ^ 2 = L ^ 2 - N 1 ^ 2 - N 2 ^ 2 := by linarith
  linear_combination (N i * (A 0 0 + A 1 1 + A 2 2)) * hs

theorem dnRot_eq (A : Fin 3 → Fin 3 → ℝ) (n : Fin 3 → ℝ) (i : Fin 3) : dnRot A n i = ap A n i - ∑ k, A k i * n k := by
  fin_cases i <;> simp [dnRot, turn, rot, ap, Fin.sum_univ_three] <;> ring

/-- C160: for a displacement known on the surface only (its gradient along the normal is zero, as libMesh gives it for shells and beams), the function returns the change of the unit normal of the surface. -/
theorem C160_surface_partial (A : Fin 3 → Fin 3 → ℝ) (t1 t2 : Fin 3 → ℝ) (h : cross t1 t2 ≠ 0) (hn : ap A (unitNormal t1 t2) = 0) (i : Fin 3) :
    HasDerivAt (fun e => unitNormal (moved A t1 e) (moved A t2 e) i) (dnRot A (unitNormal t1 t2) i) 0 := by
  refine HasDerivAt.congr_deriv (normal_deriv A t1 t2 h i) ?_
  rw [dnRot_eq, hn]
  simp

/-- A plate in the plane `z = 0` bending with slopes 2 and 3. -/
example : ∃ (A : Fin 3 → Fin 3 → ℝ) (t1 t2 : Fin 3 → ℝ), cross t1 t2 ≠ 0 ∧ ap A (unitNormal t1 t2) = 0 ∧ dnRot A (unitNormal t1 t2) = ![-2, -3, 0] := by
  have hu : unitNormal ![1, 0, 0] ![0, 1, 0] = ![0, 0, 1] := by
    have : len (cross ![1, 0, 0] ![0, 1, 0]) = 1 := by simp [len, cross, Fin.sum_univ_three]
    funext i; fin_cases i <;> simp [unitNormal, this] <;> simp [cross]
  refine ⟨![![0, 0, 0], ![0, 0, 0], ![2, 3, 0]], ![1, 0, 0], ![0, 1, 0], ?_, ?_, ?_⟩
  · intro e; have := congrFun e 2; simp [cross] at this
  · rw [hu]; funext i; fin_cases i <;> simp [ap, Fin.sum_univ_three]
  · rw [hu]; funext i; fin_cases i <;> simp [dnRot, turn, rot]

/-- C160: the change of the normal is orthogonal to the normal, for every displacement. -/
theorem C160_orthogonal (A : Fin 3 → Fin 3 → ℝ) (n : Fin 3 → ℝ) : ∑ i, dnRot A n i * n i = 0 := by
  simp [dnRot, turn, Fin.sum_univ_three]; ring

/-- C160: the perturbation is the derivative of the change of the normal along a perturbation of the displacement. -/
theorem C160_perturbation (A B : Fin 3 → Fin 3 → ℝ) (n : Fin 3 → ℝ) (i : Fin 3) : HasDerivAt (fun e => dnRot (fun i j => A i j + e * B i j) n i) (dnRotPerturbation B n i) 0 := by
  have h : (fun e : ℝ => dnRot (fun i j => A i j + e * B i j) n i) = fun e => dnRot A n i + e * dnRotPerturbation B n i := by
    funext e
    fin_cases i <;> simp [dnRot, dnRotPerturbation, turn, rot] <;> ring
  rw [h]
  exact (((hasDerivAt_id' (0 : ℝ)).mul_const (dnRotPerturbation B n i)).const_add (dnRot A n i)).congr_deriv (one_mul _)

/-- C160: in the frequency domain the function returns the complex amplitude: for every phase `z` the real part of `z` times the result is the change of the normal for the real part of `z` times the displacement. -/
theorem C160_complex (Gre Gim : Fin 3 → Fin 3 → ℝ) (n : Fin 3 → ℝ) (z : ℂ) (i : Fin 3) :
    (z * cdnRot Gre Gim n i).re = dnRot (fun i j => (z * (⟨Gre i j, Gim i j⟩ : ℂ)).re) n i := by
  fin_cases i <;> simp [cdnRot, dnRot, turn, rot, crot, Complex.mul_re, Complex.mul_im] <;> ring

/-- C160 fails for displacements of solids: for a rotation of the body the gradient is a skew matrix and the function returns twice the change of the normal. -/
theorem C160_rigid_fails (A : Fin 3 → Fin 3 → ℝ) (hA : ∀ i j, A i j = -A j i) (t1 t2 : Fin 3 → ℝ) (h : cross t1 t2 ≠ 0) (i : Fin 3) :
    ∃ d, HasDerivAt (fun e => unitNormal (moved A t1 e) (moved A t2 e) i) d 0 ∧ dnRot A (unitNormal t1 t2) i = 2 * d := by
  refine ⟨_, normal_deriv A t1 t2 h i, ?_⟩
  have hq : ∑ j, unitNormal t1 t2 j * ap A (unitNormal t1 t2) j = 0 := by
    simp only [ap, Fin.sum_univ_three]
    have h0 := hA 0 0; have h1 := hA 1 1; have h2 := hA 2 2
    have e0 : A 0 0 = 0 := by linarith
    have e1 : A 1 1 = 0 := by linarith
    have e2 : A 2 2 = 0 := by linarith
    rw [hA 1 0, hA 2 0, hA 2 1, e0, e1, e2]; ring
  rw [dnRot_eq, hq]
  have : ap A (unitNormal t1 t2) i = -∑ k, A k i * unitNormal t1 t2 k := by
    rw [ap, ← Finset.sum_neg_distrib]
    exact Finset.sum_congr rfl fun k _ => by rw [hA i k]; ring
  rw [this]; ring

/-- Rotation about the x axis of the surface with normal `z`: the change of the normal is not zero. -/
example : ∃ A : Fin 3 → Fin 3 → ℝ, (∀ i j, A i j = -A j i) ∧ dnRot A ![0, 0, 1] = ![0, -2, 0] := by
  refine ⟨![![0, 0, 0], ![0, 0, -1], ![0, 1, 0]], ?_, ?_⟩
  · intro i j; fin_cases i <;> fin_cases j <;> simp
  · funext i; fin_cases i <;> simp [dnRot, turn, rot]; norm_num

/-- C160: the complex field has the two mesh functions as real and imaginary parts. -/
theorem C160_field (re im : List ℝ) (h : re.length = im.length) : ∃ v, fieldValue re im = some v ∧ v.map Complex.re = re ∧ v.map Complex.im = im := by
  refine ⟨_, if_pos h.le, ?_, ?_⟩
  · rw [List.map_ofFn]
    refine List.ext_getElem (by simp) fun i h1 h2 => ?_
    simp [h2]
  · rw [List.map_ofFn]
    refine List.ext_getElem (by simp [h]) fun i h1 h2 => ?_
    simp [h2]

example : fieldValue [1, 2] [3, 4] = some [⟨1, 3⟩, ⟨2, 4⟩] := by simp [fieldValue, List.ofFn_succ]

end Verif.NormalRot
