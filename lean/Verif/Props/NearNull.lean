import Mathlib.Analysis.SpecialFunctions.Trigonometric.Bounds
import Mathlib.Algebra.BigOperators.Fin
import Mathlib.Tactic.Ring
import Mathlib.Tactic.NormNum
import Mathlib.Tactic.Linarith
import Mathlib.Tactic.LinearCombination
import Mathlib.Tactic.IntervalCases
import Mathlib.Tactic.Positivity
import Mathlib.Tactic.FinCases
import Verif.Model.NearNull
/-
  C135: the near-null space offered to the linear solver consists of rigid body motions.
-/
namespace Verif.NearNull
open Verif

noncomputable section

/-! ### Specification -/

abbrev V3 := Fin 3 → ℝ

/-- The point `p` as the code sees it. -/
def coords (p : V3) (i : Nat) : ℝ := if h : i < 3 then p ⟨i, h⟩ else 0

/-- Squared distance. -/
def dist2 (p q : V3) : ℝ := ∑ k, (p k - q k) ^ 2

/-- Where the point `p` goes under the displacement components of a field. -/
def moved (f : V3 → Nat → ℝ) (p : V3) : V3 := fun k => p k + f p k

/-- A finite motion without deformation. -/
def Rigid (f : V3 → Nat → ℝ) : Prop := ∀ p q, dist2 (moved f p) (moved f q) = dist2 p q

/-- The cross product of the unit vector `k` with `p`: velocity of a unit spin about axis `k`. -/
def spin (k : Fin 3) (p : V3) : V3 := match k with
  | 0 => ![0, -p 2, p 1]
  | 1 => ![p 2, 0, -p 0]
  | 2 => ![-p 1, p 0, 0]

/-- The six fields: what the code returns for a mode number (zero if it fails). -/
def mode (m : Nat) (p : V3) : Nat → ℝ := match field m (coords p) with
  | .ok o => o
  | .error _ => fun _ => 0

/-! ### C135 -/

/-- All six modes are produced, in order, whatever the build; a vector list that is not empty is refused in debug builds. -/
theorem C135_space (dbg : Bool) (n : Nat) (p : V3) :
    (n = 0 ∨ dbg = false → space dbg n (coords p) = .ok [mode 0 p, mode 1 p, mode 2 p, mode 3 p, mode 4 p, mode 5 p]) ∧ (n ≠ 0 → dbg = true → space dbg n (coords p) = .error .assertFail) := by
  constructor
  · intro h
    have : (dbg && !decide (n = 0)) = false := by rcases h with h | h <;> simp [h]
    unfold space
    rw [this]
    cases dbg <;> rfl
  · intro h hd
    subst hd
    simp [space, h]

/-- Every mode is a rigid motion: distances are preserved exactly, for the translations by a unit length along the axes and the rotations about the axes. -/
theorem C135_rigid (m : Nat) (hm : m < 6) : Rigid (mode m) := by
  intro p q
  have hcs := Real.sin_sq_add_cos_sq th
  interval_cases m <;> simp [mode, field, moved, dist2, put, coords, Fin.sum_univ_three]
  · linear_combination ((p 1 - q 1) ^ 2 + (p 2 - q 2) ^ 2) * hcs
  · linear_combination ((p 0 - q 0) ^ 2 + (p 2 - q 2) ^ 2) * hcs
  · linear_combination ((p 0 - q 0) ^ 2 + (p 1 - q 1) ^ 2) * hcs

/-- Modes 0-2 are the unit translations without rotation. -/
theorem C135_translation (m : Nat) (hm : m < 3) (p : V3) (j : Nat) : mode m p j = if j = m then 1 else 0 := by
  interval_cases m <;> simp [mode, field, put]

theorem th_pos : 0 < th := by unfold th; norm_num
theorem th_le : th ≤ 1 := by unfold th; norm_num

/-- `1 - cos th` is at most `th²/2`. -/
theorem cos_bound : 0 < 1 - Real.cos th ∧ 1 - Real.cos th ≤ th ^ 2 / 2 := by
  constructor
  · have : Real.cos th < Real.cos 0 := Real.cos_lt_cos_of_nonneg_of_le_pi (le_refl 0) (by linarith [th_le, Real.one_le_pi_div_two]) th_pos
    rw [Real.cos_zero] at this; linarith
  · have := Real.one_sub_sq_div_two_le_cos (x := th); linarith

/-- Modes 3-5: the displacement is the rotation by `th` about the axis, the rotation component of that axis is `th`, the others vanish; displacement and rotation agree with the infinitesimal rotation by `th`
up to `th²` relative to the distance of the point from the origin, in the right-handed sense. -/
theorem C135_rotation (k : Fin 3) (p : V3) :
    (∀ j : Fin 3, mode (3 + k) p (3 + j) = if j = k then th else 0) ∧
    (∀ j : Fin 3, mode (3 + k) p j = Real.sin th * spin k p j - (1 - Real.cos th) * (if j = k then 0 else p j)) ∧
    (∀ j : Fin 3, |mode (3 + k) p j - th * spin k p j| ≤ th ^ 2 * (|p 0| + |p 1| + |p 2|)) := by
  have hexact : ∀ j : Fin 3, mode (3 + k) p j = Real.sin th * spin k p j - (1 - Real.cos th) * (if j = k then 0 else p j) := by
    intro j
    fin_cases k <;> fin_cases j <;> simp [mode, field, put, coords, spin] <;> ring
  refine ⟨?_, hexact, ?_⟩
  · intro j
    fin_cases k <;> fin_cases j <;> simp [mode, field, put]
  · intro j
    rw [hexact]
    have hc := cos_bound
    have hs1 : Real.sin th < th := Real.sin_lt th_pos
    have hs2 : th - th ^ 3 / 4 < Real.sin th := by
      have h6 := Real.sin_gt_sub_cube th_pos
      have : (0 : ℝ) < th ^ 3 := pow_pos th_pos 3
      linarith
    have ht := th_pos
    have ht1 := th_le
    have h3 : th ^ 3 / 4 ≤ th ^ 2 / 4 := by nlinarith [mul_nonneg (sq_nonneg th) (sub_nonneg.2 ht1)]
    have hS : |Real.sin th - th| ≤ th ^ 2 / 4 := by rw [abs_le]; constructor <;> nlinarith [sq_nonneg th]
    have hC : |1 - Real.cos th| ≤ th ^ 2 / 2 := by rw [abs_of_pos hc.1]; exact hc.2
    have hsum : ∀ i, |p i| ≤ |p 0| + |p 1| + |p 2| := by
      intro i
      fin_cases i <;> simp only [] <;> have := abs_nonneg (p 0) <;> have := abs_nonneg (p 1) <;> have := abs_nonneg (p 2)
      · show |p 0| ≤ _; linarith
      · show |p 1| ≤ _; linarith
      · show |p 2| ≤ _; linarith
    have hsp : |spin k p j| ≤ |p 0| + |p 1| + |p 2| := by
      have h0 : (0 : ℝ) ≤ |p 0| + |p 1| + |p 2| := by positivity
      fin_cases k <;> fin_cases j <;> simp [spin] <;> first | exact h0 | positivity | exact hsum 0 | exact hsum 1 | exact hsum 2
    have hp : |if j = k then (0 : ℝ) else p j| ≤ |p 0| + |p 1| + |p 2| := by
      split
      · rw [abs_zero]; positivity
      · exact hsum j
    calc |Real.sin th * spin k p j - (1 - Real.cos th) * (if j = k then 0 else p j) - th * spin k p j|
        = |(Real.sin th - th) * spin k p j + -((1 - Real.cos th) * (if j = k then 0 else p j))| := by congr 1; ring
      _ ≤ |(Real.sin th - th) * spin k p j| + |-((1 - Real.cos th) * (if j = k then 0 else p j))| := abs_add_le _ _
      _ = |Real.sin th - th| * |spin k p j| + |1 - Real.cos th| * |if j = k then (0 : ℝ) else p j| := by rw [abs_neg, abs_mul, abs_mul]
      _ ≤ th ^ 2 / 4 * (|p 0| + |p 1| + |p 2|) + th ^ 2 / 2 * (|p 0| + |p 1| + |p 2|) :=
          add_le_add (mul_le_mul hS hsp (abs_nonneg _) (by positivity)) (mul_le_mul hC hp (abs_nonneg _) (by positivity))
      _ ≤ th ^ 2 * (|p 0| + |p 1| + |p 2|) := by
          have : (0 : ℝ) ≤ |p 0| + |p 1| + |p 2| := by positivity
          nlinarith [mul_nonneg (sq_nonneg th) this]

/-- The rotations are finite, so they are not exact null vectors of a linear stiffness: the linear strain `∂u_a/∂x_a` of a rotation in a plane of the axis is `cos th - 1`, which is negative (about `-5·10⁻¹¹`,
compared with the rotation `10⁻⁵`). -/
theorem C135_linear_strain_fails (k j : Fin 3) (hj : j ≠ k) (p : V3) (h : ℝ) :
    mode (3 + k) (fun i => if i = j then p i + h else p i) j - mode (3 + k) p j = h * (Real.cos th - 1) ∧ Real.cos th - 1 < 0 := by
  refine ⟨?_, by linarith [cos_bound.1]⟩
  have e1 := (C135_rotation k p).2.1 j
  have e2 := (C135_rotation k (fun i => if i = j then p i + h else p i)).2.1 j
  rw [e1, e2]
  fin_cases k <;> fin_cases j <;> first | exact absurd rfl hj | (simp [spin]; ring)

/-- The six modes are linearly independent: a combination that vanishes at one point (in all six components) is trivial. -/
theorem C135_independent (c : Fin 6 → ℝ) (p : V3) (h : ∀ j : Fin 6, ∑ m : Fin 6, c m * mode m p j = 0) : ∀ m, c m = 0 := by
  have ht : th ≠ 0 := th_pos.ne'
  have h0 := h 0; have h1 := h 1; have h2 := h 2; have h3 := h 3; have h4 := h 4; have h5 := h 5
  simp [Fin.sum_univ_succ, mode, field, put, coords, ht] at h0 h1 h2 h3 h4 h5
  have e3 : c 3 = 0 := h3
  have e4 : c 4 = 0 := h4
  have e5 : c 5 = 0 := h5
  intro m
  fin_cases m
  · simpa [e3, e4, e5, h3, h4, h5] using h0
  · simpa [e3, e4, e5, h3, h4, h5] using h1
  · simpa [e3, e4, e5, h3, h4, h5] using h2
  · exact e3
  · exact e4
  · exact e5

/-- A mode number above 5 is refused: by the assertion of the constructor in debug builds, by `libmesh_error` on evaluation otherwise. -/
theorem C135_refused (m : Nat) (hm : 5 < m) (p : V3) : construct true m = .error .assertFail ∧ construct false m = .ok m ∧ field m (coords p) = .error .error := by
  refine ⟨?_, ?_, ?_⟩
  · simp [construct]; omega
  · simp [construct]
  · unfold field
    rw [if_neg (by omega), if_neg (by omega), if_neg (by omega), if_neg (by omega)]

end
end Verif.NearNull
