import Mathlib.Tactic.Linarith
import Mathlib.Tactic.Positivity
import Mathlib.Tactic.NormNum
import Mathlib.Tactic.Ring
import Mathlib.Tactic.FieldSimp
import Mathlib.Algebra.BigOperators.Ring.Finset
import Mathlib.Algebra.BigOperators.Field
import Mathlib.Algebra.Order.BigOperators.Group.Finset
import Verif.Model.KinematicCoupling
/-
  C49, C50: kinematic coupling.
-/
namespace Verif.Coupling
open Finset

/-! ### Specification -/

/-- Cross product `θ × d`. -/
def cross (th d : Pt) : Pt := fun i =>
  if i = 0 then th 1 * d 2 - th 2 * d 1 else if i = 1 then th 2 * d 0 - th 0 * d 2 else th 0 * d 1 - th 1 * d 0

/-- Six displacement components of a node: translations then rotations. -/
def nodal (u th : Pt) : Nat → ℝ := fun c =>
  if c = 0 then u 0 else if c = 1 then u 1 else if c = 2 then u 2 else if c = 3 then th 0 else if c = 4 then th 1 else th 2

/-- Small rigid motion: translation `t` and rotation `θ` about `o`, evaluated at the point `x`. -/
def rigid (t th o x : Pt) : Pt := fun i => t i + cross th (fun a => x a - o a) i

variable {m : Nat}

theorem raw_pos (s p : Pt) : 0 < rawWeight s p := Real.exp_pos _

theorem sum_pos (hm : 0 < m) (s : Pt) (P : Fin m → Pt) : 0 < ∑ j, rawWeight s (P j) := by
  haveI : Nonempty (Fin m) := ⟨⟨0, hm⟩⟩
  exact Finset.sum_pos (fun j _ => raw_pos s (P j)) univ_nonempty

/-- C49: with at least one master the weights are positive, at most one and sum to one. -/
theorem C49_partition_of_unity (hm : 0 < m) (s : Pt) (P : Fin m → Pt) :
    (∀ k, 0 < weight s P k ∧ weight s P k ≤ 1) ∧ ∑ k, weight s P k = 1 := by
  have hS := sum_pos hm s P
  refine ⟨fun k => ⟨div_pos (raw_pos _ _) hS, ?_⟩, ?_⟩
  · rw [weight, div_le_one hS]
    exact single_le_sum (f := fun j => rawWeight s (P j)) (fun j _ => le_of_lt (raw_pos s (P j))) (mem_univ k)
  · unfold weight; rw [← sum_div, div_self (ne_of_gt hS)]

/-- C49: nearer masters get larger weights. -/
theorem C49_nearer_is_heavier (hm : 0 < m) (s : Pt) (P : Fin m → Pt) (j k : Fin m)
    (h : norm (fun c => s c - P j c) ≤ norm (fun c => s c - P k c)) : weight s P k ≤ weight s P j := by
  unfold weight
  refine div_le_div_of_nonneg_right ?_ (le_of_lt (sum_pos hm s P))
  exact Real.exp_le_exp.2 (by linarith)

/-- The rows exist (no undefined indexing) whenever the nodes carry six dofs. -/
theorem C49_rows_defined (rot : Bool) (s : Pt) (P : Fin m → Pt) (nd : Nat) (hnd : 6 ≤ nd) : rows nd rot s P = .ok (fun i k c => coeff s P i k c) := by
  unfold rows
  rw [if_neg]
  push Not
  cases rot <;> simp <;> omega

/-- C49 limit: on nodes with only the three translational dofs (continuum elements) building the rows indexes past the end of the master's dof list. -/
theorem C49_translation_only_nodes_fails (hm : 0 < m) (s : Pt) (P : Fin m → Pt) : rows 3 false s P = .error .ub := by
  simp [rows, hm]

theorem inner_sum (s : Pt) (P : Fin m → Pt) (k : Fin m) (u : Nat → ℝ) (i : Nat) (hi : i < 6) :
    ∑ c ∈ range 6, coeff s P i k c * u c = weight s P k * u i +
      (if i = 0 then weight s P k * ((s 1 - P k 1) * u 5 - (s 2 - P k 2) * u 4)
       else if i = 1 then weight s P k * ((s 0 - P k 0) * u 5 - (s 2 - P k 2) * u 3)
       else if i = 2 then weight s P k * ((s 0 - P k 0) * u 4 - (s 1 - P k 1) * u 3) else 0) := by
  simp only [sum_range_succ, sum_range_zero]
  rcases i with _ | _ | _ | _ | _ | _ | i <;> [skip; skip; skip; skip; skip; skip; omega] <;> simp [coeff] <;> ring

/-- C49: for every common translation of the masters (no rotation) the slave follows exactly, and its rotation stays zero. -/
theorem C49_translation (hm : 0 < m) (s : Pt) (P : Fin m → Pt) (t : Pt) (i : Nat) (hi : i < 6) :
    slaveValue (fun i k c => coeff s P i k c) (fun _ => nodal t (fun _ => 0)) i = nodal t (fun _ => 0) i := by
  have hw := (C49_partition_of_unity hm s P).2
  unfold slaveValue
  simp only [inner_sum s P _ _ i hi]
  have : ∀ k, weight s P k * nodal t (fun _ => 0) i +
      (if i = 0 then weight s P k * ((s 1 - P k 1) * nodal t (fun _ => 0) 5 - (s 2 - P k 2) * nodal t (fun _ => 0) 4)
       else if i = 1 then weight s P k * ((s 0 - P k 0) * nodal t (fun _ => 0) 5 - (s 2 - P k 2) * nodal t (fun _ => 0) 3)
       else if i = 2 then weight s P k * ((s 0 - P k 0) * nodal t (fun _ => 0) 4 - (s 1 - P k 1) * nodal t (fun _ => 0) 3) else 0) =
      weight s P k * nodal t (fun _ => 0) i := by
    intro k; split_ifs <;> simp [nodal]
  simp only [this]
  rw [← sum_mul, hw, one_mul]

/-- Spec of the displacement of master `k` in a rigid motion (the rotation dofs equal `θ`). -/
def masterMotion (t th o : Pt) (P : Fin m → Pt) : Fin m → Nat → ℝ := fun k => nodal (rigid t th o (P k)) th

theorem rigid_slave (t th o s p : Pt) (i : Fin 3) : rigid t th o s i = rigid t th o p i + cross th (fun a => s a - p a) i := by
  fin_cases i <;> simp [rigid, cross] <;> ring

/-- C50, rotations: the slave's rotation dofs follow every rigid motion. -/
theorem C50_rotation_dofs (hm : 0 < m) (s o t th : Pt) (P : Fin m → Pt) (i : Nat) (h3 : 3 ≤ i) (hi : i < 6) :
    slaveValue (fun i k c => coeff s P i k c) (masterMotion t th o P) i = nodal (rigid t th o s) th i := by
  have hw := (C49_partition_of_unity hm s P).2
  unfold slaveValue
  have : ∀ k, ∑ c ∈ range 6, coeff s P i k c * masterMotion t th o P k c = weight s P k * nodal (rigid t th o s) th i := by
    intro k
    rw [inner_sum s P k _ i hi, if_neg (by omega), if_neg (by omega), if_neg (by omega), add_zero]
    congr 1
    simp only [masterMotion, nodal, if_neg (show ¬ i = 0 by omega), if_neg (show ¬ i = 1 by omega), if_neg (show ¬ i = 2 by omega)]
  simp only [this]
  rw [← sum_mul, hw, one_mul]

/-- C50, what the translation rows give in a rigid motion, for every geometry and motion: the second component follows the motion, the first and third are off by twice the weighted rotation term.
This is the whole of C50 for the second component only. -/
theorem C50_translation_rows_partial (hm : 0 < m) (s o t th : Pt) (P : Fin m → Pt) :
    let R := fun i k c => coeff s P i k c
    slaveValue R (masterMotion t th o P) 0 = rigid t th o s 0 - 2 * ∑ k, weight s P k * cross th (fun a => s a - P k a) 0 ∧
    slaveValue R (masterMotion t th o P) 1 = rigid t th o s 1 ∧
    slaveValue R (masterMotion t th o P) 2 = rigid t th o s 2 - 2 * ∑ k, weight s P k * cross th (fun a => s a - P k a) 2 := by
  have hw := (C49_partition_of_unity hm s P).2
  have one : ∀ y : ℝ, y = ∑ k, weight s P k * y := fun y => by rw [← sum_mul, hw, one_mul]
  intro R
  refine ⟨?_, ?_, ?_⟩
  · rw [one (rigid t th o s 0), mul_sum, ← sum_sub_distrib]
    unfold slaveValue
    refine sum_congr rfl fun k _ => ?_
    rw [inner_sum s P k _ 0 (by norm_num), rigid_slave t th o s (P k) 0]
    simp [masterMotion, nodal, cross]; ring
  · rw [one (rigid t th o s 1)]
    unfold slaveValue
    refine sum_congr rfl fun k _ => ?_
    rw [inner_sum s P k _ 1 (by norm_num), rigid_slave t th o s (P k) 1]
    simp [masterMotion, nodal, cross]; ring
  · rw [one (rigid t th o s 2), mul_sum, ← sum_sub_distrib]
    unfold slaveValue
    refine sum_congr rfl fun k _ => ?_
    rw [inner_sum s P k _ 2 (by norm_num), rigid_slave t th o s (P k) 2]
    simp [masterMotion, nodal, cross]; ring

/-- One master at the origin, slave at `(1, 1, 1)`. -/
theorem weight_single (s p : Pt) : weight s (fun _ : Fin 1 => p) 0 = 1 := by
  have := (C49_partition_of_unity (m := 1) (by norm_num) s (fun _ => p)).2
  simpa using this

/-- C50 fails, for the usual sign of the rotation vector and for the opposite one: with one master at the origin and the slave at `(1,1,1)` the rotation `θ = (1,2,4)` is reproduced under neither convention. -/
theorem C50_rigid_rotation_fails :
    ∃ (s : Pt) (P : Fin 1 → Pt) (th : Pt), ∀ sign : ℝ, sign = 1 ∨ sign = -1 →
      ∃ i : Fin 3, slaveValue (fun i k c => coeff s P i k c) (fun k => nodal (rigid (fun _ => 0) (fun a => sign * th a) (P k) (P k)) th) i ≠
        rigid (fun _ => 0) (fun a => sign * th a) (P 0) s i := by
  refine ⟨fun _ => 1, fun _ _ => 0, fun a => 2 ^ a.val, fun sign hs => ?_⟩
  have hw := weight_single (fun _ => 1) (fun _ => 0)
  rcases hs with rfl | rfl
  · refine ⟨0, ?_⟩
    unfold slaveValue
    rw [Fin.sum_univ_one]
    show ∑ c ∈ range 6, coeff _ _ 0 0 c * _ ≠ _
    rw [inner_sum _ _ _ _ 0 (by norm_num), hw]
    norm_num [nodal, rigid, cross]
  · refine ⟨1, ?_⟩
    unfold slaveValue
    rw [Fin.sum_univ_one]
    show ∑ c ∈ range 6, coeff _ _ 1 0 c * _ ≠ _
    rw [inner_sum _ _ _ _ 1 (by norm_num), hw]
    norm_num [nodal, rigid, cross]

/-- Non-vacuity: two masters at different distances. -/
example : (∀ k, 0 < weight (m := 2) (fun _ => 0) (fun k _ => k.val) k ∧ weight (m := 2) (fun _ => 0) (fun k _ => k.val) k ≤ 1) ∧
    ∑ k, weight (m := 2) (fun _ => 0) (fun k _ => k.val) k = 1 := C49_partition_of_unity (by norm_num) _ _

example : (rows (m := 2) 6 true (fun _ => 0) (fun k _ => k.val)).isOk = true := by
  rw [C49_rows_defined _ _ _ 6 le_rfl]; rfl

end Verif.Coupling
