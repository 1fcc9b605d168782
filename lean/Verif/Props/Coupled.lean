import Mathlib.Algebra.BigOperators.Pi
import Mathlib.Algebra.BigOperators.Module
import Mathlib.Algebra.BigOperators.Intervals
import Mathlib.Tactic.FieldSimp
import Mathlib.Tactic.Linarith
import Mathlib.Tactic.Ring
import Mathlib.Tactic.NormNum
import Mathlib.Tactic.Module
import Verif.Model.Coupled
/-
  C39 (multiphysics), C40 (stabilised sensitivity solver).
-/
namespace Verif.Coupled
open Finset

/-! ### C39 -/
section multi
variable {nd : Nat} {V : Fin nd → Type} [∀ i, AddCommGroup (V i)]

/-- Specification: partial derivatives `A i j` of the residual of discipline `i` with respect to the solution of discipline `j` at the point `x`. -/
structure Linearisation (V : Fin nd → Type) [∀ i, AddCommGroup (V i)] where
  A : ∀ i j, V j →+ V i

/-- Contract of discipline `i`: its matrix is `A i i`; its linearised product adds the effect of its own perturbation and of the
perturbations of the other disciplines announced through the update object. -/
def Respects (x : ∀ k, V k) (D : ∀ i, Discipline V i) (P : Linearisation V) : Prop :=
  ∀ i, (∀ v, (D i).jac x v = P.A i i v) ∧
    (∀ v d, (D i).product x v (some d) = P.A i i v + ∑ k ∈ univ.erase i, P.A i k (d k)) ∧
    (∀ v, (D i).product x v none = P.A i i v)

/-- C39: with the update object attached, the nested operator is the full coupled Jacobian, for any number of disciplines of any sizes. -/
theorem C39_nested_product (x dx : ∀ k, V k) (D : ∀ i, Discipline V i) (P : Linearisation V) (h : Respects x D P) (i : Fin nd) :
    nestMult D true x dx i = ∑ j, P.A i j (dx j) := by
  unfold nestMult
  refine sum_congr rfl fun j _ => ?_
  unfold block
  by_cases hij : i = j
  · subst hij; simp [(h i).1]
  · rw [dif_neg hij]
    simp only [shellMult, if_true, (h i).2.1]
    have hz : dsols (V := V) j (dx j) i = 0 := by simp [dsols, hij]
    rw [hz, map_zero, zero_add, sum_eq_single j]
    · simp [dsols]
    · intro k _ hk; simp [dsols, hk]
    · intro hj; exact absurd (mem_erase.2 ⟨Ne.symm hij, mem_univ j⟩) hj

/-- C39: without an update object every off-diagonal block acts as zero (block Jacobi). -/
theorem C39_uncoupled (x dx : ∀ k, V k) (D : ∀ i, Discipline V i) (P : Linearisation V) (h : Respects x D P) (i : Fin nd) :
    nestMult D false x dx i = P.A i i (dx i) := by
  unfold nestMult
  rw [sum_eq_single i]
  · simp [block, (h i).1]
  · intro j _ hj
    simp only [block, dif_neg (Ne.symm hj), shellMult]
    have hz : dsols (V := V) j (dx j) i = 0 := by simp [dsols, Ne.symm hj]
    simp [hz, (h i).2.2]
  · simp

/-- C39: the reported norm is the Euclidean norm of the stacked residual. -/
theorem C39_norm (parts : List (List ℝ)) :
    reportedNorm parts = Real.sqrt ((parts.flatten.map (fun t => t ^ 2)).sum) := by
  unfold reportedNorm
  congr 1
  have hpos : ∀ r : List ℝ, 0 ≤ (r.map (fun t => t ^ 2)).sum := by
    intro r; exact List.sum_nonneg (by intro y hy; obtain ⟨t, _, rfl⟩ := List.mem_map.1 hy; positivity)
  have : ∀ (l : List (List ℝ)) (c : ℝ), l.foldl (fun acc r => acc + (Real.sqrt ((r.map (fun t => t ^ 2)).sum)) ^ 2) c =
      c + (l.flatten.map (fun t => t ^ 2)).sum := by
    intro l
    induction l with
    | nil => intro c; simp
    | cons r l ih => intro c; rw [List.foldl_cons, ih, Real.sq_sqrt (hpos r)]; simp; ring
  rw [this, zero_add]

/-- Non-vacuity: two scalar disciplines `R₀ = 2x₀ + 3x₁`, `R₁ = 5x₀ + 7x₁`. -/
example : ∃ (D : ∀ i, Discipline (nd := 2) (fun _ => ℤ) i) (P : Linearisation (nd := 2) (fun _ => ℤ)),
    Respects (fun _ => 0) D P ∧ P.A 0 1 1 = 3 ∧ nestMult D true (fun _ => 0) (fun _ => 1) 1 = 12 := by
  let c : Fin 2 → Fin 2 → ℤ := fun i j => if i = 0 then (if j = 0 then 2 else 3) else (if j = 0 then 5 else 7)
  let P : Linearisation (nd := 2) (fun _ => ℤ) := ⟨fun i j => AddMonoidHom.mulLeft (c i j)⟩
  let D : ∀ i, Discipline (nd := 2) (fun _ => ℤ) i := fun i =>
    ⟨fun _ v => P.A i i v, fun _ v d => match d with
      | none => P.A i i v
      | some d => P.A i i v + ∑ k ∈ univ.erase i, P.A i k (d k)⟩
  have hR : Respects (fun _ => 0) D P := fun i => ⟨fun v => rfl, fun v d => rfl, fun v => rfl⟩
  refine ⟨D, P, hR, rfl, ?_⟩
  rw [C39_nested_product _ _ _ _ hR]
  rfl

example : reportedNorm [[3], [0, 4]] = 5 := by
  rw [C39_norm]; norm_num [Real.sqrt_eq_iff_mul_self_eq]

end multi

/-! ### C40 -/
section stab
variable {L V : Type} [AddCommGroup L] [Module ℝ L] [AddCommGroup V] [Module ℝ V]

/-- What the accumulators should contain after `m` solutions following `i0` have been visited. -/
structure Averages (D : Data L V) (i0 : Nat) (t0 : ℝ) (m : Nat) (a : Acc L V) : Prop where
  index : a.index = i0 + m
  time : a.time = t0 + m * D.dt
  M : (m : ℝ) • a.Mavg = ∑ k ∈ range m, D.M (i0 + 1 + k)
  J : a.Jint = D.dt • ∑ k ∈ range m, D.J (i0 + 1 + k)
  F : a.fint = -(D.dt • ∑ k ∈ range m, D.F (i0 + 1 + k))

theorem accumulate_averages (D : Data L V) (hdt : D.dt ≠ 0) (i0 : Nat) (t0 : ℝ) (m : Nat) (a : Acc L V)
    (h : Averages D i0 t0 m { a with index := a.index - 1, time := a.time - D.dt }) (hi : 1 ≤ a.index) :
    Averages D i0 t0 (m + 1) (accumulate D t0 a) := by
  obtain ⟨h1, h2, h3, h4, h5⟩ := h
  simp only at h1 h2 h3 h4 h5
  have hidx : a.index = i0 + 1 + m := by omega
  have ht : a.time - t0 = (m + 1 : ℕ) * D.dt := by push_cast; linarith
  have hm1 : ((m + 1 : ℕ) : ℝ) ≠ 0 := by positivity
  refine ⟨by simp only [accumulate]; omega, by simp only [accumulate]; push_cast; linarith, ?_, ?_, ?_⟩
  · simp only [accumulate]
    have e1 : (a.time - t0 - D.dt) / (a.time - t0) = (m : ℝ) / (m + 1 : ℕ) := by
      rw [ht]; push_cast at hm1 ⊢; field_simp; ring
    have e2 : D.dt / (a.time - t0) = 1 / (m + 1 : ℕ) := by rw [ht]; field_simp
    rw [e1, e2, smul_add, smul_smul, smul_smul, mul_div_cancel₀ _ hm1, mul_one_div_cancel hm1, one_smul, h3, sum_range_succ, hidx]
  · simp only [accumulate]
    rw [h4, sum_range_succ, smul_add, hidx]
  · simp only [accumulate]
    rw [h5, sum_range_succ, smul_add, hidx]; module

theorem loop_spec (D : Data L V) (hdt : D.dt ≠ 0) (i0 : Nat) (t0 : ℝ) (dsol0 : V) :
    ∀ (r : Nat) (a : Acc L V) (m : Nat) (reads : List Nat), D.maxIndex + 1 - a.index ≤ r →
      Averages D i0 t0 m { a with index := a.index - 1, time := a.time - D.dt } → 1 ≤ a.index →
      ∃ m', m < m' ∧ Averages D i0 t0 m' (loop D t0 dsol0 reads a).acc ∧
        (loop D t0 dsol0 reads a).acc.index ≤ max (D.maxIndex + 1) a.index ∧
        ((loop D t0 dsol0 reads a).accepted = true → (loop D t0 dsol0 reads a).dsol1 = passSolve D (loop D t0 dsol0 reads a).acc dsol0 ∧
          (loop D t0 dsol0 reads a).dsol0 = (loop D t0 dsol0 reads a).dsol1) ∧
        ((loop D t0 dsol0 reads a).accepted = false → (loop D t0 dsol0 reads a).dsol1 = 0 ∧
          (loop D t0 dsol0 reads a).dsol0 = dsol0 ∧ D.maxIndex < (loop D t0 dsol0 reads a).acc.index) := by
  intro r
  induction r with
  | zero =>
    intro a m reads hr hA hi
    have hA' := accumulate_averages D hdt i0 t0 m a hA hi
    have hstop : D.maxIndex < (accumulate D t0 a).index := by simp only [accumulate]; omega
    rw [loop]
    rw [if_pos (Or.inr hstop)]
    split
    · exact ⟨m + 1, by omega, hA', le_max_right _ _, fun _ => ⟨rfl, rfl⟩, fun h => by simp at h⟩
    · exact ⟨m + 1, by omega, hA', le_max_right _ _, fun h => by simp at h, fun _ => ⟨by simp, rfl, hstop⟩⟩
  | succ r ih =>
    intro a m reads hr hA hi
    have hA' := accumulate_averages D hdt i0 t0 m a hA hi
    rw [loop]
    split
    · rename_i hc
      split
      · exact ⟨m + 1, by omega, hA', le_max_right _ _, fun _ => ⟨rfl, rfl⟩, fun h => by simp at h⟩
      · rename_i hn
        exact ⟨m + 1, by omega, hA', le_max_right _ _, fun h => by simp at h,
          fun _ => ⟨by simp, rfl, hc.resolve_left hn⟩⟩
    · rename_i hc
      push Not at hc
      have hidx : (accumulate D t0 a).index = a.index := rfl
      obtain ⟨m', hm', h1, h2, h3⟩ := ih { accumulate D t0 a with index := (accumulate D t0 a).index + 1, time := (accumulate D t0 a).time + D.dt } (m + 1)
        (reads ++ [(accumulate D t0 a).index]) (by simp only [hidx]; rw [hidx] at hc; omega)
        (by
          obtain ⟨b1, b2, b3, b4, b5⟩ := hA'
          exact ⟨by simpa using b1, by simpa using b2, b3, b4, b5⟩) (by simp)
      refine ⟨m', by omega, h1, ?_, h3⟩
      refine le_trans h2 ?_
      rw [hidx] at hc ⊢
      simp only
      omega

/-- C40, averages: whatever the amplification factors are, when the solver returns, the mass matrix it used is the mean of the mass matrices of the visited
solutions, the integrated Jacobian and forcing are `dt` times the sums, the clock and the solution index have advanced together, and the index is at most
one past the permitted maximum (or one step ahead). -/
theorem C40_averages (D : Data L V) (hdt : D.dt ≠ 0) (i0 : Nat) (t0 : ℝ) (dsol0 : V) :
    let R := sensitivitySolve D i0 t0 dsol0
    ∃ m, 0 < m ∧ R.acc.index = i0 + m ∧ R.acc.time = t0 + m * D.dt ∧
      R.acc.Mavg = (1 / (m : ℝ)) • ∑ k ∈ range m, D.M (i0 + 1 + k) ∧
      R.acc.Jint = D.dt • ∑ k ∈ range m, D.J (i0 + 1 + k) ∧
      R.acc.fint = -(D.dt • ∑ k ∈ range m, D.F (i0 + 1 + k)) ∧ R.acc.index ≤ max (D.maxIndex + 1) (i0 + 1) := by
  obtain ⟨m, hm, hA, hle, _⟩ := loop_spec D hdt i0 t0 dsol0 _ ⟨0, 0, 0, t0 + D.dt, i0 + 1⟩ 0 [] (le_refl _)
    ⟨by simp, by simp, by simp, by simp, by simp⟩ (by simp)
  refine ⟨m, hm, hA.index, hA.time, ?_, hA.J, hA.F, hle⟩
  have hm0 : (m : ℝ) ≠ 0 := by positivity
  have := congrArg (fun y => (1 / (m : ℝ)) • y) hA.M
  simp only [smul_smul, one_div, inv_mul_cancel₀ hm0, one_smul] at this
  rw [one_div]; exact this

/-- C40, accepted step: the new sensitivity solves `(M̄ + β ∫J) x₁ = M̄ x₀ - ∫F` (for `β = 1` the implicit scheme over the slab), and is stored as
current and previous sensitivity. -/
theorem C40_accepted_step (D : Data L V) (hdt : D.dt ≠ 0) (i0 : Nat) (t0 : ℝ) (dsol0 : V)
    (hs : ∀ b, let A := (sensitivitySolve D i0 t0 dsol0).acc.Mavg + D.beta • (sensitivitySolve D i0 t0 dsol0).acc.Jint
      D.app A (D.solve A b) = b) (hacc : (sensitivitySolve D i0 t0 dsol0).accepted = true) :
    let R := sensitivitySolve D i0 t0 dsol0
    D.app (R.acc.Mavg + D.beta • R.acc.Jint) R.dsol1 = D.app R.acc.Mavg dsol0 + R.acc.fint ∧ R.dsol0 = R.dsol1 := by
  obtain ⟨m, _, _, _, h, _⟩ := loop_spec D hdt i0 t0 dsol0 _ ⟨0, 0, 0, t0 + D.dt, i0 + 1⟩ 0 [] (le_refl _)
    ⟨by simp, by simp, by simp, by simp, by simp⟩ (by simp)
  have := h hacc
  refine ⟨?_, this.2⟩
  show D.app _ (loop D t0 dsol0 [] _).dsol1 = _
  rw [this.1, passSolve]; exact hs _

/-- C40 fails, rejection: at the last permitted solution a rejected step leaves a zero current sensitivity, not the previous one. -/
theorem C40_rejected_step_zeroes_fails (D : Data L V) (hdt : D.dt ≠ 0) (i0 : Nat) (t0 : ℝ) (dsol0 : V)
    (hrej : (sensitivitySolve D i0 t0 dsol0).accepted = false) :
    (sensitivitySolve D i0 t0 dsol0).dsol1 = 0 ∧ (sensitivitySolve D i0 t0 dsol0).dsol0 = dsol0 := by
  obtain ⟨m, _, _, _, _, h⟩ := loop_spec D hdt i0 t0 dsol0 _ ⟨0, 0, 0, t0 + D.dt, i0 + 1⟩ 0 [] (le_refl _)
    ⟨by simp, by simp, by simp, by simp, by simp⟩ (by simp)
  exact ⟨(h hrej).1, (h hrej).2.1⟩

/-- A scalar instance: `M = 1`, `J = 1`, `F = 0`, given `β`, amplification bound and amplification factor. -/
noncomputable def scalarData (beta maxAmp amp : ℝ) (maxIndex : Nat) : Data ℝ ℝ :=
  ⟨fun _ => 1, fun _ => 1, fun _ => 0, fun A v => A * v, fun A b => b / A, fun _ _ _ => amp, 1, beta, maxAmp, maxIndex⟩

/-- C40 fails, scheme for `β < 1`: the matrix pencil whose eigenvalues decide acceptance is that of `M₁ x₁ = M₀ x₀` with `M₀ = M̄ - (1-β)∫J`, but the right-hand side that is
solved uses `M̄ x₀`; with `β = 1/2`, `M = J = 1`, `F = 0` the result is `2/3` instead of `1/3`. -/
theorem C40_theta_scheme_fails :
    ∃ (D : Data ℝ ℝ) (x0 : ℝ), D.beta = 1 / 2 ∧ (sensitivitySolve D 0 0 x0).accepted = true ∧
      (pencil D (sensitivitySolve D 0 0 x0).acc).2 * (sensitivitySolve D 0 0 x0).dsol1 ≠
        (pencil D (sensitivitySolve D 0 0 x0).acc).1 * x0 + (sensitivitySolve D 0 0 x0).acc.fint := by
  refine ⟨scalarData (1 / 2) 1 0 3, 1, rfl, ?_, ?_⟩
  · rw [sensitivitySolve, loop]; simp [scalarData, accumulate]
  · rw [sensitivitySolve, loop]; simp [scalarData, accumulate, passSolve, pencil]; norm_num

/-- C40 fails, file range: a rejected step at `max_index` is followed by reading the solution with index `max_index + 1`. -/
theorem C40_reads_past_max_index_fails :
    ∃ (D : Data ℝ ℝ), D.maxIndex = 1 ∧ (sensitivitySolve D 0 0 1).reads = [1, 2] := by
  refine ⟨scalarData 1 1 2 1, rfl, ?_⟩
  rw [sensitivitySolve, loop]
  simp [scalarData, accumulate]
  rw [loop]
  simp [scalarData, accumulate]

/-- C40 fails, output sensitivity: every quadrature point of the interval is linearised about the solution at the end of the interval (`index1`), and, because an accepted
step stores the new sensitivity as both current and previous vector, the interpolated perturbation is constant over the interval. -/
theorem C40_q_sensitivity_points_fails (index0 index1 : Nat) (t0 t1 dt : ℝ) (dx : V) :
    qSensPoints index0 index1 t0 t1 dt dx dx = List.replicate (index1 - index0) (index1, dx) := by
  unfold qSensPoints
  refine List.eq_replicate_iff.2 ⟨by simp, fun b hb => ?_⟩
  obtain ⟨k, _, rfl⟩ := List.mem_map.1 hb
  dsimp only
  rw [← add_smul]; simp

/-- C40: the perturbation used at step `k` of the interval is the linear interpolation in time between the sensitivities at its ends. -/
theorem C40_q_interpolation (index0 index1 : Nat) (t0 dt : ℝ) (hdt : 0 < dt) (dx0 dx1 : V) (k : Nat) (hk : k < index1 - index0) :
    ((qSensPoints index0 index1 t0 (t0 + dt * ((index1 - index0 : Nat) : ℝ)) dt dx0 dx1)[k]?).map (·.2) =
      some (dx0 + ((k : ℝ) / ((index1 - index0 : Nat) : ℝ)) • (dx1 - dx0)) := by
  have hn : ((index1 - index0 : Nat) : ℝ) ≠ 0 := by
    have : index1 - index0 ≠ 0 := by omega
    exact_mod_cast this
  unfold qSensPoints
  rw [List.getElem?_map, List.getElem?_range hk]
  simp only [Option.map_some, Option.some.injEq, add_sub_cancel_left]
  rw [mul_div_mul_left _ _ hdt.ne']
  module

/-- Non-vacuity: acceptance is possible, with the hypothesis on the solver met for the matrix that occurs. -/
example : (sensitivitySolve (scalarData 1 1 0 3) 0 0 1).accepted = true ∧
    ∀ b, (scalarData 1 1 0 3).app ((sensitivitySolve (scalarData 1 1 0 3) 0 0 1).acc.Mavg + (1 : ℝ) • (sensitivitySolve (scalarData 1 1 0 3) 0 0 1).acc.Jint)
      ((scalarData 1 1 0 3).solve ((sensitivitySolve (scalarData 1 1 0 3) 0 0 1).acc.Mavg + (1 : ℝ) • (sensitivitySolve (scalarData 1 1 0 3) 0 0 1).acc.Jint) b) = b := by
  rw [sensitivitySolve, loop]; simp [scalarData, accumulate]; intro b; field_simp

example : (sensitivitySolve (scalarData 1 1 2 1) 0 0 1).accepted = false := by
  rw [sensitivitySolve, loop]
  simp [scalarData, accumulate]
  rw [loop]
  simp [scalarData, accumulate]

end stab
end Verif.Coupled
