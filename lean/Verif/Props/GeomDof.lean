import Verif.Props.GeomElem
import Mathlib.Analysis.Calculus.Deriv.Mul
import Mathlib.Analysis.Calculus.Deriv.Add

/-!
C111: degrees of freedom, residuals and Jacobians move between the element frame and the global frame without changing work, derivatives or definiteness.
-/

namespace Verif.GeomElem

variable {n : Nat}

/-! ### Specification -/

/-- `J` is the Jacobian of `R` at `u`: the directional derivative of every residual component along every direction. -/
def IsJacobian (R : (Dof n → ℝ) → Dof n → ℝ) (J : Dof n → Dof n → ℝ) (u : Dof n → ℝ) : Prop :=
  ∀ (w : Dof n → ℝ) (a : Dof n), HasDerivAt (fun t : ℝ => R (fun b => u b + t * w b) a) (∑ b, J a b * w b) 0

/-- Translation (`false`) or rotation (`true`) of node `i` as a vector. -/
def nodal (u : Dof n → ℝ) (r : Bool) (i : Fin n) : V3 := fun k => u (r, k, i)

/-- The frame of an element: none, or an orthonormal matrix. -/
def Frame (T : Option (Fin 3 → Fin 3 → ℝ)) : Prop := ∀ M, T = some M → Orthonormal M

/-! ### Proofs -/

theorem sum_dof (f : Dof n → ℝ) : ∑ a, f a = ∑ r : Bool, ∑ k : Fin 3, ∑ i : Fin n, f (r, k, i) := by
  rw [Fintype.sum_prod_type]
  exact Finset.sum_congr rfl fun r _ => Fintype.sum_prod_type _

theorem sum_pick (T : Fin 3 → Fin 3 → ℝ) (r : Bool) (i : Fin n) (g : Dof n → ℝ) (c : Fin 3 → ℝ) :
    ∑ b : Dof n, (if r = b.1 ∧ i = b.2.2 then c b.2.1 else 0) * g b = ∑ k, c k * g (r, k, i) := by
  rw [sum_dof]
  rw [Finset.sum_eq_single r (fun r' _ hr => by simp [Ne.symm hr]) (fun h => absurd (Finset.mem_univ _) h)]
  refine Finset.sum_congr rfl fun k _ => ?_
  rw [Finset.sum_eq_single i (fun i' _ hi => by simp [Ne.symm hi]) (fun h => absurd (Finset.mem_univ _) h)]
  simp

/-- C111: the transformation rotates the translation and the rotation of every node as vectors. -/
theorem C111_nodal (T : Fin 3 → Fin 3 → ℝ) (u : Dof n → ℝ) (r : Bool) (i : Fin n) :
    nodal (vecToLocal (some T) u) r i = toLocalVec T (nodal u r i) ∧ nodal (vecToGlobal (some T) u) r i = toGlobalVec T (nodal u r i) := by
  constructor
  · funext k
    have := sum_pick T r i u fun j => T j k
    simp only [nodal, vecToLocal, toLocalVec, dofMat, ← this]
    exact Finset.sum_congr rfl fun b _ => by
      by_cases h : r = b.1 ∧ i = b.2.2
      · rw [if_pos h, if_pos ⟨h.1.symm, h.2.symm⟩]
      · rw [if_neg h, if_neg fun h' => h ⟨h'.1.symm, h'.2.symm⟩]
  · funext k
    have := sum_pick T r i u fun j => T k j
    simp only [nodal, vecToGlobal, toGlobalVec, dofMat, ← this]

theorem ext_nodal {u v : Dof n → ℝ} (h : ∀ r i, nodal u r i = nodal v r i) : u = v := by
  funext ⟨r, k, i⟩
  exact congrFun (h r i) k

/-- C111: going to the element frame and back, or the other way, returns the vector. -/
theorem C111_round_trip (T : Option (Fin 3 → Fin 3 → ℝ)) (h : Frame T) (u : Dof n → ℝ) : vecToGlobal T (vecToLocal T u) = u ∧ vecToLocal T (vecToGlobal T u) = u := by
  cases T with
  | none => exact ⟨rfl, rfl⟩
  | some T =>
    have ho := h T rfl
    constructor <;> refine ext_nodal fun r i => ?_
    · rw [(C111_nodal T _ r i).2, (C111_nodal T _ r i).1, (local_global ho _).2]
    · rw [(C111_nodal T _ r i).1, (C111_nodal T _ r i).2, (local_global ho _).1]

/-- C111: the frame of an initialised element satisfies the hypothesis. -/
theorem C111_frame (dim m : Nat) (pts : Nat → V3) (y : Option V3) (bending : Bool) : Frame (init dim m pts y bending).tMatrix := by
  intro M hM
  cases ho : init dim m pts y bending with
  | loc T nodes nm =>
    rw [ho] at hM
    simp only [Outcome.tMatrix, Option.some.injEq] at hM
    subst hM
    exact (C110_frame _ _ _ _ _ _ _ _ ho).1
  | direct => rw [ho] at hM; simp [Outcome.tMatrix] at hM
  | nan => rw [ho] at hM; simp [Outcome.tMatrix] at hM
  | error => rw [ho] at hM; simp [Outcome.tMatrix] at hM

/-- C111: the work of a residual on a displacement is the same in both frames. -/
theorem C111_work (T : Option (Fin 3 → Fin 3 → ℝ)) (f u : Dof n → ℝ) : ∑ a, vecToGlobal T f a * u a = ∑ a, f a * vecToLocal T u a := by
  cases T with
  | none => rfl
  | some T =>
    simp only [vecToGlobal, vecToLocal, Finset.sum_mul, Finset.mul_sum]
    rw [Finset.sum_comm]
    exact Finset.sum_congr rfl fun _ _ => Finset.sum_congr rfl fun _ _ => by ring

theorem local_lin (T : Option (Fin 3 → Fin 3 → ℝ)) (u w : Dof n → ℝ) (t : ℝ) : vecToLocal T (fun b => u b + t * w b) = fun b => vecToLocal T u b + t * vecToLocal T w b := by
  cases T with
  | none => rfl
  | some T =>
    funext a
    simp only [vecToLocal, Finset.mul_sum, ← Finset.sum_add_distrib]
    exact Finset.sum_congr rfl fun _ _ => by ring

theorem mat_apply (T : Option (Fin 3 → Fin 3 → ℝ)) (J : Dof n → Dof n → ℝ) (w : Dof n → ℝ) (a : Dof n) :
    ∑ b, matToGlobal T J a b * w b = vecToGlobal T (fun c => ∑ d, J c d * vecToLocal T w d) a := by
  cases T with
  | none => rfl
  | some T =>
    simp only [matToGlobal, vecToGlobal, vecToLocal, Finset.mul_sum, Finset.sum_mul]
    calc ∑ b, ∑ d, ∑ c, dofMat T a c * J c d * dofMat T b d * w b = ∑ b, ∑ c, ∑ d, dofMat T a c * J c d * dofMat T b d * w b :=
          Finset.sum_congr rfl fun b _ => Finset.sum_comm
      _ = ∑ c, ∑ b, ∑ d, dofMat T a c * J c d * dofMat T b d * w b := Finset.sum_comm
      _ = ∑ c, ∑ d, ∑ b, dofMat T a c * J c d * dofMat T b d * w b := Finset.sum_congr rfl fun c _ => Finset.sum_comm
      _ = ∑ c, ∑ d, ∑ b, dofMat T a c * (J c d * (dofMat T b d * w b)) :=
          Finset.sum_congr rfl fun _ _ => Finset.sum_congr rfl fun _ _ => Finset.sum_congr rfl fun _ _ => by ring

/-- C111: if the element computes the Jacobian of its residual in its own frame, what it reports to the assembly is the Jacobian of the reported residual. -/
theorem C111_jacobian (T : Option (Fin 3 → Fin 3 → ℝ)) (R : (Dof n → ℝ) → Dof n → ℝ) (J : Dof n → Dof n → ℝ) (u : Dof n → ℝ) (h : IsJacobian R J (vecToLocal T u)) :
    IsJacobian (globalRes T R) (matToGlobal T J) u := by
  intro w a
  rw [mat_apply]
  simp only [globalRes, local_lin]
  have hl := h (vecToLocal T w)
  cases T with
  | none => exact hl a
  | some T => exact HasDerivAt.fun_sum fun b _ => (hl b).const_mul _

/-- C111: the quadratic form of the reported matrix on a global vector is that of the element matrix on the local vector; symmetry, semidefiniteness and definiteness carry over. -/
theorem C111_quadratic (T : Option (Fin 3 → Fin 3 → ℝ)) (J : Dof n → Dof n → ℝ) :
    (∀ w : Dof n → ℝ, ∑ a, w a * ∑ b, matToGlobal T J a b * w b = ∑ a, vecToLocal T w a * ∑ b, J a b * vecToLocal T w b) ∧
      ((∀ a b, J a b = J b a) → ∀ a b, matToGlobal T J a b = matToGlobal T J b a) ∧
      ((∀ w : Dof n → ℝ, 0 ≤ ∑ a, w a * ∑ b, J a b * w b) → ∀ w : Dof n → ℝ, 0 ≤ ∑ a, w a * ∑ b, matToGlobal T J a b * w b) ∧
      (Frame T → (∀ w : Dof n → ℝ, w ≠ 0 → 0 < ∑ a, w a * ∑ b, J a b * w b) → ∀ w : Dof n → ℝ, w ≠ 0 → 0 < ∑ a, w a * ∑ b, matToGlobal T J a b * w b) := by
  have hq : ∀ w : Dof n → ℝ, ∑ a, w a * ∑ b, matToGlobal T J a b * w b = ∑ a, vecToLocal T w a * ∑ b, J a b * vecToLocal T w b := by
    intro w
    have := C111_work T (fun c => ∑ d, J c d * vecToLocal T w d) w
    simp only [mat_apply]
    calc ∑ a, w a * vecToGlobal T (fun c => ∑ d, J c d * vecToLocal T w d) a = ∑ a, vecToGlobal T (fun c => ∑ d, J c d * vecToLocal T w d) a * w a :=
          Finset.sum_congr rfl fun _ _ => mul_comm _ _
      _ = _ := this
      _ = _ := Finset.sum_congr rfl fun _ _ => mul_comm _ _
  refine ⟨hq, ?_, fun h w => by rw [hq]; exact h _, fun hf h w hw => ?_⟩
  · intro hs a b
    cases T with
    | none => exact hs a b
    | some T =>
      simp only [matToGlobal, Finset.sum_mul]
      rw [Finset.sum_comm]
      exact Finset.sum_congr rfl fun _ _ => Finset.sum_congr rfl fun _ _ => by rw [hs]; ring
  · rw [hq]
    refine h _ fun h0 => hw ?_
    have := (C111_round_trip T hf w).1
    rw [h0] at this
    rw [← this]
    cases T with
    | none => rfl
    | some T => funext a; simp [vecToGlobal]

/-- C111: the rows of the degrees of freedom in the flat element vector are exactly the numbers below `6 n`, each once. -/
theorem C111_rows : Function.Injective (Dof.row : Dof n → Nat) ∧ (∀ d : Dof n, d.row < 6 * n) ∧ ∀ r, r < 6 * n → ∃ d : Dof n, d.row = r := by
  refine ⟨?_, ?_, ?_⟩
  · rintro ⟨r, k, i⟩ ⟨r', k', i'⟩ h
    simp only [Dof.row] at h
    have hi := i.isLt
    have hi' := i'.isLt
    have hmod : i.val = i'.val := by
      have := congrArg (· % n) h
      simpa [Nat.mul_add_mod_of_lt, Nat.add_mod, Nat.mod_eq_of_lt hi, Nat.mod_eq_of_lt hi'] using this
    have hn : 0 < n := lt_of_le_of_lt (Nat.zero_le _) hi
    have hdiv : k.val + (if r then 3 else 0) = k'.val + (if r' then 3 else 0) := by
      rw [hmod] at h
      exact Nat.eq_of_mul_eq_mul_right hn (Nat.add_right_cancel h)
    have hk := k.isLt
    have hk' := k'.isLt
    have hr : r = r' := by cases r <;> cases r' <;> simp at hdiv ⊢ <;> omega
    subst hr
    have : k = k' := Fin.ext (by omega)
    subst this
    have : i = i' := Fin.ext hmod
    subst this
    rfl
  · rintro ⟨r, k, i⟩
    simp only [Dof.row]
    have hi := i.isLt
    have hk := k.isLt
    have : k.val + (if r then 3 else 0) ≤ 5 := by cases r <;> simp <;> omega
    calc _ < (k.val + (if r then 3 else 0)) * n + n := Nat.add_lt_add_left hi _
      _ = (k.val + (if r then 3 else 0) + 1) * n := by ring
      _ ≤ 6 * n := Nat.mul_le_mul_right _ (by omega)
  · intro r hr
    have hn : 0 < n := by rcases Nat.eq_zero_or_pos n with h | h; · simp [h] at hr
                          · exact h
    have hq : r / n < 6 := (Nat.div_lt_iff_lt_mul hn).2 hr
    refine ⟨(decide (3 ≤ r / n), ⟨(r / n) % 3, Nat.mod_lt _ (by norm_num)⟩, ⟨r % n, Nat.mod_lt _ hn⟩), ?_⟩
    simp only [Dof.row]
    have : (r / n) % 3 + (if decide (3 ≤ r / n) = true then 3 else 0) = r / n := by
      by_cases h : 3 ≤ r / n <;> simp [h] <;> omega
    rw [this]
    exact Nat.div_add_mod' r n

/-- C111: without a local frame the linearised residual is the Jacobian times the perturbation. -/
theorem C111_linearized_partial (R : (Dof n → ℝ) → Dof n → ℝ) (J : Dof n → Dof n → ℝ) (u du : Dof n → ℝ) (h : IsJacobian R J u) (a : Dof n) :
    HasDerivAt (fun t => globalRes none R (fun b => u b + t * du b) a) (linearizedRes none J du a) 0 := h du a

/-- Quarter turn about the z axis. -/
def turn : Fin 3 → Fin 3 → ℝ := tmat ![0, 1, 0] ![-1, 0, 0] ![0, 0, 1]

theorem turn_orthonormal : Orthonormal turn := by
  intro a b
  rw [dot_three]
  fin_cases a <;> fin_cases b <;> simp [turn, tmat]

/-- C111 (what the code does not do): the linearised residual of an element with its own frame multiplies the global matrix by the local perturbation, so it is not the derivative of the residual; and its
work arrays have six times the length of the residual. -/
theorem C111_linearized_fails : (∃ (T : Fin 3 → Fin 3 → ℝ) (R : (Dof 1 → ℝ) → Dof 1 → ℝ) (J : Dof 1 → Dof 1 → ℝ) (u du : Dof 1 → ℝ) (a : Dof 1), Orthonormal T ∧ IsJacobian R J (vecToLocal (some T) u) ∧
    ¬ HasDerivAt (fun t => globalRes (some T) R (fun b => u b + t * du b) a) (linearizedRes (some T) J du a) 0) ∧ ∀ nf, 0 < nf → linearizedWorkSize nf ≠ nf := by
  refine ⟨⟨turn, fun u => u, fun a b => if a = b then 1 else 0, fun _ => 0, fun b => if b = (false, 0, 0) then 1 else 0, (false, 0, 0), turn_orthonormal, ?_, ?_⟩, ?_⟩
  · intro w a
    have : (∑ b, (if a = b then (1:ℝ) else 0) * w b) = w a := by simp
    rw [this]
    simpa using (((hasDerivAt_id' (0:ℝ)).mul_const (w a)).const_add (vecToLocal (some turn) (fun _ => 0) a))
  · intro h
    have e : ∀ t : ℝ, globalRes (some turn) (fun u : Dof 1 → ℝ => u) (fun b => (0:ℝ) + t * (if b = (false, 0, 0) then 1 else 0)) (false, 0, 0) = t := by
      intro t
      have := (C111_round_trip (some turn) (fun M hM => by cases hM; exact turn_orthonormal) (fun b : Dof 1 => (0:ℝ) + t * (if b = (false, 0, 0) then 1 else 0))).1
      rw [globalRes, this]; simp
    have h1 : HasDerivAt (fun t : ℝ => t) (linearizedRes (some turn) (fun a b : Dof 1 => if a = b then 1 else 0) (fun b => if b = (false, 0, 0) then 1 else 0) (false, 0, 0)) 0 := by
      refine h.congr_of_eventuallyEq (Filter.Eventually.of_forall fun t => (e t).symm)
    have h2 := h1.unique (hasDerivAt_id' (0:ℝ))
    have h3 : linearizedRes (some turn) (fun a b : Dof 1 => if a = b then 1 else 0) (fun b => if b = (false, 0, 0) then 1 else 0) (false, 0, 0) = 0 := by
      simp only [linearizedRes, mat_apply]
      have : (fun c : Dof 1 => ∑ d, (if c = d then (1:ℝ) else 0) * vecToLocal (some turn) (vecToLocal (some turn) fun b : Dof 1 => if b = (false, 0, 0) then 1 else 0) d) =
          vecToLocal (some turn) (vecToLocal (some turn) fun b : Dof 1 => if b = (false, 0, 0) then 1 else 0) := by funext c; simp
      rw [this, (C111_round_trip (some turn) (fun M hM => by cases hM; exact turn_orthonormal) _).1]
      have := congrFun (C111_nodal turn (fun b : Dof 1 => if b = (false, 0, 0) then (1:ℝ) else 0) false 0).1 0
      rw [nodal] at this
      rw [this]
      simp [toLocalVec, nodal, turn, tmat, Fin.sum_univ_three]
    rw [h3] at h2
    exact zero_ne_one h2
  · intro nf h; unfold linearizedWorkSize; omega

/-- Non-vacuity of C111: a quarter turn is a frame, and it acts. -/
example : Frame (some turn) ∧ toLocalVec turn ![1, 0, 0] = ![0, -1, 0] := by
  refine ⟨fun M hM => by cases hM; exact turn_orthonormal, ?_⟩
  funext j; fin_cases j <;> simp [toLocalVec, turn, tmat, Fin.sum_univ_three]

end Verif.GeomElem
