import Verif.Props.Solid
import Mathlib.Tactic.Positivity
import Mathlib.Tactic.Linarith
/-
  C121: energy, symmetry, positivity, objectivity, equilibrium and sensitivity of the solid element.  C122: recovered stress and thermal load.  C123: incompatible mode mapping.
-/
namespace Verif.Solid
open Verif.GeomElem Verif.StructLoads
open Verif.Shell (shape U V W app appT mv mvT mm tr sandwich sum_shape unitDof sum_unit sandwich_sum sum_sandwich hasDeriv_quad zero_line list_sum_apply list_add)

variable {n : Nat} {X : Type}

/-! ### Work and energy -/

theorem grad_lin (q : Vqp n X) (w : Dof n → ℝ) (c k : Fin 3) : ∑ a, grad q (unitDof a) c k * w a = grad q w c k := by
  simp only [grad_unit]; exact grad_shape _ _ _ _

theorem dStrain_lin (nl : Bool) (q : Vqp n X) (u w : Dof n → ℝ) (r : Fin 6) : ∑ a, dStrain nl q u (unitDof a) r * w a = dStrain nl q u w r := by
  have h1 : ∑ a, lin q (unitDof a) r * w a = lin q w r := by
    fin_cases r <;> simp [lin, add_mul, Finset.sum_add_distrib, grad_lin]
  have h2 : ∑ a, quad q u (unitDof a) r * w a = quad q u w r := by
    fin_cases r <;> simp [quad, Fin.sum_univ_three, add_mul, Finset.sum_add_distrib, mul_assoc, ← Finset.mul_sum, grad_lin]
  cases nl
  · simpa [dStrain] using h1
  · simp only [dStrain, if_true, add_mul, Finset.sum_add_distrib, h1, h2]

theorem strainT_work (nl : Bool) (q : Vqp n X) (u w : Dof n → ℝ) (s : Fin 6 → ℝ) : ∑ a, strainT nl q u s a * w a = q.JxW * ∑ r, s r * dStrain nl q u w r := by
  simp only [strainT_eq, ← dStrain_lin nl q u w, Finset.mul_sum, Finset.sum_mul]
  rw [Finset.sum_comm]
  exact Finset.sum_congr rfl fun r _ => Finset.sum_congr rfl fun a _ => by ring

/-- C121: the residual is the gradient of the strain energy. -/
theorem C121_energy (nl : Bool) (e : Elem n X) (hC : SymmC e) (u w : Dof n → ℝ) :
    HasDerivAt (fun t : ℝ => energy nl e fun b => u b + t * w b) (work (internalRes nl e u) w) 0 := by
  have hs : ∀ (q : Vqp n X) (u : Dof n → ℝ), voigt (tensor nl q u) = strain nl q u := fun q u => funext fun r => (C121_strain nl q u r).symm
  simp only [energy, hs]
  refine HasDerivAt.congr_deriv (hasDerivAt_list e _ (fun p => ∑ a, opRes nl p.2 p.1 u a * w a) 0 fun p hp => ?_) ?_
  · refine HasDerivAt.congr_deriv (HasDerivAt.const_mul p.1.JxW (HasDerivAt.const_mul (1 / 2) (HasDerivAt.fun_sum fun r _ => HasDerivAt.fun_sum fun s _ =>
      HasDerivAt.fun_mul (HasDerivAt.mul_const (strain_deriv nl p.1 u w r) (p.2 r s)) (strain_deriv nl p.1 u w s)))) ?_
    simp only [zero_line]
    unfold opRes
    rw [strainT_work]
    congr 1
    have h : ∑ r, ∑ s, strain nl p.1 u r * p.2 r s * dStrain nl p.1 u w s = ∑ r, ∑ s, dStrain nl p.1 u w r * p.2 r s * strain nl p.1 u s := by
      rw [Finset.sum_comm]
      exact Finset.sum_congr rfl fun r _ => Finset.sum_congr rfl fun s _ => by rw [hC p hp s r]; ring
    simp only [Finset.sum_add_distrib, h, stress, mv, Finset.sum_mul]
    rw [← two_mul, ← mul_assoc]
    norm_num
    exact Finset.sum_congr rfl fun r _ => Finset.sum_congr rfl fun s _ => by ring
  · exact (list_sum_apply e (fun p a => opRes nl p.2 p.1 u a) w).symm

/-- C121: the tangent is symmetric. -/
theorem C121_symmetric (nl : Bool) (e : Elem n X) (hC : SymmC e) (u : Dof n → ℝ) (a b : Dof n) : materialJac nl e u a b = materialJac nl e u b a := by
  refine list_congr _ _ _ fun p hp => ?_
  have h : ∀ a b, opJac nl p.2 p.1 u a b = tangent nl p.2 p.1 u a (unitDof b) := fun a b => by rw [← opJac_eq, sum_unit]
  rw [h, h]
  unfold tangent
  congr 1
  simp only [Finset.sum_add_distrib, Finset.sum_mul]
  congr 1
  · rw [Finset.sum_comm]
    exact Finset.sum_congr rfl fun r _ => Finset.sum_congr rfl fun s _ => by rw [hC p hp s r]; ring
  · exact Finset.sum_congr rfl fun r _ => by
      cases nl
      · rfl
      · simp only [ddStrain, if_true]; rw [quad_symm]

/-- C121: with linear strain and a material of nonnegative energy the stiffness is positive semidefinite. -/
theorem C121_psd (e : Elem n X) (hC : SymmC e) (hp : ∀ p ∈ e, ∀ x : Fin 6 → ℝ, 0 ≤ ∑ r, ∑ s, x r * p.2 r s * x s) (hJ : ∀ p ∈ e, 0 ≤ p.1.JxW) (u : Dof n → ℝ) : Psd (materialJac false e u) := by
  refine ⟨C121_symmetric false e hC u, fun w => ?_⟩
  have h : ∑ a, w a * ∑ b, materialJac false e u a b * w b = (e.map fun p => p.1.JxW * ∑ r, ∑ s, lin p.1 w r * p.2 r s * lin p.1 w s).sum := by
    simp only [materialJac, list_sum_apply e (fun p b => opJac false p.2 p.1 u _ b) w, opJac_eq]
    have h1 : ∀ a, w a * (e.map fun p => tangent false p.2 p.1 u a w).sum = (e.map fun p => tangent false p.2 p.1 u a w).sum * w a := fun a => mul_comm _ _
    simp only [h1]
    rw [list_sum_apply e (fun p a => tangent false p.2 p.1 u a w) w]
    refine list_congr _ _ _ fun p _ => ?_
    simp only [tangent, ddStrain, Bool.false_eq_true, if_false, mul_zero, add_zero]
    have h2 := strainT_work false p.1 u w fun r => ∑ s, p.2 r s * dStrain false p.1 u w s
    simp only [strainT_eq] at h2
    rw [h2]
    congr 1
    simp only [dStrain, Bool.false_eq_true, if_false, add_zero, Finset.sum_mul]
    exact Finset.sum_congr rfl fun r _ => Finset.sum_congr rfl fun s _ => by ring
  rw [h]
  refine List.sum_nonneg fun x hx => ?_
  obtain ⟨p, hpe, rfl⟩ := List.mem_map.1 hx
  exact mul_nonneg (hJ p hpe) (hp p hpe _)

/-! ### Rigid motions -/

theorem deform_moved (x : Fin n → Fin 3 → ℝ) (Q : Fin 3 → Fin 3 → ℝ) (c : Fin 3 → ℝ) (q : Vqp n X) (h : Affine x q) (u : Dof n → ℝ) (i k : Fin 3) :
    deform q (moved x Q c u) i k = ∑ l, Q i l * deform q u l k := by
  have h1 : grad q (moved x Q c u) i k = (∑ l, Q i l * ((if k = l then 1 else 0) + grad q u l k)) - if k = i then 1 else 0 := by
    have e : ∀ j, q.d k j * moved x Q c u (false, i, j) = c i * q.d k j + (∑ l, Q i l * (q.d k j * x j l + q.d k j * u (false, l, j))) - q.d k j * x j i := by
      intro j
      simp only [moved, Bool.false_eq_true, if_false, mul_sub, mul_add, Finset.mul_sum, Finset.sum_add_distrib]
      have e1 : ∑ l, q.d k j * (Q i l * x j l) = ∑ l, Q i l * (q.d k j * x j l) := Finset.sum_congr rfl fun l _ => by ring
      have e2 : ∑ l, q.d k j * (Q i l * u (false, l, j)) = ∑ l, Q i l * (q.d k j * u (false, l, j)) := Finset.sum_congr rfl fun l _ => by ring
      rw [e1, e2]; ring
    unfold grad
    simp only [e, Finset.sum_sub_distrib, Finset.sum_add_distrib, ← Finset.mul_sum, h.c k, h.x k]
    rw [Finset.sum_comm]
    simp only [← Finset.mul_sum, Finset.sum_add_distrib, h.x k, mul_zero, zero_add]
  unfold deform
  rw [h1]
  have e3 : ∀ l : Fin 3, (if l = k then (1:ℝ) else 0) = if k = l then 1 else 0 := fun l => by simp only [eq_comm]
  simp only [e3]
  ring

/-- C121: superposing a rotation and a translation on any deformation changes neither the strain nor the strain energy. -/
theorem C121_objective (x : Fin n → Fin 3 → ℝ) (Q : Fin 3 → Fin 3 → ℝ) (hQ : ∀ i j, ∑ c, Q c i * Q c j = if i = j then 1 else 0) (c : Fin 3 → ℝ) (e : Elem n X) (h : ∀ p ∈ e, Affine x p.1) (u : Dof n → ℝ) :
    (∀ p ∈ e, strain true p.1 (moved x Q c u) = strain true p.1 u) ∧ energy true e (moved x Q c u) = energy true e u := by
  have ht : ∀ p ∈ e, tensor true p.1 (moved x Q c u) = tensor true p.1 u := by
    intro p hp
    funext i j
    simp only [tensor, if_true, deform_moved x Q c p.1 (h p hp)]
    congr 2
    have e1 : ∀ a, (∑ l, Q a l * deform p.1 u l i) * (∑ m, Q a m * deform p.1 u m j) = ∑ l, ∑ m, (Q a l * Q a m) * (deform p.1 u l i * deform p.1 u m j) := by
      intro a
      rw [Finset.sum_mul_sum]
      exact Finset.sum_congr rfl fun l _ => Finset.sum_congr rfl fun m _ => by ring
    simp only [e1]
    rw [Finset.sum_comm]
    refine Finset.sum_congr rfl fun l _ => ?_
    rw [Finset.sum_comm]
    simp only [← Finset.sum_mul, hQ]
    simp
  refine ⟨fun p hp => funext fun r => by rw [C121_strain, C121_strain, ht p hp], ?_⟩
  exact list_congr _ _ _ fun p hp => by rw [ht p hp]

theorem grad_zero (q : Vqp n X) (c k : Fin 3) : grad q (fun _ => 0) c k = 0 := by simp [grad]
theorem strain_zero (nl : Bool) (q : Vqp n X) (r : Fin 6) : strain nl q (fun _ => 0) r = 0 := by
  rw [strain_eq]; fin_cases r <;> simp [lin, quad, grad_zero]

theorem opRes_of_strain (nl : Bool) (C : Fin 6 → Fin 6 → ℝ) (q : Vqp n X) (u : Dof n → ℝ) (h : ∀ r, strain nl q u r = 0) (a : Dof n) : opRes nl C q u a = 0 := by
  rw [opRes_eq]; simp [h]

/-- C121: a rigid motion, however large the rotation, leaves the element free of stress and of internal force. -/
theorem C121_rigid (x : Fin n → Fin 3 → ℝ) (Q : Fin 3 → Fin 3 → ℝ) (hQ : ∀ i j, ∑ c, Q c i * Q c j = if i = j then 1 else 0) (c : Fin 3 → ℝ) (e : Elem n X) (h : ∀ p ∈ e, Affine x p.1) (a : Dof n) :
    internalRes true e (moved x Q c fun _ => 0) a = 0 := by
  unfold internalRes
  rw [List.sum_eq_zero]
  intro y hy
  obtain ⟨p, hp, rfl⟩ := List.mem_map.1 hy
  exact opRes_of_strain _ _ _ _ (fun r => by rw [(C121_objective x Q hQ c e h fun _ => 0).1 p hp, strain_zero]) _

theorem grad_spin (x : Fin n → Fin 3 → ℝ) (s : ℝ) (u : Dof n → ℝ) (c : Fin 3 → ℝ) (Ω : Fin 3 → Fin 3 → ℝ) (q : Vqp n X) (h : Affine x q) (i k : Fin 3) :
    grad q (spin x s u c Ω) i k = ∑ l, Ω i l * ((if k = l then 1 else 0) + s * grad q u l k) := by
  have e : ∀ j, q.d k j * spin x s u c Ω (false, i, j) = c i * q.d k j + ∑ l, Ω i l * (q.d k j * x j l + s * (q.d k j * u (false, l, j))) := by
    intro j
    simp only [spin, Bool.false_eq_true, if_false, mul_add, Finset.mul_sum, Finset.sum_add_distrib]
    have e1 : ∑ l, q.d k j * (Ω i l * x j l) = ∑ l, Ω i l * (q.d k j * x j l) := Finset.sum_congr rfl fun l _ => by ring
    have e2 : ∑ l, q.d k j * (Ω i l * (s * u (false, l, j))) = ∑ l, Ω i l * (s * (q.d k j * u (false, l, j))) := Finset.sum_congr rfl fun l _ => by ring
    rw [e1, e2]; ring
  unfold grad
  simp only [e, Finset.sum_add_distrib, ← Finset.mul_sum, h.c k]
  rw [Finset.sum_comm]
  simp only [← Finset.mul_sum, Finset.sum_add_distrib, h.x k, mul_zero, zero_add]

/-- C121: the internal forces are in equilibrium: no work on a translation or a rotation about the deformed (nonlinear) or undeformed (linear) configuration. -/
theorem C121_equilibrium (nl : Bool) (x : Fin n → Fin 3 → ℝ) (c : Fin 3 → ℝ) (Ω : Fin 3 → Fin 3 → ℝ) (hΩ : ∀ i j, Ω i j = -Ω j i) (e : Elem n X) (h : ∀ p ∈ e, Affine x p.1) (u : Dof n → ℝ) :
    work (internalRes nl e u) (spin x (if nl then 1 else 0) u c Ω) = 0 := by
  unfold work internalRes
  rw [list_sum_apply e (fun p a => opRes nl p.2 p.1 u a) _, List.sum_eq_zero]
  intro y hy
  obtain ⟨p, hp, rfl⟩ := List.mem_map.1 hy
  unfold opRes
  rw [strainT_work]
  have hd : ∀ r, dStrain nl p.1 u (spin x (if nl then 1 else 0) u c Ω) r = 0 := by
    have d0 : Ω 0 0 = 0 := by have := hΩ 0 0; linarith
    have d1 : Ω 1 1 = 0 := by have := hΩ 1 1; linarith
    have d2 : Ω 2 2 = 0 := by have := hΩ 2 2; linarith
    have a1 : Ω 1 0 = -Ω 0 1 := hΩ 1 0
    have a2 : Ω 2 0 = -Ω 0 2 := hΩ 2 0
    have a3 : Ω 2 1 = -Ω 1 2 := hΩ 2 1
    intro r
    cases nl <;> fin_cases r <;> simp [dStrain, lin, quad, grad_spin x _ u c Ω p.1 (h p hp), Fin.sum_univ_three, d0, d1, d2, a1, a2, a3] <;> ring
  simp [hd]

/-! ### Sensitivity and the matrix handed back -/

/-- C121: when the material matrix depends on a parameter, the sensitivity routine adds the derivative of the residual and of its Jacobian at fixed displacement. -/
theorem C121_sensitivity (nl : Bool) (qs : List (Vqp n X)) (C : ℝ → Vqp n X → Fin 6 → Fin 6 → ℝ) (dC : Vqp n X → Fin 6 → Fin 6 → ℝ) (t0 : ℝ)
    (hC : ∀ q ∈ qs, ∀ r s, HasDerivAt (fun t => C t q r s) (dC q r s) t0) (u : Dof n → ℝ) (a b : Dof n) :
    HasDerivAt (fun t => internalRes nl (qs.map fun q => (q, C t q)) u a) (internalSens nl (qs.map fun q => (q, C t0 q)) dC u a) t0 ∧
    HasDerivAt (fun t => materialJac nl (qs.map fun q => (q, C t q)) u a b) (sensJac nl (qs.map fun q => (q, C t0 q)) dC u a b) t0 := by
  constructor
  · simp only [internalRes, internalSens, List.map_map, Function.comp_def]
    refine hasDerivAt_list qs _ _ t0 fun q hq => ?_
    simp only [opRes_eq]
    exact HasDerivAt.const_mul _ (HasDerivAt.fun_sum fun r _ => HasDerivAt.mul_const (HasDerivAt.fun_sum fun s _ => (hC q hq r s).mul_const _) _)
  · have h : ∀ (C : Fin 6 → Fin 6 → ℝ) (q : Vqp n X) (a b : Dof n), opJac nl C q u a b = tangent nl C q u a (unitDof b) := fun C q a b => by rw [← opJac_eq, sum_unit]
    simp only [materialJac, sensJac, List.map_map, Function.comp_def, h]
    refine hasDerivAt_list qs _ _ t0 fun q hq => ?_
    simp only [tangent, stress, mv]
    exact HasDerivAt.const_mul _ (HasDerivAt.fun_sum fun r _ => HasDerivAt.fun_add (HasDerivAt.mul_const (HasDerivAt.fun_sum fun s _ => (hC q hq r s).mul_const _) _)
      (HasDerivAt.mul_const (HasDerivAt.fun_sum fun s _ => (hC q hq r s).mul_const _) _))

/-- C121: on rows and columns of translations, and off the diagonal, the matrix handed back is the caller's plus the derivative of the residual.  The full statement (all entries) fails, see `C121_rotations_fails`. -/
theorem C121_returned_partial (nl : Bool) (e : Elem n X) (u : Dof n → ℝ) (J0 : Dof n → Dof n → ℝ) (a b : Dof n) (h : a ≠ b ∨ a.1 = false) :
    HasDerivAt (fun t : ℝ => internalRes nl e (fun c => u c + t * unitDof b c) a) (internalJac nl e u J0 a b - J0 a b) 0 := by
  refine HasDerivAt.congr_deriv (C121_jacobian nl e u (unitDof b) a) ?_
  have : ¬ (a = b ∧ a.1 = true) := by
    rintro ⟨h1, h2⟩
    rcases h with h | h
    · exact h h1
    · rw [h] at h2; cases h2
  rw [sum_unit, internalJac, regularize, if_neg this]; ring

/-- C121: the size of the entry added on the rotational diagonal: one part in 10^20 of the largest diagonal entry of the matrix built so far (the caller's matrix included). -/
theorem C121_regularization (hn : 0 < n) (nl : Bool) (e : Elem n X) (u : Dof n → ℝ) (J0 : Dof n → Dof n → ℝ) :
    ∃ c : ℝ, (∃ a, c = J0 a a + materialJac nl e u a a) ∧ (∀ a, J0 a a + materialJac nl e u a a ≤ c) ∧
      ∀ a : Dof n, a.1 = true → internalJac nl e u J0 a a = J0 a a + materialJac nl e u a a + c / 10 ^ 20 := by
  have hne : (Finset.univ.image fun a : Dof n => J0 a a + materialJac nl e u a a).Nonempty := ⟨_, Finset.mem_image_of_mem _ (Finset.mem_univ ((false, 0, ⟨0, hn⟩) : Dof n))⟩
  obtain ⟨c, hc⟩ := Finset.max_of_nonempty hne
  refine ⟨c, ?_, fun a => Finset.le_max_of_eq (Finset.mem_image.2 ⟨a, Finset.mem_univ a, rfl⟩) hc, fun a ha => ?_⟩
  · obtain ⟨a, _, h⟩ := Finset.mem_image.1 (Finset.mem_of_max hc)
    exact ⟨a, h.symm⟩
  · have hd : diagMax (fun a b => J0 a b + materialJac nl e u a b) = c := by
      simp only [diagMax, hc, WithBot.unbotD_coe]
    rw [internalJac, regularize, if_pos ⟨rfl, ha⟩, hd]; ring

end Verif.Solid
