import Verif.Model.ShellDot
import Verif.Props.ShellTangent
import Verif.Props.ShellThermal
/-
  C163: derivative of the shell tangent along the solution sensitivity.
-/
namespace Verif.Shell
open Verif.GeomElem Verif.StructLoads

/-! ### Specification -/
section Spec
variable {n : Nat} {X : Type}

/-- Rate of the membrane stress resultant when the state moves along `w`. -/
noncomputable def stressRate (bend : Bool) (S : Stiff) (q : Sqp n X) (u w : Dof n → ℝ) (r : Fin 3) : ℝ :=
  ∑ s, (S.A r s * dStrain true bend q u w s + S.B r s * curvature bend q w s)

/-- The part of the derivative of the tangent that comes from the in-plane quadratic strain: entry between the motions `a` and `z`. -/
noncomputable def inPlanePart (bend : Bool) (S : Stiff) (q : Sqp n X) (u w a z : Dof n → ℝ) : ℝ :=
  q.JxW * ((∑ r, ∑ s, S.A r s * (linStrain q a r * quadIn q w z s + quadIn q w a r * linStrain q z s + quadIn q w a r * quadIn q u z s + quadIn q u a r * quadIn q w z s))
    + (∑ r, stressRate bend S q u w r * quadIn q z a r) + if bend then ∑ r, (∑ s, S.A r s * quadIn q u w s) * quadOut q z a r else 0)

/-- A degree of freedom of an in-plane displacement. -/
def InPlane (a : Dof n) : Prop := a.1 = false ∧ (a.2.1 = 0 ∨ a.2.1 = 1)
end Spec

variable {n : Nat} {X : Type}

theorem quadIn_add (q : Sqp n X) (u w z : Dof n → ℝ) (t : ℝ) (r : Fin 3) : quadIn q (fun b => u b + t * w b) z r = quadIn q u z r + t * quadIn q w z r := by
  fin_cases r <;> simp [quadIn, gx_add, gy_add] <;> ring
theorem quadOut_add (q : Sqp n X) (u w z : Dof n → ℝ) (t : ℝ) (r : Fin 3) : quadOut q (fun b => u b + t * w b) z r = quadOut q u z r + t * quadOut q w z r := by
  fin_cases r <;> simp [quadOut, gx_add, gy_add] <;> ring

theorem quadIn_deriv (q : Sqp n X) (u w z : Dof n → ℝ) (r : Fin 3) : HasDerivAt (fun t : ℝ => quadIn q (fun b => u b + t * w b) z r) (quadIn q w z r) 0 := by
  simp only [quadIn_add]; simpa using hasDeriv_quad (quadIn q u z r) (quadIn q w z r) 0
theorem quadOut_deriv (q : Sqp n X) (u w z : Dof n → ℝ) (r : Fin 3) : HasDerivAt (fun t : ℝ => quadOut q (fun b => u b + t * w b) z r) (quadOut q w z r) 0 := by
  simp only [quadOut_add]; simpa using hasDeriv_quad (quadOut q u z r) (quadOut q w z r) 0

theorem stress_deriv (bend : Bool) (S : Stiff) (q : Sqp n X) (u w : Dof n → ℝ) (r : Fin 3) :
    HasDerivAt (fun t : ℝ => memStress true bend S q (fun b => u b + t * w b) r) (stressRate bend S q u w r) 0 := by
  simp only [memStress_eq]
  exact HasDerivAt.fun_sum fun s _ => HasDerivAt.fun_add ((midStrain_deriv true bend q u w s).const_mul (S.A r s)) ((curvature_deriv bend q u w s).const_mul (S.B r s))

theorem jacNl_deriv (bend : Bool) (S : Stiff) (q : Sqp n X) (u w z : Dof n → ℝ) (a : Dof n) :
    HasDerivAt (fun t : ℝ => ∑ b, jacNl bend S q (fun b => u b + t * w b) a b * z b)
      (q.JxW * ((∑ r, ∑ s, (linStrain q (unitDof a) r * S.A r s * quadIn q w z s + quadIn q w (unitDof a) r * S.A r s * linStrain q z s
        + (quadIn q w (unitDof a) r * S.A r s * quadIn q u z s + quadIn q u (unitDof a) r * S.A r s * quadIn q w z s))) + ∑ r, stressRate bend S q u w r * quadIn q z (unitDof a) r)) 0 := by
  simp only [jac_nl]
  refine HasDerivAt.congr_deriv (HasDerivAt.const_mul q.JxW (HasDerivAt.fun_add
    (HasDerivAt.fun_sum fun r _ => HasDerivAt.fun_sum fun s _ => ((((quadIn_deriv q u w z s).const_mul (linStrain q (unitDof a) r * S.A r s)).fun_add
      (((quadIn_deriv q u w (unitDof a) r).mul_const (S.A r s)).mul_const (linStrain q z s))).fun_add
      (((quadIn_deriv q u w (unitDof a) r).mul_const (S.A r s)).fun_mul (quadIn_deriv q u w z s))))
    (HasDerivAt.fun_sum fun r _ => (stress_deriv bend S q u w r).mul_const (quadIn q z (unitDof a) r)))) ?_
  simp only [zero_line]

theorem jacVk_deriv (S : Stiff) (q : Sqp n X) (u w z : Dof n → ℝ) (a : Dof n) :
    HasDerivAt (fun t : ℝ => ∑ b, jacVk S q (fun b => u b + t * w b) a b * z b)
      (q.JxW * ((∑ r, ∑ s, (linStrain q (unitDof a) r * S.A r s * quadOut q w z s + quadOut q w (unitDof a) r * S.A r s * linStrain q z s
        + (quadOut q w (unitDof a) r * S.A r s * quadOut q u z s + quadOut q u (unitDof a) r * S.A r s * quadOut q w z s) + curvature true q (unitDof a) r * S.B s r * quadOut q w z s
        + quadOut q w (unitDof a) r * S.B r s * curvature true q z s)) + ∑ r, stressRate true S q u w r * quadOut q z (unitDof a) r)) 0 := by
  simp only [jac_vk]
  refine HasDerivAt.congr_deriv (HasDerivAt.const_mul q.JxW (HasDerivAt.fun_add
    (HasDerivAt.fun_sum fun r _ => HasDerivAt.fun_sum fun s _ => (((((quadOut_deriv q u w z s).const_mul (linStrain q (unitDof a) r * S.A r s)).fun_add
      (((quadOut_deriv q u w (unitDof a) r).mul_const (S.A r s)).mul_const (linStrain q z s))).fun_add
      (((quadOut_deriv q u w (unitDof a) r).mul_const (S.A r s)).fun_mul (quadOut_deriv q u w z s))).fun_add
      ((quadOut_deriv q u w z s).const_mul (curvature true q (unitDof a) r * S.B s r))).fun_add
      (((quadOut_deriv q u w (unitDof a) r).mul_const (S.B r s)).mul_const (curvature true q z s)))
    (HasDerivAt.fun_sum fun r _ => (stress_deriv true S q u w r).mul_const (quadOut q z (unitDof a) r)))) ?_
  simp only [zero_line]

theorem stressDot_eq (S : Stiff) (q : Sqp n X) (u w : Dof n → ℝ) (r : Fin 3) :
    stressDot S q u w r = ∑ s, (S.A r s * (linStrain q w s + quadOut q u w s) + S.B r s * curvature true q w s) := by
  unfold stressDot mv
  simp only [app_lin, app_bend, Fin.sum_univ_three]
  simp [vkMat, dwx_eq, dwy_eq, quadOut, linStrain]; ring

theorem jacDot_sum (S : Stiff) (q : Sqp n X) (u w z : Dof n → ℝ) (a : Dof n) :
    ∑ b, jacDot S q u w a b * z b = q.JxW * ((∑ r, ∑ s, (linStrain q (unitDof a) r * S.A r s * quadOut q w z s + quadOut q w (unitDof a) r * S.A r s * linStrain q z s
        + (quadOut q w (unitDof a) r * S.A r s * quadOut q u z s + quadOut q u (unitDof a) r * S.A r s * quadOut q w z s) + curvature true q (unitDof a) r * S.B s r * quadOut q w z s
        + quadOut q w (unitDof a) r * S.B r s * curvature true q z s)) + ∑ r, stressDot S q u w r * quadOut q z (unitDof a) r) := by
  unfold jacDot
  generalize stressDot S q u w = σ
  simp only [add_mul, Finset.sum_add_distrib, sum_sandwich, app_lin, app_bend]
  simp only [Fin.sum_univ_three, Fin.sum_univ_two, app_Bvk0, app_Bvk1, vkMat, dwx_eq, dwy_eq, mm, tr, stressMat]
  simp [Blin, Bvk, linStrain, quadOut, gx_unit, gy_unit, curvature_unit]
  ring

/-- Derivative of the tangent at a point, tested with `z`. -/
theorem opJac_deriv (bend : Bool) (S : Stiff) (q : Sqp n X) (u w z : Dof n → ℝ) (a : Dof n) :
    HasDerivAt (fun t : ℝ => ∑ b, opJac true bend S q (fun b => u b + t * w b) a b * z b)
      ((if bend then ∑ b, jacDot S q u w a b * z b else 0) + inPlanePart bend S q u w (unitDof a) z) 0 := by
  have h : ∀ v : Dof n → ℝ, ∑ b, opJac true bend S q v a b * z b = ∑ b, q.JxW * sandwich (Blin q) S.A (Blin q) a b * z b + ∑ b, jacNl bend S q v a b * z b
      + (if bend then ∑ b, jacVk S q v a b * z b
        + ∑ b, (q.JxW * sandwich q.bend (tr S.B) (Blin q) a b + q.JxW * sandwich (Blin q) S.B q.bend a b + q.JxW * sandwich q.bend S.D q.bend a b) * z b else 0) := by
    intro v; unfold opJac
    cases bend <;> simp [add_mul, Finset.sum_add_distrib, add_assoc]
  simp only [h]
  have h1 := (jacNl_deriv bend S q u w z a).const_add (∑ b, q.JxW * sandwich (Blin q) S.A (Blin q) a b * z b)
  cases bend
  · simp only [Bool.false_eq_true, if_false, add_zero, zero_add]
    refine h1.congr_deriv ?_
    unfold inPlanePart
    simp only [Bool.false_eq_true, if_false, add_zero]
    congr 2
    exact Finset.sum_congr rfl fun r _ => Finset.sum_congr rfl fun s _ => by ring
  · simp only [if_true]
    refine (h1.fun_add ((jacVk_deriv S q u w z a).add_const _)).congr_deriv ?_
    rw [jacDot_sum]
    unfold inPlanePart
    simp only [if_true, stressRate, stressDot_eq, dStrain, Fin.sum_univ_three]
    ring

theorem entry_deriv (nl bend : Bool) (S : Stiff) (q : Sqp n X) (u w : Dof n → ℝ) (a b : Dof n) :
    HasDerivAt (fun t : ℝ => opJac nl bend S q (fun b => u b + t * w b) a b)
      ((if nl && bend then jacDot S q u w a b else 0) + if nl then inPlanePart bend S q u w (unitDof a) (unitDof b) else 0) 0 := by
  cases nl
  · unfold opJac
    simpa using hasDerivAt_const (0 : ℝ) _
  · have h := opJac_deriv bend S q u w (unitDof b) a
    simp only [sum_unit] at h
    cases bend <;> simpa using h

theorem hasDerivAt_matToGlobal (T : Option (Fin 3 → Fin 3 → ℝ)) (J : ℝ → Dof n → Dof n → ℝ) (J' : Dof n → Dof n → ℝ) (h : ∀ c d, HasDerivAt (fun t => J t c d) (J' c d) 0) (a b : Dof n) :
    HasDerivAt (fun t => matToGlobal T (J t) a b) (matToGlobal T J' a b) 0 := by
  cases T with
  | none => exact h a b
  | some M => exact HasDerivAt.fun_sum fun d _ => HasDerivAt.mul_const (HasDerivAt.fun_sum fun c _ => HasDerivAt.const_mul _ (h c d)) _

theorem matToGlobal_add (T : Option (Fin 3 → Fin 3 → ℝ)) (J K : Dof n → Dof n → ℝ) (a b : Dof n) : matToGlobal T (fun c d => J c d + K c d) a b = matToGlobal T J a b + matToGlobal T K a b := by
  cases T with
  | none => rfl
  | some M => simp only [matToGlobal, mul_add, add_mul, Finset.sum_add_distrib]

theorem matToGlobal_zero (T : Option (Fin 3 → Fin 3 → ℝ)) (a b : Dof n) : matToGlobal T (fun _ _ => 0) a b = 0 := by
  cases T with
  | none => rfl
  | some M => simp [matToGlobal]

theorem unit_in (a : Dof n) (h : ¬ InPlane a) (q : Sqp n X) : gx U q (unitDof a) = 0 ∧ gx V q (unitDof a) = 0 ∧ gy U q (unitDof a) = 0 ∧ gy V q (unitDof a) = 0 := by
  have hs : ∀ v : Var6, v = U ∨ v = V → ∀ phi, shape v phi a = 0 := by
    intro v hv phi
    refine if_neg fun he => h ?_
    rcases hv with rfl | rfl
    · exact ⟨congrArg Prod.fst he, .inl (congrArg Prod.snd he)⟩
    · exact ⟨congrArg Prod.fst he, .inr (congrArg Prod.snd he)⟩
  simp only [gx_unit, gy_unit]
  exact ⟨hs _ (.inl rfl) _, hs _ (.inr rfl) _, hs _ (.inl rfl) _, hs _ (.inr rfl) _⟩

theorem drill_zero (bend : Bool) (S : Stiff) (q : Sqp n X) (u w : Dof n → ℝ) (a : Dof n) (h1 : a.1 = true) (_h2 : a.2.1 = 2) :
    jacDot S q u w a a = 0 ∧ inPlanePart bend S q u w (unitDof a) (unitDof a) = 0 := by
  have hs : ∀ v : Var6, v.1 = false → ∀ phi, shape v phi a = 0 := by
    intro v hv phi
    refine if_neg fun he => ?_
    have := congrArg Prod.fst he
    simp only [h1, hv] at this
    exact absurd this (by decide)
  have hU := hs U rfl; have hV := hs V rfl; have hW := hs W rfl
  constructor
  · unfold jacDot sandwich
    simp only [Fin.sum_univ_three, Fin.sum_univ_two]
    simp [Bvk, hW]
  · have hi : ∀ v r, quadIn q v (unitDof a) r = 0 := by intro v r; fin_cases r <;> simp [quadIn, gx_unit, gy_unit, hU, hV]
    have ho : ∀ v r, quadOut q v (unitDof a) r = 0 := by intro v r; fin_cases r <;> simp [quadOut, gx_unit, gy_unit, hW]
    simp [inPlanePart, hi, ho]

/-- C163: exact derivative of the reported shell tangent when the state moves along the solution sensitivity: the matrix of the code plus the part of the in-plane quadratic strain, in any frame. -/
theorem C163_derivative (T : Option (Fin 3 → Fin 3 → ℝ)) (nl bend : Bool) (e : Elem n X) (u w : Dof n → ℝ) (a b : Dof n) :
    HasDerivAt (fun t : ℝ => internalJac T nl bend e (fun c => u c + t * w c) a b)
      (jacDotGlobal T nl bend e u w a b
        + matToGlobal T (fun c d => if nl then (e.pts.map fun p => inPlanePart bend p.2 p.1 (vecToLocal T u) (vecToLocal T w) (unitDof c) (unitDof d)).sum else 0) a b) 0 := by
  unfold internalJac jacDotGlobal
  rw [← matToGlobal_add]
  have hl : ∀ t : ℝ, vecToLocal T (fun c => u c + t * w c) = fun c => vecToLocal T u c + t * vecToLocal T w c := by
    intro t; cases T with
    | none => rfl
    | some M => funext c; simp only [vecToLocal, mul_add, Finset.sum_add_distrib, Finset.mul_sum]; congr 1; exact Finset.sum_congr rfl fun i _ => by ring
  simp only [hl]
  generalize vecToLocal T u = v
  generalize vecToLocal T w = z
  refine hasDerivAt_matToGlobal T _ _ (fun c d => ?_) a b
  have h := (hasDerivAt_list e.pts (fun t p => opJac nl bend p.2 p.1 (fun b => v b + t * z b) c d)
    (fun p => (if nl && bend then jacDot p.2 p.1 v z c d else 0) + if nl then inPlanePart bend p.2 p.1 v z (unitDof c) (unitDof d) else 0) 0
    fun p _ => entry_deriv nl bend p.2 p.1 v z c d).add_const (if bend then (e.shear.map fun p => shearJac p.2 p.1 c d).sum else 0)
  have hs : (e.pts.map fun p => (if nl && bend then jacDot p.2 p.1 v z c d else 0) + if nl then inPlanePart bend p.2 p.1 v z (unitDof c) (unitDof d) else 0).sum
      = (if nl && bend then (e.pts.map fun p => jacDot p.2 p.1 v z c d).sum else 0) + if nl then (e.pts.map fun p => inPlanePart bend p.2 p.1 v z (unitDof c) (unitDof d)).sum else 0 := by
    rw [list_add]; cases nl <;> cases bend <;> simp
  rw [hs] at h
  by_cases hd : c = d ∧ c.1 = true ∧ c.2.1 = 2
  · have hz : ∀ p : Sqp n X × Stiff, jacDot p.2 p.1 v z c d = 0 ∧ inPlanePart bend p.2 p.1 v z (unitDof c) (unitDof d) = 0 := by
      intro p; rw [← hd.1]; exact drill_zero bend p.2 p.1 v z c hd.2.1 hd.2.2
    simp only [drilling, if_pos hd, hz]
    simpa using hasDerivAt_const (0 : ℝ) (1 / 100000000 : ℝ)
  · simp only [drilling, if_neg hd]
    exact h

/-- C163, partial: the matrix of the code is the derivative of the tangent for linear strain, and with bending in every entry whose row or column is not an in-plane displacement of the element, if the state or the
solution sensitivity has no in-plane displacement gradient. -/
theorem C163_jac_dot_partial (nl : Bool) (e : Elem n X) (u w : Dof n → ℝ) (a b : Dof n) :
    (∀ (T : Option (Fin 3 → Fin 3 → ℝ)) bend, HasDerivAt (fun t : ℝ => internalJac T false bend e (fun c => u c + t * w c) a b) (jacDotGlobal T false bend e u w a b) 0)
    ∧ ((¬ InPlane a ∨ ¬ InPlane b) → (∀ p ∈ e.pts, InPlaneFree p.1 u ∨ InPlaneFree p.1 w) →
      HasDerivAt (fun t : ℝ => internalJac none nl true e (fun c => u c + t * w c) a b) (jacDotGlobal none nl true e u w a b) 0) := by
  refine ⟨fun T bend => ?_, fun hab hf => ?_⟩
  · have h := C163_derivative T false bend e u w a b
    simp only [Bool.false_eq_true, if_false, matToGlobal_zero, add_zero] at h
    exact h
  · have h := C163_derivative none nl true e u w a b
    refine h.congr_deriv ?_
    have hz : ∀ p ∈ e.pts, inPlanePart true p.2 p.1 u w (unitDof a) (unitDof b) = 0 := by
      intro p hp
      have huw : ∀ r, quadIn p.1 u w r = 0 := by
        intro r
        rcases hf p hp with ⟨h1, h2, h3, h4⟩ | ⟨h1, h2, h3, h4⟩ <;> fin_cases r <;> simp [quadIn, h1, h2, h3, h4]
      rcases hab with ha | hb
      · obtain ⟨h1, h2, h3, h4⟩ := unit_in a ha p.1
        have hl : ∀ r, linStrain p.1 (unitDof a) r = 0 := by intro r; fin_cases r <;> simp [linStrain, h1, h2, h3, h4]
        have hi : ∀ v r, quadIn p.1 v (unitDof a) r = 0 := by intro v r; fin_cases r <;> simp [quadIn, h1, h2, h3, h4]
        simp [inPlanePart, hl, hi, huw]
      · obtain ⟨h1, h2, h3, h4⟩ := unit_in b hb p.1
        have hl : ∀ r, linStrain p.1 (unitDof b) r = 0 := by intro r; fin_cases r <;> simp [linStrain, h1, h2, h3, h4]
        have hi : ∀ v r, quadIn p.1 v (unitDof b) r = 0 := by intro v r; fin_cases r <;> simp [quadIn, h1, h2, h3, h4]
        have hi' : ∀ v r, quadIn p.1 (unitDof b) v r = 0 := by intro v r; fin_cases r <;> simp [quadIn, h1, h2, h3, h4]
        simp [inPlanePart, hl, hi, hi', huw]
    simp only [matToGlobal, vecToLocal]
    rw [list_congr e.pts _ (fun _ => 0) hz]
    simp

/-- C163 fails for a membrane, and for a shell in the in-plane entries: the derivative of the tangent along a stretching is not zero while the code reports zero for the membrane; a stretched and deflected shell that
stretches further has a wrong transverse entry. -/
theorem C163_jac_dot_fails :
    (¬ HasDerivAt (fun t : ℝ => internalJac none true false tri (fun c => 0 + t * pull c) (false, 0, 1) (false, 0, 1)) (jacDotGlobal none true false tri (fun _ => 0) pull (false, 0, 1) (false, 0, 1)) 0)
    ∧ ¬ HasDerivAt (fun t : ℝ => internalJac none true true tri (fun c => pull c + t * pull c) (false, 2, 1) (false, 2, 1)) (jacDotGlobal none true true tri pull pull (false, 2, 1) (false, 2, 1)) 0 := by
  constructor
  · intro h
    have h2 := h.unique (C163_derivative none true false tri (fun _ => 0) pull (false, 0, 1) (false, 0, 1))
    simp only [matToGlobal, vecToLocal, if_true] at h2
    have h4 : (tri.pts.map fun p => inPlanePart false p.2 p.1 (fun _ => 0) pull (unitDof (false, 0, 1)) (unitDof (false, 0, 1))).sum = 3 / 2 := by
      simp [tri, inPlanePart, stressRate, dStrain, linStrain, quadIn, unitStiff, Fin.sum_univ_three, gx, gy, triQp, pull, unitDof, curvature_false]
      norm_num
    rw [h4] at h2; linarith
  · intro h
    have h2 := h.unique (C163_derivative none true true tri pull pull (false, 2, 1) (false, 2, 1))
    simp only [matToGlobal, vecToLocal, if_true] at h2
    have h4 : (tri.pts.map fun p => inPlanePart true p.2 p.1 pull pull (unitDof (false, 2, 1)) (unitDof (false, 2, 1))).sum = 1 / 2 := by
      simp [tri, inPlanePart, stressRate, dStrain, linStrain, quadIn, quadOut, unitStiff, Fin.sum_univ_three, gx, gy, triQp, pull, unitDof]
    rw [h4] at h2; linarith

/-- Non-vacuity of the hypotheses of C163: a deflection of the triangle. -/
example : (¬ InPlane ((false, 2, 1) : Dof 3)) ∧ ∀ p ∈ tri.pts, InPlaneFree p.1 (unitDof (false, 2, 1)) := by
  refine ⟨by simp [InPlane], fun p hp => ?_⟩
  simp [tri] at hp; subst hp
  simp [InPlaneFree, gx_unit, gy_unit, shape]

end Verif.Shell
