import Verif.Props.Shell
/-
  C116: tangent, energy and sensitivity of the internal force of the shell element.
-/
namespace Verif.Shell
open Verif.GeomElem Verif.StructLoads

/-! ### Specification -/
section Spec
variable {n : Nat} {X : Type}

/-- The motion has no in-plane displacement gradient at a point. -/
def InPlaneFree (q : Sqp n X) (u : Dof n → ℝ) : Prop := gx U q u = 0 ∧ gx V q u = 0 ∧ gy U q u = 0 ∧ gy V q u = 0

/-- All section stiffness matrices are symmetric. -/
def Elem.Symm (e : Elem n X) : Prop := (∀ p ∈ e.pts, p.2.Symm) ∧ ∀ p ∈ e.shear, ∀ r s, p.2 r s = p.2 s r

/-- The drilling rotation does not appear in the bending operator. -/
def NoDrill (e : Elem n X) : Prop := ∀ p ∈ e.pts, ∀ r i, p.1.bend r (true, 2, i) = 0

/-- The drilling part of a motion. -/
def drillPart (w : Dof n → ℝ) (a : Dof n) : ℝ := if a.1 = true ∧ a.2.1 = 2 then w a else 0
end Spec

variable {n : Nat} {X : Type}

/-! ### Transverse shear -/

theorem app_shear (q : ShearQp n X) (u : Dof n → ℝ) (r : Fin 2) : app (shearOp q) u r = shearStrain q u r := by
  fin_cases r
  · show ∑ a, (shape W q.dx a + shape TY q.phi a) * u a = _
    simp only [add_mul, Finset.sum_add_distrib, sum_shape]
    simp [shearStrain, Finset.sum_add_distrib]
  · show ∑ a, (shape W q.dy a + shape TX (fun i => -q.phi i) a) * u a = _
    simp only [add_mul, Finset.sum_add_distrib, sum_shape]
    simp [shearStrain, Finset.sum_add_distrib, Finset.sum_neg_distrib, sub_eq_add_neg]

theorem shearOp_unit (q : ShearQp n X) (a : Dof n) (r : Fin 2) : shearOp q r a = shearStrain q (unitDof a) r := by
  rw [← app_shear, app, sum_unit]

theorem shearStrain_add (q : ShearQp n X) (u w : Dof n → ℝ) (t : ℝ) (r : Fin 2) : shearStrain q (fun b => u b + t * w b) r = shearStrain q u r + t * shearStrain q w r := by
  simp only [← app_shear, app, mul_add, Finset.sum_add_distrib, Finset.mul_sum]; congr 1; exact Finset.sum_congr rfl fun i _ => by ring

theorem shearStrain_deriv (q : ShearQp n X) (u w : Dof n → ℝ) (r : Fin 2) : HasDerivAt (fun t : ℝ => shearStrain q (fun b => u b + t * w b) r) (shearStrain q w r) 0 := by
  simp only [shearStrain_add]; simpa using hasDeriv_quad (shearStrain q u r) (shearStrain q w r) 0

theorem shearRes_eq (G : Fin 2 → Fin 2 → ℝ) (q : ShearQp n X) (u : Dof n → ℝ) (a : Dof n) :
    shearRes G q u a = q.JxW * ∑ r, ∑ s, shearStrain q (unitDof a) r * G r s * shearStrain q u s := by
  simp only [shearRes, appT, mv, app_shear, shearOp_unit, Finset.mul_sum, mul_assoc]

theorem shearJac_eq (G : Fin 2 → Fin 2 → ℝ) (q : ShearQp n X) (a : Dof n) (w : Dof n → ℝ) :
    ∑ b, shearJac G q a b * w b = shearRes G q w a := by
  simp only [shearJac]; rw [sum_sandwich, shearRes_eq]; simp only [app_shear, shearOp_unit]

theorem shearRes_deriv (G : Fin 2 → Fin 2 → ℝ) (q : ShearQp n X) (u w : Dof n → ℝ) (a : Dof n) :
    HasDerivAt (fun t : ℝ => shearRes G q (fun b => u b + t * w b) a) (shearRes G q w a) 0 := by
  simp only [shearRes_eq]
  exact HasDerivAt.const_mul _ (HasDerivAt.fun_sum fun r _ => HasDerivAt.fun_sum fun s _ => (shearStrain_deriv q u w s).const_mul _)

/-! ### Tangent -/

theorem list_sum_apply {β : Type} (l : List β) (f : β → Dof n → ℝ) (w : Dof n → ℝ) : ∑ b, (l.map fun p => f p b).sum * w b = (l.map fun p => ∑ b, f p b * w b).sum := by
  simp only [list_mul]; exact sum_list l fun p b => f p b * w b

theorem list_add {β : Type} (l : List β) (f g : β → ℝ) : (l.map fun p => f p + g p).sum = (l.map f).sum + (l.map g).sum := List.sum_map_add

/-- C116: exact derivative of the element residual: the Jacobian of the code plus, for nonlinear strain with bending, the products of in-plane gradients with deflection gradients and curvatures. -/
theorem C116_derivative (nl bend : Bool) (e : Elem n X) (u w : Dof n → ℝ) (a : Dof n) :
    HasDerivAt (fun t : ℝ => localRes nl bend e (fun b => u b + t * w b) a)
      (∑ b, localJac nl bend e u a b * w b + (e.pts.map fun p => missing nl bend p.2 p.1 u a w).sum) 0 := by
  unfold localRes
  have h1 := hasDerivAt_list e.pts (fun t p => opRes nl bend p.2 p.1 (fun b => u b + t * w b) a) (fun p => tangent nl bend p.2 p.1 u a w) 0 fun p _ => opRes_deriv nl bend p.2 p.1 u w a
  have h2 := hasDerivAt_list e.shear (fun t p => shearRes p.2 p.1 (fun b => u b + t * w b) a) (fun p => shearRes p.2 p.1 w a) 0 fun p _ => shearRes_deriv p.2 p.1 u w a
  have hJ : ∑ b, localJac nl bend e u a b * w b + (e.pts.map fun p => missing nl bend p.2 p.1 u a w).sum
      = (e.pts.map fun p => tangent nl bend p.2 p.1 u a w).sum + (if bend then (e.shear.map fun p => shearRes p.2 p.1 w a).sum else 0) := by
    unfold localJac
    simp only [add_mul, Finset.sum_add_distrib, list_sum_apply, opJac_eq]
    have hs : ∑ b, (if bend then (e.shear.map fun p => shearJac p.2 p.1 a b).sum else 0) * w b = if bend then (e.shear.map fun p => shearRes p.2 p.1 w a).sum else 0 := by
      cases bend
      · simp
      · simp only [if_true, list_sum_apply, shearJac_eq]
    rw [hs]
    have := list_add e.pts (fun p => tangent nl bend p.2 p.1 u a w - missing nl bend p.2 p.1 u a w) fun p => missing nl bend p.2 p.1 u a w
    simp only [sub_add_cancel] at this
    rw [this]; ring
  rw [hJ]
  cases bend
  · simpa using h1
  · simpa using h1.fun_add h2

theorem missing_zero (nl bend : Bool) (S : Stiff) (q : Sqp n X) (u : Dof n → ℝ) (a : Dof n) (w : Dof n → ℝ) (h : nl = false ∨ bend = false ∨ InPlaneFree q u) : missing nl bend S q u a w = 0 := by
  unfold missing
  rcases h with h | h | ⟨h1, h2, h3, h4⟩
  · simp [h]
  · simp [h]
  · have hq : ∀ z r, quadIn q u z r = 0 := by intro z r; fin_cases r <;> simp [quadIn, h1, h2, h3, h4]
    simp [hq]

/-- C116: the Jacobian is the derivative of the residual in the frame of the element, if the strain is linear, or there is no bending, or the state has no in-plane displacement gradient. -/
theorem C116_jacobian_partial (nl bend : Bool) (e : Elem n X) (u : Dof n → ℝ) (h : nl = false ∨ bend = false ∨ ∀ p ∈ e.pts, InPlaneFree p.1 u) :
    IsJacobian (localRes nl bend e) (localJac nl bend e u) u := by
  intro w a
  have h0 := C116_derivative nl bend e u w a
  have hz : (e.pts.map fun p => missing nl bend p.2 p.1 u a w).sum = 0 := by
    rw [list_congr e.pts _ (fun _ => 0) fun p hp => missing_zero nl bend p.2 p.1 u a w (by rcases h with h | h | h; exacts [.inl h, .inr (.inl h), .inr (.inr (h p hp))])]
    simp
  rw [hz, add_zero] at h0
  exact h0

theorem opJac_drill (nl bend : Bool) (S : Stiff) (q : Sqp n X) (u : Dof n → ℝ) (a : Dof n) (i : Fin n) (h : ∀ r, q.bend r (true, 2, i) = 0) : opJac nl bend S q u a (true, 2, i) = 0 := by
  have hs : ∀ v : Var6, v ≠ (true, 2) → ∀ phi, shape v phi (true, 2, i) = 0 := by intro v hv phi; simp [shape, Ne.symm hv]
  have hU := hs U (by simp [U]); have hV := hs V (by simp [V]); have hW := hs W (by simp [W])
  unfold opJac jacNl jacVk sandwich
  simp only [Fin.sum_univ_three, Fin.sum_univ_two]
  simp [Blin, Bx, By, Bu, Bv, Bvk, hU, hV, hW, h]

theorem shearJac_drill (G : Fin 2 → Fin 2 → ℝ) (q : ShearQp n X) (a : Dof n) (i : Fin n) : shearJac G q a (true, 2, i) = 0 := by
  simp [shearJac, sandwich, shearOp, shape, Fin.sum_univ_two]

/-- C116: the reported Jacobian is the derivative of the reported residual, in any frame and for any element with linear strain or without coupling, up to the artificial stiffness `1e-8` that each drilling
rotation of the element's frame gets in the Jacobian and not in the residual. -/
theorem C116_global_jacobian_partial (T : Option (Fin 3 → Fin 3 → ℝ)) (nl bend : Bool) (e : Elem n X) (hd : NoDrill e) (u w : Dof n → ℝ) (a : Dof n)
    (h : nl = false ∨ bend = false ∨ ∀ p ∈ e.pts, InPlaneFree p.1 (vecToLocal T u)) :
    HasDerivAt (fun t : ℝ => internalRes T nl bend e (fun b => u b + t * w b) a)
      (∑ b, internalJac T nl bend e u a b * w b - 1 / 100000000 * vecToGlobal T (drillPart (vecToLocal T w)) a) 0 := by
  have h1 := C111_jacobian T (localRes nl bend e) (localJac nl bend e (vecToLocal T u)) u (C116_jacobian_partial nl bend e (vecToLocal T u) h) w a
  refine HasDerivAt.congr_deriv h1 ?_
  unfold internalJac
  rw [mat_apply, mat_apply]
  have hz : ∀ c i, localJac nl bend e (vecToLocal T u) c (true, 2, i) = 0 := by
    intro c i
    unfold localJac
    rw [list_congr e.pts _ (fun _ => 0) fun p hp => opJac_drill nl bend p.2 p.1 _ c i fun r => hd p hp r i, list_congr e.shear _ (fun _ => 0) fun p _ => shearJac_drill p.2 p.1 c i]
    simp
  have hl : (fun c => ∑ d, drilling (localJac nl bend e (vecToLocal T u)) c d * vecToLocal T w d)
      = fun c => ∑ d, localJac nl bend e (vecToLocal T u) c d * vecToLocal T w d + 1 / 100000000 * drillPart (vecToLocal T w) c := by
    funext c
    have : ∀ d, drilling (localJac nl bend e (vecToLocal T u)) c d = localJac nl bend e (vecToLocal T u) c d + if d = c then (if c.1 = true ∧ c.2.1 = 2 then 1 / 100000000 else 0) else 0 := by
      intro d
      unfold drilling
      by_cases hc : c = d
      · subst hc
        by_cases hk : c.1 = true ∧ c.2.1 = 2
        · obtain ⟨r, k, i⟩ := c
          simp only at hk
          obtain ⟨rfl, rfl⟩ := hk
          simp [hz]
        · simp [hk]
      · simp [hc, Ne.symm hc]
    simp only [this, add_mul, Finset.sum_add_distrib]
    congr 1
    simp only [drillPart]
    split_ifs <;> simp
  have hg : ∀ (f g : Dof n → ℝ) (k : ℝ), vecToGlobal T (fun c => f c + k * g c) a = vecToGlobal T f a + k * vecToGlobal T g a := by
    intro f g k
    cases T with
    | none => rfl
    | some M => simp only [vecToGlobal, mul_add, Finset.sum_add_distrib, Finset.mul_sum]; congr 1; exact Finset.sum_congr rfl fun b _ => by ring
  rw [hl, hg]
  ring

/-! ### Energy -/

theorem dStrain_lin (nl bend : Bool) (q : Sqp n X) (u w : Dof n → ℝ) (r : Fin 3) : ∑ a, dStrain nl bend q u (unitDof a) r * w a = dStrain nl bend q u w r := by
  have hx : ∀ v : Var6, ∑ a, shape v q.dx a * w a = gx v q w := fun v => sum_shape _ _ _
  have hy : ∀ v : Var6, ∑ a, shape v q.dy a * w a = gy v q w := fun v => sum_shape _ _ _
  have hm : ∀ (c : ℝ) (f : Dof n → ℝ), ∑ a, c * f a * w a = c * ∑ a, f a * w a := fun c f => by rw [Finset.mul_sum]; exact Finset.sum_congr rfl fun a _ => by ring
  cases nl <;> cases bend <;> fin_cases r <;>
  simp [dStrain, linStrain, quadIn, quadOut, gx_unit, gy_unit, add_mul, Finset.sum_add_distrib, hx, hy, hm]

theorem curvature_lin (bend : Bool) (q : Sqp n X) (w : Dof n → ℝ) (r : Fin 3) : ∑ a, curvature bend q (unitDof a) r * w a = curvature bend q w r := by
  cases bend
  · simp [curvature_false]
  · simp only [curvature_unit]; rfl

theorem shear_lin (q : ShearQp n X) (w : Dof n → ℝ) (r : Fin 2) : ∑ a, shearStrain q (unitDof a) r * w a = shearStrain q w r := by
  simp only [← shearOp_unit]; exact app_shear q w r

/-- Virtual work of the residual at a point. -/
theorem opRes_work (nl bend : Bool) (S : Stiff) (q : Sqp n X) (u w : Dof n → ℝ) :
    ∑ a, opRes nl bend S q u a * w a = q.JxW * ((∑ r, memStress nl bend S q u r * dStrain nl bend q u w r)
      + ∑ r, (∑ s, (S.B s r * midStrain nl bend q u s + S.D r s * curvature bend q u s)) * curvature bend q w r) := by
  simp only [opRes_eq, mul_assoc q.JxW, ← Finset.mul_sum]
  congr 1
  simp only [add_mul, Finset.sum_add_distrib (f := fun a => (∑ r, memStress nl bend S q u r * dStrain nl bend q u (unitDof a) r) * w a)]
  congr 1
  · simp only [Finset.sum_mul]
    rw [Finset.sum_comm]
    refine Finset.sum_congr rfl fun r _ => ?_
    rw [← dStrain_lin nl bend q u w r, Finset.mul_sum]
    exact Finset.sum_congr rfl fun a _ => by ring
  · conv_lhs => enter [2, a]; rw [Finset.sum_mul]
    rw [Finset.sum_comm]
    refine Finset.sum_congr rfl fun r _ => ?_
    rw [← curvature_lin bend q w r, Finset.mul_sum]
    exact Finset.sum_congr rfl fun a _ => by ring

theorem shearRes_work (G : Fin 2 → Fin 2 → ℝ) (q : ShearQp n X) (u w : Dof n → ℝ) :
    ∑ a, shearRes G q u a * w a = q.JxW * ∑ r, ∑ s, shearStrain q w r * G r s * shearStrain q u s := by
  simp only [shearRes_eq, mul_assoc q.JxW, ← Finset.mul_sum, ← shear_lin q w]
  congr 1
  simp only [Finset.sum_mul]
  rw [Finset.sum_comm]
  refine Finset.sum_congr rfl fun r _ => ?_
  rw [Finset.sum_comm]
  refine Finset.sum_congr rfl fun s _ => Finset.sum_congr rfl fun a _ => by ring

theorem density_deriv (S : Stiff) (hS : S.Symm) (e k : ℝ → Fin 3 → ℝ) (e' k' : Fin 3 → ℝ) (he : ∀ r, HasDerivAt (fun t => e t r) (e' r) 0) (hk : ∀ r, HasDerivAt (fun t => k t r) (k' r) 0) :
    HasDerivAt (fun t => density S (e t) (k t)) ((∑ r, (∑ s, (S.A r s * e 0 s + S.B r s * k 0 s)) * e' r) + ∑ r, (∑ s, (S.B s r * e 0 s + S.D r s * k 0 s)) * k' r) 0 := by
  unfold density
  refine HasDerivAt.congr_deriv (HasDerivAt.fun_sum fun r _ => HasDerivAt.fun_sum fun s _ => HasDerivAt.fun_add (HasDerivAt.fun_add
    ((((he r).const_mul (1 / 2)).mul_const (S.A r s)).fun_mul (he s)) (((he r).mul_const (S.B r s)).fun_mul (hk s))) ((((hk r).const_mul (1 / 2)).mul_const (S.D r s)).fun_mul (hk s))) ?_
  simp only [Fin.sum_univ_three]
  rw [hS.1 1 0, hS.1 2 0, hS.1 2 1, hS.2 1 0, hS.2 2 0, hS.2 2 1]
  ring

/-- C116: with symmetric section stiffness the residual is the gradient of the strain energy, in any frame, for linear and nonlinear strain, with and without bending. -/
theorem C116_energy (T : Option (Fin 3 → Fin 3 → ℝ)) (nl bend : Bool) (e : Elem n X) (hS : e.Symm) (u w : Dof n → ℝ) :
    HasDerivAt (fun t : ℝ => energy nl bend e (vecToLocal T fun b => u b + t * w b)) (work (internalRes T nl bend e u) w) 0 := by
  simp only [local_lin, work, internalRes, globalRes, C111_work]
  generalize vecToLocal T u = v
  generalize vecToLocal T w = z
  unfold energy localRes
  have h1 := hasDerivAt_list e.pts (fun t p => p.1.JxW * density p.2 (midStrain nl bend p.1 fun b => v b + t * z b) (curvature bend p.1 fun b => v b + t * z b))
    (fun p => ∑ a, opRes nl bend p.2 p.1 v a * z a) 0 fun p hp => by
      rw [opRes_work]
      refine HasDerivAt.congr_deriv (HasDerivAt.const_mul p.1.JxW (density_deriv p.2 (hS.1 p hp) (fun t => midStrain nl bend p.1 fun b => v b + t * z b) (fun t => curvature bend p.1 fun b => v b + t * z b)
        (dStrain nl bend p.1 v z) (curvature bend p.1 z) (fun r => midStrain_deriv nl bend p.1 v z r) fun r => curvature_deriv bend p.1 v z r)) ?_
      simp only [zero_line, memStress_eq]
  have h2 := hasDerivAt_list e.shear (fun t p => p.1.JxW * ∑ r, ∑ s, 1 / 2 * shearStrain p.1 (fun b => v b + t * z b) r * p.2 r s * shearStrain p.1 (fun b => v b + t * z b) s)
    (fun p => ∑ a, shearRes p.2 p.1 v a * z a) 0 fun p hp => by
      rw [shearRes_work]
      refine HasDerivAt.congr_deriv (HasDerivAt.const_mul p.1.JxW (HasDerivAt.fun_sum fun r _ => HasDerivAt.fun_sum fun s _ =>
        (((shearStrain_deriv p.1 v z r).const_mul (1 / 2)).mul_const (p.2 r s)).fun_mul (shearStrain_deriv p.1 v z s))) ?_
      simp only [zero_line, Fin.sum_univ_two]
      rw [hS.2 p hp 1 0]
      ring
  cases bend
  · simpa [list_sum_apply] using h1
  · simpa [add_mul, Finset.sum_add_distrib, list_sum_apply] using h1.fun_add h2

/-- C116: the Jacobian is symmetric for symmetric section stiffness, also where it is not the derivative. -/
theorem C116_symmetric (T : Option (Fin 3 → Fin 3 → ℝ)) (nl bend : Bool) (e : Elem n X) (hS : e.Symm) (u : Dof n → ℝ) (a b : Dof n) :
    internalJac T nl bend e u a b = internalJac T nl bend e u b a := by
  refine (C111_quadratic T _).2.1 (fun c d => ?_) a b
  have hop : ∀ (S : Stiff) (q : Sqp n X), S.Symm → ∀ v c d, opJac nl bend S q v c d = opJac nl bend S q v d c := by
    intro S q h v c d
    unfold opJac jacNl jacVk
    generalize memStress true bend S q v = σ
    generalize memStress true true S q v = τ
    have hA := h.1; have hD := h.2
    simp only [sandwich, mm, tr, stressMat, Fin.sum_univ_three, Fin.sum_univ_two]
    rw [hA 1 0, hA 2 0, hA 2 1, hD 1 0, hD 2 0, hD 2 1]
    cases nl <;> cases bend <;> simp <;> first | ring1 | (left; ring1)
  have hsh : ∀ (G : Fin 2 → Fin 2 → ℝ) (q : ShearQp n X), (∀ r s, G r s = G s r) → ∀ c d, shearJac G q c d = shearJac G q d c := by
    intro G q h c d
    simp only [shearJac, sandwich, Fin.sum_univ_two]
    rw [h 1 0]; ring
  have hl : localJac nl bend e (vecToLocal T u) c d = localJac nl bend e (vecToLocal T u) d c := by
    unfold localJac
    rw [list_congr e.pts _ _ fun p hp => hop p.2 p.1 (hS.1 p hp) _ c d, list_congr e.shear _ _ fun p hp => hsh p.2 p.1 (hS.2 p hp) c d]
  unfold drilling
  by_cases h : c = d
  · rw [h]
  · simp only [h, Ne.symm h, false_and, if_false, hl]

/-! ### Sensitivity -/

/-- The same points with the section stiffness of the parameter value. -/
def elemOf (qs : List (Sqp n X)) (ss : List (ShearQp n X)) (S : Sqp n X → Stiff) (G : ShearQp n X → Fin 2 → Fin 2 → ℝ) : Elem n X := ⟨qs.map fun q => (q, S q), ss.map fun q => (q, G q)⟩

/-- C116: the sensitivity is the derivative of the residual with respect to a parameter of the section stiffness. -/
theorem C116_sensitivity (T : Option (Fin 3 → Fin 3 → ℝ)) (nl bend : Bool) (qs : List (Sqp n X)) (ss : List (ShearQp n X)) (S : ℝ → Sqp n X → Stiff) (G : ℝ → ShearQp n X → Fin 2 → Fin 2 → ℝ)
    (dS : Sqp n X → Stiff) (dG : ShearQp n X → Fin 2 → Fin 2 → ℝ) (t0 : ℝ)
    (hA : ∀ q ∈ qs, ∀ r s, HasDerivAt (fun t => (S t q).A r s) ((dS q).A r s) t0) (hB : ∀ q ∈ qs, ∀ r s, HasDerivAt (fun t => (S t q).B r s) ((dS q).B r s) t0)
    (hD : ∀ q ∈ qs, ∀ r s, HasDerivAt (fun t => (S t q).D r s) ((dS q).D r s) t0) (hG : ∀ q ∈ ss, ∀ r s, HasDerivAt (fun t => G t q r s) (dG q r s) t0) (u : Dof n → ℝ) (a : Dof n) :
    HasDerivAt (fun t => internalRes T nl bend (elemOf qs ss (S t) (G t)) u a) (internalSens T nl bend (elemOf qs ss (S t0) (G t0)) dS dG u a) t0 := by
  unfold internalSens internalRes globalRes
  refine hasDerivAt_global T _ _ t0 (fun b => ?_) a
  generalize vecToLocal T u = v
  unfold localRes elemOf Elem.deriv
  simp only [List.map_map, Function.comp_def]
  have h1 := hasDerivAt_list qs (fun t q => opRes nl bend (S t q) q v b) (fun q => opRes nl bend (dS q) q v b) t0 fun q hq => by
    simp only [opRes_eq, memStress_eq]
    refine HasDerivAt.const_mul _ (HasDerivAt.fun_add ?_ ?_)
    · exact HasDerivAt.fun_sum fun r _ => HasDerivAt.mul_const (HasDerivAt.fun_sum fun s _ => ((hA q hq r s).mul_const _).fun_add ((hB q hq r s).mul_const _)) _
    · exact HasDerivAt.fun_sum fun r _ => HasDerivAt.mul_const (HasDerivAt.fun_sum fun s _ => ((hB q hq s r).mul_const _).fun_add ((hD q hq r s).mul_const _)) _
  have h2 := hasDerivAt_list ss (fun t q => shearRes (G t q) q v b) (fun q => shearRes (dG q) q v b) t0 fun q hq => by
    simp only [shearRes_eq]
    exact HasDerivAt.const_mul _ (HasDerivAt.fun_sum fun r _ => HasDerivAt.fun_sum fun s _ => ((hG q hq r s).const_mul _).mul_const _)
  cases bend
  · simpa using h1
  · simpa using h1.fun_add h2

/-! ### Failures -/

/-- Three-node triangle with unit legs, one point of weight 1/2, Mindlin bending operator. -/
noncomputable def triQp : Sqp 3 Unit := ⟨(), 1 / 2, fun _ => 1 / 3, ![-1, 1, 0], ![-1, 0, 1], mindlin 1 ![-1, 1, 0] ![-1, 0, 1]⟩
/-- Isotropic-like unit section. -/
noncomputable def unitStiff : Stiff := ⟨fun r s => if r = s then 1 else 0, fun _ _ => 0, fun r s => if r = s then 1 else 0⟩
noncomputable def tri : Elem 3 Unit := ⟨[(triQp, unitStiff)], [(⟨(), 1 / 2, fun _ => 1 / 3, ![-1, 1, 0], ![-1, 0, 1]⟩, fun r s => if r = s then 1 else 0)]⟩

/-- Node 1 of the triangle moves along x and z. -/
def pull (a : Dof 3) : ℝ := if a = (false, 0, 1) ∨ a = (false, 2, 1) then 1 else 0

/-- C116 fails for nonlinear strain with bending: stretched and deflected, the Jacobian entry between the in-plane and the out-of-plane displacement lacks a term of the size of the stiffness. -/
theorem C116_jacobian_fails : ¬ IsJacobian (localRes true true tri) (localJac true true tri pull) pull := by
  intro h
  have h1 := h (unitDof (false, 2, 1)) (false, 0, 1)
  have h2 := C116_derivative true true tri pull (unitDof (false, 2, 1)) (false, 0, 1)
  have h3 := h1.unique h2
  have h4 : (tri.pts.map fun p => missing true true p.2 p.1 pull (false, 0, 1) (unitDof (false, 2, 1))).sum = 1 / 2 := by
    simp [tri, missing, quadIn, quadOut, unitStiff, Fin.sum_univ_three, gx_unit, gy_unit, triQp, gx, gy, shape, pull, curvature_unit, mindlin, unitDof]
  rw [h4] at h3
  linarith

/-- C116 fails for the drilling rotations: the residual does not depend on them and the Jacobian has a diagonal entry. -/
theorem C116_drilling_fails : (∀ u v : Dof 3 → ℝ, (∀ a, ¬ (a.1 = true ∧ a.2.1 = 2) → u a = v a) → localRes true true tri u = localRes true true tri v) ∧
    internalJac none true true tri pull (true, 2, 0) (true, 2, 0) = 1 / 100000000 := by
  constructor
  · intro u v h
    have hx : ∀ w : Var6, w ≠ (true, 2) → ∀ q : Sqp 3 Unit, gx w q u = gx w q v := by
      intro w hw q; exact Finset.sum_congr rfl fun i _ => by rw [h]; intro hc; exact hw (Prod.ext hc.1 hc.2)
    have hy : ∀ w : Var6, w ≠ (true, 2) → ∀ q : Sqp 3 Unit, gy w q u = gy w q v := by
      intro w hw q; exact Finset.sum_congr rfl fun i _ => by rw [h]; intro hc; exact hw (Prod.ext hc.1 hc.2)
    have hU := hx U (by simp [U]); have hV := hx V (by simp [V]); have hW := hx W (by simp [W])
    have kU := hy U (by simp [U]); have kV := hy V (by simp [V]); have kW := hy W (by simp [W])
    have hm : ∀ r, midStrain true true triQp u r = midStrain true true triQp v r := by
      intro r; simp only [midStrain, linStrain, quadIn, quadOut, hU, hV, hW, kU, kV, kW]
    have hd : ∀ a r, dStrain true true triQp u a r = dStrain true true triQp v a r := by
      intro a r; simp only [dStrain, linStrain, quadIn, quadOut, hU, hV, hW, kU, kV, kW]
    have hc : ∀ r, curvature true triQp u r = curvature true triQp v r := by
      intro r
      simp only [curvature, if_true]
      refine Finset.sum_congr rfl fun a _ => ?_
      by_cases ha : a.1 = true ∧ a.2.1 = 2
      · obtain ⟨x, k, i⟩ := a
        simp only at ha
        obtain ⟨rfl, rfl⟩ := ha
        have : triQp.bend r (true, 2, i) = 0 := by fin_cases r <;> simp [triQp, mindlin, shape]
        rw [this, zero_mul, zero_mul]
      · rw [h a ha]
    have hs : ∀ q : ShearQp 3 Unit, shearStrain q u = shearStrain q v := by
      intro q; unfold shearStrain
      simp only [h (false, 2, _) (by simp), h (true, 1, _) (by simp), h (true, 0, _) (by simp)]
    funext a
    simp only [localRes, tri, List.map_cons, List.map_nil, opRes_eq, memStress_eq, shearRes_eq, hm, hd, hc, hs]
  · simp [internalJac, matToGlobal, drilling]

example : tri.Symm ∧ NoDrill tri := by
  refine ⟨⟨?_, ?_⟩, ?_⟩
  · intro p hp; simp [tri] at hp; subst hp; exact ⟨fun r s => by simp [unitStiff, eq_comm], fun r s => by simp [unitStiff, eq_comm]⟩
  · intro p hp r s; simp [tri] at hp; subst hp; simp [eq_comm]
  · intro p hp r i; simp [tri] at hp; subst hp; fin_cases r <;> simp [triQp, mindlin, shape]

end Verif.Shell
