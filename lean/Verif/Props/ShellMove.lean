import Verif.Props.ShellDot
import Verif.Props.GeomDof
import Mathlib.MeasureTheory.Integral.DominatedConvergence
import Mathlib.Analysis.SpecialFunctions.Integrals.Basic
/-
  C164: contribution of a moving side of the shell element.
-/
namespace Verif.Shell
open Verif.GeomElem Verif.StructLoads
open scoped Interval

/-! ### Specification -/
section Spec
variable {n : Nat}

/-- Field data of a flat element in its own plane: shape functions, their derivatives, the bending operator, the section and the shear stiffness as functions of the position. -/
structure Plane (n : Nat) where
  phi : Fin n → ℝ → ℝ → ℝ
  dx : Fin n → ℝ → ℝ → ℝ
  dy : Fin n → ℝ → ℝ → ℝ
  bend : ℝ → ℝ → Fin 3 → Dof n → ℝ
  S : ℝ → ℝ → Stiff
  G : ℝ → ℝ → Fin 2 → Fin 2 → ℝ
  th : ℝ → ℝ → Thermal

/-- Quadrature point at (x, y) with weight `w`. -/
def Plane.qp (P : Plane n) (x y w : ℝ) : Sqp n (ℝ × ℝ) := ⟨(x, y), w, fun i => P.phi i x y, fun i => P.dx i x y, fun i => P.dy i x y, P.bend x y⟩
def Plane.sq (P : Plane n) (x y w : ℝ) : ShearQp n (ℝ × ℝ) := ⟨(x, y), w, fun i => P.phi i x y, fun i => P.dx i x y, fun i => P.dy i x y⟩

/-- Density of the internal force, of the transverse shear force and of the thermal force at (x, y). -/
noncomputable def Plane.mem (P : Plane n) (nl bend : Bool) (u : Dof n → ℝ) (a : Dof n) (x y : ℝ) : ℝ := opRes nl bend (P.S x y) (P.qp x y 1) u a
noncomputable def Plane.trans (P : Plane n) (bend : Bool) (u : Dof n → ℝ) (a : Dof n) (x y : ℝ) : ℝ := if bend then shearRes (P.G x y) (P.sq x y 1) u a else 0
noncomputable def Plane.heat (P : Plane n) (nl bend : Bool) (u : Dof n → ℝ) (a : Dof n) (x y : ℝ) : ℝ := thermalLocal nl bend [(P.qp x y 1, P.th x y)] u a

/-- A quadrature rule on the segment from 0 to `h` integrates `g` exactly. -/
def Exact (rule : List (ℝ × ℝ)) (h : ℝ) (g : ℝ → ℝ) : Prop := (rule.map fun p => p.2 * g p.1).sum = ∫ y in (0:ℝ)..h, g y

/-- Components of a global vector along the axes of the element. -/
def localVel (T : Option (Fin 3 → Fin 3 → ℝ)) (v : Fin 3 → ℝ) (i : Fin 3) : ℝ := match T with | some M => ∑ j, M j i * v j | none => v i
end Spec

variable {n : Nat} {X : Type}

theorem opRes_weight (nl bend : Bool) (S : Stiff) (q : Sqp n X) (c : ℝ) (u : Dof n → ℝ) (a : Dof n) : opRes nl bend S { q with JxW := c } u a = c * opRes nl bend S { q with JxW := 1 } u a := by
  simp only [opRes_eq, one_mul]; rfl
theorem shearRes_weight (G : Fin 2 → Fin 2 → ℝ) (q : ShearQp n X) (c : ℝ) (u : Dof n → ℝ) (a : Dof n) : shearRes G { q with JxW := c } u a = c * shearRes G { q with JxW := 1 } u a := by
  simp only [shearRes, one_mul]; rfl
theorem opJac_weight (nl bend : Bool) (S : Stiff) (q : Sqp n X) (c : ℝ) (u : Dof n → ℝ) (a b : Dof n) : opJac nl bend S { q with JxW := c } u a b = c * opJac nl bend S { q with JxW := 1 } u a b := by
  have h := opJac_eq nl bend S { q with JxW := c } u a (unitDof b)
  have h1 := opJac_eq nl bend S { q with JxW := 1 } u a (unitDof b)
  rw [sum_unit] at h h1
  rw [h, h1]
  unfold tangent missing
  have e : ∀ (x y : ℝ), c * (1 * x - (if nl && bend then 1 * y else 0)) = c * x - if nl && bend then c * y else 0 := by intro x y; cases nl <;> cases bend <;> simp <;> ring
  exact (e _ _).symm
theorem shearJac_weight (G : Fin 2 → Fin 2 → ℝ) (q : ShearQp n X) (c : ℝ) (a b : Dof n) : shearJac G { q with JxW := c } a b = c * shearJac G { q with JxW := 1 } a b := by
  simp only [shearJac, one_mul]; rfl
theorem thermalOp_weight (nl bend : Bool) (ta tb : Fin 3 → ℝ) (q : Sqp n X) (c : ℝ) (u : Dof n → ℝ) (a : Dof n) :
    thermalOp nl bend ta tb { q with JxW := c } u a = c * thermalOp nl bend ta tb { q with JxW := 1 } u a := by
  unfold thermalOp
  have e : ∀ (x1 x2 x3 x4 x5 : ℝ), c * x1 + (if nl then c * x2 + c * x3 else 0) + (if bend then c * x4 + (if nl then c * x5 else 0) else 0)
      = c * (1 * x1 + (if nl then 1 * x2 + 1 * x3 else 0) + (if bend then 1 * x4 + (if nl then 1 * x5 else 0) else 0)) := by
    intros; cases nl <;> cases bend <;> simp <;> ring
  exact e _ _ _ _ _
theorem thermalOpJac_weight (nl bend : Bool) (ta : Fin 3 → ℝ) (q : Sqp n X) (c : ℝ) (a b : Dof n) :
    thermalOpJac nl bend ta { q with JxW := c } a b = c * thermalOpJac nl bend ta { q with JxW := 1 } a b := by
  unfold thermalOpJac
  have e : ∀ (x1 x2 x3 : ℝ), (if nl then c * x1 + c * x2 + (if bend then c * x3 else 0) else 0) = c * (if nl then 1 * x1 + 1 * x2 + (if bend then 1 * x3 else 0) else 0) := by
    intros; cases nl <;> cases bend <;> simp <;> ring
  exact e _ _ _

theorem bndLocal_eq (nl bend : Bool) (pts : List (SidePt n X)) (shear : List (SideShear n X)) (v : X → Fin 3 → ℝ) (u : Dof n → ℝ) (a : Dof n) :
    bndLocal nl bend pts shear v u a = (pts.map fun p => p.q.JxW * normalVel (v p.q.x) p.nrm * opRes nl bend p.S { p.q with JxW := 1 } u a).sum
      + (if bend then (shear.map fun p => p.q.JxW * normalVel (v p.q.x) p.nrm * shearRes p.G { p.q with JxW := 1 } u a).sum else 0) := by
  unfold bndLocal
  simp only [opRes_weight _ _ _ _ (_ * normalVel _ _), shearRes_weight _ _ (_ * normalVel _ _)]

theorem thermal_eq (nl bend : Bool) (pts : List (SideThermal n X)) (v : X → Fin 3 → ℝ) (u : Dof n → ℝ) (a : Dof n) :
    bndThermalLocal nl bend pts v u a
      = (pts.map fun p => p.q.JxW * normalVel (v p.q.x) p.nrm * thermalLocal nl bend [({ p.q with JxW := 1 }, p.th)] u a).sum := by
  unfold bndThermalLocal thermalLocal
  simp only [List.map_map, Function.comp_def, List.map_cons, List.map_nil, List.sum_cons, List.sum_nil, add_zero]
  simp only [thermalOp_weight _ _ _ _ _ (_ * normalVel _ _), mul_neg]
  exact list_neg _ _

/-- The residual contributions depend on the velocity through the normal component only and are linear in it; the vector is returned in the global frame. -/
theorem C164_normal_linear (T : Option (Fin 3 → Fin 3 → ℝ)) (nl bend : Bool) (pts : List (SidePt n X)) (shear : List (SideShear n X)) (ths : List (SideThermal n X)) (u : Dof n → ℝ) (a : Dof n) :
    (∀ v w : X → Fin 3 → ℝ, (∀ p ∈ pts, v p.q.x 0 * p.nrm 0 + v p.q.x 1 * p.nrm 1 = w p.q.x 0 * p.nrm 0 + w p.q.x 1 * p.nrm 1) →
      (∀ p ∈ shear, v p.q.x 0 * p.nrm 0 + v p.q.x 1 * p.nrm 1 = w p.q.x 0 * p.nrm 0 + w p.q.x 1 * p.nrm 1) → bndRes T nl bend pts shear v u a = bndRes T nl bend pts shear w u a)
    ∧ (∀ v w : X → Fin 3 → ℝ, (∀ p ∈ ths, v p.q.x 0 * p.nrm 0 + v p.q.x 1 * p.nrm 1 = w p.q.x 0 * p.nrm 0 + w p.q.x 1 * p.nrm 1) → bndThermal T nl bend ths v u a = bndThermal T nl bend ths w u a)
    ∧ ∀ (v w : X → Fin 3 → ℝ) (c : ℝ), bndRes T nl bend pts shear (fun x i => v x i + c * w x i) u a = bndRes T nl bend pts shear v u a + c * bndRes T nl bend pts shear w u a
      ∧ bndThermal T nl bend ths (fun x i => v x i + c * w x i) u a = bndThermal T nl bend ths v u a + c * bndThermal T nl bend ths w u a := by
  have hg : ∀ (f g h : Dof n → ℝ) (c : ℝ), (∀ b, f b = g b + c * h b) → ∀ b, vecToGlobal T f b = vecToGlobal T g b + c * vecToGlobal T h b := by
    intro f g h c hf b
    cases T with
    | none => exact hf b
    | some M =>
      simp only [vecToGlobal, hf, Finset.mul_sum, ← Finset.sum_add_distrib]; exact Finset.sum_congr rfl fun _ _ => by ring
  have hv : ∀ (v w : X → Fin 3 → ℝ) (c : ℝ) (x : X) (m : Fin 2 → ℝ), normalVel (fun i => v x i + c * w x i) m = normalVel (v x) m + c * normalVel (w x) m := by intros; simp only [normalVel]; ring
  have hl : ∀ {ι : Type} (l : List ι) (f g h : ι → ℝ) (c : ℝ), (∀ q, f q = g q + c * h q) → (l.map f).sum = (l.map g).sum + c * (l.map h).sum := by
    intro ι l f g h c hq
    induction l with
    | nil => simp
    | cons q l ih => simp only [List.map_cons, List.sum_cons, hq q, ih]; ring
  refine ⟨fun v w h1 h2 => ?_, fun v w h => ?_, fun v w c => ⟨?_, ?_⟩⟩
  · have h1 : ∀ p ∈ pts, normalVel (v p.q.x) p.nrm = normalVel (w p.q.x) p.nrm := h1
    have h2 : ∀ p ∈ shear, normalVel (v p.q.x) p.nrm = normalVel (w p.q.x) p.nrm := h2
    unfold bndRes globalRes
    congr 1; funext b
    rw [bndLocal_eq, bndLocal_eq]
    congr 1
    · exact list_congr _ _ _ fun p hp => by rw [h1 p hp]
    · cases bend
      · rfl
      · exact list_congr _ _ _ fun p hp => by rw [h2 p hp]
  · have h : ∀ p ∈ ths, normalVel (v p.q.x) p.nrm = normalVel (w p.q.x) p.nrm := h
    unfold bndThermal globalRes
    congr 1; funext b
    rw [thermal_eq, thermal_eq]
    exact list_congr _ _ _ fun p hp => by rw [h p hp]
  · refine hg _ _ _ c (fun b => ?_) a
    rw [bndLocal_eq, bndLocal_eq, bndLocal_eq]
    have e1 := hl pts (fun p => p.q.JxW * normalVel (fun i => v p.q.x i + c * w p.q.x i) p.nrm * opRes nl bend p.S { p.q with JxW := 1 } (vecToLocal T u) b)
      (fun p => p.q.JxW * normalVel (v p.q.x) p.nrm * opRes nl bend p.S { p.q with JxW := 1 } (vecToLocal T u) b)
      (fun p => p.q.JxW * normalVel (w p.q.x) p.nrm * opRes nl bend p.S { p.q with JxW := 1 } (vecToLocal T u) b) c (fun p => by rw [hv]; ring)
    have e2 := hl shear (fun p => p.q.JxW * normalVel (fun i => v p.q.x i + c * w p.q.x i) p.nrm * shearRes p.G { p.q with JxW := 1 } (vecToLocal T u) b)
      (fun p => p.q.JxW * normalVel (v p.q.x) p.nrm * shearRes p.G { p.q with JxW := 1 } (vecToLocal T u) b)
      (fun p => p.q.JxW * normalVel (w p.q.x) p.nrm * shearRes p.G { p.q with JxW := 1 } (vecToLocal T u) b) c (fun p => by rw [hv]; ring)
    rw [e1, e2]
    cases bend <;> simp <;> ring
  · refine hg _ _ _ c (fun b => ?_) a
    rw [thermal_eq, thermal_eq, thermal_eq]
    exact hl _ _ _ _ c fun p => by rw [hv]; ring

theorem moving (g : ℝ → ℝ → ℝ) (hg : Continuous fun p : ℝ × ℝ => g p.1 p.2) (h : ℝ) (b : ℝ → ℝ) (b' : ℝ) (hb : HasDerivAt b b' 0) :
    HasDerivAt (fun t => ∫ x in (0:ℝ)..b t, ∫ y in (0:ℝ)..h, g x y) ((∫ y in (0:ℝ)..h, g (b 0) y) * b') 0 := by
  have hc : Continuous fun x => ∫ y in (0:ℝ)..h, g x y := intervalIntegral.continuous_parametric_intervalIntegral_of_continuous' (f := g) hg 0 h
  exact (intervalIntegral.integral_hasDerivAt_right (hc.intervalIntegrable 0 (b 0)) (hc.stronglyMeasurableAtFilter _ _) hc.continuousAt).comp (0:ℝ) hb

/-- C164: an element on the rectangle from (0, 0) to (b(t), h) of the plane, whose right side moves with the parameter; the rules of that side integrate the densities exactly.  The contribution of the
moving side is the rate of the element force: internal force with transverse shear, and thermal force. -/
theorem C164_moving_side (P : Plane n) (nl bend : Bool) (u : Dof n → ℝ) (a : Dof n) (h : ℝ) (b : ℝ → ℝ) (b' : ℝ) (hb : HasDerivAt b b' 0) (rule rule2 : List (ℝ × ℝ))
    (hm : Continuous fun p : ℝ × ℝ => P.mem nl bend u a p.1 p.2) (hs : Continuous fun p : ℝ × ℝ => P.trans bend u a p.1 p.2) (ht : Continuous fun p : ℝ × ℝ => P.heat nl bend u a p.1 p.2)
    (e1 : Exact rule h (P.mem nl bend u a (b 0))) (e2 : Exact rule2 h (P.trans bend u a (b 0))) (e3 : Exact rule h (P.heat nl bend u a (b 0))) :
    HasDerivAt (fun t => (∫ x in (0:ℝ)..b t, ∫ y in (0:ℝ)..h, P.mem nl bend u a x y) + ∫ x in (0:ℝ)..b t, ∫ y in (0:ℝ)..h, P.trans bend u a x y)
      (bndRes none nl bend (rule.map fun p => ⟨P.qp (b 0) p.1 p.2, ![1, 0], P.S (b 0) p.1⟩) (rule2.map fun p => ⟨P.sq (b 0) p.1 p.2, ![1, 0], P.G (b 0) p.1⟩) (fun _ => ![b', 0, 0]) u a) 0
    ∧ HasDerivAt (fun t => ∫ x in (0:ℝ)..b t, ∫ y in (0:ℝ)..h, P.heat nl bend u a x y)
      (bndThermal none nl bend (rule.map fun p => ⟨P.qp (b 0) p.1 p.2, ![1, 0], P.th (b 0) p.1⟩) (fun _ => ![b', 0, 0]) u a) 0 := by
  have hn : normalVel ![b', 0, 0] ![1, 0] = b' := by simp [normalVel]
  constructor
  · refine ((moving _ hm h b b' hb).fun_add (moving _ hs h b b' hb)).congr_deriv ?_
    rw [← e1, ← e2]
    simp only [bndRes, globalRes, vecToGlobal, vecToLocal, bndLocal_eq, List.map_map, Function.comp_def, hn, list_mul]
    congr 1
    · exact list_congr _ _ _ fun p _ => by simp only [Plane.mem, Plane.qp]; ring
    · cases bend
      · simp [Plane.trans]
      · simp only [if_true]
        exact list_congr _ _ _ fun p _ => by simp only [Plane.trans, Plane.sq, if_true]; ring
  · refine (moving _ ht h b b' hb).congr_deriv ?_
    rw [← e3]
    simp only [bndThermal, globalRes, vecToGlobal, vecToLocal, thermal_eq, List.map_map, Function.comp_def, hn, list_mul]
    exact list_congr _ _ _ fun p _ => by simp only [Plane.heat, Plane.qp]; ring

/-- C164, partial: in a rotated frame the contribution is that of the element in its own frame if the first two global components of the velocity give the same normal velocity as the components along the
axes of the element, as in an element of the x-y plane. -/
theorem C164_frame_partial (T : Option (Fin 3 → Fin 3 → ℝ)) (nl bend : Bool) (pts : List (SidePt n X)) (shear : List (SideShear n X)) (v : X → Fin 3 → ℝ) (u : Dof n → ℝ)
    (h1 : ∀ p ∈ pts, normalVel (v p.q.x) p.nrm = normalVel (localVel T (v p.q.x)) p.nrm) (h2 : ∀ p ∈ shear, normalVel (v p.q.x) p.nrm = normalVel (localVel T (v p.q.x)) p.nrm) :
    bndRes T nl bend pts shear v u = vecToGlobal T (bndRes none nl bend pts shear (fun x => localVel T (v x)) (vecToLocal T u)) := by
  have h := fun a => (C164_normal_linear T nl bend pts shear [] u a).1 v (fun x => localVel T (v x)) h1 h2
  exact funext h

/-- Frame of an element in the y-z plane: local x is global y, local y is global z, the normal is global x. -/
def upYZ (i j : Fin 3) : ℝ := if (j = 0 ∧ i = 1) ∨ (j = 1 ∧ i = 2) ∨ (j = 2 ∧ i = 0) then 1 else 0

theorem upYZ_orthonormal : Orthonormal upYZ := by
  intro a b
  fin_cases a <;> fin_cases b <;> simp [upYZ, GeomElem.dot, Fin.sum_univ_three]

/-- The stretched side of the triangle. -/
noncomputable def sidePt : SidePt 3 Unit := ⟨triQp, ![1, 0], unitStiff⟩

/-- C164 fails for an element outside of the x-y plane: a side that moves along its own normal contributes nothing when the velocity has components in y and z only and the normal is the y axis. -/
theorem C164_frame_fails : ∃ (T : Fin 3 → Fin 3 → ℝ) (pts : List (SidePt 3 Unit)) (v : Unit → Fin 3 → ℝ) (u : Dof 3 → ℝ), Orthonormal T
    ∧ bndRes (some T) false false pts [] v u ≠ vecToGlobal (some T) (bndRes none false false pts [] (fun x => localVel (some T) (v x)) (vecToLocal (some T) u)) := by
  refine ⟨upYZ, [sidePt], fun _ => ![0, 1, 0], fun a => unitDof (false, 1, 1) a, upYZ_orthonormal, fun h => ?_⟩
  have hc := congrFun h (false, 1, 1)
  have e0 : bndRes (some upYZ) false false [sidePt] [] (fun _ => ![0, 1, 0]) (fun a => unitDof (false, 1, 1) a) (false, 1, 1) = 0 := by
    simp only [bndRes, globalRes, vecToGlobal, bndLocal_eq]
    simp [normalVel, sidePt]
  rw [e0] at hc
  have e1 : ∀ i, vecToLocal (some upYZ) (fun a : Dof 3 => unitDof (false, 1, 1) a) i = unitDof (false, 0, 1) i := by
    intro i
    simp only [vecToLocal, sum_unit]
    obtain ⟨r, k, j⟩ := i
    cases r <;> fin_cases k <;> fin_cases j <;> simp [dofMat, upYZ, unitDof]
  have e2 : localVel (some upYZ) ![0, 1, 0] = ![1, 0, 0] := by
    funext i; fin_cases i <;> simp [localVel, upYZ, Fin.sum_univ_three]
  simp only [funext e1, e2] at hc
  simp only [bndRes, globalRes, vecToGlobal, vecToLocal, bndLocal_eq] at hc
  have e3 : ∀ f : Dof 3 → ℝ, ∑ b, dofMat upYZ (false, 1, 1) b * f b = f (false, 0, 1) := by
    intro f
    rw [sum_dof]
    simp [dofMat, upYZ, Fin.sum_univ_three]
  rw [e3] at hc
  simp [normalVel, sidePt, opRes_eq, memStress_eq, Fin.sum_univ_three, unitStiff, midStrain, linStrain, dStrain, gx_unit, gy_unit, triQp, shape, curvature_false] at hc

/-- The element whose points are those of the side, with weights multiplied by the normal velocity. -/
noncomputable def sideElem (pts : List (SidePt n X)) (shear : List (SideShear n X)) (v : X → Fin 3 → ℝ) : Elem n X :=
  ⟨pts.map fun p => ({ p.q with JxW := p.q.JxW * normalVel (v p.q.x) p.nrm }, p.S), shear.map fun p => ({ p.q with JxW := p.q.JxW * normalVel (v p.q.x) p.nrm }, p.G)⟩

/-- C164, partial: the reported Jacobians of a moving side are the derivatives of its contributions with respect to the state; for the internal force if the strain is linear, or there is no bending, or the
state has no in-plane gradient on the side (the limit of C116). -/
theorem C164_jacobian_partial (T : Option (Fin 3 → Fin 3 → ℝ)) (nl bend : Bool) (pts : List (SidePt n X)) (shear : List (SideShear n X)) (ths : List (SideThermal n X)) (v : X → Fin 3 → ℝ) (u : Dof n → ℝ)
    (h : nl = false ∨ bend = false ∨ ∀ p ∈ pts, InPlaneFree p.q (vecToLocal T u)) :
    IsJacobian (bndRes T nl bend pts shear v) (bndJac T nl bend pts shear v u) u ∧ IsJacobian (bndThermal T nl bend ths v) (bndThermalJac T nl bend ths v) u := by
  constructor
  · have h1 := C116_jacobian_partial nl bend (sideElem pts shear v) (vecToLocal T u) (by
      rcases h with h | h | h
      · exact .inl h
      · exact .inr (.inl h)
      · refine .inr (.inr fun p hp => ?_)
        obtain ⟨p', hp', rfl⟩ := List.mem_map.1 hp
        exact h p' hp')
    have h2 := C111_jacobian T _ _ u h1
    have e1 : localRes nl bend (sideElem pts shear v) = bndLocal nl bend pts shear v := by
      funext z c
      simp only [localRes, bndLocal, sideElem, List.map_map, Function.comp_def]
    have e2 : matToGlobal T (localJac nl bend (sideElem pts shear v) (vecToLocal T u)) = bndJac T nl bend pts shear v u := by
      unfold bndJac
      congr 1
      funext c d
      simp only [localJac, sideElem, List.map_map, Function.comp_def]
    rw [e1, e2] at h2
    exact h2
  · exact C117_thermal_jacobian T nl bend _ u

/-- Non-vacuity of C164: a stretched membrane of constant gradients with unit section on a rectangle of height 2 whose right side moves at rate 3; midpoint rule. -/
noncomputable def flat : Plane 3 := ⟨fun _ _ _ => 1 / 3, fun i _ _ => ![-1, 1, 0] i, fun i _ _ => ![-1, 0, 1] i, fun _ _ _ _ => 0, fun _ _ => unitStiff, fun _ _ _ _ => 0, fun _ _ => ⟨fun _ => 1, fun _ => 0, 310, 300⟩⟩

example : HasDerivAt (fun t : ℝ => 1 + 3 * t) 3 0 ∧ (Continuous fun p : ℝ × ℝ => flat.mem true false pull (false, 0, 1) p.1 p.2) ∧ (Continuous fun p : ℝ × ℝ => flat.trans false pull (false, 0, 1) p.1 p.2)
    ∧ (Continuous fun p : ℝ × ℝ => flat.heat true false pull (false, 0, 1) p.1 p.2) ∧ Exact [(1, 2)] 2 (flat.mem true false pull (false, 0, 1) 1) ∧ Exact [(1, 2)] 2 (flat.trans false pull (false, 0, 1) 1)
    ∧ Exact [(1, 2)] 2 (flat.heat true false pull (false, 0, 1) 1) ∧ flat.mem true false pull (false, 0, 1) 1 1 ≠ 0 := by
  have hm : ∀ x y, flat.mem true false pull (false, 0, 1) x y = flat.mem true false pull (false, 0, 1) 1 1 := by
    intro x y; simp only [Plane.mem, Plane.qp, flat, opRes_eq, memStress_eq]; rfl
  have ht : ∀ x y, flat.heat true false pull (false, 0, 1) x y = flat.heat true false pull (false, 0, 1) 1 1 := by
    intro x y; rfl
  have hs : ∀ x y, flat.trans false pull (false, 0, 1) x y = 0 := by intro x y; simp [Plane.trans]
  refine ⟨by simpa using ((hasDerivAt_id' (0:ℝ)).const_mul 3).const_add 1, ?_, ?_, ?_, ?_, ?_, ?_, ?_⟩
  · simp only [hm]; exact continuous_const
  · simp only [hs]; exact continuous_const
  · simp only [ht]; exact continuous_const
  · have e : flat.mem true false pull (false, 0, 1) 1 = fun _ => flat.mem true false pull (false, 0, 1) 1 1 := funext fun y => hm 1 y
    rw [e]; simp [Exact]
  · have e : flat.trans false pull (false, 0, 1) 1 = fun _ => 0 := funext fun y => hs 1 y
    rw [e]; simp [Exact]
  · have e : flat.heat true false pull (false, 0, 1) 1 = fun _ => flat.heat true false pull (false, 0, 1) 1 1 := funext fun y => ht 1 y
    rw [e]; simp [Exact]
  · simp [Plane.mem, Plane.qp, flat, opRes_eq, memStress_eq, Fin.sum_univ_three, unitStiff, midStrain, linStrain, dStrain, quadIn, gx, gy, pull, unitDof, curvature_false]
    norm_num

end Verif.Shell
