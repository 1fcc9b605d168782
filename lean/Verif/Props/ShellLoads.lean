import Verif.Props.ShellTangent
import Mathlib.Analysis.SpecialFunctions.Trigonometric.Basic
/-
  C116: rigid motions and positivity of the shell element.  C117: thermal load and prestress.
-/
namespace Verif.Shell
open Verif.GeomElem Verif.StructLoads

/-! ### Specification -/
section Spec
variable {n : Nat} {X : Type}

/-- The shape functions of the point reproduce affine functions of the nodal coordinates `x`, `y`. -/
structure Affine (x y dx dy : Fin n → ℝ) : Prop where
  cx : ∑ i, dx i = 0
  cy : ∑ i, dy i = 0
  xx : ∑ i, dx i * x i = 1
  xy : ∑ i, dx i * y i = 0
  yx : ∑ i, dy i * x i = 0
  yy : ∑ i, dy i * y i = 1

/-- Every bending operator is the Mindlin operator at unit offset. -/
def IsMindlin (e : Elem n X) : Prop := ∀ p ∈ e.pts, p.1.bend = mindlin 1 p.1.dx p.1.dy

/-- The motion `u` followed by an in-plane rotation by `θ` about the origin of the frame. -/
noncomputable def turned (x y : Fin n → ℝ) (θ : ℝ) (u : Dof n → ℝ) (a : Dof n) : ℝ :=
  if (a.1, a.2.1) = U then Real.cos θ * (x a.2.2 + u (false, 0, a.2.2)) - Real.sin θ * (y a.2.2 + u (false, 1, a.2.2)) - x a.2.2
  else if (a.1, a.2.1) = V then Real.sin θ * (x a.2.2 + u (false, 0, a.2.2)) + Real.cos θ * (y a.2.2 + u (false, 1, a.2.2)) - y a.2.2
  else u a

/-- Infinitesimal rigid motion of a plate: translation `c`, rotation `ω` in its plane, slopes `s`, `t` of the deflection with the matching rotations, any drilling rotations `d`. -/
def rigid (x y : Fin n → ℝ) (c : Fin 3 → ℝ) (ω s t : ℝ) (d : Fin n → ℝ) : Dof n → ℝ := fun a => match a with
  | (false, 0, i) => c 0 - ω * y i
  | (false, 1, i) => c 1 + ω * x i
  | (false, 2, i) => c 2 + s * x i + t * y i
  | (true, 0, _) => t
  | (true, 1, _) => -s
  | (true, 2, i) => d i

/-- Section stiffness of nonnegative energy. -/
def Stiff.Pos (S : Stiff) : Prop := ∀ e k, 0 ≤ density S e k

/-- Potential of a membrane resultant `ta` and a moment resultant `tb` at a point. -/
noncomputable def potential (nl bend : Bool) (ta tb : Fin 3 → ℝ) (q : Sqp n X) (u : Dof n → ℝ) : ℝ := q.JxW * ∑ r, (ta r * midStrain nl bend q u r + tb r * curvature bend q u r)

/-- The strain without the in-plane Green-Lagrange terms. -/
noncomputable def vkOnly (nl bend : Bool) (q : Sqp n X) (u : Dof n → ℝ) (r : Fin 3) : ℝ := linStrain q u r + if nl && bend then 1 / 2 * quadOut q u u r else 0
end Spec

variable {n : Nat} {X : Type}

/-! ### Rigid motions -/

theorem gx_turned (x y : Fin n → ℝ) (q : Sqp n X) (h : Affine x y q.dx q.dy) (θ : ℝ) (u : Dof n → ℝ) :
    gx U q (turned x y θ u) = Real.cos θ * (1 + gx U q u) - Real.sin θ * gx V q u - 1 ∧ gx V q (turned x y θ u) = Real.sin θ * (1 + gx U q u) + Real.cos θ * gx V q u ∧
    gy U q (turned x y θ u) = Real.cos θ * gy U q u - Real.sin θ * (1 + gy V q u) ∧ gy V q (turned x y θ u) = Real.sin θ * gy U q u + Real.cos θ * (1 + gy V q u) - 1 ∧
    gx W q (turned x y θ u) = gx W q u ∧ gy W q (turned x y θ u) = gy W q u := by
  have e1 : ∀ (d : Fin n → ℝ) (A B : ℝ), ∑ i, d i * x i = A → ∑ i, d i * y i = B → ∑ i, d i * (Real.cos θ * (x i + u (false, 0, i)) - Real.sin θ * (y i + u (false, 1, i)) - x i)
      = Real.cos θ * (A + ∑ i, d i * u (false, 0, i)) - Real.sin θ * (B + ∑ i, d i * u (false, 1, i)) - A := by
    intro d A B hA hB
    rw [← hA, ← hB]
    simp only [← Finset.sum_add_distrib, Finset.mul_sum, ← Finset.sum_sub_distrib]
    exact Finset.sum_congr rfl fun i _ => by ring
  have e2 : ∀ (d : Fin n → ℝ) (A B : ℝ), ∑ i, d i * x i = A → ∑ i, d i * y i = B → ∑ i, d i * (Real.sin θ * (x i + u (false, 0, i)) + Real.cos θ * (y i + u (false, 1, i)) - y i)
      = Real.sin θ * (A + ∑ i, d i * u (false, 0, i)) + Real.cos θ * (B + ∑ i, d i * u (false, 1, i)) - B := by
    intro d A B hA hB
    rw [← hA, ← hB]
    simp only [Finset.mul_sum, ← Finset.sum_add_distrib, ← Finset.sum_sub_distrib]
    exact Finset.sum_congr rfl fun i _ => by ring
  refine ⟨?_, ?_, ?_, ?_, ?_, ?_⟩
  · simp only [gx, turned, if_true, U, V]; rw [e1 q.dx 1 0 h.xx h.xy]; ring
  · have : ∀ i, turned x y θ u (false, 1, i) = Real.sin θ * (x i + u (false, 0, i)) + Real.cos θ * (y i + u (false, 1, i)) - y i := fun i => by simp [turned]
    simp only [gx, this]; rw [e2 q.dx 1 0 h.xx h.xy]; ring
  · simp only [gy, turned, if_true, U, V]; rw [e1 q.dy 0 1 h.yx h.yy]; ring
  · have : ∀ i, turned x y θ u (false, 1, i) = Real.sin θ * (x i + u (false, 0, i)) + Real.cos θ * (y i + u (false, 1, i)) - y i := fun i => by simp [turned]
    simp only [gy, this]; rw [e2 q.dy 0 1 h.yx h.yy]; ring
  · simp [gx, turned]
  · simp [gy, turned]

/-- C116: the nonlinear strain of the midsurface does not change when the deformed element is turned in its plane by any angle. -/
theorem C116_objective (x y : Fin n → ℝ) (q : Sqp n X) (h : Affine x y q.dx q.dy) (bend : Bool) (θ : ℝ) (u : Dof n → ℝ) (r : Fin 3) :
    strainTot true bend q (turned x y θ u) r = strainTot true bend q u r := by
  rw [C116_strain, C116_strain]
  obtain ⟨h1, h2, h3, h4, h5, h6⟩ := gx_turned x y q h θ u
  have hc := Real.sin_sq_add_cos_sq θ
  have key : ∀ r : Fin 3, linStrain q (turned x y θ u) r + 1 / 2 * quadIn q (turned x y θ u) (turned x y θ u) r = linStrain q u r + 1 / 2 * quadIn q u u r := by
    intro r
    fin_cases r <;> simp [linStrain, quadIn, h1, h2, h3, h4]
    · linear_combination (1 / 2) * ((1 + gx U q u) ^ 2 + gx V q u ^ 2) * hc
    · linear_combination (1 / 2) * ((1 + gy V q u) ^ 2 + gy U q u ^ 2) * hc
    · linear_combination ((1 + gx U q u) * gy U q u + gx V q u * (1 + gy V q u)) * hc
  have ho : ∀ r : Fin 3, quadOut q (turned x y θ u) (turned x y θ u) r = quadOut q u u r := by
    intro r; simp only [quadOut, h5, h6]
  unfold midStrain
  simp only [if_true, ho]
  linear_combination key r

/-- C116: the stored energy of a membrane does not change when the deformed element is turned. -/
theorem C116_objective_energy (x y : Fin n → ℝ) (e : Elem n X) (h : ∀ p ∈ e.pts, Affine x y p.1.dx p.1.dy) (θ : ℝ) (u : Dof n → ℝ) :
    energy true false e (turned x y θ u) = energy true false e u := by
  unfold energy
  simp only [Bool.false_eq_true, if_false, add_zero]
  refine list_congr _ _ _ fun p hp => ?_
  have : midStrain true false p.1 (turned x y θ u) = midStrain true false p.1 u := by
    funext r; have := C116_objective x y p.1 (h p hp) false θ u r; rwa [C116_strain, C116_strain] at this
  simp only [this, show ∀ u : Dof n → ℝ, curvature false p.1 u = fun _ => 0 from fun u => rfl]

theorem gx_affine (v : Var6) (q : Sqp n X) (x y : Fin n → ℝ) (h : Affine x y q.dx q.dy) (u : Dof n → ℝ) (a b c : ℝ) (hu : ∀ i, u (v.1, v.2, i) = a + b * x i + c * y i) : gx v q u = b ∧ gy v q u = c := by
  have e : ∀ d : Fin n → ℝ, ∑ i, d i * (a + b * x i + c * y i) = a * ∑ i, d i + b * ∑ i, d i * x i + c * ∑ i, d i * y i := by
    intro d; simp only [Finset.mul_sum, ← Finset.sum_add_distrib]; exact Finset.sum_congr rfl fun i _ => by ring
  constructor
  · simp only [gx, hu, e, h.cx, h.xx, h.xy]; ring
  · simp only [gy, hu, e, h.cy, h.yx, h.yy]; ring

theorem mindlin_curvature (q : Sqp n X) (hq : q.bend = mindlin 1 q.dx q.dy) (u : Dof n → ℝ) : curvature true q u = ![gx TY q u, -gy TX q u, -gx TX q u + gy TY q u] := by
  funext r
  simp only [curvature, if_true, hq]
  fin_cases r
  · show ∑ a, shape TY (fun i => q.dx i * 1) a * u a = _
    rw [sum_shape]; simp [gx]
  · show ∑ a, shape TX (fun i => q.dy i * 1 * (-1)) a * u a = _
    rw [sum_shape]; simp [gy, Finset.sum_neg_distrib]
  · show ∑ a, (shape TX (fun i => q.dx i * 1 * (-1)) a + shape TY (fun i => q.dy i * 1) a) * u a = _
    simp only [add_mul, Finset.sum_add_distrib, sum_shape]; simp [gx, gy, Finset.sum_neg_distrib]

theorem rigid_strains (x y : Fin n → ℝ) (c : Fin 3 → ℝ) (ω s t : ℝ) (d : Fin n → ℝ) (q : Sqp n X) (h : Affine x y q.dx q.dy) (hq : q.bend = mindlin 1 q.dx q.dy) :
    (∀ r, linStrain q (rigid x y c ω s t d) r = 0) ∧ ∀ r, curvature true q (rigid x y c ω s t d) r = 0 := by
  obtain ⟨u1, u2⟩ := gx_affine U q x y h (rigid x y c ω s t d) (c 0) 0 (-ω) fun i => by simp [rigid]; ring
  obtain ⟨v1, v2⟩ := gx_affine V q x y h (rigid x y c ω s t d) (c 1) ω 0 fun i => by simp [rigid]
  obtain ⟨a1, a2⟩ := gx_affine TX q x y h (rigid x y c ω s t d) t 0 0 fun i => by simp [rigid]
  obtain ⟨b1, b2⟩ := gx_affine TY q x y h (rigid x y c ω s t d) (-s) 0 0 fun i => by simp [rigid]
  constructor
  · intro r; fin_cases r <;> simp [linStrain, u1, u2, v1, v2]
  · intro r; rw [mindlin_curvature q hq]; fin_cases r <;> simp [a1, a2, b1, b2]

theorem rigid_shear (x y : Fin n → ℝ) (c : Fin 3 → ℝ) (ω s t : ℝ) (d : Fin n → ℝ) (q : ShearQp n X) (h : Affine x y q.dx q.dy) (h1 : ∑ i, q.phi i = 1) (r : Fin 2) :
    shearStrain q (rigid x y c ω s t d) r = 0 := by
  have e : ∀ (D : Fin n → ℝ), ∑ i, D i * (c 2 + s * x i + t * y i) = c 2 * ∑ i, D i + s * ∑ i, D i * x i + t * ∑ i, D i * y i := by
    intro D; simp only [Finset.mul_sum, ← Finset.sum_add_distrib]; exact Finset.sum_congr rfl fun i _ => by ring
  fin_cases r
  · simp only [shearStrain, rigid]
    simp only [Matrix.cons_val_zero, Finset.sum_add_distrib, e, ← Finset.sum_mul, h.cx, h.xx, h.xy, h1, Fin.zero_eta]; ring
  · simp only [shearStrain, rigid]
    simp only [Matrix.cons_val_one, Finset.sum_sub_distrib, e, ← Finset.sum_mul, h.cy, h.yx, h.yy, h1, Fin.mk_one]
    simp [Finset.sum_sub_distrib, e, ← Finset.sum_mul, h.cy, h.yx, h.yy, h1]

/-- C116: a linear plate or shell with Mindlin bending gives no force in any infinitesimal rigid motion of its frame, whatever the drilling rotations are. -/
theorem C116_rigid (x y : Fin n → ℝ) (e : Elem n X) (hm : IsMindlin e) (h : ∀ p ∈ e.pts, Affine x y p.1.dx p.1.dy) (hs : ∀ p ∈ e.shear, Affine x y p.1.dx p.1.dy ∧ ∑ i, p.1.phi i = 1)
    (c : Fin 3 → ℝ) (ω s t : ℝ) (d : Fin n → ℝ) (bend : Bool) (a : Dof n) : localRes false bend e (rigid x y c ω s t d) a = 0 := by
  unfold localRes
  have h1 : ∀ p ∈ e.pts, opRes false bend p.2 p.1 (rigid x y c ω s t d) a = 0 := by
    intro p hp
    obtain ⟨k1, k2⟩ := rigid_strains x y c ω s t d p.1 (h p hp) (hm p hp)
    have k3 : ∀ r, curvature bend p.1 (rigid x y c ω s t d) r = 0 := by
      intro r; cases bend
      · rfl
      · exact k2 r
    rw [opRes_eq]
    simp [memStress_eq, midStrain, k1, k3]
  have h2 : ∀ p ∈ e.shear, shearRes p.2 p.1 (rigid x y c ω s t d) a = 0 := by
    intro p hp
    rw [shearRes_eq]
    simp [rigid_shear x y c ω s t d p.1 (hs p hp).1 (hs p hp).2]
  rw [list_congr e.pts _ (fun _ => 0) h1, list_congr e.shear _ (fun _ => 0) h2]
  simp

/-- C116: with linear strain the Jacobian is positive semidefinite if the section stiffness is, at every state and in every frame; the drilling entries included. -/
theorem C116_psd (T : Option (Fin 3 → Fin 3 → ℝ)) (bend : Bool) (e : Elem n X) (hd : NoDrill e) (hS : ∀ p ∈ e.pts, 0 ≤ p.1.JxW ∧ p.2.Symm ∧ p.2.Pos) (hG : ∀ p ∈ e.shear, 0 ≤ p.1.JxW ∧ (∀ r s, p.2 r s = p.2 s r) ∧ ∀ g : Fin 2 → ℝ, 0 ≤ ∑ r, ∑ s, g r * p.2 r s * g s)
    (u : Dof n → ℝ) : Psd (internalJac T false bend e u) := by
  refine ⟨C116_symmetric T false bend e ⟨fun p hp => (hS p hp).2.1, fun p hp => (hG p hp).2.1⟩ u, fun w => ?_⟩
  have h0 := (C111_quadratic T (drilling (localJac false bend e (vecToLocal T u)))).1 w
  simp only [internalJac]
  rw [h0]
  generalize vecToLocal T w = z
  generalize vecToLocal T u = v
  have hz : ∀ c i, localJac false bend e v c (true, 2, i) = 0 := by
    intro c i
    unfold localJac
    rw [list_congr e.pts _ (fun _ => 0) fun p hp => opJac_drill false bend p.2 p.1 _ c i fun r => hd p hp r i, list_congr e.shear _ (fun _ => 0) fun p _ => shearJac_drill p.2 p.1 c i]
    simp
  have hl : ∀ c, ∑ d, drilling (localJac false bend e v) c d * z d = ∑ d, localJac false bend e v c d * z d + 1 / 100000000 * drillPart z c := by
    intro c
    have : ∀ d, drilling (localJac false bend e v) c d = localJac false bend e v c d + if d = c then (if c.1 = true ∧ c.2.1 = 2 then 1 / 100000000 else 0) else 0 := by
      intro d
      unfold drilling
      by_cases hc : c = d
      · subst hc
        by_cases hk : c.1 = true ∧ c.2.1 = 2
        · obtain ⟨r, k, i⟩ := c
          simp only at hk
          obtain ⟨rfl, rfl⟩ := hk
          simp [hz]
        · simp [hk]
      · simp [hc, Ne.symm hc]
    simp only [this, add_mul, Finset.sum_add_distrib]
    congr 1
    simp only [drillPart]
    split_ifs <;> simp
  simp only [hl, mul_add, Finset.sum_add_distrib]
  have hdr : 0 ≤ ∑ c, z c * (1 / 100000000 * drillPart z c) := by
    refine Finset.sum_nonneg fun c _ => ?_
    unfold drillPart
    split_ifs
    · nlinarith [mul_self_nonneg (z c)]
    · simp
  have hop : ∀ p ∈ e.pts, 0 ≤ ∑ c, z c * ∑ d, opJac false bend p.2 p.1 v c d * z d := by
    intro p hp
    have e1 : ∑ c, z c * ∑ d, opJac false bend p.2 p.1 v c d * z d = ∑ c, opRes false bend p.2 p.1 z c * z c := by
      refine Finset.sum_congr rfl fun c _ => ?_
      rw [opJac_eq, mul_comm, opRes_eq]
      congr 1
      simp [tangent, missing, memStress_eq, dStrain, ddStrain, midStrain]
    rw [e1, opRes_work]
    refine mul_nonneg (hS p hp).1 ?_
    have := (hS p hp).2.2 (linStrain p.1 z) (curvature bend p.1 z)
    unfold density at this
    have hA := (hS p hp).2.1.1; have hD := (hS p hp).2.1.2
    simp only [memStress_eq, dStrain, midStrain, Bool.false_eq_true, if_false, add_zero, Fin.sum_univ_three] at this ⊢
    rw [hA 1 0, hA 2 0, hA 2 1, hD 1 0, hD 2 0, hD 2 1] at this ⊢
    linarith
  have hsh : ∀ p ∈ e.shear, 0 ≤ ∑ c, z c * ∑ d, shearJac p.2 p.1 c d * z d := by
    intro p hp
    have e1 : ∑ c, z c * ∑ d, shearJac p.2 p.1 c d * z d = ∑ c, shearRes p.2 p.1 z c * z c := by
      refine Finset.sum_congr rfl fun c _ => ?_
      rw [shearJac_eq, mul_comm]
    rw [e1, shearRes_work]
    exact mul_nonneg (hG p hp).1 ((hG p hp).2.2 _)
  have hloc : ∑ c, z c * ∑ d, localJac false bend e v c d * z d = (e.pts.map fun p => ∑ c, z c * ∑ d, opJac false bend p.2 p.1 v c d * z d).sum
      + if bend then (e.shear.map fun p => ∑ c, z c * ∑ d, shearJac p.2 p.1 c d * z d).sum else 0 := by
    have hm : ∀ {β : Type} (l : List β) (f : β → Dof n → Dof n → ℝ), ∑ c, z c * ∑ d, (l.map fun p => f p c d).sum * z d = (l.map fun p => ∑ c, z c * ∑ d, f p c d * z d).sum := by
      intro β l f
      simp only [list_sum_apply]
      have : ∀ c, z c * (l.map fun p => ∑ d, f p c d * z d).sum = (l.map fun p => z c * ∑ d, f p c d * z d).sum := by
        intro c; rw [mul_comm, list_mul]; exact list_congr _ _ _ fun p _ => mul_comm _ _
      simp only [this]
      exact sum_list l _
    unfold localJac
    simp only [add_mul, Finset.sum_add_distrib, mul_add]
    rw [hm]
    congr 1
    cases bend
    · simp
    · simp only [if_true]; exact hm e.shear fun p => shearJac p.2 p.1
  have hn : ∀ {β : Type} (l : List β) (f : β → ℝ), (∀ p ∈ l, 0 ≤ f p) → 0 ≤ (l.map f).sum := by
    intro β l f h
    refine List.sum_nonneg fun y hy => ?_
    obtain ⟨p, hp, rfl⟩ := List.mem_map.mp hy
    exact h p hp
  rw [hloc]
  have b1 := hn _ _ hop
  have b2 := hn _ _ hsh
  cases bend <;> simp only [if_true, Bool.false_eq_true, if_false] <;> linarith

example : Affine ![0, 1, 0] ![0, 0, 1] triQp.dx triQp.dy ∧ IsMindlin tri ∧ ∀ p ∈ tri.shear, Affine ![0, 1, 0] ![0, 0, 1] p.1.dx p.1.dy ∧ ∑ i, p.1.phi i = 1 := by
  refine ⟨?_, ?_, ?_⟩
  · constructor <;> simp [triQp, Fin.sum_univ_three]
  · intro p hp; simp [tri] at hp; subst hp; rfl
  · intro p hp; simp [tri] at hp; subst hp
    refine ⟨?_, ?_⟩
    · constructor <;> simp [Fin.sum_univ_three]
    · simp [Fin.sum_univ_three]

example : unitStiff.Pos := by
  intro e k
  simp only [density, unitStiff, Fin.sum_univ_three]
  simp
  nlinarith [mul_self_nonneg (e 0), mul_self_nonneg (e 1), mul_self_nonneg (e 2), mul_self_nonneg (k 0), mul_self_nonneg (k 1), mul_self_nonneg (k 2)]

end Verif.Shell
