import Verif.Props.SolidMore
import Mathlib.Tactic.FieldSimp
import Mathlib.Tactic.NormNum
/-
  C121: non-vacuity and the rotational entries.  C122: recovered stress and thermal load of the solid element.  C123: incompatible mode mapping.
-/
namespace Verif.Solid
open Verif.GeomElem Verif.StructLoads
open Verif.Shell (shape U V W app appT mv mvT mm tr sandwich sum_shape unitDof sum_unit sandwich_sum sum_sandwich hasDeriv_quad zero_line list_sum_apply list_add)

variable {n : Nat} {X : Type}

/-! ### An element -/

/-- Four-node tetrahedron on the unit corner, one point. -/
noncomputable def tetQp : Vqp 4 Unit := ⟨(), 1 / 6, ![![-1, 1, 0, 0], ![-1, 0, 1, 0], ![-1, 0, 0, 1]]⟩
def tetX : Fin 4 → Fin 3 → ℝ := ![![0, 0, 0], ![1, 0, 0], ![0, 1, 0], ![0, 0, 1]]
def matOne : Fin 6 → Fin 6 → ℝ := fun r s => if r = s then 1 else 0
noncomputable def tet : Elem 4 Unit := [(tetQp, matOne)]

theorem tet_affine : ∀ p ∈ tet, Affine tetX p.1 := by
  intro p hp
  simp only [tet, List.mem_singleton] at hp
  subst hp
  constructor
  · intro k; fin_cases k <;> simp [tetQp, Fin.sum_univ_four]
  · intro k l; fin_cases k <;> fin_cases l <;> simp [tetQp, tetX, Fin.sum_univ_four]

theorem tet_symm : SymmC tet := by
  intro p hp r s
  simp only [tet, List.mem_singleton] at hp
  subst hp
  simp only [matOne, eq_comm]

example : ∀ p ∈ tet, ∀ x : Fin 6 → ℝ, 0 ≤ ∑ r, ∑ s, x r * p.2 r s * x s := by
  intro p hp x
  simp only [tet, List.mem_singleton] at hp
  subst hp
  refine Finset.sum_nonneg fun r _ => ?_
  simp only [matOne, mul_ite, mul_one, mul_zero, ite_mul, zero_mul, Finset.sum_ite_eq, Finset.mem_univ, if_true]
  exact mul_self_nonneg _

/-- A quarter turn meets the hypotheses of the objectivity theorems. -/
example : ∀ i j : Fin 3, ∑ c, (![![0, -1, 0], ![1, 0, 0], ![0, 0, 1]] : Fin 3 → Fin 3 → ℝ) c i * (![![0, -1, 0], ![1, 0, 0], ![0, 0, 1]] : Fin 3 → Fin 3 → ℝ) c j = if i = j then 1 else 0 := by
  intro i j; fin_cases i <;> fin_cases j <;> simp [Fin.sum_univ_three]

/-- C121 fails for the rotational unknowns: the residual does not depend on them, the matrix handed back has a positive diagonal there. -/
theorem C121_rotations_fails : (∀ (nl : Bool) (u v : Dof 4 → ℝ), (∀ a, a.1 = false → u a = v a) → internalRes nl tet u = internalRes nl tet v) ∧
    0 < internalJac false tet (fun _ => 0) (fun _ _ => 0) (true, 0, 0) (true, 0, 0) ∧ ¬ IsJacobian (internalRes false tet) (internalJac false tet (fun _ => 0) fun _ _ => 0) fun _ => 0 := by
  have hind : ∀ (nl : Bool) (u v : Dof 4 → ℝ), (∀ a, a.1 = false → u a = v a) → internalRes nl tet u = internalRes nl tet v := by
    intro nl u v h
    have hg : ∀ c k, grad tetQp u c k = grad tetQp v c k := fun c k => Finset.sum_congr rfl fun i _ => by rw [h _ rfl]
    funext a
    simp only [internalRes, tet, List.map_cons, List.map_nil, List.sum_cons, List.sum_nil, opRes_eq, strain_eq, dStrain, lin, quad, hg]
  have hz : ∀ b, materialJac false tet (fun _ => 0) (true, 0, 0) b = 0 := by
    intro b
    have h1 := C121_jacobian false tet (fun _ => 0) (unitDof (true, 0, 0)) b
    rw [sum_unit] at h1
    rw [C121_symmetric false tet tet_symm]
    have h2 : (fun t : ℝ => internalRes false tet (fun c => (0:ℝ) + t * unitDof (true, 0, 0) c) b) = fun _ => internalRes false tet (fun _ => 0) b := by
      funext t
      rw [hind false _ (fun _ => 0)]
      rintro ⟨r, k, i⟩ hr
      cases r
      · simp [unitDof]
      · cases hr
    rw [h2] at h1
    exact h1.unique (hasDerivAt_const _ _)
  have hpos : 0 < diagMax fun a b => (0 : ℝ) + materialJac false tet (fun _ => 0) a b := by
    have hv : materialJac false tet (fun _ => 0) (false, 0, 1) (false, 0, 1) = 1 / 6 := by
      simp only [materialJac, tet, List.map_cons, List.map_nil, List.sum_cons, List.sum_nil, add_zero]
      have : opJac false matOne tetQp (fun _ => 0) (false, 0, 1) (false, 0, 1) = tangent false matOne tetQp (fun _ => 0) (false, 0, 1) (unitDof (false, 0, 1)) := by rw [← opJac_eq, sum_unit]
      rw [this]
      simp [tangent, dStrain, ddStrain, matOne, lin, grad_unit, shape, Fin.sum_univ_succ, tetQp]
    unfold diagMax
    obtain ⟨m, hm⟩ := Finset.max_of_mem (Finset.mem_image_of_mem (fun a : Dof 4 => (0 : ℝ) + materialJac false tet (fun _ => 0) a a) (Finset.mem_univ ((false, 0, 1) : Dof 4)))
    rw [hm]
    have hle : (0 : ℝ) + materialJac false tet (fun _ => 0) (false, 0, 1) (false, 0, 1) ≤ m :=
      Finset.le_max_of_eq (Finset.mem_image_of_mem (fun a : Dof 4 => (0 : ℝ) + materialJac false tet (fun _ => 0) a a) (Finset.mem_univ ((false, 0, 1) : Dof 4))) hm
    rw [hv] at hle
    show (0 : ℝ) < m
    linarith
  have hd : 0 < internalJac false tet (fun _ => 0) (fun _ _ => 0) (true, 0, 0) (true, 0, 0) := by
    simp only [internalJac, regularize, and_self, if_true, hz, zero_add]
    have := hpos
    simp only [zero_add] at this
    positivity
  refine ⟨hind, hd, fun hJ => ?_⟩
  have h1 := hJ (unitDof (true, 0, 0)) (true, 0, 0)
  rw [sum_unit] at h1
  have h2 : (fun t : ℝ => internalRes false tet (fun c => (0:ℝ) + t * unitDof (true, 0, 0) c) (true, 0, 0)) = fun _ => internalRes false tet (fun _ => 0) (true, 0, 0) := by
    funext t
    rw [hind false _ (fun _ => 0)]
    rintro ⟨r, k, i⟩ hr
    cases r
    · simp [unitDof]
    · cases hr
  rw [h2] at h1
  exact absurd (h1.unique (hasDerivAt_const _ _)) hd.ne'

/-! ### C122: stress and thermal load -/

/-- Specification: a motion `w` changes the recovered strain of every point at the rates `rate`. -/
def Rates (nl : Bool) (e : Elem n X) (u w : Dof n → ℝ) (rate : List (Fin 6 → ℝ)) : Prop :=
  List.Forall₂ (fun p v => ∀ r, HasDerivAt (fun t : ℝ => strain nl p.1 (fun b => u b + t * w b) r) (v r) 0) e rate

/-- C122: virtual work: the internal forces do on any motion the work of the recovered stress on the rate of the recovered strain. -/
theorem C122_virtual_work (nl : Bool) (e : Elem n X) (u w : Dof n → ℝ) (rate : List (Fin 6 → ℝ)) (h : Rates nl e u w rate) :
    work (internalRes nl e u) w = (List.zipWith (fun d v => d.2.2.2 * ∑ r, d.2.1 r * v r) (recovered nl e u) rate).sum := by
  unfold work internalRes
  rw [list_sum_apply e (fun p a => opRes nl p.2 p.1 u a) w]
  unfold Rates at h
  induction h with
  | nil => rfl
  | cons hp _ ih =>
    simp only [List.map_cons, List.sum_cons, recovered, List.zipWith_cons_cons] at ih ⊢
    rw [ih]
    congr 1
    unfold opRes
    rw [strainT_work]
    congr 1
    refine Finset.sum_congr rfl fun r _ => ?_
    rw [(strain_deriv nl _ u w r).unique (hp r)]

example : Rates true tet (unitDof (false, 0, 1)) (unitDof (false, 1, 2)) [dStrain true tetQp (unitDof (false, 0, 1)) (unitDof (false, 1, 2))] :=
  List.Forall₂.cons (fun r => strain_deriv true _ _ _ r) List.Forall₂.nil

/-- C122: what is stored for each quadrature point: the components of the strain tensor of the motion, the stress `C` times these, and the weight. -/
theorem C122_recovered (nl : Bool) (e : Elem n X) (u : Dof n → ℝ) :
    recovered nl e u = e.map fun p => (p.1, (fun r => ∑ s, p.2 r s * voigt (tensor nl p.1 u) s), voigt (tensor nl p.1 u), p.1.JxW) := by
  refine List.map_congr_left fun p _ => ?_
  have h : strain nl p.1 u = voigt (tensor nl p.1 u) := funext fun r => C121_strain nl p.1 u r
  unfold stress mv
  rw [h]

/-- Specification: potential of the thermal load, `-∫ β ΔT · ε`. -/
noncomputable def thermalEnergy (nl : Bool) (e : List (Vqp n X × Thermal)) (u : Dof n → ℝ) : ℝ :=
  -(e.map fun p => p.1.JxW * ∑ r, p.2.exp r * (p.2.temp - p.2.ref) * voigt (tensor nl p.1 u) r).sum

/-- C122: the thermal residual is the gradient of its potential. -/
theorem C122_thermal_energy (nl : Bool) (e : List (Vqp n X × Thermal)) (u w : Dof n → ℝ) :
    HasDerivAt (fun t : ℝ => thermalEnergy nl e fun b => u b + t * w b) (work (thermalRes nl e u) w) 0 := by
  have hs : ∀ (q : Vqp n X) (u : Dof n → ℝ), voigt (tensor nl q u) = strain nl q u := fun q u => funext fun r => (C121_strain nl q u r).symm
  simp only [thermalEnergy, hs]
  refine HasDerivAt.congr_deriv (HasDerivAt.fun_neg (hasDerivAt_list e _ (fun p => ∑ a, strainT nl p.1 u p.2.load a * w a) 0 fun p _ => ?_)) ?_
  · rw [strainT_work]
    exact HasDerivAt.const_mul _ (HasDerivAt.fun_sum fun r _ => (strain_deriv nl p.1 u w r).const_mul _)
  · simp only [work, thermalRes, neg_mul, Finset.sum_neg_distrib]
    rw [list_sum_apply e (fun p a => strainT nl p.1 u p.2.load a) w]

/-- C122: its Jacobian is the derivative of the residual. -/
theorem C122_thermal_jacobian (nl : Bool) (e : List (Vqp n X × Thermal)) (u : Dof n → ℝ) : IsJacobian (thermalRes nl e) (thermalJac nl e) u := by
  intro w a
  refine HasDerivAt.congr_deriv (HasDerivAt.fun_neg (hasDerivAt_list e (fun t p => strainT nl p.1 (fun b => u b + t * w b) p.2.load a)
    (fun p => p.1.JxW * ∑ r, p.2.load r * ddStrain nl p.1 w (unitDof a) r) 0 fun p _ => ?_)) ?_
  · simp only [strainT_eq]
    exact HasDerivAt.const_mul _ (HasDerivAt.fun_sum fun r _ => (dStrain_deriv nl p.1 u w (unitDof a) r).const_mul _)
  · unfold thermalJac
    cases nl
    · have : (e.map fun p => p.1.JxW * ∑ r, p.2.load r * ddStrain false p.1 w (unitDof a) r).sum = 0 := List.sum_eq_zero fun y hy => by
        obtain ⟨p, _, rfl⟩ := List.mem_map.1 hy
        simp [ddStrain]
      rw [this]; simp
    · simp only [if_true, neg_mul, Finset.sum_neg_distrib]
      rw [list_sum_apply e (fun p b => geom p.2.load p.1 a b) w]
      congr 1
      exact list_congr _ _ _ fun p _ => by rw [geom_eq]; simp [ddStrain]

/-- Points of a heated body: material `C`, expansion strain `α` per degree, temperatures. -/
structure Heated (n : Nat) (X : Type) where
  q : Vqp n X
  C : Fin 6 → Fin 6 → ℝ
  α : Fin 6 → ℝ
  temp : ℝ
  ref : ℝ

/-- Specification: the element of the residual, and its thermal data with `exp = C α` (what the section card computes). -/
def Heated.mech (b : List (Heated n X)) : Elem n X := b.map fun p => (p.q, p.C)
def Heated.therm (b : List (Heated n X)) : List (Vqp n X × Thermal) := b.map fun p => (p.q, ⟨fun r => ∑ s, p.C r s * p.α s, p.temp, p.ref⟩)

/-- C122: free expansion: a body whose strain is its thermal expansion carries no internal force. -/
theorem C122_free_expansion (nl : Bool) (b : List (Heated n X)) (u : Dof n → ℝ) (h : ∀ p ∈ b, ∀ r, voigt (tensor nl p.q u) r = p.α r * (p.temp - p.ref)) (a : Dof n) :
    internalRes nl (Heated.mech b) u a + thermalRes nl (Heated.therm b) u a = 0 := by
  simp only [internalRes, thermalRes, Heated.mech, Heated.therm, List.map_map, Function.comp_def]
  rw [← sub_eq_add_neg, sub_eq_zero]
  refine list_congr _ _ _ fun p hp => ?_
  unfold opRes
  congr 1
  funext r
  simp only [stress, mv, Thermal.load, Finset.sum_mul]
  exact Finset.sum_congr rfl fun s _ => by rw [C121_strain, h p hp]; ring

/-- A uniform stretch of the tetrahedron is such a strain. -/
example : ∀ r, voigt (tensor false tetQp fun a => if a.1 then 0 else 1 / 100 * tetX a.2.2 a.2.1) r = (![1 / 1000, 1 / 1000, 1 / 1000, 0, 0, 0] : Fin 6 → ℝ) r * (30 - 20) := by
  intro r
  fin_cases r <;> simp [voigt, tensor, grad, tetQp, tetX, Fin.sum_univ_four] <;> norm_num

/-! ### C123: incompatible mode mapping -/

/-- Specification: components xx, yy, zz, xy, yz, zx of a symmetric tensor of stress. -/
def comps (S : Fin 3 → Fin 3 → ℝ) : Fin 6 → ℝ := ![S 0 0, S 1 1, S 2 2, S 0 1, S 1 2, S 2 0]

/-- C123: `T0` moves stress components from the reference axes to the global axes: `S ↦ J^T S J`. -/
theorem C123_transform (J S : Fin 3 → Fin 3 → ℝ) (hS : ∀ a b, S a b = S b a) (r : Fin 6) : ∑ s, T0 J r s * comps S s = comps (fun i j => ∑ a, ∑ b, J a i * S a b * J b j) r := by
  have h1 := hS 1 0
  have h2 := hS 2 1
  have h3 := hS 0 2
  fin_cases r <;> simp [T0, comps, Fin.sum_univ_succ, h1, h2, h3] <;> ring

/-- C123: it is invertible whenever the element map is: the transformation of the inverse Jacobian undoes it. -/
theorem C123_inverse (J K : Fin 3 → Fin 3 → ℝ) (hK : ∀ i j, ∑ a, J i a * K a j = if i = j then 1 else 0) (r s : Fin 6) : ∑ m, T0 K r m * T0 J m s = if r = s then 1 else 0 := by
  have hcomp : ∀ s, (fun m => T0 J m s) = comps fun i j => ∑ a, ∑ b, J a i * (if (a, b) ∈ ([[(0, 0)], [(1, 1)], [(2, 2)], [(0, 1), (1, 0)], [(1, 2), (2, 1)], [(0, 2), (2, 0)]].getD s.val [] : List (Fin 3 × Fin 3)) then 1 else 0) * J b j := by
    intro s; funext m
    fin_cases s <;> fin_cases m <;> simp [T0, comps, Fin.sum_univ_succ] <;> ring
  have h := C123_transform K (fun i j => ∑ a, ∑ b, J a i * (if (a, b) ∈ ([[(0, 0)], [(1, 1)], [(2, 2)], [(0, 1), (1, 0)], [(1, 2), (2, 1)], [(0, 2), (2, 0)]].getD s.val [] : List (Fin 3 × Fin 3)) then 1 else 0) * J b j) ?_ r
  · have hm : ∀ m, T0 J m s = comps (fun i j => ∑ a, ∑ b, J a i * (if (a, b) ∈ ([[(0, 0)], [(1, 1)], [(2, 2)], [(0, 1), (1, 0)], [(1, 2), (2, 1)], [(0, 2), (2, 0)]].getD s.val [] : List (Fin 3 × Fin 3)) then 1 else 0) * J b j) m := fun m => congrFun (hcomp s) m
    simp only [hm]
    rw [h]
    have e : ∀ i j, (∑ a, ∑ b, K a i * (∑ c, ∑ d, J c a * (if (c, d) ∈ ([[(0, 0)], [(1, 1)], [(2, 2)], [(0, 1), (1, 0)], [(1, 2), (2, 1)], [(0, 2), (2, 0)]].getD s.val [] : List (Fin 3 × Fin 3)) then (1:ℝ) else 0) * J d b) * K b j)
        = if (i, j) ∈ ([[(0, 0)], [(1, 1)], [(2, 2)], [(0, 1), (1, 0)], [(1, 2), (2, 1)], [(0, 2), (2, 0)]].getD s.val [] : List (Fin 3 × Fin 3)) then 1 else 0 := by
      intro i j
      generalize hM : (fun c d : Fin 3 => if (c, d) ∈ ([[(0, 0)], [(1, 1)], [(2, 2)], [(0, 1), (1, 0)], [(1, 2), (2, 1)], [(0, 2), (2, 0)]].getD s.val [] : List (Fin 3 × Fin 3)) then (1:ℝ) else 0) = M
      have hM' : ∀ c d, (if (c, d) ∈ ([[(0, 0)], [(1, 1)], [(2, 2)], [(0, 1), (1, 0)], [(1, 2), (2, 1)], [(0, 2), (2, 0)]].getD s.val [] : List (Fin 3 × Fin 3)) then (1:ℝ) else 0) = M c d := fun c d => congrFun (congrFun hM c) d
      simp only [hM']
      have hk : ∀ i j, J i 0 * K 0 j + J i 1 * K 1 j + J i 2 * K 2 j = if i = j then 1 else 0 := fun i j => by rw [← hK i j, Fin.sum_univ_three]
      have step : (∑ a, ∑ b, K a i * (∑ c, ∑ d, J c a * M c d * J d b) * K b j) = ∑ c, ∑ d, (J c 0 * K 0 i + J c 1 * K 1 i + J c 2 * K 2 i) * M c d * (J d 0 * K 0 j + J d 1 * K 1 j + J d 2 * K 2 j) := by
        simp only [Fin.sum_univ_three]; ring
      rw [step]
      simp only [hk]
      simp
    simp only [e]
    fin_cases r <;> fin_cases s <;> simp [comps]
  · intro a b
    fin_cases s <;> simp [Fin.sum_univ_succ] <;> ring

/-- Specification: a quadrature rule on the reference cube, weights with reference coordinates, under which every nonconstant trilinear monomial has mean zero. -/
structure Centred (rule : List (ℝ × ℝ × ℝ × ℝ)) : Prop where
  x : (rule.map fun p => p.1 * p.2.1).sum = 0
  y : (rule.map fun p => p.1 * p.2.2.1).sum = 0
  z : (rule.map fun p => p.1 * p.2.2.2).sum = 0
  xy : (rule.map fun p => p.1 * (p.2.1 * p.2.2.1)).sum = 0
  xz : (rule.map fun p => p.1 * (p.2.1 * p.2.2.2)).sum = 0
  yz : (rule.map fun p => p.1 * (p.2.2.1 * p.2.2.2)).sum = 0
  xyz : (rule.map fun p => p.1 * (p.2.1 * p.2.2.1 * p.2.2.2)).sum = 0

theorem bmode_mean (rule : List (ℝ × ℝ × ℝ × ℝ)) (h : Centred rule) (s : Fin 6) (m : Fin 30) : (rule.map fun p => p.1 * Bmode p.2.1 p.2.2.1 p.2.2.2 s m).sum = 0 := by
  obtain ⟨h1, h2, h3, h4, h5, h6, h7⟩ := h
  have hz : (rule.map fun p : ℝ × ℝ × ℝ × ℝ => p.1 * 0).sum = 0 := by simp
  fin_cases s <;> fin_cases m <;> simp [Bmode, modes, List.filterMap] <;> first | assumption | skip

/-- C123: the added strains pass the patch test: their integral over the element vanishes, so a constant stress does no work on them.  `dets` are the (nonzero) Jacobian determinants of the points. -/
theorem C123_patch (rule : List (ℝ × ℝ × ℝ × ℝ)) (h : Centred rule) (det : ℝ × ℝ × ℝ × ℝ → ℝ) (hd : ∀ p ∈ rule, det p ≠ 0) (j0 : ℝ) (Ti : Fin 6 → Fin 6 → ℝ) (σ : Fin 6 → ℝ) (m : Fin 30) :
    (rule.map fun p => p.1 * det p * ∑ r, σ r * Gmat j0 Ti (det p) p.2.1 p.2.2.1 p.2.2.2 r m).sum = 0 := by
  have e : ∀ p ∈ rule, p.1 * det p * ∑ r, σ r * Gmat j0 Ti (det p) p.2.1 p.2.2.1 p.2.2.2 r m = ∑ rs : Fin 6 × Fin 6, p.1 * Bmode p.2.1 p.2.2.1 p.2.2.2 rs.2 m * (σ rs.1 * (j0 * Ti rs.2 rs.1)) := by
    intro p hp
    have := hd p hp
    rw [Fintype.sum_prod_type, Finset.mul_sum]
    refine Finset.sum_congr rfl fun r _ => ?_
    rw [Gmat]
    have e1 : p.1 * det p * (σ r * ((∑ s, j0 * Ti s r * Bmode p.2.1 p.2.2.1 p.2.2.2 s m) / det p)) = p.1 * σ r * ∑ s, j0 * Ti s r * Bmode p.2.1 p.2.2.1 p.2.2.2 s m := by
      field_simp
    rw [e1, Finset.mul_sum]
    exact Finset.sum_congr rfl fun s _ => by ring
  rw [list_congr _ _ _ e, ← sum_list rule fun p (rs : Fin 6 × Fin 6) => p.1 * Bmode p.2.1 p.2.2.1 p.2.2.2 rs.2 m * (σ rs.1 * (j0 * Ti rs.2 rs.1))]
  refine Finset.sum_eq_zero fun rs _ => ?_
  rw [← list_mul, bmode_mean rule h, zero_mul]

/-- The eight-point rule is centred. -/
example (g : ℝ) : Centred [(1, -g, -g, -g), (1, g, -g, -g), (1, -g, g, -g), (1, g, g, -g), (1, -g, -g, g), (1, g, -g, g), (1, -g, g, g), (1, g, g, g)] := by
  constructor <;> simp <;> ring
section Spec
/-- The enriched strains of Simo's thirty parameter element: in the normal component `k` multiples of `ξ_k`, of its products with the other two coordinates and of the triple product; in a shear component `ij` multiples of `ξ_i`, `ξ_j`, of all three products of two coordinates and of the triple product. -/
def enriched (a : Fin 6 → Fin 6 → ℝ) (x : Fin 3 → ℝ) : Fin 6 → ℝ :=
  ![a 0 0 * x 0 + a 0 1 * (x 0 * x 1) + a 0 2 * (x 0 * x 2) + a 0 3 * (x 0 * x 1 * x 2),
    a 1 0 * x 1 + a 1 1 * (x 0 * x 1) + a 1 2 * (x 1 * x 2) + a 1 3 * (x 0 * x 1 * x 2),
    a 2 0 * x 2 + a 2 1 * (x 0 * x 2) + a 2 2 * (x 1 * x 2) + a 2 3 * (x 0 * x 1 * x 2),
    a 3 0 * x 0 + a 3 1 * x 1 + a 3 2 * (x 0 * x 1) + a 3 3 * (x 0 * x 2) + a 3 4 * (x 1 * x 2) + a 3 5 * (x 0 * x 1 * x 2),
    a 4 0 * x 1 + a 4 1 * x 2 + a 4 2 * (x 0 * x 1) + a 4 3 * (x 0 * x 2) + a 4 4 * (x 1 * x 2) + a 4 5 * (x 0 * x 1 * x 2),
    a 5 0 * x 0 + a 5 1 * x 2 + a 5 2 * (x 0 * x 1) + a 5 3 * (x 0 * x 2) + a 5 4 * (x 1 * x 2) + a 5 5 * (x 0 * x 1 * x 2)]
end Spec

theorem bmode_rows (al : Fin 30 → ℝ) (x y z : ℝ) :
    (fun r => ∑ m, Bmode x y z r m * al m) = ![x * al 0 + x * y * al 15 + x * z * al 16 + x * y * z * al 24, y * al 1 + x * y * al 17 + y * z * al 18 + x * y * z * al 25,
      z * al 2 + x * z * al 19 + y * z * al 20 + x * y * z * al 26, x * al 3 + y * al 4 + x * z * al 9 + y * z * al 10 + x * y * al 21 + x * y * z * al 27,
      y * al 5 + z * al 6 + x * y * al 11 + x * z * al 12 + y * z * al 22 + x * y * z * al 28, x * al 7 + z * al 8 + x * y * al 13 + y * z * al 14 + x * z * al 23 + x * y * z * al 29] := by
  have hB : ∀ r, ∑ m, Bmode x y z r m * al m = ((modes x y z).filterMap fun e => if e.1 = r then some (e.2.2 * al e.2.1) else none).sum := by
    intro r
    have : ∀ l : List (Fin 6 × Fin 30 × ℝ), ∑ m, (l.filterMap fun e => if e.1 = r ∧ e.2.1 = m then some e.2.2 else none).sum * al m = (l.filterMap fun e => if e.1 = r then some (e.2.2 * al e.2.1) else none).sum := by
      intro l
      induction l with
      | nil => simp
      | cons e l ih =>
        by_cases h : e.1 = r
        · have e1 : ∀ m, ((e :: l).filterMap fun e => if e.1 = r ∧ e.2.1 = m then some e.2.2 else none).sum = (if e.2.1 = m then e.2.2 else 0) + (l.filterMap fun e => if e.1 = r ∧ e.2.1 = m then some e.2.2 else none).sum := by
            intro m
            by_cases hm : e.2.1 = m <;> simp [List.filterMap_cons, h, hm]
          simp only [e1, add_mul, Finset.sum_add_distrib, ih]
          simp [List.filterMap_cons, h]
        · simpa [List.filterMap_cons, h] using ih
    exact this _
  funext r
  rw [hB]
  fin_cases r <;> simp [modes, List.filterMap] <;> ring

/-- C123: which strains the thirty internal parameters add at a point: exactly the enriched strains, and each in one way only, so no two modes are redundant. -/
theorem C123_modes :
    (∀ a, ∃ al : Fin 30 → ℝ, ∀ x r, ∑ m, Bmode (x 0) (x 1) (x 2) r m * al m = enriched a x r) ∧ (∀ al : Fin 30 → ℝ, ∃ a, ∀ x r, ∑ m, Bmode (x 0) (x 1) (x 2) r m * al m = enriched a x r) ∧
    ∀ al : Fin 30 → ℝ, (∀ x y z r, ∑ m, Bmode x y z r m * al m = 0) → al = 0 := by
  have hrow : ∀ (al : Fin 30 → ℝ) x y z r, ∑ m, Bmode x y z r m * al m = _ := fun al x y z r => congrFun (bmode_rows al x y z) r
  refine ⟨fun a => ?_, fun al => ?_, fun al h => ?_⟩
  · refine ⟨![a 0 0, a 1 0, a 2 0, a 3 0, a 3 1, a 4 0, a 4 1, a 5 0, a 5 1, a 3 3, a 3 4, a 4 2, a 4 3, a 5 2, a 5 4, a 0 1, a 0 2, a 1 1, a 1 2, a 2 1, a 2 2, a 3 2, a 4 4, a 5 3, a 0 3, a 1 3, a 2 3, a 3 5, a 4 5, a 5 5], fun x r => ?_⟩
    rw [hrow]
    fin_cases r
    · show x 0 * a 0 0 + x 0 * x 1 * a 0 1 + x 0 * x 2 * a 0 2 + x 0 * x 1 * x 2 * a 0 3 = a 0 0 * x 0 + a 0 1 * (x 0 * x 1) + a 0 2 * (x 0 * x 2) + a 0 3 * (x 0 * x 1 * x 2); ring
    · show x 1 * a 1 0 + x 0 * x 1 * a 1 1 + x 1 * x 2 * a 1 2 + x 0 * x 1 * x 2 * a 1 3 = a 1 0 * x 1 + a 1 1 * (x 0 * x 1) + a 1 2 * (x 1 * x 2) + a 1 3 * (x 0 * x 1 * x 2); ring
    · show x 2 * a 2 0 + x 0 * x 2 * a 2 1 + x 1 * x 2 * a 2 2 + x 0 * x 1 * x 2 * a 2 3 = a 2 0 * x 2 + a 2 1 * (x 0 * x 2) + a 2 2 * (x 1 * x 2) + a 2 3 * (x 0 * x 1 * x 2); ring
    · show x 0 * a 3 0 + x 1 * a 3 1 + x 0 * x 2 * a 3 3 + x 1 * x 2 * a 3 4 + x 0 * x 1 * a 3 2 + x 0 * x 1 * x 2 * a 3 5 = a 3 0 * x 0 + a 3 1 * x 1 + a 3 2 * (x 0 * x 1) + a 3 3 * (x 0 * x 2) + a 3 4 * (x 1 * x 2) + a 3 5 * (x 0 * x 1 * x 2); ring
    · show x 1 * a 4 0 + x 2 * a 4 1 + x 0 * x 1 * a 4 2 + x 0 * x 2 * a 4 3 + x 1 * x 2 * a 4 4 + x 0 * x 1 * x 2 * a 4 5 = a 4 0 * x 1 + a 4 1 * x 2 + a 4 2 * (x 0 * x 1) + a 4 3 * (x 0 * x 2) + a 4 4 * (x 1 * x 2) + a 4 5 * (x 0 * x 1 * x 2); ring
    · show x 0 * a 5 0 + x 2 * a 5 1 + x 0 * x 1 * a 5 2 + x 1 * x 2 * a 5 4 + x 0 * x 2 * a 5 3 + x 0 * x 1 * x 2 * a 5 5 = a 5 0 * x 0 + a 5 1 * x 2 + a 5 2 * (x 0 * x 1) + a 5 3 * (x 0 * x 2) + a 5 4 * (x 1 * x 2) + a 5 5 * (x 0 * x 1 * x 2); ring
  · refine ⟨![![al 0, al 15, al 16, al 24, 0, 0], ![al 1, al 17, al 18, al 25, 0, 0], ![al 2, al 19, al 20, al 26, 0, 0], ![al 3, al 4, al 21, al 9, al 10, al 27], ![al 5, al 6, al 11, al 12, al 22, al 28], ![al 7, al 8, al 13, al 23, al 14, al 29]], fun x r => ?_⟩
    rw [hrow]
    fin_cases r
    · show _ = al 0 * x 0 + al 15 * (x 0 * x 1) + al 16 * (x 0 * x 2) + al 24 * (x 0 * x 1 * x 2); simp; ring
    · show _ = al 1 * x 1 + al 17 * (x 0 * x 1) + al 18 * (x 1 * x 2) + al 25 * (x 0 * x 1 * x 2); simp; ring
    · show _ = al 2 * x 2 + al 19 * (x 0 * x 2) + al 20 * (x 1 * x 2) + al 26 * (x 0 * x 1 * x 2); simp; ring
    · show _ = al 3 * x 0 + al 4 * x 1 + al 21 * (x 0 * x 1) + al 9 * (x 0 * x 2) + al 10 * (x 1 * x 2) + al 27 * (x 0 * x 1 * x 2); simp; ring
    · show _ = al 5 * x 1 + al 6 * x 2 + al 11 * (x 0 * x 1) + al 12 * (x 0 * x 2) + al 22 * (x 1 * x 2) + al 28 * (x 0 * x 1 * x 2); simp; ring
    · show _ = al 7 * x 0 + al 8 * x 2 + al 13 * (x 0 * x 1) + al 23 * (x 0 * x 2) + al 14 * (x 1 * x 2) + al 29 * (x 0 * x 1 * x 2); simp; ring
  · have e : ∀ x y z r, _ = _ := fun x y z r => (hrow al x y z r).symm.trans (h x y z r)
    have poly : ∀ c1 c2 c3 c4 c5 c6 c7 : ℝ, (∀ x y z : ℝ, c1 * x + c2 * y + c3 * z + c4 * (x * y) + c5 * (x * z) + c6 * (y * z) + c7 * (x * y * z) = 0) → c1 = 0 ∧ c2 = 0 ∧ c3 = 0 ∧ c4 = 0 ∧ c5 = 0 ∧ c6 = 0 ∧ c7 = 0 := by
      intro c1 c2 c3 c4 c5 c6 c7 hp
      have p1 := hp 1 0 0
      have p2 := hp 0 1 0
      have p3 := hp 0 0 1
      have p4 := hp 1 1 0
      have p5 := hp 1 0 1
      have p6 := hp 0 1 1
      have p7 := hp 1 1 1
      norm_num at p1 p2 p3 p4 p5 p6 p7
      refine ⟨?_, ?_, ?_, ?_, ?_, ?_, ?_⟩ <;> linarith
    have r0 := poly (al 0) 0 0 (al 15) (al 16) 0 (al 24) fun x y z => by have := e x y z 0; simp at this; linarith
    have r1 := poly 0 (al 1) 0 (al 17) 0 (al 18) (al 25) fun x y z => by have := e x y z 1; simp at this; linarith
    have r2 := poly 0 0 (al 2) 0 (al 19) (al 20) (al 26) fun x y z => by have := e x y z 2; simp at this; linarith
    have r3 := poly (al 3) (al 4) 0 (al 21) (al 9) (al 10) (al 27) fun x y z => by have := e x y z 3; simp at this; linarith
    have r4 := poly 0 (al 5) (al 6) (al 11) (al 12) (al 22) (al 28) fun x y z => by have := e x y z 4; simp at this; linarith
    have r5 := poly (al 7) 0 (al 8) (al 13) (al 23) (al 14) (al 29) fun x y z => by have := e x y z 5; simp at this; linarith
    funext m
    fin_cases m <;> simp [r0, r1, r2, r3, r4, r5]
end Verif.Solid
