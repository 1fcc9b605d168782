import Verif.Props.Beam
import Verif.Props.ShellLoads
/-
  C118: positivity, rigid motions, bending operators and sensitivity of the beam.  C119: derivative of the tangent along the solution sensitivity.
-/
namespace Verif.Beam
open Verif.GeomElem Verif.StructLoads
open Verif.Shell hiding opRes opJac jacVk vkStrain localRes localJac internalRes internalJac internalSens shearRes shearJac dwx rigid Affine Elem density energy stressMat Thermal

/-! ### Specification -/
section Spec
variable {n : Nat} {X : Type}

/-- Shape functions of a line element at a point reproduce affine functions of the nodal coordinate. -/
structure Line (x dx : Fin n → ℝ) : Prop where
  c : ∑ i, dx i = 0
  x : ∑ i, dx i * x i = 1

/-- Infinitesimal rigid motion of a beam along x: translation `c`, rotations `ω`. -/
def rigid (x : Fin n → ℝ) (c ω : Fin 3 → ℝ) : Dof n → ℝ := fun a => match a with
  | (false, 0, _) => c 0
  | (false, 1, i) => c 1 + ω 2 * x i
  | (false, 2, i) => c 2 - ω 1 * x i
  | (true, k, _) => ω k

/-- Every point has the Timoshenko operators at unit offset. -/
def IsTimoshenko (e : Elem n X) : Prop := ∀ p ∈ e.pts, p.1.bv = timoshenkoV 1 p.1.dx ∧ p.1.bw = timoshenkoW 1 p.1.dx

/-- Section of nonnegative energy. -/
def Sec.Pos (S : Sec) (bend : Bool) : Prop := ∀ e t a b, 0 ≤ density S bend e t a b

/-- Cubic, its slope and second derivative at `s`. -/
def cubic (c : Fin 4 → ℝ) (s : ℝ) : ℝ := c 0 + c 1 * s + c 2 * s ^ 2 + c 3 * s ^ 3
def cubic' (c : Fin 4 → ℝ) (s : ℝ) : ℝ := c 1 + 2 * c 2 * s + 3 * c 3 * s ^ 2
def cubic'' (c : Fin 4 → ℝ) (s : ℝ) : ℝ := 2 * c 2 + 6 * c 3 * s

/-- Nodal values on a two-node beam `[0, L]` of the deflections `p` in y and `r` in z, with `theta_z = p'`, `theta_y = -r'`. -/
def deflect (L : ℝ) (p r : Fin 4 → ℝ) : Dof 2 → ℝ := fun a =>
  let s := if a.2.2 = 0 then 0 else L
  if (a.1, a.2.1) = V then cubic p s else if (a.1, a.2.1) = TZ then cubic' p s
  else if (a.1, a.2.1) = W then cubic r s else if (a.1, a.2.1) = TY then -cubic' r s else 0
end Spec

variable {n : Nat} {X : Type}

/-! ### An element -/

/-- Two-node Timoshenko beam of unit length with one point. -/
noncomputable def barQp : Bqp 2 Unit := ⟨(), 1, ![-1, 1], timoshenkoV 1 ![-1, 1], timoshenkoW 1 ![-1, 1]⟩
noncomputable def barShear : Shqp 2 Unit := ⟨(), 1, ![1 / 2, 1 / 2], ![-1, 1]⟩
def secOne : Sec := ⟨![![1, 0], ![0, 1]], fun _ _ => 0, ![![1, 0], ![0, 1]]⟩
noncomputable def bar (g : ℝ) : Elem 2 Unit := ⟨[(barQp, secOne)], [(barShear, ![![1, 0], ![0, g]])]⟩

example : secOne.Uncoupled ∧ secOne.SymmD ∧ secOne.Pos true := by
  refine ⟨⟨rfl, rfl⟩, rfl, fun e t a b => ?_⟩
  simp only [density, secOne, if_true]
  simp
  positivity

/-- C118 fails for a Timoshenko beam whose two transverse shear stiffnesses differ: both planes use the first. -/
theorem C118_energy_fails : (∀ p ∈ (bar 2).pts, p.2.Uncoupled ∧ p.2.SymmD) ∧
    ¬ HasDerivAt (fun t : ℝ => energy false true (bar 2) fun b => unitDof (false, 2, 1) b + t * unitDof (false, 2, 1) b)
      (work (internalRes none false true (bar 2) (unitDof (false, 2, 1))) (unitDof (false, 2, 1))) 0 := by
  refine ⟨?_, fun h => ?_⟩
  · intro p hp
    simp only [bar, List.mem_singleton] at hp
    subst hp
    exact ⟨⟨rfl, rfl⟩, rfl⟩
  set u : Dof 2 → ℝ := unitDof (false, 2, 1) with hu
  have e1 : ∀ v : Var6, v = (false, 0) ∨ v.1 = true → slope v barQp u = 0 := by
    rintro ⟨b, k⟩ hv
    simp only [slope, hu, unitDof]
    rcases hv with hv | hv
    · cases hv; simp
    · simp only at hv; subst hv; simp
  have e2 : kv barQp u = 0 := by simp [kv_unit, hu, barQp, timoshenkoV, shape]
  have e3 : kw barQp u = 0 := by simp [kw_unit, hu, barQp, timoshenkoW, shape]
  have e4 : gamV barShear u = 0 := by simp [gamV, hu, unitDof]
  have e5 : gamW barShear u = 1 := by simp [gamW, hu, unitDof, Fin.sum_univ_two, barShear]
  have h1 : HasDerivAt (fun t : ℝ => energy false true (bar 2) fun b => u b + t * u b) 2 0 := by
    have hq : (fun t : ℝ => energy false true (bar 2) fun b => u b + t * u b) = fun t => 1 + t * 2 + t ^ 2 * 1 := by
      funext t
      have g1 : ∀ v : Var6, slope v barQp (fun b => u b + t * u b) = (1 + t) * slope v barQp u := fun v => by rw [slope_add]; ring
      have g2 : gamW barShear (fun b => u b + t * u b) = 1 + t := by
        have : ∀ b, u b + t * u b = (1 + t) * u b := fun b => by ring
        simp only [this, gamW, hu, unitDof, Fin.sum_univ_two, barShear]; simp
      have g3 : gamV barShear (fun b => u b + t * u b) = 0 := by simp [gamV, hu, unitDof]
      simp only [energy, bar, List.map_cons, List.map_nil, List.sum_cons, List.sum_nil, stretch, density, g1, kv_add, kw_add, e1 U (Or.inl rfl), e1 TX (Or.inr rfl), e2, e3, g2, g3]
      simp [barShear, barQp]
      ring
    rw [hq]; exact hasDeriv_quad _ _ _
  have h2 := h.unique h1
  simp only [work, internalRes, globalRes, vecToGlobal, vecToLocal] at h2
  rw [hu, sum_unit, ← hu] at h2
  simp only [localRes, bar, List.map_cons, List.map_nil, List.sum_cons, List.sum_nil, if_true, shearRes_eq, opRes_eq, axial_eq, e2, e3, e4, e5, stretch, dStretch, e1 U (Or.inl rfl), e1 TX (Or.inr rfl)] at h2
  rw [← hu] at h2
  simp only [e4, e5, e1 U (Or.inl rfl)] at h2
  simp [barShear] at h2

/-! ### Symmetry and positivity -/

theorem opJac_symm (nl bend : Bool) (S : Sec) (q : Bqp n X) (u : Dof n → ℝ) (hA : S.A 1 0 = S.A 0 1) (hD : S.SymmD) (a b : Dof n) : opJac nl bend S q u a b = opJac nl bend S q u b a := by
  unfold opJac jacVk
  rw [Sec.SymmD] at hD
  generalize axial true true S q u = N
  simp only [gram, sandwich, Fin.sum_univ_two, hA, hD]
  cases nl <;> cases bend <;> simp only [if_true, Bool.false_eq_true, if_false] <;> ring

/-- C118: the tangent is symmetric for a section with symmetric matrices, if the caller's matrix is. -/
theorem C118_symmetric (T : Option (Fin 3 → Fin 3 → ℝ)) (nl bend : Bool) (e : Elem n X) (h : ∀ p ∈ e.pts, p.2.A 1 0 = p.2.A 0 1 ∧ p.2.SymmD) (u : Dof n → ℝ) (J0 : Dof n → Dof n → ℝ)
    (h0 : ∀ a b, J0 a b = J0 b a) (a b : Dof n) : internalJac T nl bend e u J0 a b = internalJac T nl bend e u J0 b a := by
  have hl : ∀ v (c d : Dof n), localJac nl bend e v c d = localJac nl bend e v d c := by
    intro v c d
    unfold localJac
    rw [list_congr e.pts _ (fun p => opJac nl bend p.2 p.1 v d c) fun p hp => opJac_symm nl bend p.2 p.1 v (h p hp).1 (h p hp).2 c d]
    congr 1
    cases bend
    · rfl
    · simp only [if_true]
      refine list_congr e.shear _ _ fun p _ => ?_
      have h1 : ∀ a, shearV p.1.phi p.1.dx 1 a = 0 := fun _ => rfl
      have h2 : ∀ a, shearW p.1.phi p.1.dx 1 a = 0 := fun _ => rfl
      simp only [shearJac, sandwich, Fin.sum_univ_two, h1, h2]; ring
  have hg := (C111_quadratic T (localJac nl bend e (vecToLocal T u))).2.1 (hl _)
  cases bend
  · simp only [internalJac, Bool.false_eq_true, if_false, regularize]
    by_cases hab : a = b
    · subst hab; rfl
    · rw [if_neg (fun hc => hab hc.1), if_neg (fun hc => hab hc.1.symm), h0 a b, hg a b]
  · simp only [internalJac, if_true]; rw [h0 a b, hg a b]

theorem local_energy (bend : Bool) (e : Elem n X) (h : ∀ p ∈ e.pts, p.2.Uncoupled ∧ p.2.SymmD) (v z : Dof n → ℝ) :
    ∑ a, z a * ∑ b, localJac false bend e v a b * z b = (e.pts.map fun p => p.1.JxW * (2 * density p.2 bend (slope U p.1 z) (slope TX p.1 z) (kv p.1 z) (kw p.1 z))).sum
      + if bend then (e.shear.map fun p => p.1.JxW * p.2 0 0 * (gamV p.1 z ^ 2 + gamW p.1 z ^ 2)).sum else 0 := by
  have hop : ∀ p ∈ e.pts, ∀ a, ∑ b, opJac false bend p.2 p.1 v a b * z b = opRes false bend p.2 p.1 z a := by
    intro p hp a
    rw [opJac_apply _ _ _ _ _ _ _ (h p hp).1.1, opRes_eq, axial_eq, (h p hp).1.1]
    cases bend <;> simp [dStretch, ddStretch, stretch, axial_eq, (h p hp).1.1]
  have hl : ∀ a, ∑ b, localJac false bend e v a b * z b = localRes false bend e z a := by
    intro a
    unfold localJac localRes
    simp only [add_mul, Finset.sum_add_distrib, list_sum_apply]
    rw [list_congr e.pts _ _ fun p hp => hop p hp a]
    congr 1
    cases bend
    · simp
    · simp only [if_true, list_sum_apply, shearJac_eq]
  simp only [hl]
  have hc : ∀ a, z a * localRes false bend e z a = localRes false bend e z a * z a := fun a => mul_comm _ _
  simp only [hc]
  unfold localRes
  simp only [add_mul, Finset.sum_add_distrib, list_sum_apply]
  congr 1
  · refine list_congr e.pts _ _ fun p hp => ?_
    beta_reduce
    obtain ⟨⟨hA, hA'⟩, hD⟩ := h p hp
    rw [Sec.SymmD] at hD
    rw [opRes_work, axial_eq, hA, hA', hD]
    cases bend <;> simp [density, dStretch, stretch] <;> first | ring1 | (left; ring1)
  · cases bend
    · simp
    · simp only [if_true, list_sum_apply]
      refine list_congr e.shear _ _ fun p _ => ?_
      beta_reduce
      rw [shearRes_work]; ring

theorem list_nonneg {α : Type} (l : List α) (f : α → ℝ) (h : ∀ p ∈ l, 0 ≤ f p) : 0 ≤ (l.map f).sum := List.sum_nonneg fun x hx => by
  obtain ⟨p, hp, rfl⟩ := List.mem_map.mp hx; exact h p hp

/-- C118: with linear strain the element's stiffness is symmetric positive semi-definite, for a section of nonnegative energy; the regularisation of a truss keeps this. -/
theorem C118_psd (T : Option (Fin 3 → Fin 3 → ℝ)) (bend : Bool) (e : Elem n X) (h : ∀ p ∈ e.pts, 0 ≤ p.1.JxW ∧ p.2.Uncoupled ∧ p.2.SymmD ∧ p.2.Pos bend) (hG : ∀ p ∈ e.shear, 0 ≤ p.1.JxW ∧ 0 ≤ p.2 0 0)
    (u : Dof n → ℝ) : Psd (internalJac T false bend e u fun _ _ => 0) := by
  have hs := C118_symmetric T false bend e (fun p hp => ⟨by rw [(h p hp).2.1.1, (h p hp).2.1.2], (h p hp).2.2.1⟩) u (fun _ _ => 0) (fun _ _ => rfl)
  refine ⟨hs, fun w => ?_⟩
  have hq : ∀ w : Dof n → ℝ, 0 ≤ ∑ a, w a * ∑ b, matToGlobal T (localJac false bend e (vecToLocal T u)) a b * w b := by
    intro w
    rw [(C111_quadratic T (localJac false bend e (vecToLocal T u))).1 w]
    rw [local_energy bend e (fun p hp => ⟨(h p hp).2.1, (h p hp).2.2.1⟩)]
    refine add_nonneg (list_nonneg _ _ fun p hp => mul_nonneg (h p hp).1 (mul_nonneg (by norm_num) ((h p hp).2.2.2 _ _ _ _))) ?_
    cases bend
    · simp
    · simp only [if_true]
      exact list_nonneg _ _ fun p hp => mul_nonneg (mul_nonneg (hG p hp).1 (hG p hp).2) (by positivity)
  cases bend
  · simp only [internalJac, Bool.false_eq_true, if_false]
    simp only [zero_add]
    set K := matToGlobal T (localJac false false e (vecToLocal T u)) with hK
    have hd : ∀ c, 0 ≤ K c c := by
      intro c
      have h1 := hq (unitDof c)
      have h2 : ∑ a, unitDof c a * ∑ b, K a b * unitDof c b = K c c := by
        simp only [sum_unit]
        rw [Finset.sum_congr rfl fun a _ => mul_comm (unitDof c a) (K a c)]
        exact sum_unit (fun a => K a c) c
      rwa [h2] at h1
    have hm : 0 ≤ diagMax K := by
      unfold diagMax
      cases hx : (Finset.univ.image fun a => K a a).max with
      | bot => simp
      | coe m =>
        obtain ⟨c, _, hc⟩ := Finset.mem_image.mp (Finset.mem_of_max hx)
        simpa [← hc] using hd c
    have hr : ∀ a, ∑ b, regularize K a b * w b = (∑ b, K a b * w b) + (if |K a a| < eps then eps * diagMax K else 0) * w a := by
      intro a
      have : ∀ b, regularize K a b * w b = K a b * w b + if b = a then (if |K a a| < eps then eps * diagMax K else 0) * w a else 0 := by
        intro b
        unfold regularize
        by_cases hba : b = a
        · subst hba
          by_cases hc : |K b b| < eps
          · rw [if_pos ⟨rfl, hc⟩, if_pos rfl, if_pos hc]; ring
          · rw [if_neg (fun k => hc k.2), if_pos rfl, if_neg hc]; ring
        · rw [if_neg (fun k => hba k.1.symm), if_neg hba]; ring
      simp only [this, Finset.sum_add_distrib, Finset.sum_ite_eq', Finset.mem_univ, if_true]
    show 0 ≤ ∑ a, w a * ∑ b, regularize K a b * w b
    simp only [hr, mul_add, Finset.sum_add_distrib]
    refine add_nonneg (hq w) (Finset.sum_nonneg fun a _ => ?_)
    have : 0 ≤ (if |K a a| < eps then eps * diagMax K else 0) := by
      split_ifs
      · exact mul_nonneg (by unfold eps; positivity) hm
      · exact le_refl _
    nlinarith [mul_nonneg this (mul_self_nonneg (w a))]
  · simpa [internalJac] using hq w

/-! ### Rigid motions and the bending operators -/

/-- C118: a Timoshenko beam with linear strain resists no rigid motion. -/
theorem C118_rigid (x : Fin n → ℝ) (e : Elem n X) (ht : IsTimoshenko e) (h : ∀ p ∈ e.pts, Line x p.1.dx) (hs : ∀ p ∈ e.shear, Line x p.1.dx ∧ ∑ i, p.1.phi i = 1) (c ω : Fin 3 → ℝ) (bend : Bool) (a : Dof n) :
    localRes false bend e (rigid x c ω) a = 0 := by
  have hconst : ∀ (d : Fin n → ℝ) (k : ℝ), ∑ i, d i * k = (∑ i, d i) * k := fun d k => by rw [Finset.sum_mul]
  unfold localRes
  have h1 : ∀ p ∈ e.pts, opRes false bend p.2 p.1 (rigid x c ω) a = 0 := by
    intro p hp
    have k1 : slope U p.1 (rigid x c ω) = 0 := by simp [slope, rigid, hconst, (h p hp).c]
    have k2 : slope TX p.1 (rigid x c ω) = 0 := by simp [slope, rigid, hconst, (h p hp).c]
    have k3 : kv p.1 (rigid x c ω) = 0 := by
      simp only [kv, (ht p hp).1, timoshenkoV, sum_shape]
      simp [rigid, hconst, (h p hp).c]
    have k4 : kw p.1 (rigid x c ω) = 0 := by
      simp only [kw, (ht p hp).2, timoshenkoW, sum_shape]
      simp [rigid, hconst, (h p hp).c]
    rw [opRes_eq, axial_eq]
    cases bend <;> simp [stretch, k1, k2, k3, k4]
  have h2 : ∀ p ∈ e.shear, shearRes p.2 p.1 (rigid x c ω) a = 0 := by
    intro p hp
    obtain ⟨hl, hphi⟩ := hs p hp
    have k1 : gamV p.1 (rigid x c ω) = 0 := by
      simp only [gamV, rigid, Finset.sum_sub_distrib, mul_add, Finset.sum_add_distrib]
      have : ∑ i, p.1.dx i * (ω 2 * x i) = ω 2 := by rw [show ∑ i, p.1.dx i * (ω 2 * x i) = ω 2 * ∑ i, p.1.dx i * x i by rw [Finset.mul_sum]; exact Finset.sum_congr rfl fun i _ => by ring]; rw [hl.x, mul_one]
      rw [this, hconst, hconst, hl.c, hphi]; ring
    have k2 : gamW p.1 (rigid x c ω) = 0 := by
      simp only [gamW, rigid, mul_sub, Finset.sum_add_distrib, Finset.sum_sub_distrib]
      have : ∑ i, p.1.dx i * (ω 1 * x i) = ω 1 := by rw [show ∑ i, p.1.dx i * (ω 1 * x i) = ω 1 * ∑ i, p.1.dx i * x i by rw [Finset.mul_sum]; exact Finset.sum_congr rfl fun i _ => by ring]; rw [hl.x, mul_one]
      rw [this, hconst, hconst, hl.c, hphi]; ring
    rw [shearRes_eq, k1, k2]; ring
  rw [list_congr e.pts _ (fun _ => 0) h1, list_congr e.shear _ (fun _ => 0) h2]
  simp

example (g : ℝ) : IsTimoshenko (bar g) ∧ (∀ p ∈ (bar g).pts, Line ![0, 1] p.1.dx) ∧ ∀ p ∈ (bar g).shear, Line ![0, 1] p.1.dx ∧ ∑ i, p.1.phi i = 1 := by
  refine ⟨?_, ?_, ?_⟩ <;> intro p hp <;> simp only [bar, List.mem_singleton] at hp <;> subst hp
  · exact ⟨rfl, rfl⟩
  · constructor <;> simp [barQp, Fin.sum_univ_two]
  · refine ⟨?_, ?_⟩
    · constructor <;> simp [barShear, Fin.sum_univ_two]
    · simp [barShear, Fin.sum_univ_two]; norm_num

/-- C118: at the reference coordinate `xi` the Bernoulli operators give, for cubic deflections in both planes, the axial strains `-y p''` and `-z r''` exactly. -/
theorem C118_bernoulli (L xi y z : ℝ) (hL : L ≠ 0) (p r : Fin 4 → ℝ) :
    ∑ a, bernoulliV L xi y a * deflect L p r a = -y * cubic'' p (L * (1 + xi) / 2) ∧ ∑ a, bernoulliW L xi z a * deflect L p r a = -z * cubic'' r (L * (1 + xi) / 2) := by
  unfold bernoulliV bernoulliW
  simp only [add_mul, Finset.sum_add_distrib, sum_shape, Fin.sum_univ_two]
  constructor
  · simp [deflect, cubic, cubic', cubic'']
    field_simp
    ring
  · simp [deflect, cubic, cubic', cubic'']
    field_simp
    ring

/-- C118: for nodal rotations equal to the slopes of parabolic deflections in both planes (`thz = v'`, `thy = -w'`) the Timoshenko operators give the axial strains `-y v''` and `-z w''`. -/
theorem C118_timoshenko (x dx : Fin n → ℝ) (h : Line x dx) (y z : ℝ) (p r : Fin 4 → ℝ) (hp : p 3 = 0) (hr : r 3 = 0) (u : Dof n → ℝ) (huz : ∀ i, u (true, 2, i) = cubic' p (x i)) (huy : ∀ i, u (true, 1, i) = -cubic' r (x i)) (s : ℝ) :
    ∑ a, timoshenkoV y dx a * u a = -y * cubic'' p s ∧ ∑ a, timoshenkoW z dx a * u a = -z * cubic'' r s := by
  have hlin : ∀ a b k : ℝ, ∑ i, dx i * k * (a + b * x i) = k * b := by
    intro a b k
    have : ∀ i, dx i * k * (a + b * x i) = k * a * dx i + k * b * (dx i * x i) := fun i => by ring
    simp only [this, Finset.sum_add_distrib, ← Finset.mul_sum, h.c, h.x]
    ring
  unfold timoshenkoV timoshenkoW
  simp only [sum_shape, huz, huy]
  simp only [cubic', cubic'', hp, hr, mul_zero, zero_mul, add_zero]
  constructor
  · have := hlin (p 1) (2 * p 2) (-y)
    linarith
  · have h2 := hlin (-(r 1)) (-(2 * r 2)) z
    have : ∀ i, dx i * z * -(r 1 + 2 * r 2 * x i) = dx i * z * (-(r 1) + -(2 * r 2) * x i) := fun i => by ring
    simp only [this]
    linarith

/-- A beam bent to a parabola in the first plane. -/
example : Line ![0, 1] ![-1, 1] ∧ (![0, 1, 1, 0] : Fin 4 → ℝ) 3 = 0 ∧ cubic'' (![0, 1, 1, 0]) 5 = 2 := by
  refine ⟨?_, rfl, by simp [cubic'']⟩
  constructor <;> simp [Fin.sum_univ_two]

/-- The derivatives in the specification. -/
example (c : Fin 4 → ℝ) (s : ℝ) : HasDerivAt (cubic c) (cubic' c s) s ∧ HasDerivAt (cubic' c) (cubic'' c s) s := by
  constructor
  · unfold cubic cubic'
    refine HasDerivAt.congr_deriv ((((hasDerivAt_const s (c 0)).fun_add ((hasDerivAt_id' s).const_mul (c 1))).fun_add (((hasDerivAt_id' s).fun_pow 2).const_mul (c 2))).fun_add (((hasDerivAt_id' s).fun_pow 3).const_mul (c 3))) ?_
    simp; ring
  · unfold cubic' cubic''
    refine HasDerivAt.congr_deriv (((hasDerivAt_const s (c 1)).fun_add ((hasDerivAt_id' s).const_mul (2 * c 2))).fun_add (((hasDerivAt_id' s).fun_pow 2).const_mul (3 * c 3))) ?_
    simp; ring

/-- C118: the sensitivity of the internal force is its derivative with respect to a parameter of the section stiffness matrices. -/
theorem C118_sensitivity (T : Option (Fin 3 → Fin 3 → ℝ)) (nl bend : Bool) (qs : List (Bqp n X)) (ss : List (Shqp n X)) (S : ℝ → Bqp n X → Sec) (G : ℝ → Shqp n X → Fin 2 → Fin 2 → ℝ)
    (dS : Bqp n X → Sec) (dG : Shqp n X → Fin 2 → Fin 2 → ℝ) (t0 : ℝ)
    (hA : ∀ q ∈ qs, ∀ r s, HasDerivAt (fun t => (S t q).A r s) ((dS q).A r s) t0) (hB : ∀ q ∈ qs, ∀ r s, HasDerivAt (fun t => (S t q).B r s) ((dS q).B r s) t0)
    (hD : ∀ q ∈ qs, ∀ r s, HasDerivAt (fun t => (S t q).D r s) ((dS q).D r s) t0) (hG : ∀ q ∈ ss, ∀ r s, HasDerivAt (fun t => G t q r s) (dG q r s) t0) (u : Dof n → ℝ) (a : Dof n) :
    HasDerivAt (fun t => internalRes T nl bend ⟨qs.map fun q => (q, S t q), ss.map fun q => (q, G t q)⟩ u a)
      (internalSens T nl bend ⟨qs.map fun q => (q, S t0 q), ss.map fun q => (q, G t0 q)⟩ dS dG u a) t0 := by
  unfold internalSens internalRes globalRes
  refine hasDerivAt_global T _ _ t0 (fun b => ?_) a
  generalize vecToLocal T u = v
  unfold localRes
  simp only [List.map_map, Function.comp_def]
  have h1 := hasDerivAt_list qs (fun t q => opRes nl bend (S t q) q v b) (fun q => opRes nl bend (dS q) q v b) t0 fun q hq => by
    simp only [opRes_eq, axial_eq]
    have hA := hA q hq; have hB := hB q hq; have hD := hD q hq
    have hx : HasDerivAt (fun t => (S t q).A 0 0 * stretch nl bend q v + (S t q).A 0 1 * slope TX q v) ((dS q).A 0 0 * stretch nl bend q v + (dS q).A 0 1 * slope TX q v) t0 := ((hA 0 0).mul_const _).fun_add ((hA 0 1).mul_const _)
    have ht := (((hA 1 0).mul_const (slope U q v)).fun_add ((hA 1 1).mul_const (slope TX q v))).mul_const (slope TX q (unitDof b))
    cases bend
    · simp only [Bool.false_eq_true, if_false, add_zero]
      exact HasDerivAt.const_mul _ ((hx.mul_const _).fun_add ht)
    · simp only [if_true]
      refine HasDerivAt.const_mul _ ((((hx.fun_add (((hB 0 0).mul_const _).fun_add ((hB 0 1).mul_const _))).mul_const _).fun_add ht).fun_add ?_)
      exact (((((hB 0 0).mul_const _).fun_add ((hD 0 0).mul_const _)).fun_add ((hD 0 1).mul_const _)).mul_const _).fun_add (((((hB 0 1).mul_const _).fun_add ((hD 1 0).mul_const _)).fun_add ((hD 1 1).mul_const _)).mul_const _)
  have h2 := hasDerivAt_list ss (fun t q => shearRes (G t q) q v b) (fun q => shearRes (dG q) q v b) t0 fun q hq => by
    simp only [shearRes_eq]
    exact ((hG q hq 0 0).const_mul q.JxW).mul_const _
  cases bend
  · simpa using h1
  · simpa using h1.fun_add h2

/-! ### C119 -/

theorem axialDot_deriv (S : Sec) (q : Bqp n X) (u w : Dof n → ℝ) : HasDerivAt (fun t : ℝ => axial true true S q (fun b => u b + t * w b)) (axialDot S q u w) 0 := by
  refine HasDerivAt.congr_deriv (axial_deriv true true S q u w) ?_
  simp only [axialDot, mv, Fin.sum_univ_two, app_mem0, app_mem1, app_bv0, app_bw0, dvx_eq, dwx_eq, dStretch]
  simp; ring

/-- The tangent along a line of states. -/
theorem jacVk_deriv (S : Sec) (q : Bqp n X) (u w : Dof n → ℝ) (a b : Dof n) : HasDerivAt (fun t : ℝ => jacVk S q (fun b => u b + t * w b) a b)
    (jacDot S q u w a b + q.JxW * slope V q w * (S.B 0 0 - S.B 0 1) * gram (Bvv q) (Bbv q) a b) 0 := by
  unfold jacVk jacDot
  have hN := axialDot_deriv S q u w
  have hv : HasDerivAt (fun t : ℝ => dvx q (fun b => u b + t * w b)) (dvx q w) 0 := slope_deriv V q u w
  have hw : HasDerivAt (fun t : ℝ => dwx q (fun b => u b + t * w b)) (dwx q w) 0 := slope_deriv W q u w
  generalize axialDot S q u w = N' at hN ⊢
  have l := fun (f : ℝ → ℝ) (f' : ℝ) (hf : HasDerivAt f f' 0) (c g : ℝ) => ((hf.const_mul q.JxW).mul_const c).mul_const g
  have m := fun (f1 f2 : ℝ → ℝ) (f1' f2' : ℝ) (h1 : HasDerivAt f1 f1' 0) (h2 : HasDerivAt f2 f2' 0) (c g : ℝ) => (((h1.const_mul q.JxW).fun_mul h2).mul_const c).mul_const g
  have k := fun (f : ℝ → ℝ) (f' : ℝ) (hf : HasDerivAt f f' 0) (g : ℝ) => (hf.const_mul q.JxW).mul_const g
  refine HasDerivAt.congr_deriv (((((((((((((((((((l _ _ hv _ _).fun_add (l _ _ hw _ _)).fun_add (l _ _ hv _ _)).fun_add (l _ _ hw _ _)).fun_add (k _ _ hN _)).fun_add (m _ _ _ _ hv hv _ _)).fun_add
    (k _ _ hN _)).fun_add (m _ _ _ _ hw hw _ _)).fun_add (m _ _ _ _ hv hw _ _)).fun_add (m _ _ _ _ hw hv _ _)).fun_add (l _ _ hv _ _)).fun_add (l _ _ hv _ _)).fun_add (l _ _ hw _ _)).fun_add
    (l _ _ hw _ _)).fun_add (l _ _ hv _ _)).fun_add (l _ _ hw _ _)).fun_add (l _ _ hv _ _)).fun_add (l _ _ hw _ _))) ?_
  simp only [zero_line, dvx_eq, dwx_eq]
  ring

/-- C119, partial: the reported matrix is the derivative of the tangent with bending along the solution sensitivity if the extension-bending stiffnesses of the two planes are equal (both zero without offsets). -/
theorem C119_jac_dot_partial (T : Option (Fin 3 → Fin 3 → ℝ)) (nl : Bool) (e : Elem n X) (h : ∀ p ∈ e.pts, p.2.B 0 0 = p.2.B 0 1) (u w : Dof n → ℝ) (J0 : Dof n → Dof n → ℝ) (a b : Dof n) :
    HasDerivAt (fun t : ℝ => internalJac T nl true e (fun c => u c + t * w c) J0 a b) (jacDotGlobal T nl e u w a b) 0 := by
  simp only [internalJac, if_true, local_lin, jacDotGlobal]
  refine HasDerivAt.const_add _ ?_
  generalize vecToLocal T u = v
  generalize vecToLocal T w = z
  have hl : ∀ c d, HasDerivAt (fun t : ℝ => localJac nl true e (fun b => v b + t * z b) c d) (if nl then (e.pts.map fun p => jacDot p.2 p.1 v z c d).sum else 0) 0 := by
    intro c d
    unfold localJac
    simp only [if_true]
    have hp : ∀ p ∈ e.pts, HasDerivAt (fun t : ℝ => opJac nl true p.2 p.1 (fun b => v b + t * z b) c d) (if nl then jacDot p.2 p.1 v z c d else 0) 0 := by
      intro p hp
      unfold opJac
      simp only [if_true]
      cases nl
      · simpa using hasDerivAt_const (0 : ℝ) _
      · simp only [if_true]
        have hv := jacVk_deriv p.2 p.1 v z c d
        rw [h p hp] at hv
        simp only [sub_self, mul_zero, zero_mul, add_zero] at hv
        exact HasDerivAt.const_add _ (((((((((hv.add_const _).add_const _).add_const _).add_const _).add_const _).add_const _).add_const _).add_const _))
    have := (hasDerivAt_list e.pts (fun t p => opJac nl true p.2 p.1 (fun b => v b + t * z b) c d) (fun p => if nl then jacDot p.2 p.1 v z c d else 0) 0 hp).add_const (e.shear.map fun p => shearJac p.2 p.1 c d).sum
    cases nl <;> simpa using this
  cases nl
  · simp only [Bool.false_eq_true, if_false] at hl ⊢
    cases T with
    | none => exact hl a b
    | some M =>
      simp only [matToGlobal]
      refine HasDerivAt.congr_deriv (HasDerivAt.fun_sum fun d _ => HasDerivAt.mul_const (HasDerivAt.fun_sum fun c _ => HasDerivAt.const_mul _ (hl c d)) _) ?_
      simp
  · simp only [if_true] at hl ⊢
    cases T with
    | none => exact hl a b
    | some M =>
      simp only [matToGlobal]
      exact HasDerivAt.fun_sum fun d _ => HasDerivAt.mul_const (HasDerivAt.fun_sum fun c _ => HasDerivAt.const_mul _ (hl c d)) _

/-- Section with an offset in y only. -/
def secOff : Sec := ⟨![![1, 0], ![0, 1]], ![![1, 0], ![0, 0]], ![![2, 0], ![0, 1]]⟩

/-- C119 fails for a beam with an offset in one plane: one coupling term takes the stiffness of the other plane. -/
theorem C119_jac_dot_fails : ¬ HasDerivAt (fun t : ℝ => internalJac none true true ⟨[(barQp, secOff)], []⟩ (fun c => 0 + t * unitDof (false, 1, 1) c) (fun _ _ => 0) (false, 1, 1) (true, 2, 1))
    (jacDotGlobal none true (⟨[(barQp, secOff)], []⟩ : Elem 2 Unit) (fun _ => 0) (unitDof (false, 1, 1)) (false, 1, 1) (true, 2, 1)) 0 := by
  intro h
  set w : Dof 2 → ℝ := unitDof (false, 1, 1) with hw
  have hv := jacVk_deriv secOff barQp (fun _ => 0) w (false, 1, 1) (true, 2, 1)
  have h2 := HasDerivAt.const_add (barQp.JxW * sandwich (Bmem barQp) secOff.A (Bmem barQp) (false, 1, 1) (true, 2, 1)) ((((((((hv.add_const (barQp.JxW * secOff.B 0 0 * gram (Bbv barQp) (Bmem barQp) (false, 1, 1) (true, 2, 1))).add_const
    (barQp.JxW * secOff.B 0 1 * gram (Bbw barQp) (Bmem barQp) (false, 1, 1) (true, 2, 1))).add_const (barQp.JxW * secOff.B 0 0 * gram (Bmem barQp) (Bbv barQp) (false, 1, 1) (true, 2, 1))).add_const
    (barQp.JxW * secOff.B 0 1 * gram (Bmem barQp) (Bbw barQp) (false, 1, 1) (true, 2, 1))).add_const (barQp.JxW * secOff.D 0 0 * gram (Bbv barQp) (Bbv barQp) (false, 1, 1) (true, 2, 1))).add_const
    (barQp.JxW * secOff.D 1 1 * gram (Bbw barQp) (Bbw barQp) (false, 1, 1) (true, 2, 1))).add_const (barQp.JxW * secOff.D 1 0 * gram (Bbw barQp) (Bbv barQp) (false, 1, 1) (true, 2, 1))).add_const
    (barQp.JxW * secOff.D 0 1 * gram (Bbv barQp) (Bbw barQp) (false, 1, 1) (true, 2, 1)))
  have h3 := h.unique (h2.congr_of_eventuallyEq (Filter.Eventually.of_forall fun t => by simp [internalJac, localJac, opJac, matToGlobal, vecToLocal]))
  simp only [jacDotGlobal, if_true, matToGlobal, vecToLocal, List.map_cons, List.map_nil, List.sum_cons, List.sum_nil, add_zero] at h3
  have h4 : barQp.JxW * slope V barQp w * (secOff.B 0 0 - secOff.B 0 1) * gram (Bvv barQp) (Bbv barQp) (false, 1, 1) (true, 2, 1) = 0 := by linarith
  rw [hw, slope_unit] at h4
  simp [gram, Fin.sum_univ_two, Bvv, Bbv, barQp, secOff, shape, timoshenkoV] at h4

end Verif.Beam
