import Verif.Props.FluidFree
/-
  C145: slip, symmetry, linearized and no slip walls of the flow element.  C146: integrated surface force.
-/
namespace Verif.Fluid

open Finset

section Spec

/-- Normal velocity of a moving wall: `w · (n + dn)`, `n` in the dimension of the problem. -/
def wallSpeed (d : Nat) (n dw dn : Fin 3 → ℝ) : ℝ := ∑ i : Fin 3, dw i * ((if i.val < d then n i else 0) + dn i)

/-- A wall that does not move. -/
def atRest (q : SideQp) : WallQp := { toSideQp := q, dw := fun _ => 0, dn := fun _ => 0 }

/-- Wall whose motion changes at the rates `Dw`, `Dn`. -/
def wallAt (q : LinWallQp) (t : ℝ) : WallQp := { toSideQp := q.toSideQp, dw := fun i => q.dw i + t * q.Dw i, dn := fun i => q.dn i + t * q.Dn i }

/-- Traction of the fluid on a surface with normal `n`: `p n - τ n`, with the Newtonian stress of the velocity gradients `P`. -/
noncomputable def traction (d : Nat) (s : Prim) (P : Nat → Var → ℝ) (n : Fin 3 → ℝ) (k : Fin 3) : ℝ :=
  s.p * n k - ∑ i : Fin 3, if i.val < d then newton d s.mu s.lambda P k i * n i else 0

end Spec

theorem wallJac_visc (d : Nat) (g : Gas) (U : Var → ℝ) (cp cv : ℝ) (visc : Bool) (un : ℝ) (n dn : Fin 3 → ℝ) (v w : Var) :
    wallJac d g (prim d U cp cv visc) un n dn v w = wallJac d g (prim d U cp cv false) un n dn v w := by
  cases v <;> cases w <;> rfl

theorem uini_eq (c : Ctx) (U : Var → ℝ) (n dw dn : Fin 3 → ℝ) :
    uini c.d (prim c.d U c.cp c.cv c.visc) n dw dn = wallSpeed c.d n dw dn - ((prim c.d U c.cp c.cv false).u1 * dn 0 + (prim c.d U c.cp c.cv false).u2 * dn 1 + (prim c.d U c.cp c.cv false).u3 * dn 2) := by
  unfold uini wallSpeed sideNormal
  rw [Fin.sum_univ_three (fun i => uv _ i * dn i)]
  rfl

/-- C145: the flux of the slip wall is the advection flux through a wall moving with normal velocity `w · (n + dn)`. -/
theorem C145_slip_flux (c : Ctx) (hd : c.d = 1 ∨ c.d = 2 ∨ c.d = 3) (U : Var → ℝ) (n dw dn : Fin 3 → ℝ) (v : Var) :
    slipFlux c U n dw dn v = wallFlux c.d c.cp c.cv (wallSpeed c.d n dw dn) n dn U v := by
  unfold slipFlux wallFlux
  simp only [uini_eq]
  have hp : (prim c.d U c.cp c.cv c.visc).p = (prim c.d U c.cp c.cv false).p := rfl
  rw [hp]
  generalize hs : prim c.d U c.cp c.cv false = s
  generalize wallSpeed c.d n dw dn = wn
  rcases hd with h | h | h <;> rw [h] <;> cases v <;> simp [momEntry, sideNormal] <;> ring

/-- C145: the Jacobian of the slip wall residual is exact, for every wall motion. -/
theorem C145_slip_jacobian (c : Ctx) (hd : c.d = 1 ∨ c.d = 2 ∨ c.d = 3) (hv : c.cv ≠ 0) (qs : List WallQp) (sol D : Field) (hr : ∀ q ∈ qs, interp c q.phi sol .rho ≠ 0) (v : Var) (a : Nat) :
    HasDerivAt (fun t => slipRes c qs (moved sol D t) v a) (jacMul c (slipJac c qs sol v a) D) 0 := by
  unfold slipRes slipJac
  rw [jacMul_list c qs (fun q u b => q.w * (q.phi a * (wallJac c.d c.gas (stateAt c q.phi sol) (uini c.d (stateAt c q.phi sol) q.n q.dw q.dn) q.n q.dn v u * q.phi b))) D]
  refine hasDerivAt_listsum qs (fun t q => q.w * (q.phi a * slipFlux c (interp c q.phi (moved sol D t)) q.n q.dw q.dn v)) _ fun q hq => ?_
  rw [jacMul_smul, jacMul_smul, jacMul_mul]
  simp only [C145_slip_flux c hd, interp_moved]
  have h := C100_wall_jacobian c.d hd q.n q.dn (wallSpeed c.d q.n q.dw q.dn) (interp c q.phi sol) (interp c q.phi D) (interp_inDim c _ _) (interp_inDim c _ _) c.cp c.cv (hr q hq) hv v
  simp only [DerivAlong] at h
  refine HasDerivAt.congr_deriv ((h.const_mul (q.phi a)).const_mul q.w) ?_
  congr 2
  refine Finset.sum_congr rfl fun u _ => ?_
  unfold stateAt
  rw [wallJac_visc, uini_eq]; rfl

/-- C145: a slip wall at rest lets no mass and no energy through; it takes the pressure along its normal from the momentum. -/
theorem C145_impermeable (c : Ctx) (hd : c.d = 1 ∨ c.d = 2 ∨ c.d = 3) (U : Var → ℝ) (n : Fin 3 → ℝ) :
    slipFlux c U n (fun _ => 0) (fun _ => 0) .rho = 0 ∧ slipFlux c U n (fun _ => 0) (fun _ => 0) .en = 0 ∧
      ∀ k : Fin 3, k.val < c.d → slipFlux c U n (fun _ => 0) (fun _ => 0) (mrow k) = (prim c.d U c.cp c.cv c.visc).p * n k := by
  have h0 : wallSpeed c.d n (fun _ => 0) (fun _ => 0) = 0 := by simp [wallSpeed]
  have hp : (prim c.d U c.cp c.cv c.visc).p = (prim c.d U c.cp c.cv false).p := rfl
  simp only [C145_slip_flux c hd, h0, wallFlux, hp]
  refine ⟨by simp, by simp, fun k hk => ?_⟩
  rcases hd with h | h | h <;> rw [h] at hk ⊢ <;> fin_cases k <;> simp at hk <;> simp [mrow]

/-- C145: a wall moving without rotation carries mass and total enthalpy at its normal velocity. -/
theorem C145_moving (c : Ctx) (hd : c.d = 1 ∨ c.d = 2 ∨ c.d = 3) (U : Var → ℝ) (n dw : Fin 3 → ℝ) :
    slipFlux c U n dw (fun _ => 0) .rho = wallSpeed c.d n dw (fun _ => 0) * U .rho ∧
      slipFlux c U n dw (fun _ => 0) .en = wallSpeed c.d n dw (fun _ => 0) * (U .en + (prim c.d U c.cp c.cv c.visc).p) := by
  have hp : (prim c.d U c.cp c.cv c.visc).p = (prim c.d U c.cp c.cv false).p := rfl
  simp only [C145_slip_flux c hd, wallFlux, hp]
  constructor <;> simp

/-- C145: the symmetry boundary is a slip wall at rest: same residual, same Jacobian; so its Jacobian is exact too. -/
theorem C145_symmetry (c : Ctx) (hd : c.d = 1 ∨ c.d = 2 ∨ c.d = 3) (hv : c.cv ≠ 0) (qs : List SideQp) (sol D : Field) (hr : ∀ q ∈ qs, interp c q.phi sol .rho ≠ 0) (v : Var) (a : Nat) :
    symRes c qs sol v a = slipRes c (qs.map atRest) sol v a ∧ (∀ u b, symJac c qs sol v a u b = slipJac c (qs.map atRest) sol v a u b) ∧
      HasDerivAt (fun t => symRes c qs (moved sol D t) v a) (jacMul c (symJac c qs sol v a) D) 0 := by
  have h1 : ∀ x, symRes c qs x v a = slipRes c (qs.map atRest) x v a := by
    intro x
    unfold symRes slipRes
    rw [List.map_map]
    refine list_congr' qs _ _ fun q _ => ?_
    simp only [Function.comp, atRest, slipFlux, uini]
    congr 2
    rcases hd with h | h | h <;> rw [h] <;> cases v <;> simp [momEntry, sideNormal, stateAt, h]
  have h2 : ∀ u b, symJac c qs sol v a u b = slipJac c (qs.map atRest) sol v a u b := by
    intro u b
    unfold symJac slipJac
    rw [List.map_map]
    refine list_congr' qs _ _ fun q _ => ?_
    simp only [Function.comp, atRest]
    have : uini c.d (stateAt c q.phi sol) q.n (fun _ => 0) (fun _ => 0) = 0 := by simp [uini]
    rw [this]
  refine ⟨h1 sol, h2, ?_⟩
  have h := C145_slip_jacobian c hd hv (qs.map atRest) sol D (by
    intro q hq
    obtain ⟨r, hr', rfl⟩ := List.mem_map.1 hq
    exact hr r hr') v a
  have e : symJac c qs sol v a = slipJac c (qs.map atRest) sol v a := by funext u b; exact h2 u b
  rw [e]
  simpa only [h1] using h

theorem uv_deriv (c : Ctx) (U D : Var → ℝ) (hr : U .rho ≠ 0) (i : Fin 3) :
    HasDerivAt (fun t : ℝ => uv (prim c.d (fun w => U w + t * D w) c.cp c.cv c.visc) i) (duv (dprim c.d (prim c.d U c.cp c.cv c.visc) D c.visc) i) 0 := by
  fin_cases i
  · exact d_u1 c.d U D c.cp c.cv c.visc hr
  · exact d_u2 c.d U D c.cp c.cv c.visc hr
  · exact d_u3 c.d U D c.cp c.cv c.visc hr

theorem momEntry_deriv (d : Nat) (z : ℝ → Fin 3 → ℝ) (z' : Fin 3 → ℝ) (h : ∀ i, HasDerivAt (fun t => z t i) (z' i) 0) (v : Var) : HasDerivAt (fun t => momEntry d (z t) v) (momEntry d z' v) 0 := by
  cases v <;> simp only [momEntry]
  · exact hasDerivAt_const _ _
  · split_ifs
    · exact h 0
    · exact hasDerivAt_const _ _
  · split_ifs
    · exact h 1
    · exact hasDerivAt_const _ _
  · split_ifs
    · exact h 2
    · exact hasDerivAt_const _ _
  · exact hasDerivAt_const _ _

/-- C145: the linearized slip wall is the derivative of the slip wall residual with respect to the solution, the wall velocity and the rotation of the normal together. -/
theorem C145_linearized (c : Ctx) (qs : List LinWallQp) (sol D : Field) (hr : ∀ q ∈ qs, interp c q.phi sol .rho ≠ 0) (v : Var) (a : Nat) :
    HasDerivAt (fun t => slipRes c (qs.map fun q => wallAt q t) (moved sol D t) v a) (linSlipRes c qs sol D v a) 0 := by
  unfold slipRes linSlipRes
  simp only [List.map_map]
  refine hasDerivAt_listsum qs (fun t q => ((fun q : WallQp => q.w * (q.phi a * slipFlux c (interp c q.phi (moved sol D t)) q.n q.dw q.dn v)) ∘ fun q => wallAt q t) q) _ fun q hq => ?_
  simp only [Function.comp, wallAt, interp_moved]
  refine HasDerivAt.const_mul q.w (HasDerivAt.const_mul (q.phi a) ?_)
  set U := interp c q.phi sol
  set E := interp c q.phi D
  have hu := uv_deriv c U E (hr q hq)
  have hp := d_p c.d U E c.cp c.cv c.visc (hr q hq)
  unfold DerivAlong at hp
  have hlin : ∀ x y : ℝ, HasDerivAt (fun t : ℝ => x + t * y) y 0 := fun x y => by simpa using ((hasDerivAt_id (0:ℝ)).mul_const y).const_add x
  have h1 := HasDerivAt.fun_sum (u := Finset.univ) fun (i : Fin 3) _ => (hlin (q.dw i) (q.Dw i)).fun_mul ((hlin (q.dn i) (q.Dn i)).const_add (sideNormal c.d q.n i))
  have h2 := HasDerivAt.fun_sum (u := Finset.univ) fun (i : Fin 3) _ => (hu i).fun_mul (hlin (q.dn i) (q.Dn i))
  have hun := h1.fun_sub h2
  unfold slipFlux linSlipFlux
  have hm := momEntry_deriv c.d (fun t i => (prim c.d (fun w => U w + t * E w) c.cp c.cv c.visc).p * sideNormal c.d q.n i) _ (fun i => hp.mul_const (sideNormal c.d q.n i)) v
  by_cases hv : v = .en
  · simp only [hv, if_true] at hm ⊢
    refine HasDerivAt.congr_deriv (((hun.fun_mul (line U E .en)).fun_add (hun.fun_mul hp)).fun_add hm) ?_
    simp only [zero_mul, add_zero, uini]
    simp only [Finset.sum_add_distrib]
    ring
  · simp only [hv, if_false, add_zero] at hm ⊢
    refine HasDerivAt.congr_deriv ((hun.fun_mul (line U E v)).fun_add hm) ?_
    simp only [zero_mul, add_zero, uini]
    simp only [Finset.sum_add_distrib]
    ring

/-- Non-vacuity of C145: a moving and rotating wall in a line flow. -/
example : ∃ q : LinWallQp, wallSpeed 1 q.n q.dw q.dn ≠ 0 ∧ q.dn 0 ≠ 0 ∧ interp ⟨1, 2, 7, 5, false⟩ q.phi (fun v _ => consOf 1 5 1 1 0 0 1 v) .rho ≠ 0 := by
  refine ⟨⟨⟨⟨1, fun _ => 1 / 2, fun _ _ => 0, fun i => if i = 0 then 1 else 0⟩, fun i => if i = 0 then 2 else 0, fun i => if i = 0 then 1 / 2 else 0⟩, fun _ => 1, fun _ => 1⟩, ?_, ?_, ?_⟩
  · norm_num [wallSpeed, Fin.sum_univ_three]
  · simp
  · norm_num [interp, act, consOf, Finset.sum_range_succ]

theorem momEntry_mrow (d : Nat) (z : Fin 3 → ℝ) (k : Fin 3) (hk : k.val < d) : momEntry d z (mrow k) = z k := by
  fin_cases k <;> simp at hk <;> simp [momEntry, mrow] <;> omega

/-- C145: no mass and no energy passes the no slip wall; the momentum it takes is the traction `p n - τ n`. -/
theorem C145_noslip (c : Ctx) (hd : c.d = 1 ∨ c.d = 2 ∨ c.d = 3) (q : SideQp) (sol : Field) :
    noslipFlux c q sol .rho = 0 ∧ noslipFlux c q sol .en = 0 ∧
      ∀ k : Fin 3, k.val < c.d → noslipFlux c q sol (mrow k) = traction c.d (stateAt c q.phi sol) (primGrad c q.phi q.dphi sol) q.n k := by
  refine ⟨rfl, rfl, fun k hk => ?_⟩
  unfold noslipFlux
  rw [momEntry_mrow _ _ _ hk]
  unfold traction stressAt
  congr 1
  refine Finset.sum_congr rfl fun j _ => ?_
  split_ifs with hj
  · rw [(C104_stress c.d hd _ _ _ k j hk hj).1]; ring
  · rfl

/-- Velocity gradient along a disturbance that vanishes at the point. -/
theorem primGrad_moved (c : Ctx) (phi : Nat → ℝ) (dphi : Nat → Nat → ℝ) (sol D : Field) (hz : interp c phi D = fun _ => 0) (t : ℝ) :
    stateAt c phi (moved sol D t) = stateAt c phi sol ∧
      ∀ i w, primGrad c phi dphi (moved sol D t) i w = primGrad c phi dphi sol i w + t * ∑ u, dprimDcons c.d c.gas (stateAt c phi sol) w u * interp c (dphi i) D u := by
  have hs : stateAt c phi (moved sol D t) = stateAt c phi sol := by
    unfold stateAt; rw [interp_moved, hz]; simp
  refine ⟨hs, fun i w => ?_⟩
  unfold primGrad gradPrim
  rw [hs]
  simp only [interp_moved, mul_add, Finset.sum_add_distrib, Finset.mul_sum]
  congr 1
  exact Finset.sum_congr rfl fun u _ => by ring

theorem newton_linear (d : Nat) (mu lam t : ℝ) (P Q R : Nat → Var → ℝ) (h : ∀ i w, R i w = P i w + t * Q i w) (i j : Nat) : newton d mu lam R i j = newton d mu lam P i j + t * newton d mu lam Q i j := by
  unfold newton
  simp only [h, Finset.sum_add_distrib, ← Finset.mul_sum]
  split_ifs <;> ring

/-- Change of the traction when the state at the point does not change. -/
noncomputable def dTraction (c : Ctx) (q : SideQp) (sol D : Field) (k : Fin 3) : ℝ :=
  -∑ i : Fin 3, if i.val < c.d then newton c.d (stateAt c q.phi sol).mu (stateAt c q.phi sol).lambda (fun i w => ∑ u, dprimDcons c.d c.gas (stateAt c q.phi sol) w u * interp c (q.dphi i) D u) k i * q.n i else 0

theorem traction_deriv (c : Ctx) (q : SideQp) (sol D : Field) (hz : interp c q.phi D = fun _ => 0) (k : Fin 3) :
    HasDerivAt (fun t => traction c.d (stateAt c q.phi (moved sol D t)) (primGrad c q.phi q.dphi (moved sol D t)) q.n k) (dTraction c q sol D k) 0 := by
  have e : (fun t => traction c.d (stateAt c q.phi (moved sol D t)) (primGrad c q.phi q.dphi (moved sol D t)) q.n k) =
      fun t => traction c.d (stateAt c q.phi sol) (primGrad c q.phi q.dphi sol) q.n k + t * dTraction c q sol D k := by
    funext t
    obtain ⟨hs, hg⟩ := primGrad_moved c q.phi q.dphi sol D hz t
    unfold traction dTraction
    rw [hs, mul_neg, Finset.mul_sum, sub_add_eq_add_sub, ← sub_eq_add_neg, sub_sub, sub_right_inj, ← Finset.sum_add_distrib]
    refine Finset.sum_congr rfl fun i _ => ?_
    split_ifs
    · rw [newton_linear c.d _ _ t _ _ _ hg]; ring
    · ring
  rw [e]
  simpa using ((hasDerivAt_id' (0:ℝ)).mul_const (dTraction c q sol D k)).const_add (traction c.d (stateAt c q.phi sol) (primGrad c q.phi q.dphi sol) q.n k)

theorem jacMul_sub (c : Ctx) (J K : Var → Nat → ℝ) (D : Field) : jacMul c (fun u b => J u b - K u b) D = jacMul c J D - jacMul c K D := by
  have h := jacMul_add c J (fun u b => -1 * K u b) D
  rw [jacMul_smul] at h
  have e : (fun u b => J u b - K u b) = fun u b => J u b + -1 * K u b := by funext u b; ring
  rw [e, h]; ring

theorem momEntry_congr (d : Nat) (z z' : Fin 3 → ℝ) (h : ∀ k : Fin 3, k.val < d → z k = z' k) (v : Var) : momEntry d z v = momEntry d z' v := by
  cases v <;> simp only [momEntry]
  · split_ifs with hd
    · exact h 0 hd
    · rfl
  · split_ifs with hd
    · exact h 1 hd
    · rfl
  · split_ifs with hd
    · exact h 2 hd
    · rfl

theorem noslipFlux_eq (c : Ctx) (hd : c.d = 1 ∨ c.d = 2 ∨ c.d = 3) (q : SideQp) (sol : Field) (v : Var) :
    noslipFlux c q sol v = momEntry c.d (fun k => traction c.d (stateAt c q.phi sol) (primGrad c q.phi q.dphi sol) q.n k) v := by
  unfold noslipFlux
  refine momEntry_congr c.d _ _ (fun k hk => ?_) v
  have := (C145_noslip c hd q sol).2.2 k hk
  unfold noslipFlux at this
  rwa [momEntry_mrow _ _ _ hk] at this

/-- Rows of the viscous part of the no slip Jacobian. -/
theorem noslip_rows (c : Ctx) (hd : c.d = 1 ∨ c.d = 2 ∨ c.d = 3) (q : SideQp) (sol D : Field) (v : Var) :
    -(∑ i : Fin 3, if i.val < c.d then (∑ j ∈ range c.d, ∑ u, (∑ y, kPrim c.d i j (still (stateAt c q.phi sol)) v y * dprimDcons c.d c.gas (stateAt c q.phi sol) y u) * interp c (q.dphi j) D u) * q.n i else 0) =
      momEntry c.d (dTraction c q sol D) v := by
  set s := stateAt c q.phi sol with hs
  set P : Nat → Var → ℝ := fun i w => ∑ u, dprimDcons c.d c.gas s w u * interp c (q.dphi i) D u with hP
  have h1 : ∀ i : Fin 3, i.val < c.d → (∑ j ∈ range c.d, ∑ u, (∑ y, kPrim c.d i j (still s) v y * dprimDcons c.d c.gas s y u) * interp c (q.dphi j) D u) = viscousFlux c.d i (still s) P v := by
    intro i hi
    rw [← C104_primitive c.d hd i hi (still s) P v]
    refine Finset.sum_congr rfl fun j _ => ?_
    simp only [hP, Finset.mul_sum, Finset.sum_mul]
    rw [Finset.sum_comm]
    exact Finset.sum_congr rfl fun y _ => Finset.sum_congr rfl fun u _ => by ring
  have h2 : ∀ k : Fin 3, dTraction c q sol D k = -∑ i : Fin 3, if i.val < c.d then newton c.d s.mu s.lambda P k i * q.n i else 0 := fun k => rfl
  have hsym : ∀ i j : Nat, newton c.d s.mu s.lambda P i j = newton c.d s.mu s.lambda P j i := by
    intro i j; unfold newton
    by_cases h : i = j
    · subst h; rfl
    · rw [if_neg h, if_neg (Ne.symm h)]; ring
  have h3 : ∑ i : Fin 3, (if i.val < c.d then (∑ j ∈ range c.d, ∑ u, (∑ y, kPrim c.d i j (still s) v y * dprimDcons c.d c.gas s y u) * interp c (q.dphi j) D u) * q.n i else 0) =
      ∑ i : Fin 3, if i.val < c.d then viscousFlux c.d i (still s) P v * q.n i else 0 := by
    refine Finset.sum_congr rfl fun i _ => ?_
    split_ifs with hi
    · rw [h1 i hi]
    · rfl
  rw [h3]
  have hm : (still s).mu = s.mu := rfl
  have hl : (still s).lambda = s.lambda := rfl
  have hu1 : (still s).u1 = 0 := rfl
  have hu2 : (still s).u2 = 0 := rfl
  have hu3 : (still s).u3 = 0 := rfl
  have hk : (still s).kth = 0 := rfl
  cases v <;> simp only [momEntry, viscousFlux, h2, hm, hl, hu1, hu2, hu3, hk]
  · simp
  · rw [if_pos (by rcases hd with h | h | h <;> omega)]
    congr 1
    refine Finset.sum_congr rfl fun i _ => ?_
    rw [hsym]; rfl
  · split_ifs with h
    · congr 1
      refine Finset.sum_congr rfl fun i _ => ?_
      rw [hsym]; rfl
    · simp
  · split_ifs with h
    · congr 1
      refine Finset.sum_congr rfl fun i _ => ?_
      rw [hsym]; rfl
    · simp
  · simp

/-- C145: the Jacobian of the no slip wall is exact along every disturbance that vanishes on the wall. -/
theorem C145_noslip_jacobian_partial (c : Ctx) (hd : c.d = 1 ∨ c.d = 2 ∨ c.d = 3) (qs : List SideQp) (sol D : Field) (hz : ∀ q ∈ qs, interp c q.phi D = fun _ => 0) (v : Var) (a : Nat) :
    HasDerivAt (fun t => noslipRes c qs (moved sol D t) v a) (jacMul c (noslipJac c qs sol v a) D) 0 := by
  unfold noslipRes noslipJac
  rw [jacMul_list c qs (fun q u b => q.w * (q.phi a * (wallJac c.d c.gas (stateAt c q.phi sol) 0 q.n (fun _ => 0) v u * q.phi b)) -
    ∑ i : Fin 3, if i.val < c.d then ∑ j ∈ range c.d,
      q.w * (q.phi a * ((∑ y, kPrim c.d i j (still (stateAt c q.phi sol)) v y * dprimDcons c.d c.gas (stateAt c q.phi sol) y u) * q.dphi j b)) * q.n i else 0) D]
  refine hasDerivAt_listsum qs (fun t q => q.w * (q.phi a * noslipFlux c q (moved sol D t) v)) _ fun q hq => ?_
  have hflux : HasDerivAt (fun t => noslipFlux c q (moved sol D t) v) (momEntry c.d (dTraction c q sol D) v) 0 := by
    simp only [noslipFlux_eq c hd]
    exact momEntry_deriv c.d (fun t k => traction c.d (stateAt c q.phi (moved sol D t)) (primGrad c q.phi q.dphi (moved sol D t)) q.n k) _ (fun k => traction_deriv c q sol D (hz q hq) k) v
  refine HasDerivAt.congr_deriv ((hflux.const_mul (q.phi a)).const_mul q.w) ?_
  rw [jacMul_sub, jacMul_smul, jacMul_smul, jacMul_mul, hz q hq,
    jacMul_sum c Finset.univ (fun (i : Fin 3) u b => if i.val < c.d then ∑ j ∈ range c.d,
      q.w * (q.phi a * ((∑ y, kPrim c.d i j (still (stateAt c q.phi sol)) v y * dprimDcons c.d c.gas (stateAt c q.phi sol) y u) * q.dphi j b)) * q.n i else 0) D,
    ← noslip_rows c hd q sol D v]
  have hi : ∀ i : Fin 3, jacMul c (fun u b => if i.val < c.d then ∑ j ∈ range c.d,
      q.w * (q.phi a * ((∑ y, kPrim c.d i j (still (stateAt c q.phi sol)) v y * dprimDcons c.d c.gas (stateAt c q.phi sol) y u) * q.dphi j b)) * q.n i else 0) D =
      q.w * (q.phi a * if i.val < c.d then (∑ j ∈ range c.d, ∑ u, (∑ y, kPrim c.d i j (still (stateAt c q.phi sol)) v y * dprimDcons c.d c.gas (stateAt c q.phi sol) y u) * interp c (q.dphi j) D u) * q.n i else 0) := by
    intro i
    by_cases h : i.val < c.d
    · simp only [h, if_true]
      rw [jacMul_sum c (range c.d) (fun j u b => q.w * (q.phi a * ((∑ y, kPrim c.d i j (still (stateAt c q.phi sol)) v y * dprimDcons c.d c.gas (stateAt c q.phi sol) y u) * q.dphi j b)) * q.n i) D,
        Finset.sum_mul, Finset.mul_sum, Finset.mul_sum]
      refine Finset.sum_congr rfl fun j _ => ?_
      have e : (fun u b => q.w * (q.phi a * ((∑ y, kPrim c.d i j (still (stateAt c q.phi sol)) v y * dprimDcons c.d c.gas (stateAt c q.phi sol) y u) * q.dphi j b)) * q.n i) =
          fun u b => (q.w * q.phi a * q.n i) * ((∑ y, kPrim c.d i j (still (stateAt c q.phi sol)) v y * dprimDcons c.d c.gas (stateAt c q.phi sol) y u) * q.dphi j b) := by
        funext u b; ring
      rw [e, jacMul_smul, jacMul_mul]
      ring
    · simp only [h, if_false, mul_zero]
      unfold jacMul; simp
  simp only [hi, ← Finset.mul_sum]
  simp

/-- Wall point of the no slip counterexample: node 0 on the wall, the gradient along the normal. -/
def wallPt : SideQp := ⟨1, fun a => if a = 0 then 1 else 0, fun _ a => if a = 0 then -1 else 1, fun i => if i = 0 then 1 else 0⟩

/-- Flow with no slip at node 0 and unit momentum at node 1, density 1, temperature 1 at the wall. -/
def wallSol : Field
  | .rho, _ => 1
  | .m1, a => if a = 1 then 1 else 0
  | .en, _ => 5
  | _, _ => 0

/-- Disturbance of density and energy at the wall that keeps the temperature. -/
def wallDist : Field
  | .rho, a => if a = 0 then 1 else 0
  | .en, a => if a = 0 then 5 else 0
  | _, _ => 0

/-- C145 (violated by disturbances of the state on the wall): the viscous part of the no slip Jacobian leaves out the dependence of the velocity gradient on the density.  On a line, gas at
rest at the wall, density disturbed at constant temperature: the code misses `4/3 μ ∂_x(ρu)/ρ²`. -/
theorem C145_noslip_jacobian_fails : ∃ (c : Ctx) (qs : List SideQp) (sol D : Field), c.d = 1 ∧ c.visc = true ∧ 0 < c.cv ∧ c.cv < c.cp ∧
    (∀ q ∈ qs, 0 < interp c q.phi sol .rho ∧ interp c q.phi sol .m1 = 0 ∧ interp c q.phi D .m1 = 0) ∧
    ¬ HasDerivAt (fun t => noslipRes c qs (moved sol D t) .m1 0) (jacMul c (noslipJac c qs sol .m1 0) D) 0 := by
  let c : Ctx := ⟨1, 2, 7, 5, true⟩
  refine ⟨c, [wallPt], wallSol, wallDist, rfl, rfl, by norm_num [c], by norm_num [c], ?_, ?_⟩
  · intro q hq
    simp only [List.mem_singleton] at hq; subst hq
    simp [interp, act, c, wallPt, wallSol, wallDist, Finset.sum_range_succ]
  have hmu : 0 < viscosity 1 := by unfold viscosity; positivity
  have hres : ∀ t : ℝ, t ≠ -1 → noslipRes c [wallPt] (moved wallSol wallDist t) .m1 0 = 2 * (1 + t) - 4 / 3 * viscosity 1 / (1 + t) := by
    intro t ht
    have ht' : 1 + t ≠ 0 := fun h => ht (by linarith)
    have hU : interp c wallPt.phi (moved wallSol wallDist t) = fun v => match v with | .rho => 1 + t | .en => 5 + t * 5 | _ => 0 := by
      funext v; cases v <;> simp [interp, act, c, wallPt, moved, wallSol, wallDist, Finset.sum_range_succ]
    have hT : (stateAt c wallPt.phi (moved wallSol wallDist t)).T = 1 := by
      unfold stateAt; rw [hU]; simp [prim, c, at']; field_simp
    have hp : (stateAt c wallPt.phi (moved wallSol wallDist t)).p = 2 * (1 + t) := by
      have : (stateAt c wallPt.phi (moved wallSol wallDist t)).p = (7 - 5) * (stateAt c wallPt.phi (moved wallSol wallDist t)).T * (stateAt c wallPt.phi (moved wallSol wallDist t)).rho := rfl
      rw [this, hT]
      have : (stateAt c wallPt.phi (moved wallSol wallDist t)).rho = 1 + t := by unfold stateAt; rw [hU]; rfl
      rw [this]; ring
    have hm : (stateAt c wallPt.phi (moved wallSol wallDist t)).mu = viscosity 1 := by
      have : (stateAt c wallPt.phi (moved wallSol wallDist t)).mu = viscosity (stateAt c wallPt.phi (moved wallSol wallDist t)).T := rfl
      rw [this, hT]
    have hl : (stateAt c wallPt.phi (moved wallSol wallDist t)).lambda = -2 / 3 * viscosity 1 := by
      have : (stateAt c wallPt.phi (moved wallSol wallDist t)).lambda = -2 / 3 * (stateAt c wallPt.phi (moved wallSol wallDist t)).mu := rfl
      rw [this, hm]
    have hP : primGrad c wallPt.phi wallPt.dphi (moved wallSol wallDist t) 0 .m1 = 1 / (1 + t) := by
      have hrho : (stateAt c wallPt.phi (moved wallSol wallDist t)).rho = 1 + t := by unfold stateAt; rw [hU]; rfl
      have hu : (stateAt c wallPt.phi (moved wallSol wallDist t)).u1 = 0 := by unfold stateAt; rw [hU]; simp [prim]
      unfold primGrad gradPrim
      rw [sumVar]
      simp only [dprimDcons, hrho, hu]
      simp [interp, act, c, wallPt, moved, wallSol, wallDist, Finset.sum_range_succ, at']
    unfold noslipRes
    rw [List.map_singleton, List.sum_singleton, noslipFlux_eq c (Or.inl rfl)]
    have hd1 : c.d = 1 := rfl
    simp only [momEntry, hd1, traction, newton, hp, hm, hl, Fin.sum_univ_three, Finset.sum_range_one]
    simp [wallPt, mvar] at hP ⊢
    rw [hP]; field_simp; ring
  have hjac : jacMul c (noslipJac c [wallPt] wallSol .m1 0) wallDist = 2 := by
    have hU : interp c wallPt.phi wallSol = fun v => match v with | .rho => 1 | .en => 5 | _ => 0 := by
      funext v; cases v <;> simp [interp, act, c, wallPt, wallSol, Finset.sum_range_succ]
    have hrho : (stateAt c wallPt.phi wallSol).rho = 1 := by unfold stateAt; rw [hU]; rfl
    have hu : (stateAt c wallPt.phi wallSol).u1 = 0 := by unfold stateAt; rw [hU]; simp [prim]
    have hk : (stateAt c wallPt.phi wallSol).k = 0 := by unfold stateAt; rw [hU]; simp [prim, at', c]
    have hd1 : c.d = 1 := rfl
    have hn2 : c.n = 2 := rfl
    have hg : c.gas = ⟨7, 5, 2, 7 / 5⟩ := by simp only [Ctx.gas, gasInit, c]; norm_num
    unfold jacMul noslipJac
    simp only [sumVar, hd1, hn2, act, List.map_singleton, List.sum_singleton, Finset.sum_range_succ, Finset.sum_range_zero, Fin.sum_univ_three, wallDist, hg]
    simp [wallPt, wallJac, wallJac0, wallTmp, wallDun, at', hu, hk, hrho, kPrim, dprimDcons]
    simp only [wallPt] at hu hk
    norm_num [hu, hk]
  rw [hjac]
  intro h
  have h1 : HasDerivAt (fun t : ℝ => 2 * (1 + t) - 4 / 3 * viscosity 1 / (1 + t)) (2 + 4 / 3 * viscosity 1) 0 := by
    have hl : HasDerivAt (fun t : ℝ => 1 + t) 1 0 := (hasDerivAt_id' (0:ℝ)).const_add 1
    refine HasDerivAt.congr_deriv ((hl.const_mul 2).fun_sub ((hasDerivAt_const (0:ℝ) (4 / 3 * viscosity 1)).fun_div hl (by norm_num))) ?_
    norm_num
  have h2 := h1.congr_of_eventuallyEq (f₁ := fun t => noslipRes c [wallPt] (moved wallSol wallDist t) .m1 0) (by
    filter_upwards [isOpen_ne.mem_nhds (show (0:ℝ) ≠ -1 by norm_num)] with t ht using hres t ht)
  have := h2.unique h
  linarith

/-- Non-vacuity of `C145_noslip_jacobian_partial`: a disturbance at the node off the wall. -/
example : interp ⟨1, 2, 7, 5, true⟩ wallPt.phi (fun _ a => if a = 1 then 1 else 0) = fun _ => 0 := by
  funext v; cases v <;> simp [interp, act, wallPt, Finset.sum_range_succ]

/-- Force on the surface as an integral: `∑_q w (p n - τ n)_k`. -/
noncomputable def surfaceForce (c : Ctx) (qs : List SideQp) (sol : Field) (k : Fin 3) : ℝ :=
  (qs.map fun q => q.w * traction c.d (stateAt c q.phi sol) (primGrad c q.phi q.dphi sol) q.n k).sum

theorem newton_inviscid (d : Nat) (P : Nat → Var → ℝ) (i j : Nat) : newton d 0 (-2 / 3 * 0) P i j = 0 := by unfold newton; simp

theorem traction_inviscid (c : Ctx) (hvis : c.visc = false) (phi : Nat → ℝ) (sol : Field) (P : Nat → Var → ℝ) (n : Fin 3 → ℝ) (k : Fin 3) : traction c.d (stateAt c phi sol) P n k = (stateAt c phi sol).p * n k := by
  have hm : (stateAt c phi sol).mu = 0 := by simp [stateAt, prim, hvis]
  have hl : (stateAt c phi sol).lambda = -2 / 3 * 0 := by
    have : (stateAt c phi sol).lambda = -2 / 3 * (stateAt c phi sol).mu := rfl
    rw [this, hm]
  unfold traction
  simp only [hm, hl, newton_inviscid]
  simp

/-- C146: the integrated force of a side is the integral of the traction `p n - τ n`. -/
theorem C146_force (c : Ctx) (hd : c.d = 1 ∨ c.d = 2 ∨ c.d = 3) (qs : List SideQp) (sol : Field) (k : Fin 3) (hk : k.val < c.d) : sideForce c qs sol k = surfaceForce c qs sol k := by
  unfold sideForce surfaceForce
  rw [if_pos hk]
  refine list_congr' qs _ _ fun q _ => ?_
  by_cases hvis : c.visc = true
  · rw [if_pos hvis]
    unfold traction stressAt
    rw [mul_sub, Finset.mul_sum, mul_assoc]
    congr 1
    refine Finset.sum_congr rfl fun i _ => ?_
    split_ifs with hi
    · rw [(C104_stress c.d hd _ _ _ k i hk hi).1]; ring
    · ring
  · rw [if_neg hvis, traction_inviscid c (by simpa using hvis)]; ring

/-- C146: it is the momentum the boundary takes from the fluid: the nodal residuals of a slip wall at rest add up to it in an inviscid flow, those of the no slip wall in a viscous one. -/
theorem C146_reaction (c : Ctx) (hd : c.d = 1 ∨ c.d = 2 ∨ c.d = 3) (qs : List SideQp) (hphi : SidePhiSum c qs) (sol : Field) (k : Fin 3) (hk : k.val < c.d) :
    (c.visc = false → ∑ a ∈ range c.n, slipRes c (qs.map atRest) sol (mrow k) a = sideForce c qs sol k) ∧ ∑ a ∈ range c.n, noslipRes c qs sol (mrow k) a = sideForce c qs sol k := by
  rw [C146_force c hd qs sol k hk]
  unfold surfaceForce
  constructor
  · intro hvis
    unfold slipRes
    simp only [List.map_map]
    rw [sum_list_map qs (fun a q => ((fun q : WallQp => q.w * (q.phi a * slipFlux c (interp c q.phi sol) q.n q.dw q.dn (mrow k))) ∘ atRest) q)]
    refine list_congr' qs _ _ fun q hq => ?_
    rw [traction_inviscid c hvis]
    simp only [Function.comp, atRest]
    rw [← Finset.mul_sum, ← Finset.sum_mul, hphi q hq, one_mul, (C145_impermeable c hd _ q.n).2.2 k hk]; rfl
  · unfold noslipRes
    rw [sum_list_map qs (fun a q => q.w * (q.phi a * noslipFlux c q sol (mrow k)))]
    refine list_congr' qs _ _ fun q hq => ?_
    rw [← Finset.mul_sum, ← Finset.sum_mul, hphi q hq, one_mul, (C145_noslip c hd q sol).2.2 k hk]

/-- C146: the derivative of the force is exact in an inviscid flow; in a viscous one along disturbances that vanish on the surface. -/
theorem C146_derivative_partial (c : Ctx) (hd : c.d = 1 ∨ c.d = 2 ∨ c.d = 3) (hv : c.cv ≠ 0) (qs : List SideQp) (sol D : Field) (hr : ∀ q ∈ qs, interp c q.phi sol .rho ≠ 0)
    (h : c.visc = false ∨ ∀ q ∈ qs, interp c q.phi D = fun _ => 0) (k : Fin 3) (hk : k.val < c.d) :
    HasDerivAt (fun t => sideForce c qs (moved sol D t) k) (jacMul c (sideForceJac c qs sol k) D) 0 := by
  simp only [C146_force c hd qs _ k hk]
  unfold surfaceForce sideForceJac
  simp only [if_pos hk]
  rw [jacMul_list c qs (fun q u b => q.w * (dpdX c.d c.gas (stateAt c q.phi sol) u * q.phi b) * q.n k -
      if c.visc then ∑ i : Fin 3, if i.val < c.d then ∑ j ∈ range c.d, q.w * (kCons c.d i j c.gas (stateAt c q.phi sol) (mrow k) u * q.dphi j b) * q.n i else 0 else 0) D]
  refine hasDerivAt_listsum qs (fun t q => q.w * traction c.d (stateAt c q.phi (moved sol D t)) (primGrad c q.phi q.dphi (moved sol D t)) q.n k) _ fun q hq => ?_
  have hpart : jacMul c (fun u b => q.w * (dpdX c.d c.gas (stateAt c q.phi sol) u * q.phi b) * q.n k) D = q.w * q.n k * ∑ u, dpdX c.d c.gas (stateAt c q.phi sol) u * interp c q.phi D u := by
    have e : (fun u b => q.w * (dpdX c.d c.gas (stateAt c q.phi sol) u * q.phi b) * q.n k) = fun u b => (q.w * q.n k) * (dpdX c.d c.gas (stateAt c q.phi sol) u * q.phi b) := by funext u b; ring
    rw [e, jacMul_smul, jacMul_mul]
  by_cases hvis : c.visc = true
  · have hz := (h.resolve_left (by simp [hvis])) q hq
    simp only [hvis, if_true]
    rw [jacMul_sub, hpart, hz]
    refine HasDerivAt.congr_deriv ((traction_deriv c q sol D hz k).const_mul q.w) ?_
    have hi : ∀ i : Fin 3, jacMul c (fun u b => if i.val < c.d then ∑ j ∈ range c.d, q.w * (kCons c.d i j c.gas (stateAt c q.phi sol) (mrow k) u * q.dphi j b) * q.n i else 0) D =
        q.w * if i.val < c.d then newton c.d (stateAt c q.phi sol).mu (stateAt c q.phi sol).lambda (fun i w => ∑ u, dprimDcons c.d c.gas (stateAt c q.phi sol) w u * interp c (q.dphi i) D u) k i * q.n i else 0 := by
      intro i
      by_cases hi : i.val < c.d
      · simp only [hi, if_true]
        rw [jacMul_sum c (range c.d) (fun j u b => q.w * (kCons c.d i j c.gas (stateAt c q.phi sol) (mrow k) u * q.dphi j b) * q.n i) D]
        have ej : ∀ j, jacMul c (fun u b => q.w * (kCons c.d i j c.gas (stateAt c q.phi sol) (mrow k) u * q.dphi j b) * q.n i) D =
            q.w * q.n i * ∑ u, kCons c.d i j c.gas (stateAt c q.phi sol) (mrow k) u * interp c (q.dphi j) D u := by
          intro j
          have e : (fun u b => q.w * (kCons c.d i j c.gas (stateAt c q.phi sol) (mrow k) u * q.dphi j b) * q.n i) = fun u b => (q.w * q.n i) * (kCons c.d i j c.gas (stateAt c q.phi sol) (mrow k) u * q.dphi j b) := by
            funext u b; ring
          rw [e, jacMul_smul, jacMul_mul]
        simp only [ej, ← Finset.mul_sum]
        have hcons := C104_conservative c.d hd i hi c.cp c.cv hv (interp c q.phi sol) (hr q hq) c.visc (fun j => interp c (q.dphi j) D) (mrow k)
        simp only at hcons
        rw [show ∑ j ∈ range c.d, ∑ u, kCons c.d i j c.gas (stateAt c q.phi sol) (mrow k) u * interp c (q.dphi j) D u = _ from hcons, C104_flux c.d hd i hi]
        have hrow : ∀ (s : Prim) (P : Nat → Var → ℝ), viscousFlux c.d i s P (mrow k) = newton c.d s.mu s.lambda P k i := by
          intro s P
          have hsym : newton c.d s.mu s.lambda P k i = newton c.d s.mu s.lambda P i k := by
            unfold newton
            by_cases h : (k : Nat) = (i : Nat)
            · rw [h]
            · rw [if_neg h, if_neg (Ne.symm h)]; ring
          rw [hsym]
          fin_cases k
          · rfl
          · simp only [mrow, viscousFlux]; rw [if_pos (by simp at hk; omega)]
          · simp only [mrow, viscousFlux]; rw [if_pos (by simp at hk; omega)]
        rw [hrow]
        have : gradPrim c.d (gasInit c.cp c.cv) (prim c.d (interp c q.phi sol) c.cp c.cv c.visc) (fun j => interp c (q.dphi j) D) = fun i w => ∑ u, dprimDcons c.d c.gas (stateAt c q.phi sol) w u * interp c (q.dphi i) D u := rfl
        rw [this]
        unfold stateAt
        ring
      · simp only [hi, if_false, mul_zero]
        unfold jacMul; simp
    rw [jacMul_sum c Finset.univ (fun (i : Fin 3) u b => if i.val < c.d then ∑ j ∈ range c.d, q.w * (kCons c.d i j c.gas (stateAt c q.phi sol) (mrow k) u * q.dphi j b) * q.n i else 0) D]
    simp only [hi, ← Finset.mul_sum]
    unfold dTraction
    simp
  · have hvf : c.visc = false := by simpa using hvis
    simp only [hvis, Bool.false_eq_true, if_false, sub_zero]
    rw [hpart]
    simp only [traction_inviscid c hvf]
    have hp := C100_pressure_derivative c.d hd (interp c q.phi sol) (interp c q.phi D) c.cp c.cv c.visc (hr q hq) hv
    unfold DerivAlong at hp
    simp only [← interp_moved] at hp
    refine HasDerivAt.congr_deriv ((hp.mul_const (q.n k)).const_mul q.w) ?_
    show q.w * ((∑ u, dpdX c.d c.gas (stateAt c q.phi sol) u * interp c q.phi D u) * q.n k) = _
    ring

/-- C146: in an inviscid flow the sensitivity of the force is its derivative along the sensitivity of the solution. -/
theorem C146_sensitivity (c : Ctx) (hvis : c.visc = false) (hd : c.d = 1 ∨ c.d = 2 ∨ c.d = 3) (qs : List SideQp) (sol D : Field) (hr : ∀ q ∈ qs, interp c q.phi sol .rho ≠ 0) (k : Fin 3) (hk : k.val < c.d) :
    HasDerivAt (fun t => sideForce c qs (moved sol D t) k) (sideForceSens c qs sol D k) 0 := by
  simp only [C146_force c hd qs _ k hk]
  unfold surfaceForce sideForceSens
  rw [if_pos hk]
  refine hasDerivAt_listsum qs (fun t q => q.w * traction c.d (stateAt c q.phi (moved sol D t)) (primGrad c q.phi q.dphi (moved sol D t)) q.n k) _ fun q hq => ?_
  simp only [traction_inviscid c hvis]
  have hp := d_p c.d (interp c q.phi sol) (interp c q.phi D) c.cp c.cv c.visc (hr q hq)
  unfold DerivAlong at hp
  simp only [← interp_moved] at hp
  refine HasDerivAt.congr_deriv ((hp.mul_const (q.n k)).const_mul q.w) ?_
  unfold stateAt; ring

/-- The force output: component along the direction of the sum of the side forces. -/
noncomputable def totalForce (nvec : Fin 3 → ℝ) (elems : List (List (Fin 3 → ℝ))) : ℝ := (elems.map fun e => (e.map fun f => ∑ k, f k * unitVec nvec k).sum).sum

/-- C146: when every element has at most one side on the boundary the output is the component of the total force along the unit direction. -/
theorem C146_output_partial (nvec : Fin 3 → ℝ) (elems : List (List (Fin 3 → ℝ))) (h : ∀ e ∈ elems, e.length ≤ 1) : forceOutput nvec elems = totalForce nvec elems := by
  have key : ∀ (l : List (List (Fin 3 → ℝ))), (∀ e ∈ l, e.length ≤ 1) → ∀ t, l.foldl (fun t e => evalElem nvec e t) t = t + totalForce nvec l := by
    intro l
    induction l with
    | nil => intro _ t; simp [totalForce]
    | cons e l ih =>
      intro hl t
      rw [List.foldl_cons, ih fun e he => hl e (by simp [he])]
      have he := hl e (by simp)
      have : evalElem nvec e t = t + (e.map fun f => ∑ k, f k * unitVec nvec k).sum := by
        match e, he with
        | [], _ => simp [evalElem]
        | [f], _ => simp [evalElem, evalStep]
      rw [this]
      simp only [totalForce, List.map_cons, List.sum_cons]; ring
  unfold forceOutput
  rw [key elems h 0, zero_add]

/-- C146 (violated): with two boundary sides on one element the force of the first is counted twice. -/
theorem C146_output_fails (nvec f g : Fin 3 → ℝ) (h : ∑ k, f k * unitVec nvec k ≠ 0) :
    forceOutput nvec [[f, g]] = totalForce nvec [[f, g]] + ∑ k, f k * unitVec nvec k ∧ forceOutput nvec [[f, g]] ≠ totalForce nvec [[f, g]] := by
  have e : forceOutput nvec [[f, g]] = totalForce nvec [[f, g]] + ∑ k, f k * unitVec nvec k := by
    simp only [forceOutput, totalForce, evalElem, evalStep, List.foldl, List.map_cons, List.map_nil, List.sum_cons, List.sum_nil, zero_add, add_zero, add_mul, Finset.sum_add_distrib]
    ring
  exact ⟨e, by rw [e]; intro h'; exact h (by linarith)⟩

/-- Non-vacuity of C146: a direction and a force along it; the wall point of a viscous line flow. -/
example : ∑ k : Fin 3, (fun k => if k = 0 then (2:ℝ) else 0) k * unitVec (fun k => if k = 0 then 3 else 0) k ≠ 0 ∧ SidePhiSum ⟨1, 2, 7, 5, true⟩ [wallPt] ∧
    0 < interp ⟨1, 2, 7, 5, true⟩ wallPt.phi wallSol .rho := by
  refine ⟨?_, ?_, ?_⟩
  · simp [unitVec, Fin.sum_univ_three]
  · intro q hq; simp only [List.mem_singleton] at hq; subst hq; simp [wallPt]
  · simp [interp, act, wallPt, wallSol]

end Verif.Fluid
