import Verif.Model.FluidOps
import Verif.Props.FluidWall
import Verif.Props.FluidFar
import Verif.Props.FluidFree
/-
  C173: boundary conditions and sensitivities of the flow element.
-/
namespace Verif.FluidOps

open Verif.Fluid

section Spec
/-- Contribution of one boundary condition to the residual: pressure on symmetry planes and walls, shear on no slip walls, the upwind flux at the far field, nothing for prescribed values. -/
noncomputable def surface (c : Ctx) (sol : Field) (L : Load) : Field :=
  match L.type with
  | .symmetry => symRes c (L.qs.map (·.toSideQp)) sol
  | .slip => slipRes c (L.qs.map (·.toWallQp)) sol
  | .noslip => noslipRes c (L.qs.map (·.toSideQp)) sol
  | .far => farRes c (L.qs.map (·.toSideQp)) L.inf sol
  | _ => fun _ _ => 0

/-- Its Jacobian. -/
noncomputable def surfaceJac (c : Ctx) (sol : Field) (L : Load) : FMat :=
  match L.type with
  | .symmetry => symJac c (L.qs.map (·.toSideQp)) sol
  | .slip => slipJac c (L.qs.map (·.toWallQp)) sol
  | .noslip => noslipJac c (L.qs.map (·.toSideQp)) sol
  | .far => farJac c (L.qs.map (·.toSideQp)) sol
  | _ => fun _ _ _ _ => 0

/-- The residual of a condition whose wall has moved for the time `t` along its perturbation. -/
noncomputable def surfaceAt (c : Ctx) (sol : Field) (t : ℝ) (L : Load) : Field :=
  match L.type with
  | .slip => slipRes c (L.qs.map fun q => wallAt q t) sol
  | _ => surface c sol L

/-- Conditions the element knows. -/
def Known (loads : List Load) : Prop := ∀ L ∈ loads, L.type ≠ .other
end Spec

theorem ok_bind {α β : Type} (x : α) (k : α → Exec β) : ((Except.ok x : Exec α) >>= k) = k x := rfl
theorem err_bind {α β : Type} (e : Err) (k : α → Exec β) : ((Except.error e : Exec α) >>= k) = .error e := rfl

/-- A fold whose steps succeed and add something. -/
theorem fold_ok {α : Type} (step : Field → α → Exec Field) (g : α → Field) (l : List α) (h : ∀ f, ∀ x ∈ l, step f x = .ok fun v a => f v a + g x v a) (f : Field) :
    l.foldlM (m := Exec) step f = .ok fun v a => f v a + (l.map fun x => g x v a).sum := by
  induction l generalizing f with
  | nil => simp only [List.foldlM_nil, List.map_nil, List.sum_nil, add_zero]; rfl
  | cons x l ih =>
    rw [List.foldlM_cons, h f x (by simp), ok_bind, ih fun f y hy => h f y (by simp [hy])]
    simp only [List.map_cons, List.sum_cons, add_assoc]

theorem fold_okM {α : Type} (step : FMat → α → Exec FMat) (g : α → FMat) (l : List α) (h : ∀ f, ∀ x ∈ l, step f x = .ok fun v a u b => f v a u b + g x v a u b) (f : FMat) :
    l.foldlM (m := Exec) step f = .ok fun v a u b => f v a u b + (l.map fun x => g x v a u b).sum := by
  induction l generalizing f with
  | nil => simp only [List.foldlM_nil, List.map_nil, List.sum_nil, add_zero]; rfl
  | cons x l ih =>
    rw [List.foldlM_cons, h f x (by simp), ok_bind, ih fun f y hy => h f y (by simp [hy])]
    simp only [List.map_cons, List.sum_cons, add_assoc]

/-- A fold that meets a step with an error ends with an error. -/
theorem fold_err {α : Type} (step : Field → α → Exec Field) (l : List α) (x : α) (hx : x ∈ l) (h : ∀ f, ∃ e, step f x = .error e) (f : Field) : ∃ e, l.foldlM (m := Exec) step f = .error e := by
  induction l generalizing f with
  | nil => simp at hx
  | cons y l ih =>
    rw [List.foldlM_cons]
    cases hs : step f y with
    | error e => exact ⟨e, rfl⟩
    | ok f' =>
      rw [ok_bind]
      rcases List.mem_cons.1 hx with rfl | h'
      · obtain ⟨e, he⟩ := h f
        rw [he] at hs; cases hs
      · exact ih h' f'

theorem loadRes_ok (c : Ctx) (sol f : Field) (L : Load) (h : L.type ≠ .other) : loadRes c sol f L = .ok fun v a => f v a + surface c sol L v a := by
  unfold loadRes surface Load.pts Load.wall
  cases ht : L.type <;> simp_all

theorem loadJac_ok (c : Ctx) (sol : Field) (J : FMat) (L : Load) (h : L.type ≠ .other) : loadJac c sol J L = .ok fun v a u b => J v a u b + surfaceJac c sol L v a u b := by
  unfold loadJac surfaceJac Load.pts Load.wall
  cases ht : L.type <;> simp_all

/-- C173: the element vectors of a flow element with known boundary conditions: the mass part, and the interior residual plus the residual of every condition of every side, each once; the matrices likewise.
A condition of any other type ends in an error. -/
theorem C173_residual (c : Ctx) (T : Tau) (dc : Shock) (qs : List Qp) (loads : List Load) (sol vel : Field) :
    (Known loads → elemCalc c T dc qs loads sol vel = .ok (velocityRes c T qs sol vel, fun v a => internalRes c T dc qs sol v a + (loads.map fun L => surface c sol L v a).sum) ∧
      elemJac c T dc qs loads sol = .ok (velocityJacXdot c T qs sol, fun _ _ _ _ => 0, fun v a u b => internalJac c T dc qs sol v a u b + (loads.map fun L => surfaceJac c sol L v a u b).sum)) ∧
    (¬Known loads → ∃ e, elemCalc c T dc qs loads sol vel = .error e) := by
  refine ⟨fun h => ⟨?_, ?_⟩, fun h => ?_⟩
  · unfold elemCalc sideRes
    rw [fold_ok (loadRes c sol) (surface c sol) loads fun f L hL => loadRes_ok c sol f L (h L hL)]
    simp only [zero_add]; rfl
  · unfold elemJac sideJac
    rw [fold_okM (loadJac c sol) (surfaceJac c sol) loads fun f L hL => loadJac_ok c sol f L (h L hL)]
    simp only [zero_add]; rfl
  · unfold Known at h
    push Not at h
    obtain ⟨L, hL, ht⟩ := h
    obtain ⟨e, he⟩ := fold_err (loadRes c sol) loads L hL (fun f => ⟨.error, by unfold loadRes; rw [ht]⟩) fun v a => 0 + internalRes c T dc qs sol v a
    exact ⟨e, by unfold elemCalc sideRes; rw [he]; rfl⟩

/-- C173: the order of the sides and of the conditions of a side does not matter. -/
theorem C173_order (c : Ctx) (T : Tau) (dc : Shock) (qs : List Qp) (loads loads' : List Load) (hp : loads.Perm loads') (h : Known loads) (sol vel : Field) :
    elemCalc c T dc qs loads sol vel = elemCalc c T dc qs loads' sol vel := by
  have h' : Known loads' := fun L hL => h L (hp.mem_iff.2 hL)
  rw [((C173_residual c T dc qs loads sol vel).1 h).1, ((C173_residual c T dc qs loads' sol vel).1 h').1]
  congr 2
  funext v a
  rw [(hp.map fun L => surface c sol L v a).sum_eq]

/-- Hypotheses under which the Jacobian of a condition is exact: density nonzero at the points of walls; supersonic outflow or free stream state at the far field. -/
def Tame (c : Ctx) (sol : Field) (L : Load) : Prop :=
  L.type ≠ .noslip ∧ L.type ≠ .other ∧ (∀ q ∈ L.qs, interp c q.phi sol .rho ≠ 0) ∧
    (L.type = .far → ∀ q ∈ L.qs, 0 < (prim c.d (interp c q.phi sol) c.cp c.cv false).T ∧ UnitNormal c.d q.n ∧ Exact c (interp c q.phi sol) (L.inf q.toSideQp) q.n)

/-- C173 (walls that slip, symmetry planes, and far fields where C143 holds; no slip walls excepted, see C145): the side part of the Jacobian is the derivative of the side part of the residual in every direction. -/
theorem C173_jacobian_partial (c : Ctx) (hd : c.d = 1 ∨ c.d = 2 ∨ c.d = 3) (hv : 0 < c.cv) (hc : c.cv < c.cp) (loads : List Load) (sol D : Field) (h : ∀ L ∈ loads, Tame c sol L) (f : Field) (v : Var) (a : Nat) :
    ∃ J, sideJac c loads sol (fun _ _ _ _ => 0) = .ok J ∧ ∃ R : ℝ → Field, (∀ t, sideRes c loads (moved sol D t) f = .ok (R t)) ∧ HasDerivAt (fun t => R t v a) (jacMul c (J v a) D) 0 := by
  have hk : Known loads := fun L hL => (h L hL).2.1
  refine ⟨_, fold_okM (loadJac c sol) (surfaceJac c sol) loads (fun f L hL => loadJac_ok c sol f L (hk L hL)) _, _,
    fun t => fold_ok (loadRes c (moved sol D t)) (surface c (moved sol D t)) loads (fun f L hL => loadRes_ok c _ f L (hk L hL)) _, ?_⟩
  simp only [zero_add]
  rw [jacMul_list c loads (fun L u b => surfaceJac c sol L v a u b) D]
  refine HasDerivAt.const_add _ (hasDerivAt_listsum loads (fun t L => surface c (moved sol D t) L v a) _ fun L hL => ?_)
  obtain ⟨h1, h2, h3, h4⟩ := h L hL
  have hp : ∀ q ∈ L.qs.map (·.toSideQp), interp c q.phi sol .rho ≠ 0 := by
    intro q hq; obtain ⟨q', hq', rfl⟩ := List.mem_map.1 hq; exact h3 q' hq'
  have hw : ∀ q ∈ L.qs.map (·.toWallQp), interp c q.phi sol .rho ≠ 0 := by
    intro q hq; obtain ⟨q', hq', rfl⟩ := List.mem_map.1 hq; exact h3 q' hq'
  unfold surface surfaceJac
  cases ht : L.type with
  | symmetry => exact (C145_symmetry c hd hv.ne' _ sol D hp v a).2.2
  | slip => exact C145_slip_jacobian c hd hv.ne' _ sol D hw v a
  | noslip => exact absurd ht h1
  | far =>
    have h5 := h4 ht
    refine C143_jacobian_partial c hd hv hc _ L.inf sol D hp ?_ ?_ ?_ v a
    · intro q hq; obtain ⟨q', hq', rfl⟩ := List.mem_map.1 hq; exact (h5 q' hq').1
    · intro q hq; obtain ⟨q', hq', rfl⟩ := List.mem_map.1 hq; exact (h5 q' hq').2.1
    · intro q hq; obtain ⟨q', hq', rfl⟩ := List.mem_map.1 hq; exact (h5 q' hq').2.2
  | dirichlet =>
    have : jacMul c (fun _ _ => 0) D = 0 := by unfold jacMul; simp
    rw [this]; exact hasDerivAt_const _ _
  | other => exact absurd ht h2

/-- C173: the linearised product of an element is `J_x δ + J_xdot δ'` of the interior and the mass terms plus the change of the side residuals with the solution and the motion of the walls; without no slip walls. -/
theorem C173_product_partial (c : Ctx) (T : Tau) (dc : Shock) (qs : List Qp) (hd : c.d = 1 ∨ c.d = 2 ∨ c.d = 3) (hv : 0 < c.cv) (hc : c.cv < c.cp) (loads : List Load) (sol D Dv : Field) (h : ∀ L ∈ loads, Tame c sol L) (v : Var) (a : Nat) :
    ∃ f, elemProduct c T dc qs loads sol D Dv = .ok f ∧ ∃ S, HasDerivAt (fun t => (loads.map fun L => surfaceAt c (moved sol D t) t L v a).sum) S 0 ∧
      f v a = jacMul c (internalJac c T dc qs sol v a) D + jacMul c (velocityJacXdot c T qs sol v a) Dv + S := by
  let g : Load → Field := fun L => match L.type with
    | .symmetry => fun v a => jacMul c (symJac c L.pts sol v a) D
    | .slip => linSlipRes c L.qs sol D
    | .far => fun v a => jacMul c (farJac c L.pts sol v a) D
    | _ => fun _ _ => 0
  have hstep : ∀ f, ∀ L ∈ loads, loadLin c sol D f L = .ok fun v a => f v a + g L v a := by
    intro f L hL
    obtain ⟨h1, h2, -, -⟩ := h L hL
    show loadLin c sol D f L = .ok fun v a => f v a + (match L.type with
      | .symmetry => fun v a => jacMul c (symJac c L.pts sol v a) D
      | .slip => linSlipRes c L.qs sol D
      | .far => fun v a => jacMul c (farJac c L.pts sol v a) D
      | _ => fun _ _ => 0 : Field) v a
    unfold loadLin
    cases ht : L.type <;> simp_all
  refine ⟨_, by unfold elemProduct sideLin; rw [fold_ok (loadLin c sol D) g loads hstep]; rfl, (loads.map fun L => g L v a).sum, ?_, ?_⟩
  · refine hasDerivAt_listsum loads (fun t L => surfaceAt c (moved sol D t) t L v a) (fun L => g L v a) fun L hL => ?_
    obtain ⟨h1, h2, h3, h4⟩ := h L hL
    have hp : ∀ q ∈ L.qs.map (·.toSideQp), interp c q.phi sol .rho ≠ 0 := by
      intro q hq; obtain ⟨q', hq', rfl⟩ := List.mem_map.1 hq; exact h3 q' hq'
    show HasDerivAt _ ((match L.type with
      | .symmetry => fun v a => jacMul c (symJac c L.pts sol v a) D
      | .slip => linSlipRes c L.qs sol D
      | .far => fun v a => jacMul c (farJac c L.pts sol v a) D
      | _ => fun _ _ => 0 : Field) v a) 0
    unfold surfaceAt surface
    cases ht : L.type with
    | symmetry => exact (C145_symmetry c hd hv.ne' _ sol D hp v a).2.2
    | slip => exact C145_linearized c L.qs sol D h3 v a
    | noslip => exact absurd ht h1
    | far =>
      have h5 := h4 ht
      refine C143_jacobian_partial c hd hv hc _ L.inf sol D hp ?_ ?_ ?_ v a
      · intro q hq; obtain ⟨q', hq', rfl⟩ := List.mem_map.1 hq; exact (h5 q' hq').1
      · intro q hq; obtain ⟨q', hq', rfl⟩ := List.mem_map.1 hq; exact (h5 q' hq').2.1
      · intro q hq; obtain ⟨q', hq', rfl⟩ := List.mem_map.1 hq; exact (h5 q' hq').2.2
    | dirichlet => exact hasDerivAt_const _ _
    | other => exact absurd ht h2
  · have : jacMul c (fun _ _ => 0) D = 0 := by unfold jacMul; simp
    simp only [this, zero_add]
    unfold linInternalRes
    ring

/-- C173 (violated): a viscous flow with a no slip wall has a residual and a Jacobian, and no linearised product: the call ends in an error. -/
theorem C173_noslip_product_fails (c : Ctx) (T : Tau) (dc : Shock) (qs : List Qp) (L : Load) (hL : L.type = .noslip) (sol vel D Dv : Field) :
    (∃ r, elemCalc c T dc qs [L] sol vel = .ok r) ∧ (∃ J, elemJac c T dc qs [L] sol = .ok J) ∧ elemProduct c T dc qs [L] sol D Dv = .error .error := by
  have hk : Known [L] := by intro L' h'; rw [List.mem_singleton.1 h', hL]; simp
  refine ⟨⟨_, ((C173_residual c T dc qs [L] sol vel).1 hk).1⟩, ⟨_, ((C173_residual c T dc qs [L] sol vel).1 hk).2⟩, ?_⟩
  unfold elemProduct sideLin
  rw [List.foldlM_cons]
  unfold loadLin
  rw [hL]; rfl

/-- What a condition contributes to the sensitivity: far fields only. -/
noncomputable def farPart (c : Ctx) (fl : Flight) (sol : Field) (L : Load) : Field := fun v a => if L.type = .far then (farResSens c (L.qs.map (·.toSideQp)) fl sol v a).getD 0 else 0

theorem elemSens_two (c : Ctx) (hd : c.d = 2) (fl : Flight) (loads : List Load) (h : Known loads) (sol : Field) :
    elemSens c fl loads sol = .ok (fun _ _ => 0, fun v a => (loads.map fun L => farPart c fl sol L v a).sum) := by
  have hne : farSensVec c.d fl ≠ none := by rw [hd]; simp [farSensVec, varIdx]
  unfold elemSens sideSens
  rw [fold_ok (loadSens c fl sol) (farPart c fl sol) loads]
  · simp only [zero_add]; rfl
  · intro f L hL
    unfold loadSens farPart wallSens Load.pts
    have := h L hL
    cases ht : L.type <;> simp_all

/-- C173 (the only case that works): in two dimensions, for the density of the free stream at fixed velocity and temperature, and a free stream taken from the flight condition, the sensitivity of the element is the
derivative of its residual: all conditions and the interior included. -/
theorem C173_density_partial (c : Ctx) (hd : c.d = 2) (T : Tau) (dc : Shock) (qs : List Qp) (fl : Flight) (hr : fl.rho ≠ 0) (loads : List Load) (h : Known loads) (sol vel : Field) (v : Var) (a : Nat) :
    ∃ S, elemSens c fl loads sol = .ok S ∧ ∃ R : ℝ → Field × Field, (∀ r, elemCalc c T dc qs (loads.map fun L => { L with inf := fun _ => infVars 2 { fl with rho := r } }) sol vel = .ok (R r)) ∧
      HasDerivAt (fun r => (R r).1 v a) (S.1 v a) fl.rho ∧ HasDerivAt (fun r => (R r).2 v a) (S.2 v a) fl.rho := by
  refine ⟨_, elemSens_two c hd fl loads h sol, _, fun r => ((C173_residual c T dc qs _ sol vel).1 ?_).1, hasDerivAt_const _ _, ?_⟩
  · intro L hL; obtain ⟨L', hL', rfl⟩ := List.mem_map.1 hL; exact h L' hL'
  · simp only [List.map_map]
    refine HasDerivAt.const_add _ ?_
    have : ∀ l : List Load, (∀ L ∈ l, L.type ≠ .other) → HasDerivAt (fun r => (l.map ((fun L => surface c sol L v a) ∘ fun L => { L with inf := fun _ => infVars 2 { fl with rho := r } })).sum) (l.map fun L => farPart c fl sol L v a).sum fl.rho := by
      intro l
      induction l with
      | nil => intro _; simpa using hasDerivAt_const fl.rho (0:ℝ)
      | cons L l ih =>
        intro hl
        simp only [List.map_cons, List.sum_cons, Function.comp]
        refine HasDerivAt.fun_add ?_ (ih fun L' h' => hl L' (by simp [h']))
        unfold farPart surface
        cases ht : L.type with
        | far =>
          obtain ⟨x, hx, hder⟩ := C147_density_partial c hd fl hr (L.qs.map (·.toSideQp)) sol v a
          simp only [if_true, hx, Option.getD_some]
          exact hder
        | symmetry => simpa using hasDerivAt_const fl.rho _
        | slip => simpa using hasDerivAt_const fl.rho _
        | noslip => simpa using hasDerivAt_const fl.rho _
        | dirichlet => simpa using hasDerivAt_const fl.rho _
        | other => simpa using hasDerivAt_const fl.rho _
    exact this loads h

/-- Gas at rest at a symmetry plane of a line flow, density 1, energy 5. -/
def restLoad : Load := ⟨.symmetry, [{ toSideQp := wallPt, dw := fun _ => 0, dn := fun _ => 0, Dw := fun _ => 0, Dn := fun _ => 0 }], fun _ _ => 0⟩

/-- C173 (violated for every other parameter): the heat capacity at constant pressure changes the pressure on a wall, at the rate 1 here; the sensitivity of the element is zero. -/
theorem C173_gas_fails : ∃ (c : Ctx) (fl : Flight) (sol : Field), elemSens c fl [restLoad] sol = .ok (fun _ _ => 0, fun _ _ => 0) ∧
    ∀ (T : Tau) (dc : Shock) (vel : Field), ∃ R : ℝ → Field × Field, (∀ x, elemCalc { c with cp := x } T dc [] [restLoad] sol vel = .ok (R x)) ∧ HasDerivAt (fun x => (R x).2 .m1 0) 1 c.cp := by
  refine ⟨⟨1, 2, 7, 5, false⟩, ⟨1, 1, 1, 7, 5, fun _ => 0⟩, fun v _ => match v with | .rho => 1 | .en => 5 | _ => 0, ?_, ?_⟩
  · unfold elemSens sideSens
    rw [List.foldlM_cons]
    rfl
  · intro T dc vel
    refine ⟨_, fun x => ((C173_residual _ T dc [] [restLoad] _ vel).1 (by intro L hL; rw [List.mem_singleton.1 hL]; simp [restLoad])).1, ?_⟩
    have : (fun x : ℝ => x - 5) = fun x : ℝ => internalRes ⟨1, 2, x, 5, false⟩ T dc [] (fun v _ => match v with | .rho => 1 | .en => 5 | _ => 0) .m1 0 +
        (([restLoad].map fun L => surface ⟨1, 2, x, 5, false⟩ (fun v _ => match v with | .rho => 1 | .en => 5 | _ => 0) L .m1 0)).sum := by
      funext x
      simp [internalRes, surface, restLoad, symRes, momEntry, stateAt, interp, act, wallPt, prim, at', Finset.sum_range_succ]
    refine HasDerivAt.congr_of_eventuallyEq ((hasDerivAt_id' (7:ℝ)).sub_const 5) (Filter.Eventually.of_forall fun x => (congrFun this x).symm)

/-- C173 (violated): on a line the sensitivity at a far field writes outside its vector. -/
theorem C173_line_fails (c : Ctx) (hd : c.d = 1) (fl : Flight) (L : Load) (hL : L.type = .far) (sol : Field) : elemSens c fl [L] sol = .error .ub := by
  have hn : farSensVec c.d fl = none := by rw [hd]; simp [farSensVec, varIdx]
  unfold elemSens sideSens
  rw [List.foldlM_cons]
  unfold loadSens
  rw [hL]
  simp only [hn, if_true]
  rfl

/-- Non-vacuity: a plane flow at rest with a symmetry side satisfies the hypotheses; so does the line flow of the counterexample. -/
example : Tame ⟨1, 2, 7, 5, false⟩ (fun v _ => match v with | .rho => 1 | .en => 5 | _ => 0) restLoad ∧ Known [restLoad] := by
  refine ⟨⟨by simp [restLoad], by simp [restLoad], ?_, by simp [restLoad]⟩, ?_⟩
  · intro q hq
    simp only [restLoad, List.mem_singleton] at hq
    subst hq
    simp [interp, act, wallPt, Finset.sum_range_succ]
  · intro L hL; rw [List.mem_singleton.1 hL]; simp [restLoad]

end Verif.FluidOps
