import Verif.Model.TransientHeat
import Verif.Props.TransientAsm
import Verif.Props.TransientSens
import Verif.Props.SteadySens
import Mathlib.Tactic.IntervalCases
import Mathlib.Tactic.NormNum
import Mathlib.Tactic.FinCases
import Mathlib.Tactic.Linarith
/-
  C197: sensitivity of a transient analysis of a first order system, from the elements to the end of the run, and transient heat conduction.
-/
namespace Verif.TrHeat
open Verif Verif.Transient Verif.TrAsm
open Finset (range mem_range sum_congr sum_add_distrib sum_sub_distrib mul_sum)

/-! ### Specification -/

/-- An element of a first order system reports the rate of its forces along every motion of its temperatures and velocities with the parameter: sensitivities plus matrices times rates. -/
structure Consistent (e : TElem) (t₀ : ℝ) : Prop where
  shape : ∀ t, (e t).n = (e t₀).n ∧ (e t).dof = (e t₀).dof
  fits : ∀ b s, Fits (.first b) (e t₀) s
  rate : ∀ (σ : ℝ → ElemState (Nat → ℝ)) (d : ElemState (Nat → ℝ)), (∀ a < (e t₀).n, HasDerivAt (fun t => (σ t).x a) (d.x a) t₀ ∧ HasDerivAt (fun t => (σ t).v a) (d.v a) t₀) →
    ∀ i < (e t₀).n, HasDerivAt (fun t => (e t).fm (σ t) i + (e t).fx (σ t) i) ((e t₀).dfm (σ t₀) i + (e t₀).dfx (σ t₀) i + tangentM (e t₀) (σ t₀) d i + tangentX (e t₀) (σ t₀) d i) t₀

/-- One degree of freedom of the stored vectors. -/
def proj (c : Nat) (h : Hist (Nat → ℝ)) : Hist ℝ := ⟨fun i => h.sol i c, fun i => h.vel i c, fun i => h.acc i c, h.time⟩

/-- The stored sensitivities are the derivatives of the stored vectors of the analysis, at every degree of freedom. -/
def StoredDerivs (s : ℝ → Both (Nat → ℝ)) (t₀ : ℝ) : Prop := ∀ c, IsDeriv (fun t => proj c (s t).val) (proj c (s t₀).sens) t₀

/-- A run: every step (solution for each parameter value, its sensitivity, step size) solves the equations of the step for every parameter value, the sensitivity solves the linear system of `sensitivity_assemble`, the matrix is
regular, the solution is differentiable and its prescribed values do not depend on the parameter.  After the step analysis and sensitivity advance. -/
def SolvedRun (dbg : Bool) (C : Nat → Bool) (b : ℝ) (ps : List (List TElem)) (N : Nat) (t₀ : ℝ) : (ℝ → Both (Nat → ℝ)) → List ((ℝ → Nat → ℝ) × (Nat → ℝ) × ℝ) → Prop
  | _, [] => True
  | s, (X, dX, dt) :: l =>
    (∀ t d, residual C (.first b) false dt (s t).val (X t) (valued ps t) d = 0) ∧ (∀ c, DifferentiableAt ℝ (fun t => X t c) t₀) ∧ (∀ c, C c = true ∨ N ≤ c → ∀ t, X t c = X t₀ c) ∧ (∀ c, N ≤ c → dX c = 0) ∧
    (∀ y : Nat → ℝ, (∀ c, N ≤ c → y c = 0) → (∀ i < N, ∑ c ∈ range N, jacobian C (.first b) false dt (s t₀).val (X t₀) (valued ps t₀) i c * y c = 0) → y = 0) ∧
    (∃ rhs, sensRhs dbg C (.first b) dt (s t₀).val (s t₀).sens (X t₀) (valued ps t₀) = .ok rhs ∧
      ∀ i < N, ∑ c ∈ range N, jacobian C (.first b) false dt (s t₀).val (X t₀) (valued ps t₀) i c * dX c = -rhs i) ∧
    SolvedRun dbg C b ps N t₀ (fun t => pairStep (fonSolver b) (s t) (X t) dX dt) l

/-! ### One step -/

theorem valued_flatten (ps : List (List TElem)) (t : ℝ) : (valued ps t).flatten = ps.flatten.map fun e => e t := by
  unfold valued
  rw [List.map_flatten]

/-- What the elements contribute to a degree of freedom moves with the parameter. -/
theorem gather_rate (els : List TElem) (t₀ : ℝ) (F : ℝ → Elem → Nat → ℝ) (F' : Elem → Nat → ℝ) (hs : ∀ e ∈ els, ∀ t, (e t).n = (e t₀).n ∧ (e t).dof = (e t₀).dof)
    (h : ∀ e ∈ els, ∀ a < (e t₀).n, HasDerivAt (fun t => F t (e t) a) (F' (e t₀) a) t₀) (d : Nat) : HasDerivAt (fun t => gather (F t) (els.map fun e => e t) d) (gather F' (els.map fun e => e t₀) d) t₀ := by
  induction els with
  | nil => exact hasDerivAt_const _ _
  | cons e l ih =>
    simp only [gather, List.map_cons, List.sum_cons] at ih ⊢
    refine HasDerivAt.fun_add ?_ (ih (fun e' h' => hs e' (List.mem_cons_of_mem _ h')) fun e' h' => h e' (List.mem_cons_of_mem _ h'))
    have e1 : (fun t => ∑ a ∈ range (e t).n, if (e t).dof a = d then F t (e t) a else 0) = fun t => ∑ a ∈ range (e t₀).n, if (e t₀).dof a = d then F t (e t) a else 0 := by
      funext t
      rw [(hs e List.mem_cons_self t).1, (hs e List.mem_cons_self t).2]
    rw [e1]
    refine HasDerivAt.fun_sum fun a ha => ?_
    by_cases hd : (e t₀).dof a = d
    · simp only [hd, if_true]; exact h e List.mem_cons_self a (mem_range.1 ha)
    · simp only [hd, if_false]; exact hasDerivAt_const _ _

/-- C197, one step: if the step is solved for all values of the parameter and the stored sensitivities are the derivatives of the stored vectors, then matrix times derivative of the solution is minus the assembled
sensitivity. -/
theorem C197_step (dbg : Bool) (C : Nat → Bool) (b dt : ℝ) (ps : List (List TElem)) (t₀ : ℝ) (N : Nat) (hN : ∀ e ∈ ps.flatten, ∀ a < (e t₀).n, (e t₀).dof a < N) (h : ℝ → Hist (Nat → ℝ)) (hs : Hist (Nat → ℝ))
    (X : ℝ → Nat → ℝ) (w : Nat → ℝ) (hX : ∀ c, HasDerivAt (fun p => X p c) (w c) t₀) (hw : ∀ c, C c = true → w c = 0)
    (hh : ∀ c, HasDerivAt (fun p => (h p).sol 1 c) (hs.sol 1 c) t₀ ∧ HasDerivAt (fun p => (h p).vel 1 c) (hs.vel 1 c) t₀)
    (hsol : ∀ t d, residual C (.first b) false dt (h t) (X t) (valued ps t) d = 0) (hex : ∀ e ∈ ps.flatten, Consistent e t₀) :
    ∃ rhs, sensRhs dbg C (.first b) dt (h t₀) hs (X t₀) (valued ps t₀) = .ok rhs ∧ ∀ d, ∑ c ∈ range N, jacobian C (.first b) false dt (h t₀) (X t₀) (valued ps t₀) d c * w c = -rhs d := by
  have hproc := fun es => (show sensProc dbg C (.first b) dt (h t₀) hs (X t₀) es = _ from sens_ok C b dt dbg (h t₀) hs (X t₀) es (fun _ => 0))
  refine ⟨_, by unfold sensRhs; rw [mapM_ok _ _ (valued ps t₀) hproc]; rfl, fun d => ?_⟩
  have hN' : ∀ e ∈ (valued ps t₀).flatten, ∀ a < e.n, e.dof a < N := by
    rw [valued_flatten]
    intro e he
    obtain ⟨f, hf, rfl⟩ := List.mem_map.1 he
    exact hN f hf
  rw [jac_mul C _ false dt _ _ w (valued ps t₀) N hN' hw, List.map_map]
  simp only [Function.comp_def, fold_vec C (fun e a => e.dfm (elemState (.first b) (h t₀) (localQty (.first b) false dt (h t₀) (X t₀)) e) a + e.dfx (elemState (.first b) (h t₀) (localQty (.first b) false dt (h t₀) (X t₀)) e) a
      + -1 * ∑ j ∈ range e.n, (e.B (elemState (.first b) (h t₀) (localQty (.first b) false dt (h t₀) (X t₀)) e)).m_xd a j * ((1 / b / dt) * hs.sol 1 (e.dof j) + (1 - b) / b * hs.vel 1 (e.dof j))), zero_add]
  by_cases hd : C d = true
  · simp [hd]
  simp only [hd, Bool.false_eq_true, if_false]
  rw [gather_flatten]
  simp only [state_eq]
  let dir : Elem → ElemState (Nat → ℝ) := fun e => restrict e ⟨w, fun c => 1 / b / dt * (w c - hs.sol 1 c) - (1 - b) / b * hs.vel 1 c, 0⟩
  have hder := gather_rate ps.flatten t₀ (fun p e => elemVec e (restrict e (stepState (.first b) dt (h p) (X p))))
    (fun e a => e.dfm (restrict e (stepState (.first b) dt (h t₀) (X t₀))) a + e.dfx (restrict e (stepState (.first b) dt (h t₀) (X t₀))) a
      + tangentM e (restrict e (stepState (.first b) dt (h t₀) (X t₀))) (dir e) a + tangentX e (restrict e (stepState (.first b) dt (h t₀) (X t₀))) (dir e) a)
    (fun e he => (hex e he).shape)
    (fun e he a ha => by
      have e1 : (fun t => elemVec (e t) (restrict (e t) (stepState (.first b) dt (h t) (X t))) a) = fun t => elemVec (e t) (restrict (e t₀) (stepState (.first b) dt (h t) (X t))) a := by
        funext t
        unfold restrict
        rw [((hex e he).shape t).2]
      rw [e1]
      refine (hex e he).rate (fun p => restrict (e t₀) (stepState (.first b) dt (h p) (X p))) (dir (e t₀)) (fun a _ => ?_) a ha
      refine ⟨hX _, ?_⟩
      simp only [restrict, stepState, fonVel, dir]
      have h1 := ((hX ((e t₀).dof a)).fun_sub (hh ((e t₀).dof a)).1).const_mul (1 / b / dt)
      have h2 := (hh ((e t₀).dof a)).2.const_mul (-(1 - b) / b)
      have h3 := h1.fun_add h2
      refine (h3.congr_deriv (by ring)).congr_of_eventuallyEq (Filter.Eventually.of_forall fun p => ?_)
      simp; ring) d
  have hzero : ∀ t, gather (fun e => elemVec e (restrict e (stepState (.first b) dt (h t) (X t)))) (ps.flatten.map fun e => e t) d = 0 := by
    intro t
    have := hsol t d
    rw [residual_eq] at this
    simp only [hd, Bool.false_eq_true, if_false, state_eq, valued_flatten] at this
    exact this
  have hz := (hasDerivAt_const t₀ (0:ℝ)).unique (hder.congr_of_eventuallyEq (f₁ := fun _ => (0:ℝ)) (Filter.Eventually.of_forall fun t => (hzero t).symm))
  rw [eq_neg_iff_add_eq_zero]
  refine Eq.trans ?_ hz.symm
  rw [valued_flatten]
  unfold gather
  rw [← List.sum_map_add]
  congr 1
  refine List.map_congr_left fun e' he' => ?_
  obtain ⟨f, hf, rfl⟩ := List.mem_map.1 he'
  have hfit := (hex f hf).fits b (restrict (f t₀) (stepState (.first b) dt (h t₀) (X t₀)))
  generalize f t₀ = e at hfit
  rw [← sum_add_distrib]
  refine sum_congr rfl fun a _ => ?_
  split
  · beta_reduce
    rw [mat_tangent (.first b) dt e _ hfit]
    have e1 : tangentM e (restrict e (stepState (.first b) dt (h t₀) (X t₀))) (dir e) a = tangentM e (restrict e (stepState (.first b) dt (h t₀) (X t₀))) (restrict e (stepDir (.first b) dt w)) a
        + -1 * ∑ j ∈ range e.n, (e.B (restrict e (stepState (.first b) dt (h t₀) (X t₀)))).m_xd a j * ((1 / b / dt) * hs.sol 1 (e.dof j) + (1 - b) / b * hs.vel 1 (e.dof j)) := by
      unfold tangentM
      rw [mul_sum, ← sum_add_distrib]
      refine sum_congr rfl fun j _ => ?_
      simp only [dir, restrict, stepDir, Pi.zero_apply]; ring
    have e2 : tangentX e (restrict e (stepState (.first b) dt (h t₀) (X t₀))) (dir e) a = tangentX e (restrict e (stepState (.first b) dt (h t₀) (X t₀))) (restrict e (stepDir (.first b) dt w)) a := by
      unfold tangentX
      refine sum_congr rfl fun j _ => ?_
      have hx := congrFun (congrFun hfit.2 a) j
      rw [hx]; simp only [dir, restrict, stepDir, Pi.zero_apply]; ring
    rw [e1, e2]; ring
  · ring

/-! ### Runs -/

theorem proj_setAt (f : Nat → Nat → ℝ) (k : Nat) (x : Nat → ℝ) (c i : Nat) : setAt f k x i c = setAt (fun i => f i c) k (x c) i := by
  unfold setAt
  split <;> rfl

/-- All vectors of one degree of freedom. -/
def projB (c : Nat) (s : Both (Nat → ℝ)) : Both ℝ := ⟨fun i => s.sol i c, fun i => s.vel i c, fun i => s.acc i c, fun i => s.dsol i c, fun i => s.dvel i c, fun i => s.dacc i c, s.time, s.first, s.firstSens⟩

theorem projB_step (b : ℝ) (c : Nat) (s : Both (Nat → ℝ)) (x dx : Nat → ℝ) (dt : ℝ) : projB c (pairStep (fonSolver b) s x dx dt) = pairStep (fonSolver b) (projB c s) (x c) (dx c) dt := by
  have h : ∀ (h : Hist (Nat → ℝ)) (x : Nat → ℝ), proj c (advance (fonSolver b) h x dt false) = advance (fonSolver b) (proj c h) (x c) dt false := by
    intro h x
    unfold advance
    simp only [fonSolver, shiftLoop, shiftBody, proj, proj_setAt, fonVel, Nat.lt_irrefl, gt_iff_lt, if_false, Bool.false_eq_true]
    simp [setAt]
    constructor <;> (funext i; unfold setAt; split_ifs <;> first | rfl | ring)
  rw [pairStep_eq, pairStep_eq]
  have h1 := h s.val x
  have h2 := h s.sens dx
  have e1 : (projB c s).val = proj c s.val := rfl
  have e2 : (projB c s).sens = proj c s.sens := rfl
  rw [e1, e2, ← h1, ← h2]
  rfl

/-- C197, whole runs of the first order solver on any mesh: if the elements are consistent, every step is solved for every parameter value and every sensitivity solves the system the assembly delivers, then the sensitivities
are the derivatives of the solutions, and the vectors stored at the end are the derivatives of the vectors stored by the analysis. -/
theorem C197_runs (dbg : Bool) (C : Nat → Bool) (b : ℝ) (ps : List (List TElem)) (N : Nat) (t₀ : ℝ) (hN : ∀ e ∈ ps.flatten, ∀ a < (e t₀).n, (e t₀).dof a < N) (hex : ∀ e ∈ ps.flatten, Consistent e t₀)
    (s : ℝ → Both (Nat → ℝ)) (h0 : StoredDerivs s t₀) (steps : List ((ℝ → Nat → ℝ) × (Nat → ℝ) × ℝ)) (hrun : SolvedRun dbg C b ps N t₀ s steps) :
    (∀ k ∈ steps, ∀ c, HasDerivAt (fun t => k.1 t c) (k.2.1 c) t₀) ∧ StoredDerivs (fun t => pairRun (fonSolver b) (s t) (steps.map fun k => (k.1 t, k.2.1, k.2.2))) t₀ := by
  induction steps generalizing s with
  | nil => exact ⟨by simp, h0⟩
  | cons k l ih =>
    obtain ⟨X, dX, dt⟩ := k
    obtain ⟨hres, hdiff, hcon, hbeyond, hreg, ⟨rhs, hrhs, hlin⟩, hl⟩ := hrun
    have hX : ∀ c, HasDerivAt (fun t => X t c) (dX c) t₀ := by
      have hw : ∀ c, C c = true ∨ N ≤ c → deriv (fun t => X t c) t₀ = 0 := by
        intro c hc
        have : (fun t => X t c) = fun _ => X t₀ c := funext fun t => hcon c hc t
        rw [this, deriv_const]
      obtain ⟨rhs', hr', hlin'⟩ := C197_step dbg C b dt ps t₀ N hN (fun t => (s t).val) (s t₀).sens X (fun c => deriv (fun t => X t c) t₀) (fun c => (hdiff c).hasDerivAt) (fun c hc => hw c (Or.inl hc))
        (fun c => ⟨(h0 c).sol 1, (h0 c).vel 1⟩) hres hex
      obtain rfl : rhs = rhs' := Except.ok.inj (hrhs.symm.trans hr')
      have hz := hreg (fun c => deriv (fun t => X t c) t₀ - dX c) (fun c hc => by simp only [hw c (Or.inr hc), hbeyond c hc, sub_zero]) (fun i hi => by
        simp only [mul_sub, sum_sub_distrib]
        rw [hlin' i, hlin i hi, sub_self])
      intro c
      have := congrFun hz c
      have e : dX c = deriv (fun t => X t c) t₀ := by simp only [Pi.zero_apply] at this; linarith
      rw [e]
      exact (hdiff c).hasDerivAt
    have hp : StoredDerivs (fun t => pairStep (fonSolver b) (s t) (X t) dX dt) t₀ := by
      intro c
      have := pair_deriv (fonSolver (V := ℝ) b) (C178_formulas b 0).1 (fun t => projB c (s t)) t₀ (h0 c) (fun t => X t c) (dX c) dt (hX c)
      simp only [← projB_step] at this
      exact this
    obtain ⟨i1, i2⟩ := ih _ hp hl
    refine ⟨fun k hk => ?_, i2⟩
    rcases List.mem_cons.1 hk with rfl | hk
    · exact hX
    · exact i1 k hk

/-! ### Heat conduction -/

section
open Verif.SecDep Verif.HeatCard Verif.Steady

variable {n d : Nat} {X : Type}

theorem cap_diff {h : Fn.Heap} {P : Fns} (hP : AllFields h P) {E : Type} [NormedAddCommGroup E] [NormedSpace ℝ E] (val : E → Nat → ℝ) (z : E) (hv : ∀ y, isField h y = true → DifferentiableAt ℝ (fun z => val z y) z) :
    DifferentiableAt ℝ (fun z => cap P (val z)) z := by
  have hk : DifferentiableAt ℝ (fun z => Material.capacitance (val z P.cp) (val z P.rho)) z := by
    unfold Material.capacitance
    exact (hv _ hP.2.2.2).fun_mul (hv _ hP.2.2.1)
  have hs := hP.1
  unfold cap
  cases hz : P.size with
  | area hy hz' =>
    rw [hz] at hs
    exact hk.fun_mul ((hv _ hs.1).fun_mul (hv _ hs.2))
  | thickness h' =>
    rw [hz] at hs
    exact hk.fun_mul (hv _ hs)
  | unit => exact hk

/-- What a point of the element adds to the matrix of the velocities. -/
noncomputable def capTerm (D : Data X) (P : Fns) (v : Nat → ℝ) (p : Nat) (active : Bool) (a b : Fin n) (q : Heat.Qp n d X) (z : (Fin n → ℝ) × ℝ) : ℝ :=
  q.JxW * cap P (fun y => D.F.val (Function.update v p z.2) y (q.x, if active then some (Heat.interp q z.1) else none)) * (q.phi a * q.phi b)

/-- The matrix of the velocities is differentiable in temperatures and parameter together. -/
theorem xdot_diff {h : Fn.Heap} {D : Data X} {v : Nat → ℝ} {p : Nat} (hj : JointDerivs h D v p) {P : Fns} (hP : AllFields h P) (active diag : Bool) (pts : List (Heat.Qp n d X)) (u : Fin n → ℝ) (a b : Fin n) :
    DifferentiableAt ℝ (fun z : (Fin n → ℝ) × ℝ => Heat.velJacXdot (matOf D P d active diag (Function.update v p z.2) p) true pts z.1 a b) (u, v p) := by
  have hm : ∀ b, DifferentiableAt ℝ (fun z : (Fin n → ℝ) × ℝ => Heat.massMat (matOf D P d active diag (Function.update v p z.2) p) pts z.1 a b) (u, v p) := by
    intro b
    have e : (fun z : (Fin n → ℝ) × ℝ => Heat.massMat (matOf D P d active diag (Function.update v p z.2) p) pts z.1 a b) = fun z => (pts.map fun q => capTerm D P v p active a b q z).sum := rfl
    rw [e]
    refine list_diff pts (fun q z => capTerm D P v p active a b q z) _ fun q _ => ?_
    unfold capTerm
    exact ((differentiableAt_const _).fun_mul (cap_diff hP (fun z y => D.F.val (Function.update v p z.2) y (q.x, if active then some (Heat.interp q z.1) else none)) (u, v p) (fun y hy => val_diff hj hy q active u))).fun_mul
      (differentiableAt_const _)
  cases diag with
  | false => exact hm b
  | true =>
    simp only [Heat.velJacXdot, matOf, if_true, Heat.lump]
    by_cases hab : a = b
    · simp only [hab, if_true]
      subst hab
      exact DifferentiableAt.fun_sum fun j _ => hm j
    · simp only [hab, if_false]
      exact differentiableAt_const _

/-- Derivative of the velocity residual for the temperature, unless it is lumped and depends on the temperature. -/
theorem vel_temp (m : Heat.Mat d X) (hm : Heat.MatSmooth m) (hd : m.diag = false ∨ m.active = false) (pts : List (Heat.Qp n d X)) (u w : Fin n → ℝ) :
    Heat.IsJacobian (fun u => Heat.velRes m pts u w) (Heat.velJac m true pts u w) u := by
  rcases hd with hd | ha
  · exact Heat.C106_velocity_partial m hm hd pts u w
  · intro δ a
    have e1 : (fun t : ℝ => Heat.velRes m pts (fun b => u b + t * δ b) w a) = fun _ => Heat.velRes m pts u w a := by
      funext t
      simp [Heat.velRes, Heat.lump, Heat.massMat, Heat.velLocal, Heat.temp, ha]
    have e2 : ∑ b, Heat.velJac m true pts u w a b * δ b = 0 := by
      refine Finset.sum_eq_zero fun b _ => ?_
      simp [Heat.velJac, ha]
    rw [e2]
    simp only [e1]
    exact hasDerivAt_const _ _

/-- The velocity residual along a motion of temperatures, velocities and parameter. -/
theorem vel_rate {hp : Fn.Heap} {D : Data X} {v : Nat → ℝ} {p : Nat} (hj : JointDerivs hp D v p) {P : Fns} (hP : AllFields hp P) (active diag : Bool) (hd : diag = false ∨ active = false) (pts : List (Heat.Qp n d X))
    (U W : ℝ → Fin n → ℝ) (U' W' : Fin n → ℝ) (hU : ∀ b, HasDerivAt (fun t => U t b) (U' b) (v p)) (hW : ∀ b, HasDerivAt (fun t => W t b) (W' b) (v p)) (a : Fin n) :
    HasDerivAt (fun t => Heat.velRes (matOf D P d active diag (Function.update v p t) p) pts (U t) (W t) a)
      (Heat.velSens (matOf D P d active diag v p) pts (U (v p)) (W (v p)) a + ∑ b, Heat.velJacXdot (matOf D P d active diag v p) true pts (U (v p)) a b * W' b
        + ∑ b, Heat.velJac (matOf D P d active diag v p) true pts (U (v p)) (W (v p)) a b * U' b) (v p) := by
  let K : (Fin n → ℝ) × ℝ → Fin n → ℝ := fun z b => Heat.velJacXdot (matOf D P d active diag (Function.update v p z.2) p) true pts z.1 a b
  have hK : ∀ b, DifferentiableAt ℝ (fun z => K z b) (U (v p), v p) := fun b => xdot_diff hj hP active diag pts (U (v p)) a b
  have hres : ∀ (u w : Fin n → ℝ) (t : ℝ), Heat.velRes (matOf D P d active diag (Function.update v p t) p) pts u w a = ∑ b, K (u, t) b * w b := fun u w t => Heat.C106_rate _ pts u w a
  -- temperatures and parameter move, velocities do not
  have h1 : HasDerivAt (fun t => ∑ b, K (U t, t) b * W (v p) b) (Heat.velSens (matOf D P d active diag v p) pts (U (v p)) (W (v p)) a
      + ∑ b, Heat.velJac (matOf D P d active diag v p) true pts (U (v p)) (W (v p)) a b * U' b) (v p) := by
    refine joint_rate (R := fun z => ∑ b, K z b * W (v p) b) (u := U (v p)) (w := U') (DifferentiableAt.fun_sum fun b _ => (hK b).fun_mul (differentiableAt_const _)) ?_ ?_ U hU rfl
    · have key := Heat.C108_velocity (fun t => matOf D P d active diag (path v p t) p) (mat_family (joint_derivs hj) hP active diag) pts (U (v p)) (W (v p)) a
      simp only [path_zero] at key
      refine (unshift_deriv (F := fun t => ∑ b, K (U (v p), t) b * W (v p) b) ?_)
      refine key.congr_of_eventuallyEq (Filter.Eventually.of_forall fun t => ?_)
      exact (hres _ _ (v p + t)).symm
    · have key := vel_temp (matOf D P d active diag v p) (smooth (joint_temp hj) hP active diag p) hd pts (U (v p)) (W (v p)) U' a
      refine key.congr_of_eventuallyEq (Filter.Eventually.of_forall fun t => ?_)
      have := hres (fun b => U (v p) b + t * U' b) (W (v p)) (v p)
      rw [Function.update_eq_self] at this
      exact this.symm
  -- velocities move
  have h2 : HasDerivAt (fun t => ∑ b, K (U t, t) b * (W t b - W (v p) b)) (∑ b, Heat.velJacXdot (matOf D P d active diag v p) true pts (U (v p)) a b * W' b) (v p) := by
    refine HasDerivAt.fun_sum fun b _ => ?_
    have hk : DifferentiableAt ℝ (fun t => K (U t, t) b) (v p) := by
      have hc : DifferentiableAt ℝ (fun t : ℝ => ((U t, t) : (Fin n → ℝ) × ℝ)) (v p) := (differentiableAt_pi.2 fun b => (hU b).differentiableAt).prodMk differentiableAt_id
      exact (hK b).comp (v p) (f := fun t : ℝ => ((U t, t) : (Fin n → ℝ) × ℝ)) hc
    refine (hk.hasDerivAt.fun_mul ((hW b).sub_const (W (v p) b))).congr_deriv ?_
    have : K (U (v p), v p) b = Heat.velJacXdot (matOf D P d active diag v p) true pts (U (v p)) a b := by simp only [K, Function.update_eq_self]
    rw [this]
    ring
  have h3 := h1.fun_add h2
  refine (h3.congr_deriv (by ring)).congr_of_eventuallyEq (Filter.Eventually.of_forall fun t => ?_)
  show Heat.velRes _ _ _ _ _ = _
  rw [hres]
  beta_reduce
  rw [← Finset.sum_add_distrib]
  exact Finset.sum_congr rfl fun b _ => by ring

/-- C197: a heat conduction element of a transient analysis is consistent for every parameter that is not a radiation constant, if the capacity is not lumped or does not depend on the temperature (partial: otherwise
C197_lumped_fails). -/
theorem C197_heat_partial (Q : Problem n d X) (D : Data X) (v : Nat → ℝ) (p : Nat) (hj : JointDerivs Q.hp D v p) (hs : ∀ l ∈ Q.side, LoadOk Q.hp p l.2) (hvl : ∀ l ∈ Q.vol, LoadOk Q.hp p l.2)
    (hd : Q.diag = false ∨ Q.active = false) (u₀ w₀ r r' : Fin n → ℝ) (h : HeatCard.residual Q D u₀ p v = .ok r) (h' : HeatCard.rate Q D u₀ w₀ p v = .ok r') (dof : Nat → Nat) :
    Consistent (heatTr Q D v p dof) (v p) := by
  refine ⟨fun t => ⟨rfl, rfl⟩, fun b s => ⟨rfl, rfl⟩, fun σ δ hσ i hi => ?_⟩
  have hi : i < n := hi
  have hσ : ∀ a < n, HasDerivAt (fun t => (σ t).x a) (δ.x a) (v p) ∧ HasDerivAt (fun t => (σ t).v a) (δ.v a) (v p) := hσ
  obtain ⟨P, hP, h'⟩ := bind_inv h'
  have hF := fns_fields hP
  have hm := vel_rate hj hF Q.active Q.diag hd Q.e.pts (fun t (a : Fin n) => (σ t).x a) (fun t (a : Fin n) => (σ t).v a) (fun a : Fin n => δ.x a) (fun a : Fin n => δ.v a) (fun b => (hσ b b.2).1) (fun b => (hσ b b.2).2) ⟨i, hi⟩
  have hx := heat_consistent Q D v p hj hs hvl u₀ r h dof true (fun t => (σ t).x) δ.x (fun a ha => (hσ a ha).1) i hi
  have f1 : (fun t => (heatTr Q D v p dof t).fm (σ t) i) = fun t => Heat.velRes (matOf D P d Q.active Q.diag (Function.update v p t) p) Q.e.pts (fun a : Fin n => (σ t).x a) (fun a : Fin n => (σ t).v a) ⟨i, hi⟩ := by
    funext t
    simp only [heatTr, HeatCard.rate, bind_ok hP]
    simp only [vec, pure, Except.pure, extE, dif_pos hi]
  have f2 : (heatTr Q D v p dof (v p)).dfm (σ (v p)) i = Heat.velSens (matOf D P d Q.active Q.diag v p) Q.e.pts (fun a : Fin n => (σ (v p)).x a) (fun a : Fin n => (σ (v p)).v a) ⟨i, hi⟩ := by
    simp only [heatTr, HeatCard.rateSens, bind_ok hP, Function.update_eq_self]
    simp only [vec, pure, Except.pure, extE, dif_pos hi]
  have f3 : tangentM (heatTr Q D v p dof (v p)) (σ (v p)) δ i =
      ∑ b, Heat.velJacXdot (matOf D P d Q.active Q.diag v p) true Q.e.pts (fun a : Fin n => (σ (v p)).x a) ⟨i, hi⟩ b * δ.v b
        + ∑ b, Heat.velJac (matOf D P d Q.active Q.diag v p) true Q.e.pts (fun a : Fin n => (σ (v p)).x a) (fun a : Fin n => (σ (v p)).v a) ⟨i, hi⟩ b * δ.x b := by
    unfold tangentM
    show ∑ j ∈ range n, _ = _
    rw [← Fin.sum_univ_eq_sum_range fun j => (((heatTr Q D v p dof (v p)).B (σ (v p))).m_xdd i j * δ.a j + ((heatTr Q D v p dof (v p)).B (σ (v p))).m_xd i j * δ.v j + ((heatTr Q D v p dof (v p)).B (σ (v p))).m_x i j * δ.x j),
      ← Finset.sum_add_distrib]
    refine Finset.sum_congr rfl fun b _ => ?_
    simp only [heatTr, rateXdot, rateJac, bind_ok hP, Function.update_eq_self]
    simp only [mat, pure, Except.pure, dif_pos hi, extE, dif_pos b.2, Pi.zero_apply]
    ring
  have f4 : (fun t => (heatTr Q D v p dof t).fx (σ t) i) = fun t => (heatElem Q D v p dof true).res t ((σ t).x) i := by
    funext t
    rfl
  have f5 : tangentX (heatTr Q D v p dof (v p)) (σ (v p)) δ i = ∑ b ∈ range (heatElem Q D v p dof true).n, (heatElem Q D v p dof true).jac (v p) (σ (v p)).x i b * δ.x b := by
    unfold tangentX
    refine Finset.sum_congr rfl fun b _ => ?_
    simp only [heatTr, Pi.zero_apply, zero_mul, zero_add]
    rfl
  have hsum := hm.fun_add hx
  have g : (fun t => (heatTr Q D v p dof t).fm (σ t) i + (heatTr Q D v p dof t).fx (σ t) i) = fun t => Heat.velRes (matOf D P d Q.active Q.diag (Function.update v p t) p) Q.e.pts (fun a : Fin n => (σ t).x a)
      (fun a : Fin n => (σ t).v a) ⟨i, hi⟩ + (heatElem Q D v p dof true).res t ((σ t).x) i := funext fun t => congrArg₂ (· + ·) (congrFun f1 t) (congrFun f4 t)
  rw [g]
  refine hsum.congr_deriv ?_
  rw [f2, f3, f5]
  show _ + (_ + _) = _ + (heatElem Q D v p dof true).sens (v p) (σ (v p)).x i + _ + _
  ring

/-- An element of transient heat conduction whose calculations succeed, with functions differentiable in parameter and temperature, loads of which only the radiation constants may not be the parameter, and a capacity that is not
lumped or does not depend on the temperature. -/
def IsHeatTr (v : Nat → ℝ) (p : Nat) (e : TElem) : Prop :=
  ∃ (n d : Nat) (X : Type) (Q : Problem n d X) (D : Data X) (dof : Nat → Nat) (u w r r' : Fin n → ℝ), e = heatTr Q D v p dof ∧ JointDerivs Q.hp D v p ∧ (∀ l ∈ Q.side, LoadOk Q.hp p l.2) ∧ (∀ l ∈ Q.vol, LoadOk Q.hp p l.2) ∧
    (Q.diag = false ∨ Q.active = false) ∧ HeatCard.residual Q D u p v = .ok r ∧ HeatCard.rate Q D u w p v = .ok r'

/-- C197: transient heat conduction on a mesh of bars, plates and solids with the first order solver, any step sizes and any number of steps: the sensitivities the solver computes are the derivatives of the temperatures, and the
stored sensitivity vectors the derivatives of the stored vectors (partial: not for radiation constants, not for a lumped capacity that depends on the temperature). -/
theorem C197_heat_runs_partial (dbg : Bool) (C : Nat → Bool) (b : ℝ) (ps : List (List TElem)) (N : Nat) (v : Nat → ℝ) (p : Nat) (hN : ∀ e ∈ ps.flatten, ∀ a < (e (v p)).n, (e (v p)).dof a < N) (hheat : ∀ e ∈ ps.flatten, IsHeatTr v p e)
    (s : ℝ → Both (Nat → ℝ)) (h0 : StoredDerivs s (v p)) (steps : List ((ℝ → Nat → ℝ) × (Nat → ℝ) × ℝ)) (hrun : SolvedRun dbg C b ps N (v p) s steps) :
    (∀ k ∈ steps, ∀ c, HasDerivAt (fun t => k.1 t c) (k.2.1 c) (v p)) ∧ StoredDerivs (fun t => pairRun (fonSolver b) (s t) (steps.map fun k => (k.1 t, k.2.1, k.2.2))) (v p) := by
  refine C197_runs dbg C b ps N (v p) hN (fun e he => ?_) s h0 steps hrun
  obtain ⟨n, d, X, Q, D, dof, u, w, r, r', rfl, hj, hs, hvl, hd, h, h'⟩ := hheat e he
  exact C197_heat_partial Q D v p hj hs hvl hd u w r r' h h' dof

/-! ### A heated bar -/

theorem ex_rate (p : Nat) (u w : Fin 2 → ℝ) (v : Nat → ℝ) : HeatCard.rate (exFull [(0, .flux 15)]) exData u w p v = .ok fun a => (if a = 0 then 1 / 4 else 3 / 4) * (v 5 * v 4 * (v 1 * v 2)) * (1 / 4 * w 0 + 3 / 4 * w 1) := by
  rw [HeatCard.rate, exFull, bind_ok (ex_fns true)]
  refine congrArg Except.ok (funext fun a => ?_)
  simp [Heat.velRes, Heat.velLocal, Heat.exQp, Heat.interp, Heat.temp, matOf, cap, scaled, sizeVal, Section1D.area, Material.capacitance, exData, Fin.sum_univ_two]
  split <;> ring

theorem ex_rateSens (u w : Fin 2 → ℝ) (v : Nat → ℝ) : HeatCard.rateSens (exFull [(0, .flux 15)]) exData u w 6 v = .ok fun _ => 0 := by
  rw [HeatCard.rateSens, exFull, bind_ok (ex_fns true)]
  refine congrArg Except.ok (funext fun a => ?_)
  simp [Heat.velSens, Heat.exQp, Heat.interp, Heat.temp, matOf, dCap, dScaled, sizeVal, sizeDer, Section1D.dArea, Material.dCapacitance, exData]

theorem ex_xdot (p : Nat) (u : Fin 2 → ℝ) (v : Nat → ℝ) : rateXdot (exFull [(0, .flux 15)]) exData u p v =
    .ok fun a b => (if a = 0 then 1 / 4 else 3 / 4) * (v 5 * v 4 * (v 1 * v 2)) * (if b = 0 then 1 / 4 else 3 / 4) := by
  rw [rateXdot, exFull, bind_ok (ex_fns true)]
  refine congrArg Except.ok (funext fun a => funext fun b => ?_)
  simp [Heat.velJacXdot, Heat.massMat, Heat.exQp, Heat.temp, matOf, cap, scaled, sizeVal, Section1D.area, Material.capacitance, exData]
  split <;> split <;> ring

theorem ex_rateJac (p : Nat) (u w : Fin 2 → ℝ) (v : Nat → ℝ) : rateJac (exFull [(0, .flux 15)]) exData u w p v = .ok fun _ _ => 0 := by
  rw [rateJac, exFull, bind_ok (ex_fns true)]
  refine congrArg Except.ok (funext fun a => funext fun b => ?_)
  simp [Heat.velJac, matOf]

theorem ex_sens (u : Fin 2 → ℝ) (v : Nat → ℝ) : HeatCard.sensitivity (exFull [(0, .flux 15)]) exData u 6 v = .ok fun a => (if a = 0 then 1 / 4 else 3 / 4) * (v 1 * v 2) := by
  rw [HeatCard.sensitivity, exFull, bind_ok (ex_fns false)]
  refine congrArg Except.ok (funext fun a => ?_)
  simp [elemOf, Heat.elemSens, Heat.sideLoads, Heat.volLoads, loadsOf, List.range_succ, loadOf, Heat.internalSens, Heat.loadSens, Heat.exQp, Heat.sideSensTerm, Heat.thick, Heat.dthick, sectionOf, sizeVal, sizeDer, Section1D.area,
    Section1D.dArea, field, exData, matOf, dCond, dScaled, Material.conductance, Heat.heatFlux, Heat.temp, Heat.interp]

/-- Unit values, but a heat capacity of 16. -/
noncomputable def exVT : Nat → ℝ := fun i => if i = 5 then 16 else 1

/-- The bar with the temperature prescribed at the second node, heated at the first. -/
noncomputable def exMesh : List (List TElem) := [[heatTr (exFull [(0, .flux 15)]) exData exVT 6 id]]

theorem ex_trRes (h : Hist (Nat → ℝ)) (X : Nat → ℝ) (t : ℝ) : residual (fun c => c == 1) (.first 1) false 1 h X (valued exMesh t) 0 =
    1 / 4 * (4 * (X 0 - h.sol 1 0) + 12 * (X 1 - h.sol 1 1)) + (X 0 - X 1) + 1 / 4 * t := by
  rw [residual_eq]
  simp [valued, exMesh, gather, heatTr, elemVec, ex_rate, ex_flux, vec, extE, elemState, localQty, fonVel, Finset.sum_range_succ, exVT, Function.update]
  ring

theorem ex_trRes_other (h : Hist (Nat → ℝ)) (X : Nat → ℝ) (t : ℝ) (d : Nat) (hd : d ≠ 0) : residual (fun c => c == 1) (.first 1) false 1 h X (valued exMesh t) d = 0 := by
  rw [residual_eq]
  by_cases h1 : d = 1
  · simp [h1]
  · have h0' : ¬ (0 = d) := fun e => hd e.symm
    have h1' : ¬ (1 = d) := fun e => h1 e.symm
    simp [h1, valued, exMesh, gather, heatTr, Finset.sum_range_succ, h0', h1']
    intro h; omega

theorem ex_trJac (h : Hist (Nat → ℝ)) (X : Nat → ℝ) (t : ℝ) (i c : Nat) (hi : i < 2) (hc : c < 2) : jacobian (fun c => c == 1) (.first 1) false 1 h X (valued exMesh t) i c = if i = c then (if i = 0 then 2 else 1) else 0 := by
  rw [jacobian_eq]
  interval_cases i <;> interval_cases c <;> simp [valued, exMesh, gather2, count, gather, heatTr, elemMat, fonJac, ex_xdot, ex_rateJac, ex_jac, mat, extE, Finset.sum_range_succ, exVT, Function.update]
  norm_num

theorem sensRhs_eq (dbg : Bool) (C : Nat → Bool) (b dt : ℝ) (h hs : Hist (Nat → ℝ)) (X : Nat → ℝ) (ps : List (List TrAsm.Elem)) : sensRhs dbg C (.first b) dt h hs X ps = .ok fun d => if C d then 0 else
    gather (fun e a => e.dfm (elemState (.first b) h (localQty (.first b) false dt h X) e) a + e.dfx (elemState (.first b) h (localQty (.first b) false dt h X) e) a
      + -1 * ∑ j ∈ range e.n, (e.B (elemState (.first b) h (localQty (.first b) false dt h X) e)).m_xd a j * ((1 / b / dt) * hs.sol 1 (e.dof j) + (1 - b) / b * hs.vel 1 (e.dof j))) ps.flatten d := by
  have hproc := fun es => (show sensProc dbg C (.first b) dt h hs X es = _ from sens_ok C b dt dbg h hs X es (fun _ => 0))
  unfold sensRhs
  rw [mapM_ok _ _ ps hproc]
  refine congrArg Except.ok (funext fun d => ?_)
  rw [List.map_map]
  simp only [Function.comp_def, fold_vec C (fun e a => e.dfm (elemState (.first b) h (localQty (.first b) false dt h X) e) a + e.dfx (elemState (.first b) h (localQty (.first b) false dt h X) e) a
      + -1 * ∑ j ∈ range e.n, (e.B (elemState (.first b) h (localQty (.first b) false dt h X) e)).m_xd a j * ((1 / b / dt) * hs.sol 1 (e.dof j) + (1 - b) / b * hs.vel 1 (e.dof j))), zero_add]
  by_cases hd : C d = true
  · simp [hd]
  simp only [hd, Bool.false_eq_true, if_false]
  rw [gather_flatten]

theorem ex_trSens (dbg : Bool) (h hs : Hist (Nat → ℝ)) (X : Nat → ℝ) (t : ℝ) : ∃ rhs, sensRhs dbg (fun c => c == 1) (.first 1) 1 h hs X (valued exMesh t) = .ok rhs ∧
    rhs 0 = 1 / 4 - (hs.sol 1 0 + 3 * hs.sol 1 1) ∧ rhs 1 = 0 := by
  refine ⟨_, sensRhs_eq _ _ _ _ _ _ _ _, ?_, ?_⟩
  · simp [valued, exMesh, gather, heatTr, ex_rateSens, ex_sens, ex_xdot, vec, mat, extE, Finset.sum_range_succ, exVT, Function.update]
    ring
  · simp

/-- Two steps of the heated bar: the temperatures at the first node are `-t / 8` and `-3 t / 16`. -/
noncomputable def exSteps : List ((ℝ → Nat → ℝ) × (Nat → ℝ) × ℝ) :=
  [(fun t c => if c = 0 then -t / 8 else 0, fun c => if c = 0 then -(1 / 8) else 0, 1), (fun t c => if c = 0 then -3 * t / 16 else 0, fun c => if c = 0 then -(3 / 16) else 0, 1)]

theorem ex_step (dbg : Bool) (s : ℝ → Both (Nat → ℝ)) (k a : ℝ) (hs : ∀ t, (s t).val.sol 1 = fun c => if c = 0 then a * t else 0) (hds : (s 1).sens.sol 1 = fun c => if c = 0 then a else 0) (hk : 2 * k = a - 1 / 4)
    (l : List ((ℝ → Nat → ℝ) × (Nat → ℝ) × ℝ)) (X : ℝ → Nat → ℝ) (hX : ∀ t c, X t c = if c = 0 then k * t else 0)
    (hl : SolvedRun dbg (fun c => c == 1) 1 exMesh 2 1 (fun t => pairStep (fonSolver 1) (s t) (X t) (fun c => if c = 0 then k else 0) 1) l) :
    SolvedRun dbg (fun c => c == 1) 1 exMesh 2 1 s ((X, fun c => if c = 0 then k else 0, 1) :: l) := by
  refine ⟨fun t d => ?_, fun c => ?_, fun c hc t => ?_, fun c hc => ?_, fun y hy hJ => ?_, ?_, hl⟩
  · by_cases hd : d = 0
    · subst hd
      rw [ex_trRes, hs]
      simp [hX]
      linear_combination t * hk
    · exact ex_trRes_other _ _ _ _ hd
  · simp only [hX]
    by_cases hc : c = 0
    · simp only [hc, if_true]; fun_prop
    · simp only [hc, if_false]; fun_prop
  · have : c ≠ 0 := by
      rcases hc with hc | hc
      · simp at hc; omega
      · omega
    simp [hX, this]
  · have : c ≠ 0 := by omega
    simp [this]
  · funext c
    by_cases hc : 2 ≤ c
    · exact hy c hc
    · have h0 := hJ 0 (by norm_num)
      have h1 := hJ 1 (by norm_num)
      rw [Finset.sum_range_succ, Finset.sum_range_one, ex_trJac _ _ _ _ _ (by norm_num) (by norm_num), ex_trJac _ _ _ _ _ (by norm_num) (by norm_num)] at h0 h1
      simp at h0 h1
      have : c < 2 := by omega
      interval_cases c
      · exact h0
      · exact h1
  · obtain ⟨rhs, h1, h2, h3⟩ := ex_trSens dbg (s 1).val (s 1).sens (X 1) 1
    refine ⟨rhs, h1, fun i hi => ?_⟩
    rw [Finset.sum_range_succ, Finset.sum_range_one, ex_trJac _ _ _ _ _ hi (by norm_num), ex_trJac _ _ _ _ _ hi (by norm_num)]
    interval_cases i
    · rw [h2, hds]
      simp
      linarith
    · rw [h3]
      simp

/-- Non-vacuity of C197: two steps of the heated bar meet all hypotheses of C197_heat_runs_partial (and of C197_step, C197_runs and C197_heat_partial, from which it follows). -/
example (dbg : Bool) : (∀ e ∈ exMesh.flatten, IsHeatTr exVT 6 e) ∧ (∀ e ∈ exMesh.flatten, ∀ a < (e 1).n, (e 1).dof a < 2) ∧ StoredDerivs (fun _ => fresh 0 0) 1 ∧ exVT 6 = 1 ∧
    SolvedRun dbg (fun c => c == 1) 1 exMesh 2 1 (fun _ => fresh 0 0) exSteps := by
  refine ⟨?_, ?_, ?_, by simp [exVT], ?_⟩
  · intro e he
    simp only [exMesh, List.flatten_cons, List.flatten_nil, List.append_nil, List.mem_singleton] at he
    refine ⟨2, 1, Unit, exFull [(0, .flux 15)], exData, id, fun _ => 0, fun _ => 0, _, _, he, ex_joint _ _ _, ?_, ?_, Or.inl rfl, ex_flux 6 (fun _ => 0) exVT, ex_rate 6 _ _ exVT⟩
    · intro l hl
      simp only [exFull, List.mem_singleton] at hl
      subst hl
      show isField exHeap 15 = true
      decide
    · intro l hl
      simp [exFull] at hl
  · intro e he a ha
    simp only [exMesh, List.flatten_cons, List.flatten_nil, List.append_nil, List.mem_singleton] at he
    subst he
    exact ha
  · intro c
    refine ⟨fun i => ?_, fun i => ?_, fun i => ?_⟩
    · simp only [proj, fresh, Both.val, Both.sens]; exact hasDerivAt_const _ _
    · simp only [proj, fresh, Both.val, Both.sens]; exact hasDerivAt_const _ _
    · simp only [proj, fresh, Both.val, Both.sens]; exact hasDerivAt_const _ _
  · refine ex_step dbg _ (-(1 / 8)) 0 (fun t => ?_) ?_ (by norm_num) _ _ (fun t c => ?_) (ex_step dbg _ (-(3 / 16)) (-(1 / 8)) (fun t => ?_) ?_ (by norm_num) _ _ (fun t c => ?_) trivial)
    · funext c; simp [fresh, Both.val]
    · funext c; simp [fresh, Both.sens]
    · split
      · ring
      · rfl
    · funext c
      simp [pairStep_eq, Both.val, advance_sol, fonSolver]
      split
      · ring
      · rfl
    · funext c
      simp [pairStep_eq, Both.sens, advance_sol, fonSolver]
    · split
      · ring
      · rfl

/-! ### A lumped capacity that depends on the temperature -/

/-- The bar with a lumped capacity and the temperature as active function. -/
noncomputable def exLump : Problem 2 1 Unit := { exFull [(0, .flux 15)] with active := true, diag := true }

/-- The heat capacity is the temperature, the flux is `-q^2 / 4` for parameter 6; the other functions are constants. -/
noncomputable def exLumpData : Data Unit where
  F := ⟨fun v y x => if y = 14 then x.2.getD 0 else if y = 15 then -(v 6 * v 6) / 4 else v (y - 9), fun v y p _ => if y = 14 then 0 else if y = 15 then (if p = 6 then -(v 6) / 2 else 0) else if p = y - 9 then 1 else 0⟩
  dT := fun _ y _ => if y = 14 then 1 else 0

/-- No conduction, unit values. -/
noncomputable def exLumpV : Nat → ℝ := fun i => if i = 0 then 0 else 1

theorem lump_joint (h : Fn.Heap) : JointDerivs h exLumpData exLumpV 6 := by
  intro y _ x
  by_cases h14 : y = 14
  · subst h14
    simp only [exLumpData, if_true, Option.getD_some, Option.getD_none, zero_smul, zero_add, one_smul]
    exact ⟨fun T => hasFDerivAt_snd, hasDerivAt_const _ _⟩
  by_cases h15 : y = 15
  · subst h15
    simp only [exLumpData, if_true, Function.update_self, zero_smul, add_zero, h14, if_false]
    refine ⟨fun T => ?_, ?_⟩
    · have h1 : HasFDerivAt (fun s : ℝ × ℝ => s.1) (ContinuousLinearMap.fst ℝ ℝ ℝ) (exLumpV 6, T) := hasFDerivAt_fst
      have h2 := ((h1.fun_mul h1).const_mul (-(1 / 4)))
      refine (h2.congr_fderiv ?_).congr_of_eventuallyEq (Filter.Eventually.of_forall fun s => ?_)
      · ext <;> simp; ring
      · show _ = _; ring
    · have h1 := (((hasDerivAt_id' (exLumpV 6)).fun_mul (hasDerivAt_id' (exLumpV 6))).const_mul (-(1 / 4)))
      refine (h1.congr_deriv ?_).congr_of_eventuallyEq (Filter.Eventually.of_forall fun s => ?_)
      · ring
      · show _ = _; ring
  · simp only [exLumpData, h14, h15, if_false, zero_smul, add_zero]
    by_cases hp : 6 = y - 9
    · simp only [← hp, Function.update_self, if_true, one_smul]
      exact ⟨fun T => hasFDerivAt_fst, hasDerivAt_id _⟩
    · simp only [Function.update_of_ne (Ne.symm hp), if_neg hp, zero_smul]
      exact ⟨fun T => hasFDerivAt_const _ _, hasDerivAt_const _ _⟩

theorem lump_rate (p : Nat) (u w : Fin 2 → ℝ) (v : Nat → ℝ) : HeatCard.rate exLump exLumpData u w p v = .ok fun a => (if a = 0 then 1 / 4 else 3 / 4) * ((1 / 4 * u 0 + 3 / 4 * u 1) * v 4 * (v 1 * v 2)) * w a := by
  rw [HeatCard.rate, exLump, exFull, bind_ok (ex_fns true)]
  refine congrArg Except.ok (funext fun a => ?_)
  simp [Heat.velRes, Heat.lump, Heat.massMat, Heat.exQp, Heat.interp, Heat.temp, matOf, cap, scaled, sizeVal, Section1D.area, Material.capacitance, exLumpData, Fin.sum_univ_two]
  split <;> ring

theorem lump_rateSens (u w : Fin 2 → ℝ) (v : Nat → ℝ) : HeatCard.rateSens exLump exLumpData u w 6 v = .ok fun _ => 0 := by
  rw [HeatCard.rateSens, exLump, exFull, bind_ok (ex_fns true)]
  refine congrArg Except.ok (funext fun a => ?_)
  simp [Heat.velSens, Heat.lump, Heat.exQp, Heat.interp, Heat.temp, matOf, dCap, dScaled, sizeVal, sizeDer, Section1D.dArea, Material.dCapacitance, exLumpData]

theorem lump_xdot (p : Nat) (u : Fin 2 → ℝ) (v : Nat → ℝ) : rateXdot exLump exLumpData u p v =
    .ok fun a b => if a = b then (if a = 0 then 1 / 4 else 3 / 4) * ((1 / 4 * u 0 + 3 / 4 * u 1) * v 4 * (v 1 * v 2)) else 0 := by
  rw [rateXdot, exLump, exFull, bind_ok (ex_fns true)]
  refine congrArg Except.ok (funext fun a => funext fun b => ?_)
  simp [Heat.velJacXdot, Heat.lump, Heat.massMat, Heat.exQp, Heat.interp, Heat.temp, matOf, cap, scaled, sizeVal, Section1D.area, Material.capacitance, exLumpData, Fin.sum_univ_two]
  split
  · split <;> ring
  · rfl

theorem lump_rateJac (p : Nat) (u w : Fin 2 → ℝ) (v : Nat → ℝ) : rateJac exLump exLumpData u w p v =
    .ok fun a b => (1 / 4 * w 0 + 3 / 4 * w 1) * (v 4 * (v 1 * v 2)) * ((if a = 0 then 1 / 4 else 3 / 4) * if b = 0 then 1 / 4 else 3 / 4) := by
  rw [rateJac, exLump, exFull, bind_ok (ex_fns true)]
  refine congrArg Except.ok (funext fun a => funext fun b => ?_)
  have hT : ∀ x : ℝ, dCap ⟨.area 10 11, fun i => if i = 0 then 9 else if i = 1 then 9 else 9, 13, 14⟩ (fun y => exLumpData.F.val v y ((), some x)) (fun y => exLumpData.dT v y ((), some x))
      = v 4 * (v 1 * v 2) := by
    intro x
    simp [dCap, dScaled, sizeVal, sizeDer, Section1D.area, Section1D.dArea, Material.dCapacitance, exLumpData]
  simp only [Heat.velJac, matOf, Heat.temp, if_true, List.map_cons, List.map_nil, List.sum_cons, List.sum_nil, add_zero, Heat.exQp]
  rw [hT]
  simp only [Heat.interp, Fin.sum_univ_two]
  generalize v 4 * (v 1 * v 2) = c
  by_cases hc : c = 0
  · simp [hc]
  · rw [if_pos hc]
    simp

theorem lump_flux (p : Nat) (u : Fin 2 → ℝ) (v : Nat → ℝ) : HeatCard.residual exLump exLumpData u p v =
    .ok fun a => (if a = 0 then -1 else 1) * (v 0 * (v 1 * v 2)) * (u 1 - u 0) - (if a = 0 then 1 / 4 else 3 / 4) * (v 6 * v 6 / 4 * (v 1 * v 2)) := by
  rw [HeatCard.residual, exLump, exFull, bind_ok (ex_fns false)]
  simp [elemOf, Heat.elemRes, Heat.sideLoads, Heat.volLoads, loadsOf, List.range_succ, Heat.sideOk, loadOf]
  refine congrArg Except.ok (funext fun a => ?_)
  simp [Heat.internalRes, Heat.loadRes, Heat.exQp, Heat.sideTerm, Heat.thick, sectionOf, sizeVal, Section1D.area, field, exLumpData, matOf, HeatCard.cond, scaled, Material.conductance, Heat.heatFlux, Heat.grad, Heat.temp, Fin.sum_univ_two]
  split <;> ring

theorem lump_jac (p : Nat) (u : Fin 2 → ℝ) (v : Nat → ℝ) : HeatCard.jacobian exLump exLumpData u p v =
    .ok fun a b => (if a = 0 then -1 else 1) * (if b = 0 then -1 else 1) * (v 0 * (v 1 * v 2)) := by
  rw [HeatCard.jacobian, exLump, exFull, bind_ok (ex_fns false)]
  refine congrArg Except.ok (funext fun a => funext fun b => ?_)
  simp [elemOf, Heat.elemJac, Heat.sideLoads, Heat.volLoads, loadsOf, List.range_succ, loadOf, Heat.internalJac, Heat.loadJac, Heat.exQp, Heat.sideJacTerm, Heat.thick, sectionOf, sizeVal, sizeDer, Section1D.area, Section1D.dArea, field,
    exLumpData, matOf, HeatCard.cond, dCond, scaled, dScaled, Material.conductance, Heat.temp]

theorem lump_sens (u : Fin 2 → ℝ) (v : Nat → ℝ) : HeatCard.sensitivity exLump exLumpData u 6 v = .ok fun a => -((if a = 0 then 1 / 4 else 3 / 4) * (v 6 / 2 * (v 1 * v 2))) := by
  rw [HeatCard.sensitivity, exLump, exFull, bind_ok (ex_fns false)]
  refine congrArg Except.ok (funext fun a => ?_)
  simp [elemOf, Heat.elemSens, Heat.sideLoads, Heat.volLoads, loadsOf, List.range_succ, loadOf, Heat.internalSens, Heat.loadSens, Heat.exQp, Heat.sideSensTerm, Heat.thick, Heat.dthick, sectionOf, sizeVal, sizeDer, Section1D.area,
    Section1D.dArea, field, exLumpData, matOf, dCond, dScaled, Material.conductance, Heat.heatFlux, Heat.temp, Heat.interp]
  split <;> ring

noncomputable def exLumpMesh : List (List TElem) := [[heatTr exLump exLumpData exLumpV 6 id]]

theorem lump_trRes (h : Hist (Nat → ℝ)) (X : Nat → ℝ) (t : ℝ) : residual (fun c => c == 1) (.first 1) false 1 h X (valued exLumpMesh t) 0 =
    1 / 4 * (1 / 4 * X 0 + 3 / 4 * X 1) * (X 0 - h.sol 1 0) - 1 / 16 * (t * t) := by
  rw [residual_eq]
  simp [valued, exLumpMesh, gather, heatTr, elemVec, lump_rate, lump_flux, vec, extE, elemState, localQty, fonVel, Finset.sum_range_succ, exLumpV, Function.update]
  ring

theorem lump_trRes_other (h : Hist (Nat → ℝ)) (X : Nat → ℝ) (t : ℝ) (d : Nat) (hd : d ≠ 0) : residual (fun c => c == 1) (.first 1) false 1 h X (valued exLumpMesh t) d = 0 := by
  rw [residual_eq]
  by_cases h1 : d = 1
  · simp [h1]
  · have h0' : ¬ (0 = d) := fun e => hd e.symm
    have h1' : ¬ (1 = d) := fun e => h1 e.symm
    simp [h1, valued, exLumpMesh, gather, heatTr, Finset.sum_range_succ, h0', h1']
    intro h; omega

theorem lump_trJac (h : Hist (Nat → ℝ)) (X : Nat → ℝ) (t : ℝ) (i c : Nat) (hi : i < 2) (hc : c < 2) : jacobian (fun c => c == 1) (.first 1) false 1 h X (valued exLumpMesh t) i c =
    if i = c then (if i = 0 then 1 / 4 * (1 / 4 * X 0 + 3 / 4 * X 1) + 1 / 16 * (1 / 4 * (X 0 - h.sol 1 0) + 3 / 4 * (X 1 - h.sol 1 1)) else 1) else 0 := by
  rw [jacobian_eq]
  interval_cases i <;> interval_cases c <;> simp [valued, exLumpMesh, gather2, count, gather, heatTr, elemMat, fonJac, lump_xdot, lump_rateJac, lump_jac, mat, extE, elemState, localQty, fonVel, Finset.sum_range_succ, exLumpV, Function.update]
  ring

theorem lump_trSens (dbg : Bool) (h hs : Hist (Nat → ℝ)) (X : Nat → ℝ) (t : ℝ) (h0 : hs.sol 1 = 0) : ∃ rhs, sensRhs dbg (fun c => c == 1) (.first 1) 1 h hs X (valued exLumpMesh t) = .ok rhs ∧ rhs 0 = -(t / 8) ∧ rhs 1 = 0 := by
  refine ⟨_, sensRhs_eq _ _ _ _ _ _ _ _, ?_, ?_⟩
  · simp [valued, exLumpMesh, gather, heatTr, lump_rateSens, lump_sens, lump_xdot, vec, mat, extE, Finset.sum_range_succ, exLumpV, Function.update, h0]
    ring
  · simp

/-- C197 fails for a lumped capacity that depends on the temperature: all other hypotheses of C197_heat_runs_partial hold, the step is solved for every value of the parameter and the sensitivity solves the assembled system,
but it is 8/5 where the derivative of the temperature is 1. -/
theorem C197_lumped_fails (dbg : Bool) : ∃ (Q : Problem 2 1 Unit) (D : Data Unit) (v : Nat → ℝ) (r r' : Fin 2 → ℝ) (X : ℝ → Nat → ℝ) (dX : Nat → ℝ),
    JointDerivs Q.hp D v 6 ∧ (∀ l ∈ Q.side, LoadOk Q.hp 6 l.2) ∧ Q.vol = [] ∧ Q.diag = true ∧ Q.active = true ∧ HeatCard.residual Q D 0 6 v = .ok r ∧ HeatCard.rate Q D 0 0 6 v = .ok r' ∧
    SolvedRun dbg (fun c => c == 1) 1 [[heatTr Q D v 6 id]] 2 (v 6) (fun _ => fresh 0 0) [(X, dX, 1)] ∧ HasDerivAt (fun t => X t 0) 1 (v 6) ∧ dX 0 = 8 / 5 := by
  refine ⟨exLump, exLumpData, exLumpV, _, _, fun t c => if c = 0 then t else 0, fun c => if c = 0 then 8 / 5 else 0, lump_joint _, ?_, rfl, rfl, rfl, lump_flux 6 _ _, lump_rate 6 _ _ _, ?_, ?_, by simp⟩
  · intro l hl
    have hl : l ∈ [((0 : Nat), LoadFn.flux 15)] := hl
    rw [List.mem_singleton] at hl
    subst hl
    show isField exHeap 15 = true
    decide
  · have hv : exLumpV 6 = 1 := by simp [exLumpV]
    rw [hv]
    have hs : ∀ c, (fresh (0 : Nat → ℝ) 0).val.sol 1 c = 0 := fun c => by simp [fresh, Both.val]
    refine ⟨fun t d => ?_, fun c => ?_, fun c hc t => ?_, fun c hc => ?_, fun y hy hJ => ?_, ?_, trivial⟩
    · by_cases hd : d = 0
      · subst hd
        refine (lump_trRes _ _ _).trans ?_
        simp [hs]
        ring
      · exact lump_trRes_other _ _ _ _ hd
    · by_cases hc : c = 0
      · simp only [hc, if_true]; fun_prop
      · simp only [hc, if_false]; fun_prop
    · have : c ≠ 0 := by
        rcases hc with hc | hc
        · simp at hc; omega
        · omega
      simp [this]
    · have : c ≠ 0 := by omega
      simp [this]
    · funext c
      by_cases hc : 2 ≤ c
      · exact hy c hc
      · have h0 := hJ 0 (by norm_num)
        have h1 := hJ 1 (by norm_num)
        rw [Finset.sum_range_succ, Finset.sum_range_one] at h0 h1
        have j00 := lump_trJac (fresh (0 : Nat → ℝ) 0).val (fun c => if c = 0 then 1 else 0) 1 0 0 (by norm_num) (by norm_num)
        have j01 := lump_trJac (fresh (0 : Nat → ℝ) 0).val (fun c => if c = 0 then 1 else 0) 1 0 1 (by norm_num) (by norm_num)
        have j10 := lump_trJac (fresh (0 : Nat → ℝ) 0).val (fun c => if c = 0 then 1 else 0) 1 1 0 (by norm_num) (by norm_num)
        have j11 := lump_trJac (fresh (0 : Nat → ℝ) 0).val (fun c => if c = 0 then 1 else 0) 1 1 1 (by norm_num) (by norm_num)
        unfold exLumpMesh at j00 j01 j10 j11
        beta_reduce at h0 h1
        rw [j00, j01] at h0
        rw [j10, j11] at h1
        simp [hs] at h0 h1
        have : c < 2 := by omega
        interval_cases c
        · rcases h0 with h0 | h0
          · norm_num at h0
          · exact h0
        · exact h1
    · obtain ⟨rhs, h1, h2, h3⟩ := lump_trSens dbg (fresh (0 : Nat → ℝ) 0).val (fresh (0 : Nat → ℝ) 0).sens (fun c => if c = 0 then 1 else 0) 1 (by simp [fresh, Both.sens])
      refine ⟨rhs, h1, fun i hi => ?_⟩
      have j0 := lump_trJac (fresh (0 : Nat → ℝ) 0).val (fun c => if c = 0 then 1 else 0) 1 i 0 hi (by norm_num)
      have j1 := lump_trJac (fresh (0 : Nat → ℝ) 0).val (fun c => if c = 0 then 1 else 0) 1 i 1 hi (by norm_num)
      unfold exLumpMesh at j0 j1
      beta_reduce
      rw [Finset.sum_range_succ, Finset.sum_range_one, j0, j1]
      interval_cases i
      · rw [h2]
        simp [hs]
        norm_num
      · rw [h3]
        simp
  · simpa using hasDerivAt_id' (exLumpV 6)

end
end Verif.TrHeat
