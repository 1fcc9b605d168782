import Verif.Model.TransientAsm
import Verif.Props.Assembly
import Mathlib.Analysis.Calculus.Deriv.Add
import Mathlib.Analysis.Calculus.Deriv.Mul
import Mathlib.Tactic.LinearCombination
import Mathlib.Tactic.Linarith
import Mathlib.Tactic.NormNum
/-
  C167, C168: assembly of a time step and of its sensitivity.
-/
namespace Verif.TrAsm
open Verif Verif.Asm Verif.Transient Finset

/-! ### Specification -/

/-- Sum over all elements of what they contribute to degree of freedom `d`. -/
noncomputable def gather (f : Elem → Nat → ℝ) (els : List Elem) (d : Nat) : ℝ := (els.map fun e => ∑ a ∈ range e.n, if e.dof a = d then f e a else 0).sum

/-- The state an element sees in a time step: values of the step at its nodes, for generalized-alpha at the intermediate time. -/
noncomputable def stepState (S : Solver) (dt : ℝ) (h : Hist (Nat → ℝ)) (X : Nat → ℝ) : ElemState (Nat → ℝ) :=
  match S with
  | .first b => ⟨X, fonVel b dt h X, 0⟩
  | .second b g => sonLocal b g dt h X
  | .alpha c => gaLocal c dt h X

/-- `s + t d`. -/
def shift (s : ElemState (Nat → ℝ)) (t : ℝ) (d : ElemState (Nat → ℝ)) : ElemState (Nat → ℝ) := ⟨fun a => s.x a + t * d.x a, fun a => s.v a + t * d.v a, fun a => s.a a + t * d.a a⟩

/-- Derivative of the element forces along `d` according to the matrices of the element. -/
noncomputable def tangentM (e : Elem) (s d : ElemState (Nat → ℝ)) (i : Nat) : ℝ := ∑ j ∈ range e.n, ((e.B s).m_xdd i j * d.a j + (e.B s).m_xd i j * d.v j + (e.B s).m_x i j * d.x j)
noncomputable def tangentX (e : Elem) (s d : ElemState (Nat → ℝ)) (i : Nat) : ℝ := ∑ j ∈ range e.n, ((e.B s).x_xd i j * d.v j + (e.B s).x_x i j * d.x j)

/-- The matrices of the element are the derivatives of its forces. -/
def Exact (e : Elem) (s : ElemState (Nat → ℝ)) : Prop :=
  ∀ d, ∀ i < e.n, HasDerivAt (fun t => e.fm (shift s t d) i) (tangentM e s d i) 0 ∧ HasDerivAt (fun t => e.fx (shift s t d) i) (tangentX e s d i) 0

/-- Elements fit to the solver: those of a first order system have no acceleration terms and no velocity dependence of `f_x`. -/
def Fits (S : Solver) (e : Elem) (s : ElemState (Nat → ℝ)) : Prop :=
  match S with
  | .first _ => (e.B s).m_xdd = 0 ∧ (e.B s).x_xd = 0
  | _ => True

/-- Derivative of a family of element forces along a path of states: parameter derivative plus tangent. -/
def ExactSens (e : Elem) (F : ℝ → ElemState (Nat → ℝ) → Nat → ℝ) (s : ElemState (Nat → ℝ)) : Prop :=
  ∀ (σ : ℝ → ElemState (Nat → ℝ)) (d : ElemState (Nat → ℝ)), σ 0 = s → (∀ a < e.n, HasDerivAt (fun p => (σ p).x a) (d.x a) 0 ∧ HasDerivAt (fun p => (σ p).v a) (d.v a) 0 ∧ HasDerivAt (fun p => (σ p).a a) (d.a a) 0) →
    ∀ i < e.n, HasDerivAt (fun p => F p (σ p) i) (e.dfm s i + e.dfx s i + tangentM e s d i + tangentX e s d i) 0

/-! ### Assembly -/

theorem fold_vec (C : Nat → Bool) (v : Elem → Nat → ℝ) (els : List Elem) (R : Nat → ℝ) (d : Nat) :
    els.foldl (fun R e => addVector e.n e.dof (conVec C e.dof (v e)) R) R d = R d + if C d then 0 else gather v els d := by
  rw [foldl_add (fun e d => if C d then 0 else ∑ a ∈ range e.n, if e.dof a = d then v e a else 0) _ (fun R e i => by rw [addVector_apply, sum_conVec])]
  congr 1
  by_cases h : C d = true <;> simp [h, gather]

/-- Number of element entries at a degree of freedom. -/
noncomputable def count (els : List Elem) (d : Nat) : ℝ := gather (fun _ _ => 1) els d
noncomputable def gather2 (m : Elem → Nat → Nat → ℝ) (els : List Elem) (d c : Nat) : ℝ :=
  (els.map fun e => ∑ a ∈ range e.n, ∑ b ∈ range e.n, if e.dof a = d ∧ e.dof b = c then m e a b else 0).sum

theorem fold_mat (C : Nat → Bool) (m : Elem → Nat → Nat → ℝ) (els : List Elem) (J : Nat → Nat → ℝ) (d c : Nat) :
    els.foldl (fun J e => addMatrix e.n e.dof (conMat C e.dof (m e)) J) J d c = J d c + if C d || C c then (if d = c then count els d else 0) else gather2 m els d c := by
  rw [foldl_add2 (fun e d c => if C d || C c then (if d = c then ∑ a ∈ range e.n, if e.dof a = d then 1 else 0 else 0)
      else ∑ a ∈ range e.n, ∑ b ∈ range e.n, if e.dof a = d ∧ e.dof b = c then m e a b else 0) _ (fun R e i j => by rw [addMatrix_apply, sum_conMat])]
  congr 1
  by_cases h : (C d || C c) = true
  · by_cases h2 : d = c
    · subst h2; simp only [h, if_true, count, gather]
    · simp [h, h2]
  · simp [h, gather2]

theorem gather_flatten (f : Elem → Nat → ℝ) (ps : List (List Elem)) (d : Nat) : (ps.map fun es => gather f es d).sum = gather f ps.flatten d := by
  induction ps with
  | nil => rfl
  | cons p ps ih => simp only [List.map_cons, List.sum_cons, List.flatten_cons, ih]; simp [gather]
theorem gather2_flatten (f : Elem → Nat → Nat → ℝ) (ps : List (List Elem)) (d c : Nat) : (ps.map fun es => gather2 f es d c).sum = gather2 f ps.flatten d c := by
  induction ps with
  | nil => rfl
  | cons p ps ih => simp only [List.map_cons, List.sum_cons, List.flatten_cons, ih]; simp [gather2]

theorem state_eq (S : Solver) (dt : ℝ) (h : Hist (Nat → ℝ)) (X : Nat → ℝ) (e : Elem) : elemState S h (localQty S false dt h X) e = restrict e (stepState S dt h X) := by
  cases S <;> rfl

theorem residual_eq (C : Nat → Bool) (S : Solver) (high : Bool) (dt : ℝ) (h : Hist (Nat → ℝ)) (X : Nat → ℝ) (ps : List (List Elem)) (d : Nat) :
    residual C S high dt h X ps d = if C d then 0 else gather (fun e => elemVec e (elemState S h (localQty S high dt h X) e)) ps.flatten d := by
  unfold residual resProc
  simp only [fold_vec C (fun e => elemVec e (elemState S h (localQty S high dt h X) e)), zero_add]
  by_cases hC : C d = true
  · simp [hC]
  · simp only [hC, Bool.false_eq_true, if_false]; exact gather_flatten _ _ _

/-- C167: the residual of a time step is, at a free degree of freedom, the sum of the element forces for the state of the step, and zero at a constrained one.  The distribution and the order of elements is irrelevant. -/
theorem C167_residual (C : Nat → Bool) (S : Solver) (dt : ℝ) (h : Hist (Nat → ℝ)) (X : Nat → ℝ) (ps : List (List Elem)) (d : Nat) :
    residual C S false dt h X ps d = (if C d then 0 else gather (fun e a => e.fm (restrict e (stepState S dt h X)) a + e.fx (restrict e (stepState S dt h X)) a) ps.flatten d)
    ∧ ∀ qs : List (List Elem), ps.flatten.Perm qs.flatten → residual C S false dt h X ps d = residual C S false dt h X qs d := by
  refine ⟨?_, fun qs hp => ?_⟩
  · rw [residual_eq]; simp only [state_eq]; rfl
  · rw [residual_eq, residual_eq]; unfold gather; rw [(hp.map _).sum_eq]

theorem jacobian_eq (C : Nat → Bool) (S : Solver) (high : Bool) (dt : ℝ) (h : Hist (Nat → ℝ)) (X : Nat → ℝ) (ps : List (List Elem)) (d c : Nat) :
    jacobian C S high dt h X ps d c = if C d || C c then (if d = c then count ps.flatten d else 0)
      else gather2 (fun e => elemMat S high dt (e.B (elemState S h (localQty S high dt h X) e))) ps.flatten d c := by
  unfold jacobian jacProc
  simp only [fold_mat C (fun e => elemMat S high dt (e.B (elemState S h (localQty S high dt h X) e))), zero_add]
  by_cases hC : (C d || C c) = true
  · simp only [hC, if_true]
    by_cases h2 : d = c
    · simp only [h2, if_true]; exact gather_flatten _ _ _
    · simp [h2]
  · simp only [hC, if_false]; exact gather2_flatten _ _ _ _

/-- A matrix that is summed up from elements, times a vector that vanishes at constrained dofs. -/
theorem gather2_mul (m : Elem → Nat → Nat → ℝ) (N : Nat) (w : Nat → ℝ) (els : List Elem) (hN : ∀ e ∈ els, ∀ a < e.n, e.dof a < N) (d : Nat) :
    ∑ c ∈ range N, gather2 m els d c * w c = gather (fun e a => ∑ b ∈ range e.n, m e a b * w (e.dof b)) els d := by
  induction els with
  | nil => simp [gather, gather2]
  | cons e l ih =>
    have ih' := ih fun e' h => hN e' (List.mem_cons_of_mem _ h)
    simp only [gather, gather2, List.map_cons, List.sum_cons, add_mul, sum_add_distrib] at ih' ⊢
    rw [ih']
    congr 1
    simp only [sum_mul]
    rw [sum_comm]
    refine sum_congr rfl fun a _ => ?_
    rw [sum_comm]
    by_cases ha : e.dof a = d
    · simp only [ha, true_and, if_true]
      refine sum_congr rfl fun b hb => ?_
      have : ∀ c ∈ range N, (if e.dof b = c then m e a b else 0) * w c = if e.dof b = c then m e a b * w (e.dof b) else 0 := by
        intro c _; split
        · rename_i h; rw [h]
        · ring
      rw [sum_congr rfl this, sum_ite_eq, if_pos (mem_range.2 (hN e List.mem_cons_self b (mem_range.1 hb)))]
    · simp [ha]

theorem jac_mul (C : Nat → Bool) (S : Solver) (high : Bool) (dt : ℝ) (h : Hist (Nat → ℝ)) (X Y : Nat → ℝ) (ps : List (List Elem)) (N : Nat) (hN : ∀ e ∈ ps.flatten, ∀ a < e.n, e.dof a < N)
    (hY : ∀ c, C c = true → Y c = 0) (d : Nat) :
    ∑ c ∈ range N, jacobian C S high dt h X ps d c * Y c
      = if C d then 0 else gather (fun e a => ∑ b ∈ range e.n, elemMat S high dt (e.B (elemState S h (localQty S high dt h X) e)) a b * Y (e.dof b)) ps.flatten d := by
  by_cases hd : C d = true
  · rw [if_pos hd]
    refine sum_eq_zero fun c _ => ?_
    rw [jacobian_eq]
    by_cases hdc : d = c
    · subst hdc; rw [hY d hd, mul_zero]
    · simp [hd, hdc]
  · rw [if_neg hd, ← gather2_mul _ N Y _ hN]
    refine sum_congr rfl fun c _ => ?_
    by_cases hc : C c = true
    · rw [hY c hc]; ring
    · rw [jacobian_eq]; simp [hd, hc]

/-- Derivative of the state of the step with respect to the solution. -/
noncomputable def stepDir (S : Solver) (dt : ℝ) (Y : Nat → ℝ) : ElemState (Nat → ℝ) :=
  match S with
  | .first b => ⟨Y, fun c => 1 / b / dt * Y c, 0⟩
  | .second b g => ⟨Y, fun c => g / b / dt * Y c, fun c => 1 / b / dt / dt * Y c⟩
  | .alpha k => ⟨fun c => (1 - k.alpha_f) * Y c, fun c => (1 - k.alpha_f) * (k.gamma / k.beta / dt * Y c), fun c => (1 - k.alpha_m) * (1 / k.beta / dt / dt * Y c)⟩

theorem step_shift (S : Solver) (dt : ℝ) (h : Hist (Nat → ℝ)) (X Y : Nat → ℝ) (e : Elem) (t : ℝ) :
    restrict e (stepState S dt h fun c => X c + t * Y c) = shift (restrict e (stepState S dt h X)) t (restrict e (stepDir S dt Y)) := by
  cases S with
  | first b =>
    simp only [restrict, stepState, stepDir, shift, ElemState.mk.injEq, fonVel]
    refine ⟨trivial, ?_, ?_⟩
    · funext a; simp; ring
    · funext a; simp
  | second b g =>
    simp only [restrict, stepState, stepDir, shift, ElemState.mk.injEq, sonLocal, sonElemState, sonVel, sonAcc]
    refine ⟨trivial, ?_, ?_⟩
    · funext a; simp; ring
    · funext a; simp; ring
  | alpha k =>
    simp only [restrict, stepState, stepDir, shift, ElemState.mk.injEq, gaLocal, gaElemState, sonVel, sonAcc]
    refine ⟨?_, ?_, ?_⟩
    · funext a; simp; ring
    · funext a; simp; ring
    · funext a; simp; ring

theorem gather_deriv (els : List Elem) (F : ℝ → Elem → Nat → ℝ) (F' : Elem → Nat → ℝ) (h : ∀ e ∈ els, ∀ a < e.n, HasDerivAt (fun t => F t e a) (F' e a) 0) (d : Nat) :
    HasDerivAt (fun t => gather (F t) els d) (gather F' els d) 0 := by
  induction els with
  | nil => exact hasDerivAt_const _ _
  | cons e l ih =>
    simp only [gather, List.map_cons, List.sum_cons] at ih ⊢
    refine HasDerivAt.fun_add (HasDerivAt.fun_sum fun a ha => ?_) (ih fun e' h' => h e' (List.mem_cons_of_mem _ h'))
    by_cases hd : e.dof a = d
    · simp only [hd, if_true]; exact h e List.mem_cons_self a (mem_range.1 ha)
    · simp only [hd, if_false]; exact hasDerivAt_const _ _

theorem gather_congr (els : List Elem) (f g : Elem → Nat → ℝ) (h : ∀ e ∈ els, ∀ a < e.n, f e a = g e a) (d : Nat) : gather f els d = gather g els d := by
  unfold gather; congr 1
  exact List.map_congr_left fun e he => sum_congr rfl fun a ha => by rw [h e he a (mem_range.1 ha)]

/-- The element matrix of the solvers is the tangent along the direction of the step. -/
theorem mat_tangent (S : Solver) (dt : ℝ) (e : Elem) (s : ElemState (Nat → ℝ)) (hf : Fits S e s) (Y : Nat → ℝ) (a : Nat) :
    ∑ b ∈ range e.n, elemMat S false dt (e.B s) a b * Y (e.dof b) = tangentM e s (restrict e (stepDir S dt Y)) a + tangentX e s (restrict e (stepDir S dt Y)) a := by
  unfold tangentM tangentX
  rw [← sum_add_distrib]
  refine sum_congr rfl fun b _ => ?_
  cases S with
  | first k =>
    have h1 := congrFun (congrFun hf.1 a) b
    have h2 := congrFun (congrFun hf.2 a) b
    simp only [elemMat, fonJac, Bool.false_eq_true, if_false, restrict, stepDir, h1, h2, Pi.add_apply, Pi.smul_apply, smul_eq_mul, Pi.zero_apply]; ring
  | second k g => simp only [elemMat, sonJac, Bool.false_eq_true, if_false, restrict, stepDir, Pi.add_apply, Pi.smul_apply, smul_eq_mul]; ring
  | alpha k => simp only [elemMat, gaJac, Bool.false_eq_true, if_false, restrict, stepDir, Pi.add_apply, Pi.smul_apply, smul_eq_mul]; ring

/-- C167: if the element matrices are the derivatives of the element forces, the matrix of the time step applied to any change of the solution that keeps the constrained values is the derivative of the residual of the
step — for all three integrators, meshes, distributions, histories and step sizes. -/
theorem C167_jacobian (C : Nat → Bool) (S : Solver) (dt : ℝ) (h : Hist (Nat → ℝ)) (X Y : Nat → ℝ) (ps : List (List Elem)) (N : Nat) (hN : ∀ e ∈ ps.flatten, ∀ a < e.n, e.dof a < N)
    (hY : ∀ c, C c = true → Y c = 0) (hex : ∀ e ∈ ps.flatten, Exact e (restrict e (stepState S dt h X)) ∧ Fits S e (restrict e (stepState S dt h X))) (d : Nat) :
    HasDerivAt (fun t => residual C S false dt h (fun c => X c + t * Y c) ps d) (∑ c ∈ range N, jacobian C S false dt h X ps d c * Y c) 0 := by
  rw [jac_mul C S false dt h X Y ps N hN hY]
  simp only [residual_eq, state_eq]
  by_cases hd : C d = true
  · simp only [hd, if_true]; exact hasDerivAt_const _ _
  · simp only [hd, Bool.false_eq_true, if_false]
    refine gather_deriv _ (fun t e => elemVec e (restrict e (stepState S dt h fun c => X c + t * Y c))) _ (fun e he a ha => ?_) d
    simp only [step_shift, mat_tangent S dt e _ (hex e he).2]
    have := (hex e he).1 (restrict e (stepDir S dt Y)) a ha
    exact this.1.fun_add this.2

/-- The stored vectors with the highest time derivative of the current state changed by `t Y`. -/
def bump (S : Solver) (h : Hist (Nat → ℝ)) (t : ℝ) (Y : Nat → ℝ) : Hist (Nat → ℝ) :=
  match S with
  | .first _ => { h with vel := fun i => if i = 0 then fun c => h.vel 0 c + t * Y c else h.vel i }
  | _ => { h with acc := fun i => if i = 0 then fun c => h.acc 0 c + t * Y c else h.acc i }

/-- C167: for the initial highest derivative the Newmark solvers evaluate the elements at the stored solution, velocity and acceleration, whatever the solution of the system is, and the matrix is the derivative of
that residual with respect to the highest derivative.  (For generalized-alpha C79 shows the failure.) -/
theorem C167_highest (C : Nat → Bool) (S : Solver) (hS : ∀ c, S ≠ .alpha c) (dt : ℝ) (h : Hist (Nat → ℝ)) (X Y : Nat → ℝ) (ps : List (List Elem)) (N : Nat) (hN : ∀ e ∈ ps.flatten, ∀ a < e.n, e.dof a < N)
    (hY : ∀ c, C c = true → Y c = 0) (d : Nat) :
    residual C S true dt h X ps d = (if C d then 0 else gather (fun e a => e.fm (restrict e ⟨h.sol 0, h.vel 0, h.acc 0⟩) a + e.fx (restrict e ⟨h.sol 0, h.vel 0, h.acc 0⟩) a) ps.flatten d)
    ∧ ((∀ e ∈ ps.flatten, Exact e (restrict e ⟨h.sol 0, h.vel 0, h.acc 0⟩) ∧ Fits S e (restrict e ⟨h.sol 0, h.vel 0, h.acc 0⟩)) →
      HasDerivAt (fun t => residual C S true dt (bump S h t Y) X ps d) (∑ c ∈ range N, jacobian C S true dt h X ps d c * Y c) 0) := by
  have hst : ∀ (h : Hist (Nat → ℝ)) (e : Elem), elemState S h (localQty S true dt h X) e = restrict e ⟨h.sol 0, h.vel 0, h.acc 0⟩ := by
    intro h e
    cases S with
    | alpha c => exact absurd rfl (hS c)
    | _ => rfl
  refine ⟨?_, fun hex => ?_⟩
  · rw [residual_eq]; simp only [hst]; rfl
  · rw [jac_mul C S true dt h X Y ps N hN hY]
    simp only [residual_eq, hst]
    by_cases hd : C d = true
    · simp only [hd, if_true]; exact hasDerivAt_const _ _
    · simp only [hd, Bool.false_eq_true, if_false]
      refine gather_deriv _ (fun t e => elemVec e (restrict e ⟨(bump S h t Y).sol 0, (bump S h t Y).vel 0, (bump S h t Y).acc 0⟩)) _ (fun e he a ha => ?_) d
      obtain ⟨hx, hf⟩ := hex e he
      cases S with
      | alpha c => exact absurd rfl (hS c)
      | first b =>
        have := hx (restrict e ⟨0, Y, 0⟩) a ha
        refine ((this.1.fun_add this.2).congr_of_eventuallyEq (Filter.Eventually.of_forall fun t => ?_)).congr_deriv ?_
        · simp [elemVec, bump, restrict, shift]
        · simp only [Fits, restrict] at hf
          simp [tangentM, tangentX, elemMat, fonJac, restrict, hf.1, hf.2]
      | second b g =>
        have := hx (restrict e ⟨0, 0, Y⟩) a ha
        refine ((this.1.fun_add this.2).congr_of_eventuallyEq (Filter.Eventually.of_forall fun t => ?_)).congr_deriv ?_
        · simp [elemVec, bump, restrict, shift]
        · simp [tangentM, tangentX, elemMat, sonJac, restrict]

theorem product_eq (C : Nat → Bool) (S : Solver) (dt : ℝ) (h : Hist (Nat → ℝ)) (X dX : Nat → ℝ) (ps : List (List Elem)) (d : Nat) :
    product C S dt h X dX ps d = if C d then 0 else gather (fun e => e.prod (elemState S h (localQty S false dt h X) e) (restrict e (perturbed S dt dX))) ps.flatten d := by
  unfold product prodProc
  simp only [fold_vec C (fun e => e.prod (elemState S h (localQty S false dt h X) e) (restrict e (perturbed S dt dX))), zero_add]
  by_cases hC : C d = true
  · simp [hC]
  · simp only [hC, Bool.false_eq_true, if_false]; exact gather_flatten _ _ _

/-- C167: the matrix-free product of the Newmark solvers equals the assembled matrix times the vector, in every row, if the element products are exact and the vector vanishes at the constrained degrees of freedom.
(For generalized-alpha C32 shows the failure.) -/
theorem C167_product (C : Nat → Bool) (S : Solver) (hS : ∀ c, S ≠ .alpha c) (dt : ℝ) (h : Hist (Nat → ℝ)) (X dX : Nat → ℝ) (ps : List (List Elem)) (N : Nat) (hN : ∀ e ∈ ps.flatten, ∀ a < e.n, e.dof a < N)
    (hY : ∀ c, C c = true → dX c = 0) (hp : ∀ e ∈ ps.flatten, Fits S e (restrict e (stepState S dt h X)) ∧ ∀ p, ∀ a < e.n, e.prod (restrict e (stepState S dt h X)) p a
      = tangentM e (restrict e (stepState S dt h X)) p a + tangentX e (restrict e (stepState S dt h X)) p a) (d : Nat) :
    product C S dt h X dX ps d = ∑ c ∈ range N, jacobian C S false dt h X ps d c * dX c := by
  rw [jac_mul C S false dt h X dX ps N hN hY, product_eq]
  simp only [state_eq]
  refine if_congr Iff.rfl rfl (gather_congr _ _ _ (fun e he a ha => ?_) d)
  rw [(hp e he).2 _ a ha, mat_tangent S dt e _ (hp e he).1]
  have : perturbed S dt dX = stepDir S dt dX := by
    cases S with
    | first b => rfl
    | second b g => rfl
    | alpha c => exact absurd rfl (hS c)
  rw [this]

/-- C167: a vector that moves a constrained degree of freedom is treated differently by the two: here the product is 0 and the matrix gives 1 at the constrained degree of freedom. -/
theorem C167_product_constrained_fails : ∃ (e : Elem) (h : Hist (Nat → ℝ)), (∀ s p, ∀ a < e.n, e.prod s p a = tangentM e s p a + tangentX e s p a) ∧ (∀ s, Fits (.first 1) e s)
    ∧ product (fun _ => true) (.first 1) 1 h (fun _ => 0) (fun _ => 1) [[e]] 0 = 0 ∧ ∑ c ∈ range 1, jacobian (fun _ => true) (.first 1) false 1 h (fun _ => 0) [[e]] 0 c * 1 = 1 := by
  refine ⟨⟨1, fun _ => 0, fun _ _ => 0, fun s a => s.x a, fun _ => ⟨0, 0, 0, 0, fun _ _ => 1⟩, fun _ p a => p.x a, fun _ _ => 0, fun _ _ => 0, fun _ _ _ => 0⟩, ⟨0, 0, 0, 0⟩, ?_, ?_, ?_, ?_⟩
  · intro s p a ha
    obtain rfl : a = 0 := by simpa using ha
    simp [tangentM, tangentX]
  · intro s; exact ⟨rfl, rfl⟩
  · rw [product_eq]; simp
  · rw [sum_range_one, jacobian_eq]; simp [count, gather]

/-! ### Reinitialization -/

/-- C167: the reinitialization assembly fails without a reference solution; with one, residual and matrix are those of the time step for elements that know their part of the reference solution.  A second reference
solution is refused in debug builds and replaces the first in release builds. -/
theorem C167_reinitialization (C : Nat → Bool) (S : Solver) (dt : ℝ) (h : Hist (Nat → ℝ)) (X : Nat → ℝ) (ps : List (List ((Nat → Nat) × RefElem))) :
    reinitResidual C S dt h none X ps = .error .ub ∧ reinitJacobian C S dt h none X ps = .error .ub
    ∧ (∀ r, reinitResidual C S dt h (some r) X ps = .ok (residual C S false dt h X (ps.map fun es => es.map fun e => e.2 fun a => r (e.1 a)))
      ∧ reinitJacobian C S dt h (some r) X ps = .ok (jacobian C S false dt h X (ps.map fun es => es.map fun e => e.2 fun a => r (e.1 a))))
    ∧ (∀ dbg r, setReference dbg none r = .ok (some r)) ∧ ∀ r r', setReference true (some r) r' = .error .assertFail ∧ setReference false (some r) r' = .ok (some r') := by
  refine ⟨rfl, rfl, fun r => ⟨?_, ?_⟩, fun dbg r => by simp [setReference], fun r r' => ⟨rfl, rfl⟩⟩
  · simp only [reinitResidual]; congr 1; funext i; unfold residual; rw [List.map_map]; rfl
  · simp only [reinitJacobian]; congr 1; funext i j; unfold jacobian; rw [List.map_map]; rfl

/-! ### Sensitivity -/

theorem sens_ok (C : Nat → Bool) (b dt : ℝ) (dbg : Bool) (h hs : Hist (Nat → ℝ)) (X : Nat → ℝ) (es : List Elem) (R : Nat → ℝ) :
    es.foldlM (sensElem dbg C (.first b) dt h hs X) R = .ok (es.foldl (fun R e => addVector e.n e.dof (conVec C e.dof fun a =>
      e.dfm (elemState (.first b) h (localQty (.first b) false dt h X) e) a + e.dfx (elemState (.first b) h (localQty (.first b) false dt h X) e) a
      + -1 * ∑ j ∈ range e.n, (e.B (elemState (.first b) h (localQty (.first b) false dt h X) e)).m_xd a j * ((1 / b / dt) * hs.sol 1 (e.dof j) + (1 - b) / b * hs.vel 1 (e.dof j))) R) R) := by
  induction es generalizing R with
  | nil => rfl
  | cons e l ih => rw [List.foldlM_cons]; exact ih _

theorem mapM_ok {α β : Type} (f : α → Exec β) (g : α → β) (l : List α) (h : ∀ a, f a = .ok (g a)) : l.mapM f = .ok (l.map g) := by
  induction l with
  | nil => rfl
  | cons a l ih => rw [List.mapM_cons, h, ih]; rfl

/-- C168, first order systems: the parameter moves the element forces, the stored history (with the stored sensitivities as derivative) and the solution of the step.  If the step is solved for all values of the parameter
and element sensitivities and matrices are exact, then matrix times derivative of the solution equals minus the assembled sensitivity: the linear sensitivity system is the right one. -/
theorem C168_first_order (dbg : Bool) (C : Nat → Bool) (b dt : ℝ) (ps : List (List Elem)) (N : Nat) (hN : ∀ e ∈ ps.flatten, ∀ a < e.n, e.dof a < N)
    (F : ℝ → Elem → ElemState (Nat → ℝ) → Nat → ℝ) (h : ℝ → Hist (Nat → ℝ)) (hs : Hist (Nat → ℝ)) (X : ℝ → Nat → ℝ) (w : Nat → ℝ)
    (hX : ∀ c, HasDerivAt (fun p => X p c) (w c) 0) (hw : ∀ c, C c = true → w c = 0)
    (hh : ∀ c, HasDerivAt (fun p => (h p).sol 1 c) (hs.sol 1 c) 0 ∧ HasDerivAt (fun p => (h p).vel 1 c) (hs.vel 1 c) 0)
    (hsol : ∀ p, ∀ d, C d = false → gather (fun e => F p e (restrict e (stepState (.first b) dt (h p) (X p)))) ps.flatten d = 0)
    (hex : ∀ e ∈ ps.flatten, ExactSens e (fun p => F p e) (restrict e (stepState (.first b) dt (h 0) (X 0))) ∧ Fits (.first b) e (restrict e (stepState (.first b) dt (h 0) (X 0)))) :
    ∃ rhs, sensRhs dbg C (.first b) dt (h 0) hs (X 0) ps = .ok rhs ∧ ∀ d, ∑ c ∈ range N, jacobian C (.first b) false dt (h 0) (X 0) ps d c * w c = -rhs d := by
  have hproc := fun es => (show sensProc dbg C (.first b) dt (h 0) hs (X 0) es = _ from sens_ok C b dt dbg (h 0) hs (X 0) es (fun _ => 0))
  refine ⟨_, by unfold sensRhs; rw [mapM_ok _ _ ps hproc]; rfl, fun d => ?_⟩
  rw [jac_mul C _ false dt _ _ w ps N hN hw, List.map_map]
  simp only [Function.comp_def, fold_vec C (fun e a => e.dfm (elemState (.first b) (h 0) (localQty (.first b) false dt (h 0) (X 0)) e) a + e.dfx (elemState (.first b) (h 0) (localQty (.first b) false dt (h 0) (X 0)) e) a
      + -1 * ∑ j ∈ range e.n, (e.B (elemState (.first b) (h 0) (localQty (.first b) false dt (h 0) (X 0)) e)).m_xd a j * ((1 / b / dt) * hs.sol 1 (e.dof j) + (1 - b) / b * hs.vel 1 (e.dof j))), zero_add]
  by_cases hd : C d = true
  · simp [hd]
  simp only [hd, Bool.false_eq_true, if_false]
  rw [gather_flatten]
  simp only [state_eq]
  -- derivative of the element equations
  let dir : Elem → ElemState (Nat → ℝ) := fun e => restrict e ⟨w, fun c => 1 / b / dt * (w c - hs.sol 1 c) - (1 - b) / b * hs.vel 1 c, 0⟩
  have hder := gather_deriv ps.flatten (fun p e => F p e (restrict e (stepState (.first b) dt (h p) (X p))))
    (fun e a => e.dfm (restrict e (stepState (.first b) dt (h 0) (X 0))) a + e.dfx (restrict e (stepState (.first b) dt (h 0) (X 0))) a
      + tangentM e (restrict e (stepState (.first b) dt (h 0) (X 0))) (dir e) a + tangentX e (restrict e (stepState (.first b) dt (h 0) (X 0))) (dir e) a)
    (fun e he a ha => (hex e he).1 (fun p => restrict e (stepState (.first b) dt (h p) (X p))) (dir e) rfl (fun a _ => by
      refine ⟨hX _, ?_, hasDerivAt_const _ _⟩
      simp only [restrict, stepState, fonVel, dir]
      have h1 := ((hX (e.dof a)).fun_sub (hh (e.dof a)).1).const_mul (1 / b / dt)
      have h2 := (hh (e.dof a)).2.const_mul (-(1 - b) / b)
      have h3 := h1.fun_add h2
      refine (h3.congr_deriv (by ring)).congr_of_eventuallyEq (Filter.Eventually.of_forall fun p => ?_)
      simp; ring) a ha) d
  have hz := (hasDerivAt_const (0:ℝ) (0:ℝ)).unique (hder.congr_of_eventuallyEq (f₁ := fun _ => (0:ℝ)) (Filter.Eventually.of_forall fun p => (hsol p d (by simpa using hd)).symm))
  rw [eq_neg_iff_add_eq_zero]
  refine Eq.trans ?_ hz.symm
  unfold gather
  rw [← List.sum_map_add]
  congr 1
  refine List.map_congr_left fun e he => ?_
  rw [← sum_add_distrib]
  refine sum_congr rfl fun a _ => ?_
  split
  · beta_reduce
    rw [mat_tangent (.first b) dt e _ (hex e he).2]
    have e1 : tangentM e (restrict e (stepState (.first b) dt (h 0) (X 0))) (dir e) a = tangentM e (restrict e (stepState (.first b) dt (h 0) (X 0))) (restrict e (stepDir (.first b) dt w)) a
        + -1 * ∑ j ∈ range e.n, (e.B (restrict e (stepState (.first b) dt (h 0) (X 0)))).m_xd a j * ((1 / b / dt) * hs.sol 1 (e.dof j) + (1 - b) / b * hs.vel 1 (e.dof j)) := by
      unfold tangentM
      rw [mul_sum, ← sum_add_distrib]
      refine sum_congr rfl fun j _ => ?_
      simp only [dir, restrict, stepDir, Pi.zero_apply]; ring
    have e2 : tangentX e (restrict e (stepState (.first b) dt (h 0) (X 0))) (dir e) a = tangentX e (restrict e (stepState (.first b) dt (h 0) (X 0))) (restrict e (stepDir (.first b) dt w)) a := by
      unfold tangentX
      refine sum_congr rfl fun j _ => ?_
      have hx := congrFun (congrFun (hex e he).2.2 a) j
      rw [hx]; simp only [dir, restrict, stepDir, Pi.zero_apply]; ring
    rw [e1, e2]; ring
  · ring

/-- A mass: `f_m` is the acceleration, no other force. -/
noncomputable def mass : Elem := ⟨1, fun _ => 0, fun s a => s.a a, fun _ _ => 0, fun _ => ⟨fun _ _ => 1, 0, 0, 0, 0⟩, fun _ p a => p.a a, fun _ _ => 0, fun _ _ => 0, fun _ _ _ => 0⟩

/-- Non-vacuity of the initial acceleration of a mass. -/
example : (∀ s, Exact mass s ∧ Fits (.second (1 / 4) (1 / 2)) mass s) ∧ residual (fun _ => false) (.second (1 / 4) (1 / 2)) true 1 ⟨0, 0, fun _ _ => 3, 0⟩ 0 [[mass]] 0 = 3 := by
  refine ⟨fun s => ⟨fun d i hi => ?_, trivial⟩, ?_⟩
  · obtain rfl : i = 0 := by simpa [mass] using hi
    refine ⟨?_, ?_⟩
    · simp only [mass, shift, tangentM, sum_range_one]
      have := ((hasDerivAt_id' (0:ℝ)).mul_const (d.a 0)).const_add (s.a 0)
      refine this.congr_deriv (by simp)
    · simp only [mass, tangentX]; refine (hasDerivAt_const _ _).congr_deriv (by simp)
  · rw [(C167_highest _ _ (by simp) 1 _ 0 0 [[mass]] 1 (by simp [mass]) (by simp) 0).1]
    simp [gather, mass, restrict]

/-- C168 fails for second order systems.  Debug builds stop.  In release builds the dependence on the previous step is lost: a free mass whose velocity is the parameter `p` moves to `p`, derivative 1, but the assembled
sensitivity is 0 while the matrix is 4. -/
theorem C168_second_order_fails :
    (∀ C b g dt h hs X (e : Elem) es ps, sensRhs true C (.second b g) dt h hs X ((e :: es) :: ps) = .error .assertFail)
    ∧ ∃ (h : ℝ → Hist (Nat → ℝ)) (hs : Hist (Nat → ℝ)), (∀ c, HasDerivAt (fun p => (h p).vel 1 c) (hs.vel 1 c) 0 ∧ HasDerivAt (fun p => (h p).sol 1 c) (hs.sol 1 c) 0 ∧ HasDerivAt (fun p => (h p).acc 1 c) (hs.acc 1 c) 0)
      ∧ (∀ s, Exact mass s) ∧ (∀ p, residual (fun _ => false) (.second (1 / 4) (1 / 2)) false 1 (h p) (fun _ => p) [[mass]] 0 = 0)
      ∧ jacobian (fun _ => false) (.second (1 / 4) (1 / 2)) false 1 (h 0) (fun _ => 0) [[mass]] 0 0 * 1 = 4
      ∧ ∃ rhs, sensRhs false (fun _ => false) (.second (1 / 4) (1 / 2)) 1 (h 0) hs (fun _ => 0) [[mass]] = .ok rhs ∧ rhs 0 = 0 := by
  refine ⟨fun C b g dt h hs X e es ps => rfl, fun p => ⟨0, fun _ _ => p, 0, 0⟩, ⟨0, fun _ _ => 1, 0, 0⟩, ?_, ?_, ?_, ?_, ?_⟩
  · intro c; exact ⟨hasDerivAt_id' _, hasDerivAt_const _ _, hasDerivAt_const _ _⟩
  · intro s d i hi
    obtain rfl : i = 0 := by simpa [mass] using hi
    refine ⟨?_, ?_⟩
    · simp only [mass, shift, tangentM, sum_range_one]
      have := ((hasDerivAt_id' (0:ℝ)).mul_const (d.a 0)).const_add (s.a 0)
      refine this.congr_deriv (by simp)
    · simp only [mass, tangentX]; refine (hasDerivAt_const _ _).congr_deriv (by simp)
  · intro p
    rw [residual_eq]
    simp [gather, mass, elemVec, elemState, localQty, sonAcc]
  · rw [jacobian_eq]
    simp [gather2, mass, elemMat, sonJac]
  · refine ⟨_, rfl, ?_⟩
    simp [mass, addVector, conVec, loop]

/-- Non-vacuity of C167 and C168: the first order equation v + x = p on one degree of freedom, starting from rest, with step 1. -/
noncomputable def decay : Elem := ⟨1, fun _ => 0, fun s a => s.v a, fun s a => s.x a, fun _ => ⟨0, fun _ _ => 1, 0, 0, fun _ _ => 1⟩, fun _ p a => p.v a + p.x a, fun _ _ => 0, fun _ _ => -1, fun _ _ _ => 0⟩

example : (∀ s, Exact decay s) ∧ (∀ s, Fits (.first 1) decay s) ∧ ∃ (F : ℝ → Elem → ElemState (Nat → ℝ) → Nat → ℝ) (X : ℝ → Nat → ℝ) (w : Nat → ℝ), w 0 ≠ 0 ∧ (∀ c, HasDerivAt (fun p => X p c) (w c) 0)
    ∧ (∀ p, ∀ d, gather (fun e => F p e (restrict e (stepState (.first 1) 1 ⟨0, 0, 0, 0⟩ (X p)))) [[decay]].flatten d = 0) ∧ ∀ s, ExactSens decay (fun p => F p decay) s := by
  refine ⟨fun s d i hi => ?_, fun s => ⟨rfl, rfl⟩, fun p _ s a => s.v a + s.x a - p, fun p _ => 1 / 2 * p, fun _ => 1 / 2, by norm_num, fun c => ?_, fun p d => ?_, fun s σ d h0 hσ i hi => ?_⟩
  · obtain rfl : i = 0 := by simpa [decay] using hi
    refine ⟨?_, ?_⟩
    · simp only [decay, shift, tangentM, sum_range_one]
      exact (((hasDerivAt_id' (0:ℝ)).mul_const (d.v 0)).const_add (s.v 0)).congr_deriv (by simp)
    · simp only [decay, shift, tangentX, sum_range_one]
      exact (((hasDerivAt_id' (0:ℝ)).mul_const (d.x 0)).const_add (s.x 0)).congr_deriv (by simp)
  · exact ((hasDerivAt_id' (0:ℝ)).const_mul (1 / 2)).congr_deriv (by ring)
  · simp [gather, decay, restrict, stepState, fonVel]; intro _; linarith
  · obtain rfl : i = 0 := by simpa [decay] using hi
    have h1 := hσ 0 (by simp [decay])
    refine ((h1.2.1.fun_add h1.1).fun_sub (hasDerivAt_id' _)).congr_deriv ?_
    simp [decay, tangentM, tangentX]; ring

end Verif.TrAsm
