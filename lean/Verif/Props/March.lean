import Verif.Model.March
import Verif.Props.Transient
import Verif.Props.TransientAsm
import Verif.Props.FluidOps
/-
  C202: steady states and time marching.
-/
namespace Verif.March
open Verif Verif.Transient Verif.TrAsm

section Spec
/-- The element forces balance in the state `X` at rest, and `X` meets the constraints. -/
def Steady (C : Nat → Bool) (g X : Nat → ℝ) (els : List Elem) : Prop :=
  ∀ d, if C d then X d = g d else gather (fun e a => e.fm ⟨fun b => X (e.dof b), fun _ => 0, fun _ => 0⟩ a + e.fx ⟨fun b => X (e.dof b), fun _ => 0, fun _ => 0⟩ a) els d = 0

/-- The nonlinear solver keeps an initial solution without residual. -/
def Keeps (snes : Snes) : Prop := ∀ R J Y, (∀ d, R Y d = 0) → snes R J Y = Y

/-- The stored step number `k` is the state `X` at rest. -/
def RestAt (S : Solver) (X : Nat → ℝ) (h : Hist (Nat → ℝ)) (k : Nat) : Prop := h.sol k = X ∧ h.vel k = 0 ∧ ((integ S).order > 1 → h.acc k = 0)
end Spec

theorem order_cases (S : Solver) : ((∃ b, S = .first b) ∧ (integ S).order = 1) ∨ (integ S).order = 2 := by
  cases S with
  | first b => exact .inl ⟨⟨b, rfl⟩, rfl⟩
  | second b g => exact .inr rfl
  | alpha c => exact .inr rfl

theorem nStore_eq (S : Solver) : (integ S).nStore = 2 := by cases S <;> rfl

/-- Velocity and acceleration of a step that ends where it began, at rest. -/
theorem son_rest (β γ dt : ℝ) (h : Hist (Nat → ℝ)) (X : Nat → ℝ) (h1 : h.sol 1 = X) (h2 : h.vel 1 = 0) (h3 : h.acc 1 = 0) : sonVel β γ dt h X = 0 ∧ sonAcc β dt h X = 0 := by
  constructor
  · simp [sonVel, h1, h2, h3]
  · simp [sonAcc, h1, h2, h3]

theorem fon_rest (β dt : ℝ) (h : Hist (Nat → ℝ)) (X : Nat → ℝ) (h1 : h.sol 1 = X) (h2 : h.vel 1 = 0) : fonVel β dt h X = 0 := by simp [fonVel, h1, h2]

theorem step_state (S : Solver) (dt : ℝ) (h : Hist (Nat → ℝ)) (X : Nat → ℝ) (hr : RestAt S X h 1) : stepState S dt h X = ⟨X, 0, 0⟩ := by
  obtain ⟨h1, h2, h3⟩ := hr
  cases S with
  | first b => simp only [stepState, fon_rest b dt h X h1 h2]
  | second b g =>
    obtain ⟨e1, e2⟩ := son_rest b g dt h X h1 h2 (h3 (by decide : (2:Nat) > 1))
    simp only [stepState, sonLocal, sonElemState, e1, e2]
  | alpha c =>
    obtain ⟨e1, e2⟩ := son_rest c.beta c.gamma dt h X h1 h2 (h3 (by decide : (2:Nat) > 1))
    simp only [stepState, gaLocal, gaElemState, e1, e2, h1, h2, h3 (by decide : (2:Nat) > 1), smul_zero, add_zero]
    congr 1
    rw [← add_smul]; simp

/-- C202: a step of any solver from the steady state has no residual there. -/
theorem residual_rest (C : Nat → Bool) (g X : Nat → ℝ) (S : Solver) (dt : ℝ) (h : Hist (Nat → ℝ)) (ps : List (List Elem)) (hs : Steady C g X ps.flatten) (hr : RestAt S X h 1) (d : Nat) :
    residual C S false dt h X ps d = 0 := by
  rw [(C167_residual C S dt h X ps d).1, step_state S dt h X hr]
  have h1 := hs d
  split
  · rfl
  · rename_i hC; rw [if_neg hC] at h1; exact h1

theorem enforce_steady (C : Nat → Bool) (g X : Nat → ℝ) (els : List Elem) (hs : Steady C g X els) : enforce C g X = X := by
  funext d
  have h1 := hs d
  unfold enforce
  split
  · rename_i hC; rw [if_pos hC] at h1; exact h1.symm
  · rfl

theorem pre_vel (S : Solver) (h : Hist (Nat → ℝ)) (X : Nat → ℝ) (dt : ℝ) (hr : RestAt S X h 1) : (preShift (integ S) h X dt).vel 0 = 0 ∧ ((integ S).order > 1 → (preShift (integ S) h X dt).acc 0 = 0) := by
  obtain ⟨h1, h2, h3⟩ := hr
  cases S with
  | first b => exact ⟨by simp [preShift, integ, fonSolver, setAt, fonVel, h1, h2], fun h => absurd h (by decide : ¬(1:Nat) > 1)⟩
  | second b g =>
    have h4 := h3 (by decide : (2:Nat) > 1)
    exact ⟨by simp [preShift, integ, sonSolver, setAt, sonVel, h1, h2, h4], fun _ => by simp [preShift, integ, sonSolver, setAt, sonAcc, h1, h2, h4]⟩
  | alpha c =>
    have h4 := h3 (by decide : (2:Nat) > 1)
    exact ⟨by simp [preShift, integ, sonSolver, setAt, sonVel, h1, h2, h4], fun _ => by simp [preShift, integ, sonSolver, setAt, sonAcc, h1, h2, h4]⟩

theorem advance_rest (S : Solver) (h : Hist (Nat → ℝ)) (X : Nat → ℝ) (dt : ℝ) (b : Bool) (hr : RestAt S X h 1) (k : Nat) (hk : k ≤ 1) : RestAt S X (advance (integ S) h X dt b) k := by
  have hp := pre_vel S h X dt hr
  refine ⟨?_, ?_, fun ho => ?_⟩
  · rw [advance_sol, nStore_eq]; interval_cases k <;> simp
  · rw [advance_vel, nStore_eq, hp.1]; interval_cases k <;> simp
  · rw [advance_acc _ ho, nStore_eq, hp.2 ho]; interval_cases k <;> simp

/-- C202: from a steady state at rest every number of time steps, of every solver, with every step size, ends in the same state at rest, at the time that the steps add up to; constraints included. -/
theorem C202_kept (snes : Snes) (hk : Keeps snes) (C : Nat → Bool) (g X : Nat → ℝ) (S : Solver) (ps : List (List Elem)) (hs : Steady C g X ps.flatten) (h : Hist (Nat → ℝ)) (hr : RestAt S X h 1) (dts : List (ℝ × Bool)) :
    (steps snes C g S ps ⟨h, X⟩ dts).X = X ∧ RestAt S X (steps snes C g S ps ⟨h, X⟩ dts).h 1 ∧ (dts ≠ [] → RestAt S X (steps snes C g S ps ⟨h, X⟩ dts).h 0)
    ∧ (steps snes C g S ps ⟨h, X⟩ dts).h.time = h.time + (dts.map fun dt => if dt.2 then dt.1 else 0).sum := by
  have h1 : ∀ (h : Hist (Nat → ℝ)), RestAt S X h 1 → ∀ dt, step snes C g S ps ⟨h, X⟩ dt = ⟨advance (integ S) h X dt.1 dt.2, X⟩ := by
    intro h hr dt
    unfold step
    dsimp only
    rw [hk _ _ _ fun d => residual_rest C g X S dt.1 h ps hs hr d, enforce_steady C g X _ hs]
  induction dts generalizing h with
  | nil => exact ⟨rfl, hr, fun h => absurd rfl h, by simp [steps]⟩
  | cons dt l ih =>
    have e : steps snes C g S ps ⟨h, X⟩ (dt :: l) = steps snes C g S ps ⟨advance (integ S) h X dt.1 dt.2, X⟩ l := by
      unfold steps; rw [List.foldl_cons, h1 h hr]
    have ha := advance_rest S h X dt.1 dt.2 hr
    obtain ⟨i1, i2, i3, i4⟩ := ih _ (ha 1 le_rfl)
    rw [e]
    refine ⟨i1, i2, fun _ => ?_, ?_⟩
    · cases l with
      | nil => exact ha 0 (by omega)
      | cons a l => exact i3 (by simp)
    · rw [i4, advance_time, List.map_cons, List.sum_cons]; ring

/-- C202: so is the state with which the analysis starts: the initial velocity (of a first order system) or acceleration (of a second order system) is zero.  For generalized-alpha this needs the state in the stored step, too. -/
theorem C202_start_partial (ksp : (Nat → Nat → ℝ) → (Nat → ℝ) → Nat → ℝ) (hk : ∀ A b, (∀ d, b d = 0) → ∀ d, ksp A b d = 0) (C : Nat → Bool) (g X : Nat → ℝ) (S : Solver) (ps : List (List Elem)) (hs : Steady C g X ps.flatten)
    (h : Hist (Nat → ℝ)) (h0 : h.sol 0 = X) (h1 : h.vel 0 = 0) (h2 : h.acc 0 = 0) (hg : (∃ c, S = .alpha c) → RestAt S X h 1) (dt : ℝ × Bool) :
    (start ksp C S ps ⟨h, X⟩ dt).X = X ∧ RestAt S X (start ksp C S ps ⟨h, X⟩ dt).h 0 ∧ RestAt S X (start ksp C S ps ⟨h, X⟩ dt).h 1 ∧ (start ksp C S ps ⟨h, X⟩ dt).h.time = h.time + if dt.2 then dt.1 else 0 := by
  have hr : ∀ d, residual C S true dt.1 h X ps d = 0 := by
    intro d
    rw [residual_eq]
    have e1 := hs d
    split
    · rfl
    · rename_i hC
      rw [if_neg hC] at e1
      have e2 : ∀ e : Elem, elemState S h (localQty S true dt.1 h X) e = ⟨fun b => X (e.dof b), fun _ => 0, fun _ => 0⟩ := by
        intro e
        cases S with
        | first b => simp [elemState, localQty, h0, h1, h2]
        | second b g => simp [elemState, localQty, h0, h1, h2]
        | alpha c =>
          obtain ⟨g1, g2, g3⟩ := hg ⟨c, rfl⟩
          have g4 := g3 (by decide : (2:Nat) > 1)
          simp only [elemState, localQty, h0, h1, h2, g1, g2, g4, if_true, Pi.zero_apply, mul_zero, add_zero]
          congr 1
          funext a; ring
      simp only [e2]; exact e1
  have hd : ksp (jacobian C S true dt.1 h X ps) (residual C S true dt.1 h X ps) = 0 := funext fun d => hk _ _ hr d
  have he : enforce C 0 (0 : Nat → ℝ) = 0 := by funext i; simp [enforce]
  refine ⟨rfl, ?_, ?_, ?_⟩
  all_goals
    unfold start
    simp only [hd, h1, h2]
    rcases S with b | ⟨b, g'⟩ | c <;> rcases dt with ⟨dt, (_ | _)⟩ <;>
      simp [RestAt, integ, fonSolver, sonSolver, shiftLoop, shiftBody, setAt, he, h1, h2]

/-- C202: what is stored after a step are the solution, velocity and acceleration for which the residual of that step was assembled. -/
theorem C202_stored (S : Solver) (h : Hist (Nat → ℝ)) (X : Nat → ℝ) (dt : ℝ) (b : Bool) :
    (advance (integ S) h X dt b).sol 1 = (localQty S false dt h X).x ∧ (advance (integ S) h X dt b).vel 1 = (localQty S false dt h X).v
    ∧ ((∀ β, S ≠ .first β) → (advance (integ S) h X dt b).acc 1 = (localQty S false dt h X).a) := by
  rcases S with β | ⟨β, γ⟩ | c <;> refine ⟨?_, ?_, fun hS => ?_⟩
  all_goals first
    | exact absurd rfl (hS _)
    | (cases b <;> rfl)

/-- Non-vacuity of `C202_stored`: the acceleration that is stored need not vanish. -/
example : (localQty (.second (1 / 4) (1 / 2)) false 1 ⟨fun _ => 0, fun _ => 0, fun _ => 0, 0⟩ fun _ => 1).a 0 = 4 := by simp [localQty, sonAcc]

/-! ### Flow -/

section Spec
/-- The residual of the steady flow equations in the state `X`, at degree of freedom `d`: interior and all sides of all elements. -/
noncomputable def flowRes (X : Nat → ℝ) (els : List FlowElem) (d : Nat) : ℝ :=
  (els.map fun e => ∑ a ∈ Finset.range ((e.c.d + 2) * e.c.n), if e.dof a = d then
    FreqFlow.entry e.c (fun v b => Fluid.internalRes e.c e.T e.dc e.qs (FreqFlow.fieldOf e.c fun a => X (e.dof a)) v b
      + (e.loads.map fun L => FluidOps.surface e.c (FreqFlow.fieldOf e.c fun a => X (e.dof a)) L v b).sum) a else 0).sum
end Spec

/-- A velocity that is zero exerts no force. -/
theorem velocityRes_zero (c : Fluid.Ctx) (T : Fluid.Tau) (qs : List Fluid.Qp) (sol : Fluid.Field) (v : Fluid.Var) (a : Nat) : Fluid.velocityRes c T qs sol (FreqFlow.fieldOf c fun _ => 0) v a = 0 := by
  have h1 : ∀ (ψ : Nat → ℝ) v, Fluid.interp c ψ (FreqFlow.fieldOf c fun _ => 0) v = 0 := by intro ψ v; simp [Fluid.interp, FreqFlow.fieldOf]
  unfold Fluid.velocityRes
  simp [h1]

/-- C202: a solution of the steady flow equations stays when the flow is marched in time, from the start through every number of steps of every size. -/
theorem C202_flow (ksp : (Nat → Nat → ℝ) → (Nat → ℝ) → Nat → ℝ) (hk : ∀ A b, (∀ d, b d = 0) → ∀ d, ksp A b d = 0) (snes : Snes) (hn : Keeps snes) (C : Nat → Bool) (g X : Nat → ℝ) (β : ℝ) (ps : List (List FlowElem))
    (hl : ∀ e ∈ ps.flatten, FluidOps.Known e.loads) (hs : ∀ d, if C d then X d = g d else flowRes X ps.flatten d = 0) (h : Hist (Nat → ℝ)) (h0 : h.sol 0 = X) (h1 : h.vel 0 = 0) (h2 : h.acc 0 = 0) (dt : ℝ × Bool) (dts : List (ℝ × Bool)) :
    (steps snes C g (.first β) (ps.map (List.map toTr)) (start ksp C (.first β) (ps.map (List.map toTr)) ⟨h, X⟩ dt) dts).X = X
    ∧ (steps snes C g (.first β) (ps.map (List.map toTr)) (start ksp C (.first β) (ps.map (List.map toTr)) ⟨h, X⟩ dt) dts).h.sol 1 = X
    ∧ (steps snes C g (.first β) (ps.map (List.map toTr)) (start ksp C (.first β) (ps.map (List.map toTr)) ⟨h, X⟩ dt) dts).h.vel 1 = 0 := by
  have hS : Steady C g X (ps.map (List.map toTr)).flatten := by
    intro d
    have e1 := hs d
    split
    · rename_i hC; rw [if_pos hC] at e1; exact e1
    · rename_i hC
      rw [if_neg hC] at e1
      refine Eq.trans ?_ e1
      rw [← List.map_flatten]
      unfold gather flowRes
      rw [List.map_map]
      congr 1
      refine List.map_congr_left fun e he => Finset.sum_congr rfl fun a _ => ?_
      dsimp only [Function.comp, toTr]
      rw [((FluidOps.C173_residual e.c e.T e.dc e.qs e.loads _ _).1 (hl e he)).1]
      by_cases hd : e.dof a = d
      · simp only [hd, if_true, pairOf, FreqFlow.entry, velocityRes_zero, zero_add]
      · simp only [hd, if_false]
  obtain ⟨s1, s2, s3, _⟩ := C202_start_partial ksp hk C g X (.first β) _ hS h h0 h1 h2 (fun ⟨c, hc⟩ => by cases hc) dt
  have e : start ksp C (.first β) (ps.map (List.map toTr)) ⟨h, X⟩ dt = ⟨(start ksp C (.first β) (ps.map (List.map toTr)) ⟨h, X⟩ dt).h, X⟩ := rfl
  obtain ⟨k1, k2, _⟩ := C202_kept snes hn C g X (.first β) _ hS _ s3 dts
  rw [e]
  exact ⟨k1, k2.1, k2.2.1⟩

/-! ### Examples -/

/-- A mass on a spring whose rest position is 1. -/
noncomputable def spring : Elem where
  n := 1
  dof := fun a => a
  fm := fun s a => s.a a
  fx := fun s a => s.x a - 1
  B := fun _ => ⟨fun _ _ => 1, fun _ _ => 0, fun _ _ => 0, fun _ _ => 0, fun _ _ => 1⟩
  prod := fun _ p a => p.a a + p.x a
  dfm := fun _ _ => 0
  dfx := fun _ _ => 0
  damp := fun _ _ _ => 0

theorem spring_steady : Steady (fun _ => false) (fun _ => 0) (fun d => if d = 0 then 1 else 0) [[spring]].flatten := by
  intro d
  simp only [Bool.false_eq_true, if_false]
  simp [gather, spring]
  rintro rfl; simp

/-- A nonlinear solver that keeps solutions: here one that does nothing else. -/
theorem keeps_id : Keeps fun _ _ Y => Y := fun _ _ _ _ => rfl

/-- Non-vacuity of `C202_kept` and `C202_start_partial`: the spring in its rest position, for each solver. -/
example (S : Solver) : ∃ (X : Nat → ℝ) (h : Hist (Nat → ℝ)), X 0 = 1 ∧ Keeps (fun _ _ Y => Y) ∧ Steady (fun _ => false) (fun _ => 0) X [[spring]].flatten ∧ RestAt S X h 1 ∧ h.sol 0 = X ∧ h.vel 0 = 0 ∧ h.acc 0 = 0 :=
  ⟨_, ⟨fun _ => fun d => if d = 0 then 1 else 0, fun _ => 0, fun _ => 0, 0⟩, by simp, keeps_id, spring_steady, ⟨rfl, rfl, fun _ => rfl⟩, rfl, rfl, rfl⟩

/-- C202 fails for generalized-alpha without the state in the stored step: the spring starts in its rest position, the stored step is zero as it is created; with the spectral radius 1/2 the initial acceleration is 1/3
and the rest position is not a solution of the first step. -/
theorem C202_alpha_fails : ∃ (X : Nat → ℝ) (h : Hist (Nat → ℝ)), Steady (fun _ => false) (fun _ => 0) X [[spring]].flatten ∧ h.sol 0 = X ∧ h.sol 1 = 0 ∧ (∀ k, h.vel k = 0 ∧ h.acc k = 0) ∧
    ∀ ksp : (Nat → Nat → ℝ) → (Nat → ℝ) → Nat → ℝ, (∀ A b, A 0 0 = 1 → ksp A b 0 = b 0) →
      (start ksp (fun _ => false) (.alpha (gaCoef (1 / 2))) [[spring]] ⟨h, X⟩ (1, true)).h.acc 1 0 = 1 / 3 ∧
      residual (fun _ => false) (.alpha (gaCoef (1 / 2))) false 1 (start ksp (fun _ => false) (.alpha (gaCoef (1 / 2))) [[spring]] ⟨h, X⟩ (1, true)).h X [[spring]] 0 ≠ 0 := by
  refine ⟨fun d => if d = 0 then 1 else 0, ⟨fun k => if k = 0 then fun d => if d = 0 then 1 else 0 else 0, fun _ => 0, fun _ => 0, 0⟩, spring_steady, rfl, rfl, fun _ => ⟨rfl, rfl⟩, fun ksp hk => ?_⟩
  set h : Hist (Nat → ℝ) := ⟨fun k => if k = 0 then fun d => if d = 0 then 1 else 0 else 0, fun _ => 0, fun _ => 0, 0⟩ with hh
  set X : Nat → ℝ := fun d => if d = 0 then 1 else 0 with hX
  have hJ : jacobian (fun _ => false) (.alpha (gaCoef (1 / 2))) true 1 h X [[spring]] 0 0 = 1 := by
    rw [jacobian_eq]
    simp [gather2, spring, elemMat, gaJac, Finset.filter_singleton]
  have hR : residual (fun _ => false) (.alpha (gaCoef (1 / 2))) true 1 h X [[spring]] 0 = -1 / 3 := by
    rw [residual_eq]
    simp [gather, spring, elemVec, elemState, localQty, hh, gaCoef]
    rw [hX]; norm_num
  have hd := hk _ (residual (fun _ => false) (.alpha (gaCoef (1 / 2))) true 1 h X [[spring]]) hJ
  rw [hR] at hd
  have ha : (start ksp (fun _ => false) (.alpha (gaCoef (1 / 2))) [[spring]] ⟨h, X⟩ (1, true)).h.acc 1 0 = 1 / 3 := by
    simp [start, integ, sonSolver, shiftLoop, shiftBody, setAt, enforce, show h.acc 0 = 0 from rfl]
    linarith [hd]
  refine ⟨ha, ?_⟩
  have hs : (start ksp (fun _ => false) (.alpha (gaCoef (1 / 2))) [[spring]] ⟨h, X⟩ (1, true)).h.sol 1 = X := by
    simp [start, integ, sonSolver, shiftLoop, shiftBody, setAt]
  have hv : (start ksp (fun _ => false) (.alpha (gaCoef (1 / 2))) [[spring]] ⟨h, X⟩ (1, true)).h.vel 1 = 0 := by
    simp [start, integ, sonSolver, shiftLoop, shiftBody, setAt, hh]
  generalize (start ksp (fun _ => false) (.alpha (gaCoef (1 / 2))) [[spring]] ⟨h, X⟩ (1, true)).h = k at ha hs hv
  rw [residual_eq]
  simp only [gather, spring, elemVec, elemState, localQty, List.flatten_cons, List.flatten_nil, List.append_nil, List.map_cons, List.map_nil, List.sum_cons, List.sum_nil, Finset.sum_range_one, Bool.false_eq_true,
    if_false, if_true, sonVel, sonAcc, hs, hv, ha, Pi.add_apply, Pi.smul_apply, Pi.zero_apply, smul_eq_mul]
  simp only [hX, if_true, gaCoef]
  norm_num

/-- Gas at rest between two walls: one element of a line flow with two shape functions, and a symmetry plane at each end. -/
noncomputable def tube : FlowElem where
  c := ⟨1, 2, 7, 5, false⟩
  T := fun _ _ _ _ => 0
  dc := fun _ _ _ => 0
  qs := [⟨1, fun _ => 1 / 2, fun _ a => if a = 0 then -1 else 1, fun _ _ _ => 0⟩]
  loads := [⟨.symmetry, [⟨⟨⟨1, fun a => if a = 0 then 1 else 0, fun _ _ => 0, fun i => if i = 0 then -1 else 0⟩, fun _ => 0, fun _ => 0⟩, fun _ => 0, fun _ => 0⟩], fun _ _ => 0⟩,
    ⟨.symmetry, [⟨⟨⟨1, fun a => if a = 1 then 1 else 0, fun _ _ => 0, fun i => if i = 0 then 1 else 0⟩, fun _ => 0, fun _ => 0⟩, fun _ => 0, fun _ => 0⟩], fun _ _ => 0⟩]
  fl := ⟨0, 1, 1, 7, 5, fun _ => 0⟩
  dof := fun a => a

/-- Density 1, no momentum, energy 5, at both nodes. -/
noncomputable def still (d : Nat) : ℝ := if d < 2 then 1 else if d < 4 then 0 else if d < 6 then 5 else 0

theorem tube_steady (d : Nat) : flowRes still [tube] d = 0 := by
  unfold flowRes
  simp only [List.map_cons, List.map_nil, List.sum_cons, List.sum_nil, add_zero]
  refine Finset.sum_eq_zero fun a ha => ?_
  have ha' : a < 6 := by simpa [tube] using ha
  split
  · interval_cases a <;>
    simp [FreqFlow.entry, FreqFlow.varAt, FreqFlow.fieldOf, FreqFlow.pos, tube, still, Fluid.internalRes, Fluid.resQp, Fluid.strong, Fluid.lsOp, FluidOps.surface, Fluid.symRes, Fluid.momEntry, Fluid.interp, Fluid.act, Fluid.stateAt,
      Fluid.prim, Finset.sum_range_succ, Fluid.flux, Fluid.at']
    all_goals try norm_num
  · rfl

/-- Non-vacuity of `C202_flow`. -/
example : ∃ (X : Nat → ℝ) (els : List FlowElem), els ≠ [] ∧ (∀ e ∈ els, FluidOps.Known e.loads) ∧ (∀ d, if (fun _ => false : Nat → Bool) d then X d = 0 else flowRes X els d = 0) ∧ X 4 = 5 ∧ X 2 = 0 := by
  refine ⟨still, [tube], by simp, fun e he L hL => ?_, fun d => ?_, by norm_num [still], by norm_num [still]⟩
  · rw [List.mem_singleton.1 he] at hL
    rcases List.mem_cons.1 hL with rfl | hL
    · simp
    · rw [List.mem_singleton.1 hL]; simp
  · simp only [Bool.false_eq_true, if_false]; exact tube_steady d

end Verif.March
