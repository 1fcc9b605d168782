import Verif.Model.Transient
import Mathlib.Data.List.MinMax
/-
  Model of the sensitivity histories of the transient solvers: src/solver/transient_solver_base.cpp (drivers and history shifts) and the growth factor of
  src/solver/stabilized_first_order_transient_sensitivity_solver.cpp.
-/
namespace Verif.Transient
variable {V : Type*} [AddCommGroup V] [Module ℝ V]

/-- Everything a solver keeps between two calls: the vectors of the analysis and of the sensitivity analysis (transient_solver_base.cpp:103-137), `sys.time`, and the
flags `_first_step`, `_first_sensitivity_step` (40-41). -/
structure Both (V : Type*) where
  sol : Nat → V
  vel : Nat → V
  acc : Nat → V
  dsol : Nat → V
  dvel : Nat → V
  dacc : Nat → V
  time : ℝ
  first : Bool
  firstSens : Bool

/-- The vectors of the analysis, as read by the update formulas. -/
def Both.val (s : Both V) : Hist V := ⟨s.sol, s.vel, s.acc, s.time⟩

/-- The vectors of the sensitivity analysis. -/
def Both.sens (s : Both V) : Hist V := ⟨s.dsol, s.dvel, s.dacc, s.time⟩

/-- The solver right after its construction (transient_solver_base.cpp:36-47), with the current solution `x` of the system. -/
def fresh (x : V) (t : ℝ) : Both V :=
  { sol := fun i => if i = 0 then x else 0, vel := 0, acc := 0, dsol := 0, dvel := 0, dacc := 0, time := t, first := true, firstSens := true }

/-- `set_elem_operation_object` (transient_solver_base.cpp:86-140, with 145-191): the named vectors are removed and added again, hence zero; `_first_step` is set. The
current solution belongs to the system. -/
def attach (s : Both V) : Both V :=
  { s with sol := fun i => if i = 0 then s.sol 0 else 0, vel := 0, acc := 0, dsol := 0, dvel := 0, dacc := 0, first := true }

/-- One pass of the shift loop of the sensitivity vectors for index `i`, transient_solver_base.cpp:498-505, 784-790. -/
def shiftSensBody (order i : Nat) (s : Both V) : Both V :=
  { s with
    dsol := setAt s.dsol i (s.dsol (i - 1))
    dvel := setAt s.dvel i (s.dvel (i - 1))
    dacc := if order > 1 then setAt s.dacc i (s.dacc (i - 1)) else s.dacc }

/-- The loop `for (i = k; i > 0; i--)`. -/
def shiftSens (order : Nat) : Nat → Both V → Both V
  | 0, s => s
  | k + 1, s => shiftSens order k (shiftSensBody order (k + 1) s)

/-- Replace the vectors of the analysis and the clock. -/
def Both.setVal (s : Both V) (h : Hist V) : Both V := { s with sol := h.sol, vel := h.vel, acc := h.acc, time := h.time }

/-- `advance_time_step(increment_time)` (transient_solver_base.cpp:738-766) with the content `x` of `sys.solution`. -/
def advanceVal (S : Integrator V) (s : Both V) (x : V) (dt : ℝ) (incr : Bool) : Both V :=
  { s.setVal (advance S s.val x dt incr) with first := false }

/-- `sensitivity_solve` stores its result (transient_solver_base.cpp:338). -/
def storeSens (s : Both V) (dx : V) : Both V := { s with dsol := setAt s.dsol 0 dx }

/-- `advance_time_step_with_sensitivity` (transient_solver_base.cpp:770-795). The sensitivity updates of the Newmark solvers are the formulas of the analysis with the
sensitivity vectors (first_order_newmark_transient_solver.cpp:168-184, second_order_newmark_transient_solver.cpp:203-241). -/
def advanceSens (S : Integrator V) (s : Both V) (dt : ℝ) : Both V :=
  let s := { s with dvel := setAt s.dvel 0 (S.updVel dt s.sens (s.dsol 0)) }
  let s := if S.order > 1 then { s with dacc := setAt s.dacc 0 (S.updAcc dt s.sens (s.dsol 0)) } else s
  let s := shiftSens S.order (S.nStore - 1) s
  { s with time := s.time + dt, firstSens := false }

/-- `solve_highest_derivative_and_advance_time_step` (transient_solver_base.cpp:343-423) with the content `x` of `sys.solution` and the solution `dvec` of the linear
system; `none`: a failed assertion of a debug build. The orders of the solvers are 1 and 2. Enforcement of constraints is not modelled. -/
def initVal (dbg : Bool) (S : Integrator V) (s : Both V) (x dvec : V) (dt : ℝ) (incr : Bool) : Option (Both V) :=
  if dbg && !s.first then none
  else
    let h := s.val
    let h := if S.order = 1 then { h with vel := setAt h.vel 0 (h.vel 0 - dvec) } else { h with acc := setAt h.acc 0 (h.acc 0 - dvec) }
    let h := { h with sol := setAt h.sol 0 x }
    let h := shiftLoop S.order (S.nStore - 1) h
    let h := if incr then { h with time := h.time + dt } else h
    some { s.setVal h with first := false }

/-- `solve_highest_derivative_and_advance_time_step_with_sensitivity` (transient_solver_base.cpp:428-510); `dvec` solves the system with the right hand side of
`sensitivity_assemble`. -/
def initSens (dbg : Bool) (S : Integrator V) (s : Both V) (dvec : V) (dt : ℝ) : Option (Both V) :=
  if dbg && !s.firstSens then none
  else
    let s := if S.order = 1 then { s with dvel := setAt s.dvel 0 (s.dvel 0 - dvec) } else { s with dacc := setAt s.dacc 0 (s.dacc 0 - dvec) }
    let s := shiftSens S.order (S.nStore - 1) s
    some { s with time := s.time + dt, firstSens := false }

/-- One time step of the loop of the examples (examples/conduction/example_1/example_1.cpp:355-372): accepted solution `x`, its sensitivity `dx`. -/
def pairStep (S : Integrator V) (s : Both V) (x dx : V) (dt : ℝ) : Both V := advanceSens S (advanceVal S (storeSens s dx) x dt false) dt

/-- The loop of the examples. -/
def pairRun (S : Integrator V) (s : Both V) (steps : List (V × V × ℝ)) : Both V := steps.foldl (fun s q => pairStep S s q.1 q.2.1 q.2.2) s

/-- One variable of `_compute_norm_amplification_factor`: norms before and after (stabilized_first_order_transient_sensitivity_solver.cpp:508-515). -/
noncomputable def varNorm (q : ℝ × ℝ) : ℝ := if q.1 > 0 then q.2 / q.1 else 0

/-- `_compute_norm_amplification_factor` (stabilized_first_order_transient_sensitivity_solver.cpp:488-519): the largest of the quotients; the list has one pair per
variable, at least one (`maxCoeff`). -/
noncomputable def normFactor : List (ℝ × ℝ) → ℝ
  | [] => 0
  | q :: l => l.foldl (fun m r => max m (varNorm r)) (varNorm q)

end Verif.Transient
