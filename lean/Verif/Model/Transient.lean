import Mathlib.Data.Real.Basic
import Mathlib.Algebra.Module.Basic
/-
  Model of the transient solvers:
  src/solver/transient_solver_base.cpp, first_order_newmark_transient_solver.cpp, second_order_newmark_transient_solver.cpp,
  generalized_alpha_transient_solver.cpp, and the dispatch used by src/base/transient_assembly.{h,cpp}.

  `NumericVector`s are elements of a real vector space `V` (exact arithmetic, no ghosting: `localize`/`close` are identities).
-/
namespace Verif.Transient
variable {V : Type*} [AddCommGroup V] [Module ℝ V]

/-- Named vectors kept by the solver: `transient_solution_i` (i = 0 is `current_local_solution`), `transient_velocity_i`,
`transient_acceleration_i`, plus `sys.time`. src/solver/transient_solver_base.cpp:86-140 (creation), 196-311 (access). -/
structure Hist (V : Type*) where
  sol : Nat → V
  vel : Nat → V
  acc : Nat → V
  time : ℝ

/-- `v(i) = v(i-1)`: overwrite entry `i` of a named family of vectors. -/
def setAt (f : Nat → V) (i : Nat) (x : V) : Nat → V := fun k => if k = i then x else f k

/-- One pass of the body of the shift loop for index `i`, transient_solver_base.cpp:412-418, 755-761 (same body at 498-505 and 784-790 for
the sensitivity vectors). -/
def shiftBody (order i : Nat) (h : Hist V) : Hist V :=
  { h with
    sol := setAt h.sol i (h.sol (i - 1))
    vel := setAt h.vel i (h.vel (i - 1))
    acc := if order > 1 then setAt h.acc i (h.acc (i - 1)) else h.acc }

/-- `for (i = k; i > 0; i--) body(i)`, transient_solver_base.cpp:755-761. -/
def shiftLoop (order : Nat) : Nat → Hist V → Hist V
  | 0, h => h
  | k + 1, h => shiftLoop order k (shiftBody order (k + 1) h)

/-- A concrete time integrator: order of the ODE, number of stored iterates and the two update formulas. -/
structure Integrator (V : Type*) where
  order : Nat
  nStore : Nat
  /-- `update_velocity`, given the step size, the stored vectors and the solution. -/
  updVel : ℝ → Hist V → V → V
  /-- `update_acceleration` -/
  updAcc : ℝ → Hist V → V → V

/-- `TransientSolverBase::advance_time_step(increment_time)`, transient_solver_base.cpp:738-766, with `x` the content of `sys.solution`
(copied to `current_local_solution` by `sys.update()`) and `dt` the solver's step size. -/
def advance (S : Integrator V) (h : Hist V) (x : V) (dt : ℝ) (incr : Bool) : Hist V :=
  let h := { h with sol := setAt h.sol 0 x }
  let h := { h with vel := setAt h.vel 0 (S.updVel dt h (h.sol 0)) }
  let h := if S.order > 1 then { h with acc := setAt h.acc 0 (S.updAcc dt h (h.sol 0)) } else h
  let h := shiftLoop S.order (S.nStore - 1) h
  if incr then { h with time := h.time + dt } else h

/-- A whole run: one `advance_time_step` per element of the list (accepted solution, step size, increment flag). -/
def run (S : Integrator V) (h : Hist V) (steps : List (V × ℝ × Bool)) : Hist V :=
  steps.foldl (fun h s => advance S h s.1 s.2.1 s.2.2) h

/-! #### First-order Newmark -/

/-- `FirstOrderNewmarkTransientSolver::update_velocity`, first_order_newmark_transient_solver.cpp:149-164, statement by statement
(`update_sensitivity_velocity`, 168-184, is the same code on the sensitivity vectors). -/
noncomputable def fonVel (beta dt : ℝ) (h : Hist V) (sol : V) : V :=
  let vec := sol
  let vec := vec + (-1 : ℝ) • h.sol 1
  let vec := (1 / beta / dt) • vec
  vec + (-(1 - beta) / beta) • h.vel 1

/-- `update_delta_velocity`, first_order_newmark_transient_solver.cpp:188-196. -/
noncomputable def fonDeltaVel (beta dt : ℝ) (sol : V) : V := (1 / beta / dt) • sol

/-- `FirstOrderNewmarkTransientSolver`: `TransientSolverBase(1, 2)`, first_order_newmark_transient_solver.cpp:32-35; acceleration unused. -/
noncomputable def fonSolver (beta : ℝ) : Integrator V := ⟨1, 2, fonVel beta, fun _ h _ => h.acc 0⟩

/-! #### Second-order Newmark -/

/-- `SecondOrderNewmarkTransientSolver::update_velocity`, second_order_newmark_transient_solver.cpp:160-177 (203-220 for sensitivities). -/
noncomputable def sonVel (beta gamma dt : ℝ) (h : Hist V) (sol : V) : V :=
  let vec := sol
  let vec := vec + (-1 : ℝ) • h.sol 1
  let vec := (gamma / beta / dt) • vec
  let vec := vec + (1 - gamma / beta) • h.vel 1
  vec + ((1 - gamma / 2 / beta) * dt) • h.acc 1

/-- `update_acceleration`, second_order_newmark_transient_solver.cpp:182-199 (224-241 for sensitivities). -/
noncomputable def sonAcc (beta dt : ℝ) (h : Hist V) (sol : V) : V :=
  let vec := sol
  let vec := vec + (-1 : ℝ) • h.sol 1
  let vec := (1 / beta / dt / dt) • vec
  let vec := vec + (-1 / beta / dt) • h.vel 1
  vec + (-(1 / 2 - beta) / beta) • h.acc 1

/-- `update_delta_velocity`, second_order_newmark_transient_solver.cpp:246-255. -/
noncomputable def sonDeltaVel (beta gamma dt : ℝ) (sol : V) : V := (gamma / beta / dt) • sol
/-- `update_delta_acceleration`, second_order_newmark_transient_solver.cpp:260-269. -/
noncomputable def sonDeltaAcc (beta dt : ℝ) (sol : V) : V := (1 / beta / dt / dt) • sol

/-- `SecondOrderNewmarkTransientSolver`: `TransientSolverBase(2, 2)`, second_order_newmark_transient_solver.cpp:32-36. -/
noncomputable def sonSolver (beta gamma : ℝ) : Integrator V := ⟨2, 2, sonVel beta gamma, sonAcc beta⟩

/-! #### Generalized-alpha -/

/-- The coefficients of `GeneralizedAlphaTransientSolver`. -/
structure GACoef where
  alpha_m : ℝ
  alpha_f : ℝ
  gamma : ℝ
  beta : ℝ

/-- `update_coefficient(rho_infinity)`, generalized_alpha_transient_solver.cpp:47-61. -/
noncomputable def gaCoef (rho : ℝ) : GACoef :=
  let am := (2 * rho - 1) / (rho + 1)
  let af := rho / (rho + 1)
  ⟨am, af, 1 / 2 - am + af, (1 / 4) * (1 - am + af) ^ 2⟩

/-- The element sees these three vectors: `(solution, velocity, acceleration)`. -/
structure ElemState (V : Type*) where
  x : V
  v : V
  a : V

/-- Newmark `set_element_data`, second_order_newmark_transient_solver.cpp:45-78: values copied as they are (restriction to the element's
dofs is linear and is not modelled). -/
def sonElemState (x v a : V) : ElemState V := ⟨x, v, a⟩

/-- Generalized-alpha `set_element_data`, generalized_alpha_transient_solver.cpp:65-105: weighted with the previous vectors. -/
noncomputable def gaElemState (am af : ℝ) (h : Hist V) (x v a : V) : ElemState V :=
  ⟨(1 - af) • x + af • h.sol 1, (1 - af) • v + af • h.vel 1, (1 - am) • a + am • h.acc 1⟩

/-- Generalized-alpha `set_element_perturbed_data`, generalized_alpha_transient_solver.cpp:155-188: copied without weights. -/
def gaElemPerturbed (dx dv da : V) : ElemState V := ⟨dx, dv, da⟩

/-- The state used by an element in a time step, `build_local_quantities` with `_if_highest_derivative_solution == false`,
transient_solver_base.cpp:514-592, followed by `set_element_data`. -/
noncomputable def sonLocal (beta gamma dt : ℝ) (h : Hist V) (x : V) : ElemState V :=
  sonElemState x (sonVel beta gamma dt h x) (sonAcc beta dt h x)

/-- The same for generalized-alpha. -/
noncomputable def gaLocal (c : GACoef) (dt : ℝ) (h : Hist V) (x : V) : ElemState V :=
  gaElemState c.alpha_m c.alpha_f h x (sonVel c.beta c.gamma dt h x) (sonAcc c.beta dt h x)

/-- Perturbed local quantities, `build_perturbed_local_quantities` (highest-derivative flag off), transient_solver_base.cpp:653-732. -/
noncomputable def sonPerturbed (beta gamma dt : ℝ) (dx : V) : ElemState V :=
  ⟨dx, sonDeltaVel beta gamma dt dx, sonDeltaAcc beta dt dx⟩

/-- First-order counterpart (the acceleration slot is unused). -/
noncomputable def fonPerturbed (beta dt : ℝ) (dx : V) : ElemState V := ⟨dx, fonDeltaVel beta dt dx, 0⟩

/-! #### Element Jacobians.  `L` is the module of element matrices. -/
section
variable {L : Type*} [AddCommGroup L] [Module ℝ L]

/-- What `_assembly_ops->elem_calculations` returns as Jacobian blocks of a second-order system. -/
structure Blocks (L : Type*) where
  m_xdd : L
  m_xd : L
  m_x : L
  x_xd : L
  x_x : L

/-- FirstOrderNewmark element matrix, first_order_newmark_transient_solver.cpp:228-278; the first-order element operations
deliver only `m_xd`, `m_x` and `x_x`. -/
noncomputable def fonJac (high : Bool) (beta dt : ℝ) (B : Blocks L) : L :=
  if high then B.m_xd else (1 / beta / dt) • B.m_xd + (B.m_x + B.x_x)

/-- SecondOrderNewmark element matrix, second_order_newmark_transient_solver.cpp:306-374. -/
noncomputable def sonJac (high : Bool) (beta gamma dt : ℝ) (B : Blocks L) : L :=
  if high then B.m_xdd
  else (1 / beta / dt / dt) • B.m_xdd + (gamma / beta / dt) • (B.m_xd + B.x_xd) + (B.m_x + B.x_x)

/-- Generalized-alpha element matrix, generalized_alpha_transient_solver.cpp:224-297. -/
noncomputable def gaJac (high : Bool) (c : GACoef) (dt : ℝ) (B : Blocks L) : L :=
  if high then B.m_xdd
  else ((1 / c.beta / dt / dt) * (1 - c.alpha_m)) • B.m_xdd +
    ((c.gamma / c.beta / dt) * (1 - c.alpha_f)) • (B.m_xd + B.x_xd) + (1 - c.alpha_f) • (B.m_x + B.x_x)

end

/-! #### Initial highest derivative -/

/-- `solve_highest_derivative_and_advance_time_step` up to the history shift, transient_solver_base.cpp:343-408: with the flag on,
`build_local_quantities` uses the stored solution, velocity and acceleration unchanged (548-552, 561-582); the new
highest derivative is `w - dvec` where `jac dvec = residual`.  `res` is the assembled residual as function of the highest derivative,
`solve` is the linear solver (exact).  Constraints enforcement is not modelled. -/
def highest (res : V → V) (solve : V → V) (w : V) : V := w - solve (res w)

/-- Initial acceleration computed by the second-order Newmark solver: the element sees the stored vectors themselves
(second_order_newmark_transient_solver.cpp:45-78, 306-323).  `F` is the assembled residual as function of the element state. -/
def sonInit (F : ElemState V → V) (solve : V → V) (h : Hist V) : V :=
  highest (fun a => F (sonElemState (h.sol 0) (h.vel 0) a)) solve (h.acc 0)

/-- Initial acceleration computed by generalized-alpha: same driver, but `set_element_data` applies the weights also here
(generalized_alpha_transient_solver.cpp:65-105), with the matrix `f_m_jac_xddot` (245). -/
noncomputable def gaInit (c : GACoef) (F : ElemState V → V) (solve : V → V) (h : Hist V) : V :=
  highest (fun a => F (gaElemState c.alpha_m c.alpha_f h (h.sol 0) (h.vel 0) a)) solve (h.acc 0)

/-! #### Sensitivities -/

/-- `elem_sensitivity_contribution_previous_timestep` of the first-order solver, first_order_newmark_transient_solver.cpp:321-354, where
`Mv` is the action of the block `f_m_jac_xdot`. -/
noncomputable def fonPrevContribution (high : Bool) (beta dt : ℝ) (Mv : V → V) (dsol dvel vec : V) : V :=
  if high then vec else (-1 : ℝ) • Mv ((1 / beta / dt) • dsol + ((1 - beta) / beta) • dvel)

/-- Which function a call `assembly.sensitivity_assemble(X, true, f, rhs)` made through `AssemblyBase&` reaches: classes that override
the five-argument virtual of src/base/assembly_base.h:245-252, or the base body.  `TransientAssembly` declares only the two-argument
overload (src/base/transient_assembly.h:115-117), which is a different virtual function. -/
inductive AssemblyClass where
  | nonlinearImplicit | levelSetNonlinearImplicit | transient | complex | eigen
  deriving DecidableEq

/-- Result of that call: assembled, `libmesh_assert(false)` in debug builds, or flowing off the end of a non-void function
(undefined behaviour) in release builds, assembly_base.h:245-252. -/
inductive CallOutcome where
  | assembled | assertFail | undefinedBehaviour
  deriving DecidableEq

/-- Dispatch of the five-argument `sensitivity_assemble`: overridden at nonlinear_implicit_assembly.h:145 and
level_set_nonlinear_implicit_assembly.h:125 only (transient_assembly.h:116 and complex_assembly_base.h:131 have other signatures). -/
def sensitivityAssemble (dbg : Bool) : AssemblyClass → CallOutcome
  | .nonlinearImplicit => .assembled
  | .levelSetNonlinearImplicit => .assembled
  | _ => if dbg then .assertFail else .undefinedBehaviour

end Verif.Transient
