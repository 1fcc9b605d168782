import Verif.Model.TransientAsm
import Verif.Model.FreqFlow
/-
  Time marching as a whole: src/solver/transient_solver_base.cpp (solve, solve_highest_derivative_and_advance_time_step, advance_time_step) with the assembly of `Verif.Model.TransientAsm`, and the flow elements of
  `Verif.Model.FluidOps` in it.
-/
namespace Verif.March
open Verif Verif.Transient Verif.TrAsm

noncomputable section

/-- The solver as integrator; generalized-alpha is a second order Newmark solver with other coefficients (generalized_alpha_transient_solver.cpp:30-43, 47-61). -/
def integ (S : Solver) : Integrator (Nat → ℝ) :=
  match S with
  | .first b => fonSolver b
  | .second b g => sonSolver b g
  | .alpha c => sonSolver c.beta c.gamma

/-- `enforce_constraints_exactly(sys, vec)` (nonlinear_system.cpp:229) for constraints that give the value `g i` to each degree of freedom with `C i` (a contract of libMesh). -/
def enforce (C : Nat → Bool) (g : Nat → ℝ) (X : Nat → ℝ) : Nat → ℝ := fun i => if C i then g i else X i

/-- The nonlinear solver of PETSc: from residual, Jacobian and initial solution to the solution (nonlinear_system.cpp:221-225). -/
abbrev Snes := ((Nat → ℝ) → Nat → ℝ) → ((Nat → ℝ) → Nat → Nat → ℝ) → (Nat → ℝ) → Nat → ℝ

/-- A system with its transient solver: the stored vectors, and `sys.solution` (transient_solver_base.cpp:86-140). -/
structure State where
  h : Hist (Nat → ℝ)
  X : Nat → ℝ

/-- One time step: `solve(assembly)` (transient_solver_base.cpp:316-324, nonlinear_system.cpp:209-235) and `advance_time_step(incr)` (transient_solver_base.cpp:738-766). -/
def step (snes : Snes) (C : Nat → Bool) (g : Nat → ℝ) (S : Solver) (ps : List (List Elem)) (s : State) (dt : ℝ × Bool) : State :=
  let X := enforce C g (snes (fun Y => residual C S false dt.1 s.h Y ps) (fun Y => jacobian C S false dt.1 s.h Y ps) s.X)
  ⟨advance (integ S) s.h X dt.1 dt.2, X⟩

/-- Any number of steps, with their sizes (transient_solver_base.cpp:316-324, 738-766). -/
def steps (snes : Snes) (C : Nat → Bool) (g : Nat → ℝ) (S : Solver) (ps : List (List Elem)) (s : State) (dts : List (ℝ × Bool)) : State := dts.foldl (step snes C g S ps) s

/-- `solve_highest_derivative_and_advance_time_step` (transient_solver_base.cpp:343-431); `ksp` is the linear solver, started from zero; constraints of the highest derivative are homogeneous (405). -/
def start (ksp : (Nat → Nat → ℝ) → (Nat → ℝ) → Nat → ℝ) (C : Nat → Bool) (S : Solver) (ps : List (List Elem)) (s : State) (dt : ℝ × Bool) : State :=
  let d := ksp (jacobian C S true dt.1 s.h s.X ps) (residual C S true dt.1 s.h s.X ps)
  let h := match S with
    | .first _ => { s.h with vel := setAt s.h.vel 0 (enforce C 0 (s.h.vel 0 + (-1 : ℝ) • d)) }
    | _ => { s.h with acc := setAt s.h.acc 0 (enforce C 0 (s.h.acc 0 + (-1 : ℝ) • d)) }
  let h := { h with sol := setAt h.sol 0 s.X }
  let h := shiftLoop (integ S).order ((integ S).nStore - 1) h
  ⟨if dt.2 then { h with time := h.time + dt.1 } else h, s.X⟩

/-- A flow element of the transient analysis: gas and shape functions, stabilisation, quadrature points, boundary conditions, the free stream, and the number of each of its degrees of freedom
(conservative_fluid_transient_assembly.cpp:45-130). -/
structure FlowElem where
  c : Fluid.Ctx
  T : Fluid.Tau
  dc : Fluid.Shock
  qs : List Fluid.Qp
  loads : List FluidOps.Load
  fl : Fluid.Flight
  dof : Nat → Nat

/-- The vectors of a call of an element routine; an error ends the program, which the theorems exclude (conservative_fluid_transient_assembly.cpp:45-71). -/
def pairOf (r : Exec (Fluid.Field × Fluid.Field)) : Fluid.Field × Fluid.Field := match r with | .ok f => f | .error _ => (fun _ _ => 0, fun _ _ => 0)
/-- The same for the matrices (45-71): `f_m_jac_xdot`, `f_m_jac`, `f_x_jac`. -/
def matsOf (r : Exec (FluidOps.FMat × FluidOps.FMat × FluidOps.FMat)) : FluidOps.FMat × FluidOps.FMat × FluidOps.FMat :=
  match r with | .ok f => f | .error _ => (fun _ _ _ _ => 0, fun _ _ _ _ => 0, fun _ _ _ _ => 0)
/-- The same for the product (conservative_fluid_transient_assembly.cpp:75-98). -/
def fieldOr (r : Exec Fluid.Field) : Fluid.Field := match r with | .ok f => f | .error _ => fun _ _ => 0

/-- The element as the transient assembly sees it (conservative_fluid_transient_assembly.cpp:45-130, transient_assembly.cpp:106-160). There are no second derivatives and `f_x` does not depend on velocities. -/
def toTr (e : FlowElem) : Elem where
  n := (e.c.d + 2) * e.c.n
  dof := e.dof
  fm := fun s => FreqFlow.entry e.c (pairOf (FluidOps.elemCalc e.c e.T e.dc e.qs e.loads (FreqFlow.fieldOf e.c s.x) (FreqFlow.fieldOf e.c s.v))).1
  fx := fun s => FreqFlow.entry e.c (pairOf (FluidOps.elemCalc e.c e.T e.dc e.qs e.loads (FreqFlow.fieldOf e.c s.x) (FreqFlow.fieldOf e.c s.v))).2
  B := fun s =>
    let J := matsOf (FluidOps.elemJac e.c e.T e.dc e.qs e.loads (FreqFlow.fieldOf e.c s.x))
    ⟨0, fun a b => FreqFlow.entry e.c (FreqFlow.entry e.c J.1 a) b, fun a b => FreqFlow.entry e.c (FreqFlow.entry e.c J.2.1 a) b, 0, fun a b => FreqFlow.entry e.c (FreqFlow.entry e.c J.2.2 a) b⟩
  prod := fun s p => FreqFlow.entry e.c (fieldOr (FluidOps.elemProduct e.c e.T e.dc e.qs e.loads (FreqFlow.fieldOf e.c s.x) (FreqFlow.fieldOf e.c p.x) (FreqFlow.fieldOf e.c p.v)))
  dfm := fun s => FreqFlow.entry e.c (pairOf (FluidOps.elemSens e.c e.fl e.loads (FreqFlow.fieldOf e.c s.x))).1
  dfx := fun s => FreqFlow.entry e.c (pairOf (FluidOps.elemSens e.c e.fl e.loads (FreqFlow.fieldOf e.c s.x))).2
  damp := fun s a b => FreqFlow.entry e.c (FreqFlow.entry e.c (matsOf (FluidOps.elemJac e.c e.T e.dc e.qs e.loads (FreqFlow.fieldOf e.c s.x))).1 a) b

end
end Verif.March
