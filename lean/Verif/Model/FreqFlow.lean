import Verif.Model.FreqOps
import Verif.Model.ComplexSolve
/-
  Frequency domain flow analysis of a mesh: the elements of `Verif.Model.FreqOps` in the assembly and solver of `Verif.Model.ComplexSolve` (src/base/complex_assembly_base.cpp, src/solver/complex_solver_base.cpp).
-/
namespace Verif.FreqFlow

open Verif.Fluid

/-- An element of the mesh: gas and shape functions, stabilisation, quadrature points, boundary conditions (with the points of their sides), and the global number of each of its degrees of freedom
(`dof_map.dof_indices`, complex_assembly_base.cpp:495). -/
structure FlowElem where
  c : Ctx
  T : Tau
  dc : Shock
  qs : List Qp
  loads : List FreqOps.FLoad
  dof : Nat → Nat

/-- Number of a variable of a `d` dimensional problem (fluid_elem_base.cpp:47-66). -/
def pos (d : Nat) : Var → Nat
  | .rho => 0
  | .m1 => 1
  | .m2 => 2
  | .m3 => 3
  | .en => d + 1

/-- Variable number `i` of a `d` dimensional problem (fluid_elem_base.cpp:47-66). -/
def varAt (d i : Nat) : Var := if i = 0 then .rho else if i = 1 then .m1 else if i = d + 1 then .en else if i = 2 then .m2 else .m3

/-- Number of degrees of freedom of an element (conservative_fluid_element_base.cpp:64-67). -/
def FlowElem.nd (e : FlowElem) : Nat := (e.c.d + 2) * e.c.n

/-- Element vector with `n` consecutive entries for each variable (fem_operator_matrix.h:285-292). -/
def fieldOf (c : Ctx) (u : Nat → ℝ) : Field := fun v b => u (pos c.d v * c.n + b)

/-- The same for complex vectors (fem_operator_matrix.h:285-292). -/
def cfieldOf (c : Ctx) (u : Nat → ℂ) : CField := fun v b => u (pos c.d v * c.n + b)

/-- Entry `a` of an element vector given by variable and node (fem_operator_matrix.h:310-317). -/
def entry {α : Type} (c : Ctx) (f : Var → Nat → α) (a : Nat) : α := f (varAt c.d (a / c.n)) (a % c.n)

/-- The vector of a call of an element routine.  An error ends the program; the theorems are about elements without one, for the others see `C199_unknown` (frequency_domain_linearized_complex_assembly.cpp:69-107). -/
def vecOf (r : Exec CField) : CField := match r with | .ok f => f | .error _ => fun _ _ => 0
/-- The same for matrices (frequency_domain_linearized_complex_assembly.cpp:69-86). -/
def matOf (r : Exec FreqOps.CMat) : FreqOps.CMat := match r with | .ok f => f | .error _ => fun _ _ _ _ => 0

/-- The element as the complex assembly sees it (frequency_domain_linearized_complex_assembly.cpp:69-107, complex_assembly_base.cpp:504-547); `dω` is the derivative of the frequency with respect to the parameter. -/
noncomputable def toC (fr : Freq) (dω : ℝ) (e : FlowElem) : CSolve.CElem :=
  { n := e.nd
    dof := e.dof
    vec := fun base x => entry e.c (vecOf (FreqOps.elemRes e.c e.T e.dc e.qs e.loads (fieldOf e.c base) fr (cfieldOf e.c x)))
    mat := fun base _ a b => entry e.c (entry e.c (matOf (FreqOps.elemJac e.c e.T e.dc e.qs e.loads (fieldOf e.c base) fr)) a) b
    sens := fun base x => entry e.c (vecOf (FreqOps.asmSens e.c e.T e.dc e.qs e.loads (fieldOf e.c base) fr dω (cfieldOf e.c x))) }

/-- The solve of the mesh (`solve_block_matrix`, complex_solver_base.cpp:333-507): without a parameter the amplitude, with the parameter its sensitivity. -/
noncomputable def solve (ksp : (Nat → Nat → ℝ) → (Nat → ℝ) → Nat → ℝ) (base : Nat → ℝ) (els : List FlowElem) (fr : Freq) (dω : ℝ) (sys : List Char) (N : Nat) (p : Bool) (s : CSolve.Store) : CSolve.Store :=
  CSolve.solveBlock ksp (some base) (els.map (toC fr dω)) sys 0 N p s

end Verif.FreqFlow
