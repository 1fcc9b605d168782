import Verif.Model.Assembly
import Verif.Model.Sensitivity
import Verif.Model.HeatCard
/-
  Sensitivity of a steady analysis with respect to one parameter of the program, from the elements to the solution: `NonlinearSystem::sensitivity_solve` (src/base/nonlinear_system.cpp:741-794) with
  `NonlinearImplicitAssembly::residual_and_jacobian` and `sensitivity_assemble` (src/base/nonlinear_implicit_assembly.cpp:64-266, 515-686).
  Elements and point loads are families over the value of the parameter.  Topology parameters (598-601) are left out here.
-/
namespace Verif.Steady
open Verif

/-- One active element as a family over the parameter value: what `elem_calculations` and `elem_sensitivity_calculations` deliver; `asked` is the answer of `if_elem_depends_on_parameter`, true if no such
object is attached (nonlinear_implicit_assembly.cpp:570-573). -/
structure PElem where
  n : Nat
  dof : Nat → Nat
  diag : Bool
  asked : Bool
  res : ℝ → (Nat → ℝ) → Nat → ℝ
  jac : ℝ → (Nat → ℝ) → Nat → Nat → ℝ
  sens : ℝ → (Nat → ℝ) → Nat → ℝ

/-- One node of a point load: value and `derivative` of the load function (nonlinear_implicit_assembly.cpp:639-655). -/
structure PLoad where
  n : Nat
  dof : Nat → Nat
  load : ℝ → Nat → ℝ
  dload : ℝ → Nat → ℝ

/-- Elements and dof range of one process. -/
structure PProc where
  elems : List PElem
  first : Nat
  last : Nat

/-- The element for the parameter value `t`, as `residual_and_jacobian` sees it (nonlinear_implicit_assembly.cpp:111-186). -/
def PElem.atValue (t : ℝ) (e : PElem) : Asm.Elem := ⟨e.n, e.dof, e.diag, e.res t, e.jac t, fun _ _ _ => 0⟩
/-- The element as `sensitivity_assemble` sees it (nonlinear_implicit_assembly.cpp:562-618): skipped in diagonal subdomains (566) and if it is said not to depend on the parameter (570). -/
def PElem.sensAt (t : ℝ) (e : PElem) : Asm.Elem := ⟨e.n, e.dof, e.diag || !e.asked, e.sens t, fun _ _ _ => 0, fun _ _ _ => 0⟩

/-- The assembled residual (nonlinear_implicit_assembly.cpp:64-266) for the parameter value `t`. -/
noncomputable def sysRes (C : Nat → Bool) (loads : List PLoad) (ps : List PProc) (t : ℝ) (X : Nat → ℝ) : Nat → ℝ :=
  Asm.residual C X (loads.map fun l => ⟨l.n, l.dof, l.load t⟩) (ps.map fun p => ⟨p.elems.map (PElem.atValue t), p.first, p.last⟩)
/-- The assembled Jacobian. -/
noncomputable def sysJac (C : Nat → Bool) (ps : List PProc) (t : ℝ) (X : Nat → ℝ) : Nat → Nat → ℝ :=
  Asm.jacobian C X (ps.map fun p => ⟨p.elems.map (PElem.atValue t), p.first, p.last⟩)
/-- `sensitivity_assemble` (nonlinear_implicit_assembly.cpp:515-686): the same loops with the derivatives of elements and point loads. -/
noncomputable def sysSens (C : Nat → Bool) (loads : List PLoad) (ps : List PProc) (t : ℝ) (X : Nat → ℝ) : Nat → ℝ :=
  Asm.residual C X (loads.map fun l => ⟨l.n, l.dof, l.dload t⟩) (ps.map fun p => ⟨p.elems.map (PElem.sensAt t), p.first, p.last⟩)

variable {N : Nat}

/-- A vector of the system as a function of dof numbers. -/
def ext (X : Fin N → ℝ) : Nat → ℝ := fun i => if h : i < N then X ⟨i, h⟩ else 0

/-- What `sensitivity_solve` gets from the assembly for the parameter value `t`, with an output of given derivatives. -/
noncomputable def assembly (C : Nat → Bool) (loads : List PLoad) (ps : List PProc) (t : ℝ) (dqdX : (Fin N → ℝ) → Fin N → ℝ) (dqdp : (Fin N → ℝ) → ℝ) : Sens.Asm N where
  jac := fun X => Matrix.of fun i j => sysJac C ps t (ext X) i j
  dRdp := fun X i => sysSens C loads ps t (ext X) i
  dqdX := dqdX
  dqdp := dqdp

/-- `sensitivity_solve(X, ..., p, true)` (nonlinear_system.cpp:741-794). -/
noncomputable def sensitivitySolve (ls : Sens.LinSolver N) (C : Nat → Bool) (loads : List PLoad) (ps : List PProc) (t : ℝ) (X : Fin N → ℝ) : Fin N → ℝ :=
  Sens.sensitivitySolve (assembly C loads ps t (fun _ _ => 0) fun _ => 0) ls (fun i => C i) 0 X true

/-! ### Heat conduction -/

/-- Vector of an element of `n` unknowns. -/
def extE {n : Nat} (r : Fin n → ℝ) : Nat → ℝ := fun a => if h : a < n then r ⟨a, h⟩ else 0

/-- A heat conduction element with its cards and loads (heat_conduction_nonlinear_assembly.cpp:83-118) for the values `v` of all parameters but `p`; `dof` are its unknowns.  A failing calculation ends the program, which
the theorems exclude; zero stands for it. -/
noncomputable def heatElem {n d : Nat} {X : Type} (Q : HeatCard.Problem n d X) (D : HeatCard.Data X) (v : Nat → ℝ) (p : Nat) (dof : Nat → Nat) (asked : Bool) : PElem where
  n := n
  dof := dof
  diag := false
  asked := asked
  res := fun t u => match HeatCard.residual Q D (fun a : Fin n => u a) p (Function.update v p t) with | .ok r => extE r | .error _ => fun _ => 0
  jac := fun t u => match HeatCard.jacobian Q D (fun a : Fin n => u a) p (Function.update v p t) with | .ok r => fun a b => if h : a < n then extE (r ⟨a, h⟩) b else 0 | .error _ => fun _ _ => 0
  sens := fun t u => match HeatCard.sensitivity Q D (fun a : Fin n => u a) p (Function.update v p t) with | .ok r => extE r | .error _ => fun _ => 0

end Verif.Steady
