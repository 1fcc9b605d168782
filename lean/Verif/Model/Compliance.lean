import Verif.Model.Assembly
import Mathlib.Algebra.BigOperators.Group.Finset.Basic
/-
  Compliance of a structure: src/elasticity/compliance_output.cpp, driven by `AssemblyBase::calculate_output`, `calculate_output_derivative` and `calculate_output_direct_sensitivity`
  (src/base/assembly_base.cpp:270-550).  Reals stand for double.  An element is given by the vectors its load routines add to the residual; these routines are the subject of C113, C114, C117, C120, C122.
  `Proc.elems` are the active local elements of a process; `comm().sum` adds the processes.
-/
namespace Verif.Compliance
open Verif
open Verif.Asm (addVector conVec)

noncomputable section

/-- One active element: `n = dof_indices.size()`, `dof a = dof_indices[a]`; `diag`: its subdomain is in `diagonal_elem_subdomain_id` (assembly_base.cpp:299-300, 389-390, 500-501); `eval`: the answer of
`if_evaluate_for_element` (compliance_output.cpp:77, 112, 273); `skip`: the parameter dependence test of the sensitivity loop (assembly_base.cpp:504-511); `side`, `vol`: what `side_external_residual` and
`volume_external_residual` add to the residual vector for an element solution; `sideSens`, `volSens`: the same for their sensitivity versions; `bnd`: what `volume_external_residual_boundary_velocity` adds
when the element has boundary velocity data (compliance_output.cpp:166-186). -/
structure Elem where
  n : Nat
  dof : Nat → Nat
  diag : Bool
  eval : Bool
  skip : Bool
  side : (Nat → ℝ) → Nat → ℝ
  vol : (Nat → ℝ) → Nat → ℝ
  sideSens : (Nat → ℝ) → Nat → ℝ
  volSens : (Nat → ℝ) → Nat → ℝ
  bnd : Option ((Nat → ℝ) → Nat → ℝ)

/-- `_compliance` and `_dcompliance_dp` of one process (compliance_output.cpp:38-39). -/
structure St where
  value : ℝ
  sens : ℝ

/-- `zero_for_analysis` (compliance_output.cpp:55-59). -/
def zeroForAnalysis (_ : St) : St := ⟨0, 0⟩

/-- `zero_for_sensitivity` (compliance_output.cpp:63-68): the value is cleared, too. -/
def zeroForSensitivity (_ : St) : St := ⟨0, 0⟩

/-- `Eigen` dot product of two element vectors. -/
def dot (n : Nat) (v w : Nat → ℝ) : ℝ := ∑ a ∈ Finset.range n, v a * w a

/-- The vector `vec` after both external residuals (compliance_output.cpp:82-97, 137-147, 283-292). -/
def ext (e : Elem) (u : Nat → ℝ) (a : Nat) : ℝ := 0 + e.side u a + e.vol u a

/-- The vector `vec` after both sensitivities (compliance_output.cpp:117-132). -/
def extSens (e : Elem) (u : Nat → ℝ) (a : Nat) : ℝ := 0 + e.sideSens u a + e.volSens u a

/-- `evaluate` (compliance_output.cpp:72-102). -/
def evaluate (e : Elem) (u : Nat → ℝ) (s : St) : St := if e.eval then { s with value := s.value - dot e.n (ext e u) u } else s

/-- `evaluate_sensitivity` (compliance_output.cpp:107-152); `du` is `sol(true)`. -/
def evaluateSens (e : Elem) (u du : Nat → ℝ) (s : St) : St :=
  if e.eval then { s with sens := (s.sens - dot e.n (extSens e u) u) - dot e.n (ext e u) du } else s

/-- `evaluate_topology_sensitivity` (compliance_output.cpp:157-192). -/
def evaluateTopology (e : Elem) (u : Nat → ℝ) (s : St) : St :=
  if e.eval then match e.bnd with
    | some b => { s with sens := s.sens - dot e.n (b u) u }
    | none => s
  else s

/-- `output_derivative_for_elem` (compliance_output.cpp:266-296): an element that is not evaluated leaves the vector as it is. -/
def derivForElem (e : Elem) (u : Nat → ℝ) (dq : Nat → ℝ) : Nat → ℝ := if e.eval then fun a => (-1 : ℝ) * ext e u a else dq

/-- The element solution (assembly_base.cpp:317-318, 526-530). -/
def sol (e : Elem) (X : Nat → ℝ) : Nat → ℝ := fun a => X (e.dof a)

/-- `calculate_output` (assembly_base.cpp:258-333) on one process. -/
def calculateOutput (X : Nat → ℝ) (es : List Elem) (s : St) : St :=
  es.foldl (fun s e => if e.diag then s else if e.eval then evaluate e (sol e X) s else s) (zeroForAnalysis s)

/-- The element vector of the displacement sensitivity (assembly_base.cpp:524-530): zero for a null `dXdp`. -/
def solSens (e : Elem) (dX : Option (Nat → ℝ)) : Nat → ℝ := fun a => match dX with | some d => d (e.dof a) | none => 0

/-- `calculate_output_direct_sensitivity` (assembly_base.cpp:434-550) on one process; `dX = none` is a null `dXdp`. -/
def calculateSens (X : Nat → ℝ) (dX : Option (Nat → ℝ)) (es : List Elem) (s : St) : St :=
  es.foldl (fun s e => if e.diag then s else if e.skip then s else if e.eval then
    evaluateSens e (sol e X) (solSens e dX) s else s) (zeroForSensitivity s)

/-- `calculate_output_derivative` (assembly_base.cpp:339-430) on one process: the vector it adds to `dq_dX`, and the state of the output object. -/
def derivProc (C : Nat → Bool) (X : Nat → ℝ) (es : List Elem) : Nat → ℝ :=
  es.foldl (fun q e => if e.diag then q else if e.eval then addVector e.n e.dof (conVec C e.dof (derivForElem e (sol e X) (fun _ => 0))) q else q) (fun _ => 0)

/-- `dq_dX.close()` (assembly_base.cpp:427): contributions of all processes are added. -/
def calculateDerivative (C : Nat → Bool) (X : Nat → ℝ) (ps : List (List Elem)) : Nat → ℝ := fun i => (ps.map fun es => derivProc C X es i).sum

/-- `output_total` (compliance_output.cpp:240-248) after the state of each process is `ss`. -/
def total (ss : List St) : ℝ := (ss.map (·.value)).sum

/-- `output_sensitivity_total` (compliance_output.cpp:253-260). -/
def sensTotal (ss : List St) : ℝ := (ss.map (·.sens)).sum

end
end Verif.Compliance
