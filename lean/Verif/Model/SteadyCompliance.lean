import Verif.Model.SteadyLoads
import Verif.Model.Compliance
/-
  The compliance output (src/elasticity/compliance_output.cpp) evaluated on a structure of beams and shells with side and volume loads, and its sensitivity by the direct and the adjoint method
  (src/base/assembly_base.cpp:270-550).
-/
namespace Verif.Steady
open Verif Verif.SecDep Verif.GeomElem Verif.StructLoads

variable {n : Nat}

/-- What the loops over side or volume loads leave in a zero vector; a refused load ends the program, which the theorems exclude. -/
noncomputable def loadVec (x : Option (Dof n → ℝ)) : Nat → ℝ := match x with | some f => flat f | none => fun _ => 0

/-- An element with its loads, as the compliance sees it for the parameter value `t` (compliance_output.cpp:82-97, 117-147): `side_external_residual` and `volume_external_residual` of the loads of the discipline on a zero
vector, and their sensitivities.  No boundary velocity data. -/
noncomputable def loadMember (A : Attached n) (dof : Nat → Nat) (eval skip : Bool) (t : ℝ) : Compliance.Elem where
  n := 6 * n
  dof := dof
  diag := false
  eval := eval
  skip := skip
  side := fun u => loadVec (sideLoop sideAct Load.kind (fun s l => (l.side s).res t fun d => u d.row) A.nSides A.ids A.sides 0)
  vol := fun u => loadVec (volLoop volAct Load.kind (fun l => l.vol.res t fun d => u d.row) A.sid A.vols 0)
  sideSens := fun u => loadVec (sideLoop sideSensAct Load.kind (fun s l => (l.side s).sens t fun d => u d.row) A.nSides A.ids A.sides 0)
  volSens := fun u => loadVec (volLoop volSensAct Load.kind (fun l => l.vol.sens t fun d => u d.row) A.sid A.vols 0)
  bnd := none

/-- Beam or shell. -/
inductive Body (n : Nat) : Type 1
  | beam {X : Type} (E : BeamData n X)
  | shell {X : Type} (E : ShellData n X)

/-- An element of the structure: its loads, its unknowns, whether it is said to depend on the parameter, whether the output is asked to include it (`set_participating_elements` and relatives). -/
structure Part where
  n : Nat
  body : Body n
  loads : Attached n
  dof : Nat → Nat
  asked : Bool
  eval : Bool

/-- The element in the analysis (structural_nonlinear_assembly.cpp:113-139, 173-197). -/
noncomputable def Part.elem (v : Nat → ℝ) (p : Nat) (e : Part) : PElem := match e.body with
  | .beam E => loadedBeam E e.loads v p e.dof e.asked
  | .shell E => loadedShell E e.loads v p e.dof e.asked

/-- Elements and dof range of one process. -/
structure PartProc where
  parts : List Part
  first : Nat
  last : Nat

/-- The process in the analysis. -/
noncomputable def PartProc.proc (v : Nat → ℝ) (p : Nat) (q : PartProc) : PProc := ⟨q.parts.map (Part.elem v p), q.first, q.last⟩

/-- The element is left out of the sensitivity loop (assembly_base.cpp:503-511): it is said not to depend on the parameter, and no sensitivity of the solution is given or it is to be ignored (`override_flag`). -/
def skipped (override given : Bool) (e : Part) : Bool := !e.asked && (!given || override)

/-- `calculate_output` and `output_total` for the parameter value `t` and the solution `X` (assembly_base.cpp:258-333, compliance_output.cpp:240-248). -/
noncomputable def compliance (ps : List PartProc) (s : Compliance.St) (t : ℝ) (X : Nat → ℝ) : ℝ :=
  Compliance.total (ps.map fun q => Compliance.calculateOutput X (q.parts.map fun e => loadMember e.loads e.dof e.eval false t) s)

/-- `calculate_output_direct_sensitivity` and `output_sensitivity_total` (assembly_base.cpp:434-550, compliance_output.cpp:253-261); `dX = none` is a null `dXdp`. -/
noncomputable def complianceSens (ps : List PartProc) (override : Bool) (s : Compliance.St) (t : ℝ) (X : Nat → ℝ) (dX : Option (Nat → ℝ)) : ℝ :=
  Compliance.sensTotal (ps.map fun q => Compliance.calculateSens X dX (q.parts.map fun e => loadMember e.loads e.dof e.eval (skipped override dX.isSome e) t) s)

/-- `calculate_output_derivative` (assembly_base.cpp:339-430). -/
noncomputable def complianceDeriv (C : Nat → Bool) (ps : List PartProc) (t : ℝ) (X : Nat → ℝ) : Nat → ℝ :=
  Compliance.calculateDerivative C X (ps.map fun q => q.parts.map fun e => loadMember e.loads e.dof e.eval false t)

end Verif.Steady
