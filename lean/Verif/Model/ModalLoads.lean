import Verif.Model.ModalBase
import Verif.Model.SteadyLoads
/-
  Loads on the elements in the modal analysis: `elem_calculations` adds the Jacobians of side and volume loads to the stiffness, `elem_sensitivity_calculations` the Jacobians of their sensitivities
  (src/elasticity/structural_modal_eigenproblem_assembly.cpp:110-115, 139-149).
-/
namespace Verif.Beam
open Verif.GeomElem Verif.Shell
variable {n : Nat} {X : Type}

/-- What `thermal_residual_sensitivity` of the beam adds to `jac` (structural_element_1d.cpp:2039-2046, 2091-2114): the stress is the derivative of the thermal force, `thermal_jacobian_scaling` is not read. -/
def thermalSensJac (T : Option (Fin 3 → Fin 3 → ℝ)) (nl bend : Bool) (pts : List (Bqp n X × Thermal × Thermal)) : Dof n → Dof n → ℝ :=
  matToGlobal T fun a b => -(pts.map fun p => loadOpJac nl bend (stressMat (p.2.1.expA 0 * (p.2.2.temp - p.2.2.ref) + p.2.2.expA 0 * (p.2.1.temp - p.2.1.ref))) p.1 a b).sum

end Verif.Beam

namespace Verif.Shell
open Verif.GeomElem
variable {n : Nat} {X : Type}

/-- What `thermal_residual_sensitivity` of the shell adds to `jac` (structural_element_2d.cpp:3311-3321, 3379-3410). -/
def thermalSensJac (T : Option (Fin 3 → Fin 3 → ℝ)) (nl bend : Bool) (pts : List (Sqp n X × Thermal × Thermal)) : Dof n → Dof n → ℝ :=
  matToGlobal T fun a b => -(pts.map fun p => thermalOpJac nl bend (fun r => p.2.1.expA r * (p.2.2.temp - p.2.2.ref) + p.2.2.expA r * (p.2.1.temp - p.2.1.ref)) p.1 a b).sum

end Verif.Shell

namespace Verif.Modal
open Verif Verif.SecDep Verif.GeomElem Verif.StructLoads Verif.Steady

variable {n : Nat} {X : Type}

/-- A load object: the routines of the steady analysis, and the matrices their `..._sensitivity` add to `jac` on a side and on the domain. -/
structure MLoad (n : Nat) where
  load : Load n
  sideDJ : Nat → ℝ → (Dof n → ℝ) → Dof n → Dof n → ℝ
  volDJ : ℝ → (Dof n → ℝ) → Dof n → Dof n → ℝ

/-- What the element finds in the discipline (see `Steady.Attached`). -/
structure MAttached (n : Nat) where
  nSides : Nat
  ids : Nat → List Nat
  sid : Nat
  sides : List (Nat × MLoad n)
  vols : List (Nat × MLoad n)

/-- The same discipline as the steady analysis sees it. -/
def MAttached.steady (A : MAttached n) : Attached n := ⟨A.nSides, A.ids, A.sid, A.sides.map fun e => (e.1, e.2.load), A.vols.map fun e => (e.1, e.2.load)⟩

/-- `side_external_residual`, then `volume_external_residual`, or their sensitivities (structural_modal_eigenproblem_assembly.cpp:111-112, 140-141; the loops in structural_element_base.cpp:629-697, 804-851, 971-1105). -/
def MAttached.add {V : Type} [Add V] (A : MAttached n) (sAct vAct : Kind → Act) (rs : Nat → MLoad n → V) (rv : MLoad n → V) (f : V) : Exec V :=
  match sideLoop sAct (fun l => l.load.kind) rs A.nSides A.ids A.sides f with
  | none => .error .error
  | some g => match volLoop vAct (fun l => l.load.kind) rv A.sid A.vols g with
    | none => .error .error
    | some h => .ok h

/-- An element of the modal analysis with its loads: `stiff` is what `internal_residual` gives, `sens` what `internal_residual_sensitivity` and, with a base solution, `internal_residual_jac_dot_state_sensitivity` give (the
latter is called after the loads; only the order of the sum differs); the loads see the state `u t` of the element. -/
noncomputable def withLoads (stiff sens mass massSens : ℝ → Exec (Dof n → Dof n → ℝ)) (A : MAttached n) (u : ℝ → Dof n → ℝ) (dof : Nat → Nat) : MElem where
  n := 6 * n
  dof := dof
  A := fun t => matVal (stiff t >>= A.add sideAct volAct (fun s l => (l.load.side s).jac t (u t)) fun l => l.load.vol.jac t (u t))
  B := fun t => matVal (mass t)
  dA := fun t => matVal (sens t >>= A.add sideSensAct volSensAct (fun s l => l.sideDJ s t (u t)) fun l => l.volDJ t (u t))
  dB := fun t => matVal (massSens t)

/-- A beam with its loads about the base solution `U`, whose given sensitivity is `V`. -/
noncomputable def beamLoadedAt (E : BeamData n X) (A : MAttached n) (diag : Bool) (pts : List (Qp n X)) (v : Nat → ℝ) (p : Nat) (dof : Nat → Nat) (U : ℝ → Nat → ℝ) (V : Nat → ℝ) : MElem :=
  withLoads (fun t => barJac E.hp E.F E.card E.T E.nl E.bend E.qs (gather dof (U t)) (Function.update v p t)) (fun t => barStiffSensAt E (Function.update v p t) p (gather dof (U t)) (gather dof V))
    (fun t => barMass E diag pts (Function.update v p t)) (fun t => barMassSens E diag pts (Function.update v p t) p) A (fun t => gather dof (U t)) dof

/-- A beam with its loads, no base solution (`sol` is zero, eigenproblem_assembly.cpp:148-160). -/
noncomputable def beamLoaded (E : BeamData n X) (A : MAttached n) (diag : Bool) (pts : List (Qp n X)) (v : Nat → ℝ) (p : Nat) (dof : Nat → Nat) : MElem :=
  withLoads (fun t => barJac E.hp E.F E.card E.T E.nl E.bend E.qs (fun _ => 0) (Function.update v p t)) (fun t => barStiffSens E (Function.update v p t) p)
    (fun t => barMass E diag pts (Function.update v p t)) (fun t => barMassSens E diag pts (Function.update v p t) p) A (fun _ _ => 0) dof

/-- A shell with its loads about a base solution. -/
noncomputable def shellLoadedAt (E : ShellData n X) (A : MAttached n) (diag : Bool) (pts : List (Qp n X)) (v : Nat → ℝ) (p : Nat) (dof : Nat → Nat) (U : ℝ → Nat → ℝ) (V : Nat → ℝ) : MElem :=
  withLoads (fun t => plateJac E.hp E.F E.card E.stress E.T E.nl E.bend E.qs E.ss (gather dof (U t)) (Function.update v p t)) (fun t => plateStiffSensAt E (Function.update v p t) p (gather dof (U t)) (gather dof V))
    (fun t => plateMass E diag pts (Function.update v p t)) (fun t => plateMassSens E diag pts (Function.update v p t) p) A (fun t => gather dof (U t)) dof

/-- A shell with its loads, no base solution. -/
noncomputable def shellLoaded (E : ShellData n X) (A : MAttached n) (diag : Bool) (pts : List (Qp n X)) (v : Nat → ℝ) (p : Nat) (dof : Nat → Nat) : MElem :=
  withLoads (fun t => plateJac E.hp E.F E.card E.stress E.T E.nl E.bend E.qs E.ss (fun _ => 0) (Function.update v p t)) (fun t => plateStiffSens E (Function.update v p t) p)
    (fun t => plateMass E diag pts (Function.update v p t)) (fun t => plateMassSens E diag pts (Function.update v p t) p) A (fun _ _ => 0) dof

/-- Temperature on a beam and on a shell. -/
def thermalBeam (T : Option (Fin 3 → Fin 3 → ℝ)) (nl bend : Bool) (scaling : ℝ → ℝ) (th : Fam (Beam.Bqp n X) Beam.Thermal) (qs : List (Beam.Bqp n X)) (side : Nat → Op n) : MLoad n :=
  ⟨⟨.temperature, side, thermalBeamOp T nl bend scaling th qs⟩, fun _ _ _ _ _ => 0, fun t _ => Beam.thermalSensJac T nl bend (qs.map fun q => (q, th.val t q, th.der t q))⟩
def thermalShell (T : Option (Fin 3 → Fin 3 → ℝ)) (nl bend : Bool) (scaling : ℝ → ℝ) (th : Fam (Shell.Sqp n X) Shell.Thermal) (qs : List (Shell.Sqp n X)) (side : Nat → Op n) : MLoad n :=
  ⟨⟨.temperature, side, thermalShellOp T nl bend scaling th qs⟩, fun _ _ _ _ _ => 0, fun t _ => Shell.thermalSensJac T nl bend (qs.map fun q => (q, th.val t q, th.der t q))⟩

/-- Pressure and traction: their routines add nothing to `jac` (structural_element_base.cpp:1169-1311, structural_element_2d.cpp:2358-2500, 2857-3005, structural_element_1d.cpp:1620-1773). -/
def deadLoad (l : Load n) : MLoad n := ⟨l, fun _ _ _ _ _ => 0, fun _ _ _ _ => 0⟩

end Verif.Modal
