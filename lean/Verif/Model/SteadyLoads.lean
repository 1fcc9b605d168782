import Verif.Model.SteadyStruct
import Verif.Model.StructLoads
/-
  Shells and beams with side and volume loads in a steady analysis: `StructuralNonlinearAssemblyElemOperations::elem_calculations` and `elem_sensitivity_calculations`
  (src/elasticity/structural_nonlinear_assembly.cpp:113-139, 173-197), which add the internal force, the side loads and the volume loads.
-/
namespace Verif.Steady
open Verif Verif.SecDep Verif.GeomElem Verif.StructLoads

variable {n : Nat} {X : Type}

/-- A routine of the element with its residual, its Jacobian with respect to the unknowns and its `..._sensitivity`, as families over the value of the parameter. -/
structure Op (n : Nat) where
  res : ℝ → (Dof n → ℝ) → Dof n → ℝ
  jac : ℝ → (Dof n → ℝ) → Dof n → Dof n → ℝ
  sens : ℝ → (Dof n → ℝ) → Dof n → ℝ

/-- A load object: its type, and the routine the element runs for it on a side and on the domain (structural_element_base.cpp:652-697, 824-851). -/
structure Load (n : Nat) where
  kind : Kind
  side : Nat → Op n
  vol : Op n

/-- What the element finds in the discipline: `side_loads()` by boundary id, `volume_loads()` by subdomain id, the ids of its sides and of its subdomain. -/
structure Attached (n : Nat) where
  nSides : Nat
  ids : Nat → List Nat
  sid : Nat
  sides : List (Nat × Load n)
  vols : List (Nat × Load n)

/-- `side_external_residual` followed by `volume_external_residual`, or their sensitivities (structural_nonlinear_assembly.cpp:129-138, 187-196); a refused load is `libmesh_error`. -/
def Attached.add {V : Type} [Add V] (A : Attached n) (sAct vAct : Kind → Act) (rs : Nat → Load n → V) (rv : Load n → V) (f : V) : Exec V :=
  match sideLoop sAct Load.kind rs A.nSides A.ids A.sides f with
  | none => .error .error
  | some g => match volLoop vAct Load.kind rv A.sid A.vols g with
    | none => .error .error
    | some h => .ok h

/-- `elem_calculations` (structural_nonlinear_assembly.cpp:113-139) and `elem_sensitivity_calculations` (173-197) for the internal force `force`, its Jacobian `jac` and its sensitivity `sens`. -/
noncomputable def loadedElem (force : ℝ → (Dof n → ℝ) → Exec (Dof n → ℝ)) (jac : ℝ → (Dof n → ℝ) → Exec (Dof n → Dof n → ℝ)) (sens : ℝ → (Dof n → ℝ) → Exec (Dof n → ℝ)) (A : Attached n) (dof : Nat → Nat) (asked : Bool) : PElem where
  n := 6 * n
  dof := dof
  diag := false
  asked := asked
  res := fun t u => vecOf (force t (fun d => u d.row) >>= A.add sideAct volAct (fun s l => (l.side s).res t fun d => u d.row) fun l => l.vol.res t fun d => u d.row)
  jac := fun t u => matVal (jac t (fun d => u d.row) >>= A.add sideAct volAct (fun s l => (l.side s).jac t fun d => u d.row) fun l => l.vol.jac t fun d => u d.row)
  sens := fun t u => vecOf (sens t (fun d => u d.row) >>= A.add sideSensAct volSensAct (fun s l => (l.side s).sens t fun d => u d.row) fun l => l.vol.sens t fun d => u d.row)

/-- A shell with its loads. -/
noncomputable def loadedShell (E : ShellData n X) (A : Attached n) (v : Nat → ℝ) (p : Nat) (dof : Nat → Nat) (asked : Bool) : PElem :=
  loadedElem (fun t u => plateForce E.hp E.F E.card E.stress E.T E.nl E.bend E.qs E.ss u (Function.update v p t)) (fun t u => plateJac E.hp E.F E.card E.stress E.T E.nl E.bend E.qs E.ss u (Function.update v p t))
    (fun t u => plateSens E.hp E.F E.card E.stress E.T E.nl E.bend E.qs E.ss u (Function.update v p t) p fun _ => 0) A dof asked

/-- A beam with its loads. -/
noncomputable def loadedBeam (E : BeamData n X) (A : Attached n) (v : Nat → ℝ) (p : Nat) (dof : Nat → Nat) (asked : Bool) : PElem :=
  loadedElem (fun t u => barForce E.hp E.F E.card E.T E.nl E.bend E.qs u (Function.update v p t)) (fun t u => barJac E.hp E.F E.card E.T E.nl E.bend E.qs u (Function.update v p t))
    (fun t u => barSens E.hp E.F E.card E.T E.nl E.bend E.qs u (Function.update v p t) p fun _ => 0) A dof asked

/-! ### The routines -/

/-- A field function as a family over the parameter value, with its `derivative`. -/
structure Fam (X V : Type) where
  val : ℝ → X → V
  der : ℝ → X → V

/-- The function for one parameter value. -/
def Fam.at {V : Type} (f : Fam X V) (t : ℝ) : StructLoads.Field X V := ⟨f.val t, f.der t⟩

/-- `surface_pressure_residual` on the element and its sensitivity (structural_element_base.cpp:1169-1311); no Jacobian is added. -/
def pressureOp (T : Option (Fin 3 → Fin 3 → ℝ)) (dim : Nat) (p : Fam X ℝ) (pts : List (Qp n X)) : Op n :=
  ⟨fun t _ => pressureVol T dim (p.val t) pts, fun _ _ _ _ => 0, fun t _ => pressureVolSens T dim (p.at t) pts⟩

/-- `surface_pressure_residual` on a side and its sensitivity, `h` is the thickness or the area (structural_element_2d.cpp:2857-3005, structural_element_1d.cpp:1620-1773). -/
def sidePressureOp (T : Option (Fin 3 → Fin 3 → ℝ)) (h p : Fam X ℝ) (pts : List (Qp n X)) : Op n :=
  ⟨fun t _ => pressureSide T (some (h.at t)) (p.at t) pts, fun _ _ _ _ => 0, fun t _ => pressureSideSens T (some (h.at t)) (p.at t) pts⟩

/-- `surface_traction_residual` of the shell and its sensitivity (structural_element_2d.cpp:2358-2500). -/
def tractionOp (T : Option (Fin 3 → Fin 3 → ℝ)) (h : Fam X ℝ) (tr : Fam X (Fin 3 → ℝ)) (pts : List (Qp n X)) : Op n :=
  ⟨fun t _ => traction T (h.at t) (tr.at t) pts, fun _ _ _ _ => 0, fun t _ => tractionSens T (h.at t) (tr.at t) pts⟩

/-- `thermal_residual` of the shell and its sensitivity (structural_element_2d.cpp:3012-3414): expansion matrices and temperatures at the points as functions of the parameter, with their derivatives; `scaling` is
`thermal_jacobian_scaling` of the load, 1 if absent (3094-3097). -/
def thermalShellOp (T : Option (Fin 3 → Fin 3 → ℝ)) (nl bend : Bool) (scaling : ℝ → ℝ) (th : Fam (Shell.Sqp n X) Shell.Thermal) (qs : List (Shell.Sqp n X)) : Op n :=
  ⟨fun t u => Shell.thermalRes T nl bend (qs.map fun q => (q, th.val t q)) u, fun t _ => Shell.thermalJac T nl bend (scaling t) (qs.map fun q => (q, th.val t q)),
    fun t u => Shell.thermalSens T nl bend (qs.map fun q => (q, th.val t q, th.der t q)) u⟩

/-- `thermal_residual` of the beam and its sensitivity (structural_element_1d.cpp:1781-2118); scaling at 1858-1861. -/
def thermalBeamOp (T : Option (Fin 3 → Fin 3 → ℝ)) (nl bend : Bool) (scaling : ℝ → ℝ) (th : Fam (Beam.Bqp n X) Beam.Thermal) (qs : List (Beam.Bqp n X)) : Op n :=
  ⟨fun t u => Beam.thermalRes T nl bend (qs.map fun q => (q, th.val t q)) u, fun t _ => Beam.thermalJac T nl bend (scaling t) (qs.map fun q => (q, th.val t q)),
    fun t u => Beam.thermalSens T nl bend (qs.map fun q => (q, th.val t q, th.der t q)) u⟩

end Verif.Steady
