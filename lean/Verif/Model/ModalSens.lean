import Verif.Model.SteadyStruct
import Verif.Model.StructLoads
import Verif.Model.Eigen
/-
  Natural frequencies of a structure and their sensitivity: the two matrices of the modal eigenproblem (src/base/eigenproblem_assembly.cpp:88-177), their sensitivities (183-295), the element calculations
  (src/elasticity/structural_modal_eigenproblem_assembly.cpp:95-150) and `eigenproblem_sensitivity_solve` (src/base/nonlinear_system.cpp:554-685).  No base solution (`_base_sol == nullptr`) and no side or volume loads.
-/
namespace Verif.Modal
open Verif Verif.SecDep Verif.GeomElem Verif.StructLoads Verif.Steady

/-- An element: `A t`, `B t` are what `elem_calculations` leaves in the two matrices when the parameter has the value `t` (structural_modal_eigenproblem_assembly.cpp:95-116), `dA t`, `dB t` those of
`elem_sensitivity_calculations` (122-150). -/
structure MElem where
  n : Nat
  dof : Nat → Nat
  A : ℝ → Nat → Nat → ℝ
  B : ℝ → Nat → Nat → ℝ
  dA : ℝ → Nat → Nat → ℝ
  dB : ℝ → Nat → Nat → ℝ

/-- Assembly of one of these matrices over the processes (eigenproblem_assembly.cpp:104-176, 199-292): zero first, then per element `constrain_element_matrix` and `add_matrix`, as in the assembly of the Jacobian. -/
noncomputable def assemble (C : Nat → Bool) (pick : MElem → Nat → Nat → ℝ) (ps : List (List MElem)) : Nat → Nat → ℝ :=
  Asm.jacobian C (fun _ => 0) (ps.map fun p => ⟨p.map fun e => ⟨e.n, e.dof, false, fun _ _ => 0, fun _ => pick e, fun _ _ _ => 0⟩, 0, 0⟩)

/-- The matrix as the solver sees it. -/
noncomputable def matrix {N : Nat} (C : Nat → Bool) (pick : MElem → Nat → Nat → ℝ) (ps : List (List MElem)) : Matrix (Fin N) (Fin N) ℝ := fun i j => assemble C pick ps i j

/-- `eigenproblem_sensitivity_solve` (nonlinear_system.cpp:554-685) of a generalised problem with condensed constraints (`initialize_condensed_dofs`), after `eigenproblem_solve` at the parameter value `t`; `val`, `vec` is
the pair the eigensolver holds.  `exch` is `_exchange_A_and_B`. -/
noncomputable def frequencySens {N m : Nat} (C : Nat → Bool) (exch : Bool) (idx : Fin m → Fin N) (ps : List (List MElem)) (t : ℝ) (val : ℂ) (vec : Fin m → ℝ) : Exec ℝ := do
  let r ← Eig.sensitivitySolve (⟨.GHEP, exch, some idx, matrix C (·.A t) ps, some (matrix C (·.B t) ps)⟩ : Eig.Sys N m) val (fun _ => 0) vec (matrix C (·.dA t) ps) (matrix C (·.dB t) ps)
  return r.1

/-! ### Beams and shells -/

variable {n : Nat} {X : Type}

/-- Row of a variable in the 6 x 6 inertia matrix (structural_element_base.cpp:272, 317-319). -/
def var (v : Var6) : Fin 6 := match v with
  | (false, 0) => 0 | (false, 1) => 1 | (false, 2) => 2 | (true, 0) => 3 | (true, 1) => 4 | (true, 2) => 5

/-- `_material->get<FieldFunction<Real>>("rho")` (solid_1d_section_element_property_card.cpp:1796, solid_2d_section_element_property_card.cpp:1144). -/
def density (hp : Fn.Heap) (c : Card) : Exec Nat := c.material.get (isField hp) "rho"

/-- Inertia matrix of a beam section (solid_1d_section_element_property_card.cpp:1007-1039, 1652-1670, 1789-1804). -/
noncomputable def barInertia (F : Funcs X) (P : Bar) (rho : Nat) (v : Nat → ℝ) (x : X) (i j : Var6) : ℝ :=
  let hy := F.val v P.hy x
  let hz := F.val v P.hz x
  Section1D.beamInertia (F.val v rho x) (Section1D.area hy hz) (Section1D.areaMoment hy hz (F.val v P.offz x)) (Section1D.areaMoment hy hz (F.val v P.offy x))
    (Section1D.polar hy hz (F.val v P.offy x) (F.val v P.offz x)) (Section1D.areaInertia hy hz (F.val v P.offy x) (F.val v P.offz x)) (var i) (var j)

/-- Its `derivative` (solid_1d_section_element_property_card.cpp:1049-1091). -/
noncomputable def dBarInertia (F : Funcs X) (P : Bar) (rho : Nat) (v : Nat → ℝ) (p : Nat) (x : X) (i j : Var6) : ℝ :=
  let hy := F.val v P.hy x
  let hz := F.val v P.hz x
  let dhy := F.der v P.hy p x
  let dhz := F.der v P.hz p x
  Section1D.dBeamInertia (F.val v rho x) (F.der v rho p x) (Section1D.area hy hz) (Section1D.dArea hy dhy hz dhz)
    (Section1D.areaMoment hy hz (F.val v P.offz x)) (Section1D.dAreaMoment hy dhy hz dhz (F.val v P.offz x) (F.der v P.offz p x))
    (Section1D.areaMoment hy hz (F.val v P.offy x)) (Section1D.dAreaMoment hy dhy hz dhz (F.val v P.offy x) (F.der v P.offy p x))
    (Section1D.polar hy hz (F.val v P.offy x) (F.val v P.offz x)) (Section1D.dPolar hy dhy hz dhz (F.val v P.offy x) (F.der v P.offy p x) (F.val v P.offz x) (F.der v P.offz p x))
    (Section1D.areaInertia hy hz (F.val v P.offy x) (F.val v P.offz x)) (Section1D.dAreaInertia hy dhy hz dhz (F.val v P.offy x) (F.der v P.offy p x) (F.val v P.offz x) (F.der v P.offz p x)) (var i) (var j)

/-- Inertia matrix of a shell section (solid_2d_section_element_property_card.cpp:554-574, 1139-1149). -/
noncomputable def plateInertia (F : Funcs X) (P : Plate) (rho : Nat) (v : Nat → ℝ) (x : X) (i j : Var6) : ℝ :=
  Section2D.plateInertia (F.val v P.h x) (F.val v P.off x) (F.val v rho x) (var i) (var j)

/-- Its `derivative` (solid_2d_section_element_property_card.cpp:581-601). -/
noncomputable def dPlateInertia (F : Funcs X) (P : Plate) (rho : Nat) (v : Nat → ℝ) (p : Nat) (x : X) (i j : Var6) : ℝ :=
  Section2D.dPlateInertia (F.val v P.h x) (F.der v P.h p x) (F.val v P.off x) (F.der v P.off p x) (F.val v rho x) (F.der v rho p x) (var i) (var j)

/-- `inertial_residual` or its sensitivity as a matrix (structural_element_base.cpp:257-353, 403-500): `xyz[0]` without points is undefined behaviour. -/
noncomputable def massOf (T : Option (Fin 3 → Fin 3 → ℝ)) (diag : Bool) (M : X → Var6 → Var6 → ℝ) (pts : List (Qp n X)) : Exec (Dof n → Dof n → ℝ) :=
  match inertiaMass T diag M pts with | some J => .ok J | none => .error .ub

/-- Mass matrix of a beam; `inertial_residual` does not ask the card whether it depends on the parameter. -/
noncomputable def barMass (E : BeamData n X) (diag : Bool) (pts : List (Qp n X)) (v : Nat → ℝ) : Exec (Dof n → Dof n → ℝ) := do
  let P ← E.card.bar E.hp
  let rho ← density E.hp E.card
  massOf E.T diag (barInertia E.F P rho v) pts
/-- Its sensitivity (structural_element_base.cpp:403-500). -/
noncomputable def barMassSens (E : BeamData n X) (diag : Bool) (pts : List (Qp n X)) (v : Nat → ℝ) (p : Nat) : Exec (Dof n → Dof n → ℝ) := do
  let P ← E.card.bar E.hp
  let rho ← density E.hp E.card
  massOf E.T diag (dBarInertia E.F P rho v p) pts
/-- Jacobian of `internal_residual_sensitivity` of a beam in the undeformed state (structural_element_1d.cpp:683-813): the matrix is zero before (structural_modal_eigenproblem_assembly.cpp:135). -/
noncomputable def barStiffSens (E : BeamData n X) (v : Nat → ℝ) (p : Nat) : Exec (Dof n → Dof n → ℝ) :=
  if E.card.dependsOn E.hp p then do
    let P ← E.card.bar E.hp
    pure (matToGlobal E.T (Beam.localJac E.nl E.bend ⟨E.qs.map fun q => (q, dBarSec E.F P v p q.x), []⟩ (vecToLocal E.T fun _ => 0)))
  else pure fun _ _ => 0

/-- `elem_calculations` and `elem_sensitivity_calculations` of a beam (structural_modal_eigenproblem_assembly.cpp:95-150). -/
noncomputable def beamModal (E : BeamData n X) (diag : Bool) (pts : List (Qp n X)) (v : Nat → ℝ) (p : Nat) (dof : Nat → Nat) : MElem where
  n := 6 * n
  dof := dof
  A := fun t => matVal (barJac E.hp E.F E.card E.T E.nl E.bend E.qs (fun _ => 0) (Function.update v p t))
  B := fun t => matVal (barMass E diag pts (Function.update v p t))
  dA := fun t => matVal (barStiffSens E (Function.update v p t) p)
  dB := fun t => matVal (barMassSens E diag pts (Function.update v p t) p)

/-- Mass matrix of a shell. -/
noncomputable def plateMass (E : ShellData n X) (diag : Bool) (pts : List (Qp n X)) (v : Nat → ℝ) : Exec (Dof n → Dof n → ℝ) := do
  let P ← E.card.plate E.hp !E.ss.isEmpty
  let rho ← density E.hp E.card
  massOf E.T diag (plateInertia E.F P rho v) pts
/-- Its sensitivity (structural_element_base.cpp:403-500). -/
noncomputable def plateMassSens (E : ShellData n X) (diag : Bool) (pts : List (Qp n X)) (v : Nat → ℝ) (p : Nat) : Exec (Dof n → Dof n → ℝ) := do
  let P ← E.card.plate E.hp !E.ss.isEmpty
  let rho ← density E.hp E.card
  massOf E.T diag (dPlateInertia E.F P rho v p) pts
/-- Jacobian of `internal_residual_sensitivity` of a shell in the undeformed state (structural_element_2d.cpp:1234-1397), which has no drilling entries. -/
noncomputable def plateStiffSens (E : ShellData n X) (v : Nat → ℝ) (p : Nat) : Exec (Dof n → Dof n → ℝ) :=
  if E.card.dependsOn E.hp p then do
    let P ← E.card.plate E.hp !E.ss.isEmpty
    pure (matToGlobal E.T (Shell.localJac E.nl E.bend ⟨E.qs.map fun q => (q, dPlateSec E.F E.stress P v p q.x), E.ss.map fun q => (q, dPlateG E.F P v p q.x)⟩ (vecToLocal E.T fun _ => 0)))
  else pure fun _ _ => 0

/-- The same for a shell. -/
noncomputable def shellModal (E : ShellData n X) (diag : Bool) (pts : List (Qp n X)) (v : Nat → ℝ) (p : Nat) (dof : Nat → Nat) : MElem where
  n := 6 * n
  dof := dof
  A := fun t => matVal (plateJac E.hp E.F E.card E.stress E.T E.nl E.bend E.qs E.ss (fun _ => 0) (Function.update v p t))
  B := fun t => matVal (plateMass E diag pts (Function.update v p t))
  dA := fun t => matVal (plateStiffSens E (Function.update v p t) p)
  dB := fun t => matVal (plateMassSens E diag pts (Function.update v p t) p)

end Verif.Modal
