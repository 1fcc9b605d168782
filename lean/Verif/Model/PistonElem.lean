import Verif.Model.Piston
import Verif.Model.Beam
/-
  Piston theory loads of the shell and beam elements: src/elasticity/structural_element_2d.cpp 3781-4170, structural_element_1d.cpp 2126-2505.
  Local frame first; the vectors and matrices handed to the assembly are the transformed ones with the opposite sign (`f -= vec_n2`).
-/
namespace Verif.PistonElem
open Verif.GeomElem Verif.StructLoads Verif.Shell Verif.Piston

/-- Speed, Mach number, density and ratio of specific heats at a point (piston_theory_boundary_condition.cpp:540-570). -/
structure Stream where
  V : ℝ
  M : ℝ
  rho : ℝ
  gamma : ℝ

/-- The six functions of the pressure: `dwdx_p` and `dwdt_p` are the constants set at the quadrature point (structural_element_2d.cpp:3853-3865, 3932-3933). -/
def Stream.flow (s : Stream) (dwdx dwdt : ℝ) : Flow := ⟨s.V, s.M, s.rho, s.gamma, dwdx, dwdt⟩

/-- Derivatives of the stream for a parameter; those of `dwdx_p`, `dwdt_p` are zero, the two are not the parameter (structural_element_2d.cpp:4114). -/
def Stream.dflow (d : Stream) : Flow := ⟨d.V, d.M, d.rho, d.gamma, 0, 0⟩

/-- Quadrature point of a surface element (`dy` unused for a line): `get_xyz`, `get_JxW`, `get_phi`, `get_dphi`. -/
structure Pqp (n : Nat) (X : Type) where
  x : X
  JxW : ℝ
  phi : Fin n → ℝ
  dx : Fin n → ℝ
  dy : Fin n → ℝ

variable {n : Nat} {X : Type}

/-- `Bmat_w` of the shell: row 0 holds the shape functions of `w`, row 1 nothing (structural_element_2d.cpp:3908-3909). -/
def Bw (q : Pqp n X) : Fin 2 → Dof n → ℝ := ![shape W q.phi, fun _ => 0]

/-- `dBmat` of the shell (structural_element_2d.cpp:84, 95, 3920-3924). -/
def dB (q : Pqp n X) : Fin 2 → Dof n → ℝ := ![shape W q.dx, shape W q.dy]

/-- `vec_n1(0)`: velocity of the surface (structural_element_2d.cpp:3914-3915). -/
def rate (q : Pqp n X) (udot : Dof n → ℝ) : ℝ := app (Bw q) udot 0

/-- `dwdx_val` (structural_element_2d.cpp:3927-3929) with the flow direction `m` in the local frame. -/
def slopeVal (m : Fin 3 → ℝ) (q : Pqp n X) (u : Dof n → ℝ) : ℝ := (∑ i, q.dx i * u (false, 2, i)) * m 0 + (∑ i, q.dy i * u (false, 2, i)) * m 1

/-- `vel_vec` (structural_element_2d.cpp:3892): `T^T v`. -/
def localDir (T : Fin 3 → Fin 3 → ℝ) (v : Fin 3 → ℝ) (k : Fin 3) : ℝ := ∑ j, T j k * v j

/-- `local_f` of the shell (structural_element_2d.cpp:3900-3941): `normal(2) = -1`. -/
noncomputable def shellForce (order : Nat) (s : X → Stream) (m : Fin 3 → ℝ) (pts : List (Pqp n X)) (u udot : Dof n → ℝ) (a : Dof n) : ℝ :=
  (pts.map fun q => q.JxW * appT (Bw q) ![pressure order ((s q.x).flow (slopeVal m q u) (rate q udot)) * -1, 0] a).sum

/-- `local_jac_xdot` of the shell (structural_element_2d.cpp:3948-3952). -/
noncomputable def shellJacXdot (order : Nat) (s : X → Stream) (m : Fin 3 → ℝ) (pts : List (Pqp n X)) (u udot : Dof n → ℝ) (a b : Dof n) : ℝ :=
  (pts.map fun q => q.JxW * pressureXdot order ((s q.x).flow (slopeVal m q u) (rate q udot)) * -1 * ∑ r, Bw q r a * Bw q r b).sum

/-- `local_jac` of the shell (structural_element_2d.cpp:3955-3969): `Bmat_w^T mat_22 dBmat` with the direction on the diagonal of `mat_22`, one entry at a time. -/
noncomputable def shellJac (order : Nat) (s : X → Stream) (m : Fin 3 → ℝ) (pts : List (Pqp n X)) (u udot : Dof n → ℝ) (a b : Dof n) : ℝ :=
  (pts.map fun q => q.JxW * pressureX order ((s q.x).flow (slopeVal m q u) (rate q udot)) * -1 * sandwich (Bw q) ![![m 0, 0], ![0, 0]] (dB q) a b +
    q.JxW * pressureX order ((s q.x).flow (slopeVal m q u) (rate q udot)) * -1 * sandwich (Bw q) ![![0, 0], ![0, m 1]] (dB q) a b).sum

/-- `local_f` of the sensitivity of the shell load (structural_element_2d.cpp:4080-4121). -/
noncomputable def shellForceSens (order : Nat) (s d : X → Stream) (m : Fin 3 → ℝ) (pts : List (Pqp n X)) (u udot : Dof n → ℝ) (a : Dof n) : ℝ :=
  (pts.map fun q => q.JxW * appT (Bw q) ![pressureSens order ((s q.x).flow (slopeVal m q u) (rate q udot)) (d q.x).dflow * -1, 0] a).sum

/-- `local_jac_xdot` of the sensitivity (structural_element_2d.cpp:4128-4132). -/
noncomputable def shellJacXdotSens (order : Nat) (s d : X → Stream) (m : Fin 3 → ℝ) (pts : List (Pqp n X)) (u udot : Dof n → ℝ) (a b : Dof n) : ℝ :=
  (pts.map fun q => q.JxW * pressureXdotSens order ((s q.x).flow (slopeVal m q u) (rate q udot)) (d q.x).dflow * -1 * ∑ r, Bw q r a * Bw q r b).sum

/-- `local_jac` of the sensitivity (structural_element_2d.cpp:4135-4149). -/
noncomputable def shellJacSens (order : Nat) (s d : X → Stream) (m : Fin 3 → ℝ) (pts : List (Pqp n X)) (u udot : Dof n → ℝ) (a b : Dof n) : ℝ :=
  (pts.map fun q => q.JxW * pressureXSens order ((s q.x).flow (slopeVal m q u) (rate q udot)) (d q.x).dflow * -1 * sandwich (Bw q) ![![m 0, 0], ![0, 0]] (dB q) a b +
    q.JxW * pressureXSens order ((s q.x).flow (slopeVal m q u) (rate q udot)) (d q.x).dflow * -1 * sandwich (Bw q) ![![0, 0], ![0, m 1]] (dB q) a b).sum

/-- What the load needs from the element: a flat element parallel to the xy plane has no local element and no matrix `T` (geom_elem.cpp:363-372), `T_matrix()` returns an empty matrix (a debug assertion)
and `vel_vec(i)` is read outside the vector (structural_element_2d.cpp:3892, 3929). -/
def shellDir (T : Option (Fin 3 → Fin 3 → ℝ)) (v : Fin 3 → ℝ) : Out (Fin 3 → ℝ) :=
  match T with | some T => .ok (localDir T v) | none => .ub

/-- `f -= vec_n2` (structural_element_2d.cpp:3975-3976): what one element adds to the residual for displacement `u` and velocity `udot` in the global frame; `dir` is the direction of the boundary
condition. -/
noncomputable def shellRes (order : Nat) (s : X → Stream) (dir : Fin 3 → ℝ) (T : Option (Fin 3 → Fin 3 → ℝ)) (pts : List (Pqp n X)) (u udot : Dof n → ℝ) : Out (Dof n → ℝ) :=
  match shellDir T dir with
  | .ok m => .ok fun a => -vecToGlobal T (shellForce order s m pts (vecToLocal T u) (vecToLocal T udot)) a
  | .ub => .ub

/-- `jac -= mat_n2n2` (structural_element_2d.cpp:3984-3985). -/
noncomputable def shellResJac (order : Nat) (s : X → Stream) (dir : Fin 3 → ℝ) (T : Option (Fin 3 → Fin 3 → ℝ)) (pts : List (Pqp n X)) (u udot : Dof n → ℝ) : Out (Dof n → Dof n → ℝ) :=
  match shellDir T dir with
  | .ok m => .ok fun a b => -matToGlobal T (shellJac order s m pts (vecToLocal T u) (vecToLocal T udot)) a b
  | .ub => .ub

/-- `jac_xdot -= mat_n2n2` (structural_element_2d.cpp:3981-3982). -/
noncomputable def shellResJacXdot (order : Nat) (s : X → Stream) (dir : Fin 3 → ℝ) (T : Option (Fin 3 → Fin 3 → ℝ)) (pts : List (Pqp n X)) (u udot : Dof n → ℝ) : Out (Dof n → Dof n → ℝ) :=
  match shellDir T dir with
  | .ok m => .ok fun a b => -matToGlobal T (shellJacXdot order s m pts (vecToLocal T u) (vecToLocal T udot)) a b
  | .ub => .ub

/-- `f` of `piston_theory_residual_sensitivity` (structural_element_2d.cpp:4155-4156). -/
noncomputable def shellResSens (order : Nat) (s d : X → Stream) (dir : Fin 3 → ℝ) (T : Option (Fin 3 → Fin 3 → ℝ)) (pts : List (Pqp n X)) (u udot : Dof n → ℝ) : Out (Dof n → ℝ) :=
  match shellDir T dir with
  | .ok m => .ok fun a => -vecToGlobal T (shellForceSens order s d m pts (vecToLocal T u) (vecToLocal T udot)) a
  | .ub => .ub

/-- `jac` and `jac_xdot` of `piston_theory_residual_sensitivity` (structural_element_2d.cpp:4158-4166). -/
noncomputable def shellResJacSens (order : Nat) (s d : X → Stream) (dir : Fin 3 → ℝ) (T : Option (Fin 3 → Fin 3 → ℝ)) (pts : List (Pqp n X)) (u udot : Dof n → ℝ) : Out (Dof n → Dof n → ℝ) :=
  match shellDir T dir with
  | .ok m => .ok fun a b => -matToGlobal T (shellJacSens order s d m pts (vecToLocal T u) (vecToLocal T udot)) a b
  | .ub => .ub
noncomputable def shellResJacXdotSens (order : Nat) (s d : X → Stream) (dir : Fin 3 → ℝ) (T : Option (Fin 3 → Fin 3 → ℝ)) (pts : List (Pqp n X)) (u udot : Dof n → ℝ) : Out (Dof n → Dof n → ℝ) :=
  match shellDir T dir with
  | .ok m => .ok fun a b => -matToGlobal T (shellJacXdotSens order s d m pts (vecToLocal T u) (vecToLocal T udot)) a b
  | .ub => .ub

/-! ### Beam -/

/-- `Bmat_v`, `Bmat_w` of the beam: rows 0 and 1 (structural_element_1d.cpp:2209-2212). -/
def beamBv (q : Pqp n X) : Fin 2 → Dof n → ℝ := ![shape V q.phi, fun _ => 0]
def beamBw (q : Pqp n X) : Fin 2 → Dof n → ℝ := ![fun _ => 0, shape W q.phi]
/-- `Bmat_dvdx`, `Bmat_dwdx` (structural_element_1d.cpp:117-118, 2222-2228). -/
def beamDv (q : Pqp n X) : Fin 2 → Dof n → ℝ := ![shape V q.dx, fun _ => 0]
def beamDw (q : Pqp n X) : Fin 2 → Dof n → ℝ := ![shape W q.dx, fun _ => 0]

/-- `normal(_elem.dim()) = -1.` (structural_element_1d.cpp:2191). -/
def beamNormal : Fin 3 → ℝ := elemNormal 1

/-- Flow of the two pressures (structural_element_1d.cpp:2215-2240): slope and velocity of `v` or of `w`.  The direction of the boundary condition is not used. -/
def beamFlowV (s : Stream) (q : Pqp n X) (u udot : Dof n → ℝ) : Flow := s.flow (∑ i, q.dx i * u (false, 1, i)) (app (beamBv q) udot 0)
def beamFlowW (s : Stream) (q : Pqp n X) (u udot : Dof n → ℝ) : Flow := s.flow (∑ i, q.dx i * u (false, 2, i)) (app (beamBw q) udot 1)

/-- `local_f` of the beam (structural_element_1d.cpp:2244-2253): both forces go through `Bmat_v`. -/
noncomputable def beamForce (order : Nat) (s : X → Stream) (pts : List (Pqp n X)) (u udot : Dof n → ℝ) (a : Dof n) : ℝ :=
  (pts.map fun q => q.JxW * appT (beamBv q) ![pressure order (beamFlowV (s q.x) q u udot) * beamNormal 1, 0] a +
    q.JxW * appT (beamBv q) ![0, pressure order (beamFlowW (s q.x) q u udot) * beamNormal 2] a).sum

/-- `local_jac_xdot` of the beam (structural_element_1d.cpp:2262-2266, 2277-2281). -/
noncomputable def beamJacXdot (order : Nat) (s : X → Stream) (pts : List (Pqp n X)) (u udot : Dof n → ℝ) (a b : Dof n) : ℝ :=
  (pts.map fun q => q.JxW * pressureXdot order (beamFlowV (s q.x) q u udot) * beamNormal 1 * (∑ r, beamBv q r a * beamBv q r b) +
    q.JxW * pressureXdot order (beamFlowW (s q.x) q u udot) * beamNormal 2 * ∑ r, beamBw q r a * beamBw q r b).sum

/-- `local_jac` of the beam (structural_element_1d.cpp:2269-2272, 2284-2286). -/
noncomputable def beamJac (order : Nat) (s : X → Stream) (pts : List (Pqp n X)) (u udot : Dof n → ℝ) (a b : Dof n) : ℝ :=
  (pts.map fun q => q.JxW * pressureX order (beamFlowV (s q.x) q u udot) * beamNormal 1 * (∑ r, beamBv q r a * beamDv q r b) +
    q.JxW * pressureX order (beamFlowW (s q.x) q u udot) * beamNormal 2 * ∑ r, beamBw q r a * beamDw q r b).sum

/-- `local_f` of the sensitivity of the beam load (structural_element_1d.cpp:2425-2445). -/
noncomputable def beamForceSens (order : Nat) (s d : X → Stream) (pts : List (Pqp n X)) (u udot : Dof n → ℝ) (a : Dof n) : ℝ :=
  (pts.map fun q => q.JxW * appT (beamBv q) ![pressureSens order (beamFlowV (s q.x) q u udot) (d q.x).dflow * beamNormal 1, 0] a +
    q.JxW * appT (beamBv q) ![0, pressureSens order (beamFlowW (s q.x) q u udot) (d q.x).dflow * beamNormal 2] a).sum

/-- `f -= vec_n2` (structural_element_1d.cpp:2291-2292). -/
noncomputable def beamRes (order : Nat) (s : X → Stream) (T : Option (Fin 3 → Fin 3 → ℝ)) (pts : List (Pqp n X)) (u udot : Dof n → ℝ) (a : Dof n) : ℝ :=
  -vecToGlobal T (beamForce order s pts (vecToLocal T u) (vecToLocal T udot)) a

/-- `jac -= mat_n2n2` and `jac_xdot -= mat_n2n2` (structural_element_1d.cpp:2297-2301). -/
noncomputable def beamResJac (order : Nat) (s : X → Stream) (T : Option (Fin 3 → Fin 3 → ℝ)) (pts : List (Pqp n X)) (u udot : Dof n → ℝ) (a b : Dof n) : ℝ :=
  -matToGlobal T (beamJac order s pts (vecToLocal T u) (vecToLocal T udot)) a b
noncomputable def beamResJacXdot (order : Nat) (s : X → Stream) (T : Option (Fin 3 → Fin 3 → ℝ)) (pts : List (Pqp n X)) (u udot : Dof n → ℝ) (a b : Dof n) : ℝ :=
  -matToGlobal T (beamJacXdot order s pts (vecToLocal T u) (vecToLocal T udot)) a b

/-- `f -= vec_n2` of the sensitivity (structural_element_1d.cpp:2484-2485). -/
noncomputable def beamResSens (order : Nat) (s d : X → Stream) (T : Option (Fin 3 → Fin 3 → ℝ)) (pts : List (Pqp n X)) (u udot : Dof n → ℝ) (a : Dof n) : ℝ :=
  -vecToGlobal T (beamForceSens order s d pts (vecToLocal T u) (vecToLocal T udot)) a

end Verif.PistonElem
