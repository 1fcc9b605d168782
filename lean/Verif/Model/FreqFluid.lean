import Verif.Model.FluidElem
import Mathlib.Data.Complex.Basic
/-
  Frequency domain flow element and pressure functions: src/fluid/frequency_domain_linearized_conservative_fluid_elem.cpp, src/aeroelasticity/frequency_function.cpp,
  src/fluid/pressure_function.cpp, src/fluid/frequency_domain_pressure_function.cpp, src/fluid/surface_integrated_pressure_output.cpp.
-/
namespace Verif.Fluid

open Finset Complex

/-- Complex element vector. -/
abbrev CField := Var → Nat → ℂ

/-- `FEMOperatorMatrix::right_multiply` on a complex vector (frequency_domain_linearized_conservative_fluid_elem.cpp:584). -/
def cinterp (c : Ctx) (ψ : Nat → ℝ) (x : CField) : Var → ℂ := fun v => if act c.d v then ∑ a ∈ range c.n, (ψ a : ℂ) * x v a else 0

/-- Complex matrix row times complex element vector (frequency_domain_linearized_conservative_fluid_elem.cpp:130, 217). -/
def cjacMul (c : Ctx) (J : Var → Nat → ℂ) (x : CField) : ℂ := ∑ u, if act c.d u then ∑ b ∈ range c.n, J u b * x u b else 0

/-- `FrequencyFunction` (frequency_function.h:32-98): angular frequency, velocity, reference length, `_if_red_freq`. -/
structure Freq where
  omega : ℝ
  vel : ℝ
  bref : ℝ
  red : Bool

/-- `operator()` (frequency_function.cpp:49-62). -/
def Freq.value (f : Freq) : ℝ := f.omega

/-- `nondimensionalizing_factor` (frequency_function.cpp:90-101). -/
noncomputable def Freq.factor (f : Freq) : ℝ := if f.red then f.bref / f.vel else 1

/-- `local_jac` (frequency_domain_linearized_conservative_fluid_elem.cpp:124-125): `f_jac_x b_V + i omega fm_jac_xdot`. -/
noncomputable def freqMat (c : Ctx) (T : Tau) (dc : Shock) (qs : List Qp) (sol : Field) (bV ω : ℝ) (v : Var) (a : Nat) (u : Var) (b : Nat) : ℂ :=
  (internalJac c T dc qs sol v a u b : ℂ) * bV + I * ω * (velocityJacXdot c T qs sol v a u b : ℂ)

/-- `f` of `internal_residual` (frequency_domain_linearized_conservative_fluid_elem.cpp:130). -/
noncomputable def freqRes (c : Ctx) (T : Tau) (dc : Shock) (qs : List Qp) (sol : Field) (fr : Freq) (x : CField) (v : Var) (a : Nat) : ℂ :=
  cjacMul c (freqMat c T dc qs sol fr.factor fr.value v a) x

/-- `f` of `internal_residual_sensitivity` (frequency_domain_linearized_conservative_fluid_elem.cpp:208-217); `dω` is `freq->derivative`. -/
noncomputable def freqSens (c : Ctx) (T : Tau) (dc : Shock) (qs : List Qp) (sol : Field) (fr : Freq) (dω : ℝ) (x dx : CField) (v : Var) (a : Nat) : ℂ :=
  cjacMul c (fun u b => I * dω * (velocityJacXdot c T qs sol v a u b : ℂ)) x + cjacMul c (freqMat c T dc qs sol fr.factor fr.value v a) dx

/-- Symmetry wall and far field: `f_jac_x b_V _complex_sol` (frequency_domain_linearized_conservative_fluid_elem.cpp:289, 325); `J` is the Jacobian of the steady residual. -/
noncomputable def freqSide (c : Ctx) (J : Var → Nat → ℝ) (fr : Freq) (x : CField) : ℂ := cjacMul c (fun u b => (J u b : ℂ) * fr.factor) x

/-- Complex disturbance of the velocity (small_disturbance_primitive_fluid_solution.cpp:82-100, `get_duvec` 160-172). -/
noncomputable def cduv (d : Nat) (s : Prim) (D : Var → ℂ) : Fin 3 → ℂ
  | 0 => (D .m1 - D .rho * s.u1) / s.rho
  | 1 => if 2 ≤ d then (D .m2 - D .rho * s.u2) / s.rho else 0
  | 2 => if 3 ≤ d then (D .m3 - D .rho * s.u3) / s.rho else 0

/-- Complex disturbance of the pressure (small_disturbance_primitive_fluid_solution.cpp:79-107). -/
noncomputable def cdp (d : Nat) (s : Prim) (D : Var → ℂ) : ℂ :=
  let dk := s.u1 * cduv d s D 0 + s.u2 * cduv d s D 1 + s.u3 * cduv d s D 2
  let de := (D .en - D .rho * s.e) / s.rho
  let dT := (de - dk) / s.cv
  ((s.cp - s.cv : ℝ) : ℂ) * (dT * s.rho + s.T * D .rho)

/-- Data of a boundary condition at a point of the wall: the entries "velocity", "normal_rotation", "displacement", "frequency_domain_displacement" with
"frequency_domain_normal_rotation" (frequency_domain_linearized_conservative_fluid_elem.cpp:551-570, 781-802); `none` when the condition does not contain it. -/
structure FreqWallQp extends SideQp where
  vel : Option (Fin 3 → ℝ)
  nrot : Option (Fin 3 → ℝ)
  displ : Option (Fin 3 → ℝ)
  pert : Option ((Fin 3 → ℂ) × (Fin 3 → ℂ))

/-- `dwdot_i` (frequency_domain_linearized_conservative_fluid_elem.cpp:503, 636-640). -/
def FreqWallQp.w' (q : FreqWallQp) : Fin 3 → ℝ := q.vel.getD fun _ => 0
/-- `dni` (frequency_domain_linearized_conservative_fluid_elem.cpp:505, 642-643). -/
def FreqWallQp.dn' (q : FreqWallQp) : Fin 3 → ℝ := q.nrot.getD fun _ => 0
/-- `Dw_i` (frequency_domain_linearized_conservative_fluid_elem.cpp:509, 650-656). -/
def FreqWallQp.Dw' (q : FreqWallQp) : Fin 3 → ℂ := (q.pert.map Prod.fst).getD fun _ => 0
/-- `Dni` (frequency_domain_linearized_conservative_fluid_elem.cpp:510, 657). -/
def FreqWallQp.Dn' (q : FreqWallQp) : Fin 3 → ℂ := (q.pert.map Prod.snd).getD fun _ => 0

/-- Eigen's `a.dot(b)` for complex vectors: the first argument is conjugated (frequency_domain_linearized_conservative_fluid_elem.cpp:660-663). -/
noncomputable def edot (x y : Fin 3 → ℂ) : ℂ := ∑ i, (starRingEnd ℂ) (x i) * y i

/-- `segment(1, dim)` of a complex vector. -/
def cmomEntry (d : Nat) (z : Fin 3 → ℂ) : Var → ℂ
  | .m1 => if 1 ≤ d then z 0 else 0
  | .m2 => if 2 ≤ d then z 1 else 0
  | .m3 => if 3 ≤ d then z 2 else 0
  | _ => 0

/-- `flux` of the slip wall (frequency_domain_linearized_conservative_fluid_elem.cpp:622-673). -/
noncomputable def freqSlipFlux (c : Ctx) (U : Var → ℝ) (D : Var → ℂ) (bV ω : ℝ) (q : FreqWallQp) (v : Var) : ℂ :=
  let s := prim c.d U c.cp c.cv c.visc
  let un : ℂ := (uini c.d s q.n q.w' q.dn' : ℝ)
  let dep := edot q.Dw' (fun i => ((sideNormal c.d q.n i + q.dn' i : ℝ) : ℂ)) * I * ω
  let indep := edot (fun i => ((q.w' i : ℝ) : ℂ)) q.Dn' - edot (fun i => ((uv s i : ℝ) : ℂ)) q.Dn' - edot (cduv c.d s D) (fun i => ((q.dn' i : ℝ) : ℂ))
  un * bV * D v + (if v = .en then un * bV * cdp c.d s D else 0) + (indep * bV + dep) * U v + (if v = .en then (indep * bV + dep) * s.p else 0) +
    cmomEntry c.d (fun i => cdp c.d s D * bV * (sideNormal c.d q.n i : ℝ)) v

/-- `f` of `slip_wall_surface_residual` (frequency_domain_linearized_conservative_fluid_elem.cpp:579-676). -/
noncomputable def freqSlipRes (c : Ctx) (qs : List FreqWallQp) (sol : Field) (fr : Freq) (x : CField) (v : Var) (a : Nat) : ℂ :=
  (qs.map fun q => (q.w : ℂ) * ((q.phi a : ℂ) * freqSlipFlux c (interp c q.phi sol) (cinterp c q.phi x) fr.factor fr.value q v)).sum

/-- `jac` of `slip_wall_surface_residual` (frequency_domain_linearized_conservative_fluid_elem.cpp:678-692). -/
noncomputable def freqSlipJac (c : Ctx) (qs : List FreqWallQp) (sol : Field) (fr : Freq) (v : Var) (a : Nat) (u : Var) (b : Nat) : ℂ :=
  (qs.map fun q => ((q.w * fr.factor : ℝ) : ℂ) *
    ((q.phi a * (wallJac c.d c.gas (stateAt c q.phi sol) (uini c.d (stateAt c q.phi sol) q.n q.w' q.dn') q.n q.dn' v u * q.phi b) : ℝ) : ℂ)).sum

/-- `f` of `slip_wall_surface_residual_sensitivity` (frequency_domain_linearized_conservative_fluid_elem.cpp:781-887): the rotation of the normal is read only when the condition
contains "displacement".  A condition with "displacement" and without "normal_rotation" makes the lookup fail (788) and is left out here. -/
noncomputable def freqSlipSens (c : Ctx) (qs : List FreqWallQp) (sol : Field) (dω : ℝ) (v : Var) (a : Nat) : ℂ :=
  (qs.map fun q =>
    let dn : Fin 3 → ℝ := if q.displ.isSome then q.dn' else fun _ => 0
    let s := stateAt c q.phi sol
    let dep := edot q.Dw' (fun i => ((sideNormal c.d q.n i + dn i : ℝ) : ℂ)) * I * dω
    (q.w : ℂ) * ((q.phi a : ℂ) * (dep * interp c q.phi sol v + if v = .en then dep * s.p else 0))).sum

/-- `PressureFunction` settings (pressure_function.h:58-72, 104-113). -/
structure PressMode where
  cp : Bool
  ref : ℝ

/-- `PressureFunction::operator()` at a point where the solution is `U` (pressure_function.cpp:117-146). -/
noncomputable def pressure (d : Nat) (m : PressMode) (f : Flight) (visc : Bool) (U : Var → ℝ) : ℝ :=
  let s := prim d U f.cp f.cv visc
  if m.cp then cPressure s f.p0 f.q0 else s.p - m.ref

/-- `PressureFunction::perturbation` (pressure_function.cpp:162-200). -/
noncomputable def pressurePert (d : Nat) (m : PressMode) (f : Flight) (visc : Bool) (U D : Var → ℝ) : ℝ :=
  let dp := (dprim d (prim d U f.cp f.cv visc) D visc).dp
  if m.cp then dp / f.q0 else dp

/-- `FrequencyDomainPressureFunction::operator()` with the real and imaginary part of the disturbance (frequency_domain_pressure_function.cpp:121-167). -/
noncomputable def freqPressure (d : Nat) (m : PressMode) (f : Flight) (visc : Bool) (U Dre Dim : Var → ℝ) : ℂ :=
  let D : Var → ℂ := fun v => ⟨Dre v, Dim v⟩
  let dp := cdp d (prim d U f.cp f.cv visc) D
  if m.cp then dp / f.q0 else dp

/-- `SurfaceIntegratedPressureOutput` modes (surface_integrated_pressure_output.cpp:78-94). -/
inductive LoadMode | l2 | unit

/-- Euclidean norm of a load. -/
noncomputable def loadNorm (f : Fin 3 → ℝ) : ℝ := Real.sqrt (∑ k, f k ^ 2)

/-- `value` (surface_integrated_pressure_output.cpp:75-95); the direction has been normalised by the constructor (34-36) or `set_output_mode` (64-69). -/
noncomputable def loadValue (m : LoadMode) (nvec load : Fin 3 → ℝ) : ℝ :=
  match m with
  | .l2 => loadNorm load
  | .unit => ∑ k, load k * unitVec nvec k

/-- `sensitivity` for a stored load sensitivity, and each entry of `derivative` for a column of `_dload_dX` (surface_integrated_pressure_output.cpp:100-150). -/
noncomputable def loadSens (m : LoadMode) (nvec load dload : Fin 3 → ℝ) : ℝ :=
  match m with
  | .l2 => (∑ k, load k * dload k) / loadNorm load
  | .unit => ∑ k, dload k * unitVec nvec k

end Verif.Fluid
