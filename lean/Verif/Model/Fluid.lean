import Mathlib.Data.Matrix.Mul
import Mathlib.LinearAlgebra.Matrix.Notation
import Mathlib.Analysis.SpecialFunctions.Pow.Real
import Mathlib.Analysis.SpecialFunctions.Log.Basic
/-
  Compressible flow: src/fluid/primitive_fluid_solution.cpp, small_disturbance_primitive_fluid_solution.cpp, gas_property.h, flight_condition.h, fluid_elem_base.cpp.
  Reals stand for double.  The variables of a `d` dimensional problem (d = 1, 2, 3) are numbered 0, 1..d, d+1 in the code; here they are named, and vectors and matrices carry zeros at
  the variables a lower dimension does not have.
-/
namespace Verif.Fluid

/-- Conservative variables `0`, `1`, `2`, `3`, `n1-1` (fluid_elem_base.cpp:47-66); the same names are used for the primitive variables rho, u1, u2, u3, T. -/
inductive Var | rho | m1 | m2 | m3 | en
  deriving DecidableEq

/-- The five variables. -/
instance : Fintype Var := ⟨{.rho, .m1, .m2, .m3, .en}, by intro x; cases x <;> decide⟩

/-- Variables present in dimension `d` (fluid_elem_base.cpp:47-66). -/
def act (d : Nat) : Var → Bool
  | .rho => true
  | .m1 => true
  | .m2 => decide (2 ≤ d)
  | .m3 => decide (3 ≤ d)
  | .en => true

/-- Value assigned under `case n:` of a `switch (dim)` whose cases fall through from 3 to 1. -/
def at' (n d : Nat) (x : ℝ) : ℝ := if n ≤ d then x else 0

/-- `GasProperty` (gas_property.h:42-110), the parts used by the element. -/
structure Gas where
  cp : ℝ
  cv : ℝ
  R : ℝ
  gamma : ℝ

/-- `GasProperty::init` (gas_property.h:95-108). -/
noncomputable def gasInit (cp cv : ℝ) : Gas := ⟨cp, cv, cp - cv, cp / cv⟩

/-- `PrimitiveSolution` (primitive_fluid_solution.cpp:35-57). -/
structure Prim where
  cp : ℝ
  cv : ℝ
  rho : ℝ
  u1 : ℝ
  u2 : ℝ
  u3 : ℝ
  T : ℝ
  p : ℝ
  a : ℝ
  e : ℝ
  k : ℝ
  entropy : ℝ
  mach : ℝ
  mu : ℝ
  lambda : ℝ
  kth : ℝ

/-- Prandtl number (primitive_fluid_solution.cpp:53). -/
noncomputable def Pr : ℝ := 72 / 100

/-- Sutherland viscosity (primitive_fluid_solution.cpp:109). -/
noncomputable def viscosity (T : ℝ) : ℝ := 1458 / 1000 * (1 / 10 ^ 6) * T ^ (3 / 2 : ℝ) / (T + 1104 / 10)

/-- `PrimitiveSolution::init` after `zero()` (primitive_fluid_solution.cpp:35-113). -/
noncomputable def prim (d : Nat) (U : Var → ℝ) (cp cv : ℝ) (visc : Bool) : Prim :=
  let R := cp - cv
  let gamma := cp / cv
  let rho := U .rho
  let u1 := U .m1 / rho
  let u2 := at' 2 d (U .m2 / rho)
  let u3 := at' 3 d (U .m3 / rho)
  let k := (u1 * u1 + u2 * u2 + u3 * u3) * (1 / 2)
  let e := U .en / rho
  let T := (e - k) / cv
  let p := R * T * rho
  let a := Real.sqrt (gamma * R * T)
  let mu := if visc then viscosity T else 0
  { cp := cp, cv := cv, rho := rho, u1 := u1, u2 := u2, u3 := u3, T := T, p := p, a := a, e := e, k := k,
    entropy := Real.log (p / rho ^ gamma), mach := Real.sqrt (2 * k) / a, mu := mu, lambda := -2 / 3 * mu, kth := mu * cp / Pr }

/-- `c_pressure` (primitive_fluid_solution.cpp:117-122). -/
noncomputable def cPressure (s : Prim) (p0 q0 : ℝ) : ℝ := (s.p - p0) / q0

/-- `SmallPerturbationPrimitiveSolution` (small_disturbance_primitive_fluid_solution.cpp:38-57), real instance. -/
structure DPrim where
  drho : ℝ
  du1 : ℝ
  du2 : ℝ
  du3 : ℝ
  dT : ℝ
  dp : ℝ
  da : ℝ
  de : ℝ
  dk : ℝ
  dentropy : ℝ
  dmach : Option ℝ
  dmu : ℝ
  dlambda : ℝ
  dkth : ℝ

/-- `SmallPerturbationPrimitiveSolution<Real>::init` (small_disturbance_primitive_fluid_solution.cpp:60-123); `dmach = none` stands for the NaN of `0/0` at `k = 0`. -/
noncomputable def dprim (d : Nat) (s : Prim) (D : Var → ℝ) (visc : Bool) : DPrim :=
  let R := s.cp - s.cv
  let gamma := s.cp / s.cv
  let drho := D .rho
  let du1 := (D .m1 - drho * s.u1) / s.rho
  let du2 := at' 2 d ((D .m2 - drho * s.u2) / s.rho)
  let du3 := at' 3 d ((D .m3 - drho * s.u3) / s.rho)
  let dk := s.u1 * du1 + s.u2 * du2 + s.u3 * du3
  let de := (D .en - drho * s.e) / s.rho
  let dT := (de - dk) / s.cv
  let dp := R * (dT * s.rho + s.T * drho)
  let da := 1 / 2 * Real.sqrt (gamma * R / s.T) * dT
  let dmu := if visc then 1458 / 1000 * (1 / 10 ^ 6) * dT * (3 / 2 * s.T ^ (1 / 2 : ℝ) / (s.T + 1104 / 10) - s.T ^ (3 / 2 : ℝ) / (s.T + 1104 / 10) ^ 2) else 0
  { drho := drho, du1 := du1, du2 := du2, du3 := du3, dT := dT, dp := dp, da := da, de := de, dk := dk,
    dentropy := (dp / s.rho ^ gamma - gamma * s.p / s.rho ^ (gamma + 1) * drho) / (s.p / s.rho ^ gamma),
    dmach := if s.k = 0 then none else some (dk / Real.sqrt (2 * s.k) / s.a - Real.sqrt (2 * s.k) / s.a ^ 2 * da),
    dmu := dmu, dlambda := -2 / 3 * dmu, dkth := dmu * s.cp / Pr }

/-- `FlightCondition` (flight_condition.h:36-214) with its gas state. -/
structure Flight where
  mach : ℝ
  rho : ℝ
  T : ℝ
  cp : ℝ
  cv : ℝ
  dir : Fin 3 → ℝ

/-- `gas_property.a` (gas_property.h:107). -/
noncomputable def Flight.a (f : Flight) : ℝ := Real.sqrt (f.cp / f.cv * (f.cp - f.cv) * f.T)
/-- `velocity_magnitude` (flight_condition.h:86). -/
noncomputable def Flight.vel (f : Flight) : ℝ := f.mach * f.a
/-- `q0` (flight_condition.h:91-94). -/
noncomputable def Flight.q0 (f : Flight) : ℝ := 1 / 2 * f.rho * f.vel ^ 2
/-- `p0` (flight_condition.h:96-99; gas_property.h:106). -/
noncomputable def Flight.p0 (f : Flight) : ℝ := f.rho * (f.cp - f.cv) * f.T
/-- `init` (flight_condition.h:205-213): the direction is normalised. -/
noncomputable def Flight.init (f : Flight) : Flight :=
  { f with dir := fun i => f.dir i / Real.sqrt (f.dir 0 ^ 2 + f.dir 1 ^ 2 + f.dir 2 ^ 2) }

/-- `get_infinity_vars` (fluid_elem_base.cpp:82-96; flight_condition.h:112-131). -/
noncomputable def infVars (d : Nat) (f : Flight) : Var → ℝ
  | .rho => f.rho
  | .m1 => f.rho * f.vel * f.dir 0
  | .m2 => at' 2 d (f.rho * f.vel * f.dir 1)
  | .m3 => at' 3 d (f.rho * f.vel * f.dir 2)
  | .en => f.rho * f.cv * f.T + f.q0

/-- `*_sens_rho` (flight_condition.h:133-152); there is none for the third component. -/
noncomputable def infSensRho (f : Flight) : Var → Option ℝ
  | .rho => some 1
  | .m1 => some (f.rho * f.vel * f.dir 0 / f.rho)
  | .m2 => some (f.rho * f.vel * f.dir 1 / f.rho)
  | .m3 => none
  | .en => some ((f.rho * f.cv * f.T + f.q0) / f.rho)

/-- `*_sens_mach` (flight_condition.h:154-167); there is none for the density and the third component. -/
noncomputable def infSensMach (f : Flight) : Var → Option ℝ
  | .rho => none
  | .m1 => some (f.rho * f.vel * f.dir 0 / f.mach)
  | .m2 => some (f.rho * f.vel * f.dir 1 / f.mach)
  | .m3 => none
  | .en => some (2 * f.q0 / f.mach)

/-- `calculate_advection_flux` (fluid_elem_base.cpp:149-216). -/
def flux (d cd : Nat) (s : Prim) : Var → ℝ := fun v =>
  match cd with
  | 0 =>
    match v with
    | .rho => s.rho * s.u1
    | .m1 => s.rho * s.u1 * s.u1 + s.p
    | .m2 => at' 2 d (s.rho * s.u1 * s.u2)
    | .m3 => at' 3 d (s.rho * s.u1 * s.u3)
    | .en => s.u1 * (s.rho * s.e + s.p)
  | 1 =>
    match v with
    | .rho => s.rho * s.u2
    | .m1 => s.rho * s.u2 * s.u1
    | .m2 => at' 2 d (s.rho * s.u2 * s.u2 + s.p)
    | .m3 => at' 3 d (s.rho * s.u2 * s.u3)
    | .en => s.u2 * (s.rho * s.e + s.p)
  | _ =>
    match v with
    | .rho => s.rho * s.u3
    | .m1 => s.rho * s.u3 * s.u1
    | .m2 => at' 2 d (s.rho * s.u3 * s.u2)
    | .m3 => at' 3 d (s.rho * s.u3 * s.u3 + s.p)
    | .en => s.u3 * (s.rho * s.e + s.p)

/-- `dcons_dprim` of `calculate_conservative_variable_jacobian` (fluid_elem_base.cpp:360-389). -/
def dconsDprim (d : Nat) (g : Gas) (s : Prim) : Matrix Var Var ℝ := fun v w =>
  match v, w with
  | .m3, .rho => at' 3 d s.u3
  | .m3, .m3 => at' 3 d s.rho
  | .en, .m3 => at' 3 d (s.rho * s.u3)
  | .m2, .rho => at' 2 d s.u2
  | .m2, .m2 => at' 2 d s.rho
  | .en, .m2 => at' 2 d (s.rho * s.u2)
  | .rho, .rho => 1
  | .m1, .rho => s.u1
  | .m1, .m1 => s.rho
  | .en, .rho => s.e
  | .en, .m1 => s.rho * s.u1
  | .en, .en => s.rho * g.cv
  | _, _ => 0

/-- `dprim_dcons` of `calculate_conservative_variable_jacobian` (fluid_elem_base.cpp:391-420). -/
noncomputable def dprimDcons (d : Nat) (g : Gas) (s : Prim) : Matrix Var Var ℝ := fun v w =>
  match v, w with
  | .m3, .rho => at' 3 d (-s.u3 / s.rho)
  | .m3, .m3 => at' 3 d (1 / s.rho)
  | .en, .m3 => at' 3 d (-s.u3 / g.cv / s.rho)
  | .m2, .rho => at' 2 d (-s.u2 / s.rho)
  | .m2, .m2 => at' 2 d (1 / s.rho)
  | .en, .m2 => at' 2 d (-s.u2 / g.cv / s.rho)
  | .rho, .rho => 1
  | .m1, .rho => -s.u1 / s.rho
  | .m1, .m1 => 1 / s.rho
  | .en, .rho => (-s.e + 2 * s.k) / g.cv / s.rho
  | .en, .m1 => -s.u1 / g.cv / s.rho
  | .en, .en => 1 / g.cv / s.rho
  | _, _ => 0

/-- `calculate_advection_flux_jacobian` (fluid_elem_base.cpp:426-567). -/
noncomputable def fluxJac (d cd : Nat) (g : Gas) (s : Prim) : Matrix Var Var ℝ := fun v w =>
  match cd with
  | 0 =>
    match v, w with
    | .m1, .m3 => at' 3 d (-s.u3 * g.R / g.cv)
    | .m3, .rho => at' 3 d (-s.u1 * s.u3)
    | .m3, .m1 => at' 3 d s.u3
    | .m3, .m3 => at' 3 d s.u1
    | .en, .m3 => at' 3 d (-s.u1 * s.u3 * g.R / g.cv)
    | .m1, .m2 => at' 2 d (-s.u2 * g.R / g.cv)
    | .m2, .rho => at' 2 d (-s.u1 * s.u2)
    | .m2, .m1 => at' 2 d s.u2
    | .m2, .m2 => at' 2 d s.u1
    | .en, .m2 => at' 2 d (-s.u1 * s.u2 * g.R / g.cv)
    | .rho, .m1 => 1
    | .m1, .rho => -s.u1 * s.u1 + g.R * s.k / g.cv
    | .m1, .m1 => s.u1 * (2 - g.R / g.cv)
    | .m1, .en => g.R / g.cv
    | .en, .rho => s.u1 * (g.R * (-s.e + 2 * s.k) - s.e * g.cv) / g.cv
    | .en, .m1 => s.e + g.R * (s.T - s.u1 * s.u1 / g.cv)
    | .en, .en => s.u1 * g.gamma
    | _, _ => 0
  | 1 =>
    match v, w with
    | .m2, .m3 => at' 3 d (-s.u3 * g.R / g.cv)
    | .m3, .rho => at' 3 d (-s.u2 * s.u3)
    | .m3, .m2 => at' 3 d s.u3
    | .m3, .m3 => at' 3 d s.u2
    | .en, .m3 => at' 3 d (-s.u2 * s.u3 * g.R / g.cv)
    | .rho, .m2 => at' 2 d 1
    | .m1, .rho => at' 2 d (-s.u1 * s.u2)
    | .m1, .m1 => at' 2 d s.u2
    | .m1, .m2 => at' 2 d s.u1
    | .m2, .rho => at' 2 d (-s.u2 * s.u2 + g.R * s.k / g.cv)
    | .m2, .m1 => at' 2 d (-s.u1 * g.R / g.cv)
    | .m2, .m2 => at' 2 d (s.u2 * (2 - g.R / g.cv))
    | .m2, .en => at' 2 d (g.R / g.cv)
    | .en, .rho => at' 2 d (s.u2 * (g.R * (-s.e + 2 * s.k) - s.e * g.cv) / g.cv)
    | .en, .m1 => at' 2 d (-s.u1 * s.u2 * g.R / g.cv)
    | .en, .m2 => at' 2 d (s.e + g.R * (s.T - s.u2 * s.u2 / g.cv))
    | .en, .en => at' 2 d (s.u2 * g.gamma)
    | _, _ => 0
  | _ =>
    match v, w with
    | .rho, .m3 => 1
    | .m1, .rho => -s.u1 * s.u3
    | .m1, .m1 => s.u3
    | .m1, .m3 => s.u1
    | .m2, .rho => -s.u2 * s.u3
    | .m2, .m2 => s.u3
    | .m2, .m3 => s.u2
    | .m3, .rho => -s.u3 * s.u3 + g.R * s.k / g.cv
    | .m3, .m1 => -s.u1 * g.R / g.cv
    | .m3, .m2 => -s.u2 * g.R / g.cv
    | .m3, .m3 => s.u3 * (2 - g.R / g.cv)
    | .m3, .en => g.R / g.cv
    | .en, .rho => s.u3 * (g.R * (-s.e + 2 * s.k) - s.e * g.cv) / g.cv
    | .en, .m1 => -s.u1 * s.u3 * g.R / g.cv
    | .en, .m2 => -s.u2 * s.u3 * g.R / g.cv
    | .en, .m3 => s.e + g.R * (s.T - s.u3 * s.u3 / g.cv)
    | .en, .en => s.u3 * g.gamma
    | _, _ => 0

/-- `calculate_advection_flux_jacobian_sensitivity_for_primitive_variable` (fluid_elem_base.cpp:1006-1278); `q` is the primitive variable. -/
noncomputable def fluxJacSens (d cd : Nat) (q : Var) (g : Gas) (s : Prim) : Matrix Var Var ℝ := fun v w =>
  match cd, q with
  | 0, .m1 =>
    match v, w with
    | .m3, .rho => at' 3 d (-s.u3)
    | .m3, .m3 => at' 3 d 1
    | .en, .m3 => at' 3 d (-s.u3 * g.R / g.cv)
    | .m2, .rho => at' 2 d (-s.u2)
    | .m2, .m2 => at' 2 d 1
    | .en, .m2 => at' 2 d (-s.u2 * g.R / g.cv)
    | .m1, .rho => -s.u1 * (2 - g.R / g.cv)
    | .m1, .m1 => 2 - g.R / g.cv
    | .en, .rho => (-s.e * (g.cv + g.R) + 2 * g.R * s.k + s.u1 * s.u1 * (-g.cv + g.R)) / g.cv
    | .en, .m1 => s.u1 * (1 - 2 * g.R / g.cv)
    | .en, .en => (g.cv + g.R) / g.cv
    | _, _ => 0
  | 0, .m2 =>
    match v, w with
    | .m1, .rho => s.u2 * g.R / g.cv
    | .m1, .m2 => -g.R / g.cv
    | .m2, .rho => -s.u1
    | .m2, .m1 => 1
    | .en, .rho => (-g.cv + g.R) * s.u1 * s.u2 / g.cv
    | .en, .m1 => s.u2
    | .en, .m2 => -s.u1 * g.R / g.cv
    | _, _ => 0
  | 0, .m3 =>
    match v, w with
    | .m1, .rho => s.u3 * g.R / g.cv
    | .m1, .m3 => -g.R / g.cv
    | .m3, .rho => -s.u1
    | .m3, .m1 => 1
    | .en, .rho => (-g.cv + g.R) * s.u1 * s.u3 / g.cv
    | .en, .m1 => s.u3
    | .en, .m3 => -s.u1 * g.R / g.cv
    | _, _ => 0
  | 0, .en =>
    match v, w with
    | .en, .rho => -s.u1 * (g.cv + g.R)
    | .en, .m1 => g.cv + g.R
    | _, _ => 0
  | 1, .m1 =>
    match v, w with
    | .m1, .rho => -s.u2
    | .m1, .m2 => 1
    | .m2, .rho => s.u1 * g.R / g.cv
    | .m2, .m1 => -g.R / g.cv
    | .en, .rho => (-g.cv + g.R) * s.u1 * s.u2 / g.cv
    | .en, .m1 => -s.u2 * g.R / g.cv
    | .en, .m2 => s.u1
    | _, _ => 0
  | 1, .m2 =>
    match v, w with
    | .m3, .rho => at' 3 d (-s.u3)
    | .m3, .m3 => at' 3 d 1
    | .en, .m3 => at' 3 d (-s.u3 * g.R / g.cv)
    | .m1, .rho => -s.u1
    | .m1, .m1 => 1
    | .m2, .rho => -s.u2 * (2 - g.R / g.cv)
    | .m2, .m2 => 2 - g.R / g.cv
    | .en, .rho => (-s.e * (g.cv + g.R) + 2 * g.R * s.k + s.u2 * s.u2 * (-g.cv + g.R)) / g.cv
    | .en, .m1 => -s.u1 * g.R / g.cv
    | .en, .m2 => s.u2 * (1 - 2 * g.R / g.cv)
    | .en, .en => (g.cv + g.R) / g.cv
    | _, _ => 0
  | 1, .m3 =>
    match v, w with
    | .m2, .rho => s.u3 * g.R / g.cv
    | .m2, .m3 => -g.R / g.cv
    | .m3, .rho => -s.u2
    | .m3, .m2 => 1
    | .en, .rho => (-g.cv + g.R) * s.u2 * s.u3 / g.cv
    | .en, .m2 => s.u3
    | .en, .m3 => -s.u2 * g.R / g.cv
    | _, _ => 0
  | 1, .en =>
    match v, w with
    | .en, .rho => -s.u2 * (g.cv + g.R)
    | .en, .m2 => g.cv + g.R
    | _, _ => 0
  | 2, .m1 =>
    match v, w with
    | .m1, .rho => -s.u3
    | .m1, .m3 => 1
    | .m3, .rho => s.u1 * g.R / g.cv
    | .m3, .m1 => -g.R / g.cv
    | .en, .rho => (-g.cv + g.R) * s.u1 * s.u3 / g.cv
    | .en, .m1 => -s.u3 * g.R / g.cv
    | .en, .m3 => s.u1
    | _, _ => 0
  | 2, .m2 =>
    match v, w with
    | .m2, .rho => -s.u3
    | .m2, .m3 => 1
    | .m3, .rho => s.u2 * g.R / g.cv
    | .m3, .m2 => -g.R / g.cv
    | .en, .rho => (-g.cv + g.R) * s.u2 * s.u3 / g.cv
    | .en, .m2 => -s.u3 * g.R / g.cv
    | .en, .m3 => s.u2
    | _, _ => 0
  | 2, .m3 =>
    match v, w with
    | .m1, .rho => -s.u1
    | .m1, .m1 => 1
    | .m2, .rho => -s.u2
    | .m2, .m2 => 1
    | .m3, .rho => -s.u3 * (2 - g.R / g.cv)
    | .m3, .m3 => 2 - g.R / g.cv
    | .en, .rho => (-s.e * (g.cv + g.R) + 2 * g.R * s.k + s.u3 * s.u3 * (-g.cv + g.R)) / g.cv
    | .en, .m1 => -s.u1 * g.R / g.cv
    | .en, .m2 => -s.u2 * g.R / g.cv
    | .en, .m3 => s.u3 * (1 - 2 * g.R / g.cv)
    | .en, .en => (g.cv + g.R) / g.cv
    | _, _ => 0
  | 2, .en =>
    match v, w with
    | .en, .rho => -s.u3 * (g.cv + g.R)
    | .en, .m3 => g.cv + g.R
    | _, _ => 0
  | _, _ => 0

/-- `calculate_advection_flux_jacobian_sensitivity_for_conservative_variable` (fluid_elem_base.cpp:973-1002): `jac[c]`. -/
noncomputable def fluxJacSensCons (d cd : Nat) (c : Var) (g : Gas) (s : Prim) : Matrix Var Var ℝ := fun v w =>
  ∑ q ∈ Finset.univ.filter (fun q => act d q), if 0 < |dprimDcons d g s q c| then dprimDcons d g s q c * fluxJacSens d cd q g s v w else 0

/-- `calculate_pressure_derivative_wrt_conservative_variables` (fluid_elem_base.cpp:1542-1575). -/
noncomputable def dpdX (d : Nat) (g : Gas) (s : Prim) : Var → ℝ
  | .rho => g.R / g.cv * s.k
  | .m1 => -g.R / g.cv * s.u1
  | .m2 => at' 2 d (-g.R / g.cv * s.u2)
  | .m3 => at' 3 d (-g.R / g.cv * s.u3)
  | .en => g.R / g.cv

/-- `calculate_advection_flux_jacobian_for_moving_solid_wall_boundary`, first part (fluid_elem_base.cpp:1617-1659). -/
noncomputable def wallJac0 (d : Nat) (g : Gas) (s : Prim) (un : ℝ) (n : Fin 3 → ℝ) : Matrix Var Var ℝ := fun v w =>
  match v, w with
  | .m1, .m3 => at' 3 d (-g.R / g.cv * n 0 * s.u3)
  | .m2, .m3 => at' 3 d (-g.R / g.cv * n 1 * s.u3)
  | .m3, .rho => at' 3 d (n 2 * g.R / g.cv * s.k)
  | .m3, .m1 => at' 3 d (-g.R / g.cv * n 2 * s.u1)
  | .m3, .m2 => at' 3 d (-g.R / g.cv * n 2 * s.u2)
  | .m3, .m3 => at' 3 d (un - g.R / g.cv * n 2 * s.u3)
  | .m3, .en => at' 3 d (g.R / g.cv * n 2)
  | .en, .m3 => at' 3 d (-un * g.R / g.cv * s.u3)
  | .m1, .m2 => at' 2 d (-g.R / g.cv * n 0 * s.u2)
  | .m2, .rho => at' 2 d (n 1 * g.R / g.cv * s.k)
  | .m2, .m1 => at' 2 d (-g.R / g.cv * n 1 * s.u1)
  | .m2, .m2 => at' 2 d (un - g.R / g.cv * n 1 * s.u2)
  | .m2, .en => at' 2 d (g.R / g.cv * n 1)
  | .en, .m2 => at' 2 d (-un * g.R / g.cv * s.u2)
  | .rho, .rho => un
  | .m1, .rho => n 0 * g.R / g.cv * s.k
  | .m1, .m1 => un - g.R / g.cv * n 0 * s.u1
  | .m1, .en => g.R / g.cv * n 0
  | .en, .rho => un * g.R / g.cv * s.k
  | .en, .m1 => -un * g.R / g.cv * s.u1
  | .en, .en => un * (1 + g.R / g.cv)
  | _, _ => 0

/-- `tmp` (fluid_elem_base.cpp:1692-1717). -/
noncomputable def wallTmp (d : Nat) (s : Prim) : Var → ℝ
  | .rho => 1
  | .m1 => s.u1
  | .m2 => at' 2 d s.u2
  | .m3 => at' 3 d s.u3
  | .en => s.e + s.p / s.rho

/-- `duini_dU` (fluid_elem_base.cpp:1694-1717). -/
def wallDun (d : Nat) (s : Prim) (dn : Fin 3 → ℝ) : Var → ℝ
  | .rho => -(s.u1 * dn 0) - at' 2 d (s.u2 * dn 1) - at' 3 d (s.u3 * dn 2)
  | .m1 => dn 0
  | .m2 => at' 2 d (dn 1)
  | .m3 => at' 3 d (dn 2)
  | .en => 0

/-- `calculate_advection_flux_jacobian_for_moving_solid_wall_boundary` (fluid_elem_base.cpp:1580-1725); the test `dnormal.norm() > 0` only skips a zero update. -/
noncomputable def wallJac (d : Nat) (g : Gas) (s : Prim) (un : ℝ) (n dn : Fin 3 → ℝ) : Matrix Var Var ℝ := fun v w =>
  wallJac0 d g s un n v w - wallTmp d s v * wallDun d s dn w

/-- `dUdV` of `calculate_entropy_variable_jacobian` (fluid_elem_base.cpp:1757-1811). -/
noncomputable def dUdV (d : Nat) (g : Gas) (s : Prim) : Matrix Var Var ℝ := fun v w =>
  (match v, w with
  | .rho, .m3 => at' 3 d s.u3
  | .m1, .m3 => at' 3 d (s.u1 * s.u3)
  | .m2, .m3 => at' 3 d (s.u2 * s.u3)
  | .m3, .rho => at' 3 d s.u3
  | .m3, .m1 => at' 3 d (s.u1 * s.u3)
  | .m3, .m2 => at' 3 d (s.u2 * s.u3)
  | .m3, .m3 => at' 3 d (s.u3 * s.u3 + g.cv * s.T * (g.gamma - 1))
  | .m3, .en => at' 3 d (s.u3 * (g.cv * s.T * g.gamma + s.k))
  | .en, .m3 => at' 3 d (s.u3 * (g.cv * s.T * g.gamma + s.k))
  | .rho, .m2 => at' 2 d s.u2
  | .m1, .m2 => at' 2 d (s.u1 * s.u2)
  | .m2, .rho => at' 2 d s.u2
  | .m2, .m1 => at' 2 d (s.u1 * s.u2)
  | .m2, .m2 => at' 2 d (s.u2 * s.u2 + g.cv * s.T * (g.gamma - 1))
  | .m2, .en => at' 2 d (s.u2 * (g.cv * s.T * g.gamma + s.k))
  | .en, .m2 => at' 2 d (s.u2 * (g.cv * s.T * g.gamma + s.k))
  | .rho, .rho => 1
  | .rho, .m1 => s.u1
  | .rho, .en => s.e
  | .m1, .rho => s.u1
  | .m1, .m1 => s.u1 * s.u1 + g.cv * s.T * (g.gamma - 1)
  | .m1, .en => s.u1 * (g.cv * s.T * g.gamma + s.k)
  | .en, .rho => s.e
  | .en, .m1 => s.u1 * (g.cv * s.T * g.gamma + s.k)
  | .en, .en => s.k * s.k + g.gamma * g.cv * s.T * (g.cv * s.T + 2 * s.k)) * (s.rho / (g.gamma - 1))

/-- `dVdU` of `calculate_entropy_variable_jacobian` (fluid_elem_base.cpp:1815-1868). -/
noncomputable def dVdU (d : Nat) (g : Gas) (s : Prim) : Matrix Var Var ℝ := fun v w =>
  (match v, w with
  | .rho, .m3 => at' 3 d (-s.u3 * s.k)
  | .m1, .m3 => at' 3 d (s.u1 * s.u3)
  | .m2, .m3 => at' 3 d (s.u2 * s.u3)
  | .m3, .rho => at' 3 d (-s.u3 * s.k)
  | .m3, .m1 => at' 3 d (s.u1 * s.u3)
  | .m3, .m2 => at' 3 d (s.u2 * s.u3)
  | .m3, .m3 => at' 3 d (s.u3 * s.u3 + g.cv * s.T)
  | .m3, .en => at' 3 d (-s.u3)
  | .en, .m3 => at' 3 d (-s.u3)
  | .rho, .m2 => at' 2 d (-s.u2 * s.k)
  | .m1, .m2 => at' 2 d (s.u1 * s.u2)
  | .m2, .rho => at' 2 d (-s.u2 * s.k)
  | .m2, .m1 => at' 2 d (s.u1 * s.u2)
  | .m2, .m2 => at' 2 d (s.u2 * s.u2 + g.cv * s.T)
  | .m2, .en => at' 2 d (-s.u2)
  | .en, .m2 => at' 2 d (-s.u2)
  | .rho, .rho => s.k * s.k + g.cv * g.cv * s.T * s.T * g.gamma
  | .rho, .m1 => -s.u1 * s.k
  | .rho, .en => -s.e + 2 * s.k
  | .m1, .rho => -s.u1 * s.k
  | .m1, .m1 => s.u1 * s.u1 + g.cv * s.T
  | .m1, .en => -s.u1
  | .en, .rho => -s.e + 2 * s.k
  | .en, .m1 => -s.u1
  | .en, .en => 1) / (s.rho * g.cv * g.cv * s.T * s.T)

/-- Columns of the eigenvector matrices: `0`, `1`, `2` (as many as dimensions), `n1-2`, `n1-1` (fluid_elem_base.cpp:1339-1351). -/
inductive Wave | c1 | c2 | c3 | minus | plus
  deriving DecidableEq

/-- The five columns. -/
instance : Fintype Wave := ⟨{.c1, .c2, .c3, .minus, .plus}, by intro x; cases x <;> decide⟩

/-- Columns present in dimension `d`. -/
def actW (d : Nat) : Wave → Bool
  | .c2 => decide (2 ≤ d)
  | .c3 => decide (3 ≤ d)
  | _ => true

/-- `nx`, `ny`, `nz` (fluid_elem_base.cpp:1309-1328). -/
def nrm (d : Nat) (n : Fin 3 → ℝ) : Fin 3 → ℝ
  | 0 => n 0
  | 1 => at' 2 d (n 1)
  | 2 => at' 3 d (n 2)

/-- `u`, the velocity along the normal (fluid_elem_base.cpp:1309-1328). -/
def eigU (d : Nat) (s : Prim) (n : Fin 3 → ℝ) : ℝ := at' 3 d (s.u3 * n 2) + at' 2 d (s.u2 * n 1) + s.u1 * n 0

/-- `dim_for_eig_vec - 1` (fluid_elem_base.cpp:1331-1336): the direction of the largest component of the normal. -/
noncomputable def eigDim (d : Nat) (n : Fin 3 → ℝ) : Fin 3 :=
  let N := nrm d n
  if |N 1| ≤ |N 0| ∧ |N 2| ≤ |N 0| then 0 else if |N 0| ≤ |N 1| ∧ |N 2| ≤ |N 1| then 1 else 2

/-- `eig_vals` (fluid_elem_base.cpp:1339-1351). -/
def eigVals (d : Nat) (s : Prim) (n : Fin 3 → ℝ) : Wave → ℝ
  | .c1 => eigU d s n
  | .c2 => at' 2 d (eigU d s n)
  | .c3 => at' 3 d (eigU d s n)
  | .minus => eigU d s n - s.a
  | .plus => eigU d s n + s.a

/-- `l_eig_mat` column `n1-2` (fluid_elem_base.cpp:1360, 1392, 1419-1421). -/
noncomputable def leftMinus (d : Nat) (g : Gas) (s : Prim) (n : Fin 3 → ℝ) : Var → ℝ
  | .rho => s.k + eigU d s n * s.a / (g.gamma - 1)
  | .m1 => -s.u1 - nrm d n 0 * s.a / (g.gamma - 1)
  | .m2 => at' 2 d (-s.u2 - nrm d n 1 * s.a / (g.gamma - 1))
  | .m3 => at' 3 d (-s.u3 - nrm d n 2 * s.a / (g.gamma - 1))
  | .en => 1

/-- `l_eig_mat` column `n1-1` (fluid_elem_base.cpp:1363, 1395, 1424-1426). -/
noncomputable def leftPlus (d : Nat) (g : Gas) (s : Prim) (n : Fin 3 → ℝ) : Var → ℝ
  | .rho => s.k - eigU d s n * s.a / (g.gamma - 1)
  | .m1 => -s.u1 + nrm d n 0 * s.a / (g.gamma - 1)
  | .m2 => at' 2 d (-s.u2 + nrm d n 1 * s.a / (g.gamma - 1))
  | .m3 => at' 3 d (-s.u3 + nrm d n 2 * s.a / (g.gamma - 1))
  | .en => 1

/-- `switch (dim_for_eig_vec)` (fluid_elem_base.cpp:1453-1537). -/
def sel (m : Fin 3) (x0 x1 x2 : ℝ) : ℝ := if m = 0 then x0 else if m = 1 then x1 else x2

/-- `l_eig_mat` column `0` for `dim_for_eig_vec = 1, 2, 3` (fluid_elem_base.cpp:1479-1481, 1504-1506, 1522-1524). -/
noncomputable def leftC1 (d : Nat) (g : Gas) (s : Prim) (n : Fin 3 → ℝ) : Var → ℝ
  | .rho => sel (eigDim d n) (eigU d s n * s.u1 / nrm d n 0 - (g.cv * s.T * g.gamma + s.k)) (nrm d n 0 * s.u2 / nrm d n 1 - s.u1) (nrm d n 0 * s.u3 / nrm d n 2 - s.u1)
  | .m1 => sel (eigDim d n) (-eigU d s n / nrm d n 0) 1 1
  | .m2 => sel (eigDim d n) 0 (-nrm d n 0 / nrm d n 1) 0
  | .m3 => sel (eigDim d n) 0 0 (-nrm d n 0 / nrm d n 2)
  | .en => sel (eigDim d n) 1 0 0

/-- `l_eig_mat` column `1` for `dim_for_eig_vec = 1, 2, 3` (fluid_elem_base.cpp:1471-1473, 1509-1511, 1527-1529). -/
noncomputable def leftC2 (d : Nat) (g : Gas) (s : Prim) (n : Fin 3 → ℝ) : Var → ℝ
  | .rho => sel (eigDim d n) (at' 2 d (nrm d n 1 * s.u1 / nrm d n 0 - s.u2)) (eigU d s n * s.u2 / nrm d n 1 - (g.cv * s.T * g.gamma + s.k)) (nrm d n 1 * s.u3 / nrm d n 2 - s.u2)
  | .m1 => sel (eigDim d n) (at' 2 d (-nrm d n 1 / nrm d n 0)) 0 0
  | .m2 => sel (eigDim d n) (at' 2 d 1) (-eigU d s n / nrm d n 1) 1
  | .m3 => sel (eigDim d n) 0 0 (-nrm d n 1 / nrm d n 2)
  | .en => sel (eigDim d n) 0 1 0

/-- `l_eig_mat` column `2` for `dim_for_eig_vec = 1, 2, 3` (fluid_elem_base.cpp:1463-1465, 1495-1497, 1532-1534). -/
noncomputable def leftC3 (d : Nat) (g : Gas) (s : Prim) (n : Fin 3 → ℝ) : Var → ℝ
  | .rho => sel (eigDim d n) (at' 3 d (nrm d n 2 * s.u1 / nrm d n 0 - s.u3)) (at' 3 d (nrm d n 2 * s.u2 / nrm d n 1 - s.u3)) (eigU d s n * s.u3 / nrm d n 2 - (g.cv * s.T * g.gamma + s.k))
  | .m1 => sel (eigDim d n) (at' 3 d (-nrm d n 2 / nrm d n 0)) 0 0
  | .m2 => sel (eigDim d n) 0 (at' 3 d (-nrm d n 2 / nrm d n 1)) 0
  | .m3 => sel (eigDim d n) (at' 3 d 1) (at' 3 d 1) (-eigU d s n / nrm d n 2)
  | .en => sel (eigDim d n) 0 0 1

/-- `l_eig_mat` (fluid_elem_base.cpp:1360-1364, 1392-1395, 1419-1426, 1453-1537). -/
noncomputable def leftEig (d : Nat) (g : Gas) (s : Prim) (n : Fin 3 → ℝ) (v : Var) : Wave → ℝ
  | .minus => leftMinus d g s n v
  | .plus => leftPlus d g s n v
  | .c1 => leftC1 d g s n v
  | .c2 => leftC2 d g s n v
  | .c3 => leftC3 d g s n v

/-- Column replaced by `dim_for_eig_vec` (fluid_elem_base.cpp:1379, 1407, 1434-1437). -/
noncomputable def rightEntropy (d : Nat) (g : Gas) (s : Prim) : Var → ℝ
  | .rho => 1 * (-1 / (g.cv * s.T * g.gamma))
  | .m1 => s.u1 * (-1 / (g.cv * s.T * g.gamma))
  | .m2 => at' 2 d (s.u2 * (-1 / (g.cv * s.T * g.gamma)))
  | .m3 => at' 3 d (s.u3 * (-1 / (g.cv * s.T * g.gamma)))
  | .en => s.k * (-1 / (g.cv * s.T * g.gamma))

/-- `l_eig_mat_inv_tr` column `n1-2` (fluid_elem_base.cpp:1382, 1410, 1440-1442). -/
noncomputable def rightMinus (d : Nat) (g : Gas) (s : Prim) (n : Fin 3 → ℝ) : Var → ℝ
  | .rho => 1 / (2 * g.cv * s.T * g.gamma)
  | .m1 => 1 / 2 * (g.gamma - 1) * (-nrm d n 0 + s.u1 / s.a) / s.a
  | .m2 => at' 2 d (1 / 2 * (g.gamma - 1) * (-nrm d n 1 + s.u2 / s.a) / s.a)
  | .m3 => at' 3 d (1 / 2 * (g.gamma - 1) * (-nrm d n 2 + s.u3 / s.a) / s.a)
  | .en => 1 / 2 * (1 + (g.gamma - 1) * (-eigU d s n + s.k / s.a) / s.a)

/-- `l_eig_mat_inv_tr` column `n1-1` (fluid_elem_base.cpp:1385, 1413, 1445-1447). -/
noncomputable def rightPlus (d : Nat) (g : Gas) (s : Prim) (n : Fin 3 → ℝ) : Var → ℝ
  | .rho => 1 / (2 * g.cv * s.T * g.gamma)
  | .m1 => 1 / 2 * (g.gamma - 1) * (nrm d n 0 + s.u1 / s.a) / s.a
  | .m2 => at' 2 d (1 / 2 * (g.gamma - 1) * (nrm d n 1 + s.u2 / s.a) / s.a)
  | .m3 => at' 3 d (1 / 2 * (g.gamma - 1) * (nrm d n 2 + s.u3 / s.a) / s.a)
  | .en => 1 / 2 * (1 + (g.gamma - 1) * (eigU d s n + s.k / s.a) / s.a)

/-- `l_eig_mat_inv_tr` column `0` before replacement (fluid_elem_base.cpp:1366, 1398, 1429-1431). -/
noncomputable def rightC1 (d : Nat) (g : Gas) (s : Prim) (n : Fin 3 → ℝ) : Var → ℝ
  | .rho => (g.gamma - 1) * s.u1 / (s.a * s.a)
  | .m1 => (g.gamma - 1) * s.u1 * s.u1 / (s.a * s.a) + 1 - nrm d n 0 * nrm d n 0
  | .m2 => at' 2 d ((g.gamma - 1) * s.u1 * s.u2 / (s.a * s.a) - nrm d n 0 * nrm d n 1)
  | .m3 => at' 3 d ((g.gamma - 1) * s.u1 * s.u3 / (s.a * s.a) - nrm d n 0 * nrm d n 2)
  | .en => (g.gamma - 1) * s.k * s.u1 / (s.a * s.a) + s.u1 - nrm d n 0 * eigU d s n

/-- `l_eig_mat_inv_tr` column `1` before replacement (fluid_elem_base.cpp:1369, 1401-1404). -/
noncomputable def rightC2 (d : Nat) (g : Gas) (s : Prim) (n : Fin 3 → ℝ) : Var → ℝ
  | .rho => at' 2 d ((g.gamma - 1) * s.u2 / (s.a * s.a))
  | .m1 => at' 2 d ((g.gamma - 1) * s.u2 * s.u1 / (s.a * s.a) - nrm d n 1 * nrm d n 0)
  | .m2 => at' 2 d ((g.gamma - 1) * s.u2 * s.u2 / (s.a * s.a) + 1 - nrm d n 1 * nrm d n 1)
  | .m3 => at' 3 d ((g.gamma - 1) * s.u2 * s.u3 / (s.a * s.a) - nrm d n 1 * nrm d n 2)
  | .en => at' 2 d ((g.gamma - 1) * s.k * s.u2 / (s.a * s.a) + s.u2 - nrm d n 1 * eigU d s n)

/-- `l_eig_mat_inv_tr` column `2` before replacement (fluid_elem_base.cpp:1372-1376). -/
noncomputable def rightC3 (d : Nat) (g : Gas) (s : Prim) (n : Fin 3 → ℝ) : Var → ℝ
  | .rho => at' 3 d ((g.gamma - 1) * s.u3 / (s.a * s.a))
  | .m1 => at' 3 d ((g.gamma - 1) * s.u3 * s.u1 / (s.a * s.a) - nrm d n 2 * nrm d n 0)
  | .m2 => at' 3 d ((g.gamma - 1) * s.u3 * s.u2 / (s.a * s.a) - nrm d n 2 * nrm d n 1)
  | .m3 => at' 3 d ((g.gamma - 1) * s.u3 * s.u3 / (s.a * s.a) + 1 - nrm d n 2 * nrm d n 2)
  | .en => at' 3 d ((g.gamma - 1) * s.k * s.u3 / (s.a * s.a) + s.u3 - nrm d n 2 * eigU d s n)

/-- `l_eig_mat_inv_tr` (fluid_elem_base.cpp:1366-1386, 1398-1413, 1429-1448). -/
noncomputable def rightEig (d : Nat) (g : Gas) (s : Prim) (n : Fin 3 → ℝ) (v : Var) : Wave → ℝ
  | .minus => rightMinus d g s n v
  | .plus => rightPlus d g s n v
  | .c1 => if eigDim d n = 0 then rightEntropy d g s v else rightC1 d g s n v
  | .c2 => if eigDim d n = 1 then rightEntropy d g s v else rightC2 d g s n v
  | .c3 => if eigDim d n = 2 then rightEntropy d g s v else rightC3 d g s n v

end Verif.Fluid
