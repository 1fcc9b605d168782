import Verif.Model.FluidOps
import Verif.Model.FreqFluid
/-
  Side loads and element operations of the frequency domain flow analysis: src/fluid/frequency_domain_linearized_conservative_fluid_elem.cpp 225-467, src/fluid/frequency_domain_linearized_complex_assembly.cpp.
-/
namespace Verif.FreqOps

open Verif.Fluid Complex

/-- One boundary condition of one side: the entries of `loads`, flattened over the sides (frequency_domain_linearized_conservative_fluid_elem.cpp:253-266).  `qs`: the quadrature points of the side with the steady
motion and the amplitudes of the motion of the condition. -/
structure FLoad where
  type : FluidOps.Bc
  qs : List FreqWallQp

/-- The points of a side without wall motion. -/
def FLoad.pts (L : FLoad) : List SideQp := L.qs.map (·.toSideQp)

/-- Complex matrix of an element: two pairs of variable and node. -/
abbrev CMat := Var → Nat → Var → Nat → ℂ

/-- One pass through the switch of `side_external_residual` (frequency_domain_linearized_conservative_fluid_elem.cpp:269-337): residual.  `f_jac_x` and `local_f` are zeroed before each use; there is no case for the
no slip wall. -/
noncomputable def loadRes (c : Ctx) (sol : Field) (fr : Freq) (x : CField) (f : CField) (L : FLoad) : Exec CField :=
  match L.type with
  | .symmetry => .ok fun v a => f v a + freqSide c (symJac c L.pts sol v a) fr x
  | .slip => .ok fun v a => f v a + freqSlipRes c L.qs sol fr x v a
  | .far => .ok fun v a => f v a + freqSide c (farJac c L.pts sol v a) fr x
  | .dirichlet => .ok f
  | .noslip => .error .error
  | .other => .error .error

/-- The same for the Jacobian (frequency_domain_linearized_conservative_fluid_elem.cpp:287-288, 297-301, 322-323). -/
noncomputable def loadJac (c : Ctx) (sol : Field) (fr : Freq) (J : CMat) (L : FLoad) : Exec CMat :=
  match L.type with
  | .symmetry => .ok fun v a u b => J v a u b + (symJac c L.pts sol v a u b : ℂ) * fr.factor
  | .slip => .ok fun v a u b => J v a u b + freqSlipJac c L.qs sol fr v a u b
  | .far => .ok fun v a u b => J v a u b + (farJac c L.pts sol v a u b : ℂ) * fr.factor
  | .dirichlet => .ok J
  | .noslip => .error .error
  | .other => .error .error

/-- One pass through the switch of `side_external_residual_sensitivity` (frequency_domain_linearized_conservative_fluid_elem.cpp:394-462); `dω` is `freq->derivative`, `dx` is `_complex_sol_sens`, which the slip
wall does not look at (703-896). -/
noncomputable def loadSens (c : Ctx) (sol : Field) (fr : Freq) (dω : ℝ) (dx : CField) (f : CField) (L : FLoad) : Exec CField :=
  match L.type with
  | .symmetry => .ok fun v a => f v a + freqSide c (symJac c L.pts sol v a) fr dx
  | .slip => .ok fun v a => f v a + freqSlipSens c L.qs sol dω v a
  | .far => .ok fun v a => f v a + freqSide c (farJac c L.pts sol v a) fr dx
  | .dirichlet => .ok f
  | .noslip => .error .error
  | .other => .error .error

/-- `vec` of `elem_calculations` (frequency_domain_linearized_complex_assembly.cpp:69-86, frequency_domain_linearized_conservative_fluid_elem.cpp:225-343). -/
noncomputable def elemRes (c : Ctx) (T : Tau) (dc : Shock) (qs : List Qp) (loads : List FLoad) (sol : Field) (fr : Freq) (x : CField) : Exec CField :=
  loads.foldlM (m := Exec) (loadRes c sol fr x) fun v a => 0 + freqRes c T dc qs sol fr x v a

/-- `mat` of `elem_calculations` with `if_jac` (frequency_domain_linearized_complex_assembly.cpp:69-86, frequency_domain_linearized_conservative_fluid_elem.cpp:124-128). -/
noncomputable def elemJac (c : Ctx) (T : Tau) (dc : Shock) (qs : List Qp) (loads : List FLoad) (sol : Field) (fr : Freq) : Exec CMat :=
  loads.foldlM (m := Exec) (loadJac c sol fr) fun v a u b => 0 + freqMat c T dc qs sol fr.factor fr.value v a u b

/-- `vec` of `elem_sensitivity_calculations` (frequency_domain_linearized_complex_assembly.cpp:90-107). -/
noncomputable def elemSens (c : Ctx) (T : Tau) (dc : Shock) (qs : List Qp) (loads : List FLoad) (sol : Field) (fr : Freq) (dω : ℝ) (x dx : CField) : Exec CField :=
  loads.foldlM (m := Exec) (loadSens c sol fr dω dx) fun v a => 0 + freqSens c T dc qs sol fr dω x dx v a

/-- The sensitivity of the assembly: the derivative of the complex solution is zero (complex_assembly_base.cpp:540-547). -/
noncomputable def asmSens (c : Ctx) (T : Tau) (dc : Shock) (qs : List Qp) (loads : List FLoad) (sol : Field) (fr : Freq) (dω : ℝ) (x : CField) : Exec CField :=
  elemSens c T dc qs loads sol fr dω x fun _ _ => 0

end Verif.FreqOps
