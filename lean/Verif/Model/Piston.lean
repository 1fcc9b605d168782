import Mathlib.Data.Real.Sqrt

/-!
Model of the piston theory pressure (`/repo/src/elasticity/piston_theory_boundary_condition.cpp`) and of the pressure coefficient of the structural element
(`/repo/src/elasticity/structural_element_base.cpp:1709-1767`).  Reals instead of doubles; `sqrt` of a negative number is outside the theorems.
-/

namespace Verif.Piston

/-- Values of the six field functions at a point (piston_theory_boundary_condition.cpp:63-69). -/
structure Flow where
  V : ℝ
  M : ℝ
  rho : ℝ
  gamma : ℝ
  dwdx : ℝ
  dwdt : ℝ

/-- `Mf = (M*M-2)/(M*M-1)` (piston_theory_boundary_condition.cpp:73, 108). -/
noncomputable def mf (s : Flow) : ℝ := (s.M * s.M - 2) / (s.M * s.M - 1)

/-- `v0` (piston_theory_boundary_condition.cpp:73, 111). -/
noncomputable def v0 (s : Flow) : ℝ := s.dwdx + mf s * s.dwdt / s.V

/-- `v1` (74, 112). -/
noncomputable def v1 (s : Flow) : ℝ := s.V * s.V * s.dwdx + mf s * s.V * s.dwdt

/-- `v2` (75, 113). -/
noncomputable def v2 (s : Flow) : ℝ := (s.V * s.dwdx + mf s * s.dwdt) ^ 2

/-- `v3` (76, 114). -/
noncomputable def v3 (s : Flow) : ℝ := v0 s * v2 s

/-- Fall-through `switch (_order)` (79-85): the third order term is added for order 3, the second order term for 2 and 3; no case for any other order. -/
noncomputable def byOrder (order : Nat) (linear second third : ℝ) : ℝ :=
  match order with
  | 3 => linear + third + second
  | 2 => linear + second
  | _ => linear

/-- `PistonTheoryPressure::operator()` (58-88). -/
noncomputable def pressure (order : Nat) (s : Flow) : ℝ :=
  byOrder order (v1 s) ((s.gamma + 1) / 4 * s.M * v2 s) ((s.gamma + 1) / 12 * s.M * s.M * v3 s) * (s.rho / Real.sqrt (s.M * s.M - 1))

/-- `dMf` (109, 275, 436). -/
noncomputable def dmf (s d : Flow) : ℝ := 2 * s.M * d.M / (s.M * s.M - 1) - (s.M * s.M - 2) / (s.M * s.M - 1) ^ 2 * 2 * s.M * d.M

/-- `f1` (136, 231, 385). -/
noncomputable def f1 (s : Flow) : ℝ := s.rho / Real.sqrt (s.M * s.M - 1)

/-- `df1drho + df1dM` (137-138, 302-303, 463-464); `pow(x, 1.5)` is `sqrt(x)^3`. -/
noncomputable def df1 (s d : Flow) : ℝ := d.rho / Real.sqrt (s.M * s.M - 1) + (-1 / 2) * s.rho / Real.sqrt (s.M * s.M - 1) ^ 3 * 2 * s.M * d.M

/-- `dv1dV + dv1dM + v1dw + v1dwt` (117, 122, 127, 132); `d` holds the derivatives of the six functions. -/
noncomputable def dv1 (s d : Flow) : ℝ := (2 * s.V * s.dwdx + mf s * s.dwdt) * d.V + dmf s d * s.V * s.dwdt + s.V * s.V * d.dwdx + mf s * s.V * d.dwdt

/-- `dv0dV + dv0dM + v0dw + v0dwt` (116, 121, 126, 131). -/
noncomputable def dv0 (s d : Flow) : ℝ := -mf s * s.dwdt / (s.V * s.V) * d.V + dmf s d * s.dwdt / s.V + d.dwdx + mf s / s.V * d.dwdt

/-- `dv2dV + dv2dM + v2dw + v2dwt` (118, 123, 128, 133). -/
noncomputable def dv2 (s d : Flow) : ℝ :=
  2 * (s.V * s.dwdx + mf s * s.dwdt) * s.dwdx * d.V + 2 * (s.V * s.dwdx + mf s * s.dwdt) * dmf s d * s.dwdt + 2 * (s.V * s.dwdx + mf s * s.dwdt) * s.V * d.dwdx +
    2 * (s.V * s.dwdx + mf s * s.dwdt) * mf s * d.dwdt

/-- `dv3dV + dv3dM + v3dw + v3dwt` (119, 124, 129, 134): product rule. -/
noncomputable def dv3 (s d : Flow) : ℝ := dv0 s d * v2 s + v0 s * dv2 s d

/-- `PistonTheoryPressure::derivative` (93-167). -/
noncomputable def pressureSens (order : Nat) (s d : Flow) : ℝ :=
  byOrder order (f1 s * dv1 s d + df1 s d * v1 s)
    (df1 s d * s.M * v2 s * (s.gamma + 1) / 4 + f1 s * (d.M * v2 s + s.M * dv2 s d) * (s.gamma + 1) / 4 + f1 s * s.M * v2 s / 4 * d.gamma)
    (df1 s d * s.M * s.M * v3 s * (s.gamma + 1) / 12 + f1 s * s.M * (2 * d.M * v3 s + s.M * dv3 s d) * (s.gamma + 1) / 12 + f1 s * s.M * s.M * v3 s / 12 * d.gamma)

/-- `v2dw` (228, 282). -/
noncomputable def v2dw (s : Flow) : ℝ := 2 * (s.V * s.dwdx + mf s * s.dwdt) * s.V

/-- `v3dw` with `v0dw = 1` (226, 229, 280, 283). -/
noncomputable def v3dw (s : Flow) : ℝ := v0 s * v2dw s + 1 * v2 s

/-- `PistonTheoryPressureXDerivative::operator()` (206-254). -/
noncomputable def pressureX (order : Nat) (s : Flow) : ℝ :=
  byOrder order (f1 s * (s.V * s.V)) (f1 s * s.M * v2dw s * (s.gamma + 1) / 4) (f1 s * s.M * s.M * v3dw s * (s.gamma + 1) / 12)

/-- `dv0dV + dv0dM` of the derivative of the x-derivative (285, 288): the derivatives of `dwdx`, `dwdt` are not asked for. -/
noncomputable def dv0f (s d : Flow) : ℝ := -mf s * s.dwdt / (s.V * s.V) * d.V + dmf s d * s.dwdt / s.V

/-- `dv2dV + dv2dM` (286, 289). -/
noncomputable def dv2f (s d : Flow) : ℝ := 2 * (s.V * s.dwdx + mf s * s.dwdt) * s.dwdx * d.V + 2 * (s.V * s.dwdx + mf s * s.dwdt) * dmf s d * s.dwdt

/-- `v2dwdV + v2dwdM` (293, 298). -/
noncomputable def v2dwf (s d : Flow) : ℝ := 2 * (2 * s.V * d.V * s.dwdx + mf s * d.V * s.dwdt) + 2 * dmf s d * s.dwdt * s.V

/-- `v3dwdV + v3dwdM` with `v0dwdV = v0dwdM = 0` (291, 294, 296, 299). -/
noncomputable def v3dwf (s d : Flow) : ℝ := dv0f s d * v2dw s + v0 s * v2dwf s d + 0 * v2 s + 1 * dv2f s d

/-- `PistonTheoryPressureXDerivative::derivative` (259-332). -/
noncomputable def pressureXSens (order : Nat) (s d : Flow) : ℝ :=
  byOrder order (f1 s * (2 * s.V * d.V + 0) + df1 s d * (s.V * s.V))
    (df1 s d * s.M * v2dw s * (s.gamma + 1) / 4 + f1 s * (d.M * v2dw s + s.M * v2dwf s d) * (s.gamma + 1) / 4 + f1 s * s.M * v2dw s / 4 * d.gamma)
    (df1 s d * s.M * s.M * v3dw s * (s.gamma + 1) / 12 + f1 s * s.M * (2 * d.M * v3dw s + s.M * v3dwf s d) * (s.gamma + 1) / 12 + f1 s * s.M * s.M * v3dw s / 12 * d.gamma)

/-- `v2dwt` (392, 449). -/
noncomputable def v2dwt (s : Flow) : ℝ := 2 * (s.V * s.dwdx + mf s * s.dwdt) * mf s

/-- `v3dwt` with `v0dwt = Mf/V` (390, 393, 447, 450). -/
noncomputable def v3dwt (s : Flow) : ℝ := mf s / s.V * v2 s + v0 s * v2dwt s

/-- `PistonTheoryPressureXdotDerivative::operator()` (369-415). -/
noncomputable def pressureXdot (order : Nat) (s : Flow) : ℝ :=
  byOrder order (f1 s * (mf s * s.V)) (f1 s * s.M * v2dwt s * (s.gamma + 1) / 4) (f1 s * s.M * s.M * v3dwt s * (s.gamma + 1) / 12)

/-- `v2dwtdV + v2dwtdM` (454, 459). -/
noncomputable def v2dwtf (s d : Flow) : ℝ := 2 * d.V * s.dwdx * mf s + 2 * (s.V * dmf s d * s.dwdx + 2 * mf s * dmf s d * s.dwdt)

/-- `v3dwtdV + v3dwtdM` (455, 460) with `v0dwtdV + v0dwtdM` (452, 457). -/
noncomputable def v3dwtf (s d : Flow) : ℝ :=
  (-mf s / (s.V * s.V) * d.V + dmf s d / s.V) * v2 s + mf s / s.V * dv2f s d + dv0f s d * v2dwt s + v0 s * v2dwtf s d

/-- `PistonTheoryPressureXdotDerivative::derivative` (420-493). -/
noncomputable def pressureXdotSens (order : Nat) (s d : Flow) : ℝ :=
  byOrder order (f1 s * (mf s * d.V + dmf s d * s.V) + df1 s d * (mf s * s.V))
    (df1 s d * s.M * v2dwt s * (s.gamma + 1) / 4 + f1 s * (d.M * v2dwt s + s.M * v2dwtf s d) * (s.gamma + 1) / 4 + f1 s * s.M * v2dwt s / 4 * d.gamma)
    (df1 s d * s.M * s.M * v3dwt s * (s.gamma + 1) / 12 + f1 s * s.M * (2 * d.M * v3dwt s + s.M * v3dwtf s d) * (s.gamma + 1) / 12 + f1 s * s.M * s.M * v3dwt s / 12 * d.gamma)

/-- `piston_theory_cp` (structural_element_base.cpp:1710-1736); `none` is the error for other orders. -/
noncomputable def cp (order : Nat) (U gamma M : ℝ) : Option ℝ :=
  match order with
  | 3 => some (((gamma + 1) / 12 * M * M * U ^ 3 + (gamma + 1) / 4 * M * U ^ 2 + U) * (2 / Real.sqrt (M * M - 1)))
  | 2 => some (((gamma + 1) / 4 * M * U ^ 2 + U) * (2 / Real.sqrt (M * M - 1)))
  | 1 => some (U * (2 / Real.sqrt (M * M - 1)))
  | _ => none

/-- `piston_theory_dcp_dv` (structural_element_base.cpp:1741-1767). -/
noncomputable def dcp (order : Nat) (U gamma M : ℝ) : Option ℝ :=
  match order with
  | 3 => some (((gamma + 1) / 4 * M * M * U ^ 2 + (gamma + 1) / 2 * M * U + 1) * (2 / Real.sqrt (M * M - 1)))
  | 2 => some (((gamma + 1) / 2 * M * U + 1) * (2 / Real.sqrt (M * M - 1)))
  | 1 => some (1 * (2 / Real.sqrt (M * M - 1)))
  | _ => none

end Verif.Piston
