import Mathlib.Analysis.SpecialFunctions.Pow.Real
import Mathlib.Analysis.SpecialFunctions.Log.Basic
import Mathlib.Analysis.Real.Sqrt
import Mathlib.Data.Matrix.Mul
/-
  Stress output data and its aggregates: `elasticity/stress_output_base.{h,cpp}`, `elasticity/ks_stress_output.cpp`,
  `elasticity/smooth_ramp_stress_output.cpp`.
  Simplifications common to the file: `Real` is ℝ; the map `element id → vector<Data*>` of one process is the list (in key order) of the vectors, and the communicator
  is the list of the processes' maps (`comm().sum` is the sum over processes; with `_skip_comm_sum` the list has one member).
  All elements carry stress derivatives with respect to the same number `n` of element dofs.
  The weight exponent `_p_norm_weight` is a natural number (its default is 1; for a non-integer value the C++ `pow` of a negative base is NaN).
-/
namespace Verif.Stress
open Matrix

/-- A stress vector in the order used by `Data`: xx, yy, zz, and the three shear components (stress_output_base.cpp:183-195). -/
abbrev Vec6 := Fin 6 → ℝ

/-- `StressStrainOutputBase::Data` (stress_output_base.cpp:28-178): the stress, the sensitivities registered per parameter (`_stress_sensitivity`, find → `none` when absent),
the matrix `_dstress_dX`, and the quadrature weight.  The strain members are not modelled. -/
structure Data (F : Type) (n : Nat) where
  stress : Vec6
  sens : F → Option Vec6
  dX : Matrix (Fin 6) (Fin n) ℝ
  JxW : ℝ

/-- The argument `p` of the square root (stress_output_base.cpp:189-194, repeated at 207-213 and 250-256). -/
noncomputable def vmArg (s : Vec6) : ℝ :=
  (1 / 2) * ((s 0 - s 1) ^ 2 + (s 1 - s 2) ^ 2 + (s 2 - s 0) ^ 2) + 3 * (s 3 ^ 2 + s 4 ^ 2 + s 5 ^ 2)

/-- `Data::von_Mises_stress` (stress_output_base.cpp:183-195); `pow(·, 0.5)`. -/
noncomputable def vonMises (s : Vec6) : ℝ := vmArg s ^ (1 / 2 : ℝ)

/-- The expression at stress_output_base.cpp:261-268: derivative for one stress derivative vector (`0` at `p = 0`). -/
noncomputable def dVonMises (s ds : Vec6) : ℝ :=
  if 0 < |vmArg s| then
    (((ds 0 - ds 1) * (s 0 - s 1) + (ds 1 - ds 2) * (s 1 - s 2) + (ds 2 - ds 0) * (s 2 - s 0)) +
      6 * (ds 3 * s 3 + ds 4 * s 4 + ds 5 * s 5)) * (1 / 2) * vmArg s ^ (-1 / 2 : ℝ)
  else 0

/-- `Data::dvon_Mises_stress_dp` (stress_output_base.cpp:237-271). -/
noncomputable def dVonMisesDp {F : Type} {n : Nat} (d : Data F n) (f : F) : ℝ :=
  match d.sens f with
  | none => 0
  | some ds => dVonMises d.stress ds

/-- `Data::dvon_Mises_stress_dX` (stress_output_base.cpp:200-230): the same expression on the rows of `_dstress_dX`. -/
noncomputable def dVonMisesDX {F : Type} {n : Nat} (d : Data F n) : Fin n → ℝ := fun j =>
  if 0 < |vmArg d.stress| then
    (((d.dX 0 j - d.dX 1 j) * (d.stress 0 - d.stress 1) + (d.dX 1 j - d.dX 2 j) * (d.stress 1 - d.stress 2) +
       (d.dX 2 j - d.dX 0 j) * (d.stress 2 - d.stress 0)) +
      6 * (d.dX 3 j * d.stress 3 + d.dX 4 j * d.stress 4 + d.dX 5 j * d.stress 5)) * (1 / 2) * vmArg d.stress ^ (-1 / 2 : ℝ)
  else 0

/-- One process' map of stress data. -/
abbrev ElemMap (F : Type) (n : Nat) := List (List (Data F n))
/-- The maps of all processes. -/
abbrev World (F : Type) (n : Nat) := List (ElemMap F n)

/-- The accumulation loops over the map and the vector (e.g. stress_output_base.cpp:875-897) followed by `comm().sum` (901-905). -/
noncomputable def sumAll {F : Type} {n : Nat} (w : World F n) (g : Data F n → ℝ) : ℝ :=
  (w.map fun m => (m.map fun v => (v.map g).sum).sum).sum

/-- `get_maximum_von_mises_stress` (stress_output_base.cpp:716-742): a running maximum from 0 on each process, then `comm().max`. -/
noncomputable def maxVonMises {F : Type} {n : Nat} (w : World F n) : ℝ :=
  let loc (m : ElemMap F n) : ℝ :=
    m.foldl (fun mx v => v.foldl (fun mx d => if vonMises d.stress > mx then vonMises d.stress else mx) mx) 0
  w.foldl (fun mx m => max mx (loc m)) 0

/-- `set_aggregation_coefficients` (stress_output_base.h:246-252) and `_exp_arg_lim`. -/
structure Coeffs where
  p : ℝ
  q : ℕ
  rho : ℝ
  sigma0 : ℝ
  lim : ℝ

/-- The exponential weight with its cap (stress_output_base.cpp:889-893). -/
noncomputable def weight (c : Coeffs) (e : ℝ) : ℝ :=
  let sp := ((e - c.sigma0) / c.sigma0) ^ c.q
  if c.rho * sp > c.lim then Real.exp c.lim else Real.exp (c.rho * sp)

/-- `_sigma_vm_int` (stress_output_base.cpp:894). -/
noncomputable def pnormInt {F : Type} {n : Nat} (c : Coeffs) (w : World F n) : ℝ :=
  sumAll w fun d => (vonMises d.stress / c.sigma0) ^ c.p * weight c (vonMises d.stress) * d.JxW

/-- `_JxW_val` (stress_output_base.cpp:895). -/
noncomputable def pnormJ {F : Type} {n : Nat} (c : Coeffs) (w : World F n) : ℝ :=
  sumAll w fun d => weight c (vonMises d.stress) * d.JxW

/-- `functional_for_all_elems` (stress_output_base.cpp:852-909): `_sigma_vm_p_norm`. -/
noncomputable def pnormValue {F : Type} {n : Nat} (c : Coeffs) (w : World F n) : ℝ :=
  c.sigma0 * (pnormInt c w / pnormJ c w) ^ (1 / c.p)

/-- The contribution of one point to `num_sens` (stress_output_base.cpp:1022-1037) for a von Mises derivative `de`. -/
noncomputable def pnormNum1 (c : Coeffs) (e de J : ℝ) : ℝ :=
  let spStress := (e / c.sigma0) ^ c.p
  let sp1Stress := (e / c.sigma0) ^ (c.p - 1)
  let spWeight := ((e - c.sigma0) / c.sigma0) ^ c.q
  let sp1Weight := ((e - c.sigma0) / c.sigma0) ^ (c.q - 1)
  if c.rho * spWeight > c.lim then c.p * sp1Stress * Real.exp c.lim * de / c.sigma0 * J
  else de / c.sigma0 * J * Real.exp (c.rho * spWeight) * (c.p * sp1Stress + spStress * c.rho * c.q * sp1Weight)

/-- The contribution of one point to `denom_sens` (stress_output_base.cpp:1022-1037). -/
noncomputable def pnormDen1 (c : Coeffs) (e de J : ℝ) : ℝ :=
  let spWeight := ((e - c.sigma0) / c.sigma0) ^ c.q
  let sp1Weight := ((e - c.sigma0) / c.sigma0) ^ (c.q - 1)
  if c.rho * spWeight > c.lim then 0
  else Real.exp (c.rho * spWeight) * c.rho * c.q * sp1Weight * de / c.sigma0 * J

/-- Line 1041-1042 (and 1097-1098): the combination of the accumulated sums.  `none` when the base of the negative power is zero:
the C++ then evaluates `inf * 0` or `inf * x` (NaN/inf).  `pow(0, 0) = 1` for `p = 1`. -/
noncomputable def pnormCombine (c : Coeffs) (int J num den : ℝ) : Option ℝ :=
  if int / J = 0 ∧ 1 / c.p - 1 < 0 then none
  else some (c.sigma0 / c.p * (int / J) ^ (1 / c.p - 1) * (num / J - int / J ^ 2 * den))

/-- `functional_sensitivity_for_elem` (stress_output_base.cpp:979-1043) for the vector of one element and the stored primal sums. -/
noncomputable def pnormSensElem {F : Type} {n : Nat} (c : Coeffs) (int J : ℝ) (f : F) (v : List (Data F n)) : Option ℝ :=
  pnormCombine c int J
    (v.map fun d => pnormNum1 c (vonMises d.stress) (dVonMisesDp d f) d.JxW).sum
    (v.map fun d => pnormDen1 c (vonMises d.stress) (dVonMisesDp d f) d.JxW).sum

/-- Sum with NaN propagation. -/
noncomputable def optSum : List (Option ℝ) → Option ℝ
  | [] => some 0
  | none :: _ => none
  | some x :: l => (optSum l).map (x + ·)

/-- `functional_sensitivity_for_all_elems` (stress_output_base.cpp:914-941), using the sums stored by `functional_for_all_elems`. -/
noncomputable def pnormSens {F : Type} {n : Nat} (c : Coeffs) (f : F) (w : World F n) : Option ℝ :=
  optSum (w.map fun m => optSum (m.map fun v => pnormSensElem c (pnormInt c w) (pnormJ c w) f v))

/-- `functional_boundary_sensitivity_for_elem` (stress_output_base.cpp:1050-1099); here `JxW` of the boundary data is the weight times normal velocity. -/
noncomputable def pnormBndElem {F : Type} {n : Nat} (c : Coeffs) (int J : ℝ) (v : List (Data F n)) : Option ℝ :=
  pnormCombine c int J
    (v.map fun d => (vonMises d.stress / c.sigma0) ^ c.p * weight c (vonMises d.stress) * d.JxW).sum
    (v.map fun d => weight c (vonMises d.stress) * d.JxW).sum

/-- `functional_boundary_sensitivity_for_all_elems` (stress_output_base.cpp:947-974): `b` is the map of boundary data, `w` the interior data. -/
noncomputable def pnormBnd {F : Type} {n : Nat} (c : Coeffs) (w b : World F n) : Option ℝ :=
  optSum (b.map fun m => optSum (m.map fun v => pnormBndElem c (pnormInt c w) (pnormJ c w) v))

/-- `functional_state_derivartive_for_elem` (stress_output_base.cpp:1105-1172): the vector over the element dofs, in its own formulation
(lines 1154-1167: the factor order differs from the parameter sensitivity). -/
noncomputable def pnormDXElem {F : Type} {n : Nat} (c : Coeffs) (int J : ℝ) (v : List (Data F n)) : Option (Fin n → ℝ) :=
  let capped (d : Data F n) : Prop := c.rho * ((vonMises d.stress - c.sigma0) / c.sigma0) ^ c.q > c.lim
  let den : Fin n → ℝ := (v.map fun d => open Classical in
    if capped d then (0 : ℝ) • dVonMisesDX d
    else (Real.exp (c.rho * ((vonMises d.stress - c.sigma0) / c.sigma0) ^ c.q) * c.rho * c.q *
      ((vonMises d.stress - c.sigma0) / c.sigma0) ^ (c.q - 1) / c.sigma0 * d.JxW) • dVonMisesDX d).sum
  let num : Fin n → ℝ := (v.map fun d => open Classical in
    if capped d then (1 * c.p * (vonMises d.stress / c.sigma0) ^ (c.p - 1) * Real.exp c.lim / c.sigma0 * d.JxW) • dVonMisesDX d
    else (1 / c.sigma0 * d.JxW * Real.exp (c.rho * ((vonMises d.stress - c.sigma0) / c.sigma0) ^ c.q) *
      (c.p * (vonMises d.stress / c.sigma0) ^ (c.p - 1) +
        (vonMises d.stress / c.sigma0) ^ c.p * c.rho * c.q * ((vonMises d.stress - c.sigma0) / c.sigma0) ^ (c.q - 1))) • dVonMisesDX d).sum
  if int / J = 0 ∧ 1 / c.p - 1 < 0 then none
  else some ((c.sigma0 / c.p * (int / J) ^ (1 / c.p - 1)) • ((1 / J) • num - (int / J ^ 2) • den))

/-! ### KS aggregate -/

/-- `_sigma_vm_int` of the KS output (ks_stress_output.cpp:88). -/
noncomputable def ksInt {F : Type} {n : Nat} (c : Coeffs) (w : World F n) : ℝ :=
  sumAll w fun d => Real.exp (c.p * (vonMises d.stress - c.sigma0) / c.sigma0) * d.JxW

/-- `_JxW_val` of the KS and smooth ramp outputs (ks_stress_output.cpp:89, smooth_ramp_stress_output.cpp:91). -/
noncomputable def sumJ {F : Type} {n : Nat} (w : World F n) : ℝ := sumAll w fun d => d.JxW

/-- `KSStressStrainOutput::functional_for_all_elems` (ks_stress_output.cpp:53-103). -/
noncomputable def ksValue {F : Type} {n : Nat} (c : Coeffs) (w : World F n) : ℝ := 1 / c.p * Real.log (ksInt c w / sumJ w)

/-- `KSStressStrainOutput::functional_sensitivity_for_elem` (ks_stress_output.cpp:109-148). -/
noncomputable def ksSensElem {F : Type} {n : Nat} (c : Coeffs) (int J : ℝ) (f : F) (v : List (Data F n)) : ℝ :=
  1 / c.p / (int / J) * (v.map fun d => c.p * dVonMisesDp d f / c.sigma0 *
    Real.exp (c.p * (vonMises d.stress - c.sigma0) / c.sigma0) * d.JxW).sum / J

/-- The inherited `functional_sensitivity_for_all_elems` (stress_output_base.cpp:914-941) with the KS element function. -/
noncomputable def ksSens {F : Type} {n : Nat} (c : Coeffs) (f : F) (w : World F n) : ℝ :=
  (w.map fun m => (m.map fun v => ksSensElem c (ksInt c w) (sumJ w) f v).sum).sum

/-- `KSStressStrainOutput::functional_boundary_sensitivity_for_elem` (ks_stress_output.cpp:155-195). -/
noncomputable def ksBndElem {F : Type} {n : Nat} (c : Coeffs) (int J : ℝ) (v : List (Data F n)) : ℝ :=
  1 / c.p / (int / J) * ((v.map fun d => Real.exp (c.p * (vonMises d.stress - c.sigma0) / c.sigma0) * d.JxW).sum / J -
    int / J ^ 2 * (v.map fun d => d.JxW).sum)

/-- `functional_boundary_sensitivity_for_all_elems` (stress_output_base.cpp:947-974) with the KS element function. -/
noncomputable def ksBnd {F : Type} {n : Nat} (c : Coeffs) (w b : World F n) : ℝ :=
  (b.map fun m => (m.map fun v => ksBndElem c (ksInt c w) (sumJ w) v).sum).sum

/-- `KSStressStrainOutput::functional_state_derivartive_for_elem` (ks_stress_output.cpp:201-242). -/
noncomputable def ksDXElem {F : Type} {n : Nat} (c : Coeffs) (int J : ℝ) (v : List (Data F n)) : Fin n → ℝ :=
  (1 / c.p / (int / J) / J) • (v.map fun d => (c.p / c.sigma0 *
    Real.exp (c.p * (vonMises d.stress - c.sigma0) / c.sigma0) * d.JxW) • dVonMisesDX d).sum

/-! ### Smooth ramp aggregate -/

/-- `_sigma_vm_int` of the smooth ramp (smooth_ramp_stress_output.cpp:90). -/
noncomputable def rampInt {F : Type} {n : Nat} (c : Coeffs) (w : World F n) : ℝ :=
  sumAll w fun d => (1 + (vonMises d.stress / c.sigma0) ^ c.p) ^ (1 / c.p) * d.JxW

/-- `SmoothRampStressStrainOutput::functional_for_all_elems` (smooth_ramp_stress_output.cpp:55-105). -/
noncomputable def rampValue {F : Type} {n : Nat} (c : Coeffs) (w : World F n) : ℝ := rampInt c w - sumJ w

/-- `SmoothRampStressStrainOutput::functional_sensitivity_for_elem` (smooth_ramp_stress_output.cpp:111-149). -/
noncomputable def rampSensElem {F : Type} {n : Nat} (c : Coeffs) (f : F) (v : List (Data F n)) : ℝ :=
  (v.map fun d => (1 + (vonMises d.stress / c.sigma0) ^ c.p) ^ (1 / c.p - 1) *
    (vonMises d.stress / c.sigma0) ^ (c.p - 1) * dVonMisesDp d f / c.sigma0 * d.JxW).sum

/-- `functional_sensitivity_for_all_elems` (stress_output_base.cpp:914-941) with the ramp element function. -/
noncomputable def rampSens {F : Type} {n : Nat} (c : Coeffs) (f : F) (w : World F n) : ℝ :=
  (w.map fun m => (m.map fun v => rampSensElem c f v).sum).sum

/-- `SmoothRampStressStrainOutput::functional_boundary_sensitivity_for_elem` (smooth_ramp_stress_output.cpp:156-191), summed as at
stress_output_base.cpp:947-974. -/
noncomputable def rampBnd {F : Type} {n : Nat} (c : Coeffs) (b : World F n) : ℝ :=
  (b.map fun m => (m.map fun v => (v.map fun d =>
    ((1 + (vonMises d.stress / c.sigma0) ^ c.p) ^ (1 / c.p) - 1) * d.JxW).sum).sum).sum

/-- `SmoothRampStressStrainOutput::functional_state_derivartive_for_elem` (smooth_ramp_stress_output.cpp:197-237). -/
noncomputable def rampDXElem {F : Type} {n : Nat} (c : Coeffs) (v : List (Data F n)) : Fin n → ℝ :=
  (v.map fun d => ((1 + (vonMises d.stress / c.sigma0) ^ c.p) ^ (1 / c.p - 1) *
    (vonMises d.stress / c.sigma0) ^ (c.p - 1) / c.sigma0 * d.JxW) • dVonMisesDX d).sum

end Verif.Stress
