import Verif.Model.FluidElem
import Mathlib.Algebra.Order.BigOperators.Group.List
/-
  Shock capturing of the flow element: src/fluid/fluid_elem_base.cpp 2093-2170, 2238-2365.
-/
namespace Verif.Fluid

open Finset in
section

/-- Data of the operator: `dxi_dX`, `dX_dxi` of `calculate_dxidX` (fluid_elem_base.cpp:2093-2170), the order of the shape functions (2362), `_dissipation_scaling` and `_include_pressure_switch` (42-45). -/
structure ShockData where
  dxi : Qp → Nat → Nat → ℝ
  dX : Qp → Nat → Nat → ℝ
  order : Nat
  scale : ℝ
  switch : Bool

/-- `vec1.dot(A_inv_entropy * vec1)` (fluid_elem_base.cpp:2280-2281, 2295-2296). -/
noncomputable def entropyForm (c : Ctx) (q : Qp) (sol : Field) (x : Var → ℝ) : ℝ := ∑ v, x v * ∑ w, dVdU c.d c.gas (stateAt c q.phi sol) v w * x w

/-- `val1` (fluid_elem_base.cpp:2287-2297). -/
noncomputable def shockScale (c : Ctx) (S : ShockData) (q : Qp) (sol : Field) : ℝ :=
  1 / 1000000 + ∑ i ∈ range c.d, entropyForm c q sol fun v => ∑ j ∈ range c.d, S.dxi q i j * interp c (q.dphi j) sol v

/-- `dpress_dp` (fluid_elem_base.cpp:2346-2347). -/
noncomputable def dpressDp (s : Prim) (cp cv : ℝ) : Var → ℝ
  | .rho => (cp - cv) * s.T
  | .en => (cp - cv) * s.rho
  | _ => 0

/-- `dp(i)` (fluid_elem_base.cpp:2349-2351). -/
noncomputable def pressGrad (c : Ctx) (q : Qp) (sol : Field) (i : Nat) : ℝ :=
  ∑ v, (∑ w, dprimDcons c.d c.gas (stateAt c q.phi sol) v w * interp c (q.dphi i) sol w) * dpressDp (stateAt c q.phi sol) c.cp c.cv v

/-- `hk` (fluid_elem_base.cpp:2344, 2352-2353). -/
noncomputable def cellSize (d : Nat) (m : Nat → Nat → ℝ) : ℝ := (List.range d).foldl (fun h i => (List.range d).foldl (fun h j => max h |m i j|) h) 0

/-- `p_sensor` (fluid_elem_base.cpp:2355). -/
noncomputable def pressSensor (c : Ctx) (S : ShockData) (q : Qp) (sol : Field) : ℝ :=
  Real.sqrt (∑ i ∈ range c.d, pressGrad c q sol i ^ 2) * cellSize c.d (S.dX q) / (stateAt c q.phi sol).p

/-- `discontinuity_val` of `calculate_aliabadi_discontinuity_operator` (fluid_elem_base.cpp:2238-2365): the same for all directions; the order divides as an unsigned number. -/
noncomputable def aliabadi (c : Ctx) (S : ShockData) : Shock := fun q sol _ =>
  let dval := Real.sqrt (entropyForm c q sol (strong c q sol) / shockScale c S q sol)
  let dval := if S.switch then dval * (pressSensor c S q sol * S.scale) else dval
  dval * S.scale / S.order

/-- The coefficients in `internal_residual`: zero unless `enable_shock_capturing` (conservative_fluid_element_base.cpp:86, 170-177). -/
noncomputable def shockCoef (enable : Bool) (c : Ctx) (S : ShockData) : Shock := fun q sol i => if enable then aliabadi c S q sol i else 0

end
end Verif.Fluid
