import Mathlib.Analysis.SpecialFunctions.Trigonometric.Arctan
import Mathlib.Analysis.SpecialFunctions.Sqrt
/-
  Level set element, its outputs, the boundary velocity and the homogenized density: src/level_set/level_set_elem_base.cpp, level_set_volume_output.cpp, level_set_perimeter_output.cpp, level_set_boundary_velocity.cpp, heaviside_elem_homogenization_function.cpp, intersected_elem_homogenization_function.cpp, homogenized_density_function_base.cpp.
  Reals stand for double; the operators `Bmat`, `dBmat[k]` of one variable (level_set_elem_base.cpp:763-794) are the rows `N` and `dN k`.
-/
namespace Verif.LevelSetElem
open Classical

variable {n d : Nat} {X : Type}

/-- What the finite element object provides at a quadrature point: `JxW`, `phi`, `dphi`, the matrix `dxi_dX` (level_set_elem_base.cpp:689-759), `xyz`. -/
structure Qp (n d : Nat) (X : Type) where
  JxW : ℝ
  N : Fin n → ℝ
  dN : Fin d → Fin n → ℝ
  dxi : Fin d → Fin d → ℝ
  x : X

/-- `Bmat.right_multiply(v, _sol)` (level_set_elem_base.cpp:338 and others). -/
def val (q : Qp n d X) (u : Fin n → ℝ) : ℝ := ∑ i, q.N i * u i
/-- `dBmat[k].right_multiply(v, _sol)` (level_set_elem_base.cpp:563-567 and others). -/
def grad (q : Qp n d X) (u : Fin n → ℝ) (k : Fin d) : ℝ := ∑ i, q.dN k i * u i
/-- `RealVectorX::norm`. -/
noncomputable def len (v : Fin d → ℝ) : ℝ := Real.sqrt (∑ k, v k ^ 2)

/-- `_if_propagation` with `_phi_vel`, or the reference solution `_ref_sol`. -/
inductive Mode (n : Nat) (X : Type) where
  | propagate (Vn : X → ℝ)
  | reinit (ref : Fin n → ℝ)

/-- `tol` (level_set_elem_base.cpp:586, 614), also the constant of 671. -/
noncomputable def tol : ℝ := 1 / 10 ^ 6

/-- `source` (level_set_elem_base.cpp:577, 590). -/
noncomputable def source (m : Mode n X) (q : Qp n d X) (u : Fin n → ℝ) : ℝ :=
  match m with
  | .propagate _ => 0
  | .reinit ref => val q ref / Real.sqrt (val q ref ^ 2 + tol * len (grad q u) ^ 2)

/-- `vel` (level_set_elem_base.cpp:576, 592-595). -/
noncomputable def vel (m : Mode n X) (q : Qp n d X) (u : Fin n → ℝ) (k : Fin d) : ℝ :=
  match m with
  | .propagate Vn => grad q u k * (-(Vn q.x) / len (grad q u))
  | .reinit _ => if len (grad q u) > tol then grad q u k * source m q u / len (grad q u) else 0

/-- Quotients 0/0 in `_velocity_and_source` (level_set_elem_base.cpp:576, 590): the code goes on with NaN. -/
def undefined (m : Mode n X) (q : Qp n d X) (u : Fin n → ℝ) : Prop :=
  match m with
  | .propagate _ => grad q u = 0
  | .reinit ref => grad q u = 0 ∧ val q ref = 0

/-- `mat2_n1n2` (level_set_elem_base.cpp:111-118, 204-209). -/
def adv (q : Qp n d X) (v : Fin d → ℝ) (i : Fin n) : ℝ := ∑ k, q.dN k i * v k

/-- `_tau` (level_set_elem_base.cpp:600-637). -/
noncomputable def tau (q : Qp n d X) (v : Fin d → ℝ) : ℝ := if len v > tol then 1 / ∑ i, |∑ k, q.dN k i * v k| else 0

/-- `_dc_operator` (level_set_elem_base.cpp:642-685). -/
noncomputable def dc (q : Qp n d X) (u : Fin n → ℝ) (v : Fin d → ℝ) : ℝ :=
  1 / 2 * |∑ k, v k * grad q u k| / Real.sqrt (tol + ∑ i, (∑ j, q.dxi i j * grad q u j) ^ 2)

/-- `flux` (level_set_elem_base.cpp:110-121). -/
noncomputable def flux (m : Mode n X) (q : Qp n d X) (u : Fin n → ℝ) : ℝ := (∑ k, vel m q u k * grad q u k) - source m q u

/-- Contribution of one point to `f` (level_set_elem_base.cpp:102-132). -/
noncomputable def res (m : Mode n X) (q : Qp n d X) (u : Fin n → ℝ) (i : Fin n) : ℝ :=
  q.JxW * (q.N i * flux m q u) + q.JxW * (adv q (vel m q u) i * tau q (vel m q u) * flux m q u)
  + ∑ k, q.JxW * dc q u (vel m q u) * (q.dN k i * grad q u k)

/-- Contribution of one point to `jac` (level_set_elem_base.cpp:135-148). -/
noncomputable def jac (m : Mode n X) (q : Qp n d X) (u : Fin n → ℝ) (i j : Fin n) : ℝ :=
  (∑ k, (q.JxW * vel m q u k * (q.N i * q.dN k j) + q.JxW * dc q u (vel m q u) * (q.dN k i * q.dN k j)))
  + q.JxW * (adv q (vel m q u) i * tau q (vel m q u) * adv q (vel m q u) j)

/-- `internal_residual` (level_set_elem_base.cpp:63-152): `none` when a point gives NaN. -/
noncomputable def internalResidual (m : Mode n X) (e : List (Qp n d X)) (u : Fin n → ℝ) : Option ((Fin n → ℝ) × (Fin n → Fin n → ℝ)) :=
  if ∃ q ∈ e, undefined m q u then none
  else some (fun i => (e.map fun q => res m q u i).sum, fun i j => (e.map fun q => jac m q u i j).sum)

/-- `velocity_residual` (level_set_elem_base.cpp:158-229); `w` is `_vel`.  Result `f`, `jac_xdot`; `jac` is not touched. -/
noncomputable def velocityResidual (m : Mode n X) (e : List (Qp n d X)) (u w : Fin n → ℝ) : Option ((Fin n → ℝ) × (Fin n → Fin n → ℝ)) :=
  if ∃ q ∈ e, undefined m q u then none
  else some (fun i => (e.map fun q => q.JxW * (q.N i * val q w) + q.JxW * (adv q (vel m q u) i * tau q (vel m q u) * val q w)).sum,
    fun i j => (e.map fun q => q.JxW * (q.N i * q.N j) + q.JxW * (adv q (vel m q u) i * tau q (vel m q u) * q.N j)).sum)

/-! ### Integrals of the level set -/

/-- `volume` (level_set_elem_base.cpp:314-343). -/
noncomputable def volume (e : List (Qp n d X)) (u : Fin n → ℝ) : ℝ := (e.map fun q => if val q u > 0 then q.JxW else 0).sum
/-- `vol` (level_set_elem_base.cpp:373). -/
def total (e : List (Qp n d X)) : ℝ := (e.map fun q => q.JxW).sum
/-- `homogenized_volume_fraction` (level_set_elem_base.cpp:346-378). -/
noncomputable def fraction (w : ℝ) (e : List (Qp n d X)) (u : Fin n → ℝ) : ℝ :=
  (e.map fun q => 1 / 2 * (1 + 2 / Real.pi * Real.arctan (val q u / w)) * q.JxW).sum / total e
/-- `homogenized_volume_fraction_sensitivity` (level_set_elem_base.cpp:382-416); `v` is `_sol_sens`. -/
noncomputable def fractionSens (w : ℝ) (e : List (Qp n d X)) (u v : Fin n → ℝ) : ℝ :=
  (e.map fun q => 1 / Real.pi / w / (1 + (val q u / w) ^ 2) * val q v * q.JxW).sum / total e
/-- `perimeter` (level_set_elem_base.cpp:420-450). -/
noncomputable def perimeter (w : ℝ) (e : List (Qp n d X)) (u : Fin n → ℝ) : ℝ := (e.map fun q => 1 / Real.pi / w / (1 + (val q u / w) ^ 2) * q.JxW).sum
/-- `perimeter_sensitivity` (level_set_elem_base.cpp:453-485). -/
noncomputable def perimeterSens (w : ℝ) (e : List (Qp n d X)) (u v : Fin n → ℝ) : ℝ :=
  -(e.map fun q => 2 * val q u / Real.pi / w ^ 3 / (1 + (val q u / w) ^ 2) ^ 2 * val q v * q.JxW).sum
/-- `volume_boundary_velocity_on_side` (level_set_elem_base.cpp:490-542); `s` are the points of the side. -/
noncomputable def volumeBoundaryVelocity (s : List (Qp n d X)) (u v : Fin n → ℝ) : ℝ := (s.map fun q => val q v / len (grad q u) * q.JxW).sum

/-- One element as seen by the outputs: part of the output's domain; side of the (sub-)element on the level set, if there is one. -/
structure OutElem (n d : Nat) (X : Type) where
  qps : List (Qp n d X)
  side : Option (List (Qp n d X))
  evaluate : Bool
  u : Fin n → ℝ
  v : Fin n → ℝ

/-- `LevelSetVolume::evaluate` over all elements (level_set_volume_output.cpp:150-162). -/
noncomputable def volumeTotal (es : List (OutElem n d X)) : ℝ := (es.map fun e => if e.evaluate then volume e.qps e.u else 0).sum
/-- `LevelSetVolume::evaluate_topology_sensitivity` over all elements (level_set_volume_output.cpp:182-208). -/
noncomputable def volumeSensTotal (es : List (OutElem n d X)) : ℝ :=
  (es.map fun e => if e.evaluate then (match e.side with | some s => volumeBoundaryVelocity s e.u e.v | none => 0) else 0).sum
/-- `LevelSetPerimeter::evaluate` over all elements (level_set_perimeter_output.cpp:152-164). -/
noncomputable def perimeterTotal (w : ℝ) (es : List (OutElem n d X)) : ℝ := (es.map fun e => if e.evaluate then perimeter w e.qps e.u else 0).sum
/-- `LevelSetPerimeter::evaluate_topology_sensitivity` over all elements (level_set_perimeter_output.cpp:183-206). -/
noncomputable def perimeterSensTotal (w : ℝ) (es : List (OutElem n d X)) : ℝ := (es.map fun e => if e.evaluate then perimeterSens w e.qps e.u e.v else 0).sum
/-- `LevelSetPerimeter::output_sensitivity_for_elem` (level_set_perimeter_output.cpp:115-134). -/
noncomputable def perimeterSensElem (w : ℝ) (e : OutElem n d X) : ℝ := if e.evaluate && e.side.isSome then perimeterSens w e.qps e.u e.v else 0

/-! ### Boundary velocity -/

/-- `velocity` (level_set_boundary_velocity.cpp:71-116): `g` gradient of the level set, `dphi` its derivative with respect to the parameter at the point.  Quotient by zero (NaN) for a zero gradient. -/
noncomputable def bndVelocity (g : Fin d → ℝ) (dphi : ℝ) (k : Fin d) : ℝ := -dphi / (∑ k, g k ^ 2) * g k
/-- `normal_at_point` (level_set_boundary_velocity.cpp:395-413). -/
noncomputable def bndNormal (g : Fin d → ℝ) (k : Fin d) : ℝ := -(g k) / len g
/-- `normal_derivative_at_point` (level_set_boundary_velocity.cpp:417-441). -/
noncomputable def bndNormalDeriv (g dg : Fin d → ℝ) (k : Fin d) : ℝ := -(dg k) / len g + (∑ k, g k * dg k) / (len g) ^ 3 * g k

/-! ### Homogenized density -/

/-- An element of the analysis mesh: its points, its nodes; owned and active on this process; inside the influence of the level set node of the parameter. -/
structure DensElem (n d : Nat) (X P : Type) where
  id : Nat
  qps : List (Qp n d X)
  node : Fin n → P
  active : Bool
  inside : Bool

variable {P : Type}

/-- `initialize_element_volume_fractions` (heaviside_elem_homogenization_function.cpp:48-101). -/
noncomputable def initFractions (w : ℝ) (phi : P → ℝ) (es : List (DensElem n d X P)) : List (Nat × ℝ) :=
  (es.filter fun e => e.active).map fun e => (e.id, fraction w e.qps fun i => phi (e.node i))
/-- `initialize_element_volume_fraction_sensitivity` (heaviside_elem_homogenization_function.cpp:105-173). -/
noncomputable def initFractionSens (w : ℝ) (phi dphi : P → ℝ) (es : List (DensElem n d X P)) : List (Nat × ℝ) :=
  (es.filter fun e => e.active).map fun e => (e.id, if e.inside then fractionSens w e.qps (fun i => phi (e.node i)) fun i => dphi (e.node i) else 0)
/-- Element loop from `local_elements_begin()` to `local_elements_begin()` (intersected_elem_homogenization_function.cpp:52-64, 76-116). -/
def initIntersected (frac : DensElem n d X P → ℝ) (es : List (DensElem n d X P)) : List (Nat × ℝ) :=
  (es.extract 0 0).map fun e => (e.id, frac e)
/-- `operator()` and `derivative` (homogenized_density_function_base.cpp:59-130): `e` is the element found by the point locator; `none`: the end iterator is dereferenced. -/
noncomputable def lookupDensity (m : List (Nat × ℝ)) (e : Nat) : Option ℝ := m.lookup e
end Verif.LevelSetElem
