import Mathlib.Data.Matrix.Block
import Mathlib.Data.Complex.Basic
import Mathlib.Analysis.Complex.Norm
import Mathlib.Analysis.Real.Sqrt
import Mathlib.Analysis.SpecialFunctions.Pow.Real
import Mathlib.LinearAlgebra.Matrix.DotProduct
/-
  Reduced order flutter eigenproblems: src/aeroelasticity/time_domain_flutter_solver.cpp, ug_flutter_solver.cpp, time_domain_flutter_root.cpp, ug_flutter_root.cpp.
  Reals and complex numbers stand for double and std::complex<double>.  The reduced matrices returned by the assembly are parameters of the model.
-/
namespace Verif.Flutter
open Matrix

variable {n : Type*} [Fintype n] [DecidableEq n]

/-- Reduced mass, damping and stiffness matrices returned by `assemble_reduced_order_quantity` (time_domain_flutter_solver.cpp:715-730). -/
structure Reduced (n : Type*) where
  m : Matrix n n ℝ
  c : Matrix n n ℝ
  k : Matrix n n ℝ

/-- `A` of `_initialize_matrices` (time_domain_flutter_solver.cpp:734-744). -/
def tdA (r : Reduced n) : Matrix (n ⊕ n) (n ⊕ n) ℝ := fromBlocks 0 1 (-r.k) (-r.c)
/-- `B` of `_initialize_matrices` (time_domain_flutter_solver.cpp:734-744). -/
def tdB (r : Reduced n) : Matrix (n ⊕ n) (n ⊕ n) ℝ := fromBlocks 1 0 0 r.m

/-- `A` of `_initialize_matrix_sensitivity_for_param` (time_domain_flutter_solver.cpp:804-814): the identity block is kept in the derivative. -/
def tdASens (r : Reduced n) : Matrix (n ⊕ n) (n ⊕ n) ℝ := fromBlocks 0 1 (-r.k) (-r.c)
/-- `B` of `_initialize_matrix_sensitivity_for_param` (time_domain_flutter_solver.cpp:804-814): the identity block is kept in the derivative. -/
def tdBSens (r : Reduced n) : Matrix (n ⊕ n) (n ⊕ n) ℝ := fromBlocks 1 0 0 r.m

/-- Real matrix as a complex one (`cast<Complex>()`). -/
def cplx {a b : Type*} (M : Matrix a b ℝ) : Matrix a b ℂ := M.map (fun x : ℝ => (x : ℂ))

/-- Eigenvalue derivative (time_domain_flutter_solver.cpp:1051-1053, ug_flutter_solver.cpp:937-939); Eigen's `dot` conjugates its first argument. -/
noncomputable def eigSens {m : Type*} [Fintype m] (lam : ℂ) (u v : m → ℂ) (dA dB B : Matrix m m ℂ) : ℂ :=
  (star u ⬝ᵥ ((dA - lam • dB) *ᵥ v)) / (star u ⬝ᵥ (B *ᵥ v))

/-- A flutter root (flutter_root_base.h:29-62, constructor values flutter_root_base.cpp:26-37); eigenvectors are kept apart. -/
structure Root where
  nonphysical : Bool := false
  kr : ℝ := 0
  g : ℝ := 0
  V : ℝ := 0
  omega : ℝ := 0
  root : ℂ := 0

/-- Values written by `calculate_sensitivity` (time_domain_flutter_solver.cpp:1082-1087). -/
structure Sens where
  vSens : ℝ
  rootSens : ℂ

/-- `TimeDomainFlutterSolver::calculate_sensitivity` (time_domain_flutter_solver.cpp:990-1093).  `asmP` and `asmV` are the reduced sensitivities with respect to the
parameter and to velocity for a given solution sensitivity; `zero` is the zero vector cloned at 1027.  `none`: null pointer dereference at 1064-1065, since
`zero_sol_sens` is only set when `dXdp` is null. -/
noncomputable def tdSensitivity {X : Type*} (lam : ℂ) (u v : n ⊕ n → ℂ) (r : Reduced n) (asmP asmV : X → Reduced n) (zero : X) (dXdp dXdV : Option X) : Option Sens :=
  let zs : Option X := if dXdp.isNone then some zero else none
  let sp : X := dXdp.getD zero
  let dp := eigSens lam u v (cplx (tdASens (asmP sp))) (cplx (tdBSens (asmP sp))) (cplx (tdB r))
  (if dXdV.isNone then zs else dXdV).map fun sv =>
    let dV := eigSens lam u v (cplx (tdASens (asmV sv))) (cplx (tdBSens (asmV sv))) (cplx (tdB r))
    let vs : ℝ := -dp.re / dV.re
    ⟨vs, dp + dV * (vs : ℂ)⟩

/-- `TimeDomainFlutterRoot::init`, scalar part (time_domain_flutter_root.cpp:38-50). -/
noncomputable def tdRoot (v : ℝ) (num den : ℂ) : Root :=
  if 0 < ‖den‖ then { root := num / den, V := v, omega := (num / den).im } else {}

/-- Modal participation factors (time_domain_flutter_root.cpp:53-64, ug_flutter_root.cpp:69-80); a zero sum gives NaN in the code, 0 here. -/
noncomputable def participation {m : Type*} [Fintype m] (B : Matrix m m ℂ) (v : m → ℂ) : m → ℝ :=
  let p : m → ℝ := fun i => ‖(starRingEnd ℂ) (v i) * (B *ᵥ v) i‖
  fun i => p i * (1 / ∑ j, p j)

/-! ### U-g method -/

/-- `A` of `UGFlutterSolver::_initialize_matrices` (ug_flutter_solver.cpp:552-567); `a` is the assembled aerodynamic matrix before the change of sign at 564. -/
noncomputable def ugA (kr b rho : ℝ) (M : Matrix n n ℝ) (a : Matrix n n ℂ) : Matrix n n ℂ :=
  (((kr / b) ^ 2 : ℝ) : ℂ) • cplx M + ((rho / 2 : ℝ) : ℂ) • (-a)
/-- `B` of `UGFlutterSolver::_initialize_matrices` (ug_flutter_solver.cpp:568). -/
def ugB (K : Matrix n n ℝ) : Matrix n n ℂ := cplx K

/-- `A` of `_initialize_matrix_sensitivity_for_param` (ug_flutter_solver.cpp:597-629): the aerodynamic matrix is left zero. -/
noncomputable def ugASens (kr b rho : ℝ) (dM : Matrix n n ℝ) : Matrix n n ℂ :=
  (((kr / b) ^ 2 : ℝ) : ℂ) • cplx dM + ((rho / 2 : ℝ) : ℂ) • (-(0 : Matrix n n ℂ))

/-- `A` of `_initialize_matrix_sensitivity_for_kr` (ug_flutter_solver.cpp:668-683); `B` is zero (684). -/
noncomputable def ugAKr (kr b rho : ℝ) (M : Matrix n n ℝ) (da : Matrix n n ℂ) : Matrix n n ℂ :=
  ((2 * kr * (b ^ 2)⁻¹ : ℝ) : ℂ) • cplx M + ((rho / 2 : ℝ) : ℂ) • (-da)

/-- `UGFlutterRoot::init`, scalar part (ug_flutter_root.cpp:39-66). -/
noncomputable def ugRoot (kr b : ℝ) (num den : ℂ) : Root :=
  if 0 < ‖den‖ then
    let r := num / den
    if 0 < r.re then { kr := kr, root := r, V := Real.sqrt (1 / r.re), g := r.im / r.re, omega := kr * Real.sqrt (1 / r.re) / b }
    else { kr := kr, root := r, nonphysical := true }
  else { kr := kr }

/-- Derivative of `g = Im λ / Re λ` (ug_flutter_solver.cpp:964-967). -/
noncomputable def dgOf (lam d : ℂ) : ℝ := d.im / lam.re - lam.im / lam.re ^ 2 * d.re

/-- Values written by `UGFlutterSolver::calculate_sensitivity` (ug_flutter_solver.cpp:975-982). -/
structure UGSens where
  krSens : ℝ
  vSens : ℝ
  rootSens : ℂ

/-- `UGFlutterSolver::calculate_sensitivity` (ug_flutter_solver.cpp:869-988). -/
noncomputable def ugSensitivity (lam : ℂ) (u v : n → ℂ) (kr b rho : ℝ) (M K dM dK : Matrix n n ℝ) (da : Matrix n n ℂ) : UGSens :=
  let dp := eigSens lam u v (ugASens kr b rho dM) (ugB dK) (ugB K)
  let dk := eigSens lam u v (ugAKr kr b rho M da) 0 (ugB K)
  let ks := -dgOf lam dp / dgOf lam dk
  let rs := dp + dk * (ks : ℂ)
  ⟨ks, -(1 / 2) * rs.re / lam.re ^ (3 / 2 : ℝ), rs⟩

end Verif.Flutter
