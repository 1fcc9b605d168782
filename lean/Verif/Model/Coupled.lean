import Mathlib.Data.Real.Basic
import Mathlib.Data.Real.Sqrt
import Mathlib.Algebra.Module.Basic
import Mathlib.Algebra.BigOperators.Group.Finset.Basic
import Mathlib.Data.Fintype.BigOperators
/-
  Model of src/solver/multiphysics_nonlinear_solver.cpp and
  src/solver/stabilized_first_order_transient_sensitivity_solver.cpp.
-/
namespace Verif.Coupled

/-! #### Multiphysics solver -/
section multi
variable {nd : Nat} {V : Fin nd → Type} [∀ i, AddCommGroup (V i)]

/-- What discipline `i` provides: its own Jacobian matrix action (`sys.matrix` after `residual_and_jacobian`) and its `linearized_jacobian_solution_product`,
which sees its own solution and perturbation, and (through the pre-residual update object) the perturbations of all disciplines handed to
`update_at_perturbed_solution`; `none` when no update object is attached (multiphysics_nonlinear_solver.cpp:121-123). -/
structure Discipline (V : Fin nd → Type) (i : Fin nd) where
  jac : (∀ k, V k) → V i → V i
  product : (∀ k, V k) → V i → Option (∀ k, V k) → V i

/-- The perturbation vectors built for block `(i, j)`: `dx` for discipline `j`, zero for all others, multiphysics_nonlinear_solver.cpp:90-116. -/
def dsols (j : Fin nd) (dx : V j) : ∀ k, V k := fun k => if h : k = j then h ▸ dx else 0

/-- `__mast_multiphysics_petsc_mat_mult` for the shell block `(i, j)`, multiphysics_nonlinear_solver.cpp:45-163: the product routine of discipline `i` at the
current solution with discipline `i`'s entry of the perturbation vectors. -/
def shellMult (D : ∀ i, Discipline V i) (update : Bool) (x : ∀ k, V k) (i j : Fin nd) (dx : V j) : V i :=
  let d := dsols (V := V) j dx
  (D i).product x (d i) (if update then some d else none)

/-- Block `(i, j)` of the nested matrix, multiphysics_nonlinear_solver.cpp:483-537: the assembled matrix on the diagonal, the shell off it. -/
def block (D : ∀ i, Discipline V i) (update : Bool) (x : ∀ k, V k) (i j : Fin nd) (dx : V j) : V i :=
  if h : i = j then (D i).jac x (h ▸ dx) else shellMult D update x i j dx

/-- PETSc's nested matrix (`MatCreateNest` with block `i*n+j` in row `i`, column `j`, 540-544): row-wise sum. -/
def nestMult (D : ∀ i, Discipline V i) (update : Bool) (x dx : ∀ k, V k) (i : Fin nd) : V i :=
  ∑ j, block D update x i j (dx j)

end multi

/-- Residual norm reported by `__mast_multiphysics_petsc_snes_residual`, multiphysics_nonlinear_solver.cpp:228-251: `(Σ ‖Rᵢ‖²)^{1/2}` accumulated in a loop,
each `‖Rᵢ‖ = sqrt(Σ r²)`. -/
noncomputable def reportedNorm (parts : List (List ℝ)) : ℝ :=
  Real.sqrt (parts.foldl (fun acc r => acc + (Real.sqrt ((r.map (fun t => t ^ 2)).sum)) ^ 2) 0)

/-! #### Stabilised sensitivity solver -/
section stab
variable {L V : Type} [AddCommGroup L] [Module ℝ L] [AddCommGroup V] [Module ℝ V]

/-- Inputs: for every stored nonlinear solution index the Jacobian, the mass matrix and the residual sensitivity; `app` is the matrix-vector product,
`solve` the linear solver; `amp` the amplification factor (arbitrary function of the index and the matrices). -/
structure Data (L V : Type) where
  J : Nat → L
  M : Nat → L
  F : Nat → V
  app : L → V → V
  solve : L → V → V
  amp : Nat → L → L → ℝ
  dt : ℝ
  beta : ℝ
  maxAmp : ℝ
  maxIndex : Nat

/-- Local accumulators of `sensitivity_solve`. -/
structure Acc (L V : Type) where
  Mavg : L
  Jint : L
  fint : V
  time : ℝ
  index : Nat

/-- Outcome of `sensitivity_solve`: accumulators of the last pass, the vectors `solution_sensitivity(0)` and `(1)`, whether the step was accepted, and the
solution files read. -/
structure Result (L V : Type) where
  acc : Acc L V
  dsol1 : V
  dsol0 : V
  accepted : Bool
  reads : List Nat

/-- Accumulation part of a pass, stabilized_first_order_transient_sensitivity_solver.cpp:145-171. -/
noncomputable def accumulate (D : Data L V) (t0 : ℝ) (a : Acc L V) : Acc L V :=
  { a with
    Jint := a.Jint + D.dt • D.J a.index
    Mavg := ((a.time - t0 - D.dt) / (a.time - t0)) • a.Mavg + (D.dt / (a.time - t0)) • D.M a.index
    fint := a.fint + D.dt • ((-1 : ℝ) • D.F a.index) }

/-- The linear solve of a pass, stabilized_first_order_transient_sensitivity_solver.cpp:172-208. -/
noncomputable def passSolve (D : Data L V) (a : Acc L V) (dsol0 : V) : V :=
  D.solve (a.Mavg + D.beta • a.Jint) (D.app a.Mavg dsol0 + a.fint)

/-- The matrix pencil whose largest eigenvalue is the amplification factor: `(M0, M1)`, lines 183-191, 222. -/
noncomputable def pencil (D : Data L V) (a : Acc L V) : L × L :=
  (a.Mavg + (-(1 - D.beta)) • a.Jint, a.Mavg + D.beta • a.Jint)

/-- The `while` loop of `sensitivity_solve`, stabilized_first_order_transient_sensitivity_solver.cpp:142-252.  On acceptance `dsol0 = dsol1`; on the final
rejection `dsol1` is zeroed, set to `dsol0` and zeroed again (240-242). -/
noncomputable def loop (D : Data L V) (t0 : ℝ) (dsol0 : V) (reads : List Nat) (a : Acc L V) : Result L V :=
  let a1 := accumulate D t0 a
  let dsol1 := passSolve D a1 dsol0
  let amp := D.amp a1.index (pencil D a1).1 (pencil D a1).2
  let reads := reads ++ [a1.index]
  if amp ≤ D.maxAmp ∨ D.maxIndex < a1.index then
    if amp ≤ D.maxAmp then ⟨a1, dsol1, dsol1, true, reads⟩
    else
      -- `dsol1.zero(); dsol1.add(1., dsol0); dsol1.zero()`: the last call decides the value
      ⟨a1, 0, dsol0, false, reads⟩
  else loop D t0 dsol0 reads { a1 with index := a1.index + 1, time := a1.time + D.dt }
termination_by D.maxIndex + 1 - a.index
decreasing_by
  rename_i hn
  push Not at hn
  have h2 : a.index ≤ D.maxIndex := hn.2
  show D.maxIndex + 1 - (a.index + 1) < D.maxIndex + 1 - a.index
  omega

/-- `sensitivity_solve`, stabilized_first_order_transient_sensitivity_solver.cpp:80-256, entered with `_index1 = index` and `sys.time = time`. -/
noncomputable def sensitivitySolve (D : Data L V) (index : Nat) (time : ℝ) (dsol0 : V) : Result L V :=
  loop D time dsol0 [] ⟨0, 0, 0, time + D.dt, index + 1⟩

/-- The linearisation points and perturbations used by `evaluate_q_sens_for_previous_interval`,
stabilized_first_order_transient_sensitivity_solver.cpp:283-304: for each `i` in `[index0, index1)`, (solution file read, perturbation vector). -/
noncomputable def qSensPoints (index0 index1 : Nat) (t0 t1 dt : ℝ) (dx0 dx1 : V) : List (Nat × V) :=
  (List.range (index1 - index0)).map (fun (k : Nat) =>
    let time := t0 + dt * k
    let eta := (time - t0) / (t1 - t0)
    (index1, (1 - eta) • dx0 + eta • dx1))

end stab
end Verif.Coupled
