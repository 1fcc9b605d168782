import Verif.Model.Assembly
import Verif.Model.ComplexReal
import Mathlib.Data.Complex.Basic
import Mathlib.Analysis.SpecialFunctions.Pow.NNReal
/-
  Field split form of the complex assembly, norm of the complex residual and the complex solver: src/base/complex_assembly_base.cpp, src/solver/complex_solver_base.cpp.
  Constraints are those of `Verif.Model.Assembly` (Dirichlet rows of libMesh).  The Krylov solver of PETSc is a parameter.
-/
namespace Verif.CSolve
open Verif.Asm

/-- An element: `n`, `dof` as in the real assembly; `vec`, `mat` the complex element residual and Jacobian for the real base solution and the complex solution (`elem_calculations`), `sens` what
`elem_sensitivity_calculations` returns. -/
structure CElem where
  n : Nat
  dof : Nat → Nat
  vec : (Nat → ℝ) → (Nat → ℂ) → Nat → ℂ
  mat : (Nat → ℝ) → (Nat → ℂ) → Nat → Nat → ℂ
  sens : (Nat → ℝ) → (Nat → ℂ) → Nat → ℂ

/-- `sol` (complex_assembly_base.cpp:175, 184-187, 322, 331-335): base solution of the element, zero without one. -/
def CElem.base (e : CElem) (B : Option (Nat → ℝ)) (a : Nat) : ℝ := match B with | some b => b (e.dof a) | none => 0
/-- `delta_sol` (complex_assembly_base.cpp:190-192, 338-340). -/
def CElem.sol (e : CElem) (XR XI : Nat → ℝ) (a : Nat) : ℂ := ⟨XR (e.dof a), XI (e.dof a)⟩

/-- What the field split assembly fills. -/
structure Split where
  RR : Nat → ℝ
  RI : Nat → ℝ
  JR : Nat → Nat → ℝ
  JI : Nat → Nat → ℝ

/-- Body of the element loop of `residual_and_jacobian_field_split` (complex_assembly_base.cpp:310-387); `vec *= -1.` at 355. -/
def splitElem (C : Nat → Bool) (B : Option (Nat → ℝ)) (XR XI : Nat → ℝ) (s : Split) (e : CElem) : Split :=
  { RR := addVector e.n e.dof (conVec C e.dof fun a => (-1 * e.vec (e.base B) (e.sol XR XI) a).re) s.RR
    RI := addVector e.n e.dof (conVec C e.dof fun a => (-1 * e.vec (e.base B) (e.sol XR XI) a).im) s.RI
    JR := addMatrix e.n e.dof (conMat C e.dof fun a b => (e.mat (e.base B) (e.sol XR XI) a b).re) s.JR
    JI := addMatrix e.n e.dof (conMat C e.dof fun a b => (e.mat (e.base B) (e.sol XR XI) a b).im) s.JI }

/-- `residual_and_jacobian_field_split` (complex_assembly_base.cpp:245-401): everything is zeroed first (259-262). -/
def fieldSplit (C : Nat → Bool) (B : Option (Nat → ℝ)) (els : List CElem) (XR XI : Nat → ℝ) : Split :=
  els.foldl (splitElem C B XR XI) ⟨fun _ => 0, fun _ => 0, fun _ _ => 0, fun _ _ => 0⟩

/-- Body of the element loop of `residual_l2_norm` (complex_assembly_base.cpp:161-222). -/
def normElem (C : Nat → Bool) (B : Option (Nat → ℝ)) (XR XI : Nat → ℝ) (s : (Nat → ℝ) × (Nat → ℝ)) (e : CElem) : (Nat → ℝ) × (Nat → ℝ) :=
  (addVector e.n e.dof (conVec C e.dof fun a => (e.vec (e.base B) (e.sol XR XI) a).re) s.1, addVector e.n e.dof (conVec C e.dof fun a => (e.vec (e.base B) (e.sol XR XI) a).im) s.2)

/-- `l2_norm()` of a vector with `N` entries. -/
noncomputable def l2 (N : Nat) (v : Nat → ℝ) : ℝ := Real.sqrt (∑ i ∈ Finset.range N, v i ^ 2)

/-- `residual_l2_norm` (complex_assembly_base.cpp:109-240). -/
noncomputable def residualNorm (C : Nat → Bool) (B : Option (Nat → ℝ)) (els : List CElem) (N : Nat) (XR XI : Nat → ℝ) : ℝ :=
  Real.sqrt (l2 N (els.foldl (normElem C B XR XI) (fun _ => 0, fun _ => 0)).1 ^ 2 + l2 N (els.foldl (normElem C B XR XI) (fun _ => 0, fun _ => 0)).2 ^ 2)

/-- `MatCreateNest` of `solve_pc_fieldsplit` (complex_solver_base.cpp:203-213) with `matrix`, `matrix_A`, `matrix_B`, `matrix`: rows and columns are pairs (false: real part, true: imaginary part). -/
def nest (M A B : Nat → Nat → ℝ) (r c : Bool × Nat) : ℝ :=
  match r.1, c.1 with
  | false, false => M r.2 c.2
  | false, true => A r.2 c.2
  | true, false => B r.2 c.2
  | true, true => M r.2 c.2

/-- Matrix and right-hand side handed to `KSPSolve` by `solve_pc_fieldsplit` (complex_solver_base.cpp:249-275, 297): assembly at zero, `matrix_A = -matrix_B`. -/
def splitSystem (C : Nat → Bool) (B : Option (Nat → ℝ)) (els : List CElem) : (Bool × Nat → Bool × Nat → ℝ) × (Bool × Nat → ℝ) :=
  let s := fieldSplit C B els (fun _ => 0) fun _ => 0
  (nest s.JR (fun i j => 0 + -1 * s.JI i j) s.JI, fun r => if r.1 then s.RI r.2 else s.RR r.2)

/-- Named vectors of the system. -/
abbrev Store := List Char → Option (Nat → ℝ)

/-- Name of a solution vector (complex_solver_base.cpp:110-114, 151-155); strings as lists of characters. -/
def vecName (sys : List Char) (imag sens : Bool) : List Char := sys ++ (if imag then "imag_sol" else "real_sol").toList ++ if sens then "_sens".toList else []

/-- `real_solution(if_sens)`, `imag_solution(if_sens)` (complex_solver_base.cpp:103-181): an unknown vector is added, with zero entries. -/
def touch (nm : List Char) (s : Store) : Store := fun k => if k = nm then some ((s nm).getD fun _ => 0) else s k
def readVec (nm : List Char) (s : Store) : Nat → ℝ := (s nm).getD fun _ => 0
def writeVec (nm : List Char) (v : Nat → ℝ) (s : Store) : Store := fun k => if k = nm then some v else s k

/-- `solve_pc_fieldsplit` (complex_solver_base.cpp:187-329), effect on the named vectors of the system: the solution vector `sol` of the nested system is destroyed at the end; it is not copied to
`real_solution()` or `imag_solution()`.  (`sys.matrix`, `matrix_A`, `matrix_B` are overwritten.) -/
def solveFieldSplit (_ksp : (Bool × Nat → Bool × Nat → ℝ) → (Bool × Nat → ℝ) → Bool × Nat → ℝ) (_C : Nat → Bool) (_B : Option (Nat → ℝ)) (_els : List CElem) (s : Store) : Store := s

/-- Data of the blocked assembly at (XR, XI) (complex_assembly_base.cpp:409-606): with a parameter the residual is the element sensitivity for a zero solution sensitivity (540-547). -/
def blockedData (B : Option (Nat → ℝ)) (els : List CElem) (p : Bool) (XR XI : Nat → ℝ) (e : CElem) : List Nat × (Nat → Nat → ℂ) × (Nat → ℂ) :=
  ((List.range e.n).map e.dof, e.mat (e.base B) (e.sol XR XI), if p then e.sens (e.base B) (e.sol XR XI) else e.vec (e.base B) (e.sol XR XI))

/-- Matrix and residual of `residual_and_jacobian_blocked` without constrained degrees of freedom (complex_assembly_base.cpp:424-425, 491-594). -/
noncomputable def blocked (B : Option (Nat → ℝ)) (els : List CElem) (p : Bool) (XR XI : Nat → ℝ) : (Nat → Nat → ℝ) × (Nat → ℝ) :=
  els.foldl (fun st e => CR.blockedElem (blockedData B els p XR XI e).1 (blockedData B els p XR XI e).2.1 (blockedData B els p XR XI e).2.2 st.1 st.2) (fun _ _ => 0, fun _ => 0)

/-- `solve_block_matrix` (complex_solver_base.cpp:333-507) for a solver `ksp` and the degrees of freedom `[first, last)` of this process: with a parameter the stored solution is loaded (426-444); the
right-hand side is scaled by -1 (452); the result goes to the solution vectors, or to those of the sensitivity (484-498).  Entries of other processes keep their value. -/
noncomputable def solveBlock (ksp : (Nat → Nat → ℝ) → (Nat → ℝ) → Nat → ℝ) (B : Option (Nat → ℝ)) (els : List CElem) (sys : List Char) (first last : Nat) (p : Bool) (s : Store) : Store :=
  let s1 := if p then touch (vecName sys true false) (touch (vecName sys false false) s) else s
  let XR := if p then readVec (vecName sys false false) s1 else fun _ => 0
  let XI := if p then readVec (vecName sys true false) s1 else fun _ => 0
  let jr := blocked B els p XR XI
  let x := ksp jr.1 fun i => -1 * jr.2 i
  let put := fun (f : Nat → ℝ) (old : Nat → ℝ) (i : Nat) => if first ≤ i ∧ i < last then f i else old i
  writeVec (vecName sys true p) (put (fun i => x (2 * i + 1)) (readVec (vecName sys true p) s1))
    (writeVec (vecName sys false p) (put (fun i => x (2 * i)) (readVec (vecName sys false p) s1)) s1)

/-- `clear_assembly` (complex_solver_base.cpp:65-99). -/
def clearAssembly (sys : List Char) (s : Store) : Store := fun k => if k ∈ [vecName sys false false, vecName sys false true, vecName sys true false, vecName sys true true] then none else s k

end Verif.CSolve
