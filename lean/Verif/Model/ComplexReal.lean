import Verif.Model.Exec
import Mathlib.Data.Complex.Basic
/-
  Model of the complex/real packing routines:
  /repo/src/numerics/utility.h, /repo/src/solver/complex_solver_base.cpp (block solve) and
  /repo/src/base/complex_assembly_base.cpp (blocked assembly).
-/
namespace Verif.CR

/-- `transform_to_elem_vector` (complex specialisation), utility.h:48-57. `v` supplies the size. -/
def transformToElemVector (v : Vec ℂ) (vReal : Vec ℝ) : Exec (Vec ℂ) := do
  assert (vReal.size = 2 * v.size)
  loopE v.size (fun i w => do
    let a ← vReal.read i
    let b ← vReal.read (i + v.size)
    w.write i ⟨a, b⟩) v

/-- `transform_to_elem_matrix` (complex specialisation), utility.h:77-88. -/
def transformToElemMatrix (m : Mat ℂ) (mReal : Mat ℝ) : Exec (Mat ℂ) := do
  assert (mReal.rows = 2 * m.rows)
  assert (mReal.cols = 2 * m.cols)
  loopE m.rows (fun i w =>
    loopE m.cols (fun j w => do
      let a ← mReal.read i j
      let b ← mReal.read i (j + m.cols)
      w.write i j ⟨a, -b⟩) w) m

/-- `add_to_assembled_matrix` (complex specialisation), utility.h:129-147. -/
def addToAssembledMatrix (A : Mat ℝ) (e : Mat ℂ) : Exec (Mat ℝ) := do
  assert (A.rows = e.rows * 2)
  assert (A.cols = e.cols * 2)
  loopE e.rows (fun i A =>
    loopE e.cols (fun j A => do
      let z ← e.read i j
      let A ← A.addAt i j z.re
      let A ← A.addAt (i + e.rows) (j + e.cols) z.re
      let A ← A.addAt i (j + e.cols) (-z.im)
      A.addAt (i + e.rows) j z.im) A) A

/-- `add_to_assembled_vector` (complex specialisation), utility.h:150-162. -/
def addToAssembledVector (a : Vec ℝ) (e : Vec ℂ) : Exec (Vec ℝ) := do
  assert (a.size = e.size * 2)
  loopE e.size (fun i a => do
    let z ← e.read i
    let a ← a.addAt i z.re
    a.addAt (i + e.size) z.im) a

section
variable {K : Type _}

/-- First half of `parallel_sum`: `vals[m*j+i] = mat(i,j)`, utility.h:217-224 (and 239-246). -/
def pack [Zero K] (mat : Mat K) : Exec (Vec K) :=
  loopE mat.rows (fun i vals =>
    loopE mat.cols (fun j vals => do
      let x ← mat.read i j
      vals.write (mat.rows * j + i) x) vals)
    { size := mat.rows * mat.cols, get := fun _ => 0 }

/-- Second half of `parallel_sum`: `mat(i,j) = vals[m*j+i]`, utility.h:228-230 (and 250-252). -/
def unpack (mat : Mat K) (vals : Vec K) : Exec (Mat K) :=
  loopE mat.rows (fun i m =>
    loopE mat.cols (fun j m => do
      let x ← vals.read (mat.rows * j + i)
      m.write i j x) m) mat

/-- `Communicator::sum(std::vector)` (libMesh): every rank receives the entrywise sum.
Trusted contract of an external library; all vectors must have the same length. -/
def commSum [Zero K] [Add K] (size : Nat) (vs : List (Vec K)) : Vec K :=
  { size := size, get := fun t => (vs.map (fun v => v.get t)).foldr (· + ·) 0 }

/-- `parallel_sum(c, mat)` seen by all ranks at once, utility.h:213-231 and 235-254.
`ms` are the matrices of the ranks before the call, the result those after the call. -/
def parallelSum [Zero K] [Add K] (ms : List (Mat K)) : Exec (List (Mat K)) := do
  let vs ← ms.mapM pack
  ms.mapM (fun mat => unpack mat (commSum (mat.rows * mat.cols) vs))
end

/-- Interleaved copy-in of `real_solution()`/`imag_solution()` into the block vector,
complex_solver_base.cpp:433-441 (one rank owning all indices). -/
def interleave (n : Nat) (re im : Vec ℝ) (sol : Vec ℝ) : Exec (Vec ℝ) :=
  loopE n (fun i sol => do
    let a ← re.read i
    let b ← im.read i
    let sol ← sol.write (2 * i) a
    sol.write (2 * i + 1) b) sol

/-- Copy-out of the solved block vector, complex_solver_base.cpp:488-495. -/
def deinterleave (n : Nat) (sol : Vec ℝ) (p : Vec ℝ × Vec ℝ) : Exec (Vec ℝ × Vec ℝ) :=
  loopE n (fun i (p : Vec ℝ × Vec ℝ) => do
    let a ← sol.read (2 * i)
    let b ← sol.read (2 * i + 1)
    let r ← p.1.write i a
    let q ← p.2.write i b
    return (r, q)) p

/-- Insertion of one element into the blocked Jacobian and residual,
complex_assembly_base.cpp:565-593: `dofs` are the global indices of the element's dofs; the 2×2 block
`[Re, -Im; Im, Re]` (row-major `vals[0..3]`) is added at block row `dofs i`, block column `dofs j`
(`MatSetValuesBlocked`, block size 2) and `(Re, Im)` at rows `2 dof`, `2 dof + 1`.
Simplification: the calls to libMesh `constrain_element_matrix` (lines 570-574) are modelled
separately by `constrainDiag`. -/
def blockedElem (dofs : List Nat) (mat : Nat → Nat → ℂ) (vec : Nat → ℂ)
    (J : Nat → Nat → ℝ) (R : Nat → ℝ) : (Nat → Nat → ℝ) × (Nat → ℝ) :=
  loop dofs.length (fun i st =>
    let di := dofs.getD i 0
    let R1 : Nat → ℝ := fun a => if a = 2 * di then st.2 a + (vec i).re else st.2 a
    let R2 : Nat → ℝ := fun a => if a = 2 * di + 1 then R1 a + (vec i).im else R1 a
    let J2 := loop dofs.length (fun j (J : Nat → Nat → ℝ) =>
      let dj := dofs.getD j 0
      fun a b =>
        if a = 2 * di ∧ b = 2 * dj then J a b + (mat i j).re
        else if a = 2 * di ∧ b = 2 * dj + 1 then J a b + -(mat i j).im
        else if a = 2 * di + 1 ∧ b = 2 * dj then J a b + (mat i j).im
        else if a = 2 * di + 1 ∧ b = 2 * dj + 1 then J a b + (mat i j).re
        else J a b) st.1
    (J2, R2)) (J, R)

/-- libMesh `DofMap::constrain_element_matrix` for homogeneous Dirichlet constraints (rows with no
master dofs): rows and columns of constrained dofs are zeroed and the diagonal set to one.
Trusted contract of libMesh (source not in /repo); called in complex_assembly_base.cpp:570-572 on
each of the three real matrices `Re`, `-Im`, `Im`. -/
def constrainDiag (con : Nat → Bool) (m : Nat → Nat → ℝ) : Nat → Nat → ℝ :=
  fun i j => if con i then (if i = j then 1 else 0) else if con j then 0 else m i j

/-- The four numbers `vals[0..3]` inserted for local entry `(i,j)` after constraints are applied,
complex_assembly_base.cpp:565-586. -/
def constrainedBlock (con : Nat → Bool) (mat : Nat → Nat → ℂ) (i j : Nat) : Fin 2 → Fin 2 → ℝ :=
  let mR := constrainDiag con (fun a b => (mat a b).re)
  let mI1 := constrainDiag con (fun a b => -(mat a b).im)
  let mI2 := constrainDiag con (fun a b => (mat a b).im)
  fun r c => match r, c with
    | 0, 0 => mR i j
    | 0, 1 => mI1 i j
    | 1, 0 => mI2 i j
    | 1, 1 => mR i j

end Verif.CR
