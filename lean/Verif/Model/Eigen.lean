import Mathlib.Data.Real.Sqrt
import Mathlib.Data.Complex.Basic
import Mathlib.LinearAlgebra.Matrix.Notation
import Verif.Model.Exec
/-
  Model of the eigenproblem part of MAST::NonlinearSystem (src/base/nonlinear_system.cpp:239-685) and of the
  pointer use of MAST::EigenproblemAssembly (src/base/eigenproblem_assembly.cpp:88-107, 183-200).
  One process (serial layout: the condensed vector is not distributed); real arithmetic.
  The SLEPc solver is a parameter: it reports, for pair `i`, a complex value and a real vector.
-/
namespace Verif.Eig
open Verif Matrix

noncomputable section

/-- libMesh::EigenProblemType, the values that the code distinguishes. -/
inductive Kind where
  | HEP | GHEP | other
deriving DecidableEq

variable {n m : Nat}

/-- The members of `NonlinearSystem` used here. `A`, `B` are `*matrix_A`, `*matrix_B` (`B = none`: null pointer, see
init_data, lines 130-141: `matrix_B` is only built for generalised problems or when `_initialize_B_matrix`).
`condensed = none`: `_condensed_dofs_initialized == false`; otherwise the retained dofs (`_local_non_condensed_dofs_vector`). -/
structure Sys (n m : Nat) where
  kind : Kind
  exchange : Bool
  condensed : Option (Fin m → Fin n)
  A : Matrix (Fin n) (Fin n) ℝ
  B : Option (Matrix (Fin n) (Fin n) ℝ)

/-- Lines 484-490: zero the vector, then set the entries listed in `idx`. -/
def scatter (idx : Fin m → Fin n) (tmp : Fin m → ℝ) : Fin n → ℝ :=
  (List.finRange m).foldl (fun v j => Function.update v (idx j) (tmp j)) 0

/-- Lines 431-440 and 470-479, also get_eigenvalue 387-403: reported eigenvalue. -/
def reported (exchange : Bool) (val : ℂ) : ℂ := if exchange then 1 / val else val

/-- Lines 509-543: normalisation. `B = none` in the GHEP branch is a null dereference. -/
def normalise (kind : Kind) (B : Option (Matrix (Fin n) (Fin n) ℝ)) (x : Fin n → ℝ) : Exec (Fin n → ℝ) :=
  match kind with
  | .HEP =>
      let v := x ⬝ᵥ x
      if 0 < v then .ok ((1 / Real.sqrt v) • x) else .error .assertFail
  | .GHEP =>
      match B with
      | none => .error .ub
      | some B =>
          let v := (B *ᵥ x) ⬝ᵥ x
          if 0 < v then .ok ((1 / Real.sqrt v) • x) else .error .assertFail
  | .other => .error .error

/-- `get_eigenpair` (407-548) for a real eigenvector (`vec_im == nullptr`, required for HEP/GHEP by the
assertion of lines 419-421).  `full`/`cond` are what the eigensolver reports: `full` if the problem was not condensed, `cond`
otherwise. -/
def getEigenpair (s : Sys n m) (val : ℂ) (full : Fin n → ℝ) (cond : Fin m → ℝ) :
    Exec (ℂ × (Fin n → ℝ)) := do
  let x ← match s.condensed with
    | none => pure full
    | some idx =>
        if m = 0 then .error Err.assertFail else pure (scatter idx cond)
  let x' ← normalise s.kind s.B x
  return (reported s.exchange val, x')

/-- `MAST::SlepcEigenSolver::get_eigenpair` (src/solver/slepc_eigen_solver.cpp:53-103), real build.  `wantIm` says whether
`eig_vec_im` is non-null.  Lines 63-65 refuse it (debug builds) for HEP/GHEP.  For every type the local `v_im` is `NULL`
(75) and never set - line 83 assigns to the parameter instead -, so line 87 dereferences a null pointer.  `re`/`im` are the
components that EPSGetEigenpair would write. -/
def slepcPair {k : Nat} (dbg : Bool) (kind : Kind) (wantIm : Bool) (val : ℂ) (re im : Fin k → ℝ) :
    Exec (ℂ × (Fin k → ℝ) × Option (Fin k → ℝ)) :=
  if dbg ∧ kind ≠ .other ∧ wantIm then .error .assertFail
  else
    let v_im : Option Unit := none
    if wantIm then
      match v_im with
      | none => .error .ub
      | some _ => .ok (val, re, some im)
    else .ok (val, re, none)

/-- `NonlinearSystem::get_eigenpair` (407-548) with the optional imaginary part: lines 419-421, then the not condensed case
(426-441) or the condensed one (442-505), then the normalisation (509-543), which never touches the imaginary part. -/
def getEigenpairIm (dbg : Bool) (s : Sys n m) (wantIm : Bool) (val : ℂ) (full fullIm : Fin n → ℝ) (cond condIm : Fin m → ℝ) :
    Exec (ℂ × (Fin n → ℝ) × Option (Fin n → ℝ)) := do
  if dbg ∧ s.kind ≠ .other ∧ wantIm then .error Err.assertFail
  else
    let r ← match s.condensed with
      | none => slepcPair dbg s.kind wantIm val full fullIm
      | some idx =>
          if m = 0 then .error Err.assertFail
          else do
            let r ← slepcPair dbg s.kind wantIm val cond condIm
            pure (r.1, scatter idx r.2.1, r.2.2.map (scatter idx))
    let x' ← normalise s.kind s.B r.2.1
    return (reported s.exchange r.1, x', r.2.2)

/-- The matrices handed to the eigensolver by `eigenproblem_solve` (239-382), as the pencil `(eig_A, eig_B)`:
restriction to retained dofs (323-338) and optional exchange (290-297, 346-353). -/
def pencil (s : Sys n m) (idx : Fin m → Fin n) (B : Matrix (Fin n) (Fin n) ℝ) :
    Matrix (Fin m) (Fin m) ℝ × Matrix (Fin m) (Fin m) ℝ :=
  if s.exchange then (B.submatrix idx idx, s.A.submatrix idx idx)
  else (s.A.submatrix idx idx, B.submatrix idx idx)

/-- Pointer checks on the way through `eigenproblem_solve`: `eigenproblem_assemble` binds `*B` and calls `zero()` on it
(eigenproblem_assembly.cpp:100-105), and a standard problem then requires `!matrix_B`
(nonlinear_system.cpp:308, 364; `generalized()` is false for HEP). -/
def solveChecks (dbg : Bool) (s : Sys n m) : Exec Unit :=
  match s.B with
  | none => .error .ub
  | some _ => if s.kind = .HEP ∧ dbg then .error .assertFail else .ok ()

/-- One eigenvalue of `eigenproblem_sensitivity_solve` (554-685): `pair` is what `get_eigenpair` delivers (lines 623/631 –
a call of the model above), `B0` is `*matrix_B` before, and `A'`, `B'` are the matrices assembled by line 646
into `*matrix_A`, `*matrix_B`. -/
def sensValue (kind : Kind) (eig : ℝ) (x : Fin n → ℝ) (B0 A' B' : Matrix (Fin n) (Fin n) ℝ) : Exec ℝ :=
  match kind with
  | .HEP =>
      let denom := x ⬝ᵥ x
      .ok ((x ⬝ᵥ (A' *ᵥ x) - eig * (x ⬝ᵥ x)) / denom)
  | .GHEP =>
      let denom := x ⬝ᵥ (B0 *ᵥ x)
      .ok ((x ⬝ᵥ (A' *ᵥ x) - eig * (x ⬝ᵥ (B' *ᵥ x))) / denom)
  | .other => .error .error

/-- `eigenproblem_sensitivity_solve` (554-685) for one converged pair (`n_calc = nconv = 1`), including its effect on the
system: `matrix_A`, `matrix_B` hold the *sensitivity* matrices afterwards (line 646) and are not restored. -/
def sensitivitySolve (s : Sys n m) (val : ℂ) (full : Fin n → ℝ) (cond : Fin m → ℝ)
    (A' B' : Matrix (Fin n) (Fin n) ℝ) : Exec (ℝ × Sys n m) := do
  let (lam, x) ← getEigenpair s val full cond
  match s.B with
  | none => .error Err.ub
  | some B0 =>
      let d ← sensValue s.kind lam.re x B0 A' B'
      return (d, { s with A := A', B := some B' })

end
end Verif.Eig
