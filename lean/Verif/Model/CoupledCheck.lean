import Verif.Model.CoupledSolve
/-
  Model of MAST::MultiphysicsNonlinearSolverBase::verify_gateaux_derivatives (src/solver/multiphysics_nonlinear_solver.cpp:749-880), one process (`el` needs local entries).  The call is made while the nonlinear solver works on `_sol`
  (otherwise `SNESGetSolution` delivers no vector), so that the products see the same vector as the residuals.
-/
namespace Verif.CoupledSolve

noncomputable section

variable {nd : Nat} {n : Fin nd → Nat}

/-- `delta` (multiphysics_nonlinear_solver.cpp:768-769). -/
def checkStep : ℝ := 1 / 10000

/-- A line that is printed (863-868): the indices `k`, `l`, the entry of the product and the difference of the residuals. -/
structure Line where
  k : Nat
  l : Nat
  prod : ℝ
  diff : ℝ

/-- Store a value in one entry of the sub-vector of discipline `j`, which is a view of `_sol` (multiphysics_nonlinear_solver.cpp:813-828, 837-848). -/
def setEntry (x : ∀ i, Fin (n i) → ℝ) (j : Fin nd) (k : Fin (n j)) (v : ℝ) : ∀ i, Fin (n i) → ℝ := Function.update x j (Function.update (x j) k v)

/-- `_sol` and what has been printed; the lines between two empty lines (871) form a group. -/
structure Check (n : Fin nd → Nat) where
  x : ∀ i, Fin (n i) → ℝ
  out : List (List Line)

open Classical in
/-- Body of the loop over `k` (multiphysics_nonlinear_solver.cpp:795-876): `dsol_j` is zero except for `delta` (797-799); product (805); `v.add(k, delta)` (824); residual, which enforces the constraints in `_sol` (831-834); the entry
`k`, and only that, gets its old value (844); subtraction of the first residual (851); comparison of the entries of discipline `i` (861-869). -/
def checkOne (P : Physics fun i : Fin nd => Fin (n i)) (r0 : ∀ i, Fin (n i) → ℝ) (s : Check n) (i j : Fin nd) (k : Fin (n j)) : Check n :=
  let p := matMult P s.x i j fun c => if c = k then checkStep else 0
  let r := snesResidual P (setEntry s.x j k (s.x j k + checkStep))
  ⟨setEntry r.1 j k (s.x j k), s.out ++ [(List.finRange (n i)).filterMap fun l => if p.2 l ≠ r.2 i l - r0 i l then some ⟨k, l, p.2 l, r.2 i l - r0 i l⟩ else none]⟩

/-- The three loops (773-795): rows, columns different from the row, degrees of freedom of the column. -/
def checkIndices (n : Fin nd → Nat) : List (Fin nd × (Σ j : Fin nd, Fin (n j))) :=
  (List.finRange nd).flatMap fun i => (List.finRange nd).flatMap fun j => if i = j then [] else (List.finRange (n j)).map fun k => (i, ⟨j, k⟩)

/-- `verify_gateaux_derivatives` (749-880) with the content `x` of `_sol`. -/
def verifyGateaux (P : Physics fun i : Fin nd => Fin (n i)) (x : ∀ i, Fin (n i) → ℝ) : Check n :=
  let r := snesResidual P x
  (checkIndices n).foldl (fun s t => checkOne P r.2 s t.1 t.2.1 t.2.2) ⟨r.1, []⟩

end
end Verif.CoupledSolve
