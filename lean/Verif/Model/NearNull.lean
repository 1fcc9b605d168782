import Mathlib.Analysis.SpecialFunctions.Trigonometric.Basic
import Verif.Model.Exec
/-
  Near-null space of structural systems: src/elasticity/structural_near_null_vector_space.cpp:29-177.  Reals stand for double.  `project_vector_without_dirichlet` (interpolation of the field into the finite
  element space) is libMesh/MAST projection code and outside the model: the field is modelled.
-/
namespace Verif.NearNull
open Verif

noncomputable section

/-- `Real th = 1.e-5` (structural_near_null_vector_space.cpp:70, 82, 94). -/
def th : ℝ := 1 / 100000

/-- `output(i) = v` on the resized (zero) vector of size 6. -/
def put (i : Nat) (v : ℝ) (o : Nat → ℝ) : Nat → ℝ := fun j => if j = i then v else o j

/-- `StructuralModes::operator()(p, time, output)` (structural_near_null_vector_space.cpp:53-107). -/
def field (mode : Nat) (p : Nat → ℝ) : Exec (Nat → ℝ) :=
  let o : Nat → ℝ := fun _ => 0
  if mode = 0 ∨ mode = 1 ∨ mode = 2 then .ok (put mode 1 o)
  else if mode = 3 then
    .ok (put 2 ((Real.sin th * p 1 + Real.cos th * p 2) - p 2) (put 1 ((Real.cos th * p 1 - Real.sin th * p 2) - p 1) (put mode th o)))
  else if mode = 4 then
    .ok (put 2 ((-Real.sin th * p 0 + Real.cos th * p 2) - p 2) (put 0 ((Real.cos th * p 0 + Real.sin th * p 2) - p 0) (put mode th o)))
  else if mode = 5 then
    .ok (put 1 ((Real.sin th * p 0 + Real.cos th * p 1) - p 1) (put 0 ((Real.cos th * p 0 - Real.sin th * p 1) - p 0) (put mode th o)))
  else .error .error

/-- The constructor (structural_near_null_vector_space.cpp:34-40): an assertion in debug builds. -/
def construct (dbg : Bool) (mode : Nat) : Exec Nat := if dbg && !decide (mode ≤ 5) then .error .assertFail else .ok mode

/-- `StructuralNearNullVectorSpace::operator()` (structural_near_null_vector_space.cpp:140-177): `sp` has to be empty (debug builds); the six fields in order. -/
def space (dbg : Bool) (spSize : Nat) (p : Nat → ℝ) : Exec (List (Nat → ℝ)) :=
  if dbg && !decide (spSize = 0) then .error .assertFail
  else (List.range 6).mapM fun i => do
    let m ← construct dbg i
    field m p

end
end Verif.NearNull
