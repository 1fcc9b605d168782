import Mathlib.Data.Complex.Basic
import Mathlib.Analysis.Complex.Norm
import Mathlib.LinearAlgebra.Matrix.ConjTranspose
import Mathlib.Data.Matrix.Mul
import Mathlib.Analysis.Real.Sqrt
/-
  Scaling of the eigenvectors of the complex eigenproblem solvers used by the U-g and p-k flutter methods: src/numerics/lapack_zggev_base.h.
  Column `i` of `VL`, `VR` holds the left and right eigenvectors returned by LAPACK.
-/
namespace Verif.EigScale
open Matrix

variable {n : Nat}

/-- `this->VR.col(i).norm()` (lapack_zggev_base.h:93). -/
noncomputable def colNorm (V : Matrix (Fin n) (Fin n) ℂ) (i : Fin n) : ℝ := Real.sqrt (∑ j, ‖V j i‖ ^ 2)

/-- First loop (lapack_zggev_base.h:91-98): each right eigenvector divided by its norm. -/
noncomputable def unitCols (V : Matrix (Fin n) (Fin n) ℂ) : Matrix (Fin n) (Fin n) ℂ := fun j i => V j i / (colNorm V i : ℂ)

/-- `r = VL.conjugate().transpose() * B * VR` (lapack_zggev_base.h:101). -/
noncomputable def inner (VL B VR : Matrix (Fin n) (Fin n) ℂ) : Matrix (Fin n) (Fin n) ℂ := VLᴴ * B * VR

open Classical in
/-- Second loop (lapack_zggev_base.h:105-110): left eigenvectors multiplied by `1/r(i,i)`; `r` was computed before the loop. -/
noncomputable def scaleLeft (VL r : Matrix (Fin n) (Fin n) ℂ) : Matrix (Fin n) (Fin n) ℂ := fun j i => if 0 < ‖r i i‖ then VL j i * (1 / r i i) else VL j i

open Classical in
/-- `scale_eigenvectors_to_identity_innerproduct` (lapack_zggev_base.h:85-111); `none`: a right eigenvector of zero norm, divided by zero (the assertion at 94 is for debug builds only). -/
noncomputable def scale (VL B VR : Matrix (Fin n) (Fin n) ℂ) : Option (Matrix (Fin n) (Fin n) ℂ × Matrix (Fin n) (Fin n) ℂ) :=
  if ∀ i, colNorm VR i ≠ 0 then some (scaleLeft VL (inner VL B (unitCols VR)), unitCols VR) else none

end Verif.EigScale
