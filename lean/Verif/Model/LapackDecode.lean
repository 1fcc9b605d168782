import Verif.Model.Exec
import Mathlib.Data.Complex.Basic
import Mathlib.Algebra.BigOperators.Group.Finset.Basic
/-
  Model of the post-processing of LAPACK results:
  /repo/src/numerics/lapack_dgeev_interface.cpp:85-127 (`compute`),
  /repo/src/numerics/lapack_dggev_interface.cpp:97-142 (`compute`),
  /repo/src/numerics/lapack_dgeev_interface.h:193-207 and
  /repo/src/numerics/lapack_dggev_interface.h:235-249 (`scale_eigenvectors_to_identity_innerproduct`).
  LAPACK itself is external; its output arrays are inputs of the model.
-/
namespace Verif.Lapack

/-- Output of the decode loop: eigenvalues and the two eigenvector matrices (stored as columns:
`VR c r` is row `r` of column `c`). -/
structure Out where
  W : Nat → ℂ
  VL : Nat → Nat → ℂ
  VR : Nat → Nat → ℂ

/-- `col c := f` of a column-stored matrix. -/
def setCol (M : Nat → Nat → ℂ) (c : Nat) (f : Nat → ℂ) : Nat → Nat → ℂ :=
  fun c' r => if c' = c then f r else M c' r

def setAt (W : Nat → ℂ) (c : Nat) (x : ℂ) : Nat → ℂ := fun c' => if c' = c then x else W c'

open Classical in
/-- The `while (n_located < n)` loop, lapack_dgeev_interface.cpp:85-127 with eigenvectors requested
(dggev: lapack_dggev_interface.cpp:97-142, `W` being `alpha`).  `wr wi` are the real and imaginary parts of the eigenvalues, `vl vr`
LAPACK's packed real eigenvector columns.  Accessing index `1+n_located ≥ n` is out of bounds.
`fuel` bounds the recursion; `n - k` steps always suffice since every pass advances `n_located`. -/
noncomputable def decodeLoop (n : Nat) (wr wi : Nat → ℝ) (vl vr : Nat → Nat → ℝ) :
    Nat → Nat → Out → Exec Out
  | 0, _, o => .ok o
  | fuel + 1, k, o =>
    if k < n then
      if wi k ≠ 0 then
        if k + 1 < n then
          decodeLoop n wr wi vl vr fuel (k + 2)
            { W := setAt (setAt o.W k ⟨wr k, wi k⟩) (k + 1) ⟨wr k, -wi k⟩
              VL := setCol (setCol o.VL k (fun r => (vl k r : ℂ) + (vl (k + 1) r : ℂ) * ⟨0, 1⟩))
                      (k + 1) (fun r => (vl k r : ℂ) - (vl (k + 1) r : ℂ) * ⟨0, 1⟩)
              VR := setCol (setCol o.VR k (fun r => (vr k r : ℂ) + (vr (k + 1) r : ℂ) * ⟨0, 1⟩))
                      (k + 1) (fun r => (vr k r : ℂ) - (vr (k + 1) r : ℂ) * ⟨0, 1⟩) }
        else .error .ub
      else
        decodeLoop n wr wi vl vr fuel (k + 1)
          { W := setAt o.W k ⟨wr k, 0⟩
            VL := setCol o.VL k (fun r => (vl k r : ℂ))
            VR := setCol o.VR k (fun r => (vr k r : ℂ)) }
    else .ok o

/-- `compute` after the LAPACK call; the matrices were zeroed before (dgeev.cpp:43-44, 61). -/
noncomputable def decode (n : Nat) (wr wi : Nat → ℝ) (vl vr : Nat → Nat → ℝ) : Exec Out :=
  decodeLoop n wr wi vl vr n 0 ⟨fun _ => 0, fun _ _ => 0, fun _ _ => 0⟩

open Classical in
/-- `scale_eigenvectors_to_identity_innerproduct`, lapack_dggev_interface.h:235-249
(dgeev: `B` is the identity, lapack_dgeev_interface.h:193-207).  `r = conj(VL)ᵀ B VR` is computed
before the loop; then column `i` of `VR` is multiplied by `1/r(i,i)` if `|r(i,i)| > 0`. -/
noncomputable def scale (n : Nat) (B : Nat → Nat → ℂ) (VL VR : Nat → Nat → ℂ) : Nat → Nat → ℂ :=
  let r : Nat → ℂ := fun i => ∑ a ∈ Finset.range n, ∑ b ∈ Finset.range n,
    (starRingEnd ℂ) (VL i a) * B a b * VR i b
  loop n (fun i V => if r i ≠ 0 then setCol V i (fun t => V i t * (1 / r i)) else V) VR

end Verif.Lapack
