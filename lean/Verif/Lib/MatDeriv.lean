import Mathlib.Data.Matrix.Mul
import Mathlib.Analysis.Calculus.Deriv.Add
import Mathlib.Analysis.Calculus.Deriv.Mul
import Mathlib.Analysis.Real.Sqrt
/-
  Entrywise derivatives of matrix-valued functions of one real parameter (specification vocabulary for "the sensitivity is the derivative").
-/
namespace Verif
open Matrix

/-- `M' ` is the derivative of `M` at `t`, entry by entry. -/
def MatDeriv {m n : Type*} (M : ℝ → Matrix m n ℝ) (M' : Matrix m n ℝ) (t : ℝ) : Prop :=
  ∀ i j, HasDerivAt (fun s => M s i j) (M' i j) t

namespace MatDeriv
variable {l m n : Type*} {t : ℝ}

theorem mul [Fintype m] {M : ℝ → Matrix l m ℝ} {N : ℝ → Matrix m n ℝ} {M' : Matrix l m ℝ} {N' : Matrix m n ℝ}
    (hM : MatDeriv M M' t) (hN : MatDeriv N N' t) : MatDeriv (fun s => M s * N s) (M' * N t + M t * N') t := by
  intro i j
  have := HasDerivAt.fun_sum (u := Finset.univ) (fun k _ => (hM i k).mul (hN k j))
  simp only [Matrix.mul_apply, Matrix.add_apply]
  rw [← Finset.sum_add_distrib]
  exact this

theorem transpose {M : ℝ → Matrix m n ℝ} {M' : Matrix m n ℝ} (hM : MatDeriv M M' t) : MatDeriv (fun s => (M s)ᵀ) M'ᵀ t :=
  fun i j => hM j i

theorem add {M N : ℝ → Matrix m n ℝ} {M' N' : Matrix m n ℝ} (hM : MatDeriv M M' t) (hN : MatDeriv N N' t) :
    MatDeriv (fun s => M s + N s) (M' + N') t := fun i j => (hM i j).add (hN i j)

theorem smul {c : ℝ → ℝ} {c' : ℝ} {M : ℝ → Matrix m n ℝ} {M' : Matrix m n ℝ} (hc : HasDerivAt c c' t) (hM : MatDeriv M M' t) :
    MatDeriv (fun s => c s • M s) (c' • M t + c t • M') t :=
  fun i j => hc.mul (hM i j)

theorem const (M : Matrix m n ℝ) : MatDeriv (fun _ => M) 0 t := fun i j => hasDerivAt_const _ _

theorem congr {M : ℝ → Matrix m n ℝ} {M' N' : Matrix m n ℝ} (h : MatDeriv M M' t) (e : M' = N') : MatDeriv M N' t := e ▸ h

theorem unique {M : ℝ → Matrix m n ℝ} {M' N' : Matrix m n ℝ} (h : MatDeriv M M' t) (h' : MatDeriv M N' t) : M' = N' := by
  ext i j; exact (h i j).unique (h' i j)

end MatDeriv
end Verif
