import Mathlib.Analysis.Calculus.FDeriv.Prod
import Mathlib.Analysis.Calculus.FDeriv.Comp
import Mathlib.Analysis.Calculus.Deriv.Prod
import Mathlib.Analysis.Calculus.Deriv.Comp
import Mathlib.Analysis.Normed.Lp.PiLp
import Mathlib.LinearAlgebra.Matrix.ToLin
import Mathlib.Topology.Algebra.Module.FiniteDimension
import Verif.Model.Sensitivity
/-
  C20: adjoint and direct sensitivities agree and are the total derivative.
-/
namespace Verif.Sens
open Verif Matrix

variable {n : Nat}

/-- Contract of the linear solver: for an invertible matrix it returns the solution. -/
def LinSolver.Correct (ls : LinSolver n) : Prop :=
  ∀ (A : Matrix (Fin n) (Fin n) ℝ) (b : Fin n → ℝ), IsUnit A.det → A *ᵥ (ls.solve A b) = b

/-- The assembled data respect the Dirichlet dofs `C`: constrained rows *and columns* of the Jacobian carry only the diagonal, the
right-hand sides vanish there (what `constrain_element_matrix` / `constrain_element_vector` produce). -/
structure Constrained (C : Fin n → Bool) (J : Matrix (Fin n) (Fin n) ℝ) (r q : Fin n → ℝ) : Prop where
  row : ∀ i, C i = true → ∀ j, j ≠ i → J i j = 0
  col : ∀ i, C i = true → ∀ j, j ≠ i → J j i = 0
  diag : ∀ i, C i = true → J i i ≠ 0
  res : ∀ i, C i = true → r i = 0
  out : ∀ i, C i = true → q i = 0

theorem enforce_eq {C : Fin n → Bool} {J : Matrix (Fin n) (Fin n) ℝ} {b x : Fin n → ℝ}
    (hrow : ∀ i, C i = true → ∀ j, j ≠ i → J i j = 0) (hdiag : ∀ i, C i = true → J i i ≠ 0)
    (hb : ∀ i, C i = true → b i = 0) (h : J *ᵥ x = b) : enforce C x = x := by
  funext i
  unfold enforce
  split
  · rename_i hc
    have h1 : ∑ j, J i j * x j = b i := congrFun h i
    rw [Finset.sum_eq_single i (fun j _ hj => by rw [hrow i hc j hj, zero_mul]) (by simp), hb i hc] at h1
    exact ((mul_eq_zero.1 h1).resolve_left (hdiag i hc)).symm
  · rfl

/-- C20, algebraic core: if both calls use the same Jacobian (`jac X = jac solution`, in particular `X = *solution`, or the
matrix is reused), the adjoint and the direct path return the same number. -/
theorem C20_adjoint_equals_direct (a : Asm n) (ls : LinSolver n) (hls : ls.Correct) (C : Fin n → Bool)
    (matrix : Matrix (Fin n) (Fin n) ℝ) (X sol : Fin n → ℝ) (assemble : Bool)
    (hsame : assemble = true → a.jac sol = a.jac X)
    (hreg : IsUnit (if assemble then a.jac X else matrix).det)
    (hcon : Constrained C (if assemble then a.jac X else matrix) (a.dRdp X) (a.dqdX X)) :
    adjointTotal a X (adjointSolve a ls C matrix sol X assemble) true =
      directTotal a X (sensitivitySolve a ls C matrix X assemble) := by
  unfold adjointTotal directTotal adjointSolve sensitivitySolve
  have hJ : (if assemble then a.jac sol else matrix) = (if assemble then a.jac X else matrix) := by
    by_cases h : assemble <;> simp [h, hsame]
  rw [hJ]
  set J := (if assemble then a.jac X else matrix) with hJdef
  have h1 := hls J ((-1 : ℝ) • a.dRdp X) hreg
  have h2 := hls Jᵀ ((-1 : ℝ) • a.dqdX X) (by rwa [det_transpose])
  rw [enforce_eq hcon.row hcon.diag (fun i hi => by simp [hcon.res i hi]) h1,
    enforce_eq (J := Jᵀ) (fun i hi j hj => hcon.col i hi j hj) (fun i hi => hcon.diag i hi)
      (fun i hi => by simp [hcon.out i hi]) h2]
  set x := ls.solve J ((-1 : ℝ) • a.dRdp X)
  set y := ls.solve Jᵀ ((-1 : ℝ) • a.dqdX X)
  have e1 : a.dRdp X = -(J *ᵥ x) := by rw [h1]; simp
  have e2 : a.dqdX X = -(Jᵀ *ᵥ y) := by rw [h2]; simp
  rw [if_pos rfl, e1, e2, dotProduct_neg, neg_dotProduct, dotProduct_mulVec, ← mulVec_transpose]
  ring

/-- C20, calculus: let `R(X,p) = 0` along a differentiable branch `X(p)` and let `q(X,p)` be the output, with the assembled
Jacobian, residual sensitivity and output derivatives being the true partial derivatives at the point. Then the direct
path returns `d/dp q(X(p), p)`. -/
theorem C20_direct_is_total_derivative (a : Asm n) (ls : LinSolver n) (hls : ls.Correct) (C : Fin n → Bool)
    (matrix : Matrix (Fin n) (Fin n) ℝ) (R : (Fin n → ℝ) × ℝ → (Fin n → ℝ)) (q : (Fin n → ℝ) × ℝ → ℝ)
    (X : ℝ → Fin n → ℝ) (X' : Fin n → ℝ) (p : ℝ) (hX : HasDerivAt X X' p) (hR : ∀ t, R (X t, t) = 0)
    (R' : (Fin n → ℝ) × ℝ →L[ℝ] (Fin n → ℝ)) (hR' : HasFDerivAt R R' (X p, p))
    (hRJ : ∀ v t, R' (v, t) = a.jac (X p) *ᵥ v + t • a.dRdp (X p))
    (q' : (Fin n → ℝ) × ℝ →L[ℝ] ℝ) (hq' : HasFDerivAt q q' (X p, p))
    (hqJ : ∀ v t, q' (v, t) = a.dqdX (X p) ⬝ᵥ v + t * a.dqdp (X p))
    (hreg : IsUnit (a.jac (X p)).det) (hcon : Constrained C (a.jac (X p)) (a.dRdp (X p)) (a.dqdX (X p))) :
    HasDerivAt (fun t => q (X t, t))
      (directTotal a (X p) (sensitivitySolve a ls C matrix (X p) true)) p := by
  have hpair : HasDerivAt (fun t => (X t, t)) (X', (1 : ℝ)) p := hX.prodMk (hasDerivAt_id p)
  have hq := HasFDerivAt.comp_hasDerivAt (f := fun t => (X t, t)) p hq' hpair
  have hr := HasFDerivAt.comp_hasDerivAt (f := fun t => (X t, t)) p hR' hpair
  have h0 : R' (X', 1) = 0 := by
    refine hr.unique ?_
    have : (R ∘ fun t => (X t, t)) = fun _ => 0 := funext fun t => hR t
    rw [this]; exact hasDerivAt_const _ _
  rw [hRJ, one_smul] at h0
  have hJX : a.jac (X p) *ᵥ X' = (-1 : ℝ) • a.dRdp (X p) := by
    rw [neg_one_smul]; exact eq_neg_of_add_eq_zero_left h0
  have hsol : sensitivitySolve a ls C matrix (X p) true = X' := by
    unfold sensitivitySolve
    simp only [if_true]
    have h1 := hls (a.jac (X p)) ((-1 : ℝ) • a.dRdp (X p)) hreg
    rw [enforce_eq hcon.row hcon.diag (fun i hi => by simp [hcon.res i hi]) h1]
    have hinj := (Matrix.mulVec_injective_iff_isUnit (A := a.jac (X p))).2
      ((Matrix.isUnit_iff_isUnit_det _).2 hreg)
    exact hinj (h1.trans hJX.symm)
  rw [hsol]
  have e : q' (X', 1) = directTotal a (X p) X' := by rw [hqJ, directTotal]; ring
  rw [e] at hq
  exact hq

/-- C20 (partial: needs the stored solution to be the linearisation point): the adjoint path returns the total derivative. -/
theorem C20_adjoint_is_total_derivative_partial (a : Asm n) (ls : LinSolver n) (hls : ls.Correct) (C : Fin n → Bool)
    (matrix : Matrix (Fin n) (Fin n) ℝ) (R : (Fin n → ℝ) × ℝ → (Fin n → ℝ)) (q : (Fin n → ℝ) × ℝ → ℝ)
    (X : ℝ → Fin n → ℝ) (X' : Fin n → ℝ) (p : ℝ) (hX : HasDerivAt X X' p) (hR : ∀ t, R (X t, t) = 0)
    (R' : (Fin n → ℝ) × ℝ →L[ℝ] (Fin n → ℝ)) (hR' : HasFDerivAt R R' (X p, p))
    (hRJ : ∀ v t, R' (v, t) = a.jac (X p) *ᵥ v + t • a.dRdp (X p))
    (q' : (Fin n → ℝ) × ℝ →L[ℝ] ℝ) (hq' : HasFDerivAt q q' (X p, p))
    (hqJ : ∀ v t, q' (v, t) = a.dqdX (X p) ⬝ᵥ v + t * a.dqdp (X p))
    (hreg : IsUnit (a.jac (X p)).det) (hcon : Constrained C (a.jac (X p)) (a.dRdp (X p)) (a.dqdX (X p))) :
    HasDerivAt (fun t => q (X t, t))
      (adjointTotal a (X p) (adjointSolve a ls C matrix (X p) (X p) true) true) p := by
  have h := C20_adjoint_equals_direct a ls hls C matrix (X p) (X p) true (fun _ => rfl)
    (by simpa using hreg) (by simpa using hcon)
  rw [h]
  exact C20_direct_is_total_derivative a ls hls C matrix R q X X' p hX hR R' hR' hRJ q' hq' hqJ hreg hcon

/-- C20: the multi-parameter routine returns, parameter by parameter, the single-parameter adjoint value without the
partial term. -/
theorem C20_multiple_parameters (as : List (Asm n)) (X adj : Fin n → ℝ) :
    adjointMulti as X adj = as.map (fun a => adjointTotal a X adj false) := by
  simp [adjointMulti, adjointTotal]

/-- C20 is violated when the point `X` passed to `adjoint_solve` is not the stored solution: the Jacobian is assembled at
`*solution` (line 821). One dof, `R(X,p) = X²/2 + p - 3/2`, `q = X`, `X = 1`, stored solution `2`:
direct path -1 (correct), adjoint path -1/2. -/
theorem C20_adjoint_point_fails :
    ∃ (a : Asm 1) (ls : LinSolver 1) (X sol : Fin 1 → ℝ) (M : Matrix (Fin 1) (Fin 1) ℝ), ls.Correct ∧
      IsUnit (a.jac X).det ∧ IsUnit (a.jac sol).det ∧
      directTotal a X (sensitivitySolve a ls (fun _ => false) M X true) = -1 ∧
      adjointTotal a X (adjointSolve a ls (fun _ => false) M sol X true) true = -1 / 2 := by
  refine ⟨⟨fun X => Matrix.of fun _ _ => X 0, fun _ _ => 1, fun _ _ => 1, fun _ => 0⟩,
    ⟨fun A b i => b i / A 0 0⟩, fun _ => 1, fun _ => 2, 0, ?_, ?_, ?_, ?_, ?_⟩
  · intro A b hA
    simp only [det_unique, isUnit_iff_ne_zero] at hA
    funext i
    rw [Subsingleton.elim i 0]
    simp only [mulVec, dotProduct, Finset.univ_unique, Finset.sum_singleton]
    have : A 0 0 ≠ 0 := hA
    change A 0 0 * (b 0 / A 0 0) = b 0
    field_simp
  · simp
  · simp
  · simp [directTotal, sensitivitySolve, enforce, dotProduct]
  · simp [adjointTotal, adjointSolve, enforce, dotProduct, neg_div]

/-- Non-vacuity of `Constrained` and of the solver contract: two dofs, the first constrained. -/
example : Constrained (n := 2) (fun i => i == 0) (Matrix.diagonal fun i => if i = 0 then 1 else 3)
    (fun i => if i = 0 then 0 else 5) (fun i => if i = 0 then 0 else 7) := by
  constructor <;> intro i hi <;> simp at hi <;> subst hi
  · intro j hj; exact diagonal_apply_ne _ (Ne.symm hj)
  · intro j hj; exact diagonal_apply_ne _ hj
  · simp
  · simp
  · simp

noncomputable example : ∃ ls : LinSolver n, ls.Correct :=
  ⟨⟨fun A b => A⁻¹ *ᵥ b⟩, fun A b h => by rw [mulVec_mulVec, Matrix.mul_nonsing_inv A h, one_mulVec]⟩

end Verif.Sens
