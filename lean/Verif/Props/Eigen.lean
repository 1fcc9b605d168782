import Mathlib.Analysis.Calculus.Deriv.Basic
import Mathlib.Analysis.Calculus.Deriv.Mul
import Mathlib.Analysis.Calculus.Deriv.Add
import Mathlib.Analysis.Calculus.Deriv.Pi
import Mathlib.Analysis.Calculus.Deriv.Inv
import Mathlib.Analysis.Calculus.Deriv.Pow
import Mathlib.Tactic.FieldSimp
import Mathlib.Tactic.FinCases
import Verif.Model.Eigen
/-
  C18: reported eigenpairs; C19: eigenvalue sensitivities.
-/
namespace Verif.Eig
open Verif Matrix

variable {n m : Nat}

theorem foldl_update (idx : Fin m → Fin n) (tmp : Fin m → ℝ) (hinj : Function.Injective idx)
    (l : List (Fin m)) (v : Fin n → ℝ) :
    (∀ j ∈ l, l.foldl (fun v j => Function.update v (idx j) (tmp j)) v (idx j) = tmp j) ∧
    (∀ i, (∀ j ∈ l, idx j ≠ i) → l.foldl (fun v j => Function.update v (idx j) (tmp j)) v i = v i) := by
  induction l generalizing v with
  | nil => simp
  | cons a l ih =>
    obtain ⟨h1, h2⟩ := ih (Function.update v (idx a) (tmp a))
    constructor
    · intro j hj
      rw [List.foldl_cons]
      by_cases hjl : j ∈ l
      · exact h1 j hjl
      · have : j = a := by simpa [hjl] using hj
        subst this
        rw [h2 (idx j) (fun k hk h => hjl (hinj h ▸ hk))]
        simp
    · intro i hi
      rw [List.foldl_cons, h2 i (fun j hj => hi j (by simp [hj]))]
      exact Function.update_of_ne (hi a (by simp)).symm _ _

theorem scatter_at (idx : Fin m → Fin n) (hinj : Function.Injective idx) (y : Fin m → ℝ) (j : Fin m) :
    scatter idx y (idx j) = y j := (foldl_update idx y hinj _ 0).1 j (by simp)

theorem scatter_off (idx : Fin m → Fin n) (hinj : Function.Injective idx) (y : Fin m → ℝ) (i : Fin n)
    (h : ∀ j, idx j ≠ i) : scatter idx y i = 0 :=
  (foldl_update idx y hinj _ 0).2 i (fun j _ => h j)

theorem sum_scatter (idx : Fin m → Fin n) (hinj : Function.Injective idx) (y : Fin m → ℝ) (f : Fin n → ℝ) :
    ∑ i, f i * scatter idx y i = ∑ j, f (idx j) * y j := by
  rw [← Finset.sum_subset (Finset.subset_univ (Finset.univ.image idx)),
    Finset.sum_image (fun a _ b _ h => hinj h)]
  · simp [scatter_at idx hinj]
  · intro i _ hi
    rw [scatter_off idx hinj y i, mul_zero]
    intro j hj
    exact hi (by simp [← hj])

theorem mulVec_scatter (idx : Fin m → Fin n) (hinj : Function.Injective idx) (y : Fin m → ℝ)
    (M : Matrix (Fin n) (Fin n) ℝ) (j : Fin m) :
    (M *ᵥ scatter idx y) (idx j) = (M.submatrix idx idx *ᵥ y) j := by
  simp only [mulVec, dotProduct, submatrix_apply]
  exact sum_scatter idx hinj y (fun i => M (idx j) i)

theorem dot_scatter (idx : Fin m → Fin n) (hinj : Function.Injective idx) (y : Fin m → ℝ) (w : Fin n → ℝ) :
    w ⬝ᵥ scatter idx y = ∑ j, w (idx j) * y j := by
  simp only [dotProduct]
  exact sum_scatter idx hinj y w

/-! ### C18 -/

/-- What a user expects of a reported eigenpair `(lam, x)` of the pencil `(A, B)` with only the dofs `idx` free. -/
structure IsConstrainedEigenpair (A B : Matrix (Fin n) (Fin n) ℝ) (idx : Fin m → Fin n) (lam : ℝ)
    (x : Fin n → ℝ) : Prop where
  /-- zero at every dof that is not retained -/
  zero_off : ∀ i, (∀ j, idx j ≠ i) → x i = 0
  /-- the eigenvalue equation holds in every retained row -/
  eqn : ∀ j, (A *ᵥ x) (idx j) = lam * (B *ᵥ x) (idx j)
  /-- unit B-norm -/
  unit : x ⬝ᵥ (B *ᵥ x) = 1

theorem smul_sqrt_unit {v : ℝ} (hv : 0 < v) : (1 / Real.sqrt v) * ((1 / Real.sqrt v) * v) = 1 := by
  have h := Real.sqrt_ne_zero'.2 hv
  have h2 : Real.sqrt v * Real.sqrt v = v := Real.mul_self_sqrt hv.le
  field_simp
  nlinarith

/-- C18, generalised problems: if the eigensolver returned a real eigenvalue `mu ≠ 0` and vector `y` of the condensed
pencil it was given and `y` has positive `B`-energy, then `get_eigenpair` succeeds and reports a
`B`-normalised eigenpair of the original (unexchanged) pencil, vanishing at the constrained dofs and parallel to `y`. -/
theorem C18_generalised (s : Sys n m) (B : Matrix (Fin n) (Fin n) ℝ) (idx : Fin m → Fin n)
    (hk : s.kind = .GHEP) (hB : s.B = some B) (hc : s.condensed = some idx)
    (hinj : Function.Injective idx) (hm : m ≠ 0)
    (mu : ℝ) (y : Fin m → ℝ) (full : Fin n → ℝ) (hmu : s.exchange = true → mu ≠ 0)
    (hsolver : (pencil s idx B).1 *ᵥ y = mu • ((pencil s idx B).2 *ᵥ y))
    (hpos : 0 < y ⬝ᵥ (B.submatrix idx idx *ᵥ y)) :
    ∃ (lam : ℝ) (x : Fin n → ℝ), getEigenpair s (mu : ℂ) full y = .ok ((lam : ℂ), x) ∧
      lam = (if s.exchange then 1 / mu else mu) ∧
      IsConstrainedEigenpair s.A B idx lam x ∧
      ∃ c, 0 < c ∧ ∀ j, x (idx j) = c * y j := by
  have hv : (B *ᵥ scatter idx y) ⬝ᵥ scatter idx y = y ⬝ᵥ (B.submatrix idx idx *ᵥ y) := by
    rw [dot_scatter idx hinj, dotProduct]
    refine Finset.sum_congr rfl fun j _ => ?_
    rw [mulVec_scatter idx hinj, mul_comm]
  set v := (B *ᵥ scatter idx y) ⬝ᵥ scatter idx y with hvdef
  have hvp : 0 < v := by rw [hv]; exact hpos
  have hsq : 0 < 1 / Real.sqrt v := by positivity
  refine ⟨if s.exchange then 1 / mu else mu, (1 / Real.sqrt v) • scatter idx y, ?_, rfl, ?_, 1 / Real.sqrt v, hsq, ?_⟩
  · simp only [getEigenpair, hc, hm, if_false, bind, Except.bind, pure, Except.pure, hk, hB, normalise, ← hvdef,
      if_pos hvp, reported]
    congr 2
    split <;> push_cast <;> rfl
  · constructor
    · intro i hi
      simp [scatter_off idx hinj y i hi]
    · intro j
      simp only [mulVec_smul, Pi.smul_apply, smul_eq_mul, mulVec_scatter idx hinj]
      have := congrFun hsolver j
      simp only [Pi.smul_apply, smul_eq_mul, pencil] at this
      by_cases he : s.exchange
      · simp only [he, if_true] at this ⊢
        have hmu' := hmu he
        rw [this]; field_simp
      · simp only [he] at this ⊢
        simp only [Bool.false_eq_true, if_false] at this ⊢
        rw [this]; ring
    · rw [dotProduct_comm, mulVec_smul, smul_dotProduct, dotProduct_smul, ← hvdef]
      exact smul_sqrt_unit hvp
  · intro j
    simp [scatter_at idx hinj]

/-- C18, standard problems: unit Euclidean norm, zero at constrained dofs, retained rows satisfy the equation. -/
theorem C18_standard (s : Sys n m) (idx : Fin m → Fin n)
    (hk : s.kind = .HEP) (hc : s.condensed = some idx) (hx : s.exchange = false)
    (hinj : Function.Injective idx) (hm : m ≠ 0) (mu : ℝ) (y : Fin m → ℝ) (full : Fin n → ℝ)
    (hsolver : s.A.submatrix idx idx *ᵥ y = mu • y) (hy : y ≠ 0) :
    ∃ x, getEigenpair s (mu : ℂ) full y = .ok ((mu : ℂ), x) ∧ IsConstrainedEigenpair s.A 1 idx mu x := by
  have hv : scatter idx y ⬝ᵥ scatter idx y = y ⬝ᵥ y := by
    rw [dot_scatter idx hinj, dotProduct]
    simp [scatter_at idx hinj]
  have hvp : 0 < scatter idx y ⬝ᵥ scatter idx y := by
    rw [hv]
    refine lt_of_le_of_ne (by simpa [dotProduct] using Finset.sum_nonneg (fun i _ => mul_self_nonneg (y i))) ?_
    intro h
    have h' : ∑ i, y i * y i = 0 := h.symm
    rw [Finset.sum_eq_zero_iff_of_nonneg (fun i _ => mul_self_nonneg (y i))] at h'
    exact hy (funext fun i => mul_self_eq_zero.1 (h' i (Finset.mem_univ i)))
  refine ⟨(1 / Real.sqrt (scatter idx y ⬝ᵥ scatter idx y)) • scatter idx y, ?_, ?_⟩
  · simp [getEigenpair, hc, hm, bind, Except.bind, pure, Except.pure, hk, normalise, hvp, reported, hx]
  · constructor
    · intro i hi
      simp [scatter_off idx hinj y i hi]
    · intro j
      have := congrFun hsolver j
      simp only [Pi.smul_apply, smul_eq_mul] at this
      simp only [mulVec_smul, Pi.smul_apply, smul_eq_mul, mulVec_scatter idx hinj, this, one_mulVec,
        scatter_at idx hinj]
      ring
    · rw [one_mulVec, smul_dotProduct, dotProduct_smul]
      exact smul_sqrt_unit hvp

/-- C18: an eigenvector with nonpositive energy is rejected, and problem types other than HEP/GHEP end in
`libmesh_error` even after a successful solve. -/
theorem C18_rejections (s : Sys n m) (val : ℂ) (full : Fin n → ℝ) (cond : Fin m → ℝ) (hc : s.condensed = none) :
    (s.kind = .other → getEigenpair s val full cond = .error .error) ∧
    (∀ B, s.kind = .GHEP → s.B = some B → (B *ᵥ full) ⬝ᵥ full ≤ 0 →
      getEigenpair s val full cond = .error .assertFail) := by
  constructor
  · intro h
    simp [getEigenpair, hc, h, normalise, bind, Except.bind, pure, Except.pure]
  · intro B h hB hv
    simp [getEigenpair, hc, h, hB, normalise, bind, Except.bind, pure, Except.pure, not_lt.2 hv]

/-- C18, finding: a *standard* eigenproblem never gets through `eigenproblem_solve` in a debug build: without a
`B` matrix the assembly dereferences a null pointer, with one the later assertion `!matrix_B` fails. -/
theorem C18_standard_solve_unusable (s : Sys n m) (hk : s.kind = .HEP) :
    solveChecks true s ≠ .ok () ∧ (s.B = none → ∀ dbg, solveChecks dbg s = .error .ub) := by
  constructor
  · unfold solveChecks
    split <;> simp [hk]
  · intro h dbg
    simp [solveChecks, h]

/-- C18, finding: no call of `get_eigenpair` delivers an eigenpair of a problem that is not Hermitian - with a place for the
imaginary part the solver wrapper dereferences a null pointer, without it the normalisation ends in `libmesh_error` -, and a
call that asks for the imaginary part never succeeds, whatever the problem type, build type and constraints. -/
theorem C18_nonhermitian_fails (dbg wantIm : Bool) (s : Sys n m) (val : ℂ) (full fullIm : Fin n → ℝ)
    (cond condIm : Fin m → ℝ) :
    (s.kind = .other ∨ wantIm = true → ∀ r, getEigenpairIm dbg s wantIm val full fullIm cond condIm ≠ .ok r) ∧
    (s.condensed = none → s.kind = .other →
      getEigenpairIm dbg s true val full fullIm cond condIm = .error .ub ∧
      getEigenpairIm dbg s false val full fullIm cond condIm = .error .error) := by
  constructor
  · intro h r hr
    rcases h with h | h
    · cases wantIm <;> cases hc : s.condensed <;> by_cases hm : m = 0 <;>
        simp [getEigenpairIm, slepcPair, normalise, h, hc, hm, bind, Except.bind, pure, Except.pure] at hr
    · subst h
      cases hk : s.kind <;> cases dbg <;> cases hc : s.condensed <;> by_cases hm : m = 0 <;>
        simp [getEigenpairIm, slepcPair, hk, hc, hm, bind, Except.bind] at hr
  · intro hc hk
    constructor <;> simp [getEigenpairIm, slepcPair, normalise, hk, hc, bind, Except.bind]

/-- C18: without a place for the imaginary part the call is the one of `C18_generalised` and `C18_standard`: the eigenvalue
and vector are those of `getEigenpair`, nothing else is written. -/
theorem C18_real_call (dbg : Bool) (s : Sys n m) (val : ℂ) (full fullIm : Fin n → ℝ) (cond condIm : Fin m → ℝ) :
    getEigenpairIm dbg s false val full fullIm cond condIm =
      (getEigenpair s val full cond).map (fun r => (r.1, r.2, none)) := by
  cases hc : s.condensed <;> by_cases hm : m = 0 <;>
    simp only [getEigenpairIm, getEigenpair, slepcPair, hc, hm, bind, Except.bind, pure, Except.pure, Except.map,
      Bool.false_eq_true, and_false, if_false, if_true, Option.map_none] <;>
    (try rfl) <;> (first | (cases normalise s.kind s.B full <;> rfl) | (cases normalise s.kind s.B (scatter _ cond) <;> rfl))

/-- Non-vacuity of `C18_real_call`: one dof, `A = 6`, `B = 4`, SLEPc reports `3/2` with the vector `5`; the call succeeds and
delivers the vector scaled to `x B x = 1`. -/
example : getEigenpairIm true (⟨.GHEP, false, none, fun _ _ => 6, some fun _ _ => 4⟩ : Sys 1 1) false (3 / 2)
    (fun _ => 5) (fun _ => 0) 0 0 = .ok (3 / 2, (1 / Real.sqrt 100) • (fun _ => 5), none) := by
  have h : ((fun _ _ => 4 : Matrix (Fin 1) (Fin 1) ℝ) *ᵥ (fun _ => (5 : ℝ))) ⬝ᵥ (fun _ => (5 : ℝ)) = 100 := by
    simp [mulVec, dotProduct]; norm_num
  simp only [C18_real_call, getEigenpair, normalise, h, bind, Except.bind, pure, Except.pure, Except.map, reported]
  norm_num

/-- Non-vacuity of `C18_generalised`: 3 dofs, dof 2 constrained, exchanged pencil with `mu = 1/3`. -/
example : ∃ (s : Sys 3 2) (B : Matrix (Fin 3) (Fin 3) ℝ) (idx : Fin 2 → Fin 3) (y : Fin 2 → ℝ),
    s.kind = .GHEP ∧ s.B = some B ∧ s.condensed = some idx ∧ Function.Injective idx ∧ s.exchange = true ∧
    (pencil s idx B).1 *ᵥ y = (1/3 : ℝ) • ((pencil s idx B).2 *ᵥ y) ∧
    0 < y ⬝ᵥ (B.submatrix idx idx *ᵥ y) := by
  refine ⟨⟨.GHEP, true, some Fin.castSucc, fun i j => if i = j then 4 else 1, some 1⟩, 1, Fin.castSucc,
    fun i => if i = 0 then 1 else -1, rfl, rfl, rfl, Fin.castSucc_injective _, rfl, ?_, ?_⟩
  · funext i
    revert i
    simp [Fin.forall_fin_two, pencil, mulVec, dotProduct, Fin.sum_univ_two, submatrix, of_apply, one_apply]
    norm_num
  · simp [mulVec, dotProduct, Fin.sum_univ_two, one_apply]

/-! ### C19 -/

theorem hasDerivAt_mulVec {A : ℝ → Matrix (Fin n) (Fin n) ℝ} {A' : Matrix (Fin n) (Fin n) ℝ}
    {x : ℝ → Fin n → ℝ} {x' : Fin n → ℝ} {p : ℝ}
    (hA : ∀ i j, HasDerivAt (fun t => A t i j) (A' i j) p) (hx : ∀ i, HasDerivAt (fun t => x t i) (x' i) p)
    (w : Fin n → ℝ) :
    HasDerivAt (fun t => w ⬝ᵥ (A t *ᵥ x t)) (w ⬝ᵥ (A' *ᵥ x p) + w ⬝ᵥ (A p *ᵥ x')) p := by
  simp only [dotProduct, mulVec, ← Finset.sum_add_distrib, ← mul_add]
  refine HasDerivAt.fun_sum fun i _ => HasDerivAt.const_mul _ (HasDerivAt.fun_sum fun j _ => ?_)
  exact (hA i j).mul (hx j)

/-- The eigenvalue branch `lam`, `x` follows the constrained generalised problem
`(A(t) - lam(t) B(t)) x(t) = 0` on the free dofs `idx`, `x(t) = 0` elsewhere. -/
structure EigenBranch (A B : ℝ → Matrix (Fin n) (Fin n) ℝ) (idx : Fin m → Fin n) (lam : ℝ → ℝ)
    (x : ℝ → Fin n → ℝ) : Prop where
  zero_off : ∀ t i, (∀ j, idx j ≠ i) → x t i = 0
  eqn : ∀ t j, (A t *ᵥ x t) (idx j) = lam t * (B t *ᵥ x t) (idx j)

/-- C19, generalised problems: for every differentiable family of symmetric matrices and differentiable eigenpair branch, the
value computed by `eigenproblem_sensitivity_solve` from the eigenpair it retrieves (any nonzero multiple `c • x` of the branch) and the
sensitivity matrices is the derivative of the eigenvalue. -/
theorem C19_generalised (A B : ℝ → Matrix (Fin n) (Fin n) ℝ) (A' B' : Matrix (Fin n) (Fin n) ℝ)
    (idx : Fin m → Fin n) (lam : ℝ → ℝ) (lam' : ℝ) (x : ℝ → Fin n → ℝ) (x' : Fin n → ℝ) (p c : ℝ)
    (hbr : EigenBranch A B idx lam x)
    (hA : ∀ i j, HasDerivAt (fun t => A t i j) (A' i j) p) (hB : ∀ i j, HasDerivAt (fun t => B t i j) (B' i j) p)
    (hx : ∀ i, HasDerivAt (fun t => x t i) (x' i) p) (hl : HasDerivAt lam lam' p)
    (hAs : (A p)ᵀ = A p) (hBs : (B p)ᵀ = B p) (hc : c ≠ 0) (hn : x p ⬝ᵥ (B p *ᵥ x p) ≠ 0) :
    sensValue .GHEP (lam p) (c • x p) (B p) A' B' = .ok lam' := by
  -- derivative of the projected residual, which vanishes identically
  have h0 : ∀ t, x p ⬝ᵥ (A t *ᵥ x t) - lam t * (x p ⬝ᵥ (B t *ᵥ x t)) = 0 := by
    intro t
    simp only [dotProduct, Finset.mul_sum, ← Finset.sum_sub_distrib]
    refine Finset.sum_eq_zero fun i _ => ?_
    by_cases hi : ∃ j, idx j = i
    · obtain ⟨j, rfl⟩ := hi
      rw [hbr.eqn t j]; ring
    · rw [hbr.zero_off p i (fun j hj => hi ⟨j, hj⟩)]; ring
  have hd := (hasDerivAt_mulVec hA hx (x p)).fun_sub (hl.mul (hasDerivAt_mulVec hB hx (x p)))
  have hz : HasDerivAt (fun t => x p ⬝ᵥ (A t *ᵥ x t) - lam t * (x p ⬝ᵥ (B t *ᵥ x t))) 0 p := by
    simp only [h0]; exact hasDerivAt_const _ _
  have heq := hd.unique hz
  -- the terms with x' cancel by symmetry
  have hx'0 : ∀ i, (∀ j, idx j ≠ i) → x' i = 0 := by
    intro i hi
    have : HasDerivAt (fun t => x t i) 0 p := by
      simp only [fun t => hbr.zero_off t i hi]; exact hasDerivAt_const _ _
    exact (hx i).unique this
  have hsym : ∀ M : Matrix (Fin n) (Fin n) ℝ, Mᵀ = M → x p ⬝ᵥ (M *ᵥ x') = x' ⬝ᵥ (M *ᵥ x p) := by
    intro M hM
    rw [dotProduct_mulVec, ← mulVec_transpose, hM, dotProduct_comm]
  have hcancel : x p ⬝ᵥ (A p *ᵥ x') - lam p * (x p ⬝ᵥ (B p *ᵥ x')) = 0 := by
    rw [hsym _ hAs, hsym _ hBs]
    simp only [dotProduct, Finset.mul_sum, ← Finset.sum_sub_distrib]
    refine Finset.sum_eq_zero fun i _ => ?_
    by_cases hi : ∃ j, idx j = i
    · obtain ⟨j, rfl⟩ := hi
      rw [hbr.eqn p j]; ring
    · rw [hx'0 i (fun j hj => hi ⟨j, hj⟩)]; ring
  have hfin : x p ⬝ᵥ (A' *ᵥ x p) - lam p * (x p ⬝ᵥ (B' *ᵥ x p)) = lam' * (x p ⬝ᵥ (B p *ᵥ x p)) := by
    linarith
  simp only [sensValue]
  congr 1
  simp only [mulVec_smul, smul_dotProduct, dotProduct_smul, smul_eq_mul]
  have hc2 : c * (c * (x p ⬝ᵥ (B p *ᵥ x p))) ≠ 0 := by positivity
  rw [div_eq_iff hc2]
  linear_combination c * c * hfin

/-- C19, standard problems (finding): the code subtracts `lam * x.x`, so its value is the true derivative minus the
eigenvalue. -/
theorem C19_standard_off_by_lambda (A : ℝ → Matrix (Fin n) (Fin n) ℝ) (A' B0 B' : Matrix (Fin n) (Fin n) ℝ)
    (idx : Fin m → Fin n) (lam : ℝ → ℝ) (lam' : ℝ) (x : ℝ → Fin n → ℝ) (x' : Fin n → ℝ) (p : ℝ)
    (hbr : EigenBranch A (fun _ => 1) idx lam x)
    (hA : ∀ i j, HasDerivAt (fun t => A t i j) (A' i j) p)
    (hx : ∀ i, HasDerivAt (fun t => x t i) (x' i) p) (hl : HasDerivAt lam lam' p)
    (hAs : (A p)ᵀ = A p) (hn : x p ⬝ᵥ x p ≠ 0) :
    sensValue .HEP (lam p) (x p) B0 A' B' = .ok (lam' - lam p) := by
  have h := C19_generalised A (fun _ => 1) A' 0 idx lam lam' x x' p 1 hbr hA
    (fun i j => by simpa using hasDerivAt_const p ((1 : Matrix (Fin n) (Fin n) ℝ) i j)) hx hl hAs (by simp)
    one_ne_zero (by simpa using hn)
  simp only [sensValue, one_smul, zero_mulVec, dotProduct_zero, mul_zero, sub_zero, one_mulVec] at h ⊢
  injection h with h
  congr 1
  rw [← h]
  field_simp

/-- C19 fails for standard problems: `A(t) = (t)`, `lam(t) = t`, derivative 1, but the code returns 0 at `t = 1`. -/
theorem C19_standard_fails :
    ∃ (A : ℝ → Matrix (Fin 1) (Fin 1) ℝ) (lam : ℝ → ℝ) (x : ℝ → Fin 1 → ℝ),
      EigenBranch A (fun _ => 1) (id : Fin 1 → Fin 1) lam x ∧ HasDerivAt lam 1 1 ∧
      (∀ i j, HasDerivAt (fun t => A t i j) ((1 : Matrix (Fin 1) (Fin 1) ℝ) i j) 1) ∧
      sensValue .HEP (lam 1) (x 1) 1 1 0 = .ok 0 := by
  refine ⟨fun t _ _ => t, fun t => t, fun _ _ => 1, ⟨fun t i h => absurd rfl (h i), ?_⟩, hasDerivAt_id _, ?_, ?_⟩
  · intro t j; simp [mulVec, dotProduct, one_apply, Subsingleton.elim j 0]
  · intro i j
    rw [Subsingleton.elim i 0, Subsingleton.elim j 0, one_apply_eq]
    exact hasDerivAt_id (1 : ℝ)
  · simp [sensValue]

/-- The one-dof system used as witness. -/
def oneDof (a b : ℝ) : Sys 1 1 := ⟨.GHEP, false, none, fun _ _ => a, some fun _ _ => b⟩

theorem oneDof_sens (a b lam da db : ℝ) (hb : 0 < b) :
    sensitivitySolve (oneDof a b) (lam : ℂ) (fun _ => 1) (fun _ => 1) (fun _ _ => da) (fun _ _ => db) =
      .ok ((da - lam * db) / b, oneDof da db) := by
  have hs : Real.sqrt b * Real.sqrt b = b := Real.mul_self_sqrt hb.le
  have hs0 : Real.sqrt b ≠ 0 := Real.sqrt_ne_zero'.2 hb
  simp only [sensitivitySolve, getEigenpair, normalise, sensValue, reported, bind, Except.bind, pure, Except.pure,
    mulVec, dotProduct, oneDof, Finset.univ_unique, Finset.sum_singleton, mul_one, if_pos hb, Pi.smul_apply,
    smul_eq_mul, Bool.false_eq_true, if_false, Complex.ofReal_re]
  congr 2
  field_simp

/-- C19, repeated use (finding): `eigenproblem_sensitivity_solve` leaves the *sensitivity* matrix of its parameter in
`matrix_B`; the next call normalises and divides by it. With `A = (4)`, `B = (2)` (eigenvalue 2), first parameter with
`A' = 0, B' = 1`, second parameter with `A' = 1, B' = 0`: asked first, the second parameter gives the true derivative
`1/2`; asked after the first parameter it gives `1`. -/
theorem C19_second_parameter_fails :
    ∃ (s1 s2 : Sys 1 1),
      sensitivitySolve (oneDof 4 2) ((2 : ℝ) : ℂ) (fun _ => 1) (fun _ => 1) (fun _ _ => 1) (fun _ _ => 0)
        = .ok (1 / 2, s2) ∧
      sensitivitySolve (oneDof 4 2) ((2 : ℝ) : ℂ) (fun _ => 1) (fun _ => 1) (fun _ _ => 0) (fun _ _ => 1)
        = .ok (-1, s1) ∧
      sensitivitySolve s1 ((2 : ℝ) : ℂ) (fun _ => 1) (fun _ => 1) (fun _ _ => 1) (fun _ _ => 0)
        = .ok (1, s2) := by
  refine ⟨oneDof 0 1, oneDof 1 0, ?_, ?_, ?_⟩
  · rw [oneDof_sens 4 2 2 1 0 (by norm_num)]; norm_num
  · rw [oneDof_sens 4 2 2 0 1 (by norm_num)]; norm_num
  · rw [oneDof_sens 0 1 2 1 0 (by norm_num)]; norm_num

/-- Same finding, the common case: after a parameter that does not change `B` (`B' = 0`), every later `get_eigenpair` of a
generalised problem fails its positivity assertion. -/
theorem C19_get_eigenpair_after_sensitivity_fails (s s1 : Sys n m) (val val2 : ℂ) (full full2 : Fin n → ℝ)
    (cond cond2 : Fin m → ℝ) (A' : Matrix (Fin n) (Fin n) ℝ) (d : ℝ) (hk : s.kind = .GHEP)
    (h : sensitivitySolve s val full cond A' 0 = .ok (d, s1)) :
    getEigenpair s1 val2 full2 cond2 = .error .assertFail := by
  unfold sensitivitySolve at h
  simp only [bind, Except.bind] at h
  split at h
  · contradiction
  · split at h
    · contradiction
    · simp only [hk, sensValue, pure, Except.pure, Except.ok.injEq, Prod.mk.injEq] at h
      obtain ⟨_, rfl⟩ := h
      unfold getEigenpair
      cases hcc : s.condensed with
      | none => simp [hk, normalise, hcc, bind, Except.bind, pure, Except.pure]
      | some idx =>
        by_cases hm : m = 0 <;> simp [hk, normalise, hcc, bind, Except.bind, pure, Except.pure, hm]

/-- Non-vacuity of `C19_generalised`: `A(t) = t² I`, `B(t) = t I`, dof 0 of two free, `lam(t) = t`. -/
example : EigenBranch (n := 2) (m := 1) (fun t => (t ^ 2) • 1) (fun t => t • 1) (fun _ => 0)
    (fun t => t) (fun _ i => if i = 0 then 1 else 0) := by
  constructor
  · intro t i h
    have := h 0
    simp [Ne.symm this]
  · intro t j
    simp [smul_mulVec]; ring

end Verif.Eig
