import Mathlib.Analysis.Calculus.Deriv.Comp
import Mathlib.Analysis.Calculus.Deriv.Inv
import Mathlib.Analysis.Calculus.Deriv.Pow
import Mathlib.Analysis.Calculus.Deriv.Prod
import Mathlib.Analysis.Complex.RealDeriv
import Mathlib.Analysis.SpecialFunctions.Sqrt
import Mathlib.LinearAlgebra.Matrix.ToLinearEquiv
import Mathlib.Tactic.FieldSimp
import Mathlib.Tactic.Linarith
import Mathlib.Tactic.NormNum
import Mathlib.Tactic.Ring
import Mathlib.Tactic.Positivity
import Verif.Lib.MatDeriv
import Verif.Model.Flutter
/-
  C88 (state space of the time domain flutter solver), C89 (its sensitivity), C95 (U-g method), C96 (root data).
-/
namespace Verif.Flutter
open Matrix

variable {n : Type*} [Fintype n] [DecidableEq n]

/-! ### Specification -/

/-- The quadratic eigenproblem of the reduced equations of motion `M q'' + C q' + K q = 0` with `q(t) = q exp(λ t)`. -/
def Motion (r : Reduced n) (lam : ℂ) : Matrix n n ℂ := lam ^ 2 • cplx r.m + lam • cplx r.c + cplx r.k

/-- Entrywise derivative of a complex matrix depending on a real parameter. -/
def CMatDeriv {a b : Type*} (M : ℝ → Matrix a b ℂ) (M' : Matrix a b ℂ) (t : ℝ) : Prop := ∀ i j, HasDerivAt (fun s => M s i j) (M' i j) t

/-! ### C88 -/

theorem cplx_mulVec_blocks (A B C D : Matrix n n ℝ) (q w : n → ℂ) :
    cplx (fromBlocks A B C D) *ᵥ Sum.elim q w = Sum.elim (cplx A *ᵥ q + cplx B *ᵥ w) (cplx C *ᵥ q + cplx D *ᵥ w) := by
  have : cplx (fromBlocks A B C D) = fromBlocks (cplx A) (cplx B) (cplx C) (cplx D) := by
    rw [cplx, fromBlocks_map]; rfl
  rw [this, fromBlocks_mulVec]; rfl

theorem cplx_zero {a b : Type*} : cplx (0 : Matrix a b ℝ) = 0 := by ext; simp [cplx]
theorem cplx_one : cplx (1 : Matrix n n ℝ) = 1 := by
  ext i j; by_cases h : i = j <;> simp [cplx, Matrix.one_apply, h]
theorem cplx_neg {a b : Type*} (M : Matrix a b ℝ) : cplx (-M) = -cplx M := by ext; simp [cplx]

theorem sumElim_eq_iff {a b : n → ℂ} {c d : n → ℂ} : (Sum.elim a b : n ⊕ n → ℂ) = Sum.elim c d ↔ a = c ∧ b = d := by
  constructor
  · intro h
    exact ⟨funext fun i => congrFun h (Sum.inl i), funext fun i => congrFun h (Sum.inr i)⟩
  · rintro ⟨rfl, rfl⟩; rfl

/-- C88: the solutions of the generalized eigenproblem are exactly the pairs `(q, λ q)` of solutions of the equations of motion. -/
theorem C88_state_space (r : Reduced n) (lam : ℂ) (x : n ⊕ n → ℂ) :
    cplx (tdA r) *ᵥ x = lam • (cplx (tdB r) *ᵥ x) ↔ ∃ q : n → ℂ, x = Sum.elim q (lam • q) ∧ Motion r lam *ᵥ q = 0 := by
  obtain ⟨q, w, rfl⟩ : ∃ q w, x = Sum.elim q w := ⟨fun i => x (Sum.inl i), fun i => x (Sum.inr i), by ext i; cases i <;> rfl⟩
  have hs : lam • (Sum.elim q (cplx r.m *ᵥ w) : n ⊕ n → ℂ) = Sum.elim (lam • q) (lam • (cplx r.m *ᵥ w)) := by ext i; cases i <;> rfl
  rw [tdA, tdB, cplx_mulVec_blocks, cplx_mulVec_blocks]
  simp only [cplx_zero, cplx_one, cplx_neg, zero_mulVec, one_mulVec, zero_add, add_zero, hs, sumElim_eq_iff]
  constructor
  · rintro ⟨rfl, h2⟩
    refine ⟨q, ⟨rfl, rfl⟩, ?_⟩
    simp only [mulVec_smul, neg_mulVec] at h2
    simp only [Motion, add_mulVec, smul_mulVec]
    rw [pow_two, mul_smul, ← h2, smul_neg]; abel
  · rintro ⟨p, ⟨rfl, rfl⟩, h⟩
    refine ⟨rfl, ?_⟩
    simp only [Motion, add_mulVec, smul_mulVec] at h
    simp only [mulVec_smul, neg_mulVec]
    rw [pow_two, mul_smul] at h
    have : lam • lam • (cplx r.m *ᵥ q) = -(lam • (cplx r.c *ᵥ q)) - cplx r.k *ᵥ q := by
      rw [eq_sub_iff_add_eq, eq_neg_iff_add_eq_zero, ← h]; abel
    rw [this, smul_neg, neg_add_eq_sub]

/-- C88: the eigenvalues are exactly the roots of the characteristic determinant of the equations of motion. -/
theorem C88_spectrum (r : Reduced n) (lam : ℂ) :
    (∃ x : n ⊕ n → ℂ, x ≠ 0 ∧ cplx (tdA r) *ᵥ x = lam • (cplx (tdB r) *ᵥ x)) ↔ (Motion r lam).det = 0 := by
  rw [← Matrix.exists_mulVec_eq_zero_iff]
  constructor
  · rintro ⟨x, hx, h⟩
    obtain ⟨q, rfl, hq⟩ := (C88_state_space r lam x).1 h
    refine ⟨q, fun h0 => hx ?_, hq⟩
    subst h0; ext i; cases i <;> simp
  · rintro ⟨q, hq, h⟩
    refine ⟨Sum.elim q (lam • q), fun h0 => hq ?_, (C88_state_space r lam _).2 ⟨q, rfl, h⟩⟩
    funext i; exact congrFun h0 (Sum.inl i)

/-- Non-vacuity: the undamped oscillator `q'' + 4 q = 0` has the eigenvalue `2 i`. -/
example : (Motion (⟨1, 0, 4⟩ : Reduced (Fin 1)) (2 * Complex.I)).det = 0 := by
  simp [Motion, cplx, Matrix.one_apply, mul_pow, Complex.I_sq]
  norm_num [Matrix.ofNat_apply]

/-! ### C89 -/

/-- Derivative of a simple generalized eigenvalue, in terms of the left eigenvector. -/
theorem eig_deriv {m : Type*} [Fintype m] {A B : ℝ → Matrix m m ℂ} {dA dB : Matrix m m ℂ} {lam : ℝ → ℂ} {dl : ℂ} {x : ℝ → m → ℂ} {dx : m → ℂ} {u : m → ℂ} {t : ℝ}
    (hA : CMatDeriv A dA t) (hB : CMatDeriv B dB t) (hl : HasDerivAt lam dl t) (hx : ∀ i, HasDerivAt (fun s => x s i) (dx i) t)
    (he : ∀ᶠ s in nhds t, A s *ᵥ x s = lam s • (B s *ᵥ x s)) (hu : star u ᵥ* A t = lam t • (star u ᵥ* B t)) (hd : star u ⬝ᵥ (B t *ᵥ x t) ≠ 0) :
    dl = eigSens (lam t) u (x t) dA dB (B t) := by
  have hAx : ∀ i, HasDerivAt (fun s => (A s *ᵥ x s) i) ((dA *ᵥ x t + A t *ᵥ dx) i) t := fun i => by
    have := HasDerivAt.fun_sum (u := Finset.univ) (fun j _ => (hA i j).mul (hx j))
    simp only [mulVec, dotProduct, Pi.add_apply]
    rw [← Finset.sum_add_distrib]; exact this
  have hBx : ∀ i, HasDerivAt (fun s => (B s *ᵥ x s) i) ((dB *ᵥ x t + B t *ᵥ dx) i) t := fun i => by
    have := HasDerivAt.fun_sum (u := Finset.univ) (fun j _ => (hB i j).mul (hx j))
    simp only [mulVec, dotProduct, Pi.add_apply]
    rw [← Finset.sum_add_distrib]; exact this
  have key : ∀ i, (dA *ᵥ x t + A t *ᵥ dx) i = dl * (B t *ᵥ x t) i + lam t * (dB *ᵥ x t + B t *ᵥ dx) i := fun i => by
    have h1 := hl.mul (hBx i)
    refine (hAx i).unique (h1.congr_of_eventuallyEq ?_)
    filter_upwards [he] with s hs
    rw [hs]; rfl
  have key' : dA *ᵥ x t + A t *ᵥ dx = dl • (B t *ᵥ x t) + lam t • (dB *ᵥ x t + B t *ᵥ dx) := funext fun i => key i
  have h2 := congrArg (fun w => star u ⬝ᵥ w) key'
  simp only [dotProduct_add, dotProduct_smul, smul_eq_mul] at h2
  have h3 : star u ⬝ᵥ (A t *ᵥ dx) = lam t * (star u ⬝ᵥ (B t *ᵥ dx)) := by
    rw [dotProduct_mulVec, hu, smul_dotProduct, ← dotProduct_mulVec, smul_eq_mul]
  rw [eigSens, eq_div_iff hd, sub_mulVec, smul_mulVec, dotProduct_sub, dotProduct_smul, smul_eq_mul]
  rw [h3] at h2
  linear_combination -h2

/-- The identity blocks kept in the derivative matrices do not contribute on eigenvectors. -/
theorem eigSens_blocks (d r : Reduced n) (lam : ℂ) (u : n ⊕ n → ℂ) (q : n → ℂ) :
    eigSens lam u (Sum.elim q (lam • q)) (cplx (tdASens d)) (cplx (tdBSens d)) (cplx (tdB r)) =
      eigSens lam u (Sum.elim q (lam • q)) (cplx (fromBlocks 0 0 (-d.k) (-d.c))) (cplx (fromBlocks 0 0 0 d.m)) (cplx (tdB r)) := by
  have : (cplx (tdASens d) - lam • cplx (tdBSens d)) *ᵥ Sum.elim q (lam • q) =
      (cplx (fromBlocks 0 0 (-d.k) (-d.c)) - lam • cplx (fromBlocks 0 0 0 d.m)) *ᵥ Sum.elim q (lam • q) := by
    simp only [sub_mulVec, smul_mulVec, tdASens, tdBSens, cplx_mulVec_blocks, cplx_zero, cplx_one, zero_mulVec, one_mulVec, zero_add, add_zero]
    ext i; cases i <;> simp
  rw [eigSens, this, eigSens]

theorem cplx_deriv {a b : Type*} {M : ℝ → Matrix a b ℝ} {M' : Matrix a b ℝ} {t : ℝ} (h : MatDeriv M M' t) : CMatDeriv (fun s => cplx (M s)) (cplx M') t :=
  fun i j => (h i j).ofReal_comp

/-- C89: the eigenvalue derivative computed from the reduced sensitivities (with the identity blocks left in place) is the derivative of the eigenvalue along any
differentiable branch of eigenpairs. -/
theorem C89_eigenvalue_derivative {M C K : ℝ → Matrix n n ℝ} {dM dC dK : Matrix n n ℝ} {lam : ℝ → ℂ} {dl : ℂ} {x : ℝ → n ⊕ n → ℂ} {dx : n ⊕ n → ℂ}
    {u : n ⊕ n → ℂ} {t : ℝ} (hM : MatDeriv M dM t) (hC : MatDeriv C dC t) (hK : MatDeriv K dK t) (hl : HasDerivAt lam dl t)
    (hx : ∀ i, HasDerivAt (fun s => x s i) (dx i) t)
    (he : ∀ᶠ s in nhds t, cplx (tdA ⟨M s, C s, K s⟩) *ᵥ x s = lam s • (cplx (tdB ⟨M s, C s, K s⟩) *ᵥ x s))
    (hu : star u ᵥ* cplx (tdA ⟨M t, C t, K t⟩) = lam t • (star u ᵥ* cplx (tdB ⟨M t, C t, K t⟩)))
    (hd : star u ⬝ᵥ (cplx (tdB ⟨M t, C t, K t⟩) *ᵥ x t) ≠ 0) :
    dl = eigSens (lam t) u (x t) (cplx (tdASens ⟨dM, dC, dK⟩)) (cplx (tdBSens ⟨dM, dC, dK⟩)) (cplx (tdB ⟨M t, C t, K t⟩)) := by
  have he0 := he.self_of_nhds
  obtain ⟨q, hq, -⟩ := (C88_state_space _ _ _).1 he0
  have hA : MatDeriv (fun s => tdA ⟨M s, C s, K s⟩) (fromBlocks 0 0 (-dK) (-dC)) t := by
    rintro (i | i) (j | j)
    · exact hasDerivAt_const _ _
    · exact hasDerivAt_const _ _
    · exact (hK i j).neg
    · exact (hC i j).neg
  have hB : MatDeriv (fun s => tdB ⟨M s, C s, K s⟩) (fromBlocks 0 0 0 dM) t := by
    rintro (i | i) (j | j)
    · exact hasDerivAt_const _ _
    · exact hasDerivAt_const _ _
    · exact hasDerivAt_const _ _
    · exact hM i j
  have h1 := eig_deriv (cplx_deriv hA) (cplx_deriv hB) hl hx he hu hd
  have h2 := eigSens_blocks ⟨dM, dC, dK⟩ ⟨M t, C t, K t⟩ (lam t) u q
  rw [← hq] at h2
  exact h1.trans h2.symm

/-- C89: if the eigenvalue depends differentiably on parameter and velocity and the two computed eigenvalue derivatives are its partial derivatives, then the reported velocity
sensitivity is the derivative of the flutter velocity along the stability boundary, and the reported root sensitivity the total derivative of the eigenvalue. -/
theorem C89_flutter_velocity {X : Type*} {lam0 : ℂ} {u v : n ⊕ n → ℂ} {r : Reduced n} {asmP asmV : X → Reduced n} {zero : X} {dXdp dXdV : Option X} {s : Sens}
    (hs : tdSensitivity lam0 u v r asmP asmV zero dXdp dXdV = some s) {lam : ℝ × ℝ → ℂ} {L : ℝ × ℝ →L[ℝ] ℂ} {V : ℝ → ℝ} {dV p : ℝ}
    (hp : L (1, 0) = eigSens lam0 u v (cplx (tdASens (asmP (dXdp.getD zero)))) (cplx (tdBSens (asmP (dXdp.getD zero)))) (cplx (tdB r)))
    (hv : L (0, 1) = eigSens lam0 u v (cplx (tdASens (asmV (dXdV.getD zero)))) (cplx (tdBSens (asmV (dXdV.getD zero)))) (cplx (tdB r)))
    (hL : HasFDerivAt lam L (p, V p)) (hV : HasDerivAt V dV p) (hb : ∀ᶠ q in nhds p, (lam (q, V q)).re = 0) (hne : (L (0, 1)).re ≠ 0) :
    s.vSens = dV ∧ HasDerivAt (fun q => lam (q, V q)) s.rootSens p ∧ s.rootSens.re = 0 := by
  have hc : HasDerivAt (fun q => (q, V q)) ((1 : ℝ), dV) p := (hasDerivAt_id p).prodMk hV
  have ht : HasDerivAt (fun q => lam (q, V q)) (L (1, dV)) p := hL.comp_hasDerivAt p hc
  have hLl : L (1, dV) = L (1, 0) + (dV : ℂ) * L (0, 1) := by
    have : ((1 : ℝ), dV) = (1, 0) + dV • ((0 : ℝ), (1 : ℝ)) := by ext <;> simp
    rw [this, map_add, map_smul]; simp
  have hre : (L (1, dV)).re = 0 := by
    have h1 : HasDerivAt (fun q => (lam (q, V q)).re) (L (1, dV)).re p := by
      have := (Complex.reCLM.hasFDerivAt.comp_hasDerivAt p ht)
      exact this
    have h2 : HasDerivAt (fun q => (lam (q, V q)).re) 0 p := (hasDerivAt_const p (0 : ℝ)).congr_of_eventuallyEq hb
    exact h1.unique h2
  have hvs : dV = -(L (1, 0)).re / (L (0, 1)).re := by
    rw [hLl] at hre
    simp at hre
    rw [eq_div_iff hne]; linarith
  have hsv : s.vSens = -(L (1, 0)).re / (L (0, 1)).re ∧ s.rootSens = L (1, 0) + L (0, 1) * (s.vSens : ℂ) := by
    unfold tdSensitivity at hs
    cases dXdV with
    | some w =>
      simp only [Option.isNone_some, Bool.false_eq_true, if_false, Option.map_some, Option.some.injEq] at hs
      simp only [Option.getD_some] at hv
      subst hs
      simp only [hp, hv]; exact ⟨trivial, trivial⟩
    | none =>
      cases dXdp with
      | some w => simp at hs
      | none =>
        simp only [Option.isNone_none, if_true, Option.map_some, Option.some.injEq, Option.getD_none] at hs hp hv
        subst hs
        simp only [hp, hv]; exact ⟨trivial, trivial⟩
  have e1 : s.vSens = dV := by rw [hsv.1, hvs]
  have e2 : s.rootSens = L (1, dV) := by rw [hsv.2, e1, hLl, mul_comm]
  exact ⟨e1, e2 ▸ ht, e2 ▸ hre⟩

/-- C89: sensitivities are reported unless a solution sensitivity for the parameter is supplied without one for the velocity. -/
theorem C89_defined_partial {X : Type*} (lam0 : ℂ) (u v : n ⊕ n → ℂ) (r : Reduced n) (asmP asmV : X → Reduced n) (zero : X) (dXdp dXdV : Option X)
    (h : dXdp = none ∨ dXdV ≠ none) : ∃ s, tdSensitivity lam0 u v r asmP asmV zero dXdp dXdV = some s := by
  cases dXdV with
  | some w => simp [tdSensitivity]
  | none =>
    rcases h with rfl | h
    · simp [tdSensitivity]
    · exact absurd rfl h

/-- C89 (violated): with a solution sensitivity for the parameter and none for the velocity (the documented default) the code dereferences a null pointer. -/
theorem C89_null_velocity_sensitivity_fails {X : Type*} (lam0 : ℂ) (u v : n ⊕ n → ℂ) (r : Reduced n) (asmP asmV : X → Reduced n) (zero w : X) :
    tdSensitivity lam0 u v r asmP asmV zero (some w) none = none := rfl

/-- Reduced matrices of the one mode example `q'' - 2 (V - p) q' + (1 + (V - p)²) q = 0`, whose eigenvalues are `V - p ± i`. -/
def exR (p V : ℝ) : Reduced (Fin 1) := ⟨1, !![-2 * (V - p)], !![1 + (V - p) ^ 2]⟩
/-- Its right eigenvector for `V - p + i`. -/
noncomputable def exX (p V : ℝ) : Fin 1 ⊕ Fin 1 → ℂ := Sum.elim (fun _ => 1) (fun _ => ((V - p : ℝ) : ℂ) + Complex.I)

/-- Non-vacuity of `C89_eigenvalue_derivative`: all hypotheses hold for the one mode example (derivative with respect to `V`, at `V = p`). -/
example (p : ℝ) : (1 : ℂ) = eigSens (((p - p : ℝ) : ℂ) + Complex.I) (Sum.elim (fun _ => -Complex.I) (fun _ => 1)) (exX p p)
    (cplx (tdASens ⟨0, !![-2], 0⟩)) (cplx (tdBSens ⟨0, !![-2], 0⟩)) (cplx (tdB (exR p p))) := by
  refine C89_eigenvalue_derivative (n := Fin 1) (M := fun _ => 1) (C := fun V => !![-2 * (V - p)]) (K := fun V => !![1 + (V - p) ^ 2])
    (lam := fun V => ((V - p : ℝ) : ℂ) + Complex.I) (x := fun V => exX p V) (dx := Sum.elim (fun _ => 0) (fun _ => 1)) (t := p) (MatDeriv.const _) ?_ ?_ ?_ ?_ ?_ ?_ ?_
  · intro i j; fin_cases i; fin_cases j
    have := ((hasDerivAt_id p).sub_const p).const_mul (-2 : ℝ)
    simpa using this
  · intro i j; fin_cases i; fin_cases j
    have := (((hasDerivAt_id p).sub_const p).pow 2).const_add (1 : ℝ)
    simpa using this
  · have := (((hasDerivAt_id p).sub_const p).ofReal_comp).add_const Complex.I
    simpa using this
  · rintro (i | i)
    · exact hasDerivAt_const _ _
    · have := (((hasDerivAt_id p).sub_const p).ofReal_comp).add_const Complex.I
      simpa [exX] using this
  · refine Filter.Eventually.of_forall fun V => (C88_state_space _ _ _).2 ⟨fun _ => 1, ?_, ?_⟩
    · ext i; cases i <;> simp [exX]
    · ext i; fin_cases i
      simp [Motion, cplx, mulVec, dotProduct]
      linear_combination Complex.I_sq
  · ext i
    rcases i with i | i <;> fin_cases i
    · simp [vecMul, dotProduct, tdA, tdB, cplx, Fin.eq_zero]
    · simp [vecMul, dotProduct, tdA, tdB, cplx, Fin.eq_zero]
  · simp [mulVec, dotProduct, tdB, cplx, exX, Matrix.one_apply, Fin.eq_zero]

/-- Non-vacuity of `C89_flutter_velocity`: for the one mode example, `λ(p, V) = V - p + i` and the flutter velocity is `V = p`. -/
example : ∃ s, tdSensitivity Complex.I (Sum.elim (fun _ => -Complex.I) (fun _ => 1)) (exX 0 0) (exR 0 0) (fun _ : Unit => ⟨0, !![2], 0⟩) (fun _ => ⟨0, !![-2], 0⟩) () none none = some s ∧
    s.vSens = 1 ∧ s.rootSens.re = 0 := by
  have hV : ∀ c : ℝ, eigSens Complex.I (Sum.elim (fun _ => -Complex.I) (fun _ => 1)) (exX 0 0) (cplx (tdASens (⟨0, !![-2 * c], 0⟩ : Reduced (Fin 1))))
      (cplx (tdBSens (⟨0, !![-2 * c], 0⟩ : Reduced (Fin 1)))) (cplx (tdB (exR 0 0))) = c := fun c => by
    simp [eigSens, sub_mulVec, smul_mulVec, mulVec, dotProduct, tdASens, tdBSens, tdB, cplx, exX, exR]
    rw [← two_mul, div_eq_iff (by simp)]; ring
  let L : ℝ × ℝ →L[ℝ] ℂ := Complex.ofRealCLM.comp (ContinuousLinearMap.snd ℝ ℝ ℝ - ContinuousLinearMap.fst ℝ ℝ ℝ)
  have hL : HasFDerivAt (fun z : ℝ × ℝ => L z + Complex.I) L (0, 0) := L.hasFDerivAt.add_const _
  refine ⟨_, rfl, ?_⟩
  have := C89_flutter_velocity (n := Fin 1) (X := Unit) (lam0 := Complex.I) (u := Sum.elim (fun _ => -Complex.I) (fun _ => 1)) (v := exX 0 0) (r := exR 0 0)
    (asmP := fun _ : Unit => ⟨0, !![2], 0⟩) (asmV := fun _ => ⟨0, !![-2], 0⟩) (zero := ()) (dXdp := none) (dXdV := none) rfl (L := L) (V := fun q => q) (dV := 1) (p := 0)
    (by have := hV (-1); norm_num at this; rw [this]; simp [L]) (by have := hV 1; norm_num at this; rw [this]; simp [L]) hL (hasDerivAt_id' 0)
    (Filter.Eventually.of_forall fun q => by simp [L]) (by simp [L])
  exact ⟨this.1, this.2.2⟩

/-! ### C95 -/

/-- C95: for an eigenvalue with positive real part, velocity, damping and frequency of the root satisfy `λ = (1 + i g) / V²` and `kr = ω b / V`. -/
theorem C95_root (kr b : ℝ) (hb : b ≠ 0) (num den : ℂ) (hd : den ≠ 0) (hr : 0 < (num / den).re) :
    let R := ugRoot kr b num den
    0 < R.V ∧ R.root = num / den ∧ R.root * ((R.V : ℂ) ^ 2) = 1 + (R.g : ℂ) * Complex.I ∧ R.kr * R.V = R.omega * b ∧ R.kr = kr ∧ R.nonphysical = false := by
  have hn : 0 < ‖den‖ := norm_pos_iff.2 hd
  have hV : 0 < 1 / (num / den).re := by positivity
  simp only [ugRoot, hn, hr, if_true]
  refine ⟨Real.sqrt_pos.2 hV, trivial, ?_, ?_, trivial, trivial⟩
  · rw [← Complex.ofReal_pow, Real.sq_sqrt hV.le]
    apply Complex.ext
    · simp; field_simp
    · simp; field_simp
  · field_simp

/-- C95: a finite eigenvalue is flagged nonphysical exactly when its real part is not positive, and then has zero velocity, damping and frequency; flagged or not, the
eigenvalue and the reduced frequency are kept. -/
theorem C95_nonphysical (kr b : ℝ) (num den : ℂ) (hd : den ≠ 0) :
    ((ugRoot kr b num den).nonphysical = true ↔ (num / den).re ≤ 0) ∧ (ugRoot kr b num den).root * den = num ∧ (ugRoot kr b num den).kr = kr ∧
    ((ugRoot kr b num den).nonphysical = true → (ugRoot kr b num den).V = 0 ∧ (ugRoot kr b num den).g = 0 ∧ (ugRoot kr b num den).omega = 0) := by
  have hn : 0 < ‖den‖ := norm_pos_iff.2 hd
  by_cases hr : 0 < (num / den).re
  · simp [ugRoot, hn, hr, hd]
  · simp [ugRoot, hn, hr, not_lt.1 hr, hd]

/-- C95 (violated): an infinite eigenvalue (zero denominator) is not flagged, and is presented as a physical root with zero velocity and zero damping. -/
theorem C95_infinite_root_fails (kr b : ℝ) (num : ℂ) :
    (ugRoot kr b num 0).nonphysical = false ∧ (ugRoot kr b num 0).V = 0 ∧ (ugRoot kr b num 0).g = 0 := by simp [ugRoot]

/-- C95: the eigenproblem solved at a reduced frequency is the equation of harmonic motion with structural damping `g` at velocity `V`, frequency `ω = kr V / b` and dynamic
pressure `ρ V² / 2`. -/
theorem C95_equation (kr b rho : ℝ) (hb : b ≠ 0) (M K : Matrix n n ℝ) (a : Matrix n n ℂ) (num den : ℂ) (hd : den ≠ 0) (hr : 0 < (num / den).re) (x : n → ℂ) :
    let R := ugRoot kr b num den
    ugA kr b rho M a *ᵥ x = (num / den) • (ugB K *ᵥ x) ↔
      (-((R.omega ^ 2 : ℝ) : ℂ) • cplx M + (1 + (R.g : ℂ) * Complex.I) • cplx K + ((1 / 2 * rho * R.V ^ 2 : ℝ) : ℂ) • a) *ᵥ x = 0 := by
  intro R
  obtain ⟨hV, h1, h2, h3, h4, -⟩ := C95_root kr b hb num den hd hr
  have hV' : ((R.V : ℂ) ^ 2) ≠ 0 := pow_ne_zero _ (by exact_mod_cast hV.ne')
  have hw : R.omega = kr / b * R.V := by
    have : R.kr * R.V = R.omega * b := h3
    rw [show R.kr = kr from h4] at this
    field_simp; linarith
  have e : (-((R.omega ^ 2 : ℝ) : ℂ) • cplx M + (1 + (R.g : ℂ) * Complex.I) • cplx K + ((1 / 2 * rho * R.V ^ 2 : ℝ) : ℂ) • a) *ᵥ x =
      ((R.V : ℂ) ^ 2) • ((num / den) • (ugB K *ᵥ x) - ugA kr b rho M a *ᵥ x) := by
    rw [← h2, h1, hw]
    simp only [ugA, ugB, add_mulVec, smul_mulVec, neg_mulVec, neg_smul, smul_neg]
    ext i
    simp only [Pi.add_apply, Pi.smul_apply, Pi.sub_apply, Pi.neg_apply, smul_eq_mul]
    push_cast
    ring
  rw [e, smul_eq_zero, or_iff_right hV', sub_eq_zero]
  exact eq_comm

/-- C95: derivative of the eigenvalue with respect to reduced frequency. -/
theorem C95_kr_derivative {b rho : ℝ} {M K : Matrix n n ℝ} {a : ℝ → Matrix n n ℂ} {da : Matrix n n ℂ} {lam : ℝ → ℂ} {dl : ℂ} {x : ℝ → n → ℂ} {dx u : n → ℂ} {kr : ℝ}
    (ha : CMatDeriv a da kr) (hl : HasDerivAt lam dl kr) (hx : ∀ i, HasDerivAt (fun s => x s i) (dx i) kr)
    (he : ∀ᶠ s in nhds kr, ugA s b rho M (a s) *ᵥ x s = lam s • (ugB K *ᵥ x s)) (hu : star u ᵥ* ugA kr b rho M (a kr) = lam kr • (star u ᵥ* ugB K))
    (hd : star u ⬝ᵥ (ugB K *ᵥ x kr) ≠ 0) : dl = eigSens (lam kr) u (x kr) (ugAKr kr b rho M da) 0 (ugB K) := by
  refine eig_deriv (A := fun s => ugA s b rho M (a s)) (B := fun _ => ugB K) ?_ (fun i j => hasDerivAt_const _ _) hl hx he hu hd
  intro i j
  have h1 : HasDerivAt (fun s : ℝ => (((s / b) ^ 2 : ℝ) : ℂ)) ((2 * kr * (b ^ 2)⁻¹ : ℝ) : ℂ) kr := by
    refine HasDerivAt.ofReal_comp ?_
    refine (((hasDerivAt_id kr).div_const b).pow 2).congr_deriv ?_
    simp [div_eq_mul_inv]; ring
  have h2 := (h1.mul_const (cplx M i j)).add (((ha i j).neg).const_mul ((rho / 2 : ℝ) : ℂ))
  exact h2

/-- C95: derivative of the eigenvalue with respect to a parameter of the structure, for an aerodynamic matrix that does not depend on the parameter. -/
theorem C95_param_derivative_partial {b rho kr : ℝ} {M K : ℝ → Matrix n n ℝ} {dM dK : Matrix n n ℝ} {a : Matrix n n ℂ} {lam : ℝ → ℂ} {dl : ℂ} {x : ℝ → n → ℂ}
    {dx u : n → ℂ} {p : ℝ} (hM : MatDeriv M dM p) (hK : MatDeriv K dK p) (hl : HasDerivAt lam dl p) (hx : ∀ i, HasDerivAt (fun s => x s i) (dx i) p)
    (he : ∀ᶠ s in nhds p, ugA kr b rho (M s) a *ᵥ x s = lam s • (ugB (K s) *ᵥ x s)) (hu : star u ᵥ* ugA kr b rho (M p) a = lam p • (star u ᵥ* ugB (K p)))
    (hd : star u ⬝ᵥ (ugB (K p) *ᵥ x p) ≠ 0) : dl = eigSens (lam p) u (x p) (ugASens kr b rho dM) (ugB dK) (ugB (K p)) := by
  refine eig_deriv (A := fun s => ugA kr b rho (M s) a) (B := fun s => ugB (K s)) ?_ (cplx_deriv hK) hl hx he hu hd
  intro i j
  have h2 := ((hM i j).ofReal_comp.const_mul (((kr / b) ^ 2 : ℝ) : ℂ)).add_const (((rho / 2 : ℝ) : ℂ) * -a i j)
  refine h2.congr_deriv ?_
  simp [ugASens, cplx]

/-- C95 (violated): when the aerodynamic matrix depends on the parameter the computed eigenvalue derivative misses its contribution: here `λ(p) = 1 - p`. -/
theorem C95_aero_param_fails : ∃ (a : ℝ → Matrix (Fin 1) (Fin 1) ℂ) (da : Matrix (Fin 1) (Fin 1) ℂ) (lam : ℝ → ℂ) (x u : Fin 1 → ℂ),
    CMatDeriv a da 0 ∧ (∀ p, ugA 1 1 2 1 (a p) *ᵥ x = lam p • (ugB 1 *ᵥ x)) ∧ star u ᵥ* ugA 1 1 2 1 (a 0) = lam 0 • (star u ᵥ* ugB 1) ∧
    star u ⬝ᵥ (ugB 1 *ᵥ x) ≠ 0 ∧ HasDerivAt lam (-1) 0 ∧ eigSens (lam 0) u x (ugASens 1 1 2 0) (ugB 0) (ugB 1) = 0 := by
  refine ⟨fun p => !![(p : ℂ)], !![1], fun p => 1 - (p : ℂ), fun _ => 1, fun _ => 1, ?_, ?_, ?_, ?_, ?_, ?_⟩
  · intro i j; fin_cases i; fin_cases j
    simpa using (hasDerivAt_id (0 : ℝ)).ofReal_comp
  · intro p
    ext i; fin_cases i; simp [ugA, ugB, cplx, mulVec, dotProduct]; ring
  · ext i; fin_cases i; simp [ugA, ugB, cplx, vecMul, dotProduct]
  · simp [ugB, cplx, mulVec, dotProduct]
  · simpa using ((hasDerivAt_id (0 : ℝ)).ofReal_comp).const_sub (1 : ℂ)
  · simp [eigSens, ugASens, ugB, cplx_zero]

/-- C95: along the flutter boundary `g = 0`, the reported sensitivities are the derivatives of the reduced frequency and of the flutter velocity, provided the two computed
eigenvalue derivatives are the partial derivatives of the eigenvalue. -/
theorem C95_sensitivity {lam : ℝ × ℝ → ℂ} {L : ℝ × ℝ →L[ℝ] ℂ} {kr : ℝ → ℝ} {dkr p b rho : ℝ} {u v : n → ℂ} {M K dM dK : Matrix n n ℝ} {da : Matrix n n ℂ}
    (hL : HasFDerivAt lam L (p, kr p)) (hk : HasDerivAt kr dkr p) (hb : ∀ᶠ q in nhds p, (lam (q, kr q)).im = 0) (hpos : 0 < (lam (p, kr p)).re)
    (h1 : L (1, 0) = eigSens (lam (p, kr p)) u v (ugASens (kr p) b rho dM) (ugB dK) (ugB K))
    (h2 : L (0, 1) = eigSens (lam (p, kr p)) u v (ugAKr (kr p) b rho M da) 0 (ugB K)) (hne : (L (0, 1)).im ≠ 0) :
    let S := ugSensitivity (lam (p, kr p)) u v (kr p) b rho M K dM dK da
    S.krSens = dkr ∧ HasDerivAt (fun q => lam (q, kr q)) S.rootSens p ∧ HasDerivAt (fun q => Real.sqrt (1 / (lam (q, kr q)).re)) S.vSens p := by
  intro S
  have hc : HasDerivAt (fun q => (q, kr q)) ((1 : ℝ), dkr) p := (hasDerivAt_id p).prodMk hk
  have ht : HasDerivAt (fun q => lam (q, kr q)) (L (1, dkr)) p := hL.comp_hasDerivAt p hc
  have hLl : L (1, dkr) = L (1, 0) + (dkr : ℂ) * L (0, 1) := by
    have : ((1 : ℝ), dkr) = (1, 0) + dkr • ((0 : ℝ), (1 : ℝ)) := by ext <;> simp
    rw [this, map_add, map_smul]; simp
  have him : (L (1, dkr)).im = 0 := by
    have e1 : HasDerivAt (fun q => (lam (q, kr q)).im) (L (1, dkr)).im p := by
      have := (Complex.imCLM.hasFDerivAt.comp_hasDerivAt p ht)
      exact this
    have e2 : HasDerivAt (fun q => (lam (q, kr q)).im) 0 p := (hasDerivAt_const p (0 : ℝ)).congr_of_eventuallyEq hb
    exact e1.unique e2
  have him0 : (lam (p, kr p)).im = 0 := hb.self_of_nhds
  have hS : S.krSens = dkr := by
    have e : S.krSens = -dgOf (lam (p, kr p)) (L (1, 0)) / dgOf (lam (p, kr p)) (L (0, 1)) := by rw [h1, h2]; rfl
    rw [hLl] at him
    simp at him
    rw [e]
    simp only [dgOf, him0, zero_div, zero_mul, sub_zero]
    have := hpos.ne'
    field_simp
    linarith
  have hR : S.rootSens = L (1, dkr) := by
    have e : S.rootSens = L (1, 0) + L (0, 1) * (S.krSens : ℂ) := by rw [h1, h2]; rfl
    rw [e, hS, hLl, mul_comm]
  refine ⟨hS, hR ▸ ht, ?_⟩
  have hre : HasDerivAt (fun q => (lam (q, kr q)).re) S.rootSens.re p := by
    rw [hR]
    have := (Complex.reCLM.hasFDerivAt.comp_hasDerivAt p ht)
    exact this
  have hinv : HasDerivAt (fun q => 1 / (lam (q, kr q)).re) (-S.rootSens.re / (lam (p, kr p)).re ^ 2) p := by
    simp only [one_div]; exact hre.fun_inv hpos.ne'
  have hsq := hinv.sqrt (one_div_pos.2 hpos).ne'
  refine hsq.congr_deriv ?_
  have e : S.vSens = -(1 / 2) * S.rootSens.re / (lam (p, kr p)).re ^ (3 / 2 : ℝ) := rfl
  rw [e]
  set r := (lam (p, kr p)).re
  have hrp : r ^ (3 / 2 : ℝ) = r * Real.sqrt r := by
    rw [show (3 / 2 : ℝ) = 1 + 1 / 2 by norm_num, Real.rpow_add hpos, Real.rpow_one, ← Real.sqrt_eq_rpow]
  have hs : 0 < Real.sqrt r := Real.sqrt_pos.2 hpos
  have hss : Real.sqrt r * Real.sqrt r = r := Real.mul_self_sqrt hpos.le
  rw [hrp, one_div r, Real.sqrt_inv]
  have hr0 : r ≠ 0 := hpos.ne'
  field_simp
  rw [pow_two, hss]

/-- Non-vacuity of `C95_sensitivity`: one mode with `M = 1 + p`, `K = 1`, `a(kr) = i (kr - 1)`, so `λ = kr² (1 + p) - i (kr - 1)`, `kr = 1` on the boundary and `V = (1 + p)^(-1/2)`. -/
example : (ugSensitivity 1 (fun _ => 1) (fun _ => 1) 1 1 2 !![1] !![1] !![1] 0 !![Complex.I]).krSens = 0 ∧
    HasDerivAt (fun q : ℝ => Real.sqrt (1 / (1 + q))) (ugSensitivity 1 (fun _ => 1) (fun _ => 1) 1 1 2 (!![1] : Matrix (Fin 1) (Fin 1) ℝ) !![1] !![1] 0 !![Complex.I]).vSens 0 := by
  let f : ℝ × ℝ → ℂ := fun z => ((z.2 ^ 2 * (1 + z.1) : ℝ) : ℂ) + ((-(z.2 - 1) : ℝ) : ℂ) * Complex.I
  let L : ℝ × ℝ →L[ℝ] ℂ := Complex.ofRealCLM.comp (ContinuousLinearMap.fst ℝ ℝ ℝ + (2 : ℝ) • ContinuousLinearMap.snd ℝ ℝ ℝ) +
    (-(Complex.I)) • Complex.ofRealCLM.comp (ContinuousLinearMap.snd ℝ ℝ ℝ)
  have hL : HasFDerivAt f L (0, 1) := by
    have a1 : HasFDerivAt (fun z : ℝ × ℝ => z.2) (ContinuousLinearMap.snd ℝ ℝ ℝ) (0, 1) := (ContinuousLinearMap.snd ℝ ℝ ℝ).hasFDerivAt
    have a0 : HasFDerivAt (fun z : ℝ × ℝ => z.1) (ContinuousLinearMap.fst ℝ ℝ ℝ) (0, 1) := (ContinuousLinearMap.fst ℝ ℝ ℝ).hasFDerivAt
    have b := Complex.ofRealCLM.hasFDerivAt.comp ((0 : ℝ), (1 : ℝ)) ((a1.pow 2).mul (a0.const_add 1))
    have c := (Complex.ofRealCLM.hasFDerivAt.comp ((0 : ℝ), (1 : ℝ)) ((a1.sub_const 1).neg)).mul_const Complex.I
    refine (b.add c).congr_fderiv ?_
    ext <;> simp [L]
  have := C95_sensitivity (n := Fin 1) (lam := f) (L := L) (kr := fun _ => 1) (dkr := 0) (p := 0) (b := 1) (rho := 2) (u := fun _ => 1) (v := fun _ => 1) (M := !![1]) (K := !![1])
    (dM := !![1]) (dK := 0) (da := !![Complex.I]) hL (hasDerivAt_const _ _) (Filter.Eventually.of_forall fun q => by simp [f]) (by simp [f])
    (by simp [L, f, eigSens, ugASens, ugB, cplx, sub_mulVec, smul_mulVec, mulVec, dotProduct])
    (by simp [L, f, eigSens, ugAKr, ugB, cplx, sub_mulVec, add_mulVec, neg_mulVec, smul_mulVec, mulVec, dotProduct]) (by simp [L])
  simp [f] at this
  exact ⟨this.1, by simpa using this.2.2⟩

/-! ### C96 -/

/-- C96: participation factors are nonnegative and sum to one, unless every product of an eigenvector entry with the corresponding entry of `B v` vanishes. -/
theorem C96_participation {m : Type*} [Fintype m] (B : Matrix m m ℂ) (v : m → ℂ) (h : ∃ i, v i ≠ 0 ∧ (B *ᵥ v) i ≠ 0) :
    (∀ i, 0 ≤ participation B v i) ∧ ∑ i, participation B v i = 1 ∧
    ∀ i j, participation B v i * (‖v j‖ * ‖(B *ᵥ v) j‖) = participation B v j * (‖v i‖ * ‖(B *ᵥ v) i‖) := by
  have hp : ∀ j, ‖(starRingEnd ℂ) (v j) * (B *ᵥ v) j‖ = ‖v j‖ * ‖(B *ᵥ v) j‖ := fun j => by rw [norm_mul, RCLike.norm_conj]
  have hs : 0 < ∑ j, ‖v j‖ * ‖(B *ᵥ v) j‖ := by
    obtain ⟨i, h1, h2⟩ := h
    exact Finset.sum_pos' (fun j _ => by positivity) ⟨i, Finset.mem_univ _, by positivity⟩
  simp only [participation, hp]
  refine ⟨fun i => by positivity, ?_, fun i j => by ring⟩
  rw [← Finset.sum_mul]
  field_simp

/-- C96: for every nonzero eigenvector of the time domain problem the factors sum to one. -/
theorem C96_time_domain (r : Reduced n) (lam : ℂ) (x : n ⊕ n → ℂ) (hx : x ≠ 0) (h : cplx (tdA r) *ᵥ x = lam • (cplx (tdB r) *ᵥ x)) :
    (∀ i, 0 ≤ participation (cplx (tdB r)) x i) ∧ ∑ i, participation (cplx (tdB r)) x i = 1 := by
  obtain ⟨q, rfl, -⟩ := (C88_state_space r lam x).1 h
  have hq : q ≠ 0 := by
    rintro rfl
    apply hx; ext i; cases i <;> simp
  obtain ⟨j, hj⟩ := Function.ne_iff.1 hq
  have := C96_participation (cplx (tdB r)) (Sum.elim q (lam • q)) ⟨Sum.inl j, hj, ?_⟩
  · exact ⟨this.1, this.2.1⟩
  · rw [tdB, cplx_mulVec_blocks]
    simpa [cplx_one, cplx_zero] using hj

/-- C96: a root with nonzero denominator records the eigenvalue, its imaginary part as frequency and the velocity; one with zero denominator keeps the constructor values. -/
theorem C96_root (v : ℝ) (num den : ℂ) :
    (den ≠ 0 → (tdRoot v num den).root * den = num ∧ (tdRoot v num den).V = v ∧ (tdRoot v num den).omega = (tdRoot v num den).root.im) ∧ (den = 0 → tdRoot v num den = {}) := by
  refine ⟨fun h => ?_, fun h => by simp [tdRoot, h]⟩
  simp [tdRoot, h]

/-- Non-vacuity: two modes. -/
example : ∑ i, participation (1 : Matrix (Fin 2) (Fin 2) ℂ) ![1, Complex.I] i = 1 :=
  (C96_participation _ _ ⟨0, by simp, by simp⟩).2.1

end Verif.Flutter
