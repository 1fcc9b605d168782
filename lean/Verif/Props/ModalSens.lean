import Verif.Model.ModalSens
import Verif.Props.Eigen
import Verif.Props.Assembly
import Verif.Props.SteadyStruct
import Verif.Props.StructInertia
/-! C187: the sensitivity of natural frequencies. -/
namespace Verif.Modal
open Verif Finset Matrix Verif.SecDep Verif.GeomElem Verif.StructLoads Verif.Steady

variable {N m : Nat}

/-! ## Specification -/

/-- The calculations of an element are consistent: the sensitivities are the derivatives of the two matrices at `t₀`, and the matrices are symmetric. -/
structure Consistent (e : MElem) (t₀ : ℝ) : Prop where
  stiff : ∀ a < e.n, ∀ b < e.n, HasDerivAt (fun t => e.A t a b) (e.dA t₀ a b) t₀
  mass : ∀ a < e.n, ∀ b < e.n, HasDerivAt (fun t => e.B t a b) (e.dB t₀ a b) t₀
  symA : ∀ a < e.n, ∀ b < e.n, e.A t₀ a b = e.A t₀ b a
  symB : ∀ a < e.n, ∀ b < e.n, e.B t₀ a b = e.B t₀ b a

/-- Work of the elements' forces `M x` along `y`. -/
noncomputable def form (pick : MElem → Nat → Nat → ℝ) (ps : List (List MElem)) (y x : Fin N → ℝ) : ℝ :=
  (ps.flatten.map fun e => ∑ a ∈ range e.n, ∑ b ∈ range e.n, ext y (e.dof a) * pick e a b * ext x (e.dof b)).sum

/-- A mode of the structure that follows the parameter: for every value near `t₀` it vanishes at the supports and its elastic forces do the work of `lam` times its inertia forces along every motion the supports allow. -/
structure Mode (C : Nat → Bool) (ps : List (List MElem)) (lam : ℝ → ℝ) (lam' : ℝ) (X : ℝ → Fin N → ℝ) (X' : Fin N → ℝ) (t₀ : ℝ) : Prop where
  held : ∀ᶠ t in nhds t₀, ∀ i : Fin N, C i = true → X t i = 0
  mode : ∀ᶠ t in nhds t₀, ∀ y : Fin N → ℝ, (∀ i : Fin N, C i = true → y i = 0) → form (·.A t) ps y (X t) = lam t * form (·.B t) ps y (X t)
  rate : HasDerivAt lam lam' t₀
  shape : ∀ i, HasDerivAt (fun t => X t i) (X' i) t₀

/-- The free unknowns, each once. -/
structure Free (C : Nat → Bool) (idx : Fin m → Fin N) : Prop where
  inj : Function.Injective idx
  free : ∀ j, C (idx j) = false
  all : ∀ i : Fin N, C i = false → ∃ j, idx j = i

/-! ## Assembly -/

/-- Entry of the sum over the elements. -/
noncomputable def entry (pick : MElem → Nat → Nat → ℝ) (ps : List (List MElem)) (i j : Nat) : ℝ :=
  (ps.flatten.map fun e => ∑ a ∈ range e.n, ∑ b ∈ range e.n, if e.dof a = i ∧ e.dof b = j then pick e a b else 0).sum

theorem assemble_free (C : Nat → Bool) (pick : MElem → Nat → Nat → ℝ) (ps : List (List MElem)) (i j : Nat) (hi : C i = false) (hj : C j = false) : assemble C pick ps i j = entry pick ps i j := by
  unfold assemble entry
  rw [Asm.C22_jacobian, hi, hj]
  simp only [Bool.or_self, Bool.false_eq_true, if_false, Asm.allElems, List.flatMap_map, List.flatten_eq_flatMap, List.map_flatMap, List.map_map]
  rfl

/-- Sum over the unknowns of an element matrix against two vectors. -/
theorem entry_form (e : MElem) (M : Nat → Nat → ℝ) (hd : ∀ a < e.n, e.dof a < N) (y x : Fin N → ℝ) :
    ∑ i : Fin N, ∑ j : Fin N, y i * (∑ a ∈ range e.n, ∑ b ∈ range e.n, if e.dof a = i ∧ e.dof b = j then M a b else 0) * x j =
      ∑ a ∈ range e.n, ∑ b ∈ range e.n, ext y (e.dof a) * M a b * ext x (e.dof b) := by
  have h1 : ∀ i j : Fin N, y i * (∑ a ∈ range e.n, ∑ b ∈ range e.n, if e.dof a = i ∧ e.dof b = j then M a b else 0) * x j =
      ∑ a ∈ range e.n, ∑ b ∈ range e.n, if e.dof a = i ∧ e.dof b = j then y i * M a b * x j else 0 := by
    intro i j
    rw [mul_sum, sum_mul]
    refine sum_congr rfl fun a _ => ?_
    rw [mul_sum, sum_mul]
    refine sum_congr rfl fun b _ => ?_
    split <;> simp
  simp only [h1]
  have h2 : ∑ i : Fin N, ∑ j : Fin N, ∑ a ∈ range e.n, ∑ b ∈ range e.n, (if e.dof a = i ∧ e.dof b = j then y i * M a b * x j else 0) =
      ∑ a ∈ range e.n, ∑ b ∈ range e.n, ∑ i : Fin N, ∑ j : Fin N, if e.dof a = i ∧ e.dof b = j then y i * M a b * x j else 0 := by
    have : ∀ i : Fin N, ∑ j : Fin N, ∑ a ∈ range e.n, ∑ b ∈ range e.n, (if e.dof a = i ∧ e.dof b = j then y i * M a b * x j else 0) =
        ∑ a ∈ range e.n, ∑ b ∈ range e.n, ∑ j : Fin N, if e.dof a = i ∧ e.dof b = j then y i * M a b * x j else 0 := by
      intro i
      rw [sum_comm]
      exact sum_congr rfl fun a _ => sum_comm
    simp only [this]
    rw [sum_comm]
    exact sum_congr rfl fun a _ => sum_comm
  rw [h2]
  refine sum_congr rfl fun a ha => sum_congr rfl fun b hb => ?_
  have hA := hd a (mem_range.1 ha)
  have hB := hd b (mem_range.1 hb)
  rw [Finset.sum_eq_single (⟨e.dof a, hA⟩ : Fin N)]
  · rw [Finset.sum_eq_single (⟨e.dof b, hB⟩ : Fin N)]
    · rw [if_pos ⟨rfl, rfl⟩, ext_lt _ hA, ext_lt _ hB]
    · intro j _ hj
      exact if_neg fun h => hj (Fin.ext h.2.symm)
    · intro h
      exact absurd (Finset.mem_univ _) h
  · intro i _ hi
    exact Finset.sum_eq_zero fun j _ => if_neg fun h => hi (Fin.ext h.1.symm)
  · intro h
    exact absurd (Finset.mem_univ _) h

theorem form_eq (pick : MElem → Nat → Nat → ℝ) (ps : List (List MElem)) (hd : ∀ e ∈ ps.flatten, ∀ a < e.n, e.dof a < N) (y x : Fin N → ℝ) :
    ∑ i : Fin N, ∑ j : Fin N, y i * entry pick ps i j * x j = form pick ps y x := by
  unfold form entry
  generalize ps.flatten = l at hd ⊢
  induction l with
  | nil => simp
  | cons e l ih =>
    simp only [List.map_cons, List.sum_cons, mul_add, add_mul, sum_add_distrib]
    rw [ih fun e' he' => hd e' (List.mem_cons_of_mem _ he'), entry_form e (pick e) (hd e List.mem_cons_self) y x]

/-- Constrained motions see only the free part of the assembled matrix. -/
theorem matrix_form (C : Nat → Bool) (pick : MElem → Nat → Nat → ℝ) (ps : List (List MElem)) (hd : ∀ e ∈ ps.flatten, ∀ a < e.n, e.dof a < N) (y x : Fin N → ℝ) (hy : ∀ i : Fin N, C i = true → y i = 0)
    (hx : ∀ i : Fin N, C i = true → x i = 0) : y ⬝ᵥ (matrix C pick ps *ᵥ x) = form pick ps y x := by
  rw [← form_eq pick ps hd y x]
  simp only [dotProduct, mulVec, mul_sum]
  refine sum_congr rfl fun i _ => sum_congr rfl fun j _ => ?_
  cases hi : C i with
  | true => rw [hy i hi]; ring
  | false =>
    cases hj : C j with
    | true => rw [hx j hj]; ring
    | false =>
      have : matrix (N := N) C pick ps i j = entry pick ps i j := assemble_free C pick ps i j hi hj
      rw [this]
      ring

theorem entry_deriv (f f' : MElem → ℝ → Nat → Nat → ℝ) (ps : List (List MElem)) (t₀ : ℝ) (h : ∀ e ∈ ps.flatten, ∀ a < e.n, ∀ b < e.n, HasDerivAt (fun t => f e t a b) (f' e t₀ a b) t₀) (i j : Nat) :
    HasDerivAt (fun t => entry (fun e => f e t) ps i j) (entry (fun e => f' e t₀) ps i j) t₀ := by
  unfold entry
  refine hasDerivAt_list ps.flatten (fun t e => ∑ a ∈ range e.n, ∑ b ∈ range e.n, if e.dof a = i ∧ e.dof b = j then f e t a b else 0) _ t₀ fun e he => ?_
  refine HasDerivAt.fun_sum fun a ha => HasDerivAt.fun_sum fun b hb => ?_
  by_cases hc : e.dof a = i ∧ e.dof b = j
  · simp only [if_pos hc]
    exact h e he a (mem_range.1 ha) b (mem_range.1 hb)
  · simp only [if_neg hc]
    exact hasDerivAt_const _ _

theorem entry_symm (pick : MElem → Nat → Nat → ℝ) (ps : List (List MElem)) (h : ∀ e ∈ ps.flatten, ∀ a < e.n, ∀ b < e.n, pick e a b = pick e b a) (i j : Nat) : entry pick ps i j = entry pick ps j i := by
  unfold entry
  refine congrArg List.sum (List.map_congr_left fun e he => ?_)
  rw [sum_comm]
  refine sum_congr rfl fun a ha => sum_congr rfl fun b hb => ?_
  rw [h e he b (mem_range.1 hb) a (mem_range.1 ha)]
  simp only [and_comm]

/-! ## The frequency -/

/-- C187: whatever the elements, if their sensitivities are derivatives and their matrices symmetric, `eigenproblem_sensitivity_solve` returns the derivative of the eigenvalue along the mode, from any multiple of the
eigenvector, with `A` and `B` exchanged or not, and for any distribution of the elements over processes. -/
theorem C187_modal {C : Nat → Bool} {idx : Fin m → Fin N} (hfree : Free C idx) {ps : List (List MElem)} (hd : ∀ e ∈ ps.flatten, ∀ a < e.n, e.dof a < N) {t₀ : ℝ} (hc : ∀ e ∈ ps.flatten, Consistent e t₀)
    {lam : ℝ → ℝ} {lam' : ℝ} {X : ℝ → Fin N → ℝ} {X' : Fin N → ℝ} (hM : Mode C ps lam lam' X X' t₀) (hpos : 0 < form (·.B t₀) ps (X t₀) (X t₀)) (exch : Bool) (c : ℝ) (hc0 : c ≠ 0) :
    frequencySens C exch idx ps t₀ (if exch then ((1 / lam t₀ : ℝ) : ℂ) else (lam t₀ : ℂ)) (fun j => c * X t₀ (idx j)) = .ok lam' := by
  have hheld := hM.held.self_of_nhds
  -- the vector put together from the condensed one
  have hvec : Eig.scatter idx (fun j => c * X t₀ (idx j)) = c • X t₀ := by
    funext i
    by_cases h : ∃ j, idx j = i
    · obtain ⟨j, rfl⟩ := h
      rw [Eig.scatter_at idx hfree.inj]
      rfl
    · push Not at h
      rw [Eig.scatter_off idx hfree.inj _ i h]
      have : C i = true := by
        cases hi : C i with
        | true => rfl
        | false => obtain ⟨j, hj⟩ := hfree.all i hi; exact absurd hj (h j)
      rw [Pi.smul_apply, hheld i this, smul_zero]
  have hBx : X t₀ ⬝ᵥ (matrix C (·.B t₀) ps *ᵥ X t₀) = form (·.B t₀) ps (X t₀) (X t₀) := matrix_form C _ ps hd _ _ hheld hheld
  have hm : m ≠ 0 := by
    rintro rfl
    have hx0 : X t₀ = 0 := by
      funext i
      cases hi : C i with
      | true => exact hheld i hi
      | false => obtain ⟨j, _⟩ := hfree.all i hi; exact j.elim0
    rw [hx0] at hBx hpos
    rw [← hBx] at hpos
    simp at hpos
  -- the branch on the free unknowns, cut off away from `t₀`
  classical
  let good : ℝ → Prop := fun t => (∀ i : Fin N, C i = true → X t i = 0) ∧ ∀ y : Fin N → ℝ, (∀ i : Fin N, C i = true → y i = 0) → form (·.A t) ps y (X t) = lam t * form (·.B t) ps y (X t)
  have hgood : ∀ᶠ t in nhds t₀, good t := hM.held.and hM.mode
  let Xc : ℝ → Fin N → ℝ := fun t => if good t then X t else 0
  let fr : (MElem → Nat → Nat → ℝ) → Matrix (Fin N) (Fin N) ℝ := fun pick i j => if C i || C j then 0 else entry pick ps i j
  have hfr : ∀ (pick : MElem → Nat → Nat → ℝ) (y x : Fin N → ℝ), (∀ i : Fin N, C i = true → y i = 0) → (∀ i : Fin N, C i = true → x i = 0) → y ⬝ᵥ (fr pick *ᵥ x) = form pick ps y x := by
    intro pick y x hy hx
    rw [← form_eq pick ps hd y x]
    simp only [dotProduct, mulVec, mul_sum]
    refine sum_congr rfl fun i _ => sum_congr rfl fun j _ => ?_
    cases hi : C i with
    | true => rw [hy i hi]; ring
    | false =>
      cases hj : C j with
      | true => rw [hx j hj]; ring
      | false => simp only [fr, hi, hj, Bool.or_self, Bool.false_eq_true, if_false]; ring
  have hfrd : ∀ f f' : MElem → ℝ → Nat → Nat → ℝ, (∀ e ∈ ps.flatten, ∀ a < e.n, ∀ b < e.n, HasDerivAt (fun t => f e t a b) (f' e t₀ a b) t₀) → ∀ i j, HasDerivAt (fun t => fr (fun e => f e t) i j) (fr (fun e => f' e t₀) i j) t₀ := by
    intro f f' h i j
    by_cases hij : (C i || C j) = true
    · simp only [fr, hij, if_true]
      exact hasDerivAt_const _ _
    · simp only [fr, hij]
      exact entry_deriv f f' ps t₀ h i j
  have hfrs : ∀ pick : MElem → Nat → Nat → ℝ, (∀ e ∈ ps.flatten, ∀ a < e.n, ∀ b < e.n, pick e a b = pick e b a) → (fr pick)ᵀ = fr pick := by
    intro pick h
    ext i j
    show (if (C j || C i) = true then 0 else entry pick ps j i) = if (C i || C j) = true then 0 else entry pick ps i j
    rw [Bool.or_comm (C j), entry_symm pick ps h j i]
  have hXc : ∀ t, ∀ i : Fin N, C i = true → Xc t i = 0 := by
    intro t i hi
    by_cases hg : good t
    · simp only [Xc, if_pos hg]; exact hg.1 i hi
    · simp only [Xc, if_neg hg]; rfl
  have hXc0 : Xc t₀ = X t₀ := if_pos hgood.self_of_nhds
  have hbr : Eig.EigenBranch (fun t => fr (·.A t)) (fun t => fr (·.B t)) idx lam Xc := by
    constructor
    · intro t i hi
      refine hXc t i ?_
      cases h : C i with
      | true => rfl
      | false => obtain ⟨j, hj⟩ := hfree.all i h; exact absurd hj (hi j)
    · intro t j
      by_cases hg : good t
      · have hy : ∀ i : Fin N, C i = true → (Pi.single (idx j) 1 : Fin N → ℝ) i = 0 := by
          intro i hi
          rw [Pi.single_apply, if_neg]
          rintro rfl
          rw [hfree.free j] at hi
          cases hi
        have := hg.2 _ hy
        rw [← hfr (·.A t) _ _ hy hg.1, ← hfr (·.B t) _ _ hy hg.1, single_one_dotProduct, single_one_dotProduct] at this
        simp only [Xc, if_pos hg]
        exact this
      · simp [Xc, if_neg hg]
  have hl : ∀ i, HasDerivAt (fun t => Xc t i) (X' i) t₀ := by
    intro i
    refine (hM.shape i).congr_of_eventuallyEq (hgood.mono fun t ht => ?_)
    simp only [Xc, if_pos ht]
  have hn : Xc t₀ ⬝ᵥ (fr (·.B t₀) *ᵥ Xc t₀) ≠ 0 := by
    rw [hfr (·.B t₀) _ _ (hXc t₀) (hXc t₀), hXc0]
    exact hpos.ne'
  -- the scaled vector
  have hv : 0 < (matrix C (·.B t₀) ps *ᵥ (c • X t₀)) ⬝ᵥ (c • X t₀) := by
    rw [mulVec_smul, smul_dotProduct, dotProduct_smul, dotProduct_comm, hBx, smul_eq_mul, smul_eq_mul, ← mul_assoc]
    exact mul_pos (mul_self_pos.2 hc0) hpos
  obtain ⟨s, hs0, hs⟩ : ∃ s : ℝ, s ≠ 0 ∧ Eig.normalise .GHEP (some (matrix C (·.B t₀) ps)) (c • X t₀) = .ok (s • X t₀) := by
    refine ⟨1 / Real.sqrt ((matrix C (·.B t₀) ps *ᵥ (c • X t₀)) ⬝ᵥ (c • X t₀)) * c, mul_ne_zero (one_div_ne_zero (Real.sqrt_ne_zero'.2 hv)) hc0, ?_⟩
    simp only [Eig.normalise, if_pos hv, smul_smul]
  have hval := Eig.C19_generalised (fun t => fr (·.A t)) (fun t => fr (·.B t)) (fr (·.dA t₀)) (fr (·.dB t₀)) idx lam lam' Xc X' t₀ s hbr (hfrd (fun e => e.A) (fun e => e.dA) fun e he => (hc e he).stiff)
    (hfrd (fun e => e.B) (fun e => e.dB) fun e he => (hc e he).mass) hl hM.rate (hfrs _ fun e he => (hc e he).symA) (hfrs _ fun e he => (hc e he).symB) hs0 hn
  have hsx : ∀ i : Fin N, C i = true → (s • X t₀) i = 0 := fun i hi => by rw [Pi.smul_apply, hheld i hi, smul_zero]
  have hsame : Eig.sensValue .GHEP (lam t₀) (s • X t₀) (matrix C (·.B t₀) ps) (matrix C (·.dA t₀) ps) (matrix C (·.dB t₀) ps) = .ok lam' := by
    rw [hXc0] at hval
    rw [← hval]
    simp only [Eig.sensValue]
    rw [matrix_form C (·.dA t₀) ps hd _ _ hsx hsx, matrix_form C (·.dB t₀) ps hd _ _ hsx hsx, matrix_form C (·.B t₀) ps hd _ _ hsx hsx, hfr (·.dA t₀) _ _ hsx hsx, hfr (·.dB t₀) _ _ hsx hsx, hfr (·.B t₀) _ _ hsx hsx]
  have hre : (Eig.reported exch (if exch then ((1 / lam t₀ : ℝ) : ℂ) else (lam t₀ : ℂ))).re = lam t₀ := by
    cases exch with
    | false => simp [Eig.reported]
    | true =>
      simp only [Eig.reported, if_true]
      rw [← Complex.ofReal_one, ← Complex.ofReal_div, Complex.ofReal_re, one_div_one_div]
  simp only [frequencySens, Eig.sensitivitySolve, Eig.getEigenpair, if_neg hm, hvec, bind, Except.bind, pure, Except.pure, hs, hre, hsame]


/-! ## Derivatives of the element matrices -/

section
variable {n : Nat} {X : Type}

theorem local_zero (T : Option (Fin 3 → Fin 3 → ℝ)) : vecToLocal T (fun _ : Dof n => (0 : ℝ)) = fun _ => 0 := by
  funext a
  cases T with
  | none => rfl
  | some T => simp [vecToLocal]

theorem global_deriv (T : Option (Fin 3 → Fin 3 → ℝ)) (J : ℝ → Dof n → Dof n → ℝ) (J' : Dof n → Dof n → ℝ) (t₀ : ℝ) (h : ∀ c d, HasDerivAt (fun t => J t c d) (J' c d) t₀) (a b : Dof n) :
    HasDerivAt (fun t => matToGlobal T (J t) a b) (matToGlobal T J' a b) t₀ := by
  cases T with
  | none => exact h a b
  | some T =>
    simp only [matToGlobal]
    exact HasDerivAt.fun_sum fun d _ => (HasDerivAt.fun_sum fun c _ => (h c d).const_mul _).mul_const _

theorem sandwich_deriv {m k : Nat} (B1 : Fin m → Dof n → ℝ) (B2 : Fin k → Dof n → ℝ) (C : ℝ → Fin m → Fin k → ℝ) (C' : Fin m → Fin k → ℝ) (t₀ : ℝ) (h : ∀ r s, HasDerivAt (fun t => C t r s) (C' r s) t₀) (a b : Dof n) :
    HasDerivAt (fun t => Shell.sandwich B1 (C t) B2 a b) (Shell.sandwich B1 C' B2 a b) t₀ := by
  unfold Shell.sandwich
  exact HasDerivAt.fun_sum fun r _ => HasDerivAt.fun_sum fun s _ => ((h r s).const_mul _).mul_const _

/-- Shell stiffness of the undeformed state. -/
noncomputable def shellStiff (bend : Bool) (S : Shell.Stiff) (q : Shell.Sqp n X) (a b : Dof n) : ℝ :=
  q.JxW * Shell.sandwich (Shell.Blin q) S.A (Shell.Blin q) a b
  + (if bend then q.JxW * Shell.sandwich q.bend (Shell.tr S.B) (Shell.Blin q) a b + q.JxW * Shell.sandwich (Shell.Blin q) S.B q.bend a b + q.JxW * Shell.sandwich q.bend S.D q.bend a b else 0)

theorem shell_zero (nl bend : Bool) (S : Shell.Stiff) (q : Shell.Sqp n X) (a b : Dof n) : Shell.opJac nl bend S q (fun _ => 0) a b = shellStiff bend S q a b := by
  have e0 : ∀ {m : Nat} (B : Fin m → Dof n → ℝ), Shell.app B (fun _ => 0) = fun _ => 0 := fun B => by funext r; simp [Shell.app]
  have eX : Shell.matX q (fun _ => 0) = fun _ _ => 0 := by
    funext i j; fin_cases i <;> simp [Shell.matX, Shell.ddx, Shell.ddy, e0]
  have eY : Shell.matY q (fun _ => 0) = fun _ _ => 0 := by
    funext i j; fin_cases i <;> simp [Shell.matY, Shell.ddx, Shell.ddy, e0]
  have eV : Shell.vkMat q (fun _ => 0) = fun _ _ => 0 := by
    funext i j; fin_cases i <;> fin_cases j <;> simp [Shell.vkMat, Shell.dwx, Shell.dwy]
  have eF : ∀ i j, Shell.gradF q (fun _ => 0) i j = 0 := fun i j => by simp [Shell.gradF, Shell.ddx, Shell.ddy, e0]
  have eS : ∀ bend, Shell.memStress true bend S q (fun _ => 0) = fun _ => 0 := by
    intro bend
    funext r
    have h1 : Shell.strainMem true q (fun _ => 0) = fun _ => 0 := by
      funext i; fin_cases i <;> simp [Shell.strainMem, Shell.gradE, eF]
    have h2 : Shell.vkStrain q (fun _ => 0) = fun _ => 0 := by
      funext i; fin_cases i <;> simp [Shell.vkStrain, Shell.dwx, Shell.dwy]
    simp [Shell.memStress, h1, h2, Shell.mv, e0]
  have eM : Shell.stressMat (fun _ => 0) = fun _ _ => 0 := by
    funext i j; fin_cases i <;> fin_cases j <;> simp [Shell.stressMat]
  have hN : Shell.jacNl bend S q (fun _ => 0) a b = 0 := by
    simp [Shell.jacNl, eX, eY, eS, eM, Shell.sandwich, Shell.mm, Shell.tr]
  have hV : Shell.jacVk S q (fun _ => 0) a b = 0 := by
    simp [Shell.jacVk, eV, eS, eM, Shell.sandwich, Shell.mm, Shell.tr]
  unfold Shell.opJac shellStiff
  rw [hN, hV]
  cases nl <;> cases bend <;> simp

theorem shellStiff_deriv (bend : Bool) (S : ℝ → Shell.Stiff) (S' : Shell.Stiff) (t₀ : ℝ) (hA : ∀ i j, HasDerivAt (fun t => (S t).A i j) (S'.A i j) t₀) (hB : ∀ i j, HasDerivAt (fun t => (S t).B i j) (S'.B i j) t₀)
    (hD : ∀ i j, HasDerivAt (fun t => (S t).D i j) (S'.D i j) t₀) (q : Shell.Sqp n X) (a b : Dof n) : HasDerivAt (fun t => shellStiff bend (S t) q a b) (shellStiff bend S' q a b) t₀ := by
  unfold shellStiff
  refine ((sandwich_deriv _ _ _ _ t₀ hA a b).const_mul _).fun_add ?_
  cases bend with
  | false => exact hasDerivAt_const _ _
  | true =>
    simp only [if_true]
    exact (((sandwich_deriv _ _ _ _ t₀ (fun r s => hB s r) a b).const_mul _).fun_add ((sandwich_deriv _ _ _ _ t₀ hB a b).const_mul _)).fun_add ((sandwich_deriv _ _ _ _ t₀ hD a b).const_mul _)

/-- Beam stiffness of the undeformed state. -/
noncomputable def beamStiff (bend : Bool) (S : Beam.Sec) (q : Beam.Bqp n X) (a b : Dof n) : ℝ := Beam.opJac false bend S q (fun _ => 0) a b

theorem beam_zero (nl bend : Bool) (S : Beam.Sec) (q : Beam.Bqp n X) (a b : Dof n) : Beam.opJac nl bend S q (fun _ => 0) a b = beamStiff bend S q a b := by
  have e0 : ∀ {m : Nat} (B : Fin m → Dof n → ℝ), Shell.app B (fun _ => 0) = fun _ => 0 := fun B => by funext r; simp [Shell.app]
  have hv : Beam.dvx q (fun _ => 0) = 0 := by simp [Beam.dvx]
  have hw : Beam.dwx q (fun _ => 0) = 0 := by simp [Beam.dwx]
  have hs : Beam.vkStrain q (fun _ => 0) = fun _ => 0 := by
    funext i; fin_cases i <;> simp [Beam.vkStrain, hv, hw]
  have ha : Beam.axial true true S q (fun _ => 0) = 0 := by simp [Beam.axial, e0, hs, Shell.mv]
  have hV : Beam.jacVk S q (fun _ => 0) a b = 0 := by simp [Beam.jacVk, hv, hw, ha]
  unfold beamStiff Beam.opJac
  rw [hV]
  cases nl <;> rfl

theorem beamStiff_deriv (bend : Bool) (S : ℝ → Beam.Sec) (S' : Beam.Sec) (t₀ : ℝ) (hA : ∀ i j, HasDerivAt (fun t => (S t).A i j) (S'.A i j) t₀) (hB : ∀ i j, HasDerivAt (fun t => (S t).B i j) (S'.B i j) t₀)
    (hD : ∀ i j, HasDerivAt (fun t => (S t).D i j) (S'.D i j) t₀) (q : Beam.Bqp n X) (a b : Dof n) : HasDerivAt (fun t => beamStiff bend (S t) q a b) (beamStiff bend S' q a b) t₀ := by
  unfold beamStiff Beam.opJac
  refine ((sandwich_deriv _ _ _ _ t₀ hA a b).const_mul _).fun_add ?_
  cases bend with
  | false => exact hasDerivAt_const _ _
  | true =>
    simp only [if_true, Bool.false_eq_true, if_false]
    have k : ∀ {f : ℝ → ℝ} {f' : ℝ} (c d : ℝ), HasDerivAt f f' t₀ → HasDerivAt (fun t => c * f t * d) (c * f' * d) t₀ := fun c d h => (h.const_mul c).mul_const d
    exact ((((((((hasDerivAt_const t₀ (0 : ℝ)).fun_add (k _ _ (hB 0 0))).fun_add (k _ _ (hB 0 1))).fun_add (k _ _ (hB 0 0))).fun_add (k _ _ (hB 0 1))).fun_add (k _ _ (hD 0 0))).fun_add (k _ _ (hD 1 1))).fun_add (k _ _ (hD 1 0))).fun_add
      (k _ _ (hD 0 1))

/-- Mass matrices: derivative and symmetry. -/
theorem mass_deriv (T : Option (Fin 3 → Fin 3 → ℝ)) (diag : Bool) (M : ℝ → X → Var6 → Var6 → ℝ) (dM : X → Var6 → Var6 → ℝ) (t₀ : ℝ) (pts : List (Qp n X)) (hpts : pts ≠ [])
    (hM : ∀ q ∈ pts, ∀ v v', HasDerivAt (fun t => M t q.x v v') (dM q.x v v') t₀) :
    ∃ (K : ℝ → Dof n → Dof n → ℝ) (K' : Dof n → Dof n → ℝ), (∀ t, massOf T diag (M t) pts = .ok (K t)) ∧ massOf T diag dM pts = .ok K' ∧ (∀ a b, HasDerivAt (fun t => K t a b) (K' a b) t₀) := by
  cases diag with
  | false =>
    refine ⟨fun t => matToGlobal T (consistent (fun q => M t q.x) pts), matToGlobal T (consistent (fun q => dM q.x) pts), fun t => rfl, rfl, global_deriv T _ _ t₀ fun c d => ?_⟩
    unfold consistent
    exact hasDerivAt_list _ _ _ _ fun q hq => (((hM q hq _ _).mul_const _).const_mul _).const_mul _
  | true =>
    cases pts with
    | nil => exact absurd rfl hpts
    | cons q0 rest =>
      refine ⟨fun t => matToGlobal T (lumped (M t q0.x) (q0 :: rest)), matToGlobal T (lumped (dM q0.x) (q0 :: rest)), fun t => rfl, rfl, global_deriv T _ _ t₀ fun c d => ?_⟩
      unfold lumped
      by_cases hbc : c = d
      · simp only [if_pos hbc]; exact (hM q0 (by simp) _ _).const_mul _
      · simp only [if_neg hbc]; exact hasDerivAt_const t₀ (0:ℝ)

theorem mass_symm (T : Option (Fin 3 → Fin 3 → ℝ)) (diag : Bool) (M : X → Var6 → Var6 → ℝ) (pts : List (Qp n X)) (hM : ∀ q ∈ pts, ∀ v v', M q.x v v' = M q.x v' v) (K : Dof n → Dof n → ℝ)
    (hK : massOf T diag M pts = .ok K) (a b : Dof n) : K a b = K b a := by
  cases diag with
  | false =>
    have := Except.ok.inj hK
    subst this
    refine (C111_quadratic T _).2.1 (fun c d => ?_) a b
    unfold consistent
    refine list_congr _ _ _ fun q hq => ?_
    beta_reduce
    rw [hM q hq (c.1, c.2.1)]
    ring
  | true =>
    cases pts with
    | nil => cases hK
    | cons q0 rest =>
      have := Except.ok.inj hK
      subst this
      refine (C111_quadratic T _).2.1 (fun c d => ?_) a b
      unfold lumped
      by_cases hab : c = d
      · rw [hab]
      · rw [if_neg hab, if_neg (Ne.symm hab)]
end

/-! ## Beams and shells -/

section
variable {n : Nat} {X : Type}

theorem consistent_of {e : MElem} (hn : e.n = 6 * n) {t₀ : ℝ} {A B : ℝ → Dof n → Dof n → ℝ} {A' B' : Dof n → Dof n → ℝ} (eA : ∀ t, e.A t = flat2 (A t)) (eB : ∀ t, e.B t = flat2 (B t))
    (eA' : e.dA t₀ = flat2 A') (eB' : e.dB t₀ = flat2 B') (hA : ∀ a b, HasDerivAt (fun t => A t a b) (A' a b) t₀) (hB : ∀ a b, HasDerivAt (fun t => B t a b) (B' a b) t₀)
    (sA : ∀ a b, A t₀ a b = A t₀ b a) (sB : ∀ a b, B t₀ a b = B t₀ b a) : Consistent e t₀ := by
  constructor
  all_goals
    intro a ha b hb
    rw [hn] at ha hb
    obtain ⟨d, rfl⟩ := C111_rows.2.2 a ha
    obtain ⟨f, rfl⟩ := C111_rows.2.2 b hb
  · simp only [eA, eA', flat2_row]; exact hA d f
  · simp only [eB, eB', flat2_row]; exact hB d f
  · rw [eA, flat2_row, flat2_row]; exact sA d f
  · rw [eB, flat2_row, flat2_row]; exact sB d f

/-- What the modal analysis needs of a beam besides `BeamOk`: a density, and quadrature points for the mass. -/
structure MassOk (hp : Fn.Heap) (c : Card) (pts : List (Qp n X)) : Prop where
  density : ∃ rho, density hp c = .ok rho
  points : pts ≠ []

theorem bar_inertia_deriv {hp : Fn.Heap} {F : Funcs X} {c : Card} {v : Nat → ℝ} {p : Nat} (hv : Derivs hp F v p) {P : Bar} (hP : c.bar hp = .ok P) {rho : Nat} (hr : density hp c = .ok rho) (x : X) (i j : Var6) :
    HasDerivAt (fun t => barInertia F P rho (Function.update v p t) x i j) (dBarInertia F P rho v p x i j) (v p) := by
  obtain ⟨f1, f2, f3, f4, _⟩ := bar_spec hP
  have fr := found_mat hr
  have d1 := hv _ f1.1 x
  have d2 := hv _ f2.1 x
  have d3 := hv _ f3.1 x
  have d4 := hv _ f4.1 x
  have dr := hv _ fr.1 x
  obtain ⟨a1, a2, a3, a4, a5⟩ := Section1D.C64_deriv_properties d1 d2 d3 d4
  have := Section1D.C64_deriv_inertia dr a1 a3 a2 a4 a5 (var i) (var j)
  simp only [upd_self] at this
  exact this

theorem bar_inertia_symm (F : Funcs X) (P : Bar) (rho : Nat) (v : Nat → ℝ) (x : X) (i j : Var6) : barInertia F P rho v x i j = barInertia F P rho v x j i := by
  unfold barInertia Section1D.beamInertia
  generalize var i = a
  generalize var j = b
  fin_cases a <;> fin_cases b <;> simp

/-- C187: a beam of any card and any parameter: the sensitivities of stiffness and mass are the derivatives, the matrices are symmetric. -/
theorem C187_beam (E : BeamData n X) (diag : Bool) (pts : List (Qp n X)) (v : Nat → ℝ) (p : Nat) (dof : Nat → Nat) (h : BeamOk E v p) (hm : MassOk E.hp E.card pts) :
    Consistent (beamModal E diag pts v p dof) (v p) := by
  obtain ⟨P, hP⟩ := h.found
  obtain ⟨rho, hr⟩ := hm.density
  obtain ⟨bs, hb⟩ := h.built
  obtain ⟨f1, f2, f3, f4, f5, f6, _⟩ := bar_spec hP
  obtain ⟨K, K', hK, hK', hKd⟩ := mass_deriv E.T diag (fun t => barInertia E.F P rho (Function.update v p t)) (dBarInertia E.F P rho v p) (v p) pts hm.points
    fun q _ i j => bar_inertia_deriv h.derivs hP hr q.x i j
  have hA : ∀ t, barJac E.hp E.F E.card E.T E.nl E.bend E.qs (fun _ => 0) (Function.update v p t) = .ok (Beam.internalJac E.T E.nl E.bend (barElem E.F P (Function.update v p t) E.qs) (fun _ => 0) fun _ _ => 0) := fun t => by
    rw [barJac, bind_ok hP]; rfl
  have hJ : ∀ t a b, Beam.internalJac E.T E.nl E.bend (barElem E.F P (Function.update v p t) E.qs) (fun _ => 0) (fun _ _ => 0) a b
      = matToGlobal E.T (fun c d => (E.qs.map fun q => beamStiff true (barSec E.F P (Function.update v p t) q.x) q c d).sum) a b := by
    intro t a b
    have e : Beam.localJac E.nl true (barElem E.F P (Function.update v p t) E.qs) (fun _ => 0) = fun c d => (E.qs.map fun q => beamStiff true (barSec E.F P (Function.update v p t) q.x) q c d).sum := by
      funext c d
      simp only [Beam.localJac, barElem, List.map_map, List.map_nil, List.sum_nil, add_zero, Function.comp_def, beam_zero, if_true]
    rw [h.bending]
    simp only [Beam.internalJac, if_true, local_zero, zero_add, e]
  have hB : ∀ t, barMass E diag pts (Function.update v p t) = .ok (K t) := fun t => by rw [barMass, bind_ok hP, bind_ok hr]; exact hK t
  have hB' : barMassSens E diag pts (Function.update v p (v p)) p = .ok K' := by rw [upd_self, barMassSens, bind_ok hP, bind_ok hr]; exact hK'
  have sA : ∀ a b, Beam.internalJac E.T E.nl E.bend (barElem E.F P (Function.update v p (v p)) E.qs) (fun _ => 0) (fun _ _ => 0) a b
      = Beam.internalJac E.T E.nl E.bend (barElem E.F P (Function.update v p (v p)) E.qs) (fun _ => 0) (fun _ _ => 0) b a := by
    refine Beam.C118_symmetric E.T E.nl E.bend _ (fun q hq => ?_) _ _ fun _ _ => rfl
    simp only [barElem, List.mem_map] at hq
    obtain ⟨q', _, rfl⟩ := hq
    constructor
    · simp [barSec, Section1D.beamA, Material.iso1D]
    · simp [Beam.Sec.SymmD, barSec, Section1D.beamD, Section1D.areaInertia]
  have sB : ∀ a b, K (v p) a b = K (v p) b a := mass_symm E.T diag _ pts (fun q _ i j => bar_inertia_symm E.F P rho _ q.x i j) _ (hK (v p))
  have fA : ∀ t, (beamModal E diag pts v p dof).A t = flat2 (Beam.internalJac E.T E.nl E.bend (barElem E.F P (Function.update v p t) E.qs) (fun _ => 0) fun _ _ => 0) := fun t => by
    show matVal _ = _
    rw [hA t]; rfl
  have fB : ∀ t, (beamModal E diag pts v p dof).B t = flat2 (K t) := fun t => by
    show matVal _ = _
    rw [hB t]; rfl
  have fB' : (beamModal E diag pts v p dof).dB (v p) = flat2 K' := by
    show matVal _ = _
    rw [hB']; rfl
  cases hp : E.card.dependsOn E.hp p with
  | false =>
    have q : ∀ t x, Found E.hp E.card x → ∀ pt, E.F.val (Function.update v p t) x pt = E.F.val v x pt := fun t x hx pt => C183_query bs E.hp hb E.F h.declares x p hx.1 (hx.2 p hp) v t pt
    have e : ∀ t, barElem E.F P (Function.update v p t) E.qs = barElem E.F P v E.qs := fun t => by
      unfold barElem barSec
      simp only [q t _ f1, q t _ f2, q t _ f3, q t _ f4, q t _ f5, q t _ f6]
    refine consistent_of (A' := fun _ _ => 0) rfl fA fB ?_ fB' (fun a b => ?_) hKd sA sB
    · show matVal _ = _
      rw [barStiffSens, hp]; rfl
    · simp only [e]
      exact hasDerivAt_const _ _
  | true =>
    refine consistent_of (A' := matToGlobal E.T (Beam.localJac E.nl E.bend ⟨E.qs.map fun q => (q, dBarSec E.F P v p q.x), []⟩ (vecToLocal E.T fun _ => 0))) rfl fA fB ?_ fB' (fun a b => ?_) hKd sA sB
    · show matVal _ = _
      rw [barStiffSens, hp, if_pos rfl, bind_ok hP, upd_self]; rfl
    · simp only [hJ]
      refine global_deriv E.T _ _ _ (fun c d => ?_) a b
      simp only [h.bending, if_true, local_zero, Beam.localJac, List.map_map, List.map_nil, List.sum_nil, add_zero, Function.comp_def, beam_zero]
      have key := bar_derivs h.derivs h.nu h.sides hP
      exact hasDerivAt_list _ _ _ _ fun q hq => beamStiff_deriv true _ _ _ (key q hq).1 (key q hq).2.1 (key q hq).2.2 q c d

/-- No offset of the mid-surface at the quadrature points, and none that the parameter produces (`derivative` of the inertia matrix is wrong otherwise, C62). -/
def NoOffset (E : ShellData n X) (pts : List (Qp n X)) (v : Nat → ℝ) (p : Nat) : Prop :=
  ∀ o, E.card.own.get (isField E.hp) "off" = .ok o → ∀ q ∈ pts, E.F.val v o q.x = 0 ∧ E.F.der v o p q.x = 0

theorem plate_off {hp : Fn.Heap} {c : Card} {sh : Bool} {P : Plate} (h : c.plate hp sh = .ok P) : c.own.get (isField hp) "off" = .ok P.off := by
  unfold Card.plate at h
  cases hE : c.material.get (isField hp) "E" with
  | error e => rw [hE] at h; cases h
  | ok E =>
  cases hnu : c.material.get (isField hp) "nu" with
  | error e => rw [hE, hnu] at h; cases h
  | ok nu =>
  cases hh : c.own.get (isField hp) "h" with
  | error e => rw [hE, hnu, hh] at h; cases h
  | ok th =>
  cases ho : c.own.get (isField hp) "off" with
  | error e => rw [hE, hnu, hh, ho] at h; cases h
  | ok off =>
  rw [hE, hnu, hh, ho] at h
  cases sh with
  | false =>
    have := Except.ok.inj h
    subst this
    rfl
  | true =>
    have h' : (do let kappa ← c.own.get (isField hp) "kappa"; pure (⟨th, off, kappa, E, nu⟩ : Plate)) = Except.ok P := h
    cases hk : c.own.get (isField hp) "kappa" with
    | error e => rw [hk] at h'; cases h'
    | ok kap =>
      rw [hk] at h'
      have := Except.ok.inj h'
      subst this
      rfl

theorem plate_symm (F : Funcs X) (ps : Bool) (P : Plate) (v : Nat → ℝ) (qs : List (Shell.Sqp n X)) (ss : List (Shell.ShearQp n X)) : (plateElem F ps P v qs ss).Symm := by
  have hC : ∀ E nu (r s : Fin 3), Material.iso2D ps E nu r s = Material.iso2D ps E nu s r := by
    intro E nu r s
    cases ps <;> fin_cases r <;> fin_cases s <;> simp [Material.iso2D]
  constructor
  · intro q hq
    simp only [plateElem, List.mem_map] at hq
    obtain ⟨q', _, rfl⟩ := hq
    refine ⟨fun r s => ?_, fun r s => ?_⟩
    · simp [plateSec, Section2D.plateA, hC _ _ r s]
    · simp [plateSec, Section2D.plateD, hC _ _ r s]
  · intro q hq r s
    simp only [plateElem, List.mem_map] at hq
    obtain ⟨q', _, rfl⟩ := hq
    fin_cases r <;> fin_cases s <;> simp [plateG, Section2D.plateShear, Material.isoShear]

theorem shape_drill (v : Var6) (hv : v ≠ (true, 2)) (phi : Fin n → ℝ) (i : Fin n) : Shell.shape v phi (true, 2, i) = 0 := by
  unfold Shell.shape
  exact if_neg fun h => hv h.symm

theorem blin_drill (q : Shell.Sqp n X) (r : Fin 3) (i : Fin n) : Shell.Blin q r (true, 2, i) = 0 := by
  fin_cases r <;> simp [Shell.Blin, shape_drill]

theorem shellStiff_drill (bend : Bool) (S : Shell.Stiff) (q : Shell.Sqp n X) (hq : ∀ r i, q.bend r (true, 2, i) = 0) (i : Fin n) (b : Dof n) : shellStiff bend S q (true, 2, i) b = 0 := by
  simp [shellStiff, Shell.sandwich, blin_drill, hq]

theorem shear_drill (G : Fin 2 → Fin 2 → ℝ) (q : Shell.ShearQp n X) (i : Fin n) (b : Dof n) : Shell.shearJac G q (true, 2, i) b = 0 := by
  have : ∀ r, Shell.shearOp q r (true, 2, i) = 0 := fun r => by fin_cases r <;> simp [Shell.shearOp, shape_drill]
  simp [Shell.shearJac, Shell.sandwich, this]

/-- C187, partial: a shell without offset; the derivative of the inertia of an offset shell is wrong (`C187_offset_fails`). -/
theorem C187_shell_partial (E : ShellData n X) (diag : Bool) (pts : List (Qp n X)) (v : Nat → ℝ) (p : Nat) (dof : Nat → Nat) (h : ShellOk E v p) (hm : MassOk E.hp E.card pts) (ho : NoOffset E pts v p) :
    Consistent (shellModal E diag pts v p dof) (v p) := by
  obtain ⟨P, hP⟩ := h.found
  obtain ⟨rho, hr⟩ := hm.density
  obtain ⟨bs, hb⟩ := h.built
  obtain ⟨f1, f2, f3, f4, f5, _⟩ := plate_spec hP
  have fr := found_mat hr
  obtain ⟨K, K', hK, hK', hKd⟩ := mass_deriv E.T diag (fun t => plateInertia E.F P rho (Function.update v p t)) (dPlateInertia E.F P rho v p) (v p) pts hm.points (by
    intro q hq i j
    obtain ⟨o1, o2⟩ := ho _ (plate_off hP) q hq
    have d2 := h.derivs _ f2.1 q.x
    rw [o2] at d2
    have := Section2D.C62_derivative_partial (h.derivs _ f1.1 q.x) d2 (h.derivs _ fr.1 q.x) (by rw [upd_self]; exact o1) (var i) (var j)
    simp only [upd_self] at this
    unfold dPlateInertia
    rw [o2]
    exact this)
  let J : ℝ → Dof n → Dof n → ℝ := fun t => Shell.internalJac E.T E.nl E.bend (plateElem E.F E.stress P (Function.update v p t) E.qs E.ss) (fun _ => 0)
  have hA : ∀ t, plateJac E.hp E.F E.card E.stress E.T E.nl E.bend E.qs E.ss (fun _ => 0) (Function.update v p t) = .ok (J t) := fun t => by
    rw [plateJac, bind_ok hP]; rfl
  have hJ : ∀ t a b, J t a b = matToGlobal E.T (Shell.drilling fun c d => (E.qs.map fun q => shellStiff E.bend (plateSec E.F E.stress P (Function.update v p t) q.x) q c d).sum
      + if E.bend then (E.ss.map fun q => Shell.shearJac (plateG E.F P (Function.update v p t) q.x) q c d).sum else 0) a b := by
    intro t a b
    have e : Shell.localJac E.nl E.bend (plateElem E.F E.stress P (Function.update v p t) E.qs E.ss) (fun _ => 0) = fun c d => (E.qs.map fun q => shellStiff E.bend (plateSec E.F E.stress P (Function.update v p t) q.x) q c d).sum
      + if E.bend then (E.ss.map fun q => Shell.shearJac (plateG E.F P (Function.update v p t) q.x) q c d).sum else 0 := by
      funext c d
      simp only [Shell.localJac, plateElem, List.map_map, Function.comp_def, shell_zero]
    show Shell.internalJac _ _ _ _ _ a b = _
    rw [Shell.internalJac, local_zero, e]
  have hB : ∀ t, plateMass E diag pts (Function.update v p t) = .ok (K t) := fun t => by rw [plateMass, bind_ok hP, bind_ok hr]; exact hK t
  have hB' : plateMassSens E diag pts (Function.update v p (v p)) p = .ok K' := by rw [upd_self, plateMassSens, bind_ok hP, bind_ok hr]; exact hK'
  have sA : ∀ a b, J (v p) a b = J (v p) b a := Shell.C116_symmetric E.T E.nl E.bend _ (plate_symm _ _ _ _ _ _) _
  have sB : ∀ a b, K (v p) a b = K (v p) b a := mass_symm E.T diag _ pts (fun q _ i j => by
    have := congrFun (congrFun (Section2D.C62_symmetric (E.F.val (Function.update v p (v p)) P.h q.x) (E.F.val (Function.update v p (v p)) P.off q.x) (E.F.val (Function.update v p (v p)) rho q.x)) (var j)) (var i)
    exact this) _ (hK (v p))
  have fA : ∀ t, (shellModal E diag pts v p dof).A t = flat2 (J t) := fun t => by
    show matVal _ = _
    rw [hA t]; rfl
  have fB : ∀ t, (shellModal E diag pts v p dof).B t = flat2 (K t) := fun t => by
    show matVal _ = _
    rw [hB t]; rfl
  have fB' : (shellModal E diag pts v p dof).dB (v p) = flat2 K' := by
    show matVal _ = _
    rw [hB']; rfl
  cases hp : E.card.dependsOn E.hp p with
  | false =>
    have q : ∀ t x, Found E.hp E.card x → ∀ pt, E.F.val (Function.update v p t) x pt = E.F.val v x pt := fun t x hx pt => C183_query bs E.hp hb E.F h.declares x p hx.1 (hx.2 p hp) v t pt
    have e : ∀ t, plateElem E.F E.stress P (Function.update v p t) E.qs E.ss = plateElem E.F E.stress P v E.qs E.ss := fun t => by
      unfold plateElem plateSec plateG
      simp only [q t _ f1, q t _ f2, q t _ f3, q t _ f4, q t _ f5]
    refine consistent_of (A' := fun _ _ => 0) rfl fA fB ?_ fB' (fun a b => ?_) hKd sA sB
    · show matVal _ = _
      rw [plateStiffSens, hp]; rfl
    · simp only [J, e]
      exact hasDerivAt_const _ _
  | true =>
    refine consistent_of (A' := matToGlobal E.T (Shell.localJac E.nl E.bend ⟨E.qs.map fun q => (q, dPlateSec E.F E.stress P v p q.x), E.ss.map fun q => (q, dPlateG E.F P v p q.x)⟩ (vecToLocal E.T fun _ => 0))) rfl fA fB ?_ fB'
      (fun a b => ?_) hKd sA sB
    · show matVal _ = _
      rw [plateStiffSens, hp, if_pos rfl, bind_ok hP, upd_self]; rfl
    · simp only [hJ]
      refine global_deriv E.T _ _ _ (fun c d => ?_) a b
      simp only [local_zero, Shell.localJac, List.map_map, Function.comp_def, shell_zero]
      obtain ⟨k1, k2, k3, k4⟩ := plate_derivs hb h.declares E.stress h.derivs h.nu h.shear hP
      have hd : HasDerivAt (fun t => (E.qs.map fun q => shellStiff E.bend (plateSec E.F E.stress P (Function.update v p t) q.x) q c d).sum
          + if E.bend then (E.ss.map fun q => Shell.shearJac (plateG E.F P (Function.update v p t) q.x) q c d).sum else 0)
          ((E.qs.map fun q => shellStiff E.bend (dPlateSec E.F E.stress P v p q.x) q c d).sum + if E.bend then (E.ss.map fun q => Shell.shearJac (dPlateG E.F P v p q.x) q c d).sum else 0) (v p) := by
        refine (hasDerivAt_list _ _ _ _ fun q hq => shellStiff_deriv E.bend _ _ _ (k1 q hq) (k2 q hq) (k3 q hq) q c d).fun_add ?_
        cases E.bend with
        | false => exact hasDerivAt_const _ _
        | true =>
          simp only [if_true]
          exact hasDerivAt_list _ _ _ _ fun q hq => (sandwich_deriv _ _ _ _ _ (k4 q hq) c d).const_mul _
      unfold Shell.drilling
      by_cases hc : c = d ∧ c.1 = true ∧ c.2.1 = 2
      · simp only [if_pos hc]
        obtain ⟨r, k, i⟩ := c
        obtain ⟨_, h1, h2⟩ := hc
        simp only at h1 h2
        subst h1 h2
        have z1 : (E.qs.map fun q => shellStiff E.bend (dPlateSec E.F E.stress P v p q.x) q (true, 2, i) d) = E.qs.map fun _ => 0 := List.map_congr_left fun q hq => shellStiff_drill _ _ q (h.noDrill q hq) i d
        rw [z1]
        simp only [shear_drill, List.map_const', List.sum_replicate, smul_zero, ite_self, add_zero]
        exact hasDerivAt_const _ _
      · simp only [if_neg hc]
        exact hd

/-- Members of a structure in a modal analysis. -/
inductive IsMember (v : Nat → ℝ) (p : Nat) : MElem → Prop
  | beam {n : Nat} {X : Type} (E : BeamData n X) (diag : Bool) (pts : List (Qp n X)) (dof : Nat → Nat) (h : BeamOk E v p) (hm : MassOk E.hp E.card pts) : IsMember v p (beamModal E diag pts v p dof)
  | shell {n : Nat} {X : Type} (E : ShellData n X) (diag : Bool) (pts : List (Qp n X)) (dof : Nat → Nat) (h : ShellOk E v p) (hm : MassOk E.hp E.card pts) (ho : NoOffset E pts v p) :
      IsMember v p (shellModal E diag pts v p dof)
end

/-- C187, partial (no offset shells, no trusses): the sensitivity the solver reports for the square of a natural frequency of a structure of beams and shells, with respect to any parameter of the program, is its derivative. -/
theorem C187_structure_partial {C : Nat → Bool} {idx : Fin m → Fin N} (hfree : Free C idx) {ps : List (List MElem)} (hd : ∀ e ∈ ps.flatten, ∀ a < e.n, e.dof a < N) {v : Nat → ℝ} {p : Nat}
    (hc : ∀ e ∈ ps.flatten, IsMember v p e) {lam : ℝ → ℝ} {lam' : ℝ} {X : ℝ → Fin N → ℝ} {X' : Fin N → ℝ} (hM : Mode C ps lam lam' X X' (v p)) (hpos : 0 < form (·.B (v p)) ps (X (v p)) (X (v p))) (exch : Bool)
    (c : ℝ) (hc0 : c ≠ 0) :
    frequencySens C exch idx ps (v p) (if exch then ((1 / lam (v p) : ℝ) : ℂ) else (lam (v p) : ℂ)) (fun j => c * X (v p) (idx j)) = .ok lam' := by
  refine C187_modal hfree hd (fun e he => ?_) hM hpos exch c hc0
  cases hc e he with
  | beam E diag pts dof h hm => exact C187_beam E diag pts v p dof h hm
  | shell E diag pts dof h hm ho => exact C187_shell_partial E diag pts v p dof h hm ho

/-! ## A beam and a shell -/

section
/-- Parameters `E, nu, h, off, hz, rho` (objects 0-5) and a constant field function for each (6-11). -/
def progM : List Fn.Build := [.new .param "E" [], .new .param "nu" [], .new .param "h" [], .new .param "off" [], .new .param "hz" [], .new .param "rho" [],
  .new .func "E" [0], .new .func "nu" [1], .new .func "h" [2], .new .func "off" [3], .new .func "hz" [4], .new .func "rho" [5]]
def heapM : Fn.Heap := [⟨.param, "E", []⟩, ⟨.param, "nu", []⟩, ⟨.param, "h", []⟩, ⟨.param, "off", []⟩, ⟨.param, "hz", []⟩, ⟨.param, "rho", []⟩,
  ⟨.func, "E", [0]⟩, ⟨.func, "nu", [1]⟩, ⟨.func, "h", [2]⟩, ⟨.func, "off", [3]⟩, ⟨.func, "hz", [4]⟩, ⟨.func, "rho", [5]⟩]
noncomputable def constsM : Funcs Unit := ⟨fun v x _ => v (x - 6), fun _ x p _ => if p = x - 6 then 1 else 0⟩
def plateM : Card := ⟨[("h", 8), ("off", 9)], [("E", 6), ("nu", 7), ("rho", 11)]⟩
def barM : Card := ⟨[("hy", 8), ("hz", 10), ("Kappazz", 9), ("Kappayy", 9), ("hy_off", 9), ("hz_off", 9)], [("E", 6), ("nu", 7), ("rho", 11)]⟩
noncomputable def valsM (off : ℝ) : Nat → ℝ := fun i => if i = 1 then 0 else if i = 3 then off else if i = 4 ∨ i = 5 then 2 else 1

theorem declaresM : Declares heapM constsM := by
  intro x o hx hk v w hs pt
  have hlt : x < 12 := (List.getElem?_eq_some_iff.1 hx).1
  show v (x - 6) = w (x - 6)
  interval_cases x <;> simp only [heapM, List.getElem?_cons_zero, List.getElem?_cons_succ, Option.some.injEq] at hx <;> subst hx <;>
    first
      | (cases hk; done)
      | (have := hs _ (List.mem_singleton.2 rfl); simpa [Same, isField, heapM] using this)

theorem derivsM (h : Fn.Heap) (v : Nat → ℝ) (p : Nat) : Derivs h constsM v p := by
  intro x _ pt
  show HasDerivAt (fun t => Function.update v p t (x - 6)) (if p = x - 6 then 1 else 0) (v p)
  by_cases e : p = x - 6
  · subst e
    simpa using hasDerivAt_id' (v (x - 6))
  · rw [if_neg e]
    simp only [Function.update_of_ne (Ne.symm e)]
    exact hasDerivAt_const _ _

noncomputable def qpM : Qp 1 Unit := ⟨(), 1, fun _ => 1, fun _ => 0⟩
noncomputable def beamM : BeamData 1 Unit := ⟨heapM, constsM, barM, none, true, true, [exB]⟩
/-- A membrane that also bends about the first axis. -/
noncomputable def pointM : Shell.Sqp 1 Unit := ⟨(), 1, fun _ => 0, fun _ => 1, fun _ => 0, fun r a => if r = 0 ∧ a = (true, 0, 0) then 1 else 0⟩
noncomputable def shellM : ShellData 1 Unit := ⟨heapM, constsM, plateM, true, none, false, true, [pointM], []⟩
noncomputable def meshM (off : ℝ) (p : Nat) : List (List MElem) := [[beamModal beamM false [qpM] (valsM off) p id], [shellModal shellM true [qpM] (valsM off) p id]]

theorem beamM_ok : BeamOk beamM (valsM 0) 0 := by
  refine ⟨rfl, ⟨progM, rfl⟩, declaresM, derivsM _ _ _, ⟨⟨8, 10, 9, 9, 6, 7⟩, rfl⟩, ?_, ?_⟩
  · intro x hx q _
    have h' : (Except.ok 7 : Exec Nat) = .ok x := hx
    rw [← Except.ok.inj h']
    norm_num [beamM, constsM, valsM]
  · intro y z hy hz q _
    have hy' : (Except.ok 8 : Exec Nat) = .ok y := hy
    have hz' : (Except.ok 10 : Exec Nat) = .ok z := hz
    rw [← Except.ok.inj hy', ← Except.ok.inj hz']
    norm_num [beamM, constsM, valsM]

theorem shellM_ok (off : ℝ) (p : Nat) : ShellOk shellM (valsM off) p := by
  refine ⟨⟨progM, rfl⟩, declaresM, derivsM _ _ _, ⟨⟨8, 9, 8, 6, 7⟩, rfl⟩, ?_, Or.inl rfl, ?_⟩
  · intro x hx q _
    have h' : (Except.ok 7 : Exec Nat) = .ok x := hx
    rw [← Except.ok.inj h']
    norm_num [shellM, constsM, valsM]
  · intro q hq r i
    simp only [shellM, List.mem_singleton] at hq
    subst hq
    simp [pointM]

/-- Work in one unknown. -/
theorem form_one (k : Fin 6) (pick : MElem → Nat → Nat → ℝ) (ps : List (List MElem)) (hps : ∀ e ∈ ps.flatten, e.n = 6 ∧ e.dof = id) (y x : Fin 6 → ℝ) (hy : ∀ i, i ≠ k → y i = 0) (hx : ∀ i, i ≠ k → x i = 0) :
    form pick ps y x = y k * (ps.flatten.map fun e => pick e k k).sum * x k := by
  unfold form
  generalize ps.flatten = l at hps
  induction l with
  | nil => simp
  | cons e l ih =>
    simp only [List.map_cons, List.sum_cons]
    rw [ih fun e' he' => hps e' (List.mem_cons_of_mem _ he')]
    obtain ⟨h1, h2⟩ := hps e List.mem_cons_self
    rw [h1, h2]
    have : ∑ a ∈ range 6, ∑ b ∈ range 6, ext y (id a) * pick e a b * ext x (id b) = y k * pick e k k * x k := by
      rw [Finset.sum_eq_single (k : Nat)]
      · rw [Finset.sum_eq_single (k : Nat)]
        · simp [Steady.ext]
        · intro b hb hne
          have hb' := mem_range.1 hb
          have : ext x (id b) = 0 := by
            rw [id, ext_lt _ hb']
            exact hx _ fun h => hne (congrArg Fin.val h)
          rw [this, mul_zero]
        · intro h; exact absurd (mem_range.2 k.2) h
      · intro a ha hne
        have ha' := mem_range.1 ha
        have : ext y (id a) = 0 := by
          rw [id, ext_lt _ ha']
          exact hy _ fun h => hne (congrArg Fin.val h)
        simp only [this, zero_mul, Finset.sum_const_zero]
      · intro h; exact absurd (mem_range.2 k.2) h
    rw [this]
    ring

theorem beamM_A (t : ℝ) : (beamModal beamM false [qpM] (valsM 0) 0 id).A t 0 0 = 2 * t := by
  have e : (beamModal beamM false [qpM] (valsM 0) 0 id).A t 0 0 = Beam.internalJac none true true (barElem constsM ⟨8, 10, 9, 9, 6, 7⟩ (Function.update (valsM 0) 0 t) [exB]) (fun _ => 0) (fun _ _ => 0) (false, 0, 0) (false, 0, 0) :=
    flat2_row (n := 1) _ (false, 0, 0) (false, 0, 0)
  rw [e]
  simp only [Beam.internalJac, matToGlobal, vecToLocal, Beam.localJac, barElem, beam_zero, List.map_cons, List.map_nil]
  simp [beamStiff, Beam.opJac, Beam.gram, Shell.sandwich, exB, Beam.Bmem, Beam.Bbv, Beam.Bbw, Shell.shape, Fin.sum_univ_two,
    barSec, Section1D.beamA, Section1D.beamB, Section1D.beamD, Section1D.area, Section1D.areaMoment, Material.iso1D, constsM, Function.update, valsM]
  try ring

theorem beamM_B (t : ℝ) : (beamModal beamM false [qpM] (valsM 0) 0 id).B t 0 0 = 4 := by
  have e : (beamModal beamM false [qpM] (valsM 0) 0 id).B t 0 0 = consistent (fun q : Qp 1 Unit => barInertia constsM ⟨8, 10, 9, 9, 6, 7⟩ 11 (Function.update (valsM 0) 0 t) q.x) [qpM] (false, 0, 0) (false, 0, 0) :=
    flat2_row (n := 1) _ (false, 0, 0) (false, 0, 0)
  rw [e]
  simp [consistent, qpM, barInertia, var, Section1D.beamInertia, Section1D.area, constsM, Function.update, valsM]
  try norm_num

theorem shellM_A (t : ℝ) : (shellModal shellM true [qpM] (valsM 0) 0 id).A t 0 0 = t := by
  have e : (shellModal shellM true [qpM] (valsM 0) 0 id).A t 0 0 = Shell.internalJac none false true (plateElem constsM true ⟨8, 9, 8, 6, 7⟩ (Function.update (valsM 0) 0 t) [pointM] []) (fun _ => 0) (false, 0, 0) (false, 0, 0) :=
    flat2_row (n := 1) _ (false, 0, 0) (false, 0, 0)
  rw [e]
  simp [Shell.internalJac, matToGlobal, Shell.drilling, Shell.localJac, plateElem, Shell.opJac, Shell.sandwich, Shell.Blin, Shell.shape, Shell.tr, pointM, Fin.sum_univ_three,
    plateSec, Section2D.plateA, Section2D.plateB, Section2D.plateD, Material.iso2D, constsM, Function.update, valsM]

theorem shellM_B (t : ℝ) : (shellModal shellM true [qpM] (valsM 0) 0 id).B t 0 0 = 2 := by
  have e : (shellModal shellM true [qpM] (valsM 0) 0 id).B t 0 0 = lumped (plateInertia constsM ⟨8, 9, 8, 6, 7⟩ 11 (Function.update (valsM 0) 0 t) ()) [qpM] (false, 0, 0) (false, 0, 0) :=
    flat2_row (n := 1) _ (false, 0, 0) (false, 0, 0)
  rw [e]
  simp [lumped, qpM, plateInertia, var, Section2D.plateInertia, constsM, Function.update, valsM]

/-- All unknowns but number `k` are held. -/
def onlyM (k : Nat) : Nat → Bool := fun i => i != k
theorem only_zero {k : Fin 6} {y : Fin 6 → ℝ} (hy : ∀ i : Fin 6, onlyM k i = true → y i = 0) (i : Fin 6) (hi : i ≠ k) : y i = 0 :=
  hy i (by simpa [onlyM] using fun h => hi (Fin.ext h))
theorem only_free (k : Fin 6) : Free (onlyM k) (fun _ : Fin 1 => k) :=
  ⟨fun a b _ => Subsingleton.elim a b, fun _ => by simp [onlyM], fun i hi => ⟨0, by
    have : (i : Nat) = k := by simpa [onlyM] using hi
    exact (Fin.ext this).symm⟩⟩

/-- Non-vacuity of C187_structure_partial (with C187_beam, C187_shell_partial, C187_modal): a beam and a membrane on two processes, modulus `t`, stiffness `3 t`, mass 6; the eigenvalue is `t / 2` and its sensitivity 1/2. -/
example : (∀ e ∈ (meshM 0 0).flatten, IsMember (valsM 0) 0 e) ∧ (∀ e ∈ (meshM 0 0).flatten, ∀ a < e.n, e.dof a < 6) ∧ Free (onlyM 0) (fun _ : Fin 1 => (0 : Fin 6)) ∧
    Mode (onlyM 0) (meshM 0 0) (fun t => t / 2) (1 / 2) (fun _ i => if i = 0 then 1 else 0) (fun _ : Fin 6 => 0) (valsM 0 0) ∧
    0 < form (·.B (valsM 0 0)) (meshM 0 0) (fun i : Fin 6 => if i = 0 then 1 else 0) (fun i => if i = 0 then 1 else 0) := by
  have hn : ∀ e ∈ (meshM 0 0).flatten, e.n = 6 ∧ e.dof = id := by
    intro e he
    simp only [meshM, List.flatten_cons, List.flatten_nil, List.append_nil, List.cons_append, List.nil_append, List.mem_cons, List.not_mem_nil, or_false] at he
    rcases he with rfl | rfl <;> exact ⟨rfl, rfl⟩
  have hA : ∀ t, ((meshM 0 0).flatten.map fun e => e.A t 0 0).sum = 3 * t := by
    intro t
    simp only [meshM, List.flatten_cons, List.flatten_nil, List.append_nil, List.cons_append, List.nil_append, List.map_cons, List.map_nil, List.sum_cons, List.sum_nil, beamM_A, shellM_A]
    ring
  have hB : ∀ t, ((meshM 0 0).flatten.map fun e => e.B t 0 0).sum = 6 := by
    intro t
    simp only [meshM, List.flatten_cons, List.flatten_nil, List.append_nil, List.cons_append, List.nil_append, List.map_cons, List.map_nil, List.sum_cons, List.sum_nil, beamM_B, shellM_B]
    norm_num
  have h1 : ∀ i : Fin 6, i ≠ 0 → (if i = 0 then (1 : ℝ) else 0) = 0 := fun i hi => if_neg hi
  refine ⟨fun e he => ?_, fun e he a ha => ?_, only_free 0, ⟨?_, ?_, ?_, fun i => hasDerivAt_const _ _⟩, ?_⟩
  · simp only [meshM, List.flatten_cons, List.flatten_nil, List.append_nil, List.cons_append, List.nil_append, List.mem_cons, List.not_mem_nil, or_false] at he
    rcases he with rfl | rfl
    · exact .beam beamM false _ id beamM_ok ⟨⟨11, rfl⟩, by simp⟩
    · refine .shell shellM true _ id (shellM_ok 0 0) ⟨⟨11, rfl⟩, by simp⟩ fun o ho q _ => ?_
      have h' : (Except.ok 9 : Exec Nat) = .ok o := ho
      rw [← Except.ok.inj h']
      norm_num [shellM, constsM, valsM]
  · rw [(hn e he).1] at ha
    rw [(hn e he).2]
    exact ha
  · exact Filter.Eventually.of_forall fun t i hi => h1 i (by rintro rfl; simp [onlyM] at hi)
  · refine Filter.Eventually.of_forall fun t y hy => ?_
    rw [form_one 0 _ _ hn y _ (only_zero hy) h1, form_one 0 _ _ hn y _ (only_zero hy) h1]
    simp only [Fin.val_zero]
    rw [hA, hB]
    ring
  · exact (hasDerivAt_id' _).div_const 2
  · rw [form_one 0 _ _ hn _ _ h1 h1]
    simp only [Fin.val_zero]
    rw [hB]
    norm_num

theorem offset_A (t : ℝ) : (shellModal shellM true [qpM] (valsM 1) 2 id).A t 3 3 = t ^ 3 / 12 + t := by
  have e : (shellModal shellM true [qpM] (valsM 1) 2 id).A t 3 3 = Shell.internalJac none false true (plateElem constsM true ⟨8, 9, 8, 6, 7⟩ (Function.update (valsM 1) 2 t) [pointM] []) (fun _ => 0) (true, 0, 0) (true, 0, 0) :=
    flat2_row (n := 1) _ (true, 0, 0) (true, 0, 0)
  rw [e]
  simp [Shell.internalJac, matToGlobal, Shell.drilling, Shell.localJac, plateElem, Shell.opJac, Shell.sandwich, Shell.Blin, Shell.shape, Shell.tr, pointM, Fin.sum_univ_three,
    plateSec, Section2D.plateA, Section2D.plateB, Section2D.plateD, Material.iso2D, constsM, Function.update, valsM]

theorem offset_B (t : ℝ) : (shellModal shellM true [qpM] (valsM 1) 2 id).B t 3 3 = 2 * (t ^ 3 / 12 + t) := by
  have e : (shellModal shellM true [qpM] (valsM 1) 2 id).B t 3 3 = lumped (plateInertia constsM ⟨8, 9, 8, 6, 7⟩ 11 (Function.update (valsM 1) 2 t) ()) [qpM] (true, 0, 0) (true, 0, 0) :=
    flat2_row (n := 1) _ (true, 0, 0) (true, 0, 0)
  rw [e]
  simp [lumped, qpM, plateInertia, var, Section2D.plateInertia, constsM, Function.update, valsM]

theorem offset_dA : (shellModal shellM true [qpM] (valsM 1) 2 id).dA (valsM 1 2) 3 3 = 5 / 4 := by
  have e : (shellModal shellM true [qpM] (valsM 1) 2 id).dA (valsM 1 2) 3 3 =
      Shell.localJac false true ⟨[pointM].map fun q => (q, dPlateSec constsM true ⟨8, 9, 8, 6, 7⟩ (Function.update (valsM 1) 2 (valsM 1 2)) 2 q.x), []⟩ (fun _ => 0) (true, 0, 0) (true, 0, 0) :=
    flat2_row (n := 1) _ (true, 0, 0) (true, 0, 0)
  rw [e]
  simp [Shell.localJac, Shell.opJac, Shell.sandwich, Shell.Blin, Shell.shape, Shell.tr, pointM, Fin.sum_univ_three,
    dPlateSec, Section2D.dPlateA, Section2D.dPlateB, Section2D.dPlateD, Material.iso2D, Material.dIso2D, constsM, Function.update, valsM]
  try norm_num

theorem offset_dB : (shellModal shellM true [qpM] (valsM 1) 2 id).dB (valsM 1 2) 3 3 = 1 / 2 := by
  have e : (shellModal shellM true [qpM] (valsM 1) 2 id).dB (valsM 1 2) 3 3 = lumped (dPlateInertia constsM ⟨8, 9, 8, 6, 7⟩ 11 (Function.update (valsM 1) 2 (valsM 1 2)) 2 ()) [qpM] (true, 0, 0) (true, 0, 0) :=
    flat2_row (n := 1) _ (true, 0, 0) (true, 0, 0)
  rw [e]
  simp [lumped, qpM, dPlateInertia, var, Section2D.dPlateInertia, constsM, Function.update, valsM]
  try norm_num
end

/-- What the solver reports, whether or not the element sensitivities are right. -/
theorem frequency_value {C : Nat → Bool} {idx : Fin m → Fin N} (hfree : Free C idx) {ps : List (List MElem)} (hd : ∀ e ∈ ps.flatten, ∀ a < e.n, e.dof a < N) {t₀ : ℝ} (x : Fin N → ℝ) (hx : ∀ i : Fin N, C i = true → x i = 0)
    (hpos : 0 < form (·.B t₀) ps x x) (lam : ℝ) :
    frequencySens C false idx ps t₀ (lam : ℂ) (fun j => x (idx j)) = .ok ((form (·.dA t₀) ps x x - lam * form (·.dB t₀) ps x x) / form (·.B t₀) ps x x) := by
  have hvec : Eig.scatter idx (fun j => x (idx j)) = x := by
    funext i
    by_cases h : ∃ j, idx j = i
    · obtain ⟨j, rfl⟩ := h
      rw [Eig.scatter_at idx hfree.inj]
    · push Not at h
      rw [Eig.scatter_off idx hfree.inj _ i h]
      have : C i = true := by
        cases hi : C i with
        | true => rfl
        | false => obtain ⟨j, hj⟩ := hfree.all i hi; exact absurd hj (h j)
      rw [hx i this]
  have hB : x ⬝ᵥ (matrix C (·.B t₀) ps *ᵥ x) = form (·.B t₀) ps x x := matrix_form C _ ps hd _ _ hx hx
  have hA' : x ⬝ᵥ (matrix C (·.dA t₀) ps *ᵥ x) = form (·.dA t₀) ps x x := matrix_form C _ ps hd _ _ hx hx
  have hB' : x ⬝ᵥ (matrix C (·.dB t₀) ps *ᵥ x) = form (·.dB t₀) ps x x := matrix_form C _ ps hd _ _ hx hx
  have hm : m ≠ 0 := by
    rintro rfl
    have hx0 : x = 0 := by
      funext i
      cases hi : C i with
      | true => exact hx i hi
      | false => obtain ⟨j, _⟩ := hfree.all i hi; exact j.elim0
    rw [hx0] at hB hpos
    rw [← hB] at hpos
    simp at hpos
  have hv : 0 < (matrix C (·.B t₀) ps *ᵥ x) ⬝ᵥ x := by rw [dotProduct_comm, hB]; exact hpos
  obtain ⟨s, hs0, hs⟩ : ∃ s : ℝ, s ≠ 0 ∧ Eig.normalise .GHEP (some (matrix C (·.B t₀) ps)) x = .ok (s • x) :=
    ⟨1 / Real.sqrt ((matrix C (·.B t₀) ps *ᵥ x) ⬝ᵥ x), one_div_ne_zero (Real.sqrt_ne_zero'.2 hv), by simp only [Eig.normalise, if_pos hv]⟩
  have hre : (Eig.reported false (lam : ℂ)).re = lam := by simp [Eig.reported]
  simp only [frequencySens, Eig.sensitivitySolve, Eig.getEigenpair, if_neg hm, hvec, bind, Except.bind, pure, Except.pure, hs, hre, Eig.sensValue, mulVec_smul, dotProduct_smul, smul_dotProduct, hB, hA', hB', smul_eq_mul]
  congr 1
  field_simp

/-- C187, finding: a shell with an offset, of density 2, free to rotate.  Stiffness and inertia grow in the same proportion with the thickness, so the natural frequency does not depend on it; the solver reports a
sensitivity of 6/13, because the derivative of the rotary inertia leaves out the offset. -/
theorem C187_offset_fails : ShellOk shellM (valsM 1) 2 ∧ MassOk shellM.hp shellM.card [qpM] ∧ Free (onlyM 3) (fun _ : Fin 1 => (3 : Fin 6)) ∧
    Mode (onlyM 3) [[shellModal shellM true [qpM] (valsM 1) 2 id]] (fun _ => 1 / 2) 0 (fun _ i => if i = 3 then 1 else 0) (fun _ : Fin 6 => 0) (valsM 1 2) ∧
    frequencySens (onlyM 3) false (fun _ : Fin 1 => (3 : Fin 6)) [[shellModal shellM true [qpM] (valsM 1) 2 id]] (valsM 1 2) ((1 / 2 : ℝ) : ℂ) (fun _ => 1) = .ok (6 / 13) := by
  have hn : ∀ e ∈ [[shellModal shellM true [qpM] (valsM 1) 2 id]].flatten, e.n = 6 ∧ e.dof = id := by
    intro e he
    simp only [List.flatten_cons, List.flatten_nil, List.append_nil, List.mem_cons, List.not_mem_nil, or_false] at he
    rw [he]
    exact ⟨rfl, rfl⟩
  have h1 : ∀ i : Fin 6, i ≠ 3 → (if i = 3 then (1 : ℝ) else 0) = 0 := fun i hi => if_neg hi
  have h3 : ((3 : Fin 6) : Nat) = 3 := rfl
  have hheld : ∀ i : Fin 6, onlyM 3 i = true → (if i = 3 then (1 : ℝ) else 0) = 0 := fun i hi => h1 i (by rintro rfl; simp [onlyM] at hi)
  have hv : valsM 1 2 = 1 := by simp [valsM]
  have fB : form (·.B (valsM 1 2)) [[shellModal shellM true [qpM] (valsM 1) 2 id]] (fun i : Fin 6 => if i = 3 then 1 else 0) (fun i => if i = 3 then 1 else 0) = 13 / 6 := by
    rw [form_one 3 _ _ hn _ _ h1 h1]
    simp only [List.flatten_cons, List.flatten_nil, List.append_nil, List.map_cons, List.map_nil, List.sum_cons, List.sum_nil, h3, offset_B, hv]
    norm_num
  have fA' : form (·.dA (valsM 1 2)) [[shellModal shellM true [qpM] (valsM 1) 2 id]] (fun i : Fin 6 => if i = 3 then 1 else 0) (fun i => if i = 3 then 1 else 0) = 5 / 4 := by
    rw [form_one 3 _ _ hn _ _ h1 h1]
    simp only [List.flatten_cons, List.flatten_nil, List.append_nil, List.map_cons, List.map_nil, List.sum_cons, List.sum_nil, h3, offset_dA]
    norm_num
  have fB' : form (·.dB (valsM 1 2)) [[shellModal shellM true [qpM] (valsM 1) 2 id]] (fun i : Fin 6 => if i = 3 then 1 else 0) (fun i => if i = 3 then 1 else 0) = 1 / 2 := by
    rw [form_one 3 _ _ hn _ _ h1 h1]
    simp only [List.flatten_cons, List.flatten_nil, List.append_nil, List.map_cons, List.map_nil, List.sum_cons, List.sum_nil, h3, offset_dB]
    norm_num
  refine ⟨shellM_ok 1 2, ⟨⟨11, rfl⟩, by simp⟩, only_free 3, ⟨Filter.Eventually.of_forall fun t => hheld, Filter.Eventually.of_forall fun t y hy => ?_, hasDerivAt_const _ _, fun i => hasDerivAt_const _ _⟩, ?_⟩
  · rw [form_one 3 _ _ hn y _ (only_zero (k := 3) hy) h1, form_one 3 _ _ hn y _ (only_zero (k := 3) hy) h1]
    simp only [List.flatten_cons, List.flatten_nil, List.append_nil, List.map_cons, List.map_nil, List.sum_cons, List.sum_nil, h3, offset_A, offset_B]
    ring
  · have := frequency_value (only_free 3) (ps := [[shellModal shellM true [qpM] (valsM 1) 2 id]]) (t₀ := valsM 1 2) (fun e he a ha => by
      rw [(hn e he).1] at ha
      rw [(hn e he).2]
      exact ha) (fun i : Fin 6 => if i = 3 then 1 else 0) hheld (by rw [fB]; norm_num) (1 / 2)
    rw [fB, fA', fB'] at this
    norm_num at this
    norm_num
    exact this
end Verif.Modal
