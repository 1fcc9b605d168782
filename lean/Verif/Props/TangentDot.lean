import Verif.Model.TangentDot
import Verif.Props.Assembly
import Mathlib.Analysis.Calculus.Deriv.Add
import Mathlib.Analysis.Calculus.Deriv.Mul
import Mathlib.Tactic.Ring
import Mathlib.Tactic.NormNum
import Mathlib.Tactic.Linarith
/-
  C181: the change of the assembled tangent along a change of the solution.
-/
namespace Verif.Asm
open Finset

/-! ## Specification -/

/-- The same processes as the Jacobian assembly sees them. -/
def procsOf (ps : List (List DotElem)) : List Proc := ps.map fun p => ⟨p.map DotElem.toElem, 0, 0⟩

/-- The element matrix `dot` is the directional derivative of the element Jacobian. -/
def DotExact (e : DotElem) (x d : Nat → ℝ) : Prop := ∀ a < e.n, ∀ b < e.n, HasDerivAt (fun s : ℝ => e.mat (fun k => x k + s * d k) a b) (e.dot x d a b) 0

/-! ## Lemmas -/

theorem hasDeriv_listSum {α : Type} (l : List α) (f : α → ℝ → ℝ) (f' : α → ℝ) (h : ∀ x ∈ l, HasDerivAt (f x) (f' x) 0) :
    HasDerivAt (fun s => (l.map fun x => f x s).sum) (l.map f').sum 0 := by
  induction l with
  | nil => simpa using hasDerivAt_const (0 : ℝ) (0 : ℝ)
  | cons a l ih =>
    have h1 := (h a (by simp)).fun_add (ih fun x hx => h x (by simp [hx]))
    simpa using h1

/-- Entry `(i, j)` that the element adds between free dofs. -/
noncomputable def dotEntry (X dX : Nat → ℝ) (e : DotElem) (i j : Nat) : ℝ :=
  if e.diag then 0 else ∑ a ∈ range e.n, ∑ b ∈ range e.n, if e.dof a = i ∧ e.dof b = j then e.dot (e.sol X) (e.sol dX) a b else 0

theorem dotElem_apply (C : Nat → Bool) (X dX : Nat → ℝ) (J : Nat → Nat → ℝ) (e : DotElem) (i j : Nat) :
    dotElem C X dX J e i j = J i j + if C i || C j then (if i = j then (if e.diag then 0 else incidence e.toElem i) else 0) else dotEntry X dX e i j := by
  unfold dotElem dotEntry
  by_cases hd : e.diag = true
  · simp [hd]
  · simp only [hd, Bool.false_eq_true, if_false]
    rw [addMatrix_apply, sum_conMat]
    rfl

theorem tangentDot_eq (C : Nat → Bool) (X dX : Nat → ℝ) (ps : List (List DotElem)) (i j : Nat) :
    tangentDot C X dX ps i j = (ps.flatten.map fun e => if C i || C j then (if i = j then (if e.diag then 0 else incidence e.toElem i) else 0) else dotEntry X dX e i j).sum := by
  unfold tangentDot
  have hA := foldl_add2 (α := List DotElem) (fun p i j => (p.foldl (dotElem C X dX) (fun _ _ => 0)) i j)
    (fun J p i j => J i j + (p.foldl (dotElem C X dX) (fun _ _ => 0)) i j) (fun _ _ _ _ => rfl) ps (fun _ _ => 0) i j
  rw [hA, zero_add]
  simp only [foldl_add2 (fun e i j => if C i || C j then (if i = j then (if e.diag then 0 else incidence e.toElem i) else 0) else dotEntry X dX e i j) _
    (dotElem_apply C X dX), zero_add]
  clear hA
  induction ps with
  | nil => simp
  | cons p ps ih => simp only [List.map_cons, List.sum_cons, List.flatten_cons, List.map_append, List.sum_append, ih]

theorem allElems_procsOf (ps : List (List DotElem)) : allElems (procsOf ps) = ps.flatten.map DotElem.toElem := by
  induction ps with
  | nil => rfl
  | cons p ps ih =>
    simp only [allElems, procsOf, List.map_cons, List.flatMap_cons, List.flatten_cons, List.map_append] at ih ⊢
    rw [ih]

theorem elemJac_deriv (X dX : Nat → ℝ) (e : DotElem) (h : e.diag = false → DotExact e (e.sol X) (e.sol dX)) (i j : Nat) :
    HasDerivAt (fun s : ℝ => elemJac (fun k => X k + s * dX k) e.toElem i j) (dotEntry X dX e i j) 0 := by
  unfold elemJac dotEntry
  by_cases hd : e.diag = true
  · simp only [hd, if_true]
    exact hasDerivAt_const _ _
  · simp only [hd, Bool.false_eq_true, if_false]
    refine HasDerivAt.fun_sum fun a ha => HasDerivAt.fun_sum fun b hb => ?_
    by_cases hab : e.dof a = i ∧ e.dof b = j
    · simp only [hab, and_self, if_true]
      exact h (by simpa using hd) a (mem_range.1 ha) b (mem_range.1 hb)
    · simp only [hab, if_false]
      exact hasDerivAt_const _ _

/-! ## Theorems -/

/-- C181, free unknowns: if the matrix of every element is the derivative of its Jacobian, the assembled matrix holds, between unknowns without a constraint, the derivative of the assembled Jacobian along `dX` —
for every distribution of the elements over the processes. -/
theorem C181_free (C : Nat → Bool) (X dX : Nat → ℝ) (ps : List (List DotElem)) (h : ∀ e ∈ ps.flatten, e.diag = false → DotExact e (e.sol X) (e.sol dX))
    (i j : Nat) (hi : C i = false) (hj : C j = false) :
    HasDerivAt (fun s : ℝ => jacobian C (fun k => X k + s * dX k) (procsOf ps) i j) (tangentDot C X dX ps i j) 0 := by
  have e1 : (fun s : ℝ => jacobian C (fun k => X k + s * dX k) (procsOf ps) i j) = fun s : ℝ => (ps.flatten.map fun e => elemJac (fun k => X k + s * dX k) e.toElem i j).sum := by
    funext s
    rw [C22_jacobian]
    simp only [hi, hj, Bool.or_self, Bool.false_eq_true, if_false, allElems_procsOf, List.map_map, Function.comp_def]
  rw [e1, tangentDot_eq]
  simp only [hi, hj, Bool.or_self, Bool.false_eq_true, if_false]
  exact hasDeriv_listSum _ _ _ fun e he => elemJac_deriv X dX e (h e he) i j

/-- C181, constrained unknowns: rows and columns of the assembled Jacobian do not change with the solution, and the assembled matrix is zero there except for the diagonal. -/
theorem C181_constrained_partial (C : Nat → Bool) (X dX : Nat → ℝ) (ps : List (List DotElem)) (i j : Nat) (hc : C i = true ∨ C j = true) :
    HasDerivAt (fun s : ℝ => jacobian C (fun k => X k + s * dX k) (procsOf ps) i j) 0 0 ∧ (i ≠ j → tangentDot C X dX ps i j = 0) := by
  have hc' : (C i || C j) = true := by rcases hc with h | h <;> simp [h]
  constructor
  · have e1 : (fun s : ℝ => jacobian C (fun k => X k + s * dX k) (procsOf ps) i j) = fun _ => if i = j then ((allElems (procsOf ps)).map (fun e => incidence e i)).sum else 0 := by
      funext s; rw [C22_jacobian]; simp only [hc', if_true]
    rw [e1]
    exact hasDerivAt_const _ _
  · intro hij
    rw [tangentDot_eq]
    simp only [hc', hij, if_true, if_false]
    exact List.sum_eq_zero fun x hx => by obtain ⟨_, _, rfl⟩ := List.mem_map.1 hx; rfl

theorem incidence_nonneg (e : Elem) (i : Nat) : 0 ≤ incidence e i := by
  unfold incidence
  exact sum_nonneg fun a _ => by split <;> norm_num

/-- C181, finding: the diagonal entry of a constrained unknown of an element is at least one, although the Jacobian does not change there: `constrain_element_matrix` puts a one on the diagonal of every element matrix, also
of one that is a derivative. -/
theorem C181_constrained_fails (C : Nat → Bool) (X dX : Nat → ℝ) (ps : List (List DotElem)) (i : Nat) (hc : C i = true) (e : DotElem) (he : e ∈ ps.flatten) (hd : e.diag = false)
    (a : Nat) (ha : a < e.n) (hai : e.dof a = i) :
    1 ≤ tangentDot C X dX ps i i ∧ ¬ HasDerivAt (fun s : ℝ => jacobian C (fun k => X k + s * dX k) (procsOf ps) i i) (tangentDot C X dX ps i i) 0 := by
  have h1 : 1 ≤ tangentDot C X dX ps i i := by
    rw [tangentDot_eq]
    simp only [hc, Bool.or_self, if_true]
    have hn : ∀ e : DotElem, 0 ≤ (if e.diag then 0 else incidence e.toElem i : ℝ) := fun e => by
      split
      · exact le_refl 0
      · exact incidence_nonneg _ _
    have h2 : (1 : ℝ) ≤ if e.diag then 0 else incidence e.toElem i := by
      simp only [hd, Bool.false_eq_true, if_false]
      unfold incidence
      refine le_trans ?_ (single_le_sum (f := fun a => if e.dof a = i then (1 : ℝ) else 0) (fun b _ => by split <;> norm_num) (mem_range.2 ha))
      simp [hai]
    refine h2.trans (List.single_le_sum ?_ _ (List.mem_map.2 ⟨e, he, rfl⟩))
    intro x hx
    obtain ⟨e', _, rfl⟩ := List.mem_map.1 hx
    exact hn e'
  refine ⟨h1, fun hD => ?_⟩
  have := hD.unique (C181_constrained_partial C X dX ps i i (Or.inl hc)).1
  linarith

/-- C181, structural elements: the matrix has the change of the internal tangent only; it is exact when the tangent of the loads does not change with the displacement. -/
theorem C181_structural_partial (n : Nat) (dof : Nat → Nat) (vec : (Nat → ℝ) → Nat → ℝ) (internal load : (Nat → ℝ) → Nat → Nat → ℝ) (internalDot : (Nat → ℝ) → (Nat → ℝ) → Nat → Nat → ℝ) (x d : Nat → ℝ)
    (hI : ∀ a < n, ∀ b < n, HasDerivAt (fun s : ℝ => internal (fun k => x k + s * d k) a b) (internalDot x d a b) 0)
    (hL : ∀ y a b, load y a b = load x a b) : DotExact (structElem n dof vec internal load internalDot) x d := by
  intro a ha b hb
  have h := (hI a ha b hb).fun_add (hasDerivAt_const (0 : ℝ) (load x a b))
  refine (h.congr_of_eventuallyEq (Filter.Eventually.of_forall fun s => ?_)).congr_deriv (add_zero _)
  show internal _ a b + load _ a b = _
  rw [hL]

/-- C181, finding: with loads whose tangent changes with the displacement (piston theory of second and third order), the difference between the derivative of the Jacobian and the assembled matrix is exactly the change of the
tangent of the loads. -/
theorem C181_structural_loads_fails (n : Nat) (dof : Nat → Nat) (vec : (Nat → ℝ) → Nat → ℝ) (internal load : (Nat → ℝ) → Nat → Nat → ℝ) (internalDot loadDot : (Nat → ℝ) → (Nat → ℝ) → Nat → Nat → ℝ) (x d : Nat → ℝ)
    (hI : ∀ a < n, ∀ b < n, HasDerivAt (fun s : ℝ => internal (fun k => x k + s * d k) a b) (internalDot x d a b) 0)
    (hL : ∀ a < n, ∀ b < n, HasDerivAt (fun s : ℝ => load (fun k => x k + s * d k) a b) (loadDot x d a b) 0)
    (hne : ∃ a < n, ∃ b < n, loadDot x d a b ≠ 0) : ¬ DotExact (structElem n dof vec internal load internalDot) x d := by
  intro hE
  obtain ⟨a, ha, b, hb, h0⟩ := hne
  have h1 := hE a ha b hb
  have h2 := (hI a ha b hb).fun_add (hL a ha b hb)
  have : internalDot x d a b = internalDot x d a b + loadDot x d a b := h1.unique h2
  exact h0 (by linarith)

/-! ## Non-vacuity: a two-node bar with a cubic spring, a load of quadratic tangent, and a constrained node -/

/-- The tangent `3 k (u1 - u0)^2` of a cubic spring between the unknowns 0 and 1. -/
def springTan (x : Nat → ℝ) (a b : Nat) : ℝ := (if a = b then 1 else -1) * (3 * (x 1 - x 0) ^ 2)
def springDot (x d : Nat → ℝ) (a b : Nat) : ℝ := (if a = b then 1 else -1) * (6 * (x 1 - x 0) * (d 1 - d 0))
noncomputable def spring : DotElem := structElem 2 id (fun _ _ => 0) springTan (fun _ _ _ => 0) springDot

theorem spring_deriv (x d : Nat → ℝ) (a b : Nat) : HasDerivAt (fun s : ℝ => springTan (fun k => x k + s * d k) a b) (springDot x d a b) 0 := by
  unfold springTan springDot
  have h1 : HasDerivAt (fun s : ℝ => (x 1 + s * d 1) - (x 0 + s * d 0)) (d 1 - d 0) 0 := by
    have h := (((hasDerivAt_id' (0 : ℝ)).mul_const (d 1)).const_add (x 1)).fun_sub (((hasDerivAt_id' (0 : ℝ)).mul_const (d 0)).const_add (x 0))
    exact h.congr_deriv (by ring)
  have h2 := ((h1.fun_mul h1).const_mul (3 : ℝ)).const_mul (if a = b then (1 : ℝ) else -1)
  refine (h2.congr_of_eventuallyEq (Filter.Eventually.of_forall fun s => ?_)).congr_deriv ?_
  · show _ * (3 * _ ^ 2) = _; ring
  · ring

example (X dX : Nat → ℝ) : HasDerivAt (fun s : ℝ => jacobian (fun i => i == 0) (fun k => X k + s * dX k) (procsOf [[spring]]) 1 1) (tangentDot (fun i => i == 0) X dX [[spring]] 1 1) 0 :=
  C181_free _ X dX [[spring]] (fun e he _ => by
    have : e = spring := by simpa using he
    subst this
    exact C181_structural_partial 2 id _ springTan _ springDot _ _ (fun a _ b _ => spring_deriv _ _ a b) (fun _ _ _ => rfl)) 1 1 rfl rfl

/-- The value is not trivial: with `X = 0, 1` and `dX = 0, 1` the entry of the free unknown is 6. -/
example : tangentDot (fun i => i == 0) (fun k => k) (fun k => k) [[spring]] 1 1 = 6 := by
  rw [tangentDot_eq]
  simp [dotEntry, spring, structElem, springDot, Elem.sol, sum_range_succ]

example (X dX : Nat → ℝ) : 1 ≤ tangentDot (fun i => i == 0) X dX [[spring]] 0 0 :=
  (C181_constrained_fails _ X dX [[spring]] 0 rfl spring (by simp) rfl 0 (by decide) rfl).1

example : ¬ DotExact (structElem 1 id (fun _ _ => 0) (fun _ _ _ => 0) (fun x _ _ => x 0) (fun _ _ _ _ => 0)) (fun _ => 0) (fun _ => 1) :=
  C181_structural_loads_fails 1 id _ _ _ _ (fun _ d _ _ => d 0) _ _ (fun _ _ _ _ => hasDerivAt_const _ _)
    (fun _ _ _ _ => by simpa using ((hasDerivAt_id' (0 : ℝ)).mul_const (1 : ℝ)).const_add (0 : ℝ)) ⟨0, by decide, 0, by decide, by norm_num⟩

end Verif.Asm
