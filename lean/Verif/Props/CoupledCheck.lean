import Verif.Model.CoupledCheck
import Verif.Props.CoupledSolve
import Mathlib.Analysis.Calculus.Deriv.Mul
import Mathlib.Analysis.Calculus.Deriv.Add
import Mathlib.Analysis.Calculus.Deriv.Pow
import Mathlib.Tactic.Linarith
import Mathlib.Tactic.NormNum
import Mathlib.Tactic.Ring
/-
  C198: the check of the coupling products by differences of residuals.
-/
namespace Verif.CoupledSolve

variable {nd : Nat} {n : Fin nd → Nat}

/-! ### Specification -/

/-- All constraints prescribe values: none makes a degree of freedom depend on others. -/
def Prescribed {α : Type} (c : Con α) : Prop := ∀ d a h, c d = some (a, h) → ∀ k, a k = 0

/-- A unit change of the degree of freedom `k` of discipline `j`, nothing elsewhere. -/
def unit (j : Fin nd) (k : Fin (n j)) : ∀ i, Fin (n i) → ℝ := fun i c => if (⟨i, c⟩ : Σ i, Fin (n i)) = ⟨j, k⟩ then 1 else 0

/-- What the update object hands to the disciplines at the state `z`, if there is one. -/
def seen (P : Physics fun i : Fin nd => Fin (n i)) (z : ∀ i, Fin (n i) → ℝ) : Option (∀ i, Fin (n i) → ℝ) := if P.update then some z else none

/-- Change of the residual of discipline `i` when the solutions of the other disciplines change by `d` and its own does not. -/
def change (P : Physics fun i : Fin nd => Fin (n i)) (z d : ∀ i, Fin (n i) → ℝ) (i : Fin nd) (l : Fin (n i)) : ℝ := P.residual i (z i) (seen P fun m c => z m c + d m c) l - P.residual i (z i) (seen P z) l

/-- Product of discipline `i` with the change `d` of the other disciplines. -/
def prodOf (P : Physics fun i : Fin nd => Fin (n i)) (z d : ∀ i, Fin (n i) → ℝ) (i : Fin nd) (l : Fin (n i)) : ℝ := P.product i (z i) (fun _ => 0) (if P.update then some (z, d) else none) l

/-- The change of step size `delta` in a degree of freedom; a prescribed one does not change. -/
noncomputable def stepDirOf (P : Physics fun i : Fin nd => Fin (n i)) (j : Fin nd) (k : Fin (n j)) : ∀ i, Fin (n i) → ℝ := fun i c => if P.con j k = none then checkStep * unit j k i c else 0

open Classical in
/-- The lines a group has to contain: the entries in which product and change of the residual differ. -/
noncomputable def wrongEntries (P : Physics fun i : Fin nd => Fin (n i)) (z : ∀ i, Fin (n i) → ℝ) (t : Fin nd × (Σ j : Fin nd, Fin (n j))) : List Line :=
  ((List.finRange (n t.1)).filter fun l => prodOf P z (stepDirOf P t.2.1 t.2.2) t.1 l ≠ change P z (stepDirOf P t.2.1 t.2.2) t.1 l).map fun l : Fin (n t.1) =>
    ⟨t.2.2, l, prodOf P z (stepDirOf P t.2.1 t.2.2) t.1 l, change P z (stepDirOf P t.2.1 t.2.2) t.1 l⟩

/-! ### The check -/

theorem mem_indices (t : Fin nd × (Σ j : Fin nd, Fin (n j))) : t ∈ checkIndices n ↔ t.1 ≠ t.2.1 := by
  obtain ⟨i, j, k⟩ := t
  simp only [checkIndices, List.mem_flatMap, List.mem_finRange, true_and, ne_eq]
  constructor
  · rintro ⟨i', j', h⟩
    split at h
    · cases h
    · rename_i hij
      obtain ⟨k', -, e⟩ := List.mem_map.1 h
      cases e
      exact hij
  · intro h
    refine ⟨i, j, ?_⟩
    rw [if_neg h]
    exact List.mem_map.2 ⟨k, List.mem_finRange k, rfl⟩

theorem enforce_prescribed {α : Type} [Fintype α] {b : Bool} {c : Con α} (hc : Prescribed c) (v : α → ℝ) (d : α) : enforce b c v d = match c d with | none => v d | some r => if b then 0 else r.2 := by
  unfold enforce
  cases h : c d with
  | none => rfl
  | some r =>
    have : ∑ k, r.1 k * v k = 0 := Finset.sum_eq_zero fun k _ => by rw [hc d r.1 r.2 h k, zero_mul]
    simp only [this, zero_add]

theorem filterMap_if {α β : Type} (p : α → Prop) [DecidablePred p] (f : α → β) (l : List α) : (l.filterMap fun a => if p a then some (f a) else none) = (l.filter fun a => p a).map f := by
  induction l with
  | nil => rfl
  | cons a l ih => by_cases h : p a <;> simp [List.filterMap_cons, List.filter_cons, h, ih]

theorem setEntry_apply (x : ∀ i, Fin (n i) → ℝ) (j : Fin nd) (k : Fin (n j)) (v : ℝ) (i : Fin nd) (c : Fin (n i)) : setEntry x j k v i c = if (⟨i, c⟩ : Σ i, Fin (n i)) = ⟨j, k⟩ then v else x i c := by
  unfold setEntry
  by_cases h : i = j
  · subst h
    rw [Function.update_self]
    by_cases hc : c = k
    · subst hc; simp
    · rw [Function.update_of_ne hc, if_neg (by simpa using hc)]
  · rw [Function.update_of_ne h, if_neg (by intro e; exact h (congrArg Sigma.fst e))]

section
variable (P : Physics fun i : Fin nd => Fin (n i)) (hc : ∀ i, Prescribed (P.con i)) (z : ∀ i, Fin (n i) → ℝ) (hz : ∀ i, Meets false (P.con i) (z i))

include hc hz in
theorem enforced_step (j : Fin nd) (k : Fin (n j)) : (fun i => enforce false (P.con i) (setEntry z j k (z j k + checkStep) i)) = fun i c => z i c + stepDirOf P j k i c := by
  funext i c
  rw [enforce_prescribed (hc i)]
  unfold stepDirOf unit
  cases h : P.con i c with
  | none =>
    simp only [setEntry_apply]
    by_cases e : (⟨i, c⟩ : Σ i, Fin (n i)) = ⟨j, k⟩
    · cases e; simp [h]
    · simp [e]
  | some r =>
    have hm : z i c = r.2 := by
      have := hz i c r.1 r.2 h
      rwa [Finset.sum_eq_zero fun k _ => by rw [hc i c r.1 r.2 h k, zero_mul], zero_add, if_neg (by simp)] at this
    by_cases e : (⟨i, c⟩ : Σ i, Fin (n i)) = ⟨j, k⟩
    · cases e; simp [h, hm]
    · simp [e, hm]

include hc in
theorem product_step (i j : Fin nd) (hij : i ≠ j) (k : Fin (n j)) (x : ∀ i, Fin (n i) → ℝ) : (matMult P x i j fun c => if c = k then checkStep else 0).2 = prodOf P x (stepDirOf P j k) i := by
  unfold matMult prodOf
  have e : (fun m => if h : m = j then h ▸ enforce true (P.con j) (fun c => if c = k then checkStep else 0) else fun _ => 0 : ∀ m, Fin (n m) → ℝ) = stepDirOf P j k := by
    funext m c
    unfold stepDirOf unit
    by_cases h : m = j
    · subst h
      simp only [dif_pos]
      rw [enforce_prescribed (hc m)]
      by_cases hk : c = k
      · subst hk; cases P.con m c <;> simp
      · cases P.con m c <;> simp [hk]
    · rw [dif_neg h]
      have h2 : ¬ (⟨m, c⟩ : Σ i, Fin (n i)) = ⟨j, k⟩ := fun e => h (congrArg Sigma.fst e)
      simp [h2]
  have e0 : (fun m => if h : m = j then h ▸ enforce true (P.con j) (fun c => if c = k then checkStep else 0) else fun _ => 0 : ∀ m, Fin (n m) → ℝ) i = fun _ => 0 := dif_neg hij
  simp only [e] at e0 ⊢
  rw [e0]

theorem stepDir_self (i j : Fin nd) (hij : i ≠ j) (k : Fin (n j)) (c : Fin (n i)) : stepDirOf P j k i c = 0 := by
  unfold stepDirOf unit
  rw [if_neg (show ¬ (⟨i, c⟩ : Σ i, Fin (n i)) = ⟨j, k⟩ from fun e => hij (congrArg Sigma.fst e))]
  simp

include hc hz in
theorem one_step (out : List (List Line)) (i j : Fin nd) (hij : i ≠ j) (k : Fin (n j)) : checkOne P (snesResidual P z).2 ⟨z, out⟩ i j k = ⟨z, out ++ [wrongEntries P z (i, ⟨j, k⟩)]⟩ := by
  have hx : (snesResidual P (setEntry z j k (z j k + checkStep))).1 = fun i c => z i c + stepDirOf P j k i c := enforced_step P hc z hz j k
  have hz1 : (snesResidual P z).1 = z := funext fun i => enforce_of_meets (hz i)
  have hr0 : ∀ l, (snesResidual P z).2 i l = P.residual i (z i) (seen P z) l := by
    intro l
    show P.residual i ((snesResidual P z).1 i) (if P.update then some (snesResidual P z).1 else none) l = _
    rw [hz1]; rfl
  have hr : ∀ l, (snesResidual P (setEntry z j k (z j k + checkStep))).2 i l = P.residual i (z i) (seen P fun m c => z m c + stepDirOf P j k m c) l := by
    intro l
    show P.residual i ((snesResidual P (setEntry z j k (z j k + checkStep))).1 i) (if P.update then some (snesResidual P (setEntry z j k (z j k + checkStep))).1 else none) l = _
    rw [hx]
    have : (fun c => z i c + stepDirOf P j k i c) = z i := funext fun c => by rw [stepDir_self P i j hij k c, add_zero]
    simp only [this]; rfl
  unfold checkOne
  simp only [hx, product_step P hc i j hij k, hr, hr0]
  congr 1
  · funext m c
    rw [setEntry_apply]
    unfold stepDirOf unit
    by_cases e : (⟨m, c⟩ : Σ i, Fin (n i)) = ⟨j, k⟩
    · cases e; simp
    · simp [e]
  · congr 2
    unfold wrongEntries change
    exact filterMap_if _ _ _

include hc hz in
theorem steps (l : List (Fin nd × (Σ j : Fin nd, Fin (n j)))) (hl : ∀ t ∈ l, t.1 ≠ t.2.1) (out : List (List Line)) :
    l.foldl (fun s t => checkOne P (snesResidual P z).2 s t.1 t.2.1 t.2.2) ⟨z, out⟩ = ⟨z, out ++ l.map (wrongEntries P z)⟩ := by
  induction l generalizing out with
  | nil => simp
  | cons t l ih =>
    rw [List.foldl_cons, one_step P hc z hz out t.1 t.2.1 (hl t List.mem_cons_self) t.2.2, ih (fun s hs => hl s (List.mem_cons_of_mem _ hs))]
    simp

/-! ### The properties -/

include hc in
theorem start_meets (x : ∀ i, Fin (n i) → ℝ) (i : Fin nd) : Meets false (P.con i) ((snesResidual P x).1 i) :=
  enforce_meets (fun d a h hd k hk => absurd (hc i d a h hd k) hk) (x i)

include hc in
/-- C198: if constraints only prescribe values, the check leaves the solution as the evaluation of the residual does - with the prescribed values set, otherwise unchanged -, and prints, for every pair of different disciplines and
every degree of freedom of the second in turn, exactly the entries in which the product for a step of size `delta` differs from the change of the residual. -/
theorem C198_report (x : ∀ i, Fin (n i) → ℝ) :
    (verifyGateaux P x).x = (snesResidual P x).1 ∧ (verifyGateaux P x).out = (checkIndices n).map (wrongEntries P (snesResidual P x).1) ∧
    (∀ t, t ∈ checkIndices n ↔ t.1 ≠ t.2.1) ∧ ((∀ i, Meets false (P.con i) (x i)) → (verifyGateaux P x).x = x) := by
  have hm := start_meets P hc x
  have e : snesResidual P (snesResidual P x).1 = snesResidual P x := (C177_residual P (fun i d a h hd k hk => absurd (hc i d a h hd k) hk) x).2.2.2
  have h := steps P hc (snesResidual P x).1 hm (checkIndices n) (fun t ht => (mem_indices t).1 ht) []
  rw [e] at h
  have h' : verifyGateaux P x = ⟨(snesResidual P x).1, [] ++ (checkIndices n).map (wrongEntries P (snesResidual P x).1)⟩ := h
  refine ⟨by rw [h'], by rw [h']; rfl, mem_indices, fun hx => ?_⟩
  rw [h']
  exact funext fun i => enforce_of_meets (hx i)

/-- The residual of every discipline depends on the solutions of the others by adding a multiple of their change (of one degree of freedom). -/
def AffineCoupling (P : Physics fun i : Fin nd => Fin (n i)) (z : ∀ i, Fin (n i) → ℝ) : Prop :=
  ∀ i j, i ≠ j → ∀ (k : Fin (n j)) (l : Fin (n i)), ∃ c : ℝ, ∀ s : ℝ, change P z (fun m d => s * unit j k m d) i l = s * c

/-- The products of a step in one free degree of freedom of another discipline are the rates of the residual times the step. -/
def ExactProducts (P : Physics fun i : Fin nd => Fin (n i)) (z : ∀ i, Fin (n i) → ℝ) : Prop :=
  ∀ i j, i ≠ j → ∀ (k : Fin (n j)), P.con j k = none → ∀ l : Fin (n i), ∃ c : ℝ,
    HasDerivAt (fun s => P.residual i (z i) (seen P fun m d => z m d + s * unit j k m d) l) c 0 ∧ prodOf P z (fun m d => checkStep * unit j k m d) i l = checkStep * c

include hc in
/-- C198, for coupling that is affine in the solutions of the other disciplines: the check prints nothing if and only if all products are exact.  (The product of a zero change is zero.) -/
theorem C198_silent_partial (x : ∀ i, Fin (n i) → ℝ) (ha : AffineCoupling P (snesResidual P x).1) (h0 : ∀ i l, prodOf P (snesResidual P x).1 (fun _ _ => 0) i l = 0) :
    (∀ g ∈ (verifyGateaux P x).out, g = []) ↔ ExactProducts P (snesResidual P x).1 := by
  obtain ⟨-, e, hmem, -⟩ := C198_report P hc x
  rw [e]
  generalize (snesResidual P x).1 = z at ha h0
  have hone : ∀ (i j : Fin nd) (k : Fin (n j)) (l : Fin (n i)) (c : ℝ), (∀ s : ℝ, change P z (fun m d => s * unit j k m d) i l = s * c) →
      HasDerivAt (fun s => P.residual i (z i) (seen P fun m d => z m d + s * unit j k m d) l) c 0 := by
    intro i j k l c hcs
    have e1 : (fun s => P.residual i (z i) (seen P fun m d => z m d + s * unit j k m d) l) = fun s => s * c + P.residual i (z i) (seen P z) l := by
      funext s
      have := hcs s
      unfold change at this
      linarith
    rw [e1]
    simpa using ((hasDerivAt_id (0:ℝ)).mul_const c).add_const (P.residual i (z i) (seen P z) l)
  have hdir : ∀ (j : Fin nd) (k : Fin (n j)), P.con j k = none → stepDirOf P j k = fun m d => checkStep * unit j k m d := by
    intro j k hk
    funext m d
    simp [stepDirOf, hk]
  constructor
  · intro h i j hij k hk l
    obtain ⟨c, hcs⟩ := ha i j hij k l
    refine ⟨c, hone i j k l c hcs, ?_⟩
    have hg := h _ (List.mem_map.2 ⟨(i, ⟨j, k⟩), (hmem _).2 hij, rfl⟩)
    unfold wrongEntries at hg
    rw [List.map_eq_nil_iff, List.filter_eq_nil_iff] at hg
    have := hg l (List.mem_finRange l)
    simp only [decide_not, Bool.not_eq_true, Bool.not_eq_false', decide_eq_true_eq, ne_eq, hdir j k hk] at this
    rw [this, hcs]
  · intro h g hg
    obtain ⟨⟨i, j, k⟩, ht, rfl⟩ := List.mem_map.1 hg
    have hij : i ≠ j := (hmem _).1 ht
    unfold wrongEntries
    rw [List.map_eq_nil_iff, List.filter_eq_nil_iff]
    intro l _
    simp only [decide_not, Bool.not_eq_true, Bool.not_eq_false', decide_eq_true_eq, ne_eq]
    cases hk : P.con j k with
    | none =>
      obtain ⟨c, hcd, hp⟩ := h i j hij k hk l
      obtain ⟨c', hcs⟩ := ha i j hij k l
      rw [hdir j k hk, hp, hcs, (hone i j k l c' hcs).unique hcd]
    | some r =>
      have e0 : stepDirOf P j k = fun _ _ => 0 := by funext m d; simp [stepDirOf, hk]
      rw [e0, h0]
      unfold change
      simp

/-- C198: matrices of the disciplines themselves are not looked at: whatever they are, solution and printed lines are the same. -/
theorem C198_diagonal_fails (J : ∀ i, (Fin (n i) → ℝ) → Option (∀ k, Fin (n k) → ℝ) → Fin (n i) → Fin (n i) → ℝ) (x : ∀ i, Fin (n i) → ℝ) : verifyGateaux { P with jacobian := J } x = verifyGateaux P x := rfl

end

/-! ### Examples and failures -/

/-- One degree of freedom in each of two disciplines. -/
abbrev one2 : Fin 2 → Nat := fun _ => 1

/-- Two disciplines with one degree of freedom each; the residual of the first is its solution plus `f` of the second's, the second is held at `5`; `g` is the product of the first discipline. -/
noncomputable def pairOf (held : Bool) (f : ℝ → ℝ) (g : ℝ → ℝ → ℝ) : Physics (fun i : Fin 2 => Fin (one2 i)) :=
  { con := fun i _ => if held ∧ i = 0 then some (fun _ => 0, 5) else none
    residual := fun i u y d => if i = 0 then u d + (match y with | some y => f (y 1 0) | none => 0) else u d
    jacobian := fun _ _ _ _ _ => 1
    product := fun i _ _ y d => if i = 0 then (match y with | some y => g (y.1 1 0) (y.2 1 0) | none => 0) else 0
    update := true }

theorem pair_prescribed (held : Bool) (f : ℝ → ℝ) (g : ℝ → ℝ → ℝ) (i : Fin 2) : Prescribed ((pairOf held f g).con i) := by
  intro d a h hd k
  simp only [pairOf] at hd
  split at hd
  · cases hd; rfl
  · cases hd

theorem pair_change (held : Bool) (f : ℝ → ℝ) (g : ℝ → ℝ → ℝ) (z d : ∀ i : Fin 2, Fin (one2 i) → ℝ) (l : Fin 1) :
    change (pairOf held f g) z d 0 l = f (z 1 0 + d 1 0) - f (z 1 0) ∧ change (pairOf held f g) z d 1 l = 0 := by
  constructor <;> simp [change, pairOf, seen]

theorem pair_prod (held : Bool) (f : ℝ → ℝ) (g : ℝ → ℝ → ℝ) (z d : ∀ i : Fin 2, Fin (one2 i) → ℝ) (l : Fin 1) :
    prodOf (pairOf held f g) z d 0 l = g (z 1 0) (d 1 0) ∧ prodOf (pairOf held f g) z d 1 l = 0 := by
  constructor <;> simp [prodOf, pairOf]

theorem pair_unit (k : Fin (one2 1)) : unit (n := one2) 1 k 1 0 = 1 := by
  have : k = 0 := Subsingleton.elim _ _
  subst this
  simp [unit]

/-- Hypotheses of `C198_report` and `C198_silent_partial`, and both outcomes: a first discipline with residual `u + 3 w`, held at `5`. With the product `3 dw` nothing is printed, with `2 dw` something is. -/
example (x : ∀ i : Fin 2, Fin (one2 i) → ℝ) (c : ℝ) : (∀ g ∈ (verifyGateaux (pairOf true (fun w => 3 * w) fun _ dw => c * dw) x).out, g = []) ↔ c = 3 := by
  have key := C198_silent_partial (pairOf true (fun w => 3 * w) fun _ dw => c * dw) (pair_prescribed _ _ _) x ?_ ?_
  · rw [key]
    constructor
    · intro h
      obtain ⟨c', hd, hp⟩ := h 0 1 (by decide) 0 (by simp [pairOf]) 0
      rw [(pair_prod _ _ _ _ _ 0).1, pair_unit] at hp
      have e : (fun s : ℝ => (pairOf true (fun w => 3 * w) fun _ dw => c * dw).residual 0 ((snesResidual (pairOf true (fun w => 3 * w) fun _ dw => c * dw) x).1 0)
          (seen (pairOf true (fun w => 3 * w) fun _ dw => c * dw) fun m d => (snesResidual (pairOf true (fun w => 3 * w) fun _ dw => c * dw) x).1 m d + s * unit (n := one2) 1 0 m d) 0) =
          fun s => (snesResidual (pairOf true (fun w => 3 * w) fun _ dw => c * dw) x).1 0 0 + 3 * ((snesResidual (pairOf true (fun w => 3 * w) fun _ dw => c * dw) x).1 1 0 + s * 1) := by
        funext s
        generalize (snesResidual (pairOf true (fun w => 3 * w) fun _ dw => c * dw) x).1 = z
        simp only [pairOf, seen, if_true]
        rw [pair_unit]
      rw [e] at hd
      have h3 := (((((hasDerivAt_id (0:ℝ)).mul_const (1:ℝ)).const_add ((snesResidual (pairOf true (fun w => 3 * w) fun _ dw => c * dw) x).1 1 0)).const_mul (3:ℝ)).const_add
        ((snesResidual (pairOf true (fun w => 3 * w) fun _ dw => c * dw) x).1 0 0))
      have := hd.unique h3
      unfold checkStep at hp
      linarith
    · rintro rfl i j hij k hk l
      generalize (snesResidual (pairOf true (fun w => 3 * w) fun _ dw => 3 * dw) x).1 = z
      fin_cases i <;> fin_cases j <;> first | exact absurd rfl hij | skip
      · refine ⟨3, ?_, ?_⟩
        · have e : (fun s : ℝ => (pairOf true (fun w => 3 * w) fun _ dw => 3 * dw).residual 0 (z 0) (seen (pairOf true (fun w => 3 * w) fun _ dw => 3 * dw) fun m d => z m d + s * unit (n := one2) 1 k m d) l) =
              fun s => z 0 l + 3 * (z 1 0 + s * 1) := by
            funext s
            simp only [pairOf, seen, if_true]
            rw [pair_unit]
          have h : HasDerivAt (fun s : ℝ => z 0 l + 3 * (z 1 0 + s * 1)) (3 * (1 * 1)) 0 := ((((hasDerivAt_id (0:ℝ)).mul_const (1:ℝ)).const_add (z 1 0)).const_mul (3:ℝ)).const_add (z 0 l)
          rw [← e] at h
          exact h.congr_deriv (by norm_num)
        · have := (pair_prod true (fun w => 3 * w) (fun _ dw => 3 * dw) z (fun m d => checkStep * unit (n := one2) 1 k m d) l).1
          refine this.trans ?_
          rw [pair_unit]; ring
      · simp [pairOf] at hk
  · intro i j hij k l
    generalize (snesResidual (pairOf true (fun w => 3 * w) fun _ dw => c * dw) x).1 = z
    fin_cases i <;> fin_cases j <;> first | exact absurd rfl hij | skip
    · refine ⟨3, fun s => ?_⟩
      refine ((pair_change true (fun w => 3 * w) (fun _ dw => c * dw) z (fun m d => s * unit (n := one2) 1 k m d) l).1).trans ?_
      rw [pair_unit]; ring
    · refine ⟨0, fun s => ?_⟩
      refine ((pair_change true (fun w => 3 * w) (fun _ dw => c * dw) z (fun m d => s * unit (n := one2) 0 k m d) l).2).trans ?_
      ring
  · intro i l
    generalize (snesResidual (pairOf true (fun w => 3 * w) fun _ dw => c * dw) x).1 = z
    fin_cases i
    · exact ((pair_prod true (fun w => 3 * w) (fun _ dw => c * dw) z (fun _ _ => 0) l).1).trans (by simp)
    · exact (pair_prod true (fun w => 3 * w) (fun _ dw => c * dw) z (fun _ _ => 0) l).2

/-- C198 fails for other coupling: with the residual `u + w²` and its exact product `2 w dw` a line is printed at every state, since the change contains the square of the step. -/
theorem C198_nonlinear_fails (x : ∀ i : Fin 2, Fin (one2 i) → ℝ) :
    (∀ w : ℝ, HasDerivAt (fun w : ℝ => w ^ 2) (2 * w) w) ∧ ∃ g ∈ (verifyGateaux (pairOf false (fun w => w ^ 2) fun w dw => 2 * w * dw) x).out, g ≠ [] := by
  refine ⟨fun w => by simpa using hasDerivAt_pow 2 w, ?_⟩
  obtain ⟨-, e, hmem, -⟩ := C198_report (pairOf false (fun w => w ^ 2) fun w dw => 2 * w * dw) (pair_prescribed _ _ _) x
  rw [e]
  generalize (snesResidual (pairOf false (fun w => w ^ 2) fun w dw => 2 * w * dw) x).1 = z
  refine ⟨_, List.mem_map.2 ⟨(0, ⟨1, 0⟩), (hmem _).2 (by decide), rfl⟩, ?_⟩
  unfold wrongEntries
  rw [Ne, List.map_eq_nil_iff, List.filter_eq_nil_iff]
  intro h
  have := h 0 (List.mem_finRange _)
  simp only [decide_not, Bool.not_eq_true, Bool.not_eq_false', decide_eq_true_eq, ne_eq] at this
  rw [(pair_prod _ _ _ _ _ 0).1, (pair_change _ _ _ _ _ 0).1] at this
  have hd : stepDirOf (pairOf false (fun w => w ^ 2) fun w dw => 2 * w * dw) 1 0 1 0 = checkStep := by
    unfold stepDirOf
    rw [pair_unit]
    simp [pairOf]
  rw [hd] at this
  have h2 : checkStep ^ 2 = 0 := by linarith [this, show (z 1 0 + checkStep) ^ 2 - z 1 0 ^ 2 = 2 * z 1 0 * checkStep + checkStep ^ 2 by ring]
  unfold checkStep at h2
  norm_num at h2

/-- Two degrees of freedom in each of two disciplines. -/
abbrev two2 : Fin 2 → Nat := fun _ => 2

/-- The first degree of freedom of the first discipline hangs on the second one. -/
noncomputable def hanging : Physics (fun i : Fin 2 => Fin (two2 i)) :=
  { con := fun i d => if i = 0 ∧ d = 0 then some (fun k => if k = 1 then 1 else 0, 0) else none
    residual := fun _ u _ d => u d
    jacobian := fun _ _ _ _ _ => 1
    product := fun _ _ _ _ _ => 0
    update := false }

/-- C198 fails for constraints that make degrees of freedom depend on others: the solution is not put back, although it meets the constraints before the call. -/
theorem C198_hanging_fails (x : ∀ i : Fin 2, Fin (two2 i) → ℝ) (hx : x 0 0 = x 0 1) :
    (∀ i, Meets false (hanging.con i) (x i)) ∧ (verifyGateaux hanging x).x 0 0 = x 0 0 + checkStep ∧ (verifyGateaux hanging x).x ≠ x := by
  have hl : checkIndices two2 = [(0, ⟨1, 0⟩), (0, ⟨1, 1⟩), (1, ⟨0, 0⟩), (1, ⟨0, 1⟩)] := by decide
  have key : (verifyGateaux hanging x).x 0 0 = x 0 0 + checkStep := by
    unfold verifyGateaux
    rw [hl]
    simp [checkOne, snesResidual, hanging, enforce, setEntry_apply, hx]
  refine ⟨?_, key, ?_⟩
  · intro i d a h hd
    simp only [hanging] at hd
    split at hd
    · rename_i h0
      obtain ⟨rfl, rfl⟩ := h0
      cases hd
      simp [hx]
    · cases hd
  · intro e
    rw [e] at key
    unfold checkStep at key
    linarith

end Verif.CoupledSolve
