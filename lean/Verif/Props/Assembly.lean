import Mathlib.Algebra.BigOperators.Group.Finset.Basic
import Mathlib.Algebra.BigOperators.Ring.Finset
import Mathlib.Algebra.BigOperators.Group.Finset.Sigma
import Mathlib.Tactic.Ring
import Mathlib.Tactic.NormNum
import Verif.Model.Assembly
/-
  C22: assembled residual and Jacobian are sums of element contributions.
-/
namespace Verif.Asm
open Verif Finset

/-! ### Specification -/

/-- What element `e` contributes to dof `i`. -/
noncomputable def elemRes (X : Nat → ℝ) (e : Elem) (i : Nat) : ℝ :=
  if e.diag then 0 else ∑ a ∈ range e.n, if e.dof a = i then e.vec (fun b => X (e.dof b)) a else 0

/-- What a loaded node contributes to dof `i` as an applied force. -/
noncomputable def nodeForce (l : NodeLoad) (i : Nat) : ℝ := ∑ a ∈ range l.n, if l.dof a = i then l.load a else 0

/-- What element `e` contributes to entry `(i, j)` of the Jacobian (free dofs). -/
noncomputable def elemJac (X : Nat → ℝ) (e : Elem) (i j : Nat) : ℝ :=
  ∑ a ∈ range e.n, ∑ b ∈ range e.n, if e.dof a = i ∧ e.dof b = j then
    (if e.diag then (if a = b then 1e-24 else 0) else e.mat (fun b => X (e.dof b)) a b) else 0

/-- Number of local dofs of `e` that are dof `i`. -/
noncomputable def incidence (e : Elem) (i : Nat) : ℝ := ∑ a ∈ range e.n, if e.dof a = i then 1 else 0

def allElems (ps : List Proc) : List Elem := ps.flatMap (·.elems)

/-- Every dof is owned by exactly one process. -/
def Owned (ps : List Proc) (i : Nat) : Prop := (ps.filter (fun p => p.first ≤ i ∧ i < p.last)).length = 1

/-! ### Lemmas -/

theorem addVector_apply (n : Nat) (dof : Nat → Nat) (v R : Nat → ℝ) (i : Nat) :
    addVector n dof v R i = R i + ∑ a ∈ range n, if dof a = i then v a else 0 := by
  induction n with
  | zero => simp [addVector, loop]
  | succ n ih =>
    have : addVector (n+1) dof v R i =
        if i = dof n then addVector n dof v R i + v n else addVector n dof v R i := rfl
    rw [this, sum_range_succ, ih]
    by_cases h : i = dof n
    · rw [if_pos h, if_pos h.symm]; ring
    · rw [if_neg h, if_neg (Ne.symm h)]; ring

theorem addRow_apply (n a : Nat) (dof : Nat → Nat) (m J : Nat → Nat → ℝ) (i j : Nat) :
    loop n (fun b J => fun i j => if i = dof a ∧ j = dof b then J i j + m a b else J i j) J i j =
      J i j + ∑ b ∈ range n, if dof a = i ∧ dof b = j then m a b else 0 := by
  induction n with
  | zero => simp [loop]
  | succ n ih =>
    rw [loop, sum_range_succ, ih]
    by_cases h : i = dof a ∧ j = dof n
    · rw [if_pos h, if_pos ⟨h.1.symm, h.2.symm⟩]; ring
    · rw [if_neg h, if_neg (fun h' => h ⟨h'.1.symm, h'.2.symm⟩)]; ring

theorem addMatrix_apply (n : Nat) (dof : Nat → Nat) (m J : Nat → Nat → ℝ) (i j : Nat) :
    addMatrix n dof m J i j =
      J i j + ∑ a ∈ range n, ∑ b ∈ range n, if dof a = i ∧ dof b = j then m a b else 0 := by
  unfold addMatrix
  suffices H : ∀ k, loop k (fun a J => loop n (fun b J => fun i j =>
      if i = dof a ∧ j = dof b then J i j + m a b else J i j) J) J i j =
      J i j + ∑ a ∈ range k, ∑ b ∈ range n, if dof a = i ∧ dof b = j then m a b else 0 from H n
  intro k
  induction k with
  | zero => simp [loop]
  | succ k ih => rw [loop, addRow_apply, ih, sum_range_succ]; ring

theorem foldl_add {α : Type} (f : α → Nat → ℝ) (g : (Nat → ℝ) → α → (Nat → ℝ))
    (hg : ∀ R a i, g R a i = R i + f a i) (l : List α) (R : Nat → ℝ) (i : Nat) :
    l.foldl g R i = R i + (l.map (fun a => f a i)).sum := by
  induction l generalizing R with
  | nil => simp
  | cons a l ih => rw [List.foldl_cons, ih, hg]; simp; ring

theorem foldl_add2 {α : Type} (f : α → Nat → Nat → ℝ) (g : (Nat → Nat → ℝ) → α → (Nat → Nat → ℝ))
    (hg : ∀ R a i j, g R a i j = R i j + f a i j) (l : List α) (R : Nat → Nat → ℝ) (i j : Nat) :
    l.foldl g R i j = R i j + (l.map (fun a => f a i j)).sum := by
  induction l generalizing R with
  | nil => simp
  | cons a l ih => rw [List.foldl_cons, ih, hg]; simp; ring

theorem sum_conVec (C : Nat → Bool) (n : Nat) (dof : Nat → Nat) (v : Nat → ℝ) (i : Nat) :
    (∑ a ∈ range n, if dof a = i then conVec C dof v a else 0) =
      if C i then 0 else ∑ a ∈ range n, if dof a = i then v a else 0 := by
  split
  · rename_i h
    refine sum_eq_zero fun a _ => ?_
    split
    · rename_i h2; simp [conVec, h2, h]
    · rfl
  · rename_i h
    refine sum_congr rfl fun a _ => ?_
    split
    · rename_i h2; simp [conVec, h2, h]
    · rfl

theorem resElem_apply (C : Nat → Bool) (X R : Nat → ℝ) (e : Elem) (i : Nat) :
    resElem C X R e i = R i + if C i then 0 else elemRes X e i := by
  unfold resElem elemRes
  split
  · simp
  · rw [addVector_apply, sum_conVec]; rfl

theorem resLoad_apply (C : Nat → Bool) (first last : Nat) (R : Nat → ℝ) (l : NodeLoad) (i : Nat) :
    resLoad C first last R l i = R i + if C i then 0 else if first ≤ i ∧ i < last then -nodeForce l i else 0 := by
  unfold resLoad nodeForce
  rw [addVector_apply, sum_conVec]
  congr 1
  split
  · rfl
  · split
    · rename_i h
      rw [← sum_neg_distrib]
      refine sum_congr rfl fun a _ => ?_
      split
      · rename_i h2
        rw [h2, if_neg (by omega)]; ring
      · simp
    · rename_i h
      refine sum_eq_zero fun a _ => ?_
      split
      · rename_i h2
        rw [h2, if_pos (by omega)]
      · rfl

theorem sum_if_zero {α : Type} (c : Bool) (l : List α) (f : α → ℝ) :
    (l.map (fun a => if c then 0 else f a)).sum = if c then 0 else (l.map f).sum := by
  cases c <;> simp

theorem resProc_apply (C : Nat → Bool) (X : Nat → ℝ) (loads : List NodeLoad) (p : Proc) (i : Nat) :
    resProc C X loads p i = if C i then 0 else
      (p.elems.map (fun e => elemRes X e i)).sum +
        if p.first ≤ i ∧ i < p.last then -(loads.map (fun l => nodeForce l i)).sum else 0 := by
  unfold resProc
  rw [foldl_add (fun l i => if C i then 0 else if p.first ≤ i ∧ i < p.last then -nodeForce l i else 0) _
    (resLoad_apply C p.first p.last), foldl_add (fun e i => if C i then 0 else elemRes X e i) _ (resElem_apply C X),
    sum_if_zero, sum_if_zero]
  cases C i
  · simp only [Bool.false_eq_true, if_false, zero_add]
    congr 1
    split
    · induction loads with
      | nil => simp
      | cons a l ih => simp [ih]; ring
    · simp
  · simp

/-! ### C22 -/

/-- C22, residual: for every distribution of the elements over processes in which every dof has exactly one owner, the assembled residual at
a free dof is the sum of all element contributions minus the applied point forces; at constrained dofs it is zero. -/
theorem C22_residual (C : Nat → Bool) (X : Nat → ℝ) (loads : List NodeLoad) (ps : List Proc) (i : Nat)
    (hown : Owned ps i) :
    residual C X loads ps i = if C i then 0 else
      ((allElems ps).map (fun e => elemRes X e i)).sum - (loads.map (fun l => nodeForce l i)).sum := by
  unfold residual
  rw [foldl_add (fun p i => resProc C X loads p i) _ (fun _ _ _ => rfl), zero_add]
  simp only [resProc_apply]
  rw [sum_if_zero]
  split
  · rfl
  · have h1 : ∀ ps : List Proc, (ps.map (fun p => (p.elems.map (fun e => elemRes X e i)).sum +
        if p.first ≤ i ∧ i < p.last then -(loads.map (fun l => nodeForce l i)).sum else 0)).sum =
        ((allElems ps).map (fun e => elemRes X e i)).sum -
          ((ps.filter (fun p => p.first ≤ i ∧ i < p.last)).length : ℝ) *
            (loads.map (fun l => nodeForce l i)).sum := by
      intro ps
      induction ps with
      | nil => simp [allElems]
      | cons p ps ih =>
        rw [List.map_cons, List.sum_cons, ih]
        by_cases hp : p.first ≤ i ∧ i < p.last
        · simp [allElems, hp]; ring
        · simp [allElems, hp]; ring
    rw [h1]
    unfold Owned at hown
    rw [hown]; push_cast; ring

/-- C22, independence: the residual does not depend on the order in which elements are visited, on how they are distributed over processes, or on the
order of the loads. -/
theorem C22_residual_independent (C : Nat → Bool) (X : Nat → ℝ) (loads loads' : List NodeLoad) (ps qs : List Proc) (i : Nat)
    (hperm : (allElems ps).Perm (allElems qs)) (hl : loads.Perm loads') (hp : Owned ps i) (hq : Owned qs i) :
    residual C X loads ps i = residual C X loads' qs i := by
  rw [C22_residual C X loads ps i hp, C22_residual C X loads' qs i hq, (hperm.map _).sum_eq, (hl.map _).sum_eq]

theorem sum_conMat (C : Nat → Bool) (n : Nat) (dof : Nat → Nat) (m : Nat → Nat → ℝ) (i j : Nat) :
    (∑ a ∈ range n, ∑ b ∈ range n, if dof a = i ∧ dof b = j then conMat C dof m a b else 0) =
      if C i || C j then (if i = j then ∑ a ∈ range n, if dof a = i then 1 else 0 else 0)
      else ∑ a ∈ range n, ∑ b ∈ range n, if dof a = i ∧ dof b = j then m a b else 0 := by
  split
  · rename_i h
    split
    · rename_i hij; subst hij
      refine sum_congr rfl fun a ha => ?_
      rw [sum_eq_single a]
      · by_cases hd : dof a = i
        · simp only [hd, conMat, h, and_self, if_true]
        · simp [hd]
      · intro b _ hb
        split
        · rename_i hd; simp only [conMat, hd.1, hd.2, h, if_true, if_neg (Ne.symm hb)]
        · rfl
      · intro h; exact absurd ha h
    · rename_i hij
      refine sum_eq_zero fun a _ => sum_eq_zero fun b _ => ?_
      split
      · rename_i hd
        have hab : a ≠ b := by
          rintro rfl
          exact hij (hd.1.symm.trans hd.2)
        simp only [conMat, hd.1, hd.2, h, if_true, if_neg hab]
      · rfl
  · rename_i h
    refine sum_congr rfl fun a _ => sum_congr rfl fun b _ => ?_
    split
    · rename_i hd; simp only [conMat, hd.1, hd.2, h, if_false]; simp
    · rfl

theorem jacElem_apply (C : Nat → Bool) (X : Nat → ℝ) (J : Nat → Nat → ℝ) (e : Elem) (i j : Nat) :
    jacElem C X J e i j = J i j + if C i || C j then (if i = j then incidence e i else 0) else elemJac X e i j := by
  unfold jacElem elemJac incidence
  split
  · rw [addMatrix_apply, sum_conMat]
  · rw [addMatrix_apply, sum_conMat]; rfl

/-- C22, Jacobian: entries between free dofs are the sum of all element contributions (elements of "diagonal" subdomains contribute
`1e-24` on the diagonal); rows and columns of constrained dofs are zero except for the diagonal, which counts the
element incidences. -/
theorem C22_jacobian (C : Nat → Bool) (X : Nat → ℝ) (ps : List Proc) (i j : Nat) :
    jacobian C X ps i j =
      if C i || C j then (if i = j then ((allElems ps).map (fun e => incidence e i)).sum else 0)
      else ((allElems ps).map (fun e => elemJac X e i j)).sum := by
  unfold jacobian
  have hA := foldl_add2 (α := Proc) (fun p i j => (p.elems.foldl (jacElem C X) (fun _ _ => 0)) i j)
    (fun J p i j => J i j + (p.elems.foldl (jacElem C X) (fun _ _ => 0)) i j) (fun _ _ _ _ => rfl) ps (fun _ _ => 0) i j
  rw [hA, zero_add]
  simp only [foldl_add2 (fun e i j => if C i || C j then (if i = j then incidence e i else 0) else elemJac X e i j) _
    (jacElem_apply C X), zero_add]
  have h : ∀ ps : List Proc, (ps.map (fun p => (p.elems.map (fun e =>
      if C i || C j then (if i = j then incidence e i else 0) else elemJac X e i j)).sum)).sum =
      ((allElems ps).map (fun e => if C i || C j then (if i = j then incidence e i else 0) else elemJac X e i j)).sum := by
    intro ps
    induction ps with
    | nil => simp [allElems]
    | cons p ps ih => simp only [List.map_cons, List.sum_cons, ih, allElems, List.flatMap_cons, List.map_append, List.sum_append]
  rw [h]
  by_cases hc : (C i || C j) = true
  · simp only [hc, if_true]
    by_cases hij : i = j <;> simp [hij]
  · simp only [hc, Bool.false_eq_true, if_false]

/-- C22, independence of the Jacobian of visiting order and distribution. -/
theorem C22_jacobian_independent (C : Nat → Bool) (X : Nat → ℝ) (ps qs : List Proc) (i j : Nat)
    (hperm : (allElems ps).Perm (allElems qs)) : jacobian C X ps i j = jacobian C X qs i j := by
  rw [C22_jacobian, C22_jacobian, (hperm.map _).sum_eq, (hperm.map _).sum_eq]

/-- C22, consistency: if residual contributions are differentiable along a direction with the element Jacobians as derivatives, so is
the assembled one — here as exact linear algebra: the assembled Jacobian applied to a vector supported on the dofs `0..N-1` that vanishes on
constrained dofs equals the assembled linearised product, provided every element's product routine is its matrix times the element
perturbation, and there are no diagonal subdomains. -/
theorem C22_jacobian_product (C : Nat → Bool) (X dX : Nat → ℝ) (ps : List Proc) (N : Nat)
    (hdof : ∀ e ∈ allElems ps, ∀ a < e.n, e.dof a < N) (hdX : ∀ i, C i = true → dX i = 0)
    (hprod : ∀ e ∈ allElems ps, e.diag = false ∧
      ∀ s d, ∀ a < e.n, e.prod s d a = ∑ b ∈ range e.n, e.mat s a b * d b) (i : Nat) :
    jacProduct C X dX ps i = ∑ j ∈ range N, jacobian C X ps i j * dX j := by
  -- left-hand side as a sum over elements
  have hL : jacProduct C X dX ps i = ((allElems ps).map (fun e => if C i then 0 else
      ∑ a ∈ range e.n, if e.dof a = i then ∑ b ∈ range e.n, e.mat (e.sol X) a b * dX (e.dof b) else 0)).sum := by
    unfold jacProduct
    have hstep : ∀ (l : List Elem) (hl : ∀ e ∈ l, e ∈ allElems ps) (R : Nat → ℝ),
        l.foldl (fun R e => if e.diag then R else
          addVector e.n e.dof (conVec C e.dof (e.prod (e.sol X) (e.sol dX))) R) R i =
        R i + (l.map (fun e => if C i then 0 else
          ∑ a ∈ range e.n, if e.dof a = i then ∑ b ∈ range e.n, e.mat (e.sol X) a b * dX (e.dof b) else 0)).sum := by
      intro l
      induction l with
      | nil => intro _ R; simp
      | cons e l ih =>
        intro hl R
        have he := hprod e (hl e (by simp))
        rw [List.foldl_cons, ih (fun e' he' => hl e' (by simp [he']))]
        simp only [he.1, Bool.false_eq_true, if_false, addVector_apply, sum_conVec, List.map_cons, List.sum_cons]
        have : (∑ a ∈ range e.n, if e.dof a = i then e.prod (e.sol X) (e.sol dX) a else 0) =
            ∑ a ∈ range e.n, if e.dof a = i then ∑ b ∈ range e.n, e.mat (e.sol X) a b * dX (e.dof b) else 0 := by
          refine sum_congr rfl fun a ha => ?_
          split
          · rw [he.2 _ _ a (mem_range.1 ha)]; rfl
          · rfl
        rw [this]; ring
    have hA := foldl_add (α := Proc) (fun p i => (p.elems.foldl (fun R e => if e.diag then R else
      addVector e.n e.dof (conVec C e.dof (e.prod (e.sol X) (e.sol dX))) R) (fun _ => 0)) i)
      (fun R p i => R i + (p.elems.foldl (fun R e => if e.diag then R else
      addVector e.n e.dof (conVec C e.dof (e.prod (e.sol X) (e.sol dX))) R) (fun _ => 0)) i) (fun _ _ _ => rfl) ps (fun _ => 0) i
    rw [hA, zero_add]
    have : ∀ qs : List Proc, (∀ e ∈ allElems qs, e ∈ allElems ps) →
        (qs.map (fun p => (p.elems.foldl (fun R e => if e.diag then R else
          addVector e.n e.dof (conVec C e.dof (e.prod (e.sol X) (e.sol dX))) R) (fun _ => 0)) i)).sum =
        ((allElems qs).map (fun e => if C i then 0 else
      ∑ a ∈ range e.n, if e.dof a = i then ∑ b ∈ range e.n, e.mat (e.sol X) a b * dX (e.dof b) else 0)).sum := by
      intro qs
      induction qs with
      | nil => intro _; simp [allElems]
      | cons p qs ih =>
        intro hq
        rw [List.map_cons, List.sum_cons, ih (fun e he => hq e (by simp only [allElems, List.flatMap_cons, List.mem_append] at he ⊢; exact Or.inr he)),
          hstep p.elems (fun e he => hq e (by simp only [allElems, List.flatMap_cons, List.mem_append]; exact Or.inl he))]
        simp only [allElems, List.flatMap_cons, List.map_append, List.sum_append, zero_add]
    exact this ps (fun e he => he)
  rw [hL]
  -- right-hand side
  have hterm : ∀ j ∈ range N, jacobian C X ps i j * dX j =
      ((allElems ps).map (fun e => if C i then 0 else elemJac X e i j * dX j)).sum := by
    intro j _
    rw [C22_jacobian]
    by_cases hj : C j = true
    · rw [hdX j hj]; simp
    · by_cases hi : C i = true
      · have hij : i ≠ j := by rintro rfl; exact hj hi
        simp [hi, hij]
      · simp only [hi, hj, Bool.or_false, Bool.false_eq_true, if_false]
        generalize allElems ps = l
        induction l with
        | nil => simp
        | cons e l ih => simp only [List.map_cons, List.sum_cons, add_mul, ih]
  rw [sum_congr rfl hterm]
  revert hdof hprod
  generalize allElems ps = l
  clear hL hterm
  intro hdof hprod
  induction l with
  | nil => simp
  | cons e l ih =>
    simp only [List.map_cons, List.sum_cons, sum_add_distrib]
    rw [ih (fun e' he' => hdof e' (by simp [he'])) (fun e' he' => hprod e' (by simp [he']))]
    congr 1
    by_cases hi : C i = true
    · simp [hi]
    · simp only [hi, Bool.false_eq_true, if_false]
      have he := hprod e (by simp)
      simp only [elemJac, he.1, Bool.false_eq_true, if_false, sum_mul]
      rw [sum_comm]
      refine sum_congr rfl fun a _ => ?_
      by_cases ha : e.dof a = i
      · simp only [ha, if_true, true_and]
        rw [sum_comm]
        refine sum_congr rfl fun b hb => ?_
        rw [sum_eq_single (e.dof b)]
        · simp [Elem.sol]; left; rfl
        · intro j _ hj
          rw [if_neg (Ne.symm hj), zero_mul]
        · intro h
          exact absurd (mem_range.2 (hdof e (by simp) b (mem_range.1 hb))) h
      · simp [ha]

/-- Non-vacuity: two processes, two bar elements sharing dof 1, a point load on dof 1. -/
noncomputable def barElem (k : Nat) : Elem :=
  ⟨2, fun a => k + a, false, fun s a => if a = 0 then s 0 - s 1 else s 1 - s 0,
    fun _ a b => if a = b then 1 else -1, fun _ d a => if a = 0 then d 0 - d 1 else d 1 - d 0⟩

example : Owned [⟨[barElem 0], 0, 2⟩, ⟨[barElem 1], 2, 3⟩] 1 := by
  simp [Owned]

example : residual (fun i => i == 0) (fun i => (i : ℝ)) [⟨1, fun _ => 1, fun _ => 5⟩]
    [⟨[barElem 0], 0, 2⟩, ⟨[barElem 1], 2, 3⟩] 1 = -5 := by
  rw [C22_residual _ _ _ _ _ (by simp [Owned])]
  simp [allElems, elemRes, barElem, nodeForce, sum_range_succ]
  norm_num

example : (barElem 0).diag = false ∧ ∀ s d a, a < 2 → (barElem 0).prod s d a =
    ∑ b ∈ range (barElem 0).n, (barElem 0).mat s a b * d b := by
  refine ⟨rfl, fun s d a ha => ?_⟩
  have : a = 0 ∨ a = 1 := by omega
  rcases this with rfl | rfl <;> simp [barElem, sum_range_succ] <;> ring

end Verif.Asm
