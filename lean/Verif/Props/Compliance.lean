import Mathlib.Algebra.BigOperators.Ring.Finset
import Mathlib.Algebra.BigOperators.Group.Finset.Sigma
import Mathlib.Analysis.Calculus.Deriv.Add
import Mathlib.Analysis.Calculus.Deriv.Mul
import Mathlib.Tactic.Ring
import Mathlib.Tactic.NormNum
import Mathlib.Tactic.Linarith
import Mathlib.Tactic.LinearCombination
import Verif.Model.Compliance
import Verif.Props.Assembly
/-
  C132: the compliance output.
-/
namespace Verif.Compliance
open Verif Finset

noncomputable section

/-! ### Specification -/

/-- The force the loads of element `e` apply to its local dof `a` (loads enter the residual with a minus sign). -/
def force (e : Elem) (u : Nat → ℝ) (a : Nat) : ℝ := -(e.side u a + e.vol u a)

/-- Work of the loads of one element through the displacement `w`, the element being in the state `X`. -/
def elemWork (e : Elem) (X w : Nat → ℝ) : ℝ := ∑ a ∈ range e.n, force e (fun b => X (e.dof b)) a * w (e.dof a)

/-- The element takes part in the output. -/
def Counts (e : Elem) : Prop := e.diag = false ∧ e.eval = true

instance (e : Elem) : Decidable (Counts e) := by unfold Counts; infer_instance

/-- Work of all loads of the elements that take part, over all processes. -/
def work (ps : List (List Elem)) (X w : Nat → ℝ) : ℝ := ((ps.flatten.filter (fun e => Counts e)).map fun e => elemWork e X w).sum

/-- The loads of the element do not depend on the displacement. -/
def Dead (e : Elem) : Prop := ∀ u v, force e u = force e v

/-! ### Lemmas -/

theorem foldl_value (X : Nat → ℝ) (es : List Elem) (s : St) :
    (es.foldl (fun s e => if e.diag then s else if e.eval then evaluate e (sol e X) s else s) s).value =
      s.value + ((es.filter (fun e => Counts e)).map fun e => elemWork e X X).sum := by
  induction es generalizing s with
  | nil => simp
  | cons e es ih =>
    rw [List.foldl_cons, ih]
    cases hd : e.diag <;> cases he : e.eval
    · simp [Counts, hd, he]
    · have : dot e.n (ext e (sol e X)) (sol e X) = -elemWork e X X := by
        unfold dot elemWork ext force sol; rw [← sum_neg_distrib]; exact sum_congr rfl fun a _ => by ring
      simp [Counts, hd, he, evaluate, this]; ring
    · simp [Counts, hd, he]
    · simp [Counts, hd, he]

theorem flatten_filter_sum {α : Type*} (p : α → Bool) (f : α → ℝ) (ps : List (List α)) :
    (ps.map fun es => ((es.filter p).map f).sum).sum = ((ps.flatten.filter p).map f).sum := by
  induction ps with
  | nil => simp
  | cons es ps ih => simp [ih]

theorem list_sum_congr {α : Type*} (l : List α) (f g : α → ℝ) (h : ∀ e ∈ l, f e = g e) : (l.map f).sum = (l.map g).sum := by
  congr 1; exact List.map_congr_left h

theorem hasDeriv_listsum {α : Type*} (l : List α) (f : α → ℝ → ℝ) (f' : α → ℝ) (x : ℝ) (h : ∀ e ∈ l, HasDerivAt (f e) (f' e) x) :
    HasDerivAt (fun t => (l.map fun e => f e t).sum) (l.map f').sum x := by
  induction l with
  | nil => simpa using hasDerivAt_const x (0 : ℝ)
  | cons e l ih =>
    simp only [List.map_cons, List.sum_cons]
    exact (h e (by simp)).add (ih fun e' he' => h e' (by simp [he']))

/-- `Σ_i g(i) w(i)` with `g` gathered from local contributions equals the local sum. -/
theorem gather (n N : Nat) (dof : Nat → Nat) (hN : ∀ a < n, dof a < N) (v w : Nat → ℝ) :
    ∑ i ∈ range N, (∑ a ∈ range n, if dof a = i then v a else 0) * w i = ∑ a ∈ range n, v a * w (dof a) := by
  simp_rw [sum_mul]
  rw [sum_comm]
  refine sum_congr rfl fun a ha => ?_
  rw [sum_eq_single (dof a)]
  · simp
  · intro b _ hb; rw [if_neg (Ne.symm hb)]; simp
  · intro h; exact absurd (mem_range.2 (hN a (mem_range.1 ha))) h

theorem sum_list_comm {α : Type} (N : Nat) (l : List α) (f : α → Nat → ℝ) :
    ∑ i ∈ range N, (l.map fun e => f e i).sum = (l.map fun e => ∑ i ∈ range N, f e i).sum := by
  induction l with
  | nil => simp
  | cons e l ih => simp [sum_add_distrib, ih]

theorem list_sum_mul {α : Type} (l : List α) (f : α → ℝ) (c : ℝ) : (l.map f).sum * c = (l.map fun e => f e * c).sum := by
  induction l with
  | nil => simp
  | cons e l ih => simp [add_mul, ih]

theorem list_add {α : Type*} (l : List α) (f g : α → ℝ) : (l.map fun e => f e + g e).sum = (l.map f).sum + (l.map g).sum := by
  induction l with
  | nil => simp
  | cons e l ih => simp [ih]; ring

/-! ### C132 -/

/-- The compliance is the work of all element loads of the participating elements through the displacement, whatever the distribution to processes, and whatever the history of the output object. -/
theorem C132_value (X : Nat → ℝ) (ps : List (List Elem)) (s : St) : total (ps.map fun es => calculateOutput X es s) = work ps X X := by
  unfold total work
  rw [List.map_map, ← flatten_filter_sum]
  refine list_sum_congr _ _ _ fun es _ => ?_
  simp only [Function.comp, calculateOutput, foldl_value, zeroForAnalysis]; ring

/-- An analysis leaves no sensitivity behind from earlier calls. -/
theorem C132_fresh (X : Nat → ℝ) (es : List Elem) (s : St) : (calculateOutput X es s).sens = 0 := by
  unfold calculateOutput
  have h0 : (zeroForAnalysis s).sens = 0 := rfl
  generalize zeroForAnalysis s = z at h0
  induction es generalizing z with
  | nil => exact h0
  | cons e es ih =>
    rw [List.foldl_cons]
    refine ih _ ?_
    cases e.diag <;> cases he : e.eval <;> simp [evaluate, he, h0]

/-- A structure in equilibrium: at every free dof the internal forces balance the loads. `K e u` is the internal force vector of element `e`. -/
def Equilibrium (C : Nat → Bool) (ps : List (List Elem)) (K : Elem → (Nat → ℝ) → Nat → ℝ) (point : Nat → ℝ) (X : Nat → ℝ) : Prop :=
  ∀ i, C i = false →
    (ps.flatten.map fun e => ∑ a ∈ range e.n, if e.dof a = i then K e (fun b => X (e.dof b)) a else 0).sum =
    (ps.flatten.map fun e => ∑ a ∈ range e.n, if e.dof a = i then force e (fun b => X (e.dof b)) a else 0).sum + point i

/-- In equilibrium under element loads only, with the supported dofs at rest and all elements taking part, the compliance is the work of the internal forces; it is nonnegative when every element's internal
force does nonnegative work. -/
theorem C132_equilibrium (C : Nat → Bool) (N : Nat) (X : Nat → ℝ) (ps : List (List Elem)) (s : St) (K : Elem → (Nat → ℝ) → Nat → ℝ)
    (hN : ∀ e ∈ ps.flatten, ∀ a < e.n, e.dof a < N) (hC : ∀ e ∈ ps.flatten, Counts e) (hX : ∀ i, C i = true → X i = 0)
    (heq : Equilibrium C ps K (fun _ => 0) X) :
    total (ps.map fun es => calculateOutput X es s) = (ps.flatten.map fun e => ∑ a ∈ range e.n, K e (fun b => X (e.dof b)) a * X (e.dof a)).sum ∧
    ((∀ e ∈ ps.flatten, 0 ≤ ∑ a ∈ range e.n, K e (fun b => X (e.dof b)) a * X (e.dof a)) → 0 ≤ total (ps.map fun es => calculateOutput X es s)) := by
  have key : total (ps.map fun es => calculateOutput X es s) = (ps.flatten.map fun e => ∑ a ∈ range e.n, K e (fun b => X (e.dof b)) a * X (e.dof a)).sum := by
    rw [C132_value, work, List.filter_eq_self.2 (by intro e he; simpa using hC e he)]
    have lhs : (ps.flatten.map fun e => elemWork e X X).sum = ∑ i ∈ range N,
        (ps.flatten.map fun e => ∑ a ∈ range e.n, if e.dof a = i then force e (fun b => X (e.dof b)) a else 0).sum * X i := by
      simp_rw [list_sum_mul]
      rw [sum_list_comm]
      exact list_sum_congr _ _ _ fun e he => (gather e.n N e.dof (hN e he) _ _).symm
    have rhs : (ps.flatten.map fun e => ∑ a ∈ range e.n, K e (fun b => X (e.dof b)) a * X (e.dof a)).sum = ∑ i ∈ range N,
        (ps.flatten.map fun e => ∑ a ∈ range e.n, if e.dof a = i then K e (fun b => X (e.dof b)) a else 0).sum * X i := by
      simp_rw [list_sum_mul]
      rw [sum_list_comm]
      exact list_sum_congr _ _ _ fun e he => (gather e.n N e.dof (hN e he) _ _).symm
    rw [lhs, rhs]
    refine sum_congr rfl fun i _ => ?_
    cases h : C i
    · rw [heq i h]; ring
    · rw [hX i h]; ring
  refine ⟨key, fun h => ?_⟩
  rw [key]
  exact List.sum_nonneg (by intro x hx; obtain ⟨e, he, rfl⟩ := List.mem_map.1 hx; exact h e he)

/-- A bar with stiffness 1 and one dof. -/
def bar1 (load : ℝ) : Elem where
  n := 1
  dof := fun _ => 0
  diag := false
  eval := true
  skip := false
  side := fun _ _ => -load
  vol := fun _ _ => 0
  sideSens := fun _ _ => -1
  volSens := fun _ _ => 0
  bnd := none

/-- Point loads take part in the equilibrium but not in the compliance: the same bar in the same equilibrium state, loaded by a side load or by a point load, has compliance 9 or 0. -/
theorem C132_point_load_fails :
    let X : Nat → ℝ := fun _ => 3
    let K : Elem → (Nat → ℝ) → Nat → ℝ := fun _ u => u
    Equilibrium (fun _ => false) [[bar1 3]] K (fun _ => 0) (fun i => if i = 0 then 3 else 0) ∧
    Equilibrium (fun _ => false) [[bar1 0]] K (fun i => if i = 0 then 3 else 0) (fun i => if i = 0 then 3 else 0) ∧
    total ([[bar1 3]].map fun es => calculateOutput X es ⟨0, 0⟩) = 9 ∧ total ([[bar1 0]].map fun es => calculateOutput X es ⟨0, 0⟩) = 0 := by
  refine ⟨?_, ?_, ?_, ?_⟩
  · intro i _; simp [bar1, force]
  · intro i _; by_cases h : i = 0
    · simp [bar1, force, h]
    · simp [bar1, force, h, Ne.symm h]
  · rw [C132_value]; simp [work, Counts, bar1, elemWork, force]; norm_num
  · rw [C132_value]; simp [work, Counts, bar1, elemWork, force]

/-- C132_equilibrium applies to the loaded bar. -/
example : ∃ (ps : List (List Elem)) (X : Nat → ℝ), (∀ e ∈ ps.flatten, ∀ a < e.n, e.dof a < 1) ∧ (∀ e ∈ ps.flatten, Counts e) ∧ Equilibrium (fun _ => false) ps (fun _ u => u) (fun _ => 0) X ∧
    total (ps.map fun es => calculateOutput X es ⟨0, 0⟩) = 9 := by
  refine ⟨[[bar1 3]], fun i => if i = 0 then 3 else 0, ?_, ?_, C132_point_load_fails.1, ?_⟩
  · simp [bar1]
  · simp [bar1, Counts]
  · rw [C132_value]; simp [work, Counts, bar1, elemWork, force]; norm_num

theorem derivProc_apply (C : Nat → Bool) (X : Nat → ℝ) (es : List Elem) (i : Nat) (q : Nat → ℝ) :
    es.foldl (fun q e => if e.diag then q else if e.eval then Asm.addVector e.n e.dof (Asm.conVec C e.dof (derivForElem e (sol e X) (fun _ => 0))) q else q) q i =
      q i + if C i then 0 else ((es.filter (fun e => Counts e)).map fun e => ∑ a ∈ range e.n, if e.dof a = i then force e (fun b => X (e.dof b)) a else 0).sum := by
  induction es generalizing q with
  | nil => simp
  | cons e es ih =>
    rw [List.foldl_cons, ih]
    cases hd : e.diag <;> cases he : e.eval
    · simp [Counts, hd, he]
    · have hv : derivForElem e (sol e X) (fun _ => 0) = force e (fun b => X (e.dof b)) := by
        funext a; simp only [derivForElem, he, if_true, ext, force, sol]; simp only [show (fun b => X (e.dof b)) = sol e X from rfl]; ring
      simp only [Bool.false_eq_true, if_false, if_true, Asm.addVector_apply, Asm.sum_conVec, hv]
      have : (e :: es).filter (fun e => Counts e) = e :: es.filter (fun e => Counts e) := by simp [Counts, hd, he]
      rw [this, List.map_cons, List.sum_cons]
      split <;> ring
    · simp [Counts, hd, he]
    · simp [Counts, hd, he]

theorem derivative_apply (C : Nat → Bool) (X : Nat → ℝ) (ps : List (List Elem)) (i : Nat) :
    calculateDerivative C X ps i = if C i then 0 else ((ps.flatten.filter (fun e => Counts e)).map fun e => ∑ a ∈ range e.n, if e.dof a = i then force e (fun b => X (e.dof b)) a else 0).sum := by
  unfold calculateDerivative derivProc
  simp only [derivProc_apply, zero_add]
  split
  · simp
  · rw [← flatten_filter_sum]

/-- The vector paired with any admissible variation `w` (zero at supported dofs) is the work of the loads through `w`. -/
theorem derivative_pairing (C : Nat → Bool) (N : Nat) (X w : Nat → ℝ) (ps : List (List Elem)) (hN : ∀ e ∈ ps.flatten, ∀ a < e.n, e.dof a < N) (hw : ∀ i, C i = true → w i = 0) :
    ∑ i ∈ range N, calculateDerivative C X ps i * w i = work ps X w := by
  have : ∀ i, calculateDerivative C X ps i * w i =
      ((ps.flatten.filter (fun e => Counts e)).map fun e => ∑ a ∈ range e.n, if e.dof a = i then force e (fun b => X (e.dof b)) a else 0).sum * w i := by
    intro i
    rw [derivative_apply]
    cases h : C i
    · simp
    · simp [hw i h]
  simp_rw [this, list_sum_mul]
  rw [sum_list_comm, work]
  exact list_sum_congr _ _ _ fun e he => gather e.n N e.dof (hN e (List.mem_of_mem_filter he)) _ _

/-- For loads that do not depend on the displacement the derivative vector is the gradient of the compliance with respect to the displacement (in every direction that leaves supported dofs alone).
Missing for the full property: loads that depend on the displacement (see C132_derivative_fails). -/
theorem C132_derivative_partial (C : Nat → Bool) (N : Nat) (X w : Nat → ℝ) (ps : List (List Elem)) (s : St) (hN : ∀ e ∈ ps.flatten, ∀ a < e.n, e.dof a < N)
    (hw : ∀ i, C i = true → w i = 0) (hdead : ∀ e ∈ ps.flatten, Dead e) :
    HasDerivAt (fun t => total (ps.map fun es => calculateOutput (fun i => X i + t * w i) es s)) (∑ i ∈ range N, calculateDerivative C X ps i * w i) 0 := by
  simp only [C132_value]
  rw [derivative_pairing C N X w ps hN hw]
  unfold work
  refine hasDeriv_listsum _ (fun e t => elemWork e (fun i => X i + t * w i) (fun i => X i + t * w i)) _ 0 fun e he => ?_
  have hd := hdead e (List.mem_of_mem_filter he)
  have : (fun t : ℝ => elemWork e (fun i => X i + t * w i) (fun i => X i + t * w i)) = fun t => elemWork e X X + t * elemWork e X w := by
    funext t
    unfold elemWork
    rw [mul_sum, ← sum_add_distrib]
    refine sum_congr rfl fun a _ => ?_
    rw [hd (fun b => X (e.dof b) + t * w (e.dof b)) (fun b => X (e.dof b))]; ring
  rw [this]
  simpa using ((hasDerivAt_id' (0 : ℝ)).mul_const (elemWork e X w)).const_add (elemWork e X X)

/-- A spring acting as a load proportional to the displacement (a follower load). -/
def follower : Elem := { bar1 0 with side := fun u a => -u a }

/-- For a load that depends on the displacement the derivative vector is not the gradient: compliance `x²`, derivative `x`. -/
theorem C132_derivative_fails : calculateDerivative (fun _ => false) (fun _ => 1) [[follower]] 0 = 1 ∧
    HasDerivAt (fun t : ℝ => total ([[follower]].map fun es => calculateOutput (fun _ => 1 + t * 1) es ⟨0, 0⟩)) 2 0 := by
  constructor
  · rw [derivative_apply]; simp [Counts, follower, bar1, force]
  · simp only [C132_value]
    have : (fun t : ℝ => work [[follower]] (fun _ => 1 + t * 1) (fun _ => 1 + t * 1)) = fun t => (1 + t * 1) * (1 + t * 1) := by
      funext t; simp [work, Counts, follower, bar1, elemWork, force]
    rw [this]
    have h : HasDerivAt (fun t : ℝ => 1 + t * 1) (1 * 1) 0 := ((hasDerivAt_id' (0 : ℝ)).mul_const 1).const_add 1
    exact (h.mul h).congr_deriv (by norm_num)

/-- Non-vacuity of C132_derivative_partial: the loaded bar, gradient 3. -/
example : (∀ e ∈ [[bar1 3]].flatten, Dead e) ∧ calculateDerivative (fun _ => false) (fun _ => 1) [[bar1 3]] 0 = 3 := by
  refine ⟨?_, ?_⟩
  · intro e he u v; simp at he; subst he; rfl
  · rw [derivative_apply]; simp [Counts, bar1, force]

/-- Zero when there is no displacement sensitivity. -/
def dirOf (dX : Option (Nat → ℝ)) : Nat → ℝ := fun i => match dX with | some d => d i | none => 0

theorem foldl_sens (X : Nat → ℝ) (dX : Option (Nat → ℝ)) (es : List Elem) (s : St) (hskip : ∀ e ∈ es, e.skip = false) :
    (es.foldl (fun s e => if e.diag then s else if e.skip then s else if e.eval then
      evaluateSens e (sol e X) (solSens e dX) s else s) s).sens =
      s.sens + ((es.filter (fun e => Counts e)).map fun e =>
        (∑ a ∈ range e.n, -(e.sideSens (fun b => X (e.dof b)) a + e.volSens (fun b => X (e.dof b)) a) * X (e.dof a)) + elemWork e X (dirOf dX)).sum := by
  induction es generalizing s with
  | nil => simp
  | cons e es ih =>
    rw [List.foldl_cons, ih _ fun e' he' => hskip e' (by simp [he'])]
    have hs := hskip e (by simp)
    cases hd : e.diag <;> cases he : e.eval
    · simp [Counts, hd, he, hs]
    · have h1 : dot e.n (ext e (sol e X)) (solSens e dX) = -elemWork e X (dirOf dX) := by
        unfold dot elemWork ext force sol; rw [← sum_neg_distrib]; refine sum_congr rfl fun a _ => ?_
        cases dX <;> simp [solSens, dirOf]; ring
      have h2 : dot e.n (extSens e (sol e X)) (sol e X) = -∑ a ∈ range e.n, -(e.sideSens (fun b => X (e.dof b)) a + e.volSens (fun b => X (e.dof b)) a) * X (e.dof a) := by
        unfold dot extSens sol; rw [← sum_neg_distrib]; exact sum_congr rfl fun a _ => by ring
      have h3 : (e :: es).filter (fun e => Counts e) = e :: es.filter (fun e => Counts e) := by simp [Counts, hd, he]
      simp only [Bool.false_eq_true, if_false, if_true, hs, evaluateSens, he, h3, List.map_cons, List.sum_cons]
      rw [h1, h2]; ring
    · simp [Counts, hd, he]
    · simp [Counts, hd, he]

/-- Side and volume loads of an element at a parameter value and a displacement, as they enter the residual. -/
structure Loads where
  side : ℝ → (Nat → ℝ) → Nat → ℝ
  vol : ℝ → (Nat → ℝ) → Nat → ℝ

/-- The structure at parameter value `t`. -/
def atParam (L : Elem → Loads) (t : ℝ) (e : Elem) : Elem := { e with side := (L e).side t, vol := (L e).vol t }

/-- Along any path of the parameter and of the displacement, when the sensitivity routines of the loads return the partial derivative and `DS`, `DV` are the remaining parts of the total derivative of the
loads (caused by the displacement change), the derivative of the compliance is the computed sensitivity minus the work of `DS`, `DV` through the displacement. -/
theorem C132_sensitivity_general (L : Elem → Loads) (DS DV : Elem → Nat → ℝ) (ps : List (List Elem)) (X : ℝ → Nat → ℝ) (X' : Nat → ℝ) (t : ℝ) (s : St)
    (hskip : ∀ e ∈ ps.flatten, e.skip = false) (hX : ∀ i, HasDerivAt (fun r => X r i) (X' i) t)
    (hS : ∀ e ∈ ps.flatten, ∀ a, HasDerivAt (fun r => (L e).side r (fun b => X r (e.dof b)) a) (e.sideSens (fun b => X t (e.dof b)) a + DS e a) t)
    (hV : ∀ e ∈ ps.flatten, ∀ a, HasDerivAt (fun r => (L e).vol r (fun b => X r (e.dof b)) a) (e.volSens (fun b => X t (e.dof b)) a + DV e a) t) :
    HasDerivAt (fun r => total (ps.map fun es => calculateOutput (X r) (es.map (atParam L r)) s))
      (sensTotal (ps.map fun es => calculateSens (X t) (some X') (es.map (atParam L t)) s) +
        ((ps.flatten.filter (fun e => Counts e)).map fun e => ∑ a ∈ range e.n, -(DS e a + DV e a) * X t (e.dof a)).sum) t := by
  have hflat : ∀ r, (ps.map fun es => es.map (atParam L r)).flatten = ps.flatten.map (atParam L r) := by
    intro r; rw [List.map_flatten]
  have hfil : ∀ r (l : List Elem), (l.map (atParam L r)).filter (fun e => Counts e) = (l.filter (fun e => Counts e)).map (atParam L r) := by
    intro r l; rw [List.filter_map]; rfl
  have hv : ∀ r, total (ps.map fun es => calculateOutput (X r) (es.map (atParam L r)) s) =
      ((ps.flatten.filter (fun e => Counts e)).map fun e => ∑ a ∈ range e.n, -((L e).side r (fun b => X r (e.dof b)) a + (L e).vol r (fun b => X r (e.dof b)) a) * X r (e.dof a)).sum := by
    intro r
    have := C132_value (X r) (ps.map fun es => es.map (atParam L r)) s
    rw [List.map_map] at this
    refine this.trans ?_
    rw [work, hflat, hfil, List.map_map]
    rfl
  have hs : sensTotal (ps.map fun es => calculateSens (X t) (some X') (es.map (atParam L t)) s) =
      ((ps.flatten.filter (fun e => Counts e)).map fun e =>
        (∑ a ∈ range e.n, -(e.sideSens (fun b => X t (e.dof b)) a + e.volSens (fun b => X t (e.dof b)) a) * X t (e.dof a)) +
          ∑ a ∈ range e.n, -((L e).side t (fun b => X t (e.dof b)) a + (L e).vol t (fun b => X t (e.dof b)) a) * X' (e.dof a)).sum := by
    unfold sensTotal
    rw [List.map_map, ← flatten_filter_sum]
    refine list_sum_congr _ _ _ fun es hes => ?_
    simp only [Function.comp, calculateSens]
    rw [foldl_sens _ _ _ _ (by
      intro e he; obtain ⟨e', he', rfl⟩ := List.mem_map.1 he
      exact hskip e' (List.mem_flatten.2 ⟨es, hes, he'⟩)), hfil, List.map_map]
    simp only [zeroForSensitivity, zero_add]
    rfl
  simp only [hv]
  rw [hs, ← list_add]
  refine hasDeriv_listsum _ (fun e r => ∑ a ∈ range e.n, -((L e).side r (fun b => X r (e.dof b)) a + (L e).vol r (fun b => X r (e.dof b)) a) * X r (e.dof a)) _ t fun e he => ?_
  have hm := List.mem_of_mem_filter he
  refine (HasDerivAt.fun_sum fun a _ => (((hS e hm a).add (hV e hm a)).neg.mul (hX (e.dof a)))).congr_deriv ?_
  rw [← sum_add_distrib, ← sum_add_distrib]
  exact sum_congr rfl fun a _ => by simp only [Pi.neg_apply, Pi.add_apply]; ring

/-- For loads that do not depend on the displacement the computed sensitivity is the derivative of the compliance.  Missing for the full property: loads that depend on the displacement
(C132_sensitivity_general gives the missing work). -/
theorem C132_sensitivity_partial (L : Elem → Loads) (ps : List (List Elem)) (X : ℝ → Nat → ℝ) (X' : Nat → ℝ) (t : ℝ) (s : St)
    (hskip : ∀ e ∈ ps.flatten, e.skip = false) (hX : ∀ i, HasDerivAt (fun r => X r i) (X' i) t)
    (hS : ∀ e ∈ ps.flatten, ∀ u a, HasDerivAt (fun r => (L e).side r u a) (e.sideSens u a) t) (hV : ∀ e ∈ ps.flatten, ∀ u a, HasDerivAt (fun r => (L e).vol r u a) (e.volSens u a) t)
    (hdS : ∀ e ∈ ps.flatten, ∀ r u v, (L e).side r u = (L e).side r v) (hdV : ∀ e ∈ ps.flatten, ∀ r u v, (L e).vol r u = (L e).vol r v) :
    HasDerivAt (fun r => total (ps.map fun es => calculateOutput (X r) (es.map (atParam L r)) s))
      (sensTotal (ps.map fun es => calculateSens (X t) (some X') (es.map (atParam L t)) s)) t := by
  refine (C132_sensitivity_general L (fun _ _ => 0) (fun _ _ => 0) ps X X' t s hskip hX ?_ ?_).congr_deriv ?_
  · intro e he a
    refine (hS e he (fun b => X t (e.dof b)) a).congr_deriv (by ring) |>.congr_of_eventuallyEq ?_
    exact Filter.Eventually.of_forall fun r => by beta_reduce; rw [hdS e he r _ (fun b => X t (e.dof b))]
  · intro e he a
    refine (hV e he (fun b => X t (e.dof b)) a).congr_deriv (by ring) |>.congr_of_eventuallyEq ?_
    exact Filter.Eventually.of_forall fun r => by beta_reduce; rw [hdV e he r _ (fun b => X t (e.dof b))]
  · simp only [add_zero, neg_zero, zero_mul, sum_const_zero]
    rw [List.map_const', List.sum_replicate]; simp

/-- The load proportional to the displacement: compliance `x²`, derivative along `x = 1 + t` is 2, computed sensitivity 1. -/
theorem C132_sensitivity_fails : sensTotal ([[{ follower with sideSens := fun _ _ => 0 }]].map fun es => calculateSens (fun _ => 1) (some fun _ => 1) es ⟨0, 0⟩) = 1 ∧
    HasDerivAt (fun t : ℝ => total ([[follower]].map fun es => calculateOutput (fun _ => 1 + t * 1) es ⟨0, 0⟩)) 2 0 := by
  refine ⟨?_, C132_derivative_fails.2⟩
  simp [sensTotal, calculateSens, follower, bar1, evaluateSens, dot, ext, extSens, sol, solSens, zeroForSensitivity]

/-- Non-vacuity of C132_sensitivity_partial: the bar with load `t`, displacement `t`; the compliance is `t²` and its sensitivity at 3 is 6. -/
example : sensTotal ([[bar1 3]].map fun es => calculateSens (fun _ => 3) (some fun _ => 1) (es.map (atParam (fun _ => ⟨fun t _ _ => -t, fun _ _ _ => 0⟩) 3)) ⟨0, 0⟩) = 6 := by
  simp [sensTotal, calculateSens, atParam, bar1, evaluateSens, dot, ext, extSens, sol, solSens, zeroForSensitivity]; norm_num

/-- Self-adjointness: one linear structure with a symmetric stiffness matrix, `K u = f` and `K u' = f' - K' u` on the free dofs, `u`, `u'` zero on supported dofs: the computed sensitivity of the compliance
(work of `f'` through `u` plus work of `f` through `u'`) equals `2 f'·u - u·K' u`, so the displacement sensitivity is not needed. `f`, `f'` are the gathered element loads of the model. -/
theorem C132_self_adjoint (C : Nat → Bool) (N : Nat) (X X' : Nat → ℝ) (ps : List (List Elem)) (s : St) (K dK : Nat → Nat → ℝ) (hsym : ∀ i j, K i j = K j i)
    (hN : ∀ e ∈ ps.flatten, ∀ a < e.n, e.dof a < N) (hC : ∀ e ∈ ps.flatten, Counts e) (hskip : ∀ e ∈ ps.flatten, e.skip = false)
    (hX : ∀ i, C i = true → X i = 0) (hX' : ∀ i, C i = true → X' i = 0)
    (f df : Nat → ℝ) (hf : ∀ i, f i = (ps.flatten.map fun e => ∑ a ∈ range e.n, if e.dof a = i then force e (fun b => X (e.dof b)) a else 0).sum)
    (hdf : ∀ i, df i = (ps.flatten.map fun e => ∑ a ∈ range e.n, if e.dof a = i then -(e.sideSens (fun b => X (e.dof b)) a + e.volSens (fun b => X (e.dof b)) a) else 0).sum)
    (heq : ∀ i, C i = false → ∑ j ∈ range N, K i j * X j = f i) (heq' : ∀ i, C i = false → ∑ j ∈ range N, K i j * X' j = df i - ∑ j ∈ range N, dK i j * X j) :
    sensTotal (ps.map fun es => calculateSens X (some X') es s) = 2 * ∑ i ∈ range N, df i * X i - ∑ i ∈ range N, X i * ∑ j ∈ range N, dK i j * X j := by
  have h1 : sensTotal (ps.map fun es => calculateSens X (some X') es s) = ∑ i ∈ range N, df i * X i + ∑ i ∈ range N, f i * X' i := by
    unfold sensTotal
    simp_rw [hf, hdf, list_sum_mul]
    rw [sum_list_comm, sum_list_comm, ← list_add, List.map_map]
    have : ps.flatten = ps.flatten.filter (fun e => Counts e) := (List.filter_eq_self.2 (by intro e he; simpa using hC e he)).symm
    have h2 : (ps.flatten.map fun e => (∑ i ∈ range N, (∑ a ∈ range e.n, if e.dof a = i then -(e.sideSens (fun b => X (e.dof b)) a + e.volSens (fun b => X (e.dof b)) a) else 0) * X i) +
        ∑ i ∈ range N, (∑ a ∈ range e.n, if e.dof a = i then force e (fun b => X (e.dof b)) a else 0) * X' i).sum =
        (ps.flatten.map fun e => (∑ a ∈ range e.n, -(e.sideSens (fun b => X (e.dof b)) a + e.volSens (fun b => X (e.dof b)) a) * X (e.dof a)) + elemWork e X X').sum :=
      list_sum_congr _ _ _ fun e he => by rw [gather e.n N e.dof (hN e he), gather e.n N e.dof (hN e he)]; rfl
    rw [h2, this, ← flatten_filter_sum]
    refine list_sum_congr _ _ _ fun es hes => ?_
    simp only [Function.comp, calculateSens]
    rw [foldl_sens _ _ _ _ (fun e he => hskip e (List.mem_flatten.2 ⟨es, hes, he⟩))]
    simp only [zeroForSensitivity, zero_add]
    rfl
  have h3 : ∑ i ∈ range N, f i * X' i = ∑ i ∈ range N, X i * ∑ j ∈ range N, K i j * X' j := by
    have e1 : ∑ i ∈ range N, f i * X' i = ∑ i ∈ range N, (∑ j ∈ range N, K i j * X j) * X' i := by
      refine sum_congr rfl fun i _ => ?_
      cases h : C i
      · rw [heq i h]
      · rw [hX' i h]; ring
    rw [e1]
    simp_rw [sum_mul, mul_sum]
    rw [sum_comm]
    exact sum_congr rfl fun i _ => sum_congr rfl fun j _ => by rw [hsym j i]; ring
  have h4 : ∑ i ∈ range N, X i * ∑ j ∈ range N, K i j * X' j = ∑ i ∈ range N, df i * X i - ∑ i ∈ range N, X i * ∑ j ∈ range N, dK i j * X j := by
    rw [← sum_sub_distrib]
    refine sum_congr rfl fun i _ => ?_
    cases h : C i
    · rw [heq' i h]; ring
    · rw [hX i h]; ring
  rw [h1, h3, h4]; ring

/-- Non-vacuity of C132_self_adjoint: bar of stiffness 2 with load 6 (`u = 3`), `f' = 1`, `K' = 1` (`u' = -1`): `2·1·3 - 3·1·3 = -3`. -/
example : sensTotal ([[bar1 6]].map fun es => calculateSens (fun i => if i = 0 then 3 else 0) (some fun i => if i = 0 then -1 else 0) es ⟨0, 0⟩) = -3 := by
  rw [C132_self_adjoint (fun i => i ≠ 0) 1 _ _ _ _ (fun _ _ => 2) (fun _ _ => 1) (fun _ _ => rfl) (by simp [bar1]) (by simp [bar1, Counts]) (by simp [bar1]) (by simp +contextual) (by simp +contextual)
    (fun i => if i = 0 then 6 else 0) (fun i => if i = 0 then 1 else 0)]
  · simp; norm_num
  · intro i; by_cases h : i = 0
    · simp [bar1, force, h]
    · simp [bar1, force, h, Ne.symm h]
  · intro i; by_cases h : i = 0
    · simp [bar1, h]
    · simp [bar1, h, Ne.symm h]
  · intro i h; have h : i = 0 := by simpa using h
    subst h; simp; norm_num
  · intro i h; have h : i = 0 := by simpa using h
    subst h; simp; norm_num

/-- Without a displacement sensitivity (adjoint method) the result is the partial derivative only. -/
theorem C132_partial_sensitivity (X : Nat → ℝ) (ps : List (List Elem)) (s : St) (hskip : ∀ e ∈ ps.flatten, e.skip = false) :
    sensTotal (ps.map fun es => calculateSens X none es s) =
      ((ps.flatten.filter (fun e => Counts e)).map fun e => ∑ a ∈ range e.n, -(e.sideSens (fun b => X (e.dof b)) a + e.volSens (fun b => X (e.dof b)) a) * X (e.dof a)).sum := by
  unfold sensTotal
  rw [List.map_map, ← flatten_filter_sum]
  refine list_sum_congr _ _ _ fun es hes => ?_
  simp only [Function.comp, calculateSens]
  rw [foldl_sens _ _ _ _ (fun e he => hskip e (List.mem_flatten.2 ⟨es, hes, he⟩))]
  simp [zeroForSensitivity, elemWork, dirOf]

/-- A sensitivity analysis loses the value: afterwards `output_total` is zero, whatever the compliance was. -/
theorem C132_value_lost_fails (X : Nat → ℝ) (dX : Option (Nat → ℝ)) (ps : List (List Elem)) (s : St) :
    total (ps.map fun es => calculateSens X dX es (calculateOutput X es s)) = 0 := by
  unfold total
  rw [List.map_map]
  have : ∀ (es : List Elem) (s : St), s.value = 0 → (es.foldl (fun s e => if e.diag then s else if e.skip then s else if e.eval then
      evaluateSens e (sol e X) (solSens e dX) s else s) s).value = 0 := by
    intro es
    induction es with
    | nil => intro s h; exact h
    | cons e es ih =>
      intro s h
      rw [List.foldl_cons]
      refine ih _ ?_
      split
      · exact h
      · split
        · exact h
        · split
          · simp only [evaluateSens]; split <;> exact h
          · exact h
  refine (list_sum_congr _ _ (fun _ => 0) fun es _ => ?_).trans (by simp)
  exact this es _ rfl

/-- Topology sensitivity of one element: minus the work of the boundary velocity term of the volume loads; nothing without boundary velocity data, nothing for an element that does not take part. -/
theorem C132_topology (e : Elem) (u : Nat → ℝ) (s : St) :
    (evaluateTopology e u s).value = s.value ∧ (e.eval = false → evaluateTopology e u s = s) ∧ (e.bnd = none → evaluateTopology e u s = s) ∧
    ∀ b, e.eval = true → e.bnd = some b → (evaluateTopology e u s).sens = s.sens - ∑ a ∈ range e.n, b u a * u a := by
  refine ⟨?_, ?_, ?_, ?_⟩
  · unfold evaluateTopology; split
    · cases e.bnd <;> rfl
    · rfl
  · intro h; simp [evaluateTopology, h]
  · intro h; unfold evaluateTopology; rw [h]; simp
  · intro b h hb; simp [evaluateTopology, h, hb, dot]

end
end Verif.Compliance
