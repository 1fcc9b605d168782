import Verif.Props.CutAsm
/-
  C139: outputs on a cut mesh.  C140: eigenproblem on a cut mesh.
-/
namespace Verif.CutAsm
open Verif Finset
open Verif.Asm (addVector addMatrix conVec conMat addVector_apply addMatrix_apply sum_conVec sum_conMat foldl_add foldl_add2)
open Verif.InterfaceDofs (Solver factoredRes factoredJac factoredSolution invMat block sub Solves sum_map_get invMat_right invMat_left C75_factored_solution)
open Verif.Compliance (flatten_filter_sum list_sum_congr hasDeriv_listsum gather sum_list_comm list_sum_mul list_add)

noncomputable section

/-! ### Specification -/

/-- What one element contributes to an output: its material sub-elements if it has material, and with the flag its void sub-elements. -/
def outElem (lowFlag : Bool) (e : Elem) (X : Nat → ℝ) : ℝ :=
  (if lowFlag then (e.low.map fun c => c.out (local_ e X)).sum else 0) + if material e then (e.subs.map fun c => c.out (local_ e X)).sum else 0

/-- The stored solution of the void dofs moved by `t D`. -/
def move (D : Elem → Nat → ℝ) (t : ℝ) (e : Elem) : Elem := { e with factor := e.factor.map fun F => { F with stored := fun a => F.stored a + t * D e a } }

/-- The void rows of a condensed element stay in equilibrium when the global solution moves by `w` and the stored solution by `D`; the two lists of rows are all rows. -/
def Balanced (X w : Nat → ℝ) (D : Elem → Nat → ℝ) (e : Elem) : Prop :=
  match e.factor with
  | none => True
  | some F => (F.u ++ F.f).Perm (List.range e.n) ∧
      ∀ k ∈ F.f, (F.u.map fun l => e.full.jac (local_ e X) k l * w (e.dof l)).sum + (F.f.map fun l => e.full.jac (local_ e X) k l * D e l).sum = 0

/-- The transposed void block can be solved with. -/
def RegularT (solve : Solver) (X : Nat → ℝ) (e : Elem) : Prop :=
  match e.factor with
  | none => True
  | some F => F.u.Nodup ∧ F.f.Nodup ∧ Solves solve (block (fun i j => fullJac e (local_ e X) j i) F.f F.f)

/-- `output_derivative_for_elem` is the gradient of what `evaluate` adds. -/
def Gradient (e : Elem) (X : Nat → ℝ) (c : Sub) : Prop :=
  ∀ d : Nat → ℝ, HasDerivAt (fun t : ℝ => c.out (fun b => local_ e X b + t * d b)) (∑ b ∈ range e.n, c.dout (local_ e X) b * d b) 0

/-! ### Lemmas -/

theorem foldl_acc {α : Type} (g : α → ℝ) (l : List α) (q : ℝ) : l.foldl (fun q c => q + g c) q = q + (l.map g).sum := by
  induction l generalizing q with
  | nil => simp
  | cons c l ih => rw [List.foldl_cons, ih]; simp; ring

theorem flatten_sum {α : Type} (f : α → ℝ) (ps : List (List α)) : (ps.map fun es => (es.map f).sum).sum = (ps.flatten.map f).sum := by
  induction ps with
  | nil => simp
  | cons es ps ih => rw [List.map_cons, List.sum_cons, ih]; simp

/-! ### C139 -/

/-- The output of an analysis on a cut mesh is the sum over the elements with material of what it computes on their material sub-elements (plus the void sub-elements with the flag), for every distribution to
processes. -/
theorem C139_value (lowFlag : Bool) (X : Nat → ℝ) (ps : List (List Elem)) : output lowFlag X ps = (ps.flatten.map fun e => outElem lowFlag e X).sum := by
  unfold output
  rw [← flatten_sum]
  refine list_sum_congr _ _ _ fun es _ => ?_
  have : ∀ (q : ℝ) (e : Elem), (let q := if lowFlag then e.low.foldl (fun q c => q + c.out (elemSol e X)) q else q
      if material e then e.subs.foldl (fun q c => q + c.out (elemSol e X)) q else q) = q + outElem lowFlag e X := by
    intro q e
    simp only [elemSol_eq, outElem, foldl_acc (fun c : Sub => c.out (local_ e X))]
    cases lowFlag <;> cases material e <;> simp [add_assoc]
  simp only [this]
  rw [foldl_acc]; simp

/-- Contribution of an element to the gradient. -/
def gradVec (solve : Solver) (lowFlag : Bool) (e : Elem) (X : Nat → ℝ) (a : Nat) : ℝ :=
  (if lowFlag then derivLow e (local_ e X) a else 0) + if material e then derivHi solve e (local_ e X) a else 0

theorem derivProc_apply (C : Nat → Bool) (solve : Solver) (lowFlag : Bool) (X : Nat → ℝ) (es : List Elem) (i : Nat) :
    derivProc C solve lowFlag X es i = if C i then 0 else gatherVec es (fun e => gradVec solve lowFlag e X) i := by
  unfold derivProc
  rw [foldl_add (fun e i => if C i then 0 else ∑ a ∈ range e.n, if e.dof a = i then gradVec solve lowFlag e X a else 0)]
  · rw [zero_add]
    unfold gatherVec
    cases hC : C i <;> simp
  · intro R e i
    have add : ∀ (v R : Nat → ℝ), addVector e.n e.dof (conVec C e.dof v) R i = R i + if C i then 0 else ∑ a ∈ range e.n, if e.dof a = i then v a else 0 := by
      intro v R; rw [addVector_apply, sum_conVec]
    have low0 : e.low.isEmpty = true → ∀ s a, derivLow e s a = 0 := by
      intro h s a
      have : e.low = [] := List.isEmpty_iff.1 h
      simp [derivLow, this]
    have comb : ∀ g h : Nat → ℝ, (∑ a ∈ range e.n, if e.dof a = i then g a + h a else 0) = (∑ a ∈ range e.n, if e.dof a = i then g a else 0) + ∑ a ∈ range e.n, if e.dof a = i then h a else 0 := by
      intro g h; rw [← sum_add_distrib]; exact sum_congr rfl fun a _ => by split <;> simp
    simp only [elemSol_eq, gradVec]
    cases hC : C i <;> cases hl : lowFlag <;> cases hm : material e <;> cases hz : e.low.isEmpty <;>
      simp only [hC, add, comb, Bool.false_eq_true, if_false, if_true, Bool.true_and, Bool.false_and, Bool.not_true, Bool.not_false, add_zero, zero_add] <;>
      first
        | rfl
        | (simp; done)
        | (simp [low0 hz]; done)
        | ring

theorem derivative_apply (C : Nat → Bool) (solve : Solver) (lowFlag : Bool) (X : Nat → ℝ) (ps : List (List Elem)) (i : Nat) :
    derivative C solve lowFlag X ps i = if C i then 0 else gatherVec ps.flatten (fun e => gradVec solve lowFlag e X) i := by
  unfold derivative
  simp only [derivProc_apply]
  cases hC : C i
  · simp only [Bool.false_eq_true, if_false]; exact flatten_sum _ _
  · simp

theorem map_list_comm (l m : List Nat) (f : Nat → Nat → ℝ) : (l.map fun a => (m.map fun b => f a b).sum).sum = (m.map fun b => (l.map fun a => f a b).sum).sum := by
  induction l with
  | nil => simp
  | cons a l ih => simp only [List.map_cons, List.sum_cons, ih, list_add]

theorem list_neg' (l : List Nat) (f : Nat → ℝ) : (l.map fun a => - f a).sum = - (l.map f).sum := by
  induction l with
  | nil => simp
  | cons a l ih => simp only [List.map_cons, List.sum_cons, ih]; ring

/-- Adjoint condensation: pairing the condensed vector with a motion of the material rows is pairing the vector itself with the motion completed in equilibrium. -/
theorem condensed_adjoint (K : Nat → Nat → ℝ) (r v : Nat → ℝ) (u f : List Nat) (n : Nat) (hp : (u ++ f).Perm (List.range n)) (hv : Condensed (fun i j => K j i) r u f v) (w D : Nat → ℝ)
    (hb : ∀ k ∈ f, (u.map fun l => K k l * w l).sum + (f.map fun l => K k l * D l).sum = 0) :
    ∑ a ∈ range n, v a * w a = ∑ a ∈ range n, r a * (if a ∈ f then D a else w a) := by
  obtain ⟨x, h1, h2, h3⟩ := hv
  have hnd : (u ++ f).Nodup := hp.nodup_iff.2 List.nodup_range
  have hdis : ∀ k ∈ u, k ∉ f := fun k hk hk' => (List.disjoint_of_nodup_append hnd) hk hk'
  rw [sum_perm u f n hp, sum_perm u f n hp]
  have a1 : (f.map fun a => v a * w a).sum = 0 := by
    rw [list_sum_congr f _ (fun _ => (0 : ℝ)) fun a ha => by rw [h3 a fun hu => hdis a hu ha, zero_mul]]; exact list_zero _
  have a2 : (u.map fun a => v a * w a).sum = (u.map fun a => r a * w a).sum + (u.map fun a => (f.map fun l => -(x l * (K l a * w a))).sum).sum := by
    rw [← list_add]
    refine list_sum_congr _ _ _ fun a ha => ?_
    rw [h2 a ha, sub_mul, list_sum_mul, sub_eq_add_neg, ← list_neg']
    congr 1
    exact list_sum_congr _ _ _ fun l _ => by ring
  have a3 : (u.map fun a => (f.map fun l => -(x l * (K l a * w a))).sum).sum = (f.map fun l => x l * (f.map fun m => K l m * D m).sum).sum := by
    rw [map_list_comm]
    refine list_sum_congr _ _ _ fun l hl => ?_
    have := hb l hl
    rw [list_neg']
    have e1 : (u.map fun a => x l * (K l a * w a)).sum = x l * (u.map fun a => K l a * w a).sum := by
      rw [mul_comm (x l), list_sum_mul]; exact list_sum_congr _ _ _ fun a _ => by ring
    rw [e1]
    linear_combination (-x l) * this
  have a4 : (f.map fun l => x l * (f.map fun m => K l m * D m).sum).sum = (f.map fun m => r m * D m).sum := by
    have : ∀ l ∈ f, x l * (f.map fun m => K l m * D m).sum = (f.map fun m => x l * (K l m * D m)).sum := by
      intro l _
      rw [mul_comm, list_sum_mul]; exact list_sum_congr _ _ _ fun a _ => by ring
    rw [list_sum_congr _ _ _ this, map_list_comm]
    refine list_sum_congr _ _ _ fun m hm => ?_
    rw [← h1 m hm, list_sum_mul]
    exact list_sum_congr _ _ _ fun l _ => by ring
  have b1 : (u.map fun a => r a * (if a ∈ f then D a else w a)).sum = (u.map fun a => r a * w a).sum := list_sum_congr _ _ _ fun a ha => by rw [if_neg (hdis a ha)]
  have b2 : (f.map fun a => r a * (if a ∈ f then D a else w a)).sum = (f.map fun a => r a * D a).sum := list_sum_congr _ _ _ fun a ha => by rw [if_pos ha]
  rw [a1, a2, a3, a4, b1, b2]; ring

/-- Motion of the element solution. -/
def motion (w : Nat → ℝ) (D : Elem → Nat → ℝ) (e : Elem) (b : Nat) : ℝ :=
  match e.factor with
  | some F => if b ∈ F.f then D e b else w (e.dof b)
  | none => w (e.dof b)

theorem local_move (X w : Nat → ℝ) (D : Elem → Nat → ℝ) (t : ℝ) (e : Elem) : local_ (move D t e) (fun i => X i + t * w i) = fun b => local_ e X b + t * motion w D e b := by
  funext b
  unfold local_ motion move
  cases hF : e.factor with
  | none => simp
  | some F => simp only [Option.map_some]; split <;> rfl

theorem derivLow_apply (e : Elem) (s : Nat → ℝ) (a : Nat) : derivLow e s a = (e.low.map fun c => c.dout s a).sum := foldl_vec (fun (c : Sub) a => c.dout s a) _ _

/-- Vector a material sub-element adds to the gradient. -/
def hiTerm (solve : Solver) (e : Elem) (s : Nat → ℝ) (c : Sub) (a : Nat) : ℝ :=
  match e.factor with
  | some F => put F.u (factoredRes solve (fun i j => fullJac e s j i) (c.dout s) F.u F.f) (fun _ => 0) a
  | none => c.dout s a

theorem derivHi_apply (solve : Solver) (e : Elem) (s : Nat → ℝ) (a : Nat) : derivHi solve e s a = (e.subs.map fun c => hiTerm solve e s c a).sum := by
  unfold derivHi hiTerm
  cases e.factor with
  | none => exact foldl_vec (fun (c : Sub) a => c.dout s a) _ _
  | some F => exact foldl_vec (fun (c : Sub) a => put F.u (factoredRes solve (fun i j => fullJac e s j i) (c.dout s) F.u F.f) (fun _ => 0) a) _ _

theorem hiTerm_pair (solve : Solver) (e : Elem) (X w : Nat → ℝ) (D : Elem → Nat → ℝ) (c : Sub) (hr : RegularT solve X e) (hb : Balanced X w D e) :
    ∑ a ∈ range e.n, hiTerm solve e (local_ e X) c a * w (e.dof a) = ∑ a ∈ range e.n, c.dout (local_ e X) a * motion w D e a := by
  unfold RegularT at hr
  unfold Balanced at hb
  unfold hiTerm motion
  cases hF : e.factor with
  | none => rfl
  | some F =>
    simp only [hF] at hr hb ⊢
    refine condensed_adjoint (fullJac e (local_ e X)) _ _ F.u F.f e.n hb.1 (condensed_put solve _ _ _ _ hr.1 hr.2.1 hr.2.2) (fun a => w (e.dof a)) (D e) fun k hk => ?_
    have := hb.2 k hk
    have e1 : ∀ (l : List Nat) (g : Nat → ℝ), (l.map fun j => fullJac e (local_ e X) k j * g j).sum = e.frac * (l.map fun j => e.full.jac (local_ e X) k j * g j).sum := by
      intro l g
      rw [mul_comm, list_sum_mul]; exact list_sum_congr _ _ _ fun j _ => by unfold fullJac; ring
    rw [e1, e1 F.f (D e), ← mul_add, this, mul_zero]

theorem outElem_move (lowFlag : Bool) (X w : Nat → ℝ) (D : Elem → Nat → ℝ) (t : ℝ) (e : Elem) : outElem lowFlag (move D t e) (fun i => X i + t * w i) =
    (if lowFlag then (e.low.map fun c => c.out (fun b => local_ e X b + t * motion w D e b)).sum else 0) + if material e then (e.subs.map fun c => c.out (fun b => local_ e X b + t * motion w D e b)).sum else 0 := by
  unfold outElem
  rw [local_move]; rfl

/-- The assembled gradient paired with a motion `w` of the global solution that keeps the constraints is the rate of the output, when the stored solution of the void dofs follows so that the void rows stay in
equilibrium; for every mesh, every choice of condensed elements and every distribution.  With the flag for void sub-elements only if elements with void sub-elements are not condensed (see C139_low_fails). -/
theorem C139_gradient_partial (C : Nat → Bool) (solve : Solver) (lowFlag : Bool) (N : Nat) (X w : Nat → ℝ) (D : Elem → Nat → ℝ) (ps : List (List Elem)) (hN : ∀ e ∈ ps.flatten, ∀ a < e.n, e.dof a < N)
    (hw : ∀ i, C i = true → w i = 0) (hr : ∀ e ∈ ps.flatten, material e = true → RegularT solve X e) (hb : ∀ e ∈ ps.flatten, material e = true → Balanced X w D e)
    (hg : ∀ e ∈ ps.flatten, ∀ c ∈ e.low ++ e.subs, Gradient e X c) (hlow : lowFlag = true → ∀ e ∈ ps.flatten, e.low ≠ [] → e.factor = none) :
    HasDerivAt (fun t : ℝ => output lowFlag (fun i => X i + t * w i) (ps.map fun es => es.map (move D t))) (∑ i ∈ range N, derivative C solve lowFlag X ps i * w i) 0 := by
  have h1 : ∑ i ∈ range N, derivative C solve lowFlag X ps i * w i = (ps.flatten.map fun e => ∑ a ∈ range e.n, gradVec solve lowFlag e X a * w (e.dof a)).sum := by
    have : ∀ i ∈ range N, derivative C solve lowFlag X ps i * w i = (ps.flatten.map fun e => (∑ a ∈ range e.n, if e.dof a = i then gradVec solve lowFlag e X a else 0) * w i).sum := by
      intro i _
      rw [derivative_apply]
      cases hC : C i
      · simp only [Bool.false_eq_true, if_false, gatherVec]; exact list_sum_mul _ _ _
      · rw [hw i hC]; simp only [mul_zero]; exact (list_zero _).symm
    rw [sum_congr rfl this, sum_list_comm]
    exact list_sum_congr _ _ _ fun e he => gather e.n N e.dof (hN e he) _ w
  rw [h1]
  have h2 : ∀ t : ℝ, output lowFlag (fun i => X i + t * w i) (ps.map fun es => es.map (move D t)) = (ps.flatten.map fun e => outElem lowFlag (move D t e) (fun i => X i + t * w i)).sum := by
    intro t
    rw [C139_value, show (ps.map fun es => es.map (move D t)).flatten = ps.flatten.map (move D t) from (List.map_flatten ..).symm, List.map_map]; rfl
  simp only [h2, outElem_move]
  refine hasDeriv_listsum _ _ _ _ fun e he => ?_
  have hsum : ∑ a ∈ range e.n, gradVec solve lowFlag e X a * w (e.dof a) = (if lowFlag then (e.low.map fun c => ∑ b ∈ range e.n, c.dout (local_ e X) b * motion w D e b).sum else 0) +
      if material e then (e.subs.map fun c => ∑ b ∈ range e.n, c.dout (local_ e X) b * motion w D e b).sum else 0 := by
    unfold gradVec
    simp only [add_mul, sum_add_distrib]
    congr 1
    · cases hl : lowFlag
      · simp
      · simp only [if_true, derivLow_apply, list_sum_mul]
        rw [sum_list_comm]
        refine list_sum_congr _ _ _ fun c hc => ?_
        have hF := hlow hl e he (List.ne_nil_of_mem hc)
        simp [motion, hF]
    · cases hm : material e
      · simp
      · simp only [if_true, derivHi_apply, list_sum_mul]
        rw [sum_list_comm]
        exact list_sum_congr _ _ _ fun c _ => hiTerm_pair solve e X w D c (hr e he hm) (hb e he hm)
  rw [hsum]
  refine HasDerivAt.fun_add ?_ ?_
  · cases lowFlag
    · simpa using hasDerivAt_const (0 : ℝ) (0 : ℝ)
    · simp only [if_true]; exact hasDeriv_listsum _ _ _ _ fun c hc => hg e he c (by simp [hc]) _
  · cases material e
    · simpa using hasDerivAt_const (0 : ℝ) (0 : ℝ)
    · simp only [if_true]; exact hasDeriv_listsum _ _ _ _ fun c hc => hg e he c (by simp [hc]) _

/-- The elements with the outputs of the sub-elements at the value `p` of a parameter. -/
def outParam (O : Sub → ℝ → (Nat → ℝ) → ℝ) (p : ℝ) (e : Elem) : Elem := { e with subs := e.subs.map fun c => { c with out := O c p }, low := e.low.map fun c => { c with out := O c p } }

/-- Without condensed elements the direct sensitivity is the total derivative of the output along a path of parameter and solution, if the operations compute it on every sub-element; elements that the override
skips must not depend on the parameter. -/
theorem C139_direct_partial (over lowFlag : Bool) (O : Sub → ℝ → (Nat → ℝ) → ℝ) (X : ℝ → Nat → ℝ) (dX : Nat → ℝ) (p : ℝ) (ps : List (List Elem)) (hF : ∀ e ∈ ps.flatten, e.factor = none)
    (hO : ∀ e ∈ ps.flatten, ∀ c ∈ e.low ++ e.subs, HasDerivAt (fun q => O c q (fun a => X q (e.dof a))) (if (e.skip && over) = true then 0 else c.outSens (fun a => X p (e.dof a)) (fun a => dX (e.dof a))) p) :
    HasDerivAt (fun q => output lowFlag (X q) (ps.map fun es => es.map (outParam O q))) (directSens over lowFlag (X p) dX ps) p := by
  have hl : ∀ e ∈ ps.flatten, ∀ Y, local_ e Y = fun a => Y (e.dof a) := by intro e he Y; funext a; simp [local_, hF e he]
  have h2 : ∀ q : ℝ, output lowFlag (X q) (ps.map fun es => es.map (outParam O q)) = (ps.flatten.map fun e => (if lowFlag then (e.low.map fun c => O c q (fun a => X q (e.dof a))).sum else 0) +
      if material e then (e.subs.map fun c => O c q (fun a => X q (e.dof a))).sum else 0).sum := by
    intro q
    rw [C139_value, show (ps.map fun es => es.map (outParam O q)).flatten = ps.flatten.map (outParam O q) from (List.map_flatten ..).symm, List.map_map]
    refine list_sum_congr _ _ _ fun e he => ?_
    have h3 : local_ (outParam O q e) (X q) = fun a => X q (e.dof a) := hl e he (X q)
    simp only [Function.comp, outElem, h3]
    simp only [outParam, List.map_map, Function.comp_def]; rfl
  have h4 : directSens over lowFlag (X p) dX ps = (ps.flatten.map fun e => if (e.skip && over) = true then 0 else (if lowFlag then (e.low.map fun c => c.outSens (local_ e (X p)) (fun a => dX (e.dof a))).sum else 0) +
      if material e then (e.subs.map fun c => c.outSens (local_ e (X p)) (fun a => dX (e.dof a))).sum else 0).sum := by
    unfold directSens
    rw [← flatten_sum]
    refine list_sum_congr _ _ _ fun es _ => ?_
    rw [← zero_add (es.map _).sum, ← foldl_acc]
    congr 1
    funext q e
    simp only [elemSol_eq, foldl_acc (fun c : Sub => c.outSens _ _)]
    cases (e.skip && over) <;> cases lowFlag <;> cases material e <;> simp [add_assoc]
  simp only [h2]
  rw [h4]
  refine hasDeriv_listsum _ _ _ _ fun e he => ?_
  rw [hl e he]
  have hz : ∀ (l : List Sub), (∀ c ∈ l, c ∈ e.low ++ e.subs) → HasDerivAt (fun q => (l.map fun c => O c q (fun a => X q (e.dof a))).sum)
      (if (e.skip && over) = true then 0 else (l.map fun c => c.outSens (fun a => X p (e.dof a)) (fun a => dX (e.dof a))).sum) p := by
    intro l hl'
    refine (hasDeriv_listsum l _ _ p fun c hc => hO e he c (hl' c hc)).congr_deriv ?_
    split
    · exact list_zero _
    · rfl
  have h5 := hz e.low (by intro c hc; simp [hc])
  have h6 := hz e.subs (by intro c hc; simp [hc])
  have key : (if (e.skip && over) = true then 0 else (if lowFlag then (e.low.map fun c => c.outSens (fun a => X p (e.dof a)) (fun a => dX (e.dof a))).sum else 0) +
      if material e then (e.subs.map fun c => c.outSens (fun a => X p (e.dof a)) (fun a => dX (e.dof a))).sum else 0) =
      (if lowFlag then (if (e.skip && over) = true then 0 else (e.low.map fun c => c.outSens (fun a => X p (e.dof a)) (fun a => dX (e.dof a))).sum) else 0) +
      if material e then (if (e.skip && over) = true then 0 else (e.subs.map fun c => c.outSens (fun a => X p (e.dof a)) (fun a => dX (e.dof a))).sum) else 0 := by
    cases (e.skip && over) <;> cases lowFlag <;> cases material e <;> simp
  rw [key]
  refine HasDerivAt.fun_add ?_ ?_
  · cases lowFlag
    · simpa using hasDerivAt_const p (0 : ℝ)
    · simp only [if_true]; exact h5
  · cases material e
    · simpa using hasDerivAt_const p (0 : ℝ)
    · simp only [if_true]; exact h6

/-! Concrete elements. -/

theorem exGrad : derivative (fun _ => false) InterfaceDofs.solveEx false (fun _ => 0) [[exElem 1]] 0 = 1 ∧ derivative (fun _ => false) InterfaceDofs.solveEx false (fun _ => 0) [[exElem 1]] 1 = 0 := by
  have hm := exElem_material 1
  have h0 : derivHi InterfaceDofs.solveEx (exElem 1) (local_ (exElem 1) fun _ => 0) 0 = 1 := by
    rw [derivHi_apply]
    simp only [exElem, List.map_cons, List.map_nil, List.sum_cons, List.sum_nil, hiTerm]
    rw [put0, factored1]
    · simp [fullJac, linSub, exK]
    · simp [fullJac, linSub, exK]
  have h1 : derivHi InterfaceDofs.solveEx (exElem 1) (local_ (exElem 1) fun _ => 0) 1 = 0 := by
    rw [derivHi_apply]
    simp only [exElem, List.map_cons, List.map_nil, List.sum_cons, List.sum_nil, hiTerm]
    rw [(put_apply [0] (by simp) _ _).2 1 (by simp)]; simp
  have hd : ∀ i, derivative (fun _ => false) InterfaceDofs.solveEx false (fun _ => 0) [[exElem 1]] i = ∑ a ∈ range 2, if a = i then derivHi InterfaceDofs.solveEx (exElem 1) (local_ (exElem 1) fun _ => 0) a else 0 := by
    intro i
    rw [derivative_apply]
    simp only [Bool.false_eq_true, if_false, List.flatten_cons, List.flatten_nil, List.append_nil, gatherVec, List.map_cons, List.map_nil, List.sum_cons, List.sum_nil, add_zero, gradVec, hm, if_true, zero_add]
    rfl
  constructor
  · rw [hd]; simp [sum_range_succ, h0]
  · rw [hd]; simp [sum_range_succ, h1]

/-- With condensed elements the direct sensitivity is not the derivative of the output: the stored solution of the void dofs moves with the solution, its rate is not passed on. Here the output is the void dof,
which follows the material dof; the output changes at rate 1, the assembled gradient says 1, the direct sensitivity 0. -/
theorem C139_direct_fails : (∀ t : ℝ, output false (fun i => (0 : ℝ) + t * (if i = 0 then 1 else 0)) [[move (fun _ _ => 1) t (exElem 1)]] = t) ∧ Balanced (fun _ => 0) (fun i => if i = 0 then 1 else 0) (fun _ _ => 1) (exElem 1) ∧
    (∑ i ∈ range 2, derivative (fun _ => false) InterfaceDofs.solveEx false (fun _ => 0) [[exElem 1]] i * (if i = 0 then 1 else 0)) = 1 ∧
    ∀ over, directSens over false (fun _ => 0) (fun i => if i = 0 then 1 else 0) [[exElem 1]] = 0 := by
  have hm := exElem_material 1
  refine ⟨fun t => ?_, ⟨by decide, ?_⟩, ?_, fun over => ?_⟩
  · rw [C139_value]
    simp only [List.flatten_cons, List.flatten_nil, List.append_nil, List.map_cons, List.map_nil, List.sum_cons, List.sum_nil, add_zero]
    rw [outElem_move, hm]
    simp [exElem, linSub, local_, motion]
  · intro k hk
    have : k = 1 := by simpa using hk
    subst this
    simp [exElem, linSub, exK]
  · rw [sum_range_succ, sum_range_succ, sum_range_zero, exGrad.1, exGrad.2]; norm_num
  · simp only [directSens, List.map_cons, List.map_nil, List.foldl_cons, List.foldl_nil, hm, if_true, List.sum_cons, List.sum_nil, add_zero]
    cases over <;> simp [exElem, linSub]

/-- See `exElem`, with a void sub-element whose output is the value at the void dof. -/
def lowElem : Elem := { exElem 1 with low := [linSub (exK 1) fun _ _ => 0] }

/-- With the flag for void sub-elements and condensed elements, the gradient has an entry for a dof of the global vector on which the output does not depend: this part is not condensed. -/
theorem C139_low_fails : (∀ X Y : Nat → ℝ, X 0 = Y 0 → output true X [[lowElem]] = output true Y [[lowElem]]) ∧ derivative (fun _ => false) InterfaceDofs.solveEx true (fun _ => 0) [[lowElem]] 1 = 1 := by
  have hm : material lowElem = true := exElem_material 1
  refine ⟨fun X Y h => ?_, ?_⟩
  · have : local_ lowElem X 1 = local_ lowElem Y 1 := by simp [local_, lowElem, exElem]
    have hs : ∀ Z, outElem true lowElem Z = local_ lowElem Z 1 + local_ lowElem Z 1 := by
      intro Z
      unfold outElem
      rw [hm]
      simp [lowElem, exElem, linSub]
    rw [C139_value, C139_value]
    simp only [List.flatten_cons, List.flatten_nil, List.append_nil, List.map_cons, List.map_nil, hs, this]
  · have h1 : derivHi InterfaceDofs.solveEx lowElem (local_ lowElem fun _ => 0) 1 = 0 := by
      rw [derivHi_apply]
      simp only [lowElem, exElem, List.map_cons, List.map_nil, List.sum_cons, List.sum_nil, hiTerm]
      rw [(put_apply [0] (by simp) _ _).2 1 (by simp)]; simp
    have h2 : derivLow lowElem (local_ lowElem fun _ => 0) 1 = 1 := by
      rw [derivLow_apply]; simp [lowElem, linSub]
    rw [derivative_apply]
    simp only [Bool.false_eq_true, if_false, List.flatten_cons, List.flatten_nil, List.append_nil, gatherVec, List.map_cons, List.map_nil, List.sum_cons, List.sum_nil, add_zero, gradVec, hm, if_true]
    show (∑ a ∈ range 2, if a = 1 then _ else _) = _
    simp [sum_range_succ, h1, h2]

/-- Non-vacuity of C139_gradient_partial: the element of C139_direct_fails with motion (1, 0) of the solution. -/
example : RegularT InterfaceDofs.solveEx (fun _ => 0) (exElem 1) ∧ (∀ c ∈ (exElem 1).low ++ (exElem 1).subs, Gradient (exElem 1) (fun _ => 0) c) ∧ material (exElem 1) = true := by
  refine ⟨⟨by simp, by simp, ?_⟩, ?_, exElem_material 1⟩
  · apply InterfaceDofs.solveEx_solves
    show IsUnit (block (fun i j => fullJac (exElem 1) (local_ (exElem 1) fun _ => 0) j i) [1] [1]).det
    have : (block (fun i j => fullJac (exElem 1) (local_ (exElem 1) fun _ => 0) j i) [1] [1]).det = fullJac (exElem 1) (local_ (exElem 1) fun _ => 0) 1 1 := Matrix.det_fin_one _
    rw [this]; simp [fullJac, exElem, linSub, exK]
  · intro c hc d
    have : c = linSub (fun a b => if a = b then 1 else -1) fun s a => ∑ b ∈ range 2, (if a = b then 1 else -1) * s b := by simpa [exElem] using hc
    subst this
    show HasDerivAt (fun t : ℝ => local_ (exElem 1) (fun _ => 0) 1 + t * d 1) (∑ b ∈ range 2, (if b = 1 then (1 : ℝ) else 0) * d b) 0
    refine (((hasDerivAt_id' (0 : ℝ)).mul_const (d 1)).const_add _).congr_deriv ?_
    simp [sum_range_succ]

/-! ### C140 -/

/-- Gather of the matrices of the elements that are not in the void, one matrix per element. -/
def wholeMat (pick : ESub → Nat → Nat → ℝ) (es : List EElem) (i j : Nat) : ℝ :=
  ((es.filter fun e => !e.neg).map fun e => ∑ a ∈ range e.n, ∑ b ∈ range e.n, if e.dof a = i ∧ e.dof b = j then pick e.full a b else 0).sum

/-- Gather of the matrices of their material sub-elements. -/
def cutMat (pick : ESub → Nat → Nat → ℝ) (es : List EElem) (i j : Nat) : ℝ :=
  ((es.filter fun e => !e.neg).map fun e => (e.subs.map fun c => ∑ a ∈ range e.n, ∑ b ∈ range e.n, if e.dof a = i ∧ e.dof b = j then pick c a b else 0).sum).sum

/-- Matrix of the sensitivity: volume term, and boundary term for a topology parameter. -/
def total (top : Bool) (pick bnd : ESub → Nat → Nat → ℝ) (c : ESub) (a b : Nat) : ℝ := if top then pick c a b + bnd c a b else pick c a b

theorem addMatrix_free (C : Nat → Bool) (n : Nat) (dof : Nat → Nat) (m J : Nat → Nat → ℝ) (i j : Nat) (hi : C i = false) (hj : C j = false) :
    addMatrix n dof (conMat C dof m) J i j = J i j + ∑ a ∈ range n, ∑ b ∈ range n, if dof a = i ∧ dof b = j then m a b else 0 := by
  rw [addMatrix_apply, sum_conMat]; simp [hi, hj]

/-- Between free dofs the matrices of the eigenproblem are gathered from the whole elements that are not in the void: an element cut by the level set counts in full. -/
theorem C140_matrices (C : Nat → Bool) (pick : ESub → Nat → Nat → ℝ) (es : List EElem) (i j : Nat) (hi : C i = false) (hj : C j = false) : eigAssemble C pick es i j = wholeMat pick es i j := by
  unfold eigAssemble wholeMat
  suffices H : ∀ M : Nat → Nat → ℝ, (es.foldl (fun M e => if !e.neg then addMatrix e.n e.dof (conMat C e.dof (pick e.full)) M else M) M) i j =
      M i j + ((es.filter fun e => !e.neg).map fun e => ∑ a ∈ range e.n, ∑ b ∈ range e.n, if e.dof a = i ∧ e.dof b = j then pick e.full a b else 0).sum by rw [H]; simp
  induction es with
  | nil => intro M; simp
  | cons e es ih =>
    intro M
    rw [List.foldl_cons, ih]
    cases hn : e.neg
    · simp only [Bool.not_false, if_true, addMatrix_free C _ _ _ _ i j hi hj, List.filter_cons, hn, List.map_cons, List.sum_cons]; ring
    · simp [hn]

theorem eigSensLoop_apply (C : Nat → Bool) (top : Bool) (pick bnd : ESub → Nat → Nat → ℝ) (es : List EElem) (M0 : Nat → Nat → ℝ) (i j : Nat) (hi : C i = false) (hj : C j = false) :
    eigSensLoop C top pick bnd es M0 i j = M0 i j + cutMat (total top pick bnd) es i j := by
  unfold eigSensLoop cutMat
  induction es generalizing M0 with
  | nil => simp
  | cons e es ih =>
    rw [List.foldl_cons, ih]
    cases hn : e.neg
    · have inner : ∀ (l : List ESub) (M : Nat → Nat → ℝ), (l.foldl (fun M c => addMatrix e.n e.dof (conMat C e.dof (fun a b => if top then pick c a b + bnd c a b else pick c a b)) M) M) i j =
          M i j + (l.map fun c => ∑ a ∈ range e.n, ∑ b ∈ range e.n, if e.dof a = i ∧ e.dof b = j then total top pick bnd c a b else 0).sum := by
        intro l
        induction l with
        | nil => intro M; simp
        | cons c l ih' =>
          intro M
          rw [List.foldl_cons, ih', addMatrix_free C _ _ _ _ i j hi hj, List.map_cons, List.sum_cons]
          simp only [total]; ring
      simp only [Bool.not_false, if_true, inner, List.filter_cons, hn, List.map_cons, List.sum_cons]; ring
    · simp [hn]

/-- The sensitivity of the first matrix is gathered from the material sub-elements; the second is added to what the matrix contains. -/
theorem C140_sensitivity (C : Nat → Bool) (top : Bool) (es : List EElem) (A B : Nat → Nat → ℝ) (i j : Nat) (hi : C i = false) (hj : C j = false) :
    (eigSens C top es (A, B)).1 i j = cutMat (total top (·.dA) (·.bA)) es i j ∧ (eigSens C top es (A, B)).2 i j = B i j + cutMat (total top (·.dB) (·.bB)) es i j :=
  ⟨(eigSensLoop_apply C top (·.dA) (·.bA) es (fun _ _ => 0) i j hi hj).trans (zero_add _), eigSensLoop_apply C top (·.dB) (·.bB) es B i j hi hj⟩

/-- For a sequence of parameters the second matrix collects the sensitivities of all of them, the first only the last. -/
theorem C140_history_fails (C : Nat → Bool) (top : Bool) (params : List (List EElem)) (A B : Nat → Nat → ℝ) (i j : Nat) (hi : C i = false) (hj : C j = false) :
    (params.foldl (fun AB es => eigSens C top es AB) (A, B)).2 i j = B i j + (params.map fun es => cutMat (total top (·.dB) (·.bB)) es i j).sum ∧
    ∀ last, ((params ++ [last]).foldl (fun AB es => eigSens C top es AB) (A, B)).1 i j = cutMat (total top (·.dA) (·.bA)) last i j := by
  constructor
  · induction params generalizing A B with
    | nil => simp
    | cons es params ih =>
      rw [List.foldl_cons]
      have := ih (eigSens C top es (A, B)).1 (eigSens C top es (A, B)).2
      rw [this, (C140_sensitivity C top es A B i j hi hj).2]; simp; ring
  · intro last
    rw [List.foldl_append, List.foldl_cons, List.foldl_nil]
    generalize params.foldl (fun AB es => eigSens C top es AB) (A, B) = AB
    exact (C140_sensitivity C top last AB.1 AB.2 i j hi hj).1

theorem quad_congr (C : Nat → Bool) (N : Nat) (M M' : Nat → Nat → ℝ) (x : Nat → ℝ) (hx : ∀ i, C i = true → x i = 0) (h : ∀ i j, C i = false → C j = false → M i j = M' i j) : quad N M x = quad N M' x := by
  unfold quad
  refine sum_congr rfl fun i _ => ?_
  cases hi : C i
  · congr 1
    refine sum_congr rfl fun j _ => ?_
    cases hj : C j
    · rw [h i j hi hj]
    · rw [hx j hj]; ring
  · rw [hx i hi]; ring

theorem quad_add (N : Nat) (M M' : Nat → Nat → ℝ) (x : Nat → ℝ) : quad N (fun i j => M i j + M' i j) x = quad N M x + quad N M' x := by
  unfold quad
  rw [← sum_add_distrib]
  refine sum_congr rfl fun i _ => ?_
  rw [← mul_add, ← sum_add_distrib]
  congr 1
  exact sum_congr rfl fun j _ => by ring

/-- The sensitivity of an eigenvalue on a cut mesh is always off by minus the eigenvalue: `(x^T dA x - lam x^T dB x) / x^T B x - lam` for every eigenpair with zero values at the constrained dofs, because the
sensitivity of the second matrix is added to the matrix itself. -/
theorem C140_eigenvalue_fails (C : Nat → Bool) (top : Bool) (N : Nat) (es : List EElem) (lam : ℝ) (x : Nat → ℝ) (hx : ∀ i, C i = true → x i = 0) (hB : quad N (wholeMat (·.B) es) x ≠ 0) :
    eigenvalueSens C top N es lam x =
      (quad N (cutMat (total top (·.dA) (·.bA)) es) x - lam * quad N (cutMat (total top (·.dB) (·.bB)) es) x) / quad N (wholeMat (·.B) es) x - lam := by
  unfold eigenvalueSens
  simp only
  have h1 := quad_congr C N (eigAssemble C (·.B) es) (wholeMat (·.B) es) x hx fun i j hi hj => C140_matrices C _ es i j hi hj
  have h2 := quad_congr C N (eigSens C top es (eigAssemble C (·.A) es, eigAssemble C (·.B) es)).1 (cutMat (total top (·.dA) (·.bA)) es) x hx fun i j hi hj => (C140_sensitivity C top es _ _ i j hi hj).1
  have h3 := quad_congr C N (eigSens C top es (eigAssemble C (·.A) es, eigAssemble C (·.B) es)).2 (fun i j => wholeMat (·.B) es i j + cutMat (total top (·.dB) (·.bB)) es i j) x hx
    fun i j hi hj => by rw [(C140_sensitivity C top es _ _ i j hi hj).2, C140_matrices C _ es i j hi hj]
  rw [h1, h2, h3, quad_add]
  field_simp
  ring

/-- Half an element of material: the whole element has stiffness 1 and mass 1, the material part one half. -/
def halfElem : EElem := ⟨1, id, false, ⟨fun _ _ => 1, fun _ _ => 1, fun _ _ => 0, fun _ _ => 0, fun _ _ => 0, fun _ _ => 0⟩,
  [⟨fun _ _ => 1 / 2, fun _ _ => 1 / 2, fun _ _ => 1, fun _ _ => 0, fun _ _ => 0, fun _ _ => 0⟩]⟩

/-- The matrices are not those of the material: for every mesh they are unchanged when the material sub-elements are replaced by any others, and for an element half filled the assembled mass is twice the
mass of the material. -/
theorem C140_cut_fails : (∀ (C : Nat → Bool) (pick : ESub → Nat → Nat → ℝ) (es : List EElem) (cut : EElem → List ESub) (i j : Nat), C i = false → C j = false →
      eigAssemble C pick (es.map fun e => { e with subs := cut e }) i j = eigAssemble C pick es i j) ∧
    eigAssemble (fun _ => false) (·.B) [halfElem] 0 0 = 1 ∧ cutMat (·.B) [halfElem] 0 0 = 1 / 2 := by
  refine ⟨fun C pick es cut i j hi hj => ?_, ?_, ?_⟩
  · rw [C140_matrices C _ _ i j hi hj, C140_matrices C _ _ i j hi hj]
    unfold wholeMat
    rw [List.filter_map, List.map_map]; rfl
  · rw [C140_matrices _ _ _ _ _ rfl rfl]; simp [wholeMat, halfElem]; rfl
  · simp [cutMat, halfElem]

/-- Non-vacuity of C140_eigenvalue_fails: the element above with eigenvalue 1; the true rate is 1, the result 0. -/
example : quad 1 (wholeMat (·.B) [halfElem]) (fun _ => 1) ≠ 0 ∧ eigenvalueSens (fun _ => false) false 1 [halfElem] 1 (fun _ => 1) = 0 := by
  have hB : quad 1 (wholeMat (·.B) [halfElem]) (fun _ => 1) = 1 := by simp [quad, wholeMat, halfElem]; rfl
  refine ⟨by rw [hB]; norm_num, ?_⟩
  rw [C140_eigenvalue_fails _ _ _ _ _ _ (fun i h => by simp at h) (by rw [hB]; norm_num), hB]
  simp [quad, cutMat, halfElem, total]; norm_num
  simp [filter_singleton]

end
end Verif.CutAsm
