import Verif.Model.ComplexSolve
import Verif.Props.Assembly
import Verif.Props.ComplexReal
import Mathlib.Analysis.Calculus.Deriv.Add
import Mathlib.Analysis.Calculus.Deriv.Mul
import Mathlib.Analysis.Complex.Basic
import Mathlib.Tactic.LinearCombination
import Mathlib.Tactic.Linarith
/-
  C165, C166: field split and block form of the complex solver.
-/
namespace Verif.CSolve
open Verif.Asm Finset

/-! ### Specification -/

/-- Assembled complex residual and matrix of the mesh at the solution `XR + i XI`. -/
noncomputable def cVec (f : CElem → Nat → ℂ) (els : List CElem) (d : Nat) : ℂ := (els.map fun e => ∑ a ∈ range e.n, if e.dof a = d then f e a else 0).sum
noncomputable def cMat (f : CElem → Nat → Nat → ℂ) (els : List CElem) (d c : Nat) : ℂ :=
  (els.map fun e => ∑ a ∈ range e.n, ∑ b ∈ range e.n, if e.dof a = d ∧ e.dof b = c then f e a b else 0).sum

/-- Element part of `XR + i XI`. -/
noncomputable def solOf (e : CElem) (XR XI : Nat → ℝ) (a : Nat) : ℂ := XR (e.dof a) + Complex.I * XI (e.dof a)

theorem sol_eq (e : CElem) (XR XI : Nat → ℝ) : e.sol XR XI = solOf e XR XI := by
  funext a; apply Complex.ext <;> simp [CElem.sol, solOf]

/-- Residual, Jacobian and parameter derivative of the mesh at a solution. -/
noncomputable def residual (B : Option (Nat → ℝ)) (els : List CElem) (XR XI : Nat → ℝ) : Nat → ℂ := cVec (fun e => e.vec (e.base B) (e.sol XR XI)) els
noncomputable def jacobian (B : Option (Nat → ℝ)) (els : List CElem) (XR XI : Nat → ℝ) : Nat → Nat → ℂ := cMat (fun e => e.mat (e.base B) (e.sol XR XI)) els
noncomputable def partialSens (B : Option (Nat → ℝ)) (els : List CElem) (XR XI : Nat → ℝ) : Nat → ℂ := cVec (fun e => e.sens (e.base B) (e.sol XR XI)) els

/-- C165: the elements are evaluated at their part of `XR + i XI` and of the base solution, so residual and Jacobian are those of the mesh at this solution. -/
theorem C165_evaluation (B : Nat → ℝ) (els : List CElem) (XR XI : Nat → ℝ) : residual (some B) els XR XI = cVec (fun e => e.vec (fun a => B (e.dof a)) (solOf e XR XI)) els
    ∧ jacobian (some B) els XR XI = cMat (fun e => e.mat (fun a => B (e.dof a)) (solOf e XR XI)) els ∧ residual none els XR XI = cVec (fun e => e.vec (fun _ => 0) (solOf e XR XI)) els
    ∧ jacobian none els XR XI = cMat (fun e => e.mat (fun _ => 0) (solOf e XR XI)) els := by
  unfold residual jacobian
  simp only [sol_eq]
  exact ⟨rfl, rfl, rfl, rfl⟩

/-- Some element has the degree of freedom `d`. -/
def Touched (els : List CElem) (d : Nat) : Prop := ∃ e ∈ els, ∃ a < e.n, e.dof a = d

/-- `x` solves the linear system `M x = f` on the real and imaginary parts of `N` unknowns. -/
def SolvesPairs (N : Nat) (M : Bool × Nat → Bool × Nat → ℝ) (f x : Bool × Nat → ℝ) : Prop := ∀ r, r.2 < N → ∑ c ∈ range N, (M r (false, c) * x (false, c) + M r (true, c) * x (true, c)) = f r

/-- `ksp` is a linear solver for matrices of size `n`, at least for this system. -/
def SolvesAt (n : Nat) (M : Nat → Nat → ℝ) (f x : Nat → ℝ) : Prop := ∀ a < n, ∑ b ∈ range n, M a b * x b = f a

/-! ### Field split -/

/-- Number of element entries at a degree of freedom. -/
noncomputable def count (els : List CElem) (d : Nat) : ℝ := (els.map fun e => ∑ a ∈ range e.n, if e.dof a = d then (1:ℝ) else 0).sum

theorem sum_re (l : List CElem) (f : CElem → ℂ) : ((l.map f).sum).re = (l.map fun e => (f e).re).sum := by
  induction l with
  | nil => simp
  | cons a l ih => simp [ih]
theorem sum_im (l : List CElem) (f : CElem → ℂ) : ((l.map f).sum).im = (l.map fun e => (f e).im).sum := by
  induction l with
  | nil => simp
  | cons a l ih => simp [ih]

theorem cVec_re (f : CElem → Nat → ℂ) (els : List CElem) (d : Nat) : (cVec f els d).re = (els.map fun e => ∑ a ∈ range e.n, if e.dof a = d then (f e a).re else 0).sum := by
  rw [cVec, sum_re]; congr 1; refine List.map_congr_left fun e _ => ?_
  rw [Complex.re_sum]; exact sum_congr rfl fun a _ => by split <;> simp
theorem cVec_im (f : CElem → Nat → ℂ) (els : List CElem) (d : Nat) : (cVec f els d).im = (els.map fun e => ∑ a ∈ range e.n, if e.dof a = d then (f e a).im else 0).sum := by
  rw [cVec, sum_im]; congr 1; refine List.map_congr_left fun e _ => ?_
  rw [Complex.im_sum]; exact sum_congr rfl fun a _ => by split <;> simp
theorem cMat_re (f : CElem → Nat → Nat → ℂ) (els : List CElem) (d c : Nat) :
    (cMat f els d c).re = (els.map fun e => ∑ a ∈ range e.n, ∑ b ∈ range e.n, if e.dof a = d ∧ e.dof b = c then (f e a b).re else 0).sum := by
  rw [cMat, sum_re]; congr 1; refine List.map_congr_left fun e _ => ?_
  rw [Complex.re_sum]; refine sum_congr rfl fun a _ => ?_
  rw [Complex.re_sum]; exact sum_congr rfl fun b _ => by split <;> simp
theorem cMat_im (f : CElem → Nat → Nat → ℂ) (els : List CElem) (d c : Nat) :
    (cMat f els d c).im = (els.map fun e => ∑ a ∈ range e.n, ∑ b ∈ range e.n, if e.dof a = d ∧ e.dof b = c then (f e a b).im else 0).sum := by
  rw [cMat, sum_im]; congr 1; refine List.map_congr_left fun e _ => ?_
  rw [Complex.im_sum]; refine sum_congr rfl fun a _ => ?_
  rw [Complex.im_sum]; exact sum_congr rfl fun b _ => by split <;> simp

/-- Folding a vector part. -/
theorem fold_vec (C : Nat → Bool) (v : CElem → Nat → ℝ) (els : List CElem) (R : Nat → ℝ) (d : Nat) :
    els.foldl (fun R e => addVector e.n e.dof (conVec C e.dof (v e)) R) R d = R d + if C d then 0 else (els.map fun e => ∑ a ∈ range e.n, if e.dof a = d then v e a else 0).sum := by
  rw [foldl_add (fun e d => if C d then 0 else ∑ a ∈ range e.n, if e.dof a = d then v e a else 0) _ (fun R e i => by rw [addVector_apply, sum_conVec])]
  congr 1
  by_cases h : C d = true <;> simp [h]
theorem fold_mat (C : Nat → Bool) (m : CElem → Nat → Nat → ℝ) (els : List CElem) (J : Nat → Nat → ℝ) (d c : Nat) :
    els.foldl (fun J e => addMatrix e.n e.dof (conMat C e.dof (m e)) J) J d c = J d c + if C d || C c then (if d = c then count els d else 0)
      else (els.map fun e => ∑ a ∈ range e.n, ∑ b ∈ range e.n, if e.dof a = d ∧ e.dof b = c then m e a b else 0).sum := by
  rw [foldl_add2 (fun e d c => if C d || C c then (if d = c then ∑ a ∈ range e.n, if e.dof a = d then 1 else 0 else 0)
      else ∑ a ∈ range e.n, ∑ b ∈ range e.n, if e.dof a = d ∧ e.dof b = c then m e a b else 0) _ (fun R e i j => by rw [addMatrix_apply, sum_conMat])]
  congr 1
  by_cases h : (C d || C c) = true
  · by_cases h2 : d = c
    · subst h2; simp only [h, if_true, count]
    · simp [h, h2]
  · simp [h]

theorem fold_split (C : Nat → Bool) (B : Option (Nat → ℝ)) (XR XI : Nat → ℝ) (els : List CElem) (s : Split) :
    els.foldl (splitElem C B XR XI) s = ⟨els.foldl (fun R e => addVector e.n e.dof (conVec C e.dof fun a => (-1 * e.vec (e.base B) (e.sol XR XI) a).re) R) s.RR,
      els.foldl (fun R e => addVector e.n e.dof (conVec C e.dof fun a => (-1 * e.vec (e.base B) (e.sol XR XI) a).im) R) s.RI,
      els.foldl (fun J e => addMatrix e.n e.dof (conMat C e.dof fun a b => (e.mat (e.base B) (e.sol XR XI) a b).re) J) s.JR,
      els.foldl (fun J e => addMatrix e.n e.dof (conMat C e.dof fun a b => (e.mat (e.base B) (e.sol XR XI) a b).im) J) s.JI⟩ := by
  induction els generalizing s with
  | nil => rfl
  | cons e l ih => simp only [List.foldl_cons]; rw [ih]; rfl

theorem neg_listsum (l : List CElem) (f : CElem → ℝ) : (l.map fun e => -f e).sum = -(l.map f).sum := by
  induction l with
  | nil => simp
  | cons a l ih => simp [ih]; ring

theorem split_spec (C : Nat → Bool) (B : Option (Nat → ℝ)) (els : List CElem) (XR XI : Nat → ℝ) (d c : Nat) :
    (fieldSplit C B els XR XI).RR d = (if C d then 0 else -(residual B els XR XI d).re) ∧ (fieldSplit C B els XR XI).RI d = (if C d then 0 else -(residual B els XR XI d).im)
    ∧ (fieldSplit C B els XR XI).JR d c = (if C d || C c then (if d = c then count els d else 0) else (jacobian B els XR XI d c).re)
    ∧ (fieldSplit C B els XR XI).JI d c = (if C d || C c then (if d = c then count els d else 0) else (jacobian B els XR XI d c).im) := by
  unfold fieldSplit residual jacobian
  rw [fold_split]
  simp only [fold_vec, fold_mat, zero_add, cVec_re, cVec_im, cMat_re, cMat_im]
  refine ⟨?_, ?_, trivial, trivial⟩
  · rw [← neg_listsum]
    congr 2
    refine List.map_congr_left fun e _ => ?_
    rw [← sum_neg_distrib]
    exact sum_congr rfl fun a _ => by split <;> simp
  · rw [← neg_listsum]
    congr 2
    refine List.map_congr_left fun e _ => ?_
    rw [← sum_neg_distrib]
    exact sum_congr rfl fun a _ => by split <;> simp

theorem count_pos (els : List CElem) (d : Nat) (h : Touched els d) : 0 < count els d := by
  obtain ⟨e, he, a, ha, hd⟩ := h
  unfold count
  have hn : ∀ e ∈ els, 0 ≤ ∑ a ∈ range e.n, if e.dof a = d then (1:ℝ) else 0 := fun e _ => sum_nonneg fun a _ => by split <;> norm_num
  have h1 : 0 < ∑ a ∈ range e.n, if e.dof a = d then (1:ℝ) else 0 :=
    lt_of_lt_of_le (by simp [hd]) (single_le_sum (f := fun a => if e.dof a = d then (1:ℝ) else 0) (fun a _ => by split <;> norm_num) (mem_range.2 ha))
  clear ha hd
  induction els with
  | nil => simp at he
  | cons e' l ih =>
    simp only [List.map_cons, List.sum_cons]
    have hl : 0 ≤ (l.map fun e => ∑ a ∈ range e.n, if e.dof a = d then (1:ℝ) else 0).sum := List.sum_nonneg fun x hx => by
      obtain ⟨e'', h'', rfl⟩ := List.mem_map.1 hx
      exact hn e'' (List.mem_cons_of_mem _ h'')
    rcases List.mem_cons.1 he with rfl | he
    · linarith
    · have := ih he fun e h => hn e (List.mem_cons_of_mem _ h)
      have := hn e' List.mem_cons_self
      linarith

/-- C165: a solution of the nested real system that `solve_pc_fieldsplit` hands to the Krylov solver is, as a complex vector, zero on the constrained degrees of freedom and a solution of the complex equations of the
others: Jacobian times solution equals minus the residual at zero.  Holds for every mesh, constraint set and base solution. -/
theorem C165_field_split (C : Nat → Bool) (B : Option (Nat → ℝ)) (els : List CElem) (N : Nat) (x : Bool × Nat → ℝ) (hx : SolvesPairs N (splitSystem C B els).1 (splitSystem C B els).2 x)
    (ht : ∀ d < N, C d = true → Touched els d) :
    (∀ d < N, C d = true → (⟨x (false, d), x (true, d)⟩ : ℂ) = 0)
    ∧ ∀ d < N, C d = false → ∑ c ∈ range N, jacobian B els (fun _ => 0) (fun _ => 0) d c * (⟨x (false, c), x (true, c)⟩ : ℂ) = -residual B els (fun _ => 0) (fun _ => 0) d := by
  have hs := fun d c => split_spec C B els (fun _ => 0) (fun _ => 0) d c
  have hRR := fun d => (hs d 0).1
  have hRI := fun d => (hs d 0).2.1
  have hJR := fun d c => (hs d c).2.2.1
  have hJI := fun d c => (hs d c).2.2.2
  have hcon : ∀ d < N, C d = true → x (false, d) = 0 ∧ x (true, d) = 0 := by
    intro d hd hC
    have hp := count_pos els d (ht d hd hC)
    have h0 := hx (false, d) hd
    have h1 := hx (true, d) hd
    simp only [splitSystem, nest, hRR, hRI, hJR, hJI, hC, Bool.true_or, if_true, Bool.false_eq_true, if_false] at h0 h1
    have e0 : ∀ c ∈ range N, ((if d = c then count els d else 0) * x (false, c) + (0 + -1 * (if d = c then count els d else 0)) * x (true, c)) = if d = c then count els d * (x (false, d) - x (true, d)) else 0 := by
      intro c _; split
      · rename_i h; subst h; ring
      · ring
    have e1 : ∀ c ∈ range N, ((if d = c then count els d else 0) * x (false, c) + (if d = c then count els d else 0) * x (true, c)) = if d = c then count els d * (x (false, d) + x (true, d)) else 0 := by
      intro c _; split
      · rename_i h; subst h; ring
      · ring
    rw [sum_congr rfl e0, sum_ite_eq, if_pos (mem_range.2 hd)] at h0
    rw [sum_congr rfl e1, sum_ite_eq, if_pos (mem_range.2 hd)] at h1
    have h0' := (mul_eq_zero.1 h0).resolve_left hp.ne'
    have h1' := (mul_eq_zero.1 h1).resolve_left hp.ne'
    constructor <;> linarith
  refine ⟨fun d hd hC => ?_, fun d hd hC => ?_⟩
  · obtain ⟨h1, h2⟩ := hcon d hd hC
    rw [h1, h2]; rfl
  · have h0 := hx (false, d) hd
    have h1 := hx (true, d) hd
    simp only [splitSystem, nest, hRR, hRI, hJR, hJI, hC, Bool.false_or, Bool.false_eq_true, if_false, if_true] at h0 h1
    have hz : ∀ c ∈ range N, C c = true → x (false, c) = 0 ∧ x (true, c) = 0 := fun c hc h => hcon c (mem_range.1 hc) h
    apply Complex.ext
    · rw [Complex.re_sum, Complex.neg_re, ← h0]
      refine sum_congr rfl fun c hc => ?_
      by_cases h : C c = true
      · obtain ⟨z1, z2⟩ := hz c hc h
        simp [Complex.mul_re, z1, z2]
      · simp only [Complex.mul_re, if_neg h]; ring
    · rw [Complex.im_sum, Complex.neg_im, ← h1]
      refine sum_congr rfl fun c hc => ?_
      by_cases h : C c = true
      · obtain ⟨z1, z2⟩ := hz c hc h
        simp [Complex.mul_im, z1, z2]
      · simp only [Complex.mul_im, if_neg h]; ring

/-- C165 fails at the interface: the solution of the field split solver is thrown away.  For the equation z - 1 = 0 every Krylov solver finds 1, and the solver object still reports 0. -/
theorem C165_result_fails : ∃ (els : List CElem) (B : Option (Nat → ℝ)) (s : Store) (sys : List Char), ∀ ksp : (Bool × Nat → Bool × Nat → ℝ) → (Bool × Nat → ℝ) → Bool × Nat → ℝ,
    SolvesPairs 1 (splitSystem (fun _ => false) B els).1 (splitSystem (fun _ => false) B els).2 (ksp (splitSystem (fun _ => false) B els).1 (splitSystem (fun _ => false) B els).2) →
    ksp (splitSystem (fun _ => false) B els).1 (splitSystem (fun _ => false) B els).2 (false, 0) = 1 ∧ readVec (vecName sys false false) (solveFieldSplit ksp (fun _ => false) B els s) 0 = 0 := by
  refine ⟨[⟨1, fun _ => 0, fun _ z a => z a - 1, fun _ _ _ _ => 1, fun _ _ _ => 0⟩], none, fun _ => none, [], fun ksp h => ⟨?_, rfl⟩⟩
  have hr := (C165_field_split _ _ _ 1 _ h (by simp)).2 0 (by norm_num) rfl
  simp [jacobian, residual, cMat, cVec, CElem.sol] at hr
  have hc := congrArg Complex.re hr
  simp at hc
  have hz : (⟨0, 0⟩ : ℂ).re = 0 := rfl
  linarith

theorem fold_norm (C : Nat → Bool) (B : Option (Nat → ℝ)) (XR XI : Nat → ℝ) (els : List CElem) (s : (Nat → ℝ) × (Nat → ℝ)) :
    els.foldl (normElem C B XR XI) s = (els.foldl (fun R e => addVector e.n e.dof (conVec C e.dof fun a => (e.vec (e.base B) (e.sol XR XI) a).re) R) s.1,
      els.foldl (fun R e => addVector e.n e.dof (conVec C e.dof fun a => (e.vec (e.base B) (e.sol XR XI) a).im) R) s.2) := by
  induction els generalizing s with
  | nil => rfl
  | cons e l ih => simp only [List.foldl_cons]; rw [ih]; rfl

/-- C165: the residual norm is the Euclidean norm of the complex residual of the unconstrained degrees of freedom; it is zero exactly at the solutions of their equations. -/
theorem C165_residual_norm (C : Nat → Bool) (B : Option (Nat → ℝ)) (els : List CElem) (N : Nat) (XR XI : Nat → ℝ) :
    residualNorm C B els N XR XI = Real.sqrt (∑ d ∈ range N, if C d then 0 else Complex.normSq (residual B els XR XI d))
    ∧ (residualNorm C B els N XR XI = 0 ↔ ∀ d < N, C d = false → residual B els XR XI d = 0) := by
  have hsq : ∀ v : Nat → ℝ, l2 N v ^ 2 = ∑ d ∈ range N, v d ^ 2 := fun v => Real.sq_sqrt (sum_nonneg fun d _ => sq_nonneg _)
  have h1 : residualNorm C B els N XR XI = Real.sqrt (∑ d ∈ range N, if C d then 0 else Complex.normSq (residual B els XR XI d)) := by
    unfold residualNorm
    rw [hsq, hsq, fold_norm, ← sum_add_distrib]
    congr 1
    refine sum_congr rfl fun d _ => ?_
    simp only [fold_vec, zero_add]
    rw [residual, Complex.normSq_apply, cVec_re, cVec_im]
    split <;> ring
  refine ⟨h1, ?_⟩
  rw [h1, Real.sqrt_eq_zero (sum_nonneg fun d _ => by split; exacts [le_refl _, Complex.normSq_nonneg _]), sum_eq_zero_iff_of_nonneg (fun d _ => by split; exacts [le_refl _, Complex.normSq_nonneg _])]
  constructor
  · intro h d hd hC
    have := h d (mem_range.2 hd)
    simpa [hC] using this
  · intro h d hd
    by_cases hC : C d = true
    · simp [hC]
    · simp [hC, h d (mem_range.1 hd) (by simpa using hC)]

/-! ### Block solver -/

/-- The data of an element for the blocked assembly. -/
noncomputable def toData (B : Option (Nat → ℝ)) (els : List CElem) (p : Bool) (XR XI : Nat → ℝ) (e : CElem) : CR.ElemData :=
  ⟨(blockedData B els p XR XI e).1, (blockedData B els p XR XI e).2.1, (blockedData B els p XR XI e).2.2⟩

theorem blocked_eq (B : Option (Nat → ℝ)) (els : List CElem) (p : Bool) (XR XI : Nat → ℝ) : blocked B els p XR XI = CR.blockedAssembly (els.map (toData B els p XR XI)) := by
  unfold blocked CR.blockedAssembly
  rw [List.foldl_map]; rfl

theorem getD_range (n : Nat) (f : Nat → Nat) (i : Nat) (h : i < n) : ((List.range n).map f).getD i 0 = f i := by simp [List.getD, h]

theorem data_mat (B : Option (Nat → ℝ)) (els : List CElem) (p : Bool) (XR XI : Nat → ℝ) (d c : Nat) : CR.complexMatrix (els.map (toData B els p XR XI)) d c = jacobian B els XR XI d c := by
  unfold CR.complexMatrix jacobian cMat
  rw [List.map_map]
  congr 1
  refine List.map_congr_left fun e _ => ?_
  simp only [Function.comp, toData, blockedData, List.length_map, List.length_range]
  refine sum_congr rfl fun a ha => sum_congr rfl fun b hb => ?_
  have ha' := getD_range e.n e.dof a (mem_range.1 ha)
  have hb' := getD_range e.n e.dof b (mem_range.1 hb)
  exact if_congr (by rw [← ha', ← hb']) rfl rfl

theorem data_vec (B : Option (Nat → ℝ)) (els : List CElem) (p : Bool) (XR XI : Nat → ℝ) (d : Nat) :
    CR.complexVector (els.map (toData B els p XR XI)) d = if p then partialSens B els XR XI d else residual B els XR XI d := by
  have h : CR.complexVector (els.map (toData B els p XR XI)) d = cVec (fun e => if p then e.sens (e.base B) (e.sol XR XI) else e.vec (e.base B) (e.sol XR XI)) els d := by
    unfold CR.complexVector cVec
    rw [List.map_map]
    congr 1
    refine List.map_congr_left fun e _ => ?_
    simp only [Function.comp, toData, blockedData, List.length_map, List.length_range]
    refine sum_congr rfl fun a ha => ?_
    have ha' := getD_range e.n e.dof a (mem_range.1 ha)
    exact if_congr (by rw [← ha']) (by cases p <;> rfl) rfl
  rw [h]; cases p <;> rfl

/-- Names of different solution vectors differ. -/
theorem vecName_inj (sys : List Char) (i i' s s' : Bool) (h : vecName sys i s = vecName sys i' s') : i = i' ∧ s = s' := by
  unfold vecName at h
  rw [List.append_assoc, List.append_assoc] at h
  have h2 := List.append_cancel_left h
  cases i <;> cases i' <;> cases s <;> cases s' <;> first | exact ⟨rfl, rfl⟩ | exact absurd h2 (by decide)

/-- What a vector reads after the block solve. -/
theorem read_block (ksp : (Nat → Nat → ℝ) → (Nat → ℝ) → Nat → ℝ) (B : Option (Nat → ℝ)) (els : List CElem) (sys : List Char) (first last : Nat) (p : Bool) (s : Store) :
    (∀ q, q ≠ p → ∀ i, readVec (vecName sys i q) (solveBlock ksp B els sys first last p s) = readVec (vecName sys i q) s)
    ∧ ∀ i d, first ≤ d → d < last → readVec (vecName sys i p) (solveBlock ksp B els sys first last p s) d
      = ksp (blocked B els p (if p then readVec (vecName sys false false) s else fun _ => 0) (if p then readVec (vecName sys true false) s else fun _ => 0)).1
          (fun j => -1 * (blocked B els p (if p then readVec (vecName sys false false) s else fun _ => 0) (if p then readVec (vecName sys true false) s else fun _ => 0)).2 j)
          (if i then 2 * d + 1 else 2 * d) := by
  have hne : ∀ i i' q q', (i ≠ i' ∨ q ≠ q') → vecName sys i q ≠ vecName sys i' q' := by
    intro i i' q q' h he
    obtain ⟨h1, h2⟩ := vecName_inj sys i i' q q' he
    rcases h with h | h
    · exact h h1
    · exact h h2
  have htr : ∀ nm k, readVec k (touch nm s) = readVec k s := by
    intro nm k; unfold readVec touch; split
    · rename_i h; subst h; rfl
    · rfl
  have htr2 : ∀ nm nm' k, readVec k (touch nm (touch nm' s)) = readVec k s := by
    intro nm nm' k
    unfold readVec touch
    by_cases h1 : k = nm
    · subst h1; by_cases h2 : k = nm'
      · subst h2; simp
      · simp [h2]
    · by_cases h2 : k = nm'
      · subst h2; simp [h1]
      · simp [h1, h2]
  have hw : ∀ nm v t, readVec nm (writeVec nm v t) = v := by intro nm v t; simp [readVec, writeVec]
  have hw2 : ∀ nm k v t, k ≠ nm → readVec k (writeVec nm v t) = readVec k t := by intro nm k v t h; simp [readVec, writeVec, h]
  constructor
  · intro q hq i
    unfold solveBlock
    simp only
    rw [hw2 _ _ _ _ (hne _ _ _ _ (.inr hq)), hw2 _ _ _ _ (hne _ _ _ _ (.inr hq))]
    cases p
    · rfl
    · exact htr2 _ _ _
  · intro i d h1 h2
    unfold solveBlock
    simp only
    cases i
    · rw [hw2 _ _ _ _ (hne _ _ _ _ (.inl (by decide))), hw]
      simp only [h1, h2, and_self, if_true]
      cases p
      · rfl
      · simp only [if_true, htr2]; rfl
    · rw [hw]
      simp only [h1, h2, and_self, if_true]
      cases p
      · rfl
      · simp only [if_true, htr2]

/-- C166: if the Krylov solver solves the real block system, the solution vectors of the solver object hold the complex solution of `J(0) z = -r(0)`; the vectors of the sensitivity are untouched. -/
theorem C166_solution (ksp : (Nat → Nat → ℝ) → (Nat → ℝ) → Nat → ℝ) (B : Option (Nat → ℝ)) (els : List CElem) (sys : List Char) (N : Nat) (s : Store)
    (hk : SolvesAt (2 * N) (blocked B els false (fun _ => 0) fun _ => 0).1 (fun i => -1 * (blocked B els false (fun _ => 0) fun _ => 0).2 i)
      (ksp (blocked B els false (fun _ => 0) fun _ => 0).1 fun i => -1 * (blocked B els false (fun _ => 0) fun _ => 0).2 i)) :
    (∀ d < N, ∑ c ∈ range N, jacobian B els (fun _ => 0) (fun _ => 0) d c
      * (⟨readVec (vecName sys false false) (solveBlock ksp B els sys 0 N false s) c, readVec (vecName sys true false) (solveBlock ksp B els sys 0 N false s) c⟩ : ℂ) = -residual B els (fun _ => 0) (fun _ => 0) d)
    ∧ ∀ i, readVec (vecName sys i true) (solveBlock ksp B els sys 0 N false s) = readVec (vecName sys i true) s := by
  obtain ⟨r1, r2⟩ := read_block ksp B els sys 0 N false s
  refine ⟨fun d hd => ?_, fun i => r1 true (by decide) i⟩
  have h := CR.C38_block_solution_is_complex_solution (els.map (toData B els false (fun _ => 0) fun _ => 0)) N
    (ksp (blocked B els false (fun _ => 0) fun _ => 0).1 fun i => -1 * (blocked B els false (fun _ => 0) fun _ => 0).2 i) (by
      intro a ha
      have := hk a ha
      rw [blocked_eq] at this ⊢
      rw [this]; ring) d hd
  simp only [data_mat, data_vec, Bool.false_eq_true, if_false] at h
  rw [← h]
  refine sum_congr rfl fun c hc => ?_
  rw [r2 false c (Nat.zero_le _) (mem_range.1 hc), r2 true c (Nat.zero_le _) (mem_range.1 hc)]
  simp

theorem sum_cVec (f : CElem → Nat → ℂ) (g : CElem → Nat → Nat → ℂ) (N : Nat) (w : Nat → ℂ) (els : List CElem) (hN : ∀ e ∈ els, ∀ a < e.n, e.dof a < N) (d : Nat) :
    cVec (fun e a => f e a + ∑ b ∈ range e.n, g e a b * w (e.dof b)) els d = cVec f els d + ∑ c ∈ range N, cMat g els d c * w c := by
  induction els with
  | nil => simp [cVec, cMat]
  | cons e l ih =>
    have ih' := ih fun e' h => hN e' (List.mem_cons_of_mem _ h)
    simp only [cVec, cMat, List.map_cons, List.sum_cons, add_mul, sum_add_distrib] at ih' ⊢
    rw [ih']
    have h1 : ∑ c ∈ range N, (∑ a ∈ range e.n, ∑ b ∈ range e.n, if e.dof a = d ∧ e.dof b = c then g e a b else 0) * w c
        = ∑ a ∈ range e.n, if e.dof a = d then ∑ b ∈ range e.n, g e a b * w (e.dof b) else 0 := by
      simp only [sum_mul]
      rw [sum_comm]
      refine sum_congr rfl fun a _ => ?_
      rw [sum_comm]
      by_cases ha : e.dof a = d
      · simp only [ha, true_and, if_true]
        refine sum_congr rfl fun b hb => ?_
        have : ∀ c ∈ range N, (if e.dof b = c then g e a b else 0) * w c = if e.dof b = c then g e a b * w (e.dof b) else 0 := by
          intro c _; split
          · rename_i h; rw [h]
          · ring
        rw [sum_congr rfl this, sum_ite_eq, if_pos (mem_range.2 (hN e List.mem_cons_self b (mem_range.1 hb)))]
      · simp [ha]
    rw [h1]
    have h2 : (∑ a ∈ range e.n, if e.dof a = d then f e a + ∑ b ∈ range e.n, g e a b * w (e.dof b) else 0)
        = (∑ a ∈ range e.n, if e.dof a = d then f e a else 0) + ∑ a ∈ range e.n, if e.dof a = d then ∑ b ∈ range e.n, g e a b * w (e.dof b) else 0 := by
      rw [← sum_add_distrib]; exact sum_congr rfl fun a _ => by split <;> simp
    rw [h2]; ring

theorem cVec_deriv (els : List CElem) (F : ℝ → CElem → Nat → ℂ) (F' : CElem → Nat → ℂ) (h : ∀ e ∈ els, ∀ a < e.n, HasDerivAt (fun t => F t e a) (F' e a) 0) (d : Nat) :
    HasDerivAt (fun t => cVec (F t) els d) (cVec F' els d) 0 := by
  induction els with
  | nil => exact hasDerivAt_const _ _
  | cons e l ih =>
    simp only [cVec, List.map_cons, List.sum_cons] at ih ⊢
    refine HasDerivAt.fun_add (HasDerivAt.fun_sum fun a ha => ?_) (ih fun e' h' => h e' (List.mem_cons_of_mem _ h'))
    by_cases hd : e.dof a = d
    · simp only [hd, if_true]; exact h e List.mem_cons_self a (mem_range.1 ha)
    · simp only [hd, if_false]; exact hasDerivAt_const _ _

/-- The sensitivity solve stores the solution of the linearized equation. -/
theorem sens_of_linear (ksp : (Nat → Nat → ℝ) → (Nat → ℝ) → Nat → ℝ) (B : Option (Nat → ℝ)) (els : List CElem) (sys : List Char) (N : Nat) (s : Store) (XR XI : Nat → ℝ) (w : Nat → ℂ)
    (h0 : readVec (vecName sys false false) s = XR ∧ readVec (vecName sys true false) s = XI)
    (hw : ∀ d < N, ∑ c ∈ range N, jacobian B els XR XI d c * w c = -partialSens B els XR XI d)
    (hreg : ∀ v : Nat → ℂ, (∀ d < N, ∑ c ∈ range N, jacobian B els XR XI d c * v c = 0) → ∀ d < N, v d = 0)
    (hk : SolvesAt (2 * N) (blocked B els true XR XI).1 (fun i => -1 * (blocked B els true XR XI).2 i)
      (ksp (blocked B els true XR XI).1 fun i => -1 * (blocked B els true XR XI).2 i)) :
    (∀ d < N, (⟨readVec (vecName sys false true) (solveBlock ksp B els sys 0 N true s) d, readVec (vecName sys true true) (solveBlock ksp B els sys 0 N true s) d⟩ : ℂ) = w d)
    ∧ ∀ i, readVec (vecName sys i false) (solveBlock ksp B els sys 0 N true s) = readVec (vecName sys i false) s := by
  obtain ⟨r1, r2⟩ := read_block ksp B els sys 0 N true s
  simp only [if_true, h0.1, h0.2] at r2
  refine ⟨?_, fun i => r1 false (by decide) i⟩
  set x := ksp (blocked B els true XR XI).1 fun i => -1 * (blocked B els true XR XI).2 i with hxd
  have hz : ∀ d < N, ∑ c ∈ range N, jacobian B els XR XI d c * (⟨x (2 * c), x (2 * c + 1)⟩ : ℂ) = -partialSens B els XR XI d := by
    intro d hd'
    have h := CR.C38_block_solution_is_complex_solution (els.map (toData B els true XR XI)) N x (by
      intro a ha
      have := hk a ha
      rw [blocked_eq] at this
      rw [this]; ring) d hd'
    simp only [data_mat, data_vec, if_true] at h
    exact h
  intro d hd'
  have hv := hreg (fun c => (⟨x (2 * c), x (2 * c + 1)⟩ : ℂ) - w c) (by
    intro d' h'
    simp only [mul_sub, sum_sub_distrib, hz d' h', hw d' h', sub_self]) d hd'
  rw [r2 false d (Nat.zero_le _) hd', r2 true d (Nat.zero_le _) hd']
  simpa using sub_eq_zero.1 hv

/-- C166: a parameter moves the element equations, and the stored complex solution follows a differentiable path of solutions.  If the element sensitivities and Jacobians are exact and the Jacobian of the mesh is
regular, the sensitivity solve stores the derivative of the solution and leaves the solution as it is. -/
theorem C166_sensitivity (ksp : (Nat → Nat → ℝ) → (Nat → ℝ) → Nat → ℝ) (B : Option (Nat → ℝ)) (els : List CElem) (sys : List Char) (N : Nat) (s : Store)
    (XR XI : ℝ → Nat → ℝ) (w : Nat → ℂ) (V : ℝ → CElem → (Nat → ℝ) → (Nat → ℂ) → Nat → ℂ) (hN : ∀ e ∈ els, ∀ a < e.n, e.dof a < N)
    (h0 : readVec (vecName sys false false) s = XR 0 ∧ readVec (vecName sys true false) s = XI 0)
    (hsol : ∀ t, ∀ d < N, cVec (fun e => V t e (e.base B) (e.sol (XR t) (XI t))) els d = 0)
    (hd : ∀ e ∈ els, ∀ a < e.n, HasDerivAt (fun t => V t e (e.base B) (e.sol (XR t) (XI t)) a)
      (e.sens (e.base B) (e.sol (XR 0) (XI 0)) a + ∑ b ∈ range e.n, e.mat (e.base B) (e.sol (XR 0) (XI 0)) a b * w (e.dof b)) 0)
    (hreg : ∀ v : Nat → ℂ, (∀ d < N, ∑ c ∈ range N, jacobian B els (XR 0) (XI 0) d c * v c = 0) → ∀ d < N, v d = 0)
    (hk : SolvesAt (2 * N) (blocked B els true (XR 0) (XI 0)).1 (fun i => -1 * (blocked B els true (XR 0) (XI 0)).2 i)
      (ksp (blocked B els true (XR 0) (XI 0)).1 fun i => -1 * (blocked B els true (XR 0) (XI 0)).2 i)) :
    (∀ d < N, (⟨readVec (vecName sys false true) (solveBlock ksp B els sys 0 N true s) d, readVec (vecName sys true true) (solveBlock ksp B els sys 0 N true s) d⟩ : ℂ) = w d)
    ∧ ∀ i, readVec (vecName sys i false) (solveBlock ksp B els sys 0 N true s) = readVec (vecName sys i false) s := by
  refine sens_of_linear ksp B els sys N s (XR 0) (XI 0) w h0 ?_ hreg hk
  intro d hd'
  have h1 := cVec_deriv els (fun t e => V t e (e.base B) (e.sol (XR t) (XI t))) _ hd d
  have h2 := h1.congr_of_eventuallyEq (f₁ := fun _ => (0:ℂ)) (Filter.Eventually.of_forall fun t => (hsol t d hd').symm)
  have h3 := (hasDerivAt_const (0:ℝ) (0:ℂ)).unique h2
  rw [sum_cVec (fun e a => e.sens (e.base B) (e.sol (XR 0) (XI 0)) a) (fun e a b => e.mat (e.base B) (e.sol (XR 0) (XI 0)) a b) N w els hN d] at h3
  exact eq_neg_of_add_eq_zero_right h3.symm

/-- C166: releasing the assembly removes the four solution vectors and nothing else. -/
theorem C166_clear (sys : List Char) (s : Store) : (∀ i q, clearAssembly sys s (vecName sys i q) = none) ∧ ∀ k, (∀ i q, k ≠ vecName sys i q) → clearAssembly sys s k = s k := by
  constructor
  · intro i q; cases i <;> cases q <;> simp [clearAssembly]
  · intro k h
    simp [clearAssembly, h]

/-- Non-vacuity of C165 and C166: the equation (2 + i + t) z = 1 on one degree of freedom. -/
noncomputable def oneElem : CElem := ⟨1, fun _ => 0, fun _ z a => (2 + Complex.I) * z a - 1, fun _ _ _ _ => 2 + Complex.I, fun _ z a => z a⟩

example : ∃ x, SolvesPairs 1 (splitSystem (fun _ => false) none [oneElem]).1 (splitSystem (fun _ => false) none [oneElem]).2 x ∧ x (true, 0) ≠ 0 := by
  have hs := fun d c => split_spec (fun _ => false) none [oneElem] (fun _ => 0) (fun _ => 0) d c
  have hRR := fun d => (hs d 0).1
  have hRI := fun d => (hs d 0).2.1
  have hJR := fun d c => (hs d c).2.2.1
  have hJI := fun d c => (hs d c).2.2.2
  have hj : jacobian none [oneElem] (fun _ => 0) (fun _ => 0) 0 0 = 2 + Complex.I := by simp [jacobian, cMat, oneElem]
  have hr : residual none [oneElem] (fun _ => 0) (fun _ => 0) 0 = -1 := by
    have : (⟨0, 0⟩ : ℂ) = 0 := rfl
    simp [residual, cVec, oneElem, CElem.sol, this]
  refine ⟨fun r => if r.1 then -1 / 5 else 2 / 5, fun r hr' => ?_, by norm_num⟩
  obtain ⟨b, d⟩ := r
  obtain rfl : d = 0 := by simpa using hr'
  cases b
  · simp only [splitSystem, nest, hRR, hRI, hJR, hJI, Bool.false_eq_true, if_false, if_true, Bool.or_self, sum_range_one, hj, hr]
    simp; norm_num
  · simp only [splitSystem, nest, hRR, hRI, hJR, hJI, Bool.false_eq_true, if_false, if_true, Bool.or_self, sum_range_one, hj, hr]
    simp; norm_num

/-- Exact solution of (2 + i + t) z = 1. -/
noncomputable def oneSol (t : ℝ) : ℂ := (2 + Complex.I + t)⁻¹

theorem oneCoeff_ne (t : ℝ) : (2 + Complex.I + t : ℂ) ≠ 0 := by
  intro h
  have := congrArg Complex.im h
  simp at this

/-- Non-vacuity of C166: all hypotheses of the sensitivity theorem hold for (2 + i + t) z = 1, and the sensitivity is not zero. -/
example : ∃ ksp : (Nat → Nat → ℝ) → (Nat → ℝ) → Nat → ℝ, ∃ w : Nat → ℂ, w 0 ≠ 0
    ∧ (∀ t : ℝ, ∀ d < 1, cVec (fun e a => (2 + Complex.I + t) * e.sol (fun _ => (oneSol t).re) (fun _ => (oneSol t).im) a - 1) [oneElem] d = 0)
    ∧ (∀ e ∈ [oneElem], ∀ a < e.n, HasDerivAt (fun t : ℝ => (2 + Complex.I + t) * e.sol (fun _ => (oneSol t).re) (fun _ => (oneSol t).im) a - 1)
      (e.sens (e.base none) (e.sol (fun _ => (oneSol 0).re) (fun _ => (oneSol 0).im)) a
        + ∑ b ∈ range e.n, e.mat (e.base none) (e.sol (fun _ => (oneSol 0).re) (fun _ => (oneSol 0).im)) a b * w (e.dof b)) 0)
    ∧ (∀ v : Nat → ℂ, (∀ d < 1, ∑ c ∈ range 1, jacobian none [oneElem] (fun _ => (oneSol 0).re) (fun _ => (oneSol 0).im) d c * v c = 0) → ∀ d < 1, v d = 0)
    ∧ SolvesAt (2 * 1) (blocked none [oneElem] true (fun _ => (oneSol 0).re) (fun _ => (oneSol 0).im)).1
      (fun i => -1 * (blocked none [oneElem] true (fun _ => (oneSol 0).re) (fun _ => (oneSol 0).im)).2 i)
      (ksp (blocked none [oneElem] true (fun _ => (oneSol 0).re) (fun _ => (oneSol 0).im)).1
        fun i => -1 * (blocked none [oneElem] true (fun _ => (oneSol 0).re) (fun _ => (oneSol 0).im)).2 i) := by
  have hc : (2 + Complex.I : ℂ) ≠ 0 := by have := oneCoeff_ne 0; simpa using this
  have hsol : ∀ t : ℝ, ∀ a, oneElem.sol (fun _ => (oneSol t).re) (fun _ => (oneSol t).im) a = oneSol t := fun t a => Complex.ext rfl rfl
  have hzero : ∀ t : ℝ, (2 + Complex.I + t) * oneSol t - 1 = 0 := fun t => by rw [oneSol, mul_inv_cancel₀ (oneCoeff_ne t), sub_self]
  have hj : jacobian none [oneElem] (fun _ => (oneSol 0).re) (fun _ => (oneSol 0).im) 0 0 = 2 + Complex.I := by simp [jacobian, cMat, oneElem]
  have hp : partialSens none [oneElem] (fun _ => (oneSol 0).re) (fun _ => (oneSol 0).im) 0 = oneSol 0 := by
    have := hsol 0 0
    simp only [oneElem] at this
    simp [partialSens, cVec, oneElem, this]
  set w : ℂ := -((2 + Complex.I)⁻¹ * oneSol 0) with hwd
  have hJw : (2 + Complex.I) * w = -oneSol 0 := by rw [hwd, mul_neg, mul_inv_cancel_left₀ hc]
  refine ⟨fun _ _ i => if i = 0 then w.re else w.im, fun _ => w, ?_, ?_, ?_, ?_, ?_⟩
  · rw [hwd]; simp [oneSol, hc]
  · intro t d hd
    obtain rfl : d = 0 := by omega
    have := hsol t 0
    simp only [cVec, List.map_cons, List.map_nil, List.sum_cons, List.sum_nil, add_zero, hsol, hzero, ite_self, sum_const_zero]
  · intro e he a ha
    obtain rfl : e = oneElem := by simpa using he
    simp only [hsol, hzero]
    refine (hasDerivAt_const (0:ℝ) (0:ℂ)).congr_deriv ?_
    simp only [oneElem, sum_range_one]
    have := hsol 0 a
    simp only [oneElem] at this
    rw [this, hJw]; ring
  · intro v hv d hd
    obtain rfl : d = 0 := by omega
    have := hv 0 (by norm_num)
    rw [sum_range_one, hj] at this
    exact (mul_eq_zero.1 this).resolve_left hc
  · intro a ha
    have hb := CR.C38_blocked_assembly ([oneElem].map (toData none [oneElem] true (fun _ => (oneSol 0).re) (fun _ => (oneSol 0).im))) 0 0
    simp only [data_mat, data_vec, if_true, hj, hp, mul_zero, zero_add] at hb
    rw [blocked_eq]
    obtain ⟨b1, b2, b3, b4, b5, b6⟩ := hb
    have hre := congrArg Complex.re hJw
    have him := congrArg Complex.im hJw
    simp only [Complex.mul_re, Complex.mul_im, Complex.neg_re, Complex.neg_im] at hre him
    obtain rfl | rfl : a = 0 ∨ a = 1 := by omega
    · simp only [mul_one, sum_range_succ, sum_range_zero, zero_add, b1, b2, b5, if_true, one_ne_zero, if_false]; linarith
    · simp only [mul_one, sum_range_succ, sum_range_zero, zero_add, b3, b4, b6, if_true, one_ne_zero, if_false]; linarith

end Verif.CSolve
