import Verif.Model.SteadySens
import Verif.Props.Assembly
import Verif.Props.Sensitivity
import Verif.Props.HeatCard
import Mathlib.LinearAlgebra.Matrix.Determinant.Basic
/-! C185: the sensitivity of a steady analysis is the derivative of its solution. -/
namespace Verif.Steady
open Verif Finset

/-! ## Specification -/

/-- The sensitivity and Jacobian of an element give the rate of its residual along a motion `U` of its unknowns with the parameter; `U'` is the rate of the motion. -/
def RateAlong (e : PElem) (t₀ : ℝ) (U : ℝ → Nat → ℝ) (U' : Nat → ℝ) : Prop :=
  ∀ a < e.n, HasDerivAt (fun t => e.res t (U t) a) (e.sens t₀ (U t₀) a + ∑ b ∈ range e.n, e.jac t₀ (U t₀) a b * U' b) t₀

/-- They do along every motion. -/
def ElemConsistent (e : PElem) (t₀ : ℝ) : Prop := ∀ (U : ℝ → Nat → ℝ) (U' : Nat → ℝ), (∀ a < e.n, HasDerivAt (fun t => U t a) (U' a) t₀) → RateAlong e t₀ U U'

/-- All elements of the mesh. -/
def allElems (ps : List PProc) : List PElem := ps.flatMap fun p => p.elems

/-- Every unknown has exactly one owner. -/
def OwnedOnce (ps : List PProc) (i : Nat) : Prop := (ps.filter fun p => decide (p.first ≤ i ∧ i < p.last)).length = 1

/-- A steady analysis for every value of the parameter near `t₀`: `X t` solves the assembled equations; prescribed unknowns keep their values; `X'` is its rate at `t₀`. -/
structure Branch {N : Nat} (C : Nat → Bool) (loads : List PLoad) (ps : List PProc) (X : ℝ → Fin N → ℝ) (X' : Fin N → ℝ) (t₀ : ℝ) : Prop where
  solves : ∀ᶠ t in nhds t₀, ∀ i < N, sysRes C loads ps t (ext (X t)) i = 0
  prescribed : ∀ᶠ t in nhds t₀, ∀ i : Fin N, C i = true → X t i = X t₀ i
  rate : ∀ i, HasDerivAt (fun t => X t i) (X' i) t₀

/-! ## Assembly -/

variable {N : Nat}

theorem ext_lt (X : Fin N → ℝ) {i : Nat} (h : i < N) : ext X i = X ⟨i, h⟩ := by simp [ext, h]

theorem owned_map {ps : List PProc} {i : Nat} (f : PElem → Asm.Elem) (h : OwnedOnce ps i) : Asm.Owned (ps.map fun p => (⟨p.elems.map f, p.first, p.last⟩ : Asm.Proc)) i := by
  unfold OwnedOnce at h
  unfold Asm.Owned
  rw [List.filter_map, List.length_map]
  exact h

theorem all_map (ps : List PProc) (f : PElem → Asm.Elem) : Asm.allElems (ps.map fun p => (⟨p.elems.map f, p.first, p.last⟩ : Asm.Proc)) = (allElems ps).map f := by
  simp only [Asm.allElems, allElems, List.flatMap_map, List.map_flatMap]

/-- Rows and columns of a sum of element matrices. -/
theorem scatter (n : Nat) (dof : Nat → Nat) (m : Nat → Nat → ℝ) (x : Nat → ℝ) (hd : ∀ a < n, dof a < N) (i : Nat) :
    ∑ j ∈ range N, (∑ a ∈ range n, ∑ b ∈ range n, if dof a = i ∧ dof b = j then m a b else 0) * x j = ∑ a ∈ range n, if dof a = i then ∑ b ∈ range n, m a b * x (dof b) else 0 := by
  simp only [Finset.sum_mul]
  rw [Finset.sum_comm]
  refine Finset.sum_congr rfl fun a _ => ?_
  rw [Finset.sum_comm]
  by_cases h : dof a = i
  · rw [if_pos h]
    refine Finset.sum_congr rfl fun b hb => ?_
    simp only [h, true_and, ite_mul, zero_mul]
    rw [Finset.sum_ite_eq, if_pos (mem_range.2 (hd b (mem_range.1 hb)))]
  · simp [h]

theorem list_scatter (l : List PElem) (g : PElem → Nat → ℝ) (x : Nat → ℝ) : ∑ j ∈ range N, (l.map fun e => g e j).sum * x j = (l.map fun e => ∑ j ∈ range N, g e j * x j).sum := by
  induction l with
  | nil => simp
  | cons e l ih => simp only [List.map_cons, List.sum_cons, add_mul, Finset.sum_add_distrib, ih]

/-- Rate of what an element adds to equation `i`. -/
theorem elem_rate {e : PElem} {t₀ : ℝ} {X : ℝ → Fin N → ℝ} {X' : Fin N → ℝ} (he : RateAlong e t₀ (fun t b => ext (X t) (e.dof b)) fun b => ext X' (e.dof b)) (hd : ∀ a < e.n, e.dof a < N) (hdiag : e.diag = false)
    (i : Nat) : HasDerivAt (fun t => Asm.elemRes (ext (X t)) (e.atValue t) i)
      ((∑ a ∈ range e.n, if e.dof a = i then e.sens t₀ (fun b => ext (X t₀) (e.dof b)) a else 0) + ∑ j ∈ range N, Asm.elemJac (ext (X t₀)) (e.atValue t₀) i j * ext X' j) t₀ := by
  have h := he
  have e1 : ∀ j, Asm.elemJac (ext (X t₀)) (e.atValue t₀) i j = ∑ a ∈ range e.n, ∑ b ∈ range e.n, if e.dof a = i ∧ e.dof b = j then e.jac t₀ (fun b => ext (X t₀) (e.dof b)) a b else 0 := by
    intro j
    simp only [Asm.elemJac, PElem.atValue, hdiag, Bool.false_eq_true, if_false]
  simp only [e1]
  rw [scatter e.n e.dof (e.jac t₀ fun b => ext (X t₀) (e.dof b)) (ext X') hd i, ← Finset.sum_add_distrib]
  have e2 : (fun t => Asm.elemRes (ext (X t)) (e.atValue t) i) = fun t => ∑ a ∈ range e.n, if e.dof a = i then e.res t (fun b => ext (X t) (e.dof b)) a else 0 := by
    funext t
    simp only [Asm.elemRes, PElem.atValue, hdiag, Bool.false_eq_true, if_false]
  rw [e2]
  refine HasDerivAt.fun_sum fun a ha => ?_
  by_cases hi : e.dof a = i
  · simp only [if_pos hi]
    exact h a (mem_range.1 ha)
  · simp only [if_neg hi, add_zero]
    exact hasDerivAt_const _ _

/-- Motion of the unknowns of an element. -/
theorem motion {e : PElem} {t₀ : ℝ} {X : ℝ → Fin N → ℝ} {X' : Fin N → ℝ} (hd : ∀ a < e.n, e.dof a < N) (hX : ∀ i, HasDerivAt (fun t => X t i) (X' i) t₀) :
    ∀ a < e.n, HasDerivAt (fun t => ext (X t) (e.dof a)) (ext X' (e.dof a)) t₀ := by
  intro a ha
  simp only [ext_lt _ (hd a ha)]
  exact hX _

theorem load_rate (l : PLoad) (t₀ : ℝ) (h : ∀ a < l.n, HasDerivAt (fun t => l.load t a) (l.dload t₀ a) t₀) (i : Nat) :
    HasDerivAt (fun t => Asm.nodeForce ⟨l.n, l.dof, l.load t⟩ i) (Asm.nodeForce ⟨l.n, l.dof, l.dload t₀⟩ i) t₀ := by
  simp only [Asm.nodeForce]
  refine HasDerivAt.fun_sum (A := fun a t => if l.dof a = i then l.load t a else 0) (A' := fun a => if l.dof a = i then l.dload t₀ a else 0) fun a ha => ?_
  by_cases hi : l.dof a = i
  · simp only [if_pos hi]; exact h a (mem_range.1 ha)
  · simp only [if_neg hi]; exact hasDerivAt_const _ _

/-- What `sensitivity_assemble` delivers at a free unknown. -/
theorem sens_apply {C : Nat → Bool} {loads : List PLoad} {ps : List PProc} {t : ℝ} {X : Nat → ℝ} {i : Nat} (hown : OwnedOnce ps i) (hdiag : ∀ e ∈ allElems ps, e.diag = false)
    (hask : ∀ e ∈ allElems ps, e.asked = true ∨ ∀ a < e.n, e.sens t (fun b => X (e.dof b)) a = 0) :
    sysSens C loads ps t X i = if C i then 0 else ((allElems ps).map fun e => ∑ a ∈ range e.n, if e.dof a = i then e.sens t (fun b => X (e.dof b)) a else 0).sum -
      (loads.map fun l => Asm.nodeForce ⟨l.n, l.dof, l.dload t⟩ i).sum := by
  unfold sysSens
  rw [Asm.C22_residual _ _ _ _ _ (owned_map _ hown), all_map, List.map_map, List.map_map]
  congr 3
  refine List.map_congr_left fun e he => ?_
  simp only [Function.comp, Asm.elemRes, PElem.sensAt, hdiag e he, Bool.false_or]
  rcases hask e he with h | h
  · simp only [h, Bool.not_true, Bool.false_eq_true, if_false]
  · cases hs : e.asked
    · simp only [Bool.not_false, if_true]
      symm
      refine Finset.sum_eq_zero fun a ha => ?_
      rw [h a (mem_range.1 ha)]
      simp
    · simp only [Bool.not_true, Bool.false_eq_true, if_false]

/-! ## The solution -/

/-- C185: along a steady analysis whose elements are consistent, the rate of the solution satisfies the sensitivity equations. -/
theorem rate_solves {C : Nat → Bool} {loads : List PLoad} {ps : List PProc} {t₀ : ℝ} {X : ℝ → Fin N → ℝ} {X' : Fin N → ℝ} (hdof : ∀ e ∈ allElems ps, ∀ a < e.n, e.dof a < N)
    (hdiag : ∀ e ∈ allElems ps, e.diag = false) (hask : ∀ e ∈ allElems ps, e.asked = true ∨ ∀ a < e.n, e.sens t₀ (fun b => ext (X t₀) (e.dof b)) a = 0)
    (hel : ∀ e ∈ allElems ps, RateAlong e t₀ (fun t b => ext (X t) (e.dof b)) fun b => ext X' (e.dof b)) (hl : ∀ l ∈ loads, ∀ a < l.n, HasDerivAt (fun t => l.load t a) (l.dload t₀ a) t₀) (hown : ∀ i < N, OwnedOnce ps i) (hB : Branch C loads ps X X' t₀) (i : Fin N) :
    ∑ j : Fin N, sysJac C ps t₀ (ext (X t₀)) i j * X' j = -sysSens C loads ps t₀ (ext (X t₀)) i := by
  have hfix : ∀ j : Fin N, C j = true → X' j = 0 := by
    intro j hj
    have h2 : (fun t => X t j) =ᶠ[nhds t₀] fun _ => X t₀ j := hB.prescribed.mono fun t h => h j hj
    exact (hB.rate j).unique ((hasDerivAt_const t₀ (X t₀ j)).congr_of_eventuallyEq h2)
  have hJ : ∀ j : Nat, sysJac C ps t₀ (ext (X t₀)) i j = if C i || C j then (if (i : Nat) = j then ((allElems ps).map fun e => Asm.incidence (e.atValue t₀) i).sum else 0)
      else ((allElems ps).map fun e => Asm.elemJac (ext (X t₀)) (e.atValue t₀) i j).sum := by
    intro j
    unfold sysJac
    rw [Asm.C22_jacobian, all_map, List.map_map, List.map_map]
    rfl
  rw [sens_apply (hown i i.2) hdiag hask]
  cases hC : C i with
  | true =>
    simp only [if_true, neg_zero]
    refine Finset.sum_eq_zero fun j _ => ?_
    rw [hJ, hC, Bool.true_or, if_pos rfl]
    by_cases hij : (i : Nat) = j
    · have : i = j := Fin.ext hij
      rw [← this, hfix i hC, mul_zero]
    · rw [if_neg hij, zero_mul]
  | false =>
    simp only [Bool.false_eq_true, if_false]
    have hsum : ∑ j : Fin N, sysJac C ps t₀ (ext (X t₀)) i j * X' j = ∑ j ∈ range N, ((allElems ps).map fun e => Asm.elemJac (ext (X t₀)) (e.atValue t₀) i j).sum * ext X' j := by
      rw [← Fin.sum_univ_eq_sum_range fun j => ((allElems ps).map fun e => Asm.elemJac (ext (X t₀)) (e.atValue t₀) i j).sum * ext X' j]
      refine Finset.sum_congr rfl fun j _ => ?_
      rw [hJ, hC, Bool.false_or, ext_lt _ j.2]
      cases hCj : C j with
      | true => rw [hfix j hCj, mul_zero, mul_zero]
      | false => rw [if_neg (by simp)]
    rw [hsum, list_scatter (allElems ps) (fun e j => Asm.elemJac (ext (X t₀)) (e.atValue t₀) i j) (ext X')]
    -- the rate of equation `i`
    have hd1 := Heat.list_deriv (allElems ps) (fun e t => Asm.elemRes (ext (X t)) (e.atValue t) i) _ t₀ fun e he => elem_rate (hel e he) (hdof e he) (hdiag e he) i
    have hd2 := Heat.list_deriv loads (fun l t => Asm.nodeForce ⟨l.n, l.dof, l.load t⟩ i) _ t₀ fun l hm => load_rate l t₀ (hl l hm) i
    have hz : (fun t => ((allElems ps).map fun e => Asm.elemRes (ext (X t)) (e.atValue t) i).sum - (loads.map fun l => Asm.nodeForce ⟨l.n, l.dof, l.load t⟩ i).sum) =ᶠ[nhds t₀] fun _ => 0 := by
      refine hB.solves.mono fun t h => ?_
      replace h := h i i.2
      unfold sysRes at h
      rw [Asm.C22_residual _ _ _ _ _ (owned_map _ (hown i i.2)), all_map, List.map_map, List.map_map, hC, if_neg (by simp)] at h
      exact h
    have hd := hd1.fun_sub hd2
    have h0 := hd.unique ((hasDerivAt_const t₀ (0 : ℝ)).congr_of_eventuallyEq hz)
    have hsplit : ((allElems ps).map fun e => (∑ a ∈ range e.n, if e.dof a = (i : Nat) then e.sens t₀ (fun b => ext (X t₀) (e.dof b)) a else 0) + ∑ j ∈ range N, Asm.elemJac (ext (X t₀)) (e.atValue t₀) i j * ext X' j).sum =
        ((allElems ps).map fun e => ∑ a ∈ range e.n, if e.dof a = (i : Nat) then e.sens t₀ (fun b => ext (X t₀) (e.dof b)) a else 0).sum +
        ((allElems ps).map fun e => ∑ j ∈ range N, Asm.elemJac (ext (X t₀)) (e.atValue t₀) i j * ext X' j).sum := List.sum_map_add
    rw [hsplit] at h0
    linarith

/-- Constrained rows of the assembled Jacobian carry only the diagonal. -/
theorem con_row {C : Nat → Bool} {ps : List PProc} {t : ℝ} {X : Nat → ℝ} {i j : Nat} (hi : C i = true) (hij : j ≠ i) : sysJac C ps t X i j = 0 ∧ sysJac C ps t X j i = 0 := by
  unfold sysJac
  rw [Asm.C22_jacobian, Asm.C22_jacobian, hi, Bool.true_or, Bool.or_true, if_pos rfl, if_pos rfl, if_neg (Ne.symm hij), if_neg hij]
  exact ⟨rfl, rfl⟩

/-- C185: in a steady analysis whose elements report the rate of their residuals along the solution, `sensitivity_solve` returns the derivative of the solution with respect to the parameter: for every mesh, distribution over processes, point
loads, prescribed unknowns, and whether or not elements that do not depend on the parameter are skipped. -/
theorem C185_along (ls : Sens.LinSolver N) (hls : ls.Correct) {C : Nat → Bool} {loads : List PLoad} {ps : List PProc} {t₀ : ℝ} {X : ℝ → Fin N → ℝ} {X' : Fin N → ℝ} (hdof : ∀ e ∈ allElems ps, ∀ a < e.n, e.dof a < N)
    (hdiag : ∀ e ∈ allElems ps, e.diag = false) (hask : ∀ e ∈ allElems ps, e.asked = true ∨ ∀ a < e.n, e.sens t₀ (fun b => ext (X t₀) (e.dof b)) a = 0)
    (hel : ∀ e ∈ allElems ps, RateAlong e t₀ (fun t b => ext (X t) (e.dof b)) fun b => ext X' (e.dof b)) (hl : ∀ l ∈ loads, ∀ a < l.n, HasDerivAt (fun t => l.load t a) (l.dload t₀ a) t₀) (hown : ∀ i < N, OwnedOnce ps i) (hB : Branch C loads ps X X' t₀)
    (hreg : IsUnit (Matrix.of fun i j : Fin N => sysJac C ps t₀ (ext (X t₀)) i j).det) : sensitivitySolve ls C loads ps t₀ (X t₀) = X' := by
  set J := Matrix.of fun i j : Fin N => sysJac C ps t₀ (ext (X t₀)) i j with hJdef
  have hrate : J.mulVec X' = (-1 : ℝ) • fun i : Fin N => sysSens C loads ps t₀ (ext (X t₀)) i := by
    funext i
    have := rate_solves hdof hdiag hask hel hl hown hB i
    simp only [Pi.smul_apply, smul_eq_mul, neg_one_mul]
    exact this
  have h1 := hls J ((-1 : ℝ) • fun i : Fin N => sysSens C loads ps t₀ (ext (X t₀)) i) hreg
  have hrow : ∀ i : Fin N, C i = true → ∀ j, j ≠ i → J i j = 0 := fun i hi j hj => (con_row hi fun h => hj (Fin.ext h)).1
  have hdg : ∀ i : Fin N, C i = true → J i i ≠ 0 := by
    intro i hi h0
    refine (isUnit_iff_ne_zero.1 hreg) (Matrix.det_eq_zero_of_row_eq_zero i fun j => ?_)
    by_cases hj : j = i
    · rw [hj]; exact h0
    · exact hrow i hi j hj
  have hb : ∀ i : Fin N, C i = true → ((-1 : ℝ) • fun i : Fin N => sysSens C loads ps t₀ (ext (X t₀)) i) i = 0 := by
    intro i hi
    simp only [Pi.smul_apply, smul_eq_mul, neg_one_mul, sens_apply (hown i i.2) hdiag hask, hi, if_true, neg_zero]
  have key : Sens.enforce (fun i : Fin N => C i) (ls.solve J ((-1 : ℝ) • fun i : Fin N => sysSens C loads ps t₀ (ext (X t₀)) i)) = ls.solve J ((-1 : ℝ) • fun i : Fin N => sysSens C loads ps t₀ (ext (X t₀)) i) :=
    Sens.enforce_eq (C := fun i : Fin N => C i) hrow hdg hb h1
  have hinj := (Matrix.mulVec_injective_iff_isUnit (A := J)).2 ((Matrix.isUnit_iff_isUnit_det _).2 hreg)
  show Sens.enforce (fun i : Fin N => C i) (ls.solve J ((-1 : ℝ) • fun i : Fin N => sysSens C loads ps t₀ (ext (X t₀)) i)) = X'
  rw [key]
  exact hinj (h1.trans hrate.symm)

/-- C185: in a steady analysis whose elements report their derivatives, `sensitivity_solve` returns the derivative of the solution with respect to the parameter: for every mesh, distribution over processes, point
loads, prescribed unknowns, and whether or not elements that do not depend on the parameter are skipped. -/
theorem C185_solution (ls : Sens.LinSolver N) (hls : ls.Correct) {C : Nat → Bool} {loads : List PLoad} {ps : List PProc} {t₀ : ℝ} {X : ℝ → Fin N → ℝ} {X' : Fin N → ℝ} (hdof : ∀ e ∈ allElems ps, ∀ a < e.n, e.dof a < N)
    (hdiag : ∀ e ∈ allElems ps, e.diag = false) (hask : ∀ e ∈ allElems ps, e.asked = true ∨ ∀ a < e.n, e.sens t₀ (fun b => ext (X t₀) (e.dof b)) a = 0)
    (hel : ∀ e ∈ allElems ps, ElemConsistent e t₀) (hl : ∀ l ∈ loads, ∀ a < l.n, HasDerivAt (fun t => l.load t a) (l.dload t₀ a) t₀) (hown : ∀ i < N, OwnedOnce ps i) (hB : Branch C loads ps X X' t₀)
    (hreg : IsUnit (Matrix.of fun i j : Fin N => sysJac C ps t₀ (ext (X t₀)) i j).det) : sensitivitySolve ls C loads ps t₀ (X t₀) = X' :=
  C185_along ls hls hdof hdiag hask (fun e he => hel e he _ _ (motion (hdof e he) hB.rate)) hl hown hB hreg

/-- C185: the total derivative of an output `q` of the analysis: the direct and the adjoint calculation both return the derivative of its value along the analysis.  `dqdX`, zero at prescribed unknowns, and `dqdp` are the
derivatives of the output. -/
theorem C185_output (ls : Sens.LinSolver N) (hls : ls.Correct) {C : Nat → Bool} {loads : List PLoad} {ps : List PProc} {t₀ : ℝ} {X : ℝ → Fin N → ℝ} {X' : Fin N → ℝ} (hdof : ∀ e ∈ allElems ps, ∀ a < e.n, e.dof a < N)
    (hdiag : ∀ e ∈ allElems ps, e.diag = false) (hask : ∀ e ∈ allElems ps, e.asked = true ∨ ∀ a < e.n, e.sens t₀ (fun b => ext (X t₀) (e.dof b)) a = 0)
    (hel : ∀ e ∈ allElems ps, RateAlong e t₀ (fun t b => ext (X t) (e.dof b)) fun b => ext X' (e.dof b)) (hl : ∀ l ∈ loads, ∀ a < l.n, HasDerivAt (fun t => l.load t a) (l.dload t₀ a) t₀) (hown : ∀ i < N, OwnedOnce ps i) (hB : Branch C loads ps X X' t₀)
    (hreg : IsUnit (Matrix.of fun i j : Fin N => sysJac C ps t₀ (ext (X t₀)) i j).det) (q : (Fin N → ℝ) × ℝ → ℝ) (q' : (Fin N → ℝ) × ℝ →L[ℝ] ℝ) (hq : HasFDerivAt q q' (X t₀, t₀)) (dqdX : (Fin N → ℝ) → Fin N → ℝ)
    (dqdp : (Fin N → ℝ) → ℝ) (hq' : ∀ w t, (∀ i : Fin N, C i = true → w i = 0) → q' (w, t) = (∑ i, dqdX (X t₀) i * w i) + t * dqdp (X t₀)) (hout : ∀ i : Fin N, C i = true → dqdX (X t₀) i = 0)
    (M : Matrix (Fin N) (Fin N) ℝ) :
    HasDerivAt (fun t => q (X t, t)) (Sens.directTotal (assembly C loads ps t₀ dqdX dqdp) (X t₀) (Sens.sensitivitySolve (assembly C loads ps t₀ dqdX dqdp) ls (fun i => C i) M (X t₀) true)) t₀ ∧
    HasDerivAt (fun t => q (X t, t)) (Sens.adjointTotal (assembly C loads ps t₀ dqdX dqdp) (X t₀) (Sens.adjointSolve (assembly C loads ps t₀ dqdX dqdp) ls (fun i => C i) M (X t₀) (X t₀) true) true) t₀ := by
  have hfix : ∀ j : Fin N, C j = true → X' j = 0 := by
    intro j hj
    have h2 : (fun t => X t j) =ᶠ[nhds t₀] fun _ => X t₀ j := hB.prescribed.mono fun t h => h j hj
    exact (hB.rate j).unique ((hasDerivAt_const t₀ (X t₀ j)).congr_of_eventuallyEq h2)
  have hX : Sens.sensitivitySolve (assembly C loads ps t₀ dqdX dqdp) ls (fun i => C i) M (X t₀) true = X' := C185_along ls hls hdof hdiag hask hel hl hown hB hreg
  have hdir : HasDerivAt (fun t => q (X t, t)) (Sens.directTotal (assembly C loads ps t₀ dqdX dqdp) (X t₀) (Sens.sensitivitySolve (assembly C loads ps t₀ dqdX dqdp) ls (fun i => C i) M (X t₀) true)) t₀ := by
    have hc : HasDerivAt (fun t => (X t, t)) (X', (1 : ℝ)) t₀ := (hasDerivAt_pi.2 hB.rate).prodMk (hasDerivAt_id t₀)
    have h := HasFDerivAt.comp_hasDerivAt t₀ (f := fun t => (X t, t)) hq hc
    refine h.congr_deriv ?_
    rw [hX, hq' X' 1 hfix]
    simp only [Sens.directTotal, assembly, dotProduct, one_mul]
    ring
  refine ⟨hdir, ?_⟩
  have hrow : ∀ i : Fin N, C i = true → ∀ j : Fin N, j ≠ i → sysJac C ps t₀ (ext (X t₀)) i j = 0 ∧ sysJac C ps t₀ (ext (X t₀)) j i = 0 := fun i hi j hj => con_row hi fun h => hj (Fin.ext h)
  have hcon : Sens.Constrained (fun i : Fin N => C i) ((assembly C loads ps t₀ dqdX dqdp).jac (X t₀)) ((assembly C loads ps t₀ dqdX dqdp).dRdp (X t₀)) ((assembly C loads ps t₀ dqdX dqdp).dqdX (X t₀)) := by
    refine ⟨fun i hi j hj => (hrow i hi j hj).1, fun i hi j hj => (hrow i hi j hj).2, fun i hi h0 => ?_, fun i hi => ?_, hout⟩
    · refine (isUnit_iff_ne_zero.1 hreg) (Matrix.det_eq_zero_of_row_eq_zero i fun j => ?_)
      by_cases hj : j = i
      · rw [hj]; exact h0
      · exact (hrow i hi j hj).1
    · simp only [assembly, sens_apply (hown i i.2) hdiag hask, hi, if_true]
  have heq := Sens.C20_adjoint_equals_direct (assembly C loads ps t₀ dqdX dqdp) ls hls (fun i => C i) M (X t₀) (X t₀) true (fun _ => rfl) hreg hcon
  rw [heq]
  exact hdir

/-- Rate of a function of unknowns and parameter that is differentiable in both together. -/
theorem joint_rate {ι : Type} [Fintype ι] {R : (ι → ℝ) × ℝ → ℝ} {u w : ι → ℝ} {t₀ s D : ℝ} (hd : DifferentiableAt ℝ R (u, t₀)) (hs : HasDerivAt (fun t => R (u, t)) s t₀)
    (hD : HasDerivAt (fun e : ℝ => R (fun b => u b + e * w b, t₀)) D 0) (U : ℝ → ι → ℝ) (hU : ∀ b, HasDerivAt (fun t => U t b) (w b) t₀) (hu : U t₀ = u) : HasDerivAt (fun t => R (U t, t)) (s + D) t₀ := by
  subst hu
  have hL := hd.hasFDerivAt
  set L := fderiv ℝ R (U t₀, t₀)
  have d1 : L (0, 1) = s := (hL.comp_hasDerivAt (f := fun t : ℝ => (U t₀, t)) t₀ ((hasDerivAt_const t₀ (U t₀)).prodMk (hasDerivAt_id t₀))).unique hs
  have d2 : L (w, 0) = D := by
    have hc : HasDerivAt (fun e : ℝ => ((fun b => U t₀ b + e * w b, t₀) : (ι → ℝ) × ℝ)) (w, 0) 0 := by
      refine HasDerivAt.prodMk (hasDerivAt_pi.2 fun b => ?_) (hasDerivAt_const _ _)
      simpa using ((hasDerivAt_id (0 : ℝ)).mul_const (w b)).const_add (U t₀ b)
    have hL' : HasFDerivAt R L ((fun e : ℝ => ((fun b => U t₀ b + e * w b, t₀) : (ι → ℝ) × ℝ)) 0) := by simpa using hL
    exact (hL'.comp_hasDerivAt (0 : ℝ) hc).unique hD
  have hc : HasDerivAt (fun t : ℝ => ((U t, t) : (ι → ℝ) × ℝ)) (w, 1) t₀ := HasDerivAt.prodMk (hasDerivAt_pi.2 hU) (hasDerivAt_id _)
  have h1 := hL.comp_hasDerivAt (f := fun t : ℝ => ((U t, t) : (ι → ℝ) × ℝ)) t₀ hc
  have hsplit : L (w, 1) = s + D := by
    have : ((w, 1) : (ι → ℝ) × ℝ) = (0, 1) + (w, 0) := by simp
    rw [this, map_add, d1, d2]
  rw [hsplit] at h1
  exact h1

/-! ## Heat conduction -/

section
open Verif.SecDep Verif.HeatCard

variable {n d : Nat} {X : Type}

/-- Every function of the program is differentiable in the parameter `p` and the temperature together, and reports its derivatives. -/
def JointDerivs (h : Fn.Heap) (D : Data X) (v : Nat → ℝ) (p : Nat) : Prop :=
  ∀ y, isField h y = true → ∀ x,
    (∀ T, HasFDerivAt (fun s : ℝ × ℝ => D.F.val (Function.update v p s.1) y (x, some s.2))
      (D.F.der v y p (x, some T) • ContinuousLinearMap.fst ℝ ℝ ℝ + D.dT v y (x, some T) • ContinuousLinearMap.snd ℝ ℝ ℝ) (v p, T)) ∧
    HasDerivAt (fun t => D.F.val (Function.update v p t) y (x, none)) (D.F.der v y p (x, none)) (v p)

theorem joint_derivs {h : Fn.Heap} {D : Data X} {v : Nat → ℝ} {p : Nat} (hj : JointDerivs h D v p) : Derivs h D.F v p := by
  intro y hy pt
  obtain ⟨x, T⟩ := pt
  cases T with
  | none => exact (hj y hy x).2
  | some T =>
    have := ((hj y hy x).1 T).comp_hasDerivAt (f := fun t : ℝ => (t, T)) (v p) ((hasDerivAt_id (v p)).prodMk (hasDerivAt_const (v p) T))
    exact this.congr_deriv (by simp)

theorem joint_temp {h : Fn.Heap} {D : Data X} {v : Nat → ℝ} {p : Nat} (hj : JointDerivs h D v p) : TempDerivs h D v := by
  intro y hy x T
  have := ((hj y hy x).1 T).comp_hasDerivAt (f := fun T : ℝ => (v p, T)) T ((hasDerivAt_const T (v p)).prodMk (hasDerivAt_id T))
  simp only [Function.comp_def, Function.update_eq_self] at this
  exact this.congr_deriv (by simp)

theorem list_diff {ι : Type*} {E : Type} [NormedAddCommGroup E] [NormedSpace ℝ E] (l : List ι) (f : ι → E → ℝ) (z : E) (h : ∀ q ∈ l, DifferentiableAt ℝ (f q) z) : DifferentiableAt ℝ (fun z => (l.map fun q => f q z).sum) z := by
  induction l with
  | nil => simpa using differentiableAt_const (0 : ℝ)
  | cons q l ih =>
    simp only [List.map_cons, List.sum_cons]
    exact (h q List.mem_cons_self).fun_add (ih fun p hp => h p (List.mem_cons_of_mem _ hp))

theorem interp_diff (q : Heat.Qp n d X) (z : (Fin n → ℝ) × ℝ) : DifferentiableAt ℝ (fun z : (Fin n → ℝ) × ℝ => Heat.interp q z.1) z := by
  unfold Heat.interp
  fun_prop

theorem grad_diff (q : Heat.Qp n d X) (j : Fin d) (z : (Fin n → ℝ) × ℝ) : DifferentiableAt ℝ (fun z : (Fin n → ℝ) × ℝ => Heat.grad q z.1 j) z := by
  unfold Heat.grad
  fun_prop

/-- A function of the cards at a point of the element. -/
theorem val_diff {h : Fn.Heap} {D : Data X} {v : Nat → ℝ} {p : Nat} (hj : JointDerivs h D v p) {y : Nat} (hy : isField h y = true) (q : Heat.Qp n d X) (b : Bool) (u : Fin n → ℝ) :
    DifferentiableAt ℝ (fun z : (Fin n → ℝ) × ℝ => D.F.val (Function.update v p z.2) y (q.x, if b then some (Heat.interp q z.1) else none)) (u, v p) := by
  cases b with
  | true =>
    have h1 : DifferentiableAt ℝ (fun s : ℝ × ℝ => D.F.val (Function.update v p s.1) y (q.x, some s.2)) ((fun z : (Fin n → ℝ) × ℝ => (z.2, Heat.interp q z.1)) (u, v p)) := ((hj y hy q.x).1 _).differentiableAt
    exact h1.comp (u, v p) (f := fun z : (Fin n → ℝ) × ℝ => (z.2, Heat.interp q z.1)) (differentiableAt_snd.prodMk (interp_diff q _))
  | false =>
    have h1 : DifferentiableAt ℝ (fun t : ℝ => D.F.val (Function.update v p t) y (q.x, none)) ((fun z : (Fin n → ℝ) × ℝ => z.2) (u, v p)) := (hj y hy q.x).2.differentiableAt
    exact h1.comp (u, v p) (f := fun z : (Fin n → ℝ) × ℝ => z.2) differentiableAt_snd

theorem cond_diff {h : Fn.Heap} {P : Fns} (hP : AllFields h P) {E : Type} [NormedAddCommGroup E] [NormedSpace ℝ E] (val : E → Nat → ℝ) (z : E) (hv : ∀ y, isField h y = true → DifferentiableAt ℝ (fun z => val z y) z)
    (i j : Fin d) : DifferentiableAt ℝ (fun z => HeatCard.cond P (val z) d i j) z := by
  have hk : DifferentiableAt ℝ (fun z => Material.conductance d (fun i => val z (P.k i)) i j) z := by
    unfold Material.conductance
    by_cases hij : i = j
    · simp only [hij, if_true]; exact hv _ (hP.2.1 _)
    · simp only [hij, if_false]; exact differentiableAt_const _
  have hs := hP.1
  unfold HeatCard.cond
  cases hz : P.size with
  | area hy hz' =>
    rw [hz] at hs
    exact hk.fun_mul ((hv _ hs.1).fun_mul (hv _ hs.2))
  | thickness h' =>
    rw [hz] at hs
    exact hk.fun_mul (hv _ hs)
  | unit => exact hk

/-- What a point of the element adds to the internal residual. -/
noncomputable def intTerm (D : Data X) (P : Fns) (v : Nat → ℝ) (p : Nat) (active diag : Bool) (a : Fin n) (q : Heat.Qp n d X) (z : (Fin n → ℝ) × ℝ) : ℝ :=
  ∑ i, q.JxW * (q.dphi a i * Heat.heatFlux ((matOf D P d active diag (Function.update v p z.2) p).k q.x (Heat.temp (matOf D P d active diag (Function.update v p z.2) p) q z.1)) (Heat.grad q z.1) i)

theorem internal_diff {h : Fn.Heap} {D : Data X} {v : Nat → ℝ} {p : Nat} (hj : JointDerivs h D v p) {P : Fns} (hP : AllFields h P) (active diag : Bool) (pts : List (Heat.Qp n d X)) (u : Fin n → ℝ) (a : Fin n) :
    DifferentiableAt ℝ (fun z : (Fin n → ℝ) × ℝ => Heat.internalRes (matOf D P d active diag (Function.update v p z.2) p) pts z.1 a) (u, v p) := by
  have e : (fun z : (Fin n → ℝ) × ℝ => Heat.internalRes (matOf D P d active diag (Function.update v p z.2) p) pts z.1 a) = fun z => (pts.map fun q => intTerm D P v p active diag a q z).sum := rfl
  rw [e]
  refine list_diff pts (fun q z => intTerm D P v p active diag a q z) _ fun q _ => ?_
  unfold intTerm
  refine DifferentiableAt.fun_sum fun i _ => ?_
  refine (differentiableAt_const _).fun_mul ((differentiableAt_const _).fun_mul ?_)
  unfold Heat.heatFlux
  refine DifferentiableAt.fun_sum fun j _ => (grad_diff q j _).fun_mul ?_
  exact cond_diff hP (fun z y => D.F.val (Function.update v p z.2) y (q.x, if active then some (Heat.interp q z.1) else none)) (u, v p) (fun y hy => val_diff hj hy q active u) i j

theorem field_diff {h : Fn.Heap} {D : Data X} {v : Nat → ℝ} {p : Nat} (hj : JointDerivs h D v p) {y : Nat} (hy : isField h y = true) (x : X) (u : Fin n → ℝ) :
    DifferentiableAt ℝ (fun z : (Fin n → ℝ) × ℝ => (field D (Function.update v p z.2) p y).val x) (u, v p) := by
  have h1 : DifferentiableAt ℝ (fun t : ℝ => D.F.val (Function.update v p t) y (x, none)) ((fun z : (Fin n → ℝ) × ℝ => z.2) (u, v p)) := (hj y hy x).2.differentiableAt
  exact h1.comp (u, v p) (f := fun z : (Fin n → ℝ) × ℝ => z.2) differentiableAt_snd

theorem thick_diff {h : Fn.Heap} {D : Data X} {v : Nat → ℝ} {p : Nat} (hj : JointDerivs h D v p) {P : Fns} (hP : AllFields h P) (x : X) (u : Fin n → ℝ) :
    DifferentiableAt ℝ (fun z : (Fin n → ℝ) × ℝ => Heat.thick (sectionOf D P (Function.update v p z.2) p) x) (u, v p) := by
  have hs := hP.1
  cases hz : P.size with
  | area hy hz' =>
    rw [hz] at hs
    simp only [sectionOf, hz, Heat.thick]
    exact (field_diff hj hs.1 x u).fun_mul (field_diff hj hs.2 x u)
  | thickness h' =>
    rw [hz] at hs
    simp only [sectionOf, hz, Heat.thick]
    exact field_diff hj hs x u
  | unit => simp only [sectionOf, hz, Heat.thick]; exact differentiableAt_const _

theorem upd_other {v : Nat → ℝ} {p q : Nat} (h : p ≠ q) (t : ℝ) : Function.update v p t q = v q := Function.update_of_ne (Ne.symm h) _ _

theorem side_diff {h : Fn.Heap} {D : Data X} {v : Nat → ℝ} {p : Nat} (hj : JointDerivs h D v p) {P : Fns} (hP : AllFields h P) {l : LoadFn} (hl : LoadOk h p l) (q : Heat.Qp n d X) (u : Fin n → ℝ) :
    DifferentiableAt ℝ (fun z : (Fin n → ℝ) × ℝ => (Heat.sideTerm (sectionOf D P (Function.update v p z.2) p) q.x (Heat.interp q z.1) (loadOf D (Function.update v p z.2) p l)).getD 0) (u, v p) := by
  have ht := thick_diff hj hP q.x u
  have hi := interp_diff q (u, v p)
  cases l with
  | flux g => exact (field_diff hj hl q.x u).fun_mul ht
  | convection c amb => exact (ht.fun_mul (field_diff hj hl.1 q.x u)).fun_mul (hi.fun_sub (field_diff hj hl.2 q.x u))
  | radiation eps amb ref sb =>
    obtain ⟨h1, h2, h3, h4⟩ := hl
    simp only [loadOf, Heat.sideTerm, Option.getD_some, upd_other h2, upd_other h3, upd_other h4]
    exact (((differentiableAt_const _).fun_mul (field_diff hj h1 q.x u)).fun_mul ht).fun_mul (((hi.fun_add (differentiableAt_const _)).fun_pow 4).fun_sub (differentiableAt_const _))
  | source g => exact differentiableAt_const _
  | dirichlet => exact differentiableAt_const _
  | other => exact differentiableAt_const _

theorem vol_diff {h : Fn.Heap} {D : Data X} {v : Nat → ℝ} {p : Nat} (hj : JointDerivs h D v p) {P : Fns} (hP : AllFields h P) {l : LoadFn} (hl : LoadOk h p l) (q : Heat.Qp n d X) (u : Fin n → ℝ) :
    DifferentiableAt ℝ (fun z : (Fin n → ℝ) × ℝ => (Heat.volTerm (sectionOf D P (Function.update v p z.2) p) q.x (Heat.interp q z.1) (loadOf D (Function.update v p z.2) p l)).getD 0) (u, v p) := by
  have ht := thick_diff hj hP q.x u
  have hi := interp_diff q (u, v p)
  cases l with
  | flux g => exact field_diff hj hl q.x u
  | convection c amb => exact (field_diff hj hl.1 q.x u).fun_mul (hi.fun_sub (field_diff hj hl.2 q.x u))
  | radiation eps amb ref sb =>
    obtain ⟨h1, h2, h3, h4⟩ := hl
    simp only [loadOf, Heat.volTerm, Option.getD_some, upd_other h2, upd_other h3, upd_other h4]
    exact ((differentiableAt_const _).fun_mul (field_diff hj h1 q.x u)).fun_mul (((hi.fun_add (differentiableAt_const _)).fun_pow 4).fun_sub (differentiableAt_const _))
  | source g => exact ((field_diff hj hl q.x u).fun_mul ht).fun_neg
  | dirichlet => exact differentiableAt_const _
  | other => exact differentiableAt_const _

/-- The loads on the sides of an element, before their values are taken. -/
def sideFns (nSides : Nat) (ids : Nat → List Nat) (bc : List (Nat × LoadFn)) : List (Nat × LoadFn) :=
  (List.range nSides).flatMap fun s => (ids s).flatMap fun b => (bc.filter fun e => e.1 == b).map fun e => (s, e.2)

theorem sideLoads_map (nSides : Nat) (ids : Nat → List Nat) (D : Data X) (v : Nat → ℝ) (p : Nat) (l : List (Nat × LoadFn)) :
    Heat.sideLoads nSides ids (loadsOf D v p l) = (sideFns nSides ids l).map fun x => (x.1, loadOf D v p x.2) := by
  simp only [Heat.sideLoads, sideFns, loadsOf, List.map_flatMap, List.filter_map, List.map_map]
  rfl

theorem volLoads_map (sid : Nat) (D : Data X) (v : Nat → ℝ) (p : Nat) (l : List (Nat × LoadFn)) :
    Heat.volLoads sid (loadsOf D v p l) = ((l.filter fun e => e.1 == sid).map fun e => e.2).map fun x => loadOf D v p x := by
  simp only [Heat.volLoads, loadsOf, List.filter_map, List.map_map]
  rfl

theorem sideFns_mem {nSides : Nat} {ids : Nat → List Nat} {l : List (Nat × LoadFn)} {x : Nat × LoadFn} (h : x ∈ sideFns nSides ids l) : ∃ b, (b, x.2) ∈ l := by
  simp only [sideFns, List.mem_flatMap, List.mem_map, List.mem_filter] at h
  obtain ⟨s, _, b, _, e, he, rfl⟩ := h
  exact ⟨e.1, he.1⟩

theorem loadRes_diff {h : Fn.Heap} {D : Data X} {v : Nat → ℝ} {p : Nat} (u : Fin n → ℝ) (T : (Fin n → ℝ) × ℝ → X → ℝ → ℝ) (pts : List (Heat.Qp n d X))
    (hT : ∀ q ∈ pts, DifferentiableAt ℝ (fun z : (Fin n → ℝ) × ℝ => T z q.x (Heat.interp q z.1)) (u, v p)) (a : Fin n) :
    DifferentiableAt ℝ (fun z : (Fin n → ℝ) × ℝ => (pts.map fun q => q.JxW * q.phi a * T z q.x (Heat.interp q z.1)).sum) (u, v p) :=
  list_diff pts (fun q z => q.JxW * q.phi a * T z q.x (Heat.interp q z.1)) _ fun q hq => (differentiableAt_const _).fun_mul (hT q hq)

/-- The residual of a heat conduction element is differentiable in its unknowns and the parameter together. -/
theorem heat_joint (Q : Problem n d X) (D : Data X) (v : Nat → ℝ) (p : Nat) (hj : JointDerivs Q.hp D v p) (hs : ∀ l ∈ Q.side, LoadOk Q.hp p l.2) (hvl : ∀ l ∈ Q.vol, LoadOk Q.hp p l.2)
    (u₀ r : Fin n → ℝ) (h : HeatCard.residual Q D u₀ p v = .ok r) :
    ∃ R : (Fin n → ℝ) × ℝ → Fin n → ℝ, (∀ u t, HeatCard.residual Q D u p (Function.update v p t) = .ok (R (u, t))) ∧ ∀ u a, DifferentiableAt ℝ (fun z => R z a) (u, v p) := by
  obtain ⟨P, hP, h⟩ := bind_inv h
  have hF := fns_fields hP
  split at h
  · rename_i r' hr
    have hex : ∀ t, ∃ r', Heat.elemRes (matOf D P d Q.active Q.diag (Function.update v p t) p) { Q.e with sec := sectionOf D P (Function.update v p t) p } (loadsOf D (Function.update v p t) p Q.side) (loadsOf D (Function.update v p t) p Q.vol) u₀ = some r' := by
      intro t
      refine supported _ _ Q.e _ _ _ _ _ _ u₀ r' ?_ ?_ hr
      · simp only [loadsOf, List.map_map]
        exact List.map_congr_left fun l _ => by simp only [Function.comp, (ok_const D p v (Function.update v p t) l.2).1]
      · simp only [loadsOf, List.map_map]
        exact List.map_congr_left fun l _ => by simp only [Function.comp, (ok_const D p v (Function.update v p t) l.2).2]
    refine ⟨fun z a => Heat.internalRes (matOf D P d Q.active Q.diag (Function.update v p z.2) p) Q.e.pts z.1 a +
      ((sideFns Q.e.nSides Q.e.ids Q.side).map fun l => Heat.loadRes (Heat.sideTerm (sectionOf D P (Function.update v p z.2) p)) (Q.e.sidePts l.1) z.1 (loadOf D (Function.update v p z.2) p l.2) a).sum +
      (((Q.vol.filter fun e => e.1 == Q.e.sid).map fun e => e.2).map fun l => Heat.loadRes (Heat.volTerm (sectionOf D P (Function.update v p z.2) p)) Q.e.pts z.1 (loadOf D (Function.update v p z.2) p l) a).sum,
      fun u t => ?_, fun u a => ?_⟩
    · obtain ⟨rt, hrt⟩ := hex t
      rw [HeatCard.residual, bind_ok hP]
      unfold Heat.elemRes at hrt
      split at hrt
      · rename_i hc
        have key : Heat.elemRes (matOf D P d Q.active Q.diag (Function.update v p t) p) (elemOf D P Q.e (Function.update v p t) p) (loadsOf D (Function.update v p t) p Q.side) (loadsOf D (Function.update v p t) p Q.vol) u =
          some _ := if_pos hc
        rw [key]
        simp only [elemOf, sideLoads_map, volLoads_map, List.map_map]
        rfl
      · cases hrt
    · refine ((internal_diff hj hF Q.active Q.diag Q.e.pts u a).fun_add (list_diff _ _ _ fun l hl => ?_)).fun_add (list_diff _ _ _ fun l hl => ?_)
      · obtain ⟨b, hb⟩ := sideFns_mem hl
        exact loadRes_diff (h := Q.hp) (D := D) u (fun z x w => (Heat.sideTerm (sectionOf D P (Function.update v p z.2) p) x w (loadOf D (Function.update v p z.2) p l.2)).getD 0) _ (fun q _ => side_diff hj hF (hs _ hb) q u) a
      · obtain ⟨e, he, rfl⟩ := List.mem_map.1 hl
        exact loadRes_diff (h := Q.hp) (D := D) u (fun z x w => (Heat.volTerm (sectionOf D P (Function.update v p z.2) p) x w (loadOf D (Function.update v p z.2) p e.2)).getD 0) _ (fun q _ => vol_diff hj hF (hvl _ (List.mem_filter.1 he).1) q u) a
  · cases h

/-- A heat conduction element reports the rate of its residual along every motion of its temperatures with the parameter. -/
theorem heat_consistent (Q : Problem n d X) (D : Data X) (v : Nat → ℝ) (p : Nat) (hj : JointDerivs Q.hp D v p) (hs : ∀ l ∈ Q.side, LoadOk Q.hp p l.2) (hvl : ∀ l ∈ Q.vol, LoadOk Q.hp p l.2)
    (u₀ r : Fin n → ℝ) (h : HeatCard.residual Q D u₀ p v = .ok r) (dof : Nat → Nat) (asked : Bool) : ElemConsistent (heatElem Q D v p dof asked) (v p) := by
  obtain ⟨R, hR, hd⟩ := heat_joint Q D v p hj hs hvl u₀ r h
  obtain ⟨R1, J, hJ⟩ := C184_tangent Q D v (joint_temp hj) p u₀ r h
  intro U U' hU a ha
  have ha : a < n := ha
  have hU : ∀ a < n, HasDerivAt (fun t => U t a) (U' a) (v p) := hU
  set u : Fin n → ℝ := fun a => U (v p) a with hu
  set w : Fin n → ℝ := fun a => U' a with hw
  have hRv : ∀ u, HeatCard.residual Q D u p v = .ok (R (u, v p)) := fun u => by simpa using hR u (v p)
  obtain ⟨s, hs', g, hg, hg'⟩ := C184_sensitivity_partial Q D v p (joint_derivs hj) hs hvl u _ (hRv u)
  have e1 : R1 = fun u => R (u, v p) := funext fun u => Except.ok.inj ((hJ u).1.symm.trans (hRv u))
  have e2 : g = fun t => R (u, t) := funext fun t => Except.ok.inj ((hg t).symm.trans (hR u t))
  set A : Fin n := ⟨a, ha⟩
  have h2 := hg' A
  rw [e2] at h2
  have h3 := (hJ u).2.2 w A
  rw [e1] at h3
  have h1 := joint_rate (hd u A) h2 h3 (fun t b => U t b) (fun b => hU b b.2) rfl
  have f1 : (fun t => (heatElem Q D v p dof asked).res t (U t) a) = fun t => R (fun b : Fin n => U t b, t) A := by
    funext t
    simp only [heatElem, hR]
    simp only [extE, dif_pos ha]
    rfl
  have f2 : (heatElem Q D v p dof asked).sens (v p) (U (v p)) a = s A := by
    simp only [heatElem, Function.update_eq_self]
    rw [hs']
    simp only [extE, dif_pos ha]
    rfl
  have f3 : ∑ b ∈ range n, (heatElem Q D v p dof asked).jac (v p) (U (v p)) a b * U' b = ∑ b, J u A b * w b := by
    rw [← Fin.sum_univ_eq_sum_range fun b => (heatElem Q D v p dof asked).jac (v p) (U (v p)) a b * U' b]
    refine Finset.sum_congr rfl fun b _ => ?_
    simp only [heatElem, Function.update_eq_self]
    rw [(hJ u).2.1]
    simp only [dif_pos ha, extE, dif_pos b.2]
    rfl
  rw [f1]
  show HasDerivAt _ (_ + ∑ b ∈ range n, _) _
  rw [f2, f3]
  exact h1

/-- A heat conduction element whose calculation succeeds, with functions that are differentiable in the parameter and the temperature and loads of which only the radiation constants may not be the parameter. -/
def IsHeat (v : Nat → ℝ) (p : Nat) (e : PElem) : Prop :=
  ∃ (n d : Nat) (X : Type) (Q : Problem n d X) (D : Data X) (dof : Nat → Nat) (asked : Bool) (u r : Fin n → ℝ), e = heatElem Q D v p dof asked ∧ JointDerivs Q.hp D v p ∧ (∀ l ∈ Q.side, LoadOk Q.hp p l.2) ∧
    (∀ l ∈ Q.vol, LoadOk Q.hp p l.2) ∧ HeatCard.residual Q D u p v = .ok r

/-- C185: steady heat conduction on a mesh of bars, plates and solids, with conductivities that may depend on temperature, fluxes, convection, radiation and sources: `sensitivity_solve` returns the derivative of the
temperatures with respect to every parameter that is not a radiation constant (partial: those are ignored, C184_radiation_fails). -/
theorem C185_heat_partial {N : Nat} (ls : Sens.LinSolver N) (hls : ls.Correct) {C : Nat → Bool} {loads : List PLoad} {ps : List PProc} {v : Nat → ℝ} {p : Nat} {X : ℝ → Fin N → ℝ} {X' : Fin N → ℝ}
    (hheat : ∀ e ∈ allElems ps, IsHeat v p e) (hdof : ∀ e ∈ allElems ps, ∀ a < e.n, e.dof a < N)
    (hask : ∀ e ∈ allElems ps, e.asked = true ∨ ∀ a < e.n, e.sens (v p) (fun b => ext (X (v p)) (e.dof b)) a = 0) (hl : ∀ l ∈ loads, ∀ a < l.n, HasDerivAt (fun t => l.load t a) (l.dload (v p) a) (v p))
    (hown : ∀ i < N, OwnedOnce ps i) (hB : Branch C loads ps X X' (v p)) (hreg : IsUnit (Matrix.of fun i j : Fin N => sysJac C ps (v p) (ext (X (v p))) i j).det) :
    sensitivitySolve ls C loads ps (v p) (X (v p)) = X' := by
  refine C185_solution ls hls hdof (fun e he => ?_) hask (fun e he => ?_) hl hown hB hreg
  · obtain ⟨n, d, X, Q, D, dof, asked, u, r, rfl, -⟩ := hheat e he
    rfl
  · obtain ⟨n, d, X, Q, D, dof, asked, u, r, rfl, hj, hs, hv, hr⟩ := hheat e he
    exact heat_consistent Q D v p hj hs hv u r hr dof asked

/-! ### A bar with a prescribed temperature and a flux -/

/-- One bar element with one point of the domain and of its end. -/
noncomputable def exFull (side : List (Nat × LoadFn)) : Problem 2 1 Unit := ⟨exHeap, exBar, true, .bar, false, false, ⟨[Heat.exQp], fun _ => [Heat.exQp], 1, fun s => [s], 0, none⟩, side, []⟩

theorem ex_joint (h : Fn.Heap) (v : Nat → ℝ) (p : Nat) : JointDerivs h exData v p := by
  intro y hy x
  refine ⟨fun T => ?_, ex_derivs h v p y hy (x, none)⟩
  by_cases h9 : y = 9
  · simp only [exData, h9, if_true, Option.getD_some]
    by_cases hp : p = 0
    · subst hp
      simp only [Function.update_self, if_true]
      have h1 : HasFDerivAt (fun s : ℝ × ℝ => s.1 * (1 + s.2)) (v 0 • ContinuousLinearMap.snd ℝ ℝ ℝ + (1 + T) • ContinuousLinearMap.fst ℝ ℝ ℝ) (v 0, T) :=
        (hasFDerivAt_fst (𝕜 := ℝ) (p := ((v 0, T) : ℝ × ℝ))).fun_mul ((hasFDerivAt_snd (𝕜 := ℝ) (p := ((v 0, T) : ℝ × ℝ))).const_add (1 : ℝ))
      rw [add_comm] at h1
      exact h1
    · simp only [Function.update_of_ne (Ne.symm hp), if_neg hp, zero_smul, zero_add]
      exact ((hasFDerivAt_snd (p := ((v p, T) : ℝ × ℝ))).const_add 1).const_mul (v 0)
  · simp only [exData, h9, if_false, zero_smul, add_zero]
    by_cases hp : p = y - 9
    · subst hp
      simp only [Function.update_self, if_true, one_smul]
      exact hasFDerivAt_fst
    · simp only [Function.update_of_ne (Ne.symm hp), if_neg hp, zero_smul]
      exact hasFDerivAt_const _ _

theorem ex_flux (p : Nat) (u : Fin 2 → ℝ) (v : Nat → ℝ) : HeatCard.residual (exFull [(0, .flux 15)]) exData u p v =
    .ok fun a => (if a = 0 then -1 else 1) * (v 0 * (v 1 * v 2)) * (u 1 - u 0) + (if a = 0 then 1 / 4 else 3 / 4) * (v 6 * (v 1 * v 2)) := by
  rw [HeatCard.residual, exFull, bind_ok (ex_fns false)]
  simp [elemOf, Heat.elemRes, Heat.sideLoads, Heat.volLoads, loadsOf, List.range_succ, Heat.sideOk, loadOf]
  refine congrArg Except.ok (funext fun a => ?_)
  simp [Heat.internalRes, Heat.loadRes, Heat.exQp, Heat.sideTerm, Heat.thick, sectionOf, sizeVal, Section1D.area, field, exData, matOf, HeatCard.cond, scaled, Material.conductance, Heat.heatFlux, Heat.grad, Heat.temp, Fin.sum_univ_two]
  split <;> ring

theorem ex_jac (p : Nat) (u : Fin 2 → ℝ) (v : Nat → ℝ) : HeatCard.jacobian (exFull [(0, .flux 15)]) exData u p v =
    .ok fun a b => (if a = 0 then -1 else 1) * (if b = 0 then -1 else 1) * (v 0 * (v 1 * v 2)) := by
  rw [HeatCard.jacobian, exFull, bind_ok (ex_fns false)]
  refine congrArg Except.ok (funext fun a => funext fun b => ?_)
  simp [elemOf, Heat.elemJac, Heat.sideLoads, Heat.volLoads, loadsOf, List.range_succ, loadOf, Heat.internalJac, Heat.loadJac, Heat.exQp, Heat.sideJacTerm, Heat.thick, sectionOf, sizeVal, Section1D.area, field, exData, matOf, HeatCard.cond, scaled, Material.conductance, Heat.temp]

noncomputable def exV : Nat → ℝ := fun i => if i = 0 then 2 else if i = 6 then -8 else 1
/-- One process, one element. -/
noncomputable def exProc : List PProc := [⟨[heatElem (exFull [(0, .flux 15)]) exData exV 0 id true], 0, 2⟩]

theorem ex_sysRes (C : Nat → Bool) (t : ℝ) (X : Nat → ℝ) (i : Nat) (hi : i < 2) (hC : C i = false) : sysRes C [] exProc t X i = (if i = 0 then -1 else 1) * t * (X 1 - X 0) - (if i = 0 then 2 else 6) := by
  unfold sysRes
  rw [Asm.C22_residual _ _ _ _ _ (owned_map (PElem.atValue t) (ps := exProc) (by interval_cases i <;> simp [OwnedOnce, exProc])), all_map, hC]
  simp only [allElems, exProc, List.flatMap_cons, List.flatMap_nil, List.append_nil, List.map_cons, List.map_nil, List.sum_cons, List.sum_nil, Asm.elemRes, PElem.atValue, heatElem, ex_flux, id]
  interval_cases i <;> simp [extE, exV, Function.update] <;> ring

/-- Non-vacuity of C185_heat_partial (and of C185_solution, from which it follows): node 0 at temperature 0, heat flowing in at the other end; the temperature there is `6 / k`. -/
example : (∀ e ∈ allElems exProc, IsHeat exV 0 e) ∧ (∀ e ∈ allElems exProc, ∀ a < e.n, e.dof a < 2) ∧ (∀ i < 2, OwnedOnce exProc i) ∧
    Branch (N := 2) (fun i => i == 0) [] exProc (fun t i => if i = 0 then 0 else 6 / t) (fun i => if i = 0 then 0 else -(3 / 2)) (exV 0) ∧
    IsUnit (Matrix.of fun i j : Fin 2 => sysJac (fun i => i == 0) exProc (exV 0) (ext fun i : Fin 2 => if i = 0 then 0 else 6 / exV 0) i j).det := by
  refine ⟨?_, ?_, ?_, ⟨?_, ?_, ?_⟩, ?_⟩
  · intro e he
    simp only [allElems, exProc, List.flatMap_cons, List.flatMap_nil, List.append_nil, List.mem_singleton] at he
    refine ⟨2, 1, Unit, exFull [(0, .flux 15)], exData, id, true, fun _ => 0, _, he, ex_joint _ _ _, ?_, ?_, ex_flux 0 (fun _ => 0) exV⟩
    · intro l hl
      simp only [exFull, List.mem_singleton] at hl
      subst hl
      show isField exHeap 15 = true
      decide
    · intro l hl
      simp [exFull] at hl
  · intro e he a ha
    simp only [allElems, exProc, List.flatMap_cons, List.flatMap_nil, List.append_nil, List.mem_singleton] at he
    subst he
    exact ha
  · intro i hi
    interval_cases i <;> simp [OwnedOnce, exProc]
  · have : ∀ᶠ t in nhds (exV 0), t ≠ 0 := isOpen_ne.mem_nhds (by simp [exV])
    refine this.mono fun t ht i hi => ?_
    interval_cases i
    · unfold sysRes
      rw [Asm.C22_residual _ _ _ _ _ (owned_map (PElem.atValue t) (ps := exProc) (by simp [OwnedOnce, exProc]))]
      simp
    · rw [ex_sysRes _ _ _ _ (by norm_num) rfl]
      simp [ext]
      field_simp
      norm_num
  · refine Filter.Eventually.of_forall fun t i hi => ?_
    have : i = 0 := Fin.ext (by simpa using hi)
    simp [this]
  · intro i
    fin_cases i
    · simpa using hasDerivAt_const (exV 0) (0 : ℝ)
    · have := (hasDerivAt_inv (x := exV 0) (by simp [exV])).const_mul 6
      simp only [← div_eq_mul_inv] at this
      refine HasDerivAt.congr_deriv (by simpa using this) ?_
      simp [exV]; norm_num
  · rw [isUnit_iff_ne_zero, Matrix.det_fin_two]
    simp only [Matrix.of_apply, sysJac, Asm.C22_jacobian, all_map]
    simp [allElems, exProc, Asm.incidence, Asm.elemJac, PElem.atValue, heatElem, ex_jac, Finset.sum_range_succ, extE, exV, Function.update]

/-- The radiating bar. -/
theorem ex_rad (p : Nat) (u : Fin 2 → ℝ) (v : Nat → ℝ) : HeatCard.residual (exFull [(0, .radiation 15 7 3 8)]) exData u p v =
    .ok fun a => (if a = 0 then -1 else 1) * (v 0 * (v 1 * v 2)) * (u 1 - u 0) + (if a = 0 then 1 / 4 else 3 / 4) * (v 8 * v 6 * (v 1 * v 2) * ((1 / 4 * u 0 + 3 / 4 * u 1 + v 3) ^ 4 - (v 7 + v 3) ^ 4)) := by
  rw [HeatCard.residual, exFull, bind_ok (ex_fns false)]
  simp [elemOf, Heat.elemRes, Heat.sideLoads, Heat.volLoads, loadsOf, List.range_succ, Heat.sideOk, loadOf]
  refine congrArg Except.ok (funext fun a => ?_)
  simp [Heat.internalRes, Heat.loadRes, Heat.exQp, Heat.sideTerm, Heat.thick, Heat.interp, sectionOf, sizeVal, Section1D.area, field, exData, matOf, HeatCard.cond, scaled, Material.conductance, Heat.heatFlux, Heat.grad, Heat.temp, Fin.sum_univ_two]
  split <;> ring

theorem ex_radJac (p : Nat) (u : Fin 2 → ℝ) (v : Nat → ℝ) : HeatCard.jacobian (exFull [(0, .radiation 15 7 3 8)]) exData u p v =
    .ok fun a b => (if a = 0 then -1 else 1) * (if b = 0 then -1 else 1) * (v 0 * (v 1 * v 2)) + (if a = 0 then 1 / 4 else 3 / 4) * (if b = 0 then 1 / 4 else 3 / 4) * (v 8 * v 6 * (v 1 * v 2) * 4 * (1 / 4 * u 0 + 3 / 4 * u 1 + v 3) ^ 3) := by
  rw [HeatCard.jacobian, exFull, bind_ok (ex_fns false)]
  refine congrArg Except.ok (funext fun a => funext fun b => ?_)
  simp [elemOf, Heat.elemJac, Heat.sideLoads, Heat.volLoads, loadsOf, List.range_succ, loadOf, Heat.internalJac, Heat.loadJac, Heat.exQp, Heat.sideJacTerm, Heat.thick, Heat.interp, sectionOf, sizeVal, Section1D.area, field, exData, matOf, HeatCard.cond, scaled, Material.conductance, Heat.temp, Fin.sum_univ_two]

theorem ex_radSens (u : Fin 2 → ℝ) (v : Nat → ℝ) : HeatCard.sensitivity (exFull [(0, .radiation 15 7 3 8)]) exData u 7 v = .ok fun _ => 0 := by
  rw [HeatCard.sensitivity, exFull, bind_ok (ex_fns false)]
  refine congrArg Except.ok (funext fun a => ?_)
  simp [elemOf, Heat.elemSens, Heat.sideLoads, Heat.volLoads, loadsOf, List.range_succ, loadOf, Heat.internalSens, Heat.loadSens, Heat.exQp, Heat.sideSensTerm, Heat.dthick, Heat.thick, Heat.interp, sectionOf, sizeVal, sizeDer, Section1D.area, Section1D.dArea, field, exData, matOf, HeatCard.dCond, dScaled,
    Material.conductance, Heat.temp, Heat.heatFlux, Heat.grad, Fin.sum_univ_two]

noncomputable def exVR : Nat → ℝ := fun i => if i = 3 then 0 else 1
noncomputable def exRad : List PProc := [⟨[heatElem (exFull [(0, .radiation 15 7 3 8)]) exData exVR 7 id true], 0, 2⟩]

/-- C185 (what the code does not do): a bar that radiates to its surroundings takes their temperature; the derivative of its temperatures with respect to that parameter is one, and `sensitivity_solve` returns zero. -/
theorem C185_radiation_fails (ls : Sens.LinSolver 2) (hls : ls.Correct) : Branch (N := 2) (fun _ => false) [] exRad (fun t _ => t) (fun _ => 1) (exVR 7) ∧
    IsUnit (Matrix.of fun i j : Fin 2 => sysJac (fun _ => false) exRad (exVR 7) (ext fun _ : Fin 2 => exVR 7) i j).det ∧ sensitivitySolve ls (fun _ => false) [] exRad (exVR 7) (fun _ => exVR 7) = fun _ => 0 := by
  have hreg : IsUnit (Matrix.of fun i j : Fin 2 => sysJac (fun _ => false) exRad (exVR 7) (ext fun _ : Fin 2 => exVR 7) i j).det := by
    rw [isUnit_iff_ne_zero, Matrix.det_fin_two]
    simp only [Matrix.of_apply, sysJac, Asm.C22_jacobian, all_map]
    simp [allElems, exRad, Asm.elemJac, PElem.atValue, heatElem, ex_radJac, Finset.sum_range_succ, extE, ext, exVR, Function.update]
    norm_num
  refine ⟨⟨Filter.Eventually.of_forall fun t i hi => ?_, Filter.Eventually.of_forall fun t i hi => (Bool.false_ne_true hi).elim, fun i => hasDerivAt_id _⟩, hreg, ?_⟩
  · unfold sysRes
    rw [Asm.C22_residual _ _ _ _ _ (owned_map (PElem.atValue t) (ps := exRad) (by interval_cases i <;> simp [OwnedOnce, exRad])), all_map]
    simp only [allElems, exRad, List.flatMap_cons, List.flatMap_nil, List.append_nil, List.map_cons, List.map_nil, List.sum_cons, List.sum_nil, Asm.elemRes, PElem.atValue, heatElem, ex_rad, id]
    interval_cases i <;> simp [extE, ext, exVR, Function.update] <;> ring
  · have h0 : (fun i : Fin 2 => sysSens (fun _ => false) [] exRad (exVR 7) (ext fun _ : Fin 2 => exVR 7) i) = 0 := by
      funext i
      rw [sens_apply (i := (i : Nat)) (by fin_cases i <;> simp [OwnedOnce, exRad]) (by simp [allElems, exRad, heatElem]) (by simp [allElems, exRad, heatElem])]
      simp [allElems, exRad, heatElem, ex_radSens, extE]
    have h1 := hls (Matrix.of fun i j : Fin 2 => sysJac (fun _ => false) exRad (exVR 7) (ext fun _ : Fin 2 => exVR 7) i j) 0 hreg
    have hinj := (Matrix.mulVec_injective_iff_isUnit (A := Matrix.of fun i j : Fin 2 => sysJac (fun _ => false) exRad (exVR 7) (ext fun _ : Fin 2 => exVR 7) i j)).2 ((Matrix.isUnit_iff_isUnit_det _).2 hreg)
    have hz := hinj (h1.trans (Matrix.mulVec_zero _).symm)
    have hz' : sensitivitySolve ls (fun _ => false) [] exRad (exVR 7) (fun _ => exVR 7) = fun i => ls.solve (Matrix.of fun i j : Fin 2 => sysJac (fun _ => false) exRad (exVR 7) (ext fun _ : Fin 2 => exVR 7) i j)
        ((-1 : ℝ) • fun i : Fin 2 => sysSens (fun _ => false) [] exRad (exVR 7) (ext fun _ : Fin 2 => exVR 7) i) i := rfl
    rw [hz', h0, smul_zero, hz]
    rfl

end

end Verif.Steady
