import Verif.Model.SteadySolid
import Verif.Props.Solid
import Verif.Props.SteadyLoads
import Mathlib.Tactic.LinearCombination
/-! C195: solid elements in a steady analysis. -/
namespace Verif.Steady
open Verif Verif.SecDep Verif.GeomElem Verif.StructLoads Verif.Material Finset

variable {n : Nat} {X : Type}

/-! ## Specification -/

/-- Solids whose sensitivity is the derivative: functions report their derivatives, the card has what it needs, Poisson's ratio is admissible, and there is no temperature load. -/
structure SolidOk (E : SolidData n X) (v : Nat → ℝ) (p : Nat) : Prop where
  derivs : Derivs E.hp E.F v p
  found : ∃ P, solidFns E.hp E.card = .ok P
  nu : ∀ x, E.card.material.get (isField E.hp) "nu" = .ok x → ∀ q ∈ E.qs, 1 + E.F.val v x q.x ≠ 0 ∧ 1 - 2 * E.F.val v x q.x ≠ 0 ∧ 1 - E.F.val v x q.x ≠ 0
  cold : E.heat = none

/-- The motion does not change the rotations at the nodes of the element. -/
def RotFree (n : Nat) (U' : Nat → ℝ) : Prop := ∀ d : Dof n, d.1 = true → U' d.row = 0

/-! ## Solids -/

theorem solidFns_spec {hp : Fn.Heap} {c : Card} {P : SolidFns} (h : solidFns hp c = .ok P) : Found hp c P.E ∧ Found hp c P.nu ∧ c.material.get (isField hp) "nu" = .ok P.nu := by
  unfold solidFns at h
  cases hE : c.material.get (isField hp) "E" with
  | error e => rw [hE] at h; cases h
  | ok E =>
  cases hnu : c.material.get (isField hp) "nu" with
  | error e => rw [hE, hnu] at h; cases h
  | ok nu =>
    rw [hE, hnu] at h
    obtain rfl : (⟨E, nu⟩ : SolidFns) = P := Except.ok.inj h
    exact ⟨found_mat hE, found_mat hnu, rfl⟩

theorem solid_deriv {E : SolidData n X} {v : Nat → ℝ} {p : Nat} (h : SolidOk E v p) {P : SolidFns} (hP : solidFns E.hp E.card = .ok P) :
    ∀ q ∈ E.qs, ∀ r s, HasDerivAt (fun t => solidMatAt E.F P (Function.update v p t) q.x r s) (dSolidMatAt E.F P v p q.x r s) (v p) := by
  obtain ⟨f1, f2, g⟩ := solidFns_spec hP
  intro q hq
  have d1 := h.derivs _ f1.1 q.x
  have d2 := h.derivs _ f2.1 q.x
  obtain ⟨n1, n2, n3⟩ := h.nu _ g q hq
  have hm := (C57_derivative_partial d1 d2 (by rw [upd_self]; exact n1) (by rw [upd_self]; exact n2) (by rw [upd_self]; exact n3)).2.2.2
  simp only [upd_self] at hm
  exact fun r s => hm r s

section Diff
variable {E : Type} [NormedAddCommGroup E] [NormedSpace ℝ E] {z : E}

theorem vgradF_diff (q : Solid.Vqp n X) {u : E → Dof n → ℝ} (hu : ∀ b, DifferentiableAt ℝ (fun z => u z b) z) (i j : Fin 3) : DifferentiableAt ℝ (fun z => Solid.gradF q (u z) i j) z := app_diff _ hu _

theorem vmat_diff (q : Solid.Vqp n X) {u : E → Dof n → ℝ} (hu : ∀ b, DifferentiableAt ℝ (fun z => u z b) z) (k : Fin 3) (r : Fin 6) (c : Fin 3) : DifferentiableAt ℝ (fun z => Solid.mat q (u z) k r c) z := by
  have h : ∀ k i, DifferentiableAt ℝ (fun z => Solid.ddisp q (u z) k i) z := fun k i => app_diff _ hu _
  unfold Solid.mat
  fin_cases k <;> fin_cases r <;> fin_cases c <;> simp <;> first | exact h _ _ | exact differentiableAt_const _

theorem vstrain_diff (nl : Bool) (q : Solid.Vqp n X) {u : E → Dof n → ℝ} (hu : ∀ b, DifferentiableAt ℝ (fun z => u z b) z) (r : Fin 6) : DifferentiableAt ℝ (fun z => Solid.strain nl q (u z) r) z := by
  have hF := fun i j => vgradF_diff q hu i j
  have hE : ∀ i j, DifferentiableAt ℝ (fun z => Solid.gradE q (u z) i j) z := fun i j => by
    unfold Solid.gradE
    exact (((hF i j).add (hF j i)).add (DifferentiableAt.fun_sum fun k _ => (hF k i).mul (hF k j))).const_mul _
  have hL : ∀ r, DifferentiableAt ℝ (fun z => Shell.app (Solid.Blin q) (u z) r) z := fun r => app_diff _ hu r
  unfold Solid.strain
  cases nl
  · simp only [Bool.false_eq_true, if_false]
    exact hL r
  · simp only [if_true]
    fin_cases r <;> simp <;> first | exact hE _ _ | exact (hE _ _).add (hE _ _)

theorem solid_diff (nl : Bool) (qs : List (Solid.Vqp n X)) (C : E → Solid.Vqp n X → Fin 6 → Fin 6 → ℝ) (hC : ∀ q ∈ qs, ∀ r s, DifferentiableAt ℝ (fun z => C z q r s) z) {u : E → Dof n → ℝ}
    (hu : ∀ b, DifferentiableAt ℝ (fun z => u z b) z) (a : Dof n) : DifferentiableAt ℝ (fun z => Solid.internalRes nl (qs.map fun q => (q, C z q)) (u z) a) z := by
  unfold Solid.internalRes
  simp only [List.map_map, Function.comp_def]
  refine list_diff qs (fun q z => Solid.opRes nl (C z q) q (u z) a) z fun q hq => ?_
  have hs : ∀ r, DifferentiableAt ℝ (fun z => Solid.stress nl (C z q) q (u z) r) z := fun r => mv_diff (fun r j => hC q hq r j) (fun j => vstrain_diff nl q hu j) r
  unfold Solid.opRes Solid.strainT
  refine ((appT_diff _ hs a).const_mul _).add ?_
  cases nl
  · simp only [Bool.false_eq_true, if_false]
    exact differentiableAt_const _
  · simp only [if_true]
    exact DifferentiableAt.fun_sum fun k _ => (appT_diff _ (fun j => mvT_diff (fun r c => vmat_diff q hu k r c) hs j) a).const_mul _
end Diff

theorem sens_partial {E : SolidData n X} {v : Nat → ℝ} {p : Nat} (h : SolidOk E v p) {P : SolidFns} (hP : solidFns E.hp E.card = .ok P) (u : Dof n → ℝ) (a : Dof n) :
    HasDerivAt (fun t => Solid.internalRes E.nl (solidElem E.F P (Function.update v p t) E.qs) u a) (Solid.internalSens E.nl (solidElem E.F P v E.qs) (fun q => dSolidMatAt E.F P v p q.x) u a) (v p) := by
  unfold Solid.internalRes Solid.internalSens solidElem
  simp only [List.map_map, Function.comp_def]
  refine hasDerivAt_list E.qs (fun t q => Solid.opRes E.nl (solidMatAt E.F P (Function.update v p t) q.x) q u a) _ (v p) fun q hq => ?_
  have hd := solid_deriv h hP q hq
  have hs : ∀ r, HasDerivAt (fun t => Solid.stress E.nl (solidMatAt E.F P (Function.update v p t) q.x) q u r) (Solid.stress E.nl (dSolidMatAt E.F P v p q.x) q u r) (v p) := fun r => by
    unfold Solid.stress Shell.mv
    exact HasDerivAt.fun_sum fun j _ => (hd r j).mul_const _
  have hT : ∀ {m : Nat} (B : Fin m → Dof n → ℝ) (s : ℝ → Fin m → ℝ) (s' : Fin m → ℝ), (∀ r, HasDerivAt (fun t => s t r) (s' r) (v p)) → HasDerivAt (fun t => Shell.appT B (s t) a) (Shell.appT B s' a) (v p) := fun B s s' h => by
    unfold Shell.appT
    exact HasDerivAt.fun_sum fun r _ => (h r).const_mul _
  unfold Solid.opRes Solid.strainT
  refine ((hT _ _ _ hs).const_mul _).add ?_
  generalize E.nl = b at hs ⊢
  cases b
  · simp only [Bool.false_eq_true, if_false]
    exact hasDerivAt_const _ _
  · simp only [if_true]
    refine HasDerivAt.fun_sum fun k _ => (hT _ _ _ fun j => ?_).const_mul _
    unfold Shell.mvT
    exact HasDerivAt.fun_sum fun r _ => (hs r).const_mul _

theorem rot_sum (J : Dof n → Dof n → ℝ) (w : Dof n → ℝ) (a : Dof n) : ∑ b, Solid.regularize J a b * w b = ∑ b, J a b * w b + if a.1 = true then 1 / 10 ^ 20 * Solid.diagMax J * w a else 0 := by
  have h : ∀ b, Solid.regularize J a b * w b = J a b * w b + if a = b then (if a.1 = true then 1 / 10 ^ 20 * Solid.diagMax J * w a else 0) else 0 := by
    intro b
    unfold Solid.regularize
    by_cases hab : a = b
    · subst hab
      by_cases ha : a.1 = true
      · simp [ha]; ring
      · simp [ha]
    · simp [hab]
  simp only [h, Finset.sum_add_distrib, Finset.sum_ite_eq, Finset.mem_univ, if_true]

/-- The solid without other loads. -/
noncomputable def bareSolid (E : SolidData n X) (v : Nat → ℝ) (p : Nat) (dof : Nat → Nat) (asked : Bool) : PElem :=
  ⟨6 * n, dof, false, asked, fun t u => vecOf (solidForce E v p t fun d => u d.row), fun t u => matVal (solidJac E v p t fun d => u d.row), fun t u => vecOf (solidSens E v p t fun d => u d.row)⟩

theorem solid_ok {E : SolidData n X} {v : Nat → ℝ} {p : Nat} (h : SolidOk E v p) {P : SolidFns} (hP : solidFns E.hp E.card = .ok P) :
    (∀ t u, solidForce E v p t u = .ok (Solid.internalRes E.nl (solidElem E.F P (Function.update v p t) E.qs) u)) ∧
    (∀ t u, solidJac E v p t u = .ok (Solid.internalJac E.nl (solidElem E.F P (Function.update v p t) E.qs) u fun _ _ => 0)) ∧
    ∀ t u, solidSens E v p t u = .ok (Solid.internalSens E.nl (solidElem E.F P (Function.update v p t) E.qs) (fun q => dSolidMatAt E.F P (Function.update v p t) p q.x) u) := by
  refine ⟨fun t u => ?_, fun t u => ?_, fun t u => ?_⟩
  · unfold solidForce
    rw [bind_ok hP]
    simp only [SolidData.heatRes, h.cold, add_zero]
    rfl
  · unfold solidJac
    rw [bind_ok hP]
    simp only [SolidData.heatJac, h.cold, add_zero]
    rfl
  · unfold solidSens
    rw [bind_ok hP]
    simp only [h.cold]
    rfl

/-- C195: the rate of the force of a solid, and what Jacobian and sensitivity say about it: they differ by `1e-20` times the largest diagonal entry times the rate of the rotations; the Jacobian carries this stiffness and
the residual does not. -/
theorem C195_solid_rate {E : SolidData n X} {v : Nat → ℝ} {p : Nat} (h : SolidOk E v p) {P : SolidFns} (hP : solidFns E.hp E.card = .ok P) (dof : Nat → Nat) (asked : Bool) (U : ℝ → Nat → ℝ) (U' : Nat → ℝ)
    (hU : ∀ a < 6 * n, HasDerivAt (fun t => U t a) (U' a) (v p)) (a : Dof n) :
    HasDerivAt (fun t => (bareSolid E v p dof asked).res t (U t) a.row)
      ((bareSolid E v p dof asked).sens (v p) (U (v p)) a.row + ∑ b ∈ range (6 * n), (bareSolid E v p dof asked).jac (v p) (U (v p)) a.row b * U' b
        - if a.1 = true then 1 / 10 ^ 20 * Solid.diagMax (Solid.materialJac E.nl (solidElem E.F P v E.qs) fun d => U (v p) d.row) * U' a.row else 0) (v p) := by
  obtain ⟨h1, h2, h3⟩ := solid_ok h hP
  have hres : ∀ t u, (bareSolid E v p dof asked).res t u = flat (Solid.internalRes E.nl (solidElem E.F P (Function.update v p t) E.qs) fun d => u d.row) := fun t u => by
    show vecOf _ = _
    rw [h1]; rfl
  have hg := rate_gen (e := bareSolid E v p dof asked) (n := n) rfl (R := fun u t => Solid.internalRes E.nl (solidElem E.F P (Function.update v p t) E.qs) u) hres (t₀ := v p) (U := U) (U' := U')
    (s := Solid.internalSens E.nl (solidElem E.F P v E.qs) (fun q => dSolidMatAt E.F P v p q.x) fun d => U (v p) d.row) ?_ (fun a => sens_partial h hP _ a)
    (D := fun a => ∑ b, Solid.materialJac E.nl (solidElem E.F P v E.qs) (fun d => U (v p) d.row) a b * U' b.row) ?_ hU a
  · refine hg.congr_deriv ?_
    have e1 : (bareSolid E v p dof asked).sens (v p) (U (v p)) a.row = Solid.internalSens E.nl (solidElem E.F P v E.qs) (fun q => dSolidMatAt E.F P v p q.x) (fun d => U (v p) d.row) a := by
      show vecOf _ _ = _
      rw [h3, upd_self]
      exact flat_row _ _
    have e2 : ∑ b ∈ range (6 * n), (bareSolid E v p dof asked).jac (v p) (U (v p)) a.row b * U' b = ∑ b, Solid.regularize (Solid.materialJac E.nl (solidElem E.F P v E.qs) fun d => U (v p) d.row) a b * U' b.row := by
      rw [sum_rows (n := n)]
      refine Finset.sum_congr rfl fun b _ => ?_
      congr 1
      show matVal _ _ _ = _
      rw [h2, upd_self]
      refine (flat2_row _ _ _).trans ?_
      unfold Solid.internalJac
      simp only [zero_add]
    rw [e1, e2, rot_sum _ (fun b => U' b.row)]
    ring
  · intro a
    refine solid_diff E.nl E.qs (fun (z : (Dof n → ℝ) × ℝ) q => solidMatAt E.F P (Function.update v p z.2) q.x) (z := (fun d => U (v p) d.row, v p)) (fun q hq r s => ?_) (u := fun z => z.1) (fun b => by fun_prop) a
    exact DifferentiableAt.comp (g := fun t => solidMatAt E.F P (Function.update v p t) q.x r s) (f := fun z : (Dof n → ℝ) × ℝ => z.2) (fun d => U (v p) d.row, v p) (solid_deriv h hP q hq r s).differentiableAt differentiableAt_snd
  · intro a
    simp only [upd_self]
    exact Solid.C121_jacobian E.nl (solidElem E.F P v E.qs) (fun d => U (v p) d.row) (fun b => U' b.row) a

/-- C195, partial: a solid with its loads, along motions that do not change the rotations at its nodes, where its tangent is right. -/
theorem C195_solid_partial (E : SolidData n X) (A : Attached n) (v : Nat → ℝ) (p : Nat) (dof : Nat → Nat) (asked : Bool) (h : SolidOk E v p) (hA : Accepted A) (hl : LoadsOk A (v p)) (U : ℝ → Nat → ℝ) (U' : Nat → ℝ)
    (hU : ∀ a < 6 * n, HasDerivAt (fun t => U t a) (U' a) (v p)) (hrot : RotFree n U') : RateAlong (loadedSolid E A v p dof asked) (v p) U U' := by
  obtain ⟨P, hP⟩ := h.found
  obtain ⟨h1, h2, h3⟩ := solid_ok h hP
  refine C188_loaded _ _ _ A dof asked (fun t u => ⟨_, h1 t u⟩) hA hl U U' ⟨_, h2 _ _⟩ ⟨_, h3 _ _⟩ hU ?_
  intro a ha
  obtain ⟨d, rfl⟩ := C111_rows.2.2 a ha
  refine (C195_solid_rate h hP dof asked U U' hU d).congr_deriv ?_
  by_cases hd : d.1 = true
  · rw [if_pos hd, hrot d hd, mul_zero, sub_zero]; rfl
  · rw [if_neg hd, sub_zero]; rfl

/-- C195 fails where rotations change: a solid that shares nodes with elements whose rotations change (or whose rotations are prescribed to change) adds a stiffness to the Jacobian that is not in the residual. -/
theorem C195_rotation_fails {E : SolidData n X} {v : Nat → ℝ} {p : Nat} (h : SolidOk E v p) {P : SolidFns} (hP : solidFns E.hp E.card = .ok P) (dof : Nat → Nat) (asked : Bool) (U : ℝ → Nat → ℝ) (U' : Nat → ℝ)
    (hU : ∀ a < 6 * n, HasDerivAt (fun t => U t a) (U' a) (v p)) (d : Dof n) (hd : d.1 = true) (hr : U' d.row ≠ 0) (b : Dof n) (hb : 0 < Solid.materialJac E.nl (solidElem E.F P v E.qs) (fun d => U (v p) d.row) b b) :
    ¬ RateAlong (bareSolid E v p dof asked) (v p) U U' := by
  intro hR
  have h1 := (hR d.row (C111_rows.2.1 d)).unique (C195_solid_rate h hP dof asked U U' hU d)
  have hpos : 0 < Solid.diagMax (Solid.materialJac E.nl (solidElem E.F P v E.qs) fun d => U (v p) d.row) := by
    unfold Solid.diagMax
    have hm : Solid.materialJac E.nl (solidElem E.F P v E.qs) (fun d => U (v p) d.row) b b ∈ Finset.univ.image fun a => Solid.materialJac E.nl (solidElem E.F P v E.qs) (fun d => U (v p) d.row) a a := Finset.mem_image.2 ⟨b, Finset.mem_univ _, rfl⟩
    obtain ⟨m, hm'⟩ := Finset.max_of_mem hm
    rw [hm']
    exact lt_of_lt_of_le hb (Finset.le_max_of_eq hm hm')
  rw [if_pos hd] at h1
  have h2 : 1 / 10 ^ 20 * Solid.diagMax (Solid.materialJac E.nl (solidElem E.F P v E.qs) fun d => U (v p) d.row) * U' d.row ≠ 0 := mul_ne_zero (mul_ne_zero (by norm_num) hpos.ne') hr
  apply h2
  have e : (bareSolid E v p dof asked).n = 6 * n := rfl
  rw [e] at h1
  linarith

/-- C195 fails for heated solids: the sensitivity with respect to any parameter, one the solid does not depend on included, ends the program. -/
theorem C195_heated_fails (E : SolidData n X) (hh : E.heat.isSome = true) (v : Nat → ℝ) (p : Nat) (t : ℝ) (u : Dof n → ℝ) : ∀ s, solidSens E v p t u ≠ .ok s := by
  intro s hs
  unfold solidSens at hs
  cases hP : solidFns E.hp E.card with
  | error e => rw [hP] at hs; cases hs
  | ok P =>
    rw [bind_ok hP, if_pos hh] at hs
    cases hs

/-- C195: the pressure on a side of a solid is a dead load with the right sensitivity. -/
theorem C195_pressure (p : Fam X ℝ) (pts : List (Qp n X)) (t₀ : ℝ) (hp : ∀ q ∈ pts, HasDerivAt (fun t => p.val t q.x) (p.der t₀ q.x) t₀) : OpConsistent (solidPressureOp p pts) t₀ := by
  intro U U' _ a
  have h := (C114_sensitivity none 0 p.val (fun _ _ => 0) (fun _ _ _ => 0) (p.der t₀) (fun _ => 0) (fun _ _ => 0) t₀ pts hp (fun _ _ => hasDerivAt_const _ _) (fun _ _ _ => hasDerivAt_const _ _) a).2.2.1
  simp only [solidPressureOp, zero_mul, Finset.sum_const_zero, add_zero]
  exact h

/-! ## The structure -/

/-- A solid of the structure, for the solution and the rate `w` of the analysis. -/
inductive IsSolid (v : Nat → ℝ) (p : Nat) (w : Nat → ℝ) : PElem → Prop
  | solid {n : Nat} {X : Type} (E : SolidData n X) (A : Attached n) (dof : Nat → Nat) (asked : Bool) (h : SolidOk E v p) (hA : Accepted A) (hl : LoadsOk A (v p)) (hrot : RotFree n fun a => w (dof a)) :
    IsSolid v p w (loadedSolid E A v p dof asked)

/-- C195: in a steady analysis of solids, shells and beams with their loads, `sensitivity_solve` gives the derivative of the solution, if rotations at nodes of solids do not change.  Partial: that condition (C195_rotation_fails)
and no heated solids (C195_heated_fails); for shells and beams the exclusions of C188. -/
theorem C195_structure_partial {N : Nat} (ls : Sens.LinSolver N) (hls : ls.Correct) {C : Nat → Bool} {loads : List PLoad} {ps : List PProc} {v : Nat → ℝ} {p : Nat} {X : ℝ → Fin N → ℝ} {X' : Fin N → ℝ}
    (hm : ∀ e ∈ allElems ps, IsLoaded v p (ext (X (v p))) (ext X') e ∨ IsSolid v p (ext X') e) (hdof : ∀ e ∈ allElems ps, ∀ a < e.n, e.dof a < N)
    (hask : ∀ e ∈ allElems ps, e.asked = true ∨ ∀ a < e.n, e.sens (v p) (fun b => ext (X (v p)) (e.dof b)) a = 0) (hl : ∀ l ∈ loads, ∀ a < l.n, HasDerivAt (fun t => l.load t a) (l.dload (v p) a) (v p))
    (hown : ∀ i < N, OwnedOnce ps i) (hB : Branch C loads ps X X' (v p)) (hreg : IsUnit (Matrix.of fun i j : Fin N => sysJac C ps (v p) (ext (X (v p))) i j).det) :
    sensitivitySolve ls C loads ps (v p) (X (v p)) = X' := by
  refine C185_along ls hls hdof (fun e he => ?_) hask (fun e he => ?_) hl hown hB hreg
  · rcases hm e he with h | h <;> cases h <;> rfl
  · have hU := motion (hdof e he) hB.rate
    rcases hm e he with h | h
    · cases h with
      | beam E A dof asked h hA hl => exact C188_beam E A v p dof asked h hA hl _ _ hU
      | shell E A dof asked h hA hl ht hd => exact C188_shell_partial E A v p dof asked h hA hl _ _ hU ht hd
    · cases h with
      | solid E A dof asked h hA hl hrot => exact C195_solid_partial E A v p dof asked h hA hl _ _ hU hrot

/-! ### A solid pulled by a force, its rotations free -/

noncomputable def exVq : Solid.Vqp 1 Unit := ⟨(), 1, fun k _ => if k = 0 then 1 else 0⟩
noncomputable def exSolid : SolidData 1 Unit := ⟨heap, consts, barCard, false, [exVq], none⟩
def exFree : Attached 1 := ⟨0, fun _ => [], 0, [], []⟩
noncomputable def exBlock : List PProc := [⟨[loadedSolid exSolid exFree barVals 0 id true], 0, 6⟩]
noncomputable def exForce : List PLoad := [⟨1, id, fun _ _ => 2, fun _ _ => 0⟩]
/-- Only the other two displacements are held. -/
def exHeld : Nat → Bool := fun i => i == 1 || i == 2

theorem exSolid_ok : SolidOk exSolid barVals 0 := by
  refine ⟨derivs _ _ _, ⟨⟨5, 6⟩, rfl⟩, ?_, rfl⟩
  intro x hx q _
  have h' : (Except.ok 6 : Exec Nat) = .ok x := hx
  rw [← Except.ok.inj h']
  norm_num [exSolid, consts, par, barVals]

theorem exSolid_mat (t : ℝ) (u : Dof 1 → ℝ) (a b : Dof 1) :
    Solid.materialJac false (solidElem consts ⟨5, 6⟩ (Function.update barVals 0 t) [exVq]) u a b = if a = b ∧ a.1 = false then (if a.2.1 = 0 then t else t / 2) else 0 := by
  obtain ⟨a1, a2, a3⟩ := a
  obtain ⟨b1, b2, b3⟩ := b
  obtain rfl : a3 = 0 := Subsingleton.elim _ _
  obtain rfl : b3 = 0 := Subsingleton.elim _ _
  have hC : solidMatAt consts ⟨5, 6⟩ (Function.update barVals 0 t) () = iso3D t 0 := by simp [solidMatAt, consts, par, barVals, Function.update]; rfl
  simp only [Solid.materialJac, solidElem, List.map_cons, List.map_nil, List.sum_cons, List.sum_nil, add_zero, Solid.opJac, Bool.false_eq_true, if_false]
  rw [show exVq.x = () from rfl, hC]
  simp only [exVq, one_mul, Shell.sandwich, Fin.sum_univ_six]
  cases a1 <;> cases b1 <;> fin_cases a2 <;> fin_cases b2 <;> simp [Solid.Blin, Shell.shape, iso3D, fill3D]

theorem exSolid_res (t : ℝ) (u : Dof 1 → ℝ) (a : Dof 1) :
    Solid.internalRes false (solidElem consts ⟨5, 6⟩ (Function.update barVals 0 t) [exVq]) u a = if a.1 = false then (if a.2.1 = 0 then t else t / 2) * u a else 0 := by
  obtain ⟨a1, a2, a3⟩ := a
  obtain rfl : a3 = 0 := Subsingleton.elim _ _
  have hC : solidMatAt consts ⟨5, 6⟩ (Function.update barVals 0 t) () = iso3D t 0 := by simp [solidMatAt, consts, par, barVals, Function.update]; rfl
  simp only [Solid.internalRes, solidElem, List.map_cons, List.map_nil, List.sum_cons, List.sum_nil, add_zero, Solid.opRes, Solid.strainT, Solid.stress, Solid.strain, Bool.false_eq_true, if_false]
  rw [show exVq.x = () from rfl, hC]
  simp only [exVq, one_mul, Shell.appT, Shell.mv, Shell.app, Fin.sum_univ_six, Fintype.sum_prod_type, Fintype.sum_bool, Fin.sum_univ_three]
  cases a1 <;> fin_cases a2 <;> simp [Solid.Blin, Shell.shape, iso3D, fill3D]

theorem exBlock_res (t : ℝ) (u : Nat → ℝ) (d : Dof 1) : (loadedSolid exSolid exFree barVals 0 id true).res t u d.row = if d.1 = false then (if d.2.1 = 0 then t else t / 2) * u d.row else 0 := by
  have h1 := (solid_ok exSolid_ok (P := ⟨5, 6⟩) rfl).1 t fun d => u d.row
  have e : (loadedSolid exSolid exFree barVals 0 id true).res t u = flat (Solid.internalRes false (solidElem consts ⟨5, 6⟩ (Function.update barVals 0 t) [exVq]) fun d => u d.row) := by
    unfold loadedSolid loadedElem
    dsimp only
    rw [h1]; rfl
  rw [e, flat_row, exSolid_res]

theorem exBlock_jac (t : ℝ) (u : Nat → ℝ) (a b : Dof 1) : (loadedSolid exSolid exFree barVals 0 id true).jac t u a.row b.row =
    Solid.regularize (fun a b : Dof 1 => if a = b ∧ a.1 = false then (if a.2.1 = 0 then t else t / 2) else 0) a b := by
  have h1 := (solid_ok exSolid_ok (P := ⟨5, 6⟩) rfl).2.1 t fun d => u d.row
  have e : (loadedSolid exSolid exFree barVals 0 id true).jac t u = flat2 (Solid.internalJac false (solidElem consts ⟨5, 6⟩ (Function.update barVals 0 t) [exVq]) (fun d => u d.row) fun _ _ => 0) := by
    unfold loadedSolid loadedElem
    dsimp only
    rw [h1]; rfl
  rw [e, flat2_row]
  unfold Solid.internalJac
  simp only [exSolid_mat, zero_add]

theorem exMax : 0 < Solid.diagMax (n := 1) fun a b => if a = b ∧ a.1 = false then (if a.2.1 = 0 then (1 : ℝ) else 1 / 2) else 0 := by
  unfold Solid.diagMax
  have hm : (1 : ℝ) ∈ Finset.univ.image fun a : Dof 1 => if a = a ∧ a.1 = false then (if a.2.1 = 0 then (1 : ℝ) else 1 / 2) else 0 := Finset.mem_image.2 ⟨(false, 0, 0), Finset.mem_univ _, by simp⟩
  obtain ⟨m, hm'⟩ := Finset.max_of_mem hm
  rw [hm']
  exact lt_of_lt_of_le one_pos (Finset.le_max_of_eq hm hm')

theorem exBlock_owned (i : Nat) (hi : i < 6) : OwnedOnce exBlock i := by
  interval_cases i <;> simp [OwnedOnce, exBlock]

/-- Non-vacuity of C195_structure_partial: the solid of modulus `t` under a force 2 moves by `2 / t`; the sensitivity at 1 is -2, and 0 for the rotations, which nothing holds. -/
example (ls : Sens.LinSolver 6) (hls : ls.Correct) : sensitivitySolve ls exHeld exForce exBlock (barVals 0) (exX (barVals 0)) = fun i => if i = 0 then -2 else 0 := by
  have hall : allElems exBlock = [loadedSolid exSolid exFree barVals 0 id true] := rfl
  have hb0 : barVals 0 = 1 := by simp [barVals]
  have hone : ∀ {Q : PElem → Prop}, Q (loadedSolid exSolid exFree barVals 0 id true) → ∀ e ∈ allElems exBlock, Q e := fun h e he => by
    rw [hall, List.mem_singleton] at he
    exact he ▸ h
  refine C195_structure_partial ls hls (hone (Or.inr (.solid _ _ _ _ exSolid_ok ?_ ?_ ?_))) (hone fun a ha => ha) (hone (Or.inl rfl)) ?_ exBlock_owned ⟨?_, ?_, ?_⟩ ?_
  · exact ⟨fun e he => (by cases he), fun l hl => by cases hl⟩
  · exact ⟨fun e he => (by cases he), fun l hl => by cases hl⟩
  · rintro ⟨d1, d2, d3⟩ rfl
    obtain rfl : d3 = 0 := Subsingleton.elim _ _
    fin_cases d2 <;> rfl
  · intro l hl a _
    rw [List.mem_singleton.1 hl]
    exact hasDerivAt_const _ _
  · have : ∀ᶠ t in nhds (barVals 0), t ≠ 0 := isOpen_ne.mem_nhds (by rw [hb0]; norm_num)
    refine this.mono fun t ht i hi => ?_
    unfold sysRes
    rw [Asm.C22_residual _ _ _ _ _ (owned_map (PElem.atValue t) (exBlock_owned i hi)), all_map, hall]
    obtain ⟨d, rfl⟩ := (C111_rows (n := 1)).2.2 i hi
    have e1 : Asm.elemRes (ext (exX t)) ((loadedSolid exSolid exFree barVals 0 id true).atValue t) d.row = (loadedSolid exSolid exFree barVals 0 id true).res t (ext (exX t)) d.row := by
      have : d.row < 6 := hi
      simp [Asm.elemRes, PElem.atValue, loadedSolid, loadedElem, this]
    simp only [List.map_cons, List.map_nil, List.sum_cons, List.sum_nil, e1, exBlock_res]
    obtain ⟨d1, d2, d3⟩ := d
    obtain rfl : d3 = 0 := Subsingleton.elim _ _
    cases d1 <;> fin_cases d2 <;> simp [exHeld, exForce, Asm.nodeForce, Dof.row, (exX_ext t).2.2]
    field_simp
    norm_num
  · refine Filter.Eventually.of_forall fun t i hi => ?_
    have : i ≠ 0 := fun h => by simp [h, exHeld] at hi
    simp [exX, this]
  · intro i
    by_cases h0 : i = 0
    · simp only [exX, h0, if_true]
      have := (hasDerivAt_inv (x := barVals 0) (by rw [hb0]; norm_num)).const_mul 2
      simp only [← div_eq_mul_inv] at this
      exact this.congr_deriv (by rw [hb0]; norm_num)
    · simp only [exX, h0, if_false]
      exact hasDerivAt_const _ _
  · have hdiag : (Matrix.of fun i j : Fin 6 => sysJac exHeld exBlock (barVals 0) (ext (exX (barVals 0))) i j) =
        Matrix.diagonal fun i : Fin 6 => if i.val < 3 then 1 else 1 / 10 ^ 20 * Solid.diagMax (n := 1) fun a b => if a = b ∧ a.1 = false then (if a.2.1 = 0 then (1 : ℝ) else 1 / 2) else 0 := by
      ext i j
      rw [Matrix.of_apply]
      obtain ⟨di, hdi⟩ := (C111_rows (n := 1)).2.2 (i : Nat) i.2
      obtain ⟨dj, hdj⟩ := (C111_rows (n := 1)).2.2 (j : Nat) j.2
      unfold sysJac
      rw [Asm.C22_jacobian, all_map, hall]
      have e1 : Asm.elemJac (ext (exX (barVals 0))) ((loadedSolid exSolid exFree barVals 0 id true).atValue (barVals 0)) i j = (loadedSolid exSolid exFree barVals 0 id true).jac (barVals 0) (ext (exX (barVals 0))) i j := by
        simp only [Asm.elemJac, PElem.atValue, loadedSolid, loadedElem, Bool.false_eq_true, if_false, id]
        rw [Finset.sum_eq_single_of_mem (i : Nat) (Finset.mem_range.2 i.2) (fun x _ hx => Finset.sum_eq_zero fun y _ => by simp [hx]), Finset.sum_eq_single_of_mem (j : Nat) (Finset.mem_range.2 j.2) (fun y _ hy => by simp [hy])]
        simp
      simp only [List.map_cons, List.map_nil, List.sum_cons, List.sum_nil, e1]
      rw [← hdi, ← hdj, exBlock_jac, hb0]
      have key : ∀ a b : Dof 1, (if exHeld a.row || exHeld b.row then (if a.row = b.row then Asm.incidence ((loadedSolid exSolid exFree barVals 0 id true).atValue 1) a.row + 0 else 0)
          else Solid.regularize (fun a b : Dof 1 => if a = b ∧ a.1 = false then (if a.2.1 = 0 then (1 : ℝ) else 1 / 2) else 0) a b + 0) =
          if a.row = b.row then (if a.row < 3 then 1 else 1 / 10 ^ 20 * Solid.diagMax (n := 1) fun a b => if a = b ∧ a.1 = false then (if a.2.1 = 0 then (1 : ℝ) else 1 / 2) else 0) else 0 := by
        rintro ⟨a1, a2, a3⟩ ⟨b1, b2, b3⟩
        obtain rfl : a3 = 0 := Subsingleton.elim _ _
        obtain rfl : b3 = 0 := Subsingleton.elim _ _
        unfold Solid.regularize
        generalize Solid.diagMax _ = m
        cases a1 <;> cases b1 <;> fin_cases a2 <;> fin_cases b2 <;> simp [exHeld, Dof.row, Asm.incidence, PElem.atValue, loadedSolid, loadedElem]
      refine (key di dj).trans ?_
      rw [Matrix.diagonal_apply, hdi, hdj]
      by_cases hij : i = j
      · rw [if_pos hij, if_pos (congrArg Fin.val hij)]
      · rw [if_neg hij, if_neg fun h => hij (Fin.ext h)]
    rw [hdiag, Matrix.det_diagonal]
    refine (Finset.prod_ne_zero_iff.2 fun i _ => ?_).isUnit
    by_cases h : i.val < 3
    · rw [if_pos h]; norm_num
    · rw [if_neg h]; exact mul_ne_zero (by norm_num) exMax.ne'

/-! Non-vacuity of C195_rotation_fails and C195_heated_fails: a rotation of the node that follows the parameter; a solid with a temperature. -/
example : ¬ RateAlong (bareSolid exSolid barVals 0 id true) (barVals 0) (fun t a => if a = 3 then t else 0) fun a => if a = 3 then 1 else 0 := by
  refine C195_rotation_fails exSolid_ok (P := ⟨5, 6⟩) rfl id true _ _ (fun a _ => ?_) (true, 0, 0) rfl (by simp [Dof.row]) (false, 0, 0) ?_
  · by_cases h : a = 3
    · simp only [h, if_true]; exact hasDerivAt_id _
    · simp only [h, if_false]; exact hasDerivAt_const _ _
  · have := exSolid_mat (barVals 0) (fun d : Dof 1 => if d.row = 3 then barVals 0 else 0) (false, 0, 0) (false, 0, 0)
    rw [upd_self] at this
    refine lt_of_lt_of_eq ?_ this.symm
    simp [barVals]
example : ({ exSolid with heat := some ⟨fun _ _ => ⟨fun _ => 1, 1, 0⟩, fun _ _ => ⟨fun _ => 0, 0, 0⟩⟩ } : SolidData 1 Unit).heat.isSome = true := rfl
/-- Non-vacuity of C195_pressure: a pressure that grows with the parameter. -/
example (pts : List (Qp 1 Unit)) : OpConsistent (solidPressureOp (⟨fun t _ => 3 * t, fun _ _ => 3⟩ : Fam Unit ℝ) pts) 1 :=
  C195_pressure _ _ _ fun _ _ => ((hasDerivAt_id (1 : ℝ)).const_mul 3).congr_deriv (by norm_num)

end Verif.Steady
