import Verif.Model.ModalBase
import Verif.Props.ModalSens
import Verif.Props.BeamMore
import Verif.Props.ShellDot
import Mathlib.Tactic.FunProp
/-! C189: sensitivity of the natural frequencies of a loaded structure. -/
namespace Verif.Modal
open Verif Finset Matrix Verif.SecDep Verif.GeomElem Verif.StructLoads Verif.Steady

variable {N m : Nat}

/-! ## Specification -/

/-- `V` is the rate of the base solution `U` at `t₀`, on the unknowns of the element. -/
def Follows (k : Nat) (dof : Nat → Nat) (U : ℝ → Nat → ℝ) (V : Nat → ℝ) (t₀ : ℝ) : Prop := ∀ a < k, HasDerivAt (fun t => U t (dof a)) (V (dof a)) t₀

section
variable {n : Nat} {X : Type}

/-- Linear strain, or equal offsets of the beam in the two planes (the derivative of the tangent along the solution sensitivity is wrong otherwise, C119). -/
def SameOffset (E : BeamData n X) (v : Nat → ℝ) : Prop := E.nl = false ∨ ∀ P, E.card.bar E.hp = .ok P → ∀ q ∈ E.qs, E.F.val v P.offy q.x = E.F.val v P.offz q.x

/-! ## Derivatives of the tangent of a beam -/

section
variable {E : Type} [NormedAddCommGroup E] [NormedSpace ℝ E] {z : E}

theorem sandwich_diff {m k : Nat} (B1 : Fin m → Dof n → ℝ) (B2 : Fin k → Dof n → ℝ) {C : E → Fin m → Fin k → ℝ} (h : ∀ r s, DifferentiableAt ℝ (fun z => C z r s) z) (a b : Dof n) :
    DifferentiableAt ℝ (fun z => Shell.sandwich B1 (C z) B2 a b) z := by
  unfold Shell.sandwich
  exact DifferentiableAt.fun_sum fun r _ => DifferentiableAt.fun_sum fun s _ => ((h r s).const_mul _).mul_const _

theorem opJac_diff (nl bend : Bool) {S : E → Beam.Sec} (hS : BarDiff S z) (q : Beam.Bqp n X) {u : E → Dof n → ℝ} (hu : ∀ b, DifferentiableAt ℝ (fun z => u z b) z) (a b : Dof n) :
    DifferentiableAt ℝ (fun z => Beam.opJac nl bend (S z) q (u z) a b) z := by
  have hN := axial_diff true true hS q hu
  have hx : DifferentiableAt ℝ (fun z => Beam.dvx q (u z)) z := dw_diff _ _ hu
  have hy : DifferentiableAt ℝ (fun z => Beam.dwx q (u z)) z := dw_diff _ _ hu
  have hA := hS.1 0 0
  have hB0 := hS.2.1 0 0
  have hB1 := hS.2.1 0 1
  have k0 := hS.2.2 0 0
  have k1 := hS.2.2 0 1
  have k2 := hS.2.2 1 0
  have k3 := hS.2.2 1 1
  unfold Beam.opJac
  refine ((sandwich_diff _ _ hS.1 a b).const_mul _).fun_add (if_diff bend ?_ (differentiableAt_const _))
  have hV : DifferentiableAt ℝ (fun z => if nl then Beam.jacVk (S z) q (u z) a b else 0) z := by
    refine if_diff nl ?_ (differentiableAt_const _)
    unfold Beam.jacVk
    fun_prop
  fun_prop

theorem matGlobal_diff (T : Option (Fin 3 → Fin 3 → ℝ)) {J : E → Dof n → Dof n → ℝ} (h : ∀ c d, DifferentiableAt ℝ (fun z => J z c d) z) (a b : Dof n) : DifferentiableAt ℝ (fun z => matToGlobal T (J z) a b) z := by
  cases T with
  | none => exact h a b
  | some T =>
    simp only [matToGlobal]
    exact DifferentiableAt.fun_sum fun d _ => (DifferentiableAt.fun_sum fun c _ => (h c d).const_mul _).mul_const _
end

/-- The tangent at a fixed state is linear in the section stiffness. -/
theorem opJac_sec (nl bend : Bool) (S : ℝ → Beam.Sec) (S' : Beam.Sec) (t₀ : ℝ) (hA : ∀ i j, HasDerivAt (fun t => (S t).A i j) (S'.A i j) t₀) (hB : ∀ i j, HasDerivAt (fun t => (S t).B i j) (S'.B i j) t₀)
    (hD : ∀ i j, HasDerivAt (fun t => (S t).D i j) (S'.D i j) t₀) (q : Beam.Bqp n X) (u : Dof n → ℝ) (a b : Dof n) : HasDerivAt (fun t => Beam.opJac nl bend (S t) q u a b) (Beam.opJac nl bend S' q u a b) t₀ := by
  have hN : HasDerivAt (fun t => Beam.axial true true (S t) q u) (Beam.axial true true S' q u) t₀ := by
    unfold Beam.axial
    simp only [if_true, Shell.mv]
    exact (HasDerivAt.fun_sum fun s _ => (hA 0 s).mul_const _).fun_add ((((hB 0 0).mul_const _).fun_add ((hB 0 1).mul_const _)).fun_add (HasDerivAt.fun_sum fun s _ => (hA 0 s).mul_const _))
  have k : ∀ {f : ℝ → ℝ} {f' : ℝ} (c d : ℝ), HasDerivAt f f' t₀ → HasDerivAt (fun t => c * f t * d) (c * f' * d) t₀ := fun c d h => (h.const_mul c).mul_const d
  unfold Beam.opJac
  refine ((sandwich_deriv _ _ _ _ t₀ hA a b).const_mul _).fun_add ?_
  cases bend with
  | false => exact hasDerivAt_const _ _
  | true =>
    simp only [if_true]
    have hV : HasDerivAt (fun t => if nl then Beam.jacVk (S t) q u a b else 0) (if nl then Beam.jacVk S' q u a b else 0) t₀ := by
      cases nl with
      | false => exact hasDerivAt_const _ _
      | true =>
        simp only [if_true, Beam.jacVk]
        exact (((((((((((((((((k _ _ (hA 0 0)).fun_add (k _ _ (hA 0 0))).fun_add (k _ _ (hA 0 0))).fun_add (k _ _ (hA 0 0))).fun_add (k _ _ hN)).fun_add (k _ _ (hA 0 0))).fun_add (k _ _ hN)).fun_add (k _ _ (hA 0 0))).fun_add
          (k _ _ (hA 0 0))).fun_add (k _ _ (hA 0 0))).fun_add (k _ _ (hB 0 0))).fun_add (k _ _ (hB 0 1))).fun_add (k _ _ (hB 0 0))).fun_add (k _ _ (hB 0 1))).fun_add (k _ _ (hB 0 0))).fun_add (k _ _ (hB 0 0))).fun_add
          (k _ _ (hB 0 1))).fun_add (k _ _ (hB 0 1))
    exact (((((((hV.fun_add (k _ _ (hB 0 0))).fun_add (k _ _ (hB 0 1))).fun_add (k _ _ (hB 0 0))).fun_add (k _ _ (hB 0 1))).fun_add (k _ _ (hD 0 0))).fun_add (k _ _ (hD 1 1))).fun_add (k _ _ (hD 1 0))).fun_add
      (k _ _ (hD 0 1))

/-- C189: a beam of any card, any parameter and any base solution: the sensitivities of tangent stiffness and mass are the derivatives along the loaded states.  Partial: equal offsets in the two planes, or linear strain
(`C189_offset_fails`). -/
theorem C189_beam_partial (E : BeamData n X) (diag : Bool) (pts : List (Qp n X)) (v : Nat → ℝ) (p : Nat) (dof : Nat → Nat) (U : ℝ → Nat → ℝ) (V : Nat → ℝ) (h : BeamOk E v p) (hm : MassOk E.hp E.card pts)
    (ho : SameOffset E v) (hU : Follows (6 * n) dof U V (v p)) : Consistent (beamModalAt E diag pts v p dof U V) (v p) := by
  obtain ⟨P, hP⟩ := h.found
  obtain ⟨bs, hb⟩ := h.built
  obtain ⟨f1, f2, f3, f4, f5, f6, _⟩ := bar_spec hP
  obtain hC := C187_beam E diag pts v p dof h hm
  let u : ℝ → Dof n → ℝ := fun t => gather dof (U t)
  let w : Dof n → ℝ := gather dof V
  have hu : ∀ b, HasDerivAt (fun t => u t b) (w b) (v p) := fun b => hU _ (C111_rows.2.1 b)
  let J : ℝ → Dof n → Dof n → ℝ := fun t => Beam.internalJac E.T E.nl true (barElem E.F P (Function.update v p t) E.qs) (u t) fun _ _ => 0
  have fA : ∀ t, (beamModalAt E diag pts v p dof U V).A t = flat2 (J t) := fun t => by
    show matVal (barJac _ _ _ _ _ E.bend _ _ _) = _
    rw [barJac, bind_ok hP, h.bending]; rfl
  have fA' : (beamModalAt E diag pts v p dof U V).dA (v p) = flat2 (fun a b => barJacSens E P v p (u (v p)) a b + Beam.jacDotGlobal E.T E.nl (barElem E.F P v E.qs) (u (v p)) w a b) := by
    show matVal (barStiffSensAt _ _ _ _ _) = _
    rw [barStiffSensAt, bind_ok hP, upd_self]; rfl
  have sA : ∀ a b, J (v p) a b = J (v p) b a := by
    refine Beam.C118_symmetric E.T E.nl true _ (fun q hq => ?_) _ _ fun _ _ => rfl
    simp only [barElem, List.mem_map] at hq
    obtain ⟨q', _, rfl⟩ := hq
    constructor
    · simp [barSec, Section1D.beamA, Material.iso1D]
    · simp [Beam.Sec.SymmD, barSec, Section1D.beamD, Section1D.areaInertia]
  have key := bar_derivs h.derivs h.nu h.sides hP
  -- the two partial rates
  have hs : ∀ a b, HasDerivAt (fun t => Beam.internalJac E.T E.nl true (barElem E.F P (Function.update v p t) E.qs) (u (v p)) (fun _ _ => 0) a b) (barJacSens E P v p (u (v p)) a b) (v p) := by
    intro a b
    unfold barJacSens
    cases hp : E.card.dependsOn E.hp p with
    | false =>
      have q : ∀ t x, Found E.hp E.card x → ∀ pt, E.F.val (Function.update v p t) x pt = E.F.val v x pt := fun t x hx pt => C183_query bs E.hp hb E.F h.declares x p hx.1 (hx.2 p hp) v t pt
      have e : ∀ t, barElem E.F P (Function.update v p t) E.qs = barElem E.F P v E.qs := fun t => by
        unfold barElem barSec
        simp only [q t _ f1, q t _ f2, q t _ f3, q t _ f4, q t _ f5, q t _ f6]
      simp only [e, Bool.false_eq_true, if_false]
      exact hasDerivAt_const _ _
    | true =>
      simp only [Beam.internalJac, if_true, zero_add, h.bending]
      refine global_deriv E.T _ _ _ (fun c d => ?_) a b
      simp only [Beam.localJac, barElem, List.map_map, List.map_nil, List.sum_nil, Function.comp_def, if_true, add_zero]
      exact hasDerivAt_list _ _ _ _ fun q hq => opJac_sec E.nl true _ _ _ (key q hq).1 (key q hq).2.1 (key q hq).2.2 q _ c d
  have hdot : ∀ a b, HasDerivAt (fun e : ℝ => Beam.internalJac E.T E.nl true (barElem E.F P (Function.update v p (v p)) E.qs) (fun c => u (v p) c + e * w c) (fun _ _ => 0) a b)
      (Beam.jacDotGlobal E.T E.nl (barElem E.F P v E.qs) (u (v p)) w a b) 0 := by
    intro a b
    rw [upd_self]
    rcases ho with hl | ho
    · rw [hl]
      simp only [Beam.internalJac, if_true, Beam.jacDotGlobal, Bool.false_eq_true, if_false]
      have : ∀ s : Dof n → ℝ, Beam.localJac false true (barElem E.F P v E.qs) s = Beam.localJac false true (barElem E.F P v E.qs) fun _ => 0 := fun s => by
        funext c d
        simp only [Beam.localJac, Beam.opJac, Bool.false_eq_true, if_false]
      simp only [this]
      exact hasDerivAt_const _ _
    · refine Beam.C119_jac_dot_partial E.T E.nl _ (fun q hq => ?_) _ _ _ a b
      simp only [barElem, List.mem_map] at hq
      obtain ⟨q', hq', rfl⟩ := hq
      have := ho P hP q' hq'
      simp [barSec, Section1D.beamB, this]
  refine ⟨fun a ha b hb' => ?_, fun a ha b hb' => hC.mass a ha b hb', fun a ha b hb' => ?_, fun a ha b hb' => hC.symB a ha b hb'⟩
  · obtain ⟨d, rfl⟩ := C111_rows.2.2 a ha
    obtain ⟨f, rfl⟩ := C111_rows.2.2 b hb'
    simp only [fA, fA', flat2_row]
    refine joint_rate (R := fun z : (Dof n → ℝ) × ℝ => Beam.internalJac E.T E.nl true (barElem E.F P (Function.update v p z.2) E.qs) z.1 (fun _ _ => 0) d f) (u := u (v p)) (w := w) ?_ (hs d f) (hdot d f) u hu rfl
    have c : ∀ {f : ℝ → ℝ} {f' : ℝ}, HasDerivAt f f' (v p) → DifferentiableAt ℝ (fun z : (Dof n → ℝ) × ℝ => f z.2) (u (v p), v p) := fun {f f'} hf =>
      DifferentiableAt.comp (g := f) (f := fun z : (Dof n → ℝ) × ℝ => z.2) (u (v p), v p) hf.differentiableAt differentiableAt_snd
    have e : (fun z : (Dof n → ℝ) × ℝ => Beam.internalJac E.T E.nl true (barElem E.F P (Function.update v p z.2) E.qs) z.1 (fun _ _ => 0) d f) = fun z =>
        matToGlobal E.T (fun c d => (E.qs.map fun q => Beam.opJac E.nl true (barSec E.F P (Function.update v p z.2) q.x) q (vecToLocal E.T z.1) c d).sum) d f := by
      funext z
      simp only [Beam.internalJac, if_true, zero_add]
      have : Beam.localJac E.nl true (barElem E.F P (Function.update v p z.2) E.qs) (vecToLocal E.T z.1) = fun c d => (E.qs.map fun q => Beam.opJac E.nl true (barSec E.F P (Function.update v p z.2) q.x) q (vecToLocal E.T z.1) c d).sum := by
        funext c d
        simp only [Beam.localJac, barElem, List.map_map, List.map_nil, List.sum_nil, Function.comp_def, if_true, add_zero]
      rw [this]
    rw [e]
    refine matGlobal_diff E.T (fun c' d' => ?_) d f
    refine list_diff E.qs (fun q (z : (Dof n → ℝ) × ℝ) => Beam.opJac E.nl true (barSec E.F P (Function.update v p z.2) q.x) q (vecToLocal E.T z.1) c' d') _ fun q hq => ?_
    obtain ⟨h1, h2, h3⟩ := key q hq
    exact opJac_diff E.nl true (S := fun z : (Dof n → ℝ) × ℝ => barSec E.F P (Function.update v p z.2) q.x) ⟨fun r s => c (h1 r s), fun r s => c (h2 r s), fun r s => c (h3 r s)⟩ q
      (u := fun z => vecToLocal E.T z.1) (local_diff E.T (u := fun z : (Dof n → ℝ) × ℝ => z.1) fun b => by fun_prop) c' d'
  · obtain ⟨d, rfl⟩ := C111_rows.2.2 a ha
    obtain ⟨f, rfl⟩ := C111_rows.2.2 b hb'
    simp only [fA, flat2_row]
    exact sA d f

/-- The tangent of a shell with linear strain does not depend on the state. -/
theorem shell_state_free (bend : Bool) (e : Shell.Elem n X) (u : Dof n → ℝ) : Shell.localJac false bend e u = Shell.localJac false bend e fun _ => 0 := by
  funext a b
  simp only [Shell.localJac, Shell.opJac, Bool.false_eq_true, if_false]

/-- C189, partial: a shell without offset, with linear strain, about any base solution and whatever is given as its sensitivity (with nonlinear strain see `C189_membrane_fails`). -/
theorem C189_shell_partial (E : ShellData n X) (diag : Bool) (pts : List (Qp n X)) (v : Nat → ℝ) (p : Nat) (dof : Nat → Nat) (U : ℝ → Nat → ℝ) (V : Nat → ℝ) (h : ShellOk E v p) (hm : MassOk E.hp E.card pts)
    (ho : NoOffset E pts v p) (hl : E.nl = false) : Consistent (shellModalAt E diag pts v p dof U V) (v p) := by
  have hC := C187_shell_partial E diag pts v p dof h hm ho
  obtain ⟨P, hP⟩ := h.found
  have eA : ∀ t, (shellModalAt E diag pts v p dof U V).A t = (shellModal E diag pts v p dof).A t := fun t => by
    show matVal (plateJac _ _ _ _ _ _ _ _ _ _ _) = matVal (plateJac _ _ _ _ _ _ _ _ _ _ _)
    rw [plateJac, bind_ok hP, plateJac, bind_ok hP, hl]
    simp only [Shell.internalJac]
    rw [shell_state_free]
    conv_rhs => rw [shell_state_free]
  have eA' : (shellModalAt E diag pts v p dof U V).dA (v p) = (shellModal E diag pts v p dof).dA (v p) := by
    show matVal (plateStiffSensAt _ _ _ _ _) = matVal (plateStiffSens _ _ _)
    have e1 : plateStiffSensAt E (Function.update v p (v p)) p (gather dof (U (v p))) (gather dof V) = .ok (plateJacSens E P (Function.update v p (v p)) p (gather dof (U (v p)))) := by
      rw [plateStiffSensAt, bind_ok hP, hl]
      simp only [Shell.jacDotGlobal, Bool.false_and, Bool.false_eq_true, if_false, Shell.matToGlobal_zero, add_zero]
      rfl
    rw [e1, plateStiffSens]
    unfold plateJacSens
    cases E.card.dependsOn E.hp p with
    | false => rfl
    | true =>
      simp only [if_true]
      rw [bind_ok hP, hl, shell_state_free]
      conv_rhs => rw [shell_state_free]
      rfl
  refine ⟨fun a ha b hb => ?_, hC.mass, fun a ha b hb => ?_, hC.symB⟩
  · simp only [eA, eA']; exact hC.stiff a ha b hb
  · simp only [eA]; exact hC.symA a ha b hb

/-- Members of a structure whose modes are found about the base solution `U`, with the vector `V` given as its sensitivity. -/
inductive IsLoaded (v : Nat → ℝ) (p : Nat) (U : ℝ → Nat → ℝ) (V : Nat → ℝ) : MElem → Prop
  | beam {n : Nat} {X : Type} (E : BeamData n X) (diag : Bool) (pts : List (Qp n X)) (dof : Nat → Nat) (h : BeamOk E v p) (hm : MassOk E.hp E.card pts) (ho : SameOffset E v) : IsLoaded v p U V (beamModalAt E diag pts v p dof U V)
  | shell {n : Nat} {X : Type} (E : ShellData n X) (diag : Bool) (pts : List (Qp n X)) (dof : Nat → Nat) (h : ShellOk E v p) (hm : MassOk E.hp E.card pts) (ho : NoOffset E pts v p) (hl : E.nl = false) :
      IsLoaded v p U V (shellModalAt E diag pts v p dof U V)
end

/-- C189, partial: the sensitivity the solver reports for the square of a natural frequency of a loaded structure, given the rate of the base solution, is its derivative along the loaded states. -/
theorem C189_loaded_partial {C : Nat → Bool} {idx : Fin m → Fin N} (hfree : Free C idx) {ps : List (List MElem)} (hd : ∀ e ∈ ps.flatten, ∀ a < e.n, e.dof a < N) {v : Nat → ℝ} {p : Nat} {Y : ℝ → Fin N → ℝ} {Y' : Fin N → ℝ}
    (hc : ∀ e ∈ ps.flatten, IsLoaded v p (fun t => ext (Y t)) (ext Y') e) (hY : ∀ i, HasDerivAt (fun t => Y t i) (Y' i) (v p)) {lam : ℝ → ℝ} {lam' : ℝ} {X : ℝ → Fin N → ℝ} {X' : Fin N → ℝ}
    (hM : Mode C ps lam lam' X X' (v p)) (hpos : 0 < form (·.B (v p)) ps (X (v p)) (X (v p))) (exch : Bool) (c : ℝ) (hc0 : c ≠ 0) :
    frequencySens C exch idx ps (v p) (if exch then ((1 / lam (v p) : ℝ) : ℂ) else (lam (v p) : ℂ)) (fun j => c * X (v p) (idx j)) = .ok lam' := by
  have hF : ∀ (k : Nat) (dof : Nat → Nat), (∀ a < k, dof a < N) → Follows k dof (fun t => ext (Y t)) (ext Y') (v p) := by
    intro k dof hk a ha
    have := hk a ha
    simp only [ext_lt _ this]
    exact hY _
  refine C187_modal hfree hd (fun e he => ?_) hM hpos exch c hc0
  have hde := hd e he
  cases hc e he with
  | beam E diag pts dof h hm ho => exact C189_beam_partial E diag pts v p dof _ _ h hm ho (hF _ dof hde)
  | shell E diag pts dof h hm ho hl => exact C189_shell_partial E diag pts v p dof _ _ h hm ho hl

/-- C189, partial: the whole workflow.  A steady analysis under point loads, its sensitivity from `sensitivity_solve`, given as sensitivity of the base solution of the modal analysis: the reported sensitivity is the
derivative of the square of the natural frequency of the loaded structure. -/
theorem C189_workflow_partial (ls : Sens.LinSolver N) (hls : ls.Correct) {C : Nat → Bool} {loads : List PLoad} {qs : List PProc} {v : Nat → ℝ} {p : Nat} {Y : ℝ → Fin N → ℝ} {Y' : Fin N → ℝ}
    (hm : ∀ e ∈ allElems qs, Steady.IsMember v p (ext (Y (v p))) (ext Y') e) (hdof : ∀ e ∈ allElems qs, ∀ a < e.n, e.dof a < N)
    (hask : ∀ e ∈ allElems qs, e.asked = true ∨ ∀ a < e.n, e.sens (v p) (fun b => ext (Y (v p)) (e.dof b)) a = 0) (hl : ∀ l ∈ loads, ∀ a < l.n, HasDerivAt (fun t => l.load t a) (l.dload (v p) a) (v p))
    (hown : ∀ i < N, OwnedOnce qs i) (hB : Branch C loads qs Y Y' (v p)) (hreg : IsUnit (Matrix.of fun i j : Fin N => sysJac C qs (v p) (ext (Y (v p))) i j).det)
    {idx : Fin m → Fin N} (hfree : Free C idx) {ps : List (List MElem)} (hd : ∀ e ∈ ps.flatten, ∀ a < e.n, e.dof a < N)
    (hc : ∀ e ∈ ps.flatten, IsLoaded v p (fun t => ext (Y t)) (ext (sensitivitySolve ls C loads qs (v p) (Y (v p)))) e)
    {lam : ℝ → ℝ} {lam' : ℝ} {X : ℝ → Fin N → ℝ} {X' : Fin N → ℝ} (hM : Mode C ps lam lam' X X' (v p)) (hpos : 0 < form (·.B (v p)) ps (X (v p)) (X (v p))) (exch : Bool) (c : ℝ) (hc0 : c ≠ 0) :
    frequencySens C exch idx ps (v p) (if exch then ((1 / lam (v p) : ℝ) : ℂ) else (lam (v p) : ℂ)) (fun j => c * X (v p) (idx j)) = .ok lam' := by
  rw [C186_structure_partial ls hls hm hdof hask hl hown hB hreg] at hc
  exact C189_loaded_partial hfree hd hc hB.rate hM hpos exch c hc0

/-! ## A string: a beam stretched by a force, whose transverse stiffness is the axial force -/

section
theorem bar_ok (c : Card) (offs : Nat × Nat) (hc : c = ⟨[("hy", 8), ("hz", 10), ("Kappazz", 9), ("Kappayy", 9), ("hy_off", offs.1), ("hz_off", offs.2)], [("E", 6), ("nu", 7), ("rho", 11)]⟩)
    (ho : c.bar heapM = .ok ⟨8, 10, offs.1, offs.2, 6, 7⟩) (nl : Bool) (q : Beam.Bqp 1 Unit) (off : ℝ) (p : Nat) : BeamOk ⟨heapM, constsM, c, none, nl, true, [q]⟩ (valsM off) p := by
  subst hc
  refine ⟨rfl, ⟨progM, rfl⟩, declaresM, derivsM _ _ _, ⟨_, ho⟩, ?_, ?_⟩
  · intro x hx q _
    have h' : (Except.ok 7 : Exec Nat) = .ok x := hx
    rw [← Except.ok.inj h']
    norm_num [constsM, valsM]
  · intro y z hy hz q _
    have hy' : (Except.ok 8 : Exec Nat) = .ok y := hy
    have hz' : (Except.ok 10 : Exec Nat) = .ok z := hz
    rw [← Except.ok.inj hy', ← Except.ok.inj hz']
    norm_num [constsM, valsM]

/-- The displacement under the force 6, width `t` (object 4), modulus 1. -/
noncomputable def strY (t : ℝ) : Fin 6 → ℝ := fun i => if i = 0 then 6 / t else 0
noncomputable def strV : Fin 6 → ℝ := fun i => if i = 0 then -3 / 2 else 0
/-- Only the axial and the transverse displacement are free. -/
def strC : Nat → Bool := fun i => !(i == 0 || i == 1)
noncomputable def strStatic : PElem := beamElem beamM (valsM 0) 4 id true
noncomputable def strModal : MElem := beamModalAt beamM false [qpM] (valsM 0) 4 id (fun t => ext (strY t)) (ext strV)

theorem str_jac (t : ℝ) (u : Dof 1 → ℝ) (hu : ∀ d : Dof 1, d ≠ (false, 0, 0) → u d = 0) :
    let J := Beam.internalJac none true true (barElem constsM ⟨8, 10, 9, 9, 6, 7⟩ (Function.update (valsM 0) 4 t) [exB]) u fun _ _ => 0
    J (false, 0, 0) (false, 0, 0) = t ∧ J (false, 0, 0) (false, 1, 0) = 0 ∧ J (false, 1, 0) (false, 0, 0) = 0 ∧ J (false, 1, 0) (false, 1, 0) = t * u (false, 0, 0) := by
  have h1 := hu (false, 1, 0) (by simp)
  have h2 := hu (false, 2, 0) (by simp)
  have h3 := hu (true, 0, 0) (by simp)
  have h4 := hu (true, 1, 0) (by simp)
  have h5 := hu (true, 2, 0) (by simp)
  refine ⟨?_, ?_, ?_, ?_⟩ <;>
    simp [Beam.internalJac, matToGlobal, vecToLocal, Beam.localJac, barElem, Beam.opJac, Beam.jacVk, Beam.axial, Beam.gram, Shell.sandwich, exB, Beam.Bmem, Beam.Bvv, Beam.Bww, Beam.Bbv, Beam.Bbw, Shell.shape, Shell.mv, Shell.app,
      Fin.sum_univ_two, Fintype.sum_prod_type, Fin.sum_univ_three, Beam.vkStrain, Beam.dvx, Beam.dwx, h1, h2, h3, h4, h5, barSec, Section1D.beamA, Section1D.beamB, Section1D.beamD, Section1D.area, Section1D.areaMoment,
      Material.iso1D, constsM, Function.update, valsM]

theorem str_gather (t : ℝ) : (∀ d : Dof 1, d ≠ (false, 0, 0) → ext (strY t) d.row = 0) ∧ ext (strY t) (Dof.row ((false, 0, 0) : Dof 1)) = 6 / t := by
  refine ⟨fun d hd => ?_, rfl⟩
  obtain ⟨b, k, i⟩ := d
  have : i = 0 := Subsingleton.elim _ _
  subst this
  cases b <;> fin_cases k <;> first | exact absurd rfl hd | rfl

theorem strModal_A (t : ℝ) : strModal.A t 0 0 = t ∧ strModal.A t 0 1 = 0 ∧ strModal.A t 1 0 = 0 ∧ strModal.A t 1 1 = t * (6 / t) := by
  have e : ∀ a b : Dof 1, strModal.A t a.row b.row = Beam.internalJac none true true (barElem constsM ⟨8, 10, 9, 9, 6, 7⟩ (Function.update (valsM 0) 4 t) [exB]) (fun d => ext (strY t) d.row) (fun _ _ => 0) a b :=
    fun a b => flat2_row (n := 1) _ a b
  obtain ⟨h1, h2, h3, h4⟩ := str_jac t (fun d => ext (strY t) d.row) (str_gather t).1
  exact ⟨(e (false, 0, 0) (false, 0, 0)).trans h1, (e (false, 0, 0) (false, 1, 0)).trans h2, (e (false, 1, 0) (false, 0, 0)).trans h3, (e (false, 1, 0) (false, 1, 0)).trans h4⟩

theorem strModal_B (t : ℝ) : strModal.B t 0 1 = 0 ∧ strModal.B t 1 1 = 2 * t := by
  have e : ∀ a b : Dof 1, strModal.B t a.row b.row = consistent (fun q : Qp 1 Unit => barInertia constsM ⟨8, 10, 9, 9, 6, 7⟩ 11 (Function.update (valsM 0) 4 t) q.x) [qpM] a b := fun a b => flat2_row (n := 1) _ a b
  refine ⟨(e (false, 0, 0) (false, 1, 0)).trans ?_, (e (false, 1, 0) (false, 1, 0)).trans ?_⟩ <;>
    simp [consistent, qpM, barInertia, var, Section1D.beamInertia, Section1D.area, constsM, Function.update, valsM]

theorem form_str (pick : MElem → Nat → Nat → ℝ) (y x : Fin 6 → ℝ) (hy : ∀ i : Fin 6, strC i = true → y i = 0) (hx : ∀ i, i ≠ 1 → x i = 0) :
    form pick [[strModal]] y x = (y 0 * pick strModal 0 1 + y 1 * pick strModal 1 1) * x 1 := by
  have h2 : y 2 = 0 := hy 2 rfl
  have h3 : y 3 = 0 := hy 3 rfl
  have h4 : y 4 = 0 := hy 4 rfl
  have h5 : y 5 = 0 := hy 5 rfl
  have e : ∀ (z : Fin 6 → ℝ), ext z 0 = z 0 ∧ ext z 1 = z 1 ∧ ext z 2 = z 2 ∧ ext z 3 = z 3 ∧ ext z 4 = z 4 ∧ ext z 5 = z 5 := fun z => ⟨rfl, rfl, rfl, rfl, rfl, rfl⟩
  obtain ⟨a0, a1, a2, a3, a4, a5⟩ := e y
  obtain ⟨b0, b1, b2, b3, b4, b5⟩ := e x
  have hn : strModal.n = 6 := rfl
  have hd : ∀ a, strModal.dof a = a := fun _ => rfl
  simp only [form, List.flatten_cons, List.flatten_nil, List.append_nil, List.map_cons, List.map_nil, List.sum_cons, List.sum_nil, hn, hd, Finset.sum_range_succ, Finset.sum_range_zero, a0, a1, a2, a3, a4, a5, b0, b1, b2, b3, b4, b5,
    h2, h3, h4, h5, hx 0 (by decide), hx 2 (by decide), hx 3 (by decide), hx 4 (by decide), hx 5 (by decide)]
  ring

theorem str_static (t : ℝ) : (strStatic.jac t (ext (strY t)) 0 0 = t ∧ strStatic.jac t (ext (strY t)) 0 1 = 0 ∧ strStatic.jac t (ext (strY t)) 1 0 = 0 ∧ strStatic.jac t (ext (strY t)) 1 1 = t * (6 / t)) ∧
    strStatic.res t (ext (strY t)) 0 = t * (6 / t) ∧ strStatic.res t (ext (strY t)) 1 = 0 := by
  have e : ∀ a b : Dof 1, strStatic.jac t (ext (strY t)) a.row b.row = Beam.internalJac none true true (barElem constsM ⟨8, 10, 9, 9, 6, 7⟩ (Function.update (valsM 0) 4 t) [exB]) (fun d => ext (strY t) d.row) (fun _ _ => 0) a b :=
    fun a b => flat2_row (n := 1) _ a b
  have r : ∀ a : Dof 1, strStatic.res t (ext (strY t)) a.row = Beam.internalRes none true true (barElem constsM ⟨8, 10, 9, 9, 6, 7⟩ (Function.update (valsM 0) 4 t) [exB]) (fun d => ext (strY t) d.row) a := fun a => flat_row (n := 1) _ a
  obtain ⟨h1, h2, h3, h4⟩ := str_jac t (fun d => ext (strY t) d.row) (str_gather t).1
  have g := (str_gather t).1
  have g0 := (str_gather t).2
  have k1 := g (false, 1, 0) (by simp)
  have k2 := g (false, 2, 0) (by simp)
  have k3 := g (true, 0, 0) (by simp)
  have k4 := g (true, 1, 0) (by simp)
  have k5 := g (true, 2, 0) (by simp)
  refine ⟨⟨(e (false, 0, 0) (false, 0, 0)).trans h1, (e (false, 0, 0) (false, 1, 0)).trans h2, (e (false, 1, 0) (false, 0, 0)).trans h3, (e (false, 1, 0) (false, 1, 0)).trans h4⟩, (r (false, 0, 0)).trans ?_, (r (false, 1, 0)).trans ?_⟩ <;>
    simp [Beam.internalRes, globalRes, vecToGlobal, vecToLocal, Beam.localRes, barElem, Beam.opRes, exB, Shell.appT, Beam.Bmem, Beam.Bvv, Beam.Bww, Beam.Bbv, Beam.Bbw, Shell.shape, Beam.force, Beam.axial, Shell.mv, Shell.app,
      Fin.sum_univ_two, Fintype.sum_prod_type, Fin.sum_univ_three, Beam.vkStrain, Beam.dvx, Beam.dwx, k1, k2, k3, k4, k5, g0, barSec, Section1D.beamA, Section1D.beamB, Section1D.beamD, Section1D.area, Section1D.areaMoment,
      Material.iso1D, constsM, Function.update, valsM]

/-- Non-vacuity of C189_workflow_partial and C189_loaded_partial (with C189_beam_partial): the string of width `t` under the force 6 has the transverse stiffness 6 and the mass `2 t`; the square of its frequency is `3 / t`
with the derivative -3/4 at `t = 2`.  Any `sensitivity_solve` returns `strV` (C186_structure_partial), so `IsLoaded` holds with it. -/
example : (∀ e ∈ allElems [⟨[strStatic], 0, 6⟩], Steady.IsMember (valsM 0) 4 (ext (strY (valsM 0 4))) (ext strV) e) ∧ (∀ i < 6, OwnedOnce [⟨[strStatic], 0, 6⟩] i) ∧
    Branch (N := 6) strC [⟨1, id, fun _ _ => 6, fun _ _ => 0⟩] [⟨[strStatic], 0, 6⟩] strY strV (valsM 0 4) ∧
    IsUnit (Matrix.of fun i j : Fin 6 => sysJac strC [⟨[strStatic], 0, 6⟩] (valsM 0 4) (ext (strY (valsM 0 4))) i j).det ∧
    Free strC (![0, 1] : Fin 2 → Fin 6) ∧ IsLoaded (valsM 0) 4 (fun t => ext (strY t)) (ext strV) strModal ∧
    Mode strC [[strModal]] (fun t => 3 / t) (-3 / 4) (fun _ i => if i = 1 then 1 else 0) (fun _ : Fin 6 => 0) (valsM 0 4) ∧
    0 < form (·.B (valsM 0 4)) [[strModal]] (fun i : Fin 6 => if i = 1 then 1 else 0) (fun i => if i = 1 then 1 else 0) := by
  have hv : valsM 0 4 = 2 := by simp [valsM]
  have hok : BeamOk beamM (valsM 0) 4 := bar_ok barM (9, 9) rfl rfl true exB 0 4
  have hx : ∀ i : Fin 6, i ≠ 1 → (if i = 1 then (1 : ℝ) else 0) = 0 := fun i hi => if_neg hi
  have hxC : ∀ i : Fin 6, strC i = true → (if i = 1 then (1 : ℝ) else 0) = 0 := fun i hi => hx i (by rintro rfl; simp [strC] at hi)
  have hne : ∀ᶠ t : ℝ in nhds (valsM 0 4), t ≠ 0 := isOpen_ne.mem_nhds (by rw [hv]; norm_num)
  have hinv : ∀ c : ℝ, HasDerivAt (fun t : ℝ => c / t) (-c / 4) (valsM 0 4) := fun c => by
    have := (hasDerivAt_inv (x := valsM 0 4) (by rw [hv]; norm_num)).const_mul c
    simp only [← div_eq_mul_inv] at this
    exact this.congr_deriv (by rw [hv]; ring)
  refine ⟨fun e he => ?_, fun i hi => ?_, ⟨?_, ?_, fun i => ?_⟩, ?_, ⟨?_, ?_, ?_⟩, .beam _ _ _ _ hok ⟨⟨11, rfl⟩, by simp⟩ (Or.inr fun P hP q _ => ?_), ⟨?_, ?_, hinv 3, fun i => hasDerivAt_const _ _⟩, ?_⟩
  · have : e = strStatic := by simpa [allElems] using he
    subst this
    exact .beam _ _ _ hok
  · interval_cases i <;> simp [OwnedOnce]
  · refine hne.mono fun t ht i hi => ?_
    unfold sysRes
    rw [Asm.C22_residual _ _ _ _ _ (owned_map (PElem.atValue t) (by interval_cases i <;> simp [OwnedOnce])), all_map]
    have hall : allElems [⟨[strStatic], 0, 6⟩] = [strStatic] := rfl
    rw [hall]
    have e : ∀ k < 6, Asm.elemRes (ext (strY t)) (strStatic.atValue t) k = strStatic.res t (ext (strY t)) k := fun k hk => by
      simp only [Asm.elemRes, PElem.atValue]
      have : strStatic.n = 6 := rfl
      have hd : ∀ a, strStatic.dof a = a := fun _ => rfl
      simp only [this, hd]
      have hdg : strStatic.diag = false := rfl
      rw [Finset.sum_eq_single k]
      · simp [hdg]
      · intro b _ hb
        simp [hb]
      · intro h
        exact absurd (mem_range.2 hk) h
    obtain ⟨_, s0, s1⟩ := str_static t
    interval_cases i
    · simp only [List.map_cons, List.map_nil, List.sum_cons, List.sum_nil, e 0 (by norm_num), s0]
      simp [strC, Asm.nodeForce]
      field_simp
      norm_num
    · simp only [List.map_cons, List.map_nil, List.sum_cons, List.sum_nil, e 1 (by norm_num), s1]
      simp [strC, Asm.nodeForce]
    all_goals simp [strC]
  · refine Filter.Eventually.of_forall fun t i hi => ?_
    have : i ≠ 0 := fun h => by simp [h, strC] at hi
    simp [strY, this]
  · by_cases h0 : i = 0
    · simp only [strY, strV, h0, if_true]
      exact (hinv 6).congr_deriv (by norm_num)
    · simp only [strY, strV, h0, if_false]
      exact hasDerivAt_const _ _
  · have hdiag : (Matrix.of fun i j : Fin 6 => sysJac strC [⟨[strStatic], 0, 6⟩] (valsM 0 4) (ext (strY (valsM 0 4))) i j) = Matrix.diagonal fun i : Fin 6 => if i = 0 then 2 else if i = 1 then 6 else 1 := by
      obtain ⟨⟨j00, j01, j10, j11⟩, _⟩ := str_static (valsM 0 4)
      have e : ∀ k < 6, ∀ l < 6, Asm.elemJac (ext (strY (valsM 0 4))) (strStatic.atValue (valsM 0 4)) k l = strStatic.jac (valsM 0 4) (ext (strY (valsM 0 4))) k l := fun k hk l hl => by
        simp only [Asm.elemJac, PElem.atValue]
        have : strStatic.n = 6 := rfl
        have hd : ∀ a, strStatic.dof a = a := fun _ => rfl
        simp only [this, hd]
        have hdg : strStatic.diag = false := rfl
        rw [Finset.sum_eq_single k]
        · rw [Finset.sum_eq_single l]
          · simp [hdg]
          · intro b _ hb
            simp [hb]
          · intro h
            exact absurd (mem_range.2 hl) h
        · intro b _ hb
          simp [hb]
        · intro h
          exact absurd (mem_range.2 hk) h
      ext i j
      rw [Matrix.of_apply]
      unfold sysJac
      rw [Asm.C22_jacobian, all_map]
      have hall : allElems [⟨[strStatic], 0, 6⟩] = [strStatic] := rfl
      rw [hall]
      by_cases hC : (strC i || strC j) = true
      · rw [if_pos hC]
        have hn : strStatic.n = 6 := rfl
        have hd : strStatic.dof = id := rfl
        fin_cases i <;> fin_cases j <;> first | (exact absurd hC (by decide)) | (simp [strC, Asm.incidence, PElem.atValue, hn, hd, Matrix.diagonal]; try decide)
      · rw [if_neg hC]
        simp only [List.map_cons, List.map_nil, List.sum_cons, List.sum_nil, e i i.2 j j.2]
        rw [hv] at j00 j01 j10 j11 ⊢
        fin_cases i <;> fin_cases j <;> first | (exact absurd (by decide) hC) | simp [j00, j01, j10, j11, Matrix.diagonal]
        norm_num
    rw [hdiag, Matrix.det_diagonal]
    simp [Fin.prod_univ_succ]
  · intro a b h
    fin_cases a <;> fin_cases b <;> simp_all
  · intro j
    fin_cases j <;> rfl
  · intro i hi
    fin_cases i
    · exact ⟨0, rfl⟩
    · exact ⟨1, rfl⟩
    all_goals exact absurd hi (by decide)
  · have h' : (Except.ok ⟨8, 10, 9, 9, 6, 7⟩ : Exec Bar) = .ok P := hP
    rw [← Except.ok.inj h']
  · exact Filter.Eventually.of_forall fun t => hxC
  · refine hne.mono fun t ht y hy => ?_
    obtain ⟨_, a01, _, a11⟩ := strModal_A t
    obtain ⟨b01, b11⟩ := strModal_B t
    rw [form_str _ y _ hy hx, form_str _ y _ hy hx, a01, a11, b01, b11]
    simp
    field_simp
    ring
  · obtain ⟨b01, b11⟩ := strModal_B (valsM 0 4)
    rw [form_str _ _ _ hxC hx, b11, hv]
    simp

/-! ## Findings -/

/-- A membrane with nonlinear strain. -/
noncomputable def sheet : ShellData 1 Unit := ⟨heapM, constsM, plateM, true, none, true, false, [pointM], []⟩
/-- The load factor (object 12) moves the base solution: `u = t`. -/
noncomputable def pushed (k : Fin 6) (t : ℝ) : Nat → ℝ := fun i => if i = k then t else 0
noncomputable def sheetModal : MElem := shellModalAt sheet true [qpM] (valsM 0) 12 id (pushed 0) (pushed 0 1)

theorem sheet_A (t : ℝ) : sheetModal.A t 0 0 = 1 + 3 * t + 3 / 2 * t ^ 2 := by
  have e : sheetModal.A t 0 0 = Shell.internalJac none true false (plateElem constsM true ⟨8, 9, 8, 6, 7⟩ (Function.update (valsM 0) 12 t) [pointM] []) (fun d => pushed 0 t d.row) (false, 0, 0) (false, 0, 0) :=
    flat2_row (n := 1) _ (false, 0, 0) (false, 0, 0)
  rw [e]
  simp [Shell.internalJac, matToGlobal, vecToLocal, Shell.drilling, Shell.localJac, plateElem, Shell.opJac, Shell.jacNl, Shell.memStress, Shell.strainMem, Shell.gradE, Shell.gradF, Shell.ddx, Shell.ddy, Shell.matX, Shell.matY, Shell.stressMat, Shell.mm, Shell.mv, Shell.app,
    Shell.Bu, Shell.Bv, Shell.Bx, Shell.By, Shell.sandwich, Shell.Blin, Shell.shape, Shell.tr, pointM, Fin.sum_univ_two, Fin.sum_univ_three, Fintype.sum_prod_type, pushed, Dof.row,
    plateSec, Section2D.plateA, Section2D.plateB, Section2D.plateD, Material.iso2D, constsM, Function.update, valsM]
  ring

theorem sheet_B (t : ℝ) : sheetModal.B t 0 0 = 2 := by
  have e : sheetModal.B t 0 0 = lumped (plateInertia constsM ⟨8, 9, 8, 6, 7⟩ 11 (Function.update (valsM 0) 12 t) ()) [qpM] (false, 0, 0) (false, 0, 0) := flat2_row (n := 1) _ (false, 0, 0) (false, 0, 0)
  rw [e]
  simp [lumped, qpM, plateInertia, var, Section2D.plateInertia, constsM, Function.update, valsM]

theorem sheet_d (t : ℝ) : sheetModal.dA t 0 0 = 0 ∧ sheetModal.dB t 0 0 = 0 := by
  constructor
  · have e : sheetModal.dA t 0 0 = (0 : ℝ) + Shell.jacDotGlobal none true false (plateElem constsM true ⟨8, 9, 8, 6, 7⟩ (Function.update (valsM 0) 12 t) [pointM] []) (gather id (pushed 0 t)) (gather id (pushed 0 1)) (false, 0, 0) (false, 0, 0) :=
      flat2_row (n := 1) _ (false, 0, 0) (false, 0, 0)
    rw [e]
    simp [Shell.jacDotGlobal, matToGlobal]
  · have e : sheetModal.dB t 0 0 = lumped (dPlateInertia constsM ⟨8, 9, 8, 6, 7⟩ 11 (Function.update (valsM 0) 12 t) 12 ()) [qpM] (false, 0, 0) (false, 0, 0) := flat2_row (n := 1) _ (false, 0, 0) (false, 0, 0)
    rw [e]
    simp [lumped, qpM, dPlateInertia, var, Section2D.dPlateInertia, constsM, Function.update, valsM]

/-- C189, finding: a membrane with nonlinear strain, pulled further by a load factor.  It gets stiffer and its natural frequency rises (derivative 3 of the square); the solver reports 0, because
`internal_residual_jac_dot_state_sensitivity` leaves out the in-plane strain. -/
theorem C189_membrane_fails : ShellOk sheet (valsM 0) 12 ∧ MassOk sheet.hp sheet.card [qpM] ∧ NoOffset sheet [qpM] (valsM 0) 12 ∧ Follows 6 id (pushed 0) (pushed 0 1) (valsM 0 12) ∧
    Mode (onlyM 0) [[sheetModal]] (fun t => (1 + 3 * t + 3 / 2 * t ^ 2) / 2) 3 (fun _ i => if i = 0 then 1 else 0) (fun _ : Fin 6 => 0) (valsM 0 12) ∧
    frequencySens (onlyM 0) false (fun _ : Fin 1 => (0 : Fin 6)) [[sheetModal]] (valsM 0 12) (((1 + 3 + 3 / 2) / 2 : ℝ) : ℂ) (fun _ => 1) = .ok 0 := by
  have hv : valsM 0 12 = 1 := by simp [valsM]
  have hn : ∀ e ∈ [[sheetModal]].flatten, e.n = 6 ∧ e.dof = id := by
    intro e he
    simp only [List.flatten_cons, List.flatten_nil, List.append_nil, List.mem_cons, List.not_mem_nil, or_false] at he
    rw [he]
    exact ⟨rfl, rfl⟩
  have h1 : ∀ i : Fin 6, i ≠ 0 → (if i = 0 then (1 : ℝ) else 0) = 0 := fun i hi => if_neg hi
  have hheld : ∀ i : Fin 6, onlyM 0 i = true → (if i = 0 then (1 : ℝ) else 0) = 0 := fun i hi => h1 i (by rintro rfl; simp [onlyM] at hi)
  refine ⟨⟨⟨progM, rfl⟩, declaresM, derivsM _ _ _, ⟨⟨8, 9, 8, 6, 7⟩, rfl⟩, ?_, Or.inl rfl, ?_⟩, ⟨⟨11, rfl⟩, by simp⟩, fun o ho q _ => ?_, fun a _ => ?_,
    ⟨Filter.Eventually.of_forall fun t => hheld, Filter.Eventually.of_forall fun t y hy => ?_, ?_, fun i => hasDerivAt_const _ _⟩, ?_⟩
  · intro x hx q _
    have h' : (Except.ok 7 : Exec Nat) = .ok x := hx
    rw [← Except.ok.inj h']
    norm_num [sheet, constsM, valsM]
  · intro q hq r i
    simp only [sheet, List.mem_singleton] at hq
    subst hq
    simp [pointM]
  · have h' : (Except.ok 9 : Exec Nat) = .ok o := ho
    rw [← Except.ok.inj h']
    norm_num [sheet, constsM, valsM]
  · unfold pushed
    by_cases h : id a = ((0 : Fin 6) : Nat)
    · simp only [if_pos h]; exact hasDerivAt_id' _
    · simp only [if_neg h]; exact hasDerivAt_const _ _
  · rw [form_one 0 _ _ hn y _ (only_zero (k := 0) hy) h1, form_one 0 _ _ hn y _ (only_zero (k := 0) hy) h1]
    simp only [List.flatten_cons, List.flatten_nil, List.append_nil, List.map_cons, List.map_nil, List.sum_cons, List.sum_nil, Fin.val_zero, sheet_A, sheet_B]
    ring
  · have := ((((hasDerivAt_id' (valsM 0 12)).const_mul 3).const_add 1).fun_add (((hasDerivAt_id' (valsM 0 12)).fun_pow 2).const_mul (3 / 2))).div_const 2
    exact this.congr_deriv (by rw [hv]; norm_num)
  · have := frequency_value (only_free 0) (ps := [[sheetModal]]) (t₀ := valsM 0 12) (fun e he a ha => by
      rw [(hn e he).1] at ha
      rw [(hn e he).2]
      exact ha) (fun i : Fin 6 => if i = 0 then 1 else 0) hheld (by
        rw [form_one 0 _ _ hn _ _ h1 h1]
        simp only [List.flatten_cons, List.flatten_nil, List.append_nil, List.map_cons, List.map_nil, List.sum_cons, List.sum_nil, Fin.val_zero, sheet_B]
        norm_num) ((1 + 3 + 3 / 2) / 2)
    rw [form_one 0 _ _ hn _ _ h1 h1, form_one 0 _ _ hn _ _ h1 h1] at this
    simp only [List.flatten_cons, List.flatten_nil, List.append_nil, List.map_cons, List.map_nil, List.sum_cons, List.sum_nil, Fin.val_zero, (sheet_d _).1, (sheet_d _).2] at this
    norm_num at this
    norm_num
    exact this

/-- A beam with an offset in one plane whose curvature comes from the transverse displacement. -/
noncomputable def exO : Beam.Bqp 1 Unit := ⟨(), 1, fun _ => 1, fun a => if a = (false, 1, 0) then 1 else 0, fun _ => 0⟩
def barO : Card := ⟨[("hy", 8), ("hz", 10), ("Kappazz", 9), ("Kappayy", 9), ("hy_off", 9), ("hz_off", 7)], [("E", 6), ("nu", 7), ("rho", 11)]⟩
noncomputable def beamO : BeamData 1 Unit := ⟨heapM, constsM, barO, none, true, true, [exO]⟩
noncomputable def offModal : MElem := beamModalAt beamO false [qpM] (valsM 1) 12 id (pushed 1) (pushed 1 1)

theorem off_A (t : ℝ) : offModal.A t 1 1 = 3 * t ^ 2 + 6 * t + 13 / 6 := by
  have e : offModal.A t 1 1 = Beam.internalJac none true true (barElem constsM ⟨8, 10, 9, 7, 6, 7⟩ (Function.update (valsM 1) 12 t) [exO]) (fun d => pushed 1 t d.row) (fun _ _ => 0) (false, 1, 0) (false, 1, 0) :=
    flat2_row (n := 1) _ (false, 1, 0) (false, 1, 0)
  rw [e]
  simp [Beam.internalJac, matToGlobal, vecToLocal, Beam.localJac, barElem, Beam.opJac, Beam.jacVk, Beam.axial, Beam.gram, Shell.sandwich, exO, Beam.Bmem, Beam.Bvv, Beam.Bww, Beam.Bbv, Beam.Bbw, Shell.shape, Shell.mv, Shell.app,
    Fin.sum_univ_two, Fintype.sum_prod_type, Fin.sum_univ_three, Beam.vkStrain, Beam.dvx, Beam.dwx, pushed, Dof.row, barSec, Section1D.beamA, Section1D.beamB, Section1D.beamD, Section1D.area, Section1D.areaMoment, Section1D.areaInertia,
    Material.iso1D, constsM, Function.update, valsM]
  ring

theorem off_B (t : ℝ) : offModal.B t 1 1 = 4 := by
  have e : offModal.B t 1 1 = consistent (fun q : Qp 1 Unit => barInertia constsM ⟨8, 10, 9, 7, 6, 7⟩ 11 (Function.update (valsM 1) 12 t) q.x) [qpM] (false, 1, 0) (false, 1, 0) := flat2_row (n := 1) _ (false, 1, 0) (false, 1, 0)
  rw [e]
  simp [consistent, qpM, barInertia, var, Section1D.beamInertia, Section1D.area, constsM, Function.update, valsM]
  try norm_num

theorem off_d : offModal.dA (valsM 1 12) 1 1 = 10 ∧ offModal.dB (valsM 1 12) 1 1 = 0 := by
  constructor
  · have e : offModal.dA (valsM 1 12) 1 1 = (0 : ℝ) + Beam.jacDotGlobal none true (barElem constsM ⟨8, 10, 9, 7, 6, 7⟩ (Function.update (valsM 1) 12 (valsM 1 12)) [exO]) (gather id (pushed 1 (valsM 1 12))) (gather id (pushed 1 1)) (false, 1, 0) (false, 1, 0) :=
      flat2_row (n := 1) _ (false, 1, 0) (false, 1, 0)
    rw [e]
    simp [Beam.jacDotGlobal, matToGlobal, vecToLocal, barElem, Beam.jacDot, Beam.axialDot, gather, Beam.gram, exO, Beam.Bmem, Beam.Bvv, Beam.Bww, Beam.Bbv, Beam.Bbw, Shell.shape, Shell.mv, Shell.app,
      Fin.sum_univ_two, Fintype.sum_prod_type, Fin.sum_univ_three, Beam.dvx, Beam.dwx, pushed, Dof.row, barSec, Section1D.beamA, Section1D.beamB, Section1D.area, Section1D.areaMoment,
      Material.iso1D, constsM, Function.update, valsM]
    try norm_num
  · have e : offModal.dB (valsM 1 12) 1 1 = consistent (fun q : Qp 1 Unit => dBarInertia constsM ⟨8, 10, 9, 7, 6, 7⟩ 11 (Function.update (valsM 1) 12 (valsM 1 12)) 12 q.x) [qpM] (false, 1, 0) (false, 1, 0) :=
      flat2_row (n := 1) _ (false, 1, 0) (false, 1, 0)
    rw [e]
    simp [consistent, qpM, dBarInertia, var, Section1D.dBeamInertia, Section1D.dArea, Section1D.beamInertia, Section1D.area, constsM, Function.update, valsM]

/-- C189, finding: a beam with an offset in one plane and nonlinear strain, pushed further by a load factor.  The derivative of the square of its natural frequency is 3; the solver reports 5/2, because one coupling term of
`internal_residual_jac_dot_state_sensitivity` takes the stiffness of the other plane. -/
theorem C189_offset_fails : BeamOk beamO (valsM 1) 12 ∧ MassOk beamO.hp beamO.card [qpM] ∧ Follows 6 id (pushed 1) (pushed 1 1) (valsM 1 12) ∧
    Mode (onlyM 1) [[offModal]] (fun t => (3 * t ^ 2 + 6 * t + 13 / 6) / 4) 3 (fun _ i => if i = 1 then 1 else 0) (fun _ : Fin 6 => 0) (valsM 1 12) ∧
    frequencySens (onlyM 1) false (fun _ : Fin 1 => (1 : Fin 6)) [[offModal]] (valsM 1 12) (((3 + 6 + 13 / 6) / 4 : ℝ) : ℂ) (fun _ => 1) = .ok (5 / 2) := by
  have hv : valsM 1 12 = 1 := by simp [valsM]
  have hn : ∀ e ∈ [[offModal]].flatten, e.n = 6 ∧ e.dof = id := by
    intro e he
    simp only [List.flatten_cons, List.flatten_nil, List.append_nil, List.mem_cons, List.not_mem_nil, or_false] at he
    rw [he]
    exact ⟨rfl, rfl⟩
  have h1 : ∀ i : Fin 6, i ≠ 1 → (if i = 1 then (1 : ℝ) else 0) = 0 := fun i hi => if_neg hi
  have k1 : ((1 : Fin 6) : Nat) = 1 := rfl
  have hheld : ∀ i : Fin 6, onlyM 1 i = true → (if i = 1 then (1 : ℝ) else 0) = 0 := fun i hi => h1 i (by rintro rfl; simp [onlyM] at hi)
  refine ⟨bar_ok barO (9, 7) rfl rfl true exO 1 12, ⟨⟨11, rfl⟩, by simp⟩, fun a _ => ?_, ⟨Filter.Eventually.of_forall fun t => hheld, Filter.Eventually.of_forall fun t y hy => ?_, ?_, fun i => hasDerivAt_const _ _⟩, ?_⟩
  · unfold pushed
    by_cases h : id a = ((1 : Fin 6) : Nat)
    · simp only [if_pos h]; exact hasDerivAt_id' _
    · simp only [if_neg h]; exact hasDerivAt_const _ _
  · rw [form_one 1 _ _ hn y _ (only_zero (k := 1) hy) h1, form_one 1 _ _ hn y _ (only_zero (k := 1) hy) h1]
    simp only [List.flatten_cons, List.flatten_nil, List.append_nil, List.map_cons, List.map_nil, List.sum_cons, List.sum_nil, k1, off_A, off_B]
    ring
  · have := (((((hasDerivAt_id' (valsM 1 12)).fun_pow 2).const_mul 3).fun_add ((hasDerivAt_id' (valsM 1 12)).const_mul 6)).add_const (13 / 6)).div_const 4
    exact this.congr_deriv (by rw [hv]; norm_num)
  · have := frequency_value (only_free 1) (ps := [[offModal]]) (t₀ := valsM 1 12) (fun e he a ha => by
      rw [(hn e he).1] at ha
      rw [(hn e he).2]
      exact ha) (fun i : Fin 6 => if i = 1 then 1 else 0) hheld (by
        rw [form_one 1 _ _ hn _ _ h1 h1]
        simp only [List.flatten_cons, List.flatten_nil, List.append_nil, List.map_cons, List.map_nil, List.sum_cons, List.sum_nil, k1, off_B]
        norm_num) ((3 + 6 + 13 / 6) / 4)
    rw [form_one 1 _ _ hn _ _ h1 h1, form_one 1 _ _ hn _ _ h1 h1, form_one 1 _ _ hn _ _ h1 h1] at this
    simp only [List.flatten_cons, List.flatten_nil, List.append_nil, List.map_cons, List.map_nil, List.sum_cons, List.sum_nil, k1, off_d.1, off_d.2, off_B] at this
    norm_num at this
    norm_num
    exact this
end

end Verif.Modal
