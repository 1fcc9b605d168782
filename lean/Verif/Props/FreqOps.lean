import Verif.Model.FreqOps
import Verif.Props.FluidOps
import Verif.Props.FreqFluid
/-
  C199: the frequency domain flow element as a whole.
-/
namespace Verif.FreqOps

open Verif.Fluid Complex

section Spec
/-- Conditions the frequency domain element knows: no slip walls are not among them. -/
def Known (loads : List FLoad) : Prop := ∀ L ∈ loads, L.type ≠ .other ∧ L.type ≠ .noslip

/-- The same condition in the time domain element, at the phase `z` of a motion with angular frequency `ω`: the walls move with the amplitudes given. -/
noncomputable def timeLoad (ω : ℝ) (z : ℂ) (L : FLoad) : FluidOps.Load := ⟨L.type, L.qs.map fun q => wallPhase q ω z, fun _ _ => 0⟩

/-- On slip walls the conjugations of C149 are harmless for the amplitude `x`. -/
def Harmless (c : Ctx) (sol : Field) (x : CField) (loads : List FLoad) : Prop :=
  ∀ L ∈ loads, L.type = .slip → ∀ q ∈ L.qs, ConjFree c (interp c q.phi sol) (cinterp c q.phi x) q
end Spec

/-- A fold whose steps succeed and add something. -/
theorem cfold_ok {α : Type} (step : CField → α → Exec CField) (g : α → CField) (l : List α) (h : ∀ f, ∀ x ∈ l, step f x = .ok fun v a => f v a + g x v a) (f : CField) :
    l.foldlM (m := Exec) step f = .ok fun v a => f v a + (l.map fun x => g x v a).sum := by
  induction l generalizing f with
  | nil => simp only [List.foldlM_nil, List.map_nil, List.sum_nil, add_zero]; rfl
  | cons x l ih =>
    rw [List.foldlM_cons, h f x (by simp), FluidOps.ok_bind, ih fun f y hy => h f y (by simp [hy])]
    simp only [List.map_cons, List.sum_cons, add_assoc]

theorem cfold_okM {α : Type} (step : CMat → α → Exec CMat) (g : α → CMat) (l : List α) (h : ∀ f, ∀ x ∈ l, step f x = .ok fun v a u b => f v a u b + g x v a u b) (f : CMat) :
    l.foldlM (m := Exec) step f = .ok fun v a u b => f v a u b + (l.map fun x => g x v a u b).sum := by
  induction l generalizing f with
  | nil => simp only [List.foldlM_nil, List.map_nil, List.sum_nil, add_zero]; rfl
  | cons x l ih =>
    rw [List.foldlM_cons, h f x (by simp), FluidOps.ok_bind, ih fun f y hy => h f y (by simp [hy])]
    simp only [List.map_cons, List.sum_cons, add_assoc]

/-- A fold that meets a step with an error ends with an error. -/
theorem cfold_err {β α : Type} (step : β → α → Exec β) (l : List α) (x : α) (hx : x ∈ l) (h : ∀ f, ∃ e, step f x = .error e) (f : β) : ∃ e, l.foldlM (m := Exec) step f = .error e := by
  induction l generalizing f with
  | nil => simp at hx
  | cons y l ih =>
    rw [List.foldlM_cons]
    cases hs : step f y with
    | error e => exact ⟨e, rfl⟩
    | ok f' =>
      rw [FluidOps.ok_bind]
      rcases List.mem_cons.1 hx with rfl | h'
      · obtain ⟨e, he⟩ := h f
        rw [he] at hs; cases hs
      · exact ih h' f'

/-- Contribution of a condition to the complex residual. -/
noncomputable def part (c : Ctx) (sol : Field) (fr : Freq) (x : CField) (L : FLoad) : CField :=
  match L.type with
  | .symmetry => fun v a => freqSide c (symJac c L.pts sol v a) fr x
  | .slip => freqSlipRes c L.qs sol fr x
  | .far => fun v a => freqSide c (farJac c L.pts sol v a) fr x
  | _ => fun _ _ => 0

/-- Contribution of a condition to the complex Jacobian. -/
noncomputable def partJac (c : Ctx) (sol : Field) (fr : Freq) (L : FLoad) : CMat :=
  match L.type with
  | .symmetry => fun v a u b => (symJac c L.pts sol v a u b : ℂ) * fr.factor
  | .slip => freqSlipJac c L.qs sol fr
  | .far => fun v a u b => (farJac c L.pts sol v a u b : ℂ) * fr.factor
  | _ => fun _ _ _ _ => 0

/-- Contribution of a condition to the sensitivity. -/
noncomputable def partSens (c : Ctx) (sol : Field) (fr : Freq) (dω : ℝ) (dx : CField) (L : FLoad) : CField :=
  match L.type with
  | .symmetry => fun v a => freqSide c (symJac c L.pts sol v a) fr dx
  | .slip => freqSlipSens c L.qs sol dω
  | .far => fun v a => freqSide c (farJac c L.pts sol v a) fr dx
  | _ => fun _ _ => 0

/-- Contribution of a condition to the product of the time domain element. -/
noncomputable def partLin (c : Ctx) (sol D : Field) (L : FluidOps.Load) : Field :=
  match L.type with
  | .symmetry => fun v a => jacMul c (symJac c L.pts sol v a) D
  | .slip => linSlipRes c L.qs sol D
  | .far => fun v a => jacMul c (farJac c L.pts sol v a) D
  | _ => fun _ _ => 0

theorem loadRes_ok (c : Ctx) (sol : Field) (fr : Freq) (x f : CField) (L : FLoad) (h : L.type ≠ .other ∧ L.type ≠ .noslip) :
    loadRes c sol fr x f L = .ok fun v a => f v a + part c sol fr x L v a := by
  unfold loadRes part
  cases ht : L.type <;> simp_all

theorem loadJac_ok (c : Ctx) (sol : Field) (fr : Freq) (J : CMat) (L : FLoad) (h : L.type ≠ .other ∧ L.type ≠ .noslip) :
    loadJac c sol fr J L = .ok fun v a u b => J v a u b + partJac c sol fr L v a u b := by
  unfold loadJac partJac
  cases ht : L.type <;> simp_all

theorem loadSens_ok (c : Ctx) (sol : Field) (fr : Freq) (dω : ℝ) (dx f : CField) (L : FLoad) (h : L.type ≠ .other ∧ L.type ≠ .noslip) :
    loadSens c sol fr dω dx f L = .ok fun v a => f v a + partSens c sol fr dω dx L v a := by
  unfold loadSens partSens
  cases ht : L.type <;> simp_all

theorem loadLin_ok (c : Ctx) (sol D f : Field) (L : FluidOps.Load) (h : L.type ≠ .other ∧ L.type ≠ .noslip) :
    FluidOps.loadLin c sol D f L = .ok fun v a => f v a + partLin c sol D L v a := by
  unfold FluidOps.loadLin partLin
  cases ht : L.type <;> simp_all

theorem elemRes_ok (c : Ctx) (T : Tau) (dc : Shock) (qs : List Qp) (loads : List FLoad) (h : Known loads) (sol : Field) (fr : Freq) (x : CField) :
    elemRes c T dc qs loads sol fr x = .ok fun v a => freqRes c T dc qs sol fr x v a + (loads.map fun L => part c sol fr x L v a).sum := by
  unfold elemRes
  rw [cfold_ok (loadRes c sol fr x) (part c sol fr x) loads fun f L hL => loadRes_ok c sol fr x f L (h L hL)]
  simp only [zero_add]

theorem elemJac_ok (c : Ctx) (T : Tau) (dc : Shock) (qs : List Qp) (loads : List FLoad) (h : Known loads) (sol : Field) (fr : Freq) :
    elemJac c T dc qs loads sol fr = .ok fun v a u b => freqMat c T dc qs sol fr.factor fr.value v a u b + (loads.map fun L => partJac c sol fr L v a u b).sum := by
  unfold elemJac
  rw [cfold_okM (loadJac c sol fr) (partJac c sol fr) loads fun f L hL => loadJac_ok c sol fr f L (h L hL)]
  simp only [zero_add]

theorem elemSens_ok (c : Ctx) (T : Tau) (dc : Shock) (qs : List Qp) (loads : List FLoad) (h : Known loads) (sol : Field) (fr : Freq) (dω : ℝ) (x dx : CField) :
    elemSens c T dc qs loads sol fr dω x dx = .ok fun v a => freqSens c T dc qs sol fr dω x dx v a + (loads.map fun L => partSens c sol fr dω dx L v a).sum := by
  unfold elemSens
  rw [cfold_ok (loadSens c sol fr dω dx) (partSens c sol fr dω dx) loads fun f L hL => loadSens_ok c sol fr dω dx f L (h L hL)]
  simp only [zero_add]

theorem elemProduct_ok (c : Ctx) (T : Tau) (dc : Shock) (qs : List Qp) (loads : List FluidOps.Load) (h : ∀ L ∈ loads, L.type ≠ .other ∧ L.type ≠ .noslip) (sol D Dv : Field) :
    FluidOps.elemProduct c T dc qs loads sol D Dv = .ok fun v a => linInternalRes c T dc qs sol D v a + (loads.map fun L => partLin c sol D L v a).sum + jacMul c (velocityJacXdot c T qs sol v a) Dv := by
  unfold FluidOps.elemProduct FluidOps.sideLin
  rw [FluidOps.fold_ok (FluidOps.loadLin c sol D) (partLin c sol D) loads fun f L hL => loadLin_ok c sol D f L (h L hL)]
  rw [FluidOps.ok_bind]
  have : jacMul c (fun _ _ => 0) D = 0 := by unfold jacMul; simp
  simp only [this, zero_add]

/-- At every phase a condition contributes the amplitude of what it contributes to the product of the time domain element. -/
theorem part_re (c : Ctx) (sol : Field) (fr : Freq) (ω : ℝ) (hω : fr.omega = fr.factor * ω) (x : CField) (L : FLoad)
    (hc : L.type = .slip → ∀ q ∈ L.qs, ConjFree c (interp c q.phi sol) (cinterp c q.phi x) q) (z : ℂ) (v : Var) (a : Nat) :
    (z * part c sol fr x L v a).re = fr.factor * partLin c sol (phase z x) (timeLoad ω z L) v a := by
  have hp : (timeLoad ω z L).pts = L.pts := by
    unfold timeLoad FluidOps.Load.pts FLoad.pts
    rw [List.map_map]; rfl
  have ht' : (timeLoad ω z L).type = L.type := rfl
  have hq' : (timeLoad ω z L).qs = L.qs.map fun q => wallPhase q ω z := rfl
  unfold part partLin
  rw [hp, ht', hq']
  cases ht : L.type with
  | symmetry => exact C148_sides c _ fr x z
  | far => exact C148_sides c _ fr x z
  | slip => exact C149_residual_partial c L.qs sol fr ω hω x (hc ht) z v a
  | noslip => simp
  | dirichlet => simp
  | other => simp

/-- C199 (conditions for which the conjugations of C149 are harmless): with the amplitude `x` of a harmonic motion of angular frequency `ω` the complex residual of a flow element, its sides included, is the amplitude
of the linearized unsteady residual: rotated by the phase of any time `τ`, its real part is the factor `b / V` of a reduced frequency (1 otherwise) times the linearized product of the time domain element for the
motion at `τ`, the time derivative of it, and the motion of the walls at `τ`. -/
theorem C199_amplitude_partial (c : Ctx) (T : Tau) (dc : Shock) (qs : List Qp) (loads : List FLoad) (h : Known loads) (sol : Field) (fr : Freq) (ω : ℝ) (hω : fr.omega = fr.factor * ω)
    (x : CField) (hc : Harmless c sol x loads) (τ : ℝ) (V : Field) (hV : ∀ v a, HasDerivAt (fun s => harmonic ω x s v a) (V v a) τ) :
    ∃ f r, elemRes c T dc qs loads sol fr x = .ok f ∧
      FluidOps.elemProduct c T dc qs (loads.map (timeLoad ω (Complex.exp (I * ω * τ)))) sol (harmonic ω x τ) V = .ok r ∧
      ∀ v a, (Complex.exp (I * ω * τ) * f v a).re = fr.factor * r v a := by
  refine ⟨_, _, elemRes_ok c T dc qs loads h sol fr x, elemProduct_ok c T dc qs _ ?_ sol _ V, fun v a => ?_⟩
  · intro L hL
    obtain ⟨L', hL', rfl⟩ := List.mem_map.1 hL
    exact h L' hL'
  · rw [mul_add, add_re, C148_harmonic c T dc qs sol fr ω hω x τ V hV v a, re_list, C141_velocity_jacobian]
    have e : ((loads.map fun L => (Complex.exp (I * ω * τ) * part c sol fr x L v a).re)).sum =
        fr.factor * ((loads.map (timeLoad ω (Complex.exp (I * ω * τ)))).map fun L => partLin c sol (harmonic ω x τ) L v a).sum := by
      rw [List.map_map, ← List.sum_map_mul_left]
      refine list_congr' loads _ _ fun L hL => ?_
      exact part_re c sol fr ω hω x L (hc L hL) _ v a
    rw [e]; ring

/-- C199: a side with a no slip wall, or a condition of another type, ends residual, Jacobian and sensitivity in an error. -/
theorem C199_unknown (c : Ctx) (T : Tau) (dc : Shock) (qs : List Qp) (loads : List FLoad) (h : ¬Known loads) (sol : Field) (fr : Freq) (dω : ℝ) (x dx : CField) :
    (∃ e, elemRes c T dc qs loads sol fr x = .error e) ∧ (∃ e, elemJac c T dc qs loads sol fr = .error e) ∧ ∃ e, elemSens c T dc qs loads sol fr dω x dx = .error e := by
  unfold Known at h
  push Not at h
  obtain ⟨L, hL, ht⟩ := h
  have ho : L.type = .other ∨ L.type = .noslip := by
    by_cases h1 : L.type = .other
    · exact .inl h1
    · exact .inr (ht h1)
  refine ⟨cfold_err _ loads L hL (fun f => ⟨.error, ?_⟩) _, cfold_err _ loads L hL (fun f => ⟨.error, ?_⟩) _, cfold_err _ loads L hL (fun f => ⟨.error, ?_⟩) _⟩
  · unfold loadRes; rcases ho with e | e <;> rw [e]
  · unfold loadJac; rcases ho with e | e <;> rw [e]
  · unfold loadSens; rcases ho with e | e <;> rw [e]

/-- C199: the order of the sides and of the conditions of a side does not matter. -/
theorem C199_order (c : Ctx) (T : Tau) (dc : Shock) (qs : List Qp) (loads loads' : List FLoad) (hp : loads.Perm loads') (h : Known loads) (sol : Field) (fr : Freq) (x : CField) :
    elemRes c T dc qs loads sol fr x = elemRes c T dc qs loads' sol fr x ∧ elemJac c T dc qs loads sol fr = elemJac c T dc qs loads' sol fr := by
  have h' : Known loads' := fun L hL => h L (hp.mem_iff.2 hL)
  rw [elemRes_ok c T dc qs loads h, elemRes_ok c T dc qs loads' h', elemJac_ok c T dc qs loads h, elemJac_ok c T dc qs loads' h']
  refine ⟨?_, ?_⟩
  · congr 1; funext v a
    rw [(hp.map fun L => part c sol fr x L v a).sum_eq]
  · congr 1; funext v a u b
    rw [(hp.map fun L => partJac c sol fr L v a u b).sum_eq]

theorem cjacMul_vec (c : Ctx) (J : Var → Nat → ℂ) (x y : CField) : cjacMul c J (fun u b => x u b + y u b) = cjacMul c J x + cjacMul c J y := by
  unfold cjacMul
  rw [← Finset.sum_add_distrib]
  refine Finset.sum_congr rfl fun u _ => ?_
  split_ifs
  · rw [← Finset.sum_add_distrib]; exact Finset.sum_congr rfl fun b _ => by ring
  · simp

/-- Walls that slip: the density does not vanish and the normal does not rotate in the steady flow. -/
def Steady (c : Ctx) (sol : Field) (loads : List FLoad) : Prop := ∀ L ∈ loads, L.type = .slip → ∀ q ∈ L.qs, interp c q.phi sol .rho ≠ 0 ∧ q.nrot = none

theorem part_add (c : Ctx) (hd : c.d = 1 ∨ c.d = 2 ∨ c.d = 3) (hv : c.cv ≠ 0) (sol : Field) (fr : Freq) (x δ : CField) (L : FLoad)
    (hs : L.type = .slip → ∀ q ∈ L.qs, interp c q.phi sol .rho ≠ 0 ∧ q.nrot = none) (v : Var) (a : Nat) :
    part c sol fr (fun u b => x u b + δ u b) L v a = part c sol fr x L v a + cjacMul c (partJac c sol fr L v a) δ := by
  have hz : cjacMul c (fun _ _ => 0) δ = 0 := by unfold cjacMul; simp
  unfold part partJac
  cases ht : L.type with
  | symmetry => exact cjacMul_vec c _ x δ
  | far => exact cjacMul_vec c _ x δ
  | slip => exact C149_jacobian_partial c hd hv L.qs sol (fun q hq => (hs ht q hq).1) (fun q hq => (hs ht q hq).2) fr x δ v a
  | noslip => simp [hz]
  | dirichlet => simp [hz]
  | other => simp [hz]

/-- C199 (no steady rotation of the normals of slip walls): the complex Jacobian of an element is exact: for every complex increment the residual changes by the Jacobian times the increment. -/
theorem C199_jacobian_partial (c : Ctx) (hd : c.d = 1 ∨ c.d = 2 ∨ c.d = 3) (hv : c.cv ≠ 0) (T : Tau) (dc : Shock) (qs : List Qp) (loads : List FLoad) (h : Known loads) (sol : Field) (hs : Steady c sol loads)
    (fr : Freq) (x δ : CField) : ∃ f g J, elemRes c T dc qs loads sol fr x = .ok f ∧ elemRes c T dc qs loads sol fr (fun u b => x u b + δ u b) = .ok g ∧
      elemJac c T dc qs loads sol fr = .ok J ∧ ∀ v a, g v a = f v a + cjacMul c (J v a) δ := by
  refine ⟨_, _, _, elemRes_ok c T dc qs loads h sol fr x, elemRes_ok c T dc qs loads h sol fr _, elemJac_ok c T dc qs loads h sol fr, fun v a => ?_⟩
  have e1 : freqRes c T dc qs sol fr (fun u b => x u b + δ u b) v a = freqRes c T dc qs sol fr x v a + cjacMul c (freqMat c T dc qs sol fr.factor fr.value v a) δ :=
    cjacMul_vec c _ x δ
  have e2 : (loads.map fun L => part c sol fr (fun u b => x u b + δ u b) L v a).sum = (loads.map fun L => part c sol fr x L v a).sum + (loads.map fun L => cjacMul c (partJac c sol fr L v a) δ).sum := by
    rw [← clist_add]
    congr 1
    refine List.map_congr_left fun L hL => ?_
    exact part_add c hd hv sol fr x δ L (hs L hL) v a
  rw [e1, e2, cjacMul_add, cjacMul_list c loads (fun L u b => partJac c sol fr L v a u b) δ]
  ring

/-- C199 (no steady rotation of the normals): the amplitude that makes the residual zero is found in one step from any start: if `J δ = - f(x)` then `f(x + δ) = 0`. -/
theorem C199_one_step_partial (c : Ctx) (hd : c.d = 1 ∨ c.d = 2 ∨ c.d = 3) (hv : c.cv ≠ 0) (T : Tau) (dc : Shock) (qs : List Qp) (loads : List FLoad) (h : Known loads) (sol : Field) (hs : Steady c sol loads)
    (fr : Freq) (x δ : CField) (f : CField) (J : CMat) (hf : elemRes c T dc qs loads sol fr x = .ok f) (hJ : elemJac c T dc qs loads sol fr = .ok J)
    (hδ : ∀ v a, cjacMul c (J v a) δ = -f v a) : elemRes c T dc qs loads sol fr (fun u b => x u b + δ u b) = .ok fun _ _ => 0 := by
  obtain ⟨f', g, J', h1, h2, h3, h4⟩ := C199_jacobian_partial c hd hv T dc qs loads h sol hs fr x δ
  have ef : f' = f := Except.ok.inj (h1.symm.trans hf)
  have eJ : J' = J := Except.ok.inj (h3.symm.trans hJ)
  rw [h2]
  congr 1; funext v a
  rw [h4 v a, ef, eJ, hδ v a]; ring

/-- The factor `b / V` and the steady flow do not depend on the parameter; every slip wall has "displacement" or no rotation of its normal. -/
def Plain (loads : List FLoad) : Prop := ∀ L ∈ loads, L.type = .slip → ∀ q ∈ L.qs, q.displ.isSome = true ∨ q.nrot = none

/-- C199 (frequency as parameter, under `Plain`): the vector that the assembly adds for an element is the derivative of the residual of the element at a fixed amplitude, all conditions included. -/
theorem C199_sensitivity_partial (c : Ctx) (T : Tau) (dc : Shock) (qs : List Qp) (loads : List FLoad) (h : Known loads) (hq : Plain loads) (sol : Field) (fr : Freq) (w : ℝ → ℝ) (dω : ℝ)
    (h0 : w 0 = fr.omega) (hw : HasDerivAt w dω 0) (x : CField) :
    ∃ S, asmSens c T dc qs loads sol fr dω x = .ok S ∧ ∃ R : ℝ → CField, (∀ s, elemRes c T dc qs loads sol { fr with omega := w s } x = .ok (R s)) ∧
      ∀ v a, HasDerivAt (fun s => R s v a) (S v a) 0 := by
  refine ⟨_, elemSens_ok c T dc qs loads h sol fr dω x _, _, fun s => elemRes_ok c T dc qs loads h sol _ x, fun v a => ?_⟩
  refine HasDerivAt.fun_add (C148_sensitivity_partial c T dc qs sol fr w dω (fun _ => x) (fun _ _ => 0) h0 hw (fun u b => hasDerivAt_const _ _) v a) ?_
  have hz : ∀ J : Var → Nat → ℝ, freqSide c J fr (fun _ _ => 0) = 0 := by
    intro J; unfold freqSide cjacMul; simp
  have key : ∀ L ∈ loads, HasDerivAt (fun s => part c sol { fr with omega := w s } x L v a) (partSens c sol fr dω (fun _ _ => 0) L v a) 0 := by
    intro L hL
    unfold part partSens
    cases ht : L.type with
    | symmetry => simp only [hz]; exact hasDerivAt_const (0:ℝ) (freqSide c (symJac c L.pts sol v a) fr x)
    | far => simp only [hz]; exact hasDerivAt_const (0:ℝ) (freqSide c (farJac c L.pts sol v a) fr x)
    | slip => exact C149_sensitivity_partial c L.qs sol fr w dω hw x (hq L hL ht) v a
    | noslip => exact hasDerivAt_const _ _
    | dirichlet => exact hasDerivAt_const _ _
    | other => exact hasDerivAt_const _ _
  clear hq h
  induction loads with
  | nil => simpa using hasDerivAt_const (0:ℝ) (0:ℂ)
  | cons L l ih =>
    simp only [List.map_cons, List.sum_cons]
    exact HasDerivAt.fun_add (key L (by simp)) (ih fun L' h' => key L' (by simp [h']))

/-- C199 (no slip walls): when the amplitude depends on the parameter too, and its derivative is given, the sensitivity of an element is the total derivative of the residual. -/
theorem C199_total_partial (c : Ctx) (T : Tau) (dc : Shock) (qs : List Qp) (loads : List FLoad) (h : Known loads) (hq : ∀ L ∈ loads, L.type ≠ .slip) (sol : Field) (fr : Freq) (w : ℝ → ℝ) (dω : ℝ)
    (h0 : w 0 = fr.omega) (hw : HasDerivAt w dω 0) (x : ℝ → CField) (dx : CField) (hx : ∀ u b, HasDerivAt (fun s => x s u b) (dx u b) 0) :
    ∃ S, elemSens c T dc qs loads sol fr dω (x 0) dx = .ok S ∧ ∃ R : ℝ → CField, (∀ s, elemRes c T dc qs loads sol { fr with omega := w s } (x s) = .ok (R s)) ∧
      ∀ v a, HasDerivAt (fun s => R s v a) (S v a) 0 := by
  refine ⟨_, elemSens_ok c T dc qs loads h sol fr dω (x 0) dx, _, fun s => elemRes_ok c T dc qs loads h sol _ (x s), fun v a => ?_⟩
  refine HasDerivAt.fun_add (C148_sensitivity_partial c T dc qs sol fr w dω x dx h0 hw hx v a) ?_
  have key : ∀ L ∈ loads, HasDerivAt (fun s => part c sol { fr with omega := w s } (x s) L v a) (partSens c sol fr dω dx L v a) 0 := by
    intro L hL
    unfold part partSens
    cases ht : L.type with
    | symmetry => exact cjacMul_deriv c (fun u b => (symJac c L.pts sol v a u b : ℂ) * fr.factor) x dx hx
    | far => exact cjacMul_deriv c (fun u b => (farJac c L.pts sol v a u b : ℂ) * fr.factor) x dx hx
    | slip => exact absurd ht (hq L hL)
    | noslip => exact hasDerivAt_const _ _
    | dirichlet => exact hasDerivAt_const _ _
    | other => exact hasDerivAt_const _ _
  clear hq h
  induction loads with
  | nil => simpa using hasDerivAt_const (0:ℝ) (0:ℂ)
  | cons L l ih =>
    simp only [List.map_cons, List.sum_cons]
    exact HasDerivAt.fun_add (key L (by simp)) (ih fun L' h' => key L' (by simp [h']))

/-- Non-vacuity of `C199_total_partial`: a far field and a symmetry plane, and an amplitude that grows linearly. -/
example : ∃ (loads : List FLoad) (x : ℝ → CField) (dx : CField), loads.length = 2 ∧ Known loads ∧ (∀ L ∈ loads, L.type ≠ .slip) ∧ (∀ u b, HasDerivAt (fun s => x s u b) (dx u b) 0) ∧ dx .rho 0 = 1 := by
  refine ⟨[⟨.far, [wallFreq none none fun _ => 0]⟩, ⟨.symmetry, [wallFreq none none fun _ => 0]⟩], fun s _ _ => (s : ℂ), fun _ _ => 1, rfl, ?_, ?_, ?_, rfl⟩
  · intro L hL; fin_cases hL <;> simp
  · intro L hL; fin_cases hL <;> simp
  · intro u b
    have h : HasDerivAt (fun s : ℝ => ((s : ℝ) : ℂ)) ((1 : ℝ) : ℂ) 0 := (hasDerivAt_id (0:ℝ)).ofReal_comp
    simpa using h

/-- C199 (violated): a flow with a no slip wall has a residual and a Jacobian in the time domain and none in the frequency domain. -/
theorem C199_noslip_fails (c : Ctx) (T : Tau) (dc : Shock) (qs : List Qp) (L : FLoad) (hL : L.type = .noslip) (sol vel : Field) (fr : Freq) (x : CField) :
    (∃ r, FluidOps.elemCalc c T dc qs [timeLoad 0 1 L] sol vel = .ok r) ∧ (∃ J, FluidOps.elemJac c T dc qs [timeLoad 0 1 L] sol = .ok J) ∧ elemRes c T dc qs [L] sol fr x = .error .error := by
  have hk : FluidOps.Known [timeLoad 0 1 L] := by intro L' h'; rw [List.mem_singleton.1 h']; show L.type ≠ _; rw [hL]; simp
  refine ⟨⟨_, ((FluidOps.C173_residual c T dc qs _ sol vel).1 hk).1⟩, ⟨_, ((FluidOps.C173_residual c T dc qs _ sol vel).1 hk).2⟩, ?_⟩
  unfold elemRes
  rw [List.foldlM_cons]
  unfold loadRes
  rw [hL]; rfl

/-- C199 (violated): with the derivative of the amplitude given, the sensitivity of an element with a slip wall is not the total derivative: the wall leaves that derivative out.  Gas at rest at the wall of a line
flow, amplitude `s` of the energy: the pressure on the wall grows with `s`, the sensitivity reports nothing. -/
theorem C199_total_fails : ∃ (c : Ctx) (loads : List FLoad) (sol : Field) (fr : Freq) (dx : CField), Known loads ∧ Plain loads ∧ Steady c sol loads ∧ ∀ (T : Tau) (dc : Shock),
    elemSens c T dc [] loads sol fr 0 (fun _ _ => 0) dx = .ok (fun _ _ => 0) ∧
    ∃ R : ℝ → CField, (∀ s : ℝ, elemRes c T dc [] loads sol fr (fun u b => (s : ℂ) * dx u b) = .ok (R s)) ∧ ∀ s, R s .m1 0 = (s : ℂ) * (2 / 5) := by
  refine ⟨⟨1, 2, 7, 5, false⟩, [⟨.slip, [wallFreq none none fun _ => 0]⟩], fun v _ => consOf 1 5 1 0 0 0 1 v, ⟨0, 1, 1, false⟩, fun u b => if u = .en ∧ b = 0 then 1 else 0, ?_, ?_, ?_, ?_⟩
  · intro L hL; rw [List.mem_singleton.1 hL]; simp
  · intro L hL _ q hq
    rw [List.mem_singleton.1 hL] at hq
    rw [List.mem_singleton.1 hq]; exact .inr rfl
  · intro L hL _ q hq
    rw [List.mem_singleton.1 hL] at hq
    rw [List.mem_singleton.1 hq]
    exact ⟨by simp [wallFreq, wallPt, interp, act, consOf], rfl⟩
  · intro T dc
    have hk : Known [⟨.slip, [wallFreq none none fun _ => 0]⟩] := by intro L hL; rw [List.mem_singleton.1 hL]; simp
    refine ⟨?_, _, fun s => elemRes_ok _ T dc [] _ hk _ _ _, fun s => ?_⟩
    · rw [elemSens_ok _ T dc [] _ hk]
      congr 1; funext v a
      simp [freqSens, freqMat, internalJac, velocityJacXdot, cjacMul, partSens, freqSlipSens, edot, wallFreq, FreqWallQp.Dw']
    · simp [freqRes, freqMat, internalJac, velocityJacXdot, cjacMul, part, freqSlipRes, freqSlipFlux, wallFreq, wallPt, FreqWallQp.Dw', FreqWallQp.Dn', FreqWallQp.dn', FreqWallQp.w', edot, cmomEntry,
        Fin.sum_univ_three, sideNormal, consOf, interp, cinterp, act, Finset.sum_range_succ, Freq.factor, Freq.value, cduv, cdp, prim, uini, uv]
      ring

/-- Non-vacuity of C199: an element of a line flow with a far field, a symmetry plane and a slip wall that moves with a real displacement; the amplitude of the solution is imaginary. -/
example : ∃ (c : Ctx) (loads : List FLoad) (sol : Field) (x : CField), c.d = 1 ∧ c.cv ≠ 0 ∧ loads.length = 3 ∧ Known loads ∧ Harmless c sol x loads ∧ Steady c sol loads ∧ Plain loads ∧ x .m1 0 = I := by
  refine ⟨⟨1, 2, 7, 5, false⟩, [⟨.far, [wallFreq none none fun _ => 0]⟩, ⟨.symmetry, [wallFreq none none fun _ => 0]⟩, ⟨.slip, [wallFreq none none fun _ => 1]⟩], fun v _ => consOf 1 5 1 1 0 0 1 v, fun _ _ => I,
    rfl, by norm_num, rfl, ?_, ?_, ?_, ?_, rfl⟩
  · intro L hL; fin_cases hL <;> simp
  · intro L hL ht q hq
    fin_cases hL
    · simp at ht
    · simp at ht
    · have e := List.mem_singleton.1 hq
      subst e
      exact conjFree_real _ _ _ _ rfl fun i => by simp [wallFreq, FreqWallQp.Dw']
  · intro L hL ht q hq
    fin_cases hL
    · simp at ht
    · simp at ht
    · have e := List.mem_singleton.1 hq
      subst e
      exact ⟨by simp [wallFreq, wallPt, interp, act, consOf], rfl⟩
  · intro L hL ht q hq
    fin_cases hL
    · simp at ht
    · simp at ht
    · have e := List.mem_singleton.1 hq
      subst e
      exact .inr rfl

end Verif.FreqOps
