import Verif.Model.SteadyCompliance
import Verif.Props.SteadyLoads
import Verif.Props.Compliance
/-! C192: compliance of a structure of beams and shells in a steady analysis, and its sensitivity by the direct and the adjoint method. -/
namespace Verif.Steady
open Verif Finset Verif.SecDep Verif.GeomElem Verif.StructLoads

variable {n : Nat}

/-! ## Specification -/

/-- All elements of the structure. -/
def allParts (ps : List PartProc) : List Part := ps.flatMap fun q => q.parts

/-- The loads of an element as they enter its residual, all side loads and all volume loads added up. -/
def loadRes (A : Attached n) (t : ℝ) (u : Dof n → ℝ) : Dof n → ℝ :=
  ((attachedSide A.nSides A.ids A.sides).map fun e => if SideLoad e.2.kind then (e.2.side e.1).res t u else 0).sum + ((attachedVol A.sid A.vols).map fun l => l.vol.res t u).sum
/-- Their sensitivities. -/
def loadSens (A : Attached n) (t : ℝ) (u : Dof n → ℝ) : Dof n → ℝ :=
  ((attachedSide A.nSides A.ids A.sides).map fun e => if SideLoad e.2.kind then (e.2.side e.1).sens t u else 0).sum + ((attachedVol A.sid A.vols).map fun l => l.vol.sens t u).sum
/-- Their Jacobians. -/
def loadJac (A : Attached n) (t : ℝ) (u : Dof n → ℝ) : Dof n → Dof n → ℝ :=
  ((attachedSide A.nSides A.ids A.sides).map fun e => if SideLoad e.2.kind then (e.2.side e.1).jac t u else 0).sum + ((attachedVol A.sid A.vols).map fun l => l.vol.jac t u).sum

/-- The unknowns of an element. -/
def Part.sol (e : Part) (X : Nat → ℝ) : Dof e.n → ℝ := fun d => X (e.dof d.row)

/-- Work of the loads of the included elements (a load enters the residual with a minus sign) through the displacement. -/
noncomputable def loadWork (ps : List PartProc) (t : ℝ) (X w : Nat → ℝ) : ℝ :=
  (((allParts ps).filter fun e => e.eval).map fun e => -∑ d, loadRes e.loads t (e.sol X) d * e.sol w d).sum

/-- Work through the displacement of the change of the loads that the change `w` of the displacement causes. -/
noncomputable def followWork (ps : List PartProc) (t : ℝ) (X w : Nat → ℝ) : ℝ :=
  (((allParts ps).filter fun e => e.eval).map fun e => -∑ d, (∑ b, loadJac e.loads t (e.sol X) d b * e.sol w b) * e.sol X d).sum

/-- The loads of the element do not depend on the displacement. -/
def DeadLoads (A : Attached n) : Prop :=
  (∀ e ∈ attachedSide A.nSides A.ids A.sides, SideLoad e.2.kind → ∀ t u w, (e.2.side e.1).res t u = (e.2.side e.1).res t w) ∧ ∀ l ∈ attachedVol A.sid A.vols, ∀ t u w, l.vol.res t u = l.vol.res t w

/-- Section, material and shape of the element are as C186 asks, for the solution `u` and its rate `w`. -/
def BodyOk (v : Nat → ℝ) (p : Nat) (u w : Nat → ℝ) (e : Part) : Prop := match e.body with
  | .beam E => BeamOk E v p
  | .shell E => ShellOk E v p ∧ (TangentOk E fun b => u (e.dof b)) ∧ DrillFree E.T e.n fun b => w (e.dof b)

/-! ## Loads of one element -/

theorem member_res (A : Attached n) (hA : Accepted A) (dof : Nat → Nat) (ev sk : Bool) (t : ℝ) (u : Nat → ℝ) (d : Dof n) :
    (loadMember A dof ev sk t).side u d.row + (loadMember A dof ev sk t).vol u d.row = loadRes A t (fun d => u d.row) d := by
  simp only [loadMember]
  rw [C113_side, C113_volume, if_pos hA.1, if_pos hA.2]
  simp only [loadVec, flat_row, zero_add, loadRes, Pi.add_apply]

theorem member_sens (A : Attached n) (hA : Accepted A) (dof : Nat → Nat) (ev sk : Bool) (t : ℝ) (u : Nat → ℝ) (d : Dof n) :
    (loadMember A dof ev sk t).sideSens u d.row + (loadMember A dof ev sk t).volSens u d.row = loadSens A t (fun d => u d.row) d := by
  simp only [loadMember]
  rw [sens_acts.1, sens_acts.2, C113_side, C113_volume, if_pos hA.1, if_pos hA.2]
  simp only [loadVec, flat_row, zero_add, loadSens, Pi.add_apply]

theorem load_motion (A : Attached n) {t₀ : ℝ} (hl : LoadsOk A t₀) (U : ℝ → Dof n → ℝ) (U' : Dof n → ℝ) (hU : ∀ b, HasDerivAt (fun t => U t b) (U' b) t₀) (d : Dof n) :
    HasDerivAt (fun t => loadRes A t (U t) d) (loadSens A t₀ (U t₀) d + ∑ b, loadJac A t₀ (U t₀) d b * U' b) t₀ := by
  have h1 := side_rate (attachedSide A.nSides A.ids A.sides) t₀ U U' (fun e he hk => hl.1 e he hk _ _ hU) d
  have h2 := vol_rate (attachedVol A.sid A.vols) t₀ U U' (fun e he => hl.2 e he _ _ hU) d
  simp only [loadRes, loadSens, loadJac, Pi.add_apply, add_mul, Finset.sum_add_distrib]
  exact (h1.fun_add h2).congr_deriv (by ring)

theorem dead_res {A : Attached n} (hd : DeadLoads A) (t : ℝ) (u w : Dof n → ℝ) : loadRes A t u = loadRes A t w := by
  unfold loadRes
  congr 2
  · refine List.map_congr_left fun e he => ?_
    by_cases hk : SideLoad e.2.kind
    · rw [if_pos hk, if_pos hk, hd.1 e he hk t u w]
    · rw [if_neg hk, if_neg hk]
  · exact List.map_congr_left fun l hl => hd.2 l hl t u w

/-- C192: consistent routines of loads that do not depend on the displacement have no Jacobian. -/
theorem C192_dead_stiffness (A : Attached n) {t₀ : ℝ} (hl : LoadsOk A t₀) (hd : DeadLoads A) (u w : Dof n → ℝ) (d : Dof n) : ∑ b, loadJac A t₀ u d b * w b = 0 := by
  have h1 := load_motion A hl (fun _ => u) (fun _ => 0) (fun b => hasDerivAt_const _ _) d
  have h2 := load_motion A hl (fun t b => u b + (t - t₀) * w b) w (fun b => by simpa using (((hasDerivAt_id t₀).sub_const t₀).mul_const (w b)).const_add (u b)) d
  have e : (fun t => loadRes A t (fun b => u b + (t - t₀) * w b) d) = fun t => loadRes A t u d := by
    funext t
    rw [dead_res hd t _ u]
  rw [e] at h2
  have h := h2.unique h1
  simp only [sub_self, zero_mul, add_zero, mul_zero, Finset.sum_const_zero] at h
  linarith

/-! ## The output -/

theorem flat_parts (ps : List PartProc) (f : Part → Compliance.Elem) : (ps.map fun q => q.parts.map f).flatten = (allParts ps).map f := by
  induction ps with
  | nil => rfl
  | cons q ps ih => simp only [List.map_cons, List.flatten_cons, ih, allParts, List.flatMap_cons, List.map_append]

theorem counts_filter (l : List Part) (f : Part → Compliance.Elem) (hf : ∀ e, (f e).diag = false ∧ (f e).eval = e.eval) :
    (l.map f).filter (fun m => Compliance.Counts m) = (l.filter fun e => e.eval).map f := by
  rw [List.filter_map]
  congr 1
  refine List.filter_congr fun e _ => ?_
  simp [Compliance.Counts, hf e]

theorem part_work (e : Part) (hA : Accepted e.loads) (ev sk : Bool) (t : ℝ) (X w : Nat → ℝ) :
    Compliance.elemWork (loadMember e.loads e.dof ev sk t) X w = -∑ d, loadRes e.loads t (e.sol X) d * e.sol w d := by
  unfold Compliance.elemWork Compliance.force
  have en : (loadMember e.loads e.dof ev sk t).n = 6 * e.n := rfl
  rw [en, sum_rows (n := e.n), ← Finset.sum_neg_distrib]
  refine Finset.sum_congr rfl fun d _ => ?_
  rw [member_res e.loads hA e.dof ev sk t (fun b => X ((loadMember e.loads e.dof ev sk t).dof b)) d, neg_mul]
  rfl

/-- C192: the compliance is the work of all side and volume loads of the included elements through the displacement, however the elements are distributed and whatever the object held before. -/
theorem C192_value (ps : List PartProc) (hA : ∀ e ∈ allParts ps, Accepted e.loads) (s : Compliance.St) (t : ℝ) (X : Nat → ℝ) : compliance ps s t X = loadWork ps t X X := by
  have h := Compliance.C132_value X (ps.map fun q => q.parts.map fun e => loadMember e.loads e.dof e.eval false t) s
  rw [List.map_map] at h
  refine Eq.trans h ?_
  rw [Compliance.work, flat_parts, counts_filter _ _ fun e => ⟨rfl, rfl⟩, List.map_map]
  exact Compliance.list_sum_congr _ _ _ fun e he => part_work e (hA e (List.mem_of_mem_filter he)) e.eval false t X X

/-- Contribution of an element to the sensitivity. -/
noncomputable def sensPart (t : ℝ) (X : Nat → ℝ) (dX : Option (Nat → ℝ)) (e : Part) : ℝ :=
  -∑ d, loadSens e.loads t (e.sol X) d * e.sol X d - ∑ d, loadRes e.loads t (e.sol X) d * e.sol (Compliance.dirOf dX) d

theorem part_sens (e : Part) (hA : Accepted e.loads) (sk : Bool) (t : ℝ) (X : Nat → ℝ) (dX : Option (Nat → ℝ)) (st : Compliance.St) (hev : e.eval = true) :
    (Compliance.evaluateSens (loadMember e.loads e.dof e.eval sk t) (Compliance.sol (loadMember e.loads e.dof e.eval sk t) X) (Compliance.solSens (loadMember e.loads e.dof e.eval sk t) dX) st).sens =
      st.sens + sensPart t X dX e := by
  have ev : (loadMember e.loads e.dof e.eval sk t).eval = true := hev
  have en : (loadMember e.loads e.dof e.eval sk t).n = 6 * e.n := rfl
  unfold Compliance.evaluateSens
  rw [if_pos ev]
  simp only [Compliance.dot, en]
  rw [sum_rows (n := e.n), sum_rows (n := e.n)]
  have h1 : ∀ d : Dof e.n, Compliance.extSens (loadMember e.loads e.dof e.eval sk t) (Compliance.sol (loadMember e.loads e.dof e.eval sk t) X) d.row = loadSens e.loads t (e.sol X) d := fun d => by
    unfold Compliance.extSens
    rw [zero_add, member_sens e.loads hA]
    rfl
  have h2 : ∀ d : Dof e.n, Compliance.ext (loadMember e.loads e.dof e.eval sk t) (Compliance.sol (loadMember e.loads e.dof e.eval sk t) X) d.row = loadRes e.loads t (e.sol X) d := fun d => by
    unfold Compliance.ext
    rw [zero_add, member_res e.loads hA]
    rfl
  simp only [h1, h2, sensPart]
  have h3 : ∀ d : Dof e.n, Compliance.solSens (loadMember e.loads e.dof e.eval sk t) dX d.row = e.sol (Compliance.dirOf dX) d := fun d => by
    cases dX <;> rfl
  simp only [h3]
  have h4 : ∀ d : Dof e.n, Compliance.sol (loadMember e.loads e.dof e.eval sk t) X d.row = e.sol X d := fun d => rfl
  simp only [h4]
  ring

theorem fold_parts (override : Bool) (t : ℝ) (X : Nat → ℝ) (dX : Option (Nat → ℝ)) (l : List Part) (hA : ∀ e ∈ l, Accepted e.loads) (st : Compliance.St) :
    ((l.map fun e => loadMember e.loads e.dof e.eval (skipped override dX.isSome e) t).foldl (fun s e => if e.diag then s else if e.skip then s else if e.eval then
      Compliance.evaluateSens e (Compliance.sol e X) (Compliance.solSens e dX) s else s) st).sens =
      st.sens + ((l.filter fun e => e.eval).map fun e => if skipped override dX.isSome e then 0 else sensPart t X dX e).sum := by
  induction l generalizing st with
  | nil => simp
  | cons e l ih =>
    rw [List.map_cons, List.foldl_cons, ih fun x hx => hA x (List.mem_cons_of_mem _ hx)]
    have hd : (loadMember e.loads e.dof e.eval (skipped override dX.isSome e) t).diag = false := rfl
    have hs : (loadMember e.loads e.dof e.eval (skipped override dX.isSome e) t).skip = skipped override dX.isSome e := rfl
    have he : (loadMember e.loads e.dof e.eval (skipped override dX.isSome e) t).eval = e.eval := rfl
    rw [hd, hs, he]
    by_cases hev : e.eval = true
    · have hp := part_sens e (hA e List.mem_cons_self) (skipped override dX.isSome e) t X dX st hev
      rw [hev] at hp
      by_cases hk : skipped override dX.isSome e = true
      · simp [hev, hk]
      · simp only [Bool.not_eq_true] at hk
        rw [hk] at hp
        simp only [hev, hk, Bool.false_eq_true, if_false, if_true, List.filter_cons_of_pos, List.map_cons, List.sum_cons]
        rw [hp]
        ring
    · simp [hev]

/-- C192: the sensitivity is, over the included elements that are not skipped, the work of the load sensitivities through the displacement and of the loads through the given displacement sensitivity. -/
theorem C192_sens_value (ps : List PartProc) (hA : ∀ e ∈ allParts ps, Accepted e.loads) (override : Bool) (s : Compliance.St) (t : ℝ) (X : Nat → ℝ) (dX : Option (Nat → ℝ)) :
    complianceSens ps override s t X dX = (((allParts ps).filter fun e => e.eval).map fun e => if skipped override dX.isSome e then 0 else sensPart t X dX e).sum := by
  unfold complianceSens Compliance.sensTotal
  rw [List.map_map]
  induction ps with
  | nil => rfl
  | cons q ps ih =>
    have hq : ∀ e ∈ q.parts, Accepted e.loads := fun e he => hA e (List.mem_append_left _ he)
    rw [List.map_cons, List.sum_cons, ih fun e he => hA e (List.mem_append_right _ he)]
    simp only [Function.comp_apply, Compliance.calculateSens]
    rw [fold_parts override t X dX q.parts hq]
    simp only [Compliance.zeroForSensitivity, zero_add, allParts, List.flatMap_cons, List.filter_append, List.map_append, List.sum_append]

/-- C192: along any motion of the structure with the parameter, if no included element is skipped wrongly, the derivative of the compliance is the sensitivity computed with the rate of the displacement, plus the work through
the displacement of the change of the loads caused by the motion. -/
theorem C192_rate (ps : List PartProc) (hA : ∀ e ∈ allParts ps, Accepted e.loads) (override : Bool) (s : Compliance.St) (t₀ : ℝ) (hl : ∀ e ∈ allParts ps, e.eval = true → LoadsOk e.loads t₀)
    (hskip : override = false ∨ ∀ e ∈ allParts ps, e.eval = true → e.asked = true) (X : ℝ → Nat → ℝ) (X' : Nat → ℝ) (hX : ∀ e ∈ allParts ps, ∀ a < 6 * e.n, HasDerivAt (fun t => X t (e.dof a)) (X' (e.dof a)) t₀) :
    HasDerivAt (fun t => compliance ps s t (X t)) (complianceSens ps override s t₀ (X t₀) (some X') + followWork ps t₀ (X t₀) X') t₀ := by
  simp only [C192_value ps hA]
  rw [C192_sens_value ps hA]
  unfold followWork loadWork
  rw [← Compliance.list_add]
  refine Compliance.hasDeriv_listsum ((allParts ps).filter fun e => e.eval) (fun (e : Part) t => -∑ d, loadRes e.loads t (e.sol (X t)) d * e.sol (X t) d)
    (fun e => (if skipped override (some X').isSome e = true then 0 else sensPart t₀ (X t₀) (some X') e) + -∑ d, (∑ b, loadJac e.loads t₀ (e.sol (X t₀)) d b * e.sol X' b) * e.sol (X t₀) d) t₀ fun e he => ?_
  show HasDerivAt (fun t => -∑ d, loadRes e.loads t (e.sol (X t)) d * e.sol (X t) d)
    ((if skipped override (some X').isSome e = true then 0 else sensPart t₀ (X t₀) (some X') e) + -∑ d, (∑ b, loadJac e.loads t₀ (e.sol (X t₀)) d b * e.sol X' b) * e.sol (X t₀) d) t₀
  have hm := List.mem_of_mem_filter he
  have hev : e.eval = true := by simpa using (List.mem_filter.1 he).2
  have hk : skipped override (some X').isSome e = false := by
    rcases hskip with h | h
    · simp [skipped, h]
    · simp [skipped, h e hm hev]
  rw [hk]
  simp only [Bool.false_eq_true, if_false, sensPart]
  have hU : ∀ b : Dof e.n, HasDerivAt (fun t => e.sol (X t) b) (e.sol X' b) t₀ := fun b => hX e hm _ (C111_rows.2.1 b)
  have hs := HasDerivAt.fun_sum (u := Finset.univ) (A := fun d t => loadRes e.loads t (e.sol (X t)) d * e.sol (X t) d)
    (A' := fun d => (loadSens e.loads t₀ (e.sol (X t₀)) d + ∑ b, loadJac e.loads t₀ (e.sol (X t₀)) d b * e.sol X' b) * e.sol (X t₀) d + loadRes e.loads t₀ (e.sol (X t₀)) d * e.sol X' d)
    fun d _ => (load_motion e.loads (hl e hm hev) (fun t => e.sol (X t)) (e.sol X') hU d).fun_mul (hU d)
  refine hs.fun_neg.congr_deriv ?_
  simp only [add_mul, Finset.sum_add_distrib]
  have : e.sol (Compliance.dirOf (some X')) = e.sol X' := rfl
  rw [this]
  ring

/-- C192: so with loads that follow the displacement the computed sensitivity is wrong whenever the change of the loads does work. -/
theorem C192_follower_fails (ps : List PartProc) (hA : ∀ e ∈ allParts ps, Accepted e.loads) (override : Bool) (s : Compliance.St) (t₀ : ℝ) (hl : ∀ e ∈ allParts ps, e.eval = true → LoadsOk e.loads t₀)
    (hskip : override = false ∨ ∀ e ∈ allParts ps, e.eval = true → e.asked = true) (X : ℝ → Nat → ℝ) (X' : Nat → ℝ) (hX : ∀ e ∈ allParts ps, ∀ a < 6 * e.n, HasDerivAt (fun t => X t (e.dof a)) (X' (e.dof a)) t₀)
    (hf : followWork ps t₀ (X t₀) X' ≠ 0) : ¬ HasDerivAt (fun t => compliance ps s t (X t)) (complianceSens ps override s t₀ (X t₀) (some X')) t₀ := by
  intro h
  have := h.unique (C192_rate ps hA override s t₀ hl hskip X X' hX)
  exact hf (by linarith)

theorem dead_follow (ps : List PartProc) (t₀ : ℝ) (hl : ∀ e ∈ allParts ps, e.eval = true → LoadsOk e.loads t₀) (hd : ∀ e ∈ allParts ps, e.eval = true → DeadLoads e.loads) (X w : Nat → ℝ) : followWork ps t₀ X w = 0 := by
  unfold followWork
  refine (Compliance.list_sum_congr _ _ (fun _ => 0) fun e he => ?_).trans (by simp)
  have hm := List.mem_of_mem_filter he
  have hev : e.eval = true := by simpa using (List.mem_filter.1 he).2
  have h0 : ∀ d, ∑ b, loadJac e.loads t₀ (e.sol X) d b * e.sol w b = 0 := fun d => C192_dead_stiffness e.loads (hl e hm hev) (hd e hm hev) _ _ d
  simp only [h0, zero_mul, Finset.sum_const_zero, neg_zero]

/-! ## Loads that do not depend on the displacement -/

/-- C192: pressure on the element and on its sides, traction, and temperature with linear strain do not depend on the displacement. -/
theorem C192_dead_loads {X : Type} (T : Option (Fin 3 → Fin 3 → ℝ)) (dim : Nat) (bend : Bool) (h p : Fam X ℝ) (tr : Fam X (Fin 3 → ℝ)) (pts : List (Qp n X)) (scaling : ℝ → ℝ) (ths : Fam (Shell.Sqp n X) Shell.Thermal) (qs : List (Shell.Sqp n X))
    (thb : Fam (Beam.Bqp n X) Beam.Thermal) (qb : List (Beam.Bqp n X)) (t : ℝ) (u w : Dof n → ℝ) :
    (pressureOp T dim p pts).res t u = (pressureOp T dim p pts).res t w ∧ (sidePressureOp T h p pts).res t u = (sidePressureOp T h p pts).res t w ∧ (tractionOp T h tr pts).res t u = (tractionOp T h tr pts).res t w ∧
    (thermalShellOp T false bend scaling ths qs).res t u = (thermalShellOp T false bend scaling ths qs).res t w ∧ (thermalBeamOp T false bend scaling thb qb).res t u = (thermalBeamOp T false bend scaling thb qb).res t w := by
  refine ⟨rfl, rfl, rfl, ?_, ?_⟩
  · have e : ∀ u w : Dof n → ℝ, Shell.thermalLocal false bend (qs.map fun q => (q, ths.val t q)) u = Shell.thermalLocal false bend (qs.map fun q => (q, ths.val t q)) w := fun u w => by
      funext a
      simp [Shell.thermalLocal, Shell.thermalOp]
    simp only [thermalShellOp, Shell.thermalRes, globalRes]
    rw [e (vecToLocal T u) (vecToLocal T w)]
  · simp [thermalBeamOp, Beam.thermalRes, Beam.loadOp, globalRes]

/-! ## The analysis -/

theorem all_proc (ps : List PartProc) (v : Nat → ℝ) (p : Nat) : allElems (ps.map (PartProc.proc v p)) = (allParts ps).map (Part.elem v p) := by
  unfold allElems allParts
  induction ps with
  | nil => rfl
  | cons q ps ih => simp only [List.map_cons, List.flatMap_cons, ih, List.map_append, PartProc.proc]

theorem elem_shape (v : Nat → ℝ) (p : Nat) (e : Part) : (e.elem v p).n = 6 * e.n ∧ (e.elem v p).dof = e.dof ∧ (e.elem v p).asked = e.asked ∧ (e.elem v p).diag = false := by
  unfold Part.elem
  cases e.body <;> exact ⟨rfl, rfl, rfl, rfl⟩

theorem part_loaded {v : Nat → ℝ} {p : Nat} {u w : Nat → ℝ} {e : Part} (h : BodyOk v p u w e) (hA : Accepted e.loads) (hl : LoadsOk e.loads (v p)) : IsLoaded v p u w (e.elem v p) := by
  obtain ⟨n, body, A, dof, asked, eval⟩ := e
  cases body with
  | beam E => exact .beam E A dof asked h hA hl
  | shell E => exact .shell E A dof asked h.1 hA hl h.2.1 h.2.2

theorem loaded_along {N : Nat} {v : Nat → ℝ} {p : Nat} {X : ℝ → Fin N → ℝ} {X' : Fin N → ℝ} {e : PElem} (h : IsLoaded v p (ext (X (v p))) (ext X') e)
    (hU : ∀ a < e.n, HasDerivAt (fun t => ext (X t) (e.dof a)) (ext X' (e.dof a)) (v p)) : RateAlong e (v p) (fun t b => ext (X t) (e.dof b)) fun b => ext X' (e.dof b) := by
  cases h with
  | beam E A dof asked h hA hl => exact C188_beam E A v p dof asked h hA hl _ _ hU
  | shell E A dof asked h hA hl ht hd => exact C188_shell_partial E A v p dof asked h hA hl _ _ hU ht hd

/-- C192: compliance of a steady structure of beams and shells with side, volume and point loads: the sensitivity computed with the result of `sensitivity_solve` is the derivative of the compliance.
Partial: the exclusions of C188; loads of the included elements that depend on the displacement (C192_follower_fails); with `override_flag` every included element must be said to depend on the parameter (C192_override_fails). -/
theorem C192_direct_partial {N : Nat} (ls : Sens.LinSolver N) (hls : ls.Correct) {C : Nat → Bool} {loads : List PLoad} {ps : List PartProc} {v : Nat → ℝ} {p : Nat} {X : ℝ → Fin N → ℝ} {X' : Fin N → ℝ}
    (hA : ∀ e ∈ allParts ps, Accepted e.loads) (hlo : ∀ e ∈ allParts ps, LoadsOk e.loads (v p)) (hm : ∀ e ∈ allParts ps, BodyOk v p (ext (X (v p))) (ext X') e) (hdead : ∀ e ∈ allParts ps, e.eval = true → DeadLoads e.loads)
    (hdof : ∀ e ∈ allParts ps, ∀ a < 6 * e.n, e.dof a < N) (hask : ∀ e ∈ allParts ps, e.asked = true ∨ ∀ a < 6 * e.n, (e.elem v p).sens (v p) (fun b => ext (X (v p)) (e.dof b)) a = 0)
    (hl : ∀ l ∈ loads, ∀ a < l.n, HasDerivAt (fun t => l.load t a) (l.dload (v p) a) (v p)) (hown : ∀ i < N, OwnedOnce (ps.map (PartProc.proc v p)) i) (hB : Branch C loads (ps.map (PartProc.proc v p)) X X' (v p))
    (hreg : IsUnit (Matrix.of fun i j : Fin N => sysJac C (ps.map (PartProc.proc v p)) (v p) (ext (X (v p))) i j).det) (override : Bool)
    (hskip : override = false ∨ ∀ e ∈ allParts ps, e.eval = true → e.asked = true) (s : Compliance.St) :
    HasDerivAt (fun t => compliance ps s t (ext (X t))) (complianceSens ps override s (v p) (ext (X (v p))) (some (ext (sensitivitySolve ls C loads (ps.map (PartProc.proc v p)) (v p) (X (v p)))))) (v p) := by
  have hsol : sensitivitySolve ls C loads (ps.map (PartProc.proc v p)) (v p) (X (v p)) = X' := by
    refine C188_structure_partial ls hls (fun e he => ?_) (fun e he => ?_) (fun e he => ?_) hl hown hB hreg <;> rw [all_proc] at he <;> obtain ⟨q, hq, rfl⟩ := List.mem_map.1 he
    · exact part_loaded (hm q hq) (hA q hq) (hlo q hq)
    · rw [(elem_shape v p q).1, (elem_shape v p q).2.1]
      exact hdof q hq
    · rw [(elem_shape v p q).1, (elem_shape v p q).2.1, (elem_shape v p q).2.2.1]
      exact hask q hq
  rw [hsol]
  have h := C192_rate ps hA override s (v p) (fun e he _ => hlo e he) hskip (fun t => ext (X t)) (ext X') fun e he a ha => by
    simp only [ext_lt _ (hdof e he a ha)]
    exact hB.rate _
  rw [dead_follow ps (v p) (fun e he _ => hlo e he) hdead, add_zero] at h
  exact h

theorem deriv_pair {N : Nat} {C : Nat → Bool} {ps : List PartProc} (hA : ∀ e ∈ allParts ps, Accepted e.loads) (hdof : ∀ e ∈ allParts ps, ∀ a < 6 * e.n, e.dof a < N) (t : ℝ) (X : Nat → ℝ) (w : Fin N → ℝ)
    (hw : ∀ i : Fin N, C i = true → w i = 0) : ∑ i : Fin N, complianceDeriv C ps t X i * w i = loadWork ps t X (ext w) := by
  have h := Compliance.derivative_pairing C N X (ext w) (ps.map fun q => q.parts.map fun e => loadMember e.loads e.dof e.eval false t) (by
    intro m hm a ha
    rw [flat_parts] at hm
    obtain ⟨e, he, rfl⟩ := List.mem_map.1 hm
    exact hdof e he a ha) (by
    intro i hi
    by_cases h : i < N
    · rw [ext_lt _ h]; exact hw ⟨i, h⟩ hi
    · simp [ext, h])
  rw [Compliance.work, flat_parts, counts_filter _ _ fun e => ⟨rfl, rfl⟩, List.map_map] at h
  have e1 : ∑ i : Fin N, complianceDeriv C ps t X i * w i = ∑ i ∈ range N, complianceDeriv C ps t X i * ext w i := by
    rw [← Fin.sum_univ_eq_sum_range (fun i => complianceDeriv C ps t X i * ext w i) N]
    exact Finset.sum_congr rfl fun i _ => by rw [ext_lt w i.2]
  rw [e1]
  refine Eq.trans h ?_
  exact Compliance.list_sum_congr _ _ _ fun e he => part_work e (hA e (List.mem_of_mem_filter he)) e.eval false t X (ext w)

theorem joint_diff {N : Nat} {ps : List PartProc} {t₀ : ℝ} (hl : ∀ e ∈ allParts ps, e.eval = true → LoadsOk e.loads t₀) (hd : ∀ e ∈ allParts ps, e.eval = true → DeadLoads e.loads) (x : Fin N → ℝ) :
    DifferentiableAt ℝ (fun z : (Fin N → ℝ) × ℝ => loadWork ps z.2 (ext z.1) (ext z.1)) (x, t₀) := by
  unfold loadWork
  refine list_diff ((allParts ps).filter fun e => e.eval) (fun (e : Part) (z : (Fin N → ℝ) × ℝ) => -∑ d, loadRes e.loads z.2 (e.sol (ext z.1)) d * e.sol (ext z.1) d) (x, t₀) fun e he => ?_
  have hm := List.mem_of_mem_filter he
  have hev : e.eval = true := by simpa using (List.mem_filter.1 he).2
  have e0 : (fun z : (Fin N → ℝ) × ℝ => -∑ d, loadRes e.loads z.2 (e.sol (ext z.1)) d * e.sol (ext z.1) d) = fun z => -∑ d, loadRes e.loads z.2 (fun _ => 0) d * e.sol (ext z.1) d := by
    funext z
    rw [dead_res (hd e hm hev) z.2 (e.sol (ext z.1)) fun _ => 0]
  rw [e0]
  refine DifferentiableAt.fun_neg (DifferentiableAt.fun_sum fun d _ => ?_)
  have h1 := load_motion e.loads (hl e hm hev) (fun _ _ => 0) (fun _ => 0) (fun b => hasDerivAt_const _ _) d
  have h2 : DifferentiableAt ℝ (fun z : (Fin N → ℝ) × ℝ => loadRes e.loads z.2 (fun _ => 0) d) (x, t₀) :=
    DifferentiableAt.comp (g := fun t => loadRes e.loads t (fun _ => 0) d) (f := fun z : (Fin N → ℝ) × ℝ => z.2) (x, t₀) h1.differentiableAt differentiableAt_snd
  refine h2.fun_mul ?_
  by_cases h : e.dof d.row < N
  · have : (fun z : (Fin N → ℝ) × ℝ => e.sol (ext z.1) d) = fun z => z.1 ⟨e.dof d.row, h⟩ := by
      funext z
      exact ext_lt z.1 h
    rw [this]
    exact DifferentiableAt.comp (g := fun y : Fin N → ℝ => y ⟨e.dof d.row, h⟩) (f := fun z : (Fin N → ℝ) × ℝ => z.1) (x, t₀) (differentiableAt_apply _ _) differentiableAt_fst
  · have : (fun z : (Fin N → ℝ) × ℝ => e.sol (ext z.1) d) = fun _ => 0 := by
      funext z
      simp [Part.sol, ext, h]
    rw [this]
    exact differentiableAt_const _

/-- C192: the adjoint method gives the derivative of the compliance, too: `calculate_output_derivative` as right hand side of the adjoint solve, and the sensitivity without displacement sensitivity as the explicit part.
Partial as C192_direct_partial; elements said not to depend on the parameter must have loads that do not. -/
theorem C192_adjoint_partial {N : Nat} (ls : Sens.LinSolver N) (hls : ls.Correct) {C : Nat → Bool} {loads : List PLoad} {ps : List PartProc} {v : Nat → ℝ} {p : Nat} {X : ℝ → Fin N → ℝ} {X' : Fin N → ℝ}
    (hA : ∀ e ∈ allParts ps, Accepted e.loads) (hlo : ∀ e ∈ allParts ps, LoadsOk e.loads (v p)) (hm : ∀ e ∈ allParts ps, BodyOk v p (ext (X (v p))) (ext X') e) (hdead : ∀ e ∈ allParts ps, e.eval = true → DeadLoads e.loads)
    (hdof : ∀ e ∈ allParts ps, ∀ a < 6 * e.n, e.dof a < N) (hask : ∀ e ∈ allParts ps, e.asked = true ∨ ∀ a < 6 * e.n, (e.elem v p).sens (v p) (fun b => ext (X (v p)) (e.dof b)) a = 0)
    (hask2 : ∀ e ∈ allParts ps, e.eval = true → e.asked = true ∨ ∀ u, loadSens e.loads (v p) u = 0)
    (hl : ∀ l ∈ loads, ∀ a < l.n, HasDerivAt (fun t => l.load t a) (l.dload (v p) a) (v p)) (hown : ∀ i < N, OwnedOnce (ps.map (PartProc.proc v p)) i) (hB : Branch C loads (ps.map (PartProc.proc v p)) X X' (v p))
    (hreg : IsUnit (Matrix.of fun i j : Fin N => sysJac C (ps.map (PartProc.proc v p)) (v p) (ext (X (v p))) i j).det) (override : Bool) (s : Compliance.St) (M : Matrix (Fin N) (Fin N) ℝ) :
    HasDerivAt (fun t => compliance ps s t (ext (X t)))
      (Sens.adjointTotal (assembly C loads (ps.map (PartProc.proc v p)) (v p) (fun x i => complianceDeriv C ps (v p) (ext x) i) fun x => complianceSens ps override s (v p) (ext x) none) (X (v p))
        (Sens.adjointSolve (assembly C loads (ps.map (PartProc.proc v p)) (v p) (fun x i => complianceDeriv C ps (v p) (ext x) i) fun x => complianceSens ps override s (v p) (ext x) none) ls (fun i => C i) M (X (v p)) (X (v p)) true) true)
      (v p) := by
  have hdiff := joint_diff (N := N) (t₀ := v p) (fun e he _ => hlo e he) hdead (X (v p))
  set q : (Fin N → ℝ) × ℝ → ℝ := fun z => loadWork ps z.2 (ext z.1) (ext z.1) with hq
  set L := fderiv ℝ q (X (v p), v p) with hL
  have hLd : HasFDerivAt q L (X (v p), v p) := hdiff.hasFDerivAt
  have hval : ∀ t x, compliance ps s t (ext x) = q (x, t) := fun t x => C192_value ps hA s t (ext x)
  have hsplit : ∀ w : Fin N → ℝ, complianceSens ps false s (v p) (ext (X (v p))) (some (ext w)) = loadWork ps (v p) (ext (X (v p))) (ext w) + complianceSens ps override s (v p) (ext (X (v p))) none := by
    intro w
    rw [C192_sens_value ps hA, C192_sens_value ps hA, loadWork, ← Compliance.list_add]
    refine Compliance.list_sum_congr _ _ _ fun e he => ?_
    have hmem := List.mem_of_mem_filter he
    have hev : e.eval = true := by simpa using (List.mem_filter.1 he).2
    have hz : ∀ d, e.sol (Compliance.dirOf none) d = 0 := fun d => rfl
    have hk1 : skipped false (some (ext w)).isSome e = false := by simp [skipped]
    rw [hk1]
    have hk2 : skipped override (none : Option (Nat → ℝ)).isSome e = !e.asked := by simp [skipped]
    rw [hk2]
    simp only [Bool.false_eq_true, if_false, sensPart, hz, mul_zero, Finset.sum_const_zero, sub_zero]
    have hdw : e.sol (Compliance.dirOf (some (ext w))) = e.sol (ext w) := rfl
    rw [hdw]
    cases ha : e.asked with
    | true => simp only [Bool.not_true, Bool.false_eq_true, if_false]; ring
    | false =>
      rcases hask2 e hmem hev with h | h
      · rw [ha] at h
        cases h
      · simp only [h, Pi.zero_apply, zero_mul, Finset.sum_const_zero, neg_zero, Bool.not_false, if_true]
        ring
  have hdir : ∀ w : Fin N → ℝ, L (w, 1) = loadWork ps (v p) (ext (X (v p))) (ext w) + complianceSens ps override s (v p) (ext (X (v p))) none := by
    intro w
    have hX : ∀ i, HasDerivAt (fun t => X (v p) i + (t - v p) * w i) (w i) (v p) := fun i => by
      simpa using (((hasDerivAt_id (v p)).sub_const (v p)).mul_const (w i)).const_add (X (v p) i)
    have h := C192_rate ps hA false s (v p) (fun e he _ => hlo e he) (Or.inl rfl) (fun t => ext fun i => X (v p) i + (t - v p) * w i) (ext w) fun e he a ha => by
      simp only [ext_lt _ (hdof e he a ha)]
      exact hX _
    rw [dead_follow ps (v p) (fun e he _ => hlo e he) hdead, add_zero] at h
    have h0 : (fun i => X (v p) i + (v p - v p) * w i) = X (v p) := by
      funext i
      ring
    simp only [hval] at h
    rw [h0, hsplit w] at h
    have hc : HasDerivAt (fun t => ((fun i => X (v p) i + (t - v p) * w i, t) : (Fin N → ℝ) × ℝ)) (w, (1 : ℝ)) (v p) := (hasDerivAt_pi.2 hX).prodMk (hasDerivAt_id (v p))
    have hLd' : HasFDerivAt q L ((fun t => ((fun i => X (v p) i + (t - v p) * w i, t) : (Fin N → ℝ) × ℝ)) (v p)) := by
      simp only [h0]
      exact hLd
    exact (HasFDerivAt.comp_hasDerivAt (v p) (f := fun t => ((fun i => X (v p) i + (t - v p) * w i, t) : (Fin N → ℝ) × ℝ)) hLd' hc).unique h
  have hzero : loadWork ps (v p) (ext (X (v p))) (ext (0 : Fin N → ℝ)) = 0 := by
    unfold loadWork
    refine (Compliance.list_sum_congr _ _ (fun _ => 0) fun e _ => ?_).trans (by simp)
    have hz : ∀ d, e.sol (ext (0 : Fin N → ℝ)) d = 0 := fun d => by
      simp only [Part.sol, ext]
      split <;> rfl
    simp only [hz, mul_zero, Finset.sum_const_zero, neg_zero]
  have hq' : ∀ w t, (∀ i : Fin N, C i = true → w i = 0) → L (w, t) = (∑ i : Fin N, complianceDeriv C ps (v p) (ext (X (v p))) i * w i) + t * complianceSens ps override s (v p) (ext (X (v p))) none := by
    intro w t hw
    have e1 : ((w, t) : (Fin N → ℝ) × ℝ) = (w, 1) - (0, 1) + t • (0, 1) := by
      ext i <;> simp
    rw [e1, map_add, map_sub, map_smul, hdir w, hdir 0, hzero, deriv_pair hA hdof (v p) _ w hw, smul_eq_mul]
    ring
  have hout : ∀ i : Fin N, C i = true → complianceDeriv C ps (v p) (ext (X (v p))) i = 0 := fun i hi => by
    unfold complianceDeriv
    rw [Compliance.derivative_apply, if_pos hi]
  have h := (C185_output ls hls (C := C) (loads := loads) (ps := ps.map (PartProc.proc v p)) (t₀ := v p) (X := X) (X' := X') (fun e he => ?_) (fun e he => ?_) (fun e he => ?_) (fun e he => ?_) hl hown hB hreg q L hLd
    (fun x i => complianceDeriv C ps (v p) (ext x) i) (fun x => complianceSens ps override s (v p) (ext x) none) hq' hout M).2
  · simp only [hval]
    exact h
  all_goals (rw [all_proc] at he; obtain ⟨r, hr, rfl⟩ := List.mem_map.1 he)
  · rw [(elem_shape v p r).1, (elem_shape v p r).2.1]
    exact hdof r hr
  · exact (elem_shape v p r).2.2.2
  · rw [(elem_shape v p r).1, (elem_shape v p r).2.1, (elem_shape v p r).2.2.1]
    exact hask r hr
  · have hU := motion (e := r.elem v p) (t₀ := v p) (by rw [(elem_shape v p r).1, (elem_shape v p r).2.1]; exact hdof r hr) hB.rate
    exact loaded_along (part_loaded (hm r hr) (hA r hr) (hlo r hr)) hU

/-- C192: with `override_flag`, an included element that is said not to depend on the parameter is left out altogether, even if the sensitivity of the displacement is given: where no element and no load depends on the
parameter itself, the derivative of the compliance is the work of the loads through the displacement sensitivity, but the computed value is zero. -/
theorem C192_override_fails (ps : List PartProc) (hA : ∀ e ∈ allParts ps, Accepted e.loads) (hno : ∀ e ∈ allParts ps, e.asked = false) (s : Compliance.St) (t₀ : ℝ) (hl : ∀ e ∈ allParts ps, LoadsOk e.loads t₀)
    (hd : ∀ e ∈ allParts ps, DeadLoads e.loads) (hs : ∀ e ∈ allParts ps, ∀ u, loadSens e.loads t₀ u = 0) (X : ℝ → Nat → ℝ) (X' : Nat → ℝ)
    (hX : ∀ e ∈ allParts ps, ∀ a < 6 * e.n, HasDerivAt (fun t => X t (e.dof a)) (X' (e.dof a)) t₀) :
    complianceSens ps true s t₀ (X t₀) (some X') = 0 ∧ HasDerivAt (fun t => compliance ps s t (X t)) (loadWork ps t₀ (X t₀) X') t₀ := by
  constructor
  · rw [C192_sens_value ps hA]
    refine (Compliance.list_sum_congr _ _ (fun _ => 0) fun e he => ?_).trans (by simp)
    rw [if_pos]
    simp [skipped, hno e (List.mem_of_mem_filter he)]
  · have h := C192_rate ps hA false s t₀ (fun e he _ => hl e he) (Or.inl rfl) X X' hX
    rw [dead_follow ps t₀ (fun e he _ => hl e he) (fun e he _ => hd e he), add_zero, C192_sens_value ps hA] at h
    refine h.congr_deriv (Compliance.list_sum_congr _ _ _ fun e he => ?_)
    have hk : skipped false (some X').isSome e = false := by simp [skipped]
    rw [hk]
    simp only [Bool.false_eq_true, if_false, sensPart, hs e (List.mem_of_mem_filter he), Pi.zero_apply, zero_mul, Finset.sum_const_zero, neg_zero, zero_sub]
    rfl

/-! ### The heated beam and the membrane under traction of C188 -/

noncomputable def exParts : List PartProc := [⟨[⟨1, .beam exBeam, exHeat, id, true, false⟩, ⟨1, .shell exShell, exPull, id, true, true⟩], 0, 6⟩]

theorem exParts_loaded : exParts.map (PartProc.proc barVals 0) = exLoaded := rfl

theorem exPull_side : attachedSide exPull.nSides exPull.ids exPull.sides = [(1, ⟨.surfaceTraction, fun _ => tractionOp none ⟨fun _ _ => 1, fun _ _ => 0⟩ ⟨fun _ _ => ![2, 0, 0], fun _ _ _ => 0⟩ [exQ], exNone⟩)] := by
  simp [attachedSide, exPull, List.range_succ]

theorem exPull_dead : DeadLoads exPull := by
  refine ⟨fun e he _ => ?_, fun l hl => by simp [attachedVol, exPull] at hl⟩
  rw [exPull_side, List.mem_singleton] at he
  subst he
  intro t u w
  rfl

theorem exParts_mem {P : Part → Prop} (h1 : P ⟨1, .beam exBeam, exHeat, id, true, false⟩) (h2 : P ⟨1, .shell exShell, exPull, id, true, true⟩) : ∀ e ∈ allParts exParts, P e := by
  intro e he
  have : allParts exParts = [⟨1, .beam exBeam, exHeat, id, true, false⟩, ⟨1, .shell exShell, exPull, id, true, true⟩] := rfl
  rw [this] at he
  rcases List.mem_cons.1 he with rfl | he
  · exact h1
  · rw [List.mem_singleton.1 he]
    exact h2

/-- Non-vacuity of C192_direct_partial and C192_adjoint_partial (with C192_value, C192_sens_value, C192_rate): beam and membrane of C188 in equilibrium at the displacement `2 / t`, the compliance of the membrane asked for. -/
theorem exParts_meets : (∀ e ∈ allParts exParts, Accepted e.loads) ∧ (∀ e ∈ allParts exParts, LoadsOk e.loads (barVals 0)) ∧
    (∀ e ∈ allParts exParts, BodyOk barVals 0 (ext (exX (barVals 0))) (ext fun i : Fin 6 => if i = 0 then -2 else 0) e) ∧ (∀ e ∈ allParts exParts, e.eval = true → DeadLoads e.loads) ∧
    (∀ e ∈ allParts exParts, ∀ a < 6 * e.n, e.dof a < 6) ∧ (∀ e ∈ allParts exParts, e.asked = true) ∧ (∀ i < 6, OwnedOnce (exParts.map (PartProc.proc barVals 0)) i) ∧
    Branch (N := 6) exC [] (exParts.map (PartProc.proc barVals 0)) exX (fun i => if i = 0 then -2 else 0) (barVals 0) ∧
    IsUnit (Matrix.of fun i j : Fin 6 => sysJac exC (exParts.map (PartProc.proc barVals 0)) (barVals 0) (ext (exX (barVals 0))) i j).det := by
  refine ⟨exParts_mem (exHeat_ok 0).1 (exPull_ok 0).1, exParts_mem (exHeat_ok _).2 (exPull_ok _).2, exParts_mem exBeam_ok ⟨exShell_ok, Or.inl rfl, fun i => ?_⟩, exParts_mem (fun h => by cases h) fun _ => exPull_dead,
    exParts_mem (fun a ha => ha) fun a ha => ha, exParts_mem rfl rfl, exLoaded_meets.2.2.1, exLoaded_meets.2.2.2.2.1, exLoaded_meets.2.2.2.2.2⟩
  have : i = 0 := Subsingleton.elim _ _
  subst this
  rfl

/-- The compliance of the membrane is `2 · 2 / t`, and its computed sensitivity at 1 is -4. -/
example (s : Compliance.St) (ls : Sens.LinSolver 6) (hls : ls.Correct) : (∀ t, compliance exParts s t (ext (exX t)) = 2 * (2 / t)) ∧
    complianceSens exParts false s (barVals 0) (ext (exX (barVals 0))) (some (ext (sensitivitySolve ls exC [] (exParts.map (PartProc.proc barVals 0)) (barVals 0) (exX (barVals 0))))) = -4 := by
  have m := exParts_meets
  have hd := C192_direct_partial ls hls m.1 m.2.1 m.2.2.1 m.2.2.2.1 m.2.2.2.2.1 (fun e he => Or.inl (m.2.2.2.2.2.1 e he)) (fun l hl => by cases hl) m.2.2.2.2.2.2.1 m.2.2.2.2.2.2.2.1 m.2.2.2.2.2.2.2.2 false (Or.inl rfl) s
  have hv : ∀ t, compliance exParts s t (ext (exX t)) = 2 * (2 / t) := by
    intro t
    rw [C192_value exParts m.1]
    have hf : (allParts exParts).filter (fun e => e.eval) = [⟨1, .shell exShell, exPull, id, true, true⟩] := rfl
    unfold loadWork
    rw [hf]
    simp only [List.map_cons, List.map_nil, List.sum_cons, List.sum_nil, add_zero]
    have hr : ∀ d : Dof 1, loadRes exPull t (Part.sol ⟨1, .shell exShell, exPull, id, true, true⟩ (ext (exX t))) d = if d = (false, 0, 0) then -2 else 0 := by
      intro d
      unfold loadRes
      rw [exPull_side]
      have hvol : attachedVol exPull.sid exPull.vols = [] := rfl
      rw [hvol]
      obtain ⟨b, c, i⟩ := d
      have hi : i = 0 := Subsingleton.elim _ _
      subst hi
      cases b <;> fin_cases c <;> simp [SideLoad, tractionOp, Fam.at, traction, external, vecToGlobal, nodalForce, exQ]
    have hs : ∑ d : Dof 1, loadRes exPull t (Part.sol ⟨1, .shell exShell, exPull, id, true, true⟩ (ext (exX t))) d * Part.sol ⟨1, .shell exShell, exPull, id, true, true⟩ (ext (exX t)) d = -2 * (2 / t) := by
      simp only [hr]
      rw [Finset.sum_eq_single (false, 0, 0)]
      · rw [if_pos rfl]
        congr 1
      · intro d _ hd
        rw [if_neg hd, zero_mul]
      · intro h
        exact absurd (Finset.mem_univ _) h
    rw [hs]
    ring
  refine ⟨hv, ?_⟩
  simp only [hv] at hd
  have hb0 : barVals 0 = 1 := by simp [barVals]
  have h2 := ((hasDerivAt_inv (x := barVals 0) (by rw [hb0]; norm_num)).const_mul 2).const_mul 2
  simp only [← div_eq_mul_inv] at h2
  refine (hd.unique h2).trans ?_
  rw [hb0]
  norm_num

/-- Non-vacuity of C192_follower_fails: the heated beam with nonlinear strain, moved sideways. -/
example : ∃ (ps : List PartProc) (X : ℝ → Nat → ℝ) (X' : Nat → ℝ), (∀ e ∈ allParts ps, Accepted e.loads) ∧ (∀ e ∈ allParts ps, e.eval = true → LoadsOk e.loads 1) ∧ (∀ e ∈ allParts ps, e.eval = true → e.asked = true) ∧
    (∀ e ∈ allParts ps, ∀ a < 6 * e.n, HasDerivAt (fun t => X t (e.dof a)) (X' (e.dof a)) 1) ∧ followWork ps 1 (X 1) X' ≠ 0 := by
  refine ⟨[⟨[⟨1, .beam exBeam, exHeat, id, true, true⟩], 0, 6⟩], fun t i => if i = 1 then t else 0, fun i => if i = 1 then 1 else 0, ?_, ?_, ?_, ?_, ?_⟩
  · intro e he
    rw [List.mem_singleton.1 (show e ∈ [(⟨1, .beam exBeam, exHeat, id, true, true⟩ : Part)] from he)]
    exact (exHeat_ok 0).1
  · intro e he _
    rw [List.mem_singleton.1 (show e ∈ [(⟨1, .beam exBeam, exHeat, id, true, true⟩ : Part)] from he)]
    exact (exHeat_ok 1).2
  · intro e he _
    rw [List.mem_singleton.1 (show e ∈ [(⟨1, .beam exBeam, exHeat, id, true, true⟩ : Part)] from he)]
  · intro e _ a _
    by_cases h : e.dof a = 1
    · simp only [h, if_true]
      exact hasDerivAt_id _
    · simp only [h, if_false]
      exact hasDerivAt_const _ _
  · have hf : (allParts [⟨[⟨1, .beam exBeam, exHeat, id, true, true⟩], 0, 6⟩]).filter (fun e => e.eval) = [⟨1, .beam exBeam, exHeat, id, true, true⟩] := rfl
    unfold followWork
    rw [hf]
    simp only [List.map_cons, List.map_nil, List.sum_cons, List.sum_nil, add_zero]
    have hsol : ∀ d : Dof 1, Part.sol ⟨1, .beam exBeam, exHeat, id, true, true⟩ (fun i => if i = 1 then 1 else 0) d = if d = (false, 1, 0) then 1 else 0 := by
      intro d
      obtain ⟨b, c, i⟩ := d
      have hi : i = 0 := Subsingleton.elim _ _
      subst hi
      cases b <;> fin_cases c <;> simp [Part.sol, Dof.row]
    have hj : loadJac exHeat 1 (Part.sol ⟨1, .beam exBeam, exHeat, id, true, true⟩ (fun i => if i = 1 then 1 else 0)) (false, 1, 0) (false, 1, 0) ≠ 0 := by
      simp [loadJac, attachedSide, attachedVol, exHeat, thermalBeamOp, Beam.thermalJac, matToGlobal, Beam.loadOpJac, Shell.sandwich, Beam.stressMat, exTh, exB, Beam.Bvv, Beam.Bww, Shell.shape, Fin.sum_univ_two]
      norm_num
    simp only [hsol, mul_ite, mul_one, mul_zero, Finset.sum_ite_eq', Finset.mem_univ, if_true]
    exact neg_ne_zero.2 hj

/-- Non-vacuity of C192_override_fails: the membrane moved along its traction by a unit, work 2. -/
example : ∃ (ps : List PartProc) (X : ℝ → Nat → ℝ) (X' : Nat → ℝ), (∀ e ∈ allParts ps, Accepted e.loads) ∧ (∀ e ∈ allParts ps, e.asked = false) ∧ (∀ e ∈ allParts ps, LoadsOk e.loads 1) ∧ (∀ e ∈ allParts ps, DeadLoads e.loads) ∧
    (∀ e ∈ allParts ps, ∀ u, loadSens e.loads 1 u = 0) ∧ (∀ e ∈ allParts ps, ∀ a < 6 * e.n, HasDerivAt (fun t => X t (e.dof a)) (X' (e.dof a)) 1) ∧ loadWork ps 1 (X 1) X' = 2 := by
  have hone : ∀ e ∈ allParts [⟨[⟨1, .shell exShell, exPull, id, false, true⟩], 0, 6⟩], e = ⟨1, .shell exShell, exPull, id, false, true⟩ := fun e he =>
    List.mem_singleton.1 (show e ∈ [(⟨1, .shell exShell, exPull, id, false, true⟩ : Part)] from he)
  refine ⟨[⟨[⟨1, .shell exShell, exPull, id, false, true⟩], 0, 6⟩], fun t _ => t, fun _ => 1, fun e he => ?_, fun e he => ?_, fun e he => ?_, fun e he => ?_, fun e he => ?_, fun e _ a _ => hasDerivAt_id _, ?_⟩
  · rw [hone e he]
    exact (exPull_ok 0).1
  · rw [hone e he]
  · rw [hone e he]
    exact (exPull_ok 1).2
  · rw [hone e he]
    exact exPull_dead
  · rw [hone e he]
    intro u
    funext d
    unfold loadSens
    rw [exPull_side]
    have hvol : attachedVol exPull.sid exPull.vols = [] := rfl
    rw [hvol]
    simp [SideLoad, tractionOp, Fam.at, tractionSens, external, vecToGlobal, nodalForce, exQ]
  · have hf : (allParts [⟨[⟨1, .shell exShell, exPull, id, false, true⟩], 0, 6⟩]).filter (fun e => e.eval) = [⟨1, .shell exShell, exPull, id, false, true⟩] := rfl
    unfold loadWork
    rw [hf]
    simp only [List.map_cons, List.map_nil, List.sum_cons, List.sum_nil, add_zero]
    have hr : ∀ d : Dof 1, loadRes exPull 1 (Part.sol ⟨1, .shell exShell, exPull, id, false, true⟩ fun _ => 1) d * Part.sol ⟨1, .shell exShell, exPull, id, false, true⟩ (fun _ => 1) d = if d = (false, 0, 0) then -2 else 0 := by
      intro d
      unfold loadRes
      rw [exPull_side]
      have hvol : attachedVol exPull.sid exPull.vols = [] := rfl
      rw [hvol]
      obtain ⟨b, c, i⟩ := d
      have hi : i = 0 := Subsingleton.elim _ _
      subst hi
      cases b <;> fin_cases c <;> simp [SideLoad, tractionOp, Fam.at, traction, external, vecToGlobal, nodalForce, exQ, Part.sol]
    simp only [hr, Finset.sum_ite_eq', Finset.mem_univ, if_true]
    norm_num

end Verif.Steady
