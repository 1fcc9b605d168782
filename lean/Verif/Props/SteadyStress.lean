import Verif.Model.SteadyStress
import Verif.Props.SteadyCompliance
import Verif.Props.StressRec
import Verif.Props.StressRecBeam
import Verif.Props.StressAgg
/-! C193: aggregated stress (KS, p-norm, smooth ramp) of a structure of beams and shells in a steady analysis, and its sensitivity by the direct method. -/
namespace Verif.Steady
open Verif Finset Verif.SecDep Verif.GeomElem Verif.StructLoads Verif.Material
open scoped Topology

variable {n : Nat} {X : Type}

/-! ## Specification -/

/-- All elements of the structure. -/
def allStress (ps : List StressProc) : List StressPart := ps.flatMap fun q => q.parts

/-- The `derivative` functions of expansion coefficient and temperatures are the derivatives at the parameter value `t₀`, if there is a thermal load. -/
def WarmOk (H : Warm X) (t₀ : ℝ) (x : X) : Prop := H.hot = true → HasDerivAt (fun t => (H.fam.val t x).alpha) (H.fam.der t₀ x).alpha t₀ ∧
  HasDerivAt (fun t => (H.fam.val t x).temp) (H.fam.der t₀ x).temp t₀ ∧ HasDerivAt (fun t => (H.fam.val t x).ref) (H.fam.der t₀ x).ref t₀

/-- Section and material are as C186 asks, the bending operator is proportional to the height and agrees with that of the analysis, the thermal load is as above. -/
def RecoveryOk (v : Nat → ℝ) (p : Nat) (e : StressPart) : Prop := match e.st with
  | .beam E ops H => BeamOk E v p ∧ ∀ q ∈ E.qs, StressRec.ScaledB q (ops q) ∧ WarmOk H (v p) q.x
  | .shell E bz H => ShellOk E v p ∧ ∀ q ∈ E.qs, StressRec.Scaled q (bz q) ∧ WarmOk H (v p) q.x

/-- No von Mises stress passes through zero at `t₀` while the parameter varies (unless it stays zero). -/
def NoKink (ps : List StressProc) (v : Nat → ℝ) (p : Nat) (t₀ : ℝ) (Y : ℝ → Nat → ℝ) : Prop :=
  ∀ e ∈ allStress ps, e.eval = true → ∀ f ∈ e.st.points v p none, Stress.vonMises (f t₀ fun d => Y t₀ (e.dof d.row)).stress ≠ 0 ∨ ∀ᶠ t in 𝓝 t₀, Stress.vonMises (f t fun d => Y t (e.dof d.row)).stress = 0

/-! ## Stored data -/

/-- C193: the data of a shell are those of the stress recovery of C124 for the section of the card. -/
theorem C193_shell_data (E : ShellData n X) (bz : Shell.Sqp n X → ℝ → Fin 3 → Dof n → ℝ) (H : Warm X) (v : Nat → ℝ) (p : Nat) (w : Option (Dof n → ℝ)) {P : SecDep.Plate} (hP : E.card.plate E.hp (!E.ss.isEmpty) = .ok P) (t : ℝ) (u : Dof n → ℝ) :
    (((Stressed.shell E bz H).points v p w).map fun f => ((f t u).stress, (f t u).JxW)) =
      (StressRec.recover E.nl E.bend (E.qs.map fun q => (q, bz q, plateAt E.F E.stress P (Function.update v p t) q.x, H.at t q.x)) (vecToLocal E.T u)).map fun d => (d.stress, d.weight) := by
  unfold Stressed.points StressRec.recover
  simp only [hP]
  induction E.qs with
  | nil => rfl
  | cons q qs ih =>
    rw [List.flatMap_cons, List.map_append, ih]
    rfl

/-- C193: the data of a beam are those of the stress recovery of C125 for the section of the card. -/
theorem C193_beam_data (E : BeamData n X) (ops : Beam.Bqp n X → StressRec.BendOps n) (H : Warm X) (v : Nat → ℝ) (p : Nat) (w : Option (Dof n → ℝ)) {P : SecDep.Bar} (hP : E.card.bar E.hp = .ok P) (t : ℝ) (u : Dof n → ℝ) :
    (((Stressed.beam E ops H).points v p w).map fun f => ((f t u).stress, (f t u).JxW)) =
      (StressRec.recoverB E.nl E.bend (E.qs.map fun q => (q, ops q, barAt E.F P (Function.update v p t) q.x, H.at t q.x)) (vecToLocal E.T u)).map fun d => (d.stress, d.weight) := by
  unfold Stressed.points StressRec.recoverB
  simp only [hP]
  induction E.qs with
  | nil => rfl
  | cons q qs ih =>
    rw [List.flatMap_cons, List.map_append, ih]
    rfl

/-! ## Rates of the stored data -/

theorem local_path (T : Option (Fin 3 → Fin 3 → ℝ)) {U : ℝ → Dof n → ℝ} {U' : Dof n → ℝ} {t₀ : ℝ} (hU : ∀ d, HasDerivAt (fun t => U t d) (U' d) t₀) (d : Dof n) :
    HasDerivAt (fun t => vecToLocal T (U t) d) (vecToLocal T U' d) t₀ := by
  cases T with
  | none => exact hU d
  | some T => exact HasDerivAt.fun_sum fun k _ => (hU _).const_mul _

theorem plate_at_rate {E : ShellData n X} {v : Nat → ℝ} {p : Nat} (h : ShellOk E v p) {P : SecDep.Plate} (hP : E.card.plate E.hp (!E.ss.isEmpty) = .ok P) {q : Shell.Sqp n X} (hq : q ∈ E.qs) :
    (∀ r s, HasDerivAt (fun t => (plateAt E.F E.stress P (Function.update v p t) q.x).C r s) ((dPlateAt E.F E.stress P v p q.x).C r s) (v p)) ∧
    HasDerivAt (fun t => (plateAt E.F E.stress P (Function.update v p t) q.x).h) (dPlateAt E.F E.stress P v p q.x).h (v p) ∧
    HasDerivAt (fun t => (plateAt E.F E.stress P (Function.update v p t) q.x).off) (dPlateAt E.F E.stress P v p q.x).off (v p) := by
  obtain ⟨f1, f2, f3, f4, f5, gE, gnu⟩ := plate_spec hP
  refine ⟨fun r s => ?_, h.derivs _ f1.1 q.x, h.derivs _ f2.1 q.x⟩
  obtain ⟨n1, n2, n3⟩ := h.nu _ gnu q hq
  have hd := C57_derivative_partial (h.derivs _ f4.1 q.x) (h.derivs _ f5.1 q.x) (by rw [upd_self]; exact n1) (by rw [upd_self]; exact n2) (by rw [upd_self]; exact n3)
  simp only [upd_self] at hd
  cases hs : E.stress with
  | true => exact hd.2.1 r s
  | false => exact hd.2.2.1 r s

theorem bar_at_rate {E : BeamData n X} {v : Nat → ℝ} {p : Nat} (h : BeamOk E v p) {P : SecDep.Bar} (hP : E.card.bar E.hp = .ok P) {q : Beam.Bqp n X} (hq : q ∈ E.qs) :
    (∀ r s, HasDerivAt (fun t => (barAt E.F P (Function.update v p t) q.x).C r s) ((dBarAt E.F P v p q.x).C r s) (v p)) ∧
    HasDerivAt (fun t => (barAt E.F P (Function.update v p t) q.x).hy) (dBarAt E.F P v p q.x).hy (v p) ∧ HasDerivAt (fun t => (barAt E.F P (Function.update v p t) q.x).hz) (dBarAt E.F P v p q.x).hz (v p) ∧
    HasDerivAt (fun t => (barAt E.F P (Function.update v p t) q.x).offy) (dBarAt E.F P v p q.x).offy (v p) ∧ HasDerivAt (fun t => (barAt E.F P (Function.update v p t) q.x).offz) (dBarAt E.F P v p q.x).offz (v p) := by
  obtain ⟨f1, f2, f3, f4, f5, f6, gy, gz, gnu⟩ := bar_spec hP
  refine ⟨fun r s => ?_, h.derivs _ f1.1 q.x, h.derivs _ f2.1 q.x, h.derivs _ f3.1 q.x, h.derivs _ f4.1 q.x⟩
  obtain ⟨n1, n2, n3⟩ := h.nu _ gnu q hq
  have hd := C57_derivative_partial (h.derivs _ f5.1 q.x) (h.derivs _ f6.1 q.x) (by rw [upd_self]; exact n1) (by rw [upd_self]; exact n2) (by rw [upd_self]; exact n3)
  simp only [upd_self] at hd
  exact hd.1 r s

/-- C193: the sensitivity stored for a face point of a shell is the derivative of the stored stress, when the displacement moves with the rate given. -/
theorem C193_shell_point {E : ShellData n X} {bz : Shell.Sqp n X → ℝ → Fin 3 → Dof n → ℝ} {H : Warm X} {v : Nat → ℝ} {p : Nat} (h : ShellOk E v p) {P : SecDep.Plate} (hP : E.card.plate E.hp (!E.ss.isEmpty) = .ok P) {q : Shell.Sqp n X} (hq : q ∈ E.qs)
    (hB : StressRec.Scaled q (bz q)) (hH : WarmOk H (v p) q.x) {U : ℝ → Dof n → ℝ} {U' : Dof n → ℝ} (hU : ∀ d, HasDerivAt (fun t => U t d) (U' d) (v p)) (s : Fin 2) (i : Fin 6) :
    HasDerivAt (fun t => (shellDatum E bz H P v p q s (some U') t (U t)).stress i) ((((shellDatum E bz H P v p q s (some U') (v p) (U (v p))).sens ()).getD 0) i) (v p) := by
  obtain ⟨h1, h2, h3⟩ := plate_at_rate h hP hq
  have hu := local_path E.T hU
  cases hot : H.hot with
  | true =>
    obtain ⟨a1, a2, a3⟩ := hH hot
    have hr := (StressRec.C124_sensitivity E.nl E.bend true q (bz q) hB (fun t => plateAt E.F E.stress P (Function.update v p t) q.x) (fun t => H.fam.val t q.x) ⟨dPlateAt E.F E.stress P v p q.x, H.fam.der (v p) q.x⟩
      (fun t => vecToLocal E.T (U t)) (vecToLocal E.T U') (v p) h1 h2 h3 a1 a2 a3 hu s i).1
    simpa only [shellDatum, Warm.at, hot, if_true, Option.map_some, Option.getD_some, upd_self] using hr
  | false =>
    have hr := (StressRec.C124_sensitivity E.nl E.bend false q (bz q) hB (fun t => plateAt E.F E.stress P (Function.update v p t) q.x) (fun _ => ⟨0, 0, 0⟩) ⟨dPlateAt E.F E.stress P v p q.x, ⟨0, 0, 0⟩⟩
      (fun t => vecToLocal E.T (U t)) (vecToLocal E.T U') (v p) h1 h2 h3 (hasDerivAt_const _ _) (hasDerivAt_const _ _) (hasDerivAt_const _ _) hu s i).1
    simp only [shellDatum, Warm.at, hot, Bool.false_eq_true, if_false, Option.map_some, Option.getD_some, upd_self] at hr ⊢
    exact hr

/-- C193: the same for a corner point of a beam section. -/
theorem C193_beam_point {E : BeamData n X} {ops : Beam.Bqp n X → StressRec.BendOps n} {H : Warm X} {v : Nat → ℝ} {p : Nat} (h : BeamOk E v p) {P : SecDep.Bar} (hP : E.card.bar E.hp = .ok P) {q : Beam.Bqp n X} (hq : q ∈ E.qs)
    (hB : StressRec.ScaledB q (ops q)) (hH : WarmOk H (v p) q.x) {U : ℝ → Dof n → ℝ} {U' : Dof n → ℝ} (hU : ∀ d, HasDerivAt (fun t => U t d) (U' d) (v p)) (s : Fin 4) (i : Fin 6) :
    HasDerivAt (fun t => (beamDatum E ops H P v p q s (some U') t (U t)).stress i) ((((beamDatum E ops H P v p q s (some U') (v p) (U (v p))).sens ()).getD 0) i) (v p) := by
  obtain ⟨h1, h2, h3, h4, h5⟩ := bar_at_rate h hP hq
  have hu := local_path E.T hU
  cases hot : H.hot with
  | true =>
    obtain ⟨a1, a2, a3⟩ := hH hot
    have hr := (StressRec.C125_sensitivity E.nl E.bend true q (ops q) hB (fun t => barAt E.F P (Function.update v p t) q.x) (fun t => H.fam.val t q.x) ⟨dBarAt E.F P v p q.x, H.fam.der (v p) q.x⟩
      (fun t => vecToLocal E.T (U t)) (vecToLocal E.T U') (v p) h1 h2 h3 h4 h5 a1 a2 a3 hu s i).1
    simpa only [beamDatum, Warm.at, hot, if_true, Option.map_some, Option.getD_some, upd_self] using hr
  | false =>
    have hr := (StressRec.C125_sensitivity E.nl E.bend false q (ops q) hB (fun t => barAt E.F P (Function.update v p t) q.x) (fun _ => ⟨0, 0, 0⟩) ⟨dBarAt E.F P v p q.x, ⟨0, 0, 0⟩⟩
      (fun t => vecToLocal E.T (U t)) (vecToLocal E.T U') (v p) h1 h2 h3 h4 h5 (hasDerivAt_const _ _) (hasDerivAt_const _ _) (hasDerivAt_const _ _) hu s i).1
    simp only [beamDatum, Warm.at, hot, Bool.false_eq_true, if_false, Option.map_some, Option.getD_some, upd_self] at hr ⊢
    exact hr

/-- Every point of an element. -/
theorem point_rate {v : Nat → ℝ} {p : Nat} {e : StressPart} (h : RecoveryOk v p e) {U : ℝ → Dof e.n → ℝ} {U' : Dof e.n → ℝ} (hU : ∀ d, HasDerivAt (fun t => U t d) (U' d) (v p)) :
    ∀ f ∈ e.st.points v p (some U'), (∀ i, HasDerivAt (fun t => (f t (U t)).stress i) ((((f (v p) (U (v p))).sens ()).getD 0) i) (v p)) ∧ ∀ t u t' u', (f t u).JxW = (f t' u').JxW := by
  obtain ⟨m, st, A, dof, asked, ev⟩ := e
  cases st with
  | beam E ops H =>
    obtain ⟨hE, hq⟩ := h
    obtain ⟨P, hP⟩ := hE.found
    intro f hf
    simp only [Stressed.points, hP] at hf
    obtain ⟨q, hqm, hf⟩ := List.mem_flatMap.1 hf
    obtain ⟨s, -, rfl⟩ := List.mem_map.1 hf
    exact ⟨C193_beam_point hE hP hqm (hq q hqm).1 (hq q hqm).2 hU s, fun _ _ _ _ => rfl⟩
  | shell E bz H =>
    obtain ⟨hE, hq⟩ := h
    obtain ⟨P, hP⟩ := hE.found
    intro f hf
    simp only [Stressed.points, hP] at hf
    obtain ⟨q, hqm, hf⟩ := List.mem_flatMap.1 hf
    obtain ⟨s, -, rfl⟩ := List.mem_map.1 hf
    exact ⟨C193_shell_point hE hP hqm (hq q hqm).1 (hq q hqm).2 hU s, fun _ _ _ _ => rfl⟩

/-- What is stored as stress does not depend on the stored sensitivities. -/
theorem points_forget (v : Nat → ℝ) (p : Nat) (w : Option (Dof n → ℝ)) (st : Stressed n) :
    st.points v p none = (st.points v p w).map fun f t u => { f t u with sens := fun _ => none } := by
  cases st with
  | beam E ops H =>
    simp only [Stressed.points]
    cases E.card.bar E.hp with
    | error e => rfl
    | ok P => simp only [List.map_flatMap, List.map_map]; rfl
  | shell E bz H =>
    simp only [Stressed.points]
    cases E.card.plate E.hp (!E.ss.isEmpty) with
    | error e => rfl
    | ok P => simp only [List.map_flatMap, List.map_map]; rfl

/-- The data without their sensitivities. -/
def forget (d : Stress.Data Unit 0) : Stress.Data Unit 0 := { d with sens := fun _ => none }

theorem data_forget (ps : List StressProc) (v : Nat → ℝ) (p : Nat) (sens : (e : StressPart) → Option (Dof e.n → ℝ)) (t : ℝ) (Y : Nat → ℝ) :
    stressData ps v p (fun _ => none) t Y = (stressData ps v p sens t Y).map fun m => m.map fun l => l.map forget := by
  unfold stressData
  simp only [List.map_map, Function.comp_def]
  refine List.map_congr_left fun q _ => List.map_congr_left fun e _ => ?_
  rw [points_forget v p (sens e), List.map_map]
  rfl

theorem sum_forget (w : Stress.World Unit 0) (g : Stress.Data Unit 0 → ℝ) (hg : ∀ d, g (forget d) = g d) : Stress.sumAll (w.map fun m => m.map fun l => l.map forget) g = Stress.sumAll w g := by
  unfold Stress.sumAll
  simp only [List.map_map, Function.comp_def, hg]

theorem values_forget (c : Stress.Coeffs) (ps : List StressProc) (v : Nat → ℝ) (p : Nat) (sens : (e : StressPart) → Option (Dof e.n → ℝ)) (t : ℝ) (Y : Nat → ℝ) :
    ksStress c ps v p t Y = Stress.ksValue c (stressData ps v p sens t Y) ∧ pnormStress c ps v p t Y = Stress.pnormValue c (stressData ps v p sens t Y) ∧ rampStress c ps v p t Y = Stress.rampValue c (stressData ps v p sens t Y) := by
  unfold ksStress pnormStress rampStress
  rw [data_forget ps v p sens t Y]
  unfold Stress.ksValue Stress.ksInt Stress.sumJ Stress.pnormValue Stress.pnormInt Stress.pnormJ Stress.rampValue Stress.rampInt Stress.sumJ
  refine ⟨?_, ?_, ?_⟩
  · rw [sum_forget _ (fun d => Real.exp (c.p * (Stress.vonMises d.stress - c.sigma0) / c.sigma0) * d.JxW) fun d => rfl, sum_forget _ (fun d => d.JxW) fun d => rfl]
  · rw [sum_forget _ (fun d => (Stress.vonMises d.stress / c.sigma0) ^ c.p * Stress.weight c (Stress.vonMises d.stress) * d.JxW) fun d => rfl, sum_forget _ (fun d => Stress.weight c (Stress.vonMises d.stress) * d.JxW) fun d => rfl]
  · rw [sum_forget _ (fun d => (1 + (Stress.vonMises d.stress / c.sigma0) ^ c.p) ^ (1 / c.p) * d.JxW) fun d => rfl, sum_forget _ (fun d => d.JxW) fun d => rfl]

/-! ## The aggregates -/

/-- The data as functions of the parameter. -/
noncomputable def stressHistory (ps : List StressProc) (v : Nat → ℝ) (p : Nat) (sens : (e : StressPart) → Option (Dof e.n → ℝ)) (Y : ℝ → Nat → ℝ) : Stress.History Unit 0 :=
  ps.map fun q => (q.parts.filter fun e => e.eval).map fun e => (e.st.points v p (sens e)).map fun f t => f t fun d => Y t (e.dof d.row)

theorem history_at (ps : List StressProc) (v : Nat → ℝ) (p : Nat) (sens : (e : StressPart) → Option (Dof e.n → ℝ)) (Y : ℝ → Nat → ℝ) (t : ℝ) : (stressHistory ps v p sens Y).at t = stressData ps v p sens t (Y t) := by
  unfold stressHistory Stress.History.at stressData
  simp only [List.map_map, Function.comp_def]

theorem history_consistent {ps : List StressProc} {v : Nat → ℝ} {p : Nat} (hr : ∀ e ∈ allStress ps, e.eval = true → RecoveryOk v p e) (override : Bool) (hskip : override = false ∨ ∀ e ∈ allStress ps, e.eval = true → e.asked = true)
    {Y : ℝ → Nat → ℝ} {Y' : Nat → ℝ} (hY : ∀ e ∈ allStress ps, ∀ a < 6 * e.n, HasDerivAt (fun t => Y t (e.dof a)) (Y' (e.dof a)) (v p)) (hk : NoKink ps v p (v p) Y) :
    (stressHistory ps v p (given override (some Y')) Y).Consistent () (v p) := by
  have hmem : ∀ m ∈ stressHistory ps v p (given override (some Y')) Y, ∀ l ∈ m, ∀ γ ∈ l, ∃ e ∈ allStress ps, e.eval = true ∧ ∃ f ∈ e.st.points v p (some fun d => Y' (e.dof d.row)), γ = fun t => f t fun d => Y t (e.dof d.row) := by
    intro m hm l hl γ hγ
    obtain ⟨q, hq, rfl⟩ := List.mem_map.1 hm
    obtain ⟨e, he, rfl⟩ := List.mem_map.1 hl
    obtain ⟨f, hf, rfl⟩ := List.mem_map.1 hγ
    have hem : e ∈ allStress ps := List.mem_flatMap.2 ⟨q, hq, (List.mem_filter.1 he).1⟩
    have hev : e.eval = true := (List.mem_filter.1 he).2
    refine ⟨e, hem, hev, f, ?_, rfl⟩
    have hg : given override (some Y') e = some fun d => Y' (e.dof d.row) := by
      have : skipped override (some Y').isSome e.part = false := by
        rcases hskip with h | h
        · simp [skipped, h]
        · simp [skipped, StressPart.part, h e hem hev]
      rw [given, this]; rfl
    rw [hg] at hf
    exact hf
  refine ⟨fun m hm l hl γ hγ i => ?_, fun m hm l hl γ hγ s => ?_, fun m hm l hl γ hγ => ?_⟩ <;> obtain ⟨e, he, hev, f, hf, rfl⟩ := hmem m hm l hl γ hγ
  · exact (point_rate (hr e he hev) (fun d => hY e he _ (C111_rows.2.1 d)) f hf).1 i
  · exact (point_rate (hr e he hev) (fun d => hY e he _ (C111_rows.2.1 d)) f hf).2 _ _ _ _
  · refine hk e he hev (fun t u => { f t u with sens := fun _ => none }) ?_
    rw [points_forget v p (some fun d => Y' (e.dof d.row))]
    exact List.mem_map.2 ⟨f, hf, rfl⟩

/-- C193: for any motion of the displacements, the sensitivities computed with its rate are the derivatives of the aggregated stresses. -/
theorem C193_rate (c : Stress.Coeffs) {ps : List StressProc} {v : Nat → ℝ} {p : Nat} (hr : ∀ e ∈ allStress ps, e.eval = true → RecoveryOk v p e) (override : Bool) (hskip : override = false ∨ ∀ e ∈ allStress ps, e.eval = true → e.asked = true)
    {Y : ℝ → Nat → ℝ} {Y' : Nat → ℝ} (hY : ∀ e ∈ allStress ps, ∀ a < 6 * e.n, HasDerivAt (fun t => Y t (e.dof a)) (Y' (e.dof a)) (v p)) (hk : NoKink ps v p (v p) Y)
    (hw : Stress.Weights (stressData ps v p (fun _ => none) (v p) (Y (v p)))) :
    HasDerivAt (fun t => ksStress c ps v p t (Y t)) (ksStressSens c ps v p override (v p) (Y (v p)) (some Y')) (v p) ∧
    (1 ≤ c.p → 0 < c.sigma0 → HasDerivAt (fun t => rampStress c ps v p t (Y t)) (rampStressSens c ps v p override (v p) (Y (v p)) (some Y')) (v p)) ∧
    (1 ≤ c.p → Stress.OffCap c (stressData ps v p (fun _ => none) (v p) (Y (v p))) → ∀ r, pnormStressSens c ps v p override (v p) (Y (v p)) (some Y') = some r → HasDerivAt (fun t => pnormStress c ps v p t (Y t)) r (v p)) := by
  have hc := history_consistent hr override hskip hY hk
  have hv := fun t => values_forget c ps v p (given override (some Y')) t (Y t)
  have hmem : ∀ d ∈ Stress.points (stressData ps v p (given override (some Y')) (v p) (Y (v p))), forget d ∈ Stress.points (stressData ps v p (fun _ => none) (v p) (Y (v p))) := by
    intro d hd
    rw [data_forget ps v p (given override (some Y'))]
    unfold Stress.points at hd ⊢
    obtain ⟨l, hl, hd⟩ := List.mem_flatten.1 hd
    obtain ⟨m, hm, hl⟩ := List.mem_flatten.1 hl
    exact List.mem_flatten.2 ⟨_, List.mem_flatten.2 ⟨_, List.mem_map.2 ⟨m, hm, rfl⟩, List.mem_map.2 ⟨l, hl, rfl⟩⟩, List.mem_map.2 ⟨d, hd, rfl⟩⟩
  have hback : ∀ d ∈ Stress.points (stressData ps v p (fun _ => none) (v p) (Y (v p))), ∃ d' ∈ Stress.points (stressData ps v p (given override (some Y')) (v p) (Y (v p))), d = forget d' := by
    intro d hd
    rw [data_forget ps v p (given override (some Y'))] at hd
    unfold Stress.points at hd ⊢
    obtain ⟨l, hl, hd⟩ := List.mem_flatten.1 hd
    obtain ⟨m, hm, hl⟩ := List.mem_flatten.1 hl
    obtain ⟨m', hm', rfl⟩ := List.mem_map.1 hm
    obtain ⟨l', hl', rfl⟩ := List.mem_map.1 hl
    obtain ⟨d', hd', rfl⟩ := List.mem_map.1 hd
    exact ⟨d', List.mem_flatten.2 ⟨l', List.mem_flatten.2 ⟨m', hm', hl'⟩, hd'⟩, rfl⟩
  have hw' : Stress.Weights ((stressHistory ps v p (given override (some Y')) Y).at (v p)) := by
    rw [history_at]
    refine ⟨fun d hd => hw.nonneg (forget d) (hmem d hd), ?_⟩
    obtain ⟨d, hd, hp⟩ := hw.pos
    obtain ⟨d', hd', rfl⟩ := hback d hd
    exact ⟨d', hd', hp⟩
  refine ⟨?_, fun h1 h0 => ?_, fun h1 hcap r hr' => ?_⟩
  · have h := Stress.C54_sensitivity c _ () (v p) hc hw'
    simp only [history_at] at h
    exact h.congr_of_eventuallyEq (Filter.Eventually.of_forall fun t => (hv t).1)
  · have h := Stress.C55_sensitivity c h1 h0 _ () (v p) hc
    simp only [history_at] at h
    exact h.congr_of_eventuallyEq (Filter.Eventually.of_forall fun t => (hv t).2.2)
  · have h := Stress.C53_sensitivity_partial c h1 _ () (v p) hc hw' (by rw [history_at]; exact fun d hd => hcap (forget d) (hmem d hd)) r (by rw [history_at]; exact hr')
    simp only [history_at] at h
    exact h.congr_of_eventuallyEq (Filter.Eventually.of_forall fun t => (hv t).2.1)

/-! ## The analysis -/

theorem all_stress_parts (ps : List StressProc) : allParts (ps.map StressProc.part) = (allStress ps).map StressPart.part := by
  unfold allParts allStress
  induction ps with
  | nil => rfl
  | cons q ps ih => simp only [List.map_cons, List.flatMap_cons, ih, List.map_append, StressProc.part]

/-- C193: aggregated stress of a steady structure of beams and shells with side, volume and point loads: the sensitivity computed with the result of `sensitivity_solve` is the derivative of the KS, smooth ramp and
p-norm stress with respect to a parameter of sections, materials or loads.
Partial: the exclusions of C188; a von Mises stress that passes zero; with `override_flag` every included element must be said to depend on the parameter (C193_override_fails); for the p-norm no stress at the cap of the exponent. -/
theorem C193_direct_partial {N : Nat} (ls : Sens.LinSolver N) (hls : ls.Correct) {C : Nat → Bool} {loads : List PLoad} {ps : List StressProc} {v : Nat → ℝ} {p : Nat} {Y : ℝ → Fin N → ℝ} {Y' : Fin N → ℝ}
    (hA : ∀ e ∈ allStress ps, Accepted e.loads) (hlo : ∀ e ∈ allStress ps, LoadsOk e.loads (v p)) (hm : ∀ e ∈ allStress ps, BodyOk v p (ext (Y (v p))) (ext Y') e.part) (hr : ∀ e ∈ allStress ps, e.eval = true → RecoveryOk v p e)
    (hdof : ∀ e ∈ allStress ps, ∀ a < 6 * e.n, e.dof a < N) (hask : ∀ e ∈ allStress ps, e.asked = true ∨ ∀ a < 6 * e.n, (e.part.elem v p).sens (v p) (fun b => ext (Y (v p)) (e.dof b)) a = 0)
    (hl : ∀ l ∈ loads, ∀ a < l.n, HasDerivAt (fun t => l.load t a) (l.dload (v p) a) (v p)) (hown : ∀ i < N, OwnedOnce ((ps.map StressProc.part).map (PartProc.proc v p)) i)
    (hB : Branch C loads ((ps.map StressProc.part).map (PartProc.proc v p)) Y Y' (v p))
    (hreg : IsUnit (Matrix.of fun i j : Fin N => sysJac C ((ps.map StressProc.part).map (PartProc.proc v p)) (v p) (ext (Y (v p))) i j).det) (override : Bool)
    (hskip : override = false ∨ ∀ e ∈ allStress ps, e.eval = true → e.asked = true) (hk : NoKink ps v p (v p) fun t => ext (Y t)) (hw : Stress.Weights (stressData ps v p (fun _ => none) (v p) (ext (Y (v p))))) (c : Stress.Coeffs) :
    let dX := some (ext (sensitivitySolve ls C loads ((ps.map StressProc.part).map (PartProc.proc v p)) (v p) (Y (v p))))
    HasDerivAt (fun t => ksStress c ps v p t (ext (Y t))) (ksStressSens c ps v p override (v p) (ext (Y (v p))) dX) (v p) ∧
    (1 ≤ c.p → 0 < c.sigma0 → HasDerivAt (fun t => rampStress c ps v p t (ext (Y t))) (rampStressSens c ps v p override (v p) (ext (Y (v p))) dX) (v p)) ∧
    (1 ≤ c.p → Stress.OffCap c (stressData ps v p (fun _ => none) (v p) (ext (Y (v p)))) → ∀ r, pnormStressSens c ps v p override (v p) (ext (Y (v p))) dX = some r → HasDerivAt (fun t => pnormStress c ps v p t (ext (Y t))) r (v p)) := by
  have hsol : sensitivitySolve ls C loads ((ps.map StressProc.part).map (PartProc.proc v p)) (v p) (Y (v p)) = Y' := by
    refine C188_structure_partial ls hls (fun e he => ?_) (fun e he => ?_) (fun e he => ?_) hl hown hB hreg <;> rw [all_proc, all_stress_parts, List.map_map] at he <;> obtain ⟨q, hq, rfl⟩ := List.mem_map.1 he
    · exact part_loaded (hm q hq) (hA q hq) (hlo q hq)
    · rw [Function.comp_apply, (elem_shape v p q.part).1, (elem_shape v p q.part).2.1]
      exact hdof q hq
    · rw [Function.comp_apply, (elem_shape v p q.part).1, (elem_shape v p q.part).2.1, (elem_shape v p q.part).2.2.1]
      exact hask q hq
  intro dX
  have hd : dX = some (ext Y') := by simp only [dX, hsol]
  rw [hd]
  refine C193_rate c hr override hskip (fun e he a ha => ?_) hk hw
  simp only [ext_lt _ (hdof e he a ha)]
  exact hB.rate _

/-- C193: with `override_flag`, included elements that are said not to depend on the parameter are left out even if the sensitivity of the displacement is given: if no element depends on the parameter itself, the computed
sensitivity is zero whatever the displacement does, while the derivative is the value computed without the flag. -/
theorem C193_override_fails (c : Stress.Coeffs) {ps : List StressProc} {v : Nat → ℝ} {p : Nat} (hno : ∀ e ∈ allStress ps, e.asked = false) (hr : ∀ e ∈ allStress ps, e.eval = true → RecoveryOk v p e)
    {Y : ℝ → Nat → ℝ} {Y' : Nat → ℝ} (hY : ∀ e ∈ allStress ps, ∀ a < 6 * e.n, HasDerivAt (fun t => Y t (e.dof a)) (Y' (e.dof a)) (v p)) (hk : NoKink ps v p (v p) Y)
    (hw : Stress.Weights (stressData ps v p (fun _ => none) (v p) (Y (v p)))) :
    ksStressSens c ps v p true (v p) (Y (v p)) (some Y') = 0 ∧ HasDerivAt (fun t => ksStress c ps v p t (Y t)) (ksStressSens c ps v p false (v p) (Y (v p)) (some Y')) (v p) := by
  refine ⟨?_, (C193_rate c hr false (Or.inl rfl) hY hk hw).1⟩
  have hz : ∀ d ∈ Stress.points (stressData ps v p (given true (some Y')) (v p) (Y (v p))), d.sens () = none := by
    intro d hd
    unfold Stress.points stressData at hd
    obtain ⟨l, hl, hd⟩ := List.mem_flatten.1 hd
    obtain ⟨m, hm, hl⟩ := List.mem_flatten.1 hl
    obtain ⟨q, hq, rfl⟩ := List.mem_map.1 hm
    obtain ⟨e, he, rfl⟩ := List.mem_map.1 hl
    obtain ⟨f, hf, rfl⟩ := List.mem_map.1 hd
    have hem : e ∈ allStress ps := List.mem_flatMap.2 ⟨q, hq, (List.mem_filter.1 he).1⟩
    have hg : given true (some Y') e = none := by simp [given, skipped, StressPart.part, hno e hem]
    rw [hg, points_forget v p none] at hf
    obtain ⟨g, -, rfl⟩ := List.mem_map.1 hf
    rfl
  unfold ksStressSens Stress.ksSens Stress.ksSensElem
  refine List.sum_eq_zero fun x hx => ?_
  obtain ⟨m, hm, rfl⟩ := List.mem_map.1 hx
  refine List.sum_eq_zero fun x hx => ?_
  obtain ⟨l, hl, rfl⟩ := List.mem_map.1 hx
  have : (l.map fun d => c.p * Stress.dVonMisesDp d () / c.sigma0 * Real.exp (c.p * (Stress.vonMises d.stress - c.sigma0) / c.sigma0) * d.JxW).sum = 0 := by
    refine List.sum_eq_zero fun x hx => ?_
    obtain ⟨d, hd, rfl⟩ := List.mem_map.1 hx
    have h0 := hz d (List.mem_flatten.2 ⟨l, List.mem_flatten.2 ⟨m, hm, hl⟩, hd⟩)
    simp [Stress.dVonMisesDp, h0]
  rw [this]
  simp

/-! ### The beam and the membrane of C188, the stress of both asked for -/

/-- Thermal strain 1 in the beam. -/
noncomputable def exWarm : Warm Unit := ⟨true, ⟨fun _ _ => ⟨1 / 2, 3, 1⟩, fun _ _ => ⟨0, 0, 0⟩⟩⟩
noncomputable def exCold : Warm Unit := ⟨false, ⟨fun _ _ => ⟨0, 0, 0⟩, fun _ _ => ⟨0, 0, 0⟩⟩⟩
noncomputable def exPart1 : StressPart := ⟨1, .beam exBeam (fun _ => ⟨fun _ _ => 0, fun _ _ => 0⟩) exWarm, exHeat, id, true, true⟩
noncomputable def exPart2 : StressPart := ⟨1, .shell exShell (fun _ _ _ _ => 0) exCold, exPull, id, true, true⟩
noncomputable def exStress : List StressProc := [⟨[exPart1, exPart2], 0, 6⟩]

theorem exStress_loaded : (exStress.map StressProc.part).map (PartProc.proc barVals 0) = exLoaded := rfl

theorem exStress_mem {P : StressPart → Prop} (h1 : P exPart1) (h2 : P exPart2) : ∀ e ∈ allStress exStress, P e := by
  intro e he
  have : allStress exStress = [exPart1, exPart2] := rfl
  rw [this] at he
  rcases List.mem_cons.1 he with rfl | he
  · exact h1
  · rw [List.mem_singleton.1 he]
    exact h2

theorem exPart1_points (w : Option (Dof exPart1.n → ℝ)) : exPart1.st.points barVals 0 w = [0, 1, 2, 3].map fun s => beamDatum exBeam (fun _ => ⟨fun _ _ => 0, fun _ _ => 0⟩) exWarm ⟨7, 9, 8, 8, 5, 6⟩ barVals 0 exB s w := rfl
theorem exPart2_points (w : Option (Dof exPart2.n → ℝ)) : exPart2.st.points barVals 0 w = [0, 1].map fun s => shellDatum exShell (fun _ _ _ _ => 0) exCold ⟨7, 8, 7, 5, 6⟩ barVals 0 exS s w := rfl

/-- Axial stress `2 - t` in the beam. -/
theorem ex_beam_stress (s : Fin 4) (w : Option (Dof 1 → ℝ)) (t : ℝ) (ht : t ≠ 0) : (beamDatum exBeam (fun _ => ⟨fun _ _ => 0, fun _ _ => 0⟩) exWarm ⟨7, 9, 8, 8, 5, 6⟩ barVals 0 exB s w t fun d => ext (exX t) d.row).stress = ![2 - t, 0, 0, 0, 0, 0] := by
  have h := exX_ext t
  have e : (2 - t) = t * (2 / t - 1) := by field_simp
  rw [e]
  simp only [beamDatum, StressRec.stressB, StressRec.axial6]
  congr 1
  simp [Shell.mv, barAt, exBeam, exB, StressRec.strainB, StressRec.thermal2, StressRec.row0, vecToLocal, Warm.at, exWarm, Shell.app, Beam.Bmem, Shell.shape, Beam.vkStrain, Beam.dvx, Beam.dwx, Beam.Bvv, Beam.Bww, Fin.sum_univ_two, Fin.sum_univ_three, Fintype.sum_prod_type, iso1D, consts, par, barVals, Dof.row, h.1, h.2.1, h.2.2,
    Function.update]
  norm_num

/-- Stress 2 in the membrane. -/
theorem ex_shell_stress (s : Fin 2) (w : Option (Dof 1 → ℝ)) (t : ℝ) (ht : t ≠ 0) : (shellDatum exShell (fun _ _ _ _ => 0) exCold ⟨7, 8, 7, 5, 6⟩ barVals 0 exS s w t fun d => ext (exX t) d.row).stress = ![2, 0, 0, 0, 0, 0] := by
  have h := exX_ext t
  funext i
  fin_cases i <;> simp [shellDatum, StressRec.stress, StressRec.to6, Shell.mv, plateAt, exShell, exS, StressRec.strain, StressRec.thermal3, vecToLocal, Warm.at, exCold, Shell.app, Shell.strainMem, Shell.Blin, Shell.shape, Fin.sum_univ_two, Fin.sum_univ_three, Fintype.sum_prod_type, iso2D, consts, par, barVals,
    Dof.row, h.1, h.2.1, h.2.2, Function.update]
  field_simp

theorem uniaxial (x : ℝ) : Stress.vonMises ![x, 0, 0, 0, 0, 0] = |x| := by
  have : Stress.vmArg ![x, 0, 0, 0, 0, 0] = x ^ 2 := by simp [Stress.vmArg]; ring
  rw [Stress.vonMises, this, ← Real.sqrt_eq_rpow, Real.sqrt_sq_eq_abs]

theorem near_one {P : ℝ → Prop} (h : ∀ t, t ≠ 0 → t < 2 → P t) : ∀ᶠ t in 𝓝 (barVals 0), P t := by
  have hb0 : barVals 0 = 1 := by simp [barVals]
  rw [hb0]
  filter_upwards [isOpen_ne.mem_nhds (by norm_num : (1 : ℝ) ≠ 0), Iio_mem_nhds (by norm_num : (1 : ℝ) < 2)] with t h1 h2
  exact h t h1 h2

theorem exPart1_vm (w : Option (Dof exPart1.n → ℝ)) : ∀ f ∈ exPart1.st.points barVals 0 w, (∀ t, t ≠ 0 → t < 2 → Stress.vonMises (f t fun d => ext (exX t) (exPart1.dof d.row)).stress = 2 - t) ∧ ∀ t u, (f t u).JxW = 1 := by
  intro f hf
  rw [exPart1_points] at hf
  obtain ⟨s, -, rfl⟩ := List.mem_map.1 hf
  refine ⟨fun t h1 h2 => ?_, fun _ _ => rfl⟩
  refine (congrArg Stress.vonMises (ex_beam_stress s w t h1)).trans ?_
  rw [uniaxial, abs_of_pos (by linarith)]

theorem exPart2_vm (w : Option (Dof exPart2.n → ℝ)) : ∀ f ∈ exPart2.st.points barVals 0 w, (∀ t, t ≠ 0 → Stress.vonMises (f t fun d => ext (exX t) (exPart2.dof d.row)).stress = 2) ∧ ∀ t u, (f t u).JxW = 1 / 2 := by
  intro f hf
  rw [exPart2_points] at hf
  obtain ⟨s, -, rfl⟩ := List.mem_map.1 hf
  refine ⟨fun t h1 => ?_, fun _ _ => rfl⟩
  refine (congrArg Stress.vonMises (ex_shell_stress s w t h1)).trans ?_
  rw [uniaxial, abs_of_pos (by norm_num)]

theorem exStress_recovery : ∀ e ∈ allStress exStress, RecoveryOk barVals 0 e := by
  refine exStress_mem ⟨exBeam_ok, fun q hq => ?_⟩ ⟨exShell_ok, fun q hq => ?_⟩
  · rw [List.mem_singleton.1 hq]
    exact ⟨⟨fun y a => (mul_zero y).symm, fun z a => (mul_zero z).symm⟩, fun _ => ⟨hasDerivAt_const _ _, hasDerivAt_const _ _, hasDerivAt_const _ _⟩⟩
  · rw [List.mem_singleton.1 hq]
    exact ⟨fun z r a => (mul_zero z).symm, fun h => by cases h⟩

theorem exStress_kink : NoKink exStress barVals 0 (barVals 0) fun t => ext (exX t) := by
  have hb0 : barVals 0 = 1 := by simp [barVals]
  refine exStress_mem (fun _ f hf => Or.inl ?_) (fun _ f hf => Or.inl ?_)
  · refine ne_of_eq_of_ne ((exPart1_vm none f hf).1 (barVals 0) (by rw [hb0]; norm_num) (by rw [hb0]; norm_num)) ?_
    rw [hb0]
    norm_num
  · exact ne_of_eq_of_ne ((exPart2_vm none f hf).1 (barVals 0) (by rw [hb0]; norm_num)) (by norm_num)

theorem exStress_weights (t : ℝ) (Y : Nat → ℝ) : Stress.Weights (stressData exStress barVals 0 (fun _ => none) t Y) := by
  have hd : stressData exStress barVals 0 (fun _ => none) t Y = [[(exPart1.st.points barVals 0 none).map fun f => f t fun d => Y (exPart1.dof d.row), (exPart2.st.points barVals 0 none).map fun f => f t fun d => Y (exPart2.dof d.row)]] := rfl
  rw [hd]
  refine ⟨fun d hd => ?_, ?_⟩
  · simp only [Stress.points, List.flatten_cons, List.flatten_nil, List.append_nil, List.mem_append] at hd
    rcases hd with hd | hd <;> obtain ⟨f, hf, rfl⟩ := List.mem_map.1 hd
    · rw [(exPart1_vm none f hf).2]; norm_num
    · rw [(exPart2_vm none f hf).2]; norm_num
  · refine ⟨_, List.mem_flatten.2 ⟨_, List.mem_flatten.2 ⟨_, List.mem_singleton.2 rfl, List.mem_cons_self⟩, List.mem_map.2 ⟨beamDatum exBeam (fun _ => ⟨fun _ _ => 0, fun _ _ => 0⟩) exWarm ⟨7, 9, 8, 8, 5, 6⟩ barVals 0 exB 0 none, ?_, rfl⟩⟩, ?_⟩
    · rw [exPart1_points]; exact List.mem_map.2 ⟨0, by simp, rfl⟩
    · show (0 : ℝ) < 1
      norm_num

/-- Non-vacuity of C193_direct_partial (with C193_shell_data, C193_beam_data, C193_shell_point, C193_beam_point, C193_rate): beam and membrane of C188 in equilibrium at the displacement `2 / t`. -/
theorem exStress_meets : (∀ e ∈ allStress exStress, Accepted e.loads) ∧ (∀ e ∈ allStress exStress, LoadsOk e.loads (barVals 0)) ∧
    (∀ e ∈ allStress exStress, BodyOk barVals 0 (ext (exX (barVals 0))) (ext fun i : Fin 6 => if i = 0 then -2 else 0) e.part) ∧
    (∀ e ∈ allStress exStress, ∀ a < 6 * e.n, e.dof a < 6) ∧ (∀ e ∈ allStress exStress, e.asked = true) ∧ (∀ i < 6, OwnedOnce ((exStress.map StressProc.part).map (PartProc.proc barVals 0)) i) ∧
    Branch (N := 6) exC [] ((exStress.map StressProc.part).map (PartProc.proc barVals 0)) exX (fun i => if i = 0 then -2 else 0) (barVals 0) ∧
    IsUnit (Matrix.of fun i j : Fin 6 => sysJac exC ((exStress.map StressProc.part).map (PartProc.proc barVals 0)) (barVals 0) (ext (exX (barVals 0))) i j).det := by
  refine ⟨exStress_mem (exHeat_ok 0).1 (exPull_ok 0).1, exStress_mem (exHeat_ok _).2 (exPull_ok _).2, exStress_mem exBeam_ok ⟨exShell_ok, Or.inl rfl, fun i => ?_⟩,
    exStress_mem (fun a ha => ha) fun a ha => ha, exStress_mem rfl rfl, exLoaded_meets.2.2.1, exLoaded_meets.2.2.2.2.1, exLoaded_meets.2.2.2.2.2⟩
  have : i = (0 : Fin 1) := Subsingleton.elim (α := Fin 1) _ _
  rw [this]
  rfl

/-- The smooth ramp stress with exponent 1 is the integral of the von Mises stress: `4 (2 - t) + 2`. -/
theorem exStress_ramp {t : ℝ} (h1 : t ≠ 0) (h2 : t < 2) : rampStress ⟨1, 0, 0, 1, 0⟩ exStress barVals 0 t (ext (exX t)) = 4 * (2 - t) + 2 := by
  have hd : stressData exStress barVals 0 (fun _ => none) t (ext (exX t)) = [[(exPart1.st.points barVals 0 none).map fun f => f t fun d => ext (exX t) (exPart1.dof d.row), (exPart2.st.points barVals 0 none).map fun f => f t fun d => ext (exX t) (exPart2.dof d.row)]] := rfl
  have e1 : ∀ g : Stress.Data Unit 0 → ℝ, ∀ x, (∀ f ∈ exPart1.st.points barVals 0 none, g (f t fun d => ext (exX t) (exPart1.dof d.row)) = x) → (((exPart1.st.points barVals 0 none).map fun f => f t fun d => ext (exX t) (exPart1.dof d.row)).map g).sum = 4 * x := by
    intro g x hx
    simp only [List.map_map, Function.comp_def]
    rw [List.map_congr_left (g := fun _ => x) (fun f hf => hx f hf), List.map_const', List.sum_replicate, show (exPart1.st.points barVals 0 none).length = 4 from rfl, nsmul_eq_mul]
    norm_num
  have e2 : ∀ g : Stress.Data Unit 0 → ℝ, ∀ x, (∀ f ∈ exPart2.st.points barVals 0 none, g (f t fun d => ext (exX t) (exPart2.dof d.row)) = x) → (((exPart2.st.points barVals 0 none).map fun f => f t fun d => ext (exX t) (exPart2.dof d.row)).map g).sum = 2 * x := by
    intro g x hx
    simp only [List.map_map, Function.comp_def]
    rw [List.map_congr_left (g := fun _ => x) (fun f hf => hx f hf), List.map_const', List.sum_replicate, show (exPart2.st.points barVals 0 none).length = 2 from rfl, nsmul_eq_mul]
    norm_num
  unfold rampStress Stress.rampValue Stress.rampInt Stress.sumJ Stress.sumAll
  rw [hd]
  simp only [List.map_cons, List.map_nil, List.sum_cons, List.sum_nil, add_zero]
  rw [e1 _ (3 - t), e2 _ (3 / 2), e1 _ 1 (fun f hf => (exPart1_vm none f hf).2 _ _), e2 _ (1 / 2) (fun f hf => (exPart2_vm none f hf).2 _ _)]
  · ring
  · intro f hf
    rw [(exPart2_vm none f hf).1 t h1, (exPart2_vm none f hf).2]
    norm_num
  · intro f hf
    rw [(exPart1_vm none f hf).1 t h1 h2, (exPart1_vm none f hf).2]
    norm_num
    ring

/-- Its computed sensitivity at 1 is -4, although no entry of the stress in the membrane changes. -/
example (ls : Sens.LinSolver 6) (hls : ls.Correct) :
    rampStressSens ⟨1, 0, 0, 1, 0⟩ exStress barVals 0 false (barVals 0) (ext (exX (barVals 0))) (some (ext (sensitivitySolve ls exC [] ((exStress.map StressProc.part).map (PartProc.proc barVals 0)) (barVals 0) (exX (barVals 0))))) = -4 := by
  have m := exStress_meets
  have hd := (C193_direct_partial ls hls m.1 m.2.1 m.2.2.1 (fun e he _ => exStress_recovery e he) m.2.2.2.1 (fun e he => Or.inl (m.2.2.2.2.1 e he)) (fun l hl => by cases hl) m.2.2.2.2.2.1 m.2.2.2.2.2.2.1 m.2.2.2.2.2.2.2 false (Or.inl rfl) exStress_kink
    (exStress_weights _ _) ⟨1, 0, 0, 1, 0⟩).2.1 le_rfl one_pos
  have h2 : HasDerivAt (fun t : ℝ => 4 * (2 - t) + 2) (4 * (0 - 1)) (barVals 0) := (((hasDerivAt_const _ _).sub (hasDerivAt_id _)).const_mul 4).add_const 2
  have h3 := h2.congr_of_eventuallyEq (near_one fun t a b => exStress_ramp a b)
  exact (hd.unique h3).trans (by norm_num)

/-! Non-vacuity of C193_override_fails: the beam alone, said not to depend on the parameter. -/
noncomputable def exUnasked : List StressProc := [⟨[{ exPart1 with asked := false }], 0, 6⟩]

theorem exUnasked_ks {t : ℝ} (h1 : t ≠ 0) (h2 : t < 2) : ksStress ⟨1, 0, 0, 1, 0⟩ exUnasked barVals 0 t (ext (exX t)) = 1 - t := by
  have hd : stressData exUnasked barVals 0 (fun _ => none) t (ext (exX t)) = [[(exPart1.st.points barVals 0 none).map fun f => f t fun d => ext (exX t) (exPart1.dof d.row)]] := rfl
  have e1 : ∀ g : Stress.Data Unit 0 → ℝ, ∀ x, (∀ f ∈ exPart1.st.points barVals 0 none, g (f t fun d => ext (exX t) (exPart1.dof d.row)) = x) → (((exPart1.st.points barVals 0 none).map fun f => f t fun d => ext (exX t) (exPart1.dof d.row)).map g).sum = 4 * x := by
    intro g x hx
    simp only [List.map_map, Function.comp_def]
    rw [List.map_congr_left (g := fun _ => x) (fun f hf => hx f hf), List.map_const', List.sum_replicate, show (exPart1.st.points barVals 0 none).length = 4 from rfl, nsmul_eq_mul]
    norm_num
  unfold ksStress Stress.ksValue Stress.ksInt Stress.sumJ Stress.sumAll
  rw [hd]
  simp only [List.map_cons, List.map_nil, List.sum_cons, List.sum_nil, add_zero]
  rw [e1 _ (Real.exp (1 - t)), e1 _ 1 (fun f hf => (exPart1_vm none f hf).2 _ _)]
  · rw [mul_one, mul_div_cancel_left₀ _ (by norm_num), Real.log_exp]
    norm_num
  · intro f hf
    rw [(exPart1_vm none f hf).1 t h1 h2, (exPart1_vm none f hf).2]
    norm_num
    ring

/-- With the flag 0 is reported, the derivative is -1, without the flag -1 is reported. -/
theorem exUnasked_rate : ksStressSens ⟨1, 0, 0, 1, 0⟩ exUnasked barVals 0 true (barVals 0) (ext (exX (barVals 0))) (some (ext fun i : Fin 6 => if i = 0 then -2 else 0)) = 0 ∧ HasDerivAt (fun t => ksStress ⟨1, 0, 0, 1, 0⟩ exUnasked barVals 0 t (ext (exX t))) (-1) (barVals 0) ∧
    ksStressSens ⟨1, 0, 0, 1, 0⟩ exUnasked barVals 0 false (barVals 0) (ext (exX (barVals 0))) (some (ext fun i : Fin 6 => if i = 0 then -2 else 0)) = -1 := by
  have hmem : ∀ {P : StressPart → Prop}, P { exPart1 with asked := false } → ∀ e ∈ allStress exUnasked, P e := by
    intro P h e he
    have : allStress exUnasked = [{ exPart1 with asked := false }] := rfl
    rw [this, List.mem_singleton] at he
    exact he ▸ h
  have hb0 : barVals 0 = 1 := by simp [barVals]
  have hw : Stress.Weights (stressData exUnasked barVals 0 (fun _ => none) (barVals 0) (ext (exX (barVals 0)))) := by
    have hd : stressData exUnasked barVals 0 (fun _ => none) (barVals 0) (ext (exX (barVals 0))) = [[(exPart1.st.points barVals 0 none).map fun f => f (barVals 0) fun d => ext (exX (barVals 0)) (exPart1.dof d.row)]] := rfl
    rw [hd]
    refine ⟨fun d hd => ?_, ?_⟩
    · simp only [Stress.points, List.flatten_cons, List.flatten_nil, List.append_nil] at hd
      obtain ⟨f, hf, rfl⟩ := List.mem_map.1 hd
      rw [(exPart1_vm none f hf).2]; norm_num
    · refine ⟨_, List.mem_flatten.2 ⟨_, List.mem_flatten.2 ⟨_, List.mem_singleton.2 rfl, List.mem_cons_self⟩, List.mem_map.2 ⟨beamDatum exBeam (fun _ => ⟨fun _ _ => 0, fun _ _ => 0⟩) exWarm ⟨7, 9, 8, 8, 5, 6⟩ barVals 0 exB 0 none, ?_, rfl⟩⟩, ?_⟩
      · rw [exPart1_points]; exact List.mem_map.2 ⟨0, by simp, rfl⟩
      · show (0 : ℝ) < 1
        norm_num
  have hk : NoKink exUnasked barVals 0 (barVals 0) fun t => ext (exX t) := by
    refine hmem fun _ f hf => Or.inl ?_
    have := (exPart1_vm none f hf).1 _ (by rw [hb0]; norm_num : barVals 0 ≠ 0) (by rw [hb0]; norm_num)
    refine ne_of_eq_of_ne this ?_
    rw [hb0]; norm_num
  have hY := exLoaded_meets.2.2.2.2.1.rate
  have h := C193_override_fails ⟨1, 0, 0, 1, 0⟩ (ps := exUnasked) (v := barVals) (p := 0) (Y := fun t => ext (exX t)) (Y' := ext fun i : Fin 6 => if i = 0 then -2 else 0) (hmem rfl)
    (fun e he _ => hmem (P := fun e => RecoveryOk barVals 0 e) (exStress_recovery exPart1 (List.mem_flatMap.2 ⟨_, List.mem_singleton.2 rfl, List.mem_cons_self⟩)) e he)
    (hmem (P := fun e => ∀ a < 6 * e.n, HasDerivAt (fun t => ext (exX t) (e.dof a)) (ext (fun i : Fin 6 => if i = 0 then -2 else 0) (e.dof a)) (barVals 0)) (fun a ha => by
      show HasDerivAt (fun t => ext (exX t) a) (ext (fun i : Fin 6 => if i = 0 then -2 else 0) a) (barVals 0)
      simp only [ext_lt _ (show a < 6 from ha)]
      exact hY _)) hk hw
  refine ⟨h.1, ?_⟩
  have h2 : HasDerivAt (fun t : ℝ => 1 - t) (0 - 1) (barVals 0) := (hasDerivAt_const _ _).sub (hasDerivAt_id _)
  have h3 := h2.congr_of_eventuallyEq (near_one fun t a b => exUnasked_ks a b)
  rw [zero_sub] at h3
  exact ⟨h3, h.2.unique h3⟩

end Verif.Steady
