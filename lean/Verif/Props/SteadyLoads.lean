import Verif.Model.SteadyLoads
import Verif.Props.SteadyStruct
import Verif.Props.StructLoads
import Verif.Props.ShellThermal
import Verif.Props.BeamThermal
/-! C188: sensitivity of steady analyses of structures with pressure, traction and temperature on their elements. -/
namespace Verif.Steady
open Verif Finset Verif.SecDep Verif.GeomElem Verif.StructLoads

variable {n : Nat} {X : Type}

/-! ## Specification -/

/-- Jacobian and sensitivity of a routine give the rate of its residual along a motion `U` of the unknowns with the parameter, `U'` the rate of the motion. -/
def OpRate (o : Op n) (t₀ : ℝ) (U : ℝ → Dof n → ℝ) (U' : Dof n → ℝ) : Prop :=
  ∀ a, HasDerivAt (fun t => o.res t (U t) a) (o.sens t₀ (U t₀) a + ∑ b, o.jac t₀ (U t₀) a b * U' b) t₀

/-- They do along every motion. -/
def OpConsistent (o : Op n) (t₀ : ℝ) : Prop := ∀ (U : ℝ → Dof n → ℝ) (U' : Dof n → ℝ), (∀ b, HasDerivAt (fun t => U t b) (U' b) t₀) → OpRate o t₀ U U'

/-- The loads of the element are all of the accepted types. -/
def Accepted (A : Attached n) : Prop :=
  (∀ e ∈ attachedSide A.nSides A.ids A.sides, SideLoad e.2.kind ∨ SideOther e.2.kind) ∧ ∀ l ∈ attachedVol A.sid A.vols, VolLoad l.kind

/-- Every load the element carries has a consistent routine. -/
def LoadsOk (A : Attached n) (t₀ : ℝ) : Prop :=
  (∀ e ∈ attachedSide A.nSides A.ids A.sides, SideLoad e.2.kind → OpConsistent (e.2.side e.1) t₀) ∧ ∀ l ∈ attachedVol A.sid A.vols, OpConsistent l.vol t₀

/-! ## Elements with loads -/

/-- What the loops add. -/
theorem add_eq {V : Type} [AddCommMonoid V] (A : Attached n) (hA : Accepted A) (rs : Nat → Load n → V) (rv : Load n → V) (f : V) :
    A.add sideAct volAct rs rv f = .ok (f + ((attachedSide A.nSides A.ids A.sides).map fun e => if SideLoad e.2.kind then rs e.1 e.2 else 0).sum + ((attachedVol A.sid A.vols).map rv).sum) := by
  unfold Attached.add
  rw [C113_side, if_pos hA.1]
  simp only
  rw [C113_volume, if_pos hA.2]

theorem sens_acts : sideSensAct = sideAct ∧ volSensAct = volAct := ⟨by funext k; cases k <;> rfl, by funext k; cases k <;> rfl⟩

/-- C188: a refused load ends the calculation of residual, Jacobian and sensitivity alike. -/
theorem C188_refused {V : Type} [AddCommMonoid V] (A : Attached n) (hA : ¬ Accepted A) (rs : Nat → Load n → V) (rv : Load n → V) (f : V) :
    A.add sideAct volAct rs rv f = .error .error ∧ A.add sideSensAct volSensAct rs rv f = .error .error := by
  rw [sens_acts.1, sens_acts.2, and_self]
  unfold Attached.add
  rw [C113_side]
  by_cases h : ∀ e ∈ attachedSide A.nSides A.ids A.sides, SideLoad e.2.kind ∨ SideOther e.2.kind
  · rw [if_pos h]
    simp only
    rw [C113_volume, if_neg fun h2 => hA ⟨h, h2⟩]
  · rw [if_neg h]

theorem side_rate (l : List (Nat × Load n)) (t₀ : ℝ) (U : ℝ → Dof n → ℝ) (U' : Dof n → ℝ) (h : ∀ e ∈ l, SideLoad e.2.kind → OpRate (e.2.side e.1) t₀ U U') (a : Dof n) :
    HasDerivAt (fun t => (l.map fun e => if SideLoad e.2.kind then (e.2.side e.1).res t (U t) else 0).sum a)
      ((l.map fun e => if SideLoad e.2.kind then (e.2.side e.1).sens t₀ (U t₀) else 0).sum a + ∑ b, (l.map fun e => if SideLoad e.2.kind then (e.2.side e.1).jac t₀ (U t₀) else 0).sum a b * U' b) t₀ := by
  induction l with
  | nil => simpa using hasDerivAt_const t₀ (0 : ℝ)
  | cons e l ih =>
    have ih := ih fun x hx => h x (List.mem_cons_of_mem _ hx)
    simp only [List.map_cons, List.sum_cons, Pi.add_apply, add_mul, Finset.sum_add_distrib]
    have he : HasDerivAt (fun t => (if SideLoad e.2.kind then (e.2.side e.1).res t (U t) else 0) a)
        ((if SideLoad e.2.kind then (e.2.side e.1).sens t₀ (U t₀) else 0) a + ∑ b, (if SideLoad e.2.kind then (e.2.side e.1).jac t₀ (U t₀) else 0) a b * U' b) t₀ := by
      by_cases hk : SideLoad e.2.kind
      · simp only [if_pos hk]
        exact h e List.mem_cons_self hk a
      · simp only [if_neg hk, Pi.zero_apply, zero_mul, Finset.sum_const_zero, add_zero]
        exact hasDerivAt_const _ _
    exact (he.fun_add ih).congr_deriv (by ring)

theorem vol_rate (l : List (Load n)) (t₀ : ℝ) (U : ℝ → Dof n → ℝ) (U' : Dof n → ℝ) (h : ∀ e ∈ l, OpRate e.vol t₀ U U') (a : Dof n) :
    HasDerivAt (fun t => (l.map fun e => e.vol.res t (U t)).sum a) ((l.map fun e => e.vol.sens t₀ (U t₀)).sum a + ∑ b, (l.map fun e => e.vol.jac t₀ (U t₀)).sum a b * U' b) t₀ := by
  induction l with
  | nil => simpa using hasDerivAt_const t₀ (0 : ℝ)
  | cons e l ih =>
    have ih := ih fun x hx => h x (List.mem_cons_of_mem _ hx)
    simp only [List.map_cons, List.sum_cons, Pi.add_apply, add_mul, Finset.sum_add_distrib]
    exact ((h e List.mem_cons_self a).fun_add ih).congr_deriv (by ring)

/-- C188: an element whose internal force reports its rate along a motion still does with any accepted side and volume loads whose routines do. -/
theorem C188_loaded (force : ℝ → (Dof n → ℝ) → Exec (Dof n → ℝ)) (jac : ℝ → (Dof n → ℝ) → Exec (Dof n → Dof n → ℝ)) (sens : ℝ → (Dof n → ℝ) → Exec (Dof n → ℝ)) (A : Attached n) (dof : Nat → Nat) (asked : Bool)
    (hf : ∀ t u, ∃ r, force t u = .ok r) (hA : Accepted A) {t₀ : ℝ} (hl : LoadsOk A t₀) (U : ℝ → Nat → ℝ) (U' : Nat → ℝ)
    (hj : ∃ r, jac t₀ (fun d => U t₀ d.row) = .ok r) (hs : ∃ r, sens t₀ (fun d => U t₀ d.row) = .ok r)
    (hU : ∀ a < 6 * n, HasDerivAt (fun t => U t a) (U' a) t₀)
    (hr : RateAlong ⟨6 * n, dof, false, asked, fun t u => vecOf (force t fun d => u d.row), fun t u => matVal (jac t fun d => u d.row), fun t u => vecOf (sens t fun d => u d.row)⟩ t₀ U U') :
    RateAlong (loadedElem force jac sens A dof asked) t₀ U U' := by
  intro a ha
  have ha' : a < 6 * n := ha
  obtain ⟨d, rfl⟩ := C111_rows.2.2 a ha'
  choose F hF using hf
  obtain ⟨J, hJ⟩ := hj
  obtain ⟨S, hS⟩ := hs
  have hb := hr d.row ha'
  simp only [hF, hJ, hS, vecOf, matVal, flat_row] at hb
  rw [sum_rows (n := n)] at hb
  simp only [flat2_row] at hb
  set u : ℝ → Dof n → ℝ := fun t b => U t b.row with hu
  have hu' : ∀ b, HasDerivAt (fun t => u t b) (U' b.row) t₀ := fun b => hU _ (C111_rows.2.1 b)
  have h1 := side_rate (attachedSide A.nSides A.ids A.sides) t₀ u (fun b => U' b.row) (fun e he hk => hl.1 e he hk _ _ hu') d
  have h2 := vol_rate (attachedVol A.sid A.vols) t₀ u (fun b => U' b.row) (fun e he => hl.2 e he _ _ hu') d
  have er : (fun t => (loadedElem force jac sens A dof asked).res t (U t) d.row) = fun t => F t (u t) d + (((attachedSide A.nSides A.ids A.sides).map fun e => if SideLoad e.2.kind then (e.2.side e.1).res t (u t) else 0).sum d)
      + ((attachedVol A.sid A.vols).map fun e => e.vol.res t (u t)).sum d := by
    funext t
    show vecOf (force t (u t) >>= A.add sideAct volAct (fun s l => (l.side s).res t (u t)) fun l => l.vol.res t (u t)) d.row = _
    rw [bind_ok (hF t (u t)), add_eq A hA]
    simp only [vecOf, flat_row, Pi.add_apply]
  have es : (loadedElem force jac sens A dof asked).sens t₀ (U t₀) d.row = S d + (((attachedSide A.nSides A.ids A.sides).map fun e => if SideLoad e.2.kind then (e.2.side e.1).sens t₀ (u t₀) else 0).sum d)
      + ((attachedVol A.sid A.vols).map fun e => e.vol.sens t₀ (u t₀)).sum d := by
    show vecOf (sens t₀ (u t₀) >>= A.add sideSensAct volSensAct (fun s l => (l.side s).sens t₀ (u t₀)) fun l => l.vol.sens t₀ (u t₀)) d.row = _
    rw [bind_ok hS, sens_acts.1, sens_acts.2, add_eq A hA]
    simp only [vecOf, flat_row, Pi.add_apply]
  have ej : ∀ b : Dof n, (loadedElem force jac sens A dof asked).jac t₀ (U t₀) d.row b.row = J d b + (((attachedSide A.nSides A.ids A.sides).map fun e => if SideLoad e.2.kind then (e.2.side e.1).jac t₀ (u t₀) else 0).sum d b)
      + ((attachedVol A.sid A.vols).map fun e => e.vol.jac t₀ (u t₀)).sum d b := by
    intro b
    show matVal (jac t₀ (u t₀) >>= A.add sideAct volAct (fun s l => (l.side s).jac t₀ (u t₀)) fun l => l.vol.jac t₀ (u t₀)) d.row b.row = _
    rw [bind_ok hJ, add_eq A hA]
    simp only [matVal, flat2_row, Pi.add_apply]
  rw [er, es]
  have en : (loadedElem force jac sens A dof asked).n = 6 * n := rfl
  rw [en, sum_rows (n := n)]
  simp only [ej, add_mul, Finset.sum_add_distrib]
  exact ((hb.fun_add h1).fun_add h2).congr_deriv (by ring)

/-! ## The routines of the loads -/

/-- C188: pressure on the element does not depend on the unknowns, and its sensitivity is its derivative. -/
theorem C188_pressure (T : Option (Fin 3 → Fin 3 → ℝ)) (dim : Nat) (p : Fam X ℝ) (pts : List (Qp n X)) (t₀ : ℝ) (hp : ∀ q ∈ pts, HasDerivAt (fun t => p.val t q.x) (p.der t₀ q.x) t₀) : OpConsistent (pressureOp T dim p pts) t₀ := by
  intro U U' _ a
  have h := (C114_sensitivity T dim p.val (fun _ _ => 0) (fun _ _ _ => 0) (p.der t₀) (fun _ => 0) (fun _ _ => 0) t₀ pts hp (fun _ _ => hasDerivAt_const _ _) (fun _ _ _ => hasDerivAt_const _ _) a).1
  simp only [pressureOp, zero_mul, Finset.sum_const_zero, add_zero]
  exact h

/-- C188: the same for pressure on a side, with the thickness or area of the section. -/
theorem C188_side_pressure (T : Option (Fin 3 → Fin 3 → ℝ)) (h p : Fam X ℝ) (pts : List (Qp n X)) (t₀ : ℝ) (hh : ∀ q ∈ pts, HasDerivAt (fun t => h.val t q.x) (h.der t₀ q.x) t₀)
    (hp : ∀ q ∈ pts, HasDerivAt (fun t => p.val t q.x) (p.der t₀ q.x) t₀) : OpConsistent (sidePressureOp T h p pts) t₀ := by
  intro U U' _ a
  have h := (C114_sensitivity T 0 p.val h.val (fun _ _ _ => 0) (p.der t₀) (h.der t₀) (fun _ _ => 0) t₀ pts hp hh (fun _ _ _ => hasDerivAt_const _ _) a).2.1
  simp only [sidePressureOp, zero_mul, Finset.sum_const_zero, add_zero]
  exact h

/-- C188: the same for traction on the side of a shell. -/
theorem C188_traction (T : Option (Fin 3 → Fin 3 → ℝ)) (h : Fam X ℝ) (tr : Fam X (Fin 3 → ℝ)) (pts : List (Qp n X)) (t₀ : ℝ) (hh : ∀ q ∈ pts, HasDerivAt (fun t => h.val t q.x) (h.der t₀ q.x) t₀)
    (ht : ∀ q ∈ pts, ∀ k, HasDerivAt (fun t => tr.val t q.x k) (tr.der t₀ q.x k) t₀) : OpConsistent (tractionOp T h tr pts) t₀ := by
  intro U U' _ a
  have h := (C114_sensitivity T 0 (fun _ _ => 0) h.val tr.val (fun _ => 0) (h.der t₀) (tr.der t₀) t₀ pts (fun _ _ => hasDerivAt_const _ _) hh ht a).2.2.2
  simp only [tractionOp, zero_mul, Finset.sum_const_zero, add_zero]
  exact h

/-- Expansion matrices and temperatures report their derivatives. -/
structure ShellTherm (th : Fam (Shell.Sqp n X) Shell.Thermal) (t₀ : ℝ) (q : Shell.Sqp n X) : Prop where
  expA : ∀ r, HasDerivAt (fun t => (th.val t q).expA r) ((th.der t₀ q).expA r) t₀
  expB : ∀ r, HasDerivAt (fun t => (th.val t q).expB r) ((th.der t₀ q).expB r) t₀
  temp : HasDerivAt (fun t => (th.val t q).temp) (th.der t₀ q).temp t₀
  ref : HasDerivAt (fun t => (th.val t q).ref) (th.der t₀ q).ref t₀

/-- The same for beams. -/
structure BeamTherm (th : Fam (Beam.Bqp n X) Beam.Thermal) (t₀ : ℝ) (q : Beam.Bqp n X) : Prop where
  expA : ∀ r, HasDerivAt (fun t => (th.val t q).expA r) ((th.der t₀ q).expA r) t₀
  expB : ∀ r, HasDerivAt (fun t => (th.val t q).expB r) ((th.der t₀ q).expB r) t₀
  temp : HasDerivAt (fun t => (th.val t q).temp) (th.der t₀ q).temp t₀
  ref : HasDerivAt (fun t => (th.val t q).ref) (th.der t₀ q).ref t₀

section
variable {E : Type} [NormedAddCommGroup E] [NormedSpace ℝ E] {z : E}

theorem thermalOp_diff (nl bend : Bool) {ta tb : E → Fin 3 → ℝ} (ha : ∀ r, DifferentiableAt ℝ (fun z => ta z r) z) (hb : ∀ r, DifferentiableAt ℝ (fun z => tb z r) z) (q : Shell.Sqp n X) {u : E → Dof n → ℝ}
    (hu : ∀ b, DifferentiableAt ℝ (fun z => u z b) z) (a : Dof n) : DifferentiableAt ℝ (fun z => Shell.thermalOp nl bend (ta z) (tb z) q (u z) a) z := by
  unfold Shell.thermalOp
  exact (((appT_diff _ ha a).const_mul _).fun_add (if_diff nl (((appT_diff _ (mvT_diff (matX_diff q hu) ha) a).const_mul _).fun_add ((appT_diff _ (mvT_diff (matY_diff q hu) ha) a).const_mul _)) (differentiableAt_const _))).fun_add
    (if_diff bend (((appT_diff _ hb a).const_mul _).fun_add (if_diff nl ((appT_diff _ (mvT_diff (vkMat_diff q hu) ha) a).const_mul _) (differentiableAt_const _))) (differentiableAt_const _))

theorem loadOp_diff (nl bend : Bool) {ta tb : E → Fin 2 → ℝ} (ha : ∀ r, DifferentiableAt ℝ (fun z => ta z r) z) (hb : ∀ r, DifferentiableAt ℝ (fun z => tb z r) z) (q : Beam.Bqp n X) {u : E → Dof n → ℝ}
    (hu : ∀ b, DifferentiableAt ℝ (fun z => u z b) z) (a : Dof n) : DifferentiableAt ℝ (fun z => Beam.loadOp nl bend (ta z) (tb z) q (u z) a) z := by
  have hx : DifferentiableAt ℝ (fun z => Beam.dvx q (u z)) z := dw_diff _ _ hu
  have hy : DifferentiableAt ℝ (fun z => Beam.dwx q (u z)) z := dw_diff _ _ hu
  have hv : ∀ {f : E → ℝ}, DifferentiableAt ℝ f z → ∀ r : Fin 2, DifferentiableAt ℝ (fun z => (![f z * ta z 0, 0] : Fin 2 → ℝ) r) z := by
    intro f hf r
    fin_cases r
    · exact hf.fun_mul (ha 0)
    · exact differentiableAt_const _
  unfold Beam.loadOp
  exact ((appT_diff _ ha a).const_mul _).fun_add (if_diff bend ((((appT_diff _ hb a).const_mul _).fun_add ((appT_diff _ hb a).const_mul _)).fun_add
    (if_diff nl (((appT_diff _ (hv hx) a).const_mul _).fun_add ((appT_diff _ (hv hy) a).const_mul _)) (differentiableAt_const _))) (differentiableAt_const _))

end

theorem snd_diff {f : ℝ → ℝ} {f' : ℝ} {u : Dof n → ℝ} {t₀ : ℝ} (h : HasDerivAt f f' t₀) : DifferentiableAt ℝ (fun z : (Dof n → ℝ) × ℝ => f z.2) (u, t₀) :=
  DifferentiableAt.comp (g := f) (f := fun z : (Dof n → ℝ) × ℝ => z.2) (u, t₀) h.differentiableAt differentiableAt_snd

/-- Rate of the thermal load of a shell; the Jacobian here is the one without scaling. -/
theorem shell_thermal_rate (T : Option (Fin 3 → Fin 3 → ℝ)) (nl bend : Bool) (th : Fam (Shell.Sqp n X) Shell.Thermal) (qs : List (Shell.Sqp n X)) (t₀ : ℝ) (h : ∀ q ∈ qs, ShellTherm th t₀ q) (U : ℝ → Dof n → ℝ)
    (U' : Dof n → ℝ) (hU : ∀ b, HasDerivAt (fun t => U t b) (U' b) t₀) (a : Dof n) :
    HasDerivAt (fun t => Shell.thermalRes T nl bend (qs.map fun q => (q, th.val t q)) (U t) a)
      (Shell.thermalSens T nl bend (qs.map fun q => (q, th.val t₀ q, th.der t₀ q)) (U t₀) a + ∑ b, Shell.thermalJac T nl bend 1 (qs.map fun q => (q, th.val t₀ q)) a b * U' b) t₀ := by
  refine joint_rate (R := fun z : (Dof n → ℝ) × ℝ => Shell.thermalRes T nl bend (qs.map fun q => (q, th.val z.2 q)) z.1 a) (u := U t₀) (w := U') ?_ ?_ ?_ U hU rfl
  · refine global_diff T (f := fun z : (Dof n → ℝ) × ℝ => Shell.thermalLocal nl bend (qs.map fun q => (q, th.val z.2 q)) (vecToLocal T z.1)) (fun b => ?_) a
    have e : (fun z : (Dof n → ℝ) × ℝ => Shell.thermalLocal nl bend (qs.map fun q => (q, th.val z.2 q)) (vecToLocal T z.1) b) = fun z => -(qs.map fun q => Shell.thermalOp nl bend
        (fun r => (th.val z.2 q).expA r * ((th.val z.2 q).temp - (th.val z.2 q).ref)) (fun r => (th.val z.2 q).expB r * ((th.val z.2 q).temp - (th.val z.2 q).ref)) q (vecToLocal T z.1) b).sum := by
      funext z
      simp only [Shell.thermalLocal, List.map_map]
      rfl
    rw [e]
    refine DifferentiableAt.fun_neg (list_diff qs (fun q (z : (Dof n → ℝ) × ℝ) => Shell.thermalOp nl bend (fun r => (th.val z.2 q).expA r * ((th.val z.2 q).temp - (th.val z.2 q).ref))
      (fun r => (th.val z.2 q).expB r * ((th.val z.2 q).temp - (th.val z.2 q).ref)) q (vecToLocal T z.1) b) (U t₀, t₀) fun q hq => ?_)
    have hq := h q hq
    exact thermalOp_diff nl bend (fun r => (snd_diff (hq.expA r)).fun_mul ((snd_diff hq.temp).fun_sub (snd_diff hq.ref))) (fun r => (snd_diff (hq.expB r)).fun_mul ((snd_diff hq.temp).fun_sub (snd_diff hq.ref))) q
      (local_diff T fun b => by fun_prop) b
  · exact Shell.C117_thermal_sensitivity T nl bend qs (fun t q => th.val t q) (fun q => th.der t₀ q) t₀ (fun q hq => (h q hq).expA) (fun q hq => (h q hq).expB) (fun q hq => (h q hq).temp) (fun q hq => (h q hq).ref) (U t₀) a
  · exact Shell.C117_thermal_jacobian T nl bend (qs.map fun q => (q, th.val t₀ q)) (U t₀) U' a

/-- The same for a beam. -/
theorem beam_thermal_rate (T : Option (Fin 3 → Fin 3 → ℝ)) (nl bend : Bool) (th : Fam (Beam.Bqp n X) Beam.Thermal) (qs : List (Beam.Bqp n X)) (t₀ : ℝ) (h : ∀ q ∈ qs, BeamTherm th t₀ q) (U : ℝ → Dof n → ℝ)
    (U' : Dof n → ℝ) (hU : ∀ b, HasDerivAt (fun t => U t b) (U' b) t₀) (a : Dof n) :
    HasDerivAt (fun t => Beam.thermalRes T nl bend (qs.map fun q => (q, th.val t q)) (U t) a)
      (Beam.thermalSens T nl bend (qs.map fun q => (q, th.val t₀ q, th.der t₀ q)) (U t₀) a + ∑ b, Beam.thermalJac T nl bend 1 (qs.map fun q => (q, th.val t₀ q)) a b * U' b) t₀ := by
  refine joint_rate (R := fun z : (Dof n → ℝ) × ℝ => Beam.thermalRes T nl bend (qs.map fun q => (q, th.val z.2 q)) z.1 a) (u := U t₀) (w := U') ?_ ?_ ?_ U hU rfl
  · refine global_diff T (f := fun z : (Dof n → ℝ) × ℝ => fun b => -(qs.map fun q => Beam.loadOp nl bend
        (fun r => (th.val z.2 q).expA r * ((th.val z.2 q).temp - (th.val z.2 q).ref)) (fun r => (th.val z.2 q).expB r * ((th.val z.2 q).temp - (th.val z.2 q).ref)) q (vecToLocal T z.1) b).sum) (fun b => ?_) a |>.congr_of_eventuallyEq ?_
    · refine DifferentiableAt.fun_neg (list_diff qs (fun q (z : (Dof n → ℝ) × ℝ) => Beam.loadOp nl bend (fun r => (th.val z.2 q).expA r * ((th.val z.2 q).temp - (th.val z.2 q).ref))
        (fun r => (th.val z.2 q).expB r * ((th.val z.2 q).temp - (th.val z.2 q).ref)) q (vecToLocal T z.1) b) (U t₀, t₀) fun q hq => ?_)
      have hq := h q hq
      exact loadOp_diff nl bend (fun r => (snd_diff (hq.expA r)).fun_mul ((snd_diff hq.temp).fun_sub (snd_diff hq.ref))) (fun r => (snd_diff (hq.expB r)).fun_mul ((snd_diff hq.temp).fun_sub (snd_diff hq.ref))) q
        (local_diff T fun b => by fun_prop) b
    · refine Filter.Eventually.of_forall fun z => ?_
      simp only [Beam.thermalRes, globalRes, List.map_map]
      rfl
  · exact Beam.C120_thermal_sensitivity T nl bend qs (fun t q => th.val t q) (fun q => th.der t₀ q) t₀ (fun q hq => (h q hq).expA) (fun q hq => (h q hq).expB) (fun q hq => (h q hq).temp) (fun q hq => (h q hq).ref) (U t₀) a
  · have := Beam.C120_thermal_jacobian T nl bend 1 (qs.map fun q => (q, th.val t₀ q)) (U t₀) U' a
    simp only [one_mul] at this
    exact this

/-- C188: temperature on a shell whose load has no Jacobian scaling: Jacobian and sensitivity of the thermal load are consistent, for linear and nonlinear strain, with and without bending, in any frame. -/
theorem C188_thermal_shell_partial (T : Option (Fin 3 → Fin 3 → ℝ)) (nl bend : Bool) (scaling : ℝ → ℝ) (th : Fam (Shell.Sqp n X) Shell.Thermal) (qs : List (Shell.Sqp n X)) (t₀ : ℝ) (hs : scaling t₀ = 1)
    (h : ∀ q ∈ qs, ShellTherm th t₀ q) : OpConsistent (thermalShellOp T nl bend scaling th qs) t₀ := by
  intro U U' hU a
  have := shell_thermal_rate T nl bend th qs t₀ h U U' hU a
  rw [← hs] at this
  exact this

/-- C188: temperature on a beam without Jacobian scaling. -/
theorem C188_thermal_beam_partial (T : Option (Fin 3 → Fin 3 → ℝ)) (nl bend : Bool) (scaling : ℝ → ℝ) (th : Fam (Beam.Bqp n X) Beam.Thermal) (qs : List (Beam.Bqp n X)) (t₀ : ℝ) (hs : scaling t₀ = 1)
    (h : ∀ q ∈ qs, BeamTherm th t₀ q) : OpConsistent (thermalBeamOp T nl bend scaling th qs) t₀ := by
  intro U U' hU a
  have := beam_thermal_rate T nl bend th qs t₀ h U U' hU a
  rw [← hs] at this
  exact this

/-- C188 fails with a Jacobian scaling: whenever the load of a shell scales its thermal Jacobian (`thermal_jacobian_scaling` other than one) and the thermal force changes along the motion, the Jacobian, which
`sensitivity_solve` uses as well, does not give the rate. -/
theorem C188_scaling_fails (T : Option (Fin 3 → Fin 3 → ℝ)) (nl bend : Bool) (scaling : ℝ → ℝ) (th : Fam (Shell.Sqp n X) Shell.Thermal) (qs : List (Shell.Sqp n X)) (t₀ : ℝ) (hs : scaling t₀ ≠ 1)
    (h : ∀ q ∈ qs, ShellTherm th t₀ q) (U : ℝ → Dof n → ℝ) (U' : Dof n → ℝ) (hU : ∀ b, HasDerivAt (fun t => U t b) (U' b) t₀) (a : Dof n)
    (ha : ∑ b, Shell.thermalJac T nl bend 1 (qs.map fun q => (q, th.val t₀ q)) a b * U' b ≠ 0) : ¬ OpRate (thermalShellOp T nl bend scaling th qs) t₀ U U' := by
  intro hr
  have h1 := (hr a).unique (shell_thermal_rate T nl bend th qs t₀ h U U' hU a)
  have h2 := add_left_cancel h1
  have h3 := (Shell.C117_scaling T nl bend (scaling t₀) (qs.map fun q => (q, th.val t₀ q)) (U t₀) U' a).unique ((Shell.C117_thermal_jacobian T nl bend (qs.map fun q => (q, th.val t₀ q)) (U t₀) U' a).const_mul (scaling t₀))
  have h4 : scaling t₀ * ∑ b, Shell.thermalJac T nl bend 1 (qs.map fun q => (q, th.val t₀ q)) a b * U' b = ∑ b, Shell.thermalJac T nl bend 1 (qs.map fun q => (q, th.val t₀ q)) a b * U' b := h3.symm.trans h2
  exact hs (mul_right_cancel₀ ha (h4.trans (one_mul _).symm))

/-- C188: the same for beams. -/
theorem C188_beam_scaling_fails (T : Option (Fin 3 → Fin 3 → ℝ)) (nl bend : Bool) (scaling : ℝ → ℝ) (th : Fam (Beam.Bqp n X) Beam.Thermal) (qs : List (Beam.Bqp n X)) (t₀ : ℝ) (hs : scaling t₀ ≠ 1)
    (h : ∀ q ∈ qs, BeamTherm th t₀ q) (U : ℝ → Dof n → ℝ) (U' : Dof n → ℝ) (hU : ∀ b, HasDerivAt (fun t => U t b) (U' b) t₀) (a : Dof n)
    (ha : ∑ b, Beam.thermalJac T nl bend 1 (qs.map fun q => (q, th.val t₀ q)) a b * U' b ≠ 0) : ¬ OpRate (thermalBeamOp T nl bend scaling th qs) t₀ U U' := by
  intro hr
  have h1 := (hr a).unique (beam_thermal_rate T nl bend th qs t₀ h U U' hU a)
  have h2 := add_left_cancel h1
  have h5 := Beam.C120_thermal_jacobian T nl bend 1 (qs.map fun q => (q, th.val t₀ q)) (U t₀) U' a
  simp only [one_mul] at h5
  have h3 := (Beam.C120_thermal_jacobian T nl bend (scaling t₀) (qs.map fun q => (q, th.val t₀ q)) (U t₀) U' a).unique (h5.const_mul (scaling t₀))
  have h4 : scaling t₀ * ∑ b, Beam.thermalJac T nl bend 1 (qs.map fun q => (q, th.val t₀ q)) a b * U' b = ∑ b, Beam.thermalJac T nl bend 1 (qs.map fun q => (q, th.val t₀ q)) a b * U' b := h3.symm.trans h2
  exact hs (mul_right_cancel₀ ha (h4.trans (one_mul _).symm))

/-! ## The structure -/

/-- C188: a beam with its loads. -/
theorem C188_beam (E : BeamData n X) (A : Attached n) (v : Nat → ℝ) (p : Nat) (dof : Nat → Nat) (asked : Bool) (h : BeamOk E v p) (hA : Accepted A) (hl : LoadsOk A (v p)) : ElemConsistent (loadedBeam E A v p dof asked) (v p) := by
  intro U U' hU
  have hr := C186_beam E v p dof asked h U U' hU
  obtain ⟨bs, hb⟩ := h.built
  obtain ⟨P, hP⟩ := h.found
  have hforce : ∀ u w, barForce E.hp E.F E.card E.T E.nl E.bend E.qs u w = .ok (Beam.internalRes E.T E.nl E.bend (barElem E.F P w E.qs) u) := fun u w => by unfold barForce; rw [bind_ok hP]; rfl
  obtain ⟨s, hs1, _⟩ := C183_beam bs E.hp hb E.F h.declares E.card E.T E.nl E.bend E.qs (fun d => U (v p) d.row) v p h.derivs h.nu h.sides _ (hforce _ v) fun _ => 0
  refine C188_loaded _ _ _ A dof asked (fun t u => ⟨_, hforce u _⟩) hA hl U U' ⟨Beam.internalJac E.T E.nl E.bend (barElem E.F P (Function.update v p (v p)) E.qs) (fun d => U (v p) d.row) fun _ _ => 0, ?_⟩ (by rw [upd_self]; exact ⟨_, hs1⟩) hU hr
  · unfold barJac
    rw [bind_ok hP]
    rfl

/-- C188: a shell with its loads, along motions without drilling, where its tangent is right (C186). -/
theorem C188_shell_partial (E : ShellData n X) (A : Attached n) (v : Nat → ℝ) (p : Nat) (dof : Nat → Nat) (asked : Bool) (h : ShellOk E v p) (hA : Accepted A) (hl : LoadsOk A (v p)) (U : ℝ → Nat → ℝ) (U' : Nat → ℝ)
    (hU : ∀ a < 6 * n, HasDerivAt (fun t => U t a) (U' a) (v p)) (ht : TangentOk E (U (v p))) (hdr : DrillFree E.T n U') : RateAlong (loadedShell E A v p dof asked) (v p) U U' := by
  have hr := C186_shell_rate E v p dof asked h U U' hU ht hdr
  obtain ⟨bs, hb⟩ := h.built
  obtain ⟨P, hP⟩ := h.found
  have hforce : ∀ u w, plateForce E.hp E.F E.card E.stress E.T E.nl E.bend E.qs E.ss u w = .ok (Shell.internalRes E.T E.nl E.bend (plateElem E.F E.stress P w E.qs E.ss) u) := fun u w => by unfold plateForce; rw [bind_ok hP]; rfl
  obtain ⟨s, hs1, _⟩ := C183_plate_partial bs E.hp hb E.F h.declares E.card E.stress E.T E.nl E.bend E.qs E.ss (fun d => U (v p) d.row) v p h.derivs h.nu h.shear _ (hforce _ v) fun _ => 0
  refine C188_loaded _ _ _ A dof asked (fun t u => ⟨_, hforce u _⟩) hA hl U U' ⟨Shell.internalJac E.T E.nl E.bend (plateElem E.F E.stress P (Function.update v p (v p)) E.qs E.ss) (fun d => U (v p) d.row), ?_⟩ (by rw [upd_self]; exact ⟨_, hs1⟩) hU hr
  · unfold plateJac
    rw [bind_ok hP]
    rfl

/-- A loaded beam or shell of the structure, for the solution `u` of the analysis and its rate `w`. -/
inductive IsLoaded (v : Nat → ℝ) (p : Nat) (u w : Nat → ℝ) : PElem → Prop
  | beam {n : Nat} {X : Type} (E : BeamData n X) (A : Attached n) (dof : Nat → Nat) (asked : Bool) (h : BeamOk E v p) (hA : Accepted A) (hl : LoadsOk A (v p)) : IsLoaded v p u w (loadedBeam E A v p dof asked)
  | shell {n : Nat} {X : Type} (E : ShellData n X) (A : Attached n) (dof : Nat → Nat) (asked : Bool) (h : ShellOk E v p) (hA : Accepted A) (hl : LoadsOk A (v p)) (ht : TangentOk E fun b => u (dof b))
      (hd : DrillFree E.T n fun b => w (dof b)) : IsLoaded v p u w (loadedShell E A v p dof asked)

/-- C188: a steady analysis of beams and shells with side and volume loads and point loads: `sensitivity_solve` returns the derivative of the displacements with respect to a parameter of sections, materials or loads.
Partial: the exclusions of C186, and thermal loads with a Jacobian scaling (C188_scaling_fails). -/
theorem C188_structure_partial {N : Nat} (ls : Sens.LinSolver N) (hls : ls.Correct) {C : Nat → Bool} {loads : List PLoad} {ps : List PProc} {v : Nat → ℝ} {p : Nat} {X : ℝ → Fin N → ℝ} {X' : Fin N → ℝ}
    (hm : ∀ e ∈ allElems ps, IsLoaded v p (ext (X (v p))) (ext X') e) (hdof : ∀ e ∈ allElems ps, ∀ a < e.n, e.dof a < N)
    (hask : ∀ e ∈ allElems ps, e.asked = true ∨ ∀ a < e.n, e.sens (v p) (fun b => ext (X (v p)) (e.dof b)) a = 0) (hl : ∀ l ∈ loads, ∀ a < l.n, HasDerivAt (fun t => l.load t a) (l.dload (v p) a) (v p))
    (hown : ∀ i < N, OwnedOnce ps i) (hB : Branch C loads ps X X' (v p)) (hreg : IsUnit (Matrix.of fun i j : Fin N => sysJac C ps (v p) (ext (X (v p))) i j).det) :
    sensitivitySolve ls C loads ps (v p) (X (v p)) = X' := by
  refine C185_along ls hls hdof (fun e he => ?_) hask (fun e he => ?_) hl hown hB hreg
  · cases hm e he <;> rfl
  · have hU := motion (hdof e he) hB.rate
    cases hm e he with
    | beam E A dof asked h hA hl => exact C188_beam E A v p dof asked h hA hl _ _ hU
    | shell E A dof asked h hA hl ht hd => exact C188_shell_partial E A v p dof asked h hA hl _ _ hU ht hd

/-! ### A heated beam and a membrane under traction -/

/-- Expansion force 4 along the beam. -/
noncomputable def exTh : Fam (Beam.Bqp 1 Unit) Beam.Thermal := ⟨fun _ _ => ⟨![2, 0], ![0, 0], 3, 1⟩, fun _ _ => ⟨![0, 0], ![0, 0], 0, 0⟩⟩
noncomputable def exNone : Op 1 := ⟨fun _ _ _ => 0, fun _ _ _ _ => 0, fun _ _ _ => 0⟩
noncomputable def exHeat : Attached 1 := ⟨0, fun _ => [], 0, [], [(0, ⟨.temperature, fun _ => exNone, thermalBeamOp none true true (fun _ => 1) exTh [exB]⟩)]⟩
noncomputable def exQ : Qp 1 Unit := ⟨(), 1, fun _ => 1, fun _ => 0⟩
/-- Traction 2 on the side with boundary id 5. -/
noncomputable def exPull : Attached 1 := ⟨2, fun s => if s = 1 then [5] else [], 0, [(5, ⟨.surfaceTraction, fun _ => tractionOp none ⟨fun _ _ => 1, fun _ _ => 0⟩ ⟨fun _ _ => ![2, 0, 0], fun _ _ _ => 0⟩ [exQ], exNone⟩)], []⟩

theorem exHeat_ok (t : ℝ) : Accepted exHeat ∧ LoadsOk exHeat t := by
  refine ⟨⟨fun e he => by simp [attachedSide, exHeat] at he, fun l hl => ?_⟩, fun e he => by simp [attachedSide, exHeat] at he, fun l hl => ?_⟩ <;>
    (simp only [attachedVol, exHeat, List.filterMap_cons, List.filterMap_nil, if_true, List.mem_singleton] at hl; subst hl)
  · trivial
  · refine C188_thermal_beam_partial none true true (fun _ => 1) exTh [exB] t rfl fun q _ => ⟨fun r => ?_, fun r => ?_, hasDerivAt_const _ _, hasDerivAt_const _ _⟩ <;> fin_cases r <;> exact hasDerivAt_const _ _

theorem exPull_ok (t : ℝ) : Accepted exPull ∧ LoadsOk exPull t := by
  have hall : attachedSide exPull.nSides exPull.ids exPull.sides = [(1, ⟨.surfaceTraction, fun _ => tractionOp none ⟨fun _ _ => 1, fun _ _ => 0⟩ ⟨fun _ _ => ![2, 0, 0], fun _ _ _ => 0⟩ [exQ], exNone⟩)] := by
    simp [attachedSide, exPull, List.range_succ]
  refine ⟨⟨fun e he => ?_, fun l hl => by simp [attachedVol, exPull] at hl⟩, fun e he _ => ?_, fun l hl => by simp [attachedVol, exPull] at hl⟩ <;> (rw [hall, List.mem_singleton] at he; subst he)
  · exact Or.inl (Or.inr (Or.inl rfl))
  · exact C188_traction none _ _ [exQ] t (fun q _ => hasDerivAt_const _ _) fun q _ k => hasDerivAt_const _ _

theorem loaded_res {force : ℝ → (Dof n → ℝ) → Exec (Dof n → ℝ)} {jac : ℝ → (Dof n → ℝ) → Exec (Dof n → Dof n → ℝ)} {sens : ℝ → (Dof n → ℝ) → Exec (Dof n → ℝ)} {A : Attached n} {dof : Nat → Nat} {asked : Bool} (hA : Accepted A)
    {t : ℝ} {u : Nat → ℝ} {F : Dof n → ℝ} (hF : force t (fun d => u d.row) = .ok F) (d : Dof n) : (loadedElem force jac sens A dof asked).res t u d.row =
      F d + (((attachedSide A.nSides A.ids A.sides).map fun e => if SideLoad e.2.kind then (e.2.side e.1).res t (fun d => u d.row) else 0).sum d) + ((attachedVol A.sid A.vols).map fun e => e.vol.res t fun d => u d.row).sum d := by
  show vecOf (force t (fun d => u d.row) >>= A.add sideAct volAct (fun s l => (l.side s).res t fun d => u d.row) fun l => l.vol.res t fun d => u d.row) d.row = _
  rw [bind_ok hF, add_eq A hA]
  simp only [vecOf, flat_row, Pi.add_apply]

theorem loaded_jac {force : ℝ → (Dof n → ℝ) → Exec (Dof n → ℝ)} {jac : ℝ → (Dof n → ℝ) → Exec (Dof n → Dof n → ℝ)} {sens : ℝ → (Dof n → ℝ) → Exec (Dof n → ℝ)} {A : Attached n} {dof : Nat → Nat} {asked : Bool} (hA : Accepted A)
    {t : ℝ} {u : Nat → ℝ} {F : Dof n → Dof n → ℝ} (hF : jac t (fun d => u d.row) = .ok F) (d e : Dof n) : (loadedElem force jac sens A dof asked).jac t u d.row e.row =
      F d e + (((attachedSide A.nSides A.ids A.sides).map fun e => if SideLoad e.2.kind then (e.2.side e.1).jac t (fun d => u d.row) else 0).sum d e) + ((attachedVol A.sid A.vols).map fun e => e.vol.jac t fun d => u d.row).sum d e := by
  show matVal (jac t (fun d => u d.row) >>= A.add sideAct volAct (fun s l => (l.side s).jac t fun d => u d.row) fun l => l.vol.jac t fun d => u d.row) d.row e.row = _
  rw [bind_ok hF, add_eq A hA]
  simp only [matVal, flat2_row, Pi.add_apply]

theorem hot_res (t : ℝ) (u : Nat → ℝ) (h1 : u 1 = 0) (h2 : u 2 = 0) : (loadedBeam exBeam exHeat barVals 0 id true).res t u 0 = 2 * t * u 0 - 4 := by
  have e := loaded_res (force := fun t u => barForce exBeam.hp exBeam.F exBeam.card exBeam.T exBeam.nl exBeam.bend exBeam.qs u (Function.update barVals 0 t))
    (jac := fun t u => barJac exBeam.hp exBeam.F exBeam.card exBeam.T exBeam.nl exBeam.bend exBeam.qs u (Function.update barVals 0 t))
    (sens := fun t u => barSens exBeam.hp exBeam.F exBeam.card exBeam.T exBeam.nl exBeam.bend exBeam.qs u (Function.update barVals 0 t) 0 fun _ => 0)
    (dof := id) (asked := true) (exHeat_ok t).1 (t := t) (u := u) (F := Beam.internalRes none true true (barElem consts ⟨7, 9, 8, 8, 5, 6⟩ (Function.update barVals 0 t) [exB]) (fun d => u d.row)) rfl (false, 0, 0)
  have hb : Beam.internalRes none true true (barElem consts ⟨7, 9, 8, 8, 5, 6⟩ (Function.update barVals 0 t) [exB]) (fun d => u d.row) (false, 0, 0) = 2 * t * u 0 :=
    (flat_row (n := 1) _ (false, 0, 0)).symm.trans (exBeam_res t u h1 h2)
  rw [hb] at e
  refine Eq.trans e ?_
  simp [attachedSide, attachedVol, exHeat, thermalBeamOp, Beam.thermalRes, globalRes, vecToGlobal, vecToLocal, Beam.loadOp, exTh, exB, Shell.appT, Beam.Bmem, Beam.Bvv, Beam.Bww, Beam.Bbv, Beam.Bbw, Shell.shape, Fin.sum_univ_two]
  ring

theorem hot_jac (t : ℝ) (u : Nat → ℝ) (h1 : u 1 = 0) (h2 : u 2 = 0) : (loadedBeam exBeam exHeat barVals 0 id true).jac t u 0 0 = 2 * t := by
  have e := loaded_jac (force := fun t u => barForce exBeam.hp exBeam.F exBeam.card exBeam.T exBeam.nl exBeam.bend exBeam.qs u (Function.update barVals 0 t))
    (jac := fun t u => barJac exBeam.hp exBeam.F exBeam.card exBeam.T exBeam.nl exBeam.bend exBeam.qs u (Function.update barVals 0 t))
    (sens := fun t u => barSens exBeam.hp exBeam.F exBeam.card exBeam.T exBeam.nl exBeam.bend exBeam.qs u (Function.update barVals 0 t) 0 fun _ => 0)
    (dof := id) (asked := true) (exHeat_ok t).1 (t := t) (u := u) (F := Beam.internalJac none true true (barElem consts ⟨7, 9, 8, 8, 5, 6⟩ (Function.update barVals 0 t) [exB]) (fun d => u d.row) fun _ _ => 0) rfl (false, 0, 0) (false, 0, 0)
  have hb : Beam.internalJac none true true (barElem consts ⟨7, 9, 8, 8, 5, 6⟩ (Function.update barVals 0 t) [exB]) (fun d => u d.row) (fun _ _ => 0) (false, 0, 0) (false, 0, 0) = 2 * t :=
    (flat2_row (n := 1) _ (false, 0, 0) (false, 0, 0)).symm.trans (exBeam_jac t u h1 h2)
  rw [hb] at e
  refine Eq.trans e ?_
  simp [attachedSide, attachedVol, exHeat, thermalBeamOp, Beam.thermalJac, matToGlobal, Beam.loadOpJac, Shell.sandwich, Beam.stressMat, exTh, exB, Beam.Bvv, Beam.Bww, Shell.shape, Fin.sum_univ_two]

theorem pulled_res (t : ℝ) (u : Nat → ℝ) : (loadedShell exShell exPull barVals 0 id true).res t u 0 = t * u 0 - 2 := by
  have e := loaded_res (force := fun t u => plateForce exShell.hp exShell.F exShell.card exShell.stress exShell.T exShell.nl exShell.bend exShell.qs exShell.ss u (Function.update barVals 0 t))
    (jac := fun t u => plateJac exShell.hp exShell.F exShell.card exShell.stress exShell.T exShell.nl exShell.bend exShell.qs exShell.ss u (Function.update barVals 0 t))
    (sens := fun t u => plateSens exShell.hp exShell.F exShell.card exShell.stress exShell.T exShell.nl exShell.bend exShell.qs exShell.ss u (Function.update barVals 0 t) 0 fun _ => 0)
    (dof := id) (asked := true) (exPull_ok t).1 (t := t) (u := u) (F := Shell.internalRes none false true (plateElem consts true ⟨7, 8, 7, 5, 6⟩ (Function.update barVals 0 t) [exS] []) (fun d => u d.row)) rfl (false, 0, 0)
  have hb : Shell.internalRes none false true (plateElem consts true ⟨7, 8, 7, 5, 6⟩ (Function.update barVals 0 t) [exS] []) (fun d => u d.row) (false, 0, 0) = t * u 0 :=
    (flat_row (n := 1) _ (false, 0, 0)).symm.trans (exShell_res t u)
  rw [hb] at e
  refine Eq.trans e ?_
  simp [attachedSide, attachedVol, exPull, List.range_succ, SideLoad, tractionOp, Fam.at, traction, external, vecToGlobal, nodalForce, exQ]
  ring

theorem pulled_jac (t : ℝ) (u : Nat → ℝ) : (loadedShell exShell exPull barVals 0 id true).jac t u 0 0 = t := by
  have e := loaded_jac (force := fun t u => plateForce exShell.hp exShell.F exShell.card exShell.stress exShell.T exShell.nl exShell.bend exShell.qs exShell.ss u (Function.update barVals 0 t))
    (jac := fun t u => plateJac exShell.hp exShell.F exShell.card exShell.stress exShell.T exShell.nl exShell.bend exShell.qs exShell.ss u (Function.update barVals 0 t))
    (sens := fun t u => plateSens exShell.hp exShell.F exShell.card exShell.stress exShell.T exShell.nl exShell.bend exShell.qs exShell.ss u (Function.update barVals 0 t) 0 fun _ => 0)
    (dof := id) (asked := true) (exPull_ok t).1 (t := t) (u := u) (F := Shell.internalJac none false true (plateElem consts true ⟨7, 8, 7, 5, 6⟩ (Function.update barVals 0 t) [exS] []) (fun d => u d.row)) rfl (false, 0, 0) (false, 0, 0)
  have hb : Shell.internalJac none false true (plateElem consts true ⟨7, 8, 7, 5, 6⟩ (Function.update barVals 0 t) [exS] []) (fun d => u d.row) (false, 0, 0) (false, 0, 0) = t :=
    (flat2_row (n := 1) _ (false, 0, 0) (false, 0, 0)).symm.trans (exShell_jac t u)
  rw [hb] at e
  refine Eq.trans e ?_
  simp [attachedSide, attachedVol, exPull, List.range_succ, SideLoad, tractionOp]

noncomputable def exLoaded : List PProc := [⟨[loadedBeam exBeam exHeat barVals 0 id true, loadedShell exShell exPull barVals 0 id true], 0, 6⟩]

theorem loaded_owned (i : Nat) (hi : i < 6) : OwnedOnce exLoaded i := by
  interval_cases i <;> simp [OwnedOnce, exLoaded]

/-- Non-vacuity of C188_structure_partial (with C188_beam, C188_shell_partial, C188_loaded): the beam and the membrane of C186, the beam heated (expansion force 4), the membrane under a traction 2 on one of its sides. -/
theorem exLoaded_meets : (∀ e ∈ allElems exLoaded, IsLoaded barVals 0 (ext (exX (barVals 0))) (ext fun i : Fin 6 => if i = 0 then -2 else 0) e) ∧ (∀ e ∈ allElems exLoaded, ∀ a < e.n, e.dof a < 6) ∧ (∀ i < 6, OwnedOnce exLoaded i) ∧
    (∀ e ∈ allElems exLoaded, e.asked = true) ∧ Branch (N := 6) exC [] exLoaded exX (fun i => if i = 0 then -2 else 0) (barVals 0) ∧
    IsUnit (Matrix.of fun i j : Fin 6 => sysJac exC exLoaded (barVals 0) (ext (exX (barVals 0))) i j).det := by
  have hall : allElems exLoaded = [loadedBeam exBeam exHeat barVals 0 id true, loadedShell exShell exPull barVals 0 id true] := rfl
  have hb0 : barVals 0 = 1 := by simp [barVals]
  refine ⟨?_, ?_, loaded_owned, ?_, ⟨?_, ?_, ?_⟩, ?_⟩
  · intro e he
    rw [hall] at he
    rcases List.mem_cons.1 he with rfl | he
    · exact .beam _ _ _ _ exBeam_ok (exHeat_ok 0).1 (exHeat_ok _).2
    · rw [List.mem_singleton.1 he]
      refine .shell _ _ _ _ exShell_ok (exPull_ok 0).1 (exPull_ok _).2 (Or.inl rfl) fun i => ?_
      have : i = 0 := Subsingleton.elim _ _
      subst this
      rfl
  · intro e he a ha
    rw [hall] at he
    rcases List.mem_cons.1 he with rfl | he
    · exact ha
    · rw [List.mem_singleton.1 he] at ha ⊢
      exact ha
  · intro e he
    rw [hall] at he
    rcases List.mem_cons.1 he with rfl | he
    · rfl
    · rw [List.mem_singleton.1 he]
      rfl
  · have : ∀ᶠ t in nhds (barVals 0), t ≠ 0 := isOpen_ne.mem_nhds (by rw [hb0]; norm_num)
    refine this.mono fun t ht i hi => ?_
    unfold sysRes
    rw [Asm.C22_residual _ _ _ _ _ (owned_map (PElem.atValue t) (loaded_owned i hi)), all_map, hall]
    by_cases h0 : i = 0
    · subst h0
      have e1 : Asm.elemRes (ext (exX t)) ((loadedBeam exBeam exHeat barVals 0 id true).atValue t) 0 = 2 * t * (2 / t) - 4 := by
        rw [← (exX_ext t).2.2, ← hot_res t (ext (exX t)) rfl rfl]
        simp [Asm.elemRes, PElem.atValue, loadedBeam, loadedElem]
      have e2 : Asm.elemRes (ext (exX t)) ((loadedShell exShell exPull barVals 0 id true).atValue t) 0 = t * (2 / t) - 2 := by
        rw [← (exX_ext t).2.2, ← pulled_res t (ext (exX t))]
        simp [Asm.elemRes, PElem.atValue, loadedShell, loadedElem]
      simp only [List.map_cons, List.map_nil, List.sum_cons, List.sum_nil, e1, e2]
      simp [exC]
      field_simp
      norm_num
    · simp [exC, h0]
  · refine Filter.Eventually.of_forall fun t i hi => ?_
    have : i ≠ 0 := fun h => by simp [h, exC] at hi
    simp [exX, this]
  · intro i
    by_cases h0 : i = 0
    · simp only [exX, h0, if_true]
      have := (hasDerivAt_inv (x := barVals 0) (by rw [hb0]; norm_num)).const_mul 2
      simp only [← div_eq_mul_inv] at this
      exact this.congr_deriv (by rw [hb0]; norm_num)
    · simp only [exX, h0, if_false]
      exact hasDerivAt_const _ _
  · have hdiag : (Matrix.of fun i j : Fin 6 => sysJac exC exLoaded (barVals 0) (ext (exX (barVals 0))) i j) = Matrix.diagonal fun i : Fin 6 => if i = 0 then 3 else 2 := by
      ext i j
      rw [Matrix.of_apply]
      by_cases hij : i = j
      · subst hij
        rw [Matrix.diagonal_apply_eq]
        unfold sysJac
        rw [Asm.C22_jacobian, all_map, hall]
        by_cases h0 : i = 0
        · subst h0
          have e1 : Asm.elemJac (ext (exX (barVals 0))) ((loadedBeam exBeam exHeat barVals 0 id true).atValue (barVals 0)) 0 0 = 2 := by
            rw [show (2 : ℝ) = 2 * barVals 0 by rw [hb0, mul_one], ← hot_jac (barVals 0) (ext (exX (barVals 0))) rfl rfl]
            simp [Asm.elemJac, PElem.atValue, loadedBeam, loadedElem, Finset.sum_range_succ]
          have e2 : Asm.elemJac (ext (exX (barVals 0))) ((loadedShell exShell exPull barVals 0 id true).atValue (barVals 0)) 0 0 = 1 := by
            have h1 := pulled_jac (barVals 0) (ext (exX (barVals 0)))
            rw [hb0] at h1 ⊢
            refine Eq.trans ?_ h1
            simp [Asm.elemJac, PElem.atValue, loadedShell, loadedElem, Finset.sum_range_succ]
          simp [exC, e1, e2]
          norm_num
        · have hn : (i : Nat) ≠ 0 := fun h => h0 (Fin.ext h)
          simp [exC, h0, hn, Asm.incidence, PElem.atValue, loadedBeam, loadedShell, loadedElem]
          norm_num
      · rw [Matrix.diagonal_apply_ne _ hij]
        have hne : (i : Nat) ≠ j := fun h => hij (Fin.ext h)
        by_cases h0 : (i : Nat) = 0
        · exact (con_row (i := (j : Nat)) (j := (i : Nat)) (by simp [exC]; omega) hne).2
        · exact (con_row (i := (i : Nat)) (j := (j : Nat)) (by simp [exC, h0]) (Ne.symm hne)).1
    rw [hdiag, Matrix.det_diagonal, isUnit_iff_ne_zero]
    simp [Fin.prod_univ_succ]

/-- Non-vacuity of C188_beam_scaling_fails: the heated beam turned about its end, with the thermal Jacobian scaled to a half. -/
example : (∀ q ∈ [exB], BeamTherm exTh 1 q) ∧ ∑ b, Beam.thermalJac none true true 1 ([exB].map fun q => (q, exTh.val 1 q)) (false, 1, 0) b * (if b = (false, 1, 0) then (1 : ℝ) else 0) ≠ 0 := by
  refine ⟨fun q _ => ⟨fun r => ?_, fun r => ?_, hasDerivAt_const _ _, hasDerivAt_const _ _⟩, ?_⟩
  · fin_cases r <;> exact hasDerivAt_const _ _
  · fin_cases r <;> exact hasDerivAt_const _ _
  · simp [Beam.thermalJac, matToGlobal, Beam.loadOpJac, Shell.sandwich, Beam.stressMat, exTh, exB, Beam.Bvv, Beam.Bww, Shell.shape, Fin.sum_univ_two]
    norm_num

/-- Non-vacuity of C188_scaling_fails: a heated membrane with nonlinear strain, stretched. -/
example : ∃ th : Fam (Shell.Sqp 1 Unit) Shell.Thermal, (∀ q ∈ [exS], ShellTherm th 1 q) ∧ ∑ b, Shell.thermalJac none true true 1 ([exS].map fun q => (q, th.val 1 q)) (false, 0, 0) b * (if b = (false, 0, 0) then (1 : ℝ) else 0) ≠ 0 := by
  refine ⟨⟨fun _ _ => ⟨fun _ => 1, fun _ => 0, 2, 1⟩, fun _ _ => ⟨fun _ => 0, fun _ => 0, 0, 0⟩⟩, fun q _ => ⟨fun r => hasDerivAt_const _ _, fun r => hasDerivAt_const _ _, hasDerivAt_const _ _, hasDerivAt_const _ _⟩, ?_⟩
  simp [Shell.thermalJac, matToGlobal, Shell.thermalLocalJac, Shell.thermalOpJac, Shell.sandwich, Shell.stressMat, exS, Shell.Bu, Shell.Bv, Shell.Bvk, Shell.shape, Fin.sum_univ_two]
  norm_num

end Verif.Steady
