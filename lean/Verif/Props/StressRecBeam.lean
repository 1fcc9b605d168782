import Verif.Props.StressRec
import Verif.Props.BeamMore
import Verif.Props.SolidThermal
/-
  C125, C126: stress recovery of the beam and the solid element.
-/
namespace Verif.StressRec
open Verif.GeomElem Verif.StructLoads
open Verif.Shell (shape app mv U V W TX TY unitDof)
open Verif.Beam (Bqp slope kv kw stretch dStretch)

/-! ### Specification -/
section Spec
variable {n : Nat} {X : Type}

/-- The bending operators for the offsets are multiples of the operators of the point. -/
def ScaledB (q : Bqp n X) (O : BendOps n) : Prop := (∀ y a, O.v y a = y * q.bv a) ∧ ∀ z a, O.w z a = z * q.bw a

/-- Position of a section point: corner `(±hy/2, ±hz/2)` of the bounding rectangle, shifted by the offsets. -/
noncomputable def posY (P : Bar) (s : Fin 4) : ℝ := P.offy + (if s = 0 ∨ s = 2 then P.hy / 2 else -(P.hy / 2))
noncomputable def posZ (P : Bar) (s : Fin 4) : ℝ := P.offz + (if s = 0 ∨ s = 1 then P.hz / 2 else -(P.hz / 2))

/-- Free expansion of the axis. -/
def expansionB (H : Option Heat) : ℝ := match H with | some h => h.alpha * (h.temp - h.ref) | none => 0

/-- Axial mechanical strain at the position `(y, z)`. -/
noncomputable def fibre (nl bend : Bool) (q : Bqp n X) (y z : ℝ) (H : Option Heat) (u : Dof n → ℝ) : ℝ := stretch nl bend q u + (if bend then y * kv q u + z * kw q u else 0) - expansionB H
end Spec

variable {n : Nat} {X : Type}

theorem yAt_eq (P : Bar) (s : Fin 4) : yAt P s = posY P s := by fin_cases s <;> simp [yAt, posY, cornerY] <;> ring
theorem zAtB_eq (P : Bar) (s : Fin 4) : zAtB P s = posZ P s := by fin_cases s <;> simp [zAtB, posZ, cornerZ] <;> ring

theorem app_v (q : Bqp n X) (O : BendOps n) (h : ScaledB q O) (y : ℝ) (u : Dof n → ℝ) : app (row0 (O.v y)) u 0 = y * kv q u := by
  simp only [app, row0, Matrix.cons_val_zero, h.1, kv, Finset.mul_sum]
  exact Finset.sum_congr rfl fun a _ => by ring
theorem app_w (q : Bqp n X) (O : BendOps n) (h : ScaledB q O) (z : ℝ) (u : Dof n → ℝ) : app (row0 (O.w z)) u 0 = z * kw q u := by
  simp only [app, row0, Matrix.cons_val_zero, h.2, kw, Finset.mul_sum]
  exact Finset.sum_congr rfl fun a _ => by ring
theorem app_row1 (b u : Dof n → ℝ) : app (row0 b) u 1 = 0 := by simp [app, row0]

theorem thermal2_0 (H : Option Heat) : thermal2 H 0 = expansionB H := by cases H <;> rfl
theorem thermal2_1 (H : Option Heat) : thermal2 H 1 = 0 := by cases H <;> rfl

theorem strainB_0 (nl bend : Bool) (q : Bqp n X) (O : BendOps n) (h : ScaledB q O) (P : Bar) (H : Option Heat) (s : Fin 4) (u : Dof n → ℝ) :
    strainB nl bend q O P H s u 0 = fibre nl bend q (posY P s) (posZ P s) H u := by
  unfold strainB fibre stretch
  rw [Beam.app_mem0, thermal2_0, app_v q O h, app_w q O h, yAt_eq, zAtB_eq]
  cases nl <;> cases bend <;> simp [Beam.vkStrain, Beam.dvx_eq, Beam.dwx_eq] <;> ring

theorem strainB_1 (nl bend : Bool) (q : Bqp n X) (O : BendOps n) (P : Bar) (H : Option Heat) (s : Fin 4) (u : Dof n → ℝ) :
    strainB nl bend q O P H s u 1 = slope TX q u := by
  unfold strainB
  rw [Beam.app_mem1, thermal2_1, app_row1, app_row1]
  cases nl <;> cases bend <;> simp [Beam.vkStrain]

/-- C125: what is stored at the four corners: the axial strain of the fibre, and the material matrix applied to it and to the twist, in slot 0. -/
theorem C125_strain (nl bend : Bool) (q : Bqp n X) (O : BendOps n) (h : ScaledB q O) (P : Bar) (H : Option Heat) (u : Dof n → ℝ) :
    recoverB nl bend [(q, O, P, H)] u = [(0 : Fin 4), 1, 2, 3].map fun s =>
      (⟨q.x, ![P.C 0 0 * fibre nl bend q (posY P s) (posZ P s) H u + P.C 0 1 * slope TX q u, 0, 0, 0, 0, 0], ![fibre nl bend q (posY P s) (posZ P s) H u, 0, 0, 0, 0, 0], q.JxW⟩ : Data n X) := by
  simp only [recoverB, List.flatMap_cons, List.flatMap_nil, List.append_nil, List.map_cons, List.map_nil, axial6, stressB, mv, Fin.sum_univ_two, strainB_0 nl bend q O h, strainB_1]

/-- C125 (partial): the weights add up to four times the length of the element; the full statement (the length, as for the shell) fails, `C125_weights_fails`. -/
theorem C125_weights_partial (nl bend : Bool) (e : Bars n X) (u : Dof n → ℝ) : ((recoverB nl bend e u).map fun d => d.weight).sum = 4 * (e.map fun p => p.1.JxW).sum := by
  induction e with
  | nil => simp [recoverB]
  | cons p e ih =>
    have : recoverB nl bend (p :: e) u = recoverB nl bend [p] u ++ recoverB nl bend e u := by simp [recoverB]
    rw [this, List.map_append, List.sum_append, ih, List.map_cons, List.sum_cons, mul_add]
    congr 1
    simp [recoverB]
    ring

section Path
variable {t0 : ℝ} {u : ℝ → Dof n → ℝ} {v : Dof n → ℝ}

theorem slope_path (c : Var6) (q : Bqp n X) (hu : ∀ a, HasDerivAt (fun t => u t a) (v a) t0) : HasDerivAt (fun t => slope c q (u t)) (slope c q v) t0 :=
  HasDerivAt.fun_sum fun i _ => (hu (c.1, c.2, i)).const_mul _
theorem kv_path (q : Bqp n X) (hu : ∀ a, HasDerivAt (fun t => u t a) (v a) t0) : HasDerivAt (fun t => kv q (u t)) (kv q v) t0 := HasDerivAt.fun_sum fun a _ => (hu a).const_mul _
theorem kw_path (q : Bqp n X) (hu : ∀ a, HasDerivAt (fun t => u t a) (v a) t0) : HasDerivAt (fun t => kw q (u t)) (kw q v) t0 := HasDerivAt.fun_sum fun a _ => (hu a).const_mul _

theorem stretch_path (nl bend : Bool) (q : Bqp n X) (hu : ∀ a, HasDerivAt (fun t => u t a) (v a) t0) : HasDerivAt (fun t => stretch nl bend q (u t)) (dStretch nl bend q (u t0) v) t0 := by
  unfold stretch dStretch
  have a := slope_path U q hu
  have b := slope_path V q hu
  have c := slope_path W q hu
  cases hb : (nl && bend) with
  | false => simpa using a
  | true =>
    simp only [if_true]
    exact (a.add (((b.fun_pow 2).add (c.fun_pow 2)).const_mul (1 / 2))).congr_deriv (by push_cast; ring)
end Path

theorem dstrainB_0 (nl bend : Bool) (q : Bqp n X) (O : BendOps n) (h : ScaledB q O) (P : Bar) (s : Fin 4) (u w : Dof n → ℝ) :
    ∑ a, dstrainB nl bend q O P s u 0 a * w a = dStretch nl bend q u w + if bend then posY P s * kv q w + posZ P s * kw q w else 0 := by
  have hm : ∑ a, Beam.Bmem q 0 a * w a = slope U q w := Beam.app_mem0 q w
  have hv : ∑ a, Beam.Bvv q 0 a * w a = slope V q w := Beam.app_v0 q w
  have hw : ∑ a, Beam.Bww q 0 a * w a = slope W q w := Beam.app_w0 q w
  have hy : ∑ a, row0 (O.v (yAt P s)) 0 a * w a = posY P s * kv q w := by rw [← yAt_eq]; exact app_v q O h _ w
  have hz : ∑ a, row0 (O.w (zAtB P s)) 0 a * w a = posZ P s * kw q w := by rw [← zAtB_eq]; exact app_w q O h _ w
  unfold dstrainB dStretch
  cases nl <;> cases bend <;> simp [Fin.sum_univ_two, add_mul, Finset.sum_add_distrib, mul_assoc, ← Finset.mul_sum, hm, hv, hw, hy, hz, Beam.dvx_eq, Beam.dwx_eq] <;> ring

theorem dstrainB_1 (nl bend : Bool) (q : Bqp n X) (O : BendOps n) (P : Bar) (s : Fin 4) (u w : Dof n → ℝ) : ∑ a, dstrainB nl bend q O P s u 1 a * w a = slope TX q w := by
  have hm : ∑ a, Beam.Bmem q 1 a * w a = slope TX q w := Beam.app_mem1 q w
  unfold dstrainB
  cases nl <;> cases bend <;> simp [row0, Fin.sum_univ_two, hm]

theorem dstressB_apply (nl bend : Bool) (q : Bqp n X) (O : BendOps n) (P : Bar) (s : Fin 4) (u w : Dof n → ℝ) (r : Fin 2) :
    ∑ a, dstressB nl bend q O P s u r a * w a = ∑ t, P.C r t * ∑ a, dstrainB nl bend q O P s u t a * w a := by
  simp only [dstressB, Finset.sum_mul, Finset.mul_sum]
  rw [Finset.sum_comm]
  exact Finset.sum_congr rfl fun t _ => Finset.sum_congr rfl fun a _ => by ring

theorem get_quad {α β : Type} (l : List α) (f : α → Fin 4 → β) (i : Nat) : (l.flatMap fun p => [0, 1, 2, 3].map (f p))[i]? = (l[i / 4]?).map fun p => f p ⟨i % 4, Nat.mod_lt _ (by decide)⟩ := by
  induction l generalizing i with
  | nil => simp
  | cons p l ih =>
    match i with
    | 0 => rfl
    | 1 => rfl
    | 2 => rfl
    | 3 => rfl
    | i + 4 =>
      have h1 : (i + 4) / 4 = i / 4 + 1 := by omega
      have h2 : (i + 4) % 4 = i % 4 := by omega
      simp only [List.flatMap_cons, List.map_cons, List.map_nil, List.cons_append, List.nil_append, List.getElem?_cons_succ, h1, h2]
      exact ih i

theorem axial6_deriv {f : ℝ → ℝ} {g t0 : ℝ} (h : HasDerivAt f g t0) (r : Fin 6) : HasDerivAt (fun t => axial6 (f t) r) (axial6 g r) t0 := by
  fin_cases r
  · exact h
  all_goals exact hasDerivAt_const t0 (0 : ℝ)

theorem axial6_apply (T : Option (Fin 3 → Fin 3 → ℝ)) (M : Dof n → ℝ) (r : Fin 6) (w : Dof n → ℝ) : ∑ a, axial6 (vecToGlobal T M a) r * w a = axial6 (∑ a, M a * vecToLocal T w a) r := by
  fin_cases r <;> simp [axial6, C111_work]

theorem strainB_path (nl bend hot : Bool) (q : Bqp n X) (O : BendOps n) (h : ScaledB q O) (P : ℝ → Bar) (H : ℝ → Heat) (D : BarDot) (u : ℝ → Dof n → ℝ) (v : Dof n → ℝ) (t0 : ℝ)
    (hy : HasDerivAt (fun t => (P t).hy) D.P.hy t0) (hz : HasDerivAt (fun t => (P t).hz) D.P.hz t0) (hoy : HasDerivAt (fun t => (P t).offy) D.P.offy t0) (hoz : HasDerivAt (fun t => (P t).offz) D.P.offz t0)
    (ha : HasDerivAt (fun t => (H t).alpha) D.H.alpha t0) (hT : HasDerivAt (fun t => (H t).temp) D.H.temp t0) (hr : HasDerivAt (fun t => (H t).ref) D.H.ref t0)
    (hu : ∀ a, HasDerivAt (fun t => u t a) (v a) t0) (s : Fin 4) (r : Fin 2) :
    HasDerivAt (fun t => strainB nl bend q O (P t) (if hot then some (H t) else none) s (u t) r) (strainDotB nl bend q O (P t0) (if hot then some (H t0) else none) D s (u t0) v r) t0 := by
  have hY : HasDerivAt (fun t => posY (P t) s) (posY D.P s) t0 := by
    unfold posY
    refine hoy.add ?_
    split_ifs
    · exact hy.div_const 2
    · exact (hy.div_const 2).neg
  have hZ : HasDerivAt (fun t => posZ (P t) s) (posZ D.P s) t0 := by
    unfold posZ
    refine hoz.add ?_
    split_ifs
    · exact hz.div_const 2
    · exact (hz.div_const 2).neg
  have hE : HasDerivAt (fun t => expansionB (if hot then some (H t) else none)) (if hot then (H t0).alpha * (D.H.temp - D.H.ref) + D.H.alpha * ((H t0).temp - (H t0).ref) else 0) t0 := by
    cases hot with
    | false => exact hasDerivAt_const t0 (0:ℝ)
    | true => exact (ha.mul (hT.sub hr)).congr_deriv (by simp only [if_true, Pi.sub_apply]; ring)
  match r with
  | 0 =>
    simp only [strainB_0 nl bend q O h, fibre, strainDotB, dstrainB_0 nl bend q O h]
    cases bend with
    | false =>
      refine HasDerivAt.congr_deriv (((stretch_path nl false q hu).add_const 0).sub hE) ?_
      cases hot <;> simp [explicitStrainB]; ring
    | true =>
      refine HasDerivAt.congr_deriv (((stretch_path nl true q hu).add ((hY.mul (kv_path q hu)).add (hZ.mul (kw_path q hu)))).sub hE) ?_
      have e1 := app_v q O h (yAt D.P s) (u t0)
      have e2 := app_w q O h (zAtB D.P s) (u t0)
      rw [yAt_eq] at e1; rw [zAtB_eq] at e2
      simp only [explicitStrainB, yAt_eq, zAtB_eq, e1, e2]
      cases hot <;> simp <;> ring
  | 1 =>
    simp only [strainB_1, strainDotB, dstrainB_1]
    refine HasDerivAt.congr_deriv (slope_path TX q hu) ?_
    cases hot <;> cases bend <;> simp [explicitStrainB, app_row1]

theorem stressB_path (nl bend hot : Bool) (q : Bqp n X) (O : BendOps n) (h : ScaledB q O) (P : ℝ → Bar) (H : ℝ → Heat) (D : BarDot) (u : ℝ → Dof n → ℝ) (v : Dof n → ℝ) (t0 : ℝ)
    (hC : ∀ r s, HasDerivAt (fun t => (P t).C r s) (D.P.C r s) t0)
    (hy : HasDerivAt (fun t => (P t).hy) D.P.hy t0) (hz : HasDerivAt (fun t => (P t).hz) D.P.hz t0) (hoy : HasDerivAt (fun t => (P t).offy) D.P.offy t0) (hoz : HasDerivAt (fun t => (P t).offz) D.P.offz t0)
    (ha : HasDerivAt (fun t => (H t).alpha) D.H.alpha t0) (hT : HasDerivAt (fun t => (H t).temp) D.H.temp t0) (hr : HasDerivAt (fun t => (H t).ref) D.H.ref t0)
    (hu : ∀ a, HasDerivAt (fun t => u t a) (v a) t0) (s : Fin 4) (r : Fin 2) :
    HasDerivAt (fun t => stressB nl bend q O (P t) (if hot then some (H t) else none) s (u t) r) (stressDotB nl bend q O (P t0) (if hot then some (H t0) else none) D s (u t0) v r) t0 := by
  unfold stressB mv
  refine HasDerivAt.congr_deriv (HasDerivAt.fun_sum fun t _ => (hC r t).mul (strainB_path nl bend hot q O h P H D u v t0 hy hz hoy hoz ha hT hr hu s t)) ?_
  simp only [stressDotB, mv, dstressB_apply, strainDotB, ← Finset.sum_add_distrib]
  exact Finset.sum_congr rfl fun t _ => by ring

/-- C125: the stored sensitivities are the total derivatives of the stored stress and strain with respect to a parameter on which stiffness, section dimensions, offsets, expansion, temperatures and displacements depend. -/
theorem C125_sensitivity (nl bend hot : Bool) (q : Bqp n X) (O : BendOps n) (h : ScaledB q O) (P : ℝ → Bar) (H : ℝ → Heat) (D : BarDot) (u : ℝ → Dof n → ℝ) (v : Dof n → ℝ) (t0 : ℝ)
    (hC : ∀ r s, HasDerivAt (fun t => (P t).C r s) (D.P.C r s) t0)
    (hy : HasDerivAt (fun t => (P t).hy) D.P.hy t0) (hz : HasDerivAt (fun t => (P t).hz) D.P.hz t0) (hoy : HasDerivAt (fun t => (P t).offy) D.P.offy t0) (hoz : HasDerivAt (fun t => (P t).offz) D.P.offz t0)
    (ha : HasDerivAt (fun t => (H t).alpha) D.H.alpha t0) (hT : HasDerivAt (fun t => (H t).temp) D.H.temp t0) (hr : HasDerivAt (fun t => (H t).ref) D.H.ref t0)
    (hu : ∀ a, HasDerivAt (fun t => u t a) (v a) t0) (s : Fin 4) (r : Fin 6) :
    HasDerivAt (fun t => axial6 (stressB nl bend q O (P t) (if hot then some (H t) else none) s (u t) 0) r) (axial6 (stressDotB nl bend q O (P t0) (if hot then some (H t0) else none) D s (u t0) v 0) r) t0 ∧
    HasDerivAt (fun t => axial6 (strainB nl bend q O (P t) (if hot then some (H t) else none) s (u t) 0) r) (axial6 (strainDotB nl bend q O (P t0) (if hot then some (H t0) else none) D s (u t0) v 0) r) t0 :=
  ⟨axial6_deriv (stressB_path nl bend hot q O h P H D u v t0 hC hy hz hoy hoz ha hT hr hu s 0) r, axial6_deriv (strainB_path nl bend hot q O h P H D u v t0 hy hz hoy hoz ha hT hr hu s 0) r⟩

/-- C125: at every section point, the stored derivative matrices are the derivatives of the stored stress and strain with respect to the global displacements. -/
theorem C125_state_derivative (T : Option (Fin 3 → Fin 3 → ℝ)) (nl bend : Bool) (e : Bars n X) (hB : ∀ p ∈ e, ScaledB p.1 p.2.1) (u w : Dof n → ℝ) (i : Nat) (r : Fin 6) :
    HasDerivAt (fun t : ℝ => stressOf (recoverB nl bend e (vecToLocal T fun b => u b + t * w b)) i r) (∑ b, dstressOf (recoverDerivB T nl bend e (vecToLocal T u)) i r b * w b) 0 ∧
    HasDerivAt (fun t : ℝ => strainOf (recoverB nl bend e (vecToLocal T fun b => u b + t * w b)) i r) (∑ b, dstrainOf (recoverDerivB T nl bend e (vecToLocal T u)) i r b * w b) 0 := by
  simp only [recoverB, recoverDerivB, stressOf, strainOf, dstressOf, dstrainOf, get_quad, Option.map_map]
  cases hp : e[i / 4]? with
  | none => simp only [Option.map_none, Option.getD_none, zero_mul, Finset.sum_const_zero]; exact ⟨hasDerivAt_const (0:ℝ) (0:ℝ), hasDerivAt_const (0:ℝ) (0:ℝ)⟩
  | some p =>
    have hB := hB p (List.mem_of_getElem? hp)
    simp only [Option.map_some, Function.comp, Option.getD_some, axial6_apply]
    generalize (⟨i % 4, _⟩ : Fin 4) = s
    have hu : ∀ a, HasDerivAt (fun t : ℝ => vecToLocal T (fun b => u b + t * w b) a) (vecToLocal T w a) 0 := by
      intro a
      simp only [local_lin]
      simpa using ((hasDerivAt_id' (0:ℝ)).mul_const (vecToLocal T w a)).const_add (vecToLocal T u a)
    have hz : (fun b => u b + (0:ℝ) * w b) = u := Shell.zero_line u w
    have h0 : HasDerivAt (fun t : ℝ => strainB nl bend p.1 p.2.1 p.2.2.1 p.2.2.2 s (vecToLocal T fun b => u b + t * w b) 0) (∑ a, dstrainB nl bend p.1 p.2.1 p.2.2.1 s (vecToLocal T u) 0 a * vecToLocal T w a) 0 := by
      simp only [strainB_0 nl bend p.1 p.2.1 hB, fibre, dstrainB_0 nl bend p.1 p.2.1 hB]
      refine HasDerivAt.congr_deriv (f' := dStretch nl bend p.1 (vecToLocal T fun b => u b + (0:ℝ) * w b) (vecToLocal T w) + (if bend then posY p.2.2.1 s * kv p.1 (vecToLocal T w) + posZ p.2.2.1 s * kw p.1 (vecToLocal T w) else 0)) ?_ (by rw [hz])
      refine ((stretch_path nl bend p.1 hu).add ?_).sub_const _
      cases bend with
      | false => exact hasDerivAt_const (0:ℝ) (0:ℝ)
      | true => exact ((kv_path p.1 hu).const_mul _).add ((kw_path p.1 hu).const_mul _)
    have h1 : HasDerivAt (fun t : ℝ => strainB nl bend p.1 p.2.1 p.2.2.1 p.2.2.2 s (vecToLocal T fun b => u b + t * w b) 1) (∑ a, dstrainB nl bend p.1 p.2.1 p.2.2.1 s (vecToLocal T u) 1 a * vecToLocal T w a) 0 := by
      simp only [strainB_1, dstrainB_1]
      exact slope_path TX p.1 hu
    refine ⟨axial6_deriv ?_ r, axial6_deriv h0 r⟩
    simp only [stressB, mv, dstressB_apply, Fin.sum_univ_two]
    exact (h0.const_mul _).add (h1.const_mul _)

/-- C125: the mean over the four corners is the axial stress at the offset point. -/
theorem C125_average (nl bend : Bool) (q : Bqp n X) (O : BendOps n) (h : ScaledB q O) (P : Bar) (H : Option Heat) (u : Dof n → ℝ) :
    (∑ s, stressB nl bend q O P H s u 0) / 4 = P.C 0 0 * fibre nl bend q P.offy P.offz H u + P.C 0 1 * slope TX q u := by
  simp only [stressB, mv, Fin.sum_univ_two, strainB_0 nl bend q O h, strainB_1, Fin.sum_univ_four, fibre, posY, posZ]
  cases bend <;> simp <;> ring

/-- A bar of length one, one point, Timoshenko operators. -/
noncomputable def barQp : Bqp 2 Unit := ⟨(), 1, ![-1, 1], Beam.timoshenkoV 1 ![-1, 1], Beam.timoshenkoW 1 ![-1, 1]⟩
noncomputable def barOps : BendOps 2 := ⟨fun y => Beam.timoshenkoV y ![-1, 1], fun z => Beam.timoshenkoW z ![-1, 1]⟩
theorem bar_scaled : ScaledB barQp barOps := by
  constructor <;> intro y a <;> simp [barQp, barOps, Beam.timoshenkoV, Beam.timoshenkoW, shape] <;> split_ifs <;> ring

/-- C125 fails: the weights of a bar of length one add up to four (for the plate of C124 they add up to the area). -/
theorem C125_weights_fails : ¬ ∀ (e : Bars 2 Unit) (u : Dof 2 → ℝ), ((recoverB false true e u).map fun d => d.weight).sum = (e.map fun p => p.1.JxW).sum := by
  intro h
  have h1 := h [(barQp, barOps, ⟨fun r s => if r = s then 1 else 0, 1, 1, 0, 0⟩, none)] fun _ => 0
  rw [C125_weights_partial] at h1
  norm_num [barQp] at h1

/-- C125: twist is not stored: two states that differ by a twist give the same data if the material does not couple. -/
theorem C125_twist (nl bend : Bool) (q : Bqp n X) (O : BendOps n) (h : ScaledB q O) (P : Bar) (hC : P.C 0 1 = 0) (H : Option Heat) (u v : Dof n → ℝ) (hf : ∀ y z, fibre nl bend q y z H u = fibre nl bend q y z H v) :
    recoverB nl bend [(q, O, P, H)] u = recoverB nl bend [(q, O, P, H)] v := by
  simp only [C125_strain nl bend q O h, hf, hC, zero_mul]

/-- Node 1 moves by one along the axis and turns by one about z. -/
def barMove (a : Dof 2) : ℝ := unitDof (false, 0, 1) a + unitDof (true, 2, 1) a

example : ScaledB barQp barOps ∧ stressOf (recoverB false true [(barQp, barOps, ⟨fun r s => if r = s then 2 else 0, 1, 3, 0, 0⟩, some ⟨1, 3, 1⟩)] barMove) 1 0 = -1 := by
  refine ⟨bar_scaled, ?_⟩
  rw [C125_strain false true barQp barOps bar_scaled]
  have hk : kv barQp barMove = -1 := by
    simp only [kv, barMove, mul_add, Finset.sum_add_distrib, Shell.sum_unit]
    simp [barQp, Beam.timoshenkoV, shape, Beam.TZ]
  have hw : kw barQp barMove = 0 := by
    simp only [kw, barMove, mul_add, Finset.sum_add_distrib, Shell.sum_unit]
    simp [barQp, Beam.timoshenkoW, shape, TY]
  have hs : slope U barQp barMove = 1 := by simp [slope, barMove, barQp, unitDof, Fin.sum_univ_two]
  simp [stressOf, fibre, hk, hw, hs, stretch, expansionB, posY, posZ]
  norm_num

/-! ### Solid -/

/-- C126: without a derivative or a parameter, stress and strain of every quadrature point are stored: the material matrix applied to the strain of the motion. -/
theorem C126_stored (nl : Bool) (e : Solid.Elem n X) (u : Dof n → ℝ) :
    recoverSolid false false nl e u = .stored (e.map fun p => ⟨p.1.x, fun r => ∑ s, p.2 r s * Solid.strain nl p.1 u s, Solid.strain nl p.1 u, p.1.JxW⟩) := rfl

/-- C126: the derivative with respect to the state is refused. -/
theorem C126_derivative_refused (param nl : Bool) (e : Solid.Elem n X) (he : e ≠ []) (u : Dof n → ℝ) : recoverSolid true param nl e u = .error := by
  cases e with
  | nil => exact absurd rfl he
  | cons p e => rfl

/-- C126 fails: with a parameter nothing is stored, so no sensitivity exists for a solid, whatever the displacement and stiffness. -/
theorem C126_sensitivity_fails (nl : Bool) (e : Solid.Elem n X) (u : Dof n → ℝ) : recoverSolid false true nl e u = .unchanged := rfl

/-- Specification: the mechanical stress, stiffness applied to strain less thermal expansion. -/
noncomputable def mechStress (nl : Bool) (p : Solid.Heated n X) (u : Dof n → ℝ) (r : Fin 6) : ℝ := ∑ s, p.C r s * (Solid.strain nl p.q u s - p.α s * (p.temp - p.ref))

/-- C126: the stored stress exceeds the mechanical stress by the thermal stress (the plate and the beam subtract it). -/
theorem C126_thermal (nl : Bool) (b : List (Solid.Heated n X)) (u : Dof n → ℝ) :
    recoverSolid false false nl (Solid.Heated.mech b) u
      = .stored (b.map fun p => ⟨p.q.x, fun r => mechStress nl p u r + ∑ s, p.C r s * (p.α s * (p.temp - p.ref)), Solid.strain nl p.q u, p.q.JxW⟩) := by
  rw [C126_stored, Solid.Heated.mech, List.map_map]
  congr 1
  refine List.map_congr_left fun p _ => ?_
  simp only [Function.comp]
  congr 1
  funext r
  rw [mechStress, ← Finset.sum_add_distrib]
  exact Finset.sum_congr rfl fun s _ => by ring

/-- C126 fails under heat: a body in free expansion, in equilibrium without any load, has zero mechanical stress and nonzero stored stress. -/
theorem C126_thermal_fails : ∃ (b : List (Solid.Heated 4 Unit)) (u : Dof 4 → ℝ), (∀ a, Solid.internalRes false (Solid.Heated.mech b) u a + Solid.thermalRes false (Solid.Heated.therm b) u a = 0) ∧
    (∀ p ∈ b, ∀ r, mechStress false p u r = 0) ∧ ∃ d, recoverSolid false false false (Solid.Heated.mech b) u = .stored [d] ∧ d.stress 0 ≠ 0 := by
  have key : ∀ r, Solid.voigt (Solid.tensor false Solid.tetQp fun a => if a.1 then 0 else 1 / 100 * Solid.tetX a.2.2 a.2.1) r = (![1 / 1000, 1 / 1000, 1 / 1000, 0, 0, 0] : Fin 6 → ℝ) r * (30 - 20) := by
    intro r
    fin_cases r <;> simp [Solid.voigt, Solid.tensor, Solid.grad, Solid.tetQp, Solid.tetX, Fin.sum_univ_four] <;> norm_num
  refine ⟨[⟨Solid.tetQp, fun r s => if r = s then 1 else 0, ![1 / 1000, 1 / 1000, 1 / 1000, 0, 0, 0], 30, 20⟩], fun a => if a.1 then 0 else 1 / 100 * Solid.tetX a.2.2 a.2.1, ?_, ?_, ?_⟩
  · intro a
    refine Solid.C122_free_expansion false _ _ (fun p hp r => ?_) a
    simp only [List.mem_singleton] at hp
    subst hp
    exact key r
  · intro p hp r
    simp only [List.mem_singleton] at hp
    subst hp
    simp only [mechStress, Solid.C121_strain, key, sub_self, mul_zero, Finset.sum_const_zero]
  · refine ⟨_, C126_stored _ _ _, ?_⟩
    simp only [Solid.C121_strain, key]
    simp; norm_num
end Verif.StressRec
