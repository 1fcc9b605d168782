import Verif.Model.StressRec
import Verif.Props.ShellTangent
/-
  C124: stress recovery of the shell element.
-/
namespace Verif.StressRec
open Verif.GeomElem Verif.StructLoads
open Verif.Shell (shape Sqp app mv strainMem vkStrain strainTot matX matY vkMat Blin Bx By Bvk gx gy U V W linStrain quadIn quadOut midStrain dStrain curvature unitDof)

/-! ### Specification -/
section Spec
variable {n : Nat} {X : Type}

/-- The bending operator for the offset `z` is `z` times the curvature operator of the point. -/
def Scaled (q : Sqp n X) (Bz : ℝ → Fin 3 → Dof n → ℝ) : Prop := ∀ z r a, Bz z r a = z * q.bend r a

/-- Height of the section point: half the thickness above or below the offset reference surface. -/
noncomputable def height (P : Plate) (s : Fin 2) : ℝ := P.off + (if s = 0 then P.h / 2 else -(P.h / 2))

/-- Free thermal expansion `alpha (T - Tref)` in the two normal components. -/
def expansion (H : Option Heat) (r : Fin 3) : ℝ := match H with | some h => if r = 2 then 0 else h.alpha * (h.temp - h.ref) | none => 0

/-- Mechanical strain at height `z`: strain of the reference surface plus `z` times curvature minus thermal expansion. -/
noncomputable def layerStrain (nl bend : Bool) (q : Sqp n X) (z : ℝ) (H : Option Heat) (u : Dof n → ℝ) (r : Fin 3) : ℝ := midStrain nl bend q u r + z * curvature bend q u r - expansion H r

/-- Component `r` of the stress (strain, weight) stored at index `i`, 0 outside the list. -/
def stressOf (l : List (Data n X)) (i : Nat) (r : Fin 6) : ℝ := ((l[i]?).map fun d => d.stress r).getD 0
def strainOf (l : List (Data n X)) (i : Nat) (r : Fin 6) : ℝ := ((l[i]?).map fun d => d.strain r).getD 0
/-- Entry of the stored derivative matrix. -/
def dstressOf (l : List ((Fin 6 → Dof n → ℝ) × (Fin 6 → Dof n → ℝ))) (i : Nat) (r : Fin 6) (a : Dof n) : ℝ := ((l[i]?).map fun d => d.1 r a).getD 0
def dstrainOf (l : List ((Fin 6 → Dof n → ℝ) × (Fin 6 → Dof n → ℝ))) (i : Nat) (r : Fin 6) (a : Dof n) : ℝ := ((l[i]?).map fun d => d.2 r a).getD 0
end Spec

variable {n : Nat} {X : Type}

theorem mindlin_scaled (q : Sqp n X) (h : q.bend = Shell.mindlin 1 q.dx q.dy) : Scaled q fun z => Shell.mindlin z q.dx q.dy := by
  intro z r a
  rw [h]
  fin_cases r <;> simp [Shell.mindlin, shape] <;> split_ifs <;> ring

theorem zAt_eq (P : Plate) (s : Fin 2) : zAt P s = height P s := by
  fin_cases s <;> simp [zAt, height, face] <;> ring

theorem thermal3_eq (H : Option Heat) (r : Fin 3) : thermal3 H r = expansion H r := by
  cases H with
  | none => rfl
  | some h => fin_cases r <;> simp [thermal3, expansion]

theorem app_scaled (q : Sqp n X) (Bz : ℝ → Fin 3 → Dof n → ℝ) (hB : Scaled q Bz) (z : ℝ) (u : Dof n → ℝ) (r : Fin 3) : app (Bz z) u r = z * curvature true q u r := by
  simp only [app, curvature, if_true, Finset.mul_sum, hB z r]
  exact Finset.sum_congr rfl fun a _ => by ring

theorem strain_eq (nl bend : Bool) (q : Sqp n X) (Bz : ℝ → Fin 3 → Dof n → ℝ) (hB : Scaled q Bz) (P : Plate) (H : Option Heat) (s : Fin 2) (u : Dof n → ℝ) (r : Fin 3) :
    strain nl bend q Bz P H s u r = layerStrain nl bend q (height P s) H u r := by
  unfold strain layerStrain
  rw [← Shell.C116_strain, strainTot, thermal3_eq, app_scaled q Bz hB, zAt_eq]
  cases nl <;> cases bend <;> simp [curvature] <;> ring

/-- C124: the stored strain is the Green-Lagrange / von Karman strain of the reference surface plus curvature times the height of the section point minus the thermal expansion, in the in-plane slots;
the stored stress is the plane stress stiffness applied to it. -/
theorem C124_strain (nl bend : Bool) (q : Sqp n X) (Bz : ℝ → Fin 3 → Dof n → ℝ) (hB : Scaled q Bz) (P : Plate) (H : Option Heat) (u : Dof n → ℝ) :
    recover nl bend [(q, Bz, P, H)] u = [(0 : Fin 2), 1].map fun s =>
      (⟨q.x, ![∑ t, P.C 0 t * layerStrain nl bend q (height P s) H u t, ∑ t, P.C 1 t * layerStrain nl bend q (height P s) H u t, 0, ∑ t, P.C 2 t * layerStrain nl bend q (height P s) H u t, 0, 0],
        ![layerStrain nl bend q (height P s) H u 0, layerStrain nl bend q (height P s) H u 1, 0, layerStrain nl bend q (height P s) H u 2, 0, 0], q.JxW / 2⟩ : Data n X) := by
  simp only [recover, List.flatMap_cons, List.flatMap_nil, List.append_nil, List.map_cons, List.map_nil, to6, stress, mv, strain_eq nl bend q Bz hB]

/-- Every element is the concatenation of its quadrature points. -/
theorem recover_append (nl bend : Bool) (e f : Shells n X) (u : Dof n → ℝ) : recover nl bend (e ++ f) u = recover nl bend e u ++ recover nl bend f u := by
  simp [recover]

/-- C124: the weights add up to the area of the element. -/
theorem C124_weights (nl bend : Bool) (e : Shells n X) (u : Dof n → ℝ) : ((recover nl bend e u).map fun d => d.weight).sum = (e.map fun p => p.1.JxW).sum := by
  induction e with
  | nil => rfl
  | cons p e ih =>
    rw [show p :: e = [p] ++ e from rfl, recover_append, List.map_append, List.sum_append, ih, List.map_append, List.sum_append]
    congr 1
    simp [recover]

/-! ### Derivatives along paths -/

section Path
variable {nl bend : Bool} {t0 : ℝ} {u : ℝ → Dof n → ℝ} {v : Dof n → ℝ}

theorem app_path {m : Nat} (B : Fin m → Dof n → ℝ) (hu : ∀ a, HasDerivAt (fun t => u t a) (v a) t0) (r : Fin m) : HasDerivAt (fun t => app B (u t) r) (app B v r) t0 :=
  HasDerivAt.fun_sum fun a _ => (hu a).const_mul _

theorem gx_path (c : Var6) (q : Sqp n X) (hu : ∀ a, HasDerivAt (fun t => u t a) (v a) t0) : HasDerivAt (fun t => gx c q (u t)) (gx c q v) t0 :=
  HasDerivAt.fun_sum fun i _ => (hu (c.1, c.2, i)).const_mul _
theorem gy_path (c : Var6) (q : Sqp n X) (hu : ∀ a, HasDerivAt (fun t => u t a) (v a) t0) : HasDerivAt (fun t => gy c q (u t)) (gy c q v) t0 :=
  HasDerivAt.fun_sum fun i _ => (hu (c.1, c.2, i)).const_mul _

theorem lin_path (q : Sqp n X) (hu : ∀ a, HasDerivAt (fun t => u t a) (v a) t0) (r : Fin 3) : HasDerivAt (fun t => linStrain q (u t) r) (linStrain q v r) t0 := by
  fin_cases r
  · exact gx_path U q hu
  · exact gy_path V q hu
  · exact (gx_path V q hu).add (gy_path U q hu)

theorem quadIn_path (q : Sqp n X) (hu : ∀ a, HasDerivAt (fun t => u t a) (v a) t0) (r : Fin 3) : HasDerivAt (fun t => 1 / 2 * quadIn q (u t) (u t) r) (quadIn q (u t0) v r) t0 := by
  have a := gx_path U q hu
  have b := gx_path V q hu
  have c := gy_path U q hu
  have d := gy_path V q hu
  fin_cases r
  · exact (((a.mul a).add (b.mul b)).const_mul (1 / 2)).congr_deriv (by simp [quadIn]; ring)
  · exact (((c.mul c).add (d.mul d)).const_mul (1 / 2)).congr_deriv (by simp [quadIn]; ring)
  · exact ((((a.mul c).add (c.mul a)).add ((b.mul d).add (d.mul b))).const_mul (1 / 2)).congr_deriv (by simp [quadIn]; ring)

theorem quadOut_path (q : Sqp n X) (hu : ∀ a, HasDerivAt (fun t => u t a) (v a) t0) (r : Fin 3) : HasDerivAt (fun t => 1 / 2 * quadOut q (u t) (u t) r) (quadOut q (u t0) v r) t0 := by
  have a := gx_path W q hu
  have c := gy_path W q hu
  fin_cases r
  · exact ((a.mul a).const_mul (1 / 2)).congr_deriv (by simp [quadOut]; ring)
  · exact ((c.mul c).const_mul (1 / 2)).congr_deriv (by simp [quadOut]; ring)
  · exact (((a.mul c).add (c.mul a)).const_mul (1 / 2)).congr_deriv (by simp [quadOut]; ring)

theorem midStrain_path (nl bend : Bool) (q : Sqp n X) (hu : ∀ a, HasDerivAt (fun t => u t a) (v a) t0) (r : Fin 3) :
    HasDerivAt (fun t => midStrain nl bend q (u t) r) (dStrain nl bend q (u t0) v r) t0 := by
  unfold midStrain dStrain
  cases nl with
  | false => simpa using lin_path q hu r
  | true =>
    cases bend with
    | false => simp only [if_true, Bool.false_eq_true, if_false, add_zero]; exact (lin_path q hu r).add (quadIn_path q hu r)
    | true => exact (lin_path q hu r).add ((quadIn_path q hu r).add (quadOut_path q hu r))

theorem curvature_path (bend : Bool) (q : Sqp n X) (hu : ∀ a, HasDerivAt (fun t => u t a) (v a) t0) (r : Fin 3) :
    HasDerivAt (fun t => curvature bend q (u t) r) (curvature bend q v r) t0 := by
  cases bend with
  | false => exact hasDerivAt_const _ _
  | true => exact app_path q.bend hu r
end Path

theorem sum_rows {m : Nat} (M : Fin 3 → Fin m → ℝ) (B : Fin m → Dof n → ℝ) (r : Fin 3) (w : Dof n → ℝ) : ∑ a, (∑ k, M r k * B k a) * w a = ∑ k, M r k * app B w k := by
  simp only [app, Finset.sum_mul, Finset.mul_sum]
  rw [Finset.sum_comm]
  exact Finset.sum_congr rfl fun k _ => Finset.sum_congr rfl fun a _ => by ring

theorem dstrain_apply (nl bend : Bool) (q : Sqp n X) (Bz : ℝ → Fin 3 → Dof n → ℝ) (hB : Scaled q Bz) (P : Plate) (s : Fin 2) (u w : Dof n → ℝ) (r : Fin 3) :
    ∑ a, dstrain nl bend q Bz P s u r a * w a = dStrain nl bend q u w r + height P s * curvature bend q w r := by
  have hl : ∑ a, Blin q r a * w a = linStrain q w r := congrFun (Shell.app_lin q w) r
  have hin : ∑ a, ((∑ k, matX q u r k * Bx q k a) + ∑ k, matY q u r k * By q k a) * w a = quadIn q u w r := by
    simp only [add_mul, Finset.sum_add_distrib, sum_rows]
    rw [Shell.matX_eq, Shell.matY_eq]
    fin_cases r <;> simp [Fin.sum_univ_two, quadIn, Shell.app_Bx0, Shell.app_Bx1, Shell.app_By0, Shell.app_By1] <;> ring
  have hvk : ∑ a, (∑ k, vkMat q u r k * Bvk q k a) * w a = quadOut q u w r := by
    simp only [sum_rows]
    fin_cases r <;> simp [Fin.sum_univ_two, quadOut, vkMat, Shell.app_Bvk0, Shell.app_Bvk1, Shell.dwx_eq, Shell.dwy_eq] <;> ring
  have hb : ∑ a, Bz (zAt P s) r a * w a = height P s * curvature true q w r := by
    rw [← zAt_eq]; exact app_scaled q Bz hB _ w r
  unfold dstrain dStrain
  cases nl <;> cases bend <;> simp only [if_true, Bool.false_eq_true, if_false, add_zero, zero_add, add_mul, Finset.sum_add_distrib] at hin ⊢ <;> simp only [hl, hin, hvk, hb, curvature_false'] <;> ring
  where curvature_false' : ∀ (q : Sqp n X) (w : Dof n → ℝ) (r : Fin 3), curvature false q w r = 0 := fun _ _ _ => rfl

theorem dstress_apply (nl bend : Bool) (q : Sqp n X) (Bz : ℝ → Fin 3 → Dof n → ℝ) (hB : Scaled q Bz) (P : Plate) (s : Fin 2) (u w : Dof n → ℝ) (r : Fin 3) :
    ∑ a, dstress nl bend q Bz P s u r a * w a = ∑ t, P.C r t * (dStrain nl bend q u w t + height P s * curvature bend q w t) := by
  simp only [dstress, Finset.sum_mul]
  rw [Finset.sum_comm]
  refine Finset.sum_congr rfl fun t _ => ?_
  rw [← dstrain_apply nl bend q Bz hB, Finset.mul_sum]
  exact Finset.sum_congr rfl fun a _ => by ring

/-! ### Indexing -/

theorem get_pair {α β : Type} (l : List α) (f : α → Fin 2 → β) (i : Nat) : (l.flatMap fun p => [0, 1].map (f p))[i]? = (l[i / 2]?).map fun p => f p ⟨i % 2, Nat.mod_lt _ (by decide)⟩ := by
  induction l generalizing i with
  | nil => simp
  | cons p l ih =>
    match i with
    | 0 => rfl
    | 1 => rfl
    | i + 2 =>
      have h1 : (i + 2) / 2 = i / 2 + 1 := by omega
      have h2 : (i + 2) % 2 = i % 2 := by omega
      simp only [List.flatMap_cons, List.map_cons, List.map_nil, List.cons_append, List.nil_append, List.getElem?_cons_succ, h1, h2]
      exact ih i

theorem to6_deriv {f : ℝ → Fin 3 → ℝ} {g : Fin 3 → ℝ} {t0 : ℝ} (h : ∀ r, HasDerivAt (fun t => f t r) (g r) t0) (r : Fin 6) : HasDerivAt (fun t => to6 (f t) r) (to6 g r) t0 := by
  fin_cases r
  · exact h 0
  · exact h 1
  · exact hasDerivAt_const t0 (0 : ℝ)
  · exact h 2
  · exact hasDerivAt_const t0 (0 : ℝ)
  · exact hasDerivAt_const t0 (0 : ℝ)

theorem rows6_apply (T : Option (Fin 3 → Fin 3 → ℝ)) (M : Fin 3 → Dof n → ℝ) (r : Fin 6) (w : Dof n → ℝ) : ∑ a, rows6 T M r a * w a = to6 (fun k => ∑ a, M k a * vecToLocal T w a) r := by
  fin_cases r <;> simp [rows6, to6, C111_work]

/-- C124: at every section point and component, the stored derivative matrices are the derivatives of the stored stress and strain with respect to the global displacements. -/
theorem C124_state_derivative (T : Option (Fin 3 → Fin 3 → ℝ)) (nl bend : Bool) (e : Shells n X) (hB : ∀ p ∈ e, Scaled p.1 p.2.1) (u w : Dof n → ℝ) (i : Nat) (r : Fin 6) :
    HasDerivAt (fun t : ℝ => stressOf (recover nl bend e (vecToLocal T fun b => u b + t * w b)) i r) (∑ b, dstressOf (recoverDeriv T nl bend e (vecToLocal T u)) i r b * w b) 0 ∧
    HasDerivAt (fun t : ℝ => strainOf (recover nl bend e (vecToLocal T fun b => u b + t * w b)) i r) (∑ b, dstrainOf (recoverDeriv T nl bend e (vecToLocal T u)) i r b * w b) 0 := by
  simp only [recover, recoverDeriv, stressOf, strainOf, dstressOf, dstrainOf, get_pair, Option.map_map]
  cases hp : e[i / 2]? with
  | none => simp only [Option.map_none, Option.getD_none, zero_mul, Finset.sum_const_zero]; exact ⟨hasDerivAt_const (0:ℝ) (0:ℝ), hasDerivAt_const (0:ℝ) (0:ℝ)⟩
  | some p =>
    have hB := hB p (List.mem_of_getElem? hp)
    simp only [Option.map_some, Function.comp, Option.getD_some, rows6_apply]
    generalize (⟨i % 2, _⟩ : Fin 2) = s
    have hu : ∀ a, HasDerivAt (fun t : ℝ => vecToLocal T (fun b => u b + t * w b) a) (vecToLocal T w a) 0 := by
      intro a
      simp only [local_lin]
      simpa using ((hasDerivAt_id' (0:ℝ)).mul_const (vecToLocal T w a)).const_add (vecToLocal T u a)
    have hz : (fun b => u b + (0:ℝ) * w b) = u := Shell.zero_line u w
    have hs : ∀ k, HasDerivAt (fun t : ℝ => strain nl bend p.1 p.2.1 p.2.2.1 p.2.2.2 s (vecToLocal T fun b => u b + t * w b) k)
        (∑ a, dstrain nl bend p.1 p.2.1 p.2.2.1 s (vecToLocal T u) k a * vecToLocal T w a) 0 := by
      intro k
      simp only [strain_eq nl bend p.1 p.2.1 hB, layerStrain]
      refine HasDerivAt.congr_deriv (((midStrain_path nl bend p.1 hu k).add ((curvature_path bend p.1 hu k).const_mul (height p.2.2.1 s))).sub_const (expansion p.2.2.2 k)) ?_
      rw [dstrain_apply nl bend p.1 p.2.1 hB, hz]
    refine ⟨to6_deriv (fun k => ?_) r, to6_deriv hs r⟩
    unfold stress mv
    refine HasDerivAt.congr_deriv (HasDerivAt.fun_sum fun t _ => (hs t).const_mul (p.2.2.1.C k t)) ?_
    simp only [dstress_apply nl bend p.1 p.2.1 hB, dstrain_apply nl bend p.1 p.2.1 hB]

/-- Data of an element that depends on a parameter: quadrature points `qs`, section data `P t`, thermal load `H t` where `hot` says that there is one. -/
def elemAt {ι : Type} (qs : List ι) (q : ι → Sqp n X) (Bz : ι → ℝ → Fin 3 → Dof n → ℝ) (hot : Bool) (P : ι → Plate) (H : ι → Heat) : Shells n X := qs.map fun i => (q i, Bz i, P i, if hot then some (H i) else none)

theorem height_path {P : ℝ → Plate} {D : Plate} {t0 : ℝ} (hh : HasDerivAt (fun t => (P t).h) D.h t0) (ho : HasDerivAt (fun t => (P t).off) D.off t0) (s : Fin 2) :
    HasDerivAt (fun t => height (P t) s) (height D s) t0 := by
  unfold height
  refine ho.add ?_
  fin_cases s
  · exact hh.div_const 2
  · exact (hh.div_const 2).neg

theorem expansion_path {H : ℝ → Heat} {D : Heat} {t0 : ℝ} (hot : Bool) (ha : HasDerivAt (fun t => (H t).alpha) D.alpha t0) (hT : HasDerivAt (fun t => (H t).temp) D.temp t0) (hr : HasDerivAt (fun t => (H t).ref) D.ref t0) (r : Fin 3) :
    HasDerivAt (fun t => expansion (if hot then some (H t) else none) r)
      (if hot then (if r = 2 then 0 else (H t0).alpha * (D.temp - D.ref) + D.alpha * ((H t0).temp - (H t0).ref)) else 0) t0 := by
  cases hot with
  | false => exact hasDerivAt_const t0 (0:ℝ)
  | true =>
    simp only [if_true, expansion]
    by_cases h2 : r = 2
    · simp only [h2, if_true]; exact hasDerivAt_const t0 (0:ℝ)
    · simp only [h2, if_false]
      exact (ha.mul (hT.sub hr)).congr_deriv (by simp only [Pi.sub_apply]; ring)

theorem explicit_eq (bend : Bool) (q : Sqp n X) (Bz : ℝ → Fin 3 → Dof n → ℝ) (hB : Scaled q Bz) (hot : Bool) (H : Heat) (D : PlateDot) (s : Fin 2) (u : Dof n → ℝ) (r : Fin 3) :
    explicitStrain bend Bz (if hot then some H else none) D s u r
      = height D.P s * curvature bend q u r - (if hot then (if r = 2 then 0 else H.alpha * (D.H.temp - D.H.ref) + D.H.alpha * (H.temp - H.ref)) else 0) := by
  unfold explicitStrain
  rw [app_scaled q Bz hB, zAt_eq]
  cases bend <;> cases hot <;> fin_cases r <;> simp [curvature] <;> ring

theorem strain_total {ι : Type} (nl bend hot : Bool) (q : Sqp n X) (Bz : ℝ → Fin 3 → Dof n → ℝ) (hB : Scaled q Bz) (P : ℝ → Plate) (H : ℝ → Heat) (D : PlateDot) (u : ℝ → Dof n → ℝ) (v : Dof n → ℝ) (t0 : ℝ)
    (hh : HasDerivAt (fun t => (P t).h) D.P.h t0) (ho : HasDerivAt (fun t => (P t).off) D.P.off t0)
    (ha : HasDerivAt (fun t => (H t).alpha) D.H.alpha t0) (hT : HasDerivAt (fun t => (H t).temp) D.H.temp t0) (hr : HasDerivAt (fun t => (H t).ref) D.H.ref t0)
    (hu : ∀ a, HasDerivAt (fun t => u t a) (v a) t0) (s : Fin 2) (r : Fin 3) :
    HasDerivAt (fun t => strain nl bend q Bz (P t) (if hot then some (H t) else none) s (u t) r) (strainDot nl bend q Bz (P t0) (if hot then some (H t0) else none) D s (u t0) v r) t0 := by
  simp only [strain_eq nl bend q Bz hB, layerStrain]
  refine HasDerivAt.congr_deriv (((midStrain_path nl bend q hu r).add ((height_path hh ho s).mul (curvature_path bend q hu r))).sub (expansion_path hot ha hT hr r)) ?_
  rw [strainDot, explicit_eq bend q Bz hB, dstrain_apply nl bend q Bz hB]
  ring

/-- C124: the stored sensitivities are the total derivatives of the stored stress and strain with respect to a parameter on which stiffness, thickness, offset, expansion coefficient, temperatures and displacements depend. -/
theorem C124_sensitivity (nl bend hot : Bool) (q : Sqp n X) (Bz : ℝ → Fin 3 → Dof n → ℝ) (hB : Scaled q Bz) (P : ℝ → Plate) (H : ℝ → Heat) (D : PlateDot) (u : ℝ → Dof n → ℝ) (v : Dof n → ℝ) (t0 : ℝ)
    (hC : ∀ r s, HasDerivAt (fun t => (P t).C r s) (D.P.C r s) t0) (hh : HasDerivAt (fun t => (P t).h) D.P.h t0) (ho : HasDerivAt (fun t => (P t).off) D.P.off t0)
    (ha : HasDerivAt (fun t => (H t).alpha) D.H.alpha t0) (hT : HasDerivAt (fun t => (H t).temp) D.H.temp t0) (hr : HasDerivAt (fun t => (H t).ref) D.H.ref t0)
    (hu : ∀ a, HasDerivAt (fun t => u t a) (v a) t0) (s : Fin 2) (r : Fin 6) :
    HasDerivAt (fun t => to6 (stress nl bend q Bz (P t) (if hot then some (H t) else none) s (u t)) r) (to6 (stressDot nl bend q Bz (P t0) (if hot then some (H t0) else none) D s (u t0) v) r) t0 ∧
    HasDerivAt (fun t => to6 (strain nl bend q Bz (P t) (if hot then some (H t) else none) s (u t)) r) (to6 (strainDot nl bend q Bz (P t0) (if hot then some (H t0) else none) D s (u t0) v) r) t0 := by
  have hs := strain_total (ι := Unit) nl bend hot q Bz hB P H D u v t0 hh ho ha hT hr hu s
  refine ⟨to6_deriv (fun k => ?_) r, to6_deriv hs r⟩
  unfold stress mv
  refine HasDerivAt.congr_deriv (HasDerivAt.fun_sum fun t _ => (hC k t).mul (hs t)) ?_
  simp only [stressDot, mv, dstress_apply nl bend q Bz hB, strainDot, dstrain_apply nl bend q Bz hB, ← Finset.sum_add_distrib]
  exact Finset.sum_congr rfl fun t _ => by ring

/-! ### Section averages, energy, free expansion -/

/-- C124: the weighted sum of the two section points is the stress of the offset surface times the area weight. -/
theorem C124_average (nl bend : Bool) (q : Sqp n X) (Bz : ℝ → Fin 3 → Dof n → ℝ) (hB : Scaled q Bz) (P : Plate) (H : Option Heat) (u : Dof n → ℝ) (r : Fin 3) :
    ∑ s, q.JxW / 2 * stress nl bend q Bz P H s u r = q.JxW * ∑ t, P.C r t * layerStrain nl bend q P.off H u t := by
  simp only [stress, mv, strain_eq nl bend q Bz hB, Fin.sum_univ_two, layerStrain, height, Fin.sum_univ_three]
  simp
  ring

/-- C124: work per unit area from the two section points of a homogeneous plate without offset and heat: the membrane part is that of the section, the bending part is three times that of the section (`h^3/4` for `h^3/12`). -/
theorem C124_energy (nl bend : Bool) (q : Sqp n X) (Bz : ℝ → Fin 3 → Dof n → ℝ) (hB : Scaled q Bz) (P : Plate) (ho : P.off = 0) (u : Dof n → ℝ) :
    ∑ s, q.JxW / 2 * P.h * (1 / 2 * ∑ k, to6 (stress nl bend q Bz P none s u) k * to6 (strain nl bend q Bz P none s u) k)
      = q.JxW * Shell.density ⟨fun r s => P.h * P.C r s, fun _ _ => 0, fun r s => 3 * (P.h ^ 3 / 12 * P.C r s)⟩ (midStrain nl bend q u) (curvature bend q u) := by
  simp only [stress, mv, strain_eq nl bend q Bz hB, Fin.sum_univ_two, layerStrain, height, Fin.sum_univ_three, Fin.sum_univ_six, to6, Shell.density, ho, expansion]
  simp
  ring

/-- C124: a plate that expands freely stores zero stress and strain. -/
theorem C124_free_expansion (nl : Bool) (q : Sqp n X) (Bz : ℝ → Fin 3 → Dof n → ℝ) (hB : Scaled q Bz) (P : Plate) (h : Heat) (u : Dof n → ℝ) (bend : Bool) (hk : ∀ r, curvature bend q u r = 0)
    (hm : ∀ r, midStrain nl bend q u r = if r = 2 then 0 else h.alpha * (h.temp - h.ref)) (s : Fin 2) (r : Fin 3) :
    stress nl bend q Bz P (some h) s u r = 0 ∧ strain nl bend q Bz P (some h) s u r = 0 := by
  have : ∀ r, strain nl bend q Bz P (some h) s u r = 0 := by
    intro r
    rw [strain_eq nl bend q Bz hB, layerStrain, hk, hm, expansion]; ring
  exact ⟨by simp [stress, mv, this], this r⟩

/-! ### Boundary velocity and temperature derivative -/

/-- C124: on a side, the stored data are those of the element routine with the weight scaled by the normal velocity. -/
theorem C124_boundary_velocity (nl bend : Bool) (vn : X → ℝ) (e : Shells n X) (u : Dof n → ℝ) :
    recoverBnd nl bend vn e u = (recover nl bend e u).map fun d => { d with weight := d.weight * vn d.x } := by
  simp only [recoverBnd, recover, List.map_flatMap, List.map_map]
  congr 1
  funext p
  have h : p.1.JxW * (vn p.1.x / 2) = p.1.JxW / 2 * vn p.1.x := by ring
  simp only [List.map_cons, List.map_nil, Function.comp, h]

/-- Temperature at the point from nodal temperatures. -/
def nodalTemp {nt : Nat} (phi T : Fin nt → ℝ) : ℝ := ∑ i, phi i * T i

/-- C124: the temperature derivative of the stored stress is the derivative with respect to the nodal temperatures that the thermal load interpolates. -/
theorem C124_temperature_stress {nt : Nat} (nl bend : Bool) (q : Sqp n X) (Bz : ℝ → Fin 3 → Dof n → ℝ) (hB : Scaled q Bz) (P : Plate) (alpha ref : ℝ) (phi T w : Fin nt → ℝ) (s : Fin 2) (u : Dof n → ℝ) (r : Fin 6) :
    HasDerivAt (fun t : ℝ => to6 (stress nl bend q Bz P (some ⟨alpha, nodalTemp phi fun i => T i + t * w i, ref⟩) s u) r) (∑ i, (tempDeriv P.C alpha phi).1 r i * w i) 0 := by
  have hT : HasDerivAt (fun t : ℝ => nodalTemp phi fun i => T i + t * w i) (nodalTemp phi w) 0 :=
    HasDerivAt.fun_sum fun i _ => (((hasDerivAt_id' (0:ℝ)).mul_const (w i)).const_add (T i)).const_mul (phi i) |>.congr_deriv (by ring)
  have hs : ∀ k, HasDerivAt (fun t : ℝ => stress nl bend q Bz P (some ⟨alpha, nodalTemp phi fun i => T i + t * w i, ref⟩) s u k) (-(alpha * mv P.C ![1, 1, 0] k * nodalTemp phi w)) 0 := by
    intro k
    simp only [stress, mv, strain_eq nl bend q Bz hB, layerStrain, Fin.sum_univ_three, expansion]
    have h := ((hT.sub_const ref).const_mul alpha)
    refine HasDerivAt.congr_deriv ((((h.const_sub (midStrain nl bend q u 0 + height P s * curvature bend q u 0)).const_mul (P.C k 0)).add ((h.const_sub (midStrain nl bend q u 1 + height P s * curvature bend q u 1)).const_mul (P.C k 1))).add
      (hasDerivAt_const (0:ℝ) (P.C k 2 * (midStrain nl bend q u 2 + height P s * curvature bend q u 2 - 0)))) ?_
    simp; ring
  refine HasDerivAt.congr_deriv (to6_deriv hs r) ?_
  fin_cases r <;> simp [to6, tempDeriv, nodalTemp, Finset.mul_sum, Finset.sum_neg_distrib] <;> exact Finset.sum_congr rfl fun i _ => by ring

/-! ### Failures and examples -/

/-- Unit plate: identity stiffness, unit thickness. -/
noncomputable def unitPlate : Plate := ⟨fun r s => if r = s then 1 else 0, 1, 0⟩
/-- Mindlin operator family of the triangle `Shell.triQp`. -/
noncomputable def triBz : ℝ → Fin 3 → Dof 3 → ℝ := fun z => Shell.mindlin z Shell.triQp.dx Shell.triQp.dy
theorem tri_scaled : Scaled Shell.triQp triBz := mindlin_scaled Shell.triQp rfl

/-- C124 fails for the strain: the temperature derivative of the stored strain is set to zero, although the stored strain changes with the temperature. -/
theorem C124_temperature_strain_fails : ¬ ∀ (P : Plate) (alpha ref : ℝ) (T w : Fin 1 → ℝ) (r : Fin 6),
    HasDerivAt (fun t : ℝ => to6 (strain false false Shell.triQp triBz P (some ⟨alpha, nodalTemp (fun _ => 1) fun i => T i + t * w i, ref⟩) 0 fun _ => 0) r) (∑ i, (tempDeriv P.C alpha fun _ => 1).2 r i * w i) 0 := by
  intro h
  have h1 := h unitPlate 1 0 (fun _ => 0) (fun _ => 1) 0
  have h2 : HasDerivAt (fun t : ℝ => -t) (-1) 0 := (hasDerivAt_id' (0:ℝ)).neg
  have h3 : (fun t : ℝ => to6 (strain false false Shell.triQp triBz unitPlate (some ⟨1, nodalTemp (fun _ => 1) fun i => (fun _ : Fin 1 => (0:ℝ)) i + t * (fun _ : Fin 1 => (1:ℝ)) i, 0⟩) 0 fun _ => 0) 0) = fun t => -t := by
    funext t
    simp [to6, strain, strainMem, app, thermal3, nodalTemp]
  rw [h3] at h1
  have := h1.unique h2
  simp [tempDeriv] at this

/-- Node 1 of the triangle rotates about y: unit curvature. -/
def bent (a : Dof 3) : ℝ := if a = (true, 1, 1) then 1 else 0

/-- C124 fails for the energy: for a bent plate the stored stress and strain give more than the strain energy of the section (`A = h C`, `D = h^3/12 C`). -/
theorem C124_energy_fails : Shell.triQp.JxW * Shell.density ⟨fun r s => unitPlate.h * unitPlate.C r s, fun _ _ => 0, fun r s => unitPlate.h ^ 3 / 12 * unitPlate.C r s⟩ (midStrain false true Shell.triQp bent) (curvature true Shell.triQp bent)
    < ∑ s, Shell.triQp.JxW / 2 * unitPlate.h * (1 / 2 * ∑ k, to6 (stress false true Shell.triQp triBz unitPlate none s bent) k * to6 (strain false true Shell.triQp triBz unitPlate none s bent) k) := by
  rw [C124_energy false true Shell.triQp triBz tri_scaled unitPlate rfl]
  have hk : curvature true Shell.triQp bent = ![1, 0, 0] := by
    funext r
    rw [show bent = unitDof (true, 1, 1) from by funext a; simp [bent, unitDof], Shell.curvature_unit]
    fin_cases r <;> simp [Shell.triQp, Shell.mindlin, shape, Shell.TX, Shell.TY]
  have hm : midStrain false true Shell.triQp bent = fun _ => 0 := by
    funext r
    fin_cases r <;> simp [midStrain, linStrain, gx, gy, bent]
  rw [hk, hm]
  simp [Shell.density, Fin.sum_univ_three, unitPlate, Shell.triQp]

/-- The hypotheses of `C124_state_derivative` hold for the triangle; the derivative of the stored stress at the top with respect to the rotation is half the thickness. -/
example : (∀ p ∈ [(Shell.triQp, triBz, unitPlate, (none : Option Heat))], Scaled p.1 p.2.1) ∧
    dstressOf (recoverDeriv none true true [(Shell.triQp, triBz, unitPlate, none)] fun _ => 0) 0 0 (true, 1, 1) = 1 / 2 ∧ dstressOf (recoverDeriv none true true [(Shell.triQp, triBz, unitPlate, none)] fun _ => 0) 1 0 (true, 1, 1) = -(1 / 2) := by
  refine ⟨by simpa using tri_scaled, ?_, ?_⟩ <;>
  simp [dstressOf, recoverDeriv, rows6, to6, vecToGlobal, dstress, dstrain, unitPlate, Blin, shape, matX, matY, Shell.ddx, Shell.ddy, app, vkMat, Shell.dwx, Shell.dwy, triBz, Shell.mindlin, zAt, face, Shell.triQp, Fin.sum_univ_two, Fin.sum_univ_three] <;> norm_num

/-- The hypotheses of `C124_sensitivity` hold for a thickness growing in time, and the sensitivity of the bending strain is half the curvature. -/
example : (HasDerivAt (fun t : ℝ => (⟨unitPlate.C, 1 + t, 0⟩ : Plate).h) 1 0) ∧
    strainDot false true Shell.triQp triBz unitPlate none ⟨⟨fun _ _ => 0, 1, 0⟩, ⟨0, 0, 0⟩⟩ 0 bent (fun _ => 0) 0 = 1 / 2 := by
  refine ⟨by simpa using (hasDerivAt_id' (0:ℝ)).const_add 1, ?_⟩
  have hk : app (triBz 1) bent 0 = 1 := by
    rw [show bent = unitDof (true, 1, 1) from by funext a; simp [bent, unitDof], app, Shell.sum_unit]
    simp [triBz, Shell.triQp, Shell.mindlin, shape, Shell.TY]
  have : app (triBz (1 / 2)) bent 0 = 1 / 2 := by rw [app_scaled _ _ tri_scaled]; rw [app_scaled _ _ tri_scaled] at hk; linarith
  simp [strainDot, explicitStrain, zAt, face]
  simpa using this

/-- The hypotheses of `C124_free_expansion` hold: the triangle stretched by one in both directions. -/
example : (∀ r, midStrain false false Shell.triQp (fun a => if a = (false, 0, 1) ∨ a = (false, 1, 2) then 1 else 0) r = if r = 2 then 0 else (1:ℝ) * (1 - 0)) ∧
    ∀ r, curvature false Shell.triQp (fun a => if a = (false, 0, 1) ∨ a = (false, 1, 2) then 1 else 0) r = 0 := by
  refine ⟨fun r => ?_, fun r => rfl⟩
  fin_cases r <;> simp [midStrain, linStrain, gx, gy, Fin.sum_univ_three, Shell.triQp]

end Verif.StressRec
