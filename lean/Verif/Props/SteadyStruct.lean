import Verif.Model.SteadyStruct
import Verif.Props.SteadySens
import Verif.Props.SectionDeps
import Verif.Props.ShellTangent
import Verif.Props.BeamMore
/-! C186: sensitivity of steady analyses of shells and beams. -/
namespace Verif.Steady
open Verif Finset Verif.SecDep Verif.GeomElem

variable {n : Nat} {X : Type}

/-! ## Element vectors -/

theorem flat_row (r : Dof n → ℝ) (d : Dof n) : flat r d.row = r d := by
  unfold flat
  rw [Finset.sum_eq_single d]
  · simp
  · intro e _ he
    exact if_neg fun h => he (C111_rows.1 h)
  · intro h
    exact absurd (Finset.mem_univ d) h

theorem sum_rows (g : Nat → ℝ) : ∑ b ∈ range (6 * n), g b = ∑ d : Dof n, g d.row := by
  have him : (Finset.univ : Finset (Dof n)).image Dof.row = range (6 * n) := by
    ext b
    simp only [Finset.mem_image, Finset.mem_univ, true_and, mem_range]
    exact ⟨fun ⟨d, h⟩ => h ▸ C111_rows.2.1 d, fun h => C111_rows.2.2 b h⟩
  rw [← him, Finset.sum_image fun a _ b _ h => C111_rows.1 h]

theorem flat2_row (J : Dof n → Dof n → ℝ) (d e : Dof n) : flat2 J d.row e.row = J d e := by
  unfold flat2
  rw [Finset.sum_eq_single d]
  · rw [Finset.sum_eq_single e]
    · simp
    · intro b _ hb
      exact if_neg fun h => hb (C111_rows.1 h.2)
    · intro h
      exact absurd (Finset.mem_univ e) h
  · intro b _ hb
    exact Finset.sum_eq_zero fun c _ => if_neg fun h => hb (C111_rows.1 h.1)
  · intro h
    exact absurd (Finset.mem_univ d) h

/-! ## Differentiability in unknowns and stiffness together -/

section
variable {E : Type} [NormedAddCommGroup E] [NormedSpace ℝ E] {z : E}

theorem app_diff {m : Nat} (B : Fin m → Dof n → ℝ) {u : E → Dof n → ℝ} (hu : ∀ b, DifferentiableAt ℝ (fun z => u z b) z) (r : Fin m) : DifferentiableAt ℝ (fun z => Shell.app B (u z) r) z :=
  DifferentiableAt.fun_sum fun b _ => (hu b).const_mul _
theorem appT_diff {m : Nat} (B : Fin m → Dof n → ℝ) {s : E → Fin m → ℝ} (hs : ∀ r, DifferentiableAt ℝ (fun z => s z r) z) (a : Dof n) : DifferentiableAt ℝ (fun z => Shell.appT B (s z) a) z :=
  DifferentiableAt.fun_sum fun r _ => (hs r).const_mul _
theorem mv_diff {m k : Nat} {M : E → Fin m → Fin k → ℝ} {s : E → Fin k → ℝ} (hM : ∀ r j, DifferentiableAt ℝ (fun z => M z r j) z) (hs : ∀ j, DifferentiableAt ℝ (fun z => s z j) z) (r : Fin m) :
    DifferentiableAt ℝ (fun z => Shell.mv (M z) (s z) r) z := DifferentiableAt.fun_sum fun j _ => (hM r j).fun_mul (hs j)
theorem mvT_diff {m k : Nat} {M : E → Fin m → Fin k → ℝ} {s : E → Fin m → ℝ} (hM : ∀ r j, DifferentiableAt ℝ (fun z => M z r j) z) (hs : ∀ j, DifferentiableAt ℝ (fun z => s z j) z) (j : Fin k) :
    DifferentiableAt ℝ (fun z => Shell.mvT (M z) (s z) j) z := DifferentiableAt.fun_sum fun r _ => (hM r j).fun_mul (hs r)

theorem gradF_diff (q : Shell.Sqp n X) {u : E → Dof n → ℝ} (hu : ∀ b, DifferentiableAt ℝ (fun z => u z b) z) (i j : Fin 2) : DifferentiableAt ℝ (fun z => Shell.gradF q (u z) i j) z := by
  unfold Shell.gradF
  split
  · exact app_diff _ hu i
  · exact app_diff _ hu i
theorem gradE_diff (q : Shell.Sqp n X) {u : E → Dof n → ℝ} (hu : ∀ b, DifferentiableAt ℝ (fun z => u z b) z) (i j : Fin 2) : DifferentiableAt ℝ (fun z => Shell.gradE q (u z) i j) z :=
  (((gradF_diff q hu i j).fun_add (gradF_diff q hu j i)).fun_add (DifferentiableAt.fun_sum fun k _ => (gradF_diff q hu k i).fun_mul (gradF_diff q hu k j))).const_mul _
theorem strainMem_diff (nl : Bool) (q : Shell.Sqp n X) {u : E → Dof n → ℝ} (hu : ∀ b, DifferentiableAt ℝ (fun z => u z b) z) (r : Fin 3) : DifferentiableAt ℝ (fun z => Shell.strainMem nl q (u z) r) z := by
  cases nl with
  | false => exact app_diff _ hu r
  | true =>
    fin_cases r
    · exact gradE_diff q hu 0 0
    · exact gradE_diff q hu 1 1
    · exact (gradE_diff q hu 0 1).fun_add (gradE_diff q hu 1 0)
theorem matX_diff (q : Shell.Sqp n X) {u : E → Dof n → ℝ} (hu : ∀ b, DifferentiableAt ℝ (fun z => u z b) z) (r : Fin 3) (k : Fin 2) : DifferentiableAt ℝ (fun z => Shell.matX q (u z) r k) z := by
  fin_cases r
  · exact app_diff _ hu k
  · exact differentiableAt_const _
  · exact app_diff _ hu k
theorem matY_diff (q : Shell.Sqp n X) {u : E → Dof n → ℝ} (hu : ∀ b, DifferentiableAt ℝ (fun z => u z b) z) (r : Fin 3) (k : Fin 2) : DifferentiableAt ℝ (fun z => Shell.matY q (u z) r k) z := by
  fin_cases r
  · exact differentiableAt_const _
  · exact app_diff _ hu k
  · exact app_diff _ hu k
theorem dw_diff (g : Fin n → ℝ) (k : Fin 3) {u : E → Dof n → ℝ} (hu : ∀ b, DifferentiableAt ℝ (fun z => u z b) z) : DifferentiableAt ℝ (fun z => ∑ i, g i * u z (false, k, i)) z :=
  DifferentiableAt.fun_sum fun i _ => (hu _).const_mul _
theorem vkMat_diff (q : Shell.Sqp n X) {u : E → Dof n → ℝ} (hu : ∀ b, DifferentiableAt ℝ (fun z => u z b) z) (r : Fin 3) (k : Fin 2) : DifferentiableAt ℝ (fun z => Shell.vkMat q (u z) r k) z := by
  have hx : DifferentiableAt ℝ (fun z => Shell.dwx q (u z)) z := dw_diff _ _ hu
  have hy : DifferentiableAt ℝ (fun z => Shell.dwy q (u z)) z := dw_diff _ _ hu
  fin_cases r <;> fin_cases k <;> first | exact hx | exact hy | exact differentiableAt_const _
theorem vkStrain_diff (q : Shell.Sqp n X) {u : E → Dof n → ℝ} (hu : ∀ b, DifferentiableAt ℝ (fun z => u z b) z) (r : Fin 3) : DifferentiableAt ℝ (fun z => Shell.vkStrain q (u z) r) z := by
  have hx : DifferentiableAt ℝ (fun z => Shell.dwx q (u z)) z := dw_diff _ _ hu
  have hy : DifferentiableAt ℝ (fun z => Shell.dwy q (u z)) z := dw_diff _ _ hu
  fin_cases r
  · exact (hx.const_mul _).fun_mul hx
  · exact (hy.const_mul _).fun_mul hy
  · exact hx.fun_mul hy

theorem if_diff (b : Bool) {f g : E → ℝ} (hf : DifferentiableAt ℝ f z) (hg : DifferentiableAt ℝ g z) : DifferentiableAt ℝ (fun z => if b then f z else g z) z := by
  cases b
  · exact hg
  · exact hf

/-- Section stiffness matrices that are differentiable. -/
def SecDiff (S : E → Shell.Stiff) (z : E) : Prop :=
  (∀ r s, DifferentiableAt ℝ (fun z => (S z).A r s) z) ∧ (∀ r s, DifferentiableAt ℝ (fun z => (S z).B r s) z) ∧ ∀ r s, DifferentiableAt ℝ (fun z => (S z).D r s) z

theorem memStress_diff (nl bend : Bool) {S : E → Shell.Stiff} (hS : SecDiff S z) (q : Shell.Sqp n X) {u : E → Dof n → ℝ} (hu : ∀ b, DifferentiableAt ℝ (fun z => u z b) z) (r : Fin 3) :
    DifferentiableAt ℝ (fun z => Shell.memStress nl bend (S z) q (u z) r) z :=
  (mv_diff hS.1 (strainMem_diff nl q hu) r).fun_add (if_diff bend ((mv_diff hS.2.1 (fun r => app_diff _ hu r) r).fun_add (if_diff nl (mv_diff hS.1 (vkStrain_diff q hu) r) (differentiableAt_const _))) (differentiableAt_const _))
theorem strainTot_diff (nl bend : Bool) (q : Shell.Sqp n X) {u : E → Dof n → ℝ} (hu : ∀ b, DifferentiableAt ℝ (fun z => u z b) z) (r : Fin 3) : DifferentiableAt ℝ (fun z => Shell.strainTot nl bend q (u z) r) z :=
  (strainMem_diff nl q hu r).fun_add (if_diff (bend && nl) (vkStrain_diff q hu r) (differentiableAt_const _))
theorem opRes_diff (nl bend : Bool) {S : E → Shell.Stiff} (hS : SecDiff S z) (q : Shell.Sqp n X) {u : E → Dof n → ℝ} (hu : ∀ b, DifferentiableAt ℝ (fun z => u z b) z) (a : Dof n) :
    DifferentiableAt ℝ (fun z => Shell.opRes nl bend (S z) q (u z) a) z := by
  have hm := memStress_diff nl bend hS q hu
  unfold Shell.opRes
  refine ((appT_diff _ hm a).const_mul _ |>.fun_add (if_diff nl (((appT_diff _ (mvT_diff (matX_diff q hu) hm) a).const_mul _).fun_add ((appT_diff _ (mvT_diff (matY_diff q hu) hm) a).const_mul _)) (differentiableAt_const _))).fun_add
    (if_diff bend (((if_diff nl ((appT_diff _ (mvT_diff (vkMat_diff q hu) hm) a).const_mul _) (differentiableAt_const _)).fun_add ((appT_diff _ (mvT_diff hS.2.1 (strainTot_diff nl bend q hu)) a).const_mul _)).fun_add
      ((appT_diff _ (mv_diff hS.2.2 (fun r => app_diff _ hu r)) a).const_mul _)) (differentiableAt_const _))
theorem shearRes_diff {G : E → Fin 2 → Fin 2 → ℝ} (hG : ∀ r s, DifferentiableAt ℝ (fun z => G z r s) z) (q : Shell.ShearQp n X) {u : E → Dof n → ℝ} (hu : ∀ b, DifferentiableAt ℝ (fun z => u z b) z) (a : Dof n) :
    DifferentiableAt ℝ (fun z => Shell.shearRes (G z) q (u z) a) z := (appT_diff _ (mv_diff hG (fun r => app_diff _ hu r)) a).const_mul _

theorem local_diff (T : Option (Fin 3 → Fin 3 → ℝ)) {u : E → Dof n → ℝ} (hu : ∀ b, DifferentiableAt ℝ (fun z => u z b) z) (a : Dof n) : DifferentiableAt ℝ (fun z => vecToLocal T (u z) a) z := by
  cases T with
  | none => exact hu a
  | some T => exact DifferentiableAt.fun_sum fun b _ => (hu b).const_mul _
theorem global_diff (T : Option (Fin 3 → Fin 3 → ℝ)) {f : E → Dof n → ℝ} (hf : ∀ b, DifferentiableAt ℝ (fun z => f z b) z) (a : Dof n) : DifferentiableAt ℝ (fun z => vecToGlobal T (f z) a) z := by
  cases T with
  | none => exact hf a
  | some T => exact DifferentiableAt.fun_sum fun b _ => (hf b).const_mul _

theorem shell_diff (T : Option (Fin 3 → Fin 3 → ℝ)) (nl bend : Bool) (qs : List (Shell.Sqp n X)) (ss : List (Shell.ShearQp n X)) (S : E → Shell.Sqp n X → Shell.Stiff) (G : E → Shell.ShearQp n X → Fin 2 → Fin 2 → ℝ)
    (hS : ∀ q ∈ qs, SecDiff (fun z => S z q) z) (hG : ∀ q ∈ ss, ∀ r s, DifferentiableAt ℝ (fun z => G z q r s) z) {u : E → Dof n → ℝ} (hu : ∀ b, DifferentiableAt ℝ (fun z => u z b) z) (a : Dof n) :
    DifferentiableAt ℝ (fun z => Shell.internalRes T nl bend ⟨qs.map fun q => (q, S z q), ss.map fun q => (q, G z q)⟩ (u z) a) z := by
  refine global_diff T (f := fun z => Shell.localRes nl bend ⟨qs.map fun q => (q, S z q), ss.map fun q => (q, G z q)⟩ (vecToLocal T (u z))) (fun b => ?_) a
  have e : (fun z => Shell.localRes nl bend ⟨qs.map fun q => (q, S z q), ss.map fun q => (q, G z q)⟩ (vecToLocal T (u z)) b) = fun z =>
      (qs.map fun q => Shell.opRes nl bend (S z q) q (vecToLocal T (u z)) b).sum + (if bend then (ss.map fun q => Shell.shearRes (G z q) q (vecToLocal T (u z)) b).sum else 0) := by
    funext z
    simp only [Shell.localRes, List.map_map]
    rfl
  rw [e]
  exact (list_diff qs (fun q z => Shell.opRes nl bend (S z q) q (vecToLocal T (u z)) b) z fun q hq => opRes_diff nl bend (hS q hq) q (local_diff T hu) b).fun_add
    (if_diff bend (list_diff ss (fun q z => Shell.shearRes (G z q) q (vecToLocal T (u z)) b) z fun q hq => shearRes_diff (hG q hq) q (local_diff T hu) b) (differentiableAt_const _))

/-- The same for the section of a beam. -/
def BarDiff (S : E → Beam.Sec) (z : E) : Prop :=
  (∀ r s, DifferentiableAt ℝ (fun z => (S z).A r s) z) ∧ (∀ r s, DifferentiableAt ℝ (fun z => (S z).B r s) z) ∧ ∀ r s, DifferentiableAt ℝ (fun z => (S z).D r s) z

theorem bvk_diff (q : Beam.Bqp n X) {u : E → Dof n → ℝ} (hu : ∀ b, DifferentiableAt ℝ (fun z => u z b) z) (r : Fin 2) : DifferentiableAt ℝ (fun z => Beam.vkStrain q (u z) r) z := by
  have hx : DifferentiableAt ℝ (fun z => Beam.dvx q (u z)) z := dw_diff _ _ hu
  have hy : DifferentiableAt ℝ (fun z => Beam.dwx q (u z)) z := dw_diff _ _ hu
  fin_cases r
  · exact ((hx.fun_mul hx).fun_add (hy.fun_mul hy)).const_mul _
  · exact differentiableAt_const _
theorem axial_diff (nl bend : Bool) {S : E → Beam.Sec} (hS : BarDiff S z) (q : Beam.Bqp n X) {u : E → Dof n → ℝ} (hu : ∀ b, DifferentiableAt ℝ (fun z => u z b) z) :
    DifferentiableAt ℝ (fun z => Beam.axial nl bend (S z) q (u z)) z :=
  (mv_diff hS.1 (fun r => app_diff _ hu r) 0).fun_add (if_diff bend ((((hS.2.1 0 0).fun_mul (app_diff _ hu 0)).fun_add ((hS.2.1 0 1).fun_mul (app_diff _ hu 0))).fun_add
    (if_diff nl (mv_diff hS.1 (bvk_diff q hu) 0) (differentiableAt_const _))) (differentiableAt_const _))
theorem force_diff (nl bend : Bool) {S : E → Beam.Sec} (hS : BarDiff S z) (q : Beam.Bqp n X) {u : E → Dof n → ℝ} (hu : ∀ b, DifferentiableAt ℝ (fun z => u z b) z) (r : Fin 2) :
    DifferentiableAt ℝ (fun z => Beam.force nl bend (S z) q (u z) r) z := by
  fin_cases r
  · exact axial_diff nl bend hS q hu
  · exact mv_diff hS.1 (fun r => app_diff _ hu r) 1
theorem strainVec_diff (nl : Bool) (q : Beam.Bqp n X) {u : E → Dof n → ℝ} (hu : ∀ b, DifferentiableAt ℝ (fun z => u z b) z) (r : Fin 2) : DifferentiableAt ℝ (fun z => Beam.strainVec nl q (u z) r) z := by
  fin_cases r
  · exact (app_diff (Beam.Bmem q) hu 0).fun_add (if_diff nl (bvk_diff q hu 0) (differentiableAt_const _))
  · exact if_diff nl (bvk_diff q hu 1) (app_diff (Beam.Bbw q) hu 1)
theorem barRes_diff (nl bend : Bool) {S : E → Beam.Sec} (hS : BarDiff S z) (q : Beam.Bqp n X) {u : E → Dof n → ℝ} (hu : ∀ b, DifferentiableAt ℝ (fun z => u z b) z) (a : Dof n) :
    DifferentiableAt ℝ (fun z => Beam.opRes nl bend (S z) q (u z) a) z := by
  have hf := force_diff nl bend hS q hu
  have hx : DifferentiableAt ℝ (fun z => Beam.dvx q (u z)) z := dw_diff _ _ hu
  have hy : DifferentiableAt ℝ (fun z => Beam.dwx q (u z)) z := dw_diff _ _ hu
  have hv := strainVec_diff nl q hu
  unfold Beam.opRes
  refine ((appT_diff _ hf a).const_mul _).fun_add (if_diff bend ?_ (differentiableAt_const _))
  refine ((((((?_ : DifferentiableAt ℝ _ z).fun_add ?_).fun_add ?_).fun_add ?_).fun_add ?_).fun_add ?_).fun_add ?_
  · exact if_diff nl (((hx.const_mul _).fun_mul (appT_diff _ hf a)).fun_add ((hy.const_mul _).fun_mul (appT_diff _ hf a))) (differentiableAt_const _)
  · exact ((hS.2.1 0 0).const_mul _).fun_mul (appT_diff _ hv a)
  · exact ((hS.2.1 0 1).const_mul _).fun_mul (appT_diff _ hv a)
  · exact ((hS.2.2 0 0).const_mul _).fun_mul (appT_diff _ (fun r => app_diff _ hu r) a)
  · exact ((hS.2.2 1 0).const_mul _).fun_mul (appT_diff _ (fun r => app_diff _ hu r) a)
  · exact ((hS.2.2 1 1).const_mul _).fun_mul (appT_diff _ (fun r => app_diff _ hu r) a)
  · exact ((hS.2.2 0 1).const_mul _).fun_mul (appT_diff _ (fun r => app_diff _ hu r) a)

theorem beam_diff (T : Option (Fin 3 → Fin 3 → ℝ)) (nl bend : Bool) (qs : List (Beam.Bqp n X)) (S : E → Beam.Bqp n X → Beam.Sec) (hS : ∀ q ∈ qs, BarDiff (fun z => S z q) z) {u : E → Dof n → ℝ}
    (hu : ∀ b, DifferentiableAt ℝ (fun z => u z b) z) (a : Dof n) : DifferentiableAt ℝ (fun z => Beam.internalRes T nl bend ⟨qs.map fun q => (q, S z q), []⟩ (u z) a) z := by
  refine global_diff T (f := fun z => Beam.localRes nl bend ⟨qs.map fun q => (q, S z q), []⟩ (vecToLocal T (u z))) (fun b => ?_) a
  have e : (fun z => Beam.localRes nl bend ⟨qs.map fun q => (q, S z q), []⟩ (vecToLocal T (u z)) b) = fun z => (qs.map fun q => Beam.opRes nl bend (S z q) q (vecToLocal T (u z)) b).sum + (if bend then 0 else 0) := by
    funext z
    simp only [Beam.localRes, List.map_map, List.map_nil, List.sum_nil]
    rfl
  rw [e]
  exact (list_diff qs (fun q z => Beam.opRes nl bend (S z q) q (vecToLocal T (u z)) b) z fun q hq => barRes_diff nl bend (hS q hq) q (local_diff T hu) b).fun_add (differentiableAt_const _)

end

/-! ## Elements -/

/-- An element whose vector and matrix come from a function of the degrees of freedom of the nodes. -/
theorem rate_of_flat {e : PElem} (hn : e.n = 6 * n) {R : (Dof n → ℝ) → ℝ → Dof n → ℝ} (hres : ∀ t u, e.res t u = flat (R (fun d => u d.row) t)) {t₀ : ℝ} {U : ℝ → Nat → ℝ} {U' : Nat → ℝ} {s : Dof n → ℝ}
    (hsens : e.sens t₀ (U t₀) = flat s) {J : Dof n → Dof n → ℝ} (hjac : e.jac t₀ (U t₀) = flat2 J) (hd : ∀ a, DifferentiableAt ℝ (fun z : (Dof n → ℝ) × ℝ => R z.1 z.2 a) (fun d => U t₀ d.row, t₀))
    (hs : ∀ a, HasDerivAt (fun t => R (fun d => U t₀ d.row) t a) (s a) t₀)
    (hJ : ∀ a, HasDerivAt (fun x : ℝ => R (fun d => U t₀ d.row + x * U' d.row) t₀ a) (∑ b, J a b * U' b.row) 0) (hU : ∀ a < e.n, HasDerivAt (fun t => U t a) (U' a) t₀) : RateAlong e t₀ U U' := by
  intro a ha
  rw [hn] at ha
  obtain ⟨d, rfl⟩ := C111_rows.2.2 a ha
  simp only [hres, hsens, hjac, flat_row, hn]
  rw [sum_rows (n := n)]
  simp only [flat2_row]
  exact joint_rate (R := fun z : (Dof n → ℝ) × ℝ => R z.1 z.2 d) (u := fun b => U t₀ b.row) (w := fun b => U' b.row) (hd d) (hs d) (hJ d) (fun t b => U t b.row) (fun b => hU _ (by rw [hn]; exact C111_rows.2.1 b)) rfl

/-- Beams whose sensitivity is the derivative: with bending, built by the program, all functions declare what they depend on and report their derivatives, and the section is a proper rectangle with its sides ordered. -/
structure BeamOk (E : BeamData n X) (v : Nat → ℝ) (p : Nat) : Prop where
  bending : E.bend = true
  built : ∃ bs, Fn.buildAll bs = .ok E.hp
  declares : Declares E.hp E.F
  derivs : Derivs E.hp E.F v p
  found : ∃ P, E.card.bar E.hp = .ok P
  nu : ∀ x, E.card.material.get (isField E.hp) "nu" = .ok x → ∀ q ∈ E.qs, 1 + E.F.val v x q.x ≠ 0 ∧ 1 - 2 * E.F.val v x q.x ≠ 0 ∧ 1 - E.F.val v x q.x ≠ 0
  sides : ∀ y z, E.card.own.get (isField E.hp) "hy" = .ok y → E.card.own.get (isField E.hp) "hz" = .ok z → ∀ q ∈ E.qs, 0 < E.F.val v y q.x ∧ 0 < E.F.val v z q.x ∧ E.F.val v y q.x ≠ E.F.val v z q.x

theorem partial_uniq {D : Type} {f : (Nat → ℝ) → Exec (D → ℝ)} {v : Nat → ℝ} {p : Nat} {s : D → ℝ} (h : IsPartial f v p s) {g : ℝ → D → ℝ} (hg : ∀ t, f (Function.update v p t) = .ok (g t)) (a : D) :
    HasDerivAt (fun t => g t a) (s a) (v p) := by
  obtain ⟨g', h1, h2⟩ := h
  have : g = g' := by
    funext t
    exact Except.ok.inj ((hg t).symm.trans (h1 t))
  rw [this]
  exact h2 a

/-- C186: residual, Jacobian and parameter sensitivity of a beam, linear or with von Karman strain, in any frame, together give the rate of the residual along every motion. -/
theorem C186_beam (E : BeamData n X) (v : Nat → ℝ) (p : Nat) (dof : Nat → Nat) (asked : Bool) (h : BeamOk E v p) : ElemConsistent (beamElem E v p dof asked) (v p) := by
  intro U U' hU
  obtain ⟨bs, hb⟩ := h.built
  obtain ⟨P, hP⟩ := h.found
  obtain ⟨hp, F, card, T, nl, bend, qs⟩ := E
  obtain rfl : bend = true := h.bending
  have hforce : ∀ u w, barForce hp F card T nl true qs u w = .ok (Beam.internalRes T nl true (barElem F P w qs) u) := fun u w => by unfold barForce; rw [bind_ok hP]; rfl
  have hjac : ∀ u w, barJac hp F card T nl true qs u w = .ok (Beam.internalJac T nl true (barElem F P w qs) u fun _ _ => 0) := fun u w => by unfold barJac; rw [bind_ok hP]; rfl
  set u : Dof n → ℝ := fun d => U (v p) d.row with hu
  obtain ⟨s, hs1, hs2⟩ := C183_beam bs hp hb F h.declares card T nl true qs u v p h.derivs h.nu h.sides _ (hforce u v) fun _ => 0
  have hder := bar_derivs h.derivs h.nu h.sides hP
  refine rate_of_flat (e := beamElem ⟨hp, F, card, T, nl, true, qs⟩ v p dof asked) rfl (R := fun u t => Beam.internalRes T nl true (barElem F P (Function.update v p t) qs) u) (s := s)
    (J := fun a b => Beam.internalJac T nl true (barElem F P v qs) u (fun _ _ => 0) a b - 0) ?_ ?_ ?_ ?_ ?_ ?_ hU
  · intro t w
    show vecOf (barForce hp F card T nl true qs (fun d => w d.row) (Function.update v p t)) = _
    rw [hforce]
    rfl
  · show vecOf (barSens hp F card T nl true qs u (Function.update v p (v p)) p fun _ => 0) = _
    rw [upd_self, hs1]
    simp only [zero_add]
    rfl
  · show matVal (barJac hp F card T nl true qs u (Function.update v p (v p))) = _
    rw [upd_self, hjac]
    simp only [sub_zero]
    rfl
  · intro a
    refine beam_diff T nl true qs (fun (z : (Dof n → ℝ) × ℝ) q => barSec F P (Function.update v p z.2) q.x) (z := (u, v p)) (fun q hq => ?_) (u := fun z => z.1) (fun b => by fun_prop) a
    obtain ⟨h1, h2, h3⟩ := hder q hq
    have c : ∀ {f : ℝ → ℝ} {f' : ℝ}, HasDerivAt f f' (v p) → DifferentiableAt ℝ (fun z : (Dof n → ℝ) × ℝ => f z.2) (u, v p) := fun {f f'} hf =>
      DifferentiableAt.comp (g := f) (f := fun z : (Dof n → ℝ) × ℝ => z.2) (u, v p) hf.differentiableAt differentiableAt_snd
    exact ⟨fun r s => c (h1 r s), fun r s => c (h2 r s), fun r s => c (h3 r s)⟩
  · intro a
    exact partial_uniq hs2 (fun t => hforce u (Function.update v p t)) a
  · intro a
    have := Beam.C118_global_jacobian T nl (barElem F P v qs) (fun q hq => by
      obtain ⟨q', _, rfl⟩ := List.mem_map.1 hq
      simp [barSec, Section1D.beamA, Material.iso1D]) u (fun _ _ => 0) (fun b => U' b.row) a
    simp only [upd_self]
    exact this

/-- Shells whose sensitivity is the derivative: the functions of the cards as for beams; with transverse shear the parameter is not one of the material (C183_shear_fails). -/
structure ShellOk (E : ShellData n X) (v : Nat → ℝ) (p : Nat) : Prop where
  built : ∃ bs, Fn.buildAll bs = .ok E.hp
  declares : Declares E.hp E.F
  derivs : Derivs E.hp E.F v p
  found : ∃ P, E.card.plate E.hp (!E.ss.isEmpty) = .ok P
  nu : ∀ x, E.card.material.get (isField E.hp) "nu" = .ok x → ∀ q ∈ E.qs, 1 + E.F.val v x q.x ≠ 0 ∧ 1 - 2 * E.F.val v x q.x ≠ 0 ∧ 1 - E.F.val v x q.x ≠ 0
  shear : E.ss = [] ∨ ∀ nm x, nm = "E" ∨ nm = "nu" → E.card.material.get (isField E.hp) nm = .ok x → asks E.hp x p = false
  noDrill : ∀ q ∈ E.qs, ∀ r i, q.bend r (true, 2, i) = 0

/-- Linear strain, no bending, or no in-plane gradient of the state (the von Karman Jacobian is wrong elsewhere, C116). -/
def TangentOk (E : ShellData n X) (u : Nat → ℝ) : Prop := E.nl = false ∨ E.bend = false ∨ ∀ q ∈ E.qs, Shell.InPlaneFree q (vecToLocal E.T fun d => u d.row)

theorem rate_gen {e : PElem} (hn : e.n = 6 * n) {R : (Dof n → ℝ) → ℝ → Dof n → ℝ} (hres : ∀ t u, e.res t u = flat (R (fun d => u d.row) t)) {t₀ : ℝ} {U : ℝ → Nat → ℝ} {U' : Nat → ℝ} {s : Dof n → ℝ}
    (hd : ∀ a, DifferentiableAt ℝ (fun z : (Dof n → ℝ) × ℝ => R z.1 z.2 a) (fun d => U t₀ d.row, t₀))
    (hs : ∀ a, HasDerivAt (fun t => R (fun d => U t₀ d.row) t a) (s a) t₀) {D : Dof n → ℝ} (hJ : ∀ a, HasDerivAt (fun x : ℝ => R (fun d => U t₀ d.row + x * U' d.row) t₀ a) (D a) 0)
    (hU : ∀ a < e.n, HasDerivAt (fun t => U t a) (U' a) t₀) (a : Dof n) : HasDerivAt (fun t => e.res t (U t) a.row) (s a + D a) t₀ := by
  simp only [hres, flat_row]
  exact joint_rate (R := fun z : (Dof n → ℝ) × ℝ => R z.1 z.2 a) (u := fun b => U t₀ b.row) (w := fun b => U' b.row) (hd a) (hs a) (hJ a) (fun t b => U t b.row) (fun b => hU _ (by rw [hn]; exact C111_rows.2.1 b)) rfl

/-- C186, partial for shells: sensitivity and Jacobian together give the rate of the residual along a motion up to `1e-8` times the drilling part of the motion; the Jacobian carries this stiffness and the residual does not. -/
theorem C186_shell_partial (E : ShellData n X) (v : Nat → ℝ) (p : Nat) (dof : Nat → Nat) (asked : Bool) (h : ShellOk E v p) (U : ℝ → Nat → ℝ) (U' : Nat → ℝ)
    (hU : ∀ a < 6 * n, HasDerivAt (fun t => U t a) (U' a) (v p)) (ht : TangentOk E (U (v p))) (a : Dof n) :
    HasDerivAt (fun t => (shellElem E v p dof asked).res t (U t) a.row)
      ((shellElem E v p dof asked).sens (v p) (U (v p)) a.row + ∑ b ∈ range (6 * n), (shellElem E v p dof asked).jac (v p) (U (v p)) a.row b * U' b
        - 1 / 100000000 * vecToGlobal E.T (Shell.drillPart (vecToLocal E.T fun d => U' d.row)) a) (v p) := by
  obtain ⟨bs, hb⟩ := h.built
  obtain ⟨P, hP⟩ := h.found
  obtain ⟨hp, F, card, ps, T, nl, bend, qs, ss⟩ := E
  have hforce : ∀ u w, plateForce hp F card ps T nl bend qs ss u w = .ok (Shell.internalRes T nl bend (plateElem F ps P w qs ss) u) := fun u w => by unfold plateForce; rw [bind_ok hP]; rfl
  have hjac : ∀ u w, plateJac hp F card ps T nl bend qs ss u w = .ok (Shell.internalJac T nl bend (plateElem F ps P w qs ss) u) := fun u w => by unfold plateJac; rw [bind_ok hP]; rfl
  set u : Dof n → ℝ := fun d => U (v p) d.row with hu
  obtain ⟨s, hs1, hs2⟩ := C183_plate_partial bs hp hb F h.declares card ps T nl bend qs ss u v p h.derivs h.nu h.shear _ (hforce u v) fun _ => 0
  obtain ⟨hA, hB, hD, hG⟩ := plate_derivs hb h.declares ps h.derivs h.nu h.shear hP
  have e1 : (shellElem ⟨hp, F, card, ps, T, nl, bend, qs, ss⟩ v p dof asked).sens (v p) (U (v p)) a.row = s a := by
    show vecOf (plateSens hp F card ps T nl bend qs ss u (Function.update v p (v p)) p fun _ => 0) a.row = _
    rw [upd_self, hs1]
    simp only [zero_add]
    exact flat_row s a
  have e2 : ∑ b ∈ range (6 * n), (shellElem ⟨hp, F, card, ps, T, nl, bend, qs, ss⟩ v p dof asked).jac (v p) (U (v p)) a.row b * U' b = ∑ b, Shell.internalJac T nl bend (plateElem F ps P v qs ss) u a b * U' b.row := by
    rw [sum_rows (n := n)]
    refine Finset.sum_congr rfl fun b _ => ?_
    show matVal (plateJac hp F card ps T nl bend qs ss u (Function.update v p (v p))) a.row b.row * _ = _
    rw [upd_self, hjac]
    exact congrArg (· * U' b.row) (flat2_row _ a b)
  rw [e1, e2, add_sub_assoc]
  refine rate_gen (e := shellElem ⟨hp, F, card, ps, T, nl, bend, qs, ss⟩ v p dof asked) rfl (R := fun u t => Shell.internalRes T nl bend (plateElem F ps P (Function.update v p t) qs ss) u) ?_ ?_ ?_
    (D := fun a => ∑ b, Shell.internalJac T nl bend (plateElem F ps P v qs ss) u a b * U' b.row - 1 / 100000000 * vecToGlobal T (Shell.drillPart (vecToLocal T fun d => U' d.row)) a) ?_ hU a
  · intro t w
    show vecOf (plateForce hp F card ps T nl bend qs ss (fun d => w d.row) (Function.update v p t)) = _
    rw [hforce]
    rfl
  · intro a
    have c : ∀ {f : ℝ → ℝ} {f' : ℝ}, HasDerivAt f f' (v p) → DifferentiableAt ℝ (fun z : (Dof n → ℝ) × ℝ => f z.2) (u, v p) := fun {f f'} hf =>
      DifferentiableAt.comp (g := f) (f := fun z : (Dof n → ℝ) × ℝ => z.2) (u, v p) hf.differentiableAt differentiableAt_snd
    exact shell_diff T nl bend qs ss (fun (z : (Dof n → ℝ) × ℝ) q => plateSec F ps P (Function.update v p z.2) q.x) (fun z q => plateG F P (Function.update v p z.2) q.x) (z := (u, v p))
      (fun q hq => ⟨fun r s => c (hA q hq r s), fun r s => c (hB q hq r s), fun r s => c (hD q hq r s)⟩) (fun q hq r s => c (hG q hq r s)) (u := fun z => z.1) (fun b => by fun_prop) a
  · intro a
    exact partial_uniq hs2 (fun t => hforce u (Function.update v p t)) a
  · intro a
    have := Shell.C116_global_jacobian_partial T nl bend (plateElem F ps P v qs ss) (fun q hq => by
      obtain ⟨q', hq', rfl⟩ := List.mem_map.1 hq
      exact h.noDrill q' hq') u (fun b => U' b.row) a (by
        rcases ht with ht | ht | ht
        · exact Or.inl ht
        · exact Or.inr (Or.inl ht)
        · refine Or.inr (Or.inr fun q hq => ?_)
          obtain ⟨q', hq', rfl⟩ := List.mem_map.1 hq
          exact ht q' hq')
    simp only [upd_self]
    exact this

/-- A motion without drilling in the frame of the element. -/
def DrillFree (T : Option (Fin 3 → Fin 3 → ℝ)) (n : Nat) (U' : Nat → ℝ) : Prop := ∀ i : Fin n, vecToLocal T (fun d : Dof n => U' d.row) (true, 2, i) = 0

theorem global_zero (T : Option (Fin 3 → Fin 3 → ℝ)) (a : Dof n) : vecToGlobal T (fun _ => 0) a = 0 := by
  cases T with
  | none => rfl
  | some T => exact Finset.sum_eq_zero fun b _ => mul_zero _

/-- C186: along motions without drilling, a shell reports the rate of its residual. -/
theorem C186_shell_rate (E : ShellData n X) (v : Nat → ℝ) (p : Nat) (dof : Nat → Nat) (asked : Bool) (h : ShellOk E v p) (U : ℝ → Nat → ℝ) (U' : Nat → ℝ)
    (hU : ∀ a < 6 * n, HasDerivAt (fun t => U t a) (U' a) (v p)) (ht : TangentOk E (U (v p))) (hdr : DrillFree E.T n U') : RateAlong (shellElem E v p dof asked) (v p) U U' := by
  intro a ha
  obtain ⟨d, rfl⟩ := C111_rows.2.2 a ha
  have hz : Shell.drillPart (vecToLocal E.T fun d : Dof n => U' d.row) = fun _ => 0 := by
    funext b
    obtain ⟨b1, b2, b3⟩ := b
    unfold Shell.drillPart
    by_cases hb : b1 = true ∧ b2 = 2
    · rw [if_pos hb, hb.1, hb.2]
      exact hdr b3
    · rw [if_neg hb]
  have := C186_shell_partial E v p dof asked h U U' hU ht d
  rw [hz, global_zero, mul_zero, sub_zero] at this
  exact this

/-- C186 fails for drilling rotations: no shell whose frame is the global one reports the rate of its residual along a motion that turns a node about the normal. -/
theorem C186_drilling_fails (E : ShellData n X) (v : Nat → ℝ) (p : Nat) (dof : Nat → Nat) (asked : Bool) (h : ShellOk E v p) (hT : E.T = none) (hlin : E.nl = false) (i : Fin n) (U : ℝ → Nat → ℝ) (U' : Nat → ℝ)
    (hU : ∀ a < 6 * n, HasDerivAt (fun t => U t a) (U' a) (v p)) (hi : U' (Dof.row (true, 2, i)) ≠ 0) : ¬ RateAlong (shellElem E v p dof asked) (v p) U U' := by
  intro hr
  have h1 := C186_shell_partial E v p dof asked h U U' hU (Or.inl hlin) (true, 2, i)
  have h2 := hr _ (C111_rows.2.1 (true, 2, i))
  have h3 := h2.unique h1
  rw [hT] at h3
  have h4 : vecToGlobal (none : Option (Fin 3 → Fin 3 → ℝ)) (Shell.drillPart (vecToLocal none fun d : Dof n => U' d.row)) (true, 2, i) = U' (Dof.row (true, 2, i)) := by
    simp [vecToGlobal, Shell.drillPart, vecToLocal]
  rw [h4] at h3
  have h5 : (shellElem E v p dof asked).n = 6 * n := rfl
  rw [h5] at h3
  have : (1 : ℝ) / 100000000 * U' (Dof.row (true, 2, i)) = 0 := by linarith
  rcases mul_eq_zero.1 this with h6 | h6
  · norm_num at h6
  · exact hi h6

/-! ## The structure -/

/-- A beam or shell of the structure, for the solution `u` of the analysis and its rate `w`. -/
inductive IsMember (v : Nat → ℝ) (p : Nat) (u w : Nat → ℝ) : PElem → Prop
  | beam {n : Nat} {X : Type} (E : BeamData n X) (dof : Nat → Nat) (asked : Bool) (h : BeamOk E v p) : IsMember v p u w (beamElem E v p dof asked)
  | shell {n : Nat} {X : Type} (E : ShellData n X) (dof : Nat → Nat) (asked : Bool) (h : ShellOk E v p) (ht : TangentOk E fun b => u (dof b)) (hd : DrillFree E.T n fun b => w (dof b)) : IsMember v p u w (shellElem E v p dof asked)

/-- C186: a steady analysis of a structure of beams and shells under point loads, linear or with large deflections: `sensitivity_solve` returns the derivative of the displacements and rotations with respect to a
parameter of the sections or materials.  Partial: the shear modulus of shells with transverse shear (C183_shear_fails), shells with von Karman strain in states with in-plane gradients (C116), and motions with drilling
(C186_drilling_fails) are excluded; loads on elements are not modelled here. -/
theorem C186_structure_partial {N : Nat} (ls : Sens.LinSolver N) (hls : ls.Correct) {C : Nat → Bool} {loads : List PLoad} {ps : List PProc} {v : Nat → ℝ} {p : Nat} {X : ℝ → Fin N → ℝ} {X' : Fin N → ℝ}
    (hm : ∀ e ∈ allElems ps, IsMember v p (ext (X (v p))) (ext X') e) (hdof : ∀ e ∈ allElems ps, ∀ a < e.n, e.dof a < N)
    (hask : ∀ e ∈ allElems ps, e.asked = true ∨ ∀ a < e.n, e.sens (v p) (fun b => ext (X (v p)) (e.dof b)) a = 0) (hl : ∀ l ∈ loads, ∀ a < l.n, HasDerivAt (fun t => l.load t a) (l.dload (v p) a) (v p))
    (hown : ∀ i < N, OwnedOnce ps i) (hB : Branch C loads ps X X' (v p)) (hreg : IsUnit (Matrix.of fun i j : Fin N => sysJac C ps (v p) (ext (X (v p))) i j).det) :
    sensitivitySolve ls C loads ps (v p) (X (v p)) = X' := by
  refine C185_along ls hls hdof (fun e he => ?_) hask (fun e he => ?_) hl hown hB hreg
  · cases hm e he <;> rfl
  · have hU := motion (hdof e he) hB.rate
    cases hm e he with
    | beam E dof asked h => exact C186_beam E v p dof asked h _ _ hU
    | shell E dof asked h ht hd => exact C186_shell_rate E v p dof asked h _ _ hU ht hd

/-! ### A beam and a membrane pulled together -/

noncomputable def exB : Beam.Bqp 1 Unit := ⟨(), 1, fun _ => 1, fun _ => 0, fun _ => 0⟩
noncomputable def exS : Shell.Sqp 1 Unit := ⟨(), 1, fun _ => 0, fun _ => 1, fun _ => 0, fun _ _ => 0⟩
/-- Large deflections. -/
noncomputable def exBeam : BeamData 1 Unit := ⟨heap, consts, barCard, none, true, true, [exB]⟩
noncomputable def exShell : ShellData 1 Unit := ⟨heap, consts, card, true, none, false, true, [exS], []⟩
noncomputable def exMesh : List PProc := [⟨[beamElem exBeam barVals 0 id true, shellElem exShell barVals 0 id true], 0, 6⟩]
/-- A force along the first axis. -/
noncomputable def exLoad : List PLoad := [⟨1, id, fun _ _ => 6, fun _ _ => 0⟩]

theorem exBeam_ok : BeamOk exBeam barVals 0 := by
  refine ⟨rfl, ⟨prog, rfl⟩, declares, derivs _ _ _, ⟨⟨7, 9, 8, 8, 5, 6⟩, rfl⟩, ?_, ?_⟩
  · intro x hx q _
    have h' : (Except.ok 6 : Exec Nat) = .ok x := hx
    rw [← Except.ok.inj h']
    norm_num [exBeam, consts, par, barVals]
  · intro y z hy hz q _
    have hy' : (Except.ok 7 : Exec Nat) = .ok y := hy
    have hz' : (Except.ok 9 : Exec Nat) = .ok z := hz
    rw [← Except.ok.inj hy', ← Except.ok.inj hz']
    norm_num [exBeam, consts, par, barVals]

theorem exShell_ok : ShellOk exShell barVals 0 := by
  refine ⟨⟨prog, rfl⟩, declares, derivs _ _ _, ⟨⟨7, 8, 7, 5, 6⟩, rfl⟩, ?_, Or.inl rfl, ?_⟩
  · intro x hx q _
    have h' : (Except.ok 6 : Exec Nat) = .ok x := hx
    rw [← Except.ok.inj h']
    norm_num [exShell, consts, par, barVals]
  · intro q hq r i
    simp only [exShell, List.mem_singleton] at hq
    subst hq
    rfl

theorem exBeam_res (t : ℝ) (u : Nat → ℝ) (h1 : u 1 = 0) (h2 : u 2 = 0) : (beamElem exBeam barVals 0 id true).res t u 0 = 2 * t * u 0 := by
  have e : (beamElem exBeam barVals 0 id true).res t u 0 = Beam.internalRes none true true (barElem consts ⟨7, 9, 8, 8, 5, 6⟩ (Function.update barVals 0 t) [exB]) (fun d => u d.row) (false, 0, 0) := flat_row (n := 1) _ (false, 0, 0)
  rw [e]
  simp [Beam.internalRes, globalRes, vecToGlobal, vecToLocal, Beam.localRes, barElem, Beam.opRes, exB, Shell.appT, Beam.Bmem, Beam.Bvv, Beam.Bww, Beam.Bbv, Beam.Bbw, Shell.shape, Beam.force, Beam.axial, Shell.mv, Shell.app, Fin.sum_univ_two, Fintype.sum_prod_type, Fin.sum_univ_three,
    Beam.vkStrain, Beam.dvx, Beam.dwx, Dof.row, h1, h2, barSec, Section1D.beamA, Section1D.beamB, Section1D.beamD, Section1D.area, Section1D.areaMoment, Material.iso1D, consts, par, Function.update, barVals]
  left
  ring

theorem exShell_res (t : ℝ) (u : Nat → ℝ) : (shellElem exShell barVals 0 id true).res t u 0 = t * u 0 := by
  have e : (shellElem exShell barVals 0 id true).res t u 0 = Shell.internalRes none false true (plateElem consts true ⟨7, 8, 7, 5, 6⟩ (Function.update barVals 0 t) [exS] []) (fun d => u d.row) (false, 0, 0) := flat_row (n := 1) _ (false, 0, 0)
  rw [e]
  simp [Shell.internalRes, globalRes, vecToGlobal, vecToLocal, Shell.localRes, plateElem, Shell.opRes, exS, Shell.appT, Shell.Blin, Shell.shape, Shell.memStress, Shell.strainMem, Shell.mv, Shell.mvT, Shell.app, Fin.sum_univ_two, Fintype.sum_prod_type, Fin.sum_univ_three,
    Dof.row, plateSec, Section2D.plateA, Section2D.plateB, Section2D.plateD, Material.iso2D, consts, par, Function.update, barVals]

theorem exBeam_jac (t : ℝ) (u : Nat → ℝ) (h1 : u 1 = 0) (h2 : u 2 = 0) : (beamElem exBeam barVals 0 id true).jac t u 0 0 = 2 * t := by
  have e : (beamElem exBeam barVals 0 id true).jac t u 0 0 = Beam.internalJac none true true (barElem consts ⟨7, 9, 8, 8, 5, 6⟩ (Function.update barVals 0 t) [exB]) (fun d => u d.row) (fun _ _ => 0) (false, 0, 0) (false, 0, 0) :=
    flat2_row (n := 1) _ (false, 0, 0) (false, 0, 0)
  rw [e]
  simp [Beam.internalJac, matToGlobal, vecToLocal, Beam.localJac, barElem, Beam.opJac, Beam.jacVk, Beam.gram, Shell.sandwich, exB, Beam.Bmem, Beam.Bvv, Beam.Bww, Beam.Bbv, Beam.Bbw, Shell.shape, Shell.mv, Shell.app, Fin.sum_univ_two, Fintype.sum_prod_type, Fin.sum_univ_three,
    Beam.vkStrain, Beam.dvx, Beam.dwx, Dof.row, h1, h2, barSec, Section1D.beamA, Section1D.beamB, Section1D.beamD, Section1D.area, Section1D.areaMoment, Material.iso1D, consts, par, Function.update, barVals]
  ring

theorem exShell_jac (t : ℝ) (u : Nat → ℝ) : (shellElem exShell barVals 0 id true).jac t u 0 0 = t := by
  have e : (shellElem exShell barVals 0 id true).jac t u 0 0 = Shell.internalJac none false true (plateElem consts true ⟨7, 8, 7, 5, 6⟩ (Function.update barVals 0 t) [exS] []) (fun d => u d.row) (false, 0, 0) (false, 0, 0) :=
    flat2_row (n := 1) _ (false, 0, 0) (false, 0, 0)
  rw [e]
  simp [Shell.internalJac, matToGlobal, vecToLocal, Shell.drilling, Shell.localJac, plateElem, Shell.opJac, Shell.sandwich, Shell.Blin, Shell.shape, Shell.tr, exS, Fin.sum_univ_two, Fintype.sum_prod_type, Fin.sum_univ_three,
    Dof.row, plateSec, Section2D.plateA, Section2D.plateB, Section2D.plateD, Material.iso2D, consts, par, Function.update, barVals]

/-- All unknowns but the first are held. -/
def exC : Nat → Bool := fun i => i != 0
noncomputable def exX (t : ℝ) : Fin 6 → ℝ := fun i => if i = 0 then 2 / t else 0

theorem exX_ext (t : ℝ) : ext (exX t) 1 = 0 ∧ ext (exX t) 2 = 0 ∧ ext (exX t) 0 = 2 / t := ⟨rfl, rfl, rfl⟩

theorem ex_owned (i : Nat) (hi : i < 6) : OwnedOnce exMesh i := by
  interval_cases i <;> simp [OwnedOnce, exMesh]

/-- Non-vacuity of C186_structure_partial (with C186_beam, C186_shell_rate): a beam of area 2 and a membrane of thickness 1 pulled by a force 6, modulus `t`; the displacement is `2 / t`. -/
example : (∀ e ∈ allElems exMesh, IsMember barVals 0 (ext (exX (barVals 0))) (ext fun i : Fin 6 => if i = 0 then -2 else 0) e) ∧ (∀ e ∈ allElems exMesh, ∀ a < e.n, e.dof a < 6) ∧ (∀ i < 6, OwnedOnce exMesh i) ∧
    (∀ e ∈ allElems exMesh, e.asked = true) ∧ Branch (N := 6) exC exLoad exMesh exX (fun i => if i = 0 then -2 else 0) (barVals 0) ∧
    IsUnit (Matrix.of fun i j : Fin 6 => sysJac exC exMesh (barVals 0) (ext (exX (barVals 0))) i j).det := by
  have hall : allElems exMesh = [beamElem exBeam barVals 0 id true, shellElem exShell barVals 0 id true] := rfl
  have hb0 : barVals 0 = 1 := by simp [barVals]
  refine ⟨?_, ?_, ex_owned, ?_, ⟨?_, ?_, ?_⟩, ?_⟩
  · intro e he
    rw [hall] at he
    rcases List.mem_cons.1 he with rfl | he
    · exact .beam _ _ _ exBeam_ok
    · rw [List.mem_singleton.1 he]
      refine .shell _ _ _ exShell_ok (Or.inl rfl) fun i => ?_
      have : i = 0 := Subsingleton.elim _ _
      subst this
      rfl
  · intro e he a ha
    rw [hall] at he
    rcases List.mem_cons.1 he with rfl | he
    · exact ha
    · rw [List.mem_singleton.1 he] at ha ⊢
      exact ha
  · intro e he
    rw [hall] at he
    rcases List.mem_cons.1 he with rfl | he
    · rfl
    · rw [List.mem_singleton.1 he]
      rfl
  · have : ∀ᶠ t in nhds (barVals 0), t ≠ 0 := isOpen_ne.mem_nhds (by rw [hb0]; norm_num)
    refine this.mono fun t ht i hi => ?_
    unfold sysRes
    rw [Asm.C22_residual _ _ _ _ _ (owned_map (PElem.atValue t) (ex_owned i hi)), all_map, hall]
    by_cases h0 : i = 0
    · subst h0
      have e1 : Asm.elemRes (ext (exX t)) ((beamElem exBeam barVals 0 id true).atValue t) 0 = 2 * t * (2 / t) := by
        rw [← (exX_ext t).2.2, ← exBeam_res t (ext (exX t)) rfl rfl]
        simp [Asm.elemRes, PElem.atValue, beamElem]
      have e2 : Asm.elemRes (ext (exX t)) ((shellElem exShell barVals 0 id true).atValue t) 0 = t * (2 / t) := by
        rw [← (exX_ext t).2.2, ← exShell_res t (ext (exX t))]
        simp [Asm.elemRes, PElem.atValue, shellElem]
      simp only [List.map_cons, List.map_nil, List.sum_cons, List.sum_nil, e1, e2]
      simp [exC, exLoad, Asm.nodeForce]
      field_simp
      norm_num
    · simp [exC, h0]
  · refine Filter.Eventually.of_forall fun t i hi => ?_
    have : i ≠ 0 := fun h => by simp [h, exC] at hi
    simp [exX, this]
  · intro i
    by_cases h0 : i = 0
    · simp only [exX, h0, if_true]
      have := (hasDerivAt_inv (x := barVals 0) (by rw [hb0]; norm_num)).const_mul 2
      simp only [← div_eq_mul_inv] at this
      exact this.congr_deriv (by rw [hb0]; norm_num)
    · simp only [exX, h0, if_false]
      exact hasDerivAt_const _ _
  · have hdiag : (Matrix.of fun i j : Fin 6 => sysJac exC exMesh (barVals 0) (ext (exX (barVals 0))) i j) = Matrix.diagonal fun i : Fin 6 => if i = 0 then 3 else 2 := by
      ext i j
      rw [Matrix.of_apply]
      by_cases hij : i = j
      · subst hij
        rw [Matrix.diagonal_apply_eq]
        unfold sysJac
        rw [Asm.C22_jacobian, all_map, hall]
        by_cases h0 : i = 0
        · subst h0
          have e1 : Asm.elemJac (ext (exX (barVals 0))) ((beamElem exBeam barVals 0 id true).atValue (barVals 0)) 0 0 = 2 := by
            rw [show (2 : ℝ) = 2 * barVals 0 by rw [hb0, mul_one], ← exBeam_jac (barVals 0) (ext (exX (barVals 0))) rfl rfl]
            simp [Asm.elemJac, PElem.atValue, beamElem, Finset.sum_range_succ]
          have e2 : Asm.elemJac (ext (exX (barVals 0))) ((shellElem exShell barVals 0 id true).atValue (barVals 0)) 0 0 = 1 := by
            have h1 := exShell_jac (barVals 0) (ext (exX (barVals 0)))
            rw [hb0] at h1 ⊢
            refine Eq.trans ?_ h1
            simp [Asm.elemJac, PElem.atValue, shellElem, Finset.sum_range_succ]
          simp [exC, e1, e2]
          norm_num
        · have hn : (i : Nat) ≠ 0 := fun h => h0 (Fin.ext h)
          simp [exC, h0, hn, Asm.incidence, PElem.atValue, beamElem, shellElem]
          norm_num
      · rw [Matrix.diagonal_apply_ne _ hij]
        have hne : (i : Nat) ≠ j := fun h => hij (Fin.ext h)
        by_cases h0 : (i : Nat) = 0
        · exact (con_row (i := (j : Nat)) (j := (i : Nat)) (by simp [exC]; omega) hne).2
        · exact (con_row (i := (i : Nat)) (j := (j : Nat)) (by simp [exC, h0]) (Ne.symm hne)).1
    rw [hdiag, Matrix.det_diagonal, isUnit_iff_ne_zero]
    simp [Fin.prod_univ_succ]

end Verif.Steady
