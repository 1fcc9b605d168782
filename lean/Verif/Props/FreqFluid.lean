import Verif.Model.FreqFluid
import Verif.Props.FluidWall
import Mathlib.Analysis.Complex.RealDeriv
import Mathlib.Analysis.SpecialFunctions.ExpDeriv
import Mathlib.Analysis.SpecialFunctions.Sqrt
import Mathlib.Analysis.Calculus.Deriv.Abs
import Mathlib.Tactic.LinearCombination
import Mathlib.Tactic.FieldSimp
/-
  C148-C151: frequency domain flow element, pressure functions and integrated pressure.
-/
namespace Verif.Fluid

open Finset Complex

section Spec

/-- Motion in time with complex amplitude `x`: the real part of `x z`, where `z` is the phase factor. -/
noncomputable def phase (z : ℂ) (x : CField) : Field := fun v a => (z * x v a).re

/-- The same at a point. -/
noncomputable def phasePt (z : ℂ) (D : Var → ℂ) : Var → ℝ := fun v => (z * D v).re

/-- Harmonic motion with amplitude `x` and angular frequency `ω`. -/
noncomputable def harmonic (ω : ℝ) (x : CField) (τ : ℝ) : Field := phase (Complex.exp (I * ω * τ)) x

end Spec

/-- Two complex numbers are equal when every rotated real part is. -/
theorem eq_of_phase (x y : ℂ) (h : ∀ z : ℂ, (z * x).re = (z * y).re) : x = y := by
  apply Complex.ext
  · simpa using h 1
  · have := h (-I)
    simpa using this

theorem re_real (z w : ℂ) (r : ℝ) : (z * (r * w)).re = r * (z * w).re := by
  simp only [mul_re, mul_im, ofReal_re, ofReal_im]; ring

theorem re_sum {ι : Type} (s : Finset ι) (z : ℂ) (f : ι → ℂ) : (z * ∑ i ∈ s, f i).re = ∑ i ∈ s, (z * f i).re := by
  rw [Finset.mul_sum, Complex.re_sum]

theorem re_list {α : Type} (l : List α) (z : ℂ) (f : α → ℂ) : (z * (l.map f).sum).re = (l.map fun q => (z * f q).re).sum := by
  induction l with
  | nil => simp
  | cons x l ih => simp only [List.map_cons, List.sum_cons, mul_add, add_re, ih]

/-- A real matrix acts on the phases. -/
theorem cjacMul_re (c : Ctx) (J : Var → Nat → ℝ) (x : CField) (z : ℂ) : (z * cjacMul c (fun u b => (J u b : ℂ)) x).re = jacMul c J (phase z x) := by
  unfold cjacMul jacMul phase
  rw [re_sum]
  refine Finset.sum_congr rfl fun u _ => ?_
  split_ifs
  · rw [re_sum]
    exact Finset.sum_congr rfl fun b _ => re_real z _ _
  · simp

theorem cjacMul_add (c : Ctx) (J K : Var → Nat → ℂ) (x : CField) : cjacMul c (fun u b => J u b + K u b) x = cjacMul c J x + cjacMul c K x := by
  unfold cjacMul
  rw [← Finset.sum_add_distrib]
  refine Finset.sum_congr rfl fun u _ => ?_
  split_ifs
  · rw [← Finset.sum_add_distrib]; exact Finset.sum_congr rfl fun b _ => by ring
  · simp

theorem cjacMul_smul (c : Ctx) (r : ℂ) (J : Var → Nat → ℂ) (x : CField) : cjacMul c (fun u b => J u b * r) x = r * cjacMul c J x := by
  unfold cjacMul
  rw [Finset.mul_sum]
  refine Finset.sum_congr rfl fun u _ => ?_
  split_ifs
  · rw [Finset.mul_sum]; exact Finset.sum_congr rfl fun b _ => by ring
  · simp

theorem cjacMul_smul' (c : Ctx) (r : ℂ) (J : Var → Nat → ℂ) (x : CField) : cjacMul c (fun u b => r * J u b) x = r * cjacMul c J x := by
  rw [← cjacMul_smul]; congr 1; funext u b; ring

theorem freqRes_eq (c : Ctx) (T : Tau) (dc : Shock) (qs : List Qp) (sol : Field) (fr : Freq) (x : CField) (v : Var) (a : Nat) :
    freqRes c T dc qs sol fr x v a = fr.factor * cjacMul c (fun u b => (internalJac c T dc qs sol v a u b : ℂ)) x +
      I * fr.value * cjacMul c (fun u b => (velocityJacXdot c T qs sol v a u b : ℂ)) x := by
  unfold freqRes freqMat
  rw [cjacMul_add, cjacMul_smul, cjacMul_smul']

/-- C148: with the amplitude `x` of a harmonic motion of angular frequency `ω`, the complex residual of the element is the amplitude of the linearized unsteady residual: rotated by the
phase of any time `τ`, its real part is the linearized internal residual of the motion at `τ` plus the inertia of its time derivative, both times the factor `b / V` of a reduced
frequency (1 otherwise); the number given as frequency is the factor times `ω`. -/
theorem C148_harmonic (c : Ctx) (T : Tau) (dc : Shock) (qs : List Qp) (sol : Field) (fr : Freq) (ω : ℝ) (hω : fr.omega = fr.factor * ω) (x : CField) (τ : ℝ) (V : Field)
    (hV : ∀ v a, HasDerivAt (fun s => harmonic ω x s v a) (V v a) τ) (v : Var) (a : Nat) :
    (Complex.exp (I * ω * τ) * freqRes c T dc qs sol fr x v a).re =
      fr.factor * (linInternalRes c T dc qs sol (harmonic ω x τ) v a + velocityRes c T qs sol V v a) := by
  have hvel : V = fun v a => (ω : ℝ) * (I * Complex.exp (I * ω * τ) * x v a).re := by
    funext v a
    have h1 : HasDerivAt (fun s : ℝ => I * ω * (s : ℂ)) (I * ω) τ := by
      simpa using (Complex.ofRealCLM.hasDerivAt (x := τ)).const_mul (I * ω)
    have h2 := (h1.cexp.mul_const (x v a))
    have h3 : HasDerivAt (fun s : ℝ => (Complex.exp (I * ω * s) * x v a).re) (Complex.exp (I * ω * τ) * (I * ω) * x v a).re τ :=
      (Complex.reCLM.hasFDerivAt.comp_hasDerivAt τ h2)
    refine ((hV v a).unique h3).trans ?_
    rw [show Complex.exp (I * ω * τ) * (I * ω) * x v a = (ω : ℂ) * (I * Complex.exp (I * ω * τ) * x v a) by ring, Complex.re_ofReal_mul]
  set z := Complex.exp (I * ω * τ) with hz
  rw [C141_velocity_jacobian, freqRes_eq, mul_add, add_re, mul_add]
  congr 1
  · rw [re_real, cjacMul_re]; rfl
  · rw [show z * (I * (fr.value : ℂ) * cjacMul c (fun u b => (velocityJacXdot c T qs sol v a u b : ℂ)) x) =
        (fr.value : ℂ) * ((I * z) * cjacMul c (fun u b => (velocityJacXdot c T qs sol v a u b : ℂ)) x) by ring, Complex.re_ofReal_mul, cjacMul_re, hvel]
    have e : (fun v a => ω * (I * z * x v a).re) = fun v a => ω * phase (I * z) x v a := rfl
    have hs : jacMul c (velocityJacXdot c T qs sol v a) (fun v a => ω * phase (I * z) x v a) = ω * jacMul c (velocityJacXdot c T qs sol v a) (phase (I * z) x) := by
      unfold jacMul
      rw [Finset.mul_sum]
      refine Finset.sum_congr rfl fun u _ => ?_
      split_ifs
      · rw [Finset.mul_sum]; exact Finset.sum_congr rfl fun b _ => by ring
      · simp
    rw [e, hs]
    unfold Freq.value
    rw [hω]; ring

/-- Non-vacuity of C148: the derivative of a harmonic motion exists for every amplitude. -/
example (ω : ℝ) (x : CField) (τ : ℝ) : ∃ V : Field, ∀ v a, HasDerivAt (fun s => harmonic ω x s v a) (V v a) τ := by
  refine ⟨fun v a => (Complex.exp (I * ω * τ) * (I * ω) * x v a).re, fun v a => ?_⟩
  have h1 : HasDerivAt (fun s : ℝ => I * ω * (s : ℂ)) (I * ω) τ := by
    simpa using (Complex.ofRealCLM.hasDerivAt (x := τ)).const_mul (I * ω)
  exact Complex.reCLM.hasFDerivAt.comp_hasDerivAt τ (h1.cexp.mul_const (x v a))

/-- Non-vacuity of C148: reduced frequency 3/2 of a motion at 3 rad/s past a body of length 1 at speed 2. -/
example : (⟨3 / 2, 2, 1, true⟩ : Freq).omega = (⟨3 / 2, 2, 1, true⟩ : Freq).factor * 3 := by norm_num [Freq.factor]

/-- C148: symmetry walls and far fields use the real Jacobian of the steady condition in the same way. -/
theorem C148_sides (c : Ctx) (J : Var → Nat → ℝ) (fr : Freq) (x : CField) (z : ℂ) : (z * freqSide c J fr x).re = fr.factor * jacMul c J (phase z x) := by
  unfold freqSide
  rw [cjacMul_smul, re_real, cjacMul_re]

theorem cjacMul_deriv (c : Ctx) (J : Var → Nat → ℂ) (x : ℝ → CField) (dx : CField) (h : ∀ u b, HasDerivAt (fun s => x s u b) (dx u b) 0) :
    HasDerivAt (fun s => cjacMul c J (x s)) (cjacMul c J dx) 0 := by
  unfold cjacMul
  refine HasDerivAt.fun_sum fun u _ => ?_
  split_ifs
  · exact HasDerivAt.fun_sum fun b _ => (h u b).const_mul _
  · exact hasDerivAt_const _ _

/-- C148, partial: the sensitivity of the complex residual is its derivative when the frequency and the complex solution depend on the parameter and the factor `b / V` does not. -/
theorem C148_sensitivity_partial (c : Ctx) (T : Tau) (dc : Shock) (qs : List Qp) (sol : Field) (fr : Freq) (w : ℝ → ℝ) (dω : ℝ) (x : ℝ → CField) (dx : CField)
    (h0 : w 0 = fr.omega) (hw : HasDerivAt w dω 0) (hx : ∀ u b, HasDerivAt (fun s => x s u b) (dx u b) 0) (v : Var) (a : Nat) :
    HasDerivAt (fun s => freqRes c T dc qs sol { fr with omega := w s } (x s) v a) (freqSens c T dc qs sol fr dω (x 0) dx v a) 0 := by
  simp only [freqRes_eq]
  have hJ := cjacMul_deriv c (fun u b => (internalJac c T dc qs sol v a u b : ℂ)) x dx hx
  have hM := cjacMul_deriv c (fun u b => (velocityJacXdot c T qs sol v a u b : ℂ)) x dx hx
  have hwc : HasDerivAt (fun s => ((w s : ℝ) : ℂ)) (dω : ℂ) 0 := hw.ofReal_comp
  have hf : ∀ s, ({ fr with omega := w s } : Freq).factor = fr.factor := fun s => rfl
  have hv : ∀ s, ({ fr with omega := w s } : Freq).value = w s := fun s => rfl
  simp only [hf, hv]
  refine HasDerivAt.congr_deriv ((hJ.const_mul (fr.factor : ℂ)).fun_add ((hwc.const_mul I).fun_mul hM)) ?_
  unfold freqSens
  have e := freqRes_eq c T dc qs sol fr dx v a
  unfold freqRes at e
  rw [e, cjacMul_smul', h0]
  unfold Freq.value
  ring

/-- C148: the sensitivity misses the dependence of the factor `b / V` on the parameter: for a reduced frequency and the flow velocity as parameter the residual changes and the reported
sensitivity is zero. -/
theorem C148_reference_fails : ∃ (c : Ctx) (qs : List Qp) (sol : Field) (x : CField) (fr : ℝ → Freq), (∀ s, (fr s).red = true ∧ (fr s).omega = 1 ∧ (fr s).bref = 1 ∧ (fr s).vel = 1 + s) ∧
    freqSens c (fun _ _ _ _ => 0) (fun _ _ _ => 0) qs sol (fr 0) 0 x (fun _ _ => 0) .rho 0 = 0 ∧
    HasDerivAt (fun s => freqRes c (fun _ _ _ _ => 0) (fun _ _ _ => 0) qs sol (fr s) x .rho 0) (-1 / 2) 0 := by
  refine ⟨⟨1, 2, 7, 5, false⟩, [lineQp], fun v _ => consOf 1 5 1 1 0 0 1 v, fun u b => if u = .m1 ∧ b = 0 then 1 else 0, fun s => ⟨1, 1 + s, 1, true⟩, fun s => ⟨rfl, rfl, rfl, rfl⟩, ?_, ?_⟩
  · unfold freqSens cjacMul
    simp
  · simp only [freqRes_eq]
    have hJ : cjacMul ⟨1, 2, 7, 5, false⟩ (fun u b => (internalJac ⟨1, 2, 7, 5, false⟩ (fun _ _ _ _ => 0) (fun _ _ _ => 0) [lineQp] (fun v _ => consOf 1 5 1 1 0 0 1 v) .rho 0 u b : ℂ))
        (fun u b => if u = .m1 ∧ b = 0 then 1 else 0) = 1 / 2 := by
      have e : internalJac ⟨1, 2, 7, 5, false⟩ (fun _ _ _ _ => 0) (fun _ _ _ => 0) [lineQp] (fun v _ => consOf 1 5 1 1 0 0 1 v) .rho 0 .m1 0 = 1 / 2 := by
        simp [internalJac, jacQp, lsOp, lsSens, lineQp, fluxJac]
      unfold cjacMul
      rw [Finset.sum_eq_single Var.m1]
      · simp [act, Finset.sum_range_succ, e]
      · intro u _ hu; simp [hu]
      · simp
    simp only [hJ]
    have hf : ∀ s : ℝ, (⟨1, 1 + s, 1, true⟩ : Freq).factor = 1 / (1 + s) := fun s => by simp [Freq.factor]
    have hv : ∀ s : ℝ, (⟨1, 1 + s, 1, true⟩ : Freq).value = 1 := fun s => rfl
    simp only [hf, hv]
    have h1 : HasDerivAt (fun s : ℝ => 1 / (1 + s)) (-1) 0 := by
      have := (((hasDerivAt_id (0:ℝ)).const_add 1).fun_inv (by norm_num))
      simpa [one_div] using this
    have h2 : HasDerivAt (fun s : ℝ => ((1 / (1 + s) : ℝ) : ℂ)) ((-1 : ℝ) : ℂ) 0 := h1.ofReal_comp
    refine HasDerivAt.congr_deriv ((h2.mul_const (1 / 2 : ℂ)).add_const _) ?_
    push_cast; ring

section wall

theorem cduv_re (d : Nat) (s : Prim) (D : Var → ℂ) (visc : Bool) (z : ℂ) (i : Fin 3) : (z * cduv d s D i).re = duv (dprim d s (phasePt z D) visc) i := by
  have h : ∀ (w : Var) (u r : ℝ), (z * ((D w - D .rho * u) / r)).re = ((z * D w).re - (z * D .rho).re * u) / r := by
    intro w u r
    rw [← mul_div_assoc, Complex.div_ofReal_re, mul_sub, sub_re, ← mul_assoc, Complex.re_mul_ofReal]
  fin_cases i
  · exact h .m1 s.u1 s.rho
  · show (z * (if 2 ≤ d then (D .m2 - D .rho * s.u2) / s.rho else 0)).re = at' 2 d _
    unfold at'; split_ifs
    · exact h .m2 s.u2 s.rho
    · simp
  · show (z * (if 3 ≤ d then (D .m3 - D .rho * s.u3) / s.rho else 0)).re = at' 3 d _
    unfold at'; split_ifs
    · exact h .m3 s.u3 s.rho
    · simp

theorem cdp_re (d : Nat) (s : Prim) (D : Var → ℂ) (visc : Bool) (z : ℂ) : (z * cdp d s D).re = (dprim d s (phasePt z D) visc).dp := by
  have h0 := cduv_re d s D visc z 0
  have h1 := cduv_re d s D visc z 1
  have h2 := cduv_re d s D visc z 2
  have hp : (dprim d s (phasePt z D) visc).dp = (s.cp - s.cv) * ((((phasePt z D .en - phasePt z D .rho * s.e) / s.rho) -
      (s.u1 * duv (dprim d s (phasePt z D) visc) 0 + s.u2 * duv (dprim d s (phasePt z D) visc) 1 + s.u3 * duv (dprim d s (phasePt z D) visc) 2)) / s.cv * s.rho + s.T * phasePt z D .rho) := rfl
  rw [hp, ← h0, ← h1, ← h2]
  have e : z * cdp d s D = ((s.cp - s.cv : ℝ) : ℂ) * ((((z * D .en - z * D .rho * s.e) / s.rho -
      ((s.u1 : ℂ) * (z * cduv d s D 0) + (s.u2 : ℂ) * (z * cduv d s D 1) + (s.u3 : ℂ) * (z * cduv d s D 2))) / s.cv) * s.rho + (s.T : ℂ) * (z * D .rho)) := by
    unfold cdp; ring
  rw [e, Complex.re_ofReal_mul, add_re, Complex.re_mul_ofReal, Complex.div_ofReal_re, sub_re, Complex.div_ofReal_re, sub_re, Complex.re_mul_ofReal, add_re, add_re,
    Complex.re_ofReal_mul, Complex.re_ofReal_mul, Complex.re_ofReal_mul, Complex.re_ofReal_mul]
  rfl

/-- The wall of the time domain element whose motion has the amplitudes of the boundary condition: steady velocity and rotation as given, perturbation velocity `i ω W` and rotation of the
normal `N`, at the phase `z`. -/
noncomputable def wallPhase (q : FreqWallQp) (ω : ℝ) (z : ℂ) : LinWallQp :=
  { toSideQp := q.toSideQp, dw := q.w', dn := q.dn', Dw := fun i => (z * (I * ω * q.Dw' i)).re, Dn := fun i => (z * q.Dn' i).re }

/-- The two conjugations are harmless: the normal component of the displacement is real, and so is the component of the velocity disturbance along the steady rotation of the normal. -/
def ConjFree (c : Ctx) (U : Var → ℝ) (D : Var → ℂ) (q : FreqWallQp) : Prop :=
  (∑ i, q.Dw' i * ((sideNormal c.d q.n i + q.dn' i : ℝ) : ℂ)).im = 0 ∧ (∑ i, cduv c.d (prim c.d U c.cp c.cv c.visc) D i * ((q.dn' i : ℝ) : ℂ)).im = 0

theorem conj_of_im (w : ℂ) (h : w.im = 0) : (starRingEnd ℂ) w = w := Complex.conj_eq_iff_im.2 h

theorem edot_real (x : Fin 3 → ℂ) (r : Fin 3 → ℝ) (h : (∑ i, x i * ((r i : ℝ) : ℂ)).im = 0) : edot x (fun i => ((r i : ℝ) : ℂ)) = ∑ i, x i * ((r i : ℝ) : ℂ) := by
  have := conj_of_im _ h
  rw [← this, map_sum]
  unfold edot
  refine Finset.sum_congr rfl fun i _ => ?_
  rw [map_mul, Complex.conj_ofReal]

theorem cmomEntry_re (d : Nat) (z : ℂ) (y : Fin 3 → ℂ) (v : Var) : (z * cmomEntry d y v).re = momEntry d (fun i => (z * y i).re) v := by
  cases v <;> simp only [cmomEntry, momEntry] <;> (try split_ifs) <;> simp

theorem momEntry_smul (d : Nat) (r : ℝ) (y : Fin 3 → ℝ) (v : Var) : momEntry d (fun i => r * y i) v = r * momEntry d y v := by
  cases v <;> simp only [momEntry] <;> (try split_ifs) <;> simp

/-- C149, partial: at every phase the flux through a slip wall is the flux of the linearized wall of the time domain element for the motion at that phase, times the factor of a reduced
frequency, provided the conjugations of `ConjFree` are harmless. -/
theorem C149_flux_partial (c : Ctx) (U : Var → ℝ) (D : Var → ℂ) (bV ω : ℝ) (q : FreqWallQp) (hc : ConjFree c U D q) (z : ℂ) (v : Var) :
    (z * freqSlipFlux c U D bV (bV * ω) q v).re = bV * linSlipFlux c U (phasePt z D) (wallPhase q ω z) v := by
  obtain ⟨h1, h2⟩ := hc
  set s := prim c.d U c.cp c.cv c.visc with hs
  have e1 := edot_real q.Dw' (fun i => sideNormal c.d q.n i + q.dn' i) h1
  have e2 := edot_real (cduv c.d s D) q.dn' h2
  have e3 : ∀ r : Fin 3 → ℝ, edot (fun i => ((r i : ℝ) : ℂ)) q.Dn' = ∑ i, ((r i : ℝ) : ℂ) * q.Dn' i := fun r => by
    unfold edot; exact Finset.sum_congr rfl fun i _ => by rw [Complex.conj_ofReal]
  set A : ℂ := ∑ i, q.Dw' i * ((sideNormal c.d q.n i + q.dn' i : ℝ) : ℂ) with hA
  set B : ℂ := ∑ i, ((q.w' i : ℝ) : ℂ) * q.Dn' i with hB
  set C : ℂ := ∑ i, ((uv s i : ℝ) : ℂ) * q.Dn' i with hC
  set E : ℂ := ∑ i, cduv c.d s D i * ((q.dn' i : ℝ) : ℂ) with hE
  have rA : (z * (I * ω * A)).re = ∑ i, (z * (I * ω * q.Dw' i)).re * (sideNormal c.d q.n i + q.dn' i) := by
    rw [hA, Finset.mul_sum, re_sum]
    refine Finset.sum_congr rfl fun i _ => ?_
    rw [← Complex.re_mul_ofReal]; congr 1; ring
  have rB : (z * B).re = ∑ i, q.w' i * (z * q.Dn' i).re := by
    rw [hB, re_sum]; exact Finset.sum_congr rfl fun i _ => re_real _ _ _
  have rC : (z * C).re = ∑ i, uv s i * (z * q.Dn' i).re := by
    rw [hC, re_sum]; exact Finset.sum_congr rfl fun i _ => re_real _ _ _
  have rE : (z * E).re = ∑ i, duv (dprim c.d s (phasePt z D) c.visc) i * q.dn' i := by
    rw [hE, re_sum]
    refine Finset.sum_congr rfl fun i _ => ?_
    rw [← cduv_re c.d s D c.visc z i, ← Complex.re_mul_ofReal]; congr 1; ring
  have rp := cdp_re c.d s D c.visc z
  have hflux : freqSlipFlux c U D bV (bV * ω) q v =
      ((uini c.d s q.n q.w' q.dn' : ℝ) : ℂ) * bV * D v + (if v = .en then ((uini c.d s q.n q.w' q.dn' : ℝ) : ℂ) * bV * cdp c.d s D else 0) +
      ((B - C - E) * bV + A * I * ((bV * ω : ℝ) : ℂ)) * U v + (if v = .en then ((B - C - E) * bV + A * I * ((bV * ω : ℝ) : ℂ)) * s.p else 0) +
      cmomEntry c.d (fun i => cdp c.d s D * bV * (sideNormal c.d q.n i : ℝ)) v := by
    unfold freqSlipFlux
    simp only [← hs]
    rw [e1, e2, e3 q.w', e3 (uv s)]
  have hlin : linSlipFlux c U (phasePt z D) (wallPhase q ω z) v = uini c.d s q.n q.w' q.dn' * (z * D v).re +
      (if v = .en then uini c.d s q.n q.w' q.dn' * (z * cdp c.d s D).re else 0) +
      ((z * (I * ω * A)).re + (z * B).re - (z * C).re - (z * E).re) * U v +
      (if v = .en then ((z * (I * ω * A)).re + (z * B).re - (z * C).re - (z * E).re) * s.p else 0) +
      momEntry c.d (fun i => (z * cdp c.d s D).re * sideNormal c.d q.n i) v := by
    rw [rA, rB, rC, rE, rp]; rfl
  have hm : (z * cmomEntry c.d (fun i => cdp c.d s D * bV * (sideNormal c.d q.n i : ℝ)) v).re = bV * momEntry c.d (fun i => (z * cdp c.d s D).re * sideNormal c.d q.n i) v := by
    rw [cmomEntry_re, ← momEntry_smul]
    congr 1; funext i
    rw [show z * (cdp c.d s D * bV * (sideNormal c.d q.n i : ℝ)) = ((bV * sideNormal c.d q.n i : ℝ) : ℂ) * (z * cdp c.d s D) by push_cast; ring, Complex.re_ofReal_mul]
    ring
  have hD : (z * (((B - C - E) * bV + A * I * ((bV * ω : ℝ) : ℂ)))).re = bV * ((z * (I * ω * A)).re + (z * B).re - (z * C).re - (z * E).re) := by
    rw [show z * ((B - C - E) * bV + A * I * ((bV * ω : ℝ) : ℂ)) = (bV : ℂ) * (z * (I * ω * A) + z * B - z * C - z * E) by push_cast; ring, Complex.re_ofReal_mul]
    simp only [sub_re, add_re]
  have hun : ∀ w : ℂ, (z * (((uini c.d s q.n q.w' q.dn' : ℝ) : ℂ) * bV * w)).re = bV * (uini c.d s q.n q.w' q.dn' * (z * w).re) := fun w => by
    rw [show z * (((uini c.d s q.n q.w' q.dn' : ℝ) : ℂ) * bV * w) = ((bV * uini c.d s q.n q.w' q.dn' : ℝ) : ℂ) * (z * w) by push_cast; ring, Complex.re_ofReal_mul]; ring
  have hU : ∀ r : ℝ, (z * (((B - C - E) * bV + A * I * ((bV * ω : ℝ) : ℂ)) * r)).re = bV * (((z * (I * ω * A)).re + (z * B).re - (z * C).re - (z * E).re) * r) := fun r => by
    rw [← mul_assoc, Complex.re_mul_ofReal, hD]; ring
  rw [hflux, hlin]
  by_cases hv : v = .en
  · simp only [hv, if_true] at hm ⊢
    simp only [mul_add z, add_re]
    rw [hun, hun, hU, hU, hm]; ring
  · simp only [hv, if_false, add_zero] at hm ⊢
    simp only [mul_add z, add_re]
    rw [hun, hU, hm]; ring

theorem cinterp_phase (c : Ctx) (ψ : Nat → ℝ) (x : CField) (z : ℂ) : phasePt z (cinterp c ψ x) = interp c ψ (phase z x) := by
  funext v
  unfold phasePt cinterp interp phase
  split_ifs
  · rw [re_sum]; exact Finset.sum_congr rfl fun a _ => re_real _ _ _
  · simp

/-- C149, partial: the complex residual of a slip wall is the amplitude of the residual of the linearized wall of the time domain element, when the conjugations are harmless at every
quadrature point. -/
theorem C149_residual_partial (c : Ctx) (qs : List FreqWallQp) (sol : Field) (fr : Freq) (ω : ℝ) (hω : fr.omega = fr.factor * ω) (x : CField)
    (hc : ∀ q ∈ qs, ConjFree c (interp c q.phi sol) (cinterp c q.phi x) q) (z : ℂ) (v : Var) (a : Nat) :
    (z * freqSlipRes c qs sol fr x v a).re = fr.factor * linSlipRes c (qs.map fun q => wallPhase q ω z) sol (phase z x) v a := by
  unfold freqSlipRes linSlipRes
  rw [re_list, List.map_map, ← List.sum_map_mul_left]
  refine list_congr' qs _ _ fun q hq => ?_
  have h := C149_flux_partial c (interp c q.phi sol) (cinterp c q.phi x) fr.factor ω q (hc q hq) z v
  rw [cinterp_phase] at h
  have hval : fr.value = fr.factor * ω := hω
  rw [hval, show z * ((q.w : ℂ) * ((q.phi a : ℂ) * freqSlipFlux c (interp c q.phi sol) (cinterp c q.phi x) fr.factor (fr.factor * ω) q v)) =
    ((q.w * q.phi a : ℝ) : ℂ) * (z * freqSlipFlux c (interp c q.phi sol) (cinterp c q.phi x) fr.factor (fr.factor * ω) q v) by push_cast; ring, Complex.re_ofReal_mul, h]
  simp only [Function.comp, wallPhase]
  ring

/-- A real displacement of a wall whose normal does not rotate in the steady flow is covered by C149, whatever the complex solution. -/
theorem conjFree_real (c : Ctx) (U : Var → ℝ) (D : Var → ℂ) (q : FreqWallQp) (h0 : q.nrot = none) (h : ∀ i, (q.Dw' i).im = 0) : ConjFree c U D q := by
  have hn : q.dn' = fun _ => 0 := by unfold FreqWallQp.dn'; rw [h0]; rfl
  refine ⟨?_, ?_⟩
  · rw [Complex.im_sum]
    refine Finset.sum_eq_zero fun i _ => ?_
    rw [Complex.im_mul_ofReal, h i, zero_mul]
  · rw [hn]; simp

/-- A wall point with the given data on the end of a line element. -/
def wallFreq (nrot displ : Option (Fin 3 → ℝ)) (W : Fin 3 → ℂ) : FreqWallQp := { wallPt with vel := none, nrot := nrot, displ := displ, pert := some (W, fun _ => 0) }

/-- Non-vacuity of C149: a real displacement and a complex solution. -/
example : ∃ (q : FreqWallQp) (D : Var → ℂ), ConjFree ⟨1, 2, 7, 5, false⟩ (consOf 1 5 1 1 0 0 1) D q ∧ q.Dw' 0 ≠ 0 ∧ (D .m1).im ≠ 0 :=
  ⟨wallFreq none none fun _ => 1, fun _ => I, conjFree_real _ _ _ _ rfl (fun i => by simp [wallFreq, FreqWallQp.Dw']), by simp [wallFreq, FreqWallQp.Dw'], by simp⟩

/-- C149: for a complex displacement the flux is wrong: with `W = i` (a displacement a quarter period ahead) the mass flux has the opposite sign, because the scalar product with the
normal conjugates the displacement. -/
theorem C149_complex_displacement_fails : ∃ (c : Ctx) (U : Var → ℝ) (q : FreqWallQp), q.dn' = (fun _ => 0) ∧ U .rho = 1 ∧
    (freqSlipFlux c U (fun _ => 0) 1 1 q .rho).re = 1 ∧ linSlipFlux c U (fun _ => 0) (wallPhase q 1 1) .rho = -1 := by
  refine ⟨⟨1, 2, 7, 5, false⟩, consOf 1 5 1 1 0 0 1, wallFreq none none fun i => if i = 0 then I else 0, rfl, by simp [consOf], ?_, ?_⟩
  · simp [freqSlipFlux, wallFreq, wallPt, FreqWallQp.Dw', FreqWallQp.Dn', FreqWallQp.dn', FreqWallQp.w', edot, cmomEntry, Fin.sum_univ_three, sideNormal, consOf]
  · simp [linSlipFlux, wallPhase, wallFreq, wallPt, FreqWallQp.Dw', FreqWallQp.Dn', FreqWallQp.dn', FreqWallQp.w', momEntry, Fin.sum_univ_three, sideNormal, consOf]

theorem cduv_add (d : Nat) (s : Prim) (D E : Var → ℂ) (i : Fin 3) : cduv d s (fun v => D v + E v) i = cduv d s D i + cduv d s E i := by
  fin_cases i <;> simp only [cduv] <;> (try split_ifs) <;> ring

theorem cdp_add (d : Nat) (s : Prim) (D E : Var → ℂ) : cdp d s (fun v => D v + E v) = cdp d s D + cdp d s E := by
  unfold cdp; simp only [cduv_add]; ring

theorem edot_add (x y w : Fin 3 → ℂ) : edot (fun i => x i + y i) w = edot x w + edot y w := by
  unfold edot; rw [← Finset.sum_add_distrib]; exact Finset.sum_congr rfl fun i _ => by rw [map_add]; ring

theorem cmomEntry_add (d : Nat) (x y : Fin 3 → ℂ) (v : Var) : cmomEntry d (fun i => x i + y i) v = cmomEntry d x v + cmomEntry d y v := by
  cases v <;> simp only [cmomEntry] <;> (try split_ifs) <;> simp

/-- The wall without perturbation of its motion. -/
def unperturbed (q : FreqWallQp) : FreqWallQp := { q with pert := none }

theorem freqSlipFlux_add (c : Ctx) (U : Var → ℝ) (D E : Var → ℂ) (bV ω ω' : ℝ) (q : FreqWallQp) (v : Var) :
    freqSlipFlux c U (fun v => D v + E v) bV ω q v = freqSlipFlux c U D bV ω q v + freqSlipFlux c U E bV ω' (unperturbed q) v := by
  unfold freqSlipFlux
  have h1 : (unperturbed q).Dw' = fun _ => 0 := rfl
  have h2 : (unperturbed q).Dn' = fun _ => 0 := rfl
  have h3 : (unperturbed q).dn' = q.dn' := rfl
  have h4 : (unperturbed q).w' = q.w' := rfl
  have h5 : (unperturbed q).n = q.n := rfl
  simp only [h1, h2, h3, h4, h5, cdp_add]
  have e1 : edot (cduv c.d (prim c.d U c.cp c.cv c.visc) fun v => D v + E v) (fun i => ((q.dn' i : ℝ) : ℂ)) =
      edot (cduv c.d (prim c.d U c.cp c.cv c.visc) D) (fun i => ((q.dn' i : ℝ) : ℂ)) + edot (cduv c.d (prim c.d U c.cp c.cv c.visc) E) (fun i => ((q.dn' i : ℝ) : ℂ)) := by
    rw [← edot_add]; congr 1; funext i; exact cduv_add _ _ _ _ _
  have e2 : ∀ x : Fin 3 → ℂ, edot (fun _ => 0) x = 0 := fun x => by unfold edot; simp
  have e3 : ∀ x : Fin 3 → ℂ, edot x (fun _ => 0) = 0 := fun x => by unfold edot; simp
  have e4 : cmomEntry c.d (fun i => (cdp c.d (prim c.d U c.cp c.cv c.visc) D + cdp c.d (prim c.d U c.cp c.cv c.visc) E) * bV * (sideNormal c.d q.n i : ℝ)) v =
      cmomEntry c.d (fun i => cdp c.d (prim c.d U c.cp c.cv c.visc) D * bV * (sideNormal c.d q.n i : ℝ)) v +
      cmomEntry c.d (fun i => cdp c.d (prim c.d U c.cp c.cv c.visc) E * bV * (sideNormal c.d q.n i : ℝ)) v := by
    rw [← cmomEntry_add]; congr 1; funext i; ring
  rw [e1, e4]
  simp only [e2, e3]
  split_ifs <;> ring

theorem cinterp_add (c : Ctx) (ψ : Nat → ℝ) (x y : CField) : cinterp c ψ (fun v a => x v a + y v a) = fun v => cinterp c ψ x v + cinterp c ψ y v := by
  funext v
  unfold cinterp
  split_ifs
  · rw [← Finset.sum_add_distrib]; exact Finset.sum_congr rfl fun a _ => by ring
  · simp

theorem clist_add {α : Type} (l : List α) (f g : α → ℂ) : (l.map fun q => f q + g q).sum = (l.map f).sum + (l.map g).sum := by
  induction l with
  | nil => simp
  | cons x l ih => simp only [List.map_cons, List.sum_cons, ih]; ring

/-- The same wall in the time domain element. -/
def steadyWall (q : FreqWallQp) : WallQp := { toSideQp := q.toSideQp, dw := q.w', dn := q.dn' }

theorem cjacMul_list {α : Type} (c : Ctx) (l : List α) (J : α → Var → Nat → ℂ) (x : CField) : cjacMul c (fun u b => (l.map fun q => J q u b).sum) x = (l.map fun q => cjacMul c (J q) x).sum := by
  induction l with
  | nil => simp [cjacMul]
  | cons q l ih => simp only [List.map_cons, List.sum_cons, cjacMul_add, ih]

theorem freqSlipJac_re (c : Ctx) (qs : List FreqWallQp) (sol : Field) (fr : Freq) (δ : CField) (z : ℂ) (v : Var) (a : Nat) :
    (z * cjacMul c (freqSlipJac c qs sol fr v a) δ).re = fr.factor * jacMul c (slipJac c (qs.map steadyWall) sol v a) (phase z δ) := by
  have e : freqSlipJac c qs sol fr v a = fun u b => ((slipJac c (qs.map steadyWall) sol v a u b : ℝ) : ℂ) * (fr.factor : ℂ) := by
    funext u b
    unfold freqSlipJac slipJac
    rw [List.map_map]
    induction qs with
    | nil => simp
    | cons q l ih =>
      simp only [List.map_cons, List.sum_cons, ih, Function.comp, steadyWall]
      push_cast
      ring
  rw [e, cjacMul_smul, re_real, cjacMul_re]

/-- C149: the complex Jacobian of a slip wall whose normal does not rotate in the steady flow is the exact change of the complex residual, for every complex increment of the solution and every
(complex) motion of the wall. -/
theorem C149_jacobian_partial (c : Ctx) (hd : c.d = 1 ∨ c.d = 2 ∨ c.d = 3) (hv : c.cv ≠ 0) (qs : List FreqWallQp) (sol : Field) (hr : ∀ q ∈ qs, interp c q.phi sol .rho ≠ 0)
    (hn : ∀ q ∈ qs, q.nrot = none) (fr : Freq) (x δ : CField) (v : Var) (a : Nat) :
    freqSlipRes c qs sol fr (fun w b => x w b + δ w b) v a = freqSlipRes c qs sol fr x v a + cjacMul c (freqSlipJac c qs sol fr v a) δ := by
  have hsplit : freqSlipRes c qs sol fr (fun w b => x w b + δ w b) v a = freqSlipRes c qs sol fr x v a +
      (qs.map fun q => (q.w : ℂ) * ((q.phi a : ℂ) * freqSlipFlux c (interp c q.phi sol) (cinterp c q.phi δ) fr.factor (fr.factor * 0) (unperturbed q) v)).sum := by
    unfold freqSlipRes
    rw [← clist_add]
    congr 1
    refine List.map_congr_left fun q _ => ?_
    rw [cinterp_add, freqSlipFlux_add c _ _ _ fr.factor fr.value (fr.factor * 0)]
    ring
  rw [hsplit]
  congr 1
  refine eq_of_phase _ _ fun z => ?_
  rw [freqSlipJac_re, re_list]
  have h1 := C145_slip_jacobian c hd hv (qs.map steadyWall) sol (phase z δ) (by
    intro q hq; obtain ⟨r, hr', rfl⟩ := List.mem_map.1 hq; exact hr r hr') v a
  have h2 := C145_linearized c (qs.map fun q => wallPhase (unperturbed q) 0 z) sol (phase z δ) (by
    intro q hq; obtain ⟨r, hr', rfl⟩ := List.mem_map.1 hq; exact hr r hr') v a
  have e : (fun t => slipRes c ((qs.map fun q => wallPhase (unperturbed q) 0 z).map fun q => wallAt q t) (moved sol (phase z δ) t) v a) =
      fun t => slipRes c (qs.map steadyWall) (moved sol (phase z δ) t) v a := by
    funext t
    congr 1
    rw [List.map_map]
    refine List.map_congr_left fun q _ => ?_
    simp [Function.comp, wallAt, wallPhase, steadyWall, unperturbed, FreqWallQp.Dw', FreqWallQp.Dn', FreqWallQp.dn', FreqWallQp.w']
  rw [e] at h2
  rw [h1.unique h2]
  unfold linSlipRes
  rw [List.map_map, ← List.sum_map_mul_left]
  refine list_congr' qs _ _ fun q hq => ?_
  have h := C149_flux_partial c (interp c q.phi sol) (cinterp c q.phi δ) fr.factor 0 (unperturbed q) (conjFree_real _ _ _ _ (hn q hq) (fun i => rfl)) z v
  rw [cinterp_phase] at h
  rw [show z * ((q.w : ℂ) * ((q.phi a : ℂ) * freqSlipFlux c (interp c q.phi sol) (cinterp c q.phi δ) fr.factor (fr.factor * 0) (unperturbed q) v)) =
    ((q.w * q.phi a : ℝ) : ℂ) * (z * freqSlipFlux c (interp c q.phi sol) (cinterp c q.phi δ) fr.factor (fr.factor * 0) (unperturbed q) v) by push_cast; ring, Complex.re_ofReal_mul, h]
  simp only [Function.comp, wallPhase, unperturbed]
  ring

/-- Non-vacuity of `C149_jacobian_partial`: a wall point on a line flow with a complex displacement. -/
example : ∃ q : FreqWallQp, q.nrot = none ∧ (q.Dw' 0).im ≠ 0 ∧ interp ⟨1, 2, 7, 5, false⟩ q.phi (fun v _ => consOf 1 5 1 1 0 0 1 v) .rho ≠ 0 :=
  ⟨wallFreq none none fun _ => I, rfl, by simp [wallFreq, FreqWallQp.Dw'], by simp [wallFreq, wallPt, interp, act, consOf, Finset.sum_range_succ]⟩

/-- C149: when the normal rotates in the steady flow the Jacobian is wrong for an imaginary increment: the velocity disturbance is conjugated in the residual. -/
theorem C149_jacobian_fails : ∃ (c : Ctx) (qs : List FreqWallQp) (sol : Field) (fr : Freq) (δ : CField), c.d = 1 ∧ (∀ q ∈ qs, interp c q.phi sol .rho = 1) ∧
    freqSlipRes c qs sol fr δ .rho 0 ≠ freqSlipRes c qs sol fr (fun _ _ => 0) .rho 0 + cjacMul c (freqSlipJac c qs sol fr .rho 0) δ := by
  refine ⟨⟨1, 2, 7, 5, false⟩, [wallFreq (some fun i => if i = 0 then 1 else 0) none fun _ => 0], fun v _ => consOf 1 5 1 0 0 0 1 v, ⟨0, 1, 1, false⟩, fun u b => if u = .m1 ∧ b = 0 then I else 0,
    rfl, ?_, ?_⟩
  · intro q hq
    simp only [List.mem_singleton] at hq
    subst hq
    simp [wallFreq, wallPt, interp, act, consOf, Finset.sum_range_succ]
  · have e1 : freqSlipRes ⟨1, 2, 7, 5, false⟩ [wallFreq (some fun i => if i = 0 then 1 else 0) none fun _ => 0] (fun v _ => consOf 1 5 1 0 0 0 1 v) ⟨0, 1, 1, false⟩
        (fun u b => if u = .m1 ∧ b = 0 then I else 0) .rho 0 = I := by
      simp [freqSlipRes, freqSlipFlux, wallFreq, wallPt, FreqWallQp.Dw', FreqWallQp.Dn', FreqWallQp.dn', FreqWallQp.w', edot, cmomEntry, Fin.sum_univ_three, sideNormal, consOf, interp, cinterp, act,
        Finset.sum_range_succ, Freq.factor, Freq.value, cduv, prim, uini, uv]
    have e2 : freqSlipRes ⟨1, 2, 7, 5, false⟩ [wallFreq (some fun i => if i = 0 then 1 else 0) none fun _ => 0] (fun v _ => consOf 1 5 1 0 0 0 1 v) ⟨0, 1, 1, false⟩ (fun _ _ => 0) .rho 0 = 0 := by
      simp [freqSlipRes, freqSlipFlux, wallFreq, wallPt, FreqWallQp.Dw', FreqWallQp.Dn', FreqWallQp.dn', FreqWallQp.w', edot, cmomEntry, Fin.sum_univ_three, sideNormal, consOf, interp, cinterp, act,
        Finset.sum_range_succ, Freq.factor, Freq.value, cduv, prim, uini, uv]
    have e3 : cjacMul ⟨1, 2, 7, 5, false⟩ (freqSlipJac ⟨1, 2, 7, 5, false⟩ [wallFreq (some fun i => if i = 0 then 1 else 0) none fun _ => 0] (fun v _ => consOf 1 5 1 0 0 0 1 v) ⟨0, 1, 1, false⟩ .rho 0)
        (fun u b => if u = .m1 ∧ b = 0 then I else 0) = -I := by
      unfold cjacMul
      rw [Finset.sum_eq_single Var.m1]
      · simp [freqSlipJac, wallFreq, wallPt, FreqWallQp.dn', FreqWallQp.w', consOf, interp, act, Finset.sum_range_succ, Freq.factor, wallJac, wallJac0, wallTmp, wallDun, stateAt, prim, uini, uv, at']
      · intro u _ hu; simp [hu]
      · simp
    rw [e1, e2, e3]
    intro h
    have := congrArg Complex.im h
    simp at this
    norm_num at this

/-- C149, partial: the sensitivity of the slip wall to the frequency is the derivative of its residual when the condition has "displacement" or no rotation of the normal, and the factor of
the reduced frequency does not depend on the parameter. -/
theorem C149_sensitivity_partial (c : Ctx) (qs : List FreqWallQp) (sol : Field) (fr : Freq) (w : ℝ → ℝ) (dω : ℝ) (hw : HasDerivAt w dω 0) (x : CField)
    (hq : ∀ q ∈ qs, q.displ.isSome = true ∨ q.nrot = none) (v : Var) (a : Nat) :
    HasDerivAt (fun s => freqSlipRes c qs sol { fr with omega := w s } x v a) (freqSlipSens c qs sol dω v a) 0 := by
  unfold freqSlipRes freqSlipSens
  have hwc : HasDerivAt (fun s => ((w s : ℝ) : ℂ)) (dω : ℂ) 0 := hw.ofReal_comp
  have hf : ∀ s, ({ fr with omega := w s } : Freq).factor = fr.factor := fun s => rfl
  have hv : ∀ s, ({ fr with omega := w s } : Freq).value = w s := fun s => rfl
  simp only [hf, hv]
  induction qs with
  | nil => simpa using hasDerivAt_const (0:ℝ) (0:ℂ)
  | cons q l ih =>
    simp only [List.map_cons, List.sum_cons]
    refine HasDerivAt.fun_add ?_ (ih fun r hr => hq r (List.mem_cons_of_mem _ hr))
    have hdn : (if q.displ.isSome then q.dn' else fun _ => 0) = q.dn' := by
      rcases hq q List.mem_cons_self with h | h
      · simp [h]
      · split_ifs
        · rfl
        · unfold FreqWallQp.dn'; rw [h]; rfl
    rw [hdn]
    unfold freqSlipFlux
    dsimp only
    have hdep := (hwc.const_mul (edot q.Dw' (fun i => ((sideNormal c.d q.n i + q.dn' i : ℝ) : ℂ)) * I))
    refine HasDerivAt.const_mul _ (HasDerivAt.const_mul _ ?_)
    refine HasDerivAt.add_const _ ?_
    by_cases hv : v = .en
    · simp only [hv, if_true]
      exact ((((hdep.const_add _).mul_const _).const_add _).fun_add ((hdep.const_add _).mul_const _))
    · simp only [hv, if_false, add_zero]
      exact ((hdep.const_add _).mul_const _).const_add _

/-- C149: a condition with "normal_rotation" and without "displacement" is accepted by the residual, and its sensitivity leaves the rotation out. -/
theorem C149_sensitivity_fails : ∃ (c : Ctx) (qs : List FreqWallQp) (sol : Field), (∀ q ∈ qs, q.displ = none ∧ q.nrot.isSome = true) ∧
    HasDerivAt (fun s => freqSlipRes c qs sol ⟨s, 1, 1, false⟩ (fun _ _ => 0) .rho 0) (2 * I) 0 ∧ freqSlipSens c qs sol 1 .rho 0 = I := by
  refine ⟨⟨1, 2, 7, 5, false⟩, [wallFreq (some fun i => if i = 0 then 1 else 0) none fun i => if i = 0 then 1 else 0], fun v _ => consOf 1 5 1 0 0 0 1 v, ?_, ?_, ?_⟩
  · intro q hq
    simp only [List.mem_singleton] at hq
    subst hq
    exact ⟨rfl, rfl⟩
  · have e : ∀ s : ℝ, freqSlipRes ⟨1, 2, 7, 5, false⟩ [wallFreq (some fun i => if i = 0 then 1 else 0) none fun i => if i = 0 then 1 else 0] (fun v _ => consOf 1 5 1 0 0 0 1 v) ⟨s, 1, 1, false⟩
        (fun _ _ => 0) .rho 0 = (s : ℂ) * (2 * I) := by
      intro s
      simp [freqSlipRes, freqSlipFlux, wallFreq, wallPt, FreqWallQp.Dw', FreqWallQp.Dn', FreqWallQp.dn', FreqWallQp.w', edot, cmomEntry, Fin.sum_univ_three, sideNormal, consOf, interp, cinterp, act,
        Finset.sum_range_succ, Freq.factor, Freq.value, cduv, prim, uini, uv]
      ring
    simp only [e]
    have h : HasDerivAt (fun s : ℝ => ((s : ℝ) : ℂ)) ((1 : ℝ) : ℂ) 0 := (hasDerivAt_id (0:ℝ)).ofReal_comp
    simpa using h.mul_const (2 * I)
  · simp [freqSlipSens, wallFreq, wallPt, FreqWallQp.Dw', FreqWallQp.dn', edot, Fin.sum_univ_three, sideNormal, consOf, interp, act, Finset.sum_range_succ]

end wall

/-- C150: the perturbation of the pressure function is the derivative of its value along the perturbation of the solution, for pressures relative to a reference and for pressure
coefficients. -/
theorem C150_perturbation (d : Nat) (m : PressMode) (f : Flight) (visc : Bool) (U D : Var → ℝ) (hr : U .rho ≠ 0) :
    HasDerivAt (fun t => pressure d m f visc fun v => U v + t * D v) (pressurePert d m f visc U D) 0 := by
  have h := d_p d U D f.cp f.cv visc hr
  unfold DerivAlong at h
  unfold pressure pressurePert cPressure
  cases m.cp
  · simp only [Bool.false_eq_true, if_false]
    exact h.sub_const _
  · simp only [if_true]
    exact (h.sub_const _).div_const _

/-- C150: the frequency domain pressure function gives the amplitude of that perturbation: its rotated real part is the perturbation along the solution at that phase. -/
theorem C150_frequency (d : Nat) (m : PressMode) (f : Flight) (visc : Bool) (U Dre Dim : Var → ℝ) (z : ℂ) :
    (z * freqPressure d m f visc U Dre Dim).re = pressurePert d m f visc U fun v => (z * (⟨Dre v, Dim v⟩ : ℂ)).re := by
  have h := cdp_re d (prim d U f.cp f.cv visc) (fun v => (⟨Dre v, Dim v⟩ : ℂ)) visc z
  unfold freqPressure pressurePert
  dsimp only
  split_ifs
  · rw [← mul_div_assoc, Complex.div_ofReal_re, h]; rfl
  · exact h

/-- C150: the reference pressure and the free stream pressure do not enter a pressure difference between two flows. -/
theorem C150_difference (d : Nat) (ref ref' : ℝ) (f : Flight) (visc : Bool) (U W : Var → ℝ) :
    pressure d ⟨false, ref⟩ f visc U - pressure d ⟨false, ref⟩ f visc W = pressure d ⟨false, ref'⟩ f visc U - pressure d ⟨false, ref'⟩ f visc W ∧
    pressure d ⟨true, ref⟩ f visc U - pressure d ⟨true, ref⟩ f visc W = (pressure d ⟨false, ref'⟩ f visc U - pressure d ⟨false, ref'⟩ f visc W) / f.q0 := by
  unfold pressure cPressure
  simp only [Bool.false_eq_true, if_false, if_true]
  constructor <;> ring

/-- Non-vacuity of C150: a gas at density 1, velocity 1 and temperature 1. -/
example : (consOf 1 5 1 1 0 0 1) .rho ≠ 0 ∧ pressure 1 ⟨false, 0⟩ ⟨1, 1, 1, 7, 5, fun _ => 0⟩ false (consOf 1 5 1 1 0 0 1) = 2 := by
  refine ⟨by simp [consOf], ?_⟩
  norm_num [pressure, prim, consOf, at']

/-- C151: the sensitivity of the integrated pressure is its derivative along the derivative of the load: for a fixed direction always, for the norm at a load that is not zero. -/
theorem C151_sensitivity (m : LoadMode) (nvec : Fin 3 → ℝ) (load : ℝ → Fin 3 → ℝ) (dload : Fin 3 → ℝ) (h : ∀ k, HasDerivAt (fun s => load s k) (dload k) 0)
    (h0 : m = .l2 → ∃ k, load 0 k ≠ 0) : HasDerivAt (fun s => loadValue m nvec (load s)) (loadSens m nvec (load 0) dload) 0 := by
  cases m with
  | l2 =>
    obtain ⟨k, hk⟩ := h0 rfl
    have hpos : 0 < ∑ k, load 0 k ^ 2 := Finset.sum_pos' (fun i _ => sq_nonneg _) ⟨k, Finset.mem_univ _, by positivity⟩
    have hs := HasDerivAt.fun_sum (u := Finset.univ) fun (k : Fin 3) _ => (h k).fun_pow 2
    refine HasDerivAt.congr_deriv (hs.sqrt hpos.ne') ?_
    unfold loadSens loadNorm
    dsimp only
    have e : (∑ k : Fin 3, ((2 : ℕ) : ℝ) * load 0 k ^ (2 - 1) * dload k) = 2 * ∑ k, load 0 k * dload k := by
      rw [Finset.mul_sum]; exact Finset.sum_congr rfl fun k _ => by norm_num; ring
    rw [e]
    have hq : Real.sqrt (∑ k, load 0 k ^ 2) ≠ 0 := (Real.sqrt_pos.2 hpos).ne'
    field_simp
  | unit => exact HasDerivAt.fun_sum fun k _ => (h k).mul_const _

/-- C151: the value of the norm mode is non-negative and bounds every component along a direction; the value of the direction mode does not depend on the length of the direction given. -/
theorem C151_value (nvec load : Fin 3 → ℝ) (hn : ∃ k, nvec k ≠ 0) (r : ℝ) (hr : 0 < r) :
    0 ≤ loadValue .l2 nvec load ∧ loadValue .unit nvec load ≤ loadValue .l2 nvec load ∧ loadValue .unit (fun k => r * nvec k) load = loadValue .unit nvec load := by
  obtain ⟨k, hk⟩ := hn
  have hpos : 0 < ∑ k, nvec k ^ 2 := Finset.sum_pos' (fun i _ => sq_nonneg _) ⟨k, Finset.mem_univ _, by positivity⟩
  refine ⟨Real.sqrt_nonneg _, ?_, ?_⟩
  · unfold loadValue loadNorm unitVec
    dsimp only
    have hcs := Finset.sum_mul_sq_le_sq_mul_sq (Finset.univ : Finset (Fin 3)) load nvec
    have hN := Real.sqrt_pos.2 hpos
    have e : ∑ k, load k * (nvec k / Real.sqrt (∑ j, nvec j ^ 2)) = (∑ k, load k * nvec k) / Real.sqrt (∑ j, nvec j ^ 2) := by
      rw [Finset.sum_div]; exact Finset.sum_congr rfl fun k _ => by ring
    rw [e, div_le_iff₀ hN]
    rw [← Real.sqrt_mul (Finset.sum_nonneg fun i _ => sq_nonneg _)]
    exact Real.le_sqrt_of_sq_le hcs
  · unfold loadValue unitVec
    refine Finset.sum_congr rfl fun k _ => ?_
    have e : ∑ j, (r * nvec j) ^ 2 = r ^ 2 * ∑ j, nvec j ^ 2 := by
      rw [Finset.mul_sum]; exact Finset.sum_congr rfl fun j _ => by ring
    rw [e, Real.sqrt_mul (sq_nonneg r), Real.sqrt_sq hr.le]
    have hN := (Real.sqrt_pos.2 hpos).ne'
    field_simp

/-- Non-vacuity of C151: a load (3, 4, 0) changing along (1, 0, 0). -/
example : loadValue .l2 (fun _ => 0) ![3, 4, 0] = 5 ∧ loadSens .l2 (fun _ => 0) ![3, 4, 0] ![1, 0, 0] = 3 / 5 := by
  have e : Real.sqrt 25 = 5 := by rw [show (25:ℝ) = 5 ^ 2 by norm_num]; exact Real.sqrt_sq (by norm_num)
  constructor
  · simp only [loadValue, loadNorm, Fin.sum_univ_three]; simp; norm_num; exact e
  · simp only [loadSens, loadNorm, Fin.sum_univ_three]; simp; norm_num; rw [e]

/-- C151: at a zero load the norm has no derivative, and no value of the sensitivity is right. -/
theorem C151_zero_load_fails : ∃ (load : ℝ → Fin 3 → ℝ) (dload : Fin 3 → ℝ), (∀ k, HasDerivAt (fun s => load s k) (dload k) 0) ∧
    ¬ DifferentiableAt ℝ (fun s => loadValue .l2 (fun _ => 0) (load s)) 0 := by
  refine ⟨fun s k => if k = 0 then s else 0, fun k => if k = 0 then 1 else 0, fun k => ?_, ?_⟩
  · by_cases h : k = 0
    · simpa [h] using hasDerivAt_id' (0:ℝ)
    · simpa [h] using hasDerivAt_const (0:ℝ) (0:ℝ)
  · have e : (fun s : ℝ => loadValue .l2 (fun _ => 0) (fun k : Fin 3 => if k = 0 then s else 0)) = fun s => |s| := by
      funext s
      simp [loadValue, loadNorm, Fin.sum_univ_three, Real.sqrt_sq_eq_abs]
    rw [e]
    exact not_differentiableAt_abs_zero

end Verif.Fluid
