import Verif.Props.FluidJac
import Mathlib.Analysis.Calculus.Deriv.Comp
import Mathlib.Analysis.Calculus.Deriv.Pi
import Mathlib.Analysis.Calculus.Deriv.Pow
import Mathlib.Analysis.Calculus.FDeriv.Pi
import Mathlib.Analysis.Calculus.FDeriv.Mul
import Mathlib.Tactic.FunProp
/-
  C101: sensitivity of the advection Jacobian.
-/
namespace Verif.Fluid

section Spec

/-- The state of an ideal gas with primitive variables `q = (ρ, u, T)` in dimension `d`. -/
noncomputable def primState (d : Nat) (cp cv : ℝ) (q : Var → ℝ) : Prim :=
  let u1 := q .m1
  let u2 := if 2 ≤ d then q .m2 else 0
  let u3 := if 3 ≤ d then q .m3 else 0
  let k := (u1 ^ 2 + u2 ^ 2 + u3 ^ 2) / 2
  let a := Real.sqrt (cp / cv * (cp - cv) * q .en)
  let p := q .rho * (cp - cv) * q .en
  { cp := cp, cv := cv, rho := q .rho, u1 := u1, u2 := u2, u3 := u3, T := q .en, p := p, a := a, e := cv * q .en + k, k := k,
    entropy := Real.log (p / q .rho ^ (cp / cv)), mach := Real.sqrt (u1 ^ 2 + u2 ^ 2 + u3 ^ 2) / a, mu := 0, lambda := 0, kth := 0 }

end Spec

/-- The primitive solution of any state is the ideal gas state of its primitive variables. -/
theorem prim_eq_primState (d : Nat) (cp cv : ℝ) (hv : cv ≠ 0) (U : Var → ℝ) : prim d U cp cv false = primState d cp cv (primVec (prim d U cp cv false)) := by
  have h2 : (if 2 ≤ d then at' 2 d (U .m2 / U .rho) else 0) = at' 2 d (U .m2 / U .rho) := by unfold at'; split_ifs <;> rfl
  have h3 : (if 3 ≤ d then at' 3 d (U .m3 / U .rho) else 0) = at' 3 d (U .m3 / U .rho) := by unfold at'; split_ifs <;> rfl
  have hp : U .rho * (cp - cv) * ((U .en / U .rho - (U .m1 / U .rho * (U .m1 / U .rho) + at' 2 d (U .m2 / U .rho) * at' 2 d (U .m2 / U .rho) +
      at' 3 d (U .m3 / U .rho) * at' 3 d (U .m3 / U .rho)) * (1 / 2)) / cv) = (cp - cv) * ((U .en / U .rho - (U .m1 / U .rho * (U .m1 / U .rho) +
      at' 2 d (U .m2 / U .rho) * at' 2 d (U .m2 / U .rho) + at' 3 d (U .m3 / U .rho) * at' 3 d (U .m3 / U .rho)) * (1 / 2)) / cv) * U .rho := by ring
  simp only [prim, primState, primVec, h2, h3, hp]
  congr 1
  · field_simp; ring
  · ring
  · congr 2; ring
  · simp
  · simp [Pr]

/-- A cubic polynomial has its linear coefficient as derivative at zero. -/
theorem cubic_deriv (f : ℝ → ℝ) (c : ℝ) (h : ∀ x, f x = f 0 + c * x + (f 1 + f (-1) - 2 * f 0) / 2 * x ^ 2 + ((f 1 - f (-1)) / 2 - c) * x ^ 3) : HasDerivAt f c 0 := by
  rw [funext h]
  have := ((((hasDerivAt_id (0:ℝ)).const_mul c).const_add (f 0)).add ((hasDerivAt_pow 2 (0:ℝ)).const_mul ((f 1 + f (-1) - 2 * f 0) / 2))).add
    ((hasDerivAt_pow 3 (0:ℝ)).const_mul ((f 1 - f (-1)) / 2 - c))
  refine HasDerivAt.congr_deriv this (by simp)

macro "sens_tac" hd:ident hi:ident hc:ident c:ident v:ident w:ident : tactic => `(tactic|
  (apply cubic_deriv
   intro x
   rcases $hd:ident with h | h | h <;> subst h <;> first | (exfalso; revert $hi:ident; decide) | skip
   all_goals cases $c:ident <;> first | (exfalso; revert $hc:ident; decide) | skip
   all_goals cases $v:ident <;> cases $w:ident
   all_goals simp only [fluxJac, fluxJacSens, primState, gasInit, at', Nat.reduceLeDiff, reduceCtorEq, if_true, if_false, mul_zero, add_zero, mul_one, zero_mul]
   all_goals first | ring1 | (field_simp; ring1)))

set_option maxHeartbeats 8000000 in
theorem sens0 (d : Nat) (hd : d = 1 ∨ d = 2 ∨ d = 3) (hi : 0 < d) (c : Var) (hc : act d c = true) (cp cv : ℝ) (hv : cv ≠ 0) (q : Var → ℝ) (v w : Var) :
    HasDerivAt (fun x => fluxJac d 0 (gasInit cp cv) (primState d cp cv (fun r => q r + x * if r = c then 1 else 0)) v w)
      (fluxJacSens d 0 c (gasInit cp cv) (primState d cp cv q) v w) 0 := by
  sens_tac hd hi hc c v w

set_option maxHeartbeats 8000000 in
theorem sens1 (d : Nat) (hd : d = 1 ∨ d = 2 ∨ d = 3) (hi : 1 < d) (c : Var) (hc : act d c = true) (cp cv : ℝ) (hv : cv ≠ 0) (q : Var → ℝ) (v w : Var) :
    HasDerivAt (fun x => fluxJac d 1 (gasInit cp cv) (primState d cp cv (fun r => q r + x * if r = c then 1 else 0)) v w)
      (fluxJacSens d 1 c (gasInit cp cv) (primState d cp cv q) v w) 0 := by
  sens_tac hd hi hc c v w

set_option maxHeartbeats 8000000 in
theorem sens2 (d : Nat) (hd : d = 1 ∨ d = 2 ∨ d = 3) (hi : 2 < d) (c : Var) (hc : act d c = true) (cp cv : ℝ) (hv : cv ≠ 0) (q : Var → ℝ) (v w : Var) :
    HasDerivAt (fun x => fluxJac d 2 (gasInit cp cv) (primState d cp cv (fun r => q r + x * if r = c then 1 else 0)) v w)
      (fluxJacSens d 2 c (gasInit cp cv) (primState d cp cv q) v w) 0 := by
  sens_tac hd hi hc c v w

/-- C101: the sensitivity of the advection Jacobian to a primitive variable is the derivative of the Jacobian with respect to that variable, the others held fixed. -/
theorem C101_primitive (d : Nat) (hd : d = 1 ∨ d = 2 ∨ d = 3) (i : Fin 3) (hi : i.val < d) (c : Var) (hc : act d c = true) (cp cv : ℝ) (hv : cv ≠ 0) (q : Var → ℝ) (v w : Var) :
    HasDerivAt (fun x => fluxJac d i (gasInit cp cv) (primState d cp cv (fun r => q r + x * if r = c then 1 else 0)) v w)
      (fluxJacSens d i c (gasInit cp cv) (primState d cp cv q) v w) 0 := by
  fin_cases i
  · exact sens0 d hd hi c hc cp cv hv q v w
  · exact sens1 d hd hi c hc cp cv hv q v w
  · exact sens2 d hd hi c hc cp cv hv q v w

set_option maxHeartbeats 8000000 in
theorem fluxJac_diff (d : Nat) (hd : d = 1 ∨ d = 2 ∨ d = 3) (i : Fin 3) (cp cv : ℝ) (v w : Var) :
    Differentiable ℝ (fun q : Var → ℝ => fluxJac d i (gasInit cp cv) (primState d cp cv q) v w) := by
  rcases hd with rfl | rfl | rfl <;> fin_cases i <;> cases v <;> cases w <;>
    simp only [fluxJac, primState, gasInit, at', Nat.reduceLeDiff, if_true, if_false] <;> fun_prop

/-- Sum over the variables of the dimension of a family that vanishes when the first factor is zero. -/
theorem fluxJacSensCons_eq (d cd : Nat) (c : Var) (g : Gas) (s : Prim) (v w : Var) (hz : ∀ q, act d q = false → dprimDcons d g s q c = 0) :
    fluxJacSensCons d cd c g s v w = ∑ q, dprimDcons d g s q c * fluxJacSens d cd q g s v w := by
  unfold fluxJacSensCons
  rw [Finset.sum_filter]
  refine Finset.sum_congr rfl fun q _ => ?_
  by_cases h : act d q = true
  · rw [if_pos h]
    split_ifs with h'
    · rfl
    · have : dprimDcons d g s q c = 0 := by
        by_contra hne; exact h' (abs_pos.2 hne)
      rw [this]; simp
  · rw [if_neg h, hz q (by simpa using h)]; simp

/-- C101: the sensitivity of the advection Jacobian to a conservative variable is the derivative of the Jacobian with respect to that variable. -/
theorem C101_conservative (d : Nat) (hd : d = 1 ∨ d = 2 ∨ d = 3) (i : Fin 3) (hi : i.val < d) (c : Var) (cp cv : ℝ) (hv : cv ≠ 0) (U : Var → ℝ) (hr : U .rho ≠ 0) (v w : Var) :
    DerivAlong (fun W => fluxJac d i (gasInit cp cv) (prim d W cp cv false) v w) U (fun r => if r = c then 1 else 0)
      (fluxJacSensCons d i c (gasInit cp cv) (prim d U cp cv false) v w) := by
  set D : Var → ℝ := fun r => if r = c then 1 else 0 with hD
  set F : (Var → ℝ) → ℝ := fun q => fluxJac d i (gasInit cp cv) (primState d cp cv q) v w with hF
  set q0 := primVec (prim d U cp cv false) with hq0
  have hfd : HasFDerivAt F (fderiv ℝ F q0) q0 := (fluxJac_diff d hd i cp cv v w q0).hasFDerivAt
  have hz : ∀ q, act d q = false → dprimDcons d (gasInit cp cv) (prim d U cp cv false) q c = 0 := by
    intro q hq
    rcases hd with rfl | rfl | rfl <;> cases q <;> simp [act] at hq <;> cases c <;> simp [dprimDcons, at']
  -- partial derivatives
  have hpart : ∀ r, act d r = true → fderiv ℝ F q0 (Pi.single r 1) = fluxJacSens d i r (gasInit cp cv) (prim d U cp cv false) v w := by
    intro r hrr
    have h1 := C101_primitive d hd i hi r hrr cp cv hv q0 v w
    rw [← prim_eq_primState d cp cv hv U] at h1
    have hl : HasDerivAt (fun x : ℝ => (fun s => q0 s + x * if s = r then 1 else 0)) (Pi.single r (1:ℝ)) 0 := by
      rw [hasDerivAt_pi]
      intro s
      have := ((hasDerivAt_id (0:ℝ)).mul_const (if s = r then (1:ℝ) else 0)).const_add (q0 s)
      refine HasDerivAt.congr_deriv this ?_
      by_cases hs : s = r
      · subst hs; simp
      · simp [hs]
    have hq : (fun s => q0 s + (0:ℝ) * if s = r then 1 else 0) = q0 := by funext s; simp
    have h2 : HasDerivAt (F ∘ fun x : ℝ => (fun s => q0 s + x * if s = r then 1 else 0)) (fderiv ℝ F q0 (Pi.single r 1)) 0 :=
      HasFDerivAt.comp_hasDerivAt_of_eq (x := (0:ℝ)) hfd hl hq.symm
    exact h2.unique h1
  -- the primitive variables along the line
  have hq : HasDerivAt (fun t : ℝ => primVec (prim d (fun r => U r + t * D r) cp cv false)) (fun r => dprimDcons d (gasInit cp cv) (prim d U cp cv false) r c) 0 := by
    rw [hasDerivAt_pi]
    intro r
    refine HasDerivAt.congr_deriv (C99_derivative d hd U D cp cv false hr hv r) ?_
    simp [hD]
  have e0 : q0 = primVec (prim d (fun r => U r + (0:ℝ) * D r) cp cv false) := by simp [hq0]
  have h3 := HasFDerivAt.comp_hasDerivAt_of_eq (x := (0:ℝ)) hfd hq e0
  have hfun : (F ∘ fun t : ℝ => primVec (prim d (fun r => U r + t * D r) cp cv false)) = fun t : ℝ => fluxJac d i (gasInit cp cv) (prim d (fun r => U r + t * D r) cp cv false) v w := by
    funext t
    simp only [Function.comp, hF]
    rw [← prim_eq_primState d cp cv hv]
  rw [hfun] at h3
  refine HasDerivAt.congr_deriv h3 ?_
  rw [fluxJacSensCons_eq d i c _ _ v w hz]
  have hdec : (fun r => dprimDcons d (gasInit cp cv) (prim d U cp cv false) r c) = ∑ r, dprimDcons d (gasInit cp cv) (prim d U cp cv false) r c • Pi.single r (1:ℝ) := by
    funext s
    simp [Finset.sum_apply, Pi.single_apply]
  rw [hdec, map_sum]
  refine Finset.sum_congr rfl fun r _ => ?_
  rw [map_smul, smul_eq_mul]
  by_cases h : act d r = true
  · rw [hpart r h]
  · rw [hz r (by simpa using h)]; simp

/-- Non-vacuity of C101: a nonzero sensitivity. -/
example : fluxJacSens 3 0 .m1 (gasInit 7 5) (primState 3 7 5 fun _ => 1) .m1 .m1 = 8 / 5 := by norm_num [fluxJacSens, gasInit]

end Verif.Fluid
