import Verif.Props.FluidEig
import Verif.Props.FluidEntropy
import Verif.Props.FluidDiff
/-
  C105: stabilisation matrix of the flow element.
-/
namespace Verif.Fluid

section Spec

/-- Matrix product over the flow variables. -/
def mmul (A B : Var → Var → ℝ) (x y : Var) : ℝ := ∑ z, A x z * B z y

/-- Quadratic form. -/
def qform (A : Var → Var → ℝ) (x : Var → ℝ) : ℝ := ∑ v, ∑ w, x v * (A v w * x w)

end Spec

section
variable (d : Nat) (hd : d = 1 ∨ d = 2 ∨ d = 3) (U : Var → ℝ) (cp cv : ℝ) (hv : 0 < cv) (hc : cv < cp) (hT : 0 < (prim d U cp cv false).T)
  (n : Fin 3 → ℝ) (hn : UnitNormal d n)

include hd hv hc hT hn

/-- Product of two functions of the normal Jacobian. -/
theorem fun_mul (f h : Wave → ℝ) (x y : Var) :
    let L := leftEig d (gasInit cp cv) (prim d U cp cv false) n
    let R := rightEig d (gasInit cp cv) (prim d U cp cv false) n
    ∑ z, (∑ w, R x w * (f w * L z w)) * (∑ w, R z w * (h w * L y w)) = ∑ w, R x w * ((if actW d w = true then f w * h w else 0) * L y w) := by
  intro L R
  have h1 := (C102_inverse d hd U cp cv hv hc hT n hn).1
  calc ∑ z, (∑ w, R x w * (f w * L z w)) * (∑ w, R z w * (h w * L y w))
      = ∑ w', ∑ w, R x w * f w * (∑ z, L z w * R z w') * (h w' * L y w') := by
        simp only [Finset.sum_mul, Finset.mul_sum]
        rw [Finset.sum_comm' (t' := Finset.univ) (s' := fun _ => Finset.univ) (by simp)]
        refine Finset.sum_congr rfl fun w _ => ?_
        rw [Finset.sum_comm' (t' := Finset.univ) (s' := fun _ => Finset.univ) (by simp)]
        refine Finset.sum_congr rfl fun w' _ => Finset.sum_congr rfl fun z _ => by ring
    _ = ∑ w, ∑ w', R x w * f w * (∑ z, L z w * R z w') * (h w' * L y w') := Finset.sum_comm
    _ = _ := by
        refine Finset.sum_congr rfl fun w _ => ?_
        rw [Finset.sum_eq_single w]
        · rw [h1 w w]; by_cases ha : actW d w = true <;> simp [ha]; ring
        · intro w' _ hw'; rw [h1 w w']; simp [Ne.symm hw']
        · simp

/-- C105: the matrix built from the absolute values of the eigenvalues squares to the square of the normal Jacobian. -/
theorem C105_absolute_value (x y : Var) :
    let s := prim d U cp cv false
    mmul (absJac d (gasInit cp cv) s n) (absJac d (gasInit cp cv) s n) x y = mmul (normalJac d (gasInit cp cv) s n) (normalJac d (gasInit cp cv) s n) x y := by
  intro s
  have e1 : ∀ x y, absJac d (gasInit cp cv) s n x y = ∑ w, rightEig d (gasInit cp cv) s n x w * (|eigVals d s n w| * leftEig d (gasInit cp cv) s n y w) := by
    intro x y; exact Finset.sum_congr rfl fun w _ => by ring
  have e2 : ∀ x y, normalJac d (gasInit cp cv) s n x y = ∑ w, rightEig d (gasInit cp cv) s n x w * (eigVals d s n w * leftEig d (gasInit cp cv) s n y w) :=
    fun x y => C102_decomposition d hd U cp cv hv hc hT n hn x y
  simp only [mmul, e1, e2]
  have a1 := fun_mul d hd U cp cv hv hc hT n hn (fun w => |eigVals d s n w|) (fun w => |eigVals d s n w|) x y
  have a2 := fun_mul d hd U cp cv hv hc hT n hn (fun w => eigVals d s n w) (fun w => eigVals d s n w) x y
  simp only at a1 a2
  rw [a1, a2]
  refine Finset.sum_congr rfl fun w _ => ?_
  simp only [abs_mul_abs_self]

end

set_option maxHeartbeats 8000000 in
/-- C105: the entropy variables symmetrise the Euler equations: `A_i ∂U/∂V` is symmetric for every direction and state. -/
theorem C105_symmetrizer (d : Nat) (hd : d = 1 ∨ d = 2 ∨ d = 3) (i : Fin 3) (hi : i.val < d) (U : Var → ℝ) (cp cv : ℝ) (hv : 0 < cv) (hc : cv < cp) (x y : Var) :
    let s := prim d U cp cv false
    mmul (fluxJac d i (gasInit cp cv) s) (dUdV d (gasInit cp cv) s) x y = mmul (fluxJac d i (gasInit cp cv) s) (dUdV d (gasInit cp cv) s) y x := by
  intro s
  simp only [s]
  rw [prim_eq_primState d cp cv hv.ne' U]
  generalize primVec (prim d U cp cv false) = q
  simp only [mmul, sumVar]
  have hv' := hv.ne'
  have hg : cp - cv ≠ 0 := by linarith
  have hgm : (cp / cv - 1) = (cp - cv) / cv := by field_simp
  rcases hd with rfl | rfl | rfl <;> fin_cases i <;> (try (exfalso; revert hi; decide)) <;> cases x <;> cases y <;> (try rfl) <;>
    simp only [fluxJac, dUdV, primState, gasInit, at', Nat.reduceLeDiff, if_true, if_false, hgm] <;>
    first | ring1 | (field_simp; first | done | ring1)

/-- Acoustic constant `2 ρ ι a² / (γ - 1)²`. -/
noncomputable def acC (cp cv : ℝ) (s : Prim) : ℝ := 2 * s.rho * (cv * s.T) * s.a ^ 2 / (cp / cv - 1) ^ 2

set_option maxHeartbeats 8000000 in
theorem acoustic_alg (d : Nat) (hd : d = 1 ∨ d = 2 ∨ d = 3) (cp cv : ℝ) (q : Var → ℝ) (n : Fin 3 → ℝ) (m : Fin 3) (a gm : ℝ) (h : EigHyp d cp cv q n m a gm) (v : Var) :
    (∑ w, dUdV d (gasInit cp cv) (primState d cp cv q) v w * leftEig d (gasInit cp cv) (primState d cp cv q) n w .plus =
      acC cp cv (primState d cp cv q) * rightEig d (gasInit cp cv) (primState d cp cv q) n v .plus) ∧
    (∑ w, dUdV d (gasInit cp cv) (primState d cp cv q) v w * leftEig d (gasInit cp cv) (primState d cp cv q) n w .minus =
      acC cp cv (primState d cp cv q) * rightEig d (gasInit cp cv) (primState d cp cv q) n v .minus) := by
  obtain ⟨hv, hn, ha, hg, hg1, hd', h0, hgm, h2, hs⟩ := h
  have hT : q .en = a ^ 2 / (gm * (gm - 1) * cv) := eq_div_of_mul_eq (mul_ne_zero (mul_ne_zero hg hg1) hv) h2
  have hgc : cp / cv = gm := by rw [hgm]; field_simp
  simp only [sumVar]
  rcases hd with rfl | rfl | rfl <;> cases v <;>
    simp only [leftEig, rightEig, leftMinus, leftPlus, rightMinus, rightPlus, nrm, eigU, hs, dUdV, acC] <;>
    simp only [primState, gasInit, at', hgc, hT, Nat.reduceLeDiff, if_true, if_false] <;>
    generalize q Var.m1 = u1 <;> generalize q Var.m2 = u2 <;> generalize q Var.m3 = u3 <;> generalize n 0 = n0 at * <;> generalize n 1 = n1 at * <;> generalize n 2 = n2 at * <;>
    clear hT h2 hs hd' hgc hgm <;> constructor <;> (field_simp; first | done | ring1)

theorem acoustic (d : Nat) (hd : d = 1 ∨ d = 2 ∨ d = 3) (U : Var → ℝ) (cp cv : ℝ) (hv : 0 < cv) (hc : cv < cp) (hT : 0 < (prim d U cp cv false).T)
    (n : Fin 3 → ℝ) (hn : UnitNormal d n) (v : Var) :
    let s := prim d U cp cv false
    (∑ w, dUdV d (gasInit cp cv) s v w * leftEig d (gasInit cp cv) s n w .plus = acC cp cv s * rightEig d (gasInit cp cv) s n v .plus) ∧
    (∑ w, dUdV d (gasInit cp cv) s v w * leftEig d (gasInit cp cv) s n w .minus = acC cp cv s * rightEig d (gasInit cp cv) s n v .minus) := by
  intro s
  have := acoustic_alg d hd cp cv (primVec s) n _ _ _ (eigHyp_of d U cp cv n hv hc hT hn hd) v
  rw [← prim_eq_primState d cp cv hv.ne' U] at this
  exact this

/-- `dUdV` vanishes outside the variables of the dimension. -/
theorem dUdV_inactive (d : Nat) (hd : d = 1 ∨ d = 2 ∨ d = 3) (g : Gas) (U : Var → ℝ) (cp cv : ℝ) (v w : Var) (h : act d v = false) :
    dUdV d g (prim d U cp cv false) v w = 0 ∧ dUdV d g (prim d U cp cv false) w v = 0 := by
  rcases hd with rfl | rfl | rfl <;> cases v <;> simp [act] at h <;> cases w <;> simp [dUdV, at', prim]

/-- Quadratic form of `dUdV`. -/
theorem dUdV_psd (d : Nat) (hd : d = 1 ∨ d = 2 ∨ d = 3) (U : Var → ℝ) (cp cv : ℝ) (hr : 0 < U .rho) (hv : 0 < cv) (hc : cv < cp) (hT : 0 < (prim d U cp cv false).T) (x : Var → ℝ) :
    0 ≤ qform (dUdV d (gasInit cp cv) (prim d U cp cv false)) x := by
  set s := prim d U cp cv false with hs
  set S : Var → Var → ℝ := dUdV d (gasInit cp cv) s with hS
  set V : Var → Var → ℝ := dVdU d (gasInit cp cv) s with hV
  set y : Var → ℝ := fun v => ∑ w, S v w * x w with hy
  have inv : ∀ v w, ∑ q, V v q * S q w = if v = w ∧ act d v = true then 1 else 0 := by
    intro v w
    have h := C103_inverse d hd U cp cv hr.ne' hv hc hT.ne' w v
    have e : ∑ q, V v q * S q w = ∑ q, S w q * V q v := by
      refine Finset.sum_congr rfl fun q _ => ?_
      have h1 : V v q = V q v := (C103_symmetric d (gasInit cp cv) s v q).2
      have h2 : S q w = S w q := (C103_symmetric d (gasInit cp cv) s q w).1
      rw [h1, h2]; exact mul_comm _ _
    rw [e, h]
    by_cases hvw : w = v
    · subst hvw; rfl
    · simp [hvw, Ne.symm hvw]
  have hyz : ∀ v, act d v = false → y v = 0 := by
    intro v hv'
    simp only [hy]
    exact Finset.sum_eq_zero fun w _ => by rw [hS, (dUdV_inactive d hd (gasInit cp cv) U cp cv v w hv').1]; simp
  have hVy : ∀ v, ∑ w, V v w * y w = if act d v = true then x v else 0 := by
    intro v
    simp only [hy, Finset.mul_sum]
    rw [Finset.sum_comm]
    have : ∀ w, ∑ q, V v q * (S q w * x w) = (if v = w ∧ act d v = true then 1 else 0) * x w := by
      intro w; rw [← inv v w, Finset.sum_mul]; exact Finset.sum_congr rfl fun q _ => by ring
    simp only [this]
    by_cases ha : act d v = true <;> simp [ha]
  have hq : qform S x = qform V y := by
    unfold qform
    have e1 : ∀ v, ∑ w, x v * (S v w * x w) = x v * y v := by intro v; rw [← Finset.mul_sum]
    have e2 : ∀ v, ∑ w, y v * (V v w * y w) = x v * y v := by
      intro v; rw [← Finset.mul_sum, hVy v]
      by_cases ha : act d v = true
      · simp [ha]; ring
      · rw [hyz v (by simpa using ha)]; simp
    simp only [e1, e2]
  rw [hq]
  by_cases hz : ∃ v, act d v = true ∧ y v ≠ 0
  · exact (C103_positive_definite d hd U cp cv hr hv hc hT y hz).le
  · push Not at hz
    have : ∀ v, y v = 0 := by
      intro v
      by_cases ha : act d v = true
      · exact hz v ha
      · exact hyz v (by simpa using ha)
    simp [qform, this]

/-- Quadratic form of the absolute value of the normal Jacobian in entropy variables. -/
theorem abs_form (d : Nat) (hd : d = 1 ∨ d = 2 ∨ d = 3) (U : Var → ℝ) (cp cv : ℝ) (hr : 0 < U .rho) (hv : 0 < cv) (hc : cv < cp) (hT : 0 < (prim d U cp cv false).T)
    (n : Fin 3 → ℝ) (hn : UnitNormal d n) :
    let M := mmul (absJac d (gasInit cp cv) (prim d U cp cv false) n) (dUdV d (gasInit cp cv) (prim d U cp cv false))
    let s := prim d U cp cv false
    0 < acC cp cv s ∧ (∀ x y, M x y = M y x) ∧ ∀ x, ∃ p m, p = ∑ v, rightEig d (gasInit cp cv) s n v .plus * x v ∧ m = ∑ v, rightEig d (gasInit cp cv) s n v .minus * x v ∧ acC cp cv s * p ^ 2 + acC cp cv s * m ^ 2 ≤ qform (dUdV d (gasInit cp cv) s) x ∧
      qform M x = |eigU d s n| * qform (dUdV d (gasInit cp cv) s) x + (|eigU d s n + s.a| - |eigU d s n|) * acC cp cv s * p ^ 2 + (|eigU d s n - s.a| - |eigU d s n|) * acC cp cv s * m ^ 2 := by
  intro M
  intro s
  have hs : s = prim d U cp cv false := rfl
  set S : Var → Var → ℝ := dUdV d (gasInit cp cv) s with hS
  set L := leftEig d (gasInit cp cv) s n with hL
  set R := rightEig d (gasInit cp cv) s n with hR
  set c := acC cp cv s with hcc
  set u := eigU d s n with hu
  have hac := acoustic d hd U cp cv hv hc hT n hn
  obtain ⟨hbi, hre⟩ := C102_inverse d hd U cp cv hv hc hT n hn
  simp only [← hs, ← hS, ← hL, ← hR, ← hcc] at hac hbi hre
  have hsym : ∀ v w, S v w = S w v := fun v w => (C103_symmetric d (gasInit cp cv) s v w).1
  have hLp : ∀ w, ∑ z, L z .plus * S z w = c * R w .plus := by
    intro w; rw [← (hac w).1]; exact Finset.sum_congr rfl fun z _ => by rw [hsym z w]; ring
  have hLm : ∀ w, ∑ z, L z .minus * S z w = c * R w .minus := by
    intro w; rw [← (hac w).2]; exact Finset.sum_congr rfl fun z _ => by rw [hsym z w]; ring
  have hg1 : 1 < cp / cv := by rw [lt_div_iff₀ hv]; linarith
  have hapos : 0 < s.a := Real.sqrt_pos.2 (mul_pos (mul_pos (by linarith) (by linarith)) hT)
  have hcpos : 0 < c := by
    have hr' : 0 < s.rho := hr
    have hT' : 0 < s.T := hT
    have : 0 < cp / cv - 1 := by linarith
    simp only [hcc, acC]; positivity
  -- explicit form
  have hM : ∀ x y, M x y = |u| * S x y + (|u + s.a| - |u|) * c * (R x .plus * R y .plus) + (|u - s.a| - |u|) * c * (R x .minus * R y .minus) := by
    intro x y
    have habs : ∀ x z, absJac d (gasInit cp cv) s n x z = |u| * (if x = z ∧ act d x = true then 1 else 0) + (|u + s.a| - |u|) * (R x .plus * L z .plus) +
        (|u - s.a| - |u|) * (R x .minus * L z .minus) := by
      intro x z
      rw [← hre x z]
      simp only [absJac, sumWave, ← hL, ← hR]
      have h2 : L z .c2 * |eigVals d s n .c2| = L z .c2 * |u| := by
        by_cases h : 2 ≤ d
        · simp [eigVals, at', h, hu]
        · have : L z .c2 = 0 := by
            have hd1 : d = 1 := by rcases hd with rfl | rfl | rfl <;> omega
            have : eigDim d n = 0 := by subst hd1; simp [eigDim, nrm, at']
            simp only [hL, leftEig]; cases z <;> simp [leftC2, this, sel, at', h]
          rw [this]; simp
      have h3 : L z .c3 * |eigVals d s n .c3| = L z .c3 * |u| := by
        by_cases h : 3 ≤ d
        · simp [eigVals, at', h, hu]
        · have : L z .c3 = 0 := by
            have hlt := (eigDim_ok d hd n hn).1
            have h3' : at' 3 d (1:ℝ) = 0 := by simp [at', h]
            simp only [hL, leftEig]
            have hd12 : d = 1 ∨ d = 2 := by rcases hd with rfl | rfl | rfl <;> omega
            have hm2 : eigDim d n = 0 ∨ eigDim d n = 1 := by
              have : (eigDim d n).val = 0 ∨ (eigDim d n).val = 1 := by omega
              exact this.imp (fun e => Fin.ext e) (fun e => Fin.ext e)
            rcases hm2 with hm | hm <;> cases z <;> simp [leftC3, hm, sel, at', h]
          rw [this]; simp
      have h1 : eigVals d s n .c1 = u := rfl
      have hp : eigVals d s n .plus = u + s.a := rfl
      have hm : eigVals d s n .minus = u - s.a := rfl
      rw [h1, hp, hm]
      linear_combination (R x .c2) * h2 + (R x .c3) * h3
    show ∑ z, absJac d (gasInit cp cv) s n x z * S z y = _
    simp only [habs]
    have e1 : ∑ z, (if x = z ∧ act d x = true then (1:ℝ) else 0) * S z y = S x y := by
      by_cases ha : act d x = true
      · simp [ha]
      · have := (dUdV_inactive d hd (gasInit cp cv) U cp cv x y (by simpa using ha)).1
        simp only [← hs, ← hS] at this
        simp [ha, this]
    calc ∑ z, (|u| * (if x = z ∧ act d x = true then 1 else 0) + (|u + s.a| - |u|) * (R x .plus * L z .plus) + (|u - s.a| - |u|) * (R x .minus * L z .minus)) * S z y
        = |u| * (∑ z, (if x = z ∧ act d x = true then (1:ℝ) else 0) * S z y) + (|u + s.a| - |u|) * R x .plus * (∑ z, L z .plus * S z y) +
          (|u - s.a| - |u|) * R x .minus * (∑ z, L z .minus * S z y) := by
          simp only [Finset.mul_sum, ← Finset.sum_add_distrib]
          exact Finset.sum_congr rfl fun z _ => by ring
      _ = _ := by rw [e1, hLp, hLm]; ring
  refine ⟨hcpos, fun x y => by rw [hM, hM, hsym x y]; ring, fun x => ?_⟩
  set p := ∑ v, R v .plus * x v with hp
  set m := ∑ v, R v .minus * x v with hm
  have hq : qform M x = |u| * qform S x + (|u + s.a| - |u|) * c * p ^ 2 + (|u - s.a| - |u|) * c * m ^ 2 := by
    have sq : ∀ w : Wave, ∑ v, ∑ z, x v * (R v w * R z w * x z) = (∑ v, R v w * x v) ^ 2 := by
      intro w; rw [sq, Finset.sum_mul_sum]
      exact Finset.sum_congr rfl fun v _ => Finset.sum_congr rfl fun z _ => by ring
    rw [hp, hm, ← sq .plus, ← sq .minus]
    simp only [qform, hM, Finset.mul_sum, ← Finset.sum_add_distrib]
    exact Finset.sum_congr rfl fun v _ => Finset.sum_congr rfl fun z _ => by ring
  have bessel : c * p ^ 2 + c * m ^ 2 ≤ qform S x := by
    have h0 := dUdV_psd d hd U cp cv hr hv hc hT (fun v => x v - p * L v .plus - m * L v .minus)
    simp only [← hs, ← hS] at h0
    have hSx : ∀ w : Wave, (∀ v, ∑ z, S v z * L z w = c * R v w) → ∑ v, ∑ z, x v * (S v z * L z w) = c * ∑ v, R v w * x v := by
      intro w hw
      rw [Finset.mul_sum]
      refine Finset.sum_congr rfl fun v _ => ?_
      rw [← Finset.mul_sum, hw v]; ring
    have hSL : ∀ w' w : Wave, (∀ v, ∑ z, S v z * L z w = c * R v w) → ∑ v, ∑ z, L v w' * (S v z * L z w) = c * ∑ v, L v w' * R v w := by
      intro w' w hw
      rw [Finset.mul_sum]
      refine Finset.sum_congr rfl fun v _ => ?_
      rw [← Finset.mul_sum, hw v]; ring
    have hpS : ∀ v, ∑ z, S v z * L z .plus = c * R v .plus := fun v => (hac v).1
    have hmS : ∀ v, ∑ z, S v z * L z .minus = c * R v .minus := fun v => (hac v).2
    have swap : ∀ (f h : Var → ℝ), ∑ v, ∑ z, f v * (S v z * h z) = ∑ v, ∑ z, h v * (S v z * f z) := by
      intro f h; rw [Finset.sum_comm]
      exact Finset.sum_congr rfl fun v _ => Finset.sum_congr rfl fun z _ => by rw [hsym z v]; ring
    have hexp : qform S (fun v => x v - p * L v .plus - m * L v .minus) = qform S x - 2 * p * (∑ v, ∑ z, x v * (S v z * L z .plus)) - 2 * m * (∑ v, ∑ z, x v * (S v z * L z .minus)) +
        p ^ 2 * (∑ v, ∑ z, L v .plus * (S v z * L z .plus)) + m ^ 2 * (∑ v, ∑ z, L v .minus * (S v z * L z .minus)) + 2 * p * m * (∑ v, ∑ z, L v .plus * (S v z * L z .minus)) := by
      have t1 : 2 * p * (∑ v, ∑ z, x v * (S v z * L z .plus)) = p * (∑ v, ∑ z, x v * (S v z * L z .plus)) + p * (∑ v, ∑ z, L v .plus * (S v z * x z)) := by
        rw [swap (fun v => L v .plus) x]; ring
      have t2 : 2 * m * (∑ v, ∑ z, x v * (S v z * L z .minus)) = m * (∑ v, ∑ z, x v * (S v z * L z .minus)) + m * (∑ v, ∑ z, L v .minus * (S v z * x z)) := by
        rw [swap (fun v => L v .minus) x]; ring
      have t3 : 2 * p * m * (∑ v, ∑ z, L v .plus * (S v z * L z .minus)) = p * m * (∑ v, ∑ z, L v .plus * (S v z * L z .minus)) + p * m * (∑ v, ∑ z, L v .minus * (S v z * L z .plus)) := by
        rw [swap (fun v => L v .minus) (fun v => L v .plus)]; ring
      rw [t1, t2, t3]
      simp only [qform, Finset.mul_sum, ← Finset.sum_add_distrib, ← Finset.sum_sub_distrib]
      exact Finset.sum_congr rfl fun v _ => Finset.sum_congr rfl fun z _ => by ring
    rw [hexp, hSx .plus hpS, hSx .minus hmS, hSL .plus .plus hpS, hSL .minus .minus hmS, hSL .plus .minus hmS, hbi .plus .plus, hbi .minus .minus, hbi .plus .minus, ← hp, ← hm] at h0
    simp [actW] at h0
    nlinarith
  exact ⟨p, m, rfl, rfl, bessel, hq⟩

/-- C105: the absolute value of the normal Jacobian is symmetric and positive semidefinite in entropy variables, at every state with positive density and temperature. -/
theorem C105_absolute_value_psd (d : Nat) (hd : d = 1 ∨ d = 2 ∨ d = 3) (U : Var → ℝ) (cp cv : ℝ) (hr : 0 < U .rho) (hv : 0 < cv) (hc : cv < cp) (hT : 0 < (prim d U cp cv false).T)
    (n : Fin 3 → ℝ) (hn : UnitNormal d n) :
    let M := mmul (absJac d (gasInit cp cv) (prim d U cp cv false) n) (dUdV d (gasInit cp cv) (prim d U cp cv false))
    (∀ x y, M x y = M y x) ∧ ∀ x, 0 ≤ qform M x := by
  intro M
  obtain ⟨hcpos, h1, h2⟩ := abs_form d hd U cp cv hr hv hc hT n hn
  refine ⟨h1, fun x => ?_⟩
  obtain ⟨p, m, _, _, bessel, hq⟩ := h2 x
  change 0 ≤ qform M x
  rw [hq]
  generalize acC cp cv _ = c at *
  generalize eigU d _ n = u at *
  have b1 : |u| * (c * p ^ 2 + c * m ^ 2) ≤ |u| * qform _ x := mul_le_mul_of_nonneg_left bessel (abs_nonneg _)
  have b2 : 0 ≤ |u + (prim d U cp cv false).a| * (c * p ^ 2) := by positivity
  have b3 : 0 ≤ |u - (prim d U cp cv false).a| * (c * m ^ 2) := by positivity
  nlinarith

/-- Away from stagnation and from sonic conditions along the normal the form is definite. -/
theorem abs_pd (d : Nat) (hd : d = 1 ∨ d = 2 ∨ d = 3) (U : Var → ℝ) (cp cv : ℝ) (hr : 0 < U .rho) (hv : 0 < cv) (hc : cv < cp) (hT : 0 < (prim d U cp cv false).T)
    (n : Fin 3 → ℝ) (hn : UnitNormal d n) (h0 : eigU d (prim d U cp cv false) n ≠ 0) (hp : eigU d (prim d U cp cv false) n + (prim d U cp cv false).a ≠ 0)
    (hm : eigU d (prim d U cp cv false) n - (prim d U cp cv false).a ≠ 0) (x : Var → ℝ)
    (hz : qform (mmul (absJac d (gasInit cp cv) (prim d U cp cv false) n) (dUdV d (gasInit cp cv) (prim d U cp cv false))) x ≤ 0) :
    qform (dUdV d (gasInit cp cv) (prim d U cp cv false)) x = 0 := by
  obtain ⟨hcpos, h1, h2⟩ := abs_form d hd U cp cv hr hv hc hT n hn
  obtain ⟨p, m, _, _, bessel, hq⟩ := h2 x
  rw [hq] at hz
  have hpsd := dUdV_psd d hd U cp cv hr hv hc hT x
  generalize qform (dUdV d (gasInit cp cv) (prim d U cp cv false)) x = Q at *
  generalize acC cp cv _ = c at *
  generalize eigU d _ n = u at *
  have a0 := abs_pos.2 h0
  have ap := abs_pos.2 hp
  have am := abs_pos.2 hm
  have e : |u| * (Q - c * p ^ 2 - c * m ^ 2) + |u + (prim d U cp cv false).a| * (c * p ^ 2) + |u - (prim d U cp cv false).a| * (c * m ^ 2) ≤ 0 := by nlinarith
  have t1 : 0 ≤ |u| * (Q - c * p ^ 2 - c * m ^ 2) := mul_nonneg a0.le (by linarith)
  have t2 : 0 ≤ |u + (prim d U cp cv false).a| * (c * p ^ 2) := by positivity
  have t3 : 0 ≤ |u - (prim d U cp cv false).a| * (c * m ^ 2) := by positivity
  have e1 : Q - c * p ^ 2 - c * m ^ 2 = 0 := by
    have : |u| * (Q - c * p ^ 2 - c * m ^ 2) = 0 := by linarith
    exact (mul_eq_zero.1 this).resolve_left a0.ne'
  have e2 : c * p ^ 2 = 0 := by
    have : |u + (prim d U cp cv false).a| * (c * p ^ 2) = 0 := by linarith
    exact (mul_eq_zero.1 this).resolve_left ap.ne'
  have e3 : c * m ^ 2 = 0 := by
    have : |u - (prim d U cp cv false).a| * (c * m ^ 2) = 0 := by linarith
    exact (mul_eq_zero.1 this).resolve_left am.ne'
  linarith

/-- The normalised gradient is a unit vector of the space. -/
theorem unit_of (d : Nat) (hd : d = 1 ∨ d = 2 ∨ d = 3) (n : Fin 3 → ℝ) (hn : ∀ i : Fin 3, d ≤ i.val → n i = 0) (hp : 0 < nval n) : UnitNormal d (fun i => n i / nval n) := by
  have h2 : nval n ^ 2 = n 0 ^ 2 + n 1 ^ 2 + n 2 ^ 2 := Real.sq_sqrt (by positivity)
  have hne : nval n ^ 2 ≠ 0 := by positivity
  unfold UnitNormal
  rcases hd with rfl | rfl | rfl
  · have a := hn 1 (by decide); have b := hn 2 (by decide)
    rw [a, b] at h2
    simp only [div_pow]; simp
    rw [div_eq_one_iff_eq hne]; linarith
  · have b := hn 2 (by decide)
    rw [b] at h2
    simp only [div_pow]; simp
    rw [← add_div, div_eq_one_iff_eq hne]; linarith
  · simp only [div_pow]; simp
    rw [← add_div, ← add_div, div_eq_one_iff_eq hne]; linarith

/-- Contribution of one node. -/
noncomputable def node (d : Nat) (g : Gas) (s : Prim) (n : Fin 3 → ℝ) (x y : Var) : ℝ := if 0 < nval n then nval n * absJac d g s (fun i => n i / nval n) x y else 0

theorem barth_cons (d : Nat) (g : Gas) (s : Prim) (n : Fin 3 → ℝ) (l : List (Fin 3 → ℝ)) (x y : Var) : barth d g s false (n :: l) x y = node d g s n x y + barth d g s false l x y := by
  simp [barth, node]

theorem mmul_add (A B C : Var → Var → ℝ) : mmul (fun x y => A x y + B x y) C = fun x y => mmul A C x y + mmul B C x y := by
  funext x y; simp only [mmul, ← Finset.sum_add_distrib, add_mul]

theorem qform_add (A B : Var → Var → ℝ) (x : Var → ℝ) : qform (fun v w => A v w + B v w) x = qform A x + qform B x := by
  simp only [qform, ← Finset.sum_add_distrib]
  exact Finset.sum_congr rfl fun v _ => Finset.sum_congr rfl fun z _ => by ring

theorem node_eq (d : Nat) (g : Gas) (s : Prim) (n : Fin 3 → ℝ) (C : Var → Var → ℝ) (x y : Var) :
    mmul (node d g s n) C x y = if 0 < nval n then nval n * mmul (absJac d g s (fun i => n i / nval n)) C x y else 0 := by
  by_cases h : 0 < nval n
  · simp only [mmul, node, if_pos h, Finset.mul_sum, mul_assoc]
  · simp [mmul, node, if_neg h]

theorem node_qform (d : Nat) (g : Gas) (s : Prim) (n : Fin 3 → ℝ) (C : Var → Var → ℝ) (x : Var → ℝ) :
    qform (mmul (node d g s n) C) x = if 0 < nval n then nval n * qform (mmul (absJac d g s (fun i => n i / nval n)) C) x else 0 := by
  by_cases h : 0 < nval n
  · simp only [qform, node_eq, if_pos h, Finset.mul_sum]
    exact Finset.sum_congr rfl fun v _ => Finset.sum_congr rfl fun z _ => by ring
  · simp [qform, node_eq, if_neg h]

theorem psd_list (d : Nat) (hd : d = 1 ∨ d = 2 ∨ d = 3) (g : Gas) (s : Prim) (C : Var → Var → ℝ)
    (h : ∀ n, UnitNormal d n → (∀ x y, mmul (absJac d g s n) C x y = mmul (absJac d g s n) C y x) ∧ ∀ x, 0 ≤ qform (mmul (absJac d g s n) C) x)
    (dphi : List (Fin 3 → ℝ)) (hphi : ∀ n ∈ dphi, ∀ i : Fin 3, d ≤ i.val → n i = 0) :
    (∀ x y, mmul (barth d g s false dphi) C x y = mmul (barth d g s false dphi) C y x) ∧ ∀ x, 0 ≤ qform (mmul (barth d g s false dphi) C) x := by
  induction dphi with
  | nil => simp [barth, mmul, qform]
  | cons n l ih =>
    have ih' := ih fun n' h' => hphi n' (List.mem_cons_of_mem _ h')
    have hM : mmul (barth d g s false (n :: l)) C = fun x y => mmul (node d g s n) C x y + mmul (barth d g s false l) C x y := by
      rw [← mmul_add]; congr 1; funext x y; exact barth_cons _ _ _ _ _ _ _
    rw [hM]
    by_cases hp : 0 < nval n
    · have hpsd := h _ (unit_of d hd n (hphi n (by simp)) hp)
      refine ⟨fun x y => ?_, fun x => ?_⟩
      · dsimp only; rw [ih'.1 x y, node_eq, node_eq, if_pos hp, if_pos hp, hpsd.1 x y]
      · rw [qform_add, node_qform, if_pos hp]
        exact add_nonneg (mul_nonneg hp.le (hpsd.2 x)) (ih'.2 x)
    · refine ⟨fun x y => ?_, fun x => ?_⟩
      · dsimp only; rw [ih'.1 x y, node_eq, node_eq, if_neg hp, if_neg hp]
      · rw [qform_add, node_qform, if_neg hp]
        simpa using ih'.2 x

/-- C105: the matrix that the stabilisation inverts for inviscid flow is symmetric and positive semidefinite in entropy variables, for every state with positive density and temperature and every list of shape function gradients. -/
theorem C105_matrix_psd (d : Nat) (hd : d = 1 ∨ d = 2 ∨ d = 3) (U : Var → ℝ) (cp cv : ℝ) (hr : 0 < U .rho) (hv : 0 < cv) (hc : cv < cp) (hT : 0 < (prim d U cp cv false).T)
    (dphi : List (Fin 3 → ℝ)) (hphi : ∀ n ∈ dphi, ∀ i : Fin 3, d ≤ i.val → n i = 0) :
    let M := mmul (barth d (gasInit cp cv) (prim d U cp cv false) false dphi) (dUdV d (gasInit cp cv) (prim d U cp cv false))
    (∀ x y, M x y = M y x) ∧ ∀ x, 0 ≤ qform M x := by
  exact psd_list d hd _ _ _ (fun n hn => C105_absolute_value_psd d hd U cp cv hr hv hc hT n hn) dphi hphi

/-- The form of one node is at most the form of the element. -/
theorem node_le (d : Nat) (hd : d = 1 ∨ d = 2 ∨ d = 3) (U : Var → ℝ) (cp cv : ℝ) (hr : 0 < U .rho) (hv : 0 < cv) (hc : cv < cp) (hT : 0 < (prim d U cp cv false).T) (z : Var → ℝ)
    (n : Fin 3 → ℝ) (l : List (Fin 3 → ℝ)) (hl : ∀ n ∈ l, ∀ i : Fin 3, d ≤ i.val → n i = 0) (hmem : n ∈ l) :
    qform (mmul (node d (gasInit cp cv) (prim d U cp cv false) n) (dUdV d (gasInit cp cv) (prim d U cp cv false))) z ≤
      qform (mmul (barth d (gasInit cp cv) (prim d U cp cv false) false l) (dUdV d (gasInit cp cv) (prim d U cp cv false))) z := by
  set s := prim d U cp cv false with hs
  set S : Var → Var → ℝ := dUdV d (gasInit cp cv) s with hS
  induction l with
  | nil => simp at hmem
  | cons m l ih =>
    have hM : mmul (barth d (gasInit cp cv) s false (m :: l)) S = fun x y => mmul (node d (gasInit cp cv) s m) S x y + mmul (barth d (gasInit cp cv) s false l) S x y := by
      rw [← mmul_add]; congr 1; funext x y; exact barth_cons _ _ _ _ _ _ _
    rw [hM, qform_add]
    have hl' : ∀ n ∈ l, ∀ i : Fin 3, d ≤ i.val → n i = 0 := fun n' h' => hl n' (List.mem_cons_of_mem _ h')
    rcases List.mem_cons.1 hmem with h | h
    · subst h
      have := (C105_matrix_psd d hd U cp cv hr hv hc hT l hl').2 z
      simp only [← hs, ← hS] at this
      linarith
    · have h1 := ih hl' h
      have h2 : 0 ≤ qform (mmul (node d (gasInit cp cv) s m) S) z := by
        rw [node_qform]
        split
        · rename_i hmp
          exact mul_nonneg hmp.le ((C105_absolute_value_psd d hd U cp cv hr hv hc hT _ (unit_of d hd m (hl m (by simp)) hmp)).2 z)
        · exact le_refl _
      linarith

/-- C105: if some node has a gradient along which the flow is neither at rest nor sonic, the matrix that the stabilisation inverts has a trivial kernel, so the linear solves for tau have exactly one answer. -/
theorem C105_matrix_regular (d : Nat) (hd : d = 1 ∨ d = 2 ∨ d = 3) (U : Var → ℝ) (cp cv : ℝ) (hr : 0 < U .rho) (hv : 0 < cv) (hc : cv < cp) (hT : 0 < (prim d U cp cv false).T)
    (dphi : List (Fin 3 → ℝ)) (hphi : ∀ n ∈ dphi, ∀ i : Fin 3, d ≤ i.val → n i = 0) (n : Fin 3 → ℝ) (hn : n ∈ dphi) (hp : 0 < nval n)
    (hu : let s := prim d U cp cv false
      let un := normalVel d s (fun i => n i / nval n)
      un ≠ 0 ∧ un ≠ s.a ∧ un ≠ -s.a)
    (x : Var → ℝ) (hx : ∀ v, act d v = false → x v = 0) (hk : ∀ v, ∑ w, barth d (gasInit cp cv) (prim d U cp cv false) false dphi v w * x w = 0) : x = 0 := by
  set s := prim d U cp cv false with hs
  set S : Var → Var → ℝ := dUdV d (gasInit cp cv) s with hS
  set V : Var → Var → ℝ := dVdU d (gasInit cp cv) s with hV
  set z : Var → ℝ := fun v => ∑ w, V v w * x w with hzd
  have hSz : ∀ v, ∑ w, S v w * z w = x v := by
    intro v
    simp only [hzd, Finset.mul_sum]
    rw [Finset.sum_comm]
    have : ∀ w, ∑ q, S v q * (V q w * x w) = (if v = w ∧ act d v = true then 1 else 0) * x w := by
      intro w; rw [← C103_inverse d hd U cp cv hr.ne' hv hc hT.ne' v w, Finset.sum_mul]; exact Finset.sum_congr rfl fun q _ => by ring
    simp only [this]
    by_cases ha : act d v = true
    · simp [ha]
    · simp [ha, hx v (by simpa using ha)]
  have hun : eigU d s (fun i => n i / nval n) = normalVel d s (fun i => n i / nval n) := by
    simp only [eigU, normalVel, at']; ring
  -- the total form vanishes
  have htot : ∀ l : List (Fin 3 → ℝ), qform (mmul (barth d (gasInit cp cv) s false l) S) z = ∑ v, z v * ∑ w, barth d (gasInit cp cv) s false l v w * x w := by
    intro l
    unfold qform
    refine Finset.sum_congr rfl fun v _ => ?_
    rw [← Finset.mul_sum]
    congr 1
    simp only [mmul, Finset.sum_mul]
    rw [Finset.sum_comm]
    refine Finset.sum_congr rfl fun w _ => ?_
    rw [← hSz w, Finset.mul_sum]
    exact Finset.sum_congr rfl fun q _ => by ring
  have h0 := node_le d hd U cp cv hr hv hc hT z n dphi hphi hn
  simp only [← hs, ← hS] at h0
  rw [htot dphi, node_qform, if_pos hp] at h0
  simp only [hk, mul_zero, Finset.sum_const_zero] at h0
  have h1 : qform (mmul (absJac d (gasInit cp cv) s (fun i => n i / nval n)) S) z ≤ 0 := by
    by_contra hcon
    push Not at hcon
    have := mul_pos hp hcon
    linarith
  have h2 := abs_pd d hd U cp cv hr hv hc hT _ (unit_of d hd n (hphi n hn) hp) (by rw [← hs, hun]; exact hu.1)
    (by rw [← hs, hun]; intro h; exact hu.2.2 (by linarith)) (by rw [← hs, hun]; intro h; exact hu.2.1 (by linarith)) z h1
  -- the form of dUdV at z is the form of dVdU at x
  have h3 : qform V x = 0 := by
    have : qform V x = qform S z := by
      have e1 : ∀ v, ∑ w, x v * (V v w * x w) = x v * z v := by intro v; rw [← Finset.mul_sum]
      have e2 : ∀ v, ∑ w, z v * (S v w * z w) = x v * z v := by intro v; rw [← Finset.mul_sum, hSz v]; ring
      simp only [qform, e1, e2]
    rw [this]; exact h2
  funext v
  by_contra hne
  have hact : act d v = true := by
    by_contra ha
    exact hne (hx v (by simpa using ha))
  exact (C103_positive_definite d hd U cp cv hr hv hc hT x ⟨v, hact, hne⟩).ne' h3

/-- C105: in fluid at rest the matrix that the stabilisation inverts is singular for every element: the density column vanishes, so no tau exists with `matrix * tau = 1`. -/
theorem C105_rest_fails (d : Nat) (rho e cp cv : ℝ) (dphi : List (Fin 3 → ℝ)) :
    let U : Var → ℝ := fun v => match v with | .rho => rho | .en => e | _ => 0
    (∀ x, barth d (gasInit cp cv) (prim d U cp cv false) false dphi x .rho = 0) ∧
    ¬∃ tau : Var → Var → ℝ, ∀ x y, mmul tau (barth d (gasInit cp cv) (prim d U cp cv false) false dphi) x y = if x = y then 1 else 0 := by
  intro U
  have key : ∀ n x, absJac d (gasInit cp cv) (prim d U cp cv false) n x .rho = 0 := by
    intro n x
    have hu : eigU d (prim d U cp cv false) n = 0 := by simp [eigU, prim, U, at']
    have hk : (prim d U cp cv false).k = 0 := by simp [prim, U, at']
    simp only [absJac, sumWave, eigVals, hu, at', leftEig, leftMinus, leftPlus, hk]
    simp
  have h : ∀ x, barth d (gasInit cp cv) (prim d U cp cv false) false dphi x .rho = 0 := by
    intro x
    induction dphi with
    | nil => simp [barth]
    | cons n l ih =>
      rw [barth_cons, ih]
      simp [node, key]
  refine ⟨h, fun ⟨tau, ht⟩ => ?_⟩
  have := ht .rho .rho
  simp [mmul, h] at this

/-- Non-vacuity of C105: moving gas and an element with gradients along which the flow is subsonic. -/
example : let s := prim 2 (consOf 2 718 1 10 20 0 300) 1005 718 false
    let n : Fin 3 → ℝ := fun i => if i = 0 then 1 else 0
    nval n = 1 ∧ 0 < s.T ∧ normalVel 2 s n = 10 ∧ normalVel 2 s n ≠ s.a ∧ normalVel 2 s n ≠ -s.a := by
  intro s n
  have hn : nval n = 1 := by simp [nval, n]
  have hT : s.T = 300 := by norm_num [s, consOf, prim, at']
  have hnv : normalVel 2 s n = 10 := by norm_num [s, consOf, prim, at', normalVel, n]
  have ha : 10 < s.a := by
    have : s.a = Real.sqrt (1005 / 718 * (1005 - 718) * s.T) := rfl
    rw [this, hT]
    exact Real.lt_sqrt_of_sq_lt (by norm_num)
  exact ⟨hn, by rw [hT]; norm_num, hnv, by rw [hnv]; exact ha.ne, by rw [hnv]; intro h; linarith⟩

end Verif.Fluid
