import Verif.Props.FluidSens
import Mathlib.Tactic.Linarith
/-
  C102: characteristic decomposition of the advection Jacobian.
-/
namespace Verif.Fluid

section Spec

/-- Advection Jacobian along a normal: `∑_i n_i A_i`, `A_i` being the derivative of the flux in direction `i` (C100). -/
noncomputable def normalJac (d : Nat) (g : Gas) (s : Prim) (n : Fin 3 → ℝ) (v w : Var) : ℝ :=
  n 0 * fluxJac d 0 g s v w + (if 2 ≤ d then n 1 * fluxJac d 1 g s v w else 0) + (if 3 ≤ d then n 2 * fluxJac d 2 g s v w else 0)

/-- `n` is a unit vector of the `d` dimensional space. -/
def UnitNormal (d : Nat) (n : Fin 3 → ℝ) : Prop := n 0 ^ 2 + (if 2 ≤ d then n 1 ^ 2 else 0) + (if 3 ≤ d then n 2 ^ 2 else 0) = 1

/-- Normal velocity. -/
def normalVel (d : Nat) (s : Prim) (n : Fin 3 → ℝ) : ℝ := s.u1 * n 0 + (if 2 ≤ d then s.u2 * n 1 else 0) + (if 3 ≤ d then s.u3 * n 2 else 0)

end Spec

theorem sumWave (f : Wave → ℝ) : ∑ v, f v = f .c1 + f .c2 + f .c3 + f .minus + f .plus := by
  rw [show (Finset.univ : Finset Wave) = {.c1, .c2, .c3, .minus, .plus} from rfl]
  simp; ring

/-- Hypotheses shared by the algebraic identities, with the speed of sound and the ratio of specific heats named. -/
structure EigHyp (d : Nat) (cp cv : ℝ) (q : Var → ℝ) (n : Fin 3 → ℝ) (m : Fin 3) (a gm : ℝ) : Prop where
  hv : cv ≠ 0
  hn : n 0 ^ 2 + (if 2 ≤ d then n 1 ^ 2 else 0) + (if 3 ≤ d then n 2 ^ 2 else 0) = 1
  ha : a ≠ 0
  hg : gm ≠ 0
  hg1 : gm - 1 ≠ 0
  hd : eigDim d n = m
  h0 : n m ≠ 0
  hgm : cp = cv * gm
  h2 : q .en * (gm * (gm - 1) * cv) = a ^ 2
  hs : (primState d cp cv q).a = a

theorem f10 : ((1 : Fin 3) = 0) = False := by simp
theorem f20 : ((2 : Fin 3) = 0) = False := by simp
theorem f21 : ((2 : Fin 3) = 1) = False := by simp
theorem f01 : ((0 : Fin 3) = 1) = False := by simp
theorem f02 : ((0 : Fin 3) = 2) = False := by simp
theorem f12 : ((1 : Fin 3) = 2) = False := by simp

set_option hygiene false in
macro "eig_tac" h:ident v:ident w:ident : tactic => `(tactic|
  (obtain ⟨hv, hn, ha, hg, hg1, hd, h0, hgm, h2, hs⟩ := $h
   have hT := eq_div_of_mul_eq (mul_ne_zero (mul_ne_zero hg hg1) hv) h2
   have hgc : cp / cv = gm := by rw [hgm]; field_simp
   have hR : cp - cv = cv * gm - cv := by rw [hgm]
   simp only [Nat.reduceLeDiff, if_true, if_false] at hn
   cases $v:ident <;> cases $w:ident
   all_goals simp only [normalJac, fluxJac, eigVals, leftEig, rightEig, leftC1, leftC2, leftC3, leftMinus, leftPlus, rightMinus, rightPlus, rightC1, rightC2, rightC3, hd,
     f10, f20, f21, f01, f02, f12, if_true, if_false, nrm, eigU, rightEntropy, hs, sel]
   all_goals simp only [primState, gasInit, at', hgc, hT, hR, Nat.reduceLeDiff, if_true, if_false, reduceCtorEq, act, actW, decide_true, decide_false, and_true, and_false, false_and, true_and,
     Bool.false_eq_true, ne_eq]
   all_goals generalize q Var.m1 = u1
   all_goals generalize q Var.m2 = u2
   all_goals generalize q Var.m3 = u3
   all_goals generalize n 0 = n0 at *
   all_goals generalize n 1 = n1 at *
   all_goals generalize n 2 = n2 at *
   all_goals clear hT h2 hs hd hgc hgm hR
   all_goals first | ring1 | (field_simp; first | done | ring1 | grind)))

section alg
variable (cp cv : ℝ) (q : Var → ℝ) (n : Fin 3 → ℝ) (a gm : ℝ)

set_option maxHeartbeats 8000000 in
theorem bi10 (h : EigHyp 1 cp cv q n 0 a gm) (v w : Wave) :
    ∑ x, leftEig 1 (gasInit cp cv) (primState 1 cp cv q) n x v * rightEig 1 (gasInit cp cv) (primState 1 cp cv q) n x w = if v = w ∧ actW 1 v = true then 1 else 0 := by
  rw [sumVar]; eig_tac h v w

set_option maxHeartbeats 8000000 in
theorem re10 (h : EigHyp 1 cp cv q n 0 a gm) (v w : Var) :
    ∑ x, rightEig 1 (gasInit cp cv) (primState 1 cp cv q) n v x * leftEig 1 (gasInit cp cv) (primState 1 cp cv q) n w x = if v = w ∧ act 1 v = true then 1 else 0 := by
  rw [sumWave]; eig_tac h v w

set_option maxHeartbeats 8000000 in
theorem ja10 (h : EigHyp 1 cp cv q n 0 a gm) (v w : Var) :
    ∑ x, rightEig 1 (gasInit cp cv) (primState 1 cp cv q) n v x * (eigVals 1 (primState 1 cp cv q) n x * leftEig 1 (gasInit cp cv) (primState 1 cp cv q) n w x) =
      normalJac 1 (gasInit cp cv) (primState 1 cp cv q) n v w := by
  rw [sumWave]; eig_tac h v w

set_option maxHeartbeats 8000000 in
theorem bi20 (h : EigHyp 2 cp cv q n 0 a gm) (v w : Wave) :
    ∑ x, leftEig 2 (gasInit cp cv) (primState 2 cp cv q) n x v * rightEig 2 (gasInit cp cv) (primState 2 cp cv q) n x w = if v = w ∧ actW 2 v = true then 1 else 0 := by
  rw [sumVar]; eig_tac h v w

set_option maxHeartbeats 8000000 in
theorem re20 (h : EigHyp 2 cp cv q n 0 a gm) (v w : Var) :
    ∑ x, rightEig 2 (gasInit cp cv) (primState 2 cp cv q) n v x * leftEig 2 (gasInit cp cv) (primState 2 cp cv q) n w x = if v = w ∧ act 2 v = true then 1 else 0 := by
  rw [sumWave]; eig_tac h v w

set_option maxHeartbeats 8000000 in
theorem ja20 (h : EigHyp 2 cp cv q n 0 a gm) (v w : Var) :
    ∑ x, rightEig 2 (gasInit cp cv) (primState 2 cp cv q) n v x * (eigVals 2 (primState 2 cp cv q) n x * leftEig 2 (gasInit cp cv) (primState 2 cp cv q) n w x) =
      normalJac 2 (gasInit cp cv) (primState 2 cp cv q) n v w := by
  rw [sumWave]; eig_tac h v w

set_option maxHeartbeats 8000000 in
theorem bi21 (h : EigHyp 2 cp cv q n 1 a gm) (v w : Wave) :
    ∑ x, leftEig 2 (gasInit cp cv) (primState 2 cp cv q) n x v * rightEig 2 (gasInit cp cv) (primState 2 cp cv q) n x w = if v = w ∧ actW 2 v = true then 1 else 0 := by
  rw [sumVar]; eig_tac h v w

set_option maxHeartbeats 8000000 in
theorem re21 (h : EigHyp 2 cp cv q n 1 a gm) (v w : Var) :
    ∑ x, rightEig 2 (gasInit cp cv) (primState 2 cp cv q) n v x * leftEig 2 (gasInit cp cv) (primState 2 cp cv q) n w x = if v = w ∧ act 2 v = true then 1 else 0 := by
  rw [sumWave]; eig_tac h v w

set_option maxHeartbeats 8000000 in
theorem ja21 (h : EigHyp 2 cp cv q n 1 a gm) (v w : Var) :
    ∑ x, rightEig 2 (gasInit cp cv) (primState 2 cp cv q) n v x * (eigVals 2 (primState 2 cp cv q) n x * leftEig 2 (gasInit cp cv) (primState 2 cp cv q) n w x) =
      normalJac 2 (gasInit cp cv) (primState 2 cp cv q) n v w := by
  rw [sumWave]; eig_tac h v w

set_option maxHeartbeats 8000000 in
theorem bi30 (h : EigHyp 3 cp cv q n 0 a gm) (v w : Wave) :
    ∑ x, leftEig 3 (gasInit cp cv) (primState 3 cp cv q) n x v * rightEig 3 (gasInit cp cv) (primState 3 cp cv q) n x w = if v = w ∧ actW 3 v = true then 1 else 0 := by
  rw [sumVar]; eig_tac h v w

set_option maxHeartbeats 8000000 in
theorem re30 (h : EigHyp 3 cp cv q n 0 a gm) (v w : Var) :
    ∑ x, rightEig 3 (gasInit cp cv) (primState 3 cp cv q) n v x * leftEig 3 (gasInit cp cv) (primState 3 cp cv q) n w x = if v = w ∧ act 3 v = true then 1 else 0 := by
  rw [sumWave]; eig_tac h v w

set_option maxRecDepth 10000 in
set_option maxHeartbeats 8000000 in
theorem ja30 (h : EigHyp 3 cp cv q n 0 a gm) (v w : Var) :
    ∑ x, rightEig 3 (gasInit cp cv) (primState 3 cp cv q) n v x * (eigVals 3 (primState 3 cp cv q) n x * leftEig 3 (gasInit cp cv) (primState 3 cp cv q) n w x) =
      normalJac 3 (gasInit cp cv) (primState 3 cp cv q) n v w := by
  rw [sumWave]; eig_tac h v w

set_option maxHeartbeats 8000000 in
theorem bi31 (h : EigHyp 3 cp cv q n 1 a gm) (v w : Wave) :
    ∑ x, leftEig 3 (gasInit cp cv) (primState 3 cp cv q) n x v * rightEig 3 (gasInit cp cv) (primState 3 cp cv q) n x w = if v = w ∧ actW 3 v = true then 1 else 0 := by
  rw [sumVar]; eig_tac h v w

set_option maxHeartbeats 8000000 in
theorem re31 (h : EigHyp 3 cp cv q n 1 a gm) (v w : Var) :
    ∑ x, rightEig 3 (gasInit cp cv) (primState 3 cp cv q) n v x * leftEig 3 (gasInit cp cv) (primState 3 cp cv q) n w x = if v = w ∧ act 3 v = true then 1 else 0 := by
  rw [sumWave]; eig_tac h v w

set_option maxRecDepth 10000 in
set_option maxHeartbeats 8000000 in
theorem ja31 (h : EigHyp 3 cp cv q n 1 a gm) (v w : Var) :
    ∑ x, rightEig 3 (gasInit cp cv) (primState 3 cp cv q) n v x * (eigVals 3 (primState 3 cp cv q) n x * leftEig 3 (gasInit cp cv) (primState 3 cp cv q) n w x) =
      normalJac 3 (gasInit cp cv) (primState 3 cp cv q) n v w := by
  rw [sumWave]; eig_tac h v w

set_option maxHeartbeats 8000000 in
theorem bi32 (h : EigHyp 3 cp cv q n 2 a gm) (v w : Wave) :
    ∑ x, leftEig 3 (gasInit cp cv) (primState 3 cp cv q) n x v * rightEig 3 (gasInit cp cv) (primState 3 cp cv q) n x w = if v = w ∧ actW 3 v = true then 1 else 0 := by
  rw [sumVar]; eig_tac h v w

set_option maxHeartbeats 8000000 in
theorem re32 (h : EigHyp 3 cp cv q n 2 a gm) (v w : Var) :
    ∑ x, rightEig 3 (gasInit cp cv) (primState 3 cp cv q) n v x * leftEig 3 (gasInit cp cv) (primState 3 cp cv q) n w x = if v = w ∧ act 3 v = true then 1 else 0 := by
  rw [sumWave]; eig_tac h v w

set_option maxRecDepth 10000 in
set_option maxHeartbeats 8000000 in
theorem ja32 (h : EigHyp 3 cp cv q n 2 a gm) (v w : Var) :
    ∑ x, rightEig 3 (gasInit cp cv) (primState 3 cp cv q) n v x * (eigVals 3 (primState 3 cp cv q) n x * leftEig 3 (gasInit cp cv) (primState 3 cp cv q) n w x) =
      normalJac 3 (gasInit cp cv) (primState 3 cp cv q) n v w := by
  rw [sumWave]; eig_tac h v w

end alg

/-- The chosen direction is one of the space, and the normal has a nonzero component along it. -/
theorem eigDim_ok (d : Nat) (hd : d = 1 ∨ d = 2 ∨ d = 3) (n : Fin 3 → ℝ) (hn : UnitNormal d n) : (eigDim d n).val < d ∧ n (eigDim d n) ≠ 0 := by
  unfold UnitNormal at hn
  rcases hd with rfl | rfl | rfl
  · have : eigDim 1 n = 0 := by simp [eigDim, nrm, at']
    rw [this]; refine ⟨by decide, fun h => ?_⟩
    rw [h] at hn; norm_num at hn
  · simp only [le_refl, if_true, show ¬ (3 ≤ 2) by decide, if_false, add_zero] at hn
    by_cases h : |n 1| ≤ |n 0|
    · have : eigDim 2 n = 0 := by simp [eigDim, nrm, at', h]
      rw [this]; refine ⟨by decide, fun h0 => ?_⟩
      rw [h0] at h hn; have : n 1 = 0 := abs_eq_zero.1 (le_antisymm (by simpa using h) (abs_nonneg _))
      rw [this] at hn; norm_num at hn
    · have : eigDim 2 n = 1 := by simp [eigDim, nrm, at', h, (not_le.1 h).le]
      rw [this]; refine ⟨by decide, fun h0 => ?_⟩
      rw [h0] at h; exact h (by simp)
  · simp only [le_refl, if_true, show (2 ≤ 3) by decide] at hn
    by_cases h : |n 1| ≤ |n 0| ∧ |n 2| ≤ |n 0|
    · have : eigDim 3 n = 0 := by simp [eigDim, nrm, at', h]
      rw [this]; refine ⟨by decide, fun h0 => ?_⟩
      rw [h0] at h hn
      have h1 : n 1 = 0 := abs_eq_zero.1 (le_antisymm (by simpa using h.1) (abs_nonneg _))
      have h2 : n 2 = 0 := abs_eq_zero.1 (le_antisymm (by simpa using h.2) (abs_nonneg _))
      rw [h1, h2] at hn; norm_num at hn
    · by_cases h' : |n 0| ≤ |n 1| ∧ |n 2| ≤ |n 1|
      · have : eigDim 3 n = 1 := by simp only [eigDim, nrm, at', le_refl, if_true, show (2 ≤ 3) by decide]; rw [if_neg h, if_pos h']
        rw [this]; refine ⟨by decide, fun h0 => ?_⟩
        rw [h0] at h' hn
        have h1 : n 0 = 0 := abs_eq_zero.1 (le_antisymm (by simpa using h'.1) (abs_nonneg _))
        have h2 : n 2 = 0 := abs_eq_zero.1 (le_antisymm (by simpa using h'.2) (abs_nonneg _))
        rw [h1, h2] at hn; norm_num at hn
      · have : eigDim 3 n = 2 := by simp only [eigDim, nrm, at', le_refl, if_true, show (2 ≤ 3) by decide]; rw [if_neg h, if_neg h']
        rw [this]; refine ⟨by decide, fun h0 => ?_⟩
        rw [h0] at h h'; simp only [abs_zero, abs_nonneg, and_true] at h h'
        rcases le_total |n 1| |n 0| with h3 | h3
        · exact h h3
        · exact h' h3

theorem eigHyp_of (d : Nat) (U : Var → ℝ) (cp cv : ℝ) (n : Fin 3 → ℝ) (hv : 0 < cv) (hc : cv < cp) (hT : 0 < (prim d U cp cv false).T) (hn : UnitNormal d n)
    (hd : d = 1 ∨ d = 2 ∨ d = 3) : EigHyp d cp cv (primVec (prim d U cp cv false)) n (eigDim d n) (prim d U cp cv false).a (cp / cv) := by
  have hg1 : 1 < cp / cv := by rw [lt_div_iff₀ hv]; linarith
  have hpos : 0 < cp / cv * (cp - cv) * (prim d U cp cv false).T := mul_pos (mul_pos (by linarith) (by linarith)) hT
  refine ⟨hv.ne', hn, (Real.sqrt_pos.2 hpos).ne', by positivity, by linarith, rfl, (eigDim_ok d hd n hn).2, by field_simp, ?_, ?_⟩
  · have : (prim d U cp cv false).a ^ 2 = cp / cv * (cp - cv) * (prim d U cp cv false).T := Real.sq_sqrt hpos.le
    rw [this]
    show (prim d U cp cv false).T * _ = _
    field_simp
  · rw [← prim_eq_primState d cp cv hv.ne' U]

/-- C102: at every state with positive temperature and for every unit normal of the space, the columns of the two eigenvector matrices are biorthonormal, and their product is the
identity. -/
theorem C102_inverse (d : Nat) (hd : d = 1 ∨ d = 2 ∨ d = 3) (U : Var → ℝ) (cp cv : ℝ) (hv : 0 < cv) (hc : cv < cp) (hT : 0 < (prim d U cp cv false).T)
    (n : Fin 3 → ℝ) (hn : UnitNormal d n) :
    let L := leftEig d (gasInit cp cv) (prim d U cp cv false) n
    let R := rightEig d (gasInit cp cv) (prim d U cp cv false) n
    (∀ v w, ∑ x, L x v * R x w = if v = w ∧ actW d v = true then 1 else 0) ∧ (∀ x y, ∑ w, R x w * L y w = if x = y ∧ act d x = true then 1 else 0) := by
  intro L R
  have h := eigHyp_of d U cp cv n hv hc hT hn hd
  have hlt := (eigDim_ok d hd n hn).1
  simp only [L, R]
  rw [prim_eq_primState d cp cv hv.ne' U]
  generalize primVec (prim d U cp cv false) = q at *
  generalize (prim d U cp cv false).a = a at *
  generalize cp / cv = gm at *
  generalize hm : eigDim d n = m at h hlt
  rcases hd with rfl | rfl | rfl <;> fin_cases m <;> simp at hlt
  · exact ⟨bi10 cp cv q n a gm h, re10 cp cv q n a gm h⟩
  · exact ⟨bi20 cp cv q n a gm h, re20 cp cv q n a gm h⟩
  · exact ⟨bi21 cp cv q n a gm h, re21 cp cv q n a gm h⟩
  · exact ⟨bi30 cp cv q n a gm h, re30 cp cv q n a gm h⟩
  · exact ⟨bi31 cp cv q n a gm h, re31 cp cv q n a gm h⟩
  · exact ⟨bi32 cp cv q n a gm h, re32 cp cv q n a gm h⟩

/-- C102: `∑_i n_i A_i = R Λ Lᵀ`: the advection Jacobian along a unit normal is recovered from the eigenvectors and eigenvalues. -/
theorem C102_decomposition (d : Nat) (hd : d = 1 ∨ d = 2 ∨ d = 3) (U : Var → ℝ) (cp cv : ℝ) (hv : 0 < cv) (hc : cv < cp) (hT : 0 < (prim d U cp cv false).T)
    (n : Fin 3 → ℝ) (hn : UnitNormal d n) (x y : Var) :
    let s := prim d U cp cv false
    normalJac d (gasInit cp cv) s n x y = ∑ w, rightEig d (gasInit cp cv) s n x w * (eigVals d s n w * leftEig d (gasInit cp cv) s n y w) := by
  intro s
  have h := eigHyp_of d U cp cv n hv hc hT hn hd
  have hlt := (eigDim_ok d hd n hn).1
  simp only [s]
  rw [prim_eq_primState d cp cv hv.ne' U]
  generalize primVec (prim d U cp cv false) = q at *
  generalize (prim d U cp cv false).a = a at *
  generalize cp / cv = gm at *
  generalize hm : eigDim d n = m at h hlt
  rcases hd with rfl | rfl | rfl <;> fin_cases m <;> simp at hlt
  · exact (ja10 cp cv q n a gm h x y).symm
  · exact (ja20 cp cv q n a gm h x y).symm
  · exact (ja21 cp cv q n a gm h x y).symm
  · exact (ja30 cp cv q n a gm h x y).symm
  · exact (ja31 cp cv q n a gm h x y).symm
  · exact (ja32 cp cv q n a gm h x y).symm

/-- C102: the eigenvalues are the normal velocity, as often as the space has dimensions, and the normal velocity plus and minus the speed of sound. -/
theorem C102_eigenvalues (d : Nat) (s : Prim) (n : Fin 3 → ℝ) (w : Wave) (hw : actW d w = true) :
    eigVals d s n w = normalVel d s n + (match w with | .minus => -s.a | .plus => s.a | _ => 0) := by
  cases w <;> simp [actW] at hw <;> simp [eigVals, eigU, normalVel, at', hw] <;> ring

/-- C102: each column of `l_eig_mat` is a left eigenvector of the normal Jacobian. -/
theorem C102_left_eigenvector (d : Nat) (hd : d = 1 ∨ d = 2 ∨ d = 3) (U : Var → ℝ) (cp cv : ℝ) (hv : 0 < cv) (hc : cv < cp) (hT : 0 < (prim d U cp cv false).T)
    (n : Fin 3 → ℝ) (hn : UnitNormal d n) (y : Var) (w : Wave) (hw : actW d w = true) :
    let s := prim d U cp cv false
    ∑ x, leftEig d (gasInit cp cv) s n x w * normalJac d (gasInit cp cv) s n x y = eigVals d s n w * leftEig d (gasInit cp cv) s n y w := by
  intro s
  have h1 := (C102_inverse d hd U cp cv hv hc hT n hn).1
  have h2 := fun x => C102_decomposition d hd U cp cv hv hc hT n hn x y
  simp only at h1 h2
  calc ∑ x, leftEig d (gasInit cp cv) s n x w * normalJac d (gasInit cp cv) s n x y
      = ∑ x, ∑ z, leftEig d (gasInit cp cv) s n x w * (rightEig d (gasInit cp cv) s n x z * (eigVals d s n z * leftEig d (gasInit cp cv) s n y z)) := by
        refine Finset.sum_congr rfl fun x _ => ?_
        rw [h2 x, Finset.mul_sum]
    _ = ∑ z, (∑ x, leftEig d (gasInit cp cv) s n x w * rightEig d (gasInit cp cv) s n x z) * (eigVals d s n z * leftEig d (gasInit cp cv) s n y z) := by
        rw [Finset.sum_comm]
        refine Finset.sum_congr rfl fun z _ => ?_
        rw [Finset.sum_mul]
        refine Finset.sum_congr rfl fun x _ => by ring
    _ = eigVals d s n w * leftEig d (gasInit cp cv) s n y w := by
        rw [Finset.sum_eq_single w]
        · rw [h1 w w]; simp [hw]
        · intro z _ hz; rw [h1 w z]; simp [Ne.symm hz]
        · simp

/-- Non-vacuity of C102: a state and an oblique normal. -/
example : let n : Fin 3 → ℝ := fun i => if i = 0 then 1 / 3 else if i = 1 then 2 / 3 else -2 / 3
    0 < (prim 3 (consOf 3 718 1 10 20 30 300) 1005 718 false).T ∧ UnitNormal 3 n ∧ eigDim 3 n = 1 := by
  intro n
  refine ⟨by norm_num [consOf, prim, at'], by norm_num [UnitNormal, n, f20, f21], ?_⟩
  have h0 : |n 0| = 1 / 3 := by norm_num [n]
  have h1 : |n 1| = 2 / 3 := by norm_num [n]
  have h2 : |n 2| = 2 / 3 := by simp only [n, f20, f21, if_false]; norm_num [abs_of_neg]
  simp only [eigDim, nrm, at', le_refl, if_true, show (2 ≤ 3) by decide, h0, h1, h2]
  norm_num

end Verif.Fluid
