import Verif.Model.FluidShock
import Verif.Props.FluidEntropy
import Verif.Props.FluidFree
/-
  C174: shock capturing of the flow element.
-/
namespace Verif.Fluid

open Finset

section Spec
/-- The states at the quadrature points have positive density and temperature. -/
def Physical (c : Ctx) (qs : List Qp) (sol : Field) : Prop := ∀ q ∈ qs, 0 < interp c q.phi sol .rho ∧ 0 < (prim c.d (interp c q.phi sol) c.cp c.cv false).T

/-- What shock capturing adds to the residual. -/
noncomputable def shockForce (c : Ctx) (T : Tau) (S : ShockData) (qs : List Qp) (sol : Field) (v : Var) (a : Nat) : ℝ :=
  internalRes c T (shockCoef true c S) qs sol v a - internalRes c T (shockCoef false c S) qs sol v a

/-- Sum over the variables of the dimension and the nodes. -/
noncomputable def power (c : Ctx) (f x : Field) : ℝ := ∑ v, if act c.d v then ∑ a ∈ range c.n, x v a * f v a else 0
end Spec

theorem entropyForm_nonneg (c : Ctx) (hd : c.d = 1 ∨ c.d = 2 ∨ c.d = 3) (hv : 0 < c.cv) (hc : c.cv < c.cp) (q : Qp) (sol : Field) (hr : 0 < interp c q.phi sol .rho)
    (hT : 0 < (prim c.d (interp c q.phi sol) c.cp c.cv false).T) (x : Var → ℝ) : 0 ≤ entropyForm c q sol x := by
  have e : entropyForm c q sol x = ∑ v, ∑ w, x v * (dVdU c.d (gasInit c.cp c.cv) (prim c.d (interp c q.phi sol) c.cp c.cv false) v w * x w) := by
    unfold entropyForm
    simp only [Finset.mul_sum]
    rfl
  rw [e]
  by_cases h : ∃ v, act c.d v = true ∧ x v ≠ 0
  · exact (C103_positive_definite c.d hd _ c.cp c.cv hr hv hc hT x h).le
  · push Not at h
    refine (Finset.sum_eq_zero fun v _ => Finset.sum_eq_zero fun w _ => ?_).ge
    cases hv : act c.d v
    · have : dVdU c.d (gasInit c.cp c.cv) (prim c.d (interp c q.phi sol) c.cp c.cv false) v w = 0 := by
        rcases hd with h' | h' | h' <;> rw [h'] at hv ⊢ <;> cases v <;> simp [act] at hv <;> cases w <;> simp [dVdU, at']
      rw [this]; ring
    · rw [h v hv]; ring

theorem shockScale_pos (c : Ctx) (hd : c.d = 1 ∨ c.d = 2 ∨ c.d = 3) (hv : 0 < c.cv) (hc : c.cv < c.cp) (S : ShockData) (q : Qp) (sol : Field) (hr : 0 < interp c q.phi sol .rho)
    (hT : 0 < (prim c.d (interp c q.phi sol) c.cp c.cv false).T) : 1 / 1000000 ≤ shockScale c S q sol := by
  unfold shockScale
  have : 0 ≤ ∑ i ∈ range c.d, entropyForm c q sol fun v => ∑ j ∈ range c.d, S.dxi q i j * interp c (q.dphi j) sol v :=
    Finset.sum_nonneg fun i _ => entropyForm_nonneg c hd hv hc q sol hr hT _
  linarith

theorem fold_max_ge (l : List ℝ) (h : ℝ) : h ≤ l.foldl max h := by
  induction l generalizing h with
  | nil => simp
  | cons x l ih => exact (le_max_left h x).trans (ih _)

theorem cellSize_nonneg (d : Nat) (m : Nat → Nat → ℝ) : 0 ≤ cellSize d m := by
  unfold cellSize
  have inner : ∀ (i : Nat) (l : List Nat) (h : ℝ), 0 ≤ h → 0 ≤ l.foldl (fun h j => max h |m i j|) h := by
    intro i l
    induction l with
    | nil => intro h hh; exact hh
    | cons j l ih => intro h hh; exact ih _ (hh.trans (le_max_left _ _))
  have outer : ∀ (l : List Nat) (h : ℝ), 0 ≤ h → 0 ≤ l.foldl (fun h i => (List.range d).foldl (fun h j => max h |m i j|) h) h := by
    intro l
    induction l with
    | nil => intro h hh; exact hh
    | cons i l ih => intro h hh; exact ih _ (inner i _ _ hh)
  exact outer _ _ le_rfl

/-- C174: the coefficient is never negative, with or without the pressure switch. -/
theorem C174_nonneg (c : Ctx) (hd : c.d = 1 ∨ c.d = 2 ∨ c.d = 3) (hv : 0 < c.cv) (hc : c.cv < c.cp) (S : ShockData) (hs : 0 ≤ S.scale) (q : Qp) (sol : Field) (h : Physical c [q] sol) (i : Nat) :
    0 ≤ aliabadi c S q sol i := by
  obtain ⟨hr, hT⟩ := h q (by simp)
  unfold aliabadi
  have hp : 0 ≤ pressSensor c S q sol := by
    have : (stateAt c q.phi sol).p = (prim c.d (interp c q.phi sol) c.cp c.cv false).p := rfl
    have hp : 0 ≤ (prim c.d (interp c q.phi sol) c.cp c.cv false).p := by
      have : (prim c.d (interp c q.phi sol) c.cp c.cv false).p = (c.cp - c.cv) * (prim c.d (interp c q.phi sol) c.cp c.cv false).T * interp c q.phi sol .rho := rfl
      rw [this]
      exact mul_nonneg (mul_nonneg (by linarith) hT.le) hr.le
    unfold pressSensor
    rw [this]
    exact div_nonneg (mul_nonneg (Real.sqrt_nonneg _) (cellSize_nonneg _ _)) hp
  refine div_nonneg (mul_nonneg ?_ hs) (Nat.cast_nonneg _)
  split_ifs
  · exact mul_nonneg (Real.sqrt_nonneg _) (mul_nonneg hp hs)
  · exact Real.sqrt_nonneg _

/-- C174: the value without the switch, as configured by the library (scale 1): its square times the energy of the gradient in the reference coordinates (plus 1e-6) is the energy of the residual `A_i ∂_i U`, both
measured with the Hessian of the entropy. -/
theorem C174_value (c : Ctx) (hd : c.d = 1 ∨ c.d = 2 ∨ c.d = 3) (hv : 0 < c.cv) (hc : c.cv < c.cp) (S : ShockData) (hs : S.scale = 1) (hw : S.switch = false) (ho : S.order ≠ 0) (q : Qp) (sol : Field)
    (h : Physical c [q] sol) (i : Nat) :
    (S.order * aliabadi c S q sol i) ^ 2 * (1 / 1000000 + ∑ i ∈ range c.d, entropyForm c q sol fun v => ∑ j ∈ range c.d, S.dxi q i j * interp c (q.dphi j) sol v) =
      entropyForm c q sol (strong c q sol) := by
  obtain ⟨hr, hT⟩ := h q (by simp)
  have hpos := shockScale_pos c hd hv hc S q sol hr hT
  have h0 : (S.order : ℝ) ≠ 0 := Nat.cast_ne_zero.2 ho
  have hn := entropyForm_nonneg c hd hv hc q sol hr hT (strong c q sol)
  have : S.order * aliabadi c S q sol i = Real.sqrt (entropyForm c q sol (strong c q sol) / shockScale c S q sol) := by
    unfold aliabadi
    simp only [hw, hs, Bool.false_eq_true, if_false, mul_one]
    field_simp
  rw [this, Real.sq_sqrt (div_nonneg hn (by linarith))]
  exact div_mul_cancel₀ _ (by linarith)

/-- C174: no dissipation where the flow satisfies the Euler equations `A_i ∂_i U = 0`. -/
theorem C174_solution (c : Ctx) (S : ShockData) (q : Qp) (sol : Field) (h : ∀ v, strong c q sol v = 0) (i : Nat) : aliabadi c S q sol i = 0 := by
  have : entropyForm c q sol (strong c q sol) = 0 := by unfold entropyForm; simp [h]
  unfold aliabadi
  rw [this]; simp

theorem strong_uniform (c : Ctx) (q : Qp) (hg : ∀ i < c.d, ∑ a ∈ range c.n, q.dphi i a = 0) (U : Var → ℝ) (x : Var) : strong c q (fun v _ => U v) x = 0 := by
  unfold strong
  refine Finset.sum_eq_zero fun i hi => Finset.sum_eq_zero fun y _ => ?_
  have : interp c (q.dphi i) (fun v _ => U v) y = 0 := by
    unfold interp
    rw [← Finset.sum_mul, hg i (Finset.mem_range.1 hi)]; simp
  rw [this, mul_zero]

/-- C174: none in a uniform flow. -/
theorem C174_uniform (c : Ctx) (S : ShockData) (qs : List Qp) (hg : GradSum c qs) (U : Var → ℝ) (q : Qp) (hq : q ∈ qs) (i : Nat) : aliabadi c S q (fun v _ => U v) i = 0 :=
  C174_solution c S q _ (strong_uniform c q (hg q hq) U) i

theorem shockForce_eq (c : Ctx) (T : Tau) (S : ShockData) (qs : List Qp) (sol : Field) (v : Var) (a : Nat) :
    shockForce c T S qs sol v a = (qs.map fun q => ∑ i ∈ range c.d, q.w * aliabadi c S q sol i * (q.dphi i a * interp c (q.dphi i) sol v)).sum := by
  unfold shockForce internalRes
  have : ∀ q : Qp, resQp c T (shockCoef true c S) sol v a q = resQp c T (shockCoef false c S) sol v a q + ∑ i ∈ range c.d, q.w * aliabadi c S q sol i * (q.dphi i a * interp c (q.dphi i) sol v) := by
    intro q
    unfold resQp shockCoef
    simp only [if_true, Bool.false_eq_true, if_false, mul_zero, zero_mul, add_zero, Finset.sum_add_distrib]
    ring
  have e := list_congr' qs _ _ fun q _ => this q
  rw [List.sum_map_add] at e
  linarith [e]

theorem power_list {α : Type} (c : Ctx) (l : List α) (f : α → Field) (x : Field) : power c (fun v a => (l.map fun q => f q v a).sum) x = (l.map fun q => power c (f q) x).sum := by
  induction l with
  | nil => simp [power]
  | cons q l ih =>
    simp only [List.map_cons, List.sum_cons]
    rw [← ih]
    unfold power
    rw [← Finset.sum_add_distrib]
    refine Finset.sum_congr rfl fun v _ => ?_
    split_ifs
    · rw [← Finset.sum_add_distrib]
      exact Finset.sum_congr rfl fun a _ => by ring
    · simp

/-- C174: shock capturing is dissipative: the power of the added residual in the solution itself is the coefficient times the squared gradients, never negative. -/
theorem C174_dissipative (c : Ctx) (hd : c.d = 1 ∨ c.d = 2 ∨ c.d = 3) (hv : 0 < c.cv) (hc : c.cv < c.cp) (T : Tau) (S : ShockData) (hs : 0 ≤ S.scale) (qs : List Qp) (hw : ∀ q ∈ qs, 0 ≤ q.w) (sol : Field)
    (h : Physical c qs sol) :
    power c (shockForce c T S qs sol) sol = (qs.map fun q => ∑ i ∈ range c.d, q.w * aliabadi c S q sol i * ∑ v, interp c (q.dphi i) sol v ^ 2).sum ∧ 0 ≤ power c (shockForce c T S qs sol) sol := by
  have key : power c (shockForce c T S qs sol) sol = (qs.map fun q => ∑ i ∈ range c.d, q.w * aliabadi c S q sol i * ∑ v, interp c (q.dphi i) sol v ^ 2).sum := by
    have e : shockForce c T S qs sol = fun v a => (qs.map fun q => ∑ i ∈ range c.d, q.w * aliabadi c S q sol i * (q.dphi i a * interp c (q.dphi i) sol v)).sum := by
      funext v a; exact shockForce_eq c T S qs sol v a
    rw [e, power_list c qs (fun q v a => ∑ i ∈ range c.d, q.w * aliabadi c S q sol i * (q.dphi i a * interp c (q.dphi i) sol v)) sol]
    refine list_congr' qs _ _ fun q _ => ?_
    unfold power
    have : ∀ v, (if act c.d v then ∑ a ∈ range c.n, sol v a * ∑ i ∈ range c.d, q.w * aliabadi c S q sol i * (q.dphi i a * interp c (q.dphi i) sol v) else 0) =
        ∑ i ∈ range c.d, q.w * aliabadi c S q sol i * interp c (q.dphi i) sol v ^ 2 := by
      intro v
      cases hact : act c.d v
      · simp only [Bool.false_eq_true, if_false]
        refine (Finset.sum_eq_zero fun i _ => ?_).symm
        simp [interp, hact]
      · simp only [if_true, Finset.mul_sum]
        rw [Finset.sum_comm]
        refine Finset.sum_congr rfl fun i _ => ?_
        have hi : interp c (q.dphi i) sol v = ∑ a ∈ range c.n, q.dphi i a * sol v a := by simp [interp, hact]
        generalize hI : interp c (q.dphi i) sol v = I at *
        rw [sq, ← mul_assoc]
        conv_rhs => rw [mul_assoc, hi, Finset.sum_mul, Finset.mul_sum]
        exact Finset.sum_congr rfl fun a _ => by rw [← hi]; ring
    simp only [this]
    rw [Finset.sum_comm]
    exact Finset.sum_congr rfl fun i _ => by rw [Finset.mul_sum]
  refine ⟨key, ?_⟩
  rw [key]
  refine List.sum_nonneg fun y hy => ?_
  obtain ⟨q, hq, rfl⟩ := List.mem_map.1 hy
  refine Finset.sum_nonneg fun i _ => mul_nonneg (mul_nonneg (hw q hq) (C174_nonneg c hd hv hc S hs q sol ?_ i)) (Finset.sum_nonneg fun v _ => sq_nonneg _)
  intro q' hq'
  rw [List.mem_singleton.1 hq']
  exact h q hq

/-- C174: and conservative: it adds nothing to the balance of mass, momentum and energy of the element. -/
theorem C174_conservative (c : Ctx) (T : Tau) (S : ShockData) (qs : List Qp) (hg : GradSum c qs) (sol : Field) (v : Var) : ∑ a ∈ range c.n, shockForce c T S qs sol v a = 0 := by
  unfold shockForce
  rw [Finset.sum_sub_distrib, C141_conservation c T _ qs sol hg v, C141_conservation c T _ qs sol hg v, sub_zero]

section tangent
variable (c : Ctx) (hd : c.d = 1 ∨ c.d = 2 ∨ c.d = 3) (hv : 0 < c.cv) (hc : c.cv < c.cp) (U : Var → ℝ) (D : Field) (q : Qp)

theorem interp_cont (ψ : Nat → ℝ) (sol : Field) (v : Var) : ContinuousAt (fun t : ℝ => interp c ψ (moved sol D t) v) 0 := by
  simp only [interp_moved]
  fun_prop

include hv in
theorem dVdU_cont (sol : Field) (hr : 0 < interp c q.phi sol .rho) (hT : 0 < (prim c.d (interp c q.phi sol) c.cp c.cv false).T) (v w : Var) :
    ContinuousAt (fun t : ℝ => dVdU c.d c.gas (stateAt c q.phi (moved sol D t)) v w) 0 := by
  have he : ∀ t, dVdU c.d c.gas (stateAt c q.phi (moved sol D t)) v w = dVdU c.d c.gas (prim c.d (fun v => interp c q.phi sol v + t * interp c q.phi D v) c.cp c.cv false) v w := by
    intro t; unfold stateAt; rw [interp_moved]; rfl
  simp only [he]
  generalize interp c q.phi sol = A at *
  generalize interp c q.phi D = B at *
  have h1 := (d_u1 c.d A B c.cp c.cv false hr.ne').continuousAt
  have h2 := (d_u2 c.d A B c.cp c.cv false hr.ne').continuousAt
  have h3 := (d_u3 c.d A B c.cp c.cv false hr.ne').continuousAt
  have h4 := (d_T c.d A B c.cp c.cv false hr.ne').continuousAt
  have h5 := (d_k c.d A B c.cp c.cv false hr.ne').continuousAt
  have h6 := (d_e c.d A B c.cp c.cv false hr.ne').continuousAt
  have h7 := (d_rho c.d A B c.cp c.cv false).continuousAt
  have hS0 : (prim c.d (fun v => A v + 0 * B v) c.cp c.cv false) = prim c.d A c.cp c.cv false := by simp
  have hi : ContinuousAt (fun t : ℝ => ((prim c.d (fun v => A v + t * B v) c.cp c.cv false).rho * c.gas.cv * c.gas.cv * (prim c.d (fun v => A v + t * B v) c.cp c.cv false).T * (prim c.d (fun v => A v + t * B v) c.cp c.cv false).T)⁻¹) 0 := by
    refine ContinuousAt.inv₀ (by fun_prop) ?_
    simp only [hS0]
    have hrho : (prim c.d A c.cp c.cv false).rho = A .rho := rfl
    have hcv : c.gas.cv = c.cv := rfl
    rw [hrho, hcv]
    positivity
  generalize (fun t : ℝ => prim c.d (fun v => A v + t * B v) c.cp c.cv false) = St at *
  unfold dVdU
  simp only [div_eq_mul_inv]
  refine ContinuousAt.mul ?_ hi
  cases v <;> cases w <;> simp only [] <;> first | fun_prop | (refine at'_cont _ _ _ ?_; fun_prop)

include hd hv hc in
/-- The coefficient tends to zero when a disturbance of a uniform flow does. -/
theorem aliabadi_cont (S : ShockData) (hw : S.switch = false) (hp : ∑ a ∈ range c.n, q.phi a = 1) (hg : ∀ i < c.d, ∑ a ∈ range c.n, q.dphi i a = 0) (hr : 0 < U .rho)
    (hT : 0 < (prim c.d (interp c q.phi fun v _ => U v) c.cp c.cv false).T) (hvis : c.visc = false) (i : Nat) : ContinuousAt (fun t : ℝ => aliabadi c S q (moved (fun v _ => U v) D t) i) 0 := by
  have hr' : 0 < interp c q.phi (fun v _ => U v) .rho := by
    unfold interp
    rw [← Finset.sum_mul, hp]; simpa [act] using hr
  have hV := fun v w => dVdU_cont c hv D q (fun v _ => U v) hr' hT v w
  have hform : ∀ x : ℝ → Var → ℝ, (∀ v, ContinuousAt (fun t => x t v) 0) → ContinuousAt (fun t : ℝ => entropyForm c q (moved (fun v _ => U v) D t) (x t)) 0 := by
    intro x hx
    unfold entropyForm
    refine tendsto_finsetSum _ fun v _ => ContinuousAt.mul (hx v) ?_
    exact tendsto_finsetSum _ fun w _ => (hV v w).mul (hx w)
  have hs : ContinuousAt (fun t : ℝ => shockScale c S q (moved (fun v _ => U v) D t)) 0 := by
    unfold shockScale
    refine continuousAt_const.add (tendsto_finsetSum _ fun i _ => hform (fun t v => ∑ j ∈ range c.d, S.dxi q i j * interp c (q.dphi j) (moved (fun v _ => U v) D t) v) fun v => ?_)
    exact tendsto_finsetSum _ fun j _ => (interp_cont c D (q.dphi j) _ v).const_mul _
  have hstrong : ∀ v, ContinuousAt (fun t : ℝ => strong c q (moved (fun v _ => U v) D t) v) 0 := by
    intro v
    exact (strong_deriv c hd hvis hv.ne' (fun v _ => U v) D q hr'.ne' v).continuousAt
  have hpos := shockScale_pos c hd hv hc S q (moved (fun v _ => U v) D 0) (by rw [moved_zero]; exact hr') (by rw [moved_zero]; exact hT)
  unfold aliabadi
  simp only [hw, Bool.false_eq_true, if_false]
  refine ((ContinuousAt.div (hform _ hstrong) hs (by linarith)).sqrt.mul_const _).div_const _

end tangent

/-- C174: at a uniform flow the Jacobian of the residual with shock capturing is exact.  (The coefficient itself has no derivative there: it grows with the modulus of the disturbance.) -/
theorem C174_tangent (c : Ctx) (hd : c.d = 1 ∨ c.d = 2 ∨ c.d = 3) (hvis : c.visc = false) (hv : 0 < c.cv) (hc : c.cv < c.cp) (S : ShockData) (hw : S.switch = false) (qs : List Qp) (h1 : PhiSum c qs) (h0 : GradSum c qs) (U : Var → ℝ)
    (hU : Physical c qs fun v _ => U v) (hr : 0 < U .rho) (D : Field) (T : Tau) (T' : Qp → Var → Var → ℝ) (hT : ∀ q ∈ qs, ∀ y x, HasDerivAt (fun t => T q (moved (fun v _ => U v) D t) y x) (T' q y x) 0) (v : Var) (a : Nat) :
    HasDerivAt (fun t => internalRes c T (shockCoef true c S) qs (moved (fun v _ => U v) D t) v a) (linInternalRes c T (shockCoef true c S) qs (fun v _ => U v) D v a) 0 := by
  have hbase := C142_uniform c hd hvis hv.ne' qs h1 h0 U hr.ne' D T T' hT (shockCoef false c S) (fun _ _ => 0) (fun q _ i => by unfold shockCoef; simpa using hasDerivAt_const (0:ℝ) (0:ℝ)) v a
  have hlin : linInternalRes c T (shockCoef true c S) qs (fun v _ => U v) D v a = linInternalRes c T (shockCoef false c S) qs (fun v _ => U v) D v a := by
    unfold linInternalRes
    congr 1
    funext u b
    unfold internalJac
    refine list_congr' qs _ _ fun q hq => ?_
    unfold jacQp shockCoef
    simp only [C174_uniform c S qs h0 U q hq]
    simp
  rw [hlin]
  have hf : ∀ t, internalRes c T (shockCoef true c S) qs (moved (fun v _ => U v) D t) v a = internalRes c T (shockCoef false c S) qs (moved (fun v _ => U v) D t) v a +
      (qs.map fun q => ∑ i ∈ range c.d, q.w * aliabadi c S q (moved (fun v _ => U v) D t) i * (q.dphi i a * interp c (q.dphi i) (moved (fun v _ => U v) D t) v)).sum := by
    intro t
    have := shockForce_eq c T S qs (moved (fun v _ => U v) D t) v a
    unfold shockForce at this
    linarith
  simp only [hf]
  have hz : HasDerivAt (fun t : ℝ => (qs.map fun q => ∑ i ∈ range c.d, q.w * aliabadi c S q (moved (fun v _ => U v) D t) i * (q.dphi i a * interp c (q.dphi i) (moved (fun v _ => U v) D t) v)).sum)
      (qs.map fun _ => (0:ℝ)).sum 0 := by
    refine hasDerivAt_listsum qs (fun t q => ∑ i ∈ range c.d, q.w * aliabadi c S q (moved (fun v _ => U v) D t) i * (q.dphi i a * interp c (q.dphi i) (moved (fun v _ => U v) D t) v)) _ fun q hq => ?_
    have hg : ∀ i < c.d, ∀ t, interp c (q.dphi i) (moved (fun v _ => U v) D t) v = t * interp c (q.dphi i) D v := by
      intro i hi t
      rw [interp_moved]
      have : interp c (q.dphi i) (fun v _ => U v) v = 0 := by
        unfold interp
        rw [← Finset.sum_mul, h0 q hq i hi]; simp
      show interp c (q.dphi i) (fun v _ => U v) v + t * interp c (q.dphi i) D v = _
      rw [this, zero_add]
    have hsum : HasDerivAt (fun t : ℝ => ∑ i ∈ range c.d, q.w * aliabadi c S q (moved (fun v _ => U v) D t) i * (q.dphi i a * interp c (q.dphi i) (moved (fun v _ => U v) D t) v)) (∑ i ∈ range c.d, (0:ℝ)) 0 := by
      refine HasDerivAt.fun_sum fun i hi => ?_
      simp only [hg i (Finset.mem_range.1 hi)]
      have hcont : ContinuousAt (fun t : ℝ => q.w * aliabadi c S q (moved (fun v _ => U v) D t) i * (q.dphi i a * interp c (q.dphi i) D v)) 0 :=
        ((aliabadi_cont c hd hv hc U D q S hw (h1 q hq) (h0 q hq) hr (hU q hq).2 hvis i).const_mul q.w).mul_const _
      have h00 : q.w * aliabadi c S q (moved (fun v _ => U v) D 0) i * (q.dphi i a * interp c (q.dphi i) D v) = 0 := by
        rw [moved_zero, C174_uniform c S qs h0 U q hq i]; ring
      have hx : HasDerivAt (fun t : ℝ => t * (q.w * aliabadi c S q (moved (fun v _ => U v) D t) i * (q.dphi i a * interp c (q.dphi i) D v))) 0 0 := by
        rw [hasDerivAt_iff_tendsto_slope]
        have : Filter.Tendsto (fun t : ℝ => q.w * aliabadi c S q (moved (fun v _ => U v) D t) i * (q.dphi i a * interp c (q.dphi i) D v)) (nhdsWithin 0 {0}ᶜ) (nhds 0) := by
          have := hcont.tendsto
          simp only [h00] at this
          exact this.mono_left nhdsWithin_le_nhds
        refine this.congr' ?_
        filter_upwards [self_mem_nhdsWithin] with t ht
        have ht : t ≠ 0 := ht
        rw [slope_def_field]
        field_simp
        ring
      refine hx.congr_of_eventuallyEq (Filter.Eventually.of_forall fun t => ?_)
      ring
    simpa using hsum
  have hsum0 : (qs.map fun _ => (0:ℝ)).sum = 0 := by simp
  rw [hsum0] at hz
  exact (HasDerivAt.fun_add hbase hz).congr_deriv (add_zero _)

/-- C174: `dp` of the pressure switch is the gradient of the pressure along the interpolated gradient of the conservative variables. -/
theorem C174_pressure_gradient (c : Ctx) (hd : c.d = 1 ∨ c.d = 2 ∨ c.d = 3) (hv : c.cv ≠ 0) (q : Qp) (sol : Field) (hr : interp c q.phi sol .rho ≠ 0) (i : Nat) :
    DerivAlong (fun W => (prim c.d W c.cp c.cv c.visc).p) (interp c q.phi sol) (interp c (q.dphi i) sol) (pressGrad c q sol i) := by
  have h := d_p c.d (interp c q.phi sol) (interp c (q.dphi i) sol) c.cp c.cv c.visc hr
  refine HasDerivAt.congr_deriv h ?_
  have hD : ∀ v, act c.d v = false → interp c (q.dphi i) sol v = 0 := by intro v hv; simp [interp, hv]
  have hU : ∀ v, act c.d v = false → interp c q.phi sol v = 0 := by intro v hv; simp [interp, hv]
  unfold pressGrad stateAt
  generalize interp c q.phi sol = A at *
  generalize interp c (q.dphi i) sol = B at *
  simp only [sumVar]
  rcases hd with h | h | h <;> rw [h] at hD hU ⊢ <;> simp [dprimDcons, dpressDp, at', dprim, prim, Ctx.gas, gasInit] <;> field_simp <;> ring

/-- C174 (violated with the pressure switch): `_dissipation_scaling` enters twice: doubling it multiplies the dissipation by four; without the switch by two. -/
theorem C174_scaling_fails (c : Ctx) (S : ShockData) (q : Qp) (sol : Field) (i : Nat) (r : ℝ) :
    (S.switch = true → aliabadi c { S with scale := r * S.scale } q sol i = r ^ 2 * aliabadi c S q sol i) ∧ (S.switch = false → aliabadi c { S with scale := r * S.scale } q sol i = r * aliabadi c S q sol i) := by
  refine ⟨fun h => ?_, fun h => ?_⟩
  · unfold aliabadi shockScale pressSensor
    simp only [h, if_true]
    ring
  · unfold aliabadi shockScale
    simp only [h, Bool.false_eq_true, if_false]
    ring

/-- Non-vacuity: the two-node line element with a gas at rest at the mean state and a jump of the momentum: positive density and temperature, gradients not zero. -/
example : Physical ⟨1, 2, 7, 5, false⟩ [lineQp] (fun v a => match v with | .rho => 1 | .m1 => if a = 0 then -1 else 1 | .en => 5 | _ => 0) ∧
    interp ⟨1, 2, 7, 5, false⟩ (lineQp.dphi 0) (fun v a => match v with | .rho => 1 | .m1 => if a = 0 then -1 else 1 | .en => 5 | _ => 0) .m1 = 2 ∧ GradSum ⟨1, 2, 7, 5, false⟩ [lineQp] ∧ PhiSum ⟨1, 2, 7, 5, false⟩ [lineQp] := by
  refine ⟨?_, ?_, ?_, ?_⟩
  · intro q hq; simp only [List.mem_singleton] at hq; subst hq
    norm_num [interp, act, lineQp, Finset.sum_range_succ, prim, at']
  · norm_num [interp, act, lineQp, Finset.sum_range_succ]
  · intro q hq i _; simp only [List.mem_singleton] at hq; subst hq; simp [lineQp, Finset.sum_range_succ]
  · intro q hq; simp only [List.mem_singleton] at hq; subst hq; simp [lineQp, Finset.sum_range_succ]

end Verif.Fluid
