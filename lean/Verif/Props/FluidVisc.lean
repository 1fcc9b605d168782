import Verif.Props.FluidElem
import Mathlib.Tactic.FunProp
/-
  C142: Jacobian of the conservative fluid element for viscous flow.
-/
namespace Verif.Fluid
open Finset

/-- The element with viscosity switched off. -/
def Ctx.inviscid (c : Ctx) : Ctx := { c with visc := false }

theorem flux_visc (d i : Nat) (U : Var → ℝ) (cp cv : ℝ) (b : Bool) (v : Var) : flux d i (prim d U cp cv b) v = flux d i (prim d U cp cv false) v := by
  cases b <;> cases v <;> rfl
theorem fluxJac_visc (d i : Nat) (g : Gas) (U : Var → ℝ) (cp cv : ℝ) (b : Bool) (v w : Var) : fluxJac d i g (prim d U cp cv b) v w = fluxJac d i g (prim d U cp cv false) v w := by
  cases b <;> cases v <;> cases w <;> rfl
theorem fluxJacSens_visc (d i : Nat) (u : Var) (g : Gas) (U : Var → ℝ) (cp cv : ℝ) (b : Bool) (v w : Var) : fluxJacSensCons d i u g (prim d U cp cv b) v w = fluxJacSensCons d i u g (prim d U cp cv false) v w := by
  cases b <;> cases u <;> cases v <;> cases w <;> rfl

section
variable (c : Ctx) (T : Tau) (dc : Shock) (q : Qp) (sol D : Field)

theorem strong_visc (x : Var) : strong c q sol x = strong c.inviscid q sol x := by
  unfold strong stateAt
  refine Finset.sum_congr rfl fun i _ => Finset.sum_congr rfl fun y _ => ?_
  rw [fluxJac_visc]; rfl
theorem lsOp_visc (x v : Var) (a : Nat) : lsOp c T q sol x v a = lsOp c.inviscid T q sol x v a := by
  unfold lsOp stateAt
  refine Finset.sum_congr rfl fun y _ => ?_
  refine congrArg (T q sol y x * ·) (Finset.sum_congr rfl fun i _ => ?_)
  rw [fluxJac_visc]; rfl

/-- Diffusive flux through the matrices `K_ij`: `∑_j K_ij ∂_j U`. -/
noncomputable def kFlux (i : Nat) (v : Var) : ℝ := ∑ j ∈ range c.d, ∑ w, kCons c.d i j c.gas (stateAt c q.phi sol) v w * interp c (q.dphi j) sol w
/-- Diffusive part of the strong form: `∑_y K_ij ∂_ij U`. -/
noncomputable def kStrong (i j : Nat) (x : Var) : ℝ := ∑ y, kCons c.d i j c.gas (stateAt c q.phi sol) x y * interp c (q.d2phi i j) sol y

/-- Viscous part of the residual at a point. -/
noncomputable def viscRes (v : Var) (a : Nat) : ℝ :=
  q.w * ∑ i ∈ range c.d, q.dphi i a * kFlux c q sol i v - q.w * ∑ i ∈ range c.d, ∑ j ∈ range c.d, ∑ x, lsOp c T q sol x v a * kStrong c q sol i j x
/-- Viscous part of the Jacobian at a point, applied to `D`. -/
noncomputable def viscJac (v : Var) (a : Nat) : ℝ :=
  q.w * ∑ i ∈ range c.d, q.dphi i a * ∑ j ∈ range c.d, ∑ w, kCons c.d i j c.gas (stateAt c q.phi sol) v w * interp c (q.dphi j) D w -
    q.w * ∑ i ∈ range c.d, ∑ j ∈ range c.d, ∑ x, lsOp c T q sol x v a * ∑ y, kCons c.d i j c.gas (stateAt c q.phi sol) x y * interp c (q.d2phi i j) D y

theorem viscAt_eq (hd : c.d = 1 ∨ c.d = 2 ∨ c.d = 3) (hv : c.cv ≠ 0) (hr : interp c q.phi sol .rho ≠ 0) (i : Nat) (hi : i < c.d) (v : Var) : viscAt c q sol i v = kFlux c q sol i v :=
  (C104_conservative c.d hd i hi c.cp c.cv hv (interp c q.phi sol) hr c.visc (fun i => interp c (q.dphi i) sol) v).symm

theorem resQp_split (hd : c.d = 1 ∨ c.d = 2 ∨ c.d = 3) (hv : c.cv ≠ 0) (hvis : c.visc = true) (hr : interp c q.phi sol .rho ≠ 0) (v : Var) (a : Nat) :
    resQp c T dc sol v a q = resQp c.inviscid T dc sol v a q + viscRes c T q sol v a := by
  have h0 : c.inviscid.visc = false := rfl
  unfold resQp viscRes
  simp only [hvis, h0, if_true, Bool.false_eq_true, if_false, add_zero, sub_zero, strong_visc c, ← lsOp_visc c]
  have e1 : ∑ i ∈ range c.d, (-(q.w * (q.dphi i a * flux c.d i (stateAt c q.phi sol) v)) + q.w * (q.dphi i a * viscAt c q sol i v) + q.w * dc q sol i * (q.dphi i a * interp c (q.dphi i) sol v)) =
      (∑ i ∈ range c.inviscid.d, (-(q.w * (q.dphi i a * flux c.inviscid.d i (stateAt c.inviscid q.phi sol) v)) + q.w * dc q sol i * (q.dphi i a * interp c.inviscid (q.dphi i) sol v))) +
        q.w * ∑ i ∈ range c.d, q.dphi i a * kFlux c q sol i v := by
    rw [Finset.mul_sum]
    show _ = (∑ i ∈ range c.d, _) + _
    rw [← Finset.sum_add_distrib]
    refine Finset.sum_congr rfl fun i hi => ?_
    rw [viscAt_eq c q sol hd hv hr i (Finset.mem_range.1 hi)]
    have : flux c.d i (stateAt c q.phi sol) v = flux c.inviscid.d i (stateAt c.inviscid q.phi sol) v := flux_visc _ _ _ _ _ _ _
    rw [this]
    show _ = _ + q.w * dc q sol i * (q.dphi i a * interp c (q.dphi i) sol v) + _
    ring
  rw [e1]
  simp only [kStrong]
  ring

theorem jacMul_visc (hvis : c.visc = true) (v : Var) (a : Nat) :
    jacMul c (fun u b => jacQp c T dc sol v a u b q) D = jacMul c.inviscid (fun u b => jacQp c.inviscid T dc sol v a u b q) D + viscJac c T q sol D v a := by
  have h0 : c.inviscid.visc = false := rfl
  have hm : ∀ J, jacMul c.inviscid J D = jacMul c J D := fun _ => rfl
  have hi : ∀ ψ, interp c.inviscid ψ = interp c ψ := fun _ => rfl
  have hf : ∀ i v w, fluxJac c.d i c.gas (stateAt c q.phi sol) v w = fluxJac c.inviscid.d i c.inviscid.gas (stateAt c.inviscid q.phi sol) v w := fun i v w => fluxJac_visc _ _ _ _ _ _ _ _ _
  have hs : ∀ i u v w, fluxJacSensCons c.d i u c.gas (stateAt c q.phi sol) v w = fluxJacSensCons c.inviscid.d i u c.inviscid.gas (stateAt c.inviscid q.phi sol) v w := fun i u v w => fluxJacSens_visc _ _ _ _ _ _ _ _ _ _
  have ha : ∀ x u b, aSens c q sol x u b = aSens c.inviscid q sol x u b := fun x u b => by unfold aSens; simp only [hs]; rfl
  have hl : ∀ u b, lsSens c T q sol v a u b = lsSens c.inviscid T q sol v a u b := fun u b => by unfold lsSens; simp only [hs, strong_visc c]; rfl
  have key : (fun u b => jacQp c T dc sol v a u b q) = fun u b => jacQp c.inviscid T dc sol v a u b q +
      ((∑ i ∈ range c.d, ∑ j ∈ range c.d, (q.w * q.dphi i a) * (kCons c.d i j c.gas (stateAt c q.phi sol) v u * q.dphi j b)) +
       (∑ i ∈ range c.d, ∑ j ∈ range c.d, ∑ x, (-(q.w * lsOp c T q sol x v a)) * (kCons c.d i j c.gas (stateAt c q.phi sol) x u * q.d2phi i j b))) := by
    funext u b
    unfold jacQp
    simp only [hvis, h0, if_true, Bool.false_eq_true, if_false, add_zero, sub_zero, hf, ha, hl, lsOp_visc c]
    have e1 : ∀ (X Y Z : Nat → ℝ), ∑ i ∈ range c.d, (X i + Y i + Z i) = (∑ i ∈ range c.inviscid.d, (X i + Z i)) + ∑ i ∈ range c.d, Y i := by
      intro X Y Z
      show _ = (∑ i ∈ range c.d, _) + _
      rw [← Finset.sum_add_distrib]
      exact Finset.sum_congr rfl fun i _ => by ring
    rw [e1]
    have e2 : ∑ i ∈ range c.d, ∑ j ∈ range c.d, q.w * (q.dphi i a * (kCons c.d i j c.gas (stateAt c q.phi sol) v u * q.dphi j b)) =
        ∑ i ∈ range c.d, ∑ j ∈ range c.d, (q.w * q.dphi i a) * (kCons c.d i j c.gas (stateAt c q.phi sol) v u * q.dphi j b) :=
      Finset.sum_congr rfl fun i _ => Finset.sum_congr rfl fun j _ => by ring
    have e3 : q.w * ∑ i ∈ range c.d, ∑ j ∈ range c.d, ∑ x, lsOp c.inviscid T q sol x v a * (kCons c.d i j c.gas (stateAt c q.phi sol) x u * q.d2phi i j b) =
        -∑ i ∈ range c.d, ∑ j ∈ range c.d, ∑ x, (-(q.w * lsOp c.inviscid T q sol x v a)) * (kCons c.d i j c.gas (stateAt c q.phi sol) x u * q.d2phi i j b) := by
      simp only [Finset.mul_sum, ← Finset.sum_neg_distrib]
      exact Finset.sum_congr rfl fun i _ => Finset.sum_congr rfl fun j _ => Finset.sum_congr rfl fun x _ => by ring
    rw [e2, e3]
    show _ + q.w * (∑ x, lsOp c.inviscid T q sol x v a * ∑ i ∈ range c.inviscid.d, _) - _ + _ + _ = _
    ring
  rw [key, jacMul_add, jacMul_add, hm, jacMul_sum, jacMul_sum]
  congr 1
  unfold viscJac
  rw [sub_eq_add_neg]
  congr 1
  · rw [Finset.mul_sum]
    refine Finset.sum_congr rfl fun i _ => ?_
    rw [jacMul_sum, Finset.mul_sum, Finset.mul_sum]
    refine Finset.sum_congr rfl fun j _ => ?_
    rw [jacMul_smul, jacMul_mul]; ring
  · rw [Finset.mul_sum, ← Finset.sum_neg_distrib]
    refine Finset.sum_congr rfl fun i _ => ?_
    rw [jacMul_sum, Finset.mul_sum, ← Finset.sum_neg_distrib]
    refine Finset.sum_congr rfl fun j _ => ?_
    rw [jacMul_sum, Finset.mul_sum, ← Finset.sum_neg_distrib]
    refine Finset.sum_congr rfl fun x _ => ?_
    rw [jacMul_smul, jacMul_mul]; ring
end

/-- Specification: the derivatives of the diffusivity matrices along `D` at the quadrature points. -/
def KRate (c : Ctx) (qs : List Qp) (sol D : Field) (K' : Qp → Nat → Nat → Var → Var → ℝ) : Prop :=
  ∀ q ∈ qs, ∀ i < c.d, ∀ j < c.d, ∀ x y, HasDerivAt (fun t => kCons c.d i j c.gas (stateAt c q.phi (moved sol D t)) x y) (K' q i j x y) 0

/-- Specification: the terms the Jacobian leaves out at a point of a viscous flow: change of the stabilisation matrix and of the shock capturing coefficient in the advection terms; change of the diffusivity
in the flux and in the strong form; change of the stabilisation operator in front of the diffusion terms. -/
noncomputable def omitted (c : Ctx) (T : Tau) (sol D : Field) (q : Qp) (dc' : Nat → ℝ) (T' : Var → Var → ℝ) (K' : Nat → Nat → Var → Var → ℝ) (v : Var) (a : Nat) : ℝ :=
  q.w * (∑ i ∈ range c.d, q.dphi i a * ∑ y, fluxJac c.d i c.gas (stateAt c q.phi sol) v y * ∑ x, T' y x * strong c q sol x) +
    (∑ i ∈ range c.d, q.w * dc' i * (q.dphi i a * interp c (q.dphi i) sol v)) +
    (q.w * ∑ i ∈ range c.d, q.dphi i a * ∑ j ∈ range c.d, ∑ w, K' i j v w * interp c (q.dphi j) sol w) -
    q.w * ∑ i ∈ range c.d, ∑ j ∈ range c.d, ∑ x,
      ((∑ y, (T' y x * (∑ k ∈ range c.d, fluxJac c.d k c.gas (stateAt c q.phi sol) v y * q.dphi k a) + T q sol y x * ∑ k ∈ range c.d, dA c sol D q k v y * q.dphi k a)) *
          (∑ y, kCons c.d i j c.gas (stateAt c q.phi sol) x y * interp c (q.d2phi i j) sol y) +
        lsOp c T q sol x v a * ∑ y, K' i j x y * interp c (q.d2phi i j) sol y)

theorem resQp_visc_deriv (c : Ctx) (hd : c.d = 1 ∨ c.d = 2 ∨ c.d = 3) (hvis : c.visc = true) (hv : c.cv ≠ 0) (sol D : Field) (q : Qp) (hr : interp c q.phi sol .rho ≠ 0)
    (T : Tau) (T' : Var → Var → ℝ) (hT : ∀ y x, HasDerivAt (fun t => T q (moved sol D t) y x) (T' y x) 0) (dc : Shock) (dc' : Nat → ℝ)
    (hdc : ∀ i, HasDerivAt (fun t => dc q (moved sol D t) i) (dc' i) 0) (K' : Nat → Nat → Var → Var → ℝ)
    (hK : ∀ i < c.d, ∀ j < c.d, ∀ x y, HasDerivAt (fun t => kCons c.d i j c.gas (stateAt c q.phi (moved sol D t)) x y) (K' i j x y) 0) (v : Var) (a : Nat) :
    HasDerivAt (fun t => resQp c T dc (moved sol D t) v a q) (jacMul c (fun u b => jacQp c T dc sol v a u b q) D + omitted c T sol D q dc' T' K' v a) 0 := by
  have hrho := grad_deriv c sol D q.phi .rho
  have hne : ∀ᶠ t in nhds (0:ℝ), interp c q.phi (moved sol D t) .rho ≠ 0 := hrho.continuousAt.eventually_ne (by rw [moved_zero]; exact hr)
  have hsplit : (fun t => resQp c T dc (moved sol D t) v a q) =ᶠ[nhds 0] fun t => resQp c.inviscid T dc (moved sol D t) v a q + viscRes c T q (moved sol D t) v a :=
    hne.mono fun t ht => resQp_split c T dc q (moved sol D t) hd hv hvis ht v a
  refine HasDerivAt.congr_of_eventuallyEq ?_ hsplit
  have h1 := resQp_deriv c.inviscid hd rfl hv sol D q hr T T' hT dc dc' hdc v a
  have hA : ∀ x, HasDerivAt (fun t => lsOp c T q (moved sol D t) x v a)
      (∑ y, (T' y x * (∑ i ∈ range c.d, fluxJac c.d i c.gas (stateAt c q.phi sol) v y * q.dphi i a) + T q sol y x * ∑ i ∈ range c.d, dA c sol D q i v y * q.dphi i a)) 0 := by
    intro x
    have h := lsOp_deriv c.inviscid hd rfl hv sol D q hr T T' hT x v a
    simp only [← lsOp_visc c] at h
    refine HasDerivAt.congr_deriv h ?_
    refine Finset.sum_congr rfl fun y _ => ?_
    have hf : ∀ i, fluxJac c.d i c.gas (stateAt c q.phi sol) v y = fluxJac c.inviscid.d i c.inviscid.gas (stateAt c.inviscid q.phi sol) v y := fun i => fluxJac_visc _ _ _ _ _ _ _ _ _
    have hs : ∀ i, dA c sol D q i v y = dA c.inviscid sol D q i v y := fun i => by
      unfold dA
      exact Finset.sum_congr rfl fun u _ => congrArg (· * interp c q.phi D u) (fluxJacSens_visc _ _ _ _ _ _ _ _ _ _)
    simp only [hf, hs]
    rfl
  have hF : ∀ i < c.d, HasDerivAt (fun t => kFlux c q (moved sol D t) i v)
      (∑ j ∈ range c.d, ∑ w, (K' i j v w * interp c (q.dphi j) sol w + kCons c.d i j c.gas (stateAt c q.phi sol) v w * interp c (q.dphi j) D w)) 0 := by
    intro i hi
    refine HasDerivAt.fun_sum fun j hj => HasDerivAt.fun_sum fun w _ => ?_
    have := (hK i hi j (Finset.mem_range.1 hj) v w).fun_mul (grad_deriv c sol D (q.dphi j) w)
    rw [moved_zero] at this
    exact this
  have hS : ∀ i < c.d, ∀ j < c.d, ∀ x, HasDerivAt (fun t => kStrong c q (moved sol D t) i j x)
      (∑ y, (K' i j x y * interp c (q.d2phi i j) sol y + kCons c.d i j c.gas (stateAt c q.phi sol) x y * interp c (q.d2phi i j) D y)) 0 := by
    intro i hi j hj x
    refine HasDerivAt.fun_sum fun y _ => ?_
    have := (hK i hi j hj x y).fun_mul (grad_deriv c sol D (q.d2phi i j) y)
    rw [moved_zero] at this
    exact this
  have h2 : HasDerivAt (fun t => viscRes c T q (moved sol D t) v a)
      (q.w * (∑ i ∈ range c.d, q.dphi i a * ∑ j ∈ range c.d, ∑ w, (K' i j v w * interp c (q.dphi j) sol w + kCons c.d i j c.gas (stateAt c q.phi sol) v w * interp c (q.dphi j) D w)) -
        q.w * ∑ i ∈ range c.d, ∑ j ∈ range c.d, ∑ x,
          ((∑ y, (T' y x * (∑ i ∈ range c.d, fluxJac c.d i c.gas (stateAt c q.phi sol) v y * q.dphi i a) + T q sol y x * ∑ i ∈ range c.d, dA c sol D q i v y * q.dphi i a)) * kStrong c q sol i j x +
            lsOp c T q sol x v a * ∑ y, (K' i j x y * interp c (q.d2phi i j) sol y + kCons c.d i j c.gas (stateAt c q.phi sol) x y * interp c (q.d2phi i j) D y))) 0 := by
    refine HasDerivAt.fun_sub (HasDerivAt.const_mul _ (HasDerivAt.fun_sum fun i hi => (hF i (Finset.mem_range.1 hi)).const_mul _))
      (HasDerivAt.const_mul _ (HasDerivAt.fun_sum fun i hi => HasDerivAt.fun_sum fun j hj => HasDerivAt.fun_sum fun x _ => ?_))
    have := (hA x).fun_mul (hS i (Finset.mem_range.1 hi) j (Finset.mem_range.1 hj) x)
    rw [moved_zero] at this
    exact this
  refine HasDerivAt.congr_deriv (h1.fun_add h2) ?_
  rw [jacMul_visc c T dc q sol D hvis v a]
  have hm : missing c.inviscid sol q dc' T' v a = q.w * (∑ i ∈ range c.d, q.dphi i a * ∑ y, fluxJac c.d i c.gas (stateAt c q.phi sol) v y * ∑ x, T' y x * strong c q sol x) +
      ∑ i ∈ range c.d, q.w * dc' i * (q.dphi i a * interp c (q.dphi i) sol v) := by
    have hf : ∀ i y, fluxJac c.d i c.gas (stateAt c q.phi sol) v y = fluxJac c.inviscid.d i c.inviscid.gas (stateAt c.inviscid q.phi sol) v y := fun i y => fluxJac_visc _ _ _ _ _ _ _ _ _
    unfold missing
    simp only [hf, strong_visc c]
    rfl
  rw [hm]
  unfold omitted viscJac kStrong
  have s1 : ∀ i, ∑ j ∈ range c.d, ∑ w, (K' i j v w * interp c (q.dphi j) sol w + kCons c.d i j c.gas (stateAt c q.phi sol) v w * interp c (q.dphi j) D w) =
      (∑ j ∈ range c.d, ∑ w, K' i j v w * interp c (q.dphi j) sol w) + ∑ j ∈ range c.d, ∑ w, kCons c.d i j c.gas (stateAt c q.phi sol) v w * interp c (q.dphi j) D w := by
    intro i
    simp only [Finset.sum_add_distrib]
  have s2 : ∀ i j x, ∑ y, (K' i j x y * interp c (q.d2phi i j) sol y + kCons c.d i j c.gas (stateAt c q.phi sol) x y * interp c (q.d2phi i j) D y) =
      (∑ y, K' i j x y * interp c (q.d2phi i j) sol y) + ∑ y, kCons c.d i j c.gas (stateAt c q.phi sol) x y * interp c (q.d2phi i j) D y := fun i j x => Finset.sum_add_distrib
  simp only [s1, s2, mul_add]
  simp only [Finset.sum_add_distrib]
  simp only [mul_add, Finset.sum_add_distrib]
  ring

/-- C142 (part): for a viscous flow in any dimension, at every state with nonzero density, the derivative of the internal residual along any direction is the element Jacobian (hence the linearized
residual) plus exactly the terms in `omitted`. -/
theorem C142_viscous_partial (c : Ctx) (hd : c.d = 1 ∨ c.d = 2 ∨ c.d = 3) (hvis : c.visc = true) (hv : c.cv ≠ 0) (qs : List Qp) (sol D : Field) (hr : ∀ q ∈ qs, interp c q.phi sol .rho ≠ 0)
    (T : Tau) (T' : Qp → Var → Var → ℝ) (hT : ∀ q ∈ qs, ∀ y x, HasDerivAt (fun t => T q (moved sol D t) y x) (T' q y x) 0) (dc : Shock) (dc' : Qp → Nat → ℝ)
    (hdc : ∀ q ∈ qs, ∀ i, HasDerivAt (fun t => dc q (moved sol D t) i) (dc' q i) 0) (K' : Qp → Nat → Nat → Var → Var → ℝ) (hK : KRate c qs sol D K') (v : Var) (a : Nat) :
    HasDerivAt (fun t => internalRes c T dc qs (moved sol D t) v a)
      (linInternalRes c T dc qs sol D v a + (qs.map fun q => omitted c T sol D q (dc' q) (T' q) (K' q) v a).sum) 0 := by
  have := hasDerivAt_listsum qs (fun t q => resQp c T dc (moved sol D t) v a q) (fun q => jacMul c (fun u b => jacQp c T dc sol v a u b q) D + omitted c T sol D q (dc' q) (T' q) (K' q) v a)
    fun q hq => resQp_visc_deriv c hd hvis hv sol D q (hr q hq) T (T' q) (hT q hq) dc (dc' q) (hdc q hq) (K' q) (hK q hq) v a
  unfold internalRes
  refine HasDerivAt.congr_deriv this ?_
  have e : linInternalRes c T dc qs sol D v a = (qs.map fun q => jacMul c (fun u b => jacQp c T dc sol v a u b q) D).sum := by
    unfold linInternalRes internalJac
    exact jacMul_list c qs (fun q u b => jacQp c T dc sol v a u b q) D
  rw [e]
  rw [show (fun q => jacMul c (fun u b => jacQp c T dc sol v a u b q) D + omitted c T sol D q (dc' q) (T' q) (K' q) v a) =
    fun q => (fun q => jacMul c (fun u b => jacQp c T dc sol v a u b q) D) q + (fun q => omitted c T sol D q (dc' q) (T' q) (K' q) v a) q from rfl, List.sum_map_add]

/-! ### The diffusivity is differentiable at positive temperature -/

/-- A path of states with differentiable entries. -/
structure Smooth (s : ℝ → Prim) : Prop where
  rho : DifferentiableAt ℝ (fun t => (s t).rho) 0
  u1 : DifferentiableAt ℝ (fun t => (s t).u1) 0
  u2 : DifferentiableAt ℝ (fun t => (s t).u2) 0
  u3 : DifferentiableAt ℝ (fun t => (s t).u3) 0
  e : DifferentiableAt ℝ (fun t => (s t).e) 0
  k : DifferentiableAt ℝ (fun t => (s t).k) 0
  mu : DifferentiableAt ℝ (fun t => (s t).mu) 0
  lambda : DifferentiableAt ℝ (fun t => (s t).lambda) 0
  kth : DifferentiableAt ℝ (fun t => (s t).kth) 0
  ne : (s 0).rho ≠ 0

set_option maxHeartbeats 4000000 in
theorem kCons_smooth (d i j : Nat) (hi : i < 3) (hj : j < 3) (g : Gas) (s : ℝ → Prim) (h : Smooth s) (v w : Var) : DifferentiableAt ℝ (fun t => kCons d i j g (s t) v w) 0 := by
  obtain ⟨h1, h2, h3, h4, h5, h6, h7, h8, h9, hn⟩ := h
  interval_cases i <;> interval_cases j <;> cases v <;> cases w <;> simp only [kCons, at'] <;> (try split_ifs) <;> fun_prop (disch := assumption)

theorem state_smooth (c : Ctx) (q : Qp) (sol D : Field) (hr : interp c q.phi sol .rho ≠ 0) (hT : 0 < (stateAt c q.phi sol).T) : Smooth fun t => stateAt c q.phi (moved sol D t) := by
  have hs : (fun t => stateAt c q.phi (moved sol D t)) = fun t => prim c.d (fun r => interp c q.phi sol r + t * interp c q.phi D r) c.cp c.cv c.visc := by
    funext t; unfold stateAt; simp only [interp_moved]
  have hmu := d_mu c.d (interp c q.phi sol) (interp c q.phi D) c.cp c.cv c.visc hr hT
  rw [hs]
  exact { rho := (d_rho c.d (interp c q.phi sol) (interp c q.phi D) c.cp c.cv c.visc).differentiableAt
          u1 := (d_u1 c.d (interp c q.phi sol) (interp c q.phi D) c.cp c.cv c.visc hr).differentiableAt
          u2 := (d_u2 c.d (interp c q.phi sol) (interp c q.phi D) c.cp c.cv c.visc hr).differentiableAt
          u3 := (d_u3 c.d (interp c q.phi sol) (interp c q.phi D) c.cp c.cv c.visc hr).differentiableAt
          e := (d_e c.d (interp c q.phi sol) (interp c q.phi D) c.cp c.cv c.visc hr).differentiableAt
          k := (d_k c.d (interp c q.phi sol) (interp c q.phi D) c.cp c.cv c.visc hr).differentiableAt
          mu := hmu.differentiableAt
          lambda := (hmu.const_mul (-2 / 3)).differentiableAt
          kth := ((hmu.mul_const c.cp).div_const Pr).differentiableAt
          ne := by simpa [prim] using hr }

/-- At positive density and temperature the hypothesis of `C142_viscous_partial` on the diffusivity is met. -/
theorem C142_diffusivity (c : Ctx) (hd : c.d ≤ 3) (qs : List Qp) (sol D : Field) (hr : ∀ q ∈ qs, interp c q.phi sol .rho ≠ 0) (hT : ∀ q ∈ qs, 0 < (stateAt c q.phi sol).T) :
    ∃ K', KRate c qs sol D K' :=
  ⟨fun q i j x y => deriv (fun t => kCons c.d i j c.gas (stateAt c q.phi (moved sol D t)) x y) 0,
    fun q hq i hi j hj x y => (kCons_smooth c.d i j (by omega) (by omega) c.gas _ (state_smooth c q sol D (hr q hq) (hT q hq)) x y).hasDerivAt⟩

/-- C142: at a uniform viscous flow the Jacobian is exact, whatever differentiable stabilisation and shock capturing are used; `h2`: the second derivatives of the shape functions add up to zero. -/
theorem C142_viscous_uniform (c : Ctx) (hd : c.d = 1 ∨ c.d = 2 ∨ c.d = 3) (hvis : c.visc = true) (hv : c.cv ≠ 0) (qs : List Qp) (h1 : PhiSum c qs) (h0 : GradSum c qs)
    (h2 : ∀ q ∈ qs, ∀ i < c.d, ∀ j < c.d, ∑ a ∈ range c.n, q.d2phi i j a = 0) (U : Var → ℝ) (hU : U .rho ≠ 0) (hT : ∀ q ∈ qs, 0 < (stateAt c q.phi fun v _ => U v).T)
    (D : Field) (T : Tau) (T' : Qp → Var → Var → ℝ) (hTau : ∀ q ∈ qs, ∀ y x, HasDerivAt (fun t => T q (moved (fun v _ => U v) D t) y x) (T' q y x) 0) (dc : Shock) (dc' : Qp → Nat → ℝ)
    (hdc : ∀ q ∈ qs, ∀ i, HasDerivAt (fun t => dc q (moved (fun v _ => U v) D t) i) (dc' q i) 0) (v : Var) (a : Nat) :
    HasDerivAt (fun t => internalRes c T dc qs (moved (fun v _ => U v) D t) v a) (linInternalRes c T dc qs (fun v _ => U v) D v a) 0 := by
  have hg : ∀ q ∈ qs, ∀ i < c.d, ∀ y, interp c (q.dphi i) (fun v _ => U v) y = 0 := by
    intro q hq i hi y
    unfold interp
    rw [← Finset.sum_mul, h0 q hq i hi]; simp
  have hg2 : ∀ q ∈ qs, ∀ i < c.d, ∀ j < c.d, ∀ y, interp c (q.d2phi i j) (fun v _ => U v) y = 0 := by
    intro q hq i hi j hj y
    unfold interp
    rw [← Finset.sum_mul, h2 q hq i hi j hj]; simp
  have hr : ∀ q ∈ qs, interp c q.phi (fun v _ => U v) .rho ≠ 0 := by
    intro q hq
    unfold interp
    rw [← Finset.sum_mul, h1 q hq]; simpa [act] using hU
  obtain ⟨K', hK⟩ := C142_diffusivity c (by omega) qs (fun v _ => U v) D hr hT
  refine HasDerivAt.congr_deriv (C142_viscous_partial c hd hvis hv qs _ D hr T T' hTau dc dc' hdc K' hK v a) ?_
  rw [list_sum_zero, add_zero]
  intro q hq
  have hs : ∀ x, strong c q (fun v _ => U v) x = 0 := by
    intro x
    unfold strong
    refine Finset.sum_eq_zero fun i hi => Finset.sum_eq_zero fun y _ => ?_
    rw [hg q hq i (Finset.mem_range.1 hi) y, mul_zero]
  have e1 : ∑ i ∈ range c.d, q.w * dc' q i * (q.dphi i a * interp c (q.dphi i) (fun v _ => U v) v) = 0 :=
    Finset.sum_eq_zero fun i hi => by rw [hg q hq i (Finset.mem_range.1 hi) v]; ring
  have e2 : ∑ i ∈ range c.d, q.dphi i a * ∑ j ∈ range c.d, ∑ w, K' q i j v w * interp c (q.dphi j) (fun v _ => U v) w = 0 :=
    Finset.sum_eq_zero fun i hi => by
      rw [Finset.sum_eq_zero fun j hj => Finset.sum_eq_zero fun w _ => by rw [hg q hq j (Finset.mem_range.1 hj) w, mul_zero], mul_zero]
  unfold omitted
  rw [e1, e2, Finset.sum_eq_zero (s := range c.d) (f := fun i => ∑ j ∈ range c.d, ∑ x, _)]
  · simp [hs]
  · intro i hi
    refine Finset.sum_eq_zero fun j hj => Finset.sum_eq_zero fun x _ => ?_
    rw [Finset.sum_eq_zero (s := Finset.univ) (f := fun y => kCons c.d i j c.gas _ x y * _) fun y _ => by rw [hg2 q hq i (Finset.mem_range.1 hi) j (Finset.mem_range.1 hj) y, mul_zero],
      Finset.sum_eq_zero (s := Finset.univ) (f := fun y => K' q i j x y * _) fun y _ => by rw [hg2 q hq i (Finset.mem_range.1 hi) j (Finset.mem_range.1 hj) y, mul_zero], mul_zero, mul_zero, add_zero]

/-- Non-vacuity: the line element with the uniform state (1, 1, 2). -/
example : (∀ q ∈ [lineQp], 0 < (stateAt ⟨1, 2, 7, 5, true⟩ q.phi fun v _ => match v with | .rho => 1 | .m1 => 1 | .en => 2 | _ => 0).T) ∧ PhiSum ⟨1, 2, 7, 5, true⟩ [lineQp] ∧ GradSum ⟨1, 2, 7, 5, true⟩ [lineQp] := by
  refine ⟨?_, ?_, ?_⟩
  · intro q hq
    simp only [List.mem_singleton] at hq
    subst hq
    norm_num [stateAt, prim, interp, act, lineQp, at', Finset.sum_range_succ]
  · intro q hq
    simp only [List.mem_singleton] at hq
    subst hq
    norm_num [lineQp, Finset.sum_range_succ]
  · intro q hq i hi
    simp only [List.mem_singleton] at hq
    subst hq
    simp only at hi
    interval_cases i
    norm_num [lineQp, Finset.sum_range_succ]

/-- Gas expanding on a line element: at rest at its middle, velocity gradient one. -/
noncomputable def expanding : Field := fun v a => match v with | .rho => 1 | .m1 => if a = 0 then -1 / 2 else 1 / 2 | .en => 1 | _ => 0
/-- More gas of the same temperature. -/
def denser : Field := fun v _ => match v with | .rho => 1 | .en => 1 | _ => 0

/-- C142 fails for viscous flow even without stabilisation and shock capturing: with density, the velocity gradient and so the viscous force changes; the Jacobian has the diffusivity frozen. -/
theorem C142_viscous_fails : ¬ HasDerivAt (fun t => internalRes ⟨1, 2, 7, 5, true⟩ (fun _ _ _ _ => 0) (fun _ _ _ => 0) [lineQp] (moved expanding denser t) .m1 1)
    (linInternalRes ⟨1, 2, 7, 5, true⟩ (fun _ _ _ _ => 0) (fun _ _ _ => 0) [lineQp] expanding denser .m1 1) 0 := by
  intro h
  have hr : ∀ q ∈ [lineQp], interp ⟨1, 2, 7, 5, true⟩ q.phi expanding .rho ≠ 0 := by
    intro q hq
    simp only [List.mem_singleton] at hq
    subst hq
    norm_num [interp, act, lineQp, expanding, Finset.sum_range_succ]
  have hT : ∀ q ∈ [lineQp], 0 < (stateAt ⟨1, 2, 7, 5, true⟩ q.phi expanding).T := by
    intro q hq
    simp only [List.mem_singleton] at hq
    subst hq
    norm_num [stateAt, prim, interp, act, lineQp, at', expanding, Finset.sum_range_succ]
  obtain ⟨K', hK⟩ := C142_diffusivity ⟨1, 2, 7, 5, true⟩ (by norm_num) [lineQp] expanding denser hr hT
  have hfull := C142_viscous_partial ⟨1, 2, 7, 5, true⟩ (Or.inl rfl) rfl (by norm_num) [lineQp] expanding denser hr (fun _ _ _ _ => 0) (fun _ _ _ => 0) (fun _ _ _ _ => hasDerivAt_const _ _)
    (fun _ _ _ => 0) (fun _ _ => 0) (fun _ _ _ => hasDerivAt_const _ _) K' hK .m1 1
  have hk := hK lineQp (by simp) 0 (by norm_num) 0 (by norm_num) .m1 .m1
  have hpath : (fun t => kCons 1 0 0 (gasInit 7 5) (stateAt ⟨1, 2, 7, 5, true⟩ lineQp.phi (moved expanding denser t)) .m1 .m1) =ᶠ[nhds 0] fun t : ℝ => 4 / 3 * viscosity (1 / 5) / (1 + t) := by
    have hne : ∀ᶠ t in nhds (0:ℝ), 1 + t ≠ 0 := ((continuousAt_const (y := (1:ℝ))).add (continuousAt_id (x := (0:ℝ)))).eventually_ne (by norm_num)
    refine hne.mono fun t ht => ?_
    have hm : (stateAt ⟨1, 2, 7, 5, true⟩ lineQp.phi (moved expanding denser t)).T = 1 / 5 := by
      norm_num [stateAt, prim, interp, act, lineQp, at', expanding, denser, moved, Finset.sum_range_succ]
      field_simp
      try exact ht
    have hrho : (stateAt ⟨1, 2, 7, 5, true⟩ lineQp.phi (moved expanding denser t)).rho = 1 + t := by
      simp [stateAt, prim, interp, act, lineQp, expanding, denser, moved, Finset.sum_range_succ]
    have hmu : (stateAt ⟨1, 2, 7, 5, true⟩ lineQp.phi (moved expanding denser t)).mu = viscosity (stateAt ⟨1, 2, 7, 5, true⟩ lineQp.phi (moved expanding denser t)).T := rfl
    have hla : (stateAt ⟨1, 2, 7, 5, true⟩ lineQp.phi (moved expanding denser t)).lambda = -2 / 3 * (stateAt ⟨1, 2, 7, 5, true⟩ lineQp.phi (moved expanding denser t)).mu := rfl
    simp only [kCons]
    rw [hla, hmu, hm, hrho]; ring
  have hk1 : K' lineQp 0 0 .m1 .m1 = -(4 / 3 * viscosity (1 / 5)) := by
    have hd : HasDerivAt (fun t : ℝ => 4 / 3 * viscosity (1 / 5) / (1 + t)) (-(4 / 3 * viscosity (1 / 5))) 0 := by
      refine HasDerivAt.congr_deriv ((hasDerivAt_const (0:ℝ) (4 / 3 * viscosity (1 / 5))).fun_div ((hasDerivAt_id' (0:ℝ)).const_add 1) (by norm_num)) ?_
      norm_num
    exact (hk.congr_of_eventuallyEq hpath.symm).unique hd
  have hom := h.unique hfull
  have hpos : 0 < viscosity (1 / 5) := by
    unfold viscosity
    have : (0:ℝ) < (1 / 5 : ℝ) ^ (3 / 2 : ℝ) := Real.rpow_pos_of_pos (by norm_num) _
    positivity
  have hz : ∀ w, interp ⟨1, 2, 7, 5, true⟩ (lineQp.dphi 0) expanding w = if w = .m1 then 1 else 0 := by
    intro w
    cases w <;> norm_num [interp, act, lineQp, expanding, Finset.sum_range_succ] <;> (intro h; cases h)
  have hl : ∀ x, lsOp ⟨1, 2, 7, 5, true⟩ (fun _ _ _ _ => 0) lineQp expanding x .m1 1 = 0 := fun x => by simp [lsOp]
  have ho : omitted ⟨1, 2, 7, 5, true⟩ (fun _ _ _ _ => 0) expanding denser lineQp (fun _ => 0) (fun _ _ => 0) (K' lineQp) .m1 1 = lineQp.w * (lineQp.dphi 0 1 * K' lineQp 0 0 .m1 .m1) := by
    unfold omitted
    simp [hz, hl]
  simp only [List.map_cons, List.map_nil, List.sum_cons, List.sum_nil, add_zero, ho, hk1] at hom
  have hw : lineQp.w * (lineQp.dphi 0 1 * -(4 / 3 * viscosity (1 / 5))) ≠ 0 := by
    have : lineQp.w ≠ 0 ∧ lineQp.dphi 0 1 ≠ 0 := by constructor <;> norm_num [lineQp]
    exact mul_ne_zero this.1 (mul_ne_zero this.2 (by linarith))
  exact hw (by linarith)
end Verif.Fluid
