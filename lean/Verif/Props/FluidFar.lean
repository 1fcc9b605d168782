import Verif.Props.FluidTau
import Mathlib.Topology.Algebra.Monoid
/-
  C143: far field boundary.  C144: preservation of the free stream.  C147: sensitivity of the far field.
-/
namespace Verif.Fluid

open Finset

section Spec

/-- Euler flux through a unit normal of the `d` dimensional space: `∑_i n_i F_i(U)`. -/
noncomputable def normalFlux (d : Nat) (cp cv : ℝ) (n : Fin 3 → ℝ) (U : Var → ℝ) (v : Var) : ℝ := ∑ i : Fin 3, if i.val < d then n i * eulerFlux d cp cv i U v else 0

/-- A state with the dimension's variables only. -/
def InDim (d : Nat) (U : Var → ℝ) : Prop := ∀ v, act d v = false → U v = 0

end Spec

theorem split_visc (pos : Bool) (d : Nat) (g : Gas) (U : Var → ℝ) (cp cv : ℝ) (visc : Bool) (n : Fin 3 → ℝ) (x y : Var) :
    split pos d g (prim d U cp cv visc) n x y = split pos d g (prim d U cp cv false) n x y := by
  unfold split
  refine Finset.sum_congr rfl fun w _ => ?_
  cases w <;> cases x <;> cases y <;> rfl

theorem interp_inDim (c : Ctx) (ψ : Nat → ℝ) (x : Field) : InDim c.d (interp c ψ x) := by
  intro v hv; unfold interp; simp [hv]

/-- The Euler flux is homogeneous of degree one: `A_i U = F_i`. -/
theorem homogeneous (d : Nat) (hd : d = 1 ∨ d = 2 ∨ d = 3) (i : Fin 3) (hi : i.val < d) (U : Var → ℝ) (h0 : InDim d U) (cp cv : ℝ) (hr : U .rho ≠ 0) (hv : cv ≠ 0) (v : Var) :
    ∑ y, fluxJac d i (gasInit cp cv) (prim d U cp cv false) v y * U y = eulerFlux d cp cv i U v := by
  rw [← C100_flux d hd i hi U h0 cp cv hr v, sumVar]
  have h2 := h0 .m2
  have h3 := h0 .m3
  rcases hd with rfl | rfl | rfl <;> fin_cases i <;> simp at hi <;> cases v <;>
    simp [fluxJac, flux, gasInit, prim, at', act] at h2 h3 ⊢ <;> field_simp <;> ring

theorem normalJac_mul (d : Nat) (hd : d = 1 ∨ d = 2 ∨ d = 3) (g : Gas) (s : Prim) (n : Fin 3 → ℝ) (D : Var → ℝ) (v : Var) :
    ∑ y, normalJac d g s n v y * D y = ∑ i : Fin 3, if i.val < d then n i * ∑ y, fluxJac d i g s v y * D y else 0 := by
  rw [Fin.sum_univ_three]
  simp only [sumVar]
  rcases hd with rfl | rfl | rfl <;> simp [normalJac] <;> ring

/-- `A⁻ + A⁺ = ∑ n_i A_i`. -/
theorem split_sum (d : Nat) (hd : d = 1 ∨ d = 2 ∨ d = 3) (U : Var → ℝ) (cp cv : ℝ) (hv : 0 < cv) (hc : cv < cp) (hT : 0 < (prim d U cp cv false).T) (n : Fin 3 → ℝ) (hn : UnitNormal d n) (x y : Var) :
    split false d (gasInit cp cv) (prim d U cp cv false) n x y + split true d (gasInit cp cv) (prim d U cp cv false) n x y = normalJac d (gasInit cp cv) (prim d U cp cv false) n x y := by
  have := C102_decomposition d hd U cp cv hv hc hT n hn x y
  simp only at this
  rw [this]
  unfold split
  rw [← Finset.sum_add_distrib]
  refine Finset.sum_congr rfl fun w _ => ?_
  have : keep false (eigVals d (prim d U cp cv false) n w) + keep true (eigVals d (prim d U cp cv false) n w) = eigVals d (prim d U cp cv false) n w := by
    unfold keep
    simp only [Bool.false_eq_true, if_false, if_true]
    split_ifs <;> linarith
  rw [mul_right_comm, mul_right_comm _ (keep true _), ← mul_add, this]; ring

theorem normal_flux_eq (c : Ctx) (hd : c.d = 1 ∨ c.d = 2 ∨ c.d = 3) (hv : 0 < c.cv) (U : Var → ℝ) (h0 : InDim c.d U) (hr : U .rho ≠ 0) (n : Fin 3 → ℝ) (v : Var) :
    ∑ y, normalJac c.d c.gas (prim c.d U c.cp c.cv false) n v y * U y = normalFlux c.d c.cp c.cv n U v := by
  rw [normalJac_mul c.d hd]
  unfold normalFlux
  refine Finset.sum_congr rfl fun i _ => ?_
  split_ifs with hi
  · unfold Ctx.gas; rw [homogeneous c.d hd i hi U h0 c.cp c.cv hr hv.ne' v]
  · rfl

/-- The far field flux is the Euler flux plus the incoming part of the difference to the free stream. -/
theorem far_eq (c : Ctx) (hd : c.d = 1 ∨ c.d = 2 ∨ c.d = 3) (hv : 0 < c.cv) (hc : c.cv < c.cp) (U inf : Var → ℝ) (h0 : InDim c.d U) (hr : U .rho ≠ 0) (hT : 0 < (prim c.d U c.cp c.cv false).T)
    (n : Fin 3 → ℝ) (hn : UnitNormal c.d n) (v : Var) :
    farFlux c U inf n v = normalFlux c.d c.cp c.cv n U v + ∑ y, split false c.d c.gas (prim c.d U c.cp c.cv false) n v y * (inf y - U y) := by
  unfold farFlux
  simp only [split_visc]
  rw [← normal_flux_eq c hd hv U h0 hr n v, ← Finset.sum_add_distrib, ← Finset.sum_add_distrib]
  refine Finset.sum_congr rfl fun y _ => ?_
  have := split_sum c.d hd U c.cp c.cv hv hc hT n hn v y
  unfold Ctx.gas
  rw [← this]; ring

/-- C143: when the state at the boundary is the free stream, the far field flux is the Euler flux through the normal, subsonic or supersonic, in or out. -/
theorem C143_consistent (c : Ctx) (hd : c.d = 1 ∨ c.d = 2 ∨ c.d = 3) (hv : 0 < c.cv) (hc : c.cv < c.cp) (U : Var → ℝ) (h0 : InDim c.d U) (hr : U .rho ≠ 0) (hT : 0 < (prim c.d U c.cp c.cv false).T)
    (n : Fin 3 → ℝ) (hn : UnitNormal c.d n) (v : Var) : farFlux c U U n v = normalFlux c.d c.cp c.cv n U v := by
  rw [far_eq c hd hv hc U U h0 hr hT n hn v]; simp

theorem eig_pos (d : Nat) (s : Prim) (n : Fin 3 → ℝ) (ha : 0 ≤ s.a) (h : s.a < normalVel d s n) (w : Wave) : 0 ≤ eigVals d s n w := by
  have hu : eigU d s n = normalVel d s n := by unfold eigU normalVel at'; ring
  cases w <;> simp only [eigVals, hu, at'] <;> (try split_ifs) <;> linarith

theorem eig_neg (d : Nat) (s : Prim) (n : Fin 3 → ℝ) (ha : 0 ≤ s.a) (h : normalVel d s n < -s.a) (w : Wave) : eigVals d s n w ≤ 0 := by
  have hu : eigU d s n = normalVel d s n := by unfold eigU normalVel at'; ring
  cases w <;> simp only [eigVals, hu, at'] <;> (try split_ifs) <;> linarith

/-- C143: at a supersonic outflow the far field flux is the Euler flux of the interior state, whatever the free stream. -/
theorem C143_outflow (c : Ctx) (hd : c.d = 1 ∨ c.d = 2 ∨ c.d = 3) (hv : 0 < c.cv) (hc : c.cv < c.cp) (U inf : Var → ℝ) (h0 : InDim c.d U) (hr : U .rho ≠ 0) (hT : 0 < (prim c.d U c.cp c.cv false).T)
    (n : Fin 3 → ℝ) (hn : UnitNormal c.d n) (hs : (prim c.d U c.cp c.cv false).a < normalVel c.d (prim c.d U c.cp c.cv false) n) (v : Var) :
    farFlux c U inf n v = normalFlux c.d c.cp c.cv n U v := by
  rw [far_eq c hd hv hc U inf h0 hr hT n hn v, Finset.sum_eq_zero, add_zero]
  intro y _
  have : split false c.d c.gas (prim c.d U c.cp c.cv false) n v y = 0 := by
    unfold split
    refine Finset.sum_eq_zero fun w _ => ?_
    have := eig_pos c.d (prim c.d U c.cp c.cv false) n (Real.sqrt_nonneg _) hs w
    have : keep false (eigVals c.d (prim c.d U c.cp c.cv false) n w) = 0 := by unfold keep; simp only [Bool.false_eq_true, if_false]; rw [if_neg (not_lt.2 this)]
    rw [this]; ring
  rw [this, zero_mul]

/-- C143: at a supersonic inflow nothing of the interior state is convected out: the flux is the split matrix applied to the free stream. -/
theorem C143_inflow (c : Ctx) (hd : c.d = 1 ∨ c.d = 2 ∨ c.d = 3) (hv : 0 < c.cv) (hc : c.cv < c.cp) (U inf : Var → ℝ) (hT : 0 < (prim c.d U c.cp c.cv false).T)
    (n : Fin 3 → ℝ) (hn : UnitNormal c.d n) (hs : normalVel c.d (prim c.d U c.cp c.cv false) n < -(prim c.d U c.cp c.cv false).a) (v : Var) :
    farFlux c U inf n v = ∑ y, normalJac c.d c.gas (prim c.d U c.cp c.cv false) n v y * inf y := by
  have hz : ∀ y, split true c.d c.gas (prim c.d U c.cp c.cv false) n v y = 0 := by
    intro y
    unfold split
    refine Finset.sum_eq_zero fun w _ => ?_
    have := eig_neg c.d (prim c.d U c.cp c.cv false) n (Real.sqrt_nonneg _) hs w
    have : keep true (eigVals c.d (prim c.d U c.cp c.cv false) n w) = 0 := by unfold keep; simp only [if_true]; rw [if_neg (not_lt.2 this)]
    rw [this]; ring
  unfold farFlux
  simp only [split_visc, hz, zero_mul, Finset.sum_const_zero, add_zero]
  refine Finset.sum_congr rfl fun y _ => ?_
  have := split_sum c.d hd U c.cp c.cv hv hc hT n hn v y
  have hz' := hz y
  unfold Ctx.gas at *
  rw [← this, hz', add_zero]

section cont

/-- Continuity of the fields a state's eigenvectors depend on. -/
structure Cont (S : ℝ → Prim) : Prop where
  u1 : ContinuousAt (fun t => (S t).u1) 0
  u2 : ContinuousAt (fun t => (S t).u2) 0
  u3 : ContinuousAt (fun t => (S t).u3) 0
  T : ContinuousAt (fun t => (S t).T) 0
  a : ContinuousAt (fun t => (S t).a) 0
  k : ContinuousAt (fun t => (S t).k) 0

theorem at'_cont (n d : Nat) (f : ℝ → ℝ) (h : ContinuousAt f 0) : ContinuousAt (fun t => at' n d (f t)) 0 := by
  unfold at'; split_ifs
  · exact h
  · exact continuousAt_const

variable (d : Nat) (g : Gas) (S : ℝ → Prim) (hS : Cont S) (n : Fin 3 → ℝ)

include hS in
theorem eigU_cont : ContinuousAt (fun t => eigU d (S t) n) 0 := by
  obtain ⟨h1, h2, h3, -, -, -⟩ := hS
  unfold eigU
  exact ((at'_cont 3 d _ (h3.mul_const _)).add (at'_cont 2 d _ (h2.mul_const _))).add (h1.mul_const _)

include hS in
theorem eigVals_cont (w : Wave) : ContinuousAt (fun t => eigVals d (S t) n w) 0 := by
  have hu := eigU_cont d S hS n
  cases w
  · exact hu
  · exact at'_cont 2 d _ hu
  · exact at'_cont 3 d _ hu
  · exact hu.sub hS.a
  · exact hu.add hS.a

theorem keep_cont (pos : Bool) (f : ℝ → ℝ) (h : ContinuousAt f 0) : ContinuousAt (fun t => keep pos (f t)) 0 := by
  cases pos
  · have : (fun t => keep false (f t)) = fun t => min (f t) 0 := by
      funext t; unfold keep; simp only [Bool.false_eq_true, if_false]
      split_ifs with h
      · exact (min_eq_left h.le).symm
      · exact (min_eq_right (not_lt.1 h)).symm
    rw [this]; exact h.inf continuousAt_const
  · have : (fun t => keep true (f t)) = fun t => max (f t) 0 := by
      funext t; unfold keep; simp only [if_true]
      split_ifs with h
      · exact (max_eq_left h.le).symm
      · exact (max_eq_right (not_lt.1 h)).symm
    rw [this]; exact h.sup continuousAt_const

theorem sel_cont (m : Fin 3) (f0 f1 f2 : ℝ → ℝ) (h0 : ContinuousAt f0 0) (h1 : ContinuousAt f1 0) (h2 : ContinuousAt f2 0) : ContinuousAt (fun t => sel m (f0 t) (f1 t) (f2 t)) 0 := by
  unfold sel; split_ifs <;> assumption

include hS in
theorem leftEig_cont (v : Var) (w : Wave) : ContinuousAt (fun t => leftEig d g (S t) n v w) 0 := by
  have hu := eigU_cont d S hS n
  obtain ⟨h1, h2, h3, hT, ha, hk⟩ := hS
  cases w <;> cases v <;> simp only [leftEig, leftC1, leftC2, leftC3, leftMinus, leftPlus, div_eq_mul_inv] <;>
    first
      | fun_prop
      | (refine at'_cont _ _ _ ?_; fun_prop)
      | (refine sel_cont _ _ _ _ ?_ ?_ ?_ <;> first | fun_prop | (refine at'_cont _ _ _ ?_; fun_prop))

include hS in
theorem rightEig_cont (hg : g.cv * g.gamma ≠ 0) (hT0 : (S 0).T ≠ 0) (ha0 : (S 0).a ≠ 0) (v : Var) (w : Wave) : ContinuousAt (fun t => rightEig d g (S t) n v w) 0 := by
  have hu := eigU_cont d S hS n
  obtain ⟨h1, h2, h3, hT, ha, hk⟩ := hS
  have iT : ContinuousAt (fun t => (g.cv * (S t).T * g.gamma)⁻¹) 0 := by
    refine ContinuousAt.inv₀ (by fun_prop) ?_
    rw [mul_right_comm]; exact mul_ne_zero hg hT0
  have iT2 : ContinuousAt (fun t => (2 * g.cv * (S t).T * g.gamma)⁻¹) 0 := by
    refine ContinuousAt.inv₀ (by fun_prop) ?_
    have := mul_ne_zero hg hT0
    intro h0; apply this; linarith
  have ia : ContinuousAt (fun t => ((S t).a)⁻¹) 0 := ha.inv₀ ha0
  have ia2 : ContinuousAt (fun t => ((S t).a * (S t).a)⁻¹) 0 := (ha.mul ha).inv₀ (mul_ne_zero ha0 ha0)
  have he : ∀ v, ContinuousAt (fun t => rightEntropy d g (S t) v) 0 := by
    intro v
    cases v <;> simp only [rightEntropy, div_eq_mul_inv] <;> first | fun_prop | (refine at'_cont _ _ _ ?_; fun_prop)
  have r1 : ∀ v, ContinuousAt (fun t => rightC1 d g (S t) n v) 0 := by
    intro v
    cases v <;> simp only [rightC1, div_eq_mul_inv] <;> first | fun_prop | (refine at'_cont _ _ _ ?_; fun_prop)
  have r2 : ∀ v, ContinuousAt (fun t => rightC2 d g (S t) n v) 0 := by
    intro v
    cases v <;> simp only [rightC2, div_eq_mul_inv] <;> first | fun_prop | (refine at'_cont _ _ _ ?_; fun_prop)
  have r3 : ∀ v, ContinuousAt (fun t => rightC3 d g (S t) n v) 0 := by
    intro v
    cases v <;> simp only [rightC3, div_eq_mul_inv] <;> first | fun_prop | (refine at'_cont _ _ _ ?_; fun_prop)
  cases w
  · simp only [rightEig]; split_ifs; exacts [he v, r1 v]
  · simp only [rightEig]; split_ifs; exacts [he v, r2 v]
  · simp only [rightEig]; split_ifs; exacts [he v, r3 v]
  · simp only [rightEig]; cases v <;> simp only [rightMinus, div_eq_mul_inv] <;> first | fun_prop | (refine at'_cont _ _ _ ?_; fun_prop)
  · simp only [rightEig]; cases v <;> simp only [rightPlus, div_eq_mul_inv] <;> first | fun_prop | (refine at'_cont _ _ _ ?_; fun_prop)

include hS in
theorem split_cont (pos : Bool) (hg : g.cv * g.gamma ≠ 0) (hT0 : (S 0).T ≠ 0) (ha0 : (S 0).a ≠ 0) (x y : Var) : ContinuousAt (fun t => split pos d g (S t) n x y) 0 := by
  unfold split
  refine tendsto_finsetSum _ fun w _ => ?_
  exact ((rightEig_cont d g S hS n hg hT0 ha0 x w).mul (keep_cont pos _ (eigVals_cont d S hS n w))).mul (leftEig_cont d g S hS n y w)

end cont

/-- Continuity of the state along a line. -/
theorem cont_line (d : Nat) (U D : Var → ℝ) (cp cv : ℝ) (hr : U .rho ≠ 0) (hv : 0 < cv) (hc : cv < cp) (hT : 0 < (prim d U cp cv false).T) :
    Cont (fun t : ℝ => prim d (fun v => U v + t * D v) cp cv false) :=
  ⟨(d_u1 d U D cp cv false hr).continuousAt, (d_u2 d U D cp cv false hr).continuousAt, (d_u3 d U D cp cv false hr).continuousAt, (d_T d U D cp cv false hr).continuousAt,
    (d_a d U D cp cv false hr hv hc hT).continuousAt, (d_k d U D cp cv false hr).continuousAt⟩

/-- Derivative of the normal Euler flux. -/
theorem normalFlux_deriv (c : Ctx) (hd : c.d = 1 ∨ c.d = 2 ∨ c.d = 3) (hv : 0 < c.cv) (U D : Var → ℝ) (h0 : InDim c.d U) (hD : InDim c.d D) (hr : U .rho ≠ 0) (n : Fin 3 → ℝ) (v : Var) :
    DerivAlong (fun W => normalFlux c.d c.cp c.cv n W v) U D (∑ y, normalJac c.d c.gas (prim c.d U c.cp c.cv false) n v y * D y) := by
  unfold DerivAlong
  rw [normalJac_mul c.d hd]
  unfold normalFlux
  refine HasDerivAt.fun_sum fun i _ => ?_
  by_cases hi : i.val < c.d
  · simp only [hi, if_true]
    have h := C100_flux_jacobian c.d hd i hi U D c.cp c.cv false hr hv.ne' v
    unfold DerivAlong at h
    have hrho : ∀ᶠ t in nhds (0:ℝ), U .rho + t * D .rho ≠ 0 :=
      (line U D .rho).continuousAt.eventually_ne (by simpa using hr)
    have he : (fun t : ℝ => eulerFlux c.d c.cp c.cv i (fun w => U w + t * D w) v) =ᶠ[nhds 0] fun t => flux c.d i (prim c.d (fun w => U w + t * D w) c.cp c.cv false) v := by
      filter_upwards [hrho] with t ht
      exact (C100_flux c.d hd i hi (fun w => U w + t * D w) (fun w hw => by rw [h0 w hw, hD w hw]; ring) c.cp c.cv ht v).symm
    exact (h.congr_of_eventuallyEq he).const_mul (n i)
  · simp only [hi, if_false]; exact hasDerivAt_const _ _

/-- The state at the boundary is the free stream, or leaves it supersonically. -/
def Exact (c : Ctx) (U inf : Var → ℝ) (n : Fin 3 → ℝ) : Prop := U = inf ∨ (prim c.d U c.cp c.cv false).a < normalVel c.d (prim c.d U c.cp c.cv false) n

/-- C143: at the free stream and at every supersonic outflow the matrix the code adds to the Jacobian is the derivative of the far field flux with respect to the interior state. -/
theorem C143_flux_jacobian (c : Ctx) (hd : c.d = 1 ∨ c.d = 2 ∨ c.d = 3) (hv : 0 < c.cv) (hc : c.cv < c.cp) (U inf D : Var → ℝ) (h0 : InDim c.d U) (hD : InDim c.d D) (hr : U .rho ≠ 0)
    (hT : 0 < (prim c.d U c.cp c.cv false).T) (n : Fin 3 → ℝ) (hn : UnitNormal c.d n) (he : Exact c U inf n) (v : Var) :
    DerivAlong (fun W => farFlux c W inf n v) U D (∑ y, split true c.d c.gas (prim c.d U c.cp c.cv c.visc) n v y * D y) := by
  simp only [split_visc]
  have hnear : ∀ᶠ t in nhds (0:ℝ), U .rho + t * D .rho ≠ 0 ∧ 0 < (prim c.d (fun w => U w + t * D w) c.cp c.cv false).T :=
    ((line U D .rho).continuousAt.eventually_ne (by simpa using hr)).and
      ((d_T c.d U D c.cp c.cv false hr).continuousAt.eventually (lt_mem_nhds (by simpa using hT)))
  have hin : ∀ t : ℝ, InDim c.d (fun w => U w + t * D w) := fun t w hw => by show U w + t * D w = 0; rw [h0 w hw, hD w hw]; ring
  have hF := normalFlux_deriv c hd hv U D h0 hD hr n v
  unfold DerivAlong at *
  have hsplit : ∀ y, normalJac c.d c.gas (prim c.d U c.cp c.cv false) n v y = split false c.d c.gas (prim c.d U c.cp c.cv false) n v y + split true c.d c.gas (prim c.d U c.cp c.cv false) n v y :=
    fun y => (split_sum c.d hd U c.cp c.cv hv hc hT n hn v y).symm
  rcases he with rfl | hs
  · have e : (fun t : ℝ => farFlux c (fun w => U w + t * D w) U n v) =ᶠ[nhds 0]
        fun t => normalFlux c.d c.cp c.cv n (fun w => U w + t * D w) v - t * ∑ y, split false c.d c.gas (prim c.d (fun w => U w + t * D w) c.cp c.cv false) n v y * D y := by
      filter_upwards [hnear] with t ht
      rw [far_eq c hd hv hc _ U (hin t) ht.1 ht.2 n hn v, Finset.mul_sum, sub_eq_add_neg, ← Finset.sum_neg_distrib]
      congr 1
      refine Finset.sum_congr rfl fun y _ => by ring
    have hc' : ContinuousAt (fun t : ℝ => ∑ y, split false c.d c.gas (prim c.d (fun w => U w + t * D w) c.cp c.cv false) n v y * D y) 0 := by
      refine tendsto_finsetSum _ fun y _ => ?_
      have hcl := cont_line c.d U D c.cp c.cv hr hv hc hT
      have hg : 0 < c.cp / c.cv * (c.cp - c.cv) := mul_pos (div_pos (hv.trans hc) hv) (by linarith)
      refine ContinuousAt.mul_const (split_cont c.d c.gas _ hcl n false ?_ ?_ ?_ v y) _
      · show c.cv * (c.cp / c.cv) ≠ 0
        exact mul_ne_zero hv.ne' (div_pos (hv.trans hc) hv).ne'
      · simp only [zero_mul, add_zero]; exact hT.ne'
      · simp only [zero_mul, add_zero]; exact (Real.sqrt_pos.2 (mul_pos hg hT)).ne'
    have hm : HasDerivAt (fun t : ℝ => t * ∑ y, split false c.d c.gas (prim c.d (fun w => U w + t * D w) c.cp c.cv false) n v y * D y)
        (∑ y, split false c.d c.gas (prim c.d U c.cp c.cv false) n v y * D y) 0 := by
      rw [hasDerivAt_iff_tendsto_slope]
      have hlim := hc'.tendsto
      simp only [zero_mul, add_zero] at hlim
      refine Filter.Tendsto.congr' ?_ (hlim.mono_left nhdsWithin_le_nhds)
      filter_upwards [self_mem_nhdsWithin] with t ht
      rw [slope_def_field]
      simp only [zero_mul, sub_zero]
      rw [mul_div_assoc, mul_comm, div_mul_cancel₀ _ ht]
    refine HasDerivAt.congr_deriv ((hF.fun_sub hm).congr_of_eventuallyEq e) ?_
    rw [← Finset.sum_sub_distrib]
    refine Finset.sum_congr rfl fun y _ => ?_
    rw [hsplit y]; ring
  · have hs' : ∀ᶠ t in nhds (0:ℝ), (prim c.d (fun w => U w + t * D w) c.cp c.cv false).a < normalVel c.d (prim c.d (fun w => U w + t * D w) c.cp c.cv false) n := by
      have hcl := cont_line c.d U D c.cp c.cv hr hv hc hT
      have hu : ContinuousAt (fun t : ℝ => normalVel c.d (prim c.d (fun w => U w + t * D w) c.cp c.cv false) n) 0 := by
        have := eigU_cont c.d _ hcl n
        have e : (fun t : ℝ => normalVel c.d (prim c.d (fun w => U w + t * D w) c.cp c.cv false) n) = fun t => eigU c.d (prim c.d (fun w => U w + t * D w) c.cp c.cv false) n := by
          funext t; unfold eigU normalVel at'; ring
        rw [e]; exact this
      exact hcl.a.eventually_lt hu (by simpa using hs)
    have e : (fun t : ℝ => farFlux c (fun w => U w + t * D w) inf n v) =ᶠ[nhds 0] fun t => normalFlux c.d c.cp c.cv n (fun w => U w + t * D w) v := by
      filter_upwards [hnear, hs'] with t ht hst
      exact C143_outflow c hd hv hc _ inf (hin t) ht.1 ht.2 n hn hst v
    refine HasDerivAt.congr_deriv (hF.congr_of_eventuallyEq e) ?_
    refine Finset.sum_congr rfl fun y _ => ?_
    have : split false c.d c.gas (prim c.d U c.cp c.cv false) n v y = 0 := by
      unfold split
      refine Finset.sum_eq_zero fun w _ => ?_
      have := eig_pos c.d (prim c.d U c.cp c.cv false) n (Real.sqrt_nonneg _) hs w
      have : keep false (eigVals c.d (prim c.d U c.cp c.cv false) n w) = 0 := by unfold keep; simp only [Bool.false_eq_true, if_false]; rw [if_neg (not_lt.2 this)]
      rw [this]; ring
    rw [hsplit y, this, zero_add]

/-- C143: hence the Jacobian of the far field residual is exact when at every point of the side the state is the free stream or leaves supersonically. -/
theorem C143_jacobian_partial (c : Ctx) (hd : c.d = 1 ∨ c.d = 2 ∨ c.d = 3) (hv : 0 < c.cv) (hc : c.cv < c.cp) (qs : List SideQp) (inf : SideQp → Var → ℝ) (sol D : Field)
    (hr : ∀ q ∈ qs, interp c q.phi sol .rho ≠ 0) (hT : ∀ q ∈ qs, 0 < (prim c.d (interp c q.phi sol) c.cp c.cv false).T) (hn : ∀ q ∈ qs, UnitNormal c.d q.n)
    (he : ∀ q ∈ qs, Exact c (interp c q.phi sol) (inf q) q.n) (v : Var) (a : Nat) :
    HasDerivAt (fun t => farRes c qs inf (moved sol D t) v a) (jacMul c (farJac c qs sol v a) D) 0 := by
  unfold farRes farJac
  rw [jacMul_list c qs (fun q u b => q.w * (q.phi a * (split true c.d c.gas (stateAt c q.phi sol) q.n v u * q.phi b))) D]
  refine hasDerivAt_listsum qs (fun t q => q.w * (q.phi a * farFlux c (interp c q.phi (moved sol D t)) (inf q) q.n v)) _ fun q hq => ?_
  rw [jacMul_smul, jacMul_smul, jacMul_mul]
  simp only [interp_moved]
  exact ((C143_flux_jacobian c hd hv hc (interp c q.phi sol) (inf q) (interp c q.phi D) (interp_inDim c _ _) (interp_inDim c _ _) (hr q hq) (hT q hq) q.n (hn q hq) (he q hq) v).const_mul (q.phi a)).const_mul q.w

/-- C143 (violated at a supersonic inflow away from the free stream): the code's Jacobian is zero there, but the flux is `A(U) U∞` and changes with `U`.  On a line, density 1,
velocity -2, temperature 1 against a free stream of velocity -3. -/
theorem C143_inflow_fails : ∃ (c : Ctx) (U inf D : Var → ℝ) (n : Fin 3 → ℝ), c.d = 1 ∧ 0 < c.cv ∧ c.cv < c.cp ∧ InDim 1 U ∧ 0 < U .rho ∧ 0 < (prim 1 U c.cp c.cv false).T ∧ UnitNormal 1 n ∧
    ∃ x, DerivAlong (fun W => farFlux c W inf n .m1) U D x ∧ x ≠ ∑ y, split true c.d c.gas (prim c.d U c.cp c.cv c.visc) n .m1 y * D y := by
  let U : Var → ℝ := fun v => match v with | .rho => 1 | .m1 => -2 | .en => 7 | _ => 0
  let inf : Var → ℝ := fun v => match v with | .rho => 1 | .m1 => -3 | .en => 19 / 2 | _ => 0
  let D : Var → ℝ := fun r => if r = .m1 then 1 else 0
  let n : Fin 3 → ℝ := fun i => if i = 0 then 1 else 0
  let c : Ctx := ⟨1, 2, 7, 5, false⟩
  have hT : (prim 1 U 7 5 false).T = 1 := by simp only [prim, U, at']; norm_num
  have hu : (prim 1 U 7 5 false).u1 = -2 := by simp [prim, U]
  have ha : (prim 1 U 7 5 false).a < 2 := by
    have : (prim 1 U 7 5 false).a = Real.sqrt ((7:ℝ) / 5 * (7 - 5) * (prim 1 U 7 5 false).T) := rfl
    rw [this, hT, Real.sqrt_lt' (by norm_num)]; norm_num
  have hun : UnitNormal 1 n := by simp [UnitNormal, n]
  have hin : InDim 1 U := by intro v hv; cases v <;> simp [act] at hv <;> rfl
  refine ⟨c, U, inf, D, n, rfl, by norm_num [c], by norm_num [c], hin, by norm_num [U], by show 0 < (prim 1 U 7 5 false).T; rw [hT]; norm_num, hun, ?_⟩
  have hr : U .rho ≠ 0 := by norm_num [U]
  have hcl := cont_line 1 U D 7 5 hr (by norm_num) (by norm_num) (by rw [hT]; norm_num)
  have hnv : ∀ s : Prim, normalVel 1 s n = s.u1 := by intro s; simp [normalVel, n]
  have hs' : ∀ᶠ t in nhds (0:ℝ), normalVel 1 (prim 1 (fun w => U w + t * D w) 7 5 false) n < -(prim 1 (fun w => U w + t * D w) 7 5 false).a := by
    simp only [hnv]
    refine hcl.u1.eventually_lt hcl.a.neg ?_
    simp only [zero_mul, add_zero]; rw [hu]; linarith
  have hT' : ∀ᶠ t in nhds (0:ℝ), 0 < (prim 1 (fun w => U w + t * D w) 7 5 false).T := hcl.T.eventually (lt_mem_nhds (by simp only [zero_mul, add_zero]; rw [hT]; norm_num))
  have e : (fun t : ℝ => farFlux c (fun w => U w + t * D w) inf n .m1) =ᶠ[nhds 0] fun t => ∑ y, fluxJac 1 0 (gasInit 7 5) (prim 1 (fun w => U w + t * D w) 7 5 false) .m1 y * inf y := by
    filter_upwards [hs', hT'] with t h1 h2
    rw [C143_inflow c (Or.inl rfl) (by norm_num [c]) (by norm_num [c]) _ inf h2 n hun h1 .m1]
    refine Finset.sum_congr rfl fun y _ => ?_
    simp [normalJac, n, c, Ctx.gas]
  have hd : HasDerivAt (fun t : ℝ => ∑ y, fluxJac 1 0 (gasInit 7 5) (prim 1 (fun w => U w + t * D w) 7 5 false) .m1 y * inf y)
      (∑ y, fluxJacSensCons 1 0 .m1 (gasInit 7 5) (prim 1 U 7 5 false) .m1 y * inf y) 0 :=
    HasDerivAt.fun_sum fun y _ => (C101_conservative 1 (Or.inl rfl) 0 (by decide) .m1 7 5 (by norm_num) U hr .m1 y).mul_const _
  refine ⟨_, hd.congr_of_eventuallyEq e, ?_⟩
  have hz : ∑ y, split true c.d c.gas (prim c.d U c.cp c.cv c.visc) n .m1 y * D y = 0 := by
    refine Finset.sum_eq_zero fun y _ => ?_
    have : split true 1 c.gas (prim 1 U 7 5 false) n .m1 y = 0 := by
      unfold split
      refine Finset.sum_eq_zero fun w _ => ?_
      have := eig_neg 1 (prim 1 U 7 5 false) n (Real.sqrt_nonneg _) (by rw [hnv, hu]; linarith) w
      have : keep true (eigVals 1 (prim 1 U 7 5 false) n w) = 0 := by unfold keep; simp only [if_true]; rw [if_neg (not_lt.2 this)]
      rw [this]; ring
    show split true 1 c.gas (prim 1 U 7 5 false) n .m1 y * D y = 0
    rw [this, zero_mul]
  rw [hz, sumVar]
  have hzz : ∀ y, fluxJacSensCons 1 0 .m1 (gasInit 7 5) (prim 1 U 7 5 false) .m1 y = ∑ q, dprimDcons 1 (gasInit 7 5) (prim 1 U 7 5 false) q .m1 * fluxJacSens 1 0 q (gasInit 7 5) (prim 1 U 7 5 false) .m1 y := by
    intro y
    apply fluxJacSensCons_eq
    intro u hu; cases u <;> simp [act] at hu <;> simp [dprimDcons, at']
  have hrho : (prim 1 U 7 5 false).rho = 1 := rfl
  rw [hzz, hzz, hzz, hzz, hzz]
  simp only [sumVar, dprimDcons, fluxJacSens, at', gasInit, hu, hrho, inf]
  norm_num

/-- Non-vacuity of C143: air entering a three dimensional boundary obliquely. -/
example : let n : Fin 3 → ℝ := fun i => if i = 0 then 1 / 3 else if i = 1 then 2 / 3 else -2 / 3
    UnitNormal 3 n ∧ InDim 3 (consOf 3 718 1 10 20 30 300) ∧ 0 < (prim 3 (consOf 3 718 1 10 20 30 300) 1005 718 false).T := by
  intro n
  refine ⟨by norm_num [UnitNormal, n, f20, f21], fun v hv => by cases v <;> simp [act] at hv, by norm_num [consOf, prim, at']⟩

end Verif.Fluid
