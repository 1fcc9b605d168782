import Verif.Props.FluidElem
import Verif.Props.FluidStab
import Mathlib.Algebra.BigOperators.Field
import Mathlib.Topology.Order.OrderClosed
import Mathlib.Topology.Algebra.Order.Group
/-
  C142 continued: the element Jacobian with the stabilisation matrix the code uses, in supersonic flow on a line.
-/
namespace Verif.Fluid

open Finset

section Spec

/-- Gradients of the shape functions at a point, as the stabilisation sees them (fluid_elem_base.cpp:1895-1901). -/
def gradList (c : Ctx) (q : Qp) : List (Fin 3 → ℝ) := (List.range c.n).map fun a => fun i => if i.val < c.d then q.dphi i a else 0

/-- `T` is the inverse of the matrix of `calculate_barth_tau_matrix` at this point and solution, on the variables of the dimension. -/
def IsTau (c : Ctx) (T : Tau) (q : Qp) (sol : Field) : Prop :=
  (∀ x z, act c.d x = true → ∑ y, barth c.d c.gas (stateAt c q.phi sol) c.visc (gradList c q) x y * T q sol y z = if x = z then 1 else 0) ∧
  (∀ x z, act c.d z = true → ∑ y, T q sol x y * barth c.d c.gas (stateAt c q.phi sol) c.visc (gradList c q) y z = if x = z then 1 else 0)

end Spec

theorem absJac_pos (U : Var → ℝ) (cp cv : ℝ) (hv : 0 < cv) (hc : cv < cp) (hT : 0 < (prim 1 U cp cv false).T) (hs : (prim 1 U cp cv false).a < (prim 1 U cp cv false).u1) (n : Fin 3 → ℝ)
    (h : (n 0 = 1 ∨ n 0 = -1)) (x y : Var) : absJac 1 (gasInit cp cv) (prim 1 U cp cv false) n x y = fluxJac 1 0 (gasInit cp cv) (prim 1 U cp cv false) x y := by
  have ha : 0 ≤ (prim 1 U cp cv false).a := Real.sqrt_nonneg _
  have hn : UnitNormal 1 n := by rcases h with h | h <;> simp [UnitNormal, h]
  have hdec := C102_decomposition 1 (Or.inl rfl) U cp cv hv hc hT n hn x y
  simp only at hdec
  rcases h with h | h
  · have hl : ∀ w, |eigVals 1 (prim 1 U cp cv false) n w| = eigVals 1 (prim 1 U cp cv false) n w := by
      intro w
      apply abs_of_nonneg
      cases w <;> simp only [eigVals, eigU, at', h, mul_one, Nat.reduceLeDiff, if_false, zero_add, le_refl] <;> linarith
    unfold absJac
    rw [Finset.sum_congr rfl fun w _ => by rw [hl w, mul_assoc], ← hdec]
    simp [normalJac, h]
  · have hl : ∀ w, |eigVals 1 (prim 1 U cp cv false) n w| = -eigVals 1 (prim 1 U cp cv false) n w := by
      intro w
      apply abs_of_nonpos
      cases w <;> simp only [eigVals, eigU, at', h, mul_neg, mul_one, Nat.reduceLeDiff, if_false, zero_add, le_refl] <;> linarith
    unfold absJac
    have : ∀ w, rightEig 1 (gasInit cp cv) (prim 1 U cp cv false) n x w * |eigVals 1 (prim 1 U cp cv false) n w| * leftEig 1 (gasInit cp cv) (prim 1 U cp cv false) n y w =
      -(rightEig 1 (gasInit cp cv) (prim 1 U cp cv false) n x w * (eigVals 1 (prim 1 U cp cv false) n w * leftEig 1 (gasInit cp cv) (prim 1 U cp cv false) n y w)) := by
      intro w; rw [hl w]; ring
    rw [Finset.sum_congr rfl fun w _ => this w, Finset.sum_neg_distrib, ← hdec]
    simp [normalJac, h]

theorem barth_line (c : Ctx) (hd : c.d = 1) (hvis : c.visc = false) (q : Qp) (U : Var → ℝ) (hv : 0 < c.cv) (hc : c.cv < c.cp) (hT : 0 < (prim 1 U c.cp c.cv false).T)
    (hs : (prim 1 U c.cp c.cv false).a < (prim 1 U c.cp c.cv false).u1) (x y : Var) :
    barth 1 c.gas (prim 1 U c.cp c.cv false) false (gradList c q) x y = (∑ a ∈ range c.n, |q.dphi 0 a|) * fluxJac 1 0 c.gas (prim 1 U c.cp c.cv false) x y := by
  unfold barth gradList
  simp only [Bool.false_eq_true, if_false, add_zero, List.map_map, hd]
  rw [Finset.sum_mul]
  rw [← List.sum_toFinset _ List.nodup_range]
  rw [List.toFinset_range]
  refine Finset.sum_congr rfl fun a _ => ?_
  simp only [Function.comp]
  have hn : nval (fun i => if i.val < 1 then q.dphi i a else 0) = |q.dphi 0 a| := by
    unfold nval
    simp only [Fin.val_zero, show ((1 : Fin 3).val < 1) = False by simp, show ((2 : Fin 3).val < 1) = False by simp, if_false, show (0 < 1) = True by simp, if_true]
    rw [show q.dphi 0 a ^ 2 + 0 ^ 2 + 0 ^ 2 = q.dphi 0 a ^ 2 by ring, Real.sqrt_sq_eq_abs]
  rw [hn]
  split_ifs with h0
  · congr 1
    apply absJac_pos U c.cp c.cv hv hc hT hs
    rcases lt_or_gt_of_ne (abs_pos.1 h0) with h | h
    · right; simp only [Fin.val_zero, Nat.zero_lt_one, if_true]; rw [abs_of_neg h, div_neg, div_self h.ne]
    · left; simp only [Fin.val_zero, Nat.zero_lt_one, if_true]; rw [abs_of_pos h]; field_simp
  · have : |q.dphi 0 a| = 0 := le_antisymm (not_lt.1 h0) (abs_nonneg _)
    rw [this, zero_mul]

theorem strong_line (c : Ctx) (hd : c.d = 1) (q : Qp) (sol : Field) (v : Var) :
    strong c q sol v = ∑ y, fluxJac 1 0 c.gas (stateAt c q.phi sol) v y * interp c (q.dphi 0) sol y := by
  unfold strong; rw [hd]; simp

theorem fluxJac_inactive (d : Nat) (hd : d = 1 ∨ d = 2 ∨ d = 3) (i : Nat) (hi : i < d) (g : Gas) (s : Prim) (v w : Var) (h : act d v = false ∨ act d w = false) : fluxJac d i g s v w = 0 := by
  rcases hd with rfl | rfl | rfl
  · obtain rfl : i = 0 := by omega
    cases v <;> cases w <;> simp [act] at h <;> simp [fluxJac, at']
  · rcases (by omega : i = 0 ∨ i = 1) with rfl | rfl <;> cases v <;> cases w <;> simp [act] at h <;> simp [fluxJac, at']
  · rcases h with h | h
    · cases v <;> simp [act] at h
    · cases w <;> simp [act] at h

/-- The stabilisation term in supersonic flow on a line: `LS^T Z = dphi_a / S Z`, for every vector on the variables of the dimension. -/
theorem ls_line (c : Ctx) (hd : c.d = 1) (hvis : c.visc = false) (q : Qp) (sol : Field) (hv : 0 < c.cv) (hc : c.cv < c.cp) (hT : 0 < (stateAt c q.phi sol).T)
    (hs : (stateAt c q.phi sol).a < (stateAt c q.phi sol).u1) (hS : ∑ a ∈ range c.n, |q.dphi 0 a| ≠ 0) (T : Tau) (h : IsTau c T q sol) (v : Var) (hav : act 1 v = true) (a : Nat) (Z : Var → ℝ) :
    ∑ x, lsOp c T q sol x v a * Z x = q.dphi 0 a / (∑ a ∈ range c.n, |q.dphi 0 a|) * Z v := by
  set S := ∑ a ∈ range c.n, |q.dphi 0 a| with hSd
  have h1 := h.1
  rw [hd, hvis] at h1
  have hst : stateAt c q.phi sol = prim 1 (interp c q.phi sol) c.cp c.cv false := by unfold stateAt; rw [hd, hvis]
  rw [hst] at h1 hT hs
  have hA : ∀ z, ∑ y, fluxJac 1 0 c.gas (prim 1 (interp c q.phi sol) c.cp c.cv false) v y * T q sol y z = (if v = z then 1 else 0) / S := by
    intro z
    have := h1 v z hav
    rw [Finset.sum_congr rfl fun y _ => by rw [barth_line c hd hvis q (interp c q.phi sol) hv hc hT hs v y, ← hSd, mul_assoc], ← Finset.mul_sum] at this
    rw [eq_div_iff hS, mul_comm]; exact this
  have e : ∀ x, lsOp c T q sol x v a = q.dphi 0 a * ((if v = x then 1 else 0) / S) := by
    intro x
    rw [← hA x]
    unfold lsOp
    rw [hd, hst]
    simp only [Finset.range_one, Finset.sum_singleton]
    rw [Finset.mul_sum]
    refine Finset.sum_congr rfl fun y _ => by ring
  rw [Finset.sum_congr rfl fun x _ => show lsOp c T q sol x v a * Z x = (if v = x then 1 else 0) * (q.dphi 0 a / S * Z x) by rw [e x]; ring, sum_delta]

/-- `T (A G) = G / S` in supersonic flow on a line. -/
theorem tau_strong (c : Ctx) (hd : c.d = 1) (hvis : c.visc = false) (q : Qp) (sol : Field) (hv : 0 < c.cv) (hc : c.cv < c.cp) (hT : 0 < (stateAt c q.phi sol).T)
    (hs : (stateAt c q.phi sol).a < (stateAt c q.phi sol).u1) (hS : ∑ a ∈ range c.n, |q.dphi 0 a| ≠ 0) (T : Tau) (h : IsTau c T q sol) (y : Var) :
    ∑ x, T q sol y x * strong c q sol x = interp c (q.dphi 0) sol y / (∑ a ∈ range c.n, |q.dphi 0 a|) := by
  set S := ∑ a ∈ range c.n, |q.dphi 0 a| with hSd
  have h1 := h.2
  rw [hd, hvis] at h1
  have hst : stateAt c q.phi sol = prim 1 (interp c q.phi sol) c.cp c.cv false := by unfold stateAt; rw [hd, hvis]
  rw [hst] at h1 hT hs
  have hA : ∀ z, act 1 z = true → ∑ x, T q sol y x * fluxJac 1 0 c.gas (prim 1 (interp c q.phi sol) c.cp c.cv false) x z = (if y = z then 1 else 0) / S := by
    intro z hz
    have := h1 y z hz
    rw [Finset.sum_congr rfl fun x _ => by rw [barth_line c hd hvis q (interp c q.phi sol) hv hc hT hs x z, ← hSd, mul_left_comm], ← Finset.mul_sum] at this
    rw [eq_div_iff hS, mul_comm]; exact this
  rw [Finset.sum_congr rfl fun x _ => by rw [strong_line c hd, Finset.mul_sum]]
  rw [Finset.sum_comm]
  rw [hst]
  have : ∀ z, ∑ x, T q sol y x * (fluxJac 1 0 c.gas (prim 1 (interp c q.phi sol) c.cp c.cv false) x z * interp c (q.dphi 0) sol z) = (if y = z then 1 else 0) * (interp c (q.dphi 0) sol z / S) := by
    intro z
    by_cases hz : act 1 z = true
    · rw [Finset.sum_congr rfl fun x _ => (mul_assoc _ _ _).symm, ← Finset.sum_mul, hA z hz]; ring
    · have : interp c (q.dphi 0) sol z = 0 := by unfold interp; rw [hd]; simp [hz]
      simp [this]
  rw [Finset.sum_congr rfl fun z _ => this z, sum_delta]

/-- The flow stays supersonic with positive temperature near a supersonic state. -/
theorem supersonic_near (c : Ctx) (hd : c.d = 1) (hvis : c.visc = false) (hv : 0 < c.cv) (hc : c.cv < c.cp) (q : Qp) (sol D : Field) (hr : interp c q.phi sol .rho ≠ 0)
    (hT : 0 < (stateAt c q.phi sol).T) (hs : (stateAt c q.phi sol).a < (stateAt c q.phi sol).u1) :
    ∀ᶠ t in nhds (0:ℝ), 0 < (stateAt c q.phi (moved sol D t)).T ∧ (stateAt c q.phi (moved sol D t)).a < (stateAt c q.phi (moved sol D t)).u1 := by
  have hst : ∀ y, stateAt c q.phi y = prim 1 (interp c q.phi y) c.cp c.cv false := fun y => by unfold stateAt; rw [hd, hvis]
  simp only [hst, interp_moved] at *
  have h1 := (d_T 1 (interp c q.phi sol) (interp c q.phi D) c.cp c.cv false hr).continuousAt
  have h2 := (d_u1 1 (interp c q.phi sol) (interp c q.phi D) c.cp c.cv false hr).continuousAt
  have h3 := (d_a 1 (interp c q.phi sol) (interp c q.phi D) c.cp c.cv false hr hv hc hT).continuousAt
  refine (h1.eventually (lt_mem_nhds ?_)).and (h3.eventually_lt h2 ?_)
  · simpa using hT
  · simpa using hs

/-- C142 (violated with the stabilisation matrix of the code): in supersonic flow on a line, with `tau` the inverse of the matrix the code builds, the Jacobian times a direction exceeds
the derivative of the residual by `∑_q w dphi_a / ∑|dphi| (∂A/∂U D) ∂U/∂x`: the term is counted twice because the change of `tau` is left out. -/
theorem C142_supersonic (c : Ctx) (hd : c.d = 1) (hvis : c.visc = false) (hv : 0 < c.cv) (hc : c.cv < c.cp) (qs : List Qp) (sol D : Field) (hr : ∀ q ∈ qs, interp c q.phi sol .rho ≠ 0)
    (hT : ∀ q ∈ qs, 0 < (stateAt c q.phi sol).T) (hs : ∀ q ∈ qs, (stateAt c q.phi sol).a < (stateAt c q.phi sol).u1) (hS : ∀ q ∈ qs, ∑ a ∈ range c.n, |q.dphi 0 a| ≠ 0) (T : Tau)
    (h : ∀ q ∈ qs, ∀ y, 0 < (stateAt c q.phi y).T → (stateAt c q.phi y).a < (stateAt c q.phi y).u1 → IsTau c T q y) (v : Var) (hav : act 1 v = true) (a : Nat) :
    HasDerivAt (fun t => internalRes c T (fun _ _ _ => 0) qs (moved sol D t) v a) (linInternalRes c T (fun _ _ _ => 0) qs sol D v a -
      (qs.map fun q => q.w * (q.dphi 0 a / (∑ b ∈ range c.n, |q.dphi 0 b|)) * ∑ y, dA c sol D q 0 v y * interp c (q.dphi 0) sol y).sum) 0 := by
  have hd' : c.d = 1 ∨ c.d = 2 ∨ c.d = 3 := Or.inl hd
  have e : linInternalRes c T (fun _ _ _ => 0) qs sol D v a = (qs.map fun q => jacMul c (fun u b => jacQp c T (fun _ _ _ => 0) sol v a u b q) D).sum := by
    unfold linInternalRes internalJac
    exact jacMul_list c qs (fun q u b => jacQp c T (fun _ _ _ => 0) sol v a u b q) D
  rw [e]
  have lsub : ∀ (f g : Qp → ℝ), (qs.map f).sum - (qs.map g).sum = (qs.map fun q => f q - g q).sum := by
    intro f g
    clear hr hT hs hS h e
    induction qs with
    | nil => simp
    | cons q l ih => simp only [List.map_cons, List.sum_cons, ← ih]; ring
  rw [lsub]
  unfold internalRes
  refine hasDerivAt_listsum qs (fun t q => resQp c T (fun _ _ _ => 0) (moved sol D t) v a q) _ fun q hq => ?_
  have hq := hr q hq
  rename_i hmem
  set S := ∑ b ∈ range c.n, |q.dphi 0 b| with hSd
  have hE : (fun t => resQp c T (fun _ _ _ => 0) (moved sol D t) v a q) =ᶠ[nhds 0]
      fun t => -(q.w * (q.dphi 0 a * flux 1 0 (stateAt c q.phi (moved sol D t)) v)) + q.w * (q.dphi 0 a / S * strong c q (moved sol D t) v) := by
    filter_upwards [supersonic_near c hd hvis hv hc q sol D hq (hT q hmem) (hs q hmem)] with t ht
    unfold resQp
    simp only [hvis, Bool.false_eq_true, if_false, sub_zero, add_zero, mul_zero, zero_mul]
    rw [ls_line c hd hvis q (moved sol D t) hv hc ht.1 ht.2 (hS q hmem) T (h q hmem _ ht.1 ht.2) v hav a, hd, ← hSd]
    simp
  have h1 := flux_deriv c hd' hvis hv.ne' sol D q hq 0 (by omega) v
  rw [hd] at h1
  have hD := ((h1.const_mul (q.dphi 0 a)).const_mul q.w).fun_neg.fun_add (((strong_deriv c hd' hvis hv.ne' sol D q hq v).const_mul (q.dphi 0 a / S)).const_mul q.w)
  refine HasDerivAt.congr_deriv (hD.congr_of_eventuallyEq hE) ?_
  rw [jacQp_mul c sol D q hvis T (fun _ _ _ => 0) v a]
  rw [ls_line c hd hvis q sol hv hc (hT q hmem) (hs q hmem) (hS q hmem) T (h q hmem _ (hT q hmem) (hs q hmem)) v hav a,
    ls_line c hd hvis q sol hv hc (hT q hmem) (hs q hmem) (hS q hmem) T (h q hmem _ (hT q hmem) (hs q hmem)) v hav a]
  simp only [tau_strong c hd hvis q sol hv hc (hT q hmem) (hs q hmem) (hS q hmem) T (h q hmem _ (hT q hmem) (hs q hmem)), ← hSd]
  rw [hd]
  simp only [Finset.range_one, Finset.sum_singleton, Finset.sum_add_distrib]
  have : ∑ y, dA c sol D q 0 v y * (interp c (q.dphi 0) sol y / S) = (∑ y, dA c sol D q 0 v y * interp c (q.dphi 0) sol y) / S := by
    rw [Finset.sum_div]; exact Finset.sum_congr rfl fun y _ => by ring
  rw [this]
  ring

/-- The inverse of the stabilisation matrix in supersonic flow on a line, through the eigenvectors. -/
noncomputable def tauSuper (c : Ctx) : Tau := fun q sol x z =>
  let s := prim 1 (interp c q.phi sol) c.cp c.cv false
  1 / (∑ a ∈ range c.n, |q.dphi 0 a|) * ∑ w, rightEig 1 c.gas s (fun _ => 1) x w * ((eigVals 1 s (fun _ => 1) w)⁻¹ * leftEig 1 c.gas s (fun _ => 1) z w)

/-- The hypothesis of C142_supersonic on the stabilisation is met: the matrix has an inverse at every supersonic state. -/
theorem tauSuper_is (c : Ctx) (hd : c.d = 1) (hvis : c.visc = false) (hv : 0 < c.cv) (hc : c.cv < c.cp) (q : Qp) (hS : ∑ a ∈ range c.n, |q.dphi 0 a| ≠ 0) (sol : Field)
    (hT : 0 < (stateAt c q.phi sol).T) (hs : (stateAt c q.phi sol).a < (stateAt c q.phi sol).u1) : IsTau c (tauSuper c) q sol := by
  have hst : stateAt c q.phi sol = prim 1 (interp c q.phi sol) c.cp c.cv false := by unfold stateAt; rw [hd, hvis]
  unfold IsTau
  rw [hd, hvis, hst]
  rw [hst] at hT hs
  set U := interp c q.phi sol with hU
  set S := ∑ a ∈ range c.n, |q.dphi 0 a| with hSd
  set n : Fin 3 → ℝ := fun _ => 1 with hn
  have hun : UnitNormal 1 n := by simp [UnitNormal, hn]
  have ha : 0 ≤ (prim 1 U c.cp c.cv false).a := Real.sqrt_nonneg _
  have hdec : ∀ x y, fluxJac 1 0 c.gas (prim 1 U c.cp c.cv false) x y = ∑ w, rightEig 1 c.gas (prim 1 U c.cp c.cv false) n x w *
      (eigVals 1 (prim 1 U c.cp c.cv false) n w * leftEig 1 c.gas (prim 1 U c.cp c.cv false) n y w) := by
    intro x y
    have := C102_decomposition 1 (Or.inl rfl) U c.cp c.cv hv hc hT n hun x y
    simp only at this
    unfold Ctx.gas
    rw [← this]; simp [normalJac, hn]
  have hl : ∀ w, actW 1 w = true → eigVals 1 (prim 1 U c.cp c.cv false) n w ≠ 0 := by
    intro w hw
    cases w <;> simp [actW] at hw <;> simp only [eigVals, eigU, at', hn, mul_one, Nat.reduceLeDiff, if_false, zero_add] <;> intro h <;> linarith
  have h2 := (C102_inverse 1 (Or.inl rfl) U c.cp c.cv hv hc hT n hun).2
  have hz : ∀ y w, actW 1 w = false → leftEig 1 c.gas (prim 1 U c.cp c.cv false) n y w = 0 := by
    intro y w hw
    have : eigDim 1 n = 0 := by simp [eigDim, nrm, at', hn]
    cases w <;> simp [actW] at hw <;> cases y <;> simp [leftEig, leftC2, leftC3, sel, this, at']
  have fin : ∀ (f : Wave → ℝ), (∀ w, actW 1 w = true → f w = 1) → ∀ x z, ∑ w, rightEig 1 c.gas (prim 1 U c.cp c.cv false) n x w *
      ((if actW 1 w = true then f w else 0) * leftEig 1 c.gas (prim 1 U c.cp c.cv false) n z w) = if x = z ∧ act 1 x = true then 1 else 0 := by
    intro f hf x z
    rw [← h2 x z]
    refine Finset.sum_congr rfl fun w _ => ?_
    by_cases hw : actW 1 w = true
    · rw [if_pos hw, hf w hw, one_mul]; rfl
    · have := hz z w (by simpa using hw)
      rw [this]; unfold Ctx.gas at this; rw [this]; ring
  constructor
  · intro x z hx
    rw [Finset.sum_congr rfl fun y _ => by rw [barth_line c hd hvis q U hv hc hT hs x y, ← hSd]]
    have : ∀ y, S * fluxJac 1 0 c.gas (prim 1 U c.cp c.cv false) x y * tauSuper c q sol y z =
        (∑ w, rightEig 1 c.gas (prim 1 U c.cp c.cv false) n x w * (eigVals 1 (prim 1 U c.cp c.cv false) n w * leftEig 1 c.gas (prim 1 U c.cp c.cv false) n y w)) *
        ∑ w, rightEig 1 c.gas (prim 1 U c.cp c.cv false) n y w * ((eigVals 1 (prim 1 U c.cp c.cv false) n w)⁻¹ * leftEig 1 c.gas (prim 1 U c.cp c.cv false) n z w) := by
      intro y
      unfold tauSuper
      rw [hdec x y]
      simp only [← hSd, ← hU, ← hn]
      field_simp
    rw [Finset.sum_congr rfl fun y _ => this y]
    have := fun_mul 1 (Or.inl rfl) U c.cp c.cv hv hc hT n hun (fun w => eigVals 1 (prim 1 U c.cp c.cv false) n w) (fun w => (eigVals 1 (prim 1 U c.cp c.cv false) n w)⁻¹) x z
    simp only at this
    unfold Ctx.gas
    rw [this]
    have := fin (fun w => eigVals 1 (prim 1 U c.cp c.cv false) n w * (eigVals 1 (prim 1 U c.cp c.cv false) n w)⁻¹) (fun w hw => mul_inv_cancel₀ (hl w hw)) x z
    unfold Ctx.gas at this
    rw [this]; simp [hx]
  · intro x z hz'
    rw [Finset.sum_congr rfl fun y _ => by rw [barth_line c hd hvis q U hv hc hT hs y z, ← hSd]]
    have : ∀ y, tauSuper c q sol x y * (S * fluxJac 1 0 c.gas (prim 1 U c.cp c.cv false) y z) =
        (∑ w, rightEig 1 c.gas (prim 1 U c.cp c.cv false) n x w * ((eigVals 1 (prim 1 U c.cp c.cv false) n w)⁻¹ * leftEig 1 c.gas (prim 1 U c.cp c.cv false) n y w)) *
        ∑ w, rightEig 1 c.gas (prim 1 U c.cp c.cv false) n y w * (eigVals 1 (prim 1 U c.cp c.cv false) n w * leftEig 1 c.gas (prim 1 U c.cp c.cv false) n z w) := by
      intro y
      unfold tauSuper
      rw [hdec y z]
      simp only [← hSd, ← hU, ← hn]
      field_simp
    rw [Finset.sum_congr rfl fun y _ => this y]
    have := fun_mul 1 (Or.inl rfl) U c.cp c.cv hv hc hT n hun (fun w => (eigVals 1 (prim 1 U c.cp c.cv false) n w)⁻¹) (fun w => eigVals 1 (prim 1 U c.cp c.cv false) n w) x z
    simp only at this
    unfold Ctx.gas
    rw [this]
    have := fin (fun w => (eigVals 1 (prim 1 U c.cp c.cv false) n w)⁻¹ * eigVals 1 (prim 1 U c.cp c.cv false) n w) (fun w hw => inv_mul_cancel₀ (hl w hw)) x z
    unfold Ctx.gas at this
    rw [this]
    by_cases hxz : x = z
    · subst hxz; simp [hz']
    · simp [hxz]

/-- Supersonic flow of a gas with `γ = 7/5` on a line element: density 1, momentum 5/2 and 7/2, energy 19/2 at the nodes (velocity 3, temperature 1, speed of sound below 2 at the middle). -/
noncomputable def superSol : Field := fun v a =>
  match v with
  | .rho => 1
  | .m1 => if a = 0 then 5 / 2 else 7 / 2
  | .en => 19 / 2
  | _ => 0

/-- Unit change of the momentum at both nodes. -/
def superDir : Field := fun v _ => if v = .m1 then 1 else 0

theorem superSol_state : interp ⟨1, 2, 7, 5, false⟩ lineQp.phi superSol .rho = 1 ∧ (stateAt ⟨1, 2, 7, 5, false⟩ lineQp.phi superSol).u1 = 3 ∧ (stateAt ⟨1, 2, 7, 5, false⟩ lineQp.phi superSol).T = 1 ∧
    (stateAt ⟨1, 2, 7, 5, false⟩ lineQp.phi superSol).a < 2 := by
  have hT : (stateAt ⟨1, 2, 7, 5, false⟩ lineQp.phi superSol).T = 1 := by
    simp only [stateAt, prim, interp, act, lineQp, superSol, at', Finset.sum_range_succ]; norm_num
  refine ⟨by norm_num [interp, act, lineQp, superSol, Finset.sum_range_succ], by norm_num [stateAt, prim, interp, act, lineQp, superSol, Finset.sum_range_succ], hT, ?_⟩
  have : (stateAt ⟨1, 2, 7, 5, false⟩ lineQp.phi superSol).a = Real.sqrt ((7:ℝ) / 5 * (7 - 5) * (stateAt ⟨1, 2, 7, 5, false⟩ lineQp.phi superSol).T) := rfl
  rw [this, hT, Real.sqrt_lt' (by norm_num)]; norm_num

/-- C142 (violated): there is a supersonic flow on a line element for which, with the inverse of the matrix the code builds as stabilisation, the element Jacobian times a direction is
not the derivative of the internal residual along it. -/
theorem C142_supersonic_fails (T : Tau)
    (h : ∀ y, 0 < (stateAt ⟨1, 2, 7, 5, false⟩ lineQp.phi y).T → (stateAt ⟨1, 2, 7, 5, false⟩ lineQp.phi y).a < (stateAt ⟨1, 2, 7, 5, false⟩ lineQp.phi y).u1 → IsTau ⟨1, 2, 7, 5, false⟩ T lineQp y) :
    ¬ HasDerivAt (fun t => internalRes ⟨1, 2, 7, 5, false⟩ T (fun _ _ _ => 0) [lineQp] (moved superSol superDir t) .m1 1) (linInternalRes ⟨1, 2, 7, 5, false⟩ T (fun _ _ _ => 0) [lineQp] superSol superDir .m1 1) 0 := by
  obtain ⟨h1, h2, h3, h4⟩ := superSol_state
  intro hbad
  have hgood := C142_supersonic ⟨1, 2, 7, 5, false⟩ rfl rfl (by norm_num) (by norm_num) [lineQp] superSol superDir (by intro q hq; simp only [List.mem_singleton] at hq; subst hq; rw [h1]; norm_num)
    (by intro q hq; simp only [List.mem_singleton] at hq; subst hq; rw [h3]; norm_num) (by intro q hq; simp only [List.mem_singleton] at hq; subst hq; rw [h2]; linarith)
    (by intro q hq; simp only [List.mem_singleton] at hq; subst hq; norm_num [lineQp, Finset.sum_range_succ]) T (by intro q hq; simp only [List.mem_singleton] at hq; subst hq; exact h) .m1 rfl 1
  have := hbad.unique hgood
  have hz : (List.map (fun q : Qp => q.w * (q.dphi 0 1 / ∑ b ∈ range 2, |q.dphi 0 b|) * ∑ y, dA ⟨1, 2, 7, 5, false⟩ superSol superDir q 0 .m1 y * interp ⟨1, 2, 7, 5, false⟩ (q.dphi 0) superSol y) [lineQp]).sum = 4 / 5 := by
    have hi : ∀ y, interp ⟨1, 2, 7, 5, false⟩ (lineQp.dphi 0) superSol y = if y = .m1 then 1 else 0 := by
      intro y; cases y <;> simp [interp, act, lineQp, superSol, Finset.sum_range_succ] <;> norm_num
    have hD : ∀ u, interp ⟨1, 2, 7, 5, false⟩ lineQp.phi superDir u = if u = .m1 then 1 else 0 := by
      intro u; cases u <;> simp [interp, act, lineQp, superDir, Finset.sum_range_succ] <;> norm_num
    have hA : dA ⟨1, 2, 7, 5, false⟩ superSol superDir lineQp 0 .m1 .m1 = 8 / 5 := by
      unfold dA
      simp only [hD, mul_ite, mul_one, mul_zero, Finset.sum_ite_eq', Finset.mem_univ, if_true]
      rw [fluxJacSensCons_eq]
      · rw [sumVar]
        have hr : (stateAt ⟨1, 2, 7, 5, false⟩ lineQp.phi superSol).rho = 1 := h1
        simp only [dprimDcons, fluxJacSens, at', Ctx.gas, gasInit, hr]; norm_num
      · intro u hu; cases u <;> simp [act] at hu <;> simp [dprimDcons, at']
    simp only [List.map_cons, List.map_nil, List.sum_cons, List.sum_nil, add_zero, hi, mul_ite, mul_one, mul_zero, Finset.sum_ite_eq', Finset.mem_univ, if_true, hA]
    norm_num [lineQp, Finset.sum_range_succ]
  rw [hz] at this
  linarith

/-- Non-vacuity of C142_supersonic and C142_supersonic_fails: the inverse exists. -/
example : ∃ T : Tau, ∀ y, 0 < (stateAt ⟨1, 2, 7, 5, false⟩ lineQp.phi y).T → (stateAt ⟨1, 2, 7, 5, false⟩ lineQp.phi y).a < (stateAt ⟨1, 2, 7, 5, false⟩ lineQp.phi y).u1 →
    IsTau ⟨1, 2, 7, 5, false⟩ T lineQp y :=
  ⟨tauSuper ⟨1, 2, 7, 5, false⟩, fun y hT hs => tauSuper_is _ rfl rfl (by norm_num) (by norm_num) lineQp (by norm_num [lineQp, Finset.sum_range_succ]) y hT hs⟩

end Verif.Fluid
