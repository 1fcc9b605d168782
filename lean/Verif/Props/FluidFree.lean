import Verif.Props.FluidFar
/-
  C144: preservation of the free stream by the element and the far field boundary.  C147: sensitivity of the far field boundary.
-/
namespace Verif.Fluid

open Finset

section Spec

/-- The shape functions add up to one at every point of the sides. -/
def SidePhiSum (c : Ctx) (ss : List SideQp) : Prop := ∀ q ∈ ss, ∑ a ∈ range c.n, q.phi a = 1

/-- The second derivatives of the shape functions add up to zero (used only by a viscous element). -/
def HessSum (c : Ctx) (qs : List Qp) : Prop := ∀ q ∈ qs, ∀ i < c.d, ∀ j < c.d, ∑ a ∈ range c.n, q.d2phi i j a = 0

/-- The quadrature rules satisfy Gauss's theorem for the shape functions: `∫ ∂_i N_a = ∮ n_i N_a`. -/
def Gauss (c : Ctx) (qs : List Qp) (ss : List SideQp) : Prop :=
  ∀ (i : Fin 3), i.val < c.d → ∀ a, (qs.map fun q => q.w * q.dphi i a).sum = (ss.map fun q => q.w * (q.n i * q.phi a)).sum

/-- Nodal values of a uniform flow. -/
def uniform (U : Var → ℝ) : Field := fun v _ => U v

end Spec

theorem interp_uniform (c : Ctx) (ψ : Nat → ℝ) (U : Var → ℝ) (h0 : InDim c.d U) (v : Var) : interp c ψ (uniform U) v = (∑ a ∈ range c.n, ψ a) * U v := by
  unfold interp uniform
  split_ifs with h
  · rw [Finset.sum_mul]
  · rw [h0 v (by simpa using h), mul_zero]

theorem addAt_zero (i j : Nat) : addAt (fun _ _ => 0) i j 0 = fun _ _ => 0 := by
  funext r c; unfold addAt; split_ifs <;> simp

theorem foldl_fix {α β : Type} (l : List α) (f : β → α → β) (x : β) (h : ∀ a, f x a = x) : l.foldl f x = x := by
  induction l with
  | nil => rfl
  | cons a l ih => rw [List.foldl_cons, h a, ih]

theorem stress_zero (d : Nat) (mu lam : ℝ) (P : Nat → Var → ℝ) (hP : ∀ i < d, ∀ v, P i v = 0) : stress d mu lam P = fun _ _ => 0 := by
  unfold stress
  have key : ∀ l : List Nat, (∀ i ∈ l, i < d) → l.foldl (fun A i => (List.range d).foldl (fun A j =>
      addAt (addAt (addAt A i j (mu * P i (mvar j))) j i (mu * P i (mvar j))) j j (lam * P i (mvar i))) A) (fun _ _ => 0) = fun _ _ => 0 := by
    intro l
    induction l with
    | nil => intro _; rfl
    | cons i l ih =>
      intro h
      have hi := h i (by simp)
      rw [List.foldl_cons, foldl_fix (List.range d) _ (fun _ _ => (0:ℝ))]
      · exact ih fun j hj => h j (by simp [hj])
      · intro j
        simp only [hP i hi, mul_zero, addAt_zero]
  exact key _ fun i hi => List.mem_range.1 hi

theorem flux_visc (d i : Nat) (U : Var → ℝ) (cp cv : ℝ) (visc : Bool) (v : Var) : flux d i (prim d U cp cv visc) v = flux d i (prim d U cp cv false) v := by
  cases v <;> rfl

/-- In a uniform flow only the advection flux is left at a quadrature point. -/
theorem resQp_uniform (c : Ctx) (hd : c.d = 1 ∨ c.d = 2 ∨ c.d = 3) (T : Tau) (dc : Shock) (q : Qp) (U : Var → ℝ) (h0 : InDim c.d U) (hr : U .rho ≠ 0) (h1 : ∑ a ∈ range c.n, q.phi a = 1)
    (hg : ∀ i < c.d, ∑ a ∈ range c.n, q.dphi i a = 0) (hh : c.visc = true → ∀ i < c.d, ∀ j < c.d, ∑ a ∈ range c.n, q.d2phi i j a = 0) (v : Var) (a : Nat) :
    resQp c T dc (uniform U) v a q = -∑ i : Fin 3, if i.val < c.d then q.w * q.dphi i a * eulerFlux c.d c.cp c.cv i U v else 0 := by
  have hU : interp c q.phi (uniform U) = U := by funext w; rw [interp_uniform c _ U h0, h1, one_mul]
  have hG : ∀ i < c.d, interp c (q.dphi i) (uniform U) = fun _ => 0 := fun i hi => by funext w; rw [interp_uniform c _ U h0, hg i hi, zero_mul]
  have hS : ∀ x, strong c q (uniform U) x = 0 := by
    intro x; unfold strong
    refine Finset.sum_eq_zero fun i hi => ?_
    rw [hG i (Finset.mem_range.1 hi)]; simp
  have hP : ∀ i < c.d, ∀ w, primGrad c q.phi q.dphi (uniform U) i w = 0 := by
    intro i hi w; unfold primGrad gradPrim; simp only [hG i hi, mul_zero, Finset.sum_const_zero]
  have hV : ∀ i < c.d, viscAt c q (uniform U) i v = 0 := by
    intro i hi
    unfold viscAt stressAt
    rw [stress_zero _ _ _ _ hP]
    have ht : tempGrad c.d (primGrad c q.phi q.dphi (uniform U)) i = 0 := by unfold tempGrad; rw [if_pos hi, hP i hi]
    cases v <;> simp only [diffFlux, at', ht]
    · split_ifs <;> rfl
    · split_ifs <;> rfl
    · split_ifs <;> rfl
    · rw [foldl_fix _ _ (0:ℝ) (by intro j; ring)]; ring
  unfold resQp
  have hlast : (if c.visc = true then q.w * ∑ i ∈ range c.d, ∑ j ∈ range c.d, ∑ x, lsOp c T q (uniform U) x v a * ∑ y, kCons c.d i j c.gas (stateAt c q.phi (uniform U)) x y * interp c (q.d2phi i j) (uniform U) y else 0) = 0 := by
    split_ifs with hvis
    · rw [Finset.sum_eq_zero, mul_zero]
      intro i hi
      refine Finset.sum_eq_zero fun j hj => Finset.sum_eq_zero fun x _ => ?_
      rw [Finset.sum_eq_zero, mul_zero]
      intro y _
      rw [interp_uniform c _ U h0, hh hvis i (Finset.mem_range.1 hi) j (Finset.mem_range.1 hj)]; ring
    · rfl
  rw [hlast]
  simp only [hS, mul_zero, Finset.sum_const_zero, add_zero, sub_zero]
  rw [← Finset.sum_neg_distrib]
  have hF : ∀ i : Fin 3, i.val < c.d → flux c.d i (stateAt c q.phi (uniform U)) v = eulerFlux c.d c.cp c.cv i U v := by
    intro i hi
    unfold stateAt
    rw [hU, flux_visc]
    exact C100_flux c.d hd i hi U h0 c.cp c.cv hr v
  have term : ∀ i ∈ range c.d, -(q.w * (q.dphi i a * flux c.d i (stateAt c q.phi (uniform U)) v)) + (if c.visc = true then q.w * (q.dphi i a * viscAt c q (uniform U) i v) else 0) +
      q.w * dc q (uniform U) i * (q.dphi i a * interp c (q.dphi i) (uniform U) v) = -(q.w * q.dphi i a * flux c.d i (stateAt c q.phi (uniform U)) v) := by
    intro i hi
    have hi := Finset.mem_range.1 hi
    rw [hV i hi, hG i hi]
    simp only [mul_zero, ite_self, add_zero]; ring
  rw [Finset.sum_congr rfl term, Fin.sum_univ_three]
  have f0 := hF 0; have f1 := hF 1; have f2 := hF 2
  rcases hd with h | h | h <;> rw [h] at f0 f1 f2 ⊢ <;> simp [Finset.sum_range_succ] at f0 f1 f2 ⊢ <;> simp [f0, f1, f2] <;> ring

theorem list_neg_sum {α : Type} (l : List α) (f : α → ℝ) : (l.map fun q => -f q).sum = -(l.map f).sum := by
  induction l with
  | nil => simp
  | cons q l ih => simp only [List.map_cons, List.sum_cons, ih]; ring

theorem list_fin_sum {α : Type} (l : List α) (f : Fin 3 → α → ℝ) : (l.map fun q => ∑ i, f i q).sum = ∑ i, (l.map (f i)).sum := by
  induction l with
  | nil => simp
  | cons q l ih => simp only [List.map_cons, List.sum_cons, ih, Finset.sum_add_distrib]

theorem list_mul_const {α : Type} (l : List α) (f : α → ℝ) (r : ℝ) : (l.map fun q => f q * r).sum = (l.map f).sum * r := by
  induction l with
  | nil => simp
  | cons q l ih => simp only [List.map_cons, List.sum_cons, ih]; ring

/-- C144: a uniform flow equal to the free stream is a steady state of an element all of whose sides are far field sides: the residual of the element and of its boundary cancel at every
node and in every equation, viscous or not, whatever the stabilisation and the shock capturing operator. -/
theorem C144_free_stream (c : Ctx) (hd : c.d = 1 ∨ c.d = 2 ∨ c.d = 3) (hv : 0 < c.cv) (hc : c.cv < c.cp) (T : Tau) (dc : Shock) (qs : List Qp) (ss : List SideQp) (U : Var → ℝ)
    (h0 : InDim c.d U) (hr : U .rho ≠ 0) (hT : 0 < (prim c.d U c.cp c.cv false).T) (hphi : PhiSum c qs) (hgrad : GradSum c qs) (hhess : c.visc = true → HessSum c qs)
    (hside : SidePhiSum c ss) (hn : ∀ q ∈ ss, UnitNormal c.d q.n) (hgauss : Gauss c qs ss) (v : Var) (a : Nat) :
    internalRes c T dc qs (uniform U) v a + farRes c ss (fun _ => U) (uniform U) v a = 0 := by
  have e1 : internalRes c T dc qs (uniform U) v a = -∑ i : Fin 3, (if i.val < c.d then (qs.map fun q => q.w * q.dphi i a).sum * eulerFlux c.d c.cp c.cv i U v else 0) := by
    unfold internalRes
    rw [list_congr' qs _ _ fun q hq => resQp_uniform c hd T dc q U h0 hr (hphi q hq) (hgrad q hq) (fun h => hhess h q hq) v a, list_neg_sum,
      list_fin_sum qs fun i q => if i.val < c.d then q.w * q.dphi i a * eulerFlux c.d c.cp c.cv i U v else 0]
    congr 1
    refine Finset.sum_congr rfl fun i _ => ?_
    split_ifs
    · exact list_mul_const qs _ _
    · exact list_sum_zero qs _ fun _ _ => rfl
  have e2 : farRes c ss (fun _ => U) (uniform U) v a = ∑ i : Fin 3, (if i.val < c.d then (ss.map fun q => q.w * (q.n i * q.phi a)).sum * eulerFlux c.d c.cp c.cv i U v else 0) := by
    unfold farRes
    rw [list_congr' ss _ (fun q => ∑ i : Fin 3, if i.val < c.d then q.w * (q.n i * q.phi a) * eulerFlux c.d c.cp c.cv i U v else 0),
      list_fin_sum ss fun i q => if i.val < c.d then q.w * (q.n i * q.phi a) * eulerFlux c.d c.cp c.cv i U v else 0]
    · refine Finset.sum_congr rfl fun i _ => ?_
      split_ifs
      · exact list_mul_const ss _ _
      · exact list_sum_zero ss _ fun _ _ => rfl
    · intro q hq
      have hU : interp c q.phi (uniform U) = U := by funext w; rw [interp_uniform c _ U h0, hside q hq, one_mul]
      rw [hU, C143_consistent c hd hv hc U h0 hr hT q.n (hn q hq) v, normalFlux, Finset.mul_sum, Finset.mul_sum]
      refine Finset.sum_congr rfl fun i _ => ?_
      split_ifs <;> ring
  rw [e1, e2, neg_add_eq_zero]
  refine Finset.sum_congr rfl fun i _ => ?_
  split_ifs with hi
  · rw [hgauss i hi a]
  · rfl

/-- Ends of the line element of `lineQp`. -/
noncomputable def lineEnds : List SideQp :=
  [⟨1, fun a => if a = 0 then 1 else 0, fun _ a => if a = 0 then -1 else if a = 1 then 1 else 0, fun i => if i = 0 then -1 else 0⟩,
   ⟨1, fun a => if a = 0 then 0 else 1, fun _ a => if a = 0 then -1 else if a = 1 then 1 else 0, fun i => if i = 0 then 1 else 0⟩]

/-- Non-vacuity of C144: the line element with its two ends, viscous. -/
example : let c : Ctx := ⟨1, 2, 1005, 718, true⟩
    PhiSum c [lineQp] ∧ GradSum c [lineQp] ∧ HessSum c [lineQp] ∧ SidePhiSum c lineEnds ∧ (∀ q ∈ lineEnds, UnitNormal 1 q.n) ∧ Gauss c [lineQp] lineEnds ∧
      InDim 1 (consOf 1 718 1 100 0 0 300) := by
  refine ⟨?_, ?_, ?_, ?_, ?_, ?_, ?_⟩
  · intro q hq; simp only [List.mem_singleton] at hq; subst hq; norm_num [lineQp, Finset.sum_range_succ]
  · intro q hq i _; simp only [List.mem_singleton] at hq; subst hq; norm_num [lineQp, Finset.sum_range_succ]
  · intro q hq i _ j _; simp only [List.mem_singleton] at hq; subst hq; norm_num [lineQp]
  · intro q hq; simp [lineEnds] at hq; rcases hq with rfl | rfl <;> norm_num [Finset.sum_range_succ]
  · intro q hq; simp [lineEnds] at hq; rcases hq with rfl | rfl <;> norm_num [UnitNormal]
  · intro i hi a
    have : i = 0 := by apply Fin.ext; simpa using hi
    subst this
    by_cases h : a = 0 <;> simp [lineQp, lineEnds, h]
  · intro v hv; cases v <;> simp [act] at hv <;> simp [consOf, at']

/-- C147: in two dimensions the sensitivity of the far field residual is the derivative with respect to the density of the free stream, Mach number and temperature fixed. -/
theorem C147_density_partial (c : Ctx) (hd : c.d = 2) (f : Flight) (hr : f.rho ≠ 0) (qs : List SideQp) (sol : Field) (v : Var) (a : Nat) :
    ∃ x, farResSens c qs f sol v a = some x ∧ HasDerivAt (fun r => farRes c qs (fun _ => infVars 2 { f with rho := r }) sol v a) x f.rho := by
  set V : Var → ℝ := fun w => if w = .en then (f.rho * f.cv * f.T + f.q0) / f.rho else if w = .m2 then f.rho * f.vel * f.dir 1 / f.rho else if w = .m1 then f.rho * f.vel * f.dir 0 / f.rho else if w = .rho then 1 else 0 with hVd
  have hV : farSensVec 2 f = some V := by
    unfold farSensVec
    simp [varIdx, mvar, hVd]
  refine ⟨(qs.map fun q => q.w * (q.phi a * ∑ y, split false c.d c.gas (stateAt c q.phi sol) q.n v y * V y)).sum, ?_, ?_⟩
  · unfold farResSens; rw [hd, hV]; rfl
  · have hW : ∀ y, HasDerivAt (fun r => infVars 2 { f with rho := r } y) (V y) f.rho := by
      intro y
      by_cases hy : y = .m3
      · subst hy
        have : (fun r => infVars 2 { f with rho := r } .m3) = fun _ => 0 := by funext r; simp [infVars, at']
        rw [this]; simpa [hVd] using hasDerivAt_const f.rho (0:ℝ)
      · have h3 := C98_sens_rho f hr y (V y) (by cases y <;> simp [infSensRho, hVd] at hy ⊢)
        refine h3.congr_of_eventuallyEq (Filter.Eventually.of_forall fun r => ?_)
        cases y <;> simp [infVars, at'] at hy ⊢
    have key : ∀ q : SideQp, HasDerivAt (fun r => q.w * (q.phi a * farFlux c (interp c q.phi sol) (infVars 2 { f with rho := r }) q.n v))
        (q.w * (q.phi a * ∑ y, split false c.d c.gas (stateAt c q.phi sol) q.n v y * V y)) f.rho := by
      intro q
      unfold farFlux
      refine ((HasDerivAt.add_const _ ?_).const_mul (q.phi a)).const_mul q.w
      exact HasDerivAt.fun_sum fun y _ => (hW y).const_mul _
    unfold farRes
    clear hV
    induction qs with
    | nil => simpa using hasDerivAt_const f.rho (0:ℝ)
    | cons q qs ih =>
      simp only [List.map_cons, List.sum_cons]
      exact (key q).fun_add ih

/-- C147 (violated in one dimension): the code writes entry 3 of a vector of three entries. -/
theorem C147_one_dimension_fails (c : Ctx) (hd : c.d = 1) (f : Flight) (qs : List SideQp) (sol : Field) (v : Var) (a : Nat) : farResSens c qs f sol v a = none := by
  unfold farResSens; rw [hd]; simp [farSensVec, varIdx]

/-- Matrix of the incoming waves at a supersonic inflow. -/
theorem split_inflow (d : Nat) (hd : d = 1 ∨ d = 2 ∨ d = 3) (U : Var → ℝ) (cp cv : ℝ) (hv : 0 < cv) (hc : cv < cp) (hT : 0 < (prim d U cp cv false).T) (n : Fin 3 → ℝ) (hn : UnitNormal d n)
    (hs : normalVel d (prim d U cp cv false) n < -(prim d U cp cv false).a) (x y : Var) :
    split false d (gasInit cp cv) (prim d U cp cv false) n x y = normalJac d (gasInit cp cv) (prim d U cp cv false) n x y := by
  rw [← split_sum d hd U cp cv hv hc hT n hn x y, left_eq_add]
  unfold split
  refine Finset.sum_eq_zero fun w _ => ?_
  have := eig_neg d (prim d U cp cv false) n (Real.sqrt_nonneg _) hs w
  have : keep true (eigVals d (prim d U cp cv false) n w) = 0 := by unfold keep; simp only [if_true]; rw [if_neg (not_lt.2 this)]
  rw [this]; ring

/-- Fluid entering along `-x` at velocity -2, density 1, temperature 1 (`cp = 7`, `cv = 5`). -/
def enter : Var → ℝ
  | .rho => 1
  | .m1 => -2
  | .en => 7
  | _ => 0

/-- One point with normal `x`. -/
def faceQp : SideQp := ⟨1, fun _ => 1, fun _ _ => 0, fun i => if i = 0 then 1 else 0⟩

/-- Free stream of Mach number 3 along `-x`. -/
def stream : Flight := ⟨3, 1, 1, 7, 5, fun i => if i = 0 then -1 else 0⟩

theorem enter_facts (d : Nat) (hd : d = 2 ∨ d = 3) : (prim d enter 7 5 false).T = 1 ∧ (prim d enter 7 5 false).u1 = -2 ∧ (prim d enter 7 5 false).u2 = 0 ∧ (prim d enter 7 5 false).u3 = 0 ∧
    normalVel d (prim d enter 7 5 false) faceQp.n < -(prim d enter 7 5 false).a ∧ UnitNormal d faceQp.n := by
  have hT : (prim d enter 7 5 false).T = 1 := by rcases hd with rfl | rfl <;> simp only [prim, enter, at'] <;> norm_num
  have hu : (prim d enter 7 5 false).u1 = -2 := by simp [prim, enter]
  have hu2 : (prim d enter 7 5 false).u2 = 0 := by rcases hd with rfl | rfl <;> simp [prim, enter, at']
  have hu3 : (prim d enter 7 5 false).u3 = 0 := by rcases hd with rfl | rfl <;> simp [prim, enter, at']
  refine ⟨hT, hu, hu2, hu3, ?_, by rcases hd with rfl | rfl <;> simp [UnitNormal, faceQp]⟩
  have : (prim d enter 7 5 false).a = Real.sqrt ((7:ℝ) / 5 * (7 - 5) * (prim d enter 7 5 false).T) := rfl
  rw [this, hT]
  have h2 : Real.sqrt ((7:ℝ) / 5 * (7 - 5) * 1) < 2 := by rw [Real.sqrt_lt' (by norm_num)]; norm_num
  have : normalVel d (prim d enter 7 5 false) faceQp.n = -2 := by rcases hd with rfl | rfl <;> simp [normalVel, faceQp, hu]
  rw [this]; linarith

theorem enter_interp (d : Nat) (hd : d = 2 ∨ d = 3) : interp ⟨d, 1, 7, 5, false⟩ faceQp.phi (uniform enter) = enter := by
  funext v
  have h0 : InDim d enter := by intro w hw; rcases hd with rfl | rfl <;> cases w <;> simp [act] at hw <;> rfl
  rw [interp_uniform _ _ _ h0]; simp [faceQp]

theorem enter_split (d : Nat) (hd : d = 2 ∨ d = 3) (x y : Var) :
    split false d (gasInit 7 5) (prim d enter 7 5 false) faceQp.n x y = fluxJac d 0 (gasInit 7 5) (prim d enter 7 5 false) x y := by
  obtain ⟨hT, hu, -, -, hs, hn⟩ := enter_facts d hd
  rw [split_inflow d (Or.inr hd) enter 7 5 (by norm_num) (by norm_num) (by rw [hT]; norm_num) faceQp.n hn hs x y]
  rcases hd with rfl | rfl <;> simp [normalJac, faceQp]

/-- C147 (violated in three dimensions): the energy entry is written where the third momentum belongs.  The true derivative of the third momentum equation is zero here. -/
theorem C147_three_dimensions_fails : ∃ (c : Ctx) (f : Flight) (qs : List SideQp) (sol : Field) (v : Var) (a : Nat) (x : ℝ), c.d = 3 ∧ 0 < f.rho ∧ farResSens c qs f sol v a = some x ∧
    ¬ HasDerivAt (fun r => farRes c qs (fun _ => infVars 3 { f with rho := r }) sol v a) x f.rho := by
  let c : Ctx := ⟨3, 1, 7, 5, false⟩
  obtain ⟨hT, hu, hu2, hu3, hs, hn⟩ := enter_facts 3 (Or.inr rfl)
  have hst : stateAt c faceQp.phi (uniform enter) = prim 3 enter 7 5 false := by unfold stateAt; rw [enter_interp 3 (Or.inr rfl)]
  have hrow : ∀ V : Var → ℝ, ∑ y, split false 3 c.gas (prim 3 enter 7 5 false) faceQp.n .m3 y * V y = -2 * V .m3 := by
    intro V
    simp only [show c.gas = gasInit 7 5 from rfl, enter_split 3 (Or.inr rfl), sumVar]
    simp [fluxJac, at', hu, hu3]
  refine ⟨c, stream, [faceQp], uniform enter, .m3, 0, -2 * ((stream.rho * stream.cv * stream.T + stream.q0) / stream.rho), rfl, by norm_num [stream], ?_, ?_⟩
  · unfold farResSens
    have hV : ∃ V, farSensVec 3 stream = some V ∧ V .m3 = (stream.rho * stream.cv * stream.T + stream.q0) / stream.rho := by
      refine ⟨fun w => if w = .m3 then (stream.rho * stream.cv * stream.T + stream.q0) / stream.rho else if w = .m2 then stream.rho * stream.vel * stream.dir 1 / stream.rho else
        if w = .m1 then stream.rho * stream.vel * stream.dir 0 / stream.rho else if w = .rho then 1 else 0, ?_, by simp⟩
      unfold farSensVec; simp [varIdx, mvar]
    obtain ⟨V, hV, hm⟩ := hV
    rw [show c.d = 3 from rfl, hV]
    simp only [Option.map_some, List.map_cons, List.map_nil, List.sum_cons, List.sum_nil, hst, hrow V, hm, add_zero]
    simp [faceQp]
  · intro h
    have hz : (fun r => farRes c [faceQp] (fun _ => infVars 3 { stream with rho := r }) (uniform enter) .m3 0) = fun _ => 0 := by
      funext r
      unfold farRes farFlux
      have hi : interp c faceQp.phi (uniform enter) = enter := enter_interp 3 (Or.inr rfl)
      simp only [hi, List.map_cons, List.map_nil, List.sum_cons, List.sum_nil]
      have h2 : ∑ y, split true c.d c.gas (prim c.d enter c.cp c.cv c.visc) faceQp.n .m3 y * enter y = 0 := by
        refine Finset.sum_eq_zero fun y _ => ?_
        have := split_sum 3 (Or.inr (Or.inr rfl)) enter 7 5 (by norm_num) (by norm_num) (by rw [hT]; norm_num) faceQp.n hn .m3 y
        rw [split_inflow 3 (Or.inr (Or.inr rfl)) enter 7 5 (by norm_num) (by norm_num) (by rw [hT]; norm_num) faceQp.n hn hs .m3 y, add_eq_left] at this
        show split true 3 (gasInit 7 5) (prim 3 enter 7 5 false) faceQp.n .m3 y * enter y = 0
        rw [this, zero_mul]
      rw [h2]
      have := hrow (infVars 3 { stream with rho := r })
      show faceQp.w * (faceQp.phi 0 * ((∑ y, split false 3 c.gas (prim 3 enter 7 5 false) faceQp.n .m3 y * infVars 3 { stream with rho := r } y) + 0)) + 0 = 0
      rw [this]
      simp [infVars, at', stream]
    rw [hz] at h
    have := h.unique (hasDerivAt_const _ _)
    have hq : 0 ≤ stream.q0 := by unfold Flight.q0; simp [stream]; positivity
    simp [stream] at this hq
    linarith

/-- C147 (violated for any other parameter): the code adds the derivative with respect to the density whatever parameter is given.  For the Mach number in two dimensions the continuity
equation shows the difference. -/
theorem C147_mach_fails : ∃ (c : Ctx) (f : Flight) (qs : List SideQp) (sol : Field) (v : Var) (a : Nat) (x : ℝ), c.d = 2 ∧ 0 < f.rho ∧ farResSens c qs f sol v a = some x ∧
    ¬ HasDerivAt (fun m => farRes c qs (fun _ => infVars 2 { f with mach := m }) sol v a) x f.mach := by
  let c : Ctx := ⟨2, 1, 7, 5, false⟩
  obtain ⟨hT, hu, hu2, hu3, hs, hn⟩ := enter_facts 2 (Or.inl rfl)
  have hrow : ∀ V : Var → ℝ, ∑ y, split false 2 c.gas (prim 2 enter 7 5 false) faceQp.n .rho y * V y = V .m1 := by
    intro V
    simp only [show c.gas = gasInit 7 5 from rfl, enter_split 2 (Or.inl rfl), sumVar]
    simp [fluxJac, at']
  obtain ⟨x, hx, hder⟩ := C147_density_partial c rfl stream (by norm_num [stream]) [faceQp] (uniform enter) .rho 0
  refine ⟨c, stream, [faceQp], uniform enter, .rho, 0, x, rfl, by norm_num [stream], hx, ?_⟩
  have hval : ∀ W : Var → ℝ, farRes c [faceQp] (fun _ => W) (uniform enter) .rho 0 = W .m1 := by
    intro W
    unfold farRes farFlux
    have hi : interp c faceQp.phi (uniform enter) = enter := enter_interp 2 (Or.inl rfl)
    simp only [hi, List.map_cons, List.map_nil, List.sum_cons, List.sum_nil]
    have h2 : ∑ y, split true c.d c.gas (prim c.d enter c.cp c.cv c.visc) faceQp.n .rho y * enter y = 0 := by
      refine Finset.sum_eq_zero fun y _ => ?_
      have := split_sum 2 (Or.inr (Or.inl rfl)) enter 7 5 (by norm_num) (by norm_num) (by rw [hT]; norm_num) faceQp.n hn .rho y
      rw [split_inflow 2 (Or.inr (Or.inl rfl)) enter 7 5 (by norm_num) (by norm_num) (by rw [hT]; norm_num) faceQp.n hn hs .rho y, add_eq_left] at this
      show split true 2 (gasInit 7 5) (prim 2 enter 7 5 false) faceQp.n .rho y * enter y = 0
      rw [this, zero_mul]
    rw [h2]
    show faceQp.w * (faceQp.phi 0 * ((∑ y, split false 2 c.gas (prim 2 enter 7 5 false) faceQp.n .rho y * W y) + 0)) + 0 = W .m1
    rw [hrow W]
    simp [faceQp]
  simp only [hval] at hder ⊢
  intro h
  have e1 : HasDerivAt (fun r => infVars 2 { stream with rho := r } .m1) (stream.vel * -1) stream.rho := by
    have := ((hasDerivAt_id' stream.rho).mul_const stream.vel).mul_const (-1 : ℝ)
    rw [one_mul] at this
    exact this
  have e2 : HasDerivAt (fun m => infVars 2 { stream with mach := m } .m1) (1 * (1 * stream.a) * -1) stream.mach :=
    (((hasDerivAt_id' stream.mach).mul_const stream.a).const_mul 1).mul_const (-1 : ℝ)
  have h1 := hder.unique e1
  have h2 := h.unique e2
  have ha : 0 < stream.a := Real.sqrt_pos.2 (by norm_num [stream])
  have hvel : stream.vel = 3 * stream.a := rfl
  rw [h1, hvel] at h2
  linarith

end Verif.Fluid
