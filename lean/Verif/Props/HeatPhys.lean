import Verif.Props.Heat
import Mathlib.MeasureTheory.Integral.IntervalIntegral.FundThmCalculus
/-
  C107-C109: balance, dissipation, sensitivity and boundary velocity of the heat conduction element.
-/
namespace Verif.Heat

variable {n d : Nat} {X : Type}

section Spec

/-- The shape functions sum to one (and their gradients to zero). -/
def Partition (pts : List (Qp n d X)) : Prop := ∀ q ∈ pts, (∑ a, q.phi a = 1) ∧ ∀ i, ∑ a, q.dphi a i = 0

/-- Positive semidefinite. -/
def PSD (J : Fin n → Fin n → ℝ) : Prop := ∀ w : Fin n → ℝ, 0 ≤ ∑ a, w a * ∑ b, J a b * w b

/-- Conductivities that are positive semidefinite. -/
def Conducts (m : Mat d X) : Prop := ∀ x T, PSD (m.k x T)

/-- A load exchanging heat with an ambient at temperature `T0`. -/
def AmbientAt (T0 : ℝ) : Load X → Prop
  | .convection _ amb => ∀ x, amb.val x = T0
  | .radiation _ amb _ _ _ _ _ => amb = T0
  | .dirichlet => True
  | _ => False

/-- Physical coefficients: nonnegative film coefficient, emissivity, radiation constant, and absolute temperatures. -/
def Passive (T : ℝ) : Load X → Prop
  | .convection h _ => ∀ x, 0 ≤ h.val x
  | .radiation eps _ zero sb _ _ _ => (∀ x, 0 ≤ eps.val x) ∧ 0 ≤ sb ∧ 0 ≤ T + zero
  | _ => True

end Spec

theorem list_fin_comm {ι : Type} (l : List ι) (f : ι → Fin n → ℝ) : ∑ a, (l.map fun q => f q a).sum = (l.map fun q => ∑ a, f q a).sum := by
  simpa using list_sum_comm l f (fun _ => 1)

theorem list_sum_zero {ι : Type} (l : List ι) (f : ι → ℝ) (h : ∀ q ∈ l, f q = 0) : (l.map f).sum = 0 := by
  induction l with
  | nil => rfl
  | cons q l ih => simp [h q List.mem_cons_self, ih fun p hp => h p (List.mem_cons_of_mem _ hp)]

theorem list_sum_nonneg {ι : Type} (l : List ι) (f : ι → ℝ) (h : ∀ q ∈ l, 0 ≤ f q) : 0 ≤ (l.map f).sum := by
  induction l with
  | nil => simp
  | cons q l ih => simp only [List.map_cons, List.sum_cons]; exact add_nonneg (h q List.mem_cons_self) (ih fun p hp => h p (List.mem_cons_of_mem _ hp))

theorem list_sum_congr {ι : Type} (l : List ι) (f g : ι → ℝ) (h : ∀ q ∈ l, f q = g q) : (l.map f).sum = (l.map g).sum := by
  rw [List.map_congr_left h]

/-- C107: conduction moves heat between nodes without creating any: its residual sums to zero. -/
theorem C107_conduction_balance (m : Mat d X) (pts : List (Qp n d X)) (hp : Partition pts) (u : Fin n → ℝ) : ∑ a, internalRes m pts u a = 0 := by
  simp only [internalRes]
  rw [list_fin_comm]
  refine list_sum_zero _ _ fun q hq => ?_
  rw [Finset.sum_comm]
  refine Finset.sum_eq_zero fun i _ => ?_
  have : ∑ a, q.JxW * (q.dphi a i * heatFlux (m.k q.x (temp m q u)) (grad q u) i) = q.JxW * heatFlux (m.k q.x (temp m q u)) (grad q u) i * ∑ a, q.dphi a i := by
    rw [Finset.mul_sum]; exact Finset.sum_congr rfl fun a _ => by ring
  rw [this, (hp q hq).2 i, mul_zero]

/-- C107: a uniform temperature conducts nothing. -/
theorem C107_uniform (m : Mat d X) (pts : List (Qp n d X)) (hp : Partition pts) (T : ℝ) (a : Fin n) : internalRes m pts (fun _ => T) a = 0 := by
  refine list_sum_zero _ _ fun q hq => ?_
  have hg : ∀ j, grad q (fun _ => T) j = 0 := by
    intro j; simp only [grad, ← Finset.sum_mul, (hp q hq).2 j, zero_mul]
  simp [heatFlux, hg]

theorem contract (q : Qp n d X) (w : Fin n → ℝ) (J : ℝ) (h : Fin d → ℝ) : ∑ a, w a * ∑ i, J * (q.dphi a i * h i) = J * ∑ i, grad q w i * h i := by
  simp only [grad, Finset.mul_sum, Finset.sum_mul]
  rw [Finset.sum_comm]
  exact Finset.sum_congr rfl fun i _ => Finset.sum_congr rfl fun a _ => by ring

theorem flux_psd (k : Fin d → Fin d → ℝ) (hk : PSD k) (g : Fin d → ℝ) : 0 ≤ ∑ i, g i * heatFlux k g i := by
  have := hk g
  refine this.trans_eq (Finset.sum_congr rfl fun i _ => ?_)
  simp only [heatFlux]; congr 1; exact Finset.sum_congr rfl fun j _ => by ring

/-- C107: conduction dissipates: heat flows from hot to cold, for every temperature field and every conductivity that is positive semidefinite (temperature dependent or not). -/
theorem C107_dissipation (m : Mat d X) (hk : Conducts m) (pts : List (Qp n d X)) (hJ : ∀ q ∈ pts, 0 ≤ q.JxW) (u : Fin n → ℝ) : 0 ≤ ∑ a, u a * internalRes m pts u a := by
  have e : ∑ a, u a * internalRes m pts u a = (pts.map fun q => ∑ a, (∑ i, q.JxW * (q.dphi a i * heatFlux (m.k q.x (temp m q u)) (grad q u) i)) * u a).sum := by
    rw [← list_sum_comm]; exact Finset.sum_congr rfl fun a _ => mul_comm _ _
  rw [e]
  refine list_sum_nonneg _ _ fun q hq => ?_
  have : ∑ a, (∑ i, q.JxW * (q.dphi a i * heatFlux (m.k q.x (temp m q u)) (grad q u) i)) * u a = q.JxW * ∑ i, grad q u i * heatFlux (m.k q.x (temp m q u)) (grad q u) i := by
    rw [← contract]; exact Finset.sum_congr rfl fun a _ => mul_comm _ _
  rw [this]
  exact mul_nonneg (hJ q hq) (flux_psd _ (hk _ _) _)

/-- C107: the net heat of an element is the heat of its loads: the sum over the nodes of the element residual is the quadrature of the load integrands. -/
theorem C107_balance (m : Mat d X) (e : Elem n d X) (hp : Partition e.pts) (hs : ∀ s, Partition (e.sidePts s)) (sbc vbc : List (Nat × Load X)) (u r : Fin n → ℝ) (h : elemRes m e sbc vbc u = some r) :
    ∑ a, r a = ((sideLoads e.nSides e.ids sbc).map fun l => ((e.sidePts l.1).map fun q => q.JxW * (sideTerm e.sec q.x (interp q u) l.2).getD 0).sum).sum +
      ((volLoads e.sid vbc).map fun l => (e.pts.map fun q => q.JxW * (volTerm e.sec q.x (interp q u) l).getD 0).sum).sum := by
  simp only [elemRes] at h
  split at h
  · injection h with h
    have one : ∀ (f : X → ℝ → Load X → Option ℝ) (pts : List (Qp n d X)) (l : Load X), Partition pts → ∑ a, loadRes f pts u l a = (pts.map fun q => q.JxW * (f q.x (interp q u) l).getD 0).sum := by
      intro f pts l hpt
      simp only [loadRes]
      rw [list_fin_comm]
      refine list_sum_congr _ _ _ fun q hq => ?_
      have : ∑ a, q.JxW * q.phi a * (f q.x (interp q u) l).getD 0 = q.JxW * (f q.x (interp q u) l).getD 0 * ∑ a, q.phi a := by
        rw [Finset.mul_sum]; exact Finset.sum_congr rfl fun a _ => by ring
      rw [this, (hpt q hq).1, mul_one]
    rw [← h]
    simp only [Finset.sum_add_distrib, C107_conduction_balance m e.pts hp u, zero_add]
    rw [list_fin_comm, list_fin_comm]
    congr 1
    · exact list_sum_congr _ _ _ fun l _ => one _ _ _ (hs l.1)
    · exact list_sum_congr _ _ _ fun l _ => one _ _ _ hp
  · cases h

/-- C107: an element at the temperature of every ambient it exchanges heat with is in equilibrium. -/
theorem C107_equilibrium (m : Mat d X) (e : Elem n d X) (hp : Partition e.pts) (hs : ∀ s, Partition (e.sidePts s)) (sbc vbc : List (Nat × Load X)) (T : ℝ)
    (hsb : ∀ l ∈ sbc, AmbientAt T l.2) (hvb : ∀ l ∈ vbc, AmbientAt T l.2 ∧ l.2 ≠ .dirichlet) : elemRes m e sbc vbc (fun _ => T) = some fun _ => 0 := by
  have hint : ∀ (pts : List (Qp n d X)), Partition pts → ∀ q ∈ pts, interp q (fun _ => T) = T := by
    intro pts hpt q hq; simp only [interp, ← Finset.sum_mul, (hpt q hq).1, one_mul]
  have hsl : ∀ l ∈ sideLoads e.nSides e.ids sbc, AmbientAt T l.2 := by
    intro l hl
    simp only [sideLoads, List.mem_flatMap, List.mem_map, List.mem_filter] at hl
    obtain ⟨s, _, b, _, x, hx, rfl⟩ := hl
    exact hsb x hx.1
  have hvl : ∀ l ∈ volLoads e.sid vbc, AmbientAt T l ∧ l ≠ .dirichlet := by
    intro l hl
    simp only [volLoads, List.mem_map, List.mem_filter] at hl
    obtain ⟨x, hx, rfl⟩ := hl
    exact hvb x hx.1
  have ok : ((sideLoads e.nSides e.ids sbc).all (fun l => sideOk l.2) && (volLoads e.sid vbc).all volOk) = true := by
    rw [Bool.and_eq_true, List.all_eq_true, List.all_eq_true]
    refine ⟨fun l hl => ?_, fun l hl => ?_⟩
    · have := hsl l hl; revert this; cases l.2 <;> simp [AmbientAt, sideOk]
    · have := hvl l hl; revert this; cases l <;> simp [AmbientAt, volOk]
  simp only [elemRes, ok, if_true]
  congr 1
  funext a
  rw [C107_uniform m e.pts hp T a, list_sum_zero, list_sum_zero]
  · simp
  · intro l hl
    refine list_sum_zero _ _ fun q hq => ?_
    rw [hint _ hp q hq]
    have := (hvl l hl).1
    cases l <;> simp [AmbientAt, volTerm] at this ⊢ <;> simp [this]
  · intro l hl
    refine list_sum_zero _ _ fun q hq => ?_
    rw [hint _ (hs l.1) q hq]
    have := hsl l hl
    revert this
    cases l.2 <;> simp [AmbientAt, sideTerm] <;> intro this <;> simp [this]

theorem rank_one (q : Qp n d X) (c : ℝ) (w : Fin n → ℝ) : ∑ a, w a * ∑ b, (q.JxW * (q.phi a * q.phi b) * c) * w b = q.JxW * c * interp q w ^ 2 := by
  rw [interp, sq, Finset.sum_mul_sum, Finset.mul_sum]
  refine Finset.sum_congr rfl fun a _ => ?_
  rw [Finset.mul_sum, Finset.mul_sum]
  exact Finset.sum_congr rfl fun b _ => by ring

theorem list_psd {ι : Type} (l : List ι) (J : ι → Fin n → Fin n → ℝ) (h : ∀ q ∈ l, PSD (J q)) : PSD fun a b => (l.map fun q => J q a b).sum := by
  induction l with
  | nil => intro w; simp
  | cons q l ih =>
    intro w
    have h1 := h q List.mem_cons_self w
    have h2 := (ih fun p hp => h p (List.mem_cons_of_mem _ hp)) w
    simp only [List.map_cons, List.sum_cons, add_mul, Finset.sum_add_distrib, mul_add]
    exact add_nonneg h1 h2

theorem add_psd (J K : Fin n → Fin n → ℝ) (h : PSD J) (h' : PSD K) : PSD fun a b => J a b + K a b := by
  intro w
  simp only [add_mul, Finset.sum_add_distrib, mul_add]
  exact add_nonneg (h w) (h' w)

/-- C107: for a conductivity that does not depend on the temperature and physical loads (nonnegative film coefficients, emissivities, section sizes and absolute temperatures) the element Jacobian is
positive semidefinite, and it is symmetric when the conductivity is. -/
theorem C107_jacobian_psd (m : Mat d X) (ha : m.active = false) (hk : Conducts m) (e : Elem n d X) (sbc vbc : List (Nat × Load X)) (u : Fin n → ℝ)
    (hJ : ∀ q ∈ e.pts, 0 ≤ q.JxW) (hJs : ∀ s, ∀ q ∈ e.sidePts s, 0 ≤ q.JxW) (hth : ∀ x, 0 ≤ thick e.sec x)
    (hsb : ∀ l ∈ sbc, ∀ s, ∀ q ∈ e.sidePts s, Passive (interp q u) l.2) (hvb : ∀ l ∈ vbc, ∀ q ∈ e.pts, Passive (interp q u) l.2) :
    PSD (elemJac m e sbc vbc u) ∧ ((∀ x T i j, m.k x T i j = m.k x T j i) → ∀ a b, elemJac m e sbc vbc u a b = elemJac m e sbc vbc u b a) := by
  have hload : ∀ (g : X → ℝ → Load X → ℝ) (pts : List (Qp n d X)) (l : Load X), (∀ q ∈ pts, 0 ≤ q.JxW * g q.x (interp q u) l) → PSD (loadJac g pts u l) := by
    intro g pts l hg
    refine list_psd pts (fun q a b => q.JxW * (q.phi a * q.phi b) * g q.x (interp q u) l) fun q hq w => ?_
    rw [rank_one]
    exact mul_nonneg (hg q hq) (sq_nonneg _)
  constructor
  · refine add_psd _ _ (add_psd _ _ ?_ ?_) ?_
    · refine list_psd e.pts (fun q a b => (∑ i, ∑ j, q.JxW * m.k q.x (temp m q u) i j * (q.dphi a i * q.dphi b j)) +
        if m.active then ∑ j, ∑ i, if m.dkT q.x (temp m q u) i j ≠ 0 then q.JxW * grad q u j * m.dkT q.x (temp m q u) i j * (q.dphi a i * q.phi b) else 0 else 0) fun q hq w => ?_
      simp only [ha, Bool.false_eq_true, if_false, add_zero]
      have : ∑ a, w a * ∑ b, (∑ i, ∑ j, q.JxW * m.k q.x (temp m q u) i j * (q.dphi a i * q.dphi b j)) * w b = q.JxW * ∑ i, grad q w i * heatFlux (m.k q.x (temp m q u)) (grad q w) i := by
        rw [← contract]
        refine Finset.sum_congr rfl fun a _ => ?_
        congr 1
        simp only [heatFlux, grad, Finset.sum_mul, Finset.mul_sum]
        rw [Finset.sum_comm]
        refine Finset.sum_congr rfl fun i _ => ?_
        rw [Finset.sum_comm]
        exact Finset.sum_congr rfl fun j _ => Finset.sum_congr rfl fun b _ => by ring
      rw [this]
      exact mul_nonneg (hJ q hq) (flux_psd _ (hk _ _) _)
    · refine list_psd _ (fun (l : Nat × Load X) => loadJac (sideJacTerm e.sec) (e.sidePts l.1) u l.2) fun l hl => hload _ _ _ fun q hq => ?_
      simp only [sideLoads, List.mem_flatMap, List.mem_map, List.mem_filter] at hl
      obtain ⟨s, _, b, _, x, hx, rfl⟩ := hl
      have hpa := hsb x hx.1 s q hq
      have h1 := hJs s q hq
      have h2 := hth q.x
      refine mul_nonneg h1 ?_
      revert hpa
      cases x.2 <;> simp only [Passive, sideJacTerm] <;> intro hpa
      · exact le_refl _
      · exact mul_nonneg h2 (hpa _)
      · obtain ⟨p1, p2, p3⟩ := hpa; have := p1 q.x; positivity
      all_goals exact le_refl _
    · refine list_psd _ (fun (l : Load X) => loadJac (volJacTerm e.sec) e.pts u l) fun l hl => hload _ _ _ fun q hq => ?_
      simp only [volLoads, List.mem_map, List.mem_filter] at hl
      obtain ⟨x, hx, rfl⟩ := hl
      have hpa := hvb x hx.1 q hq
      refine mul_nonneg (hJ q hq) ?_
      revert hpa
      cases x.2 <;> simp only [Passive, volJacTerm] <;> intro hpa
      · exact le_refl _
      · exact hpa _
      · obtain ⟨p1, p2, p3⟩ := hpa; have := p1 q.x; positivity
      all_goals exact le_refl _
  · intro hsym a b
    simp only [elemJac, internalJac, loadJac, ha, Bool.false_eq_true, if_false, add_zero]
    congr 1
    · congr 1
      · refine list_sum_congr _ _ _ fun q _ => ?_
        rw [Finset.sum_comm]
        exact Finset.sum_congr rfl fun i _ => Finset.sum_congr rfl fun j _ => by rw [hsym _ _ j i]; ring
      · refine list_sum_congr _ _ _ fun l _ => list_sum_congr _ _ _ fun q _ => by ring
    · refine list_sum_congr _ _ _ fun l _ => list_sum_congr _ _ _ fun q _ => by ring

/-- C107: lumping keeps the heat capacity of the element (sum of all entries) and, for a uniform rate, the residual of every node. -/
theorem C107_lumping (m : Mat d X) (pts : List (Qp n d X)) (u : Fin n → ℝ) :
    (∑ a, ∑ b, lump (massMat m pts u) a b = ∑ a, ∑ b, massMat m pts u a b) ∧
    (∀ r a, velRes { m with diag := true } pts u (fun _ => r) a = velRes { m with diag := false } pts u (fun _ => r) a) ∧
    (Partition pts → ∑ a, ∑ b, massMat m pts u a b = (pts.map fun q => q.JxW * m.c q.x (temp m q u)).sum) := by
  have h1 : ∀ (M : Fin n → Fin n → ℝ) a, ∑ b, lump M a b = ∑ b, M a b := by
    intro M a; simp [lump]
  refine ⟨Finset.sum_congr rfl fun a _ => h1 _ a, fun r a => ?_, fun hp => ?_⟩
  · have e1 : velRes { m with diag := true } pts u (fun _ => r) a = (∑ b, lump (massMat m pts u) a b) * r := by
      simp only [velRes, if_true, Finset.sum_mul]; rfl
    have e2 : velRes { m with diag := false } pts u (fun _ => r) a = (∑ b, massMat m pts u a b) * r := by
      have := vel_of_mass { m with diag := false } pts u (fun _ => r) a
      simp only [velRes, Bool.false_eq_true, if_false]
      rw [this, Finset.sum_mul]; rfl
    rw [e1, e2, h1]
  · simp only [massMat]
    have : ∀ a, ∑ b, (pts.map fun q => q.JxW * m.c q.x (temp m q u) * (q.phi a * q.phi b)).sum = (pts.map fun q => q.JxW * m.c q.x (temp m q u) * q.phi a).sum := by
      intro a
      rw [list_fin_comm]
      refine list_sum_congr _ _ _ fun q hq => ?_
      have : ∑ b, q.JxW * m.c q.x (temp m q u) * (q.phi a * q.phi b) = q.JxW * m.c q.x (temp m q u) * q.phi a * ∑ b, q.phi b := by
        rw [Finset.mul_sum]; exact Finset.sum_congr rfl fun b _ => by ring
      rw [this, (hp q hq).1, mul_one]
    simp only [this]
    rw [list_fin_comm]
    refine list_sum_congr _ _ _ fun q hq => ?_
    rw [← Finset.mul_sum, (hp q hq).1, mul_one]

/-- C107: the consistent mass matrix is positive semidefinite for nonnegative capacitance. -/
theorem C107_mass_psd (m : Mat d X) (pts : List (Qp n d X)) (u : Fin n → ℝ) (hJ : ∀ q ∈ pts, 0 ≤ q.JxW) (hc : ∀ x T, 0 ≤ m.c x T) : PSD (massMat m pts u) := by
  refine list_psd pts (fun q a b => q.JxW * m.c q.x (temp m q u) * (q.phi a * q.phi b)) fun q hq w => ?_
  have := rank_one q (m.c q.x (temp m q u)) w
  have e : ∀ a b, q.JxW * m.c q.x (temp m q u) * (q.phi a * q.phi b) = q.JxW * (q.phi a * q.phi b) * m.c q.x (temp m q u) := fun a b => by ring
  simp only [e, this]
  exact mul_nonneg (mul_nonneg (hJ q hq) (hc _ _)) (sq_nonneg _)

/-- Centre of an eight node quadrilateral: corner functions -1/4, midside functions 1/2. -/
noncomputable def quad8 : Qp 8 2 Unit := ⟨(), 4, fun a => if a.val < 4 then -1 / 4 else 1 / 2, fun _ _ => 0, fun _ => 0⟩

/-- C107 (what the code does not do): row sum lumping does not keep the mass matrix semidefinite: with the shape functions of an eight node quadrilateral at its centre the lumped matrix has a
negative entry although the capacitance is one. -/
theorem C107_lumped_psd_fails : ∃ (m : Mat 2 Unit) (pts : List (Qp 8 2 Unit)) (u : Fin 8 → ℝ), Partition pts ∧ (∀ q ∈ pts, 0 < q.JxW) ∧ (∀ x T, m.c x T = 1) ∧
    PSD (massMat m pts u) ∧ ¬ PSD (lump (massMat m pts u)) := by
  have hc : ∀ (x : Unit) (T : Option ℝ), (⟨false, true, fun _ _ _ _ => 0, fun _ _ _ _ => 0, fun _ _ _ _ => 0, fun _ _ => 1, fun _ _ => 0, fun _ _ => 0⟩ : Mat 2 Unit).c x T = 1 := fun _ _ => rfl
  refine ⟨⟨false, true, fun _ _ _ _ => 0, fun _ _ _ _ => 0, fun _ _ _ _ => 0, fun _ _ => 1, fun _ _ => 0, fun _ _ => 0⟩, [quad8], fun _ => 0, ?_, ?_, hc, ?_, ?_⟩
  · intro q hq
    simp only [List.mem_singleton] at hq
    subst hq
    refine ⟨?_, by simp [quad8]⟩
    simp [quad8, Fin.sum_univ_eight]; norm_num
  · intro q hq
    simp only [List.mem_singleton] at hq
    subst hq; norm_num [quad8]
  · refine C107_mass_psd _ _ _ ?_ (fun x T => by rw [hc]; norm_num)
    intro q hq
    simp only [List.mem_singleton] at hq
    subst hq; norm_num [quad8]
  · intro h
    have := h fun a => if a = 0 then 1 else 0
    simp [lump, massMat, quad8, Fin.sum_univ_eight] at this
    norm_num at this

/-- Parameter family of a load whose supplied derivatives are the derivatives of its functions. -/
inductive LoadFamily : (ℝ → Load X) → Prop
  | flux (q : ℝ → Field X) (h : ∀ x, HasDerivAt (fun t => (q t).val x) ((q 0).der x) 0) : LoadFamily fun t => .flux (q t)
  | convection (c amb : ℝ → Field X) (h : ∀ x, HasDerivAt (fun t => (c t).val x) ((c 0).der x) 0) (h' : ∀ x, HasDerivAt (fun t => (amb t).val x) ((amb 0).der x) 0) :
      LoadFamily fun t => .convection (c t) (amb t)
  | radiation (eps : ℝ → Field X) (amb zero sb : ℝ) (h : ∀ x, HasDerivAt (fun t => (eps t).val x) ((eps 0).der x) 0) : LoadFamily fun t => .radiation (eps t) amb zero sb 0 0 0
  | source (q : ℝ → Field X) (h : ∀ x, HasDerivAt (fun t => (q t).val x) ((q 0).der x) 0) : LoadFamily fun t => .source (q t)
  | dirichlet : LoadFamily fun _ => .dirichlet
  | other : LoadFamily fun _ => .other

/-- Parameter family of section functions. -/
def SecFamily (sec : ℝ → Option (Field X)) : Prop :=
  (∀ t, sec t = none) ∨ ∃ s : ℝ → Field X, (∀ t, sec t = some (s t)) ∧ ∀ x, HasDerivAt (fun t => (s t).val x) ((s 0).der x) 0

theorem thick_deriv (sec : ℝ → Option (Field X)) (h : SecFamily sec) (x : X) : HasDerivAt (fun t => thick (sec t) x) (dthick (sec 0) x) 0 := by
  rcases h with h | ⟨s, h, h'⟩
  · simp only [h, thick, dthick]; exact hasDerivAt_const _ _
  · simp only [h, thick, dthick]; exact h' x

theorem side_sens (sec : ℝ → Option (Field X)) (hs : SecFamily sec) (l : ℝ → Load X) (hl : LoadFamily l) (x : X) (T : ℝ) :
    HasDerivAt (fun t => (sideTerm (sec t) x T (l t)).getD 0) (sideSensTerm (sec 0) x T (l 0)) 0 := by
  have ht := thick_deriv sec hs x
  cases hl with
  | flux q h => simp only [sideTerm, sideSensTerm, Option.getD_some]; exact ((h x).mul ht).congr_deriv (by ring)
  | convection c amb h h' =>
    simp only [sideTerm, sideSensTerm, Option.getD_some]
    exact ((ht.mul (h x)).mul ((h' x).const_sub T)).congr_deriv (by simp only [Pi.mul_apply]; ring)
  | radiation eps amb zero sb h =>
    simp only [sideTerm, sideSensTerm, Option.getD_some]
    exact ((((h x).const_mul sb).mul ht).mul_const _).congr_deriv (by ring)
  | source q h => simp only [sideTerm, sideSensTerm, Option.getD_none]; exact hasDerivAt_const _ _
  | dirichlet => simp only [sideTerm, sideSensTerm, Option.getD_some]; exact hasDerivAt_const _ _
  | other => simp only [sideTerm, sideSensTerm, Option.getD_none]; exact hasDerivAt_const _ _

theorem vol_sens (sec : ℝ → Option (Field X)) (hs : SecFamily sec) (l : ℝ → Load X) (hl : LoadFamily l) (x : X) (T : ℝ) :
    HasDerivAt (fun t => (volTerm (sec t) x T (l t)).getD 0) (volSensTerm (sec 0) x T (l 0)) 0 := by
  have ht := thick_deriv sec hs x
  cases hl with
  | flux q h => simp only [volTerm, volSensTerm, Option.getD_some]; exact h x
  | convection c amb h h' =>
    simp only [volTerm, volSensTerm, Option.getD_some]
    exact ((h x).mul ((h' x).const_sub T)).congr_deriv (by ring)
  | radiation eps amb zero sb h =>
    simp only [volTerm, volSensTerm, Option.getD_some]
    exact (((h x).const_mul sb).mul_const _)
  | source q h => simp only [volTerm, volSensTerm, Option.getD_some]; exact ((h x).mul ht).neg
  | dirichlet => simp only [volTerm, volSensTerm, Option.getD_none]; exact hasDerivAt_const _ _
  | other => simp only [volTerm, volSensTerm, Option.getD_none]; exact hasDerivAt_const _ _

/-- A family of materials whose supplied parameter derivatives are the derivatives of its functions. -/
structure MatFamily (m : ℝ → Mat d X) : Prop where
  active : ∀ t, (m t).active = (m 0).active
  diag : ∀ t, (m t).diag = (m 0).diag
  k : ∀ x T i j, HasDerivAt (fun t => (m t).k x T i j) ((m 0).dkP x T i j) 0
  c : ∀ x T, HasDerivAt (fun t => (m t).c x T) ((m 0).dcP x T) 0

theorem fam_internal (m : ℝ → Mat d X) (hm : MatFamily m) (pts : List (Qp n d X)) (u : Fin n → ℝ) (a : Fin n) :
    HasDerivAt (fun t => internalRes (m t) pts u a) (internalSens (m 0) pts u a) 0 := by
  refine list_deriv pts (fun q t => ∑ i, q.JxW * (q.dphi a i * heatFlux ((m t).k q.x (temp (m t) q u)) (grad q u) i)) _ 0 fun q _ => ?_
  have ht : ∀ t, temp (m t) q u = temp (m 0) q u := fun t => by simp only [temp, hm.active t]
  simp only [ht]
  have hf : ∀ i, HasDerivAt (fun t : ℝ => heatFlux ((m t).k q.x (temp (m 0) q u)) (grad q u) i) (heatFlux ((m 0).dkP q.x (temp (m 0) q u)) (grad q u) i) 0 := by
    intro i
    simp only [heatFlux]
    exact HasDerivAt.fun_sum fun j _ => (hm.k q.x _ i j).const_mul _
  exact HasDerivAt.fun_sum fun i _ => ((hf i).const_mul _).const_mul _

/-- C108: with the temperatures held fixed, the element sensitivity is the derivative of the element residual for the parameter, for every family of materials, sections, fluxes, sources, convection
and radiation loads with fixed radiation constants. -/
theorem C108_element_partial (m : ℝ → Mat d X) (hm : MatFamily m) (e : Elem n d X) (sec : ℝ → Option (Field X)) (hs : SecFamily sec) (sbc vbc : List (Nat × (ℝ → Load X)))
    (hsb : ∀ l ∈ sbc, LoadFamily l.2) (hvb : ∀ l ∈ vbc, LoadFamily l.2) (u : Fin n → ℝ) (R : ℝ → Fin n → ℝ)
    (hR : ∀ t, elemRes (m t) { e with sec := sec t } (sbc.map fun l => (l.1, l.2 t)) (vbc.map fun l => (l.1, l.2 t)) u = some (R t)) (a : Fin n) :
    HasDerivAt (fun t => R t a) (elemSens (m 0) { e with sec := sec 0 } (sbc.map fun l => (l.1, l.2 0)) (vbc.map fun l => (l.1, l.2 0)) u a) 0 := by
  -- lists of load families on the sides and in the domain
  set SL : List (Nat × (ℝ → Load X)) := (List.range e.nSides).flatMap fun s => (e.ids s).flatMap fun b => (sbc.filter fun l => l.1 == b).map fun l => (s, l.2) with hSL
  set VL : List (ℝ → Load X) := (vbc.filter fun l => l.1 == e.sid).map fun l => l.2 with hVL
  have hs1 : ∀ t, sideLoads e.nSides e.ids (sbc.map fun l => (l.1, l.2 t)) = SL.map fun l => (l.1, l.2 t) := by
    intro t
    simp only [sideLoads, hSL, List.filter_map, List.map_flatMap, List.map_map]
    rfl
  have hv1 : ∀ t, volLoads e.sid (vbc.map fun l => (l.1, l.2 t)) = VL.map fun l => l t := by
    intro t
    simp only [volLoads, hVL, List.filter_map, List.map_map]
    rfl
  have hSLf : ∀ l ∈ SL, LoadFamily l.2 := by
    intro l hl
    simp only [hSL, List.mem_flatMap, List.mem_map, List.mem_filter] at hl
    obtain ⟨s, _, b, _, x, hx, rfl⟩ := hl
    exact hsb x hx.1
  have hVLf : ∀ l ∈ VL, LoadFamily l := by
    intro l hl
    simp only [hVL, List.mem_map, List.mem_filter] at hl
    obtain ⟨x, hx, rfl⟩ := hl
    exact hvb x hx.1
  have hRt : ∀ t, R t a = internalRes (m t) e.pts u a + (SL.map fun l => loadRes (sideTerm (sec t)) (e.sidePts l.1) u (l.2 t) a).sum + (VL.map fun l => loadRes (volTerm (sec t)) e.pts u (l t) a).sum := by
    intro t
    have h := hR t
    simp only [elemRes, hs1 t, hv1 t] at h
    split at h
    · injection h with h
      rw [← h]
      simp only [List.map_map]
      rfl
    · cases h
  simp only [hRt]
  simp only [elemSens, hs1, hv1, List.map_map]
  refine ((fam_internal m hm e.pts u a).add ?_).add ?_
  · exact list_deriv SL (fun l t => loadRes (sideTerm (sec t)) (e.sidePts l.1) u (l.2 t) a) (fun l => loadSens (sideSensTerm (sec 0)) (e.sidePts l.1) u (l.2 0) a) 0 fun l hl =>
      list_deriv (e.sidePts l.1) (fun q t => q.JxW * q.phi a * ((sideTerm (sec t) q.x (interp q u) (l.2 t)).getD 0)) _ 0 fun q _ => (side_sens sec hs l.2 (hSLf l hl) q.x _).const_mul _
  · exact list_deriv VL (fun l t => loadRes (volTerm (sec t)) e.pts u (l t) a) (fun l => loadSens (volSensTerm (sec 0)) e.pts u (l 0) a) 0 fun l hl =>
      list_deriv e.pts (fun q t => q.JxW * q.phi a * ((volTerm (sec t) q.x (interp q u) (l t)).getD 0)) _ 0 fun q _ => (vol_sens sec hs l (hVLf l hl) q.x _).const_mul _

/-- C108: the sensitivity of the velocity residual is its derivative, consistent or lumped. -/
theorem C108_velocity (m : ℝ → Mat d X) (hm : MatFamily m) (pts : List (Qp n d X)) (u v : Fin n → ℝ) (a : Fin n) : HasDerivAt (fun t => velRes (m t) pts u v a) (velSens (m 0) pts u v a) 0 := by
  have hM : ∀ b, HasDerivAt (fun t => massMat (m t) pts u a b) (pts.map fun q => q.JxW * (m 0).dcP q.x (temp (m 0) q u) * (q.phi a * q.phi b)).sum 0 := by
    intro b
    refine list_deriv pts (fun q t => q.JxW * (m t).c q.x (temp (m t) q u) * (q.phi a * q.phi b)) _ 0 fun q _ => ?_
    have ht : ∀ t, temp (m t) q u = temp (m 0) q u := fun t => by simp only [temp, hm.active t]
    simp only [ht]
    exact ((hm.c q.x _).const_mul _).mul_const _
  cases hd : (m 0).diag
  · simp only [velRes, velSens, hm.diag, hd, Bool.false_eq_true, if_false, velLocal]
    refine list_deriv pts (fun q t => q.JxW * (m t).c q.x (temp (m t) q u) * (q.phi a * interp q v)) _ 0 fun q _ => ?_
    have ht : ∀ t, temp (m t) q u = temp (m 0) q u := fun t => by simp only [temp, hm.active t]
    simp only [ht]
    exact ((hm.c q.x _).const_mul _).mul_const _
  · simp only [velRes, velSens, hm.diag, hd, if_true]
    refine HasDerivAt.fun_sum fun b _ => HasDerivAt.mul_const ?_ _
    simp only [lump]
    by_cases hab : a = b
    · simp only [hab, if_true]
      rw [← hab]
      exact HasDerivAt.fun_sum fun j _ => hM j
    · simp only [hab, if_false]; exact hasDerivAt_const _ _

/-- C108 (what the code does not do): the sensitivity of a radiation load for its ambient temperature, zero reference or radiation constant, all of which are parameters of the load, is reported as
zero although the residual changes. -/
theorem C108_radiation_fails : ∃ (e : Elem 2 1 Unit) (u : Fin 2 → ℝ) (R : ℝ → Fin 2 → ℝ), (∀ t, elemRes (exMat false) e [(0, .radiation ⟨fun _ => 1, fun _ => 0⟩ (1 + t) 0 1 1 0 0)] [] u = some (R t)) ∧
    elemSens (exMat false) e [(0, .radiation ⟨fun _ => 1, fun _ => 0⟩ 1 0 1 1 0 0)] [] u 0 = 0 ∧ ¬ HasDerivAt (fun t => R t 0) 0 0 := by
  refine ⟨⟨[], fun _ => [exQp], 1, fun s => [s], 0, none⟩, fun _ => 0, fun t a => loadRes (sideTerm none) [exQp] (fun _ => 0) (.radiation ⟨fun _ => 1, fun _ => 0⟩ (1 + t) 0 1 1 0 0) a, ?_, ?_, ?_⟩
  · intro t
    simp [elemRes, sideLoads, volLoads, List.range_succ, sideOk, internalRes]
  · simp [elemSens, sideLoads, volLoads, List.range_succ, internalSens, loadSens, sideSensTerm, dthick]
  · intro h
    have e : (fun t : ℝ => loadRes (n := 2) (d := 1) (sideTerm none) [exQp] (fun _ => 0) (.radiation ⟨fun _ => 1, fun _ => 0⟩ (1 + t) 0 1 1 0 0) 0) = fun t : ℝ => -(1 / 4) * ((t + 1) ^ 4 - 0) := by
      funext t
      simp [loadRes, exQp, sideTerm, thick, interp]
      ring
    simp only [e] at h
    have h1 := quartic (-(1 / 4)) 1 0 0
    have := h.unique h1
    norm_num at this

/-- Non-vacuity of C108: a family with changing film coefficient. -/
example : LoadFamily (X := Unit) fun t => .convection ⟨fun _ => 2 + t, fun _ => 1⟩ ⟨fun _ => 300, fun _ => 0⟩ :=
  .convection (fun t => ⟨fun _ => 2 + t, fun _ => 1⟩) (fun _ => ⟨fun _ => 300, fun _ => 0⟩) (fun _ => by simpa using (hasDerivAt_id (0:ℝ)).const_add 2) (fun _ => hasDerivAt_const _ _)

/-- C109: the boundary velocity term only sees the normal component of the boundary velocity, and is linear in it. -/
theorem C109_normal_linear (m : Mat d X) (e : Elem n d X) (s : Nat) (vbc : List (Nat × Load X)) (u : Fin n → ℝ) (a : Fin n) :
    (∀ v w : X → Fin d → ℝ, (∀ q ∈ e.sidePts s, ∑ i, v q.x i * q.normal i = ∑ i, w q.x i * q.normal i) → elemTopo m e v s vbc u a = elemTopo m e w s vbc u a) ∧
    ∀ (v w : X → Fin d → ℝ) (c : ℝ), elemTopo m e (fun x i => v x i + c * w x i) s vbc u a = elemTopo m e v s vbc u a + c * elemTopo m e w s vbc u a := by
  have hlin : ∀ (v w : X → Fin d → ℝ) (c : ℝ) (q : Qp n d X), jxwVn (fun x i => v x i + c * w x i) q = jxwVn v q + c * jxwVn w q := by
    intro v w c q
    simp only [jxwVn, Finset.mul_sum, ← Finset.sum_add_distrib]
    exact Finset.sum_congr rfl fun i _ => by ring
  have hl : ∀ {ι : Type} (l : List ι) (f g h : ι → ℝ) (c : ℝ), (∀ q ∈ l, f q = g q + c * h q) → (l.map f).sum = (l.map g).sum + c * (l.map h).sum := by
    intro ι l f g h c hq
    induction l with
    | nil => simp
    | cons q l ih =>
      simp only [List.map_cons, List.sum_cons, hq q List.mem_cons_self, ih fun p hp => hq p (List.mem_cons_of_mem _ hp)]; ring
  refine ⟨fun v w h => ?_, fun v w c => ?_⟩
  · have hj : ∀ q ∈ e.sidePts s, jxwVn v q = jxwVn w q := fun q hq => by simp only [jxwVn, h q hq]
    simp only [elemTopo, internalBndVel, loadBndVel]
    congr 1
    · exact list_sum_congr _ _ _ fun q hq => by rw [hj q hq]
    · exact list_sum_congr _ _ _ fun l _ => list_sum_congr _ _ _ fun q hq => by rw [hj q hq]
  · have e1 : internalBndVel m (fun x i => v x i + c * w x i) (e.sidePts s) u a = internalBndVel m v (e.sidePts s) u a + c * internalBndVel m w (e.sidePts s) u a := by
      refine hl _ _ _ _ _ fun q _ => ?_
      simp only [hlin, Finset.mul_sum, ← Finset.sum_add_distrib]
      exact Finset.sum_congr rfl fun i _ => by ring
    have e2 : ((volLoads e.sid vbc).map fun l => loadBndVel (volTerm e.sec) (fun x i => v x i + c * w x i) (e.sidePts s) u l a).sum =
        ((volLoads e.sid vbc).map fun l => loadBndVel (volTerm e.sec) v (e.sidePts s) u l a).sum + c * ((volLoads e.sid vbc).map fun l => loadBndVel (volTerm e.sec) w (e.sidePts s) u l a).sum := by
      refine hl _ _ _ _ _ fun l _ => hl _ _ _ _ _ fun q _ => ?_
      simp only [hlin]; ring
    simp only [elemTopo, e1, e2]; ring

/-- One dimensional field data of an element on a line: shape functions and their derivatives as functions of the position. -/
structure Line (n : Nat) where
  phi : Fin n → ℝ → ℝ
  dphi : Fin n → ℝ → ℝ

/-- Quadrature point of the line at `x` with weight `w` and outward normal `nu`. -/
def Line.qp (L : Line n) (x w nu : ℝ) : Qp n 1 ℝ := ⟨x, w, fun a => L.phi a x, fun a _ => L.dphi a x, fun _ => nu⟩

/-- Residual density of the element at `x`: its integral over the domain is the element residual (one quadrature point of unit weight). -/
noncomputable def density (m : Mat 1 ℝ) (L : Line n) (sec : Option (Field ℝ)) (loads : List (Load ℝ)) (u : Fin n → ℝ) (a : Fin n) (x : ℝ) : ℝ :=
  internalRes m [L.qp x 1 0] u a + (loads.map fun l => loadRes (volTerm sec) [L.qp x 1 0] u l a).sum

/-- C109: for a one dimensional element whose right end moves with the parameter, the boundary velocity term of the moving end is the derivative of the exact element residual: the integral over the
moving domain of the residual density. -/
theorem C109_moving_end (m : Mat 1 ℝ) (L : Line n) (sec : Option (Field ℝ)) (vbc : List (Nat × Load ℝ)) (u : Fin n → ℝ) (a : Fin n) (x0 : ℝ) (b : ℝ → ℝ) (b' : ℝ) (hb : HasDerivAt b b' 0)
    (hc : Continuous (density m L sec (volLoads 0 vbc) u a)) :
    HasDerivAt (fun t => ∫ x in x0..b t, density m L sec (volLoads 0 vbc) u a x)
      (elemTopo m ⟨[], fun _ => [L.qp (b 0) 1 1], 2, fun _ => [], 0, sec⟩ (fun _ _ => b') 1 vbc u a) 0 := by
  have h := (intervalIntegral.integral_hasDerivAt_right (hc.intervalIntegrable x0 (b 0)) (hc.stronglyMeasurableAtFilter _ _) hc.continuousAt).comp (0:ℝ) hb
  refine h.congr_deriv ?_
  have e : ∀ (ls : List (Load ℝ)), (ls.map fun l => loadBndVel (volTerm sec) (fun _ _ => b') [L.qp (b 0) 1 1] u l a).sum = (ls.map fun l => loadRes (volTerm sec) [L.qp (b 0) 1 0] u l a).sum * b' := by
    intro ls
    induction ls with
    | nil => simp
    | cons l ls ih =>
      simp only [List.map_cons, List.sum_cons, ih, add_mul]
      congr 1
      simp [loadBndVel, loadRes, jxwVn, Line.qp, interp]; ring
  simp only [density, elemTopo, e, add_mul]
  congr 1
  simp [internalBndVel, internalRes, jxwVn, Line.qp, heatFlux, grad, temp, interp]; ring

/-- Non-vacuity of C109: a linear element with constant conductivity and a heat source has a continuous density. -/
example : Continuous (density (n := 2) ⟨false, false, fun _ _ _ _ => 1, fun _ _ _ _ => 0, fun _ _ _ _ => 0, fun _ _ => 1, fun _ _ => 0, fun _ _ => 0⟩
    ⟨fun a x => if a = 0 then 1 - x else x, fun a _ => if a = 0 then -1 else 1⟩ none [.source ⟨fun _ => 3, fun _ => 0⟩] (fun a => if a = 0 then 1 else 2) 1) := by
  unfold density
  simp [internalRes, loadRes, volTerm, thick, Line.qp, heatFlux, grad, Fin.sum_univ_two]
  try fun_prop

end Verif.Heat
