import Verif.Props.FluidStab
/-
  C105, viscous flow: the diffusive part added to the stabilisation matrix.
-/
namespace Verif.Fluid

/-- Diffusive part of one node: `∑_ij K_ij n_i n_j` (fluid_elem_base.cpp:1920-1930). -/
noncomputable def viscNode (d : Nat) (g : Gas) (s : Prim) (n : Fin 3 → ℝ) (x y : Var) : ℝ := ∑ i : Fin 3, ∑ j : Fin 3, if i.val < d ∧ j.val < d then kCons d i j g s x y * n i * n j else 0

section Spec

/-- Velocity variation per unit of `c_v T` belonging to a variation `z` of the entropy variables: `z_m + u z_e`. -/
def velVar (d : Nat) (s : Prim) (z : Var → ℝ) : Fin 3 → ℝ := fun i => match i with
  | 0 => z .m1 + s.u1 * z .en
  | 1 => if 2 ≤ d then z .m2 + s.u2 * z .en else 0
  | 2 => if 3 ≤ d then z .m3 + s.u3 * z .en else 0

/-- Scalar product of two vectors. -/
def dot3 (a b : Fin 3 → ℝ) : ℝ := a 0 * b 0 + a 1 * b 1 + a 2 * b 2

/-- Rate at which viscosity and conduction dissipate the wave of direction `n` and amplitude `z` (in entropy variables). -/
noncomputable def dissipation (d : Nat) (cv : ℝ) (s : Prim) (n : Fin 3 → ℝ) (z : Var → ℝ) : ℝ :=
  cv * s.T * (s.mu * dot3 n n * dot3 (velVar d s z) (velVar d s z) + (s.mu + s.lambda) * dot3 n (velVar d s z) ^ 2) + s.kth * (cv * s.T ^ 2) * dot3 n n * z .en ^ 2

end Spec

/-- Derivative of the primitive variables by the entropy variables. -/
noncomputable def dPdV (d : Nat) (cv : ℝ) (g : Gas) (s : Prim) (q w : Var) : ℝ :=
  match q, w with
  | .rho, w => dUdV d g s .rho w
  | .m1, .m1 => cv * s.T
  | .m1, .en => cv * s.T * s.u1
  | .m2, .m2 => at' 2 d (cv * s.T)
  | .m2, .en => at' 2 d (cv * s.T * s.u2)
  | .m3, .m3 => at' 3 d (cv * s.T)
  | .m3, .en => at' 3 d (cv * s.T * s.u3)
  | .en, .en => cv * s.T ^ 2
  | _, _ => 0

set_option maxHeartbeats 8000000 in
theorem dPdV_eq (d : Nat) (hd : d = 1 ∨ d = 2 ∨ d = 3) (U : Var → ℝ) (cp cv : ℝ) (hr : U .rho ≠ 0) (hv : 0 < cv) (hc : cv < cp) (q w : Var) :
    ∑ z, dprimDcons d (gasInit cp cv) (prim d U cp cv false) q z * dUdV d (gasInit cp cv) (prim d U cp cv false) z w = dPdV d cv (gasInit cp cv) (prim d U cp cv false) q w := by
  rw [prim_eq_primState d cp cv hv.ne' U]
  have hr' : primVec (prim d U cp cv false) .rho ≠ 0 := hr
  generalize primVec (prim d U cp cv false) = p at *
  have hg : cp - cv ≠ 0 := by linarith
  have hv' := hv.ne'
  rw [sumVar]
  have hgm : (cp / cv - 1) = (cp - cv) / cv := by field_simp
  rcases hd with rfl | rfl | rfl <;> cases q <;> cases w <;>
    simp only [dUdV, dprimDcons, dPdV, primState, gasInit, at', Nat.reduceLeDiff, reduceCtorEq, if_true, if_false, hgm] <;>
    first | ring1 | (field_simp; first | done | ring1)

/-- Diffusive part in entropy variables. -/
theorem viscNode_entropy (d : Nat) (hd : d = 1 ∨ d = 2 ∨ d = 3) (U : Var → ℝ) (cp cv : ℝ) (hr : U .rho ≠ 0) (hv : 0 < cv) (hc : cv < cp) (n : Fin 3 → ℝ) (x y : Var) :
    mmul (viscNode d (gasInit cp cv) (prim d U cp cv true) n) (dUdV d (gasInit cp cv) (prim d U cp cv true)) x y =
      ∑ i : Fin 3, ∑ j : Fin 3, if i.val < d ∧ j.val < d then (∑ q, kPrim d i j (prim d U cp cv true) x q * dPdV d cv (gasInit cp cv) (prim d U cp cv true) q y) * n i * n j else 0 := by
  simp only [mmul, viscNode, Finset.sum_mul]
  rw [Finset.sum_comm]
  refine Finset.sum_congr rfl fun i _ => ?_
  rw [Finset.sum_comm]
  refine Finset.sum_congr rfl fun j _ => ?_
  by_cases h : i.val < d ∧ j.val < d
  · simp only [h, and_self, if_true]
    have e : ∀ q, dPdV d cv (gasInit cp cv) (prim d U cp cv true) q y = ∑ z, dprimDcons d (gasInit cp cv) (prim d U cp cv true) q z * dUdV d (gasInit cp cv) (prim d U cp cv true) z y :=
      fun q => (dPdV_eq d hd U cp cv hr hv hc q y).symm
    simp only [e, Finset.mul_sum, Finset.sum_mul, C104_chain d hd i j h.1 h.2 cp cv hv.ne' U hr true]
    rw [Finset.sum_comm]
    exact Finset.sum_congr rfl fun q _ => Finset.sum_congr rfl fun z _ => by ring
  · simp [h]

set_option maxHeartbeats 8000000 in
/-- C105: what the diffusive part of the stabilisation matrix is in entropy variables: symmetric, with the dissipation of a wave in the direction of the node's gradient as its quadratic form. -/
theorem C105_viscous_node (d : Nat) (hd : d = 1 ∨ d = 2 ∨ d = 3) (U : Var → ℝ) (cp cv : ℝ) (hr : U .rho ≠ 0) (hv : 0 < cv) (hc : cv < cp) (n : Fin 3 → ℝ) (hn : ∀ i : Fin 3, d ≤ i.val → n i = 0) :
    let s := prim d U cp cv true
    let M := mmul (viscNode d (gasInit cp cv) s n) (dUdV d (gasInit cp cv) s)
    (∀ x y, M x y = M y x) ∧ ∀ z, qform M z = dissipation d cv s n z := by
  intro s M
  have hM : ∀ x y, M x y = _ := viscNode_entropy d hd U cp cv hr hv hc n
  have h2 : d < 2 → n 1 = 0 := fun h => hn 1 (by simp; omega)
  have h3 : d < 3 → n 2 = 0 := fun h => hn 2 (by simp; omega)
  change (∀ x y, M x y = M y x) ∧ ∀ z, qform M z = dissipation d cv s n z
  refine ⟨fun x y => ?_, fun z => ?_⟩
  · rw [hM, hM]
    change (∑ i : Fin 3, ∑ j : Fin 3, if i.val < d ∧ j.val < d then (∑ q, kPrim d i j s x q * dPdV d cv (gasInit cp cv) s q y) * n i * n j else 0) = ∑ i : Fin 3, ∑ j : Fin 3, if i.val < d ∧ j.val < d then (∑ q, kPrim d i j s y q * dPdV d cv (gasInit cp cv) s q x) * n i * n j else 0
    clear hM
    clear_value s
    simp only [Fin.sum_univ_three, sumVar]
    rcases hd with rfl | rfl | rfl <;> cases x <;> cases y <;> simp [kPrim, dPdV, at'] <;> first | ring1 | (left; ring1)
  · simp only [qform, hM]
    change (∑ v, ∑ w, z v * ((∑ i : Fin 3, ∑ j : Fin 3, if i.val < d ∧ j.val < d then (∑ q, kPrim d i j s v q * dPdV d cv (gasInit cp cv) s q w) * n i * n j else 0) * z w)) = _
    clear hM
    clear_value s
    simp only [Fin.sum_univ_three, sumVar, dissipation, velVar, dot3]
    rcases hd with rfl | rfl | rfl
    · simp [kPrim, dPdV, at', h2, h3]; ring
    · simp [kPrim, dPdV, at', h3]; ring
    · simp [kPrim, dPdV, at']; ring

/-- The dissipation is never negative. -/
theorem C105_dissipation (d : Nat) (U : Var → ℝ) (cp cv : ℝ) (hv : 0 < cv) (hc : cv < cp) (hT : 0 < (prim d U cp cv true).T) (n : Fin 3 → ℝ) (z : Var → ℝ) :
    0 ≤ dissipation d cv (prim d U cp cv true) n z ∧ (0 < dot3 n n → dissipation d cv (prim d U cp cv true) n z = 0 → z .en = 0 ∧ velVar d (prim d U cp cv true) z = 0) := by
  set s := prim d U cp cv true with hs
  have hmu : 0 < s.mu := by
    have e : s.mu = viscosity s.T := rfl
    rw [e]; unfold viscosity
    have : (0:ℝ) < s.T ^ (3 / 2 : ℝ) := Real.rpow_pos_of_pos hT _
    positivity
  have hla : s.mu + s.lambda = s.mu / 3 := by
    have e : s.lambda = -2 / 3 * s.mu := rfl
    rw [e]; ring
  have hk : 0 < s.kth := by
    have e : s.kth = s.mu * cp / Pr := rfl
    rw [e]; unfold Pr
    have : 0 < cp := by linarith
    positivity
  have hnn : 0 ≤ dot3 n n := by unfold dot3; nlinarith [sq_nonneg (n 0), sq_nonneg (n 1), sq_nonneg (n 2)]
  have hyy : 0 ≤ dot3 (velVar d s z) (velVar d s z) := by
    unfold dot3; nlinarith [sq_nonneg (velVar d s z 0), sq_nonneg (velVar d s z 1), sq_nonneg (velVar d s z 2)]
  have t1 : 0 ≤ cv * s.T * (s.mu * dot3 n n * dot3 (velVar d s z) (velVar d s z)) := by positivity
  have t2 : 0 ≤ cv * s.T * (s.mu / 3 * dot3 n (velVar d s z) ^ 2) := by positivity
  have t3 : 0 ≤ s.kth * (cv * s.T ^ 2) * dot3 n n * z .en ^ 2 := by positivity
  have hsplit : dissipation d cv s n z = cv * s.T * (s.mu * dot3 n n * dot3 (velVar d s z) (velVar d s z)) + cv * s.T * (s.mu / 3 * dot3 n (velVar d s z) ^ 2) + s.kth * (cv * s.T ^ 2) * dot3 n n * z .en ^ 2 := by
    unfold dissipation; rw [hla]; ring
  refine ⟨by rw [hsplit]; linarith, fun hp h0 => ?_⟩
  rw [hsplit] at h0
  have z1 : cv * s.T * (s.mu * dot3 n n * dot3 (velVar d s z) (velVar d s z)) = 0 := by linarith
  have z3 : s.kth * (cv * s.T ^ 2) * dot3 n n * z .en ^ 2 = 0 := by linarith
  have c1 : cv * s.T * (s.mu * dot3 n n) ≠ 0 := by positivity
  have c3 : s.kth * (cv * s.T ^ 2) * dot3 n n ≠ 0 := by positivity
  have y0 : dot3 (velVar d s z) (velVar d s z) = 0 := by
    have : cv * s.T * (s.mu * dot3 n n) * dot3 (velVar d s z) (velVar d s z) = 0 := by rw [← z1]; ring
    exact (mul_eq_zero.1 this).resolve_left c1
  have e0 : z .en ^ 2 = 0 := (mul_eq_zero.1 z3).resolve_left c3
  refine ⟨by simpa using e0, ?_⟩
  unfold dot3 at y0
  have q0 := mul_self_nonneg (velVar d s z 0)
  have q1 := mul_self_nonneg (velVar d s z 1)
  have q2 := mul_self_nonneg (velVar d s z 2)
  funext i
  fin_cases i
  · exact mul_self_eq_zero.1 (by show velVar d s z 0 * velVar d s z 0 = 0; linarith)
  · exact mul_self_eq_zero.1 (by show velVar d s z 1 * velVar d s z 1 = 0; linarith)
  · exact mul_self_eq_zero.1 (by show velVar d s z 2 * velVar d s z 2 = 0; linarith)

theorem barth_viscous (d : Nat) (U : Var → ℝ) (cp cv : ℝ) (dphi : List (Fin 3 → ℝ)) (x y : Var) :
    barth d (gasInit cp cv) (prim d U cp cv true) true dphi x y = barth d (gasInit cp cv) (prim d U cp cv false) false dphi x y + (dphi.map fun n => viscNode d (gasInit cp cv) (prim d U cp cv true) n x y).sum := by
  have e : ∀ n, absJac d (gasInit cp cv) (prim d U cp cv true) n = absJac d (gasInit cp cv) (prim d U cp cv false) n := fun n => rfl
  simp only [barth, e, if_true, viscNode]
  simp

/-- C105: in viscous flow too the matrix that the stabilisation inverts is symmetric in entropy variables; its form is the inviscid form plus the dissipation of the waves of all nodes, so it is positive semidefinite. -/
theorem C105_viscous_psd (d : Nat) (hd : d = 1 ∨ d = 2 ∨ d = 3) (U : Var → ℝ) (cp cv : ℝ) (hr : 0 < U .rho) (hv : 0 < cv) (hc : cv < cp) (hT : 0 < (prim d U cp cv true).T)
    (dphi : List (Fin 3 → ℝ)) (hphi : ∀ n ∈ dphi, ∀ i : Fin 3, d ≤ i.val → n i = 0) :
    let s := prim d U cp cv true
    let M := mmul (barth d (gasInit cp cv) s true dphi) (dUdV d (gasInit cp cv) s)
    let M0 := mmul (barth d (gasInit cp cv) (prim d U cp cv false) false dphi) (dUdV d (gasInit cp cv) (prim d U cp cv false))
    (∀ x y, M x y = M y x) ∧ (∀ z, qform M z = qform M0 z + (dphi.map fun n => dissipation d cv s n z).sum) ∧ ∀ z, 0 ≤ qform M z := by
  intro s M M0
  have h0 := C105_matrix_psd d hd U cp cv hr hv hc hT dphi hphi
  have hsum : ∀ x y, M x y = M0 x y + (dphi.map fun n => mmul (viscNode d (gasInit cp cv) s n) (dUdV d (gasInit cp cv) s) x y).sum := by
    intro x y
    have : ∀ l : List (Fin 3 → ℝ), ∑ z, (l.map fun n => viscNode d (gasInit cp cv) s n x z).sum * dUdV d (gasInit cp cv) s z y = (l.map fun n => mmul (viscNode d (gasInit cp cv) s n) (dUdV d (gasInit cp cv) s) x y).sum := by
      intro l
      induction l with
      | nil => simp
      | cons n l ih => simp only [List.map_cons, List.sum_cons, add_mul, Finset.sum_add_distrib, ih]; rfl
    rw [← this]
    show ∑ z, barth d (gasInit cp cv) s true dphi x z * dUdV d (gasInit cp cv) s z y = _
    simp only [s, barth_viscous, add_mul, Finset.sum_add_distrib]
    rfl
  have hq : ∀ z, qform M z = qform M0 z + (dphi.map fun n => dissipation d cv s n z).sum := by
    intro z
    have : ∀ l : List (Fin 3 → ℝ), (∀ n ∈ l, ∀ i : Fin 3, d ≤ i.val → n i = 0) → ∑ v, ∑ w, z v * ((l.map fun n => mmul (viscNode d (gasInit cp cv) s n) (dUdV d (gasInit cp cv) s) v w).sum * z w) = (l.map fun n => dissipation d cv s n z).sum := by
      intro l
      induction l with
      | nil => intro _; simp
      | cons n l ih =>
        intro hl
        have h1 := (C105_viscous_node d hd U cp cv hr.ne' hv hc n (hl n (by simp))).2 z
        simp only [List.map_cons, List.sum_cons, add_mul, mul_add, Finset.sum_add_distrib, ih fun m hm => hl m (List.mem_cons_of_mem _ hm)]
        rw [← h1]; rfl
    rw [← this dphi hphi]
    simp only [qform, hsum, add_mul, mul_add, Finset.sum_add_distrib]
  refine ⟨fun x y => ?_, hq, fun z => ?_⟩
  · rw [hsum, hsum]
    have e : (dphi.map fun n => mmul (viscNode d (gasInit cp cv) s n) (dUdV d (gasInit cp cv) s) x y) = dphi.map fun n => mmul (viscNode d (gasInit cp cv) s n) (dUdV d (gasInit cp cv) s) y x :=
      List.map_congr_left fun n hn => (C105_viscous_node d hd U cp cv hr.ne' hv hc n (hphi n hn)).1 x y
    rw [e, show M0 x y = M0 y x from h0.1 x y]
  · rw [hq]
    refine add_nonneg (h0.2 z) (List.sum_nonneg fun a ha => ?_)
    obtain ⟨n, _, rfl⟩ := List.mem_map.1 ha
    exact (C105_dissipation d U cp cv hv hc hT n z).1

/-- C105: in viscous flow the matrix that the stabilisation inverts is nonsingular at every state with positive density and temperature, at rest and at sonic points included, as soon as one shape function gradient is not zero: tau exists. -/
theorem C105_viscous_regular (d : Nat) (hd : d = 1 ∨ d = 2 ∨ d = 3) (U : Var → ℝ) (cp cv : ℝ) (hr : 0 < U .rho) (hv : 0 < cv) (hc : cv < cp) (hT : 0 < (prim d U cp cv true).T)
    (dphi : List (Fin 3 → ℝ)) (hphi : ∀ n ∈ dphi, ∀ i : Fin 3, d ≤ i.val → n i = 0) (n : Fin 3 → ℝ) (hn : n ∈ dphi) (hp : n ≠ 0)
    (x : Var → ℝ) (hx : ∀ v, act d v = false → x v = 0) (hk : ∀ v, ∑ w, barth d (gasInit cp cv) (prim d U cp cv true) true dphi v w * x w = 0) : x = 0 := by
  set s := prim d U cp cv true with hs
  set S : Var → Var → ℝ := dUdV d (gasInit cp cv) s with hS
  set V : Var → Var → ℝ := dVdU d (gasInit cp cv) s with hV
  set z : Var → ℝ := fun v => ∑ w, V v w * x w with hzd
  have hnn : 0 < dot3 n n := by
    have h : ∃ i, n i ≠ 0 := by
      by_contra h; push Not at h; exact hp (funext h)
    obtain ⟨i, hi⟩ := h
    have a0 := mul_self_nonneg (n 0)
    have a1 := mul_self_nonneg (n 1)
    have a2 := mul_self_nonneg (n 2)
    have := mul_self_pos.2 hi
    unfold dot3
    fin_cases i <;> simp only [Fin.zero_eta, Fin.mk_one, Fin.reduceFinMk] at this <;> linarith
  have hnv : 0 < nval n := Real.sqrt_pos.2 (by unfold dot3 at hnn; nlinarith)
  have hSz : ∀ v, ∑ w, S v w * z w = x v := by
    intro v
    simp only [hzd, Finset.mul_sum]
    rw [Finset.sum_comm]
    have : ∀ w, ∑ q, S v q * (V q w * x w) = (if v = w ∧ act d v = true then 1 else 0) * x w := by
      intro w; rw [← C103_inverse d hd U cp cv hr.ne' hv hc hT.ne' v w, Finset.sum_mul]; exact Finset.sum_congr rfl fun q _ => by rw [← mul_assoc]; rfl
    simp only [this]
    by_cases ha : act d v = true
    · simp [ha]
    · simp [ha, hx v (by simpa using ha)]
  have htot : qform (mmul (barth d (gasInit cp cv) s true dphi) S) z = ∑ v, z v * ∑ w, barth d (gasInit cp cv) s true dphi v w * x w := by
    unfold qform
    refine Finset.sum_congr rfl fun v _ => ?_
    rw [← Finset.mul_sum]
    congr 1
    simp only [mmul, Finset.sum_mul]
    rw [Finset.sum_comm]
    refine Finset.sum_congr rfl fun w _ => ?_
    rw [← hSz w, Finset.mul_sum]
    exact Finset.sum_congr rfl fun q _ => by ring
  have hform0 : qform (mmul (barth d (gasInit cp cv) s true dphi) S) z = 0 := by rw [htot]; simp [hk]
  obtain ⟨_, hq, _⟩ := C105_viscous_psd d hd U cp cv hr hv hc hT dphi hphi
  have hq0 := hq z
  have hpsd0 := (C105_matrix_psd d hd U cp cv hr hv hc hT dphi hphi).2 z
  have hdis : ∀ a ∈ dphi.map fun n => dissipation d cv s n z, 0 ≤ a := by
    intro a ha
    obtain ⟨m, _, rfl⟩ := List.mem_map.1 ha
    exact (C105_dissipation d U cp cv hv hc hT m z).1
  have hsum0 : (dphi.map fun n => dissipation d cv s n z).sum = 0 ∧ qform (mmul (barth d (gasInit cp cv) (prim d U cp cv false) false dphi) (dUdV d (gasInit cp cv) (prim d U cp cv false))) z = 0 := by
    have h1 := List.sum_nonneg hdis
    have e := hq0.symm.trans hform0
    constructor <;> linarith
  have hdn : dissipation d cv s n z = 0 := by
    have h1 := List.single_le_sum hdis _ (List.mem_map.2 ⟨n, hn, rfl⟩)
    exact le_antisymm (by rw [hsum0.1] at h1; exact h1) (C105_dissipation d U cp cv hv hc hT n z).1
  obtain ⟨hen, hvel⟩ := (C105_dissipation d U cp cv hv hc hT n z).2 hnn hdn
  have hzin : ∀ v, act d v = false → z v = 0 := by
    intro v hv'
    simp only [hzd]
    refine Finset.sum_eq_zero fun w _ => ?_
    have : V v w = 0 := by
      rcases hd with rfl | rfl | rfl <;> cases v <;> simp [act] at hv' <;> cases w <;> simp [hV, dVdU, at']
    rw [this, zero_mul]
  have hm1 : z .m1 = 0 := by
    have := congrFun hvel 0
    simpa [velVar, hen] using this
  have hm2 : z .m2 = 0 := by
    by_cases h : 2 ≤ d
    · have := congrFun hvel 1
      simpa [velVar, hen, h] using this
    · exact hzin _ (by simp [act, h])
  have hm3 : z .m3 = 0 := by
    by_cases h : 3 ≤ d
    · have := congrFun hvel 2
      simpa [velVar, hen, h] using this
    · exact hzin _ (by simp [act, h])
  -- the inviscid form of the node decides the density component
  have hnode : qform (mmul (node d (gasInit cp cv) (prim d U cp cv false) n) (dUdV d (gasInit cp cv) (prim d U cp cv false))) z ≤ qform (mmul (barth d (gasInit cp cv) (prim d U cp cv false) false dphi) (dUdV d (gasInit cp cv) (prim d U cp cv false))) z :=
    node_le d hd U cp cv hr hv hc hT z n dphi hphi hn
  rw [hsum0.2] at hnode
  have enode := node_qform d (gasInit cp cv) (prim d U cp cv false) n (dUdV d (gasInit cp cv) (prim d U cp cv false)) z
  rw [if_pos hnv] at enode
  replace hnode := enode.symm.trans_le hnode
  have hunit := unit_of d hd n (hphi n hn) hnv
  obtain ⟨hcpos, _, h2⟩ := abs_form d hd U cp cv hr hv hc hT _ hunit
  obtain ⟨p, m, hpp, hmm, bessel, hqq⟩ := h2 z
  have hle : qform (mmul (absJac d (gasInit cp cv) (prim d U cp cv false) (fun i => n i / nval n)) (dUdV d (gasInit cp cv) (prim d U cp cv false))) z ≤ 0 := by
    by_contra hcon
    push Not at hcon
    have := mul_pos hnv hcon
    linarith
  have hg1 : 1 < cp / cv := by rw [lt_div_iff₀ hv]; linarith
  have hT' : 0 < (prim d U cp cv false).T := hT
  have hapos : 0 < (prim d U cp cv false).a := Real.sqrt_pos.2 (mul_pos (mul_pos (by linarith) (by linarith)) hT)
  have hpe : p = 1 / (2 * cv * (prim d U cp cv false).T * (cp / cv)) * z .rho := by
    rw [hpp, sumVar, hm1, hm2, hm3, hen]
    simp [rightEig, rightPlus, gasInit]
  have hme : m = 1 / (2 * cv * (prim d U cp cv false).T * (cp / cv)) * z .rho := by
    rw [hmm, sumVar, hm1, hm2, hm3, hen]
    simp [rightEig, rightMinus, gasInit]
  have hpm : p = m := by rw [hpe, hme]
  have hp0 : p = 0 := by
    rw [hqq] at hle
    rw [← hpm] at hle bessel
    generalize qform (dUdV d (gasInit cp cv) (prim d U cp cv false)) z = Q at *
    generalize acC cp cv _ = c at *
    generalize eigU d _ _ = u at *
    generalize (prim d U cp cv false).a = a at *
    have t1 : 0 ≤ |u| * (Q - c * p ^ 2 - c * p ^ 2) := mul_nonneg (abs_nonneg _) (by linarith)
    have t2 : 0 < |u + a| + |u - a| := by
      have h := abs_sub_abs_le_abs_sub (u + a) (u - a)
      have h3 := abs_sub (u + a) (u - a)
      have h4 : |(u + a) - (u - a)| = 2 * a := by rw [show (u + a) - (u - a) = 2 * a by ring]; exact abs_of_pos (by linarith)
      rw [h4] at h3
      linarith
    have t3 : (|u + a| + |u - a|) * (c * p ^ 2) ≤ 0 := by nlinarith
    have t4 : c * p ^ 2 ≤ 0 := by
      by_contra hcon
      push Not at hcon
      have := mul_pos t2 hcon
      linarith
    have t5 : p ^ 2 ≤ 0 := by
      by_contra hcon
      push Not at hcon
      have := mul_pos hcpos hcon
      linarith
    exact pow_eq_zero_iff (two_ne_zero) |>.1 (le_antisymm t5 (sq_nonneg p))
  have hz0 : z .rho = 0 := by
    have hne : 1 / (2 * cv * (prim d U cp cv false).T * (cp / cv)) ≠ 0 := by
      have : 0 < cp / cv := by linarith
      positivity
    rw [hpe] at hp0
    exact (mul_eq_zero.1 hp0).resolve_left hne
  funext v
  rw [← hSz v, sumVar, hz0, hm1, hm2, hm3, hen]
  simp

/-- Non-vacuity of the viscous part of C105: air at rest, where the inviscid matrix is singular (C105_rest_fails). -/
example : 0 < (prim 2 (consOf 2 718 1 0 0 0 300) 1005 718 true).T ∧ (consOf 2 718 1 0 0 0 300) .rho = 1 ∧ (fun i : Fin 3 => if i = 0 then (1:ℝ) else 0) ≠ 0 := by
  refine ⟨by norm_num [prim, consOf, at'], by simp [consOf], fun h => by simpa using congrFun h 0⟩
end Verif.Fluid
