import Mathlib.Analysis.MeanInequalitiesPow
import Verif.Props.Stress
/-
  C53 (p-norm aggregate), C54 (KS aggregate), C55 (smooth ramp aggregate).
-/
namespace Verif.Stress
open Matrix Filter Topology

variable {F : Type} {n : Nat}

/-! ### Maximum -/

theorem foldl_max_spec {α : Type} (g : α → ℝ) (L : List α) (a : ℝ) :
    IsGreatest ({a} ∪ {x | ∃ d ∈ L, x = g d}) (L.foldl (fun mx d => if g d > mx then g d else mx) a) := by
  induction L generalizing a with
  | nil => simp [IsGreatest, upperBounds]
  | cons d L ih =>
    simp only [List.foldl_cons]
    obtain ⟨h1, h2⟩ := ih (if g d > a then g d else a)
    have hb : (if g d > a then g d else a) = max (g d) a := by
      split
      · rw [max_eq_left (by linarith)]
      · rw [max_eq_right (by linarith)]
    rw [hb] at h1 h2 ⊢
    constructor
    · rcases h1 with h1 | ⟨x, hx, h1⟩
      · simp only [Set.mem_singleton_iff] at h1
        rw [h1]
        rcases max_choice (g d) a with h | h
        · right; exact ⟨d, by simp, h⟩
        · left; exact h
      · right; exact ⟨x, by simp [hx], h1⟩
    · rintro y (hy | ⟨x, hx, rfl⟩)
      · simp only [Set.mem_singleton_iff] at hy
        exact le_trans (hy ▸ le_max_right (g d) a) (h2 (Or.inl rfl))
      · rcases List.mem_cons.1 hx with rfl | hx
        · exact le_trans (le_max_left _ a) (h2 (Or.inl rfl))
        · exact h2 (Or.inr ⟨x, hx, rfl⟩)

theorem foldl_foldl_flat {α : Type} (f : ℝ → α → ℝ) (m : List (List α)) (a : ℝ) :
    m.foldl (fun mx v => v.foldl f mx) a = m.flatten.foldl f a := by
  induction m generalizing a with
  | nil => rfl
  | cons v m ih => simp [ih, List.foldl_append]

/-- C53: `get_maximum_von_mises_stress` is the largest von Mises stress over all data on all processes (0 when there are none). -/
theorem C53_maximum (w : World F n) :
    IsGreatest ({0} ∪ {x | ∃ d ∈ points w, x = vonMises d.stress}) (maxVonMises w) := by
  unfold maxVonMises points
  simp only [foldl_foldl_flat]
  suffices h : ∀ a : ℝ, IsGreatest ({a} ∪ {x | ∃ d ∈ w.flatten.flatten, x = vonMises d.stress})
      (w.foldl (fun mx m => max mx (m.flatten.foldl (fun mx d => if vonMises d.stress > mx then vonMises d.stress else mx) 0)) a) ∨ a < 0 by
    rcases h 0 with h | h
    · exact h
    · exact absurd h (lt_irrefl _)
  induction w with
  | nil => intro a; left; simp [IsGreatest, upperBounds]
  | cons m w ih =>
    intro a
    by_cases ha : a < 0
    · right; exact ha
    left
    push Not at ha
    simp only [List.foldl_cons]
    obtain ⟨g1, g2⟩ := foldl_max_spec (fun d : Data F n => vonMises d.stress) m.flatten 0
    set M := m.flatten.foldl (fun mx d => if vonMises d.stress > mx then vonMises d.stress else mx) 0 with hM
    rcases ih (max a M) with h | h
    · obtain ⟨h1, h2⟩ := h
      constructor
      · rcases h1 with h1 | ⟨x, hx, h1⟩
        · simp only [Set.mem_singleton_iff] at h1
          rw [h1]
          rcases max_choice a M with h | h
          · left; exact h
          · rw [h]
            rcases g1 with g1 | ⟨x, hx, g1⟩
            · simp only [Set.mem_singleton_iff] at g1
              left; rw [g1]; simp only [Set.mem_singleton_iff]
              have : max a M = a := max_eq_left (g1 ▸ ha)
              rw [← g1, ← this, h]
            · right; exact ⟨x, by simp only [List.flatten_cons, List.flatten_append, List.mem_append]; left; exact hx, g1⟩
        · right; exact ⟨x, by simp only [List.flatten_cons, List.flatten_append, List.mem_append]; right; exact hx, h1⟩
      · rintro y (hy | ⟨x, hx, rfl⟩)
        · simp only [Set.mem_singleton_iff] at hy
          exact le_trans (hy ▸ le_max_left a M) (h2 (Or.inl rfl))
        · simp only [List.flatten_cons, List.flatten_append, List.mem_append] at hx
          rcases hx with hx | hx
          · exact le_trans (le_trans (g2 (Or.inr ⟨x, hx, rfl⟩)) (le_max_right a M)) (h2 (Or.inl rfl))
          · exact h2 (Or.inr ⟨x, hx, rfl⟩)
    · exact absurd (lt_of_le_of_lt (le_max_left a M) h) (not_lt.2 ha)

/-! ### Specification: admissible data and coefficients -/

/-- Quadrature weights are nonnegative and not all zero. -/
structure Weights (w : World F n) : Prop where
  nonneg : ∀ d ∈ points w, 0 ≤ d.JxW
  pos : ∃ d ∈ points w, 0 < d.JxW

theorem weight_pos (c : Coeffs) (e : ℝ) : 0 < weight c e := by
  unfold weight; simp only; split <;> exact Real.exp_pos _

theorem pnormJ_pos (c : Coeffs) {w : World F n} (hw : Weights w) : 0 < pnormJ c w := by
  rw [pnormJ, sumAll_flat]
  refine sum_pos_of _ _ (fun d hd => mul_nonneg (weight_pos _ _).le (hw.nonneg d hd)) ?_
  obtain ⟨d, hd, hp⟩ := hw.pos
  exact ⟨d, hd, mul_pos (weight_pos _ _) hp⟩

theorem sumJ_pos {w : World F n} (hw : Weights w) : 0 < sumJ w := by
  rw [sumJ, sumAll_flat]
  exact sum_pos_of _ _ hw.nonneg hw.pos

/-- C53: the aggregates depend only on the collection of stress data, not on how the elements are distributed over the processes or ordered. -/
theorem C53_partition_independent (c : Coeffs) (w w' : World F n) (h : (points w).Perm (points w')) :
    pnormValue c w = pnormValue c w' ∧ ksValue c w = ksValue c w' ∧ rampValue c w = rampValue c w' := by
  have hs : ∀ g, sumAll w g = sumAll w' g := fun g => by
    rw [sumAll_flat, sumAll_flat]; exact (h.map g).sum_eq
  simp only [pnormValue, pnormInt, pnormJ, ksValue, ksInt, sumJ, rampValue, rampInt, hs, and_self]

/-- C53, bounds: the p-norm value lies between any lower and upper bound of the von Mises stresses; in particular between 0 and the maximum. -/
theorem C53_bounds (c : Coeffs) (hp : 0 < c.p) (h0 : 0 < c.sigma0) (w : World F n) (hw : Weights w) (lo hi : ℝ) (hlo : 0 ≤ lo)
    (hb : ∀ d ∈ points w, lo ≤ vonMises d.stress ∧ vonMises d.stress ≤ hi) : lo ≤ pnormValue c w ∧ pnormValue c w ≤ hi := by
  have hJ := pnormJ_pos c hw
  have hhi : 0 ≤ hi := by
    obtain ⟨d, hd, _⟩ := hw.pos
    exact le_trans hlo (le_trans (hb d hd).1 (hb d hd).2)
  have key : (lo / c.sigma0) ^ c.p ≤ pnormInt c w / pnormJ c w ∧ pnormInt c w / pnormJ c w ≤ (hi / c.sigma0) ^ c.p := by
    rw [le_div_iff₀ hJ, div_le_iff₀ hJ]
    simp only [pnormInt, pnormJ, sumAll_flat, ← sum_const_mul, ← mul_assoc]
    constructor <;> refine sum_le_of_le _ _ _ fun d hd => ?_
    · refine mul_le_mul_of_nonneg_right (mul_le_mul_of_nonneg_right ?_ (weight_pos _ _).le) (hw.nonneg d hd)
      exact Real.rpow_le_rpow (by positivity) (div_le_div_of_nonneg_right (hb d hd).1 h0.le) hp.le
    · refine mul_le_mul_of_nonneg_right (mul_le_mul_of_nonneg_right ?_ (weight_pos _ _).le) (hw.nonneg d hd)
      exact Real.rpow_le_rpow (div_nonneg (C51_nonneg _) h0.le) (div_le_div_of_nonneg_right (hb d hd).2 h0.le) hp.le
  have hinv : ∀ x : ℝ, 0 ≤ x → ((x / c.sigma0) ^ c.p) ^ (1 / c.p) = x / c.sigma0 := fun x hx => by
    rw [← Real.rpow_mul (by positivity), mul_one_div_cancel hp.ne', Real.rpow_one]
  unfold pnormValue
  constructor
  · have := Real.rpow_le_rpow (by positivity) key.1 (by positivity : 0 ≤ 1 / c.p)
    rw [hinv lo hlo] at this
    calc lo = c.sigma0 * (lo / c.sigma0) := by field_simp
      _ ≤ _ := mul_le_mul_of_nonneg_left this h0.le
  · have := Real.rpow_le_rpow (le_trans (by positivity) key.1) key.2 (by positivity : 0 ≤ 1 / c.p)
    rw [hinv hi hhi] at this
    calc _ ≤ c.sigma0 * (hi / c.sigma0) := mul_le_mul_of_nonneg_left this h0.le
      _ = hi := by field_simp

/-- C53: between 0 and the reported maximum stress. -/
theorem C53_between_zero_and_max (c : Coeffs) (hp : 0 < c.p) (h0 : 0 < c.sigma0) (w : World F n) (hw : Weights w) :
    0 ≤ pnormValue c w ∧ pnormValue c w ≤ maxVonMises w :=
  C53_bounds c hp h0 w hw 0 _ le_rfl fun d hd => ⟨C51_nonneg _, (C53_maximum w).2 (Or.inr ⟨d, hd, rfl⟩)⟩

/-- C53: exact for a uniform stress. -/
theorem C53_uniform (c : Coeffs) (hp : 0 < c.p) (h0 : 0 < c.sigma0) (w : World F n) (hw : Weights w) (s : ℝ)
    (hs : ∀ d ∈ points w, vonMises d.stress = s) : pnormValue c w = s := by
  obtain ⟨d, hd, _⟩ := hw.pos
  have := C53_bounds c hp h0 w hw s s (hs d hd ▸ C51_nonneg _) fun d hd => ⟨(hs d hd).ge, (hs d hd).le⟩
  exact le_antisymm this.2 this.1

/-! ### Derivatives of the p-norm aggregate -/

/-- Away from the cap, the weight is differentiable. -/
theorem hasDerivAt_weight (c : Coeffs) {e : ℝ → ℝ} {de t : ℝ} (J : ℝ)
    (he : HasDerivAt e de t) (hcap : c.rho * ((e t - c.sigma0) / c.sigma0) ^ c.q ≠ c.lim) :
    HasDerivAt (fun s => weight c (e s) * J) (pnormDen1 c (e t) de J) t := by
  have hx : HasDerivAt (fun s => c.rho * ((e s - c.sigma0) / c.sigma0) ^ c.q)
      (c.rho * (c.q * ((e t - c.sigma0) / c.sigma0) ^ (c.q - 1) * (de / c.sigma0))) t :=
    (((he.sub_const c.sigma0).div_const c.sigma0).pow c.q).const_mul c.rho
  rcases lt_or_gt_of_ne hcap with hlt | hgt
  · have ev : ∀ᶠ s in 𝓝 t, weight c (e s) * J = Real.exp (c.rho * ((e s - c.sigma0) / c.sigma0) ^ c.q) * J := by
      filter_upwards [hx.continuousAt.eventually (gt_mem_nhds hlt)] with s hs
      simp only [weight]; rw [if_neg (not_lt.2 (le_of_lt hs))]
    refine ((hx.exp.mul_const J).congr_of_eventuallyEq ev).congr_deriv ?_
    simp only [pnormDen1]; rw [if_neg (not_lt.2 hlt.le)]; ring
  · have ev : ∀ᶠ s in 𝓝 t, weight c (e s) * J = Real.exp c.lim * J := by
      filter_upwards [hx.continuousAt.eventually (lt_mem_nhds hgt)] with s hs
      simp only [weight]; rw [if_pos hs]
    refine ((hasDerivAt_const t _).congr_of_eventuallyEq ev).congr_deriv ?_
    simp only [pnormDen1]; rw [if_pos hgt]

theorem hasDerivAt_num (c : Coeffs) (hp : 1 ≤ c.p) {e : ℝ → ℝ} {de t : ℝ} (J : ℝ)
    (he : HasDerivAt e de t) (hcap : c.rho * ((e t - c.sigma0) / c.sigma0) ^ c.q ≠ c.lim) :
    HasDerivAt (fun s => (e s / c.sigma0) ^ c.p * weight c (e s) * J) (pnormNum1 c (e t) de J) t := by
  have hw := hasDerivAt_weight c 1 he hcap
  simp only [mul_one] at hw
  have hr := (he.div_const c.sigma0).rpow_const (p := c.p) (Or.inr hp)
  refine ((hr.mul hw).mul_const J).congr_deriv ?_
  simp only [pnormDen1, pnormNum1, weight]
  split <;> ring

/-- No von Mises stress sits exactly at the cap of the exponential weight. -/
def OffCap (c : Coeffs) (w : World F n) : Prop :=
  ∀ d ∈ points w, c.rho * ((vonMises d.stress - c.sigma0) / c.sigma0) ^ c.q ≠ c.lim

theorem mem_points_at {W : History F n} {m} (hm : m ∈ W) {v} (hv : v ∈ m) {γ} (hγ : γ ∈ v) (t : ℝ) : γ t ∈ points (W.at t) := by
  unfold points History.at
  simp only [List.mem_flatten]
  exact ⟨v.map fun γ => γ t, ⟨m.map fun v => v.map fun γ => γ t, List.mem_map.2 ⟨m, hm, rfl⟩, List.mem_map.2 ⟨v, hv, rfl⟩⟩,
    List.mem_map.2 ⟨γ, hγ, rfl⟩⟩

theorem optSum_some (l : List ℝ) : optSum (l.map some) = some l.sum := by
  induction l with
  | nil => rfl
  | cons a l ih => simp [optSum, ih]

theorem optSum_map_some {α : Type} (l : List α) (g : α → ℝ) : optSum (l.map fun x => some (g x)) = some (l.map g).sum := by
  rw [← optSum_some, List.map_map]; rfl

theorem sum_lin {α : Type} (l : List α) (a k j : ℝ) (f g : α → ℝ) :
    (l.map fun x => a * (f x / j - k * g x)).sum = a * ((l.map f).sum / j - k * (l.map g).sum) := by
  induction l with
  | nil => simp
  | cons x l ih => simp only [List.map_cons, List.sum_cons, ih]; ring

/-- The nested sums of element contributions are the contribution of the sums. -/
theorem pnormSum_eq (c : Coeffs) (int J : ℝ) (h : ¬ (int / J = 0 ∧ 1 / c.p - 1 < 0)) (w : World F n) (f g : Data F n → ℝ) :
    optSum (w.map fun m => optSum (m.map fun v => pnormCombine c int J (v.map f).sum (v.map g).sum)) =
      some (c.sigma0 / c.p * (int / J) ^ (1 / c.p - 1) * (sumAll w f / J - int / J ^ 2 * sumAll w g)) := by
  simp only [pnormCombine, if_neg h, optSum_map_some, sum_lin, sumAll]

theorem pnorm_deriv_core (c : Coeffs) (hp : 1 ≤ c.p) {int J : ℝ → ℝ} {int' J' t : ℝ}
    (hi : HasDerivAt int int' t) (hJ : HasDerivAt J J' t) (hJ0 : J t ≠ 0) (h : ¬ (int t / J t = 0 ∧ 1 / c.p - 1 < 0)) :
    HasDerivAt (fun s => c.sigma0 * (int s / J s) ^ (1 / c.p))
      (c.sigma0 / c.p * (int t / J t) ^ (1 / c.p - 1) * (int' / J t - int t / J t ^ 2 * J')) t := by
  have hor : int t / J t ≠ 0 ∨ 1 ≤ 1 / c.p := by
    by_cases h0 : int t / J t = 0
    · right; by_contra h1; exact h ⟨h0, by linarith⟩
    · left; exact h0
  refine (((hi.div hJ hJ0).rpow_const (p := 1 / c.p) hor).const_mul c.sigma0).congr_deriv ?_
  have : c.p ≠ 0 := by linarith
  simp only [Pi.div_apply]
  field_simp

/-- C53, sensitivity: whenever the sensitivity is a number, it is the derivative of the p-norm value along any history of the stress data whose registered
sensitivities are the stress derivatives (no stress exactly at the cap, none passing through a hydrostatic state). -/
theorem C53_sensitivity_partial (c : Coeffs) (hp : 1 ≤ c.p) (W : History F n) (f : F) (t : ℝ) (hW : W.Consistent f t)
    (hw : Weights (W.at t)) (hcap : OffCap c (W.at t)) (r : ℝ) (hr : pnormSens c f (W.at t) = some r) :
    HasDerivAt (fun s => pnormValue c (W.at s)) r t := by
  have hJ := pnormJ_pos c hw
  have h : ¬ (pnormInt c (W.at t) / pnormJ c (W.at t) = 0 ∧ 1 / c.p - 1 < 0) := by
    intro h
    obtain ⟨d, hd, _⟩ := hw.pos
    unfold pnormSens pnormSensElem pnormCombine at hr
    simp only [if_pos h] at hr
    have hnone : ∀ (w : World F n), (∃ d, d ∈ points w) → optSum (w.map fun m => optSum (m.map fun _ => (none : Option ℝ))) = none := by
      intro w
      induction w with
      | nil => rintro ⟨d, hd⟩; simp [points] at hd
      | cons m w ih =>
        rintro ⟨d, hd⟩
        cases m with
        | nil =>
          have : ∃ d, d ∈ points w := ⟨d, by simpa [points] using hd⟩
          show (optSum _).map _ = none
          rw [ih this]; rfl
        | cons v m => rfl
    rw [hnone _ ⟨d, hd⟩] at hr
    cases hr
  have e := pnormSum_eq c _ _ h (W.at t) (fun d => pnormNum1 c (vonMises d.stress) (dVonMisesDp d f) d.JxW)
    (fun d => pnormDen1 c (vonMises d.stress) (dVonMisesDp d f) d.JxW)
  have hr' : pnormSens c f (W.at t) = _ := e
  rw [hr'] at hr
  injection hr with hr
  subst hr
  refine pnorm_deriv_core c hp ?_ ?_ hJ.ne' h
  · refine hasDerivAt_sumAll W _ _ t fun m hm v hv γ hγ => ?_
    have := hasDerivAt_num c hp ((γ t).JxW) (Consistent.vm hW hm hv hγ) (hcap _ (mem_points_at hm hv hγ t))
    simpa only [hW.weight m hm v hv γ hγ] using this
  · refine hasDerivAt_sumAll W _ _ t fun m hm v hv γ hγ => ?_
    have := hasDerivAt_weight c ((γ t).JxW) (Consistent.vm hW hm hv hγ) (hcap _ (mem_points_at hm hv hγ t))
    simpa only [hW.weight m hm v hv γ hγ] using this

theorem pnormInt_pos (c : Coeffs) (h0 : 0 < c.sigma0) {w : World F n} (hw : Weights w) (hpos : ∃ d ∈ points w, 0 < d.JxW ∧ vonMises d.stress ≠ 0) :
    0 < pnormInt c w := by
  rw [pnormInt, sumAll_flat]
  refine sum_pos_of _ _ (fun d hd => mul_nonneg (mul_nonneg (Real.rpow_nonneg (div_nonneg (C51_nonneg _) h0.le) _) (weight_pos _ _).le) (hw.nonneg d hd)) ?_
  obtain ⟨d, hd, hJ, hv⟩ := hpos
  have : 0 < vonMises d.stress := lt_of_le_of_ne (C51_nonneg _) (Ne.symm hv)
  exact ⟨d, hd, mul_pos (mul_pos (Real.rpow_pos_of_pos (div_pos this h0) _) (weight_pos _ _)) hJ⟩

/-- C53: the sensitivity is a number as soon as some stress is not hydrostatic. -/
theorem C53_sensitivity_defined (c : Coeffs) (h0 : 0 < c.sigma0) (f : F) (w : World F n) (hw : Weights w)
    (hpos : ∃ d ∈ points w, 0 < d.JxW ∧ vonMises d.stress ≠ 0) : ∃ r, pnormSens c f w = some r := by
  have hi := pnormInt_pos c h0 hw hpos
  have hJ := pnormJ_pos c hw
  exact ⟨_, pnormSum_eq c _ _ (fun h => (div_pos hi hJ).ne' h.1) w _ _⟩

/-- C53, finding: for an unstressed structure (all stresses zero, for all parameter values) the value is identically zero, hence has derivative zero, but with the
default exponent 2 the returned sensitivity is not a number (`pow(0, -0.5) * 0`). -/
theorem C53_zero_stress_fails (c : Coeffs) (hp : 1 < c.p) (h0 : 0 < c.sigma0) :
    ∃ (W : History Unit 0), W.Consistent () 0 ∧ Weights (W.at 0) ∧
      HasDerivAt (fun s => pnormValue c (W.at s)) 0 0 ∧ pnormSens c () (W.at 0) = none := by
  let d : Data Unit 0 := ⟨0, fun _ => some 0, 0, 1⟩
  have hv : vonMises (0 : Vec6) = 0 := (C51_zero_iff _).2 ⟨0, by funext i; fin_cases i <;> simp [hydro]⟩
  have hwt : ∀ t : ℝ, Weights (History.at [[[fun _ => d]]] t) := fun t =>
    ⟨by intro x hx; simp [points, History.at] at hx; subst hx; simp [d], ⟨d, by simp [points, History.at], by simp [d]⟩⟩
  have hval : ∀ s : ℝ, pnormValue c (History.at [[[fun _ => d]]] s) = 0 := fun s =>
    C53_uniform c (by linarith) h0 _ (hwt s) 0 (by intro x hx; simp [points, History.at] at hx; subst hx; exact hv)
  refine ⟨[[[fun _ => d]]], ⟨?_, ?_, ?_⟩, hwt 0, ?_, ?_⟩
  · intro m hm v hv γ hγ i
    simp only [List.mem_singleton] at hm hv hγ
    subst hm; simp only [List.mem_singleton] at hv; subst hv; simp only [List.mem_singleton] at hγ; subst hγ
    simpa [d] using hasDerivAt_const (0:ℝ) (0:ℝ)
  · intro m hm v hv γ hγ s
    simp only [List.mem_singleton] at hm; subst hm; simp only [List.mem_singleton] at hv; subst hv
    simp only [List.mem_singleton] at hγ; subst hγ; rfl
  · intro m hm v hv' γ hγ
    simp only [List.mem_singleton] at hm; subst hm; simp only [List.mem_singleton] at hv'; subst hv'
    simp only [List.mem_singleton] at hγ; subst hγ
    right; exact Eventually.of_forall fun _ => hv
  · simp only [hval]; exact hasDerivAt_const _ _
  · have hint : pnormInt c (History.at [[[fun _ => d]]] 0) = 0 := by
      simp [pnormInt, sumAll, History.at, d, hv, Real.zero_rpow (by linarith : c.p ≠ 0)]
    have h1 : 1 / c.p - 1 < 0 := by
      rw [sub_neg, div_lt_one (by linarith)]; exact hp
    unfold pnormSens
    rw [hint]
    simp only [History.at, List.map_cons, List.map_nil, pnormSensElem, pnormCombine, zero_div, true_and, if_pos h1]
    rfl

/-! ### Boundary sensitivity: the domain sweeps over a layer at its boundary -/

/-- The boundary data with weights (quadrature weight times normal velocity) multiplied by the elapsed time. -/
def swept (b : World F n) (t : ℝ) : World F n := b.map fun m => m.map fun v => v.map fun d => { d with JxW := t * d.JxW }

theorem sumAll_append (w b : World F n) (g : Data F n → ℝ) : sumAll (w ++ b) g = sumAll w g + sumAll b g := by
  simp [sumAll]

theorem sumAll_swept (b : World F n) (t : ℝ) (g : Vec6 → ℝ) :
    sumAll (swept b t) (fun d => g d.stress * d.JxW) = t * sumAll b (fun d => g d.stress * d.JxW) := by
  unfold sumAll swept
  simp only [List.map_map, ← sum_const_mul]
  congr 1; apply List.map_congr_left; intro m _
  simp only [Function.comp_apply, List.map_map]
  congr 1; apply List.map_congr_left; intro v _
  simp only [Function.comp_apply, List.map_map]
  congr 1; apply List.map_congr_left; intro d _
  simp only [Function.comp_apply]; ring

/-- C53, boundary sensitivity: when the domain grows by the layer swept by its boundary, the rate of change of the value is the reported boundary sensitivity. -/
theorem C53_boundary_sensitivity_partial (c : Coeffs) (hp : 1 ≤ c.p) (h0 : 0 < c.sigma0) (w b : World F n) (hw : Weights w)
    (hpos : ∃ d ∈ points w, 0 < d.JxW ∧ vonMises d.stress ≠ 0) :
    ∃ r, pnormBnd c w b = some r ∧ HasDerivAt (fun t => pnormValue c (w ++ swept b t)) r 0 := by
  have hi := pnormInt_pos c h0 hw hpos
  have hJ := pnormJ_pos c hw
  have h : ¬ (pnormInt c w / pnormJ c w = 0 ∧ 1 / c.p - 1 < 0) := fun h => (div_pos hi hJ).ne' h.1
  refine ⟨_, pnormSum_eq c _ _ h b _ _, ?_⟩
  have ei : ∀ t, pnormInt c (w ++ swept b t) = pnormInt c w + t * pnormInt c b := fun t => by
    rw [pnormInt, sumAll_append]
    have := sumAll_swept b t (fun s => (vonMises s / c.sigma0) ^ c.p * weight c (vonMises s))
    rw [this]; rfl
  have ej : ∀ t, pnormJ c (w ++ swept b t) = pnormJ c w + t * pnormJ c b := fun t => by
    rw [pnormJ, sumAll_append, sumAll_swept b t (fun s => weight c (vonMises s))]; rfl
  have di : HasDerivAt (fun t => pnormInt c w + t * pnormInt c b) (pnormInt c b) 0 := by
    simpa using ((hasDerivAt_id (0:ℝ)).mul_const (pnormInt c b)).const_add (pnormInt c w)
  have dj : HasDerivAt (fun t => pnormJ c w + t * pnormJ c b) (pnormJ c b) 0 := by
    simpa using ((hasDerivAt_id (0:ℝ)).mul_const (pnormJ c b)).const_add (pnormJ c w)
  have := pnorm_deriv_core c hp di dj (by simpa using hJ.ne') (by simpa using h)
  simp only [pnormValue, ei, ej]
  simp only [zero_mul, add_zero] at this
  exact this

/-! ### State derivative -/

/-- Histories in which every element moves with its own dof velocity. -/
abbrev MotionHistory (F : Type) (n : Nat) := List (List ((Fin n → ℝ) × List (ℝ → Data F n)))

/-- The data at time `t`. -/
def MotionHistory.at (W : MotionHistory F n) (t : ℝ) : World F n := W.map fun m => m.map fun v => v.2.map fun γ => γ t

/-- The stress rates are `dstress_dX` times the element dof velocity, the weights are fixed, no stress passes through a hydrostatic state. -/
structure MotionHistory.Consistent (W : MotionHistory F n) (t : ℝ) : Prop where
  deriv : ∀ m ∈ W, ∀ v ∈ m, ∀ γ ∈ v.2, ∀ i, HasDerivAt (fun t => (γ t).stress i) (((γ t).dX *ᵥ v.1) i) t
  weight : ∀ m ∈ W, ∀ v ∈ m, ∀ γ ∈ v.2, ∀ s, (γ s).JxW = (γ t).JxW
  nokink : ∀ m ∈ W, ∀ v ∈ m, ∀ γ ∈ v.2, vonMises (γ t).stress ≠ 0 ∨ ∀ᶠ s in 𝓝 t, vonMises (γ s).stress = 0

theorem Motion.vm {W : MotionHistory F n} {t : ℝ} (hW : W.Consistent t) {m} (hm : m ∈ W) {v} (hv : v ∈ m) {γ} (hγ : γ ∈ v.2) :
    HasDerivAt (fun t => vonMises (γ t).stress) (dVonMisesDX (γ t) ⬝ᵥ v.1) t := by
  rw [dVonMisesDX_dot]
  exact hasDerivAt_vm' (hW.deriv m hm v hv γ hγ) (hW.nokink m hm v hv γ hγ)

theorem mem_points_motion {W : MotionHistory F n} {m} (hm : m ∈ W) {v} (hv : v ∈ m) {γ} (hγ : γ ∈ v.2) (t : ℝ) : γ t ∈ points (W.at t) := by
  unfold points MotionHistory.at
  simp only [List.mem_flatten]
  exact ⟨v.2.map fun γ => γ t, ⟨m.map fun v => v.2.map fun γ => γ t, List.mem_map.2 ⟨m, hm, rfl⟩, List.mem_map.2 ⟨v, hv, rfl⟩⟩,
    List.mem_map.2 ⟨γ, hγ, rfl⟩⟩

theorem hasDerivAt_sumAll_motion (W : MotionHistory F n) (g : Data F n → ℝ) (g' : (Fin n → ℝ) → Data F n → ℝ) (t : ℝ)
    (h : ∀ m ∈ W, ∀ v ∈ m, ∀ γ ∈ v.2, HasDerivAt (fun t => g (γ t)) (g' v.1 (γ t)) t) :
    HasDerivAt (fun t => sumAll (W.at t) g) (W.map fun m => (m.map fun v => (v.2.map fun γ => g' v.1 (γ t)).sum).sum).sum t := by
  unfold sumAll MotionHistory.at
  simp only [List.map_map]
  refine hasDerivAt_list_sum W _ _ t fun m hm => ?_
  simp only [Function.comp_apply, List.map_map]
  refine hasDerivAt_list_sum m _ _ t fun v hv => ?_
  simp only [Function.comp_apply, List.map_map]
  exact hasDerivAt_list_sum v.2 _ _ t fun γ hγ => h m hm v hv γ hγ

theorem sum_dot {α : Type} (l : List α) (g : α → Fin n → ℝ) (v : Fin n → ℝ) : (l.map g).sum ⬝ᵥ v = (l.map fun x => g x ⬝ᵥ v).sum := by
  induction l with
  | nil => simp
  | cons a l ih => simp [List.map_cons, List.sum_cons, add_dotProduct, ih]

theorem pnormDXElem_dot (c : Coeffs) (int J : ℝ) (h : ¬ (int / J = 0 ∧ 1 / c.p - 1 < 0)) (l : List (Data F n)) :
    ∃ g, pnormDXElem c int J l = some g ∧ ∀ v, g ⬝ᵥ v = c.sigma0 / c.p * (int / J) ^ (1 / c.p - 1) *
      ((l.map fun d => pnormNum1 c (vonMises d.stress) (dVonMisesDX d ⬝ᵥ v) d.JxW).sum / J -
        int / J ^ 2 * (l.map fun d => pnormDen1 c (vonMises d.stress) (dVonMisesDX d ⬝ᵥ v) d.JxW).sum) := by
  refine ⟨_, by unfold pnormDXElem; simp only [if_neg h]; rfl, fun v => ?_⟩
  simp only [smul_dotProduct, sub_dotProduct, sum_dot, smul_eq_mul]
  congr 1
  rw [one_div_mul_eq_div]
  congr 2
  · congr 1; apply List.map_congr_left; intro d _
    simp only [pnormNum1]
    split <;> simp only [smul_dotProduct, smul_eq_mul] <;> ring
  · congr 1; apply List.map_congr_left; intro d _
    simp only [pnormDen1]
    split <;> simp only [smul_dotProduct, smul_eq_mul] <;> ring

/-- The rate assembled from the element state derivatives and the element dof velocities. -/
noncomputable def motionRate (W : MotionHistory F n) (g : List (Data F n) → Fin n → ℝ) (t : ℝ) : ℝ :=
  (W.map fun m => (m.map fun v => g (v.2.map fun γ => γ t) ⬝ᵥ v.1).sum).sum

/-- C53, state derivative: the element state derivatives, contracted with the element dof velocities and summed, give the rate of the value. -/
theorem C53_state_derivative_partial (c : Coeffs) (hp : 1 ≤ c.p) (h0 : 0 < c.sigma0) (W : MotionHistory F n) (t : ℝ) (hW : W.Consistent t)
    (hw : Weights (W.at t)) (hcap : OffCap c (W.at t)) (hpos : ∃ d ∈ points (W.at t), 0 < d.JxW ∧ vonMises d.stress ≠ 0) :
    ∃ g, (∀ l, pnormDXElem c (pnormInt c (W.at t)) (pnormJ c (W.at t)) l = some (g l)) ∧
      HasDerivAt (fun s => pnormValue c (W.at s)) (motionRate W g t) t := by
  have hi := pnormInt_pos c h0 hw hpos
  have hJ := pnormJ_pos c hw
  have h : ¬ (pnormInt c (W.at t) / pnormJ c (W.at t) = 0 ∧ 1 / c.p - 1 < 0) := fun h => (div_pos hi hJ).ne' h.1
  choose g hg hgd using pnormDXElem_dot (F := F) (n := n) c _ _ h
  refine ⟨g, hg, ?_⟩
  have dn := hasDerivAt_sumAll_motion W (fun d => (vonMises d.stress / c.sigma0) ^ c.p * weight c (vonMises d.stress) * d.JxW)
    (fun v d => pnormNum1 c (vonMises d.stress) (dVonMisesDX d ⬝ᵥ v) d.JxW) t (fun m hm v hv γ hγ => by
      have := hasDerivAt_num c hp ((γ t).JxW) (Motion.vm hW hm hv hγ) (hcap _ (mem_points_motion hm hv hγ t))
      simpa only [hW.weight m hm v hv γ hγ] using this)
  have dd := hasDerivAt_sumAll_motion W (fun d => weight c (vonMises d.stress) * d.JxW)
    (fun v d => pnormDen1 c (vonMises d.stress) (dVonMisesDX d ⬝ᵥ v) d.JxW) t (fun m hm v hv γ hγ => by
      have := hasDerivAt_weight c ((γ t).JxW) (Motion.vm hW hm hv hγ) (hcap _ (mem_points_motion hm hv hγ t))
      simpa only [hW.weight m hm v hv γ hγ] using this)
  refine (pnorm_deriv_core c hp dn dd hJ.ne' h).congr_deriv ?_
  unfold motionRate
  simp only [hgd, sum_lin, List.map_map]
  rfl

/-! ### KS -/

theorem ksInt_pos (c : Coeffs) {w : World F n} (hw : Weights w) : 0 < ksInt c w := by
  rw [ksInt, sumAll_flat]
  refine sum_pos_of _ _ (fun d hd => mul_nonneg (Real.exp_pos _).le (hw.nonneg d hd)) ?_
  obtain ⟨d, hd, hp⟩ := hw.pos
  exact ⟨d, hd, mul_pos (Real.exp_pos _) hp⟩

/-- C54, bounds: the KS value lies between any lower and upper bound of `σ/σ₀ - 1`. -/
theorem C54_bounds (c : Coeffs) (hp : 0 < c.p) (h0 : 0 < c.sigma0) (w : World F n) (hw : Weights w) (lo hi : ℝ)
    (hb : ∀ d ∈ points w, lo ≤ vonMises d.stress / c.sigma0 - 1 ∧ vonMises d.stress / c.sigma0 - 1 ≤ hi) :
    lo ≤ ksValue c w ∧ ksValue c w ≤ hi := by
  have hJ := sumJ_pos hw
  have hI := ksInt_pos c hw
  have hx : ∀ d : Data F n, c.p * (vonMises d.stress - c.sigma0) / c.sigma0 = c.p * (vonMises d.stress / c.sigma0 - 1) := fun d => by
    field_simp
  have key : Real.exp (c.p * lo) ≤ ksInt c w / sumJ w ∧ ksInt c w / sumJ w ≤ Real.exp (c.p * hi) := by
    rw [le_div_iff₀ hJ, div_le_iff₀ hJ]
    simp only [ksInt, sumJ, sumAll_flat, ← sum_const_mul]
    constructor <;> refine sum_le_of_le _ _ _ fun d hd => mul_le_mul_of_nonneg_right ?_ (hw.nonneg d hd) <;>
      rw [Real.exp_le_exp, hx]
    · exact mul_le_mul_of_nonneg_left (hb d hd).1 hp.le
    · exact mul_le_mul_of_nonneg_left (hb d hd).2 hp.le
  unfold ksValue
  constructor
  · rw [one_div_mul_eq_div, le_div_iff₀ hp, mul_comm]
    exact (Real.le_log_iff_exp_le (div_pos hI hJ)).2 key.1
  · rw [one_div_mul_eq_div, div_le_iff₀ hp, mul_comm hi]
    exact (Real.log_le_iff_le_exp (div_pos hI hJ)).2 key.2

/-- C54: exact for a uniform stress. -/
theorem C54_uniform (c : Coeffs) (hp : 0 < c.p) (h0 : 0 < c.sigma0) (w : World F n) (hw : Weights w) (s : ℝ)
    (hs : ∀ d ∈ points w, vonMises d.stress = s) : ksValue c w = s / c.sigma0 - 1 := by
  have := C54_bounds c hp h0 w hw (s / c.sigma0 - 1) (s / c.sigma0 - 1) fun d hd => by rw [hs d hd]; exact ⟨le_rfl, le_rfl⟩
  exact le_antisymm this.2 this.1

/-- C54, conservatism: the KS value is at least the weighted mean of `σ/σ₀ - 1`. -/
theorem C54_above_mean (c : Coeffs) (hp : 0 < c.p) (h0 : 0 < c.sigma0) (w : World F n) (hw : Weights w) :
    sumAll w (fun d => (vonMises d.stress / c.sigma0 - 1) * d.JxW) / sumJ w ≤ ksValue c w := by
  have hJ := sumJ_pos hw
  have hI := ksInt_pos c hw
  set μ := sumAll w (fun d => (vonMises d.stress / c.sigma0 - 1) * d.JxW) / sumJ w with hμ
  -- tangent line of exp at p μ
  have key : Real.exp (c.p * μ) ≤ ksInt c w / sumJ w := by
    rw [le_div_iff₀ hJ]
    have h1 : ∀ d ∈ points w, Real.exp (c.p * μ) * ((1 - c.p * μ) * d.JxW) + Real.exp (c.p * μ) * c.p * ((vonMises d.stress / c.sigma0 - 1) * d.JxW) ≤
        Real.exp (c.p * (vonMises d.stress - c.sigma0) / c.sigma0) * d.JxW := fun d hd => by
      have hx : c.p * (vonMises d.stress - c.sigma0) / c.sigma0 = c.p * μ + (c.p * (vonMises d.stress / c.sigma0 - 1) - c.p * μ) := by
        field_simp; ring
      rw [hx, Real.exp_add]
      have := Real.add_one_le_exp (c.p * (vonMises d.stress / c.sigma0 - 1) - c.p * μ)
      have h2 := mul_le_mul_of_nonneg_right (mul_le_mul_of_nonneg_left this (Real.exp_pos (c.p * μ)).le) (hw.nonneg d hd)
      calc _ = _ := by ring
        _ ≤ _ := h2
    have h2 := sum_le_of_le (points w) _ _ h1
    rw [List.sum_map_add, sum_const_mul, sum_const_mul, sum_const_mul, ← sumAll_flat, ← sumAll_flat, ← sumAll_flat] at h2
    have h3 : sumAll w (fun d => (vonMises d.stress / c.sigma0 - 1) * d.JxW) = μ * sumJ w := by rw [hμ]; field_simp
    rw [h3] at h2
    calc Real.exp (c.p * μ) * sumJ w = Real.exp (c.p * μ) * ((1 - c.p * μ) * sumAll w fun d => d.JxW) + Real.exp (c.p * μ) * c.p * (μ * sumJ w) := by
          rw [show sumAll w (fun d => d.JxW) = sumJ w from rfl]; ring
      _ ≤ _ := h2
  unfold ksValue
  rw [one_div_mul_eq_div, le_div_iff₀ hp, mul_comm]
  exact (Real.le_log_iff_exp_le (div_pos hI hJ)).2 key

theorem ks_deriv_core (c : Coeffs) {int J : ℝ → ℝ} {int' J' t : ℝ}
    (hi : HasDerivAt int int' t) (hJ : HasDerivAt J J' t) (hi0 : int t ≠ 0) (hJ0 : J t ≠ 0) :
    HasDerivAt (fun s => 1 / c.p * Real.log (int s / J s)) (1 / c.p / (int t / J t) * (int' / J t - int t / J t ^ 2 * J')) t := by
  refine (((hi.div hJ hJ0).log (div_ne_zero hi0 hJ0)).const_mul (1 / c.p)).congr_deriv ?_
  simp only [Pi.div_apply]
  field_simp

theorem hasDerivAt_ks1 (c : Coeffs) {e : ℝ → ℝ} {de t : ℝ} (J : ℝ) (he : HasDerivAt e de t) :
    HasDerivAt (fun s => Real.exp (c.p * (e s - c.sigma0) / c.sigma0) * J)
      (c.p * de / c.sigma0 * Real.exp (c.p * (e t - c.sigma0) / c.sigma0) * J) t := by
  refine (((((he.sub_const c.sigma0).const_mul c.p).div_const c.sigma0).exp).mul_const J).congr_deriv ?_
  ring

theorem sum_lin1 {α : Type} (l : List α) (a j : ℝ) (f : α → ℝ) : (l.map fun x => a * f x / j).sum = a * (l.map f).sum / j := by
  induction l with
  | nil => simp
  | cons x l ih => simp only [List.map_cons, List.sum_cons, ih]; ring

/-- C54, sensitivity: the derivative of the KS value along any history of the stress data. -/
theorem C54_sensitivity (c : Coeffs) (W : History F n) (f : F) (t : ℝ) (hW : W.Consistent f t) (hw : Weights (W.at t)) :
    HasDerivAt (fun s => ksValue c (W.at s)) (ksSens c f (W.at t)) t := by
  have hJ := sumJ_pos hw
  have hI := ksInt_pos c hw
  have di := hasDerivAt_sumAll W (fun d => Real.exp (c.p * (vonMises d.stress - c.sigma0) / c.sigma0) * d.JxW)
    (fun d => c.p * dVonMisesDp d f / c.sigma0 * Real.exp (c.p * (vonMises d.stress - c.sigma0) / c.sigma0) * d.JxW) t
    (fun m hm v hv γ hγ => by
      have := hasDerivAt_ks1 c ((γ t).JxW) (Consistent.vm hW hm hv hγ)
      simpa only [hW.weight m hm v hv γ hγ] using this)
  have dj := hasDerivAt_sumAll W (fun d => d.JxW) (fun _ => 0) t (fun m hm v hv γ hγ => by
      simpa only [hW.weight m hm v hv γ hγ] using hasDerivAt_const t (γ t).JxW)
  refine (ks_deriv_core c di dj hI.ne' hJ.ne').congr_deriv ?_
  have hz : sumAll (W.at t) (fun _ => (0:ℝ)) = 0 := by rw [sumAll_flat]; simp
  rw [hz]
  simp only [ksSens, ksSensElem, sum_lin1, sumAll]
  simp only [ksInt, sumJ, sumAll]
  ring

/-- C54, boundary sensitivity. -/
theorem C54_boundary_sensitivity (c : Coeffs) (w b : World F n) (hw : Weights w) :
    HasDerivAt (fun t => ksValue c (w ++ swept b t)) (ksBnd c w b) 0 := by
  have hJ := sumJ_pos hw
  have hI := ksInt_pos c hw
  have ei : ∀ t, ksInt c (w ++ swept b t) = ksInt c w + t * ksInt c b := fun t => by
    rw [ksInt, sumAll_append, sumAll_swept b t (fun s => Real.exp (c.p * (vonMises s - c.sigma0) / c.sigma0))]; rfl
  have ej : ∀ t, sumJ (w ++ swept b t) = sumJ w + t * sumJ b := fun t => by
    have := sumAll_swept b t (fun _ => 1)
    simp only [one_mul] at this
    rw [sumJ, sumAll_append, this]; rfl
  have di : HasDerivAt (fun t => ksInt c w + t * ksInt c b) (ksInt c b) 0 := by
    simpa using ((hasDerivAt_id (0:ℝ)).mul_const (ksInt c b)).const_add (ksInt c w)
  have dj : HasDerivAt (fun t => sumJ w + t * sumJ b) (sumJ b) 0 := by
    simpa using ((hasDerivAt_id (0:ℝ)).mul_const (sumJ b)).const_add (sumJ w)
  have := ks_deriv_core c di dj (by simpa using hI.ne') (by simpa using hJ.ne')
  simp only [ksValue, ei, ej]
  refine this.congr_deriv ?_
  simp only [zero_mul, add_zero, ksBnd, ksBndElem, sum_lin]
  rfl

theorem ksDXElem_dot (c : Coeffs) (int J : ℝ) (l : List (Data F n)) (v : Fin n → ℝ) :
    ksDXElem c int J l ⬝ᵥ v = 1 / c.p / (int / J) * (l.map fun d => c.p * (dVonMisesDX d ⬝ᵥ v) / c.sigma0 *
      Real.exp (c.p * (vonMises d.stress - c.sigma0) / c.sigma0) * d.JxW).sum / J := by
  simp only [ksDXElem, smul_dotProduct, sum_dot, smul_eq_mul]
  have : (l.map fun d => c.p / c.sigma0 * Real.exp (c.p * (vonMises d.stress - c.sigma0) / c.sigma0) * d.JxW * (dVonMisesDX d ⬝ᵥ v)) =
      (l.map fun d => c.p * (dVonMisesDX d ⬝ᵥ v) / c.sigma0 * Real.exp (c.p * (vonMises d.stress - c.sigma0) / c.sigma0) * d.JxW) := by
    apply List.map_congr_left; intro d _; ring
  rw [this]; ring

/-- C54, state derivative. -/
theorem C54_state_derivative (c : Coeffs) (W : MotionHistory F n) (t : ℝ) (hW : W.Consistent t) (hw : Weights (W.at t)) :
    HasDerivAt (fun s => ksValue c (W.at s)) (motionRate W (ksDXElem c (ksInt c (W.at t)) (sumJ (W.at t))) t) t := by
  have hJ := sumJ_pos hw
  have hI := ksInt_pos c hw
  have di := hasDerivAt_sumAll_motion W (fun d => Real.exp (c.p * (vonMises d.stress - c.sigma0) / c.sigma0) * d.JxW)
    (fun v d => c.p * (dVonMisesDX d ⬝ᵥ v) / c.sigma0 * Real.exp (c.p * (vonMises d.stress - c.sigma0) / c.sigma0) * d.JxW) t
    (fun m hm v hv γ hγ => by
      have := hasDerivAt_ks1 c ((γ t).JxW) (Motion.vm hW hm hv hγ)
      simpa only [hW.weight m hm v hv γ hγ] using this)
  have dj := hasDerivAt_sumAll_motion W (fun d => d.JxW) (fun _ _ => 0) t (fun m hm v hv γ hγ => by
      simpa only [hW.weight m hm v hv γ hγ] using hasDerivAt_const t (γ t).JxW)
  refine (ks_deriv_core c di dj hI.ne' hJ.ne').congr_deriv ?_
  have hz : ((W.map fun m => (m.map fun v => (v.2.map fun _ => (0:ℝ)).sum).sum).sum) = 0 := by simp
  rw [hz]
  simp only [motionRate, ksDXElem_dot, sum_lin1, List.map_map]
  simp only [ksInt, sumJ]
  rw [mul_zero, sub_zero, mul_div_assoc]
  rfl

/-! ### Smooth ramp -/

/-- The ramp function of one stress ratio. -/
noncomputable def ramp (p x : ℝ) : ℝ := (1 + x ^ p) ^ (1 / p)

theorem ramp_ge_one {p x : ℝ} (hp : 0 < p) (hx : 0 ≤ x) : 1 ≤ ramp p x := by
  unfold ramp
  exact Real.one_le_rpow (by have := Real.rpow_nonneg hx p; linarith) (by positivity)

theorem ramp_ge_self {p x : ℝ} (hp : 0 < p) (hx : 0 ≤ x) : x ≤ ramp p x := by
  unfold ramp
  calc x = (x ^ p) ^ (1 / p) := by rw [← Real.rpow_mul hx, mul_one_div_cancel hp.ne', Real.rpow_one]
    _ ≤ _ := Real.rpow_le_rpow (Real.rpow_nonneg hx p) (by linarith) (by positivity)

theorem ramp_mono {p x y : ℝ} (hp : 0 < p) (hx : 0 ≤ x) (hxy : x ≤ y) : ramp p x ≤ ramp p y := by
  unfold ramp
  have h := Real.rpow_le_rpow hx hxy hp.le
  exact Real.rpow_le_rpow (by have := Real.rpow_nonneg hx p; linarith) (by linarith) (by positivity)

theorem ramp_le {p x : ℝ} (hp : 1 ≤ p) (hx : 0 ≤ x) : ramp p x ≤ 1 + x := by
  unfold ramp
  have hp0 : 0 < p := by linarith
  have h := Real.add_rpow_le_rpow_add zero_le_one hx hp
  rw [Real.one_rpow] at h
  calc (1 + x ^ p) ^ (1 / p) ≤ ((1 + x) ^ p) ^ (1 / p) :=
        Real.rpow_le_rpow (by have := Real.rpow_nonneg hx p; linarith) h (by positivity)
    _ = 1 + x := by rw [← Real.rpow_mul (by linarith), mul_one_div_cancel hp0.ne', Real.rpow_one]

theorem rampValue_eq (c : Coeffs) (w : World F n) :
    rampValue c w = ((points w).map fun d => (ramp c.p (vonMises d.stress / c.sigma0) - 1) * d.JxW).sum := by
  rw [rampValue, rampInt, sumJ, sumAll_flat, sumAll_flat]
  unfold ramp
  induction points w with
  | nil => simp
  | cons a l ih => simp only [List.map_cons, List.sum_cons]; linarith

/-- C55, bounds: the ramp value is at least the integral of the positive part of `σ/σ₀ - 1` (hence nonnegative) and at most the integral of `σ/σ₀`. -/
theorem C55_bounds (c : Coeffs) (hp : 1 ≤ c.p) (h0 : 0 < c.sigma0) (w : World F n) (hw : ∀ d ∈ points w, 0 ≤ d.JxW) :
    0 ≤ rampValue c w ∧
    ((points w).map fun d => max 0 (vonMises d.stress / c.sigma0 - 1) * d.JxW).sum ≤ rampValue c w ∧
    rampValue c w ≤ ((points w).map fun d => vonMises d.stress / c.sigma0 * d.JxW).sum := by
  have hp0 : 0 < c.p := by linarith
  have hx : ∀ d : Data F n, 0 ≤ vonMises d.stress / c.sigma0 := fun d => div_nonneg (C51_nonneg _) h0.le
  have h2 : ((points w).map fun d => max 0 (vonMises d.stress / c.sigma0 - 1) * d.JxW).sum ≤ rampValue c w := by
    rw [rampValue_eq]
    refine sum_le_of_le _ _ _ fun d hd => mul_le_mul_of_nonneg_right ?_ (hw d hd)
    exact max_le (by have := ramp_ge_one hp0 (hx d); linarith) (by have := ramp_ge_self hp0 (hx d); linarith)
  refine ⟨le_trans (List.sum_nonneg ?_) h2, h2, ?_⟩
  · intro y hy; obtain ⟨d, hd, rfl⟩ := List.mem_map.1 hy
    exact mul_nonneg (le_max_left _ _) (hw d hd)
  · rw [rampValue_eq]
    refine sum_le_of_le _ _ _ fun d hd => mul_le_mul_of_nonneg_right ?_ (hw d hd)
    have := ramp_le hp (hx d); linarith

/-- C55: zero for zero stress. -/
theorem C55_zero (c : Coeffs) (hp : 1 ≤ c.p) (h0 : 0 < c.sigma0) (w : World F n) (hw : ∀ d ∈ points w, 0 ≤ d.JxW)
    (hz : ∀ d ∈ points w, vonMises d.stress = 0) : rampValue c w = 0 := by
  obtain ⟨h1, _, h3⟩ := C55_bounds c hp h0 w hw
  have : ((points w).map fun d => vonMises d.stress / c.sigma0 * d.JxW).sum = 0 := by
    apply List.sum_eq_zero
    intro y hy; obtain ⟨d, hd, rfl⟩ := List.mem_map.1 hy
    rw [hz d hd]; ring
  linarith

/-- C55: monotone in each stress: replacing the stress at a set of points by one of larger von Mises stress cannot decrease the value. -/
theorem C55_monotone (c : Coeffs) (hp : 0 < c.p) (h0 : 0 < c.sigma0) (w : World F n) (hw : ∀ d ∈ points w, 0 ≤ d.JxW) (σ : Data F n → Vec6)
    (hσ : ∀ d ∈ points w, vonMises d.stress ≤ vonMises (σ d)) :
    rampValue c w ≤ rampValue c (w.map fun m => m.map fun v => v.map fun d => { d with stress := σ d }) := by
  have hpts : points (w.map fun m => m.map fun v => v.map fun d => { d with stress := σ d }) = (points w).map fun d => { d with stress := σ d } := by
    simp [points, List.map_flatten, Function.comp_def]
  rw [rampValue_eq, rampValue_eq, hpts, List.map_map]
  refine sum_le_of_le _ _ _ fun d hd => ?_
  simp only [Function.comp_apply]
  refine mul_le_mul_of_nonneg_right ?_ (hw d hd)
  have := ramp_mono hp (div_nonneg (C51_nonneg d.stress) h0.le) (div_le_div_of_nonneg_right (hσ d hd) h0.le)
  linarith

theorem hasDerivAt_ramp1 (c : Coeffs) (hp : 1 ≤ c.p) (h0 : 0 < c.sigma0) {e : ℝ → ℝ} {de t : ℝ} (J : ℝ) (he0 : 0 ≤ e t) (he : HasDerivAt e de t) :
    HasDerivAt (fun s => (1 + (e s / c.sigma0) ^ c.p) ^ (1 / c.p) * J)
      ((1 + (e t / c.sigma0) ^ c.p) ^ (1 / c.p - 1) * (e t / c.sigma0) ^ (c.p - 1) * de / c.sigma0 * J) t := by
  have h1 := ((he.div_const c.sigma0).rpow_const (p := c.p) (Or.inr hp)).const_add 1
  have hpos : 0 < 1 + (e t / c.sigma0) ^ c.p := by
    have := Real.rpow_nonneg (div_nonneg he0 h0.le) c.p; linarith
  refine ((h1.rpow_const (p := 1 / c.p) (Or.inl hpos.ne')).mul_const J).congr_deriv ?_
  have : c.p ≠ 0 := by linarith
  field_simp

/-- C55, sensitivity. -/
theorem C55_sensitivity (c : Coeffs) (hp : 1 ≤ c.p) (h0 : 0 < c.sigma0) (W : History F n) (f : F) (t : ℝ) (hW : W.Consistent f t) :
    HasDerivAt (fun s => rampValue c (W.at s)) (rampSens c f (W.at t)) t := by
  have di := hasDerivAt_sumAll W (fun d => (1 + (vonMises d.stress / c.sigma0) ^ c.p) ^ (1 / c.p) * d.JxW)
    (fun d => (1 + (vonMises d.stress / c.sigma0) ^ c.p) ^ (1 / c.p - 1) * (vonMises d.stress / c.sigma0) ^ (c.p - 1) * dVonMisesDp d f / c.sigma0 * d.JxW) t
    (fun m hm v hv γ hγ => by
      have := hasDerivAt_ramp1 c hp h0 (e := fun t => vonMises (γ t).stress) ((γ t).JxW) (C51_nonneg _) (Consistent.vm hW hm hv hγ)
      simpa only [hW.weight m hm v hv γ hγ] using this)
  have dj := hasDerivAt_sumAll W (fun d => d.JxW) (fun _ => 0) t (fun m hm v hv γ hγ => by
      simpa only [hW.weight m hm v hv γ hγ] using hasDerivAt_const t (γ t).JxW)
  have hz : sumAll (W.at t) (fun _ => (0:ℝ)) = 0 := by rw [sumAll_flat]; simp
  refine (di.sub dj).congr_deriv ?_
  rw [hz, sub_zero]; rfl

/-- C55, boundary sensitivity. -/
theorem C55_boundary_sensitivity (c : Coeffs) (w b : World F n) :
    HasDerivAt (fun t => rampValue c (w ++ swept b t)) (rampBnd c b) 0 := by
  have e : ∀ t, rampValue c (w ++ swept b t) = rampValue c w + t * rampBnd c b := fun t => by
    have h1 := sumAll_swept b t (fun _ => 1)
    simp only [one_mul] at h1
    have h3 : rampBnd c b = rampInt c b - sumJ b := by
      have : rampBnd c b = sumAll b fun d => ((1 + (vonMises d.stress / c.sigma0) ^ c.p) ^ (1 / c.p) - 1) * d.JxW := rfl
      rw [this, sumAll_flat]
      have := rampValue_eq c b
      unfold ramp at this
      rw [← this]; rfl
    rw [h3, rampValue, rampInt, sumJ, sumAll_append, sumAll_append,
      sumAll_swept b t (fun s => (1 + (vonMises s / c.sigma0) ^ c.p) ^ (1 / c.p)), h1]
    simp only [rampValue, rampInt, sumJ]; ring
  simp only [e]
  simpa using ((hasDerivAt_id (0:ℝ)).mul_const (rampBnd c b)).const_add (rampValue c w)

/-- C55, state derivative. -/
theorem C55_state_derivative (c : Coeffs) (hp : 1 ≤ c.p) (h0 : 0 < c.sigma0) (W : MotionHistory F n) (t : ℝ) (hW : W.Consistent t) :
    HasDerivAt (fun s => rampValue c (W.at s)) (motionRate W (rampDXElem c) t) t := by
  have di := hasDerivAt_sumAll_motion W (fun d => (1 + (vonMises d.stress / c.sigma0) ^ c.p) ^ (1 / c.p) * d.JxW)
    (fun v d => (1 + (vonMises d.stress / c.sigma0) ^ c.p) ^ (1 / c.p - 1) * (vonMises d.stress / c.sigma0) ^ (c.p - 1) * (dVonMisesDX d ⬝ᵥ v) / c.sigma0 * d.JxW) t
    (fun m hm v hv γ hγ => by
      have := hasDerivAt_ramp1 c hp h0 (e := fun t => vonMises (γ t).stress) ((γ t).JxW) (C51_nonneg _) (Motion.vm hW hm hv hγ)
      simpa only [hW.weight m hm v hv γ hγ] using this)
  have dj := hasDerivAt_sumAll_motion W (fun d => d.JxW) (fun _ _ => 0) t (fun m hm v hv γ hγ => by
      simpa only [hW.weight m hm v hv γ hγ] using hasDerivAt_const t (γ t).JxW)
  have hz : ((W.map fun m => (m.map fun v => (v.2.map fun _ => (0:ℝ)).sum).sum).sum) = 0 := by simp
  refine (di.sub dj).congr_deriv ?_
  rw [hz, sub_zero]
  unfold motionRate
  congr 1; apply List.map_congr_left; intro m _
  congr 1; apply List.map_congr_left; intro v _
  simp only [rampDXElem, sum_dot, List.map_map]
  congr 1; apply List.map_congr_left; intro γ _
  simp only [Function.comp_apply, smul_dotProduct, smul_eq_mul]; ring

/-! ### Non-vacuity: two elements on two processes, uniaxial stress `2 + t` and constant shear -/

/-- A history with a stressed point of growing stress and one of constant stress with nothing registered. -/
noncomputable def exHistory : History Unit 1 :=
  [[[fun t => ⟨![2 + t, 0, 0, 0, 0, 0], fun _ => some ![1, 0, 0, 0, 0, 0], 0, 1⟩]], [[fun _ => ⟨![0, 0, 0, 3, 0, 0], fun _ => none, 0, 2⟩]]]

theorem exHistory_consistent : exHistory.Consistent () 0 := by
  refine ⟨?_, ?_, ?_⟩
  · intro m hm v hv γ hγ i
    simp only [exHistory, List.mem_cons, List.not_mem_nil, or_false] at hm
    rcases hm with rfl | rfl <;> simp only [List.mem_singleton] at hv <;> subst hv <;> simp only [List.mem_singleton] at hγ <;> subst hγ
    · fin_cases i <;> simp <;> first | exact hasDerivAt_const _ _ | exact (hasDerivAt_id (0:ℝ)).const_add 2
    · fin_cases i <;> simp <;> exact hasDerivAt_const _ _
  · intro m hm v hv γ hγ s
    simp only [exHistory, List.mem_cons, List.not_mem_nil, or_false] at hm
    rcases hm with rfl | rfl <;> simp only [List.mem_singleton] at hv <;> subst hv <;> simp only [List.mem_singleton] at hγ <;> subst hγ <;> rfl
  · intro m hm v hv γ hγ
    simp only [exHistory, List.mem_cons, List.not_mem_nil, or_false] at hm
    rcases hm with rfl | rfl <;> simp only [List.mem_singleton] at hv <;> subst hv <;> simp only [List.mem_singleton] at hγ <;> subst hγ <;> left <;>
      rw [Ne, C51_zero_iff] <;> rintro ⟨h, hh⟩
    · have h0 := congrFun hh 0; have h1 := congrFun hh 1
      simp [hydro] at h0 h1; linarith
    · have h3 := congrFun hh 3
      simp [hydro] at h3

theorem exHistory_weights (t : ℝ) : Weights (exHistory.at t) := by
  constructor
  · intro d hd
    simp [exHistory, History.at, points] at hd
    rcases hd with rfl | rfl <;> simp
  · exact ⟨⟨![0, 0, 0, 3, 0, 0], fun _ => none, 0, 2⟩, by simp [exHistory, History.at, points], by simp⟩

example : HasDerivAt (fun s => ksValue ⟨8, 1, 1, 4, 100⟩ (exHistory.at s)) (ksSens ⟨8, 1, 1, 4, 100⟩ () (exHistory.at 0)) 0 :=
  C54_sensitivity _ _ _ _ exHistory_consistent (exHistory_weights 0)

theorem exHistory_pos : ∃ d ∈ points (exHistory.at 0), 0 < d.JxW ∧ vonMises d.stress ≠ 0 := by
  refine ⟨⟨![0, 0, 0, 3, 0, 0], fun _ => none, 0, 2⟩, by simp [exHistory, History.at, points], by simp, ?_⟩
  rw [Ne, C51_zero_iff]; rintro ⟨h, hh⟩
  have h3 := congrFun hh 3
  simp [hydro] at h3

/-- With the default weight (exponent 1, ρ = 1, cap 100) no stress of the example is at the cap. -/
example : ∃ r, pnormSens ⟨2, 1, 1, 4, 100⟩ () (exHistory.at 0) = some r ∧
    HasDerivAt (fun s => pnormValue ⟨2, 1, 1, 4, 100⟩ (exHistory.at s)) r 0 := by
  obtain ⟨r, hr⟩ := C53_sensitivity_defined ⟨2, 1, 1, 4, 100⟩ (by norm_num) () (exHistory.at 0) (exHistory_weights 0) exHistory_pos
  refine ⟨r, hr, C53_sensitivity_partial _ (by norm_num) _ _ _ exHistory_consistent (exHistory_weights 0) ?_ r hr⟩
  intro d hd
  have hb : vonMises d.stress ≤ 9 := by
    simp [exHistory, History.at, points] at hd
    rw [vonMises_sqrt, Real.sqrt_le_left (by norm_num)]
    rcases hd with rfl | rfl <;> simp [vmArg] <;> norm_num
  simp only [pow_one, one_mul]
  intro h
  rw [div_eq_iff (by norm_num)] at h
  linarith

end Verif.Stress
