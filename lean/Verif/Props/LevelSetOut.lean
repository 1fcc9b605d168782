import Verif.Props.LevelSetElem
import Mathlib.Analysis.SpecialFunctions.Trigonometric.ArctanDeriv
import Mathlib.Topology.Algebra.Order.Field
/-
  C129: volume and perimeter of the level set.  C130: velocity and normal of the level set boundary.  C131: homogenized density.
-/
namespace Verif.LevelSetElem
open Filter Topology
variable {n d : Nat} {X P : Type}

/-! ### Specification -/

/-- Twice the signed area of the triangle `a b c` in the plane. -/
def area2 (a b c : Fin 2 → ℝ) : ℝ := (b 0 - a 0) * (c 1 - a 1) - (b 1 - a 1) * (c 0 - a 0)

/-- Point of the line `a b` at which the linear interpolant of the values `fa`, `fb` vanishes. -/
noncomputable def zeroPt (a b : Fin 2 → ℝ) (fa fb : ℝ) (k : Fin 2) : ℝ := a k + fa / (fa - fb) * (b k - a k)

/-- The points `s` are a quadrature rule on the segment from `a` to `b`, exact for linear functions, with shape functions `N` that are the linear shape functions of the triangle `p` and gradients `dN` that differentiate linear functions exactly. -/
structure OnSegment (p : Fin 3 → Fin 2 → ℝ) (a b : Fin 2 → ℝ) (s : List (Qp 3 2 X)) : Prop where
  one : ∀ q ∈ s, ∑ i, q.N i = 1
  dzero : ∀ q ∈ s, ∀ k, ∑ i, q.dN k i = 0
  deriv : ∀ q ∈ s, ∀ k l, ∑ i, q.dN k i * p i l = if k = l then 1 else 0
  weight : (s.map fun q => q.JxW).sum = len fun k => b k - a k
  mean : ∀ l, (s.map fun q => q.JxW * ∑ i, q.N i * p i l).sum = (len fun k => b k - a k) * ((a l + b l) / 2)

/-! ### C129 -/

/-- C129: the volume lies between zero and the volume of the element, grows with the level set, and is zero or full for one sign. -/
theorem C129_volume {e : List (Qp n d X)} (hJ : ∀ q ∈ e, 0 ≤ q.JxW) (u : Fin n → ℝ) :
    (0 ≤ volume e u ∧ volume e u ≤ total e) ∧ (∀ v, (∀ q ∈ e, val q u ≤ val q v) → volume e u ≤ volume e v) ∧ ((∀ q ∈ e, 0 < val q u) → volume e u = total e) ∧ ((∀ q ∈ e, val q u ≤ 0) → volume e u = 0)
    ∧ ((∀ q ∈ e, val q u ≠ 0) → volume e u + volume e (fun i => -u i) = total e) := by
  have hneg : ∀ q : Qp n d X, val q (fun i => -u i) = -val q u := fun q => by simp [val]
  refine ⟨⟨List.sum_nonneg fun x hx => ?_, List.sum_le_sum fun q hq => ?_⟩, fun v hv => List.sum_le_sum fun q hq => ?_, fun h => congrArg List.sum (List.map_congr_left fun q hq => if_pos (h q hq)), fun h => List.sum_eq_zero fun x hx => ?_, fun h => ?_⟩
  · obtain ⟨q, hq, rfl⟩ := List.mem_map.mp hx
    split <;> [exact hJ q hq; exact le_rfl]
  · split <;> [exact le_rfl; exact hJ q hq]
  · by_cases h : val q u > 0
    · rw [if_pos h, if_pos (h.trans_le (hv q hq))]
    · rw [if_neg h]; split <;> [exact hJ q hq; exact le_rfl]
  · obtain ⟨q, hq, rfl⟩ := List.mem_map.mp hx
    exact if_neg (not_lt.mpr (h q hq))
  · unfold volume total
    rw [← List.sum_map_add]
    refine congrArg List.sum (List.map_congr_left fun q hq => ?_)
    rw [hneg q]
    rcases lt_or_gt_of_ne (h q hq) with hl | hl
    · rw [if_neg (not_lt.mpr hl.le), if_pos (by linarith)]; ring
    · rw [if_pos hl, if_neg (by linarith)]; ring

theorem heaviside_bounds (x : ℝ) : 0 < 1 / 2 * (1 + 2 / Real.pi * Real.arctan x) ∧ 1 / 2 * (1 + 2 / Real.pi * Real.arctan x) < 1 := by
  have hp := Real.pi_pos
  have h1 := Real.neg_pi_div_two_lt_arctan x
  have h2 := Real.arctan_lt_pi_div_two x
  have e : 2 / Real.pi * (Real.pi / 2) = 1 := by field_simp
  have hc : 0 < 2 / Real.pi := by positivity
  have a1 := mul_lt_mul_of_pos_left h1 hc
  have a2 := mul_lt_mul_of_pos_left h2 hc
  rw [e] at a2
  have e' : 2 / Real.pi * -(Real.pi / 2) = -1 := by rw [mul_neg, e]
  rw [e'] at a1
  constructor <;> linarith

theorem total_pos {e : List (Qp n d X)} (hJ : ∀ q ∈ e, 0 < q.JxW) (he : e ≠ []) : 0 < total e := by
  unfold total
  cases e with
  | nil => exact absurd rfl he
  | cons q e =>
    simp only [List.map_cons, List.sum_cons]
    have : 0 ≤ (e.map fun q => q.JxW).sum := List.sum_nonneg fun x hx => by
      obtain ⟨p, hp, rfl⟩ := List.mem_map.mp hx
      exact (hJ p (List.mem_cons_of_mem q hp)).le
    linarith [hJ q List.mem_cons_self]

/-- C129: the smoothed volume fraction lies strictly between zero and one, grows with the level set, and the fractions of a level set and its negative add up to one. -/
theorem C129_fraction {w : ℝ} (hw : 0 < w) {e : List (Qp n d X)} (hJ : ∀ q ∈ e, 0 < q.JxW) (he : e ≠ []) (u : Fin n → ℝ) :
    (0 < fraction w e u ∧ fraction w e u < 1) ∧ (∀ v, (∀ q ∈ e, val q u ≤ val q v) → fraction w e u ≤ fraction w e v) ∧ fraction w e u + fraction w e (fun i => -u i) = 1 := by
  have ht := total_pos hJ he
  have hp := Real.pi_pos
  refine ⟨⟨div_pos ?_ ht, (div_lt_one ht).mpr ?_⟩, fun v hv => div_le_div_of_nonneg_right (List.sum_le_sum fun q hq => ?_) ht.le, ?_⟩
  · clear ht
    induction e with
    | nil => exact absurd rfl he
    | cons q e ih =>
      simp only [List.map_cons, List.sum_cons]
      have h1 := mul_pos (heaviside_bounds (val q u / w)).1 (hJ q List.mem_cons_self)
      have h2 : 0 ≤ (e.map fun q => 1 / 2 * (1 + 2 / Real.pi * Real.arctan (val q u / w)) * q.JxW).sum := List.sum_nonneg fun x hx => by
        obtain ⟨p, hp, rfl⟩ := List.mem_map.mp hx
        exact (mul_pos (heaviside_bounds _).1 (hJ p (List.mem_cons_of_mem q hp))).le
      linarith
  · refine List.sum_lt_sum _ _ (fun q hq => ?_) ?_
    · have := mul_lt_mul_of_pos_right (heaviside_bounds (val q u / w)).2 (hJ q hq)
      linarith
    · obtain ⟨q, hq⟩ := List.exists_mem_of_ne_nil e he
      refine ⟨q, hq, ?_⟩
      have := mul_lt_mul_of_pos_right (heaviside_bounds (val q u / w)).2 (hJ q hq)
      linarith
  · have h1 : Real.arctan (val q u / w) ≤ Real.arctan (val q v / w) := Real.arctan_strictMono.monotone (div_le_div_of_nonneg_right (hv q hq) hw.le)
    refine mul_le_mul_of_nonneg_right ?_ (hJ q hq).le
    have := mul_le_mul_of_nonneg_left h1 (show 0 ≤ 2 / Real.pi by positivity)
    linarith
  · unfold fraction
    rw [← add_div, ← List.sum_map_add, div_eq_one_iff_eq ht.ne']
    refine congrArg List.sum (List.map_congr_left fun q _ => ?_)
    have : val q (fun i => -u i) = -val q u := by simp [val]
    rw [this, neg_div, Real.arctan_neg]; ring

theorem arctan_deriv {f : ℝ → ℝ} {f' w : ℝ} (h : HasDerivAt f f' 0) : HasDerivAt (fun t => Real.arctan (f t / w)) (1 / (1 + (f 0 / w) ^ 2) * (f' / w)) 0 := (h.div_const w).arctan

theorem val_path {U : ℝ → Fin n → ℝ} {v : Fin n → ℝ} (h : ∀ i, HasDerivAt (fun t => U t i) (v i) 0) (q : Qp n d X) : HasDerivAt (fun t => val q (U t)) (val q v) 0 :=
  HasDerivAt.fun_sum fun i _ => (h i).const_mul _

theorem hasDeriv_list {ι : Type} (l : List ι) {f : ι → ℝ → ℝ} {f' : ι → ℝ} (h : ∀ q ∈ l, HasDerivAt (f q) (f' q) 0) : HasDerivAt (fun t => (l.map fun q => f q t).sum) (l.map f').sum 0 := by
  induction l with
  | nil => simpa using hasDerivAt_const (0 : ℝ) (0 : ℝ)
  | cons q l ih =>
    simp only [List.map_cons, List.sum_cons]
    exact (h q List.mem_cons_self).fun_add (ih fun p hp => h p (List.mem_cons_of_mem q hp))

/-- C129: the sensitivity of the smoothed volume fraction is its derivative along any path of level sets. -/
theorem C129_fraction_sensitivity {w : ℝ} (hw : w ≠ 0) (e : List (Qp n d X)) {U : ℝ → Fin n → ℝ} {v : Fin n → ℝ} (h : ∀ i, HasDerivAt (fun t => U t i) (v i) 0) :
    HasDerivAt (fun t => fraction w e (U t)) (fractionSens w e (U 0) v) 0 := by
  refine HasDerivAt.div_const (hasDeriv_list e fun q _ => ?_) _
  have := (((arctan_deriv (w := w) (val_path h q)).const_mul (2 / Real.pi)).const_add 1).const_mul (1 / 2)
  refine HasDerivAt.congr_deriv (this.mul_const q.JxW) ?_
  have hp := Real.pi_pos.ne'
  have h1 : (1 : ℝ) + (val q (U 0) / w) ^ 2 ≠ 0 := by positivity
  field_simp

/-- C129: the sensitivity of the smoothed perimeter is its derivative along any path of level sets. -/
theorem C129_perimeter_sensitivity {w : ℝ} (hw : w ≠ 0) (e : List (Qp n d X)) {U : ℝ → Fin n → ℝ} {v : Fin n → ℝ} (h : ∀ i, HasDerivAt (fun t => U t i) (v i) 0) :
    HasDerivAt (fun t => perimeter w e (U t)) (perimeterSens w e (U 0) v) 0 := by
  have h1 : HasDerivAt (fun t => perimeter w e (U t)) (e.map fun q => -(2 * val q (U 0) / Real.pi / w ^ 3 / (1 + (val q (U 0) / w) ^ 2) ^ 2 * val q v * q.JxW)).sum 0 := by
    refine hasDeriv_list e fun q _ => ?_
    have hne : (1 : ℝ) + (val q (U 0) / w) ^ 2 ≠ 0 := by positivity
    have hq := (((val_path h q).div_const w).fun_pow 2).const_add 1
    have := ((hasDerivAt_const (0 : ℝ) (1 / Real.pi / w)).fun_div hq hne).mul_const q.JxW
    refine HasDerivAt.congr_deriv this ?_
    have hp := Real.pi_pos.ne'
    rw [show (2 - 1 : ℕ) = 1 from rfl, pow_one]
    push_cast
    field_simp
    ring
  refine HasDerivAt.congr_deriv h1 ?_
  unfold perimeterSens
  clear h1
  induction e with
  | nil => simp
  | cons q e ih => simp only [List.map_cons, List.sum_cons, neg_add] at ih ⊢; rw [ih]

/-- C129: the smoothed perimeter is the rate at which the smoothed volume grows when the level set is raised uniformly; it is positive and at most the volume over `pi w`. -/
theorem C129_perimeter {w : ℝ} (hw : 0 < w) {e : List (Qp n d X)} (hJ : ∀ q ∈ e, 0 < q.JxW) (he : e ≠ []) (hN : ∀ q ∈ e, ∑ i, q.N i = 1) (u : Fin n → ℝ) :
    HasDerivAt (fun t => total e * fraction w e fun i => u i + t) (perimeter w e u) 0 ∧ 0 < perimeter w e u ∧ perimeter w e u ≤ total e / (Real.pi * w) := by
  have ht := total_pos hJ he
  have hp := Real.pi_pos
  have hpos : ∀ q : Qp n d X, 0 < 1 / Real.pi / w / (1 + (val q u / w) ^ 2) := fun q => by positivity
  refine ⟨?_, ?_, ?_⟩
  · have := (C129_fraction_sensitivity hw.ne' e (U := fun t i => u i + t) (v := fun _ => 1) fun i => (hasDerivAt_id' (0 : ℝ)).const_add (u i)).const_mul (total e)
    refine HasDerivAt.congr_deriv this ?_
    unfold fractionSens perimeter
    rw [mul_div_cancel₀ _ ht.ne']
    refine congrArg List.sum (List.map_congr_left fun q hq => ?_)
    have h1 : val q (fun _ => 1) = 1 := by simp [val, hN q hq]
    simp only [add_zero, h1, mul_one]
  · unfold perimeter
    cases e with
    | nil => exact absurd rfl he
    | cons q e =>
      simp only [List.map_cons, List.sum_cons]
      refine add_pos_of_pos_of_nonneg (mul_pos (hpos q) (hJ q List.mem_cons_self)) (List.sum_nonneg fun x hx => ?_)
      obtain ⟨p, hp, rfl⟩ := List.mem_map.mp hx
      exact (mul_pos (hpos p) (hJ p (List.mem_cons_of_mem q hp))).le
  · have : total e / (Real.pi * w) = (e.map fun q => 1 / Real.pi / w * q.JxW).sum := by
      unfold total; rw [List.sum_map_mul_left]; field_simp
    rw [this]
    refine List.sum_le_sum fun q hq => mul_le_mul_of_nonneg_right ?_ (hJ q hq).le
    exact div_le_self (by positivity) (by nlinarith [sq_nonneg (val q u / w)])

/-- C129: as the width goes to zero the smoothed volume goes to the volume, if the level set vanishes at no quadrature point. -/
theorem C129_fraction_limit {e : List (Qp n d X)} {u : Fin n → ℝ} (h : ∀ q ∈ e, val q u ≠ 0) (ht : total e ≠ 0) : Tendsto (fun w => total e * fraction w e u) (𝓝[>] 0) (𝓝 (volume e u)) := by
  have h1 : (fun w => total e * fraction w e u) = fun w => (e.map fun q => 1 / 2 * (1 + 2 / Real.pi * Real.arctan (val q u / w)) * q.JxW).sum := by
    funext w; unfold fraction; rw [mul_div_cancel₀ _ ht]
  rw [h1]
  unfold volume
  clear h1 ht
  have hp := Real.pi_pos.ne'
  induction e with
  | nil => simp
  | cons q e ih =>
    simp only [List.map_cons, List.sum_cons]
    refine Tendsto.add ?_ (ih fun p hp => h p (List.mem_cons_of_mem q hp))
    have hinv : Tendsto (fun w : ℝ => w⁻¹) (𝓝[>] 0) atTop := tendsto_inv_nhdsGT_zero
    rcases lt_or_gt_of_ne (h q List.mem_cons_self) with hl | hl
    · rw [if_neg (not_lt.mpr hl.le)]
      have h2 : Tendsto (fun w : ℝ => Real.arctan (val q u / w)) (𝓝[>] 0) (𝓝 (-(Real.pi / 2))) := by
        have := (tendsto_nhds_of_tendsto_nhdsWithin Real.tendsto_arctan_atBot).comp (hinv.const_mul_atTop_of_neg hl)
        simpa [Function.comp_def, div_eq_mul_inv] using this
      have := (((h2.const_mul (2 / Real.pi)).const_add 1).const_mul (1 / 2)).mul_const q.JxW
      convert this using 2
      field_simp; ring
    · rw [if_pos hl]
      have h2 : Tendsto (fun w : ℝ => Real.arctan (val q u / w)) (𝓝[>] 0) (𝓝 (Real.pi / 2)) := by
        have := (tendsto_nhds_of_tendsto_nhdsWithin Real.tendsto_arctan_atTop).comp (hinv.const_mul_atTop hl)
        simpa [Function.comp_def, div_eq_mul_inv] using this
      have := (((h2.const_mul (2 / Real.pi)).const_add 1).const_mul (1 / 2)).mul_const q.JxW
      convert this using 2
      field_simp; ring

/-- C129: the perimeter summed over the elements has the summed sensitivity as derivative. -/
theorem C129_perimeter_total {w : ℝ} (hw : w ≠ 0) (es : List (OutElem n d X)) :
    HasDerivAt (fun t => perimeterTotal w (es.map fun e => { e with u := fun i => e.u i + t * e.v i })) (perimeterSensTotal w es) 0 := by
  unfold perimeterTotal perimeterSensTotal
  simp only [List.map_map, Function.comp_def]
  refine hasDeriv_list es fun e _ => ?_
  by_cases he : e.evaluate = true
  · simp only [he, if_true]
    have := C129_perimeter_sensitivity hw e.qps (U := fun t i => e.u i + t * e.v i) (v := e.v) fun i => by simpa using ((hasDerivAt_id' (0 : ℝ)).mul_const (e.v i)).const_add (e.u i)
    simpa using this
  · simp only [he, if_false]; exact hasDerivAt_const _ _

/-- C129: the volume summed over the elements is the weight of all quadrature points of the participating elements at which the level set is positive; elements that do not participate add nothing to the volume, the perimeter or either sensitivity, and the volume sensitivity is collected from the participating cut elements only. -/
theorem C129_totals (w : ℝ) (es : List (OutElem n d X)) :
    (volumeTotal es = ((es.filter fun e => e.evaluate).map fun e => ((e.qps.filter fun q => decide (0 < ∑ i, q.N i * e.u i)).map fun q => q.JxW).sum).sum) ∧
    (volumeSensTotal es = ((es.filter fun e => e.evaluate).map fun e => ((e.side.getD []).map fun q => (∑ i, q.N i * e.v i) / len (grad q e.u) * q.JxW).sum).sum) ∧
    (perimeterTotal w es = ((es.filter fun e => e.evaluate).map fun e => perimeter w e.qps e.u).sum) ∧
    (perimeterSensTotal w es = ((es.filter fun e => e.evaluate).map fun e => perimeterSens w e.qps e.u e.v).sum) := by
  have key : ∀ f : OutElem n d X → ℝ, (es.map fun e => if e.evaluate then f e else 0).sum = ((es.filter fun e => e.evaluate).map f).sum := by
    intro f
    induction es with
    | nil => rfl
    | cons e es ih => by_cases he : e.evaluate = true <;> simp [he, ih]
  refine ⟨?_, ?_, key _, key _⟩
  · refine (key _).trans (congrArg List.sum (List.map_congr_left fun e _ => ?_))
    unfold volume val
    induction e.qps with
    | nil => rfl
    | cons q l ih => by_cases hq : 0 < ∑ i, q.N i * e.u i <;> simp [hq, ih]
  · refine (key _).trans (congrArg List.sum (List.map_congr_left fun e _ => ?_))
    cases e.side <;> simp [volumeBoundaryVelocity, val]

/-- Two elements, one of them left out: the volume is the weight of the other one. -/
example : volumeTotal [(⟨[bar], none, true, ![1, 1], ![0, 0]⟩ : OutElem 2 1 Unit), ⟨[bar], none, false, ![1, 1], ![0, 0]⟩] = bar.JxW := by
  rw [(C129_totals 1 _).1]
  simp [bar, Fin.sum_univ_two]

/-- C129 fails element by element: the sensitivity reported for a single element is zero unless the element is cut, although the smoothed perimeter of every element depends on the level set; the element values do not add up to the total. -/
theorem C129_perimeter_elem_fails : ∃ e : OutElem 2 1 Unit, perimeterSensElem 1 e = 0 ∧ perimeterSensTotal 1 [e] < 0 := by
  refine ⟨⟨[bar], none, true, ![1, 1], ![1, 1]⟩, by simp [perimeterSensElem], ?_⟩
  have hp := Real.pi_pos
  simp only [perimeterSensTotal, perimeterSens, List.map_cons, List.map_nil, List.sum_cons, List.sum_nil, if_true, add_zero]
  have : val bar ![1, 1] = 1 := by simp [val, bar, Fin.sum_univ_two]; norm_num
  rw [this]
  simp only [bar, neg_lt_zero]
  positivity

/-- C129 fails for the perimeter as a measure of the interface: a level set and its double have the same interface but different perimeters. -/
theorem C129_perimeter_scale_fails : (∀ q : Qp 2 1 Unit, val q ![-2, 2] = 2 * val q ![-1, 1]) ∧ perimeter 1 [{ bar with N := ![0, 1] }] ![-2, 2] < perimeter 1 [{ bar with N := ![0, 1] }] ![-1, 1] := by
  refine ⟨fun q => by simp [val, Fin.sum_univ_two]; ring, ?_⟩
  have hp := Real.pi_pos
  simp [perimeter, val, Fin.sum_univ_two, bar]
  gcongr
  norm_num

/-! Derivative of the volume cut from a triangle. -/

theorem cut_area (p : Fin 3 → Fin 2 → ℝ) {a b c : ℝ} (hb : a - b ≠ 0) (hc : a - c ≠ 0) :
    area2 (p 0) (zeroPt (p 0) (p 1) a b) (zeroPt (p 0) (p 2) a c) = area2 (p 0) (p 1) (p 2) * (a ^ 2 / ((a - b) * (a - c))) := by
  simp only [area2, zeroPt]; field_simp; ring

theorem sum_split {ι : Type} (l : List ι) (f g : ι → ℝ) (c : ℝ) : (l.map fun q => f q + c * g q).sum = (l.map f).sum + c * (l.map g).sum := by
  induction l with
  | nil => simp
  | cons q l ih => simp only [List.map_cons, List.sum_cons, ih]; ring

/-- C129: on a triangle with one positive corner the reported boundary integral is the derivative of the area in which the linear level set is positive, for every rule on the interface that is exact for linear functions. -/
theorem C129_volume_sensitivity {p : Fin 3 → Fin 2 → ℝ} (hp : 0 < area2 (p 0) (p 1) (p 2)) {u v : Fin 3 → ℝ} (h0 : 0 < u 0) (h1 : u 1 < 0) (h2 : u 2 < 0)
    {s : List (Qp 3 2 X)} (hs : OnSegment p (zeroPt (p 0) (p 1) (u 0) (u 1)) (zeroPt (p 0) (p 2) (u 0) (u 2)) s) :
    HasDerivAt (fun t => area2 (p 0) (zeroPt (p 0) (p 1) (u 0 + t * v 0) (u 1 + t * v 1)) (zeroPt (p 0) (p 2) (u 0 + t * v 0) (u 2 + t * v 2)) / 2) (volumeBoundaryVelocity s u v) 0 := by
  have hb : 0 < u 0 - u 1 := by linarith
  have hc : 0 < u 0 - u 2 := by linarith
  set D := area2 (p 0) (p 1) (p 2) with hD
  -- gradient of the level set
  set gx := ((u 1 - u 0) * (p 2 1 - p 0 1) - (u 2 - u 0) * (p 1 1 - p 0 1)) / D with hgx
  set gy := ((u 2 - u 0) * (p 1 0 - p 0 0) - (u 1 - u 0) * (p 2 0 - p 0 0)) / D with hgy
  have hgrad : ∀ q ∈ s, grad q u = ![gx, gy] := by
    intro q hq
    have hz := hs.dzero q hq
    have hd := hs.deriv q hq
    have key : ∀ k, grad q u k = gx * (∑ i, q.dN k i * p i 0) + gy * (∑ i, q.dN k i * p i 1) := by
      intro k
      have hzk := hz k
      simp only [Fin.sum_univ_three] at hzk
      simp only [grad, Fin.sum_univ_three]
      have e0 : q.dN k 0 = -q.dN k 1 - q.dN k 2 := by linarith
      rw [e0, hgx, hgy]
      have hDne : D ≠ 0 := hp.ne'
      field_simp
      rw [hD]; simp only [area2]; ring
    funext k
    fin_cases k
    · have := key 0; rw [hd 0 0, hd 0 1] at this; simpa using this
    · have := key 1; rw [hd 1 0, hd 1 1] at this; simpa using this
  set mu := u 0 * D / ((u 0 - u 1) * (u 0 - u 2)) with hmu
  have hmupos : 0 < mu := by positivity
  have hDne : D ≠ 0 := hp.ne'
  have hg0 : 0 < gx ^ 2 + gy ^ 2 := by
    rcases eq_or_ne gx 0 with hx | hx
    · rcases eq_or_ne gy 0 with hy | hy
      · exfalso
        have e1 : gx * (p 1 0 - p 0 0) + gy * (p 1 1 - p 0 1) = u 1 - u 0 := by rw [hgx, hgy]; field_simp; rw [hD]; simp only [area2]; ring
        rw [hx, hy] at e1; linarith
      · positivity
    · positivity
  have hG : 0 < Real.sqrt (gx ^ 2 + gy ^ 2) := Real.sqrt_pos.mpr hg0
  have hlen : (len fun k => zeroPt (p 0) (p 2) (u 0) (u 2) k - zeroPt (p 0) (p 1) (u 0) (u 1) k) = mu * Real.sqrt (gx ^ 2 + gy ^ 2) := by
    unfold len
    rw [Fin.sum_univ_two]
    have ex : zeroPt (p 0) (p 2) (u 0) (u 2) 0 - zeroPt (p 0) (p 1) (u 0) (u 1) 0 = mu * gy := by
      simp only [zeroPt, hmu, hgy]; field_simp; ring
    have ey : zeroPt (p 0) (p 2) (u 0) (u 2) 1 - zeroPt (p 0) (p 1) (u 0) (u 1) 1 = -(mu * gx) := by
      simp only [zeroPt, hmu, hgx]; field_simp; ring
    beta_reduce
    rw [ex, ey, show (mu * gy) ^ 2 + (-(mu * gx)) ^ 2 = mu ^ 2 * (gx ^ 2 + gy ^ 2) by ring, Real.sqrt_mul (sq_nonneg mu), Real.sqrt_sq hmupos.le]
  have hlg : ∀ q ∈ s, len (grad q u) = Real.sqrt (gx ^ 2 + gy ^ 2) := fun q hq => by rw [hgrad q hq]; simp [len, Fin.sum_univ_two]
  -- the rate of change is linear in the position
  set hx := ((v 1 - v 0) * (p 2 1 - p 0 1) - (v 2 - v 0) * (p 1 1 - p 0 1)) / D with hhx
  set hy := ((v 2 - v 0) * (p 1 0 - p 0 0) - (v 1 - v 0) * (p 2 0 - p 0 0)) / D with hhy
  have hval : ∀ q ∈ s, val q v = (v 0 - hx * p 0 0 - hy * p 0 1) + hx * (∑ i, q.N i * p i 0) + hy * ∑ i, q.N i * p i 1 := by
    intro q hq
    have h1 := hs.one q hq
    simp only [Fin.sum_univ_three] at h1
    have e0 : q.N 0 = 1 - q.N 1 - q.N 2 := by linarith
    simp only [val, Fin.sum_univ_three, e0, hhx, hhy]
    field_simp
    rw [hD]; simp only [area2]; ring
  have hint : volumeBoundaryVelocity s u v = mu * ((v 0 - hx * p 0 0 - hy * p 0 1) + hx * ((zeroPt (p 0) (p 1) (u 0) (u 1) 0 + zeroPt (p 0) (p 2) (u 0) (u 2) 0) / 2)
      + hy * ((zeroPt (p 0) (p 1) (u 0) (u 1) 1 + zeroPt (p 0) (p 2) (u 0) (u 2) 1) / 2)) := by
    have e1 : volumeBoundaryVelocity s u v = (s.map fun q => ((v 0 - hx * p 0 0 - hy * p 0 1) / Real.sqrt (gx ^ 2 + gy ^ 2) * q.JxW + hx / Real.sqrt (gx ^ 2 + gy ^ 2) * (q.JxW * ∑ i, q.N i * p i 0))
        + hy / Real.sqrt (gx ^ 2 + gy ^ 2) * (q.JxW * ∑ i, q.N i * p i 1)).sum := by
      refine congrArg List.sum (List.map_congr_left fun q hq => ?_)
      rw [hlg q hq, hval q hq]; ring
    rw [e1, sum_split, sum_split, List.sum_map_mul_left, hs.weight, hs.mean 0, hs.mean 1, hlen]
    field_simp
  rw [hint]
  have hA : ∀ t : ℝ, u 0 + t * v 0 - (u 1 + t * v 1) ≠ 0 → u 0 + t * v 0 - (u 2 + t * v 2) ≠ 0 →
      area2 (p 0) (zeroPt (p 0) (p 1) (u 0 + t * v 0) (u 1 + t * v 1)) (zeroPt (p 0) (p 2) (u 0 + t * v 0) (u 2 + t * v 2)) / 2
        = D * ((u 0 + t * v 0) ^ 2 / ((u 0 + t * v 0 - (u 1 + t * v 1)) * (u 0 + t * v 0 - (u 2 + t * v 2)))) / 2 := fun t k1 k2 => by rw [cut_area p k1 k2]
  have hl : ∀ i, HasDerivAt (fun t : ℝ => u i + t * v i) (v i) 0 := fun i => by simpa using ((hasDerivAt_id' (0 : ℝ)).mul_const (v i)).const_add (u i)
  have hd : HasDerivAt (fun t : ℝ => D * ((u 0 + t * v 0) ^ 2 / ((u 0 + t * v 0 - (u 1 + t * v 1)) * (u 0 + t * v 0 - (u 2 + t * v 2)))) / 2)
      (D * ((2 * u 0 * v 0 * ((u 0 - u 1) * (u 0 - u 2)) - u 0 ^ 2 * ((v 0 - v 1) * (u 0 - u 2) + (u 0 - u 1) * (v 0 - v 2))) / ((u 0 - u 1) * (u 0 - u 2)) ^ 2) / 2) 0 := by
    have hden := ((hl 0).fun_sub (hl 1)).fun_mul ((hl 0).fun_sub (hl 2))
    have := ((hl 0).fun_pow 2).fun_div hden (by simp; exact ⟨hb.ne', hc.ne'⟩)
    refine HasDerivAt.congr_deriv ((this.const_mul D).div_const 2) ?_
    simp
  have hev : (fun t : ℝ => area2 (p 0) (zeroPt (p 0) (p 1) (u 0 + t * v 0) (u 1 + t * v 1)) (zeroPt (p 0) (p 2) (u 0 + t * v 0) (u 2 + t * v 2)) / 2) =ᶠ[𝓝 0]
      fun t => D * ((u 0 + t * v 0) ^ 2 / ((u 0 + t * v 0 - (u 1 + t * v 1)) * (u 0 + t * v 0 - (u 2 + t * v 2)))) / 2 := by
    have c1 : ContinuousAt (fun t : ℝ => u 0 + t * v 0 - (u 1 + t * v 1)) 0 := ((hl 0).fun_sub (hl 1)).continuousAt
    have c2 : ContinuousAt (fun t : ℝ => u 0 + t * v 0 - (u 2 + t * v 2)) 0 := ((hl 0).fun_sub (hl 2)).continuousAt
    have z1 : 0 < u 0 + (0 : ℝ) * v 0 - (u 1 + 0 * v 1) := by simpa using hb
    have z2 : 0 < u 0 + (0 : ℝ) * v 0 - (u 2 + 0 * v 2) := by simpa using hc
    filter_upwards [c1.eventually (lt_mem_nhds z1), c2.eventually (lt_mem_nhds z2)] with t k1 k2
    exact hA t k1.ne' k2.ne'
  refine HasDerivAt.congr_of_eventuallyEq (HasDerivAt.congr_deriv hd ?_) hev
  simp only [zeroPt, hmu, hhx, hhy]
  have k1 := hb.ne'
  have k2 := hc.ne'
  field_simp
  rw [hD]; simp only [area2]; ring

theorem zeroPt_neg (a b : Fin 2 → ℝ) (fa fb : ℝ) : zeroPt a b (-fa) (-fb) = zeroPt a b fa fb := by
  funext k
  simp only [zeroPt]
  rw [show -fa - -fb = -(fa - fb) by ring, neg_div_neg_eq]

/-- C129: the same on a triangle with two positive corners. -/
theorem C129_volume_sensitivity_two {p : Fin 3 → Fin 2 → ℝ} (hp : 0 < area2 (p 0) (p 1) (p 2)) {u v : Fin 3 → ℝ} (h0 : u 0 < 0) (h1 : 0 < u 1) (h2 : 0 < u 2)
    {s : List (Qp 3 2 X)} (hs : OnSegment p (zeroPt (p 0) (p 1) (u 0) (u 1)) (zeroPt (p 0) (p 2) (u 0) (u 2)) s) :
    HasDerivAt (fun t => area2 (p 0) (p 1) (p 2) / 2 - area2 (p 0) (zeroPt (p 0) (p 1) (u 0 + t * v 0) (u 1 + t * v 1)) (zeroPt (p 0) (p 2) (u 0 + t * v 0) (u 2 + t * v 2)) / 2) (volumeBoundaryVelocity s u v) 0 := by
  have hs' : OnSegment p (zeroPt (p 0) (p 1) (-u 0) (-u 1)) (zeroPt (p 0) (p 2) (-u 0) (-u 2)) s := by rw [zeroPt_neg, zeroPt_neg]; exact hs
  have h := C129_volume_sensitivity hp (u := fun i => -u i) (v := fun i => -v i) (by linarith) (by linarith) (by linarith) hs'
  have e : ∀ (t : ℝ) (i : Fin 3), -u i + t * -v i = -(u i + t * v i) := fun t i => by ring
  simp only [e, zeroPt_neg] at h
  refine HasDerivAt.congr_deriv (h.const_sub _) ?_
  unfold volumeBoundaryVelocity
  rw [List.sum_neg]
  simp only [List.map_map, Function.comp_def]
  refine congrArg List.sum (List.map_congr_left fun q _ => ?_)
  have hv : val q (fun i => -v i) = -val q v := by simp [val]
  have hg : len (grad q fun i => -u i) = len (grad q u) := by
    unfold len; congr 1
    refine Finset.sum_congr rfl fun k _ => ?_
    have : grad q (fun i => -u i) k = -grad q u k := by simp [grad]
    rw [this]; ring
  rw [hv, hg]; ring

/-! ### C130 -/

/-- C130: the boundary velocity keeps the point on the moving level set, is parallel to the gradient, and is the smallest velocity that does so. -/
theorem C130_velocity {g : Fin d → ℝ} (hg : g ≠ 0) (dphi : ℝ) :
    dphi + ∑ k, g k * bndVelocity g dphi k = 0 ∧ (∃ c, ∀ k, bndVelocity g dphi k = c * g k) ∧ ∀ v : Fin d → ℝ, dphi + ∑ k, g k * v k = 0 → len (bndVelocity g dphi) ≤ len v := by
  have hs : (∑ k, g k ^ 2) ≠ 0 := by rw [← len_sq]; exact (pow_pos (len_pos hg) 2).ne'
  have h1 : ∀ c : ℝ, ∑ k, g k * (c * g k) = c * ∑ k, g k ^ 2 := fun c => by rw [Finset.mul_sum]; exact Finset.sum_congr rfl fun k _ => by ring
  have h2 : ∑ k, g k * bndVelocity g dphi k = -dphi := by
    show ∑ k, g k * (-dphi / (∑ k, g k ^ 2) * g k) = -dphi
    rw [h1, div_mul_cancel₀ _ hs]
  refine ⟨by rw [h2]; ring, ⟨_, fun k => rfl⟩, fun v hv => Real.sqrt_le_sqrt ?_⟩
  have h3 : ∑ k, v k ^ 2 = ∑ k, bndVelocity g dphi k ^ 2 + 2 * (-dphi / (∑ k, g k ^ 2)) * (∑ k, g k * v k - ∑ k, g k * bndVelocity g dphi k) + ∑ k, (v k - bndVelocity g dphi k) ^ 2 := by
    rw [mul_sub, Finset.mul_sum, Finset.mul_sum, ← Finset.sum_sub_distrib, ← Finset.sum_add_distrib, ← Finset.sum_add_distrib]
    exact Finset.sum_congr rfl fun k _ => by simp only [bndVelocity]; ring
  have h4 : ∑ k, g k * v k = -dphi := by linarith
  rw [h3, h2, h4]
  have := Finset.sum_nonneg fun k (_ : k ∈ Finset.univ) => sq_nonneg (v k - bndVelocity g dphi k)
  linarith

/-- C130: the normal has unit length and points to where the level set decreases; the normal speed of the boundary is the one used for the volume. -/
theorem C130_normal {g : Fin d → ℝ} (hg : g ≠ 0) (dphi : ℝ) : len (bndNormal g) = 1 ∧ ∑ k, g k * bndNormal g k = -len g ∧ ∑ k, bndNormal g k * bndVelocity g dphi k = dphi / len g := by
  have hl := len_pos hg
  have h1 : ∑ k, g k * bndNormal g k = -len g := by
    have : ∀ k, g k * bndNormal g k = -1 / len g * g k ^ 2 := fun k => by simp only [bndNormal]; ring
    rw [Finset.sum_congr rfl fun k _ => this k, ← Finset.mul_sum, ← len_sq]; field_simp
  refine ⟨?_, h1, ?_⟩
  · have : ∑ k, bndNormal g k ^ 2 = 1 := by
      have : ∀ k, bndNormal g k ^ 2 = 1 / len g ^ 2 * g k ^ 2 := fun k => by simp only [bndNormal]; ring
      rw [Finset.sum_congr rfl fun k _ => this k, ← Finset.mul_sum, ← len_sq]; field_simp
    rw [len, this, Real.sqrt_one]
  · have : ∀ k, bndNormal g k * bndVelocity g dphi k = -dphi / (∑ k, g k ^ 2) * (g k * bndNormal g k) := fun k => by simp only [bndVelocity]; ring
    rw [Finset.sum_congr rfl fun k _ => this k, ← Finset.mul_sum, h1, ← len_sq]; field_simp

/-- C130: the derivative of the normal is the derivative along any path of gradients, and is tangential. -/
theorem C130_normal_derivative {G : ℝ → Fin d → ℝ} {dg : Fin d → ℝ} (h : ∀ k, HasDerivAt (fun t => G t k) (dg k) 0) (hg : G 0 ≠ 0) :
    (∀ k, HasDerivAt (fun t => bndNormal (G t) k) (bndNormalDeriv (G 0) dg k) 0) ∧ ∑ k, bndNormal (G 0) k * bndNormalDeriv (G 0) dg k = 0 := by
  have hl := len_pos hg
  refine ⟨fun k => ?_, ?_⟩
  · refine HasDerivAt.congr_deriv ((h k).fun_neg.fun_div (len_deriv h hg) hl.ne') ?_
    unfold bndNormalDeriv
    field_simp
    ring
  · have h1 : ∀ k, bndNormal (G 0) k * bndNormalDeriv (G 0) dg k = 1 / len (G 0) ^ 2 * (G 0 k * dg k) - (∑ k, G 0 k * dg k) / len (G 0) ^ 4 * G 0 k ^ 2 := fun k => by
      unfold bndNormal bndNormalDeriv; field_simp; ring
    rw [Finset.sum_congr rfl fun k _ => h1 k, Finset.sum_sub_distrib, ← Finset.mul_sum, ← Finset.mul_sum, ← len_sq]
    field_simp; ring

/-! ### C131 -/

theorem lookup_map {ι : Type} (l : List ι) (key : ι → Nat) (f : ι → ℝ) (hn : (l.map key).Nodup) {e : ι} (he : e ∈ l) : (l.map fun e => (key e, f e)).lookup (key e) = some (f e) := by
  induction l with
  | nil => simp at he
  | cons a l ih =>
    simp only [List.map_cons, List.nodup_cons] at hn
    rcases List.mem_cons.mp he with rfl | hm
    · simp
    · have hne : key e ≠ key a := fun h => hn.1 (h ▸ List.mem_map.mpr ⟨e, hm, rfl⟩)
      rw [List.map_cons, List.lookup_cons]
      rw [show (key e == key a) = false by simpa using hne]
      exact ih hn.2 hm

theorem active_nodup {es : List (DensElem n d X P)} (hn : (es.map fun e => e.id).Nodup) : ((es.filter fun e => e.active).map fun e => e.id).Nodup :=
  hn.sublist (List.Sublist.map _ (List.filter_sublist))

/-- C131: after initialization the density at a point of an active local element is the smoothed volume fraction of the nodal level set values, between zero and one. -/
theorem C131_value {w : ℝ} (hw : 0 < w) (phi : P → ℝ) {es : List (DensElem n d X P)} (hn : (es.map fun e => e.id).Nodup) {e : DensElem n d X P} (he : e ∈ es) (ha : e.active = true) (hJ : ∀ q ∈ e.qps, 0 < q.JxW) (hq : e.qps ≠ []) :
    ∃ v, lookupDensity (initFractions w phi es) e.id = some v ∧ v = fraction w e.qps (fun i => phi (e.node i)) ∧ 0 < v ∧ v < 1 :=
  ⟨_, lookup_map _ (fun e : DensElem n d X P => e.id) (fun e : DensElem n d X P => fraction w e.qps fun i => phi (e.node i)) (active_nodup hn) (List.mem_filter.mpr ⟨he, ha⟩), rfl, (C129_fraction hw hJ hq _).1.1, (C129_fraction hw hJ hq _).1.2⟩

/-- C131: the derivative of the density is the derivative of the value for every path of level sets, provided that the level set does not change at the nodes of elements outside the influence of the parameter. -/
theorem C131_derivative {w : ℝ} (hw : w ≠ 0) {phi : ℝ → P → ℝ} {dphi : P → ℝ} (hphi : ∀ x, HasDerivAt (fun t => phi t x) (dphi x) 0) {es : List (DensElem n d X P)} (hn : (es.map fun e => e.id).Nodup) {e : DensElem n d X P} (he : e ∈ es) (ha : e.active = true)
    (hf : e.inside = false → ∀ i, dphi (e.node i) = 0) :
    ∃ v, lookupDensity (initFractionSens w (phi 0) dphi es) e.id = some v ∧ HasDerivAt (fun t => (lookupDensity (initFractions w (phi t) es) e.id).getD 0) v 0 := by
  have hm := List.mem_filter.mpr ⟨he, ha⟩
  refine ⟨_, lookup_map _ (fun e : DensElem n d X P => e.id) (fun e : DensElem n d X P => if e.inside then fractionSens w e.qps (fun i => phi 0 (e.node i)) (fun i => dphi (e.node i)) else 0) (active_nodup hn) hm, ?_⟩
  have h1 : (fun t => (lookupDensity (initFractions w (phi t) es) e.id).getD 0) = fun t => fraction w e.qps fun i => phi t (e.node i) := by
    funext t
    have := lookup_map _ (fun e : DensElem n d X P => e.id) (fun e : DensElem n d X P => fraction w e.qps fun i => phi t (e.node i)) (active_nodup hn) hm
    unfold lookupDensity initFractions
    rw [this]; rfl
  rw [h1]
  refine HasDerivAt.congr_deriv (C129_fraction_sensitivity hw e.qps (v := fun i => dphi (e.node i)) fun i => hphi (e.node i)) ?_
  cases hi : e.inside with
  | true => simp
  | false =>
    have hz : (fun i => dphi (e.node i)) = fun _ => 0 := funext fun i => hf hi i
    simp only [fractionSens, hz]
    simp [val]

/-- C131: elements of other processes have no density. -/
theorem C131_remote {w : ℝ} (phi : P → ℝ) {es : List (DensElem n d X P)} {id : Nat} (h : ∀ e ∈ es, e.active = true → e.id ≠ id) : lookupDensity (initFractions w phi es) id = none := by
  unfold lookupDensity initFractions
  rw [List.lookup_eq_none_iff]
  intro p hp
  obtain ⟨e, he, rfl⟩ := List.mem_map.mp hp
  have := List.mem_filter.mp he
  simpa using Ne.symm (h e this.1 this.2)

/-- C131 fails for the density based on the cut elements: the element loop ends where it begins, no value is ever stored, and every query dereferences the end iterator. -/
theorem C131_intersected_fails (frac : DensElem n d X P → ℝ) (es : List (DensElem n d X P)) (id : Nat) : lookupDensity (initIntersected frac es) id = none := by
  simp [lookupDensity, initIntersected]

/-! ### Non-vacuity -/

/-- The triangle (0,0), (1,0), (0,1) with the level set 1 - 2x - 2y and the midpoint rule on its interface. -/
noncomputable def triP : Fin 3 → Fin 2 → ℝ := ![![0, 0], ![1, 0], ![0, 1]]
noncomputable def triSide : Qp 3 2 Unit := ⟨len ![(-1 : ℝ) / 2, 1 / 2], ![1 / 2, 1 / 4, 1 / 4], ![![-1, 1, 0], ![-1, 0, 1]], fun _ _ => 1, ()⟩
example : 0 < area2 (triP 0) (triP 1) (triP 2) ∧ OnSegment triP (zeroPt (triP 0) (triP 1) 1 (-1)) (zeroPt (triP 0) (triP 2) 1 (-1)) [triSide] := by
  have hl : (fun k => zeroPt (triP 0) (triP 2) 1 (-1) k - zeroPt (triP 0) (triP 1) 1 (-1) k) = ![(-1 : ℝ) / 2, 1 / 2] := by
    funext k; fin_cases k <;> simp [zeroPt, triP] <;> norm_num
  refine ⟨by simp [area2, triP], ⟨?_, ?_, ?_, ?_, ?_⟩⟩
  · intro q hq; simp only [List.mem_singleton] at hq; subst hq; simp [triSide, Fin.sum_univ_three]; norm_num
  · intro q hq k; simp only [List.mem_singleton] at hq; subst hq; fin_cases k <;> simp [triSide, Fin.sum_univ_three]
  · intro q hq k l; simp only [List.mem_singleton] at hq; subst hq; fin_cases k <;> fin_cases l <;> simp [triSide, triP, Fin.sum_univ_three]
  · rw [hl]; simp [triSide]
  · intro l; rw [hl]; simp only [List.map_cons, List.map_nil, List.sum_cons, List.sum_nil, add_zero]
    show len _ * _ = len _ * _
    congr 1
    fin_cases l <;> simp [triSide, triP, zeroPt, Fin.sum_univ_three] <;> norm_num
example : (bndVelocity ![3, 4] 5 : Fin 2 → ℝ) = ![-(3 / 5), -(4 / 5)] := by
  funext k; fin_cases k <;> simp [bndVelocity, Fin.sum_univ_two] <;> norm_num
end Verif.LevelSetElem
