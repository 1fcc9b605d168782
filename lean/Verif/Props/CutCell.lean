import Verif.Model.CutCell
import Mathlib.Tactic.Ring
import Mathlib.Tactic.Linarith
import Mathlib.Tactic.FinCases
import Mathlib.Tactic.FieldSimp
import Mathlib.Algebra.BigOperators.Fin
/-
  C70-C73: cut of a QUAD4 by a level set.
-/
namespace Verif.CutCell

/-! ## Specification -/

/-- Signed area of a closed polygon (shoelace formula). -/
noncomputable def area (l : List Pt) : ℝ := ((l.zip (l.rotate 1)).map fun p => p.1 0 * p.2 1 - p.2 0 * p.1 1).sum / 2

/-- The corners of the quad. -/
def corners (P : Fin 4 → Pt) : List Pt := [P 0, P 1, P 2, P 3]

/-- A convex quad, numbered counterclockwise: at each corner the boundary turns left (or goes straight). -/
def Convex (P : Fin 4 → Pt) : Prop := ∀ i, 0 ≤ area [P i, P (i + 1), P (i + 2)]

/-- Along every edge the level set lies between its values at the two ends. True for the bilinear interpolation on a QUAD4, where it is affine on edges. -/
def EdgeBetween (phi : Pt → ℝ) (P : Fin 4 → Pt) : Prop :=
  ∀ i (t : ℝ), 0 ≤ t → t ≤ 1 → min (phi (P i)) (phi (P (i + 1))) ≤ phi (P i + t • (P (i + 1) - P i)) ∧
    phi (P i + t • (P (i + 1) - P i)) ≤ max (phi (P i)) (phi (P (i + 1)))

/-- The level set is affine along every edge of the quad. -/
def EdgeAffine (phi : Pt → ℝ) (P : Fin 4 → Pt) : Prop :=
  ∀ i (t : ℝ), phi (P i + t • (P (i + 1) - P i)) = phi (P i) + t * (phi (P (i + 1)) - phi (P i))

/-- Two opposite corners are on the level set and the other two are strictly on the same side. -/
def TouchingDiagonal (tol : ℝ) (v : Fin 4 → ℝ) : Prop :=
  ∃ i, |v i| < tol ∧ |v (i + 2)| < tol ∧ ((tol < v (i + 1) ∧ tol < v (i + 3)) ∨ (v (i + 1) < -tol ∧ v (i + 3) < -tol))

/-! ## C72: the search on an edge -/

/-- Sign bracket and position of the search points on the segment. -/
structure RfInv (phi : Pt → ℝ) (p0 p1 : Pt) (s : Rf) (a b : ℝ) : Prop where
  ha : 0 ≤ a
  hab : a < b
  hb : b ≤ 1
  e0 : s.pt0 = p0 + a • (p1 - p0)
  e1 : s.pt1 = p0 + b • (p1 - p0)
  f0 : s.v0 = phi s.pt0
  f1 : s.v1 = phi s.pt1
  sg : s.v0 * s.v1 < 0

theorem frac_mem {v0 v1 : ℝ} (h : v0 * v1 < 0) : 0 < -v0 / (v1 - v0) ∧ -v0 / (v1 - v0) < 1 := by
  rcases mul_neg_iff.1 h with ⟨h0, h1⟩ | ⟨h0, h1⟩
  · have : -v0 / (v1 - v0) = v0 / (v0 - v1) := by rw [← neg_sub v0 v1, neg_div_neg_eq]
    rw [this]
    have hp : 0 < v0 - v1 := by linarith
    exact ⟨div_pos h0 hp, (div_lt_one hp).2 (by linarith)⟩
  · have hp : 0 < v1 - v0 := by linarith
    exact ⟨div_pos (by linarith) hp, (div_lt_one hp).2 (by linarith)⟩

theorem rfStep_v (phi : Pt → ℝ) (s : Rf) : (rfStep phi s).v = phi (s.pt0 + (-s.v0 / (s.v1 - s.v0)) • (s.pt1 - s.pt0)) := by
  simp only [rfStep]; split <;> rfl

/-- One iteration: the new point is on the segment and, unless it hits the level set exactly, the bracket is kept. -/
theorem rfStep_inv {phi : Pt → ℝ} {p0 p1 : Pt} {s : Rf} {a b : ℝ} (h : RfInv phi p0 p1 s a b) :
    ∃ t, a < t ∧ t < b ∧ (rfStep phi s).pt = p0 + t • (p1 - p0) ∧ (rfStep phi s).v = phi (rfStep phi s).pt ∧
      ((rfStep phi s).v ≠ 0 → ∃ a' b', a ≤ a' ∧ b' ≤ b ∧ RfInv phi p0 p1 (rfStep phi s) a' b') := by
  obtain ⟨x0, x1⟩ := frac_mem h.sg
  set x := -s.v0 / (s.v1 - s.v0) with hx
  have hpt : (rfStep phi s).pt = s.pt0 + x • (s.pt1 - s.pt0) := by simp only [rfStep, ← hx]; split <;> rfl
  have hv : (rfStep phi s).v = phi (s.pt0 + x • (s.pt1 - s.pt0)) := by simp only [rfStep, ← hx]; split <;> rfl
  have hpos : s.pt0 + x • (s.pt1 - s.pt0) = p0 + (a + x * (b - a)) • (p1 - p0) := by
    rw [h.e0, h.e1]; funext i; simp only [Pi.add_apply, Pi.smul_apply, Pi.sub_apply, smul_eq_mul]; ring
  have hba : 0 < b - a := by linarith [h.hab]
  have t0 : a < a + x * (b - a) := by nlinarith
  have t1 : a + x * (b - a) < b := by nlinarith
  refine ⟨a + x * (b - a), t0, t1, by rw [hpt, hpos], by rw [hv, hpt], fun hne => ?_⟩
  by_cases hs : phi (s.pt0 + x • (s.pt1 - s.pt0)) * s.v1 < 0
  · refine ⟨a + x * (b - a), b, t0.le, le_refl _, ?_⟩
    have : rfStep phi s = { s with pt := s.pt0 + x • (s.pt1 - s.pt0), v := phi (s.pt0 + x • (s.pt1 - s.pt0)), v0 := phi (s.pt0 + x • (s.pt1 - s.pt0)),
                                   pt0 := s.pt0 + x • (s.pt1 - s.pt0) } := by simp only [rfStep, ← hx, if_pos hs]
    rw [this]
    exact ⟨by linarith [h.ha], t1, h.hb, hpos, h.e1, rfl, h.f1, hs⟩
  · refine ⟨a, a + x * (b - a), le_refl _, t1.le, ?_⟩
    have : rfStep phi s = { s with pt := s.pt0 + x • (s.pt1 - s.pt0), v := phi (s.pt0 + x • (s.pt1 - s.pt0)), v1 := phi (s.pt0 + x • (s.pt1 - s.pt0)),
                                   pt1 := s.pt0 + x • (s.pt1 - s.pt0) } := by simp only [rfStep, ← hx, if_neg hs]
    rw [hv] at hne
    rw [this]
    refine ⟨h.ha, t0, by linarith [h.hb], h.e0, hpos, h.f0, rfl, ?_⟩
    have h1 : 0 < phi (s.pt0 + x • (s.pt1 - s.pt0)) * s.v1 := lt_of_le_of_ne (not_lt.1 hs) (Ne.symm (mul_ne_zero hne (by rintro h0; have := h.sg; rw [h0] at this; simp at this)))
    show s.v0 * phi (s.pt0 + x • (s.pt1 - s.pt0)) < 0
    rcases mul_neg_iff.1 h.sg with ⟨q0, q1⟩ | ⟨q0, q1⟩
    · exact mul_neg_of_pos_of_neg q0 (by by_contra hc; nlinarith)
    · exact mul_neg_of_neg_of_pos q0 (by by_contra hc; nlinarith)

/-- What the loop guarantees from a bracketed state in which the stopping test has not been met yet, when at least one iteration is allowed. -/
theorem rfLoop_spec {phi : Pt → ℝ} {tol : ℝ} (ht : 0 ≤ tol) {p0 p1 : Pt} (k : Nat) {s : Rf} {a b : ℝ} (h : RfInv phi p0 p1 s a b) (hv : |s.v| > tol) :
    ∃ t, a < t ∧ t < b ∧ (rfLoop phi tol (k + 1) s).pt = p0 + t • (p1 - p0) ∧ (rfLoop phi tol (k + 1) s).v = phi (rfLoop phi tol (k + 1) s).pt := by
  induction k generalizing s a b with
  | zero =>
    obtain ⟨t, h1, h2, h3, h4, -⟩ := rfStep_inv h
    have : rfLoop phi tol 1 s = rfStep phi s := by simp only [rfLoop, if_pos hv]
    rw [this]
    exact ⟨t, h1, h2, h3, h4⟩
  | succ k ih =>
    obtain ⟨t, h1, h2, h3, h4, h5⟩ := rfStep_inv h
    have e : rfLoop phi tol (k + 1 + 1) s = rfLoop phi tol (k + 1) (rfStep phi s) := by rw [rfLoop, if_pos hv]
    rw [e]
    by_cases hc : |(rfStep phi s).v| > tol
    · obtain ⟨a', b', q1, q2, q3⟩ := h5 (by rintro h0; rw [h0] at hc; simp at hc; linarith)
      obtain ⟨t', u1, u2, u3⟩ := ih q3 hc
      exact ⟨t', by linarith, by linarith, u3⟩
    · have : rfLoop phi tol (k + 1) (rfStep phi s) = rfStep phi s := by rw [rfLoop, if_neg hc]
      rw [this]
      exact ⟨t, h1, h2, h3, h4⟩

/-- Number of iterations performed by the loop. -/
noncomputable def iters (phi : Pt → ℝ) (tol : ℝ) : Nat → Rf → Nat
  | 0, _ => 0
  | k + 1, s => if |s.v| > tol then iters phi tol k (rfStep phi s) + 1 else 0

/-- If fewer than the allowed number of iterations were used, the stopping test was met. -/
theorem rfLoop_converged {phi : Pt → ℝ} {tol : ℝ} (n : Nat) (s : Rf) (h : iters phi tol n s < n) : |(rfLoop phi tol n s).v| ≤ tol := by
  induction n generalizing s with
  | zero => exact absurd h (Nat.lt_irrefl 0)
  | succ n ih =>
    simp only [rfLoop, iters] at h ⊢
    split
    · rename_i hc
      rw [if_pos hc] at h
      exact ih _ (by omega)
    · rename_i hc
      exact not_lt.1 hc

theorem norm2_smul (t : ℝ) (v : Pt) (h : 0 ≤ t) : norm2 (t • v) = t * norm2 v := by
  unfold norm2
  have : (t • v) 0 ^ 2 + (t • v) 1 ^ 2 = t ^ 2 * (v 0 ^ 2 + v 1 ^ 2) := by simp only [Pi.smul_apply, smul_eq_mul]; ring
  rw [this, Real.sqrt_mul (sq_nonneg t), Real.sqrt_sq h]

theorem norm2_ne {v : Pt} (h : v ≠ 0) : norm2 v ≠ 0 := by
  unfold norm2
  rw [Ne, Real.sqrt_eq_zero (by positivity)]
  intro h0
  apply h
  have a : v 0 = 0 := by nlinarith [sq_nonneg (v 0), sq_nonneg (v 1)]
  have b : v 1 = 0 := by nlinarith [sq_nonneg (v 0), sq_nonneg (v 1)]
  funext i
  fin_cases i
  · exact a
  · exact b

theorem rfInit_inv {phi : Pt → ℝ} {p0 p1 : Pt} (h : phi p0 * phi p1 < 0) : RfInv phi p0 p1 (rfInit phi p0 p1) 0 1 := by
  refine ⟨le_refl _, zero_lt_one, le_refl _, by simp [rfInit], by simp [rfInit], rfl, rfl, h⟩

theorem ne_of_change {phi : Pt → ℝ} {p0 p1 : Pt} (h : phi p0 * phi p1 < 0) : p1 - p0 ≠ 0 := by
  intro h0
  rw [sub_eq_zero.1 h0] at h
  nlinarith [mul_self_nonneg (phi p0)]

/-- C72: for any level set function with a change of sign between the ends of the edge, any tolerance below the initial value 1e10 and at least one iteration, the
fraction returned is strictly inside the edge, the point of the edge at that fraction is the last point evaluated, and the level set there is within the tolerance
whenever the search used fewer iterations than allowed. -/
theorem C72_bracket (phi : Pt → ℝ) {tol : ℝ} (ht : 0 ≤ tol) (ht2 : tol < 10000000000) (k : Nat) {p0 p1 : Pt} (h : phi p0 * phi p1 < 0) :
    let x := edgeSearch phi tol (k + 1) p0 p1
    0 < x ∧ x < 1 ∧ phi (p0 + x • (p1 - p0)) = (rfFinal phi tol (k + 1) p0 p1).v ∧
      (iters phi tol (k + 1) (rfInit phi p0 p1) < k + 1 → |phi (p0 + x • (p1 - p0))| ≤ tol) := by
  have hv : |(rfInit phi p0 p1).v| > tol := by
    show |(10000000000 : ℝ)| > tol
    rw [abs_of_pos (by norm_num)]; exact ht2
  obtain ⟨t, t0, t1, hp, hphi⟩ := rfLoop_spec ht k (rfInit_inv h) hv
  have hx : edgeSearch phi tol (k + 1) p0 p1 = t := by
    unfold edgeSearch rfFinal
    rw [hp, add_sub_cancel_left, norm2_smul _ _ t0.le, mul_div_assoc, div_self (norm2_ne (ne_of_change h)), mul_one]
  intro x
  have hx' : x = t := hx
  have e : phi (p0 + x • (p1 - p0)) = (rfFinal phi tol (k + 1) p0 p1).v := by
    rw [hx', ← hp]
    exact hphi.symm
  refine ⟨by rw [hx']; exact t0, by rw [hx']; exact t1, e, fun hi => ?_⟩
  rw [e]
  exact rfLoop_converged (k + 1) _ hi

/-- C72: at every stage of the search that is not yet finished the two end points carry values of opposite sign. -/
theorem C72_sign_kept (phi : Pt → ℝ) {tol : ℝ} (ht : 0 ≤ tol) {p0 p1 : Pt} (h : phi p0 * phi p1 < 0) (n : Nat) :
    let s := (rfStep phi)^[n] (rfInit phi p0 p1)
    (∀ m < n, tol < |((rfStep phi)^[m + 1] (rfInit phi p0 p1)).v|) → phi s.pt0 * phi s.pt1 < 0 ∧ ∃ a b : ℝ, 0 ≤ a ∧ a < b ∧ b ≤ 1 ∧ s.pt0 = p0 + a • (p1 - p0) ∧ s.pt1 = p0 + b • (p1 - p0) := by
  intro s hm
  suffices hs : ∃ a b : ℝ, RfInv phi p0 p1 s a b by
    obtain ⟨a, b, hi⟩ := hs
    exact ⟨by rw [← hi.f0, ← hi.f1]; exact hi.sg, a, b, hi.ha, hi.hab, hi.hb, hi.e0, hi.e1⟩
  induction n with
  | zero => exact ⟨0, 1, rfInit_inv h⟩
  | succ n ih =>
    obtain ⟨a, b, hi⟩ := ih fun m hmn => hm m (by omega)
    obtain ⟨t, -, -, -, -, h5⟩ := rfStep_inv hi
    have := hm n (by omega)
    rw [Function.iterate_succ_apply'] at this
    obtain ⟨a', b', -, -, q⟩ := h5 (by rintro h0; rw [h0, abs_zero] at this; linarith)
    refine ⟨a', b', ?_⟩
    show RfInv phi p0 p1 ((rfStep phi)^[n + 1] (rfInit phi p0 p1)) a' b'
    rw [Function.iterate_succ_apply']
    exact q

/-- C72: when the level set is affine along the edge one iteration gives the exact zero, whatever the limit. -/
theorem C72_linear (phi : Pt → ℝ) {tol : ℝ} (ht : 0 ≤ tol) (ht2 : tol < 10000000000) (k : Nat) {p0 p1 : Pt} (h : phi p0 * phi p1 < 0)
    (hl : ∀ t : ℝ, phi (p0 + t • (p1 - p0)) = phi p0 + t * (phi p1 - phi p0)) :
    phi (p0 + edgeSearch phi tol (k + 1) p0 p1 • (p1 - p0)) = 0 ∧ iters phi tol (k + 1) (rfInit phi p0 p1) = 1 := by
  have hv : |(rfInit phi p0 p1).v| > tol := by
    show |(10000000000 : ℝ)| > tol
    rw [abs_of_pos (by norm_num)]; exact ht2
  have h1 : (rfStep phi (rfInit phi p0 p1)).v = 0 := by
    have : (rfStep phi (rfInit phi p0 p1)).v = phi (p0 + (-phi p0 / (phi p1 - phi p0)) • (p1 - p0)) := rfStep_v phi (rfInit phi p0 p1)
    rw [this, hl, div_mul_cancel₀]
    · ring
    · intro h0
      rw [sub_eq_zero.1 h0] at h
      nlinarith [mul_self_nonneg (phi p0)]
  have h2 : ∀ n, rfLoop phi tol n (rfStep phi (rfInit phi p0 p1)) = rfStep phi (rfInit phi p0 p1) := by
    intro n
    cases n with
    | zero => rfl
    | succ n => rw [rfLoop, if_neg]; rw [h1, abs_zero]; exact not_lt.2 ht
  have h3 : ∀ n, iters phi tol n (rfStep phi (rfInit phi p0 p1)) = 0 := by
    intro n
    cases n with
    | zero => rfl
    | succ n => rw [iters, if_neg]; rw [h1, abs_zero]; exact not_lt.2 ht
  refine ⟨?_, by rw [iters, if_pos hv, h3]⟩
  rw [(C72_bracket phi ht ht2 k h).2.2.1, rfFinal, rfLoop, if_pos hv, h2, h1]

/-- The hypotheses of the C72 theorems are met by a level set that is not affine: x² - 1/4 on the segment from (0,0) to (1,0). -/
example : (fun p : Pt => p 0 ^ 2 - 1 / 4) ![0, 0] * (fun p : Pt => p 0 ^ 2 - 1 / 4) ![1, 0] < 0 := by norm_num

/-! ## sign patterns

For values none of which equals the tolerance in absolute value, the result depends only on four classes of values: 0 below `-tol`, 1 and 2 within the tolerance
(not positive, positive), 3 above. -/

/-- Class of a value. -/
noncomputable def sg (tol x : ℝ) : Fin 4 := if |x| < tol then (if x > 0 then 2 else 1) else if x > 0 then 3 else 0

/-- Near the level set. -/
def near (a : Fin 4) : Bool := a == 1 || a == 2

/-- Crossed sides in terms of the classes. -/
def cside (s : Fin 4 → Fin 4) (i : Fin 4) : Bool := !near (s i) && !near (s (i + 1)) && s i != s (i + 1)

/-- `quad4` as a function of the classes. -/
def combQuad (s : Fin 4 → Fin 4) (mid : Bool) : Option Cut :=
  let m := chooseMode (cside s) (fun i => near (s i)) mid
  build m.1 m.2.1 m.2.2 fun i => decide (2 ≤ s i)

/-- `initElem` as a function of the classes. -/
def comb (s : Fin 4 → Fin 4) (mid : Bool) : Option Cut :=
  let hasPos := s 0 == 3 || s 1 == 3 || s 2 == 3 || s 3 == 3
  let hasNeg := s 0 == 0 || s 1 == 0 || s 2 == 0 || s 3 == 0
  if s 0 == 3 && s 1 == 3 && s 2 == 3 && s 3 == 3 then some ⟨.noIntersection, [whole none], [], [], [], true, false⟩
  else if s 0 == 0 && s 1 == 0 && s 2 == 0 && s 3 == 0 then some ⟨.noIntersection, [], [whole none], [], [], false, true⟩
  else if ([0, 1, 2, 3].filter fun i => near (s i)).length == 1 && !(hasPos && hasNeg) then
    if hasPos then some ⟨.throughNode, [whole none], [], [], [], false, false⟩ else some ⟨.throughNode, [], [whole none], [], [], false, false⟩
  else match [0, 1, 2, 3].find? fun i => near (s i) && near (s (i + 1)) with
    | some i => some ⟨.colinearEdge, if hasPos then [whole (some i.val)] else [], if hasPos then [] else [whole (some i.val)], [], [], false, false⟩
    | none => combQuad s mid

section
variable {tol x : ℝ}

theorem sg_near (ht : |x| ≠ tol) : near (sg tol x) = decide (|x| ≤ tol) ∧ near (sg tol x) = decide (|x| < tol) := by
  unfold sg near
  by_cases h : |x| < tol
  · rw [if_pos h]; split <;> simp [h, h.le]
  · have h2 : ¬ |x| ≤ tol := fun h3 => h (lt_of_le_of_ne h3 ht)
    rw [if_neg h]; split <;> simp [h, h2]

theorem sg_pos (h0 : 0 < tol) : sg tol x = 3 ↔ tol ≤ x := by
  unfold sg
  by_cases h : |x| < tol
  · rw [if_pos h]
    have := (abs_lt.1 h).2
    split <;> simp <;> linarith
  · rw [if_neg h]
    rcases le_abs.1 (not_lt.1 h) with h1 | h1
    · rw [if_pos (by linarith)]; simpa using h1
    · rw [if_neg (by linarith)]; simp; linarith

theorem sg_neg (h0 : 0 < tol) : sg tol x = 0 ↔ x ≤ -tol := by
  unfold sg
  by_cases h : |x| < tol
  · rw [if_pos h]
    have := (abs_lt.1 h).1
    split <;> simp <;> linarith
  · rw [if_neg h]
    rcases le_abs.1 (not_lt.1 h) with h1 | h1
    · rw [if_pos (by linarith)]; simp; linarith
    · rw [if_neg (by linarith)]; simp; linarith

theorem sg_positive (h0 : 0 < tol) : decide (x > 0) = decide (2 ≤ sg tol x) := by
  unfold sg
  by_cases h : x > 0 <;> by_cases h2 : |x| < tol <;> simp [h, h2]

end

theorem sideHit_sg {tol : ℝ} (h0 : 0 < tol) {v : Fin 4 → ℝ} (hv : ∀ i, |v i| ≠ tol) (i : Fin 4) :
    sideHit tol v i = (!near (sg tol (v i)) && !near (sg tol (v (i + 1))) && sg tol (v i) != sg tol (v (i + 1))) := by
  unfold sideHit nodeHit
  have key : ∀ a : ℝ, |a| ≠ tol → (a < -tol ∧ sg tol a = 0) ∨ (|a| < tol ∧ near (sg tol a) = true) ∨ (tol < a ∧ sg tol a = 3) := by
    intro a ha
    rcases lt_trichotomy |a| tol with h | h | h
    · exact Or.inr (Or.inl ⟨h, by rw [(sg_near ha).2]; simpa using h⟩)
    · exact absurd h ha
    · rcases lt_abs.1 h with h1 | h1
      · exact Or.inr (Or.inr ⟨h1, (sg_pos h0).2 h1.le⟩)
      · exact Or.inl ⟨by linarith, (sg_neg h0).2 (by linarith)⟩
  have big : ∀ a : ℝ, a < -tol → |a| > tol ∧ ¬ |a| < tol := fun a h => by
    have : |a| > tol := lt_abs.2 (Or.inr (by linarith))
    exact ⟨this, not_lt.2 this.le⟩
  have big2 : ∀ a : ℝ, tol < a → |a| > tol ∧ ¬ |a| < tol := fun a h => by
    have : |a| > tol := lt_abs.2 (Or.inl h)
    exact ⟨this, not_lt.2 this.le⟩
  rcases key _ (hv i) with ⟨a, ha⟩ | ⟨a, ha⟩ | ⟨a, ha⟩ <;> rcases key _ (hv (i + 1)) with ⟨b, hb⟩ | ⟨b, hb⟩ | ⟨b, hb⟩
  · have : ¬ v i * v (i + 1) < 0 := not_lt.2 (mul_nonneg_of_nonpos_of_nonpos (by linarith) (by linarith))
    simp [big _ a, this, ha, hb]
  · simp [hb, not_lt.2 b.le]
  · have : v i * v (i + 1) < 0 := mul_neg_of_neg_of_pos (by linarith) (by linarith)
    simp [big _ a, big2 _ b, this, ha, hb, near]
  · simp [a, ha]
  · simp [a, ha]
  · simp [a, ha]
  · have : v i * v (i + 1) < 0 := mul_neg_of_pos_of_neg (by linarith) (by linarith)
    simp [big2 _ a, big _ b, this, ha, hb, near]
  · simp [hb, not_lt.2 b.le]
  · have : ¬ v i * v (i + 1) < 0 := not_lt.2 (mul_nonneg (by linarith) (by linarith))
    simp [this, ha, hb]

/-- Least value, or the start value. -/
theorem minVal_four (a b c d : ℝ) : let m := minVal [a, b, c, d]; m ≤ a ∧ m ≤ b ∧ m ≤ c ∧ m ≤ d ∧ (m = a ∨ m = b ∨ m = c ∨ m = d ∨ m = 1000000000000) := by
  simp only [minVal, List.foldl]
  split_ifs <;> refine ⟨?_, ?_, ?_, ?_, ?_⟩ <;> first | linarith | simp

theorem maxVal_four (a b c d : ℝ) : let m := maxVal [a, b, c, d]; a ≤ m ∧ b ≤ m ∧ c ≤ m ∧ d ≤ m ∧ (m = a ∨ m = b ∨ m = c ∨ m = d ∨ m = -1000000000000) := by
  simp only [maxVal, List.foldl]
  split_ifs <;> refine ⟨?_, ?_, ?_, ?_, ?_⟩ <;> first | linarith | simp

theorem initElem_comb {tol : ℝ} (h0 : 0 < tol) (h1 : tol < 1000000000000) {v : Fin 4 → ℝ} (hv : ∀ i, |v i| ≠ tol) (mid : ℝ) :
    initElem tol v [] mid = comb (fun i => sg tol (v i)) (decide (mid * v 0 > 0)) := by
  obtain ⟨n0, n1, n2, n3, nm⟩ := minVal_four (v 0) (v 1) (v 2) (v 3)
  obtain ⟨x0, x1, x2, x3, xm⟩ := maxVal_four (v 0) (v 1) (v 2) (v 3)
  have ne : ∀ i, v i ≠ tol ∧ v i ≠ -tol := fun i => by
    refine ⟨fun h => hv i ?_, fun h => hv i ?_⟩
    · rw [h, abs_of_pos h0]
    · rw [h, abs_neg, abs_of_pos h0]
  unfold initElem comb
  simp only [nodeVals, List.append_nil]
  set mn := minVal [v 0, v 1, v 2, v 3] with hmn
  set mx := maxVal [v 0, v 1, v 2, v 3] with hmx
  have sp : ∀ i, (sg tol (v i) == 3) = decide (tol < v i) := fun i => by
    rw [Bool.eq_iff_iff]; simp only [beq_iff_eq, sg_pos h0, decide_eq_true_eq]
    exact ⟨fun h => lt_of_le_of_ne h (ne i).1.symm, le_of_lt⟩
  have sn : ∀ i, (sg tol (v i) == 0) = decide (v i < -tol) := fun i => by
    rw [Bool.eq_iff_iff]; simp only [beq_iff_eq, sg_neg h0, decide_eq_true_eq]
    exact ⟨fun h => lt_of_le_of_ne h (ne i).2, le_of_lt⟩
  have c1 : (mn > tol) ↔ (sg tol (v 0) == 3 && sg tol (v 1) == 3 && sg tol (v 2) == 3 && sg tol (v 3) == 3) = true := by
    simp only [sp, Bool.and_eq_true, decide_eq_true_eq]
    constructor
    · intro h; exact ⟨⟨⟨by linarith, by linarith⟩, by linarith⟩, by linarith⟩
    · rintro ⟨⟨⟨a, b⟩, c⟩, d⟩
      rcases nm with h | h | h | h | h <;> rw [h] <;> assumption
  have c2 : (mx < -tol) ↔ (sg tol (v 0) == 0 && sg tol (v 1) == 0 && sg tol (v 2) == 0 && sg tol (v 3) == 0) = true := by
    simp only [sn, Bool.and_eq_true, decide_eq_true_eq]
    constructor
    · intro h; exact ⟨⟨⟨by linarith, by linarith⟩, by linarith⟩, by linarith⟩
    · rintro ⟨⟨⟨a, b⟩, c⟩, d⟩
      rcases xm with h | h | h | h | h <;> rw [h] <;> first | assumption | linarith
  have cp : (mx > tol) ↔ (sg tol (v 0) == 3 || sg tol (v 1) == 3 || sg tol (v 2) == 3 || sg tol (v 3) == 3) = true := by
    simp only [sp, Bool.or_eq_true, decide_eq_true_eq]
    constructor
    · intro h
      rcases xm with e | e | e | e | e <;> rw [e] at h
      · exact Or.inl (Or.inl (Or.inl h))
      · exact Or.inl (Or.inl (Or.inr h))
      · exact Or.inl (Or.inr h)
      · exact Or.inr h
      · linarith
    · rintro (((h | h) | h) | h) <;> linarith
  have cn : (mn < -tol) ↔ (sg tol (v 0) == 0 || sg tol (v 1) == 0 || sg tol (v 2) == 0 || sg tol (v 3) == 0) = true := by
    simp only [sn, Bool.or_eq_true, decide_eq_true_eq]
    constructor
    · intro h
      rcases nm with e | e | e | e | e <;> rw [e] at h
      · exact Or.inl (Or.inl (Or.inl h))
      · exact Or.inl (Or.inl (Or.inr h))
      · exact Or.inl (Or.inr h)
      · exact Or.inr h
      · linarith
    · rintro (((h | h) | h) | h) <;> linarith
  have nne : mn ≠ tol ∧ mn ≠ -tol := by
    rcases nm with e | e | e | e | e <;> rw [e] <;> first | exact ne _ | exact ⟨by linarith, by linarith⟩
  have xne : mx ≠ tol ∧ mx ≠ -tol := by
    rcases xm with e | e | e | e | e <;> rw [e] <;> first | exact ne _ | exact ⟨by linarith, by linarith⟩
  have cs : signChange tol mn mx = (decide (mx > tol) && decide (mn < -tol)) := by
    unfold signChange
    rw [Bool.eq_iff_iff]
    simp only [decide_eq_true_eq, Bool.and_eq_true]
    constructor
    · intro h
      split_ifs at h with a b b
      · simp at h
      · simp at h
      · simp at h
      · rcases mul_neg_iff.1 h with ⟨q1, q2⟩ | ⟨q1, q2⟩
        · linarith
        · constructor
          · by_contra hc; exact b (abs_lt.2 ⟨by linarith, lt_of_le_of_ne (not_lt.1 hc) xne.1⟩)
          · by_contra hc; exact a (abs_lt.2 ⟨lt_of_le_of_ne (not_lt.1 hc) nne.2.symm, by linarith⟩)
    · rintro ⟨q1, q2⟩
      rw [if_neg (fun h => by linarith [(abs_lt.1 h).1]), if_neg (fun h => by linarith [(abs_lt.1 h).2])]
      exact mul_neg_of_neg_of_pos (by linarith) (by linarith)
  have cl : colinearSide tol v = [0, 1, 2, 3].find? fun i => near (sg tol (v i)) && near (sg tol (v (i + 1))) := by
    unfold colinearSide
    congr 1; funext i
    rw [(sg_near (hv i)).1, (sg_near (hv (i + 1))).1]
  have co : nOnSet tol v = ([0, 1, 2, 3].filter fun i => near (sg tol (v i))).length := by
    unfold nOnSet
    congr 2; funext i
    rw [(sg_near (hv i)).1]
  have cq : quad4 tol v mid = combQuad (fun i => sg tol (v i)) (decide (mid * v 0 > 0)) := by
    unfold quad4 combQuad
    have e1 : sideHit tol v = cside fun i => sg tol (v i) := by
      funext i; exact sideHit_sg h0 hv i
    have e2 : nodeHit tol v = fun i => near (sg tol (v i)) := by
      funext i; rw [(sg_near (hv i)).2]; rfl
    have e3 : (fun i => decide (v i > 0)) = fun i => decide (2 ≤ sg tol (v i)) := by
      funext i; exact sg_positive h0
    rw [e1, e2, e3]
  rw [cl, co, cq, cs]
  simp only [c1, c2]
  rw [show decide (mx > tol) = (sg tol (v 0) == 3 || sg tol (v 1) == 3 || sg tol (v 2) == 3 || sg tol (v 3) == 3) from by
        rw [Bool.eq_iff_iff]; simpa using cp,
      show decide (mn < -tol) = (sg tol (v 0) == 0 || sg tol (v 1) == 0 || sg tol (v 2) == 0 || sg tol (v 3) == 0) from by
        rw [Bool.eq_iff_iff]; simpa using cn]
  split
  · rfl
  · rename_i g1
    split
    · rfl
    · have le : mn ≤ tol := not_lt.1 fun h => g1 (c1.1 h)
      have lt : mn < tol := lt_of_le_of_ne le nne.1
      simp only [beq_iff_eq, Bool.and_eq_true, decide_eq_true_eq]
      split
      · by_cases hp : mx > tol
        · rw [if_neg (fun h => by linarith [h.2]), if_pos (cp.1 hp)]
        · rw [if_pos ⟨le, not_lt.1 hp⟩, if_neg fun h => hp (cp.2 h)]
      · generalize ([0, 1, 2, 3].find? fun i => near (sg tol (v i)) && near (sg tol (v (i + 1)))) = o
        cases o with
        | some i =>
          by_cases hp : mx > tol
          · simp only [if_pos hp, if_pos (cp.1 hp)]
          · simp only [if_neg hp, if_pos lt, if_neg fun h => hp (cp.2 h)]
        | none => rfl

/-- Every sub-element vertex that is a new node refers to an existing new node. -/
def vtxValid (c : Cut) : Vtx → Bool
  | .corner _ => true
  | .cut k => k.val < c.newNodes.length

/-- A vertex that does not lie on the side of class `bad` (0 or 3): a corner of another class; a new node on a crossed side; or a hanging node between two
corners that are not of class `bad`. -/
def vtxSide (s : Fin 4 → Fin 4) (c : Cut) (bad : Fin 4) : Vtx → Bool
  | .corner i => s i != bad
  | .cut k => match c.newNodes[k.val]? with
    | none => false
    | some n => if n.fromEnd then s n.side != bad && s (n.side + 1) != bad && cside s n.xiSide else n.xiSide == n.side && cside s n.side

/-- A vertex on the level set: a corner within the tolerance, or a new node on a crossed side. -/
def vtxOn (s : Fin 4 → Fin 4) (c : Cut) : Vtx → Bool
  | .corner i => near (s i)
  | .cut k => match c.newNodes[k.val]? with
    | none => false
    | some n => !n.fromEnd && n.xiSide == n.side && cside s n.side

/-- Both ends of the side of a sub-element reported as the interface are on the level set. -/
def ifaceOn (s : Fin 4 → Fin 4) (c : Cut) (e : Sub) : Bool :=
  match e.iface with
  | none => true
  | some k => match e.verts[k]?, e.verts[(k + 1) % e.verts.length]? with
    | some a, some b => vtxOn s c a && vtxOn s c b
    | _, _ => false

/-- Opposite corners near the level set, the other two on the same side. -/
def touching (s : Fin 4 → Fin 4) : Bool :=
  [0, 1, 2, 3].any fun i => near (s i) && near (s (i + 2)) && !near (s (i + 1)) && s (i + 1) == s (i + 3)

/-- A side with both ends near the level set. -/
def colin (s : Fin 4 → Fin 4) : Bool := [0, 1, 2, 3].any fun i => near (s i) && near (s (i + 1))

/-- All facts about the result that depend only on the classes of the four values. -/
def combOK (s : Fin 4 → Fin 4) (m : Bool) : Bool :=
  match comb s m with
  | none => false
  | some c =>
    (!c.onPos || [0, 1, 2, 3].all fun i => s i == 3) && (!c.onNeg || [0, 1, 2, 3].all fun i => s i == 0) &&
    (c.onPos || !([0, 1, 2, 3].all fun i => s i == 3)) && (c.onNeg || !([0, 1, 2, 3].all fun i => s i == 0)) &&
    ((c.pos ++ c.neg).all fun e => e.verts.all (vtxValid c)) &&
    ((touching s || (colin s && [0, 1, 2, 3].any (fun i => s i == 0) && [0, 1, 2, 3].any fun i => s i == 3)) ||
      ((c.pos.all fun e => e.verts.all (vtxSide s c 0)) && (c.neg.all fun e => e.verts.all (vtxSide s c 3)))) &&
    (!through c || ((c.pos ++ c.neg).all (ifaceOn s c) && !c.pos.isEmpty && !c.neg.isEmpty && !colin s)) &&
    (through c || (c.pos ++ c.neg == [whole none]) || (c.mode == .colinearEdge && colin s && (c.pos ++ c.neg).all (ifaceOn s c) && (c.pos ++ c.neg).length == 1)) &&
    (!(colin s) || c.mode == .colinearEdge) &&
    decide ((c.pos ++ c.neg).length ≤ 4) && decide (c.newNodes.length ≤ 4)

theorem combOK_lit : ∀ (a b c d : Fin 4) (m : Bool), combOK ![a, b, c, d] m = true := by decide +kernel

theorem combOK_all (s : Fin 4 → Fin 4) (m : Bool) : combOK s m = true := by
  have : s = ![s 0, s 1, s 2, s 3] := by funext i; fin_cases i <;> rfl
  rw [this]
  exact combOK_lit _ _ _ _ m

/-! ## areas -/

theorem m4_add (a b : Nat) : m4 (a + b) = m4 a + m4 b := by
  apply Fin.ext; simp [m4, Fin.val_add, Nat.add_mod]

/-- Twice the signed area of a triangle. -/
def tri (a b c : Pt) : ℝ := (b 0 - a 0) * (c 1 - a 1) - (c 0 - a 0) * (b 1 - a 1)

theorem area3 (a b c : Pt) : area [a, b, c] = tri a b c / 2 := by simp [area, tri]; ring
theorem area4 (a b c d : Pt) : area [a, b, c, d] = (tri a b c + tri a c d) / 2 := by simp [area, tri]; ring

/-- Corners in cyclic order, possibly repeated. -/
def cyc (i j k : Fin 4) : Bool := i == j || j == k || i == k || decide ((j - i).val < (k - i).val)

theorem tri_corners {P : Fin 4 → Pt} (h : Convex P) {i j k : Fin 4} (hc : cyc i j k = true) : 0 ≤ tri (P i) (P j) (P k) := by
  have e : ∀ i, 0 ≤ tri (P i) (P (i + 1)) (P (i + 2)) := fun i => by
    have := h i; rw [area3] at this; linarith
  have h0 : 0 ≤ tri (P 0) (P 1) (P 2) := e 0
  have h1 : 0 ≤ tri (P 1) (P 2) (P 3) := e 1
  have h2 : 0 ≤ tri (P 2) (P 3) (P 0) := e 2
  have h3 : 0 ≤ tri (P 3) (P 0) (P 1) := e 3
  simp only [tri] at h0 h1 h2 h3 ⊢
  fin_cases i <;> fin_cases j <;> fin_cases k <;>
    first
    | exact absurd hc (by decide)
    | (simp only [Fin.mk_one, Fin.zero_eta, Fin.isValue, Fin.reduceFinMk]; linarith)

/-- Fractions inside the edges. -/
def InUnit (x : Fin 4 → ℝ) : Prop := ∀ i, 0 ≤ x i ∧ x i ≤ 1

/-- Corners between which a vertex lies. -/
def vtxEnds (c : Cut) : Vtx → List (Fin 4)
  | .corner i => [i]
  | .cut k => match c.newNodes[k.val]? with
    | some n => [n.side, n.side + 1]
    | none => []

/-- The corners of a triangle of vertices are met in cyclic order. -/
def triCyc (c : Cut) (a b d : Vtx) : Bool := (vtxEnds c a).all fun i => (vtxEnds c b).all fun j => (vtxEnds c d).all fun k => cyc i j k

/-- Vertices that exist, three or four of them, in cyclic order. -/
def subCyc (c : Cut) (s : Sub) : Bool :=
  s.verts.all (vtxValid c) &&
  match s.verts with
  | [a, b, d] => triCyc c a b d
  | [a, b, d, e] => triCyc c a b d && triCyc c a d e
  | _ => false

/-- An affine function that is nonnegative at the corners next to a vertex is nonnegative at the vertex. -/
theorem vtx_nonneg {c : Cut} {a : Vtx} (hv : vtxValid c a = true) {P : Fin 4 → Pt} {x : Fin 4 → ℝ} (hx : InUnit x) (f : Pt → ℝ)
    (hf : ∀ (A B : Pt) (t : ℝ), f (A + t • (B - A)) = (1 - t) * f A + t * f B) (h : ∀ i ∈ vtxEnds c a, 0 ≤ f (P i)) : 0 ≤ f (vtxPos P x c a) := by
  cases a with
  | corner i => exact h i (by simp [vtxEnds])
  | cut k =>
    simp only [vtxValid, decide_eq_true_eq] at hv
    simp only [vtxPos, vtxEnds, List.getElem?_eq_getElem hv] at h ⊢
    have a0 := h _ (List.mem_cons_self)
    have a1 := h _ (List.mem_cons_of_mem _ (List.mem_singleton.2 rfl))
    have u := hx (c.newNodes[k.val]).xiSide
    unfold nodePos
    split <;> rw [hf] <;> exact add_nonneg (mul_nonneg (by linarith [u.2]) (by assumption)) (mul_nonneg u.1 (by assumption))

theorem tri_vtx {c : Cut} {a b d : Vtx} (ha : vtxValid c a = true) (hb : vtxValid c b = true) (hd : vtxValid c d = true) (ht : triCyc c a b d = true)
    {P : Fin 4 → Pt} (hP : Convex P) {x : Fin 4 → ℝ} (hx : InUnit x) : 0 ≤ tri (vtxPos P x c a) (vtxPos P x c b) (vtxPos P x c d) := by
  simp only [triCyc, List.all_eq_true] at ht
  refine vtx_nonneg ha hx (fun p => tri p (vtxPos P x c b) (vtxPos P x c d)) ?_ fun i hi => ?_
  · intro A B t; simp only [tri, Pi.add_apply, Pi.smul_apply, Pi.sub_apply, smul_eq_mul]; ring
  refine vtx_nonneg hb hx (fun p => tri (P i) p (vtxPos P x c d)) ?_ fun j hj => ?_
  · intro A B t; simp only [tri, Pi.add_apply, Pi.smul_apply, Pi.sub_apply, smul_eq_mul]; ring
  refine vtx_nonneg hd hx (fun p => tri (P i) (P j) p) ?_ fun k hk => ?_
  · intro A B t; simp only [tri, Pi.add_apply, Pi.smul_apply, Pi.sub_apply, smul_eq_mul]; ring
  exact tri_corners hP (ht i hi j hj k hk)

/-- Sub-elements in cyclic order are not inverted, and their volume is their area. -/
theorem sub_area {c : Cut} {s : Sub} (h : subCyc c s = true) {P : Fin 4 → Pt} (hP : Convex P) {x : Fin 4 → ℝ} (hx : InUnit x) :
    0 ≤ area (subPts P x c s) ∧ volume (subPts P x c s) = area (subPts P x c s) := by
  have vol3 : ∀ a b d : Pt, volume [a, b, d] = |area [a, b, d]| := fun a b d => by
    rw [area3, volume, abs_div, abs_of_pos (two_pos : (0 : ℝ) < 2)]
    congr 2
  have vol4 : ∀ a b d e : Pt, volume [a, b, d, e] = |area [a, b, d, e]| := fun a b d e => by
    rw [area4, volume, abs_div, abs_of_pos (two_pos : (0 : ℝ) < 2)]
    congr 2
    simp only [cross, tri, Pi.sub_apply]; ring
  unfold subCyc at h
  unfold subPts
  rcases hs : s.verts with _ | ⟨a, _ | ⟨b, _ | ⟨d, _ | ⟨e, _ | ⟨g, l⟩⟩⟩⟩⟩ <;> rw [hs] at h <;> simp at h
  · obtain ⟨⟨ha, hb, hd⟩, ht⟩ := h
    have := tri_vtx ha hb hd ht hP hx
    simp only [List.map_cons, List.map_nil]
    have q : 0 ≤ area [vtxPos P x c a, vtxPos P x c b, vtxPos P x c d] := by rw [area3]; linarith
    exact ⟨q, by rw [vol3, abs_of_nonneg q]⟩
  · obtain ⟨⟨ha, hb, hd, he⟩, ht1, ht2⟩ := h
    have t1 := tri_vtx ha hb hd ht1 hP hx
    have t2 := tri_vtx ha hd he ht2 hP hx
    simp only [List.map_cons, List.map_nil]
    have q : 0 ≤ area [vtxPos P x c a, vtxPos P x c b, vtxPos P x c d, vtxPos P x c e] := by rw [area4]; linarith
    exact ⟨q, by rw [vol4, abs_of_nonneg q]⟩

/-- Facts about the result for arbitrary sets of crossed sides and nodes. -/
def quadOK (side node : Fin 4 → Bool) (mid p : Bool) : Bool :=
  let m := chooseMode side node mid
  (m.1 != .nodeAndTwoEdges || m.2.1 == m.2.2 + 1) &&
  match build m.1 m.2.1 m.2.2 fun _ => p with
  | none => true
  | some c => (c.pos ++ c.neg).all (subCyc c) && through c && decide ((c.pos ++ c.neg).length ≤ 4) && decide (c.newNodes.length ≤ 4)

theorem quadOK_lit : ∀ a b c d e f g h mid p : Bool, quadOK ![a, b, c, d] ![e, f, g, h] mid p = true := by decide +kernel

theorem quadOK_all (side node : Fin 4 → Bool) (mid p : Bool) : quadOK side node mid p = true := by
  have e : ∀ s : Fin 4 → Bool, s = ![s 0, s 1, s 2, s 3] := fun s => by funext i; fin_cases i <;> rfl
  rw [e side, e node]
  exact quadOK_lit _ _ _ _ _ _ _ _ mid p

/-- The signs of the corners enter through one value only. -/
theorem build_const (mode : Mode) (rs rn : Nat) (positive : Fin 4 → Bool) : ∃ p, build mode rs rn positive = build mode rs rn fun _ => p := by
  cases mode
  case adjacentEdges => exact ⟨positive (m4 rs), rfl⟩
  case oppositeEdges => exact ⟨positive (m4 rs), rfl⟩
  case nodeAndEdge => exact ⟨positive (m4 rs), rfl⟩
  case twoAdjacentEdges => exact ⟨positive (m4 rs), rfl⟩
  case nodeAndTwoEdges => exact ⟨positive (m4 rs), rfl⟩
  case oppositeNodes => exact ⟨positive (m4 (rn + 1)), rfl⟩
  all_goals exact ⟨true, rfl⟩

theorem build_area {mode : Mode} {rs rn : Nat} {pos : Fin 4 → Bool} {c : Cut} (h : build mode rs rn pos = some c) (h2 : mode = .nodeAndTwoEdges → rs = rn + 1)
    (P : Fin 4 → Pt) (x : Fin 4 → ℝ) : ((c.pos ++ c.neg).map fun s => area (subPts P x c s)).sum = area (corners P) := by
  obtain ⟨r, hr⟩ : ∃ k : Fin 4, m4 rs = k := ⟨_, rfl⟩
  obtain ⟨q, hq⟩ : ∃ k : Fin 4, m4 rn = k := ⟨_, rfl⟩
  have d1 : m4 1 = 1 := rfl
  have d2 : m4 2 = 2 := rfl
  have d3 : m4 3 = 3 := rfl
  cases mode <;> simp only [build] at h
  case adjacentEdges =>
    obtain rfl := Option.some.inj h
    cases pos (m4 rs) <;> fin_cases r <;> simp [subPts, vtxPos, nodePos, area, corners, m4_add, hr, d1, d2, d3] <;> ring
  case oppositeEdges =>
    obtain rfl := Option.some.inj h
    cases pos (m4 rs) <;> fin_cases r <;> simp [subPts, vtxPos, nodePos, area, corners, m4_add, hr, d1, d2, d3] <;> ring
  case twoAdjacentEdges =>
    obtain rfl := Option.some.inj h
    cases pos (m4 rs) <;> fin_cases r <;> simp [subPts, vtxPos, nodePos, area, corners, m4_add, hr, d1, d2, d3] <;> ring
  case oppositeNodes =>
    obtain rfl := Option.some.inj h
    cases pos (m4 (rn + 1)) <;> fin_cases q <;> simp [subPts, vtxPos, area, corners, m4_add, hq, d1, d2, d3] <;> ring
  case nodeAndTwoEdges =>
    obtain rfl := Option.some.inj h
    obtain rfl := h2 rfl
    cases pos (m4 (rn + 1)) <;> fin_cases q <;> simp [subPts, vtxPos, nodePos, area, corners, m4_add, hq, d1, d2, d3] <;> ring
  case nodeAndEdge =>
    split at h
    · obtain rfl : rs = rn + 1 := by omega
      obtain rfl := Option.some.inj h
      cases pos (m4 (rn + 1)) <;> fin_cases q <;> simp [subPts, vtxPos, nodePos, area, corners, m4_add, hq, d1, d2, d3] <;> ring
    · split at h
      · obtain rfl : rs = rn + 2 := by omega
        obtain rfl := Option.some.inj h
        cases pos (m4 (rn + 2)) <;> fin_cases q <;> simp [subPts, vtxPos, nodePos, area, corners, m4_add, hq, d1, d2, d3] <;> ring
      · exact absurd h (by simp)
  all_goals exact absurd h (by simp)

/-! ## C70 -/

theorem through_quad4 {tol : ℝ} {v : Fin 4 → ℝ} {extra : List ℝ} {mid : ℝ} {c : Cut} (h : initElem tol v extra mid = some c) (ht : through c = true) :
    quad4 tol v mid = some c := by
  unfold initElem at h
  simp only at h
  split at h
  · obtain rfl := Option.some.inj h; exact absurd ht (by simp [through])
  split at h
  · obtain rfl := Option.some.inj h; exact absurd ht (by simp [through])
  split at h
  · split at h <;> obtain rfl := Option.some.inj h <;> exact absurd ht (by simp [through])
  split at h
  · obtain rfl := Option.some.inj h; exact absurd ht (by simp [through])
  · exact h

/-- Facts for the sub-elements of a cut element, from the exhaustive check over crossed sides and nodes. -/
theorem quad4_facts {tol : ℝ} {v : Fin 4 → ℝ} {mid : ℝ} {c : Cut} (h : quad4 tol v mid = some c) :
    (∀ P x, ((c.pos ++ c.neg).map fun s => area (subPts P x c s)).sum = area (corners P)) ∧ (∀ s ∈ c.pos ++ c.neg, subCyc c s = true) ∧
    (c.pos ++ c.neg).length ≤ 4 ∧ c.newNodes.length ≤ 4 := by
  unfold quad4 at h
  simp only at h
  obtain ⟨p, hp⟩ := build_const (chooseMode (sideHit tol v) (nodeHit tol v) (decide (mid * v 0 > 0))).1
    (chooseMode (sideHit tol v) (nodeHit tol v) (decide (mid * v 0 > 0))).2.1 (chooseMode (sideHit tol v) (nodeHit tol v) (decide (mid * v 0 > 0))).2.2
    fun i => decide (v i > 0)
  have ok := quadOK_all (sideHit tol v) (nodeHit tol v) (decide (mid * v 0 > 0)) p
  unfold quadOK at ok
  simp only [← hp, h, Bool.and_eq_true, Bool.or_eq_true, bne_iff_ne, beq_iff_eq, List.all_eq_true, decide_eq_true_eq] at ok
  refine ⟨fun P x => build_area h (fun hm => ?_) P x, fun s hs => ok.2.1.1.1 s hs, ok.2.1.2, ok.2.2⟩
  rcases ok.1 with h1 | h1
  · exact absurd hm h1
  · exact h1

/-- C70: whenever the level set cuts through the element, the signed areas of the sub-elements of the two sides add up to the area of the element. No
condition on the level set, the tolerance, the shape of the element or the success of the searches. -/
theorem C70_area {phi : Pt → ℝ} {tol : ℝ} {P : Fin 4 → Pt} {c : Cut} (h : initQuad phi tol P = some c) (ht : through c = true) (maxIters : Nat) :
    (c.pos.map fun s => area (subPts P (xi phi tol maxIters P) c s)).sum + (c.neg.map fun s => area (subPts P (xi phi tol maxIters P) c s)).sum = area (corners P) := by
  rw [← (quad4_facts (through_quad4 h ht)).1 P (xi phi tol maxIters P), List.map_append, List.sum_append]

theorem xi_unit (phi : Pt → ℝ) {tol : ℝ} (h0 : 0 < tol) (h1 : tol < 10000000000) (P : Fin 4 → Pt) (k : Nat) : InUnit (xi phi tol (k + 1) P) := by
  intro i
  unfold xi
  split
  · rename_i h
    simp only [sideHit, Bool.and_eq_true, decide_eq_true_eq] at h
    have := C72_bracket phi h0.le h1 k h.2
    exact ⟨this.1.le, this.2.1.le⟩
  · exact ⟨le_refl _, zero_le_one⟩

/-- C70: in a convex element no sub-element is inverted, so their volumes add up to the volume of the element. -/
theorem C70_volume {phi : Pt → ℝ} {tol : ℝ} (h0 : 0 < tol) (h1 : tol < 10000000000) {P : Fin 4 → Pt} (hP : Convex P) {c : Cut} (h : initQuad phi tol P = some c)
    (ht : through c = true) (k : Nat) :
    let x := xi phi tol (k + 1) P
    (∀ s ∈ c.pos ++ c.neg, 0 ≤ area (subPts P x c s)) ∧
    (c.pos.map fun s => volume (subPts P x c s)).sum + (c.neg.map fun s => volume (subPts P x c s)).sum = volume (corners P) := by
  intro x
  have f := quad4_facts (through_quad4 h ht)
  have hx := xi_unit phi h0 h1 P k
  have hs := fun s hs => sub_area (f.2.1 s hs) hP hx
  refine ⟨fun s h => (hs s h).1, ?_⟩
  have e : ∀ l : List Sub, (∀ s ∈ l, s ∈ c.pos ++ c.neg) → l.map (fun s => volume (subPts P x c s)) = l.map fun s => area (subPts P x c s) :=
    fun l hl => List.map_congr_left fun s h => (hs s (hl s h)).2
  rw [e _ fun s h => List.mem_append_left _ h, e _ fun s h => List.mem_append_right _ h, C70_area h ht]
  have : 0 ≤ area (corners P) := by
    have a := tri_corners hP (i := 0) (j := 1) (k := 2) (by decide)
    have b := tri_corners hP (i := 0) (j := 2) (k := 3) (by decide)
    rw [corners, area4]; linarith
  rw [show volume (corners P) = |area (corners P)| from ?_, abs_of_nonneg this]
  rw [corners, area4, volume, abs_div, abs_of_pos (two_pos : (0 : ℝ) < 2)]
  congr 2
  simp only [cross, tri, Pi.sub_apply]; ring

theorem foldl_add_sum {α : Type*} (f : α → ℝ) (l : List α) (a : ℝ) : l.foldl (fun v s => v + f s) a = a + (l.map f).sum := by
  induction l generalizing a with
  | nil => simp
  | cons b l ih => rw [List.foldl_cons, ih, List.map_cons, List.sum_cons, add_assoc]

/-- C70: the positive volume fraction of a convex element is between 0 and 1, and the volumes of the negative sub-elements make up the rest. -/
theorem C70_fraction {phi : Pt → ℝ} {tol : ℝ} (h0 : 0 < tol) (h1 : tol < 10000000000) {P : Fin 4 → Pt} (hP : Convex P) (hA : 0 < volume (corners P)) {c : Cut}
    (h : initQuad phi tol P = some c) (ht : through c = true) (k : Nat) :
    let x := xi phi tol (k + 1) P
    0 ≤ positiveFraction P x c ∧ positiveFraction P x c ≤ 1 ∧
    (c.neg.map fun s => volume (subPts P x c s)).sum = (1 - positiveFraction P x c) * volume (corners P) := by
  intro x
  obtain ⟨-, e⟩ := C70_volume h0 h1 hP h ht k
  have vn : ∀ l : List Pt, 0 ≤ volume l := by
    intro l
    unfold volume
    split
    · positivity
    · positivity
    · exact le_refl _
  have sn : ∀ l : List Sub, 0 ≤ (l.map fun s => volume (subPts P x c s)).sum := fun l =>
    List.sum_nonneg fun y hy => by obtain ⟨s, -, rfl⟩ := List.mem_map.1 hy; exact vn _
  have hf : positiveFraction P x c = (c.pos.map fun s => volume (subPts P x c s)).sum / volume (corners P) := by
    unfold positiveFraction
    rw [foldl_add_sum, zero_add]; rfl
  have e' : (c.pos.map fun s => volume (subPts P x c s)).sum + (c.neg.map fun s => volume (subPts P x c s)).sum = volume (corners P) := e
  rw [hf]
  refine ⟨div_nonneg (sn _) hA.le, (div_le_one hA).2 ?_, ?_⟩
  · linarith [sn c.neg]
  · rw [sub_mul, div_mul_cancel₀ _ hA.ne', one_mul]; linarith

theorem sg_cases {tol : ℝ} (h0 : 0 < tol) (x : ℝ) : (sg tol x ≠ 0 → -tol ≤ x) ∧ (sg tol x ≠ 3 → x ≤ tol) ∧ (near (sg tol x) = true → |x| ≤ tol) := by
  refine ⟨fun h => ?_, fun h => ?_, fun h => ?_⟩
  · by_contra hc; exact h ((sg_neg h0).2 (by linarith))
  · by_contra hc; exact h ((sg_pos h0).2 (by linarith))
  · by_contra hc
    rcases lt_abs.1 (not_le.1 hc) with h1 | h1
    · rw [(sg_pos h0).2 h1.le] at h; simp [near] at h
    · rw [(sg_neg h0).2 (by linarith)] at h; simp [near] at h

/-- Crossed sides have been searched. -/
theorem cside_hit {phi : Pt → ℝ} {tol : ℝ} (h0 : 0 < tol) {P : Fin 4 → Pt} (hv : ∀ i, |phi (P i)| ≠ tol) {i : Fin 4}
    (h : cside (fun i => sg tol (phi (P i))) i = true) (n : Nat) : phi (P i) * phi (P (i + 1)) < 0 ∧ xi phi tol n P i = edgeSearch phi tol n (P i) (P (i + 1)) := by
  have e : sideHit tol (fun i => phi (P i)) i = true := by rw [sideHit_sg h0 hv]; exact h
  refine ⟨?_, by unfold xi; rw [if_pos e]⟩
  simp only [sideHit, Bool.and_eq_true, decide_eq_true_eq] at e
  exact e.2

/-- Converged: every search on an edge with a change of sign ended before the limit of iterations. -/
def Converged (phi : Pt → ℝ) (tol : ℝ) (n : Nat) (P : Fin 4 → Pt) : Prop :=
  ∀ i, phi (P i) * phi (P (i + 1)) < 0 → iters phi tol n (rfInit phi (P i) (P (i + 1))) < n

theorem vtxOn_phi {phi : Pt → ℝ} {tol : ℝ} (h0 : 0 < tol) (h1 : tol < 10000000000) {P : Fin 4 → Pt} (hv : ∀ i, |phi (P i)| ≠ tol) {k : Nat}
    (hc : Converged phi tol (k + 1) P) {c : Cut} {a : Vtx} (h : vtxOn (fun i => sg tol (phi (P i))) c a = true) : |phi (vtxPos P (xi phi tol (k + 1) P) c a)| ≤ tol := by
  cases a with
  | corner i => exact (sg_cases h0 _).2.2 h
  | cut j =>
    simp only [vtxOn, vtxPos] at h ⊢
    cases hn : c.newNodes[j.val]? with
    | none => rw [hn] at h; simp at h
    | some n =>
      rw [hn] at h
      simp only [Bool.and_eq_true, Bool.not_eq_true', beq_iff_eq] at h ⊢
      obtain ⟨⟨hf, hx⟩, hs⟩ := h
      obtain ⟨hch, he⟩ := cside_hit h0 hv hs (k + 1)
      simp only [nodePos, hf, Bool.false_eq_true, if_false, hx, he]
      exact (C72_bracket phi h0.le h1 k hch).2.2.2 (hc _ hch)

theorem vtxSide_phi {phi : Pt → ℝ} {tol : ℝ} (h0 : 0 < tol) (h1 : tol < 10000000000) {P : Fin 4 → Pt} (hv : ∀ i, |phi (P i)| ≠ tol) {k : Nat}
    (hc : Converged phi tol (k + 1) P) (hb : EdgeBetween phi P) {c : Cut} {a : Vtx} :
    (vtxSide (fun i => sg tol (phi (P i))) c 0 a = true → -tol ≤ phi (vtxPos P (xi phi tol (k + 1) P) c a)) ∧
    (vtxSide (fun i => sg tol (phi (P i))) c 3 a = true → phi (vtxPos P (xi phi tol (k + 1) P) c a) ≤ tol) := by
  cases a with
  | corner i =>
    simp only [vtxSide, bne_iff_ne, vtxPos]
    exact ⟨(sg_cases h0 _).1, (sg_cases h0 _).2.1⟩
  | cut j =>
    simp only [vtxSide]
    cases hn : c.newNodes[j.val]? with
    | none => simp
    | some n =>
      simp only
      by_cases hf : n.fromEnd = true
      · have u := xi_unit phi h0 h1 P k n.xiSide
        have e : vtxPos P (xi phi tol (k + 1) P) c (.cut j) = P n.side + (1 - xi phi tol (k + 1) P n.xiSide) • (P (n.side + 1) - P n.side) := by
          simp only [vtxPos, hn, nodePos, hf, if_true]
          funext z; simp only [Pi.add_apply, Pi.smul_apply, Pi.sub_apply, smul_eq_mul]; ring
        obtain ⟨b1, b2⟩ := hb n.side (1 - xi phi tol (k + 1) P n.xiSide) (by linarith [u.2]) (by linarith [u.1])
        rw [e]
        simp only [hf, if_true, Bool.and_eq_true, bne_iff_ne]
        refine ⟨fun h => le_trans ?_ b1, fun h => le_trans b2 ?_⟩
        · exact le_min ((sg_cases h0 _).1 h.1.1) ((sg_cases h0 _).1 h.1.2)
        · exact max_le ((sg_cases h0 _).2.1 h.1.1) ((sg_cases h0 _).2.1 h.1.2)
      · have key : (n.xiSide == n.side && cside (fun i => sg tol (phi (P i))) n.side) = true → |phi (vtxPos P (xi phi tol (k + 1) P) c (.cut j))| ≤ tol := by
          intro h
          refine vtxOn_phi h0 h1 hv hc (c := c) (a := .cut j) ?_
          simp only [vtxOn, hn]
          simp only [Bool.not_eq_true] at hf
          simp only [hf, Bool.not_false, Bool.true_and]
          exact h
        simp only [hf, Bool.false_eq_true, if_false]
        exact ⟨fun h => (abs_le.1 (key h)).1, fun h => (abs_le.1 (key h)).2⟩

/-- The exhaustive check over sign patterns, for the values of a level set at the corners. -/
theorem initQuad_ok {phi : Pt → ℝ} {tol : ℝ} (h0 : 0 < tol) (h1 : tol < 10000000000) {P : Fin 4 → Pt} (hv : ∀ i, |phi (P i)| ≠ tol) :
    ∃ m, initQuad phi tol P = comb (fun i => sg tol (phi (P i))) m ∧ combOK (fun i => sg tol (phi (P i))) m = true :=
  ⟨_, initElem_comb h0 (by linarith) hv _, combOK_all _ _⟩

theorem touching_iff {tol : ℝ} (h0 : 0 < tol) {v : Fin 4 → ℝ} (hv : ∀ i, |v i| ≠ tol) (h : touching (fun i => sg tol (v i)) = true) : TouchingDiagonal tol v := by
  simp only [touching, List.any_eq_true, Bool.and_eq_true, Bool.not_eq_true', beq_iff_eq] at h
  obtain ⟨i, -, ⟨⟨a, b⟩, c⟩, d⟩ := h
  have nl : ∀ j, near (sg tol (v j)) = true → |v j| < tol := fun j hj => by rw [(sg_near (hv j)).2] at hj; simpa using hj
  refine ⟨i, nl _ a, nl _ b, ?_⟩
  have hne : ∀ j, |v j| ≠ tol → v j ≠ tol ∧ v j ≠ -tol := fun j hj =>
    ⟨fun e => hj (by rw [e, abs_of_pos h0]), fun e => hj (by rw [e, abs_neg, abs_of_pos h0])⟩
  have cl : ∀ z : Fin 4, near z = false → z = 0 ∨ z = 3 := by decide
  rcases cl _ c with e | e
  · right
    have e2 := d.symm.trans e
    rw [sg_neg h0] at e e2
    exact ⟨lt_of_le_of_ne e (hne _ (hv _)).2, lt_of_le_of_ne e2 (hne _ (hv _)).2⟩
  · left
    have e2 := d.symm.trans e
    rw [sg_pos h0] at e e2
    exact ⟨lt_of_le_of_ne e (hne _ (hv _)).1.symm, lt_of_le_of_ne e2 (hne _ (hv _)).1.symm⟩

/-- C70: if the searches converged, the level set stays between its end values along edges, no corner value equals the tolerance exactly and the element is not
touched along its diagonal only, then every vertex of a positive sub-element has level set value at least `-tol` and every vertex of a negative one at most
`tol`; neither side is empty. -/
theorem C70_sign_partial {phi : Pt → ℝ} {tol : ℝ} (h0 : 0 < tol) (h1 : tol < 10000000000) {P : Fin 4 → Pt} (hv : ∀ i, |phi (P i)| ≠ tol) {k : Nat}
    (hc : Converged phi tol (k + 1) P) (hb : EdgeBetween phi P) (hd : ¬ TouchingDiagonal tol fun i => phi (P i)) {c : Cut} (h : initQuad phi tol P = some c)
    (ht : through c = true) :
    let x := xi phi tol (k + 1) P
    c.pos ≠ [] ∧ c.neg ≠ [] ∧ (∀ s ∈ c.pos, ∀ p ∈ subPts P x c s, -tol ≤ phi p) ∧ (∀ s ∈ c.neg, ∀ p ∈ subPts P x c s, phi p ≤ tol) := by
  intro x
  obtain ⟨m, e, ok⟩ := initQuad_ok h0 h1 hv
  unfold combOK at ok
  rw [← e, h] at ok
  have hnt : touching (fun i => sg tol (phi (P i))) = false := by
    rw [Bool.eq_false_iff]; exact fun hh => hd (touching_iff h0 hv hh)
  simp only [ht, hnt, Bool.and_eq_true, Bool.not_true, Bool.false_or, Bool.or_eq_true, List.all_eq_true, Bool.not_eq_true', List.isEmpty_eq_false_iff,
    decide_eq_true_eq] at ok
  obtain ⟨⟨⟨⟨⟨⟨-, hs⟩, ⟨⟨⟨-, np⟩, nn⟩, ncol⟩⟩, -⟩, -⟩, -⟩, -⟩ := ok
  rcases hs with ⟨⟨hcol, -⟩, -⟩ | ⟨sp, sn⟩
  · rw [ncol] at hcol; exact absurd hcol (by simp)
  · refine ⟨np, nn, fun s hs p hp => ?_, fun s hs p hp => ?_⟩
    · obtain ⟨a, ha, rfl⟩ := List.mem_map.1 hp
      exact (vtxSide_phi h0 h1 hv hc hb).1 (sp s hs a ha)
    · obtain ⟨a, ha, rfl⟩ := List.mem_map.1 hp
      exact (vtxSide_phi h0 h1 hv hc hb).2 (sn s hs a ha)

theorem affine_between {phi : Pt → ℝ} {P : Fin 4 → Pt} (h : EdgeAffine phi P) : EdgeBetween phi P := by
  intro i t h0 h1
  rw [h i t]
  constructor
  · rcases min_cases (phi (P i)) (phi (P (i + 1))) with ⟨e, q⟩ | ⟨e, q⟩ <;> rw [e] <;> nlinarith
  · rcases max_cases (phi (P i)) (phi (P (i + 1))) with ⟨e, q⟩ | ⟨e, q⟩ <;> rw [e] <;> nlinarith

theorem affine_converged {phi : Pt → ℝ} {P : Fin 4 → Pt} (h : EdgeAffine phi P) {tol : ℝ} (h0 : 0 < tol) (h1 : tol < 10000000000) (k : Nat) :
    Converged phi tol (k + 2) P := by
  intro i hi
  rw [(C72_linear phi h0.le h1 (k + 1) hi (h i)).2]
  omega

/-- C70 for level sets that are affine along edges (every nodal QUAD4 interpolation): the searches always converge, no condition on the iterations is left
(beyond at least two being allowed; the code allows ten). -/
theorem C70_sign_affine_partial {phi : Pt → ℝ} {tol : ℝ} (h0 : 0 < tol) (h1 : tol < 10000000000) {P : Fin 4 → Pt} (hv : ∀ i, |phi (P i)| ≠ tol) (k : Nat)
    (ha : EdgeAffine phi P) (hd : ¬ TouchingDiagonal tol fun i => phi (P i)) {c : Cut} (h : initQuad phi tol P = some c) (ht : through c = true) :
    let x := xi phi tol (k + 2) P
    c.pos ≠ [] ∧ c.neg ≠ [] ∧ (∀ s ∈ c.pos, ∀ p ∈ subPts P x c s, -tol ≤ phi p) ∧ (∀ s ∈ c.neg, ∀ p ∈ subPts P x c s, phi p ≤ tol) :=
  C70_sign_partial h0 h1 hv (affine_converged ha h0 h1 k) (affine_between ha) hd h ht

/-! ### what fails -/

/-- Pattern check behind `C70_opposite_nodes_fails`. -/
def touchBad (s : Fin 4 → Fin 4) (m : Bool) : Bool :=
  !(touching s && [0, 1, 2, 3].any fun i => s i == 3) ||
  match comb s m with
  | none => false
  | some c => through c && c.neg.any fun e => e.verts.any fun a => match a with | .corner i => s i == 3 | .cut _ => false

theorem touchBad_lit : ∀ (a b c d : Fin 4) (m : Bool), touchBad ![a, b, c, d] m = true := by decide +kernel

/-- C70, finding: an element with two opposite corners on the level set and both others positive is cut along the diagonal and one half, with a corner where
the level set is positive, is reported as negative. -/
theorem C70_opposite_nodes_fails {tol : ℝ} (h0 : 0 < tol) (h1 : tol < 1000000000000) {v : Fin 4 → ℝ} (i : Fin 4) (hi : |v i| < tol) (hi2 : |v (i + 2)| < tol)
    (hp : tol < v (i + 1)) (hp2 : tol < v (i + 3)) (mid : ℝ) :
    ∃ c, initElem tol v [] mid = some c ∧ through c = true ∧ ∃ s ∈ c.neg, ∃ j, Vtx.corner j ∈ s.verts ∧ tol < v j := by
  have cover : ∀ i j : Fin 4, j = i ∨ j = i + 1 ∨ j = i + 2 ∨ j = i + 3 := by decide
  have hv : ∀ j, |v j| ≠ tol := by
    intro j
    rcases cover i j with rfl | rfl | rfl | rfl
    · exact hi.ne
    · exact (lt_abs.2 (Or.inl hp)).ne'
    · exact hi2.ne
    · exact (lt_abs.2 (Or.inl hp2)).ne'
  have e3 : sg tol (v (i + 1)) = 3 := (sg_pos h0).2 hp.le
  have e4 : sg tol (v (i + 3)) = 3 := (sg_pos h0).2 hp2.le
  have ht : touching (fun i => sg tol (v i)) = true := by
    simp only [touching, List.any_eq_true]
    refine ⟨i, by fin_cases i <;> simp, ?_⟩
    rw [(sg_near (hv i)).2, (sg_near (hv _)).2, e3, e4]
    simp [hi, hi2, near]
  have ha : ([0, 1, 2, 3].any fun i => sg tol (v i) == 3) = true := by
    simp only [List.any_eq_true, beq_iff_eq]
    exact ⟨i + 1, by generalize i + 1 = j; fin_cases j <;> simp, e3⟩
  have key : touchBad (fun i => sg tol (v i)) (decide (mid * v 0 > 0)) = true := by
    have : (fun i => sg tol (v i)) = ![sg tol (v 0), sg tol (v 1), sg tol (v 2), sg tol (v 3)] := by funext i; fin_cases i <;> rfl
    rw [this]; exact touchBad_lit _ _ _ _ _
  unfold touchBad at key
  rw [← initElem_comb h0 h1 hv, ht, ha] at key
  cases hc : initElem tol v [] mid with
  | none => rw [hc] at key; simp at key
  | some c =>
    rw [hc] at key
    simp only [Bool.and_self, Bool.not_true, Bool.false_or, Bool.and_eq_true, List.any_eq_true] at key
    obtain ⟨k1, s, hs, a, ha', hb⟩ := key
    refine ⟨c, rfl, k1, s, hs, ?_⟩
    cases a with
    | cut j => simp at hb
    | corner j =>
      simp only [beq_iff_eq, sg_pos h0] at hb
      exact ⟨j, ha', lt_of_le_of_ne hb fun e => hv j (by rw [← e, abs_of_pos h0])⟩

/-- The unit square. -/
def unitSquare : Fin 4 → Pt
  | 0 => ![0, 0]
  | 1 => ![1, 0]
  | 2 => ![1, 1]
  | 3 => ![0, 1]
theorem us0 : unitSquare 0 = ![0, 0] := rfl
theorem us1 : unitSquare 1 = ![1, 0] := rfl
theorem us2 : unitSquare 2 = ![1, 1] := rfl
theorem us3 : unitSquare 3 = ![0, 1] := rfl

/-- A smooth level set: -1 at the corner (1, 0), 1 at the others, affine along the two edges that meet there, with a dip on the far edge. -/
def dip (p : Pt) : ℝ := 1 - 2 * p 0 * (1 - p 1) - 8 * p 0 * (1 - p 0) * p 1

theorem dip_corners : dip (unitSquare 0) = 1 ∧ dip (unitSquare 1) = -1 ∧ dip (unitSquare 2) = 1 ∧ dip (unitSquare 3) = 1 := by
  refine ⟨?_, ?_, ?_, ?_⟩ <;> norm_num [dip, us0, us1, us2, us3]

/-- Class of a corner value 1 or -1. -/
theorem sg_one {tol : ℝ} (h0 : 0 < tol) (h1 : tol < 1) : sg tol 1 = 3 ∧ sg tol (-1) = 0 ∧ sg tol 0 = 1 :=
  ⟨(sg_pos h0).2 h1.le, (sg_neg h0).2 (by linarith), by simp [sg, h0]⟩

theorem initQuad_of_values {phi : Pt → ℝ} {tol : ℝ} (h0 : 0 < tol) (h1 : tol < 1) {P : Fin 4 → Pt} (hv : ∀ i, phi (P i) = 1 ∨ phi (P i) = -1 ∨ phi (P i) = 0) :
    ∃ m, initQuad phi tol P = comb (fun i => sg tol (phi (P i))) m := by
  refine ⟨_, initElem_comb h0 (by linarith) (fun i => ?_) _⟩
  rcases hv i with h | h | h <;> rw [h]
  · rw [abs_one]; exact h1.ne'
  · rw [abs_neg, abs_one]; exact h1.ne'
  · rw [abs_zero]; exact h0.ne

/-- Two vertices are shared by all parts: the parts are joined along an edge. -/
def Joined (l : List Sub) : Prop := ∃ a b : Vtx, a ≠ b ∧ ∀ s ∈ l, a ∈ s.verts ∧ b ∈ s.verts
/-- No two parts have a vertex in common. -/
def Apart (l : List Sub) : Prop := l.Pairwise fun s t => ∀ a ∈ s.verts, a ∉ t.verts

/-- C70: where the level set changes sign along all four sides, its value at the centroid of the element decides which corners are connected: the parts of that sign are joined along an edge, the two parts of the
other sign are apart; all corners are in the parts of their sign. -/
theorem C70_saddle {phi : Pt → ℝ} {tol : ℝ} (h0 : 0 < tol) (h1 : tol < 1000000000000) {P : Fin 4 → Pt} (ht : ∀ i, tol < |phi (P i)|) (hs : ∀ i, phi (P i) * phi (P (i + 1)) < 0) :
    ∃ c, initQuad phi tol P = some c ∧ c.pos.length = 2 ∧ c.neg.length = 2 ∧
      (0 < phi ((1 / 4 : ℝ) • (P 0 + P 1 + P 2 + P 3)) → Joined c.pos ∧ Apart c.neg) ∧ (phi ((1 / 4 : ℝ) • (P 0 + P 1 + P 2 + P 3)) < 0 → Joined c.neg ∧ Apart c.pos) ∧
      ∀ i, (0 < phi (P i) → ∃ s ∈ c.pos, Vtx.corner i ∈ s.verts) ∧ (phi (P i) < 0 → ∃ s ∈ c.neg, Vtx.corner i ∈ s.verts) := by
  have hv : ∀ i, |phi (P i)| ≠ tol := fun i => (ht i).ne'
  have hp : ∀ i, 0 < phi (P i) → sg tol (phi (P i)) = 3 := fun i h => (sg_pos h0).2 (by have := ht i; rw [abs_of_pos h] at this; exact this.le)
  have hn : ∀ i, phi (P i) < 0 → sg tol (phi (P i)) = 0 := fun i h => (sg_neg h0).2 (by have := ht i; rw [abs_of_neg h] at this; linarith)
  have hflip : ∀ i, (0 < phi (P i) → phi (P (i + 1)) < 0) ∧ (phi (P i) < 0 → 0 < phi (P (i + 1))) := by
    intro i
    refine ⟨fun h => ?_, fun h => ?_⟩
    · by_contra hc
      exact absurd (hs i) (not_lt.2 (mul_nonneg h.le (not_lt.1 hc)))
    · by_contra hc
      exact absurd (hs i) (not_lt.2 (mul_nonneg_of_nonpos_of_nonpos h.le (not_lt.1 hc)))
  have e0 : initQuad phi tol P = comb (fun i => sg tol (phi (P i))) (decide (phi ((1 / 4 : ℝ) • (P 0 + P 1 + P 2 + P 3)) * phi (P 0) > 0)) := initElem_comb h0 h1 hv _
  generalize hm : phi ((1 / 4 : ℝ) • (P 0 + P 1 + P 2 + P 3)) = mid at e0 ⊢
  have hne : phi (P 0) ≠ 0 := fun h => by have := ht 0; rw [h, abs_zero] at this; linarith
  rcases lt_or_gt_of_ne hne with n0 | p0
  · have p1 := (hflip 0).2 n0
    have n2 := (hflip 1).1 p1
    have p3 := (hflip 2).2 n2
    have es : (fun i => sg tol (phi (P i))) = ![0, 3, 0, 3] := by
      funext i; fin_cases i
      exacts [hn _ n0, hp _ p1, hn _ n2, hp _ p3]
    rw [es] at e0
    by_cases hmid : mid * phi (P 0) > 0
    · rw [decide_eq_true hmid] at e0
      refine ⟨_, e0, rfl, rfl, fun h => absurd hmid (not_lt.2 (mul_neg_of_pos_of_neg h n0).le), fun _ => ⟨⟨.cut 0, .cut 2, by decide, by decide⟩, by unfold Apart; decide⟩, fun i => ?_⟩
      fin_cases i
      · exact ⟨fun h => absurd h (not_lt.2 n0.le), fun _ => by decide⟩
      · exact ⟨fun _ => by decide, fun h => absurd h (not_lt.2 p1.le)⟩
      · exact ⟨fun h => absurd h (not_lt.2 n2.le), fun _ => by decide⟩
      · exact ⟨fun _ => by decide, fun h => absurd h (not_lt.2 p3.le)⟩
    · rw [decide_eq_false hmid] at e0
      refine ⟨_, e0, rfl, rfl, fun _ => ⟨⟨.cut 0, .cut 2, by decide, by decide⟩, by unfold Apart; decide⟩, fun h => absurd (mul_pos_of_neg_of_neg h n0) hmid, fun i => ?_⟩
      fin_cases i
      · exact ⟨fun h => absurd h (not_lt.2 n0.le), fun _ => by decide⟩
      · exact ⟨fun _ => by decide, fun h => absurd h (not_lt.2 p1.le)⟩
      · exact ⟨fun h => absurd h (not_lt.2 n2.le), fun _ => by decide⟩
      · exact ⟨fun _ => by decide, fun h => absurd h (not_lt.2 p3.le)⟩
  · have n1 := (hflip 0).1 p0
    have p2 := (hflip 1).2 n1
    have n3 := (hflip 2).1 p2
    have es : (fun i => sg tol (phi (P i))) = ![3, 0, 3, 0] := by
      funext i; fin_cases i
      exacts [hp _ p0, hn _ n1, hp _ p2, hn _ n3]
    rw [es] at e0
    by_cases hmid : mid * phi (P 0) > 0
    · rw [decide_eq_true hmid] at e0
      refine ⟨_, e0, rfl, rfl, fun _ => ⟨⟨.cut 0, .cut 2, by decide, by decide⟩, by unfold Apart; decide⟩, fun h => absurd hmid (not_lt.2 (mul_neg_of_neg_of_pos h p0).le), fun i => ?_⟩
      fin_cases i
      · exact ⟨fun _ => by decide, fun h => absurd h (not_lt.2 p0.le)⟩
      · exact ⟨fun h => absurd h (not_lt.2 n1.le), fun _ => by decide⟩
      · exact ⟨fun _ => by decide, fun h => absurd h (not_lt.2 p2.le)⟩
      · exact ⟨fun h => absurd h (not_lt.2 n3.le), fun _ => by decide⟩
    · rw [decide_eq_false hmid] at e0
      refine ⟨_, e0, rfl, rfl, fun h => absurd (mul_pos h p0) hmid, fun _ => ⟨⟨.cut 0, .cut 2, by decide, by decide⟩, by unfold Apart; decide⟩, fun i => ?_⟩
      fin_cases i
      · exact ⟨fun _ => by decide, fun h => absurd h (not_lt.2 p0.le)⟩
      · exact ⟨fun h => absurd h (not_lt.2 n1.le), fun _ => by decide⟩
      · exact ⟨fun _ => by decide, fun h => absurd h (not_lt.2 p2.le)⟩
      · exact ⟨fun h => absurd h (not_lt.2 n3.le), fun _ => by decide⟩

/-- Non-vacuity of `C70_saddle`: a saddle on the unit square that is positive at the centroid. -/
example (tol : ℝ) (_h0 : 0 < tol) (h1 : tol < 1) : (∀ i, tol < |(fun p : Pt => (2 * p 0 - 1) * (2 * p 1 - 1) * 2 + 1 / 2) (unitSquare i)|) ∧
    (∀ i, (fun p : Pt => (2 * p 0 - 1) * (2 * p 1 - 1) * 2 + 1 / 2) (unitSquare i) * (fun p : Pt => (2 * p 0 - 1) * (2 * p 1 - 1) * 2 + 1 / 2) (unitSquare (i + 1)) < 0) ∧
    0 < (fun p : Pt => (2 * p 0 - 1) * (2 * p 1 - 1) * 2 + 1 / 2) ((1 / 4 : ℝ) • (unitSquare 0 + unitSquare 1 + unitSquare 2 + unitSquare 3)) := by
  refine ⟨fun i => ?_, fun i => ?_, ?_⟩
  · fin_cases i <;> norm_num [unitSquare, abs_of_neg, abs_of_pos] <;> linarith
  · have e : ∀ i, (fun p : Pt => (2 * p 0 - 1) * (2 * p 1 - 1) * 2 + 1 / 2) (unitSquare i) = ![5 / 2, -3 / 2, 5 / 2, -3 / 2] i := by
      intro i; fin_cases i <;> norm_num [unitSquare]
    rw [e, e]
    have : ∀ j : Fin 4, (![5 / 2, -3 / 2, 5 / 2, -3 / 2] : Fin 4 → ℝ) j = if j.val % 2 = 0 then 5 / 2 else -3 / 2 := by
      intro j; fin_cases j <;> norm_num
    rw [this, this]
    have hp : ((i + 1 : Fin 4).val % 2 = 0) ↔ ¬ (i.val % 2 = 0) := by revert i; decide
    by_cases h : i.val % 2 = 0
    · rw [if_pos h, if_neg (fun h' => hp.1 h' h)]; norm_num
    · rw [if_neg h, if_pos (hp.2 h)]; norm_num
  · norm_num [unitSquare]

/-- C70, finding: the hanging node of an element cut at two adjacent edges is placed on the far edge without looking at the level set there, so a positive
sub-element can have a vertex where the level set is negative although all searches converged. -/
theorem C70_hanging_node_fails {tol : ℝ} (h0 : 0 < tol) (h1 : tol < 1) (k : Nat) :
    ∃ c, initQuad dip tol unitSquare = some c ∧ c.mode = .adjacentEdges ∧ Converged dip tol (k + 2) unitSquare ∧
      ∃ s ∈ c.pos, ∃ p ∈ subPts unitSquare (xi dip tol (k + 2) unitSquare) c s, dip p = -1 := by
  obtain ⟨d0, d1, d2, d3⟩ := dip_corners
  have dv : ∀ i, dip (unitSquare i) = 1 ∨ dip (unitSquare i) = -1 ∨ dip (unitSquare i) = 0 := by
    intro i; fin_cases i
    · exact Or.inl d0
    · exact Or.inr (Or.inl d1)
    · exact Or.inl d2
    · exact Or.inl d3
  obtain ⟨m, hm⟩ := initQuad_of_values h0 h1 dv
  obtain ⟨s3, s0, -⟩ := sg_one h0 h1
  have hs : (fun i => sg tol (dip (unitSquare i))) = ![3, 0, 3, 3] := by
    funext i; fin_cases i
    · show sg tol (dip (unitSquare 0)) = _; rw [d0, s3]; rfl
    · show sg tol (dip (unitSquare 1)) = _; rw [d1, s0]; rfl
    · show sg tol (dip (unitSquare 2)) = _; rw [d2, s3]; rfl
    · show sg tol (dip (unitSquare 3)) = _; rw [d3, s3]; rfl
  rw [hs] at hm
  have lin0 : ∀ t : ℝ, dip (unitSquare 0 + t • (unitSquare 1 - unitSquare 0)) = dip (unitSquare 0) + t * (dip (unitSquare 1) - dip (unitSquare 0)) := by
    intro t; rw [d0, d1]; simp [dip, us0, us1, us2]; ring
  have lin1 : ∀ t : ℝ, dip (unitSquare 1 + t • (unitSquare 2 - unitSquare 1)) = dip (unitSquare 1) + t * (dip (unitSquare 2) - dip (unitSquare 1)) := by
    intro t; rw [d1, d2]; simp [dip, us0, us1, us2]; ring
  have ch : dip (unitSquare 0) * dip (unitSquare 1) < 0 := by rw [d0, d1]; norm_num
  have hx0 : edgeSearch dip tol (k + 2) (unitSquare 0) (unitSquare 1) = 1 / 2 := by
    have := (C72_linear dip h0.le (by linarith) (k + 1) ch lin0).1
    rw [lin0, d0, d1] at this
    linarith
  have hit : xi dip tol (k + 2) unitSquare 0 = 1 / 2 := by
    unfold xi
    rw [if_pos, ← hx0]
    · rfl
    · rw [sideHit_sg h0 (fun i => by rcases dv i with h | h | h <;> rw [h] <;> simp [h1.ne', h0.ne])]
      show (!near (sg tol (dip (unitSquare 0))) && !near (sg tol (dip (unitSquare 1))) && sg tol (dip (unitSquare 0)) != sg tol (dip (unitSquare 1))) = true
      rw [d0, d1, s3, s0]; rfl
  have conv : Converged dip tol (k + 2) unitSquare := by
    intro i hi
    fin_cases i
    · show iters dip tol (k + 2) (rfInit dip (unitSquare 0) (unitSquare 1)) < k + 2
      rw [show iters dip tol (k + 2) (rfInit dip (unitSquare 0) (unitSquare 1)) = 1 from (C72_linear dip h0.le (by linarith) (k + 1) ch lin0).2]; omega
    · have ch1 : dip (unitSquare 1) * dip (unitSquare 2) < 0 := by rw [d1, d2]; norm_num
      show iters dip tol (k + 2) (rfInit dip (unitSquare 1) (unitSquare 2)) < k + 2
      rw [show iters dip tol (k + 2) (rfInit dip (unitSquare 1) (unitSquare 2)) = 1 from (C72_linear dip h0.le (by linarith) (k + 1) ch1 lin1).2]; omega
    · have : dip (unitSquare 2) * dip (unitSquare 3) < 0 := hi
      rw [d2, d3] at this; norm_num at this
    · have : dip (unitSquare 3) * dip (unitSquare 0) < 0 := hi
      rw [d3, d0] at this; norm_num at this
  have hcut : comb ![3, 0, 3, 3] m = some ⟨.adjacentEdges, [⟨[.cut 0, .cut 2, .corner 3, .corner 0], none⟩, ⟨[.cut 1, .corner 2, .cut 2, .cut 0], some 3⟩],
      [⟨[.cut 0, .corner 1, .cut 1], some 2⟩], [⟨0, 0, false⟩, ⟨1, 1, false⟩, ⟨2, 0, true⟩], [2], false, false⟩ := by
    cases m <;> decide +kernel
  refine ⟨_, hm.trans hcut, rfl, conv, ⟨[.cut 0, .cut 2, .corner 3, .corner 0], none⟩, by simp, ?_⟩
  refine ⟨_, List.mem_map.2 ⟨.cut 2, by simp, rfl⟩, ?_⟩
  simp only [vtxPos, nodePos]
  simp only [List.length_cons, List.length_nil, List.getElem?_cons_succ, List.getElem?_cons_zero, if_true, hit, Fin.val_two, Fin.isValue]
  have a2 : unitSquare (2 + 1) = ![0, 1] := rfl
  have a3 : unitSquare 2 = ![1, 1] := rfl
  rw [a2, a3]
  norm_num [dip]

/-- Non-vacuity of the C70 theorems: the level set x + y - 3/4 (affine) on the unit square, values -3/4, 1/4, 5/4, 1/4, cuts through it. -/
example {tol : ℝ} (h0 : 0 < tol) (h1 : tol < 1 / 8) : ∃ c, initQuad (fun p => p 0 + p 1 - 3 / 4) tol unitSquare = some c ∧ through c = true ∧
    EdgeAffine (fun p => p 0 + p 1 - 3 / 4) unitSquare ∧ Convex unitSquare ∧ 0 < volume (corners unitSquare) ∧
    (∀ i, |(fun p : Pt => p 0 + p 1 - 3 / 4) (unitSquare i)| ≠ tol) ∧ ¬ TouchingDiagonal tol fun i => (fun p : Pt => p 0 + p 1 - 3 / 4) (unitSquare i) := by
  have v0 : (fun p : Pt => p 0 + p 1 - 3 / 4) (unitSquare 0) = -(3 / 4) := by norm_num [us0, us1, us2, us3]
  have v1 : (fun p : Pt => p 0 + p 1 - 3 / 4) (unitSquare 1) = 1 / 4 := by norm_num [us0, us1, us2, us3]
  have v2 : (fun p : Pt => p 0 + p 1 - 3 / 4) (unitSquare 2) = 5 / 4 := by norm_num [us0, us1, us2, us3]
  have v3 : (fun p : Pt => p 0 + p 1 - 3 / 4) (unitSquare 3) = 1 / 4 := by norm_num [us0, us1, us2, us3]
  generalize hphi : (fun p : Pt => p 0 + p 1 - 3 / 4) = phi at v0 v1 v2 v3 ⊢
  have big : ∀ i, tol < |phi (unitSquare i)| := by
    intro i; fin_cases i
    · show tol < |phi (unitSquare 0)|; rw [v0, abs_neg, abs_of_pos (by norm_num)]; linarith
    · show tol < |phi (unitSquare 1)|; rw [v1, abs_of_pos (by norm_num)]; linarith
    · show tol < |phi (unitSquare 2)|; rw [v2, abs_of_pos (by norm_num)]; linarith
    · show tol < |phi (unitSquare 3)|; rw [v3, abs_of_pos (by norm_num)]; linarith
  have hv : ∀ i, |phi (unitSquare i)| ≠ tol := fun i => (big i).ne'
  have e : initQuad phi tol unitSquare = comb (fun i => sg tol (phi (unitSquare i))) _ := initElem_comb h0 (by linarith) hv _
  have hs : (fun i => sg tol (phi (unitSquare i))) = ![0, 3, 3, 3] := by
    funext i; fin_cases i
    · show sg tol (phi (unitSquare 0)) = 0; rw [v0, sg_neg h0]; linarith
    · show sg tol (phi (unitSquare 1)) = 3; rw [v1, sg_pos h0]; linarith
    · show sg tol (phi (unitSquare 2)) = 3; rw [v2, sg_pos h0]; linarith
    · show sg tol (phi (unitSquare 3)) = 3; rw [v3, sg_pos h0]; linarith
  have all : ∀ m, ∃ c, comb ![0, 3, 3, 3] m = some c ∧ through c = true := by
    intro m
    have : (match comb ![0, 3, 3, 3] m with | some c => through c | none => false) = true := by cases m <;> decide +kernel
    cases hc : comb ![0, 3, 3, 3] m with
    | none => rw [hc] at this; simp at this
    | some c => rw [hc] at this; exact ⟨c, rfl, this⟩
  rw [hs] at e
  obtain ⟨c, hc, ht⟩ := all (decide (phi ((1 / 4 : ℝ) • (unitSquare 0 + unitSquare 1 + unitSquare 2 + unitSquare 3)) * phi (unitSquare 0) > 0))
  have f1 : (1 : Fin 4) + 2 = 3 := rfl
  have f2 : (2 : Fin 4) + 1 = 3 := rfl
  have f3 : (3 : Fin 4) + 1 = 0 := rfl
  refine ⟨c, e.trans hc, ht, ?_, ?_, ?_, hv, ?_⟩
  · subst hphi
    intro i t; simp only [Pi.add_apply, Pi.smul_apply, Pi.sub_apply, smul_eq_mul]; ring
  · intro i; fin_cases i <;> simp [area, us0, us1, us2, us3, f1, f2, f3]
  · norm_num [volume, corners, cross, us0, us1, us2, us3]
  · rintro ⟨i, h, -⟩; exact absurd h (not_lt.2 (big i).le)

/-! ## C71 -/

/-- C71: for a QUAD4 none of whose corner values equals the tolerance in absolute value the classification never fails. -/
theorem C71_total {tol : ℝ} (h0 : 0 < tol) (h1 : tol < 1000000000000) {v : Fin 4 → ℝ} (hv : ∀ i, |v i| ≠ tol) (mid : ℝ) : ∃ c, initElem tol v [] mid = some c := by
  have ok := combOK_all (fun i => sg tol (v i)) (decide (mid * v 0 > 0))
  unfold combOK at ok
  rw [← initElem_comb h0 h1 hv] at ok
  cases h : initElem tol v [] mid with
  | none => rw [h] at ok; simp at ok
  | some c => exact ⟨c, rfl⟩

/-- C71: the nodes reported on the negative side are exactly the corners with a negative value, each listed once. -/
theorem C71_negative_corners (v : Fin 4 → ℝ) : (∀ i, i ∈ negativeCorners v ↔ v i < 0) ∧ (negativeCorners v).Nodup := by
  refine ⟨fun i => ?_, List.Nodup.filter _ (by decide)⟩
  simp only [negativeCorners, List.mem_filter, decide_eq_true_eq, and_iff_right_iff_imp]
  fin_cases i <;> simp

/-- C71: "entirely on the positive (negative) side" is reported exactly when all corner values are above the tolerance (below its negative); otherwise the element is
reported to have regions on both sides. -/
theorem C71_entirely {tol : ℝ} (h0 : 0 < tol) (h1 : tol < 1000000000000) {v : Fin 4 → ℝ} (hv : ∀ i, |v i| ≠ tol) {mid : ℝ} {c : Cut} (h : initElem tol v [] mid = some c) :
    (c.onPos = true ↔ ∀ i, tol < v i) ∧ (c.onNeg = true ↔ ∀ i, v i < -tol) ∧ (hasPos c = true ↔ ∃ i, ¬ v i < -tol) ∧ (hasNeg c = true ↔ ∃ i, ¬ tol < v i) := by
  have ok := combOK_all (fun i => sg tol (v i)) (decide (mid * v 0 > 0))
  unfold combOK at ok
  rw [← initElem_comb h0 h1 hv, h] at ok
  simp only [Bool.and_eq_true] at ok
  obtain ⟨⟨⟨⟨⟨⟨⟨⟨⟨⟨a1, a2⟩, a3⟩, a4⟩, -⟩, -⟩, -⟩, -⟩, -⟩, -⟩, -⟩ := ok
  have p : ([0, 1, 2, 3].all fun i => sg tol (v i) == 3) = true ↔ ∀ i, tol < v i := by
    simp only [List.all_eq_true, beq_iff_eq, sg_pos h0]
    constructor
    · intro hh i
      exact lt_of_le_of_ne (hh i (by fin_cases i <;> simp)) fun e => hv i (by rw [← e, abs_of_pos h0])
    · intro hh i _; exact (hh i).le
  have n : ([0, 1, 2, 3].all fun i => sg tol (v i) == 0) = true ↔ ∀ i, v i < -tol := by
    simp only [List.all_eq_true, beq_iff_eq, sg_neg h0]
    constructor
    · intro hh i
      exact lt_of_le_of_ne (hh i (by fin_cases i <;> simp)) fun e => hv i (by rw [e, abs_neg, abs_of_pos h0])
    · intro hh i _; exact (hh i).le
  have c1 : c.onPos = true ↔ ∀ i, tol < v i := by
    rw [← p]
    constructor
    · intro hh; simpa [hh] using a1
    · intro hh; simpa [hh] using a3
  have c2 : c.onNeg = true ↔ ∀ i, v i < -tol := by
    rw [← n]
    constructor
    · intro hh; simpa [hh] using a2
    · intro hh; simpa [hh] using a4
  refine ⟨c1, c2, ?_, ?_⟩
  · rw [hasPos, Bool.not_eq_true', ← Bool.not_eq_true, c2]; push Not; rfl
  · rw [hasNeg, Bool.not_eq_true', ← Bool.not_eq_true, c1]; push Not; rfl

/-- C71: the classification by sign, for all results: unless an edge lies on the level set while the other two corners are on opposite sides, or the element is
touched along its diagonal only, corners of sub-elements reported positive have values at least `-tol` and corners of sub-elements reported negative at most `tol`. -/
theorem C71_corner_sign_partial {tol : ℝ} (h0 : 0 < tol) (h1 : tol < 1000000000000) {v : Fin 4 → ℝ} (hv : ∀ i, |v i| ≠ tol) (hd : ¬ TouchingDiagonal tol v)
    (hc : ¬ ∃ i, |v i| < tol ∧ |v (i + 1)| < tol ∧ (∃ j, v j < -tol) ∧ ∃ j, tol < v j) {mid : ℝ} {c : Cut} (h : initElem tol v [] mid = some c) :
    (∀ s ∈ c.pos, ∀ i, Vtx.corner i ∈ s.verts → -tol ≤ v i) ∧ (∀ s ∈ c.neg, ∀ i, Vtx.corner i ∈ s.verts → v i ≤ tol) := by
  have ok := combOK_all (fun i => sg tol (v i)) (decide (mid * v 0 > 0))
  unfold combOK at ok
  rw [← initElem_comb h0 h1 hv, h] at ok
  simp only [Bool.and_eq_true] at ok
  obtain ⟨⟨⟨⟨⟨⟨-, a⟩, -⟩, -⟩, -⟩, -⟩, -⟩ := ok
  simp only [Bool.or_eq_true, Bool.and_eq_true] at a
  rcases a with (a | ⟨⟨a, b⟩, d⟩) | ⟨sp, sn⟩
  · exact absurd (touching_iff h0 hv a) hd
  · exfalso; apply hc
    simp only [colin, List.any_eq_true, Bool.and_eq_true] at a
    obtain ⟨i, -, i1, i2⟩ := a
    rw [(sg_near (hv _)).2, decide_eq_true_eq] at i1 i2
    simp only [List.any_eq_true, beq_iff_eq] at b d
    obtain ⟨j, -, hj⟩ := b
    obtain ⟨l, -, hl⟩ := d
    rw [sg_neg h0] at hj
    rw [sg_pos h0] at hl
    exact ⟨i, i1, i2, ⟨j, lt_of_le_of_ne hj fun e => hv j (by rw [e, abs_neg, abs_of_pos h0])⟩, ⟨l, lt_of_le_of_ne hl fun e => hv l (by rw [← e, abs_of_pos h0])⟩⟩
  · simp only [List.all_eq_true] at sp sn
    refine ⟨fun s hs i hi => ?_, fun s hs i hi => ?_⟩
    · have := sp s hs _ hi
      simp only [vtxSide, bne_iff_ne] at this
      exact (sg_cases h0 _).1 this
    · have := sn s hs _ hi
      simp only [vtxSide, bne_iff_ne] at this
      exact (sg_cases h0 _).2.1 this

/-- Pattern check behind `C71_colinear_fails`. -/
theorem colin_lit : ∀ (a b c d : Fin 4) (m : Bool), (colin ![a, b, c, d] && [0, 1, 2, 3].any fun i => ![a, b, c, d] i == 3) = true →
    ∃ i ∈ [0, 1, 2, 3], comb ![a, b, c, d] m = some ⟨.colinearEdge, [whole (some i)], [], [], [], false, false⟩ := by decide +kernel

/-- C71, finding: when one edge is on the level set and the two other corners are on opposite sides of it, the whole element is reported as positive and nothing as
negative, although the level set changes sign inside. -/
theorem C71_colinear_fails {tol : ℝ} (h0 : 0 < tol) (h1 : tol < 1000000000000) {v : Fin 4 → ℝ} (hv : ∀ i, |v i| ≠ tol) (i : Fin 4) (hi : |v i| < tol)
    (hi1 : |v (i + 1)| < tol) (p n : Fin 4) (hp : tol < v p) (_hn : v n < -tol) (mid : ℝ) :
    ∃ c, initElem tol v [] mid = some c ∧ c.neg = [] ∧ (∃ s ∈ c.pos, Vtx.corner n ∈ s.verts) := by
  have e : (fun i => sg tol (v i)) = ![sg tol (v 0), sg tol (v 1), sg tol (v 2), sg tol (v 3)] := by funext i; fin_cases i <;> rfl
  have hyp : (colin (fun i => sg tol (v i)) && [0, 1, 2, 3].any fun i => sg tol (v i) == 3) = true := by
    simp only [colin, Bool.and_eq_true, List.any_eq_true, beq_iff_eq]
    refine ⟨⟨i, by fin_cases i <;> simp, ?_, ?_⟩, p, by fin_cases p <;> simp, (sg_pos h0).2 hp.le⟩
    · rw [(sg_near (hv _)).2]; simpa using hi
    · rw [(sg_near (hv _)).2]; simpa using hi1
  have hyp' := hyp
  rw [show ([0, 1, 2, 3].any fun i => sg tol (v i) == 3) = ([0, 1, 2, 3].any fun i => (fun i => sg tol (v i)) i == 3) from rfl, e] at hyp'
  obtain ⟨k, -, hk⟩ := colin_lit _ _ _ _ (decide (mid * v 0 > 0)) hyp'
  rw [← e, ← initElem_comb h0 h1 hv] at hk
  refine ⟨_, hk, rfl, whole (some k), by simp, ?_⟩
  fin_cases n <;> simp [whole]

/-- C71, finding: a corner value equal to the tolerance counts as on the level set in one test and as off it in the next, and the intersection aborts. -/
theorem C71_tolerance_fails {tol : ℝ} (h0 : 0 < tol) (h1 : tol < 1) (mid : ℝ) : initElem tol ![tol, -1, -1, 1] [] mid = none := by
  have a : |tol| = tol := abs_of_pos h0
  have mn : minVal [tol, -1, -1, 1] = -1 := by
    simp only [minVal, List.foldl]
    have c1 : (1000000000000 : ℝ) > tol := by linarith
    have c2 : tol > -1 := by linarith
    simp only [c1, c2, if_true]; norm_num
  have mx : maxVal [tol, -1, -1, 1] = 1 := by
    simp only [maxVal, List.foldl]
    have c1 : (-1000000000000 : ℝ) < tol := by linarith
    have c2 : ¬ tol < -1 := by linarith
    simp only [c1, c2, if_true, if_false, h1]
  have n1 : ¬ (1 : ℝ) ≤ tol := not_le.2 h1
  have n2 : ¬ (1 : ℝ) < tol := by linarith
  have n3 : ¬ (-1 : ℝ) > tol := by linarith
  have n4 : ¬ (1 : ℝ) < -tol := by linarith
  have v0 : ![tol, -1, -1, 1] (0 : Fin 4) = tol := rfl
  have v1 : ![tol, -1, -1, 1] (1 : Fin 4) = -1 := rfl
  have v2 : ![tol, -1, -1, 1] (2 : Fin 4) = -1 := rfl
  have v3 : ![tol, -1, -1, 1] (3 : Fin 4) = 1 := rfl
  have hnode : nodeHit tol ![tol, -1, -1, 1] = ![false, false, false, false] := by
    funext i; fin_cases i <;> simp [nodeHit, a, n2]
  have hside : sideHit tol ![tol, -1, -1, 1] = ![false, false, true, false] := by
    funext i; fin_cases i
    · show sideHit tol _ 0 = false; simp [sideHit, v0, a]
    · show sideHit tol _ 1 = false; simp [sideHit, v1, v2, show (1 : Fin 4) + 1 = 2 from rfl]
    · show sideHit tol _ 2 = true; simp [sideHit, v2, v3, hnode, show (2 : Fin 4) + 1 = 3 from rfl, h1]
    · show sideHit tol _ 3 = false; simp [sideHit, v3, v0, show (3 : Fin 4) + 1 = 0 from rfl, a]
  unfold initElem
  simp only [nodeVals, List.append_nil, v0, v1, v2, v3, mn, mx]
  rw [if_neg n3, if_neg n4]
  have sc : signChange tol (-1) 1 = true := by simp [signChange, n2]
  have cl : colinearSide tol ![tol, -1, -1, 1] = none := by
    simp [colinearSide, v0, v1, v2, v3, a, n1, show (1 : Fin 4) + 1 = 2 from rfl, show (2 : Fin 4) + 1 = 3 from rfl, show (3 : Fin 4) + 1 = 0 from rfl]
  simp only [sc, cl, Bool.not_true, Bool.and_false, Bool.false_eq_true, if_false]
  unfold quad4
  rw [hnode, hside]
  generalize decide (mid * ![tol, -1, -1, 1] 0 > 0) = m
  have : chooseMode ![false, false, true, false] ![false, false, false, false] m = (.noIntersection, 0, 0) := by cases m <;> decide +kernel
  rw [this]
  rfl

/-- C71, finding: a QUAD9 all of whose corners are positive while another node is negative (a small void inside the element or at an edge) is not classified:
the intersection aborts. -/
theorem C71_quad9_fails {tol : ℝ} (h0 : 0 < tol) {v : Fin 4 → ℝ} (hv : ∀ i, tol < v i) {extra : List ℝ} {w : ℝ} (hw : w ∈ extra) (hneg : w < -tol) (mid : ℝ) :
    initElem tol v extra mid = none := by
  have mnle : ∀ (l : List ℝ) (a : ℝ), l.foldl (fun m x => if m > x then x else m) a ≤ a ∧ ∀ x ∈ l, l.foldl (fun m x => if m > x then x else m) a ≤ x := by
    intro l
    induction l with
    | nil => intro a; simp
    | cons b l ih =>
      intro a
      rw [List.foldl_cons]
      have h := ih (if a > b then b else a)
      have hb : (if a > b then b else a) ≤ b ∧ (if a > b then b else a) ≤ a := by split <;> constructor <;> linarith
      refine ⟨le_trans h.1 hb.2, fun x hx => ?_⟩
      rcases List.mem_cons.1 hx with rfl | hx
      · exact le_trans h.1 hb.1
      · exact h.2 x hx
  have mxge : ∀ (l : List ℝ) (a : ℝ), a ≤ l.foldl (fun m x => if m < x then x else m) a ∧ ∀ x ∈ l, x ≤ l.foldl (fun m x => if m < x then x else m) a := by
    intro l
    induction l with
    | nil => intro a; simp
    | cons b l ih =>
      intro a
      rw [List.foldl_cons]
      have h := ih (if a < b then b else a)
      have hb : b ≤ (if a < b then b else a) ∧ a ≤ (if a < b then b else a) := by split <;> constructor <;> linarith
      refine ⟨le_trans hb.2 h.1, fun x hx => ?_⟩
      rcases List.mem_cons.1 hx with rfl | hx
      · exact le_trans hb.1 h.1
      · exact h.2 x hx
  have nearF : ∀ i, ¬ |v i| ≤ tol := fun i => not_le.2 (lt_abs.2 (Or.inl (hv i)))
  have nearF' : ∀ i, ¬ |v i| < tol := fun i h => nearF i h.le
  have mn : minVal (nodeVals v extra) ≤ w := (mnle _ _).2 w (by simp [nodeVals, hw])
  have mx : v 0 ≤ maxVal (nodeVals v extra) := (mxge _ _).2 (v 0) (by simp [nodeVals])
  unfold initElem
  simp only
  rw [if_neg (by linarith), if_neg (by linarith [hv 0])]
  have on : nOnSet tol v = 0 := by simp [nOnSet, nearF]
  have cl : colinearSide tol v = none := by simp [colinearSide, nearF]
  simp only [on, cl, Nat.zero_ne_one, decide_false, Bool.false_and, Bool.false_eq_true, if_false]
  have hnode : nodeHit tol v = ![false, false, false, false] := by
    funext i; fin_cases i <;> simp [nodeHit, nearF']
  have hside : sideHit tol v = ![false, false, false, false] := by
    funext i
    have : sideHit tol v i = false := by
      simp only [sideHit, Bool.and_eq_false_iff, decide_eq_false_iff_not]
      right; exact not_lt.2 (mul_nonneg (by linarith [hv i]) (by linarith [hv (i + 1)]))
    rw [this]; fin_cases i <;> rfl
  unfold quad4
  rw [hnode, hside]
  generalize decide (mid * v 0 > 0) = m
  have : chooseMode ![false, false, false, false] ![false, false, false, false] m = (.noIntersection, 0, 0) := by cases m <;> decide +kernel
  rw [this]
  rfl

/-- C71: the sides reported as lying on material are exactly those with no end below `-tol`. -/
theorem C71_material_sides {tol : ℝ} (h0 : 0 < tol) (v : Fin 4 → ℝ) (i : Fin 4) : i ∈ materialSides tol v ↔ -tol ≤ v i ∧ -tol ≤ v (i + 1) := by
  have key : ∀ x : ℝ, (|x| ≤ tol ∨ x > tol) ↔ -tol ≤ x := fun x => by
    constructor
    · rintro (h | h)
      · exact (abs_le.1 h).1
      · linarith
    · intro h
      rcases le_or_gt x tol with h2 | h2
      · exact Or.inl (abs_le.2 ⟨h, h2⟩)
      · exact Or.inr h2
  simp only [materialSides, List.mem_filter, Bool.and_eq_true, Bool.or_eq_true, decide_eq_true_eq, key]
  constructor
  · exact fun h => h.2
  · exact fun h => ⟨by fin_cases i <;> simp, h⟩

/-- Non-vacuity for C71: values 0, 1, 1, 1 (through a node), and the values of the findings. -/
example : (∀ i : Fin 4, |(![0, 1, 1, 1] : Fin 4 → ℝ) i| ≠ 1 / 2) ∧ ¬ TouchingDiagonal (1 / 2) ![0, 1, 1, 1] := by
  constructor
  · intro i; fin_cases i <;> norm_num
  · rintro ⟨i, a, b, -⟩
    fin_cases i
    · revert b; show |(1 : ℝ)| < 1 / 2 → False; norm_num
    · revert a; show |(1 : ℝ)| < 1 / 2 → False; norm_num
    · revert a; show |(1 : ℝ)| < 1 / 2 → False; norm_num
    · revert a; show |(1 : ℝ)| < 1 / 2 → False; norm_num
example : ∀ i : Fin 4, |(![0, 0, 1, -1] : Fin 4 → ℝ) i| ≠ 1 / 2 := by intro i; fin_cases i <;> norm_num

/-! ## C82: interface sides -/

/-- C82: the side of a sub-element reported as lying on the interface joins two vertices at which the level set is within the tolerance, provided the searches
converged. Covers cut elements and elements with an edge on the level set. -/
theorem C82_interface_side {phi : Pt → ℝ} {tol : ℝ} (h0 : 0 < tol) (h1 : tol < 10000000000) {P : Fin 4 → Pt} (hv : ∀ i, |phi (P i)| ≠ tol) {k : Nat}
    (hc : Converged phi tol (k + 1) P) {c : Cut} (h : initQuad phi tol P = some c) {s : Sub} (hs : s ∈ c.pos ++ c.neg) {j : Nat} (hj : s.iface = some j) :
    ∃ p q, (subPts P (xi phi tol (k + 1) P) c s)[j]? = some p ∧ (subPts P (xi phi tol (k + 1) P) c s)[(j + 1) % s.verts.length]? = some q ∧
      |phi p| ≤ tol ∧ |phi q| ≤ tol := by
  obtain ⟨m, e, ok⟩ := initQuad_ok h0 h1 hv
  unfold combOK at ok
  rw [← e, h] at ok
  simp only [Bool.and_eq_true] at ok
  obtain ⟨⟨⟨⟨⟨-, a⟩, b⟩, -⟩, -⟩, -⟩ := ok
  have key : ifaceOn (fun i => sg tol (phi (P i))) c s = true := by
    by_cases ht : through c = true
    · simp only [ht, Bool.not_true, Bool.false_or, Bool.and_eq_true, List.all_eq_true] at a
      exact a.1.1.1 s hs
    · simp only [Bool.or_eq_true, ht, false_or, beq_iff_eq, Bool.and_eq_true, List.all_eq_true] at b
      rcases b with (b | b) | b
      · exact absurd b (by simp)
      · rw [b] at hs
        simp only [List.mem_singleton] at hs
        rw [hs] at hj
        simp [whole] at hj
      · exact b.1.2 s hs
  unfold ifaceOn at key
  rw [hj] at key
  simp only at key
  cases ha : s.verts[j]? with
  | none => rw [ha] at key; simp at key
  | some va =>
    cases hb : s.verts[(j + 1) % s.verts.length]? with
    | none => rw [ha, hb] at key; simp at key
    | some vb =>
      rw [ha, hb] at key
      simp only [Bool.and_eq_true] at key
      refine ⟨vtxPos P (xi phi tol (k + 1) P) c va, vtxPos P (xi phi tol (k + 1) P) c vb, ?_, ?_, vtxOn_phi h0 h1 hv hc key.1, vtxOn_phi h0 h1 hv hc key.2⟩
      · rw [subPts, List.getElem?_map, ha]; rfl
      · rw [subPts, List.getElem?_map, hb]; rfl

/-- The vertices at the ends of the interface side of a sub-element, in its orientation. -/
def ifaceEnds (s : Sub) : Option (Option Vtx × Option Vtx) := s.iface.map fun j => (s.verts[j]?, s.verts[(j + 1) % s.verts.length]?)

/-- Pattern check behind `C82_interface_matched`. -/
def matchOK (side node : Fin 4 → Bool) (mid p : Bool) : Bool :=
  let m := chooseMode side node mid
  match build m.1 m.2.1 m.2.2 fun _ => p with
  | none => true
  | some c =>
    (c.pos.filterMap ifaceEnds).all (fun e => (c.neg.filterMap ifaceEnds).contains (e.2, e.1)) &&
    (c.neg.filterMap ifaceEnds).all (fun e => (c.pos.filterMap ifaceEnds).contains (e.2, e.1)) &&
    !(c.pos.filterMap ifaceEnds).isEmpty && ((c.pos ++ c.neg).filterMap ifaceEnds).all fun e => e.1.isSome && e.2.isSome

theorem matchOK_lit : ∀ a b c d e f g h mid p : Bool, matchOK ![a, b, c, d] ![e, f, g, h] mid p = true := by decide +kernel

/-- C82: on a cut element the interface sides of the positive sub-elements are, with opposite orientation, those of the negative ones, and there is at least one: the two
sides of the interface are covered by the same segments. -/
theorem C82_interface_matched {tol : ℝ} {v : Fin 4 → ℝ} {extra : List ℝ} {mid : ℝ} {c : Cut} (h : initElem tol v extra mid = some c) (ht : through c = true) :
    (∀ s ∈ c.pos, ∀ a b, ifaceEnds s = some (a, b) → ∃ t ∈ c.neg, ifaceEnds t = some (b, a)) ∧
    (∀ t ∈ c.neg, ∀ a b, ifaceEnds t = some (a, b) → ∃ s ∈ c.pos, ifaceEnds s = some (b, a)) ∧
    ∃ s ∈ c.pos, ∃ a b, ifaceEnds s = some (some a, some b) := by
  have h := through_quad4 h ht
  unfold quad4 at h
  simp only at h
  obtain ⟨p, hp⟩ := build_const (chooseMode (sideHit tol v) (nodeHit tol v) (decide (mid * v 0 > 0))).1
    (chooseMode (sideHit tol v) (nodeHit tol v) (decide (mid * v 0 > 0))).2.1 (chooseMode (sideHit tol v) (nodeHit tol v) (decide (mid * v 0 > 0))).2.2
    fun i => decide (v i > 0)
  have e : ∀ s : Fin 4 → Bool, s = ![s 0, s 1, s 2, s 3] := fun s => by funext i; fin_cases i <;> rfl
  have ok : matchOK (sideHit tol v) (nodeHit tol v) (decide (mid * v 0 > 0)) p = true := by
    rw [e (sideHit tol v), e (nodeHit tol v)]; exact matchOK_lit _ _ _ _ _ _ _ _ _ p
  unfold matchOK at ok
  simp only [← hp, h, Bool.and_eq_true, List.all_eq_true, List.contains_iff_mem, List.mem_filterMap, Bool.not_eq_true', List.isEmpty_eq_false_iff_exists_mem] at ok
  obtain ⟨⟨⟨o1, o2⟩, ⟨q, s, hs, hq⟩⟩, o4⟩ := ok
  refine ⟨fun s hs a b hab => o1 (a, b) ⟨s, hs, hab⟩, fun s hs a b hab => o2 (a, b) ⟨s, hs, hab⟩, s, hs, ?_⟩
  have := o4 q ⟨s, List.mem_append_left _ hs, hq⟩
  obtain ⟨a, ha⟩ := Option.isSome_iff_exists.mp this.1
  obtain ⟨b, hb⟩ := Option.isSome_iff_exists.mp this.2
  exact ⟨a, b, by rw [hq, ← ha, ← hb]⟩

/-- Pattern check behind `C82_colinear_side`. -/
theorem colinear_lit : ∀ (a b c d : Fin 4) (m : Bool), colin ![a, b, c, d] = true → (match comb ![a, b, c, d] m with
    | none => false
    | some k => [0, 1, 2, 3].any fun j : Fin 4 => near (![a, b, c, d] j) && near (![a, b, c, d] (j + 1)) && decide (k.pos ++ k.neg = [whole (some j.val)])) = true := by decide +kernel

/-- C82: if the two ends of a side are on the level set the element itself is the only sub-element and reports such a side as its interface. -/
theorem C82_colinear_side {tol : ℝ} (h0 : 0 < tol) (h1 : tol < 1000000000000) {v : Fin 4 → ℝ} (hv : ∀ i, |v i| ≠ tol) (i : Fin 4) (hi : |v i| < tol)
    (hi1 : |v (i + 1)| < tol) (mid : ℝ) : ∃ c j, initElem tol v [] mid = some c ∧ |v j| < tol ∧ |v (j + 1)| < tol ∧
      c.pos ++ c.neg = [⟨[.corner 0, .corner 1, .corner 2, .corner 3], some j.val⟩] := by
  have e : (fun i => sg tol (v i)) = ![sg tol (v 0), sg tol (v 1), sg tol (v 2), sg tol (v 3)] := by funext i; fin_cases i <;> rfl
  have hn : ∀ i, near (sg tol (v i)) = true ↔ |v i| < tol := by intro i; rw [(sg_near (hv i)).2]; simp
  have hyp : colin (fun i => sg tol (v i)) = true := by
    simp only [colin, Bool.and_eq_true, List.any_eq_true]
    exact ⟨i, by fin_cases i <;> simp, (hn _).2 hi, (hn _).2 hi1⟩
  rw [e] at hyp
  have l := colinear_lit _ _ _ _ (decide (mid * v 0 > 0)) hyp
  rw [← e, ← initElem_comb h0 h1 hv] at l
  cases hc : initElem tol v [] mid with
  | none => rw [hc] at l; simp at l
  | some c =>
    rw [hc] at l
    simp only [List.any_eq_true, Bool.and_eq_true, decide_eq_true_eq, hn] at l
    obtain ⟨j, -, ⟨a, b⟩, d⟩ := l
    exact ⟨c, j, rfl, a, b, d⟩

/-- Non-vacuity: the cut of values -1, 1, 1, 1 is through the element; values 0, 0, 1, 1 have a side on the level set. -/
example : ∃ c, initElem (1 / 2) ![-1, 1, 1, 1] [] 1 = some c ∧ through c = true := by
  obtain ⟨c, hc⟩ := C71_total (tol := 1 / 2) (v := ![-1, 1, 1, 1]) (by norm_num) (by norm_num) (by intro i; fin_cases i <;> norm_num) 1
  refine ⟨c, hc, ?_⟩
  have e : (fun i => sg (1 / 2) ((![-1, 1, 1, 1] : Fin 4 → ℝ) i)) = ![0, 3, 3, 3] := by
    obtain ⟨a, b, -⟩ := sg_one (tol := 1 / 2) (by norm_num) (by norm_num)
    funext i; fin_cases i
    · exact b
    · exact a
    · exact a
    · exact a
  rw [initElem_comb (by norm_num) (by norm_num) (by intro i; fin_cases i <;> norm_num), e] at hc
  have : ∀ m : Bool, (comb ![0, 3, 3, 3] m).all through = true := by decide +kernel
  have q := this (decide ((1 : ℝ) * (![-1, 1, 1, 1] : Fin 4 → ℝ) 0 > 0))
  rw [hc] at q
  exact q
example : ∀ i : Fin 4, |(![0, 0, 1, 1] : Fin 4 → ℝ) i| ≠ 1 / 2 := by intro i; fin_cases i <;> norm_num

/-! ## C83: local coordinates of new nodes -/

/-- The bilinear map of a QUAD4 from the reference square. -/
noncomputable def bilinear (P : Fin 4 → Pt) (q : Pt) : Pt :=
  ((1 - q 0) * (1 - q 1) / 4) • P 0 + ((1 + q 0) * (1 - q 1) / 4) • P 1 + ((1 + q 0) * (1 + q 1) / 4) • P 2 + ((1 - q 0) * (1 + q 1) / 4) • P 3

/-- C83: the nondimensional coordinates stored for a new node are mapped onto the node by the element map, whatever the element and the fractions; likewise for
the corners. -/
theorem C83_local_coordinates (P : Fin 4 → Pt) (x : Fin 4 → ℝ) (n : NewNode) : bilinear P (nodeLocal x n) = nodePos P x n := by
  obtain ⟨s, z, f⟩ := n
  have r0 : refCorner 0 = ![-1, -1] := rfl
  have r1 : refCorner 1 = ![1, -1] := rfl
  have r2 : refCorner 2 = ![1, 1] := rfl
  have r3 : refCorner 3 = ![-1, 1] := rfl
  have e : ∀ i, (P : Fin 4 → Pt) i = P i := fun _ => rfl
  funext w
  fin_cases s <;> cases f <;>
    simp [bilinear, nodeLocal, nodePos, r0, r1, r2, r3, show (1 : Fin 4) + 1 = 2 from rfl, show (2 : Fin 4) + 1 = 3 from rfl, show (3 : Fin 4) + 1 = 0 from rfl] <;> ring

theorem C83_corner_coordinates (P : Fin 4 → Pt) (i : Fin 4) : bilinear P (refCorner i) = P i := by
  funext w
  fin_cases i <;> simp [bilinear, refCorner] <;> ring

/-- C83: and they are inside the reference square. -/
theorem C83_inside {x : Fin 4 → ℝ} (hx : InUnit x) (n : NewNode) (w : Fin 2) : -1 ≤ nodeLocal x n w ∧ nodeLocal x n w ≤ 1 := by
  obtain ⟨s, z, f⟩ := n
  have r0 : refCorner 0 = ![-1, -1] := rfl
  have r1 : refCorner 1 = ![1, -1] := rfl
  have r2 : refCorner 2 = ![1, 1] := rfl
  have r3 : refCorner 3 = ![-1, 1] := rfl
  have u := hx z
  fin_cases s <;> cases f <;> fin_cases w <;>
    simp [nodeLocal, nodePos, r0, r1, r2, r3, show (1 : Fin 4) + 1 = 2 from rfl, show (2 : Fin 4) + 1 = 3 from rfl, show (3 : Fin 4) + 1 = 0 from rfl] <;>
    constructor <;> linarith [u.1, u.2]

/-! ## C73: numbering -/

/-- C73: ids of the sub-elements of different elements are different, also from the ids in use in the mesh (all below `maxElem`). -/
theorem C73_elem_ids (maxElem e1 e2 n1 n2 : Nat) (hne : e1 ≠ e2) (h1 : n1 ≤ 4) (h2 : n2 ≤ 4) :
    (subElemIds maxElem e1 n1).Nodup ∧ List.Disjoint (subElemIds maxElem e1 n1) (subElemIds maxElem e2 n2) ∧ ∀ i ∈ subElemIds maxElem e1 n1, maxElem ≤ i := by
  unfold subElemIds
  refine ⟨(List.nodup_range).map (fun a b h => by simpa using h), ?_, ?_⟩
  · intro i a b
    simp only [List.mem_map, List.mem_range] at a b
    obtain ⟨p, hp, rfl⟩ := a
    obtain ⟨q, hq, hh⟩ := b
    omega
  · intro i a
    simp only [List.mem_map, List.mem_range] at a
    obtain ⟨p, hp, rfl⟩ := a
    omega

/-- C73: an element never has more sub-elements than ids are set aside for it. -/
theorem C73_elem_count {tol : ℝ} {v : Fin 4 → ℝ} {extra : List ℝ} {mid : ℝ} {c : Cut} (h : initElem tol v extra mid = some c) (ht : through c = true) :
    (c.pos ++ c.neg).length ≤ 4 ∧ c.newNodes.length ≤ 4 :=
  (quad4_facts (through_quad4 h ht)).2.2

/-- C73: nodes created for one element get different ids, above those of the mesh. -/
theorem C73_node_ids_partial (maxNode n : Nat) : (newNodeIds maxNode n).Nodup ∧ ∀ i ∈ newNodeIds maxNode n, maxNode < i := by
  unfold newNodeIds
  refine ⟨(List.nodup_range).map (fun a b h => by simpa using h), fun i a => ?_⟩
  simp only [List.mem_map, List.mem_range] at a
  obtain ⟨p, hp, rfl⟩ := a
  omega

/-- C73, finding: but the numbering starts anew for every element, so the first new nodes of any two cut elements of a mesh have the same id. -/
theorem C73_node_ids_fails (maxNode n1 n2 : Nat) (h1 : 0 < n1) (h2 : 0 < n2) : ∃ i, i ∈ newNodeIds maxNode n1 ∧ i ∈ newNodeIds maxNode n2 := by
  refine ⟨maxNode + 1, ?_, ?_⟩ <;> simp only [newNodeIds, List.mem_map, List.mem_range]
  · exact ⟨0, h1, rfl⟩
  · exact ⟨0, h2, rfl⟩

end Verif.CutCell
