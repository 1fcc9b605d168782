import Verif.Model.Nearest
import Verif.Props.CutCell
import Mathlib.Analysis.Calculus.Deriv.Prod
import Mathlib.Analysis.Calculus.Deriv.Add
import Mathlib.Analysis.Calculus.Deriv.Mul
import Mathlib.Tactic.LinearCombination
import Mathlib.Tactic.NormNum
/-
  C191: the interface point used by the shifted traction.
-/
namespace Verif.Nearest
open CutCell

/-! ## Specification -/

/-- A point of the boundary of the quad. -/
def OnBoundary (P : Fin 4 → Pt) (q : Pt) : Prop := ∃ (i : Fin 4) (s : ℝ), 0 ≤ s ∧ s ≤ 1 ∧ q = P i + s • (P (i + 1) - P i)

/-- A point at which the level set meets the boundary of the quad: a corner within the tolerance, or a zero inside a side whose ends are not. -/
def Meets (phi : Pt → ℝ) (tol : ℝ) (P : Fin 4 → Pt) (q : Pt) : Prop :=
  (∃ i, q = P i ∧ |phi q| ≤ tol) ∨
    ∃ (i : Fin 4) (s : ℝ), 0 ≤ s ∧ s ≤ 1 ∧ q = P i + s • (P (i + 1) - P i) ∧ phi q = 0 ∧ tol < |phi (P i)| ∧ tol < |phi (P (i + 1))|

/-- No side of the quad has both ends on the level set. -/
def NoSideOn (phi : Pt → ℝ) (tol : ℝ) (P : Fin 4 → Pt) : Prop := ∀ i, ¬ (|phi (P i)| ≤ tol ∧ |phi (P (i + 1))| ≤ tol)

/-- Distance of two points. -/
noncomputable def dist2 (p q : Pt) : ℝ := norm2 (q - p)

/-! ## the loops -/

theorem closer_le (p : Pt) (b : Pt × ℝ) (q : Pt) : (closer p b q).2 ≤ b.2 ∧ (closer p b q).2 ≤ dist2 p q ∧
    (closer p b q = b ∨ closer p b q = (q, dist2 p q)) := by
  unfold closer dist2
  split_ifs with h
  · exact ⟨h.le, le_refl _, Or.inr rfl⟩
  · exact ⟨le_refl _, not_lt.1 h, Or.inl rfl⟩

theorem scan_spec (p : Pt) (l : List (Pt × Bool)) (b : Pt × ℝ) : (scan p l b).2 ≤ b.2 ∧ (∀ q, (q, true) ∈ l → (scan p l b).2 ≤ dist2 p q) ∧
    (scan p l b = b ∨ ∃ q, (q, true) ∈ l ∧ scan p l b = (q, dist2 p q)) := by
  induction l generalizing b with
  | nil => exact ⟨le_refl _, fun q h => absurd h (by simp), Or.inl rfl⟩
  | cons a l ih =>
    obtain ⟨a, f⟩ := a
    cases f with
    | false =>
      have e : scan p ((a, false) :: l) b = scan p l b := by simp [scan]
      rw [e]
      obtain ⟨h1, h2, h3⟩ := ih b
      refine ⟨h1, fun q hq => ?_, ?_⟩
      · rcases List.mem_cons.1 hq with h | h
        · simp at h
        · exact h2 q h
      · rcases h3 with h | ⟨q, hq, h⟩
        · exact Or.inl h
        · exact Or.inr ⟨q, List.mem_cons_of_mem _ hq, h⟩
    | true =>
      have e : scan p ((a, true) :: l) b = scan p l (closer p b a) := by simp [scan]
      rw [e]
      obtain ⟨h1, h2, h3⟩ := ih (closer p b a)
      obtain ⟨c1, c2, c3⟩ := closer_le p b a
      refine ⟨h1.trans c1, fun q hq => ?_, ?_⟩
      · rcases List.mem_cons.1 hq with h | h
        · rw [show q = a from (Prod.mk.inj h).1]; exact h1.trans c2
        · exact h2 q h
      · rcases h3 with h | ⟨q, hq, h⟩
        · rcases c3 with c | c
          · exact Or.inl (h.trans c)
          · exact Or.inr ⟨a, by simp, h.trans c⟩
        · exact Or.inr ⟨q, List.mem_cons_of_mem _ hq, h⟩

theorem nearest_spec (tol : ℝ) (phi0 : Pt → ℝ) (nodes : List (Pt × Bool)) (news : List Pt) (p pt : Pt) :
    let r := nearestPoint tol phi0 nodes news p pt
    let cand := fun q => (q, true) ∈ nodes ∨ (q ∈ news ∧ |phi0 q| ≤ tol)
    (cand r ∧ ∀ q, cand q → dist2 p r ≤ dist2 p q) ∨ (r = pt ∧ ∀ q, cand q → 1000000000000 ≤ dist2 p q) := by
  intro r cand
  obtain ⟨a1, a2, a3⟩ := scan_spec p nodes (pt, 1000000000000)
  obtain ⟨b1, b2, b3⟩ := scan_spec p (news.map fun q => (q, decide (|phi0 q| ≤ tol))) (scan p nodes (pt, 1000000000000))
  have hall : ∀ q, cand q → (scan p (news.map fun q => (q, decide (|phi0 q| ≤ tol))) (scan p nodes (pt, 1000000000000))).2 ≤ dist2 p q := by
    intro q hq
    rcases hq with h | ⟨h, h'⟩
    · exact b1.trans (a2 q h)
    · exact b2 q (List.mem_map.2 ⟨q, h, by simp [h']⟩)
  have hr : r = (scan p (news.map fun q => (q, decide (|phi0 q| ≤ tol))) (scan p nodes (pt, 1000000000000))).1 := rfl
  rcases b3 with b | ⟨q, hq, b⟩
  · rw [b] at hr hall
    rcases a3 with a | ⟨q, hq, a⟩
    · rw [a] at hr hall
      exact Or.inr ⟨hr, hall⟩
    · rw [a] at hr hall
      refine Or.inl ⟨by rw [hr]; exact Or.inl hq, ?_⟩
      rw [hr]; exact hall
  · rw [b] at hr hall
    refine Or.inl ⟨?_, by rw [hr]; exact hall⟩
    rw [hr]
    obtain ⟨x, hx, e⟩ := List.mem_map.1 hq
    obtain ⟨rfl, e2⟩ := Prod.mk.inj e
    exact Or.inr ⟨hx, by simpa using e2⟩

/-! ## the nodes of the cut -/

/-- Every side with a clear change of sign carries a new node, unless some side lies on the level set. -/
def hitOK (s : Fin 4 → Fin 4) (m : Bool) : Bool :=
  colin s || match comb s m with
    | none => false
    | some c => [0, 1, 2, 3].all fun i => !cside s i || c.newNodes.contains { side := i, xiSide := i, fromEnd := false }

theorem hitOK_lit : ∀ (a b c d : Fin 4) (m : Bool), hitOK ![a, b, c, d] m = true := by decide +kernel

theorem hitOK_all (s : Fin 4 → Fin 4) (m : Bool) : hitOK s m = true := by
  have : s = ![s 0, s 1, s 2, s 3] := by funext i; fin_cases i <;> rfl
  rw [this]
  exact hitOK_lit _ _ _ _ m

theorem colin_false {phi : Pt → ℝ} {tol : ℝ} {P : Fin 4 → Pt} (hv : ∀ i, |phi (P i)| ≠ tol) (h : NoSideOn phi tol P) :
    colin (fun i => sg tol (phi (P i))) = false := by
  rw [Bool.eq_false_iff]
  intro hc
  simp only [colin, List.any_eq_true, Bool.and_eq_true] at hc
  obtain ⟨i, -, a, b⟩ := hc
  rw [(sg_near (hv _)).1] at a b
  exact h i ⟨by simpa using a, by simpa using b⟩

theorem nodePos_boundary (P : Fin 4 → Pt) {x : Fin 4 → ℝ} (hx : InUnit x) (n : NewNode) : OnBoundary P (nodePos P x n) := by
  unfold nodePos
  split_ifs with h
  · refine ⟨n.side, 1 - x n.xiSide, by linarith [(hx n.xiSide).2], by linarith [(hx n.xiSide).1], ?_⟩
    funext k
    simp only [Pi.add_apply, Pi.smul_apply, Pi.sub_apply, smul_eq_mul]
    ring
  · exact ⟨n.side, x n.xiSide, (hx _).1, (hx _).2, rfl⟩

/-! ## C191 -/

/-- C191: the point returned for a side next to an element cut by the level set lies on the boundary of that element, meets the level set within the tolerance
and is the nearest of all points where the level set meets the boundary of the element; for level sets that are affine along the edges at the time 0, elements
none of whose sides lies on the level set, no corner value exactly at the tolerance and points closer than 1e12. What is missing: the point of the
interface inside the element nearest to the given one, and the actual time. -/
theorem C191_nearest_partial (phi : ℝ → Pt → ℝ) {tol : ℝ} (h0 : 0 < tol) (h1 : tol < 10000000000) {P : Fin 4 → Pt} (ha : EdgeAffine (phi 0) P)
    (hv : ∀ i, |phi 0 (P i)| ≠ tol) (hs : NoSideOn (phi 0) tol P) (order : List (Fin 4)) (ho : ∀ i, i ∈ order) (k : Nat) (p : Pt) (t : ℝ)
    (hm : ∃ q, Meets (phi 0) tol P q ∧ dist2 p q < 1000000000000) :
    ∃ r, searchNearest phi tol (k + 2) order P p t = some r ∧ OnBoundary P r ∧ |phi 0 r| ≤ tol ∧ ∀ q, Meets (phi 0) tol P q → dist2 p r ≤ dist2 p q := by
  obtain ⟨m, e, -⟩ := initQuad_ok h0 h1 hv
  have ok := hitOK_all (fun i => sg tol (phi 0 (P i))) m
  unfold hitOK at ok
  rw [colin_false hv hs, Bool.false_or, ← e] at ok
  cases hc : initQuad (phi 0) tol P with
  | none => rw [hc] at ok; simp at ok
  | some c =>
    rw [hc] at ok
    simp only [List.all_eq_true, Bool.or_eq_true, Bool.not_eq_true', List.contains_iff_mem] at ok
    refine ⟨nearestPoint tol (phi 0) (nodeFlags (phi 0) tol P order) (newPts (phi 0) tol (k + 2) P c) p 0, by unfold searchNearest; rw [hc]; rfl, ?_⟩
    have hmem : ∀ q, Meets (phi 0) tol P q → (q, true) ∈ nodeFlags (phi 0) tol P order ∨ (q ∈ newPts (phi 0) tol (k + 2) P c ∧ |phi 0 q| ≤ tol) := by
      rintro q (⟨i, rfl, hi⟩ | ⟨i, s, s0, s1, rfl, hz, t0, t1⟩)
      · exact Or.inl (List.mem_map.2 ⟨i, ho i, by simp [hi]⟩)
      · right
        have hz' := ha i s
        rw [hz] at hz'
        have hneg : phi 0 (P i) * phi 0 (P (i + 1)) < 0 := by
          have hne0 : phi 0 (P i) ≠ 0 := fun h => by rw [h, abs_zero] at t0; linarith
          have hne1 : phi 0 (P (i + 1)) ≠ 0 := fun h => by rw [h, abs_zero] at t1; linarith
          have hz2 : (1 - s) * phi 0 (P i) + s * phi 0 (P (i + 1)) = 0 := by linarith
          rcases lt_or_gt_of_ne hne0 with a | a <;> rcases lt_or_gt_of_ne hne1 with b | b
          · exfalso
            rcases eq_or_lt_of_le s0 with e | e
            · rw [← e] at hz2; linarith
            · have := mul_neg_of_pos_of_neg e b
              have := mul_nonpos_of_nonneg_of_nonpos (sub_nonneg.2 s1) a.le
              linarith
          · exact mul_neg_of_neg_of_pos a b
          · exact mul_neg_of_pos_of_neg a b
          · exfalso
            rcases eq_or_lt_of_le s0 with e | e
            · rw [← e] at hz2; linarith
            · have := mul_pos e b
              have := mul_nonneg (sub_nonneg.2 s1) a.le
              linarith
        have hcs : cside (fun i => sg tol (phi 0 (P i))) i = true := by
          refine (sideHit_sg h0 hv i).symm.trans ?_
          simp [sideHit, nodeHit, t0, t1, hneg, not_lt.2 t0.le]
        have hi : i ∈ [0, 1, 2, 3] := by fin_cases i <;> simp
        rcases ok i hi with h | h
        · rw [hcs] at h; simp at h
        · have hx := (cside_hit h0 hv hcs (k + 2)).2
          have hl := (C72_linear (phi 0) h0.le h1 (k + 1) hneg (ha i)).1
          rw [show k + 1 + 1 = k + 2 from rfl, ← hx] at hl
          have hl' := ha i (xi (phi 0) tol (k + 2) P i)
          rw [hl] at hl'
          have hss : s = xi (phi 0) tol (k + 2) P i := by
            have hd : phi 0 (P (i + 1)) - phi 0 (P i) ≠ 0 := by
              intro h; have : phi 0 (P (i + 1)) = phi 0 (P i) := by linarith
              rw [this] at hneg; nlinarith [mul_self_nonneg (phi 0 (P i))]
            apply mul_right_cancel₀ hd
            linarith
          refine ⟨List.mem_map.2 ⟨_, h, ?_⟩, by rw [hz, abs_zero]; exact h0.le⟩
          simp only [nodePos, Bool.false_eq_true, if_false]
          rw [hss]
    rcases nearest_spec tol (phi 0) (nodeFlags (phi 0) tol P order) (newPts (phi 0) tol (k + 2) P c) p 0 with ⟨hr, hall⟩ | ⟨-, hall⟩
    · refine ⟨?_, ?_, fun q hq => hall q (hmem q hq)⟩
      · rcases hr with h | ⟨h, -⟩
        · obtain ⟨i, -, e⟩ := List.mem_map.1 h
          rw [← (Prod.mk.inj e).1]
          exact ⟨i, 0, le_refl _, zero_le_one, by simp⟩
        · obtain ⟨n, -, e⟩ := List.mem_map.1 h
          rw [← e]
          exact nodePos_boundary P (xi_unit (phi 0) h0 h1 P (k + 1)) n
      · rcases hr with h | ⟨-, h⟩
        · obtain ⟨i, -, e⟩ := List.mem_map.1 h
          obtain ⟨e1, e2⟩ := Prod.mk.inj e
          rw [← e1]; simpa using e2
        · exact h
    · obtain ⟨q, hq, hd⟩ := hm
      exact absurd (hall q (hmem q hq)) (not_le.2 hd)

/-- C191 for any level set: the point returned either meets the level set of time 0 within the tolerance, on the boundary of the element, or is the origin. -/
theorem C191_sound_partial (phi : ℝ → Pt → ℝ) {tol : ℝ} (h0 : 0 < tol) (h1 : tol < 10000000000) (P : Fin 4 → Pt) (order : List (Fin 4)) (k : Nat) (p : Pt) (t : ℝ)
    {r : Pt} (h : searchNearest phi tol (k + 1) order P p t = some r) : (OnBoundary P r ∧ |phi 0 r| ≤ tol) ∨ r = 0 := by
  unfold searchNearest at h
  obtain ⟨c, -, e⟩ := Option.map_eq_some_iff.1 h
  subst e
  rcases nearest_spec tol (phi 0) (nodeFlags (phi 0) tol P order) (newPts (phi 0) tol (k + 1) P c) p 0 with ⟨hr, -⟩ | ⟨hr, -⟩
  · left
    rcases hr with h | ⟨h, h'⟩
    · obtain ⟨i, -, e⟩ := List.mem_map.1 h
      obtain ⟨e1, e2⟩ := Prod.mk.inj e
      rw [← e1]
      exact ⟨⟨i, 0, le_refl _, zero_le_one, by simp⟩, by simpa using e2⟩
    · obtain ⟨n, -, e⟩ := List.mem_map.1 h
      refine ⟨?_, h'⟩
      rw [← e]
      exact nodePos_boundary P (xi_unit (phi 0) h0 h1 P k) n
  · exact Or.inr hr

/-! ### violations -/

/-- C191 fails for a neighbour that is not cut: the origin is returned, whatever the element and the point. -/
theorem C191_uncut_fails (phi : ℝ → Pt → ℝ) {tol : ℝ} (h0 : 0 < tol) (h1 : tol < 1000000000000) (P : Fin 4 → Pt) (hp : ∀ i, tol < phi 0 (P i)) (order : List (Fin 4))
    (n : Nat) (p : Pt) (t : ℝ) : searchNearest phi tol n order P p t = some 0 := by
  have hv : ∀ i, |phi 0 (P i)| ≠ tol := fun i h => by rw [abs_of_pos (h0.trans (hp i))] at h; exact absurd h (hp i).ne'
  have e := initElem_comb h0 h1 hv (phi 0 ((1 / 4 : ℝ) • (P 0 + P 1 + P 2 + P 3)))
  have es : (fun i => sg tol (phi 0 (P i))) = fun _ => 3 := by funext i; exact (sg_pos h0).2 (hp i).le
  rw [es] at e
  have hi : initQuad (phi 0) tol P = some ⟨.noIntersection, [whole none], [], [], [], true, false⟩ := e
  unfold searchNearest
  rw [hi]
  show some _ = some _
  congr 1
  rcases nearest_spec tol (phi 0) (nodeFlags (phi 0) tol P order) [] p 0 with ⟨hr, -⟩ | ⟨hr, -⟩
  · rcases hr with h | ⟨h, -⟩
    · obtain ⟨i, -, e⟩ := List.mem_map.1 h
      obtain ⟨-, e2⟩ := Prod.mk.inj e
      simp only [decide_eq_true_eq, abs_of_pos (h0.trans (hp i))] at e2
      exact absurd e2 (not_le.2 (hp i))
    · exact absurd h (by simp)
  · exact hr

/-- The vertical line x = 1/2 + t. -/
noncomputable def upright (t : ℝ) (q : Pt) : ℝ := q 0 - 1 / 2 - t

theorem upright_affine (t : ℝ) (P : Fin 4 → Pt) : EdgeAffine (upright t) P := by
  intro i s
  simp only [upright, Pi.add_apply, Pi.smul_apply, Pi.sub_apply, smul_eq_mul]
  ring

theorem upright_corner {tol : ℝ} (h1 : tol < 1 / 8) (i : Fin 4) : tol < |upright 0 (unitSquare i)| := by
  fin_cases i <;> norm_num [upright, unitSquare, abs_of_pos] <;> linarith

theorem upright_meets {tol : ℝ} (h1 : tol < 1 / 8) : Meets (upright 0) tol unitSquare ![1 / 2, 0] := by
  refine Or.inr ⟨0, 1 / 2, by norm_num, by norm_num, ?_, by norm_num [upright], upright_corner h1 _, upright_corner h1 _⟩
  funext k
  fin_cases k <;> norm_num [unitSquare]

/-- The hypotheses of C191_nearest_partial are met by the unit square cut by the line x = 1/2. -/
theorem upright_ok {tol : ℝ} (h0 : 0 < tol) (h1 : tol < 1 / 8) (order : List (Fin 4)) (ho : ∀ i, i ∈ order) (k : Nat) (p : Pt) (hp : dist2 p ![1 / 2, 0] < 1000000000000)
    (t : ℝ) : ∃ r, searchNearest upright tol (k + 2) order unitSquare p t = some r ∧ OnBoundary unitSquare r ∧ |upright 0 r| ≤ tol ∧
      ∀ q, Meets (upright 0) tol unitSquare q → dist2 p r ≤ dist2 p q :=
  C191_nearest_partial upright h0 (by linarith) (upright_affine 0 _) (fun i => (upright_corner h1 i).ne') (fun i h => absurd h.1 (not_le.2 (upright_corner h1 i)))
    order ho k p t ⟨_, upright_meets h1, hp⟩

/-- C191 fails: the point returned is not the nearest point of the interface. For the line x = 1/2 through the unit square and the point (0, 1/2) of its left
side the nearest point is (1/2, 1/2); an end of the line on the boundary of the element is returned. -/
theorem C191_closest_fails {tol : ℝ} (h0 : 0 < tol) (h1 : tol < 1 / 8) (order : List (Fin 4)) (ho : ∀ i, i ∈ order) (k : Nat) (t : ℝ) :
    ∃ r, searchNearest upright tol (k + 2) order unitSquare ![0, 1 / 2] t = some r ∧ upright 0 ![1 / 2, 1 / 2] = 0 ∧
      dist2 ![0, 1 / 2] ![1 / 2, 1 / 2] < dist2 ![0, 1 / 2] r := by
  obtain ⟨r, e, ⟨i, s, s0, s1, hb⟩, hr, -⟩ := upright_ok h0 h1 order ho k ![0, 1 / 2]
    (by unfold dist2 norm2; rw [Real.sqrt_lt' (by norm_num)]; norm_num) t
  refine ⟨r, e, by norm_num [upright], ?_⟩
  unfold dist2 norm2
  apply Real.sqrt_lt_sqrt
  · positivity
  have h := abs_le.1 hr
  unfold upright at h
  have hc : r 0 = 0 ∨ r 0 = 1 ∨ r 1 = 0 ∨ r 1 = 1 := by
    rw [hb]
    fin_cases i
    · right; right; left
      show (unitSquare 0 + s • (unitSquare 1 - unitSquare 0)) 1 = 0
      norm_num [us0, us1]
    · right; left
      show (unitSquare 1 + s • (unitSquare 2 - unitSquare 1)) 0 = 1
      norm_num [us1, us2]
    · right; right; right
      show (unitSquare 2 + s • (unitSquare 3 - unitSquare 2)) 1 = 1
      norm_num [us2, us3]
    · left
      show (unitSquare 3 + s • (unitSquare 0 - unitSquare 3)) 0 = 0
      norm_num [us3, us0]
  norm_num
  rcases hc with c | c | c | c
  · rw [c] at h; linarith [h.1, h.2]
  · rw [c] at h; linarith [h.1, h.2]
  · rw [c]; nlinarith [h.1, h.2]
  · rw [c]; nlinarith [h.1, h.2]

/-- C191 fails: the level set is taken at time 0. For the line x = 1/2 + t at the time 1/2 the point returned is off the level set by more than 1/4. -/
theorem C191_time_fails {tol : ℝ} (h0 : 0 < tol) (h1 : tol < 1 / 8) (order : List (Fin 4)) (ho : ∀ i, i ∈ order) (k : Nat) :
    ∃ r, searchNearest upright tol (k + 2) order unitSquare ![0, 1 / 2] (1 / 2) = some r ∧ 1 / 4 < |upright (1 / 2) r| := by
  obtain ⟨r, e, -, hr, -⟩ := upright_ok h0 h1 order ho k ![0, 1 / 2] (by unfold dist2 norm2; rw [Real.sqrt_lt' (by norm_num)]; norm_num) (1 / 2)
  refine ⟨r, e, ?_⟩
  have h := abs_le.1 hr
  unfold upright at h ⊢
  rw [lt_abs]
  right
  linarith

/-! ### the derivative -/

/-- C191: the rate returned has the component along the gradient of the level set of the true rate of the point, and equals it if the point moves along the
gradient. -/
theorem C191_rate_partial {phi : ℝ → Pt → ℝ} {r : ℝ → Pt} {a0 tol : ℝ} {n : Nat} {order : List (Fin 4)} {P : Fin 4 → Pt} {p : Pt} {t : ℝ}
    (hs : searchNearest (fun _ => phi a0) tol n order P p t = some (r a0)) (hz : ∀ a, phi a (r a) = 0) {r' : Pt} (hr : HasDerivAt r r' a0)
    {L : ℝ × Pt →L[ℝ] ℝ} (hL : HasFDerivAt (fun z : ℝ × Pt => phi z.1 z.2) L (a0, r a0)) {dphi : ℝ → Pt → ℝ} {grad : ℝ → Pt → Pt}
    (hg : ∀ (x : ℝ) (w : Pt), L (x, w) = dphi t (r a0) * x + ∑ k, grad t (r a0) k * w k) (h0 : (∑ k, grad t (r a0) k ^ 2) ≠ 0) :
    ∃ v, searchRate (fun _ => phi a0) dphi grad tol n order P p t = some v ∧ ∑ k, grad t (r a0) k * v k = ∑ k, grad t (r a0) k * r' k ∧
      ((∃ c : ℝ, r' = c • grad t (r a0)) → v = r') := by
  refine ⟨_, by unfold searchRate; rw [hs]; rfl, ?_⟩
  have hd : HasDerivAt (fun a => phi a (r a)) (L (1, r')) a0 := HasFDerivAt.comp_hasDerivAt (f := fun a => (a, r a)) a0 hL ((hasDerivAt_id a0).prodMk hr)
  have hd0 : L (1, r') = 0 := by
    have : (fun a => phi a (r a)) = fun _ => 0 := funext hz
    rw [this] at hd
    exact hd.unique (hasDerivAt_const a0 0)
  rw [hg, mul_one] at hd0
  have e : ∑ k, grad t (r a0) k * LevelSetElem.bndVelocity (grad t (r a0)) (dphi t (r a0)) k = -dphi t (r a0) := by
    simp only [LevelSetElem.bndVelocity, Fin.sum_univ_two] at h0 ⊢
    field_simp
    ring
  refine ⟨by rw [e]; linarith, ?_⟩
  rintro ⟨c, rfl⟩
  funext k
  simp only [LevelSetElem.bndVelocity, Pi.smul_apply, smul_eq_mul] at hd0 ⊢
  have : dphi t (r a0) = -(c * ∑ k, grad t (r a0) k ^ 2) := by
    rw [Finset.mul_sum]
    have e2 : ∑ k, grad t (r a0) k * (c * grad t (r a0) k) = ∑ k, c * grad t (r a0) k ^ 2 := Finset.sum_congr rfl fun k _ => by ring
    linarith
  rw [this, neg_neg, mul_div_assoc, div_self h0, mul_one]

/-- The line x + y = 1/2 + a. -/
noncomputable def slanted (a : ℝ) (q : Pt) : ℝ := q 0 + q 1 - 1 / 2 - a

theorem slanted_affine (a : ℝ) (P : Fin 4 → Pt) : EdgeAffine (slanted a) P := by
  intro i s
  simp only [slanted, Pi.add_apply, Pi.smul_apply, Pi.sub_apply, smul_eq_mul]
  ring

/-- The end on the lower side of the unit square is found for the point (1/2, -1). -/
theorem slanted_found {tol : ℝ} (h0 : 0 < tol) (h1 : tol < 1 / 8) (order : List (Fin 4)) (k : Nat) (t : ℝ) {a : ℝ} (ha : |a| < 1 / 4) :
    searchNearest (fun _ => slanted a) tol (k + 2) order unitSquare ![1 / 2, -1] t = some ![1 / 2 + a, 0] := by
  obtain ⟨a1, a2⟩ := abs_lt.1 ha
  have v0 : slanted a (unitSquare 0) = -1 / 2 - a := by norm_num [slanted, unitSquare]
  have v1 : slanted a (unitSquare 1) = 1 / 2 - a := by norm_num [slanted, unitSquare]
  have v2 : slanted a (unitSquare 2) = 3 / 2 - a := by norm_num [slanted, unitSquare]
  have v3 : slanted a (unitSquare 3) = 1 / 2 - a := by norm_num [slanted, unitSquare]
  have hb : ∀ i, tol < |slanted a (unitSquare i)| := by
    intro i
    fin_cases i
    · show tol < |slanted a (unitSquare 0)|; rw [v0, lt_abs]; right; linarith
    · show tol < |slanted a (unitSquare 1)|; rw [v1, lt_abs]; left; linarith
    · show tol < |slanted a (unitSquare 2)|; rw [v2, lt_abs]; left; linarith
    · show tol < |slanted a (unitSquare 3)|; rw [v3, lt_abs]; left; linarith
  have hv : ∀ i, |slanted a (unitSquare i)| ≠ tol := fun i => (hb i).ne'
  obtain ⟨m, e, -⟩ := initQuad_ok h0 (by linarith) hv
  have es : (fun i => sg tol (slanted a (unitSquare i))) = ![0, 3, 3, 3] := by
    funext i
    fin_cases i
    · show sg tol (slanted a (unitSquare 0)) = 0; rw [v0, sg_neg h0]; linarith
    · show sg tol (slanted a (unitSquare 1)) = 3; rw [v1, sg_pos h0]; linarith
    · show sg tol (slanted a (unitSquare 2)) = 3; rw [v2, sg_pos h0]; linarith
    · show sg tol (slanted a (unitSquare 3)) = 3; rw [v3, sg_pos h0]; linarith
  have x3 : xi (slanted a) tol (k + 2) unitSquare 3 = 1 / 2 - a := by
    have c : cside (fun i => sg tol (slanted a (unitSquare i))) 3 = true := by rw [es]; rfl
    obtain ⟨hn, hx⟩ := cside_hit h0 hv c (k + 2)
    have hl := (C72_linear (slanted a) h0.le (by linarith) (k + 1) hn (slanted_affine a unitSquare 3)).1
    rw [show k + 1 + 1 = k + 2 from rfl, ← hx] at hl
    change slanted a (unitSquare 3 + xi (slanted a) tol (k + 2) unitSquare 3 • (unitSquare 0 - unitSquare 3)) = 0 at hl
    norm_num [slanted, us0, us3] at hl
    linarith
  have x0 : xi (slanted a) tol (k + 2) unitSquare 0 = 1 / 2 + a := by
    have c : cside (fun i => sg tol (slanted a (unitSquare i))) 0 = true := by rw [es]; rfl
    obtain ⟨hn, hx⟩ := cside_hit h0 hv c (k + 2)
    have hl := (C72_linear (slanted a) h0.le (by linarith) (k + 1) hn (slanted_affine a unitSquare 0)).1
    rw [show k + 1 + 1 = k + 2 from rfl, ← hx] at hl
    norm_num [slanted, unitSquare] at hl
    linarith
  rw [es] at e
  have hn : ∀ m, ((comb ![0, 3, 3, 3] m).map fun c => c.newNodes) = some [⟨3, 3, false⟩, ⟨0, 0, false⟩, ⟨1, 3, true⟩] := by decide +kernel
  have hn := hn m
  rw [← e] at hn
  obtain ⟨c, hc, hnn⟩ := Option.map_eq_some_iff.1 hn
  unfold searchNearest
  rw [hc]
  show some _ = some _
  congr 1
  have hnew : newPts (slanted a) tol (k + 2) unitSquare c = [![0, 1 / 2 + a], ![1 / 2 + a, 0], ![1, 1 / 2 + a]] := by
    unfold newPts
    rw [hnn]
    have e1 : nodePos unitSquare (xi (slanted a) tol (k + 2) unitSquare) ⟨3, 3, false⟩ = ![0, 1 / 2 + a] := by
      simp only [nodePos, x3, Bool.false_eq_true, if_false, show (3 : Fin 4) + 1 = 0 from rfl, us0, us3]
      funext w; fin_cases w <;> norm_num; ring
    have e2 : nodePos unitSquare (xi (slanted a) tol (k + 2) unitSquare) ⟨0, 0, false⟩ = ![1 / 2 + a, 0] := by
      simp only [nodePos, x0]; funext w; fin_cases w <;> norm_num [unitSquare]
    have e3 : nodePos unitSquare (xi (slanted a) tol (k + 2) unitSquare) ⟨1, 3, true⟩ = ![1, 1 / 2 + a] := by
      simp only [nodePos, x3, if_true, show (1 : Fin 4) + 1 = 2 from rfl, us1, us2]
      funext w; fin_cases w <;> norm_num; ring
    simp only [List.map_cons, List.map_nil, e1, e2, e3]
  have hz : slanted a ![1 / 2 + a, 0] = 0 := by norm_num [slanted]
  have hd1 : dist2 ![1 / 2, -1] ![1 / 2 + a, 0] < 2 := by
    unfold dist2 norm2; rw [Real.sqrt_lt' (by norm_num)]; norm_num; nlinarith
  rcases nearest_spec tol (slanted a) (nodeFlags (slanted a) tol unitSquare order) (newPts (slanted a) tol (k + 2) unitSquare c) ![1 / 2, -1] 0 with ⟨hr, hm⟩ | ⟨-, hm⟩
  · have hlt := hm ![1 / 2 + a, 0] (Or.inr ⟨by rw [hnew]; simp, by rw [hz, abs_zero]; exact h0.le⟩)
    rcases hr with h | ⟨h, h'⟩
    · obtain ⟨i, -, e⟩ := List.mem_map.1 h
      obtain ⟨-, e2⟩ := Prod.mk.inj e
      exact absurd (of_decide_eq_true e2) (not_le.2 (hb i))
    · show nearestPoint tol (slanted a) (nodeFlags (slanted a) tol unitSquare order) (newPts (slanted a) tol (k + 2) unitSquare c) ![1 / 2, -1] 0 = ![1 / 2 + a, 0]
      rw [hnew] at h hlt h' ⊢
      simp only [List.mem_cons, List.not_mem_nil, or_false] at h
      rcases h with h | h | h
      · exfalso
        rw [h] at hlt
        revert hlt
        apply not_le.2
        unfold dist2 norm2
        apply Real.sqrt_lt_sqrt (by positivity)
        norm_num
        nlinarith
      · exact h
      · exfalso
        rw [h] at h'
        norm_num [slanted] at h'
        linarith [(abs_le.1 h').2]
  · have := hm ![1 / 2 + a, 0] (Or.inr ⟨by rw [hnew]; simp, by rw [hz, abs_zero]; exact h0.le⟩)
    linarith

/-- C191 fails: the rate returned is not the rate of the point returned. For the line x + y = 1/2 + a through the unit square the point found is (1/2 + a, 0),
which moves with (1, 0); the rate returned is (1/2, 1/2). -/
theorem C191_rate_fails {tol : ℝ} (h0 : 0 < tol) (h1 : tol < 1 / 8) (order : List (Fin 4)) (k : Nat) (t : ℝ) :
    (∀ a : ℝ, |a| < 1 / 4 → searchNearest (fun _ => slanted a) tol (k + 2) order unitSquare ![1 / 2, -1] t = some ![1 / 2 + a, 0]) ∧
      HasDerivAt (fun a : ℝ => (![1 / 2 + a, 0] : Pt)) ![1, 0] 0 ∧ (∀ a q, HasDerivAt (fun a => slanted a q) (-1) a) ∧
      searchRate (fun _ => slanted 0) (fun _ _ => -1) (fun _ _ => ![1, 1]) tol (k + 2) order unitSquare ![1 / 2, -1] t = some ![1 / 2, 1 / 2] := by
  refine ⟨fun a ha => slanted_found h0 h1 order k t ha, ?_, fun a q => ?_, ?_⟩
  · rw [hasDerivAt_pi]
    intro i
    fin_cases i
    · exact (hasDerivAt_id (0 : ℝ)).const_add (1 / 2)
    · simpa using hasDerivAt_const (0 : ℝ) (0 : ℝ)
  · simpa [slanted] using (hasDerivAt_id a).const_sub (q 0 + q 1 - 1 / 2)
  · unfold searchRate
    rw [slanted_found h0 h1 order k t (by norm_num)]
    show some _ = some _
    congr 1
    funext i
    fin_cases i <;> norm_num [LevelSetElem.bndVelocity, Fin.sum_univ_two]

/-- The hypotheses of C191_nearest_partial hold for the point (0, 1/4), and the search returns a point. -/
example : ∃ r, searchNearest upright (1 / 100000000) 10 [2, 0, 3, 1] unitSquare ![0, 1 / 4] 0 = some r ∧ OnBoundary unitSquare r :=
  let ⟨r, h, hb, _⟩ := upright_ok (by norm_num) (by norm_num) [2, 0, 3, 1] (by decide) 8 ![0, 1 / 4] (by unfold dist2 norm2; rw [Real.sqrt_lt' (by norm_num)]; norm_num) 0
  ⟨r, h, hb⟩

/-- C191_uncut_fails applies to a square on which the level set is 1. -/
example : searchNearest (fun _ _ => 1) (1 / 100000000) 10 [0, 1, 2, 3] unitSquare ![7, 7] 3 = some 0 :=
  C191_uncut_fails _ (by norm_num) (by norm_num) _ (fun _ => by norm_num) _ _ _ _

/-- C191_rate_partial applies to the line x + y = 1/2 + a: the component along the gradient is right. -/
example : ∃ v, searchRate (fun _ => slanted 0) (fun _ _ => -1) (fun _ _ => ![1, 1]) (1 / 100000000) 10 [3, 1, 0, 2] unitSquare ![1 / 2, -1] 0 = some v ∧ v 0 + v 1 = 1 := by
  have hr : HasDerivAt (fun a : ℝ => (![1 / 2 + a, 0] : Pt)) ![1, 0] 0 := by
    rw [hasDerivAt_pi]
    intro i
    fin_cases i
    · exact (hasDerivAt_id (0 : ℝ)).const_add (1 / 2)
    · simpa using hasDerivAt_const (0 : ℝ) (0 : ℝ)
  let pr (i : Fin 2) : ℝ × Pt →L[ℝ] ℝ := (ContinuousLinearMap.proj (R := ℝ) (φ := fun _ : Fin 2 => ℝ) i).comp (ContinuousLinearMap.snd ℝ ℝ Pt)
  have hL : HasFDerivAt (fun z : ℝ × Pt => slanted z.1 z.2) (pr 0 + pr 1 - ContinuousLinearMap.fst ℝ ℝ Pt) (0, (![1 / 2 + 0, 0] : Pt)) :=
    (((pr 0).hasFDerivAt.add (pr 1).hasFDerivAt).sub_const (1 / 2)).sub (ContinuousLinearMap.fst ℝ ℝ Pt).hasFDerivAt
  obtain ⟨v, e, h, -⟩ := C191_rate_partial (phi := slanted) (r := fun a => ![1 / 2 + a, 0]) (a0 := 0) (dphi := fun _ _ => -1) (grad := fun _ _ => ![1, 1])
    (slanted_found (tol := 1 / 100000000) (by norm_num) (by norm_num) [3, 1, 0, 2] 8 0 (a := 0) (by norm_num))
    (fun a => by norm_num [slanted]) hr hL (fun x w => by simp [pr, Fin.sum_univ_two]; ring) (by norm_num [Fin.sum_univ_two])
  exact ⟨v, e, by simpa [Fin.sum_univ_two] using h⟩

end Verif.Nearest
