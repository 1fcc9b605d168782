import Mathlib.Topology.Order.MonotoneConvergence
import Mathlib.Topology.Order.IntermediateValue
import Mathlib.Topology.Instances.Real.Lemmas
import Mathlib.Topology.Algebra.Order.Field
import Mathlib.Analysis.Real.Sqrt
import Mathlib.Tactic.FieldSimp
import Mathlib.Tactic.FunProp
import Mathlib.Tactic.LinearCombination
import Mathlib.Tactic.Linarith
import Mathlib.Tactic.NormNum
import Mathlib.Tactic.Ring
import Mathlib.Tactic.Positivity
import Verif.Model.FlutterSearch
/-
  C90 (refinement of a crossover).
-/
namespace Verif.FlutterSearch
open Set Filter Topology

/-! ### Specification -/

/-- A bracket as recorded for a crossover: damping `g ≤ 0` at the first end, `g > 0` at the second. -/
def Bracket.Ok (b : Bracket) : Prop := b.lg ≤ 0 ∧ 0 < b.ug

/-- The interval of velocities of a bracket (its ends may come in either order). -/
def Bracket.range (b : Bracket) : Set ℝ := uIcc b.lV b.uV

/-! ### C90 -/

theorem newV_eq {b : Bracket} (h : b.Ok) : ∃ t, 0 ≤ t ∧ t < 1 ∧ t * (b.ug - b.lg) = -b.lg ∧ b.newV = b.lV + t * (b.uV - b.lV) := by
  have hd : 0 < b.ug - b.lg := by linarith [h.1, h.2]
  refine ⟨-b.lg / (b.ug - b.lg), div_nonneg (by linarith [h.1]) hd.le, ?_, ?_, ?_⟩
  · rw [div_lt_one hd]; linarith [h.2]
  · field_simp
  · rw [Bracket.newV]; field_simp; ring

theorem newV_mem {b : Bracket} (h : b.Ok) : b.newV ∈ b.range := by
  obtain ⟨t, h0, h1, -, e⟩ := newV_eq h
  rw [e, Bracket.range, mem_uIcc]
  rcases le_total b.lV b.uV with hl | hl
  · left; constructor <;> nlinarith
  · right; constructor <;> nlinarith

theorem update_ok {b : Bracket} (h : b.Ok) {tol v r : ℝ} (ht : 0 ≤ tol) (hr : ¬ |r| ≤ tol) : (b.update v r).Ok := by
  unfold Bracket.update
  split_ifs with hn
  · exact ⟨hn.le, h.2⟩
  · refine ⟨h.1, ?_⟩
    rw [not_lt] at hn
    rw [abs_of_nonneg hn] at hr
    exact lt_of_le_of_lt ht (not_le.1 hr)

theorem update_range {b : Bracket} {v r : ℝ} (hv : v ∈ b.range) : (b.update v r).range ⊆ b.range := by
  unfold Bracket.update
  split_ifs
  · exact uIcc_subset_uIcc hv right_mem_uIcc
  · exact uIcc_subset_uIcc left_mem_uIcc hv

theorem bisect_spec (g : ℝ → ℝ) {tol : ℝ} (ht : 0 ≤ tol) : ∀ (k : Nat) (b : Bracket) (last : Option ℝ) (ev : List ℝ), b.Ok →
    ∃ ok sol evals, bisect g tol k b last ev = .done ok sol (ev ++ evals) ∧ (∀ v ∈ evals, v ∈ b.range) ∧ evals.length ≤ k ∧
      (evals = [] → sol = last ∧ ok = false) ∧ (∀ v, evals.getLast? = some v → sol = some v) ∧ (0 < k → evals ≠ []) ∧
      (ok = true → ∃ v, sol = some v ∧ |g v| ≤ tol) ∧ (ok = false → ∀ v ∈ evals, tol < |g v|) := by
  intro k
  induction k with
  | zero => intro b last ev _; exact ⟨false, last, [], by simp [bisect], by simp, by simp, by simp, by simp, by simp, by simp, by simp⟩
  | succ k ih =>
    intro b last ev hb
    have hd : b.ug - b.lg ≠ 0 := by have := hb.1; have := hb.2; intro h; linarith
    rw [bisect, if_neg hd]
    by_cases hg : |g b.newV| ≤ tol
    · rw [if_pos hg]
      refine ⟨true, some b.newV, [b.newV], rfl, ?_, by simp, by simp, by simp, by simp, fun _ => ⟨_, rfl, hg⟩, by simp⟩
      intro v hv; rw [List.mem_singleton] at hv; exact hv ▸ newV_mem hb
    · rw [if_neg hg]
      obtain ⟨ok, sol, evals, e, h1, h2, h3, h4, -, h5, h6⟩ := ih (b.update b.newV (g b.newV)) (some b.newV) (ev ++ [b.newV]) (update_ok hb ht hg)
      refine ⟨ok, sol, b.newV :: evals, by rw [e]; simp, ?_, by simpa using h2, by simp, ?_, by simp, h5, ?_⟩
      · intro v hv
        rcases List.mem_cons.1 hv with rfl | hv
        · exact newV_mem hb
        · exact update_range (newV_mem hb) (h1 v hv)
      · intro v hv
        cases evals with
        | nil =>
          simp at hv
          rw [(h3 rfl).1, hv]
        | cons a l => exact h4 v (by simpa using hv)
      · intro ho v hv
        rcases List.mem_cons.1 hv with rfl | hv
        · exact not_le.1 hg
        · exact h6 ho v hv

/-- C90: the search analyses only velocities inside the bracket, at most `max_iters` of them. -/
theorem C90_inside (g : ℝ → ℝ) {tol : ℝ} (ht : 0 ≤ tol) (k : Nat) (b : Bracket) (hb : b.Ok) :
    ∃ ok sol evals, bisect g tol k b none [] = .done ok sol evals ∧ (∀ v ∈ evals, v ∈ uIcc b.lV b.uV) ∧ evals.length ≤ k := by
  obtain ⟨ok, sol, evals, e, h1, h2, -⟩ := bisect_spec g ht k b none [] hb
  exact ⟨ok, sol, evals, by simpa using e, h1, h2⟩

/-- C90: the returned solution is the last one analysed, inside the bracket; with the success flag its damping is within the tolerance, without it the damping of every solution
analysed is beyond it. -/
theorem C90_result (g : ℝ → ℝ) {tol : ℝ} (ht : 0 ≤ tol) (k : Nat) (b : Bracket) (hb : b.Ok) {ok : Bool} {sol : Option ℝ} {evals : List ℝ}
    (h : bisect g tol k b none [] = .done ok sol evals) :
    (0 < k → ∃ v, sol = some v ∧ evals.getLast? = some v ∧ v ∈ uIcc b.lV b.uV) ∧ (ok = true → ∃ v, sol = some v ∧ |g v| ≤ tol) ∧ (ok = false → ∀ v ∈ evals, tol < |g v|) := by
  obtain ⟨ok', sol', evals', e, h1, h2, h3, h4, h5, h6, h7⟩ := bisect_spec g ht k b none [] hb
  rw [h] at e
  simp only [List.nil_append, Res.done.injEq] at e
  obtain ⟨rfl, rfl, rfl⟩ := e
  refine ⟨fun hk => ?_, h6, h7⟩
  have hne := h5 hk
  obtain ⟨v, hv⟩ : ∃ v, evals.getLast? = some v := by
    cases hh : evals.getLast? with
    | none => exact absurd (List.getLast?_eq_none_iff.1 hh) hne
    | some v => exact ⟨v, rfl⟩
  exact ⟨v, h4 v hv, hv, h1 v (List.mem_of_getLast? hv)⟩

/-- The bracket after one unsuccessful iteration. -/
noncomputable def stepB (g : ℝ → ℝ) (b : Bracket) : Bracket := b.update b.newV (g b.newV)

/-- The brackets of successive unsuccessful iterations. -/
noncomputable def seqB (g : ℝ → ℝ) (b : Bracket) : Nat → Bracket
  | 0 => b
  | n + 1 => stepB g (seqB g b n)

theorem seqB_shift (g : ℝ → ℝ) (b : Bracket) (n : Nat) : seqB g (stepB g b) n = seqB g b (n + 1) := by
  induction n with
  | zero => rfl
  | succ n ih => rw [seqB, ih]; rfl

/-- If some iterate meets the tolerance, the search succeeds within that many iterations. -/
theorem bisect_hits (g : ℝ → ℝ) {tol : ℝ} (ht : 0 ≤ tol) : ∀ (N : Nat) (b : Bracket), b.Ok → |g (seqB g b N).newV| ≤ tol → ∀ k > N, ∀ last ev,
    ∃ v evals, bisect g tol k b last ev = .done true (some v) evals := by
  intro N
  induction N with
  | zero =>
    intro b hb h k hk last ev
    obtain ⟨k, rfl⟩ : ∃ j, k = j + 1 := ⟨k - 1, by omega⟩
    have hd : b.ug - b.lg ≠ 0 := by have := hb.1; have := hb.2; intro h; linarith
    rw [bisect, if_neg hd, if_pos (by simpa [seqB] using h)]
    exact ⟨_, _, rfl⟩
  | succ N ih =>
    intro b hb h k hk last ev
    obtain ⟨k, rfl⟩ : ∃ j, k = j + 1 := ⟨k - 1, by omega⟩
    have hd : b.ug - b.lg ≠ 0 := by have := hb.1; have := hb.2; intro h; linarith
    rw [bisect, if_neg hd]
    by_cases hg : |g b.newV| ≤ tol
    · rw [if_pos hg]; exact ⟨_, _, rfl⟩
    · rw [if_neg hg]
      refine ih _ (update_ok hb ht hg) ?_ k (by omega) _ _
      have := seqB_shift g b N
      rw [stepB] at this
      rw [this]; exact h

/-- Consistency of a bracket with the damping curve. -/
def Bracket.On (g : ℝ → ℝ) (b : Bracket) : Prop := b.lg = g b.lV ∧ b.ug = g b.uV

theorem stepB_on {g : ℝ → ℝ} {b : Bracket} (h : b.On g) : (stepB g b).On g := by
  unfold stepB Bracket.update
  split_ifs
  · exact ⟨rfl, h.2⟩
  · exact ⟨h.1, rfl⟩

theorem stepB_ends (g : ℝ → ℝ) (b : Bracket) : ((stepB g b).lV = b.newV ∧ (stepB g b).uV = b.uV) ∨ ((stepB g b).lV = b.lV ∧ (stepB g b).uV = b.newV) := by
  unfold stepB Bracket.update
  split_ifs
  · exact Or.inl ⟨rfl, rfl⟩
  · exact Or.inr ⟨rfl, rfl⟩

/-- C90: for a damping curve that is continuous on the bracket and any positive tolerance the search succeeds, for every sufficiently large iteration limit. -/
theorem C90_converges (g : ℝ → ℝ) {tol : ℝ} (ht : 0 < tol) (b : Bracket) (hb : b.Ok) (hon : b.lg = g b.lV ∧ b.ug = g b.uV) (hc : ContinuousOn g (uIcc b.lV b.uV)) :
    ∃ N, ∀ k ≥ N, ∃ v evals, bisect g tol k b none [] = .done true (some v) evals := by
  by_contra hcon
  have hno : ∀ n, ¬ |g (seqB g b n).newV| ≤ tol := by
    intro n h
    exact hcon ⟨n + 1, fun k hk => bisect_hits g ht.le n b hb h k hk none []⟩
  have hok : ∀ n, (seqB g b n).Ok := by
    intro n
    induction n with
    | zero => exact hb
    | succ n ih => exact update_ok ih ht.le (hno n)
  have hOn : ∀ n, (seqB g b n).On g := by
    intro n
    induction n with
    | zero => exact hon
    | succ n ih => exact stepB_on ih
  set a : ℕ → ℝ := fun n => (seqB g b n).lV with ha
  set e : ℕ → ℝ := fun n => (seqB g b n).uV with he
  set c : ℕ → ℝ := fun n => (seqB g b n).newV with hcdef
  have hends : ∀ n, (a (n + 1) = c n ∧ e (n + 1) = e n) ∨ (a (n + 1) = a n ∧ e (n + 1) = c n) := fun n => stepB_ends g _
  have hcv : ∀ n, ∃ t, 0 ≤ t ∧ t < 1 ∧ t * (g (e n) - g (a n)) = -g (a n) ∧ c n = a n + t * (e n - a n) := fun n => by
    obtain ⟨t, h0, h1, h2, h3⟩ := newV_eq (hok n)
    rw [(hOn n).1, (hOn n).2] at h2
    exact ⟨t, h0, h1, h2, h3⟩
  have hga : ∀ n, g (a n) ≤ 0 := fun n => by have := (hok n).1; rwa [(hOn n).1] at this
  have hge : ∀ n, 0 < g (e n) := fun n => by have := (hok n).2; rwa [(hOn n).2] at this
  have hmem : ∀ n, a n ∈ uIcc (a 0) (e 0) ∧ e n ∈ uIcc (a 0) (e 0) := by
    have : ∀ n, (seqB g b n).range ⊆ b.range := by
      intro n
      induction n with
      | zero => exact subset_rfl
      | succ n ih => exact (update_range (newV_mem (hok n))).trans ih
    exact fun n => ⟨this n left_mem_uIcc, this n right_mem_uIcc⟩
  -- orientation
  obtain ⟨s, hs2, hs0⟩ : ∃ s : ℝ, s * s = 1 ∧ 0 ≤ s * (e 0 - a 0) := by
    rcases le_total (a 0) (e 0) with h | h
    · exact ⟨1, by norm_num, by linarith⟩
    · exact ⟨-1, by norm_num, by linarith⟩
  have hord : ∀ n, 0 ≤ s * (e n - a n) := by
    intro n
    induction n with
    | zero => exact hs0
    | succ n ih =>
      obtain ⟨t, h0, h1, -, h3⟩ := hcv n
      rcases hends n with ⟨h4, h5⟩ | ⟨h4, h5⟩
      · rw [h4, h5, h3]; nlinarith
      · rw [h4, h5, h3]; nlinarith
  have hmono : Monotone fun n => s * a n := monotone_nat_of_le_succ fun n => by
    obtain ⟨t, h0, h1, -, h3⟩ := hcv n
    have := hord n
    show s * a n ≤ s * a (n + 1)
    rcases hends n with ⟨h4, -⟩ | ⟨h4, -⟩
    · rw [h4, h3]; nlinarith
    · rw [h4]
  have hanti : Antitone fun n => s * e n := antitone_nat_of_succ_le fun n => by
    obtain ⟨t, h0, h1, -, h3⟩ := hcv n
    have := hord n
    show s * e (n + 1) ≤ s * e n
    rcases hends n with ⟨-, h5⟩ | ⟨-, h5⟩
    · rw [h5]
    · rw [h5, h3]; nlinarith
  have lim_of : ∀ x : ℕ → ℝ, (∃ l, Tendsto (fun n => s * x n) atTop (𝓝 l)) → ∃ l, Tendsto x atTop (𝓝 l) := by
    rintro x ⟨l, hl⟩
    refine ⟨s * l, ?_⟩
    have := hl.const_mul s
    refine this.congr fun n => ?_
    rw [← mul_assoc, hs2, one_mul]
  obtain ⟨A, hA⟩ : ∃ l, Tendsto a atTop (𝓝 l) := lim_of a ⟨_, tendsto_atTop_ciSup hmono ⟨s * e 0, by
    rintro _ ⟨n, rfl⟩
    have h1 := hanti (Nat.zero_le n)
    have h2 := hord n
    simp only at h1 ⊢
    linarith⟩⟩
  obtain ⟨E, hE⟩ : ∃ l, Tendsto e atTop (𝓝 l) := lim_of e ⟨_, tendsto_atTop_ciInf hanti ⟨s * a 0, by
    rintro _ ⟨n, rfl⟩
    have h1 := hmono (Nat.zero_le n)
    have h2 := hord n
    simp only at h1 ⊢
    linarith⟩⟩
  have hcl : IsClosed (uIcc (a 0) (e 0)) := isClosed_Icc
  have hAm : A ∈ uIcc (a 0) (e 0) := hcl.mem_of_tendsto hA (Eventually.of_forall fun n => (hmem n).1)
  have hEm : E ∈ uIcc (a 0) (e 0) := hcl.mem_of_tendsto hE (Eventually.of_forall fun n => (hmem n).2)
  have hgA : Tendsto (fun n => g (a n)) atTop (𝓝 (g A)) :=
    (hc A hAm).tendsto.comp (tendsto_nhdsWithin_of_tendsto_nhds_of_eventually_within _ hA (Eventually.of_forall fun n => (hmem n).1))
  have hgE : Tendsto (fun n => g (e n)) atTop (𝓝 (g E)) :=
    (hc E hEm).tendsto.comp (tendsto_nhdsWithin_of_tendsto_nhds_of_eventually_within _ hE (Eventually.of_forall fun n => (hmem n).2))
  have hgA0 : g A ≤ 0 := le_of_tendsto hgA (Eventually.of_forall hga)
  have hgE0 : 0 ≤ g E := ge_of_tendsto hgE (Eventually.of_forall fun n => (hge n).le)
  have hA1 := hA.comp (tendsto_add_atTop_nat 1)
  have hE1 := hE.comp (tendsto_add_atTop_nat 1)
  have hgA1 := hgA.comp (tendsto_add_atTop_nat 1)
  have hgE1 := hgE.comp (tendsto_add_atTop_nat 1)
  by_cases hz : g E - g A = 0
  · -- both limits vanish: the new point is one of the two ends
    have z1 : g A = 0 := by linarith
    have z2 : g E = 0 := by linarith
    rw [z1] at hgA1; rw [z2] at hgE1
    have := (hgA1.abs).add (hgE1.abs)
    simp only [abs_zero, add_zero] at this
    obtain ⟨n, hn⟩ := (this.eventually (gt_mem_nhds ht)).exists
    simp only [Function.comp_apply] at hn
    have h1 := hno n
    rcases hends n with ⟨h4, -⟩ | ⟨-, h5⟩
    · rw [h4] at hn; exact h1 (by linarith [abs_nonneg (g (e (n + 1)))])
    · rw [h5] at hn; exact h1 (by linarith [abs_nonneg (g (a (n + 1)))])
  · set C := A + -g A / (g E - g A) * (E - A) with hC
    have hcC : Tendsto c atTop (𝓝 C) := by
      have h1 := hA.add (((hgA.neg).div (hgE.sub hgA) hz).mul (hE.sub hA))
      refine h1.congr fun n => ?_
      obtain ⟨t, -, -, h2, h3⟩ := hcv n
      have hd : g (e n) - g (a n) ≠ 0 := by have := hga n; have := hge n; intro h; linarith
      rw [h3, Pi.div_apply, ← h2, mul_div_assoc, div_self hd, mul_one]
    have hprod : (C - A) * (C - E) = 0 := by
      have h1 := (hcC.sub hA1).mul (hcC.sub hE1)
      refine tendsto_nhds_unique h1 (tendsto_const_nhds.congr fun n => ?_)
      simp only [Function.comp_apply]
      rcases hends n with ⟨h4, -⟩ | ⟨-, h5⟩
      · rw [h4]; ring
      · rw [h5]; ring
    have hCz : g C = 0 ∧ (C = A ∨ C = E) := by
      rcases mul_eq_zero.1 hprod with h | h
      · have hCA : C = A := by linarith
        refine ⟨?_, Or.inl hCA⟩
        have : -g A / (g E - g A) * (E - A) = 0 := by rw [hC] at h; linarith
        rcases mul_eq_zero.1 this with h' | h'
        · rcases div_eq_zero_iff.1 h' with h' | h'
          · rw [hCA]; linarith
          · exact absurd h' hz
        · have : E = A := by linarith
          rw [this] at hz; exact absurd (sub_self _) hz
      · have hCE : C = E := by linarith
        refine ⟨?_, Or.inr hCE⟩
        have h6 : (g A / (g E - g A) + 1) * (E - A) = 0 := by rw [hC] at h; rw [neg_div] at h; linarith
        rcases mul_eq_zero.1 h6 with h' | h'
        · have : g A + (g E - g A) = 0 := by field_simp at h'; linarith
          rw [hCE]; linarith
        · have : E = A := by linarith
          rw [this] at hz; exact absurd (sub_self _) hz
    have hCm : C ∈ uIcc (a 0) (e 0) := by rcases hCz.2 with h | h <;> rw [h] <;> assumption
    have hcm : ∀ n, c n ∈ uIcc (a 0) (e 0) := fun n => by
      rcases hends n with ⟨h4, -⟩ | ⟨-, h5⟩
      · rw [← h4]; exact (hmem _).1
      · rw [← h5]; exact (hmem _).2
    have hgc : Tendsto (fun n => g (c n)) atTop (𝓝 (g C)) :=
      (hc C hCm).tendsto.comp (tendsto_nhdsWithin_of_tendsto_nhds_of_eventually_within _ hcC (Eventually.of_forall hcm))
    rw [hCz.1] at hgc
    have := hgc.abs
    rw [abs_zero] at this
    obtain ⟨n, hn⟩ := (this.eventually (gt_mem_nhds ht)).exists
    exact hno n hn.le

/-- C90: an affine damping curve is solved by the first iteration, exactly. -/
theorem C90_affine (m q : ℝ) {tol : ℝ} (ht : 0 ≤ tol) (b : Bracket) (hb : b.Ok) (hon : b.lg = m * b.lV + q ∧ b.ug = m * b.uV + q) {k : Nat} (hk : 0 < k) :
    ∃ v, bisect (fun x => m * x + q) tol k b none [] = .done true (some v) [v] ∧ m * v + q = 0 := by
  obtain ⟨k, rfl⟩ : ∃ j, k = j + 1 := ⟨k - 1, by omega⟩
  have hd : b.ug - b.lg ≠ 0 := by have := hb.1; have := hb.2; intro h; linarith
  have hz : m * b.newV + q = 0 := by
    obtain ⟨t, -, -, h2, h3⟩ := newV_eq hb
    rw [h3]
    have : b.ug - b.lg = m * (b.uV - b.lV) := by rw [hon.1, hon.2]; ring
    rw [this, hon.1] at h2
    linear_combination h2
  refine ⟨b.newV, ?_, hz⟩
  rw [bisect, if_neg hd, if_pos (by rw [hz, abs_zero]; exact ht)]
  rfl

/-- Non-vacuity: `g(V) = V² - 2` on `[1, 2]`. -/
example : ∃ N, ∀ k ≥ N, ∃ v evals, bisect (fun x => x ^ 2 - 2) (1 / 1000) k ⟨1, -1, 2, 2⟩ none [] = .done true (some v) evals :=
  C90_converges _ (by norm_num) _ ⟨by norm_num, by norm_num⟩ ⟨by norm_num, by norm_num⟩ (by fun_prop)

/-- C90 (violated): a root that does not meet the tolerance is handed out as found (`true`), because the flag of the search is not looked at: one iteration of `g(V) = V² - 2`
on `[1, 2]` ends at `4/3`, where `|g| = 2/9`. -/
theorem C90_reported_fails : ∃ (b : Bracket) (m' : CMap) (v : ℝ), b.Ok ∧ nextRoot (fun c => bisect (fun x => x ^ 2 - 2) (1 / 1000) 1 c.br none []) [(1, ⟨0, b, none⟩)] = .ok (m', some v) ∧
    nRootsFound m' = 1 ∧ ¬ |v ^ 2 - 2| ≤ 1 / 1000 := by
  refine ⟨⟨1, -1, 2, 2⟩, [(4 / 3, ⟨0, ⟨1, -1, 2, 2⟩, some (4 / 3)⟩)], 4 / 3, ⟨by norm_num, by norm_num⟩, ?_, ?_, by norm_num [abs_of_neg, abs_of_pos]⟩
  · have h : (⟨1, -1, 2, 2⟩ : Bracket).newV = 4 / 3 := by norm_num [Bracket.newV]
    have hb : bisect (fun x => x ^ 2 - 2) (1 / 1000) 1 ⟨1, -1, 2, 2⟩ none [] = .done false (some (4 / 3)) [4 / 3] := by
      rw [bisect, if_neg (by norm_num), h, if_neg (by norm_num [abs_of_neg, abs_of_pos]), bisect]; rfl
    simp only [nextRoot, nextLoop, hb, Res.handed, mmInsert, List.nil_append]
  · simp [nRootsFound]

/-- C90: what is proved of the roots handed out: when the search succeeds, the damping of the root returned by `find_next_root` is within the tolerance. -/
theorem C90_reported_partial (g : Cross → ℝ → ℝ) {tol : ℝ} (k : Nat) (key : ℝ) (c : Cross) (hr : c.root = none) {sol : Option ℝ} {evals : List ℝ}
    (ht : 0 ≤ tol) (hb : c.br.Ok) (hok : bisect (g c) tol k c.br none [] = .done true sol evals) :
    ∃ m' v, nextRoot (fun c => bisect (g c) tol k c.br none []) [(key, c)] = .ok (m', some v) ∧ |g c v| ≤ tol ∧ v ∈ uIcc c.br.lV c.br.uV := by
  have hk : 0 < k := by
    rcases Nat.eq_zero_or_pos k with rfl | h
    · simp [bisect] at hok
    · exact h
  obtain ⟨h1, h2, -⟩ := C90_result (g c) ht k c.br hb hok
  obtain ⟨v, rfl, -, hv⟩ := h1 hk
  obtain ⟨v', e, hv'⟩ := h2 rfl
  cases e
  refine ⟨mmInsert v { c with root := some v } [], v, ?_, hv', hv⟩
  · simp [nextRoot, nextLoop, hr, hok, Res.handed]

/-- C90 (violated): with an iteration limit of zero the search returns a null solution, which the caller dereferences. -/
theorem C90_no_iterations_fails (g : ℝ → ℝ) (tol : ℝ) (key : ℝ) (c : Cross) (hr : c.root = none) :
    nextRoot (fun c => bisect g tol 0 c.br none []) [(key, c)] = .ub := by
  simp [nextRoot, nextLoop, hr, bisect, Res.handed]

/-- C90 (violated): the crossover recorded for a mode that is unstable at the first velocity has equal ends, so that the first interpolation divides zero by zero. -/
theorem C90_unstable_first_fails (g : ℝ → ℝ) (tol V r : ℝ) (k : Nat) : bisect g tol (k + 1) ⟨V, r, V, r⟩ none [] = .nan := by
  rw [bisect, if_pos (sub_self r)]

/-! ### C91 -/

/-- Entries in order of their keys. -/
def SortedK (m : CMap) : Prop := m.Pairwise fun a b => a.1 ≤ b.1

/-- The map as the solver keeps it: in key order, refined crossovers under the velocity of their root. -/
def WF (m : CMap) : Prop := SortedK m ∧ ∀ e ∈ m, ∀ v, e.2.root = some v → e.1 = v

/-- The velocity a crossover stands for: that of its root if it has been refined, else that of the solution its search would hand out. -/
def vel (search : Cross → Res) (c : Cross) : Option ℝ :=
  match c.root with
  | some v => some v
  | none => (search c).handed

/-- Number of crossovers still to be refined. -/
def unrefined (m : CMap) : Nat := (m.filter fun e => e.2.root.isNone).length

theorem mmInsert_perm (k : ℝ) (c : Cross) : ∀ m : CMap, (mmInsert k c m).Perm ((k, c) :: m)
  | [] => List.Perm.refl _
  | (k', c') :: l => by
    rw [mmInsert]
    split_ifs
    · exact List.Perm.refl _
    · exact ((mmInsert_perm k c l).cons _).trans (List.Perm.swap _ _ _)

theorem mem_mmInsert {k : ℝ} {c : Cross} {m : CMap} {e : ℝ × Cross} : e ∈ mmInsert k c m ↔ e = (k, c) ∨ e ∈ m := by
  rw [(mmInsert_perm k c m).mem_iff, List.mem_cons]

theorem mmInsert_sorted (k : ℝ) (c : Cross) : ∀ m : CMap, SortedK m → SortedK (mmInsert k c m)
  | [], _ => by simp [mmInsert, SortedK]
  | (k', c') :: l, h => by
    rw [SortedK, List.pairwise_cons] at h
    rw [mmInsert]
    split_ifs with hk
    · refine List.pairwise_cons.2 ⟨?_, List.pairwise_cons.2 h⟩
      intro e he
      rcases List.mem_cons.1 he with rfl | he
      · exact hk.le
      · exact hk.le.trans (h.1 e he)
    · refine List.pairwise_cons.2 ⟨?_, mmInsert_sorted k c l h.2⟩
      intro e he
      rcases mem_mmInsert.1 he with rfl | he
      · exact not_lt.1 hk
      · exact h.1 e he

theorem unrefined_cons (e : ℝ × Cross) (m : CMap) : unrefined (e :: m) = unrefined m + if e.2.root = none then 1 else 0 := by
  unfold unrefined
  rw [List.filter_cons]
  cases e.2.root <;> simp

theorem unrefined_insert (k : ℝ) (c : Cross) (m : CMap) : unrefined (mmInsert k c m) = unrefined ((k, c) :: m) :=
  ((mmInsert_perm k c m).filter _).length_eq

theorem wf_insert {m : CMap} (h : WF m) (v : ℝ) (c : Cross) (hc : ∀ w, c.root = some w → v = w) : WF (mmInsert v c m) := by
  refine ⟨mmInsert_sorted _ _ _ h.1, fun e he w hw => ?_⟩
  rcases mem_mmInsert.1 he with rfl | he
  · exact hc w hw
  · exact h.2 e he w hw

theorem wf_tail {e : ℝ × Cross} {m : CMap} (h : WF (e :: m)) : WF m :=
  ⟨(List.pairwise_cons.1 h.1).2, fun e' he' => h.2 e' (List.mem_cons_of_mem _ he')⟩

/-- `e` of the old map is still there, or has been refined and moved to the velocity found. -/
def Kept (search : Cross → Res) (e : ℝ × Cross) (m' : CMap) : Prop :=
  e ∈ m' ∨ e.2.root = none ∧ ∃ v, (search e.2).handed = some v ∧ (v, { e.2 with root := some v }) ∈ m'

/-- The loop of `find_critical_root`. -/
theorem critical_spec (search : Cross → Res) : ∀ (fuel : Nat) (m : CMap), unrefined m ≤ fuel → WF m → m ≠ [] →
    (∀ e ∈ m, e.2.root = none → (search e.2).handed ≠ none) →
    ∃ k c l v, criticalRoot search fuel m = .ok ((k, c) :: l, some v) ∧ c.root = some v ∧ WF ((k, c) :: l) ∧ (∀ e ∈ m, Kept search e ((k, c) :: l)) ∧
      (∃ e ∈ m, vel search e.2 = some v) ∧ ((k, c) :: l).length = m.length := by
  intro fuel
  induction fuel with
  | zero =>
    intro m hu hw hne _
    obtain ⟨⟨k, c⟩, l, rfl⟩ : ∃ e l, m = e :: l := List.exists_cons_of_ne_nil hne
    rw [unrefined_cons] at hu
    cases hc : c.root with
    | none => simp [hc] at hu
    | some v =>
      refine ⟨k, c, l, v, by rw [criticalRoot]; simp only [hc], hc, hw, fun e he => Or.inl he, ⟨(k, c), by simp, by simp [vel, hc]⟩, rfl⟩
  | succ fuel ih =>
    intro m hu hw hne hd
    obtain ⟨⟨k, c⟩, l, rfl⟩ : ∃ e l, m = e :: l := List.exists_cons_of_ne_nil hne
    rw [unrefined_cons] at hu
    cases hc : c.root with
    | some v =>
      refine ⟨k, c, l, v, by rw [criticalRoot]; simp only [hc], hc, hw, fun e he => Or.inl he, ⟨(k, c), by simp, by simp [vel, hc]⟩, rfl⟩
    | none =>
      obtain ⟨v, hv⟩ : ∃ v, (search c).handed = some v := Option.ne_none_iff_exists'.1 (hd (k, c) (by simp) hc)
      rw [criticalRoot]
      simp only [hc, hv]
      have hu' : unrefined (mmInsert v { c with root := some v } l) ≤ fuel := by
        rw [unrefined_insert, unrefined_cons]
        simp [hc] at hu ⊢
        omega
      obtain ⟨k', c', l', v', h1, h2, h3, h4, h5, h7⟩ := ih (mmInsert v { c with root := some v } l) hu'
        (wf_insert (wf_tail hw) v _ (by simp)) (by intro h; have := (mmInsert_perm v { c with root := some v } l).length_eq; rw [h] at this; simp at this)
        (by
          intro e he hr
          rcases mem_mmInsert.1 he with rfl | he
          · simp at hr
          · exact hd e (List.mem_cons_of_mem _ he) hr)
      have hlen : (mmInsert v { c with root := some v } l).length = l.length + 1 := by rw [(mmInsert_perm _ _ _).length_eq]; rfl
      refine ⟨k', c', l', v', h1, h2, h3, ?_, ?_, ?_⟩
      · intro e he
        rcases List.mem_cons.1 he with rfl | he
        · right
          refine ⟨hc, v, hv, ?_⟩
          rcases h4 (v, { c with root := some v }) (mem_mmInsert.2 (Or.inl rfl)) with h | h
          · exact h
          · simp at h
        · exact h4 e (mem_mmInsert.2 (Or.inr he))
      · obtain ⟨e, he, hv'⟩ := h5
        rcases mem_mmInsert.1 he with rfl | he
        · refine ⟨(k, c), by simp, ?_⟩
          simp only [vel] at hv' ⊢
          rw [hc]; simpa [hv] using hv'
        · exact ⟨e, List.mem_cons_of_mem _ he, hv'⟩
      · rw [h7, hlen]; rfl

/-- C91: `find_critical_root` terminates, keeps every crossover, and returns the smallest of the velocities the crossovers stand for - provided each crossover still to be refined
is filed at or below the velocity its search finds, or another one with a smaller velocity is. -/
theorem C91_critical (search : Cross → Res) (m : CMap) (hw : WF m) (hne : m ≠ []) (hd : ∀ e ∈ m, e.2.root = none → (search e.2).handed ≠ none)
    (hk : ∀ e ∈ m, e.2.root = none → ∀ v, (search e.2).handed = some v → e.1 ≤ v ∨ ∃ e' ∈ m, ∃ v', vel search e'.2 = some v' ∧ e'.1 ≤ v' ∧ v' ≤ v) (fuel : Nat) (hf : m.length ≤ fuel) :
    ∃ m' v, criticalRoot search fuel m = .ok (m', some v) ∧ WF m' ∧ m'.length = m.length ∧ (∀ e ∈ m, Kept search e m') ∧
      (∃ e ∈ m, vel search e.2 = some v) ∧ ∀ e ∈ m, ∀ v', vel search e.2 = some v' → v ≤ v' := by
  have hu : unrefined m ≤ fuel := (List.length_filter_le _ _).trans hf
  obtain ⟨k, c, l, v, h1, h2, h3, h4, h5, h7⟩ := critical_spec search fuel m hu hw hne hd
  refine ⟨_, v, h1, h3, h7, h4, h5, ?_⟩
  have hkv : k = v := h3.2 (k, c) (by simp) v h2
  have hmin : ∀ e ∈ (k, c) :: l, v ≤ e.1 := by
    intro e he
    rcases List.mem_cons.1 he with rfl | he
    · exact hkv.ge
    · exact hkv ▸ (List.pairwise_cons.1 h3.1).1 e he
  have aux : ∀ e ∈ m, ∀ v', vel search e.2 = some v' → e.1 ≤ v' → v ≤ v' := by
    intro e he v' hv' hle
    rcases h4 e he with h | ⟨hr, w, hw', h⟩
    · exact (hmin e h).trans hle
    · simp only [vel, hr] at hv'
      rw [hw'] at hv'; cases hv'
      exact hmin _ h
  intro e he v' hv'
  cases hr : e.2.root with
  | some w =>
    have : e.1 = v' := by
      simp only [vel, hr, Option.some.injEq] at hv'
      subst hv'; exact hw.2 e he w hr
    exact aux e he v' hv' this.le
  | none =>
    have hs : (search e.2).handed = some v' := by simpa only [vel, hr] using hv'
    rcases hk e he hr v' hs with h | ⟨e', he', w, hw', hle, hwle⟩
    · exact aux e he v' hv' h
    · exact (aux e' he' w hw' hle).trans hwle

/-- The velocities of the refined crossovers, in order of the map. -/
def foundRoots (m : CMap) : List ℝ := m.filterMap fun e => e.2.root

theorem nRootsFound_eq (m : CMap) : nRootsFound m = (foundRoots m).length := by
  have : ∀ (m : CMap) (a : Nat), m.foldl (fun n e => if e.2.root.isSome then n + 1 else n) a = a + (foundRoots m).length := by
    intro m
    induction m with
    | nil => simp [foundRoots]
    | cons e m ih =>
      intro a
      rw [List.foldl_cons, ih]
      cases h : e.2.root <;> simp [foundRoots, h] <;> omega
  simpa [nRootsFound] using this m 0

/-- C91: `n_roots_found` counts the refined crossovers, `get_root(n)` is the n-th of them in order of velocity, and no root is reported twice or left out. -/
theorem C91_enumerate (m : CMap) (hw : WF m) : nRootsFound m = (foundRoots m).length ∧ (∀ n, getRoot m n = (foundRoots m)[n]?) ∧ (foundRoots m).Pairwise (· ≤ ·) := by
  refine ⟨nRootsFound_eq m, fun n => ?_, ?_⟩
  · have : ∀ (m : CMap) (a : Nat), a ≤ n → getRootLoop n a m = (foundRoots m)[n - a]? := by
      intro m
      induction m with
      | nil => intro a _; simp [getRootLoop, foundRoots]
      | cons e m ih =>
        intro a ha
        obtain ⟨k, c⟩ := e
        rw [getRootLoop]
        cases h : c.root with
        | none => simp only [foundRoots, List.filterMap_cons, h]; exact ih a ha
        | some v =>
          simp only [foundRoots, List.filterMap_cons, h]
          by_cases hn : a = n
          · subst hn; simp
          · rw [if_neg hn, ih (a + 1) (by omega)]
            obtain ⟨d, hd⟩ : ∃ d, n - a = d + 1 := ⟨n - a - 1, by omega⟩
            rw [hd, List.getElem?_cons_succ, show n - (a + 1) = d by omega]; rfl
    exact this m 0 (Nat.zero_le _)
  · unfold foundRoots
    rw [List.pairwise_filterMap]
    refine List.Pairwise.imp_of_mem ?_ hw.1
    intro a b ha hb hab v hv w hw'
    rw [← hw.2 a ha v hv, ← hw.2 b hb w hw']; exact hab

theorem nextLoop_spec (search : Cross → Res) : ∀ (post pre : CMap), WF (pre ++ post) → (∀ e ∈ pre, e.2.root ≠ none) → (∀ e ∈ post, e.2.root = none → (search e.2).handed ≠ none) →
    (unrefined (pre ++ post) = 0 ∧ nextLoop search pre post = .ok (pre ++ post, none)) ∨
    ∃ k c v m', (k, c) ∈ post ∧ c.root = none ∧ (search c).handed = some v ∧ nextLoop search pre post = .ok (m', some v) ∧ WF m' ∧
      (∃ l, (pre ++ post).Perm ((k, c) :: l) ∧ m'.Perm ((v, { c with root := some v }) :: l)) := by
  intro post
  induction post with
  | nil =>
    intro pre _ hp _
    left
    refine ⟨?_, by simp [nextLoop]⟩
    rw [List.append_nil, unrefined, List.length_eq_zero_iff, List.filter_eq_nil_iff]
    intro e he; have := hp e he; cases h : e.2.root <;> simp_all
  | cons e post ih =>
    intro pre hw hp hd
    obtain ⟨k, c⟩ := e
    cases hc : c.root with
    | some w =>
      have := ih (pre ++ [(k, c)]) (by simpa using hw) (by
        intro e he
        rcases List.mem_append.1 he with he | he
        · exact hp e he
        · rw [List.mem_singleton.1 he]; simp [hc]) (fun e he => hd e (List.mem_cons_of_mem _ he))
      rw [nextLoop]; simp only [hc]
      rcases this with ⟨h1, h2⟩ | ⟨k', c', v, m', h1, h2, h3, h4, h5, h6⟩
      · left; rw [show pre ++ [(k, c)] ++ post = pre ++ (k, c) :: post by simp] at h1 h2; exact ⟨h1, h2⟩
      · right; exact ⟨k', c', v, m', List.mem_cons_of_mem _ h1, h2, h3, h4, h5, by simpa using h6⟩
    | none =>
      obtain ⟨v, hv⟩ : ∃ v, (search c).handed = some v := Option.ne_none_iff_exists'.1 (hd (k, c) (by simp) hc)
      right
      refine ⟨k, c, v, mmInsert v { c with root := some v } (pre ++ post), by simp, hc, hv, by rw [nextLoop]; simp only [hc, hv], ?_, pre ++ post, ?_, mmInsert_perm _ _ _⟩
      · refine wf_insert ⟨?_, fun e he => hw.2 e ?_⟩ _ _ (by simp)
        · exact List.Pairwise.sublist ((List.Sublist.refl pre).append (List.sublist_cons_self _ _)) hw.1
        · rcases List.mem_append.1 he with h | h
          · exact List.mem_append_left _ h
          · exact List.mem_append_right _ (List.mem_cons_of_mem _ h)
      · exact List.perm_middle

/-- C91: `find_next_root` refines exactly one crossover that had no root and reports the velocity its search hands out; when none is left it changes nothing and reports none.
Each call that reports a root increases the number of roots found by one. -/
theorem C91_next (search : Cross → Res) (m : CMap) (hw : WF m) (hd : ∀ e ∈ m, e.2.root = none → (search e.2).handed ≠ none) :
    ((∀ e ∈ m, e.2.root ≠ none) ∧ nextRoot search m = .ok (m, none)) ∨
    ∃ k c v m' l, c.root = none ∧ (search c).handed = some v ∧ nextRoot search m = .ok (m', some v) ∧ WF m' ∧ m.Perm ((k, c) :: l) ∧
      m'.Perm ((v, { c with root := some v }) :: l) ∧ nRootsFound m' = nRootsFound m + 1 := by
  rcases nextLoop_spec search m [] (by simpa using hw) (by simp) hd with ⟨h1, h2⟩ | ⟨k, c, v, m', h1, h2, h3, h4, h5, l, h6, h7⟩
  · left
    refine ⟨fun e he h => ?_, by simpa [nextRoot] using h2⟩
    rw [List.nil_append, unrefined, List.length_eq_zero_iff, List.filter_eq_nil_iff] at h1
    exact h1 e he (by simp [h])
  · right
    refine ⟨k, c, v, m', l, h2, h3, h4, h5, by simpa using h6, h7, ?_⟩
    rw [nRootsFound_eq, nRootsFound_eq]
    have e1 : (foundRoots m).length = (foundRoots ((k, c) :: l)).length := (List.Perm.filterMap _ (by simpa using h6)).length_eq
    have e2 : (foundRoots m').length = (foundRoots ((v, { c with root := some v }) :: l)).length := (List.Perm.filterMap _ h7).length_eq
    rw [e1, e2]
    simp [foundRoots, h2]

/-- `find_next_root` called repeatedly until it reports none. -/
theorem C91_next_finds_all (search : Cross → Res) (hs : ∀ c : Cross, c.root = none → (search c).handed ≠ none) : ∀ (n : Nat) (m : CMap), WF m → unrefined m = n →
    ∃ ms : Nat → CMap, ms 0 = m ∧ (∀ i < n, ∃ v, nextRoot search (ms i) = .ok (ms (i + 1), some v)) ∧ nextRoot search (ms n) = .ok (ms n, none) ∧
      nRootsFound (ms n) = m.length ∧ WF (ms n) := by
  intro n
  induction n with
  | zero =>
    intro m hw hu
    have hall : ∀ e ∈ m, e.2.root ≠ none := by
      intro e he h
      rw [unrefined, List.length_eq_zero_iff, List.filter_eq_nil_iff] at hu
      exact hu e he (by simp [h])
    refine ⟨fun _ => m, rfl, by simp, ?_, ?_, hw⟩
    · rcases C91_next search m hw (fun e _ => hs e.2) with h | ⟨k, c, v, m', l, h1, -, -, -, h5, -⟩
      · exact h.2
      · exact absurd h1 (hall (k, c) (h5.mem_iff.2 (by simp)))
    · rw [nRootsFound_eq]
      clear hw hu
      induction m with
      | nil => rfl
      | cons e m ih =>
        obtain ⟨v, hv⟩ := Option.ne_none_iff_exists'.1 (hall e (by simp))
        have := ih (fun e he => hall e (List.mem_cons_of_mem _ he))
        simp [foundRoots, hv] at this ⊢
        exact this
  | succ n ih =>
    intro m hw hu
    rcases C91_next search m hw (fun e _ => hs e.2) with ⟨h, -⟩ | ⟨k, c, v, m', l, h1, h2, h3, h4, h5, h6, -⟩
    · exfalso
      have : unrefined m = 0 := by
        rw [unrefined, List.length_eq_zero_iff, List.filter_eq_nil_iff]
        intro e he; have := h e he; cases h : e.2.root <;> simp_all
      omega
    · have u1 : unrefined m = unrefined ((k, c) :: l) := (h5.filter _).length_eq
      have u2 : unrefined m' = unrefined ((v, { c with root := some v }) :: l) := (h6.filter _).length_eq
      rw [unrefined_cons] at u1 u2
      simp [h1] at u1 u2
      obtain ⟨ms, e0, e1, e2, e3, e4⟩ := ih m' h4 (by omega)
      have hl : m'.length = m.length := by rw [h6.length_eq, h5.length_eq]; rfl
      refine ⟨fun i => match i with | 0 => m | i + 1 => ms i, rfl, ?_, e2, by rw [← hl]; exact e3, e4⟩
      intro i hi
      cases i with
      | zero => exact ⟨v, by simp only [e0]; exact h3⟩
      | succ i => exact e1 i (by omega)

end Verif.FlutterSearch
