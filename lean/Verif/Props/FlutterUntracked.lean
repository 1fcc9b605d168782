import Mathlib.Topology.UniformSpace.HeineCantor
import Mathlib.Topology.Order.Compact
import Mathlib.Analysis.Normed.Group.Bounded
import Mathlib.Analysis.Normed.Group.Real
import Mathlib.Analysis.SpecificLimits.Basic
import Verif.Props.FlutterSearch
/-
  C94 (critical root without mode tracking).
-/
namespace Verif.FlutterSearch
open Set Filter Topology

/-! ### Specification -/

/-- A root counts as unstable when it lies in the closed upper half plane and its growth rate reaches the tolerance. -/
def UnstableRoot (tol : ℝ) (r : ℂ) : Prop := 0 ≤ r.im ∧ tol ≤ r.re

/-- `r` is a fastest growing root of the upper half plane among `l`. -/
def FastestIn (l : List (ℝ × ℂ)) (r : ℝ × ℂ) : Prop := r ∈ l ∧ 0 ≤ r.2.im ∧ ∀ s ∈ l, 0 ≤ s.2.im → s.2.re ≤ r.2.re

/-- `r` is unstable at a positive velocity and no other such root of `l` has a smaller velocity. -/
def EarliestUnstableIn (tol : ℝ) (l : List (ℝ × ℂ)) (r : ℝ × ℂ) : Prop :=
  r ∈ l ∧ UnstableRoot tol r.2 ∧ 0 < r.1 ∧ ∀ s ∈ l, UnstableRoot tol s.2 → 0 < s.1 → r.1 ≤ s.1

/-! ### C94: counting and choosing -/

theorem nUnstable_foldl (tol : ℝ) : ∀ (l : List ℂ) (n : Nat),
    n ≤ l.foldl (fun n r => if 0 ≤ r.im ∧ r.re ≥ tol then n + 1 else n) n ∧
    (n < l.foldl (fun n r => if 0 ≤ r.im ∧ r.re ≥ tol then n + 1 else n) n ↔ ∃ r ∈ l, UnstableRoot tol r)
  | [], n => by simp
  | r :: l, n => by
    simp only [List.foldl_cons, List.mem_cons, exists_eq_or_imp]
    by_cases h : 0 ≤ r.im ∧ r.re ≥ tol
    · rw [if_pos h]
      obtain ⟨h1, -⟩ := nUnstable_foldl tol l (n + 1)
      exact ⟨by omega, ⟨fun _ => Or.inl h, fun _ => by omega⟩⟩
    · rw [if_neg h]
      obtain ⟨h1, h2⟩ := nUnstable_foldl tol l n
      refine ⟨h1, h2.trans ⟨Or.inr, ?_⟩⟩
      rintro (h' | h')
      · exact absurd h' h
      · exact h'

/-- C94: the count of unstable roots is the number of roots in the closed upper half plane whose growth rate is at least the tolerance. -/
theorem C94_count (tol : ℝ) (l : List ℂ) : nUnstable tol l = l.countP (fun r => decide (0 ≤ r.im) && decide (tol ≤ r.re)) := by
  have : ∀ (l : List ℂ) n, l.foldl (fun n r => if 0 ≤ r.im ∧ r.re ≥ tol then n + 1 else n) n = n + l.countP (fun r => decide (0 ≤ r.im) && decide (tol ≤ r.re)) := by
    intro l
    induction l with
    | nil => simp
    | cons r l ih =>
      intro n
      rw [List.foldl_cons, List.countP_cons]
      by_cases h : 0 ≤ r.im ∧ r.re ≥ tol
      · rw [if_pos h, ih]; simp [h.1, h.2.le]; omega
      · rw [if_neg h, ih]
        have : ¬ (0 ≤ r.im ∧ tol ≤ r.re) := h
        simp [this]
  rw [nUnstable, this, Nat.zero_add]

theorem crit_inv (tol : ℝ) (l : List (ℝ × ℂ)) :
    (match (l.foldl (critStep tol) (none, none)).1 with
      | none => ∀ s ∈ l, UnstableRoot tol s.2 → ¬ 0 < s.1
      | some u => EarliestUnstableIn tol l u) ∧
    (match (l.foldl (critStep tol) (none, none)).2 with
      | none => ∀ s ∈ l, ¬ 0 ≤ s.2.im
      | some x => FastestIn l x) := by
  induction l using List.reverseRecOn with
  | nil => simp
  | append_singleton l r ih =>
    rw [List.foldl_append, List.foldl_cons, List.foldl_nil]
    generalize l.foldl (critStep tol) (none, none) = s at ih
    obtain ⟨a, b⟩ := s
    obtain ⟨h1, h2⟩ := ih
    dsimp only at h1 h2
    unfold critStep
    by_cases him : 0 ≤ r.2.im
    · rw [if_pos him]
      dsimp only
      constructor
      · by_cases hu : r.2.re ≥ tol ∧ r.1 > 0
        · rw [if_pos hu]
          cases a with
          | none =>
            refine ⟨by simp, ⟨him, hu.1⟩, hu.2, fun s hs h3 h4 => ?_⟩
            rcases List.mem_append.1 hs with hs | hs
            · exact absurd h4 (h1 s hs h3)
            · simp at hs; subst hs; exact le_rfl
          | some u =>
            obtain ⟨m1, m2, m3, m4⟩ := h1
            dsimp only
            by_cases hc : r.1 ≤ u.1
            · rw [if_pos hc]
              refine ⟨by simp, ⟨him, hu.1⟩, hu.2, fun s hs h3 h4 => ?_⟩
              rcases List.mem_append.1 hs with hs | hs
              · exact hc.trans (m4 s hs h3 h4)
              · simp at hs; subst hs; exact le_rfl
            · rw [if_neg hc]
              refine ⟨by simp [m1], m2, m3, fun s hs h3 h4 => ?_⟩
              rcases List.mem_append.1 hs with hs | hs
              · exact m4 s hs h3 h4
              · simp at hs; subst hs; exact (not_le.1 hc).le
        · rw [if_neg hu]
          cases a with
          | none =>
            intro s hs h3 h4
            rcases List.mem_append.1 hs with hs | hs
            · exact h1 s hs h3 h4
            · simp at hs; subst hs; exact hu ⟨h3.2, h4⟩
          | some u =>
            obtain ⟨m1, m2, m3, m4⟩ := h1
            refine ⟨by simp [m1], m2, m3, fun s hs h3 h4 => ?_⟩
            rcases List.mem_append.1 hs with hs | hs
            · exact m4 s hs h3 h4
            · simp at hs; subst hs; exact absurd ⟨h3.2, h4⟩ hu
      · cases b with
        | none =>
          refine ⟨by simp, him, fun s hs h3 => ?_⟩
          rcases List.mem_append.1 hs with hs | hs
          · exact absurd h3 (h2 s hs)
          · simp at hs; subst hs; exact le_rfl
        | some x =>
          obtain ⟨m1, m2, m3⟩ := h2
          dsimp only
          by_cases hc : r.2.re ≥ x.2.re
          · rw [if_pos hc]
            refine ⟨by simp, him, fun s hs h3 => ?_⟩
            rcases List.mem_append.1 hs with hs | hs
            · exact (m3 s hs h3).trans hc
            · simp at hs; subst hs; exact le_rfl
          · rw [if_neg hc]
            refine ⟨by simp [m1], m2, fun s hs h3 => ?_⟩
            rcases List.mem_append.1 hs with hs | hs
            · exact m3 s hs h3
            · simp at hs; subst hs; exact (not_le.1 hc).le
    · rw [if_neg him]
      dsimp only
      constructor
      · cases a with
        | none =>
          intro s hs h3 h4
          rcases List.mem_append.1 hs with hs | hs
          · exact h1 s hs h3 h4
          · simp at hs; subst hs; exact him h3.1
        | some u =>
          obtain ⟨m1, m2, m3, m4⟩ := h1
          refine ⟨by simp [m1], m2, m3, fun s hs h3 h4 => ?_⟩
          rcases List.mem_append.1 hs with hs | hs
          · exact m4 s hs h3 h4
          · simp at hs; subst hs; exact absurd h3.1 him
      · cases b with
        | none =>
          intro s hs h3
          rcases List.mem_append.1 hs with hs | hs
          · exact h2 s hs h3
          · simp at hs; subst hs; exact him h3
        | some x =>
          obtain ⟨m1, m2, m3⟩ := h2
          refine ⟨by simp [m1], m2, fun s hs h3 => ?_⟩
          rcases List.mem_append.1 hs with hs | hs
          · exact m3 s hs h3
          · simp at hs; subst hs; exact absurd h3 him

/-- C94: when some root is unstable at a positive velocity, `get_critical_root` returns such a root with the smallest velocity; otherwise it returns the fastest growing root of the
upper half plane, or null when there is none. -/
theorem C94_critical_root (tol : ℝ) (l : List (ℝ × ℂ)) :
    ((∃ s ∈ l, UnstableRoot tol s.2 ∧ 0 < s.1) → ∃ r, criticalOf tol l = some r ∧ EarliestUnstableIn tol l r) ∧
    ((¬ ∃ s ∈ l, UnstableRoot tol s.2 ∧ 0 < s.1) → (∃ s ∈ l, 0 ≤ s.2.im) → ∃ r, criticalOf tol l = some r ∧ FastestIn l r) ∧
    (criticalOf tol l = none ↔ ∀ s ∈ l, ¬ 0 ≤ s.2.im) := by
  obtain ⟨h1, h2⟩ := crit_inv tol l
  unfold criticalOf
  generalize l.foldl (critStep tol) (none, none) = s at h1 h2
  obtain ⟨a, b⟩ := s
  dsimp only at h1 h2 ⊢
  refine ⟨?_, ?_, ?_⟩
  · rintro ⟨s, hs, hu, hv⟩
    cases a with
    | none => exact absurd hv (h1 s hs hu)
    | some u => exact ⟨u, rfl, h1⟩
  · intro hno ⟨s, hs, him⟩
    cases a with
    | some u => exact absurd ⟨u, h1.1, h1.2.1, h1.2.2.1⟩ hno
    | none =>
      cases b with
      | none => exact absurd him (h2 s hs)
      | some x => exact ⟨x, rfl, h2⟩
  · cases a with
    | some u => simp only [reduceCtorEq, false_iff]; intro h; exact h u h1.1 h1.2.1.1
    | none =>
      cases b with
      | none => simp only [true_iff]; exact h2
      | some x => simp only [reduceCtorEq, false_iff]; intro h; exact h x h2.1 h2.2.1

/-- Non-vacuity: an unstable root at a positive velocity among stable ones. -/
example : ∃ r, criticalOf (1 / 10) [(1, ⟨-1, 1⟩), (1, ⟨1, 2⟩), (1, ⟨1, -2⟩)] = some r ∧ EarliestUnstableIn (1 / 10) [(1, ⟨-1, 1⟩), (1, ⟨1, 2⟩), (1, ⟨1, -2⟩)] r :=
  (C94_critical_root _ _).1 ⟨(1, ⟨1, 2⟩), by simp, by norm_num [UnstableRoot], by norm_num⟩

/-- C94 (what the code does not do): with two unstable roots at one velocity, `get_critical_root` returns the last of them, not the fastest growing. -/
theorem C94_fastest_fails : ∃ (l : List (ℝ × ℂ)) (r s : ℝ × ℂ), (∀ x ∈ l, x.1 = 1) ∧ criticalOf (1 / 10) l = some r ∧ s ∈ l ∧ 0 ≤ s.2.im ∧ r.2.re < s.2.re := by
  refine ⟨[(1, ⟨2, 1⟩), (1, ⟨1, 1⟩)], (1, ⟨1, 1⟩), (1, ⟨2, 1⟩), by simp, ?_, by simp, by norm_num, by norm_num⟩
  norm_num [criticalOf, critStep]

/-- C94: a root returned with a growth rate below the tolerance, at a solution whose velocity is positive, certifies that no root of the upper half plane grows faster. -/
theorem C94_below_tolerance (tol V : ℝ) (hV : 0 < V) (l : List (ℝ × ℂ)) (hl : ∀ s ∈ l, s.1 = V) (r : ℝ × ℂ) (h : criticalOf tol l = some r) (hr : r.2.re < tol) :
    FastestIn l r := by
  obtain ⟨h1, h2, h3⟩ := C94_critical_root tol l
  by_cases hu : ∃ s ∈ l, UnstableRoot tol s.2 ∧ 0 < s.1
  · obtain ⟨r', e, h4⟩ := h1 hu
    rw [h] at e; cases e
    exact absurd h4.2.1.2 (not_le.2 hr)
  · by_cases hi : ∃ s ∈ l, 0 ≤ s.2.im
    · obtain ⟨r', e, h4⟩ := h2 hu hi
      rw [h] at e; cases e; exact h4
    · exact absurd (h3.2 fun s hs hi' => hi ⟨s, hs, hi'⟩) (by rw [h]; simp)

example : FastestIn [((1 : ℝ), (⟨-1, 1⟩ : ℂ)), (1, ⟨1 / 20, 2⟩)] (1, ⟨1 / 20, 2⟩) :=
  C94_below_tolerance (1 / 10) 1 one_pos _ (by simp) _ (by norm_num [criticalOf, critStep]) (by norm_num)

/-! ### C94: marching -/

theorem march_spec (unst : ℝ → Bool) (hi d : ℝ) : ∀ (k : Nat) (v : ℝ), 0 < k → v + k * d ≥ hi →
    ∃ j : Nat, j < k ∧ march unst hi d k v = some (v + j * d, v + (j + 1) * d, unst (v + (j + 1) * d)) ∧
      (∀ i : Nat, i < j → unst (v + (i + 1) * d) = false ∧ v + (i + 1) * d < hi) ∧ (unst (v + (j + 1) * d) = true ∨ v + (j + 1) * d ≥ hi) := by
  intro k
  induction k with
  | zero => intro v h; omega
  | succ k ih =>
    intro v _ hk
    unfold march
    dsimp only
    by_cases hc : unst (v + d) = true ∨ v + d ≥ hi
    · rw [if_pos hc]
      exact ⟨0, by omega, by simp, by intro i hi; omega, by simpa using hc⟩
    · rw [if_neg hc]
      push Not at hc
      have hk0 : 0 < k := by
        rcases Nat.eq_zero_or_pos k with h | h
        · subst h; simp at hk; linarith [hc.2]
        · exact h
      obtain ⟨j, h1, h2, h3, h4⟩ := ih (v + d) hk0 (by push_cast at hk ⊢; linarith)
      have e : ∀ i : ℝ, v + d + i * d = v + (i + 1) * d := fun i => by ring
      simp only [e] at h2 h3 h4
      refine ⟨j + 1, by omega, by push_cast; exact h2, ?_, by push_cast; exact h4⟩
      intro i hi'
      rcases i with _ | i
      · simpa using ⟨by simpa using hc.1, hc.2⟩
      · have := h3 i (by omega)
        push_cast; exact this

/-- C94: with `n` divisions of a range the march stops after at most `n` steps, at the first grid velocity `lo + k (hi - lo) / n`, `1 ≤ k ≤ n`, that has an unstable root, or at `hi`
when none has; the search reports `(false, nullptr)` exactly when none has.  The first velocity itself is never tested. -/
theorem C94_march (crit : ℝ → ℝ) (unst : ℝ → Bool) {lo hi : ℝ} (hlh : lo < hi) {n : Nat} (hn : 0 < n) (tol : ℝ) (iters : Nat) :
    ((∀ k : Nat, 1 ≤ k → k ≤ n → unst (lo + k * ((hi - lo) / n)) = false) → untracked crit unst lo hi n tol iters = some none) ∧
    (∀ k : Nat, 1 ≤ k → k ≤ n → unst (lo + k * ((hi - lo) / n)) = true → (∀ i : Nat, 1 ≤ i → i < k → unst (lo + i * ((hi - lo) / n)) = false) →
      untracked crit unst lo hi n tol iters = some (some (refine crit tol iters
        ⟨lo + (k - 1) * ((hi - lo) / n), crit (lo + (k - 1) * ((hi - lo) / n)), lo + k * ((hi - lo) / n), crit (lo + k * ((hi - lo) / n))⟩ (some (lo + k * ((hi - lo) / n))) []))) := by
  have hn' : (0 : ℝ) < n := by exact_mod_cast hn
  set d := (hi - lo) / n with hd
  have hdpos : 0 < d := div_pos (by linarith) hn'
  have hnd : lo + n * d = hi := by rw [hd]; field_simp; ring
  obtain ⟨j, h1, h2, h3, h4⟩ := march_spec unst hi d n lo hn hnd.ge
  have hmono : ∀ a b : ℕ, a < b → lo + (a : ℝ) * d < lo + b * d := by
    intro a b hab
    have : (a : ℝ) < b := by exact_mod_cast hab
    nlinarith
  constructor
  · intro hno
    unfold untracked
    have := hno (j + 1) (by omega) (by omega)
    push_cast at this
    rw [← hd, h2, this]; rfl
  · intro k hk1 hkn hku hbef
    have hjk : j + 1 = k := by
      rcases Nat.lt_trichotomy (j + 1) k with h | h | h
      · exfalso
        have e := hbef (j + 1) (by omega) h
        push_cast at e
        rcases h4 with h4 | h4
        · rw [e] at h4; cases h4
        · have := hmono (j + 1) n (by omega)
          push_cast at this; linarith
      · exact h
      · exfalso
        have := (h3 (k - 1) (by omega)).1
        have e : ((k - 1 : ℕ) : ℝ) + 1 = k := by rw [Nat.cast_sub hk1]; push_cast; ring
        rw [e, hku] at this; cases this
    subst hjk
    unfold untracked
    push_cast at hku ⊢
    rw [← hd, h2, hku]
    simp

/-- Non-vacuity: the second of four grid velocities is the first unstable one. -/
example (crit : ℝ → ℝ) : ∃ r, untracked crit (fun v => decide (v ≥ 3 / 2)) 0 4 4 1 5 = some (some r) := by
  have := (C94_march crit (fun v => decide (v ≥ 3 / 2)) (lo := 0) (hi := 4) (by norm_num) (n := 4) (by norm_num) 1 5).2 2 (by norm_num) (by norm_num) (by norm_num)
    (by intro i h1 h2; have : i = 1 := by omega
        subst this; norm_num)
  exact ⟨_, this⟩

/-! ### C94: refinement -/

/-- The level the interpolation aims at. -/
def Bracket.Good (tol : ℝ) (b : Bracket) : Prop := b.lV < b.uV ∧ b.lg ≤ 0 ∧ tol < b.ug

theorem newW_eq {tol : ℝ} (ht : 1 / 10000 ≤ tol) {b : Bracket} (h : b.Good tol) :
    ∃ t, 0 < t ∧ t ≤ 1 / 2 ∧ t * (b.ug - b.lg) = 1 / 2 * (b.ug - 1 / 10000) ∧ b.newW = b.uV - t * (b.uV - b.lV) := by
  obtain ⟨h1, h2, h3⟩ := h
  have hd : 0 < b.ug - b.lg := by linarith
  refine ⟨1 / 2 * (b.ug - 1 / 10000) / (b.ug - b.lg), by apply div_pos <;> linarith, ?_, by field_simp, ?_⟩
  · rw [div_le_iff₀ hd]; linarith
  · rw [Bracket.newW]; field_simp; ring

/-- Iterates stay in the upper half of a bracket, and a step that neither succeeds nor hits zero growth leaves a bracket of the same kind. -/
theorem refine_step {tol : ℝ} (ht : 1 / 10000 ≤ tol) {b : Bracket} (h : b.Good tol) (r : ℝ) (hr0 : r ≠ 0) (hr : ¬ (r > 0 ∧ r ≤ tol)) :
    (b.lV < b.newW ∧ b.newW < b.uV) ∧ (b.update b.newW r).Good tol ∧ b.lV ≤ (b.update b.newW r).lV ∧ (b.update b.newW r).uV ≤ b.uV := by
  obtain ⟨t, t0, t1, -, e⟩ := newW_eq ht h
  obtain ⟨h1, h2, h3⟩ := h
  have hin : b.lV < b.newW ∧ b.newW < b.uV := by rw [e]; constructor <;> nlinarith
  refine ⟨hin, ?_⟩
  unfold Bracket.update
  split_ifs with hn
  · exact ⟨⟨hin.2, hn.le, h3⟩, hin.1.le, le_rfl⟩
  · refine ⟨⟨hin.1, h2, ?_⟩, le_rfl, hin.2.le⟩
    have : 0 < r := lt_of_le_of_ne (not_lt.1 hn) (Ne.symm hr0)
    by_contra hc
    exact hr ⟨this, not_lt.1 hc⟩

/-- The bracket after `i` refinement steps (none of which succeeds). -/
noncomputable def Bracket.after (crit : ℝ → ℝ) (b : Bracket) : Nat → Bracket
  | 0 => b
  | i + 1 => ((b.after crit i).update (b.after crit i).newW (crit (b.after crit i).newW))

theorem after_succ (crit : ℝ → ℝ) (b : Bracket) (i : Nat) : b.after crit (i + 1) = (b.update b.newW (crit b.newW)).after crit i := by
  induction i with
  | zero => rfl
  | succ i ih => rw [Bracket.after, ih]; rfl

/-- C94: starting from a bracket with nonpositive growth at the lower and growth above the tolerance at the upper velocity, and as long as no velocity it tries has growth exactly
zero, every velocity analysed lies strictly inside the bracket; success means `0 < growth ≤ tol` at the returned velocity, which is the last analysed; without success all `k`
iterations are spent and the last solution is handed out. -/
theorem C94_refine (crit : ℝ → ℝ) {tol : ℝ} (ht : 1 / 10000 ≤ tol) : ∀ (k : Nat) (b : Bracket) (last : Option ℝ) (ev : List ℝ), b.Good tol →
    (∀ i < k, crit (b.after crit i).newW ≠ 0) →
    ∃ ok sol evals, refine crit tol k b last ev = .done ok sol (ev ++ evals) ∧ (∀ v ∈ evals, v ∈ Ioo b.lV b.uV) ∧ evals.length ≤ k ∧
      (sol = if evals = [] then last else evals.getLast?) ∧
      (ok = true ↔ ∃ v, sol = some v ∧ v ∈ evals ∧ 0 < crit v ∧ crit v ≤ tol) ∧ (ok = false → evals.length = k ∧ ∀ v ∈ evals, crit v < 0 ∨ tol < crit v) := by
  intro k
  induction k with
  | zero => intro b last ev _ _; exact ⟨false, last, [], by simp [refine], by simp, by simp, by simp, by simp, by simp⟩
  | succ k ih =>
    intro b last ev hb hz
    have hd : ¬ b.ug - b.lg = 0 := by
      obtain ⟨h1, h2, h3⟩ := hb
      intro h
      linarith
    have hz0 : crit b.newW ≠ 0 := hz 0 (by omega)
    unfold refine
    rw [if_neg hd]
    dsimp only
    by_cases hs : crit b.newW > 0 ∧ crit b.newW ≤ tol
    · rw [if_pos hs]
      obtain ⟨t, t0, t1, -, e⟩ := newW_eq ht hb
      have hin : b.newW ∈ Ioo b.lV b.uV := by rw [e]; constructor <;> nlinarith [hb.1]
      exact ⟨true, some b.newW, [b.newW], rfl, by simpa using hin, by simp, by simp, by simpa using hs, by simp⟩
    · rw [if_neg hs]
      obtain ⟨hin, hg, hl, hu⟩ := refine_step ht hb (crit b.newW) hz0 hs
      obtain ⟨ok, sol, evals, e1, e2, e3, e4, e6, e7⟩ := ih (b.update b.newW (crit b.newW)) (some b.newW) (ev ++ [b.newW]) hg
        (fun i hi => by rw [← after_succ]; exact hz (i + 1) (by omega))
      refine ⟨ok, sol, b.newW :: evals, by rw [e1]; simp, ?_, by simpa using e3, ?_, ?_, ?_⟩
      · intro v hv
        rcases List.mem_cons.1 hv with rfl | hv
        · exact hin
        · have := e2 v hv; exact ⟨lt_of_le_of_lt hl this.1, lt_of_lt_of_le this.2 hu⟩
      · rw [e4]
        cases evals with
        | nil => simp
        | cons a l => simp
      · rw [e6]
        constructor
        · rintro ⟨v, a, b', c⟩; exact ⟨v, a, List.mem_cons_of_mem _ b', c⟩
        · rintro ⟨v, a, b', c⟩
          rcases List.mem_cons.1 b' with rfl | b'
          · exact absurd ⟨c.1, c.2⟩ hs
          · exact ⟨v, a, b', c⟩
      · intro hf
        obtain ⟨a, c⟩ := e7 hf
        refine ⟨by simp [a], fun v hv => ?_⟩
        rcases List.mem_cons.1 hv with rfl | hv
        · rcases lt_trichotomy (crit b.newW) 0 with h | h | h
          · exact Or.inl h
          · exact absurd h hz0
          · right; by_contra hc; exact hs ⟨h, not_lt.1 hc⟩
        · exact c v hv

/-- Non-vacuity: growth rate `v - 1` on `[0, 2]` with one iteration. -/
example : ∃ ok sol evals, refine (fun v => v - 1) (1 / 10) 1 ⟨0, -1, 2, 1⟩ none [] = .done ok sol ([] ++ evals) ∧ ∀ v ∈ evals, v ∈ Ioo (0 : ℝ) 2 := by
  obtain ⟨ok, sol, evals, h1, h2, -⟩ := C94_refine (fun v => v - 1) (tol := 1 / 10) (by norm_num) 1 ⟨0, -1, 2, 1⟩ none [] (by norm_num [Bracket.Good])
    (by intro i hi; have : i = 0 := by omega
        subst this; norm_num [Bracket.after, Bracket.newW])
  exact ⟨ok, sol, evals, h1, h2⟩

/-- If the loop ends without success, no velocity it tried satisfies the test. -/
theorem refine_not_ok (crit : ℝ → ℝ) (tol : ℝ) : ∀ (k : Nat) (b : Bracket) (last : Option ℝ) (ev : List ℝ) (sol : Option ℝ) (evals : List ℝ),
    refine crit tol k b last ev = .done false sol evals → ∀ i < k, ¬ (crit (b.after crit i).newW > 0 ∧ crit (b.after crit i).newW ≤ tol) := by
  intro k
  induction k with
  | zero => intro b last ev sol evals _ i hi; omega
  | succ k ih =>
    intro b last ev sol evals h
    unfold refine at h
    by_cases hd : b.ug - b.lg = 0
    · rw [if_pos hd] at h; cases h
    rw [if_neg hd] at h
    dsimp only at h
    by_cases hs : crit b.newW > 0 ∧ crit b.newW ≤ tol
    · rw [if_pos hs] at h; cases h
    · rw [if_neg hs] at h
      have := ih _ _ _ _ _ h
      intro i hi
      rcases i with _ | i
      · exact hs
      · rw [after_succ]; exact this i (by omega)

/-- C94: for a growth rate that is continuous on the bracket, nonpositive at the lower and above the tolerance at the upper velocity, and a tolerance above 1e-4, there is a number of
iterations after which the search has succeeded, unless one of the velocities it tries has growth exactly zero. -/
theorem C94_converges_partial (crit : ℝ → ℝ) {tol lV uV : ℝ} (ht : 1 / 10000 < tol) (hV : lV < uV) (hl : crit lV ≤ 0) (hu : tol < crit uV) (hc : ContinuousOn crit (Icc lV uV)) :
    ∃ N, ∀ k ≥ N, ∀ last ev, (∃ v evals, refine crit tol k ⟨lV, crit lV, uV, crit uV⟩ last ev = .done true (some v) evals ∧ v ∈ Ioo lV uV ∧ 0 < crit v ∧ crit v ≤ tol) ∨
      ∃ i < k, crit (Bracket.after crit ⟨lV, crit lV, uV, crit uV⟩ i).newW = 0 := by
  set b0 : Bracket := ⟨lV, crit lV, uV, crit uV⟩ with hb0
  -- bound of the growth rate on the bracket
  obtain ⟨M, hM'⟩ : ∃ M, ∀ v ∈ Icc lV uV, |crit v| ≤ M := by
    obtain ⟨M, hM⟩ := isCompact_Icc.exists_bound_of_continuousOn hc
    exact ⟨M, hM⟩
  have hMpos : 0 < M := lt_of_lt_of_le (by linarith) ((le_abs_self _).trans (hM' uV (right_mem_Icc.2 hV.le)))
  -- uniform continuity
  have huc := isCompact_Icc.uniformContinuousOn_of_continuous hc
  rw [Metric.uniformContinuousOn_iff] at huc
  obtain ⟨δ, hδ, huc⟩ := huc tol (by linarith)
  -- contraction factor
  set τ : ℝ := (tol - 1 / 10000) / (4 * M) with hτ
  have hτpos : 0 < τ := div_pos (by linarith) (by linarith)
  set q : ℝ := max (1 / 2) (1 - τ) with hq
  have hq0 : 0 ≤ q := le_max_of_le_left (by norm_num)
  have hq1 : q < 1 := max_lt (by norm_num) (by linarith)
  obtain ⟨N, hN⟩ := ((tendsto_pow_atTop_nhds_zero_of_lt_one hq0 hq1).const_mul (uV - lV)).eventually (gt_mem_nhds (by simpa using hδ)) |>.exists
  refine ⟨N + 1, fun k hk last ev => ?_⟩
  by_cases hz : ∃ i < k, crit (Bracket.after crit b0 i).newW = 0
  · exact Or.inr hz
  left
  push Not at hz
  have hg0 : b0.Good tol := ⟨hV, hl, hu⟩
  -- failing steps keep a good bracket that shrinks
  have hinv : (∀ i < k, ¬ (crit (b0.after crit i).newW > 0 ∧ crit (b0.after crit i).newW ≤ tol)) → ∀ i ≤ k, (b0.after crit i).Good tol ∧ lV ≤ (b0.after crit i).lV ∧ (b0.after crit i).uV ≤ uV ∧
      (b0.after crit i).lg = crit (b0.after crit i).lV ∧ (b0.after crit i).ug = crit (b0.after crit i).uV ∧ (b0.after crit i).uV - (b0.after crit i).lV ≤ (uV - lV) * q ^ i := by
    intro hns i
    induction i with
    | zero => intro _; exact ⟨hg0, le_rfl, le_rfl, rfl, rfl, by simp [Bracket.after, hb0]⟩
    | succ i ih =>
      intro hi
      obtain ⟨g, h1, h2, h3, h4, h5⟩ := ih (by omega)
      rw [Bracket.after]
      generalize hb : b0.after crit i = b at *
      have hz' : crit b.newW ≠ 0 := by rw [← hb]; exact hz i (by omega)
      have hns' : ¬ (crit b.newW > 0 ∧ crit b.newW ≤ tol) := by rw [← hb]; exact hns i (by omega)
      obtain ⟨hin, hg, hl', hu'⟩ := refine_step ht.le g (crit b.newW) hz' hns'
      refine ⟨hg, h1.trans hl', hu'.trans h2, ?_, ?_, ?_⟩
      · unfold Bracket.update; split_ifs <;> simp [h3]
      · unfold Bracket.update; split_ifs <;> simp [h4]
      · obtain ⟨t, t0, t1, t2, e⟩ := newW_eq ht.le g
        have hw : 0 < b.uV - b.lV := by linarith [g.1]
        have key : (b.update b.newW (crit b.newW)).uV - (b.update b.newW (crit b.newW)).lV ≤ q * (b.uV - b.lV) := by
          unfold Bracket.update
          split_ifs with hn
          · dsimp only
            rw [e]
            have : t ≤ q := t1.trans (le_max_left _ _)
            nlinarith
          · dsimp only
            rw [e]
            have hτt : τ ≤ t := by
              have hb1 := hM' b.lV ⟨h1, by linarith [g.1]⟩
              have hb2 := hM' b.uV ⟨by linarith [g.1], h2⟩
              rw [← h3] at hb1; rw [← h4] at hb2
              have hd : 0 < b.ug - b.lg := by linarith [g.2.1, g.2.2]
              have hd2 : b.ug - b.lg ≤ 2 * M := by linarith [le_abs_self b.ug, neg_abs_le b.lg]
              rw [hτ, div_le_iff₀ (by linarith)]
              have : t * (b.ug - b.lg) ≤ t * (2 * M) := by nlinarith
              rw [t2] at this
              have := g.2.2
              linarith
            have : 1 - t ≤ q := le_trans (by linarith) (le_max_right _ _)
            nlinarith
        calc _ ≤ q * (b.uV - b.lV) := key
          _ ≤ q * ((uV - lV) * q ^ i) := mul_le_mul_of_nonneg_left h5 hq0
          _ = (uV - lV) * q ^ (i + 1) := by ring
  obtain ⟨ok, sol, evals', e1, e2, -, -, e6, -⟩ := C94_refine crit ht.le k b0 last ev hg0 hz
  cases ok with
  | true =>
    obtain ⟨w, rfl, hmem, hp⟩ := e6.1 rfl
    exact ⟨w, _, e1, e2 w hmem, hp⟩
  | false =>
    exfalso
    have h := refine_not_ok crit tol k b0 last ev _ _ e1
    obtain ⟨g, h1, h2, h3, h4, h5⟩ := hinv h N (by omega)
    have hw : (b0.after crit N).uV - (b0.after crit N).lV < δ := lt_of_le_of_lt h5 hN
    have := huc (b0.after crit N).uV ⟨by linarith [g.1], h2⟩ (b0.after crit N).lV ⟨h1, by linarith [g.1]⟩ (by rw [Real.dist_eq, abs_of_pos (by linarith [g.1])]; exact hw)
    rw [Real.dist_eq, ← h3, ← h4] at this
    have h6 := g.2.1; have h7 := g.2.2
    linarith [le_abs_self ((b0.after crit N).ug - (b0.after crit N).lg)]

/-- Non-vacuity: growth rate `v - 1` on `[0, 2]`. -/
example : ∃ N, ∀ k ≥ N, ∀ last ev, (∃ v evals, refine (fun v => v - 1) (1 / 10) k ⟨0, 0 - 1, 2, 2 - 1⟩ last ev = .done true (some v) evals ∧ v ∈ Ioo (0 : ℝ) 2 ∧ 0 < v - 1 ∧ v - 1 ≤ 1 / 10) ∨
    ∃ i < k, (Bracket.after (fun v => v - 1) ⟨0, 0 - 1, 2, 2 - 1⟩ i).newW - 1 = 0 :=
  C94_converges_partial (fun v => v - 1) (tol := 1 / 10) (lV := 0) (uV := 2) (by norm_num) (by norm_num) (by norm_num) (by norm_num) (by fun_prop)

/-- C94 (what the code does not do): for a system that is neutrally stable (growth rate exactly zero, as without structural damping) up to the flutter velocity, the first refinement
step makes both ends of the bracket have zero growth and the next interpolation divides by zero. -/
theorem C94_undamped_fails : ∃ crit : ℝ → ℝ, Continuous crit ∧ (∀ v, v ≤ 3 / 4 → crit v = 0) ∧ (∀ v, 3 / 4 < v → 0 < crit v) ∧
    ∀ (k : Nat), 2 ≤ k → ∀ last ev, refine crit (1 / 10) k ⟨0, crit 0, 1, crit 1⟩ last ev = .nan := by
  refine ⟨fun v => max 0 (4 * v - 3), by fun_prop, fun v hv => max_eq_left (by linarith), fun v hv => lt_max_of_lt_right (by linarith), ?_⟩
  intro k hk last ev
  obtain ⟨k, rfl⟩ : ∃ j, k = j + 2 := ⟨k - 2, by omega⟩
  have e0 : max (0 : ℝ) (4 * 0 - 3) = 0 := by norm_num
  have e1 : max (0 : ℝ) (4 * 1 - 3) = 1 := by norm_num
  have ew : (Bracket.newW ⟨0, 0, 1, 1⟩) = 10001 / 20000 := by norm_num [Bracket.newW]
  have e2 : max (0 : ℝ) (4 * (10001 / 20000) - 3) = 0 := by norm_num
  simp only [e0, e1]
  rw [refine, if_neg (by norm_num)]
  simp only [ew, e2]
  rw [if_neg (by norm_num), Bracket.update, if_neg (by norm_num), refine, if_pos (by norm_num)]

/-- C94 (what the code does not do): with a tolerance of at most 1e-4 the interpolation, which aims at growth 1e-4, never succeeds even for an affine growth rate. -/
theorem C94_tight_tolerance_fails {tol : ℝ} (ht : tol ≤ 1 / 10000) (k : Nat) : ∀ (last : Option ℝ) (ev : List ℝ),
    ∃ sol evals, refine (fun v => v - 1) tol k ⟨0, -1, 2, 1⟩ last ev = .done false sol evals := by
  have : ∀ (k : Nat) (x : ℝ) (last : Option ℝ) (ev : List ℝ), 1 / 10000 < x → ∃ sol evals, refine (fun v => v - 1) tol k ⟨0, -1, 1 + x, x⟩ last ev = .done false sol evals := by
    intro k
    induction k with
    | zero => intro x last ev _; exact ⟨_, _, rfl⟩
    | succ k ih =>
      intro x last ev hx
      have hx1 : x - -1 ≠ 0 := by intro h; linarith
      have ew : (Bracket.newW ⟨0, -1, 1 + x, x⟩) = 1 + (x + 1 / 10000) / 2 := by
        have : x + 1 ≠ 0 := by intro h; apply hx1; linarith
        simp only [Bracket.newW, sub_neg_eq_add]
        field_simp
        ring
      have e : (1 + (x + 1 / 10000) / 2 - 1 : ℝ) = (x + 1 / 10000) / 2 := by ring
      rw [refine, if_neg hx1]
      simp only [ew, e]
      rw [if_neg (by rintro ⟨-, h⟩; linarith), Bracket.update, if_neg (by intro h; linarith)]
      exact ih _ _ _ (by linarith)
  intro last ev
  have h := this k 1 last ev (by norm_num)
  norm_num at h
  exact h

end Verif.FlutterSearch
