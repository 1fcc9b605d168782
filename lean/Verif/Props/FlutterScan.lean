import Verif.Props.FlutterSearch
/-
  C92 (scan grid and crossovers), C91 for identified crossovers, C93 (mode tracking).
-/
namespace Verif.FlutterSearch
open Set Filter Topology

/-! ### C92: grid -/

theorem gridLoop_spec (d : ℝ) : ∀ (k : Nat) (v : ℝ), (gridLoop d k v).length = k ∧ ∀ i < k, (gridLoop d k v)[i]? = some (v + i * d)
  | 0, v => by simp [gridLoop]
  | k + 1, v => by
    obtain ⟨h1, h2⟩ := gridLoop_spec d k (v + d)
    refine ⟨by simp [gridLoop, h1], fun i hi => ?_⟩
    cases i with
    | zero => simp [gridLoop]
    | succ i =>
      rw [gridLoop, List.getElem?_cons_succ, h2 i (by omega)]
      push_cast; congr 1; ring

theorem grid_set (d v w : ℝ) (n : Nat) :
    ((gridLoop d (n + 1) v).set n w).length = n + 1 ∧ (∀ i < n, ((gridLoop d (n + 1) v).set n w)[i]? = some (v + i * d)) ∧ ((gridLoop d (n + 1) v).set n w)[n]? = some w := by
  obtain ⟨h1, h2⟩ := gridLoop_spec d (n + 1) v
  refine ⟨by simp [h1], fun i hi => ?_, by simp [h1]⟩
  rw [List.getElem?_set_ne (by omega)]; exact h2 i (by omega)

/-- C92: the scan analyses `n + 1` equally spaced velocities, from the lower to the upper end of the range. -/
theorem C92_grid (lo hi : ℝ) (n : Nat) (hn : 0 < n) :
    (scanGrid lo hi n).length = n + 1 ∧ ∀ i ≤ n, (scanGrid lo hi n)[i]? = some (lo + i * ((hi - lo) / n)) := by
  obtain ⟨h1, h2, h3⟩ := grid_set ((hi - lo) / n) lo hi n
  refine ⟨h1, fun i hi' => ?_⟩
  rcases Nat.lt_or_ge i n with h | h
  · exact h2 i h
  · have : i = n := by omega
    subst this
    rw [scanGrid, h3]
    have : (i : ℝ) ≠ 0 := by positivity
    congr 1; field_simp; ring

/-- C92: both ends of the range are analysed exactly, and the velocities increase strictly for a proper range. -/
theorem C92_grid_ends (lo hi : ℝ) (n : Nat) (hn : 0 < n) :
    (scanGrid lo hi n).head? = some lo ∧ (scanGrid lo hi n).getLast? = some hi ∧ (lo < hi → (scanGrid lo hi n).Pairwise (· < ·)) := by
  obtain ⟨h1, h2⟩ := C92_grid lo hi n hn
  have hn' : (n : ℝ) ≠ 0 := by positivity
  refine ⟨?_, ?_, fun h => ?_⟩
  · rw [List.head?_eq_getElem?, h2 0 (Nat.zero_le _)]; simp
  · rw [List.getLast?_eq_getElem?, h1, Nat.add_sub_cancel, h2 n le_rfl]; congr 1; field_simp; ring
  · rw [List.pairwise_iff_getElem]
    intro i j hi' hj hij
    have a := h2 i (by omega)
    have b := h2 j (by omega)
    rw [List.getElem?_eq_getElem hi', Option.some.injEq] at a
    rw [List.getElem?_eq_getElem hj, Option.some.injEq] at b
    rw [a, b]
    have : (i : ℝ) < j := by exact_mod_cast hij
    have : 0 < (hi - lo) / n := div_pos (by linarith) (by positivity)
    nlinarith

/-- C92: the U-g scan goes through equally spaced reduced frequencies from the upper to the lower end of the range. -/
theorem C92_ug_grid (lo hi : ℝ) (n : Nat) (hn : 0 < n) :
    (ugGrid lo hi n).length = n + 1 ∧ (∀ i ≤ n, (ugGrid lo hi n)[i]? = some (hi - i * ((hi - lo) / n))) ∧ (ugGrid lo hi n).head? = some hi ∧ (ugGrid lo hi n).getLast? = some lo := by
  obtain ⟨h1, h2, h3⟩ := grid_set (-((hi - lo) / n)) hi lo n
  have hn' : (n : ℝ) ≠ 0 := by positivity
  have key : ∀ i ≤ n, (ugGrid lo hi n)[i]? = some (hi - i * ((hi - lo) / n)) := fun i hi' => by
    rcases Nat.lt_or_ge i n with h | h
    · rw [ugGrid, h2 i h]; congr 1; ring
    · have : i = n := by omega
      subst this
      rw [ugGrid, h3]
      congr 1; field_simp; ring
  refine ⟨h1, key, ?_, ?_⟩
  · rw [List.head?_eq_getElem?, key 0 (Nat.zero_le _)]; simp
  · rw [List.getLast?_eq_getElem?, ugGrid, h1, Nat.add_sub_cancel, h3]

/-- C92: a second scan changes nothing. -/
theorem C92_rescan {lo hi : ℝ} {n : Nat} {table : List ℝ → List (List Pt)} {s s' : Solver} (h : scan lo hi n table s = some s') : scan lo hi n table s' = some s' := by
  have hne : s'.sols.isEmpty = false := by
    unfold scan at h
    split_ifs at h with he
    · cases hm : identify (table (scanGrid lo hi n)) with
      | none => rw [hm] at h; simp at h
      | some m =>
        rw [hm] at h
        simp at h
        rw [← h]
        have := (grid_set ((hi - lo) / n) lo hi n).1
        simp only [scanGrid]
        cases hg : (gridLoop ((hi - lo) / n) (n + 1) lo).set n hi with
        | nil => rw [hg] at this; simp at this
        | cons => rfl
    · cases h
      simpa using he
  rw [scan, if_neg (by rw [hne]; simp)]

/-! ### C92: crossovers -/

/-- The mode changes from `g ≤ 0` to `g > 0` between neighbours `p`, `q`, one of which is not at rest; entry under the velocity of `p`. -/
def UpAt (i : Nat) (p q : Pt) (e : ℝ × Cross) : Prop := p.g ≤ 0 ∧ q.g > 0 ∧ e = (p.V, ⟨i, ⟨p.V, p.g, q.V, q.g⟩, none⟩)
/-- The mode changes from `g > 0` to `g ≤ 0` between neighbours `p`, `q`; entry under the velocity of `q`. -/
def DownAt (i : Nat) (p q : Pt) (e : ℝ × Cross) : Prop := p.g > 0 ∧ q.g ≤ 0 ∧ e = (q.V, ⟨i, ⟨q.V, q.g, p.V, p.g⟩, none⟩)
/-- The mode is unstable at the first velocity. -/
def FirstAt (i : Nat) (p : Pt) (e : ℝ × Cross) : Prop := p.g > 0 ∧ e = (p.V, ⟨i, ⟨p.V, p.g, p.V, p.g⟩, none⟩)
/-- Neighbouring solutions. -/
def Neighbours (pts : List Pt) (j : Nat) (p q : Pt) : Prop := pts[j]? = some p ∧ pts[j + 1]? = some q
/-- At least one of two solutions is not at rest (`|V| > 1e-5`). -/
def Moving (p q : Pt) : Prop := 1 / 100000 < |p.V| ∨ 1 / 100000 < |q.V|
/-- The mode is retained: its damping reaches `1e-5` somewhere and its frequency is nonnegative somewhere. -/
def Retained (pts : List Pt) : Prop := (∃ p ∈ pts, 1 / 100000 ≤ |p.g|) ∧ ∃ p ∈ pts, 0 ≤ p.w

theorem foldl_max_le {f : Pt → ℝ} : ∀ (pts : List Pt) (a b : ℝ), pts.foldl (fun a p => if f p > a then f p else a) a < b ↔ a < b ∧ ∀ p ∈ pts, f p < b := by
  intro pts
  induction pts with
  | nil => simp
  | cons p pts ih =>
    intro a b
    rw [List.foldl_cons, ih]
    simp only [List.mem_cons, forall_eq_or_imp]
    split_ifs with h
    · constructor
      · rintro ⟨h1, h2⟩; exact ⟨lt_trans h h1, h1, h2⟩
      · rintro ⟨-, h1, h2⟩; exact ⟨h1, h2⟩
    · constructor
      · rintro ⟨h1, h2⟩; exact ⟨h1, lt_of_le_of_lt (not_lt.1 h) h1, h2⟩
      · rintro ⟨h1, -, h2⟩; exact ⟨h1, h2⟩

theorem neglect_iff (pts : List Pt) : neglect pts = false ↔ Retained pts := by
  unfold neglect Retained
  simp only [Bool.or_eq_false_iff, decide_eq_false_iff_not, foldl_max_le, ctol]
  constructor
  · rintro ⟨h1, h2⟩
    constructor
    · by_contra hc; push Not at hc
      exact h1 ⟨by norm_num, hc⟩
    · by_contra hc; push Not at hc
      exact h2 ⟨by norm_num, hc⟩
  · rintro ⟨⟨p, hp, h1⟩, q, hq, h2⟩
    exact ⟨fun h => absurd (h.2 p hp) (not_lt.2 h1), fun h => absurd (h.2 q hq) (not_lt.2 h2)⟩

theorem mem_pairCross (i : Nat) : ∀ (pts : List Pt) (e : ℝ × Cross), e ∈ pairCross i pts ↔ ∃ j p q, Neighbours pts j p q ∧ Moving p q ∧ (UpAt i p q e ∨ DownAt i p q e)
  | [], e => by simp [pairCross, Neighbours]
  | [p], e => by
    simp only [pairCross, List.not_mem_nil, false_iff]
    rintro ⟨j, p', q, ⟨-, h⟩, -⟩
    simp at h
  | p :: q :: l, e => by
    rw [pairCross, List.mem_append, mem_pairCross i (q :: l) e]
    have hfirst : e ∈ (if |p.V| > ctol ∨ |q.V| > ctol then
        if p.g ≤ 0 ∧ q.g > 0 then [(p.V, (⟨i, ⟨p.V, p.g, q.V, q.g⟩, none⟩ : Cross))]
        else if p.g > 0 ∧ q.g ≤ 0 then [(q.V, ⟨i, ⟨q.V, q.g, p.V, p.g⟩, none⟩)] else [] else []) ↔ Moving p q ∧ (UpAt i p q e ∨ DownAt i p q e) := by
      unfold Moving UpAt DownAt ctol
      by_cases hm : |p.V| > 1 / 100000 ∨ |q.V| > 1 / 100000
      · rw [if_pos hm]
        have hm' : 1 / 100000 < |p.V| ∨ 1 / 100000 < |q.V| := hm
        by_cases h1 : p.g ≤ 0 ∧ q.g > 0
        · rw [if_pos h1]
          have : ¬ p.g > 0 := not_lt.2 h1.1
          simp only [List.mem_singleton]
          tauto
        · rw [if_neg h1]
          by_cases h2 : p.g > 0 ∧ q.g ≤ 0
          · rw [if_pos h2]; simp only [List.mem_singleton]; tauto
          · rw [if_neg h2]; simp only [List.not_mem_nil, false_iff]; tauto
      · rw [if_neg hm]
        have hm' : ¬ (1 / 100000 < |p.V| ∨ 1 / 100000 < |q.V|) := hm
        simp only [List.not_mem_nil, false_iff]; tauto
    rw [hfirst]
    constructor
    · rintro (⟨h1, h2⟩ | ⟨j, p', q', ⟨h1, h2⟩, h3⟩)
      · exact ⟨0, p, q, ⟨rfl, rfl⟩, h1, h2⟩
      · exact ⟨j + 1, p', q', ⟨by simpa using h1, by simpa using h2⟩, h3⟩
    · rintro ⟨j, p', q', ⟨h1, h2⟩, h3⟩
      cases j with
      | zero =>
        simp at h1 h2
        subst h1 h2
        exact Or.inl h3
      | succ j => exact Or.inr ⟨j, p', q', ⟨by simpa using h1, by simpa using h2⟩, h3⟩

/-- Entry `e` is a crossover of mode `i` with the tracked values `pts`. -/
def IsCross (i : Nat) (pts : List Pt) (e : ℝ × Cross) : Prop :=
  Retained pts ∧ ((∃ j p q, Neighbours pts j p q ∧ Moving p q ∧ (UpAt i p q e ∨ DownAt i p q e)) ∨ ∃ p q, Neighbours pts 0 p q ∧ Moving p q ∧ FirstAt i p e)

theorem modeCross_spec (i : Nat) (pts : List Pt) (h2 : 2 ≤ pts.length) : ∃ es, modeCross i pts = some es ∧ ∀ e, e ∈ es ↔ IsCross i pts e := by
  obtain ⟨p, q, l, rfl⟩ : ∃ p q l, pts = p :: q :: l := by
    match pts, h2 with
    | p :: q :: l, _ => exact ⟨p, q, l, rfl⟩
  have hf : ∃ f, firstCross i (neglect (p :: q :: l)) (p :: q :: l) = some f ∧ ∀ e, e ∈ f ↔ neglect (p :: q :: l) = false ∧ Moving p q ∧ FirstAt i p e := by
    unfold firstCross Moving FirstAt ctol
    dsimp only
    generalize (1 / 100000 : ℝ) = T
    cases hn : neglect (p :: q :: l)
    · by_cases h1 : |p.V| > T
      · have h1' : T < |p.V| := h1
        rw [if_pos h1]
        refine ⟨_, rfl, fun e => ?_⟩
        by_cases hg : p.g > 0
        · simp [hg, h1']
        · simp [hg]
      · have h1' : ¬ T < |p.V| := h1
        rw [if_neg h1]
        refine ⟨_, rfl, fun e => ?_⟩
        by_cases hg : p.g > 0 <;> by_cases hq : |q.V| > T
        · have hq' : T < |q.V| := hq
          simp only [hq, hg]; simp [hq']
        · have hq' : ¬ T < |q.V| := hq
          simp only [hq, hg]; simp; tauto
        · simp only [hg]; simp
        · simp only [hg]; simp
    · by_cases h1 : |p.V| > T
      · rw [if_pos h1]; exact ⟨_, rfl, fun e => by simp⟩
      · rw [if_neg h1]; exact ⟨_, rfl, fun e => by simp⟩
  obtain ⟨f, hf1, hf2⟩ := hf
  refine ⟨_, by rw [modeCross, hf1]; rfl, fun e => ?_⟩
  have hnb : (∃ p' q', Neighbours (p :: q :: l) 0 p' q' ∧ Moving p' q' ∧ FirstAt i p' e) ↔ Moving p q ∧ FirstAt i p e := by
    constructor
    · rintro ⟨p', q', ⟨a, b⟩, h⟩
      simp at a b; subst a b; exact h
    · intro h; exact ⟨p, q, ⟨rfl, rfl⟩, h⟩
  rw [List.mem_append, hf2, IsCross, hnb]
  cases hn : neglect (p :: q :: l)
  · have := (neglect_iff _).1 hn
    rw [if_neg (by simp), mem_pairCross]; simp only [this, true_and]
  · have : ¬ Retained (p :: q :: l) := by rw [← neglect_iff, hn]; simp
    simp [this]

theorem insertAll_spec : ∀ (es : List (ℝ × Cross)) (m : CMap), (insertAll m es).Perm (m ++ es) ∧ (SortedK m → SortedK (insertAll m es))
  | [], m => by simp [insertAll]
  | e :: es, m => by
    obtain ⟨h1, h2⟩ := insertAll_spec es (mmInsert e.1 e.2 m)
    refine ⟨?_, fun h => h2 (mmInsert_sorted _ _ _ h)⟩
    refine h1.trans ?_
    have := (mmInsert_perm e.1 e.2 m).append_right es
    exact this.trans (by simpa using List.perm_middle.symm)

theorem identifyLoop_spec : ∀ (modes : List (List Pt)) (i : Nat) (m : CMap), (∀ pts ∈ modes, 2 ≤ pts.length) → SortedK m →
    ∃ m', identifyLoop i modes m = some m' ∧ SortedK m' ∧ ∀ e, e ∈ m' ↔ e ∈ m ∨ ∃ j pts, modes[j]? = some pts ∧ IsCross (i + j) pts e
  | [], i, m, _, hs => ⟨m, rfl, hs, by simp⟩
  | pts :: modes, i, m, h, hs => by
    obtain ⟨es, h1, h2⟩ := modeCross_spec i pts (h pts (by simp))
    obtain ⟨p1, p2⟩ := insertAll_spec es m
    obtain ⟨m', a1, a2, a3⟩ := identifyLoop_spec modes (i + 1) (insertAll m es) (fun q hq => h q (List.mem_cons_of_mem _ hq)) (p2 hs)
    refine ⟨m', by rw [identifyLoop, h1]; exact a1, a2, fun e => ?_⟩
    rw [a3, p1.mem_iff, List.mem_append, h2]
    constructor
    · rintro ((h | h) | ⟨j, q, hq, hc⟩)
      · exact Or.inl h
      · exact Or.inr ⟨0, pts, rfl, h⟩
      · exact Or.inr ⟨j + 1, q, by simpa using hq, by rw [show i + (j + 1) = i + 1 + j by omega]; exact hc⟩
    · rintro (h | ⟨j, q, hq, hc⟩)
      · exact Or.inl (Or.inl h)
      · cases j with
        | zero =>
          simp at hq; subst hq
          exact Or.inl (Or.inr hc)
        | succ j =>
          exact Or.inr ⟨j, q, by simpa using hq, by rw [show i + 1 + j = i + (j + 1) by omega]; exact hc⟩

/-- C92: with at least two solutions, the recorded crossovers are exactly the changes of sign of `g` between neighbouring solutions of the retained modes, and the retained modes that
are unstable at the first solution; they are kept in order and none is refined yet. -/
theorem C92_crossovers (modes : List (List Pt)) (h : ∀ pts ∈ modes, 2 ≤ pts.length) :
    ∃ m, identify modes = some m ∧ WF m ∧ (∀ e ∈ m, e.2.root = none) ∧ ∀ e, e ∈ m ↔ ∃ i pts, modes[i]? = some pts ∧ IsCross i pts e := by
  obtain ⟨m, h1, h2, h3⟩ := identifyLoop_spec modes 0 [] h (by simp [SortedK])
  have hnone : ∀ e ∈ m, e.2.root = none := by
    intro e he
    rcases (h3 e).1 he with h | ⟨j, pts, -, -, ⟨_, p, q, -, -, (⟨-, -, rfl⟩ | ⟨-, -, rfl⟩)⟩ | ⟨p, q, -, -, -, rfl⟩⟩
    · simp at h
    · rfl
    · rfl
    · rfl
  refine ⟨m, h1, ⟨h2, fun e he v hv => ?_⟩, hnone, fun e => ?_⟩
  · rw [hnone e he] at hv; simp at hv
  · rw [h3]; simp

/-- C92 (violated): with a single solution at rest (no divisions, range ending at zero velocity) the identification dereferences the end of the container. -/
theorem C92_single_solution_fails (g w : ℝ) : identify [[⟨0, g, w⟩]] = none := by
  simp [identify, identifyLoop, modeCross, firstCross, ctol]

/-- C92 (violated): a change of sign between two velocities that both are at most `1e-5` is not recorded (the test meant for the damping looks at the velocity). -/
theorem C92_slow_crossing_fails : identify [[⟨0, -1, 1⟩, ⟨1 / 100000, 1, 1⟩]] = some [] := by
  obtain ⟨m, h1, -, -, h4⟩ := C92_crossovers [[⟨0, -1, 1⟩, ⟨1 / 100000, 1, 1⟩]] (by simp)
  rw [h1, Option.some.injEq, List.eq_nil_iff_forall_not_mem]
  intro e he
  have hm : ¬ Moving ⟨0, -1, 1⟩ ⟨1 / 100000, 1, 1⟩ := by
    have : |(1 / 100000 : ℝ)| = 1 / 100000 := abs_of_pos (by norm_num)
    simp only [Moving, this, abs_zero]; norm_num
  obtain ⟨i, pts, hi, -, h⟩ := (h4 e).1 he
  obtain rfl : i = 0 := by
    cases i with
    | zero => rfl
    | succ i => simp at hi
  simp at hi
  subst hi
  have key : ∀ j p q, Neighbours [⟨0, -1, 1⟩, ⟨1 / 100000, 1, 1⟩] j p q → ¬ Moving p q := by
    rintro j p q ⟨a, b⟩
    cases j with
    | zero => simp at a b; subst a b; simpa using hm
    | succ j => simp at b
  rcases h with ⟨j, p, q, hn, hm', -⟩ | ⟨p, q, hn, hm', -⟩
  · exact key j p q (by simpa using hn) hm'
  · exact key 0 p q (by simpa using hn) hm'

/-! ### C91 for the identified crossovers -/

/-- A mode that is not unstable at the first solution and is at some later one has changed sign in between. -/
theorem up_before (pts : List Pt) (h0 : ∀ p, pts[0]? = some p → p.g ≤ 0) : ∀ (j : Nat) (q : Pt), pts[j]? = some q → 0 < q.g →
    ∃ j' p' q', j' < j ∧ Neighbours pts j' p' q' ∧ p'.g ≤ 0 ∧ 0 < q'.g := by
  intro j
  induction j with
  | zero => intro q hq hg; exact absurd (h0 q hq) (not_le.2 hg)
  | succ j ih =>
    intro q hq hg
    obtain ⟨p, hp⟩ : ∃ p, pts[j]? = some p := by
      have : j + 1 < pts.length := (List.getElem?_eq_some_iff.1 hq).1
      exact ⟨_, List.getElem?_eq_getElem (by omega : j < pts.length)⟩
    by_cases hg' : p.g ≤ 0
    · exact ⟨j, p, q, by omega, ⟨hp, hq⟩, hg', hg⟩
    · obtain ⟨j', p', q', h1, h2⟩ := ih p hp (not_le.1 hg')
      exact ⟨j', p', q', by omega, h2⟩

/-- C91: for tables of tracked roots over increasing velocities (only the first possibly at rest) in which no retained mode is unstable at the first velocity, the root returned by
`find_critical_root` right after the scan has the smallest velocity among the roots that refining every crossover would give, and it is one of those. -/
theorem C91_critical_identified (modes : List (List Pt)) (h2 : ∀ pts ∈ modes, 2 ≤ pts.length) (hV : ∀ pts ∈ modes, pts.Pairwise fun p q => p.V < q.V)
    (hmv : ∀ pts ∈ modes, ∀ j p q, Neighbours pts j p q → Moving p q) (h0 : ∀ pts ∈ modes, Retained pts → ∀ p, pts[0]? = some p → p.g ≤ 0)
    (g : Cross → ℝ → ℝ) {tol : ℝ} (ht : 0 ≤ tol) {iters : Nat} (hi : 0 < iters) {m : CMap} (hm : identify modes = some m) (hne : m ≠ []) (fuel : Nat) (hf : m.length ≤ fuel) :
    ∃ m' v, criticalRoot (fun c => bisect (g c) tol iters c.br none []) fuel m = .ok (m', some v) ∧
      (∃ e ∈ m, (bisect (g e.2) tol iters e.2.br none []).handed = some v) ∧ ∀ e ∈ m, ∀ v', (bisect (g e.2) tol iters e.2.br none []).handed = some v' → v ≤ v' := by
  obtain ⟨m0, e1, hw, hr, hc⟩ := C92_crossovers modes h2
  rw [hm] at e1; cases e1
  have hlt : ∀ pts ∈ modes, ∀ (i j : Nat) (p q : Pt), i < j → pts[i]? = some p → pts[j]? = some q → p.V < q.V := by
    intro pts hp i j p q hij h1 h2
    obtain ⟨a1, rfl⟩ := List.getElem?_eq_some_iff.1 h1
    obtain ⟨b1, rfl⟩ := List.getElem?_eq_some_iff.1 h2
    exact List.pairwise_iff_getElem.1 (hV pts hp) i j a1 b1 hij
  -- every crossover is a change of sign
  have hcls : ∀ e ∈ m, ∃ i pts, modes[i]? = some pts ∧ pts ∈ modes ∧ Retained pts ∧ ∃ j p q, Neighbours pts j p q ∧ (UpAt i p q e ∨ DownAt i p q e) := by
    intro e he
    obtain ⟨i, pts, hi', hret, hx⟩ := (hc e).1 he
    have hp : pts ∈ modes := List.mem_of_getElem? hi'
    refine ⟨i, pts, hi', hp, hret, ?_⟩
    rcases hx with ⟨j, p, q, hn, -, hud⟩ | ⟨p, q, hn, -, hg, -⟩
    · exact ⟨j, p, q, hn, hud⟩
    · exact absurd (h0 pts hp hret p hn.1) (not_le.2 hg)
  have hok : ∀ e ∈ m, e.2.br.Ok := by
    intro e he
    obtain ⟨i, pts, -, -, -, j, p, q, -, (⟨a, b, rfl⟩ | ⟨a, b, rfl⟩)⟩ := hcls e he
    · exact ⟨a, b⟩
    · exact ⟨b, a⟩
  have hres : ∀ e ∈ m, ∃ v, (bisect (g e.2) tol iters e.2.br none []).handed = some v ∧ v ∈ uIcc e.2.br.lV e.2.br.uV := by
    intro e he
    obtain ⟨ok, sol, evals, e1, -⟩ := C90_inside (g e.2) ht iters e.2.br (hok e he)
    obtain ⟨v, rfl, -, hv⟩ := (C90_result (g e.2) ht iters e.2.br (hok e he) e1).1 hi
    exact ⟨v, by rw [e1]; rfl, hv⟩
  obtain ⟨m', v, a1, -, -, -, a5, a6⟩ := C91_critical (fun c => bisect (g c) tol iters c.br none []) m hw hne
    (fun e he _ => by obtain ⟨v, hv, -⟩ := hres e he; simp [hv])
    (by
      intro e he _ v hv
      obtain ⟨v1, hv1, hin⟩ := hres e he
      rw [hv1] at hv; cases hv
      obtain ⟨i, pts, hi', hp, hret, j, p, q, hn, (⟨a, b, rfl⟩ | ⟨a, b, rfl⟩)⟩ := hcls e he
      · left
        have := hlt pts hp j (j + 1) p q (by omega) hn.1 hn.2
        simp only [uIcc_of_le this.le, mem_Icc] at hin
        exact hin.1
      · right
        have hpq := hlt pts hp j (j + 1) p q (by omega) hn.1 hn.2
        simp only [uIcc_of_ge hpq.le, mem_Icc] at hin
        obtain ⟨j', p', q', hj, hn', hg1, hg2⟩ := up_before pts (h0 pts hp hret) j p hn.1 a
        let e' : ℝ × Cross := (p'.V, ⟨i, ⟨p'.V, p'.g, q'.V, q'.g⟩, none⟩)
        have he' : e' ∈ m := (hc e').2 ⟨i, pts, hi', hret, Or.inl ⟨j', p', q', hn', hmv pts hp j' p' q' hn', Or.inl ⟨hg1, hg2, rfl⟩⟩⟩
        obtain ⟨v', hv', hin'⟩ := hres e' he'
        have hpq' := hlt pts hp j' (j' + 1) p' q' (by omega) hn'.1 hn'.2
        have hin'' : v' ∈ uIcc p'.V q'.V := hin'
        rw [uIcc_of_le hpq'.le, mem_Icc] at hin''
        refine ⟨e', he', v', hv', hin''.1, hin''.2.trans (le_trans ?_ hin.1)⟩
        rcases Nat.lt_or_ge (j' + 1) j with h | h
        · exact (hlt pts hp (j' + 1) j q' p h hn'.2 hn.1).le
        · have : j' + 1 = j := by omega
          have h2 := hn'.2
          rw [this, hn.1] at h2; cases h2; exact le_rfl) fuel hf
  have hvel : ∀ e ∈ m, vel (fun c => bisect (g c) tol iters c.br none []) e.2 = (bisect (g e.2) tol iters e.2.br none []).handed := by
    intro e he; simp only [vel, hr e he]
  refine ⟨m', v, a1, ?_, fun e he v' hv' => a6 e he v' (by rw [hvel e he]; exact hv')⟩
  obtain ⟨e, he, hv⟩ := a5
  exact ⟨e, he, by rw [← hvel e he]; exact hv⟩

/-- Non-vacuity: one mode crossing once, over three velocities. -/
example : ∃ m, identify [[⟨0, -1, 1⟩, ⟨1, -1, 1⟩, ⟨2, 1, 1⟩]] = some m ∧ m ≠ [] ∧ ∃ m' v, criticalRoot (fun c => bisect (fun x => 2 * x + -3) (1 / 10) 5 c.br none []) m.length m = .ok (m', some v) := by
  have hlen : ∀ pts ∈ [[(⟨0, -1, 1⟩ : Pt), ⟨1, -1, 1⟩, ⟨2, 1, 1⟩]], 2 ≤ pts.length := by simp
  obtain ⟨m, h1, -, -, h4⟩ := C92_crossovers _ hlen
  have hret : Retained [(⟨0, -1, 1⟩ : Pt), ⟨1, -1, 1⟩, ⟨2, 1, 1⟩] := ⟨⟨_, List.mem_cons_self, by norm_num⟩, ⟨_, List.mem_cons_self, by norm_num⟩⟩
  have hin : ((1 : ℝ), (⟨0, ⟨1, -1, 2, 1⟩, none⟩ : Cross)) ∈ m :=
    (h4 _).2 ⟨0, _, rfl, hret, Or.inl ⟨1, ⟨1, -1, 1⟩, ⟨2, 1, 1⟩, ⟨rfl, rfl⟩, Or.inl (by norm_num), Or.inl ⟨by norm_num, by norm_num, rfl⟩⟩⟩
  have hne : m ≠ [] := List.ne_nil_of_mem hin
  obtain ⟨m', v, h, -⟩ := C91_critical_identified _ hlen (by simp)
    (by
      intro pts hp j p q hn
      simp at hp; subst hp
      match j, hn with
      | 0, ⟨a, b⟩ => simp at a b; subst a b; right; norm_num
      | 1, ⟨a, b⟩ => simp at a b; subst a b; left; norm_num
      | j + 2, ⟨a, b⟩ => simp at b)
    (by intro pts hp _ p h; simp at hp; subst hp; simp at h; subst h; norm_num) (fun _ x => 2 * x + -3) (tol := 1 / 10) (by norm_num) (iters := 5) (by norm_num) h1 hne m.length le_rfl
  exact ⟨m, h1, hne, m', v, h⟩

/-! ### C93 -/

theorem swapAt_perm {R : Type} (l : List R) (i j : Nat) : (swapAt l i j).Perm l := by
  unfold swapAt
  cases hi : l[i]? with
  | none => exact List.Perm.refl _
  | some a =>
    cases hj : l[j]? with
    | none => exact List.Perm.refl _
    | some b =>
      obtain ⟨h1, rfl⟩ := List.getElem?_eq_some_iff.1 hi
      obtain ⟨h2, rfl⟩ := List.getElem?_eq_some_iff.1 hj
      exact List.set_set_perm h1 h2

theorem sortLoop_perm {R : Type} (w : R → R → Option EReal) : ∀ (prev : List R) (i : Nat) (cur : List R), (sortLoop w prev i cur).Perm cur
  | [], _, _ => List.Perm.refl _
  | r :: l, i, cur => by
    rw [sortLoop]
    exact (sortLoop_perm w l (i + 1) _).trans (swapAt_perm _ _ _)

/-- C93: `sort` reorders the roots; none is lost or duplicated. -/
theorem C93_permutation {R : Type} (w : R → R → Option EReal) (prev cur : List R) (h : cur ≠ []) : ∃ out, sortRoots w prev cur = some out ∧ out.Perm cur := by
  refine ⟨_, by rw [sortRoots, if_neg (by simpa using h)], sortLoop_perm _ _ _ _⟩

/-- C93 (violated): without roots the loop bound wraps around. -/
theorem C93_empty_fails {R : Type} (w : R → R → Option EReal) (prev : List R) : sortRoots w prev [] = none := rfl

theorem bestFrom_none {R : Type} (w : R → Option EReal) : ∀ (l : List R) (j : Nat) (mx : EReal) (best : Nat), (∀ s ∈ l, ¬ beats (w s) mx) → bestFrom w l j mx best = best
  | [], _, _, _, _ => rfl
  | r :: l, j, mx, best, h => by
    rw [bestFrom, if_neg (h r (by simp))]
    exact bestFrom_none w l (j + 1) mx best fun s hs => h s (List.mem_cons_of_mem _ hs)

theorem bestFrom_at {R : Type} (w : R → Option EReal) (s : R) (x : EReal) (hx : w s = some x) : ∀ (l : List R) (j t : Nat) (mx : EReal) (best : Nat), l.Nodup → l[t]? = some s → mx < x →
    (∀ r ∈ l, r ≠ s → ∀ y, w r = some y → y < x) → bestFrom w l j mx best = j + t
  | [], _, t, _, _, _, ht, _, _ => by simp at ht
  | r :: l, j, t, mx, best, hnd, ht, hmx, hlt => by
    rw [List.nodup_cons] at hnd
    cases t with
    | zero =>
      simp at ht; subst ht
      rw [bestFrom, if_pos ⟨x, hx, hmx⟩, hx]
      rw [bestFrom_none]
      · rfl
      · rintro q hq ⟨y, hy, hxy⟩
        have hne : q ≠ r := fun h => hnd.1 (h ▸ hq)
        exact absurd (hlt q (List.mem_cons_of_mem _ hq) hne y hy) (not_lt.2 hxy.le)
    | succ t =>
      rw [List.getElem?_cons_succ] at ht
      have hne : r ≠ s := fun h => hnd.1 (h ▸ List.mem_of_getElem? ht)
      rw [bestFrom]
      split_ifs with hb
      · obtain ⟨y, hy, -⟩ := hb
        rw [bestFrom_at w s x hx l (j + 1) t _ _ hnd.2 ht (by rw [hy]; exact hlt r (by simp) hne y hy) fun q hq => hlt q (List.mem_cons_of_mem _ hq)]
        omega
      · rw [bestFrom_at w s x hx l (j + 1) t _ _ hnd.2 ht hmx fun q hq => hlt q (List.mem_cons_of_mem _ hq)]
        omega

/-- `s` is the partner of reference root `r`: its weight is positive and exceeds that of every other current root (NaN weights do not count). -/
def Partner {R : Type} (w : R → R → Option EReal) (cur : List R) (r s : R) : Prop :=
  s ∈ cur ∧ ∃ x, w r s = some x ∧ 0 < x ∧ ∀ q ∈ cur, q ≠ s → ∀ y, w r q = some y → y < x

theorem swapAt_get {R : Type} (l : List R) (i j : Nat) (hi : i < l.length) (hj : j < l.length) (b : R) (hb : l[j]? = some b) :
    (swapAt l i j)[i]? = some b ∧ ∀ k, k ≠ i → k ≠ j → (swapAt l i j)[k]? = l[k]? := by
  unfold swapAt
  rw [List.getElem?_eq_getElem hi, hb]
  simp only
  refine ⟨?_, fun k h1 h2 => by rw [List.getElem?_set_ne (Ne.symm h2), List.getElem?_set_ne (Ne.symm h1)]⟩
  by_cases h : i = j
  · subst h
    rw [List.getElem?_eq_getElem hi] at hb
    simp [hi]; simpa using hb
  · rw [List.getElem?_set_ne (Ne.symm h)]; simp [hi]

theorem sortLoop_tracks {R : Type} (w : R → R → Option EReal) (f : Nat → R) : ∀ (prev : List R) (i : Nat) (cur : List R), cur.Nodup → i + prev.length < cur.length →
    (∀ k r, prev[k]? = some r → Partner w cur r (f (i + k))) → (∀ k < i, cur[k]? = some (f k)) → (∀ a b, a < i + prev.length → b < i + prev.length → f a = f b → a = b) →
    ∀ k < i + prev.length, (sortLoop w prev i cur)[k]? = some (f k)
  | [], i, cur, _, _, _, hdone, _ => by simpa [sortLoop] using hdone
  | r :: l, i, cur, hnd, hlen, hpart, hdone, hinj => by
    have hl : (r :: l).length = l.length + 1 := rfl
    rw [hl] at hlen hinj
    obtain ⟨hmem, x, hx, h0, hlt⟩ := hpart 0 r rfl
    rw [Nat.add_zero] at hmem hx hlt
    obtain ⟨j, hj, hjf⟩ := List.getElem_of_mem hmem
    have hji : i ≤ j := by
      by_contra hc
      have h1 := hdone j (by omega)
      rw [List.getElem?_eq_getElem hj, hjf, Option.some.injEq] at h1
      have := hinj i j (by omega) (by omega) h1
      omega
    have hbest : bestFrom (w r) (cur.drop i) i 0 (cur.length - 1) = j := by
      have hd : (cur.drop i)[j - i]? = some (f i) := by
        rw [List.getElem?_drop, show i + (j - i) = j by omega, List.getElem?_eq_getElem hj, hjf]
      rw [bestFrom_at (w r) (f i) x hx (cur.drop i) i (j - i) 0 _ (hnd.sublist (List.drop_sublist _ _)) hd h0 fun q hq => hlt q (List.mem_of_mem_drop hq)]
      omega
    have hi : i < cur.length := by omega
    obtain ⟨g1, g2⟩ := swapAt_get cur i j hi hj (f i) (by rw [List.getElem?_eq_getElem hj, hjf])
    have hp := swapAt_perm cur i j
    rw [sortLoop, hbest, hl, show i + (l.length + 1) = i + 1 + l.length by omega]
    refine sortLoop_tracks w f l (i + 1) (swapAt cur i j) (hp.nodup_iff.2 hnd) (by rw [hp.length_eq]; omega) ?_ ?_ (fun a b ha hb => hinj a b (by omega) (by omega))
    · intro k r' hr'
      obtain ⟨a, y, b1, b2, b3⟩ := hpart (k + 1) r' (by simpa using hr')
      rw [show i + 1 + k = i + (k + 1) by omega]
      exact ⟨hp.mem_iff.2 a, y, b1, b2, fun q hq => b3 q (hp.mem_iff.1 hq)⟩
    · intro k hk
      rcases Nat.lt_or_ge k i with h | h
      · rw [g2 k (by omega) (by omega)]; exact hdone k h
      · have : k = i := by omega
        subst this; exact g1

/-- C93: if the reference roots have distinct partners among the current roots, root `i` of the sorted solution is the partner of reference root `i`, whatever the order before. -/
theorem C93_tracking {R : Type} (w : R → R → Option EReal) (prev cur : List R) (hnd : cur.Nodup) (hlen : prev.length = cur.length) (hne : cur ≠ []) (f : Nat → R)
    (hpart : ∀ i r, prev[i]? = some r → Partner w cur r (f i)) (hinj : ∀ a b, a < cur.length → b < cur.length → f a = f b → a = b) :
    ∃ out, sortRoots w prev cur = some out ∧ out.length = cur.length ∧ ∀ i < cur.length, out[i]? = some (f i) := by
  have hpos : 0 < cur.length := List.length_pos_iff.2 hne
  have htl : (prev.take (cur.length - 1)).length = cur.length - 1 := by rw [List.length_take]; omega
  refine ⟨_, by rw [sortRoots, if_neg (by simpa using hne)], (sortLoop_perm _ _ _ _).length_eq, ?_⟩
  have hmain := sortLoop_tracks w f (prev.take (cur.length - 1)) 0 cur hnd (by rw [htl]; omega)
    (by
      intro k r hr
      rw [Nat.zero_add]
      exact hpart k r (by rw [List.getElem?_take] at hr; split_ifs at hr with h; exact hr))
    (by intro k hk; omega) (by intro a b ha hb; exact hinj a b (by omega) (by omega))
  rw [htl, Nat.zero_add] at hmain
  intro i hi
  rcases Nat.lt_or_ge i (cur.length - 1) with h | h
  · exact hmain i h
  · have hi' : i = cur.length - 1 := by omega
    have hp := sortLoop_perm w (prev.take (cur.length - 1)) 0 cur
    obtain ⟨r, hr⟩ : ∃ r, prev[i]? = some r := ⟨_, List.getElem?_eq_getElem (by omega)⟩
    obtain ⟨hmem, -⟩ := hpart i r hr
    obtain ⟨k, hk, hkf⟩ := List.getElem_of_mem (hp.mem_iff.2 hmem)
    have hk' : k < cur.length := by rw [← hp.length_eq]; exact hk
    rcases Nat.lt_or_ge k (cur.length - 1) with h' | h'
    · have := hmain k h'
      rw [List.getElem?_eq_getElem hk, hkf, Option.some.injEq] at this
      have := hinj i k hi hk' this
      omega
    · have : k = i := by omega
      subst this
      rw [List.getElem?_eq_getElem hk, hkf]

/-- C93: a root whose eigenvalue is unchanged and whose correlation is not zero has infinite weight, so that it outweighs all roots with another eigenvalue. -/
theorem C93_unchanged (c : ℝ) (hc : c ≠ 0) (c' d' : ℝ) (hd : d' ≠ 0) : ∃ x, weight c 0 = some x ∧ 0 < x ∧ ∀ y, weight c' d' = some y → y < x := by
  refine ⟨⊤, by simp [weight, hc], EReal.zero_lt_top, fun y hy => ?_⟩
  simp [weight, hd] at hy
  rw [← hy]; exact EReal.coe_lt_top _

/-- Non-vacuity: two roots in the wrong order (weights: same number 2, other 1). -/
example : ∃ out, sortRoots (fun a b : Nat => some (if a = b then 2 else 1)) [0, 1] [1, 0] = some out ∧ out.length = 2 ∧ ∀ i < 2, out[i]? = some i := by
  refine C93_tracking _ [0, 1] [1, 0] (by decide) rfl (by simp) id ?_ (fun a b _ _ h => h)
  intro i r h
  match i, h with
  | 0, h =>
    simp at h; subst h
    refine ⟨by simp, 2, by simp, by norm_num, fun q _ hq y hy => ?_⟩
    have : ¬ 0 = q := fun h => hq h.symm
    simp [this] at hy; rw [← hy]; norm_num
  | 1, h =>
    simp at h; subst h
    refine ⟨by simp, 2, by simp, by norm_num, fun q _ hq y hy => ?_⟩
    have : ¬ 1 = q := fun h => hq h.symm
    simp [this] at hy; rw [← hy]; norm_num
  | i + 2, h => simp at h

end Verif.FlutterSearch
