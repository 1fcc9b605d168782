import Verif.Model.UGScan
import Verif.Props.FlutterSearch
import Verif.Props.FlutterScan
/-
  C171 (crossovers of the U-g method and their root of smallest velocity).
-/
namespace Verif.UGScan
open Verif.FlutterSearch Set

/-! ### Specification -/

/-- Neighbouring solutions of a mode. -/
def Next (pts : List UGPt) (j : Nat) (p q : UGPt) : Prop := pts[j]? = some p ∧ pts[j + 1]? = some q
/-- Two solutions that are looked at: both physical and with damping below 3/4, not both at zero reduced frequency. -/
def Usable (p q : UGPt) : Prop := p.nonphysical = false ∧ q.nonphysical = false ∧ (1 / 100000 < |p.kr| ∨ 1 / 100000 < |q.kr|) ∧ |p.g| < 3 / 4 ∧ |q.g| < 3 / 4
/-- The damping of mode `i` changes from `g ≤ 0` at `p` to `g > 0` at `q`; the entry is under the velocity of `p`. -/
def Changes (i : Nat) (p q : UGPt) (e : ℝ × Cross) : Prop := p.g ≤ 0 ∧ 0 < q.g ∧ e = (p.V, ⟨i, ⟨p.kr, p.g, q.kr, q.g⟩, none⟩)
/-- A mode whose damping reaches `1e-5` somewhere. -/
def Damped (pts : List UGPt) : Prop := ∃ p ∈ pts, 1 / 100000 ≤ |p.g|
/-- A physical root without damping at zero reduced frequency, taken as found. -/
def AtRest (i : Nat) (pts : List UGPt) (e : ℝ × Cross) : Prop :=
  ∃ p, pts[0]? = some p ∧ |p.kr| < 1 / 100000 ∧ p.nonphysical = false ∧ |p.g| < 1 / 100000 ∧ e = (p.V, ⟨i, ⟨p.kr, p.g, p.kr, p.g⟩, some p.V⟩)
/-- A sign change of mode `i` between neighbours, in either direction. -/
def Crosses (i : Nat) (pts : List UGPt) (e : ℝ × Cross) : Prop := Damped pts ∧ ∃ j p q, Next pts j p q ∧ Usable p q ∧ (Changes i p q e ∨ Changes i q p e)

/-! ### Lemmas -/

theorem ugNeglect_iff (pts : List UGPt) : ugNeglect pts = false ↔ Damped pts := by
  have key : ∀ (pts : List UGPt) (a : ℝ), pts.foldl (fun a p => if |p.g| > a then |p.g| else a) a < ctol ↔ a < ctol ∧ ∀ p ∈ pts, |p.g| < ctol := by
    intro pts
    induction pts with
    | nil => simp
    | cons p pts ih =>
      intro a
      rw [List.foldl_cons, ih]
      simp only [List.mem_cons, forall_eq_or_imp]
      split_ifs with h
      · exact ⟨fun x => ⟨by linarith [x.1], x.1, x.2⟩, fun x => ⟨x.2.1, x.2.2⟩⟩
      · exact ⟨fun x => ⟨x.1, by linarith [x.1], x.2⟩, fun x => ⟨x.1, x.2.2⟩⟩
  rw [ugNeglect, decide_eq_false_iff_not, key]
  constructor
  · intro h
    by_contra hn
    simp only [Damped, not_exists, not_and, not_le] at hn
    exact h ⟨by norm_num [ctol], hn⟩
  · rintro ⟨p, hp, h⟩ h2
    exact absurd (h2.2 p hp) (not_lt.2 h)

theorem use_iff (p q : UGPt) : ugUse p q ↔ Usable p q := by
  unfold ugUse Usable ctol; tauto

theorem usable_symm {p q : UGPt} : Usable p q ↔ Usable q p := by
  unfold Usable; tauto

theorem mem_ugPairs (i : Nat) (e : ℝ × Cross) : ∀ pts : List UGPt, e ∈ ugPairs i pts ↔ ∃ j p q, Next pts j p q ∧ Usable p q ∧ (Changes i p q e ∨ Changes i q p e)
  | [] => by simp [ugPairs, Next]
  | [p] => by
    simp only [ugPairs, List.not_mem_nil, false_iff]
    rintro ⟨j, p', q, ⟨-, h⟩, -⟩
    simp at h
  | p :: q :: l => by
    have hhead : (e ∈ (open Classical in (if ugUse p q then
      if p.g ≤ 0 ∧ 0 < q.g then [(p.V, (⟨i, ⟨p.kr, p.g, q.kr, q.g⟩, none⟩ : Cross))]
      else if 0 < p.g ∧ q.g ≤ 0 then [(q.V, ⟨i, ⟨q.kr, q.g, p.kr, p.g⟩, none⟩)]
      else [] else []))) ↔ Usable p q ∧ (Changes i p q e ∨ Changes i q p e) := by
      by_cases hu : ugUse p q
      · have hu' := (use_iff p q).1 hu
        rw [if_pos hu]
        unfold Changes
        by_cases h1 : p.g ≤ 0 ∧ 0 < q.g
        · rw [if_pos h1]
          have : ¬ 0 < p.g := not_lt.2 h1.1
          simp only [List.mem_singleton]; tauto
        · rw [if_neg h1]
          by_cases h2 : 0 < p.g ∧ q.g ≤ 0
          · rw [if_pos h2]; simp only [List.mem_singleton]; tauto
          · rw [if_neg h2]; simp only [List.not_mem_nil, false_iff]; tauto
      · have hu' : ¬ Usable p q := fun h => hu ((use_iff p q).2 h)
        rw [if_neg hu]; simp only [List.not_mem_nil, false_iff]; tauto
    rw [ugPairs, List.mem_append, mem_ugPairs i e (q :: l)]
    rw [show (e ∈ _ ↔ _) from hhead]
    constructor
    · rintro (h | ⟨j, p', q', ⟨h1, h2⟩, h3⟩)
      · exact ⟨0, p, q, ⟨rfl, rfl⟩, h⟩
      · exact ⟨j + 1, p', q', ⟨by simpa using h1, by simpa using h2⟩, h3⟩
    · rintro ⟨j, p', q', ⟨h1, h2⟩, h3⟩
      cases j with
      | zero => simp at h1 h2; subst h1 h2; exact Or.inl h3
      | succ j => exact Or.inr ⟨j, p', q', ⟨by simpa using h1, by simpa using h2⟩, h3⟩

theorem next_reverse {pts : List UGPt} {p q : UGPt} : (∃ j, Next pts.reverse j p q) ↔ ∃ j, Next pts j q p := by
  have one : ∀ (l : List UGPt) (p q : UGPt), (∃ j, Next l j p q) → ∃ j, Next l.reverse j q p := by
    rintro l p q ⟨j, h1, h2⟩
    obtain ⟨a1, b1⟩ := List.getElem?_eq_some_iff.1 h1
    obtain ⟨a2, b2⟩ := List.getElem?_eq_some_iff.1 h2
    refine ⟨l.length - 1 - (j + 1), ?_, ?_⟩
    · rw [List.getElem?_reverse (by omega)]
      rw [show l.length - 1 - (l.length - 1 - (j + 1)) = j + 1 by omega]; exact h2
    · rw [List.getElem?_reverse (by omega)]
      rw [show l.length - 1 - (l.length - 1 - (j + 1) + 1) = j by omega]; exact h1
  constructor
  · intro h; simpa using one _ _ _ h
  · intro h; exact one _ _ _ h

theorem mem_ugPairs_reverse (i : Nat) (e : ℝ × Cross) (pts : List UGPt) : e ∈ ugPairs i pts.reverse ↔ ∃ j p q, Next pts j p q ∧ Usable p q ∧ (Changes i p q e ∨ Changes i q p e) := by
  rw [mem_ugPairs]
  constructor
  · rintro ⟨j, p, q, hn, hu, hc⟩
    obtain ⟨j', hn'⟩ := next_reverse.1 ⟨j, hn⟩
    exact ⟨j', q, p, hn', usable_symm.1 hu, hc.symm⟩
  · rintro ⟨j, p, q, hn, hu, hc⟩
    obtain ⟨j', hn'⟩ := next_reverse.2 ⟨j, hn⟩
    exact ⟨j', q, p, hn', usable_symm.1 hu, hc.symm⟩

theorem ugMode_spec (i : Nat) (pts : List UGPt) (h2 : 2 ≤ pts.length) : ∃ es, ugMode false i (ugNeglect pts) pts.reverse = some es ∧ ∀ e, e ∈ es ↔ Crosses i pts e := by
  obtain ⟨p, q, l, hl⟩ : ∃ p q l, pts.reverse = p :: q :: l := by
    have : 2 ≤ pts.reverse.length := by simpa using h2
    match pts.reverse, this with
    | p :: q :: l, _ => exact ⟨p, q, l, rfl⟩
  have hlast : ugLast false i (ugNeglect pts) pts.reverse = some [] := by
    rw [hl]; simp [ugLast]
  refine ⟨_, by rw [ugMode, hlast]; rfl, fun e => ?_⟩
  beta_reduce
  rw [List.append_nil, Crosses, ← ugNeglect_iff, ← mem_ugPairs_reverse]
  cases ugNeglect pts <;> simp

theorem ugLoop_spec : ∀ (modes : List (List UGPt)) (i : Nat) (m : CMap), (∀ pts ∈ modes, 2 ≤ pts.length) → SortedK m →
    ∃ m', ugLoop false i modes m = some m' ∧ SortedK m' ∧ ∀ e, e ∈ m' ↔ e ∈ m ∨ ∃ j pts, modes[j]? = some pts ∧ Crosses (i + j) pts e
  | [], i, m, _, hs => ⟨m, rfl, hs, by simp⟩
  | pts :: modes, i, m, h, hs => by
    obtain ⟨es, h1, h2⟩ := ugMode_spec i pts (h pts (by simp))
    obtain ⟨p1, p2⟩ := insertAll_spec es m
    obtain ⟨m', a1, a2, a3⟩ := ugLoop_spec modes (i + 1) (insertAll m es) (fun q hq => h q (List.mem_cons_of_mem _ hq)) (p2 hs)
    refine ⟨m', by rw [ugLoop, h1]; exact a1, a2, fun e => ?_⟩
    rw [a3, p1.mem_iff, List.mem_append, h2]
    constructor
    · rintro ((h | h) | ⟨j, q, hq, hc⟩)
      · exact Or.inl h
      · exact Or.inr ⟨0, pts, rfl, h⟩
      · exact Or.inr ⟨j + 1, q, by simpa using hq, by rw [show i + (j + 1) = i + 1 + j by omega]; exact hc⟩
    · rintro (h | ⟨j, q, hq, hc⟩)
      · exact Or.inl (Or.inl h)
      · cases j with
        | zero => simp at hq; subst hq; exact Or.inl (Or.inr hc)
        | succ j => exact Or.inr ⟨j, q, by simpa using hq, by rw [show i + 1 + j = i + (j + 1) by omega]; exact hc⟩

theorem mem_ugFirst (i : Nat) (pts : List UGPt) (e : ℝ × Cross) : e ∈ ugFirst i pts ↔ AtRest i pts e := by
  unfold ugFirst AtRest ctol
  cases pts with
  | nil => simp
  | cons p l =>
    by_cases h : |p.kr| < 1 / 100000 ∧ p.nonphysical = false ∧ |p.g| < 1 / 100000
    · simp only [if_pos h, List.mem_singleton, List.getElem?_cons_zero, Option.some.injEq, exists_eq_left']; tauto
    · simp only [if_neg h, List.not_mem_nil, false_iff, List.getElem?_cons_zero, Option.some.injEq, exists_eq_left']; tauto

/-! ### C171 -/

/-- C171: with at least two reduced frequencies the recorded crossovers are, in order of velocity, exactly the sign changes of the damping between neighbouring usable solutions of each damped
mode, stable end first, and the undamped roots at zero reduced frequency. -/
theorem C171_crossovers (modes : List (List UGPt)) (h : ∀ pts ∈ modes, 2 ≤ pts.length) :
    ∃ m, ugIdentify false modes = some m ∧ WF m ∧ ∀ e, e ∈ m ↔ ∃ i pts, modes[i]? = some pts ∧ (AtRest i pts e ∨ Crosses i pts e) := by
  set f := modes.zipIdx.flatMap fun x => ugFirst x.2 x.1 with hf
  have hfm : ∀ e, e ∈ f ↔ ∃ i pts, modes[i]? = some pts ∧ AtRest i pts e := by
    intro e
    rw [hf, List.mem_flatMap]
    constructor
    · rintro ⟨⟨pts, i⟩, hx, he⟩
      rw [List.mem_zipIdx_iff_getElem?] at hx
      exact ⟨i, pts, hx, (mem_ugFirst _ _ _).1 he⟩
    · rintro ⟨i, pts, hx, he⟩
      exact ⟨(pts, i), List.mem_zipIdx_iff_getElem?.2 hx, (mem_ugFirst _ _ _).2 he⟩
  obtain ⟨p1, p2⟩ := insertAll_spec f []
  obtain ⟨m, h1, h2, h3⟩ := ugLoop_spec modes 0 (insertAll [] f) h (p2 (by simp [SortedK]))
  have hmem : ∀ e, e ∈ m ↔ ∃ i pts, modes[i]? = some pts ∧ (AtRest i pts e ∨ Crosses i pts e) := by
    intro e
    rw [h3, p1.mem_iff, List.nil_append, hfm]
    constructor
    · rintro (⟨i, pts, a, b⟩ | ⟨i, pts, a, b⟩)
      · exact ⟨i, pts, a, Or.inl b⟩
      · exact ⟨i, pts, a, Or.inr (by simpa using b)⟩
    · rintro ⟨i, pts, a, b | b⟩
      · exact Or.inl ⟨i, pts, a, b⟩
      · exact Or.inr ⟨i, pts, a, by simpa using b⟩
  refine ⟨m, h1, ⟨h2, fun e he v hv => ?_⟩, hmem⟩
  obtain ⟨i, pts, -, ⟨p, -, -, -, -, rfl⟩ | ⟨-, j, p, q, -, -, ⟨-, -, rfl⟩ | ⟨-, -, rfl⟩⟩⟩ := (hmem e).1 he
  · simpa using hv
  · simp at hv
  · simp at hv

/-- C171: a damped mode with usable neighbours throughout that is stable at one reduced frequency and unstable at another has a recorded crossover with a stable and an unstable end. -/
theorem C171_found (modes : List (List UGPt)) (h : ∀ pts ∈ modes, 2 ≤ pts.length) {i : Nat} {pts : List UGPt} (hi : modes[i]? = some pts) (hd : Damped pts)
    (hu : ∀ j p q, Next pts j p q → Usable p q) {a b : Nat} {p q : UGPt} (hp : pts[a]? = some p) (hq : pts[b]? = some q) (hpg : p.g ≤ 0) (hqg : 0 < q.g) :
    ∃ m, ugIdentify false modes = some m ∧ ∃ e ∈ m, e.2.mode = i ∧ e.2.root = none ∧ e.2.br.lg ≤ 0 ∧ 0 < e.2.br.ug ∧
      ∃ r ∈ pts, ∃ s ∈ pts, e.1 = r.V ∧ e.2.br = ⟨r.kr, r.g, s.kr, s.g⟩ := by
  obtain ⟨m, h1, -, h3⟩ := C171_crossovers modes h
  refine ⟨m, h1, ?_⟩
  have fin : ∀ j r s, (Next pts j r s ∨ Next pts j s r) → r.g ≤ 0 → 0 < s.g →
      ∃ e ∈ m, e.2.mode = i ∧ e.2.root = none ∧ e.2.br.lg ≤ 0 ∧ 0 < e.2.br.ug ∧ ∃ r ∈ pts, ∃ s ∈ pts, e.1 = r.V ∧ e.2.br = ⟨r.kr, r.g, s.kr, s.g⟩ := by
    intro j r s hn hr hs
    have hmem : r ∈ pts ∧ s ∈ pts := by
      rcases hn with hn | hn
      · exact ⟨List.mem_of_getElem? hn.1, List.mem_of_getElem? hn.2⟩
      · exact ⟨List.mem_of_getElem? hn.2, List.mem_of_getElem? hn.1⟩
    refine ⟨(r.V, ⟨i, ⟨r.kr, r.g, s.kr, s.g⟩, none⟩), (h3 _).2 ⟨i, pts, hi, Or.inr ⟨hd, ?_⟩⟩, rfl, rfl, hr, hs, r, hmem.1, s, hmem.2, rfl, rfl⟩
    rcases hn with hn | hn
    · exact ⟨j, r, s, hn, hu j r s hn, Or.inl ⟨hr, hs, rfl⟩⟩
    · exact ⟨j, s, r, hn, hu j s r hn, Or.inr ⟨hr, hs, rfl⟩⟩
  -- walk from one to the other
  have walk : ∀ n a : Nat, ∀ p : UGPt, pts[a]? = some p → ∀ q : UGPt, pts[a + n]? = some q → (p.g ≤ 0 ∧ 0 < q.g ∨ 0 < p.g ∧ q.g ≤ 0) →
      ∃ j r s, (Next pts j r s ∨ Next pts j s r) ∧ r.g ≤ 0 ∧ 0 < s.g := by
    intro n
    induction n with
    | zero =>
      intro a p hp q hq hc
      rw [Nat.add_zero, hp] at hq; cases hq
      rcases hc with ⟨x, y⟩ | ⟨x, y⟩ <;> linarith
    | succ n ih =>
      intro a p hp q hq hc
      obtain ⟨c, hcn⟩ : ∃ c, pts[a + 1]? = some c := by
        have : a + (n + 1) < pts.length := (List.getElem?_eq_some_iff.1 hq).1
        exact ⟨_, List.getElem?_eq_getElem (by omega)⟩
      have hq' : pts[a + 1 + n]? = some q := by rw [← hq]; congr 1; omega
      rcases hc with ⟨x, y⟩ | ⟨x, y⟩
      · rcases le_or_gt c.g 0 with hcg | hcg
        · exact ih (a + 1) c hcn q hq' (Or.inl ⟨hcg, y⟩)
        · exact ⟨a, p, c, Or.inl ⟨hp, hcn⟩, x, hcg⟩
      · rcases le_or_gt c.g 0 with hcg | hcg
        · exact ⟨a, c, p, Or.inr ⟨hp, hcn⟩, hcg, x⟩
        · exact ih (a + 1) c hcn q hq' (Or.inr ⟨hcg, y⟩)
  have hj : ∃ j r s, (Next pts j r s ∨ Next pts j s r) ∧ r.g ≤ 0 ∧ 0 < s.g := by
    rcases Nat.le_total a b with hab | hab
    · exact walk (b - a) a p hp q (by rw [Nat.add_sub_cancel' hab]; exact hq) (Or.inl ⟨hpg, hqg⟩)
    · exact walk (a - b) b q hq p (by rw [Nat.add_sub_cancel' hab]; exact hp) (Or.inr ⟨hqg, hpg⟩)
  obtain ⟨j, r, s, hn, hr, hs⟩ := hj
  exact fin j r s hn hr hs

/-- C171: if the damping of each mode is a continuous function of the reduced frequency and the table holds its values, every crossover still to be refined encloses a reduced frequency of zero
damping, and refining it succeeds for every sufficiently large number of iterations, within its interval and within the tolerance. -/
theorem C171_encloses (modes : List (List UGPt)) (h : ∀ pts ∈ modes, 2 ≤ pts.length) (g V : Nat → ℝ → ℝ) (hg : ∀ i, Continuous (g i))
    (ht : ∀ i pts, modes[i]? = some pts → ∀ p ∈ pts, p.g = g i p.kr) {m : CMap} (hm : ugIdentify false modes = some m) {e : ℝ × Cross} (he : e ∈ m) (hr : e.2.root = none) {tol : ℝ} (htol : 0 < tol) :
    (∃ k ∈ uIcc e.2.br.lV e.2.br.uV, g e.2.mode k = 0) ∧
    ∃ N, ∀ n ≥ N, ∃ k ∈ uIcc e.2.br.lV e.2.br.uV, |g e.2.mode k| ≤ tol ∧ ∃ ev, ugSearch g V tol n e.2 = .done true (some (V e.2.mode k)) ev := by
  obtain ⟨m0, h1, -, h3⟩ := C171_crossovers modes h
  rw [hm] at h1; cases h1
  obtain ⟨i, pts, hi, ⟨p, -, -, -, -, rfl⟩ | ⟨-, j, p, q, hn, -, hc⟩⟩ := (h3 e).1 he
  · simp at hr
  have key : ∃ r s : UGPt, r.g ≤ 0 ∧ 0 < s.g ∧ r.g = g i r.kr ∧ s.g = g i s.kr ∧ e = (r.V, ⟨i, ⟨r.kr, r.g, s.kr, s.g⟩, none⟩) := by
    have ep := ht i pts hi p (List.mem_of_getElem? hn.1)
    have eq := ht i pts hi q (List.mem_of_getElem? hn.2)
    rcases hc with ⟨a, b, c⟩ | ⟨a, b, c⟩
    · exact ⟨p, q, a, b, ep, eq, c⟩
    · exact ⟨q, p, a, b, eq, ep, c⟩
  obtain ⟨r, s, hrg, hsg, er, es, rfl⟩ := key
  dsimp only
  constructor
  · have := intermediate_value_uIcc (a := r.kr) (b := s.kr) ((hg i).continuousOn)
    have h0 : (0 : ℝ) ∈ uIcc (g i r.kr) (g i s.kr) := by
      rw [← er, ← es, uIcc_of_le (hrg.trans hsg.le)]; exact ⟨hrg, hsg.le⟩
    obtain ⟨k, hk, hk0⟩ := this h0
    exact ⟨k, hk, hk0⟩
  · have hok : (⟨r.kr, r.g, s.kr, s.g⟩ : Bracket).Ok := ⟨hrg, hsg⟩
    obtain ⟨N, hN⟩ := C90_converges (g i) htol ⟨r.kr, r.g, s.kr, s.g⟩ hok ⟨er, es⟩ ((hg i).continuousOn)
    refine ⟨N + 1, fun n hn' => ?_⟩
    obtain ⟨v, evals, hb⟩ := hN n (by omega)
    obtain ⟨c1, c2, -⟩ := C90_result (g i) htol.le n _ hok hb
    obtain ⟨w, hw, -, hin⟩ := c1 (by omega)
    obtain ⟨w', hw', htl⟩ := c2 rfl
    cases hw; cases hw'
    refine ⟨v, hin, htl, evals, ?_⟩
    rw [ugSearch, hb]; rfl

/-- A mode not unstable at the highest reduced frequency but at some lower one has become unstable at a higher frequency than that. -/
theorem up_above (pts : List UGPt) (h0 : ∀ p, pts[pts.length - 1]? = some p → p.g ≤ 0) : ∀ (n j : Nat) (q : UGPt), j + n + 1 = pts.length → pts[j]? = some q → 0 < q.g →
    ∃ j' p' q', j ≤ j' ∧ Next pts j' q' p' ∧ p'.g ≤ 0 ∧ 0 < q'.g := by
  intro n
  induction n with
  | zero =>
    intro j q hj hq hg
    exact absurd (h0 q (by rw [← hj]; simpa using hq)) (not_le.2 hg)
  | succ n ih =>
    intro j q hj hq hg
    obtain ⟨p, hp⟩ : ∃ p, pts[j + 1]? = some p := ⟨_, List.getElem?_eq_getElem (by omega : j + 1 < pts.length)⟩
    by_cases hg' : p.g ≤ 0
    · exact ⟨j, p, q, le_rfl, ⟨hq, hp⟩, hg', hg⟩
    · obtain ⟨j', p', q', h1, h2⟩ := ih (j + 1) p (by omega) hp (not_le.1 hg')
      exact ⟨j', p', q', by omega, h2⟩

/-- C171: if the velocity of each mode does not increase with the reduced frequency, all neighbours are usable and no mode is unstable at the highest reduced frequency, then
`find_critical_root` right after the scan returns the smallest velocity among the roots that refining every crossover would give. -/
theorem C171_critical_partial (modes : List (List UGPt)) (h2 : ∀ pts ∈ modes, 2 ≤ pts.length) (hk : ∀ pts ∈ modes, pts.Pairwise fun p q => p.kr < q.kr)
    (hu : ∀ pts ∈ modes, ∀ j p q, Next pts j p q → Usable p q) (h0 : ∀ pts ∈ modes, ∀ p, pts[pts.length - 1]? = some p → p.g ≤ 0)
    (g V : Nat → ℝ → ℝ) (hV : ∀ i, Antitone (V i)) (ht : ∀ i pts, modes[i]? = some pts → ∀ p ∈ pts, p.V = V i p.kr)
    {tol : ℝ} (htol : 0 ≤ tol) {iters : Nat} (hi : 0 < iters) {m : CMap} (hm : ugIdentify false modes = some m) (hne : m ≠ []) (fuel : Nat) (hf : m.length ≤ fuel) :
    ∃ m' v, criticalRoot (ugSearch g V tol iters) fuel m = .ok (m', some v) ∧ (∃ e ∈ m, vel (ugSearch g V tol iters) e.2 = some v) ∧
      ∀ e ∈ m, ∀ v', vel (ugSearch g V tol iters) e.2 = some v' → v ≤ v' := by
  obtain ⟨m0, e1, hw, hc⟩ := C171_crossovers modes h2
  rw [hm] at e1; cases e1
  have hlt : ∀ pts ∈ modes, ∀ (i j : Nat) (p q : UGPt), i < j → pts[i]? = some p → pts[j]? = some q → p.kr < q.kr := by
    intro pts hp i j p q hij h1 h2
    obtain ⟨a1, rfl⟩ := List.getElem?_eq_some_iff.1 h1
    obtain ⟨b1, rfl⟩ := List.getElem?_eq_some_iff.1 h2
    exact List.pairwise_iff_getElem.1 (hk pts hp) i j a1 b1 hij
  have hcls : ∀ e ∈ m, e.2.root = none → ∃ i pts, modes[i]? = some pts ∧ pts ∈ modes ∧ Damped pts ∧ ∃ j p q, Next pts j p q ∧ (Changes i p q e ∨ Changes i q p e) := by
    intro e he hr
    obtain ⟨i, pts, hi', ⟨p, -, -, -, -, rfl⟩ | ⟨hd, j, p, q, hn, -, hx⟩⟩ := (hc e).1 he
    · simp at hr
    · exact ⟨i, pts, hi', List.mem_of_getElem? hi', hd, j, p, q, hn, hx⟩
  have hres : ∀ e ∈ m, e.2.root = none → ∃ k, (ugSearch g V tol iters e.2).handed = some (V e.2.mode k) ∧ k ∈ uIcc e.2.br.lV e.2.br.uV := by
    intro e he hr
    have hok : e.2.br.Ok := by
      obtain ⟨i, pts, -, -, -, j, p, q, -, (⟨a, b, rfl⟩ | ⟨a, b, rfl⟩)⟩ := hcls e he hr
      · exact ⟨a, b⟩
      · exact ⟨a, b⟩
    obtain ⟨ok, sol, evals, e1, -⟩ := C90_inside (g e.2.mode) htol iters e.2.br hok
    obtain ⟨k, rfl, -, hv⟩ := (C90_result (g e.2.mode) htol iters e.2.br hok e1).1 hi
    exact ⟨k, by rw [ugSearch, e1]; rfl, hv⟩
  obtain ⟨m', v, a1, -, -, -, a5, a6⟩ := C91_critical (ugSearch g V tol iters) m hw hne
    (fun e he hr => by obtain ⟨k, hk', -⟩ := hres e he hr; simp [hk'])
    (by
      intro e he hr v hv
      obtain ⟨k, hk1, hin⟩ := hres e he hr
      rw [hk1] at hv; cases hv
      obtain ⟨i, pts, hi', hp, hd, j, p, q, hn, (⟨a, b, rfl⟩ | ⟨a, b, rfl⟩)⟩ := hcls e he hr
      · right
        -- restabilising towards lower frequency: an earlier crossing has a smaller velocity
        have hpq := hlt pts hp j (j + 1) p q (by omega) hn.1 hn.2
        simp only [uIcc_of_le hpq.le, mem_Icc] at hin
        have hj1 : j + 1 < pts.length := (List.getElem?_eq_some_iff.1 hn.2).1
        obtain ⟨j', p', q', hj, hn', hg1, hg2⟩ := up_above pts (h0 pts hp) (pts.length - 1 - (j + 1)) (j + 1) q (by omega) hn.2 b
        have he' : ((p'.V, ⟨i, ⟨p'.kr, p'.g, q'.kr, q'.g⟩, none⟩) : ℝ × Cross) ∈ m :=
          (hc _).2 ⟨i, pts, hi', Or.inr ⟨hd, j', q', p', hn', hu pts hp j' q' p' hn', Or.inr ⟨hg1, hg2, rfl⟩⟩⟩
        obtain ⟨k', hk', hin'⟩ := hres _ he' rfl
        have hpq' := hlt pts hp j' (j' + 1) q' p' (by omega) hn'.1 hn'.2
        have hin'' : k' ∈ uIcc p'.kr q'.kr := hin'
        rw [uIcc_of_ge hpq'.le, mem_Icc] at hin''
        refine ⟨_, he', V i k', hk', ?_, ?_⟩
        · change p'.V ≤ V i k'
          rw [ht i pts hi' p' (List.mem_of_getElem? hn'.2)]
          exact hV i hin''.2
        · refine hV i (hin.2.trans (le_trans ?_ hin''.1))
          rcases Nat.lt_or_ge (j + 1) j' with h | h
          · exact (hlt pts hp (j + 1) j' q q' h hn.2 hn'.1).le
          · have : j' = j + 1 := by omega
            have h3 := hn'.1
            rw [this, hn.2] at h3; cases h3; exact le_rfl
      · left
        have hpq := hlt pts hp j (j + 1) p q (by omega) hn.1 hn.2
        simp only [uIcc_of_ge hpq.le, mem_Icc] at hin
        change q.V ≤ V i k
        rw [ht i pts hi' q (List.mem_of_getElem? hn.2)]
        exact hV i hin.2) fuel hf
  exact ⟨m', v, a1, a5, a6⟩

/-- Non-vacuity: one mode crossing between the reduced frequencies 1 and 2, with the velocity falling with the reduced frequency. -/
noncomputable def one : List (List UGPt) := [[⟨1, 5, 1 / 2, false⟩, ⟨2, 4, -1 / 2, false⟩]]

theorem one_usable : Usable ⟨1, 5, 1 / 2, false⟩ ⟨2, 4, -1 / 2, false⟩ := by
  refine ⟨rfl, rfl, Or.inl (by norm_num), ?_, ?_⟩ <;> rw [abs_lt] <;> norm_num

theorem one_next {j p q} (hn : Next [⟨1, 5, 1 / 2, false⟩, ⟨2, 4, -1 / 2, false⟩] j p q) : p = ⟨1, 5, 1 / 2, false⟩ ∧ q = ⟨2, 4, -1 / 2, false⟩ := by
  obtain ⟨a, b⟩ := hn
  cases j with
  | zero => exact ⟨(Option.some.inj a).symm, (Option.some.inj b).symm⟩
  | succ j => simp at b

example : ∃ m, ugIdentify false one = some m ∧ m ≠ [] ∧ ∃ m' v, criticalRoot (ugSearch (fun _ k => 3 / 2 - k) (fun _ k => 6 - k) (1 / 10) 5) m.length m = .ok (m', some v) := by
  have h2 : ∀ pts ∈ one, 2 ≤ pts.length := by simp [one]
  have hd : Damped [(⟨1, 5, 1 / 2, false⟩ : UGPt), ⟨2, 4, -1 / 2, false⟩] := ⟨_, List.mem_cons_self, by rw [le_abs]; left; norm_num⟩
  have hu : ∀ pts ∈ one, ∀ j p q, Next pts j p q → Usable p q := by
    intro pts hp j p q hn
    simp only [one, List.mem_singleton] at hp
    subst hp
    obtain ⟨rfl, rfl⟩ := one_next hn
    exact one_usable
  obtain ⟨m, h1, e, he, -⟩ := C171_found one h2 (i := 0) rfl hd (hu _ (by simp [one])) (a := 1) (b := 0) (p := ⟨2, 4, -1 / 2, false⟩) (q := ⟨1, 5, 1 / 2, false⟩) rfl rfl (by norm_num) (by norm_num)
  have hne : m ≠ [] := List.ne_nil_of_mem he
  obtain ⟨m', v, h, -⟩ := C171_critical_partial one h2 (by simp [one]) hu (by intro pts hp p h; simp only [one, List.mem_singleton] at hp; subst hp; simp at h; subst h; norm_num)
    (fun _ k => 3 / 2 - k) (fun _ k => 6 - k) (fun _ a b hab => by dsimp only; linarith)
    (by
      intro i pts hi p hp
      have := List.mem_of_getElem? hi
      simp only [one, List.mem_singleton] at this
      subst this
      simp at hp
      rcases hp with rfl | rfl <;> norm_num) (tol := 1 / 10) (by norm_num) (iters := 5) (by norm_num) h1 hne m.length le_rfl
  exact ⟨m, h1, hne, m', v, h⟩

/-- C171 (violated): with a mode that is unstable at the highest reduced frequency and restabilises, the root returned need not have the smallest velocity: here refining the two crossovers gives the
velocities 3 and 9/2, and 9/2 is returned. -/
theorem C171_critical_fails : ∃ (m : CMap) (g V : Nat → ℝ → ℝ), ugIdentify false [[⟨1, 5, -1 / 2, false⟩, ⟨2, 1, 1 / 2, false⟩], [⟨1, 5, 1 / 2, false⟩, ⟨2, 4, -1 / 2, false⟩]] = some m ∧
    (∀ i, Antitone (V i)) ∧ (∃ m', criticalRoot (ugSearch g V 0 1) m.length m = .ok (m', some (9 / 2))) ∧ ∃ e ∈ m, vel (ugSearch g V 0 1) e.2 = some 3 := by
  let g : Nat → ℝ → ℝ := fun i k => if i = 0 then k - 3 / 2 else 3 / 2 - k
  let V : Nat → ℝ → ℝ := fun i k => if i = 0 then 9 - 4 * k else 6 - k
  have u1 : ugUse ⟨2, 1, 1 / 2, false⟩ ⟨1, 5, -1 / 2, false⟩ := by
    rw [use_iff]; refine ⟨rfl, rfl, Or.inl (by norm_num), ?_, ?_⟩ <;> rw [abs_lt] <;> norm_num
  have u2 : ugUse ⟨2, 4, -1 / 2, false⟩ ⟨1, 5, 1 / 2, false⟩ := by
    rw [use_iff]; exact usable_symm.1 one_usable
  have n1 : ugNeglect [⟨1, 5, -1 / 2, false⟩, ⟨2, 1, 1 / 2, false⟩] = false := (ugNeglect_iff _).2 ⟨_, List.mem_cons_self, by rw [le_abs]; right; norm_num⟩
  have n2 : ugNeglect [⟨1, 5, 1 / 2, false⟩, ⟨2, 4, -1 / 2, false⟩] = false := (ugNeglect_iff _).2 ⟨_, List.mem_cons_self, by rw [le_abs]; left; norm_num⟩
  let A : Cross := ⟨0, ⟨1, -1 / 2, 2, 1 / 2⟩, none⟩
  let B : Cross := ⟨1, ⟨2, -1 / 2, 1, 1 / 2⟩, none⟩
  have hm : ugIdentify false [[⟨1, 5, -1 / 2, false⟩, ⟨2, 1, 1 / 2, false⟩], [⟨1, 5, 1 / 2, false⟩, ⟨2, 4, -1 / 2, false⟩]] = some [(4, B), (5, A)] := by
    have t1 : ¬ |(1 : ℝ)| < ctol := by norm_num [ctol]
    simp only [ugIdentify, List.zipIdx_cons, List.zipIdx_nil, List.flatMap_cons, List.flatMap_nil, ugFirst, t1, false_and, if_false, List.append_nil, insertAll, List.foldl_nil, ugLoop, ugMode, n1, n2,
      List.reverse_cons, List.reverse_nil, List.nil_append, List.cons_append, ugLast, ugPairs, if_pos u1, if_pos u2]
    norm_num [mmInsert, A, B]
  have sB : ugSearch g V 0 1 B = .done true (some (9 / 2)) [3 / 2] := by
    have e1 : (⟨2, -1 / 2, 1, 1 / 2⟩ : Bracket).newV = 3 / 2 := by norm_num [Bracket.newV]
    simp only [ugSearch, B, bisect, e1]
    norm_num [g, V, atVelocity]
  have sA : ugSearch g V 0 1 A = .done true (some 3) [3 / 2] := by
    have e1 : (⟨1, -1 / 2, 2, 1 / 2⟩ : Bracket).newV = 3 / 2 := by norm_num [Bracket.newV]
    simp only [ugSearch, A, bisect, e1]
    norm_num [g, V, atVelocity]
  refine ⟨_, g, V, hm, ?_, ?_, ?_⟩
  · intro i a b hab
    simp only [V]
    split_ifs <;> linarith
  · refine ⟨[(9 / 2, { B with root := some (9 / 2) }), (5, A)], ?_⟩
    have hroot : B.root = none := rfl
    simp only [List.length_cons, List.length_nil, Nat.zero_add, criticalRoot, hroot, sB, Res.handed]
    have : mmInsert (9 / 2) { B with root := some (9 / 2) } [(5, A)] = [(9 / 2, { B with root := some (9 / 2) }), (5, A)] := by norm_num [mmInsert]
    rw [this]
    rfl
  · refine ⟨(5, A), by simp, ?_⟩
    have hroot : A.root = none := rfl
    simp only [vel, hroot, sA, Res.handed]

/-- C171 (violated): a mode unstable at every reduced frequency of the scan leaves no crossover at all, so that no root is reported. -/
theorem C171_unstable_throughout_fails (modes : List (List UGPt)) (h : ∀ pts ∈ modes, 2 ≤ pts.length) (hg : ∀ pts ∈ modes, ∀ p ∈ pts, 1 / 100000 ≤ p.g) : ugIdentify false modes = some [] := by
  obtain ⟨m, h1, -, h3⟩ := C171_crossovers modes h
  rw [h1, Option.some.injEq, List.eq_nil_iff_forall_not_mem]
  intro e he
  have pos : ∀ pts ∈ modes, ∀ p ∈ pts, 0 < p.g := fun pts hp p hq => lt_of_lt_of_le (by norm_num) (hg pts hp p hq)
  obtain ⟨i, pts, hi, ⟨p, hp, -, -, hs, -⟩ | ⟨-, j, p, q, hn, -, ⟨a, -⟩ | ⟨a, -⟩⟩⟩ := (h3 e).1 he
  · have hx := hg pts (List.mem_of_getElem? hi) p (List.mem_of_getElem? hp)
    rw [abs_lt] at hs; linarith [hs.2]
  · exact absurd (pos pts (List.mem_of_getElem? hi) p (List.mem_of_getElem? hn.1)) (not_lt.2 a)
  · exact absurd (pos pts (List.mem_of_getElem? hi) q (List.mem_of_getElem? hn.2)) (not_lt.2 a)

example : ugIdentify false [[⟨1, 5, 1 / 2, false⟩, ⟨2, 4, 1 / 10, false⟩]] = some [] := C171_unstable_throughout_fails _ (by simp) (by simp; norm_num)

/-- C171 (violated): a sign change of the damping that ends at 3/4 or more on the grid is not recorded. -/
theorem C171_large_damping_fails (V V' : ℝ) : ugIdentify false [[⟨1, V, 3 / 4, false⟩, ⟨2, V', -1 / 2, false⟩]] = some [] := by
  obtain ⟨m, h1, -, h3⟩ := C171_crossovers [[⟨1, V, 3 / 4, false⟩, ⟨2, V', -1 / 2, false⟩]] (by simp)
  rw [h1, Option.some.injEq, List.eq_nil_iff_forall_not_mem]
  intro e he
  obtain ⟨i, pts, hi, hx⟩ := (h3 e).1 he
  have hp := List.mem_of_getElem? hi
  simp only [List.mem_singleton] at hp
  subst hp
  rcases hx with ⟨p, hp, hk, -⟩ | ⟨-, j, p, q, ⟨a, b⟩, hu, -⟩
  · simp at hp; subst hp; norm_num at hk
  · cases j with
    | zero => simp at a b; subst a b; have := hu.2.2.2.1; norm_num [abs_lt] at this
    | succ j => simp at b

/-- C171 (violated): with a single reduced frequency (no divisions) and a physical root the end of the container is dereferenced. -/
theorem C171_single_fails (inc : Bool) (p : UGPt) (hp : p.nonphysical = false) : ugIdentify inc [[p]] = none := by
  simp [ugIdentify, ugLoop, ugMode, ugLast, hp]

end Verif.UGScan
