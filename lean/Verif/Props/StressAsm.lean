import Mathlib.Tactic.Ring
import Mathlib.Tactic.NormNum
import Mathlib.Tactic.Linarith
import Verif.Model.StressAsm
/-
  C136: stress data for plotting.  C137: life of the data of a stress output.
-/
namespace Verif.StressAsm
open Verif

noncomputable section

/-! ### Specification -/

/-- `x` is a value of largest magnitude among `l` (zero for an empty list). -/
def Extreme (x : ℝ) (l : List ℝ) : Prop := (l = [] ∧ x = 0 ∨ x ∈ l) ∧ ∀ y ∈ l, |y| ≤ |x|

/-- `x` is the largest value of `l` (zero for an empty list). -/
def Largest (x : ℝ) (l : List ℝ) : Prop := (l = [] ∧ x = 0 ∨ x ∈ l) ∧ ∀ y ∈ l, y ≤ x

/-! ### Lemmas -/

theorem foldl_upd (l : List ℝ) (m : ℝ) : (l.foldl upd m = m ∨ l.foldl upd m ∈ l) ∧ (∀ y ∈ l, |y| ≤ |l.foldl upd m|) ∧ |m| ≤ |l.foldl upd m| := by
  induction l generalizing m with
  | nil => simp
  | cons x l ih =>
    obtain ⟨h1, h2, h3⟩ := ih (upd m x)
    rw [List.foldl_cons]
    have hx : |x| ≤ |upd m x| ∧ |m| ≤ |upd m x| ∧ (upd m x = x ∨ upd m x = m) := by
      unfold upd; split
      · rename_i h; exact ⟨le_refl _, h.le, .inl rfl⟩
      · rename_i h; exact ⟨not_lt.1 h, le_refl _, .inr rfl⟩
    refine ⟨?_, ?_, hx.2.1.trans h3⟩
    · rcases h1 with h | h
      · rw [h]; rcases hx.2.2 with h' | h'
        · right; rw [h']; simp
        · left; exact h'
      · right; simp [h]
    · intro y hy
      rcases List.mem_cons.1 hy with rfl | hy
      · exact hx.1.trans h3
      · exact h2 y hy

theorem foldl_extreme (l : List ℝ) : Extreme (l.foldl upd 0) l := by
  obtain ⟨h1, h2, _⟩ := foldl_upd l 0
  refine ⟨?_, h2⟩
  cases l with
  | nil => left; exact ⟨rfl, rfl⟩
  | cons x l =>
    right
    rcases h1 with h | h
    · have := h2 x (by simp)
      rw [h, abs_zero] at this
      have hx : x = 0 := abs_eq_zero.1 (le_antisymm this (abs_nonneg x))
      rw [h, hx]; simp
    · exact h

theorem foldl_max (l : List ℝ) (m : ℝ) : (l.foldl (fun m x => if x > m then x else m) m = m ∨ l.foldl (fun m x => if x > m then x else m) m ∈ l) ∧
    (∀ y ∈ l, y ≤ l.foldl (fun m x => if x > m then x else m) m) ∧ m ≤ l.foldl (fun m x => if x > m then x else m) m := by
  induction l generalizing m with
  | nil => simp
  | cons x l ih =>
    obtain ⟨h1, h2, h3⟩ := ih (if x > m then x else m)
    rw [List.foldl_cons]
    have hx : x ≤ (if x > m then x else m) ∧ m ≤ (if x > m then x else m) ∧ ((if x > m then x else m) = x ∨ (if x > m then x else m) = m) := by
      split
      · rename_i h; exact ⟨le_refl _, h.le, .inl rfl⟩
      · rename_i h; exact ⟨not_lt.1 h, le_refl _, .inr rfl⟩
    refine ⟨?_, ?_, hx.2.1.trans h3⟩
    · rcases h1 with h | h
      · rw [h]; rcases hx.2.2 with h' | h'
        · right; rw [h']; simp
        · left; exact h'
      · right; simp [h]
    · intro y hy
      rcases List.mem_cons.1 hy with rfl | hy
      · exact hx.1.trans h3
      · exact h2 y hy

theorem foldl_largest (l : List ℝ) (h0 : ∀ y ∈ l, 0 ≤ y) : Largest (l.foldl (fun m x => if x > m then x else m) 0) l := by
  obtain ⟨h1, h2, _⟩ := foldl_max l 0
  refine ⟨?_, h2⟩
  cases l with
  | nil => left; exact ⟨rfl, rfl⟩
  | cons x l =>
    right
    rcases h1 with h | h
    · have := h2 x (by simp)
      rw [h] at this
      have hx : x = 0 := le_antisymm this (h0 x (by simp))
      rw [h, hx]; simp
    · exact h

theorem foldl_step (data : List Data) (m : Maxima) :
    (∀ i, (data.foldl step m).strain i = (data.map (·.strain i)).foldl upd (m.strain i)) ∧ (∀ i, (data.foldl step m).stress i = (data.map (·.stress i)).foldl upd (m.stress i)) ∧
    (data.foldl step m).vm = (data.map (·.vm)).foldl (fun m x => if x > m then x else m) m.vm := by
  induction data generalizing m with
  | nil => exact ⟨fun _ => rfl, fun _ => rfl, rfl⟩
  | cons d data ih => obtain ⟨h1, h2, h3⟩ := ih (step m d); exact ⟨h1, h2, h3⟩

/-! ### C136 -/

/-- The values reported for one element are, component by component, the strain and the stress of largest magnitude (with their sign) and the largest von Mises stress over all its points. -/
theorem C136_maxima (data : List Data) (hvm : ∀ d ∈ data, 0 ≤ d.vm) :
    (∀ i, Extreme ((getMax data false).strain i) (data.map (·.strain i))) ∧ (∀ i, Extreme ((getMax data false).stress i) (data.map (·.stress i))) ∧
    Largest (getMax data false).vm (data.map (·.vm)) := by
  have main : ∀ m : Maxima, m = data.foldl step ⟨fun _ => 0, fun _ => 0, 0⟩ →
      (∀ i, Extreme (m.strain i) (data.map (·.strain i))) ∧ (∀ i, Extreme (m.stress i) (data.map (·.stress i))) ∧ Largest m.vm (data.map (·.vm)) := by
    rintro m rfl
    obtain ⟨h1, h2, h3⟩ := foldl_step data ⟨fun _ => 0, fun _ => 0, 0⟩
    refine ⟨fun i => ?_, fun i => ?_, ?_⟩
    · rw [h1]; exact foldl_extreme _
    · rw [h2]; exact foldl_extreme _
    · rw [h3]; exact foldl_largest _ (by intro y hy; obtain ⟨d, hd, rfl⟩ := List.mem_map.1 hy; exact hvm d hd)
  match data, hvm, main with
  | [], _, main => exact main _ rfl
  | [d], _, _ =>
    simp only [getMax, Bool.false_eq_true, if_false]
    refine ⟨fun i => ?_, fun i => ?_, ?_⟩
    · exact ⟨.inr (by simp), by simp⟩
    · exact ⟨.inr (by simp), by simp⟩
    · exact ⟨.inr (by simp), by simp⟩
  | d :: d' :: data, _, main => exact main _ rfl

/-- For a cut element the reported values are the extremes over the points of all its sub-elements with material. -/
theorem C136_cut_maxima (subs : List (List Data)) (hvm : ∀ data ∈ subs, ∀ d ∈ data, 0 ≤ d.vm) :
    (∀ i, ∀ d ∈ subs.flatten, |d.strain i| ≤ |(cutMax subs).strain i| ∧ |d.stress i| ≤ |(cutMax subs).stress i|) ∧ (∀ d ∈ subs.flatten, d.vm ≤ (cutMax subs).vm) ∧
    (∀ i, (cutMax subs).strain i = 0 ∨ ∃ d ∈ subs.flatten, (cutMax subs).strain i = d.strain i) ∧ (∀ i, (cutMax subs).stress i = 0 ∨ ∃ d ∈ subs.flatten, (cutMax subs).stress i = d.stress i) ∧
    ((cutMax subs).vm = 0 ∨ ∃ d ∈ subs.flatten, (cutMax subs).vm = d.vm) := by
  have hupd : ∀ m x : ℝ, |x| ≤ |upd m x| ∧ |m| ≤ |upd m x| ∧ (upd m x = x ∨ upd m x = m) := by
    intro m x; unfold upd; split
    · rename_i h; exact ⟨le_refl _, h.le, .inl rfl⟩
    · rename_i h; exact ⟨not_lt.1 h, le_refl _, .inr rfl⟩
  have gen : ∀ (subs : List (List Data)) (m : Maxima), (∀ data ∈ subs, ∀ d ∈ data, 0 ≤ d.vm) →
      (∀ i, |m.strain i| ≤ |(subs.foldl (fun m d => merge m (getMax d false)) m).strain i|) ∧ (∀ i, |m.stress i| ≤ |(subs.foldl (fun m d => merge m (getMax d false)) m).stress i|) ∧
      m.vm ≤ (subs.foldl (fun m d => merge m (getMax d false)) m).vm ∧
      (∀ i, ∀ d ∈ subs.flatten, |d.strain i| ≤ |(subs.foldl (fun m d => merge m (getMax d false)) m).strain i| ∧ |d.stress i| ≤ |(subs.foldl (fun m d => merge m (getMax d false)) m).stress i|) ∧
      (∀ d ∈ subs.flatten, d.vm ≤ (subs.foldl (fun m d => merge m (getMax d false)) m).vm) ∧
      (∀ i, (subs.foldl (fun m d => merge m (getMax d false)) m).strain i = m.strain i ∨ (subs.foldl (fun m d => merge m (getMax d false)) m).strain i = 0 ∨
        ∃ d ∈ subs.flatten, (subs.foldl (fun m d => merge m (getMax d false)) m).strain i = d.strain i) ∧
      (∀ i, (subs.foldl (fun m d => merge m (getMax d false)) m).stress i = m.stress i ∨ (subs.foldl (fun m d => merge m (getMax d false)) m).stress i = 0 ∨
        ∃ d ∈ subs.flatten, (subs.foldl (fun m d => merge m (getMax d false)) m).stress i = d.stress i) ∧
      ((subs.foldl (fun m d => merge m (getMax d false)) m).vm = m.vm ∨ (subs.foldl (fun m d => merge m (getMax d false)) m).vm = 0 ∨
        ∃ d ∈ subs.flatten, (subs.foldl (fun m d => merge m (getMax d false)) m).vm = d.vm) := by
    intro subs
    induction subs with
    | nil => intro m _; simp
    | cons data subs ih =>
      intro m hvm
      obtain ⟨a1, a2, a3, a4, a5, a6, a7, a8⟩ := ih (merge m (getMax data false)) fun d hd => hvm d (by simp [hd])
      obtain ⟨g1, g2, g3⟩ := C136_maxima data (hvm data (by simp))
      rw [List.foldl_cons]
      have pick : ∀ (x : ℝ) (f : Data → ℝ), (data.map f = [] ∧ x = 0 ∨ x ∈ data.map f) → x = 0 ∨ ∃ d ∈ (data :: subs).flatten, x = f d := by
        intro x f h
        rcases h with ⟨_, h⟩ | h
        · exact .inl h
        · obtain ⟨d, hd, rfl⟩ := List.mem_map.1 h; exact .inr ⟨d, by simp [hd], rfl⟩
      refine ⟨fun i => (hupd _ _).2.1.trans (a1 i), fun i => (hupd _ _).2.1.trans (a2 i), (le_max_right _ _).trans a3, ?_, ?_, ?_, ?_, ?_⟩
      · intro i d hd
        rw [List.flatten_cons, List.mem_append] at hd
        rcases hd with hd | hd
        · exact ⟨((g1 i).2 _ (List.mem_map.2 ⟨d, hd, rfl⟩)).trans ((hupd _ _).1.trans (a1 i)), ((g2 i).2 _ (List.mem_map.2 ⟨d, hd, rfl⟩)).trans ((hupd _ _).1.trans (a2 i))⟩
        · exact a4 i d hd
      · intro d hd
        rw [List.flatten_cons, List.mem_append] at hd
        rcases hd with hd | hd
        · exact (g3.2 _ (List.mem_map.2 ⟨d, hd, rfl⟩)).trans ((le_max_left _ _).trans a3)
        · exact a5 d hd
      · intro i
        rcases a6 i with h | h | ⟨d, hd, h⟩
        · rcases (hupd (m.strain i) ((getMax data false).strain i)).2.2 with h' | h'
          · right
            rcases pick _ (fun d => d.strain i) (g1 i).1 with h0 | ⟨d, hd, h0⟩
            · left; rw [h]; exact h'.trans h0
            · right; exact ⟨d, hd, by rw [h]; exact h'.trans h0⟩
          · left; rw [h]; exact h'
        · right; left; exact h
        · right; right; exact ⟨d, by simp only [List.flatten_cons, List.mem_append]; exact .inr hd, h⟩
      · intro i
        rcases a7 i with h | h | ⟨d, hd, h⟩
        · rcases (hupd (m.stress i) ((getMax data false).stress i)).2.2 with h' | h'
          · right
            rcases pick _ (fun d => d.stress i) (g2 i).1 with h0 | ⟨d, hd, h0⟩
            · left; rw [h]; exact h'.trans h0
            · right; exact ⟨d, hd, by rw [h]; exact h'.trans h0⟩
          · left; rw [h]; exact h'
        · right; left; exact h
        · right; right; exact ⟨d, by simp only [List.flatten_cons, List.mem_append]; exact .inr hd, h⟩
      · rcases a8 with h | h | ⟨d, hd, h⟩
        · rcases max_choice (getMax data false).vm m.vm with h' | h'
          · right
            rcases pick _ (fun d => d.vm) g3.1 with h0 | ⟨d, hd, h0⟩
            · left; rw [h]; exact h'.trans h0
            · right; exact ⟨d, hd, by rw [h]; exact h'.trans h0⟩
          · left; rw [h]; exact h'
        · right; left; exact h
        · right; right; exact ⟨d, by simp only [List.flatten_cons, List.mem_append]; exact .inr hd, h⟩
  obtain ⟨_, _, _, b4, b5, b6, b7, b8⟩ := gen subs ⟨fun _ => 0, fun _ => 0, 0⟩ hvm
  refine ⟨b4, b5, fun i => ?_, fun i => ?_, ?_⟩
  · rcases b6 i with h | h | h
    · exact .inl h
    · exact .inl h
    · exact .inr h
  · rcases b7 i with h | h | h
    · exact .inl h
    · exact .inl h
    · exact .inr h
  · rcases b8 with h | h | h
    · exact .inl h
    · exact .inl h
    · exact .inr h

/-- The variable of an element in the plot vector. -/
def variable' (m : Maxima) (v : Nat) : ℝ := if h : v < 6 then m.strain ⟨v, h⟩ else if h : v - 6 < 6 then m.stress ⟨v - 6, h⟩ else m.vm

theorem update_keep (sens : Bool) (es : List Elem) (P : Plot) (id v : Nat) (h : ∀ e ∈ es, e.eval = true → e.data ≠ [] → e.id ≠ id) :
    (es.foldl (fun P e => if e.eval then (if e.data = [] then P else store e.id (getMax e.data sens) P) else P) P) id v = P id v := by
  induction es generalizing P with
  | nil => rfl
  | cons e es ih =>
    rw [List.foldl_cons, ih _ fun e' he' => h e' (by simp [he'])]
    have he := h e (by simp)
    split
    · split
      · rfl
      · rename_i h1 h2; unfold store; rw [if_neg (Ne.symm (he h1 h2))]
    · rfl

/-- The plot vector: every element that takes part and has data shows its values in all 13 variables, every other element shows zero, independently of the order of the elements (element ids are unique). -/
theorem C136_update (sens : Bool) (es : List Elem) (hid : (es.map (·.id)).Nodup) :
    (∀ e ∈ es, e.eval = true → e.data ≠ [] → ∀ v < 13, update sens es e.id v = variable' (getMax e.data sens) v) ∧
    (∀ id v, (∀ e ∈ es, e.eval = true → e.data ≠ [] → e.id ≠ id) → update sens es id v = 0) := by
  refine ⟨?_, fun id v h => update_keep sens es _ id v h⟩
  intro e he h1 h2 v hv
  obtain ⟨l, r, rfl⟩ := List.append_of_mem he
  unfold update
  rw [List.foldl_append, List.foldl_cons]
  rw [update_keep sens r]
  · rw [if_pos h1, if_neg h2]
    unfold store variable'
    rw [if_pos rfl]
    split
    · rfl
    · split
      · rfl
      · rw [if_pos (by omega)]
  · intro e' he' _ _ heq
    rw [List.map_append, List.map_cons, List.nodup_append] at hid
    exact (List.nodup_cons.1 hid.2.1).1 (heq ▸ List.mem_map.2 ⟨e', he', rfl⟩)

/-- Sensitivity plots: for an element with one point the sensitivities of that point are shown.  Missing for the full property: elements with more points (C136_sensitivity_fails). -/
theorem C136_sensitivity_partial (es : List Elem) (hid : (es.map (·.id)).Nodup) (e : Elem) (he : e ∈ es) (h1 : e.eval = true) (d : Data) (hd : e.data = [d]) (i : Fin 6) :
    update true es e.id i = d.dstrain i ∧ update true es e.id (i + 6) = d.dstress i ∧ update true es e.id 12 = d.dvm := by
  have h := (C136_update true es hid).1 e he h1 (by simp [hd])
  refine ⟨?_, ?_, ?_⟩
  · rw [h i (by omega)]; simp [variable', hd, getMax]
  · rw [h (i + 6) (by omega)]; simp [variable', hd, getMax]
  · rw [h 12 (by omega)]; simp [variable', hd, getMax]

/-- For an element with two or more points the "sensitivity" is the primal maximum: it is the same whatever the sensitivities are, and equal to what the plot of the stresses themselves shows. -/
theorem C136_sensitivity_fails (d d' : Data) (data : List Data) :
    getMax (d :: d' :: data) true = getMax (d :: d' :: data) false ∧
    ∃ e : Elem, (∀ x ∈ e.data, x.dvm = 0 ∧ (∀ i, x.dstrain i = 0) ∧ ∀ i, x.dstress i = 0) ∧ update true [e] e.id 12 = 5 := by
  refine ⟨rfl, ⟨3, true, [⟨fun _ => 0, fun _ => 0, 5, fun _ => 0, fun _ => 0, 0⟩, ⟨fun _ => 0, fun _ => 0, 4, fun _ => 0, fun _ => 0, 0⟩]⟩, ?_, ?_⟩
  · simp
  · simp [update, store, getMax, step]; norm_num

/-- Non-vacuity of C136_maxima: two points, opposite signs. -/
example : (getMax [⟨fun _ => 1, fun _ => -3, 3, fun _ => 0, fun _ => 0, 0⟩, ⟨fun _ => -2, fun _ => 2, 2, fun _ => 0, fun _ => 0, 0⟩] false).stress 0 = -3 ∧
    (getMax [⟨fun _ => 1, fun _ => -3, 3, fun _ => 0, fun _ => 0, 0⟩, ⟨fun _ => -2, fun _ => 2, 2, fun _ => 0, fun _ => 0, 0⟩] false).strain 0 = -2 := by
  simp [getMax, step, upd]; norm_num

/-! ### C137 -/

variable {Pt : Type}

theorem addPts_ok (dbg : Bool) (id qp : Nat) (xs : List Pt) (o : Out Pt) (hq : qp = (o.data.filter fun d => d.1 == id).length) :
    addPts dbg id qp xs o = .ok { o with data := o.data ++ xs.map fun x => (id, x) } := by
  induction xs generalizing qp o with
  | nil => simp [addPts]
  | cons x xs ih =>
    have h1 : addPt dbg id qp x o = .ok { o with data := o.data ++ [(id, x)] } := by
      unfold addPt; simp [hq]
    simp only [addPts, h1]
    show addPts dbg id (qp + 1) xs { o with data := o.data ++ [(id, x)] } = _
    rw [ih (qp + 1) _ (by simp [List.filter_append, hq])]
    simp

theorem addPts_release (id qp : Nat) (xs : List Pt) (o : Out Pt) : addPts false id qp xs o = .ok { o with data := o.data ++ xs.map fun x => (id, x) } := by
  induction xs generalizing qp o with
  | nil => simp [addPts]
  | cons x xs ih =>
    simp only [addPts, addPt, Bool.false_and, Bool.false_eq_true, if_false]
    show addPts false id (qp + 1) xs { o with data := o.data ++ [(id, x)] } = _
    rw [ih]; simp

theorem calculate_ok (dbg : Bool) (es : List (Nat × List Pt)) (o : Out Pt) (hprimal : o.primal = false) (hid : (es.map (·.1)).Nodup) (hnew : ∀ e ∈ es, ∀ d ∈ o.data, d.1 ≠ e.1) :
    es.foldlM (fun o e => evaluate dbg e.1 e.2 o) o = .ok { o with data := o.data ++ es.flatMap fun e => e.2.map fun x => (e.1, x) } := by
  induction es generalizing o with
  | nil => simp; rfl
  | cons e es ih =>
    rw [List.foldlM_cons]
    have h0 : (o.data.filter fun d => d.1 == e.1).length = 0 := by
      rw [List.length_eq_zero_iff, List.filter_eq_nil_iff]
      intro d hd; simpa using hnew e (by simp) d hd
    have h1 : evaluate dbg e.1 e.2 o = .ok { o with data := o.data ++ e.2.map fun x => (e.1, x) } := by
      have hc : ¬ ((dbg && o.primal) = true) := by rw [hprimal]; simp
      unfold evaluate; rw [if_neg hc]
      exact addPts_ok dbg e.1 0 e.2 o h0.symm
    rw [h1]
    rw [List.map_cons, List.nodup_cons] at hid
    have := ih { o with data := o.data ++ e.2.map fun x => (e.1, x) } hprimal hid.2 (by
      intro e' he' d hd
      rcases List.mem_append.1 hd with hd | hd
      · exact hnew e' (by simp [he']) d hd
      · obtain ⟨x, _, rfl⟩ := List.mem_map.1 hd
        intro h; exact hid.1 (List.mem_map.2 ⟨e', he', h.symm⟩))
    show List.foldlM _ _ es = _
    rw [this]
    simp

/-- After `clear`, whatever happened before, an evaluation followed by a request for the value gives the functional of exactly the points of the participating elements, in debug and release builds, and asking
again gives the same value. -/
theorem C137_fresh (dbg : Bool) (F : List Pt → ℝ) (es : List (Nat × List Pt)) (hid : (es.map (·.1)).Nodup) (o : Out Pt) :
    ∃ o1 o2 o3, calculate dbg es (clear o) = .ok o1 ∧ total dbg F o1 = .ok (F (es.flatMap (·.2)), o2) ∧ total dbg F o2 = .ok (F (es.flatMap (·.2)), o3) := by
  have h := calculate_ok dbg es { clear o with value := 0 } rfl hid (by intro e _ d hd; simp [clear] at hd)
  have hd : ((es.flatMap fun e => e.2.map fun x => (e.1, x)).map (·.2)) = es.flatMap (·.2) := by
    rw [List.map_flatMap]; congr 1; funext e; simp
  refine ⟨⟨[] ++ (es.flatMap fun e => e.2.map fun x => (e.1, x)), false, 0, false⟩, ⟨[] ++ (es.flatMap fun e => e.2.map fun x => (e.1, x)), true, F (es.flatMap (·.2)), false⟩,
    ⟨[] ++ (es.flatMap fun e => e.2.map fun x => (e.1, x)), true, F (es.flatMap (·.2)), false⟩, h, ?_, ?_⟩
  · simp only [total, Bool.and_false, Bool.false_eq_true, if_false, List.nil_append, hd]
  · simp only [total, Bool.and_false, Bool.false_eq_true, if_false, if_true]

/-- Without `clear`, a second evaluation after the value was requested: in a release build the value is reported as zero for every structure and functional; a debug build aborts when there is an element. -/
theorem C137_no_clear_fails (F : List Pt → ℝ) (es' : List (Nat × List Pt)) (o o1 : Out Pt) (v : ℝ) (h : total false F o = .ok (v, o1)) :
    (∃ o2 o3, calculate false es' o1 = .ok o2 ∧ total false F o2 = .ok (0, o3)) ∧ (es' ≠ [] → calculate true es' o1 = .error .assertFail) := by
  have hp : o1.primal = true := by
    unfold total at h
    simp only [Bool.false_and, Bool.false_eq_true, if_false] at h
    injection h with h; injection h with _ h
    rw [← h]
    cases hc : o.primal <;> simp [hc]
  constructor
  · have hrel : ∀ (es' : List (Nat × List Pt)) (o : Out Pt), ∃ o2, es'.foldlM (fun o e => evaluate false e.1 e.2 o) o = .ok o2 ∧ o2.primal = o.primal ∧ o2.value = o.value := by
      intro es'
      induction es' with
      | nil => intro o; exact ⟨o, rfl, rfl, rfl⟩
      | cons e es' ih =>
        intro o
        obtain ⟨o2, h1, h2, h3⟩ := ih { o with data := o.data ++ e.2.map fun x => (e.1, x) }
        refine ⟨o2, ?_, h2, h3⟩
        rw [List.foldlM_cons]
        unfold evaluate
        simp only [Bool.false_and, Bool.false_eq_true, if_false]
        rw [addPts_release]
        exact h1
    obtain ⟨o2, h1, h2, h3⟩ := hrel es' { o1 with value := 0 }
    refine ⟨o2, o2, h1, ?_⟩
    unfold total
    have : o2.primal = true := h2.trans hp
    simp only [Bool.false_and, Bool.false_eq_true, if_false, this, if_true]
    have : o2.value = 0 := h3
    rw [this]
  · intro hne
    cases es' with
    | nil => exact absurd rfl hne
    | cons e es' =>
      unfold calculate
      rw [List.foldlM_cons]
      unfold evaluate
      simp only [hp, Bool.and_self, if_true]
      rfl

/-- Updating the plot data discards the evaluation: a value requested afterwards is the functional of the points of the last participating element alone. -/
theorem C137_plot_fails (F : List Pt → ℝ) (es : List (Nat × List Pt)) (e : Nat × List Pt) (o : Out Pt) (dbg : Bool) :
    ∃ o1 o2, plotUpdate dbg (es ++ [e]) o = .ok o1 ∧ total dbg F o1 = .ok (F e.2, o2) := by
  have hstep : ∀ (e : Nat × List Pt) (o : Out Pt), evaluate dbg e.1 e.2 (clear o) = .ok ⟨e.2.map fun x => (e.1, x), false, 0, false⟩ := by
    intro e o
    unfold evaluate clear
    simp only [Bool.and_false, Bool.false_eq_true, if_false]
    rw [addPts_ok dbg e.1 0 e.2 _ (by simp)]; simp
  have hrun : ∀ (es : List (Nat × List Pt)) (o : Out Pt), ∃ o', es.foldlM (fun o e => evaluate dbg e.1 e.2 (clear o)) o = .ok o' := by
    intro es
    induction es with
    | nil => intro o; exact ⟨o, rfl⟩
    | cons e es ih => intro o; rw [List.foldlM_cons, hstep]; exact ih _
  obtain ⟨o', ho'⟩ := hrun es o
  refine ⟨⟨e.2.map fun x => (e.1, x), false, 0, false⟩, ⟨e.2.map fun x => (e.1, x), true, F e.2, false⟩, ?_, ?_⟩
  · unfold plotUpdate
    rw [List.foldlM_append, ho']
    show List.foldlM (m := Exec) (fun o e => evaluate dbg e.1 e.2 (clear o)) o' [e] = _
    rw [List.foldlM_cons, hstep]; rfl
  · have : (e.2.map fun x => (e.1, x)).map (·.2) = e.2 := by simp
    simp only [total, Bool.and_false, Bool.false_eq_true, if_false, this]

/-- Non-vacuity of C137_no_clear_fails and C137_fresh: two elements with stresses 3 and 4; the functional is the sum; the first evaluation gives 7, the repetition without `clear` gives 0. -/
example : ∃ o1 o2, calculate false [(0, [3]), (1, [4])] (clear ⟨[], true, 5, true⟩ : Out ℝ) = .ok o1 ∧ total false List.sum o1 = .ok (7, o2) ∧
    ∃ o3 o4, calculate false [(0, [3]), (1, [4])] o2 = .ok o3 ∧ total false List.sum o3 = .ok (0, o4) := by
  obtain ⟨o1, o2, _, h1, h2, _⟩ := C137_fresh (Pt := ℝ) false List.sum [(0, [3]), (1, [4])] (by simp) ⟨[], true, 5, true⟩
  refine ⟨o1, o2, h1, ?_, (C137_no_clear_fails List.sum _ o1 o2 _ h2).1⟩
  rw [h2]; norm_num

end
end Verif.StressAsm
