import Verif.Model.ConstrainDofs
import Verif.Props.CutCell
/-
  C77: which dofs are constrained by the level set.
-/
namespace Verif.ConstrainDofs
open CutCell

/-! ## Specification -/

/-- No element that holds the dof reports a positive region. -/
def NotOnMaterial (es : List Elem) (d : Nat) : Prop := (∃ e ∈ es, d ∈ e.dofs) ∧ ∀ e ∈ es, d ∈ e.dofs → e.hasPos = false

/-- The dof belongs to a node with non-positive level set of an element with a boundary. -/
def OnNegativeBoundaryNode (es : List Elem) (d : Nat) : Prop := ∃ e ∈ es, e.hasBdry = true ∧ ∃ n ∈ e.nodes, n.phi ≤ 0 ∧ d ∈ n.dofs

/-- All nodes of the element have an indicator of at most the tolerance. -/
def Cold (tol : ℝ) (e : Elem) : Prop := ∀ n ∈ e.nodes, n.ind ≤ tol

/-! ## Lemmas -/

theorem mem_insertAll (s : Finset Nat) (l : List Nat) (d : Nat) : d ∈ insertAll s l ↔ d ∈ s ∨ d ∈ l := by
  unfold insertAll
  induction l generalizing s with
  | nil => simp
  | cons a l ih => rw [List.foldl_cons, ih]; simp only [Finset.mem_insert, List.mem_cons]; tauto

theorem mem_negFold (l : List Node) (t : Finset Nat) (d : Nat) :
    d ∈ l.foldl (fun t nd => if nd.phi ≤ 0 then insertAll t nd.dofs else t) t ↔ d ∈ t ∨ ∃ n ∈ l, n.phi ≤ 0 ∧ d ∈ n.dofs := by
  induction l generalizing t with
  | nil => simp
  | cons a l ih =>
    rw [List.foldl_cons, ih]
    by_cases h : a.phi ≤ 0
    · simp [h, mem_insertAll, or_assoc]
    · simp [h]

theorem mem_collect (negOn : Bool) (es : List Elem) (s : Sets) (d : Nat) :
    (d ∈ (es.foldl (collect negOn) s).all ↔ d ∈ s.all ∨ ∃ e ∈ es, d ∈ e.dofs) ∧
    (d ∈ (es.foldl (collect negOn) s).con ↔ d ∈ s.con ∨ ∃ e ∈ es, e.hasPos = true ∧ d ∈ e.dofs) ∧
    (d ∈ (es.foldl (collect negOn) s).neg ↔ d ∈ s.neg ∨ (negOn = true ∧ OnNegativeBoundaryNode es d)) := by
  induction es generalizing s with
  | nil => simp [OnNegativeBoundaryNode]
  | cons e es ih =>
    rw [List.foldl_cons]
    obtain ⟨h1, h2, h3⟩ := ih (collect negOn s e)
    refine ⟨?_, ?_, ?_⟩
    · rw [h1]; simp [collect, mem_insertAll, or_assoc]
    · rw [h2]; cases hp : e.hasPos <;> simp [collect, hp, mem_insertAll, or_assoc]
    · rw [h3]
      cases negOn
      · simp [collect]
      · cases hb : e.hasBdry
        · simp [collect, hb, OnNegativeBoundaryNode]
        · simp only [collect, hb, Bool.and_self, if_true, mem_negFold, OnNegativeBoundaryNode, List.mem_cons, exists_eq_or_imp, true_and, or_assoc]

theorem foldl_max_le (l : List Node) (a tol : ℝ) : l.foldl (fun m n => max m n.ind) a ≤ tol ↔ a ≤ tol ∧ ∀ n ∈ l, n.ind ≤ tol := by
  induction l generalizing a with
  | nil => simp
  | cons b l ih => rw [List.foldl_cons, ih]; simp [and_assoc]

theorem maxInd_le (e : Elem) (tol : ℝ) (h : e.nodes ≠ []) : maxInd e ≤ tol ↔ Cold tol e := by
  unfold maxInd Cold
  cases hn : e.nodes with
  | nil => exact absurd hn h
  | cons a l => simp [foldl_max_le]

/-! ## C77 -/

/-- C77: after the call on the elements of one processor a dof is constrained iff it was before, or no element reports material at it, or (if asked for) it belongs
to a node with non-positive level set of an element with a boundary. Rows that existed are kept and new rows are zero. -/
theorem C77_constrained_iff (negOn : Bool) (es : List Elem) (m : Nat → Option Row) (d : Nat) :
    constrain negOn es m d =
      match m d with
      | some r => some r
      | none => open Classical in if NotOnMaterial es d ∨ (negOn = true ∧ OnNegativeBoundaryNode es d) then some [] else none := by
  classical
  obtain ⟨h1, h2, h3⟩ := mem_collect negOn es ⟨∅, ∅, ∅⟩ d
  have hA : d ∈ (es.foldl (collect negOn) ⟨∅, ∅, ∅⟩).all \ (es.foldl (collect negOn) ⟨∅, ∅, ∅⟩).con ↔ NotOnMaterial es d := by
    rw [Finset.mem_sdiff, h1, h2]
    simp only [Finset.notMem_empty, false_or, NotOnMaterial, not_exists, not_and]
    refine and_congr_right fun _ => forall_congr' fun e => forall_congr' fun _ => ?_
    constructor
    · intro h hd; cases hp : e.hasPos; (· rfl); exact absurd hd (h hp)
    · intro h hp hd; rw [h hd] at hp; cases hp
  have hN : d ∈ (es.foldl (collect negOn) ⟨∅, ∅, ∅⟩).neg ↔ (negOn = true ∧ OnNegativeBoundaryNode es d) := by rw [h3]; simp
  unfold constrain addZeroRows
  cases hm : m d with
  | some r => cases negOn <;> simp [hm]
  | none =>
    cases negOn
    · simp only [Bool.false_eq_true, if_false, hA, hm, and_true, false_and, or_false]
    · simp only [if_true, hA, hN, hm, and_true, true_and]
      by_cases a : NotOnMaterial es d <;> by_cases b : OnNegativeBoundaryNode es d <;> simp [a, b]

/-- C77: with the indicator function, in addition the dofs of elements all of whose nodes have an indicator of at most the tolerance are constrained, except those of
elements with a boundary that have a larger one. -/
theorem C77_indicator_iff (tol : ℝ) (negOn : Bool) (es : List Elem) (hn : ∀ e ∈ es, e.nodes ≠ []) (m : Nat → Option Row) (d : Nat) :
    constrainInd tol negOn es m d =
      match constrain negOn es m d with
      | some r => some r
      | none => open Classical in
        if (∃ e ∈ es, d ∈ e.dofs ∧ Cold tol e) ∧ ¬ (∃ e ∈ es, d ∈ e.dofs ∧ e.hasBdry = true ∧ ¬ Cold tol e) then some [] else none := by
  classical
  have key : ∀ (es : List Elem), (∀ e ∈ es, e.nodes ≠ []) → ∀ (s : Finset Nat × Finset Nat),
      (d ∈ (es.foldl (collectInd tol) s).1 ↔ d ∈ s.1 ∨ ∃ e ∈ es, d ∈ e.dofs ∧ Cold tol e) ∧
      (d ∈ (es.foldl (collectInd tol) s).2 ↔ d ∈ s.2 ∨ ∃ e ∈ es, d ∈ e.dofs ∧ e.hasBdry = true ∧ ¬ Cold tol e) := by
    intro es
    induction es with
    | nil => simp
    | cons e es ih =>
      intro hn s
      rw [List.foldl_cons]
      obtain ⟨a, b⟩ := ih (fun e he => hn e (by simp [he])) (collectInd tol s e)
      have hc : (maxInd e > tol) ↔ ¬ Cold tol e := by rw [← maxInd_le e tol (hn e (by simp))]; exact not_le.symm
      rw [a, b]
      by_cases hC : Cold tol e
      · have : ¬ (maxInd e > tol) := by rw [hc]; simpa using hC
        constructor <;> simp [collectInd, this, mem_insertAll, hC, or_assoc]
      · have : (maxInd e > tol) := hc.mpr hC
        cases hb : e.hasBdry <;> constructor <;> simp [collectInd, this, mem_insertAll, hC, hb, or_assoc]
  obtain ⟨a, b⟩ := key es hn (∅, ∅)
  simp only [Finset.notMem_empty, false_or] at a b
  simp only [constrainInd, a, b]
  cases hm : constrain negOn es m d with
  | some r => simp
  | none => simp only [true_and]

/-- C77, QUAD4 meshes: without the option, and for corner values that are not the tolerance in absolute value, a dof that was free is constrained iff it is held by an
element and all corners of all elements that hold it are below `-tol`. -/
theorem C77_quad4_iff {tol : ℝ} (h0 : 0 < tol) (h1 : tol < 1000000000000) {ι : Type} (q : List ι) (v : ι → Fin 4 → ℝ) (hv : ∀ k ∈ q, ∀ i, |v k i| ≠ tol) (mid : ι → ℝ)
    (nd : ι → Fin 4 → List Nat) (ind : ι → Fin 4 → ℝ) (E : ι → Elem) (hE : ∀ k ∈ q, quadElem tol (v k) (mid k) (nd k) (ind k) = some (E k)) (m : Nat → Option Row) (d : Nat)
    (hd : m d = none) :
    constrain false (q.map E) m d = some [] ↔ (∃ k ∈ q, ∃ i, d ∈ nd k i) ∧ ∀ k ∈ q, (∃ i, d ∈ nd k i) → ∀ i, v k i < -tol := by
  classical
  have hk : ∀ k ∈ q, (d ∈ (E k).dofs ↔ ∃ i, d ∈ nd k i) ∧ ((E k).hasPos = false ↔ ∀ i, v k i < -tol) := by
    intro k hk
    have := hE k hk
    unfold quadElem at this
    cases hc : initElem tol (v k) [] (mid k) with
    | none => rw [hc] at this; cases this
    | some c =>
      rw [hc] at this
      injection this with this
      subst_vars
      have hp := (C71_entirely h0 h1 (hv k hk) hc).2.1
      rw [← this]
      refine ⟨?_, ?_⟩
      · simp [Fin.exists_fin_succ, or_assoc]
      · rw [← hp]; simp [hasPos]
  rw [C77_constrained_iff, hd]
  simp only [Bool.false_eq_true, false_and, or_false]
  have : NotOnMaterial (q.map E) d ↔ (∃ k ∈ q, ∃ i, d ∈ nd k i) ∧ ∀ k ∈ q, (∃ i, d ∈ nd k i) → ∀ i, v k i < -tol := by
    unfold NotOnMaterial
    simp only [List.mem_map, exists_exists_and_eq_and, forall_exists_index, and_imp, forall_apply_eq_imp_iff₂]
    constructor
    · rintro ⟨⟨k, hkq, hkd⟩, h⟩
      exact ⟨⟨k, hkq, (hk k hkq).1.mp hkd⟩, fun k hkq i hi => (hk k hkq).2.mp (h k hkq ((hk k hkq).1.mpr ⟨i, hi⟩))⟩
    · rintro ⟨⟨k, hkq, hkd⟩, h⟩
      refine ⟨⟨k, hkq, (hk k hkq).1.mpr hkd⟩, fun k hkq hkd => ?_⟩
      obtain ⟨i, hi⟩ := (hk k hkq).1.mp hkd
      exact (hk k hkq).2.mpr (h k hkq i hi)
  rw [← this]
  split <;> simp_all

/-- The level set changes sign on the corners of the element, or two of them lie on it (up to the tolerance). -/
def CutOrEdge (tol : ℝ) (v : Fin 4 → ℝ) : Prop := (∃ i j, v i < -tol ∧ tol < v j) ∨ ∃ i j, i ≠ j ∧ |v i| < tol ∧ |v j| < tol

/-- Pattern check behind `hasBoundary_iff`. -/
theorem bdry_lit : ∀ (a b c d : Fin 4) (m : Bool), (match comb ![a, b, c, d] m with
    | none => true
    | some k => hasBoundary k == ((([0, 1, 2, 3].any fun i => ![a, b, c, d] i == 0) && ([0, 1, 2, 3].any fun i => ![a, b, c, d] i == 3)) ||
        [0, 1, 2, 3].any fun i => [0, 1, 2, 3].any fun j => i != j && near (![a, b, c, d] i) && near (![a, b, c, d] j))) = true := by decide +kernel

theorem hasBoundary_iff {tol : ℝ} (h0 : 0 < tol) (h1 : tol < 1000000000000) {v : Fin 4 → ℝ} (hv : ∀ i, |v i| ≠ tol) {mid : ℝ} {c : Cut}
    (h : initElem tol v [] mid = some c) : hasBoundary c = true ↔ CutOrEdge tol v := by
  have e : (fun i => sg tol (v i)) = ![sg tol (v 0), sg tol (v 1), sg tol (v 2), sg tol (v 3)] := by funext i; fin_cases i <;> rfl
  have l := bdry_lit (sg tol (v 0)) (sg tol (v 1)) (sg tol (v 2)) (sg tol (v 3)) (decide (mid * v 0 > 0))
  rw [← e, ← initElem_comb h0 h1 hv, h] at l
  simp only [beq_iff_eq] at l
  rw [l]
  have hm : ∀ i : Fin 4, i ∈ ([0, 1, 2, 3] : List (Fin 4)) := by decide
  have hn : ∀ i, near (sg tol (v i)) = true ↔ |v i| < tol := by intro i; rw [(sg_near (hv i)).2]; simp
  have hp : ∀ i, sg tol (v i) = 3 ↔ tol < v i := by
    intro i; rw [sg_pos h0]
    exact ⟨fun h => lt_of_le_of_ne h (fun e => hv i (by rw [← e, abs_of_pos h0])), le_of_lt⟩
  have hg : ∀ i, sg tol (v i) = 0 ↔ v i < -tol := by
    intro i; rw [sg_neg h0]
    exact ⟨fun h => lt_of_le_of_ne h (fun e => hv i (by rw [e, abs_neg, abs_of_pos h0])), le_of_lt⟩
  simp only [Bool.or_eq_true, Bool.and_eq_true, List.any_eq_true, hm, true_and, beq_iff_eq, bne_iff_ne, hn, hp, hg, CutOrEdge]
  constructor
  · rintro (⟨⟨i, hi⟩, j, hj⟩ | ⟨i, j, ⟨a, b⟩, c⟩)
    · exact Or.inl ⟨i, j, hi, hj⟩
    · exact Or.inr ⟨i, j, a, b, c⟩
  · rintro (⟨i, j, hi, hj⟩ | ⟨i, j, a, b, c⟩)
    · exact Or.inl ⟨⟨i, hi⟩, j, hj⟩
    · exact Or.inr ⟨i, j, ⟨a, b⟩, c⟩

/-- C77, QUAD4 meshes, with the option: a dof that was free is constrained iff all corners of all elements that hold it are below `-tol`, or it belongs to a corner with
non-positive level set of an element on whose corners the level set changes sign or vanishes twice. -/
theorem C77_quad4_negative_iff {tol : ℝ} (h0 : 0 < tol) (h1 : tol < 1000000000000) {ι : Type} (q : List ι) (v : ι → Fin 4 → ℝ) (hv : ∀ k ∈ q, ∀ i, |v k i| ≠ tol)
    (mid : ι → ℝ) (nd : ι → Fin 4 → List Nat) (ind : ι → Fin 4 → ℝ) (E : ι → Elem) (hE : ∀ k ∈ q, quadElem tol (v k) (mid k) (nd k) (ind k) = some (E k))
    (m : Nat → Option Row) (d : Nat) (hd : m d = none) :
    constrain true (q.map E) m d = some [] ↔
      ((∃ k ∈ q, ∃ i, d ∈ nd k i) ∧ ∀ k ∈ q, (∃ i, d ∈ nd k i) → ∀ i, v k i < -tol) ∨ ∃ k ∈ q, CutOrEdge tol (v k) ∧ ∃ i, v k i ≤ 0 ∧ d ∈ nd k i := by
  classical
  have hB : OnNegativeBoundaryNode (q.map E) d ↔ ∃ k ∈ q, CutOrEdge tol (v k) ∧ ∃ i, v k i ≤ 0 ∧ d ∈ nd k i := by
    unfold OnNegativeBoundaryNode
    simp only [List.mem_map, exists_exists_and_eq_and]
    refine exists_congr fun k => and_congr_right fun hk => ?_
    have hq := hE k hk
    unfold quadElem at hq
    cases hc : initElem tol (v k) [] (mid k) with
    | none => rw [hc] at hq; cases hq
    | some c =>
      rw [hc] at hq
      simp only [Option.map_some, Option.some.injEq] at hq
      rw [← hq]
      simp only [hasBoundary_iff h0 h1 (hv k hk) hc]
      refine and_congr_right fun _ => ?_
      simp [Fin.exists_fin_succ]
  have hA := C77_quad4_iff h0 h1 q v hv mid nd ind E hE m d hd
  rw [C77_constrained_iff, hd] at hA ⊢
  simp only [Bool.false_eq_true, false_and, or_false, true_and] at hA ⊢
  rw [← hA, ← hB]
  by_cases a : NotOnMaterial (q.map E) d <;> by_cases b : OnNegativeBoundaryNode (q.map E) d <;> simp [a, b]

/-- C77, finding: an element that only touches the level set from the void side (corner values 0, -1, -1, -1) counts as material: none of its dofs is constrained, though
the level set is positive nowhere on it. -/
theorem C77_touching_element_fails {tol : ℝ} (h0 : 0 < tol) (h1 : tol < 1) (mid : ℝ) (nd : Fin 4 → List Nat) :
    ∃ e, quadElem tol ![0, -1, -1, -1] mid nd (fun _ => 0) = some e ∧ ∀ d, constrain false [e] (fun _ => none) d = none := by
  classical
  have hv : ∀ i, |(![0, -1, -1, -1] : Fin 4 → ℝ) i| ≠ tol := by
    intro i; fin_cases i <;> simp <;> linarith
  obtain ⟨c, hc⟩ := C71_total h0 (by linarith) hv mid
  have hp : hasPos c = true := (C71_entirely h0 (by linarith) hv hc).2.2.1.mpr ⟨0, by simp; exact h0.le⟩
  refine ⟨_, by unfold quadElem; rw [hc]; rfl, fun d => ?_⟩
  rw [C77_constrained_iff]
  simp [NotOnMaterial, hp]
  tauto

/-- C77, finding: the sets are those of one processor: a dof of a void element on this processor is constrained here although an element of another processor reports
material at it. -/
theorem C77_processor_local_fails : ∃ (mine others : List Elem) (d : Nat),
    constrain false mine (fun _ => none) d = some [] ∧ constrain false (mine ++ others) (fun _ => none) d = none := by
  classical
  refine ⟨[⟨[0, 1], [], false, false⟩], [⟨[1, 2], [], true, false⟩], 1, ?_, ?_⟩
  · rw [C77_constrained_iff]; simp [NotOnMaterial]
  · rw [C77_constrained_iff]; simp [NotOnMaterial]

/-- Non-vacuity: two elements sharing dof 1, the second one void; dof 2 only is constrained, and with the option also dof 0 (node with level set 0 in a cut element). -/
example :
    let e1 : Elem := ⟨[0, 1], [⟨0, 0, [0]⟩, ⟨1, 1, [1]⟩], true, true⟩
    let e2 : Elem := ⟨[1, 2], [⟨1, 1, [1]⟩, ⟨-1, 0, [2]⟩], false, false⟩
    constrain false [e1, e2] (fun _ => none) 2 = some [] ∧ constrain false [e1, e2] (fun _ => none) 0 = none ∧
    constrain true [e1, e2] (fun _ => none) 0 = some [] ∧ constrain true [e1, e2] (fun d => if d = 2 then some [(1, 1)] else none) 2 = some [(1, 1)] := by
  classical
  simp [C77_constrained_iff, NotOnMaterial, OnNegativeBoundaryNode]

/-- Non-vacuity of `C77_indicator_iff` and `C77_quad4_iff`: an element with cold nodes next to a hot one; a void QUAD4. -/
example :
    let e1 : Elem := ⟨[0, 1], [⟨1, 0, [0]⟩, ⟨1, 0, [1]⟩], true, false⟩
    let e2 : Elem := ⟨[1, 2], [⟨1, 0, [1]⟩, ⟨-1, 1, [2]⟩], true, true⟩
    constrainInd (1 / 2) false [e1, e2] (fun _ => none) 0 = some [] ∧ constrainInd (1 / 2) false [e1, e2] (fun _ => none) 1 = none := by
  classical
  intro e1 e2
  constructor
  · rw [C77_indicator_iff _ _ _ (by simp [e1, e2])]
    simp [C77_constrained_iff, NotOnMaterial, OnNegativeBoundaryNode, Cold, e1, e2]
  · rw [C77_indicator_iff _ _ _ (by simp [e1, e2])]
    simp [C77_constrained_iff, NotOnMaterial, OnNegativeBoundaryNode, Cold, e1, e2]
    norm_num

example {tol : ℝ} (h0 : 0 < tol) (h1 : tol < 1) : ∃ e, quadElem tol (fun _ => -1) (-1) (fun i => [i.val]) (fun _ => 0) = some e ∧ constrain false [e] (fun _ => none) 3 = some [] := by
  have hv : ∀ i, |(fun _ => -1 : Fin 4 → ℝ) i| ≠ tol := by intro i; simp; linarith
  obtain ⟨c, hc⟩ := C71_total h0 (by linarith) hv (-1)
  have hq : ∃ e, quadElem tol (fun _ => -1) (-1) (fun i => [i.val]) (fun _ => 0) = some e := by unfold quadElem; rw [hc]; exact ⟨_, rfl⟩
  obtain ⟨e, he⟩ := hq
  refine ⟨e, he, ?_⟩
  have := (C77_quad4_iff h0 (by linarith) [()] (fun _ _ => -1) (fun _ _ => hv) (fun _ => -1) (fun _ i => [i.val]) (fun _ _ => 0) (fun _ => e) (fun _ _ => he)
    (fun _ => none) 3 rfl).mpr ⟨⟨(), by simp, 3, by simp⟩, fun _ _ _ _ => by linarith⟩
  simpa using this

/-- Non-vacuity of `C77_quad4_negative_iff`: an edge on the level set, the element on the positive side. -/
example {tol : ℝ} (h0 : 0 < tol) (h1 : tol < 1) : ∃ e, quadElem tol ![0, 0, 1, 1] 1 (fun i => [i.val]) (fun _ => 0) = some e ∧
    constrain true [e] (fun _ => none) 0 = some [] ∧ constrain true [e] (fun _ => none) 2 ≠ some [] := by
  have hv : ∀ i, |(![0, 0, 1, 1] : Fin 4 → ℝ) i| ≠ tol := by intro i; fin_cases i <;> simp <;> linarith
  obtain ⟨c, hc⟩ := C71_total h0 (by linarith) hv 1
  have hq : ∃ e, quadElem tol ![0, 0, 1, 1] 1 (fun i => [i.val]) (fun _ => 0) = some e := by unfold quadElem; rw [hc]; exact ⟨_, rfl⟩
  obtain ⟨e, he⟩ := hq
  have key := fun d => C77_quad4_negative_iff h0 (by linarith) [()] (fun _ => ![0, 0, 1, 1]) (fun _ _ => hv) (fun _ => 1) (fun _ i => [i.val]) (fun _ _ => 0)
    (fun _ => e) (fun _ _ => he) (fun _ => none) d rfl
  refine ⟨e, he, (key 0).mpr (Or.inr ⟨(), by simp, Or.inr ⟨0, 1, by decide, by simpa using h0, by simpa using h0⟩, 0, by simp, by simp⟩), fun h => ?_⟩
  rcases (key 2).mp h with ⟨_, h⟩ | ⟨_, _, _, i, hi, hd⟩
  · have := h () (by simp) ⟨2, by simp⟩ 0; simp at this; linarith
  · simp at hd; have : i = 2 := Fin.ext hd.symm
    subst this; exact absurd (show (1 : ℝ) ≤ 0 from hi) (by norm_num)

end Verif.ConstrainDofs
