import Verif.Model.Filter
/-
  C67 (filter is a convex average), C68 (overloads agree), C69 (influence query).
-/
namespace Verif.Filter

/-! ### Specification -/

/-- Cone weight of the node `b` for the node `a`. -/
noncomputable def cone (r : ℝ) (a b : Node) : ℝ := if dist a.pt b.pt ≤ r then r - dist a.pt b.pt else 0

/-- The filtered value at the node `a`: for a design variable the average of the values of the nodes with cone weights, else the value itself. -/
noncomputable def spec (r : ℝ) (nodes : List Node) (dv : Nat → Bool) (x : Nat → ℝ) (a : Node) : ℝ :=
  if dv a.dof then (nodes.map fun b => x b.dof * cone r a b).sum / (nodes.map fun b => cone r a b).sum else x a.dof

/-- Distinct dof numbers. -/
def Distinct (nodes : List Node) : Prop := (nodes.map (·.dof)).Nodup

/-! ### Lemmas -/

theorem weightSum_eq (r : ℝ) (nodes : List Node) (a : Node) : weightSum r nodes a = (nodes.map fun b => cone r a b).sum := by
  have : ∀ (l : List Node) (s : ℝ), l.foldl (fun s n2 => let d := dist a.pt n2.pt; if d ≤ r then s + (r - d) else s) s = s + (l.map fun b => cone r a b).sum := by
    intro l
    induction l with
    | nil => intro s; simp
    | cons b l ih =>
      intro s
      rw [List.foldl_cons, ih, List.map_cons, List.sum_cons]
      simp only [cone]; split <;> ring
  rw [weightSum, this, zero_add]

theorem cone_nonneg (r : ℝ) (a b : Node) : 0 ≤ cone r a b := by
  unfold cone; split
  · linarith
  · exact le_rfl

theorem weightSum_pos {r : ℝ} (hr : 0 < r) {nodes : List Node} {a : Node} (ha : a ∈ nodes) : 0 < weightSum r nodes a := by
  rw [weightSum_eq]
  have h1 : cone r a a = r := by simp [cone, hr.le]
  have h2 : cone r a a ≤ (nodes.map fun b => cone r a b).sum :=
    List.single_le_sum (by intro y hy; obtain ⟨b, -, rfl⟩ := List.mem_map.1 hy; exact cone_nonneg r a b) _ (List.mem_map.2 ⟨a, ha, rfl⟩)
  linarith

/-- Entries of the map of node `a`: sum of a function of (dof, weight). -/
theorem entry_sum (r : ℝ) (nodes : List Node) (a : Node) (x : Nat → ℝ) :
    (((neighbours r nodes a).map fun p => (p.1, p.2 / weightSum r nodes a)).map fun p => x p.1 * p.2).sum =
      (nodes.map fun b => x b.dof * cone r a b).sum / weightSum r nodes a := by
  generalize weightSum r nodes a = S
  unfold neighbours
  induction nodes with
  | nil => simp
  | cons b l ih =>
    rw [List.filterMap_cons, List.map_cons, List.sum_cons]
    by_cases h : dist a.pt b.pt ≤ r
    · simp only [h, if_true, List.map_cons, List.sum_cons, ih]
      simp only [cone, h, if_true]; ring
    · simp only [h, if_false, ih]
      simp only [cone, h, if_false]; ring

/-- Inner loop of additions. -/
theorem inner_add (x w : Nat → ℝ) (i : Nat) (g : Nat × ℝ → ℝ) (l : List (Nat × ℝ)) (out : Nat → ℝ) (j : Nat) :
    (l.foldl (fun out p => addAt out i (g p)) out) j = if j = i then out j + (l.map g).sum else out j := by
  induction l generalizing out with
  | nil => simp
  | cons p l ih =>
    rw [List.foldl_cons, ih]
    by_cases h : j = i <;> simp [h, addAt]; ring

theorem inner_set (i : Nat) (v : ℝ) (l : List (Nat × ℝ)) (hl : l ≠ []) (out : Nat → ℝ) (j : Nat) :
    (l.foldl (fun out _ => setAt out i v) out) j = if j = i then v else out j := by
  have : ∀ (l : List (Nat × ℝ)) (out : Nat → ℝ), (∀ k, k = i → out k = v) → (l.foldl (fun out _ => setAt out i v) out) j = out j := by
    intro l
    induction l with
    | nil => intro out _; rfl
    | cons p l ih =>
      intro out h
      rw [List.foldl_cons, ih _ (by intro k hk; simp [setAt, hk])]
      by_cases hj : j = i
      · simp [setAt, hj, h i rfl]
      · simp [setAt, hj]
  cases l with
  | nil => exact absurd rfl hl
  | cons p l =>
    rw [List.foldl_cons, this]
    · simp [setAt]
    · intro k hk; simp [setAt, hk]

/-- The list of an entry is not empty: a node is its own neighbour. -/
theorem neighbours_ne {r : ℝ} (hr : 0 < r) {nodes : List Node} {a : Node} (ha : a ∈ nodes) : neighbours r nodes a ≠ [] := by
  intro h
  have : (a.dof, r - dist a.pt a.pt) ∈ neighbours r nodes a := List.mem_filterMap.2 ⟨a, ha, by simp [hr.le]⟩
  rw [h] at this; simp at this

/-- Fold over entries with distinct keys, each entry changing the value at its own key only. -/
theorem fold_entries {σ : Type*} (step : (Nat → σ) → Nat × List (Nat × ℝ) → (Nat → σ)) (F : Nat × List (Nat × ℝ) → σ → σ)
    (fm : List (Nat × List (Nat × ℝ))) (hstep : ∀ out, ∀ e ∈ fm, ∀ j, step out e j = if j = e.1 then F e (out j) else out j)
    (hd : (fm.map (·.1)).Nodup) (out : Nat → σ) (e : Nat × List (Nat × ℝ)) (he : e ∈ fm) : fm.foldl step out e.1 = F e (out e.1) := by
  induction fm generalizing out with
  | nil => simp at he
  | cons e' l ih =>
    rw [List.map_cons, List.nodup_cons] at hd
    rw [List.foldl_cons]
    have notin : ∀ (l : List (Nat × List (Nat × ℝ))) (out : Nat → σ) (k : Nat), (∀ out, ∀ e ∈ l, ∀ j, step out e j = if j = e.1 then F e (out j) else out j) →
        k ∉ l.map (·.1) → l.foldl step out k = out k := by
      intro l
      induction l with
      | nil => intros; rfl
      | cons e l ih =>
        intro out k hs hk
        rw [List.map_cons, List.mem_cons, not_or] at hk
        rw [List.foldl_cons, ih _ _ (fun out e he => hs out e (List.mem_cons_of_mem _ he)) hk.2, hs out e (List.mem_cons_self ..), if_neg hk.1]
    rcases List.mem_cons.1 he with rfl | he
    · rw [notin l _ _ (fun out e he => hstep out e (List.mem_cons_of_mem _ he)) hd.1, hstep out e (List.mem_cons_self ..), if_pos rfl]
    · rw [ih (fun out e he => hstep out e (List.mem_cons_of_mem _ he)) hd.2 _ he, hstep out e' (List.mem_cons_self ..), if_neg]
      intro h; exact hd.1 (h ▸ List.mem_map.2 ⟨e, he, rfl⟩)

theorem filterMap_keys (r : ℝ) (nodes : List Node) : (filterMap r nodes).map (·.1) = nodes.map (·.dof) := by
  simp [filterMap, Function.comp_def]

theorem mem_filterMap' {r : ℝ} {nodes : List Node} {a : Node} (ha : a ∈ nodes) :
    (a.dof, (neighbours r nodes a).map fun p => (p.1, p.2 / weightSum r nodes a)) ∈ filterMap r nodes := List.mem_map.2 ⟨a, ha, rfl⟩

theorem entry_ne {r : ℝ} (hr : 0 < r) {nodes : List Node} {e} (he : e ∈ filterMap r nodes) : e.2 ≠ [] := by
  obtain ⟨a, ha, rfl⟩ := List.mem_map.1 he
  simpa using neighbours_ne hr ha

/-! ### C67 -/

/-- C67: the weights stored for a node are nonnegative and sum to one. -/
theorem C67_weights {r : ℝ} (hr : 0 < r) {nodes : List Node} {e} (he : e ∈ filterMap r nodes) :
    (∀ p ∈ e.2, 0 ≤ p.2) ∧ (e.2.map (·.2)).sum = 1 := by
  obtain ⟨a, ha, rfl⟩ := List.mem_map.1 he
  have hs := weightSum_pos hr ha
  constructor
  · intro p hp
    obtain ⟨q, hq, rfl⟩ := List.mem_map.1 hp
    obtain ⟨b, -, hb⟩ := List.mem_filterMap.1 hq
    simp only at hb
    split at hb
    · injection hb with hb; subst hb; exact div_nonneg (by simp only; linarith) hs.le
    · simp at hb
  · have := entry_sum r nodes a fun _ => 1
    simp only [one_mul, ← weightSum_eq] at this
    rw [this, div_self hs.ne']

/-- C67: the value computed by the filter: the weighted average (specification) at every owned dof. -/
theorem C67_average {r : ℝ} (hr : 0 < r) {nodes : List Node} (hd : Distinct nodes) (dv owned : Nat → Bool) (x : Nat → ℝ) {a : Node} (ha : a ∈ nodes)
    (ho : owned a.dof = true) : filterDense (filterMap r nodes) dv owned x a.dof = spec r nodes dv x a := by
  unfold filterDense
  rw [fold_entries _ (fun e v => if owned e.1 then (if dv e.1 then v + (e.2.map fun p => x p.1 * p.2).sum else x e.1) else v) (filterMap r nodes) ?_
    (by rw [filterMap_keys]; exact hd) _ _ (mem_filterMap' ha)]
  · simp only [ho, if_true, zero_add, spec]
    split
    · rw [entry_sum, weightSum_eq]
    · rfl
  · intro out e he j
    by_cases h1 : owned e.1 = true
    · by_cases h2 : dv e.1 = true
      · simp only [h1, h2, if_true]; rw [inner_add x x]
      · simp only [h1, if_true, h2, Bool.false_eq_true, if_false]; rw [inner_set _ _ _ (entry_ne hr he)]
    · simp only [h1, Bool.false_eq_true, if_false]
      have : ∀ (l : List (Nat × ℝ)) (out : Nat → ℝ), l.foldl (fun out _ => out) out = out := fun l out => by induction l <;> simp_all
      rw [this]; simp

theorem spec_avg_bounds {r : ℝ} (hr : 0 < r) {nodes : List Node} {dv : Nat → Bool} {x : Nat → ℝ} {lo hi : ℝ} (hx : ∀ b ∈ nodes, lo ≤ x b.dof ∧ x b.dof ≤ hi)
    {a : Node} (ha : a ∈ nodes) : lo ≤ spec r nodes dv x a ∧ spec r nodes dv x a ≤ hi := by
  unfold spec
  split
  · have hs := weightSum_pos hr ha
    rw [weightSum_eq] at hs
    have h1 : lo * (nodes.map fun b => cone r a b).sum ≤ (nodes.map fun b => x b.dof * cone r a b).sum := by
      rw [← List.sum_map_mul_left]
      exact List.sum_le_sum fun b hb => mul_le_mul_of_nonneg_right (hx b hb).1 (cone_nonneg r a b)
    have h2 : (nodes.map fun b => x b.dof * cone r a b).sum ≤ hi * (nodes.map fun b => cone r a b).sum := by
      rw [← List.sum_map_mul_left]
      exact List.sum_le_sum fun b hb => mul_le_mul_of_nonneg_right (hx b hb).2 (cone_nonneg r a b)
    exact ⟨(le_div_iff₀ hs).2 h1, (div_le_iff₀ hs).2 h2⟩
  · exact hx a ha

/-- C67: bounds are preserved (maximum principle). -/
theorem C67_bounds {r : ℝ} (hr : 0 < r) {nodes : List Node} (hd : Distinct nodes) (dv owned : Nat → Bool) (x : Nat → ℝ) {lo hi : ℝ}
    (hx : ∀ b ∈ nodes, lo ≤ x b.dof ∧ x b.dof ≤ hi) {a : Node} (ha : a ∈ nodes) (ho : owned a.dof = true) :
    lo ≤ filterDense (filterMap r nodes) dv owned x a.dof ∧ filterDense (filterMap r nodes) dv owned x a.dof ≤ hi := by
  rw [C67_average hr hd dv owned x ha ho]
  exact spec_avg_bounds hr hx ha

/-- C67: constants are preserved. -/
theorem C67_constant {r : ℝ} (hr : 0 < r) {nodes : List Node} (hd : Distinct nodes) (dv owned : Nat → Bool) (c : ℝ) {a : Node} (ha : a ∈ nodes)
    (ho : owned a.dof = true) : filterDense (filterMap r nodes) dv owned (fun _ => c) a.dof = c := by
  have := C67_bounds hr hd dv owned (fun _ => c) (lo := c) (hi := c) (fun _ _ => ⟨le_rfl, le_rfl⟩) ha ho
  exact le_antisymm this.2 this.1

/-- C67: linear. -/
theorem C67_linear {r : ℝ} (hr : 0 < r) {nodes : List Node} (hd : Distinct nodes) (dv owned : Nat → Bool) (x y : Nat → ℝ) (c d : ℝ) {a : Node} (ha : a ∈ nodes)
    (ho : owned a.dof = true) : filterDense (filterMap r nodes) dv owned (fun i => c * x i + d * y i) a.dof =
      c * filterDense (filterMap r nodes) dv owned x a.dof + d * filterDense (filterMap r nodes) dv owned y a.dof := by
  simp only [C67_average hr hd dv owned _ ha ho, spec]
  split
  · have : (nodes.map fun b => (c * x b.dof + d * y b.dof) * cone r a b).sum =
        c * (nodes.map fun b => x b.dof * cone r a b).sum + d * (nodes.map fun b => y b.dof * cone r a b).sum := by
      rw [← List.sum_map_mul_left, ← List.sum_map_mul_left, ← List.sum_map_add]
      congr 1; apply List.map_congr_left; intro b _; ring
    rw [this]; ring
  · rfl

/-! ### C68 -/

/-- Dense vector with the entries of the map and zero elsewhere. -/
def dense (m : Nat → Option ℝ) : Nat → ℝ := fun i => (m i).getD 0

theorem dense_mapGet (m : Nat → Option ℝ) (k : Nat) : (mapGet m k).1 = dense m k ∧ dense (mapGet m k).2 = dense m := by
  unfold mapGet
  cases h : m k with
  | some v => exact ⟨by simp [dense, h], rfl⟩
  | none => refine ⟨by simp [dense, h], ?_⟩; funext j; by_cases hj : j = k <;> simp [dense, hj, h]

/-- One entry of the sparse version. -/
def sparseEntry (dv writable : Nat → Bool) (st : (Nat → ℝ) × (Nat → Option ℝ)) (e : Nat × List (Nat × ℝ)) : (Nat → ℝ) × (Nat → Option ℝ) :=
  e.2.foldl (fun st p =>
    if (st.2 p.1).isSome then
      if writable e.1 then
        if dv e.1 then let r := mapGet st.2 p.1; (addAt st.1 e.1 (r.1 * p.2), r.2)
        else let r := mapGet st.2 e.1; (setAt st.1 e.1 r.1, r.2)
      else st
    else st) st

theorem sparse_dense_inv (dv writable : Nat → Bool) (st : (Nat → ℝ) × (Nat → Option ℝ)) (e : Nat × List (Nat × ℝ)) :
    dense (sparseEntry dv writable st e).2 = dense st.2 := by
  obtain ⟨k, l⟩ := e
  unfold sparseEntry
  simp only
  induction l generalizing st with
  | nil => rfl
  | cons p l ih =>
    rw [List.foldl_cons, ih]
    split
    · split
      · split
        · exact (dense_mapGet _ _).2
        · exact (dense_mapGet _ _).2
      · rfl
    · rfl

theorem sparse_entry_out (dv writable : Nat → Bool) (st : (Nat → ℝ) × (Nat → Option ℝ)) (e : Nat × List (Nat × ℝ)) (h0 : st.1 e.1 = 0)
    (hself : ∃ p ∈ e.2, p.1 = e.1) (j : Nat) :
    (sparseEntry dv writable st e).1 j = if j = e.1 then (if writable e.1 then (if dv e.1 then (e.2.map fun p => dense st.2 p.1 * p.2).sum else dense st.2 e.1) else 0)
      else st.1 j := by
  obtain ⟨k, l⟩ := e
  simp only at *
  by_cases hw : writable k = true
  · by_cases hv : dv k = true
    · -- additions
      have key : ∀ (l : List (Nat × ℝ)) (st : (Nat → ℝ) × (Nat → Option ℝ)), (sparseEntry dv writable st (k, l)).1 j =
          if j = k then st.1 j + (l.map fun p => dense st.2 p.1 * p.2).sum else st.1 j := by
        intro l
        induction l with
        | nil => intro st; simp [sparseEntry]
        | cons p l ih =>
          intro st
          have step : sparseEntry dv writable st (k, p :: l) = sparseEntry dv writable
              (if (st.2 p.1).isSome then (addAt st.1 k ((mapGet st.2 p.1).1 * p.2), (mapGet st.2 p.1).2) else st) (k, l) := by
            simp only [sparseEntry, List.foldl_cons, hw, hv, if_true]
          rw [step, ih]
          by_cases hs : (st.2 p.1).isSome = true
          · simp only [hs, if_true, (dense_mapGet st.2 p.1).2, (dense_mapGet st.2 p.1).1]
            by_cases hj : j = k <;> simp [hj, addAt]; ring
          · have hz : dense st.2 p.1 = 0 := by
              simp only [Option.not_isSome_iff_eq_none] at hs; simp [dense, hs]
            simp only [hs, Bool.false_eq_true, if_false]
            by_cases hj : j = k <;> simp [hj, hz]
      rw [key, hw, hv]
      by_cases hj : j = k
      · subst hj; simp [h0]
      · simp [hj]
    · -- assignments
      have key : ∀ (l : List (Nat × ℝ)) (st : (Nat → ℝ) × (Nat → Option ℝ)), (sparseEntry dv writable st (k, l)).1 j =
          if j = k then (if ∃ p ∈ l, (st.2 p.1).isSome then dense st.2 k else st.1 j) else st.1 j := by
        intro l
        induction l with
        | nil => intro st; simp [sparseEntry]
        | cons p l ih =>
          intro st
          have step : sparseEntry dv writable st (k, p :: l) = sparseEntry dv writable
              (if (st.2 p.1).isSome then (setAt st.1 k (mapGet st.2 k).1, (mapGet st.2 k).2) else st) (k, l) := by
            simp only [sparseEntry, List.foldl_cons, hw, hv, if_true, Bool.false_eq_true, if_false]
          rw [step, ih]
          by_cases hs : (st.2 p.1).isSome = true
          · simp only [hs, if_true, (dense_mapGet st.2 k).2, (dense_mapGet st.2 k).1]
            by_cases hj : j = k
            · subst hj; simp [setAt, hs]
            · simp [hj, setAt]
          · simp only [hs, Bool.false_eq_true, if_false, List.mem_cons, exists_eq_or_imp, false_or]
      rw [key, hw]
      simp only [if_true, hv, Bool.false_eq_true, if_false]
      by_cases hj : j = k
      · subst hj
        simp only [if_true]
        by_cases hx : ∃ p ∈ l, (st.2 p.1).isSome = true
        · rw [if_pos hx]
        · rw [if_neg hx, h0]
          obtain ⟨p, hp, hpj⟩ := hself
          push Not at hx
          have := hx p hp
          rw [hpj] at this
          simp only [Bool.not_eq_true, Option.isSome_eq_false_iff, Option.isNone_iff_eq_none] at this
          simp [dense, this]
      · simp [hj]
  · have : ∀ (l : List (Nat × ℝ)) (st : (Nat → ℝ) × (Nat → Option ℝ)), sparseEntry dv writable st (k, l) = st := by
      intro l
      induction l with
      | nil => intro st; rfl
      | cons p l ih =>
        intro st
        have := ih st
        simp only [sparseEntry, List.foldl_cons, hw, Bool.false_eq_true, if_false, ite_self] at this ⊢
        exact this
    rw [this, if_neg hw]
    by_cases hj : j = k
    · subst hj; simp [h0]
    · simp [hj]

/-- A node is in its own list. -/
theorem entry_self {r : ℝ} (hr : 0 < r) {nodes : List Node} {e} (he : e ∈ filterMap r nodes) : ∃ p ∈ e.2, p.1 = e.1 := by
  obtain ⟨a, ha, rfl⟩ := List.mem_map.1 he
  refine ⟨_, List.mem_map.2 ⟨(a.dof, r - dist a.pt a.pt), List.mem_filterMap.2 ⟨a, ha, by simp [hr.le]⟩, rfl⟩, rfl⟩

/-- C68: the sparse overload gives, for every writable dof, the value that the dense overload gives on the zero extension of the map. -/
theorem C68_sparse {r : ℝ} (hr : 0 < r) {nodes : List Node} (hd : Distinct nodes) (dv writable : Nat → Bool) (m : Nat → Option ℝ) {a : Node} (ha : a ∈ nodes)
    (ho : writable a.dof = true) :
    (filterSparse (filterMap r nodes) dv writable m).1 a.dof = filterDense (filterMap r nodes) dv writable (dense m) a.dof := by
  rw [C67_average hr hd dv writable _ ha ho]
  have key : ∀ (fm : List (Nat × List (Nat × ℝ))) (st : (Nat → ℝ) × (Nat → Option ℝ)), (fm.map (·.1)).Nodup → (∀ e ∈ fm, ∃ p ∈ e.2, p.1 = e.1) →
      (∀ e ∈ fm, st.1 e.1 = 0) → ∀ e ∈ fm, (fm.foldl (sparseEntry dv writable) st).1 e.1 =
        (if writable e.1 then (if dv e.1 then (e.2.map fun p => dense st.2 p.1 * p.2).sum else dense st.2 e.1) else 0) := by
    intro fm
    induction fm with
    | nil => intro st _ _ _ e he; simp at he
    | cons e' l ih =>
      intro st hnd hself h0 e he
      rw [List.map_cons, List.nodup_cons] at hnd
      have ne : ∀ e ∈ l, e.1 ≠ e'.1 := fun e he h => hnd.1 (h ▸ List.mem_map.2 ⟨e, he, rfl⟩)
      have he' := sparse_entry_out dv writable st e' (h0 e' (List.mem_cons_self ..)) (hself e' (List.mem_cons_self ..))
      rw [List.foldl_cons]
      rcases List.mem_cons.1 he with rfl | he
      · have notin : ∀ (l : List (Nat × List (Nat × ℝ))) (st : (Nat → ℝ) × (Nat → Option ℝ)), e.1 ∉ l.map (·.1) →
            (l.foldl (sparseEntry dv writable) st).1 e.1 = st.1 e.1 := by
          intro l
          induction l with
          | nil => intros; rfl
          | cons e2 l ih2 =>
            intro st hk
            rw [List.map_cons, List.mem_cons, not_or] at hk
            rw [List.foldl_cons, ih2 _ hk.2]
            have : ∀ (l : List (Nat × ℝ)) (st : (Nat → ℝ) × (Nat → Option ℝ)), (sparseEntry dv writable st (e2.1, l)).1 e.1 = st.1 e.1 := by
              intro l
              induction l with
              | nil => intro st; rfl
              | cons p l ih3 =>
                intro st
                have h3 := ih3
                simp only [sparseEntry] at h3 ⊢
                rw [List.foldl_cons, h3]
                split
                · split
                  · split
                    · simp [addAt, hk.1]
                    · simp [setAt, hk.1]
                  · rfl
                · rfl
            exact this e2.2 st
        rw [notin l _ hnd.1, he', if_pos rfl]
      · rw [ih _ hnd.2 (fun e he => hself e (List.mem_cons_of_mem _ he)) ?_ e he, sparse_dense_inv]
        intro e2 h2
        rw [he', if_neg (ne e2 h2)]
        exact h0 e2 (List.mem_cons_of_mem _ h2)
  have := key (filterMap r nodes) (fun _ => 0, m) (by rw [filterMap_keys]; exact hd) (fun e he => entry_self hr he) (fun _ _ => rfl) _ (mem_filterMap' ha)
  simp only [ho, if_true] at this
  show ((filterMap r nodes).foldl (sparseEntry dv writable) (fun _ => 0, m)).1 a.dof = _
  rw [this, spec]
  split
  · rw [entry_sum, weightSum_eq]
  · rfl

/-- Value of the std::vector overload at every dof. -/
theorem filterVector_eq {r : ℝ} {nodes : List Node} (hd : Distinct nodes) (dv : Nat → Bool) (x : Nat → ℝ) {a : Node} (ha : a ∈ nodes) :
    filterVector (filterMap r nodes) dv x a.dof = if dv a.dof then spec r nodes dv x a else (neighbours r nodes a).length * x a.dof := by
  unfold filterVector
  rw [fold_entries _ (fun e v => if dv e.1 then v + (e.2.map fun p => x p.1 * p.2).sum else v + (e.2.map fun _ => x e.1).sum) (filterMap r nodes) ?_
    (by rw [filterMap_keys]; exact hd) _ _ (mem_filterMap' ha)]
  · simp only [zero_add, spec]
    split
    · rw [entry_sum, weightSum_eq]
    · simp [Function.comp_def]
  · intro out e he j
    by_cases h2 : dv e.1 = true
    · simp only [h2, if_true]; rw [inner_add x x]
    · simp only [h2, Bool.false_eq_true, if_false]; rw [inner_add x x _ fun _ => x e.1]

/-- C68: the std::vector overload agrees with the dense one on design variables. -/
theorem C68_vector_partial {r : ℝ} (hr : 0 < r) {nodes : List Node} (hd : Distinct nodes) (dv : Nat → Bool) (x : Nat → ℝ) {a : Node} (ha : a ∈ nodes)
    (hv : dv a.dof = true) : filterVector (filterMap r nodes) dv x a.dof = filterDense (filterMap r nodes) dv (fun _ => true) x a.dof := by
  rw [filterVector_eq hd dv x ha, if_pos hv, C67_average hr hd dv _ x ha rfl]

/-- C68, finding: on every other dof it returns the value multiplied by the number of neighbours of the node, so it differs whenever the value is not zero and
another node lies within the radius. -/
theorem C68_vector_fails {r : ℝ} (hr : 0 < r) {nodes : List Node} (hd : Distinct nodes) (dv : Nat → Bool) (x : Nat → ℝ) {a b : Node} (ha : a ∈ nodes) (hb : b ∈ nodes)
    (hab : a.dof ≠ b.dof) (hdist : dist a.pt b.pt ≤ r) (hv : dv a.dof = false) (hx : x a.dof ≠ 0) :
    filterVector (filterMap r nodes) dv x a.dof ≠ filterDense (filterMap r nodes) dv (fun _ => true) x a.dof := by
  rw [filterVector_eq hd dv x ha, C67_average hr hd dv _ x ha rfl, spec, hv]
  simp only [Bool.false_eq_true, if_false]
  have two : 2 ≤ (neighbours r nodes a).length := by
    have m1 : (a.dof, r - dist a.pt a.pt) ∈ neighbours r nodes a := List.mem_filterMap.2 ⟨a, ha, by simp [hr.le]⟩
    have m2 : (b.dof, r - dist a.pt b.pt) ∈ neighbours r nodes a := List.mem_filterMap.2 ⟨b, hb, by simp [hdist]⟩
    rcases h : neighbours r nodes a with _ | ⟨p, _ | ⟨q, l⟩⟩
    · rw [h] at m1; simp at m1
    · rw [h] at m1 m2; simp only [List.mem_singleton] at m1 m2
      exact absurd (congrArg Prod.fst (m1.trans m2.symm)) hab
    · simp
  intro h
  have : ((neighbours r nodes a).length : ℝ) = 1 := by
    have h' : ((neighbours r nodes a).length : ℝ) * x a.dof = 1 * x a.dof := by rw [h, one_mul]
    exact mul_right_cancel₀ hx h'
  have : (neighbours r nodes a).length = 1 := by exact_mod_cast this
  omega

/-! ### C69 -/

theorem foldl_min (n : Pt) (l : List Pt) (d0 : ℝ) :
    let d := l.foldl (fun d p => let q := ‖p - n‖; if q < d then q else d) d0
    d ≤ d0 ∧ ∀ p ∈ l, d ≤ ‖p - n‖ := by
  induction l generalizing d0 with
  | nil => simp
  | cons p l ih =>
    simp only [List.foldl_cons]
    obtain ⟨h1, h2⟩ := ih (if ‖p - n‖ < d0 then ‖p - n‖ else d0)
    have le1 : (if ‖p - n‖ < d0 then ‖p - n‖ else d0) ≤ d0 := by split <;> linarith
    have le2 : (if ‖p - n‖ < d0 then ‖p - n‖ else d0) ≤ ‖p - n‖ := by split <;> linarith
    refine ⟨h1.trans le1, fun q hq => ?_⟩
    rcases List.mem_cons.1 hq with rfl | hq
    · exact h1.trans le2
    · exact h2 q hq

theorem feSize_nonneg (hmax : List ℝ) : 0 ≤ feSize hmax ∧ ∀ h ∈ hmax, h ≤ feSize hmax := by
  have : ∀ (l : List ℝ) (s : ℝ), s ≤ l.foldl (fun s h => if s < h then h else s) s ∧ ∀ h ∈ l, h ≤ l.foldl (fun s h => if s < h then h else s) s := by
    intro l
    induction l with
    | nil => simp
    | cons a l ih =>
      intro s
      simp only [List.foldl_cons]
      obtain ⟨h1, h2⟩ := ih (if s < a then a else s)
      have l1 : s ≤ if s < a then a else s := by split <;> linarith
      have l2 : a ≤ if s < a then a else s := by split <;> linarith
      refine ⟨l1.trans h1, fun h hh => ?_⟩
      rcases List.mem_cons.1 hh with rfl | hh
      · exact l2.trans h1
      · exact h2 h hh
  exact this hmax 0

/-- C69: if the filtered value at a node of the element has a nonzero weight on the level set node, the query answers true. -/
theorem C69_sound_nodes (hmax : List ℝ) {r : ℝ} (elem : List Pt) (a b : Node) (ha : a.pt ∈ elem) (hw : cone r a b ≠ 0) :
    inInfluence r (feSize hmax) elem b.pt = true := by
  have hd : dist a.pt b.pt ≤ r := by by_contra h; simp [cone, h] at hw
  have := (foldl_min b.pt elem 1000000000000).2 a.pt ha
  unfold inInfluence
  rw [dist_eq_norm] at hd
  have hf := (feSize_nonneg hmax).1
  simp only
  rw [if_neg]
  simp only [not_lt]
  linarith

/-- C69: the same when the nodes of the element are points of level set elements: if the element has a node `p` in a level set element of size `h` one of whose nodes
`a` depends on `b`, the query answers true. -/
theorem C69_sound_partial (hmax : List ℝ) {r h : ℝ} (hh : h ∈ hmax) (elem : List Pt) (a b : Node) (p : Pt) (hp : p ∈ elem) (hpa : dist p a.pt ≤ h) (hw : cone r a b ≠ 0) :
    inInfluence r (feSize hmax) elem b.pt = true := by
  have hd : dist a.pt b.pt ≤ r := by by_contra h; simp [cone, h] at hw
  have := (foldl_min b.pt elem 1000000000000).2 p hp
  have tri := dist_triangle p a.pt b.pt
  rw [dist_eq_norm p b.pt] at tri
  unfold inInfluence
  have hf := (feSize_nonneg hmax).2 h hh
  simp only
  rw [if_neg]
  simp only [not_lt]
  linarith

/-- The point `(x, 0, 0)`. -/
noncomputable def px (x : ℝ) : Pt := EuclideanSpace.single 0 x

/-- C69, finding: only the nodes of the element are tested.  When the analysis element is larger than the filter radius plus the level set element size, the level set
node can lie inside the element and the query still answers false. -/
theorem C69_coarse_elem_fails : inInfluence 1 (feSize [1]) [px 0, px 10] (px 5) = false := by
  have e1 : ‖px 0 - px 5‖ = 5 := by rw [← dist_eq_norm, px, px, EuclideanSpace.dist_single_same]; norm_num [Real.dist_eq, abs_of_nonpos]
  have e2 : ‖px 10 - px 5‖ = 5 := by rw [← dist_eq_norm, px, px, EuclideanSpace.dist_single_same]; norm_num [Real.dist_eq]
  simp only [inInfluence, List.foldl_cons, List.foldl_nil, e1, e2, feSize]
  norm_num

/-! ### Non-vacuity -/

/-- Two nodes at distance 1. -/
noncomputable def exNodes : List Node := [⟨0, px 0⟩, ⟨1, px 1⟩]

theorem exDist : dist (px 0) (px 1) = 1 := by rw [px, px, EuclideanSpace.dist_single_same]; norm_num [Real.dist_eq]

example : Distinct exNodes := by simp [Distinct, exNodes]
example : spec 2 exNodes (fun _ => true) (fun i => i) ⟨0, px 0⟩ = 1 / 3 := by
  simp [spec, exNodes, cone, exDist]; norm_num
example : filterVector (filterMap 2 exNodes) (fun _ => false) (fun _ => 1) 0 ≠ filterDense (filterMap 2 exNodes) (fun _ => false) (fun _ => true) (fun _ => 1) 0 :=
  C68_vector_fails (a := ⟨0, px 0⟩) (b := ⟨1, px 1⟩) (by norm_num) (by simp [Distinct, exNodes]) _ _ (by simp [exNodes]) (by simp [exNodes]) (by simp)
    (by rw [exDist]; norm_num) rfl (by norm_num)
example : cone 2 ⟨0, px 0⟩ ⟨1, px 1⟩ ≠ 0 := by simp [cone, exDist]; norm_num

end Verif.Filter
