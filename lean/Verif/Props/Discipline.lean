import Verif.Model.Discipline
/-
  C15: load registry, C16: write-once maps, C17: condensed dofs.
-/
namespace Verif.Disc
open Verif

/-! ### Specification -/

/-- What the user expects the loads on side id `k` to be after a history: added loads in order, each
removal deletes one registration, `clear_loads` forgets all. -/
def specSide (k : Nat) : List Nat → List Op → List Nat
  | cur, [] => cur
  | cur, .clearLoads :: os => let _ := cur; specSide k [] os
  | cur, .addSide b l :: os => specSide k (if b = k then cur ++ [l] else cur) os
  | cur, .removeSide b l :: os => specSide k (if b = k then cur.erase l else cur) os
  | cur, _ :: os => specSide k cur os

/-- The same for volume loads of subdomain `k`. -/
def specVol (k : Nat) : List Nat → List Op → List Nat
  | cur, [] => cur
  | cur, .clearLoads :: os => let _ := cur; specVol k [] os
  | cur, .addVol b l :: os => specVol k (if b = k then cur ++ [l] else cur) os
  | cur, .removeVol b l :: os => specVol k (if b = k then cur.erase l else cur) os
  | cur, .clearVol b l :: os => specVol k (if b = k then cur.erase l else cur) os
  | cur, _ :: os => specVol k cur os

/-- Dirichlet conditions offered for boundary `k`, in order of the calls. -/
def dirichletCalls (k : Nat) (os : List Op) : List Nat :=
  os.filterMap (fun | .addDirichlet b l => if b = k then some l else none | _ => none)

/-- Property cards offered for subdomain `k`, in order of the calls. -/
def propertyCalls (k : Nat) (os : List Op) : List Nat :=
  os.filterMap (fun | .setProperty b l => if b = k then some l else none | _ => none)

/-! ### Lemmas -/

theorem equalRange_append (m : MultiMap) (k a b : Nat) :
    equalRange (m ++ [(a, b)]) k = equalRange m k ++ (if a = k then [b] else []) := by
  unfold equalRange
  by_cases h : a = k <;> simp [h]

theorem equalRange_eraseFirst (m : MultiMap) (k a b : Nat) :
    equalRange (eraseFirst m a b) k = if a = k then (equalRange m k).erase b else equalRange m k := by
  induction m with
  | nil => simp [equalRange, eraseFirst]
  | cons e m ih =>
    obtain ⟨x, y⟩ := e
    unfold eraseFirst
    by_cases h1 : x = a ∧ y = b
    · obtain ⟨rfl, rfl⟩ := h1
      by_cases h : x = k <;> simp [equalRange, h]
    · rw [if_neg h1]
      have ih' := ih
      unfold equalRange at ih' ⊢
      by_cases h : x = k
      · subst h
        by_cases hxa : a = x
        · subst hxa
          have hy : ¬ y = b := fun h => h1 ⟨rfl, h⟩
          have : ¬ (y == b) = true := by simpa using hy
          simp [this] at ih' ⊢
          exact ih'
        · simp [hxa] at ih' ⊢
          exact ih'
      · simp [h] at ih' ⊢
        exact ih'

theorem step_side {dbg d o d'} (h : step dbg d o = .ok d') (k : Nat) (os : List Op) :
    specSide k (equalRange d.sideBc k) (o :: os) = specSide k (equalRange d'.sideBc k) os := by
  cases o with
  | addDirichlet b l =>
      simp only [step] at h
      split at h
      · split at h <;> first | contradiction | (cases h; rfl)
      · cases h; rfl
  | clearVol b l =>
      simp only [step] at h
      split at h
      · cases h; rfl
      · split at h <;> first | contradiction | (cases h; rfl)
  | addSide b l =>
      simp only [step] at h
      split at h
      · contradiction
      · cases h; simp only [specSide, equalRange_append]; split <;> simp
  | removeSide b l => cases h; simp only [specSide, equalRange_eraseFirst]
  | clearLoads => cases h; rfl
  | removeVol | constrainVar => cases h; rfl
  | addVol | addPoint | setProperty =>
      simp only [step] at h
      split at h
      · contradiction
      · cases h; rfl

theorem step_vol {dbg d o d'} (h : step dbg d o = .ok d') (k : Nat) (os : List Op) :
    specVol k (equalRange d.volBc k) (o :: os) = specVol k (equalRange d'.volBc k) os := by
  cases o with
  | addDirichlet b l =>
      simp only [step] at h
      split at h
      · split at h <;> first | contradiction | (cases h; rfl)
      · cases h; rfl
  | clearVol b l =>
      simp only [step] at h
      split at h
      · cases h; simp only [specVol, equalRange_eraseFirst]
      · split at h
        · contradiction
        · cases h
          rename_i hc _
          simp only [specVol]
          split
          · rename_i hb
            subst hb
            rw [List.erase_of_not_mem (by simpa using hc)]
          · rfl
  | addVol b l =>
      simp only [step] at h
      split at h
      · contradiction
      · cases h; simp only [specVol, equalRange_append]; split <;> simp
  | removeVol b l => cases h; simp only [specVol, equalRange_eraseFirst]
  | clearLoads => cases h; rfl
  | removeSide | constrainVar => cases h; rfl
  | addSide | addPoint | setProperty =>
      simp only [step] at h
      split at h
      · contradiction
      · cases h; rfl

theorem run_cons {dbg d o os d'} (h : run dbg d (o :: os) = .ok d') :
    ∃ d1, step dbg d o = .ok d1 ∧ run dbg d1 os = .ok d' := by
  simp only [run, bind, Except.bind] at h
  split at h
  · contradiction
  · exact ⟨_, by assumption, h⟩

/-! ### C15 -/

/-- C15, side loads: whatever sequence of registry calls completes (in a debug or a release build), the loads
found for every boundary id are those of the specification. -/
theorem C15_side_loads (dbg : Bool) (os : List Op) (d d' : Discipline) (h : run dbg d os = .ok d') (k : Nat) :
    equalRange d'.sideBc k = specSide k (equalRange d.sideBc k) os := by
  induction os generalizing d with
  | nil => cases h; rfl
  | cons o os ih =>
    obtain ⟨d1, h1, h2⟩ := run_cons h
    rw [ih _ h2, step_side h1]

/-- C15, volume loads. -/
theorem C15_volume_loads (dbg : Bool) (os : List Op) (d d' : Discipline) (h : run dbg d os = .ok d') (k : Nat) :
    equalRange d'.volBc k = specVol k (equalRange d.volBc k) os := by
  induction os generalizing d with
  | nil => cases h; rfl
  | cons o os ih =>
    obtain ⟨d1, h1, h2⟩ := run_cons h
    rw [ih _ h2, step_vol h1]

/-- C15: a release build never stops on a registry call; every history completes. -/
theorem C15_release_total (os : List Op) (d : Discipline) : ∃ d', run false d os = .ok d' := by
  induction os generalizing d with
  | nil => exact ⟨d, rfl⟩
  | cons o os ih =>
    have : ∃ d1, step false d o = .ok d1 := by
      cases o <;> simp only [step] <;> first
        | exact ⟨_, rfl⟩
        | (simp; done)
        | (split <;> simp)
    obtain ⟨d1, h1⟩ := this
    obtain ⟨d', h'⟩ := ih d1
    exact ⟨d', by simp [run, h1, h', bind, Except.bind]⟩

/-- C15: in a debug build no load is ever registered twice for the same id. -/
theorem C15_debug_no_duplicates (os : List Op) (d' : Discipline) (h : run true {} os = .ok d') (k : Nat) :
    (equalRange d'.sideBc k).Nodup ∧ (equalRange d'.volBc k).Nodup := by
  suffices H : ∀ d, (∀ k, (equalRange d.sideBc k).Nodup ∧ (equalRange d.volBc k).Nodup) →
      run true d os = .ok d' → (equalRange d'.sideBc k).Nodup ∧ (equalRange d'.volBc k).Nodup from
    H {} (by simp [equalRange]) h
  clear h
  induction os with
  | nil => intro d hd h; cases h; exact hd k
  | cons o os ih =>
    intro d hd h
    obtain ⟨d1, h1, h2⟩ := run_cons h
    refine ih d1 (fun j => ?_) h2
    obtain ⟨hs, hv⟩ := hd j
    cases o with
    | addSide b l =>
      simp only [step] at h1
      split at h1
      · contradiction
      · rename_i hc
        cases h1
        refine ⟨?_, hv⟩
        simp only [equalRange_append]
        split
        · rename_i hb; subst hb
          rw [List.nodup_append]
          simp only [Bool.true_and, List.contains_iff_mem] at hc
          refine ⟨hs, by simp, ?_⟩
          intro a ha c hcm
          simp at hcm; subst hcm
          rintro rfl
          exact hc ha
        · simpa using hs
    | addVol b l =>
      simp only [step] at h1
      split at h1
      · contradiction
      · rename_i hc
        cases h1
        refine ⟨hs, ?_⟩
        simp only [equalRange_append]
        split
        · rename_i hb; subst hb
          rw [List.nodup_append]
          simp only [Bool.true_and, List.contains_iff_mem] at hc
          refine ⟨hv, by simp, ?_⟩
          intro a ha c hcm
          simp at hcm; subst hcm
          rintro rfl
          exact hc ha
        · simpa using hv
    | clearLoads => cases h1; simp [equalRange]
    | removeSide b l =>
      cases h1; refine ⟨?_, hv⟩
      simp only [equalRange_eraseFirst]; split
      · exact hs.erase _
      · exact hs
    | removeVol b l =>
      cases h1; refine ⟨hs, ?_⟩
      simp only [equalRange_eraseFirst]; split
      · exact hv.erase _
      · exact hv
    | clearVol b l =>
      simp only [step] at h1
      split at h1
      · cases h1; refine ⟨hs, ?_⟩
        simp only [equalRange_eraseFirst]; split
        · exact hv.erase _
        · exact hv
      · simp at h1
    | addDirichlet b l =>
      simp only [step] at h1
      split at h1
      · simp at h1
      · cases h1; exact ⟨hs, hv⟩
    | constrainVar => cases h1; exact ⟨hs, hv⟩
    | addPoint | setProperty =>
      simp only [step] at h1
      split at h1
      · contradiction
      · cases h1; exact ⟨hs, hv⟩

/-- C15: a second registration of the same load for the same id is detected in debug builds and is a
duplicate registration in release builds. -/
theorem C15_duplicate_registration (d : Discipline) (k l : Nat) (h : l ∈ equalRange d.sideBc k) :
    step true d (.addSide k l) = .error .assertFail ∧
    ∃ d', step false d (.addSide k l) = .ok d' ∧ equalRange d'.sideBc k = equalRange d.sideBc k ++ [l] := by
  refine ⟨by simp [step, h], { d with sideBc := d.sideBc ++ [(k, l)] }, by simp [step], ?_⟩
  exact (equalRange_append _ _ _ _).trans (by simp)

/-- C15, absent loads: `remove_*` of a load that is not registered changes nothing observable and reports
nothing; `clear_volume_load` asserts. -/
theorem C15_remove_absent (dbg : Bool) (d : Discipline) (k l : Nat) :
    (l ∉ equalRange d.sideBc k → ∃ d', step dbg d (.removeSide k l) = .ok d' ∧
      ∀ j, equalRange d'.sideBc j = equalRange d.sideBc j) ∧
    (l ∉ equalRange d.volBc k → step true d (.clearVol k l) = .error .assertFail) := by
  constructor
  · intro h
    refine ⟨_, rfl, fun j => ?_⟩
    simp only [equalRange_eraseFirst]
    split
    · rename_i hj; subst hj
      exact List.erase_of_not_mem h
    · rfl
  · intro h
    simp [step, h]

example : ∃ d', run true {} [.addSide 1 7, .addSide 1 8, .addVol 1 7, .addSide 2 7, .removeSide 1 7] = .ok d' ∧
    equalRange d'.sideBc 1 = [8] ∧ equalRange d'.sideBc 2 = [7] ∧ equalRange d'.volBc 1 = [7] := by
  exact ⟨_, rfl, rfl, rfl, rfl⟩

/-! ### C16 -/

theorem step_dirichlet {dbg d o d'} (h : step dbg d o = .ok d') (k : Nat) :
    d'.dirichlet k = (d.dirichlet k).or (dirichletCalls k [o]).head? ∧
    (dbg = true → (d.dirichlet k).isSome → dirichletCalls k [o] = []) := by
  cases o with
  | addDirichlet b l =>
      simp only [step] at h
      by_cases hb : b = k
      · subst hb
        split at h
        · split at h
          · contradiction
          · cases h; simp_all [dirichletCalls]
        · cases h; simp_all [dirichletCalls]
      · split at h
        · split at h
          · contradiction
          · cases h; simp_all [dirichletCalls]
        · cases h
          have : ¬ k = b := fun h => hb h.symm
          simp_all [dirichletCalls]
  | clearVol b l =>
      simp only [step] at h
      split at h
      · cases h; simp [dirichletCalls]
      · split at h <;> first | contradiction | (cases h; simp [dirichletCalls])
  | removeSide | clearLoads | removeVol | constrainVar => cases h; simp [dirichletCalls]
  | addSide | addVol | addPoint | setProperty =>
      simp only [step] at h
      split at h
      · contradiction
      · cases h; simp [dirichletCalls]

theorem step_property {dbg d o d'} (h : step dbg d o = .ok d') (k : Nat) :
    d'.property k = ((propertyCalls k [o]).getLast?).or (d.property k) ∧
    (dbg = true → (d.property k).isSome → propertyCalls k [o] = []) := by
  cases o with
  | setProperty b l =>
      simp only [step] at h
      by_cases hb : b = k
      · subst hb
        split at h
        · contradiction
        · cases h; simp_all [propertyCalls]
      · split at h
        · contradiction
        · cases h
          have : ¬ k = b := fun h => hb h.symm
          simp_all [propertyCalls]
  | clearVol b l =>
      simp only [step] at h
      split at h
      · cases h; simp [propertyCalls]
      · split at h <;> first | contradiction | (cases h; simp [propertyCalls])
  | addDirichlet b l =>
      simp only [step] at h
      split at h
      · split at h <;> first | contradiction | (cases h; simp [propertyCalls])
      · cases h; simp [propertyCalls]
  | removeSide | clearLoads | removeVol | constrainVar => cases h; simp [propertyCalls]
  | addSide | addVol | addPoint =>
      simp only [step] at h
      split at h
      · contradiction
      · cases h; simp [propertyCalls]

theorem dirichletCalls_cons (k : Nat) (o : Op) (os : List Op) :
    dirichletCalls k (o :: os) = dirichletCalls k [o] ++ dirichletCalls k os := by
  unfold dirichletCalls
  rw [← List.filterMap_append]; rfl

theorem propertyCalls_cons (k : Nat) (o : Op) (os : List Op) :
    propertyCalls k (o :: os) = propertyCalls k [o] ++ propertyCalls k os := by
  unfold propertyCalls
  rw [← List.filterMap_append]; rfl

/-- C16, Dirichlet conditions, any build: the condition used for a boundary id is the first one offered for it. -/
theorem C16_dirichlet_first_wins (dbg : Bool) (os : List Op) (d d' : Discipline)
    (h : run dbg d os = .ok d') (k : Nat) :
    d'.dirichlet k = (d.dirichlet k).or (dirichletCalls k os).head? := by
  induction os generalizing d with
  | nil => cases h; simp [dirichletCalls]
  | cons o os ih =>
    obtain ⟨d1, h1, h2⟩ := run_cons h
    rw [ih _ h2, (step_dirichlet h1 k).1, dirichletCalls_cons k o os, List.head?_append, Option.or_assoc]

/-- C16, property cards, any build: the card in effect for a subdomain is the last one offered for it. -/
theorem C16_property_last_wins (dbg : Bool) (os : List Op) (d d' : Discipline)
    (h : run dbg d os = .ok d') (k : Nat) :
    d'.property k = ((propertyCalls k os).getLast?).or (d.property k) := by
  induction os generalizing d with
  | nil => cases h; simp [propertyCalls]
  | cons o os ih =>
    obtain ⟨d1, h1, h2⟩ := run_cons h
    rw [ih _ h2, (step_property h1 k).1, propertyCalls_cons k o os, List.getLast?_append, Option.or_assoc]

theorem run_dirichlet_isSome {os : List Op} {d d' : Discipline} (h : run true d os = .ok d') (k : Nat)
    (hk : (d.dirichlet k).isSome) : dirichletCalls k os = [] := by
  induction os generalizing d with
  | nil => rfl
  | cons o os ih =>
    obtain ⟨d1, h1, h2⟩ := run_cons h
    have s := step_dirichlet h1 k
    rw [dirichletCalls_cons k o os, s.2 rfl hk, ih h2 (by rw [s.1, Option.isSome_or]; simp [hk])]; rfl

theorem run_property_isSome {os : List Op} {d d' : Discipline} (h : run true d os = .ok d') (k : Nat)
    (hk : (d.property k).isSome) : propertyCalls k os = [] := by
  induction os generalizing d with
  | nil => rfl
  | cons o os ih =>
    obtain ⟨d1, h1, h2⟩ := run_cons h
    have s := step_property h1 k
    rw [propertyCalls_cons k o os, s.2 rfl hk, ih h2 (by rw [s.1, Option.isSome_or]; simp [hk])]; rfl

/-- C16: a debug run from a fresh object that completes offered at most one Dirichlet condition per
boundary id and at most one property card per subdomain — a second one stops the run. -/
theorem C16_debug_write_once (os : List Op) (d' : Discipline) (h : run true {} os = .ok d') (k : Nat) :
    (dirichletCalls k os).length ≤ 1 ∧ (propertyCalls k os).length ≤ 1 := by
  suffices H : ∀ d, run true d os = .ok d' →
      (dirichletCalls k os).length ≤ 1 ∧ (propertyCalls k os).length ≤ 1 from H {} h
  clear h
  induction os with
  | nil => intro d _; simp [dirichletCalls, propertyCalls]
  | cons o os ih =>
    intro d h
    obtain ⟨d1, h1, h2⟩ := run_cons h
    have ⟨i1, i2⟩ := ih d1 h2
    have s := step_dirichlet h1 k
    have p := step_property h1 k
    rw [dirichletCalls_cons k o os, propertyCalls_cons k o os]
    constructor
    · rcases hq : dirichletCalls k [o] with _ | ⟨x, xs⟩
      · simpa using i1
      · have hs : (d1.dirichlet k).isSome := by rw [s.1, hq]; simp [Option.isSome_or]
        rw [run_dirichlet_isSome h2 k hs]
        have : (dirichletCalls k [o]).length ≤ 1 := by
          unfold dirichletCalls; exact (List.length_filterMap_le _ _).trans (by simp)
        simpa [hq] using this
    · rcases hq : propertyCalls k [o] with _ | ⟨x, xs⟩
      · simpa using i2
      · have hs : (d1.property k).isSome := by
          rw [p.1, hq, Option.isSome_or]; simp [List.getLast?_cons]
        rw [run_property_isSome h2 k hs]
        have : (propertyCalls k [o]).length ≤ 1 := by
          unfold propertyCalls; exact (List.length_filterMap_le _ _).trans (by simp)
        simpa [hq] using this

/-- C16, look-up: after any completed history from a fresh object, `get_property_card` returns the last card
set for the subdomain; if none was set it asserts (debug) or is undefined behaviour (release). -/
theorem C16_lookup (dbg : Bool) (os : List Op) (d' : Discipline) (h : run dbg {} os = .ok d') (k : Nat) :
    (∀ c, (propertyCalls k os).getLast? = some c → getPropertyCard dbg d' k = .ok c) ∧
    (propertyCalls k os = [] → getPropertyCard dbg d' k = .error (if dbg then .assertFail else .ub)) := by
  have := C16_property_last_wins dbg os {} d' h k
  constructor
  · intro c hc
    rw [hc] at this
    simp [getPropertyCard, this]
  · intro hc
    rw [hc] at this
    simp only [List.getLast?_nil, Option.none_or] at this
    simp [getPropertyCard, this]

example : ∃ d', run true {} [.setProperty 1 7, .addDirichlet 3 4, .setProperty 2 9] = .ok d' ∧
    getPropertyCard true d' 1 = .ok 7 ∧ d'.dirichlet 3 = some 4 ∧
    getPropertyCard true d' 5 = .error .assertFail := ⟨_, rfl, rfl, rfl, rfl⟩

/-! ### C17 -/

theorem mem_foldl_insert (p : Nat → Bool) (l : List Nat) (s : Finset Nat) (x : Nat) :
    x ∈ l.foldl (fun s i => if p i then s else insert i s) s ↔ x ∈ s ∨ (x ∈ l ∧ p x = false) := by
  induction l generalizing s with
  | nil => simp
  | cons a l ih =>
    rw [List.foldl_cons, ih]
    by_cases h : p a
    · simp only [h, if_true, List.mem_cons]
      constructor
      · rintro (h1 | h1)
        · exact Or.inl h1
        · exact Or.inr ⟨Or.inr h1.1, h1.2⟩
      · rintro (h1 | ⟨rfl | h1, h2⟩)
        · exact Or.inl h1
        · simp_all
        · exact Or.inr ⟨h1, h2⟩
    · simp only [h, if_false, Bool.false_eq_true, Finset.mem_insert, List.mem_cons]
      constructor
      · rintro ((rfl | h1) | h1)
        · exact Or.inr ⟨Or.inl rfl, by simpa using h⟩
        · exact Or.inl h1
        · exact Or.inr ⟨Or.inr h1.1, h1.2⟩
      · rintro (h1 | ⟨rfl | h1, h2⟩)
        · exact Or.inl (Or.inr h1)
        · exact Or.inl (Or.inl rfl)
        · exact Or.inr ⟨h1, h2⟩

theorem mem_foldl_erase (a b : Nat) (l : List Nat) (s : Finset Nat) (x : Nat) :
    x ∈ l.foldl (fun s i => if a ≤ i ∧ i < b then s.erase i else s) s ↔
      x ∈ s ∧ ¬ (x ∈ l ∧ a ≤ x ∧ x < b) := by
  induction l generalizing s with
  | nil => simp
  | cons c l ih =>
    rw [List.foldl_cons, ih]
    by_cases h : a ≤ c ∧ c < b
    · simp only [h, and_self, if_true, Finset.mem_erase, List.mem_cons]
      by_cases hx : x = c
      · subst hx; simp [h]
      · simp [hx]
    · simp only [h, if_false, List.mem_cons]
      by_cases hx : x = c
      · subst hx; simp [h]
      · simp [hx]

/-- C17, one process: the retained dof list is strictly increasing (so without repetition) and contains exactly
the local dofs that are neither constrained in the DofMap nor in the Dirichlet set the process computed. -/
theorem C17_condensed_dofs_exact (first last : Nat) (constrained : Nat → Bool) (D : Finset Nat) :
    (condensedDofs first last constrained D).SortedLT ∧
    ∀ i, i ∈ condensedDofs first last constrained D ↔
      (first ≤ i ∧ i < last) ∧ constrained i = false ∧ i ∉ D := by
  constructor
  · exact Finset.sortedLT_sort _
  · intro i
    unfold condensedDofs
    simp only [Finset.mem_sort, mem_foldl_erase, mem_foldl_insert, List.mem_range'_1, Finset.notMem_empty,
      false_or]
    constructor
    · rintro ⟨⟨⟨h1, h2⟩, h3⟩, h4⟩
      have h2' : i < last := by omega
      exact ⟨⟨h1, h2'⟩, h3, fun h => h4 ⟨h, h1, h2'⟩⟩
    · rintro ⟨⟨h1, h2⟩, h3, h4⟩
      exact ⟨⟨⟨h1, by omega⟩, h3⟩, fun h => h4 h.1⟩

/-- Specification: dof `i` is a Dirichlet dof because of element `e`. -/
def ElemDirichlet (d : Discipline) (varsOf : Nat → List Nat) (e : Element) (i : Nat) : Prop :=
  (∃ v ∈ d.varConstraint e.subdomain, i ∈ e.dofIndices v) ∨
  (∃ sd ∈ e.sides, sd.onBoundary = true ∧ ∃ b ∈ sd.bids, ∃ c, d.dirichlet b = some c ∧
    ∃ v ∈ varsOf c, ∃ ii ∈ sd.sideDofs, (e.dofIndices v)[ii]? = some i)

theorem foldlM_mem {α : Type} (P : α → Nat → Prop) (f : Finset Nat → α → Exec (Finset Nat))
    (hf : ∀ s a s', f s a = .ok s' → ∀ i, i ∈ s' ↔ i ∈ s ∨ P a i) (l : List α) :
    ∀ s s', l.foldlM f s = .ok s' → ∀ i, i ∈ s' ↔ i ∈ s ∨ ∃ a ∈ l, P a i := by
  induction l with
  | nil => intro s s' h i; cases h; simp
  | cons a l ih =>
    intro s s' h i
    simp only [List.foldlM_cons, bind, Except.bind] at h
    split at h
    · contradiction
    · rename_i s1 h1
      rw [ih _ _ h i, hf _ _ _ h1 i]
      simp [or_assoc]

theorem mem_subdomainDofs (d : Discipline) (e : Element) (s : Finset Nat) (i : Nat) :
    i ∈ subdomainDofs d e s ↔ i ∈ s ∨ ∃ v ∈ d.varConstraint e.subdomain, i ∈ e.dofIndices v := by
  unfold subdomainDofs
  have h1 : ∀ (l : List Nat) (s : Finset Nat), i ∈ l.foldl (fun s i => insert i s) s ↔ i ∈ s ∨ i ∈ l := by
    intro l
    induction l with
    | nil => simp
    | cons a l ih => intro s; simp [ih]; tauto
  generalize d.varConstraint e.subdomain = vs
  induction vs generalizing s with
  | nil => simp
  | cons v vs ih => rw [List.foldl_cons]; refine (ih _).trans ?_; rw [h1]; simp [or_assoc]

theorem sideVarDofs_mem (e : Element) (sd : Side) (vs : List Nat) :
    ∀ s s', sideVarDofs e sd vs s = .ok s' → ∀ i, i ∈ s' ↔ i ∈ s ∨
      ∃ v ∈ vs, ∃ ii ∈ sd.sideDofs, (e.dofIndices v)[ii]? = some i := by
  induction vs with
  | nil => intro s s' h i; cases h; simp
  | cons v vs ih =>
    intro s s' h i
    simp only [sideVarDofs, bind, Except.bind] at h
    split at h
    · contradiction
    · rename_i s1 h1
      rw [ih _ _ h i, foldlM_mem (fun ii i => (e.dofIndices v)[ii]? = some i) _ ?_ _ _ _ h1 i]
      · simp [or_assoc]
      · intro s a s' h i
        split at h
        · rename_i x hx
          cases h
          rw [hx]
          simp [or_comm, eq_comm]
        · contradiction

theorem sideDofs_mem (vars : Nat → Option (List Nat)) (e : Element) (s s' : Finset Nat)
    (h : sideDofs vars e s = .ok s') (i : Nat) :
    i ∈ s' ↔ i ∈ s ∨ ∃ sd ∈ e.sides, sd.onBoundary = true ∧ ∃ b ∈ sd.bids, ∃ vs, vars b = some vs ∧
      ∃ v ∈ vs, ∃ ii ∈ sd.sideDofs, (e.dofIndices v)[ii]? = some i := by
  unfold sideDofs at h
  refine foldlM_mem (fun sd i => sd.onBoundary = true ∧ ∃ b ∈ sd.bids, ∃ vs, vars b = some vs ∧
      ∃ v ∈ vs, ∃ ii ∈ sd.sideDofs, (e.dofIndices v)[ii]? = some i) _ ?_ _ _ _ h i
  intro s sd s' h i
  split at h
  · rename_i hb
    rw [foldlM_mem (fun b i => ∃ vs, vars b = some vs ∧
      ∃ v ∈ vs, ∃ ii ∈ sd.sideDofs, (e.dofIndices v)[ii]? = some i) _ ?_ _ _ _ h i]
    · simp [hb]
    · intro s b s' h i
      split at h
      · rename_i vs hvs
        rw [sideVarDofs_mem _ _ _ _ _ h i, hvs]
        simp
      · rename_i hvs
        cases h
        simp [hvs]
  · rename_i hb
    cases h
    simp [hb]

/-- C17: the Dirichlet dofs collected by a process are exactly those that one of *its own* elements requires (through
a constrained subdomain variable, or a boundary side carrying an id with a Dirichlet condition), plus the
homogeneous constraint rows it knows. -/
theorem C17_dirichlet_dofs_exact (d : Discipline) (varsOf : Nat → List Nat) (elems : List Element)
    (rows : List (Nat × Nat)) (D : Finset Nat) (h : dirichletDofs d varsOf elems rows = .ok D) (i : Nat) :
    i ∈ D ↔ (∃ e ∈ elems, ElemDirichlet d varsOf e i) ∨ (i, 0) ∈ rows := by
  simp only [dirichletDofs, bind, Except.bind, pure, Except.pure] at h
  split at h
  · contradiction
  · rename_i s hs
    cases h
    have hrows : ∀ (rows : List (Nat × Nat)) (s : Finset Nat),
        i ∈ rows.foldl (fun s r => if r.2 = 0 then insert r.1 s else s) s ↔ i ∈ s ∨ (i, 0) ∈ rows := by
      intro rows
      induction rows with
      | nil => simp
      | cons r rows ih =>
        intro s
        obtain ⟨a, b⟩ := r
        rw [List.foldl_cons, ih]
        by_cases hb : b = 0
        · subst hb; simp; tauto
        · simp [hb, Ne.symm hb]
    rw [hrows, foldlM_mem (fun e i => ElemDirichlet d varsOf e i) _ ?_ _ _ _ hs i]
    · simp
    · intro s e s' h i
      rw [sideDofs_mem _ _ _ _ h i, mem_subdomainDofs]
      unfold ElemDirichlet
      simp [or_assoc]

/-- The situation of one process of a parallel run: its dof range, its active local elements and the DofMap
data it holds. -/
structure Proc where
  first : Nat
  last : Nat
  elems : List Element
  rows : List (Nat × Nat)
  constrained : Nat → Bool

/-- What process `p` retains. -/
def retained (d : Discipline) (varsOf : Nat → List Nat) (p : Proc) : Exec (List Nat) := do
  let D ← dirichletDofs d varsOf p.elems p.rows
  return condensedDofs p.first p.last p.constrained D

/-- Specification: dof `i` is a Dirichlet dof of the *global* problem. -/
def GlobalDirichlet (d : Discipline) (varsOf : Nat → List Nat) (procs : List Proc) (i : Nat) : Prop :=
  ∃ p ∈ procs, (∃ e ∈ p.elems, ElemDirichlet d varsOf e i) ∨ (i, 0) ∈ p.rows

/-- C17 at full strength for one process (serial runs): the retained dofs are exactly the unconstrained dofs that are not
global Dirichlet dofs. -/
theorem C17_serial (d : Discipline) (varsOf : Nat → List Nat) (p : Proc) (l : List Nat)
    (h : retained d varsOf p = .ok l) (i : Nat) :
    i ∈ l ↔ (p.first ≤ i ∧ i < p.last) ∧ p.constrained i = false ∧ ¬ GlobalDirichlet d varsOf [p] i := by
  simp only [retained, bind, Except.bind, pure, Except.pure] at h
  split at h
  · contradiction
  · rename_i D hD
    cases h
    rw [(C17_condensed_dofs_exact _ _ _ _).2 i, C17_dirichlet_dofs_exact _ _ _ _ _ hD i]
    simp [GlobalDirichlet]

/-- C17 (partial, parallel runs): if every global Dirichlet dof is seen as such (or as constrained) by the process
that owns it, then retained sets are pairwise disjoint and together are exactly the owned dofs that are neither
constrained nor global Dirichlet dofs.  Missing: the code does not establish the hypothesis, see
`C17_parallel_fails`. -/
theorem C17_parallel_partial (d : Discipline) (varsOf : Nat → List Nat) (procs : List Proc)
    (ret : Proc → List Nat) (hret : ∀ p ∈ procs, retained d varsOf p = .ok (ret p))
    (hdisj : procs.Pairwise (fun p q => p.last ≤ q.first))
    (hseen : ∀ p ∈ procs, ∀ i, p.first ≤ i → i < p.last → GlobalDirichlet d varsOf procs i →
      p.constrained i = true ∨ (∃ e ∈ p.elems, ElemDirichlet d varsOf e i) ∨ (i, 0) ∈ p.rows) :
    procs.Pairwise (fun p q => ∀ i, i ∈ ret p → i ∉ ret q) ∧
    ∀ i, (∃ p ∈ procs, i ∈ ret p) ↔
      (∃ p ∈ procs, (p.first ≤ i ∧ i < p.last) ∧ p.constrained i = false) ∧
        ¬ GlobalDirichlet d varsOf procs i := by
  have key : ∀ p ∈ procs, ∀ i, i ∈ ret p ↔ (p.first ≤ i ∧ i < p.last) ∧ p.constrained i = false ∧
      ¬ GlobalDirichlet d varsOf procs i := by
    intro p hp i
    rw [C17_serial d varsOf p _ (hret p hp) i]
    constructor
    · rintro ⟨h1, h2, h3⟩
      refine ⟨h1, h2, fun hg => ?_⟩
      rcases hseen p hp i h1.1 h1.2 hg with h | h
      · rw [h] at h2; cases h2
      · exact h3 ⟨p, by simp, h⟩
    · rintro ⟨h1, h2, h3⟩
      refine ⟨h1, h2, fun ⟨q, hq, h⟩ => h3 ?_⟩
      simp only [List.mem_singleton] at hq
      subst hq
      exact ⟨q, hp, h⟩
  constructor
  · refine hdisj.imp_of_mem ?_
    intro p q hp hq hpq i hi hi'
    have h1 := (key p hp i).1 hi
    have h2 := (key q hq i).1 hi'
    omega
  · intro i
    constructor
    · rintro ⟨p, hp, hi⟩
      have := (key p hp i).1 hi
      exact ⟨⟨p, hp, this.1, this.2.1⟩, this.2.2⟩
    · rintro ⟨⟨p, hp, h1, h2⟩, h3⟩
      exact ⟨p, hp, (key p hp i).2 ⟨h1, h2, h3⟩⟩

/-- A two-element bar on two processes: element 0 (subdomain 0, dofs 0,1) on process 0 which owns dofs 0 and 1;
element 1 (subdomain 1, dofs 1,2) on process 1 which owns dof 2. -/
def barProc0 : Proc := ⟨0, 2, [⟨0, fun _ => [0, 1], []⟩], [], fun _ => false⟩
def barProc1 : Proc := ⟨2, 3, [⟨1, fun _ => [1, 2], []⟩], [], fun _ => false⟩

/-- C17 is violated in parallel: each process scans only its *local* elements
(`active_local_elements`, physics_discipline_base.cpp:288-290) and the result is not communicated. With variable 0
constrained on subdomain 1, dof 1 is a Dirichlet dof, but its owner, process 0, retains it. -/
theorem C17_parallel_fails :
    ∃ d, step true {} (.constrainVar 1 0) = .ok d ∧
    (∃ l, retained d (fun _ => []) barProc0 = .ok l ∧ 1 ∈ l) ∧
    GlobalDirichlet d (fun _ => []) [barProc0, barProc1] 1 := by
  refine ⟨_, rfl, ⟨_, rfl, ?_⟩, ?_⟩
  · rw [(C17_condensed_dofs_exact _ _ _ _).2]
    decide
  · refine ⟨barProc1, by simp, Or.inl ⟨_, List.mem_singleton.2 rfl, Or.inl ⟨0, by simp, by simp⟩⟩⟩

/-- C17 is violated if variables have different element types: `fe_type` is that of variable 0 for all of them (physics_discipline_base.cpp:284, 337-341).  On a side of a quadratic element (positions 0, 1, 4) a linear
variable 1 (four degrees of freedom) is read out of range; with a linear variable 0 (positions 0, 1) and a quadratic variable 1, the degree of freedom 24 in the middle of the side is missed. -/
theorem C17_mixed_types_fails :
    ∃ d, step true {} (.addDirichlet 5 9) = .ok d
      ∧ dirichletDofs d (fun _ => [1]) [⟨0, fun v => if v = 0 then [0, 1, 2, 3, 4, 5, 6, 7, 8] else [20, 21, 22, 23], [⟨true, [5], [0, 1, 4]⟩]⟩] [] = .error .ub
      ∧ dirichletDofs d (fun _ => [1]) [⟨0, fun v => if v = 0 then [0, 1, 2, 3] else [20, 21, 22, 23, 24, 25, 26, 27, 28], [⟨true, [5], [0, 1]⟩]⟩] [] = .ok {21, 20} :=
  ⟨_, rfl, rfl, rfl⟩

/-- Non-vacuity of `C17_dirichlet_dofs_exact`: one element with a constrained boundary side. -/
example : ∃ d, run true {} [.addDirichlet 5 9] = .ok d ∧
    ∃ D, dirichletDofs d (fun _ => [0]) [⟨0, fun _ => [10, 11, 12], [⟨true, [5], [0, 2]⟩, ⟨false, [5], [1]⟩]⟩] [(7, 0), (8, 1)] = .ok D ∧
    D = {10, 12, 7} := by
  refine ⟨_, rfl, _, rfl, ?_⟩
  decide

example : ∀ i, i ∈ condensedDofs 2 6 (fun i => i == 3) {0, 5, 9} ↔ i = 2 ∨ i = 4 := by
  intro i
  rw [(C17_condensed_dofs_exact _ _ _ _).2]
  simp
  omega

end Verif.Disc
