import Mathlib.Tactic.Linarith
import Mathlib.Tactic.NormNum
import Verif.Props.KinematicCoupling
import Verif.Model.MeshCoupling
/-
  C158, C159: tying the nodes of a boundary to the nodes of another boundary or subdomain.
-/
namespace Verif.MeshCoupling
open Verif.Coupling (Pt)

/-! ### Specification -/

/-- `n` is a node of a side of an element of this rank that carries the boundary id `b`. -/
def OnSlave (M : Mesh) (b : Nat) (n : Nat) : Prop := ∃ e ∈ M.owned, ∃ sd ∈ e.sides, (b : Int) ∈ sd.2 ∧ n ∈ sd.1

/-- Boundary ids are 16 bit integers. -/
def Ids16 (l : List Elem) : Prop := ∀ e ∈ l, ∀ sd ∈ e.sides, ∀ i ∈ sd.2, -32768 ≤ i ∧ i < 32768

/-- `m` is a node of a side with boundary id `b` of an active element that libMesh finds close to `n`. -/
def NearBoundary (M : Mesh) (b : Nat) (tol : ℝ) (n m : Nat) : Prop := ∃ e ∈ M.active, M.close e n tol = true ∧ ∃ sd ∈ e.sides, (b : Int) ∈ sd.2 ∧ m ∈ sd.1

/-- `m` is a node of an active element of the subdomain `s` and at most `tol` away from `n`. -/
def InSubdomain (M : Mesh) (s : Nat) (tol : ℝ) (n m : Nat) : Prop :=
  ∃ e ∈ M.active, e.subdomain = s ∧ m ∈ e.nodes ∧ Coupling.norm (fun c => M.pos m c - M.pos n c) ≤ tol

/-- Requirement on libMesh: an element with a node within `tol` of a point is close to it. -/
def Locates (M : Mesh) (tol : ℝ) : Prop := ∀ e ∈ M.active, ∀ n, ∀ m ∈ e.nodes, Coupling.norm (fun c => M.pos m c - M.pos n c) ≤ tol → M.close e n tol = true

/-! ### Sets -/

theorem mem_ins (s : List Nat) (n x : Nat) : x ∈ ins s n ↔ x ∈ s ∨ x = n := by
  unfold ins
  split_ifs with h
  · constructor
    · exact Or.inl
    · rintro (h' | rfl) <;> assumption
  · simp

theorem nodup_ins (s : List Nat) (n : Nat) (h : s.Nodup) : (ins s n).Nodup := by
  unfold ins
  split_ifs with h'
  · exact h
  · exact List.nodup_append.2 ⟨h, by simp, by intro a ha b hb; simp at hb; subst hb; intro e; subst e; exact h' ha⟩

/-- A fold that collects nodes: members and absence of repetitions. -/
theorem collect {α : Type} (f : List Nat → α → List Nat) (P : α → Nat → Prop) (hf : ∀ s a x, x ∈ f s a ↔ x ∈ s ∨ P a x) (hd : ∀ s a, s.Nodup → (f s a).Nodup) (l : List α) :
    ∀ s, (∀ x, x ∈ l.foldl f s ↔ x ∈ s ∨ ∃ a ∈ l, P a x) ∧ (s.Nodup → (l.foldl f s).Nodup) := by
  induction l with
  | nil => intro s; simp
  | cons a l ih =>
    intro s
    refine ⟨fun x => ?_, fun h => (ih _).2 (hd _ _ h)⟩
    rw [List.foldl_cons, (ih _).1 x, hf]
    simp only [List.mem_cons, exists_eq_or_imp]
    tauto

theorem onBoundary_iff (ids : List Int) (b : Nat) (hb : b < 32768) (h : ∀ i ∈ ids, -32768 ≤ i ∧ i < 32768) : onBoundary ids b = true ↔ (b : Int) ∈ ids := by
  have key : ∀ (l : List Int) (on : Bool), (∀ i ∈ l, -32768 ≤ i ∧ i < 32768) →
      (l.foldl (fun on i => if i % 4294967296 = (b : Int) then true else on) on = true ↔ on = true ∨ (b : Int) ∈ l) := by
    intro l
    induction l with
    | nil => intro on _; simp
    | cons i l ih =>
      intro on hl
      rw [List.foldl_cons, ih _ (fun j hj => hl j (List.mem_cons_of_mem _ hj))]
      have hi := hl i List.mem_cons_self
      have : (i % 4294967296 = (b : Int)) ↔ (b : Int) = i := by
        have : (b : Int) < 32768 := by exact_mod_cast hb
        omega
      by_cases hc : i % 4294967296 = (b : Int)
      · simp [hc, this.1 hc]
      · have : (b : Int) ≠ i := fun e => hc (this.2 e)
        simp [hc, this]
  rw [onBoundary, key ids false h]
  simp

/-- C158: the masters of a slave tied to a boundary are exactly the nodes of the sides with the master id of the elements libMesh finds close to the slave, each once. -/
theorem C158_boundary_masters (M : Mesh) (master : Nat) (tol : ℝ) (n : Nat) (hm : master < 32768) (h16 : Ids16 M.active) :
    (mastersBoundary M master tol n).Nodup ∧ ∀ m, m ∈ mastersBoundary M master tol n ↔ NearBoundary M master tol n m := by
  have h1 : ∀ (l : List Nat) s, (∀ x, x ∈ l.foldl ins s ↔ x ∈ s ∨ ∃ a ∈ l, x = a) ∧ (s.Nodup → (l.foldl ins s).Nodup) :=
    collect ins (fun a x => x = a) mem_ins nodup_ins
  have h2 := collect (fun (s : List Nat) (sd : List Nat × List Int) => if onBoundary sd.2 master then sd.1.foldl ins s else s) (fun sd x => onBoundary sd.2 master = true ∧ x ∈ sd.1)
    (by
      intro s sd x
      beta_reduce
      split_ifs with h
      · rw [(h1 _ _).1]; simp [h]
      · simp [h])
    (by
      intro s sd hs
      beta_reduce
      split_ifs with h
      · exact (h1 _ _).2 hs
      · exact hs)
  have h3 := collect (fun s (e : Elem) => e.sides.foldl (fun s sd => if onBoundary sd.2 master then sd.1.foldl ins s else s) s)
    (fun e x => ∃ sd ∈ e.sides, onBoundary sd.2 master = true ∧ x ∈ sd.1) (fun s e x => (h2 e.sides s).1 x) (fun s e hs => (h2 e.sides s).2 hs) (near M n tol) []
  refine ⟨h3.2 List.nodup_nil, fun m => ?_⟩
  refine ((h3.1 m).trans ?_)
  simp only [List.not_mem_nil, false_or, near, List.mem_filter, NearBoundary]
  constructor
  · rintro ⟨e, ⟨he, hc⟩, sd, hsd, hb, hx⟩
    exact ⟨e, he, hc, sd, hsd, (onBoundary_iff _ _ hm (h16 e he sd hsd)).1 hb, hx⟩
  · rintro ⟨e, he, hc, sd, hsd, hb, hx⟩
    exact ⟨e, ⟨he, hc⟩, sd, hsd, (onBoundary_iff _ _ hm (h16 e he sd hsd)).2 hb, hx⟩

/-- C158: the masters of a slave tied to a subdomain are exactly the nodes of the subdomain within the tolerance of the slave, each once. -/
theorem C158_subdomain_masters (M : Mesh) (master : Nat) (tol : ℝ) (n : Nat) (hl : Locates M tol) :
    (mastersSubdomain M master tol n).Nodup ∧ ∀ m, m ∈ mastersSubdomain M master tol n ↔ InSubdomain M master tol n m := by
  classical
  have h1 := collect (fun (s : List Nat) (m : Nat) => if Coupling.norm (fun c => M.pos m c - M.pos n c) ≤ tol then ins s m else s)
    (fun m x => Coupling.norm (fun c => M.pos m c - M.pos n c) ≤ tol ∧ x = m)
    (by intro s m x; beta_reduce; split_ifs with h <;> simp [h, mem_ins])
    (by intro s m hs; beta_reduce; split_ifs with h; exacts [nodup_ins _ _ hs, hs])
  have h2 := collect (fun s (e : Elem) => if e.subdomain = master then e.nodes.foldl (fun s m => if Coupling.norm (fun c => M.pos m c - M.pos n c) ≤ tol then ins s m else s) s else s)
    (fun e x => e.subdomain = master ∧ ∃ m ∈ e.nodes, Coupling.norm (fun c => M.pos m c - M.pos n c) ≤ tol ∧ x = m)
    (by
      intro s e x
      beta_reduce
      split_ifs with h
      · rw [(h1 _ _).1]; simp [h]
      · simp [h])
    (by
      intro s e hs
      beta_reduce
      split_ifs with h
      · exact (h1 _ _).2 hs
      · exact hs) (near M n tol) []
  have hd : mastersSubdomain M master tol n = (near M n tol).foldl (fun s e => if e.subdomain = master then e.nodes.foldl (fun s m => if Coupling.norm (fun c => M.pos m c - M.pos n c) ≤ tol then ins s m else s) s else s) [] := by
    unfold mastersSubdomain
    congr! with _
  rw [hd]
  refine ⟨h2.2 List.nodup_nil, fun m => ?_⟩
  refine ((h2.1 m).trans ?_)
  simp only [List.not_mem_nil, false_or, near, List.mem_filter, InSubdomain]
  constructor
  · rintro ⟨e, ⟨he, hc⟩, hs, k, hk, ht, rfl⟩
    exact ⟨e, he, hs, hk, ht⟩
  · rintro ⟨e, he, hs, hk, ht⟩
    exact ⟨e, ⟨he, hl e he n m hk ht⟩, hs, m, hk, ht, rfl⟩

/-! ### The sweep over the slaves -/

/-- What the sweep keeps true: the new couplings are those of the visited slaves, in order. -/
structure Inv (masters : Nat → List Nat) (old : List (Nat × List Nat)) (st : State) : Prop where
  eq : st.couplings = old ++ st.slaves.map fun n => (n, masters n)
  nodup : st.slaves.Nodup

theorem visit_inv (masters : Nat → List Nat) (old : List (Nat × List Nat)) (st : State) (n : Nat) (h : Inv masters old st) :
    Inv masters old (visit masters st n) ∧ ∀ x, x ∈ (visit masters st n).slaves ↔ x ∈ st.slaves ∨ x = n := by
  unfold visit
  split_ifs with hn
  · exact ⟨h, fun x => ⟨Or.inl, by rintro (h | rfl) <;> assumption⟩⟩
  · refine ⟨⟨?_, nodup_ins _ _ h.nodup⟩, fun x => mem_ins _ _ _⟩
    simp only [h.eq, ins, if_neg hn, List.map_append, List.map_cons, List.map_nil, List.append_assoc]

theorem sweep_fold {α : Type} (masters : Nat → List Nat) (old : List (Nat × List Nat)) (f : State → α → State) (P : α → Nat → Prop)
    (hf : ∀ st a, Inv masters old st → Inv masters old (f st a) ∧ ∀ x, x ∈ (f st a).slaves ↔ x ∈ st.slaves ∨ P a x) (l : List α) :
    ∀ st, Inv masters old st → Inv masters old (l.foldl f st) ∧ ∀ x, x ∈ (l.foldl f st).slaves ↔ x ∈ st.slaves ∨ ∃ a ∈ l, P a x := by
  induction l with
  | nil => intro st h; exact ⟨h, by simp⟩
  | cons a l ih =>
    intro st h
    obtain ⟨h1, h2⟩ := ih _ (hf st a h).1
    refine ⟨h1, fun x => ?_⟩
    rw [List.foldl_cons, h2, (hf st a h).2]
    simp only [List.mem_cons, exists_eq_or_imp]
    tauto

theorem sweep_spec (masters : Nat → List Nat) (owned : List Elem) (b : Nat) (hb : b < 32768) (h16 : Ids16 owned) (old : List (Nat × List Nat)) :
    ∃ slaves : List Nat, sweep masters owned b old = old ++ slaves.map (fun n => (n, masters n)) ∧ slaves.Nodup ∧
      ∀ n, n ∈ slaves ↔ ∃ e ∈ owned, ∃ sd ∈ e.sides, (b : Int) ∈ sd.2 ∧ n ∈ sd.1 := by
  have h1 := sweep_fold masters old (visit masters) (fun a x => x = a) (fun st a h => visit_inv masters old st a h)
  have h2 := sweep_fold masters old (fun st (sd : List Nat × List Int) => if onBoundary sd.2 b then sd.1.foldl (visit masters) st else st)
    (fun sd x => onBoundary sd.2 b = true ∧ x ∈ sd.1)
    (by
      intro st sd h
      beta_reduce
      split_ifs with hc
      · obtain ⟨h3, h4⟩ := h1 sd.1 st h
        refine ⟨h3, fun x => ?_⟩
        rw [h4]; simp [hc]
      · exact ⟨h, fun x => by simp [hc]⟩)
  have h3 := sweep_fold masters old (visitElem masters b) (fun e x => ∃ sd ∈ e.sides, onBoundary sd.2 b = true ∧ x ∈ sd.1) (fun st e h => h2 e.sides st h) owned
    { couplings := old, slaves := [] } ⟨by simp, List.nodup_nil⟩
  refine ⟨_, h3.1.eq, h3.1.nodup, fun n => (h3.2 n).trans ?_⟩
  simp only [List.not_mem_nil, false_or]
  constructor
  · rintro ⟨e, he, sd, hsd, hc, hx⟩
    exact ⟨e, he, sd, hsd, (onBoundary_iff _ _ hb (h16 e he sd hsd)).1 hc, hx⟩
  · rintro ⟨e, he, sd, hsd, hc, hx⟩
    exact ⟨e, he, sd, hsd, (onBoundary_iff _ _ hb (h16 e he sd hsd)).2 hc, hx⟩

/-- C158: tying a slave boundary to a master boundary appends to the couplings every node of the slave boundary exactly once, together with the nodes of the master boundary near it, and nothing else. -/
theorem C158_boundary (M : Mesh) (master slave : Nat) (tol : ℝ) (old : List (Nat × List Nat)) (hm : master < 32768) (hs : slave < 32768) (ha : Ids16 M.active) (ho : Ids16 M.owned) :
    ∃ new, addBoundary M master slave tol old = old ++ new ∧ (new.map (·.1)).Nodup ∧ (∀ n, n ∈ new.map (·.1) ↔ OnSlave M slave n) ∧
      ∀ p ∈ new, p.2.Nodup ∧ ∀ m, m ∈ p.2 ↔ NearBoundary M master tol p.1 m := by
  obtain ⟨s, h1, h2, h3⟩ := sweep_spec (mastersBoundary M master tol) M.owned slave hs ho old
  refine ⟨_, h1, ?_, ?_, ?_⟩
  · simpa [List.map_map, Function.comp_def] using h2
  · intro n
    rw [List.map_map]
    exact (show n ∈ s.map (fun n => n) ↔ _ by rw [List.map_id']; exact h3 n)
  · intro p hp
    obtain ⟨n, _, rfl⟩ := List.mem_map.1 hp
    exact C158_boundary_masters M master tol n hm ha

/-- C158: tying a slave boundary to a master subdomain appends every node of the slave boundary exactly once, together with the nodes of the subdomain within the tolerance, and nothing else. -/
theorem C158_subdomain (M : Mesh) (master slave : Nat) (tol : ℝ) (old : List (Nat × List Nat)) (hs : slave < 32768) (ho : Ids16 M.owned) (hl : Locates M tol) :
    ∃ new, addSubdomain M master slave tol old = old ++ new ∧ (new.map (·.1)).Nodup ∧ (∀ n, n ∈ new.map (·.1) ↔ OnSlave M slave n) ∧
      ∀ p ∈ new, p.2.Nodup ∧ ∀ m, m ∈ p.2 ↔ InSubdomain M master tol p.1 m := by
  obtain ⟨s, h1, h2, h3⟩ := sweep_spec (mastersSubdomain M master tol) M.owned slave hs ho old
  refine ⟨_, h1, ?_, ?_, ?_⟩
  · simpa [List.map_map, Function.comp_def] using h2
  · intro n
    rw [List.map_map]
    exact (show n ∈ s.map (fun n => n) ↔ _ by rw [List.map_id']; exact h3 n)
  · intro p hp
    obtain ⟨n, _, rfl⟩ := List.mem_map.1 hp
    exact C158_subdomain_masters M master tol n hl

/-- A bar with the master side (id 1, nodes 0 and 1) and a side with both ids (nodes 1 and 2). -/
def bar : Elem := { subdomain := 0, nodes := [0, 1, 2], sides := [([0, 1], [1]), ([1, 2], [-3, 1, 2])] }

/-- Everything close to everything. -/
def barMesh : Mesh := { owned := [bar], active := [bar], pos := fun n c => if c = 0 then n else 0, close := fun _ _ _ => true }

example : Ids16 barMesh.owned ∧ Ids16 barMesh.active ∧ Locates barMesh 1 := by
  refine ⟨?_, ?_, fun _ _ _ _ _ _ => rfl⟩ <;> intro e he sd hsd i hi <;> simp only [barMesh, List.mem_singleton] at he <;> subst he <;>
    simp only [bar, List.mem_cons, List.not_mem_nil, or_false] at hsd <;> rcases hsd with rfl | rfl <;> simp at hi <;> omega

/-- C158 limit: a node on both boundaries is listed among its own masters. -/
theorem C158_self_fails : ∃ (M : Mesh) (n : Nat), Ids16 M.owned ∧ OnSlave M 2 n ∧ ∃ p ∈ addBoundary M 1 2 1 [], p.1 = n ∧ n ∈ p.2 := by
  refine ⟨barMesh, 1, ?_, ⟨bar, by simp [barMesh], ([1, 2], [-3, 1, 2]), by simp [bar], by simp, by simp⟩, (1, [0, 1, 2]), ?_, rfl, by simp⟩
  · intro e he sd hsd i hi
    simp only [barMesh, List.mem_singleton] at he
    subst he
    simp only [bar, List.mem_cons, List.not_mem_nil, or_false] at hsd
    rcases hsd with rfl | rfl <;> simp at hi <;> omega
  · simp [addBoundary, sweep, barMesh, bar, visitElem, onBoundary, visit, mastersBoundary, near, ins]

/-- C158 limit: nodes shared by two slave boundaries are coupled twice, once by each call. -/
theorem C158_repeat_fails : ∃ (M : Mesh) (a b : List Nat), a ≠ b ∧ addBoundary M 1 3 1 (addBoundary M 0 2 1 []) = [(1, a), (1, b)] := by
  refine ⟨{ owned := [{ subdomain := 0, nodes := [1], sides := [([1], [2]), ([1], [3])] }], active := [{ subdomain := 1, nodes := [5, 6], sides := [([5], [0]), ([6], [1])] }], pos := fun _ _ => 0, close := fun _ _ _ => true }, [5], [6], by simp, ?_⟩
  simp [addBoundary, sweep, visitElem, onBoundary, visit, mastersBoundary, near, ins]

/-! ### C159 -/

theorem addAll_append (l : List (Nat × List Nat)) (rot : Bool) : ∀ (m : Coupled), ((m.map (·.1)) ++ l.map (·.1)).Nodup →
    addAll m l rot = m ++ l.map fun p => (p.1, { masters := p.2, rotations := rot }) := by
  induction l with
  | nil => intro m _; simp [addAll]
  | cons p l ih =>
    intro m h
    have hn : m.any (fun q => q.1 == p.1) = false := by
      rw [Bool.eq_false_iff]
      intro hc
      obtain ⟨q, hq, he⟩ := List.any_eq_true.1 hc
      have he : q.1 = p.1 := by simpa using he
      rw [List.nodup_append] at h
      exact h.2.2 q.1 (List.mem_map_of_mem hq) p.1 (by simp) he
    have h2 : add m p.1 ⟨p.2, rot⟩ = m ++ [(p.1, ⟨p.2, rot⟩)] := by
      unfold add
      rw [hn]
      simp
    show addAll (add m p.1 ⟨p.2, rot⟩) l rot = _
    rw [h2, ih]
    · simp
    · simpa [List.append_assoc] using h

theorem constraintRows_eq (pos : Nat → Pt) (m : Coupled) : constraintRows pos m = (m.map (rowsOf pos)).flatten := by
  have key : ∀ (m : Coupled) l, m.foldl (fun l p => l ++ rowsOf pos p) l = l ++ (m.map (rowsOf pos)).flatten := by
    intro m
    induction m with
    | nil => intro l; simp
    | cons p m ih => intro l; rw [List.foldl_cons, ih]; simp
  rw [constraintRows, key]; simp

theorem addRows_ok (rs : List Row) : ∀ (d : DofMap), (rs.map (·.dof)).Nodup → (∀ r ∈ rs, d r.dof = none) →
    ∃ d', rs.foldlM (m := Exec) addRow d = .ok d' ∧ (∀ r ∈ rs, d' r.dof = some r.value) ∧ ∀ x, x ∉ rs.map (·.dof) → d' x = d x := by
  induction rs with
  | nil => intro d _ _; exact ⟨d, rfl, by simp, fun _ _ => rfl⟩
  | cons r rs ih =>
    intro d hn hd
    have hr : d r.dof = none := hd r List.mem_cons_self
    have h1 : addRow d r = .ok (fun x => if x = r.dof then some r.value else d x) := by simp [addRow, hr]
    rw [List.map_cons, List.nodup_cons] at hn
    obtain ⟨d', h2, h3, h4⟩ := ih (fun x => if x = r.dof then some r.value else d x) hn.2 (by
      intro q hq
      have : q.dof ≠ r.dof := fun e => hn.1 (e ▸ List.mem_map_of_mem hq)
      simp [this, hd q (List.mem_cons_of_mem _ hq)])
    refine ⟨d', ?_, ?_, ?_⟩
    · rw [List.foldlM_cons, h1]; exact h2
    · intro q hq
      rcases List.mem_cons.1 hq with rfl | hq
      · rw [h4 _ hn.1]; simp
      · exact h3 q hq
    · intro x hx
      rw [List.map_cons, List.mem_cons, not_or] at hx
      rw [h4 x hx.2]; simp [hx.1]

theorem addRows_error (rs : List Row) : ∀ (d : DofMap), (∃ r ∈ rs, d r.dof ≠ none) → rs.foldlM (m := Exec) addRow d = .error .error := by
  induction rs with
  | nil => intro d h; obtain ⟨r, hr, _⟩ := h; simp at hr
  | cons r rs ih =>
    intro d h
    cases hr : d r.dof with
    | some v =>
      have : addRow d r = .error .error := by simp [addRow, hr]
      rw [List.foldlM_cons, this]; rfl
    | none =>
      have h1 : addRow d r = .ok (fun x => if x = r.dof then some r.value else d x) := by simp [addRow, hr]
      rw [List.foldlM_cons, h1]
      refine ih _ ?_
      obtain ⟨q, hq, hne⟩ := h
      rcases List.mem_cons.1 hq with rfl | hq
      · exact absurd hr hne
      · refine ⟨q, hq, ?_⟩
        by_cases e : q.dof = r.dof
        · simp [e]
        · simpa [e] using hne

/-- C159 specification: the constraint of component `i` of a slave tied to the masters `l`. -/
noncomputable def tied (pos : Nat → Pt) (n : Nat) (l : List Nat) (i : Nat) (u : Nat → Nat → ℝ) : ℝ :=
  ∑ k : Fin l.length, ∑ c ∈ Finset.range 6, Coupling.coeff (pos n) (fun k : Fin l.length => pos (l.get k)) i k c * u (l.get k) c

theorem dofs_eq (pos : Nat → Pt) (couplings : List (Nat × List Nat)) (rot : Bool) :
    (constraintRows pos (couplings.map fun p => (p.1, { masters := p.2, rotations := rot }))).map (·.dof) =
      (couplings.map fun p => (List.range (if rot then 6 else 3)).map fun i => (p.1, i)).flatten := by
  rw [constraintRows_eq, List.map_flatten, List.map_map, List.map_map]
  congr 1
  refine List.map_congr_left fun p _ => ?_
  simp [rowsOf, nRows, Function.comp_def]

/-- C159: when every slave occurs once, adding the couplings to the degree of freedom map constrains the translations (and the rotations if requested) of every slave to the weighted motion of its masters, changes no other constraint,
and is refused exactly when one of these degrees of freedom is already constrained. -/
theorem C159_rows (pos : Nat → Pt) (couplings : List (Nat × List Nat)) (rot : Bool) (d : DofMap) (h : (couplings.map (·.1)).Nodup) :
    ((∀ p ∈ couplings, ∀ i < (if rot then 6 else 3), d (p.1, i) = none) →
      ∃ d', addToDofMap pos (addAll [] couplings rot) d = .ok d' ∧ (∀ p ∈ couplings, ∀ i < (if rot then 6 else 3), d' (p.1, i) = some (tied pos p.1 p.2 i)) ∧
        ∀ n i, (n ∉ couplings.map (·.1) ∨ (if rot then 6 else 3) ≤ i) → d' (n, i) = d (n, i)) ∧
    ((∃ p ∈ couplings, ∃ i < (if rot then 6 else 3), d (p.1, i) ≠ none) → addToDofMap pos (addAll [] couplings rot) d = .error .error) := by
  have ha : addAll [] couplings rot = couplings.map fun p => (p.1, { masters := p.2, rotations := rot }) := by
    rw [addAll_append couplings rot [] (by simpa using h)]; rfl
  have hmem : ∀ r, r ∈ constraintRows pos (addAll [] couplings rot) ↔ ∃ p ∈ couplings, ∃ i < (if rot then 6 else 3), r = { dof := (p.1, i), value := tied pos p.1 p.2 i } := by
    intro r
    rw [ha, constraintRows_eq, List.map_map]
    simp only [List.mem_flatten, List.mem_map, Function.comp]
    constructor
    · rintro ⟨_, ⟨p, hp, rfl⟩, hr⟩
      simp only [rowsOf, nRows, List.mem_map, List.mem_range] at hr
      obtain ⟨i, hi, rfl⟩ := hr
      exact ⟨p, hp, i, hi, rfl⟩
    · rintro ⟨p, hp, i, hi, rfl⟩
      refine ⟨_, ⟨p, hp, rfl⟩, ?_⟩
      simp only [rowsOf, nRows, List.mem_map, List.mem_range]
      exact ⟨i, hi, rfl⟩
  have hdof := dofs_eq pos couplings rot
  rw [← ha] at hdof
  constructor
  · intro hd
    have hn : ((constraintRows pos (addAll [] couplings rot)).map (·.dof)).Nodup := by
      rw [hdof, List.nodup_flatten]
      constructor
      · intro l hl
        obtain ⟨p, _, rfl⟩ := List.mem_map.1 hl
        exact List.nodup_range.map (fun a b e => by simpa using e)
      · rw [List.pairwise_map]
        have := List.pairwise_map.1 (show (couplings.map (·.1)).Pairwise (· ≠ ·) from h)
        refine this.imp fun hne => ?_
        intro x hx hy
        obtain ⟨i, _, rfl⟩ := List.mem_map.1 hx
        obtain ⟨j, _, e⟩ := List.mem_map.1 hy
        exact hne (congrArg Prod.fst e).symm
    obtain ⟨d', h1, h2, h3⟩ := addRows_ok (constraintRows pos (addAll [] couplings rot)) d hn (by
      intro r hr
      obtain ⟨p, hp, i, hi, rfl⟩ := (hmem r).1 hr
      exact hd p hp i hi)
    refine ⟨d', h1, fun p hp i hi => h2 _ ((hmem _).2 ⟨p, hp, i, hi, rfl⟩), fun n i hni => h3 _ ?_⟩
    rw [hdof]
    intro hc
    obtain ⟨_, hl, hx⟩ := List.mem_flatten.1 hc
    obtain ⟨p, hp, rfl⟩ := List.mem_map.1 hl
    obtain ⟨j, hj, e⟩ := List.mem_map.1 hx
    have e1 : p.1 = n := congrArg Prod.fst e
    have e2 : j = i := congrArg Prod.snd e
    rcases hni with hni | hni
    · exact hni (e1 ▸ List.mem_map_of_mem hp)
    · have := List.mem_range.1 hj
      omega
  · rintro ⟨p, hp, i, hi, hne⟩
    exact addRows_error _ d ⟨_, (hmem _).2 ⟨p, hp, i, hi, rfl⟩, hne⟩

/-- C159: a slave with at least one master follows every common translation of its masters. -/
theorem C159_translation_partial (pos : Nat → Pt) (n : Nat) (l : List Nat) (hl : l ≠ []) (t : Pt) (u : Nat → Nat → ℝ) (hu : ∀ m ∈ l, ∀ i < 3, u m i = t ⟨i % 3, Nat.mod_lt _ (by norm_num)⟩)
    (hr : ∀ m ∈ l, ∀ i, 3 ≤ i → u m i = 0) (i : Nat) (hi : i < 6) : tied pos n l i u = if h : i < 3 then t ⟨i, h⟩ else 0 := by
  have hm : 0 < l.length := List.length_pos_iff.2 hl
  have key := Coupling.C49_translation hm (pos n) (fun k : Fin l.length => pos (l.get k)) t i hi
  have hnod : ∀ m ∈ l, ∀ c < 6, u m c = Coupling.nodal t (fun _ => 0) c := by
    intro m hm c hc
    rcases c with _ | _ | _ | _ | _ | _ | c <;> [skip; skip; skip; skip; skip; skip; omega]
    · rw [hu m hm _ (by norm_num)]; simp [Coupling.nodal]
    · rw [hu m hm _ (by norm_num)]; simp [Coupling.nodal]
    · rw [hu m hm _ (by norm_num)]; simp [Coupling.nodal]
    · rw [hr m hm _ (by norm_num)]; simp [Coupling.nodal]
    · rw [hr m hm _ (by norm_num)]; simp [Coupling.nodal]
    · rw [hr m hm _ (by norm_num)]; simp [Coupling.nodal]
  have h1 : tied pos n l i u = Coupling.slaveValue (fun i k c => Coupling.coeff (pos n) (fun k : Fin l.length => pos (l.get k)) i k c) (fun _ => Coupling.nodal t (fun _ => 0)) i := by
    unfold tied Coupling.slaveValue
    refine Finset.sum_congr rfl fun k _ => Finset.sum_congr rfl fun c hc => ?_
    rw [hnod _ (List.get_mem l k) c (Finset.mem_range.1 hc)]
  rw [h1, key]
  rcases i with _ | _ | _ | _ | _ | _ | i <;> [skip; skip; skip; skip; skip; skip; omega] <;> simp [Coupling.nodal]

example : ∃ (l : List Nat) (t : Pt) (u : Nat → Nat → ℝ), l ≠ [] ∧ t ≠ 0 ∧ (∀ m ∈ l, ∀ i < 3, u m i = t ⟨i % 3, Nat.mod_lt _ (by norm_num)⟩) ∧ ∀ m ∈ l, ∀ i, 3 ≤ i → u m i = 0 := by
  refine ⟨[4, 7], fun _ => 2, fun _ i => if i < 3 then 2 else 0, by simp, fun h => ?_, fun m _ i hi => by simp [hi], fun m _ i hi => by simp [Nat.not_lt.2 hi]⟩
  have := congrFun h 0
  norm_num at this

/-- C159 fails: a slave for which no master is found within the tolerance is not left free but clamped: its row is the empty sum. -/
theorem C159_no_master_fails (M : Mesh) (master slave : Nat) (tol : ℝ) (n : Nat) (hs : slave < 32768) (ho : Ids16 M.owned) (hl : Locates M tol) (hn : OnSlave M slave n) (hno : ∀ m, ¬ InSubdomain M master tol n m) (rot : Bool) :
    ∃ d', addToDofMap M.pos (addAll [] (addSubdomain M master slave tol []) rot) (fun _ => none) = .ok d' ∧ ∀ i < 3, ∃ f, d' (n, i) = some f ∧ ∀ u, f u = 0 := by
  obtain ⟨new, h1, h2, h3, h4⟩ := C158_subdomain M master slave tol [] hs ho hl
  rw [List.nil_append] at h1
  obtain ⟨d', h5, h6, -⟩ := (C159_rows M.pos new rot (fun _ => none) h2).1 (fun _ _ _ _ => rfl)
  refine ⟨d', by rw [h1]; exact h5, fun i hi => ?_⟩
  obtain ⟨p, hp, hpn⟩ := List.mem_map.1 ((h3 n).2 hn)
  have hp2 : p.2 = [] := by
    rw [List.eq_nil_iff_forall_not_mem]
    intro m hm
    exact hno m (hpn ▸ ((h4 p hp).2 m).1 hm)
  refine ⟨tied M.pos p.1 p.2 i, hpn ▸ h6 p hp i (by cases rot <;> simp <;> omega), fun u => ?_⟩
  rw [hp2]
  simp [tied]

example : ∃ (M : Mesh), Ids16 M.owned ∧ Locates M 1 ∧ OnSlave M 2 1 ∧ ∀ m, ¬ InSubdomain M 7 1 1 m := by
  refine ⟨barMesh, ?_, fun _ _ _ _ _ _ => rfl, ⟨bar, by simp [barMesh], ([1, 2], [-3, 1, 2]), by simp [bar], by simp, by simp⟩, ?_⟩
  · intro e he sd hsd i hi
    simp only [barMesh, List.mem_singleton] at he
    subst he
    simp only [bar, List.mem_cons, List.not_mem_nil, or_false] at hsd
    rcases hsd with rfl | rfl <;> simp at hi <;> omega
  · rintro m ⟨e, he, hs, _⟩
    simp only [barMesh, List.mem_singleton] at he
    subst he
    simp [bar] at hs

/-- C159 limit: of two couplings of one slave only the last is kept (in a release build). -/
theorem C159_last_wins_fails (n : Nat) (a b : List Nat) (rot : Bool) : addAll [] [(n, a), (n, b)] rot = [(n, { masters := b, rotations := rot })] := by
  simp [addAll, add]

end Verif.MeshCoupling
