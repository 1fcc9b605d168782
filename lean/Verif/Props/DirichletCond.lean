import Verif.Model.DirichletCond
import Mathlib.Data.List.Basic
import Mathlib.Data.List.Nodup
import Mathlib.Data.List.Induction
import Mathlib.Data.List.TakeWhile
import Mathlib.Tactic.NormNum
/-
  C180: Dirichlet conditions reach the system with their values, and leave it again.
-/
namespace Verif.DirBc
open Verif
variable {P : Type}

/-! ### Specification -/

/-- The condition speaks about this degree of freedom. -/
def Applies (c : Cond P) (e : Entry P) : Prop := e.var ∈ c.vars ∧ c.bid ∈ e.bids
instance (c : Cond P) (e : Entry P) : Decidable (Applies c e) := by unfold Applies; infer_instance

/-- The value the user prescribes: zero without a function; otherwise the entry of the field function that belongs to the variable: its number in the system, or its place in the list of the condition. -/
def prescribed (c : Cond P) (e : Entry P) : ℝ :=
  match c.f with
  | none => 0
  | some w => ((w.f e.pos)[match w.index with | .system => e.var | .local => c.vars.idxOf e.var]?).getD 0

/-- The field function has the size the documentation asks for (`nv` variables in the system). -/
def Sized (nv : Nat) (c : Cond P) : Prop :=
  ∀ w, c.f = some w → match w.index with
    | .system => w.nsys = nv ∧ (∀ p, (w.f p).length = nv) ∧ ∀ v ∈ c.vars, v < nv
    | .local => ∀ p, (w.f p).length = c.vars.length

/-- Registered conditions, sorted by boundary id as in a `std::map`. -/
def Sorted (r : Reg P) : Prop := r.Pairwise fun a b => a.1 < b.1

/-- A history of registrations. -/
def addAll (dbg : Bool) : Reg P → List (Nat × Option (Cond P)) → Exec (Reg P) := fun r l => l.foldlM (fun r x => add dbg r x.1 x.2) r

/-- `k` queries in a row. -/
def queries (r : Reg P) (sub : Nat → List Nat) (dofs : List (Entry P)) : Nat → Sys P → Exec (Sys P)
  | 0, s => .ok s
  | k + 1, s => do
    let x ← getDofs r sub dofs s
    queries r sub dofs k x.2

/-! ### Constraint rows -/

/-- Component as a total function. -/
def val (c : Cond P) (v i : Nat) (p : P) : ℝ :=
  match c.f with
  | none => 0
  | some w => ((w.f p)[match w.index with | .system => v | .local => i]?).getD 0

theorem zip_bound (l : List Nat) (vi : Nat × Nat) (h : vi ∈ l.zipIdx) : vi.1 ∈ l ∧ vi.2 < l.length := by
  have := List.mem_zipIdx h
  obtain ⟨_, h2, h3⟩ := this
  refine ⟨?_, by omega⟩
  rw [h3]; exact List.getElem_mem _

theorem component_ok (dbg : Bool) (nv : Nat) (c : Cond P) (hc : Sized nv c) (vi : Nat × Nat) (h : vi ∈ c.vars.zipIdx) (p : P) : component dbg c vi.1 vi.2 p = .ok (val c vi.1 vi.2 p) := by
  obtain ⟨h1, h2⟩ := zip_bound _ _ h
  unfold component val
  cases hf : c.f with
  | none => rfl
  | some w =>
    have := hc w hf
    dsimp only
    unfold wrapped expected
    cases hi : w.index with
    | system =>
      rw [hi] at this
      obtain ⟨a, b, d⟩ := this
      have hv := d _ h1
      simp only [a, b p, bne_self_eq_false, Bool.and_false, Bool.false_eq_true, if_false, lt_irrefl]
      have hl : vi.1 < (w.f p).length := by rw [b p]; exact hv
      have ht : (w.f p).take nv = w.f p := by rw [← b p]; exact List.take_length
      rw [ht]
      show (match (w.f p)[vi.1]? with | some x => Except.ok x | none => _) = _
      rw [List.getElem?_eq_getElem hl]; rfl
    | «local» =>
      rw [hi] at this
      have b := this p
      simp only [b, bne_self_eq_false, Bool.and_false, Bool.false_eq_true, if_false, lt_irrefl]
      have hl : vi.2 < (w.f p).length := by rw [b]; exact h2
      have ht : (w.f p).take c.vars.length = w.f p := by rw [← b]; exact List.take_length
      rw [ht]
      show (match (w.f p)[vi.2]? with | some x => Except.ok x | none => _) = _
      rw [List.getElem?_eq_getElem hl]; rfl

/-- Effect of one step on the row of an entry. -/
def opt (b : Prop) [Decidable b] (x : ℝ) : Option ℝ := if b then some x else none

theorem addVar_ok (dbg : Bool) (c : Cond P) (vi : Nat × Nat) (hcomp : ∀ p, component dbg c vi.1 vi.2 p = .ok (val c vi.1 vi.2 p)) (dofs : List (Entry P)) (hn : (dofs.map (·.dof)).Nodup) (rows : Nat → Option ℝ) :
    ∃ rows', addVar dbg dofs c rows vi = .ok rows' ∧ (∀ e ∈ dofs, rows' e.dof = (rows e.dof).or (opt (e.var = vi.1 ∧ c.bid ∈ e.bids) (val c vi.1 vi.2 e.pos)))
      ∧ ∀ k, k ∉ dofs.map (·.dof) → rows' k = rows k := by
  unfold addVar
  induction dofs generalizing rows with
  | nil => exact ⟨rows, rfl, by simp, fun _ _ => rfl⟩
  | cons e dofs ih =>
    simp only [List.map_cons, List.nodup_cons] at hn
    have hstep : addRow dbg c vi.1 vi.2 rows e = .ok (Function.update rows e.dof ((rows e.dof).or (opt (e.var = vi.1 ∧ c.bid ∈ e.bids) (val c vi.1 vi.2 e.pos)))) := by
      unfold addRow opt
      by_cases h : e.var = vi.1 ∧ c.bid ∈ e.bids
      · rw [if_pos h, if_pos h, hcomp]
        show Except.ok _ = _
        congr 1
        cases hr : rows e.dof with
        | none => simp
        | some x =>
          have hu : Function.update rows e.dof (some x) = rows := by rw [← hr]; exact Function.update_eq_self _ _
          simp [hu]
      · rw [if_neg h, if_neg h]
        simp
    obtain ⟨rows', h1, h2, h3⟩ := ih hn.2 (Function.update rows e.dof ((rows e.dof).or (opt (e.var = vi.1 ∧ c.bid ∈ e.bids) (val c vi.1 vi.2 e.pos))))
    refine ⟨rows', ?_, ?_, ?_⟩
    · rw [List.foldlM_cons, hstep]; exact h1
    · intro e' he'
      rcases List.mem_cons.1 he' with rfl | he'
      · rw [h3 _ hn.1]; simp
      · rw [h2 e' he']
        have hne : e'.dof ≠ e.dof := fun h => hn.1 (h ▸ List.mem_map_of_mem he')
        rw [Function.update_of_ne hne]
    · intro k hk
      simp only [List.map_cons, List.mem_cons, not_or] at hk
      rw [h3 k hk.2, Function.update_of_ne hk.1]

theorem find_zip (l : List Nat) (v k : Nat) : (l.zipIdx k).find? (fun vi => vi.1 == v) = if v ∈ l then some (v, k + l.idxOf v) else none := by
  induction l generalizing k with
  | nil => simp
  | cons a l ih =>
    rw [List.zipIdx_cons, List.find?_cons]
    by_cases h : a = v
    · subst h; simp
    · have h' : (a == v) = false := by simpa using h
      have hv : v ≠ a := fun x => h x.symm
      rw [h']
      simp only [ih, List.mem_cons, hv, false_or, List.idxOf_cons_ne _ h]
      split <;> simp [Nat.add_comm, Nat.add_left_comm]

theorem addVars_ok (dbg : Bool) (c : Cond P) (dofs : List (Entry P)) (hn : (dofs.map (·.dof)).Nodup) (l : List (Nat × Nat)) (hcomp : ∀ vi ∈ l, ∀ p, component dbg c vi.1 vi.2 p = .ok (val c vi.1 vi.2 p))
    (rows : Nat → Option ℝ) :
    ∃ rows', l.foldlM (addVar dbg dofs c) rows = .ok rows'
      ∧ (∀ e ∈ dofs, rows' e.dof = (rows e.dof).or (if c.bid ∈ e.bids then (l.find? fun vi => vi.1 == e.var).map fun vi => val c vi.1 vi.2 e.pos else none))
      ∧ ∀ k, k ∉ dofs.map (·.dof) → rows' k = rows k := by
  induction l generalizing rows with
  | nil => exact ⟨rows, rfl, by simp, fun _ _ => rfl⟩
  | cons vi l ih =>
    obtain ⟨r1, a1, a2, a3⟩ := addVar_ok dbg c vi (hcomp vi (by simp)) dofs hn rows
    obtain ⟨r2, b1, b2, b3⟩ := ih (fun x hx => hcomp x (by simp [hx])) r1
    refine ⟨r2, ?_, fun e he => ?_, fun k hk => (b3 k hk).trans (a3 k hk)⟩
    · rw [List.foldlM_cons, a1]; exact b1
    · rw [b2 e he, a2 e he, List.find?_cons]
      unfold opt
      by_cases h : c.bid ∈ e.bids
      · by_cases h2 : vi.1 = e.var
        · simp [h, h2, Option.or_assoc]
        · have h2' : ¬ e.var = vi.1 := fun x => h2 x.symm
          have h3 : (vi.1 == e.var) = false := by simpa using h2
          simp [h, h3, h2', Option.or_assoc]
      · simp [h]

theorem addCond_ok (dbg : Bool) (nv : Nat) (c : Cond P) (hc : Sized nv c) (dofs : List (Entry P)) (hn : (dofs.map (·.dof)).Nodup) (rows : Nat → Option ℝ) :
    ∃ rows', addCond dbg dofs rows c = .ok rows' ∧ (∀ e ∈ dofs, rows' e.dof = (rows e.dof).or (opt (Applies c e) (prescribed c e))) ∧ ∀ k, k ∉ dofs.map (·.dof) → rows' k = rows k := by
  obtain ⟨r, h1, h2, h3⟩ := addVars_ok dbg c dofs hn c.vars.zipIdx (fun vi hvi p => component_ok dbg nv c hc vi hvi p) rows
  refine ⟨r, h1, fun e he => ?_, h3⟩
  rw [h2 e he]
  congr 1
  unfold opt Applies
  rw [find_zip]
  by_cases h : c.bid ∈ e.bids <;> by_cases h2 : e.var ∈ c.vars <;> simp [h, h2]
  rfl

theorem addConds_ok (dbg : Bool) (nv : Nat) (dofs : List (Entry P)) (hn : (dofs.map (·.dof)).Nodup) (l : List (Cond P)) (hl : ∀ c ∈ l, Sized nv c) (rows : Nat → Option ℝ) :
    ∃ rows', l.foldlM (addCond dbg dofs) rows = .ok rows' ∧ (∀ e ∈ dofs, rows' e.dof = (rows e.dof).or ((l.find? fun c => decide (Applies c e)).map fun c => prescribed c e))
      ∧ ∀ k, k ∉ dofs.map (·.dof) → rows' k = rows k := by
  induction l generalizing rows with
  | nil => exact ⟨rows, rfl, by simp, fun _ _ => rfl⟩
  | cons c l ih =>
    obtain ⟨r1, a1, a2, a3⟩ := addCond_ok dbg nv c (hl c (by simp)) dofs hn rows
    obtain ⟨r2, b1, b2, b3⟩ := ih (fun x hx => hl x (by simp [hx])) r1
    refine ⟨r2, ?_, fun e he => ?_, fun k hk => (b3 k hk).trans (a3 k hk)⟩
    · rw [List.foldlM_cons, a1]; exact b1
    · rw [b2 e he, a2 e he, List.find?_cons]
      unfold opt
      by_cases h : Applies c e <;> simp [h, Option.or_assoc]

/-- C180: after (re)initialisation a degree of freedom has the value prescribed by the first Dirichlet boundary of the system that speaks about it, and no row if there is none. -/
theorem C180_rows (dbg : Bool) (nv : Nat) (dofs : List (Entry P)) (hn : (dofs.map (·.dof)).Nodup) (s : Sys P) (hs : ∀ c ∈ s.dirichlets, Sized nv c) :
    ∃ s', reinit dbg dofs s = .ok s' ∧ s'.dirichlets = s.dirichlets
      ∧ ∀ e ∈ dofs, (∀ pre c post, s.dirichlets = pre ++ c :: post → Applies c e → (∀ d ∈ pre, ¬ Applies d e) → s'.rows e.dof = some (prescribed c e))
        ∧ ((∀ c ∈ s.dirichlets, ¬ Applies c e) → s'.rows e.dof = none) := by
  obtain ⟨r, h1, h2, _⟩ := addConds_ok dbg nv dofs hn s.dirichlets hs fun _ => none
  refine ⟨{ s with rows := r }, ?_, rfl, fun e he => ⟨fun pre c post heq hc hpre => ?_, fun hno => ?_⟩⟩
  · unfold reinit; rw [h1]; rfl
  · show r e.dof = _
    have hp : pre.find? (fun c => decide (Applies c e)) = none := by simpa using hpre
    rw [h2 e he, heq, List.find?_append, hp, List.find?_cons]
    simp [hc]
  · show r e.dof = _
    have hp : s.dirichlets.find? (fun c => decide (Applies c e)) = none := by simpa using hno
    rw [h2 e he, hp]; rfl

/-! ### Registration -/

theorem add_sorted (dbg : Bool) (r : Reg P) (hr : Sorted r) (k : Nat) (c : Option (Cond P)) (r' : Reg P) (h : add dbg r k c = .ok r') :
    Sorted r' ∧ ((∃ x ∈ r, x.1 = k) → r' = r) ∧ ((∀ x ∈ r, x.1 ≠ k) → ∀ y, y ∈ r' ↔ y ∈ r ∨ y = (k, c)) := by
  unfold add at h
  split at h
  · rename_i hex
    have hex' : ∃ x ∈ r, x.1 = k := by simpa using hex
    cases dbg
    · have : r = r' := by simpa using h
      subst this
      exact ⟨hr, fun _ => rfl, fun hall => absurd hex' (by rintro ⟨x, hx, h⟩; exact hall x hx h)⟩
    · simp at h
  · rename_i hex
    have hall : ∀ x ∈ r, x.1 ≠ k := fun x hx hk => hex (List.any_eq_true.2 ⟨x, hx, by simpa using hk⟩)
    have heq : r.takeWhile (fun x => x.1 < k) ++ (k, c) :: r.dropWhile (fun x => x.1 < k) = r' := by simpa using h
    have hsplit := List.takeWhile_append_dropWhile (p := fun x : Nat × Option (Cond P) => decide (x.1 < k)) (l := r)
    subst heq
    refine ⟨?_, fun ⟨x, hx, hk⟩ => absurd hk (hall x hx), fun _ y => ?_⟩
    · unfold Sorted at hr ⊢
      have hr' := hr
      rw [← hsplit, List.pairwise_append] at hr'
      rw [List.pairwise_append, List.pairwise_cons]
      have hlow : ∀ a ∈ r.takeWhile (fun x => decide (x.1 < k)), a.1 < k := fun a ha => by
        have := List.mem_takeWhile_imp ha; simpa using this
      have hhigh : ∀ b ∈ r.dropWhile (fun x => decide (x.1 < k)), k < b.1 := by
        intro b hb
        have hne : r.dropWhile (fun x => decide (x.1 < k)) ≠ [] := List.ne_nil_of_mem hb
        have hhead : k < ((r.dropWhile (fun x => decide (x.1 < k))).head hne).1 := by
          have h1 := List.head_dropWhile_not (fun x : Nat × Option (Cond P) => decide (x.1 < k)) hne
          have h2 : ¬ ((r.dropWhile (fun x => decide (x.1 < k))).head hne).1 < k := by simpa using h1
          have h3 := hall _ ((List.dropWhile_sublist _).subset (List.head_mem hne))
          omega
        obtain ⟨hd, tl, hcons⟩ := List.exists_cons_of_ne_nil hne
        simp only [hcons, List.head_cons] at hhead
        rw [hcons] at hb
        rcases List.mem_cons.1 hb with rfl | hb
        · exact hhead
        · have := hr'.2.1
          rw [hcons, List.pairwise_cons] at this
          exact hhead.trans (this.1 b hb)
      refine ⟨hr'.1, ⟨fun b hb => hhigh b hb, hr'.2.1⟩, fun a ha b hb => ?_⟩
      rcases List.mem_cons.1 hb with rfl | hb
      · exact hlow a ha
      · exact hr'.2.2 a ha b hb
    · conv_rhs => rw [← hsplit]
      simp only [List.mem_append, List.mem_cons]
      tauto

/-- C180: whatever the history of registrations, the map is sorted by boundary id; registrations under a new id are kept, under a used id they are dropped (release builds). -/
theorem C180_registered (dbg : Bool) (l : List (Nat × Option (Cond P))) (r : Reg P) (h : addAll dbg [] l = .ok r) : Sorted r ∧ (∀ x ∈ r, x ∈ l) ∧ ∀ x ∈ l, ∃ y ∈ r, y.1 = x.1 := by
  unfold addAll at h
  induction l using List.reverseRecOn generalizing r with
  | nil => have : ([] : Reg P) = r := Except.ok.inj h
           subst this; exact ⟨List.Pairwise.nil, by simp, by simp⟩
  | append_singleton l x ih =>
    rw [List.foldlM_append] at h
    cases hl : l.foldlM (m := Exec) (fun r x => add dbg r x.1 x.2) ([] : Reg P) with
    | error e => rw [hl] at h; cases h
    | ok r0 =>
      rw [hl] at h
      obtain ⟨i1, i2, i3⟩ := ih r0 hl
      have h' : add dbg r0 x.1 x.2 = .ok r := by
        have : (add dbg r0 x.1 x.2 >>= fun y => pure y) = .ok r := h
        cases hx : add dbg r0 x.1 x.2 with
        | error e => rw [hx] at this; cases this
        | ok y => rw [hx] at this; exact this
      obtain ⟨j1, j2, j3⟩ := add_sorted dbg r0 i1 x.1 x.2 r h'
      refine ⟨j1, ?_⟩
      by_cases hex : ∃ y ∈ r0, y.1 = x.1
      · rw [j2 hex]
        refine ⟨fun y hy => List.mem_append_left _ (i2 y hy), fun y hy => ?_⟩
        rcases List.mem_append.1 hy with hy | hy
        · exact i3 y hy
        · rw [List.mem_singleton.1 hy]; exact hex
      · have hall : ∀ y ∈ r0, y.1 ≠ x.1 := fun y hy hk => hex ⟨y, hy, hk⟩
        have hm := j3 hall
        refine ⟨fun y hy => ?_, fun y hy => ?_⟩
        · rcases (hm y).1 hy with hy | rfl
          · exact List.mem_append_left _ (i2 y hy)
          · simp
        · rcases List.mem_append.1 hy with hy | hy
          · obtain ⟨z, hz, hk⟩ := i3 y hy
            exact ⟨z, (hm z).2 (.inl hz), hk⟩
          · rw [List.mem_singleton.1 hy]; exact ⟨x, (hm _).2 (.inr rfl), rfl⟩

theorem conds_ok (l : List (Nat × Cond P)) : conds (l.map fun x => (x.1, some x.2)) = .ok (l.map (·.2)) := by
  unfold conds
  induction l with
  | nil => rfl
  | cons a l ih => rw [List.map_cons, List.mapM_cons, ih]; rfl

/-- All conditions are initialised. -/
def full (l : List (Nat × Cond P)) : Reg P := l.map fun x => (x.1, some x.2)

/-- C180: the static system.  After `init_system_dirichlet_bc` and initialisation of the system, a degree of freedom spoken about by registered conditions has the value of the one with the smallest id of
registration; a degree of freedom no condition speaks about is free. -/
theorem C180_static (dbg : Bool) (nv : Nat) (dofs : List (Entry P)) (hn : (dofs.map (·.dof)).Nodup) (l : List (Nat × Cond P)) (hl : Sorted (full l)) (hs : ∀ x ∈ l, Sized nv x.2) (rows : Nat → Option ℝ) :
    ∃ s1 s2, initSystem (full l) ⟨[], rows⟩ = .ok s1 ∧ reinit dbg dofs s1 = .ok s2
      ∧ ∀ e ∈ dofs, (∀ x ∈ l, Applies x.2 e → (∀ y ∈ l, Applies y.2 e → x.1 ≤ y.1) → s2.rows e.dof = some (prescribed x.2 e)) ∧ ((∀ x ∈ l, ¬ Applies x.2 e) → s2.rows e.dof = none) := by
  have h1 : initSystem (full l) ⟨[], rows⟩ = .ok ⟨l.map (·.2), rows⟩ := by
    unfold initSystem; rw [show conds (full l) = _ from conds_ok l]; rfl
  obtain ⟨s2, h2, _, h3⟩ := C180_rows dbg nv dofs hn ⟨l.map (·.2), rows⟩ (by simpa using fun c k h => hs (k, c) h)
  refine ⟨_, s2, h1, h2, fun e he => ⟨fun x hx ha hmin => ?_, fun hno => (h3 e he).2 (by simpa using fun c k h => hno (k, c) h)⟩⟩
  obtain ⟨pre, post, rfl⟩ := List.append_of_mem hx
  refine (h3 e he).1 (pre.map (·.2)) x.2 (post.map (·.2)) (by simp) ha fun d hd hda => ?_
  obtain ⟨y, hy, rfl⟩ := List.mem_map.1 hd
  have hle := hmin y (by simp [hy]) hda
  have hlt : y.1 < x.1 := by
    unfold Sorted full at hl
    rw [List.map_append, List.pairwise_append] at hl
    exact hl.2.2 (y.1, some y.2) (List.mem_map_of_mem hy) (x.1, some x.2) (by simp)
  omega

/-! ### Removal -/

theorem remove_fold (dbg : Bool) (cs Y l : List (Cond P)) (hno : ∀ c ∈ cs, ∀ d ∈ l, ¬ (d.bid = c.bid ∧ d.vars = c.vars)) : cs.foldlM (m := Exec) (remove dbg) (l ++ (cs ++ Y)) = .ok (l ++ Y) := by
  induction cs with
  | nil => rfl
  | cons c cs ih =>
    have h1 : remove dbg (l ++ (c :: cs ++ Y)) c = .ok (l ++ (cs ++ Y)) := by
      unfold remove
      rw [if_pos (by simp)]
      congr 1
      rw [List.eraseP_append_right]
      · simp
      · intro d hd
        have := hno c (by simp) d hd
        simpa using this
    rw [List.foldlM_cons, h1]
    exact ih fun c hc => hno c (by simp [hc])

/-- C180: `clear_system_dirichlet_bc` undoes `init_system_dirichlet_bc` on every system that has no boundary with the id and variables of a registered condition. -/
theorem C180_clear_partial (dbg : Bool) (l : List (Nat × Cond P)) (s : Sys P) (hno : ∀ x ∈ l, ∀ d ∈ s.dirichlets, ¬ (d.bid = x.2.bid ∧ d.vars = x.2.vars)) :
    ∃ s1, initSystem (full l) s = .ok s1 ∧ clearSystem dbg (full l) s1 = .ok s := by
  have hc : conds (full l) = _ := conds_ok l
  refine ⟨{ s with dirichlets := s.dirichlets ++ l.map (·.2) }, by unfold initSystem; rw [hc]; rfl, ?_⟩
  unfold clearSystem
  rw [hc]
  show (do let l' ← (l.map Prod.snd).foldlM (m := Exec) (remove dbg) (s.dirichlets ++ l.map Prod.snd); _) = _
  have := remove_fold dbg (l.map (·.2)) [] s.dirichlets (by simpa using fun c k h => hno (k, c) h)
  rw [List.append_nil, List.append_nil] at this
  rw [this]; rfl

theorem queries_ok (l : List (Nat × Cond P)) (sub : Nat → List Nat) (dofs : List (Entry P)) (k : Nat) (s : Sys P) :
    ∃ Y, queries (full l) sub dofs k s = .ok { s with dirichlets := s.dirichlets ++ Y } ∧ (∀ c ∈ Y, ∃ x ∈ l, x.2 = c) ∧ (1 ≤ k → ∀ x ∈ l, x.2 ∈ Y) := by
  induction k generalizing s with
  | zero => exact ⟨[], by simp [queries], by simp, by simp⟩
  | succ k ih =>
    obtain ⟨Y, h1, h2, _⟩ := ih { s with dirichlets := s.dirichlets ++ l.map (·.2) }
    refine ⟨l.map (·.2) ++ Y, ?_, ?_, fun _ x hx => List.mem_append_left _ (List.mem_map_of_mem hx)⟩
    · unfold queries getDofs
      rw [show conds (full l) = _ from conds_ok l]
      refine Eq.trans ?_ (h1.trans ?_)
      · rfl
      · simp [List.append_assoc]
    · intro c hc
      rcases List.mem_append.1 hc with hc | hc
      · obtain ⟨x, hx, rfl⟩ := List.mem_map.1 hc; exact ⟨x, hx, rfl⟩
      · exact h2 c hc

/-- C180 fails after a query of the Dirichlet degrees of freedom (as made by `initialize_condensed_dofs`): each query adds all conditions to the system again, so after `clear_system_dirichlet_bc` and a
reinitialisation every degree of freedom is still constrained. -/
theorem C180_query_fails (dbg : Bool) (nv : Nat) (dofs : List (Entry P)) (hn : (dofs.map (·.dof)).Nodup) (l : List (Nat × Cond P)) (hs : ∀ x ∈ l, Sized nv x.2) (sub : Nat → List Nat) (k : Nat) (hk : 1 ≤ k)
    (rows : Nat → Option ℝ) :
    ∃ s1 s2 s3 s4, initSystem (full l) ⟨[], rows⟩ = .ok s1 ∧ queries (full l) sub dofs k s1 = .ok s2 ∧ clearSystem dbg (full l) s2 = .ok s3 ∧ reinit dbg dofs s3 = .ok s4
      ∧ ∀ e ∈ dofs, (∃ x ∈ l, Applies x.2 e) → (s4.rows e.dof).isSome = true := by
  have hc : conds (full l) = _ := conds_ok l
  obtain ⟨Y, q1, q2, q3⟩ := queries_ok l sub dofs k ⟨l.map (·.2), rows⟩
  have h3 : clearSystem dbg (full l) ⟨l.map (·.2) ++ Y, rows⟩ = .ok ⟨Y, rows⟩ := by
    unfold clearSystem
    rw [hc]
    show (do let l' ← (l.map Prod.snd).foldlM (m := Exec) (remove dbg) (l.map Prod.snd ++ Y); _) = _
    have := remove_fold dbg (l.map (·.2)) Y [] (by simp)
    rw [List.nil_append, List.nil_append] at this
    rw [this]; rfl
  obtain ⟨r, a1, a2, _⟩ := addConds_ok dbg nv dofs hn Y (fun c hc => by obtain ⟨x, hx, rfl⟩ := q2 c hc; exact hs x hx) fun _ => none
  refine ⟨⟨l.map (·.2), rows⟩, ⟨l.map (·.2) ++ Y, rows⟩, ⟨Y, rows⟩, ⟨Y, r⟩, by unfold initSystem; rw [hc]; rfl, q1, h3, by unfold reinit; rw [a1]; rfl, ?_⟩
  rintro e he ⟨x, hx, ha⟩
  show (r e.dof).isSome = true
  rw [a2 e he]
  simp only [Option.none_or, Option.isSome_map, List.find?_isSome]
  exact ⟨x.2, q3 hk x hx, by simpa using ha⟩

/-! ### Static and condensed systems -/

/-- Membership in the result of the query. -/
theorem getDofs_mem (l : List (Nat × Cond P)) (sub : Nat → List Nat) (dofs : List (Entry P)) (s : Sys P) :
    ∃ D, getDofs (full l) sub dofs s = .ok (D, { s with dirichlets := s.dirichlets ++ l.map (·.2) })
      ∧ ∀ k, k ∈ D ↔ ∃ e ∈ dofs, e.dof = k ∧ ((∃ x ∈ l, x.1 ∈ e.outer ∧ e.var ∈ x.2.vars) ∨ (∃ d ∈ e.subs, e.var ∈ sub d) ∨ (s.rows e.dof).isSome = true) := by
  refine ⟨_, by unfold getDofs; rw [show conds (full l) = _ from conds_ok l]; rfl, fun k => ?_⟩
  simp only [List.mem_map, List.mem_filter, Bool.or_eq_true, List.any_eq_true, full, List.contains_iff_mem, or_assoc]
  constructor
  · rintro ⟨e, ⟨he, h⟩, rfl⟩
    refine ⟨e, he, rfl, ?_⟩
    rcases h with ⟨x, ⟨y, hy, rfl⟩, h⟩ | h | h
    · exact .inl ⟨y, hy, by simpa using h⟩
    · exact .inr (.inl h)
    · exact .inr (.inr h)
  · rintro ⟨e, he, rfl, h⟩
    refine ⟨e, ⟨he, ?_⟩, rfl⟩
    rcases h with ⟨y, hy, h⟩ | h | h
    · exact .inl ⟨_, ⟨y, hy, rfl⟩, by simpa using h⟩
    · exact .inr (.inl h)
    · exact .inr (.inr h)

/-- C180: if every condition is registered under the id it was initialised with, and there are no subdomain constraints, the query (before or after the rows are made) agrees with the rows of the static system. -/
theorem C180_consistent_partial (dbg : Bool) (nv : Nat) (dofs : List (Entry P)) (hn : (dofs.map (·.dof)).Nodup) (l : List (Nat × Cond P)) (hl : Sorted (full l)) (hs : ∀ x ∈ l, Sized nv x.2)
    (hkey : ∀ x ∈ l, x.2.bid = x.1) (hout : ∀ e ∈ dofs, ∀ k ∈ e.outer, k ∈ e.bids) (rows : Nat → Option ℝ) :
    ∃ s1 s2 D, initSystem (full l) ⟨[], rows⟩ = .ok s1 ∧ reinit dbg dofs s1 = .ok s2 ∧ (∃ s3, getDofs (full l) (fun _ => []) dofs s2 = .ok (D, s3)) ∧ ∀ e ∈ dofs, e.dof ∈ D ↔ (s2.rows e.dof).isSome = true := by
  obtain ⟨s1, s2, h1, h2, h3⟩ := C180_static dbg nv dofs hn l hl hs rows
  obtain ⟨D, d1, d2⟩ := getDofs_mem l (fun _ => []) dofs s2
  refine ⟨s1, s2, D, h1, h2, ⟨_, d1⟩, fun e he => ?_⟩
  rw [d2]
  constructor
  · rintro ⟨e', he', hk, h⟩
    have heq : e' = e := List.inj_on_of_nodup_map hn he' he hk
    subst heq
    rcases h with ⟨x, hx, hx1, hx2⟩ | ⟨d, _, hd⟩ | h
    · by_contra hnone
      have hno : ¬ ∃ y ∈ l, Applies y.2 e' := by
        rintro hex
        obtain ⟨pre, y, post, hly, ha, hpre⟩ : ∃ pre y post, l = pre ++ y :: post ∧ Applies y.2 e' ∧ ∀ z ∈ pre, ¬ Applies z.2 e' := by
          clear hx hl hs hkey h1 h3 d1 d2
          induction l with
          | nil => obtain ⟨y, hy, _⟩ := hex; cases hy
          | cons z l ih =>
            by_cases hz : Applies z.2 e'
            · exact ⟨[], z, l, rfl, hz, by simp⟩
            · obtain ⟨y, hy, hya⟩ := hex
              rcases List.mem_cons.1 hy with rfl | hy
              · exact absurd hya hz
              · obtain ⟨pre, w, post, e1, e2, e3⟩ := ih ⟨y, hy, hya⟩
                exact ⟨z :: pre, w, post, by rw [e1]; rfl, e2, fun u hu => by
                  rcases List.mem_cons.1 hu with rfl | hu
                  · exact hz
                  · exact e3 u hu⟩
        have hrow := (h3 e' he).1 y (by rw [hly]; simp) ha fun z hz hza => by
          rw [hly] at hz
          rcases List.mem_append.1 hz with hz | hz
          · exact absurd hza (hpre z hz)
          · rcases List.mem_cons.1 hz with rfl | hz
            · exact le_refl _
            · unfold Sorted full at hl
              rw [hly, List.map_append, List.pairwise_append, List.map_cons, List.pairwise_cons] at hl
              exact (hl.2.1.1 (z.1, some z.2) (List.mem_map_of_mem hz)).le
        rw [hrow] at hnone
        exact hnone rfl
      exact hno ⟨x, hx, hx2, by rw [hkey x hx]; exact hout e' he _ hx1⟩
    · cases hd
    · exact h
  · exact fun h => ⟨e, he, rfl, .inr (.inr h)⟩

/-- C180 fails for subdomain constraints: a degree of freedom constrained with `constrain_subdomain_dofs_for_var` is left out of the eigenproblem but stays free in the static system. -/
theorem C180_subdomain_fails (dbg : Bool) (nv : Nat) (dofs : List (Entry P)) (hn : (dofs.map (·.dof)).Nodup) (l : List (Nat × Cond P)) (hl : Sorted (full l)) (hs : ∀ x ∈ l, Sized nv x.2) (sub : Nat → List Nat)
    (rows : Nat → Option ℝ) (e : Entry P) (he : e ∈ dofs) (d : Nat) (hd : d ∈ e.subs) (hv : e.var ∈ sub d) (hfree : ∀ x ∈ l, ¬ Applies x.2 e) :
    ∃ s1 s2 D, initSystem (full l) ⟨[], rows⟩ = .ok s1 ∧ reinit dbg dofs s1 = .ok s2 ∧ (∃ s3, getDofs (full l) sub dofs s2 = .ok (D, s3)) ∧ e.dof ∈ D ∧ s2.rows e.dof = none := by
  obtain ⟨s1, s2, h1, h2, h3⟩ := C180_static dbg nv dofs hn l hl hs rows
  obtain ⟨D, d1, d2⟩ := getDofs_mem l sub dofs s2
  exact ⟨s1, s2, D, h1, h2, ⟨_, d1⟩, (d2 _).2 ⟨e, he, rfl, .inr (.inl ⟨d, hd, hv⟩)⟩, (h3 e he).2 hfree⟩

/-- C180 fails if a condition is registered under another id than the one it was initialised with: nothing checks this; the static system uses one boundary, the eigenproblem also the other. -/
theorem C180_key_fails (dbg : Bool) (nv : Nat) (dofs : List (Entry P)) (hn : (dofs.map (·.dof)).Nodup) (l : List (Nat × Cond P)) (hl : Sorted (full l)) (hs : ∀ x ∈ l, Sized nv x.2) (rows : Nat → Option ℝ)
    (e : Entry P) (he : e ∈ dofs) (x : Nat × Cond P) (hx : x ∈ l) (hk : x.1 ∈ e.outer) (hv : e.var ∈ x.2.vars) (hfree : ∀ y ∈ l, y.2.bid ∉ e.bids) :
    ∃ s1 s2 D, initSystem (full l) ⟨[], rows⟩ = .ok s1 ∧ reinit dbg dofs s1 = .ok s2 ∧ (∃ s3, getDofs (full l) (fun _ => []) dofs s2 = .ok (D, s3)) ∧ e.dof ∈ D ∧ s2.rows e.dof = none := by
  obtain ⟨s1, s2, h1, h2, h3⟩ := C180_static dbg nv dofs hn l hl hs rows
  obtain ⟨D, d1, d2⟩ := getDofs_mem l (fun _ => []) dofs s2
  exact ⟨s1, s2, D, h1, h2, ⟨_, d1⟩, (d2 _).2 ⟨e, he, rfl, .inl ⟨x, hx, hk, hv⟩⟩, (h3 e he).2 fun y hy ha => hfree y hy ha.2⟩

/-- C180: a function of the wrong size is rejected: in a debug build `init` stops for system order without the number of variables, and the evaluation stops if the sizes differ. -/
theorem C180_sizes (bid : Nat) (vars : List Nat) (w : Wrapped P) (p : P) :
    (w.index = .system → w.nsys = 0 → initCond true none bid vars (some w) = .error .assertFail)
      ∧ (∀ old : Cond P, initCond true (some old) bid vars (some w) = .error .assertFail)
      ∧ ((w.f p).length ≠ expected vars w → wrapped true vars w p = .error .assertFail)
      ∧ ((w.f p).length < expected vars w → wrapped false vars w p = .error .ub) := by
  refine ⟨fun h1 h2 => by simp [initCond, h1, h2], fun old => by simp [initCond], fun h => ?_, fun h => ?_⟩
  · unfold wrapped; rw [if_pos (by simpa using h)]
  · unfold wrapped; rw [if_neg (by simp), if_pos h]

/-- C180: what the user hands to `init` is what the system imposes: if `init` on a fresh condition succeeds and its function has the documented size, the reinitialised system prescribes at the degrees of freedom of
that boundary and these variables, and at no others, zero without a function, otherwise the entry of the function that belongs to the variable. -/
theorem C180_init (dbg : Bool) (nv : Nat) (dofs : List (Entry P)) (hn : (dofs.map (·.dof)).Nodup) (bid : Nat) (vars : List Nat) (f : Option (Wrapped P))
    (hf : ∀ w, f = some w → match w.index with
      | .system => 0 < nv ∧ w.nsys = nv ∧ (∀ p, (w.f p).length = nv) ∧ ∀ v ∈ vars, v < nv
      | .local => ∀ p, (w.f p).length = vars.length) (rows : Nat → Option ℝ) :
    ∃ c s', initCond dbg none bid vars f = .ok c ∧ reinit dbg dofs ⟨[c], rows⟩ = .ok s' ∧ ∀ e ∈ dofs, s'.rows e.dof =
      if bid ∈ e.bids ∧ e.var ∈ vars then some (match f with
        | none => 0
        | some w => ((w.f e.pos)[match w.index with | .system => e.var | .local => vars.idxOf e.var]?).getD 0) else none := by
  have h0 : initCond dbg none bid vars f = .ok ⟨bid, vars, f⟩ := by
    cases f with
    | none => simp [initCond]
    | some w =>
      have hw := hf w rfl
      cases hi : w.index with
      | system =>
        rw [hi] at hw
        have : w.nsys ≠ 0 := by rw [hw.2.1]; exact Nat.pos_iff_ne_zero.1 hw.1
        simp [initCond, this]
      | «local» => simp [initCond, hi, show (Index.local == Index.system) = false from rfl]
  have hsz : Sized nv (⟨bid, vars, f⟩ : Cond P) := by
    intro w hw
    have h := hf w hw
    cases hi : w.index with
    | system => rw [hi] at h; exact h.2
    | «local» => rw [hi] at h; exact h
  obtain ⟨s', h1, _, h3⟩ := C180_rows dbg nv dofs hn ⟨[⟨bid, vars, f⟩], rows⟩ (by simpa using hsz)
  refine ⟨_, s', h0, h1, fun e he => ?_⟩
  obtain ⟨h4, h5⟩ := h3 e he
  by_cases ha : bid ∈ e.bids ∧ e.var ∈ vars
  · rw [if_pos ha, h4 [] _ [] rfl ⟨ha.2, ha.1⟩ (by simp)]
    cases f <;> rfl
  · rw [if_neg ha, h5 (by simpa [Applies, and_comm] using ha)]

/-! ### Non-vacuity -/

/-- Two boundaries meeting at one node of a bar: displacement 1 and 2 (system order, two variables) and temperature zero. -/
def barDofs : List (Entry Nat) := [⟨0, 0, 0, [3], [3], [0]⟩, ⟨1, 1, 0, [3], [3], [0]⟩, ⟨2, 0, 1, [3, 5], [3, 5], [0]⟩, ⟨3, 1, 1, [3, 5], [3, 5], [0]⟩, ⟨4, 0, 2, [], [], [0]⟩]
noncomputable def barCond : List (Nat × Cond Nat) := [(3, ⟨3, [1, 0], some ⟨.local, 0, fun p => [10, p]⟩⟩), (5, ⟨5, [0], some ⟨.system, 2, fun _ => [7, 8]⟩⟩)]
example : (barDofs.map (·.dof)).Nodup ∧ Sorted (full barCond) ∧ (∀ x ∈ barCond, Sized 2 x.2) ∧ ∀ x ∈ barCond, x.2.bid = x.1 := by
  refine ⟨by decide, ?_, ?_, ?_⟩
  · simp [Sorted, full, barCond]
  · intro x hx
    simp only [barCond, List.mem_cons, List.not_mem_nil, or_false] at hx
    rcases hx with rfl | rfl <;> intro w hw <;> simp only [Option.some.injEq] at hw <;> subst hw <;> simp
  · intro x hx
    simp only [barCond, List.mem_cons, List.not_mem_nil, or_false] at hx
    rcases hx with rfl | rfl <;> rfl
example : prescribed (⟨3, [1, 0], some ⟨.local, 0, fun p : Nat => [10, (p : ℝ)]⟩⟩ : Cond Nat) ⟨2, 0, 1, [3, 5], [3, 5], [0]⟩ = 1 ∧ Applies (⟨3, [1, 0], some ⟨.local, 0, fun p : Nat => [10, (p : ℝ)]⟩⟩ : Cond Nat) ⟨2, 0, 1, [3, 5], [3, 5], [0]⟩ := by
  refine ⟨?_, by decide⟩
  have : ([1, 0] : List Nat).idxOf 0 = 1 := by decide
  simp [prescribed, this]
/-- Non-vacuity of `C180_key_fails`: registered under 3, initialised for 5. -/
example : (3 : Nat) ∈ ([3] : List Nat) ∧ (5 : Nat) ∉ ([3] : List Nat) ∧ Sorted (full [(3, (⟨5, [0], none⟩ : Cond Nat))]) := ⟨by decide, by decide, by simp [Sorted, full]⟩
/-- Non-vacuity of `C180_registered`. -/
example : addAll false [] [(5, (none : Option (Cond Nat))), (3, none), (5, none)] = .ok [(3, none), (5, none)] := rfl

end Verif.DirBc
