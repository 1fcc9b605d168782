import Verif.Model.SysInit
import Verif.Model.FreqFlow
import Mathlib.Tactic.Linarith
import Mathlib.Tactic.FinCases
import Mathlib.Data.List.Basic
import Mathlib.Data.List.Infix
/-
  C201: variables of a discipline and the initial solution.
-/
namespace Verif.SysInit

section Spec

/-- The disciplines. -/
inductive Kind
  | structural | fluid (d : Fin 3) | heat | levelSet
deriving DecidableEq

/-- Names of the variables of a discipline without the prefix, in the order of the element routines; a flow has `d + 1` dimensions. -/
def Kind.names : Kind → List (List Char)
  | .structural => ["_ux".toList, "_uy".toList, "_uz".toList, "_tx".toList, "_ty".toList, "_tz".toList]
  | .fluid 0 => ["_rho".toList, "_rhoux".toList, "_rhoe".toList]
  | .fluid 1 => ["_rho".toList, "_rhoux".toList, "_rhouy".toList, "_rhoe".toList]
  | .fluid 2 => ["_rho".toList, "_rhoux".toList, "_rhouy".toList, "_rhouz".toList, "_rhoe".toList]
  | .heat => ["_T".toList]
  | .levelSet => ["_phi".toList]

/-- The constructor of a discipline. -/
def Kind.init : Kind → Sys → List Char → Nat → Exec (List Nat × Sys)
  | .structural => construct 6 SysInit.structural
  | .fluid d => construct (d.val + 1 + 2) (SysInit.fluid (d.val + 1))
  | .heat => construct 1 SysInit.heat
  | .levelSet => construct 1 SysInit.levelSet

/-- No variable of the system has a name of the discipline. -/
def Fresh (k : Kind) (s : Sys) (pre : List Char) : Prop := ∀ v ∈ s, ∀ x ∈ k.names, v.1 ≠ pre ++ x

/-- The variables of the discipline. -/
def Kind.vars (k : Kind) (pre : List Char) (ty : Nat) : Sys := k.names.map fun x => (pre ++ x, ty)

end Spec

theorem add_fresh (s : Sys) (nm : List Char) (ty : Nat) (h : ∀ v ∈ s, v.1 ≠ nm) : addVariable s nm ty = .ok (s.length, s ++ [(nm, ty)]) := by
  have : s.find? nm = none := by
    unfold Sys.find?
    rw [List.findIdx?_eq_none_iff]
    intro v hv; simpa using h v hv
  unfold addVariable; rw [this]

theorem run_fresh (pre : List Char) (ty : Nat) : ∀ (l : List (List Char)) (vs : List Nat) (s : Sys), l.Nodup → (∀ v ∈ s, ∀ x ∈ l, v.1 ≠ pre ++ x) →
    ((l.zipIdx vs.length).map fun x => (x.2, x.1)).foldlM (m := Exec) (putVar pre ty) (vs ++ List.replicate l.length 0, s) =
      .ok (vs ++ (List.range l.length).map (s.length + ·), s ++ l.map fun x => (pre ++ x, ty)) := by
  intro l
  induction l with
  | nil => intro vs s _ _; simp [pure, Except.pure]
  | cons x l ih =>
    intro vs s hn hf
    rw [List.zipIdx_cons, List.map_cons, List.foldlM_cons]
    have h1 : putVar pre ty (vs ++ List.replicate (x :: l).length 0, s) (vs.length, x) = .ok ((vs ++ [s.length]) ++ List.replicate l.length 0, s ++ [(pre ++ x, ty)]) := by
      unfold putVar
      dsimp only
      rw [add_fresh s (pre ++ x) ty fun v hv => hf v hv x (by simp)]
      simp [List.replicate_succ]
    have h2 := ih (vs ++ [s.length]) (s ++ [(pre ++ x, ty)]) (List.nodup_cons.1 hn).2 (by
      intro v hv y hy
      rcases List.mem_append.1 hv with hv | hv
      · exact hf v hv y (by simp [hy])
      · rw [List.mem_singleton.1 hv]
        intro he
        exact (List.nodup_cons.1 hn).1 (by rw [List.append_cancel_left he]; exact hy))
    rw [List.length_append, List.length_singleton] at h2
    show (putVar pre ty (vs ++ List.replicate (x :: l).length 0, s) (vs.length, x)).bind _ = _
    rw [h1]
    refine Eq.trans h2 ?_
    congr 1
    refine Prod.ext ?_ (by simp)
    simp [List.range_succ_eq_map, List.map_map, Function.comp_def]
    intro a _; omega

theorem names_nodup (k : Kind) : k.names.Nodup := by
  cases k with
  | fluid d => fin_cases d <;> decide
  | _ => decide

theorem init_eq (k : Kind) (s : Sys) (pre : List Char) (ty : Nat) :
    k.init s pre ty = ((k.names.zipIdx 0).map fun x => (x.2, x.1)).foldlM (m := Exec) (putVar pre ty) (List.replicate k.names.length 0, s) := by
  cases k with
  | fluid d => fin_cases d <;> rfl
  | _ => rfl

/-- C201: in a system that has none of the names, a discipline gets its variables at the end of the system, in the order of the element routines, and remembers their numbers. -/
theorem C201_variables (k : Kind) (s : Sys) (pre : List Char) (ty : Nat) (h : Fresh k s pre) :
    k.init s pre ty = .ok ((List.range k.names.length).map (s.length + ·), s ++ k.vars pre ty) := by
  rw [init_eq]
  exact run_fresh pre ty k.names [] s (names_nodup k) h

/-- C201: a variable number `i` of a discipline in an empty system is the variable the element routines call `i`. -/
theorem C201_numbers (k : Kind) (pre : List Char) (ty : Nat) : ∃ vars s, k.init [] pre ty = .ok (vars, s) ∧ vars.length = s.length ∧ ∀ i < vars.length, vars[i]? = some i ∧ (s[i]?).map Prod.fst = (k.names[i]?).map (pre ++ ·) := by
  refine ⟨_, _, C201_variables k [] pre ty (by intro v hv; cases hv), by simp [Kind.vars], fun i hi => ?_⟩
  simp only [List.length_map, List.length_range] at hi
  refine ⟨by simp [hi], by simp [Kind.vars]; cases k.names[i]? <;> rfl⟩

/-- C201: the numbers of the variables of a flow are those of the element vectors of C200. -/
theorem C201_flow (d : Fin 3) (v : Fluid.Var) (hv : Fluid.act (d.val + 1) v = true) :
    (Kind.fluid d).names[FreqFlow.pos (d.val + 1) v]? = some (match v with | .rho => "_rho".toList | .m1 => "_rhoux".toList | .m2 => "_rhouy".toList | .m3 => "_rhouz".toList | .en => "_rhoe".toList) := by
  fin_cases d <;> cases v <;> first | rfl | (simp [Fluid.act] at hv)

theorem find_append (s l : Sys) (nm : List Char) (h : ∀ v ∈ s, v.1 ≠ nm) (j : Nat) (hj : l.find? nm = some j) : (s ++ l : Sys).find? nm = some (s.length + j) := by
  have : s.find? nm = none := by
    unfold Sys.find?
    rw [List.findIdx?_eq_none_iff]
    intro v hv; simpa using h v hv
  unfold Sys.find? at *
  rw [List.findIdx?_append, this, hj]
  simp [Nat.add_comm]

theorem find_map (pre : List Char) (ty : Nat) (l : List (List Char)) (hn : l.Nodup) (i : Nat) (x : List Char) (hx : l[i]? = some x) : Sys.find? (l.map fun x => (pre ++ x, ty)) (pre ++ x) = some i := by
  unfold Sys.find?
  induction l generalizing i with
  | nil => simp at hx
  | cons y l ih =>
    rw [List.map_cons, List.findIdx?_cons]
    cases i with
    | zero => simp at hx; simp [hx]
    | succ i =>
      have hx' : l[i]? = some x := by simpa using hx
      have hne : y ≠ x := by rintro rfl; exact (List.nodup_cons.1 hn).1 (List.mem_of_getElem? hx')
      have := ih (List.nodup_cons.1 hn).2 i hx'
      simp [hne, this]

theorem run_again (pre : List Char) (ty : Nat) (s : Sys) (m : Nat) : ∀ (l : List (List Char)) (vs : List Nat), (∀ i x, l[i]? = some x → s.find? (pre ++ x) = some (m + vs.length + i) ∧ (s[m + vs.length + i]?).map Prod.snd = some ty) →
    ((l.zipIdx vs.length).map fun x => (x.2, x.1)).foldlM (m := Exec) (putVar pre ty) (vs ++ List.replicate l.length 0, s) = .ok (vs ++ (List.range l.length).map (m + vs.length + ·), s) := by
  intro l
  induction l with
  | nil => intro vs _; simp [pure, Except.pure]
  | cons x l ih =>
    intro vs h
    rw [List.zipIdx_cons, List.map_cons, List.foldlM_cons]
    obtain ⟨e1, e2⟩ := h 0 x rfl
    have h1 : putVar pre ty (vs ++ List.replicate (x :: l).length 0, s) (vs.length, x) = .ok ((vs ++ [m + vs.length]) ++ List.replicate l.length 0, s) := by
      unfold putVar addVariable
      dsimp only
      rw [e1]
      dsimp only
      rw [if_pos e2]
      simp [List.replicate_succ]
    have h2 := ih (vs ++ [m + vs.length]) (by
      intro i y hy
      have := h (i + 1) y (by simpa using hy)
      rw [List.length_append, List.length_singleton]
      rw [show m + (vs.length + 1) + i = m + vs.length + (i + 1) by omega]
      exact this)
    rw [List.length_append, List.length_singleton] at h2
    show (putVar pre ty (vs ++ List.replicate (x :: l).length 0, s) (vs.length, x)).bind _ = _
    rw [h1]
    refine Eq.trans h2 ?_
    congr 1
    refine Prod.ext ?_ rfl
    simp [List.range_succ_eq_map, List.map_map, Function.comp_def]
    intro a _; omega

/-- C201: initialising the same discipline again with the same shape functions finds the same variables and adds none. -/
theorem C201_again (k : Kind) (s : Sys) (pre : List Char) (ty : Nat) (h : Fresh k s pre) : k.init (s ++ k.vars pre ty) pre ty = .ok ((List.range k.names.length).map (s.length + ·), s ++ k.vars pre ty) := by
  rw [init_eq]
  refine run_again pre ty _ s.length k.names [] fun i x hx => ?_
  refine ⟨?_, ?_⟩
  · exact find_append s _ _ (fun v hv => h v hv x (List.mem_of_getElem? hx)) i (find_map pre ty k.names (names_nodup k) i x hx)
  · rw [List.length_nil, Nat.add_zero, List.getElem?_append_right (by omega)]
    simp [Kind.vars, hx]

/-- C201: initialising it again with other shape functions is refused. -/
theorem C201_type (k : Kind) (s : Sys) (pre : List Char) (ty ty' : Nat) (h : Fresh k s pre) (ht : ty ≠ ty') : k.init (s ++ k.vars pre ty) pre ty' = .error .error := by
  rw [init_eq]
  obtain ⟨x, l, hl⟩ : ∃ x l, k.names = x :: l := by
    cases k with
    | fluid d => fin_cases d <;> exact ⟨_, _, rfl⟩
    | _ => exact ⟨_, _, rfl⟩
  have hx : k.names[0]? = some x := by rw [hl]; rfl
  have e1 := find_append s _ _ (fun v hv => h v hv x (List.mem_of_getElem? hx)) 0 (find_map pre ty k.names (names_nodup k) 0 x hx)
  have e2 : ((s ++ k.vars pre ty : Sys)[s.length + 0]?).map Prod.snd = some ty := by
    rw [List.getElem?_append_right (by omega)]
    simp [Kind.vars, hx]
  have e3 : putVar pre ty' (List.replicate k.names.length 0, s ++ k.vars pre ty) (0, x) = .error .error := by
    unfold putVar addVariable
    dsimp only
    have e1' : Sys.find? (s ++ k.vars pre ty) (pre ++ x) = some (s.length + 0) := e1
    rw [e1']
    dsimp only
    rw [e2, if_neg (by simpa using ht)]
  have e4 : ((k.names.zipIdx 0).map fun x => (x.2, x.1)) = (0, x) :: ((l.zipIdx 1).map fun x => (x.2, x.1)) := by rw [hl]; rfl
  rw [e4, List.foldlM_cons]
  show (putVar pre ty' (List.replicate k.names.length 0, s ++ k.vars pre ty) (0, x)).bind _ = _
  rw [e3]; rfl

theorem no_suffix : ∀ k k' : Kind, ∀ x ∈ k.names, ∀ y ∈ k'.names, x <:+ y → x = y := by
  have key : ∀ x ∈ (Kind.structural.names ++ (Kind.fluid 2).names ++ Kind.heat.names ++ Kind.levelSet.names), ∀ y ∈ (Kind.structural.names ++ (Kind.fluid 2).names ++ Kind.heat.names ++ Kind.levelSet.names), x <:+ y → x = y := by
    decide
  have sub : ∀ k : Kind, ∀ x ∈ k.names, x ∈ (Kind.structural.names ++ (Kind.fluid 2).names ++ Kind.heat.names ++ Kind.levelSet.names) := by
    intro k
    cases k with
    | fluid d => fin_cases d <;> decide
    | _ => decide
  intro k k' x hx y hy h
  exact key x (sub k x hx) y (sub k' y hy) h

/-- C201: disciplines share a variable only when they have the same prefix and the same name for it. -/
theorem C201_shared (k k' : Kind) (pre pre' : List Char) (x y : List Char) (hx : x ∈ k.names) (hy : y ∈ k'.names) (h : pre ++ x = pre' ++ y) : pre = pre' ∧ x = y := by
  have e : x = y := by
    have h1 : x <:+ pre ++ x := List.suffix_append _ _
    have h2 : y <:+ pre ++ x := h ▸ List.suffix_append _ _
    rcases Nat.le_total x.length y.length with hl | hl
    · exact no_suffix k k' x hx y hy (List.suffix_of_suffix_length_le h1 h2 hl)
    · exact (no_suffix k' k y hy x hx (List.suffix_of_suffix_length_le h2 h1 hl)).symm
  subst e
  exact ⟨List.append_cancel_right h, rfl⟩

/-- C201: two disciplines of different kind or prefix, without common names, in one system: each gets variables of its own. -/
theorem C201_two (k k' : Kind) (pre pre' : List Char) (ty ty' : Nat) (h : pre ≠ pre') : ∃ s, k.init [] pre ty = .ok ((List.range k.names.length).map (0 + ·), s) ∧
    k'.init s pre' ty' = .ok ((List.range k'.names.length).map (k.names.length + ·), s ++ k'.vars pre' ty') := by
  refine ⟨k.vars pre ty, ?_, ?_⟩
  · have := C201_variables k [] pre ty (by intro v hv; cases hv)
    simpa using this
  · have := C201_variables k' (k.vars pre ty) pre' ty' (by
      intro v hv x hx he
      obtain ⟨y, hy, rfl⟩ := List.mem_map.1 hv
      exact h (C201_shared k k' pre pre' y x hy hx he).1)
    simpa [Kind.vars] using this

/-- C201 (a system with the variables of one discipline only): after `initialize_solution` with a vector every degree of freedom of variable `i` has entry `i`. -/
theorem C201_constant_partial {P : Type} (k : Kind) (pre : List Char) (ty : Nat) (sol : List ℝ) (hs : sol.length = k.names.length) : ∃ vars s, k.init [] pre ty = .ok (vars, s) ∧
    ∀ (i v : Nat) (x : ℝ), vars[i]? = some v → sol[i]? = some x → ∀ p : P, initConst s vars sol v p = .ok x := by
  refine ⟨_, _, C201_variables k [] pre ty (by intro v hv; cases hv), fun i v x hv hx p => ?_⟩
  have hi : i < k.names.length := by
    by_contra hc
    rw [List.getElem?_eq_none (by simp; omega)] at hv
    cases hv
  obtain rfl : i = v := by simpa [hi] using hv
  unfold initConst project
  rw [if_pos (by simpa using hs), if_pos (by simpa [Kind.vars] using hi), hx]

/-- C201 (the same restriction): after `initialize_solution` with a function every degree of freedom of variable `i` at a point has the entry `i` of its value there, and zero where the function writes nothing. -/
theorem C201_field_partial {P : Type} (k : Kind) (pre : List Char) (ty : Nat) (f : P → Nat → Option ℝ) : ∃ vars s, k.init [] pre ty = .ok (vars, s) ∧
    ∀ i v, vars[i]? = some v → ∀ p : P, initField s vars f v p = .ok ((f p i).getD 0) := by
  refine ⟨_, _, C201_variables k [] pre ty (by intro v hv; cases hv), fun i v hv p => ?_⟩
  have hi : i < k.names.length := by
    by_contra hc
    rw [List.getElem?_eq_none (by simp; omega)] at hv
    cases hv
  obtain rfl : i = v := by simpa [hi] using hv
  unfold initField project filled
  rw [if_pos (by simpa [Kind.vars] using hi)]
  simp [hi]

/-- C201: a vector of another size is refused in debug builds. -/
theorem C201_size {P : Type} (s : Sys) (vars : List Nat) (sol : List ℝ) (h : sol.length ≠ vars.length) (v : Nat) (p : P) : initConst s vars sol v p = .error .assertFail := by
  unfold initConst; rw [if_neg h]

/-- C201 (violated): in a system that already has a variable, the initial temperature goes to that variable, and the degrees of freedom of the temperature read outside of the vector. -/
theorem C201_initial_fails : ∃ (s : Sys) (vars : List Nat), Kind.heat.init [("a".toList, 0)] "h".toList 0 = .ok (vars, s) ∧ vars = [1] ∧
    (∀ p : ℝ, initConst s vars [300] 0 p = .ok 300) ∧ (∀ p : ℝ, initConst s vars [300] 1 p = .error .ub) ∧ ∀ (f : ℝ → Nat → Option ℝ) (p : ℝ), initField s vars f 1 p = .error .ub :=
  ⟨[("a".toList, 0), ("h_T".toList, 0)], [1], rfl, rfl, fun _ => by simp [initConst, project], fun _ => by simp [initConst, project], fun _ _ => by simp [initField, project, filled]⟩

/-- Non-vacuity of C201: a structure in a system with another variable, and a flow in the plane. -/
example : Fresh .structural [("p".toList, 0)] "p".toList ∧ Kind.structural.init [("p".toList, 0)] "p".toList 1 = .ok ([1, 2, 3, 4, 5, 6], ("p".toList, 0) :: Kind.structural.vars "p".toList 1) ∧
    (Kind.fluid 1).init [] "f".toList 1 = .ok ([0, 1, 2, 3], (Kind.fluid 1).vars "f".toList 1) ∧ Kind.heat.init (Kind.heat.vars "h".toList 0) "h".toList 1 = .error .error :=
  ⟨by unfold Fresh; decide, rfl, rfl, rfl⟩

end Verif.SysInit
