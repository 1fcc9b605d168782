import Verif.Model.Lifecycle
/-
  C21 operation marker, C23 participating elements, C24 assembly attachments, C25 mesh field function.
-/
namespace Verif.Life
open Verif

/-! ### C21 -/

/-- Specification: a call-back of a call of kind `k` with operations `o` must see exactly `(k, o)`. -/
def expectedTrace : List (Kind × Nat) → List Obs
  | [] => []
  | (k, o) :: cs => (some k, some o) :: (some k, some o) :: expectedTrace cs

/-- A flat, non-throwing call. -/
def flat (c : Kind × Nat) : Call := .mk c.1 c.2 [] false

theorem runCall_nested (s : State) (hop : s.op.isSome) (c : Call) :
    runCall true s c = (s, [], some .assertFail) := by
  cases c
  simp [runCall, hop]

/-- C21 (debug build): if a sequence of solve calls (each possibly containing nested calls or throwing) on a fresh system
completes, then no call was nested and none threw, every call-back saw the marker and element operations of its
own call, and afterwards marker and attachment are clear again. -/
theorem C21_marker (cs : List Call) (s' : State) (tr : List Obs) (h : runCalls true {} cs = (s', tr, none)) :
    ∃ fs : List (Kind × Nat), cs = fs.map flat ∧ s' = {} ∧ tr = expectedTrace fs := by
  induction cs generalizing s' tr with
  | nil =>
    simp only [runCalls, Prod.mk.injEq] at h
    exact ⟨[], rfl, h.1.symm, h.2.1.symm⟩
  | cons c cs ih =>
    obtain ⟨k, o, body, thr⟩ := c
    cases body with
    | cons b bs =>
      have hb := runCall_nested { op := some k, elemOps := some o } rfl b
      simp [runCalls, runCall, hb] at h
    | nil =>
      cases thr with
      | true => simp [runCalls, runCall] at h
      | false =>
        simp only [runCalls, runCall] at h
        simp only [Option.isSome_none, Bool.and_false, Bool.false_eq_true, if_false] at h
        cases hr : runCalls true {} cs with
        | mk s2 r =>
          obtain ⟨tr2, e2⟩ := r
          rw [hr] at h
          simp only [Prod.mk.injEq] at h
          obtain ⟨rfl, rfl, rfl⟩ := h
          obtain ⟨fs, rfl, h2, rfl⟩ := ih _ _ hr
          exact ⟨(k, o) :: fs, rfl, h2, rfl⟩

/-- C21: conversely every flat sequence of solve calls completes, in debug and release builds, from a fresh system. -/
theorem C21_flat_completes (dbg : Bool) (fs : List (Kind × Nat)) :
    runCalls dbg {} (fs.map flat) = ({}, expectedTrace fs, none) := by
  induction fs with
  | nil => rfl
  | cons f fs ih =>
    obtain ⟨k, o⟩ := f
    simp [runCalls, runCall, flat] at ih ⊢
    rw [ih]
    simp [expectedTrace]

/-- C21: a solve call made from a call-back of another one is rejected in debug builds. -/
theorem C21_nested_rejected (k : Kind) (o : Nat) (b : Call) (bs : List Call) (thr : Bool) :
    (runCall true {} (.mk k o (b :: bs) thr)).2.2 = some .assertFail := by
  have hb := runCall_nested { op := some k, elemOps := some o } rfl b
  simp [runCall, runCalls, hb]

/-- C21 is violated in release builds: a nested call is not rejected and resets marker and attachment, so the rest of the outer
call runs with marker `NONE` and no element operations. -/
theorem C21_release_nested_fails (k k2 : Kind) (o o2 : Nat) :
    runCall false {} (.mk k o [.mk k2 o2 [] false] false) =
      ({}, [(some k, some o), (some k2, some o2), (some k2, some o2), (none, none)], none) := by
  simp [runCall, runCalls]

/-- C21 is violated at crash points: if a solve throws, the marker and the attachment stay set, and every later solve call on
the system is rejected (debug). -/
theorem C21_exception_sticks_fails (dbg : Bool) (k : Kind) (o : Nat) (c : Call) :
    runCall dbg {} (.mk k o [] true) = ({ op := some k, elemOps := some o }, [(some k, some o)], some .error) ∧
    (runCall true (runCall dbg {} (.mk k o [] true)).1 c).2.2 = some .assertFail := by
  have h1 : runCall dbg {} (.mk k o [] true) =
      ({ op := some k, elemOps := some o }, [(some k, some o)], some .error) := by
    simp [runCall, runCalls]
  refine ⟨h1, ?_⟩
  rw [h1, runCall_nested _ rfl]

example : ∃ s' tr, runCalls true {} [flat (.nonlinearSolve, 1), flat (.adjointSolve, 2)] = (s', tr, none) ∧
    tr.length = 4 := ⟨_, _, rfl, rfl⟩

/-! ### C24 -/

/-- Specification of one attachment slot over a history: `setp`/`clrp` recognise the set and clear calls. -/
def slotAfter (setp : AOp → Option Nat) (clrp : AOp → Bool) : Option Nat → List AOp → Option Nat
  | cur, [] => cur
  | cur, o :: os =>
    slotAfter setp clrp (match setp o with | some x => some x | none => if clrp o then none else cur) os

/-- Specification: a debug history is legal for a slot if no set call happens while the slot is occupied. -/
def slotLegal (setp : AOp → Option Nat) (clrp : AOp → Bool) : Option Nat → List AOp → Prop
  | _, [] => True
  | cur, o :: os =>
    (match setp o with | some _ => cur = none | none => True) ∧
    slotLegal setp clrp (match setp o with | some x => some x | none => if clrp o then none else cur) os

def elemSet : AOp → Option Nat | .setElemOps o => some o | _ => none
def elemClr : AOp → Bool | .clearElemOps => true | _ => false
def sysSet : AOp → Option Nat | .setDisciplineSystem _ s => some s | _ => none
def sysClr : AOp → Bool | .clearDisciplineSystem => true | _ => false
def monSet : AOp → Option Nat | .setMonitor m => some m | _ => none
def monClr : AOp → Bool | .clearMonitor => true | _ => false
def depSet : AOp → Option Nat | .attachParamDep p => some p | _ => none
/-- `clear_discipline_and_system` also drops the parameter-dependence object. -/
def depClr : AOp → Bool | .clearParamDep => true | .clearDisciplineSystem => true | _ => false
def solSet : AOp → Option Nat | .attachSolFunction p => some p | _ => none
def solClr : AOp → Bool | .detachSolFunction => true | _ => false

/-- discipline and system are attached together -/
def Asm.Paired (a : Asm) : Prop := a.discipline.isSome = a.system.isSome

theorem astep_spec {dbg a o a'} (h : astep dbg a o = .ok a') (hp : a.Paired) :
    a'.Paired ∧
    (a'.elemOps = match elemSet o with | some x => some x | none => if elemClr o then none else a.elemOps) ∧
    (a'.system = match sysSet o with | some x => some x | none => if sysClr o then none else a.system) ∧
    (a'.monitor = match monSet o with | some x => some x | none => if monClr o then none else a.monitor) ∧
    (a'.paramDep = match depSet o with | some x => some x | none => if depClr o then none else a.paramDep) ∧
    (a'.solFunction = match solSet o with | some x => some x | none => if solClr o then none else a.solFunction) := by
  unfold Asm.Paired at *
  cases o <;> simp only [astep] at h <;> (try split at h) <;> cases h <;>
    simp [elemSet, elemClr, sysSet, sysClr, monSet, monClr, depSet, depClr, solSet, solClr, hp]

theorem arun_cons {dbg a o os a'} (h : arun dbg a (o :: os) = .ok a') :
    ∃ a1, astep dbg a o = .ok a1 ∧ arun dbg a1 os = .ok a' := by
  simp only [arun, bind, Except.bind] at h
  split at h
  · contradiction
  · exact ⟨_, by assumption, h⟩

/-- C24: after any completed history of attachment calls (any build), what is attached in each slot is what the last
set/clear call of that slot left there; clearing discipline and system also detaches the parameter-dependence object. -/
theorem C24_attached (dbg : Bool) (os : List AOp) (a a' : Asm) (hp : a.Paired) (h : arun dbg a os = .ok a') :
    a'.elemOps = slotAfter elemSet elemClr a.elemOps os ∧
    a'.system = slotAfter sysSet sysClr a.system os ∧
    a'.monitor = slotAfter monSet monClr a.monitor os ∧
    a'.paramDep = slotAfter depSet depClr a.paramDep os ∧
    a'.solFunction = slotAfter solSet solClr a.solFunction os ∧
    a'.Paired := by
  induction os generalizing a with
  | nil => cases h; exact ⟨rfl, rfl, rfl, rfl, rfl, hp⟩
  | cons o os ih =>
    obtain ⟨a1, h1, h2⟩ := arun_cons h
    have s := astep_spec h1 hp
    have r := ih a1 s.1 h2
    simp only [slotAfter]
    rw [← s.2.1, ← s.2.2.1, ← s.2.2.2.1, ← s.2.2.2.2.1, ← s.2.2.2.2.2]
    exact r

/-- C24: a debug history completes iff no set call finds its slot occupied. -/
theorem C24_debug_legal (os : List AOp) (a : Asm) (hp : a.Paired) :
    (∃ a', arun true a os = .ok a') ↔
      slotLegal elemSet elemClr a.elemOps os ∧ slotLegal sysSet sysClr a.system os ∧
      slotLegal monSet monClr a.monitor os ∧ slotLegal depSet depClr a.paramDep os ∧
      slotLegal solSet solClr a.solFunction os := by
  induction os generalizing a with
  | nil => simp [arun, slotLegal]
  | cons o os ih =>
    have key : (∃ a1, astep true a o = .ok a1) ↔
        (match elemSet o with | some _ => a.elemOps = none | none => True) ∧
        (match sysSet o with | some _ => a.system = none | none => True) ∧
        (match monSet o with | some _ => a.monitor = none | none => True) ∧
        (match depSet o with | some _ => a.paramDep = none | none => True) ∧
        (match solSet o with | some _ => a.solFunction = none | none => True) := by
      unfold Asm.Paired at hp
      cases o <;> simp [astep, elemSet, sysSet, monSet, depSet, solSet]
      case setDisciplineSystem d s =>
        rw [hp]
        cases a.system <;> simp
      case setElemOps o => cases a.elemOps <;> simp
      case setMonitor o => cases a.monitor <;> simp
      case attachParamDep o => cases a.paramDep <;> simp
      case attachSolFunction o => cases a.solFunction <;> simp
    constructor
    · rintro ⟨a', h⟩
      obtain ⟨a1, h1, h2⟩ := arun_cons h
      have s := astep_spec h1 hp
      have k := key.1 ⟨a1, h1⟩
      have r := (ih a1 s.1).1 ⟨a', h2⟩
      simp only [slotLegal]
      rw [← s.2.1, ← s.2.2.1, ← s.2.2.2.1, ← s.2.2.2.2.1, ← s.2.2.2.2.2]
      exact ⟨⟨k.1, r.1⟩, ⟨k.2.1, r.2.1⟩, ⟨k.2.2.1, r.2.2.1⟩, ⟨k.2.2.2.1, r.2.2.2.1⟩, ⟨k.2.2.2.2, r.2.2.2.2⟩⟩
    · intro h
      simp only [slotLegal] at h
      obtain ⟨a1, h1⟩ := key.2 ⟨h.1.1, h.2.1.1, h.2.2.1.1, h.2.2.2.1.1, h.2.2.2.2.1⟩
      have s := astep_spec h1 hp
      rw [← s.2.1, ← s.2.2.1, ← s.2.2.2.1, ← s.2.2.2.2.1, ← s.2.2.2.2.2] at h
      obtain ⟨a', h2⟩ := (ih a1 s.1).2 ⟨h.1.2, h.2.1.2, h.2.2.1.2, h.2.2.2.1.2, h.2.2.2.2.2⟩
      exact ⟨a', by simp [arun, h1, h2, bind, Except.bind]⟩

/-- C24: set followed by clear restores the state, for element operations and for discipline/system (the latter also resets
`close_matrix` and the parameter-dependence object, hence equality from the fresh state). -/
theorem C24_set_clear_restores (dbg : Bool) (a : Asm) (o : Nat) (h : a.elemOps = none) :
    arun dbg a [.setElemOps o, .clearElemOps] = .ok a ∧
    ∀ d s, arun dbg {} [.setDisciplineSystem d s, .clearDisciplineSystem] = .ok {} := by
  constructor
  · obtain ⟨d, s, e, m, p, f, c⟩ := a
    simp at h; subst h
    simp [arun, astep, bind, Except.bind]
  · intro d s
    simp [arun, astep, bind, Except.bind]

/-- C24: assembling without discipline, system or element operations is rejected (debug) / a null dereference (release);
with all three attached it proceeds. -/
theorem C24_assembly_needs_attachments (dbg : Bool) (a : Asm) :
    (residualEntry dbg a = .ok () ↔ a.system ≠ none ∧ a.discipline ≠ none ∧ a.elemOps ≠ none) ∧
    (residualEntry dbg a ≠ .ok () → residualEntry dbg a = .error (if dbg then .assertFail else .ub)) := by
  unfold residualEntry
  obtain ⟨d, s, e, m, p, f, c⟩ := a
  cases d <;> cases s <;> cases e <;> simp

example : ∃ a', arun true {} [.setDisciplineSystem 1 2, .setElemOps 3, .clearElemOps, .setElemOps 4] = .ok a' ∧
    a'.elemOps = some 4 ∧ residualEntry true a' = .ok () := ⟨_, rfl, rfl, rfl⟩

/-! ### C23 -/

/-- Specification: what the element-selection calls of a history ask for; in debug builds a selection may only be replaced while it is
empty, so the last call decides. -/
inductive Selection where
  | nothing | all | subdomains (s : List Nat) | elements (e : List Nat)

def lastSelection : Selection → List OOp → Selection
  | cur, [] => cur
  | _, .setAll :: os => lastSelection .all os
  | _, .setSubdomains s :: os => lastSelection (.subdomains s) os
  | _, .setElements e :: os => lastSelection (.elements e) os
  | cur, .setBoundaries _ :: os => lastSelection cur os

/-- Specification: the element itself is selected. -/
def Selection.selects : Selection → Elem → Prop
  | .nothing, _ => False
  | .all, _ => True
  | .subdomains s, e => e.subdomain ∈ s
  | .elements s, e => e.id ∈ s

/-- What the code implements for element sets: the set is searched for the parent if there is one. -/
def Selection.selectsCode : Selection → Elem → Prop
  | .elements s, e => e.parent.getD e.id ∈ s
  | sel, e => sel.selects e

/-- State reached in a debug build with selection `sel`. -/
def Out.Matches (o : Out) : Selection → Prop
  | .nothing => o.all = false ∧ o.subdomains = [] ∧ o.elems = []
  | .all => o.all = true ∧ o.subdomains = [] ∧ o.elems = []
  | .subdomains s => o.all = false ∧ o.subdomains = s ∧ o.elems = []
  | .elements s => o.all = false ∧ o.subdomains = [] ∧ o.elems = s

theorem orun_cons {dbg o c cs o'} (h : orun dbg o (c :: cs) = .ok o') :
    ∃ o1, ostep dbg o c = .ok o1 ∧ orun dbg o1 cs = .ok o' := by
  simp only [orun, bind, Except.bind] at h
  split at h
  · contradiction
  · exact ⟨_, by assumption, h⟩

theorem orun_matches (cs : List OOp) (o o' : Out) (sel : Selection) (hm : o.Matches sel)
    (h : orun true o cs = .ok o') : o'.Matches (lastSelection sel cs) := by
  induction cs generalizing o sel with
  | nil => cases h; exact hm
  | cons c cs ih =>
    obtain ⟨o1, h1, h2⟩ := orun_cons h
    cases c with
    | setAll =>
      simp only [ostep] at h1
      split at h1
      · contradiction
      · rename_i hc
        cases h1
        refine ih _ _ ?_ h2
        simp at hc
        exact ⟨rfl, hc.1, hc.2⟩
    | setSubdomains s =>
      simp only [ostep] at h1
      split at h1
      · contradiction
      · rename_i hc
        cases h1
        refine ih _ _ ?_ h2
        simp at hc
        exact ⟨rfl, rfl, hc.2⟩
    | setElements s =>
      simp only [ostep] at h1
      split at h1
      · contradiction
      · rename_i hc
        cases h1
        refine ih _ _ ?_ h2
        simp at hc
        exact ⟨rfl, hc.1, rfl⟩
    | setBoundaries s =>
      simp only [ostep] at h1
      split at h1
      · contradiction
      · cases h1
        refine ih _ _ ?_ h2
        cases sel <;> exact hm

/-- C23 (debug builds, what the code does): after any completed history of selection calls an element is evaluated iff the last
selection selects it — where, for explicit element sets, the element is looked up under its *parent* if it has one. -/
theorem C23_evaluates_code (cs : List OOp) (o' : Out) (h : orun true {} cs = .ok o') (e : Elem) :
    ifEvaluateForElement o' e = true ↔ (lastSelection .nothing cs).selectsCode e := by
  have hm := orun_matches cs {} o' .nothing ⟨rfl, rfl, rfl⟩ h
  cases hl : lastSelection .nothing cs <;> rw [hl] at hm <;> obtain ⟨h1, h2, h3⟩ := hm <;>
    simp [ifEvaluateForElement, h1, h2, h3, Selection.selectsCode, Selection.selects]

/-- C23 (partial): for elements without a parent (level-0 elements of an unrefined mesh) evaluation is exactly selection. -/
theorem C23_evaluates_partial (cs : List OOp) (o' : Out) (h : orun true {} cs = .ok o') (e : Elem)
    (he : e.parent = none) :
    ifEvaluateForElement o' e = true ↔ (lastSelection .nothing cs).selects e := by
  rw [C23_evaluates_code cs o' h e]
  cases lastSelection .nothing cs <;> simp [Selection.selectsCode, Selection.selects, he]

/-- C23 is violated on refined meshes: an active child element that the user selected explicitly is not evaluated, because the
set is searched for its parent. -/
theorem C23_refined_element_fails :
    ∃ o', orun true {} [.setElements [7]] = .ok o' ∧ ∃ e : Elem, e.id = 7 ∧
      (lastSelection .nothing [.setElements [7]]).selects e ∧ ifEvaluateForElement o' e = false := by
  refine ⟨_, rfl, ⟨7, some 3, 0⟩, rfl, ?_, rfl⟩
  simp [lastSelection, Selection.selects]

/-- C23: in debug builds a non-empty subdomain or element selection is final: any further element-selection call is rejected. -/
theorem C23_exclusive (o : Out) (c : OOp) (h : o.subdomains ≠ [] ∨ o.elems ≠ [])
    (hc : ∀ b, c ≠ .setBoundaries b) : ostep true o c = .error .assertFail := by
  have : (!o.subdomains.isEmpty || !o.elems.isEmpty) = true := by
    rcases h with h | h <;> simp [h]
  cases c with
  | setBoundaries b => exact absurd rfl (hc b)
  | _ => simp only [ostep, this]; rfl

/-- C23: boundary evaluation happens iff one of the side's ids was selected. -/
theorem C23_boundary (o : Out) (ids : List Nat) :
    ifEvaluateForBoundary o ids = true ↔ ∃ b ∈ ids, b ∈ o.bids := by
  simp [ifEvaluateForBoundary]

/-- C23, sensitivity runs: an element is skipped exactly if it is in a diagonal subdomain, is not selected, or a
parameter-dependence object says that it is independent of the parameter and there is no solution sensitivity (or the override
is set). In particular without dependence object every selected element is evaluated. -/
theorem C23_sensitivity_skip (o : Out) (e : Elem) (diag : Bool) (dep : Option (Bool × Bool)) (hs : Bool) :
    evaluatesSensitivity o e diag dep hs = true ↔
      diag = false ∧ ifEvaluateForElement o e = true ∧
      ∀ d ov, dep = some (d, ov) → d = true ∨ (hs = true ∧ ov = false) := by
  unfold evaluatesSensitivity
  cases diag <;> cases hs <;> cases dep with
  | none => simp
  | some x => obtain ⟨d, ov⟩ := x; cases d <;> cases ov <;> simp

example : ∃ o', orun true {} [.setAll, .setSubdomains [2], .setBoundaries [5]] = .ok o' ∧
    ifEvaluateForElement o' ⟨1, none, 2⟩ = true ∧ ifEvaluateForElement o' ⟨1, none, 3⟩ = false ∧
    ifEvaluateForBoundary o' [4, 5] = true := ⟨_, rfl, rfl, rfl, rfl⟩

/-! ### C25 -/
variable {F V : Type}

/-- Specification: contents after a history — the field given to the last `init`, the field given to the last `init_sens` for
parameter `p`, both forgotten by `clear`; and whether a quadrature-point value is active. -/
def specField : Option F → List (MOp F V) → Option F
  | cur, [] => cur
  | _, .init f :: os => specField (some f) os
  | _, .clear :: os => specField none os
  | cur, _ :: os => specField cur os

def specSens (p : Nat) : Option F → List (MOp F V) → Option F
  | cur, [] => cur
  | cur, .initSens q f :: os => specSens p (if q = p then some f else cur) os
  | _, .clear :: os => specSens p none os
  | cur, _ :: os => specSens p cur os

def specQp : Option V → List (MOp F V) → Option V
  | cur, [] => cur
  | _, .setQp v :: os => specQp (some v) os
  | _, .clearQp :: os => specQp none os
  | _, .clear :: os => specQp none os
  | cur, _ :: os => specQp cur os

theorem mrun_cons {dbg} {m : MFF F V} {o os m'} (h : mrun dbg m (o :: os) = .ok m') :
    ∃ m1, mstep dbg m o = .ok m1 ∧ mrun dbg m1 os = .ok m' := by
  simp only [mrun, bind, Except.bind] at h
  split at h
  · contradiction
  · exact ⟨_, by assumption, h⟩

theorem lookup_filter_ne (l : List (Nat × F)) (p q : Nat) (h : p ≠ q) :
    (l.filter (fun e => e.1 != p)).lookup q = l.lookup q := by
  induction l with
  | nil => rfl
  | cons e l ih =>
    obtain ⟨a, b⟩ := e
    by_cases ha : a = p
    · subst ha
      have hq : (q == a) = false := by simpa using Ne.symm h
      simp [ih, List.lookup, hq]
    · have : (a != p) = true := by simpa using ha
      simp only [List.filter, this]
      cases hqa : (q == a) <;> simp [List.lookup, hqa, ih]

theorem mrun_spec (dbg : Bool) (os : List (MOp F V)) (m m' : MFF F V) (qp : Option V) (h : mrun dbg m os = .ok m')
    (hq : m.useQp = qp.isSome ∧ (∀ v, qp = some v → m.qpSol = some v)) (hpert : m.perturbed = none) :
    m'.function = specField m.function os ∧ (∀ p, m'.sens.lookup p = specSens p (m.sens.lookup p) os) ∧
    m'.useQp = (specQp qp os).isSome ∧ (∀ v, specQp qp os = some v → m'.qpSol = some v) ∧ m'.perturbed = none := by
  induction os generalizing m qp with
  | nil => cases h; exact ⟨rfl, fun _ => rfl, hq.1, hq.2, hpert⟩
  | cons o os ih =>
    obtain ⟨m1, h1, h2⟩ := mrun_cons h
    cases o with
    | init f =>
      simp only [mstep] at h1
      split at h1
      · contradiction
      · cases h1; exact ih _ qp h2 hq hpert
    | initSens q f =>
      simp only [mstep] at h1
      split at h1
      · contradiction
      · cases h1
        have r := ih _ qp h2 hq hpert
        refine ⟨r.1, fun p => ?_, r.2.2⟩
        rw [r.2.1 p]
        simp only [specSens]
        congr 1
        by_cases hp : q = p
        · subst hp; simp [List.lookup]
        · have hpq : (p == q) = false := by simpa using Ne.symm hp
          simp only [List.lookup, hpq, if_neg hp]
          exact lookup_filter_ne _ _ _ hp
    | clear =>
      cases h1
      exact ih _ none h2 ⟨rfl, by simp⟩ rfl
    | setQp v =>
      cases h1
      exact ih { m with useQp := true, qpSol := some v } (some v) h2 ⟨rfl, by simp⟩ hpert
    | clearQp =>
      cases h1
      exact ih { m with useQp := false } none h2 ⟨rfl, by simp⟩ hpert

/-- C25 (value): after any completed history `operator()` returns the active quadrature-point value, otherwise the field of
the last `init`, otherwise fails. -/
theorem C25_value (dbg : Bool) (os : List (MOp F V)) (m' : MFF F V) (h : mrun dbg {} os = .ok m') (eval : F → V) :
    value dbg m' eval = match specQp none os, specField none os with
      | some v, _ => .ok v
      | none, some f => .ok (eval f)
      | none, none => .error (if dbg then .assertFail else .ub) := by
  obtain ⟨h1, _, h3, h4, _⟩ := mrun_spec dbg os {} m' none h ⟨rfl, by simp⟩ rfl
  unfold value query
  rw [h1, h3]
  cases hq : specQp none os with
  | some v => simp [h4 v hq]
  | none => cases specField none os <;> simp

/-- C25 (partial: no quadrature-point value active): `derivative` returns the field given to `init_sens` for that parameter. -/
theorem C25_derivative_partial (dbg : Bool) (os : List (MOp F V)) (m' : MFF F V) (h : mrun dbg {} os = .ok m')
    (eval : F → V) (p : Nat) (hq : specQp none os = none) :
    derivative dbg m' eval p = match specSens p none os with
      | some f => .ok (eval f)
      | none => .error (if dbg then .assertFail else .ub) := by
  obtain ⟨_, h2, h3, _, _⟩ := mrun_spec dbg os {} m' none h ⟨rfl, by simp⟩ rfl
  unfold derivative query
  rw [h2 p, h3, hq]
  simp [List.lookup]
  cases specSens p none os <;> simp

/-- C25 is violated while a quadrature-point value is active: whatever sensitivity was stored, `derivative` (and
`perturbation`) return the *value*. -/
theorem C25_derivative_returns_value_fails (dbg : Bool) (os : List (MOp F V)) (m' : MFF F V)
    (h : mrun dbg {} os = .ok m') (eval : F → V) (p : Nat) (v : V) (hq : specQp none os = some v) :
    derivative dbg m' eval p = .ok v ∧ perturbation dbg m' eval = .ok v := by
  obtain ⟨_, _, h3, h4, _⟩ := mrun_spec dbg os {} m' none h ⟨rfl, by simp⟩ rfl
  unfold derivative perturbation query
  rw [h3, hq]
  simp [h4 v hq]

/-- C25 is violated for perturbations: nothing in the class ever stores a perturbation field, so without a quadrature-point value
`perturbation` always fails. -/
theorem C25_perturbation_never_available_fails (dbg : Bool) (os : List (MOp F V)) (m' : MFF F V)
    (h : mrun dbg {} os = .ok m') (eval : F → V) (hq : specQp none os = none) :
    perturbation dbg m' eval = .error (if dbg then .assertFail else .ub) := by
  obtain ⟨_, _, h3, _, h5⟩ := mrun_spec dbg os {} m' none h ⟨rfl, by simp⟩ rfl
  unfold perturbation query
  rw [h3, hq, h5]
  simp

example : ∃ m' : MFF Nat Nat, mrun true {} [.init 3, .initSens 1 4, .setQp 100] = .ok m' ∧
    value true m' (· + 10) = .ok 100 ∧ derivative true m' (· + 10) 1 = .ok 100 := ⟨_, rfl, rfl, rfl⟩
example : ∃ m' : MFF Nat Nat, mrun true {} [.init 3, .initSens 1 4, .setQp 100, .clearQp] = .ok m' ∧
    value true m' (· + 10) = .ok 13 ∧ derivative true m' (· + 10) 1 = .ok 14 := ⟨_, rfl, rfl, rfl⟩

end Verif.Life
