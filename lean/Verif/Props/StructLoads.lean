import Verif.Model.StructLoads
import Verif.Props.GeomDof
import Mathlib.Analysis.Calculus.Deriv.Add
import Mathlib.Analysis.Calculus.Deriv.Mul
import Mathlib.Algebra.BigOperators.Group.List.Basic
/-
  C113: every load attached to a side or to the subdomain of a structural element contributes exactly once, unsupported loads are refused, and the sensitivity treats the same loads.
-/
namespace Verif.StructLoads
open Verif.GeomElem

/-! ### Specification -/
section Spec
variable {L V : Type}

/-- The pairs (side, load): for each side, each boundary id of the side and each load registered for this id. -/
def attachedSide (nSides : Nat) (ids : Nat → List Nat) (bc : List (Nat × L)) : List (Nat × L) :=
  (List.range nSides).flatMap fun s => (ids s).flatMap fun b => bc.filterMap fun e => if e.1 = b then some (s, e.2) else none

/-- The loads registered for the subdomain. -/
def attachedVol (sid : Nat) (bc : List (Nat × L)) : List L := bc.filterMap fun e => if e.1 = sid then some e.2 else none

/-- Loads a structural element carries on its sides. -/
def SideLoad (k : Kind) : Prop := k = .surfacePressure ∨ k = .surfaceTraction ∨ k = .surfaceTractionShifted ∨ k = .pistonTheory
/-- Conditions on sides that are not loads of the element. -/
def SideOther (k : Kind) : Prop := k = .dirichlet ∨ k = .boundaryVelocity
/-- Loads a structural element carries on its domain. -/
def VolLoad (k : Kind) : Prop := k = .surfacePressure ∨ k = .pistonTheory ∨ k = .temperature
instance : DecidablePred SideLoad := fun k => by unfold SideLoad; infer_instance
instance : DecidablePred SideOther := fun k => by unfold SideOther; infer_instance
instance : DecidablePred VolLoad := fun k => by unfold VolLoad; infer_instance
end Spec

/-! ### Loops -/

variable {L V : Type}

theorem foldl_none [Add V] (act : Kind → Act) (kind : L → Kind) (r : L → V) (l : List L) : l.foldl (step act kind r) none = none := by
  induction l with
  | nil => rfl
  | cons a l ih => simpa [List.foldl, step] using ih

theorem foldl_step [AddCommMonoid V] (act : Kind → Act) (kind : L → Kind) (r : L → V) (l : List L) (f : V) :
    l.foldl (step act kind r) (some f) = if ∀ x ∈ l, act (kind x) ≠ .error then some (f + (l.map fun x => if act (kind x) = .add then r x else 0).sum) else none := by
  induction l generalizing f with
  | nil => simp
  | cons a l ih =>
    rw [List.foldl_cons]
    cases h : act (kind a) with
    | add =>
      have : step act kind r (some f) a = some (f + r a) := by simp [step, h]
      rw [this, ih]; simp [h, add_assoc]
    | skip =>
      have : step act kind r (some f) a = some f := by simp [step, h]
      rw [this, ih]; simp [h]
    | error =>
      have : step act kind r (some f) a = none := by simp [step, h]
      rw [this, foldl_none, if_neg]; intro hh; exact hh a (by simp) h

theorem filter_isEmpty_foldl {S : Type} (g : S → Nat × List L → S) (h0 : ∀ s i, g s (i, []) = s) (l : List (Nat × List L)) (s : S) :
    (l.filter fun e => !e.2.isEmpty).foldl g s = l.foldl g s := by
  induction l generalizing s with
  | nil => rfl
  | cons a l ih =>
    obtain ⟨i, ls⟩ := a
    cases ls with
    | nil => simpa [List.filter, h0] using ih s
    | cons x xs => simpa [List.filter] using ih _

theorem sideLoop_eq [Add V] (act : Kind → Act) (kind : L → Kind) (r : Nat → L → V) (nSides : Nat) (ids : Nat → List Nat) (bc : List (Nat × L)) (f : V) :
    sideLoop act kind r nSides ids bc f = (attachedSide nSides ids bc).foldl (step act (fun e : Nat × L => kind e.2) (fun e => r e.1 e.2)) (some f) := by
  unfold sideLoop sideLoads attachedSide
  rw [filter_isEmpty_foldl (fun f e => e.2.foldl (step act kind (r e.1)) f) (by intros; rfl), List.foldl_flatMap, List.foldl_map]
  congr 1
  funext g s
  have key : ∀ (bs : List Nat), (bs.flatMap fun b => (bc.filter fun e => e.1 == b).map fun e => e.2) = (bs.flatMap fun b => bc.filterMap fun e => if e.1 = b then some (s, e.2) else none).map Prod.snd := by
    intro bs
    induction bs with
    | nil => rfl
    | cons b bs ih =>
      rw [List.flatMap_cons, List.flatMap_cons, List.map_append, ih]
      congr 1
      clear ih
      induction bc with
      | nil => rfl
      | cons e bc ih2 => by_cases h : e.1 = b <;> simp [h, ih2]
  rw [key, List.foldl_map]
  have hs : ∀ e ∈ ((ids s).flatMap fun b => bc.filterMap fun e => if e.1 = b then some (s, e.2) else none), e.1 = s := by
    intro e he
    simp only [List.mem_flatMap, List.mem_filterMap] at he
    obtain ⟨b, _, x, _, hx⟩ := he
    split at hx
    · simp at hx; rw [← hx]
    · simp at hx
  revert hs
  generalize ((ids s).flatMap fun b => bc.filterMap fun e => if e.1 = b then some (s, e.2) else none) = l
  intro hs
  induction l generalizing g with
  | nil => rfl
  | cons a l ih =>
    simp only [List.foldl_cons]
    have ha := hs a (by simp)
    have : step act kind (r s) g a.2 = step act (fun e : Nat × L => kind e.2) (fun e => r e.1 e.2) g a := by
      simp only [step, ha]
    rw [this]; exact ih _ (fun e he => hs e (by simp [he]))

/-- Residual of the sides: refused exactly when a load of another kind is attached, otherwise the sum over all attached loads of the routine of its kind. -/
theorem C113_side [AddCommMonoid V] (kind : L → Kind) (r : Nat → L → V) (nSides : Nat) (ids : Nat → List Nat) (bc : List (Nat × L)) (f : V) :
    sideLoop sideAct kind r nSides ids bc f = if ∀ e ∈ attachedSide nSides ids bc, SideLoad (kind e.2) ∨ SideOther (kind e.2)
      then some (f + ((attachedSide nSides ids bc).map fun e => if SideLoad (kind e.2) then r e.1 e.2 else 0).sum) else none := by
  rw [sideLoop_eq, foldl_step]
  have h1 : ∀ k, sideAct k ≠ .error ↔ SideLoad k ∨ SideOther k := by intro k; cases k <;> simp [sideAct, SideLoad, SideOther]
  have h2 : ∀ k, sideAct k = .add ↔ SideLoad k := by intro k; cases k <;> simp [sideAct, SideLoad]
  simp only [h1, h2]

/-- Residual of the domain. -/
theorem C113_volume [AddCommMonoid V] (kind : L → Kind) (r : L → V) (sid : Nat) (bc : List (Nat × L)) (f : V) :
    volLoop volAct kind r sid bc f = if ∀ l ∈ attachedVol sid bc, VolLoad (kind l) then some (f + ((attachedVol sid bc).map r).sum) else none := by
  have hl : ((bc.filter fun e => e.1 == sid).map fun e => e.2) = attachedVol sid bc := by
    unfold attachedVol
    induction bc with
    | nil => rfl
    | cons e bc ih => by_cases h : e.1 = sid <;> simp [h, ih]
  unfold volLoop
  rw [hl, foldl_step]
  have h1 : ∀ k, volAct k ≠ .error ↔ VolLoad k := by intro k; cases k <;> simp [volAct, VolLoad]
  have h2 : ∀ k, volAct k = .add ↔ VolLoad k := by intro k; cases k <;> simp [volAct, VolLoad]
  simp only [h1, h2]
  by_cases h : ∀ l ∈ attachedVol sid bc, VolLoad (kind l)
  · rw [if_pos h, if_pos h]
    congr 2
    refine congrArg _ (List.map_congr_left fun l hl => ?_)
    rw [if_pos (h l hl)]
  · rw [if_neg h, if_neg h]

/-- The sensitivity loops accept exactly the loads the residual loops accept, and if each routine of the sensitivity is the derivative of the routine of the residual, so is the result. -/
theorem C113_sensitivity {n : Nat} (kind : L → Kind) (r : ℝ → Nat → L → Dof n → ℝ) (dr : Nat → L → Dof n → ℝ) (t0 : ℝ) (hr : ∀ s l a, SideLoad (kind l) → HasDerivAt (fun t => r t s l a) (dr s l a) t0)
    (nSides : Nat) (ids : Nat → List Nat) (bc : List (Nat × L)) (f : Dof n → ℝ) :
    (∀ t, (sideLoop sideSensAct kind dr nSides ids bc 0).isSome = (sideLoop sideAct kind (r t) nSides ids bc f).isSome) ∧
    ∀ G, sideLoop sideSensAct kind dr nSides ids bc 0 = some G → ∃ F : ℝ → Dof n → ℝ, (∀ t, sideLoop sideAct kind (r t) nSides ids bc f = some (F t)) ∧ ∀ a, HasDerivAt (fun t => F t a) (G a) t0 := by
  have hs : sideSensAct = sideAct := by funext k; cases k <;> rfl
  have hd := C113_side kind dr nSides ids bc 0
  rw [← hs] at hd
  constructor
  · intro t
    rw [hd, C113_side]
    by_cases h : ∀ e ∈ attachedSide nSides ids bc, SideLoad (kind e.2) ∨ SideOther (kind e.2)
    · rw [if_pos h, if_pos h]; rfl
    · rw [if_neg h, if_neg h]
  · intro G hG
    rw [hd] at hG
    by_cases h : ∀ e ∈ attachedSide nSides ids bc, SideLoad (kind e.2) ∨ SideOther (kind e.2)
    · rw [if_pos h] at hG
      refine ⟨fun t => f + ((attachedSide nSides ids bc).map fun e => if SideLoad (kind e.2) then r t e.1 e.2 else 0).sum, fun t => by rw [C113_side, if_pos h], fun a => ?_⟩
      simp only [zero_add, Option.some.injEq] at hG
      subst hG
      clear hd h
      simp only [Pi.add_apply]
      refine HasDerivAt.const_add (f a) ?_
      induction attachedSide nSides ids bc with
      | nil => simpa using hasDerivAt_const t0 (0:ℝ)
      | cons e l ih =>
        simp only [List.map_cons, List.sum_cons, Pi.add_apply]
        refine HasDerivAt.add ?_ ih
        by_cases hk : SideLoad (kind e.2)
        · simp only [if_pos hk]; exact hr _ _ _ hk
        · simp only [if_neg hk, Pi.zero_apply]; exact hasDerivAt_const _ _
    · rw [if_neg h] at hG; exact absurd hG (by simp)

/-- The same for the loads of the domain. -/
theorem C113_volume_sensitivity {n : Nat} (kind : L → Kind) (r : ℝ → L → Dof n → ℝ) (dr : L → Dof n → ℝ) (t0 : ℝ) (hr : ∀ l a, VolLoad (kind l) → HasDerivAt (fun t => r t l a) (dr l a) t0)
    (sid : Nat) (bc : List (Nat × L)) (f : Dof n → ℝ) :
    (∀ t, (volLoop volSensAct kind dr sid bc 0).isSome = (volLoop volAct kind (r t) sid bc f).isSome) ∧
    ∀ G, volLoop volSensAct kind dr sid bc 0 = some G → ∃ F : ℝ → Dof n → ℝ, (∀ t, volLoop volAct kind (r t) sid bc f = some (F t)) ∧ ∀ a, HasDerivAt (fun t => F t a) (G a) t0 := by
  have hs : volSensAct = volAct := by funext k; cases k <;> rfl
  have hd := C113_volume kind dr sid bc 0
  rw [← hs] at hd
  constructor
  · intro t
    rw [hd, C113_volume]
    by_cases h : ∀ l ∈ attachedVol sid bc, VolLoad (kind l)
    · rw [if_pos h, if_pos h]; rfl
    · rw [if_neg h, if_neg h]
  · intro G hG
    rw [hd] at hG
    by_cases h : ∀ l ∈ attachedVol sid bc, VolLoad (kind l)
    · rw [if_pos h] at hG
      refine ⟨fun t => f + ((attachedVol sid bc).map (r t)).sum, fun t => by rw [C113_volume, if_pos h], fun a => ?_⟩
      simp only [zero_add, Option.some.injEq] at hG
      subst hG
      clear hd
      simp only [Pi.add_apply]
      refine HasDerivAt.const_add (f a) ?_
      revert h
      generalize attachedVol sid bc = l
      intro h
      induction l with
      | nil => simpa using hasDerivAt_const t0 (0:ℝ)
      | cons e l ih =>
        simp only [List.map_cons, List.sum_cons, Pi.add_apply]
        exact HasDerivAt.add (hr _ _ (h e (by simp))) (ih fun x hx => h x (by simp [hx]))
    · rw [if_neg h] at hG; exact absurd hG (by simp)

/-- The linearised and the boundary velocity loops never accept a load that the residual refuses. -/
theorem C113_accepted (k : Kind) : (sideLinAct k ≠ .error → sideAct k ≠ .error) ∧ (sideFreqAct k ≠ .error → sideAct k ≠ .error) ∧ (volLinAct k ≠ .error → volAct k ≠ .error) ∧
    (volFreqAct k ≠ .error → volAct k ≠ .error) ∧ (volVelAct k ≠ .error → volAct k ≠ .error) := by
  cases k <;> simp [sideLinAct, sideAct, sideFreqAct, volLinAct, volAct, volFreqAct, volVelAct]

/-- Findings: loads of the residual are refused by the linearised loops and by the boundary velocity loop, whatever else the element carries: a pressure or traction on a side has no time domain linearisation,
piston theory has neither a linearisation nor a boundary velocity term, and temperature has none in the frequency domain. -/
theorem C113_linearized_fails : ∃ k1 k2 k3, SideLoad k1 ∧ VolLoad k2 ∧ VolLoad k3 ∧
    (∀ (L V : Type) [AddCommMonoid V] (kind : L → Kind) (r : Nat → L → V) (nSides : Nat) (ids : Nat → List Nat) (bc : List (Nat × L)) (f : V),
      (∃ e ∈ attachedSide nSides ids bc, kind e.2 = k1) → sideLoop sideLinAct kind r nSides ids bc f = none) ∧
    (∀ (L V : Type) [AddCommMonoid V] (kind : L → Kind) (r : L → V) (sid : Nat) (bc : List (Nat × L)) (f : V), (∃ l ∈ attachedVol sid bc, kind l = k2) →
      volLoop volLinAct kind r sid bc f = none ∧ volLoop volVelAct kind r sid bc f = none ∧ volLoop volFreqAct kind r sid bc f = none) ∧
    (∀ (L V : Type) [AddCommMonoid V] (kind : L → Kind) (r : L → V) (sid : Nat) (bc : List (Nat × L)) (f : V), (∃ l ∈ attachedVol sid bc, kind l = k3) → volLoop volFreqAct kind r sid bc f = none) := by
  have hl : ∀ {L : Type} (sid : Nat) (bc : List (Nat × L)), ((bc.filter fun e => e.1 == sid).map fun e => e.2) = attachedVol sid bc := by
    intro L sid bc
    unfold attachedVol
    induction bc with
    | nil => rfl
    | cons e bc ih => by_cases h : e.1 = sid <;> simp [h, ih]
  refine ⟨.surfacePressure, .pistonTheory, .temperature, by simp [SideLoad], by simp [VolLoad], by simp [VolLoad], ?_, ?_, ?_⟩
  · rintro L V _ kind r nSides ids bc f ⟨e, he, hk⟩
    rw [sideLoop_eq, foldl_step, if_neg]
    intro h; exact h e he (by rw [hk]; rfl)
  · rintro L V _ kind r sid bc f ⟨e, he, hk⟩
    unfold volLoop
    rw [hl, foldl_step, foldl_step, foldl_step, if_neg, if_neg, if_neg]
    · simp
    all_goals (intro h; exact h e he (by rw [hk]; rfl))
  · rintro L V _ kind r sid bc f ⟨e, he, hk⟩
    unfold volLoop
    rw [hl, foldl_step, if_neg]
    intro h; exact h e he (by rw [hk]; rfl)

/-- Two loads on id 7, of which sides 0 and 2 carry the id, and a Dirichlet condition: four contributions. -/
example : attachedSide 3 (fun s => if s = 1 then [4] else [7, 4]) [(7, Kind.surfacePressure), (7, Kind.surfaceTraction), (4, Kind.dirichlet), (5, Kind.temperature)] =
    [(0, .surfacePressure), (0, .surfaceTraction), (0, .dirichlet), (1, .dirichlet), (2, .surfacePressure), (2, .surfaceTraction), (2, .dirichlet)] ∧
    sideLoop (V := ℕ) sideAct id (fun s _ => s + 1) 3 (fun s => if s = 1 then [4] else [7, 4]) [(7, Kind.surfacePressure), (7, Kind.surfaceTraction), (4, Kind.dirichlet), (5, Kind.temperature)] 10 = some 18 ∧
    sideLoop (V := ℕ) sideAct id (fun s _ => s + 1) 3 (fun _ => [5]) [(5, Kind.temperature)] 10 = none := by decide

end Verif.StructLoads
