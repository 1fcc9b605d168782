import Mathlib.Algebra.BigOperators.Ring.Finset
import Mathlib.Tactic.Ring
import Mathlib.Tactic.NormNum
import Mathlib.Tactic.Linarith
import Verif.Model.ReducedOrder
import Verif.Props.Assembly
import Verif.Props.Buckling
/-
  C134: reduced order structural matrices and generalized aerodynamic forces.
-/
namespace Verif.ReducedOrder
open Verif Finset

noncomputable section

/-! ### Specification -/

/-- The element matrix a quantity stands for: coefficient of the acceleration, velocity or displacement in the linearised equation of motion (inertia, internal force, loads). -/
def physical (j : Jac) : Qty → Nat → Nat → ℝ
  | .mass => j.inertXddot
  | .damping => fun a b => j.inertXdot a b + j.sideXdot a b + j.volXdot a b
  | .stiffness => fun a b => j.internal a b + j.inertX a b + j.sideX a b + j.volX a b
  | _ => fun _ _ => 0

/-- The same for the total derivative: the internal force contributes its change with the displacement, too. -/
def physicalSens (j : Jac) : Qty → Nat → Nat → ℝ
  | .mass => j.inertXddot
  | .damping => fun a b => j.inertXdot a b + j.sideXdot a b + j.volXdot a b
  | .stiffness => fun a b => j.internal a b + j.stateDot a b + j.inertX a b + j.sideX a b + j.volX a b
  | _ => fun _ _ => 0

/-- The displacement of an element: the base solution at its dofs, zero without a base solution. -/
def stateOf (base : Option (Nat → ℝ)) (e : Elem) (a : Nat) : ℝ := base.elim 0 fun X => X (e.dof a)

theorem stateOf_eq (base : Option (Nat → ℝ)) (e : Elem) : stateOf base e = elemSol e base := by
  funext a; cases base <;> rfl

/-- Full matrix of the structure from element matrices. -/
def full (es : List Elem) (m : Elem → Nat → Nat → ℝ) (i j : Nat) : ℝ :=
  (es.map fun e => ∑ a ∈ range e.n, ∑ b ∈ range e.n, if e.dof a = i ∧ e.dof b = j then m e a b else 0).sum

/-- `Φᵀ M Φ` over `N` dofs. -/
def congruence (N : Nat) (basis : Nat → Nat → ℝ) (M : Nat → Nat → ℝ) (r s : Nat) : ℝ := ∑ i ∈ range N, ∑ j ∈ range N, basis r i * M i j * basis s j

/-- The quantity is one of the three matrices. -/
def IsMatrix (q : Qty) : Prop := q = .mass ∨ q = .damping ∨ q = .stiffness

/-! ### Lemmas -/

theorem foldlM_ok {α : Type} (f : α → Exec (Nat → Nat → ℝ)) (g : α → Nat → Nat → ℝ) (h : α → (Nat → Nat → ℝ) → Nat → Nat → ℝ) (hf : ∀ e, f e = .ok (g e)) (es : List α) (M : Nat → Nat → ℝ) :
    es.foldlM (fun M e => do let mat ← f e; (.ok fun r s => M r s + h e mat r s : Exec (Nat → Nat → ℝ))) M = .ok fun r s => M r s + (es.map fun e => h e (g e) r s).sum := by
  induction es generalizing M with
  | nil => simp only [List.foldlM_nil, List.map_nil, List.sum_nil, add_zero]; rfl
  | cons e es ih =>
    rw [List.foldlM_cons]
    simp only [hf]
    rw [show ∀ (x : Nat → Nat → ℝ) (k : (Nat → Nat → ℝ) → Exec (Nat → Nat → ℝ)), ((Except.ok x : Exec (Nat → Nat → ℝ)) >>= k) = k x from fun _ _ => rfl]
    rw [show ∀ (x : Nat → Nat → ℝ) (k : (Nat → Nat → ℝ) → Exec (Nat → Nat → ℝ)), ((Except.ok x : Exec (Nat → Nat → ℝ)) >>= k) = k x from fun _ _ => rfl]
    have ih' := ih (fun r s => M r s + h e (g e) r s)
    simp only [hf] at ih'
    rw [ih']
    congr 1; funext r s
    simp only [List.map_cons, List.sum_cons]; ring

theorem mapM_ok {α β : Type} (f : α → Exec β) (g : α → β) (l : List α) (h : ∀ a ∈ l, f a = .ok (g a)) : l.mapM f = .ok (l.map g) := by
  induction l with
  | nil => rfl
  | cons a l ih =>
    rw [List.mapM_cons, h a (by simp), ih fun b hb => h b (by simp [hb])]; rfl

theorem project_eq (N : Nat) (e : Elem) (hN : ∀ a < e.n, e.dof a < N) (basis : Nat → Nat → ℝ) (m : Nat → Nat → ℝ) (r s : Nat) :
    project e basis m r s = ∑ i ∈ range N, ∑ j ∈ range N, basis r i * (∑ a ∈ range e.n, ∑ b ∈ range e.n, if e.dof a = i ∧ e.dof b = j then m a b else 0) * basis s j := by
  unfold project
  have h1 : ∀ i j, basis r i * (∑ a ∈ range e.n, ∑ b ∈ range e.n, if e.dof a = i ∧ e.dof b = j then m a b else 0) * basis s j =
      ∑ a ∈ range e.n, ∑ b ∈ range e.n, if e.dof a = i then (if e.dof b = j then basis r i * m a b * basis s j else 0) else 0 := by
    intro i j
    rw [mul_sum, sum_mul]
    refine sum_congr rfl fun a _ => ?_
    rw [mul_sum, sum_mul]
    refine sum_congr rfl fun b _ => ?_
    by_cases ha : e.dof a = i <;> by_cases hb : e.dof b = j <;> simp [ha, hb]
  simp_rw [h1]
  have h2 : ∑ i ∈ range N, ∑ j ∈ range N, ∑ a ∈ range e.n, ∑ b ∈ range e.n, (if e.dof a = i then (if e.dof b = j then basis r i * m a b * basis s j else 0) else 0) =
      ∑ a ∈ range e.n, ∑ b ∈ range e.n, ∑ i ∈ range N, ∑ j ∈ range N, if e.dof a = i then (if e.dof b = j then basis r i * m a b * basis s j else 0) else 0 := by
    rw [sum_congr rfl fun i _ => sum_comm, sum_comm]
    refine sum_congr rfl fun a _ => ?_
    rw [sum_congr rfl fun i _ => sum_comm, sum_comm]
  rw [h2]
  simp_rw [sum_mul]
  rw [sum_comm]
  refine sum_congr rfl fun a ha => sum_congr rfl fun b hb => ?_
  rw [sum_eq_single (e.dof a)]
  · rw [sum_eq_single (e.dof b)]
    · simp
    · intro j _ hj; rw [if_pos rfl, if_neg (Ne.symm hj)]
    · intro h; exact absurd (mem_range.2 (hN b (mem_range.1 hb))) h
  · intro i _ hi; exact sum_eq_zero fun j _ => by rw [if_neg (Ne.symm hi)]
  · intro h; exact absurd (mem_range.2 (hN a (mem_range.1 ha))) h

/-- The projected constrained element matrix: the free part, plus one for every constrained local dof. -/
theorem project_con (N : Nat) (C : Nat → Bool) (e : Elem) (hN : ∀ a < e.n, e.dof a < N) (basis : Nat → Nat → ℝ) (m : Nat → Nat → ℝ) (r s : Nat) :
    project e basis (Asm.conMat C e.dof m) r s =
      (∑ i ∈ range N, ∑ j ∈ range N, (if C i then 0 else basis r i) * (∑ a ∈ range e.n, ∑ b ∈ range e.n, if e.dof a = i ∧ e.dof b = j then m a b else 0) * (if C j then 0 else basis s j)) +
      ∑ i ∈ range N, if C i then (∑ a ∈ range e.n, if e.dof a = i then 1 else 0) * basis r i * basis s i else 0 := by
  rw [project_eq N e hN, ← sum_add_distrib]
  refine sum_congr rfl fun i hi => ?_
  have h1 : (if C i then (∑ a ∈ range e.n, if e.dof a = i then (1 : ℝ) else 0) * basis r i * basis s i else 0) =
      ∑ j ∈ range N, if C i then (if i = j then (∑ a ∈ range e.n, if e.dof a = i then (1 : ℝ) else 0) * basis r i * basis s j else 0) else 0 := by
    split
    · rw [sum_ite_eq, if_pos hi]
    · simp
  rw [h1, ← sum_add_distrib]
  refine sum_congr rfl fun j _ => ?_
  rw [Asm.sum_conMat]
  cases hi : C i <;> cases hj : C j
  · simp
  · have : i ≠ j := fun h => by rw [h, hj] at hi; cases hi
    simp [this]
  · have : i ≠ j := fun h => by rw [h, hj] at hi; cases hi
    simp [this]
  · by_cases h : i = j <;> simp [h]; left; ring

theorem full_sum (N : Nat) (es : List Elem) (w v : Nat → ℝ) (m : Elem → Nat → Nat → ℝ) :
    (es.map fun e => ∑ i ∈ range N, ∑ j ∈ range N, w i * (∑ a ∈ range e.n, ∑ b ∈ range e.n, if e.dof a = i ∧ e.dof b = j then m e a b else 0) * v j).sum =
      ∑ i ∈ range N, ∑ j ∈ range N, w i * full es m i j * v j := by
  induction es with
  | nil => simp [full]
  | cons e es ih =>
    rw [List.map_cons, List.sum_cons, ih, ← sum_add_distrib]
    refine sum_congr rfl fun i _ => ?_
    rw [← sum_add_distrib]
    refine sum_congr rfl fun j _ => ?_
    simp only [full, List.map_cons, List.sum_cons]; ring

/-- Number of times dof `i` appears in the elements. -/
def incidence (es : List Elem) (i : Nat) : ℝ := (es.map fun e => ∑ a ∈ range e.n, if e.dof a = i then (1 : ℝ) else 0).sum

theorem incidence_sum (N : Nat) (C : Nat → Bool) (es : List Elem) (w v : Nat → ℝ) :
    (es.map fun e => ∑ i ∈ range N, if C i then (∑ a ∈ range e.n, if e.dof a = i then (1 : ℝ) else 0) * w i * v i else 0).sum = ∑ i ∈ range N, if C i then incidence es i * w i * v i else 0 := by
  induction es with
  | nil => simp [incidence]
  | cons e es ih =>
    rw [List.map_cons, List.sum_cons, ih, ← sum_add_distrib]
    refine sum_congr rfl fun i _ => ?_
    simp only [incidence, List.map_cons, List.sum_cons]
    split <;> ring

theorem reduce_all (N : Nat) (C : Nat → Bool) (basis : Nat → Nat → ℝ) (m : Elem → Nat → Nat → ℝ) (ps : List (List Elem)) (hN : ∀ e ∈ ps.flatten, ∀ a < e.n, e.dof a < N) (r s : Nat) :
    (ps.map fun es => (es.map fun e => project e basis (Asm.conMat C e.dof (m e)) r s).sum).sum =
      congruence N (fun r i => if C i then 0 else basis r i) (full ps.flatten m) r s + ∑ i ∈ range N, if C i then incidence ps.flatten i * basis r i * basis s i else 0 := by
  have h1 : (ps.map fun es => (es.map fun e => project e basis (Asm.conMat C e.dof (m e)) r s).sum).sum = (ps.flatten.map fun e => project e basis (Asm.conMat C e.dof (m e)) r s).sum := by
    clear hN
    induction ps with
    | nil => simp
    | cons es ps ih => rw [List.map_cons, List.sum_cons, ih]; simp
  rw [h1]
  have h2 : (ps.flatten.map fun e => project e basis (Asm.conMat C e.dof (m e)) r s).sum = (ps.flatten.map fun e =>
      (∑ i ∈ range N, ∑ j ∈ range N, (if C i then 0 else basis r i) * (∑ a ∈ range e.n, ∑ b ∈ range e.n, if e.dof a = i ∧ e.dof b = j then m e a b else 0) * (if C j then 0 else basis s j)) +
      ∑ i ∈ range N, if C i then (∑ a ∈ range e.n, if e.dof a = i then 1 else 0) * basis r i * basis s i else 0).sum := by
    congr 1; exact List.map_congr_left fun e he => project_con N C e (hN e he) basis (m e) r s
  rw [h2]
  have h3 : ∀ (l : List Elem) (f g : Elem → ℝ), (l.map fun e => f e + g e).sum = (l.map f).sum + (l.map g).sum := by
    intro l f g
    induction l with
    | nil => simp
    | cons e l ih => simp [ih]; ring
  rw [h3, full_sum, incidence_sum]
  rfl

/-! ### C134 -/

/-- The returned matrix for any basis, any base solution, any distribution of the elements: the congruence transformation of the structural matrix restricted to the free dofs, plus, for every supported dof
that the basis moves, a contribution that has no physical meaning and counts the elements at that dof. A quantity that is not a matrix is refused as soon as there is an element. -/
theorem C134_general (C : Nat → Bool) (N : Nat) (base : Option (Nat → ℝ)) (basis : Nat → Nat → ℝ) (ps : List (List Elem)) (hN : ∀ e ∈ ps.flatten, ∀ a < e.n, e.dof a < N) (q : Qty) (hq : IsMatrix q) :
    ∃ M, assemble C base basis q ps = .ok M ∧ ∀ r s, M r s =
      congruence N (fun r i => if C i then 0 else basis r i) (full ps.flatten fun e => physical (e.jac (stateOf base e)) q) r s +
      ∑ i ∈ range N, if C i then incidence ps.flatten i * basis r i * basis s i else 0 := by
  have hcalc : ∀ j : Jac, elemCalc j q = .ok (physical j q) := by
    intro j
    rcases hq with h | h | h <;> subst h <;> simp only [elemCalc, physical, zero_add]
  have hp : ∀ es ∈ ps, assembleProc C base basis q es = .ok fun r s => 0 + (es.map fun e => project e basis (Asm.conMat C e.dof (physical (e.jac (elemSol e base)) q)) r s).sum := by
    intro es _
    exact foldlM_ok (fun e => elemCalc (e.jac (elemSol e base)) q) (fun e => physical (e.jac (elemSol e base)) q) (fun e mat => project e basis (Asm.conMat C e.dof mat)) (fun e => hcalc _) es _
  refine ⟨allReduce (ps.map fun es r s => 0 + (es.map fun e => project e basis (Asm.conMat C e.dof (physical (e.jac (elemSol e base)) q)) r s).sum), ?_, ?_⟩
  · unfold assemble
    rw [mapM_ok _ _ ps hp]; rfl
  · intro r s
    rw [← reduce_all N C basis (fun e => physical (e.jac (stateOf base e)) q) ps hN r s]
    simp only [allReduce, List.map_map, Function.comp_def, zero_add, stateOf_eq]

/-- For basis vectors that vanish at the supported dofs (such as the modes of C18) the reduced matrix is exactly `Φᵀ M Φ`. -/
theorem C134_reduced (C : Nat → Bool) (N : Nat) (base : Option (Nat → ℝ)) (basis : Nat → Nat → ℝ) (ps : List (List Elem)) (hN : ∀ e ∈ ps.flatten, ∀ a < e.n, e.dof a < N)
    (hb : ∀ r i, C i = true → basis r i = 0) (q : Qty) (hq : IsMatrix q) :
    ∃ M, assemble C base basis q ps = .ok M ∧ ∀ r s, M r s =
      congruence N basis (full ps.flatten fun e => physical (e.jac (stateOf base e)) q) r s := by
  obtain ⟨M, hM, hv⟩ := C134_general C N base basis ps hN q hq
  refine ⟨M, hM, fun r s => ?_⟩
  rw [hv]
  have h1 : (fun r i => if C i then 0 else basis r i) = basis := by
    funext r i; cases h : C i
    · simp
    · simp [hb r i h]
  have h2 : (∑ i ∈ range N, if C i then incidence ps.flatten i * basis r i * basis s i else 0) = 0 := by
    refine sum_eq_zero fun i _ => ?_
    cases h : C i
    · simp
    · simp [hb r i h]
  rw [h1, h2, add_zero]

/-- Sensitivity for such a basis: `Φᵀ (dM/dp) Φ`, with the change of the internal stiffness caused by the change of the base displacement when there is a base solution. -/
theorem C134_sensitivity (C : Nat → Bool) (N : Nat) (X dX : Nat → ℝ) (flag : Bool) (basis : Nat → Nat → ℝ) (ps : List (List Elem)) (hN : ∀ e ∈ ps.flatten, ∀ a < e.n, e.dof a < N)
    (hb : ∀ r i, C i = true → basis r i = 0) (q : Qty) (hq : IsMatrix q) :
    ∃ M, assembleSens C flag (some (X, dX)) basis q ps = .ok M ∧ ∀ r s, M r s =
      congruence N basis (full ps.flatten fun e => physicalSens (e.sens (fun a => X (e.dof a)) (fun a => dX (e.dof a))) q) r s := by
  have hcalc : ∀ j : Jac, elemSensCalc (flag || true) j q = .ok (physicalSens j q) := by
    intro j
    rcases hq with h | h | h <;> subst h <;> simp only [elemSensCalc, physicalSens, zero_add, Bool.or_true, if_true]
  have hp : ∀ es ∈ ps, sensProc C flag (some (X, dX)) basis q es = .ok fun r s => 0 + (es.map fun e => project e basis (Asm.conMat C e.dof (physicalSens (e.sens (fun a => X (e.dof a)) (fun a => dX (e.dof a))) q)) r s).sum := by
    intro es _
    exact foldlM_ok (fun e => elemSensCalc (flag || true) (e.sens (fun a => X (e.dof a)) (fun a => dX (e.dof a))) q) (fun e => physicalSens (e.sens (fun a => X (e.dof a)) (fun a => dX (e.dof a))) q)
      (fun e mat => project e basis (Asm.conMat C e.dof mat)) (fun e => hcalc _) es _
  refine ⟨allReduce (ps.map fun es r s => 0 + (es.map fun e => project e basis (Asm.conMat C e.dof (physicalSens (e.sens (fun a => X (e.dof a)) (fun a => dX (e.dof a))) q)) r s).sum), ?_, ?_⟩
  · unfold assembleSens
    rw [mapM_ok _ _ ps hp]; rfl
  · intro r s
    have := reduce_all N C basis (fun e => physicalSens (e.sens (fun a => X (e.dof a)) (fun a => dX (e.dof a))) q) ps hN r s
    simp only [allReduce, List.map_map, Function.comp_def, zero_add]
    rw [this]
    have h1 : (fun r i => if C i then 0 else basis r i) = basis := by
      funext r i; cases h : C i
      · simp
      · simp [hb r i h]
    have h2 : (∑ i ∈ range N, if C i then incidence ps.flatten i * basis r i * basis s i else 0) = 0 := by
      refine sum_eq_zero fun i _ => ?_
      cases h : C i
      · simp
      · simp [hb r i h]
    rw [h1, h2, add_zero]

/-- The partial derivative of the matrices at a fixed, zero displacement. -/
def physicalPartial (j : Jac) : Qty → Nat → Nat → ℝ
  | .mass => j.inertXddot
  | .damping => fun a b => j.inertXdot a b + j.sideXdot a b + j.volXdot a b
  | .stiffness => fun a b => j.internal a b + j.inertX a b + j.sideX a b + j.volX a b
  | _ => fun _ _ => 0

/-- Without a base solution (and without an earlier call that had one) the change of the internal stiffness with the displacement does not enter. -/
theorem C134_sensitivity_unloaded (C : Nat → Bool) (N : Nat) (basis : Nat → Nat → ℝ) (ps : List (List Elem)) (hN : ∀ e ∈ ps.flatten, ∀ a < e.n, e.dof a < N)
    (hb : ∀ r i, C i = true → basis r i = 0) (q : Qty) (hq : IsMatrix q) :
    ∃ M, assembleSens C false none basis q ps = .ok M ∧ ∀ r s, M r s =
      congruence N basis (full ps.flatten fun e => physicalPartial (e.sens (fun _ => 0) (fun _ => 0)) q) r s := by
  have hcalc : ∀ j : Jac, elemSensCalc (false || false) j q = .ok (physicalPartial j q) := by
    intro j
    rcases hq with h | h | h <;> subst h <;> simp only [elemSensCalc, physicalPartial, zero_add, add_zero, Bool.or_false, Bool.false_eq_true, if_false]
  have hp : ∀ es ∈ ps, sensProc C false none basis q es = .ok fun r s => 0 + (es.map fun e => project e basis (Asm.conMat C e.dof (physicalPartial (e.sens (fun _ => 0) (fun _ => 0)) q)) r s).sum := by
    intro es _
    exact foldlM_ok (fun e => elemSensCalc (false || false) (e.sens (fun _ => 0) (fun _ => 0)) q) (fun e => physicalPartial (e.sens (fun _ => 0) (fun _ => 0)) q)
      (fun e mat => project e basis (Asm.conMat C e.dof mat)) (fun e => hcalc _) es _
  refine ⟨allReduce (ps.map fun es r s => 0 + (es.map fun e => project e basis (Asm.conMat C e.dof (physicalPartial (e.sens (fun _ => 0) (fun _ => 0)) q)) r s).sum), ?_, ?_⟩
  · unfold assembleSens
    rw [mapM_ok _ _ ps hp]; rfl
  · intro r s
    have := reduce_all N C basis (fun e => physicalPartial (e.sens (fun _ => 0) (fun _ => 0)) q) ps hN r s
    simp only [allReduce, List.map_map, Function.comp_def, zero_add]
    rw [this]
    have h1 : (fun r i => if C i then 0 else basis r i) = basis := by
      funext r i; cases h : C i
      · simp
      · simp [hb r i h]
    have h2 : (∑ i ∈ range N, if C i then incidence ps.flatten i * basis r i * basis s i else 0) = 0 := by
      refine sum_eq_zero fun i _ => ?_
      cases h : C i
      · simp
      · simp [hb r i h]
    rw [h1, h2, add_zero]

/-- Definiteness is inherited: a symmetric (positive semidefinite) structural matrix gives a symmetric (positive semidefinite) reduced matrix. -/
theorem C134_symmetry (C : Nat → Bool) (N : Nat) (base : Option (Nat → ℝ)) (basis : Nat → Nat → ℝ) (ps : List (List Elem)) (hN : ∀ e ∈ ps.flatten, ∀ a < e.n, e.dof a < N)
    (hb : ∀ r i, C i = true → basis r i = 0) (q : Qty) (hq : IsMatrix q) (M : Nat → Nat → ℝ) (hM : assemble C base basis q ps = .ok M)
    (F : Nat → Nat → ℝ) (hF : F = full ps.flatten fun e => physical (e.jac (stateOf base e)) q) :
    ((∀ i j, F i j = F j i) → ∀ r s, M r s = M s r) ∧
    ((∀ x : Nat → ℝ, 0 ≤ ∑ i ∈ range N, ∑ j ∈ range N, x i * F i j * x j) → ∀ (n : Nat) (c : Nat → ℝ), 0 ≤ ∑ r ∈ range n, ∑ s ∈ range n, c r * M r s * c s) := by
  obtain ⟨M', hM', hv⟩ := C134_reduced C N base basis ps hN hb q hq
  have : M = M' := by rw [hM] at hM'; injection hM'
  subst this
  rw [← hF] at hv
  constructor
  · intro hs r s
    rw [hv, hv, congruence, congruence, sum_comm]
    exact sum_congr rfl fun i _ => sum_congr rfl fun j _ => by rw [hs j i]; ring
  · intro hp n c
    have h := hp fun i => ∑ r ∈ range n, c r * basis r i
    refine h.trans_eq ?_
    simp_rw [hv, congruence]
    have e1 : ∀ i j, (∑ r ∈ range n, c r * basis r i) * F i j * (∑ s ∈ range n, c s * basis s j) = ∑ r ∈ range n, ∑ s ∈ range n, c r * (basis r i * F i j * basis s j) * c s := by
      intro i j
      rw [sum_mul, sum_mul]
      refine sum_congr rfl fun r _ => ?_
      rw [mul_sum]
      exact sum_congr rfl fun s _ => by ring
    simp_rw [e1]
    have e2 : ∑ i ∈ range N, ∑ j ∈ range N, ∑ r ∈ range n, ∑ s ∈ range n, c r * (basis r i * F i j * basis s j) * c s =
        ∑ r ∈ range n, ∑ s ∈ range n, ∑ i ∈ range N, ∑ j ∈ range N, c r * (basis r i * F i j * basis s j) * c s := by
      rw [sum_congr rfl fun i _ => sum_comm, sum_comm]
      refine sum_congr rfl fun a _ => ?_
      rw [sum_congr rfl fun i _ => sum_comm, sum_comm]
    rw [e2]
    refine sum_congr rfl fun r _ => sum_congr rfl fun s _ => ?_
    rw [mul_sum, sum_mul]
    refine sum_congr rfl fun i _ => ?_
    rw [mul_sum, sum_mul]

/-- A spring between the dofs 0 and 1. -/
def spring (d0 d1 : Nat) (k p : ℝ) : Elem where
  n := 2
  dof := fun a => if a = 0 then d0 else d1
  jac := fun _ => ⟨fun a b => if a = b then 1 else 0, fun _ _ => 0, fun _ _ => 0, fun a b => if a = b then k else -k, fun a b => if a = b then p else -p, fun _ _ => 0, fun _ _ => 0, fun _ _ => 0, fun _ _ => 0,
    fun _ _ => 0⟩
  sens := fun _ _ => ⟨fun _ _ => 0, fun _ _ => 0, fun _ _ => 0, fun a b => if a = b then 1 else -1, fun _ _ => 0, fun _ _ => 0, fun _ _ => 0, fun _ _ => 0, fun _ _ => 0, fun _ _ => 0⟩

/-- Non-vacuity: two springs of stiffness 3 on two processes, middle dof 1 free, supports 0 and 2; the reduced stiffness for a unit motion of the middle is 6. -/
example : ∃ M, assemble (fun i => i ≠ 1) none (fun _ i => if i = 1 then 1 else 0) .stiffness [[spring 0 1 3 0], [spring 1 2 3 0]] = .ok M ∧ M 0 0 = 6 := by
  obtain ⟨M, hM, hv⟩ := C134_reduced (fun i => i ≠ 1) 3 none (fun _ i => if i = 1 then 1 else 0) [[spring 0 1 3 0], [spring 1 2 3 0]]
    (by simp [spring]; refine ⟨?_, ?_⟩ <;> intro a _ <;> split <;> norm_num) (by simp +contextual) .stiffness (.inr (.inr rfl))
  refine ⟨M, hM, ?_⟩
  rw [hv]
  simp [congruence, full, physical, spring, sum_range_succ]; norm_num

/-- A basis vector that moves a support: the uniform translation of a spring has zero strain energy, but the reduced stiffness is 4 with one and 8 with two springs at the support. -/
theorem C134_support_motion_fails :
    (∃ M, assemble (fun i => i = 0) none (fun _ _ => 1) .stiffness [[spring 0 1 3 0]] = .ok M ∧ M 0 0 = 4) ∧
    (∃ M, assemble (fun i => i = 0) none (fun _ _ => 1) .stiffness [[spring 0 1 3 0, spring 0 2 3 0]] = .ok M ∧ M 0 0 = 8) ∧
    congruence 3 (fun _ _ => 1) (full [spring 0 1 3 0, spring 0 2 3 0] fun e => physical (e.jac fun _ => 0) .stiffness) 0 0 = 0 := by
  refine ⟨?_, ?_, ?_⟩
  · obtain ⟨M, hM, hv⟩ := C134_general (fun i => i = 0) 2 none (fun _ _ => 1) [[spring 0 1 3 0]] (by simp [spring]; intro a _; split <;> norm_num) .stiffness (.inr (.inr rfl))
    refine ⟨M, hM, ?_⟩
    rw [hv]
    simp [congruence, full, physical, spring, incidence, sum_range_succ]; norm_num
  · obtain ⟨M, hM, hv⟩ := C134_general (fun i => i = 0) 3 none (fun _ _ => 1) [[spring 0 1 3 0, spring 0 2 3 0]]
      (by simp [spring]; refine ⟨?_, ?_⟩ <;> intro a _ <;> split <;> norm_num) .stiffness (.inr (.inr rfl))
    refine ⟨M, hM, ?_⟩
    rw [hv]
    simp [congruence, full, physical, spring, incidence, sum_range_succ]; norm_num
  · simp [congruence, full, physical, spring, sum_range_succ]

/-- Prestress is ignored: the reduced stiffness does not depend on it, although the buckling analysis (C133) adds it to the stiffness of the same element. -/
theorem C134_prestress_fails (k p p' : ℝ) (C : Nat → Bool) (base : Option (Nat → ℝ)) (basis : Nat → Nat → ℝ) (d0 d1 : Nat) :
    assemble C base basis .stiffness [[spring d0 d1 k p]] = assemble C base basis .stiffness [[spring d0 d1 k p']] ∧
    ∃ e e' : Buckling.Elem, e.internal = e'.internal ∧ Buckling.stiffness [e] 1 (fun _ => 0) 0 0 ≠ Buckling.stiffness [e'] 1 (fun _ => 0) 0 0 := by
  refine ⟨rfl, Buckling.strut, { Buckling.strut with prestress := fun _ _ _ _ => 0 }, rfl, ?_⟩
  simp [Buckling.stiffness, Buckling.strut]

/-- A bar whose stiffness changes with the displacement (`stateDot` 5 on the diagonal) and by 1 with the parameter. -/
def stiffening : Elem := { spring 0 1 3 0 with sens := fun _ _ => ⟨fun _ _ => 0, fun _ _ => 0, fun _ _ => 0, fun a b => if a = b then 1 else -1, fun _ _ => 0, fun a b => if a = b then 5 else 0, fun _ _ => 0, fun _ _ => 0, fun _ _ => 0, fun _ _ => 0⟩ }

/-- The result without a base solution depends on the history of the operations object: after a call with a base solution the displacement part stays switched on. -/
theorem C134_history_fails : (∃ M, assembleSens (fun _ => false) false none (fun _ i => if i = 1 then 1 else 0) .stiffness [[stiffening]] = .ok M ∧ M 0 0 = 1) ∧
    ∃ M, assembleSens (fun _ => false) true none (fun _ i => if i = 1 then 1 else 0) .stiffness [[stiffening]] = .ok M ∧ M 0 0 = 6 := by
  constructor
  · refine ⟨_, rfl, ?_⟩
    simp [allReduce, project, Asm.conMat, stiffening, spring, Finset.sum_range_succ]
  · refine ⟨_, rfl, ?_⟩
    simp [allReduce, project, Asm.conMat, stiffening, spring, Finset.sum_range_succ]
    norm_num

/-- Other quantities end in an error when there is an element. -/
theorem C134_other (C : Nat → Bool) (base : Option (Nat → ℝ)) (basis : Nat → Nat → ℝ) (q : Qty) (hq : ¬IsMatrix q) (e : Elem) (es : List Elem) (ps : List (List Elem)) :
    assemble C base basis q ((e :: es) :: ps) = .error .error := by
  unfold assemble
  rw [List.mapM_cons]
  unfold assembleProc
  rw [List.foldlM_cons]
  cases q
  · exact absurd (.inl rfl) hq
  · exact absurd (.inr (.inl rfl)) hq
  · exact absurd (.inr (.inr rfl)) hq
  · rfl
  · rfl

/-- Total aerodynamic force on dof `k` when the structure moves in basis vector `i`. -/
def aeroForce (ps : List (List AeroElem)) (i k : Nat) : ℂ := (ps.flatten.map fun e => ∑ a ∈ range e.n, if e.dof a = k then e.force i a else 0).sum

/-- Entry `(r, i)` of the generalized aerodynamic force matrix is the work of the aerodynamic force caused by mode `i` through mode `r`, over the free dofs; supported dofs never contribute. With an empty
basis the code reads a vector that does not exist. -/
theorem C134_aero (C : Nat → Bool) (N nBasis : Nat) (basis : Nat → Nat → ℝ) (ps : List (List AeroElem)) (hN : ∀ e ∈ ps.flatten, ∀ a < e.n, e.dof a < N) :
    (nBasis ≠ 0 → ∃ M, aero C nBasis basis ps = .ok M ∧ ∀ r i, M r i = ∑ k ∈ range N, if C k then 0 else (basis r k : ℂ) * aeroForce ps i k) ∧ (nBasis = 0 → aero C nBasis basis ps = .error .ub) := by
  refine ⟨fun h => ⟨_, by rw [aero, if_neg h], fun r i => ?_⟩, fun h => by rw [aero, if_pos h]⟩
  have hproc : ∀ (es : List AeroElem) (acc : ℂ), es.foldl (fun acc e => acc + ∑ a ∈ range e.n,
      (basis r (e.dof a) : ℂ) * ⟨Asm.conVec C e.dof (fun a => (e.force i a).re) a, Asm.conVec C e.dof (fun a => (e.force i a).im) a⟩) acc =
      acc + (es.map fun e => ∑ a ∈ range e.n, if C (e.dof a) then 0 else (basis r (e.dof a) : ℂ) * e.force i a).sum := by
    intro es
    induction es with
    | nil => simp
    | cons e es ih =>
      intro acc
      rw [List.foldl_cons, ih, List.map_cons, List.sum_cons, add_assoc]
      congr 2
      refine sum_congr rfl fun a _ => ?_
      unfold Asm.conVec
      split
      · simp [show (⟨0, 0⟩ : ℂ) = 0 from rfl]
      · rfl
  simp only [aeroProc, hproc, zero_add]
  have h1 : (ps.map fun es => (es.map fun e => ∑ a ∈ range e.n, if C (e.dof a) then 0 else (basis r (e.dof a) : ℂ) * e.force i a).sum).sum =
      (ps.flatten.map fun e => ∑ a ∈ range e.n, if C (e.dof a) then 0 else (basis r (e.dof a) : ℂ) * e.force i a).sum := by
    clear hN hproc
    induction ps with
    | nil => simp
    | cons es ps ih => rw [List.map_cons, List.sum_cons, ih]; simp
  rw [h1]
  unfold aeroForce
  generalize ps.flatten = l at hN
  clear h1 hproc
  induction l with
  | nil => simp
  | cons e l ih =>
    rw [List.map_cons, List.sum_cons, ih fun e' he' => hN e' (by simp [he'])]
    have he := hN e (by simp)
    have h2 : ∑ a ∈ range e.n, (if C (e.dof a) then 0 else (basis r (e.dof a) : ℂ) * e.force i a) =
        ∑ k ∈ range N, if C k then 0 else (basis r k : ℂ) * ∑ a ∈ range e.n, if e.dof a = k then e.force i a else 0 := by
      have h3 : ∀ k, (if C k then 0 else (basis r k : ℂ) * ∑ a ∈ range e.n, if e.dof a = k then e.force i a else 0) =
          ∑ a ∈ range e.n, if e.dof a = k then (if C k then 0 else (basis r k : ℂ) * e.force i a) else 0 := by
        intro k
        split
        · simp
        · rw [mul_sum]; refine sum_congr rfl fun a _ => ?_
          split <;> simp
      simp_rw [h3]
      rw [sum_comm]
      refine sum_congr rfl fun a ha => ?_
      rw [sum_ite_eq, if_pos (mem_range.2 (he a (mem_range.1 ha)))]
    rw [h2, ← sum_add_distrib]
    refine sum_congr rfl fun k _ => ?_
    rw [List.map_cons, List.sum_cons]
    split <;> ring

/-- Non-vacuity: force `i` on a free dof, motion 2. -/
example : ∃ M, aero (fun _ => false) 1 (fun _ _ => 2) [[⟨1, fun _ => 0, fun _ _ => Complex.I⟩]] = .ok M ∧ M 0 0 = 2 * Complex.I := by
  obtain ⟨M, hM, hv⟩ := (C134_aero (fun _ => false) 1 1 (fun _ _ => 2) [[⟨1, fun _ => 0, fun _ _ => Complex.I⟩]] (by simp)).1 (by norm_num)
  exact ⟨M, hM, by rw [hv]; simp [aeroForce]⟩

end
end Verif.ReducedOrder
