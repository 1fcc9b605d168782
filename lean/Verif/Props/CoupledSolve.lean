import Verif.Model.CoupledSolve
import Mathlib.Tactic.Linarith
import Mathlib.Tactic.NormNum
import Mathlib.Tactic.Ring
import Mathlib.Tactic.FinCases
import Mathlib.Data.Fin.VecNotation
/-
  C177: the coupled solve of several disciplines.
-/
namespace Verif.CoupledSolve

/-! ## Specification -/

/-- The vector satisfies the constraints (without their inhomogeneities if `homogeneous`). -/
def Meets {α : Type} [Fintype α] (homogeneous : Bool) (c : Con α) (v : α → ℝ) : Prop :=
  ∀ d a h, c d = some (a, h) → v d = ∑ k, a k * v k + if homogeneous then 0 else h

/-- Constraints as libMesh leaves them after processing: none depends on a constrained degree of freedom. -/
def Processed {α : Type} (c : Con α) : Prop := ∀ d a h, c d = some (a, h) → ∀ k, a k ≠ 0 → c k = none

/-! ## constraints -/

theorem enforce_free {α : Type} [Fintype α] {b : Bool} {c : Con α} (v : α → ℝ) {d : α} (h : c d = none) : enforce b c v d = v d := by
  rw [enforce, h]

theorem enforce_meets {α : Type} [Fintype α] {b : Bool} {c : Con α} (hc : Processed c) (v : α → ℝ) : Meets b c (enforce b c v) := by
  intro d a h hd
  have e : ∑ k, a k * enforce b c v k = ∑ k, a k * v k := by
    refine Finset.sum_congr rfl fun k _ => ?_
    by_cases hk : a k = 0
    · rw [hk, zero_mul, zero_mul]
    · rw [enforce_free v (hc d a h hd k hk)]
  rw [e, enforce, hd]

theorem enforce_of_meets {α : Type} [Fintype α] {b : Bool} {c : Con α} {v : α → ℝ} (h : Meets b c v) : enforce b c v = v := by
  funext d
  cases hd : c d with
  | none => exact enforce_free v hd
  | some r => rw [enforce, hd]; exact (h d r.1 r.2 hd).symm

section callbacks
variable {nd : Nat} {D : Fin nd → Type} [∀ i, Fintype (D i)]

/-- C177: the residual of the coupled problem is that of each discipline at the iterate with its constraints enforced, every discipline being told the solutions of all;
and evaluating it again at the vector it leaves gives the same. -/
theorem C177_residual (P : Physics D) (hc : ∀ i, Processed (P.con i)) (x : ∀ i, D i → ℝ) :
    let s := snesResidual P x
    (∀ i, Meets false (P.con i) (s.1 i)) ∧ (∀ i d, P.con i d = none → s.1 i d = x i d) ∧
    (∀ i, s.2 i = P.residual i (s.1 i) (if P.update then some s.1 else none)) ∧ snesResidual P s.1 = s := by
  intro s
  have h1 : ∀ i, Meets false (P.con i) (s.1 i) := fun i => enforce_meets (hc i) (x i)
  refine ⟨h1, fun i d hd => enforce_free _ hd, fun i => rfl, ?_⟩
  have e : (fun i => enforce false (P.con i) (s.1 i)) = s.1 := funext fun i => enforce_of_meets (h1 i)
  have e2 : ∀ z, snesResidual P z = (fun i => enforce false (P.con i) (z i), fun i => P.residual i ((fun i => enforce false (P.con i) (z i)) i)
      (if P.update then some (fun i => enforce false (P.con i) (z i)) else none)) := fun _ => rfl
  rw [e2, e]
  rfl

/-- C177: the matrices of the systems are taken at the same state as the residual. -/
theorem C177_jacobian (P : Physics D) (x : ∀ i, D i → ℝ) :
    (snesJacobian P x).1 = (snesResidual P x).1 ∧
    ∀ i, (snesJacobian P x).2 i = P.jacobian i ((snesResidual P x).1 i) (if P.update then some (snesResidual P x).1 else none) :=
  ⟨rfl, fun _ => rfl⟩

/-- C177: a state at which the nonlinear solver finds a zero residual is, with its constraints enforced, a common solution of all the disciplines. -/
theorem C177_converged (P : Physics D) (hc : ∀ i, Processed (P.con i)) (x : ∀ i, D i → ℝ) (h : (snesResidual P x).2 = fun _ _ => 0) :
    ∃ z : ∀ i, D i → ℝ, (∀ i, Meets false (P.con i) (z i)) ∧ (∀ i d, P.con i d = none → z i d = x i d) ∧
      ∀ i d, P.residual i (z i) (if P.update then some z else none) d = 0 := by
  obtain ⟨a, b, c, -⟩ := C177_residual P hc x
  exact ⟨_, a, b, fun i d => by rw [← c i, h]⟩

/-- C177 fails for the vector handed to the residual and Jacobian evaluations: it is an input of the nonlinear solver, and it is changed whenever it does not satisfy
the constraints. -/
theorem C177_input_fails (P : Physics D) (x : ∀ i, D i → ℝ) (i : Fin nd) (hc : Processed (P.con i)) (h : ¬ Meets false (P.con i) (x i)) :
    (snesResidual P x).1 ≠ x ∧ (snesJacobian P x).1 ≠ x := by
  have e : (fun i => enforce false (P.con i) (x i)) ≠ x := by
    intro e
    apply h
    rw [← congrFun e i]
    exact enforce_meets hc (x i)
  exact ⟨e, e⟩

/-- The columns whose shell has been applied in a list of blocks. -/
def shelled (l : List (Fin nd × Fin nd)) (j : Fin nd) : Bool := l.any fun p => p.1 != p.2 && p.2 == j

theorem mul_dx (P : Physics D) (hc : ∀ i, Processed (P.con i)) (A : ∀ i, D i → D i → ℝ) (x dx : ∀ k, D k → ℝ) (l : List (Fin nd × Fin nd)) (y : ∀ k, D k → ℝ) :
    (l.foldl (mulBlock P A x) { dx := dx, y := y }).dx = fun j => if shelled l j then enforce true (P.con j) (dx j) else dx j := by
  induction l using List.reverseRecOn with
  | nil => funext j; simp [shelled]
  | append_singleton l a ih =>
    rw [List.foldl_append, List.foldl_cons, List.foldl_nil]
    generalize l.foldl (mulBlock P A x) { dx := dx, y := y } = s at ih
    obtain ⟨i, k⟩ := a
    have hs : ∀ j, shelled (l ++ [(i, k)]) j = (shelled l j || (i != k && k == j)) := fun j => by simp [shelled]
    unfold mulBlock
    by_cases hik : i = k
    · subst hik
      simp only [if_true, ih]
      funext j
      rw [hs]
      simp
    · simp only [if_neg hik, matMult, ih]
      funext j
      rw [hs]
      by_cases hj : j = k
      · subst hj
        rw [Function.update_self]
        have : (i != j && j == j) = true := by simp [hik]
        rw [this, Bool.or_true, if_pos rfl]
        cases shelled l j with
        | false => rfl
        | true => exact enforce_of_meets (enforce_meets (hc j) (dx j))
      · rw [Function.update_of_ne hj]
        have : (i != k && k == j) = false := by simp [Ne.symm hj]
        rw [this, Bool.or_false]

/-- All blocks, in the order of the multiplication. -/
def blocks (nd : Nat) : List (Fin nd × Fin nd) := (List.finRange nd).flatMap fun i => (List.finRange nd).map fun j => (i, j)

theorem mem_blocks (p : Fin nd × Fin nd) : p ∈ blocks nd := by simp [blocks]

/-- C177 fails for the vector being multiplied: with two or more disciplines every multiplication by the nested matrix replaces it, for all disciplines, by its
projection on the homogeneous constraints. A vector that does not satisfy them is lost to the linear solver that owns it. -/
theorem C177_vector_fails (P : Physics D) (hc : ∀ i, Processed (P.con i)) (A : ∀ i, D i → D i → ℝ) (x dx : ∀ k, D k → ℝ) (hn : 2 ≤ nd) :
    (nestMul P A x dx).dx = (fun j => enforce true (P.con j) (dx j)) ∧
    ∀ j, ¬ Meets true (P.con j) (dx j) → (nestMul P A x dx).dx j ≠ dx j := by
  have e : (nestMul P A x dx).dx = fun j => enforce true (P.con j) (dx j) := by
    unfold nestMul
    rw [mul_dx P hc]
    funext j
    rw [if_pos]
    obtain ⟨i, hi⟩ : ∃ i : Fin nd, i ≠ j := by
      by_cases h0 : j.val = 0
      · exact ⟨⟨1, by omega⟩, fun h => by rw [← h] at h0; simp at h0⟩
      · exact ⟨⟨0, by omega⟩, fun h => by rw [← h] at h0; simp at h0⟩
    rw [shelled, List.any_eq_true]
    exact ⟨(i, j), mem_blocks _, by simp [hi]⟩
  refine ⟨e, fun j hj h => hj ?_⟩
  rw [← h, e]
  exact enforce_meets (hc j) (dx j)

/-- The block products with a vector that satisfies the homogeneous constraints. -/
noncomputable def blockOf (P : Physics D) (A : ∀ i, D i → D i → ℝ) (x dx : ∀ k, D k → ℝ) (i j : Fin nd) (r : D i) : ℝ :=
  if i = j then ∑ c, A i r c * dx i c
  else
    let d : ∀ k, D k → ℝ := fun k => if h : k = j then h ▸ dx j else fun _ => 0
    P.product i (x i) (d i) (if P.update then some (x, d) else none) r

theorem mul_y (P : Physics D) (A : ∀ i, D i → D i → ℝ) (x dx : ∀ k, D k → ℝ) (hd : ∀ j, Meets true (P.con j) (dx j)) (l : List (Fin nd × Fin nd)) (y : ∀ k, D k → ℝ) :
    (l.foldl (mulBlock P A x) { dx := dx, y := y }).dx = dx ∧
    ∀ i r, (l.foldl (mulBlock P A x) { dx := dx, y := y }).y i r = y i r + ((l.filter fun p => p.1 = i).map fun p => blockOf P A x dx i p.2 r).sum := by
  induction l using List.reverseRecOn with
  | nil => simp
  | append_singleton l a ih =>
    rw [List.foldl_append, List.foldl_cons, List.foldl_nil]
    generalize l.foldl (mulBlock P A x) { dx := dx, y := y } = s at ih
    obtain ⟨sdx, sy⟩ := s
    obtain ⟨h1, h2⟩ := ih
    simp only at h1 h2
    subst h1
    obtain ⟨i, k⟩ := a
    unfold mulBlock
    by_cases hik : i = k
    · subst hik
      simp only [if_true]
      refine ⟨trivial, fun i' r => ?_⟩
      by_cases hi : i' = i
      · subst hi
        rw [Function.update_self, h2]
        simp [List.filter_append, blockOf, add_assoc]
      · rw [Function.update_of_ne hi, h2]
        simp [List.filter_append, Ne.symm hi]
    · simp only [if_neg hik, matMult, enforce_of_meets (hd k)]
      refine ⟨Function.update_eq_self k sdx, fun i' r => ?_⟩
      by_cases hi : i' = i
      · subst hi
        rw [Function.update_self, h2]
        simp only [List.filter_append, List.map_append, List.sum_append, add_assoc]
        simp [blockOf, hik]
      · rw [Function.update_of_ne hi, h2]
        simp [List.filter_append, Ne.symm hi]

/-- C177: on vectors that satisfy the homogeneous constraints, which is where the updates of the solution live, the multiplication leaves the vector alone and gives, for
each discipline, its own Jacobian applied to its block plus the products with the perturbations of the others, each once. -/
theorem C177_product (P : Physics D) (A : ∀ i, D i → D i → ℝ) (x dx : ∀ k, D k → ℝ) (hd : ∀ j, Meets true (P.con j) (dx j)) :
    (nestMul P A x dx).dx = dx ∧ ∀ i r, (nestMul P A x dx).y i r = ∑ j, blockOf P A x dx i j r := by
  obtain ⟨a, b⟩ := mul_y P A x dx hd (blocks nd) fun _ _ => 0
  refine ⟨a, fun i r => ?_⟩
  show ((blocks nd).foldl (mulBlock P A x) { dx := dx, y := fun _ _ => 0 }).y i r = _
  rw [b i r, zero_add]
  have e : ∀ l : List (Fin nd), l.Nodup → i ∈ l → ((l.flatMap fun i => (List.finRange nd).map fun j => (i, j)).filter fun p => p.1 = i) = (List.finRange nd).map fun j => (i, j) := by
    intro l hl hi
    induction l with
    | nil => exact absurd hi (by simp)
    | cons c l ih =>
      rw [List.flatMap_cons, List.filter_append]
      rw [List.nodup_cons] at hl
      by_cases hc : c = i
      · subst hc
        have h0 : ((l.flatMap fun i => (List.finRange nd).map fun j => (i, j)).filter fun p => p.1 = c) = [] := by
          rw [List.filter_eq_nil_iff]
          intro p hp
          simp only [List.mem_flatMap, List.mem_map] at hp
          obtain ⟨a, ha, j, -, rfl⟩ := hp
          simp only [decide_eq_true_eq]
          intro h
          subst h
          exact hl.1 ha
        rw [h0, List.append_nil, List.filter_eq_self]
        intro p hp
        obtain ⟨j, -, rfl⟩ := List.mem_map.1 hp
        simp
      · have h0 : (((List.finRange nd).map fun j => (c, j)).filter fun p => p.1 = i) = [] := by
          rw [List.filter_eq_nil_iff]
          intro p hp
          obtain ⟨j, -, rfl⟩ := List.mem_map.1 hp
          simpa using hc
        rw [h0, List.nil_append]
        rcases List.mem_cons.1 hi with h | h
        · exact absurd h.symm hc
        · exact ih hl.2 h
  rw [blocks, e _ (List.nodup_finRange nd) (List.mem_finRange i), List.map_map, Fin.sum_univ_def]
  rfl

end callbacks

/-- Two disciplines with one degree of freedom each, that of the second held at zero, Jacobians equal to one, no coupling. -/
noncomputable def twoBars : Physics (fun _ : Fin 2 => Unit) :=
  { con := fun i _ => if i = 1 then some (fun _ => 0, 0) else none
    residual := fun _ u _ d => u d
    jacobian := fun _ _ _ _ _ => 1
    product := fun _ _ _ _ _ => 0
    update := false }

/-- C177 fails for the rows of constrained degrees of freedom: with identity Jacobians on both disciplines the nested matrix multiplies the vector (0, 1) to (0, 0), the
vector being changed before its own row is reached; it multiplies (1, 0) to (1, 0). -/
theorem C177_constrained_row_fails (x : Fin 2 → Unit → ℝ) :
    (nestMul twoBars (fun _ _ _ => 1) x (fun i _ => if i = 1 then 1 else 0)).y = (fun _ _ => 0) ∧
    (nestMul twoBars (fun _ _ _ => 1) x (fun i _ => if i = 0 then 1 else 0)).y = (fun i _ => if i = 0 then 1 else 0) := by
  have hl : ((List.finRange 2).flatMap fun i => (List.finRange 2).map fun j => (i, j)) = [(0, 0), (0, 1), (1, 0), ((1 : Fin 2), (1 : Fin 2))] := by decide
  constructor
  · funext i r
    unfold nestMul
    rw [hl]
    fin_cases i <;> simp [mulBlock, matMult, twoBars, enforce, Function.update]
  · funext i r
    unfold nestMul
    rw [hl]
    fin_cases i <;> simp [mulBlock, matMult, twoBars, enforce, Function.update]

/-- The constraints of this problem are processed, and the direction in question does not satisfy them. -/
example : (∀ i, Processed (twoBars.con i)) ∧ ¬ Meets true (twoBars.con 1) (fun _ => 1) ∧ Meets true (twoBars.con 0) (fun _ => 1) := by
  refine ⟨fun i d a h hd k hk => ?_, fun h => ?_, fun d a h hd => by simp [twoBars] at hd⟩
  · fin_cases i
    · simp [twoBars] at hd
    · simp only [twoBars, Fin.mk_one, if_true, Option.some.injEq, Prod.mk.injEq] at hd
      rw [← hd.1] at hk; exact absurd rfl hk
  · have := h () (fun _ => 0) 0 (by simp [twoBars]); simp at this

/-! ## transfer of the solutions -/

/-- Processor, system and local index are in range. -/
def InRange (np nd : Nat) (nl : Nat → Nat → Nat) (t : Nat × Nat × Nat) : Prop := t.1 < nd ∧ t.2.1 < np ∧ t.2.2 < nl t.2.1 t.1

/-- All (system, processor, local index), in the order of the loops. -/
def triples (np nd : Nat) (nl : Nat → Nat → Nat) : List (Nat × Nat × Nat) :=
  (List.range nd).flatMap fun i => (List.range np).flatMap fun p => (List.range (nl p i)).map fun k => (i, p, k)

theorem mem_triples {np nd : Nat} {nl : Nat → Nat → Nat} {t : Nat × Nat × Nat} : t ∈ triples np nd nl ↔ InRange np nd nl t := by
  obtain ⟨i, p, k⟩ := t
  simp [triples, InRange]

theorem offset_step (nd : Nat) (nl : Nat → Nat → Nat) (p i : Nat) : offset nd nl p (i + 1) = offset nd nl p i + nl p i := by
  rw [offset, offset, Finset.sum_range_succ]; omega

theorem offset_next (nd : Nat) (nl : Nat → Nat → Nat) (p : Nat) : offset nd nl (p + 1) 0 = offset nd nl p nd := by
  rw [offset, offset, Finset.sum_range_succ]; simp

theorem offset_mono_i (nd : Nat) (nl : Nat → Nat → Nat) (p : Nat) {i j : Nat} (h : i ≤ j) : offset nd nl p i ≤ offset nd nl p j := by
  induction h with
  | refl => exact le_refl _
  | step _ ih => exact ih.trans (by rw [offset_step]; omega)

theorem offset_mono_p (nd : Nat) (nl : Nat → Nat → Nat) {p q : Nat} (h : p ≤ q) : offset nd nl p 0 ≤ offset nd nl q 0 := by
  induction h with
  | refl => exact le_refl _
  | step _ ih => exact ih.trans (by rw [offset_next]; exact offset_mono_i _ _ _ (Nat.zero_le _))

/-- Different degrees of freedom have different places. -/
theorem place_inj {np nd : Nat} {nl : Nat → Nat → Nat} {s t : Nat × Nat × Nat} (hs : InRange np nd nl s) (ht : InRange np nd nl t)
    (h : offset nd nl s.2.1 s.1 + s.2.2 = offset nd nl t.2.1 t.1 + t.2.2) : s = t := by
  have key : ∀ s t : Nat × Nat × Nat, InRange np nd nl s → InRange np nd nl t → s.2.1 < t.2.1 ∨ (s.2.1 = t.2.1 ∧ s.1 < t.1) →
      offset nd nl s.2.1 s.1 + s.2.2 < offset nd nl t.2.1 t.1 + t.2.2 := by
    rintro ⟨i, p, k⟩ ⟨j, q, m⟩ ⟨h1, h2, h3⟩ ⟨h4, h5, h6⟩ h
    simp only at *
    have a : offset nd nl p i + k < offset nd nl p (i + 1) := by rw [offset_step]; omega
    rcases h with h | ⟨rfl, h⟩
    · have b : offset nd nl p (i + 1) ≤ offset nd nl p nd := offset_mono_i nd nl p h1
      have c : offset nd nl p nd ≤ offset nd nl q 0 := by rw [← offset_next]; exact offset_mono_p nd nl h
      have d : offset nd nl q 0 ≤ offset nd nl q j := offset_mono_i nd nl q (Nat.zero_le _)
      omega
    · have b : offset nd nl p (i + 1) ≤ offset nd nl p j := offset_mono_i nd nl p h
      omega
  rcases lt_trichotomy s.2.1 t.2.1 with hp | hp | hp
  · exact absurd h (ne_of_lt (key s t hs ht (Or.inl hp)))
  · rcases lt_trichotomy s.1 t.1 with hi | hi | hi
    · exact absurd h (ne_of_lt (key s t hs ht (Or.inr ⟨hp, hi⟩)))
    · obtain ⟨i, p, k⟩ := s
      obtain ⟨j, q, m⟩ := t
      simp only at *
      subst hp hi
      have : k = m := by omega
      rw [this]
    · exact absurd h.symm (ne_of_lt (key t s ht hs (Or.inr ⟨hp.symm, hi⟩)))
  · exact absurd h.symm (ne_of_lt (key t s ht hs (Or.inl hp)))

/-- C177: the places of the degrees of freedom of all systems, on all processors, in the monolithic vector are all different and fill it. -/
theorem C177_places (np nd : Nat) (nl : Nat → Nat → Nat) :
    (∀ s t, InRange np nd nl s → InRange np nd nl t → offset nd nl s.2.1 s.1 + s.2.2 = offset nd nl t.2.1 t.1 + t.2.2 → s = t) ∧
    ∀ n, n < ∑ p ∈ Finset.range np, ∑ i ∈ Finset.range nd, nl p i ↔ ∃ t, InRange np nd nl t ∧ n = offset nd nl t.2.1 t.1 + t.2.2 := by
  have tot : ∑ p ∈ Finset.range np, ∑ i ∈ Finset.range nd, nl p i = offset nd nl np 0 := by simp [offset]
  refine ⟨fun s t hs ht h => place_inj hs ht h, fun n => ⟨fun hn => ?_, ?_⟩⟩
  · rw [tot] at hn
    obtain ⟨p, hp, h1, h2⟩ : ∃ p, p < np ∧ offset nd nl p 0 ≤ n ∧ n < offset nd nl (p + 1) 0 := by
      induction np with
      | zero => simp [offset] at hn
      | succ m ih =>
        by_cases h : n < offset nd nl m 0
        · obtain ⟨p, a, b, c⟩ := ih (by simp [offset]) h
          exact ⟨p, by omega, b, c⟩
        · exact ⟨m, by omega, by omega, hn⟩
    rw [offset_next] at h2
    obtain ⟨i, hi, h3, h4⟩ : ∃ i, i < nd ∧ offset nd nl p i ≤ n ∧ n < offset nd nl p (i + 1) := by
      have : ∀ m, n < offset nd nl p m → ∃ i, i < m ∧ offset nd nl p i ≤ n ∧ n < offset nd nl p (i + 1) := by
        intro m
        induction m with
        | zero => intro h; omega
        | succ m ih =>
          intro hm
          by_cases h : n < offset nd nl p m
          · obtain ⟨i, a, b, c⟩ := ih h
            exact ⟨i, by omega, b, c⟩
          · exact ⟨m, by omega, by omega, hm⟩
      exact this nd h2
    rw [offset_step] at h4
    exact ⟨(i, p, n - offset nd nl p i), ⟨hi, hp, by simp only; omega⟩, by simp only; omega⟩
  · rintro ⟨⟨i, p, k⟩, ⟨h1, h2, h3⟩, rfl⟩
    simp only at *
    rw [tot]
    have a : offset nd nl p i + k < offset nd nl p (i + 1) := by rw [offset_step]; omega
    have b : offset nd nl p (i + 1) ≤ offset nd nl p nd := offset_mono_i nd nl p h1
    have c : offset nd nl p nd ≤ offset nd nl np 0 := by rw [← offset_next]; exact offset_mono_p nd nl h2
    omega

theorem pack_eq (np nd : Nat) (nl : Nat → Nat → Nat) (sys : Nat → Sys) (x : Nat → ℝ) :
    pack np nd nl sys x = (triples np nd nl).foldl (fun x t => Function.update x (offset nd nl t.2.1 t.1 + t.2.2) ((sys t.1).solution (first nl t.1 t.2.1 + t.2.2))) x := by
  simp only [pack, triples, List.foldl_flatMap, List.foldl_map]

theorem unpack_eq (np nd : Nat) (nl : Nat → Nat → Nat) (sys : Nat → Sys) (x : Nat → ℝ) :
    unpack np nd nl x sys = (triples np nd nl).foldl (fun s t => Function.update s t.1
      { s t.1 with solution := Function.update (s t.1).solution (first nl t.1 t.2.1 + t.2.2) (x (offset nd nl t.2.1 t.1 + t.2.2)) }) sys := by
  simp only [unpack, triples, List.foldl_flatMap, List.foldl_map]

theorem writes {α : Type} (addr : α → Nat) (val : α → ℝ) (l : List α) (x : Nat → ℝ) (hinj : ∀ a ∈ l, ∀ b ∈ l, addr a = addr b → val a = val b) :
    (∀ a ∈ l, l.foldl (fun x t => Function.update x (addr t) (val t)) x (addr a) = val a) ∧
    ∀ n, (∀ a ∈ l, addr a ≠ n) → l.foldl (fun x t => Function.update x (addr t) (val t)) x n = x n := by
  induction l using List.reverseRecOn with
  | nil => simp
  | append_singleton l b ih =>
    have ih := ih fun a ha b hb h => hinj a (List.mem_append_left _ ha) b (List.mem_append_left _ hb) h
    rw [List.foldl_append, List.foldl_cons, List.foldl_nil]
    refine ⟨fun a ha => ?_, fun n hn => ?_⟩
    · by_cases h : addr a = addr b
      · rw [h, Function.update_self]
        exact (hinj a ha b (by simp) h).symm
      · rw [Function.update_of_ne h]
        rcases List.mem_append.1 ha with ha | ha
        · exact ih.1 a ha
        · rw [List.mem_singleton] at ha; exact absurd (by rw [ha]) h
    · rw [Function.update_of_ne (hn b (by simp)).symm]
      exact ih.2 n fun a ha => hn a (List.mem_append_left _ ha)

theorem pack_at {np nd : Nat} {nl : Nat → Nat → Nat} (sys : Nat → Sys) (x : Nat → ℝ) {t : Nat × Nat × Nat} (ht : InRange np nd nl t) :
    pack np nd nl sys x (offset nd nl t.2.1 t.1 + t.2.2) = (sys t.1).solution (first nl t.1 t.2.1 + t.2.2) := by
  rw [pack_eq]
  refine (writes (fun t : Nat × Nat × Nat => offset nd nl t.2.1 t.1 + t.2.2) (fun t => (sys t.1).solution (first nl t.1 t.2.1 + t.2.2)) (triples np nd nl) x ?_).1 t
    (mem_triples.2 ht)
  intro a ha b hb h
  rw [place_inj (mem_triples.1 ha) (mem_triples.1 hb) h]

/-- Different processors own different entries of a system. -/
theorem first_inj {nl : Nat → Nat → Nat} {i p q k m : Nat} (hk : k < nl p i) (hm : m < nl q i) (h : first nl i p + k = first nl i q + m) : p = q ∧ k = m := by
  have step : ∀ p, first nl i (p + 1) = first nl i p + nl p i := fun p => by rw [first, first, Finset.sum_range_succ]
  have mono : ∀ {a b}, a ≤ b → first nl i a ≤ first nl i b := by
    intro a b h
    induction h with
    | refl => exact le_refl _
    | step _ ih => exact ih.trans (by rw [step]; omega)
  rcases lt_trichotomy p q with hp | hp | hp
  · have := mono (Nat.succ_le_of_lt hp); have := step p; simp only [Nat.succ_eq_add_one] at *; omega
  · subst hp; exact ⟨rfl, by omega⟩
  · have := mono (Nat.succ_le_of_lt hp); have := step q; simp only [Nat.succ_eq_add_one] at *; omega

theorem unpack_at {np nd : Nat} {nl : Nat → Nat → Nat} (sys : Nat → Sys) (x : Nat → ℝ) :
    (∀ t, InRange np nd nl t → ((unpack np nd nl x sys) t.1).solution (first nl t.1 t.2.1 + t.2.2) = x (offset nd nl t.2.1 t.1 + t.2.2)) ∧
    (∀ i n, (∀ t, InRange np nd nl t → t.1 = i → first nl t.1 t.2.1 + t.2.2 ≠ n) → ((unpack np nd nl x sys) i).solution n = (sys i).solution n) ∧
    ∀ i, ((unpack np nd nl x sys) i).current = (sys i).current := by
  rw [unpack_eq]
  have gen : ∀ l : List (Nat × Nat × Nat), (∀ t ∈ l, InRange np nd nl t) →
      let s := l.foldl (fun s t => Function.update s t.1
        { s t.1 with solution := Function.update (s t.1).solution (first nl t.1 t.2.1 + t.2.2) (x (offset nd nl t.2.1 t.1 + t.2.2)) }) sys
      (∀ t ∈ l, (s t.1).solution (first nl t.1 t.2.1 + t.2.2) = x (offset nd nl t.2.1 t.1 + t.2.2)) ∧
      (∀ i n, (∀ t ∈ l, t.1 = i → first nl t.1 t.2.1 + t.2.2 ≠ n) → (s i).solution n = (sys i).solution n) ∧ ∀ i, (s i).current = (sys i).current := by
    intro l hl
    induction l using List.reverseRecOn with
    | nil => simp
    | append_singleton l b ih =>
      have ih := ih fun t ht => hl t (List.mem_append_left _ ht)
      have hb := hl b (by simp)
      simp only [List.foldl_append, List.foldl_cons, List.foldl_nil]
      simp only at ih
      generalize l.foldl (fun s t => Function.update s t.1
        { s t.1 with solution := Function.update (s t.1).solution (first nl t.1 t.2.1 + t.2.2) (x (offset nd nl t.2.1 t.1 + t.2.2)) }) sys = s at ih
      obtain ⟨h1, h2, h3⟩ := ih
      refine ⟨fun t ht => ?_, fun i n hn => ?_, fun i => ?_⟩
      · have hr := hl t ht
        by_cases hi : t.1 = b.1
        · rw [hi, Function.update_self]
          simp only
          by_cases ha : first nl b.1 t.2.1 + t.2.2 = first nl b.1 b.2.1 + b.2.2
          · rw [ha, Function.update_self]
            obtain ⟨e1, e2⟩ := first_inj (by have := hr.2.2; rwa [hi] at this) hb.2.2 ha
            rw [e1, e2]
          · rw [Function.update_of_ne ha]
            rcases List.mem_append.1 ht with ht | ht
            · rw [← hi]; exact h1 t ht
            · rw [List.mem_singleton] at ht; exact absurd (by rw [ht]) ha
        · rw [Function.update_of_ne hi]
          rcases List.mem_append.1 ht with ht | ht
          · exact h1 t ht
          · rw [List.mem_singleton] at ht; exact absurd (by rw [ht]) hi
      · by_cases hi : i = b.1
        · subst hi
          rw [Function.update_self]
          simp only
          rw [Function.update_of_ne (hn b (by simp) rfl).symm]
          exact h2 _ n fun t ht => hn t (List.mem_append_left _ ht)
        · rw [Function.update_of_ne hi]
          exact h2 _ n fun t ht => hn t (List.mem_append_left _ ht)
      · by_cases hi : i = b.1
        · subst hi; rw [Function.update_self]; exact h3 _
        · rw [Function.update_of_ne hi]; exact h3 _
  obtain ⟨a, b, c⟩ := gen (triples np nd nl) fun t ht => mem_triples.1 ht
  exact ⟨fun t ht => a t (mem_triples.2 ht), fun i n hn => b i n fun t ht => hn t (mem_triples.1 ht), c⟩

/-- C177: the coupled solve starts from the solutions of the systems and ends with each system holding its part of the result, for any number of systems and any
distribution over processors. -/
theorem C177_transfer {np nd : Nat} {nl : Nat → Nat → Nat} (snes : (Nat → ℝ) → Nat → ℝ) (sys : Nat → Sys) :
    ∃ x0 : Nat → ℝ, (∀ t, InRange np nd nl t → x0 (offset nd nl t.2.1 t.1 + t.2.2) = (sys t.1).solution (first nl t.1 t.2.1 + t.2.2)) ∧
      (∀ t, InRange np nd nl t → ((solve np nd nl snes sys) t.1).solution (first nl t.1 t.2.1 + t.2.2) = snes x0 (offset nd nl t.2.1 t.1 + t.2.2)) ∧
      ∀ i n, (∀ t, InRange np nd nl t → t.1 = i → first nl t.1 t.2.1 + t.2.2 ≠ n) → ((solve np nd nl snes sys) i).solution n = (sys i).solution n :=
  ⟨_, fun _ ht => pack_at sys _ ht, fun t ht => (unpack_at sys _).1 t ht, fun i n h => (unpack_at sys _).2.1 i n h⟩

/-- C177: a nonlinear solver that keeps the vector leaves every system as it was. -/
theorem C177_identity {np nd : Nat} {nl : Nat → Nat → Nat} (sys : Nat → Sys) (i : Nat) : ((solve np nd nl id sys) i).solution = (sys i).solution := by
  obtain ⟨x0, h1, h2, h3⟩ := C177_transfer (np := np) (nd := nd) (nl := nl) id sys
  funext n
  by_cases h : ∃ t, InRange np nd nl t ∧ t.1 = i ∧ first nl t.1 t.2.1 + t.2.2 = n
  · obtain ⟨t, ht, rfl, rfl⟩ := h
    rw [h2 t ht, id, h1 t ht]
  · exact h3 i n fun t ht hi hn => h ⟨t, ht, hi, hn⟩

/-- C177 fails for the vectors the rest of the code reads: `current_local_solution` of every system is what it was before the solve, whatever the result. -/
theorem C177_current_fails {np nd : Nat} {nl : Nat → Nat → Nat} (snes : (Nat → ℝ) → Nat → ℝ) (sys : Nat → Sys) (i : Nat) :
    ((solve np nd nl snes sys) i).current = (sys i).current := (unpack_at sys _).2.2 i

/-- Two systems on two processors, solved: the solution is 7 everywhere while the current one is still zero. -/
example : ((solve 2 2 (fun _ _ => 1) (fun _ _ => 7) fun _ => { solution := fun _ => 0, current := fun _ => 0 }) 1).solution 1 = 7 ∧
    ((solve 2 2 (fun _ _ => 1) (fun _ _ => 7) fun _ => { solution := fun _ => 0, current := fun _ => 0 }) 1).current 1 = 0 := by
  obtain ⟨x0, -, h2, -⟩ := C177_transfer (np := 2) (nd := 2) (nl := fun _ _ => 1) (fun _ _ => 7) fun _ => { solution := fun _ => 0, current := fun _ => 0 }
  refine ⟨?_, by rw [C177_current_fails]⟩
  have := h2 (1, 1, 0) ⟨by decide, by decide, by decide⟩
  simpa [first] using this

end Verif.CoupledSolve
