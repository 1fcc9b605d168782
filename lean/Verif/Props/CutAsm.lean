import Mathlib.Algebra.BigOperators.Ring.Finset
import Mathlib.Algebra.BigOperators.Field
import Mathlib.Analysis.Calculus.Deriv.Add
import Mathlib.Analysis.Calculus.Deriv.Mul
import Mathlib.Tactic.Ring
import Mathlib.Tactic.NormNum
import Mathlib.Tactic.Linarith
import Mathlib.Tactic.LinearCombination
import Mathlib.Tactic.FieldSimp
import Mathlib.Tactic.Positivity
import Verif.Model.CutAsm
import Verif.Props.Assembly
import Verif.Props.InterfaceDofs
import Verif.Props.Compliance
import Verif.Props.CutCell
/-
  C138: residual, Jacobian and sensitivity on a cut mesh.  C139: outputs on a cut mesh.  C140: eigenproblem on a cut mesh.
-/
namespace Verif.CutAsm
open Verif Finset
open Verif.Asm (addVector addMatrix conVec conMat addVector_apply addMatrix_apply sum_conVec sum_conMat foldl_add foldl_add2)
open Verif.InterfaceDofs (Solver factoredRes factoredJac factoredSolution invMat block sub Solves sum_map_get invMat_right invMat_left C75_factored_solution)
open Verif.Compliance (flatten_filter_sum list_sum_congr hasDeriv_listsum gather sum_list_comm list_sum_mul list_add)

noncomputable section

/-! ### Specification -/

/-- Element solution: void dofs of a condensed element from the store, all others from the global vector. -/
def local_ (e : Elem) (X : Nat → ℝ) (a : Nat) : ℝ :=
  match e.factor with
  | some F => if a ∈ F.f then F.stored a else X (e.dof a)
  | none => X (e.dof a)

/-- `v` is the load vector `r` after elimination of the void rows with the matrix `K`: `K_ff x = r_f`, `v = r_u - K_uf x` on the material rows and zero elsewhere. -/
def Condensed (K : Nat → Nat → ℝ) (r : Nat → ℝ) (u f : List Nat) (v : Nat → ℝ) : Prop :=
  ∃ x : Nat → ℝ, (∀ k ∈ f, (f.map fun l => K k l * x l).sum = r k) ∧ (∀ k ∈ u, v k = r k - (f.map fun l => K k l * x l).sum) ∧ ∀ k, k ∉ u → v k = 0

/-- Residual contribution of a material element: the sum over its material sub-elements, or the condensed residual of the element scaled by its material fraction. -/
def IsRes (e : Elem) (X v : Nat → ℝ) : Prop :=
  match e.factor with
  | none => ∀ a, v a = (e.subs.map fun c => c.res (local_ e X) a).sum
  | some F => Condensed (fun a b => e.frac * e.full.jac (local_ e X) a b) (fun a => e.frac * e.full.res (local_ e X) a) F.u F.f v

/-- Jacobian contribution of a material element: sum over the sub-elements, or the Schur complement column by column, with 1e-6 on the diagonal of the void rows. -/
def IsJac (e : Elem) (X : Nat → ℝ) (M : Nat → Nat → ℝ) : Prop :=
  match e.factor with
  | none => ∀ a b, M a b = (e.subs.map fun c => c.jac (local_ e X) a b).sum
  | some F => (∀ l ∈ F.u, ∃ v, Condensed (fun a b => e.frac * e.full.jac (local_ e X) a b) (fun a => e.frac * e.full.jac (local_ e X) a l) F.u F.f v ∧ ∀ k ∈ F.u, M k l = v k) ∧
      ∀ k l, ¬ (k ∈ F.u ∧ l ∈ F.u) → M k l = if k = l then 1 / 1000000 else 0

/-- The void block of a condensed material element can be solved with, and no row is listed twice. -/
def Regular (solve : Solver) (X : Nat → ℝ) (e : Elem) : Prop :=
  match e.factor with
  | none => True
  | some F => F.u.Nodup ∧ F.f.Nodup ∧ Solves solve (block (fullJac e (local_ e X)) F.f F.f)

/-- Gather of element vectors. -/
def gatherVec (l : List Elem) (V : Elem → Nat → ℝ) (i : Nat) : ℝ := (l.map fun e => ∑ a ∈ range e.n, if e.dof a = i then V e a else 0).sum

/-- Gather of element matrices. -/
def gatherMat (l : List Elem) (M : Elem → Nat → Nat → ℝ) (i j : Nat) : ℝ := (l.map fun e => ∑ a ∈ range e.n, ∑ b ∈ range e.n, if e.dof a = i ∧ e.dof b = j then M e a b else 0).sum

/-- Number of elements without material at dof `i`. -/
def voidCount (l : List Elem) (i : Nat) : ℝ := ((l.filter empty).map fun e => ∑ a ∈ range e.n, if e.dof a = i then 1 else 0).sum

/-! ### Lemmas -/

theorem list_zero {α : Type} (l : List α) : (l.map fun _ => (0 : ℝ)).sum = 0 := by simp

theorem put_apply (u : List Nat) (hu : u.Nodup) (w : Fin u.length → ℝ) (v : Nat → ℝ) : (∀ i, put u w v (u.get i) = w i) ∧ ∀ k, k ∉ u → put u w v k = v k := by
  have gen : ∀ (l : List (Fin u.length)), l.Nodup → ∀ v : Nat → ℝ,
      (∀ i ∈ l, (l.foldl (fun v i => fun k => if k = u.get i then w i else v k) v) (u.get i) = w i) ∧
      ∀ k, (∀ i ∈ l, u.get i ≠ k) → (l.foldl (fun v i => fun k => if k = u.get i then w i else v k) v) k = v k := by
    intro l
    induction l with
    | nil => intro _ v; simp
    | cons a l ih =>
      intro hl v
      rw [List.nodup_cons] at hl
      obtain ⟨h1, h2⟩ := ih hl.2 (fun k => if k = u.get a then w a else v k)
      refine ⟨?_, ?_⟩
      · intro i hi
        rw [List.foldl_cons]
        rcases List.mem_cons.1 hi with rfl | hi
        · rw [h2 _ fun j hj q => hl.1 (by rwa [hu.injective_get q] at hj)]; simp
        · exact h1 i hi
      · intro k hk
        rw [List.foldl_cons, h2 k fun i hi => hk i (by simp [hi])]
        exact if_neg (Ne.symm (hk a (by simp)))
  obtain ⟨h1, h2⟩ := gen (List.finRange u.length) (List.nodup_finRange _) v
  exact ⟨fun i => h1 i (List.mem_finRange i), fun k hk => h2 k fun i _ q => hk (q ▸ List.get_mem u i)⟩


theorem put2_apply (u : List Nat) (hu : u.Nodup) (w : Fin u.length → Fin u.length → ℝ) (m : Nat → Nat → ℝ) :
    (∀ i j, put2 u w m (u.get i) (u.get j) = w i j) ∧ ∀ k l, ¬ (k ∈ u ∧ l ∈ u) → put2 u w m k l = m k l := by
  have inner : ∀ (i : Fin u.length) (m : Nat → Nat → ℝ) (k l : Nat),
      ((List.finRange u.length).foldl (fun m j => fun k l => if k = u.get i ∧ l = u.get j then w i j else m k l) m) k l = if k = u.get i then put u (w i) (m k) l else m k l := by
    intro i m k l
    unfold put
    generalize List.finRange u.length = L
    induction L generalizing m with
    | nil => simp
    | cons a L ih =>
      rw [List.foldl_cons, ih, List.foldl_cons]
      by_cases hk : k = u.get i
      · simp only [hk, true_and, if_true]
      · simp only [hk, false_and, if_false]
  have gen : ∀ (L : List (Fin u.length)), L.Nodup → ∀ m : Nat → Nat → ℝ,
      (∀ i ∈ L, ∀ l, (L.foldl (fun m i => (List.finRange u.length).foldl (fun m j => fun k l => if k = u.get i ∧ l = u.get j then w i j else m k l) m) m) (u.get i) l = put u (w i) (m (u.get i)) l) ∧
      ∀ k, (∀ i ∈ L, u.get i ≠ k) → ∀ l, (L.foldl (fun m i => (List.finRange u.length).foldl (fun m j => fun k l => if k = u.get i ∧ l = u.get j then w i j else m k l) m) m) k l = m k l := by
    intro L
    induction L with
    | nil => intro _ m; simp
    | cons a L ih =>
      intro hL m
      rw [List.nodup_cons] at hL
      obtain ⟨h1, h2⟩ := ih hL.2 ((List.finRange u.length).foldl (fun m j => fun k l => if k = u.get a ∧ l = u.get j then w a j else m k l) m)
      refine ⟨?_, ?_⟩
      · intro i hi l
        rw [List.foldl_cons]
        rcases List.mem_cons.1 hi with rfl | hi
        · rw [h2 _ (fun j hj q => hL.1 (by rwa [hu.injective_get q] at hj)) l, inner]; simp
        · rw [h1 i hi l]
          have hne : u.get i ≠ u.get a := fun q => hL.1 (by rw [hu.injective_get q] at hi; exact hi)
          have : ((List.finRange u.length).foldl (fun m j => fun k l => if k = u.get a ∧ l = u.get j then w a j else m k l) m) (u.get i) = m (u.get i) := by
            funext l; rw [inner, if_neg hne]
          rw [this]
      · intro k hk l
        rw [List.foldl_cons, h2 k (fun i hi => hk i (by simp [hi])) l, inner, if_neg (Ne.symm (hk a (by simp)))]
  obtain ⟨h1, h2⟩ := gen (List.finRange u.length) (List.nodup_finRange _) m
  refine ⟨fun i j => ?_, fun k l hkl => ?_⟩
  · unfold put2; rw [h1 i (List.mem_finRange i)]; exact (put_apply u hu (w i) _).1 j
  · unfold put2
    by_cases hk : k ∈ u
    · obtain ⟨i, rfl⟩ := List.get_of_mem hk
      rw [h1 i (List.mem_finRange i)]
      exact (put_apply u hu (w i) _).2 l fun hl => hkl ⟨hk, hl⟩
    · exact h2 k (fun i _ q => hk (q ▸ List.get_mem u i)) l

theorem elemSol_eq (e : Elem) (X : Nat → ℝ) : elemSol e X = local_ e X := by
  funext a
  unfold elemSol local_
  cases e.factor with
  | none => rfl
  | some F => simp only [C75_factored_solution]

/-- Values placed on the entries of a list without repetition. -/
theorem spread (f : List Nat) (hf : f.Nodup) (y : Fin f.length → ℝ) : ∃ x : Nat → ℝ, ∀ i, x (f.get i) = y i :=
  ⟨put f y (fun _ => 0), fun i => (put_apply f hf y _).1 i⟩

theorem condensed_put (solve : Solver) (K : Nat → Nat → ℝ) (r : Nat → ℝ) (u f : List Nat) (hu : u.Nodup) (hf : f.Nodup) (hreg : Solves solve (block K f f)) :
    Condensed K r u f (put u (factoredRes solve K r u f) (fun _ => 0)) := by
  obtain ⟨x, hx⟩ := spread f hf ((invMat solve (block K f f)).mulVec (sub r f))
  have hx' : sub x f = (invMat solve (block K f f)).mulVec (sub r f) := funext hx
  refine ⟨x, ?_, ?_, ?_⟩
  · intro k hk
    obtain ⟨i, rfl⟩ := List.get_of_mem hk
    rw [sum_map_get]
    have : (block K f f).mulVec (sub x f) = sub r f := by rw [hx', Matrix.mulVec_mulVec, invMat_right solve _ hreg, Matrix.one_mulVec]
    exact congrFun this i
  · intro k hk
    obtain ⟨i, rfl⟩ := List.get_of_mem hk
    rw [(put_apply u hu _ _).1, sum_map_get]
    have : (block K u f * invMat solve (block K f f)).mulVec (sub r f) = (block K u f).mulVec (sub x f) := by rw [hx', Matrix.mulVec_mulVec]
    show sub r u i - _ = _
    rw [this]; rfl
  · intro k hk; exact (put_apply u hu _ _).2 k hk

theorem fullJac_comm (e : Elem) (s : Nat → ℝ) : fullJac e s = fun a b => e.frac * e.full.jac s a b := by funext a b; exact mul_comm _ _
theorem fullRes_comm (e : Elem) (s : Nat → ℝ) : fullRes e s = fun a => e.frac * e.full.res s a := by funext a; exact mul_comm _ _

theorem foldl_vec {α : Type} (g : α → Nat → ℝ) (l : List α) (a : Nat) : l.foldl (fun v c => fun a => v a + g c a) (fun _ => 0) a = (l.map fun c => g c a).sum := by
  rw [foldl_add g _ (fun _ _ _ => rfl)]; simp

theorem foldl_mat {α : Type} (g : α → Nat → Nat → ℝ) (l : List α) (a b : Nat) : l.foldl (fun v c => fun a b => v a b + g c a b) (fun _ _ => 0) a b = (l.map fun c => g c a b).sum := by
  rw [foldl_add2 g _ (fun _ _ _ _ => rfl)]; simp

theorem elemVec_isRes (solve : Solver) (X : Nat → ℝ) (e : Elem) (h : Regular solve X e) : IsRes e X (elemVec solve e X) := by
  unfold Regular at h
  unfold IsRes elemVec
  rw [elemSol_eq]
  cases hF : e.factor with
  | none => simp only [hF]; intro a; exact foldl_vec _ _ _
  | some F =>
    simp only [hF] at h ⊢
    rw [← fullJac_comm, ← fullRes_comm]
    exact condensed_put solve _ _ _ _ h.1 h.2.1 h.2.2

theorem factoredJac_col (solve : Solver) (K : Nat → Nat → ℝ) (u f : List Nat) (i j : Fin u.length) : factoredJac solve K u f i j = factoredRes solve K (fun a => K a (u.get j)) u f i := by
  unfold factoredJac factoredRes
  rw [Matrix.sub_apply, Pi.sub_apply]
  rfl

theorem elemMat_isJac (solve : Solver) (X : Nat → ℝ) (e : Elem) (h : Regular solve X e) : IsJac e X (elemMat solve e X) := by
  unfold Regular at h
  unfold IsJac elemMat
  rw [elemSol_eq]
  cases hF : e.factor with
  | none => simp only [hF]; intro a b; exact foldl_mat _ _ _ _
  | some F =>
    simp only [hF] at h ⊢
    obtain ⟨h1, h2⟩ := put2_apply F.u h.1 (factoredJac solve (fullJac e (local_ e X)) F.u F.f) (fun a b => if a = b then 1 / 1000000 else 0)
    refine ⟨?_, fun k l hkl => h2 k l hkl⟩
    intro l hl
    obtain ⟨j, rfl⟩ := List.get_of_mem hl
    refine ⟨put F.u (factoredRes solve (fullJac e (local_ e X)) (fun a => fullJac e (local_ e X) a (F.u.get j)) F.u F.f) (fun _ => 0), ?_, ?_⟩
    · rw [← fullJac_comm]
      have : (fun a => e.frac * e.full.jac (local_ e X) a (F.u.get j)) = fun a => fullJac e (local_ e X) a (F.u.get j) := by rw [fullJac_comm]
      rw [this]
      exact condensed_put solve _ _ _ _ h.1 h.2.1 h.2.2
    · intro k hk
      obtain ⟨i, rfl⟩ := List.get_of_mem hk
      rw [h1, (put_apply F.u h.1 _ _).1, factoredJac_col]

theorem resProc_apply (C : Nat → Bool) (solve : Solver) (X : Nat → ℝ) (es : List Elem) (i : Nat) :
    resProc C solve X es i = if C i then 0 else gatherVec (es.filter material) (fun e => elemVec solve e X) i := by
  unfold resProc
  rw [foldl_add (fun e i => if material e then (if C i then 0 else ∑ a ∈ range e.n, if e.dof a = i then elemVec solve e X a else 0) else 0)]
  · rw [zero_add]
    unfold gatherVec
    induction es with
    | nil => simp
    | cons e es ih =>
      rw [List.map_cons, List.sum_cons, ih]
      cases hm : material e <;> cases hC : C i <;> simp [hm]
  · intro R e i
    cases hm : material e
    · simp
    · simp only [if_true]; rw [addVector_apply, sum_conVec]

theorem residual_apply (C : Nat → Bool) (solve : Solver) (X : Nat → ℝ) (ps : List (List Elem)) (i : Nat) :
    residual C solve X ps i = if C i then 0 else gatherVec (ps.flatten.filter material) (fun e => elemVec solve e X) i := by
  unfold residual
  simp only [resProc_apply]
  cases hC : C i
  · simp only [Bool.false_eq_true, if_false]; unfold gatherVec; exact flatten_filter_sum _ _ _
  · simp

theorem jacProc_apply (C : Nat → Bool) (solve : Solver) (X : Nat → ℝ) (es : List Elem) (i j : Nat) (hi : C i = false) (hj : C j = false) :
    jacProc C solve X es i j = gatherMat (es.filter material) (fun e => elemMat solve e X) i j + if i = j then voidCount es i / 100000000000000 else 0 := by
  unfold jacProc
  suffices H : ∀ J : Nat → Nat → ℝ, (es.foldl (fun J e =>
      let J := if empty e then addMatrix e.n e.dof (conMat C e.dof (fun a b => if a = b then 1 / 100000000000000 else 0)) J else J
      if material e then addMatrix e.n e.dof (conMat C e.dof (elemMat solve e X)) J else J) J) i j =
      J i j + (gatherMat (es.filter material) (fun e => elemMat solve e X) i j + if i = j then voidCount es i / 100000000000000 else 0) by
    rw [H]; simp
  induction es with
  | nil => intro J; simp [gatherMat, voidCount]
  | cons e es ih =>
    intro J
    rw [List.foldl_cons, ih]
    have add : ∀ (m J : Nat → Nat → ℝ), addMatrix e.n e.dof (conMat C e.dof m) J i j = J i j + ∑ a ∈ range e.n, ∑ b ∈ range e.n, if e.dof a = i ∧ e.dof b = j then m a b else 0 := by
      intro m J; rw [addMatrix_apply, sum_conMat]; simp [hi, hj]
    have diag : (∑ a ∈ range e.n, ∑ b ∈ range e.n, if e.dof a = i ∧ e.dof b = j then (if a = b then (1 / 100000000000000 : ℝ) else 0) else 0) =
        if i = j then (∑ a ∈ range e.n, if e.dof a = i then (1 : ℝ) else 0) / 100000000000000 else 0 := by
      have : ∀ a ∈ range e.n, (∑ b ∈ range e.n, if e.dof a = i ∧ e.dof b = j then (if a = b then (1 / 100000000000000 : ℝ) else 0) else 0) =
          if e.dof a = i ∧ i = j then 1 / 100000000000000 else 0 := by
        intro a ha
        rw [sum_eq_single a]
        · by_cases h : e.dof a = i
          · simp [h]
          · simp [h]
        · intro b _ hb; rw [if_neg (Ne.symm hb)]; simp
        · intro h; exact absurd ha h
      rw [sum_congr rfl this]
      by_cases hij : i = j
      · simp only [hij, and_true, if_true]
        rw [sum_div]
        refine sum_congr rfl fun a _ => ?_
        split <;> simp
      · simp [hij]
    cases hm : material e <;> cases hz : empty e <;> simp only [hm, hz, Bool.false_eq_true, if_false, if_true, List.filter_cons, gatherMat, voidCount, List.map_cons, List.sum_cons, add, diag] <;>
      by_cases hij : i = j <;> simp only [hij, if_true, if_false] <;> ring

theorem voidCount_flatten (ps : List (List Elem)) (i : Nat) : (ps.map fun es => voidCount es i).sum = voidCount ps.flatten i := flatten_filter_sum _ _ _

theorem jacobian_apply (C : Nat → Bool) (solve : Solver) (X : Nat → ℝ) (ps : List (List Elem)) (i j : Nat) (hi : C i = false) (hj : C j = false) :
    jacobian C solve X ps i j = gatherMat (ps.flatten.filter material) (fun e => elemMat solve e X) i j + if i = j then voidCount ps.flatten i / 100000000000000 else 0 := by
  unfold jacobian
  simp only [jacProc_apply C solve X _ i j hi hj]
  rw [list_add]
  congr 1
  · exact flatten_filter_sum _ _ _
  · by_cases hij : i = j
    · simp only [hij, if_true]
      rw [← voidCount_flatten, div_eq_mul_inv, list_sum_mul]; rfl
    · simp [hij]

/-! ### C138 -/

/-- The residual is gathered from the material elements only: sums over material sub-elements, condensed residuals for the elements of the dof handler, nothing from constrained rows; for every distribution
to processes. -/
theorem C138_residual (C : Nat → Bool) (solve : Solver) (X : Nat → ℝ) (ps : List (List Elem)) (hreg : ∀ e ∈ ps.flatten, material e = true → Regular solve X e) :
    ∃ V : Elem → Nat → ℝ, (∀ e ∈ ps.flatten, material e = true → IsRes e X (V e)) ∧ ∀ i, residual C solve X ps i = if C i then 0 else gatherVec (ps.flatten.filter material) V i :=
  ⟨fun e => elemVec solve e X, fun e he hm => elemVec_isRes solve X e (hreg e he hm), residual_apply C solve X ps⟩

/-- Between free dofs the Jacobian is gathered from the tangents of the material elements, plus 1e-14 on the diagonal for every element without material. -/
theorem C138_jacobian (C : Nat → Bool) (solve : Solver) (X : Nat → ℝ) (ps : List (List Elem)) (hreg : ∀ e ∈ ps.flatten, material e = true → Regular solve X e) :
    ∃ M : Elem → Nat → Nat → ℝ, (∀ e ∈ ps.flatten, material e = true → IsJac e X (M e)) ∧ ∀ i j, C i = false → C j = false →
      jacobian C solve X ps i j = gatherMat (ps.flatten.filter material) M i j + if i = j then voidCount ps.flatten i / 100000000000000 else 0 :=
  ⟨fun e => elemMat solve e X, fun e he hm => elemMat_isJac solve X e (hreg e he hm), fun i j => jacobian_apply C solve X ps i j⟩

/-- 1e-6 on the diagonal of the void rows of a condensed element. -/
def voidDiag (e : Elem) (a b : Nat) : ℝ :=
  match e.factor with
  | some F => if a = b ∧ a ∉ F.u then 1 / 1000000 else 0
  | none => 0

/-- What the Jacobian contains in addition to the tangent: regularisation of dofs without material. -/
def penalty (l : List Elem) (i j : Nat) : ℝ := gatherMat (l.filter material) voidDiag i j + if i = j then voidCount l i / 100000000000000 else 0

/-- The operations compute the Jacobian of the residual; for a condensed element the residual is affine (linear analysis) and the two lists of rows are all rows of the element. -/
def Differentiable (e : Elem) (X : Nat → ℝ) : Prop :=
  match e.factor with
  | none => ∀ c ∈ e.subs, ∀ (d : Nat → ℝ) (a : Nat), HasDerivAt (fun t : ℝ => c.res (fun b => local_ e X b + t * d b) a) (∑ b ∈ range e.n, c.jac (local_ e X) a b * d b) 0
  | some F => (F.u ++ F.f).Perm (List.range e.n) ∧ ∃ (K : Nat → Nat → ℝ) (g : Nat → ℝ), ∀ s a, (∀ b, e.full.jac s a b = K a b) ∧ e.full.res s a = (∑ b ∈ range e.n, K a b * s b) - g a

theorem sum_perm (u f : List Nat) (n : Nat) (h : (u ++ f).Perm (List.range n)) (g : Nat → ℝ) : ∑ b ∈ range n, g b = (u.map g).sum + (f.map g).sum := by
  have h1 : ∑ b ∈ range n, g b = ((List.range n).map g).sum := by
    induction n generalizing u f with
    | zero => simp
    | succ n ih =>
      clear h
      have : ∀ n, ∑ b ∈ range n, g b = ((List.range n).map g).sum := by
        intro n; induction n with
        | zero => simp
        | succ n ih => rw [sum_range_succ, ih, List.range_succ]; simp
      exact this _
  rw [h1, ← (h.map g).sum_eq]; simp

theorem factoredRes_affine (solve : Solver) (J : Nat → Nat → ℝ) (r q : Nat → ℝ) (t : ℝ) (u f : List Nat) (i : Fin u.length) :
    factoredRes solve J (fun a => r a + t * q a) u f i = factoredRes solve J r u f i + t * factoredRes solve J q u f i := by
  have h1 : sub (fun a => r a + t * q a) f = sub r f + t • sub q f := by funext k; simp [sub]
  unfold factoredRes
  rw [h1, Matrix.mulVec_add, Matrix.mulVec_smul]
  simp only [Pi.sub_apply, Pi.add_apply, Pi.smul_apply, smul_eq_mul, sub]
  ring

theorem factoredRes_columns (solve : Solver) (J : Nat → Nat → ℝ) (d : Nat → ℝ) (u f : List Nat) :
    factoredRes solve J (fun a => (u.map fun l => J a l * d l).sum) u f = (factoredJac solve J u f).mulVec (sub d u) := by
  have h1 : ∀ l : List Nat, sub (fun a => (u.map fun l => J a l * d l).sum) l = (block J l u).mulVec (sub d u) := by
    intro l; funext k; simp only [sub, sum_map_get]; rfl
  unfold factoredRes factoredJac
  rw [h1, h1, Matrix.sub_mulVec, Matrix.mulVec_mulVec]

theorem local_path (e : Elem) (X w : Nat → ℝ) (t : ℝ) (hF : e.factor = none) : local_ e (fun i => X i + t * w i) = fun b => local_ e X b + t * w (e.dof b) := by
  funext b; simp [local_, hF]

theorem elemVec_deriv (solve : Solver) (e : Elem) (X w : Nat → ℝ) (hreg : Regular solve X e) (h : Differentiable e X) (a : Nat) :
    HasDerivAt (fun t : ℝ => elemVec solve e (fun i => X i + t * w i) a) (∑ b ∈ range e.n, (elemMat solve e X a b - voidDiag e a b) * w (e.dof b)) 0 := by
  unfold Regular at hreg
  unfold Differentiable at h
  unfold elemVec elemMat voidDiag
  simp only [elemSol_eq]
  cases hF : e.factor with
  | none =>
    simp only [hF] at h ⊢
    simp only [foldl_vec (fun (c : Sub) a => c.res _ a), foldl_mat (fun (c : Sub) a b => c.jac _ a b), local_path e X w _ hF, sub_zero]
    have := hasDeriv_listsum e.subs (fun c t => c.res (fun b => local_ e X b + t * w (e.dof b)) a) (fun c => ∑ b ∈ range e.n, c.jac (local_ e X) a b * w (e.dof b)) 0 fun c hc => h c hc (fun b => w (e.dof b)) a
    refine this.congr_deriv ?_
    rw [← sum_list_comm]
    exact sum_congr rfl fun b _ => (list_sum_mul _ _ _).symm
  | some F =>
    simp only [hF] at h hreg ⊢
    obtain ⟨hp, K, g, hK⟩ := h
    have hnd : (F.u ++ F.f).Nodup := hp.nodup_iff.2 List.nodup_range
    have hdis : ∀ k ∈ F.u, k ∉ F.f := fun k hk hk' => (List.disjoint_of_nodup_append hnd) hk hk'
    have hJ : ∀ s, fullJac e s = fun a b => K a b * e.frac := by intro s; funext a b; simp [fullJac, (hK s a).1 b]
    have hs : ∀ t b, local_ e (fun i => X i + t * w i) b = local_ e X b + t * (if b ∈ F.f then 0 else w (e.dof b)) := by
      intro t b; simp only [local_, hF]; split <;> simp
    have hr : ∀ t, fullRes e (local_ e fun i => X i + t * w i) = fun a => fullRes e (local_ e X) a + t * (F.u.map fun l => K a l * e.frac * w (e.dof l)).sum := by
      intro t; funext a
      simp only [fullRes, (hK _ a).2]
      have : (∑ b ∈ range e.n, K a b * local_ e (fun i => X i + t * w i) b) = (∑ b ∈ range e.n, K a b * local_ e X b) + t * ∑ b ∈ range e.n, K a b * (if b ∈ F.f then 0 else w (e.dof b)) := by
        rw [mul_sum, ← sum_add_distrib]
        exact sum_congr rfl fun b _ => by rw [hs]; ring
      rw [this, sum_perm F.u F.f e.n hp fun b => K a b * (if b ∈ F.f then 0 else w (e.dof b))]
      have h0 : (F.f.map fun b => K a b * (if b ∈ F.f then 0 else w (e.dof b))).sum = 0 := by
        rw [list_sum_congr F.f _ (fun _ => (0 : ℝ)) fun b hb => by rw [if_pos hb, mul_zero]]; simp
      have h1 : (F.u.map fun b => K a b * (if b ∈ F.f then 0 else w (e.dof b))).sum * e.frac = (F.u.map fun l => K a l * e.frac * w (e.dof l)).sum := by
        rw [list_sum_mul]; exact list_sum_congr _ _ _ fun b hb => by rw [if_neg (hdis b hb)]; ring
      rw [h0, ← h1]; ring
    obtain ⟨m1, m2⟩ := put2_apply F.u hreg.1 (factoredJac solve (fullJac e (local_ e X)) F.u F.f) (fun a b => if a = b then 1 / 1000000 else 0)
    by_cases ha : a ∈ F.u
    · obtain ⟨i, rfl⟩ := List.get_of_mem ha
      have hval : ∀ t : ℝ, put F.u (factoredRes solve (fullJac e (local_ e fun i => X i + t * w i)) (fullRes e (local_ e fun i => X i + t * w i)) F.u F.f) (fun _ => 0) (F.u.get i) =
          factoredRes solve (fullJac e (local_ e X)) (fullRes e (local_ e X)) F.u F.f i + t * ((factoredJac solve (fullJac e (local_ e X)) F.u F.f).mulVec (sub (fun l => w (e.dof l)) F.u)) i := by
        intro t
        rw [(put_apply F.u hreg.1 _ _).1, hr t, factoredRes_affine, ← factoredRes_columns]
        simp only [hJ]
      simp only [hval]
      have hd := ((hasDerivAt_id' (0 : ℝ)).mul_const (((factoredJac solve (fullJac e (local_ e X)) F.u F.f).mulVec (sub (fun l => w (e.dof l)) F.u)) i)).const_add
        (factoredRes solve (fullJac e (local_ e X)) (fullRes e (local_ e X)) F.u F.f i)
      refine hd.congr_deriv ?_
      rw [one_mul, sum_perm F.u F.f e.n hp]
      have h0 : (F.f.map fun b => (put2 F.u (factoredJac solve (fullJac e (local_ e X)) F.u F.f) (fun a b => if a = b then 1 / 1000000 else 0) (F.u.get i) b -
          if F.u.get i = b ∧ F.u.get i ∉ F.u then 1 / 1000000 else 0) * w (e.dof b)).sum = 0 := by
        rw [list_sum_congr F.f _ (fun _ => (0 : ℝ)) ?_]; · simp
        intro b hb
        have hne : F.u.get i ≠ b := fun q => hdis _ ha (q ▸ hb)
        rw [m2 _ b fun hh => hdis b hh.2 hb, if_neg hne, if_neg fun hh => hne hh.1]; simp
      rw [h0, add_zero, sum_map_get]
      simp only [Matrix.mulVec, dotProduct]
      refine sum_congr rfl fun j _ => ?_
      rw [m1, if_neg fun hh => hh.2 ha, sub_zero]; rfl
    · have hval : ∀ t : ℝ, put F.u (factoredRes solve (fullJac e (local_ e fun i => X i + t * w i)) (fullRes e (local_ e fun i => X i + t * w i)) F.u F.f) (fun _ => 0) a = 0 := by
        intro t; exact (put_apply F.u hreg.1 _ _).2 a ha
      simp only [hval]
      refine (hasDerivAt_const (0 : ℝ) (0 : ℝ)).congr_deriv ?_
      symm
      refine sum_eq_zero fun b _ => ?_
      rw [m2 a b fun hh => ha hh.1]
      by_cases hab : a = b
      · simp [hab ▸ ha, hab]
      · simp [hab]

theorem gather2 (n N : Nat) (dof : Nat → Nat) (hN : ∀ a < n, dof a < N) (m : Nat → Nat → ℝ) (w : Nat → ℝ) (i : Nat) :
    ∑ j ∈ range N, (∑ a ∈ range n, ∑ b ∈ range n, if dof a = i ∧ dof b = j then m a b else 0) * w j = ∑ a ∈ range n, if dof a = i then ∑ b ∈ range n, m a b * w (dof b) else 0 := by
  have : ∀ j, (∑ a ∈ range n, ∑ b ∈ range n, if dof a = i ∧ dof b = j then m a b else 0) = ∑ b ∈ range n, if dof b = j then (∑ a ∈ range n, if dof a = i then m a b else 0) else 0 := by
    intro j
    rw [sum_comm]
    refine sum_congr rfl fun b _ => ?_
    by_cases h : dof b = j
    · simp [h]
    · simp [h]
  simp only [this]
  rw [gather n N dof hN]
  simp_rw [sum_mul]
  rw [sum_comm]
  refine sum_congr rfl fun a _ => ?_
  by_cases h : dof a = i
  · simp [h]
  · simp [h]

theorem gatherMat_mul (N : Nat) (l : List Elem) (hN : ∀ e ∈ l, ∀ a < e.n, e.dof a < N) (M : Elem → Nat → Nat → ℝ) (w : Nat → ℝ) (i : Nat) :
    ∑ j ∈ range N, gatherMat l M i j * w j = (l.map fun e => ∑ a ∈ range e.n, if e.dof a = i then ∑ b ∈ range e.n, M e a b * w (e.dof b) else 0).sum := by
  unfold gatherMat
  simp only [list_sum_mul]
  rw [sum_list_comm]
  exact list_sum_congr _ _ _ fun e he => gather2 e.n N e.dof (hN e he) (M e) w i

theorem gatherMat_sub (l : List Elem) (M M' : Elem → Nat → Nat → ℝ) (i j : Nat) : gatherMat l M i j - gatherMat l M' i j = gatherMat l (fun e a b => M e a b - M' e a b) i j := by
  unfold gatherMat
  induction l with
  | nil => simp
  | cons e l ih =>
    simp only [List.map_cons, List.sum_cons]
    rw [← ih]
    have : (∑ a ∈ range e.n, ∑ b ∈ range e.n, if e.dof a = i ∧ e.dof b = j then M e a b - M' e a b else 0) =
        (∑ a ∈ range e.n, ∑ b ∈ range e.n, if e.dof a = i ∧ e.dof b = j then M e a b else 0) - ∑ a ∈ range e.n, ∑ b ∈ range e.n, if e.dof a = i ∧ e.dof b = j then M' e a b else 0 := by
      rw [← sum_sub_distrib]
      refine sum_congr rfl fun a _ => ?_
      rw [← sum_sub_distrib]
      exact sum_congr rfl fun b _ => by split <;> simp
    rw [this]; ring

/-- The Jacobian, less the regularisation of dofs without material, is the derivative of the residual in every direction that keeps the constraints: on meshes without condensed elements for every nonlinear
problem whose element Jacobians are right, with condensed elements for linear problems. -/
theorem C138_tangent (C : Nat → Bool) (solve : Solver) (N : Nat) (X w : Nat → ℝ) (ps : List (List Elem)) (hN : ∀ e ∈ ps.flatten, ∀ a < e.n, e.dof a < N) (hw : ∀ i, C i = true → w i = 0)
    (hreg : ∀ e ∈ ps.flatten, material e = true → Regular solve X e) (hd : ∀ e ∈ ps.flatten, material e = true → Differentiable e X) (i : Nat) (hi : C i = false) :
    HasDerivAt (fun t : ℝ => residual C solve (fun j => X j + t * w j) ps i) (∑ j ∈ range N, (jacobian C solve X ps i j - penalty ps.flatten i j) * w j) 0 := by
  have h1 : ∀ t : ℝ, residual C solve (fun j => X j + t * w j) ps i = gatherVec (ps.flatten.filter material) (fun e => elemVec solve e (fun j => X j + t * w j)) i := by
    intro t; rw [residual_apply, hi]; simp
  simp only [h1]
  have h2 : ∑ j ∈ range N, (jacobian C solve X ps i j - penalty ps.flatten i j) * w j = ∑ j ∈ range N, gatherMat (ps.flatten.filter material) (fun e a b => elemMat solve e X a b - voidDiag e a b) i j * w j := by
    refine sum_congr rfl fun j _ => ?_
    cases hj : C j
    · rw [jacobian_apply C solve X ps i j hi hj, penalty, ← gatherMat_sub]; ring
    · rw [hw j hj]; ring
  rw [h2, gatherMat_mul N _ fun e he => hN e (List.mem_filter.1 he).1]
  unfold gatherVec
  refine hasDeriv_listsum _ _ _ _ fun e he => ?_
  obtain ⟨he, hm⟩ := List.mem_filter.1 he
  refine HasDerivAt.fun_sum fun a _ => ?_
  by_cases ha : e.dof a = i
  · simp only [ha, if_true]; exact elemVec_deriv solve e X w (hreg e he hm) (hd e he hm) a
  · simp only [ha, if_false]; exact hasDerivAt_const _ _

/-- Dof `i` carries no material: in every material element it belongs to, it is a condensed void row. -/
def Inactive (l : List Elem) (i : Nat) : Prop := ∀ e ∈ l, material e = true → ∀ a < e.n, e.dof a = i → ∃ F, e.factor = some F ∧ a ∉ F.u

/-- A free dof without material has no residual, is coupled to no other dof, and its diagonal entry is positive as soon as it belongs to an empty or a condensed element: a Newton step leaves it unchanged and
does not see it. -/
theorem C138_void_partial (C : Nat → Bool) (solve : Solver) (X : Nat → ℝ) (ps : List (List Elem)) (hreg : ∀ e ∈ ps.flatten, material e = true → Regular solve X e) (i : Nat) (hi : C i = false)
    (h : Inactive ps.flatten i) :
    residual C solve X ps i = 0 ∧ (∀ j, C j = false → j ≠ i → jacobian C solve X ps i j = 0 ∧ jacobian C solve X ps j i = 0) ∧
    ((∃ e ∈ ps.flatten, (∃ a < e.n, e.dof a = i) ∧ (empty e = true ∨ material e = true)) → 0 < jacobian C solve X ps i i) := by
  have hmat : ∀ e ∈ ps.flatten.filter material, ∀ a < e.n, e.dof a = i → ∀ b, (elemMat solve e X a b = if a = b then 1 / 1000000 else 0) ∧ (elemMat solve e X b a = if a = b then 1 / 1000000 else 0) ∧ elemVec solve e X a = 0 := by
    intro e he a ha hai b
    obtain ⟨he, hm⟩ := List.mem_filter.1 he
    obtain ⟨F, hF, hu⟩ := h e he hm a ha hai
    have hr := hreg e he hm
    unfold Regular at hr
    unfold elemMat elemVec
    simp only [hF] at hr ⊢
    obtain ⟨_, m2⟩ := put2_apply F.u hr.1 (factoredJac solve (fullJac e (elemSol e X)) F.u F.f) (fun a b => if a = b then 1 / 1000000 else 0)
    refine ⟨m2 a b fun q => hu q.1, (m2 b a fun q => hu q.2).trans ?_, (put_apply F.u hr.1 _ _).2 a hu⟩
    by_cases hab : a = b
    · simp [hab]
    · simp [hab, Ne.symm hab]
  refine ⟨?_, ?_, ?_⟩
  · rw [residual_apply, hi]
    simp only [Bool.false_eq_true, if_false, gatherVec]
    rw [list_sum_congr _ _ (fun _ => (0 : ℝ)) ?_]; · exact list_zero _
    intro e he
    refine sum_eq_zero fun a ha => ?_
    split
    · rename_i hai; exact (hmat e he a (mem_range.1 ha) hai 0).2.2
    · rfl
  · intro j hj hne
    rw [jacobian_apply C solve X ps i j hi hj, jacobian_apply C solve X ps j i hj hi, if_neg (Ne.symm hne), if_neg hne]
    simp only [add_zero, gatherMat]
    constructor
    · rw [list_sum_congr _ _ (fun _ => (0 : ℝ)) ?_]; · exact list_zero _
      intro e he
      refine sum_eq_zero fun a ha => sum_eq_zero fun b _ => ?_
      split
      · rename_i hab
        rw [(hmat e he a (mem_range.1 ha) hab.1 b).1, if_neg]
        rintro rfl; exact hne (hab.2.symm.trans hab.1)
      · rfl
    · rw [list_sum_congr _ _ (fun _ => (0 : ℝ)) ?_]; · exact list_zero _
      intro e he
      refine sum_eq_zero fun a _ => sum_eq_zero fun b hb => ?_
      split
      · rename_i hab
        rw [(hmat e he b (mem_range.1 hb) hab.2 a).2.1, if_neg]
        rintro rfl; exact hne (hab.1.symm.trans hab.2)
      · rfl
  · rintro ⟨e, he, ⟨a, ha, hai⟩, hem⟩
    rw [jacobian_apply C solve X ps i i hi hi, if_pos rfl]
    have nn1 : ∀ e ∈ ps.flatten.filter material, 0 ≤ ∑ a ∈ range e.n, ∑ b ∈ range e.n, if e.dof a = i ∧ e.dof b = i then elemMat solve e X a b else 0 := by
      intro e he
      refine sum_nonneg fun a ha => sum_nonneg fun b _ => ?_
      split
      · rename_i hab
        rw [(hmat e he a (mem_range.1 ha) hab.1 b).1]; split <;> norm_num
      · exact le_refl _
    have nn2 : ∀ e ∈ ps.flatten.filter empty, (0 : ℝ) ≤ ∑ a ∈ range e.n, if e.dof a = i then 1 else 0 := fun e _ => sum_nonneg fun a _ => by split <;> norm_num
    have pos : ∀ (l : List Elem) (f : Elem → ℝ), (∀ e ∈ l, 0 ≤ f e) → 0 ≤ (l.map f).sum ∧ ∀ e ∈ l, f e ≤ (l.map f).sum := by
      intro l f
      induction l with
      | nil => intro _; simp
      | cons x l ih =>
        intro hl
        obtain ⟨h1, h2⟩ := ih fun e he => hl e (by simp [he])
        have hx := hl x (by simp)
        simp only [List.map_cons, List.sum_cons]
        refine ⟨by linarith, fun e he => ?_⟩
        rcases List.mem_cons.1 he with rfl | he
        · linarith
        · linarith [h2 e he]
    obtain ⟨p1, p2⟩ := pos _ _ nn1
    obtain ⟨q1, q2⟩ := pos _ _ nn2
    rcases hem with hem | hem
    · have := q2 e (List.mem_filter.2 ⟨he, hem⟩)
      have h1 : (1 : ℝ) ≤ ∑ a ∈ range e.n, if e.dof a = i then 1 else 0 := by
        have := single_le_sum (f := fun a => if e.dof a = i then (1 : ℝ) else 0) (fun a _ => by split <;> norm_num) (mem_range.2 ha)
        simpa [hai] using this
      have : 0 < voidCount ps.flatten i := by unfold voidCount; linarith
      have : 0 < voidCount ps.flatten i / 100000000000000 := by positivity
      unfold gatherMat; linarith
    · have he' := List.mem_filter.2 ⟨he, hem⟩
      have := p2 e he'
      have h1 : (1 / 1000000 : ℝ) ≤ ∑ a ∈ range e.n, ∑ b ∈ range e.n, if e.dof a = i ∧ e.dof b = i then elemMat solve e X a b else 0 := by
        have hterm : ∀ a' ∈ range e.n, 0 ≤ ∑ b ∈ range e.n, if e.dof a' = i ∧ e.dof b = i then elemMat solve e X a' b else 0 := by
          intro a' ha'
          refine sum_nonneg fun b _ => ?_
          split
          · rename_i hab
            rw [(hmat e he' a' (mem_range.1 ha') hab.1 b).1]; split <;> norm_num
          · exact le_refl _
        have h2 := single_le_sum hterm (mem_range.2 ha)
        have hterm' : ∀ b ∈ range e.n, 0 ≤ if e.dof a = i ∧ e.dof b = i then elemMat solve e X a b else 0 := by
          intro b _
          split
          · rw [(hmat e he' a ha hai b).1]; split <;> norm_num
          · exact le_refl _
        have h3 := single_le_sum hterm' (mem_range.2 ha)
        rw [if_pos ⟨hai, hai⟩, (hmat e he' a ha hai a).1, if_pos rfl] at h3
        linarith
      have : 0 ≤ voidCount ps.flatten i / 100000000000000 := by unfold voidCount; positivity
      unfold gatherMat; linarith

/-- An element that touches the interface from the void side (a node or an edge on the level set, everything else negative) is neither empty nor does it have material sub-elements: it contributes nothing, so a
dof that belongs to no other element has a zero row and the Jacobian is singular. Example: level set 0 on one edge, -1 on the other. -/
theorem C138_void_fails (C : Nat → Bool) (solve : Solver) (X : Nat → ℝ) (t : ℝ) (h0 : 0 < t) (h1 : t < 1) (mid : ℝ) :
    ∃ cut, CutCell.initElem t ![0, 0, -1, -1] [] mid = some cut ∧ cut.onNeg = false ∧ cut.pos = [] ∧ ∀ (e : Elem) (g : CutCell.Sub → Sub), e.neg = cut.onNeg → e.subs = cut.pos.map g → e.ind = [1] → e.factor = none →
      ∀ i j, C i = false → C j = false → jacobian C solve X [[e]] i j = 0 := by
  have mx : CutCell.maxVal (CutCell.nodeVals ![0, 0, -1, -1] []) = 0 := by
    simp [CutCell.maxVal, CutCell.nodeVals]; norm_num
  have mn : CutCell.minVal (CutCell.nodeVals ![0, 0, -1, -1] []) = -1 := by
    simp [CutCell.minVal, CutCell.nodeVals]
  have n1 : CutCell.nOnSet t ![0, 0, -1, -1] = 2 := by
    simp [CutCell.nOnSet, h0.le, not_le.2 h1]
  have cs : CutCell.colinearSide t ![0, 0, -1, -1] = some 0 := by
    simp [CutCell.colinearSide, h0.le]
  refine ⟨⟨.colinearEdge, [], [CutCell.whole (some 0)], [], [], false, false⟩, ?_, rfl, rfl, ?_⟩
  · unfold CutCell.initElem
    simp only [mx, mn, n1, cs]
    have a1 : ¬ (-1 > t) := by linarith
    have a2 : ¬ (0 < -t) := by linarith
    have a3 : ¬ (0 > t) := by linarith
    have a4 : -1 < t := by linarith
    simp [a1, a2, a3, a4]
  · intro e g hn hs hi hF i j hi' hj'
    rw [jacobian_apply C solve X _ i j hi' hj']
    have hv : voidCount [e] i = 0 := by
      have : empty e = false := by simp [empty, hn, hi, indMax, tol]; norm_num
      simp [voidCount, this]
    have hm : elemMat solve e X = fun _ _ => 0 := by simp [elemMat, hF, hs]
    simp only [List.flatten_cons, List.flatten_nil, List.append_nil, hv, zero_div, ite_self, add_zero, gatherMat]
    rw [list_sum_congr _ _ (fun _ => (0 : ℝ)) ?_]; · exact list_zero _
    intro e' he'
    have : e' = e := by simpa using (List.mem_filter.1 he').1
    subst this
    simp [hm]

/-- The elements with the residuals of the sub-elements at the value `p` of a parameter. -/
def atParam (R : Sub → ℝ → (Nat → ℝ) → Nat → ℝ) (p : ℝ) (e : Elem) : Elem := { e with subs := e.subs.map fun c => { c with res := R c p } }

theorem filter_map_atParam (R : Sub → ℝ → (Nat → ℝ) → Nat → ℝ) (p : ℝ) (l : List Elem) : (l.map (atParam R p)).filter material = (l.filter material).map (atParam R p) := by
  rw [List.filter_map]; rfl

theorem sensProc_apply (C : Nat → Bool) (solve : Solver) (top : Bool) (X : Nat → ℝ) (es : List Elem) (i : Nat) :
    sensProc C solve top X es i = if C i then 0 else gatherVec (es.filter material) (fun e a => if e.skip then 0 else sensVec solve top e X a) i := by
  unfold sensProc
  rw [foldl_add (fun e i => if e.skip then 0 else if material e then (if C i then 0 else ∑ a ∈ range e.n, if e.dof a = i then sensVec solve top e X a else 0) else 0)]
  · rw [zero_add]
    unfold gatherVec
    induction es with
    | nil => simp
    | cons e es ih =>
      rw [List.map_cons, List.sum_cons, ih]
      cases hm : material e <;> cases hC : C i <;> cases hs : e.skip <;> simp [hm, hs]
  · intro R e i
    cases hs : e.skip <;> cases hm : material e
    · simp
    · simp only [Bool.false_eq_true, if_false, if_true]; rw [addVector_apply, sum_conVec]
    · simp
    · simp

theorem sensRhs_apply (C : Nat → Bool) (solve : Solver) (top : Bool) (X : Nat → ℝ) (ps : List (List Elem)) (i : Nat) :
    sensRhs C solve top X ps i = if C i then 0 else gatherVec (ps.flatten.filter material) (fun e a => if e.skip then 0 else sensVec solve top e X a) i := by
  unfold sensRhs
  simp only [sensProc_apply]
  cases hC : C i
  · simp only [Bool.false_eq_true, if_false]; unfold gatherVec; exact flatten_filter_sum _ _ _
  · simp

theorem sensVec_plain (solve : Solver) (e : Elem) (X : Nat → ℝ) (hF : e.factor = none) (a : Nat) : sensVec solve false e X a = (e.subs.map fun c => c.dres (local_ e X) a).sum := by
  unfold sensVec
  rw [elemSol_eq]
  suffices H : ∀ (l : List Sub) (st : (Nat → ℝ) × (Nat → ℝ)), (l.foldl (sensSub solve false e (local_ e X)) st).1 a = st.1 a + (l.map fun c => c.dres (local_ e X) a).sum by rw [H]; simp
  intro l
  induction l with
  | nil => intro st; simp
  | cons c l ih =>
    intro st
    rw [List.foldl_cons, ih]
    simp [sensSub, hF]; ring

/-- Without condensed elements the right hand side of the sensitivity equation is the derivative of the residual with respect to the parameter at fixed solution, for every parameter that moves no boundary. -/
theorem C138_sensitivity_partial (C : Nat → Bool) (solve : Solver) (X : Nat → ℝ) (ps : List (List Elem)) (R : Sub → ℝ → (Nat → ℝ) → Nat → ℝ) (p : ℝ)
    (hF : ∀ e ∈ ps.flatten, e.factor = none)
    (hR : ∀ e ∈ ps.flatten, ∀ c ∈ e.subs, ∀ a, HasDerivAt (fun p => R c p (local_ e X) a) (if e.skip then 0 else c.dres (local_ e X) a) p) (i : Nat) :
    HasDerivAt (fun p => residual C solve X (ps.map fun es => es.map (atParam R p)) i) (sensRhs C solve false X ps i) p := by
  have hfl : ∀ p, (ps.map fun es => es.map (atParam R p)).flatten = ps.flatten.map (atParam R p) := by
    intro p; rw [List.map_flatten]
  rw [sensRhs_apply]
  simp only [residual_apply, hfl, filter_map_atParam]
  cases hC : C i
  swap
  · simpa using hasDerivAt_const p (0 : ℝ)
  simp only [Bool.false_eq_true, if_false, gatherVec, List.map_map, Function.comp_def]
  refine hasDeriv_listsum _ _ _ _ fun e he => ?_
  obtain ⟨he, hm⟩ := List.mem_filter.1 he
  show HasDerivAt (fun p => ∑ a ∈ range e.n, if e.dof a = i then elemVec solve (atParam R p e) X a else 0) _ _
  refine HasDerivAt.fun_sum fun a _ => ?_
  by_cases ha : e.dof a = i
  · simp only [ha, if_true]
    have hv : ∀ p, elemVec solve (atParam R p e) X a = (e.subs.map fun c => R c p (local_ e X) a).sum := by
      intro p
      have hf : (atParam R p e).factor = none := hF e he
      have hl : local_ (atParam R p e) X = local_ e X := rfl
      unfold elemVec
      rw [elemSol_eq, hl]
      simp only [hf]
      rw [foldl_vec (fun (c : Sub) a => c.res (local_ e X) a)]
      simp [atParam, Function.comp_def]
    simp only [hv]
    have := hasDeriv_listsum e.subs (fun c p => R c p (local_ e X) a) (fun c => if e.skip then 0 else c.dres (local_ e X) a) p fun c hc => hR e he c hc a
    refine this.congr_deriv ?_
    cases hsk : e.skip
    · simp [sensVec_plain solve e X (hF e he)]
    · simp
  · simp only [ha, if_false]; exact hasDerivAt_const _ _

/-- What counts as a material element and as an empty one, for every list of nodal indicators: an element that is not on the negative side and has a node with indicator above 1e-10; an element on the negative
side or with all indicators below 1e-10. -/
theorem C138_material (e : Elem) (h : e.ind ≠ []) :
    (material e = true ↔ e.neg = false ∧ ∃ x ∈ e.ind, (1 / 10000000000 : ℝ) < x) ∧ (empty e = true ↔ e.neg = true ∨ ∀ x ∈ e.ind, x < (1 / 10000000000 : ℝ)) := by
  have hmax : ∀ (l : List ℝ) (x c : ℝ), (c < l.foldl max x ↔ c < x ∨ ∃ y ∈ l, c < y) ∧ (l.foldl max x < c ↔ x < c ∧ ∀ y ∈ l, y < c) := by
    intro l
    induction l with
    | nil => intro x c; simp
    | cons y l ih =>
      intro x c
      rw [List.foldl_cons, (ih _ c).1, (ih _ c).2, lt_max_iff, max_lt_iff]
      simp only [List.mem_cons, exists_eq_or_imp, forall_eq_or_imp, or_assoc, and_assoc, and_self]
  unfold material empty
  cases hi : e.ind with
  | nil => exact absurd hi h
  | cons x l =>
    have h1 := (hmax l x (1 / 10000000000)).1
    have h2 := (hmax l x (1 / 10000000000)).2
    constructor
    · rw [Bool.and_eq_true, decide_eq_true_iff, Bool.not_eq_true', and_comm, indMax, tol, gt_iff_lt, h1]
      simp only [List.mem_cons, exists_eq_or_imp]
    · rw [Bool.or_eq_true, decide_eq_true_iff, indMax, tol, h2]
      simp only [List.mem_cons, forall_eq_or_imp]

/-- Non-vacuity: one node with indicator 1, one with indicator 0. -/
example : material ⟨2, id, false, [0, 1], [], [], ⟨fun _ _ => 0, fun _ _ _ => 0, fun _ _ => 0, none, fun _ => 0, fun _ _ => 0, fun _ _ => 0⟩, 1, none, false⟩ = true :=
  ((C138_material _ (by simp)).1).2 ⟨rfl, 1, by simp, by norm_num⟩

/-- The material sub-elements without a side on the interface (at most one) come first. -/
def Ordered (l : List Sub) : Prop := ∃ l1 l2, l = l1 ++ l2 ∧ l1.length ≤ 1 ∧ (∀ c ∈ l1, c.bnd = none) ∧ ∀ c ∈ l2, c.bnd ≠ none

/-- The boundary term of a sub-element, zero without a side on the interface. -/
def bndVal (c : Sub) (s : Nat → ℝ) (a : Nat) : ℝ := match c.bnd with | some b => b s a | none => 0

/-- Contribution of an element to the right hand side for a topology parameter: volume and boundary terms of its material sub-elements, condensed for an element of the dof handler. -/
def IsTopology (e : Elem) (X v : Nat → ℝ) : Prop :=
  match e.factor with
  | none => ∀ a, v a = (e.subs.map fun c => c.dres (local_ e X) a + bndVal c (local_ e X) a).sum
  | some F => Condensed (fun a b => e.frac * e.full.jac (local_ e X) a b) (fun a => (e.subs.map fun c => c.dres (local_ e X) a + bndVal c (local_ e X) a).sum) F.u F.f v

/-- What one sub-element adds. -/
def topTerm (solve : Solver) (e : Elem) (s : Nat → ℝ) (c : Sub) (a : Nat) : ℝ :=
  match e.factor with
  | none => c.dres s a + bndVal c s a
  | some F => put F.u (factoredRes solve (fullJac e s) (fun a => c.dres s a + bndVal c s a) F.u F.f) (fun _ => 0) a

theorem sensSub_top (solve : Solver) (e : Elem) (s : Nat → ℝ) (st : (Nat → ℝ) × (Nat → ℝ)) (c : Sub) (h : topology c s st.2 = bndVal c s) (a : Nat) :
    (sensSub solve true e s st c).1 a = st.1 a + topTerm solve e s c a := by
  unfold sensSub topTerm
  simp only [if_true, h]
  cases e.factor <;> rfl

theorem sensVec_top (solve : Solver) (e : Elem) (X : Nat → ℝ) (h : Ordered e.subs) (a : Nat) : sensVec solve true e X a = (e.subs.map fun c => topTerm solve e (local_ e X) c a).sum := by
  obtain ⟨l1, l2, hl, hlen, h1, h2⟩ := h
  unfold sensVec
  rw [elemSol_eq, hl]
  have H2 : ∀ (l : List Sub), (∀ c ∈ l, c.bnd ≠ none) → ∀ st : (Nat → ℝ) × (Nat → ℝ), (l.foldl (sensSub solve true e (local_ e X)) st).1 a = st.1 a + (l.map fun c => topTerm solve e (local_ e X) c a).sum := by
    intro l
    induction l with
    | nil => intro _ st; simp
    | cons c l ih =>
      intro hc st
      rw [List.foldl_cons, ih fun c' h' => hc c' (by simp [h']), sensSub_top]
      · simp; ring
      · have := hc c (by simp)
        unfold topology bndVal
        cases hb : c.bnd with
        | none => exact absurd hb this
        | some b => rfl
  rw [List.foldl_append, H2 l2 h2]
  match l1, hlen, h1 with
  | [], _, _ => simp
  | [c], _, h1 =>
    rw [List.foldl_cons, List.foldl_nil, sensSub_top]
    · simp
    · have := h1 c (by simp)
      unfold topology bndVal
      rw [this]

/-- The order matters: a sub-element without a side on the interface that comes after one with such a side gets the boundary term of its predecessor a second time. -/
theorem C138_stale_fails (solve : Solver) (X : Nat → ℝ) (e : Elem) (hF : e.factor = none) (c c' : Sub) (b : (Nat → ℝ) → Nat → ℝ) (hb : c.bnd = some b) (hb' : c'.bnd = none) (hs : e.subs = [c, c']) (a : Nat) :
    sensVec solve true e X a = (e.subs.map fun c => c.dres (local_ e X) a + bndVal c (local_ e X) a).sum + b (local_ e X) a := by
  unfold sensVec
  rw [elemSol_eq, hs]
  simp only [List.foldl_cons, List.foldl_nil, sensSub, hF, if_true, topology, hb, hb', bndVal, List.map_cons, List.map_nil, List.sum_cons, List.sum_nil]
  ring

/-- Non-vacuity: the right hand side is 2 where the moving side contributes 1. -/
example (solve : Solver) : ∃ e : Elem, sensVec solve true e (fun _ => 0) 0 = 2 ∧ (e.subs.map fun c => c.dres (local_ e fun _ => 0) 0 + bndVal c (local_ e fun _ => 0) 0).sum = 1 := by
  refine ⟨⟨1, id, false, [1], [⟨fun _ _ => 0, fun _ _ _ => 0, fun _ _ => 0, some fun _ _ => 1, fun _ => 0, fun _ _ => 0, fun _ _ => 0⟩, ⟨fun _ _ => 0, fun _ _ _ => 0, fun _ _ => 0, none, fun _ => 0, fun _ _ => 0, fun _ _ => 0⟩], [], ⟨fun _ _ => 0, fun _ _ _ => 0, fun _ _ => 0, none, fun _ => 0, fun _ _ => 0, fun _ _ => 0⟩, 1, none, false⟩, ?_, ?_⟩
  · rw [C138_stale_fails solve _ _ rfl _ _ _ rfl rfl rfl 0]; simp [bndVal]; norm_num
  · simp [bndVal]

theorem factoredRes_sum {α : Type} (solve : Solver) (J : Nat → Nat → ℝ) (q : α → Nat → ℝ) (l : List α) (u f : List Nat) (i : Fin u.length) :
    factoredRes solve J (fun a => (l.map fun c => q c a).sum) u f i = (l.map fun c => factoredRes solve J (q c) u f i).sum := by
  induction l with
  | nil =>
    have h0 : sub (fun _ => (0 : ℝ)) f = 0 := rfl
    simp only [List.map_nil, List.sum_nil, factoredRes, h0, Matrix.mulVec_zero, sub_zero]
    rfl
  | cons c l ih =>
    simp only [List.map_cons, List.sum_cons]
    have := factoredRes_affine solve J (q c) (fun a => (l.map fun c => q c a).sum) 1 u f i
    simp only [one_mul] at this
    rw [this, ih]

theorem topology_of_ordered (solve : Solver) (X : Nat → ℝ) (e : Elem) (hreg : Regular solve X e) (h : Ordered e.subs) : IsTopology e X (sensVec solve true e X) := by
  unfold Regular at hreg
  unfold IsTopology
  have hv : sensVec solve true e X = fun a => (e.subs.map fun c => topTerm solve e (local_ e X) c a).sum := funext (sensVec_top solve e X h)
  rw [hv]
  unfold topTerm
  cases hF : e.factor with
  | none => intro a; rfl
  | some F =>
    simp only [hF] at hreg ⊢
    have : (fun a => (e.subs.map fun c => put F.u (factoredRes solve (fullJac e (local_ e X)) (fun a => c.dres (local_ e X) a + bndVal c (local_ e X) a) F.u F.f) (fun _ => 0) a).sum) =
        put F.u (factoredRes solve (fullJac e (local_ e X)) (fun a => (e.subs.map fun c => c.dres (local_ e X) a + bndVal c (local_ e X) a).sum) F.u F.f) (fun _ => 0) := by
      funext a
      by_cases ha : a ∈ F.u
      · obtain ⟨i, rfl⟩ := List.get_of_mem ha
        rw [(put_apply F.u hreg.1 _ _).1, factoredRes_sum solve _ (fun (c : Sub) a => c.dres (local_ e X) a + bndVal c (local_ e X) a)]
        exact list_sum_congr _ _ _ fun c _ => (put_apply F.u hreg.1 _ _).1 i
      · rw [(put_apply F.u hreg.1 _ _).2 a ha, list_sum_congr _ _ (fun _ => (0 : ℝ)) fun c _ => (put_apply F.u hreg.1 _ _).2 a ha]; exact list_zero _
    rw [this, ← fullJac_comm]
    exact condensed_put solve _ _ _ _ hreg.1 hreg.2.1 hreg.2.2

theorem cut_order {t : ℝ} {v : Fin 4 → ℝ} {extra : List ℝ} {mid : ℝ} {cut : CutCell.Cut} (h : CutCell.initElem t v extra mid = some cut) :
    ∃ l1 l2, cut.pos = l1 ++ l2 ∧ l1.length ≤ 1 ∧ (∀ c ∈ l1, c.iface = none) ∧ ∀ c ∈ l2, c.iface ≠ none := by
  have whole_none : ∃ l1 l2, [CutCell.whole none] = l1 ++ l2 ∧ l1.length ≤ 1 ∧ (∀ c ∈ l1, c.iface = none) ∧ ∀ c ∈ l2, c.iface ≠ none :=
    ⟨[CutCell.whole none], [], rfl, le_refl _, by simp [CutCell.whole], by simp⟩
  have nil : ∃ l1 l2, ([] : List CutCell.Sub) = l1 ++ l2 ∧ l1.length ≤ 1 ∧ (∀ c ∈ l1, c.iface = none) ∧ ∀ c ∈ l2, c.iface ≠ none := ⟨[], [], rfl, by simp, by simp, by simp⟩
  unfold CutCell.initElem at h
  simp only at h
  split at h
  · cases h; exact whole_none
  · split at h
    · cases h; exact nil
    · split at h
      · split at h
        · cases h; exact nil
        · cases h; exact whole_none
      · split at h
        · cases h
          simp only
          split
          · exact ⟨[], _, rfl, by simp, by simp, by simp [CutCell.whole]⟩
          · exact nil
        · unfold CutCell.quad4 at h
          simp only at h
          generalize CutCell.chooseMode (CutCell.sideHit t v) (CutCell.nodeHit t v) (decide (mid * v 0 > 0)) = m at h
          obtain ⟨mode, rs, rn⟩ := m
          unfold CutCell.build at h
          have all_some : ∀ l : List CutCell.Sub, (∀ c ∈ l, c.iface ≠ none) → ∃ l1 l2, l = l1 ++ l2 ∧ l1.length ≤ 1 ∧ (∀ c ∈ l1, c.iface = none) ∧ ∀ c ∈ l2, c.iface ≠ none :=
            fun l hl => ⟨[], l, rfl, by simp, by simp, hl⟩
          cases mode <;> simp only at h
          · cases h
          · cases h
          · cases h
            simp only
            split
            · exact ⟨[_], [_], rfl, le_refl _, by simp, by simp⟩
            · exact all_some _ (by simp)
          · cases h
            simp only
            split <;> exact all_some _ (by simp)
          · cases h
            simp only
            split <;> exact all_some _ (by simp)
          · split at h
            · cases h
              simp only
              split <;> exact all_some _ (by simp)
            · split at h
              · cases h
                simp only
                split <;> exact all_some _ (by simp)
              · cases h
          · cases h
            simp only
            split <;> exact all_some _ (by simp)
          · cases h
            simp only
            split <;> exact all_some _ (by simp)
          · cases h

/-- For a topology parameter every material element cut by a level set contributes the volume and boundary terms of its material sub-elements, each exactly once (condensed, for an element of the dof handler):
the sub-elements of every cut come in an order for which the boundary term kept from one sub-element to the next does no harm. -/
theorem C138_topology (solve : Solver) (X : Nat → ℝ) (e : Elem) (hreg : Regular solve X e) {t : ℝ} {v : Fin 4 → ℝ} {extra : List ℝ} {mid : ℝ} {cut : CutCell.Cut}
    (h : CutCell.initElem t v extra mid = some cut) (g : CutCell.Sub → Sub) (hsub : e.subs = cut.pos.map g) (hg : ∀ s ∈ cut.pos, (g s).bnd = none ↔ s.iface = none) :
    IsTopology e X (sensVec solve true e X) := by
  refine topology_of_ordered solve X e hreg ?_
  obtain ⟨l1, l2, hl, hlen, h1, h2⟩ := cut_order h
  refine ⟨l1.map g, l2.map g, by rw [hsub, hl, List.map_append], by simpa using hlen, ?_, ?_⟩
  · intro c hc
    obtain ⟨s, hs, rfl⟩ := List.mem_map.1 hc
    exact (hg s (by rw [hl]; simp [hs])).2 (h1 s hs)
  · intro c hc
    obtain ⟨s, hs, rfl⟩ := List.mem_map.1 hc
    exact fun q => h2 s hs ((hg s (by rw [hl]; simp [hs])).1 q)


/-! Concrete elements. -/

/-- A sub-element with residual `K s`. -/
def linSub (K : Nat → Nat → ℝ) (dres : (Nat → ℝ) → Nat → ℝ) : Sub :=
  ⟨fun s a => ∑ b ∈ range 2, K a b * s b, fun _ a b => K a b, dres, none, fun s => s 1, fun _ a => if a = 1 then 1 else 0, fun _ ds => ds 1⟩

/-- Two dofs, stiffness `[[2,-1],[-1,1]] p`, material fraction one half; dof 1 is condensed (stored value 0); one material sub-element with stiffness `[[1,-1],[-1,1]] p`. -/
def exK (p : ℝ) (a b : Nat) : ℝ := if a = 0 ∧ b = 0 then 2 * p else if a = b then p else -p

/-- See `exK`. -/
def exElem (p : ℝ) : Elem :=
  ⟨2, id, false, [1], [linSub (fun a b => if a = b then p else -p) fun s a => ∑ b ∈ range 2, (if a = b then 1 else -1) * s b], [], linSub (exK p) fun _ _ => 0, 1 / 2, some ⟨[0], [1], fun _ => 0⟩, false⟩

theorem exElem_material (p : ℝ) : material (exElem p) = true := by simp [material, exElem, indMax, tol]; norm_num

theorem inv1 (A : Matrix (Fin 1) (Fin 1) ℝ) (h : A 0 0 ≠ 0) : invMat InterfaceDofs.solveEx A 0 0 = (A 0 0)⁻¹ := by
  have hd : IsUnit A.det := by rw [Matrix.det_fin_one]; exact isUnit_iff_ne_zero.2 h
  have := congrFun (congrFun (invMat_right InterfaceDofs.solveEx A (InterfaceDofs.solveEx_solves A hd)) 0) 0
  rw [Matrix.mul_apply, Fin.sum_univ_one, Matrix.one_apply_eq] at this
  field_simp
  linarith

theorem factored1 (J : Nat → Nat → ℝ) (r : Nat → ℝ) (h : J 1 1 ≠ 0) (i : Fin 1) : factoredRes InterfaceDofs.solveEx J r [0] [1] i = r 0 - J 0 1 * (J 1 1)⁻¹ * r 1 := by
  have hi : i = 0 := Subsingleton.elim _ _
  subst hi
  have hb : block J [1] [1] 0 0 ≠ 0 := h
  have := inv1 (block J [1] [1]) hb
  unfold factoredRes
  rw [Pi.sub_apply]
  have h1 : (block J [0] [1] * invMat InterfaceDofs.solveEx (block J [1] [1])).mulVec (sub r [1]) (0 : Fin 1) = J 0 1 * (J 1 1)⁻¹ * r 1 := by
    simp only [Matrix.mulVec, dotProduct]
    rw [show (∑ i : Fin [1].length, (block J [0] [1] * invMat InterfaceDofs.solveEx (block J [1] [1])) 0 i * sub r [1] i) = (block J [0] [1] * invMat InterfaceDofs.solveEx (block J [1] [1])) 0 0 * sub r [1] 0 from Fin.sum_univ_one _]
    rw [Matrix.mul_apply]
    rw [show (∑ j : Fin [1].length, block J [0] [1] 0 j * invMat InterfaceDofs.solveEx (block J [1] [1]) j 0) = block J [0] [1] 0 0 * invMat InterfaceDofs.solveEx (block J [1] [1]) 0 0 from Fin.sum_univ_one _]
    rw [this]; rfl
  rw [h1]; rfl

theorem put0 (w : Fin [0].length → ℝ) (v : Nat → ℝ) : put [0] w v 0 = w 0 := (put_apply [0] (by simp) w v).1 0

theorem exRes (p : ℝ) (hp : p ≠ 0) : residual (fun _ => false) InterfaceDofs.solveEx (fun _ => 1) [[exElem p]] 0 = p / 2 := by
  rw [residual_apply]
  have hm := exElem_material p
  simp only [Bool.false_eq_true, if_false, List.flatten_cons, List.flatten_nil, List.append_nil, gatherVec, List.filter_cons, hm, if_true, List.filter_nil, List.map_cons, List.map_nil, List.sum_cons, List.sum_nil, add_zero]
  have h0 : elemVec InterfaceDofs.solveEx (exElem p) (fun _ => 1) 0 = p / 2 := by
    unfold elemVec
    rw [elemSol_eq]
    simp only [exElem]
    rw [put0, factored1]
    · simp [fullRes, fullJac, linSub, exK, local_, sum_range_succ]; field_simp; ring
    · simp [fullJac, linSub, exK, hp]
  show ∑ a ∈ range 2, _ = _
  rw [sum_range_succ, sum_range_succ, sum_range_zero]
  simp [exElem] at h0 ⊢
  exact h0

theorem exSens (p : ℝ) (hp : p ≠ 0) : sensRhs (fun _ => false) InterfaceDofs.solveEx false (fun _ => 1) [[exElem p]] 0 = 0 := by
  rw [sensRhs_apply]
  have hm := exElem_material p
  simp only [Bool.false_eq_true, if_false, List.flatten_cons, List.flatten_nil, List.append_nil, gatherVec, List.filter_cons, hm, if_true, List.filter_nil, List.map_cons, List.map_nil, List.sum_cons, List.sum_nil, add_zero]
  have h0 : sensVec InterfaceDofs.solveEx false (exElem p) (fun _ => 1) 0 = 0 := by
    unfold sensVec
    rw [elemSol_eq]
    simp only [exElem, List.foldl_cons, List.foldl_nil, sensSub, Bool.false_eq_true, if_false]
    rw [put0, factored1]
    · simp [fullJac, linSub, exK, local_, sum_range_succ]; field_simp; norm_num
    · simp [fullJac, linSub, exK, hp]
  show ∑ a ∈ range 2, _ = _
  rw [sum_range_succ, sum_range_succ, sum_range_zero]
  simp [exElem] at h0 ⊢
  exact h0

/-- With condensed elements the right hand side is not the derivative of the residual: the residual of such an element is the one of the whole element times the material fraction, its sensitivity is integrated
over the material sub-elements.  Here the residual is `p/2` for every `p`, the assembled sensitivity 0. -/
theorem C138_sensitivity_fails : (∀ p : ℝ, p ≠ 0 → residual (fun _ => false) InterfaceDofs.solveEx (fun _ => 1) [[exElem p]] 0 = p / 2) ∧
    sensRhs (fun _ => false) InterfaceDofs.solveEx false (fun _ => 1) [[exElem 1]] 0 = 0 ∧
    HasDerivAt (fun p => residual (fun _ => false) InterfaceDofs.solveEx (fun _ => 1) [[exElem p]] 0) (1 / 2) 1 := by
  refine ⟨exRes, exSens 1 one_ne_zero, ?_⟩
  have h : HasDerivAt (fun p : ℝ => p / 2) (1 / 2) 1 := (hasDerivAt_id' (1 : ℝ)).div_const 2
  refine h.congr_of_eventuallyEq ?_
  filter_upwards [isOpen_ne.mem_nhds (one_ne_zero : (1 : ℝ) ≠ 0)] with p hp
  exact exRes p hp

/-- Non-vacuity of C138_residual, C138_jacobian, C138_tangent, C138_void_partial: the element above is regular and differentiable, and its condensed dof is inactive. -/
example : Regular InterfaceDofs.solveEx (fun _ => 1) (exElem 1) ∧ Differentiable (exElem 1) (fun _ => 1) ∧ Inactive [exElem 1] 1 := by
  refine ⟨⟨by simp, by simp, ?_⟩, ⟨by decide, exK 1, fun _ => 0, ?_⟩, ?_⟩
  · apply InterfaceDofs.solveEx_solves
    have : (block (fullJac (exElem 1) (local_ (exElem 1) fun _ => 1)) [1] [1]).det = (fullJac (exElem 1) (local_ (exElem 1) fun _ => 1)) 1 1 := Matrix.det_fin_one _
    show IsUnit (block (fullJac (exElem 1) (local_ (exElem 1) fun _ => 1)) [1] [1]).det
    rw [this]
    simp [fullJac, exElem, linSub, exK]
  · intro s a
    exact ⟨fun b => rfl, by simp [exElem, linSub]⟩
  · intro e he _ a ha hai
    have : e = exElem 1 := by simpa using he
    subst this
    refine ⟨⟨[0], [1], fun _ => 0⟩, rfl, ?_⟩
    have : a = 1 := hai
    simp [this]

/-- Non-vacuity of C138_topology: a corner cut, positive corner 1 outside the material: the two material sub-elements come in the order "no side on the interface, one side". -/
example (t : ℝ) (h0 : 0 < t) (h1 : t < 1) (mid : ℝ) : ∃ cut, CutCell.initElem t ![1, -1, 1, 1] [] mid = some cut ∧ cut.pos.map (·.iface) = [none, some 3] := by
  have mx : CutCell.maxVal (CutCell.nodeVals ![1, -1, 1, 1] []) = 1 := by
    simp [CutCell.maxVal, CutCell.nodeVals]; norm_num
  have mn : CutCell.minVal (CutCell.nodeVals ![1, -1, 1, 1] []) = -1 := by
    simp [CutCell.minVal, CutCell.nodeVals]; norm_num
  have n1 : CutCell.nOnSet t ![1, -1, 1, 1] = 0 := by
    simp [CutCell.nOnSet, not_le.2 h1]
  have cs : CutCell.colinearSide t ![1, -1, 1, 1] = none := by
    simp [CutCell.colinearSide, not_le.2 h1]
  have hn : CutCell.nodeHit t ![1, -1, 1, 1] = ![false, false, false, false] := by
    funext i; fin_cases i <;> simp [CutCell.nodeHit, h1.le]
  have hs : CutCell.sideHit t ![1, -1, 1, 1] = ![true, true, false, false] := by
    funext i; fin_cases i <;> simp [CutCell.sideHit, CutCell.nodeHit, h1.le, h1]
  have hp : (fun i => decide ((![1, -1, 1, 1] : Fin 4 → ℝ) i > 0)) = ![true, false, true, true] := by
    funext i; fin_cases i <;> simp
  have hc : ∀ b, CutCell.chooseMode ![true, true, false, false] ![false, false, false, false] b = (.adjacentEdges, 0, 0) := by decide
  have hb : ∃ cut, CutCell.build .adjacentEdges 0 0 ![true, false, true, true] = some cut ∧ cut.pos.map (·.iface) = [none, some 3] := ⟨_, rfl, rfl⟩
  obtain ⟨cut, hb, hi⟩ := hb
  refine ⟨cut, ?_, hi⟩
  unfold CutCell.initElem
  simp only [mx, mn, n1, cs]
  have a1 : ¬ (-1 > t) := by linarith
  have a2 : ¬ (1 < -t) := by linarith
  rw [if_neg a1, if_neg a2]
  simp only [CutCell.quad4, hs, hn, hc, hp, hb]
  simp

end
end Verif.CutAsm
