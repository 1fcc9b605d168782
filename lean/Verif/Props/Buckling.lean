import Mathlib.Algebra.BigOperators.Ring.Finset
import Mathlib.Tactic.Ring
import Mathlib.Tactic.NormNum
import Mathlib.Tactic.Linarith
import Mathlib.Tactic.LinearCombination
import Mathlib.Tactic.FieldSimp
import Verif.Model.Buckling
import Verif.Props.Assembly
/-
  C133: the buckling eigenproblem.
-/
namespace Verif.Buckling
open Verif Finset

noncomputable section

/-! ### Specification -/

/-- Tangent stiffness of the structure made of the elements `es` at load `lam` and displacement `X`: entry `(i, j)` gathers the four Jacobians of every element. -/
def stiffness (es : List Elem) (lam : ℝ) (X : Nat → ℝ) (i j : Nat) : ℝ :=
  (es.map fun e => ∑ a ∈ range e.n, ∑ b ∈ range e.n, if e.dof a = i ∧ e.dof b = j then
    e.internal lam (fun c => X (e.dof c)) a b + e.prestress lam (fun c => X (e.dof c)) a b + e.side lam (fun c => X (e.dof c)) a b + e.vol lam (fun c => X (e.dof c)) a b else 0).sum

/-- All elements of all processes. -/
def elems (ps : List (List Elem × St)) : List Elem := (ps.map (·.1)).flatten

/-- Every process has assembled its elements without an abnormal end. -/
def Assembled (dbg : Bool) (C : Nat → Bool) (d : Data) (ps : List (List Elem × St)) (ss : List St) : Prop :=
  List.Forall₂ (fun p s' => assemble dbg C d p.1 p.2 = .ok s') ps ss

/-- `x` (zero on the constrained dofs) satisfies `M x = mu N x` in the rows of the free dofs; this is the condensed generalized eigenproblem `(M, N)` of C17, C18. -/
def Eigenpair (C : Nat → Bool) (n : Nat) (M N : Nat → Nat → ℝ) (mu : ℝ) (x : Nat → ℝ) : Prop :=
  (∀ i, C i = true → x i = 0) ∧ ∀ i, C i = false → ∑ j ∈ range n, M i j * x j = mu * ∑ j ∈ range n, N i j * x j

/-- `x` is a null vector of the free part of `M`. -/
def Null (C : Nat → Bool) (n : Nat) (M : Nat → Nat → ℝ) (x : Nat → ℝ) : Prop :=
  (∀ i, C i = true → x i = 0) ∧ ∀ i, C i = false → ∑ j ∈ range n, M i j * x j = 0

/-- Linear interpolation of a matrix between its values `M1` at `l1` and `M2` at `l2`. -/
def lerp (l1 l2 : ℝ) (M1 M2 : Nat → Nat → ℝ) (l : ℝ) (i j : Nat) : ℝ := M1 i j + (l - l1) / (l2 - l1) * (M2 i j - M1 i j)

/-! ### Lemmas -/

theorem addCon (C : Nat → Bool) (n : Nat) (dof : Nat → Nat) (m J : Nat → Nat → ℝ) (i j : Nat) (hi : C i = false) (hj : C j = false) :
    Asm.addMatrix n dof (Asm.conMat C dof m) J i j = J i j + ∑ a ∈ range n, ∑ b ∈ range n, if dof a = i ∧ dof b = j then m a b else 0 := by
  rw [Asm.addMatrix_apply, Asm.sum_conMat]; simp [hi, hj]

theorem foldlM_matrices (dbg : Bool) (C : Nat → Bool) (d : Data) (es : List Elem) (s s' : St) (i j : Nat) (hi : C i = false) (hj : C j = false)
    (h : es.foldlM (assembleElem dbg C d) s = .ok s') :
    s'.A i j = s.A i j + stiffness es d.lambda1 d.sol1 i j ∧
    s'.B i j = s.B i j + ((if d.linearized then stiffness es d.lambda1 d.sol1 i j else 0) - stiffness es d.lambda2 d.sol2 i j) := by
  induction es generalizing s with
  | nil =>
    simp only [List.foldlM_nil] at h
    cases h
    simp [stiffness]
  | cons e es ih =>
    rw [List.foldlM_cons] at h
    unfold assembleElem initElem at h
    by_cases hb : (dbg && s.busy) = true
    · simp [hb] at h; cases h
    · simp only [hb, Bool.false_eq_true, if_false] at h
      obtain ⟨hA, hB⟩ := ih _ h
      refine ⟨?_, ?_⟩
      · rw [hA]
        simp only [stiffness, List.map_cons, List.sum_cons]
        rw [addCon C _ _ _ _ _ _ hi hj]
        simp only [elemCalc, zero_add]; ring
      · rw [hB]
        simp only [stiffness, List.map_cons, List.sum_cons]
        rw [addCon C _ _ _ _ _ _ hi hj]
        cases d.linearized
        · simp only [elemCalc, zero_add, Bool.false_eq_true, if_false]
          have : ∀ f : Nat → Nat → ℝ, (∑ a ∈ range e.n, ∑ b ∈ range e.n, if e.dof a = i ∧ e.dof b = j then f a b * -1 else 0) =
              -∑ a ∈ range e.n, ∑ b ∈ range e.n, if e.dof a = i ∧ e.dof b = j then f a b else 0 := by
            intro f
            rw [← sum_neg_distrib]
            refine sum_congr rfl fun a _ => ?_
            rw [← sum_neg_distrib]
            refine sum_congr rfl fun b _ => ?_
            split <;> ring
          rw [this]; ring
        · simp only [elemCalc, zero_add, if_true]
          have : ∀ f g : Nat → Nat → ℝ, (∑ a ∈ range e.n, ∑ b ∈ range e.n, if e.dof a = i ∧ e.dof b = j then f a b * -1 + g a b else 0) =
              (∑ a ∈ range e.n, ∑ b ∈ range e.n, if e.dof a = i ∧ e.dof b = j then g a b else 0) -
              ∑ a ∈ range e.n, ∑ b ∈ range e.n, if e.dof a = i ∧ e.dof b = j then f a b else 0 := by
            intro f g
            rw [← sum_sub_distrib]
            refine sum_congr rfl fun a _ => ?_
            rw [← sum_sub_distrib]
            refine sum_congr rfl fun b _ => ?_
            split <;> ring
          rw [this]; ring

theorem stiffness_append (l l' : List Elem) (lam : ℝ) (X : Nat → ℝ) (i j : Nat) : stiffness (l ++ l') lam X i j = stiffness l lam X i j + stiffness l' lam X i j := by simp [stiffness]

/-! ### C133 -/

/-- Between free dofs the first matrix is the tangent stiffness at the first state, the second one is the difference of the stiffnesses at the two states (linearized form) or the negative stiffness at the
second state; for every distribution of the elements to processes and every previous state. -/
theorem C133_matrices (dbg : Bool) (C : Nat → Bool) (d : Data) (ps : List (List Elem × St)) (ss : List St) (h : Assembled dbg C d ps ss) (i j : Nat) (hi : C i = false) (hj : C j = false) :
    globalA ss i j = stiffness (elems ps) d.lambda1 d.sol1 i j ∧
    globalB ss i j = if d.linearized then stiffness (elems ps) d.lambda1 d.sol1 i j - stiffness (elems ps) d.lambda2 d.sol2 i j else -stiffness (elems ps) d.lambda2 d.sol2 i j := by
  have key : globalA ss i j = stiffness (elems ps) d.lambda1 d.sol1 i j ∧
      globalB ss i j = (if d.linearized then stiffness (elems ps) d.lambda1 d.sol1 i j else 0) - stiffness (elems ps) d.lambda2 d.sol2 i j := by
    induction h with
    | nil => simp [globalA, globalB, elems, stiffness]
    | cons hp _ ih =>
      obtain ⟨h1, h2⟩ := foldlM_matrices dbg C d _ _ _ i j hi hj hp
      obtain ⟨g1, g2⟩ := ih
      simp only [globalA, globalB, elems, List.map_cons, List.sum_cons, List.flatten_cons, stiffness_append] at *
      rw [h1, h2, g1, g2]
      refine ⟨by ring, ?_⟩
      cases d.linearized <;> simp <;> ring
  refine ⟨key.1, ?_⟩
  rw [key.2]; cases d.linearized <;> simp

theorem lerp_row (n : Nat) (M1 M2 : Nat → Nat → ℝ) (x : Nat → ℝ) (i : Nat) (l1 l2 l : ℝ) :
    ∑ j ∈ range n, lerp l1 l2 M1 M2 l i j * x j = (∑ j ∈ range n, M1 i j * x j) + (l - l1) / (l2 - l1) * ((∑ j ∈ range n, M2 i j * x j) - ∑ j ∈ range n, M1 i j * x j) := by
  rw [mul_sub, mul_sum, mul_sum, ← sum_sub_distrib, ← sum_add_distrib]
  exact sum_congr rfl fun j _ => by unfold lerp; ring

theorem lerp_scale (l1 l2 r c A B : ℝ) (hl : l1 ≠ l2) : A + (l1 + r * (l2 - l1) - l1) / (l2 - l1) * (B - A) = c ↔ A + r * (B - A) = c := by
  have : l2 - l1 ≠ 0 := sub_ne_zero.2 (Ne.symm hl)
  rw [show (l1 + r * (l2 - l1) - l1) / (l2 - l1) = r by field_simp; ring]

/-- The estimate is the load at which the linearly interpolated tangent stiffness is singular, with the same vector: for the assembled matrices, `(mu, x)` is an eigenpair if and only if `x` is a null vector of
the stiffness interpolated to the load `critical_point_estimate_from_eigenproblem(mu)`.  For the second form `mu ≠ -1` is needed. -/
theorem C133_critical (dbg : Bool) (C : Nat → Bool) (d : Data) (ps : List (List Elem × St)) (ss : List St) (h : Assembled dbg C d ps ss) (n : Nat) (hl : d.lambda1 ≠ d.lambda2) (mu : ℝ)
    (hmu : d.linearized = false → mu ≠ -1) (x : Nat → ℝ) :
    Eigenpair C n (globalA ss) (globalB ss) mu x ↔
    Null C n (lerp d.lambda1 d.lambda2 (stiffness (elems ps) d.lambda1 d.sol1) (stiffness (elems ps) d.lambda2 d.sol2) (criticalPoint d mu)) x := by
  unfold Eigenpair Null
  refine and_congr_right fun hx => forall_congr' fun i => imp_congr_right fun hi => ?_
  have row : ∀ M N : Nat → Nat → ℝ, (∀ j, C j = false → M i j = N i j) → ∑ j ∈ range n, M i j * x j = ∑ j ∈ range n, N i j * x j := by
    intro M N hMN
    refine sum_congr rfl fun j _ => ?_
    cases hj : C j
    · rw [hMN j hj]
    · rw [hx j hj]; ring
  have hA := row (globalA ss) (stiffness (elems ps) d.lambda1 d.sol1) fun j hj => (C133_matrices dbg C d ps ss h i j hi hj).1
  rw [hA, lerp_row]
  cases hlin : d.linearized
  · have hB := row (globalB ss) (fun i j => -stiffness (elems ps) d.lambda2 d.sol2 i j) fun j hj => by
      have := (C133_matrices dbg C d ps ss h i j hi hj).2; simpa [hlin] using this
    rw [hB]
    have h1 : ∑ j ∈ range n, -stiffness (elems ps) d.lambda2 d.sol2 i j * x j = -∑ j ∈ range n, stiffness (elems ps) d.lambda2 d.sol2 i j * x j := by
      rw [← sum_neg_distrib]; exact sum_congr rfl fun j _ => by ring
    rw [h1]
    simp only [criticalPoint, hlin, Bool.false_eq_true, if_false]
    rw [lerp_scale _ _ _ _ _ _ hl]
    have hne : 1 + mu ≠ 0 := fun h0 => hmu hlin (by linarith)
    generalize ∑ j ∈ range n, stiffness (elems ps) d.lambda1 d.sol1 i j * x j = S1
    generalize ∑ j ∈ range n, stiffness (elems ps) d.lambda2 d.sol2 i j * x j = S2
    rw [show S1 + mu / (1 + mu) * (S2 - S1) = (S1 + mu * S2) / (1 + mu) by field_simp; ring, div_eq_zero_iff]
    constructor
    · intro h; left; linarith
    · rintro (h | h)
      · linarith
      · exact absurd h hne
  · have hB := row (globalB ss) (fun i j => stiffness (elems ps) d.lambda1 d.sol1 i j - stiffness (elems ps) d.lambda2 d.sol2 i j) fun j hj => by
      have := (C133_matrices dbg C d ps ss h i j hi hj).2; simpa [hlin] using this
    rw [hB]
    have h1 : ∑ j ∈ range n, (stiffness (elems ps) d.lambda1 d.sol1 i j - stiffness (elems ps) d.lambda2 d.sol2 i j) * x j =
        ∑ j ∈ range n, stiffness (elems ps) d.lambda1 d.sol1 i j * x j - ∑ j ∈ range n, stiffness (elems ps) d.lambda2 d.sol2 i j * x j := by
      rw [← sum_sub_distrib]; exact sum_congr rfl fun j _ => by ring
    rw [h1]
    simp only [criticalPoint, hlin, if_true]
    rw [lerp_scale _ _ _ _ _ _ hl]
    constructor <;> intro h <;> linarith

/-- Exactness: when the stiffness along the loading path is affine in the load, the estimate is a critical load of the structure itself. -/
theorem C133_exact (dbg : Bool) (C : Nat → Bool) (d : Data) (ps : List (List Elem × St)) (ss : List St) (h : Assembled dbg C d ps ss) (n : Nat) (hl : d.lambda1 ≠ d.lambda2) (mu : ℝ)
    (hmu : d.linearized = false → mu ≠ -1) (x : Nat → ℝ) (path : ℝ → Nat → ℝ) (K0 KG : Nat → Nat → ℝ) (h1 : path d.lambda1 = d.sol1) (h2 : path d.lambda2 = d.sol2)
    (haff : ∀ l i j, stiffness (elems ps) l (path l) i j = K0 i j + l * KG i j) :
    Eigenpair C n (globalA ss) (globalB ss) mu x ↔ Null C n (stiffness (elems ps) (criticalPoint d mu) (path (criticalPoint d mu))) x := by
  rw [C133_critical dbg C d ps ss h n hl mu hmu x]
  have : lerp d.lambda1 d.lambda2 (stiffness (elems ps) d.lambda1 d.sol1) (stiffness (elems ps) d.lambda2 d.sol2) (criticalPoint d mu) =
      stiffness (elems ps) (criticalPoint d mu) (path (criticalPoint d mu)) := by
    funext i j
    have hne : d.lambda2 - d.lambda1 ≠ 0 := sub_ne_zero.2 (Ne.symm hl)
    rw [haff, ← h1, ← h2, lerp, haff, haff]
    field_simp; ring
  rw [this]

/-- One dof, stiffness `10 - load` (a strut with elastic support). -/
def strut : Elem where
  n := 1
  dof := fun _ => 0
  internal := fun _ _ _ _ => 10
  prestress := fun lam _ _ _ => -lam
  side := fun _ _ _ _ => 0
  vol := fun _ _ _ _ => 0
  sens := fun _ _ _ _ _ => 1

def st0 : St := ⟨0, false, 0, fun _ _ => 0, fun _ _ => 0⟩

/-- Non-vacuity: the strut is assembled in a debug build, and its critical load 10 is found by both forms from the loads 1 and 2 (`mu = 9` and `mu = -9/8`). -/
example (lin : Bool) : ∃ ss, Assembled true (fun i => i ≠ 0) ⟨lin, 1, 2, fun _ => 0, fun _ => 0⟩ [([strut], st0)] ss ∧
    Eigenpair (fun i => i ≠ 0) 1 (globalA ss) (globalB ss) (if lin then 9 else -9 / 8) (fun i => if i = 0 then 1 else 0) ∧ criticalPoint ⟨lin, 1, 2, fun _ => 0, fun _ => 0⟩ (if lin then 9 else -9 / 8) = 10 := by
  obtain ⟨s', hs'⟩ : ∃ s', assemble true (fun i => i ≠ 0) ⟨lin, 1, 2, fun _ => 0, fun _ => 0⟩ [strut] st0 = .ok s' := by
    cases lin <;> exact ⟨_, rfl⟩
  have hass : Assembled true (fun i => i ≠ 0) ⟨lin, 1, 2, fun _ => 0, fun _ => 0⟩ [([strut], st0)] [s'] := .cons hs' .nil
  refine ⟨[s'], hass, ?_, ?_⟩
  · rw [C133_critical true _ _ _ _ hass 1 (by norm_num) _ (by cases lin <;> simp; norm_num)]
    refine ⟨by simp +contextual, fun i hi => ?_⟩
    have hi : i = 0 := by simpa using hi
    subst hi
    cases lin <;> simp [lerp, stiffness, elems, strut, criticalPoint] <;> norm_num
  · cases lin <;> simp [criticalPoint] <;> norm_num

/-- In a debug build a process with two or more elements does not survive the assembly, nor does a second assembly of a process with one element: the element operations are never told that an element is
finished. -/
theorem C133_second_element_fails (C : Nat → Bool) (d : Data) (e f : Elem) (es : List Elem) (s s' : St) :
    assemble true C d (e :: f :: es) s = .error .assertFail ∧ (assemble true C d [e] s = .ok s' → assemble true C d [e] s' = .error .assertFail) := by
  constructor
  · unfold assemble
    rw [List.foldlM_cons]
    unfold assembleElem initElem
    cases hb : s.busy
    · simp only [Bool.and_false, Bool.false_eq_true, if_false]
      rw [show ∀ (x : St) (k : St → Exec St), ((Except.ok x : Exec St) >>= k) = k x from fun _ _ => rfl]
      rfl
    · rfl
  · intro h
    have hb : s'.busy = true := by
      unfold assemble at h
      rw [List.foldlM_cons] at h
      unfold assembleElem initElem at h
      by_cases hb : (true && s.busy) = true
      · simp [hb] at h; cases h
      · simp only [hb, Bool.false_eq_true, if_false] at h
        cases h; rfl
    unfold assemble
    rw [List.foldlM_cons]
    unfold assembleElem initElem
    simp [hb]; rfl

/-- In a release build the assembly always succeeds, but all element objects except the last one become unreachable, and the load parameter stays at the second load. -/
theorem C133_release_fails (C : Nat → Bool) (d : Data) (e : Elem) (es : List Elem) (s : St) :
    ∃ s', assemble false C d (e :: es) s = .ok s' ∧ s'.param = d.lambda2 ∧ s'.leaked = s.leaked + (es.length + if s.busy then 1 else 0) := by
  have hstep : ∀ (e : Elem) (s : St), ∃ s', assembleElem false C d s e = .ok s' ∧ s'.param = d.lambda2 ∧ s'.busy = true ∧ s'.leaked = s.leaked + if s.busy then 1 else 0 := by
    intro e s
    refine ⟨_, rfl, rfl, rfl, ?_⟩
    cases h : s.busy <;> simp [h]
  have hrest : ∀ (es : List Elem) (s : St), s.busy = true → s.param = d.lambda2 →
      ∃ s', es.foldlM (assembleElem false C d) s = .ok s' ∧ s'.param = d.lambda2 ∧ s'.leaked = s.leaked + es.length := by
    intro es
    induction es with
    | nil => intro s _ hp; exact ⟨s, rfl, hp, rfl⟩
    | cons e es ih =>
      intro s hb hp
      obtain ⟨s1, h1, hp1, hb1, hl1⟩ := hstep e s
      obtain ⟨s2, h2, hp2, hl2⟩ := ih s1 hb1 hp1
      refine ⟨s2, ?_, hp2, ?_⟩
      · rw [List.foldlM_cons, h1]; exact h2
      · rw [hl2, hl1, hb]; simp; omega
  obtain ⟨s1, h1, hp1, hb1, hl1⟩ := hstep e { s with A := fun _ _ => 0, B := fun _ _ => 0 }
  obtain ⟨s2, h2, hp2, hl2⟩ := hrest es s1 hb1 hp1
  refine ⟨s2, ?_, hp2, ?_⟩
  · unfold assemble; rw [List.foldlM_cons, h1]; exact h2
  · rw [hl2, hl1]; simp only; omega

/-- The sensitivity of the second matrix is reported as zero for every structure, and the first one is taken at the base solution and the current load instead of the first state: for the strut with
`K = p - load`, `dK/dp = 1`, the linearized matrix `B = 1` is independent of `p`, but in the second form `B = -(p - 2)` has derivative `-1`. -/
theorem C133_sensitivity_fails :
    (∀ C base param es i j, C i = false → C j = false → (sensAssemble C base param es).2 i j = 0) ∧
    (∀ s', assemble false (fun _ => false) ⟨false, 1, 2, fun _ => 0, fun _ => 0⟩ [{ strut with internal := fun _ _ _ _ => 11 }] st0 = .ok s' → s'.B 0 0 = -9) ∧
    (∀ s', assemble false (fun _ => false) ⟨false, 1, 2, fun _ => 0, fun _ => 0⟩ [{ strut with internal := fun _ _ _ _ => 10 }] st0 = .ok s' → s'.B 0 0 = -8) := by
  refine ⟨?_, ?_, ?_⟩
  · intro C base param es i j hi hj
    unfold sensAssemble
    have : ∀ (M : (Nat → Nat → ℝ) × (Nat → Nat → ℝ)), M.2 i j = 0 → (es.foldl (fun M e =>
        let u := fun a => match base with | some s => s.1 (e.dof a) | none => 0
        let du := fun a => match base with | some s => s.2 (e.dof a) | none => 0
        (Asm.addMatrix e.n e.dof (Asm.conMat C e.dof (e.sens param u du)) M.1, Asm.addMatrix e.n e.dof (Asm.conMat C e.dof (fun _ _ => 0)) M.2)) M).2 i j = 0 := by
      induction es with
      | nil => intro M h; exact h
      | cons e es ih =>
        intro M h
        rw [List.foldl_cons]
        refine ih _ ?_
        simp only
        rw [addCon C _ _ _ _ _ _ hi hj, h]; simp
    exact this _ rfl
  · intro s' h
    have := (foldlM_matrices false (fun _ => false) _ _ _ s' 0 0 rfl rfl h).2
    rw [this]; simp [stiffness, strut]; norm_num
  · intro s' h
    have := (foldlM_matrices false (fun _ => false) _ _ _ s' 0 0 rfl rfl h).2
    rw [this]; simp [stiffness, strut]; norm_num

end
end Verif.Buckling
