import Verif.Model.GeomElem
import Mathlib.LinearAlgebra.Matrix.NonsingularInverse
import Mathlib.Tactic.LinearCombination
import Mathlib.Tactic.FieldSimp
import Mathlib.Tactic.FinCases
import Mathlib.Tactic.Positivity

/-!
C110: the frame of a line or surface element is a right-handed orthonormal frame attached to its first nodes; the local element is a congruent copy.
-/

namespace Verif.GeomElem

/-! ### Specification -/

/-- Scalar product of two vectors. -/
def dot (u v : V3) : ℝ := ∑ i, u i * v i

/-- Difference of two points. -/
def sub (p q : V3) : V3 := fun i => p i - q i

/-- The columns of the matrix are unit vectors orthogonal to each other. -/
def Orthonormal (T : Fin 3 → Fin 3 → ℝ) : Prop := ∀ a b, dot (fun i => T i a) (fun i => T i b) = if a = b then 1 else 0

/-- The third column is the vector product of the first two. -/
def RightHanded (T : Fin 3 → Fin 3 → ℝ) : Prop := cross (fun i => T i 0) (fun i => T i 1) = fun i => T i 2

/-- Two vectors are parallel (one of them may be zero): their vector product is zero. -/
def Parallel (u v : V3) : Prop := cross u v = 0

/-- Euclidean distance of two points. -/
noncomputable def dist (p q : V3) : ℝ := Real.sqrt (dot (sub p q) (sub p q))

/-! ### Proofs -/

theorem dot_three (u v : V3) : dot u v = u 0 * v 0 + u 1 * v 1 + u 2 * v 2 := by simp [dot, Fin.sum_univ_three]

theorem norm_eq (v : V3) : norm v = Real.sqrt (dot v v) := by rw [norm, dot_three]

theorem norm_zero_iff (v : V3) : norm v = 0 ↔ v = 0 := by
  have hn : 0 ≤ v 0 * v 0 + v 1 * v 1 + v 2 * v 2 := by nlinarith [mul_self_nonneg (v 0), mul_self_nonneg (v 1), mul_self_nonneg (v 2)]
  rw [norm, Real.sqrt_eq_zero hn]
  constructor
  · intro h
    have h0 := mul_self_nonneg (v 0)
    have h1 := mul_self_nonneg (v 1)
    have h2 := mul_self_nonneg (v 2)
    funext i
    fin_cases i
    · exact mul_self_eq_zero.1 (show v 0 * v 0 = 0 by linarith)
    · exact mul_self_eq_zero.1 (show v 1 * v 1 = 0 by linarith)
    · exact mul_self_eq_zero.1 (show v 2 * v 2 = 0 by linarith)
  · rintro rfl; simp

theorem norm_sq (v : V3) : norm v * norm v = dot v v := by
  rw [norm_eq]
  refine Real.mul_self_sqrt ?_
  rw [dot_three]; nlinarith [mul_self_nonneg (v 0), mul_self_nonneg (v 1), mul_self_nonneg (v 2)]

theorem norm_nonneg (v : V3) : 0 ≤ norm v := Real.sqrt_nonneg _

theorem unit_some {v w : V3} (h : unit v = some w) : norm v ≠ 0 ∧ 0 < norm v ∧ w = (fun i => v i / norm v) ∧ dot w w = 1 := by
  unfold unit at h
  split at h
  · exact absurd h (by simp)
  · rename_i hn
    have hw := (Option.some.inj h).symm
    have hp : 0 < norm v := lt_of_le_of_ne (norm_nonneg v) (Ne.symm hn)
    refine ⟨hn, hp, hw, ?_⟩
    have := norm_sq v
    rw [dot_three] at this
    rw [hw, dot_three]
    field_simp
    linarith

theorem unit_none {v : V3} : unit v = none ↔ v = 0 := by
  unfold unit
  split
  · rename_i h; simp [(norm_zero_iff v).1 h]
  · rename_i h; simpa using fun h' => h ((norm_zero_iff v).2 h')

/-- Axes built from a unit vector `a` and a unit vector `c` orthogonal to it. -/
theorem tmat_frame {a c b : V3} (ha : dot a a = 1) (hc : dot c c = 1) (hac : dot a c = 0) (hb : unit (cross c a) = some b) : Orthonormal (tmat a b c) ∧ RightHanded (tmat a b c) ∧ b = cross c a := by
  rw [dot_three] at ha hc hac
  have hn : norm (cross c a) = 1 := by
    rw [norm_eq, Real.sqrt_eq_one, dot_three]
    simp [cross]
    linear_combination ha * (c 0 * c 0 + c 1 * c 1 + c 2 * c 2) + hc - hac * (a 0 * c 0 + a 1 * c 1 + a 2 * c 2)
  obtain ⟨_, _, h, h1⟩ := unit_some hb
  have hb' : b = cross c a := by rw [h]; funext i; rw [hn, div_one]
  refine ⟨?_, ?_, hb'⟩
  · intro i j
    rw [dot_three]
    rw [hb', dot_three] at h1
    simp only [cross, Matrix.cons_val_zero, Matrix.cons_val_one, Matrix.cons_val] at h1
    fin_cases i <;> fin_cases j <;> simp [tmat, hb', cross] <;> first | linear_combination ha | linear_combination hc | linear_combination hac | linear_combination h1 | ring
  · rw [RightHanded, hb']
    funext i
    fin_cases i <;> simp [cross, tmat]
    · linear_combination ha * c 0 - hac * a 0
    · linear_combination ha * c 1 - hac * a 1
    · linear_combination ha * c 2 - hac * a 2

theorem cross_dot (u v : V3) : dot u (cross u v) = 0 := by rw [dot_three]; simp [cross]; ring

/-- What a line frame looks like. -/
theorem frame1_spec {p0 p1 y : V3} {T : Fin 3 → Fin 3 → ℝ} (h : frame1 p0 p1 y = some T) :
    Orthonormal T ∧ RightHanded T ∧ 0 < norm (sub p1 p0) ∧ (∀ i, T i 0 * norm (sub p1 p0) = p1 i - p0 i) ∧
      0 < norm (cross (fun i => T i 0) y) ∧ ∀ i, T i 2 * norm (cross (fun i => T i 0) y) = cross (fun i => T i 0) y i := by
  unfold frame1 at h
  rw [Option.bind_eq_some_iff] at h
  obtain ⟨v1, h1, h⟩ := h
  rw [Option.bind_eq_some_iff] at h
  obtain ⟨v3, h3, h⟩ := h
  rw [Option.bind_eq_some_iff] at h
  obtain ⟨v2, h2, h⟩ := h
  obtain ⟨hn1, hp1, e1, d1⟩ := unit_some h1
  obtain ⟨hn3, hp3, e3, d3⟩ := unit_some h3
  have hac : dot v1 v3 = 0 := by
    have := cross_dot v1 y
    rw [dot_three] at this ⊢
    rw [e3]
    field_simp
    linarith
  obtain ⟨ho, hr, _⟩ := tmat_frame d1 d3 hac h2
  have hT := (Option.some.inj h).symm
  have c0 : (fun i => T i 0) = v1 := by rw [hT]; rfl
  have c2 : ∀ i, T i 2 = v3 i := by intro i; rw [hT]; rfl
  refine ⟨hT ▸ ho, hT ▸ hr, hp1, ?_, ?_, ?_⟩
  · intro i
    have : T i 0 = v1 i := congrFun c0 i
    rw [this, e1]
    exact div_mul_cancel₀ _ hn1
  · rw [c0]; exact hp3
  · intro i
    rw [c0, c2, e3]
    exact div_mul_cancel₀ _ hn3

/-- What a surface frame looks like. -/
theorem frame2_spec {p0 p1 p2 : V3} {T : Fin 3 → Fin 3 → ℝ} (h : frame2 p0 p1 p2 = some T) :
    Orthonormal T ∧ RightHanded T ∧ 0 < norm (sub p1 p0) ∧ (∀ i, T i 0 * norm (sub p1 p0) = p1 i - p0 i) ∧
      ∃ s, 0 < s ∧ ∀ i, T i 2 * s = cross (sub p1 p0) (sub p2 p0) i := by
  unfold frame2 at h
  rw [Option.bind_eq_some_iff] at h
  obtain ⟨v1, h1, h⟩ := h
  rw [Option.bind_eq_some_iff] at h
  obtain ⟨w, hw, h⟩ := h
  rw [Option.bind_eq_some_iff] at h
  obtain ⟨v3, h3, h⟩ := h
  rw [Option.bind_eq_some_iff] at h
  obtain ⟨v2, h2, h⟩ := h
  obtain ⟨hn1, hp1, e1, d1⟩ := unit_some h1
  obtain ⟨hnw, hpw, ew, dw⟩ := unit_some hw
  obtain ⟨hn3, hp3, e3, d3⟩ := unit_some h3
  have hac : dot v1 v3 = 0 := by
    have := cross_dot v1 w
    rw [dot_three] at this ⊢
    rw [e3]
    field_simp
    linarith
  obtain ⟨ho, hr, _⟩ := tmat_frame d1 d3 hac h2
  have hT := (Option.some.inj h).symm
  have c0 : ∀ i, T i 0 = v1 i := by intro i; rw [hT]; rfl
  have c2 : ∀ i, T i 2 = v3 i := by intro i; rw [hT]; rfl
  refine ⟨hT ▸ ho, hT ▸ hr, hp1, ?_, norm (fun i => p1 i - p0 i) * norm (fun i => p2 i - p0 i) * norm (cross v1 w), by positivity, ?_⟩
  · intro i
    rw [c0, e1]
    exact div_mul_cancel₀ _ hn1
  · intro i
    have f1 : ∀ i, v1 i * norm (fun i => p1 i - p0 i) = p1 i - p0 i := fun i => by rw [e1]; exact div_mul_cancel₀ _ hn1
    have f2 : ∀ i, w i * norm (fun i => p2 i - p0 i) = p2 i - p0 i := fun i => by rw [ew]; exact div_mul_cancel₀ _ hnw
    have f3 : v3 i * norm (cross v1 w) = cross v1 w i := by rw [e3]; exact div_mul_cancel₀ _ hn3
    have : T i 2 * (norm (fun i => p1 i - p0 i) * norm (fun i => p2 i - p0 i) * norm (cross v1 w)) =
        norm (fun i => p1 i - p0 i) * norm (fun i => p2 i - p0 i) * cross v1 w i := by rw [c2, ← f3]; ring
    rw [this]
    have g1 : sub p1 p0 = fun i => v1 i * norm (fun i => p1 i - p0 i) := funext fun i => (f1 i).symm
    have g2 : sub p2 p0 = fun i => w i * norm (fun i => p2 i - p0 i) := funext fun i => (f2 i).symm
    rw [g1, g2]
    generalize norm (fun i => p1 i - p0 i) = N1
    generalize norm (fun i => p2 i - p0 i) = N2
    fin_cases i <;> simp [cross] <;> ring

/-- Every local element comes from one of the two frames. -/
theorem init_loc {dim n : Nat} {pts : Nat → V3} {y : Option V3} {bending : Bool} {T : Fin 3 → Fin 3 → ℝ} {nodes : Nat → V3} {nm : Option V3} (h : init dim n pts y bending = .loc T nodes nm) :
    nodes = localNode T pts ∧
      ((dim = 1 ∧ nm = none ∧ frame1 (pts 0) (pts 1) (y.getD (defaultY (pts 0) (pts 1))) = some T) ∨
        (dim = 2 ∧ nm = some (fun i => T i 2) ∧ frame2 (pts 0) (pts 1) (pts 2) = some T)) := by
  have of : ∀ (f : V3 → Option V3) (o : Option (Fin 3 → Fin 3 → ℝ)), ofFrame pts f o = .loc T nodes nm → o = some T ∧ nodes = localNode T pts ∧ nm = f fun i => T i 2 := by
    intro f o h
    cases o with
    | none => simp [ofFrame] at h
    | some T' =>
      simp only [ofFrame, Outcome.loc.injEq] at h
      obtain ⟨rfl, rfl, rfl⟩ := h
      exact ⟨rfl, rfl, rfl⟩
  unfold init at h
  split at h
  · split at h
    · cases y with
      | some y =>
        obtain ⟨h1, h2, h3⟩ := of _ _ (by simpa [init1] using h)
        exact ⟨h2, Or.inl ⟨rfl, h3, h1⟩⟩
      | none =>
        cases bending with
        | true => simp [init1] at h
        | false =>
          obtain ⟨h1, h2, h3⟩ := of _ _ (by simpa [init1] using h)
          exact ⟨h2, Or.inl ⟨rfl, h3, h1⟩⟩
    · simp at h
  · split at h
    · obtain ⟨h1, h2, h3⟩ := of _ _ h
      exact ⟨h2, Or.inr ⟨rfl, h3, h1⟩⟩
    · simp at h
  · simp at h
  · simp at h

theorem rows {T : Fin 3 → Fin 3 → ℝ} (h : Orthonormal T) : ∀ a b, ∑ i, T a i * T b i = if a = b then (1:ℝ) else 0 := by
  have hm : Matrix.transpose (Matrix.of T) * Matrix.of T = 1 := by
    ext a b
    rw [Matrix.mul_apply, Matrix.one_apply]
    exact h a b
  have hm' := mul_eq_one_comm.1 hm
  intro a b
  have := congrFun (congrFun hm' a) b
  rw [Matrix.mul_apply, Matrix.one_apply] at this
  exact this

/-- C110: whenever an element gets its own frame the transformation matrix is orthonormal, by columns and by rows, and right-handed. -/
theorem C110_frame (dim n : Nat) (pts : Nat → V3) (y : Option V3) (bending : Bool) (T : Fin 3 → Fin 3 → ℝ) (nodes : Nat → V3) (nm : Option V3) (h : init dim n pts y bending = .loc T nodes nm) :
    Orthonormal T ∧ (∀ a b, dot (T a) (T b) = if a = b then 1 else 0) ∧ RightHanded T := by
  obtain ⟨_, ⟨_, _, hf⟩ | ⟨_, _, hf⟩⟩ := init_loc h
  · obtain ⟨ho, hr, _⟩ := frame1_spec hf
    exact ⟨ho, rows ho, hr⟩
  · obtain ⟨ho, hr, _⟩ := frame2_spec hf
    exact ⟨ho, rows ho, hr⟩

theorem local_global {T : Fin 3 → Fin 3 → ℝ} (h : Orthonormal T) (v : V3) : toLocalVec T (toGlobalVec T v) = v ∧ toGlobalVec T (toLocalVec T v) = v := by
  have hr := rows h
  constructor
  · funext j
    have : ∀ k, ∑ i, T i j * T i k = if j = k then (1:ℝ) else 0 := fun k => h j k
    calc toLocalVec T (toGlobalVec T v) j = ∑ k, (∑ i, T i j * T i k) * v k := by
          simp only [toLocalVec, toGlobalVec, Finset.mul_sum, Finset.sum_mul]
          rw [Finset.sum_comm]
          exact Finset.sum_congr rfl fun _ _ => Finset.sum_congr rfl fun _ _ => by ring
      _ = v j := by simp [this]
  · funext j
    calc toGlobalVec T (toLocalVec T v) j = ∑ k, (∑ i, T j i * T k i) * v k := by
          simp only [toLocalVec, toGlobalVec, Finset.mul_sum, Finset.sum_mul]
          rw [Finset.sum_comm]
          exact Finset.sum_congr rfl fun _ _ => Finset.sum_congr rfl fun _ _ => by ring
      _ = v j := by simp [hr]

theorem dot_global {T : Fin 3 → Fin 3 → ℝ} (h : Orthonormal T) (u v : V3) : dot (toLocalVec T u) (toLocalVec T v) = dot u v := by
  have e : dot (toLocalVec T u) (toLocalVec T v) = dot u (toGlobalVec T (toLocalVec T v)) := by
    simp only [dot, toLocalVec, toGlobalVec, Finset.mul_sum, Finset.sum_mul]
    simp only [Fin.sum_univ_three]
    ring
  rw [e, (local_global h v).2]

/-- C110: the two vector transformations of the element are inverse to each other and preserve scalar products. -/
theorem C110_inverse (dim n : Nat) (pts : Nat → V3) (y : Option V3) (bending : Bool) (T : Fin 3 → Fin 3 → ℝ) (nodes : Nat → V3) (nm : Option V3) (h : init dim n pts y bending = .loc T nodes nm) (u v : V3) :
    toLocalVec T (toGlobalVec T v) = v ∧ toGlobalVec T (toLocalVec T v) = v ∧ dot (toLocalVec T u) (toLocalVec T v) = dot u v ∧ dot (toGlobalVec T u) (toGlobalVec T v) = dot u v := by
  have ho := (C110_frame _ _ _ _ _ _ _ _ h).1
  refine ⟨(local_global ho v).1, (local_global ho v).2, dot_global ho u v, ?_⟩
  have := dot_global ho (toGlobalVec T u) (toGlobalVec T v)
  rwa [(local_global ho u).1, (local_global ho v).1, eq_comm] at this

theorem localNode_eq (T : Fin 3 → Fin 3 → ℝ) (pts : Nat → V3) (i : Nat) : localNode T pts i = toLocalVec T (sub (pts i) (pts 0)) := rfl

/-- C110: the local element is a congruent copy of the element: its first node is the origin, its second node lies on the positive x axis at the length of the edge, all distances between nodes are
preserved, and mapping a local node back gives the node. -/
theorem C110_nodes (dim n : Nat) (pts : Nat → V3) (y : Option V3) (bending : Bool) (T : Fin 3 → Fin 3 → ℝ) (nodes : Nat → V3) (nm : Option V3) (h : init dim n pts y bending = .loc T nodes nm) :
    nodes 0 = 0 ∧ nodes 1 = ![dist (pts 1) (pts 0), 0, 0] ∧ 0 < dist (pts 1) (pts 0) ∧ (∀ i j, dist (nodes i) (nodes j) = dist (pts i) (pts j)) ∧ ∀ i, toGlobalPt T (pts 0) (nodes i) = pts i := by
  have ho := (C110_frame _ _ _ _ _ _ _ _ h).1
  obtain ⟨hn, hc⟩ := init_loc h
  have h1 : 0 < norm (sub (pts 1) (pts 0)) ∧ ∀ i, T i 0 * norm (sub (pts 1) (pts 0)) = pts 1 i - pts 0 i := by
    rcases hc with ⟨_, _, hf⟩ | ⟨_, _, hf⟩
    · obtain ⟨_, _, a, b, _⟩ := frame1_spec hf; exact ⟨a, b⟩
    · obtain ⟨_, _, a, b, _⟩ := frame2_spec hf; exact ⟨a, b⟩
  subst hn
  refine ⟨?_, ?_, ?_, ?_, ?_⟩
  · funext j; simp [localNode]
  · have hd : dist (pts 1) (pts 0) = norm (sub (pts 1) (pts 0)) := (norm_eq _).symm
    rw [hd]
    have e : ∀ j, localNode T pts 1 j = norm (sub (pts 1) (pts 0)) * dot (fun i => T i j) (fun i => T i 0) := by
      intro j
      simp only [localNode, dot, ← h1.2, Finset.mul_sum]
      exact Finset.sum_congr rfl fun _ _ => by ring
    funext j
    rw [e, ho]
    fin_cases j <;> simp
  · rw [dist, ← norm_eq]; exact h1.1
  · intro i j
    have : sub (localNode T pts i) (localNode T pts j) = toLocalVec T (sub (pts i) (pts j)) := by
      funext k
      simp only [sub, localNode, toLocalVec, ← Finset.sum_sub_distrib]
      exact Finset.sum_congr rfl fun _ _ => by ring
    rw [dist, dist, this, dot_global ho]
  · intro i
    funext j
    have := congrFun (local_global ho (sub (pts i) (pts 0))).2 j
    rw [toGlobalPt, localNode_eq, this]
    simp [sub]

theorem dot_cross_col {T : Fin 3 → Fin 3 → ℝ} (ho : Orthonormal T) (hr : RightHanded T) (y : V3) :
    dot (fun i => T i 2) (cross (fun i => T i 0) y) = dot (fun i => T i 1) y := by
  -- col 1 = col 2 x col 0
  have h0 := ho 0 0
  have h01 := ho 0 1
  rw [dot_three] at h0 h01
  have e0 := congrFun hr 0
  have e1 := congrFun hr 1
  have e2 := congrFun hr 2
  simp [cross] at e0 e1 e2 h0 h01
  rw [dot_three, dot_three, ← e0, ← e1, ← e2]
  simp [cross]
  linear_combination (T 0 1 * y 0 + T 1 1 * y 1 + T 2 1 * y 2) * h0 - (T 0 0 * y 0 + T 1 0 * y 1 + T 2 0 * y 2) * h01

/-- C110 (line elements): the given orientation vector lies in the local x-y plane, on the side of positive y, and every node of a straight element lies on the local x axis. -/
theorem C110_beam (n : Nat) (pts : Nat → V3) (y : V3) (bending : Bool) (T : Fin 3 → Fin 3 → ℝ) (nodes : Nat → V3) (nm : Option V3) (h : init 1 n pts (some y) bending = .loc T nodes nm) :
    toLocalVec T y 2 = 0 ∧ 0 < toLocalVec T y 1 ∧ ∀ i, Parallel (sub (pts 1) (pts 0)) (sub (pts i) (pts 0)) → nodes i 1 = 0 ∧ nodes i 2 = 0 := by
  obtain ⟨hn, ⟨_, _, hf⟩ | ⟨hd, _⟩⟩ := init_loc h
  swap
  · exact absurd hd (by decide)
  obtain ⟨ho, hr, hp, h1, hp3, h3⟩ := frame1_spec hf
  simp only [Option.getD_some] at hp3 h3
  have hz : toLocalVec T y 2 * norm (cross (fun i => T i 0) y) = 0 := by
    have : toLocalVec T y 2 * norm (cross (fun i => T i 0) y) = dot (cross (fun i => T i 0) y) y := by
      simp only [toLocalVec, dot, Finset.sum_mul, ← h3]
      exact Finset.sum_congr rfl fun _ _ => by ring
    rw [this, dot_three]; simp [cross]; ring
  refine ⟨(mul_eq_zero.1 hz).resolve_right hp3.ne', ?_, ?_⟩
  · have e : toLocalVec T y 1 = norm (cross (fun i => T i 0) y) := by
      have a : toLocalVec T y 1 = dot (fun i => T i 1) y := rfl
      rw [a, ← dot_cross_col ho hr]
      have : dot (fun i => T i 2) (cross (fun i => T i 0) y) = norm (cross (fun i => T i 0) y) * dot (fun i => T i 2) (fun i => T i 2) := by
        simp only [dot, ← h3, Finset.mul_sum]
        exact Finset.sum_congr rfl fun _ _ => by ring
      rw [this, ho]; simp
    rw [e]; exact hp3
  · intro i hpar
    subst hn
    -- the difference vector is its component along the first axis
    set w := sub (pts i) (pts 0) with hw
    set L := norm (sub (pts 1) (pts 0)) with hL
    have hc : cross (fun i => T i 0) w = 0 := by
      have e : ∀ j, L * cross (fun i => T i 0) w j = 0 := by
        intro j
        have := congrFun hpar j
        have s : ∀ i, sub (pts 1) (pts 0) i = T i 0 * L := fun i => (h1 i).symm
        fin_cases j <;> simp only [cross, s] at this ⊢ <;> simp at this ⊢ <;> exact or_iff_not_imp_left.2 fun hL => mul_left_cancel₀ hL (by linear_combination this)
      funext j
      exact (mul_eq_zero.1 (e j)).resolve_left hp.ne'
    have e1 : localNode T pts i 1 = 0 := by
      have a : localNode T pts i 1 = dot (fun i => T i 1) w := rfl
      rw [a, ← dot_cross_col ho hr, hc]; simp [dot]
    refine ⟨e1, ?_⟩
    have a : localNode T pts i 2 = dot (fun i => T i 2) w := rfl
    have b : dot (fun i => T i 2) w = - dot (fun i => T i 1) (cross (fun i => T i 0) w) := by
      have e0 := congrFun hr 0
      have e1 := congrFun hr 1
      have e2 := congrFun hr 2
      rw [dot_three, dot_three, ← e0, ← e1, ← e2]
      simp [cross]; ring
    rw [a, b, hc]; simp [dot]

/-- C110 (surface elements): the reported surface normal is the local z axis, a unit vector orthogonal to the two edges from the first node that they span with positive orientation; the third node lies
in the upper half of the local x-y plane, and every node coplanar with the first three in that plane. -/
theorem C110_shell (n : Nat) (pts : Nat → V3) (y : Option V3) (bending : Bool) (T : Fin 3 → Fin 3 → ℝ) (nodes : Nat → V3) (nm : Option V3) (h : init 2 n pts y bending = .loc T nodes nm) :
    (∃ w, nm = some w ∧ dot w w = 1 ∧ dot w (sub (pts 1) (pts 0)) = 0 ∧ dot w (sub (pts 2) (pts 0)) = 0 ∧ 0 < dot w (cross (sub (pts 1) (pts 0)) (sub (pts 2) (pts 0))) ∧ toLocalVec T w = ![0, 0, 1]) ∧
      nodes 2 2 = 0 ∧ 0 < nodes 2 1 ∧ ∀ i, dot (sub (pts i) (pts 0)) (cross (sub (pts 1) (pts 0)) (sub (pts 2) (pts 0))) = 0 → nodes i 2 = 0 := by
  obtain ⟨hn, ⟨hd, _⟩ | ⟨_, hm, hf⟩⟩ := init_loc h
  · exact absurd hd (by decide)
  obtain ⟨ho, hr, hp, h1, s, hs, h3⟩ := frame2_spec hf
  have hd2 : ∀ w : V3, s * dot (fun i => T i 2) w = dot w (cross (sub (pts 1) (pts 0)) (sub (pts 2) (pts 0))) := by
    intro w
    simp only [dot, ← h3, Finset.mul_sum]
    exact Finset.sum_congr rfl fun _ _ => by ring
  have zero : ∀ w : V3, dot w (cross (sub (pts 1) (pts 0)) (sub (pts 2) (pts 0))) = 0 → dot (fun i => T i 2) w = 0 := by
    intro w hw
    have := hd2 w
    rw [hw] at this
    exact (mul_eq_zero.1 this).resolve_left hs.ne'
  have z1 := zero (sub (pts 1) (pts 0)) (by rw [dot_three]; simp [cross]; ring)
  have z2 := zero (sub (pts 2) (pts 0)) (by rw [dot_three]; simp [cross]; ring)
  subst hn
  refine ⟨⟨_, hm, by rw [ho]; simp, z1, z2, ?_, ?_⟩, z2, ?_, fun i hi => zero _ hi⟩
  · rw [← hd2, ho]; simpa using hs
  · funext j
    have : toLocalVec T (fun i => T i 2) j = dot (fun i => T i j) (fun i => T i 2) := rfl
    rw [this, ho]
    fin_cases j <;> simp
  · have a : localNode T pts 2 1 = dot (fun i => T i 1) (sub (pts 2) (pts 0)) := rfl
    rw [a, ← dot_cross_col ho hr]
    have b : norm (sub (pts 1) (pts 0)) * dot (fun i => T i 2) (cross (fun i => T i 0) (sub (pts 2) (pts 0))) = s := by
      have : norm (sub (pts 1) (pts 0)) * dot (fun i => T i 2) (cross (fun i => T i 0) (sub (pts 2) (pts 0))) = dot (fun i => T i 2) (cross (sub (pts 1) (pts 0)) (sub (pts 2) (pts 0))) := by
        have t : ∀ i, sub (pts 1) (pts 0) i = T i 0 * norm (sub (pts 1) (pts 0)) := fun i => (h1 i).symm
        rw [dot_three, dot_three]
        simp only [cross]
        simp
        rw [t 0, t 1, t 2]
        ring
      rw [this, show dot (fun i => T i 2) (cross (sub (pts 1) (pts 0)) (sub (pts 2) (pts 0))) = s * dot (fun i => T i 2) (fun i => T i 2) from ?_, ho]
      · simp
      · simp only [dot, ← h3, Finset.mul_sum]
        exact Finset.sum_congr rfl fun _ _ => by ring
    exact (pos_iff_pos_of_mul_pos (by rw [b]; exact hs)).1 hp

theorem frame1_none {p0 p1 y : V3} : frame1 p0 p1 y = none ↔ Parallel (sub p1 p0) y := by
  have hc : ∀ {v1 : V3}, unit (sub p1 p0) = some v1 → (cross v1 y = 0 ↔ cross (sub p1 p0) y = 0) := by
    intro v1 h1
    obtain ⟨hn, _, e, _⟩ := unit_some h1
    have s : ∀ i, sub p1 p0 i = v1 i * norm (sub p1 p0) := fun i => by rw [e]; exact (div_mul_cancel₀ _ hn).symm
    have t : ∀ j, cross (sub p1 p0) y j = norm (sub p1 p0) * cross v1 y j := by
      intro j; fin_cases j <;> simp only [cross, s] <;> simp <;> ring
    constructor
    · intro h; funext j; rw [t, h]; simp
    · intro h; funext j
      have := t j
      rw [h] at this
      exact ((mul_eq_zero.1 this.symm).resolve_left hn)
  unfold frame1
  constructor
  · intro h
    cases h1 : unit (sub p1 p0) with
    | none =>
      rw [unit_none] at h1
      rw [Parallel, h1]; funext j; fin_cases j <;> simp [cross]
    | some v1 =>
      have h1' : unit (fun i => p1 i - p0 i) = some v1 := h1
      rw [h1', Option.bind_some] at h
      cases h3 : unit (cross v1 y) with
      | none => exact (hc h1).1 (unit_none.1 h3)
      | some v3 =>
        rw [h3, Option.bind_some] at h
        cases h2 : unit (cross v3 v1) with
        | some v2 => rw [h2] at h; simp at h
        | none =>
          -- impossible: the product of two orthogonal unit vectors is a unit vector
          exfalso
          obtain ⟨_, _, _, d1⟩ := unit_some h1
          obtain ⟨hn3, _, e3, d3⟩ := unit_some h3
          have hac : dot v1 v3 = 0 := by
            have := cross_dot v1 y
            rw [dot_three] at this ⊢
            rw [e3]; field_simp; linarith
          rw [unit_none] at h2
          have e0 := congrFun h2 0
          have e1 := congrFun h2 1
          have e2 := congrFun h2 2
          rw [dot_three] at d1 d3 hac
          simp [cross] at e0 e1 e2
          have : (1:ℝ) = 0 := by
            linear_combination (-1) * d1 * (v3 0 * v3 0 + v3 1 * v3 1 + v3 2 * v3 2) - d3 + hac * (v1 0 * v3 0 + v1 1 * v3 1 + v1 2 * v3 2) + e0 * (v3 1 * v1 2 - v3 2 * v1 1) + e1 * (v3 2 * v1 0 - v3 0 * v1 2) + e2 * (v3 0 * v1 1 - v3 1 * v1 0)
          exact one_ne_zero this
  · intro h
    cases h1 : unit (fun i => p1 i - p0 i) with
    | none => rfl
    | some v1 =>
      have : unit (cross v1 y) = none := unit_none.2 ((hc h1).2 h)
      simp [this]

theorem frame2_none {p0 p1 p2 : V3} : frame2 p0 p1 p2 = none ↔ Parallel (sub p1 p0) (sub p2 p0) := by
  have key : ∀ {w : V3}, unit (fun i => p2 i - p0 i) = some w → frame2 p0 p1 p2 = frame1 p0 p1 w := by
    intro w hw
    unfold frame2 frame1
    simp only [hw, Option.bind_some]
  cases hw : unit (fun i => p2 i - p0 i) with
  | none =>
    have h0 : sub p2 p0 = 0 := unit_none.1 hw
    constructor
    · intro _; rw [Parallel, h0]; funext j; fin_cases j <;> simp [cross]
    · intro _
      unfold frame2
      simp only [hw, Option.bind_none]
      cases unit (fun i => p1 i - p0 i) <;> rfl
  | some w =>
    rw [key hw, frame1_none]
    obtain ⟨hn, _, e, _⟩ := unit_some hw
    have s : ∀ i, sub p2 p0 i = w i * norm (fun i => p2 i - p0 i) := fun i => by rw [e]; exact (div_mul_cancel₀ _ hn).symm
    have t : ∀ j, cross (sub p1 p0) (sub p2 p0) j = norm (fun i => p2 i - p0 i) * cross (sub p1 p0) w j := by
      intro j; fin_cases j <;> simp only [cross, s] <;> simp <;> ring
    constructor
    · intro h; funext j; rw [t, h]; simp
    · intro h; funext j
      have := t j
      rw [h] at this
      exact (mul_eq_zero.1 this.symm).resolve_left hn

/-- C110: when an element gets a frame.  A line element not parallel to the x axis gets one exactly when an orientation vector is available that is not parallel to the element (the default vector is
available only when bending is off); a surface element outside a plane of constant z exactly when its first three nodes are not collinear.  In the remaining cases the coordinates are not numbers, or
the initialisation stops with an error. -/
theorem C110_exists (n : Nat) (pts : Nat → V3) (y : Option V3) (bending : Bool) :
    ((∃ i, 1 ≤ i ∧ i < n ∧ (pts i 1 ≠ pts 0 1 ∨ pts i 2 ≠ pts 0 2)) →
      ((∃ T, (init 1 n pts y bending).tMatrix = some T) ↔ (y.isSome ∨ bending = false) ∧ ¬ Parallel (sub (pts 1) (pts 0)) (y.getD (defaultY (pts 0) (pts 1)))) ∧
      (init 1 n pts y bending = .error ↔ y = none ∧ bending = true)) ∧
    ((∃ i, 1 ≤ i ∧ i < n ∧ pts i 2 ≠ pts 0 2) → ((∃ T, (init 2 n pts y bending).tMatrix = some T) ↔ ¬ Parallel (sub (pts 1) (pts 0)) (sub (pts 2) (pts 0)))) := by
  have of : ∀ (f : V3 → Option V3) (o : Option (Fin 3 → Fin 3 → ℝ)), ((∃ T, (ofFrame pts f o).tMatrix = some T) ↔ o ≠ none) ∧ ofFrame pts f o ≠ .error := by
    intro f o
    cases o <;> simp [ofFrame, Outcome.tMatrix]
  constructor
  · rintro ⟨i, hi, hin, hne⟩
    have hc : ∃ i, 1 ≤ i ∧ i < n ∧ (|pts 0 1 - pts i 1| ≠ 0 ∨ |pts 0 2 - pts i 2| ≠ 0) := by
      refine ⟨i, hi, hin, ?_⟩
      simp only [ne_eq, abs_eq_zero, sub_eq_zero]
      exact hne.imp (fun h h' => h h'.symm) (fun h h' => h h'.symm)
    have e : init 1 n pts y bending = init1 pts y bending := by simp only [init]; rw [if_pos hc]
    rw [e]
    cases y with
    | some y => simp only [init1, (of _ _).1, frame1_none, Ne]; simp [(of _ _).2]
    | none =>
      cases bending with
      | true => simp [init1, Outcome.tMatrix]
      | false => simp only [init1, (of _ _).1, frame1_none, Ne]; simp [(of _ _).2]
  · rintro ⟨i, hi, hin, hne⟩
    have hc : ∃ i, 1 ≤ i ∧ i < n ∧ |pts 0 2 - pts i 2| ≠ 0 := ⟨i, hi, hin, by rw [ne_eq, abs_eq_zero, sub_eq_zero]; exact fun h => hne h.symm⟩
    have e : init 2 n pts y bending = init2 pts := by simp only [init]; rw [if_pos hc]
    rw [e, init2, (of _ _).1, Ne, frame2_none]

/-- C110: the default orientation vector works for every line element except those along the direction (1, -5/8, 11/40) of its offset. -/
theorem C110_default_partial (n : Nat) (pts : Nat → V3) (h : ∃ i, 1 ≤ i ∧ i < n ∧ (pts i 1 ≠ pts 0 1 ∨ pts i 2 ≠ pts 0 2)) :
    (∃ T, (init 1 n pts none false).tMatrix = some T) ↔ ¬ Parallel (sub (pts 1) (pts 0)) ![1, -5 / 8, 11 / 40] := by
  rw [((C110_exists n pts none false).1 h).1]
  have : Parallel (sub (pts 1) (pts 0)) (defaultY (pts 0) (pts 1)) ↔ Parallel (sub (pts 1) (pts 0)) ![1, -5 / 8, 11 / 40] := by
    have : cross (sub (pts 1) (pts 0)) (defaultY (pts 0) (pts 1)) = cross (sub (pts 1) (pts 0)) ![1, -5 / 8, 11 / 40] := by
      funext j; fin_cases j <;> simp [cross, sub, defaultY] <;> ring
    rw [Parallel, Parallel, this]
  simp [this]

/-- C110 (what the code does not do): the default orientation vector, meant to be usable for every element without bending, gives NaN coordinates for a proper element. -/
theorem C110_default_fails : ∃ pts : Nat → V3, pts 1 ≠ pts 0 ∧ init 1 2 pts none false = .nan := by
  refine ⟨fun i => if i = 0 then 0 else ![1, -5 / 8, 11 / 40], ?_, ?_⟩
  · intro h; have := congrFun h 0; simp at this
  · have hf : frame1 0 ![1, -5 / 8, 11 / 40] (defaultY 0 ![1, -5 / 8, 11 / 40]) = none := by
      rw [frame1_none]; funext j; fin_cases j <;> simp [cross, sub, defaultY] <;> ring
    have hc : ∃ i, 1 ≤ i ∧ i < 2 ∧ (|(if (0:Nat) = 0 then (0:V3) else ![1, -5 / 8, 11 / 40]) 1 - (if i = 0 then (0:V3) else ![1, -5 / 8, 11 / 40]) 1| ≠ 0 ∨
        |(if (0:Nat) = 0 then (0:V3) else ![1, -5 / 8, 11 / 40]) 2 - (if i = 0 then (0:V3) else ![1, -5 / 8, 11 / 40]) 2| ≠ 0) := ⟨1, le_refl _, by norm_num, Or.inl (by norm_num)⟩
    simp only [init]
    rw [if_pos hc]
    simp [init1, hf, ofFrame]

/-- C110 (what the code does not do): a line element along the x axis never gets a frame, so its orientation vector is ignored: two elements on it that differ only in the orientation vector are treated
alike, and a missing vector is not reported. -/
theorem C110_axis_fails : ∀ (n : Nat) (pts : Nat → V3), (∀ i, i < n → pts i 1 = pts 0 1 ∧ pts i 2 = pts 0 2) → ∀ (y : Option V3) (bending : Bool), init 1 n pts y bending = .direct := by
  intro n pts h y bending
  simp only [init]
  rw [if_neg]
  rintro ⟨i, _, hi, hne⟩
  obtain ⟨h1, h2⟩ := h i hi
  simp [h1, h2] at hne

/-- Non-vacuity of C110: a diagonal beam, and a tilted triangle. -/
example : (∃ T, (init 1 2 (fun i => if i = 0 then 0 else ![1, 1, 0]) (some ![0, 1, 0]) true).tMatrix = some T) ∧
    ∃ T, (init 2 3 (fun i => if i = 0 then 0 else if i = 1 then ![1, 0, 1] else ![0, 1, 0]) none true).tMatrix = some T := by
  constructor
  · rw [((C110_exists 2 _ (some ![0, 1, 0]) true).1 ⟨1, le_refl _, by norm_num, Or.inl (by simp)⟩).1]
    refine ⟨by simp, fun h => ?_⟩
    have := congrFun h 2
    simp [cross, sub] at this
  · rw [(C110_exists 3 _ none true).2 ⟨1, le_refl _, by norm_num, by simp⟩]
    intro h
    have := congrFun h 2
    simp [cross, sub] at this

end Verif.GeomElem
