import Verif.Model.InterfaceDofs
import Mathlib.Tactic.Linarith
import Mathlib.Tactic.Ring
import Mathlib.Tactic.FinCases
import Mathlib.Tactic.NormNum
import Mathlib.Tactic.Abel
import Mathlib.Algebra.BigOperators.Fin
/-
  C74 (material patches), C75 (static condensation of void dofs), C76 (partition of the element dofs).
-/
namespace Verif.InterfaceDofs
open Matrix

/-! ## Specification -/

/-- Pockets of material met walking once around a closed ring of values: places where a non-negative value follows a negative one. -/
noncomputable def pocketStarts (v : List ℝ) : Nat :=
  ((List.range v.length).filter fun i => decide (v.getD i 0 < 0) && decide (0 ≤ v.getD ((i + 1) % v.length) 0)).length

/-- Nine nodes of a 3×3 grid around a node; `g i j` with `i` to the right and `j` upwards, `g 1 1` the node itself. -/
abbrev Grid := Fin 3 → Fin 3 → Nat

/-- The ring of the eight outer nodes, counter-clockwise from the lower left. -/
def ring8 (g : Grid) : List Nat := [g 0 0, g 1 0, g 2 0, g 2 1, g 2 2, g 1 2, g 0 2, g 0 1]

/-- The element of the grid with lower left node `(i, j)`, numbered counter-clockwise from there. -/
def quad (g : Grid) (i j : Fin 2) (θ : ℝ) : PElem :=
  ⟨![g i.castSucc j.castSucc, g i.succ j.castSucc, g i.succ j.succ, g i.castSucc j.succ], θ⟩

/-- The four elements in the order lower left, lower right, upper right, upper left. -/
def fourQuads (g : Grid) (θ : Fin 4 → ℝ) : List PElem := [quad g 0 0 (θ 0), quad g 1 0 (θ 1), quad g 1 1 (θ 2), quad g 0 1 (θ 3)]

/-- The element system after the update `dx`: residual `r + J dx` of row `i`, over the dofs `dofs`. -/
noncomputable def linRes (J : Nat → Nat → ℝ) (r dx : Nat → ℝ) (dofs : List Nat) (i : Nat) : ℝ := r i + (dofs.map fun k => J i k * dx k).sum

/-- What is assumed of the external solver for a regular matrix. -/
def Solves (solve : Solver) {n : Nat} (A : Matrix (Fin n) (Fin n) ℝ) : Prop := ∀ b, A.mulVec (solve A b) = b

/-! ## C74 -/

/-- Counting loop after `k` steps. -/
theorem count_prefix (v : List ℝ) (k : Nat) :
    (List.range k).foldl (fun (s : ℝ × Nat) i =>
      let v2 := v.getD ((i + 1) % v.length) 0
      (v2, if changes s.1 v2 then s.2 + 1 else s.2)) (v.getD (0 % v.length) 0, 0)
    = (v.getD (k % v.length) 0, ((List.range k).filter fun i => changes (v.getD (i % v.length) 0) (v.getD ((i + 1) % v.length) 0)).length) := by
  induction k with
  | zero => simp
  | succ k ih =>
    rw [List.range_succ, List.foldl_append, ih]
    simp only [List.foldl_cons, List.foldl_nil, List.filter_append, List.length_append, List.filter_cons, List.filter_nil]
    split <;> simp

/-- Ups and downs along the walk differ only by where it starts and ends. -/
theorem ups_downs (b : Nat → ℝ) (k : Nat) :
    ((List.range k).filter fun i => changes (b i) (b (i + 1))).length + (if b k < 0 then 0 else 1)
      = 2 * ((List.range k).filter fun i => decide (b i < 0) && decide (0 ≤ b (i + 1))).length + (if b 0 < 0 then 0 else 1) := by
  induction k with
  | zero => simp
  | succ k ih =>
    rw [List.range_succ]
    simp only [List.filter_append, List.length_append, List.filter_cons, List.filter_nil]
    by_cases h1 : b k < 0 <;> by_cases h2 : b (k + 1) < 0
    · have c : changes (b k) (b (k + 1)) = false := by simp [changes, h1, h2, not_le.mpr h2, not_le.mpr h1]
      simp [c, h1, h2, not_le.mpr h2] at ih ⊢; omega
    · have c : changes (b k) (b (k + 1)) = true := by simp [changes, h1, not_lt.mp h2]
      simp [c, h1, h2, not_lt.mp h2] at ih ⊢; omega
    · have c : changes (b k) (b (k + 1)) = true := by simp [changes, h2, not_lt.mp h1]
      simp [c, h1, h2, not_le.mpr h2] at ih ⊢; omega
    · have c : changes (b k) (b (k + 1)) = false := by simp [changes, h1, h2]
      simp [c, h1, h2, not_lt.mp h2] at ih ⊢; omega

/-- C74: on every closed ring of values the number of sign changes is twice the number of material pockets, in particular even. -/
theorem C74_changes_even (v : List ℝ) : countChanges v = 2 * pocketStarts v := by
  rcases Nat.eq_zero_or_pos v.length with h0 | hpos
  · simp [countChanges, pocketStarts, h0]
  have h := ups_downs (fun i => v.getD (i % v.length) 0) v.length
  have hc := congrArg Prod.snd (count_prefix v v.length)
  rw [Nat.zero_mod] at hc
  have e : v.length % v.length = 0 % v.length := by simp
  rw [e] at h
  have h := Nat.add_right_cancel h
  have hu : pocketStarts v = ((List.range v.length).filter fun i => decide (v.getD (i % v.length) 0 < 0) && decide (0 ≤ v.getD ((i + 1) % v.length) 0)).length := by
    unfold pocketStarts
    congr 1
    apply List.filter_congr
    intro i hi
    rw [Nat.mod_eq_of_lt (List.mem_range.mp hi)]
  rw [hu]
  unfold countChanges
  rw [hc]
  exact h

example : countChanges [-1, 1, -1, 2, -3] = 4 ∧ pocketStarts [-1, 1, -1, 2, -3] = 2 := by
  have h : pocketStarts [-1, 1, -1, 2, -3] = 2 := by
    unfold pocketStarts
    simp [List.range_succ, List.filter_cons]
  exact ⟨by rw [C74_changes_even, h], h⟩

theorem insertAngle_perm (e : PElem) (l : List PElem) (h : ∀ a ∈ l, a.angle ≠ e.angle) : (insertAngle e l).Perm (e :: l) := by
  induction l with
  | nil => simp [insertAngle]
  | cons a l ih =>
    have ha := h a (by simp)
    have := ih fun b hb => h b (by simp [hb])
    unfold insertAngle
    split
    · exact List.Perm.refl _
    · rw [if_neg (fun q => ha q.symm)]
      exact (this.cons a).trans (List.Perm.swap e a l)

theorem insertAngle_sorted (e : PElem) (l : List PElem) (hs : l.Pairwise fun a b => a.angle < b.angle) :
    (insertAngle e l).Pairwise fun a b => a.angle < b.angle := by
  induction l with
  | nil => simp [insertAngle]
  | cons a l ih =>
    rw [List.pairwise_cons] at hs
    unfold insertAngle
    split
    · rename_i hlt
      simp only [List.pairwise_cons]
      refine ⟨?_, hs⟩
      intro b hb
      rcases List.mem_cons.mp hb with rfl | hb
      · exact hlt
      · exact hlt.trans (hs.1 b hb)
    split
    · rename_i heq
      rw [List.pairwise_cons]
      exact ⟨fun b hb => by rw [heq]; exact hs.1 b hb, hs.2⟩
    · rename_i h1 h2
      rw [List.pairwise_cons]
      refine ⟨?_, ih hs.2⟩
      have hlt : a.angle < e.angle := lt_of_le_of_ne (not_lt.mp h1) (fun q => h2 q.symm)
      intro b hb
      have : ∀ (l : List PElem), (∀ b ∈ l, a.angle < b.angle) → ∀ b ∈ insertAngle e l, a.angle < b.angle := by
        intro l
        induction l with
        | nil => intro _ b hb; simp [insertAngle] at hb; subst hb; exact hlt
        | cons c l ih2 =>
          intro hl b hb
          unfold insertAngle at hb
          split at hb
          · rcases List.mem_cons.mp hb with rfl | hb
            · exact hlt
            · exact hl b hb
          split at hb
          · rcases List.mem_cons.mp hb with rfl | hb
            · exact hlt
            · exact hl b (by simp [hb])
          · rcases List.mem_cons.mp hb with rfl | hb
            · exact hl _ (by simp)
            · exact ih2 (fun b hb => hl b (by simp [hb])) b hb
      exact this l hs.1 b hb

theorem byAngle_sorted (es : List PElem) : (byAngle es).Pairwise fun a b => a.angle < b.angle := by
  unfold byAngle
  have : ∀ (es m : List PElem), (m.Pairwise fun a b => a.angle < b.angle) → (es.foldl (fun m e => insertAngle e m) m).Pairwise fun a b => a.angle < b.angle := by
    intro es
    induction es with
    | nil => intro m h; exact h
    | cons e es ih => intro m h; exact ih _ (insertAngle_sorted e m h)
  exact this es [] List.Pairwise.nil

theorem byAngle_perm (es : List PElem) (h : (es.map PElem.angle).Nodup) : (byAngle es).Perm es := by
  unfold byAngle
  have : ∀ (es m : List PElem), ((es ++ m).map PElem.angle).Nodup → (es.foldl (fun m e => insertAngle e m) m).Perm (es ++ m) := by
    intro es
    induction es with
    | nil => intro m h; exact List.Perm.refl _
    | cons e es ih =>
      intro m h
      have hp : (insertAngle e m).Perm (e :: m) := by
        apply insertAngle_perm
        intro a ha q
        simp only [List.cons_append, List.map_cons, List.nodup_cons] at h
        exact h.1 (by rw [← q]; exact List.mem_map_of_mem (by simp [ha]))
      have h2 : (es ++ insertAngle e m).Perm (e :: es ++ m) :=
        (List.Perm.append_left es hp).trans List.perm_middle
      rw [List.foldl_cons]
      exact (ih _ ((h2.map _).nodup_iff.mpr h)).trans h2
  simpa using this es [] (by simpa using h)

/-- Elements with pairwise different angles are visited in order of angle, whatever order the set of neighbours has. -/
theorem byAngle_eq (es l : List PElem) (hp : es.Perm l) (hl : l.Pairwise fun a b => a.angle < b.angle) : byAngle es = l := by
  have hnd : (es.map PElem.angle).Nodup := by
    refine ((hp.map _).nodup_iff).mpr ?_
    rw [List.Nodup, List.pairwise_map]
    exact hl.imp fun h => ne_of_lt h
  have := (byAngle_perm es hnd).trans hp
  exact this.eq_of_pairwise (fun a b _ _ h1 h2 => absurd (h1.trans h2) (lt_irrefl _)) (byAngle_sorted es) hl

/-- C74, structured patches: for four elements around a node, numbered counter-clockwise from the lower left node, given in any order and with centroids at
increasing angles, the node is factored iff more than one material pocket lies on the ring of the eight outer nodes. -/
theorem C74_factored_iff_structured (g : Grid) (θ : Fin 4 → ℝ) (hθ : θ 0 < θ 1 ∧ θ 1 < θ 2 ∧ θ 2 < θ 3) (es : List PElem)
    (hes : es.Perm (fourQuads g θ)) (dist phi : Nat → ℝ) :
    ∃ b, materialLevels es dist phi = .ok b ∧ (b = true ↔ 2 ≤ pocketStarts ((ring8 g).map phi)) := by
  have hb : byAngle es = fourQuads g θ := by
    apply byAngle_eq es _ hes
    obtain ⟨h1, h2, h3⟩ := hθ
    simp [fourQuads, quad]
    refine ⟨⟨h1, ?_, ?_⟩, ⟨h2, ?_⟩, h3⟩ <;> linarith
  have hlen : ¬ es.length < 4 := by rw [hes.length_eq]; simp [fourQuads]
  unfold materialLevels
  rw [if_neg hlen, hb]
  refine ⟨_, rfl, ?_⟩
  have hper : periphery dist (quad g 0 0 (θ 0)) (quad g 1 0 (θ 1)) (quad g 1 1 (θ 2)) (quad g 0 1 (θ 3)) = ring8 g := by
    simp [periphery, quad, nearer, ring8]
  rw [hper, C74_changes_even]
  simp only [decide_eq_true_eq]
  omega

/-- C74: a factored structured patch hands back exactly the elements of the patch with a node that is not void. -/
theorem C74_elems_to_factor (es : List PElem) (dist phi : Nat → ℝ) (l : List PElem) (h : elemsToFactor es dist phi = .ok l) (e : PElem) :
    e ∈ l ↔ materialLevels es dist phi = .ok true ∧ e ∈ es ∧ ∃ i, 0 ≤ phi (e.nodes i) := by
  unfold elemsToFactor at h
  cases hm : materialLevels es dist phi with
  | ub => rw [hm] at h; cases h
  | ok b =>
    rw [hm] at h
    cases b with
    | false => injection h with h; subst h; simp
    | true =>
      injection h with h; subst h
      simp only [List.mem_filter, Bool.or_eq_true, decide_eq_true_eq, true_and, ge_iff_le, Fin.exists_fin_succ, Fin.exists_fin_zero_pi, or_assoc]
      simp [Fin.exists_fin_succ]

/-- A regular 3×3 grid with a material pocket in two opposite corners. -/
def gridEx : Grid := fun i j => 3 * j.val + i.val

noncomputable def phiEx : Nat → ℝ := fun n => if n = 0 ∨ n = 8 then 1 else -1

example : materialLevels (fourQuads gridEx ![-3, -1, 1, 3]).reverse (fun _ => 1) phiEx = .ok true := by
  obtain ⟨b, hb, hi⟩ := C74_factored_iff_structured gridEx ![-3, -1, 1, 3] (by simp) (fourQuads gridEx ![-3, -1, 1, 3]).reverse
    (List.reverse_perm _) (fun _ => 1) phiEx
  rw [hb]
  congr 1
  rw [hi]
  unfold pocketStarts
  simp [ring8, gridEx, phiEx, List.range_succ, List.filter_cons]

/-- C74: more than four elements with centroids at different angles around a node (an irregular node of a paved mesh) overrun the four-slot vector. -/
theorem C74_irregular_node_fails (es : List PElem) (dist phi : Nat → ℝ) (h5 : 4 < es.length) (hnd : (es.map PElem.angle).Nodup) :
    materialLevels es dist phi = .ub := by
  unfold materialLevels
  rw [if_neg (by omega)]
  have hl := (byAngle_perm es hnd).length_eq
  split
  · rename_i heq; rw [heq] at hl; simp at hl; omega
  · rfl

/-- C74: three elements around a node: never factored, whatever the pockets. -/
theorem C74_three_elements_never_factored (es : List PElem) (dist phi : Nat → ℝ) (h : es.length < 4) : elemsToFactor es dist phi = .ok [] := by
  simp [elemsToFactor, materialLevels, h]

/-- C74, numbering: if the lower left element is numbered from its upper right node (a rotation, same geometry), the pocket at the lower left node is missed:
two pockets on the ring, but the node is not factored. -/
theorem C74_rotated_numbering_fails :
    2 ≤ pocketStarts ((ring8 gridEx).map phiEx) ∧
    materialLevels [⟨![4, 3, 0, 1], -3⟩, quad gridEx 1 0 (-1), quad gridEx 1 1 1, quad gridEx 0 1 3]
      (fun n => if n = 4 then 0 else if n = 1 ∨ n = 3 ∨ n = 5 ∨ n = 7 then 1 else 2) phiEx = .ok false := by
  constructor
  · unfold pocketStarts
    simp [ring8, gridEx, phiEx, List.range_succ, List.filter_cons]
  · unfold materialLevels
    rw [byAngle_eq _ _ (List.Perm.refl _) (by simp [quad]; norm_num)]
    simp only [List.length_cons, List.length_nil]
    rw [if_neg (by norm_num)]
    congr 1
    rw [C74_changes_even]
    unfold pocketStarts
    simp [periphery, quad, nearer, gridEx, phiEx, List.range_succ, List.filter_cons]

/-! ## C76 -/

theorem pushRows_eq (nNodes nVars : Nat) (p : Nat → Bool) (acc : List Nat) :
    pushRows nNodes nVars p acc = acc ++ (List.range nNodes).flatMap fun i => if p i then (List.range nVars).map fun j => j * nNodes + i else [] := by
  have inner : ∀ (i : Nat) (l acc : List Nat), l.foldl (fun acc j => acc ++ [j * nNodes + i]) acc = acc ++ l.map fun j => j * nNodes + i := by
    intro i l
    induction l with
    | nil => simp
    | cons a l ih => intro acc; rw [List.foldl_cons, ih]; simp
  unfold pushRows
  generalize List.range nNodes = l
  induction l generalizing acc with
  | nil => simp
  | cons a l ih =>
    rw [List.foldl_cons, ih]
    by_cases h : p a
    · simp [h, inner]
    · simp [h]

theorem mem_rows (nNodes nVars : Nat) (p : Nat → Bool) (d : Nat) :
    (d ∈ pushRows nNodes nVars p []) ↔ d < nVars * nNodes ∧ p (d % nNodes) = true := by
  rw [pushRows_eq]
  simp only [List.nil_append, List.mem_flatMap, List.mem_range]
  constructor
  · rintro ⟨i, hi, h⟩
    by_cases hp : p i
    · simp only [hp, if_true, List.mem_map, List.mem_range] at h
      obtain ⟨j, hj, rfl⟩ := h
      refine ⟨?_, ?_⟩
      · calc j * nNodes + i < j * nNodes + nNodes := by omega
          _ = (j + 1) * nNodes := by ring
          _ ≤ nVars * nNodes := Nat.mul_le_mul_right _ hj
      · rw [Nat.mul_add_mod_self_right, Nat.mod_eq_of_lt hi]; exact hp
    · simp [hp] at h
  · rintro ⟨hd, hp⟩
    have hn : 0 < nNodes := by rcases Nat.eq_zero_or_pos nNodes with h | h; (· subst h; simp at hd); exact h
    refine ⟨d % nNodes, Nat.mod_lt _ hn, ?_⟩
    rw [if_pos hp]
    refine List.mem_map.mpr ⟨d / nNodes, ?_, ?_⟩
    · rw [List.mem_range]; exact Nat.div_lt_of_lt_mul (by rw [Nat.mul_comm]; exact hd)
    · rw [Nat.mul_comm]; exact Nat.div_add_mod d nNodes

theorem nodup_rows (nNodes nVars : Nat) (p : Nat → Bool) : (pushRows nNodes nVars p []).Nodup := by
  rw [pushRows_eq, List.nil_append, List.nodup_flatMap]
  constructor
  · intro i hi
    have hi := List.mem_range.mp hi
    split
    · refine List.Nodup.map ?_ List.nodup_range
      intro a b hab
      have : a * nNodes = b * nNodes := by simpa using hab
      exact Nat.eq_of_mul_eq_mul_right (by omega) this
    · simp
  · refine List.Pairwise.imp_of_mem ?_ (List.nodup_range (n := nNodes))
    intro a b ha hb hne
    have ha := List.mem_range.mp ha
    have hb := List.mem_range.mp hb
    intro d hda hdb
    have m1 : d % nNodes = a := by
      dsimp only at hda
      split at hda
      · obtain ⟨j, _, rfl⟩ := List.mem_map.mp hda; rw [Nat.mul_add_mod_self_right, Nat.mod_eq_of_lt ha]
      · simp at hda
    have m2 : d % nNodes = b := by
      dsimp only at hdb
      split at hdb
      · obtain ⟨j, _, rfl⟩ := List.mem_map.mp hdb; rw [Nat.mul_add_mod_self_right, Nat.mod_eq_of_lt hb]
      · simp at hdb
    exact hne (m1.symm.trans m2)

/-- C76: handed empty lists, the local partition returns strictly increasing lists; the dof `d` (variable `d / n_nodes` at node `d % n_nodes`) is void iff the level
set is negative at its node and in the material list iff it is not. -/
theorem C76_partition_local (nNodes nVars : Nat) (val : Nat → ℝ) :
    let r := partitionLocal nNodes nVars val [] []
    (r.1.Pairwise (· < ·)) ∧ (r.2.Pairwise (· < ·)) ∧
    (∀ d, d ∈ r.1 ↔ d < nVars * nNodes ∧ 0 ≤ val (d % nNodes)) ∧ (∀ d, d ∈ r.2 ↔ d < nVars * nNodes ∧ val (d % nNodes) < 0) := by
  have sorted : ∀ p, ((pushRows nNodes nVars p []).mergeSort (· ≤ ·)).Pairwise (· < ·) := by
    intro p
    have h1 : ((pushRows nNodes nVars p []).mergeSort (· ≤ ·)).Pairwise (· ≤ ·) := by
      have := List.pairwise_mergeSort (le := fun a b : Nat => decide (a ≤ b)) (by simp; omega) (by simp; omega) (pushRows nNodes nVars p [])
      exact this.imp fun h => by simpa using h
    have h2 : ((pushRows nNodes nVars p []).mergeSort (· ≤ ·)).Nodup := (List.mergeSort_perm _ _).nodup_iff.mpr (nodup_rows _ _ _)
    exact (h1.and h2).imp fun ⟨a, b⟩ => lt_of_le_of_ne a b
  refine ⟨sorted _, sorted _, fun d => ?_, fun d => ?_⟩
  · simp only [partitionLocal, List.mem_mergeSort, mem_rows]; simp
  · simp only [partitionLocal, List.mem_mergeSort, mem_rows]; simp

/-- C76: together the two lists hold every dof of the element exactly once. -/
theorem C76_partition_complete (nNodes nVars : Nat) (val : Nat → ℝ) :
    let r := partitionLocal nNodes nVars val [] []
    (r.1 ++ r.2).Perm (List.range (nVars * nNodes)) := by
  intro r
  obtain ⟨s1, s2, m1, m2⟩ := C76_partition_local nNodes nVars val
  refine (List.perm_ext_iff_of_nodup ?_ List.nodup_range).mpr ?_
  · rw [List.nodup_append]
    refine ⟨s1.imp fun h => ne_of_lt h, s2.imp fun h => ne_of_lt h, ?_⟩
    rintro a ha b hb rfl
    exact absurd ((m2 a).mp hb).2 (not_lt.mpr ((m1 a).mp ha).2)
  · intro d
    rw [List.mem_append, m1, m2, List.mem_range]
    constructor
    · rintro (h | h) <;> exact h.1
    · intro h
      rcases lt_or_ge (val (d % nNodes)) 0 with hv | hv
      · exact Or.inr ⟨h, hv⟩
      · exact Or.inl ⟨h, hv⟩

example : partitionLocal 2 2 (fun i => if i = 0 then (1 : ℝ) else -1) [] [] = ([0, 2], [1, 3]) := by
  have h1 : ¬ ((1 : ℝ) < 0) := by norm_num
  have h2 : ((-1 : ℝ) < 0) := by norm_num
  simp only [partitionLocal, pushRows, List.range_succ, List.range_zero, List.nil_append, List.cons_append, List.foldl_cons, List.foldl_nil, if_true, h1, h2]
  simp [h1, h2, List.mergeSort, List.MergeSort.Internal.splitInTwo, List.merge]

/-- C76: global ids: with different dofs for different rows the lists are the images of the two sets, disjoint and complete. -/
theorem C76_partition_global (nNodes nVars : Nat) (val : Nat → ℝ) (ids : Nat → Nat) :
    let r := partitionGlobal nNodes nVars val ids [] []
    (r.1 ++ r.2).Perm ((List.range (nVars * nNodes)).map ids) ∧
    (∀ n, n ∈ r.2 ↔ ∃ d < nVars * nNodes, val (d % nNodes) < 0 ∧ ids d = n) ∧
    (∀ n, n ∈ r.1 ↔ ∃ d < nVars * nNodes, 0 ≤ val (d % nNodes) ∧ ids d = n) := by
  obtain ⟨_, _, m1, m2⟩ := C76_partition_local nNodes nVars val
  refine ⟨?_, fun n => ?_, fun n => ?_⟩
  · simpa [partitionGlobal] using (C76_partition_complete nNodes nVars val).map ids
  · simp only [partitionGlobal, List.mem_map, m2]
    exact ⟨fun ⟨d, ⟨h1, h2⟩, h3⟩ => ⟨d, h1, h2, h3⟩, fun ⟨d, h1, h2, h3⟩ => ⟨d, ⟨h1, h2⟩, h3⟩⟩
  · simp only [partitionGlobal, List.mem_map, m1]
    exact ⟨fun ⟨d, ⟨h1, h2⟩, h3⟩ => ⟨d, h1, h2, h3⟩, fun ⟨d, h1, h2, h3⟩ => ⟨d, ⟨h1, h2⟩, h3⟩⟩

/-- C76: the partition does not clear what it is handed: a second call with the lists of the first one returns every dof twice. -/
theorem C76_not_cleared_fails : ∃ (val : Nat → ℝ), ¬ (partitionLocal 1 1 val (partitionLocal 1 1 val [] []).1 (partitionLocal 1 1 val [] []).2).1.Nodup := by
  refine ⟨fun _ => 1, ?_⟩
  simp [partitionLocal, pushRows]

/-- C76: global ids are not sorted in general. -/
theorem C76_global_unsorted_fails : ∃ (ids : Nat → Nat), ¬ ((partitionGlobal 2 1 (fun _ => 1) ids [] []).1.Pairwise (· ≤ ·)) := by
  refine ⟨fun n => 5 - n, ?_⟩
  simp [partitionGlobal, partitionLocal, pushRows, List.range_succ, List.mergeSort, List.MergeSort.Internal.splitInTwo]

/-! ## C75 -/

theorem sum_map_get (l : List Nat) (h : Nat → ℝ) : (l.map h).sum = ∑ i : Fin l.length, h (l.get i) := by
  rw [← Fin.sum_univ_fun_getElem]; rfl

theorem linRes_split (J : Nat → Nat → ℝ) (r dx : Nat → ℝ) (u f l : List Nat) (i : Fin l.length) :
    linRes J r dx (u ++ f) (l.get i) = (sub r l + (block J l u).mulVec (sub dx u) + (block J l f).mulVec (sub dx f)) i := by
  simp only [linRes, List.map_append, List.sum_append, sum_map_get, Pi.add_apply, sub, mulVec, dotProduct, block, of_apply, add_assoc]

theorem invMat_right (solve : Solver) {n : Nat} (A : Matrix (Fin n) (Fin n) ℝ) (h : Solves solve A) : A * invMat solve A = 1 := by
  ext i j
  have := congrFun (h (Pi.single j 1)) i
  simp only [mulVec, dotProduct] at this
  simp only [mul_apply, invMat, of_apply, this, one_apply, Pi.single_apply]

theorem invMat_left (solve : Solver) {n : Nat} (A : Matrix (Fin n) (Fin n) ℝ) (h : Solves solve A) : invMat solve A * A = 1 :=
  mul_eq_one_comm.mp (invMat_right solve A h)

/-- C75, void rows: the linearised residual of all void rows vanishes iff the void dofs are updated by what the recovery computes. -/
theorem C75_void_rows (solve : Solver) (J : Nat → Nat → ℝ) (r dx : Nat → ℝ) (u f : List Nat) (hreg : Solves solve (block J f f)) :
    (∀ d ∈ f, linRes J r dx (u ++ f) d = 0) ↔ ∀ i : Fin f.length, dx (f.get i) = recover solve J r u f dx i := by
  have key : (∀ d ∈ f, linRes J r dx (u ++ f) d = 0) ↔ sub r f + (block J f u).mulVec (sub dx u) + (block J f f).mulVec (sub dx f) = 0 := by
    constructor
    · intro h; funext i; rw [← linRes_split]; exact h _ (List.get_mem f i)
    · intro h d hd
      obtain ⟨i, rfl⟩ := List.get_of_mem hd
      rw [linRes_split, h]; rfl
  rw [key]
  have hrec : (∀ i : Fin f.length, dx (f.get i) = recover solve J r u f dx i) ↔ sub dx f = recover solve J r u f dx :=
    ⟨fun h => funext h, fun h i => congrFun h i⟩
  rw [hrec]
  constructor
  · intro h
    have h2 : (block J f f).mulVec (sub dx f) = -sub r f - (block J f u).mulVec (sub dx u) := by
      rw [← sub_eq_zero, ← h]; abel
    rw [recover, ← h2, mulVec_mulVec, invMat_left solve _ hreg, one_mulVec]
  · intro h
    rw [h, recover, mulVec_mulVec, invMat_right solve _ hreg, one_mulVec]
    abel

/-- C75, material rows: after the recovery the element contributes to the rows of the material dofs exactly the condensed residual plus the condensed Jacobian
times the update; this is what the assembly of the neighbouring elements sees. -/
theorem C75_material_rows (solve : Solver) (J : Nat → Nat → ℝ) (r dx : Nat → ℝ) (u f : List Nat)
    (hrec : ∀ i : Fin f.length, dx (f.get i) = recover solve J r u f dx i) (i : Fin u.length) :
    linRes J r dx (u ++ f) (u.get i) = factoredRes solve J r u f i + ((factoredJac solve J u f).mulVec fun k => dx (u.get k)) i := by
  have h : sub dx f = recover solve J r u f dx := funext hrec
  rw [linRes_split, h]
  have e : (factoredJac solve J u f).mulVec (fun k => dx (u.get k)) = (factoredJac solve J u f).mulVec (sub dx u) := rfl
  rw [e, ← Pi.add_apply]
  refine congrFun (a := i) ?_
  simp only [factoredRes, factoredJac, recover, sub_mulVec, mulVec_sub, mulVec_neg, ← mulVec_mulVec]
  abel

/-- C75: on the dofs of an element, condensing with the partition of the element, solving the condensed system and recovering the void dofs is the same as solving
`J dx = -r` for all dofs, provided the void block is regular. -/
theorem C75_newton_update (solve : Solver) (nNodes nVars : Nat) (val : Nat → ℝ) (J : Nat → Nat → ℝ) (r dx : Nat → ℝ) (u f : List Nat)
    (huf : partitionLocal nNodes nVars val [] [] = (u, f)) (hreg : Solves solve (block J f f)) :
    (∀ i < nVars * nNodes, ((List.range (nVars * nNodes)).map fun k => J i k * dx k).sum = - r i) ↔
      ((factoredJac solve J u f).mulVec (fun k => dx (u.get k)) = - factoredRes solve J r u f ∧ ∀ i : Fin f.length, dx (f.get i) = recover solve J r u f dx i) := by
  have hp : (u ++ f).Perm (List.range (nVars * nNodes)) := by
    have := C76_partition_complete nNodes nVars val
    rw [huf] at this; exact this
  have hs : ∀ i, linRes J r dx (u ++ f) i = r i + ((List.range (nVars * nNodes)).map fun k => J i k * dx k).sum := by
    intro i
    rw [linRes, (hp.map _).sum_eq]
  constructor
  · intro h
    have hz : ∀ d ∈ u ++ f, linRes J r dx (u ++ f) d = 0 := by
      intro d hd
      rw [hs, h d (List.mem_range.mp (hp.mem_iff.mp hd))]; ring
    have hrec := (C75_void_rows solve J r dx u f hreg).mp fun d hd => hz d (by simp [hd])
    refine ⟨?_, hrec⟩
    funext i
    have h1 := C75_material_rows solve J r dx u f hrec i
    rw [hz _ (List.mem_append_left _ (List.get_mem u i))] at h1
    rw [Pi.neg_apply]; linarith
  · rintro ⟨hS, hrec⟩ i hi
    have hm : i ∈ u ++ f := hp.mem_iff.mpr (List.mem_range.mpr hi)
    have hz : linRes J r dx (u ++ f) i = 0 := by
      rcases List.mem_append.mp hm with hm | hm
      · obtain ⟨k, rfl⟩ := List.get_of_mem hm
        rw [C75_material_rows solve J r dx u f hrec k, congrFun hS k, Pi.neg_apply]; ring
      · exact (C75_void_rows solve J r dx u f hreg).mpr hrec i hm
    rw [hs] at hz; linarith

/-- Example of the solver: one dof each side, division. -/
noncomputable def solveEx : Solver := fun {_} A b => A⁻¹.mulVec b

theorem solveEx_solves {n : Nat} (A : Matrix (Fin n) (Fin n) ℝ) (h : IsUnit A.det) : Solves solveEx A := by
  intro b
  simp [solveEx, mulVec_mulVec, Matrix.mul_nonsing_inv A h]

/-- Non-vacuity: a regular solver exists for every regular void block, and the system `[[2,1],[1,1]]` with void dof 1 has a regular one. -/
example : Solves solveEx (block (fun i j => if i = 0 ∧ j = 0 then 2 else 1) [1] [1]) := by
  apply solveEx_solves
  simp [block]

/-- C75, storage: the update changes exactly the void dofs, each by its recovered increment. -/
theorem C75_updated_sol (solve : Solver) (J : Nat → Nat → ℝ) (r : Nat → ℝ) (u f : List Nat) (sol dsol : Nat → ℝ) (hf : f.Nodup) :
    (∀ k, k ∉ f → updatedSol solve J r u f sol dsol k = sol k) ∧
    (∀ i : Fin f.length, updatedSol solve J r u f sol dsol (f.get i) = sol (f.get i) + recover solve J r u f dsol i) := by
  have gen : ∀ (l : List (Fin f.length)), l.Nodup → ∀ (s : Nat → ℝ),
      (∀ k, (∀ i ∈ l, f.get i ≠ k) → (l.foldl (fun s i => fun k => if k = f.get i then s k + recover solve J r u f dsol i else s k) s) k = s k) ∧
      (∀ i ∈ l, (l.foldl (fun s i => fun k => if k = f.get i then s k + recover solve J r u f dsol i else s k) s) (f.get i) = s (f.get i) + recover solve J r u f dsol i) := by
    intro l
    induction l with
    | nil => intro _ s; simp
    | cons a l ih =>
      intro hl s
      rw [List.nodup_cons] at hl
      have ih := ih hl.2 (fun k => if k = f.get a then s k + recover solve J r u f dsol a else s k)
      constructor
      · intro k hk
        rw [List.foldl_cons, ih.1 k fun i hi => hk i (by simp [hi])]
        rw [if_neg fun q => hk a (by simp) q.symm]
      · intro i hi
        rw [List.foldl_cons]
        rcases List.mem_cons.mp hi with rfl | hi
        · rw [ih.1 _ ?_, if_pos rfl]
          intro j hj q
          have : j = i := hf.injective_get q
          exact hl.1 (this ▸ hj)
        · rw [ih.2 i hi, if_neg]
          intro q
          have : i = a := hf.injective_get q
          exact hl.1 (this ▸ hi)
  obtain ⟨h1, h2⟩ := gen (List.finRange f.length) (List.nodup_finRange _) sol
  refine ⟨fun k hk => h1 k fun i _ q => hk (q ▸ List.get_mem f i), fun i => h2 i (List.mem_finRange i)⟩

/-- C75, storage: reading back takes the void dofs from the stored vector and the others from the global solution. -/
theorem C75_factored_solution (stored elemSol : Nat → ℝ) (f : List Nat) (k : Nat) :
    factoredSolution stored elemSol f k = if k ∈ f then stored k else elemSol k := by
  unfold factoredSolution
  induction f generalizing elemSol with
  | nil => simp
  | cons a l ih =>
    rw [List.foldl_cons, ih]
    by_cases h1 : k ∈ l
    · simp [h1]
    · by_cases h2 : k = a
      · subst h2; simp [h1]
      · simp [h1, h2]

/-- C75: one Newton step: reading the element solution after the update gives the old void values plus the recovered increments, and the material values of the new
global solution. -/
theorem C75_step (solve : Solver) (nNodes nVars : Nat) (val : Nat → ℝ) (J : Nat → Nat → ℝ) (r sol dsol newSol : Nat → ℝ) (u f : List Nat)
    (huf : partitionLocal nNodes nVars val [] [] = (u, f)) :
    (∀ d ∈ u, factoredSolution (updatedSol solve J r u f sol dsol) newSol f d = newSol d) ∧
    (∀ i : Fin f.length, factoredSolution (updatedSol solve J r u f sol dsol) newSol f (f.get i) = sol (f.get i) + recover solve J r u f dsol i) := by
  obtain ⟨_, s2, m1, m2⟩ := C76_partition_local nNodes nVars val
  rw [huf] at s2 m1 m2
  have hnd : f.Nodup := s2.imp fun h => ne_of_lt h
  refine ⟨fun d hd => ?_, fun i => ?_⟩
  · rw [C75_factored_solution, if_neg]
    intro hf
    exact absurd ((m2 d).mp hf).2 (not_lt.mpr ((m1 d).mp hd).2)
  · rw [C75_factored_solution, if_pos (List.get_mem f i), (C75_updated_sol solve J r u f sol dsol hnd).2 i]

end Verif.InterfaceDofs
