import Verif.Model.FeData
import Verif.Props.GeomElem
import Mathlib.Tactic.Ring
import Mathlib.Tactic.FieldSimp
import Mathlib.Tactic.LinearCombination
import Mathlib.Tactic.NormNum
import Mathlib.Tactic.Positivity
import Mathlib.Tactic.FinCases
/-
  C182: finite element data of line and surface elements in space.
-/
namespace Verif.FeData
open GeomElem

/-! ## Specification -/

/-- Shape functions add up to one. -/
def Partition {n : Nat} (r : Ref n) : Prop := ∑ i, r.N i = 1 ∧ ∑ i, r.dxi i = 0 ∧ ∑ i, r.deta i = 0

/-- All nodes lie in the plane of the first three. -/
def Planar (n : Nat) (X : Nat → V3) : Prop := ∀ i < n, dot (sub (X i) (X 0)) (cross (sub (X 1) (X 0)) (sub (X 2) (X 0))) = 0

/-- All nodes lie on the line through the first two. -/
def Straight (n : Nat) (X : Nat → V3) : Prop := ∀ i < n, Parallel (sub (X 1) (X 0)) (sub (X i) (X 0))

/-! ## Lemmas -/

theorem mapM_map {α β γ : Type} {f g : α → Option β} {u v : β → γ} {l : List α} (h : ∀ a ∈ l, (f a).map u = (g a).map v) : (l.mapM f).map (List.map u) = (l.mapM g).map (List.map v) := by
  induction l with
  | nil => simp
  | cons a l ih =>
    have ih' := ih fun b hb => h b (by simp [hb])
    have ha := h a (by simp)
    rw [List.mapM_cons, List.mapM_cons]
    cases hf : f a with
    | none => cases hg : g a with
      | none => rfl
      | some y => rw [hf, hg] at ha; simp at ha
    | some x => cases hg : g a with
      | none => rw [hf, hg] at ha; simp at ha
      | some y =>
        rw [hf, hg] at ha
        have ha' : u x = v y := by simpa using ha
        cases hl : l.mapM f with
        | none => cases hm : l.mapM g with
          | none => rfl
          | some ys => rw [hl, hm] at ih'; simp at ih'
        | some xs => cases hm : l.mapM g with
          | none => rw [hl, hm] at ih'; simp at ih'
          | some ys =>
            rw [hl, hm] at ih'
            have ih'' : xs.map u = ys.map v := by simpa using ih'
            show some (List.map u (x :: xs)) = some (List.map v (y :: ys))
            rw [List.map_cons, List.map_cons, ha', ih'']

theorem mapM_mem {α β : Type} {f : α → Option β} : ∀ {l : List α} {d : List β}, l.mapM f = some d → List.Forall₂ (fun a b => f a = some b) l d
  | [], d, h => by
    have : d = [] := by simpa using h.symm
    subst this; exact .nil
  | a :: l, d, h => by
    rw [List.mapM_cons] at h
    cases hf : f a with
    | none => rw [hf] at h; exact absurd h (by intro h; cases h)
    | some x =>
      rw [hf] at h
      cases hl : l.mapM f with
      | none => rw [hl] at h; exact absurd h (by intro h; cases h)
      | some xs =>
        rw [hl] at h
        have : x :: xs = d := by simpa using h
        subst this
        exact .cons hf (mapM_mem hl)

theorem forall2_left {α β : Type} {R : α → β → Prop} {l : List α} {d : List β} (h : List.Forall₂ R l d) {b : β} (hb : b ∈ d) : ∃ a ∈ l, R a b := by
  induction h with
  | nil => simp at hb
  | cons h1 _ ih =>
    rcases List.mem_cons.1 hb with rfl | hb
    · exact ⟨_, by simp, h1⟩
    · obtain ⟨a, ha, hR⟩ := ih hb
      exact ⟨a, by simp [ha], hR⟩

theorem toLocal_lin {n : Nat} (T : Fin 3 → Fin 3 → ℝ) (d : Fin n → ℝ) (v : Fin n → V3) (k : Fin 3) : ∑ i, d i * toLocalVec T (v i) k = toLocalVec T (fun k => ∑ i, d i * v i k) k := by
  simp only [toLocalVec, Finset.mul_sum]
  rw [Finset.sum_comm]
  exact Finset.sum_congr rfl fun _ _ => Finset.sum_congr rfl fun _ _ => by ring

/-- A combination of the local nodes whose factors add up to zero is the combination of the nodes in the frame of the element. -/
theorem comb_local {n : Nat} (T : Fin 3 → Fin 3 → ℝ) (X : Nat → V3) (d : Fin n → ℝ) (c : ℝ) (hd : ∑ i, d i = c) :
    comb d (fun i => localNode T X i) = toLocalVec T (fun k => comb d (fun i => X i) k - c * X 0 k) := by
  funext k
  unfold comb
  simp only [localNode_eq]
  rw [toLocal_lin]
  congr 1
  funext k
  simp only [sub, mul_sub, Finset.sum_sub_distrib, ← Finset.sum_mul, hd]

theorem ip_local {T : Fin 3 → Fin 3 → ℝ} (h : Orthonormal T) (u v : V3) : ip (toLocalVec T u) (toLocalVec T v) = ip u v := dot_global h u v

theorem zero_sub' {n : Nat} (T : Fin 3 → Fin 3 → ℝ) (X : Nat → V3) (d : Fin n → ℝ) (hd : ∑ i, d i = 0) : comb d (fun i => localNode T X i) = toLocalVec T (comb d (fun i => X i)) := by
  rw [comb_local T X d 0 hd]
  congr 1
  funext k
  ring

theorem pos_local {T : Fin 3 → Fin 3 → ℝ} (h : Orthonormal T) {n : Nat} (X : Nat → V3) (d : Fin n → ℝ) (hd : ∑ i, d i = 1) : toGlobalPt T (X 0) (comb d (fun i => localNode T X i)) = comb d (fun i => X i) := by
  rw [comb_local T X d 1 hd]
  funext k
  rw [toGlobalPt, (local_global h _).2]
  ring

theorem toLocal_comb (T : Fin 3 → Fin 3 → ℝ) (x y : ℝ) (u v : V3) (k : Fin 3) : toLocalVec T (fun k => x * u k + y * v k) k = x * toLocalVec T u k + y * toLocalVec T v k := by
  simp only [toLocalVec, Finset.mul_sum, ← Finset.sum_add_distrib]
  exact Finset.sum_congr rfl fun _ _ => by ring

theorem point_eta {n : Nat} {x x' : V3} {w w' : ℝ} {N : Fin n → ℝ} {g g' : Fin n → V3} (h1 : x = x') (h2 : w = w') (h3 : g = g') : (⟨x, w, N, g⟩ : Point n) = ⟨x', w', N, g'⟩ := by
  subst h1 h2 h3; rfl

theorem map_local {n : Nat} {T : Fin 3 → Fin 3 → ℝ} (ho : Orthonormal T) (dim : Nat) (X : Nat → V3) (r : Ref n) (hr : Partition r) :
    (mapAt dim (fun i => localNode T X i) r).map (fun p => { p with xyz := toGlobalPt T (X 0) p.xyz }) =
      (mapAt dim (fun i => X i) r).map (fun p => { p with dphi := fun i => toLocalVec T (p.dphi i) }) := by
  have ha := zero_sub' T X r.dxi hr.2.1
  have hb := zero_sub' T X r.deta hr.2.2
  have hp := pos_local ho X r.N hr.1
  match dim with
  | 0 => rfl
  | 1 =>
    simp only [mapAt, map1, ha, ip_local ho]
    by_cases h0 : ip (comb r.dxi fun i => X i) (comb r.dxi fun i => X i) = 0
    · simp only [h0, if_true]; rfl
    · simp only [h0, if_false, Option.map_some]
      refine congrArg some (point_eta hp rfl ?_)
      funext i k
      have e := toLocal_comb T (r.dxi i / ip (comb r.dxi fun i => X i) (comb r.dxi fun i => X i)) 0 (comb r.dxi fun i => X i) (fun _ => 0) k
      have e2 : (fun k => r.dxi i * (comb r.dxi (fun i => X i) k / ip (comb r.dxi fun i => X i) (comb r.dxi fun i => X i))) =
          fun k => r.dxi i / ip (comb r.dxi fun i => X i) (comb r.dxi fun i => X i) * comb r.dxi (fun i => X i) k + 0 * (0 : ℝ) := by funext k; ring
      simp only [e2, e]
      ring
  | 2 =>
    simp only [mapAt, map2, detG, ha, hb, ip_local ho]
    generalize hA : comb r.dxi (fun i : Fin n => X i) = a
    generalize hB : comb r.deta (fun i : Fin n => X i) = b
    by_cases h0 : ip a a * ip b b - ip a b * ip a b = 0
    · simp only [h0, if_true]; rfl
    · simp only [h0, if_false, Option.map_some]
      refine congrArg some (point_eta hp rfl ?_)
      funext i k
      generalize hD : ip a a * ip b b - ip a b * ip a b = D
      have e := toLocal_comb T ((r.dxi i * ip b b - r.deta i * ip a b) / D) ((r.deta i * ip a a - r.dxi i * ip a b) / D) a b k
      have e2 : (fun k => r.dxi i * ((ip b b * a k - ip a b * b k) / D) + r.deta i * ((ip a a * b k - ip a b * a k) / D)) =
          fun k => (r.dxi i * ip b b - r.deta i * ip a b) / D * a k + (r.deta i * ip a a - r.dxi i * ip a b) / D * b k := by funext k; ring
      simp only [e2, e]
      ring
  | n + 3 => rfl

/-! ## Theorems -/

/-- C182, local elements: the data of a line or surface element that is evaluated in its own frame are those of the element itself — same failure on degenerate maps, same points, weights and shape
functions — with the gradients expressed in the axes of the element; for every element and quadrature rule. -/
theorem C182_local {n : Nat} (dim m : Nat) (X : Nat → V3) (y : Option V3) (bending : Bool) (T : Fin 3 → Fin 3 → ℝ) (nodes : Nat → V3) (nm : Option V3)
    (h : GeomElem.init dim m X y bending = .loc T nodes nm) (rule : List (Ref n)) (hr : ∀ r ∈ rule, Partition r) :
    feInit dim (GeomElem.init dim m X y bending) X rule = (rule.mapM (mapAt dim fun i => X i)).map (List.map fun p => { p with dphi := fun i => toLocalVec T (p.dphi i) }) := by
  have ho := (C110_frame _ _ _ _ _ _ _ _ h).1
  have hn := (init_loc h).1
  rw [h]
  subst hn
  exact mapM_map fun r hr' => map_local ho dim X r (hr r hr')

/-- C182, points: the reported locations are the interpolated nodes of the element, with or without a local frame. -/
theorem C182_points {n : Nat} (dim m : Nat) (X : Nat → V3) (y : Option V3) (bending : Bool) (rule : List (Ref n)) (hr : ∀ r ∈ rule, Partition r) (d : List (Point n))
    (h : feInit dim (GeomElem.init dim m X y bending) X rule = some d) :
    List.Forall₂ (fun r p => p.xyz = comb r.N (fun i => X i) ∧ p.phi = r.N) rule d := by
  have key : ∀ r p, mapAt dim (fun i : Fin n => X i) r = some p → p.xyz = comb r.N (fun i => X i) ∧ p.phi = r.N := by
    intro r p hp
    match dim with
    | 0 => simp [mapAt] at hp
    | 1 =>
      simp only [mapAt, map1] at hp
      split at hp
      · simp at hp
      · have := Option.some.inj hp; subst this; exact ⟨rfl, rfl⟩
    | 2 =>
      simp only [mapAt, map2] at hp
      split at hp
      · simp at hp
      · have := Option.some.inj hp; subst this; exact ⟨rfl, rfl⟩
    | n + 3 => simp [mapAt] at hp
  match ho : GeomElem.init dim m X y bending with
  | .direct =>
    rw [ho] at h
    exact (mapM_mem h).imp fun r p hp => key r p hp
  | .nan => rw [ho] at h; simp [feInit] at h
  | .error => rw [ho] at h; simp [feInit] at h
  | .loc T nodes nm =>
    rw [C182_local dim m X y bending T nodes nm ho rule hr] at h
    cases hm : rule.mapM (mapAt dim fun i : Fin n => X i) with
    | none => rw [hm] at h; simp at h
    | some d' =>
      rw [hm] at h
      have hd : d'.map (fun p => { p with dphi := fun i => toLocalVec T (p.dphi i) }) = d := by simpa using h
      subst hd
      rw [List.forall₂_map_right_iff]
      exact (mapM_mem hm).imp fun r p hp => key r p hp

/-- Nodal values of the field `c + g · x`. -/
def affine (c : ℝ) (g : V3) (x : V3) : ℝ := c + dot g x

/-- C182, surface elements: on a plane element with a local frame the gradients lie in the plane of the element, and the derivatives of every linear field along the two in-plane axes come out exactly. -/
theorem C182_gradient {n : Nat} (m : Nat) (hm : n ≤ m) (X : Nat → V3) (y : Option V3) (bending : Bool) (T : Fin 3 → Fin 3 → ℝ) (nodes : Nat → V3) (nm : Option V3)
    (h : GeomElem.init 2 m X y bending = .loc T nodes nm) (hX : Planar m X) (rule : List (Ref n)) (hr : ∀ r ∈ rule, Partition r) (d : List (Point n))
    (hd : feInit 2 (GeomElem.init 2 m X y bending) X rule = some d) (c : ℝ) (g : V3) :
    ∀ p ∈ d, (∀ i, p.dphi i 2 = 0) ∧ ∀ k : Fin 3, k ≠ 2 → ∑ i : Fin n, affine c g (X i) * p.dphi i k = toLocalVec T g k := by
  have ho := (C110_frame _ _ _ _ _ _ _ _ h).1
  have hn := (init_loc h).1
  have hz : ∀ i : Fin n, nodes i 2 = 0 := fun i => (C110_shell m X y bending T nodes nm h).2.2.2 i (hX i (by omega))
  rw [h] at hd
  subst hn
  have hd' : (rule.mapM (map2 fun i : Fin n => localNode T X i)).map (List.map fun p => { p with xyz := toGlobalPt T (X 0) p.xyz }) = some d := hd
  cases hm' : rule.mapM (map2 fun i : Fin n => localNode T X i) with
  | none => rw [hm'] at hd'; simp at hd'
  | some d' =>
    rw [hm'] at hd'
    have e : d'.map (fun p => { p with xyz := toGlobalPt T (X 0) p.xyz }) = d := by simpa using hd'
    subst e
    intro p hp
    obtain ⟨q, hq, rfl⟩ := List.mem_map.1 hp
    have hf := mapM_mem hm'
    obtain ⟨r, hr1, hr2⟩ := forall2_left hf hq
    have hP := hr r hr1
    have ha2 : comb r.dxi (fun i : Fin n => localNode T X i) 2 = 0 := by simp [comb, hz]
    have hb2 : comb r.deta (fun i : Fin n => localNode T X i) 2 = 0 := by simp [comb, hz]
    -- derivative of the field in the reference coordinates
    have hval : ∀ e : Fin n → ℝ, ∑ i, e i = 0 → ∑ i : Fin n, affine c g (X i) * e i = ip (toLocalVec T g) (comb e fun i : Fin n => localNode T X i) := by
      intro e he
      rw [zero_sub' T X e he, ip_local ho]
      have h1 : ∀ i : Fin n, affine c g (X i) * e i = c * e i + ∑ k, g k * (e i * X i k) := fun i => by
        simp only [affine, dot, add_mul, Finset.sum_mul]
        congr 1
        exact Finset.sum_congr rfl fun _ _ => by ring
      simp only [h1, Finset.sum_add_distrib, ← Finset.mul_sum, he, mul_zero, zero_add]
      rw [Finset.sum_comm]
      simp only [ip, comb, Finset.mul_sum]
    simp only [map2] at hr2
    split at hr2
    · simp at hr2
    rename_i hdet
    have hq' := Option.some.inj hr2
    subst hq'
    have hA := hval r.dxi hP.2.1
    have hB := hval r.deta hP.2.2
    generalize comb r.dxi (fun i : Fin n => localNode T X i) = a at *
    generalize comb r.deta (fun i : Fin n => localNode T X i) = b at *
    generalize toLocalVec T g = G at *
    refine ⟨fun i => by simp [ha2, hb2], fun k hk => ?_⟩
    have hsum : ∑ i : Fin n, affine c g (X i) * (r.dxi i * ((ip b b * a k - ip a b * b k) / detG a b) + r.deta i * ((ip a a * b k - ip a b * a k) / detG a b)) =
        ip G a * ((ip b b * a k - ip a b * b k) / detG a b) + ip G b * ((ip a a * b k - ip a b * a k) / detG a b) := by
      rw [← hA, ← hB, Finset.sum_mul, Finset.sum_mul, ← Finset.sum_add_distrib]
      exact Finset.sum_congr rfl fun _ _ => by ring
    show ∑ i : Fin n, affine c g (X i) * _ = _
    rw [hsum]
    rw [← mul_div_assoc, ← mul_div_assoc, ← add_div, div_eq_iff hdet]
    simp only [ip, detG, Fin.sum_univ_three, ha2, hb2]
    fin_cases k
    · simp; ring
    · simp; ring
    · exact absurd rfl hk

theorem comb3 (d0 d1 d2 : ℝ) (X : Fin 3 → V3) (k : Fin 3) : comb ![d0, d1, d2] X k = d0 * X 0 k + d1 * X 1 k + d2 * X 2 k := by
  simp [comb, Fin.sum_univ_three]

theorem tri3_partition (x y w : ℝ) : Partition (tri3 x y w) := by
  refine ⟨?_, ?_, ?_⟩
  · simp [tri3, Fin.sum_univ_three]; ring
  · simp [tri3, Fin.sum_univ_three]
  · simp [tri3, Fin.sum_univ_three]

theorem detG_cross (a b : V3) : detG a b = dot (cross a b) (cross a b) := by
  simp only [detG, ip, dot, Fin.sum_univ_three, cross]
  simp
  ring

/-- C182, area: with any rule whose weights add up to one half, the weights of a triangle in space add up to its area, half the length of the cross product of two edges. -/
theorem C182_area (X : Nat → V3) (y : Option V3) (bending : Bool) (pts : List (ℝ × ℝ × ℝ)) (hw : (pts.map fun q => q.2.2).sum = 1 / 2) (d : List (Point 3))
    (h : feInit 2 (GeomElem.init 2 3 X y bending) X (pts.map fun q => tri3 q.1 q.2.1 q.2.2) = some d) :
    (d.map fun p => p.JxW).sum = GeomElem.norm (cross (sub (X 1) (X 0)) (sub (X 2) (X 0))) / 2 := by
  have key : ∀ (q : ℝ × ℝ × ℝ) (p : Point 3), mapAt 2 (fun i : Fin 3 => X i) (tri3 q.1 q.2.1 q.2.2) = some p → p.JxW = q.2.2 * GeomElem.norm (cross (sub (X 1) (X 0)) (sub (X 2) (X 0))) := by
    intro q p hp
    simp only [mapAt, map2] at hp
    split at hp
    · simp at hp
    · have := Option.some.inj hp
      subst this
      have e1 : comb (tri3 q.1 q.2.1 q.2.2).dxi (fun i : Fin 3 => X i) = sub (X 1) (X 0) := by
        funext k; simp only [tri3, comb3, sub]; simp; ring
      have e2 : comb (tri3 q.1 q.2.1 q.2.2).deta (fun i : Fin 3 => X i) = sub (X 2) (X 0) := by
        funext k; simp only [tri3, comb3, sub]; simp; ring
      show q.2.2 * _ = _
      rw [e1, e2, detG_cross, norm_eq]
  have fin : ∀ d' : List (Point 3), (pts.map fun q => tri3 q.1 q.2.1 q.2.2).mapM (mapAt 2 fun i : Fin 3 => X i) = some d' →
      (d'.map fun p => p.JxW).sum = GeomElem.norm (cross (sub (X 1) (X 0)) (sub (X 2) (X 0))) / 2 := by
    intro d' hd'
    have hf := mapM_mem hd'
    rw [List.forall₂_map_left_iff] at hf
    have : (d'.map fun p => p.JxW).sum = (pts.map fun q => q.2.2).sum * GeomElem.norm (cross (sub (X 1) (X 0)) (sub (X 2) (X 0))) := by
      clear hd' hw h
      induction hf with
      | nil => simp
      | cons h1 _ ih => simp only [List.map_cons, List.sum_cons, ih, key _ _ h1]; ring
    rw [this, hw]; ring
  match ho : GeomElem.init 2 3 X y bending with
  | .direct => rw [ho] at h; exact fin d h
  | .nan => rw [ho] at h; simp [feInit] at h
  | .error => rw [ho] at h; simp [feInit] at h
  | .loc T nodes nm =>
    rw [C182_local 2 3 X y bending T nodes nm ho _ (by
      intro r hr; obtain ⟨q, _, rfl⟩ := List.mem_map.1 hr; exact tri3_partition _ _ _)] at h
    cases hm : (pts.map fun q => tri3 q.1 q.2.1 q.2.2).mapM (mapAt 2 fun i : Fin 3 => X i) with
    | none => rw [hm] at h; simp at h
    | some d' =>
      rw [hm] at h
      have hd : d'.map (fun p => { p with dphi := fun i => toLocalVec T (p.dphi i) }) = d := by simpa using h
      subst hd
      rw [List.map_map]
      exact fin d' hm

/-! ### Line elements -/

theorem edge2_partition (x w : ℝ) : Partition (edge2 x w) := by
  refine ⟨?_, ?_, ?_⟩
  · simp [edge2, Fin.sum_univ_two]; ring
  · simp [edge2, Fin.sum_univ_two]; ring
  · simp [edge2, Fin.sum_univ_two]

/-- C182, line elements: the gradients of a two-node element with a local frame are `-1/L` and `1/L` along its axis and nothing else, so the axial derivative of every field is its difference over the length; the
weights of a rule on (-1, 1) add up to the length. -/
theorem C182_line (m : Nat) (X : Nat → V3) (y : Option V3) (bending : Bool) (T : Fin 3 → Fin 3 → ℝ) (nodes : Nat → V3) (nm : Option V3)
    (h : GeomElem.init 1 m X y bending = .loc T nodes nm) (rule : List (ℝ × ℝ)) (d : List (Point 2))
    (hd : feInit 1 (GeomElem.init 1 m X y bending) X (rule.map fun q => edge2 q.1 q.2) = some d) :
    (∀ p ∈ d, p.dphi 0 = ![-1 / GeomElem.dist (X 1) (X 0), 0, 0] ∧ p.dphi 1 = ![1 / GeomElem.dist (X 1) (X 0), 0, 0]) ∧
      (d.map fun p => p.JxW).sum = GeomElem.dist (X 1) (X 0) / 2 * (rule.map fun q => q.2).sum := by
  obtain ⟨h0, h1, hL, _, _⟩ := C110_nodes 1 m X y bending T nodes nm h
  rw [h] at hd
  have hd' : ((rule.map fun q => edge2 q.1 q.2).mapM (map1 fun i : Fin 2 => nodes i)).map (List.map fun p => { p with xyz := toGlobalPt T (X 0) p.xyz }) = some d := hd
  cases hm : (rule.map fun q => edge2 q.1 q.2).mapM (map1 fun i : Fin 2 => nodes i) with
  | none => rw [hm] at hd'; simp at hd'
  | some d' =>
    rw [hm] at hd'
    have e : d'.map (fun p => { p with xyz := toGlobalPt T (X 0) p.xyz }) = d := by simpa using hd'
    subst e
    have hf := mapM_mem hm
    rw [List.forall₂_map_left_iff] at hf
    generalize GeomElem.dist (X 1) (X 0) = L at *
    have ha : ∀ q : ℝ × ℝ, comb (edge2 q.1 q.2).dxi (fun i : Fin 2 => nodes i) = ![L / 2, 0, 0] := by
      intro q
      funext k
      have : comb (edge2 q.1 q.2).dxi (fun i : Fin 2 => nodes i) k = -1 / 2 * nodes 0 k + 1 / 2 * nodes 1 k := by simp [comb, edge2, Fin.sum_univ_two]
      rw [this, h0, h1]
      fin_cases k <;> simp
      ring
    have hi : ip ![L / 2, 0, 0] ![L / 2, 0, 0] = (L / 2) * (L / 2) := by simp [ip, Fin.sum_univ_three]
    have key : ∀ (q : ℝ × ℝ) (p : Point 2), map1 (fun i : Fin 2 => nodes i) (edge2 q.1 q.2) = some p → (p.dphi 0 = ![-1 / L, 0, 0] ∧ p.dphi 1 = ![1 / L, 0, 0]) ∧ p.JxW = L / 2 * q.2 := by
      intro q p hp
      simp only [map1, ha, hi] at hp
      split at hp
      · simp at hp
      · have := Option.some.inj hp
        subst this
        refine ⟨⟨?_, ?_⟩, ?_⟩
        · funext k
          fin_cases k <;> simp [edge2]
          field_simp
        · funext k
          fin_cases k <;> simp [edge2]
          field_simp
        · show q.2 * Real.sqrt _ = _
          rw [Real.sqrt_mul_self (by positivity)]; ring
    constructor
    · intro p hp
      obtain ⟨q, hq, rfl⟩ := List.mem_map.1 hp
      obtain ⟨r, _, hr⟩ := forall2_left hf hq
      exact (key r q hr).1
    · rw [List.map_map]
      show (d'.map fun p => p.JxW).sum = _
      clear hm hd' hd
      induction hf with
      | nil => simp
      | cons h1 _ ih => simp only [List.map_cons, List.sum_cons, ih, (key _ _ h1).2]; ring

/-! ### Sides -/

/-- C182, sides: on a straight side of a local surface element between nodes in its plane, the points lie on the side of the element itself, the weights add up to its length, and the normal in the reference frame is
a unit vector orthogonal to the side and to the surface normal, the image of the local one. -/
theorem C182_side (m : Nat) (X : Nat → V3) (y : Option V3) (bending : Bool) (T : Fin 3 → Fin 3 → ℝ) (nodes : Nat → V3) (nm : Option V3) (h : GeomElem.init 2 m X y bending = .loc T nodes nm)
    (i j : Nat) (hi : nodes i 2 = 0) (hj : nodes j 2 = 0) (rule : List (ℝ × ℝ)) (d : List SidePoint) (hd : feSide (GeomElem.init 2 m X y bending) X i j rule = some d) :
    List.Forall₂ (fun tw p => ∀ k, p.xyz k = (1 - tw.1) / 2 * X i k + (1 + tw.1) / 2 * X j k) rule d ∧ (d.map fun p => p.JxW).sum = GeomElem.dist (X j) (X i) / 2 * (rule.map Prod.snd).sum ∧
      ∀ p ∈ d, dot p.normal p.normal = 1 ∧ dot p.normal (sub (X j) (X i)) = 0 ∧ dot p.normal (fun k => T k 2) = 0 ∧ toLocalVec T p.normal = p.localNormal ∧
        GeomElem.dist (X j) (X i) * dot p.normal (fun k => T k 0) = nodes j 1 - nodes i 1 ∧ GeomElem.dist (X j) (X i) * dot p.normal (fun k => T k 1) = -(nodes j 0 - nodes i 0) := by
  have ho := (C110_frame _ _ _ _ _ _ _ _ h).1
  obtain ⟨_, _, _, hdist, hback⟩ := C110_nodes 2 m X y bending T nodes nm h
  have hn := (init_loc h).1
  rw [h] at hd
  have hd' : (rule.mapM fun tw => sideMap (nodes i) (nodes j) tw.1 tw.2).map (List.map fun p => { p with xyz := toGlobalPt T (X 0) p.xyz, normal := toGlobalVec T p.localNormal }) = some d := hd
  cases hm : rule.mapM fun tw : ℝ × ℝ => sideMap (nodes i) (nodes j) tw.1 tw.2 with
  | none => rw [hm] at hd'; simp at hd'
  | some d' =>
    rw [hm] at hd'
    have e : d'.map (fun p => { p with xyz := toGlobalPt T (X 0) p.xyz, normal := toGlobalVec T p.localNormal }) = d := by simpa using hd'
    subst e
    have hf := mapM_mem hm
    have hlen : Real.sqrt (ip (fun k => nodes j k - nodes i k) (fun k => nodes j k - nodes i k)) = GeomElem.dist (X j) (X i) := (hdist j i)
    have key : ∀ (tw : ℝ × ℝ) (p : SidePoint), sideMap (nodes i) (nodes j) tw.1 tw.2 = some p →
        0 < GeomElem.dist (X j) (X i) ∧ p.xyz = onSide (nodes i) (nodes j) tw.1 ∧ p.JxW = GeomElem.dist (X j) (X i) / 2 * tw.2 ∧
          p.localNormal = ![(nodes j 1 - nodes i 1) / GeomElem.dist (X j) (X i), -(nodes j 0 - nodes i 0) / GeomElem.dist (X j) (X i), 0] := by
      intro tw p hp
      simp only [sideMap, hlen] at hp
      split at hp
      · simp at hp
      · rename_i hz
        have := Option.some.inj hp
        subst this
        refine ⟨?_, rfl, rfl, rfl⟩
        rw [← hlen]
        refine Real.sqrt_pos.2 (lt_of_le_of_ne ?_ (Ne.symm hz))
        exact Finset.sum_nonneg fun _ _ => mul_self_nonneg _
    refine ⟨?_, ?_, ?_⟩
    · rw [List.forall₂_map_right_iff]
      refine hf.imp fun tw p hp => ?_
      intro k
      show toGlobalPt T (X 0) p.xyz k = _
      rw [(key tw p hp).2.1]
      have e1 := congrFun (hback i) k
      have e2 := congrFun (hback j) k
      simp only [toGlobalPt, toGlobalVec] at e1 e2 ⊢
      simp only [onSide, ← e1, ← e2, Fin.sum_univ_three]
      ring
    · rw [List.map_map]
      show (d'.map fun p => p.JxW).sum = _
      clear hm hd' hd
      induction hf with
      | nil => simp
      | cons h1 _ ih => simp only [List.map_cons, List.sum_cons, ih, (key _ _ h1).2.2.1]; ring
    · intro p hp
      obtain ⟨q, hq, rfl⟩ := List.mem_map.1 hp
      obtain ⟨tw, _, ht⟩ := forall2_left hf hq
      obtain ⟨hL, _, _, hN⟩ := key tw q ht
      have hsub : sub (X j) (X i) = toGlobalVec T (sub (nodes j) (nodes i)) := by
        funext k
        have e1 := congrFun (hback i) k
        have e2 := congrFun (hback j) k
        simp only [toGlobalPt, toGlobalVec] at e1 e2 ⊢
        simp only [sub, ← e1, ← e2, Fin.sum_univ_three]
        ring
      have hdg : ∀ u v : V3, dot (toGlobalVec T u) (toGlobalVec T v) = dot u v := fun u v => (C110_inverse 2 m X y bending T nodes nm h u v).2.2.2
      have hcol : ∀ (u : V3) (c : Fin 3), dot (toGlobalVec T u) (fun k => T k c) = u c := by
        intro u c
        have := congrFun (local_global ho u).1 c
        rw [← this]
        simp only [dot, toLocalVec]
        exact Finset.sum_congr rfl fun _ _ => by ring
      have hsq : (nodes j 0 - nodes i 0) ^ 2 + (nodes j 1 - nodes i 1) ^ 2 = GeomElem.dist (X j) (X i) ^ 2 := by
        have hnn : 0 ≤ ip (fun k => nodes j k - nodes i k) (fun k => nodes j k - nodes i k) := Finset.sum_nonneg fun _ _ => mul_self_nonneg _
        rw [← hlen, Real.sq_sqrt hnn]
        simp only [ip, Fin.sum_univ_three, hi, hj]
        ring
      have hne := hL.ne'
      refine ⟨?_, ?_, ?_, (local_global ho _).1, ?_, ?_⟩
      · show dot (toGlobalVec T q.localNormal) (toGlobalVec T q.localNormal) = 1
        rw [hdg, hN, dot_three]
        simp
        field_simp
        linarith [hsq]
      · show dot (toGlobalVec T q.localNormal) _ = 0
        rw [hsub, hdg, hN, dot_three]
        simp [sub]
        field_simp
        ring
      · show dot (toGlobalVec T q.localNormal) _ = 0
        rw [hcol, hN]
        rfl
      · show _ * dot (toGlobalVec T q.localNormal) _ = _
        rw [hcol, hN]
        show _ * (_ / _) = _
        field_simp
      · show _ * dot (toGlobalVec T q.localNormal) _ = _
        rw [hcol, hN]
        show _ * (_ / _) = _
        field_simp

/-- C182, triangles: the normal on every side of an inclined triangle points away from the third node. -/
theorem C182_outward (m : Nat) (X : Nat → V3) (y : Option V3) (bending : Bool) (T : Fin 3 → Fin 3 → ℝ) (nodes : Nat → V3) (nm : Option V3) (h : GeomElem.init 2 m X y bending = .loc T nodes nm)
    (s : Nat × Nat × Nat) (hs : s = (0, 1, 2) ∨ s = (1, 2, 0) ∨ s = (2, 0, 1)) (rule : List (ℝ × ℝ)) (d : List SidePoint) (hd : feSide (GeomElem.init 2 m X y bending) X s.1 s.2.1 rule = some d) :
    ∀ p ∈ d, dot p.normal (sub (X s.2.2) (X s.1)) < 0 := by
  have ho := (C110_frame _ _ _ _ _ _ _ _ h).1
  obtain ⟨hn0, hn1, hL, hdist, hback⟩ := C110_nodes 2 m X y bending T nodes nm h
  obtain ⟨_, h22, h21, _⟩ := C110_shell m X y bending T nodes nm h
  have hz : ∀ i : Nat, i = 0 ∨ i = 1 ∨ i = 2 → nodes i 2 = 0 := by
    rintro i (rfl | rfl | rfl)
    · rw [hn0]; rfl
    · rw [hn1]; rfl
    · exact h22
  have z1 : nodes s.1 2 = 0 := hz _ (by rcases hs with rfl | rfl | rfl <;> simp)
  have z2 : nodes s.2.1 2 = 0 := hz _ (by rcases hs with rfl | rfl | rfl <;> simp)
  have z3 : nodes s.2.2 2 = 0 := hz _ (by rcases hs with rfl | rfl | rfl <;> simp)
  have hS := C182_side m X y bending T nodes nm h s.1 s.2.1 z1 z2 rule d hd
  intro p hp
  obtain ⟨_, _, _, _, hx, hy⟩ := hS.2.2 p hp
  have hsub : sub (X s.2.2) (X s.1) = toGlobalVec T (sub (nodes s.2.2) (nodes s.1)) := by
    funext k
    have e1 := congrFun (hback s.1) k
    have e2 := congrFun (hback s.2.2) k
    simp only [toGlobalPt, toGlobalVec] at e1 e2 ⊢
    simp only [sub, ← e1, ← e2, Fin.sum_univ_three]
    ring
  have hval : dot p.normal (sub (X s.2.2) (X s.1)) = dot p.normal (fun k => T k 0) * (nodes s.2.2 0 - nodes s.1 0) + dot p.normal (fun k => T k 1) * (nodes s.2.2 1 - nodes s.1 1) := by
    rw [hsub]
    simp only [dot, toGlobalVec, sub, Fin.sum_univ_three, z3, z1]
    ring
  have hpos : 0 < GeomElem.dist (X s.2.1) (X s.1) := by
    rw [← hdist]
    have : GeomElem.dist (nodes s.2.1) (nodes s.1) ≠ 0 := by
      intro h0
      have h0' : dot (sub (nodes s.2.1) (nodes s.1)) (sub (nodes s.2.1) (nodes s.1)) = 0 := by
        have := (Real.sqrt_eq_zero (Finset.sum_nonneg fun _ _ => mul_self_nonneg _)).1 h0
        exact this
      rw [dot_three] at h0'
      have a0 : nodes s.2.1 0 - nodes s.1 0 = 0 := by
        have : sub (nodes s.2.1) (nodes s.1) 0 = nodes s.2.1 0 - nodes s.1 0 := rfl
        rw [← this]
        nlinarith [mul_self_nonneg (sub (nodes s.2.1) (nodes s.1) 0), mul_self_nonneg (sub (nodes s.2.1) (nodes s.1) 1), mul_self_nonneg (sub (nodes s.2.1) (nodes s.1) 2)]
      have a1 : nodes s.2.1 1 - nodes s.1 1 = 0 := by
        have : sub (nodes s.2.1) (nodes s.1) 1 = nodes s.2.1 1 - nodes s.1 1 := rfl
        rw [← this]
        nlinarith [mul_self_nonneg (sub (nodes s.2.1) (nodes s.1) 0), mul_self_nonneg (sub (nodes s.2.1) (nodes s.1) 1), mul_self_nonneg (sub (nodes s.2.1) (nodes s.1) 2)]
      have v00 : nodes 0 0 = 0 := by rw [hn0]; rfl
      have v01 : nodes 0 1 = 0 := by rw [hn0]; rfl
      have v10 : nodes 1 0 = GeomElem.dist (X 1) (X 0) := by rw [hn1]; rfl
      have v11 : nodes 1 1 = 0 := by rw [hn1]; rfl
      rcases hs with rfl | rfl | rfl
      · simp only [v10, v00] at a0; linarith
      · simp only [v11] at a1; linarith
      · simp only [v01] at a1; linarith
    exact lt_of_le_of_ne (Real.sqrt_nonneg _) (Ne.symm this)
  have hmul : GeomElem.dist (X s.2.1) (X s.1) * dot p.normal (sub (X s.2.2) (X s.1)) < 0 := by
    rw [hval, mul_add, ← mul_assoc, ← mul_assoc, hx, hy]
    have v00 : nodes 0 0 = 0 := by rw [hn0]; rfl
    have v01 : nodes 0 1 = 0 := by rw [hn0]; rfl
    have v10 : nodes 1 0 = GeomElem.dist (X 1) (X 0) := by rw [hn1]; rfl
    have v11 : nodes 1 1 = 0 := by rw [hn1]; rfl
    rcases hs with rfl | rfl | rfl
    · simp only [v00, v01, v10, v11]; nlinarith [mul_pos hL h21]
    · simp only [v00, v01, v10, v11]; nlinarith [mul_pos hL h21]
    · simp only [v00, v01, v10, v11]; nlinarith [mul_pos hL h21]
  exact neg_of_mul_neg_right hmul hpos.le

/-! ### Warped elements -/

/-- A quadrilateral whose fourth node leaves the plane of the others. -/
def warped : Nat → V3
  | 0 => ![0, 0, 0]
  | 1 => ![1, 0, 0]
  | 2 => ![1, 1, 0]
  | _ => ![0, 1, 1]

theorem warped_frame : ∃ T nodes nm, GeomElem.init 2 4 warped none false = .loc T nodes nm ∧ ∀ k, T k 0 = ![(1 : ℝ), 0, 0] k := by
  cases hf : frame2 (warped 0) (warped 1) (warped 2) with
  | none =>
    have := frame2_none.1 hf
    have h2 := congrFun this 2
    simp [Parallel, cross, sub, warped] at h2
  | some T =>
    have hi : GeomElem.init 2 4 warped none false = .loc T (localNode T warped) (some fun i => T i 2) := by
      have hc : ∃ i, 1 ≤ i ∧ i < 4 ∧ |warped 0 2 - warped i 2| ≠ 0 := ⟨3, by norm_num, by norm_num, by simp [warped]⟩
      simp only [GeomElem.init, hc, if_true, init2, hf, ofFrame]
    refine ⟨T, _, _, hi, fun k => ?_⟩
    obtain ⟨_, _, hp, h1, _⟩ := frame2_spec hf
    have hn : GeomElem.norm (sub (warped 1) (warped 0)) = 1 := by
      simp [GeomElem.norm, sub, warped]
    have := h1 k
    rw [hn, mul_one] at this
    rw [this]
    fin_cases k <;> simp [warped]

/-- C182, finding: on a quadrilateral with a node out of the plane of the other three the in-plane derivatives are not those of the field: at the centre of `warped` the linear field `x`, whose derivative along the local x axis is
one, gets the derivative 5/6 (gradients of a warped surface have a component along the local z axis, which the structural operators do not read). -/
theorem C182_warped_fails : ¬ Planar 4 warped ∧ ∃ T nodes nm d, GeomElem.init 2 4 warped none false = .loc T nodes nm ∧
    feInit 2 (GeomElem.init 2 4 warped none false) warped [quad4 0 0 4] = some d ∧
      ∃ p ∈ d, ∑ i : Fin 4, affine 0 ![1, 0, 0] (warped i) * p.dphi i 0 = 5 / 6 ∧ toLocalVec T ![1, 0, 0] 0 = 1 := by
  constructor
  · intro h
    have := h 3 (by norm_num)
    rw [dot_three] at this
    simp [sub, cross, warped] at this
  · obtain ⟨T, nodes, nm, hi, hT⟩ := warped_frame
    have hP : ∀ r ∈ [quad4 0 0 4], Partition r := by
      intro r hr
      have : r = quad4 0 0 4 := by simpa using hr
      subst this
      refine ⟨?_, ?_, ?_⟩ <;> simp [quad4, Fin.sum_univ_four] <;> norm_num
    have ha : comb (quad4 0 0 4).dxi (fun i : Fin 4 => warped i) = ![1 / 2, 0, -1 / 4] := by
      funext k
      fin_cases k <;> simp [comb, quad4, Fin.sum_univ_four, warped] <;> norm_num
    have hb : comb (quad4 0 0 4).deta (fun i : Fin 4 => warped i) = ![0, 1 / 2, 1 / 4] := by
      funext k
      fin_cases k <;> simp [comb, quad4, Fin.sum_univ_four, warped] <;> norm_num
    have i1 : ip ![1 / 2, 0, -1 / 4] ![1 / 2, 0, -1 / 4] = 5 / 16 := by simp [ip, Fin.sum_univ_three]; norm_num
    have i2 : ip ![0, 1 / 2, 1 / 4] ![0, 1 / 2, 1 / 4] = 5 / 16 := by simp [ip, Fin.sum_univ_three]; norm_num
    have i3 : ip ![1 / 2, 0, -1 / 4] ![0, 1 / 2, 1 / 4] = -1 / 16 := by simp [ip, Fin.sum_univ_three]; norm_num
    have hD : detG ![1 / 2, 0, -1 / 4] ![0, 1 / 2, 1 / 4] = 3 / 32 := by rw [detG, i1, i2, i3]; norm_num
    have hD0 : (3 / 32 : ℝ) ≠ 0 := by norm_num
    have hm : ∃ q : Point 4, map2 (fun i : Fin 4 => warped i) (quad4 0 0 4) = some q ∧ ∀ i, q.dphi i 0 = (quad4 0 0 4).dxi i * (5 / 3) + (quad4 0 0 4).deta i * (1 / 3) := by
      refine ⟨_, by simp only [map2, ha, hb, hD, hD0, if_false]; exact rfl, fun i => ?_⟩
      show _ * ((_ * _ - _ * _) / _) + _ * ((_ * _ - _ * _) / _) = _
      rw [i1, i2, i3]
      simp
      norm_num
    obtain ⟨q, hq, hqd⟩ := hm
    have e := C182_local (n := 4) 2 4 warped none false T nodes nm hi [quad4 0 0 4] hP
    have e2 : [quad4 0 0 4].mapM (mapAt 2 fun i : Fin 4 => warped i) = some [q] := by
      rw [List.mapM_cons, show mapAt 2 (fun i : Fin 4 => warped i) (quad4 0 0 4) = some q from hq]
      rfl
    rw [e2] at e
    refine ⟨T, nodes, nm, _, hi, e, { q with dphi := fun i => toLocalVec T (q.dphi i) }, by simp, ?_, ?_⟩
    · have hl : ∀ v : V3, toLocalVec T v 0 = v 0 := by
        intro v
        simp [toLocalVec, Fin.sum_univ_three, hT]
      simp only [hl, hqd]
      simp [affine, dot, Fin.sum_univ_four, Fin.sum_univ_three, warped, quad4]
      norm_num
    · simp [toLocalVec, Fin.sum_univ_three, hT]

/-! ## Non-vacuity: an inclined triangle -/

/-- A triangle in the plane y = z. -/
def inclined : Nat → V3
  | 0 => ![0, 0, 0]
  | 1 => ![3, 0, 0]
  | _ => ![0, 4, 4]

theorem inclined_frame : ∃ T nodes nm, GeomElem.init 2 3 inclined none false = .loc T nodes nm := by
  cases hf : frame2 (inclined 0) (inclined 1) (inclined 2) with
  | none =>
    have h2 := congrFun (frame2_none.1 hf) 2
    simp [cross, sub, inclined] at h2
  | some T =>
    have hc : ∃ i, 1 ≤ i ∧ i < 3 ∧ |inclined 0 2 - inclined i 2| ≠ 0 := ⟨2, by norm_num, by norm_num, by simp [inclined]⟩
    exact ⟨T, localNode T inclined, some fun i => T i 2, by simp only [GeomElem.init, hc, if_true, init2, hf, ofFrame]⟩

theorem inclined_data : ∃ d, feInit 2 (GeomElem.init 2 3 inclined none false) inclined [tri3 (1 / 3) (1 / 3) (1 / 2)] = some d ∧ d ≠ [] := by
  obtain ⟨T, nodes, nm, hi⟩ := inclined_frame
  have hP : ∀ r ∈ [tri3 (1 / 3) (1 / 3) (1 / 2)], Partition r := by
    intro r hr
    have : r = tri3 (1 / 3) (1 / 3) (1 / 2) := by simpa using hr
    subst this; exact tri3_partition _ _ _
  have e := C182_local (n := 3) 2 3 inclined none false T nodes nm hi _ hP
  have hD : detG (comb (tri3 (1 / 3) (1 / 3) (1 / 2)).dxi fun i : Fin 3 => inclined i) (comb (tri3 (1 / 3) (1 / 3) (1 / 2)).deta fun i : Fin 3 => inclined i) ≠ 0 := by
    simp [detG, ip, comb, tri3, Fin.sum_univ_three, inclined]
  have hm : ∃ q, mapAt 2 (fun i : Fin 3 => inclined i) (tri3 (1 / 3) (1 / 3) (1 / 2)) = some q := ⟨_, by simp only [mapAt, map2, hD, if_false]; exact rfl⟩
  obtain ⟨q, hq⟩ := hm
  rw [List.mapM_cons, hq] at e
  exact ⟨_, e, by simp⟩

example : ∃ d, feInit 2 (GeomElem.init 2 3 inclined none false) inclined [tri3 (1 / 3) (1 / 3) (1 / 2)] = some d ∧ (d.map fun p => p.JxW).sum = GeomElem.norm ![0, -12, 12] / 2 := by
  obtain ⟨d, hd, _⟩ := inclined_data
  refine ⟨d, hd, ?_⟩
  have := C182_area inclined none false [(1 / 3, 1 / 3, 1 / 2)] (by simp) d (by simpa using hd)
  rw [this]
  congr 2
  funext k
  fin_cases k <;> simp [cross, sub, inclined] <;> norm_num

example : Planar 3 inclined := by
  intro i hi
  have : i = 0 ∨ i = 1 ∨ i = 2 := by omega
  rcases this with rfl | rfl | rfl <;> rw [dot_three] <;> simp [sub, cross, inclined]

/-- The side from node 0 to node 1 has data, so the theorems on sides speak about something. -/
example : ∃ d, feSide (GeomElem.init 2 3 inclined none false) inclined 0 1 [(0, 2)] = some d ∧ ∀ p ∈ d, dot p.normal (sub (inclined 2) (inclined 0)) < 0 := by
  obtain ⟨T, nodes, nm, hi⟩ := inclined_frame
  obtain ⟨h0, h1, hL, _, _⟩ := C110_nodes 2 3 inclined none false T nodes nm hi
  have hne : ip (fun k => nodes 1 k - nodes 0 k) (fun k => nodes 1 k - nodes 0 k) ≠ 0 := by
    simp [h0, h1, ip, Fin.sum_univ_three]
    exact hL.ne'
  have hm : ∃ q, sideMap (nodes 0) (nodes 1) 0 2 = some q := ⟨_, by simp only [sideMap, hne, if_false]; exact rfl⟩
  obtain ⟨q, hq⟩ := hm
  have e : ∃ d, feSide (GeomElem.init 2 3 inclined none false) inclined 0 1 [(0, 2)] = some d := by
    rw [hi]
    cases hf : feSide (GeomElem.Outcome.loc T nodes nm) inclined 0 1 [(0, 2)] with
    | some d => exact ⟨d, rfl⟩
    | none =>
      simp only [feSide, List.mapM_cons, List.mapM_nil, hq] at hf
      exact absurd hf (by intro h; cases h)
  obtain ⟨d, hd⟩ := e
  exact ⟨d, hd, C182_outward 3 inclined none false T nodes nm hi (0, 1, 2) (Or.inl rfl) [(0, 2)] d hd⟩

end Verif.FeData
