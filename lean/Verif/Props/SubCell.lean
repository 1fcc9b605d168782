import Verif.Model.SubCell
import Verif.Props.CutCell
import Mathlib.Tactic.LinearCombination
import Mathlib.Tactic.FieldSimp
import Mathlib.Tactic.FinCases
import Mathlib.Tactic.Positivity
import Mathlib.Tactic.Linarith
import Mathlib.Tactic.NormNum
import Mathlib.Tactic.Ring
/-
  C176: finite element data on cut elements.
-/
namespace Verif.SubCell
open Verif.CutCell

/-! ## Specification -/

/-- Shape functions that add up to one, with derivatives that add up to zero. -/
def Partition {n : Nat} (r : RefPt n) : Prop := ∑ i, r.N i = 1 ∧ ∑ i, r.dxi i = 0 ∧ ∑ i, r.deta i = 0

/-- The parent is a parallelogram. -/
def Parallelogram (P : Fin 4 → Pt) : Prop := ∀ w, P 0 w + P 2 w = P 1 w + P 3 w

/-- The nodes of the sub-cell are where their nondimensional coordinates say. -/
def Consistent {n : Nat} (P : Fin 4 → Pt) (c : Cell n) : Prop := ∀ i, bilinear P (c.loc i) = c.phys i

/-- The quadrature of `f` over an element with nodes `X`. -/
noncomputable def quadrature {n : Nat} (rule : List (RefPt n)) (X : Fin n → Pt) (f : Pt → ℝ) : ℝ :=
  (rule.map fun r => r.w * |detAt r X| * f (posAt r X)).sum

/-- The integral of `f` computed with the data of an initialized object. -/
def integral (d : List Qp) (f : Pt → ℝ) : ℝ := (d.map fun p => p.JxW * f p.xyz).sum

/-- The sum of the weights of an initialized object. -/
def total (d : List Qp) : ℝ := (d.map fun p => p.JxW).sum

/-- A rule for the TRI3: made of points of the reference triangle, exact for constants. -/
def TriRule (rule : List (RefPt 3)) : Prop := (∀ r ∈ rule, ∃ w q, r = triPt w q) ∧ (rule.map fun r => r.w).sum = 1 / 2

/-- A rule for the QUAD4: points in the reference square, exact for first degree. -/
def QuadRule (rule : List (RefPt 4)) : Prop :=
  (∀ r ∈ rule, ∃ w q, r = quadPt w q ∧ ∀ i : Fin 2, |q i| ≤ 1) ∧ (rule.map fun r => r.w).sum = 4 ∧
  (rule.map fun r => r.w * r.pt 0).sum = 0 ∧ (rule.map fun r => r.w * r.pt 1).sum = 0

/-! ## Lemmas -/

theorem mapM_ok {α β : Type} {f : α → Except Fault β} {l : List α} {d : List β} (h : l.mapM f = .ok d) : List.Forall₂ (fun a b => f a = .ok b) l d := by
  induction l generalizing d with
  | nil => obtain rfl : [] = d := Except.ok.inj h; exact .nil
  | cons a l ih =>
    rw [List.mapM_cons] at h
    cases ha : f a with
    | error e => rw [ha] at h; exact absurd h (by intro h; cases h)
    | ok b =>
      rw [ha] at h
      cases hl : l.mapM f with
      | error e => rw [hl] at h; exact absurd h (by intro h; cases h)
      | ok bs =>
        rw [hl] at h
        obtain rfl : b :: bs = d := Except.ok.inj h
        exact .cons ha (ih hl)

theorem mapM_exists {α β : Type} {f : α → Except Fault β} {l : List α} (h : ∀ a ∈ l, ∃ b, f a = .ok b) : ∃ d, l.mapM f = .ok d := by
  induction l with
  | nil => exact ⟨[], rfl⟩
  | cons a l ih =>
    obtain ⟨b, hb⟩ := h a List.mem_cons_self
    obtain ⟨d, hd⟩ := ih fun a ha => h a (List.mem_cons_of_mem _ ha)
    exact ⟨b :: d, by rw [List.mapM_cons, hb, hd]; rfl⟩

theorem sum_rel {α β : Type} {l : List α} {d : List β} {R : α → β → Prop} (h : List.Forall₂ R l d) {f : α → ℝ} {g : β → ℝ}
    (hfg : ∀ a b, R a b → g b = f a) : (d.map g).sum = (l.map f).sum := by
  induction h with
  | nil => rfl
  | cons hab _ ih => rw [List.map_cons, List.map_cons, List.sum_cons, List.sum_cons, ih, hfg _ _ hab]

theorem quadPt_pos (P : Fin 4 → Pt) (w : ℝ) (q : Pt) : posAt (quadPt w q) P = bilinear P q := by
  funext j
  simp [posAt, quadPt, bilinear, Fin.sum_univ_four]

/-- The parent at a point, spelled out. -/
theorem parentAt_ok {X : Fin 4 → Pt} {q : Pt} {J : ℝ} {d : Qp} (h : parentAt X q J = .ok d) :
    detAt (quadPt 1 q) X ≠ 0 ∧ d.q = q ∧ d.xyz = bilinear X q ∧ d.JxW = J ∧ d.phi = (quadPt 1 q).N ∧ d.dphi = gradAt (quadPt 1 q) X := by
  unfold parentAt at h
  simp only at h
  split at h
  · exact absurd h (by intro h; cases h)
  · rename_i hd
    obtain rfl := Except.ok.inj h
    exact ⟨hd, rfl, quadPt_pos X 1 q, rfl, rfl, rfl⟩

theorem weightAt_ok {n : Nat} {r : RefPt n} {X : Fin n → Pt} {w : ℝ} (h : weightAt r X = .ok w) : detAt r X ≠ 0 ∧ w = r.w * |detAt r X| := by
  unfold weightAt at h
  split at h
  · exact absurd h (by intro h; cases h)
  · rename_i hd
    exact ⟨hd, (Except.ok.inj h).symm⟩

/-- A point of a sub-cell, spelled out. -/
theorem subPoint_ok {n : Nat} {P : Fin 4 → Pt} {c : Cell n} {r : RefPt n} {d : Qp} (h : subPoint P c r = .ok d) :
    detAt (quadPt 1 (posAt r c.loc)) P ≠ 0 ∧ detAt r c.phys ≠ 0 ∧ d.q = posAt r c.loc ∧ d.xyz = bilinear P (posAt r c.loc) ∧ d.JxW = r.w * |detAt r c.phys| ∧
    d.phi = (quadPt 1 (posAt r c.loc)).N ∧ d.dphi = gradAt (quadPt 1 (posAt r c.loc)) P := by
  unfold subPoint at h
  cases hp : parentAt P (posAt r c.loc) 0 with
  | error e => rw [hp] at h; exact absurd h (by intro h; cases h)
  | ok p =>
    rw [hp] at h
    cases hw : weightAt r c.phys with
    | error e => rw [hw] at h; exact absurd h (by intro h; cases h)
    | ok w =>
      rw [hw] at h
      obtain rfl := Except.ok.inj h
      obtain ⟨a, b, e, -, f, g⟩ := parentAt_ok hp
      obtain ⟨u, v⟩ := weightAt_ok hw
      exact ⟨a, u, b, e, v, f, g⟩

theorem subPoint_exists {n : Nat} {P : Fin 4 → Pt} {c : Cell n} {r : RefPt n} (h1 : detAt (quadPt 1 (posAt r c.loc)) P ≠ 0) (h2 : detAt r c.phys ≠ 0) :
    ∃ d, subPoint P c r = .ok d := by
  unfold subPoint parentAt weightAt
  simp only [if_neg h1, if_neg h2]
  exact ⟨_, rfl⟩

/-- A cut element, spelled out: the object keeps no rule. -/
theorem init_cut {n : Nat} {P : Fin 4 → Pt} {c : Cell n} {rule : List (RefPt n)} {rule4 : List (RefPt 4)} {f : Fe 4} (h : init true P c rule rule4 = .ok f) :
    f.qrule = none ∧ List.Forall₂ (fun r d => subPoint P c r = .ok d) rule f.pts := by
  unfold init at h
  simp only [if_true] at h
  cases hd : rule.mapM fun r => subPoint P c r with
  | error e => rw [hd] at h; exact absurd h (by intro h; cases h)
  | ok d =>
    rw [hd] at h
    obtain rfl := Except.ok.inj h
    exact ⟨rfl, mapM_ok hd⟩

theorem triPt_partition (w : ℝ) (q : Pt) : Partition (triPt w q) := by
  refine ⟨?_, ?_, ?_⟩ <;> simp [triPt, Fin.sum_univ_three]
  ring
theorem quadPt_partition (w : ℝ) (q : Pt) : Partition (quadPt w q) := by
  refine ⟨?_, ?_, ?_⟩ <;> simp [quadPt, Fin.sum_univ_four] <;> ring

/-- The map of a parallelogram is affine. -/
theorem bilinear_affine {P : Fin 4 → Pt} (hP : Parallelogram P) (q : Pt) (w : Fin 2) :
    bilinear P q w = (P 0 w + P 2 w) / 2 + q 0 * ((P 1 w - P 0 w) / 2) + q 1 * ((P 3 w - P 0 w) / 2) := by
  simp only [bilinear, Pi.add_apply, Pi.smul_apply, smul_eq_mul]
  linear_combination (-(1:ℝ)/4 + (q 0 * q 1) / 4 + (q 0 + q 1) / 4) * hP w

theorem pos_bilinear {n : Nat} {P : Fin 4 → Pt} (hP : Parallelogram P) {c : Cell n} (hc : Consistent P c) {r : RefPt n} (hr : Partition r) :
    bilinear P (posAt r c.loc) = posAt r c.phys := by
  funext w
  rw [bilinear_affine hP]
  have e : posAt r c.phys w = ∑ i, r.N i * bilinear P (c.loc i) w := by
    simp only [posAt]; exact Finset.sum_congr rfl fun i _ => by rw [hc i]
  rw [e, Finset.sum_congr rfl fun i _ => by rw [bilinear_affine hP]]
  simp only [posAt, mul_add, Finset.sum_add_distrib, ← Finset.sum_mul, ← mul_assoc]
  rw [hr.1, one_mul]

/-! ## C176 -/

/-- C176: on a parallelogram the data of a sub-cell integrate every function exactly as the quadrature rule applied to the physical sub-cell does. -/
theorem C176_affine {n : Nat} {P : Fin 4 → Pt} (hP : Parallelogram P) {c : Cell n} (hc : Consistent P c) {rule : List (RefPt n)} (hr : ∀ r ∈ rule, Partition r)
    {rule4 : List (RefPt 4)} {fe : Fe 4} (h : init true P c rule rule4 = .ok fe) (f : Pt → ℝ) : integral fe.pts f = quadrature rule c.phys f := by
  have h2 := (init_cut h).2
  have h3 : List.Forall₂ (fun r d => subPoint P c r = .ok d ∧ Partition r) rule fe.pts := by
    clear h
    generalize fe.pts = d at h2
    induction h2 with
    | nil => exact .nil
    | cons hab _ ih => exact .cons ⟨hab, hr _ List.mem_cons_self⟩ (ih fun r hr' => hr r (List.mem_cons_of_mem _ hr'))
  refine sum_rel h3 fun r d hd => ?_
  obtain ⟨-, -, -, hx, hw, -, -⟩ := subPoint_ok hd.1
  rw [hx, hw, pos_bilinear hP hc hd.2]

theorem det_tri (w : ℝ) (q : Pt) (X : Fin 3 → Pt) : detAt (triPt w q) X = tri (X 0) (X 1) (X 2) := by
  simp [detAt, tanXi, tanEta, triPt, Fin.sum_univ_three, cross, tri]; ring

theorem det_quad (w : ℝ) (q : Pt) (X : Fin 4 → Pt) : detAt (quadPt w q) X =
    ((1 - q 0) * (1 - q 1) * tri (X 3) (X 0) (X 1) + (1 + q 0) * (1 - q 1) * tri (X 0) (X 1) (X 2) + (1 + q 0) * (1 + q 1) * tri (X 1) (X 2) (X 3)
      + (1 - q 0) * (1 + q 1) * tri (X 2) (X 3) (X 0)) / 16 := by
  simp [detAt, tanXi, tanEta, quadPt, Fin.sum_univ_four, cross, tri]; ring

theorem convex_tri {X : Fin 4 → Pt} (h : Convex X) : 0 ≤ tri (X 3) (X 0) (X 1) ∧ 0 ≤ tri (X 0) (X 1) (X 2) ∧ 0 ≤ tri (X 1) (X 2) (X 3) ∧ 0 ≤ tri (X 2) (X 3) (X 0) :=
  ⟨tri_corners h (by decide), tri_corners h (by decide), tri_corners h (by decide), tri_corners h (by decide)⟩

theorem det_quad_nonneg (w : ℝ) {q : Pt} (hq : ∀ i : Fin 2, |q i| ≤ 1) {X : Fin 4 → Pt} (h : Convex X) : 0 ≤ detAt (quadPt w q) X := by
  rw [det_quad]
  obtain ⟨a, b, c, d⟩ := convex_tri h
  have h0 := abs_le.1 (hq 0)
  have h1 := abs_le.1 (hq 1)
  have u0 : 0 ≤ 1 - q 0 := by linarith [h0.2]
  have u1 : 0 ≤ 1 + q 0 := by linarith [h0.1]
  have v0 : 0 ≤ 1 - q 1 := by linarith [h1.2]
  have v1 : 0 ≤ 1 + q 1 := by linarith [h1.1]
  positivity

theorem volume3 (a b d : Pt) : volume [a, b, d] = |tri a b d| / 2 := rfl
theorem volume4 (a b d e : Pt) : volume [a, b, d, e] = |tri a b d + tri a d e| / 2 := by
  rw [volume]
  congr 2
  simp only [cross, tri, Pi.sub_apply]; ring

/-- C176: the weights of a triangular sub-cell add up to its volume, for every rule that is exact for constants. -/
theorem C176_weights_tri {P : Fin 4 → Pt} {c : Cell 3} {rule : List (RefPt 3)} (hr : TriRule rule) {rule4 : List (RefPt 4)} {fe : Fe 4}
    (h : init true P c rule rule4 = .ok fe) : total fe.pts = volume [c.phys 0, c.phys 1, c.phys 2] := by
  have h2 := (init_cut h).2
  have e : total fe.pts = (rule.map fun r => r.w * |detAt r c.phys|).sum :=
    sum_rel h2 fun r d hd => (subPoint_ok hd).2.2.2.2.1
  have e2 : (rule.map fun r => r.w * |detAt r c.phys|) = rule.map fun r => r.w * |tri (c.phys 0) (c.phys 1) (c.phys 2)| := by
    refine List.map_congr_left fun r hm => ?_
    obtain ⟨w, q, rfl⟩ := hr.1 r hm
    rw [det_tri]
  rw [e, e2, List.sum_map_mul_right, hr.2, volume3]; ring

/-- C176: the weights of a convex quadrilateral sub-cell add up to its volume, for every rule that is exact for first degree. -/
theorem C176_weights_quad {P : Fin 4 → Pt} {c : Cell 4} (hc : Convex c.phys) {rule rule4 : List (RefPt 4)} (hr : QuadRule rule) {fe : Fe 4}
    (h : init true P c rule rule4 = .ok fe) : total fe.pts = volume (corners c.phys) := by
  have h2 := (init_cut h).2
  have e : total fe.pts = (rule.map fun r => r.w * |detAt r c.phys|).sum :=
    sum_rel h2 fun r d hd => (subPoint_ok hd).2.2.2.2.1
  obtain ⟨a, b, d, f⟩ := convex_tri hc
  generalize hA : tri (c.phys 3) (c.phys 0) (c.phys 1) = A at *
  generalize hB : tri (c.phys 0) (c.phys 1) (c.phys 2) = B at *
  generalize hC : tri (c.phys 1) (c.phys 2) (c.phys 3) = C at *
  generalize hD : tri (c.phys 2) (c.phys 3) (c.phys 0) = D at *
  have l1 : A + C = B + D := by rw [← hA, ← hB, ← hC, ← hD]; simp only [tri]; ring
  have l2 : tri (c.phys 0) (c.phys 2) (c.phys 3) = D := by rw [← hD]; simp only [tri]; ring
  have e2 : (rule.map fun r => r.w * |detAt r c.phys|) = rule.map fun r => (r.w * ((B + D) / 8) + r.w * r.pt 0 * ((B - A) / 8)) + r.w * r.pt 1 * ((D - A) / 8) := by
    refine List.map_congr_left fun r hm => ?_
    obtain ⟨w, q, rfl, hq⟩ := hr.1 r hm
    rw [abs_of_nonneg (det_quad_nonneg w hq hc), det_quad, hA, hB, hC, hD]
    simp only [quadPt]
    linear_combination (w * (1 + q 0) * (1 + q 1) / 16) * l1
  rw [e, e2, List.sum_map_add, List.sum_map_add, List.sum_map_mul_right, List.sum_map_mul_right, List.sum_map_mul_right, hr.2.1, hr.2.2.1, hr.2.2.2, corners, volume4,
    hB, l2, abs_of_nonneg (by linarith)]
  ring

/-- The four corners of a quadrilateral sub-element are convex corners. -/
def subConv (c : Cut) (s : Sub) : Bool :=
  match s.verts with
  | [a, b, d, e] => triCyc c a b d && triCyc c b d e && triCyc c d e a && triCyc c e a b
  | _ => true

/-- The check over all sets of crossed sides and nodes. -/
def convOK (side node : Fin 4 → Bool) (mid p : Bool) : Bool :=
  let m := chooseMode side node mid
  match build m.1 m.2.1 m.2.2 fun _ => p with
  | none => true
  | some c => (c.pos ++ c.neg).all (subConv c)

theorem convOK_lit : ∀ a b c d e f g h mid p : Bool, convOK ![a, b, c, d] ![e, f, g, h] mid p = true := by decide +kernel

theorem convOK_all (side node : Fin 4 → Bool) (mid p : Bool) : convOK side node mid p = true := by
  have e : ∀ s : Fin 4 → Bool, s = ![s 0, s 1, s 2, s 3] := fun s => by funext i; fin_cases i <;> rfl
  rw [e side, e node]
  exact convOK_lit _ _ _ _ _ _ _ _ mid p

theorem quad4_conv {tol : ℝ} {v : Fin 4 → ℝ} {mid : ℝ} {c : Cut} (h : quad4 tol v mid = some c) : ∀ s ∈ c.pos ++ c.neg, subConv c s = true := by
  unfold quad4 at h
  simp only at h
  obtain ⟨p, hp⟩ := build_const (chooseMode (sideHit tol v) (nodeHit tol v) (decide (mid * v 0 > 0))).1
    (chooseMode (sideHit tol v) (nodeHit tol v) (decide (mid * v 0 > 0))).2.1 (chooseMode (sideHit tol v) (nodeHit tol v) (decide (mid * v 0 > 0))).2.2
    fun i => decide (v i > 0)
  have ok := convOK_all (sideHit tol v) (nodeHit tol v) (decide (mid * v 0 > 0)) p
  unfold convOK at ok
  simp only [← hp, h, List.all_eq_true] at ok
  exact ok

/-- The weights of one sub-element of a cut convex element add up to its volume. -/
theorem sub_total {P : Fin 4 → Pt} (hP : Convex P) {x : Fin 4 → ℝ} (hx : InUnit x) {c : Cut} (ht : through c = true) {s : Sub} (h1 : subCyc c s = true)
    (h2 : subConv c s = true) {rule3 : List (RefPt 3)} {rule4 : List (RefPt 4)} (h3 : TriRule rule3) (h4 : QuadRule rule4) {fe : Fe 4}
    (h : initSub P x c rule3 rule4 s = .ok fe) : total fe.pts = volume (subPts P x c s) := by
  unfold initSub at h
  unfold subCyc at h1
  unfold subConv at h2
  unfold subPts
  rw [ht] at h
  rcases hs : s.verts with _ | ⟨a, _ | ⟨b, _ | ⟨d, _ | ⟨e, _ | ⟨g, l⟩⟩⟩⟩⟩ <;> rw [hs] at h1 h2 h <;> simp at h1
  · rw [C176_weights_tri h3 h]; rfl
  · obtain ⟨⟨ha, hb, hd, he⟩, -⟩ := h1
    simp only [Bool.and_eq_true] at h2
    obtain ⟨⟨⟨t1, t2⟩, t3⟩, t4⟩ := h2
    rw [C176_weights_quad ?_ h4 h]; · rfl
    intro i
    rw [area3]
    have := tri_vtx ha hb hd t1 hP hx
    have := tri_vtx hb hd he t2 hP hx
    have := tri_vtx hd he ha t3 hP hx
    have := tri_vtx he ha hb t4 hP hx
    fin_cases i <;> simp [cellOf, show (2 : Fin 4) + 2 = 0 from rfl, show (3 : Fin 4) + 1 = 0 from rfl, show (3 : Fin 4) + 2 = 1 from rfl,
      show (1 : Fin 4) + 2 = 3 from rfl, show (1 : Fin 4) + 1 = 2 from rfl, show (2 : Fin 4) + 1 = 3 from rfl] <;> linarith

/-- C176: over all the sub-elements of a cut convex element, on both sides of the level set, the weights add up to the volume of the element: nothing is
counted twice or lost by integrating over the pieces. -/
theorem C176_total {phi : Pt → ℝ} {tol : ℝ} (h0 : 0 < tol) (h1 : tol < 10000000000) {P : Fin 4 → Pt} (hP : Convex P) {c : Cut} (h : initQuad phi tol P = some c)
    (ht : through c = true) (k : Nat) {rule3 : List (RefPt 3)} {rule4 : List (RefPt 4)} (h3 : TriRule rule3) (h4 : QuadRule rule4) {d : Sub → Fe 4}
    (hd : ∀ s ∈ c.pos ++ c.neg, initSub P (xi phi tol (k + 1) P) c rule3 rule4 s = .ok (d s)) :
    (c.pos.map fun s => total (d s).pts).sum + (c.neg.map fun s => total (d s).pts).sum = volume (corners P) := by
  have f := (quad4_facts (through_quad4 h ht)).2.1
  have g := quad4_conv (through_quad4 h ht)
  have hx := xi_unit phi h0 h1 P k
  have e : ∀ l : List Sub, (∀ s ∈ l, s ∈ c.pos ++ c.neg) →
      (l.map fun s => total (d s).pts) = l.map fun s => volume (subPts P (xi phi tol (k + 1) P) c s) :=
    fun l hl => List.map_congr_left fun s hs => sub_total hP hx ht (f s (hl s hs)) (g s (hl s hs)) h3 h4 (hd s (hl s hs))
  rw [e _ fun s h => List.mem_append_left _ h, e _ fun s h => List.mem_append_right _ h]
  exact (C70_volume h0 h1 hP h ht k).2

/-- C176: the sub-cells of a cut element have the nodes their nondimensional coordinates say, whatever the shape of the element. -/
theorem C176_consistent {n : Nat} (P : Fin 4 → Pt) (x : Fin 4 → ℝ) (c : Cut) (v : Fin n → Vtx) (hv : ∀ i, vtxValid c (v i) = true) : Consistent P (cellOf P x c v) := by
  intro i
  have h := hv i
  simp only [cellOf]
  cases hi : v i with
  | corner j => exact C83_corner_coordinates P j
  | cut k =>
    rw [hi] at h
    simp only [vtxValid, decide_eq_true_eq] at h
    simp only [vtxPos, List.getElem?_eq_getElem h]
    exact C83_local_coordinates P x _

/-- C176: a cell that is the whole element gives the data of the element that is not cut, point by point. -/
theorem C176_whole (P : Fin 4 → Pt) (rule : List (ℝ × Pt)) {fe : Fe 4} :
    let r := rule.map fun a => quadPt a.1 a.2
    init true P { loc := refCorner, phys := P } r r = .ok fe → ∃ g, init false P { loc := refCorner, phys := P } r r = .ok g ∧ g.pts = fe.pts := by
  intro r h
  have e : ∀ q : ℝ × Pt, posAt (quadPt q.1 q.2) refCorner = q.2 := fun q => by
    rw [quadPt_pos]; funext w; fin_cases w <;> simp [bilinear, refCorner] <;> ring
  have hp : ∀ a : ℝ × Pt, subPoint P { loc := refCorner, phys := P } (quadPt a.1 a.2) =
      (do let w ← weightAt (quadPt a.1 a.2) P; parentAt P (quadPt a.1 a.2).pt w) := by
    intro a
    have d : detAt (quadPt 1 a.2) P = detAt (quadPt a.1 a.2) P := by rw [det_quad, det_quad]
    unfold subPoint
    simp only [e, parentAt, weightAt, show (quadPt a.1 a.2).pt = a.2 from rfl, d]
    by_cases hd : detAt (quadPt a.1 a.2) P = 0
    · simp only [if_pos hd]; rfl
    · simp only [if_neg hd]; rfl
  have hm : (r.mapM fun q => subPoint P { loc := refCorner, phys := P } q) = r.mapM fun q => (do let w ← weightAt q P; parentAt P q.pt w) := by
    have hr : ∀ q ∈ r, ∃ a : ℝ × Pt, q = quadPt a.1 a.2 := fun q hq => by
      obtain ⟨a, -, ha⟩ := List.mem_map.1 hq
      exact ⟨a, ha.symm⟩
    clear h
    generalize r = r at hr
    induction r with
    | nil => rfl
    | cons q r ih =>
      obtain ⟨a, rfl⟩ := hr _ List.mem_cons_self
      rw [List.mapM_cons, List.mapM_cons, ih fun q hq => hr q (List.mem_cons_of_mem _ hq), hp a]
  unfold init feInit at *
  simp only [if_true, Bool.false_eq_true, if_false] at *
  rw [hm] at h
  cases hd : r.mapM fun q => (do let w ← weightAt q P; parentAt P q.pt w) with
  | error e => rw [hd] at h; exact absurd h (by intro h; cases h)
  | ok d =>
    rw [hd] at h
    obtain rfl := Except.ok.inj h
    exact ⟨_, rfl, rfl⟩

/-- C176: on any element, cut or not and of any shape, linear fields are represented exactly at the points of the sub-cell: the values of the shape functions
interpolate the field at the reported position, and their gradients give its gradient. -/
theorem C176_linear_field {n : Nat} {P : Fin 4 → Pt} {c : Cell n} {rule : List (RefPt n)} {rule4 : List (RefPt 4)} {fe : Fe 4}
    (h : init true P c rule rule4 = .ok fe) (g0 : ℝ) (g : Pt) {p : Qp} (hp : p ∈ fe.pts) :
    ∑ i, p.phi i * (g0 + g 0 * P i 0 + g 1 * P i 1) = g0 + g 0 * p.xyz 0 + g 1 * p.xyz 1 ∧
    ∀ w, ∑ i, p.dphi i w * (g0 + g 0 * P i 0 + g 1 * P i 1) = g w := by
  have h2 := (init_cut h).2
  obtain ⟨r, hr⟩ : ∃ r, subPoint P c r = .ok p := by
    clear h
    generalize fe.pts = d at *
    induction h2 with
    | nil => exact absurd hp (by simp)
    | cons hab _ ih =>
      rcases List.mem_cons.1 hp with rfl | hp
      · exact ⟨_, hab⟩
      · exact ih hp
  obtain ⟨hd, -, -, hx, -, hN, hg⟩ := subPoint_ok hr
  rw [hx, hN, hg]
  generalize posAt r c.loc = q at *
  refine ⟨?_, fun w => ?_⟩
  · simp [quadPt, bilinear, Fin.sum_univ_four]; ring
  · have hdet := hd
    simp only [gradAt]
    generalize hD : detAt (quadPt 1 q) P = D at *
    have hD2 : D = tanXi (quadPt 1 q) P 0 * tanEta (quadPt 1 q) P 1 - tanEta (quadPt 1 q) P 0 * tanXi (quadPt 1 q) P 1 := by rw [← hD]; rfl
    have A : ∀ j : Fin 2, tanXi (quadPt 1 q) P j = ∑ i, (quadPt 1 q).dxi i * P i j := fun _ => rfl
    have B : ∀ j : Fin 2, tanEta (quadPt 1 q) P j = ∑ i, (quadPt 1 q).deta i * P i j := fun _ => rfl
    have s1 := (quadPt_partition 1 q).2.1
    have s2 := (quadPt_partition 1 q).2.2
    generalize (quadPt 1 q).dxi = u at *
    generalize (quadPt 1 q).deta = v at *
    generalize tanXi (quadPt 1 q) P = a at *
    generalize tanEta (quadPt 1 q) P = b at *
    simp only [Fin.sum_univ_four] at A B s1 s2 ⊢
    have A0 := A 0; have A1 := A 1; have B0 := B 0; have B1 := B 1
    fin_cases w
    · simp
      field_simp
      rw [hD2]
      linear_combination (g0 * b 1) * s1 - (g0 * a 1) * s2 - g 0 * b 1 * A0 - g 1 * b 1 * A1 + g 0 * a 1 * B0 + g 1 * a 1 * B1
    · simp
      field_simp
      rw [hD2]
      linear_combination (-(g0 * b 0)) * s1 + (g0 * a 0) * s2 + g 0 * b 0 * A0 + g 1 * b 0 * A1 - g 0 * a 0 * B0 - g 1 * a 0 * B1

/-! ### sides -/

/-- Points of the side are where the rule puts them on the physical side. -/
def OnSegment (a b : Pt) (rule : List (ℝ × ℝ)) (d : List SideQp) : Prop := List.Forall₂ (fun tw p => p.xyz = onSide a b tw.1) rule d

theorem sidePoint_ok {n : Nat} [NeZero n] {P : Fin 4 → Pt} {c : Cell n} {s : Fin n} {fl : Bool} {tw : ℝ × ℝ} {d : SideQp} (h : subSidePoint P c s fl tw = .ok d) :
    d.xyz = bilinear P (onSide (c.loc s) (c.loc (s + 1)) tw.1) ∧
    (fl = false → d.JxW = sideWeight (c.phys s) (c.phys (s + 1)) tw.2 ∧ d.normal = sideNormal (c.phys s) (c.phys (s + 1))) ∧ (fl = true → d.JxW = 0 ∧ d.normal = 0) := by
  unfold subSidePoint at h
  cases hp : parentAt P (onSide (c.loc s) (c.loc (nextNode s)) tw.1) 0 with
  | error e => rw [hp] at h; exact absurd h (by intro h; cases h)
  | ok p =>
    rw [hp] at h
    obtain ⟨-, -, hx, -⟩ := parentAt_ok hp
    cases fl with
    | false =>
      obtain rfl := Except.ok.inj h
      exact ⟨hx, fun _ => ⟨rfl, rfl⟩, fun h => absurd h (by simp)⟩
    | true =>
      obtain rfl := Except.ok.inj h
      exact ⟨hx, fun h => absurd h (by simp), fun _ => ⟨rfl, rfl⟩⟩

theorem norm2_sq (v : Pt) : norm2 v ^ 2 = v 0 ^ 2 + v 1 ^ 2 := Real.sq_sqrt (by positivity)

theorem norm2_pos {a b : Pt} (h : a ≠ b) : 0 < norm2 (b - a) := by
  have h1 : norm2 (b - a) ≠ 0 := norm2_ne (sub_ne_zero.2 (Ne.symm h))
  exact lt_of_le_of_ne (Real.sqrt_nonneg _) (Ne.symm h1)

theorem forall2_left {α β : Type} {R : α → β → Prop} {l : List α} {d : List β} (h : List.Forall₂ R l d) {b : β} (hb : b ∈ d) : ∃ a ∈ l, R a b := by
  induction h with
  | nil => exact absurd hb (by simp)
  | cons hab _ ih =>
    rcases List.mem_cons.1 hb with rfl | hb
    · exact ⟨_, List.mem_cons_self, hab⟩
    · obtain ⟨a, ha, h⟩ := ih hb
      exact ⟨a, List.mem_cons_of_mem _ ha, h⟩

/-- C176: on a side of a sub-cell that is not degenerate the weights add up to the length of the physical side, and every normal is a unit vector at right angles
to the side. -/
theorem C176_side {n : Nat} [NeZero n] {P : Fin 4 → Pt} {c : Cell n} {s : Fin n} {s4 : Fin 4} {at' : ℝ → RefPt n} {rule : List (ℝ × ℝ)}
    (hr : (rule.map fun tw => tw.2).sum = 2) (hf : sideFlat c s at' rule = false) {d : List SideQp} (h : initSide true P c s s4 at' rule = .ok d) :
    (d.map fun p => p.JxW).sum = norm2 (c.phys (s + 1) - c.phys s) ∧
    ∀ p ∈ d, p.normal 0 ^ 2 + p.normal 1 ^ 2 = 1 ∧
      p.normal 0 * (c.phys (s + 1) 0 - c.phys s 0) + p.normal 1 * (c.phys (s + 1) 1 - c.phys s 1) = 0 := by
  unfold initSide at h
  simp only [if_true, hf] at h
  have h2 := mapM_ok h
  have hne : c.phys s ≠ c.phys (s + 1) := by
    intro e
    rw [sideFlat, show c.phys (nextNode s) = c.phys (s + 1) from rfl, ← e] at hf
    simp at hf
  have hp := norm2_pos hne
  have hsq := norm2_sq (c.phys (s + 1) - c.phys s)
  refine ⟨?_, fun p hp' => ?_⟩
  · rw [sum_rel h2 (f := fun tw => norm2 (c.phys (s + 1) - c.phys s) / 2 * tw.2) fun tw p hd => ((sidePoint_ok hd).2.1 rfl).1, List.sum_map_mul_left, hr]
    ring
  · obtain ⟨tw, -, hd⟩ := forall2_left h2 hp'
    rw [((sidePoint_ok hd).2.1 rfl).2]
    simp only [sideNormal]
    generalize norm2 (c.phys (s + 1) - c.phys s) = L at *
    simp only [Pi.sub_apply] at hsq
    simp
    refine ⟨?_, ?_⟩
    · field_simp
      linarith
    · ring

/-- C176: the normals point out of a sub-cell oriented counterclockwise: no node is in front of the side. -/
theorem C176_outward {n : Nat} [NeZero n] {P : Fin 4 → Pt} {c : Cell n} {s : Fin n} {s4 : Fin 4} {at' : ℝ → RefPt n} {rule : List (ℝ × ℝ)} {d : List SideQp}
    (h : initSide true P c s s4 at' rule = .ok d) (hc : ∀ i, 0 ≤ area [c.phys s, c.phys (s + 1), c.phys i]) :
    ∀ p ∈ d, ∀ i, p.normal 0 * (c.phys i 0 - c.phys s 0) + p.normal 1 * (c.phys i 1 - c.phys s 1) ≤ 0 := by
  unfold initSide at h
  simp only [if_true] at h
  have h2 := mapM_ok h
  intro p hp i
  obtain ⟨tw, -, hd⟩ := forall2_left h2 hp
  have hi := hc i
  rw [area3] at hi
  cases hf : sideFlat c s at' rule with
  | true => rw [((sidePoint_ok hd).2.2 hf).2]; simp
  | false =>
    rw [((sidePoint_ok hd).2.1 hf).2]
    have hL : 0 ≤ norm2 (c.phys (s + 1) - c.phys s) := Real.sqrt_nonneg _
    simp only [sideNormal]
    generalize norm2 (c.phys (s + 1) - c.phys s) = L at *
    have e : (c.phys (s + 1) 1 - c.phys s 1) / L * (c.phys i 0 - c.phys s 0) + -(c.phys (s + 1) 0 - c.phys s 0) / L * (c.phys i 1 - c.phys s 1) =
        -(tri (c.phys s) (c.phys (s + 1)) (c.phys i) / L) := by simp only [tri]; ring
    simp only [Matrix.cons_val_zero, Matrix.cons_val_one] at *
    rw [e]
    have : 0 ≤ tri (c.phys s) (c.phys (s + 1)) (c.phys i) / L := div_nonneg (by linarith) hL
    linarith

/-- The force of a unit pressure on a side: sum of weight times normal. -/
def push (d : List SideQp) (w : Fin 2) : ℝ := (d.map fun p => p.JxW * p.normal w).sum

/-- C176: a uniform pressure on all the sides of a sub-cell has no resultant: the sides close. Sides of zero length, for which libMesh raises an exception that
is caught, are included. -/
theorem C176_closed {n : Nat} [NeZero n] {P : Fin 4 → Pt} {c : Cell n} {s4 : Fin 4} {at' : Fin n → ℝ → RefPt n} {rule : List (ℝ × ℝ)}
    (hr : (rule.map fun tw => tw.2).sum = 2) {d : Fin n → List SideQp} (h : ∀ s, initSide true P c s s4 (at' s) rule = .ok (d s))
    (hf : ∀ s, sideFlat c s (at' s) rule = true → c.phys s = c.phys (s + 1)) (w : Fin 2) : ∑ s, push (d s) w = 0 := by
  have e : ∀ s, push (d s) w = ![c.phys (s + 1) 1 - c.phys s 1, -(c.phys (s + 1) 0 - c.phys s 0)] w := by
    intro s
    have h1 := h s
    unfold initSide at h1
    simp only [if_true] at h1
    have h2 := mapM_ok h1
    unfold push
    cases hs : sideFlat c s (at' s) rule with
    | true =>
      rw [sum_rel h2 (f := fun _ => (0 : ℝ)) fun tw p hd => by rw [((sidePoint_ok hd).2.2 hs).1, zero_mul], ← hf s hs]
      fin_cases w <;> simp
    | false =>
      have hne : c.phys s ≠ c.phys (s + 1) := by
        intro e
        rw [sideFlat, show c.phys (nextNode s) = c.phys (s + 1) from rfl, ← e] at hs
        simp at hs
      have hp := norm2_pos hne
      rw [sum_rel h2 (f := fun tw => norm2 (c.phys (s + 1) - c.phys s) / 2 * sideNormal (c.phys s) (c.phys (s + 1)) w * tw.2) fun tw p hd => by
        rw [((sidePoint_ok hd).2.1 hs).1, ((sidePoint_ok hd).2.1 hs).2, sideWeight]; ring, List.sum_map_mul_left, hr]
      simp only [sideNormal]
      generalize norm2 (c.phys (s + 1) - c.phys s) = L at *
      fin_cases w <;> simp <;> field_simp
  rw [Finset.sum_congr rfl fun s _ => e s]
  have shift : ∀ j : Fin 2, ∑ s, c.phys (s + 1) j = ∑ s, c.phys s j := fun j => Equiv.sum_comp (Equiv.addRight (1 : Fin n)) fun s => c.phys s j
  fin_cases w <;> simp [Finset.sum_sub_distrib, shift]

/-- C176: a side of a sub-cell with zero length, or of a sub-cell without area, contributes nothing. -/
theorem C176_flat_side {n : Nat} [NeZero n] {P : Fin 4 → Pt} {c : Cell n} {s : Fin n} {s4 : Fin 4} {at' : ℝ → RefPt n} {rule : List (ℝ × ℝ)} {d : List SideQp}
    (h : initSide true P c s s4 at' rule = .ok d) (hf : c.phys s = c.phys (s + 1) ∨ ∃ tw ∈ rule, detAt (at' tw.1) c.phys = 0) :
    ∀ p ∈ d, p.JxW = 0 ∧ p.normal = 0 := by
  have hs : sideFlat c s at' rule = true := by
    rw [sideFlat, Bool.or_eq_true, decide_eq_true_eq, List.any_eq_true]
    exact hf.imp id fun ⟨tw, a, b⟩ => ⟨tw, a, by simpa using b⟩
  unfold initSide at h
  simp only [if_true, hs] at h
  intro p hp
  obtain ⟨tw, -, hd⟩ := forall2_left (mapM_ok h) hp
  exact (sidePoint_ok hd).2.2 rfl

/-- C176: on the sides of a sub-cell that lie on the boundary of the parent (one nondimensional coordinate constant) the points are on the physical side, at the
places the rule gives, whatever the shape of the parent; on a parallelogram this holds for every side, also those inside the parent. -/
theorem C176_side_points {n : Nat} [NeZero n] {P : Fin 4 → Pt} {c : Cell n} (hc : Consistent P c) {s : Fin n} {s4 : Fin 4} {at' : ℝ → RefPt n} {rule : List (ℝ × ℝ)}
    {d : List SideQp} (h : initSide true P c s s4 at' rule = .ok d) (hs : (∃ w, c.loc s w = c.loc (s + 1) w) ∨ Parallelogram P) :
    OnSegment (c.phys s) (c.phys (s + 1)) rule d := by
  unfold initSide at h
  simp only [if_true] at h
  refine (mapM_ok h).imp fun tw p hd => ?_
  rw [(sidePoint_ok hd).1, ← hc s, ← hc (s + 1)]
  funext w
  rcases hs with ⟨j, hj⟩ | hP
  · fin_cases j <;> simp only [Fin.zero_eta, Fin.mk_one] at hj <;> simp only [bilinear, onSide, Pi.add_apply, Pi.smul_apply, smul_eq_mul, hj] <;> ring
  · simp only [bilinear_affine hP, onSide]; ring

/-! ### concrete cases -/

/-- A quadrilateral that is not a parallelogram. -/
noncomputable def trapezoid : Fin 4 → Pt := ![![0, 0], ![2, 0], ![1, 1], ![0, 1]]

/-- The one-point rule of the triangle, exact for first degree. -/
noncomputable def centreRule : List (RefPt 3) := [triPt (1 / 2) ![1 / 3, 1 / 3]]

theorem centreRule_ok : TriRule centreRule := by
  refine ⟨fun r hr => ?_, by simp [centreRule, triPt]⟩
  rw [centreRule, List.mem_singleton] at hr
  exact ⟨_, _, hr⟩

/-- The cut between the corners 1 and 3. -/
def diagCut : Cut := ⟨.oppositeNodes, [⟨[.corner 1, .corner 2, .corner 3], some 2⟩], [⟨[.corner 3, .corner 0, .corner 1], some 2⟩], [], [], false, false⟩

/-- The level set through the corners 1 and 3 of the trapezoid gives that cut. -/
theorem diagCut_reached {tol : ℝ} (h0 : 0 < tol) (h1 : tol < 1) : initQuad (fun p => p 0 + 2 * p 1 - 2) tol trapezoid = some diagCut := by
  have v : (fun i => (fun p : Pt => p 0 + 2 * p 1 - 2) (trapezoid i)) = ![-2, 0, 1, 0] := by
    funext i; fin_cases i <;> simp [trapezoid] <;> norm_num
  have n0 : nodeHit tol ![-2, 0, 1, 0] 0 = false := by simp [nodeHit]; linarith
  have n1 : nodeHit tol ![-2, 0, 1, 0] 1 = true := by simp [nodeHit, h0]
  have n2 : nodeHit tol ![-2, 0, 1, 0] 2 = false := by simp [nodeHit]; linarith
  have n3 : nodeHit tol ![-2, 0, 1, 0] 3 = true := by simp [nodeHit, h0]
  have hn : nodeHit tol ![-2, 0, 1, 0] = ![false, true, false, true] := by funext i; fin_cases i <;> simp [n0, n1, n2, n3]
  have hs : sideHit tol ![-2, 0, 1, 0] = ![false, false, false, false] := by
    funext i; fin_cases i <;> simp [sideHit, n0, n1, n2, n3]
  unfold initQuad
  rw [v]
  generalize phiMid : ((fun p : Pt => p 0 + 2 * p 1 - 2) ((1 / 4 : ℝ) • (trapezoid 0 + trapezoid 1 + trapezoid 2 + trapezoid 3))) = mid
  unfold initElem
  have v0 : (![-2, 0, 1, 0] : Fin 4 → ℝ) 0 = -2 := rfl
  have v1 : (![-2, 0, 1, 0] : Fin 4 → ℝ) 1 = 0 := rfl
  have v2 : (![-2, 0, 1, 0] : Fin 4 → ℝ) 2 = 1 := rfl
  have v3 : (![-2, 0, 1, 0] : Fin 4 → ℝ) 3 = 0 := rfl
  have mn : minVal (nodeVals ![-2, 0, 1, 0] []) = -2 := by
    simp only [minVal, nodeVals, v0, v1, v2, v3, List.append_nil, List.foldl_cons, List.foldl_nil]; norm_num
  have mx : maxVal (nodeVals ![-2, 0, 1, 0] []) = 1 := by
    simp only [maxVal, nodeVals, v0, v1, v2, v3, List.append_nil, List.foldl_cons, List.foldl_nil]; norm_num
  have t2 : ¬ (2 : ℝ) ≤ tol := by linarith
  have t1 : ¬ (1 : ℝ) ≤ tol := by linarith
  have on : nOnSet tol ![-2, 0, 1, 0] = 2 := by simp [nOnSet, List.filter, h0.le, t1, t2]
  have col : colinearSide tol ![-2, 0, 1, 0] = none := by
    simp [colinearSide, t1, t2]
  simp only [mn, mx, on, col]
  rw [if_neg (by linarith), if_neg (by linarith)]
  simp only [show ¬ ((2 : Nat) = 1) by decide, decide_false, Bool.false_and, Bool.false_eq_true, if_false]
  unfold quad4
  rw [hn, hs]
  have hm : chooseMode ![false, false, false, false] ![false, true, false, true] (decide (mid * ![-2, 0, 1, 0] 0 > 0)) = (.oppositeNodes, 0, 1) := by
    cases decide (mid * ![-2, 0, 1, 0] 0 > 0) <;> rfl
  rw [hm]
  have hp : (fun i : Fin 4 => decide ((![-2, 0, 1, 0] : Fin 4 → ℝ) i > 0)) = ![false, false, true, false] := by
    funext i; fin_cases i <;> simp
  simp only [hp]
  rfl

/-- C176 fails on elements that are not parallelograms: the points are those of the nondimensional coordinates of the parent, the weights those of the physical
sub-cell, and the two do not belong together. On the trapezoid (0,0), (2,0), (1,1), (0,1) cut from corner to corner the coordinate x integrates to 5/9 and 4/9
over the two pieces, 1 in all, with a rule that is exact for first degree; the exact integrals are 2/3 and 1/2. -/
theorem C176_bilinear_fails (rule4 : List (RefPt 4)) (x : Fin 4 → ℝ) :
    Convex trapezoid ∧ TriRule centreRule ∧
    ∃ a b, initSub trapezoid x diagCut centreRule rule4 ⟨[.corner 3, .corner 0, .corner 1], some 2⟩ = .ok a ∧
      initSub trapezoid x diagCut centreRule rule4 ⟨[.corner 1, .corner 2, .corner 3], some 2⟩ = .ok b ∧
      integral a.pts (fun p => p 0) = 5 / 9 ∧ integral b.pts (fun p => p 0) = 4 / 9 ∧
      quadrature centreRule ![trapezoid 3, trapezoid 0, trapezoid 1] (fun p => p 0) = 2 / 3 ∧
      quadrature centreRule ![trapezoid 1, trapezoid 2, trapezoid 3] (fun p => p 0) = 1 / 2 := by
  have r0 : refCorner 0 = ![-1, -1] := rfl
  have r1 : refCorner 1 = ![1, -1] := rfl
  have r2 : refCorner 2 = ![1, 1] := rfl
  have r3 : refCorner 3 = ![-1, 1] := rfl
  refine ⟨?_, centreRule_ok, ?_⟩
  · intro i; rw [area3]; fin_cases i <;> simp [tri, trapezoid, show (2 : Fin 4) + 2 = 0 from rfl, show (3 : Fin 4) + 1 = 0 from rfl, show (3 : Fin 4) + 2 = 1 from rfl,
      show (1 : Fin 4) + 2 = 3 from rfl, show (1 : Fin 4) + 1 = 2 from rfl, show (2 : Fin 4) + 1 = 3 from rfl]
  have pa : posAt (triPt (1 / 2) ![1 / 3, 1 / 3]) (fun i => vtxPos refCorner x diagCut (![Vtx.corner 3, .corner 0, .corner 1] i)) = ![-1 / 3, -1 / 3] := by
    funext w; fin_cases w <;> simp [posAt, triPt, Fin.sum_univ_three, vtxPos, r0, r1, r3] <;> norm_num
  have pb : posAt (triPt (1 / 2) ![1 / 3, 1 / 3]) (fun i => vtxPos refCorner x diagCut (![Vtx.corner 1, .corner 2, .corner 3] i)) = ![1 / 3, 1 / 3] := by
    funext w; fin_cases w <;> simp [posAt, triPt, Fin.sum_univ_three, vtxPos, r2, r1, r3] <;> norm_num
  obtain ⟨a, ha⟩ := subPoint_exists (P := trapezoid) (c := cellOf trapezoid x diagCut ![Vtx.corner 3, .corner 0, .corner 1]) (r := triPt (1 / 2) ![1 / 3, 1 / 3])
    (by simp only [cellOf]; rw [pa, det_quad]; simp [tri, trapezoid]; norm_num) (by rw [det_tri]; simp [tri, cellOf, vtxPos, trapezoid])
  obtain ⟨b, hb⟩ := subPoint_exists (P := trapezoid) (c := cellOf trapezoid x diagCut ![Vtx.corner 1, .corner 2, .corner 3]) (r := triPt (1 / 2) ![1 / 3, 1 / 3])
    (by simp only [cellOf]; rw [pb, det_quad]; simp [tri, trapezoid]; norm_num) (by rw [det_tri]; simp [tri, cellOf, vtxPos, trapezoid])
  refine ⟨{ pts := [a], qrule := none }, { pts := [b], qrule := none }, ?_, ?_, ?_, ?_, ?_, ?_⟩
  · simp only [initSub, init, centreRule, show through diagCut = true from rfl, if_true, List.mapM_cons, List.mapM_nil, ha]; rfl
  · simp only [initSub, init, centreRule, show through diagCut = true from rfl, if_true, List.mapM_cons, List.mapM_nil, hb]; rfl
  · obtain ⟨-, -, -, hx, hw, -⟩ := subPoint_ok ha
    simp only [integral, List.map_cons, List.map_nil, List.sum_cons, List.sum_nil, hx, hw, det_tri]
    simp only [cellOf] at *
    rw [pa]
    simp [tri, vtxPos, trapezoid, bilinear, triPt]; norm_num
  · obtain ⟨-, -, -, hx, hw, -⟩ := subPoint_ok hb
    simp only [integral, List.map_cons, List.map_nil, List.sum_cons, List.sum_nil, hx, hw, det_tri]
    simp only [cellOf] at *
    rw [pb]
    simp [tri, vtxPos, trapezoid, bilinear, triPt]; norm_num
  · simp only [quadrature, centreRule, List.map_cons, List.map_nil, List.sum_cons, List.sum_nil, det_tri]
    simp [tri, trapezoid, posAt, triPt, Fin.sum_univ_three]; norm_num
  · simp only [quadrature, centreRule, List.map_cons, List.map_nil, List.sum_cons, List.sum_nil, det_tri]
    simp [tri, trapezoid, posAt, triPt, Fin.sum_univ_three]; norm_num

/-- C176 fails for `get_qrule`: after the initialization of a cut element, or of any element at points of the caller, the reference returned is to no object. -/
theorem C176_rule_fails :
    (∀ {n : Nat} (P : Fin 4 → Pt) (c : Cell n) (rule : List (RefPt n)) (rule4 : List (RefPt 4)) (fe : Fe 4), init true P c rule rule4 = .ok fe → getRule fe = .error .nullRule) ∧
    (∀ (P : Fin 4 → Pt) (rule4 : List (RefPt 4)) (pts : List Pt) (fe : Fe 4), feInit P rule4 (some pts) = .ok fe → getRule fe = .error .nullRule) ∧
    (∀ {n : Nat} (P : Fin 4 → Pt) (c : Cell n) (rule : List (RefPt n)) (rule4 : List (RefPt 4)) (fe : Fe 4), init false P c rule rule4 = .ok fe → getRule fe = .ok rule4) := by
  refine ⟨fun P c rule rule4 fe h => ?_, fun P rule4 pts fe h => ?_, fun P c rule rule4 fe h => ?_⟩
  · rw [getRule, (init_cut h).1]
  · unfold feInit at h
    simp only at h
    cases hd : pts.mapM fun q => (do let w ← weightAt (quadPt 1 q) P; parentAt P q w) with
    | error e => rw [hd] at h; exact absurd h (by intro h; cases h)
    | ok d => rw [hd] at h; obtain rfl := Except.ok.inj h; rfl
  · unfold init feInit at h
    simp only [Bool.false_eq_true, if_false] at h
    cases hd : rule4.mapM fun q => (do let w ← weightAt q P; parentAt P q.pt w) with
    | error e => rw [hd] at h; exact absurd h (by intro h; cases h)
    | ok d => rw [hd] at h; obtain rfl := Except.ok.inj h; rfl

/-- The unit square as a cell of its own. -/
noncomputable def squareCell : Cell 4 := { loc := refCorner, phys := unitSquare }

/-- C176 fails for the points of sides: the same side of the same element reports the point of the rule of the side if the element is not cut, and the point in
the coordinates of the element if it is. Here the midpoint of side 1 of the unit square. -/
theorem C176_side_qpoints_fails :
    ∃ a b, initSide false unitSquare squareCell 1 1 (fun t => quadPt 1 ![1, t]) [(0, 2)] = .ok [a] ∧
      initSide true unitSquare squareCell 1 1 (fun t => quadPt 1 ![1, t]) [(0, 2)] = .ok [b] ∧
      a.xyz = b.xyz ∧ a.JxW = b.JxW ∧ a.normal = b.normal ∧ a.q = ![0, 0] ∧ b.q = ![1, 0] := by
  have hq : onSide (refCorner 1) (refCorner (nextNode 1)) 0 = ![1, 0] := by
    funext w; fin_cases w <;> simp [onSide, nextNode, refCorner, show (1 : Fin 4) + 1 = 2 from rfl] <;> norm_num
  have hd : detAt (quadPt 1 ![1, 0]) unitSquare ≠ 0 := by rw [det_quad]; simp [tri, us0, us1, us2, us3]
  have hf : sideFlat squareCell 1 (fun t => quadPt 1 ![1, t]) [(0, 2)] = false := by
    have h2 : squareCell.phys 1 ≠ squareCell.phys (nextNode 1) := by
      intro h
      have := congrFun h 1
      simp [squareCell, nextNode, us1, us2, show (1 : Fin 4) + 1 = 2 from rfl] at this
    rw [sideFlat, decide_eq_false h2]
    simp only [Bool.false_or, List.any_cons, List.any_nil, Bool.or_false, decide_eq_false_iff_not]
    exact hd
  unfold initSide
  simp only [Bool.false_eq_true, if_false, if_true, hf]
  simp only [List.mapM_cons, List.mapM_nil, feSidePoint, subSidePoint, squareCell, hq, parentAt, if_neg hd]
  exact ⟨_, _, rfl, rfl, rfl, rfl, rfl, rfl, rfl⟩

/-- A cut that meets the hypotheses of the theorems on cut elements: the corner of the unit square below the diagonal through 1 and 3. -/
example (rule4 : List (RefPt 4)) (x : Fin 4 → ℝ) : Parallelogram unitSquare ∧ Convex unitSquare ∧ TriRule centreRule ∧
    (∀ r ∈ centreRule, Partition r) ∧ Consistent unitSquare (cellOf unitSquare x diagCut ![Vtx.corner 3, .corner 0, .corner 1]) ∧
    ∃ fe, init true unitSquare (cellOf unitSquare x diagCut ![Vtx.corner 3, .corner 0, .corner 1]) centreRule rule4 = .ok fe ∧ fe.pts ≠ [] := by
  refine ⟨fun w => by fin_cases w <;> simp [us0, us1, us2, us3], ?_, centreRule_ok, ?_, C176_consistent _ _ _ _ fun i => by fin_cases i <;> rfl, ?_⟩
  · intro i; rw [area3]; fin_cases i <;> simp [tri, us0, us1, us2, us3, show (2 : Fin 4) + 2 = 0 from rfl, show (3 : Fin 4) + 1 = 0 from rfl, show (3 : Fin 4) + 2 = 1 from rfl,
      show (1 : Fin 4) + 2 = 3 from rfl, show (1 : Fin 4) + 1 = 2 from rfl, show (2 : Fin 4) + 1 = 3 from rfl]
  · intro r hr; rw [centreRule, List.mem_singleton] at hr; rw [hr]; exact triPt_partition _ _
  · obtain ⟨a, ha⟩ := subPoint_exists (P := unitSquare) (c := cellOf unitSquare x diagCut ![Vtx.corner 3, .corner 0, .corner 1]) (r := triPt (1 / 2) ![1 / 3, 1 / 3])
      (by rw [det_quad]; simp [tri, us0, us1, us2, us3]; ring_nf; norm_num) (by rw [det_tri]; simp [tri, cellOf, vtxPos, us0, us1, us3])
    exact ⟨{ pts := [a], qrule := none }, by
      simp only [init, centreRule, if_true, List.mapM_cons, List.mapM_nil, ha]; rfl, by simp⟩

/-- A rule of the square meeting the condition: two by two points. -/
example : QuadRule [quadPt 1 ![-1 / 2, -1 / 2], quadPt 1 ![1 / 2, -1 / 2], quadPt 1 ![1 / 2, 1 / 2], quadPt 1 ![-1 / 2, 1 / 2]] := by
  have e : ∀ a b : ℝ, |a| ≤ 1 → |b| ≤ 1 → ∀ i : Fin 2, |(![a, b] : Pt) i| ≤ 1 := fun a b ha hb i => by fin_cases i <;> simpa
  refine ⟨fun r hr => ?_, ?_, ?_, ?_⟩
  · simp only [List.mem_cons, List.not_mem_nil, or_false] at hr
    rcases hr with rfl | rfl | rfl | rfl <;> exact ⟨_, _, rfl, e _ _ (by rw [abs_le]; constructor <;> norm_num) (by rw [abs_le]; constructor <;> norm_num)⟩
  all_goals simp [quadPt]; norm_num

end Verif.SubCell
