import Verif.Model.Dkt
import Verif.Props.StressRec
import Mathlib.Tactic.Linarith
import Mathlib.Tactic.NormNum
/-
  C127: the discrete Kirchhoff triangle.
-/
namespace Verif.Dkt
open Verif.GeomElem
open Verif.Shell (shape W TX TY app unitDof Sqp curvature)

/-! ### Specification -/

/-- Triangle in a plane `z = const`, seen counter-clockwise from above. -/
structure Flat (p : Fin 3 → V3) : Prop where
  z1 : p 1 2 = p 0 2
  z2 : p 2 2 = p 0 2
  ccw : 0 < (p 1 0 - p 0 0) * (p 2 1 - p 0 1) - (p 1 1 - p 0 1) * (p 2 0 - p 0 0)

/-- Coordinates of the six nodes: corners, then midpoints of the edges 0-1, 1-2, 2-0. -/
noncomputable def node6 (p : Fin 3 → V3) (k : Fin 3) : Fin 6 → ℝ := ![p 0 k, p 1 k, p 2 k, (p 0 k + p 1 k) / 2, (p 1 k + p 2 k) / 2, (p 2 k + p 0 k) / 2]

/-- `Nx`, `Ny` differentiate linear functions of x and y exactly (derivatives of the quadratic shape functions do). -/
structure Exact (p : Fin 3 → V3) (Nx Ny : Fin 6 → ℝ) : Prop where
  cx : ∑ i, Nx i = 0
  cy : ∑ i, Ny i = 0
  xx : ∑ i, Nx i * node6 p 0 i = 1
  xy : ∑ i, Nx i * node6 p 1 i = 0
  yx : ∑ i, Ny i * node6 p 0 i = 0
  yy : ∑ i, Ny i * node6 p 1 i = 1

/-- Rotation of the normal at corner `i`: `(theta_y, - theta_x)`. -/
def corner (u : Dof 3 → ℝ) (i : Fin 3) : Fin 2 → ℝ := ![u (true, 1, i), -u (true, 0, i)]

/-- Component along the edge `i → j` times its squared length. -/
def along (p : Fin 3 → V3) (i j : Fin 3) (b : Fin 2 → ℝ) : ℝ := (p j 0 - p i 0) * b 0 + (p j 1 - p i 1) * b 1
/-- Component across the edge. -/
def across (p : Fin 3 → V3) (i j : Fin 3) (b : Fin 2 → ℝ) : ℝ := (p j 1 - p i 1) * b 0 - (p j 0 - p i 0) * b 1
/-- Squared length of the edge. -/
def sq (p : Fin 3 → V3) (i j : Fin 3) : ℝ := (p j 0 - p i 0) ^ 2 + (p j 1 - p i 1) ^ 2

/-- Rotation of the normal at the middle of the edge `i → j`: `b` is it if the component across is the mean of the corners and the component along is minus the slope of the cubic deflection whose values and slopes
at the corners are given (`w' = -b` there): `l b_s = - 3/2 (w_j - w_i) - 1/4 l (b_s,i + b_s,j)`. -/
def IsMiddle (p : Fin 3 → V3) (u : Dof 3 → ℝ) (i j : Fin 3) (b : Fin 2 → ℝ) : Prop :=
  across p i j b = (across p i j (corner u i) + across p i j (corner u j)) / 2 ∧
  along p i j b = -(3 / 2) * (u (false, 2, j) - u (false, 2, i)) - 1 / 4 * (along p i j (corner u i) + along p i j (corner u j))

/-- Rotation field at the six nodes. -/
structure IsField (p : Fin 3 → V3) (u : Dof 3 → ℝ) (b : Fin 6 → Fin 2 → ℝ) : Prop where
  c0 : b 0 = corner u 0
  c1 : b 1 = corner u 1
  c2 : b 2 = corner u 2
  m01 : IsMiddle p u 0 1 (b 3)
  m12 : IsMiddle p u 1 2 (b 4)
  m20 : IsMiddle p u 2 0 (b 5)

/-! ### Geometry of a flat triangle -/

theorem sq_pos {p : Fin 3 → V3} (h : Flat p) : 0 < sq p 0 1 ∧ 0 < sq p 1 2 ∧ 0 < sq p 2 0 := by
  have hc := h.ccw
  have key : ∀ a b : ℝ, (a ≠ 0 ∨ b ≠ 0) → 0 < a ^ 2 + b ^ 2 := by
    intro a b hab
    rcases hab with h | h
    · have := pow_pos (abs_pos.2 h) 2; rw [sq_abs] at this; positivity
    · have := pow_pos (abs_pos.2 h) 2; rw [sq_abs] at this; positivity
  refine ⟨key _ _ ?_, key _ _ ?_, key _ _ ?_⟩ <;> by_contra hh <;> push Not at hh <;> obtain ⟨h1, h2⟩ := hh
  · rw [h1, h2] at hc; simp at hc
  · have e1 : p 2 0 = p 1 0 := by linarith
    have e2 : p 2 1 = p 1 1 := by linarith
    rw [e1, e2] at hc; ring_nf at hc; exact lt_irrefl _ hc
  · have e1 : p 2 0 = p 0 0 := by linarith
    have e2 : p 2 1 = p 0 1 := by linarith
    rw [e1, e2] at hc; simp at hc

theorem faceNormal_flat {p : Fin 3 → V3} (h : Flat p) : faceNormal p = ![0, 0, 1] := by
  have h1 := h.z1
  have h2 := h.z2
  have hc := h.ccw
  have hcr : cross (fun k => p 1 k - p 0 k) (fun k => p 2 k - p 0 k) = ![0, 0, (p 1 0 - p 0 0) * (p 2 1 - p 0 1) - (p 1 1 - p 0 1) * (p 2 0 - p 0 0)] := by
    funext k; fin_cases k <;> simp [cross, h1, h2]
  have hn : GeomElem.norm ![0, 0, (p 1 0 - p 0 0) * (p 2 1 - p 0 1) - (p 1 1 - p 0 1) * (p 2 0 - p 0 0)] = (p 1 0 - p 0 0) * (p 2 1 - p 0 1) - (p 1 1 - p 0 1) * (p 2 0 - p 0 0) := by
    simp only [GeomElem.norm, Matrix.cons_val_zero, Matrix.cons_val_one, Matrix.cons_val_two, Matrix.tail_cons, Matrix.head_cons, mul_zero, zero_add]
    exact Real.sqrt_mul_self hc.le
  funext k
  unfold faceNormal
  rw [hcr, hn]
  fin_cases k
  · simp
  · simp
  · simp only [Fin.reduceFinMk, Matrix.cons_val]; exact div_self hc.ne'

theorem edge_flat {p : Fin 3 → V3} (h : Flat p) (i j : Fin 3) (hz : p j 2 = p i 2) : len p i j = Real.sqrt (sq p i j) ∧
    edgeNormal p i j 0 = (p j 1 - p i 1) / Real.sqrt (sq p i j) ∧ edgeNormal p i j 1 = -(p j 0 - p i 0) / Real.sqrt (sq p i j) := by
  have hcr : cross (fun k => p j k - p i k) ![0, 0, 1] = ![p j 1 - p i 1, -(p j 0 - p i 0), 0] := by
    funext k; fin_cases k <;> simp [cross]
  have hn : GeomElem.norm ![p j 1 - p i 1, -(p j 0 - p i 0), 0] = Real.sqrt (sq p i j) := by
    simp only [GeomElem.norm, sq, Matrix.cons_val_zero, Matrix.cons_val_one, Matrix.cons_val_two, Matrix.tail_cons, Matrix.head_cons]
    congr 1; ring
  refine ⟨?_, ?_, ?_⟩
  · simp only [len, GeomElem.norm, sq, hz]; congr 1; ring
  · unfold edgeNormal; rw [faceNormal_flat h, hcr, hn]; simp
  · unfold edgeNormal; rw [faceNormal_flat h, hcr, hn]; simp

/-! ### Interpolation -/

/-- Rotation at the middle of an edge from the normal `(c, s)` and the length. -/
noncomputable def mid (l c s : ℝ) (wi wj : ℝ) (bi bj : Fin 2 → ℝ) : Fin 2 → ℝ :=
  ![-s * (-(3 / 2) * (wj - wi) / l - 1 / 4 * (-s * (bi 0 + bj 0) + c * (bi 1 + bj 1))) + c * (1 / 2 * (c * (bi 0 + bj 0) + s * (bi 1 + bj 1))),
    c * (-(3 / 2) * (wj - wi) / l - 1 / 4 * (-s * (bi 0 + bj 0) + c * (bi 1 + bj 1))) + s * (1 / 2 * (c * (bi 0 + bj 0) + s * (bi 1 + bj 1)))]

/-- The field of the code. -/
noncomputable def field (g : Geo) (u : Dof 3 → ℝ) : Fin 6 → Fin 2 → ℝ :=
  ![corner u 0, corner u 1, corner u 2, mid g.l12 g.c6 g.s6 (u (false, 2, 0)) (u (false, 2, 1)) (corner u 0) (corner u 1), mid g.l23 g.c4 g.s4 (u (false, 2, 1)) (u (false, 2, 2)) (corner u 1) (corner u 2),
    mid g.l31 g.c5 g.s5 (u (false, 2, 2)) (u (false, 2, 0)) (corner u 2) (corner u 0)]

theorem row_apply (z : ℝ) (w tx ty : Fin 3 → ℝ) (u : Dof 3 → ℝ) : ∑ a, row z w tx ty a * u a = z * ∑ i, (w i * u (false, 2, i) + tx i * u (true, 0, i) + ty i * u (true, 1, i)) := by
  simp only [row, add_mul, Finset.sum_add_distrib, Shell.sum_shape, W, TX, TY]
  simp only [Fin.sum_univ_three]; ring

theorem bx_apply (g : Geo) (N : Fin 6 → ℝ) (u : Dof 3 → ℝ) : ∑ i, (bxW g N i * u (false, 2, i) + bxTX g N i * u (true, 0, i) + bxTY g N i * u (true, 1, i)) = ∑ i, N i * field g u i 0 := by
  simp [Fin.sum_univ_three, Fin.sum_univ_six, bxW, bxTX, bxTY, field, mid, corner]
  ring

theorem by_apply (g : Geo) (N : Fin 6 → ℝ) (u : Dof 3 → ℝ) : ∑ i, (byW g N i * u (false, 2, i) + byTX g N i * u (true, 0, i) + byTY g N i * u (true, 1, i)) = ∑ i, N i * field g u i 1 := by
  simp [Fin.sum_univ_three, Fin.sum_univ_six, byW, byTX, byTY, bxTX, field, mid, corner]
  ring

theorem dkt_apply (p : Fin 3 → V3) (Nx Ny : Fin 6 → ℝ) (z : ℝ) (u : Dof 3 → ℝ) (r : Fin 3) :
    app (dkt p Nx Ny z) u r = z * (![∑ i, Nx i * field (geo p) u i 0, ∑ i, Ny i * field (geo p) u i 1, (∑ i, Ny i * field (geo p) u i 0) + ∑ i, Nx i * field (geo p) u i 1] : Fin 3 → ℝ) r := by
  fin_cases r
  · simp only [app, dkt, Fin.zero_eta, Matrix.cons_val_zero, row_apply, bx_apply]
  · simp only [app, dkt, Fin.mk_one, Matrix.cons_val_one, row_apply, by_apply, Matrix.cons_val_zero]
  · simp only [app, dkt, Fin.reduceFinMk, Matrix.cons_val, row_apply]
    rw [← bx_apply, ← by_apply, ← Finset.sum_add_distrib]
    congr 1
    exact Finset.sum_congr rfl fun i _ => by ring

theorem mid_is {p : Fin 3 → V3} (u : Dof 3 → ℝ) (i j : Fin 3) (hp : 0 < sq p i j) :
    IsMiddle p u i j (mid (Real.sqrt (sq p i j)) ((p j 1 - p i 1) / Real.sqrt (sq p i j)) (-(p j 0 - p i 0) / Real.sqrt (sq p i j)) (u (false, 2, i)) (u (false, 2, j)) (corner u i) (corner u j)) := by
  have hl : Real.sqrt (sq p i j) ≠ 0 := (Real.sqrt_pos.2 hp).ne'
  have h2 : Real.sqrt (sq p i j) ^ 2 = sq p i j := Real.sq_sqrt hp.le
  generalize Real.sqrt (sq p i j) = l at hl h2
  obtain ⟨c, hc⟩ : ∃ c, c = (p j 1 - p i 1) / l := ⟨_, rfl⟩
  obtain ⟨s, hs⟩ : ∃ s, s = -(p j 0 - p i 0) / l := ⟨_, rfl⟩
  have ey : p j 1 - p i 1 = c * l := by rw [hc]; field_simp
  have ex : p j 0 - p i 0 = -s * l := by rw [hs]; field_simp
  rw [← hc, ← hs]
  have h1 : c ^ 2 + s ^ 2 = 1 := by
    have : (c ^ 2 + s ^ 2) * l ^ 2 = l ^ 2 := by rw [sq, ex, ey] at h2; linear_combination -h2
    exact mul_right_cancel₀ (pow_ne_zero 2 hl) (by rw [this, one_mul])
  unfold IsMiddle across along mid
  rw [ex, ey]
  simp only [Matrix.cons_val_zero, Matrix.cons_val_one]
  generalize corner u i = bi
  generalize corner u j = bj
  generalize u (false, 2, i) = wi
  generalize u (false, 2, j) = wj
  obtain ⟨d, hd⟩ : ∃ d, d = (wj - wi) / l := ⟨_, rfl⟩
  have hw : wj - wi = d * l := by rw [hd]; field_simp
  have hq : -(3 / 2) * (wj - wi) / l = -(3 / 2) * d := by rw [hd]; ring
  rw [hq, hw]
  constructor
  · linear_combination (1 / 2 * l * (c * (bi 0 + bj 0) + s * (bi 1 + bj 1))) * h1
  · linear_combination (l * (-(3 / 2) * d - 1 / 4 * (-s * (bi 0 + bj 0) + c * (bi 1 + bj 1)))) * h1

theorem field_is {p : Fin 3 → V3} (h : Flat p) (u : Dof 3 → ℝ) : IsField p u (field (geo p) u) := by
  obtain ⟨h01, h12, h20⟩ := sq_pos h
  obtain ⟨a1, a2, a3⟩ := edge_flat h 0 1 h.z1
  obtain ⟨b1, b2, b3⟩ := edge_flat h 1 2 (by rw [h.z1, h.z2])
  obtain ⟨c1, c2, c3⟩ := edge_flat h 2 0 h.z2.symm
  refine ⟨rfl, rfl, rfl, ?_, ?_, ?_⟩
  · simp only [field, geo, Matrix.cons_val, a1, a2, a3]; exact mid_is u 0 1 h01
  · simp only [field, geo, Matrix.cons_val, b1, b2, b3]; exact mid_is u 1 2 h12
  · simp only [field, geo, Matrix.cons_val, c1, c2, c3]; exact mid_is u 2 0 h20

theorem middle_unique {p : Fin 3 → V3} {u : Dof 3 → ℝ} {i j : Fin 3} (hp : 0 < sq p i j) {b c : Fin 2 → ℝ} (hb : IsMiddle p u i j b) (hc : IsMiddle p u i j c) : b = c := by
  have h1 := hb.1.trans hc.1.symm
  have h2 := hb.2.trans hc.2.symm
  unfold across at h1
  unfold along at h2
  unfold sq at hp
  have e0 : ((p j 0 - p i 0) ^ 2 + (p j 1 - p i 1) ^ 2) * (b 0 - c 0) = 0 := by linear_combination (p j 1 - p i 1) * h1 + (p j 0 - p i 0) * h2
  have e1 : ((p j 0 - p i 0) ^ 2 + (p j 1 - p i 1) ^ 2) * (b 1 - c 1) = 0 := by linear_combination -(p j 0 - p i 0) * h1 + (p j 1 - p i 1) * h2
  have z0 := (mul_eq_zero.1 e0).resolve_left hp.ne'
  have z1 := (mul_eq_zero.1 e1).resolve_left hp.ne'
  funext k; fin_cases k
  · exact sub_eq_zero.1 z0
  · exact sub_eq_zero.1 z1

theorem field_unique {p : Fin 3 → V3} (h : Flat p) {u : Dof 3 → ℝ} {b c : Fin 6 → Fin 2 → ℝ} (hb : IsField p u b) (hc : IsField p u c) : b = c := by
  obtain ⟨h01, h12, h20⟩ := sq_pos h
  funext i
  fin_cases i
  · exact hb.c0.trans hc.c0.symm
  · exact hb.c1.trans hc.c1.symm
  · exact hb.c2.trans hc.c2.symm
  · exact middle_unique h01 hb.m01 hc.m01
  · exact middle_unique h12 hb.m12 hc.m12
  · exact middle_unique h20 hb.m20 hc.m20

/-- C127: on a flat triangle the discrete Kirchhoff field exists, is unique, and the bending strain is `z` times the derivatives of its quadratic interpolation. -/
theorem C127_interpolation {p : Fin 3 → V3} (h : Flat p) (Nx Ny : Fin 6 → ℝ) (z : ℝ) (u : Dof 3 → ℝ) :
    (∃! b, IsField p u b) ∧ ∀ b, IsField p u b → ∀ r, app (dkt p Nx Ny z) u r = z * (![∑ i, Nx i * b i 0, ∑ i, Ny i * b i 1, (∑ i, Ny i * b i 0) + ∑ i, Nx i * b i 1] : Fin 3 → ℝ) r := by
  refine ⟨⟨_, field_is h u, fun b hb => field_unique h hb (field_is h u)⟩, fun b hb r => ?_⟩
  rw [field_unique h hb (field_is h u)]
  exact dkt_apply p Nx Ny z u r

/-- Nodal values of the deflection `w = c + s x + t y + (a x^2 + b y^2) / 2 + k x y` with Kirchhoff rotations `theta_x = w,y`, `theta_y = - w,x`; other unknowns arbitrary. -/
structure IsQuadratic (p : Fin 3 → V3) (c s t a b k : ℝ) (u : Dof 3 → ℝ) : Prop where
  w : ∀ i, u (false, 2, i) = c + s * p i 0 + t * p i 1 + 1 / 2 * (a * p i 0 ^ 2 + b * p i 1 ^ 2) + k * p i 0 * p i 1
  tx : ∀ i, u (true, 0, i) = t + b * p i 1 + k * p i 0
  ty : ∀ i, u (true, 1, i) = -(s + a * p i 0 + k * p i 1)

theorem quadratic_field {p : Fin 3 → V3} {c s t a b k : ℝ} {u : Dof 3 → ℝ} (hu : IsQuadratic p c s t a b k u) :
    IsField p u fun i => ![-(s + a * node6 p 0 i + k * node6 p 1 i), -(t + b * node6 p 1 i + k * node6 p 0 i)] := by
  have hc : ∀ i, corner u i = ![-(s + a * p i 0 + k * p i 1), -(t + b * p i 1 + k * p i 0)] := by
    intro i; simp only [corner, hu.tx, hu.ty]
  refine ⟨?_, ?_, ?_, ?_, ?_, ?_⟩
  · rw [hc]; rfl
  · rw [hc]; rfl
  · rw [hc]; rfl
  all_goals
    refine ⟨?_, ?_⟩
    · simp only [across, hc, node6, Matrix.cons_val]; simp; ring
    · simp only [along, hc, hu.w, node6, Matrix.cons_val]; simp; ring

/-- C127: patch test: a quadratic deflection with its Kirchhoff rotations has the exact bending strain `-z (w,xx ; w,yy ; 2 w,xy)`. -/
theorem C127_patch {p : Fin 3 → V3} (h : Flat p) {Nx Ny : Fin 6 → ℝ} (hN : Exact p Nx Ny) {c s t a b k : ℝ} {u : Dof 3 → ℝ} (hu : IsQuadratic p c s t a b k u) (z : ℝ) :
    app (dkt p Nx Ny z) u = ![-(z * a), -(z * b), -(z * (2 * k))] := by
  have key : ∀ (N : Fin 6 → ℝ) (e f g : ℝ), ∑ i, N i * -(e + f * node6 p 0 i + g * node6 p 1 i) = -(e * ∑ i, N i + f * ∑ i, N i * node6 p 0 i + g * ∑ i, N i * node6 p 1 i) := by
    intro N e f g
    simp only [Finset.mul_sum, ← Finset.sum_add_distrib, ← Finset.sum_neg_distrib]
    exact Finset.sum_congr rfl fun i _ => by ring
  funext r
  rw [(C127_interpolation h Nx Ny z u).2 _ (quadratic_field hu) r]
  have e : ∀ (N : Fin 6 → ℝ), ∑ i, N i * -(t + b * node6 p 1 i + k * node6 p 0 i) = ∑ i, N i * -(t + k * node6 p 0 i + b * node6 p 1 i) := fun N => Finset.sum_congr rfl fun i _ => by ring
  simp only [Matrix.cons_val_zero, Matrix.cons_val_one, e, key, hN.cx, hN.cy, hN.xx, hN.xy, hN.yx, hN.yy]
  fin_cases r <;> simp <;> ring

/-- C127: rigid motions (translation along z and tilts) give no bending strain. -/
theorem C127_rigid {p : Fin 3 → V3} (h : Flat p) {Nx Ny : Fin 6 → ℝ} (hN : Exact p Nx Ny) {c s t : ℝ} {u : Dof 3 → ℝ} (hu : IsQuadratic p c s t 0 0 0 u) (z : ℝ) (r : Fin 3) : app (dkt p Nx Ny z) u r = 0 := by
  rw [C127_patch h hN hu]; fin_cases r <;> simp

/-- C127: the operator is proportional to the offset, so C124 applies to it. -/
theorem C127_scaled (p : Fin 3 → V3) (Nx Ny : Fin 6 → ℝ) (z : ℝ) (r : Fin 3) (a : Dof 3) : dkt p Nx Ny z r a = z * dkt p Nx Ny 1 r a := by
  have hr : ∀ w tx ty, row z w tx ty a = z * row 1 w tx ty a := by
    intro w tx ty
    simp only [row, shape]; split_ifs <;> ring
  fin_cases r <;> simp [dkt, hr _ _ _]

/-- C127: only deflection and rotations about in-plane axes enter: no drilling stiffness, no membrane coupling. -/
theorem C127_unknowns (p : Fin 3 → V3) (Nx Ny : Fin 6 → ℝ) (z : ℝ) (r : Fin 3) (a : Dof 3) (h : ¬ ((a.1, a.2.1) = W ∨ (a.1, a.2.1) = TX ∨ (a.1, a.2.1) = TY)) : dkt p Nx Ny z r a = 0 := by
  push Not at h
  have hr : ∀ w tx ty, row z w tx ty a = 0 := by
    intro w tx ty
    simp only [row, shape, h.1, h.2.1, h.2.2, if_false, add_zero]
  fin_cases r <;> simp [dkt, hr _ _ _]

/-! ### Example: unit triangle -/

def tri : Fin 3 → V3 := ![![0, 0, 0], ![1, 0, 0], ![0, 1, 0]]
theorem tri_flat : Flat tri := ⟨rfl, rfl, by simp [tri]⟩
/-- Derivatives of the quadratic shape functions of the unit triangle at the point `(x, y)`. -/
noncomputable def dN (x y : ℝ) : Fin 6 → ℝ := ![-(4 * (1 - x - y) - 1), 4 * x - 1, 0, 4 * (1 - 2 * x - y), 4 * y, -4 * y]
noncomputable def dM (x y : ℝ) : Fin 6 → ℝ := ![-(4 * (1 - x - y) - 1), 0, 4 * y - 1, -4 * x, 4 * x, 4 * (1 - x - 2 * y)]
theorem tri_exact (x y : ℝ) : Exact tri (dN x y) (dM x y) := by
  constructor <;> simp [Fin.sum_univ_six, dN, dM, node6, tri] <;> ring
example (z : ℝ) : ∃ u : Dof 3 → ℝ, IsQuadratic tri 1 2 3 4 5 6 u ∧ app (dkt tri (dN (1 / 3) (1 / 3)) (dM (1 / 3) (1 / 3)) z) u = ![-(z * 4), -(z * 5), -(z * (2 * 6))] := by
  refine ⟨fun a => if a.1 then (if a.2.1 = 0 then 3 + 5 * tri a.2.2 1 + 6 * tri a.2.2 0 else -(2 + 4 * tri a.2.2 0 + 6 * tri a.2.2 1))
    else 1 + 2 * tri a.2.2 0 + 3 * tri a.2.2 1 + 1 / 2 * (4 * tri a.2.2 0 ^ 2 + 5 * tri a.2.2 1 ^ 2) + 6 * tri a.2.2 0 * tri a.2.2 1, ?_, ?_⟩
  · constructor <;> intro i <;> simp
  · exact C127_patch tri_flat (tri_exact _ _) (c := 1) (s := 2) (t := 3) (by constructor <;> intro i <;> simp) z

/-! ### Failures -/

/-- Clockwise triangle. -/
def cw : Fin 3 → V3 := ![![0, 0, 0], ![0, 1, 0], ![1, 0, 0]]
/-- Derivatives of its quadratic shape functions at the point `(1/4, 0)` (corner functions `(1 - x - y)`, `y`, `x`). -/
noncomputable def cwNx : Fin 6 → ℝ := ![-2, 0, 0, 0, 0, 2]
noncomputable def cwNy : Fin 6 → ℝ := ![-2, -1, 0, 3, 1, -1]

theorem cw_exact : Exact cw cwNx cwNy := by
  constructor <;> simp [Fin.sum_univ_six, cwNx, cwNy, node6, cw] <;> norm_num

/-- Rigid tilt `w = x`, `theta_y = -1`. -/
def tilt (a : Dof 3) : ℝ := if a.1 then (if a.2.1 = 1 then -1 else 0) else (if a.2.1 = 2 then cw a.2.2 0 else 0)
theorem tilt_rigid : IsQuadratic cw 0 1 0 0 0 0 tilt := by
  constructor <;> intro i <;> simp [tilt]

/-- C127 fails for a triangle numbered clockwise in the x-y plane: a rigid tilt has bending strain. -/
theorem C127_clockwise_fails : IsQuadratic cw 0 1 0 0 0 0 tilt ∧ Exact cw cwNx cwNy ∧ app (dkt cw cwNx cwNy 1) tilt 0 = 6 := by
  refine ⟨tilt_rigid, cw_exact, ?_⟩
  have hc : cross (fun k => cw 1 k - cw 0 k) (fun k => cw 2 k - cw 0 k) = ![0, 0, -1] := by
    funext k; fin_cases k <;> simp [cross, cw]
  have hn : GeomElem.norm ![0, 0, -1] = 1 := by simp [GeomElem.norm]
  have hf : faceNormal cw = ![0, 0, -1] := by funext k; unfold faceNormal; rw [hc, hn]; simp
  have he : cross (fun k => cw 0 k - cw 2 k) ![0, 0, -1] = ![0, -1, 0] := by
    funext k; fin_cases k <;> simp [cross, cw]
  have hm : GeomElem.norm ![0, -1, 0] = 1 := by simp [GeomElem.norm]
  have hl : len cw 2 0 = 1 := by simp [len, GeomElem.norm, cw]
  have h5 : edgeNormal cw 2 0 = ![0, -1, 0] := by funext k; unfold edgeNormal; rw [hf, he, hm]; simp
  rw [dkt_apply]
  simp only [Fin.sum_univ_six, field, geo, mid, hl, h5]
  simp [cwNx, corner, tilt]
  simp [cw]
  norm_num

/-- C127 fails off the x-y plane: for an element in a plane `y = const` the shape functions have no derivative along y (`Ny = 0`), and the second bending strain is zero for every motion, also for bending about the first axis. -/
theorem C127_plane_fails (p : Fin 3 → V3) (Nx : Fin 6 → ℝ) (z : ℝ) (u : Dof 3 → ℝ) : app (dkt p Nx (fun _ => 0) z) u 1 = 0 := by
  rw [dkt_apply]; simp
end Verif.Dkt
