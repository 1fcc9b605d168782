import Verif.Model.ThermAdjoint
import Verif.Props.StressRec
import Verif.Props.StressAgg
import Verif.Props.ShellThermal
import Mathlib.Tactic.LinearCombination
/-
  C179: temperature gradient of a stress functional through the structural adjoint.
-/
namespace Verif.ThermAdj
open Verif.GeomElem Verif.StressRec Verif.StructLoads
open Verif.Shell (Sqp Blin Bx By Bvk matX matY vkMat appT mvT thermalOp thermalOp_eq dStrain curvature unitDof linStrain quadIn quadOut)
open Matrix
variable {n nt ns mt : Nat} {X : Type}

/-! ### Specification -/

/-- The stress functional at temperatures `H` and displacement `U`. -/
noncomputable def value (c : Stress.Coeffs) (ps : List (List (Elem n nt ns mt X))) (H : Fin mt → ℝ) (U : Fin ns → ℝ) : ℝ := Stress.pnormValue c (world ps H U)

/-- Structural residual: a part `G` that does not depend on the temperature, and the thermal residual of the elements with a thermal load. -/
noncomputable def residual (G : (Fin ns → ℝ) → Fin ns → ℝ) (ps : List (List (Elem n nt ns mt X))) (H : Fin mt → ℝ) (U : Fin ns → ℝ) (i : Fin ns) : ℝ :=
  G U i + ((ps.flatten.filter (·.hot)).map fun e => ∑ a, if e.smap a = i then thermal e (e.temps H) (e.disp U) a else 0).sum

/-- `W'` is the derivative of the path `W` at 0. -/
def Rate {m : Nat} (W : ℝ → Fin m → ℝ) (W' : Fin m → ℝ) : Prop := ∀ j, HasDerivAt (fun t => W t j) (W' j) 0

/-- `J` is the derivative of `R` at `U0`, along every path. -/
def JacobianAt (R : (Fin ns → ℝ) → Fin ns → ℝ) (J : Fin ns → Fin ns → ℝ) (U0 : Fin ns → ℝ) : Prop :=
  ∀ (W : ℝ → Fin ns → ℝ) (W' : Fin ns → ℝ), W 0 = U0 → Rate W W' → ∀ i, HasDerivAt (fun t => R (W t) i) (∑ j, J i j * W' j) 0

/-- `g` is the gradient of `q` at `U0`. -/
def GradientAt (q : (Fin ns → ℝ) → ℝ) (g U0 : Fin ns → ℝ) : Prop := ∀ w : Fin ns → ℝ, HasDerivAt (fun s : ℝ => q fun j => U0 j + s * w j) (∑ j, g j * w j) 0

/-- The structural adjoint: zero on the constrained degrees of freedom, `J^T lam = -g` on the others. -/
structure AdjointOf (C : Fin ns → Bool) (J : Fin ns → Fin ns → ℝ) (g lam : Fin ns → ℝ) : Prop where
  fixed : ∀ i, C i = true → lam i = 0
  solves : ∀ j, C j = false → ∑ i, lam i * J i j = -g j

/-- Solved structural states along a path of temperatures: equilibrium on the free degrees of freedom, the constrained ones do not move. -/
structure Solved (C : Fin ns → Bool) (R : (Fin mt → ℝ) → (Fin ns → ℝ) → Fin ns → ℝ) (H : ℝ → Fin mt → ℝ) (U : ℝ → Fin ns → ℝ) : Prop where
  equil : ∀ t i, C i = false → R (H t) (U t) i = 0
  fixed : ∀ t i, C i = true → U t i = U 0 i

/-- The functional is differentiable at this state: positive total weight, no stress exactly at the cap, no hydrostatic stress. -/
structure Regular (c : Stress.Coeffs) (w : Stress.World Unit nt) : Prop where
  p : 1 ≤ c.p
  sigma : 0 < c.sigma0
  weights : Stress.Weights w
  cap : Stress.OffCap c w
  stressed : ∀ d ∈ Stress.points w, Stress.vonMises d.stress ≠ 0

/-- Rate of the thermal load of the element doing work on the adjoint: `sum_a lam_a dR_a/dT H'`. -/
noncomputable def loadRate (H0 H' : Fin mt → ℝ) (U0 lam : Fin ns → ℝ) (e : Elem n nt ns mt X) : ℝ :=
  ∑ a, lam (e.smap a) * deriv (fun t : ℝ => thermal e (fun i => H0 (e.tmap i) + t * H' (e.tmap i)) (e.disp U0) a) 0

/-- What the elements that have a thermal load but are not evaluated by the stress output contribute. -/
noncomputable def unmonitored (ps : List (List (Elem n nt ns mt X))) (H0 H' : Fin mt → ℝ) (U0 lam : Fin ns → ℝ) : ℝ :=
  ((ps.flatten.filter fun e => e.hot && !e.eval).map (loadRate H0 H' U0 lam)).sum

/-- Every evaluated element is a surface element with a thermal load, and its quadrature needs no extra order; its bending operator is proportional to the offset. -/
def Supported (ps : List (List (Elem n nt ns mt X))) : Prop :=
  ∀ es ∈ ps, ∀ e ∈ es, e.eval = true → e.hot = true ∧ e.surf = true ∧ e.load = e.pts ∧ ∀ p ∈ e.pts, Scaled p.q p.Bz

/-! ### The derivative of the residual -/

/-- `resTemp` for equal quadrature rules, as a number. -/
noncomputable def mOf (e : Elem n nt ns mt X) (u : Dof n → ℝ) (a : Dof n) (i : Fin nt) : ℝ :=
  -vecToGlobal e.T (fun b => (e.load.map fun p => thermalOp e.nl e.bend (fun r => p.expA r * p.phi i) (fun r => p.expB r * p.phi i) p.q (vecToLocal e.T u) b).sum) a

theorem pointM_eq (nl bend : Bool) (p : Pt n nt X) (u : Dof n → ℝ) (a : Dof n) (i : Fin nt) :
    pointM nl bend p p u a i = thermalOp nl bend (fun r => p.expA r * p.phi i) (fun r => p.expB r * p.phi i) p.q u a := rfl

theorem zip_self {α : Type} (l : List α) : l.zip l = l.map fun x => (x, x) := by
  induction l with
  | nil => rfl
  | cons a l ih => simp [ih]

theorem resTemp_eq (dbg : Bool) (e : Elem n nt ns mt X) (h : e.load = e.pts) (u : Dof n → ℝ) : resTemp dbg e u = .ok (mOf e u) := by
  unfold resTemp
  rw [← h]
  simp only [bne_self_eq_false, Bool.and_false, Bool.false_eq_true, if_false, lt_irrefl, zip_self, List.map_map, Function.comp_def, pointM_eq]
  rfl

theorem vecToGlobal_lin (T : Option (Fin 3 → Fin 3 → ℝ)) (f g : Dof n → ℝ) (a : Dof n) : vecToGlobal T (fun b => f b + g b) a = vecToGlobal T f a + vecToGlobal T g a := by
  cases T with
  | none => rfl
  | some M => simp only [vecToGlobal, mul_add, Finset.sum_add_distrib]

theorem thermalOp_affine (nl bend : Bool) (p : Pt n nt X) (th : Fin nt → ℝ) (u : Dof n → ℝ) (a : Dof n) :
    thermalOp nl bend (fun r => p.expA r * (tempAt p th - p.ref)) (fun r => p.expB r * (tempAt p th - p.ref)) p.q u a
      = ∑ i, thermalOp nl bend (fun r => p.expA r * p.phi i) (fun r => p.expB r * p.phi i) p.q u a * th i
        + thermalOp nl bend (fun r => p.expA r * (0 - p.ref)) (fun r => p.expB r * (0 - p.ref)) p.q u a := by
  simp only [thermalOp_eq]
  have h : ∀ k : ℝ, ∑ r, (p.expA r * k * dStrain nl bend p.q u (unitDof a) r + p.expB r * k * curvature bend p.q (unitDof a) r)
      = k * ∑ r, (p.expA r * dStrain nl bend p.q u (unitDof a) r + p.expB r * curvature bend p.q (unitDof a) r) := by
    intro k; rw [Finset.mul_sum]; exact Finset.sum_congr rfl fun r _ => by ring
  simp only [h]
  have h2 : ∑ i, p.q.JxW * (p.phi i * ∑ r, (p.expA r * dStrain nl bend p.q u (unitDof a) r + p.expB r * curvature bend p.q (unitDof a) r)) * th i
      = (∑ i, p.phi i * th i) * (p.q.JxW * ∑ r, (p.expA r * dStrain nl bend p.q u (unitDof a) r + p.expB r * curvature bend p.q (unitDof a) r)) := by
    rw [Finset.sum_mul]; exact Finset.sum_congr rfl fun i _ => by ring
  rw [h2, tempAt]
  ring

theorem list_sum_sum {α : Type} (l : List α) (f : α → Fin nt → ℝ) (w : Fin nt → ℝ) : (l.map fun p => ∑ i, f p i * w i).sum = ∑ i, (l.map fun p => f p i).sum * w i := by
  induction l with
  | nil => simp
  | cons a l ih => simp only [List.map_cons, List.sum_cons, ih, add_mul, Finset.sum_add_distrib]

theorem list_sum_add {α : Type} (l : List α) (f g : α → ℝ) : (l.map fun p => f p + g p).sum = (l.map f).sum + (l.map g).sum := by
  induction l with
  | nil => simp
  | cons a l ih => simp only [List.map_cons, List.sum_cons, ih]; ring

theorem vecToGlobal_sum (T : Option (Fin 3 → Fin 3 → ℝ)) (f : Fin nt → Dof n → ℝ) (w : Fin nt → ℝ) (a : Dof n) : vecToGlobal T (fun b => ∑ i, f i b * w i) a = ∑ i, vecToGlobal T (f i) a * w i := by
  cases T with
  | none => rfl
  | some M =>
    simp only [vecToGlobal, Finset.mul_sum, Finset.sum_mul]
    rw [Finset.sum_comm]
    exact Finset.sum_congr rfl fun i _ => Finset.sum_congr rfl fun j _ => by ring

/-- The thermal residual is affine in the nodal temperatures. -/
theorem thermal_affine (e : Elem n nt ns mt X) (th : Fin nt → ℝ) (u : Dof n → ℝ) (a : Dof n) : thermal e th u a = ∑ i, mOf e u a i * th i + thermal e (fun _ => 0) u a := by
  unfold thermal Shell.thermalRes globalRes Shell.thermalLocal mOf
  simp only [List.map_map, Function.comp_def]
  have hneg : ∀ f : Dof n → ℝ, vecToGlobal e.T (fun b => -f b) a = -vecToGlobal e.T f a := by
    intro f; cases e.T with
    | none => rfl
    | some M => simp only [vecToGlobal, mul_neg, Finset.sum_neg_distrib]
  simp only [hneg]
  have h0 : ∀ p : Pt n nt X, tempAt p (fun _ => 0) = 0 := fun p => by simp [tempAt]
  simp only [h0]
  simp only [thermalOp_affine _ _ _ th, list_sum_add, list_sum_sum, vecToGlobal_lin, vecToGlobal_sum, neg_mul, Finset.sum_neg_distrib]
  ring

/-- C179: the matrix of `thermal_residual_temperature_derivative` is the derivative of the thermal residual of the element with respect to the nodal temperatures, for linear and nonlinear strain, with and
without bending, in any frame, if thermal and structural quadrature points are the same. -/
theorem C179_residual_partial (dbg : Bool) (e : Elem n nt ns mt X) (hl : e.load = e.pts) (th w : Fin nt → ℝ) (u : Dof n → ℝ) :
    ∃ m, resTemp dbg e u = .ok m ∧ ∀ a, HasDerivAt (fun t : ℝ => thermal e (fun i => th i + t * w i) u a) (∑ i, m a i * w i) 0 := by
  refine ⟨_, resTemp_eq dbg e hl u, fun a => ?_⟩
  simp only [thermal_affine e (fun i => th i + _ * w i)]
  refine HasDerivAt.add_const _ (HasDerivAt.fun_sum fun i _ => ?_)
  exact ((((hasDerivAt_id' (0:ℝ)).mul_const (w i)).const_add (th i)).const_mul (mOf e u a i)).congr_deriv (by ring)

theorem gather_temp {ι κ : Type} [Fintype ι] [Fintype κ] [DecidableEq κ] (f : ι → κ) (g : ι → ℝ) (w : κ → ℝ) : ∑ j, (∑ i, if f i = j then g i else 0) * w j = ∑ i, g i * w (f i) := by
  simp only [Finset.sum_mul, ite_mul, zero_mul]
  rw [Finset.sum_comm]
  exact Finset.sum_congr rfl fun i _ => by simp

theorem dStrain_diff (nl bend : Bool) (q : Sqp n X) (u : ℝ → Dof n → ℝ) (v : Dof n → ℝ) (hu : ∀ a, HasDerivAt (fun t => u t a) (v a) 0) (z : Dof n → ℝ) (r : Fin 3) :
    DifferentiableAt ℝ (fun t => dStrain nl bend q (u t) z r) 0 := by
  have hx := fun c => (gx_path c q hu).differentiableAt
  have hy := fun c => (gy_path c q hu).differentiableAt
  unfold dStrain
  cases nl with
  | false => simp
  | true =>
    refine (differentiableAt_const _).add ?_
    have h1 : DifferentiableAt ℝ (fun t => quadIn q (u t) z r) 0 := by
      unfold quadIn
      fin_cases r
      · exact ((hx _).mul_const _).add ((hx _).mul_const _)
      · exact ((hy _).mul_const _).add ((hy _).mul_const _)
      · exact (((hx _).mul_const _).add ((hy _).mul_const _)).add (((hx _).mul_const _).add ((hy _).mul_const _))
    have h2 : DifferentiableAt ℝ (fun t => quadOut q (u t) z r) 0 := by
      unfold quadOut
      fin_cases r
      · exact (hx _).mul_const _
      · exact (hy _).mul_const _
      · exact ((hx _).mul_const _).add ((hy _).mul_const _)
    cases bend with
    | false => simpa using h1
    | true => exact h1.add h2

theorem list_diff {α : Type} (l : List α) (f : α → ℝ → ℝ) (h : ∀ x ∈ l, DifferentiableAt ℝ (f x) 0) : DifferentiableAt ℝ (fun t => (l.map fun x => f x t).sum) 0 :=
  (Stress.hasDerivAt_list_sum l f _ 0 fun x hx => (h x hx).hasDerivAt).differentiableAt

theorem local_path (T : Option (Fin 3 → Fin 3 → ℝ)) (u : ℝ → Dof n → ℝ) (v : Dof n → ℝ) (hu : ∀ a, HasDerivAt (fun t => u t a) (v a) 0) (a : Dof n) :
    HasDerivAt (fun t => vecToLocal T (u t) a) (vecToLocal T v a) 0 := by
  cases T with
  | none => exact hu a
  | some M => simp only [vecToLocal]; exact HasDerivAt.fun_sum fun b _ => (hu _).const_mul _

theorem mOf_diff (e : Elem n nt ns mt X) (u : ℝ → Dof n → ℝ) (v : Dof n → ℝ) (hu : ∀ a, HasDerivAt (fun t => u t a) (v a) 0) (a : Dof n) (i : Fin nt) :
    DifferentiableAt ℝ (fun t => mOf e (u t) a i) 0 := by
  unfold mOf
  have hl : ∀ b, DifferentiableAt ℝ (fun t => (e.load.map fun p => thermalOp e.nl e.bend (fun r => p.expA r * p.phi i) (fun r => p.expB r * p.phi i) p.q (vecToLocal e.T (u t)) b).sum) 0 := by
    intro b
    refine list_diff e.load (fun p t => thermalOp e.nl e.bend (fun r => p.expA r * p.phi i) (fun r => p.expB r * p.phi i) p.q (vecToLocal e.T (u t)) b) fun p _ => ?_
    simp only [thermalOp_eq]
    refine DifferentiableAt.const_mul (DifferentiableAt.fun_sum fun r _ => ?_) _
    exact ((dStrain_diff e.nl e.bend p.q _ _ (local_path e.T u v hu) (unitDof b) r).const_mul _).add_const _
  refine DifferentiableAt.fun_neg ?_
  cases hT : e.T with
  | none => rw [hT] at hl; exact hl a
  | some M => rw [hT] at hl; simp only [vecToGlobal]; exact DifferentiableAt.fun_sum fun b _ => (hl _).const_mul _

theorem mul_vanish {f g : ℝ → ℝ} {g' : ℝ} (hf : DifferentiableAt ℝ f 0) (hg : HasDerivAt g g' 0) (h0 : g 0 = 0) : HasDerivAt (fun t => f t * g t) (f 0 * g') 0 :=
  (hf.hasDerivAt.mul hg).congr_deriv (by rw [h0]; ring)

/-- What a change of temperature adds to the rate of the thermal residual along a path. -/
theorem thermal_path (e : Elem n nt ns mt X) (th : ℝ → Fin nt → ℝ) (th' : Fin nt → ℝ) (hth : ∀ i, HasDerivAt (fun t => th t i) (th' i) 0) (u : ℝ → Dof n → ℝ) (v : Dof n → ℝ)
    (hu : ∀ a, HasDerivAt (fun t => u t a) (v a) 0) (a : Dof n) :
    HasDerivAt (fun t => thermal e (th t) (u t) a - thermal e (th 0) (u t) a) (∑ i, mOf e (u 0) a i * th' i) 0 := by
  have h : ∀ t, thermal e (th t) (u t) a - thermal e (th 0) (u t) a = ∑ i, mOf e (u t) a i * (th t i - th 0 i) := by
    intro t
    rw [thermal_affine e (th t), thermal_affine e (th 0)]
    simp only [mul_sub, Finset.sum_sub_distrib]; ring
  simp only [h]
  exact HasDerivAt.fun_sum fun i _ => mul_vanish (mOf_diff e u v hu a i) ((hth i).sub_const _) (by ring)

/-! ### The functional along a path -/

/-- Section points of the evaluated elements. -/
noncomputable def sites (ps : List (List (Elem n nt ns mt X))) : List (Elem n nt ns mt X × Pt n nt X × Fin 2) :=
  (ps.flatten.filter (·.eval)).flatMap fun e => e.pts.flatMap fun p => [0, 1].map fun s => (e, p, s)

/-- Stress at a section point. -/
noncomputable def sig (H : Fin mt → ℝ) (U : Fin ns → ℝ) (x : Elem n nt ns mt X × Pt n nt X × Fin 2) : Stress.Vec6 :=
  to6 (stress x.1.nl x.1.bend x.2.1.q x.2.1.Bz x.2.1.P (if x.1.hot then some ⟨x.2.1.alpha, tempAt x.2.1 (x.1.temps H), x.2.1.ref⟩ else none) x.2.2 (vecToLocal x.1.T (x.1.disp U)))

noncomputable def datum (H : Fin mt → ℝ) (U : Fin ns → ℝ) (x : Elem n nt ns mt X × Pt n nt X × Fin 2) : Stress.Data Unit nt :=
  ⟨sig H U x, fun _ => none, (tempDeriv x.2.1.P.C x.2.1.alpha x.2.1.phi).1, x.2.1.q.JxW / 2⟩

theorem datum_stress (H : Fin mt → ℝ) (U : Fin ns → ℝ) (x : Elem n nt ns mt X × Pt n nt X × Fin 2) : (datum H U x).stress = sig H U x := rfl

theorem data_eq (e : Elem n nt ns mt X) (H : Fin mt → ℝ) (U : Fin ns → ℝ) :
    data e (e.temps H) (e.disp U) = (e.pts.flatMap fun p => [0, 1].map fun s => (e, p, s)).map (datum H U) := by
  simp only [data, List.map_flatMap, List.map_map]
  rfl

theorem points_eq (ps : List (List (Elem n nt ns mt X))) (H : Fin mt → ℝ) (U : Fin ns → ℝ) : Stress.points (world ps H U) = (sites ps).map (datum H U) := by
  unfold Stress.points world sites
  simp only [data_eq]
  have h : (ps.map fun es => (es.filter (·.eval)).map fun e => (e.pts.flatMap fun p => [0, 1].map fun s => (e, p, s)).map (datum H U)).flatten
      = (ps.flatten.filter (·.eval)).map fun e => (e.pts.flatMap fun p => [0, 1].map fun s => (e, p, s)).map (datum H U) := by
    rw [List.filter_flatten, List.map_flatten, List.map_map]; rfl
  rw [h, List.map_flatMap]
  rfl

/-- Rate of the functional for the stress rates `ds`. -/
noncomputable def rate (c : Stress.Coeffs) (int J : ℝ) {α : Type} (L : List α) (s ds : α → Stress.Vec6) (wt : α → ℝ) : ℝ :=
  c.sigma0 / c.p * (int / J) ^ (1 / c.p - 1) * ((L.map fun x => Stress.pnormNum1 c (Stress.vonMises (s x)) (Stress.dVonMises (s x) (ds x)) (wt x)).sum / J
    - int / J ^ 2 * (L.map fun x => Stress.pnormDen1 c (Stress.vonMises (s x)) (Stress.dVonMises (s x) (ds x)) (wt x)).sum)

theorem dVonMises_add (s a b : Stress.Vec6) : Stress.dVonMises s (fun r => a r + b r) = Stress.dVonMises s a + Stress.dVonMises s b := by
  unfold Stress.dVonMises
  split
  · ring
  · simp

theorem num_add (c : Stress.Coeffs) (e a b J : ℝ) : Stress.pnormNum1 c e (a + b) J = Stress.pnormNum1 c e a J + Stress.pnormNum1 c e b J := by
  unfold Stress.pnormNum1
  simp only
  split <;> ring

theorem den_add (c : Stress.Coeffs) (e a b J : ℝ) : Stress.pnormDen1 c e (a + b) J = Stress.pnormDen1 c e a J + Stress.pnormDen1 c e b J := by
  unfold Stress.pnormDen1
  simp only
  split <;> ring

theorem rate_add (c : Stress.Coeffs) (int J : ℝ) {α : Type} (L : List α) (s a b : α → Stress.Vec6) (wt : α → ℝ) :
    rate c int J L s (fun x r => a x r + b x r) wt = rate c int J L s a wt + rate c int J L s b wt := by
  unfold rate
  simp only [dVonMises_add, num_add, den_add, list_sum_add]
  ring

theorem rate_flat (c : Stress.Coeffs) (int J : ℝ) {α β : Type} (L : List β) (f : β → List α) (s ds : α → Stress.Vec6) (wt : α → ℝ) :
    rate c int J (L.flatMap f) s ds wt = (L.map fun b => rate c int J (f b) s ds wt).sum := by
  induction L with
  | nil => simp [rate]
  | cons b L ih =>
    rw [List.flatMap_cons, List.map_cons, List.sum_cons, ← ih]
    unfold rate
    simp only [List.map_append, List.sum_append]
    ring

/-- Sums of the functional. -/
noncomputable def numSum (c : Stress.Coeffs) {α : Type} (L : List α) (s : α → Stress.Vec6) (wt : α → ℝ) : ℝ :=
  (L.map fun x => (Stress.vonMises (s x) / c.sigma0) ^ c.p * Stress.weight c (Stress.vonMises (s x)) * wt x).sum
noncomputable def denSum (c : Stress.Coeffs) {α : Type} (L : List α) (s : α → Stress.Vec6) (wt : α → ℝ) : ℝ := (L.map fun x => Stress.weight c (Stress.vonMises (s x)) * wt x).sum

theorem pn_path (c : Stress.Coeffs) (hp : 1 ≤ c.p) {α : Type} (L : List α) (s : ℝ → α → Stress.Vec6) (ds : α → Stress.Vec6) (wt : α → ℝ)
    (hs : ∀ x ∈ L, ∀ r, HasDerivAt (fun t => s t x r) (ds x r) 0) (hv : ∀ x ∈ L, Stress.vonMises (s 0 x) ≠ 0)
    (hc : ∀ x ∈ L, c.rho * ((Stress.vonMises (s 0 x) - c.sigma0) / c.sigma0) ^ c.q ≠ c.lim) (hJ : 0 < denSum c L (s 0) wt) (hi : 0 < numSum c L (s 0) wt) :
    HasDerivAt (fun t => c.sigma0 * (numSum c L (s t) wt / denSum c L (s t) wt) ^ (1 / c.p)) (rate c (numSum c L (s 0) wt) (denSum c L (s 0) wt) L (s 0) ds wt) 0 := by
  have hvm : ∀ x ∈ L, HasDerivAt (fun t => Stress.vonMises (s t x)) (Stress.dVonMises (s 0 x) (ds x)) 0 := fun x hx => Stress.hasDerivAt_vonMises (hs x hx) (hv x hx)
  have hn := Stress.hasDerivAt_list_sum L (fun x t => (Stress.vonMises (s t x) / c.sigma0) ^ c.p * Stress.weight c (Stress.vonMises (s t x)) * wt x) _ 0
    fun x hx => Stress.hasDerivAt_num c hp (wt x) (hvm x hx) (hc x hx)
  have hd := Stress.hasDerivAt_list_sum L (fun x t => Stress.weight c (Stress.vonMises (s t x)) * wt x) _ 0
    fun x hx => Stress.hasDerivAt_weight c (wt x) (hvm x hx) (hc x hx)
  exact Stress.pnorm_deriv_core c hp (int := fun t => numSum c L (s t) wt) (J := fun t => denSum c L (s t) wt) hn hd hJ.ne' fun h => (div_pos hi hJ).ne' h.1

theorem int_eq (c : Stress.Coeffs) (ps : List (List (Elem n nt ns mt X))) (H : Fin mt → ℝ) (U : Fin ns → ℝ) :
    Stress.pnormInt c (world ps H U) = numSum c (sites ps) (sig H U) fun x => x.2.1.q.JxW / 2 := by
  unfold Stress.pnormInt numSum; rw [Stress.sumAll_flat, points_eq, List.map_map]; rfl
theorem J_eq (c : Stress.Coeffs) (ps : List (List (Elem n nt ns mt X))) (H : Fin mt → ℝ) (U : Fin ns → ℝ) :
    Stress.pnormJ c (world ps H U) = denSum c (sites ps) (sig H U) fun x => x.2.1.q.JxW / 2 := by
  unfold Stress.pnormJ denSum; rw [Stress.sumAll_flat, points_eq, List.map_map]; rfl

theorem regular_sites (c : Stress.Coeffs) (ps : List (List (Elem n nt ns mt X))) (H : Fin mt → ℝ) (U : Fin ns → ℝ) (hR : Regular c (world ps H U)) :
    (∀ x ∈ sites ps, Stress.vonMises (sig H U x) ≠ 0) ∧ (∀ x ∈ sites ps, c.rho * ((Stress.vonMises (sig H U x) - c.sigma0) / c.sigma0) ^ c.q ≠ c.lim)
      ∧ 0 < denSum c (sites ps) (sig H U) (fun x => x.2.1.q.JxW / 2) ∧ 0 < numSum c (sites ps) (sig H U) (fun x => x.2.1.q.JxW / 2) := by
  have hmem : ∀ x ∈ sites ps, datum H U x ∈ Stress.points (world ps H U) := fun x hx => by rw [points_eq]; exact List.mem_map_of_mem hx
  have hJ := Stress.pnormJ_pos c hR.weights
  have hi := Stress.pnormInt_pos c hR.sigma hR.weights (by obtain ⟨d, hd, hp⟩ := hR.weights.pos; exact ⟨d, hd, hp, hR.stressed d hd⟩)
  rw [J_eq] at hJ
  rw [int_eq] at hi
  refine ⟨fun x hx => ?_, fun x hx => ?_, hJ, hi⟩
  · have h := hR.stressed (datum H U x) (hmem x hx)
    rwa [datum_stress] at h
  · have h := hR.cap (datum H U x) (hmem x hx)
    rwa [datum_stress] at h

theorem value_eq (c : Stress.Coeffs) (ps : List (List (Elem n nt ns mt X))) (H : Fin mt → ℝ) (U : Fin ns → ℝ) :
    value c ps H U = c.sigma0 * (numSum c (sites ps) (sig H U) (fun x => x.2.1.q.JxW / 2) / denSum c (sites ps) (sig H U) fun x => x.2.1.q.JxW / 2) ^ (1 / c.p) := by
  unfold value Stress.pnormValue; rw [int_eq, J_eq]

theorem value_path (c : Stress.Coeffs) (ps : List (List (Elem n nt ns mt X))) (H : ℝ → Fin mt → ℝ) (U : ℝ → Fin ns → ℝ) (hR : Regular c (world ps (H 0) (U 0)))
    (ds : Elem n nt ns mt X × Pt n nt X × Fin 2 → Stress.Vec6) (hds : ∀ x ∈ sites ps, ∀ r, HasDerivAt (fun t => sig (H t) (U t) x r) (ds x r) 0) :
    HasDerivAt (fun t => value c ps (H t) (U t))
      (rate c (numSum c (sites ps) (sig (H 0) (U 0)) fun x => x.2.1.q.JxW / 2) (denSum c (sites ps) (sig (H 0) (U 0)) fun x => x.2.1.q.JxW / 2) (sites ps) (sig (H 0) (U 0)) ds fun x => x.2.1.q.JxW / 2) 0 := by
  have h := regular_sites c ps (H 0) (U 0) hR
  have h3 := pn_path c hR.p (sites ps) (fun t => sig (H t) (U t)) ds (fun x => x.2.1.q.JxW / 2) hds h.1 h.2.1 h.2.2.1 h.2.2.2
  exact h3.congr_of_eventuallyEq (Filter.Eventually.of_forall fun t => value_eq c ps (H t) (U t))

/-- Stress rate caused by the displacement. -/
noncomputable def dsU (U U' : Fin ns → ℝ) (x : Elem n nt ns mt X × Pt n nt X × Fin 2) : Stress.Vec6 :=
  to6 fun k => ∑ a, dstress x.1.nl x.1.bend x.2.1.q x.2.1.Bz x.2.1.P x.2.2 (vecToLocal x.1.T (x.1.disp U)) k a * vecToLocal x.1.T (x.1.disp U') a
/-- Stress rate caused by the temperature. -/
noncomputable def dsT (H' : Fin mt → ℝ) (x : Elem n nt ns mt X × Pt n nt X × Fin 2) : Stress.Vec6 :=
  if x.1.hot then fun r => ∑ i, (tempDeriv x.2.1.P.C x.2.1.alpha x.2.1.phi).1 r i * x.1.temps H' i else fun _ => 0

theorem stressDot_temp (nl bend hot : Bool) (p : Pt n nt X) (hB : Scaled p.q p.Bz) (T0 T' : ℝ) (s : Fin 2) (u v : Dof n → ℝ) (k : Fin 3) :
    stressDot nl bend p.q p.Bz p.P (if hot then some ⟨p.alpha, T0, p.ref⟩ else none) ⟨⟨fun _ _ => 0, 0, 0⟩, ⟨0, T', 0⟩⟩ s u v k
      = (if hot then -(p.alpha * Shell.mv p.P.C ![1, 1, 0] k * T') else 0) + ∑ a, dstress nl bend p.q p.Bz p.P s u k a * v a := by
  unfold stressDot
  congr 1
  have hz : ∀ j, explicitStrain bend p.Bz (if hot then some ⟨p.alpha, T0, p.ref⟩ else none) ⟨⟨fun _ _ => 0, 0, 0⟩, ⟨0, T', 0⟩⟩ s u j = if hot then -(p.alpha * T' * (![1, 1, 0] : Fin 3 → ℝ) j) else 0 := by
    intro j
    rw [explicit_eq bend p.q p.Bz hB]
    have h0 : height ⟨fun _ _ => 0, 0, 0⟩ s = 0 := by unfold height; fin_cases s <;> simp
    simp only [h0]
    cases hot <;> fin_cases j <;> simp
  simp only [Shell.mv, hz, zero_mul, Finset.sum_const_zero, add_zero]
  cases hot with
  | false => simp
  | true => simp only [if_true, Finset.mul_sum, Finset.sum_mul, ← Finset.sum_neg_distrib]; exact Finset.sum_congr rfl fun j _ => by ring

theorem to6_add (f g : Fin 3 → ℝ) (r : Fin 6) : to6 (fun k => f k + g k) r = to6 f r + to6 g r := by
  fin_cases r <;> simp [to6]

theorem to6_temp (hot : Bool) (C : Fin 3 → Fin 3 → ℝ) (alpha : ℝ) (phi w : Fin nt → ℝ) (r : Fin 6) :
    to6 (fun k => if hot then -(alpha * Shell.mv C ![1, 1, 0] k * ∑ i, phi i * w i) else 0) r = if hot then ∑ i, (tempDeriv C alpha phi).1 r i * w i else 0 := by
  cases hot with
  | false => fin_cases r <;> simp [to6]
  | true => fin_cases r <;> simp [to6, tempDeriv, Finset.mul_sum, Finset.sum_neg_distrib, mul_assoc]

theorem sig_path (x : Elem n nt ns mt X × Pt n nt X × Fin 2) (hB : Scaled x.2.1.q x.2.1.Bz) (H : ℝ → Fin mt → ℝ) (H' : Fin mt → ℝ) (hH : Rate H H') (U : ℝ → Fin ns → ℝ) (U' : Fin ns → ℝ) (hU : Rate U U') (r : Fin 6) :
    HasDerivAt (fun t => sig (H t) (U t) x r) (dsT H' x r + dsU (U 0) U' x r) 0 := by
  obtain ⟨e, p, s⟩ := x
  have hT : HasDerivAt (fun t => tempAt p (e.temps (H t))) (tempAt p (e.temps H')) 0 := HasDerivAt.fun_sum fun i _ => (hH (e.tmap i)).const_mul (p.phi i)
  have h := (C124_sensitivity e.nl e.bend e.hot p.q p.Bz hB (fun _ => p.P) (fun t => ⟨p.alpha, tempAt p (e.temps (H t)), p.ref⟩) ⟨⟨fun _ _ => 0, 0, 0⟩, ⟨0, tempAt p (e.temps H'), 0⟩⟩
    (fun t => vecToLocal e.T (e.disp (U t))) (vecToLocal e.T (e.disp U')) 0 (fun _ _ => hasDerivAt_const _ _) (hasDerivAt_const _ _) (hasDerivAt_const _ _) (hasDerivAt_const _ _) hT (hasDerivAt_const _ _)
    (local_path e.T _ _ fun a => hU (e.smap a)) s r).1
  refine HasDerivAt.congr_deriv h ?_
  rw [funext (stressDot_temp e.nl e.bend e.hot p hB (tempAt p (e.temps (H 0))) (tempAt p (e.temps H')) s (vecToLocal e.T (e.disp (U 0))) (vecToLocal e.T (e.disp U'))), to6_add]
  congr 1
  have := to6_temp e.hot p.P.C p.alpha p.phi (e.temps H') r
  refine this.trans ?_
  unfold dsT
  dsimp only
  cases e.hot <;> rfl

/-! ### Total derivative -/

theorem rate_zero (c : Stress.Coeffs) (int J : ℝ) {α : Type} (L : List α) (s : α → Stress.Vec6) (wt : α → ℝ) : rate c int J L s (fun _ _ => 0) wt = 0 := by
  have h := rate_add c int J L s (fun _ _ => 0) (fun _ _ => 0) wt
  simp only [add_zero] at h
  linarith

theorem dsT_zero (x : Elem n nt ns mt X × Pt n nt X × Fin 2) : dsT (fun _ => 0) x = fun _ => 0 := by
  unfold dsT Elem.temps
  cases x.1.hot <;> simp

theorem mem_sites {ps : List (List (Elem n nt ns mt X))} {x : Elem n nt ns mt X × Pt n nt X × Fin 2} (hx : x ∈ sites ps) : (∃ es ∈ ps, x.1 ∈ es) ∧ x.1.eval = true ∧ x.2.1 ∈ x.1.pts := by
  unfold sites at hx
  obtain ⟨e, he, hx⟩ := List.mem_flatMap.1 hx
  obtain ⟨p, hp, hx⟩ := List.mem_flatMap.1 hx
  obtain ⟨s, _, rfl⟩ := List.mem_map.1 hx
  have := List.mem_filter.1 he
  exact ⟨List.mem_flatten.1 this.1, this.2, hp⟩

/-- Rate of the functional split into the parts of temperature and displacement. -/
theorem value_total (c : Stress.Coeffs) (ps : List (List (Elem n nt ns mt X))) (hS : Supported ps) (H : ℝ → Fin mt → ℝ) (H' : Fin mt → ℝ) (hH : Rate H H') (U : ℝ → Fin ns → ℝ) (U' : Fin ns → ℝ) (hU : Rate U U')
    (hR : Regular c (world ps (H 0) (U 0))) (g : Fin ns → ℝ) (hg : GradientAt (value c ps (H 0)) g (U 0)) :
    HasDerivAt (fun t => value c ps (H t) (U t))
      (rate c (numSum c (sites ps) (sig (H 0) (U 0)) fun x => x.2.1.q.JxW / 2) (denSum c (sites ps) (sig (H 0) (U 0)) fun x => x.2.1.q.JxW / 2) (sites ps) (sig (H 0) (U 0)) (dsT H') (fun x => x.2.1.q.JxW / 2) + ∑ j, g j * U' j) 0 := by
  have hB : ∀ x ∈ sites ps, Scaled x.2.1.q x.2.1.Bz := fun x hx => by
    obtain ⟨⟨es, hes, he⟩, hev, hp⟩ := mem_sites hx
    exact (hS es hes x.1 he hev).2.2.2 _ hp
  have h1 := value_path c ps H U hR (fun x r => dsT H' x r + dsU (U 0) U' x r) fun x hx r => sig_path x (hB x hx) H H' hH U U' hU r
  rw [rate_add] at h1
  have hline : Rate (fun (s : ℝ) j => U 0 j + s * U' j) U' := fun j => (((hasDerivAt_id' (0:ℝ)).mul_const (U' j)).const_add (U 0 j)).congr_deriv (by ring)
  have h0 : (fun j => U 0 j + (0:ℝ) * U' j) = U 0 := by funext j; ring
  have h2 := value_path c ps (fun _ => H 0) (fun s j => U 0 j + s * U' j) (by rw [h0]; exact hR) (fun x r => dsT (fun _ => 0) x r + dsU (U 0) U' x r) fun x hx r => by
    have := sig_path x (hB x hx) (fun _ => H 0) (fun _ => 0) (fun j => hasDerivAt_const _ _) (fun s j => U 0 j + s * U' j) U' hline r
    simpa only [h0] using this
  rw [h0, rate_add] at h2
  have hz : (dsT (fun _ => 0) : Elem n nt ns mt X × Pt n nt X × Fin 2 → Stress.Vec6) = fun _ _ => 0 := funext dsT_zero
  rw [hz, rate_zero, zero_add] at h2
  rw [← (h2.unique (hg U'))]
  exact h1

theorem gather_list {α ι κ : Type} [Fintype ι] [Fintype κ] [DecidableEq κ] (l : List α) (f : α → ι → κ) (g : α → ι → ℝ) (w : κ → ℝ) :
    ∑ j, (l.map fun e => ∑ i, if f e i = j then g e i else 0).sum * w j = (l.map fun e => ∑ i, g e i * w (f e i)).sum := by
  induction l with
  | nil => simp
  | cons e l ih => simp only [List.map_cons, List.sum_cons, add_mul, Finset.sum_add_distrib, ih, gather_temp]

/-- The residual rate: temperature part on every free degree of freedom. -/
theorem residual_rate (G : (Fin ns → ℝ) → Fin ns → ℝ) (ps : List (List (Elem n nt ns mt X))) (H : ℝ → Fin mt → ℝ) (H' : Fin mt → ℝ) (hH : Rate H H') (U : ℝ → Fin ns → ℝ) (U' : Fin ns → ℝ) (hU : Rate U U')
    (J : Fin ns → Fin ns → ℝ) (hJ : JacobianAt (residual G ps (H 0)) J (U 0)) (i : Fin ns) :
    HasDerivAt (fun t => residual G ps (H t) (U t) i)
      (∑ j, J i j * U' j + ((ps.flatten.filter (·.hot)).map fun e => ∑ a, if e.smap a = i then ∑ k, mOf e (e.disp (U 0)) a k * e.temps H' k else 0).sum) 0 := by
  have h1 := hJ U U' rfl hU i
  have h2 := Stress.hasDerivAt_list_sum (ps.flatten.filter (·.hot))
    (fun e t => ∑ a, if e.smap a = i then thermal e (e.temps (H t)) (e.disp (U t)) a - thermal e (e.temps (H 0)) (e.disp (U t)) a else 0)
    (fun e => ∑ a, if e.smap a = i then ∑ k, mOf e (e.disp (U 0)) a k * e.temps H' k else 0) 0 fun e _ => by
      refine HasDerivAt.fun_sum fun a _ => ?_
      by_cases h : e.smap a = i
      · simp only [h, if_true]
        exact thermal_path e (fun t => e.temps (H t)) (e.temps H') (fun k => hH (e.tmap k)) (fun t => e.disp (U t)) (e.disp U') (fun b => hU (e.smap b)) a
      · simp only [h, if_false]; exact hasDerivAt_const _ _
  refine (h1.add h2).congr_of_eventuallyEq (Filter.Eventually.of_forall fun t => ?_)
  simp only [Pi.add_apply, residual]
  have h3 : ∀ (l : List (Elem n nt ns mt X)), (l.map fun e => ∑ a, if e.smap a = i then thermal e (e.temps (H t)) (e.disp (U t)) a else 0).sum
      = (l.map fun e => ∑ a, if e.smap a = i then thermal e (e.temps (H 0)) (e.disp (U t)) a else 0).sum
        + (l.map fun e => ∑ a, if e.smap a = i then thermal e (e.temps (H t)) (e.disp (U t)) a - thermal e (e.temps (H 0)) (e.disp (U t)) a else 0).sum := by
    intro l
    rw [← list_sum_add]
    congr 1
    refine List.map_congr_left fun e _ => ?_
    rw [← Finset.sum_add_distrib]
    exact Finset.sum_congr rfl fun a _ => by split <;> ring
  rw [h3, add_assoc]

theorem loadRate_eq (H0 H' : Fin mt → ℝ) (U0 lam : Fin ns → ℝ) (e : Elem n nt ns mt X) : loadRate H0 H' U0 lam e = ∑ a, (∑ k, mOf e (e.disp U0) a k * e.temps H' k) * lam (e.smap a) := by
  unfold loadRate
  refine Finset.sum_congr rfl fun a _ => ?_
  have h : HasDerivAt (fun t : ℝ => thermal e (fun i => H0 (e.tmap i) + t * H' (e.tmap i)) (e.disp U0) a) (∑ k, mOf e (e.disp U0) a k * e.temps H' k) 0 := by
    simp only [thermal_affine e (fun i => _ + _ * _)]
    refine HasDerivAt.add_const _ (HasDerivAt.fun_sum fun i _ => ?_)
    exact ((((hasDerivAt_id' (0:ℝ)).mul_const (H' (e.tmap i))).const_add (H0 (e.tmap i))).const_mul (mOf e (e.disp U0) a i)).congr_deriv (by simp [Elem.temps])
  rw [h.deriv]; ring

/-- The displacement part through the adjoint. -/
theorem adjoint_part (C : Fin ns → Bool) (G : (Fin ns → ℝ) → Fin ns → ℝ) (ps : List (List (Elem n nt ns mt X))) (H : ℝ → Fin mt → ℝ) (H' : Fin mt → ℝ) (hH : Rate H H') (U : ℝ → Fin ns → ℝ) (U' : Fin ns → ℝ) (hU : Rate U U')
    (J : Fin ns → Fin ns → ℝ) (hJ : JacobianAt (residual G ps (H 0)) J (U 0)) (hsol : Solved C (residual G ps) H U) (g lam : Fin ns → ℝ) (hadj : AdjointOf C J g lam) :
    ∑ j, g j * U' j = ((ps.flatten.filter (·.hot)).map (loadRate (H 0) H' (U 0) lam)).sum := by
  have hfix : ∀ j, C j = true → U' j = 0 := fun j hj => by
    have h1 := hU j
    have h2 : (fun t => U t j) = fun _ => U 0 j := funext fun t => hsol.fixed t j hj
    rw [h2] at h1
    exact h1.unique (hasDerivAt_const _ _)
  have hfree : ∀ i, lam i * (∑ j, J i j * U' j + ((ps.flatten.filter (·.hot)).map fun e => ∑ a, if e.smap a = i then ∑ k, mOf e (e.disp (U 0)) a k * e.temps H' k else 0).sum) = 0 := by
    intro i
    by_cases hi : C i = true
    · rw [hadj.fixed i hi, zero_mul]
    · have h1 := residual_rate G ps H H' hH U U' hU J hJ i
      have h2 : (fun t => residual G ps (H t) (U t) i) = fun _ => 0 := funext fun t => hsol.equil t i (by simpa using hi)
      rw [h2] at h1
      rw [h1.unique (hasDerivAt_const _ _), mul_zero]
  have hsum := Finset.sum_eq_zero (s := Finset.univ) fun i _ => hfree i
  simp only [mul_add, Finset.sum_add_distrib] at hsum
  have hA : ∑ i, lam i * ∑ j, J i j * U' j = -∑ j, g j * U' j := by
    simp only [Finset.mul_sum]
    rw [Finset.sum_comm, ← Finset.sum_neg_distrib]
    refine Finset.sum_congr rfl fun j _ => ?_
    by_cases hj : C j = true
    · simp [hfix j hj]
    · have := hadj.solves j (by simpa using hj)
      rw [← neg_mul, ← this, Finset.sum_mul]
      exact Finset.sum_congr rfl fun i _ => by ring
  have hB : ∑ i, lam i * ((ps.flatten.filter (·.hot)).map fun e => ∑ a, if e.smap a = i then ∑ k, mOf e (e.disp (U 0)) a k * e.temps H' k else 0).sum
      = ((ps.flatten.filter (·.hot)).map (loadRate (H 0) H' (U 0) lam)).sum := by
    have h := gather_list (ps.flatten.filter (·.hot)) (fun e => e.smap) (fun e a => ∑ k, mOf e (e.disp (U 0)) a k * e.temps H' k) lam
    simp only [mul_comm (lam _)]
    refine h.trans ?_
    congr 1
    exact List.map_congr_left fun e _ => (loadRate_eq (H 0) H' (U 0) lam e).symm
  rw [hA, hB] at hsum
  linarith

/-- The gradient of one element. -/
noncomputable def gE (c : Stress.Coeffs) (int J : ℝ) (H : Fin mt → ℝ) (U lam : Fin ns → ℝ) (e : Elem n nt ns mt X) (i : Fin nt) : ℝ :=
  (Stress.pnormDXElem c int J (data e (e.temps H) (e.disp U))).getD 0 i + ∑ a, e.disp lam a * mOf e (e.disp U) a i

theorem fold_gradient (dbg : Bool) (c : Stress.Coeffs) (Ct : Fin mt → Bool) (int J : ℝ) (h : ¬ (int / J = 0 ∧ 1 / c.p - 1 < 0)) (H : Fin mt → ℝ) (U lam : Fin ns → ℝ) (es : List (Elem n nt ns mt X))
    (hS : ∀ e ∈ es, e.eval = true → e.hot = true ∧ e.surf = true ∧ e.load = e.pts) (q : Fin mt → ℝ) :
    es.foldlM (m := Exec) (step dbg c Ct int J H U lam) (some q)
      = .ok (some fun j => q j + ((es.filter (·.eval)).map fun e => ∑ i, if e.tmap i = j then (if Ct (e.tmap i) then 0 else gE c int J H U lam e i) else 0).sum) := by
  induction es generalizing q with
  | nil => simp; rfl
  | cons e es ih =>
    rw [List.foldlM_cons]
    by_cases he : e.eval = true
    · obtain ⟨h1, h2, h3⟩ := hS e (by simp) he
      have hs : step dbg c Ct int J H U lam (some q) e = .ok (some fun j => q j + ∑ i, if e.tmap i = j then (if Ct (e.tmap i) then 0 else gE c int J H U lam e i) else 0) := by
        obtain ⟨g, hg, _⟩ := Stress.pnormDXElem_dot c int J h (data e (e.temps H) (e.disp U))
        unfold step elemGrad
        simp only [he, h1, h2, if_true, resTemp_eq dbg e h3, hg]
        unfold gE
        rw [hg]
        rfl
      rw [hs]
      refine (ih (fun x hx => hS x (by simp [hx])) _).trans ?_
      congr 2
      funext j
      rw [List.filter_cons, if_pos he, List.map_cons, List.sum_cons]; ring
    · have hs : step dbg c Ct int J H U lam (some q) e = .ok (some q) := by unfold step; rw [if_neg he]; rfl
      rw [hs]
      refine (ih (fun x hx => hS x (by simp [hx])) q).trans ?_
      rw [List.filter_cons, if_neg he]

theorem elem_part (c : Stress.Coeffs) (int J : ℝ) (h : ¬ (int / J = 0 ∧ 1 / c.p - 1 < 0)) (H H' : Fin mt → ℝ) (U lam : Fin ns → ℝ) (e : Elem n nt ns mt X) (hot : e.hot = true) :
    ∑ i, gE c int J H U lam e i * H' (e.tmap i)
      = rate c int J (e.pts.flatMap fun p => [0, 1].map fun s => (e, p, s)) (sig H U) (dsT H') (fun x => x.2.1.q.JxW / 2) + loadRate H H' U lam e := by
  obtain ⟨g, hg, hd⟩ := Stress.pnormDXElem_dot c int J h (data e (e.temps H) (e.disp U))
  unfold gE
  rw [hg, loadRate_eq]
  simp only [Option.getD_some, add_mul, Finset.sum_add_distrib]
  congr 1
  · have h2 := hd (e.temps H')
    simp only [dotProduct] at h2
    refine h2.trans ?_
    unfold rate
    rw [data_eq]
    simp only [List.map_map]
    have hv : ∀ x ∈ (e.pts.flatMap fun p => [0, 1].map fun s => (e, p, s)), Stress.dVonMisesDX (datum H U x) ⬝ᵥ e.temps H' = Stress.dVonMises (sig H U x) (dsT H' x) := by
      intro x hx
      obtain ⟨p, _, hx⟩ := List.mem_flatMap.1 hx
      obtain ⟨s, _, rfl⟩ := List.mem_map.1 hx
      rw [Stress.dVonMisesDX_dot, datum_stress]
      unfold dsT
      simp only [hot, if_true]
      rfl
    congr 3
    · congr 1
      refine List.map_congr_left fun x hx => ?_
      simp only [Function.comp]
      have := hv x hx
      simp only [dotProduct] at this
      rw [this]; rfl
    · congr 1
      refine List.map_congr_left fun x hx => ?_
      simp only [Function.comp]
      have := hv x hx
      simp only [dotProduct] at this
      rw [this]; rfl
  · simp only [Finset.sum_mul]
    rw [Finset.sum_comm]
    exact Finset.sum_congr rfl fun a _ => Finset.sum_congr rfl fun i _ => by simp only [Elem.disp, Elem.temps]; ring

theorem sum_parts (l : List (Elem n nt ns mt X)) (hl : ∀ e ∈ l, e.eval = true → e.hot = true) (f : Elem n nt ns mt X → ℝ) :
    ((l.filter (·.hot)).map f).sum = ((l.filter (·.eval)).map f).sum + ((l.filter fun e => e.hot && !e.eval).map f).sum := by
  induction l with
  | nil => simp
  | cons e l ih =>
    have ih := ih fun x hx => hl x (by simp [hx])
    have he := hl e (by simp)
    simp only [List.filter_cons]
    cases h1 : e.eval <;> cases h2 : e.hot <;> simp_all <;> ring

/-- C179, exact statement: the assembled vector times the temperature rates, plus the thermal loads of the elements that the stress output does not evaluate, is the total derivative of the stress functional along
the solved structural states. -/
theorem C179_exact (dbg : Bool) (c : Stress.Coeffs) (Ct : Fin mt → Bool) (C : Fin ns → Bool) (G : (Fin ns → ℝ) → Fin ns → ℝ) (ps : List (List (Elem n nt ns mt X))) (hS : Supported ps)
    (H : ℝ → Fin mt → ℝ) (H' : Fin mt → ℝ) (hH : Rate H H') (hCt : ∀ j, Ct j = true → H' j = 0) (U : ℝ → Fin ns → ℝ) (U' : Fin ns → ℝ) (hU : Rate U U') (hR : Regular c (world ps (H 0) (U 0)))
    (J : Fin ns → Fin ns → ℝ) (hJ : JacobianAt (residual G ps (H 0)) J (U 0)) (hsol : Solved C (residual G ps) H U)
    (g lam : Fin ns → ℝ) (hg : GradientAt (value c ps (H 0)) g (U 0)) (hadj : AdjointOf C J g lam) :
    ∃ d, gradient dbg c Ct ps (H 0) (U 0) lam = .ok (some d) ∧
      HasDerivAt (fun t => value c ps (H t) (U t)) (∑ j, d j * H' j + unmonitored ps (H 0) H' (U 0) lam) 0 := by
  have hr := regular_sites c ps (H 0) (U 0) hR
  have hne : ¬ (Stress.pnormInt c (world ps (H 0) (U 0)) / Stress.pnormJ c (world ps (H 0) (U 0)) = 0 ∧ 1 / c.p - 1 < 0) := by
    rw [int_eq, J_eq]; exact fun h => (div_pos hr.2.2.2 hr.2.2.1).ne' h.1
  have hS' : ∀ e ∈ ps.flatten, e.eval = true → e.hot = true ∧ e.surf = true ∧ e.load = e.pts := fun e he hev => by
    obtain ⟨es, hes, hm⟩ := List.mem_flatten.1 he
    have := hS es hes e hm hev
    exact ⟨this.1, this.2.1, this.2.2.1⟩
  refine ⟨_, fold_gradient dbg c Ct _ _ hne (H 0) (U 0) lam ps.flatten hS' fun _ => 0, ?_⟩
  have h1 := value_total c ps hS H H' hH U U' hU hR g hg
  rw [adjoint_part C G ps H H' hH U U' hU J hJ hsol g lam hadj, sum_parts _ fun e he hev => (hS' e he hev).1] at h1
  refine h1.congr_deriv ?_
  unfold unmonitored
  rw [← add_assoc]
  congr 1
  simp only [zero_add]
  have h2 := gather_list (ps.flatten.filter (·.eval)) (fun e => e.tmap)
    (fun e i => if Ct (e.tmap i) then 0 else gE c (Stress.pnormInt c (world ps (H 0) (U 0))) (Stress.pnormJ c (world ps (H 0) (U 0))) (H 0) (U 0) lam e i) H'
  rw [h2]
  unfold sites
  rw [rate_flat, ← list_sum_add]
  congr 1
  refine List.map_congr_left fun e he => ?_
  have hm := List.mem_filter.1 he
  have h3 := elem_part c _ _ hne (H 0) H' (U 0) lam e (hS' e hm.1 hm.2).1
  have h4 : ∑ i, (if Ct (e.tmap i) then 0 else gE c (Stress.pnormInt c (world ps (H 0) (U 0))) (Stress.pnormJ c (world ps (H 0) (U 0))) (H 0) (U 0) lam e i) * H' (e.tmap i)
      = ∑ i, gE c (Stress.pnormInt c (world ps (H 0) (U 0))) (Stress.pnormJ c (world ps (H 0) (U 0))) (H 0) (U 0) lam e i * H' (e.tmap i) := by
    refine Finset.sum_congr rfl fun i _ => ?_
    by_cases hc : Ct (e.tmap i) = true
    · rw [hCt _ hc]; simp
    · rw [if_neg hc]
  rw [h4, h3, int_eq, J_eq]
  rfl

/-- C179: if every element with a thermal load is evaluated by the stress output, the assembled vector is the gradient of the stress functional with respect to the temperatures: its product with any rate of
the temperatures is the total derivative of the functional along the solved structural states. -/
theorem C179_total_partial (dbg : Bool) (c : Stress.Coeffs) (Ct : Fin mt → Bool) (C : Fin ns → Bool) (G : (Fin ns → ℝ) → Fin ns → ℝ) (ps : List (List (Elem n nt ns mt X))) (hS : Supported ps)
    (hall : ∀ es ∈ ps, ∀ e ∈ es, e.hot = true → e.eval = true)
    (H : ℝ → Fin mt → ℝ) (H' : Fin mt → ℝ) (hH : Rate H H') (hCt : ∀ j, Ct j = true → H' j = 0) (U : ℝ → Fin ns → ℝ) (U' : Fin ns → ℝ) (hU : Rate U U') (hR : Regular c (world ps (H 0) (U 0)))
    (J : Fin ns → Fin ns → ℝ) (hJ : JacobianAt (residual G ps (H 0)) J (U 0)) (hsol : Solved C (residual G ps) H U)
    (g lam : Fin ns → ℝ) (hg : GradientAt (value c ps (H 0)) g (U 0)) (hadj : AdjointOf C J g lam) :
    ∃ d, gradient dbg c Ct ps (H 0) (U 0) lam = .ok (some d) ∧ HasDerivAt (fun t => value c ps (H t) (U t)) (∑ j, d j * H' j) 0 := by
  obtain ⟨d, h1, h2⟩ := C179_exact dbg c Ct C G ps hS H H' hH hCt U U' hU hR J hJ hsol g lam hg hadj
  refine ⟨d, h1, ?_⟩
  have : unmonitored ps (H 0) H' (U 0) lam = 0 := by
    unfold unmonitored
    rw [List.filter_eq_nil_iff.2]
    · rfl
    · intro e he
      obtain ⟨es, hes, hm⟩ := List.mem_flatten.1 he
      have := hall es hes e hm
      cases h1 : e.hot <;> simp_all
  rwa [this, add_zero] at h2

/-! ### A heated pair of triangles -/

/-- Node 1 moves along x (degree of freedom 1); everything else is clamped (0). -/
def pairMap (a : Dof 3) : Fin 2 := if a = (false, 0, 1) then 1 else 0
noncomputable def pairPt : Pt 3 1 Unit := ⟨Shell.triQp, triBz, unitPlate, 1, 0, fun _ => 1, ![1, 1, 0], fun _ => 0⟩
noncomputable def pairElem (ev : Bool) : Elem 3 1 2 1 Unit := ⟨none, false, false, true, ev, true, [pairPt], [pairPt], pairMap, fun _ => 0⟩
/-- Two processes with one triangle each; the second is evaluated if `ev`. -/
noncomputable def pair (ev : Bool) : List (List (Elem 3 1 2 1 Unit)) := [[pairElem true], [pairElem ev]]
noncomputable def pairC : Stress.Coeffs := ⟨1, 1, 0, 1, 1⟩
/-- A spring on the free degree of freedom. -/
def spring (U : Fin 2 → ℝ) (i : Fin 2) : ℝ := U i

theorem pair_stress (s : Fin 2) (th : ℝ) (U : Fin 2 → ℝ) (ev : Bool) : sig (fun _ => th) U (pairElem ev, pairPt, s) = ![U 1 - U 0 - th, -th, 0, 0, 0, 0] := by
  have hl : linStrain Shell.triQp (fun a => U (pairMap a)) = ![U 1 - U 0, 0, 0] := by
    funext r
    fin_cases r <;> simp [linStrain, Shell.gx, Shell.gy, Shell.triQp, Fin.sum_univ_three, pairMap, Shell.U, Shell.V]
    ring
  have hs : ∀ r, strain false false Shell.triQp triBz unitPlate (some ⟨1, th, 0⟩) s (fun a => U (pairMap a)) r = (![U 1 - U 0 - th, -th, 0] : Fin 3 → ℝ) r := by
    intro r
    rw [strain_eq false false _ _ tri_scaled, layerStrain]
    simp only [Shell.midStrain, hl, curvature]
    fin_cases r <;> simp [expansion]
  have h : sig (fun _ => th) U (pairElem ev, pairPt, s) = to6 (Shell.mv unitPlate.C fun r => strain false false Shell.triQp triBz unitPlate (some ⟨1, th, 0⟩) s (fun a => U (pairMap a)) r) := by
    unfold sig stress
    simp [pairElem, pairPt, tempAt, Elem.temps, vecToLocal]
    rfl
  rw [h]
  simp only [hs]
  funext r
  fin_cases r <;> simp [to6, Shell.mv, unitPlate, Fin.sum_univ_three]

theorem pair_vm (s : Fin 2) (th : ℝ) (U : Fin 2 → ℝ) (ev : Bool) : Stress.vonMises (sig (fun _ => th) U (pairElem ev, pairPt, s)) = Real.sqrt ((U 1 - U 0) ^ 2 - (U 1 - U 0) * th + th ^ 2) := by
  rw [pair_stress, Stress.vonMises_sqrt]
  congr 1
  simp [Stress.vmArg]
  ring

theorem pair_sites (ev : Bool) : sites (pair ev) = [(pairElem true, pairPt, 0), (pairElem true, pairPt, 1)] ++ if ev then [(pairElem true, pairPt, 0), (pairElem true, pairPt, 1)] else [] := by
  cases ev <;> rfl

theorem pair_weight (e : ℝ) : Stress.weight pairC e = 1 := by
  simp [Stress.weight, pairC]

theorem pair_value (ev : Bool) (th : ℝ) (U : Fin 2 → ℝ) : value pairC (pair ev) (fun _ => th) U = Real.sqrt ((U 1 - U 0) ^ 2 - (U 1 - U 0) * th + th ^ 2) := by
  rw [value_eq, pair_sites]
  unfold numSum denSum
  simp only [pair_weight]
  cases ev <;> simp [pair_vm] <;> simp [pairC, pairPt, Shell.triQp] <;> ring

theorem pair_thermal (ev : Bool) (th : ℝ) (u : Dof 3 → ℝ) (a : Dof 3) :
    thermal (pairElem ev) (fun _ => th) u a = -(1 / 2 * (Shell.shape Shell.U ![-1, 1, 0] a * th + Shell.shape Shell.V ![-1, 0, 1] a * th)) := by
  unfold thermal Shell.thermalRes globalRes Shell.thermalLocal
  simp [pairElem, pairPt, tempAt, vecToGlobal, thermalOp, Shell.appT_lin, Shell.triQp]

theorem pair_sum (ev : Bool) (th : ℝ) (u : Dof 3 → ℝ) : (∑ a, if pairMap a = 1 then thermal (pairElem ev) (fun _ => th) u a else 0) = -(th / 2) := by
  rw [Finset.sum_eq_single (false, 0, 1)]
  · rw [pair_thermal]; simp [pairMap, Shell.shape, Shell.U, Shell.V]; ring
  · intro b _ hb; simp [pairMap, hb]
  · intro h; exact absurd (Finset.mem_univ _) h

/-- Everything the theorem asks for, on the pair of triangles at temperature 1 + t. -/
theorem pair_facts (ev : Bool) :
    Supported (pair ev) ∧ Regular pairC (world (pair ev) (fun _ => 1) ![0, 1]) ∧ JacobianAt (residual spring (pair ev) fun _ => 1) (fun i j => if i = j then 1 else 0) ![0, 1]
      ∧ Solved ![true, false] (residual spring (pair ev)) (fun t _ => 1 + t) (fun t => ![0, 1 + t])
      ∧ GradientAt (value pairC (pair ev) fun _ => 1) ![-(1 / 2), 1 / 2] ![0, 1] ∧ AdjointOf ![true, false] (fun i j => if i = j then 1 else 0) ![-(1 / 2), 1 / 2] ![0, -(1 / 2)]
      ∧ Rate (fun (t : ℝ) (_ : Fin 1) => 1 + t) (fun _ => 1) ∧ Rate (fun t : ℝ => (![0, 1 + t] : Fin 2 → ℝ)) ![0, 1]
      ∧ HasDerivAt (fun t => value pairC (pair ev) (fun _ => 1 + t) ![0, 1 + t]) 1 0 := by
  have hres : ∀ (th : ℝ) (U : Fin 2 → ℝ) (i : Fin 2), ∃ k : ℝ, residual spring (pair ev) (fun _ => th) U i = U i + k ∧ ∀ V : Fin 2 → ℝ, residual spring (pair ev) (fun _ => th) V i = V i + k := by
    intro th U i
    have h : ∀ V : Fin 2 → ℝ, residual spring (pair ev) (fun _ => th) V i = V i + ((∑ a, if pairMap a = i then -(1 / 2 * (Shell.shape Shell.U ![-1, 1, 0] a * th + Shell.shape Shell.V ![-1, 0, 1] a * th)) else 0)
        + ∑ a, if pairMap a = i then -(1 / 2 * (Shell.shape Shell.U ![-1, 1, 0] a * th + Shell.shape Shell.V ![-1, 0, 1] a * th)) else 0) := by
      intro V
      have hf : ((pair ev).flatten.filter (·.hot)) = [pairElem true, pairElem ev] := by cases ev <;> rfl
      unfold residual
      rw [hf]
      simp only [List.map_cons, List.map_nil, List.sum_cons, List.sum_nil, add_zero]
      have ht : ∀ e, (pairElem e).temps (fun _ => th) = fun _ => th := fun e => rfl
      simp only [ht, pair_thermal]
      rfl
    exact ⟨_, h U, h⟩
  refine ⟨?_, ?_, ?_, ?_, ?_, ?_, ?_, ?_, ?_⟩
  · intro es hes e he _
    have : e = pairElem true ∨ e = pairElem ev := by
      simp only [pair, List.mem_cons, List.not_mem_nil, or_false] at hes
      rcases hes with rfl | rfl <;> simp_all
    have hk : ∀ b, (pairElem b).hot = true ∧ (pairElem b).surf = true ∧ (pairElem b).load = (pairElem b).pts ∧ ∀ p ∈ (pairElem b).pts, Scaled p.q p.Bz := by
      intro b
      refine ⟨rfl, rfl, rfl, fun p hp => ?_⟩
      rw [List.mem_singleton.1 hp]
      exact tri_scaled
    rcases this with rfl | rfl <;> exact hk _
  · have hp : ∀ d ∈ Stress.points (world (pair ev) (fun _ => 1) ![0, 1]), d.JxW = 1 / 4 ∧ Stress.vonMises d.stress = 1 := by
      intro d hd
      rw [points_eq] at hd
      obtain ⟨x, hx, rfl⟩ := List.mem_map.1 hd
      have hx' : ∃ s, x = (pairElem true, pairPt, s) := by
        rw [pair_sites] at hx
        cases ev <;> simp at hx <;> rcases hx with h | h | h | h <;> first | exact ⟨_, h⟩ | skip
        all_goals simp_all
      obtain ⟨s, rfl⟩ := hx'
      refine ⟨by simp [datum, pairPt, Shell.triQp]; norm_num, ?_⟩
      rw [datum_stress, pair_vm]
      norm_num
    refine ⟨by simp [pairC], by simp [pairC], ⟨fun d hd => ?_, ?_⟩, fun d hd => ?_, fun d hd => ?_⟩
    · rw [(hp d hd).1]; norm_num
    · refine ⟨datum (fun _ => 1) ![0, 1] (pairElem true, pairPt, 0), ?_, by simp [datum, pairPt, Shell.triQp]⟩
      rw [points_eq, pair_sites]; simp
    · simp [pairC]
    · rw [(hp d hd).2]; norm_num
  · intro W W' _ hW i
    obtain ⟨k, _, hk⟩ := hres 1 ![0, 1] i
    simp only [hk]
    refine ((hW i).add_const k).congr_deriv ?_
    simp
  · refine ⟨fun t i hi => ?_, fun t i hi => ?_⟩
    · have h1 : i = 1 := by fin_cases i <;> simp_all
      subst h1
      have hf : ((pair ev).flatten.filter (·.hot)) = [pairElem true, pairElem ev] := by cases ev <;> rfl
      unfold residual
      rw [hf]
      simp only [List.map_cons, List.map_nil, List.sum_cons, List.sum_nil, add_zero]
      have e1 := pair_sum true (1 + t) ((pairElem true).disp ![0, 1 + t])
      have e2 := pair_sum ev (1 + t) ((pairElem ev).disp ![0, 1 + t])
      refine (congrArg₂ (fun x y : ℝ => spring ![0, 1 + t] 1 + (x + y)) e1 e2).trans ?_
      simp [spring]; ring
    · have h1 : i = 0 := by fin_cases i <;> simp_all
      subst h1; rfl
  · intro w
    simp only [pair_value]
    have hx : HasDerivAt (fun s : ℝ => (![0, 1] : Fin 2 → ℝ) 1 + s * w 1 - ((![0, 1] : Fin 2 → ℝ) 0 + s * w 0)) (w 1 - w 0) 0 :=
      ((((hasDerivAt_id' (0:ℝ)).mul_const (w 1)).const_add _).sub (((hasDerivAt_id' (0:ℝ)).mul_const (w 0)).const_add _)).congr_deriv (by ring)
    have h := (((hx.pow 2).sub (hx.mul_const 1)).add_const (1 ^ 2)).sqrt (by simp)
    refine (h.congr_deriv ?_)
    simp [Fin.sum_univ_two]
    ring
  · refine ⟨fun i hi => ?_, fun j hj => ?_⟩
    · have h1 : i = 0 := by fin_cases i <;> simp_all
      subst h1; rfl
    · have h1 : j = 1 := by fin_cases j <;> simp_all
      subst h1; simp [Fin.sum_univ_two]
  · intro j; exact (hasDerivAt_id' (0:ℝ)).const_add 1
  · intro j
    fin_cases j
    · exact hasDerivAt_const _ _
    · exact (hasDerivAt_id' (0:ℝ)).const_add 1
  · simp only [pair_value]
    have h : (fun t : ℝ => Real.sqrt (((![0, 1 + t] : Fin 2 → ℝ) 1 - (![0, 1 + t] : Fin 2 → ℝ) 0) ^ 2 - ((![0, 1 + t] : Fin 2 → ℝ) 1 - (![0, 1 + t] : Fin 2 → ℝ) 0) * (1 + t) + (1 + t) ^ 2)) = fun t => |1 + t| := by
      funext t
      rw [← Real.sqrt_sq_eq_abs]
      congr 1
      simp
      ring
    rw [h]
    have h2 : (fun t : ℝ => |1 + t|) =ᶠ[nhds 0] fun t => 1 + t := by
      filter_upwards [Ioi_mem_nhds (show (-1:ℝ) < 0 by norm_num)] with t ht
      exact abs_of_pos (by simp only [Set.mem_Ioi] at ht; linarith)
    exact ((hasDerivAt_id' (0:ℝ)).const_add 1).congr_of_eventuallyEq h2

/-- A concrete case of the total derivative: both triangles evaluated. -/
example : ∃ d, gradient true pairC (fun _ => false) (pair true) (fun _ => 1) ![0, 1] ![0, -(1 / 2)] = .ok (some d) ∧ d 0 = 1 := by
  obtain ⟨h1, h2, h3, h4, h5, h6, h7, h8, h9⟩ := pair_facts true
  have z : (fun _ : Fin 1 => (1:ℝ) + 0) = fun _ => 1 := by funext; ring
  have z2 : (![0, 1 + 0] : Fin 2 → ℝ) = ![0, 1] := by simp
  obtain ⟨d, hd, hv⟩ := C179_total_partial true pairC (fun _ => false) ![true, false] spring (pair true) h1 (by
      intro es hes e he _
      simp only [pair, List.mem_cons, List.not_mem_nil, or_false, or_self] at hes
      subst hes
      rw [List.mem_singleton.1 he]; rfl)
    (fun t _ => 1 + t) (fun _ => 1) h7 (fun j hj => absurd hj (by simp)) (fun t => ![0, 1 + t]) ![0, 1] h8 (by simp only [z, z2]; exact h2) _ (by simp only [z, z2]; exact h3) h4 _ ![0, -(1 / 2)] (by simp only [z, z2]; exact h5) h6
  simp only [z, z2] at hd
  refine ⟨d, hd, ?_⟩
  have := hv.unique h9
  simpa using this

/-- C179 fails if the stress is monitored on a part of the heated structure only: here on the first of two triangles.  The assembled gradient is 3/4, the derivative of the monitored stress along the solved states is 1:
the thermal load of the other triangle moves the shared node, and this is left out. -/
theorem C179_unmonitored_fails : ∃ d, gradient true pairC (fun _ => false) (pair false) (fun _ => 1) ![0, 1] ![0, -(1 / 2)] = .ok (some d)
    ∧ Supported (pair false) ∧ Regular pairC (world (pair false) (fun _ => 1) ![0, 1]) ∧ JacobianAt (residual spring (pair false) fun _ => 1) (fun i j => if i = j then 1 else 0) ![0, 1]
    ∧ Solved ![true, false] (residual spring (pair false)) (fun t _ => 1 + t) (fun t => ![0, 1 + t])
    ∧ GradientAt (value pairC (pair false) fun _ => 1) ![-(1 / 2), 1 / 2] ![0, 1] ∧ AdjointOf ![true, false] (fun i j => if i = j then 1 else 0) ![-(1 / 2), 1 / 2] ![0, -(1 / 2)]
    ∧ HasDerivAt (fun t => value pairC (pair false) (fun _ => 1 + t) ![0, 1 + t]) 1 0 ∧ d 0 = 3 / 4 := by
  obtain ⟨h1, h2, h3, h4, h5, h6, h7, h8, h9⟩ := pair_facts false
  have z : (fun _ : Fin 1 => (1:ℝ) + 0) = fun _ => 1 := by funext; ring
  have z2 : (![0, 1 + 0] : Fin 2 → ℝ) = ![0, 1] := by simp
  obtain ⟨d, hd, hv⟩ := C179_exact true pairC (fun _ => false) ![true, false] spring (pair false) h1
    (fun t _ => 1 + t) (fun _ => 1) h7 (fun j hj => absurd hj (by simp)) (fun t => ![0, 1 + t]) ![0, 1] h8 (by simp only [z, z2]; exact h2) _ (by simp only [z, z2]; exact h3) h4 _ ![0, -(1 / 2)] (by simp only [z, z2]; exact h5) h6
  simp only [z, z2] at hd hv
  refine ⟨d, hd, h1, h2, h3, h4, h5, h6, h9, ?_⟩
  have h10 := hv.unique h9
  have h11 : unmonitored (pair false) (fun _ => 1) (fun _ => 1) ![0, 1] ![0, -(1 / 2)] = 1 / 4 := by
    have hf : ((pair false).flatten.filter fun e => e.hot && !e.eval) = [pairElem false] := rfl
    unfold unmonitored
    rw [hf]
    simp only [List.map_cons, List.map_nil, List.sum_cons, List.sum_nil, add_zero]
    unfold loadRate
    rw [Finset.sum_eq_single (false, 0, 1)]
    · have hd : HasDerivAt (fun t : ℝ => thermal (pairElem false) (fun i => (fun _ : Fin 1 => (1:ℝ)) ((pairElem false).tmap i) + t * (fun _ : Fin 1 => (1:ℝ)) ((pairElem false).tmap i)) ((pairElem false).disp ![0, 1]) (false, 0, 1)) (-(1 / 2)) 0 := by
        have : (fun t : ℝ => thermal (pairElem false) (fun i => (fun _ : Fin 1 => (1:ℝ)) ((pairElem false).tmap i) + t * (fun _ : Fin 1 => (1:ℝ)) ((pairElem false).tmap i)) ((pairElem false).disp ![0, 1]) (false, 0, 1)) = fun t => -(1 / 2 * (1 + t)) := by
          funext t
          refine (pair_thermal false (1 + t * 1) _ _).trans ?_
          simp [Shell.shape, Shell.U, Shell.V]
        rw [this]
        exact (((hasDerivAt_id' (0:ℝ)).const_add 1).const_mul (1 / 2)).neg.congr_deriv (by ring)
      rw [hd.deriv]
      simp [pairElem, pairMap]
      norm_num
    · intro b _ hb
      have : (pairElem false).smap b = 0 := by simp [pairElem, pairMap, hb]
      rw [this]; simp
    · intro h; exact absurd (Finset.mem_univ _) h
  rw [h11] at h10
  simp at h10
  linarith

/-! ### Configurations that stop or are undefined -/

theorem fold_never {α β : Type} (f : β → α → Exec β) (l : List α) (e : α) (he : e ∈ l) (h : ∀ q r, f q e ≠ .ok r) (q r : β) : l.foldlM (m := Exec) f q ≠ .ok r := by
  induction l generalizing q with
  | nil => simp at he
  | cons a l ih =>
    rw [List.foldlM_cons]
    cases hq : f q a with
    | error x => intro h2; cases h2
    | ok q' =>
      rcases List.mem_cons.1 he with rfl | he
      · exact absurd hq (h q q')
      · exact ih he q'

theorem step_error (dbg : Bool) (c : Stress.Coeffs) (Ct : Fin mt → Bool) (int J : ℝ) (H : Fin mt → ℝ) (U lam : Fin ns → ℝ) (e : Elem n nt ns mt X) (he : e.eval = true)
    (h : ∃ x, elemGrad dbg c int J H U lam e = .error x) (q r : Option (Fin mt → ℝ)) : step dbg c Ct int J H U lam q e ≠ .ok r := by
  obtain ⟨x, hx⟩ := h
  unfold step
  rw [if_pos he, hx]
  intro h; cases h

/-- C179 fails for an evaluated element without a thermal load: the derivative data read for it was written for another set of unknowns (or never), whatever the rest of the model. -/
theorem C179_cold_fails (dbg : Bool) (c : Stress.Coeffs) (Ct : Fin mt → Bool) (ps : List (List (Elem n nt ns mt X))) (H : Fin mt → ℝ) (U lam : Fin ns → ℝ) (e : Elem n nt ns mt X) (he : e ∈ ps.flatten)
    (h1 : e.eval = true) (h2 : e.hot = false) (h3 : e.pts ≠ []) : (∀ int J, elemGrad dbg c int J H U lam e = .error .ub) ∧ ∀ r, gradient dbg c Ct ps H U lam ≠ .ok r := by
  have h : ∀ int J, elemGrad dbg c int J H U lam e = .error .ub := by
    intro int J
    have : e.pts.isEmpty = false := by simpa using h3
    simp [elemGrad, h1, h2, this]
  exact ⟨h, fun r => fold_never _ _ e he (fun q r => step_error dbg c Ct _ _ H U lam e h1 ⟨_, h _ _⟩ q r) _ r⟩

/-- C179 fails for line and solid elements: the call stops. -/
theorem C179_not_implemented_fails (dbg : Bool) (c : Stress.Coeffs) (Ct : Fin mt → Bool) (ps : List (List (Elem n nt ns mt X))) (H : Fin mt → ℝ) (U lam : Fin ns → ℝ) (e : Elem n nt ns mt X) (he : e ∈ ps.flatten)
    (h1 : e.eval = true) (h2 : e.hot = true) (h3 : e.surf = false) : (∀ int J, elemGrad dbg c int J H U lam e = .error .error) ∧ ∀ r, gradient dbg c Ct ps H U lam ≠ .ok r := by
  have h : ∀ int J, elemGrad dbg c int J H U lam e = .error .error := by
    intro int J; simp [elemGrad, h1, h2, h3]
  exact ⟨h, fun r => fold_never _ _ e he (fun q r => step_error dbg c Ct _ _ H U lam e h1 ⟨_, h _ _⟩ q r) _ r⟩

/-- C179 fails in debug builds for a bending operator that needs a higher quadrature order: the two rules have different numbers of points. -/
theorem C179_extra_order_fails (c : Stress.Coeffs) (Ct : Fin mt → Bool) (ps : List (List (Elem n nt ns mt X))) (H : Fin mt → ℝ) (U lam : Fin ns → ℝ) (e : Elem n nt ns mt X) (he : e ∈ ps.flatten)
    (h1 : e.eval = true) (h2 : e.hot = true) (h3 : e.surf = true) (h4 : e.load.length ≠ e.pts.length) :
    (∀ int J, elemGrad true c int J H U lam e = .error .assertFail) ∧ ∀ r, gradient true c Ct ps H U lam ≠ .ok r := by
  have h : ∀ int J, elemGrad true c int J H U lam e = .error .assertFail := by
    intro int J
    have hr : resTemp true e (e.disp U) = .error .assertFail := by unfold resTemp; rw [if_pos (by simpa using h4)]
    simp only [elemGrad, h1, h2, h3, if_true, hr]; rfl
  exact ⟨h, fun r => fold_never _ _ e he (fun q r => step_error true c Ct _ _ H U lam e h1 ⟨_, h _ _⟩ q r) _ r⟩

/-- A plate whose thermal bending load needs two points of weight 1/4: curvature operator `k` at node 1 about y. -/
noncomputable def bendPt (w k : ℝ) : Pt 3 1 Unit :=
  ⟨⟨(), w, fun _ => 1 / 3, ![-1, 1, 0], ![-1, 0, 1], fun r a => if r = 0 ∧ a = (true, 1, 1) then k else 0⟩, fun z r a => z * if r = 0 ∧ a = (true, 1, 1) then k else 0, unitPlate, 1, 0, fun _ => 1, fun _ => 0, ![1, 0, 0]⟩
noncomputable def bendElem : Elem 3 1 2 1 Unit := ⟨none, false, true, true, true, true, [bendPt (1 / 2) 0], [bendPt (1 / 4) 0, bendPt (1 / 4) 1], pairMap, fun _ => 0⟩

/-- C179 fails in release builds for such an element: the operators of the first structural point are combined with the weight of the only thermal point, the second structural point is never read; the derivative
of the thermal residual is -1/4, the matrix entry is 0. -/
theorem C179_mixed_points_fails : ∃ m, resTemp false bendElem (fun _ => 0) = .ok m ∧ m (true, 1, 1) 0 = 0
    ∧ HasDerivAt (fun t : ℝ => thermal bendElem (fun _ => t) (fun _ => 0) (true, 1, 1)) (-(1 / 4)) 0 := by
  refine ⟨_, rfl, ?_, ?_⟩
  · simp [bendElem, bendPt, pointM, vecToGlobal, rmt, Blin, Shell.shape, Shell.U, Shell.V, Fin.sum_univ_three]
  · have h : (fun t : ℝ => thermal bendElem (fun _ => t) (fun _ => 0) (true, 1, 1)) = fun t => -(1 / 4 * t) := by
      funext t
      unfold thermal Shell.thermalRes globalRes Shell.thermalLocal
      simp [bendElem, bendPt, tempAt, vecToGlobal, thermalOp, appT, Fin.sum_univ_three, Blin, Shell.shape, Shell.U, Shell.V]
    rw [h]
    exact ((hasDerivAt_id' (0:ℝ)).const_mul (1 / 4)).neg.congr_deriv (by ring)

/-- Non-vacuity of `C179_residual_partial`: both rules of the triangle are the same. -/
example : (pairElem true).load = (pairElem true).pts := rfl
/-- Non-vacuity of `C179_extra_order_fails`. -/
example : bendElem ∈ [[bendElem]].flatten ∧ bendElem.eval = true ∧ bendElem.hot = true ∧ bendElem.surf = true ∧ bendElem.load.length ≠ bendElem.pts.length :=
  ⟨by simp, rfl, rfl, rfl, by decide⟩
/-- Non-vacuity of `C179_cold_fails`, `C179_not_implemented_fails`: the triangle without a thermal load, and the same data on a line element. -/
example : ({ pairElem true with hot := false } : Elem 3 1 2 1 Unit).pts ≠ [] ∧ ({ pairElem true with hot := false } : Elem 3 1 2 1 Unit).eval = true
    ∧ ({ pairElem true with surf := false } : Elem 3 1 2 1 Unit).hot = true := ⟨by simp [pairElem], rfl, rfl⟩

end Verif.ThermAdj
