import Verif.Model.ShiftTrac
import Verif.Props.ShellTangent
import Mathlib.Tactic.NormNum
/-
  C169: meaning of the shifted boundary traction.  C170: its Jacobian and its parameter derivative.
-/
namespace Verif.ShiftTrac
open Verif.GeomElem Verif.StructLoads
open Verif.Shell (Sqp shape U V W app appT mv Blin strainMem sum_shape unitDof sum_unit zero_line list_sum_apply gx gy linStrain)

variable {n : Nat}

/-! ### Specification -/
section Spec

/-- Plane stress tensor with the components xx, yy, xy. -/
def tensor (s : Fin 3 → ℝ) : Fin 2 → Fin 2 → ℝ := ![![s 0, s 2], ![s 2, s 1]]
/-- Traction of a stress on a surface with normal `m`. -/
def tractionOf (s : Fin 3 → ℝ) (m : V3) (k : Fin 2) : ℝ := ∑ j, tensor s k j * m (xy j)
/-- Stress of the linear strain `u,x ; v,y ; v,x + u,y` for a stiffness and gradients of the shape functions. -/
def linStress (C : Fin 3 → Fin 3 → ℝ) (q : Sqp n V3) (u : Dof n → ℝ) (r : Fin 3) : ℝ := ∑ s, C r s * linStrain q u s

/-- A point with the shape function gradients reached from `b` along `z` when the second derivatives are constant (any point of an element of at most quadratic shape functions with affine map). -/
def reached (b : Bqp n) (z : Fin 2 → ℝ) : Sqp n V3 := { b.q with dx := fun a => b.q.dx a + ∑ i, b.d2 0 i a * z i, dy := fun a => b.q.dy a + ∑ i, b.d2 1 i a * z i }

/-- Nodal forces of a side force with two components, in the global frame. -/
def sideForce (T : Option (Fin 3 → Fin 3 → ℝ)) (pts : List (Bqp n)) (h : V3 → ℝ) (F : Bqp n → Fin 2 → ℝ) (a : Dof n) : ℝ :=
  vecToGlobal T (fun c => (pts.map fun b => h b.q.x * b.q.JxW * (b.q.phi c.2.2 * (if c.1 then 0 else (![F b 0, F b 1, 0] : V3) c.2.1))).sum) a
end Spec

/-! ### Operators -/

theorem app_lin (q : Sqp n V3) (u : Dof n → ℝ) : app (Blin q) u = linStrain q u := by
  funext r
  fin_cases r
  · simp [app, Blin, linStrain, gx, sum_shape]
  · simp [app, Blin, linStrain, gy, sum_shape]
  · simp [app, Blin, linStrain, gx, gy, sum_shape, add_mul, Finset.sum_add_distrib]

theorem top_eq (F : Fin 2 → ℝ) (c : Bool) (k : Fin 3) : top F (c, k) = if c then 0 else (![F 0, F 1, 0] : V3) k := by
  cases c
  · fin_cases k <;> simp [top]
  · simp [top]

/-- Second derivative of an interpolated variable. -/
def g2 (v : Var6) (b : Bqp n) (k i : Fin 2) (u : Dof n → ℝ) : ℝ := ∑ a, b.d2 k i a * u (v.1, v.2, a)

theorem app_dB (b : Bqp n) (i : Fin 2) (u : Dof n → ℝ) : app (dB b i) u = ![g2 U b 0 i u, g2 V b 1 i u, g2 V b 0 i u + g2 U b 1 i u] := by
  funext r
  fin_cases r
  · simp [app, dB, g2, sum_shape]
  · simp [app, dB, g2, sum_shape]
  · simp [app, dB, g2, sum_shape, add_mul, Finset.sum_add_distrib]

theorem gx_reached (v : Var6) (b : Bqp n) (z : Fin 2 → ℝ) (u : Dof n → ℝ) : gx v (reached b z) u = gx v b.q u + ∑ i, g2 v b 0 i u * z i := by
  simp only [gx, g2, reached, add_mul, Finset.sum_add_distrib, Finset.sum_mul]
  congr 1
  rw [Finset.sum_comm]
  exact Finset.sum_congr rfl fun _ _ => Finset.sum_congr rfl fun _ _ => by ring
theorem gy_reached (v : Var6) (b : Bqp n) (z : Fin 2 → ℝ) (u : Dof n → ℝ) : gy v (reached b z) u = gy v b.q u + ∑ i, g2 v b 1 i u * z i := by
  simp only [gy, g2, reached, add_mul, Finset.sum_add_distrib, Finset.sum_mul]
  congr 1
  rw [Finset.sum_comm]
  exact Finset.sum_congr rfl fun _ _ => Finset.sum_congr rfl fun _ _ => by ring

theorem strain_reached (b : Bqp n) (z : Fin 2 → ℝ) (u : Dof n → ℝ) (r : Fin 3) : linStrain (reached b z) u r = linStrain b.q u r + ∑ i, app (dB b i) u r * z i := by
  simp only [app_dB, linStrain, gx_reached, gy_reached]
  fin_cases r
  · rfl
  · rfl
  · simp [Fin.sum_univ_two]; ring

theorem stress_reached (C : Fin 3 → Fin 3 → ℝ) (b : Bqp n) (z : Fin 2 → ℝ) (u : Dof n → ℝ) (r : Fin 3) : linStress C (reached b z) u r = linStress C b.q u r + ∑ i, stressGrad C b u i r * z i := by
  simp only [linStress, strain_reached, stressGrad, mv, mul_add, Finset.sum_add_distrib, Finset.sum_mul, Finset.mul_sum]
  congr 1
  rw [Finset.sum_comm]
  exact Finset.sum_congr rfl fun _ _ => Finset.sum_congr rfl fun _ _ => by ring

/-! ### C169 -/

/-- C169: the normal matrix turns stress components into the traction on a surface. -/
theorem C169_normal (m : V3) (s : Fin 3 → ℝ) (k : Fin 2) : mv (voigtN m) s k = tractionOf s m k := by
  fin_cases k <;> simp [mv, voigtN, tractionOf, tensor, xy, Fin.sum_univ_three, Fin.sum_univ_two] <;> ring

/-- C169: the stress gradient is the derivative of the (linear strain) stress: along any path of points whose shape function gradients change with the second derivatives. -/
theorem C169_gradient (C : Fin 3 → Fin 3 → ℝ) (b : Bqp n) (u : Dof n → ℝ) (z : Fin 2 → ℝ) (Q : ℝ → Sqp n V3) (h0 : Q 0 = b.q)
    (hx : ∀ a, HasDerivAt (fun t => (Q t).dx a) (∑ i, b.d2 0 i a * z i) 0) (hy : ∀ a, HasDerivAt (fun t => (Q t).dy a) (∑ i, b.d2 1 i a * z i) 0) (r : Fin 3) :
    linStress C (Q 0) u r = stress false C b u r ∧ HasDerivAt (fun t => linStress C (Q t) u r) (∑ i, stressGrad C b u i r * z i) 0 := by
  constructor
  · simp [stress, linStress, mv, strainMem, app_lin, h0]
  · have gX : ∀ v : Var6, HasDerivAt (fun t => gx v (Q t) u) (∑ i, g2 v b 0 i u * z i) 0 := by
      intro v
      refine HasDerivAt.congr_deriv (HasDerivAt.fun_sum fun a _ => (hx a).mul_const _) ?_
      simp only [g2, Finset.sum_mul]
      rw [Finset.sum_comm]
      exact Finset.sum_congr rfl fun _ _ => Finset.sum_congr rfl fun _ _ => by ring
    have gY : ∀ v : Var6, HasDerivAt (fun t => gy v (Q t) u) (∑ i, g2 v b 1 i u * z i) 0 := by
      intro v
      refine HasDerivAt.congr_deriv (HasDerivAt.fun_sum fun a _ => (hy a).mul_const _) ?_
      simp only [g2, Finset.sum_mul]
      rw [Finset.sum_comm]
      exact Finset.sum_congr rfl fun _ _ => Finset.sum_congr rfl fun _ _ => by ring
    have hl : ∀ s, HasDerivAt (fun t => linStrain (Q t) u s) (∑ i, app (dB b i) u s * z i) 0 := by
      intro s
      simp only [app_dB, linStrain]
      fin_cases s
      · exact gX U
      · exact gY V
      · refine HasDerivAt.congr_deriv ((gX V).fun_add (gY U)) ?_
        simp [Fin.sum_univ_two]; ring
    refine HasDerivAt.congr_deriv (HasDerivAt.fun_sum fun s _ => (hl s).const_mul _) ?_
    simp only [stressGrad, mv, Finset.sum_mul, Finset.mul_sum]
    rw [Finset.sum_comm]
    exact Finset.sum_congr rfl fun _ _ => Finset.sum_congr rfl fun _ _ => by ring

/-- Tractions are linear in the stress and in the normal. -/
theorem tractionOf_add (s r : Fin 3 → ℝ) (m : V3) (k : Fin 2) : tractionOf (fun j => s j + r j) m k = tractionOf s m k + tractionOf r m k := by
  fin_cases k <;> simp [tractionOf, tensor, Fin.sum_univ_two] <;> ring
theorem tractionOf_sub (s : Fin 3 → ℝ) (m p : V3) (k : Fin 2) : tractionOf s (fun j => m j - p j) k = tractionOf s m k - tractionOf s p k := by
  fin_cases k <;> simp [tractionOf, tensor, Fin.sum_univ_two] <;> ring
theorem tractionOf_sum (s : Fin 2 → Fin 3 → ℝ) (z : Fin 2 → ℝ) (m : V3) (k : Fin 2) : ∑ i, tractionOf (s i) m k * z i = tractionOf (fun j => ∑ i, s i j * z i) m k := by
  fin_cases k <;> simp [tractionOf, tensor, Fin.sum_univ_two] <;> ring

/-- C169: force on the side for linear strain: the traction given on the interface, plus the traction of the stress at the side on the side, minus the traction on the interface of the stress
extrapolated to the interface point. -/
theorem C169_force (D : Data) (b : Bqp n) (u : Dof n → ℝ) (k : Fin 2) :
    force false D b u k = D.trac (D.bnd b.q.x) (xy k) + tractionOf (linStress (D.C b.q.x) b.q u) b.face k
      - tractionOf (linStress (D.C b.q.x) (reached b fun i => D.bnd b.q.x (xy i) - b.q.x (xy i)) u) (D.normal (D.bnd b.q.x)) k := by
  have hs : stress false (D.C b.q.x) b u = linStress (D.C b.q.x) b.q u := by
    funext r; simp [stress, linStress, mv, strainMem, app_lin]
  have hr : linStress (D.C b.q.x) (reached b (gap D b)) u = fun r => linStress (D.C b.q.x) b.q u r + ∑ i, stressGrad (D.C b.q.x) b u i r * gap D b i := funext fun r => stress_reached _ _ _ _ _
  show force false D b u k = D.trac (D.bnd b.q.x) (xy k) + tractionOf (linStress (D.C b.q.x) b.q u) b.face k - tractionOf (linStress (D.C b.q.x) (reached b (gap D b)) u) (nrm D b) k
  rw [hr, tractionOf_add, ← tractionOf_sum]
  simp only [force, C169_normal, hs, tractionOf_sub]
  ring

theorem localRes_eq (nl : Bool) (D : Data) (pts : List (Bqp n)) (u : Dof n → ℝ) (T : Option (Fin 3 → Fin 3 → ℝ)) (a : Dof n) : vecToGlobal T (localRes nl D pts u) a = sideForce T pts D.h (fun b => force nl D b u) a := by
  unfold sideForce
  congr 1
  funext c
  unfold localRes
  congr 1
  refine List.map_congr_left fun b _ => ?_
  rw [top_eq]

/-- C169: where the extrapolated stress satisfies the traction condition on the interface, what is added to the residual is the nodal force of the stress of the element on its own side: the side then
imposes nothing further. -/
theorem C169_equilibrium (D : Data) (T : Option (Fin 3 → Fin 3 → ℝ)) (pts : List (Bqp n)) (u : Dof n → ℝ)
    (h : ∀ b ∈ pts, ∀ k, tractionOf (linStress (D.C b.q.x) (reached b fun i => D.bnd b.q.x (xy i) - b.q.x (xy i)) (vecToLocal T u)) (D.normal (D.bnd b.q.x)) k = D.trac (D.bnd b.q.x) (xy k)) (a : Dof n) :
    residual false T D pts u a = -sideForce T pts D.h (fun b => tractionOf (linStress (D.C b.q.x) b.q (vecToLocal T u)) b.face) a := by
  rw [residual, localRes_eq]
  congr 1
  unfold sideForce
  congr 1
  funext c
  congr 1
  refine List.map_congr_left fun b hb => ?_
  simp only [C169_force, h b hb]
  have e : ∀ x y : ℝ, x + y - x = y := fun x y => by ring
  simp only [e]

/-- C169: where the side lies on the interface (nearest point and normal are its own) the routine adds the ordinary traction of `surface_traction_residual` for the in-plane part of the traction, for either
strain, and nothing to the Jacobian. -/
theorem C169_exact (nl : Bool) (D : Data) (T : Option (Fin 3 → Fin 3 → ℝ)) (pts : List (Bqp n)) (u : Dof n → ℝ) (dh : V3 → ℝ) (dt : V3 → V3)
    (hb : ∀ b ∈ pts, D.bnd b.q.x = b.q.x) (hn : ∀ b ∈ pts, D.normal b.q.x = b.face) (a c : Dof n) :
    residual nl T D pts u a = traction T ⟨D.h, dh⟩ ⟨fun x => ![D.trac x 0, D.trac x 1, 0], dt⟩ (pts.map fun b => ⟨b.q.x, b.q.JxW, b.q.phi, b.face⟩) a ∧ jacobian T D pts a c = 0 := by
  have hg : ∀ b ∈ pts, ∀ i, gap D b i = 0 := fun b m i => by simp [gap, hb b m]
  have hz : ∀ b ∈ pts, (fun j => b.face j - nrm D b j) = fun _ => 0 := fun b m => by funext j; simp [nrm, hb b m, hn b m]
  have hv : voigtN (fun _ => (0:ℝ)) = fun _ _ => 0 := by funext k r; fin_cases k <;> fin_cases r <;> rfl
  constructor
  · rw [residual, localRes_eq]
    unfold traction external
    congr 1
    unfold sideForce
    congr 1
    funext e
    unfold nodalForce
    rw [List.map_map]
    congr 1
    refine List.map_congr_left fun b m => ?_
    have hF : ∀ k, force nl D b (vecToLocal T u) k = D.trac b.q.x (xy k) := fun k => by
      simp only [force, hz b m, hg b m, hv, mv, hb b m, zero_mul, mul_zero, Finset.sum_const_zero, add_zero, sub_zero]
    simp only [hF, Function.comp_apply]
    obtain ⟨r, k, i⟩ := e
    cases r
    · fin_cases k <;> simp [xy] <;> ring
    · simp
  · unfold jacobian
    have hl : localJac D pts = fun _ _ => 0 := by
      funext p q
      unfold localJac
      refine List.sum_eq_zero fun y hy => ?_
      obtain ⟨b, m, rfl⟩ := List.mem_map.1 hy
      have hF : (fun k => forceJac D b k q) = fun _ => 0 := by
        funext k
        simp only [forceJac, hz b m, hg b m, hv, zero_mul, Finset.sum_const_zero, sub_zero]
      rw [hF]
      simp [top]
    rw [hl]
    cases T <;> simp [matToGlobal]

/-! ### An example: a side of a square element, bilinear shape functions -/

/-- Middle of the side x = 1 of the unit square, four nodes. -/
noncomputable def side : Bqp 4 :=
  ⟨⟨![1, 1 / 2, 0], 1, ![0, 1 / 2, 1 / 2, 0], ![-1 / 2, 1 / 2, 1 / 2, -1 / 2], ![0, -1, 1, 0], fun _ _ => 0⟩, ![![fun _ => 0, ![1, -1, 1, -1]], ![![1, -1, 1, -1], fun _ => 0]], ![1, 0, 0]⟩

/-- Interface x = 5/4 with normal x and unit stiffness: nearest points (5/4, y), traction along x growing with x. -/
noncomputable def iface : Data := ⟨fun x => ![5 / 4, x 1, 0], fun x => ![x 0, 0, 0], fun _ => ![1, 0, 0], fun _ => 1, fun _ r s => if r = s then 1 else 0⟩

/-- Uniform stretch along x with strain 5/4: meets the traction condition on the interface. -/
noncomputable def stretch (a : Dof 4) : ℝ := if a.1 = false ∧ a.2.1 = 0 then 5 / 4 * (![0, 1, 1, 0] : Fin 4 → ℝ) a.2.2 else 0

example : ∀ b ∈ [side], ∀ k, tractionOf (linStress (iface.C b.q.x) (reached b fun i => iface.bnd b.q.x (xy i) - b.q.x (xy i)) (vecToLocal none stretch)) (iface.normal (iface.bnd b.q.x)) k = iface.trac (iface.bnd b.q.x) (xy k) := by
  intro b hb k
  simp only [List.mem_singleton] at hb
  subst hb
  fin_cases k <;> simp [tractionOf, tensor, linStress, linStrain, gx, gy, reached, side, iface, xy, vecToLocal, stretch, Fin.sum_univ_two, Fin.sum_univ_three, Fin.sum_univ_four] <;> norm_num

example : ∀ b ∈ [side], (⟨fun x => x, fun x => ![x 1, 1, 0], fun _ => ![1, 0, 0], fun _ => 1, fun _ _ _ => 1⟩ : Data).bnd b.q.x = b.q.x ∧ (![1, 0, 0] : V3) = b.face := by
  intro b hb
  simp only [List.mem_singleton] at hb
  subst hb
  exact ⟨rfl, rfl⟩

/-! ### C170 -/

theorem top_deriv (F : ℝ → Fin 2 → ℝ) (F' : Fin 2 → ℝ) (t0 : ℝ) (h : ∀ k, HasDerivAt (fun t => F t k) (F' k) t0) (v : Var6) : HasDerivAt (fun t => top (F t) v) (top F' v) t0 := by
  obtain ⟨r, k⟩ := v
  simp only [top]
  split
  · exact hasDerivAt_const _ _
  · split
    · exact h 0
    · split
      · exact h 1
      · exact hasDerivAt_const _ _

theorem top_sum (F : Fin 2 → Dof n → ℝ) (w : Dof n → ℝ) (v : Var6) : ∑ c, top (fun k => F k c) v * w c = top (fun k => ∑ c, F k c * w c) v := by
  obtain ⟨r, k⟩ := v
  simp only [top]
  split
  · simp
  · split
    · rfl
    · split
      · rfl
      · simp

theorem app_line {m : Nat} (B : Fin m → Dof n → ℝ) (u w : Dof n → ℝ) (r : Fin m) : HasDerivAt (fun t : ℝ => app B (fun c => u c + t * w c) r) (∑ c, B r c * w c) 0 := by
  refine HasDerivAt.congr_deriv (HasDerivAt.fun_sum fun c _ => HasDerivAt.const_mul (B r c) (((hasDerivAt_id' (0:ℝ)).mul_const (w c)).const_add (u c))) ?_
  exact Finset.sum_congr rfl fun c _ => by ring

theorem force_line (D : Data) (b : Bqp n) (u w : Dof n → ℝ) (k : Fin 2) : HasDerivAt (fun t : ℝ => force false D b (fun c => u c + t * w c) k) (∑ c, forceJac D b k c * w c) 0 := by
  have h1 : ∀ r, HasDerivAt (fun t : ℝ => stress false (D.C b.q.x) b (fun c => u c + t * w c) r) (∑ c, dstress (D.C b.q.x) b r c * w c) 0 := by
    intro r
    simp only [stress, mv, strainMem, Bool.false_eq_true, if_false]
    refine HasDerivAt.congr_deriv (HasDerivAt.fun_sum fun s _ => HasDerivAt.const_mul _ (app_line (Blin b.q) u w s)) ?_
    simp only [dstress, Finset.mul_sum, Finset.sum_mul]
    rw [Finset.sum_comm]
    exact Finset.sum_congr rfl fun _ _ => Finset.sum_congr rfl fun _ _ => by ring
  have h2 : ∀ i r, HasDerivAt (fun t : ℝ => stressGrad (D.C b.q.x) b (fun c => u c + t * w c) i r) (∑ c, dstressGrad (D.C b.q.x) b i r c * w c) 0 := by
    intro i r
    simp only [stressGrad, mv]
    refine HasDerivAt.congr_deriv (HasDerivAt.fun_sum fun s _ => HasDerivAt.const_mul _ (app_line (dB b i) u w s)) ?_
    simp only [dstressGrad, Finset.mul_sum, Finset.sum_mul]
    rw [Finset.sum_comm]
    exact Finset.sum_congr rfl fun _ _ => Finset.sum_congr rfl fun _ _ => by ring
  refine HasDerivAt.congr_deriv (HasDerivAt.fun_sub (HasDerivAt.const_add _ (HasDerivAt.fun_sum fun r _ => (h1 r).const_mul _))
    (HasDerivAt.fun_sum fun i _ => HasDerivAt.mul_const (HasDerivAt.fun_sum fun r _ => (h2 i r).const_mul _) _)) ?_
  simp only [forceJac, sub_mul, Finset.sum_sub_distrib]
  congr 1
  · simp only [Finset.mul_sum, Finset.sum_mul]
    rw [Finset.sum_comm]
    exact Finset.sum_congr rfl fun _ _ => Finset.sum_congr rfl fun _ _ => by ring
  · simp only [Finset.mul_sum, Finset.sum_mul]
    conv_rhs => rw [Finset.sum_comm]
    refine Finset.sum_congr rfl fun i _ => ?_
    rw [Finset.sum_comm]
    exact Finset.sum_congr rfl fun _ _ => Finset.sum_congr rfl fun _ _ => by ring

/-- C170: with linear strain the Jacobian added is the derivative of the residual added, in the global frame. -/
theorem C170_jacobian (T : Option (Fin 3 → Fin 3 → ℝ)) (D : Data) (pts : List (Bqp n)) (u : Dof n → ℝ) : IsJacobian (residual false T D pts) (jacobian T D pts) u := by
  have hl : ∀ v : Dof n → ℝ, IsJacobian (localRes false D pts) (localJac D pts) v := by
    intro v w a
    refine HasDerivAt.congr_deriv (hasDerivAt_list pts _ _ 0 fun b _ => HasDerivAt.const_mul _ (HasDerivAt.const_mul _ (top_deriv _ _ 0 (fun k => force_line D b v w k) _))) ?_
    simp only [localJac]
    rw [list_sum_apply pts (fun b c => D.h b.q.x * b.q.JxW * (b.q.phi a.2.2 * top (fun k => forceJac D b k c) (a.1, a.2.1))) w]
    refine list_congr _ _ _ fun b _ => ?_
    rw [← top_sum, Finset.mul_sum, Finset.mul_sum]
    exact Finset.sum_congr rfl fun _ _ => by ring
  intro w a
  have h := (C111_jacobian T _ _ u (hl _) w a).fun_neg
  refine HasDerivAt.congr_deriv h ?_
  simp only [jacobian, neg_mul, Finset.sum_neg_distrib]

/-- Side point whose normal differs from that of the interface. -/
noncomputable def tilted : Data := { iface with normal := fun _ => ![0, 0, 0], bnd := fun x => x }

/-- C170 fails with nonlinear strain: a stretched square, the Jacobian has the stiffness of the unstrained element. -/
theorem C170_nonlinear_fails : ¬ IsJacobian (residual true none tilted [side]) (jacobian none tilted [side]) stretch := by
  intro h
  have h1 := h (unitDof (false, 0, 1)) (false, 0, 1)
  rw [sum_unit] at h1
  have hf : (fun t : ℝ => residual true none tilted [side] (fun c => stretch c + t * unitDof (false, 0, 1) c) (false, 0, 1)) = fun t : ℝ => -(1 / 2 * (1 + (5 / 4 + t * (1 / 2) + (5 / 4 + t * (1 / 2)) * (5 / 4 + t * (1 / 2)) / 2))) := by
    funext t
    simp [residual, vecToGlobal, vecToLocal, localRes, top, force, tilted, iface, side, gap, nrm, xy, mv, voigtN, stress, stressGrad, strainMem, Shell.gradE, Shell.gradF, Shell.ddx, Shell.ddy, Shell.Bx, Shell.By,
      app, sum_shape, stretch, unitDof, Fin.sum_univ_two, Fin.sum_univ_three, Fin.sum_univ_four]
    ring
  rw [hf] at h1
  have hd : HasDerivAt (fun t : ℝ => -(1 / 2 * (1 + (5 / 4 + t * (1 / 2) + (5 / 4 + t * (1 / 2)) * (5 / 4 + t * (1 / 2)) / 2)))) (-(1 / 2 * (1 / 2 + 5 / 8))) 0 := by
    have hi := hasDerivAt_id' (0:ℝ)
    have hz := (hi.mul_const (1 / 2)).const_add (5 / 4 : ℝ)
    refine HasDerivAt.congr_deriv (((hz.fun_add ((hz.fun_mul hz).div_const 2)).const_add 1).const_mul (1 / 2)).fun_neg ?_
    norm_num
  have hj : jacobian none tilted [side] (false, 0, 1) (false, 0, 1) = -(1 / 4) := by
    simp [jacobian, matToGlobal, localJac, top, forceJac, tilted, iface, side, gap, nrm, xy, voigtN, dstress, dstressGrad, Blin, shape, Fin.sum_univ_two, Fin.sum_univ_three]
    try norm_num
  have := h1.unique hd
  rw [hj] at this
  norm_num at this

/-- Specification: `E` holds the derivatives of the data at `s0`, at the quadrature points; traction and normal are differentiated together with the motion of the interface point. -/
structure Total (Dp : ℝ → Data) (E : Data) (s0 : ℝ) (pts : List (Bqp n)) : Prop where
  bnd : ∀ b ∈ pts, ∀ j, HasDerivAt (fun s => (Dp s).bnd b.q.x j) (E.bnd b.q.x j) s0
  trac : ∀ b ∈ pts, ∀ j, HasDerivAt (fun s => (Dp s).trac ((Dp s).bnd b.q.x) j) (E.trac ((Dp s0).bnd b.q.x) j) s0
  normal : ∀ b ∈ pts, ∀ j, HasDerivAt (fun s => (Dp s).normal ((Dp s).bnd b.q.x) j) (E.normal ((Dp s0).bnd b.q.x) j) s0
  h : ∀ b ∈ pts, HasDerivAt (fun s => (Dp s).h b.q.x) (E.h b.q.x) s0
  C : ∀ b ∈ pts, ∀ r k, HasDerivAt (fun s => (Dp s).C b.q.x r k) (E.C b.q.x r k) s0

/-- Specification: the same with the traction and normal differentiated at fixed points, which is what `derivative` of a field function means. -/
structure AtPoint (Dp : ℝ → Data) (E : Data) (s0 : ℝ) (pts : List (Bqp n)) : Prop where
  bnd : ∀ b ∈ pts, ∀ j, HasDerivAt (fun s => (Dp s).bnd b.q.x j) (E.bnd b.q.x j) s0
  trac : ∀ x j, HasDerivAt (fun s => (Dp s).trac x j) (E.trac x j) s0
  normal : ∀ x j, HasDerivAt (fun s => (Dp s).normal x j) (E.normal x j) s0
  h : ∀ b ∈ pts, HasDerivAt (fun s => (Dp s).h b.q.x) (E.h b.q.x) s0
  C : ∀ b ∈ pts, ∀ r k, HasDerivAt (fun s => (Dp s).C b.q.x r k) (E.C b.q.x r k) s0

theorem voigtN_deriv (m : ℝ → V3) (m' : V3) (s0 : ℝ) (h : ∀ j, HasDerivAt (fun s => m s j) (m' j) s0) (k : Fin 2) (r : Fin 3) : HasDerivAt (fun s => voigtN (m s) k r) (voigtN m' k r) s0 := by
  fin_cases k <;> fin_cases r
  · exact h 0
  · exact hasDerivAt_const _ _
  · exact h 1
  · exact hasDerivAt_const _ _
  · exact h 1
  · exact h 0

theorem force_param (nl : Bool) (Dp : ℝ → Data) (E : Data) (s0 : ℝ) (pts : List (Bqp n)) (hE : Total Dp E s0 pts) (b : Bqp n) (hb : b ∈ pts) (u : Dof n → ℝ) (k : Fin 2) :
    HasDerivAt (fun s => force nl (Dp s) b u k) (forceSens nl (Dp s0) E b u k) s0 := by
  have h1 : ∀ r, HasDerivAt (fun s => stress nl ((Dp s).C b.q.x) b u r) (stress nl (E.C b.q.x) b u r) s0 := by
    intro r
    simp only [stress, mv]
    exact HasDerivAt.fun_sum fun c _ => (hE.C b hb r c).mul_const _
  have h2 : ∀ i r, HasDerivAt (fun s => stressGrad ((Dp s).C b.q.x) b u i r) (stressGrad (E.C b.q.x) b u i r) s0 := by
    intro i r
    simp only [stressGrad, mv]
    exact HasDerivAt.fun_sum fun c _ => (hE.C b hb r c).mul_const _
  have h3 : ∀ k r, HasDerivAt (fun s => voigtN (fun j => b.face j - nrm (Dp s) b j) k r) (voigtN (fun j => -E.normal ((Dp s0).bnd b.q.x) j) k r) s0 :=
    fun k r => voigtN_deriv _ _ s0 (fun j => (hE.normal b hb j).const_sub _) k r
  have h4 : ∀ k r, HasDerivAt (fun s => voigtN (nrm (Dp s) b) k r) (voigtN (E.normal ((Dp s0).bnd b.q.x)) k r) s0 := fun k r => voigtN_deriv _ _ s0 (fun j => hE.normal b hb j) k r
  have h5 : ∀ i, HasDerivAt (fun s => gap (Dp s) b i) (E.bnd b.q.x (xy i)) s0 := fun i => (hE.bnd b hb _).sub_const _
  refine HasDerivAt.congr_deriv (HasDerivAt.fun_sub (HasDerivAt.fun_add (hE.trac b hb (xy k)) (HasDerivAt.fun_sum fun r _ => (h3 k r).fun_mul (h1 r)))
    (HasDerivAt.fun_sum fun i _ => HasDerivAt.fun_mul (HasDerivAt.fun_sum fun r _ => (h4 k r).fun_mul (h2 i r)) (h5 i))) ?_
  have hneg : ∀ m : V3, ∀ r, voigtN (fun j => -m j) k r = -voigtN m k r := by
    intro m r
    fin_cases k <;> fin_cases r <;> simp [voigtN]
  simp only [forceSens, mv, hneg, Fin.sum_univ_two, Fin.sum_univ_three]
  ring

/-- C170 (part): for either strain, the sensitivity at fixed solution is the parameter derivative of the residual when the derivatives of traction and normal include the motion of the interface
point.  The full statement (derivatives of the functions at fixed points, as `derivative` returns them) fails, see `C170_moving_point_fails`. -/
theorem C170_sensitivity_partial (nl : Bool) (T : Option (Fin 3 → Fin 3 → ℝ)) (Dp : ℝ → Data) (E : Data) (s0 : ℝ) (pts : List (Bqp n)) (hE : Total Dp E s0 pts) (u : Dof n → ℝ) (a : Dof n) :
    HasDerivAt (fun s => residual nl T (Dp s) pts u a) (sensitivity nl T (Dp s0) E pts u a) s0 := by
  refine HasDerivAt.fun_neg (hasDerivAt_global T _ _ s0 (fun c => ?_) a)
  refine hasDerivAt_list pts _ _ s0 fun b hb => ?_
  refine HasDerivAt.congr_deriv (HasDerivAt.fun_mul ((hE.h b hb).mul_const _) (HasDerivAt.const_mul _ (top_deriv _ _ s0 (fun k => force_param nl Dp E s0 pts hE b hb _ k) _))) ?_
  ring

/-- For a traction and a normal that do not vary in space the two readings agree. -/
theorem total_of_uniform (Dp : ℝ → Data) (E : Data) (s0 : ℝ) (pts : List (Bqp n)) (h : AtPoint Dp E s0 pts) (ht : ∀ s x y, (Dp s).trac x = (Dp s).trac y) (hn : ∀ s x y, (Dp s).normal x = (Dp s).normal y) :
    Total Dp E s0 pts where
  bnd := h.bnd
  trac := fun b _ j => (h.trac ((Dp s0).bnd b.q.x) j).congr_of_eventuallyEq (Filter.Eventually.of_forall fun s => by beta_reduce; rw [ht s _ ((Dp s0).bnd b.q.x)])
  normal := fun b _ j => (h.normal ((Dp s0).bnd b.q.x) j).congr_of_eventuallyEq (Filter.Eventually.of_forall fun s => by beta_reduce; rw [hn s _ ((Dp s0).bnd b.q.x)])
  h := h.h
  C := h.C

/-- Hence for a straight interface moving under a uniform traction (dead load) the sensitivity is exact. -/
theorem C170_uniform (nl : Bool) (T : Option (Fin 3 → Fin 3 → ℝ)) (Dp : ℝ → Data) (E : Data) (s0 : ℝ) (pts : List (Bqp n)) (h : AtPoint Dp E s0 pts) (ht : ∀ s x y, (Dp s).trac x = (Dp s).trac y)
    (hn : ∀ s x y, (Dp s).normal x = (Dp s).normal y) (u : Dof n → ℝ) (a : Dof n) : HasDerivAt (fun s => residual nl T (Dp s) pts u a) (sensitivity nl T (Dp s0) E pts u a) s0 :=
  C170_sensitivity_partial nl T Dp E s0 pts (total_of_uniform Dp E s0 pts h ht hn) u a

/-- Interface x = 5/4 + s. -/
noncomputable def drift (s : ℝ) : Data := { iface with bnd := fun x => ![5 / 4 + s, x 1, 0] }
/-- Derivatives at fixed points: only the interface point moves. -/
def driftD : Data := ⟨fun _ => ![1, 0, 0], fun _ _ => 0, fun _ _ => 0, fun _ => 0, fun _ _ _ => 0⟩

theorem drift_at : AtPoint drift driftD 0 [side] where
  bnd := by
    intro b _ j
    fin_cases j
    · exact (hasDerivAt_id' (0:ℝ)).const_add _
    · exact hasDerivAt_const _ _
    · exact hasDerivAt_const _ _
  trac := fun _ _ => hasDerivAt_const _ _
  normal := fun _ _ => hasDerivAt_const _ _
  h := fun _ _ => hasDerivAt_const _ _
  C := fun _ _ _ _ => hasDerivAt_const _ _

/-- With a uniform traction this path meets the hypotheses of `C170_uniform`. -/
example : AtPoint (fun s => { drift s with trac := fun _ => ![1, 2, 0] }) driftD 0 [side] ∧ (∀ s x y, ((fun s => { drift s with trac := fun _ => ![1, 2, 0] }) s : Data).trac x = ((fun s => { drift s with trac := fun _ => ![1, 2, 0] }) s : Data).trac y) :=
  ⟨{ drift_at with trac := fun _ _ => hasDerivAt_const _ _ }, fun _ _ _ => rfl⟩

/-- C170 fails for a traction that varies in space on a moving interface: the reported derivative lacks the change of the traction along the motion. -/
theorem C170_moving_point_fails : ∃ (Dp : ℝ → Data) (E : Data), AtPoint Dp E 0 [side] ∧ ¬ HasDerivAt (fun s => residual false none (Dp s) [side] (fun _ => 0) (false, 0, 1)) (sensitivity false none (Dp 0) E [side] (fun _ => 0) (false, 0, 1)) 0 := by
  refine ⟨drift, driftD, drift_at, fun h => ?_⟩
  have hf : (fun s => residual false none (drift s) [side] (fun _ => 0) (false, 0, 1)) = fun s : ℝ => -(1 / 2 * (5 / 4 + s)) := by
    funext s
    simp [residual, vecToGlobal, vecToLocal, localRes, top, force, drift, iface, side, xy, mv, stress, stressGrad, strainMem, app]
  have hs : sensitivity false none (drift 0) driftD [side] (fun _ => 0) (false, 0, 1) = 0 := by
    simp [sensitivity, vecToGlobal, vecToLocal, localSens, top, forceSens, driftD, mv, stress, stressGrad, strainMem, app]
  rw [hf, hs] at h
  have := h.unique (((hasDerivAt_id' (0:ℝ)).const_add (5 / 4)).const_mul (1 / 2)).fun_neg
  norm_num at this

/-- C170 fails for the Jacobian of the sensitivity: with assertions off nothing is added, although the derivative of the Jacobian is not zero (here the thickness is the parameter). -/
theorem C170_sensitivity_jacobian_fails : ∃ (Dp : ℝ → Data) (E : Data), AtPoint Dp E 0 [side] ∧ ¬ HasDerivAt (fun s => jacobian none (Dp s) [side] (false, 0, 1) (false, 0, 1)) (sensJac (n := 4) none (false, 0, 1) (false, 0, 1)) 0 := by
  refine ⟨fun s => { tilted with h := fun _ => 1 + s }, { driftD with h := fun _ => 1, bnd := fun _ _ => 0 }, ?_, fun h => ?_⟩
  · exact { bnd := fun _ _ _ => hasDerivAt_const _ _, trac := fun _ _ => hasDerivAt_const _ _, normal := fun _ _ => hasDerivAt_const _ _, h := fun _ _ => (hasDerivAt_id' (0:ℝ)).const_add _, C := fun _ _ _ _ => hasDerivAt_const _ _ }
  · have hf : (fun s : ℝ => jacobian none { tilted with h := fun _ => 1 + s } [side] (false, 0, 1) (false, 0, 1)) = fun s : ℝ => -((1 + s) * (1 / 4)) := by
      funext s
      simp [jacobian, matToGlobal, localJac, top, forceJac, tilted, iface, side, gap, nrm, xy, voigtN, dstress, dstressGrad, Blin, shape, Fin.sum_univ_three]
      left; norm_num
    rw [hf] at h
    have := h.unique (((hasDerivAt_id' (0:ℝ)).const_add 1).mul_const (1 / 4)).fun_neg
    simp [sensJac, matToGlobal] at this
end Verif.ShiftTrac
