import Verif.Model.FreqFlow
import Verif.Props.FreqOps
import Verif.Props.ComplexSolve
import Mathlib.Tactic.IntervalCases
import Mathlib.Analysis.SpecialFunctions.ExpDeriv
/-
  C200: frequency domain analysis of a flow as a whole.
-/
namespace Verif.FreqFlow

open Verif.Fluid Complex Finset
open CSolve (readVec vecName Store SolvesAt blocked)

section Spec

/-- The stored complex vector: the amplitude, or its sensitivity. -/
noncomputable def stored (sys : List Char) (sens : Bool) (s : Store) (d : Nat) : ℂ := ⟨readVec (vecName sys false sens) s d, readVec (vecName sys true sens) s d⟩

/-- Harmonic motion of the degrees of freedom with amplitude `x` and angular frequency `ω`. -/
noncomputable def motion (ω : ℝ) (x : Nat → ℂ) (τ : ℝ) (d : Nat) : ℝ := (Complex.exp (I * ω * τ) * x d).re

/-- Sum of the element vectors over the mesh. -/
noncomputable def assembled {K : Type} [AddCommMonoid K] (f : FlowElem → Nat → K) (els : List FlowElem) (d : Nat) : K :=
  (els.map fun e => ∑ a ∈ range e.nd, if e.dof a = d then f e a else 0).sum

/-- Entries of a global vector at the degrees of freedom of an element. -/
def FlowElem.get {α : Type} (e : FlowElem) (u : Nat → α) (a : Nat) : α := u (e.dof a)

/-- An element without no slip walls or unknown conditions, whose slip walls have a normal that does not rotate in the steady flow `base`, whose density does not vanish there. -/
def Good (base : Nat → ℝ) (N : Nat) (e : FlowElem) : Prop :=
  (e.c.d = 1 ∨ e.c.d = 2 ∨ e.c.d = 3) ∧ e.c.cv ≠ 0 ∧ FreqOps.Known e.loads ∧ FreqOps.Steady e.c (fieldOf e.c (e.get base)) e.loads ∧ ∀ a < e.nd, e.dof a < N

/-- Complex residual of the mesh at an amplitude. -/
noncomputable def meshRes (base : Nat → ℝ) (els : List FlowElem) (fr : Freq) (x : Nat → ℂ) (d : Nat) : ℂ :=
  assembled (fun e => entry e.c (vecOf (FreqOps.elemRes e.c e.T e.dc e.qs e.loads (fieldOf e.c (e.get base)) fr (cfieldOf e.c (e.get x))))) els d

end Spec

theorem varAt_pos (d : Nat) (hd : d = 1 ∨ d = 2 ∨ d = 3) (i : Nat) (hi : i < d + 2) : pos d (varAt d i) = i := by
  rcases hd with rfl | rfl | rfl <;> interval_cases i <;> rfl

theorem sum_varAt {K : Type} [AddCommMonoid K] (d : Nat) (hd : d = 1 ∨ d = 2 ∨ d = 3) (H : Var → K) : ∑ i ∈ range (d + 2), H (varAt d i) = ∑ v, if act d v then H v else 0 := by
  have hu : (univ : Finset Var) = {.rho, .m1, .m2, .m3, .en} := rfl
  rw [hu]
  rcases hd with rfl | rfl | rfl <;> simp [Finset.sum_range_succ, varAt, act] <;> abel

theorem sum_split {K : Type} [AddCommMonoid K] (m n : Nat) (G : Nat → Nat → K) : ∑ a ∈ range (m * n), G (a / n) (a % n) = ∑ i ∈ range m, ∑ b ∈ range n, G i b := by
  induction m with
  | zero => simp
  | succ m ih =>
    rw [Nat.succ_mul, Finset.sum_range_add, ih, Finset.sum_range_succ]
    congr 1
    refine Finset.sum_congr rfl fun b hb => ?_
    have hb' := mem_range.1 hb
    have h0 : 0 < n := by omega
    rw [Nat.mul_comm m n, Nat.mul_add_div h0, Nat.mul_add_mod, Nat.div_eq_of_lt hb', Nat.mod_eq_of_lt hb', Nat.add_zero]

/-- Product of a row of an element matrix with an element vector. -/
theorem row_mul (c : Ctx) (hd : c.d = 1 ∨ c.d = 2 ∨ c.d = 3) (J : Var → Nat → ℂ) (y : Nat → ℂ) :
    ∑ a ∈ range ((c.d + 2) * c.n), entry c J a * y a = cjacMul c J (cfieldOf c y) := by
  have e1 : ∀ a, entry c J a * y a = (fun i b => J (varAt c.d i) b * y (i * c.n + b)) (a / c.n) (a % c.n) := by
    intro a
    show J _ _ * y a = J _ _ * y (a / c.n * c.n + a % c.n)
    rw [Nat.div_add_mod']
  rw [Finset.sum_congr rfl fun a _ => e1 a, sum_split (c.d + 2) c.n fun i b => J (varAt c.d i) b * y (i * c.n + b)]
  unfold cjacMul
  rw [← sum_varAt c.d hd fun u => ∑ b ∈ range c.n, J u b * cfieldOf c y u b]
  refine Finset.sum_congr rfl fun i hi => Finset.sum_congr rfl fun b _ => ?_
  unfold cfieldOf
  rw [varAt_pos c.d hd i (mem_range.1 hi)]

/-- The element residual is affine in the amplitude. -/
theorem vec_affine (base : Nat → ℝ) (N : Nat) (e : FlowElem) (h : Good base N e) (fr : Freq) (dω : ℝ) (x : Nat → ℂ) (a : Nat) :
    (toC fr dω e).vec (e.get base) x a = (toC fr dω e).vec (e.get base) (fun _ => 0) a + ∑ b ∈ range e.nd, (toC fr dω e).mat (e.get base) (fun _ => 0) a b * x b := by
  obtain ⟨hd, hv, hk, hs, -⟩ := h
  obtain ⟨f, g, J, h1, h2, h3, h4⟩ := FreqOps.C199_jacobian_partial e.c hd hv e.T e.dc e.qs e.loads hk (fieldOf e.c (e.get base)) hs fr (fun _ _ => 0) (cfieldOf e.c x)
  simp only [zero_add] at h2
  have hz : cfieldOf e.c (fun _ => 0) = fun _ _ => 0 := rfl
  have e1 := row_mul e.c hd (J (varAt e.c.d (a / e.c.n)) (a % e.c.n)) x
  show entry e.c (vecOf (FreqOps.elemRes e.c e.T e.dc e.qs e.loads (fieldOf e.c (e.get base)) fr (cfieldOf e.c x))) a =
    entry e.c (vecOf (FreqOps.elemRes e.c e.T e.dc e.qs e.loads (fieldOf e.c (e.get base)) fr (cfieldOf e.c fun _ => 0))) a +
    ∑ b ∈ range ((e.c.d + 2) * e.c.n), entry e.c (entry e.c (matOf (FreqOps.elemJac e.c e.T e.dc e.qs e.loads (fieldOf e.c (e.get base)) fr)) a) b * x b
  rw [hz, h1, h2, h3]
  show g _ _ = f _ _ + ∑ b ∈ range ((e.c.d + 2) * e.c.n), entry e.c (J (varAt e.c.d (a / e.c.n)) (a % e.c.n)) b * x b
  rw [e1, h4]

theorem cVec_map (f : CSolve.CElem → Nat → ℂ) (fr : Freq) (dω : ℝ) (els : List FlowElem) (d : Nat) :
    CSolve.cVec f (els.map (toC fr dω)) d = assembled (fun e => f (toC fr dω e)) els d := by
  unfold CSolve.cVec assembled
  rw [List.map_map]; rfl

theorem assembled_congr {K : Type} [AddCommMonoid K] (f g : FlowElem → Nat → K) (els : List FlowElem) (h : ∀ e ∈ els, ∀ a < e.nd, f e a = g e a) (d : Nat) : assembled f els d = assembled g els d := by
  unfold assembled
  congr 1
  refine List.map_congr_left fun e he => Finset.sum_congr rfl fun a ha => ?_
  rw [h e he a (mem_range.1 ha)]

/-- If the linear solver solves, the stored amplitude makes the complex residual of the mesh zero. -/
theorem zero_residual (ksp : (Nat → Nat → ℝ) → (Nat → ℝ) → Nat → ℝ) (base : Nat → ℝ) (els : List FlowElem) (fr : Freq) (dω : ℝ) (sys : List Char) (N : Nat) (s : Store) (h : ∀ e ∈ els, Good base N e)
    (hk : SolvesAt (2 * N) (blocked (some base) (els.map (toC fr dω)) false (fun _ => 0) fun _ => 0).1 (fun i => -1 * (blocked (some base) (els.map (toC fr dω)) false (fun _ => 0) fun _ => 0).2 i)
      (ksp (blocked (some base) (els.map (toC fr dω)) false (fun _ => 0) fun _ => 0).1 fun i => -1 * (blocked (some base) (els.map (toC fr dω)) false (fun _ => 0) fun _ => 0).2 i))
    (d : Nat) (hd : d < N) :
    assembled (fun e => (toC fr dω e).vec (e.get base) (e.get (stored sys false (solve ksp base els fr dω sys N false s)))) els d = 0 := by
  have h1 := (CSolve.C166_solution ksp (some base) (els.map (toC fr dω)) sys N s hk).1 d hd
  set x := stored sys false (solve ksp base els fr dω sys N false s) with hx
  rw [assembled_congr _ (fun e a => (toC fr dω e).vec (e.get base) (fun _ => 0) a + ∑ b ∈ range e.nd, (toC fr dω e).mat (e.get base) (fun _ => 0) a b * e.get x b) els
    fun e he a _ => vec_affine base N e (h e he) fr dω (e.get x) a]
  have h2 := CSolve.sum_cVec (fun e => e.vec (fun a => base (e.dof a)) (fun _ => 0)) (fun e => e.mat (fun a => base (e.dof a)) fun _ => 0) N x (els.map (toC fr dω)) (by
    intro e he a ha
    obtain ⟨e', he', rfl⟩ := List.mem_map.1 he
    exact (h e' he').2.2.2.2 a ha) d
  rw [cVec_map] at h2
  refine Eq.trans h2 ?_
  have e1 : ∀ e : CSolve.CElem, e.sol (fun _ => 0) (fun _ => 0) = fun _ => 0 := fun e => rfl
  have e2 : CSolve.residual (some base) (els.map (toC fr dω)) (fun _ => 0) (fun _ => 0) d = CSolve.cVec (fun e => e.vec (fun a => base (e.dof a)) (fun _ => 0)) (els.map (toC fr dω)) d := rfl
  have e3 : ∀ k, CSolve.jacobian (some base) (els.map (toC fr dω)) (fun _ => 0) (fun _ => 0) d k = CSolve.cMat (fun e => e.mat (fun a => base (e.dof a)) fun _ => 0) (els.map (toC fr dω)) d k := fun _ => rfl
  rw [← e2]
  have h3 : ∑ c ∈ range N, CSolve.cMat (fun e => e.mat (fun a => base (e.dof a)) fun _ => 0) (els.map (toC fr dω)) d c * x c = -CSolve.residual (some base) (els.map (toC fr dω)) (fun _ => 0) (fun _ => 0) d := h1
  rw [h3]; ring

theorem re_assembled (z : ℂ) (r : ℝ) (f : FlowElem → Nat → ℂ) (g : FlowElem → Nat → ℝ) (els : List FlowElem) (h : ∀ e ∈ els, ∀ a < e.nd, (z * f e a).re = r * g e a) (d : Nat) :
    (z * assembled f els d).re = r * assembled g els d := by
  unfold assembled
  rw [re_list, ← List.sum_map_mul_left]
  congr 1
  refine List.map_congr_left fun e he => ?_
  rw [Verif.Fluid.re_sum, Finset.mul_sum]
  refine Finset.sum_congr rfl fun a ha => ?_
  split_ifs
  · exact h e he a (mem_range.1 ha)
  · simp

/-- C200 (normals of slip walls without steady rotation, conjugations of C149 harmless): if the linear solver solves the block system, the stored amplitude is that of a harmonic solution of the linearized unsteady
flow: at every time `τ` the linearized product of the time domain elements (interior, boundary conditions, moving walls, inertia), summed over the mesh, for the motion at `τ` and its time derivative, vanishes at every
degree of freedom. -/
theorem C200_response_partial (ksp : (Nat → Nat → ℝ) → (Nat → ℝ) → Nat → ℝ) (base : Nat → ℝ) (els : List FlowElem) (fr : Freq) (ω dω : ℝ) (hω : fr.omega = fr.factor * ω) (hf : fr.factor ≠ 0)
    (sys : List Char) (N : Nat) (s : Store) (h : ∀ e ∈ els, Good base N e)
    (hk : SolvesAt (2 * N) (blocked (some base) (els.map (toC fr dω)) false (fun _ => 0) fun _ => 0).1 (fun i => -1 * (blocked (some base) (els.map (toC fr dω)) false (fun _ => 0) fun _ => 0).2 i)
      (ksp (blocked (some base) (els.map (toC fr dω)) false (fun _ => 0) fun _ => 0).1 fun i => -1 * (blocked (some base) (els.map (toC fr dω)) false (fun _ => 0) fun _ => 0).2 i))
    (x : Nat → ℂ) (hx : x = stored sys false (solve ksp base els fr dω sys N false s))
    (hc : ∀ e ∈ els, FreqOps.Harmless e.c (fieldOf e.c (e.get base)) (cfieldOf e.c (e.get x)) e.loads)
    (τ : ℝ) (V : Nat → ℝ) (hV : ∀ d, HasDerivAt (fun t => motion ω x t d) (V d) τ) :
    ∃ r : FlowElem → Field, (∀ e ∈ els, FluidOps.elemProduct e.c e.T e.dc e.qs (e.loads.map (FreqOps.timeLoad ω (Complex.exp (I * ω * τ)))) (fieldOf e.c (e.get base)) (fieldOf e.c (e.get (motion ω x τ)))
      (fieldOf e.c (e.get V)) = .ok (r e)) ∧ ∀ d < N, assembled (fun e => entry e.c (r e)) els d = 0 := by
  have key : ∀ e ∈ els, ∃ r : Field, FluidOps.elemProduct e.c e.T e.dc e.qs (e.loads.map (FreqOps.timeLoad ω (Complex.exp (I * ω * τ)))) (fieldOf e.c (e.get base)) (fieldOf e.c (e.get (motion ω x τ)))
      (fieldOf e.c (e.get V)) = .ok r ∧ ∀ a, (Complex.exp (I * ω * τ) * (toC fr dω e).vec (e.get base) (e.get x) a).re = fr.factor * entry e.c r a := by
    intro e he
    obtain ⟨f, r, h1, h2, h3⟩ := FreqOps.C199_amplitude_partial e.c e.T e.dc e.qs e.loads (h e he).2.2.1 (fieldOf e.c (e.get base)) fr ω hω (cfieldOf e.c (e.get x)) (hc e he) τ (fieldOf e.c (e.get V))
      fun v b => hV (e.dof (pos e.c.d v * e.c.n + b))
    refine ⟨r, h2, fun a => ?_⟩
    show (Complex.exp (I * ω * τ) * entry e.c (vecOf (FreqOps.elemRes e.c e.T e.dc e.qs e.loads (fieldOf e.c (e.get base)) fr (cfieldOf e.c (e.get x)))) a).re = _
    rw [h1]
    exact h3 _ _
  classical
  let r : FlowElem → Field := fun e => if he : e ∈ els then (key e he).choose else fun _ _ => 0
  have hr : ∀ e (he : e ∈ els), r e = (key e he).choose := fun e he => dif_pos he
  refine ⟨r, fun e he => ?_, fun d hd => ?_⟩
  · rw [hr e he]; exact (key e he).choose_spec.1
  · have h1 := zero_residual ksp base els fr dω sys N s h hk d hd
    rw [← hx] at h1
    have h2 := re_assembled (Complex.exp (I * ω * τ)) fr.factor (fun e => (toC fr dω e).vec (e.get base) (e.get x)) (fun e => entry e.c (r e)) els
      (fun e he a _ => by rw [hr e he]; exact (key e he).choose_spec.2 a) d
    rw [h1, mul_zero] at h2
    exact (mul_eq_zero.1 h2.symm).resolve_left hf

/-- Product rule at a zero of the vector. -/
theorem mul_deriv (c : Ctx) (J : ℝ → Var → Nat → ℂ) (A : Var → Nat → ℂ) (hJ : ∀ u b, HasDerivAt (fun t => J t u b) (A u b) 0) (y : ℝ → CField) (w : CField) (hy : ∀ u b, HasDerivAt (fun t => y t u b) (w u b) 0)
    (h0 : ∀ u b, y 0 u b = 0) : HasDerivAt (fun t => cjacMul c (J t) (y t)) (cjacMul c (J 0) w) 0 := by
  unfold cjacMul
  refine HasDerivAt.fun_sum fun u _ => ?_
  split_ifs
  · refine HasDerivAt.fun_sum fun b _ => ?_
    refine ((hJ u b).fun_mul (hy u b)).congr_deriv ?_
    rw [h0 u b]; ring
  · exact hasDerivAt_const _ _

/-- Total derivative of the residual of an element with respect to the frequency, along a path of amplitudes. -/
theorem path_deriv (base : Nat → ℝ) (N : Nat) (e : FlowElem) (h : Good base N e) (hq : FreqOps.Plain e.loads) (fr : Freq) (W : ℝ → ℝ) (dω : ℝ) (h0 : W 0 = fr.omega) (hW : HasDerivAt W dω 0)
    (x : ℝ → Nat → ℂ) (w : Nat → ℂ) (hx : ∀ d, HasDerivAt (fun t => x t d) (w d) 0) (a : Nat) :
    HasDerivAt (fun t => entry e.c (vecOf (FreqOps.elemRes e.c e.T e.dc e.qs e.loads (fieldOf e.c (e.get base)) { fr with omega := W t } (cfieldOf e.c (e.get (x t))))) a)
      ((toC fr dω e).sens (e.get base) (e.get (x 0)) a + ∑ b ∈ range e.nd, (toC fr dω e).mat (e.get base) (fun _ => 0) a b * w (e.dof b)) 0 := by
  obtain ⟨hd, hv, hk, hs, -⟩ := h
  obtain ⟨S, s1, R, s2, s3⟩ := FreqOps.C199_sensitivity_partial e.c e.T e.dc e.qs e.loads hk hq (fieldOf e.c (e.get base)) fr W dω h0 hW (cfieldOf e.c (e.get (x 0)))
  have hj := fun t : ℝ => FreqOps.elemJac_ok e.c e.T e.dc e.qs e.loads hk (fieldOf e.c (e.get base)) { fr with omega := W t }
  have hj0 := FreqOps.elemJac_ok e.c e.T e.dc e.qs e.loads hk (fieldOf e.c (e.get base)) fr
  have hp : ∀ (t : ℝ) (L : FreqOps.FLoad), FreqOps.partJac e.c (fieldOf e.c (e.get base)) { fr with omega := W t } L = FreqOps.partJac e.c (fieldOf e.c (e.get base)) fr L := by
    intro t L; unfold FreqOps.partJac; cases L.type <;> rfl
  have e1 := row_mul e.c hd ((matOf (FreqOps.elemJac e.c e.T e.dc e.qs e.loads (fieldOf e.c (e.get base)) fr)) (varAt e.c.d (a / e.c.n)) (a % e.c.n)) (e.get w)
  show HasDerivAt _ (entry e.c (vecOf (FreqOps.asmSens e.c e.T e.dc e.qs e.loads (fieldOf e.c (e.get base)) fr dω (cfieldOf e.c (e.get (x 0))))) a +
    ∑ b ∈ range ((e.c.d + 2) * e.c.n), entry e.c (entry e.c (matOf (FreqOps.elemJac e.c e.T e.dc e.qs e.loads (fieldOf e.c (e.get base)) fr)) a) b * e.get w b) 0
  rw [s1]
  set M : ℝ → Var → Nat → ℂ := fun t => matOf (FreqOps.elemJac e.c e.T e.dc e.qs e.loads (fieldOf e.c (e.get base)) { fr with omega := W t }) (varAt e.c.d (a / e.c.n)) (a % e.c.n) with hM
  set A : Var → Nat → ℂ := fun u b => I * dω * (velocityJacXdot e.c e.T e.qs (fieldOf e.c (e.get base)) (varAt e.c.d (a / e.c.n)) (a % e.c.n) u b : ℂ) with hA
  have hMA : ∀ u b, HasDerivAt (fun t => M t u b) (A u b) 0 := by
    intro u b
    have hM' : ∀ t, M t u b = freqMat e.c e.T e.dc e.qs (fieldOf e.c (e.get base)) fr.factor (W t) (varAt e.c.d (a / e.c.n)) (a % e.c.n) u b
        + (e.loads.map fun L => FreqOps.partJac e.c (fieldOf e.c (e.get base)) fr L (varAt e.c.d (a / e.c.n)) (a % e.c.n) u b).sum := by
      intro t
      rw [hM]
      show matOf (FreqOps.elemJac e.c e.T e.dc e.qs e.loads (fieldOf e.c (e.get base)) { fr with omega := W t }) _ _ u b = _
      rw [hj t]
      simp only [hp]
      rfl
    simp only [hM']
    refine HasDerivAt.add_const _ ?_
    unfold freqMat
    refine HasDerivAt.const_add _ ?_
    have hc : HasDerivAt (fun t : ℝ => ((W t : ℝ) : ℂ)) (dω : ℂ) 0 := hW.ofReal_comp
    exact (hc.const_mul I).mul_const _
  have e0 : M 0 = matOf (FreqOps.elemJac e.c e.T e.dc e.qs e.loads (fieldOf e.c (e.get base)) fr) (varAt e.c.d (a / e.c.n)) (a % e.c.n) := by
    show matOf (FreqOps.elemJac e.c e.T e.dc e.qs e.loads (fieldOf e.c (e.get base)) { fr with omega := W 0 }) _ _ = _
    rw [h0]
  have e2 : ∑ b ∈ range ((e.c.d + 2) * e.c.n), entry e.c (entry e.c (matOf (FreqOps.elemJac e.c e.T e.dc e.qs e.loads (fieldOf e.c (e.get base)) fr)) a) b * e.get w b = cjacMul e.c (M 0) (cfieldOf e.c (e.get w)) := by
    rw [e0]; exact e1
  rw [e2]
  have key : ∀ t, entry e.c (vecOf (FreqOps.elemRes e.c e.T e.dc e.qs e.loads (fieldOf e.c (e.get base)) { fr with omega := W t } (cfieldOf e.c (e.get (x t))))) a =
      R t (varAt e.c.d (a / e.c.n)) (a % e.c.n) + cjacMul e.c (M t) (fun u b => cfieldOf e.c (e.get (x t)) u b - cfieldOf e.c (e.get (x 0)) u b) := by
    intro t
    obtain ⟨f, g, J, h1, h2, h3, h4⟩ := FreqOps.C199_jacobian_partial e.c hd hv e.T e.dc e.qs e.loads hk (fieldOf e.c (e.get base)) hs { fr with omega := W t } (cfieldOf e.c (e.get (x 0)))
      (fun u b => cfieldOf e.c (e.get (x t)) u b - cfieldOf e.c (e.get (x 0)) u b)
    have hz : (fun u b => cfieldOf e.c (e.get (x 0)) u b + (cfieldOf e.c (e.get (x t)) u b - cfieldOf e.c (e.get (x 0)) u b)) = cfieldOf e.c (e.get (x t)) := by
      funext u b; ring
    rw [hz] at h2
    have hf : f = R t := Except.ok.inj (h1.symm.trans (s2 t))
    rw [hM]
    show entry e.c (vecOf (FreqOps.elemRes e.c e.T e.dc e.qs e.loads (fieldOf e.c (e.get base)) { fr with omega := W t } (cfieldOf e.c (e.get (x t))))) a = R t _ _ +
      cjacMul e.c (matOf (FreqOps.elemJac e.c e.T e.dc e.qs e.loads (fieldOf e.c (e.get base)) { fr with omega := W t }) _ _) _
    rw [h2, h3, ← hf]
    exact h4 _ _
  simp only [key]
  refine HasDerivAt.fun_add (s3 _ _) (mul_deriv e.c M A hMA _ _ (fun u b => ?_) fun u b => sub_self _)
  exact (hx (e.dof (pos e.c.d u * e.c.n + b))).sub_const _

theorem assembled_deriv (f : ℝ → FlowElem → Nat → ℂ) (g : FlowElem → Nat → ℂ) (els : List FlowElem) (h : ∀ e ∈ els, ∀ a, HasDerivAt (fun t => f t e a) (g e a) 0) (d : Nat) :
    HasDerivAt (fun t => assembled (f t) els d) (assembled g els d) 0 := by
  induction els with
  | nil => exact hasDerivAt_const _ _
  | cons e l ih =>
    simp only [assembled, List.map_cons, List.sum_cons] at ih ⊢
    refine HasDerivAt.fun_add (HasDerivAt.fun_sum fun a _ => ?_) (ih fun e' h' => h e' (List.mem_cons_of_mem _ h'))
    split_ifs
    · exact h e List.mem_cons_self a
    · exact hasDerivAt_const _ _

/-- The matrix of the mesh times a vector. -/
theorem mesh_mul (base : Nat → ℝ) (els : List FlowElem) (fr : Freq) (dω : ℝ) (N : Nat) (h : ∀ e ∈ els, Good base N e) (f : FlowElem → Nat → ℂ) (g : CSolve.CElem → Nat → ℂ) (hg : ∀ e a, g (toC fr dω e) a = f e a)
    (XR XI : Nat → ℝ) (v : Nat → ℂ) (d : Nat) :
    assembled (fun e a => f e a + ∑ b ∈ range e.nd, (toC fr dω e).mat (e.get base) (fun _ => 0) a b * v (e.dof b)) els d =
      assembled f els d + ∑ k ∈ range N, CSolve.jacobian (some base) (els.map (toC fr dω)) XR XI d k * v k := by
  have h2 := CSolve.sum_cVec g (fun e => e.mat (fun a => base (e.dof a)) fun _ => 0) N v (els.map (toC fr dω)) (by
    intro e he a ha
    obtain ⟨e', he', rfl⟩ := List.mem_map.1 he
    exact (h e' he').2.2.2.2 a ha) d
  rw [cVec_map, cVec_map] at h2
  simp only [hg] at h2
  have e3 : ∀ k, CSolve.jacobian (some base) (els.map (toC fr dω)) XR XI d k = CSolve.cMat (fun e => e.mat (fun a => base (e.dof a)) fun _ => 0) (els.map (toC fr dω)) d k := by
    intro k
    unfold CSolve.jacobian CSolve.cMat
    rw [List.map_map, List.map_map]; rfl
  simp only [e3]
  have hg' : (fun e => g (toC fr dω e)) = f := funext fun e => funext fun a => hg e a
  rw [hg'] at h2
  exact h2

/-- The equation of the sensitivity. -/
theorem sens_equation (base : Nat → ℝ) (els : List FlowElem) (fr : Freq) (dω : ℝ) (N : Nat) (h : ∀ e ∈ els, Good base N e) (hq : ∀ e ∈ els, FreqOps.Plain e.loads) (W : ℝ → ℝ) (h0 : W 0 = fr.omega)
    (hW : HasDerivAt W dω 0) (x : ℝ → Nat → ℂ) (w : Nat → ℂ) (hx : ∀ d, HasDerivAt (fun t => x t d) (w d) 0) (hsol : ∀ t : ℝ, ∀ d < N, meshRes base els { fr with omega := W t } (x t) d = 0)
    (XR XI : Nat → ℝ) (hs : ∀ d, (⟨XR d, XI d⟩ : ℂ) = x 0 d) (d : Nat) (hd : d < N) :
    ∑ k ∈ range N, CSolve.jacobian (some base) (els.map (toC fr dω)) XR XI d k * w k = -CSolve.partialSens (some base) (els.map (toC fr dω)) XR XI d := by
  have hsens : CSolve.partialSens (some base) (els.map (toC fr dω)) XR XI d = assembled (fun e => (toC fr dω e).sens (e.get base) (e.get (x 0))) els d := by
    have e1 : ∀ e : FlowElem, (toC fr dω e).sol XR XI = e.get (x 0) := fun e => funext fun a => hs (e.dof a)
    unfold CSolve.partialSens
    rw [cVec_map]
    refine assembled_congr _ _ els (fun e _ a _ => ?_) d
    show (toC fr dω e).sens (e.get base) ((toC fr dω e).sol XR XI) a = _
    rw [e1]
  have h2 := assembled_deriv (fun t e => entry e.c (vecOf (FreqOps.elemRes e.c e.T e.dc e.qs e.loads (fieldOf e.c (e.get base)) { fr with omega := W t } (cfieldOf e.c (e.get (x t)))))) _ els
    (fun e he a => path_deriv base N e (h e he) (hq e he) fr W dω h0 hW x w hx a) d
  have h3 := h2.congr_of_eventuallyEq (f₁ := fun _ => (0:ℂ)) (Filter.Eventually.of_forall fun t => (hsol t d hd).symm)
  have h4 := (hasDerivAt_const (0:ℝ) (0:ℂ)).unique h3
  rw [mesh_mul base els fr dω N h (fun e => (toC fr dω e).sens (e.get base) (e.get (x 0))) (fun e => e.sens (fun a => base (e.dof a)) fun a => x 0 (e.dof a)) (fun e a => rfl) XR XI w d] at h4
  rw [hsens]
  exact eq_neg_of_add_eq_zero_right h4.symm

/-- C200 (frequency as parameter; no steady rotation of the normals): let `x t` be the amplitude at the frequency `W t`, and let the response be unique.  If the linear solver solves the system of the sensitivity, the
stored sensitivity is the derivative of the amplitude with respect to the parameter, and the stored amplitude is kept. -/
theorem C200_sensitivity_partial (ksp : (Nat → Nat → ℝ) → (Nat → ℝ) → Nat → ℝ) (base : Nat → ℝ) (els : List FlowElem) (fr : Freq) (dω : ℝ) (sys : List Char) (N : Nat) (s : Store)
    (h : ∀ e ∈ els, Good base N e) (hq : ∀ e ∈ els, FreqOps.Plain e.loads) (W : ℝ → ℝ) (h0 : W 0 = fr.omega) (hW : HasDerivAt W dω 0)
    (x : ℝ → Nat → ℂ) (w : Nat → ℂ) (hx : ∀ d, HasDerivAt (fun t => x t d) (w d) 0) (hsol : ∀ t : ℝ, ∀ d < N, meshRes base els { fr with omega := W t } (x t) d = 0)
    (hreg : ∀ v : Nat → ℂ, (∀ d < N, meshRes base els fr v d = meshRes base els fr (fun _ => 0) d) → ∀ d < N, v d = 0)
    (XR XI : Nat → ℝ) (hR : readVec (vecName sys false false) s = XR) (hI : readVec (vecName sys true false) s = XI) (hs : ∀ d, (⟨XR d, XI d⟩ : ℂ) = x 0 d)
    (hk : SolvesAt (2 * N) (blocked (some base) (els.map (toC fr dω)) true XR XI).1 (fun i => -1 * (blocked (some base) (els.map (toC fr dω)) true XR XI).2 i)
      (ksp (blocked (some base) (els.map (toC fr dω)) true XR XI).1 fun i => -1 * (blocked (some base) (els.map (toC fr dω)) true XR XI).2 i)) :
    (∀ d < N, stored sys true (solve ksp base els fr dω sys N true s) d = w d) ∧ stored sys false (solve ksp base els fr dω sys N true s) = stored sys false s := by
  have h1 := CSolve.sens_of_linear ksp (some base) (els.map (toC fr dω)) sys N s XR XI w ⟨hR, hI⟩ (sens_equation base els fr dω N h hq W h0 hW x w hx hsol XR XI hs) (fun v hv => ?_) hk
  · exact ⟨h1.1, funext fun d => by unfold stored solve; rw [h1.2 false, h1.2 true]⟩
  · refine hreg v fun d hd => ?_
    unfold meshRes
    have h5 := mesh_mul base els fr dω N h (fun e => (toC fr dω e).vec (e.get base) fun _ => 0) (fun e => e.vec (fun a => base (e.dof a)) fun _ => 0) (fun e a => rfl) XR XI v d
    rw [hv d hd, add_zero] at h5
    refine Eq.trans (assembled_congr _ _ els (fun e he a _ => vec_affine base N e (h e he) fr dω (e.get v) a) d) h5

/-! ### Example: a layer of gas at rest in front of a piston -/

/-- A real vector that solves the block system, from a complex one that solves the complex system. -/
theorem blocked_solves (B : Option (Nat → ℝ)) (els : List CSolve.CElem) (p : Bool) (XR XI : Nat → ℝ) (N : Nat) (z : Nat → ℂ)
    (h : ∀ d < N, ∑ k ∈ range N, CSolve.jacobian B els XR XI d k * z k = -(if p then CSolve.partialSens B els XR XI d else CSolve.residual B els XR XI d)) :
    SolvesAt (2 * N) (blocked B els p XR XI).1 (fun i => -1 * (blocked B els p XR XI).2 i) fun i => if i % 2 = 0 then (z (i / 2)).re else (z (i / 2)).im := by
  intro a ha
  have even_odd : ∀ f : Nat → ℝ, ∑ b ∈ range (2 * N), f b = ∑ e ∈ range N, (f (2 * e) + f (2 * e + 1)) := by
    intro f
    induction N with
    | zero => simp
    | succ N ih =>
      rw [show 2 * (N + 1) = 2 * N + 1 + 1 by ring, Finset.sum_range_succ, Finset.sum_range_succ, Finset.sum_range_succ]
      have : ∑ b ∈ range (2 * N), f b = ∑ e ∈ range N, (f (2 * e) + f (2 * e + 1)) := by
        clear ih h ha
        induction N with
        | zero => simp
        | succ N ih => rw [show 2 * (N + 1) = 2 * N + 1 + 1 by ring, Finset.sum_range_succ, Finset.sum_range_succ, Finset.sum_range_succ, ih, add_assoc]
      rw [this, add_assoc]
  have hb := fun d e => CR.C38_blocked_assembly (els.map (CSolve.toData B els p XR XI)) d e
  simp only [CSolve.data_mat, CSolve.data_vec] at hb
  rw [CSolve.blocked_eq, even_odd]
  have q1 : ∀ d, 2 * d / 2 = d := fun d => by omega
  have q2 : ∀ d, (2 * d + 1) / 2 = d := fun d => by omega
  have m1 : ∀ d, 2 * d % 2 = 0 := fun d => by omega
  have m2 : ∀ d, ¬ (2 * d + 1) % 2 = 0 := fun d => by omega
  simp only [q1, q2, m1, m2, if_true, if_false]
  rcases Nat.even_or_odd' a with ⟨d, rfl | rfl⟩
  · have hre := congrArg Complex.re (h d (by omega))
    rw [Complex.re_sum, Complex.neg_re] at hre
    rw [(hb d 0).2.2.2.2.1]
    refine Eq.trans (Finset.sum_congr rfl fun e _ => ?_) (hre.trans (by ring))
    rw [(hb d e).1, (hb d e).2.1, Complex.mul_re]; ring
  · have him := congrArg Complex.im (h d (by omega))
    rw [Complex.im_sum, Complex.neg_im] at him
    rw [(hb d 0).2.2.2.2.2]
    refine Eq.trans (Finset.sum_congr rfl fun e _ => ?_) (him.trans (by ring))
    rw [(hb d e).2.2.1, (hb d e).2.2.2.1, Complex.mul_im]; ring

/-- A layer of gas: one element of a line flow with one shape function, whose side is a slip wall that moves with a unit displacement. -/
noncomputable def layer : FlowElem where
  c := ⟨1, 1, 7, 5, false⟩
  T := fun _ _ _ _ => 0
  dc := fun _ _ _ => 0
  qs := [⟨1, fun _ => 1, fun _ _ => 0, fun _ _ _ => 0⟩]
  loads := [⟨.slip, [wallFreq none none fun _ => 1]⟩]
  dof := fun a => a

/-- Gas at rest. -/
noncomputable def rest (d : Nat) : ℝ := if d = 0 then 1 else if d = 1 then 0 else if d = 2 then 5 else 0

theorem layer_good : Good rest 3 layer := by
  refine ⟨.inl rfl, by norm_num [layer], ?_, ?_, fun a ha => ?_⟩
  · intro L hL; rw [List.mem_singleton.1 hL]; simp
  · intro L hL _ q hq
    rw [List.mem_singleton.1 hL] at hq
    rw [List.mem_singleton.1 hq]
    exact ⟨by simp [layer, fieldOf, FlowElem.get, rest, pos, wallFreq, wallPt, interp, act], rfl⟩
  · simpa [layer, FlowElem.nd] using ha

theorem layer_harmless (x : Nat → ℂ) : FreqOps.Harmless layer.c (fieldOf layer.c (layer.get rest)) (cfieldOf layer.c (layer.get x)) layer.loads := by
  intro L hL _ q hq
  rw [List.mem_singleton.1 hL] at hq
  rw [List.mem_singleton.1 hq]
  exact conjFree_real _ _ _ _ rfl fun i => by simp [wallFreq, FreqWallQp.Dw']

theorem layer_res (ω : ℝ) (x : Nat → ℂ) : meshRes rest [layer] ⟨ω, 1, 1, false⟩ x 0 = I * ω * x 0 + I * ω ∧ meshRes rest [layer] ⟨ω, 1, 1, false⟩ x 1 = I * ω * x 1 + 2 / 5 * x 2
    ∧ meshRes rest [layer] ⟨ω, 1, 1, false⟩ x 2 = I * ω * x 2 + 7 * (I * ω) := by
  have hr := FreqOps.elemRes_ok layer.c layer.T layer.dc layer.qs layer.loads layer_good.2.2.1 (fieldOf layer.c (layer.get rest)) ⟨ω, 1, 1, false⟩ (cfieldOf layer.c (layer.get x))
  have e : ∀ d, meshRes rest [layer] ⟨ω, 1, 1, false⟩ x d = ∑ a ∈ range 3, if a = d then
      entry layer.c (vecOf (FreqOps.elemRes layer.c layer.T layer.dc layer.qs layer.loads (fieldOf layer.c (layer.get rest)) ⟨ω, 1, 1, false⟩ (cfieldOf layer.c (layer.get x)))) a else 0 := by
    intro d
    simp only [meshRes, assembled, List.map_cons, List.map_nil, List.sum_cons, List.sum_nil, add_zero]
    rfl
  have hu : (univ : Finset Var) = {.rho, .m1, .m2, .m3, .en} := rfl
  rw [e, e, e, hr]
  refine ⟨?_, ?_, ?_⟩
  all_goals
    simp [entry, vecOf, varAt, layer, FlowElem.get, fieldOf, cfieldOf, pos, rest, freqRes, freqMat, internalJac, jacQp, lsOp, lsSens, velocityJacXdot, cjacMul, FreqOps.part, freqSlipRes, freqSlipFlux,
      wallFreq, wallPt, FreqWallQp.Dw', FreqWallQp.Dn', FreqWallQp.dn', FreqWallQp.w', edot, cmomEntry, Fin.sum_univ_three, sideNormal, interp, cinterp, act, Freq.factor, Freq.value, cduv, cdp, prim, uini, uv]
  all_goals simp [hu, act, at']
  all_goals ring

/-- Amplitude of the layer at the frequency `ω`: the density and the energy follow the compression, the momentum the inertia of the gas. -/
noncomputable def layerSol (ω : ℝ) (d : Nat) : ℂ := if d = 0 then -1 else if d = 1 then -(14 / 5) * I * ((ω⁻¹ : ℝ) : ℂ) else if d = 2 then -7 else 0

theorem layer_sol (ω : ℝ) (h : ω ≠ 0) (d : Nat) (hd : d < 3) : meshRes rest [layer] ⟨ω, 1, 1, false⟩ (layerSol ω) d = 0 := by
  obtain ⟨h0, h1, h2⟩ := layer_res ω (layerSol ω)
  have hω : (ω : ℂ) ≠ 0 := by exact_mod_cast h
  have hm : I * (ω : ℂ) * (-(14 / 5) * I * ((ω⁻¹ : ℝ) : ℂ)) = 14 / 5 := by
    rw [show I * (ω : ℂ) * (-(14 / 5) * I * ((ω⁻¹ : ℝ) : ℂ)) = -(I * I) * (14 / 5) * ((ω : ℂ) * ((ω⁻¹ : ℝ) : ℂ)) by ring, I_mul_I, ofReal_inv, mul_inv_cancel₀ hω]; ring
  interval_cases d
  · rw [h0]; simp [layerSol]
  · rw [h1]
    have e1 : layerSol ω 1 = -(14 / 5) * I * ((ω⁻¹ : ℝ) : ℂ) := rfl
    have e2 : layerSol ω 2 = -7 := rfl
    rw [e1, e2, hm]; norm_num
  · rw [h2]
    have e2 : layerSol ω 2 = -7 := rfl
    rw [e2]; ring

theorem layer_unique (v : Nat → ℂ) (h : ∀ d < 3, meshRes rest [layer] ⟨1, 1, 1, false⟩ v d = meshRes rest [layer] ⟨1, 1, 1, false⟩ (fun _ => 0) d) (d : Nat) (hd : d < 3) : v d = 0 := by
  obtain ⟨a0, a1, a2⟩ := layer_res 1 v
  obtain ⟨b0, b1, b2⟩ := layer_res 1 fun _ => 0
  have h0 := h 0 (by norm_num)
  have h1 := h 1 (by norm_num)
  have h2 := h 2 (by norm_num)
  rw [a0, b0] at h0
  rw [a1, b1] at h1
  rw [a2, b2] at h2
  simp [I_ne_zero] at h0 h2
  simp [I_ne_zero, h2] at h1
  interval_cases d
  · exact h0
  · exact h1
  · exact h2

/-- Non-vacuity of `C200_response_partial`: the response of the layer to the piston, with a linear solver that solves. -/
example : ∃ (ksp : (Nat → Nat → ℝ) → (Nat → ℝ) → Nat → ℝ) (els : List FlowElem) (base : Nat → ℝ) (fr : Freq), els ≠ [] ∧ (∀ e ∈ els, Good base 3 e) ∧ fr.omega = fr.factor * 1 ∧ fr.factor ≠ 0 ∧
    SolvesAt (2 * 3) (blocked (some base) (els.map (toC fr 1)) false (fun _ => 0) fun _ => 0).1 (fun i => -1 * (blocked (some base) (els.map (toC fr 1)) false (fun _ => 0) fun _ => 0).2 i)
      (ksp (blocked (some base) (els.map (toC fr 1)) false (fun _ => 0) fun _ => 0).1 fun i => -1 * (blocked (some base) (els.map (toC fr 1)) false (fun _ => 0) fun _ => 0).2 i) ∧
    ∀ x, ∀ e ∈ els, FreqOps.Harmless e.c (fieldOf e.c (e.get base)) (cfieldOf e.c (e.get x)) e.loads := by
  have hg : ∀ e ∈ [layer], Good rest 3 e := fun e he => by rw [List.mem_singleton.1 he]; exact layer_good
  refine ⟨fun _ _ i => if i % 2 = 0 then (layerSol 1 (i / 2)).re else (layerSol 1 (i / 2)).im, [layer], rest, ⟨1, 1, 1, false⟩, by simp, hg, by simp [Freq.factor], by simp [Freq.factor], ?_, fun x e he => ?_⟩
  · refine blocked_solves _ _ _ _ _ _ _ fun d hd => ?_
    have h5 := mesh_mul rest [layer] ⟨1, 1, 1, false⟩ 1 3 hg (fun e => (toC ⟨1, 1, 1, false⟩ 1 e).vec (e.get rest) fun _ => 0) (fun e => e.vec (fun a => rest (e.dof a)) fun _ => 0) (fun e a => rfl) (fun _ => 0) (fun _ => 0)
      (layerSol 1) d
    have h6 := (assembled_congr _ _ [layer] (fun e he a _ => vec_affine rest 3 e (hg e he) ⟨1, 1, 1, false⟩ 1 (e.get (layerSol 1)) a) d).symm.trans (layer_sol 1 one_ne_zero d hd)
    have h7 := h5.symm.trans h6
    have h8 : CSolve.residual (some rest) ([layer].map (toC ⟨1, 1, 1, false⟩ 1)) (fun _ => 0) (fun _ => 0) d = assembled (fun e => (toC ⟨1, 1, 1, false⟩ 1 e).vec (e.get rest) fun _ => 0) [layer] d := by
      unfold CSolve.residual; rw [cVec_map]; rfl
    rw [if_neg (by decide), h8]
    exact eq_neg_of_add_eq_zero_right h7
  · rw [List.mem_singleton.1 he]; exact layer_harmless x

/-- Non-vacuity of `C200_sensitivity_partial`: the layer with the frequency `exp t`; the momentum has a sensitivity. -/
example : ∃ (els : List FlowElem) (base : Nat → ℝ) (fr : Freq) (W : ℝ → ℝ) (x : ℝ → Nat → ℂ) (w : Nat → ℂ) (ksp : (Nat → Nat → ℝ) → (Nat → ℝ) → Nat → ℝ), els ≠ [] ∧ (∀ e ∈ els, Good base 3 e) ∧
    (∀ e ∈ els, FreqOps.Plain e.loads) ∧ W 0 = fr.omega ∧ HasDerivAt W 1 0 ∧ (∀ d, HasDerivAt (fun t => x t d) (w d) 0) ∧ w 1 ≠ 0 ∧ (∀ t : ℝ, ∀ d < 3, meshRes base els { fr with omega := W t } (x t) d = 0) ∧
    (∀ v : Nat → ℂ, (∀ d < 3, meshRes base els fr v d = meshRes base els fr (fun _ => 0) d) → ∀ d < 3, v d = 0) ∧
    SolvesAt (2 * 3) (blocked (some base) (els.map (toC fr 1)) true (fun d => (x 0 d).re) fun d => (x 0 d).im).1
      (fun i => -1 * (blocked (some base) (els.map (toC fr 1)) true (fun d => (x 0 d).re) fun d => (x 0 d).im).2 i)
      (ksp (blocked (some base) (els.map (toC fr 1)) true (fun d => (x 0 d).re) fun d => (x 0 d).im).1
        fun i => -1 * (blocked (some base) (els.map (toC fr 1)) true (fun d => (x 0 d).re) fun d => (x 0 d).im).2 i) := by
  have hg : ∀ e ∈ [layer], Good rest 3 e := fun e he => by rw [List.mem_singleton.1 he]; exact layer_good
  have hp : ∀ e ∈ [layer], FreqOps.Plain e.loads := by
    intro e he
    rw [List.mem_singleton.1 he]
    intro L hL _ q hq
    rw [List.mem_singleton.1 hL] at hq
    rw [List.mem_singleton.1 hq]; exact .inr rfl
  have hW : HasDerivAt (fun t : ℝ => Real.exp t) 1 0 := by simpa using Real.hasDerivAt_exp 0
  set w : Nat → ℂ := fun d => if d = 1 then 14 / 5 * I else 0 with hw
  have hx : ∀ d, HasDerivAt (fun t : ℝ => layerSol (Real.exp t) d) (w d) 0 := by
    intro d
    by_cases h1 : d = 1
    · subst h1
      have h2 : HasDerivAt (fun t : ℝ => (Real.exp t)⁻¹) (-1) 0 := by simpa using hW.fun_inv (Real.exp_ne_zero 0)
      have h3 : HasDerivAt (fun t : ℝ => (((Real.exp t)⁻¹ : ℝ) : ℂ)) ((-1 : ℝ) : ℂ) 0 := h2.ofReal_comp
      refine (h3.const_mul (-(14 / 5) * I)).congr_deriv ?_
      simp [hw]
    · have e1 : ∀ t : ℝ, layerSol (Real.exp t) d = layerSol 1 d := fun t => by unfold layerSol; simp only [h1, if_false]
      simp only [e1]
      have e2 : w d = 0 := by simp [hw, h1]
      rw [e2]
      exact hasDerivAt_const (0:ℝ) (layerSol 1 d)
  have hs : ∀ t : ℝ, ∀ d < 3, meshRes rest [layer] { (⟨1, 1, 1, false⟩ : Freq) with omega := Real.exp t } (layerSol (Real.exp t)) d = 0 := fun t d hd => layer_sol _ (Real.exp_ne_zero t) d hd
  refine ⟨[layer], rest, ⟨1, 1, 1, false⟩, fun t => Real.exp t, fun t => layerSol (Real.exp t), w, fun _ _ i => if i % 2 = 0 then (w (i / 2)).re else (w (i / 2)).im, by simp, hg, hp, Real.exp_zero, hW, hx, ?_, hs,
    layer_unique, ?_⟩
  · simp [hw, I_ne_zero]
  · refine blocked_solves _ _ _ _ _ _ _ fun d hd => ?_
    exact sens_equation rest [layer] ⟨1, 1, 1, false⟩ 1 3 hg hp (fun t => Real.exp t) Real.exp_zero hW (fun t => layerSol (Real.exp t)) w hx hs _ _ (fun d => rfl) d hd

end Verif.FreqFlow
