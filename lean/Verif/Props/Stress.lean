import Mathlib.Analysis.SpecialFunctions.Pow.Deriv
import Mathlib.Analysis.SpecialFunctions.ExpDeriv
import Mathlib.Analysis.SpecialFunctions.Log.Deriv
import Mathlib.Analysis.SpecialFunctions.Sqrt
import Mathlib.Analysis.InnerProductSpace.PiL2
import Mathlib.LinearAlgebra.Matrix.Trace
import Mathlib.LinearAlgebra.Matrix.DotProduct
import Mathlib.Algebra.BigOperators.Fin
import Mathlib.Tactic.FieldSimp
import Mathlib.Tactic.Linarith
import Mathlib.Tactic.NormNum
import Mathlib.Tactic.Ring
import Verif.Model.Stress
/-
  C51 (von Mises stress), C52 (its sensitivities), C53 (p-norm aggregate), C54 (KS aggregate), C55 (smooth ramp).
-/
namespace Verif.Stress
open Matrix Filter Topology

/-! ### Specification: the stress tensor, its deviator -/

/-- The symmetric stress tensor of a stress vector (xx, yy, zz, xy, yz, zx). -/
def tensor (s : Vec6) : Matrix (Fin 3) (Fin 3) ℝ := !![s 0, s 3, s 5; s 3, s 1, s 4; s 5, s 4, s 2]

/-- The stress vector of a tensor. -/
def ofTensor (T : Matrix (Fin 3) (Fin 3) ℝ) : Vec6 := ![T 0 0, T 1 1, T 2 2, T 0 1, T 1 2, T 0 2]

/-- The deviatoric part of a tensor. -/
noncomputable def deviator (T : Matrix (Fin 3) (Fin 3) ℝ) : Matrix (Fin 3) (Fin 3) ℝ := T - (T.trace / 3) • (1 : Matrix (Fin 3) (Fin 3) ℝ)

/-- Double contraction. -/
def ddot (A B : Matrix (Fin 3) (Fin 3) ℝ) : ℝ := ∑ i, ∑ j, A i j * B i j

/-- A hydrostatic stress vector of pressure `h`. -/
def hydro (h : ℝ) : Vec6 := ![h, h, h, 0, 0, 0]

theorem vmArg_nonneg (s : Vec6) : 0 ≤ vmArg s := by unfold vmArg; positivity

theorem vonMises_sqrt (s : Vec6) : vonMises s = Real.sqrt (vmArg s) := by
  rw [vonMises, Real.sqrt_eq_rpow]

/-- C51: the von Mises stress is `sqrt(3/2 s:s)` of the deviator `s` of the stress tensor. -/
theorem C51_deviator (s : Vec6) : vonMises s = Real.sqrt (3 / 2 * ddot (deviator (tensor s)) (deviator (tensor s))) := by
  rw [vonMises_sqrt]; congr 1
  simp [vmArg, ddot, deviator, tensor, Fin.sum_univ_three, Matrix.trace, Matrix.one_apply]
  ring

/-- C51: nonnegative. -/
theorem C51_nonneg (s : Vec6) : 0 ≤ vonMises s := by rw [vonMises_sqrt]; exact Real.sqrt_nonneg _

/-- C51: absolutely homogeneous of degree one. -/
theorem C51_homogeneous (a : ℝ) (s : Vec6) : vonMises (a • s) = |a| * vonMises s := by
  have : vmArg (a • s) = a ^ 2 * vmArg s := by simp only [vmArg, Pi.smul_apply, smul_eq_mul]; ring
  rw [vonMises_sqrt, vonMises_sqrt, this, Real.sqrt_mul (sq_nonneg a), Real.sqrt_sq_eq_abs]

/-- C51: adding a hydrostatic pressure changes nothing. -/
theorem C51_hydrostatic_invariant (h : ℝ) (s : Vec6) : vonMises (s + hydro h) = vonMises s := by
  have : vmArg (s + hydro h) = vmArg s := by
    simp [vmArg, hydro, Pi.add_apply]
  rw [vonMises_sqrt, vonMises_sqrt, this]

/-- C51: zero exactly for hydrostatic states. -/
theorem C51_zero_iff (s : Vec6) : vonMises s = 0 ↔ ∃ h, s = hydro h := by
  constructor
  · intro h0
    rw [vonMises_sqrt, Real.sqrt_eq_zero (vmArg_nonneg s)] at h0
    unfold vmArg at h0
    have e0 := sq_nonneg (s 0 - s 1); have e1 := sq_nonneg (s 1 - s 2); have e2 := sq_nonneg (s 2 - s 0)
    have e3 := sq_nonneg (s 3); have e4 := sq_nonneg (s 4); have e5 := sq_nonneg (s 5)
    have h01 : s 0 - s 1 = 0 := pow_eq_zero_iff (two_ne_zero) |>.1 (by norm_num at h0; linarith)
    have h12 : s 1 - s 2 = 0 := pow_eq_zero_iff (two_ne_zero) |>.1 (by norm_num at h0; linarith)
    have h3 : s 3 = 0 := pow_eq_zero_iff (two_ne_zero) |>.1 (by norm_num at h0; linarith)
    have h4 : s 4 = 0 := pow_eq_zero_iff (two_ne_zero) |>.1 (by norm_num at h0; linarith)
    have h5 : s 5 = 0 := pow_eq_zero_iff (two_ne_zero) |>.1 (by norm_num at h0; linarith)
    refine ⟨s 0, ?_⟩
    funext i
    fin_cases i <;> simp [hydro] <;> linarith
  · rintro ⟨h, rfl⟩
    rw [vonMises_sqrt]; simp [vmArg, hydro]

theorem tensor_ofTensor {T : Matrix (Fin 3) (Fin 3) ℝ} (hT : T.transpose = T) : tensor (ofTensor T) = T := by
  have h : ∀ i j, T j i = T i j := fun i j => by rw [← Matrix.transpose_apply T, hT]
  ext i j
  fin_cases i <;> fin_cases j <;> simp [tensor, ofTensor, h 0 1, h 1 2, h 0 2]

theorem vmArg_trace (s : Vec6) : vmArg s = 3 / 2 * ((tensor s * tensor s).trace - (tensor s).trace ^ 2 / 3) := by
  simp [vmArg, tensor, Matrix.trace, Fin.sum_univ_three, Matrix.mul_apply]
  ring

/-- C51: the von Mises stress does not depend on the (orthonormal) frame in which the stress components are given; in particular it is
invariant under permutation of the axes. -/
theorem C51_frame_invariant (Q : Matrix (Fin 3) (Fin 3) ℝ) (hQ : Q * Q.transpose = 1) (s : Vec6) :
    vonMises (ofTensor (Q * tensor s * Q.transpose)) = vonMises s := by
  have hQ' : Q.transpose * Q = 1 := mul_eq_one_comm.1 hQ
  have hs : (tensor s).transpose = tensor s := by
    ext i j; fin_cases i <;> fin_cases j <;> simp [tensor]
  have ht : (Q * tensor s * Q.transpose).transpose = Q * tensor s * Q.transpose := by
    rw [Matrix.transpose_mul, Matrix.transpose_mul, Matrix.transpose_transpose, hs, Matrix.mul_assoc]
  rw [vonMises_sqrt, vonMises_sqrt, vmArg_trace, vmArg_trace s, tensor_ofTensor ht]
  have e1 : (Q * tensor s * Q.transpose).trace = (tensor s).trace := by
    rw [Matrix.trace_mul_comm, ← Matrix.mul_assoc, hQ', Matrix.one_mul]
  have e2 : Q * tensor s * Q.transpose * (Q * tensor s * Q.transpose) = Q * (tensor s * tensor s) * Q.transpose := by
    calc Q * tensor s * Q.transpose * (Q * tensor s * Q.transpose)
        = Q * tensor s * (Q.transpose * Q) * tensor s * Q.transpose := by simp only [Matrix.mul_assoc]
      _ = _ := by rw [hQ', Matrix.mul_one]; simp only [Matrix.mul_assoc]
  have e3 : (Q * (tensor s * tensor s) * Q.transpose).trace = (tensor s * tensor s).trace := by
    rw [Matrix.trace_mul_comm, ← Matrix.mul_assoc, hQ', Matrix.one_mul]
  rw [e1, e2, e3]

/-- The linear map whose Euclidean norm is the von Mises stress. -/
noncomputable def vmLin (s : Vec6) : EuclideanSpace ℝ (Fin 6) :=
  !₂[Real.sqrt (1/2) * (s 0 - s 1), Real.sqrt (1/2) * (s 1 - s 2), Real.sqrt (1/2) * (s 2 - s 0),
    Real.sqrt 3 * s 3, Real.sqrt 3 * s 4, Real.sqrt 3 * s 5]

theorem vonMises_norm (s : Vec6) : vonMises s = ‖vmLin s‖ := by
  rw [vonMises_sqrt, EuclideanSpace.norm_eq]
  congr 1
  have h2 : Real.sqrt (1/2) ^ 2 = 1/2 := Real.sq_sqrt (by norm_num)
  have h3 : Real.sqrt 3 ^ 2 = 3 := Real.sq_sqrt (by norm_num)
  simp only [Fin.sum_univ_six, vmLin, Real.norm_eq_abs, sq_abs]
  simp only [PiLp.toLp_apply, Matrix.cons_val, mul_pow, h2, h3, vmArg]
  norm_num
  ring

/-- C51: the von Mises stress is a seminorm: the stress of a superposition is at most the sum of the stresses. -/
theorem C51_triangle (s t : Vec6) : vonMises (s + t) ≤ vonMises s + vonMises t := by
  rw [vonMises_norm, vonMises_norm, vonMises_norm]
  have : vmLin (s + t) = vmLin s + vmLin t := by
    ext i; fin_cases i <;> simp [vmLin] <;> ring
  rw [this]; exact norm_add_le _ _

/-- A uniaxial stress has itself as von Mises stress, a pure shear `τ` has `√3 τ`. -/
example : vonMises ![5, 0, 0, 0, 0, 0] = 5 := by
  rw [vonMises_sqrt]
  have : vmArg ![5, 0, 0, 0, 0, 0] = 5 ^ 2 := by simp [vmArg]; norm_num
  rw [this, Real.sqrt_sq (by norm_num)]

example : vonMises ![0, 0, 0, 2, 0, 0] = Real.sqrt 3 * 2 := by
  rw [vonMises_sqrt]
  have : vmArg ![0, 0, 0, 2, 0, 0] = 3 * 2 ^ 2 := by simp [vmArg]
  rw [this, Real.sqrt_mul (by norm_num), Real.sqrt_sq (by norm_num)]

/-! ### C52 -/

/-- The von Mises derivative along a stress derivative. -/
theorem hasDerivAt_vonMises {σ : ℝ → Vec6} {ds : Vec6} {t : ℝ} (hσ : ∀ i, HasDerivAt (fun t => σ t i) (ds i) t)
    (h0 : vonMises (σ t) ≠ 0) : HasDerivAt (fun t => vonMises (σ t)) (dVonMises (σ t) ds) t := by
  have hne : vmArg (σ t) ≠ 0 := by
    intro h; apply h0; rw [vonMises_sqrt, h, Real.sqrt_zero]
  have harg : HasDerivAt (fun t => vmArg (σ t))
      (((ds 0 - ds 1) * (σ t 0 - σ t 1) + (ds 1 - ds 2) * (σ t 1 - σ t 2) + (ds 2 - ds 0) * (σ t 2 - σ t 0)) +
        6 * (ds 3 * σ t 3 + ds 4 * σ t 4 + ds 5 * σ t 5)) t := by
    unfold vmArg
    have a := ((hσ 0).sub (hσ 1)).pow 2
    have b := ((hσ 1).sub (hσ 2)).pow 2
    have c := ((hσ 2).sub (hσ 0)).pow 2
    have e := (((a.add b).add c).const_mul (1 / 2 : ℝ)).add
      (((((hσ 3).pow 2).add ((hσ 4).pow 2)).add ((hσ 5).pow 2)).const_mul (3 : ℝ))
    refine e.congr_deriv ?_
    simp only [Pi.sub_apply, Pi.add_apply, Pi.pow_apply]
    norm_num
    ring
  have := harg.rpow_const (p := (1 / 2 : ℝ)) (Or.inl hne)
  refine this.congr_deriv ?_
  rw [dVonMises, if_pos (abs_pos.2 hne)]
  norm_num

/-- C52: along any stress history that is differentiable with the registered sensitivity, `dvon_Mises_stress_dp` is the derivative of the von Mises stress
wherever the stress is not hydrostatic. -/
theorem C52_dp {F : Type} {n : Nat} (γ : ℝ → Data F n) (f : F) (ds : Vec6) (t : ℝ) (hreg : (γ t).sens f = some ds)
    (hσ : ∀ i, HasDerivAt (fun t => (γ t).stress i) (ds i) t) (h0 : ¬ ∃ h, (γ t).stress = hydro h) :
    HasDerivAt (fun t => vonMises (γ t).stress) (dVonMisesDp (γ t) f) t := by
  have h0' : vonMises (γ t).stress ≠ 0 := fun h => h0 ((C51_zero_iff _).1 h)
  simpa only [dVonMisesDp, hreg] using hasDerivAt_vonMises hσ h0'

theorem dVonMisesDX_dot {F : Type} {n : Nat} (d : Data F n) (v : Fin n → ℝ) :
    dVonMisesDX d ⬝ᵥ v = dVonMises d.stress (d.dX *ᵥ v) := by
  unfold dVonMises dVonMisesDX
  by_cases h : 0 < |vmArg d.stress|
  · simp only [if_pos h, dotProduct, mulVec]
    simp only [← Finset.sum_sub_distrib, Finset.sum_mul, Finset.mul_sum, ← Finset.sum_add_distrib]
    refine Finset.sum_congr rfl fun j _ => ?_
    ring
  · simp only [if_neg h, dotProduct, zero_mul, Finset.sum_const_zero]

/-- C52: `dvon_Mises_stress_dX` is the gradient: along a motion with velocity `v` of the element dofs its product with `v` is the derivative. -/
theorem C52_dX {F : Type} {n : Nat} (γ : ℝ → Data F n) (v : Fin n → ℝ) (t : ℝ)
    (hσ : ∀ i, HasDerivAt (fun t => (γ t).stress i) (((γ t).dX *ᵥ v) i) t) (h0 : ¬ ∃ h, (γ t).stress = hydro h) :
    HasDerivAt (fun t => vonMises (γ t).stress) (dVonMisesDX (γ t) ⬝ᵥ v) t := by
  rw [dVonMisesDX_dot]
  exact hasDerivAt_vonMises hσ fun h => h0 ((C51_zero_iff _).1 h)

/-- C52: both are zero at a hydrostatic stress, and `dvon_Mises_stress_dp` is zero when nothing was registered for the parameter. -/
theorem C52_degenerate {F : Type} {n : Nat} (d : Data F n) (f : F) :
    (d.sens f = none → dVonMisesDp d f = 0) ∧
    ((∃ h, d.stress = hydro h) → dVonMisesDp d f = 0 ∧ dVonMisesDX d = 0) := by
  refine ⟨fun h => by simp [dVonMisesDp, h], fun h => ?_⟩
  have h0 : vmArg d.stress = 0 := by
    have := (C51_zero_iff d.stress).2 h
    rwa [vonMises_sqrt, Real.sqrt_eq_zero (vmArg_nonneg _)] at this
  constructor
  · unfold dVonMisesDp
    split
    · rfl
    · simp [dVonMises, h0]
  · funext j; simp [dVonMisesDX, h0]

/-- A concrete case: uniaxial stress `t`, registered sensitivity one. -/
example : HasDerivAt (fun t : ℝ => vonMises ![t, 0, 0, 0, 0, 0])
    (dVonMisesDp (⟨![2, 0, 0, 0, 0, 0], fun _ => some ![1, 0, 0, 0, 0, 0], 0, 1⟩ : Data Unit 0) ()) 2 := by
  refine C52_dp (n := 0) (fun t => ⟨![t, 0, 0, 0, 0, 0], fun _ => some ![1, 0, 0, 0, 0, 0], 0, 1⟩) () _ 2 rfl ?_ ?_
  · intro i
    fin_cases i <;> simp <;> first | exact hasDerivAt_id 2 | exact hasDerivAt_const _ _
  · rintro ⟨h, hh⟩
    have h0 := congrFun hh 0; have h1 := congrFun hh 1
    simp [hydro] at h0 h1; linarith

/-! ### Sums over the data -/

section sums
variable {F : Type} {n : Nat}

/-- All stress data of all processes, as a flat list. -/
def points (w : World F n) : List (Data F n) := w.flatten.flatten

theorem sumAll_flat (w : World F n) (g : Data F n → ℝ) : sumAll w g = ((points w).map g).sum := by
  unfold sumAll points
  induction w with
  | nil => rfl
  | cons m w ih =>
    simp only [List.map_cons, List.sum_cons, List.flatten_cons, List.flatten_append, List.map_append, List.sum_append, ih]
    congr 1
    clear ih
    induction m with
    | nil => rfl
    | cons v m ih => simp [ih]

/-- Weighted sums: bounds. -/
theorem sum_le_of_le {α : Type} (L : List α) (f g : α → ℝ) (h : ∀ x ∈ L, f x ≤ g x) : (L.map f).sum ≤ (L.map g).sum := by
  induction L with
  | nil => simp
  | cons a L ih =>
    simp only [List.map_cons, List.sum_cons]
    exact add_le_add (h a (by simp)) (ih fun x hx => h x (by simp [hx]))

theorem sum_const_mul {α : Type} (L : List α) (c : ℝ) (f : α → ℝ) : (L.map fun x => c * f x).sum = c * (L.map f).sum := by
  induction L with
  | nil => simp
  | cons a L ih => simp only [List.map_cons, List.sum_cons, ih]; ring

theorem sum_pos_of {α : Type} (L : List α) (f : α → ℝ) (h : ∀ x ∈ L, 0 ≤ f x) (hp : ∃ x ∈ L, 0 < f x) : 0 < (L.map f).sum := by
  induction L with
  | nil => simp at hp
  | cons a L ih =>
    simp only [List.map_cons, List.sum_cons]
    obtain ⟨x, hx, hpos⟩ := hp
    rcases List.mem_cons.1 hx with rfl | hx
    · have : 0 ≤ (L.map f).sum := List.sum_nonneg (by
        intro y hy; obtain ⟨z, hz, rfl⟩ := List.mem_map.1 hy; exact h z (by simp [hz]))
      linarith
    · have := ih (fun x hx => h x (by simp [hx])) ⟨x, hx, hpos⟩
      have := h a (by simp)
      linarith

theorem hasDerivAt_list_sum {ι : Type} (L : List ι) (f : ι → ℝ → ℝ) (f' : ι → ℝ) (t : ℝ) (h : ∀ x ∈ L, HasDerivAt (f x) (f' x) t) :
    HasDerivAt (fun t => (L.map fun x => f x t).sum) (L.map f').sum t := by
  induction L with
  | nil => simpa using hasDerivAt_const t (0 : ℝ)
  | cons a L ih =>
    simp only [List.map_cons, List.sum_cons]
    exact (h a (by simp)).add (ih fun x hx => h x (by simp [hx]))

end sums

/-! ### Specification: histories of the stress data -/

section hist
variable {F : Type} {n : Nat}

/-- A history of all stress data under variation of a scalar parameter. -/
abbrev History (F : Type) (n : Nat) := List (List (List (ℝ → Data F n)))

/-- The data at parameter value `t`. -/
def History.at (W : History F n) (t : ℝ) : World F n := W.map fun m => m.map fun v => v.map fun γ => γ t

/-- The registered sensitivities (nothing registered counts as zero) are the derivatives of the stresses at `t`, the quadrature weights are fixed, and
no stress passes through a hydrostatic state at `t` (unless it stays hydrostatic). -/
structure History.Consistent (W : History F n) (f : F) (t : ℝ) : Prop where
  deriv : ∀ m ∈ W, ∀ v ∈ m, ∀ γ ∈ v, ∀ i, HasDerivAt (fun t => (γ t).stress i) (((γ t).sens f).getD 0 i) t
  weight : ∀ m ∈ W, ∀ v ∈ m, ∀ γ ∈ v, ∀ s, (γ s).JxW = (γ t).JxW
  nokink : ∀ m ∈ W, ∀ v ∈ m, ∀ γ ∈ v, vonMises (γ t).stress ≠ 0 ∨ ∀ᶠ s in 𝓝 t, vonMises (γ s).stress = 0

theorem dVonMises_at_zero {s ds : Vec6} (h : vonMises s = 0) : dVonMises s ds = 0 := by
  have h0 : vmArg s = 0 := by rwa [vonMises_sqrt, Real.sqrt_eq_zero (vmArg_nonneg _)] at h
  simp [dVonMises, h0]

theorem hasDerivAt_vm' {σ : ℝ → Vec6} {ds : Vec6} {t : ℝ} (hσ : ∀ i, HasDerivAt (fun t => σ t i) (ds i) t)
    (h0 : vonMises (σ t) ≠ 0 ∨ ∀ᶠ s in 𝓝 t, vonMises (σ s) = 0) : HasDerivAt (fun t => vonMises (σ t)) (dVonMises (σ t) ds) t := by
  rcases h0 with h0 | h0
  · exact hasDerivAt_vonMises hσ h0
  · rw [dVonMises_at_zero h0.self_of_nhds]
    exact (hasDerivAt_const t (0:ℝ)).congr_of_eventuallyEq h0

theorem dVonMisesDp_eq (d : Data F n) (f : F) : dVonMisesDp d f = dVonMises d.stress ((d.sens f).getD 0) := by
  unfold dVonMisesDp
  cases h : d.sens f with
  | none => simp [dVonMises]
  | some ds => rfl

theorem Consistent.vm {W : History F n} {f : F} {t : ℝ} (hW : W.Consistent f t) {m} (hm : m ∈ W) {v} (hv : v ∈ m) {γ} (hγ : γ ∈ v) :
    HasDerivAt (fun t => vonMises (γ t).stress) (dVonMisesDp (γ t) f) t := by
  rw [dVonMisesDp_eq]
  exact hasDerivAt_vm' (hW.deriv m hm v hv γ hγ) (hW.nokink m hm v hv γ hγ)

theorem hasDerivAt_sumAll (W : History F n) (g : Data F n → ℝ) (g' : Data F n → ℝ) (t : ℝ)
    (h : ∀ m ∈ W, ∀ v ∈ m, ∀ γ ∈ v, HasDerivAt (fun t => g (γ t)) (g' (γ t)) t) :
    HasDerivAt (fun t => sumAll (W.at t) g) (sumAll (W.at t) g') t := by
  unfold sumAll History.at
  simp only [List.map_map]
  refine hasDerivAt_list_sum W _ _ t fun m hm => ?_
  simp only [Function.comp_apply, List.map_map]
  refine hasDerivAt_list_sum m _ _ t fun v hv => ?_
  simp only [Function.comp_apply, List.map_map]
  exact hasDerivAt_list_sum v _ _ t fun γ hγ => h m hm v hv γ hγ

end hist

end Verif.Stress
