import Verif.Model.Heat
import Mathlib.Analysis.Calculus.Deriv.Add
import Mathlib.Analysis.Calculus.Deriv.Mul
import Mathlib.Analysis.Calculus.Deriv.Pow
import Mathlib.Analysis.Calculus.Deriv.Comp
import Mathlib.Tactic.LinearCombination
import Mathlib.Tactic.Linarith
import Mathlib.Tactic.Positivity
import Mathlib.Tactic.NormNum
/-
  C106-C109: heat conduction element.
-/
namespace Verif.Heat

variable {n d : Nat} {X : Type}

section Spec

/-- `J` is the derivative of the vector valued `F` at `u` along every direction. -/
def IsJacobian (F : (Fin n → ℝ) → Fin n → ℝ) (J : Fin n → Fin n → ℝ) (u : Fin n → ℝ) : Prop :=
  ∀ (δ : Fin n → ℝ) (a : Fin n), HasDerivAt (fun t : ℝ => F (fun b => u b + t * δ b) a) (∑ b, J a b * δ b) 0

/-- The material's derivative functions for the temperature are the derivatives of its values. -/
def MatSmooth (m : Mat d X) : Prop :=
  m.active = true → (∀ x T i j, HasDerivAt (fun T => m.k x (some T) i j) (m.dkT x (some T) i j) T) ∧ ∀ x T, HasDerivAt (fun T => m.c x (some T)) (m.dcT x (some T)) T

end Spec

theorem list_deriv {ι : Type} (l : List ι) (f : ι → ℝ → ℝ) (f' : ι → ℝ) (x : ℝ) (h : ∀ q ∈ l, HasDerivAt (f q) (f' q) x) : HasDerivAt (fun t => (l.map fun q => f q t).sum) (l.map f').sum x := by
  induction l with
  | nil => simpa using hasDerivAt_const x (0:ℝ)
  | cons q l ih =>
    simp only [List.map_cons, List.sum_cons]
    exact (h q List.mem_cons_self).add (ih fun p hp => h p (List.mem_cons_of_mem _ hp))

theorem list_sum_comm {ι : Type} (l : List ι) (f : ι → Fin n → ℝ) (δ : Fin n → ℝ) : ∑ b, (l.map fun q => f q b).sum * δ b = (l.map fun q => ∑ b, f q b * δ b).sum := by
  induction l with
  | nil => simp
  | cons q l ih => simp only [List.map_cons, List.sum_cons, add_mul, Finset.sum_add_distrib, ih]

theorem interp_line (q : Qp n d X) (u δ : Fin n → ℝ) (t : ℝ) : interp q (fun b => u b + t * δ b) = interp q u + t * interp q δ := by
  simp only [interp, Finset.mul_sum, ← Finset.sum_add_distrib]
  exact Finset.sum_congr rfl fun a _ => by ring

theorem grad_line (q : Qp n d X) (u δ : Fin n → ℝ) (j : Fin d) (t : ℝ) : grad q (fun b => u b + t * δ b) j = grad q u j + t * grad q δ j := by
  simp only [grad, Finset.mul_sum, ← Finset.sum_add_distrib]
  exact Finset.sum_congr rfl fun a _ => by ring

theorem lin_deriv (a b : ℝ) : HasDerivAt (fun t : ℝ => a + t * b) b 0 := by
  simpa using ((hasDerivAt_id (0:ℝ)).mul_const b).const_add a

theorem comp_line (f : ℝ → ℝ) (f' a b : ℝ) (h : HasDerivAt f f' a) : HasDerivAt (fun t : ℝ => f (a + t * b)) (f' * b) 0 := by
  have h' : HasDerivAt f f' (a + 0 * b) := by simpa using h
  exact h'.comp (0:ℝ) (lin_deriv a b)

/-- C106: the internal Jacobian is the derivative of the internal residual for every smooth temperature dependent (or temperature independent) conductivity. -/
theorem C106_internal (m : Mat d X) (hm : MatSmooth m) (pts : List (Qp n d X)) (u : Fin n → ℝ) : IsJacobian (internalRes m pts) (internalJac m pts u) u := by
  intro δ a
  simp only [internalRes, internalJac]
  rw [list_sum_comm]
  refine list_deriv pts (fun q t => ∑ i, q.JxW * (q.dphi a i * heatFlux (m.k q.x (temp m q fun b => u b + t * δ b)) (grad q fun b => u b + t * δ b) i)) _ 0 ?_
  intro q _
  set D : Fin d → Fin d → ℝ := fun i j => if m.active then m.dkT q.x (temp m q u) i j * interp q δ else 0 with hD
  have hk : ∀ i j, HasDerivAt (fun t : ℝ => m.k q.x (temp m q fun b => u b + t * δ b) i j) (D i j) 0 := by
    intro i j
    by_cases ha : m.active = true
    · simp only [temp, ha, if_true, interp_line, hD]
      exact comp_line (fun T => m.k q.x (some T) i j) _ _ _ ((hm ha).1 q.x _ i j)
    · simpa [temp, hD, ha] using hasDerivAt_const (0:ℝ) (m.k q.x none i j)
  have hg : ∀ j, HasDerivAt (fun t : ℝ => grad q (fun b => u b + t * δ b) j) (grad q δ j) 0 := by
    intro j; simp only [grad_line]; exact lin_deriv _ _
  have h1 : HasDerivAt (fun t : ℝ => ∑ i, q.JxW * (q.dphi a i * heatFlux (m.k q.x (temp m q fun b => u b + t * δ b)) (grad q fun b => u b + t * δ b) i))
      (∑ i, q.JxW * (q.dphi a i * ∑ j, (grad q δ j * m.k q.x (temp m q u) i j + grad q u j * D i j))) 0 := by
    have hf : ∀ i, HasDerivAt (fun t : ℝ => heatFlux (m.k q.x (temp m q fun b => u b + t * δ b)) (grad q fun b => u b + t * δ b) i)
        (∑ j, (grad q δ j * m.k q.x (temp m q u) i j + grad q u j * D i j)) 0 := by
      intro i
      simp only [heatFlux]
      refine HasDerivAt.fun_sum fun j _ => ?_
      have := (hg j).mul (hk i j)
      simp only [zero_mul, add_zero] at this
      exact this
    exact HasDerivAt.fun_sum fun i _ => ((hf i).const_mul _).const_mul _
  refine h1.congr_deriv ?_
  have e1 : ∑ b, (∑ i, ∑ j, q.JxW * m.k q.x (temp m q u) i j * (q.dphi a i * q.dphi b j)) * δ b = ∑ i, q.JxW * (q.dphi a i * ∑ j, grad q δ j * m.k q.x (temp m q u) i j) := by
    simp only [Finset.sum_mul]
    rw [Finset.sum_comm]
    refine Finset.sum_congr rfl fun i _ => ?_
    rw [Finset.sum_comm, Finset.mul_sum, Finset.mul_sum]
    refine Finset.sum_congr rfl fun j _ => ?_
    simp only [grad, Finset.sum_mul, Finset.mul_sum]
    exact Finset.sum_congr rfl fun b _ => by ring
  have e2 : ∑ b, (if m.active then ∑ j, ∑ i, if m.dkT q.x (temp m q u) i j ≠ 0 then q.JxW * grad q u j * m.dkT q.x (temp m q u) i j * (q.dphi a i * q.phi b) else 0 else 0) * δ b =
      ∑ i, q.JxW * (q.dphi a i * ∑ j, grad q u j * D i j) := by
    by_cases ha : m.active = true
    · simp only [ha, if_true, hD]
      have : ∀ b i j, (if m.dkT q.x (temp m q u) i j ≠ 0 then q.JxW * grad q u j * m.dkT q.x (temp m q u) i j * (q.dphi a i * q.phi b) else 0) =
          q.JxW * grad q u j * m.dkT q.x (temp m q u) i j * (q.dphi a i * q.phi b) := by
        intro b i j; split
        · rfl
        · rename_i h; push Not at h; rw [h]; ring
      simp only [this, Finset.sum_mul, interp, Finset.mul_sum]
      rw [Finset.sum_comm]
      rw [Finset.sum_comm' (t' := Finset.univ) (s' := fun _ => Finset.univ) (by simp)]
      simp only [Finset.sum_comm (s := (Finset.univ : Finset (Fin n)))]
      rw [Finset.sum_comm]
      refine Finset.sum_congr rfl fun i _ => ?_
      first
        | (refine Finset.sum_congr rfl fun j _ => Finset.sum_congr rfl fun b _ => by ring)
        | (rw [Finset.sum_comm]; refine Finset.sum_congr rfl fun j _ => Finset.sum_congr rfl fun b _ => by ring)
    · simp [ha, hD]
  simp only [add_mul, Finset.sum_add_distrib, e1, e2, mul_add]

/-- Jacobian of one load. -/
theorem load_jac (f : X → ℝ → Load X → Option ℝ) (g : X → ℝ → Load X → ℝ) (l : Load X) (h : ∀ x T, HasDerivAt (fun T => (f x T l).getD 0) (g x T l) T) (pts : List (Qp n d X)) (u : Fin n → ℝ) :
    IsJacobian (fun u => loadRes f pts u l) (loadJac g pts u l) u := by
  intro δ a
  simp only [loadRes, loadJac]
  rw [list_sum_comm]
  refine list_deriv pts (fun q t => q.JxW * q.phi a * ((f q.x (interp q fun b => u b + t * δ b) l).getD 0)) _ 0 ?_
  intro q _
  simp only [interp_line]
  have h1 := (comp_line (fun T => (f q.x T l).getD 0) _ (interp q u) (interp q δ) (h q.x _)).const_mul (q.JxW * q.phi a)
  refine h1.congr_deriv ?_
  simp only [interp, Finset.mul_sum]
  exact Finset.sum_congr rfl fun b _ => by ring

theorem quartic (c z T w : ℝ) : HasDerivAt (fun T : ℝ => c * ((T + z) ^ 4 - w)) (c * 4 * (T + z) ^ 3) T := by
  have h := ((((hasDerivAt_id T).add_const z).pow 4).sub_const w).const_mul c
  simp only [id, Nat.cast_ofNat, Nat.add_one_sub_one, mul_one] at h
  refine h.congr_deriv (by norm_num; ring)

theorem affine (c z T : ℝ) : HasDerivAt (fun T : ℝ => c * (T - z)) c T := by
  simpa using ((hasDerivAt_id T).sub_const z).const_mul c

theorem side_term_deriv (sec : Option (Field X)) (l : Load X) (x : X) (T : ℝ) : HasDerivAt (fun T => (sideTerm sec x T l).getD 0) (sideJacTerm sec x T l) T := by
  cases l <;> simp only [sideTerm, sideJacTerm, Option.getD_some, Option.getD_none] <;> first | exact hasDerivAt_const _ _ | exact affine _ _ _ | exact quartic _ _ _ _

theorem vol_term_deriv (sec : Option (Field X)) (l : Load X) (x : X) (T : ℝ) : HasDerivAt (fun T => (volTerm sec x T l).getD 0) (volJacTerm sec x T l) T := by
  cases l <;> simp only [volTerm, volJacTerm, Option.getD_some, Option.getD_none] <;> first | exact hasDerivAt_const _ _ | exact affine _ _ _ | exact quartic _ _ _ _

theorem sum_jac {ι : Type} (l : List ι) (F : ι → (Fin n → ℝ) → Fin n → ℝ) (J : ι → Fin n → Fin n → ℝ) (u : Fin n → ℝ) (h : ∀ i ∈ l, IsJacobian (F i) (J i) u) :
    IsJacobian (fun u a => (l.map fun i => F i u a).sum) (fun a b => (l.map fun i => J i a b).sum) u := by
  intro δ a
  rw [list_sum_comm]
  exact list_deriv l (fun i t => F i (fun b => u b + t * δ b) a) _ 0 fun i hi => h i hi δ a

theorem add_jac (F G : (Fin n → ℝ) → Fin n → ℝ) (J K : Fin n → Fin n → ℝ) (u : Fin n → ℝ) (h : IsJacobian F J u) (h' : IsJacobian G K u) : IsJacobian (fun u a => F u a + G u a) (fun a b => J a b + K a b) u := by
  intro δ a
  refine ((h δ a).add (h' δ a)).congr_deriv ?_
  rw [← Finset.sum_add_distrib]; exact Finset.sum_congr rfl fun b _ => by ring

/-- C106: for every element, material, set of loads and temperature for which the element residual is computed at all (no unsupported load), it is computed at every temperature and the element
Jacobian is the derivative of the element residual, radiation and temperature dependent conductivity included. -/
theorem C106_element (m : Mat d X) (hm : MatSmooth m) (e : Elem n d X) (sbc vbc : List (Nat × Load X)) (u₀ r₀ : Fin n → ℝ) (h : elemRes m e sbc vbc u₀ = some r₀) :
    ∃ R : (Fin n → ℝ) → Fin n → ℝ, (∀ u, elemRes m e sbc vbc u = some (R u)) ∧ ∀ u, IsJacobian R (elemJac m e sbc vbc u) u := by
  simp only [elemRes] at h
  split at h
  · rename_i hc
    refine ⟨fun u a => internalRes m e.pts u a + ((sideLoads e.nSides e.ids sbc).map fun l => loadRes (sideTerm e.sec) (e.sidePts l.1) u l.2 a).sum +
      ((volLoads e.sid vbc).map fun l => loadRes (volTerm e.sec) e.pts u l a).sum, fun u => by simp only [elemRes, hc, if_true], fun u => ?_⟩
    refine add_jac _ _ _ _ u (add_jac _ _ _ _ u (C106_internal m hm e.pts u) ?_) ?_
    · exact sum_jac _ (fun (l : Nat × Load X) u => loadRes (sideTerm e.sec) (e.sidePts l.1) u l.2) (fun l => loadJac (sideJacTerm e.sec) (e.sidePts l.1) u l.2) u
        fun l _ => load_jac _ _ l.2 (fun x T => side_term_deriv e.sec l.2 x T) _ u
    · exact sum_jac _ (fun l u => loadRes (volTerm e.sec) e.pts u l) (fun l => loadJac (volJacTerm e.sec) e.pts u l) u
        fun l _ => load_jac _ _ l (fun x T => vol_term_deriv e.sec l x T) _ u
  · cases h

theorem vel_of_mass (m : Mat d X) (pts : List (Qp n d X)) (u v : Fin n → ℝ) (a : Fin n) : velLocal m pts u v a = ∑ b, massMat m pts u a b * v b := by
  simp only [velLocal, massMat]
  rw [list_sum_comm]
  congr 1
  refine List.map_congr_left fun q _ => ?_
  simp only [interp, Finset.mul_sum]
  exact Finset.sum_congr rfl fun b _ => by ring

/-- C106: the velocity residual is the rate Jacobian times the rates, consistent or lumped, whether the Jacobian is requested or not. -/
theorem C106_rate (m : Mat d X) (pts : List (Qp n d X)) (u v : Fin n → ℝ) (a : Fin n) : velRes m pts u v a = ∑ b, velJacXdot m true pts u a b * v b := by
  cases hd : m.diag
  · simp only [velRes, velJacXdot, hd, if_true, Bool.false_eq_true, if_false]; exact vel_of_mass m pts u v a
  · simp only [velRes, velJacXdot, hd, if_true]

/-- C106 (consistent mass): the Jacobian of the velocity residual for the temperature is its derivative. -/
theorem C106_velocity_partial (m : Mat d X) (hm : MatSmooth m) (hd : m.diag = false) (pts : List (Qp n d X)) (u v : Fin n → ℝ) : IsJacobian (fun u => velRes m pts u v) (velJac m true pts u v) u := by
  intro δ a
  simp only [velRes, velJac, hd, velLocal, if_true, Bool.false_eq_true, if_false]
  rw [list_sum_comm]
  refine list_deriv pts (fun q t => q.JxW * m.c q.x (temp m q fun b => u b + t * δ b) * (q.phi a * interp q v)) _ 0 ?_
  intro q _
  by_cases ha : m.active = true
  · simp only [temp, ha, if_true, interp_line]
    have h1 := ((comp_line (fun T => m.c q.x (some T)) _ (interp q u) (interp q δ) ((hm ha).2 q.x _)).const_mul q.JxW).mul_const (q.phi a * interp q v)
    refine h1.congr_deriv ?_
    have : ∀ b, (if m.dcT q.x (some (interp q u)) ≠ 0 then q.JxW * interp q v * m.dcT q.x (some (interp q u)) * (q.phi a * q.phi b) else 0) =
        q.JxW * interp q v * m.dcT q.x (some (interp q u)) * (q.phi a * q.phi b) := by
      intro b; split
      · rfl
      · rename_i h; push Not at h; rw [h]; ring
    simp only [this]
    have hδ : interp q δ = ∑ b, q.phi b * δ b := rfl
    rw [hδ]
    simp only [Finset.mul_sum, Finset.sum_mul]
    exact Finset.sum_congr rfl fun b _ => by ring
  · simp only [temp, ha]
    simpa using hasDerivAt_const (0:ℝ) (q.JxW * m.c q.x none * (q.phi a * interp q v))

/-- Two node element used as a witness: one quadrature point at the middle. -/
noncomputable def exQp : Qp 2 1 Unit := ⟨(), 1, fun a => if a = 0 then 1 / 4 else 3 / 4, fun a _ => if a = 0 then -1 else 1, fun _ => 1⟩

/-- Material with capacitance equal to the temperature. -/
def exMat (diag : Bool) : Mat 1 Unit := ⟨true, diag, fun _ T _ _ => 1 + T.getD 0, fun _ _ _ _ => 1, fun _ _ _ _ => 0, fun _ T => T.getD 0, fun _ _ => 1, fun _ _ => 0⟩

theorem exMat_smooth (b : Bool) : MatSmooth (exMat b) := by
  intro _
  refine ⟨fun x T i j => ?_, fun x T => ?_⟩
  · simpa [exMat] using (hasDerivAt_id T).const_add 1
  · simpa [exMat] using hasDerivAt_id' T

/-- C106 (what the code does not do): with a diagonal mass matrix and a temperature dependent capacitance the Jacobian of the velocity residual is not its derivative: the residual is lumped, the
Jacobian is not. -/
theorem C106_lumped_fails : ∃ (m : Mat 1 Unit) (pts : List (Qp 2 1 Unit)) (u v : Fin 2 → ℝ), MatSmooth m ∧ m.diag = true ∧ ¬ IsJacobian (fun u => velRes m pts u v) (velJac m true pts u v) u := by
  refine ⟨exMat true, [exQp], fun _ => 1, fun a => if a = 0 then 1 else 0, exMat_smooth _, rfl, fun h => ?_⟩
  have h0 := h (fun _ => 1) 0
  have e : (fun t : ℝ => velRes (exMat true) [exQp] (fun b => 1 + t * 1) (fun a => if a = 0 then 1 else 0) (0 : Fin 2)) = fun t => 1 / 4 + t * (1 / 4) := by
    funext t
    simp [velRes, exMat, lump, massMat, temp, interp, exQp, Fin.sum_univ_two]
    ring
  have h1 := lin_deriv (1 / 4) (1 / 4)
  simp only [e] at h0
  have := h0.unique h1
  simp [velJac, exMat, exQp, interp, temp, Fin.sum_univ_two] at this
  norm_num at this

/-- Non-vacuity of C106: an element with a radiating side, a convecting face and a temperature dependent material has a residual. -/
example : (elemRes (exMat false) ⟨[exQp], fun _ => [exQp], 2, fun s => [s], 7, none⟩ [(1, .radiation ⟨fun _ => 1, fun _ => 0⟩ 300 0 1 0 0 0)] [(7, .convection ⟨fun _ => 2, fun _ => 0⟩ ⟨fun _ => 300, fun _ => 0⟩)] (fun _ => 300)).isSome := by
  simp [elemRes, sideLoads, volLoads, List.range_succ, sideOk, volOk]

/-- Specification: a heat source is not a side load, a Dirichlet condition is not a volume load, and unknown conditions are neither. -/
def NotOnSide (l : Load X) : Prop := (∃ q, l = .source q) ∨ l = .other
def NotInVolume (l : Load X) : Prop := l = .dirichlet ∨ l = .other

/-- C106: assembly of an element raises an error exactly when a load of one of its sides or of its subdomain is of a kind that has no heat residual. -/
theorem C106_unsupported {n d : Nat} {X : Type} (m : Mat d X) (e : Elem n d X) (sbc vbc : List (Nat × Load X)) (u : Fin n → ℝ) :
    elemRes m e sbc vbc u = none ↔ (∃ s < e.nSides, ∃ b ∈ e.ids s, ∃ l, (b, l) ∈ sbc ∧ NotOnSide l) ∨ ∃ l, (e.sid, l) ∈ vbc ∧ NotInVolume l := by
  have hs : ∀ l : Load X, sideOk l = false ↔ NotOnSide l := by intro l; cases l <;> simp [sideOk, NotOnSide]
  have hv : ∀ l : Load X, volOk l = false ↔ NotInVolume l := by intro l; cases l <;> simp [volOk, NotInVolume]
  have h1 : elemRes m e sbc vbc u = none ↔ (sideLoads e.nSides e.ids sbc).all (fun l => sideOk l.2) = false ∨ (volLoads e.sid vbc).all volOk = false := by
    unfold elemRes
    split_ifs with h
    · simp only [reduceCtorEq, false_iff, not_or, Bool.not_eq_false]; simpa using h
    · simpa [Classical.or_iff_not_imp_left] using h
  rw [h1, List.all_eq_false, List.all_eq_false]
  refine or_congr ⟨?_, ?_⟩ ⟨?_, ?_⟩
  · rintro ⟨x, hx, hk⟩
    simp only [sideLoads, List.mem_flatMap, List.mem_range, List.mem_map, List.mem_filter] at hx
    obtain ⟨s, hsn, b, hb, y, ⟨hy, hyb⟩, rfl⟩ := hx
    refine ⟨s, hsn, b, hb, y.2, ?_, (hs _).1 (by simpa using hk)⟩
    rw [← beq_iff_eq.1 hyb]; exact hy
  · rintro ⟨s, hsn, b, hb, l, hl, hk⟩
    refine ⟨(s, l), ?_, by simp [(hs l).2 hk]⟩
    simp only [sideLoads, List.mem_flatMap, List.mem_range, List.mem_map, List.mem_filter]
    exact ⟨s, hsn, b, hb, (b, l), ⟨hl, by simp⟩, rfl⟩
  · rintro ⟨l, hl, hk⟩
    simp only [volLoads, List.mem_map, List.mem_filter] at hl
    obtain ⟨y, ⟨hy, hyb⟩, rfl⟩ := hl
    refine ⟨y.2, ?_, (hv _).1 (by simpa using hk)⟩
    rw [← beq_iff_eq.1 hyb]; exact hy
  · rintro ⟨l, hl, hk⟩
    refine ⟨l, ?_, by simp [(hv l).2 hk]⟩
    simp only [volLoads, List.mem_map, List.mem_filter]
    exact ⟨(e.sid, l), ⟨hl, by simp⟩, rfl⟩

end Verif.Heat
