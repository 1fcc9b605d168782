import Verif.Model.Fluid
/-
  Viscous part of the flow element: src/fluid/fluid_elem_base.cpp 221-333, 573-968.
-/
namespace Verif.Fluid

/-- Momentum variable `1 + i` (fluid_elem_base.cpp:242, 278). -/
def mvar : Nat → Var
  | 0 => .m1
  | 1 => .m2
  | _ => .m3

/-- `uvec(i)` (fluid_elem_base.cpp:233-235). -/
def uvec (s : Prim) : Nat → ℝ
  | 0 => s.u1
  | 1 => s.u2
  | _ => s.u3

/-- `A(i, j) += x`. -/
def addAt (A : Nat → Nat → ℝ) (i j : Nat) (x : ℝ) : Nat → Nat → ℝ := fun r c => if r = i ∧ c = j then A r c + x else A r c

/-- `dprim_dx` for direction `i`: `dprim_dcons * dcons_dx` (fluid_elem_base.cpp:273-274); `G i` is `dcons_dx`. -/
noncomputable def gradPrim (d : Nat) (g : Gas) (s : Prim) (G : Nat → Var → ℝ) (i : Nat) (v : Var) : ℝ := ∑ w, dprimDcons d g s v w * G i w

/-- `stress_tensor` of `calculate_diffusion_tensors` (fluid_elem_base.cpp:268-285), from `dprim_dx`. -/
noncomputable def stress (d : Nat) (mu lambda : ℝ) (P : Nat → Var → ℝ) : Nat → Nat → ℝ :=
  (List.range d).foldl (fun A i => (List.range d).foldl (fun A j =>
    addAt (addAt (addAt A i j (mu * P i (mvar j))) j i (mu * P i (mvar j))) j j (lambda * P i (mvar i))) A) (fun _ _ => 0)

/-- `temp_gradient(i)` (fluid_elem_base.cpp:284). -/
def tempGrad (d : Nat) (P : Nat → Var → ℝ) (i : Nat) : ℝ := if i < d then P i .en else 0

/-- `calculate_diffusion_flux` (fluid_elem_base.cpp:221-248): the loop adds each momentum entry once. -/
noncomputable def diffFlux (d cd : Nat) (s : Prim) (τ : Nat → Nat → ℝ) (gradT : Nat → ℝ) : Var → ℝ
  | .rho => 0
  | .m1 => at' 1 d (τ cd 0)
  | .m2 => at' 2 d (τ cd 1)
  | .m3 => at' 3 d (τ cd 2)
  | .en => (List.range d).foldl (fun x i => x + uvec s i * τ cd i) 0 + s.kth * gradT cd

/-- `calculate_diffusion_tensors_sensitivity`, stress part (fluid_elem_base.cpp:309-330); `P` is `dprim_dx`, `PS` is `dprim_sens_dx`. -/
noncomputable def stressSens (d : Nat) (mu lambda dmu dlambda : ℝ) (P PS : Nat → Var → ℝ) : Nat → Nat → ℝ :=
  (List.range d).foldl (fun A i => (List.range d).foldl (fun A j =>
    addAt (addAt (addAt A i j (dmu * P i (mvar j) + mu * PS i (mvar j))) j i (dmu * P i (mvar j) + mu * PS i (mvar j))) j j (dlambda * P i (mvar i) + lambda * PS i (mvar i))) A) (fun _ _ => 0)

/-- `calculate_diffusion_flux_jacobian_primitive_vars` (fluid_elem_base.cpp:573-753), `uvec` from the same state, `zero_kth` false. -/
def kPrim (d fd dd : Nat) (s : Prim) (v w : Var) : ℝ :=
  let mu := s.mu
  let lam := s.lambda
  match fd, dd with
  | 0, 0 =>
    match v, w with
    | .m3, .m3 => at' 3 d mu
    | .en, .m3 => at' 3 d (s.u3 * mu)
    | .m2, .m2 => at' 2 d mu
    | .en, .m2 => at' 2 d (s.u2 * mu)
    | .m1, .m1 => lam + 2 * mu
    | .en, .m1 => s.u1 * (lam + 2 * mu)
    | .en, .en => s.kth
    | _, _ => 0
  | 0, 1 =>
    match v, w with
    | .m1, .m2 => lam
    | .m2, .m1 => mu
    | .en, .m1 => s.u2 * mu
    | .en, .m2 => s.u1 * lam
    | _, _ => 0
  | 0, 2 =>
    match v, w with
    | .m1, .m3 => lam
    | .m3, .m1 => mu
    | .en, .m1 => s.u3 * mu
    | .en, .m3 => s.u1 * lam
    | _, _ => 0
  | 1, 0 =>
    match v, w with
    | .m1, .m2 => mu
    | .m2, .m1 => lam
    | .en, .m1 => s.u2 * lam
    | .en, .m2 => s.u1 * mu
    | _, _ => 0
  | 1, 1 =>
    match v, w with
    | .m3, .m3 => at' 3 d mu
    | .en, .m3 => at' 3 d (s.u3 * mu)
    | .m1, .m1 => mu
    | .m2, .m2 => lam + 2 * mu
    | .en, .m1 => s.u1 * mu
    | .en, .m2 => s.u2 * (lam + 2 * mu)
    | .en, .en => s.kth
    | _, _ => 0
  | 1, 2 =>
    match v, w with
    | .m2, .m3 => lam
    | .m3, .m2 => mu
    | .en, .m2 => s.u3 * mu
    | .en, .m3 => s.u2 * lam
    | _, _ => 0
  | 2, 0 =>
    match v, w with
    | .m1, .m3 => mu
    | .m3, .m1 => lam
    | .en, .m1 => s.u3 * lam
    | .en, .m3 => s.u1 * mu
    | _, _ => 0
  | 2, 1 =>
    match v, w with
    | .m2, .m3 => mu
    | .m3, .m2 => lam
    | .en, .m2 => s.u3 * lam
    | .en, .m3 => s.u2 * mu
    | _, _ => 0
  | 2, 2 =>
    match v, w with
    | .m1, .m1 => mu
    | .m2, .m2 => mu
    | .m3, .m3 => lam + 2 * mu
    | .en, .m1 => s.u1 * mu
    | .en, .m2 => s.u2 * mu
    | .en, .m3 => s.u3 * (lam + 2 * mu)
    | .en, .en => s.kth
    | _, _ => 0
  | _, _ => 0

/-- `calculate_diffusion_flux_jacobian` (fluid_elem_base.cpp:757-968). -/
noncomputable def kCons (d fd dd : Nat) (g : Gas) (s : Prim) (v w : Var) : ℝ :=
  let mu := s.mu
  let lam := s.lambda
  let rho := s.rho
  let cv := g.cv
  match fd, dd with
  | 0, 0 =>
    match v, w with
    | .m3, .rho => at' 3 d (-s.u3 * mu / rho)
    | .m3, .m3 => at' 3 d (mu / rho)
    | .en, .m3 => at' 3 d (s.u3 * (-s.kth + cv * mu) / cv / rho)
    | .m2, .rho => at' 2 d (-s.u2 * mu / rho)
    | .m2, .m2 => at' 2 d (mu / rho)
    | .en, .m2 => at' 2 d (s.u2 * (-s.kth + cv * mu) / cv / rho)
    | .m1, .rho => -s.u1 * (lam + 2 * mu) / rho
    | .m1, .m1 => (lam + 2 * mu) / rho
    | .en, .rho => (s.kth * (2 * s.k - s.e) - cv * (2 * s.k * mu + s.u1 * s.u1 * (mu + lam))) / cv / rho
    | .en, .m1 => s.u1 * (-s.kth + cv * (lam + 2 * mu)) / cv / rho
    | .en, .en => s.kth / cv / rho
    | _, _ => 0
  | 0, 1 =>
    match v, w with
    | .m1, .rho => -s.u2 * lam / rho
    | .m1, .m2 => lam / rho
    | .m2, .rho => -s.u1 * mu / rho
    | .m2, .m1 => mu / rho
    | .en, .rho => -s.u1 * s.u2 * (lam + mu) / rho
    | .en, .m1 => s.u2 * mu / rho
    | .en, .m2 => s.u1 * lam / rho
    | _, _ => 0
  | 0, 2 =>
    match v, w with
    | .m1, .rho => -s.u3 * lam / rho
    | .m1, .m3 => lam / rho
    | .m3, .rho => -s.u1 * mu / rho
    | .m3, .m1 => mu / rho
    | .en, .rho => -s.u1 * s.u3 * (lam + mu) / rho
    | .en, .m1 => s.u3 * mu / rho
    | .en, .m3 => s.u1 * lam / rho
    | _, _ => 0
  | 1, 0 =>
    match v, w with
    | .m1, .rho => -s.u2 * mu / rho
    | .m1, .m2 => mu / rho
    | .m2, .rho => -s.u1 * lam / rho
    | .m2, .m1 => lam / rho
    | .en, .rho => -s.u1 * s.u2 * (lam + mu) / rho
    | .en, .m1 => s.u2 * lam / rho
    | .en, .m2 => s.u1 * mu / rho
    | _, _ => 0
  | 1, 1 =>
    match v, w with
    | .m3, .rho => at' 3 d (-s.u3 * mu / rho)
    | .m3, .m3 => at' 3 d (mu / rho)
    | .en, .m3 => at' 3 d (s.u3 * (-s.kth + cv * mu) / cv / rho)
    | .m1, .rho => -s.u1 * mu / rho
    | .m1, .m1 => mu / rho
    | .m2, .rho => -s.u2 * (lam + 2 * mu) / rho
    | .m2, .m2 => (lam + 2 * mu) / rho
    | .en, .rho => (s.kth * (2 * s.k - s.e) - cv * (2 * s.k * mu + s.u2 * s.u2 * (mu + lam))) / cv / rho
    | .en, .m1 => s.u1 * (-s.kth + cv * mu) / cv / rho
    | .en, .m2 => s.u2 * (-s.kth + cv * (lam + 2 * mu)) / cv / rho
    | .en, .en => s.kth / cv / rho
    | _, _ => 0
  | 1, 2 =>
    match v, w with
    | .m2, .rho => -s.u3 * lam / rho
    | .m2, .m3 => lam / rho
    | .m3, .rho => -s.u2 * mu / rho
    | .m3, .m2 => mu / rho
    | .en, .rho => -s.u2 * s.u3 * (lam + mu) / rho
    | .en, .m2 => s.u3 * mu / rho
    | .en, .m3 => s.u2 * lam / rho
    | _, _ => 0
  | 2, 0 =>
    match v, w with
    | .m1, .rho => -s.u3 * mu / rho
    | .m1, .m3 => mu / rho
    | .m3, .rho => -s.u1 * lam / rho
    | .m3, .m1 => lam / rho
    | .en, .rho => -s.u1 * s.u3 * (lam + mu) / rho
    | .en, .m1 => s.u3 * lam / rho
    | .en, .m3 => s.u1 * mu / rho
    | _, _ => 0
  | 2, 1 =>
    match v, w with
    | .m2, .rho => -s.u3 * mu / rho
    | .m2, .m3 => mu / rho
    | .m3, .rho => -s.u2 * lam / rho
    | .m3, .m2 => lam / rho
    | .en, .rho => -s.u2 * s.u3 * (lam + mu) / rho
    | .en, .m2 => s.u3 * lam / rho
    | .en, .m3 => s.u2 * mu / rho
    | _, _ => 0
  | 2, 2 =>
    match v, w with
    | .m1, .rho => -s.u1 * mu / rho
    | .m1, .m1 => mu / rho
    | .m2, .rho => -s.u2 * mu / rho
    | .m2, .m2 => mu / rho
    | .m3, .rho => -s.u3 * (lam + 2 * mu) / rho
    | .m3, .m3 => (lam + 2 * mu) / rho
    | .en, .rho => (s.kth * (2 * s.k - s.e) - cv * (2 * s.k * mu + s.u3 * s.u3 * (mu + lam))) / cv / rho
    | .en, .m1 => s.u1 * (-s.kth + cv * mu) / cv / rho
    | .en, .m2 => s.u2 * (-s.kth + cv * mu) / cv / rho
    | .en, .m3 => s.u3 * (-s.kth + cv * (lam + 2 * mu)) / cv / rho
    | .en, .en => s.kth / cv / rho
    | _, _ => 0
  | _, _ => 0

/-- `l_eig_vec_inv_tr` after lines 1908-1911 of `calculate_barth_tau_matrix` (fluid_elem_base.cpp:1905-1911): `L^-T |Λ| L^T`. -/
noncomputable def absJac (d : Nat) (g : Gas) (s : Prim) (n : Fin 3 → ℝ) (x y : Var) : ℝ :=
  ∑ w, rightEig d g s n x w * |eigVals d s n w| * leftEig d g s n y w

/-- Norm of a shape function gradient (fluid_elem_base.cpp:1901). -/
noncomputable def nval (n : Fin 3 → ℝ) : ℝ := Real.sqrt (n 0 ^ 2 + n 1 ^ 2 + n 2 ^ 2)

/-- `tmp1` of `calculate_barth_tau_matrix` (fluid_elem_base.cpp:1898-1931); `dphi` lists the gradients of the shape functions. -/
noncomputable def barth (d : Nat) (g : Gas) (s : Prim) (visc : Bool) (dphi : List (Fin 3 → ℝ)) (x y : Var) : ℝ :=
  (dphi.map fun n => if 0 < nval n then nval n * absJac d g s (fun i => n i / nval n) x y else 0).sum +
  if visc then (dphi.map fun n => ∑ i : Fin 3, ∑ j : Fin 3, if i.val < d ∧ j.val < d then kCons d i j g s x y * n i * n j else 0).sum else 0

end Verif.Fluid
