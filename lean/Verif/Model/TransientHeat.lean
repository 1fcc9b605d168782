import Verif.Model.HeatCard
import Verif.Model.SteadySens
import Verif.Model.TransientAsm
import Verif.Model.TransientSens
/-
  Transient heat conduction: the element operations of src/heat_conduction/heat_conduction_transient_assembly.cpp for the elements of `Verif.Model.HeatCard`, as a family over the value of one parameter of the program.
-/
namespace Verif.TrHeat
open Verif Verif.Transient Verif.TrAsm

noncomputable section

variable {n d : Nat} {X : Type}

/-- `velocity_residual`, `jac_xdot` on exit, with the Jacobian requested (heat_conduction_elem_base.cpp:198-201, 220-236). -/
def rateXdot (Q : HeatCard.Problem n d X) (D : HeatCard.Data X) (u : Fin n → ℝ) (p : Nat) (v : Nat → ℝ) : Exec (Fin n → Fin n → ℝ) := do
  let P ← HeatCard.fnsOf Q.hp Q.card Q.iso true Q.shape
  pure (Heat.velJacXdot (HeatCard.matOf D P d Q.active Q.diag v p) true Q.e.pts u)

/-- `velocity_residual`, `jac` on exit, with the Jacobian requested (heat_conduction_elem_base.cpp:204-215). -/
def rateJac (Q : HeatCard.Problem n d X) (D : HeatCard.Data X) (u w : Fin n → ℝ) (p : Nat) (v : Nat → ℝ) : Exec (Fin n → Fin n → ℝ) := do
  let P ← HeatCard.fnsOf Q.hp Q.card Q.iso true Q.shape
  pure (Heat.velJac (HeatCard.matOf D P d Q.active Q.diag v p) true Q.e.pts u w)

/-- Entries of an element vector (heat_conduction_transient_assembly.cpp:59-60). A failing calculation ends the program, which the theorems exclude; zero stands for it. -/
def vec (r : Exec (Fin n → ℝ)) : Nat → ℝ := match r with | .ok r => Steady.extE r | .error _ => fun _ => 0
/-- Entries of an element matrix (heat_conduction_transient_assembly.cpp:61-63). -/
def mat (r : Exec (Fin n → Fin n → ℝ)) : Nat → Nat → ℝ := match r with | .ok r => fun a b => if h : a < n then Steady.extE (r ⟨a, h⟩) b else 0 | .error _ => fun _ _ => 0

/-- `elem_calculations` and `elem_sensitivity_calculations` (heat_conduction_transient_assembly.cpp:45-112) for the value `t` of the parameter `p`. There are no second derivatives and `f_x` does not depend on velocities;
`linearized_jacobian_solution_product` (76-81) is an error in the code and not used here. -/
def heatTr (Q : HeatCard.Problem n d X) (D : HeatCard.Data X) (v : Nat → ℝ) (p : Nat) (dof : Nat → Nat) (t : ℝ) : Elem where
  n := n
  dof := dof
  fm := fun s => vec (HeatCard.rate Q D (fun a : Fin n => s.x a) (fun a : Fin n => s.v a) p (Function.update v p t))
  fx := fun s => vec (HeatCard.residual Q D (fun a : Fin n => s.x a) p (Function.update v p t))
  B := fun s => ⟨0, mat (rateXdot Q D (fun a : Fin n => s.x a) p (Function.update v p t)), mat (rateJac Q D (fun a : Fin n => s.x a) (fun a : Fin n => s.v a) p (Function.update v p t)), 0,
    mat (HeatCard.jacobian Q D (fun a : Fin n => s.x a) p (Function.update v p t))⟩
  prod := fun _ _ _ => 0
  dfm := fun s => vec (HeatCard.rateSens Q D (fun a : Fin n => s.x a) (fun a : Fin n => s.v a) p (Function.update v p t))
  dfx := fun s => vec (HeatCard.sensitivity Q D (fun a : Fin n => s.x a) p (Function.update v p t))
  damp := fun s => mat (rateXdot Q D (fun a : Fin n => s.x a) p (Function.update v p t))

/-- An active element as a family over the value of the parameter (transient_assembly.cpp:62-176). -/
abbrev TElem := ℝ → Elem

/-- The elements of all processes for the parameter value `t` (transient_assembly.cpp:106-160). -/
def valued (ps : List (List TElem)) (t : ℝ) : List (List Elem) := ps.map fun es => es.map fun e => e t

end
end Verif.TrHeat
