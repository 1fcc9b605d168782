import Mathlib.Analysis.SpecialFunctions.Exp
import Mathlib.Analysis.Real.Sqrt
import Mathlib.Data.Fintype.BigOperators
import Verif.Model.Exec
/-
  Model of src/elasticity/kinematic_coupling_constraint.cpp.
-/
namespace Verif.Coupling

/-- A point. -/
abbrev Pt := Fin 3 → ℝ

/-- `Point::norm()`. -/
noncomputable def norm (d : Pt) : ℝ := Real.sqrt (d 0 ^ 2 + d 1 ^ 2 + d 2 ^ 2)

/-- `exp(-dx.norm())`, kinematic_coupling_constraint.cpp:82-89. -/
noncomputable def rawWeight (slave master : Pt) : ℝ := Real.exp (-norm (fun c => slave c - master c))

/-- Normalised weight of master `k`, kinematic_coupling_constraint.cpp:73-104. -/
noncomputable def weight {m : Nat} (slave : Pt) (masters : Fin m → Pt) (k : Fin m) : ℝ :=
  rawWeight slave (masters k) / ∑ j, rawWeight slave (masters j)

/-- Coefficients written for master `k` into the constraint row of slave component `i`, kinematic_coupling_constraint.cpp:133-177, as a function of the master's dof component
(`c_row[master_dofs[c]]`).  Simplification: dof numbers are replaced by pairs (master, component), which libMesh numbers injectively. -/
noncomputable def coeff {m : Nat} (slave : Pt) (masters : Fin m → Pt) (i : Nat) (k : Fin m) (c : Nat) : ℝ :=
  let dx : Pt := fun a => slave a - masters k a
  let val := weight slave masters k
  let row : Nat → ℝ := fun c => if c = i then -val * -1 else 0
  let row := if i = 0 then fun c => if c = 5 then dx 1 * val else if c = 4 then -dx 2 * val else row c
    else if i = 1 then fun c => if c = 5 then dx 0 * val else if c = 3 then -dx 2 * val else row c
    else if i = 2 then fun c => if c = 4 then dx 0 * val else if c = 3 then -dx 1 * val else row c
    else row
  row c

/-- `get_dof_constraint_row`, kinematic_coupling_constraint.cpp:44-179: `nd` dofs per node; indexing `master_dofs[4]`, `[5]`, `[3]` or `slave_dofs[i]` beyond `nd` is undefined.  The result is, for each constrained
component, the coefficients of all masters (the inhomogeneous part is 0, line 123). -/
noncomputable def rows {m : Nat} (nd : Nat) (constrainRotations : Bool) (slave : Pt) (masters : Fin m → Pt) : Exec (Nat → Fin m → Nat → ℝ) :=
  let n := if constrainRotations then 6 else 3
  if nd < n ∨ (0 < m ∧ nd < 6) then .error .ub
  else .ok (fun i k c => coeff slave masters i k c)

/-- Value libMesh gives to the slave dof `i` from a row: `u_s = Σ coeff · u_master` over all master dofs (`DofConstraintRow` convention; inhomogeneity 0). -/
noncomputable def slaveValue {m : Nat} (R : Nat → Fin m → Nat → ℝ) (u : Fin m → Nat → ℝ) (i : Nat) : ℝ :=
  ∑ k, ∑ c ∈ Finset.range 6, R i k c * u k c

end Verif.Coupling
