import Verif.Model.Exec
import Mathlib.Data.Real.Basic
/-
  Variables of a discipline and the initial solution: src/base/system_initialization.cpp, src/elasticity/structural_system_initialization.cpp, src/fluid/conservative_fluid_system_initialization.cpp,
  src/heat_conduction/heat_conduction_system_initialization.cpp, src/level_set/level_set_system_initialization.cpp.
-/
namespace Verif.SysInit

/-- A system of libMesh as far as its variables go: name and type of shape functions, in the order of their numbers (`libMesh::System::add_variable`, a contract). -/
abbrev Sys := List (List Char × Nat)

/-- Number of the variable with a name. -/
def Sys.find? (s : Sys) (nm : List Char) : Option Nat := s.findIdx? fun v => v.1 == nm

/-- `libMesh::System::add_variable`: a variable that exists with the same type is found again, with another type it is an error, otherwise the variable gets the next number (called from
structural_system_initialization.cpp:39-55). -/
def addVariable (s : Sys) (nm : List Char) (ty : Nat) : Exec (Nat × Sys) :=
  match s.find? nm with
  | some v => if (s[v]?.map Prod.snd) = some ty then .ok (v, s) else .error .error
  | none => .ok (s.length, s ++ [(nm, ty)])

/-- One statement `_vars[k] = sys.add_variable(prefix + suffix, fe_type)` (structural_system_initialization.cpp:39-55); writing outside of `_vars` is undefined. -/
def putVar (pre : List Char) (ty : Nat) (st : List Nat × Sys) (ks : Nat × List Char) : Exec (List Nat × Sys) :=
  match addVariable st.2 (pre ++ ks.2) ty with
  | .ok r => if ks.1 < st.1.length then .ok (st.1.set ks.1 r.1, r.2) else .error .ub
  | .error e => .error e

/-- A constructor: `_vars.resize(n)` (zeros) and its statements (structural_system_initialization.cpp:37-55). -/
def construct (n : Nat) (slots : List (Nat × List Char)) (s : Sys) (pre : List Char) (ty : Nat) : Exec (List Nat × Sys) :=
  slots.foldlM (m := Exec) (putVar pre ty) (List.replicate n 0, s)

/-- Suffixes of `StructuralSystemInitialization` (structural_system_initialization.cpp:37-55). -/
def structural : List (Nat × List Char) := [(0, "_ux".toList), (1, "_uy".toList), (2, "_uz".toList), (3, "_tx".toList), (4, "_ty".toList), (5, "_tz".toList)]

/-- Statements of `ConservativeFluidSystemInitialization` (conservative_fluid_system_initialization.cpp:34-54). -/
def fluid (d : Nat) : List (Nat × List Char) :=
  [(0, "_rho".toList), (1, "_rhoux".toList)] ++ (if 1 < d then [(2, "_rhouy".toList)] else []) ++ (if 2 < d then [(3, "_rhouz".toList)] else []) ++ [(d + 1, "_rhoe".toList)]

/-- `HeatConductionSystemInitialization` (heat_conduction_system_initialization.cpp:31-35). -/
def heat : List (Nat × List Char) := [(0, "_T".toList)]

/-- `LevelSetSystemInitialization` (level_set_system_initialization.cpp:31-35). -/
def levelSet : List (Nat × List Char) := [(0, "_phi".toList)]

/-- `project_solution` of a vector valued function for shape functions that interpolate at nodes: the degree of freedom of variable `v` at the point `p` gets component `v` of the vector, for all variables of the system
(system_initialization.cpp:108, 152; contract of libMesh).  Reading outside of the vector is undefined. -/
def project {P : Type} (s : Sys) (out : P → List ℝ) (v : Nat) (p : P) : Exec ℝ :=
  if v < s.length then match (out p)[v]? with | some x => .ok x | none => .error .ub else .error .ub

/-- `initialize_solution` with a vector: the size of the vector is only asserted to be the number of variables of the discipline (system_initialization.cpp:65-109). -/
def initConst {P : Type} (s : Sys) (vars : List Nat) (sol : List ℝ) (v : Nat) (p : P) : Exec ℝ :=
  if sol.length = vars.length then project s (fun _ => sol) v p else .error .assertFail

/-- `v = Zero(n)`, filled by the function: entries that it does not write stay zero (system_initialization.cpp:141-143). -/
noncomputable def filled (n : Nat) (f : Nat → Option ℝ) : List ℝ := (List.range n).map fun i => (f i).getD 0

/-- `initialize_solution` with a field function (system_initialization.cpp:113-153). -/
noncomputable def initField {P : Type} (s : Sys) (vars : List Nat) (f : P → Nat → Option ℝ) (v : Nat) (p : P) : Exec ℝ := project s (fun q => filled vars.length (f q)) v p

end Verif.SysInit
