import Mathlib.Data.Real.Basic
import Mathlib.Data.Finset.Lattice.Fold
import Verif.Model.CutCell
/-
  Model of src/level_set/level_set_constrain_dofs.cpp and src/level_set/indicator_function_constrain_dofs.cpp.
-/
namespace Verif.ConstrainDofs

/-- A node of an element: value of the level set and dofs from `dof_map.dof_indices(nd, ..)` (level_set_constrain_dofs.cpp:114-118), value of the indicator
(indicator_function_constrain_dofs.cpp:95-96). -/
structure Node where
  phi : ℝ
  ind : ℝ
  dofs : List Nat

/-- An element: its dofs (level_set_constrain_dofs.cpp:89), its nodes, and what the intersection reports (97, 111). -/
structure Elem where
  dofs : List Nat
  nodes : List Node
  hasPos : Bool
  hasBdry : Bool

/-- A constraint row: (dof, coefficient) pairs; the empty row with no right hand side is the constraint `u = 0`. -/
abbrev Row := List (Nat × ℝ)

/-- `std::set::insert` of each member of a vector. -/
def insertAll (s : Finset Nat) (l : List Nat) : Finset Nat := l.foldl (fun s d => insert d s) s

/-- The three sets collected by the loop over the elements (level_set_constrain_dofs.cpp:75-127). -/
structure Sets where
  all : Finset Nat
  neg : Finset Nat
  con : Finset Nat

/-- Body of the loop (level_set_constrain_dofs.cpp:80-127). -/
noncomputable def collect (negOn : Bool) (s : Sets) (e : Elem) : Sets where
  all := insertAll s.all e.dofs
  con := if e.hasPos then insertAll s.con e.dofs else s.con
  neg := if negOn && e.hasBdry then e.nodes.foldl (fun t nd => if nd.phi ≤ 0 then insertAll t nd.dofs else t) s.neg else s.neg

/-- `if (!is_constrained_dof(d)) add_constraint_row(d, {}, true)` for the members of a set (level_set_constrain_dofs.cpp:147-156, 166-175); members are visited in
increasing order, the result does not depend on it. -/
def addZeroRows (m : Nat → Option Row) (s : Finset Nat) : Nat → Option Row := fun d => if d ∈ s ∧ m d = none then some [] else m d

/-- `LevelSetConstrainDofs::constrain` (level_set_constrain_dofs.cpp:61-177) on the elements of one processor; `m` is the DofMap before. -/
noncomputable def constrain (negOn : Bool) (es : List Elem) (m : Nat → Option Row) : Nat → Option Row :=
  let s := es.foldl (collect negOn) ⟨∅, ∅, ∅⟩
  let m1 := addZeroRows m (s.all \ s.con)
  if negOn then addZeroRows m1 s.neg else m1

/-- `nd_vals.maxCoeff()` (indicator_function_constrain_dofs.cpp:104), an element has at least one node. -/
noncomputable def maxInd (e : Elem) : ℝ := match e.nodes with
  | [] => 0
  | a :: l => l.foldl (fun m n => max m n.ind) a.ind

/-- The loop of `IndicatorFunctionConstrainDofs::constrain` (indicator_function_constrain_dofs.cpp:86-136): (constrained, excluded). -/
noncomputable def collectInd (tol : ℝ) (s : Finset Nat × Finset Nat) (e : Elem) : Finset Nat × Finset Nat :=
  let constrainE := !decide (maxInd e > tol)
  let excludeE := e.hasBdry && decide (maxInd e > tol)
  (if constrainE then insertAll s.1 e.dofs else s.1, if excludeE then insertAll s.2 e.dofs else s.2)

/-- `IndicatorFunctionConstrainDofs::constrain` (indicator_function_constrain_dofs.cpp:51-157). -/
noncomputable def constrainInd (tol : ℝ) (negOn : Bool) (es : List Elem) (m : Nat → Option Row) : Nat → Option Row :=
  let m1 := constrain negOn es m
  let s := es.foldl (collectInd tol) (∅, ∅)
  fun d => if d ∈ s.1 ∧ m1 d = none ∧ d ∉ s.2 then some [] else m1 d

/-- `if_elem_has_boundary` (level_set_intersection.cpp:136-140). -/
def hasBoundary (c : CutCell.Cut) : Bool := CutCell.through c || decide (c.mode = .colinearEdge)

/-- A QUAD4 as the loop sees it after `_intersection->init` (level_set_constrain_dofs.cpp:84-97); `none` if the intersection aborts. -/
noncomputable def quadElem (tol : ℝ) (v : Fin 4 → ℝ) (mid : ℝ) (nd : Fin 4 → List Nat) (ind : Fin 4 → ℝ) : Option Elem :=
  (CutCell.initElem tol v [] mid).map fun c =>
    { dofs := nd 0 ++ nd 1 ++ nd 2 ++ nd 3
      nodes := [⟨v 0, ind 0, nd 0⟩, ⟨v 1, ind 1, nd 1⟩, ⟨v 2, ind 2, nd 2⟩, ⟨v 3, ind 3, nd 3⟩]
      hasPos := CutCell.hasPos c
      hasBdry := hasBoundary c }

end Verif.ConstrainDofs
