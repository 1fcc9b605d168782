import Mathlib.Data.Finset.Sort
import Mathlib.Order.Interval.Finset.Nat
import Verif.Model.Exec
/-
  Model of src/base/physics_discipline_base.cpp (registries of loads, Dirichlet conditions, property cards,
  collection of Dirichlet dofs) and of NonlinearSystem::initialize_condensed_dofs
  (src/base/nonlinear_system.cpp:689-735).

  `dbg = true` is a build in which `libmesh_assert` is active; `dbg = false` a release build where it expands
  to nothing.  Objects (loads, cards) are identified by their address, a `Nat`.
-/
namespace Verif.Disc
open Verif

/-- `std::multimap<id, Load*>`: entries in insertion order.  `equal_range(k)` enumerates the entries of key
`k` in insertion order (C++11 guarantee), so the list filtered by key is what the code sees. -/
abbrev MultiMap := List (Nat × Nat)

/-- The data members of `PhysicsDisciplineBase` (physics_discipline_base.h, private section):
`_side_bc_map`, `_vol_bc_map`, `_dirichlet_bc_map`, `_subdomain_var_constraint`, `_point_loads`,
`_element_property`. The two `std::map`s are functions to `Option`. -/
structure Discipline where
  sideBc : MultiMap := []
  volBc : MultiMap := []
  dirichlet : Nat → Option Nat := fun _ => none
  varConstraint : Nat → List Nat := fun _ => []
  pointLoads : List Nat := []
  property : Nat → Option Nat := fun _ => none

/-- `equal_range(k)`, as the sequence of mapped values (lines 49-50, 65-66, 114-115, 127-128, 155-156). -/
def equalRange (m : MultiMap) (k : Nat) : List Nat :=
  (m.filter (fun e => e.1 == k)).map (·.2)

/-- The erase loop of lines 68-73, 130-136, 158-162: erase the first entry of key `k` that holds `l`. -/
def eraseFirst : MultiMap → Nat → Nat → MultiMap
  | [], _, _ => []
  | e :: m, k, l => if e.1 = k ∧ e.2 = l then m else e :: eraseFirst m k l

/-- The API calls. -/
inductive Op where
  | clearLoads
  | addSide (bid l : Nat) | removeSide (bid l : Nat)
  | addVol (sid l : Nat) | removeVol (sid l : Nat) | clearVol (sid l : Nat)
  | addDirichlet (bid l : Nat)
  | constrainVar (sid var : Nat)
  | addPoint (l : Nat)
  | setProperty (sid card : Nat)

/-- One API call, physics_discipline_base.cpp:
clear_loads 37-41, add_side_load 45-57, remove_side_load 61-74, add_dirichlet_bc 80-88,
constrain_subdomain_dofs_for_var 92-107, add_volume_load 111-121, remove_volume_load 124-137,
add_point_load 142-148, clear_volume_load 152-166, set_property_for_subdomain 170-179. -/
def step (dbg : Bool) (d : Discipline) : Op → Exec Discipline
  | .clearLoads => .ok { d with sideBc := [], volBc := [] }
  | .addSide k l =>
      if dbg && (equalRange d.sideBc k).contains l then .error .assertFail
      else .ok { d with sideBc := d.sideBc ++ [(k, l)] }
  | .removeSide k l => .ok { d with sideBc := eraseFirst d.sideBc k l }
  | .addVol k l =>
      if dbg && (equalRange d.volBc k).contains l then .error .assertFail
      else .ok { d with volBc := d.volBc ++ [(k, l)] }
  | .removeVol k l => .ok { d with volBc := eraseFirst d.volBc k l }
  | .clearVol k l =>
      if (equalRange d.volBc k).contains l then .ok { d with volBc := eraseFirst d.volBc k l }
      else if dbg then .error .assertFail else .ok d
  | .addDirichlet k l =>
      match d.dirichlet k with
      | some _ => if dbg then .error .assertFail else .ok d      -- map::insert fails, nothing changes
      | none => .ok { d with dirichlet := fun j => if j = k then some l else d.dirichlet j }
  | .constrainVar s v =>
      .ok { d with varConstraint := fun j => if j = s then d.varConstraint s ++ [v] else d.varConstraint j }
  | .addPoint l =>
      if dbg && d.pointLoads.contains l then .error .assertFail
      else .ok { d with pointLoads := if d.pointLoads.contains l then d.pointLoads else d.pointLoads ++ [l] }
  | .setProperty s c =>
      if dbg && (d.property s).isSome then .error .assertFail
      else .ok { d with property := fun j => if j = s then some c else d.property j }

/-- A history of API calls. -/
def run (dbg : Bool) : Discipline → List Op → Exec Discipline
  | d, [] => .ok d
  | d, o :: os => do
      let d' ← step dbg d o
      run dbg d' os

/-- `get_property_card` (183-214; the three overloads differ only in how they find the subdomain id).
Dereferencing `end()` in a release build is undefined behaviour. -/
def getPropertyCard (dbg : Bool) (d : Discipline) (sid : Nat) : Exec Nat :=
  match d.property sid with
  | some c => .ok c
  | none => .error (if dbg then .assertFail else .ub)

/-! ### Dirichlet dofs -/

/-- What the code looks at on one element: `subdomain_id()`, the dof indices of each variable
(`dof_map.dof_indices(elem, ·, var)`) and its sides. -/
structure Side where
  /-- `neighbor_ptr(s) == nullptr` -/
  onBoundary : Bool
  /-- `boundary_info->boundary_ids(elem, s, ·)` -/
  bids : List Nat
  /-- `FEInterface::dofs_on_side(elem, dim, fe_type, s, ·)`: positions in `dof_indices` -/
  sideDofs : List Nat

structure Element where
  subdomain : Nat
  dofIndices : Nat → List Nat
  sides : List Side

/-- Lines 299-310: dofs of subdomain-constrained variables of one element. -/
def subdomainDofs (d : Discipline) (e : Element) (s : Finset Nat) : Finset Nat :=
  (d.varConstraint e.subdomain).foldl (fun s v => (e.dofIndices v).foldl (fun s i => insert i s) s) s

/-- Lines 330-345, for one boundary id and variable list. `dof_indices[side_dofs[ii]]` out of range is `ub`.
`n_boundary_ids(elem, s) ≠ 0` (line 317) is subsumed by iterating over the (empty) id list. -/
def sideVarDofs (e : Element) (sd : Side) : List Nat → Finset Nat → Exec (Finset Nat)
  | [], s => .ok s
  | v :: vs, s => do
      let s' ← sd.sideDofs.foldlM (fun s ii =>
        match (e.dofIndices v)[ii]? with
        | some i => .ok (insert i s)
        | none => .error Err.ub) s
      sideVarDofs e sd vs s'

/-- Lines 315-347. `vars b` is `constrained_vars_map` (lines 258-270): the variables of the Dirichlet
condition registered for boundary `b`, `none` if there is none. -/
def sideDofs (vars : Nat → Option (List Nat)) (e : Element) (s : Finset Nat) : Exec (Finset Nat) :=
  e.sides.foldlM (fun s sd =>
    if sd.onBoundary then
      sd.bids.foldlM (fun s b =>
        match vars b with
        | some vs => sideVarDofs e sd vs s
        | none => .ok s) s
    else .ok s) s

/-- `get_system_dirichlet_bc_dofs` (249-363) on one process. `varsOf` gives the `variables` of a
DirichletBoundary object; `elems` are the active local elements; `rows` are the constraint rows of the DofMap
known to this process as (dof, number of entries).  The side effect of line 268 (the boundary is added to the
DofMap) does not influence the result and is not modelled. -/
def dirichletDofs (d : Discipline) (varsOf : Nat → List Nat) (elems : List Element)
    (rows : List (Nat × Nat)) : Exec (Finset Nat) := do
  let s ← elems.foldlM (fun s e =>
    sideDofs (fun b => (d.dirichlet b).map varsOf) e (subdomainDofs d e s)) ∅
  return rows.foldl (fun s r => if r.2 = 0 then insert r.1 s else s) s

/-- `NonlinearSystem::initialize_condensed_dofs` (nonlinear_system.cpp:689-735) given the set `D` computed by
`get_system_dirichlet_bc_dofs`: result is `_local_non_condensed_dofs_vector`.
`first`/`last` are `first_dof()`/`end_dof()`; `constrained` is `is_constrained_dof`. -/
def condensedDofs (first last : Nat) (constrained : Nat → Bool) (D : Finset Nat) : List Nat :=
  let s0 := (List.range' first (last - first)).foldl
    (fun s i => if constrained i then s else insert i s) (∅ : Finset Nat)
  let s1 := (D.sort (· ≤ ·)).foldl
    (fun s i => if first ≤ i ∧ i < last then s.erase i else s) s0
  s1.sort (· ≤ ·)

end Verif.Disc
