import Verif.Model.KinematicCoupling
/-
  Model of src/mesh/mesh_coupling_base.cpp and src/elasticity/kinematic_coupling.cpp: finding the nodes to be tied together, and the constraint rows given to libMesh.

  Nodes (pointers) are natural numbers; a `std::set` of nodes is a list without repetitions (its order depends on addresses and is never used).
-/
namespace Verif.MeshCoupling
open Verif.Coupling (Pt)

/-- What the search reads from an element: its subdomain, its nodes and, for every side, its nodes and the boundary ids stored for it in `BoundaryInfo`. -/
structure Elem where
  subdomain : Nat
  nodes : List Nat
  sides : List (List Nat × List Int)

/-- The mesh on one rank: `local_elements` (`owned`), all active elements (`active`, searched by the point locator), node positions, and libMesh's `Elem::close_to_point` used by
`PointLocatorTree::perform_fuzzy_linear_search`. -/
structure Mesh where
  owned : List Elem
  active : List Elem
  pos : Nat → Pt
  close : Elem → Nat → ℝ → Bool

/-- `std::set::insert`. -/
def ins (s : List Nat) (n : Nat) : List Nat := if n ∈ s then s else s ++ [n]

/-- `MeshCouplingBase::_check_if_side_on_boundary`, src/mesh/mesh_coupling_base.cpp:245-262.  The stored ids are 16 bit signed integers, compared with an `unsigned int` after the usual conversion (reduction modulo 2^32). -/
def onBoundary (ids : List Int) (b : Nat) : Bool := ids.foldl (fun on i => if i % 4294967296 = (b : Int) then true else on) false

/-- `locator_tree.perform_fuzzy_linear_search(*slave_node, nullptr, tol)`, mesh_coupling_base.cpp:97-98, 197-198 (libMesh: all active elements close to the point). -/
def near (M : Mesh) (n : Nat) (tol : ℝ) : List Elem := M.active.filter fun e => M.close e n tol

/-- The master nodes of one slave for a master boundary, mesh_coupling_base.cpp:95-131: all nodes of all sides on the master boundary of the elements close to the slave. -/
def mastersBoundary (M : Mesh) (master : Nat) (tol : ℝ) (n : Nat) : List Nat :=
  (near M n tol).foldl (fun s e => e.sides.foldl (fun s sd => if onBoundary sd.2 master then sd.1.foldl ins s else s) s) []

open Classical in
/-- The master nodes of one slave for a master subdomain, mesh_coupling_base.cpp:195-227: nodes within `tol` of the elements of the subdomain that are close to the slave. -/
noncomputable def mastersSubdomain (M : Mesh) (master : Nat) (tol : ℝ) (n : Nat) : List Nat :=
  (near M n tol).foldl (fun s e => if e.subdomain = master then e.nodes.foldl (fun s m => if Coupling.norm (fun c => M.pos m c - M.pos n c) ≤ tol then ins s m else s) s else s) []

/-- `_node_couplings` and the local set `slave_nodes`. -/
structure State where
  couplings : List (Nat × List Nat)
  slaves : List Nat

/-- One node of a slave side, mesh_coupling_base.cpp:93-140, 193-236. -/
def visit (masters : Nat → List Nat) (st : State) (n : Nat) : State :=
  if n ∈ st.slaves then st else { couplings := st.couplings ++ [(n, masters n)], slaves := ins st.slaves n }

/-- The sides of one element, mesh_coupling_base.cpp:73-143, 173-239. -/
def visitElem (masters : Nat → List Nat) (b : Nat) (st : State) (e : Elem) : State :=
  e.sides.foldl (fun st sd => if onBoundary sd.2 b then sd.1.foldl (visit masters) st else st) st

/-- The loop over the elements, mesh_coupling_base.cpp:68-144, 168-240: the set of visited slaves is local to the call, the couplings are appended to those of earlier calls. -/
def sweep (masters : Nat → List Nat) (owned : List Elem) (b : Nat) (old : List (Nat × List Nat)) : List (Nat × List Nat) :=
  (owned.foldl (visitElem masters b) { couplings := old, slaves := [] }).couplings

/-- `add_master_and_slave_boundary_coupling`, mesh_coupling_base.cpp:48-145. -/
def addBoundary (M : Mesh) (master slave : Nat) (tol : ℝ) (old : List (Nat × List Nat)) : List (Nat × List Nat) := sweep (mastersBoundary M master tol) M.owned slave old

/-- `add_slave_boundary_and_master_subdomain_coupling`, mesh_coupling_base.cpp:148-241. -/
noncomputable def addSubdomain (M : Mesh) (master slave : Nat) (tol : ℝ) (old : List (Nat × List Nat)) : List (Nat × List Nat) := sweep (mastersSubdomain M master tol) M.owned slave old

/-! ### src/elasticity/kinematic_coupling.cpp -/

/-- `KinematicCouplingConstraint`: masters and whether the rotations are tied. -/
structure Constraint where
  masters : List Nat
  rotations : Bool

/-- `_slave_node_constraints`: a map from slave nodes (the order of the keys, addresses, only fixes the order of the rows). -/
abbrev Coupled := List (Nat × Constraint)

/-- `add_master_and_slave` for one slave in a release build, src/elasticity/kinematic_coupling.cpp:63-79: `map[&slave] = constr`. -/
def add (m : Coupled) (slave : Nat) (c : Constraint) : Coupled :=
  if m.any (fun p => p.1 == slave) then m.map fun p => if p.1 = slave then (slave, c) else p else m ++ [(slave, c)]

/-- `add_master_and_slave` for a list of couplings, kinematic_coupling.cpp:50-60. -/
def addAll (m : Coupled) (l : List (Nat × List Nat)) (rotations : Bool) : Coupled := l.foldl (fun m p => add m p.1 ⟨p.2, rotations⟩) m

/-- One row given to libMesh: the constrained degree of freedom (node, component), and the value the row gives it for given nodal values (the coefficients of `get_dof_constraint_row`, kinematic_coupling_constraint.cpp:44-179, in
the model of `Verif.Coupling`; right hand side 0).  Degrees of freedom are pairs (node, component), which libMesh numbers injectively. -/
structure Row where
  dof : Nat × Nat
  value : (Nat → Nat → ℝ) → ℝ

/-- `n_constrain_nodes()`, kinematic_coupling_constraint.h:85-89. -/
def nRows (c : Constraint) : Nat := if c.rotations then 6 else 3

/-- Rows of one slave, kinematic_coupling.cpp:127-133 with `get_dof_constraint_row`. -/
noncomputable def rowsOf (pos : Nat → Pt) (p : Nat × Constraint) : List Row :=
  (List.range (nRows p.2)).map fun i =>
    { dof := (p.1, i)
      value := fun u => Coupling.slaveValue (fun i k c => Coupling.coeff (pos p.1) (fun k : Fin p.2.masters.length => pos (p.2.masters.get k)) i k c) (fun k => u (p.2.masters.get k)) i }

/-- `get_constraint_rows`, kinematic_coupling.cpp:103-140. -/
noncomputable def constraintRows (pos : Nat → Pt) (m : Coupled) : List Row := m.foldl (fun l p => l ++ rowsOf pos p) []

/-- The constraints stored in libMesh's `DofMap`. -/
abbrev DofMap := Nat × Nat → Option ((Nat → Nat → ℝ) → ℝ)

/-- libMesh's `DofMap::add_constraint_row` with `forbid_constraint_overwrite`: a second constraint of a degree of freedom is an error. -/
def addRow (d : DofMap) (r : Row) : Exec DofMap :=
  match d r.dof with
  | some _ => .error .error
  | none => .ok fun x => if x = r.dof then some r.value else d x

/-- `add_dof_constraints_to_dof_map`, kinematic_coupling.cpp:83-100. -/
noncomputable def addToDofMap (pos : Nat → Pt) (m : Coupled) (d : DofMap) : Exec DofMap := (constraintRows pos m).foldlM (m := Exec) addRow d

end Verif.MeshCoupling
