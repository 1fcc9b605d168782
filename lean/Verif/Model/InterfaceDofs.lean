import Mathlib.LinearAlgebra.Matrix.NonsingularInverse
import Mathlib.Data.Real.Basic
import Mathlib.Data.List.Sort
/-
  Model of src/level_set/material_patch.cpp and src/level_set/interface_dof_handler.cpp: detection of the elements in which the dofs on void nodes are
  statically condensed, the partition of the element dofs, the condensed system and the recovery of the condensed dofs.
-/
namespace Verif.InterfaceDofs

/-! ### material patch around a node -/

/-- An element of the patch: ids of its four nodes and the angle `atan2` of its centroid seen from the node (material_patch.cpp:148-151). -/
structure PElem where
  nodes : Fin 4 → Nat
  angle : ℝ

/-- Outcome of a computation that may leave the bounds of a std::vector or dereference a null pointer. -/
inductive Out (α : Type) where
  | ub
  | ok (a : α)

/-- `elem_angle_map[angle] = &e` and iteration (material_patch.cpp:137-164): insertion into a map ordered by angle; an equal angle is overwritten. -/
noncomputable def insertAngle (e : PElem) : List PElem → List PElem
  | [] => [e]
  | a :: l => if e.angle < a.angle then e :: a :: l else if e.angle = a.angle then e :: l else a :: insertAngle e l

/-- The elements in order of angle. -/
noncomputable def byAngle (es : List PElem) : List PElem := es.foldl (fun m e => insertAngle e m) []

/-- The node pushed between two neighbouring elements: the one nearer to the centre, the second element's on a tie (material_patch.cpp:184-189). -/
noncomputable def nearer (dist : Nat → ℝ) (a b : Nat) : Nat := if dist a < dist b then a else b

/-- `periphery_nodes` (material_patch.cpp:181-222); `dist n` is the distance of node `n` from the centre. -/
noncomputable def periphery (dist : Nat → ℝ) (e0 e1 e2 e3 : PElem) : List Nat :=
  [e0.nodes 0, nearer dist (e0.nodes 1) (e1.nodes 0), e1.nodes 1, nearer dist (e1.nodes 2) (e2.nodes 1),
   e2.nodes 2, nearer dist (e2.nodes 3) (e3.nodes 2), e3.nodes 3, nearer dist (e3.nodes 0) (e0.nodes 3)]

/-- `(v1 < 0. && v2 >= 0.) || (v1 >= 0. && v2 < 0.)` (material_patch.cpp:242). -/
noncomputable def changes (v1 v2 : ℝ) : Bool := (decide (v1 < 0) && decide (v2 ≥ 0)) || (decide (v1 ≥ 0) && decide (v2 < 0))

/-- The loop (material_patch.cpp:236-246): `v1` is carried along, the last step compares with the first value again. -/
noncomputable def countChanges (v : List ℝ) : Nat :=
  ((List.range v.length).foldl (fun (s : ℝ × Nat) i =>
    let v2 := v.getD ((i + 1) % v.length) 0
    (v2, if changes s.1 v2 then s.2 + 1 else s.2)) (v.getD 0 0, 0)).2

/-- `_quad4_material_levels` (material_patch.cpp:100-262): fewer than four neighbours give `false`; more than four overrun `patch_elems(4)`, and fewer than four
different angles leave null pointers in it. -/
noncomputable def materialLevels (es : List PElem) (dist phi : Nat → ℝ) : Out Bool :=
  if es.length < 4 then .ok false
  else match byAngle es with
    | [e0, e1, e2, e3] => .ok (decide (countChanges ((periphery dist e0 e1 e2 e3).map phi) / 2 > 1))
    | _ => .ub

/-- `MaterialPatch::init`: elements to factor (material_patch.cpp:37-88), those with a node at which the level set is not negative. -/
noncomputable def elemsToFactor (es : List PElem) (dist phi : Nat → ℝ) : Out (List PElem) :=
  match materialLevels es dist phi with
  | .ub => .ub
  | .ok false => .ok []
  | .ok true => .ok (es.filter fun e => decide (phi (e.nodes 0) ≥ 0) || decide (phi (e.nodes 1) ≥ 0) || decide (phi (e.nodes 2) ≥ 0) || decide (phi (e.nodes 3) ≥ 0))

/-! ### partition of the element dofs -/

/-- The loops of `partition_local_elem_rows` (interface_dof_handler.cpp:166-181) for the nodes selected by `p`, onto the given list. -/
def pushRows (nNodes nVars : Nat) (p : Nat → Bool) (acc : List Nat) : List Nat :=
  (List.range nNodes).foldl (fun acc i => if p i then (List.range nVars).foldl (fun acc j => acc ++ [j * nNodes + i]) acc else acc) acc

/-- `partition_local_elem_rows` (interface_dof_handler.cpp:141-186): (material dofs, void dofs) from what the caller passes in. -/
noncomputable def partitionLocal (nNodes nVars : Nat) (val : Nat → ℝ) (mat void : List Nat) : List Nat × List Nat :=
  ((pushRows nNodes nVars (fun i => !decide (val i < 0)) mat).mergeSort (· ≤ ·), (pushRows nNodes nVars (fun i => decide (val i < 0)) void).mergeSort (· ≤ ·))

/-- `partition_global_elem_rows` (interface_dof_handler.cpp:190-213): `dofIds` from the DofMap. -/
noncomputable def partitionGlobal (nNodes nVars : Nat) (val : Nat → ℝ) (dofIds : Nat → Nat) (mat void : List Nat) : List Nat × List Nat :=
  let r := partitionLocal nNodes nVars val mat void
  (r.1.map dofIds, r.2.map dofIds)

/-! ### condensation -/

/-- The linear solver of Eigen (`FullPivLU::solve`), external. -/
abbrev Solver := ∀ {n : Nat}, Matrix (Fin n) (Fin n) ℝ → (Fin n → ℝ) → (Fin n → ℝ)

/-- `_compute_matrix_inverse` (interface_dof_handler.cpp:461-483): column by column. -/
def invMat (solve : Solver) {n : Nat} (A : Matrix (Fin n) (Fin n) ℝ) : Matrix (Fin n) (Fin n) ℝ :=
  Matrix.of fun i j => solve A (Pi.single j 1) i

/-- Sub-matrix of the element Jacobian with the rows and columns of the lists (interface_dof_handler.cpp:357-371). -/
def block (J : Nat → Nat → ℝ) (r c : List Nat) : Matrix (Fin r.length) (Fin c.length) ℝ := Matrix.of fun i j => J (r.get i) (c.get j)

/-- Sub-vector (interface_dof_handler.cpp:311-315, 438-442). -/
def sub (f : Nat → ℝ) (r : List Nat) : Fin r.length → ℝ := fun i => f (r.get i)

/-- `element_factored_jacobian` (interface_dof_handler.cpp:326-376): the condensed Jacobian. -/
def factoredJac (solve : Solver) (J : Nat → Nat → ℝ) (u f : List Nat) : Matrix (Fin u.length) (Fin u.length) ℝ :=
  block J u u - block J u f * invMat solve (block J f f) * block J f u

/-- `element_factored_residual_and_jacobian` (interface_dof_handler.cpp:275-320): the condensed residual. -/
def factoredRes (solve : Solver) (J : Nat → Nat → ℝ) (r : Nat → ℝ) (u f : List Nat) : Fin u.length → ℝ :=
  sub r u - (block J u f * invMat solve (block J f f)).mulVec (sub r f)

/-- `dx_f` of `update_factored_element_solution` (interface_dof_handler.cpp:430-446). -/
def recover (solve : Solver) (J : Nat → Nat → ℝ) (r : Nat → ℝ) (u f : List Nat) (dsol : Nat → ℝ) : Fin f.length → ℝ :=
  (invMat solve (block J f f)).mulVec (-sub r f - (block J f u).mulVec (sub dsol u))

/-- `updated_sol` of `update_factored_element_solution` (interface_dof_handler.cpp:448-450); also stored for the element (456). -/
def updatedSol (solve : Solver) (J : Nat → Nat → ℝ) (r : Nat → ℝ) (u f : List Nat) (sol dsol : Nat → ℝ) : Nat → ℝ :=
  (List.finRange f.length).foldl (fun s i => fun k => if k = f.get i then s k + recover solve J r u f dsol i else s k) sol

/-- `solution_of_factored_element` (interface_dof_handler.cpp:217-239): void dofs from the stored vector. -/
def factoredSolution (stored elemSol : Nat → ℝ) (f : List Nat) : Nat → ℝ := f.foldl (fun s d => fun k => if k = d then stored d else s k) elemSol

end Verif.InterfaceDofs
