import Verif.Model.CutCell
/-
  Model of src/level_set/sub_elem_mesh_refinement.cpp and src/level_set/sub_elem_node_map.cpp for meshes of QUAD4: splitting the elements cut by the level set,
  restoring the mesh, and the constraints on void and hanging dofs.

  Not modelled: `prepare_for_use` (renumbering, neighbours), processor ids, p-levels, extra integers; nodes and elements are named by fixed numbers standing for
  the C++ pointers, new ones get the next free number. Interior nodes (sub_elem_mesh_refinement.cpp:458-465, 529-559) never occur: `_interior_nodes` of the
  intersection is never filled (level_set_intersection.cpp:239 is its only other use).
-/
namespace Verif.SubElemMesh
open CutCell (Cut Sub Vtx NewNode Pt)

/-- An element of the mesh: node numbers and subdomain id. The type is the number of nodes (3: TRI3, 4: QUAD4). -/
structure MElem where
  nodes : List Nat
  sub : Nat

/-- The mesh: elements, nodes, next free numbers, boundary sides (element, side, boundary id). -/
structure Mesh where
  elem : Nat → Option MElem
  nextE : Nat
  pos : Nat → Option Pt
  nextN : Nat
  sides : List (Nat × Nat × Nat)

/-- Members of SubElemMeshRefinement: `_node_map` (positive, negative node of a pair of ids), `_new_nodes`, `_new_elems`, `_old_elems`, `_hanging_node`,
`_negative_level_set_ids`; and the local flag `mesh_changed`. -/
structure St where
  mesh : Mesh
  map : Nat → Nat → Option Nat × Option Nat
  newNodes : List Nat
  newElems : List Nat
  oldElems : List (Nat × Nat)
  hanging : List (Nat × Nat × Nat)
  negIds : List Nat
  changed : Bool

/-- State after construction or `clear_mesh`. -/
def start (m : Mesh) : St := ⟨m, fun _ _ => (none, none), [], [], [], [], [], false⟩

/-- `_mesh.add_point(p, invalid_id, ..)`. -/
def Mesh.addPoint (m : Mesh) (p : Pt) : Mesh := { m with pos := fun n => if n = m.nextN then some p else m.pos n, nextN := m.nextN + 1 }

/-- Store into the node map. -/
def setPair (map : Nat → Nat → Option Nat × Option Nat) (i j : Nat) (v : Option Nat × Option Nat) : Nat → Nat → Option Nat × Option Nat :=
  fun a b => if a = i ∧ b = j then v else map a b

/-- `_add_node` (sub_elem_mesh_refinement.cpp:649-726) with `SubElemNodeMap::add` (sub_elem_node_map.cpp:45-58). -/
def addNode (p : Pt) (strong positive : Bool) (b1 b2 : Nat) (s : St) : Nat × St :=
  let i := min b1 b2
  let j := max b1 b2
  let pr := s.map i j
  let n := s.mesh.nextN
  let add (v : Option Nat × Option Nat) : Nat × St := (n, { s with mesh := s.mesh.addPoint p, map := setPair s.map i j v, newNodes := s.newNodes ++ [n] })
  if !strong then
    match pr.1 with
    | some k => (k, s)
    | none => add (some n, some n)
  else if positive then
    match pr.1 with
    | some k => (k, s)
    | none => add (some n, pr.2)
  else
    match pr.2 with
    | some k => (k, s)
    | none => add (pr.1, some n)

/-- An element to process: its number, nodes, cut, positions of the new nodes, and the corners on the boundary in the touching modes (the node or both ends of the
edge, 578-586). -/
structure Work where
  id : Nat
  corner : Fin 4 → Nat
  cut : Cut
  newPos : Fin 4 → Pt
  touch : List (Fin 4)

/-- Bounding nodes of a new node: the ends of its side (level_set_intersection.cpp:938, 981, 1057, 1072, 1348, 1465). -/
def bounding (w : Work) (k : Fin 4) : Nat × Nat :=
  match w.cut.newNodes[k.val]? with
  | some n => (w.corner n.side, w.corner (n.side + 1))
  | none => (0, 0)

/-- One node of a child (sub_elem_mesh_refinement.cpp:445-488). -/
def addVertex (w : Work) (strong positive : Bool) (v : Vtx) (s : St) : Nat × St :=
  match v with
  | .corner i => (w.corner i, s)
  | .cut k =>
    let b := bounding w k
    let r := addNode (w.newPos k) strong positive b.1 b.2 s
    (r.1, if w.cut.hanging.contains k then { r.2 with hanging := r.2.hanging ++ [(r.1, b.1, b.2)] } else r.2)

/-- All nodes of a child in order. -/
def addVertices (w : Work) (strong positive : Bool) : List Vtx → St → List Nat × St
  | [], s => ([], s)
  | v :: vs, s =>
    let r := addVertex w strong positive v s
    let q := addVertices w strong positive vs r.2
    (r.1 :: q.1, q.2)

/-- `_mesh.add_elem(child)`, `add_side`, `_new_elems.push_back` (sub_elem_mesh_refinement.cpp:517-524). -/
def addElem (e : MElem) (side : Option Nat) (bid : Nat) (s : St) : St :=
  let n := s.mesh.nextE
  { s with
    mesh := { s.mesh with
      elem := fun k => if k = n then some e else s.mesh.elem k
      nextE := n + 1
      sides := match side with
        | some i => s.mesh.sides ++ [(n, i, bid)]
        | none => s.mesh.sides }
    newElems := s.newElems ++ [n] }

/-- Subdomain of a child (sub_elem_mesh_refinement.cpp:498-509); the parent is a QUAD4. -/
def childSub (parentSub nNodes negOff : Nat) (positive : Bool) : Nat :=
  (if nNodes = 4 then parentSub else parentSub + 1) + (if positive then 0 else negOff)

/-- One sub-element in `_process_sub_elements` (sub_elem_mesh_refinement.cpp:421-525). -/
def addSub (w : Work) (parentSub : Nat) (strong : Bool) (negOff bid : Nat) (positive : Bool) (s : St) (b : Sub) : St :=
  let r := addVertices w strong positive b.verts s
  let sub := childSub parentSub b.verts.length negOff positive
  let s1 := if positive then r.2 else { r.2 with negIds := r.2.negIds ++ [sub] }
  addElem ⟨r.1, sub⟩ b.iface bid s1

/-- `_process_negative_element` (sub_elem_mesh_refinement.cpp:566-644): the corners on the boundary are doubled. -/
def addNegative (w : Work) (parentSub negOff : Nat) (s : St) : St :=
  let step (acc : List Nat × St) (i : Fin 4) : List Nat × St :=
    if w.touch.contains i then
      let r := addNode ((acc.2.mesh.pos (w.corner i)).getD 0) true false (w.corner i) (w.corner i) acc.2
      (acc.1 ++ [r.1], r.2)
    else (acc.1 ++ [w.corner i], acc.2)
  let r := [0, 1, 2, 3].foldl step ([], s)
  let sub := parentSub + negOff
  addElem ⟨r.1, sub⟩ none 0 { r.2 with negIds := r.2.negIds ++ [sub] }

/-- `_old_elems.push_back(..); elem->subdomain_id() += off` (sub_elem_mesh_refinement.cpp:147-148, 161-167, 175-176). -/
def retire (id off : Nat) (e : MElem) (s : St) : St :=
  { s with
    oldElems := s.oldElems ++ [(id, e.sub)]
    mesh := { s.mesh with elem := fun k => if k = id then some { e with sub := e.sub + off } else s.mesh.elem k } }

/-- Touching modes with the element on the negative side (sub_elem_mesh_refinement.cpp:105-107, 151-153). -/
def touchesNeg (c : Cut) : Bool := (decide (c.mode = .colinearEdge) || decide (c.mode = .throughNode)) && decide (c.neg.length = 1)

/-- Arguments of `process_mesh`. -/
structure Args where
  strong : Bool
  negOff : Nat
  inactOff : Nat
  bid : Nat

/-- Body of the second loop of `process_mesh` (sub_elem_mesh_refinement.cpp:119-180), with the selection of the first (98-112). -/
def step (a : Args) (s : St) (w : Work) : St :=
  match s.mesh.elem w.id with
  | none => s
  | some e =>
    if CutCell.through w.cut then
      let s1 := w.cut.pos.foldl (addSub w e.sub a.strong a.negOff a.bid true) s
      let s2 := w.cut.neg.foldl (addSub w e.sub a.strong a.negOff a.bid false) s1
      { retire w.id a.inactOff e s2 with changed := true }
    else if touchesNeg w.cut then
      if a.strong then retire w.id a.inactOff e (addNegative w e.sub a.negOff s)
      else retire w.id a.negOff e s
    else if w.cut.onNeg then retire w.id a.negOff e s
    else s

/-- `process_mesh` (sub_elem_mesh_refinement.cpp:58-216) on a mesh with elements `ws`; the result is the state, `changed` the value returned. -/
def process (a : Args) (ws : List Work) (m : Mesh) : St := ws.foldl (step a) (start m)

/-- `clear_mesh` (sub_elem_mesh_refinement.cpp:220-281): subdomain ids are put back in order, new elements with their sides and new nodes deleted. -/
def clear (s : St) : St :=
  let m1 := s.oldElems.foldl (fun (m : Mesh) p => { m with elem := fun k => if k = p.1 then (m.elem k).map fun e => { e with sub := p.2 } else m.elem k }) s.mesh
  let m2 := s.newElems.foldl (fun (m : Mesh) n => { m with elem := fun k => if k = n then none else m.elem k, sides := m.sides.filter fun t => t.1 ≠ n }) m1
  let m3 := s.newNodes.foldl (fun (m : Mesh) n => { m with pos := fun k => if k = n then none else m.pos k }) m2
  start m3

/-- A constraint row. -/
abbrev Row := List (Nat × ℝ)

/-- Length of a vector, `p.norm()`. -/
noncomputable def len (p : Pt) : ℝ := CutCell.norm2 p

/-- `constrain` (sub_elem_mesh_refinement.cpp:286-400): `elems` are the (subdomain, dofs) of the active local elements, `dof v n` the dof of variable `v` at node `n`,
`first`, `last` the range of dofs of this processor, `cm` the constraints before. -/
noncomputable def constrain (strong : Bool) (negIds : List Nat) (hanging : List (Nat × Nat × Nat)) (pos : Nat → Pt) (nVars : Nat) (dof : Nat → Nat → Nat) (first last : Nat)
    (elems : List (Nat × List Nat)) (cm : Nat → Option Row) : Nat → Option Row :=
  if !strong then cm
  else
    let addRow (cm : Nat → Option Row) (d : Nat) (r : Row) : Nat → Option Row :=
      if (decide (d ≥ first) || decide (d < last)) && (cm d).isNone then fun k => if k = d then some r else cm k else cm
    let c1 := elems.foldl (fun cm e => if negIds.contains e.1 then e.2.foldl (fun cm d => addRow cm d []) cm else cm) cm
    hanging.foldl (fun cm h =>
      let t := len (pos h.1 - pos h.2.1) / len (pos h.2.2 - pos h.2.1)
      (List.range nVars).foldl (fun cm v => addRow cm (dof v h.1) [(dof v h.2.1, 1 - t), (dof v h.2.2, t)]) cm) c1

end Verif.SubElemMesh
