import Verif.Model.Exec
import Mathlib.Data.Real.Basic
/-
  Import of Nastran decks: src/mesh/nastran_io.{h,cpp} and the Cython part src/mesh/pynastran_io.pyx.  The parser pyNastran and libMesh are not modelled: a deck is what pyNastran makes of it, a mesh is a list of
  nodes and elements.  `prepare_for_use` (which renumbers, and keeps the objects) is left out.
-/
namespace Verif.Nastran

/-- `libMesh::ElemType`, the values of nastran_io.h:185-214. -/
inductive EType where
  | nodeElem | edge2 | edge3 | tri3 | tri6 | quad4 | quad8 | quad9 | quadShell4 | tet4 | tet10 | prism6 | prism15 | pyramid5 | pyramid13 | hex8 | hex20
deriving DecidableEq, Repr

/-- Number of nodes of the libMesh element. -/
def EType.nNodes : EType → Nat
  | .nodeElem => 1 | .edge2 => 2 | .edge3 => 3 | .tri3 => 3 | .tri6 => 6 | .quad4 => 4 | .quad8 => 8 | .quad9 => 9 | .quadShell4 => 4 | .tet4 => 4 | .tet10 => 10
  | .prism6 => 6 | .prism15 => 15 | .pyramid5 => 5 | .pyramid13 => 13 | .hex8 => 8 | .hex20 => 20

/-- `nastran_to_libmesh_elem_type_map` (nastran_io.h:185-214); the key is the name of the card and the number of its nodes. -/
def typeTable : List ((String × Nat) × EType) :=
  [(("CELAS1", 1), .nodeElem), (("CELAS2", 1), .nodeElem), (("CELAS3", 1), .nodeElem), (("CELAS4", 1), .nodeElem), (("CBUSH", 1), .nodeElem), (("CBUSH1D", 1), .nodeElem),
   (("CELAS1", 2), .edge2), (("CELAS2", 2), .edge2), (("CELAS3", 2), .edge2), (("CELAS4", 2), .edge2), (("CBUSH", 2), .edge2), (("CBUSH1D", 2), .edge2), (("CBUSH2D", 2), .edge2),
   (("CROD", 2), .edge2), (("CBAR", 2), .edge2), (("CBEAM", 2), .edge2), (("CBEAM3", 3), .edge3),
   (("CTRIA3", 3), .tri3), (("CTRIA6", 6), .tri6), (("CTRIAR", 3), .tri3), (("CQUAD4", 4), .quad4), (("CQUAD8", 8), .quad8), (("CQUADR", 4), .quadShell4), (("CQUAD", 4), .quad4),
   (("CQUAD", 8), .quad8), (("CQUAD", 9), .quad9), (("CQUADX", 4), .quad4), (("CQUADX", 8), .quad8), (("CQUADX", 9), .quad9),
   (("CTETRA", 4), .tet4), (("CTETRA", 10), .tet10), (("CPENTA", 6), .prism6), (("CPENTA", 15), .prism15), (("CPYRAM", 5), .pyramid5), (("CPYRAM", 13), .pyramid13), (("CHEXA", 8), .hex8), (("CHEXA", 20), .hex20)]

/-- The look up of nastran_io.cpp:144-154. -/
def typeOf (key : String × Nat) : Option EType := (typeTable.find? fun e => e.1 = key).map (·.2)

/-- One element of the deck: `element.type`, `eid`, `pid`, `nodes` (pynastran_io.pyx:170-184). -/
structure Card where
  type : String
  eid : Nat
  pid : Nat
  nodes : List Nat

/-- `elemType = element.type + "_%i" % len(element.nodes)` (pynastran_io.pyx:177-178), kept as a pair: names contain no underscore. -/
def Card.key (c : Card) : String × Nat := (c.type, c.nodes.length)

/-- Order of the keys in the `std::map`: a strict order decides where a new key goes.  The order itself (of the names with their suffix) is left open. -/
abbrev KeyLt := String × Nat → String × Nat → Bool

/-- `elementMap[elemType][i]` (pynastran_io.pyx:170-184): the rows of one key in the order of the deck, the keys in the order of the map. -/
def insertCard (lt : KeyLt) (c : Card) : List ((String × Nat) × List Card) → List ((String × Nat) × List Card)
  | [] => [(c.key, [c])]
  | (k, l) :: m => if k = c.key then (k, l ++ [c]) :: m else if lt c.key k then (c.key, [c]) :: (k, l) :: m else (k, l) :: insertCard lt c m

/-- `getElements` (pynastran_io.pyx:135-186). -/
def getElements (lt : KeyLt) (cards : List Card) : List ((String × Nat) × List Card) := cards.foldl (fun m c => insertCard lt c m) []

/-- Address of a node or an element. -/
abbrev Ptr := Nat

/-- A node of the mesh. -/
structure Node where
  ptr : Ptr
  nid : Nat
  xyz : Fin 3 → ℝ

/-- An element of the mesh: `subdomain_id()` and the nodes set by `set_node`. -/
structure Elem where
  ptr : Ptr
  eid : Nat
  type : EType
  sid : Nat
  nodes : List Ptr

/-- The mesh: nodes, elements and the nodes in `boundary_info`. -/
structure Mesh where
  nodes : List Node
  elems : List Elem
  bnd : List (Ptr × Nat)

/-- The data of a `NastranIO` object (nastran_io.h:157-175) and its mesh; `next` is a fresh address. -/
structure Io where
  mesh : Mesh
  next : Ptr
  nodeMap : Nat → Option Ptr
  nodeInv : Ptr → Option Nat
  elemMap : Nat → Option Ptr
  elemInv : Ptr → Option Nat
  subs : List ((Nat × EType) × Nat)

/-- A new object on an empty mesh. -/
def Io.new : Io := ⟨⟨[], [], []⟩, 0, fun _ => none, fun _ => none, fun _ => none, fun _ => none, []⟩

/-- `map[k] = v`. -/
def put {β : Type} (f : Nat → Option β) (k : Nat) (v : β) : Nat → Option β := fun i => if i = k then some v else f i

/-- `the_mesh.add_point(p, nid)`: an existing node of that number is moved. -/
def addPoint (io : Io) (nid : Nat) (xyz : Fin 3 → ℝ) : Io × Ptr :=
  match io.mesh.nodes.find? fun n => n.nid = nid with
  | some n => ({ io with mesh := { io.mesh with nodes := io.mesh.nodes.map fun m => if m.nid = nid then { m with xyz := xyz } else m } }, n.ptr)
  | none => ({ io with mesh := { io.mesh with nodes := io.mesh.nodes ++ [⟨io.next, nid, xyz⟩] }, next := io.next + 1 }, io.next)

/-- One pass of the loop nastran_io.cpp:115-123. -/
def readNode (io : Io) (g : Nat × (Fin 3 → ℝ)) : Io :=
  let r := addPoint io g.1 g.2
  { r.1 with nodeMap := put r.1.nodeMap g.1 r.2, nodeInv := put r.1.nodeInv r.2 g.1 }

/-- `find({pid, elemtype})`. -/
def subFind (subs : List ((Nat × EType) × Nat)) (key : Nat × EType) : Option Nat := (subs.find? fun e => e.1 = key).map (·.2)

/-- `nastran_to_libmesh_node_map[node_num]->id()` and `the_mesh.node_ptr(nid)` (nastran_io.cpp:188-190): a number without entry yields a null pointer, an entry of a deleted node dangles. -/
def nodePtr (io : Io) (num : Nat) : Exec Ptr :=
  match io.nodeMap num with
  | none => .error .ub
  | some p => match io.mesh.nodes.find? fun n => n.ptr = p with
    | none => .error .ub
    | some n => .ok n.ptr

/-- The subdomain map and the counter after nastran_io.cpp:172-179; `pid` is a `subdomain_id_type`, 16 bits wide. -/
def assignSub (subs : List ((Nat × EType) × Nat)) (z pid : Nat) (t : EType) : List ((Nat × EType) × Nat) × Nat :=
  match subFind subs (pid % 65536, t) with
  | some _ => (subs, z)
  | none => (subs ++ [((pid % 65536, t), z)], z + 1)

/-- One pass of the loop nastran_io.cpp:157-194. -/
def readElem (t : EType) (s : Io × Nat) (c : Card) : Exec (Io × Nat) := do
  let r := assignSub s.1.subs s.2 c.pid t
  let sid := (subFind r.1 (c.pid % 65536, t)).getD 0 % 65536
  if t.nNodes < c.nodes.length then .error .ub
  let nodes ← c.nodes.mapM (nodePtr s.1)
  let e : Elem := ⟨s.1.next, c.eid, t, sid, nodes⟩
  .ok ({ s.1 with mesh := { s.1.mesh with elems := s.1.mesh.elems ++ [e] }, next := s.1.next + 1, elemMap := put s.1.elemMap c.eid e.ptr, elemInv := put s.1.elemInv e.ptr c.eid, subs := r.1 }, r.2)

/-- The elements of one key (nastran_io.cpp:141-194). -/
def readGroup (s : Io × Nat) (g : (String × Nat) × List Card) : Exec (Io × Nat) :=
  match typeOf g.1 with
  | none => .error .error
  | some t => g.2.foldlM (m := Exec) (readElem t) s

/-- `read_elements` (nastran_io.cpp:128-196): the counter `z` starts at 1. -/
def readElements (lt : KeyLt) (cards : List Card) (io : Io) : Exec Io := do
  let s ← (getElements lt cards).foldlM (m := Exec) readGroup (io, 1)
  .ok s.1

/-- One constraint set (nastran_io.cpp:206-213): the number of the set and its nodes. -/
def readSpc (io : Io) (j : Nat) (num : Nat) : Exec Io :=
  match io.nodeMap num with
  | none => .error .ub
  | some p => .ok { io with mesh := { io.mesh with bnd := io.mesh.bnd ++ [(p, j)] } }

/-- `read_node_boundaries` (nastran_io.cpp:199-214): the sets in the order of their names, numbered from `j`. -/
def readSpcs : Nat → List (String × List Nat) → Io → Exec Io
  | _, [], io => .ok io
  | j, s :: l, io => do
    let io ← s.2.foldlM (m := Exec) (fun io n => readSpc io j n) io
    readSpcs (j + 1) l io

/-- A deck: grid points, elements, and the sets of constraints as `getSPCs` returns them (pynastran_io.pyx:206-221). -/
structure Deck where
  grids : List (Nat × (Fin 3 → ℝ))
  cards : List Card
  spcs : List (String × List Nat)

/-- `the_mesh.clear()`: the maps of the object are kept (nastran_io.cpp:223, 251). -/
def Io.clear (io : Io) : Io := { io with mesh := ⟨[], [], []⟩ }

/-- `read(filename)` (nastran_io.cpp:217-242). -/
def read (lt : KeyLt) (d : Deck) (io : Io) : Exec Io := do
  let io ← readElements lt d.cards (d.grids.foldl readNode io.clear)
  readSpcs 1 d.spcs io

/-- `read(BDFModel*)` (nastran_io.cpp:245-261). -/
def readModel (lt : KeyLt) (d : Deck) (io : Io) : Exec Io := readElements lt d.cards (d.grids.foldl readNode io.clear)

/-- `get_nastran_property_to_libmesh_subdomains_map()[pid]` (nastran_io.cpp:86-97), as a list. -/
def subdomainsOf (io : Io) (pid : Nat) : List Nat := (io.subs.filter fun e => e.1.1 = pid).map (·.2)

/-- The rows printed by `print_pid_to_subdomain_id_map` (nastran_io.cpp:292-306): `sid_str` is not cleared between the rows. -/
def printRows (m : List (Nat × List Nat)) : List (Nat × List Nat) :=
  (m.foldl (fun (s : List (Nat × List Nat) × List Nat) e => (s.1 ++ [(e.1, s.2 ++ e.2)], s.2 ++ e.2)) ([], [])).1

/-- Floating point numbers as far as the perturbation of bushings needs them. -/
inductive Num where
  | fin (x : ℝ) | pinf | ninf | nan

open Classical in
/-- `x * inf`. -/
noncomputable def timesInf (x : ℝ) : Num := if 0 < x then .pinf else if x < 0 then .ninf else .nan

open Classical in
/-- `di` added to the second node of a bushing of length zero whose coordinate system has the first axis `i` (pynastran_io.pyx:255-260); `eps/absmindi` is infinite for `absmindi = 0`. -/
noncomputable def perturb (eps : ℝ) (i : Fin 3 → ℝ) : Fin 3 → Num :=
  let mn := min (min |eps * i 0| |eps * i 1|) |eps * i 2|
  fun k => if mn < eps then (if mn = 0 then timesInf (eps * i k) else .fin (eps * i k * (eps / mn))) else .fin (eps * i k)

end Verif.Nastran
