import Verif.Model.Exec
import Mathlib.Data.Real.Basic
import Mathlib.Logic.Function.Basic
/-
  Dirichlet conditions: src/boundary_condition/dirichlet_boundary_condition.cpp and the functions of src/base/physics_discipline_base.cpp that hand them to the system (80-88, 218-363).
  Degrees of freedom and boundary ids are numbers; reals stand for double; one process.  libMesh's DofMap is modelled by the list of Dirichlet boundaries it holds and by its constraint rows.
-/
namespace Verif.DirBc
open Verif
variable {P : Type}

/-- `libMesh::VariableIndexing`. -/
inductive Index where | system | local
  deriving DecidableEq

/-- The function given to `init` (dirichlet_boundary_condition.cpp:61-143): the wrapped field function, `index` and `n_sys_vars`. -/
structure Wrapped (P : Type) where
  index : Index
  nsys : Nat
  f : P → List ℝ

/-- `libMesh::DirichletBoundary` made by `init` (dirichlet_boundary_condition.cpp:28-145): boundary id, variables, function (`none`: `ZeroFunction`). -/
structure Cond (P : Type) where
  bid : Nat
  vars : List Nat
  f : Option (Wrapped P)

/-- `DirichletBoundaryCondition::init` (dirichlet_boundary_condition.cpp:28-145); `old`: what the object held before. -/
def initCond (dbg : Bool) (old : Option (Cond P)) (bid : Nat) (vars : List Nat) (f : Option (Wrapped P)) : Exec (Cond P) :=
  if dbg && old.isSome then .error .assertFail
  else match f with
    | none => .ok ⟨bid, vars, none⟩
    | some w => if dbg && (w.index == .system && w.nsys == 0) then .error .assertFail else .ok ⟨bid, vars, some w⟩

/-- Number of entries copied (dirichlet_boundary_condition.cpp:113-123). -/
def expected (vars : List Nat) (w : Wrapped P) : Nat := match w.index with | .system => w.nsys | .local => vars.length
/-- `FunctionWrapper::operator()` (dirichlet_boundary_condition.cpp:106-124): the vector handed to libMesh at a point; reading behind the end of the value of the field function is undefined. -/
def wrapped (dbg : Bool) (vars : List Nat) (w : Wrapped P) (p : P) : Exec (List ℝ) :=
  if dbg && (w.f p).length != expected vars w then .error .assertFail
  else if (w.f p).length < expected vars w then .error .ub
  else .ok ((w.f p).take (expected vars w))

/-- The entry libMesh takes from that vector for the `i`-th variable of the condition, `v`: entry `v` in system order, entry `i` in local order. -/
def component (dbg : Bool) (c : Cond P) (v i : Nat) (p : P) : Exec ℝ :=
  match c.f with
  | none => .ok 0
  | some w => do
    let out ← wrapped dbg c.vars w p
    match out[match w.index with | .system => v | .local => i]? with
    | some x => .ok x
    | none => .error (if dbg then .assertFail else .ub)

/-- A degree of freedom of the mesh: number, variable, position, ids of the boundaries it is on (sides, edges, nodes), the ids among them of sides without a neighbour, subdomains of its elements. -/
structure Entry (P : Type) where
  dof : Nat
  var : Nat
  pos : P
  bids : List Nat
  outer : List Nat
  subs : List Nat

/-- What the DofMap holds. -/
structure Sys (P : Type) where
  dirichlets : List (Cond P)
  rows : Nat → Option ℝ

/-- One degree of freedom in `create_dof_constraints`: a row is added unless the degree of freedom has one. -/
def addRow (dbg : Bool) (c : Cond P) (v i : Nat) (rows : Nat → Option ℝ) (e : Entry P) : Exec (Nat → Option ℝ) :=
  if e.var = v ∧ c.bid ∈ e.bids then do
    let x ← component dbg c v i e.pos
    .ok (if (rows e.dof).isSome then rows else Function.update rows e.dof (some x))
  else .ok rows

/-- One variable of one Dirichlet boundary. -/
def addVar (dbg : Bool) (dofs : List (Entry P)) (c : Cond P) (rows : Nat → Option ℝ) (vi : Nat × Nat) : Exec (Nat → Option ℝ) := dofs.foldlM (addRow dbg c vi.1 vi.2) rows

/-- One Dirichlet boundary. -/
def addCond (dbg : Bool) (dofs : List (Entry P)) (rows : Nat → Option ℝ) (c : Cond P) : Exec (Nat → Option ℝ) := c.vars.zipIdx.foldlM (addVar dbg dofs c) rows

/-- `EquationSystems::init` / `reinit` (libMesh): the constraint rows are made again from the Dirichlet boundaries of the DofMap. -/
def reinit (dbg : Bool) (dofs : List (Entry P)) (s : Sys P) : Exec (Sys P) := do
  let rows ← s.dirichlets.foldlM (addCond dbg dofs) fun _ => none
  .ok { s with rows := rows }

/-- `_dirichlet_bc_map`: a `std::map`, so a list sorted by boundary id; `none`: the condition was registered but never initialised (a null pointer). -/
abbrev Reg (P : Type) := List (Nat × Option (Cond P))

/-- `add_dirichlet_bc` (physics_discipline_base.cpp:80-88). -/
def add (dbg : Bool) (r : Reg P) (k : Nat) (c : Option (Cond P)) : Exec (Reg P) :=
  if r.any fun x => x.1 == k then (if dbg then .error .assertFail else .ok r)
  else .ok (r.takeWhile (fun x => x.1 < k) ++ (k, c) :: r.dropWhile (fun x => x.1 < k))

/-- `dirichlet_boundary()` (dirichlet_boundary_condition.h:77-79) of every registered condition, in the order of the map. -/
def conds (r : Reg P) : Exec (List (Cond P)) := r.mapM fun x => match x.2 with | some c => .ok c | none => .error .ub

/-- `init_system_dirichlet_bc` (physics_discipline_base.cpp:218-229): the DofMap keeps a copy of every condition. -/
def initSystem (r : Reg P) (s : Sys P) : Exec (Sys P) := do
  let cs ← conds r
  .ok { s with dirichlets := s.dirichlets ++ cs }

/-- `remove_dirichlet_boundary` (libMesh): the first boundary with the same id and variables is removed. -/
def remove (dbg : Bool) (l : List (Cond P)) (c : Cond P) : Exec (List (Cond P)) :=
  if l.any fun d => d.bid == c.bid && d.vars == c.vars then .ok (l.eraseP fun d => d.bid == c.bid && d.vars == c.vars)
  else .error (if dbg then .assertFail else .ub)

/-- `clear_system_dirichlet_bc` (physics_discipline_base.cpp:234-245). -/
def clearSystem (dbg : Bool) (r : Reg P) (s : Sys P) : Exec (Sys P) := do
  let cs ← conds r
  let l ← cs.foldlM (remove dbg) s.dirichlets
  .ok { s with dirichlets := l }

/-- `get_system_dirichlet_bc_dofs` (physics_discipline_base.cpp:249-363), with its effect on the system (265-270): the variables are looked up under the id of the registration (`it->first`, 269, 323);
`sub` are the subdomain constraints (296-310), `rows` without entries are all Dirichlet rows (353-362).  All variables have the element type of variable 0 here. -/
def getDofs (r : Reg P) (sub : Nat → List Nat) (dofs : List (Entry P)) (s : Sys P) : Exec (List Nat × Sys P) := do
  let cs ← conds r
  let onSide (e : Entry P) : Bool := r.any fun x => match x.2 with | some c => e.outer.contains x.1 && c.vars.contains e.var | none => false
  let inSub (e : Entry P) : Bool := e.subs.any fun d => (sub d).contains e.var
  .ok ((dofs.filter fun e => onSide e || inSub e || (s.rows e.dof).isSome).map (·.dof), { s with dirichlets := s.dirichlets ++ cs })

end Verif.DirBc
