import Verif.Model.Exec
/-
  Model of function objects and their dependency queries:
  /repo/src/base/function_base.{h,cpp}, /repo/src/base/parameter.h,
  /repo/src/base/function_set_base.{h,cpp}, /repo/src/base/constant_field_function.cpp.
  Objects are identified by their address, here a natural number (order of construction).
-/
namespace Verif.Fn

/-- Which override of `depends_on` an object has. -/
inductive Kind where
  | param   -- `MAST::Parameter`, parameter.h:86-91
  | func    -- any other `FunctionBase`, function_base.h:68-82
deriving DecidableEq, Repr

/-- The members that matter for dependency queries: the dynamic type and `_functions`
(function_base.h:118). `std::set<const FunctionBase*>` is modelled by a list. -/
structure Obj where
  kind : Kind
  name : String
  subs : List Nat
deriving DecidableEq, Repr

/-- All objects constructed so far; object `i` is entry `i`. -/
abbrev Heap := List Obj

/-- `depends_on(f)` of object `x`: parameter.h:86-91 and function_base.h:68-82.
`none` = the recursion did not finish within `fuel` nested calls, or a dangling address was called. -/
def dependsOn (h : Heap) : Nat → Nat → Nat → Option Bool
  | 0, _, _ => none
  | fuel + 1, x, f =>
    match h[x]? with
    | none => none
    | some o =>
      match o.kind with
      | .param => some (decide (f = x))
      | .func =>
        if o.subs.contains f then some true
        else
          -- the `for` loop, function_base.h:76-81: stop at the first sub-function answering `true`
          o.subs.foldl (fun acc s =>
            match acc with
            | some false => dependsOn h fuel s f
            | r => r) (some false)

/-- Construction of objects: a constructor allocates the object and inserts addresses of
already existing functions in `_functions` (e.g. constant_field_function.cpp:26-33).
The copy constructor of `FunctionBase` (function_base.cpp:35-41) copies the name and flags only. -/
inductive Build where
  | new (kind : Kind) (name : String) (subs : List Nat)
  | copy (x : Nat)

/-- Effect of a construction. References must denote existing objects; `Parameter`'s constructor
(parameter.h:40-44) registers no sub-function. -/
def build (h : Heap) : Build → Exec Heap
  | .new .param nm _ => .ok (h ++ [⟨.param, nm, []⟩])
  | .new .func nm subs =>
      if subs.all (· < h.length) then .ok (h ++ [⟨.func, nm, subs⟩]) else .error .ub
  | .copy x =>
      match h[x]? with
      | none => .error .ub
      | some o => .ok (h ++ [⟨o.kind, o.name, []⟩])

/-- A sequence of constructions. -/
def buildAll (bs : List Build) : Exec Heap := bs.foldlM build []

/-! ### Parameter memory, parameter.h:40-56 -/

/-- Heap cells `Real*`: `live` cells have been allocated and not deleted. A parameter object is represented by
the cell its `_val` points to; `objs` are the parameter objects not yet destroyed (identity, cell). -/
structure PMem where
  nextCell : Nat
  live : List Nat
  nextObj : Nat
  objs : List (Nat × Nat)

def PMem.init : PMem := ⟨0, [], 0, []⟩

inductive POp where
  | create            -- Parameter(nm, val): parameter.h:40-44, `_val(new Real)`
  | copy (obj : Nat)  -- Parameter(const Parameter&): parameter.h:47-50, `_val(f._val)`
  | destroy (obj : Nat) -- ~Parameter: parameter.h:53-56, `delete _val`
deriving DecidableEq

def cellOf (m : PMem) (o : Nat) : Option Nat := (m.objs.find? (fun p => p.1 == o)).map (·.2)

/-- One operation. Deleting a cell that is not live is undefined behaviour (double free); operating on an
object that does not exist is a user error, also `ub`. -/
def PMem.step (m : PMem) : POp → Exec PMem
  | .create => .ok ⟨m.nextCell + 1, m.nextCell :: m.live, m.nextObj + 1,
      (m.nextObj, m.nextCell) :: m.objs⟩
  | .copy o =>
      match cellOf m o with
      | none => .error .ub
      | some c => .ok { m with nextObj := m.nextObj + 1, objs := (m.nextObj, c) :: m.objs }
  | .destroy o =>
      match cellOf m o with
      | none => .error .ub
      | some c =>
          if m.live.contains c then
            .ok { m with live := m.live.erase c, objs := m.objs.filter (fun p => p.1 != o) }
          else .error .ub

def PMem.run (ops : List POp) : Exec PMem := ops.foldlM PMem.step PMem.init

/-! ### Function sets, function_set_base.{h,cpp} -/

/-- `_properties`: a `std::map<std::string, FunctionBase*>` (function_set_base.h:106); a list of pairs
with distinct keys.  -/
abbrev FSet := List (String × Nat)

/-- `contains(nm)`, function_set_base.cpp:34-42. -/
def FSet.contains (s : FSet) (nm : String) : Bool := s.any (fun p => p.1 == nm)

/-- `add(f)` in a release build (assertions compiled out), function_set_base.cpp:46-56:
`std::map::insert` keeps the old entry if the key exists. -/
def FSet.addRelease (s : FSet) (nm : String) (f : Nat) : FSet :=
  if s.contains nm then s else s ++ [(nm, f)]

/-- `add(f)` in a debug build: the assertion of line 50 rejects an existing name. -/
def FSet.addDebug (s : FSet) (nm : String) (f : Nat) : Exec FSet :=
  if s.contains nm then .error .assertFail else .ok (s ++ [(nm, f)])

/-- `get<ValType>(nm)`, function_set_base.h:62-74: error if absent; `isType` is the outcome of the
`dynamic_cast` (a failing cast throws `std::bad_cast`). -/
def FSet.get (s : FSet) (isType : Nat → Bool) (nm : String) : Exec Nat :=
  match s.find? (fun p => p.1 == nm) with
  | none => .error .error
  | some p => if isType p.2 then .ok p.2 else .error .error

/-- `depends_on(f)`, function_set_base.cpp:60-74; `dep` is the members' own `depends_on`. -/
def FSet.dependsOn (s : FSet) (dep : Nat → Nat → Bool) (f : Nat) : Bool :=
  s.any (fun p => dep p.2 f)

/-! ### ConstantFieldFunction, constant_field_function.cpp:26-79 -/

/-- `operator()`, lines 43-47 and 62-67 (independent of point and time): the parameter's current value. -/
def constantValue {R : Type _} (vals : Nat → R) (p : Nat) : R := vals p

/-- `derivative(f)`, lines 52-57 and 72-79: `_p.depends_on(f) ? 1 : 0`, with `Parameter::depends_on` being
identity of addresses (parameter.h:86-91). -/
def constantDerivative {R : Type _} [Zero R] [One R] (p f : Nat) : R := if f = p then 1 else 0

end Verif.Fn
