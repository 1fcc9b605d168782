import Verif.Model.Exec
/-
  Life cycle of NonlinearSystem operations, assembly attachments, output participation and mesh field functions:
  src/base/nonlinear_system.cpp (209-235, 239-250 + 375-382, 741-756 + 789-791, 798-818 + 825-846),
  src/base/assembly_base.cpp (118-248), src/base/output_assembly_elem_operations.cpp (31-172),
  src/base/mesh_field_function.cpp (29-419).
-/
namespace Verif.Life
open Verif

/-! ### Operation marker (C21) -/

/-- `NonlinearSystem::Operation` without `NONE`. -/
inductive Kind where
  | nonlinearSolve | eigenproblemSolve | forwardSensitivity | adjointSolve
deriving DecidableEq

/-- The members involved: `_operation` (`none` = `NONE`) of the system and `_elem_ops` of the assembly object. -/
structure State where
  op : Option Kind := none
  elemOps : Option Nat := none
deriving DecidableEq

/-- A call of one of the four solve functions with element-operation object `ops`.  While it runs, the library calls back into
user code (element calculations); `body` are further solve calls made from such a call-back on the same system and
assembly, and `throws` says that the library (a solver or an element routine) throws afterwards. -/
inductive Call where
  | mk (kind : Kind) (ops : Nat) (body : List Call) (throws : Bool)

/-- What a call-back sees: the operation marker and the attached element operations. -/
abbrev Obs := Option Kind × Option Nat

mutual
/-- One solve call.  The order of effects is the same in the four functions:
assert `_operation == NONE`; set the marker; `set_elem_operation_object` (asserts nothing attached, assembly_base.cpp:186-194);
call-backs; `clear_elem_operation_object` (198-205); reset the marker.  There is no clean-up on exceptions.
Simplification: adjoint_solve detaches the element operations before its linear solve; the model detaches at the end. -/
def runCall (dbg : Bool) (s : State) : Call → State × List Obs × Option Err
  | .mk kind ops body throws =>
    if dbg && s.op.isSome then (s, [], some .assertFail)
    else
      let s1 : State := { s with op := some kind }
      if dbg && s1.elemOps.isSome then (s1, [], some .assertFail)
      else
        let s2 : State := { s1 with elemOps := some ops }
        let o1 := (s2.op, s2.elemOps)
        let (s3, tr, e) := runCalls dbg s2 body
        match e with
        | some e => (s3, o1 :: tr, some e)
        | none =>
          if throws then (s3, o1 :: tr, some .error)
          else ({ op := none, elemOps := none }, o1 :: tr ++ [(s3.op, s3.elemOps)], none)
/-- A sequence of solve calls; the first error stops it. -/
def runCalls (dbg : Bool) (s : State) : List Call → State × List Obs × Option Err
  | [] => (s, [], none)
  | c :: cs =>
    let (s1, tr, e) := runCall dbg s c
    match e with
    | some e => (s1, tr, some e)
    | none =>
      let (s2, tr2, e2) := runCalls dbg s1 cs
      (s2, tr ++ tr2, e2)
end

/-! ### Attachments of an assembly object (C24) -/

/-- Members of `AssemblyBase` (pointers as `Option`), plus `close_matrix`. -/
structure Asm where
  discipline : Option Nat := none
  system : Option Nat := none
  elemOps : Option Nat := none
  monitor : Option Nat := none
  paramDep : Option Nat := none
  solFunction : Option Nat := none
  closeMatrix : Bool := true
deriving DecidableEq

/-- The attachment API. -/
inductive AOp where
  | setDisciplineSystem (d s : Nat) | clearDisciplineSystem
  | setElemOps (o : Nat) | clearElemOps
  | setMonitor (m : Nat) | clearMonitor
  | attachParamDep (p : Nat) | clearParamDep
  | attachSolFunction (f : Nat) | detachSolFunction

/-- assembly_base.cpp: 118-123, 127-134, 138-142, 153-157, 160-170, 174-182, 186-194, 198-205, 233-248. The assertions
(`libmesh_assert`, `libmesh_assert_msg`) only exist in debug builds. -/
def astep (dbg : Bool) (a : Asm) : AOp → Exec Asm
  | .setDisciplineSystem d s =>
      if dbg && (a.discipline.isSome || a.system.isSome) then .error .assertFail
      else .ok { a with discipline := some d, system := some s }
  | .clearDisciplineSystem =>
      .ok { a with closeMatrix := true, discipline := none, system := none, paramDep := none }
  | .setElemOps o =>
      if dbg && a.elemOps.isSome then .error .assertFail else .ok { a with elemOps := some o }
  | .clearElemOps => .ok { a with elemOps := none }
  | .setMonitor m =>
      if dbg && a.monitor.isSome then .error .assertFail else .ok { a with monitor := some m }
  | .clearMonitor => .ok { a with monitor := none }
  | .attachParamDep p =>
      if dbg && a.paramDep.isSome then .error .assertFail else .ok { a with paramDep := some p }
  | .clearParamDep => .ok { a with paramDep := none }
  | .attachSolFunction f =>
      if dbg && a.solFunction.isSome then .error .assertFail else .ok { a with solFunction := some f }
  | .detachSolFunction => .ok { a with solFunction := none }

def arun (dbg : Bool) : Asm → List AOp → Exec Asm
  | a, [] => .ok a
  | a, o :: os => do
      let a' ← astep dbg a o
      arun dbg a' os

/-- Entry checks of `residual_and_jacobian` (nonlinear_implicit_assembly.cpp:71-73): in a release build the null pointers are
dereferenced. -/
def residualEntry (dbg : Bool) (a : Asm) : Exec Unit :=
  if a.system.isSome && a.discipline.isSome && a.elemOps.isSome then .ok ()
  else .error (if dbg then .assertFail else .ub)

/-! ### Participating elements of an output (C23) -/

/-- Members of `OutputAssemblyElemOperations` (output_assembly_elem_operations.cpp:31-35). -/
structure Out where
  all : Bool := false
  subdomains : List Nat := []
  elems : List Nat := []
  bids : List Nat := []

/-- What the code looks at on an element. -/
structure Elem where
  id : Nat
  parent : Option Nat
  subdomain : Nat

inductive OOp where
  | setSubdomains (s : List Nat) | setAll | setElements (e : List Nat) | setBoundaries (b : List Nat)

/-- output_assembly_elem_operations.cpp 45-55, 60-68, 71-81, 86-92. -/
def ostep (dbg : Bool) (o : Out) : OOp → Exec Out
  | .setSubdomains s =>
      if dbg && (!o.subdomains.isEmpty || !o.elems.isEmpty) then .error .assertFail
      else .ok { o with subdomains := s, all := false }
  | .setAll =>
      if dbg && (!o.subdomains.isEmpty || !o.elems.isEmpty) then .error .assertFail
      else .ok { o with all := true }
  | .setElements e =>
      if dbg && (!o.subdomains.isEmpty || !o.elems.isEmpty) then .error .assertFail
      else .ok { o with elems := e, all := false }
  | .setBoundaries b =>
      if dbg && !o.bids.isEmpty then .error .assertFail else .ok { o with bids := b }

def orun (dbg : Bool) : Out → List OOp → Exec Out
  | o, [] => .ok o
  | o, c :: cs => do
      let o' ← ostep dbg o c
      orun dbg o' cs

/-- `if_evaluate_for_element` (119-150). -/
def ifEvaluateForElement (o : Out) (e : Elem) : Bool :=
  if o.all then true
  else if o.subdomains.contains e.subdomain then true
  else
    let key := e.parent.getD e.id
    o.elems.contains key

/-- `if_evaluate_for_boundary` (153-172): `ids` are the boundary ids of the side. -/
def ifEvaluateForBoundary (o : Out) (ids : List Nat) : Bool := ids.any (fun b => o.bids.contains b)

/-- Does `calculate_output_direct_sensitivity` evaluate element `e` (assembly_base.cpp:500-517)? `diag`: subdomain is in
`diagonal_elem_subdomain_id`; `dep`: a parameter-dependence object is attached, with its answer and its
`override_flag`; `hasSens`: `dXdp != nullptr`. -/
def evaluatesSensitivity (o : Out) (e : Elem) (diag : Bool) (dep : Option (Bool × Bool)) (hasSens : Bool) : Bool :=
  if diag then false
  else
    let skip := match dep with
      | none => false
      | some (dependsOnP, overrideFlag) => !dependsOnP && (!hasSens || (hasSens && overrideFlag))
    if skip then false else ifEvaluateForElement o e

/-! ### Mesh field function (C25) -/

/-- Members of `MeshFieldFunction` with fields (functions of the point) as values `F`: `_function`, `_perturbed_function`,
`_function_sens`, `_use_qp_sol`, `_qp_sol`. `V` is the type of values. -/
structure MFF (F V : Type) where
  useQp : Bool := false
  qpSol : Option V := none
  function : Option F := none
  perturbed : Option F := none
  sens : List (Nat × F) := []

inductive MOp (F V : Type) where
  | init (f : F) | initSens (p : Nat) (f : F) | clear
  | setQp (v : V) | clearQp

/-- mesh_field_function.cpp: init 281-289, init_sens 294-309, clear 315-341, set/clear_element_quadrature_point_solution
347-362 (`_qp_sol.setZero()` keeps a zero vector; its content is unobservable while `_use_qp_sol` is false).
There is no function that sets `_perturbed_function`. -/
def mstep {F V : Type} (dbg : Bool) (m : MFF F V) : MOp F V → Exec (MFF F V)
  | .init f => if dbg && m.function.isSome then .error .assertFail else .ok { m with function := some f }
  | .initSens p f =>
      if dbg && (m.sens.lookup p).isSome then .error .assertFail
      else .ok { m with sens := (p, f) :: m.sens.filter (fun e => e.1 != p) }
  | .clear => .ok { m with function := none, perturbed := none, sens := [], useQp := false }
  | .setQp v => .ok { m with useQp := true, qpSol := some v }
  | .clearQp => .ok { m with useQp := false }

def mrun {F V : Type} (dbg : Bool) : MFF F V → List (MOp F V) → Exec (MFF F V)
  | m, [] => .ok m
  | m, o :: os => do
      let m' ← mstep dbg m o
      mrun dbg m' os

/-- A stored field or quadrature value as returned by the query functions; missing fields are null dereferences. -/
def query {F V : Type} (dbg : Bool) (m : MFF F V) (eval : F → V) (f : Option F) : Exec V :=
  if m.useQp then
    match m.qpSol with
    | some v => .ok v
    | none => .error .ub
  else
    match f with
    | some f => .ok (eval f)
    | none => .error (if dbg then .assertFail else .ub)

/-- operator() 72-100. -/
def value {F V : Type} (dbg : Bool) (m : MFF F V) (eval : F → V) : Exec V := query dbg m eval m.function
/-- perturbation 139-167. -/
def perturbation {F V : Type} (dbg : Bool) (m : MFF F V) (eval : F → V) : Exec V := query dbg m eval m.perturbed
/-- derivative 205-238. -/
def derivative {F V : Type} (dbg : Bool) (m : MFF F V) (eval : F → V) (p : Nat) : Exec V :=
  query dbg m eval (m.sens.lookup p)

end Verif.Life
