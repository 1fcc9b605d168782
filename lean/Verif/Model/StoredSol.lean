import Verif.Model.Exec
import Mathlib.Data.Nat.Digits.Defs
import Mathlib.Data.Real.Basic
/-
  Vectors stored in files: `NonlinearSystem::write_out_vector` and `read_in_vector` (src/base/nonlinear_system.cpp:853-980) and the names used for the steps of a transient
  analysis (src/solver/stabilized_first_order_transient_sensitivity_solver.cpp:145-147, 286-288).
  The file object is `libMesh::Xdr`: opening for writing creates an empty file, what is written goes through the buffer of the C library.
-/
namespace Verif.StoredSol
open Verif

/-- Characters of a path. -/
abbrev Path := List Char

/-- `file_name << directory_name << "/" << data_name << "_data" << suffix` (nonlinear_system.cpp:870-873, 927-932). -/
def dataPath (dir name : Path) (binary : Bool) : Path :=
  dir ++ '/' :: (name ++ ("_data".toList ++ (if binary then ".xdr".toList else ".dat".toList)))

/-- Decimal digits, as `operator<<` prints an `unsigned int`. -/
def decimal (i : Nat) : Path := if i = 0 then ['0'] else ((Nat.digits 10 i).reverse).map Nat.digitChar

/-- `oss << _sol_name_root << _index1` (stabilized_first_order_transient_sensitivity_solver.cpp:145-146, 286-287). -/
def stepName (root : Path) (i : Nat) : Path := root ++ decimal i

/-- A file: the version line (nonlinear_system.cpp:877-881) and the values in the numbering of nodes and elements by position that `globally_renumber_nodes_and_elements` sets up
(887, 925). The other header entries (`write_header`, 883) describe the variables and are not represented. -/
structure File where
  version : Path
  vals : List ℝ

/-- The directory tree. -/
abbrev Disk := Path → Option File

/-- One run of the program: `m` unknowns; `num k` is the dof that the current partition gives to the `k`-th unknown in the order by position. -/
structure Run (m : Nat) where
  num : Fin m → Fin m

/-- `"libMesh-" + get_io_compatibility_version()` (nonlinear_system.cpp:877). -/
def label : Path := "libMesh-".toList

/-- `write_out_vector` (nonlinear_system.cpp:853-906), all processes having finished. -/
def writeOut {m : Nat} (R : Run m) (ver : Path) (v : Fin m → ℝ) (dir name : Path) (binary : Bool) (D : Disk) : Disk :=
  Function.update D (dataPath dir name binary) (some ⟨label ++ ver, (List.finRange m).map fun k => v (R.num k)⟩)

/-- `version.find(libMesh_label) == npos` (nonlinear_system.cpp:955-960). -/
def hasLabel (s : Path) : Bool := s.tails.any fun t => label.isPrefixOf t

/-- The values of a file put at the dofs of the current partition (`read_serialized_vectors`, nonlinear_system.cpp:974-976); `old` is the vector before. -/
def place {m : Nat} (R : Run m) (vals : List ℝ) (old : Fin m → ℝ) : Fin m → ℝ :=
  (List.finRange m).foldl (fun w k => Function.update w (R.num k) (vals.getD k 0)) old

/-- `read_in_vector` (nonlinear_system.cpp:910-980): a missing file (935-945) or a file without the label is an error; a file with another number of unknowns has no defined result. -/
def readIn {m : Nat} (R : Run m) (old : Fin m → ℝ) (dir name : Path) (binary : Bool) (D : Disk) : Exec (Fin m → ℝ) :=
  match D (dataPath dir name binary) with
  | none => .error .error
  | some f => if hasLabel f.version then if f.vals.length = m then .ok (place R f.vals old) else .error .ub else .error .error

/-! ### The processes -/

variable {β : Type}

/-- What `fwrite` at position `p` does to the bytes of a file: a gap is filled with `z`. -/
def overlay (z : β) (f : List β) (p : Nat) (b : List β) : List β :=
  (f ++ List.replicate (p - f.length) z).take p ++ b ++ f.drop (p + b.length)

/-- A process: the next statement, the bytes in its buffer and the position in the file where they go. -/
structure Proc (β : Type) where
  pc : Nat
  buf : List β
  pos : Nat

/-- File and processes. -/
structure World (β : Type) where
  file : List β
  proc : Nat → Proc β

/-- The three parts written: version (nonlinear_system.cpp:881; by every process), header (883; process 0 only) and values (894; process 0 only). -/
structure Parts (β : Type) where
  version : List β
  header : List β
  vals : List β

/-- Bytes process `k` writes in its statement `c`. -/
def Parts.by (P : Parts β) (k c : Nat) : List β :=
  if c = 1 then P.version else if k = 0 then if c = 2 then P.header else if c = 4 then P.vals else [] else []

/-- A process replaced. -/
def World.set (w : World β) (k : Nat) (p : Proc β) : World β := { w with proc := Function.update w.proc k p }

/-- One step of process `k` of `N` (nonlinear_system.cpp:874-906). Statements: 0 opens the file (874), 1 version, 2 header, 3 the renumbering (887), for which all have to get there, 4 values, 5 end of the
scope, closing the file; a full buffer (`cap` bytes) may be written out at any time, in part or whole. -/
inductive Step (z : β) (N cap : Nat) (P : Parts β) : World β → World β → Prop
  | opn {w : World β} {k : Nat} : k < N → (w.proc k).pc = 0 → Step z N cap P w (({ w with file := [] } : World β).set k ⟨1, [], 0⟩)
  | put {w : World β} {k : Nat} : k < N → ((w.proc k).pc = 1 ∨ (w.proc k).pc = 2 ∨ (w.proc k).pc = 4) →
      Step z N cap P w (w.set k ⟨(w.proc k).pc + 1, (w.proc k).buf ++ P.by k (w.proc k).pc, (w.proc k).pos⟩)
  | meet {w : World β} {k : Nat} : k < N → (w.proc k).pc = 3 → (∀ j, j < N → 3 ≤ (w.proc j).pc) → Step z N cap P w (w.set k ⟨4, (w.proc k).buf, (w.proc k).pos⟩)
  | flush {w : World β} {k : Nat} (a : Nat) : k < N → cap ≤ (w.proc k).buf.length → a ≤ (w.proc k).buf.length →
      Step z N cap P w (({ w with file := overlay z w.file (w.proc k).pos ((w.proc k).buf.take a) } : World β).set k ⟨(w.proc k).pc, (w.proc k).buf.drop a, (w.proc k).pos + a⟩)
  | close {w : World β} {k : Nat} : k < N → (w.proc k).pc = 5 →
      Step z N cap P w (({ w with file := overlay z w.file (w.proc k).pos (w.proc k).buf } : World β).set k ⟨6, [], (w.proc k).pos + (w.proc k).buf.length⟩)

/-- Before the call: nothing opened; the file has the bytes of an earlier call. -/
def World.start (old : List β) : World β := ⟨old, fun _ => ⟨0, [], 0⟩⟩

/-- Worlds reached by the processes in some order. -/
inductive Reach (z : β) (N cap : Nat) (P : Parts β) (old : List β) : World β → Prop
  | start : Reach z N cap P old (World.start old)
  | step {w w' : World β} : Reach z N cap P old w → Step z N cap P w w' → Reach z N cap P old w'

end Verif.StoredSol
