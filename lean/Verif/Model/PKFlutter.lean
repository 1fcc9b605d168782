import Mathlib.Data.Matrix.Block
import Mathlib.Data.Complex.Basic
import Mathlib.Analysis.Complex.Norm
import Verif.Model.Flutter
import Verif.Model.FlutterSearch
/-
  P-k flutter solver: src/aeroelasticity/pk_flutter_solver.cpp, pk_flutter_solution.cpp, pk_flutter_root.cpp.  The reduced matrices and the eigensolver are parameters; the solution
  database `_flutter_solutions` (std::map keyed by velocity) is a partial function.
-/
namespace Verif.PKFlutter
open Matrix Verif.Flutter Verif.FlutterSearch

/-- A p-k root (pk_flutter_root.cpp:31-50; defaults flutter_root_base.cpp:26-37). -/
structure PKRoot where
  kr : ℝ
  V : ℝ
  g : ℝ
  omega : ℝ
  root : ℂ

/-- `PKFlutterRoot::init`, scalar part (pk_flutter_root.cpp:40-50): `kr` is the reduced frequency of the aerodynamics, not that of the root. -/
noncomputable def pkRoot (kr v : ℝ) (num den : ℂ) : PKRoot :=
  if 0 < ‖den‖ then ⟨kr, v, (num / den).re, (num / den).im, num / den⟩ else ⟨kr, v, 0, 0, 0⟩

/-- `_initialize_matrices` (pk_flutter_solver.cpp:967-1024) for `dim × dim` matrices `A`, `B` handed in: the corner blocks of order `n` exist only if `n ≤ dim`, otherwise (assertion or
out of bounds write) `none`.  For `dim = 2 n` the result, with blocks not written taken as zero; for other `dim` the (overlapping or gapped) corners are not modelled. -/
noncomputable def pkMatrices {n : Nat} (dim : Nat) (rho v : ℝ) (M K : Matrix (Fin n) (Fin n) ℝ) (a : Matrix (Fin n) (Fin n) ℂ) :
    Option (Matrix (Fin n ⊕ Fin n) (Fin n ⊕ Fin n) ℂ × Matrix (Fin n ⊕ Fin n) (Fin n ⊕ Fin n) ℂ) :=
  if n ≤ dim then some (fromBlocks 0 1 (-cplx K + ((rho / 2 * v * v : ℝ) : ℂ) • (-a)) 0, fromBlocks 1 0 0 (cplx M)) else none

/-- Order of the matrices `_analyze` declares (pk_flutter_solver.cpp:843: default constructed). -/
def pkDim : Nat := 0

/-- Matrices of the eigenproblem of `_analyze` (pk_flutter_solver.cpp:839-855). -/
noncomputable def pkAnalyze {n : Nat} (rho v : ℝ) (M K : Matrix (Fin n) (Fin n) ℝ) (a : Matrix (Fin n) (Fin n) ℂ) := pkMatrices pkDim rho v M K a

/-- Database of solutions by velocity. -/
abbrev Db := ℝ → Option (List PKRoot)

/-- Replacement test of `_insert_new_solution` (pk_flutter_solver.cpp:690-697). -/
noncomputable def mergeRoot (kred : ℝ) (old new : PKRoot) : PKRoot :=
  if |(|new.kr| - kred)| < |(|old.kr| - old.kr)| then new else old

/-- `_insert_new_solution` (pk_flutter_solver.cpp:661-704); the numbers of roots agree (682). -/
noncomputable def insertNew (db : Db) (kred v : ℝ) (sol : List PKRoot) : Db :=
  match db v with
  | none => Function.update db v (some sol)
  | some old => Function.update db v (some (List.zipWith (mergeRoot kred) old sol))

/-- Inner loop of `scan_for_roots` (pk_flutter_solver.cpp:180-206): `an k v prev` is the sorted eigensolution of `_analyze`. -/
noncomputable def scanV (an : ℝ → ℝ → Option (List PKRoot) → List PKRoot) (k : ℝ) : List ℝ → Option (List PKRoot) → Db → Db
  | [], _, db => db
  | v :: l, prev, db =>
    let db' := insertNew db k v (an k v prev)
    scanV an k l (db' v) db'

/-- Outer loop of `scan_for_roots` (pk_flutter_solver.cpp:163-208). -/
noncomputable def scanK (an : ℝ → ℝ → Option (List PKRoot) → List PKRoot) (vs : List ℝ) : List ℝ → Db → Db
  | [], db => db
  | k :: l, db => scanK an vs l (scanV an k vs none db)

/-- `scan_for_roots` on an empty database (pk_flutter_solver.cpp:143-211). -/
noncomputable def pkScan (an : ℝ → ℝ → Option (List PKRoot) → List PKRoot) (klo khi : ℝ) (nk : Nat) (vlo vhi : ℝ) (nv : Nat) : Db :=
  scanK an (scanGrid vlo vhi nv) (ugGrid klo khi nk) (fun _ => none)

/-- A recorded crossover: key in the multimap, root number, solutions below and above zero damping, and the root if already assigned (pk_flutter_solver.cpp:762-776, 805-828). -/
structure PKCross where
  key : ℝ
  mode : Nat
  first : PKRoot
  second : PKRoot
  root : Option PKRoot

/-- `modes_to_neglect` (pk_flutter_solver.cpp:732-746) for one mode. -/
noncomputable def pkNeglect (pts : List PKRoot) : Bool := decide (pts.foldl (fun a p => if |p.g| > a then |p.g| else a) 0 < ctol)

/-- Check of the first solution (pk_flutter_solver.cpp:758-778); p-k roots are never nonphysical. -/
noncomputable def pkFirst (i : Nat) : List PKRoot → List PKCross
  | [] => []
  | p :: _ => if |p.V| < ctol ∧ |p.g| < ctol then [⟨p.V, i, p, p, some p⟩] else []

/-- Pairs of neighbouring solutions of a retained mode, visited in decreasing velocity (pk_flutter_solver.cpp:783-836). -/
noncomputable def pkPairs (i : Nat) : List PKRoot → List PKCross
  | p :: q :: l =>
    (if |p.V| < ctol ∨ |q.V| < ctol ∨ |p.g| > 3 / 4 ∨ |q.g| > 3 / 4 then []
    else if p.g ≤ 0 ∧ 0 < q.g then [⟨p.V, i, p, q, none⟩]
    else if 0 < p.g ∧ q.g ≤ 0 then [⟨q.V, i, q, p, none⟩]
    else []) ++ pkPairs i (q :: l)
  | _ => []

/-- `_identify_crossover_points` (pk_flutter_solver.cpp:709-836): `modes` lists, for each root number, its roots in order of increasing velocity; entries in order of insertion. -/
noncomputable def pkIdentify (modes : List (List PKRoot)) : List PKCross :=
  (modes.zipIdx.flatMap fun x => pkFirst x.2 x.1) ++ modes.zipIdx.flatMap fun x => if pkNeglect x.1 then [] else pkPairs x.2 x.1.reverse

end Verif.PKFlutter
