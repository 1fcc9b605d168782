import Mathlib.Data.Complex.Basic
import Mathlib.Analysis.Real.Sqrt
import Mathlib.Data.EReal.Basic
/-
  Scanning, crossover bookkeeping, refinement and mode tracking of the flutter solvers: src/aeroelasticity/time_domain_flutter_solver.cpp (and the parts of
  ug_flutter_solver.cpp and pk_flutter_solver.cpp with the same code), time_domain_flutter_solution.cpp, ug_flutter_solution.cpp.
  Reals stand for double; a division by zero is a separate outcome.  The eigensolution at a velocity is a parameter of the model.
-/
namespace Verif.FlutterSearch

/-! ### Refinement of a crossover -/

/-- Local variables of `_bisection_search` (time_domain_flutter_solver.cpp:576-581). -/
structure Bracket where
  lV : ℝ
  lg : ℝ
  uV : ℝ
  ug : ℝ

/-- Result of a search: `nan` when the interpolation divides by zero; otherwise the flag, the velocity of the returned solution (`none`: null pointer) and the velocities analysed. -/
inductive Res where
  | nan
  | done (ok : Bool) (sol : Option ℝ) (evals : List ℝ)

/-- Linear interpolation (time_domain_flutter_solver.cpp:589-590; ug_flutter_solver.cpp:434-435; pk_flutter_solver.cpp:336-337). -/
noncomputable def Bracket.newV (b : Bracket) : ℝ := b.lV + (b.uV - b.lV) / (b.ug - b.lg) * (0 - b.lg)

/-- Bracket update (time_domain_flutter_solver.cpp:615-624). -/
noncomputable def Bracket.update (b : Bracket) (v r : ℝ) : Bracket :=
  if r < 0 then { b with lV := v, lg := r } else { b with uV := v, ug := r }

/-- `_bisection_search` (time_domain_flutter_solver.cpp:566-634; ug_flutter_solver.cpp:405-480; pk_flutter_solver.cpp:310-382): `g` is the damping of the tracked root as a
function of velocity (reduced frequency for U-g), `iters` the iterations left, `last` the last solution, `ev` the velocities analysed so far. -/
noncomputable def bisect (g : ℝ → ℝ) (tol : ℝ) : Nat → Bracket → Option ℝ → List ℝ → Res
  | 0, _, last, ev => .done false last ev
  | k + 1, b, _, ev =>
    if b.ug - b.lg = 0 then .nan
    else
      let v := b.newV
      if |g v| ≤ tol then .done true (some v) (ev ++ [v])
      else bisect g tol k (b.update v (g v)) (some v) (ev ++ [v])

/-! ### Crossovers -/

/-- `FlutterRootCrossoverBase` (flutter_root_crossover_base.h): mode, end points (velocity and damping; first is the end with g ≤ 0) and, once refined, the velocity of the root. -/
structure Cross where
  mode : Nat
  br : Bracket
  root : Option ℝ

/-- The multimap `_flutter_crossovers`: entries in key order. -/
abbrev CMap := List (ℝ × Cross)

/-- `std::multimap::insert`: after the entries with an equal key. -/
noncomputable def mmInsert (k : ℝ) (c : Cross) : CMap → CMap
  | [] => [(k, c)]
  | (k', c') :: l => if k < k' then (k, c) :: (k', c') :: l else (k', c') :: mmInsert k c l

/-- `n_roots_found` (time_domain_flutter_solver.cpp:107-120). -/
def nRootsFound (m : CMap) : Nat := m.foldl (fun n e => if e.2.root.isSome then n + 1 else n) 0

/-- Loop of `get_root` (time_domain_flutter_solver.cpp:135-143); `none`: falls through to 145. -/
def getRootLoop (n : Nat) : Nat → CMap → Option ℝ
  | _, [] => none
  | num, (_, c) :: l =>
    match c.root with
    | some v => if num = n then some v else getRootLoop n (num + 1) l
    | none => getRootLoop n num l

/-- `get_root` (time_domain_flutter_solver.cpp:126-146). -/
def getRoot (m : CMap) (n : Nat) : Option ℝ := getRootLoop n 0 m

/-- Outcome of an operation of the solver: a value, undefined behaviour (null dereference or NaN key), or model fuel exhausted. -/
inductive Out (α : Type) where
  | ok (a : α)
  | ub
  | fuel

/-- Velocity of the solution a search hands to its caller (`sol.second->get_root(root_num)`, time_domain_flutter_solver.cpp:178, 232); `none` for a null pointer or NaN. The
flag `sol.first` is not looked at. -/
def Res.handed : Res → Option ℝ
  | .nan => none
  | .done _ s _ => s

/-- `find_next_root` (time_domain_flutter_solver.cpp:152-194); `pre` are the entries already passed. -/
noncomputable def nextLoop (search : Cross → Res) : CMap → CMap → Out (CMap × Option ℝ)
  | pre, [] => .ok (pre, none)
  | pre, (k, c) :: l =>
    match c.root with
    | some _ => nextLoop search (pre ++ [(k, c)]) l
    | none =>
      match (search c).handed with
      | none => .ub
      | some v => .ok (mmInsert v { c with root := some v } (pre ++ l), some v)

/-- `find_next_root` (time_domain_flutter_solver.cpp:152-194): the map afterwards and the root returned (`none`: `(false, nullptr)`). -/
noncomputable def nextRoot (search : Cross → Res) (m : CMap) : Out (CMap × Option ℝ) := nextLoop search [] m

/-- `find_critical_root` (time_domain_flutter_solver.cpp:198-248): the while loop with fuel. -/
noncomputable def criticalRoot (search : Cross → Res) : Nat → CMap → Out (CMap × Option ℝ)
  | _, [] => .ok ([], none)
  | fuel, (k, c) :: l =>
    match c.root with
    | some v => .ok ((k, c) :: l, some v)
    | none =>
      match fuel with
      | 0 => .fuel
      | fuel + 1 =>
        match (search c).handed with
        | none => .ub
        | some v => criticalRoot search fuel (mmInsert v { c with root := some v } l)

/-! ### Scan -/

/-- `scan_for_roots`: the values filled at time_domain_flutter_solver.cpp:430-438. -/
noncomputable def gridLoop (d : ℝ) : Nat → ℝ → List ℝ
  | 0, _ => []
  | k + 1, v => v :: gridLoop d k (v + d)

/-- `V_vals` of `scan_for_roots` (time_domain_flutter_solver.cpp:430-438): filled, then the last entry replaced. -/
noncomputable def scanGrid (lo hi : ℝ) (n : Nat) : List ℝ := (gridLoop ((hi - lo) / n) (n + 1) lo).set n hi

/-- `k_vals` of the U-g `scan_for_roots` (ug_flutter_solver.cpp:267-276), descending. -/
noncomputable def ugGrid (lo hi : ℝ) (n : Nat) : List ℝ := (gridLoop (-((hi - lo) / n)) (n + 1) hi).set n lo

/-- One solution of the tracked root of a mode: velocity, damping (real part) and frequency (imaginary part). -/
structure Pt where
  V : ℝ
  g : ℝ
  w : ℝ

/-- `tol` of `_identify_crossover_points` (time_domain_flutter_solver.cpp:830). -/
noncomputable def ctol : ℝ := 1 / 100000

/-- `modes_to_neglect` (time_domain_flutter_solver.cpp:849-878) for one mode. -/
noncomputable def neglect (pts : List Pt) : Bool :=
  let mg := pts.foldl (fun a p => if |p.g| > a then |p.g| else a) 0
  let mw := pts.foldl (fun a p => if p.w > a then p.w else a) (-(10 ^ 100 : ℝ))
  decide (mg < ctol) || decide (mw < 0)

/-- Loop over neighbouring solutions (time_domain_flutter_solver.cpp:895-945), for a mode that is not neglected; entries in order of insertion. -/
noncomputable def pairCross (i : Nat) : List Pt → List (ℝ × Cross)
  | p :: q :: l =>
    (if |p.V| > ctol ∨ |q.V| > ctol then
      if p.g ≤ 0 ∧ q.g > 0 then [(p.V, ⟨i, ⟨p.V, p.g, q.V, q.g⟩, none⟩)]
      else if p.g > 0 ∧ q.g ≤ 0 then [(q.V, ⟨i, ⟨q.V, q.g, p.V, p.g⟩, none⟩)]
      else []
    else []) ++ pairCross i (q :: l)
  | _ => []

/-- Check of the first solution (time_domain_flutter_solver.cpp:949-982); `none`: the end iterator is dereferenced (there is one solution and `|V| ≤ tol`). -/
noncomputable def firstCross (i : Nat) (neg : Bool) : List Pt → Option (List (ℝ × Cross))
  | [] => some []
  | p :: l =>
    if |p.V| > ctol then some (if !neg ∧ p.g > 0 then [(p.V, ⟨i, ⟨p.V, p.g, p.V, p.g⟩, none⟩)] else [])
    else
      match l with
      | [] => none
      | q :: _ => some (if |q.V| > ctol ∧ !neg ∧ p.g > 0 then [(p.V, ⟨i, ⟨p.V, p.g, p.V, p.g⟩, none⟩)] else [])

/-- Crossovers of one mode (time_domain_flutter_solver.cpp:882-984). -/
noncomputable def modeCross (i : Nat) (pts : List Pt) : Option (List (ℝ × Cross)) :=
  (firstCross i (neglect pts) pts).map fun f => (if neglect pts then [] else pairCross i pts) ++ f

/-- Insert a list of entries in order. -/
noncomputable def insertAll (m : CMap) (es : List (ℝ × Cross)) : CMap := es.foldl (fun m e => mmInsert e.1 e.2 m) m

/-- Loop over modes of `_identify_crossover_points` (time_domain_flutter_solver.cpp:882-985). -/
noncomputable def identifyLoop : Nat → List (List Pt) → CMap → Option CMap
  | _, [], m => some m
  | i, pts :: l, m => (modeCross i pts).bind fun es => identifyLoop (i + 1) l (insertAll m es)

/-- `_identify_crossover_points` (time_domain_flutter_solver.cpp:821-985): `modes` lists, for each root number, its values over the solutions in order of velocity. -/
noncomputable def identify (modes : List (List Pt)) : Option CMap := identifyLoop 0 modes []

/-- State of the solver relevant to `scan_for_roots`. -/
structure Solver where
  sols : List ℝ
  cross : CMap

/-- `scan_for_roots` (time_domain_flutter_solver.cpp:424-461): `table` gives the tracked roots for the list of velocities analysed. -/
noncomputable def scan (lo hi : ℝ) (n : Nat) (table : List ℝ → List (List Pt)) (s : Solver) : Option Solver :=
  if s.sols.isEmpty then (identify (table (scanGrid lo hi n))).map fun m => ⟨scanGrid lo hi n, m⟩ else some s

/-! ### Mode tracking -/

/-- `abs(val)` after `val /= abs(r.root - root_j)` (time_domain_flutter_solution.cpp:183-192): `c` is the modulus of the correlation, `d` of the difference of eigenvalues;
`none` is NaN (0/0), division of a nonzero value by zero is infinite. -/
noncomputable def weight (c d : ℝ) : Option EReal :=
  if d = 0 then (if c = 0 then none else some ⊤) else some ((c / d : ℝ) : EReal)

/-- `val > max_val`, false for NaN (time_domain_flutter_solution.cpp:192). -/
def beats (w : Option EReal) (mx : EReal) : Prop := ∃ x, w = some x ∧ mx < x

open Classical in
/-- Inner loop of `sort` (time_domain_flutter_solution.cpp:179-196): index of the best root among `j, j+1, ...`. -/
noncomputable def bestFrom {R : Type} (w : R → Option EReal) : List R → Nat → EReal → Nat → Nat
  | [], _, _, best => best
  | r :: l, j, mx, best => if beats (w r) mx then bestFrom w l (j + 1) ((w r).getD 0) j else bestFrom w l (j + 1) mx best

/-- `std::swap(_roots[i], _roots[j])`. -/
def swapAt {R : Type} (l : List R) (i j : Nat) : List R :=
  match l[i]?, l[j]? with
  | some a, some b => (l.set i b).set j a
  | _, _ => l

/-- Outer loop of `sort` (time_domain_flutter_solution.cpp:173-201; ug_flutter_solution.cpp:100-124): `prev` are the reference roots `i, i+1, ..., nvals-2`, `w r s` the weight of
current root `s` for reference root `r`. -/
noncomputable def sortLoop {R : Type} (w : R → R → Option EReal) : List R → Nat → List R → List R
  | [], _, cur => cur
  | r :: l, i, cur => sortLoop w l (i + 1) (swapAt cur i (bestFrom (w r) (cur.drop i) i 0 (cur.length - 1)))

/-- `sort` (time_domain_flutter_solution.cpp:166-202); `none`: `nvals - 1` wraps for no roots and the loop reads outside the arrays. -/
noncomputable def sortRoots {R : Type} (w : R → R → Option EReal) (prev cur : List R) : Option (List R) :=
  if cur.isEmpty then none else some (sortLoop w (prev.take (cur.length - 1)) 0 cur)

/-! ### Critical root without tracking -/

/-- `n_unstable_roots_in_upper_complex_half` (time_domain_flutter_solution.cpp:84-104). -/
noncomputable def nUnstable (tol : ℝ) (roots : List ℂ) : Nat := roots.foldl (fun n r => if 0 ≤ r.im ∧ r.re ≥ tol then n + 1 else n) 0

/-- Loop body of `get_critical_root` (time_domain_flutter_solution.cpp:127-152): `(unstable, max_g)`; roots are pairs of velocity and eigenvalue. -/
noncomputable def critStep (tol : ℝ) (s : Option (ℝ × ℂ) × Option (ℝ × ℂ)) (r : ℝ × ℂ) : Option (ℝ × ℂ) × Option (ℝ × ℂ) :=
  if 0 ≤ r.2.im then
    (if r.2.re ≥ tol ∧ r.1 > 0 then
        match s.1 with
        | none => some r
        | some u => if r.1 ≤ u.1 then some r else some u
      else s.1,
     match s.2 with
     | none => some r
     | some x => if r.2.re ≥ x.2.re then some r else some x)
  else s

/-- `get_critical_root` (time_domain_flutter_solution.cpp:110-158); `none`: null pointer. -/
noncomputable def criticalOf (tol : ℝ) (roots : List (ℝ × ℂ)) : Option (ℝ × ℂ) :=
  let s := roots.foldl (critStep tol) (none, none)
  match s.1 with
  | some u => some u
  | none => s.2

/-- Marching loop (time_domain_flutter_solver.cpp:310-344): lower and upper velocity and whether the upper one has an unstable root; `none`: fuel exhausted. -/
noncomputable def march (unst : ℝ → Bool) (hi d : ℝ) : Nat → ℝ → Option (ℝ × ℝ × Bool)
  | 0, _ => none
  | k + 1, lV =>
    let uV := lV + d
    if unst uV ∨ uV ≥ hi then some (lV, uV, unst uV) else march unst hi d k uV

/-- Interpolation at time_domain_flutter_solver.cpp:370-371. -/
noncomputable def Bracket.newW (b : Bracket) : ℝ := b.uV + 1 / 2 * (b.uV - b.lV) / (b.ug - b.lg) * (1 / 10000 - b.ug)

/-- Refinement loop (time_domain_flutter_solver.cpp:355-418): `crit` is the real part of the critical root as a function of velocity. -/
noncomputable def refine (crit : ℝ → ℝ) (tol : ℝ) : Nat → Bracket → Option ℝ → List ℝ → Res
  | 0, _, last, ev => .done false last ev
  | k + 1, b, _, ev =>
    if b.ug - b.lg = 0 then .nan
    else
      let v := b.newW
      if crit v > 0 ∧ crit v ≤ tol then .done true (some v) (ev ++ [v])
      else refine crit tol k (b.update v (crit v)) (some v) (ev ++ [v])

/-- `analyze_and_find_critical_root_without_tracking` (time_domain_flutter_solver.cpp:254-419); `none`: marching fuel exhausted; `some none`: `(false, nullptr)`. -/
noncomputable def untracked (crit : ℝ → ℝ) (unst : ℝ → Bool) (lo hi : ℝ) (n : Nat) (tol : ℝ) (iters : Nat) : Option (Option Res) :=
  (march unst hi ((hi - lo) / n) n lo).map fun s => if s.2.2 then some (refine crit tol iters ⟨s.1, crit s.1, s.2.1, crit s.2.1⟩ (some s.2.1) []) else none

end Verif.FlutterSearch
