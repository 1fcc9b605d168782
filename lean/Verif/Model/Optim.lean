import Mathlib.Data.Real.Basic
import Mathlib.Analysis.Real.Sqrt
import Verif.Model.Exec
/-
  Model of src/optimization: function_evaluation.{h,cpp}, gcmma_optimization_interface.cpp,
  nlopt_optimization_interface.cpp, npsol_optimization_interface.cpp, dot_optimization_interface.cpp.
-/
namespace Verif.Optim

/-! #### Output file (characters) -/

/-- `operator<<` on an `ofstream` and `std::stod`/`std::stoi`.  The number formats themselves are library code and kept abstract;
what is assumed about them is the predicate `Printer.Good` of the property file. `set_output_file` (function_evaluation.h:125-132) never changes precision. -/
structure Printer (K : Type) where
  prReal : K → List Char
  prNat : Nat → List Char
  stod : List Char → Option K
  stoi : List Char → Option Nat
  /-- `unsigned = stod(..)`, function_evaluation.cpp:198, 207, 216 -/
  stodNat : List Char → Option Nat

/-- `std::setw(n) << s`: pads on the left with blanks, never truncates (used throughout function_evaluation.cpp:133-159). -/
def setw (n : Nat) (s : List Char) : List Char := List.replicate (n - s.length) ' ' ++ s

variable {K : Type}

/-- One header line `std::setw(10) << name << std::setw(10) << n << std::endl`, function_evaluation.cpp:133-138. -/
def headLine (P : Printer K) (name : String) (n : Nat) : List Char := setw 10 name.toList ++ setw 10 (P.prNat n) ++ ['\n']

/-- Column titles `Iter x_0 .. Obj f_0 ..`, function_evaluation.cpp:140-150. -/
def titleLine (P : Printer K) (nx nf : Nat) : List Char :=
  setw 10 "Iter".toList ++ ((List.range nx).map (fun i => setw 20 ("x_".toList ++ P.prNat i))).flatten ++ setw 20 "Obj".toList
    ++ ((List.range nf).map (fun i => setw 20 ("f_".toList ++ P.prNat i))).flatten ++ ['\n']

/-- One data row, function_evaluation.cpp:153-159. -/
def dataRow (P : Printer K) (iter : Nat) (x : List K) (obj : K) (f : List K) : List Char :=
  setw 10 (P.prNat iter) ++ (x.map (fun v => setw 20 (P.prReal v))).flatten ++ setw 20 (P.prReal obj)
    ++ (f.map (fun v => setw 20 (P.prReal v))).flatten ++ ['\n']

/-- A recorded evaluation handed to `_output_wrapper`. -/
structure Rec (K : Type) where
  x : List K
  obj : K
  f : List K

/-- Text appended to the file by `output(iter, x, obj, fval, true)`, function_evaluation.cpp:124-161, for a problem with the sizes `nv, neq, nineq`. -/
def output (P : Printer K) (nv neq nineq : Nat) (iter : Nat) (r : Rec K) : List Char :=
  (if iter = 0 then headLine P "n_dv" nv ++ headLine P "n_eq" neq ++ headLine P "n_ineq" nineq ++ titleLine P r.x.length r.f.length else [])
    ++ dataRow P iter r.x r.obj r.f

/-- Text written by successive calls of `_output_wrapper` (function_evaluation.cpp:504-518), which ignores the iteration number of its caller and uses the
member counter `_iter`, here `it`. -/
def written (P : Printer K) (nv neq nineq : Nat) : Nat → List (Rec K) → List Char
  | _, [] => []
  | it, r :: rs => output P nv neq nineq it r ++ written P nv neq nineq (it + 1) rs

/-- An `ifstream`: remaining characters and the end-of-file flag. -/
structure In where
  rest : List Char
  eof : Bool

/-- `std::getline(input, line)`: fails without touching `line` if the stream is not good; otherwise extracts up to the newline, setting `eof` if there is none. -/
def getline (s : In) (line : List Char) : List Char × In :=
  if s.eof then (line, s)
  else
    match s.rest.dropWhile (· ≠ '\n') with
    | [] => (s.rest, ⟨[], true⟩)
    | _ :: r => (s.rest.takeWhile (· ≠ '\n'), ⟨r, false⟩)

/-- `std::isspace` in the classic locale. -/
def isSp (c : Char) : Bool := c = ' ' || c = '\t' || c = '\n' || c = '\r' || c = Char.ofNat 11 || c = Char.ofNat 12

/-- `boost::trim`. -/
def trim (s : List Char) : List Char := ((s.dropWhile isSp).reverse.dropWhile isSp).reverse

/-- `boost::is_any_of(" \t")`. -/
def isDelim (c : Char) : Bool := c = ' ' || c = '\t'

/-- `boost::split(_, line, is_any_of(" \t"), token_compress_on)`. -/
def split : List Char → List (List Char)
  | [] => [[]]
  | c :: cs =>
    if isDelim c then [] :: split (cs.dropWhile isDelim)
    else
      match split cs with
      | [] => [[c]]
      | t :: ts => (c :: t) :: ts
termination_by cs => cs.length
decreasing_by
  · simp only [List.length_cons]
    have := (List.dropWhile_suffix isDelim (l := cs)).length_le
    omega
  · simp

/-- `results[i]`: out of range is undefined behaviour. -/
def tok (ts : List (List Char)) (i : Nat) : Exec (List Char) :=
  match ts[i]? with
  | some t => .ok t
  | none => .error .ub

/-- A `std::sto*` call: an unparsable token throws. -/
def parse {α : Type} (o : Option α) : Exec α :=
  match o with
  | some a => .ok a
  | none => .error .error

/-- A debug-only assertion. -/
def dbgAssert (dbg : Bool) (c : Bool) : Exec Unit := if dbg && !c then .error .assertFail else .ok ()

/-- The reading of one header line, function_evaluation.cpp:194-216. -/
def readHead (P : Printer K) (dbg : Bool) (name : String) (s : In) (line : List Char) : Exec (Nat × In × List Char) := do
  let (line, s) := getline s line
  let line := trim line
  let ts := split line
  dbgAssert dbg ((ts[0]?).getD [] = name.toList)
  let t ← tok ts 1
  let n ← parse (P.stodNat t)
  .ok (n, s, line)

/-- The skipping loop, function_evaluation.cpp:221-224. -/
def skip : Nat → In → List Char → In × List Char
  | 0, s, line => (s, line)
  | n + 1, s, line => if s.eof then (s, line) else skip n (getline s line).2 (getline s line).1

/-- `x[i] = stod(results[i+1])` for `i < ndv`, function_evaluation.cpp:237-238, with `x` of the length it had on entry. -/
def readX (P : Printer K) (ts : List (List Char)) : Nat → List K → Exec (List K)
  | 0, x => .ok x
  | n + 1, x => do
    let x ← readX P ts n x
    let t ← tok ts (n + 1)
    let v ← parse (P.stod t)
    if n < x.length then .ok (x.set n v) else .error .ub

/-- `initialize_dv_from_output_file(nm, iter, x)`, function_evaluation.cpp:165-239, on an existing file with the given contents; `neq` is the evaluator's
own `_n_eq`. -/
def initFromFile (P : Printer K) (dbg : Bool) (neq : Nat) (file : List Char) (iter : Nat) (x : List K) : Exec (List K) := do
  let (ndv, s, line) ← readHead P dbg "n_dv" ⟨file, false⟩ []
  dbgAssert dbg (ndv = x.length)
  let (ne, s, line) ← readHead P dbg "n_eq" s line
  dbgAssert dbg (ne = neq)
  let (_, s, line) ← readHead P dbg "n_ineq" s line
  let (s, line) := skip (iter + 1) s line
  let (line, _) := getline s line
  let ts := split (trim line)
  dbgAssert dbg (ndv + 1 < ts.length)
  let t ← tok ts 0
  let it ← parse (P.stoi t)
  dbgAssert dbg (it = iter)
  readX P ts ndv x

/-! #### Constraint statistics -/

/-- The running values of function_evaluation.cpp:83-88. -/
structure Stats where
  active : Nat
  violated : Nat
  maxId : Nat
  maxVal : ℝ

/-- One pass of the loop function_evaluation.cpp:90-108 for `fval[i+_n_eq] = v`. -/
noncomputable def statStep (tol : ℝ) (i : Nat) (v : ℝ) (s : Stats) : Stats :=
  let s := if |v| ≤ tol then { s with active := s.active + 1 }
    else if v > tol then { s with violated := s.violated + 1 } else s
  if s.maxVal < v then { s with maxId := i, maxVal := v } else s

/-- The statistics printed for the inequality part of `fval`, function_evaluation.cpp:83-116. -/
noncomputable def stats (tol : ℝ) (neq nineq : Nat) (fval : Nat → ℝ) : Stats :=
  loop nineq (fun i s => statStep tol i (fval (i + neq)) s) ⟨0, 0, 0, -(10 : ℝ) ^ 20⟩

/-! #### verify_gradients -/

/-- `fabs((g - fd)/g) > tol` in IEEE arithmetic: `x/0` is infinite for `x ≠ 0` (test true), `0/0` is NaN (test false);
function_evaluation.cpp:364, 390. Otherwise exact real arithmetic (simplification: no rounding). -/
noncomputable def mismatch (tol g fd : ℝ) : Bool :=
  if g = 0 then decide (fd ≠ 0) else decide (|(g - fd) / g| > tol)

/-- `delta`, function_evaluation.cpp:248. -/
noncomputable def fdDelta : ℝ := 1 / 10 ^ 5
/-- `tol`, function_evaluation.cpp:249. -/
noncomputable def fdTol : ℝ := 1 / 10 ^ 3

/-- Difference quotient for variable `i` of a scalar output, function_evaluation.cpp:304-343 (evaluations at `dvars` with `+delta`, then `-2*delta`). -/
noncomputable def fdiff {n : Nat} (f : (Fin n → ℝ) → ℝ) (x : Fin n → ℝ) (i : Fin n) : ℝ :=
  let xp := Function.update x i (x i + fdDelta)
  let xm := Function.update xp i (xp i - 2 * fdDelta)
  (f xp - f xm) / 2 / fdDelta

/-- `verify_gradients`, function_evaluation.cpp:242-405.  `f` the objective, `g j` the constraints as computed by `evaluate`; `df`, `dg` the gradient arrays it
fills in at `dvars` (`dg` is the flat array indexed `i*(n_eq+n_ineq)+j`). -/
noncomputable def verifyGradients {n : Nat} (m : Nat) (f : (Fin n → ℝ) → ℝ) (g : Fin m → (Fin n → ℝ) → ℝ)
    (df : Fin n → ℝ) (dg : Nat → ℝ) (x : Fin n → ℝ) : Bool :=
  (List.finRange n).all (fun i => !mismatch fdTol (df i) (fdiff f x i)) &&
  (List.finRange m).all (fun j => (List.finRange n).all (fun i => !mismatch fdTol (dg (i * m + j)) (fdiff (g j) x i)))

/-- The sequence of points at which `verify_gradients` calls `evaluate`, function_evaluation.cpp:285-336. -/
noncomputable def evalPoints {n : Nat} (x : Fin n → ℝ) : List (Fin n → ℝ) :=
  x :: ((List.finRange n).map (fun i =>
    let xp := Function.update x i (x i + fdDelta)
    [xp, Function.update xp i (xp i - 2 * fdDelta)])).flatten

/-- Points written by `parametric_line_study`, function_evaluation.cpp:427-435, for `divs > 0`. -/
noncomputable def lineStudy {n : Nat} (divs : Nat) (x1 x2 : Fin n → ℝ) : List (Fin n → ℝ) :=
  (List.range (divs + 1)).map (fun (i : Nat) => fun j => (1 - (i : ℝ) / divs) * x1 j + ((i : ℝ) / divs) * x2 j)

/-! #### GCMMA driver -/

/-- Problem settings used by the driver: `n_iters_relative_change`, `max_iters`, `tolerance`. -/
structure Gcmma where
  nrel : Nat
  maxIters : Nat
  geps : ℝ

/-- The convergence test on the buffer, gcmma_optimization_interface.cpp:350-360. -/
noncomputable def relConv (G : Gcmma) (buf : Nat → ℝ) : Bool :=
  let c := buf (G.nrel - 1)
  (List.range (G.nrel - 1)).all (fun i =>
    if c > Real.sqrt G.geps then decide (|buf i - c| / |c| < G.geps) else decide (|buf i - c| < G.geps))

/-- Outer loop, gcmma_optimization_interface.cpp:217-368, reduced to what decides termination: `F0 k` is the objective accepted in outer iteration `k` (from 1), `buf`
is `f0_iters` (zero-initialised, 110).  Bounded by `fuel` passes; `some (k, conv)` = terminated in iteration `k`, with `conv` whether by the relative-change test.
`f0_iters[(ITE-1) % 0]` (undefined behaviour) is excluded by `0 < nrel` in the theorems. -/
noncomputable def outer (G : Gcmma) (F0 : Nat → ℝ) : Nat → Nat → (Nat → ℝ) → Option (Nat × Bool)
  | 0, _, _ => none
  | fuel + 1, ite, buf =>
    let ite := ite + 1
    let buf := fun j => if j = (ite - 1) % G.nrel then F0 ite else buf j
    let conv := relConv G buf
    if ite = G.maxIters ∨ conv then some (ite, conv) else outer G F0 fuel ite buf

/-- `optimize()` from `ITE = 0` and a zero buffer. -/
noncomputable def gcmma (G : Gcmma) (F0 : Nat → ℝ) (fuel : Nat) : Option (Nat × Bool) := outer G F0 fuel 0 (fun _ => 0)

/-- Inner loop, gcmma_optimization_interface.cpp:252-322: number of subproblem solves; `conser k` tells whether `conser_` accepts at `INNER = k`. -/
def inner (innmax : Nat) (conser : Nat → Bool) (k : Nat) : Nat :=
  if innmax ≤ k then 1
  else if conser k then 1
  else 1 + inner innmax conser (k + 1)
termination_by innmax - k

/-- Backtracking, gcmma_optimization_interface.cpp:275-291, bounded by `fuel` passes: `c` is `FNEW[0]` at a point; `none` = still running. -/
noncomputable def backtrack {n : Nat} (c : (Fin n → ℝ) → ℝ) (xold1 xmma : Fin n → ℝ) : Nat → ℝ → (Fin n → ℝ) → Option (Fin n → ℝ)
  | 0, _, _ => none
  | fuel + 1, frac, xnew =>
    if c xnew > 100 then backtrack c xold1 xmma fuel (frac * frac) (fun i => xold1 i + frac * (xmma i - xold1 i))
    else some xnew

/-! #### NLopt, NPSOL and DOT callbacks -/

/-- `inequality_constraint_evaluation(m, result, n, x, gradient)`, nlopt_optimization_interface.cpp:181-229: `fvals`, `dfdx` are what `evaluate` computes (`dfdx[j*m+i]`), `result` and
`gradient` the caller's arrays; returns them after the call. -/
def nloptConstraints {K : Type} (m n : Nat) (fvals : Nat → K) (dfdx : Nat → K) (result : Nat → K) (gradient : Option (Vec K)) :
    Exec ((Nat → K) × Option (Vec K)) :=
  let _ := fvals
  match gradient with
  | none => .ok (result, none)
  | some g => do
    let g ← loopE m (fun i g => loopE n (fun j g => g.write (i * n + j) (dfdx (j * m + i))) g) g
    .ok (result, some g)

/-- The record passed to `_output_wrapper` by `objective_evaluation`, nlopt_optimization_interface.cpp:152-168: objective and constraints are still zero, `evaluate` runs afterwards. -/
def nloptRecord {K : Type} [Zero K] (nconstr : Nat) (x : List K) (_objective : K) (_constraints : List K) : Rec K :=
  ⟨x, 0, List.replicate nconstr 0⟩

/-- `nlopt_add_inequality_mconstraint(.., m, .., &tol)` (nlopt_optimization_interface.cpp:120-124) reads `tol[0..m)` from an array that has one element. -/
def nloptTolRead {K : Type} (tol : K) (m : Nat) : Exec (List K) :=
  (List.range m).mapM (fun i => if i < 1 then .ok tol else .error .ub)

/-- `exit = (INFORM%10)*10`, npsol_optimization_interface.cpp:325-326. -/
def npsolExit (inform : Nat) : Nat := (inform % 10) * 10

/-- `BL` and `BU` of the NPSOL driver, npsol_optimization_interface.cpp:204-207, 240-241, 258-269: `N` variables, `NCNLN = n_eq + n_ineq` constraints; both arrays have `N + NCNLN` entries, zero at first. -/
noncomputable def npsolBounds (n neq nineq : Nat) (xmin xmax : Nat → ℝ) : Exec (Vec ℝ × Vec ℝ) := do
  let b ← loopE n (fun i (b : Vec ℝ × Vec ℝ) => do
    let l ← b.1.write i (xmin i)
    let u ← b.2.write i (xmax i)
    .ok (l, u)) ((⟨n + (neq + nineq), fun _ => 0⟩, ⟨n + (neq + nineq), fun _ => 0⟩) : Vec ℝ × Vec ℝ)
  loopE (neq + nineq) (fun i (b : Vec ℝ × Vec ℝ) => do
    let l ← b.1.write (i + n) (-10 ^ 20)
    let u ← b.2.write (i + n) 0
    .ok (l, u)) b

/-- Records of `parametric_line_study`, function_evaluation.cpp:418, 423-435: `obj` and `fval` are never computed. -/
noncomputable def lineRecords {n : Nat} (m divs : Nat) (x1 x2 : Fin n → ℝ) : List ((Fin n → ℝ) × ℝ × List ℝ) := (lineStudy divs x1 x2).map fun x => (x, 0, List.replicate m 0)

/-- The loop of the DOT driver, dot_optimization_interface.cpp:98-162, for the calls of `dot_` with their `INFO` and design: every pass evaluates and writes a record, the last one (`INFO = 0`) too; then the record is
written again.  `none`: `dot_` has not finished yet. -/
def dotRecords {X R : Type} (eval : X → R) : List (Nat × X) → Option (List (X × R))
  | [] => none
  | (info, x) :: l => if info = 0 then some [(x, eval x), (x, eval x)] else (dotRecords eval l).map ((x, eval x) :: ·)

/-- Gradient hand-over of the DOT driver, dot_optimization_interface.cpp:136-155: `wk` has `NRWK = max(NDV*NCON*10, 100000)` entries, `act i` is the 1-based number of the `i`th active constraint. -/
def dotGradients {K : Type} (ndv ncon : Nat) (df0 : Nat → K) (dfdx : Vec K) (nact : Nat) (act : Nat → Nat) (wk : Vec K) : Exec (Vec K) := do
  let wk ← loopE ndv (fun i w => w.write i (df0 i)) wk
  loopE nact (fun i w => loopE ndv (fun j w => do
    let v ← dfdx.read (j * ncon + act i - 1)
    w.write ((i + 1) * ndv + j) v) w) wk

/-- `NRWK`, dot_optimization_interface.cpp:58. -/
def nrwk (ndv ncon : Nat) : Nat := max (ndv * ncon * 10) 100000

end Verif.Optim
