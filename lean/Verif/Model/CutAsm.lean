import Verif.Model.Assembly
import Verif.Model.InterfaceDofs
/-
  Assembly on a mesh cut by a level set: src/level_set/level_set_nonlinear_implicit_assembly.cpp and src/level_set/level_set_eigenproblem_assembly.cpp.
  Reals stand for double.  What the element operations compute for a sub-element is given; the cut itself is the subject of C70, C71, the condensation of C75.
  Simplified: constraints are homogeneous (`Asm.conVec`, `Asm.conMat`), `comm` adds the processes.
-/
namespace Verif.CutAsm
open Verif
open Verif.Asm (addVector addMatrix conVec conMat)
open Verif.InterfaceDofs (Solver factoredRes factoredJac factoredSolution)

noncomputable section

/-- What the operations compute for the geometry of one (sub-)element from an element solution: `res`, `jac` (`elem_calculations`), `dres` (`elem_sensitivity_calculations`), `bnd`
(`elem_topology_sensitivity_calculations`; `none`: no side of the sub-element is on the interface, structural_nonlinear_assembly.cpp:258-286), and for an output: `out` (what `evaluate` adds), `dout`
(`output_derivative_for_elem`), `outSens u du` (what `evaluate_sensitivity` adds). -/
structure Sub where
  res : (Nat → ℝ) → Nat → ℝ
  jac : (Nat → ℝ) → Nat → Nat → ℝ
  dres : (Nat → ℝ) → Nat → ℝ
  bnd : Option ((Nat → ℝ) → Nat → ℝ)
  out : (Nat → ℝ) → ℝ
  dout : (Nat → ℝ) → Nat → ℝ
  outSens : (Nat → ℝ) → (Nat → ℝ) → ℝ

/-- Condensed dofs of an element known to the dof handler: material rows, void rows, stored solution (interface_dof_handler.cpp:217-239, 337-340). -/
structure Factor where
  u : List Nat
  f : List Nat
  stored : Nat → ℝ

/-- One active element: its dofs, `neg` (`if_elem_on_negative_phi`), the nodal values of the indicator (`[1]` without an indicator function), positive and negative sub-elements, the element itself (`full`),
`get_positive_phi_volume_fraction`, the entry of the dof handler (`none`: no dof handler or `!if_factor_element`), and the answer of the parameter dependence test. -/
structure Elem where
  n : Nat
  dof : Nat → Nat
  neg : Bool
  ind : List ℝ
  subs : List Sub
  low : List Sub
  full : Sub
  frac : ℝ
  factor : Option Factor
  skip : Bool

/-- `nd_indicator.maxCoeff()`; elements have nodes. -/
def indMax : List ℝ → ℝ
  | [] => 0
  | x :: l => l.foldl max x

/-- `tol` (level_set_nonlinear_implicit_assembly.cpp:341-342). -/
def tol : ℝ := 1 / 10000000000

/-- `nd_indicator.maxCoeff() > tol && if_elem_has_positive_phi_region()` (419-420, 649-650, 879-880, 1071-1072, 1319-1320). -/
def material (e : Elem) : Bool := decide (indMax e.ind > tol) && !e.neg

/-- `if_elem_on_negative_phi() || nd_indicator.maxCoeff() < tol` (407-408). -/
def empty (e : Elem) : Bool := e.neg || decide (indMax e.ind < tol)

/-- The element solution (429-435, 659-665). -/
def elemSol (e : Elem) (X : Nat → ℝ) : Nat → ℝ :=
  match e.factor with
  | some F => factoredSolution F.stored (fun a => X (e.dof a)) F.f
  | none => fun a => X (e.dof a)

/-- `vec(material_rows[i]) = w(i)` for all `i` (470-472, 730-731). -/
def put (u : List Nat) (w : Fin u.length → ℝ) (v : Nat → ℝ) : Nat → ℝ :=
  (List.finRange u.length).foldl (fun v i => fun k => if k = u.get i then w i else v k) v

/-- `mat(material_rows[i], material_rows[j]) = w(i,j)` (474-475). -/
def put2 (u : List Nat) (w : Fin u.length → Fin u.length → ℝ) (m : Nat → Nat → ℝ) : Nat → Nat → ℝ :=
  (List.finRange u.length).foldl (fun m i => (List.finRange u.length).foldl (fun m j => fun k l => if k = u.get i ∧ l = u.get j then w i j else m k l) m) m

/-- `elem_calculations` on the whole element, times the volume fraction (449-456). -/
def fullRes (e : Elem) (u : Nat → ℝ) : Nat → ℝ := fun a => e.full.res u a * e.frac

/-- See `fullRes` (451, 719, 1126). -/
def fullJac (e : Elem) (u : Nat → ℝ) : Nat → Nat → ℝ := fun a b => e.full.jac u a b * e.frac

/-- `vec` (439-509). -/
def elemVec (solve : Solver) (e : Elem) (X : Nat → ℝ) : Nat → ℝ :=
  let s := elemSol e X
  match e.factor with
  | some F => put F.u (factoredRes solve (fullJac e s) (fullRes e s) F.u F.f) (fun _ => 0)
  | none => e.subs.foldl (fun v c => fun a => v a + c.res s a) (fun _ => 0)

/-- `mat` (439-509). -/
def elemMat (solve : Solver) (e : Elem) (X : Nat → ℝ) : Nat → Nat → ℝ :=
  let s := elemSol e X
  match e.factor with
  | some F => put2 F.u (factoredJac solve (fullJac e s) F.u F.f) (fun a b => if a = b then 1 / 1000000 else 0)
  | none => e.subs.foldl (fun m c => fun a b => m a b + c.jac s a b) (fun _ _ => 0)

/-- Residual part of the loop over the elements of one process (382-535). -/
def resProc (C : Nat → Bool) (solve : Solver) (X : Nat → ℝ) (es : List Elem) : Nat → ℝ :=
  es.foldl (fun R e => if material e then addVector e.n e.dof (conVec C e.dof (elemVec solve e X)) R else R) (fun _ => 0)

/-- Jacobian part (382-535). -/
def jacProc (C : Nat → Bool) (solve : Solver) (X : Nat → ℝ) (es : List Elem) : Nat → Nat → ℝ :=
  es.foldl (fun J e =>
    let J := if empty e then addMatrix e.n e.dof (conMat C e.dof (fun a b => if a = b then 1 / 100000000000000 else 0)) J else J
    if material e then addMatrix e.n e.dof (conMat C e.dof (elemMat solve e X)) J else J) (fun _ _ => 0)

/-- `R->close()` (546). -/
def residual (C : Nat → Bool) (solve : Solver) (X : Nat → ℝ) (ps : List (List Elem)) : Nat → ℝ := fun i => (ps.map fun es => resProc C solve X es i).sum

/-- `J->close()` (547). -/
def jacobian (C : Nat → Bool) (solve : Solver) (X : Nat → ℝ) (ps : List (List Elem)) : Nat → Nat → ℝ := fun i j => (ps.map fun es => jacProc C solve X es i j).sum

/-- `vec2` after `elem_topology_sensitivity_calculations(f, vel, vec2)`: untouched without a side on the interface (structural_nonlinear_assembly.cpp:246-287). -/
def topology (c : Sub) (s v2 : Nat → ℝ) : Nat → ℝ := match c.bnd with | some b => b s | none => v2

/-- Body of the loop over the positive sub-elements in `sensitivity_assemble` (674-739): `(vec_total, vec2)`; `top`: `f.is_topology_parameter()`. -/
def sensSub (solve : Solver) (top : Bool) (e : Elem) (s : Nat → ℝ) (st : (Nat → ℝ) × (Nat → ℝ)) (c : Sub) : (Nat → ℝ) × (Nat → ℝ) :=
  let v2 := if top then topology c s st.2 else st.2
  let v1 := fun a => if top then c.dres s a + v2 a else c.dres s a
  match e.factor with
  | some F => (fun a => st.1 a + put F.u (factoredRes solve (fullJac e s) v1 F.u F.f) (fun _ => 0) a, e.full.res s)
  | none => (fun a => st.1 a + v1 a, v2)

/-- `vec_total` of one element (653-739). -/
def sensVec (solve : Solver) (top : Bool) (e : Elem) (X : Nat → ℝ) : Nat → ℝ :=
  (e.subs.foldl (sensSub solve top e (elemSol e X)) (fun _ => 0, fun _ => 0)).1

/-- `sensitivity_assemble` (552-765) on one process. -/
def sensProc (C : Nat → Bool) (solve : Solver) (top : Bool) (X : Nat → ℝ) (es : List Elem) : Nat → ℝ :=
  es.foldl (fun R e => if e.skip then R else if material e then addVector e.n e.dof (conVec C e.dof (sensVec solve top e X)) R else R) (fun _ => 0)

/-- `sensitivity_rhs.close()` (762). -/
def sensRhs (C : Nat → Bool) (solve : Solver) (top : Bool) (X : Nat → ℝ) (ps : List (List Elem)) : Nat → ℝ := fun i => (ps.map fun es => sensProc C solve top X es i).sum

/-! ### outputs -/

/-- `calculate_output` (771-928): what all processes add to the output after `zero_for_analysis`; `lowFlag` is `_evaluate_output_on_negative_phi`. -/
def output (lowFlag : Bool) (X : Nat → ℝ) (ps : List (List Elem)) : ℝ :=
  (ps.map fun es => es.foldl (fun q e =>
    let q := if lowFlag then e.low.foldl (fun q c => q + c.out (elemSol e X)) q else q
    if material e then e.subs.foldl (fun q c => q + c.out (elemSol e X)) q else q) 0).sum

/-- `vec_total` over the negative sub-elements (1045-1061). -/
def derivLow (e : Elem) (s : Nat → ℝ) : Nat → ℝ := e.low.foldl (fun v c => fun a => v a + c.dout s a) (fun _ => 0)

/-- `vec_total` over the positive sub-elements (1098-1142); the transpose of the Jacobian is condensed with. -/
def derivHi (solve : Solver) (e : Elem) (s : Nat → ℝ) : Nat → ℝ :=
  e.subs.foldl (fun v c => match e.factor with
    | some F => fun a => v a + put F.u (factoredRes solve (fun i j => fullJac e s j i) (c.dout s) F.u F.f) (fun _ => 0) a
    | none => fun a => v a + c.dout s a) (fun _ => 0)

/-- `calculate_output_derivative` (934-1160) on one process. -/
def derivProc (C : Nat → Bool) (solve : Solver) (lowFlag : Bool) (X : Nat → ℝ) (es : List Elem) : Nat → ℝ :=
  es.foldl (fun q e =>
    let q := if lowFlag && !e.low.isEmpty then addVector e.n e.dof (conVec C e.dof (derivLow e (elemSol e X))) q else q
    if material e then addVector e.n e.dof (conVec C e.dof (derivHi solve e (elemSol e X))) q else q) (fun _ => 0)

/-- `dq_dX.close()` (1158). -/
def derivative (C : Nat → Bool) (solve : Solver) (lowFlag : Bool) (X : Nat → ℝ) (ps : List (List Elem)) : Nat → ℝ := fun i => (ps.map fun es => derivProc C solve lowFlag X es i).sum

/-- `calculate_output_direct_sensitivity` (1166-1378) for a parameter that is no topology parameter, with a solution sensitivity `dX` (the elements are then skipped only with `override_flag`, here `over`). -/
def directSens (over lowFlag : Bool) (X dX : Nat → ℝ) (ps : List (List Elem)) : ℝ :=
  (ps.map fun es => es.foldl (fun q e =>
    if e.skip && over then q else
    let q := if lowFlag then e.low.foldl (fun q c => q + c.outSens (elemSol e X) (fun a => dX (e.dof a))) q else q
    if material e then e.subs.foldl (fun q c => q + c.outSens (elemSol e X) (fun a => dX (e.dof a))) q else q) 0).sum

/-! ### eigenproblem -/

/-- Matrices of one (sub-)element for the eigenproblem: `A`, `B` (`elem_calculations`), `dA`, `dB` (`elem_sensitivity_calculations`), `bA`, `bB` (`elem_topology_sensitivity_calculations`, which starts with zero
matrices, structural_modal_eigenproblem_assembly.cpp:213-267). -/
structure ESub where
  A : Nat → Nat → ℝ
  B : Nat → Nat → ℝ
  dA : Nat → Nat → ℝ
  dB : Nat → Nat → ℝ
  bA : Nat → Nat → ℝ
  bB : Nat → Nat → ℝ

/-- One element of the eigenproblem assembly. -/
structure EElem where
  n : Nat
  dof : Nat → Nat
  neg : Bool
  full : ESub
  subs : List ESub

/-- `eigenproblem_assemble` (level_set_eigenproblem_assembly.cpp:118-228) for one of the two matrices (`pick`); both are set to zero first. -/
def eigAssemble (C : Nat → Bool) (pick : ESub → Nat → Nat → ℝ) (es : List EElem) : Nat → Nat → ℝ :=
  es.foldl (fun M e => if !e.neg then addMatrix e.n e.dof (conMat C e.dof (pick e.full)) M else M) (fun _ _ => 0)

/-- The element loop of `eigenproblem_sensitivity_assemble` (286-370) for one of the two matrices, onto `M0`. -/
def eigSensLoop (C : Nat → Bool) (top : Bool) (pick bnd : ESub → Nat → Nat → ℝ) (es : List EElem) (M0 : Nat → Nat → ℝ) : Nat → Nat → ℝ :=
  es.foldl (fun M e => if !e.neg then e.subs.foldl (fun M c => addMatrix e.n e.dof (conMat C e.dof (fun a b => if top then pick c a b + bnd c a b else pick c a b)) M) M else M) M0

/-- `eigenproblem_sensitivity_assemble` (234-377): `matrix_A.zero()` (251), but no `matrix_B.zero()`; `(A, B)` are the matrices as they are passed in. -/
def eigSens (C : Nat → Bool) (top : Bool) (es : List EElem) (AB : (Nat → Nat → ℝ) × (Nat → Nat → ℝ)) : (Nat → Nat → ℝ) × (Nat → Nat → ℝ) :=
  (eigSensLoop C top (·.dA) (·.bA) es (fun _ _ => 0), eigSensLoop C top (·.dB) (·.bB) es AB.2)

/-- Quadratic form `x^T M x` over the dofs below `N` (`vector_mult` and `dot`). -/
def quad (N : Nat) (M : Nat → Nat → ℝ) (x : Nat → ℝ) : ℝ := ∑ i ∈ Finset.range N, x i * ∑ j ∈ Finset.range N, M i j * x j

/-- Sensitivity of one eigenvalue of the GHEP (nonlinear_system.cpp:629-669) on one process: the matrices hold the assembled eigenproblem, the sensitivities are assembled into the same matrices (646). -/
def eigenvalueSens (C : Nat → Bool) (top : Bool) (N : Nat) (es : List EElem) (lam : ℝ) (x : Nat → ℝ) : ℝ :=
  let A := eigAssemble C (·.A) es
  let B := eigAssemble C (·.B) es
  let d := eigSens C top es (A, B)
  (quad N d.1 x - lam * quad N d.2 x) / quad N B x

end
end Verif.CutAsm
