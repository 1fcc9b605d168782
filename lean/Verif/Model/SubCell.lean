import Verif.Model.CutCell
import Mathlib.Data.Fin.VecNotation
import Mathlib.Algebra.BigOperators.Fin
/-
  Model of the finite element data on elements cut by a level set: src/level_set/sub_cell_fe.cpp, with the part of src/mesh/fe_base.cpp that is used for
  elements that are not cut.  The parent element is a QUAD4 of the plane with first order Lagrange functions; the sub-cells are TRI3 or QUAD4 (`n` is the number
  of nodes).  libMesh supplies, per quadrature point, the shape functions of the sub-cell and their derivatives (`RefPt`).  libMesh raises an exception when a
  Jacobian determinant is (numerically) zero; the model raises it when it is exactly zero.  Only quantities that were asked for are computed by libMesh, so
  `local_fe`, which is asked for positions only, never raises it.
-/
namespace Verif.SubCell
open Verif.CutCell

/-- A point of the quadrature rule of an element with `n` nodes, with the first order Lagrange functions and their derivatives there (libMesh `QBase`, `FE`). -/
structure RefPt (n : Nat) where
  w : ℝ
  pt : Pt
  N : Fin n → ℝ
  dxi : Fin n → ℝ
  deta : Fin n → ℝ

/-- Shape functions of a TRI3 (libMesh). -/
noncomputable def triPt (w : ℝ) (q : Pt) : RefPt 3 :=
  { w := w, pt := q, N := ![1 - q 0 - q 1, q 0, q 1], dxi := ![-1, 1, 0], deta := ![-1, 0, 1] }

/-- Shape functions of a QUAD4 (libMesh). -/
noncomputable def quadPt (w : ℝ) (q : Pt) : RefPt 4 :=
  { w := w
    pt := q
    N := ![(1 - q 0) * (1 - q 1) / 4, (1 + q 0) * (1 - q 1) / 4, (1 + q 0) * (1 + q 1) / 4, (1 - q 0) * (1 + q 1) / 4]
    dxi := ![-(1 - q 1) / 4, (1 - q 1) / 4, (1 + q 1) / 4, -(1 + q 1) / 4]
    deta := ![-(1 - q 0) / 4, -(1 + q 0) / 4, (1 + q 0) / 4, (1 - q 0) / 4] }

/-- Position of a quadrature point in an element with nodes `X` (libMesh `get_xyz`). -/
def posAt {n : Nat} (r : RefPt n) (X : Fin n → Pt) : Pt := fun w => ∑ i, r.N i * X i w

/-- Tangents `dxyzdxi`, `dxyzdeta` (libMesh). -/
def tanXi {n : Nat} (r : RefPt n) (X : Fin n → Pt) : Pt := fun w => ∑ i, r.dxi i * X i w
/-- See `tanXi`. -/
def tanEta {n : Nat} (r : RefPt n) (X : Fin n → Pt) : Pt := fun w => ∑ i, r.deta i * X i w

/-- Determinant of the map. -/
def detAt {n : Nat} (r : RefPt n) (X : Fin n → Pt) : ℝ := cross (tanXi r X) (tanEta r X)

/-- What happens instead of a result. -/
inductive Fault
  | degenerate   -- exception of libMesh: zero Jacobian
  | nullRule     -- null pointer dereferenced
  deriving DecidableEq

/-- Data of one quadrature point: `get_qpoints`, `get_xyz`, `get_JxW`, `get_phi`, `get_dphi` (with respect to x and y). -/
structure Qp where
  q : Pt
  xyz : Pt
  JxW : ℝ
  phi : Fin 4 → ℝ
  dphi : Fin 4 → Pt

/-- Gradient of a shape function from its derivatives on the reference element (libMesh, `dphidx = dphidxi*dxidx + dphideta*detadx`, in two dimensions). -/
noncomputable def gradAt (r : RefPt 4) (X : Fin 4 → Pt) (i : Fin 4) : Pt :=
  let a := tanXi r X
  let b := tanEta r X
  ![(r.dxi i * b 1 - r.deta i * a 1) / detAt r X, (r.deta i * a 0 - r.dxi i * b 0) / detAt r X]

/-- `_fe->reinit(elem, pts)` of libMesh for a QUAD4 with nodes `X` at one point (fe_base.cpp:107, 110; sub_cell_fe.cpp:178): functions, gradients and position. The
weight is replaced by the caller's. -/
noncomputable def parentAt (X : Fin 4 → Pt) (q : Pt) (JxW : ℝ) : Except Fault Qp :=
  let r := quadPt 1 q
  if detAt r X = 0 then .error .degenerate else .ok { q := q, xyz := posAt r X, JxW := JxW, phi := r.N, dphi := gradAt r X }

/-- `JxW` of an element at a quadrature point (libMesh: `jac*w` with `jac = sqrt(det(g))`). -/
noncomputable def weightAt {n : Nat} (r : RefPt n) (X : Fin n → Pt) : Except Fault ℝ :=
  if detAt r X = 0 then .error .degenerate else .ok (r.w * |detAt r X|)

/-- State of the object after an initialization: the points and the rule the object keeps (`_qrule`, null if it was not built). -/
structure Fe (k : Nat) where
  pts : List Qp
  qrule : Option (List (RefPt k))

/-- `FEBase::init` (fe_base.cpp:63-130) for a QUAD4 with nodes `X`, planar, no separate local element. `pts` are the points passed by the caller; with points
passed, libMesh uses unit weights. -/
noncomputable def feInit (X : Fin 4 → Pt) (rule : List (RefPt 4)) (pts : Option (List Pt)) : Except Fault (Fe 4) :=
  match pts with
  | none => do
    let d ← rule.mapM fun r => do
      let w ← weightAt r X
      parentAt X r.pt w
    return { pts := d, qrule := some rule }
  | some l => do
    let d ← l.mapM fun q => do
      let w ← weightAt (quadPt 1 q) X
      parentAt X q w
    return { pts := d, qrule := none }

/-- A sub-cell: nondimensional coordinates of its nodes in the parent (`get_nondimensional_coordinate_for_node`) and their positions. -/
structure Cell (n : Nat) where
  loc : Fin n → Pt
  phys : Fin n → Pt

/-- One point of `SubCellFE::init` (sub_cell_fe.cpp:141-186): the rule of the sub-cell is taken to the nondimensional coordinates of the parent with the
nondimensional coordinates of the nodes, the functions are those of the parent there, the weight is that of the sub-cell in physical space. -/
noncomputable def subPoint {n : Nat} (P : Fin 4 → Pt) (c : Cell n) (r : RefPt n) : Except Fault Qp := do
  let d ← parentAt P (posAt r c.loc) 0
  let w ← weightAt r c.phys
  return { d with JxW := w }

/-- `SubCellFE::init` (sub_cell_fe.cpp:47-210), planar, no separate local element: `thr` is `if_intersection_through_elem`; an element that is not cut is its own
sub-cell and is given `rule4`. Simplification: on a cut element `pts` must be null (assert at 62) and is ignored in optimized builds. -/
noncomputable def init {n : Nat} (thr : Bool) (P : Fin 4 → Pt) (c : Cell n) (rule : List (RefPt n)) (rule4 : List (RefPt 4)) : Except Fault (Fe 4) :=
  if thr then do
    let d ← rule.mapM fun r => subPoint P c r
    return { pts := d, qrule := none }
  else feInit P rule4 none

/-- The sub-cell with the given vertices of a cut element with corners `P`, the sides being cut at the fractions `x`: `get_nondimensional_coordinate_for_node`
of its nodes (level_set_intersection.cpp:1648-1660, `_node_local_coords`) and their positions. -/
noncomputable def cellOf {n : Nat} (P : Fin 4 → Pt) (x : Fin 4 → ℝ) (c : Cut) (v : Fin n → Vtx) : Cell n :=
  { loc := fun i => vtxPos refCorner x c (v i), phys := fun i => vtxPos P x c (v i) }

/-- `LevelSetIntersectedElem::init_fe` for a sub-element of a cut element (level_set_intersected_elem.cpp:95-125): the rule is chosen by the type of the
sub-element. No sub-element has another number of nodes. -/
noncomputable def initSub (P : Fin 4 → Pt) (x : Fin 4 → ℝ) (c : Cut) (rule3 : List (RefPt 3)) (rule4 : List (RefPt 4)) (s : Sub) : Except Fault (Fe 4) :=
  match s.verts with
  | [a, b, d] => init (through c) P (cellOf P x c ![a, b, d]) rule3 rule4
  | [a, b, d, e] => init (through c) P (cellOf P x c ![a, b, d, e]) rule4 rule4
  | _ => .error .degenerate

/-- `FEBase::get_qrule` (fe_base.cpp:417-422): `*_qrule`. -/
def getRule {k : Nat} (f : Fe k) : Except Fault (List (RefPt k)) :=
  match f.qrule with
  | some r => .ok r
  | none => .error .nullRule

/-! ### sides -/

/-- Data of a quadrature point of a side: as `Qp`, with `get_normals_for_reference_coordinate`. `q` is what `get_qpoints` returns. -/
structure SideQp where
  q : Pt
  xyz : Pt
  JxW : ℝ
  normal : Pt
  phi : Fin 4 → ℝ
  dphi : Fin 4 → Pt

/-- Point `t` of the segment from `a` (at -1) to `b` (at 1): the map of an EDGE2 (libMesh). -/
noncomputable def onSide (a b : Pt) (t : ℝ) : Pt := fun w => (1 - t) / 2 * a w + (1 + t) / 2 * b w

/-- Second node of side `s` of a TRI3 or QUAD4 (libMesh: side `s` goes from node `s` to node `s + 1`). -/
def nextNode {n : Nat} [NeZero n] (s : Fin n) : Fin n := s + 1

/-- Weight of a side in physical space (libMesh: half the length of the side times the weight). -/
noncomputable def sideWeight (a b : Pt) (w : ℝ) : ℝ := norm2 (b - a) / 2 * w

/-- Outward normal of a side of an element oriented counterclockwise (libMesh: the tangent turned to the right, made a unit vector). -/
noncomputable def sideNormal (a b : Pt) : Pt := ![(b 1 - a 1) / norm2 (b - a), -(b 0 - a 0) / norm2 (b - a)]

/-- One point of `SubCellFE::init_for_side` on a cut element (sub_cell_fe.cpp:309-378). `flat` says that libMesh raised an exception for the sub-cell at some
point of the side; it is caught and replaced by zero weights, normals and points (343-355). `tw` is the point and weight of the rule of the side. -/
noncomputable def subSidePoint {n : Nat} [NeZero n] (P : Fin 4 → Pt) (c : Cell n) (s : Fin n) (flat : Bool) (tw : ℝ × ℝ) : Except Fault SideQp := do
  let d ← parentAt P (onSide (c.loc s) (c.loc (nextNode s)) tw.1) 0
  if flat then return { q := 0, xyz := d.xyz, JxW := 0, normal := 0, phi := d.phi, dphi := d.dphi }
  else return { q := d.q
                xyz := d.xyz
                JxW := sideWeight (c.phys s) (c.phys (nextNode s)) tw.2
                normal := sideNormal (c.phys s) (c.phys (nextNode s))
                phi := d.phi
                dphi := d.dphi }

/-- Does libMesh raise an exception for side `s` of the sub-cell (sub_cell_fe.cpp:344)? When the side or the Jacobian of the sub-cell at a point of the side is
degenerate. `at'` gives the functions of the sub-cell at the points of the side. -/
noncomputable def sideFlat {n : Nat} [NeZero n] (c : Cell n) (s : Fin n) (at' : ℝ → RefPt n) (rule : List (ℝ × ℝ)) : Bool :=
  decide (c.phys s = c.phys (nextNode s)) || rule.any fun tw => decide (detAt (at' tw.1) c.phys = 0)

/-- One point of `FEBase::init_for_side` (fe_base.cpp:136-206) for a QUAD4 with nodes `X`: `get_qpoints` returns the points of the rule of the side (fe_base.cpp:406-414). -/
noncomputable def feSidePoint (X : Fin 4 → Pt) (s : Fin 4) (tw : ℝ × ℝ) : Except Fault SideQp := do
  let d ← parentAt X (onSide (refCorner s) (refCorner (nextNode s)) tw.1) 0
  return { q := ![tw.1, 0]
           xyz := d.xyz
           JxW := sideWeight (X s) (X (nextNode s)) tw.2
           normal := sideNormal (X s) (X (nextNode s))
           phi := d.phi
           dphi := d.dphi }

/-- `SubCellFE::init_for_side` (sub_cell_fe.cpp:214-386). -/
noncomputable def initSide {n : Nat} [NeZero n] (thr : Bool) (P : Fin 4 → Pt) (c : Cell n) (s : Fin n) (s4 : Fin 4) (at' : ℝ → RefPt n) (rule : List (ℝ × ℝ)) :
    Except Fault (List SideQp) :=
  if thr then rule.mapM fun tw => subSidePoint P c s (sideFlat c s at' rule) tw
  else rule.mapM fun tw => feSidePoint P s4 tw

end Verif.SubCell
