import Mathlib.Analysis.Real.Sqrt
import Mathlib.Data.Fin.Basic
import Mathlib.Algebra.Module.Pi
/-
  Model of the intersection of one QUAD4 element (or of the first order part of a QUAD9) with a level set: src/level_set/level_set_intersection.cpp.
  Points have two coordinates (the element is planar; the third coordinate, always zero in the code's use, is left out).  Real numbers stand for `Real`.
-/
namespace Verif.CutCell

/-- A point of the plane. -/
abbrev Pt := Fin 2 → ℝ

/-- `Point::norm`. -/
noncomputable def norm2 (v : Pt) : ℝ := √(v 0 ^ 2 + v 1 ^ 2)

/-! ### search of the intersection on an edge -/

/-- Variables of the loop of `_find_intersection_on_straight_edge` (level_set_intersection.cpp:1593-1605). -/
structure Rf where
  pt : Pt
  pt0 : Pt
  pt1 : Pt
  v : ℝ
  v0 : ℝ
  v1 : ℝ

/-- One pass through the loop body (level_set_intersection.cpp:1618-1634). -/
noncomputable def rfStep (phi : Pt → ℝ) (s : Rf) : Rf :=
  let xi := -s.v0 / (s.v1 - s.v0)
  let pt := s.pt0 + xi • (s.pt1 - s.pt0)
  let v := phi pt
  if v * s.v1 < 0 then { s with pt := pt, v := v, v0 := v, pt0 := pt }
  else { s with pt := pt, v := v, v1 := v, pt1 := pt }

/-- The loop (level_set_intersection.cpp:1615-1635); the first argument is `_max_iters - n_iters`. -/
noncomputable def rfLoop (phi : Pt → ℝ) (tol : ℝ) : Nat → Rf → Rf
  | 0, s => s
  | k + 1, s => if |s.v| > tol then rfLoop phi tol k (rfStep phi s) else s

/-- State before the loop (level_set_intersection.cpp:1593-1605): `pt` is default constructed (origin), `v` is 1e10. -/
noncomputable def rfInit (phi : Pt → ℝ) (p0 p1 : Pt) : Rf :=
  { pt := 0, pt0 := p0, pt1 := p1, v := 10000000000, v0 := phi p0, v1 := phi p1 }

/-- State at the end of the loop. -/
noncomputable def rfFinal (phi : Pt → ℝ) (tol : ℝ) (maxIters : Nat) (p0 p1 : Pt) : Rf := rfLoop phi tol maxIters (rfInit phi p0 p1)

/-- `_find_intersection_on_straight_edge` (level_set_intersection.cpp:1586-1645). -/
noncomputable def edgeSearch (phi : Pt → ℝ) (tol : ℝ) (maxIters : Nat) (p0 p1 : Pt) : ℝ :=
  norm2 ((rfFinal phi tol maxIters p0 p1).pt - p0) / norm2 (p1 - p0)

/-! ### combinatorial part -/

/-- `LevelSet2DIntersectionMode` (level_set_intersection.h:35-46). -/
inductive Mode
  | throughNode | colinearEdge | adjacentEdges | oppositeEdges | oppositeNodes | nodeAndEdge | twoAdjacentEdges | nodeAndTwoEdges | noIntersection
  deriving DecidableEq

/-- A vertex of a sub-element: a corner of the element or a member of `_new_nodes`. -/
inductive Vtx
  | corner (i : Fin 4)
  | cut (k : Fin 4)
  deriving DecidableEq

/-- A sub-element: its nodes in order and its entry of `_elem_sides_on_interface` (`none` for -1). -/
structure Sub where
  verts : List Vtx
  iface : Option Nat
  deriving DecidableEq

/-- A member of `_new_nodes`: on side `side`, at the fraction found on side `xiSide`, measured from the second end of the side if `fromEnd`
(level_set_intersection.cpp:931-942, 1066-1076). Its bounding nodes are the ends of `side`. -/
structure NewNode where
  side : Fin 4
  xiSide : Fin 4
  fromEnd : Bool
  deriving DecidableEq

/-- Result of `init` (members of the class). -/
structure Cut where
  mode : Mode
  pos : List Sub
  neg : List Sub
  newNodes : List NewNode
  hanging : List (Fin 4)
  onPos : Bool
  onNeg : Bool
  deriving DecidableEq

/-- `_elem` itself as the only sub-element; `_elem_sides_on_interface[_elem]` as given. -/
def whole (side : Option Nat) : Sub := { verts := [.corner 0, .corner 1, .corner 2, .corner 3], iface := side }

/-- The loop of the case of two intersections (level_set_intersection.cpp:766-803), with the values of `_mode`, `ref_side` and `ref_node` carried along. -/
def mode2 (side node : Fin 4 → Bool) : List (Fin 4) → Mode × Nat × Nat → Mode × Nat × Nat
  | [], m => m
  | i :: is, (m, rs, rn) =>
    if side i && side (i + 1) then (.adjacentEdges, i.val, rn)
    else if side i && side (i + 2) then (.oppositeEdges, i.val, rn)
    else if node i && node (i + 2) then (.oppositeNodes, rs, i.val)
    else if node i && side (i + 1) then mode2 side node is (.nodeAndEdge, i.val + 1, i.val)
    else if node i && side (i + 2) then mode2 side node is (.nodeAndEdge, i.val + 2, i.val)
    else mode2 side node is (m, rs, rn)

/-- The loop of the case of three intersections (level_set_intersection.cpp:810-820). -/
def mode3 (side node : Fin 4 → Bool) : List (Fin 4) → Mode × Nat × Nat → Mode × Nat × Nat
  | [], m => m
  | i :: is, m => if node i && side (i + 1) && side (i + 2) then (.nodeAndTwoEdges, i.val + 1, i.val) else mode3 side node is m

/-- `n_intersection` (level_set_intersection.cpp:722-743). -/
def nHits (side node : Fin 4 → Bool) : Nat :=
  ([0, 1, 2, 3].foldl (fun n i => n + (side i).toNat) 0) + ([0, 1, 2, 3].foldl (fun n i => n + (node i).toNat) 0)

/-- The choice of `_mode`, `ref_side`, `ref_node` (level_set_intersection.cpp:760-865); `midSame` is `mid_phi * v0 > 0.`.  The `assert(false)` of the default case
is compiled out in optimized builds and then leaves `_mode` at NO_INTERSECTION, which ends in `libmesh_error` at 1579; the model follows that build. -/
def chooseMode (side node : Fin 4 → Bool) (midSame : Bool) : Mode × Nat × Nat :=
  match nHits side node with
  | 2 => mode2 side node [0, 1, 2, 3] (.noIntersection, 0, 0)
  | 3 => mode3 side node [0, 1, 2, 3] (.noIntersection, 0, 0)
  | 4 => if side 0 && side 1 && side 2 && side 3 then (.twoAdjacentEdges, if midSame then 0 else 1, 0) else (.noIntersection, 0, 0)
  | _ => (.noIntersection, 0, 0)

/-- `k % n_nodes`. -/
def m4 (k : Nat) : Fin 4 := ⟨k % 4, Nat.mod_lt _ (by decide)⟩

/-- New nodes, sub-elements and their sides for a mode (level_set_intersection.cpp:924-1581). `positive i` is `phi > 0.` at corner `i`.
`none` is `libmesh_error()` (1276, 1579). The order of `pos`, `neg` is the order of the push_back calls. -/
def build (mode : Mode) (rs rn : Nat) (positive : Fin 4 → Bool) : Option Cut :=
  let refPos := match mode with
    | .adjacentEdges | .oppositeEdges | .nodeAndEdge | .twoAdjacentEdges | .nodeAndTwoEdges => positive (m4 rs)
    | _ => positive (m4 (rn + 1))
  let c (k : Nat) : Vtx := .corner (m4 k)
  let n (k : Fin 4) : Vtx := .cut k
  let nd (k : Nat) : NewNode := { side := m4 k, xiSide := m4 k, fromEnd := false }
  let mk (nodes : List NewNode) (hang : List (Fin 4)) (a b : List Sub) : Option Cut :=
    some { mode := mode, pos := if refPos then a else b, neg := if refPos then b else a, newNodes := nodes, hanging := hang, onPos := false, onNeg := false }
  match mode with
  | .oppositeEdges =>                                                                    -- 971-1044
    let e1 : Sub := ⟨[n 0, c (rs + 1), c (rs + 2), n 1], some 3⟩
    let e2 : Sub := ⟨[n 1, c (rs + 3), c rs, n 0], some 3⟩
    mk [nd rs, nd (rs + 2)] [] [e2] [e1]
  | .adjacentEdges =>                                                                    -- 1046-1162
    let e1 : Sub := ⟨[n 0, c (rs + 1), n 1], some 2⟩
    let e2 : Sub := ⟨[n 0, n 2, c (rs + 3), c rs], none⟩
    let e3 : Sub := ⟨[n 1, c (rs + 2), n 2, n 0], some 3⟩
    mk [nd rs, nd (rs + 1), { side := m4 (rs + 2), xiSide := m4 rs, fromEnd := true }] [2] [e2, e3] [e1]
  | .nodeAndEdge =>                                                                      -- 1166-1279
    if rs - rn = 1 then
      let e1 : Sub := ⟨[c rn, c (rn + 1), n 0], some 2⟩
      let e2 : Sub := ⟨[n 0, c (rs + 1), c (rs + 2), c rn], some 3⟩
      mk [nd rs] [] [e1] [e2]
    else if rs - rn = 2 then
      let e1 : Sub := ⟨[c rn, n 0, c (rn + 3)], some 0⟩
      let e2 : Sub := ⟨[c rn, c (rn + 1), c (rn + 2), n 0], some 3⟩
      mk [nd rs] [] [e2] [e1]
    else none
  | .oppositeNodes =>                                                                    -- 1282-1335
    let e1 : Sub := ⟨[c rn, c (rn + 1), c (rn + 2)], some 2⟩
    let e2 : Sub := ⟨[c (rn + 2), c (rn + 3), c rn], some 2⟩
    mk [] [] [e1] [e2]
  | .nodeAndTwoEdges =>                                                                  -- 1338-1451
    let e1 : Sub := ⟨[c rn, c (rn + 1), n 0], some 2⟩
    let e2 : Sub := ⟨[c rn, n 1, c (rn + 3)], some 0⟩
    let e3 : Sub := ⟨[c rn, n 0, c (rn + 2)], some 0⟩
    let e4 : Sub := ⟨[c rn, c (rn + 2), n 1], some 2⟩
    mk [nd rs, nd (rs + 1)] [] [e1, e2] [e3, e4]
  | .twoAdjacentEdges =>                                                                 -- 1453-1575
    let e1 : Sub := ⟨[n 0, c (rs + 1), n 1], some 2⟩
    let e2 : Sub := ⟨[n 3, n 2, c (rs + 3)], some 0⟩
    let e3 : Sub := ⟨[c rs, n 0, n 2, n 3], some 2⟩
    let e4 : Sub := ⟨[n 0, n 1, c (rs + 2), n 2], some 0⟩
    mk [nd rs, nd (rs + 1), nd (rs + 2), nd (rs + 3)] [] [e3, e4] [e1, e2]
  | _ => none

/-! ### with the values of the level set -/

/-- `node_intersection[i]` (level_set_intersection.cpp:695-696). -/
noncomputable def nodeHit (tol : ℝ) (v : Fin 4 → ℝ) (i : Fin 4) : Bool := decide (|v i| < tol)

/-- `side_intersection[i].first` (level_set_intersection.cpp:697-716). -/
noncomputable def sideHit (tol : ℝ) (v : Fin 4 → ℝ) (i : Fin 4) : Bool :=
  !nodeHit tol v i && decide (|v i| > tol) && decide (|v (i + 1)| > tol) && decide (v i * v (i + 1) < 0)

/-- `_find_quad4_intersections` (level_set_intersection.cpp:657-1581); `mid` is the value at the centroid. -/
noncomputable def quad4 (tol : ℝ) (v : Fin 4 → ℝ) (mid : ℝ) : Option Cut :=
  let m := chooseMode (sideHit tol v) (nodeHit tol v) (decide (mid * v 0 > 0))
  build m.1 m.2.1 m.2.2 fun i => decide (v i > 0)

/-- `min_val`, `max_val` (level_set_intersection.cpp:336-361). -/
noncomputable def minVal (l : List ℝ) : ℝ := l.foldl (fun m x => if m > x then x else m) 1000000000000
/-- See `minVal`. -/
noncomputable def maxVal (l : List ℝ) : ℝ := l.foldl (fun m x => if m < x then x else m) (-1000000000000)

/-- Values at all nodes: the four corners and, for a QUAD9, the other five. -/
noncomputable def nodeVals (v : Fin 4 → ℝ) (extra : List ℝ) : List ℝ := [v 0, v 1, v 2, v 3] ++ extra

/-- `n_node_intersection`: corners with `fabs(val) <= _tol` (level_set_intersection.cpp:349-358). -/
noncomputable def nOnSet (tol : ℝ) (v : Fin 4 → ℝ) : Nat := ([0, 1, 2, 3].filter fun i => decide (|v i| ≤ tol)).length

/-- First side with both ends on the level set (level_set_intersection.cpp:442-453). -/
noncomputable def colinearSide (tol : ℝ) (v : Fin 4 → ℝ) : Option (Fin 4) :=
  [0, 1, 2, 3].find? fun i => decide (|v i| ≤ tol) && decide (|v (i + 1)| ≤ tol)

/-- `sign_change` (level_set_intersection.cpp:405-409). -/
noncomputable def signChange (tol mn mx : ℝ) : Bool :=
  let v1 := if |mn| < tol then 0 else mn
  let v2 := if |mx| < tol then 0 else mx
  decide (v1 * v2 < 0)

/-- `_init_on_first_order_ref_elem` (level_set_intersection.cpp:311-521). In the COLINEAR_EDGE case neither list is filled if all values equal the tolerance
exactly (465-468). -/
noncomputable def initElem (tol : ℝ) (v : Fin 4 → ℝ) (extra : List ℝ) (mid : ℝ) : Option Cut :=
  let mn := minVal (nodeVals v extra)
  let mx := maxVal (nodeVals v extra)
  if mn > tol then some ⟨.noIntersection, [whole none], [], [], [], true, false⟩
  else if mx < -tol then some ⟨.noIntersection, [], [whole none], [], [], false, true⟩
  else if nOnSet tol v = 1 && !signChange tol mn mx then
    if mn ≤ tol ∧ mx ≤ tol then some ⟨.throughNode, [], [whole none], [], [], false, false⟩
    else some ⟨.throughNode, [whole none], [], [], [], false, false⟩
  else match colinearSide tol v with
    | some i =>
      some ⟨.colinearEdge, if mx > tol then [whole (some i.val)] else [],
        if mx > tol then [] else if mn < tol then [whole (some i.val)] else [], [], [], false, false⟩
    | none => quad4 tol v mid

/-- `init` for an element with corners `P` and a level set function, QUAD4: the values are those of the function at the nodes and at the centroid
(level_set_intersection.cpp:245-278, 345-350, 848-851). -/
noncomputable def initQuad (phi : Pt → ℝ) (tol : ℝ) (P : Fin 4 → Pt) : Option Cut :=
  initElem tol (fun i => phi (P i)) [] (phi ((1 / 4 : ℝ) • (P 0 + P 1 + P 2 + P 3)))

/-- `if_elem_has_positive_phi_region` (level_set_intersection.cpp:126-131). -/
def hasPos (c : Cut) : Bool := !c.onNeg
/-- `if_elem_has_negative_phi_region` (level_set_intersection.cpp:117-122). -/
def hasNeg (c : Cut) : Bool := !c.onPos

/-- `if_intersection_through_elem` (level_set_intersection.cpp:146-154). -/
def through (c : Cut) : Bool :=
  match c.mode with
  | .oppositeEdges | .adjacentEdges | .oppositeNodes | .nodeAndEdge | .nodeAndTwoEdges | .twoAdjacentEdges => true
  | _ => false

/-! ### geometry -/

/-- Fraction at which side `i` is cut, initially 0: `side_intersection[i].second` (level_set_intersection.cpp:674-675, 709-714). -/
noncomputable def xi (phi : Pt → ℝ) (tol : ℝ) (maxIters : Nat) (P : Fin 4 → Pt) (i : Fin 4) : ℝ :=
  if sideHit tol (fun i => phi (P i)) i then edgeSearch phi tol maxIters (P i) (P (i + 1)) else 0

/-- Position of a new node from the fractions on the sides (level_set_intersection.cpp:933, 976, 1052, 1067, 1343, 1460). -/
noncomputable def nodePos (P : Fin 4 → Pt) (x : Fin 4 → ℝ) (n : NewNode) : Pt :=
  if n.fromEnd then P (n.side + 1) + x n.xiSide • (P n.side - P (n.side + 1)) else P n.side + x n.xiSide • (P (n.side + 1) - P n.side)

/-- `side_nondim_points[i].first` (level_set_intersection.cpp:625-640). -/
def refCorner : Fin 4 → Pt
  | 0 => ![-1, -1]
  | 1 => ![1, -1]
  | 2 => ![1, 1]
  | 3 => ![-1, 1]

/-- `_node_local_coords` of a new node (level_set_intersection.cpp:940-942, 983-985, 1059-1061, 1074-1076): the same expression on the reference square. -/
noncomputable def nodeLocal (x : Fin 4 → ℝ) (n : NewNode) : Pt := nodePos refCorner x n

/-- Position of a vertex of a sub-element. -/
noncomputable def vtxPos (P : Fin 4 → Pt) (x : Fin 4 → ℝ) (c : Cut) : Vtx → Pt
  | .corner i => P i
  | .cut k => match c.newNodes[k.val]? with
    | some n => nodePos P x n
    | none => 0

/-- Corner points of a sub-element. -/
noncomputable def subPts (P : Fin 4 → Pt) (x : Fin 4 → ℝ) (c : Cut) (s : Sub) : List Pt := s.verts.map (vtxPos P x c)

/-- Twice the area enclosed by a closed polygon, with sign (part of `Elem::volume` for planar TRI3 and QUAD4, libMesh). -/
def cross (a b : Pt) : ℝ := a 0 * b 1 - b 0 * a 1

/-- `Elem::volume()` of a planar TRI3 or QUAD4 (libMesh): half the cross product of two edges, or of the diagonals. Convex elements only. -/
noncomputable def volume : List Pt → ℝ
  | [a, b, c] => |cross (b - a) (c - a)| / 2
  | [a, b, c, d] => |cross (c - a) (d - b)| / 2
  | _ => 0

/-- `get_positive_phi_volume_fraction` (level_set_intersection.cpp:159-175). -/
noncomputable def positiveFraction (P : Fin 4 → Pt) (x : Fin 4 → ℝ) (c : Cut) : ℝ :=
  (c.pos.foldl (fun v s => v + volume (subPts P x c s)) 0) / volume [P 0, P 1, P 2, P 3]

/-- `get_corner_nodes_on_negative_phi` (level_set_intersection.cpp:543-578). -/
noncomputable def negativeCorners (v : Fin 4 → ℝ) : List (Fin 4) := [0, 1, 2, 3].filter fun i => decide (v i < 0)

/-- `get_material_sides_without_intersection` (level_set_intersection.cpp:1708-1742), QUAD4. -/
noncomputable def materialSides (tol : ℝ) (v : Fin 4 → ℝ) : List (Fin 4) :=
  [0, 1, 2, 3].filter fun i => (decide (|v i| ≤ tol) || decide (v i > tol)) && (decide (|v (i + 1)| ≤ tol) || decide (v (i + 1) > tol))

/-- Ids given to sub-elements (level_set_intersection.cpp:514-518, `_max_elem_divs` = 4). -/
def subElemIds (maxElem eid nNew : Nat) : List Nat := (List.range nNew).map fun i => maxElem + eid * 4 + i

/-- Ids given to the new nodes of one element (level_set_intersection.cpp:914-936 and the later `set_id` calls). -/
def newNodeIds (maxNode nNew : Nat) : List Nat := (List.range nNew).map fun i => maxNode + 1 + i

end Verif.CutCell
