import Verif.Model.GeomElem
/-
  Finite element data of line and surface elements in space: src/mesh/fe_base.cpp (init 63-130, init_for_side 136-206, get_xyz 227-235, get_JxW 219-224, get_phi 246-251, get_dphi 254-259,
  get_normals_for_reference_coordinate 390-395, get_normals_for_local_coordinate 398-403), src/mesh/geom_elem.cpp (init_fe 147-161, init_side_fe 164-177, transformations 244-294).
  `libMesh::FE::reinit` is the trusted map of libMesh: position, measure and gradients from the tangents of the element; a degenerate map is an error (`none`).  All variables have the type of variable 0
  (fe_base.cpp:74-79).
-/
namespace Verif.FeData
open GeomElem

/-- Shape functions, their derivatives in the reference coordinates and the weight at a quadrature point (fe_base.cpp:102-108). -/
structure Ref (n : Nat) where
  N : Fin n → ℝ
  dxi : Fin n → ℝ
  deta : Fin n → ℝ
  w : ℝ

/-- What the accessors return at one point (fe_base.cpp:219-259). -/
structure Point (n : Nat) where
  xyz : V3
  JxW : ℝ
  phi : Fin n → ℝ
  dphi : Fin n → V3

/-- Scalar product of libMesh points (used by the map of fe_base.cpp:107). -/
def ip (u v : V3) : ℝ := ∑ i, u i * v i

/-- `Σ d_i X_i`: position (`d = N`) or tangent of the map (`_fe->reinit`, fe_base.cpp:107). -/
def comb {n : Nat} (d : Fin n → ℝ) (X : Fin n → V3) : V3 := fun k => ∑ i, d i * X i k

/-- Determinant of the metric of the two tangents (`_fe->reinit` of a surface element, fe_base.cpp:107). -/
def detG (a b : V3) : ℝ := ip a a * ip b b - ip a b * ip a b

open Classical in
/-- Map of a surface element (`_fe->reinit`, fe_base.cpp:107): weight times the area of the tangents, gradients in the tangent plane by the inverse metric. -/
noncomputable def map2 {n : Nat} (X : Fin n → V3) (r : Ref n) : Option (Point n) :=
  let a := comb r.dxi X
  let b := comb r.deta X
  if detG a b = 0 then none
  else some ⟨comb r.N X, r.w * Real.sqrt (detG a b), r.N,
    fun i k => r.dxi i * ((ip b b * a k - ip a b * b k) / detG a b) + r.deta i * ((ip a a * b k - ip a b * a k) / detG a b)⟩

open Classical in
/-- Map of a line element (`_fe->reinit`, fe_base.cpp:107). -/
noncomputable def map1 {n : Nat} (X : Fin n → V3) (r : Ref n) : Option (Point n) :=
  let a := comb r.dxi X
  if ip a a = 0 then none
  else some ⟨comb r.N X, r.w * Real.sqrt (ip a a), r.N, fun i k => r.dxi i * (a k / ip a a)⟩

/-- The map for the dimension of the element (fe_base.cpp:90); solids are not modelled here. -/
noncomputable def mapAt {n : Nat} (dim : Nat) (X : Fin n → V3) (r : Ref n) : Option (Point n) :=
  match dim with
  | 1 => map1 X r
  | 2 => map2 X r
  | _ => none

/-- `init` (fe_base.cpp:63-130) of an element with the outcome `o` of `GeomElem::init` and nodes `X`: the map of the local element if there is one, with its points taken to the global frame (116-127, 231-234). -/
noncomputable def feInit {n : Nat} (dim : Nat) (o : Outcome) (X : Nat → V3) (rule : List (Ref n)) : Option (List (Point n)) :=
  match o with
  | .direct => rule.mapM (mapAt dim fun i => X i)
  | .loc T nodes _ => (rule.mapM (mapAt dim fun i => nodes i)).map (List.map fun p => { p with xyz := toGlobalPt T (X 0) p.xyz })
  | _ => none

/-- What the accessors return at one point of a side: `get_xyz`, `get_JxW`, the normal in the reference frame and the one in the frame of the element (fe_base.cpp:182-202, 390-403). -/
structure SidePoint where
  xyz : V3
  JxW : ℝ
  normal : V3
  localNormal : V3

/-- Point of the side from `a` to `b` at the reference coordinate `t` (`_fe->reinit(q_elem, s)`, fe_base.cpp:178; straight sides). -/
noncomputable def onSide (a b : V3) (t : ℝ) : V3 := fun k => (1 - t) / 2 * a k + (1 + t) / 2 * b k

open Classical in
/-- The point of a straight side of a local surface element in the plane z = 0 (`_fe->reinit(q_elem, s)`, fe_base.cpp:178): the normal is the tangent turned clockwise. -/
noncomputable def sideMap (a b : V3) (t w : ℝ) : Option SidePoint :=
  let d : V3 := fun k => b k - a k
  if ip d d = 0 then none
  else
    let n : V3 := ![d 1 / Real.sqrt (ip d d), -d 0 / Real.sqrt (ip d d), 0]
    some ⟨onSide a b t, Real.sqrt (ip d d) / 2 * w, n, n⟩

/-- `init_for_side` (fe_base.cpp:136-206) for the side from node `i` to node `j`: points and normals of a local element are taken to the global frame (183-198), otherwise kept (199-202). -/
noncomputable def feSide (o : Outcome) (X : Nat → V3) (i j : Nat) (rule : List (ℝ × ℝ)) : Option (List SidePoint) :=
  match o with
  | .direct => rule.mapM fun tw => sideMap (X i) (X j) tw.1 tw.2
  | .loc T nodes _ => (rule.mapM fun tw => sideMap (nodes i) (nodes j) tw.1 tw.2).map
      (List.map fun p => { p with xyz := toGlobalPt T (X 0) p.xyz, normal := toGlobalVec T p.localNormal })
  | _ => none

/-- TRI3: derivatives of the shape functions (libMesh, used at fe_base.cpp:107). -/
def tri3 (x y w : ℝ) : Ref 3 := ⟨![1 - x - y, x, y], ![-1, 1, 0], ![-1, 0, 1], w⟩

/-- EDGE2 (libMesh, used at fe_base.cpp:107). -/
noncomputable def edge2 (x w : ℝ) : Ref 2 := ⟨![(1 - x) / 2, (1 + x) / 2], ![-1 / 2, 1 / 2], ![0, 0], w⟩

/-- QUAD4 (libMesh, used at fe_base.cpp:107). -/
noncomputable def quad4 (x y w : ℝ) : Ref 4 :=
  ⟨![(1 - x) * (1 - y) / 4, (1 + x) * (1 - y) / 4, (1 + x) * (1 + y) / 4, (1 - x) * (1 + y) / 4],
   ![-(1 - y) / 4, (1 - y) / 4, (1 + y) / 4, -(1 + y) / 4], ![-(1 - x) / 4, -(1 + x) / 4, (1 + x) / 4, (1 - x) / 4], w⟩

end Verif.FeData
