import Verif.Model.CutCell
import Verif.Model.LevelSetElem
/-
  Model of the search for the interface point that belongs to a point on a side next to an immersed interface:
  src/level_set/level_set_intersection.cpp `get_nearest_intersection_point` and src/level_set/level_set_boundary_velocity.cpp
  `search_nearest_interface_point`, `search_nearest_interface_point_derivative`.  QUAD4 neighbours, points of the plane (third coordinate left out).
-/
namespace Verif.Nearest
open CutCell

/-- Comparison of one point with the best so far (level_set_intersection.cpp:1768-1773, 1784-1789). -/
noncomputable def closer (p : Pt) (best : Pt × ℝ) (q : Pt) : Pt × ℝ := if norm2 (q - p) < best.2 then (q, norm2 (q - p)) else best

/-- One of the two loops (level_set_intersection.cpp:1764-1775 and 1778-1791): points whose flag is set are compared. -/
noncomputable def scan (p : Pt) (l : List (Pt × Bool)) (best : Pt × ℝ) : Pt × ℝ := l.foldl (fun b q => if q.2 then closer p b q.1 else b) best

/-- `get_nearest_intersection_point` (level_set_intersection.cpp:1745-1792). `nodes` are the entries of `_node_phi_vals` in the order of the map (addresses of the
nodes), with the flag stored in it; `news` are `_new_nodes`; `phi0` is the level set at time 0, at which they are tested whatever time `init` was given; `pt` is
the content of the output argument on entry. -/
noncomputable def nearestPoint (tol : ℝ) (phi0 : Pt → ℝ) (nodes : List (Pt × Bool)) (news : List Pt) (p pt : Pt) : Pt :=
  (scan p (news.map fun q => (q, decide (|phi0 q| ≤ tol))) (scan p nodes (pt, 1000000000000))).1

/-- The entries of `_node_phi_vals` for the corners visited in `order` (level_set_intersection.cpp:345-350). -/
noncomputable def nodeFlags (phi : Pt → ℝ) (tol : ℝ) (P : Fin 4 → Pt) (order : List (Fin 4)) : List (Pt × Bool) := order.map fun i => (P i, decide (|phi (P i)| ≤ tol))

/-- `_new_nodes` (level_set_intersection.cpp:933-937 and the later cases). -/
noncomputable def newPts (phi : Pt → ℝ) (tol : ℝ) (maxIters : Nat) (P : Fin 4 → Pt) (c : Cut) : List Pt := c.newNodes.map (nodePos P (xi phi tol maxIters P))

/-- `search_nearest_interface_point` (level_set_boundary_velocity.cpp:137-166) on the neighbour with corners `P`: the intersection is initialised at time 0, the
argument `t` is not used, and the output starts at the origin (default constructed `p2`). `none` is the `libmesh_error` of `init`. `phi t` is the level set. -/
noncomputable def searchNearest (phi : ℝ → Pt → ℝ) (tol : ℝ) (maxIters : Nat) (order : List (Fin 4)) (P : Fin 4 → Pt) (p : Pt) (_t : ℝ) : Option Pt :=
  (initQuad (phi 0) tol P).map fun c => nearestPoint tol (phi 0) (nodeFlags (phi 0) tol P order) (newPts (phi 0) tol maxIters P c) p 0

/-- `search_nearest_interface_point_derivative` (level_set_boundary_velocity.cpp:169-191): the velocity (71-116) at the point found; `grad t q` and `dphi t q` are
the gradient and the derivative with respect to the parameter of the level set. -/
noncomputable def searchRate (phi dphi : ℝ → Pt → ℝ) (grad : ℝ → Pt → Pt) (tol : ℝ) (maxIters : Nat) (order : List (Fin 4)) (P : Fin 4 → Pt) (p : Pt) (t : ℝ) :
    Option Pt :=
  (searchNearest phi tol maxIters order P p t).map fun q => LevelSetElem.bndVelocity (grad t q) (dphi t q)

end Verif.Nearest
