import Mathlib.Data.Real.Sqrt
import Mathlib.Algebra.BigOperators.Fin
import Mathlib.Data.Fin.VecNotation

/-!
Model of the geometric element of `/repo/src/mesh/geom_elem.cpp` and of the transformations of degrees of freedom between the element frame and the global frame
(`/repo/src/elasticity/structural_element_base.cpp`).  Reals instead of doubles; a division by a zero norm is the outcome `nan`.  Debug-only assertions are not executed.
-/

namespace Verif.GeomElem

/-- `libMesh::Point` (used in geom_elem.cpp:420). -/
abbrev V3 := Fin 3 → ℝ

/-- `Point::cross` (used in geom_elem.cpp:423, 426, 473, 474). -/
def cross (u v : V3) : V3 := ![u 1 * v 2 - u 2 * v 1, u 2 * v 0 - u 0 * v 2, u 0 * v 1 - u 1 * v 0]

/-- `Point::norm` (used in geom_elem.cpp:421-426). -/
noncomputable def norm (v : V3) : ℝ := Real.sqrt (v 0 * v 0 + v 1 * v 1 + v 2 * v 2)

open Classical in
/-- `v /= v.norm()` (geom_elem.cpp:421, 425, 426, 471-474); `none` is the division by zero. -/
noncomputable def unit (v : V3) : Option V3 := if norm v = 0 then none else some fun i => v i / norm v

/-- Columns `v1`, `v2`, `v3` of `_T_mat` (geom_elem.cpp:443-447, 496-500): `T i j` is row `i`, column `j`. -/
def tmat (v1 v2 v3 : V3) : Fin 3 → Fin 3 → ℝ := fun i j => match j with | 0 => v1 i | 1 => v2 i | 2 => v3 i

/-- Axes of a line element (geom_elem.cpp:420-447): local x along the first two nodes, local z normal to x and the orientation vector. -/
noncomputable def frame1 (p0 p1 y : V3) : Option (Fin 3 → Fin 3 → ℝ) :=
  (unit fun i => p1 i - p0 i).bind fun v1 => (unit (cross v1 y)).bind fun v3 => (unit (cross v3 v1)).bind fun v2 => some (tmat v1 v2 v3)

/-- Axes of a surface element (geom_elem.cpp:470-500). -/
noncomputable def frame2 (p0 p1 p2 : V3) : Option (Fin 3 → Fin 3 → ℝ) :=
  (unit fun i => p1 i - p0 i).bind fun v1 => (unit fun i => p2 i - p0 i).bind fun v2 => (unit (cross v1 v2)).bind fun v3 => (unit (cross v3 v1)).bind fun v2 => some (tmat v1 v2 v3)

/-- `(*_local_nodes[i])(j) += _T_mat(k,j)*p(k)` with `p` relative to node 0 (geom_elem.cpp:450-456, 503-509). -/
def localNode (T : Fin 3 → Fin 3 → ℝ) (pts : Nat → V3) (i : Nat) : V3 := fun j => ∑ k, T k j * (pts i k - pts 0 k)

/-- State of the object after `init`: no local element, NaN coordinates, an error, or a local element with its transformation and the surface normal (2D only). -/
inductive Outcome where
  | direct
  | nan
  | error
  | loc (T : Fin 3 → Fin 3 → ℝ) (nodes : Nat → V3) (normal : Option V3)

/-- Default orientation vector when none has been given (geom_elem.cpp:403-410). -/
noncomputable def defaultY (p0 p1 : V3) : V3 := ![p1 0 - p0 0 + 1, p1 1 - p0 1 - 5 / 8, p1 2 - p0 2 + 11 / 40]

/-- Turn an optional frame into the outcome of the initialisation (NaN when a norm was zero). -/
def ofFrame (pts : Nat → V3) (n : V3 → Option V3) : Option (Fin 3 → Fin 3 → ℝ) → Outcome
  | none => .nan
  | some T => .loc T (localNode T pts) (n fun i => T i 2)

/-- `_init_local_elem_1d` (geom_elem.cpp:387-457): `y` is the vector of `set_local_y_vector`, if any. -/
noncomputable def init1 (pts : Nat → V3) (y : Option V3) (bending : Bool) : Outcome :=
  match y, bending with
  | some y, _ => ofFrame pts (fun _ => none) (frame1 (pts 0) (pts 1) y)
  | none, false => ofFrame pts (fun _ => none) (frame1 (pts 0) (pts 1) (defaultY (pts 0) (pts 1)))
  | none, true => .error

/-- `_init_local_elem_2d` (geom_elem.cpp:460-511); the surface normal is the third axis (477-479). -/
noncomputable def init2 (pts : Nat → V3) : Outcome := ofFrame pts some (frame2 (pts 0) (pts 1) (pts 2))

open Classical in
/-- `_init_local_elem` (geom_elem.cpp:330-384): a line element needs a local element when some node leaves the line of constant y and z, a surface element when some node leaves the plane of
constant z; solids never. -/
noncomputable def init (dim n : Nat) (pts : Nat → V3) (y : Option V3) (bending : Bool) : Outcome :=
  match dim with
  | 1 => if ∃ i, 1 ≤ i ∧ i < n ∧ (|pts 0 1 - pts i 1| ≠ 0 ∨ |pts 0 2 - pts i 2| ≠ 0) then init1 pts y bending else .direct
  | 2 => if ∃ i, 1 ≤ i ∧ i < n ∧ |pts 0 2 - pts i 2| ≠ 0 then init2 pts else .direct
  | 3 => .direct
  | _ => .error

/-- `transform_vector_to_global_coordinate` (geom_elem.cpp:264-277, 298-306). -/
def toGlobalVec (T : Fin 3 → Fin 3 → ℝ) (v : V3) : V3 := fun j => ∑ k, T j k * v k

/-- `transform_vector_to_local_coordinate` (geom_elem.cpp:281-294, 309-317). -/
def toLocalVec (T : Fin 3 → Fin 3 → ℝ) (v : V3) : V3 := fun j => ∑ k, T k j * v k

/-- `transform_point_to_global_coordinate` (geom_elem.cpp:244-260). -/
def toGlobalPt (T : Fin 3 → Fin 3 → ℝ) (p0 v : V3) : V3 := fun j => toGlobalVec T v j + p0 j

/-- `external_side_loads_for_quadrature_elem` (geom_elem.cpp:181-211): `ids s` are the boundary ids of side `s`, `bc` the multimap in iteration order; a side is a key of the result only when a load
is pushed for it. -/
def sideLoads {L : Type} (nSides : Nat) (ids : Nat → List Nat) (bc : List (Nat × L)) : List (Nat × List L) :=
  ((List.range nSides).map fun s => (s, (ids s).flatMap fun b => (bc.filter fun e => e.1 == b).map fun e => e.2)).filter fun e => !e.2.isEmpty

/-! ### Degrees of freedom

An element vector is indexed by (variable, node): entry `j*n_dofs+i` is variable `j < 6` of node `i`.  The variable is written as (translation or rotation, component).  -/

/-- Index of a degree of freedom: `(false, j, i)` is the translation `j` of node `i` (row `j*n_dofs+i`), `(true, j, i)` the rotation `j` (row `(j+3)*n_dofs+i`). -/
abbrev Dof (n : Nat) := Bool × Fin 3 × Fin n

/-- Row of the flat element vector (structural_element_base.cpp:1592-1593: `j*n_dofs+i`, `(j+3)*n_dofs+i`). -/
def Dof.row {n : Nat} (d : Dof n) : Nat := (d.2.1.val + (if d.1 then 3 else 0)) * n + d.2.2.val

/-- The matrix `mat` of structural_element_base.cpp:1589-1594, 1625-1630, 1662-1667. -/
def dofMat {n : Nat} (T : Fin 3 → Fin 3 → ℝ) (a b : Dof n) : ℝ := if a.1 = b.1 ∧ a.2.2 = b.2.2 then T a.2.1 b.2.1 else 0

/-- `transform_vector_to_global_system` (structural_element_base.cpp:1641-1674); `none` when the element has no local element (`use_local_elem()` false). -/
def vecToGlobal {n : Nat} (T : Option (Fin 3 → Fin 3 → ℝ)) (f : Dof n → ℝ) : Dof n → ℝ :=
  match T with | some T => fun a => ∑ b, dofMat T a b * f b | none => f

/-- `transform_vector_to_local_system` (structural_element_base.cpp:1605-1637). -/
def vecToLocal {n : Nat} (T : Option (Fin 3 → Fin 3 → ℝ)) (u : Dof n → ℝ) : Dof n → ℝ :=
  match T with | some T => fun a => ∑ b, dofMat T b a * u b | none => u

/-- `transform_matrix_to_global_system` (structural_element_base.cpp:1565-1601): `mat * local_mat * mat^T`. -/
def matToGlobal {n : Nat} (T : Option (Fin 3 → Fin 3 → ℝ)) (J : Dof n → Dof n → ℝ) : Dof n → Dof n → ℝ :=
  match T with | some T => fun a b => ∑ d, (∑ c, dofMat T a c * J c d) * dofMat T b d | none => J

/-- `_elem.use_local_elem()` and `T_matrix()` (geom_elem.cpp:234-241, 321-326) of an initialised element. -/
def Outcome.tMatrix : Outcome → Option (Fin 3 → Fin 3 → ℝ)
  | .loc T _ _ => some T
  | _ => none

/-- What an element whose residual is computed in its own frame reports to the assembly (structural_element_base.cpp:56-81 `set_solution`, 336-344): the solution is taken to the local frame, the
residual and Jacobian back to the global frame. -/
def globalRes {n : Nat} (T : Option (Fin 3 → Fin 3 → ℝ)) (R : (Dof n → ℝ) → Dof n → ℝ) (u : Dof n → ℝ) : Dof n → ℝ := vecToGlobal T (R (vecToLocal T u))

/-- `linearized_internal_residual` (structural_element_base.cpp:223-252): the matrix returned by the residual routine, already in the global frame, times the perturbation in the LOCAL frame.  The sizes
of the work arrays (`n_phi = f.size()`, 234-241) are taken to be right. -/
def linearizedRes {n : Nat} (T : Option (Fin 3 → Fin 3 → ℝ)) (Jlocal : Dof n → Dof n → ℝ) (du : Dof n → ℝ) : Dof n → ℝ :=
  fun a => ∑ b, matToGlobal T Jlocal a b * vecToLocal T du b

/-- Sizes used by `linearized_internal_residual` and `linearized_inertial_residual` (structural_element_base.cpp:233-241, 370-380) for a residual with `nf` entries: the work vector has `6 * nf`. -/
def linearizedWorkSize (nf : Nat) : Nat := 6 * nf

end Verif.GeomElem
