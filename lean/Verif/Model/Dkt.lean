import Verif.Model.Shell
/-
  Discrete Kirchhoff triangle: src/elasticity/dkt_bending_operator.h.  Reals stand for double; a division by a zero norm (degenerate triangle) gives 0 here, NaN in the code.
-/
namespace Verif.Dkt
open Verif.GeomElem
open Verif.Shell (shape W TX TY)

/-- `_get_edge_length` (dkt_bending_operator.h:266-272). -/
noncomputable def len (p : Fin 3 → V3) (i j : Fin 3) : ℝ := norm fun k => p j k - p i k

/-- Vector normal to the triangle (dkt_bending_operator.h:290-299), nodes of the reference (global) element. -/
noncomputable def faceNormal (p : Fin 3 → V3) : V3 := fun k => cross (fun k => p 1 k - p 0 k) (fun k => p 2 k - p 0 k) k / norm (cross (fun k => p 1 k - p 0 k) fun k => p 2 k - p 0 k)

/-- `vec3` (dkt_bending_operator.h:303-308); `cosine = vec3(0)`, `sine = vec3(1)` (312-313). -/
noncomputable def edgeNormal (p : Fin 3 → V3) (i j : Fin 3) : V3 := fun k => cross (fun k => p j k - p i k) (faceNormal p) k / norm (cross (fun k => p j k - p i k) (faceNormal p))

/-- `l31, l12, l23` and `sin4 .. cos6` (dkt_bending_operator.h:352-358). -/
structure Geo where
  l12 : ℝ
  l23 : ℝ
  l31 : ℝ
  s4 : ℝ
  c4 : ℝ
  s5 : ℝ
  c5 : ℝ
  s6 : ℝ
  c6 : ℝ

noncomputable def geo (p : Fin 3 → V3) : Geo :=
  ⟨len p 0 1, len p 1 2, len p 2 0, edgeNormal p 1 2 1, edgeNormal p 1 2 0, edgeNormal p 2 0 1, edgeNormal p 2 0 0, edgeNormal p 0 1 1, edgeNormal p 0 1 0⟩

/-- `betax(0..2)` (dkt_bending_operator.h:345-362); `N` are the six values passed in, `N4 = N 4`, `N5 = N 5`, `N6 = N 3`. -/
noncomputable def bxW (g : Geo) (N : Fin 6 → ℝ) : Fin 3 → ℝ :=
  ![3 / 2 * (N 5 * g.s5 / g.l31 - N 3 * g.s6 / g.l12), 3 / 2 * (N 3 * g.s6 / g.l12 - N 4 * g.s4 / g.l23), 3 / 2 * (N 4 * g.s4 / g.l23 - N 5 * g.s5 / g.l31)]
/-- `betax(3..5)` (dkt_bending_operator.h:363-365). -/
noncomputable def bxTX (g : Geo) (N : Fin 6 → ℝ) : Fin 3 → ℝ :=
  ![-(3 / 4) * (N 5 * g.s5 * g.c5 + N 3 * g.s6 * g.c6), -(3 / 4) * (N 4 * g.s4 * g.c4 + N 3 * g.s6 * g.c6), -(3 / 4) * (N 5 * g.s5 * g.c5 + N 4 * g.s4 * g.c4)]
/-- `betax(6..8)` (dkt_bending_operator.h:366-368). -/
noncomputable def bxTY (g : Geo) (N : Fin 6 → ℝ) : Fin 3 → ℝ :=
  ![N 0 + N 5 * (1 / 2 * g.c5 * g.c5 - 1 / 4 * g.s5 * g.s5) + N 3 * (1 / 2 * g.c6 * g.c6 - 1 / 4 * g.s6 * g.s6),
    N 1 + N 4 * (1 / 2 * g.c4 * g.c4 - 1 / 4 * g.s4 * g.s4) + N 3 * (1 / 2 * g.c6 * g.c6 - 1 / 4 * g.s6 * g.s6),
    N 2 + N 5 * (1 / 2 * g.c5 * g.c5 - 1 / 4 * g.s5 * g.s5) + N 4 * (1 / 2 * g.c4 * g.c4 - 1 / 4 * g.s4 * g.s4)]
/-- `betay(0..2)` (dkt_bending_operator.h:370-372). -/
noncomputable def byW (g : Geo) (N : Fin 6 → ℝ) : Fin 3 → ℝ :=
  ![3 / 2 * (-N 5 * g.c5 / g.l31 + N 3 * g.c6 / g.l12), 3 / 2 * (-N 3 * g.c6 / g.l12 + N 4 * g.c4 / g.l23), 3 / 2 * (-N 4 * g.c4 / g.l23 + N 5 * g.c5 / g.l31)]
/-- `betay(3..5)` (dkt_bending_operator.h:373-375). -/
noncomputable def byTX (g : Geo) (N : Fin 6 → ℝ) : Fin 3 → ℝ :=
  ![-N 0 + N 5 * (1 / 4 * g.c5 * g.c5 - 1 / 2 * g.s5 * g.s5) + N 3 * (1 / 4 * g.c6 * g.c6 - 1 / 2 * g.s6 * g.s6),
    -N 1 + N 4 * (1 / 4 * g.c4 * g.c4 - 1 / 2 * g.s4 * g.s4) + N 3 * (1 / 4 * g.c6 * g.c6 - 1 / 2 * g.s6 * g.s6),
    -N 2 + N 5 * (1 / 4 * g.c5 * g.c5 - 1 / 2 * g.s5 * g.s5) + N 4 * (1 / 4 * g.c4 * g.c4 - 1 / 2 * g.s4 * g.s4)]
/-- `betay(6..8)` (dkt_bending_operator.h:376-378). -/
noncomputable def byTY (g : Geo) (N : Fin 6 → ℝ) (i : Fin 3) : ℝ := -1 * bxTX g N i

/-- One row: three shape functions times `z` (dkt_bending_operator.h:218-230, 233-245, 247-259). -/
def row (z : ℝ) (w tx ty : Fin 3 → ℝ) (a : Dof 3) : ℝ := shape W (fun i => w i * z) a + shape TX (fun i => tx i * z) a + shape TY (fun i => ty i * z) a

/-- `initialize_bending_strain_operator_for_z` (dkt_bending_operator.h:185-260); `Nx`, `Ny` are the first two components of `dphi` of the six-node triangle at the point. -/
noncomputable def dkt (p : Fin 3 → V3) (Nx Ny : Fin 6 → ℝ) (z : ℝ) : Fin 3 → Dof 3 → ℝ :=
  let g := geo p
  ![row z (bxW g Nx) (bxTX g Nx) (bxTY g Nx), row z (byW g Ny) (byTX g Ny) (byTY g Ny),
    row z (fun i => bxW g Ny i + byW g Nx i) (fun i => bxTX g Ny i + byTX g Nx i) fun i => bxTY g Ny i + byTY g Nx i]
end Verif.Dkt
