import Verif.Model.Beam
import Verif.Model.Solid
/-
  Stress recovery: `calculate_stress` of the shell, beam and solid elements (src/elasticity/structural_element_2d.cpp, structural_element_1d.cpp, solid_element_3d.cpp).  Reals stand for double.
  Section points that the code numbers `qp_loc_index * n_added_qp + section_qp_index` are a list in that order.
-/
namespace Verif.StressRec
open Verif.GeomElem
open Verif.Shell (shape Sqp app mv mm strainMem vkStrain matX matY vkMat Blin Bx By Bvk)
open Verif.Beam (Bqp)

variable {n : Nat} {X : Type}

/-- Thermal load at a point: `alpha`, `temp`, `ref_t` (or their derivatives). -/
structure Heat where
  alpha : ℝ
  temp : ℝ
  ref : ℝ

/-! ### Shell -/

/-- Section data at a quadrature point of a surface element: `material_mat`, `h`, `off` (or their derivatives). -/
structure Plate where
  C : Fin 3 → Fin 3 → ℝ
  h : ℝ
  off : ℝ

/-- `qp_loc[..](2)` (structural_element_2d.cpp:327-333). -/
def face : Fin 2 → ℝ := ![1, -1]
/-- `qp_loc[qp](2) * z/2.+z_off` (structural_element_2d.cpp:509, 653). -/
noncomputable def zAt (P : Plate) (s : Fin 2) : ℝ := face s * P.h / 2 + P.off

/-- Thermal strain subtracted from components 0 and 1 (structural_element_2d.cpp:480-486). -/
def thermal3 (H : Option Heat) : Fin 3 → ℝ :=
  match H with | some h => ![h.alpha * (h.temp - h.ref), h.alpha * (h.temp - h.ref), 0] | none => fun _ => 0

/-- `strain` (structural_element_2d.cpp:464-516); `Bz z` is the bending operator for the offset `z`. -/
noncomputable def strain (nl bend : Bool) (q : Sqp n X) (Bz : ℝ → Fin 3 → Dof n → ℝ) (P : Plate) (H : Option Heat) (s : Fin 2) (u : Dof n → ℝ) (r : Fin 3) : ℝ :=
  strainMem nl q u r - thermal3 H r + if bend then (if nl then vkStrain q u r else 0) + app (Bz (zAt P s)) u r else 0

/-- `stress` (structural_element_2d.cpp:519). -/
noncomputable def stress (nl bend : Bool) (q : Sqp n X) (Bz : ℝ → Fin 3 → Dof n → ℝ) (P : Plate) (H : Option Heat) (s : Fin 2) (u : Dof n → ℝ) : Fin 3 → ℝ := mv P.C (strain nl bend q Bz P H s u)

/-- Slots of the six-component vectors (structural_element_2d.cpp:526-531, 687-692). -/
def to6 (v : Fin 3 → ℝ) : Fin 6 → ℝ := ![v 0, v 1, 0, v 2, 0, 0]

/-- `dstrain_dX` (structural_element_2d.cpp:557-579). -/
noncomputable def dstrain (nl bend : Bool) (q : Sqp n X) (Bz : ℝ → Fin 3 → Dof n → ℝ) (P : Plate) (s : Fin 2) (u : Dof n → ℝ) (r : Fin 3) (a : Dof n) : ℝ :=
  Blin q r a + (if nl then (∑ k, matX q u r k * Bx q k a) + ∑ k, matY q u r k * By q k a else 0)
  + if bend then (if nl then ∑ k, vkMat q u r k * Bvk q k a else 0) + Bz (zAt P s) r a else 0

/-- `dstress_dX` (structural_element_2d.cpp:582). -/
noncomputable def dstress (nl bend : Bool) (q : Sqp n X) (Bz : ℝ → Fin 3 → Dof n → ℝ) (P : Plate) (s : Fin 2) (u : Dof n → ℝ) (r : Fin 3) (a : Dof n) : ℝ := ∑ t, P.C r t * dstrain nl bend q Bz P s u t a

/-- Rows transformed to the global system and put in slots 0, 1, 3 (structural_element_2d.cpp:586-608). -/
def rows6 (T : Option (Fin 3 → Fin 3 → ℝ)) (M : Fin 3 → Dof n → ℝ) (r : Fin 6) (a : Dof n) : ℝ := to6 (fun k => vecToGlobal T (M k) a) r

/-- What is stored for one section point. -/
structure Data (n : Nat) (X : Type) where
  x : X
  stress : Fin 6 → ℝ
  strain : Fin 6 → ℝ
  weight : ℝ

/-- Element: quadrature points with bending operator, section data and thermal load. -/
abbrev Shells (n : Nat) (X : Type) := List (Sqp n X × (ℝ → Fin 3 → Dof n → ℝ) × Plate × Option Heat)

/-- `calculate_stress(false, nullptr, ...)` (structural_element_2d.cpp:307-549): two points per quadrature point, `JxW` halved (340). -/
noncomputable def recover (nl bend : Bool) (e : Shells n X) (u : Dof n → ℝ) : List (Data n X) :=
  e.flatMap fun p => [0, 1].map fun s => ⟨p.1.x, to6 (stress nl bend p.1 p.2.1 p.2.2.1 p.2.2.2 s u), to6 (strain nl bend p.1 p.2.1 p.2.2.1 p.2.2.2 s u), p.1.JxW / 2⟩

/-- `set_derivatives(dstress_dX_3D, dstrain_dX_3D)` at every section point (structural_element_2d.cpp:555-611). -/
noncomputable def recoverDeriv (T : Option (Fin 3 → Fin 3 → ℝ)) (nl bend : Bool) (e : Shells n X) (u : Dof n → ℝ) : List ((Fin 6 → Dof n → ℝ) × (Fin 6 → Dof n → ℝ)) :=
  e.flatMap fun p => [0, 1].map fun s => (rows6 T (dstress nl bend p.1 p.2.1 p.2.2.1 s u), rows6 T (dstrain nl bend p.1 p.2.1 p.2.2.1 s u))

/-- Derivative data of one point: `mat_stiff.derivative`, `h.derivative`, `h_off.derivative`, `alpha`, `temperature`, `ref_temperature` derivatives. -/
structure PlateDot where
  P : Plate
  H : Heat

/-- `dstrain_dp` before the state sensitivity is added (structural_element_2d.cpp:628-660). -/
noncomputable def explicitStrain (bend : Bool) (Bz : ℝ → Fin 3 → Dof n → ℝ) (H : Option Heat) (D : PlateDot) (s : Fin 2) (u : Dof n → ℝ) (r : Fin 3) : ℝ :=
  (match H with
    | some h => ![-(h.alpha * (D.H.temp - D.H.ref) + D.H.alpha * (h.temp - h.ref)), -(h.alpha * (D.H.temp - D.H.ref) + D.H.alpha * (h.temp - h.ref)), 0] r
    | none => 0)
  + if bend then app (Bz (zAt D.P s)) u r else 0

/-- `dstrain_dp` (structural_element_2d.cpp:684); `v` is `_local_sol_sens`. -/
noncomputable def strainDot (nl bend : Bool) (q : Sqp n X) (Bz : ℝ → Fin 3 → Dof n → ℝ) (P : Plate) (H : Option Heat) (D : PlateDot) (s : Fin 2) (u v : Dof n → ℝ) (r : Fin 3) : ℝ :=
  explicitStrain bend Bz H D s u r + ∑ a, dstrain nl bend q Bz P s u r a * v a
/-- `dstress_dp` (structural_element_2d.cpp:664-683). -/
noncomputable def stressDot (nl bend : Bool) (q : Sqp n X) (Bz : ℝ → Fin 3 → Dof n → ℝ) (P : Plate) (H : Option Heat) (D : PlateDot) (s : Fin 2) (u v : Dof n → ℝ) (r : Fin 3) : ℝ :=
  mv P.C (explicitStrain bend Bz H D s u) r + mv D.P.C (strain nl bend q Bz P H s u) r + ∑ a, dstress nl bend q Bz P s u r a * v a

/-- `calculate_stress_boundary_velocity` (structural_element_2d.cpp:788-945): the points are those of side `s` of the element, the weight is `JxW * vn / 2`. -/
noncomputable def recoverBnd (nl bend : Bool) (vn : X → ℝ) (e : Shells n X) (u : Dof n → ℝ) : List (Data n X) :=
  e.flatMap fun p => [0, 1].map fun s => ⟨p.1.x, to6 (stress nl bend p.1 p.2.1 p.2.2.1 p.2.2.2 s u), to6 (strain nl bend p.1 p.2.1 p.2.2.1 p.2.2.2 s u), p.1.JxW * (vn p.1.x / 2)⟩

/-- `calculate_stress_temperature_derivative` (structural_element_2d.cpp:1043-1069): stress and strain derivative with respect to the nodal temperatures; `phi` are the thermal shape functions. -/
def tempDeriv {nt : Nat} (C : Fin 3 → Fin 3 → ℝ) (alpha : ℝ) (phi : Fin nt → ℝ) : (Fin 6 → Fin nt → ℝ) × (Fin 6 → Fin nt → ℝ) :=
  (fun r i => to6 (fun k => -(alpha * mv C ![1, 1, 0] k * phi i)) r, fun _ _ => 0)

/-! ### Beam -/

/-- Section data at a quadrature point of a line element: `material_mat`, `hy`, `hz`, `hy_off`, `hz_off`. -/
structure Bar where
  C : Fin 2 → Fin 2 → ℝ
  hy : ℝ
  hz : ℝ
  offy : ℝ
  offz : ℝ

/-- `qp_loc[..](1)`, `qp_loc[..](2)` (structural_element_1d.cpp:181-198). -/
def cornerY : Fin 4 → ℝ := ![1, -1, 1, -1]
def cornerZ : Fin 4 → ℝ := ![1, 1, -1, -1]
noncomputable def yAt (P : Bar) (s : Fin 4) : ℝ := cornerY s * P.hy / 2 + P.offy
noncomputable def zAtB (P : Bar) (s : Fin 4) : ℝ := cornerZ s * P.hz / 2 + P.offz

/-- Thermal strain of component 0 (structural_element_1d.cpp:332-337). -/
def thermal2 (H : Option Heat) : Fin 2 → ℝ := match H with | some h => ![h.alpha * (h.temp - h.ref), 0] | none => fun _ => 0

/-- Rows 0 of the bending operators for the offsets `y`, `z`. -/
structure BendOps (n : Nat) where
  v : ℝ → Dof n → ℝ
  w : ℝ → Dof n → ℝ

/-- An operator of two rows with row 1 empty. -/
def row0 (b : Dof n → ℝ) : Fin 2 → Dof n → ℝ := ![b, fun _ => 0]

/-- `strain` (structural_element_1d.cpp:323-376). -/
noncomputable def strainB (nl bend : Bool) (q : Bqp n X) (O : BendOps n) (P : Bar) (H : Option Heat) (s : Fin 4) (u : Dof n → ℝ) (r : Fin 2) : ℝ :=
  app (Beam.Bmem q) u r - thermal2 H r
  + if bend then (if nl then Beam.vkStrain q u r else 0) + app (row0 (O.v (yAt P s))) u r + app (row0 (O.w (zAtB P s))) u r else 0
/-- `stress` (structural_element_1d.cpp:380). -/
noncomputable def stressB (nl bend : Bool) (q : Bqp n X) (O : BendOps n) (P : Bar) (H : Option Heat) (s : Fin 4) (u : Dof n → ℝ) : Fin 2 → ℝ := mv P.C (strainB nl bend q O P H s u)

/-- `dstrain_dX` (structural_element_1d.cpp:413-433). -/
noncomputable def dstrainB (nl bend : Bool) (q : Bqp n X) (O : BendOps n) (P : Bar) (s : Fin 4) (u : Dof n → ℝ) (r : Fin 2) (a : Dof n) : ℝ :=
  Beam.Bmem q r a
  + if bend then (if nl then (∑ k, (![![Beam.dvx q u, 0], ![0, 0]] : Fin 2 → Fin 2 → ℝ) r k * Beam.Bvv q k a) + ∑ k, (![![Beam.dwx q u, 0], ![0, 0]] : Fin 2 → Fin 2 → ℝ) r k * Beam.Bww q k a else 0)
      + row0 (O.v (yAt P s)) r a + row0 (O.w (zAtB P s)) r a else 0
/-- `dstress_dX` (structural_element_1d.cpp:436). -/
noncomputable def dstressB (nl bend : Bool) (q : Bqp n X) (O : BendOps n) (P : Bar) (s : Fin 4) (u : Dof n → ℝ) (r : Fin 2) (a : Dof n) : ℝ := ∑ t, P.C r t * dstrainB nl bend q O P s u t a

/-- Only component 0 is stored (structural_element_1d.cpp:386-387, 439-444, 520-521). -/
def axial6 (v : ℝ) : Fin 6 → ℝ := ![v, 0, 0, 0, 0, 0]

abbrev Bars (n : Nat) (X : Type) := List (Bqp n X × BendOps n × Bar × Option Heat)

/-- `calculate_stress(false, nullptr, ...)` (structural_element_1d.cpp:163-405): four points per quadrature point, each with the whole `JxW`. -/
noncomputable def recoverB (nl bend : Bool) (e : Bars n X) (u : Dof n → ℝ) : List (Data n X) :=
  e.flatMap fun p => [0, 1, 2, 3].map fun s => ⟨p.1.x, axial6 (stressB nl bend p.1 p.2.1 p.2.2.1 p.2.2.2 s u 0), axial6 (strainB nl bend p.1 p.2.1 p.2.2.1 p.2.2.2 s u 0), p.1.JxW⟩

/-- `set_derivatives` (structural_element_1d.cpp:439-447). -/
noncomputable def recoverDerivB (T : Option (Fin 3 → Fin 3 → ℝ)) (nl bend : Bool) (e : Bars n X) (u : Dof n → ℝ) : List ((Fin 6 → Dof n → ℝ) × (Fin 6 → Dof n → ℝ)) :=
  e.flatMap fun p => [0, 1, 2, 3].map fun s =>
    (fun r a => axial6 (vecToGlobal T (dstressB nl bend p.1 p.2.1 p.2.2.1 s u 0) a) r, fun r a => axial6 (vecToGlobal T (dstrainB nl bend p.1 p.2.1 p.2.2.1 s u 0) a) r)

structure BarDot where
  P : Bar
  H : Heat

/-- `dstrain_dp` before the state sensitivity is added (structural_element_1d.cpp:463-494). -/
noncomputable def explicitStrainB (bend : Bool) (O : BendOps n) (H : Option Heat) (D : BarDot) (s : Fin 4) (u : Dof n → ℝ) (r : Fin 2) : ℝ :=
  (match H with
    | some h => ![-(h.alpha * (D.H.temp - D.H.ref) + D.H.alpha * (h.temp - h.ref)), 0] r
    | none => 0)
  + if bend then app (row0 (O.v (yAt D.P s))) u r + app (row0 (O.w (zAtB D.P s))) u r else 0
/-- `dstrain_dp`, `dstress_dp` (structural_element_1d.cpp:498-517). -/
noncomputable def strainDotB (nl bend : Bool) (q : Bqp n X) (O : BendOps n) (P : Bar) (H : Option Heat) (D : BarDot) (s : Fin 4) (u v : Dof n → ℝ) (r : Fin 2) : ℝ :=
  explicitStrainB bend O H D s u r + ∑ a, dstrainB nl bend q O P s u r a * v a
noncomputable def stressDotB (nl bend : Bool) (q : Bqp n X) (O : BendOps n) (P : Bar) (H : Option Heat) (D : BarDot) (s : Fin 4) (u v : Dof n → ℝ) (r : Fin 2) : ℝ :=
  mv P.C (explicitStrainB bend O H D s u) r + mv D.P.C (strainB nl bend q O P H s u) r + ∑ a, dstressB nl bend q O P s u r a * v a

/-! ### Solid -/

/-- Outcome of the solid routine. -/
inductive SolidOut (n : Nat) (X : Type) where
  | stored (d : List (Data n X))
  | unchanged
  | error

/-- `calculate_stress` of the solid element (solid_element_3d.cpp:1146-1265): no thermal strain; derivatives are an error (1260; only if there is a quadrature point); for a parameter the stored data is looked up and left alone. -/
noncomputable def recoverSolid (derivative param : Bool) (nl : Bool) (e : Solid.Elem n X) (u : Dof n → ℝ) : SolidOut n X :=
  if derivative && !e.isEmpty then .error
  else if !derivative && !param then .stored (e.map fun p => ⟨p.1.x, Solid.stress nl p.2 p.1 u, Solid.strain nl p.1 u, p.1.JxW⟩)
  else .unchanged
end Verif.StressRec
