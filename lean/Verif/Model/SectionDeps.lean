import Verif.Model.FunctionGraph
import Verif.Model.Material
import Verif.Model.Section2D
import Verif.Model.Section1D
import Verif.Model.Shell
import Verif.Model.Beam
/-
  From the parameters of a program to the internal force of a shell or beam element and its sensitivity: the dependency query of the property cards
  (solid_2d_section_element_property_card.cpp:371-376, solid_1d_section_element_property_card.cpp:1481-1486), the section matrices built from the functions of the cards (1044-1257 and 1637-1930 of these files)
  and the early return of `internal_residual_sensitivity` (structural_element_2d.cpp:1234-1251, structural_element_1d.cpp:683-700).  Isotropic materials; beams without transverse shear.
-/
namespace Verif.SecDep
open Verif.Fn Verif.Material

/-- `operator()` and `derivative` of every `FieldFunction<Real>` for given values of all parameters (field_function_base.h:95-122). -/
structure Funcs (X : Type) where
  val : (Nat → ℝ) → Nat → X → ℝ
  der : (Nat → ℝ) → Nat → Nat → X → ℝ

/-- A section card with its material card: the functions added to each (function_set_base.h:106, solid_2d_section_element_property_card.h:168). -/
structure Card where
  own : FSet
  material : FSet

/-- `depends_on` of a function of the program (function_base.h:68-82, parameter.h:86-91). -/
def asks (h : Heap) (x p : Nat) : Bool := dependsOn h h.length x p == some true

/-- `depends_on` of a section card (solid_2d_section_element_property_card.cpp:371-376, solid_1d_section_element_property_card.cpp:1481-1486). -/
def Card.dependsOn (h : Heap) (c : Card) (p : Nat) : Bool := c.material.dependsOn (asks h) p || c.own.dependsOn (asks h) p

/-- Outcome of the cast to `FieldFunction<Real>` in `get` (function_set_base.h:70): parameters are no field functions. -/
def isField (h : Heap) (x : Nat) : Bool := match h[x]? with | some o => decide (o.kind = .func) | none => false

/-! ### Shells -/

/-- The functions a shell section is made of; `kappa` only with transverse shear. -/
structure Plate where
  h : Nat
  off : Nat
  kappa : Nat
  E : Nat
  nu : Nat

/-- Look-up of the functions (solid_2d_section_element_property_card.cpp:1044-1122, 1228-1257; isotropic_material_property_card.cpp:787-843, 938-947). -/
def Card.plate (hp : Heap) (c : Card) (shear : Bool) : Exec Plate := do
  let E ← c.material.get (isField hp) "E"
  let nu ← c.material.get (isField hp) "nu"
  let h ← c.own.get (isField hp) "h"
  let off ← c.own.get (isField hp) "off"
  let kappa ← if shear then c.own.get (isField hp) "kappa" else pure h
  pure ⟨h, off, kappa, E, nu⟩

variable {X : Type} {n : Nat}

/-- The stiffness matrices at a point (solid_2d_section_element_property_card.cpp:392-407, 446-463, 497-514). -/
noncomputable def plateSec (F : Funcs X) (ps : Bool) (P : Plate) (v : Nat → ℝ) (x : X) : Shell.Stiff :=
  let C := iso2D ps (F.val v P.E x) (F.val v P.nu x)
  ⟨Section2D.plateA (F.val v P.h x) C, Section2D.plateB (F.val v P.h x) (F.val v P.off x) C, Section2D.plateD (F.val v P.h x) (F.val v P.off x) C⟩

/-- The transverse shear stiffness at a point (solid_2d_section_element_property_card.cpp:124-134). -/
noncomputable def plateG (F : Funcs X) (P : Plate) (v : Nat → ℝ) (x : X) : Fin 2 → Fin 2 → ℝ :=
  Section2D.plateShear (F.val v P.h x) (F.val v P.kappa x) (isoShear (F.val v P.E x) (F.val v P.nu x))

/-- Their `derivative` with respect to `p` (solid_2d_section_element_property_card.cpp:410-428, 466-485, 517-536). -/
noncomputable def dPlateSec (F : Funcs X) (ps : Bool) (P : Plate) (v : Nat → ℝ) (p : Nat) (x : X) : Shell.Stiff :=
  let C := iso2D ps (F.val v P.E x) (F.val v P.nu x)
  let dC := dIso2D ps (F.val v P.E x) (F.val v P.nu x) (F.der v P.E p x) (F.der v P.nu p x)
  ⟨Section2D.dPlateA (F.val v P.h x) (F.der v P.h p x) C dC, Section2D.dPlateB (F.val v P.h x) (F.der v P.h p x) (F.val v P.off x) (F.der v P.off p x) C dC,
    Section2D.dPlateD (F.val v P.h x) (F.der v P.h p x) (F.val v P.off x) (F.der v P.off p x) C dC⟩

/-- `derivative` of the transverse shear stiffness (solid_2d_section_element_property_card.cpp:136-149). -/
noncomputable def dPlateG (F : Funcs X) (P : Plate) (v : Nat → ℝ) (p : Nat) (x : X) : Fin 2 → Fin 2 → ℝ :=
  Section2D.dPlateShear (F.val v P.h x) (F.der v P.h p x) (F.val v P.kappa x) (F.der v P.kappa p x) (isoShear (F.val v P.E x) (F.val v P.nu x))
    (dIsoShear (F.val v P.E x) (F.val v P.nu x) (F.der v P.E p x) (F.der v P.nu p x))

/-- The element with the section stiffness for given parameter values. -/
noncomputable def plateElem (F : Funcs X) (ps : Bool) (P : Plate) (v : Nat → ℝ) (qs : List (Shell.Sqp n X)) (ss : List (Shell.ShearQp n X)) : Shell.Elem n X :=
  ⟨qs.map fun q => (q, plateSec F ps P v q.x), ss.map fun q => (q, plateG F P v q.x)⟩

/-- `internal_residual` of a shell (structural_element_2d.cpp:1076-1227) for given parameter values. -/
noncomputable def plateForce (hp : Heap) (F : Funcs X) (c : Card) (ps : Bool) (T : Option (Fin 3 → Fin 3 → ℝ)) (nl bend : Bool) (qs : List (Shell.Sqp n X)) (ss : List (Shell.ShearQp n X))
    (u : GeomElem.Dof n → ℝ) (v : Nat → ℝ) : Exec (GeomElem.Dof n → ℝ) := do
  let P ← c.plate hp !ss.isEmpty
  pure (Shell.internalRes T nl bend (plateElem F ps P v qs ss) u)

/-- `internal_residual_sensitivity` of a shell (structural_element_2d.cpp:1234-1397): nothing is computed for a parameter the card does not depend on (1245-1251); `f` is what the vector holds before. -/
noncomputable def plateSens (hp : Heap) (F : Funcs X) (c : Card) (ps : Bool) (T : Option (Fin 3 → Fin 3 → ℝ)) (nl bend : Bool) (qs : List (Shell.Sqp n X)) (ss : List (Shell.ShearQp n X))
    (u : GeomElem.Dof n → ℝ) (v : Nat → ℝ) (p : Nat) (f : GeomElem.Dof n → ℝ) : Exec (GeomElem.Dof n → ℝ) :=
  if c.dependsOn hp p then do
    let P ← c.plate hp !ss.isEmpty
    pure fun a => f a + Shell.internalSens T nl bend (plateElem F ps P v qs ss) (fun q => dPlateSec F ps P v p q.x) (fun q => dPlateG F P v p q.x) u a
  else pure f

/-! ### Beams -/

/-- The functions a beam section is made of. -/
structure Bar where
  hy : Nat
  hz : Nat
  offy : Nat
  offz : Nat
  E : Nat
  nu : Nat

/-- `init` of the card (solid_1d_section_element_property_card.cpp:1637-1674) and the look-up in the material (isotropic_material_property_card.cpp:787-843). -/
def Card.bar (hp : Heap) (c : Card) : Exec Bar := do
  let hy ← c.own.get (isField hp) "hy"
  let hz ← c.own.get (isField hp) "hz"
  let _ ← c.own.get (isField hp) "Kappazz"
  let _ ← c.own.get (isField hp) "Kappayy"
  let offy ← c.own.get (isField hp) "hy_off"
  let offz ← c.own.get (isField hp) "hz_off"
  let E ← c.material.get (isField hp) "E"
  let nu ← c.material.get (isField hp) "nu"
  pure ⟨hy, hz, offy, offz, E, nu⟩

/-- Section stiffness at a point (solid_1d_section_element_property_card.cpp:824-835, 884-897, 941-951). -/
noncomputable def barSec (F : Funcs X) (P : Bar) (v : Nat → ℝ) (x : X) : Beam.Sec :=
  let C := iso1D (F.val v P.E x) (F.val v P.nu x)
  let hy := F.val v P.hy x
  let hz := F.val v P.hz x
  ⟨Section1D.beamA (Section1D.area hy hz) (Section1D.torsion hy hz) C,
   Section1D.beamB (Section1D.areaMoment hy hz (F.val v P.offz x)) (Section1D.areaMoment hy hz (F.val v P.offy x)) C,
   Section1D.beamD (Section1D.areaInertia hy hz (F.val v P.offy x) (F.val v P.offz x)) C⟩

/-- Its `derivative` (solid_1d_section_element_property_card.cpp:841-861, 904-923, 961-975). -/
noncomputable def dBarSec (F : Funcs X) (P : Bar) (v : Nat → ℝ) (p : Nat) (x : X) : Beam.Sec :=
  let C := iso1D (F.val v P.E x) (F.val v P.nu x)
  let dC := dIso1D (F.val v P.E x) (F.val v P.nu x) (F.der v P.E p x) (F.der v P.nu p x)
  let hy := F.val v P.hy x
  let hz := F.val v P.hz x
  let dhy := F.der v P.hy p x
  let dhz := F.der v P.hz p x
  ⟨Section1D.dBeamA (Section1D.area hy hz) (Section1D.dArea hy dhy hz dhz) (Section1D.torsion hy hz) (Section1D.dTorsion hy dhy hz dhz) C dC,
   Section1D.dBeamB (Section1D.areaMoment hy hz (F.val v P.offz x)) (Section1D.dAreaMoment hy dhy hz dhz (F.val v P.offz x) (F.der v P.offz p x))
     (Section1D.areaMoment hy hz (F.val v P.offy x)) (Section1D.dAreaMoment hy dhy hz dhz (F.val v P.offy x) (F.der v P.offy p x)) C dC,
   Section1D.dBeamD (Section1D.areaInertia hy hz (F.val v P.offy x) (F.val v P.offz x))
     (Section1D.dAreaInertia hy dhy hz dhz (F.val v P.offy x) (F.der v P.offy p x) (F.val v P.offz x) (F.der v P.offz p x)) C dC⟩

/-- The beam element with the section stiffness for given parameter values; no transverse shear (Bernoulli). -/
noncomputable def barElem (F : Funcs X) (P : Bar) (v : Nat → ℝ) (qs : List (Beam.Bqp n X)) : Beam.Elem n X := ⟨qs.map fun q => (q, barSec F P v q.x), []⟩

/-- `internal_residual` of a beam (structural_element_1d.cpp:546-676) for given parameter values. -/
noncomputable def barForce (hp : Heap) (F : Funcs X) (c : Card) (T : Option (Fin 3 → Fin 3 → ℝ)) (nl bend : Bool) (qs : List (Beam.Bqp n X)) (u : GeomElem.Dof n → ℝ) (v : Nat → ℝ) :
    Exec (GeomElem.Dof n → ℝ) := do
  let P ← c.bar hp
  pure (Beam.internalRes T nl bend (barElem F P v qs) u)

/-- `internal_residual_sensitivity` of a beam (structural_element_1d.cpp:683-813) with its early return (694-700). -/
noncomputable def barSens (hp : Heap) (F : Funcs X) (c : Card) (T : Option (Fin 3 → Fin 3 → ℝ)) (nl bend : Bool) (qs : List (Beam.Bqp n X)) (u : GeomElem.Dof n → ℝ) (v : Nat → ℝ) (p : Nat)
    (f : GeomElem.Dof n → ℝ) : Exec (GeomElem.Dof n → ℝ) :=
  if c.dependsOn hp p then do
    let P ← c.bar hp
    pure fun a => f a + Beam.internalSens T nl bend (barElem F P v qs) (fun q => dBarSec F P v p q.x) (fun _ _ _ => 0) u a
  else pure f

end Verif.SecDep
