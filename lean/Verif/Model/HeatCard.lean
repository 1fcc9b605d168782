import Verif.Model.SectionDeps
import Verif.Model.Coordinates
import Verif.Model.Heat
/-
  Heat conduction elements from their cards: thermal conductance and capacitance of bars, plates and solids
  (solid_1d_section_element_property_card.cpp:1377-1476, 2011-2087; solid_2d_section_element_property_card.cpp:923-1027, 1294-1354; isotropic_element_property_card_3D.cpp:335-408, 594-639) for isotropic and orthotropic materials, and the loads of the element, as functions of the parameters of a program.
  The orthotropic solid card and the multilayer cards do not implement `section` (element_property_card_base.h:111-112) and cannot be instantiated; they are left out.
  The functions may depend on the temperature through `_active_sol_function`; sizes of sections and loads are evaluated without it where the element does not set it.
-/
namespace Verif.HeatCard
open Verif.Fn Verif.SecDep Verif.Heat

/-- `operator()` and `derivative` of the functions of the program; a point carries the value of the active solution function, if there is one (heat_conduction_elem_base.cpp:88-92); `dT` is
`derivative(*_active_sol_function, ...)` (127-129). -/
structure Data (X : Type) where
  F : Funcs (X × Option ℝ)
  dT : (Nat → ℝ) → Nat → X × Option ℝ → ℝ

/-- The cards of the library. -/
inductive Shape : Nat → Type
  | bar : Shape 1
  | plate : Shape 2
  | solid : Shape 3

/-- Size functions of the section. -/
inductive Size
  | area (hy hz : Nat)
  | thickness (h : Nat)
  | unit

/-- The functions an element is made of; `rho` and `cp` are used by the velocity terms only. -/
structure Fns where
  size : Size
  k : Nat → Nat
  rho : Nat
  cp : Nat

/-- Name of the conductivity along axis `i` (isotropic_material_property_card.cpp:1008-1053, orthotropic_material_property_card.cpp:1278-1325). -/
def kName (iso : Bool) (i : Nat) : String := if iso then "k_th" else if i = 0 then "k11_th" else if i = 1 then "k22_th" else "k33_th"

/-- `init` of the beam card (solid_1d_section_element_property_card.cpp:1637-1674), thickness of the plate card (solid_2d_section_element_property_card.cpp:1302), no function for solids. -/
def sizeOf (hp : Heap) (c : Card) : {d : Nat} → Shape d → Exec Size
  | _, .bar => do
    let hy ← c.own.get (isField hp) "hy"
    let hz ← c.own.get (isField hp) "hz"
    let _ ← c.own.get (isField hp) "Kappazz"
    let _ ← c.own.get (isField hp) "Kappayy"
    let _ ← c.own.get (isField hp) "hy_off"
    let _ ← c.own.get (isField hp) "hz_off"
    pure (.area hy hz)
  | _, .plate => do
    let h ← c.own.get (isField hp) "h"
    pure (.thickness h)
  | _, .solid => pure .unit

/-- A function that is looked up only if `b`; otherwise the unused entry is `k`. -/
def getIf (hp : Heap) (s : FSet) (nm : String) (b : Bool) (k : Nat) : Exec Nat := if b then s.get (isField hp) nm else pure k

/-- Look-up of the functions of an element of dimension `d`. -/
def fnsOf (hp : Heap) (c : Card) (iso transient : Bool) {d : Nat} (s : Shape d) : Exec Fns := do
  let size ← sizeOf hp c s
  let k0 ← c.material.get (isField hp) (kName iso 0)
  let k1 ← getIf hp c.material (kName iso 1) (decide (2 ≤ d)) k0
  let k2 ← getIf hp c.material (kName iso 2) (decide (3 ≤ d)) k0
  let rho ← getIf hp c.material "rho" transient k0
  let cp ← getIf hp c.material "cp" transient k0
  pure ⟨size, fun i => if i = 0 then k0 else if i = 1 then k1 else k2, rho, cp⟩

variable {X : Type}

/-- Area or thickness at a point (solid_1d_section_element_property_card.cpp:45-52); `none`: the card has no section function. -/
def sizeVal (val : Nat → ℝ) : Size → Option ℝ
  | .area hy hz => some (Section1D.area (val hy) (val hz))
  | .thickness h => some (val h)
  | .unit => none
/-- Its derivative (solid_1d_section_element_property_card.cpp:54-63). -/
def sizeDer (val der : Nat → ℝ) : Size → ℝ
  | .area hy hz => Section1D.dArea (val hy) (der hy) (val hz) (der hz)
  | .thickness h => der h
  | .unit => 0

/-- `operator()` of the section matrices: `m *= A` (solid_1d_section_element_property_card.cpp:1394-1404, 1447-1457; solid_2d_section_element_property_card.cpp:941-951, 995-1005); solids hand the matrix of
the material through (isotropic_element_property_card_3D.cpp:353-358, 393-398). -/
def scaled (a : Option ℝ) (m : ℝ) : ℝ := match a with | some a => m * a | none => m
/-- `derivative`: `m *= dA; m += dm*A` (solid_1d_section_element_property_card.cpp:1409-1423, 1462-1476; solid_2d_section_element_property_card.cpp:957-971, 1012-1027;
isotropic_element_property_card_3D.cpp:364-369, 403-408). -/
def dScaled (a : Option ℝ) (da m dm : ℝ) : ℝ := match a with | some a => m * da + dm * a | none => dm

/-- Conductance matrix of the element. -/
def cond (P : Fns) (val : Nat → ℝ) (d : Nat) (i j : Fin d) : ℝ := scaled (sizeVal val P.size) (Material.conductance d (fun i => val (P.k i)) i j)
/-- Its derivative. -/
def dCond (P : Fns) (val der : Nat → ℝ) (d : Nat) (i j : Fin d) : ℝ :=
  dScaled (sizeVal val P.size) (sizeDer val der P.size) (Material.conductance d (fun i => val (P.k i)) i j) (Material.conductance d (fun i => der (P.k i)) i j)

/-- Capacitance of the element. -/
def cap (P : Fns) (val : Nat → ℝ) : ℝ := scaled (sizeVal val P.size) (Material.capacitance (val P.cp) (val P.rho))
/-- Its derivative. -/
def dCap (P : Fns) (val der : Nat → ℝ) : ℝ :=
  dScaled (sizeVal val P.size) (sizeDer val der P.size) (Material.capacitance (val P.cp) (val P.rho)) (Material.dCapacitance (val P.cp) (val P.rho) (der P.cp) (der P.rho))

/-- The material data the element works with (heat_conduction_elem_base.cpp:75-76, 127-129, 179-180, 206-208, 591, 745) for the parameter values `v` and sensitivities with respect to `p`. -/
noncomputable def matOf (D : Data X) (P : Fns) (d : Nat) (active diag : Bool) (v : Nat → ℝ) (p : Nat) : Heat.Mat d X where
  active := active
  diag := diag
  k := fun x T => cond P (fun y => D.F.val v y (x, T)) d
  dkT := fun x T => dCond P (fun y => D.F.val v y (x, T)) (fun y => D.dT v y (x, T)) d
  dkP := fun x T => dCond P (fun y => D.F.val v y (x, T)) (fun y => D.F.der v y p (x, T)) d
  c := fun x T => cap P fun y => D.F.val v y (x, T)
  dcT := fun x T => dCap P (fun y => D.F.val v y (x, T)) fun y => D.dT v y (x, T)
  dcP := fun x T => dCap P (fun y => D.F.val v y (x, T)) fun y => D.F.der v y p (x, T)

/-- A real function of the program as the loads see it. -/
noncomputable def field (D : Data X) (v : Nat → ℝ) (p y : Nat) : Heat.Field X := ⟨fun x => D.F.val v y (x, none), fun x => D.F.der v y p (x, none)⟩

/-- `section` of the card (solid_1d_section_element_property_card.cpp:2075-2087, solid_2d_section_element_property_card.cpp:1349-1354, isotropic_element_property_card_3D.h:163-167). -/
noncomputable def sectionOf (D : Data X) (P : Fns) (v : Nat → ℝ) (p : Nat) : Option (Heat.Field X) :=
  match P.size with
  | .unit => none
  | s => some ⟨fun x => (sizeVal (fun y => D.F.val v y (x, none)) s).getD 1, fun x => sizeDer (fun y => D.F.val v y (x, none)) (fun y => D.F.der v y p (x, none)) s⟩

/-- Loads of the program: functions, and parameters for the radiation constants (heat_conduction_elem_base.cpp:880-900, 1110-1128, 1420-1438). -/
inductive LoadFn
  | flux (q : Nat)
  | convection (h amb : Nat)
  | radiation (eps amb ref sb : Nat)
  | source (q : Nat)
  | dirichlet
  | other

/-- The load for given parameter values. -/
noncomputable def loadOf (D : Data X) (v : Nat → ℝ) (p : Nat) : LoadFn → Load X
  | .flux q => .flux (field D v p q)
  | .convection h amb => .convection (field D v p h) (field D v p amb)
  | .radiation eps amb ref sb => .radiation (field D v p eps) (v amb) (v ref) (v sb) (if p = amb then 1 else 0) (if p = ref then 1 else 0) (if p = sb then 1 else 0)
  | .source q => .source (field D v p q)
  | .dirichlet => .dirichlet
  | .other => .other

variable {n d : Nat}

/-- The element with the section of the card. -/
noncomputable def elemOf (D : Data X) (P : Fns) (e : Heat.Elem n d X) (v : Nat → ℝ) (p : Nat) : Heat.Elem n d X := { e with sec := sectionOf D P v p }

/-- A problem: the card, the element, the loads. -/
structure Problem (n d : Nat) (X : Type) where
  hp : Heap
  card : Card
  iso : Bool
  shape : Shape d
  active : Bool
  diag : Bool
  e : Heat.Elem n d X
  side : List (Nat × LoadFn)
  vol : List (Nat × LoadFn)

/-- Loads for given parameter values. -/
noncomputable def loadsOf (D : Data X) (v : Nat → ℝ) (p : Nat) (l : List (Nat × LoadFn)) : List (Nat × Load X) := l.map fun x => (x.1, loadOf D v p x.2)

/-- `elem_calculations`, residual (heat_conduction_nonlinear_assembly.cpp:83-98), for the parameter values `v`; `p` only selects derivatives that are not used. -/
noncomputable def residual (Q : Problem n d X) (D : Data X) (u : Fin n → ℝ) (p : Nat) (v : Nat → ℝ) : Exec (Fin n → ℝ) := do
  let P ← fnsOf Q.hp Q.card Q.iso false Q.shape
  match Heat.elemRes (matOf D P d Q.active Q.diag v p) (elemOf D P Q.e v p) (loadsOf D v p Q.side) (loadsOf D v p Q.vol) u with
  | some r => pure r
  | none => .error .error

/-- `elem_calculations`, Jacobian. -/
noncomputable def jacobian (Q : Problem n d X) (D : Data X) (u : Fin n → ℝ) (p : Nat) (v : Nat → ℝ) : Exec (Fin n → Fin n → ℝ) := do
  let P ← fnsOf Q.hp Q.card Q.iso false Q.shape
  pure (Heat.elemJac (matOf D P d Q.active Q.diag v p) (elemOf D P Q.e v p) (loadsOf D v p Q.side) (loadsOf D v p Q.vol) u)

/-- `elem_sensitivity_calculations` (heat_conduction_nonlinear_assembly.cpp:105-118) with respect to the parameter `p`. -/
noncomputable def sensitivity (Q : Problem n d X) (D : Data X) (u : Fin n → ℝ) (p : Nat) (v : Nat → ℝ) : Exec (Fin n → ℝ) := do
  let P ← fnsOf Q.hp Q.card Q.iso false Q.shape
  pure (Heat.elemSens (matOf D P d Q.active Q.diag v p) (elemOf D P Q.e v p) (loadsOf D v p Q.side) (loadsOf D v p Q.vol) u)

/-- `velocity_residual` (heat_conduction_elem_base.cpp:155-243). -/
noncomputable def rate (Q : Problem n d X) (D : Data X) (u w : Fin n → ℝ) (p : Nat) (v : Nat → ℝ) : Exec (Fin n → ℝ) := do
  let P ← fnsOf Q.hp Q.card Q.iso true Q.shape
  pure (Heat.velRes (matOf D P d Q.active Q.diag v p) Q.e.pts u w)

/-- `velocity_residual_sensitivity` (heat_conduction_elem_base.cpp:736-771). -/
noncomputable def rateSens (Q : Problem n d X) (D : Data X) (u w : Fin n → ℝ) (p : Nat) (v : Nat → ℝ) : Exec (Fin n → ℝ) := do
  let P ← fnsOf Q.hp Q.card Q.iso true Q.shape
  pure (Heat.velSens (matOf D P d Q.active Q.diag v p) Q.e.pts u w)

end Verif.HeatCard
