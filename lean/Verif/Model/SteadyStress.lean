import Verif.Model.SteadyCompliance
import Verif.Model.StressRec
import Verif.Model.Stress
/-
  The stress outputs (src/elasticity/stress_output_base.cpp, ks_stress_output.cpp, smooth_ramp_stress_output.cpp) evaluated on a structure of beams and shells, and their sensitivity by the direct method
  (src/base/assembly_base.cpp:253-550, structural_element_2d.cpp:306-702, structural_element_1d.cpp:163-531).
-/
namespace Verif.Steady
open Verif Verif.SecDep Verif.GeomElem Verif.StructLoads Verif.Material

variable {n : Nat} {X : Type}

/-- `material_mat`, `h`, `off` of the stress recovery of a shell for given parameter values (structural_element_2d.cpp:415-423, 464, 496-500).  `stiffness_matrix(2)` asks for plane stress and gets the matrix built for
the first request (isotropic_material_property_card.cpp:814-823, see C58); here that request was made by the section in the analysis, hence `ps` of the card. -/
noncomputable def plateAt (F : Funcs X) (ps : Bool) (P : SecDep.Plate) (v : Nat → ℝ) (x : X) : StressRec.Plate := ⟨iso2D ps (F.val v P.E x) (F.val v P.nu x), F.val v P.h x, F.val v P.off x⟩
/-- Their `derivative` (structural_element_2d.cpp:645-648, 667-670). -/
noncomputable def dPlateAt (F : Funcs X) (ps : Bool) (P : SecDep.Plate) (v : Nat → ℝ) (p : Nat) (x : X) : StressRec.Plate :=
  ⟨dIso2D ps (F.val v P.E x) (F.val v P.nu x) (F.der v P.E p x) (F.der v P.nu p x), F.der v P.h p x, F.der v P.off p x⟩
/-- `material_mat`, `hy`, `hz`, `hy_off`, `hz_off` of the stress recovery of a beam (structural_element_1d.cpp:259-330). -/
noncomputable def barAt (F : Funcs X) (P : SecDep.Bar) (v : Nat → ℝ) (x : X) : StressRec.Bar := ⟨iso1D (F.val v P.E x) (F.val v P.nu x), F.val v P.hy x, F.val v P.hz x, F.val v P.offy x, F.val v P.offz x⟩
/-- Their `derivative` (structural_element_1d.cpp:478-481, 501). -/
noncomputable def dBarAt (F : Funcs X) (P : SecDep.Bar) (v : Nat → ℝ) (p : Nat) (x : X) : StressRec.Bar :=
  ⟨dIso1D (F.val v P.E x) (F.val v P.nu x) (F.der v P.E p x) (F.der v P.nu p x), F.der v P.hy p x, F.der v P.hz p x, F.der v P.offy p x, F.der v P.offz p x⟩

/-- `alpha_expansion`, `temperature`, `ref_temperature` of the thermal load of the element (`get_thermal_load_for_elem`), if there is one; the Boolean says whether there is. -/
structure Warm (X : Type) where
  hot : Bool
  fam : Fam X StressRec.Heat

/-- Values for the parameter value `t` at a point. -/
noncomputable def Warm.at (w : Warm X) (t : ℝ) (x : X) : Option StressRec.Heat := if w.hot then some (w.fam.val t x) else none

/-- The `Data` object of face `s` at quadrature point `q` of a shell (structural_element_2d.cpp:526-549, 687-697) for the parameter value `t` and element solution `u`; `w` is the element's solution sensitivity, `none` if
`evaluate_sensitivity` has not been called for the element since `clear`.  The derivative matrix is not used by the direct method and left out. -/
noncomputable def shellDatum (E : ShellData n X) (bz : Shell.Sqp n X → ℝ → Fin 3 → Dof n → ℝ) (H : Warm X) (P : SecDep.Plate) (v : Nat → ℝ) (p : Nat) (q : Shell.Sqp n X) (s : Fin 2) (w : Option (Dof n → ℝ)) (t : ℝ) (u : Dof n → ℝ) :
    Stress.Data Unit 0 where
  stress := StressRec.to6 (StressRec.stress E.nl E.bend q (bz q) (plateAt E.F E.stress P (Function.update v p t) q.x) (H.at t q.x) s (vecToLocal E.T u))
  sens := fun _ => w.map fun w => StressRec.to6 (StressRec.stressDot E.nl E.bend q (bz q) (plateAt E.F E.stress P (Function.update v p t) q.x) (H.at t q.x)
    ⟨dPlateAt E.F E.stress P (Function.update v p t) p q.x, H.fam.der t q.x⟩ s (vecToLocal E.T u) (vecToLocal E.T w))
  dX := fun _ i => i.elim0
  JxW := q.JxW / 2

/-- The same for corner `s` of the section of a beam (structural_element_1d.cpp:386-405, 520-526). -/
noncomputable def beamDatum (E : BeamData n X) (ops : Beam.Bqp n X → StressRec.BendOps n) (H : Warm X) (P : SecDep.Bar) (v : Nat → ℝ) (p : Nat) (q : Beam.Bqp n X) (s : Fin 4) (w : Option (Dof n → ℝ)) (t : ℝ) (u : Dof n → ℝ) :
    Stress.Data Unit 0 where
  stress := StressRec.axial6 (StressRec.stressB E.nl E.bend q (ops q) (barAt E.F P (Function.update v p t) q.x) (H.at t q.x) s (vecToLocal E.T u) 0)
  sens := fun _ => w.map fun w => StressRec.axial6 (StressRec.stressDotB E.nl E.bend q (ops q) (barAt E.F P (Function.update v p t) q.x) (H.at t q.x)
    ⟨dBarAt E.F P (Function.update v p t) p q.x, H.fam.der t q.x⟩ s (vecToLocal E.T u) (vecToLocal E.T w) 0)
  dX := fun _ i => i.elim0
  JxW := q.JxW

/-- Beam or shell with its bending operators (as functions of the height) and its thermal load. -/
inductive Stressed (n : Nat) : Type 1
  | beam {X : Type} (E : BeamData n X) (ops : Beam.Bqp n X → StressRec.BendOps n) (H : Warm X)
  | shell {X : Type} (E : ShellData n X) (bz : Shell.Sqp n X → ℝ → Fin 3 → Dof n → ℝ) (H : Warm X)

/-- The element in the analysis. -/
def Stressed.body : Stressed n → Body n
  | .beam E _ _ => .beam E
  | .shell E _ _ => .shell E

/-- All `Data` objects of an element (structural_element_2d.cpp:456-700, structural_element_1d.cpp:315-529).  A failing look-up of the section functions ends the program, which the theorems exclude; the look-up of the
functions of the section is that of the analysis. -/
noncomputable def Stressed.points (v : Nat → ℝ) (p : Nat) (w : Option (Dof n → ℝ)) : Stressed n → List (ℝ → (Dof n → ℝ) → Stress.Data Unit 0)
  | .beam E ops H => match E.card.bar E.hp with
    | .ok P => E.qs.flatMap fun q => [0, 1, 2, 3].map fun s => beamDatum E ops H P v p q s w
    | .error _ => []
  | .shell E bz H => match E.card.plate E.hp !E.ss.isEmpty with
    | .ok P => E.qs.flatMap fun q => [0, 1].map fun s => shellDatum E bz H P v p q s w
    | .error _ => []

/-- An element of the structure: loads, unknowns, whether it is said to depend on the parameter, whether the stress output includes it. -/
structure StressPart where
  n : Nat
  st : Stressed n
  loads : Attached n
  dof : Nat → Nat
  asked : Bool
  eval : Bool

/-- The element in the analysis. -/
def StressPart.part (e : StressPart) : Part := ⟨e.n, e.st.body, e.loads, e.dof, e.asked, e.eval⟩

/-- Elements and dof range of one process. -/
structure StressProc where
  parts : List StressPart
  first : Nat
  last : Nat

/-- The process in the analysis. -/
def StressProc.part (q : StressProc) : PartProc := ⟨q.parts.map StressPart.part, q.first, q.last⟩

/-- Entries of `dXdp`, zero if none is given (assembly_base.cpp:526-530). -/
def rateOf (dX : Option (Nat → ℝ)) (i : Nat) : ℝ := match dX with | some y => y i | none => 0

/-- The solution sensitivity an element gets in the sensitivity loop (assembly_base.cpp:496-540), zero if none is given; `none`: the element is left out. -/
noncomputable def given (override : Bool) (dX : Option (Nat → ℝ)) (e : StressPart) : Option (Dof e.n → ℝ) :=
  if skipped override dX.isSome e.part then none else some fun d => rateOf dX (e.dof d.row)

/-- The stress data of all processes after `calculate_output` for the parameter value `t` and solution `X` and, with `sens`, `calculate_output_direct_sensitivity` (assembly_base.cpp:253-333, 434-550): only included
elements have data. -/
noncomputable def stressData (ps : List StressProc) (v : Nat → ℝ) (p : Nat) (sens : (e : StressPart) → Option (Dof e.n → ℝ)) (t : ℝ) (X : Nat → ℝ) : Stress.World Unit 0 :=
  ps.map fun q => (q.parts.filter fun e => e.eval).map fun e => (e.st.points v p (sens e)).map fun f => f t fun d => X (e.dof d.row)

/-- `output_total` of the KS output (stress_output_base.cpp:414-424, ks_stress_output.cpp:53-103) after `calculate_output`. -/
noncomputable def ksStress (c : Stress.Coeffs) (ps : List StressProc) (v : Nat → ℝ) (p : Nat) (t : ℝ) (X : Nat → ℝ) : ℝ := Stress.ksValue c (stressData ps v p (fun _ => none) t X)
/-- `output_sensitivity_total` of the KS output (stress_output_base.cpp:443-457) after `calculate_output_direct_sensitivity`. -/
noncomputable def ksStressSens (c : Stress.Coeffs) (ps : List StressProc) (v : Nat → ℝ) (p : Nat) (override : Bool) (t : ℝ) (X : Nat → ℝ) (dX : Option (Nat → ℝ)) : ℝ :=
  Stress.ksSens c () (stressData ps v p (given override dX) t X)
/-- The same for the p-norm output (stress_output_base.cpp:851-941). -/
noncomputable def pnormStress (c : Stress.Coeffs) (ps : List StressProc) (v : Nat → ℝ) (p : Nat) (t : ℝ) (X : Nat → ℝ) : ℝ := Stress.pnormValue c (stressData ps v p (fun _ => none) t X)
noncomputable def pnormStressSens (c : Stress.Coeffs) (ps : List StressProc) (v : Nat → ℝ) (p : Nat) (override : Bool) (t : ℝ) (X : Nat → ℝ) (dX : Option (Nat → ℝ)) : Option ℝ :=
  Stress.pnormSens c () (stressData ps v p (given override dX) t X)
/-- The same for the smooth ramp output (smooth_ramp_stress_output.cpp:55-149). -/
noncomputable def rampStress (c : Stress.Coeffs) (ps : List StressProc) (v : Nat → ℝ) (p : Nat) (t : ℝ) (X : Nat → ℝ) : ℝ := Stress.rampValue c (stressData ps v p (fun _ => none) t X)
noncomputable def rampStressSens (c : Stress.Coeffs) (ps : List StressProc) (v : Nat → ℝ) (p : Nat) (override : Bool) (t : ℝ) (X : Nat → ℝ) (dX : Option (Nat → ℝ)) : ℝ :=
  Stress.rampSens c () (stressData ps v p (given override dX) t X)

end Verif.Steady
