import Verif.Model.SteadyStress
/-
  The adjoint method for the stress outputs: `calculate_output_derivative` (src/base/assembly_base.cpp:338-430), `output_derivative_for_elem` (src/elasticity/stress_output_base.cpp:461-480) and the explicit part
  computed with a null `dXdp` (assembly_base.cpp:555-590); `zero_for_sensitivity` of the stress outputs does nothing (stress_output_base.cpp:311-315).
-/
namespace Verif.Steady
open Verif Verif.SecDep Verif.GeomElem Verif.StructLoads Verif.Material

variable {n : Nat} {X : Type}

/-- `dstress_dX_3D` of face `s` of a shell (structural_element_2d.cpp:555-596). -/
noncomputable def shellRows (E : ShellData n X) (bz : Shell.Sqp n X → ℝ → Fin 3 → Dof n → ℝ) (P : SecDep.Plate) (v : Nat → ℝ) (p : Nat) (q : Shell.Sqp n X) (s : Fin 2) (t : ℝ) (u : Dof n → ℝ) : Fin 6 → Dof n → ℝ :=
  StressRec.rows6 E.T (StressRec.dstress E.nl E.bend q (bz q) (plateAt E.F E.stress P (Function.update v p t) q.x) s (vecToLocal E.T u))
/-- `dstress_dX_3D` of corner `s` of a beam (structural_element_1d.cpp:411-441). -/
noncomputable def beamRows (E : BeamData n X) (ops : Beam.Bqp n X → StressRec.BendOps n) (P : SecDep.Bar) (v : Nat → ℝ) (p : Nat) (q : Beam.Bqp n X) (s : Fin 4) (t : ℝ) (u : Dof n → ℝ) : Fin 6 → Dof n → ℝ :=
  fun r a => StressRec.axial6 (vecToGlobal E.T (StressRec.dstressB E.nl E.bend q (ops q) (barAt E.F P (Function.update v p t) q.x) s (vecToLocal E.T u) 0) a) r

/-- The `Data` object after `set_derivatives` (stress_output_base.cpp:84-98): the matrix has one column for each entry of the element vector. -/
noncomputable def withRows (d : Stress.Data Unit 0) (M : Fin 6 → Dof n → ℝ) : Stress.Data Unit (6 * n) := ⟨d.stress, d.sens, fun r i => flat (M r) i, d.JxW⟩

/-- All `Data` objects of an element after `calculate_stress(true, nullptr, ...)`. -/
noncomputable def Stressed.rich (v : Nat → ℝ) (p : Nat) : Stressed n → List (ℝ → (Dof n → ℝ) → Stress.Data Unit (6 * n))
  | .beam E ops H => match E.card.bar E.hp with
    | .ok P => E.qs.flatMap fun q => [0, 1, 2, 3].map fun s t u => withRows (beamDatum E ops H P v p q s none t u) (beamRows E ops P v p q s t u)
    | .error _ => []
  | .shell E bz H => match E.card.plate E.hp !E.ss.isEmpty with
    | .ok P => E.qs.flatMap fun q => [0, 1].map fun s t u => withRows (shellDatum E bz H P v p q s none t u) (shellRows E bz P v p q s t u)
    | .error _ => []

/-- `calculate_output_derivative` (assembly_base.cpp:338-430): the element vectors are constrained and added, elements that are not included are passed over. -/
noncomputable def outDeriv (C : Nat → Bool) (ps : List StressProc) (vec : StressPart → Nat → ℝ) : Nat → ℝ := fun i =>
  (ps.map fun q => q.parts.foldl (fun g e => if e.eval then Asm.addVector (6 * e.n) e.dof (Asm.conVec C e.dof (vec e)) g else g) (fun _ => 0) i).sum

/-- The data of one element in `output_derivative_for_elem`. -/
noncomputable def richAt (v : Nat → ℝ) (p : Nat) (t : ℝ) (X : Nat → ℝ) (e : StressPart) : List (Stress.Data Unit (6 * e.n)) := (e.st.rich v p).map fun f => f t fun d => X (e.dof d.row)

/-- `functional_state_derivartive_for_elem` of the KS output (ks_stress_output.cpp:201-242), with the sums stored by `output_total`. -/
noncomputable def ksVec (c : Stress.Coeffs) (ps : List StressProc) (v : Nat → ℝ) (p : Nat) (t : ℝ) (X : Nat → ℝ) (e : StressPart) : Nat → ℝ :=
  ext (Stress.ksDXElem c (Stress.ksInt c (stressData ps v p (fun _ => none) t X)) (Stress.sumJ (stressData ps v p (fun _ => none) t X)) (richAt v p t X e))
/-- The same for the smooth ramp output (smooth_ramp_stress_output.cpp:197-237). -/
noncomputable def rampVec (c : Stress.Coeffs) (v : Nat → ℝ) (p : Nat) (t : ℝ) (X : Nat → ℝ) (e : StressPart) : Nat → ℝ := ext (Stress.rampDXElem c (richAt v p t X e))
/-- The same for the p-norm output (stress_output_base.cpp:1105-1172); `none` when a negative power of zero is taken. -/
noncomputable def pnormVec (c : Stress.Coeffs) (ps : List StressProc) (v : Nat → ℝ) (p : Nat) (t : ℝ) (X : Nat → ℝ) (e : StressPart) : Option (Nat → ℝ) :=
  (Stress.pnormDXElem c (Stress.pnormInt c (stressData ps v p (fun _ => none) t X)) (Stress.pnormJ c (stressData ps v p (fun _ => none) t X)) (richAt v p t X e)).map ext

/-- `dq_dX` of the three outputs; for the p-norm `none` if an entry is not a number. -/
noncomputable def ksDeriv (C : Nat → Bool) (c : Stress.Coeffs) (ps : List StressProc) (v : Nat → ℝ) (p : Nat) (t : ℝ) (X : Nat → ℝ) : Nat → ℝ := outDeriv C ps (ksVec c ps v p t X)
noncomputable def rampDeriv (C : Nat → Bool) (c : Stress.Coeffs) (ps : List StressProc) (v : Nat → ℝ) (p : Nat) (t : ℝ) (X : Nat → ℝ) : Nat → ℝ := outDeriv C ps (rampVec c v p t X)
noncomputable def pnormDeriv (C : Nat → Bool) (c : Stress.Coeffs) (ps : List StressProc) (v : Nat → ℝ) (p : Nat) (t : ℝ) (X : Nat → ℝ) : Option (Nat → ℝ) :=
  if ps.all fun q => q.parts.all fun e => !e.eval || (pnormVec c ps v p t X e).isSome then some (outDeriv C ps fun e => (pnormVec c ps v p t X e).getD 0) else none

/-- The solution sensitivities behind the data when `calculate_output_direct_sensitivity` is called twice, first with `dX₁`, then with `dX₂`: `zero_for_sensitivity` does nothing, the data of elements left out in the
second call are those of the first (stress_output_base.cpp:311-315). -/
noncomputable def givenAfter (override : Bool) (dX₁ dX₂ : Option (Nat → ℝ)) (e : StressPart) : Option (Dof e.n → ℝ) :=
  if skipped override dX₂.isSome e.part then given override dX₁ e else given override dX₂ e

/-- `output_sensitivity_total` of the KS output after both calls. -/
noncomputable def ksStressSensAfter (c : Stress.Coeffs) (ps : List StressProc) (v : Nat → ℝ) (p : Nat) (override : Bool) (t : ℝ) (X : Nat → ℝ) (dX₁ dX₂ : Option (Nat → ℝ)) : ℝ :=
  Stress.ksSens c () (stressData ps v p (givenAfter override dX₁ dX₂) t X)

end Verif.Steady
