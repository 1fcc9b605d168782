import Verif.Model.StressRec
import Verif.Model.Stress
import Verif.Model.Exec
/-
  Temperature gradient of a stress functional: src/elasticity/stress_temperature_adjoint.cpp, `thermal_residual_temperature_derivative` and `calculate_stress_temperature_derivative` of
  src/elasticity/structural_element_2d.cpp, driven by `AssemblyBase::calculate_output_derivative` (src/base/assembly_base.cpp:339-430) of the heat conduction assembly.
  Reals stand for double.  Degrees of freedom of the structural and of the thermal system are numbered `Fin ns`, `Fin mt`; all elements have `n` structural and `nt` thermal shape functions.
-/
namespace Verif.ThermAdj
open Verif.GeomElem Verif.StressRec
open Verif.Shell (Sqp Blin Bx By Bvk matX matY vkMat appT mvT)
open Matrix

variable {n nt ns mt : Nat} {X : Type}

/-- Quadrature point of a heated shell element: operators `q`, bending operator `Bz` for the offset `z`, section `P`, `alpha_expansion`, reference temperature, thermal shape functions,
`thermal_expansion_A_matrix`, `thermal_expansion_B_matrix` (structural_element_2d.cpp:1028-1057, 3698-3710). -/
structure Pt (n nt : Nat) (X : Type) where
  q : Sqp n X
  Bz : ℝ → Fin 3 → Dof n → ℝ
  P : Plate
  alpha : ℝ
  ref : ℝ
  phi : Fin nt → ℝ
  expA : Fin 3 → ℝ
  expB : Fin 3 → ℝ

/-- Element: frame, strain type, bending; whether it is a surface element; whether the stress output evaluates it (`if_evaluate_for_element`), whether it has a thermal load
(`get_thermal_load_for_elem`); `pts`: the points of the plain quadrature rule (`init_fe(true, false)`: stress_temperature_adjoint.cpp:138, structural_element_2d.cpp:961);
`load`: the points of the rule with `extra_quadrature_order` (structural_element_2d.cpp:3020, 3633-3634). -/
structure Elem (n nt ns mt : Nat) (X : Type) where
  T : Option (Fin 3 → Fin 3 → ℝ)
  nl : Bool
  bend : Bool
  surf : Bool
  eval : Bool
  hot : Bool
  pts : List (Pt n nt X)
  load : List (Pt n nt X)
  smap : Dof n → Fin ns
  tmap : Fin nt → Fin mt

/-- Element values of a structural vector (stress_temperature_adjoint.cpp:86-98, 120-133). -/
def Elem.disp (e : Elem n nt ns mt X) (U : Fin ns → ℝ) (a : Dof n) : ℝ := U (e.smap a)
/-- Element values of a thermal vector. -/
def Elem.temps (e : Elem n nt ns mt X) (H : Fin mt → ℝ) (i : Fin nt) : ℝ := H (e.tmap i)

/-- Temperature at a point: the thermal load is the field of the conduction solution, interpolated with its shape functions. -/
def tempAt (p : Pt n nt X) (th : Fin nt → ℝ) : ℝ := ∑ i, p.phi i * th i

/-- `thermal_residual` of the element (structural_element_2d.cpp:3012-3200) at the nodal temperatures `th`. -/
def thermal (e : Elem n nt ns mt X) (th : Fin nt → ℝ) (u : Dof n → ℝ) : Dof n → ℝ :=
  Shell.thermalRes e.T e.nl e.bend (e.load.map fun p => (p.q, ⟨p.expA, p.expB, tempAt p th, p.ref⟩)) u

/-- `mat1_n1nt`, `mat2_n1nt`: expansion matrix times the row of thermal shape functions (structural_element_2d.cpp:3709-3710, 3724-3725). -/
def outer (ex : Fin 3 → ℝ) (phi : Fin nt → ℝ) (r : Fin 3) (i : Fin nt) : ℝ := ex r * phi i
/-- `B.right_multiply_transpose(m, M)` (fem_operator_matrix.h). -/
def rmt {m : Nat} (B : Fin m → Dof n → ℝ) (M : Fin m → Fin nt → ℝ) (a : Dof n) (i : Fin nt) : ℝ := ∑ r, B r a * M r i
/-- `mat.transpose() * M`. -/
def mulT {m k : Nat} (A : Fin m → Fin k → ℝ) (M : Fin m → Fin nt → ℝ) (j : Fin k) (i : Fin nt) : ℝ := ∑ r, A r j * M r i

/-- The contribution of one point to `local_m` (structural_element_2d.cpp:3712-3763): the operators come from `s` (`fe_str`), `JxW`, `phi` and the expansion matrices from `t` (`fe_thermal`). -/
def pointM (nl bend : Bool) (s t : Pt n nt X) (u : Dof n → ℝ) (a : Dof n) (i : Fin nt) : ℝ :=
  t.q.JxW * rmt (Blin s.q) (outer t.expA t.phi) a i
  + (if nl then t.q.JxW * rmt (Bx s.q) (mulT (matX s.q u) (outer t.expA t.phi)) a i + t.q.JxW * rmt (By s.q) (mulT (matY s.q u) (outer t.expA t.phi)) a i else 0)
  + (if bend then t.q.JxW * rmt s.q.bend (outer t.expB t.phi) a i + (if nl then t.q.JxW * rmt (Bvk s.q) (mulT (vkMat s.q u) (outer t.expA t.phi)) a i else 0) else 0)

/-- `thermal_residual_temperature_derivative` (structural_element_2d.cpp:3623-3775) with `m = 0` on entry: a debug build compares the numbers of points (3640), a release build reads the structural data
at the indices of the thermal points. -/
def resTemp (dbg : Bool) (e : Elem n nt ns mt X) (u : Dof n → ℝ) : Exec (Dof n → Fin nt → ℝ) :=
  if dbg && e.load.length != e.pts.length then .error .assertFail
  else if e.load.length < e.pts.length then .error .ub
  else .ok fun a i => -vecToGlobal e.T (fun b => ((e.load.zip e.pts).map fun p => pointM e.nl e.bend p.1 p.2 (vecToLocal e.T u) b i).sum) a

/-- What the stress output stores for the element (structural_element_2d.cpp:307-549) together with the derivative set by `calculate_stress_temperature_derivative` (956-1070); two section points per point. -/
noncomputable def data (e : Elem n nt ns mt X) (th : Fin nt → ℝ) (u : Dof n → ℝ) : List (Stress.Data Unit nt) :=
  e.pts.flatMap fun p => [0, 1].map fun s =>
    { stress := to6 (stress e.nl e.bend p.q p.Bz p.P (if e.hot then some ⟨p.alpha, tempAt p th, p.ref⟩ else none) s (vecToLocal e.T u))
      sens := fun _ => none
      dX := (tempDeriv p.P.C p.alpha p.phi).1
      JxW := p.q.JxW / 2 }

/-- The stress data of all processes at the temperatures `H` and the displacement `U`: elements that the output evaluates (assembly_base.cpp:296-318, stress_output_base.cpp:330-350). -/
noncomputable def world (ps : List (List (Elem n nt ns mt X))) (H : Fin mt → ℝ) (U : Fin ns → ℝ) : Stress.World Unit nt :=
  ps.map fun es => (es.filter (·.eval)).map fun e => data e (e.temps H) (e.disp U)

/-- `output_derivative_for_elem` (stress_temperature_adjoint.cpp:103-147); `int`, `J` are the sums kept by the stress output.  `none`: not a number.
Without a thermal load the stored stress derivative has not been written here: it is empty or has one column per structural degree of freedom, and is combined with vectors of `nt` entries (1121-1167):
undefined as soon as there is a point.  Line and solid elements stop (structural_element_1d.h:149-159, solid_element_3d.h:137-147). -/
noncomputable def elemGrad (dbg : Bool) (c : Stress.Coeffs) (int J : ℝ) (H : Fin mt → ℝ) (U lam : Fin ns → ℝ) (e : Elem n nt ns mt X) : Exec (Option (Fin nt → ℝ)) :=
  if e.eval then
    if e.hot then
      if e.surf then do
        let m ← resTemp dbg e (e.disp U)
        pure ((Stress.pnormDXElem c int J (data e (e.temps H) (e.disp U))).map fun g i => g i + ∑ a, e.disp lam a * m a i)
      else .error .error
    else if e.pts.isEmpty then pure (Stress.pnormDXElem (F := Unit) c int J []) else .error .ub
  else pure (some fun _ => 0)

/-- One pass of the loop of `calculate_output_derivative` (assembly_base.cpp:385-421) with `constrain_element_vector` for the Dirichlet constraints `Ct` of the thermal system; `q` the vector assembled so far. -/
noncomputable def step (dbg : Bool) (c : Stress.Coeffs) (Ct : Fin mt → Bool) (int J : ℝ) (H : Fin mt → ℝ) (U lam : Fin ns → ℝ) (q : Option (Fin mt → ℝ)) (e : Elem n nt ns mt X) : Exec (Option (Fin mt → ℝ)) :=
  if e.eval then do
    let g ← elemGrad dbg c int J H U lam e
    pure (q.bind fun q => g.map fun g j => q j + ∑ i, if e.tmap i = j then (if Ct (e.tmap i) then 0 else g i) else 0)
  else pure q

/-- `calculate_output_derivative` (assembly_base.cpp:339-430) with the adjoint of the stress functional as output object; the elements of all processes one after the other (`close`, 427).
The sums of the primal functional are those of the same state. -/
noncomputable def gradient (dbg : Bool) (c : Stress.Coeffs) (Ct : Fin mt → Bool) (ps : List (List (Elem n nt ns mt X))) (H : Fin mt → ℝ) (U lam : Fin ns → ℝ) : Exec (Option (Fin mt → ℝ)) :=
  ps.flatten.foldlM (step dbg c Ct (Stress.pnormInt c (world ps H U)) (Stress.pnormJ c (world ps H U)) H U lam) (some fun _ => 0)

end Verif.ThermAdj
