import Mathlib.Data.Real.Basic
import Mathlib.Algebra.Order.Group.Abs
import Verif.Model.Exec
/-
  Stress data for plotting (src/elasticity/stress_assembly.cpp, level_set_stress_assembly.cpp:93-248) and the life of the data held by a stress output
  (src/elasticity/stress_output_base.cpp:301-604, 611-702, 851-909).  Reals stand for double.
-/
namespace Verif.StressAsm
open Verif

noncomputable section

/-- One `Data` object: strain, stress, von Mises stress and, for the parameter of interest, their stored sensitivities (`get_strain_sensitivity`, `get_stress_sensitivity`, `dvon_Mises_stress_dp`). -/
structure Data where
  strain : Fin 6 → ℝ
  stress : Fin 6 → ℝ
  vm : ℝ
  dstrain : Fin 6 → ℝ
  dstress : Fin 6 → ℝ
  dvm : ℝ

/-- `max_strain`, `max_stress`, `max_vm`. -/
structure Maxima where
  strain : Fin 6 → ℝ
  stress : Fin 6 → ℝ
  vm : ℝ

/-- `if (fabs(x) > fabs(m)) m = x` (stress_assembly.cpp:92-93). -/
def upd (m x : ℝ) : ℝ := if |x| > |m| then x else m

/-- The body of the loop (stress_assembly.cpp:81-95). -/
def step (m : Maxima) (d : Data) : Maxima :=
  { vm := if d.vm > m.vm then d.vm else m.vm, strain := fun i => upd (m.strain i) (d.strain i), stress := fun i => upd (m.stress i) (d.stress i) }

/-- `get_max_stress_strain_values` (stress_assembly.cpp:45-96); `sens`: a parameter is given. -/
def getMax (data : List Data) (sens : Bool) : Maxima :=
  match data with
  | [d] => if sens then ⟨d.dstrain, d.dstress, d.dvm⟩ else ⟨d.strain, d.stress, d.vm⟩
  | _ => data.foldl step ⟨fun _ => 0, fun _ => 0, 0⟩

/-- One element of the loop: its id, whether the output is evaluated for it, and the data `evaluate` (and `evaluate_sensitivity`) produces. -/
structure Elem where
  id : Nat
  eval : Bool
  data : List Data

/-- The vector of the stress system: value of variable `v` (0-5 strain, 6-11 stress, 12 von Mises) of an element; one dof per element and variable (`dof_number(sys, var, 0)` of the constant monomial
variables). -/
abbrev Plot := Nat → Nat → ℝ

/-- stress_assembly.cpp:202-213 and 343-354. -/
def store (id : Nat) (m : Maxima) (P : Plot) : Plot := fun e v =>
  if e = id then (if h : v < 6 then m.strain ⟨v, h⟩ else if h : v - 6 < 6 then m.stress ⟨v - 6, h⟩ else if v = 12 then m.vm else P e v) else P e v

/-- `update_stress_strain_data` (stress_assembly.cpp:101-219) and `update_stress_strain_sensitivity_data` (225-361): zero, then one element after the other; an element without any data has no entry in
the map. -/
def update (sens : Bool) (es : List Elem) : Plot :=
  es.foldl (fun P e => if e.eval then (if e.data = [] then P else store e.id (getMax e.data sens) P) else P) (fun _ _ => 0)

/-- The merge of the sub-element maxima of a cut element (level_set_stress_assembly.cpp:205-225). -/
def merge (m : Maxima) (n : Maxima) : Maxima :=
  { strain := fun i => upd (m.strain i) (n.strain i), stress := fun i => upd (m.stress i) (n.stress i), vm := max n.vm m.vm }

/-- The maxima stored for one element of the cut mesh (level_set_stress_assembly.cpp:200-225): `subs` are the data of the sub-elements with material. -/
def cutMax (subs : List (List Data)) : Maxima := subs.foldl (fun m d => merge m (getMax d false)) ⟨fun _ => 0, fun _ => 0, 0⟩

/-! ### Data held by the output object -/

/-- `_stress_data` (all points, in map order; only the multiset of points matters for the functional), `_primal_data_initialized`, `_sigma_vm_p_norm`, `_if_stress_plot_mode`. -/
structure Out (Pt : Type) where
  data : List (Nat × Pt)
  primal : Bool
  value : ℝ
  plot : Bool

variable {Pt : Type}

/-- `clear` (stress_output_base.cpp:519-566). -/
def clear (_ : Out Pt) : Out Pt := ⟨[], false, 0, false⟩

/-- `add_stress_strain_at_qp_location` (stress_output_base.cpp:611-653): for an element that is known already the number of the point must be the number of stored points (debug builds). -/
def addPt (dbg : Bool) (id qp : Nat) (x : Pt) (o : Out Pt) : Exec (Out Pt) :=
  let k := (o.data.filter fun d => d.1 == id).length
  if dbg && decide (k ≠ 0) && decide (qp ≠ k) then .error .assertFail else .ok { o with data := o.data ++ [(id, x)] }

/-- `calculate_stress` for the points of one element, starting with point number `qp`. -/
def addPts (dbg : Bool) (id : Nat) : Nat → List Pt → Out Pt → Exec (Out Pt)
  | _, [], o => .ok o
  | qp, x :: xs, o => do
    let o ← addPt dbg id qp x o
    addPts dbg id (qp + 1) xs o

/-- `evaluate` (stress_output_base.cpp:319-331) for an element with the points `xs`. -/
def evaluate (dbg : Bool) (id : Nat) (xs : List Pt) (o : Out Pt) : Exec (Out Pt) := if dbg && o.primal then .error .assertFail else addPts dbg id 0 xs o

/-- `calculate_output` with this output (assembly_base.cpp:258-333): `zero_for_analysis` (stress_output_base.cpp:302-307), then every element taking part. -/
def calculate (dbg : Bool) (es : List (Nat × List Pt)) (o : Out Pt) : Exec (Out Pt) := es.foldlM (fun o e => evaluate dbg e.1 e.2 o) { o with value := 0 }

/-- `output_total` (stress_output_base.cpp:415-424) with `functional_for_all_elems` (852-909); `F` is the functional of the points. -/
def total (dbg : Bool) (F : List Pt → ℝ) (o : Out Pt) : Exec (ℝ × Out Pt) :=
  if dbg && o.plot then .error .assertFail
  else
    let o := if o.primal then o else { o with value := F (o.data.map (·.2)), primal := true }
    .ok (o.value, o)

/-- `update_stress_strain_data` (stress_assembly.cpp:150-173) as it acts on the output object: each element starts with `clear`. -/
def plotUpdate (dbg : Bool) (es : List (Nat × List Pt)) (o : Out Pt) : Exec (Out Pt) := es.foldlM (fun o e => evaluate dbg e.1 e.2 (clear o)) o

end
end Verif.StressAsm
