import Verif.Model.FlutterSearch
/-
  Identification of crossovers in the U-g method and the search for the root of smallest velocity: src/aeroelasticity/ug_flutter_solver.cpp.
  The map of crossovers, the interpolation search and `find_critical_root` are the code already modelled in Verif.Model.FlutterSearch; here the abscissa of a bracket is the reduced
  frequency while the map is ordered by velocity.
-/
namespace Verif.UGScan
open Verif.FlutterSearch

/-- One tracked root at a reduced frequency (ug_flutter_root.cpp:30-83). -/
structure UGPt where
  kr : ℝ
  V : ℝ
  g : ℝ
  nonphysical : Bool

/-- `modes_to_neglect` (ug_flutter_solver.cpp:708-727) for one mode. -/
noncomputable def ugNeglect (pts : List UGPt) : Bool := decide (pts.foldl (fun a p => if |p.g| > a then |p.g| else a) 0 < ctol)

/-- Check of the lowest reduced frequency (ug_flutter_solver.cpp:731-759); the entry already has its root. -/
noncomputable def ugFirst (i : Nat) : List UGPt → List (ℝ × Cross)
  | [] => []
  | p :: _ => if |p.kr| < ctol ∧ p.nonphysical = false ∧ |p.g| < ctol then [(p.V, ⟨i, ⟨p.kr, p.g, p.kr, p.g⟩, some p.V⟩)] else []

/-- `if_process` without the neglected modes (ug_flutter_solver.cpp:775-787, 829-841); `max_allowable_g` is 0.75 (695). -/
def ugUse (p q : UGPt) : Prop :=
  (p.nonphysical = false ∧ q.nonphysical = false) ∧ (|p.kr| > ctol ∨ |q.kr| > ctol) ∧ |p.g| < 3 / 4 ∧ |q.g| < 3 / 4

open Classical in
/-- Loop over neighbouring solutions in order of decreasing reduced frequency (ug_flutter_solver.cpp:774-821), for a mode that is not neglected; `p` is `sol_rit`, `q` is `sol_ritp1`. -/
noncomputable def ugPairs (i : Nat) : List UGPt → List (ℝ × Cross)
  | p :: q :: l =>
    (if ugUse p q then
      if p.g ≤ 0 ∧ 0 < q.g then [(p.V, ⟨i, ⟨p.kr, p.g, q.kr, q.g⟩, none⟩)]
      else if 0 < p.g ∧ q.g ≤ 0 then [(q.V, ⟨i, ⟨q.kr, q.g, p.kr, p.g⟩, none⟩)]
      else []
    else []) ++ ugPairs i (q :: l)
  | _ => []

open Classical in
/-- Check of the highest reduced frequency (ug_flutter_solver.cpp:825-861), on the reversed list; `none`: the end iterator is dereferenced.  `inc` is `_include_highest_kr_unstable`, which
the constructor sets to false (ug_flutter_solver.cpp:41) and nothing else sets. -/
noncomputable def ugLast (inc : Bool) (i : Nat) (neg : Bool) : List UGPt → Option (List (ℝ × Cross))
  | [] => some []
  | [p] => if p.nonphysical then some [] else none
  | p :: q :: _ =>
    some (if ugUse p q ∧ neg = false ∧ 0 < p.g ∧ p.g < 3 / 4 ∧ inc = true then [(p.V, ⟨i, ⟨p.kr, p.g, p.kr, p.g⟩, none⟩)] else [])

/-- Body of the loop over modes (ug_flutter_solver.cpp:763-863): `desc` the roots of the mode in order of decreasing reduced frequency. -/
noncomputable def ugMode (inc : Bool) (i : Nat) (neg : Bool) (desc : List UGPt) : Option (List (ℝ × Cross)) :=
  (ugLast inc i neg desc).map fun f => (if neg then [] else ugPairs i desc) ++ f

/-- Loop over modes (ug_flutter_solver.cpp:763-863). -/
noncomputable def ugLoop (inc : Bool) : Nat → List (List UGPt) → CMap → Option CMap
  | _, [], m => some m
  | i, pts :: l, m => (ugMode inc i (ugNeglect pts) pts.reverse).bind fun es => ugLoop inc (i + 1) l (insertAll m es)

/-- `_identify_crossover_points` (ug_flutter_solver.cpp:691-864): `modes` lists, for each root number, its roots in order of increasing reduced frequency. -/
noncomputable def ugIdentify (inc : Bool) (modes : List (List UGPt)) : Option CMap :=
  ugLoop inc 0 modes (insertAll [] (modes.zipIdx.flatMap fun x => ugFirst x.2 x.1))

/-- The velocity of the root at the reduced frequency found: `cross->root->V` (ug_flutter_solver.cpp:187-194, 240-247). -/
def atVelocity (V : ℝ → ℝ) : Res → Res
  | .nan => .nan
  | .done ok s ev => .done ok (s.map V) ev

/-- Refinement of a crossover (ug_flutter_solver.cpp:175-187, 228-240, 405-480): damping and velocity of each mode are functions of the reduced frequency. -/
noncomputable def ugSearch (g V : Nat → ℝ → ℝ) (tol : ℝ) (iters : Nat) (c : Cross) : Res := atVelocity (V c.mode) (bisect (g c.mode) tol iters c.br none [])

end Verif.UGScan
