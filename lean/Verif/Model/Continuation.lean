import Mathlib.Data.Real.Basic
import Mathlib.Data.Real.Sqrt
import Mathlib.Analysis.SpecialFunctions.Pow.Real
import Mathlib.Data.Matrix.Mul
/-
  Model of src/solver/continuation_solver_base.cpp, arclength_continuation_solver.cpp, pseudo_arclength_continuation_solver.cpp.
-/
namespace Verif.Cont
open Matrix

/-! #### The step loop -/

/-- Public parameters of the solver, continuation_solver_base.cpp:37-46. -/
structure Params where
  max_it : Nat
  abs_tol : ℝ
  rel_tol : ℝ
  min_step : ℝ
  max_step : ℝ
  expo : ℝ
  desired : Nat

/-- Defaults, continuation_solver_base.cpp:37-46. -/
noncomputable def defaults : Params := ⟨10, 1 / 10 ^ 8, 1 / 10 ^ 8, 2, 20, 1 / 2, 5⟩

/-- Variables of `solve()`: solution and load parameter `(X, p)` of type `S`, the search direction data kept by the derived solver `D`
(empty for arclength), `arc_length`, `iter`, `norm`, `cont`. -/
structure Cfg (S D : Type) where
  s : S
  d : D
  arc : ℝ
  iter : Nat
  norm : ℝ
  cont : Bool

/-- The problem: `_solve_NR_iterate` and `_res_norm` as functions of the arc length, the state and the direction data; both may update the
direction data (`_update_search_direction` assigns `_t0_X`, `_t0_p`, pseudo_arclength_continuation_solver.cpp:196-200). -/
structure Problem (S D : Type) where
  newton : ℝ → S → D → S × D
  resNorm : ℝ → S → D → ℝ × D

variable {S D : Type}

/-- One pass of the `while (cont)` body, continuation_solver_base.cpp:117-153.  `s0`, `d0` are the values saved at entry
(`_X0`, `_p0`, and `_save_iteration_data`), `norm0` the residual norm at entry.
`norm/norm0` with `norm0 == 0` is inf or NaN in C++, for which the comparison is false. -/
noncomputable def body (P : Params) (Q : Problem S D) (s0 : S) (d0 : D) (norm0 : ℝ) (c : Cfg S D) : Cfg S D :=
  let r := Q.newton c.arc c.s c.d
  let q := Q.resNorm c.arc r.1 r.2
  let norm := q.1
  let iter := c.iter + 1
  let cont := true
  let cont := if norm < P.abs_tol then false else cont
  let cont := if norm0 ≠ 0 ∧ norm / norm0 < P.rel_tol then false else cont
  if P.max_it ≤ iter then
    if P.min_step < c.arc then
      ⟨s0, d0, max P.min_step (1 / 2 * c.arc), 0, norm, true⟩
    else ⟨r.1, q.2, c.arc, iter, norm, false⟩
  else ⟨r.1, q.2, c.arc, iter, norm, cont⟩

/-- Loop entry, continuation_solver_base.cpp:97-115: `norm0` is computed after saving the direction data and may change it. -/
noncomputable def start (Q : Problem S D) (s0 : S) (d0 : D) (arc : ℝ) : Cfg S D :=
  let q := Q.resNorm arc s0 d0
  ⟨s0, q.2, arc, 0, q.1, true⟩

/-- The configuration after `k` passes; once `cont` is false nothing changes. -/
noncomputable def pass (P : Params) (Q : Problem S D) (s0 : S) (d0 : D) (norm0 : ℝ) (c : Cfg S D) : Cfg S D :=
  if c.cont then body P Q s0 d0 norm0 c else c

/-- `solve()` up to the end of the loop, observed after `k` passes. -/
noncomputable def solveUpTo (P : Params) (Q : Problem S D) (s0 : S) (d0 : D) (arc : ℝ) (k : Nat) : Cfg S D :=
  (pass P Q s0 d0 (Q.resNorm arc s0 d0).1)^[k] (start Q s0 d0 arc)

/-- Step-size update after the loop, continuation_solver_base.cpp:164-179. -/
noncomputable def adapt (P : Params) (iter : Nat) (arc : ℝ) : ℝ :=
  if iter = 0 then arc
  else
    let factor := ((P.desired : ℝ) / ((iter : ℝ) + 1)) ^ P.expo
    if 1 < factor then min P.max_step (factor * arc)
    else if factor < 1 then max P.min_step (factor * arc)
    else arc

/-! #### Linear algebra of a Newton step -/
variable {n : Type} [Fintype n]

/-- `_solve_schur_factorization`, continuation_solver_base.cpp:420-566, after assembly: `solve` is the linear solver for the current Jacobian, `f`, `fp`
the residual and its parameter derivative, `gX`, `gp`, `g` the constraint data; `dXdpIn` is the caller's vector used when neither update
flag is set (513).  Constraint enforcement is not modelled.  Returns `(dX, dp)`. -/
noncomputable def schur (solve : (n → ℝ) → (n → ℝ)) (f fp gX : n → ℝ) (gp g : ℝ) (updateDfdp updateDXdp : Bool) (dXdpIn : n → ℝ) :
    (n → ℝ) × ℝ :=
  let r1 := solve f
  let dXdp := if updateDfdp || updateDXdp then (-1 : ℝ) • solve fp else dXdpIn
  let a := gp + gX ⬝ᵥ dXdp
  let dp := 1 / a * (-g + gX ⬝ᵥ r1)
  let r := (-1 : ℝ) • (f + dp • fp)
  (solve r, dp)

/-- `_solve`, continuation_solver_base.cpp:184-415: the bordered matrix that is assembled (last index `none`) -/
def borderedMat (J : Matrix n n ℝ) (fp gX : n → ℝ) (gp : ℝ) : Matrix (Option n) (Option n) ℝ
  | some i, some j => J i j
  | some i, none => fp i
  | none, some j => gX j
  | none, none => gp

/-- ... and its right-hand side `-(f, g)`, continuation_solver_base.cpp:336-349. -/
def borderedRhs (f : n → ℝ) (g : ℝ) : Option n → ℝ
  | some i => (-1 : ℝ) * f i
  | none => (-1 : ℝ) * g

/-! #### Pseudo-arclength -/

/-- End of `_update_search_direction`, pseudo_arclength_continuation_solver.cpp:188-200: normalisation of the raw direction. -/
noncomputable def normalise (tX : n → ℝ) (tp : ℝ) : (n → ℝ) × ℝ :=
  let val := Real.sqrt (tp * tp + (Real.sqrt (tX ⬝ᵥ tX)) ^ 2)
  ((1 / val) • tX, tp / val)

/-- `_update_search_direction` on the Schur path, pseudo_arclength_continuation_solver.cpp:142-201: residual zero, derivative `dfdp` scaled by
`X_scale/p_scale`, border `(t0X, t0p)`, `g = -1`; flags `(update_dfdp, update_dXdp) = (false, true)`. -/
noncomputable def searchDir (solve : (n → ℝ) → (n → ℝ)) (fp t0X : n → ℝ) (t0p Xs ps : ℝ) : (n → ℝ) × ℝ :=
  let raw := schur solve 0 ((Xs / ps) • fp) t0X t0p (-1) false true 0
  normalise raw.1 raw.2

/-- Constraint `_g`, pseudo_arclength_continuation_solver.cpp:227-244. -/
noncomputable def gPseudo (Xs ps arc : ℝ) (X0 : n → ℝ) (p0 : ℝ) (tX : n → ℝ) (tp : ℝ) (X : n → ℝ) (p : ℝ) : ℝ :=
  (Xs * ((X + (-1 : ℝ) • X0) ⬝ᵥ tX) + ps * (p - p0) * tp) - arc

/-- The Newton step of the pseudo-arclength solver (Schur path), pseudo_arclength_continuation_solver.cpp:84-139, given the search direction `t1`. -/
noncomputable def pseudoNewton (solve : (n → ℝ) → (n → ℝ)) (f fp : n → ℝ) (Xs ps arc : ℝ) (X0 : n → ℝ) (p0 : ℝ)
    (t1 : (n → ℝ) × ℝ) (X : n → ℝ) (p : ℝ) : (n → ℝ) × ℝ :=
  let g := gPseudo Xs ps arc X0 p0 t1.1 t1.2 X p
  let d := schur solve f fp (Xs • t1.1) (ps * t1.2) g true true 0
  (X + d.1, p + d.2)

/-! #### Arclength -/

/-- `_g` of the arclength solver, arclength_continuation_solver.cpp:193-230: `(g, dgdp, dgdX)` for a given `dXdp`. -/
noncomputable def gArc (sgn Xs ps arc : ℝ) (X0 : n → ℝ) (p0 : ℝ) (dXdp X : n → ℝ) (p : ℝ) : ℝ × ℝ × (n → ℝ) :=
  let dpds := sgn * Real.sqrt (1 / ((Xs / ps) ^ 2 * (dXdp ⬝ᵥ dXdp) + 1))
  let dX := X + (-1 : ℝ) • X0
  ((Xs * ((dX ⬝ᵥ dXdp) * dpds * Xs / ps) + ps * (p - p0) * dpds) - arc, ps * dpds, (Xs * (dpds * Xs / ps)) • dXdp)

/-- `_dXdp`, arclength_continuation_solver.cpp:123-170: solved with the matrix currently stored in the system (`solveOld`), which is the one of the last
assembly, not the Jacobian at the current iterate. -/
def arcDXdp (solveOld : (n → ℝ) → (n → ℝ)) (fp : n → ℝ) : n → ℝ := (-1 : ℝ) • solveOld fp

/-- Newton increment of the arclength solver on the Schur path, arclength_continuation_solver.cpp:77-120: `dXdp` comes from `_g`, flags
`(update_dfdp, update_dXdp) = (false, false)`, while the Jacobian is re-assembled. -/
noncomputable def arcNewton (solveOld solveNew : (n → ℝ) → (n → ℝ)) (f fp : n → ℝ) (sgn Xs ps arc : ℝ) (X0 : n → ℝ) (p0 : ℝ) (X : n → ℝ)
    (p : ℝ) : (n → ℝ) × ℝ :=
  let dXdp := arcDXdp solveOld fp
  let G := gArc sgn Xs ps arc X0 p0 dXdp X p
  schur solveNew f fp G.2.2 G.2.1 G.1 false false dXdp

/-- `initialize(dp)`: scales and first arc length, arclength_continuation_solver.cpp:65-69 = pseudo_arclength_continuation_solver.cpp:65-69, from the norm
`nX` of the solution change. Returns `(X_scale, p_scale, arc_length)`. -/
noncomputable def initScales (nX dp : ℝ) : ℝ × ℝ × ℝ :=
  let Xs := 1 / nX
  let ps := 1 / |dp|
  (Xs, ps, Real.sqrt (ps ^ 2 * dp * dp + Xs ^ 2 * nX ^ 2))

end Verif.Cont
