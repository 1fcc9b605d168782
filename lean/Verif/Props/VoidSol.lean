import Verif.Model.VoidSol
import Verif.Props.CutAsm
/-
  C157: the condensed part of the solution takes the Newton step of the full system.
-/
namespace Verif.VoidSol
open Verif.CutAsm
open Verif.InterfaceDofs

/-! ### Specification -/

/-- Material and void rows are a partition of the rows of the element, and its void block can be solved at solution `X`. -/
def Good (solve : Solver) (X : Nat → ℝ) (e : Elem) (F : Factor) : Prop :=
  e.factor = some F ∧ (F.u ++ F.f).Perm (List.range e.n) ∧ Solves solve (block (fullJac e (elemSol e X)) F.f F.f)

/-- Linearised residual of row `a` of the whole element (times the volume fraction) for an increment `d` of the element solution. -/
noncomputable def linear (e : Elem) (s d : Nat → ℝ) (a : Nat) : ℝ := fullRes e s a + ((List.range e.n).map fun b => fullJac e s a b * d b).sum

/-- What an iteration changes of the solution the element is evaluated with. -/
noncomputable def increment (s s' : Solve) (e e' : Elem) (a : Nat) : ℝ := elemSol e' s'.X a - elemSol e s.X a

/-- Element number `i` before and after an iteration. -/
def Becomes (s s' : Solve) (i : Nat) (e e' : Elem) : Prop := s.es[i]? = some e ∧ s'.es[i]? = some e'

/-! ### Proofs -/

theorem linear_eq (e : Elem) (s d : Nat → ℝ) (u f : List Nat) (hp : (u ++ f).Perm (List.range e.n)) (a : Nat) : linear e s d a = linRes (fullJac e s) (fullRes e s) d (u ++ f) a := by
  unfold linear linRes
  rw [(hp.map _).sum_eq]

theorem elemSol_update (solve : Solver) (e : Elem) (F : Factor) (h : e.factor = some F) (hf : F.f.Nodup) (X dX X' : Nat → ℝ) :
    (∀ i : Fin F.f.length, elemSol (updateElem solve X dX e) X' (F.f.get i) = elemSol e X (F.f.get i) +
      recover solve (fullJac e (elemSol e X)) (fullRes e (elemSol e X)) F.u F.f (fun a => dX (e.dof a)) i) ∧
      (∀ k, k ∉ F.f → elemSol (updateElem solve X dX e) X' k = X' (e.dof k)) ∧ (∀ k, k ∉ F.f → elemSol e X k = X (e.dof k)) := by
  have hup : updateElem solve X dX e = { e with factor := some { F with stored := updatedSol solve (fullJac e (elemSol e X)) (fullRes e (elemSol e X)) F.u F.f (elemSol e X) (fun a => dX (e.dof a)) } } := by
    unfold updateElem; rw [h]
  have hs : ∀ k, elemSol (updateElem solve X dX e) X' k = if k ∈ F.f then updatedSol solve (fullJac e (elemSol e X)) (fullRes e (elemSol e X)) F.u F.f (elemSol e X) (fun a => dX (e.dof a)) k else X' (e.dof k) := by
    intro k
    rw [hup]
    simp only [elemSol]
    exact C75_factored_solution _ _ _ _
  have he : ∀ k, elemSol e X k = if k ∈ F.f then F.stored k else X (e.dof k) := by
    intro k
    simp only [elemSol, h]
    exact C75_factored_solution _ _ _ _
  refine ⟨fun i => ?_, fun k hk => ?_, fun k hk => ?_⟩
  · rw [hs, if_pos (List.get_mem _ _)]
    exact (C75_updated_sol solve _ _ F.u F.f _ _ hf).2 i
  · rw [hs, if_neg hk]
  · rw [he, if_neg hk]

theorem becomes_eq (solve : Solver) (s : Solve) (Y : Nat → ℝ) (lambda : ℝ) (i : Nat) (e e' : Elem) (h : Becomes s (iterate solve s Y lambda) i e e') : e' = updateElem solve s.old (fun g => -Y g) e := by
  obtain ⟨h1, h2⟩ := h
  simp only [iterate, updateVoid, List.getElem?_map, h1, Option.map_some] at h2
  exact (Option.some.inj h2).symm

/-- After any history, `old_solution` is the solution. -/
theorem C157_old_solution (solve : Solver) (X : Nat → ℝ) (es : List Elem) (steps : List ((Nat → ℝ) × ℝ)) : (run solve (start X es) steps).old = (run solve (start X es) steps).X := by
  rcases List.eq_nil_or_concat steps with rfl | ⟨l, p, rfl⟩
  · rfl
  · simp [run, List.foldl_append, iterate]

/-- C157 (part): in any state reached by a solve, after a full step (`lambda = 1`) of any direction the element solution has taken a step for which every void row of the element's linearised residual vanishes, and
for which the material rows of the full element are those the condensed element contributed to the global system.  So a direction that solves the condensed system is a Newton step of the full system.
Missing: steps shortened by the line search, `C157_line_search_fails`. -/
theorem C157_newton_partial (solve : Solver) (X0 : Nat → ℝ) (es : List Elem) (steps : List ((Nat → ℝ) × ℝ)) (Y : Nat → ℝ) (s : Solve) (hs : s = run solve (start X0 es) steps) (i : Nat) (e e' : Elem)
    (he : Becomes s (iterate solve s Y 1) i e e') (F : Factor) (h : Good solve s.X e F) :
    (∀ a ∈ F.f, linear e (elemSol e s.X) (increment s (iterate solve s Y 1) e e') a = 0) ∧
      ∀ a ∈ F.u, linear e (elemSol e s.X) (increment s (iterate solve s Y 1) e e') a = elemVec solve e s.X a + ((List.range e.n).map fun b => elemMat solve e s.X a b * -Y (e.dof b)).sum := by
  obtain ⟨hF, hp, hreg⟩ := h
  have he' := becomes_eq solve s Y 1 i e e' he
  have hnd : (F.u ++ F.f).Nodup := hp.nodup_iff.2 List.nodup_range
  have hu : F.u.Nodup := hnd.of_append_left
  have hf : F.f.Nodup := hnd.of_append_right
  have hdis : ∀ k ∈ F.u, k ∉ F.f := fun k h1 h2 => (List.disjoint_of_nodup_append hnd) h1 h2
  have hold : s.old = s.X := by rw [hs]; exact C157_old_solution solve X0 es steps
  obtain ⟨hi, hm, hm'⟩ := elemSol_update solve e F hF hf s.X (fun g => -Y g) (iterate solve s Y 1).X
  have incf : ∀ i : Fin F.f.length, increment s (iterate solve s Y 1) e e' (F.f.get i) = recover solve (fullJac e (elemSol e s.X)) (fullRes e (elemSol e s.X)) F.u F.f (fun a => -Y (e.dof a)) i := by
    intro i
    unfold increment
    rw [he', hold, hi i]; ring
  have incu : ∀ k ∈ F.u, increment s (iterate solve s Y 1) e e' k = -Y (e.dof k) := by
    intro k hk
    unfold increment
    rw [he', hold, hm k (hdis k hk), hm' k (hdis k hk)]
    simp only [iterate]; ring
  have hrec : ∀ i : Fin F.f.length, increment s (iterate solve s Y 1) e e' (F.f.get i) = recover solve (fullJac e (elemSol e s.X)) (fullRes e (elemSol e s.X)) F.u F.f (increment s (iterate solve s Y 1) e e') i := by
    intro i
    rw [incf i]
    unfold recover
    have : sub (fun a => -Y (e.dof a)) F.u = sub (increment s (iterate solve s Y 1) e e') F.u := by
      funext k
      exact (incu _ (List.get_mem _ _)).symm
    rw [this]
  refine ⟨fun a ha => ?_, fun a ha => ?_⟩
  · rw [linear_eq e _ _ F.u F.f hp]
    exact (C75_void_rows solve _ _ _ F.u F.f hreg).2 hrec a ha
  · rw [linear_eq e _ _ F.u F.f hp]
    obtain ⟨i, rfl⟩ := List.get_of_mem ha
    rw [C75_material_rows solve _ _ _ F.u F.f hrec i]
    have hv : elemVec solve e s.X (F.u.get i) = factoredRes solve (fullJac e (elemSol e s.X)) (fullRes e (elemSol e s.X)) F.u F.f i := by
      unfold elemVec
      rw [hF]
      exact (put_apply F.u hu _ _).1 i
    have hM : ∀ b, elemMat solve e s.X (F.u.get i) b = put2 F.u (factoredJac solve (fullJac e (elemSol e s.X)) F.u F.f) (fun a b => if a = b then 1 / 1000000 else 0) (F.u.get i) b := by
      intro b
      unfold elemMat
      rw [hF]
    obtain ⟨p1, p2⟩ := put2_apply F.u hu (factoredJac solve (fullJac e (elemSol e s.X)) F.u F.f) (fun a b => if a = b then 1 / 1000000 else 0)
    have hsum : ((List.range e.n).map fun b => elemMat solve e s.X (F.u.get i) b * -Y (e.dof b)).sum = ((F.u ++ F.f).map fun b => elemMat solve e s.X (F.u.get i) b * -Y (e.dof b)).sum :=
      ((hp.map _).sum_eq).symm
    rw [hv, hsum, List.map_append, List.sum_append]
    congr 1
    have hz : (F.f.map fun b => elemMat solve e s.X (F.u.get i) b * -Y (e.dof b)).sum = 0 := by
      refine List.sum_eq_zero fun x hx => ?_
      obtain ⟨b, hb, rfl⟩ := List.mem_map.1 hx
      have hbu : b ∉ F.u := fun h => hdis b h hb
      have hne : F.u.get i ≠ b := fun h => hbu (h ▸ List.get_mem _ _)
      rw [hM, p2 _ _ fun h => hbu h.2, if_neg hne, zero_mul]
    rw [hz, add_zero, sum_map_get]
    simp only [Matrix.mulVec, dotProduct]
    refine Finset.sum_congr rfl fun j _ => ?_
    rw [hM, p1 i j, incu _ (List.get_mem _ _)]

/-- C157: for an element whose residual is affine, one full step brings the void rows to equilibrium: the residual at the new solution vanishes there. -/
theorem C157_linear (solve : Solver) (X0 : Nat → ℝ) (es : List Elem) (steps : List ((Nat → ℝ) × ℝ)) (Y : Nat → ℝ) (s : Solve) (hs : s = run solve (start X0 es) steps) (i : Nat) (e e' : Elem)
    (he : Becomes s (iterate solve s Y 1) i e e') (F : Factor) (h : Good solve s.X e F) (haff : ∀ v d : Nat → ℝ, ∀ a, e.full.res (fun k => v k + d k) a = e.full.res v a + ((List.range e.n).map fun b => e.full.jac v a b * d b).sum) :
    ∀ a ∈ F.f, fullRes e' (elemSol e' (iterate solve s Y 1).X) a = 0 := by
  intro a ha
  have h0 := (C157_newton_partial solve X0 es steps Y s hs i e e' he F h).1 a ha
  rw [← h0]
  have he' := becomes_eq solve s Y 1 i e e' he
  have hfull : e'.full = e.full ∧ e'.frac = e.frac := by
    rw [he']
    unfold updateElem
    rw [h.1]
    exact ⟨rfl, rfl⟩
  have hsol : elemSol e' (iterate solve s Y 1).X = fun k => elemSol e s.X k + increment s (iterate solve s Y 1) e e' k := by
    funext k
    simp only [increment]; ring
  unfold fullRes
  rw [hfull.1, hfull.2, hsol, haff]
  unfold linear fullRes fullJac
  rw [add_mul]
  congr 1
  rw [show (fun b => e.full.jac (elemSol e s.X) a b * e.frac * increment s (iterate solve s Y 1) e e' b) = fun b => e.full.jac (elemSol e s.X) a b * increment s (iterate solve s Y 1) e e' b * e.frac from funext fun b => by ring]
  rw [List.sum_map_mul_right]

/-- Spring between a material dof 0 and a void dof 1: `r = K u`, `K = [[1, -1], [-1, 1]]` plus a unit spring on the void dof. -/
def spring : Sub where
  res := fun u a => if a = 0 then u 0 - u 1 else 2 * u 1 - u 0
  jac := fun _ a b => if a = 0 then (if b = 0 then 1 else -1) else (if b = 0 then -1 else 2)
  dres := fun _ _ => 0
  bnd := none
  out := fun _ => 0
  dout := fun _ _ => 0
  outSens := fun _ _ => 0

def springElem : Elem := ⟨2, fun a => a, false, [1], [], [], spring, 1, some ⟨[0], [1], fun _ => 0⟩, false⟩

theorem spring_good (X : Nat → ℝ) : Good solveEx X springElem ⟨[0], [1], fun _ => 0⟩ := by
  refine ⟨rfl, by decide, ?_⟩
  refine solveEx_solves _ ?_
  rw [isUnit_iff_ne_zero]
  have : (block (fullJac springElem (elemSol springElem X)) [1] [1]).det = 2 := by
    rw [show (block (fullJac springElem (elemSol springElem X)) [1] [1]).det = block (fullJac springElem (elemSol springElem X)) [1] [1] 0 0 from Matrix.det_fin_one _]
    simp [block, fullJac, springElem, spring]
  rw [this]; norm_num

/-- Non-vacuity of C157. -/
example : Good solveEx (run solveEx (start (fun _ => 0) [springElem]) []).X springElem ⟨[0], [1], fun _ => 0⟩ ∧ (∀ Y, ∃ e', Becomes (run solveEx (start (fun _ => 0) [springElem]) []) (iterate solveEx (run solveEx (start (fun _ => 0) [springElem]) []) Y 1) 0 springElem e') ∧
    ∀ v d : Nat → ℝ, ∀ a, springElem.full.res (fun k => v k + d k) a = springElem.full.res v a + ((List.range springElem.n).map fun b => springElem.full.jac v a b * d b).sum := by
  refine ⟨spring_good _, fun Y => ⟨_, rfl, rfl⟩, fun v d a => ?_⟩
  simp only [springElem, spring, List.range_succ, List.range_zero, List.nil_append, List.map_append, List.map_cons, List.map_nil, List.sum_append, List.sum_cons, List.sum_nil]
  split <;> simp <;> ring

/-- C157 (what the code does not do): the monitor hands over the whole direction even when the line search takes only part of it.  An element whose void row is in equilibrium is thrown out of it by a half step. -/
theorem C157_line_search_fails : ∃ (e : Elem) (F : Factor) (X Y : Nat → ℝ), Good solveEx X e F ∧ (∀ a ∈ F.f, fullRes e (elemSol e X) a = 0) ∧
    ∃ e', Becomes (start X [e]) (iterate solveEx (start X [e]) Y (1 / 2)) 0 e e' ∧ ∃ a ∈ F.f, fullRes e' (elemSol e' (iterate solveEx (start X [e]) Y (1 / 2)).X) a ≠ 0 := by
  refine ⟨springElem, ⟨[0], [1], fun _ => 0⟩, fun _ => 0, fun g => if g = 0 then -1 else 0, spring_good _, ?_, updateElem solveEx (fun _ => 0) (fun g => -(if g = 0 then -1 else 0)) springElem, ⟨rfl, rfl⟩, 1, by simp, ?_⟩
  · intro a ha
    have : a = 1 := by simpa using ha
    subst this
    simp [fullRes, springElem, spring, elemSol, factoredSolution]
  · have hg := spring_good (fun _ => 0)
    obtain ⟨hi, hm, hm'⟩ := elemSol_update solveEx springElem ⟨[0], [1], fun _ => 0⟩ rfl (by simp) (fun _ => 0) (fun g => -(if g = 0 then -1 else 0)) (iterate solveEx (start (fun _ => 0) [springElem]) (fun g => if g = 0 then -1 else 0) (1 / 2)).X
    have h0 := hm 0 (by simp)
    have h0' : elemSol (updateElem solveEx (fun _ => 0) (fun g => -(if g = 0 then -1 else 0)) springElem) (iterate solveEx (start (fun _ => 0) [springElem]) (fun g => if g = 0 then -1 else 0) (1 / 2)).X 0 = 1 / 2 := by
      rw [h0]; simp [iterate, start, springElem]
    -- the void dof takes the full step: equilibrium for a unit displacement of dof 0
    have hfull := C157_linear solveEx (fun _ => 0) [springElem] [] (fun g => if g = 0 then -1 else 0) (start (fun _ => 0) [springElem]) rfl 0 springElem _ ⟨rfl, rfl⟩ _ hg ?_ 1 (by simp)
    · obtain ⟨gi, gm, _⟩ := elemSol_update solveEx springElem ⟨[0], [1], fun _ => 0⟩ rfl (by simp) (fun _ => 0) (fun g => -(if g = 0 then -1 else 0)) (iterate solveEx (start (fun _ => 0) [springElem]) (fun g => if g = 0 then -1 else 0) 1).X
      have h1 : elemSol (updateElem solveEx (fun _ => 0) (fun g => -(if g = 0 then -1 else 0)) springElem) (iterate solveEx (start (fun _ => 0) [springElem]) (fun g => if g = 0 then -1 else 0) (1 / 2)).X 1 =
          elemSol (updateElem solveEx (fun _ => 0) (fun g => -(if g = 0 then -1 else 0)) springElem) (iterate solveEx (start (fun _ => 0) [springElem]) (fun g => if g = 0 then -1 else 0) 1).X 1 :=
        (hi 0).trans (gi 0).symm
      have g0 : elemSol (updateElem solveEx (fun _ => 0) (fun g => -(if g = 0 then -1 else 0)) springElem) (iterate solveEx (start (fun _ => 0) [springElem]) (fun g => if g = 0 then -1 else 0) 1).X 0 = 1 := by
        rw [gm 0 (by simp)]; simp [iterate, start, springElem]
      have ff : (updateElem solveEx (fun _ => 0) (fun g => -(if g = 0 then -1 else 0)) springElem).full = spring ∧ (updateElem solveEx (fun _ => 0) (fun g => -(if g = 0 then -1 else 0)) springElem).frac = 1 := ⟨rfl, rfl⟩
      simp only [start] at hfull
      simp only [fullRes] at hfull ⊢
      rw [ff.1, ff.2] at hfull ⊢
      simp only [spring] at hfull ⊢
      simp only [start] at h0' h1 g0 ⊢
      rw [h0', h1]
      simp only [one_ne_zero, if_false] at hfull ⊢
      rw [g0] at hfull
      intro hc
      linarith
    · intro v d a
      simp only [springElem, spring, List.range_succ, List.range_zero, List.nil_append, List.map_append, List.map_cons, List.map_nil, List.sum_append, List.sum_cons, List.sum_nil]
      split <;> simp <;> ring

end Verif.VoidSol
