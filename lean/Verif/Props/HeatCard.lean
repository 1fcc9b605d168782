import Verif.Model.HeatCard
import Verif.Props.SectionDeps
import Verif.Props.HeatPhys
/-! C184: heat conduction elements from their property cards. -/
namespace Verif.HeatCard
open Verif.Fn Verif.SecDep Verif.Heat
variable {X : Type} {n d : Nat}

/-! ## Specification -/

/-- `derivative(*_active_sol_function, ...)` of every function is its derivative with respect to the temperature. -/
def TempDerivs (h : Heap) (D : Data X) (v : Nat → ℝ) : Prop :=
  ∀ y, isField h y = true → ∀ x T, HasDerivAt (fun T => D.F.val v y (x, some T)) (D.dT v y (x, some T)) T

/-- The functions a load uses are field functions of the program; the parameter `p` is none of its radiation constants. -/
def LoadOk (h : Heap) (p : Nat) : LoadFn → Prop
  | .flux q => isField h q = true
  | .convection c amb => isField h c = true ∧ isField h amb = true
  | .radiation eps amb ref sb => isField h eps = true ∧ p ≠ amb ∧ p ≠ ref ∧ p ≠ sb
  | .source q => isField h q = true
  | .dirichlet => True
  | .other => True

/-- Function registered in a card under a name. -/
def Reg (h : Heap) (s : FSet) (nm : String) (x : Nat) : Prop := s.get (isField h) nm = .ok x

/-! ## Functions found in the cards -/

/-- The size functions are field functions. -/
def SizeFields (hp : Heap) : Size → Prop
  | .area hy hz => isField hp hy = true ∧ isField hp hz = true
  | .thickness h => isField hp h = true
  | .unit => True

/-- All functions of the element are field functions. -/
def AllFields (hp : Heap) (P : Fns) : Prop :=
  SizeFields hp P.size ∧
    (∀ i, isField hp (P.k i) = true) ∧ isField hp P.rho = true ∧ isField hp P.cp = true

theorem bind_inv {α β : Type} {x : Exec α} {f : α → Exec β} {b : β} (h : x >>= f = .ok b) : ∃ a, x = .ok a ∧ f a = .ok b := by
  cases x with
  | error e => cases h
  | ok a => exact ⟨a, rfl, h⟩

theorem size_fields {hp : Heap} {c : Card} {s : Shape d} {z : Size} (h : sizeOf hp c s = .ok z) :
    SizeFields hp z := by
  cases s with
  | bar =>
    obtain ⟨hy, h1, h⟩ := bind_inv h
    obtain ⟨hz, h2, h⟩ := bind_inv h
    obtain ⟨_, _, h⟩ := bind_inv h
    obtain ⟨_, _, h⟩ := bind_inv h
    obtain ⟨_, _, h⟩ := bind_inv h
    obtain ⟨_, _, h⟩ := bind_inv h
    have := Except.ok.inj h
    subst this
    exact ⟨(get_spec h1).2, (get_spec h2).2⟩
  | plate =>
    obtain ⟨h', h1, h⟩ := bind_inv h
    have := Except.ok.inj h
    subst this
    exact (get_spec h1).2
  | solid =>
    have := Except.ok.inj h
    subst this
    trivial

theorem getIf_field {hp : Heap} {s : FSet} {nm : String} {b : Bool} {k x : Nat} (hk : isField hp k = true) (h : getIf hp s nm b k = .ok x) : isField hp x = true := by
  unfold getIf at h
  cases b with
  | false =>
    have := Except.ok.inj h
    subst this
    exact hk
  | true => exact (get_spec h).2

theorem fns_fields {hp : Heap} {c : Card} {iso tr : Bool} {s : Shape d} {P : Fns} (h : fnsOf hp c iso tr s = .ok P) : AllFields hp P := by
  obtain ⟨z, h1, h⟩ := bind_inv h
  obtain ⟨k0, h2, h⟩ := bind_inv h
  obtain ⟨k1, h3, h⟩ := bind_inv h
  obtain ⟨k2, h4, h⟩ := bind_inv h
  obtain ⟨rho, h5, h⟩ := bind_inv h
  obtain ⟨cp, h6, h⟩ := bind_inv h
  have e := Except.ok.inj h
  subst e
  have f0 := (get_spec h2).2
  refine ⟨size_fields h1, fun i => ?_, getIf_field f0 h5, getIf_field f0 h6⟩
  show isField hp (if i = 0 then k0 else if i = 1 then k1 else k2) = true
  split
  · exact f0
  · split
    · exact getIf_field f0 h3
    · exact getIf_field f0 h4

/-! ## Derivatives of the section matrices -/

theorem size_deriv {hp : Heap} {z : Size} (hz : SizeFields hp z)
    (val : ℝ → Nat → ℝ) (der : Nat → ℝ) (t : ℝ) (hd : ∀ y, isField hp y = true → HasDerivAt (fun s => val s y) (der y) t) :
    HasDerivAt (fun s => (sizeVal (val s) z).getD 1) (sizeDer (val t) der z) t ∧ ∀ m dm, HasDerivAt m dm t → HasDerivAt (fun s => scaled (sizeVal (val s) z) (m s)) (dScaled (sizeVal (val t) z) (sizeDer (val t) der z) (m t) dm) t := by
  cases z with
  | area hy hz' =>
    have a := (hd _ hz.1).fun_mul (hd _ hz.2)
    refine ⟨a, fun m dm hm => ?_⟩
    refine (hm.fun_mul a).congr_deriv ?_
    simp only [dScaled, sizeVal, sizeDer, Section1D.area, Section1D.dArea]; ring
  | thickness h =>
    have a := hd _ hz
    refine ⟨a, fun m dm hm => ?_⟩
    refine (hm.fun_mul a).congr_deriv ?_
    simp only [dScaled, sizeVal, sizeDer]; ring
  | unit => exact ⟨hasDerivAt_const _ _, fun m dm hm => hm⟩

theorem cond_deriv {hp : Heap} {P : Fns} (hP : AllFields hp P) (val : ℝ → Nat → ℝ) (der : Nat → ℝ) (t : ℝ) (hd : ∀ y, isField hp y = true → HasDerivAt (fun s => val s y) (der y) t) (i j : Fin d) :
    HasDerivAt (fun s => cond P (val s) d i j) (dCond P (val t) der d i j) t := by
  refine (size_deriv hP.1 val der t hd).2 (fun s => Material.conductance d (fun i => val s (P.k i)) i j) _ ?_
  unfold Material.conductance
  by_cases h : i = j
  · simp only [h, if_true]; exact hd _ (hP.2.1 _)
  · simp only [h, if_false]; exact hasDerivAt_const _ _

theorem cap_deriv {hp : Heap} {P : Fns} (hP : AllFields hp P) (val : ℝ → Nat → ℝ) (der : Nat → ℝ) (t : ℝ) (hd : ∀ y, isField hp y = true → HasDerivAt (fun s => val s y) (der y) t) :
    HasDerivAt (fun s => cap P (val s)) (dCap P (val t) der) t := by
  refine (size_deriv hP.1 val der t hd).2 (fun s => Material.capacitance (val s P.cp) (val s P.rho)) _ ?_
  exact (hd _ hP.2.2.2).fun_mul (hd _ hP.2.2.1)

theorem smooth {hp : Heap} {D : Data X} {v : Nat → ℝ} (hT : TempDerivs hp D v) {P : Fns} (hP : AllFields hp P) (active diag : Bool) (p : Nat) : MatSmooth (matOf D P d active diag v p) := by
  intro _
  exact ⟨fun x T i j => cond_deriv hP (fun T y => D.F.val v y (x, some T)) (fun y => D.dT v y (x, some T)) T (fun y hy => hT y hy x T) i j,
    fun x T => cap_deriv hP (fun T y => D.F.val v y (x, some T)) (fun y => D.dT v y (x, some T)) T (fun y hy => hT y hy x T)⟩

/-! ## Tangent -/

/-- C184: if the functions of the cards report their temperature derivative, the Jacobian of an element built from them is the derivative of its residual, for bars, plates and solids, isotropic or orthotropic
conductivity, all loads, and temperature dependent sections. -/
theorem C184_tangent (Q : Problem n d X) (D : Data X) (v : Nat → ℝ) (hT : TempDerivs Q.hp D v) (p : Nat) (u₀ r₀ : Fin n → ℝ) (h : residual Q D u₀ p v = .ok r₀) :
    ∃ (R : (Fin n → ℝ) → Fin n → ℝ) (J : (Fin n → ℝ) → Fin n → Fin n → ℝ), ∀ u, residual Q D u p v = .ok (R u) ∧ jacobian Q D u p v = .ok (J u) ∧ IsJacobian R (J u) u := by
  obtain ⟨P, hP, h⟩ := bind_inv h
  have hF := fns_fields hP
  split at h
  · rename_i r hr
    obtain ⟨R, hR, hJ⟩ := C106_element _ (smooth hT hF Q.active Q.diag p) _ _ _ u₀ r hr
    refine ⟨R, fun u => Heat.elemJac (matOf D P d Q.active Q.diag v p) (elemOf D P Q.e v p) (loadsOf D v p Q.side) (loadsOf D v p Q.vol) u, fun u => ⟨?_, ?_, hJ u⟩⟩
    · rw [residual, bind_ok hP]
      simp only [hR u]
      rfl
    · rw [jacobian, bind_ok hP]; rfl
  · cases h

/-! ## Parameters -/

theorem shift_deriv {F : ℝ → ℝ} {F' a : ℝ} (h : HasDerivAt F F' a) : HasDerivAt (fun t : ℝ => F (a + t)) F' 0 := by
  have h' : HasDerivAt F F' (a + 0) := by simpa using h
  exact h'.comp_const_add a 0

theorem unshift_deriv {F : ℝ → ℝ} {F' a : ℝ} (h : HasDerivAt (fun t : ℝ => F (a + t)) F' 0) : HasDerivAt F F' a := by
  have h' : HasDerivAt (fun t : ℝ => F (a + t)) F' (-a + a) := by simpa using h
  have := h'.comp_const_add (-a) a
  refine this.congr_of_eventuallyEq (Filter.Eventually.of_forall fun t => ?_)
  simp

/-- The path along parameter `p`. -/
noncomputable def path (v : Nat → ℝ) (p : Nat) (t : ℝ) : Nat → ℝ := Function.update v p (v p + t)

theorem path_zero (v : Nat → ℝ) (p : Nat) : path v p 0 = v := by simp [path]

theorem val_path {h : Heap} {F : Funcs (X × Option ℝ)} {v : Nat → ℝ} {p : Nat} (hv : Derivs h F v p) {y : Nat} (hy : isField h y = true) (pt : X × Option ℝ) :
    HasDerivAt (fun t => F.val (path v p t) y pt) (F.der v y p pt) 0 := shift_deriv (F := fun t => F.val (Function.update v p t) y pt) (hv y hy pt)

theorem field_path {h : Heap} {D : Data X} {v : Nat → ℝ} {p : Nat} (hv : Derivs h D.F v p) {y : Nat} (hy : isField h y = true) (x : X) :
    HasDerivAt (fun t => (field D (path v p t) p y).val x) ((field D (path v p 0) p y).der x) 0 := by
  rw [path_zero]
  exact val_path hv hy (x, none)

theorem load_family {h : Heap} {D : Data X} {v : Nat → ℝ} {p : Nat} (hv : Derivs h D.F v p) {l : LoadFn} (hl : LoadOk h p l) : LoadFamily fun t => loadOf D (path v p t) p l := by
  cases l with
  | flux q => exact .flux _ fun x => field_path hv hl x
  | convection c amb => exact .convection _ _ (fun x => field_path hv hl.1 x) fun x => field_path hv hl.2 x
  | radiation eps amb ref sb =>
    obtain ⟨h1, h2, h3, h4⟩ := hl
    have e : (fun t => loadOf D (path v p t) p (.radiation eps amb ref sb)) = fun t => .radiation (field D (path v p t) p eps) (v amb) (v ref) (v sb) 0 0 0 := by
      funext t
      simp only [loadOf, path, if_neg h2, if_neg h3, if_neg h4, Function.update_of_ne (Ne.symm h2), Function.update_of_ne (Ne.symm h3), Function.update_of_ne (Ne.symm h4)]
    rw [e]
    exact .radiation _ _ _ _ fun x => field_path hv h1 x
  | source q => exact .source _ fun x => field_path hv hl x
  | dirichlet => exact .dirichlet
  | other => exact .other

theorem mat_family {h : Heap} {D : Data X} {v : Nat → ℝ} {p : Nat} (hv : Derivs h D.F v p) {P : Fns} (hP : AllFields h P) (active diag : Bool) : MatFamily fun t => matOf D P d active diag (path v p t) p := by
  refine ⟨fun _ => rfl, fun _ => rfl, fun x T i j => ?_, fun x T => ?_⟩
  · have := cond_deriv hP (d := d) (fun t y => D.F.val (path v p t) y (x, T)) (fun y => D.F.der v y p (x, T)) 0 (fun y hy => val_path hv hy (x, T)) i j
    simp only [path_zero] at this ⊢
    exact this
  · have := cap_deriv hP (fun t y => D.F.val (path v p t) y (x, T)) (fun y => D.F.der v y p (x, T)) 0 (fun y hy => val_path hv hy (x, T))
    simp only [path_zero] at this ⊢
    exact this

theorem sec_family {h : Heap} {D : Data X} {v : Nat → ℝ} {p : Nat} (hv : Derivs h D.F v p) {P : Fns} (hP : AllFields h P) : SecFamily fun t => sectionOf D P (path v p t) p := by
  cases hz : P.size with
  | unit => exact .inl fun t => by simp only [sectionOf, hz]
  | area hy hz' =>
    refine .inr ⟨_, fun t => by simp only [sectionOf, hz]; exact rfl, fun x => ?_⟩
    have := (size_deriv hP.1 (fun t y => D.F.val (path v p t) y (x, none)) (fun y => D.F.der v y p (x, none)) 0 (fun y hy => val_path hv hy (x, none))).1
    simp only [path_zero, hz] at this ⊢
    exact this
  | thickness h' =>
    refine .inr ⟨_, fun t => by simp only [sectionOf, hz]; exact rfl, fun x => ?_⟩
    have := (size_deriv hP.1 (fun t y => D.F.val (path v p t) y (x, none)) (fun y => D.F.der v y p (x, none)) 0 (fun y hy => val_path hv hy (x, none))).1
    simp only [path_zero, hz] at this ⊢
    exact this

theorem upd_path (v : Nat → ℝ) (p : Nat) (t : ℝ) : Function.update v p t = path v p (t - v p) := by simp [path]

/-- Which loads are supported does not depend on values. -/
theorem ok_const (D : Data X) (p : Nat) (v w : Nat → ℝ) (l : LoadFn) : sideOk (loadOf D v p l) = sideOk (loadOf D w p l) ∧ volOk (loadOf D v p l) = volOk (loadOf D w p l) := by cases l <;> exact ⟨rfl, rfl⟩

theorem supported (m m' : Heat.Mat d X) (e : Heat.Elem n d X) (sec sec' : Option (Heat.Field X)) (sb sb' vb vb' : List (Nat × Load X)) (u r : Fin n → ℝ)
    (h1 : sb.map (fun l => (l.1, sideOk l.2)) = sb'.map fun l => (l.1, sideOk l.2)) (h2 : vb.map (fun l => (l.1, volOk l.2)) = vb'.map fun l => (l.1, volOk l.2))
    (h : elemRes m { e with sec := sec } sb vb u = some r) : ∃ r', elemRes m' { e with sec := sec' } sb' vb' u = some r' := by
  have a1 : ∀ (f : Load X → Bool) (l : List (Nat × Load X)), (sideLoads e.nSides e.ids l).all (fun x => f x.2) =
      (List.range e.nSides).all fun s => (e.ids s).all fun b => (l.map fun x => (x.1, f x.2)).all fun x => !(x.1 == b) || x.2 := by
    intro f l
    simp only [sideLoads, List.all_flatMap, List.all_map, List.all_filter]
    rfl
  have a2 : ∀ (f : Load X → Bool) (l : List (Nat × Load X)), (volLoads e.sid l).all f = (l.map fun x => (x.1, f x.2)).all fun x => !(x.1 == e.sid) || x.2 := by
    intro f l
    simp only [volLoads, List.all_map, List.all_filter]
    rfl
  simp only [elemRes] at h ⊢
  split at h
  · rename_i hc
    rw [a1, a2, h1, h2, ← a1, ← a2] at hc
    rw [if_pos hc]
    exact ⟨_, rfl⟩
  · cases h

/-- C184: for every parameter that is not one of the constants of a radiation load, the sensitivity of an element built from its cards is the derivative of its residual with respect to that parameter,
through conductivities, thicknesses, areas, fluxes, sources, film coefficients, ambient temperatures and emissivities that depend on it directly or through other functions. -/
theorem C184_sensitivity_partial (Q : Problem n d X) (D : Data X) (v : Nat → ℝ) (p : Nat) (hv : Derivs Q.hp D.F v p) (hs : ∀ l ∈ Q.side, LoadOk Q.hp p l.2) (hvl : ∀ l ∈ Q.vol, LoadOk Q.hp p l.2)
    (u r : Fin n → ℝ) (h : residual Q D u p v = .ok r) : ∃ s, sensitivity Q D u p v = .ok s ∧ IsPartial (residual Q D u p) v p s := by
  obtain ⟨P, hP, h⟩ := bind_inv h
  have hF := fns_fields hP
  split at h
  · rename_i r' hr
    have hex : ∀ t, ∃ R, elemRes (matOf D P d Q.active Q.diag (path v p t) p) { Q.e with sec := sectionOf D P (path v p t) p } (loadsOf D (path v p t) p Q.side) (loadsOf D (path v p t) p Q.vol) u = some R := by
      intro t
      refine supported _ _ Q.e _ _ _ _ _ _ u r' ?_ ?_ hr
      · simp only [loadsOf, List.map_map]
        exact List.map_congr_left fun l _ => by simp only [Function.comp, (ok_const D p v (path v p t) l.2).1]
      · simp only [loadsOf, List.map_map]
        exact List.map_congr_left fun l _ => by simp only [Function.comp, (ok_const D p v (path v p t) l.2).2]
    choose R hR using hex
    refine ⟨_, by rw [sensitivity, bind_ok hP]; exact rfl, fun t => R (t - v p), fun t => ?_, fun a => ?_⟩
    · rw [residual, bind_ok hP, upd_path, elemOf, hR]; rfl
    · have key := C108_element_partial (fun t => matOf D P d Q.active Q.diag (path v p t) p) (mat_family hv hF Q.active Q.diag) Q.e (fun t => sectionOf D P (path v p t) p) (sec_family hv hF)
        (Q.side.map fun l => (l.1, fun t => loadOf D (path v p t) p l.2)) (Q.vol.map fun l => (l.1, fun t => loadOf D (path v p t) p l.2))
        (by intro l hl; obtain ⟨x, hx, rfl⟩ := List.mem_map.1 hl; exact load_family hv (hs x hx)) (by intro l hl; obtain ⟨x, hx, rfl⟩ := List.mem_map.1 hl; exact load_family hv (hvl x hx)) u R
        (by intro t; rw [List.map_map, List.map_map]; exact hR t) a
      simp only [List.map_map, Function.comp_def, path_zero] at key
      refine unshift_deriv (F := fun t => R (t - v p) a) ?_
      simp only [add_sub_cancel_left]
      exact key
  · cases h

/-- C184: the same for the capacity term, with consistent or lumped mass matrix, for every parameter. -/
theorem C184_rate (Q : Problem n d X) (D : Data X) (v : Nat → ℝ) (p : Nat) (hv : Derivs Q.hp D.F v p) (u w r : Fin n → ℝ) (h : rate Q D u w p v = .ok r) :
    ∃ s, rateSens Q D u w p v = .ok s ∧ IsPartial (rate Q D u w p) v p s := by
  obtain ⟨P, hP, h⟩ := bind_inv h
  have hF := fns_fields hP
  refine ⟨_, by rw [rateSens, bind_ok hP]; exact rfl, fun t => Heat.velRes (matOf D P d Q.active Q.diag (path v p (t - v p)) p) Q.e.pts u w, fun t => ?_, fun a => ?_⟩
  · rw [rate, bind_ok hP, upd_path]; rfl
  · have key := C108_velocity (fun t => matOf D P d Q.active Q.diag (path v p t) p) (mat_family hv hF Q.active Q.diag) Q.e.pts u w a
    simp only [path_zero] at key
    refine unshift_deriv (F := fun t => Heat.velRes (matOf D P d Q.active Q.diag (path v p (t - v p)) p) Q.e.pts u w a) ?_
    simpa using key

/-! ## What is conducted and stored -/

theorem res_noloads (m : Heat.Mat d X) (e : Heat.Elem n d X) (u : Fin n → ℝ) : elemRes m e [] [] u = some (internalRes m e.pts u) := by
  have h1 : sideLoads e.nSides e.ids ([] : List (Nat × Load X)) = [] := by
    simp [sideLoads]
  simp [elemRes, h1, volLoads]

theorem flux_diag (k : Fin d → ℝ) (s : ℝ) (g : Fin d → ℝ) (i : Fin d) : heatFlux (fun i j => s * if i = j then k i else 0) g i = s * (k i * g i) := by
  simp only [heatFlux, mul_ite, mul_zero, Finset.sum_ite_eq, Finset.mem_univ, if_true]
  ring

/-- C184: a bar conducts (area) · (conductivity) · (temperature gradient), where the area is the product of the functions `hy` and `hz` of its card and the conductivity `k_th` of its isotropic material, or
`k11_th` of an orthotropic one, each at the temperature of the point if the material is tied to the solution. -/
theorem C184_bar (Q : Problem n 1 X) (hsh : Q.shape = .bar) (hno : Q.side = [] ∧ Q.vol = []) (D : Data X) (v : Nat → ℝ) (p hy hz k : Nat) (a1 a2 a3 a4 : Nat)
    (h1 : Reg Q.hp Q.card.own "hy" hy) (h2 : Reg Q.hp Q.card.own "hz" hz) (h3 : Reg Q.hp Q.card.own "Kappazz" a1 ∧ Reg Q.hp Q.card.own "Kappayy" a2 ∧ Reg Q.hp Q.card.own "hy_off" a3 ∧ Reg Q.hp Q.card.own "hz_off" a4)
    (h4 : Reg Q.hp Q.card.material (if Q.iso then "k_th" else "k11_th") k) (u : Fin n → ℝ) :
    ∃ r, residual Q D u p v = .ok r ∧ ∀ a, r a = (Q.e.pts.map fun q =>
      let T := if Q.active then some (∑ b, q.phi b * u b) else none
      q.JxW * (q.dphi a 0 * (D.F.val v hy (q.x, T) * D.F.val v hz (q.x, T) * (D.F.val v k (q.x, T) * ∑ b, q.dphi b 0 * u b)))).sum := by
  have hk : Q.card.material.get (isField Q.hp) (kName Q.iso 0) = .ok k := by
    cases hi : Q.iso <;> simp only [hi, Bool.false_eq_true, if_false, if_true] at h4 <;> simpa [kName, Reg] using h4
  have hz' : sizeOf Q.hp Q.card Q.shape = .ok (.area hy hz) := by
    rw [hsh, sizeOf, bind_ok h1, bind_ok h2, bind_ok h3.1, bind_ok h3.2.1, bind_ok h3.2.2.1, bind_ok h3.2.2.2]; rfl
  have hP : fnsOf Q.hp Q.card Q.iso false Q.shape = .ok ⟨.area hy hz, fun i => if i = 0 then k else if i = 1 then k else k, k, k⟩ := by
    rw [fnsOf, bind_ok hz', bind_ok hk]; rfl
  refine ⟨internalRes (matOf D ⟨.area hy hz, fun i => if i = 0 then k else if i = 1 then k else k, k, k⟩ 1 Q.active Q.diag v p) Q.e.pts u, ?_, fun a => ?_⟩
  · rw [residual, bind_ok hP, hno.1, hno.2]
    show (match elemRes _ _ [] [] u with | some r => pure r | none => Except.error _) = _
    rw [res_noloads]; rfl
  · show internalRes _ _ u a = _
    unfold internalRes
    congr 1
    refine List.map_congr_left fun q _ => ?_
    rw [Fin.sum_univ_one]
    congr 2
    have e := fun T => flux_diag (fun _ : Fin 1 => D.F.val v k (q.x, T)) (D.F.val v hy (q.x, T) * D.F.val v hz (q.x, T)) (grad q u) 0
    refine Eq.trans ?_ (e _)
    congr 1
    funext i j
    simp only [matOf, cond, scaled, sizeVal, Section1D.area, Material.conductance, ite_self]
    rw [mul_comm]; rfl

/-- C184: a plate conducts (thickness) · (conductivity along each axis) · (gradient along it). -/
theorem C184_plate (Q : Problem n 2 X) (hsh : Q.shape = .plate) (hno : Q.side = [] ∧ Q.vol = []) (D : Data X) (v : Nat → ℝ) (p h k0 k1 : Nat) (h1 : Reg Q.hp Q.card.own "h" h)
    (h2 : Reg Q.hp Q.card.material (if Q.iso then "k_th" else "k11_th") k0) (h3 : Reg Q.hp Q.card.material (if Q.iso then "k_th" else "k22_th") k1) (u : Fin n → ℝ) :
    ∃ r, residual Q D u p v = .ok r ∧ ∀ a, r a = (Q.e.pts.map fun q =>
      let T := if Q.active then some (∑ b, q.phi b * u b) else none
      q.JxW * (q.dphi a 0 * (D.F.val v h (q.x, T) * (D.F.val v k0 (q.x, T) * ∑ b, q.dphi b 0 * u b))) + q.JxW * (q.dphi a 1 * (D.F.val v h (q.x, T) * (D.F.val v k1 (q.x, T) * ∑ b, q.dphi b 1 * u b)))).sum := by
  have hk0 : Q.card.material.get (isField Q.hp) (kName Q.iso 0) = .ok k0 := by
    cases hi : Q.iso <;> simp only [hi, Bool.false_eq_true, if_false, if_true] at h2 <;> simpa [kName, Reg] using h2
  have hk1 : Q.card.material.get (isField Q.hp) (kName Q.iso 1) = .ok k1 := by
    cases hi : Q.iso <;> simp only [hi, Bool.false_eq_true, if_false, if_true] at h3 <;> simpa [kName, Reg] using h3
  have hz' : sizeOf Q.hp Q.card Q.shape = .ok (.thickness h) := by rw [hsh, sizeOf, bind_ok h1]; rfl
  have hP : fnsOf Q.hp Q.card Q.iso false Q.shape = .ok ⟨.thickness h, fun i => if i = 0 then k0 else if i = 1 then k1 else k0, k0, k0⟩ := by
    rw [fnsOf, bind_ok hz', bind_ok hk0, bind_ok (a := k1) (by rw [getIf, if_pos (by decide)]; exact hk1)]; rfl
  refine ⟨internalRes (matOf D ⟨.thickness h, fun i => if i = 0 then k0 else if i = 1 then k1 else k0, k0, k0⟩ 2 Q.active Q.diag v p) Q.e.pts u, ?_, fun a => ?_⟩
  · rw [residual, bind_ok hP, hno.1, hno.2]
    show (match elemRes _ _ [] [] u with | some r => pure r | none => Except.error _) = _
    rw [res_noloads]; rfl
  · show internalRes _ _ u a = _
    unfold internalRes
    congr 1
    refine List.map_congr_left fun q _ => ?_
    have e := fun T => flux_diag (fun i : Fin 2 => if (i : Nat) = 0 then D.F.val v k0 (q.x, T) else D.F.val v k1 (q.x, T)) (D.F.val v h (q.x, T)) (grad q u)
    have hc : ∀ T, (matOf D ⟨.thickness h, fun i => if i = 0 then k0 else if i = 1 then k1 else k0, k0, k0⟩ 2 Q.active Q.diag v p).k q.x T =
        fun i j : Fin 2 => D.F.val v h (q.x, T) * if i = j then (if (i : Nat) = 0 then D.F.val v k0 (q.x, T) else D.F.val v k1 (q.x, T)) else 0 := by
      intro T
      funext i j
      fin_cases i <;> fin_cases j <;> simp [matOf, cond, scaled, sizeVal, Material.conductance, mul_comm]
    rw [Fin.sum_univ_two, hc, e, e]
    rfl

/-- C184: a solid conducts the conductivities of its material. -/
theorem C184_solid (Q : Problem n 3 X) (hsh : Q.shape = .solid) (hno : Q.side = [] ∧ Q.vol = []) (D : Data X) (v : Nat → ℝ) (p : Nat) (k : Fin 3 → Nat)
    (h2 : Reg Q.hp Q.card.material (if Q.iso then "k_th" else "k11_th") (k 0)) (h3 : Reg Q.hp Q.card.material (if Q.iso then "k_th" else "k22_th") (k 1))
    (h4 : Reg Q.hp Q.card.material (if Q.iso then "k_th" else "k33_th") (k 2)) (u : Fin n → ℝ) :
    ∃ r, residual Q D u p v = .ok r ∧ ∀ a, r a = (Q.e.pts.map fun q =>
      let T := if Q.active then some (∑ b, q.phi b * u b) else none
      ∑ i, q.JxW * (q.dphi a i * (D.F.val v (k i) (q.x, T) * ∑ b, q.dphi b i * u b))).sum := by
  have hk0 : Q.card.material.get (isField Q.hp) (kName Q.iso 0) = .ok (k 0) := by
    cases hi : Q.iso <;> simp only [hi, Bool.false_eq_true, if_false, if_true] at h2 <;> simpa [kName, Reg] using h2
  have hk1 : Q.card.material.get (isField Q.hp) (kName Q.iso 1) = .ok (k 1) := by
    cases hi : Q.iso <;> simp only [hi, Bool.false_eq_true, if_false, if_true] at h3 <;> simpa [kName, Reg] using h3
  have hk2 : Q.card.material.get (isField Q.hp) (kName Q.iso 2) = .ok (k 2) := by
    cases hi : Q.iso <;> simp only [hi, Bool.false_eq_true, if_false, if_true] at h4 <;> simpa [kName, Reg] using h4
  have hz' : sizeOf Q.hp Q.card Q.shape = .ok .unit := by rw [hsh]; rfl
  have hP : fnsOf Q.hp Q.card Q.iso false Q.shape = .ok ⟨.unit, fun i => if i = 0 then k 0 else if i = 1 then k 1 else k 2, k 0, k 0⟩ := by
    rw [fnsOf, bind_ok hz', bind_ok hk0, bind_ok (a := k 1) (by rw [getIf, if_pos (by decide)]; exact hk1), bind_ok (a := k 2) (by rw [getIf, if_pos (by decide)]; exact hk2)]; rfl
  refine ⟨internalRes (matOf D ⟨.unit, fun i => if i = 0 then k 0 else if i = 1 then k 1 else k 2, k 0, k 0⟩ 3 Q.active Q.diag v p) Q.e.pts u, ?_, fun a => ?_⟩
  · rw [residual, bind_ok hP, hno.1, hno.2]
    show (match elemRes _ _ [] [] u with | some r => pure r | none => Except.error _) = _
    rw [res_noloads]; rfl
  · show internalRes _ _ u a = _
    unfold internalRes
    congr 1
    refine List.map_congr_left fun q _ => ?_
    have e := fun T => flux_diag (fun i : Fin 3 => D.F.val v (k i) (q.x, T)) 1 (grad q u)
    have hc : ∀ T, (matOf D ⟨.unit, fun i => if i = 0 then k 0 else if i = 1 then k 1 else k 2, k 0, k 0⟩ 3 Q.active Q.diag v p).k q.x T =
        fun i j : Fin 3 => 1 * if i = j then D.F.val v (k i) (q.x, T) else 0 := by
      intro T
      funext i j
      fin_cases i <;> fin_cases j <;> simp [matOf, cond, scaled, sizeVal, Material.conductance]
    refine Finset.sum_congr rfl fun i _ => ?_
    rw [hc, e, one_mul]
    rfl

/-- The size of a section, from its size functions. -/
def sizeSpec (val : Nat → ℝ) : Size → ℝ
  | .area hy hz => val hy * val hz
  | .thickness h => val h
  | .unit => 1

/-- C184: the element stores (size) · `cp` · `rho` · (rate of the temperature). -/
theorem C184_storage (Q : Problem n d X) (hdiag : Q.diag = false) (D : Data X) (v : Nat → ℝ) (p : Nat) (z : Size) (hz : sizeOf Q.hp Q.card Q.shape = .ok z) (rho cp : Nat)
    (hr : Reg Q.hp Q.card.material "rho" rho) (hc : Reg Q.hp Q.card.material "cp" cp) (u w r : Fin n → ℝ) (h : rate Q D u w p v = .ok r) (a : Fin n) :
    r a = (Q.e.pts.map fun q =>
      let T := if Q.active then some (∑ b, q.phi b * u b) else none
      q.JxW * (sizeSpec (fun y => D.F.val v y (q.x, T)) z * (D.F.val v cp (q.x, T) * D.F.val v rho (q.x, T))) * (q.phi a * ∑ b, q.phi b * w b)).sum := by
  obtain ⟨P, hP, h⟩ := bind_inv h
  have e := Except.ok.inj h
  subst e
  have hs : P.size = z ∧ P.rho = rho ∧ P.cp = cp := by
    obtain ⟨z', g1, g⟩ := bind_inv hP
    obtain ⟨_, _, g⟩ := bind_inv g
    obtain ⟨_, _, g⟩ := bind_inv g
    obtain ⟨_, _, g⟩ := bind_inv g
    obtain ⟨rho', g5, g⟩ := bind_inv g
    obtain ⟨cp', g6, g⟩ := bind_inv g
    have e := Except.ok.inj g
    subst e
    refine ⟨?_, ?_, ?_⟩
    · exact Except.ok.inj (g1.symm.trans hz)
    · exact Except.ok.inj (g5.symm.trans hr)
    · exact Except.ok.inj (g6.symm.trans hc)
  obtain ⟨e1, e2, e3⟩ := hs
  have hv : Heat.velRes (matOf D P d Q.active Q.diag v p) Q.e.pts u w a = Heat.velLocal (matOf D P d Q.active Q.diag v p) Q.e.pts u w a := by
    unfold velRes
    rw [if_neg (by simp [matOf, hdiag])]
  show Heat.velRes (matOf D P d Q.active Q.diag v p) Q.e.pts u w a = _
  rw [hv, velLocal]
  congr 1
  refine List.map_congr_left fun q _ => ?_
  have hcap : ∀ T, (matOf D P d Q.active Q.diag v p).c q.x T = sizeSpec (fun y => D.F.val v y (q.x, T)) z * (D.F.val v cp (q.x, T) * D.F.val v rho (q.x, T)) := by
    intro T
    subst e1 e2 e3
    simp only [matOf, cap, Material.capacitance]
    cases P.size <;> simp only [scaled, sizeVal, sizeSpec, Section1D.area] <;> ring
  rw [hcap]
  rfl

/-- C184: heat flows from hot to cold: with positive conductivities and sizes the element dissipates, whatever the temperature dependence. -/
theorem C184_dissipation (Q : Problem n d X) (hno : Q.side = [] ∧ Q.vol = []) (D : Data X) (v : Nat → ℝ) (p : Nat) (hpos : ∀ y, isField Q.hp y = true → ∀ pt, 0 ≤ D.F.val v y pt)
    (hJ : ∀ q ∈ Q.e.pts, 0 ≤ q.JxW) (u r : Fin n → ℝ) (h : residual Q D u p v = .ok r) : 0 ≤ ∑ a, u a * r a := by
  obtain ⟨P, hP, h⟩ := bind_inv h
  have hF := fns_fields hP
  rw [hno.1, hno.2] at h
  have h' : (match elemRes (matOf D P d Q.active Q.diag v p) (elemOf D P Q.e v p) [] [] u with | some r => pure r | none => Except.error _) = Except.ok r := h
  rw [res_noloads] at h'
  have e := Except.ok.inj h'
  subst e
  refine C107_dissipation (matOf D P d Q.active Q.diag v p) (fun x T w => ?_) Q.e.pts hJ u
  refine Finset.sum_nonneg fun a _ => ?_
  have : ∀ b, (matOf D P d Q.active Q.diag v p).k x T a b = if a = b then sizeSpec (fun y => D.F.val v y (x, T)) P.size * D.F.val v (P.k a) (x, T) else 0 := by
    intro b
    by_cases hab : a = b
    · simp only [matOf, cond, Material.conductance, hab, if_true]
      cases P.size <;> simp only [scaled, sizeVal, sizeSpec, Section1D.area] <;> ring
    · simp only [matOf, cond, Material.conductance, hab, if_false]
      cases P.size <;> simp [scaled, sizeVal]
  simp only [this, ite_mul, zero_mul, Finset.sum_ite_eq, Finset.mem_univ, if_true]
  have hs : 0 ≤ sizeSpec (fun y => D.F.val v y (x, T)) P.size := by
    have := hF.1
    cases hz : P.size with
    | area hy hz' => rw [hz] at this; exact mul_nonneg (hpos _ this.1 _) (hpos _ this.2 _)
    | thickness h => rw [hz] at this; exact hpos _ this _
    | unit => exact zero_le_one
  have hk := hpos _ (hF.2.1 a) (x, T)
  nlinarith [mul_nonneg (mul_nonneg hs hk) (mul_self_nonneg (w a))]

/-! ## A bar whose conductivity grows with the temperature -/

/-- Parameters 0-8: conductivity, `hy`, `hz`, offset, density, heat capacity, emissivity, surroundings, radiation constant. -/
def exHeap : Heap := [⟨.param, "k", []⟩, ⟨.param, "hy", []⟩, ⟨.param, "hz", []⟩, ⟨.param, "off", []⟩, ⟨.param, "rho", []⟩, ⟨.param, "cp", []⟩, ⟨.param, "eps", []⟩, ⟨.param, "T_amb", []⟩, ⟨.param, "sb", []⟩,
  ⟨.func, "k_th", [0]⟩, ⟨.func, "hy", [1]⟩, ⟨.func, "hz", [2]⟩, ⟨.func, "hy_off", [3]⟩, ⟨.func, "rho", [4]⟩, ⟨.func, "cp", [5]⟩, ⟨.func, "emissivity", [6]⟩]
def exBar : Card := ⟨[("hy", 10), ("hz", 11), ("Kappazz", 12), ("Kappayy", 12), ("hy_off", 12), ("hz_off", 12)], [("k_th", 9), ("rho", 13), ("cp", 14)]⟩
/-- `k_th(T) = k (1 + T)`; the other functions are constants. -/
noncomputable def exData : Data Unit where
  F := ⟨fun v y x => if y = 9 then v 0 * (1 + x.2.getD 0) else v (y - 9), fun _ y p x => if y = 9 then (if p = 0 then 1 + x.2.getD 0 else 0) else if p = y - 9 then 1 else 0⟩
  dT := fun v y _ => if y = 9 then v 0 else 0
noncomputable def exElem (act dg : Bool) (side : List (Nat × LoadFn)) : Problem 2 1 Unit := ⟨exHeap, exBar, true, .bar, act, dg, ⟨[], fun _ => [exQp], 1, fun s => [s], 0, none⟩, side, []⟩

theorem ex_fns (tr : Bool) : fnsOf exHeap exBar true tr .bar = .ok ⟨.area 10 11, fun i => if i = 0 then 9 else if i = 1 then 9 else 9, if tr then 13 else 9, if tr then 14 else 9⟩ := by
  cases tr <;> rfl

/-- Non-vacuity of the hypotheses of C184 about functions. -/
theorem ex_derivs (h : Heap) (v : Nat → ℝ) (p : Nat) : Derivs h exData.F v p := by
  intro y _ pt
  by_cases hy : y = 9
  · simp only [exData, hy, if_true]
    by_cases hp : p = 0
    · subst hp
      simp only [Function.update_self, if_true]
      simpa using (hasDerivAt_id (v 0)).mul_const (1 + pt.2.getD 0)
    · simp only [Function.update_of_ne (Ne.symm hp), if_neg hp]
      exact hasDerivAt_const _ _
  · simp only [exData, hy, if_false]
    by_cases hp : p = y - 9
    · subst hp
      simp only [Function.update_self, if_true]
      exact hasDerivAt_id _
    · simp only [Function.update_of_ne (Ne.symm hp), if_neg hp]
      exact hasDerivAt_const _ _
example (h : Heap) (v : Nat → ℝ) : TempDerivs h exData v := by
  intro y _ x T
  by_cases hy : y = 9
  · simp only [exData, hy, if_true, Option.getD_some]
    simpa using ((hasDerivAt_id T).const_add 1).const_mul (v 0)
  · simp only [exData, hy, if_false]
    exact hasDerivAt_const _ _
example : LoadOk exHeap 6 (.radiation 15 7 3 8) ∧ LoadOk exHeap 0 (.flux 15) ∧ ¬ LoadOk exHeap 7 (.radiation 15 7 3 8) := by
  refine ⟨⟨by decide, by decide, by decide, by decide⟩, by show isField exHeap 15 = true; decide, fun h => h.2.1 rfl⟩

/-- The radiating element has a residual (non-vacuity of C184_tangent and C184_sensitivity_partial). -/
theorem ex_residual (act dg : Bool) (p : Nat) (u : Fin 2 → ℝ) (v : Nat → ℝ) :
    residual (exElem act dg [(0, .radiation 15 7 3 8)]) exData u p v = .ok fun a => 0 + loadRes (sideTerm (sectionOf exData ⟨.area 10 11, fun i => if i = 0 then 9 else if i = 1 then 9 else 9, 9, 9⟩ v p)) [exQp] u (loadOf exData v p (.radiation 15 7 3 8)) a := by
  rw [residual, exElem, bind_ok (ex_fns false)]
  simp [elemOf, elemRes, sideLoads, volLoads, loadsOf, List.range_succ, sideOk, internalRes, loadOf]
  rfl

example : ∃ r, rate (exElem true true []) exData (fun _ => 1) (fun _ => 1) 4 (fun _ => 1) = .ok r := ⟨_, by rw [rate, exElem, bind_ok (ex_fns true)]; exact rfl⟩
/-- Non-vacuity of C184_bar, C184_storage and C184_dissipation. -/
example : Reg exHeap exBar.own "hy" 10 ∧ Reg exHeap exBar.own "hz" 11 ∧ Reg exHeap exBar.material (if (exElem true false []).iso then "k_th" else "k11_th") 9 ∧ Reg exHeap exBar.material "rho" 13 ∧
    Reg exHeap exBar.material "cp" 14 ∧ sizeOf exHeap exBar .bar = .ok (.area 10 11) := ⟨rfl, rfl, rfl, rfl, rfl, rfl⟩

/-- C184 (what the code does not do): the temperature of the surroundings of a radiation load is a parameter of the program; the element reports sensitivity zero for it although its residual changes. -/
theorem C184_radiation_fails : ∃ (Q : Problem 2 1 Unit) (D : Data Unit) (v : Nat → ℝ) (p : Nat) (u s : Fin 2 → ℝ), Derivs Q.hp D.F v p ∧ (∃ o, Q.hp[p]? = some o ∧ o.kind = .param) ∧
    (∃ r, residual Q D u p v = .ok r) ∧ sensitivity Q D u p v = .ok s ∧ ¬ IsPartial (residual Q D u p) v p s := by
  refine ⟨exElem false false [(0, .radiation 15 7 3 8)], exData, fun i => if i = 3 then 0 else 1, 7, fun _ => 0, fun a => 0 + loadSens (sideSensTerm (sectionOf exData ⟨.area 10 11, fun i => if i = 0 then 9 else if i = 1 then 9 else 9, 9, 9⟩ (fun i => if i = 3 then 0 else 1) 7)) [exQp] (fun _ => 0)
    (loadOf exData (fun i => if i = 3 then 0 else 1) 7 (.radiation 15 7 3 8)) a, ex_derivs _ _ _, ⟨_, rfl, rfl⟩, ⟨_, ex_residual _ _ _ _ _⟩, ?_, ?_⟩
  · rw [sensitivity, exElem, bind_ok (ex_fns false)]
    refine congrArg Except.ok (funext fun a => ?_)
    simp [elemOf, elemSens, sideLoads, volLoads, loadsOf, List.range_succ, internalSens, loadOf]
  · rintro ⟨R, hR, hd⟩
    have e : R = fun t a => 0 + loadRes (sideTerm (sectionOf exData ⟨.area 10 11, fun i => if i = 0 then 9 else if i = 1 then 9 else 9, 9, 9⟩ (Function.update (fun i => if i = 3 then 0 else 1) 7 t) 7)) [exQp] (fun _ => 0)
        (loadOf exData (Function.update (fun i => if i = 3 then 0 else 1) 7 t) 7 (.radiation 15 7 3 8)) a := by
      funext t
      have := hR t
      rw [ex_residual] at this
      exact (Except.ok.inj this).symm
    have h0 := hd 0
    rw [e] at h0
    have e2 : (fun t : ℝ => 0 + loadRes (n := 2) (d := 1) (sideTerm (sectionOf exData ⟨.area 10 11, fun i => if i = 0 then 9 else if i = 1 then 9 else 9, 9, 9⟩ (Function.update (fun i => if i = 3 then 0 else 1) 7 t) 7)) [exQp] (fun _ => 0)
        (loadOf exData (Function.update (fun i => if i = 3 then 0 else 1) 7 t) 7 (.radiation 15 7 3 8)) 0) = fun t : ℝ => -(1 / 4) * (((t + 0) + 0) ^ 4 - 0) := by
      funext t
      simp [loadRes, exQp, sideTerm, thick, interp, sectionOf, sizeVal, Section1D.area, loadOf, field, exData, Function.update]
      try ring
    have z : (0 : ℝ) + loadSens (n := 2) (d := 1) (sideSensTerm (sectionOf exData ⟨.area 10 11, fun i => if i = 0 then 9 else if i = 1 then 9 else 9, 9, 9⟩ (fun i => if i = 3 then 0 else 1) 7)) [exQp] (fun _ => 0)
        (loadOf exData (fun i => if i = 3 then 0 else 1) 7 (.radiation 15 7 3 8)) 0 = 0 := by
      simp [loadSens, exQp, sideSensTerm, dthick, thick, interp, sectionOf, sizeVal, sizeDer, Section1D.area, Section1D.dArea, loadOf, field, exData]
    have h1 : HasDerivAt (fun t : ℝ => -(1 / 4) * (((t + 0) + 0) ^ 4 - 0)) 0 1 := by
      have h2 : HasDerivAt (fun t : ℝ => 0 + loadRes (n := 2) (d := 1) (sideTerm (sectionOf exData ⟨.area 10 11, fun i => if i = 0 then 9 else if i = 1 then 9 else 9, 9, 9⟩ (Function.update (fun i => if i = 3 then 0 else 1) 7 t) 7)) [exQp] (fun _ => 0)
        (loadOf exData (Function.update (fun i => if i = 3 then 0 else 1) 7 t) 7 (.radiation 15 7 3 8)) 0) _ 1 := h0
      rw [e2] at h2
      exact h2.congr_deriv z.symm.symm
    have h3 : HasDerivAt (fun t : ℝ => -(1 / 4) * (((t + 0) + 0) ^ 4 - 0)) (-1) 1 := by
      have := ((hasDerivAt_pow 4 (1 : ℝ)).const_mul (-(1 / 4)))
      refine (this.congr_deriv (by norm_num)).congr_of_eventuallyEq (Filter.Eventually.of_forall fun t => ?_)
      simp
    have := h1.unique h3
    norm_num at this

end Verif.HeatCard
