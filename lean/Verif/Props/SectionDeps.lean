import Verif.Model.SectionDeps
import Verif.Props.FunctionGraph
import Verif.Props.Material
import Verif.Props.Section1D
import Verif.Props.ShellTangent
import Verif.Props.BeamMore
import Mathlib.Tactic.IntervalCases
import Mathlib.Tactic.NormNum
/-! C183: the sensitivity of the internal force with respect to any parameter of the program. -/
namespace Verif.SecDep
open Verif.Fn Verif.Material Verif.GeomElem Matrix
variable {X : Type} {n : Nat}

/-! ## Specification -/

/-- Object `y` has the same value for the parameter values `v` and `w`. -/
def Same (h : Heap) (F : Funcs X) (v w : Nat → ℝ) (y : Nat) : Prop := if isField h y then ∀ x, F.val v y x = F.val w y x else v y = w y

/-- Every function declares what it uses: its value is determined by the values of its `_functions`. -/
def Declares (h : Heap) (F : Funcs X) : Prop := ∀ x o, h[x]? = some o → o.kind = .func → ∀ v w, (∀ y ∈ o.subs, Same h F v w y) → ∀ pt, F.val v x pt = F.val w x pt

/-- `derivative` of every function is its derivative with respect to the parameter `p`. -/
def Derivs (h : Heap) (F : Funcs X) (v : Nat → ℝ) (p : Nat) : Prop :=
  ∀ x, isField h x = true → ∀ pt, HasDerivAt (fun t => F.val (Function.update v p t) x pt) (F.der v x p pt) (v p)

/-- `s` is the derivative of `f`, a function of the parameter values, with respect to parameter `p` at `v`. -/
def IsPartial {D : Type} (f : (Nat → ℝ) → Exec (D → ℝ)) (v : Nat → ℝ) (p : Nat) (s : D → ℝ) : Prop :=
  ∃ g : ℝ → D → ℝ, (∀ t, f (Function.update v p t) = .ok (g t)) ∧ ∀ a, HasDerivAt (fun t => g t a) (s a) (v p)

/-! ## Dependency -/

theorem fold_false {α : Type} (dep : α → Option Bool) (l : List α) : ∀ acc, l.foldl (fun acc s => match acc with | some false => dep s | r => r) acc = some false →
    acc = some false ∧ ∀ s ∈ l, dep s = some false := by
  induction l with
  | nil => intro acc h; exact ⟨h, by simp⟩
  | cons a l ih =>
    intro acc h
    rw [List.foldl_cons] at h
    obtain ⟨h1, h2⟩ := ih _ h
    cases acc with
    | none => cases h1
    | some b =>
      cases b with
      | true => cases h1
      | false =>
        refine ⟨rfl, fun s hs => ?_⟩
        rcases List.mem_cons.1 hs with rfl | hs
        · exact h1
        · exact h2 s hs

theorem same_of_independent {h : Heap} {F : Funcs X} (hd : Declares h F) (v : Nat → ℝ) (p : Nat) (t : ℝ) : ∀ fuel x, dependsOn h fuel x p = some false → Same h F v (Function.update v p t) x := by
  intro fuel
  induction fuel with
  | zero => intro x hx; cases hx
  | succ k ih =>
    intro x hx
    cases ho : h[x]? with
    | none => simp only [dependsOn, ho] at hx; cases hx
    | some o =>
      cases hk : o.kind with
      | param =>
        simp only [dependsOn, ho, hk] at hx
        have hne : p ≠ x := by simpa using hx
        have hf : isField h x = false := by simp [isField, ho, hk]
        simp only [Same, hf, Bool.false_eq_true, if_false]
        rw [Function.update_of_ne (Ne.symm hne)]
      | func =>
        simp only [dependsOn, ho, hk] at hx
        have hf : isField h x = true := by simp [isField, ho, hk]
        simp only [Same, hf, if_true]
        split at hx
        · cases hx
        · exact hd x o ho hk _ _ fun y hy => ih y ((fold_false _ _ _ hx).2 y hy)

theorem lt_of_field {h : Heap} {x : Nat} (hx : isField h x = true) : x < h.length ∧ ∃ o, h[x]? = some o ∧ o.kind = .func := by
  unfold isField at hx
  cases ho : h[x]? with
  | none => rw [ho] at hx; simp at hx
  | some o =>
    rw [ho] at hx
    exact ⟨(List.getElem?_eq_some_iff.1 ho).1, o, rfl, by simpa using hx⟩

/-- C183: if the query denies that a field function depends on a parameter, its value does not change with that parameter. -/
theorem C183_query (bs : List Build) (h : Heap) (hb : buildAll bs = .ok h) (F : Funcs X) (hd : Declares h F) (x p : Nat) (hx : isField h x = true) (hn : asks h x p = false)
    (v : Nat → ℝ) (t : ℝ) (pt : X) : F.val (Function.update v p t) x pt = F.val v x pt := by
  obtain ⟨hl, o, ho, hk⟩ := lt_of_field hx
  obtain ⟨b, hfuel, _⟩ := C11_depends_on_iff_reachable bs h hb x p hl o ho hk
  have hb' := hfuel h.length hl
  have : b = false := by
    cases b with
    | false => rfl
    | true => simp [asks, hb'] at hn
  rw [this] at hb'
  have := same_of_independent hd v p t _ x hb'
  simp only [Same, hx, if_true] at this
  exact (this pt).symm

theorem get_spec {s : FSet} {T : Nat → Bool} {nm : String} {g : Nat} (h : s.get T nm = .ok g) : (∃ nm', (nm', g) ∈ s) ∧ T g = true := by
  unfold FSet.get at h
  cases hf : s.find? (fun p => p.1 == nm) with
  | none => rw [hf] at h; cases h
  | some q =>
    rw [hf] at h
    simp only at h
    split at h
    · rename_i ht
      have := Except.ok.inj h
      subst this
      exact ⟨⟨q.1, List.mem_of_find?_eq_some hf⟩, ht⟩
    · cases h

/-- What a look-up that succeeded tells about a function. -/
def Found (hp : Heap) (c : Card) (x : Nat) : Prop := isField hp x = true ∧ ∀ p, c.dependsOn hp p = false → asks hp x p = false

theorem found_own {hp : Heap} {c : Card} {nm : String} {x : Nat} (h : c.own.get (isField hp) nm = .ok x) : Found hp c x := by
  obtain ⟨⟨nm', hm⟩, ht⟩ := get_spec h
  refine ⟨ht, fun p hp' => ?_⟩
  by_contra hne
  have : c.own.dependsOn (asks hp) p = true := (C12_depends_on _ _ _).2 ⟨nm', x, hm, by simpa using hne⟩
  simp [Card.dependsOn, this] at hp'

theorem found_mat {hp : Heap} {c : Card} {nm : String} {x : Nat} (h : c.material.get (isField hp) nm = .ok x) : Found hp c x := by
  obtain ⟨⟨nm', hm⟩, ht⟩ := get_spec h
  refine ⟨ht, fun p hp' => ?_⟩
  by_contra hne
  have : c.material.dependsOn (asks hp) p = true := (C12_depends_on _ _ _).2 ⟨nm', x, hm, by simpa using hne⟩
  simp [Card.dependsOn, this] at hp'

theorem plate_spec {hp : Heap} {c : Card} {sh : Bool} {P : Plate} (h : c.plate hp sh = .ok P) :
    Found hp c P.h ∧ Found hp c P.off ∧ Found hp c P.kappa ∧ Found hp c P.E ∧ Found hp c P.nu ∧
      c.material.get (isField hp) "E" = .ok P.E ∧ c.material.get (isField hp) "nu" = .ok P.nu := by
  unfold Card.plate at h
  cases hE : c.material.get (isField hp) "E" with
  | error e => rw [hE] at h; cases h
  | ok E =>
  cases hnu : c.material.get (isField hp) "nu" with
  | error e => rw [hE, hnu] at h; cases h
  | ok nu =>
  cases hh : c.own.get (isField hp) "h" with
  | error e => rw [hE, hnu, hh] at h; cases h
  | ok th =>
  cases ho : c.own.get (isField hp) "off" with
  | error e => rw [hE, hnu, hh, ho] at h; cases h
  | ok off =>
  rw [hE, hnu, hh, ho] at h
  cases sh with
  | false =>
    have := Except.ok.inj h
    subst this
    exact ⟨found_own hh, found_own ho, found_own hh, found_mat hE, found_mat hnu, rfl, rfl⟩
  | true =>
    cases hk : c.own.get (isField hp) "kappa" with
    | error e => 
      have h' : (do let kappa ← c.own.get (isField hp) "kappa"; pure (⟨th, off, kappa, E, nu⟩ : Plate)) = Except.ok P := h
      rw [hk] at h'; cases h'
    | ok kap =>
      have h' : (do let kappa ← c.own.get (isField hp) "kappa"; pure (⟨th, off, kappa, E, nu⟩ : Plate)) = Except.ok P := h
      rw [hk] at h'
      have := Except.ok.inj h'
      subst this
      exact ⟨found_own hh, found_own ho, found_own hk, found_mat hE, found_mat hnu, rfl, rfl⟩

theorem bar_spec {hp : Heap} {c : Card} {P : Bar} (h : c.bar hp = .ok P) :
    Found hp c P.hy ∧ Found hp c P.hz ∧ Found hp c P.offy ∧ Found hp c P.offz ∧ Found hp c P.E ∧ Found hp c P.nu ∧
      c.own.get (isField hp) "hy" = .ok P.hy ∧ c.own.get (isField hp) "hz" = .ok P.hz ∧ c.material.get (isField hp) "nu" = .ok P.nu := by
  unfold Card.bar at h
  cases h1 : c.own.get (isField hp) "hy" with
  | error e => rw [h1] at h; cases h
  | ok hy =>
  cases h2 : c.own.get (isField hp) "hz" with
  | error e => rw [h1, h2] at h; cases h
  | ok hz =>
  cases h3 : c.own.get (isField hp) "Kappazz" with
  | error e => rw [h1, h2, h3] at h; cases h
  | ok kz =>
  cases h4 : c.own.get (isField hp) "Kappayy" with
  | error e => rw [h1, h2, h3, h4] at h; cases h
  | ok ky =>
  cases h5 : c.own.get (isField hp) "hy_off" with
  | error e => rw [h1, h2, h3, h4, h5] at h; cases h
  | ok oy =>
  cases h6 : c.own.get (isField hp) "hz_off" with
  | error e => rw [h1, h2, h3, h4, h5, h6] at h; cases h
  | ok oz =>
  cases h7 : c.material.get (isField hp) "E" with
  | error e => rw [h1, h2, h3, h4, h5, h6, h7] at h; cases h
  | ok E =>
  cases h8 : c.material.get (isField hp) "nu" with
  | error e => rw [h1, h2, h3, h4, h5, h6, h7, h8] at h; cases h
  | ok nu =>
  rw [h1, h2, h3, h4, h5, h6, h7, h8] at h
  have := Except.ok.inj h
  subst this
  exact ⟨found_own h1, found_own h2, found_own h5, found_own h6, found_mat h7, found_mat h8, rfl, rfl, rfl⟩

theorem bind_ok {α β : Type} {x : Exec α} {a : α} (h : x = .ok a) (f : α → Exec β) : x >>= f = f a := by rw [h]; rfl
theorem bind_err {α β : Type} {x : Exec α} {e : _} (h : x = .error e) (f : α → Exec β) : x >>= f = .error e := by rw [h]; rfl

/-! ## Parameters the card does not depend on -/

/-- C183: a parameter the card of a shell does not depend on has no effect on the internal force, and the sensitivity routine adds nothing for it. -/
theorem C183_plate_unaffected (bs : List Build) (h : Heap) (hb : buildAll bs = .ok h) (F : Funcs X) (hd : Declares h F) (c : Card) (ps : Bool) (T : Option (Fin 3 → Fin 3 → ℝ)) (nl bend : Bool)
    (qs : List (Shell.Sqp n X)) (ss : List (Shell.ShearQp n X)) (u : Dof n → ℝ) (v : Nat → ℝ) (p : Nat) (hp : c.dependsOn h p = false) :
    (∀ t, plateForce h F c ps T nl bend qs ss u (Function.update v p t) = plateForce h F c ps T nl bend qs ss u v) ∧ ∀ f, plateSens h F c ps T nl bend qs ss u v p f = .ok f := by
  constructor
  · intro t
    unfold plateForce
    cases hP : c.plate h !ss.isEmpty with
    | error e => rw [bind_err rfl, bind_err rfl]
    | ok P =>
      obtain ⟨f1, f2, f3, f4, f5, _⟩ := plate_spec hP
      have q : ∀ x, Found h c x → ∀ pt, F.val (Function.update v p t) x pt = F.val v x pt := fun x hx pt => C183_query bs h hb F hd x p hx.1 (hx.2 p hp) v t pt
      have e : plateElem F ps P (Function.update v p t) qs ss = plateElem F ps P v qs ss := by
        unfold plateElem plateSec plateG
        simp only [q _ f1, q _ f2, q _ f3, q _ f4, q _ f5]
      rw [bind_ok rfl, bind_ok rfl, e]
  · intro f
    rw [plateSens, hp]; rfl

/-- C183: the same for a beam. -/
theorem C183_beam_unaffected (bs : List Build) (h : Heap) (hb : buildAll bs = .ok h) (F : Funcs X) (hd : Declares h F) (c : Card) (T : Option (Fin 3 → Fin 3 → ℝ)) (nl bend : Bool)
    (qs : List (Beam.Bqp n X)) (u : Dof n → ℝ) (v : Nat → ℝ) (p : Nat) (hp : c.dependsOn h p = false) :
    (∀ t, barForce h F c T nl bend qs u (Function.update v p t) = barForce h F c T nl bend qs u v) ∧ ∀ f, barSens h F c T nl bend qs u v p f = .ok f := by
  constructor
  · intro t
    unfold barForce
    cases hP : c.bar h with
    | error e => rw [bind_err rfl, bind_err rfl]
    | ok P =>
      obtain ⟨f1, f2, f3, f4, f5, f6, _⟩ := bar_spec hP
      have q : ∀ x, Found h c x → ∀ pt, F.val (Function.update v p t) x pt = F.val v x pt := fun x hx pt => C183_query bs h hb F hd x p hx.1 (hx.2 p hp) v t pt
      have e : barElem F P (Function.update v p t) qs = barElem F P v qs := by
        unfold barElem barSec
        simp only [q _ f1, q _ f2, q _ f3, q _ f4, q _ f5, q _ f6]
      rw [bind_ok rfl, bind_ok rfl, e]
  · intro f
    rw [barSens, hp]; rfl

/-! ## All parameters -/

theorem upd_self (v : Nat → ℝ) (p : Nat) : Function.update v p (v p) = v := Function.update_eq_self p v

/-- Derivatives of the section stiffness a shell works with. -/
theorem plate_derivs {bs : List Build} {h : Heap} (hb : buildAll bs = .ok h) {F : Funcs X} (hd : Declares h F) {c : Card} (ps : Bool) {qs : List (Shell.Sqp n X)} {ss : List (Shell.ShearQp n X)} {v : Nat → ℝ} {p : Nat}
    (hv : Derivs h F v p) (hnu : ∀ x, c.material.get (isField h) "nu" = .ok x → ∀ q ∈ qs, 1 + F.val v x q.x ≠ 0 ∧ 1 - 2 * F.val v x q.x ≠ 0 ∧ 1 - F.val v x q.x ≠ 0)
    (hss : ss = [] ∨ ∀ nm x, nm = "E" ∨ nm = "nu" → c.material.get (isField h) nm = .ok x → asks h x p = false) {sh : Bool} {P : Plate} (hP : c.plate h sh = .ok P) :
    (∀ q ∈ qs, ∀ i j, HasDerivAt (fun t => (plateSec F ps P (Function.update v p t) q.x).A i j) ((dPlateSec F ps P v p q.x).A i j) (v p)) ∧
    (∀ q ∈ qs, ∀ i j, HasDerivAt (fun t => (plateSec F ps P (Function.update v p t) q.x).B i j) ((dPlateSec F ps P v p q.x).B i j) (v p)) ∧
    (∀ q ∈ qs, ∀ i j, HasDerivAt (fun t => (plateSec F ps P (Function.update v p t) q.x).D i j) ((dPlateSec F ps P v p q.x).D i j) (v p)) ∧
    ∀ q ∈ ss, ∀ i j, HasDerivAt (fun t => plateG F P (Function.update v p t) q.x i j) (dPlateG F P v p q.x i j) (v p) := by
  obtain ⟨f1, f2, f3, f4, f5, gE, gnu⟩ := plate_spec hP
  refine ⟨?_, ?_, ?_, ?_⟩
  all_goals intro q hq i j
  · have d1 := hv _ f1.1 q.x
    have d2 := hv _ f2.1 q.x
    have d4 := hv _ f4.1 q.x
    have d5 := hv _ f5.1 q.x
    obtain ⟨n1, n2, n3⟩ := hnu _ gnu q hq
    have hC := C57_derivative_partial d4 d5 (by rwa [upd_self]) (by rwa [upd_self]) (by rwa [upd_self])
    simp only [upd_self] at hC
    cases ps with
    | true => have := Section2D.C61_deriv_extension d1 hC.2.1 i j; simp only [upd_self] at this; exact this
    | false => have := Section2D.C61_deriv_extension d1 hC.2.2.1 i j; simp only [upd_self] at this; exact this
  · have d1 := hv _ f1.1 q.x
    have d2 := hv _ f2.1 q.x
    have d4 := hv _ f4.1 q.x
    have d5 := hv _ f5.1 q.x
    obtain ⟨n1, n2, n3⟩ := hnu _ gnu q hq
    have hC := C57_derivative_partial d4 d5 (by rwa [upd_self]) (by rwa [upd_self]) (by rwa [upd_self])
    simp only [upd_self] at hC
    cases ps with
    | true => have := Section2D.C61_deriv_coupling d1 d2 hC.2.1 i j; simp only [upd_self] at this; exact this
    | false => have := Section2D.C61_deriv_coupling d1 d2 hC.2.2.1 i j; simp only [upd_self] at this; exact this
  · have d1 := hv _ f1.1 q.x
    have d2 := hv _ f2.1 q.x
    have d4 := hv _ f4.1 q.x
    have d5 := hv _ f5.1 q.x
    obtain ⟨n1, n2, n3⟩ := hnu _ gnu q hq
    have hC := C57_derivative_partial d4 d5 (by rwa [upd_self]) (by rwa [upd_self]) (by rwa [upd_self])
    simp only [upd_self] at hC
    cases ps with
    | true => have := Section2D.C61_deriv_bending d1 d2 hC.2.1 i j; simp only [upd_self] at this; exact this
    | false => have := Section2D.C61_deriv_bending d1 d2 hC.2.2.1 i j; simp only [upd_self] at this; exact this
  · rcases hss with rfl | hss
    · cases hq
    · have d1 := hv _ f1.1 q.x
      have d3 := hv _ f3.1 q.x
      have qE : ∀ t, F.val (Function.update v p t) P.E q.x = F.val v P.E q.x := fun t => C183_query bs h hb F hd _ p f4.1 (hss _ _ (Or.inl rfl) gE) v t q.x
      have qnu : ∀ t, F.val (Function.update v p t) P.nu q.x = F.val v P.nu q.x := fun t => C183_query bs h hb F hd _ p f5.1 (hss _ _ (Or.inr rfl) gnu) v t q.x
      have hC : MatDeriv (fun t => isoShear (F.val (Function.update v p t) P.E q.x) (F.val (Function.update v p t) P.nu q.x)) 0 (v p) := by
        intro i j
        simp only [qE, qnu]
        exact hasDerivAt_const _ _
      have := Section2D.C61_deriv_shear d1 d3 hC i j
      simp only [upd_self] at this
      exact this

/-- C183: for every parameter of the program, used or not, the sensitivity of the internal force of a shell is its derivative with respect to that parameter; with transverse shear only for parameters of
which the elastic constants do not depend. -/
theorem C183_plate_partial (bs : List Build) (h : Heap) (hb : buildAll bs = .ok h) (F : Funcs X) (hd : Declares h F) (c : Card) (ps : Bool) (T : Option (Fin 3 → Fin 3 → ℝ)) (nl bend : Bool)
    (qs : List (Shell.Sqp n X)) (ss : List (Shell.ShearQp n X)) (u : Dof n → ℝ) (v : Nat → ℝ) (p : Nat) (hv : Derivs h F v p)
    (hnu : ∀ x, c.material.get (isField h) "nu" = .ok x → ∀ q ∈ qs, 1 + F.val v x q.x ≠ 0 ∧ 1 - 2 * F.val v x q.x ≠ 0 ∧ 1 - F.val v x q.x ≠ 0)
    (hss : ss = [] ∨ ∀ nm x, nm = "E" ∨ nm = "nu" → c.material.get (isField h) nm = .ok x → asks h x p = false)
    (r : Dof n → ℝ) (hr : plateForce h F c ps T nl bend qs ss u v = .ok r) (f : Dof n → ℝ) :
    ∃ s, plateSens h F c ps T nl bend qs ss u v p f = .ok (fun a => f a + s a) ∧ IsPartial (plateForce h F c ps T nl bend qs ss u) v p s := by
  cases hp : c.dependsOn h p with
  | false =>
    obtain ⟨h1, h2⟩ := C183_plate_unaffected bs h hb F hd c ps T nl bend qs ss u v p hp
    refine ⟨fun _ => 0, by simpa using h2 f, fun _ => r, fun t => by rw [h1 t, hr], fun a => hasDerivAt_const _ _⟩
  | true =>
    unfold plateForce at hr
    cases hP : c.plate h !ss.isEmpty with
    | error e => rw [bind_err hP] at hr; cases hr
    | ok P =>
      obtain ⟨k1, k2, k3, k4⟩ := plate_derivs hb hd ps hv hnu hss hP
      refine ⟨Shell.internalSens T nl bend (plateElem F ps P v qs ss) (fun q => dPlateSec F ps P v p q.x) (fun q => dPlateG F P v p q.x) u, ?_,
        fun t => Shell.internalRes T nl bend (plateElem F ps P (Function.update v p t) qs ss) u, fun t => ?_, fun a => ?_⟩
      · rw [plateSens, if_pos hp, bind_ok hP]; rfl
      · rw [plateForce, bind_ok hP]; rfl
      · have e := Shell.C116_sensitivity T nl bend qs ss (fun t q => plateSec F ps P (Function.update v p t) q.x) (fun t q => plateG F P (Function.update v p t) q.x)
          (fun q => dPlateSec F ps P v p q.x) (fun q => dPlateG F P v p q.x) (v p) k1 k2 k3 k4 u a
        simp only [upd_self] at e
        exact e

/-- Derivatives of the section stiffness a beam works with. -/
theorem bar_derivs {h : Heap} {F : Funcs X} {c : Card} {qs : List (Beam.Bqp n X)} {v : Nat → ℝ} {p : Nat} (hv : Derivs h F v p)
    (hnu : ∀ x, c.material.get (isField h) "nu" = .ok x → ∀ q ∈ qs, 1 + F.val v x q.x ≠ 0 ∧ 1 - 2 * F.val v x q.x ≠ 0 ∧ 1 - F.val v x q.x ≠ 0)
    (hside : ∀ y z, c.own.get (isField h) "hy" = .ok y → c.own.get (isField h) "hz" = .ok z → ∀ q ∈ qs, 0 < F.val v y q.x ∧ 0 < F.val v z q.x ∧ F.val v y q.x ≠ F.val v z q.x) {P : Bar} (hP : c.bar h = .ok P) :
    ∀ q ∈ qs, MatDeriv (fun t => (barSec F P (Function.update v p t) q.x).A) (dBarSec F P v p q.x).A (v p) ∧
      MatDeriv (fun t => (barSec F P (Function.update v p t) q.x).B) (dBarSec F P v p q.x).B (v p) ∧ MatDeriv (fun t => (barSec F P (Function.update v p t) q.x).D) (dBarSec F P v p q.x).D (v p) := by
  obtain ⟨f1, f2, f3, f4, f5, f6, gy, gz, gnu⟩ := bar_spec hP
  intro q hq
  have d1 := hv _ f1.1 q.x
  have d2 := hv _ f2.1 q.x
  have d3 := hv _ f3.1 q.x
  have d4 := hv _ f4.1 q.x
  have d5 := hv _ f5.1 q.x
  have d6 := hv _ f6.1 q.x
  obtain ⟨n1, n2, n3⟩ := hnu _ gnu q hq
  obtain ⟨s1, s2, s3⟩ := hside _ _ gy gz q hq
  have hC := (C57_derivative_partial d5 d6 (by rwa [upd_self]) (by rwa [upd_self]) (by rwa [upd_self])).1
  obtain ⟨a1, a2, a3, _, a5⟩ := Section1D.C64_deriv_properties d1 d2 d3 d4
  have hJ := Section1D.C65_derivative d1 d2 (by rwa [upd_self]) (by rwa [upd_self]) (by rwa [upd_self])
  have := Section1D.C64_deriv_stiffness a1 hJ a3 a2 hC a5
  simp only [upd_self] at this
  exact this

/-- C183: the same for a beam without transverse shear and sides of different length. -/
theorem C183_beam (bs : List Build) (h : Heap) (hb : buildAll bs = .ok h) (F : Funcs X) (hd : Declares h F) (c : Card) (T : Option (Fin 3 → Fin 3 → ℝ)) (nl bend : Bool)
    (qs : List (Beam.Bqp n X)) (u : Dof n → ℝ) (v : Nat → ℝ) (p : Nat) (hv : Derivs h F v p)
    (hnu : ∀ x, c.material.get (isField h) "nu" = .ok x → ∀ q ∈ qs, 1 + F.val v x q.x ≠ 0 ∧ 1 - 2 * F.val v x q.x ≠ 0 ∧ 1 - F.val v x q.x ≠ 0)
    (hside : ∀ y z, c.own.get (isField h) "hy" = .ok y → c.own.get (isField h) "hz" = .ok z → ∀ q ∈ qs, 0 < F.val v y q.x ∧ 0 < F.val v z q.x ∧ F.val v y q.x ≠ F.val v z q.x)
    (r : Dof n → ℝ) (hr : barForce h F c T nl bend qs u v = .ok r) (f : Dof n → ℝ) :
    ∃ s, barSens h F c T nl bend qs u v p f = .ok (fun a => f a + s a) ∧ IsPartial (barForce h F c T nl bend qs u) v p s := by
  cases hp : c.dependsOn h p with
  | false =>
    obtain ⟨h1, h2⟩ := C183_beam_unaffected bs h hb F hd c T nl bend qs u v p hp
    refine ⟨fun _ => 0, by simpa using h2 f, fun _ => r, fun t => by rw [h1 t, hr], fun a => hasDerivAt_const _ _⟩
  | true =>
    unfold barForce at hr
    cases hP : c.bar h with
    | error e => rw [bind_err hP] at hr; cases hr
    | ok P =>
      obtain ⟨f1, f2, f3, f4, f5, f6, gy, gz, gnu⟩ := bar_spec hP
      refine ⟨Beam.internalSens T nl bend (barElem F P v qs) (fun q => dBarSec F P v p q.x) (fun _ _ _ => 0) u, ?_,
        fun t => Beam.internalRes T nl bend (barElem F P (Function.update v p t) qs) u, fun t => ?_, fun a => ?_⟩
      · rw [barSens, if_pos hp, bind_ok hP]; rfl
      · rw [barForce, bind_ok hP]; rfl
      · have key := bar_derivs hv hnu hside hP
        have e := Beam.C118_sensitivity T nl bend qs [] (fun t q => barSec F P (Function.update v p t) q.x) (fun _ _ _ _ => 0) (fun q => dBarSec F P v p q.x) (fun _ _ _ => 0) (v p)
          (fun q hq i j => (key q hq).1 i j) (fun q hq i j => (key q hq).2.1 i j) (fun q hq i j => (key q hq).2.2 i j) (fun q hq => by cases hq) u a
        simp only [upd_self] at e
        exact e

/-! ## A program -/

/-- Parameters `E, nu, h, off, kappa` (objects 0-4) and a constant field function for each (5-9). -/
def prog : List Build := [.new .param "E" [], .new .param "nu" [], .new .param "h" [], .new .param "off" [], .new .param "kappa" [],
  .new .func "E" [0], .new .func "nu" [1], .new .func "h" [2], .new .func "off" [3], .new .func "kappa" [4]]
def heap : Heap := [⟨.param, "E", []⟩, ⟨.param, "nu", []⟩, ⟨.param, "h", []⟩, ⟨.param, "off", []⟩, ⟨.param, "kappa", []⟩,
  ⟨.func, "E", [0]⟩, ⟨.func, "nu", [1]⟩, ⟨.func, "h", [2]⟩, ⟨.func, "off", [3]⟩, ⟨.func, "kappa", [4]⟩]
/-- The same program with a copy of the thickness function (object 10). -/
def prog2 : List Build := prog ++ [.copy 7]
def heap2 : Heap := heap ++ [⟨.func, "h", []⟩]
/-- Parameter behind a function. -/
def par (x : Nat) : Nat := if x = 10 then 2 else x - 5
/-- Every function returns the value of its parameter (constant_field_function.cpp:43-79). -/
noncomputable def consts : Funcs Unit := ⟨fun v x _ => v (par x), fun _ x p _ => if p = par x then 1 else 0⟩
def card : Card := ⟨[("h", 7), ("off", 8), ("kappa", 9)], [("E", 5), ("nu", 6)]⟩
def card2 : Card := ⟨[("h", 10), ("off", 8), ("kappa", 9)], [("E", 5), ("nu", 6)]⟩
/-- One point with transverse shear only. -/
noncomputable def sq : Shell.ShearQp 1 Unit := ⟨(), 1, fun _ => 0, fun _ => 1, fun _ => 0⟩
/-- Deflection of the node. -/
noncomputable def bump : Dof 1 → ℝ := Shell.unitDof (false, 2, 0)
noncomputable def vals : Nat → ℝ := fun i => if i = 1 ∨ i = 3 then 0 else 1

theorem prog_built : buildAll prog = .ok heap := rfl
theorem prog2_built : buildAll prog2 = .ok heap2 := rfl

theorem declares : Declares heap consts := by
  intro x o hx hk v w hs pt
  have hlt : x < 10 := (List.getElem?_eq_some_iff.1 hx).1
  show v (par x) = w (par x)
  interval_cases x <;> simp only [heap, List.getElem?_cons_zero, List.getElem?_cons_succ, Option.some.injEq] at hx <;> subst hx <;>
    first
      | (cases hk; done)
      | (have := hs _ (List.mem_singleton.2 rfl); simpa [Same, isField, heap, par] using this)

theorem derivs (h : Heap) (v : Nat → ℝ) (p : Nat) : Derivs h consts v p := by
  intro x _ pt
  show HasDerivAt (fun t => Function.update v p t (par x)) (if p = par x then 1 else 0) (v p)
  by_cases e : p = par x
  · subst e
    simpa using hasDerivAt_id' (v (par x))
  · rw [if_neg e]
    simp only [Function.update_of_ne (Ne.symm e)]
    exact hasDerivAt_const _ _

theorem shear_force (P : Plate) (v : Nat → ℝ) : Shell.internalRes none false true (plateElem consts true P v [] [sq]) bump (false, 2, 0)
    = v (par P.kappa) * (v (par P.h) * (v (par P.E) / 2 / (1 + v (par P.nu)))) := by
  show Shell.localRes false true (plateElem consts true P v [] [sq]) bump (false, 2, 0) = _
  have e : ∀ r, Shell.app (Shell.shearOp sq) bump r = Shell.shearOp sq r (false, 2, 0) := fun r => Shell.sum_unit _ _
  simp only [Shell.localRes, plateElem, List.map_nil, List.sum_nil, List.map_cons, List.sum_cons, if_true, Shell.shearRes, Shell.appT, Shell.mv, e, Fin.sum_univ_two]
  simp [Shell.shearOp, Shell.shape, sq, plateG, Section2D.plateShear, isoShear, consts]

theorem shear_sens (v : Nat → ℝ) (dS : Shell.Sqp 1 Unit → Shell.Stiff) (P : Plate) (hE : par P.h ≠ 0 ∧ par P.kappa ≠ 0) :
    Shell.internalSens none false true (plateElem consts true P v [] [sq]) dS (fun q => dPlateG consts P v 0 q.x) bump (false, 2, 0) = 0 := by
  show Shell.localRes false true ((plateElem consts true P v [] [sq]).deriv dS _) bump (false, 2, 0) = _
  have e : ∀ r, Shell.app (Shell.shearOp sq) bump r = Shell.shearOp sq r (false, 2, 0) := fun r => Shell.sum_unit _ _
  simp only [Shell.localRes, Shell.Elem.deriv, plateElem, List.map_nil, List.sum_nil, List.map_cons, List.sum_cons, if_true, Shell.shearRes, Shell.appT, Shell.mv, e, Fin.sum_univ_two]
  have h1 := Ne.symm hE.1
  have h2 := Ne.symm hE.2
  simp [dPlateG, Section2D.dPlateShear, dIsoShear, consts, h1, h2]

/-- C183, finding: with transverse shear the sensitivity with respect to Young's modulus is not the derivative of the internal force: the card depends on the parameter, all functions declare what they use and
have the right derivatives, but the shear part does not enter. -/
theorem C183_shear_fails : buildAll prog = .ok heap ∧ Declares heap consts ∧ Derivs heap consts vals 0 ∧ card.dependsOn heap 0 = true ∧
    (∃ r, plateForce heap consts card true none false true [] [sq] bump vals = .ok r) ∧
    ∃ s, plateSens heap consts card true none false true [] [sq] bump vals 0 (fun _ => 0) = .ok s ∧ ¬ IsPartial (plateForce heap consts card true none false true [] [sq] bump) vals 0 s := by
  have hP : card.plate heap true = .ok ⟨7, 8, 9, 5, 6⟩ := rfl
  refine ⟨prog_built, declares, derivs _ _ _, rfl, ⟨_, bind_ok hP _⟩, _, (if_pos rfl).trans (bind_ok hP _), ?_⟩
  rintro ⟨g, hg, hd⟩
  have hd := hd (false, 2, 0)
  simp only [zero_add] at hd
  rw [shear_sens vals _ ⟨7, 8, 9, 5, 6⟩ (by simp [par])] at hd
  have hgt : ∀ t, g t (false, 2, 0) = t / 2 := by
    intro t
    have e := hg t
    have e := (bind_ok hP _).symm.trans e
    rw [← Except.ok.inj e, shear_force]
    simp [par, vals, Function.update]
  simp only [hgt] at hd
  have := hd.unique ((hasDerivAt_id' (vals 0)).div_const 2)
  norm_num at this

/-- C183, finding: a copy of a function does not know what it depends on.  With a copy of the thickness function in the card, the thickness parameter changes the force, but the sensitivity routine returns
without adding anything. -/
theorem C183_copied_fails : buildAll prog2 = .ok heap2 ∧ Derivs heap2 consts vals 2 ∧ (∀ v pt, consts.val v 10 pt = consts.val v 7 pt) ∧
    (∃ r, plateForce heap2 consts card2 true none false true [] [sq] bump vals = .ok r) ∧
    plateSens heap2 consts card2 true none false true [] [sq] bump vals 2 (fun _ => 0) = .ok (fun _ => 0) ∧
    ¬ IsPartial (plateForce heap2 consts card2 true none false true [] [sq] bump) vals 2 (fun _ => 0) := by
  have hP : card2.plate heap2 true = .ok ⟨10, 8, 9, 5, 6⟩ := rfl
  refine ⟨prog2_built, derivs _ _ _, fun _ _ => rfl, ⟨_, bind_ok hP _⟩, if_neg (by decide), ?_⟩
  rintro ⟨g, hg, hd⟩
  have hd := hd (false, 2, 0)
  have hgt : ∀ t, g t (false, 2, 0) = t / 2 := by
    intro t
    have e := hg t
    have e := (bind_ok hP _).symm.trans e
    rw [← Except.ok.inj e, shear_force]
    simp [par, vals, Function.update]
    ring
  simp only [hgt] at hd
  have := hd.unique ((hasDerivAt_id' (vals 2)).div_const 2)
  norm_num at this

/-- Non-vacuity of `C183_query`, `C183_plate_unaffected`: the thickness function does not depend on Young's modulus; the card does not depend on a parameter it does not use. -/
example : isField heap 7 = true ∧ asks heap 7 0 = false ∧ asks heap 7 2 = true ∧ card.dependsOn heap 2 = true ∧ (⟨card.own, [("nu", 6)]⟩ : Card).dependsOn heap 0 = false := by decide
/-- Non-vacuity of `C183_plate_partial`: thickness of the element with transverse shear. -/
example (s : Nat → ℝ) (hs : s = vals) : (∀ x, card.material.get (isField heap) "nu" = .ok x → ∀ q ∈ ([] : List (Shell.Sqp 1 Unit)), 1 + consts.val s x q.x ≠ 0 ∧ 1 - 2 * consts.val s x q.x ≠ 0 ∧ 1 - consts.val s x q.x ≠ 0)
    ∧ (∀ nm x, nm = "E" ∨ nm = "nu" → card.material.get (isField heap) nm = .ok x → asks heap x 2 = false) := by
  refine ⟨by simp, ?_⟩
  rintro nm x (rfl | rfl) h
  · have h' : (Except.ok 5 : Exec Nat) = .ok x := h
    rw [← Except.ok.inj h']; decide
  · have h' : (Except.ok 6 : Exec Nat) = .ok x := h
    rw [← Except.ok.inj h']; decide

/-- A beam of `hy = 1`, `hz = 2`. -/
def barCard : Card := ⟨[("hy", 7), ("hz", 9), ("Kappazz", 8), ("Kappayy", 8), ("hy_off", 8), ("hz_off", 8)], [("E", 5), ("nu", 6)]⟩
noncomputable def barVals : Nat → ℝ := fun i => if i = 1 ∨ i = 3 then 0 else if i = 4 then 2 else 1
/-- Non-vacuity of `C183_beam`, at any quadrature points. -/
example (qs : List (Beam.Bqp n Unit)) (u : Dof n → ℝ) : (∃ r, barForce heap consts barCard none true true qs u barVals = .ok r) ∧ barCard.dependsOn heap 4 = true ∧
    (∀ x, barCard.material.get (isField heap) "nu" = .ok x → ∀ q ∈ qs, 1 + consts.val barVals x q.x ≠ 0 ∧ 1 - 2 * consts.val barVals x q.x ≠ 0 ∧ 1 - consts.val barVals x q.x ≠ 0) ∧
    (∀ y z, barCard.own.get (isField heap) "hy" = .ok y → barCard.own.get (isField heap) "hz" = .ok z → ∀ q ∈ qs, 0 < consts.val barVals y q.x ∧ 0 < consts.val barVals z q.x ∧ consts.val barVals y q.x ≠ consts.val barVals z q.x) := by
  have hP : barCard.bar heap = .ok ⟨7, 9, 8, 8, 5, 6⟩ := rfl
  refine ⟨⟨_, bind_ok hP _⟩, by decide, ?_, ?_⟩
  · intro x hx q _
    have h' : (Except.ok 6 : Exec Nat) = .ok x := hx
    rw [← Except.ok.inj h']
    norm_num [consts, par, barVals]
  · intro y z hy hz q _
    have hy' : (Except.ok 7 : Exec Nat) = .ok y := hy
    have hz' : (Except.ok 9 : Exec Nat) = .ok z := hz
    rw [← Except.ok.inj hy', ← Except.ok.inj hz']
    norm_num [consts, par, barVals]

end Verif.SecDep
