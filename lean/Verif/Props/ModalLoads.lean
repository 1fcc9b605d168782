import Verif.Model.ModalLoads
import Verif.Props.ModalBase
import Verif.Props.SteadyLoads
/-! C190: sensitivity of the natural frequencies of structures with loads on their elements, in particular heated structures. -/
namespace Verif.Modal
open Verif Finset Matrix Verif.SecDep Verif.GeomElem Verif.StructLoads Verif.Steady

variable {N m : Nat}

/-! ## Specification -/

section
variable {n : Nat} {X : Type}

/-- Along the states `u` of the element, the matrix a load adds to the sensitivity is the derivative of the matrix it adds to the stiffness, which is symmetric. -/
def JacFollows (J DJ : ℝ → (Dof n → ℝ) → Dof n → Dof n → ℝ) (u : ℝ → Dof n → ℝ) (t₀ : ℝ) : Prop :=
  (∀ a b, HasDerivAt (fun t => J t (u t) a b) (DJ t₀ (u t₀) a b) t₀) ∧ ∀ a b, J t₀ (u t₀) a b = J t₀ (u t₀) b a

/-- The loads of the element are of the accepted types. -/
def MAccepted (A : MAttached n) : Prop :=
  (∀ e ∈ attachedSide A.nSides A.ids A.sides, SideLoad e.2.load.kind ∨ SideOther e.2.load.kind) ∧ ∀ l ∈ attachedVol A.sid A.vols, VolLoad l.load.kind

/-- Every load the element carries follows. -/
def MLoadsOk (A : MAttached n) (u : ℝ → Dof n → ℝ) (t₀ : ℝ) : Prop :=
  (∀ e ∈ attachedSide A.nSides A.ids A.sides, SideLoad e.2.load.kind → JacFollows (e.2.load.side e.1).jac (e.2.sideDJ e.1) u t₀) ∧ ∀ l ∈ attachedVol A.sid A.vols, JacFollows l.load.vol.jac l.volDJ u t₀

/-! ## Elements -/

theorem madd_eq {V : Type} [AddCommMonoid V] (A : MAttached n) (hA : MAccepted A) (rs : Nat → MLoad n → V) (rv : MLoad n → V) (f : V) :
    A.add sideAct volAct rs rv f = .ok (f + ((attachedSide A.nSides A.ids A.sides).map fun e => if SideLoad e.2.load.kind then rs e.1 e.2 else 0).sum + ((attachedVol A.sid A.vols).map rv).sum) := by
  unfold MAttached.add
  rw [C113_side, if_pos hA.1]
  simp only
  rw [C113_volume, if_pos hA.2]

theorem withLoads_A {stiff sens mass massSens : ℝ → Exec (Dof n → Dof n → ℝ)} {A : MAttached n} {u : ℝ → Dof n → ℝ} {dof : Nat → Nat} {t : ℝ} {K : Dof n → Dof n → ℝ} (hA : MAccepted A) (hK : stiff t = .ok K) (d f : Dof n) :
    (withLoads stiff sens mass massSens A u dof).A t d.row f.row = K d f + (((attachedSide A.nSides A.ids A.sides).map fun e => if SideLoad e.2.load.kind then (e.2.load.side e.1).jac t (u t) else 0).sum d f)
      + ((attachedVol A.sid A.vols).map fun e => e.load.vol.jac t (u t)).sum d f := by
  show matVal (stiff t >>= A.add sideAct volAct _ _) d.row f.row = _
  rw [bind_ok hK, madd_eq A hA]
  simp only [matVal, flat2_row, Pi.add_apply]

theorem withLoads_dA {stiff sens mass massSens : ℝ → Exec (Dof n → Dof n → ℝ)} {A : MAttached n} {u : ℝ → Dof n → ℝ} {dof : Nat → Nat} {t : ℝ} {K : Dof n → Dof n → ℝ} (hA : MAccepted A) (hK : sens t = .ok K) (d f : Dof n) :
    (withLoads stiff sens mass massSens A u dof).dA t d.row f.row = K d f + (((attachedSide A.nSides A.ids A.sides).map fun e => if SideLoad e.2.load.kind then e.2.sideDJ e.1 t (u t) else 0).sum d f)
      + ((attachedVol A.sid A.vols).map fun e => e.volDJ t (u t)).sum d f := by
  show matVal (sens t >>= A.add sideSensAct volSensAct _ _) d.row f.row = _
  rw [bind_ok hK, sens_acts.1, sens_acts.2, madd_eq A hA]
  simp only [matVal, flat2_row, Pi.add_apply]

theorem side_jac (l : List (Nat × MLoad n)) (u : ℝ → Dof n → ℝ) (t₀ : ℝ) (h : ∀ e ∈ l, SideLoad e.2.load.kind → JacFollows (e.2.load.side e.1).jac (e.2.sideDJ e.1) u t₀) (a b : Dof n) :
    HasDerivAt (fun t => (l.map fun e => if SideLoad e.2.load.kind then (e.2.load.side e.1).jac t (u t) else 0).sum a b) ((l.map fun e => if SideLoad e.2.load.kind then e.2.sideDJ e.1 t₀ (u t₀) else 0).sum a b) t₀ ∧
    (l.map fun e => if SideLoad e.2.load.kind then (e.2.load.side e.1).jac t₀ (u t₀) else 0).sum a b = (l.map fun e => if SideLoad e.2.load.kind then (e.2.load.side e.1).jac t₀ (u t₀) else 0).sum b a := by
  induction l with
  | nil => simpa using hasDerivAt_const t₀ (0 : ℝ)
  | cons e l ih =>
    have ih := ih fun x hx => h x (List.mem_cons_of_mem _ hx)
    simp only [List.map_cons, List.sum_cons, Pi.add_apply]
    by_cases hk : SideLoad e.2.load.kind
    · simp only [if_pos hk]
      have he := h e List.mem_cons_self hk
      exact ⟨(he.1 a b).fun_add ih.1, by rw [he.2 a b, ih.2]⟩
    · simp only [if_neg hk, Pi.zero_apply, zero_add]
      exact ih

theorem vol_jac (l : List (MLoad n)) (u : ℝ → Dof n → ℝ) (t₀ : ℝ) (h : ∀ e ∈ l, JacFollows e.load.vol.jac e.volDJ u t₀) (a b : Dof n) :
    HasDerivAt (fun t => (l.map fun e => e.load.vol.jac t (u t)).sum a b) ((l.map fun e => e.volDJ t₀ (u t₀)).sum a b) t₀ ∧
    (l.map fun e => e.load.vol.jac t₀ (u t₀)).sum a b = (l.map fun e => e.load.vol.jac t₀ (u t₀)).sum b a := by
  induction l with
  | nil => simpa using hasDerivAt_const t₀ (0 : ℝ)
  | cons e l ih =>
    have ih := ih fun x hx => h x (List.mem_cons_of_mem _ hx)
    simp only [List.map_cons, List.sum_cons, Pi.add_apply]
    have he := h e List.mem_cons_self
    exact ⟨(he.1 a b).fun_add ih.1, by rw [he.2 a b, ih.2]⟩

/-- C190: loads that follow keep an element consistent: if stiffness and mass of the bare element have the right sensitivities, so have those of the element with its loads. -/
theorem C190_element {e : MElem} {stiff sens mass massSens : ℝ → Exec (Dof n → Dof n → ℝ)} {A : MAttached n} {u : ℝ → Dof n → ℝ} {dof : Nat → Nat} {t₀ : ℝ} (hn : e.n = 6 * n)
    (hA : ∀ t, e.A t = matVal (stiff t)) (hB : ∀ t, e.B t = matVal (mass t)) (hdA : e.dA t₀ = matVal (sens t₀)) (hdB : e.dB t₀ = matVal (massSens t₀)) (hs : ∀ t, ∃ K, stiff t = .ok K) (hd : ∃ K, sens t₀ = .ok K)
    (he : Consistent e t₀) (hacc : MAccepted A) (hl : MLoadsOk A u t₀) : Consistent (withLoads stiff sens mass massSens A u dof) t₀ := by
  choose K hK using hs
  obtain ⟨K', hK'⟩ := hd
  have fA : ∀ t, (withLoads stiff sens mass massSens A u dof).A t = flat2 (K t + ((attachedSide A.nSides A.ids A.sides).map fun e => if SideLoad e.2.load.kind then (e.2.load.side e.1).jac t (u t) else 0).sum
      + ((attachedVol A.sid A.vols).map fun e => e.load.vol.jac t (u t)).sum) := fun t => by
    show matVal (stiff t >>= A.add sideAct volAct _ _) = _
    rw [bind_ok (hK t), madd_eq A hacc]
    rfl
  have fD : (withLoads stiff sens mass massSens A u dof).dA t₀ = flat2 (K' + ((attachedSide A.nSides A.ids A.sides).map fun e => if SideLoad e.2.load.kind then e.2.sideDJ e.1 t₀ (u t₀) else 0).sum
      + ((attachedVol A.sid A.vols).map fun e => e.volDJ t₀ (u t₀)).sum) := by
    show matVal (sens t₀ >>= A.add sideSensAct volSensAct _ _) = _
    rw [bind_ok hK', sens_acts.1, sens_acts.2, madd_eq A hacc]
    rfl
  have eA : ∀ t, e.A t = flat2 (K t) := fun t => by rw [hA, hK]; rfl
  have eD : e.dA t₀ = flat2 K' := by rw [hdA, hK']; rfl
  have row : ∀ d : Dof n, d.row < e.n := fun d => by rw [hn]; exact C111_rows.2.1 d
  constructor
  · intro a ha b hb
    obtain ⟨d, rfl⟩ := C111_rows.2.2 a ha
    obtain ⟨f, rfl⟩ := C111_rows.2.2 b hb
    have h0 := he.stiff _ (row d) _ (row f)
    simp only [eA, eD, flat2_row] at h0
    simp only [fA, fD, flat2_row, Pi.add_apply]
    exact (h0.fun_add (side_jac _ u t₀ hl.1 d f).1).fun_add (vol_jac _ u t₀ hl.2 d f).1
  · intro a ha b hb
    have h0 := he.mass a (hn ▸ ha) b (hn ▸ hb)
    simp only [hB, hdB] at h0
    exact h0
  · intro a ha b hb
    obtain ⟨d, rfl⟩ := C111_rows.2.2 a ha
    obtain ⟨f, rfl⟩ := C111_rows.2.2 b hb
    have h0 := he.symA _ (row d) _ (row f)
    simp only [eA, flat2_row] at h0
    simp only [fA, flat2_row, Pi.add_apply]
    rw [h0, (side_jac _ u t₀ hl.1 d f).2, (vol_jac _ u t₀ hl.2 d f).2]
  · intro a ha b hb
    have h0 := he.symB a (hn ▸ ha) b (hn ▸ hb)
    simp only [hB] at h0
    exact h0

/-! ## The loads -/

theorem global_symm (T : Option (Fin 3 → Fin 3 → ℝ)) {J : Dof n → Dof n → ℝ} (h : ∀ c d, J c d = J d c) (a b : Dof n) : matToGlobal T J a b = matToGlobal T J b a := by
  cases T with
  | none => exact h a b
  | some T =>
    simp only [matToGlobal, Finset.sum_mul]
    rw [Finset.sum_comm]
    refine Finset.sum_congr rfl fun x _ => Finset.sum_congr rfl fun y _ => ?_
    rw [h x y]
    ring

theorem sandwich_symm {k : Nat} (B : Fin k → Dof n → ℝ) {C : Fin k → Fin k → ℝ} (h : ∀ r s, C r s = C s r) (a b : Dof n) : Shell.sandwich B C B a b = Shell.sandwich B C B b a := by
  unfold Shell.sandwich
  rw [Finset.sum_comm]
  exact Finset.sum_congr rfl fun r _ => Finset.sum_congr rfl fun s _ => by rw [h s r]; ring

theorem list_symm {ι : Type} (l : List ι) (f g : ι → ℝ) (h : ∀ x ∈ l, f x = g x) : (l.map f).sum = (l.map g).sum := by rw [List.map_congr_left h]

/-- C190, partial: temperature on a beam, for any expansion and temperature fields, frame, and strain: the Jacobian of `thermal_residual_sensitivity` is the derivative of the Jacobian of `thermal_residual`, about every
state.  Partial: without `thermal_jacobian_scaling` (`C190_scaling_fails`). -/
theorem C190_thermal_beam_partial (T : Option (Fin 3 → Fin 3 → ℝ)) (nl bend : Bool) (scaling : ℝ → ℝ) (hs : ∀ t, scaling t = 1) (th : Fam (Beam.Bqp n X) Beam.Thermal) (qs : List (Beam.Bqp n X)) (side : Nat → Op n) (t₀ : ℝ)
    (h : ∀ q ∈ qs, BeamTherm th t₀ q) (u : ℝ → Dof n → ℝ) : JacFollows (thermalBeam T nl bend scaling th qs side).load.vol.jac (thermalBeam T nl bend scaling th qs side).volDJ u t₀ := by
  constructor
  · intro a b
    simp only [thermalBeam, thermalBeamOp, Beam.thermalJac, Beam.thermalSensJac, hs, one_mul, List.map_map, Function.comp_def]
    refine global_deriv T _ _ _ (fun c d => ?_) a b
    refine (hasDerivAt_list qs _ _ _ fun q hq => ?_).fun_neg
    have hq := h q hq
    have hst : ∀ r s, HasDerivAt (fun t => Beam.stressMat ((th.val t q).expA 0 * ((th.val t q).temp - (th.val t q).ref)) r s)
        (Beam.stressMat ((th.val t₀ q).expA 0 * ((th.der t₀ q).temp - (th.der t₀ q).ref) + (th.der t₀ q).expA 0 * ((th.val t₀ q).temp - (th.val t₀ q).ref)) r s) t₀ := by
      have := (hq.expA 0).fun_mul (hq.temp.fun_sub hq.ref)
      intro r s
      fin_cases r <;> fin_cases s <;> simp [Beam.stressMat]
      · exact this.congr_deriv (by ring)
      all_goals exact hasDerivAt_const _ _
    unfold Beam.loadOpJac
    cases (bend && nl) with
    | false => exact hasDerivAt_const _ _
    | true => exact ((sandwich_deriv _ _ _ _ t₀ hst c d).const_mul _).fun_add ((sandwich_deriv _ _ _ _ t₀ hst c d).const_mul _)
  · intro a b
    refine global_symm T (fun c d => ?_) a b
    rw [list_symm _ _ (fun p => Beam.loadOpJac nl bend (Beam.stressMat (p.2.expA 0 * (p.2.temp - p.2.ref))) p.1 d c) fun p _ => ?_]
    have : ∀ s r r', Beam.stressMat s r r' = Beam.stressMat s r' r := by intro s r r'; fin_cases r <;> fin_cases r' <;> rfl
    unfold Beam.loadOpJac
    cases (bend && nl) with
    | false => rfl
    | true => simp only [if_true, sandwich_symm _ (this _) c d]

/-- C190, partial: the same for a shell. -/
theorem C190_thermal_shell_partial (T : Option (Fin 3 → Fin 3 → ℝ)) (nl bend : Bool) (scaling : ℝ → ℝ) (hs : ∀ t, scaling t = 1) (th : Fam (Shell.Sqp n X) Shell.Thermal) (qs : List (Shell.Sqp n X)) (side : Nat → Op n) (t₀ : ℝ)
    (h : ∀ q ∈ qs, ShellTherm th t₀ q) (u : ℝ → Dof n → ℝ) : JacFollows (thermalShell T nl bend scaling th qs side).load.vol.jac (thermalShell T nl bend scaling th qs side).volDJ u t₀ := by
  constructor
  · intro a b
    simp only [thermalShell, thermalShellOp, Shell.thermalJac, Shell.thermalSensJac, hs]
    refine global_deriv T _ _ _ (fun c d => ?_) a b
    simp only [Shell.thermalLocalJac, one_mul, List.map_map, Function.comp_def]
    refine (hasDerivAt_list qs _ _ _ fun q hq => ?_).fun_neg
    have hq := h q hq
    have hta : ∀ r, HasDerivAt (fun t => (th.val t q).expA r * ((th.val t q).temp - (th.val t q).ref))
        ((th.val t₀ q).expA r * ((th.der t₀ q).temp - (th.der t₀ q).ref) + (th.der t₀ q).expA r * ((th.val t₀ q).temp - (th.val t₀ q).ref)) t₀ := fun r =>
      ((hq.expA r).fun_mul (hq.temp.fun_sub hq.ref)).congr_deriv (by ring)
    have hst : ∀ r s, HasDerivAt (fun t => Shell.stressMat (fun r => (th.val t q).expA r * ((th.val t q).temp - (th.val t q).ref)) r s)
        (Shell.stressMat (fun r => (th.val t₀ q).expA r * ((th.der t₀ q).temp - (th.der t₀ q).ref) + (th.der t₀ q).expA r * ((th.val t₀ q).temp - (th.val t₀ q).ref)) r s) t₀ := by
      intro r s
      fin_cases r <;> fin_cases s
      · exact hta 0
      · exact hta 2
      · exact hta 2
      · exact hta 1
    have key : ∀ {k : Nat} (B : Fin 2 → Dof n → ℝ), HasDerivAt (fun t => q.JxW * Shell.sandwich B (Shell.stressMat (fun r => (th.val t q).expA r * ((th.val t q).temp - (th.val t q).ref))) B c d) _ t₀ := fun {k} B =>
      (sandwich_deriv B B _ _ t₀ hst c d).const_mul _
    unfold Shell.thermalOpJac
    cases nl with
    | false => exact hasDerivAt_const _ _
    | true =>
      simp only [if_true]
      refine ((key (k := 0) _).fun_add (key (k := 0) _)).fun_add ?_
      cases bend with
      | false => exact hasDerivAt_const _ _
      | true => exact key (k := 0) _
  · intro a b
    refine global_symm T (fun c d => ?_) a b
    unfold Shell.thermalLocalJac
    rw [list_symm _ _ (fun p => Shell.thermalOpJac nl bend (fun r => p.2.expA r * (p.2.temp - p.2.ref)) p.1 d c) fun p _ => ?_]
    have : ∀ ta r r', Shell.stressMat ta r r' = Shell.stressMat ta r' r := by intro s r r'; fin_cases r <;> fin_cases r' <;> rfl
    unfold Shell.thermalOpJac
    rw [sandwich_symm (Shell.Bu p.1) (this _) c d, sandwich_symm (Shell.Bv p.1) (this _) c d, sandwich_symm (Shell.Bvk p.1) (this _) c d]

/-- C190: pressure and traction do not touch the stiffness. -/
theorem C190_dead (T : Option (Fin 3 → Fin 3 → ℝ)) (dim : Nat) (h p : Fam X ℝ) (tr : Fam X (Fin 3 → ℝ)) (pts : List (Qp n X)) (k : Kind) (side : Nat → Op n) (o : Op n) (u : ℝ → Dof n → ℝ) (t₀ : ℝ) :
    JacFollows (deadLoad ⟨k, side, pressureOp T dim p pts⟩).load.vol.jac (deadLoad ⟨k, side, pressureOp T dim p pts⟩).volDJ u t₀ ∧
    (∀ s, JacFollows ((deadLoad ⟨k, fun _ => sidePressureOp T h p pts, o⟩).load.side s).jac ((deadLoad ⟨k, fun _ => sidePressureOp T h p pts, o⟩).sideDJ s) u t₀) ∧
    ∀ s, JacFollows ((deadLoad ⟨k, fun _ => tractionOp T h tr pts, o⟩).load.side s).jac ((deadLoad ⟨k, fun _ => tractionOp T h tr pts, o⟩).sideDJ s) u t₀ :=
  ⟨⟨fun _ _ => hasDerivAt_const _ _, fun _ _ => rfl⟩, fun _ => ⟨fun _ _ => hasDerivAt_const _ _, fun _ _ => rfl⟩, fun _ => ⟨fun _ _ => hasDerivAt_const _ _, fun _ _ => rfl⟩⟩

/-! ## Structures -/

/-- Loaded members of the structure: with a base solution `U` whose given sensitivity is `V`, or without. -/
inductive IsMemberL (v : Nat → ℝ) (p : Nat) (U : ℝ → Nat → ℝ) (V : Nat → ℝ) : MElem → Prop
  | beamAt {n : Nat} {X : Type} (E : BeamData n X) (A : MAttached n) (diag : Bool) (pts : List (Qp n X)) (dof : Nat → Nat) (h : BeamOk E v p) (hm : MassOk E.hp E.card pts) (ho : SameOffset E v) (hA : MAccepted A)
      (hl : MLoadsOk A (fun t => gather dof (U t)) (v p)) : IsMemberL v p U V (beamLoadedAt E A diag pts v p dof U V)
  | shellAt {n : Nat} {X : Type} (E : ShellData n X) (A : MAttached n) (diag : Bool) (pts : List (Qp n X)) (dof : Nat → Nat) (h : ShellOk E v p) (hm : MassOk E.hp E.card pts) (ho : NoOffset E pts v p) (hlin : E.nl = false)
      (hA : MAccepted A) (hl : MLoadsOk A (fun t => gather dof (U t)) (v p)) : IsMemberL v p U V (shellLoadedAt E A diag pts v p dof U V)
  | beam {n : Nat} {X : Type} (E : BeamData n X) (A : MAttached n) (diag : Bool) (pts : List (Qp n X)) (dof : Nat → Nat) (h : BeamOk E v p) (hm : MassOk E.hp E.card pts) (hA : MAccepted A)
      (hl : MLoadsOk A (fun _ _ => 0) (v p)) : IsMemberL v p U V (beamLoaded E A diag pts v p dof)
  | shell {n : Nat} {X : Type} (E : ShellData n X) (A : MAttached n) (diag : Bool) (pts : List (Qp n X)) (dof : Nat → Nat) (h : ShellOk E v p) (hm : MassOk E.hp E.card pts) (ho : NoOffset E pts v p)
      (hA : MAccepted A) (hl : MLoadsOk A (fun _ _ => 0) (v p)) : IsMemberL v p U V (shellLoaded E A diag pts v p dof)

/-- C190: a loaded member has consistent matrices. -/
theorem C190_member {v : Nat → ℝ} {p : Nat} {U : ℝ → Nat → ℝ} {V : Nat → ℝ} {e : MElem} (he : IsMemberL v p U V e) (hU : Follows e.n e.dof U V (v p)) : Consistent e (v p) := by
  cases he with
  | beamAt E A diag pts dof h hm ho hA hl =>
    obtain ⟨P, hP⟩ := h.found
    refine C190_element (e := beamModalAt E diag pts v p dof U V) rfl (fun _ => rfl) (fun _ => rfl) rfl rfl (fun t => ?_) ?_ (C189_beam_partial E diag pts v p dof U V h hm ho hU) hA hl
    · rw [barJac, bind_ok hP]; exact ⟨_, rfl⟩
    · rw [barStiffSensAt, bind_ok hP]; exact ⟨_, rfl⟩
  | shellAt E A diag pts dof h hm ho hlin hA hl =>
    obtain ⟨P, hP⟩ := h.found
    refine C190_element (e := shellModalAt E diag pts v p dof U V) rfl (fun _ => rfl) (fun _ => rfl) rfl rfl (fun t => ?_) ?_ (C189_shell_partial E diag pts v p dof U V h hm ho hlin) hA hl
    · rw [plateJac, bind_ok hP]; exact ⟨_, rfl⟩
    · rw [plateStiffSensAt, bind_ok hP]; exact ⟨_, rfl⟩
  | beam E A diag pts dof h hm hA hl =>
    obtain ⟨P, hP⟩ := h.found
    refine C190_element (e := beamModal E diag pts v p dof) rfl (fun _ => rfl) (fun _ => rfl) rfl rfl (fun t => ?_) ?_ (C187_beam E diag pts v p dof h hm) hA hl
    · rw [barJac, bind_ok hP]; exact ⟨_, rfl⟩
    · rw [barStiffSens]
      split
      · rw [bind_ok hP]; exact ⟨_, rfl⟩
      · exact ⟨_, rfl⟩
  | shell E A diag pts dof h hm ho hA hl =>
    obtain ⟨P, hP⟩ := h.found
    refine C190_element (e := shellModal E diag pts v p dof) rfl (fun _ => rfl) (fun _ => rfl) rfl rfl (fun t => ?_) ?_ (C187_shell_partial E diag pts v p dof h hm ho) hA hl
    · rw [plateJac, bind_ok hP]; exact ⟨_, rfl⟩
    · rw [plateStiffSens]
      split
      · rw [bind_ok hP]; exact ⟨_, rfl⟩
      · exact ⟨_, rfl⟩
end

/-- C190, partial: the reported sensitivity of the square of a natural frequency of a structure with pressure, traction and temperature on its elements is its derivative.  Partial: the exclusions of C187 and C189, and
thermal loads with a Jacobian scaling. -/
theorem C190_structure_partial {C : Nat → Bool} {idx : Fin m → Fin N} (hfree : Free C idx) {ps : List (List MElem)} (hd : ∀ e ∈ ps.flatten, ∀ a < e.n, e.dof a < N) {v : Nat → ℝ} {p : Nat} {Y : ℝ → Fin N → ℝ} {Y' : Fin N → ℝ}
    (hc : ∀ e ∈ ps.flatten, IsMemberL v p (fun t => ext (Y t)) (ext Y') e) (hY : ∀ i, HasDerivAt (fun t => Y t i) (Y' i) (v p)) {lam : ℝ → ℝ} {lam' : ℝ} {X : ℝ → Fin N → ℝ} {X' : Fin N → ℝ}
    (hM : Mode C ps lam lam' X X' (v p)) (hpos : 0 < form (·.B (v p)) ps (X (v p)) (X (v p))) (exch : Bool) (c : ℝ) (hc0 : c ≠ 0) :
    frequencySens C exch idx ps (v p) (if exch then ((1 / lam (v p) : ℝ) : ℂ) else (lam (v p) : ℂ)) (fun j => c * X (v p) (idx j)) = .ok lam' := by
  refine C187_modal hfree hd (fun e he => C190_member (hc e he) ?_) hM hpos exch c hc0
  intro a ha
  have := hd e he a ha
  simp only [ext_lt _ this]
  exact hY _

/-- C190, partial: the whole workflow.  A steady analysis with loads on the elements and point loads, its sensitivity from `sensitivity_solve`, given as sensitivity of the base solution of the modal analysis with the same
loads: the reported sensitivity is the derivative of the square of the natural frequency. -/
theorem C190_workflow_partial (ls : Sens.LinSolver N) (hls : ls.Correct) {C : Nat → Bool} {loads : List PLoad} {qs : List PProc} {v : Nat → ℝ} {p : Nat} {Y : ℝ → Fin N → ℝ} {Y' : Fin N → ℝ}
    (hm : ∀ e ∈ allElems qs, Steady.IsLoaded v p (ext (Y (v p))) (ext Y') e) (hdof : ∀ e ∈ allElems qs, ∀ a < e.n, e.dof a < N)
    (hask : ∀ e ∈ allElems qs, e.asked = true ∨ ∀ a < e.n, e.sens (v p) (fun b => ext (Y (v p)) (e.dof b)) a = 0) (hl : ∀ l ∈ loads, ∀ a < l.n, HasDerivAt (fun t => l.load t a) (l.dload (v p) a) (v p))
    (hown : ∀ i < N, OwnedOnce qs i) (hB : Branch C loads qs Y Y' (v p)) (hreg : IsUnit (Matrix.of fun i j : Fin N => sysJac C qs (v p) (ext (Y (v p))) i j).det)
    {idx : Fin m → Fin N} (hfree : Free C idx) {ps : List (List MElem)} (hd : ∀ e ∈ ps.flatten, ∀ a < e.n, e.dof a < N)
    (hc : ∀ e ∈ ps.flatten, IsMemberL v p (fun t => ext (Y t)) (ext (sensitivitySolve ls C loads qs (v p) (Y (v p)))) e)
    {lam : ℝ → ℝ} {lam' : ℝ} {X : ℝ → Fin N → ℝ} {X' : Fin N → ℝ} (hM : Mode C ps lam lam' X X' (v p)) (hpos : 0 < form (·.B (v p)) ps (X (v p)) (X (v p))) (exch : Bool) (c : ℝ) (hc0 : c ≠ 0) :
    frequencySens C exch idx ps (v p) (if exch then ((1 / lam (v p) : ℝ) : ℂ) else (lam (v p) : ℂ)) (fun j => c * X (v p) (idx j)) = .ok lam' := by
  rw [C188_structure_partial ls hls hm hdof hask hl hown hB hreg] at hc
  exact C190_structure_partial hfree hd hc hB.rate hM hpos exch c hc0

/-! ## A heated string: its expansion force `t ΔT` with the width `t` is balanced, so that the axial force stays 6 -/

section
noncomputable def hotTh : Fam (Beam.Bqp 1 Unit) Beam.Thermal := ⟨fun t _ => ⟨![t, 0], ![0, 0], 3, 1⟩, fun _ _ => ⟨![1, 0], ![0, 0], 0, 0⟩⟩
noncomputable def hotA : MAttached 1 := ⟨0, fun _ => [], 0, [], [(0, thermalBeam none true true (fun _ => 1) hotTh [exB] fun _ => exNone)]⟩
noncomputable def hotY (t : ℝ) : Fin 6 → ℝ := fun i => if i = 0 then 6 / t + 2 else 0
noncomputable def hotStatic : PElem := loadedBeam beamM hotA.steady (valsM 0) 4 id true
noncomputable def hotModal : MElem := beamLoadedAt beamM hotA false [qpM] (valsM 0) 4 id (fun t => ext (hotY t)) (ext strV)

theorem hotTh_ok (t : ℝ) (q : Beam.Bqp 1 Unit) : BeamTherm hotTh t q := by
  refine ⟨fun r => ?_, fun r => ?_, hasDerivAt_const _ _, hasDerivAt_const _ _⟩
  · fin_cases r
    · exact hasDerivAt_id' t
    · exact hasDerivAt_const _ _
  · fin_cases r <;> exact hasDerivAt_const _ _

theorem hotA_ok : MAccepted hotA ∧ (Accepted hotA.steady ∧ LoadsOk hotA.steady (valsM 0 4)) ∧ ∀ u : ℝ → Dof 1 → ℝ, MLoadsOk hotA u (valsM 0 4) := by
  refine ⟨⟨?_, ?_⟩, ⟨⟨?_, ?_⟩, ?_, ?_⟩, fun u => ⟨?_, ?_⟩⟩
  all_goals simp only [attachedSide, attachedVol, hotA, MAttached.steady, List.range_zero, List.flatMap_nil, List.not_mem_nil, false_implies, implies_true, List.map_cons, List.map_nil, List.filterMap_cons, List.filterMap_nil, if_true,
    List.mem_singleton, forall_eq]
  · exact Or.inr (Or.inr rfl)
  · exact Or.inr (Or.inr rfl)
  · exact C188_thermal_beam_partial none true true _ hotTh [exB] _ rfl fun q _ => hotTh_ok _ q
  · exact C190_thermal_beam_partial none true true _ (fun _ => rfl) hotTh [exB] _ _ (fun q _ => hotTh_ok _ q) u

theorem hot_gather (t : ℝ) : (∀ d : Dof 1, d ≠ (false, 0, 0) → ext (hotY t) d.row = 0) ∧ ext (hotY t) (Dof.row ((false, 0, 0) : Dof 1)) = 6 / t + 2 := by
  refine ⟨fun d hd => ?_, rfl⟩
  obtain ⟨b, k, i⟩ := d
  have : i = 0 := Subsingleton.elim _ _
  subst this
  cases b <;> fin_cases k <;> first | exact absurd rfl hd | rfl

theorem hot_th (t : ℝ) (a b : Dof 1) : ((attachedVol hotA.sid hotA.vols).map fun e => e.load.vol.jac t fun _ => 0).sum a b = if a = b ∧ (a = (false, 1, 0) ∨ a = (false, 2, 0)) then -(t * 2) else 0 := by
  obtain ⟨a1, a2, a3⟩ := a
  obtain ⟨b1, b2, b3⟩ := b
  have h3 : a3 = 0 := Subsingleton.elim _ _
  have h3' : b3 = 0 := Subsingleton.elim _ _
  subst h3 h3'
  cases a1 <;> cases b1 <;> fin_cases a2 <;> fin_cases b2 <;>
    simp [attachedVol, hotA, thermalBeam, thermalBeamOp, Beam.thermalJac, matToGlobal, Beam.loadOpJac, Shell.sandwich, Beam.stressMat, hotTh, exB, Beam.Bvv, Beam.Bww, Shell.shape, Fin.sum_univ_two] <;> norm_num

theorem hotModal_A (t : ℝ) : hotModal.A t 0 0 = t ∧ hotModal.A t 0 1 = 0 ∧ hotModal.A t 1 0 = 0 ∧ hotModal.A t 1 1 = t * (6 / t + 2) - t * 2 := by
  have e : ∀ a b : Dof 1, hotModal.A t a.row b.row = Beam.internalJac none true true (barElem constsM ⟨8, 10, 9, 9, 6, 7⟩ (Function.update (valsM 0) 4 t) [exB]) (fun d => ext (hotY t) d.row) (fun _ _ => 0) a b
      + 0 + (if a = b ∧ (a = (false, 1, 0) ∨ a = (false, 2, 0)) then -(t * 2) else 0) := fun a b => by
    refine (withLoads_A (stiff := fun t => barJac beamM.hp beamM.F beamM.card beamM.T beamM.nl beamM.bend beamM.qs (gather id (ext (hotY t))) (Function.update (valsM 0) 4 t))
      (K := Beam.internalJac none true true (barElem constsM ⟨8, 10, 9, 9, 6, 7⟩ (Function.update (valsM 0) 4 t) [exB]) (fun d => ext (hotY t) d.row) fun _ _ => 0) hotA_ok.1 rfl a b).trans ?_
    rw [← hot_th]
    rfl
  obtain ⟨h1, h2, h3, h4⟩ := str_jac t (fun d => ext (hotY t) d.row) (hot_gather t).1
  rw [(hot_gather t).2] at h4
  refine ⟨(e (false, 0, 0) (false, 0, 0)).trans ?_, (e (false, 0, 0) (false, 1, 0)).trans ?_, (e (false, 1, 0) (false, 0, 0)).trans ?_, (e (false, 1, 0) (false, 1, 0)).trans ?_⟩
  · rw [h1]; simp
  · rw [h2]; simp
  · rw [h3]; simp
  · rw [h4]; simp; ring

theorem hotModal_B (t : ℝ) : hotModal.B t 0 1 = 0 ∧ hotModal.B t 1 1 = 2 * t := strModal_B t

theorem form_hot (pick : MElem → Nat → Nat → ℝ) (y x : Fin 6 → ℝ) (hy : ∀ i : Fin 6, strC i = true → y i = 0) (hx : ∀ i, i ≠ 1 → x i = 0) :
    form pick [[hotModal]] y x = (y 0 * pick hotModal 0 1 + y 1 * pick hotModal 1 1) * x 1 := by
  have h2 : y 2 = 0 := hy 2 rfl
  have h3 : y 3 = 0 := hy 3 rfl
  have h4 : y 4 = 0 := hy 4 rfl
  have h5 : y 5 = 0 := hy 5 rfl
  have e : ∀ (z : Fin 6 → ℝ), ext z 0 = z 0 ∧ ext z 1 = z 1 ∧ ext z 2 = z 2 ∧ ext z 3 = z 3 ∧ ext z 4 = z 4 ∧ ext z 5 = z 5 := fun z => ⟨rfl, rfl, rfl, rfl, rfl, rfl⟩
  obtain ⟨a0, a1, a2, a3, a4, a5⟩ := e y
  obtain ⟨b0, b1, b2, b3, b4, b5⟩ := e x
  have hn : hotModal.n = 6 := rfl
  have hd : ∀ a, hotModal.dof a = a := fun _ => rfl
  simp only [form, List.flatten_cons, List.flatten_nil, List.append_nil, List.map_cons, List.map_nil, List.sum_cons, List.sum_nil, hn, hd, Finset.sum_range_succ, Finset.sum_range_zero, a0, a1, a2, a3, a4, a5, b0, b1, b2, b3, b4, b5,
    h2, h3, h4, h5, hx 0 (by decide), hx 2 (by decide), hx 3 (by decide), hx 4 (by decide), hx 5 (by decide)]
  ring

theorem hot_static (t : ℝ) : (hotStatic.jac t (ext (hotY t)) 0 0 = t ∧ hotStatic.jac t (ext (hotY t)) 0 1 = 0 ∧ hotStatic.jac t (ext (hotY t)) 1 0 = 0 ∧ hotStatic.jac t (ext (hotY t)) 1 1 = t * (6 / t + 2) - t * 2) ∧
    hotStatic.res t (ext (hotY t)) 0 = t * (6 / t + 2) - t * 2 ∧ hotStatic.res t (ext (hotY t)) 1 = 0 := by
  have e : ∀ a b : Dof 1, hotStatic.jac t (ext (hotY t)) a.row b.row = hotModal.A t a.row b.row := fun a b => by
    refine (loaded_jac (force := fun t u => barForce beamM.hp beamM.F beamM.card beamM.T beamM.nl beamM.bend beamM.qs u (Function.update (valsM 0) 4 t))
      (jac := fun t u => barJac beamM.hp beamM.F beamM.card beamM.T beamM.nl beamM.bend beamM.qs u (Function.update (valsM 0) 4 t))
      (sens := fun t u => barSens beamM.hp beamM.F beamM.card beamM.T beamM.nl beamM.bend beamM.qs u (Function.update (valsM 0) 4 t) 4 fun _ => 0)
      (dof := id) (asked := true) hotA_ok.2.1.1 (t := t) (u := ext (hotY t)) (F := Beam.internalJac none true true (barElem constsM ⟨8, 10, 9, 9, 6, 7⟩ (Function.update (valsM 0) 4 t) [exB]) (fun d => ext (hotY t) d.row) fun _ _ => 0) rfl a b).trans ?_
    refine Eq.trans ?_ (withLoads_A (stiff := fun t => barJac beamM.hp beamM.F beamM.card beamM.T beamM.nl beamM.bend beamM.qs (gather id (ext (hotY t))) (Function.update (valsM 0) 4 t))
      (K := Beam.internalJac none true true (barElem constsM ⟨8, 10, 9, 9, 6, 7⟩ (Function.update (valsM 0) 4 t) [exB]) (fun d => ext (hotY t) d.row) fun _ _ => 0) hotA_ok.1 rfl a b).symm
    rfl
  have r : ∀ a : Dof 1, hotStatic.res t (ext (hotY t)) a.row = Beam.internalRes none true true (barElem constsM ⟨8, 10, 9, 9, 6, 7⟩ (Function.update (valsM 0) 4 t) [exB]) (fun d => ext (hotY t) d.row) a
      + 0 + Beam.thermalRes none true true [(exB, hotTh.val t exB)] (fun d => ext (hotY t) d.row) a := fun a => by
    refine (loaded_res (force := fun t u => barForce beamM.hp beamM.F beamM.card beamM.T beamM.nl beamM.bend beamM.qs u (Function.update (valsM 0) 4 t))
      (jac := fun t u => barJac beamM.hp beamM.F beamM.card beamM.T beamM.nl beamM.bend beamM.qs u (Function.update (valsM 0) 4 t))
      (sens := fun t u => barSens beamM.hp beamM.F beamM.card beamM.T beamM.nl beamM.bend beamM.qs u (Function.update (valsM 0) 4 t) 4 fun _ => 0)
      (dof := id) (asked := true) hotA_ok.2.1.1 (t := t) (u := ext (hotY t)) (F := Beam.internalRes none true true (barElem constsM ⟨8, 10, 9, 9, 6, 7⟩ (Function.update (valsM 0) 4 t) [exB]) (fun d => ext (hotY t) d.row)) rfl a).trans ?_
    simp [attachedSide, attachedVol, hotA, MAttached.steady, thermalBeam, thermalBeamOp]
  obtain ⟨h1, h2, h3, h4⟩ := hotModal_A t
  have g := (hot_gather t).1
  have g0 := (hot_gather t).2
  have k1 := g (false, 1, 0) (by simp)
  have k2 := g (false, 2, 0) (by simp)
  have k3 := g (true, 0, 0) (by simp)
  have k4 := g (true, 1, 0) (by simp)
  have k5 := g (true, 2, 0) (by simp)
  refine ⟨⟨(e (false, 0, 0) (false, 0, 0)).trans h1, (e (false, 0, 0) (false, 1, 0)).trans h2, (e (false, 1, 0) (false, 0, 0)).trans h3, (e (false, 1, 0) (false, 1, 0)).trans h4⟩, (r (false, 0, 0)).trans ?_, (r (false, 1, 0)).trans ?_⟩ <;>
    simp [Beam.internalRes, globalRes, vecToGlobal, vecToLocal, Beam.localRes, barElem, Beam.opRes, exB, Shell.appT, Beam.Bmem, Beam.Bvv, Beam.Bww, Beam.Bbv, Beam.Bbw, Shell.shape, Beam.force, Beam.axial, Shell.mv, Shell.app,
      Fin.sum_univ_two, Fintype.sum_prod_type, Fin.sum_univ_three, Beam.vkStrain, Beam.dvx, Beam.dwx, k1, k2, k3, k4, k5, g0, barSec, Section1D.beamA, Section1D.beamB, Section1D.beamD, Section1D.area, Section1D.areaMoment,
      Material.iso1D, constsM, Function.update, valsM, Beam.thermalRes, Beam.loadOp, hotTh]
  ring

/-- Non-vacuity of C190_workflow_partial and C190_structure_partial (with C190_member, C190_element, C190_thermal_beam_partial): the square of the frequency is again `3 / t`, with the derivative -3/4 at `t = 2`, although the
displacement and the thermal stiffness change with the width.  Any `sensitivity_solve` returns `strV` (C188_structure_partial). -/
example : (∀ e ∈ allElems [⟨[hotStatic], 0, 6⟩], Steady.IsLoaded (valsM 0) 4 (ext (hotY (valsM 0 4))) (ext strV) e) ∧ (∀ i < 6, OwnedOnce [⟨[hotStatic], 0, 6⟩] i) ∧
    Branch (N := 6) strC [⟨1, id, fun _ _ => 6, fun _ _ => 0⟩] [⟨[hotStatic], 0, 6⟩] hotY strV (valsM 0 4) ∧
    IsUnit (Matrix.of fun i j : Fin 6 => sysJac strC [⟨[hotStatic], 0, 6⟩] (valsM 0 4) (ext (hotY (valsM 0 4))) i j).det ∧
    Free strC (![0, 1] : Fin 2 → Fin 6) ∧ IsMemberL (valsM 0) 4 (fun t => ext (hotY t)) (ext strV) hotModal ∧
    Mode strC [[hotModal]] (fun t => 3 / t) (-3 / 4) (fun _ i => if i = 1 then 1 else 0) (fun _ : Fin 6 => 0) (valsM 0 4) ∧
    0 < form (·.B (valsM 0 4)) [[hotModal]] (fun i : Fin 6 => if i = 1 then 1 else 0) (fun i => if i = 1 then 1 else 0) := by
  have hv : valsM 0 4 = 2 := by simp [valsM]
  have hok : BeamOk beamM (valsM 0) 4 := bar_ok barM (9, 9) rfl rfl true exB 0 4
  have hx : ∀ i : Fin 6, i ≠ 1 → (if i = 1 then (1 : ℝ) else 0) = 0 := fun i hi => if_neg hi
  have hxC : ∀ i : Fin 6, strC i = true → (if i = 1 then (1 : ℝ) else 0) = 0 := fun i hi => hx i (by rintro rfl; simp [strC] at hi)
  have hne : ∀ᶠ t : ℝ in nhds (valsM 0 4), t ≠ 0 := isOpen_ne.mem_nhds (by rw [hv]; norm_num)
  have hinv : ∀ c : ℝ, HasDerivAt (fun t : ℝ => c / t) (-c / 4) (valsM 0 4) := fun c => by
    have := (hasDerivAt_inv (x := valsM 0 4) (by rw [hv]; norm_num)).const_mul c
    simp only [← div_eq_mul_inv] at this
    exact this.congr_deriv (by rw [hv]; ring)
  refine ⟨fun e he => ?_, fun i hi => ?_, ⟨?_, ?_, fun i => ?_⟩, ?_, ⟨?_, ?_, ?_⟩, .beamAt _ _ _ _ _ hok ⟨⟨11, rfl⟩, by simp⟩ (Or.inr fun P hP q _ => ?_) hotA_ok.1 (hotA_ok.2.2 _), ⟨?_, ?_, hinv 3, fun i => hasDerivAt_const _ _⟩, ?_⟩
  · have : e = hotStatic := by simpa [allElems] using he
    subst this
    exact .beam _ _ _ _ hok hotA_ok.2.1.1 hotA_ok.2.1.2
  · interval_cases i <;> simp [OwnedOnce]
  · refine hne.mono fun t ht i hi => ?_
    unfold sysRes
    rw [Asm.C22_residual _ _ _ _ _ (owned_map (PElem.atValue t) (by interval_cases i <;> simp [OwnedOnce])), all_map]
    have hall : allElems [⟨[hotStatic], 0, 6⟩] = [hotStatic] := rfl
    rw [hall]
    have e : ∀ k < 6, Asm.elemRes (ext (hotY t)) (hotStatic.atValue t) k = hotStatic.res t (ext (hotY t)) k := fun k hk => by
      simp only [Asm.elemRes, PElem.atValue]
      have : hotStatic.n = 6 := rfl
      have hd : ∀ a, hotStatic.dof a = a := fun _ => rfl
      simp only [this, hd]
      have hdg : hotStatic.diag = false := rfl
      rw [Finset.sum_eq_single k]
      · simp [hdg]
      · intro b _ hb
        simp [hb]
      · intro h
        exact absurd (mem_range.2 hk) h
    obtain ⟨_, s0, s1⟩ := hot_static t
    interval_cases i
    · simp only [List.map_cons, List.map_nil, List.sum_cons, List.sum_nil, e 0 (by norm_num), s0]
      simp [strC, Asm.nodeForce]
      field_simp
      norm_num
    · simp only [List.map_cons, List.map_nil, List.sum_cons, List.sum_nil, e 1 (by norm_num), s1]
      simp [strC, Asm.nodeForce]
    all_goals simp [strC]
  · refine Filter.Eventually.of_forall fun t i hi => ?_
    have : i ≠ 0 := fun h => by simp [h, strC] at hi
    simp [hotY, this]
  · by_cases h0 : i = 0
    · simp only [hotY, strV, h0, if_true]
      exact ((hinv 6).add_const 2).congr_deriv (by norm_num)
    · simp only [hotY, strV, h0, if_false]
      exact hasDerivAt_const _ _
  · have hdiag : (Matrix.of fun i j : Fin 6 => sysJac strC [⟨[hotStatic], 0, 6⟩] (valsM 0 4) (ext (hotY (valsM 0 4))) i j) = Matrix.diagonal fun i : Fin 6 => if i = 0 then 2 else if i = 1 then 6 else 1 := by
      obtain ⟨⟨j00, j01, j10, j11⟩, _⟩ := hot_static (valsM 0 4)
      have e : ∀ k < 6, ∀ l < 6, Asm.elemJac (ext (hotY (valsM 0 4))) (hotStatic.atValue (valsM 0 4)) k l = hotStatic.jac (valsM 0 4) (ext (hotY (valsM 0 4))) k l := fun k hk l hl => by
        simp only [Asm.elemJac, PElem.atValue]
        have : hotStatic.n = 6 := rfl
        have hd : ∀ a, hotStatic.dof a = a := fun _ => rfl
        simp only [this, hd]
        have hdg : hotStatic.diag = false := rfl
        rw [Finset.sum_eq_single k]
        · rw [Finset.sum_eq_single l]
          · simp [hdg]
          · intro b _ hb
            simp [hb]
          · intro h
            exact absurd (mem_range.2 hl) h
        · intro b _ hb
          simp [hb]
        · intro h
          exact absurd (mem_range.2 hk) h
      ext i j
      rw [Matrix.of_apply]
      unfold sysJac
      rw [Asm.C22_jacobian, all_map]
      have hall : allElems [⟨[hotStatic], 0, 6⟩] = [hotStatic] := rfl
      rw [hall]
      by_cases hC : (strC i || strC j) = true
      · rw [if_pos hC]
        have hn : hotStatic.n = 6 := rfl
        have hd : hotStatic.dof = id := rfl
        fin_cases i <;> fin_cases j <;> first | (exact absurd hC (by decide)) | (simp [strC, Asm.incidence, PElem.atValue, hn, hd, Matrix.diagonal]; try decide)
      · rw [if_neg hC]
        simp only [List.map_cons, List.map_nil, List.sum_cons, List.sum_nil, e i i.2 j j.2]
        rw [hv] at j00 j01 j10 j11 ⊢
        fin_cases i <;> fin_cases j <;> first | (exact absurd (by decide) hC) | simp [j00, j01, j10, j11, Matrix.diagonal]
        norm_num
    rw [hdiag, Matrix.det_diagonal]
    simp [Fin.prod_univ_succ]
  · intro a b h
    fin_cases a <;> fin_cases b <;> simp_all
  · intro j
    fin_cases j <;> rfl
  · intro i hi
    fin_cases i
    · exact ⟨0, rfl⟩
    · exact ⟨1, rfl⟩
    all_goals exact absurd hi (by decide)
  · have h' : (Except.ok ⟨8, 10, 9, 9, 6, 7⟩ : Exec Bar) = .ok P := hP
    rw [← Except.ok.inj h']
  · exact Filter.Eventually.of_forall fun t => hxC
  · refine hne.mono fun t ht y hy => ?_
    obtain ⟨_, a01, _, a11⟩ := hotModal_A t
    obtain ⟨b01, b11⟩ := hotModal_B t
    rw [form_hot _ y _ hy hx, form_hot _ y _ hy hx, a01, a11, b01, b11]
    simp
    field_simp
    ring
  · obtain ⟨b01, b11⟩ := hotModal_B (valsM 0 4)
    rw [form_hot _ _ _ hxC hx, b11, hv]
    simp

end

/-- Non-vacuity of C190_thermal_shell_partial: a membrane heated by the parameter; its thermal stiffness `-2 t` changes. -/
example : (∀ q ∈ [pointM], ShellTherm (X := Unit) ⟨fun t _ => ⟨![2, 2, 0], ![0, 0, 0], t, 0⟩, fun _ _ => ⟨![0, 0, 0], ![0, 0, 0], 1, 0⟩⟩ 1 q) ∧
    ∀ t : ℝ, (thermalShell none true false (fun _ => 1) ⟨fun t _ => ⟨![2, 2, 0], ![0, 0, 0], t, 0⟩, fun _ _ => ⟨![0, 0, 0], ![0, 0, 0], 1, 0⟩⟩ [pointM] fun _ => exNone).load.vol.jac t (fun _ => 0) (false, 0, 0) (false, 0, 0) = -(2 * t) := by
  refine ⟨fun q _ => ⟨fun r => ?_, fun r => ?_, hasDerivAt_id' _, hasDerivAt_const _ _⟩, fun t => ?_⟩
  · fin_cases r <;> exact hasDerivAt_const _ _
  · fin_cases r <;> exact hasDerivAt_const _ _
  · simp [thermalShell, thermalShellOp, Shell.thermalJac, matToGlobal, Shell.thermalLocalJac, Shell.thermalOpJac, Shell.sandwich, Shell.stressMat, Shell.Bu, Shell.Bv, Shell.shape, pointM, Fin.sum_univ_two]

/-! ## Findings -/

section
/-- A clamped string that is cooled by the parameter: its thermal force is `-2 t`; the load asks for a Jacobian scaling of 3. -/
noncomputable def coldTh : Fam (Beam.Bqp 1 Unit) Beam.Thermal := ⟨fun t _ => ⟨![2, 0], ![0, 0], 0, t⟩, fun _ _ => ⟨![0, 0], ![0, 0], 0, 1⟩⟩
noncomputable def coldA (s : ℝ) : MAttached 1 := ⟨0, fun _ => [], 0, [], [(0, thermalBeam none true true (fun _ => s) coldTh [exB] fun _ => exNone)]⟩
noncomputable def coldModal (s : ℝ) : MElem := beamLoaded beamM (coldA s) false [qpM] (valsM 0) 12 id

theorem coldTh_ok (t : ℝ) (q : Beam.Bqp 1 Unit) : BeamTherm coldTh t q := by
  refine ⟨fun r => ?_, fun r => ?_, hasDerivAt_const _ _, hasDerivAt_id' t⟩ <;> fin_cases r <;> exact hasDerivAt_const _ _

theorem coldA_ok (s : ℝ) : MAccepted (coldA s) := by
  refine ⟨?_, ?_⟩
  all_goals simp only [attachedSide, attachedVol, coldA, List.range_zero, List.flatMap_nil, List.not_mem_nil, false_implies, implies_true, List.filterMap_cons, List.filterMap_nil, if_true, List.mem_singleton, forall_eq]
  exact Or.inr (Or.inr rfl)

theorem cold_A (s t : ℝ) : (coldModal s).A t 1 1 = s * (2 * t) := by
  have e : (coldModal s).A t (Dof.row ((false, 1, 0) : Dof 1)) (Dof.row ((false, 1, 0) : Dof 1)) = _ :=
    withLoads_A (stiff := fun t => barJac beamM.hp beamM.F beamM.card beamM.T beamM.nl beamM.bend beamM.qs (fun _ => 0) (Function.update (valsM 0) 12 t))
      (K := Beam.internalJac none true true (barElem constsM ⟨8, 10, 9, 9, 6, 7⟩ (Function.update (valsM 0) 12 t) [exB]) (fun _ => 0) fun _ _ => 0) (coldA_ok s) rfl (false, 1, 0) (false, 1, 0)
  refine e.trans ?_
  simp [Beam.internalJac, matToGlobal, vecToLocal, Beam.localJac, barElem, Beam.opJac, Beam.jacVk, Beam.axial, Beam.gram, Shell.sandwich, exB, Beam.Bmem, Beam.Bvv, Beam.Bww, Beam.Bbv, Beam.Bbw, Shell.shape, Shell.mv, Shell.app,
    Fin.sum_univ_two, Beam.vkStrain, Beam.dvx, Beam.dwx, attachedSide, attachedVol, coldA, thermalBeam, thermalBeamOp, Beam.thermalJac, Beam.loadOpJac, Beam.stressMat, coldTh]

theorem cold_B (s t : ℝ) : (coldModal s).B t 1 1 = 4 := by
  have e : (coldModal s).B t 1 1 = consistent (fun q : Qp 1 Unit => barInertia constsM ⟨8, 10, 9, 9, 6, 7⟩ 11 (Function.update (valsM 0) 12 t) q.x) [qpM] (false, 1, 0) (false, 1, 0) := flat2_row (n := 1) _ (false, 1, 0) (false, 1, 0)
  rw [e]
  simp [consistent, qpM, barInertia, var, Section1D.beamInertia, Section1D.area, constsM, Function.update, valsM]
  try norm_num

theorem cold_d (s t : ℝ) : (coldModal s).dA t 1 1 = 2 ∧ (coldModal s).dB t 1 1 = 0 := by
  constructor
  · have e : (coldModal s).dA t (Dof.row ((false, 1, 0) : Dof 1)) (Dof.row ((false, 1, 0) : Dof 1)) = _ := withLoads_dA (sens := fun t => barStiffSens beamM (Function.update (valsM 0) 12 t) 12) (K := fun _ _ => 0) (coldA_ok s) rfl (false, 1, 0) (false, 1, 0)
    refine e.trans ?_
    simp [attachedSide, attachedVol, coldA, thermalBeam, Beam.thermalSensJac, matToGlobal, Beam.loadOpJac, Shell.sandwich, Beam.stressMat, coldTh, exB, Beam.Bvv, Beam.Bww, Shell.shape, Fin.sum_univ_two]
  · have e : (coldModal s).dB t 1 1 = consistent (fun q : Qp 1 Unit => dBarInertia constsM ⟨8, 10, 9, 9, 6, 7⟩ 11 (Function.update (valsM 0) 12 t) 12 q.x) [qpM] (false, 1, 0) (false, 1, 0) :=
      flat2_row (n := 1) _ (false, 1, 0) (false, 1, 0)
    rw [e]
    simp [consistent, qpM, dBarInertia, var, Section1D.dBeamInertia, Section1D.dArea, Section1D.beamInertia, Section1D.area, constsM, Function.update, valsM]

/-- C190, finding: a cooled string whose thermal load carries `thermal_jacobian_scaling` 3, an aid for the nonlinear solver.  The modal analysis takes the scaled Jacobian for the stiffness: 6 instead of the derivative 2 of
the thermal force, so the square of the frequency is 3/2 instead of 1/2; its derivative is 3/2, and the solver reports 1/2, because the sensitivity does not apply the scaling. -/
theorem C190_scaling_fails : BeamOk beamM (valsM 0) 12 ∧ MassOk beamM.hp beamM.card [qpM] ∧ MAccepted (coldA 3) ∧ (∀ t, BeamTherm coldTh t exB) ∧
    HasDerivAt (fun e : ℝ => Beam.thermalRes none true true [(exB, coldTh.val 1 exB)] (fun d => if d = (false, 1, 0) then e else 0) (false, 1, 0)) 2 0 ∧ (coldModal 3).A 1 1 1 = 6 ∧
    Mode (onlyM 1) [[coldModal 3]] (fun t => 3 / 2 * t) (3 / 2) (fun _ i => if i = 1 then 1 else 0) (fun _ : Fin 6 => 0) (valsM 0 12) ∧
    frequencySens (onlyM 1) false (fun _ : Fin 1 => (1 : Fin 6)) [[coldModal 3]] (valsM 0 12) ((3 / 2 : ℝ) : ℂ) (fun _ => 1) = .ok (1 / 2) := by
  have hv : valsM 0 12 = 1 := by simp [valsM]
  have hn : ∀ e ∈ [[coldModal 3]].flatten, e.n = 6 ∧ e.dof = id := by
    intro e he
    simp only [List.flatten_cons, List.flatten_nil, List.append_nil, List.mem_cons, List.not_mem_nil, or_false] at he
    rw [he]
    exact ⟨rfl, rfl⟩
  have h1 : ∀ i : Fin 6, i ≠ 1 → (if i = 1 then (1 : ℝ) else 0) = 0 := fun i hi => if_neg hi
  have k1 : ((1 : Fin 6) : Nat) = 1 := rfl
  have hheld : ∀ i : Fin 6, onlyM 1 i = true → (if i = 1 then (1 : ℝ) else 0) = 0 := fun i hi => h1 i (by rintro rfl; simp [onlyM] at hi)
  refine ⟨bar_ok barM (9, 9) rfl rfl true exB 0 12, ⟨⟨11, rfl⟩, by simp⟩, coldA_ok 3, fun t => coldTh_ok t exB, ?_, ?_, ⟨Filter.Eventually.of_forall fun t => hheld, Filter.Eventually.of_forall fun t y hy => ?_, ?_, fun i => hasDerivAt_const _ _⟩, ?_⟩
  · have e : (fun e : ℝ => Beam.thermalRes none true true [(exB, coldTh.val 1 exB)] (fun d => if d = (false, 1, 0) then e else 0) (false, 1, 0)) = fun e => 2 * e := by
      funext e
      simp [Beam.thermalRes, globalRes, vecToGlobal, vecToLocal, Beam.loadOp, coldTh, exB, Shell.appT, Shell.app, Beam.Bmem, Beam.Bvv, Beam.Bww, Beam.Bbv, Beam.Bbw, Shell.shape, Fin.sum_univ_two, Beam.dvx, Beam.dwx,
        Fintype.sum_prod_type, Fin.sum_univ_three]
      try ring
    rw [e]
    exact ((hasDerivAt_id' (0 : ℝ)).const_mul 2).congr_deriv (by norm_num)
  · rw [cold_A]; norm_num
  · rw [form_one 1 _ _ hn y _ (only_zero (k := 1) hy) h1, form_one 1 _ _ hn y _ (only_zero (k := 1) hy) h1]
    simp only [List.flatten_cons, List.flatten_nil, List.append_nil, List.map_cons, List.map_nil, List.sum_cons, List.sum_nil, k1, cold_A, cold_B]
    ring
  · exact ((hasDerivAt_id' (valsM 0 12)).const_mul (3 / 2)).congr_deriv (by norm_num)
  · have := frequency_value (only_free 1) (ps := [[coldModal 3]]) (t₀ := valsM 0 12) (fun e he a ha => by
      rw [(hn e he).1] at ha
      rw [(hn e he).2]
      exact ha) (fun i : Fin 6 => if i = 1 then 1 else 0) hheld (by
        rw [form_one 1 _ _ hn _ _ h1 h1]
        simp only [List.flatten_cons, List.flatten_nil, List.append_nil, List.map_cons, List.map_nil, List.sum_cons, List.sum_nil, k1, cold_B]
        norm_num) (3 / 2)
    rw [form_one 1 _ _ hn _ _ h1 h1, form_one 1 _ _ hn _ _ h1 h1, form_one 1 _ _ hn _ _ h1 h1] at this
    simp only [List.flatten_cons, List.flatten_nil, List.append_nil, List.map_cons, List.map_nil, List.sum_cons, List.sum_nil, k1, (cold_d _ _).1, (cold_d _ _).2, cold_B] at this
    norm_num at this
    norm_num
    exact this
end
end Verif.Modal
