import Verif.Model.SteadyStressAdj
import Verif.Props.SteadyStress
/-! C194: sensitivity of an aggregated stress of a steady structure by the adjoint method. -/
namespace Verif.Steady
open Verif Finset Verif.SecDep Verif.GeomElem Verif.StructLoads Verif.Material Matrix
open scoped Topology

variable {n : Nat} {X : Type}

/-! ## Specification -/

/-- The stress of an included element that is said not to depend on the parameter does not depend on it for fixed displacement. -/
def Untouched (v : Nat → ℝ) (p : Nat) (Y : Nat → ℝ) (e : StressPart) : Prop := ∀ f ∈ e.st.points v p (some fun _ => 0), (f (v p) fun d => Y (e.dof d.row)).sens () = some 0

/-! ## Explicit part and state part -/

/-- The data of an element as a family: position, stress and weight do not depend on the solution rate, the sensitivity is affine in it with the rows of the derivative matrix as coefficients. -/
structure Split (st : Stressed n) (v : Nat → ℝ) (p : Nat) (ι : Type) where
  L : List ι
  D : ι → Option (Dof n → ℝ) → ℝ → (Dof n → ℝ) → Stress.Data Unit 0
  R : ι → ℝ → (Dof n → ℝ) → Fin 6 → Dof n → ℝ
  S : ι → (Dof n → ℝ) → ℝ → (Dof n → ℝ) → Fin 6 → ℝ
  points : ∀ w, st.points v p w = L.map fun i => D i w
  rich : st.rich v p = L.map fun i t u => withRows (D i none t u) (R i t u)
  stress : ∀ i w t u, (D i w t u).stress = (D i none t u).stress
  weight : ∀ i w t u, (D i w t u).JxW = (D i none t u).JxW
  sens : ∀ i w t u, (D i (some w) t u).sens () = some (S i w t u)
  without : ∀ i t u, (D i none t u).sens () = none
  affine : ∀ i w t u r, S i w t u r = (∑ d, R i t u r d * w d) + S i (fun _ => 0) t u r

theorem local_zero (T : Option (Fin 3 → Fin 3 → ℝ)) (d : Dof n) : vecToLocal T (fun _ => 0) d = 0 := by
  cases T with
  | none => rfl
  | some T => exact Finset.sum_eq_zero fun k _ => mul_zero _

theorem stress_dot_affine (nl bend : Bool) (q : Shell.Sqp n X) (Bz : ℝ → Fin 3 → Dof n → ℝ) (P : StressRec.Plate) (H : Option StressRec.Heat) (D : StressRec.PlateDot) (s : Fin 2) (T : Option (Fin 3 → Fin 3 → ℝ)) (u w : Dof n → ℝ) (r : Fin 6) :
    StressRec.to6 (StressRec.stressDot nl bend q Bz P H D s u (vecToLocal T w)) r =
      (∑ d, StressRec.rows6 T (StressRec.dstress nl bend q Bz P s u) r d * w d) + StressRec.to6 (StressRec.stressDot nl bend q Bz P H D s u (vecToLocal T fun _ => 0)) r := by
  rw [StressRec.rows6_apply]
  have h : ∀ k, StressRec.stressDot nl bend q Bz P H D s u (vecToLocal T w) k = (∑ a, StressRec.dstress nl bend q Bz P s u k a * vecToLocal T w a) + StressRec.stressDot nl bend q Bz P H D s u (vecToLocal T fun _ => 0) k := by
    intro k
    unfold StressRec.stressDot
    simp only [local_zero, mul_zero, Finset.sum_const_zero]
    ring
  fin_cases r <;> simp [StressRec.to6, h]

theorem stressB_dot_affine (nl bend : Bool) (q : Beam.Bqp n X) (O : StressRec.BendOps n) (P : StressRec.Bar) (H : Option StressRec.Heat) (D : StressRec.BarDot) (s : Fin 4) (T : Option (Fin 3 → Fin 3 → ℝ)) (u w : Dof n → ℝ) (r : Fin 6) :
    StressRec.axial6 (StressRec.stressDotB nl bend q O P H D s u (vecToLocal T w) 0) r =
      (∑ d, StressRec.axial6 (vecToGlobal T (StressRec.dstressB nl bend q O P s u 0) d) r * w d) + StressRec.axial6 (StressRec.stressDotB nl bend q O P H D s u (vecToLocal T fun _ => 0) 0) r := by
  rw [StressRec.axial6_apply]
  have h : StressRec.stressDotB nl bend q O P H D s u (vecToLocal T w) 0 = (∑ a, StressRec.dstressB nl bend q O P s u 0 a * vecToLocal T w a) + StressRec.stressDotB nl bend q O P H D s u (vecToLocal T fun _ => 0) 0 := by
    unfold StressRec.stressDotB
    simp only [local_zero, mul_zero, Finset.sum_const_zero]
    ring
  rw [h]
  fin_cases r <;> simp [StressRec.axial6]

/-- No data: the look-up of the section failed. -/
def noSplit (st : Stressed n) (v : Nat → ℝ) (p : Nat) (h1 : ∀ w, st.points v p w = []) (h2 : st.rich v p = []) : Split st v p Empty where
  L := []
  D := fun i => i.elim
  R := fun i => i.elim
  S := fun i => i.elim
  points := h1
  rich := h2
  stress := fun i => i.elim
  weight := fun i => i.elim
  sens := fun i => i.elim
  without := fun i => i.elim
  affine := fun i => i.elim

/-- Every element splits. -/
theorem split_exists (st : Stressed n) (v : Nat → ℝ) (p : Nat) : ∃ ι, Nonempty (Split st v p ι) := by
  cases st with
  | @beam X E ops H =>
    cases hP : E.card.bar E.hp with
    | error e => exact ⟨Empty, ⟨noSplit _ v p (fun w => by simp only [Stressed.points, hP]) (by simp only [Stressed.rich, hP])⟩⟩
    | ok P =>
      refine ⟨Beam.Bqp n X × Fin 4, ⟨{
        L := E.qs.flatMap fun q => [0, 1, 2, 3].map fun s => (q, s)
        D := fun i w => beamDatum E ops H P v p i.1 i.2 w
        R := fun i => beamRows E ops P v p i.1 i.2
        S := fun i w t u => StressRec.axial6 (StressRec.stressDotB E.nl E.bend i.1 (ops i.1) (barAt E.F P (Function.update v p t) i.1.x) (H.at t i.1.x) ⟨dBarAt E.F P (Function.update v p t) p i.1.x, H.fam.der t i.1.x⟩ i.2 (vecToLocal E.T u) (vecToLocal E.T w) 0)
        points := fun w => ?_, rich := ?_, stress := fun _ _ _ _ => rfl, weight := fun _ _ _ _ => rfl, sens := fun _ _ _ _ => rfl, without := fun _ _ _ => rfl, affine := fun i w t u r => ?_ }⟩⟩
      · simp only [Stressed.points, hP, List.map_flatMap, List.map_map]; rfl
      · simp only [Stressed.rich, hP, List.map_flatMap, List.map_map]; rfl
      · exact stressB_dot_affine _ _ _ _ _ _ _ _ _ _ _ _
  | @shell X E bz H =>
    cases hP : E.card.plate E.hp (!E.ss.isEmpty) with
    | error e => exact ⟨Empty, ⟨noSplit _ v p (fun w => by simp only [Stressed.points, hP]) (by simp only [Stressed.rich, hP])⟩⟩
    | ok P =>
      refine ⟨Shell.Sqp n X × Fin 2, ⟨{
        L := E.qs.flatMap fun q => [0, 1].map fun s => (q, s)
        D := fun i w => shellDatum E bz H P v p i.1 i.2 w
        R := fun i => shellRows E bz P v p i.1 i.2
        S := fun i w t u => StressRec.to6 (StressRec.stressDot E.nl E.bend i.1 (bz i.1) (plateAt E.F E.stress P (Function.update v p t) i.1.x) (H.at t i.1.x) ⟨dPlateAt E.F E.stress P (Function.update v p t) p i.1.x, H.fam.der t i.1.x⟩ i.2 (vecToLocal E.T u) (vecToLocal E.T w))
        points := fun w => ?_, rich := ?_, stress := fun _ _ _ _ => rfl, weight := fun _ _ _ _ => rfl, sens := fun _ _ _ _ => rfl, without := fun _ _ _ => rfl, affine := fun i w t u r => ?_ }⟩⟩
      · simp only [Stressed.points, hP, List.map_flatMap, List.map_map]; rfl
      · simp only [Stressed.rich, hP, List.map_flatMap, List.map_map]; rfl
      · exact stress_dot_affine _ _ _ _ _ _ _ _ _ _ _ _

theorem vm_add (s a b : Fin 6 → ℝ) : Stress.dVonMises s (fun r => a r + b r) = Stress.dVonMises s a + Stress.dVonMises s b := by
  unfold Stress.dVonMises
  split
  · ring
  · ring

theorem vm_zero (s : Fin 6 → ℝ) : Stress.dVonMises s 0 = 0 := by
  unfold Stress.dVonMises
  split <;> simp

theorem rows_mul (d : Stress.Data Unit 0) (M : Fin 6 → Dof n → ℝ) (g : Nat → ℝ) : (withRows d M).dX *ᵥ (fun i : Fin (6 * n) => g i) = fun r => ∑ d, M r d * g d.row := by
  funext r
  have h := sum_rows (n := n) fun a => flat (M r) a * g a
  simp only [flat_row] at h
  rw [← h, ← Fin.sum_univ_eq_sum_range (fun a => flat (M r) a * g a) (6 * n)]
  rfl

/-- Sum over the points of an element of a quantity that is additive in the rate of the von Mises stress: state part plus explicit part. -/
theorem sum_split (st : Stressed n) (v : Nat → ℝ) (p : Nat) (t : ℝ) (u : Dof n → ℝ) (g : Nat → ℝ) (k : (Fin 6 → ℝ) → ℝ → ℝ → ℝ) (hk : ∀ s J a b, k s J (a + b) = k s J a + k s J b) :
    (((st.points v p (some fun d => g d.row)).map fun f => f t u).map fun d => k d.stress d.JxW (Stress.dVonMisesDp d ())).sum =
      (((st.rich v p).map fun f => f t u).map fun d => k d.stress d.JxW (Stress.dVonMisesDX d ⬝ᵥ fun i : Fin (6 * n) => g i)).sum +
      (((st.points v p (some fun _ => 0)).map fun f => f t u).map fun d => k d.stress d.JxW (Stress.dVonMisesDp d ())).sum := by
  obtain ⟨ι, ⟨Q⟩⟩ := split_exists st v p
  rw [Q.points, Q.points, Q.rich]
  simp only [List.map_map, Function.comp_def]
  rw [← Compliance.list_add]
  refine Compliance.list_sum_congr _ _ _ fun i _ => ?_
  rw [Stress.dVonMisesDX_dot, rows_mul]
  have e1 : Stress.dVonMisesDp (Q.D i (some fun d => g d.row) t u) () = Stress.dVonMises (Q.D i none t u).stress (Q.S i (fun d => g d.row) t u) := by
    unfold Stress.dVonMisesDp
    rw [Q.sens, Q.stress]
  have e2 : Stress.dVonMisesDp (Q.D i (some fun _ => 0) t u) () = Stress.dVonMises (Q.D i none t u).stress (Q.S i (fun _ => 0) t u) := by
    unfold Stress.dVonMisesDp
    rw [Q.sens, Q.stress]
  rw [e1, e2, Q.stress, Q.weight, Q.stress i (some fun _ => 0), Q.weight i (some fun _ => 0)]
  have e3 : Q.S i (fun d => g d.row) t u = fun r => (∑ d, Q.R i t u r d * g d.row) + Q.S i (fun _ => 0) t u r := funext fun r => Q.affine i _ t u r
  rw [e3, vm_add, hk]
  rfl

/-- Sum over the points of an element left out. -/
theorem sum_none (st : Stressed n) (v : Nat → ℝ) (p : Nat) (t : ℝ) (u : Dof n → ℝ) (k : (Fin 6 → ℝ) → ℝ → ℝ → ℝ) (hk : ∀ s J, k s J 0 = 0) :
    (((st.points v p none).map fun f => f t u).map fun d => k d.stress d.JxW (Stress.dVonMisesDp d ())).sum = 0 := by
  obtain ⟨ι, ⟨Q⟩⟩ := split_exists st v p
  rw [Q.points]
  simp only [List.map_map, Function.comp_def]
  refine (Compliance.list_sum_congr _ _ (fun _ => 0) fun i _ => ?_).trans (by simp)
  have e1 : Stress.dVonMisesDp (Q.D i none t u) () = 0 := by
    unfold Stress.dVonMisesDp
    rw [Q.without]
  rw [e1, hk]

theorem sum_untouched {e : StressPart} {v : Nat → ℝ} {p : Nat} {Y : Nat → ℝ} (h : Untouched v p Y e) (k : (Fin 6 → ℝ) → ℝ → ℝ → ℝ) (hk : ∀ s J, k s J 0 = 0) :
    (((e.st.points v p (some fun _ => 0)).map fun f => f (v p) fun d => Y (e.dof d.row)).map fun d => k d.stress d.JxW (Stress.dVonMisesDp d ())).sum = 0 := by
  rw [List.map_map]
  refine (Compliance.list_sum_congr _ _ (fun _ => 0) fun f hf => ?_).trans (by simp)
  have e1 : Stress.dVonMisesDp (f (v p) fun d => Y (e.dof d.row)) () = 0 := by
    unfold Stress.dVonMisesDp
    rw [h f hf]
    exact vm_zero _
  simp only [Function.comp_apply, e1, hk]

/-- The explicit part of an element in the sensitivity loop with null `dXdp`. -/
theorem sum_explicit {e : StressPart} {v : Nat → ℝ} {p : Nat} {Y : Nat → ℝ} (override : Bool) (h : e.asked = true ∨ Untouched v p Y e) (k : (Fin 6 → ℝ) → ℝ → ℝ → ℝ) (hk : ∀ s J, k s J 0 = 0) :
    (((e.st.points v p (given override none e)).map fun f => f (v p) fun d => Y (e.dof d.row)).map fun d => k d.stress d.JxW (Stress.dVonMisesDp d ())).sum =
      (((e.st.points v p (some fun _ => 0)).map fun f => f (v p) fun d => Y (e.dof d.row)).map fun d => k d.stress d.JxW (Stress.dVonMisesDp d ())).sum := by
  have hg : given override none e = if !e.asked then none else some fun _ => 0 := by simp [given, skipped, StressPart.part, rateOf]
  rw [hg]
  cases ha : e.asked with
  | true => rfl
  | false =>
    rcases h with h | h
    · rw [ha] at h; cases h
    · rw [sum_untouched h k hk]
      exact sum_none _ _ _ _ _ k hk

/-- State part plus explicit part for an included element, as the two calls compute them. -/
theorem elem_split {e : StressPart} {v : Nat → ℝ} {p : Nat} {Y : Nat → ℝ} (override : Bool) (h : e.asked = true ∨ Untouched v p Y e) (g : Nat → ℝ) (k : (Fin 6 → ℝ) → ℝ → ℝ → ℝ) (hk : ∀ s J a b, k s J (a + b) = k s J a + k s J b) :
    (((e.st.points v p (given false (some g) e)).map fun f => f (v p) fun d => Y (e.dof d.row)).map fun d => k d.stress d.JxW (Stress.dVonMisesDp d ())).sum =
      ((richAt v p (v p) Y e).map fun d => k d.stress d.JxW (Stress.dVonMisesDX d ⬝ᵥ fun i : Fin (6 * e.n) => g (e.dof i))).sum +
      (((e.st.points v p (given override none e)).map fun f => f (v p) fun d => Y (e.dof d.row)).map fun d => k d.stress d.JxW (Stress.dVonMisesDp d ())).sum := by
  have h0 : ∀ s J, k s J 0 = 0 := fun s J => by simpa using hk s J 0 0
  rw [sum_explicit override h k h0]
  have hg : given false (some g) e = some fun d => g (e.dof d.row) := by simp [given, skipped, rateOf]
  rw [hg]
  exact sum_split e.st v p (v p) (fun d => Y (e.dof d.row)) (fun a => g (e.dof a)) k hk

/-! ## Pairing of the derivative vector -/

theorem comm_list {α : Type*} (N : Nat) (l : List α) (f : α → Nat → ℝ) : ∑ i ∈ range N, (l.map fun e => f e i).sum = (l.map fun e => ∑ i ∈ range N, f e i).sum := by
  induction l with
  | nil => simp
  | cons e l ih => simp [Finset.sum_add_distrib, ih]

theorem list_mul {α : Type*} (l : List α) (f : α → ℝ) (c : ℝ) : (l.map f).sum * c = (l.map fun e => f e * c).sum := by
  induction l with
  | nil => simp
  | cons e l ih => simp [add_mul, ih]

theorem outDeriv_fold (C : Nat → Bool) (es : List StressPart) (vec : StressPart → Nat → ℝ) (g : Nat → ℝ) (i : Nat) :
    es.foldl (fun g e => if e.eval then Asm.addVector (6 * e.n) e.dof (Asm.conVec C e.dof (vec e)) g else g) g i =
      g i + if C i then 0 else ((es.filter fun e => e.eval).map fun e => ∑ a ∈ range (6 * e.n), if e.dof a = i then vec e a else 0).sum := by
  induction es generalizing g with
  | nil => simp
  | cons e es ih =>
    rw [List.foldl_cons, ih]
    cases he : e.eval with
    | false => simp [he]
    | true =>
      simp only [if_true, Asm.addVector_apply, Asm.sum_conVec, List.filter_cons, he, List.map_cons, List.sum_cons]
      split <;> ring

theorem outDeriv_apply (C : Nat → Bool) (ps : List StressProc) (vec : StressPart → Nat → ℝ) (i : Nat) :
    outDeriv C ps vec i = if C i then 0 else (ps.map fun q => ((q.parts.filter fun e => e.eval).map fun e => ∑ a ∈ range (6 * e.n), if e.dof a = i then vec e a else 0).sum).sum := by
  unfold outDeriv
  simp only [outDeriv_fold, zero_add]
  split
  · simp
  · rfl

/-- Paired with a displacement that vanishes at supports: the element vectors paired with the element displacements. -/
theorem outDeriv_pair {N : Nat} {C : Nat → Bool} {ps : List StressProc} (vec : (e : StressPart) → Fin (6 * e.n) → ℝ) (hdof : ∀ e ∈ allStress ps, ∀ a < 6 * e.n, e.dof a < N) (w : Fin N → ℝ) (hw : ∀ i : Fin N, C i = true → w i = 0) :
    ∑ i : Fin N, outDeriv C ps (fun e => ext (vec e)) i * w i = (ps.map fun q => ((q.parts.filter fun e => e.eval).map fun e => vec e ⬝ᵥ fun i => ext w (e.dof i)).sum).sum := by
  have e1 : ∑ i : Fin N, outDeriv C ps (fun e => ext (vec e)) i * w i = ∑ i ∈ range N, (ps.map fun q => ((q.parts.filter fun e => e.eval).map fun e => (∑ a ∈ range (6 * e.n), if e.dof a = i then ext (vec e) a else 0) * ext w i).sum).sum := by
    rw [← Fin.sum_univ_eq_sum_range (fun i => (ps.map fun q => ((q.parts.filter fun e => e.eval).map fun e => (∑ a ∈ range (6 * e.n), if e.dof a = i then ext (vec e) a else 0) * ext w i).sum).sum) N]
    refine Finset.sum_congr rfl fun i _ => ?_
    rw [outDeriv_apply, ext_lt w i.2]
    simp only [← list_mul]
    cases h : C i with
    | true => simp [hw i h]
    | false => simp
  rw [e1, comm_list N ps fun q i => ((q.parts.filter fun e => e.eval).map fun e => (∑ a ∈ range (6 * e.n), if e.dof a = i then ext (vec e) a else 0) * ext w i).sum]
  refine Compliance.list_sum_congr _ _ _ fun q hq => ?_
  rw [comm_list N (q.parts.filter fun e => e.eval) fun e i => (∑ a ∈ range (6 * e.n), if e.dof a = i then ext (vec e) a else 0) * ext w i]
  refine Compliance.list_sum_congr _ _ _ fun e he => ?_
  have hem : e ∈ allStress ps := List.mem_flatMap.2 ⟨q, hq, List.mem_of_mem_filter he⟩
  rw [Compliance.gather (6 * e.n) N e.dof (hdof e hem) _ (ext w), ← Fin.sum_univ_eq_sum_range (fun a => ext (vec e) a * ext w (e.dof a)) (6 * e.n)]
  exact Finset.sum_congr rfl fun a _ => by rw [ext_lt (vec e) a.2]

theorem outDeriv_support (C : Nat → Bool) (ps : List StressProc) (vec : StressPart → Nat → ℝ) (i : Nat) (h : C i = true) : outDeriv C ps vec i = 0 := by
  rw [outDeriv_apply, if_pos h]

/-! ## The three outputs -/

/-- Element by element. -/
theorem split_all {ps : List StressProc} (F G H : StressPart → ℝ) (h : ∀ e ∈ allStress ps, e.eval = true → F e = G e + H e) :
    (ps.map fun q => ((q.parts.filter fun e => e.eval).map F).sum).sum = (ps.map fun q => ((q.parts.filter fun e => e.eval).map G).sum).sum + (ps.map fun q => ((q.parts.filter fun e => e.eval).map H).sum).sum := by
  rw [← Compliance.list_add]
  refine Compliance.list_sum_congr _ _ _ fun q hq => ?_
  rw [← Compliance.list_add]
  exact Compliance.list_sum_congr _ _ _ fun e he => h e (List.mem_flatMap.2 ⟨q, hq, List.mem_of_mem_filter he⟩) (by simpa using (List.mem_filter.1 he).2)

/-- C194: the direct sensitivity of the KS stress is the derivative vector times the displacement sensitivity plus the explicit part. -/
theorem C194_ks_parts (c : Stress.Coeffs) {N : Nat} {C : Nat → Bool} {ps : List StressProc} {v : Nat → ℝ} {p : Nat} (Y : Nat → ℝ) (override : Bool) (hdof : ∀ e ∈ allStress ps, ∀ a < 6 * e.n, e.dof a < N)
    (hask : ∀ e ∈ allStress ps, e.eval = true → e.asked = true ∨ Untouched v p Y e) (w : Fin N → ℝ) (hw : ∀ i : Fin N, C i = true → w i = 0) :
    ksStressSens c ps v p false (v p) Y (some (ext w)) = (∑ i : Fin N, ksDeriv C c ps v p (v p) Y i * w i) + ksStressSens c ps v p override (v p) Y none := by
  have hI : ∀ sens, Stress.ksInt c (stressData ps v p sens (v p) Y) = Stress.ksInt c (stressData ps v p (fun _ => none) (v p) Y) := fun sens => by
    rw [data_forget ps v p sens]
    exact (sum_forget _ _ fun d => rfl).symm
  have hJ : ∀ sens, Stress.sumJ (stressData ps v p sens (v p) Y) = Stress.sumJ (stressData ps v p (fun _ => none) (v p) Y) := fun sens => by
    rw [data_forget ps v p sens]
    exact (sum_forget _ _ fun d => rfl).symm
  unfold ksDeriv ksStressSens Stress.ksSens
  simp only [hI, hJ]
  unfold ksVec
  rw [outDeriv_pair _ hdof w hw]
  generalize Stress.ksInt c (stressData ps v p (fun _ => none) (v p) Y) = I
  generalize Stress.sumJ (stressData ps v p (fun _ => none) (v p) Y) = J
  simp only [stressData, List.map_map, Function.comp_def]
  refine split_all _ _ _ fun e he hev => ?_
  rw [Stress.ksDXElem_dot]
  unfold Stress.ksSensElem
  have h := elem_split override (hask e he hev) (ext w) (fun s J' a => c.p * a / c.sigma0 * Real.exp (c.p * (Stress.vonMises s - c.sigma0) / c.sigma0) * J') (fun s J' a b => by ring)
  rw [h]
  ring

/-- C194: the same for the smooth ramp. -/
theorem C194_ramp_parts (c : Stress.Coeffs) {N : Nat} {C : Nat → Bool} {ps : List StressProc} {v : Nat → ℝ} {p : Nat} (Y : Nat → ℝ) (override : Bool) (hdof : ∀ e ∈ allStress ps, ∀ a < 6 * e.n, e.dof a < N)
    (hask : ∀ e ∈ allStress ps, e.eval = true → e.asked = true ∨ Untouched v p Y e) (w : Fin N → ℝ) (hw : ∀ i : Fin N, C i = true → w i = 0) :
    rampStressSens c ps v p false (v p) Y (some (ext w)) = (∑ i : Fin N, rampDeriv C c ps v p (v p) Y i * w i) + rampStressSens c ps v p override (v p) Y none := by
  unfold rampDeriv rampStressSens Stress.rampSens rampVec
  rw [outDeriv_pair _ hdof w hw]
  simp only [stressData, List.map_map, Function.comp_def]
  refine split_all _ _ _ fun e he hev => ?_
  unfold Stress.rampDXElem Stress.rampSensElem
  have h := elem_split override (hask e he hev) (ext w) (fun s J' a => (1 + (Stress.vonMises s / c.sigma0) ^ c.p) ^ (1 / c.p - 1) * (Stress.vonMises s / c.sigma0) ^ (c.p - 1) * a / c.sigma0 * J') (fun s J' a b => by ring)
  rw [h, Stress.sum_dot]
  congr 1
  refine Compliance.list_sum_congr _ _ _ fun d _ => ?_
  rw [smul_dotProduct, smul_eq_mul]
  ring

theorem opt_some {α : Type*} (l : List α) (F : α → Option ℝ) (f : α → ℝ) (h : ∀ x ∈ l, F x = some (f x)) : Stress.optSum (l.map F) = some (l.map f).sum := by
  induction l with
  | nil => rfl
  | cons x l ih =>
    rw [List.map_cons, h x List.mem_cons_self, List.map_cons, List.sum_cons, Stress.optSum, ih fun y hy => h y (List.mem_cons_of_mem _ hy)]
    rfl

/-- The p-norm derivative vector exists only where no negative power of zero is taken. -/
theorem pnorm_regular {C : Nat → Bool} {c : Stress.Coeffs} {ps : List StressProc} {v : Nat → ℝ} {p : Nat} {Y : Nat → ℝ} {g : Nat → ℝ} (hg : pnormDeriv C c ps v p (v p) Y = some g)
    (hw : Stress.Weights (stressData ps v p (fun _ => none) (v p) Y)) :
    ¬ (Stress.pnormInt c (stressData ps v p (fun _ => none) (v p) Y) / Stress.pnormJ c (stressData ps v p (fun _ => none) (v p) Y) = 0 ∧ 1 / c.p - 1 < 0) := by
  intro hbad
  obtain ⟨d, hd, -⟩ := hw.pos
  unfold Stress.points at hd
  obtain ⟨l, hl, -⟩ := List.mem_flatten.1 hd
  obtain ⟨m, hm, hl⟩ := List.mem_flatten.1 hl
  obtain ⟨q, hq, rfl⟩ := List.mem_map.1 hm
  obtain ⟨e, he, rfl⟩ := List.mem_map.1 hl
  unfold pnormDeriv at hg
  split at hg
  · rename_i hall
    have h1 := List.all_eq_true.1 (List.all_eq_true.1 hall q hq) e (List.mem_of_mem_filter he)
    have hev : e.eval = true := by simpa using (List.mem_filter.1 he).2
    rw [hev] at h1
    have hn : pnormVec c ps v p (v p) Y e = none := by
      unfold pnormVec Stress.pnormDXElem
      simp only [if_pos hbad, Option.map_none]
    rw [hn] at h1
    cases h1
  · cases hg

/-- C194: the same for the p-norm. -/
theorem C194_pnorm_parts (c : Stress.Coeffs) {N : Nat} {C : Nat → Bool} {ps : List StressProc} {v : Nat → ℝ} {p : Nat} (Y : Nat → ℝ) (override : Bool) (hdof : ∀ e ∈ allStress ps, ∀ a < 6 * e.n, e.dof a < N)
    (hask : ∀ e ∈ allStress ps, e.eval = true → e.asked = true ∨ Untouched v p Y e) (hw0 : Stress.Weights (stressData ps v p (fun _ => none) (v p) Y)) (w : Fin N → ℝ) (hw : ∀ i : Fin N, C i = true → w i = 0) {g : Nat → ℝ}
    (hg : pnormDeriv C c ps v p (v p) Y = some g) : ∃ s, pnormStressSens c ps v p override (v p) Y none = some s ∧ pnormStressSens c ps v p false (v p) Y (some (ext w)) = some ((∑ i : Fin N, g i * w i) + s) := by
  have hreg := pnorm_regular hg hw0
  have hI : ∀ sens, Stress.pnormInt c (stressData ps v p sens (v p) Y) = Stress.pnormInt c (stressData ps v p (fun _ => none) (v p) Y) := fun sens => by
    rw [data_forget ps v p sens]
    exact (sum_forget _ _ fun d => rfl).symm
  have hJ : ∀ sens, Stress.pnormJ c (stressData ps v p sens (v p) Y) = Stress.pnormJ c (stressData ps v p (fun _ => none) (v p) Y) := fun sens => by
    rw [data_forget ps v p sens]
    exact (sum_forget _ _ fun d => rfl).symm
  have hgv : g = outDeriv C ps fun e => (pnormVec c ps v p (v p) Y e).getD 0 := by
    unfold pnormDeriv at hg
    split at hg
    · exact (Option.some.inj hg).symm
    · cases hg
  unfold pnormVec at hgv
  unfold pnormStressSens Stress.pnormSens
  simp only [hI, hJ]
  revert hreg hgv
  generalize Stress.pnormInt c (stressData ps v p (fun _ => none) (v p) Y) = I
  generalize Stress.pnormJ c (stressData ps v p (fun _ => none) (v p) Y) = J
  intro hreg hgv
  have hd := fun e : StressPart => Stress.pnormDXElem_dot c I J hreg (richAt v p (v p) Y e)
  choose G hG hGd using hd
  have hgv' : g = outDeriv C ps fun e => ext (G e) := by
    rw [hgv]
    congr 1
    funext e
    rw [hG e]
    rfl
  set K : ((e : StressPart) → Option (Dof e.n → ℝ)) → StressPart → ℝ := fun sens e => c.sigma0 / c.p * (I / J) ^ (1 / c.p - 1) *
    ((((e.st.points v p (sens e)).map fun f => f (v p) fun d => Y (e.dof d.row)).map fun d => Stress.pnormNum1 c (Stress.vonMises d.stress) (Stress.dVonMisesDp d ()) d.JxW).sum / J -
      I / J ^ 2 * (((e.st.points v p (sens e)).map fun f => f (v p) fun d => Y (e.dof d.row)).map fun d => Stress.pnormDen1 c (Stress.vonMises d.stress) (Stress.dVonMisesDp d ()) d.JxW).sum) with hK
  have hval : ∀ sens, Stress.optSum ((stressData ps v p sens (v p) Y).map fun m => Stress.optSum (m.map fun l => Stress.pnormSensElem c I J () l)) = some (ps.map fun q => ((q.parts.filter fun e => e.eval).map (K sens)).sum).sum := by
    intro sens
    unfold stressData
    rw [List.map_map]
    refine opt_some ps _ _ fun q _ => ?_
    rw [Function.comp_apply, List.map_map]
    refine opt_some _ _ _ fun e _ => ?_
    rw [Function.comp_apply, Stress.pnormSensElem, Stress.pnormCombine, if_neg hreg]
  rw [hval, hval]
  refine ⟨_, rfl, ?_⟩
  rw [hgv', outDeriv_pair _ hdof w hw]
  congr 1
  refine split_all _ _ _ fun e he hev => ?_
  rw [hGd]
  have h1 := elem_split override (hask e he hev) (ext w) (fun s J' a => Stress.pnormNum1 c (Stress.vonMises s) a J') (fun s J' a b => by unfold Stress.pnormNum1; dsimp only; split <;> ring)
  have h2 := elem_split override (hask e he hev) (ext w) (fun s J' a => Stress.pnormDen1 c (Stress.vonMises s) a J') (fun s J' a b => by unfold Stress.pnormDen1; dsimp only; split <;> ring)
  simp only [hK]
  rw [h1, h2]
  ring

/-! ## The adjoint method -/

/-- The adjoint method with any pair of derivative vector and explicit part. -/
theorem adjoint_value {N : Nat} (ls : Sens.LinSolver N) (hls : ls.Correct) {C : Nat → Bool} {loads : List PLoad} {ps : List StressProc} {v : Nat → ℝ} {p : Nat} {Y : ℝ → Fin N → ℝ} {Y' : Fin N → ℝ}
    (hA : ∀ e ∈ allStress ps, Accepted e.loads) (hlo : ∀ e ∈ allStress ps, LoadsOk e.loads (v p)) (hm : ∀ e ∈ allStress ps, BodyOk v p (ext (Y (v p))) (ext Y') e.part)
    (hdof : ∀ e ∈ allStress ps, ∀ a < 6 * e.n, e.dof a < N) (hask : ∀ e ∈ allStress ps, e.asked = true ∨ ∀ a < 6 * e.n, (e.part.elem v p).sens (v p) (fun b => ext (Y (v p)) (e.dof b)) a = 0)
    (hl : ∀ l ∈ loads, ∀ a < l.n, HasDerivAt (fun t => l.load t a) (l.dload (v p) a) (v p)) (hown : ∀ i < N, OwnedOnce ((ps.map StressProc.part).map (PartProc.proc v p)) i)
    (hB : Branch C loads ((ps.map StressProc.part).map (PartProc.proc v p)) Y Y' (v p))
    (hreg : IsUnit (Matrix.of fun i j : Fin N => sysJac C ((ps.map StressProc.part).map (PartProc.proc v p)) (v p) (ext (Y (v p))) i j).det)
    (g : (Fin N → ℝ) → Fin N → ℝ) (s : (Fin N → ℝ) → ℝ) (hout : ∀ i : Fin N, C i = true → g (Y (v p)) i = 0) (M : Matrix (Fin N) (Fin N) ℝ) :
    Sens.adjointTotal (assembly C loads ((ps.map StressProc.part).map (PartProc.proc v p)) (v p) g s) (Y (v p))
      (Sens.adjointSolve (assembly C loads ((ps.map StressProc.part).map (PartProc.proc v p)) (v p) g s) ls (fun i => C i) M (Y (v p)) (Y (v p)) true) true = (∑ i, g (Y (v p)) i * Y' i) + s (Y (v p)) := by
  set L : (Fin N → ℝ) × ℝ →L[ℝ] ℝ := (∑ i : Fin N, g (Y (v p)) i • (ContinuousLinearMap.proj (R := ℝ) (φ := fun _ : Fin N => ℝ) i).comp (ContinuousLinearMap.fst ℝ (Fin N → ℝ) ℝ)) + s (Y (v p)) • ContinuousLinearMap.snd ℝ (Fin N → ℝ) ℝ with hL
  have hLv : ∀ w t, L (w, t) = (∑ i, g (Y (v p)) i * w i) + t * s (Y (v p)) := by
    intro w t
    simp [hL, ContinuousLinearMap.sum_apply, mul_comm]
  have h := (C185_output ls hls (C := C) (loads := loads) (ps := (ps.map StressProc.part).map (PartProc.proc v p)) (t₀ := v p) (X := Y) (X' := Y') (fun e he => ?_) (fun e he => ?_) (fun e he => ?_) (fun e he => ?_) hl hown hB hreg (fun z => L z) L L.hasFDerivAt g s
    (fun w t _ => hLv w t) hout M).2
  · have h2 : HasDerivAt (fun t => L (Y t, t)) ((∑ i, g (Y (v p)) i * Y' i) + 1 * s (Y (v p))) (v p) := by
      simp only [hLv]
      exact (HasDerivAt.fun_sum fun i _ => (hB.rate i).const_mul _).add ((hasDerivAt_id (v p)).mul_const _)
    rw [h.unique h2, one_mul]
  all_goals (rw [all_proc, all_stress_parts, List.map_map] at he; obtain ⟨r, hr, rfl⟩ := List.mem_map.1 he; rw [Function.comp_apply])
  · rw [(elem_shape v p r.part).1, (elem_shape v p r.part).2.1]
    exact hdof r hr
  · exact (elem_shape v p r.part).2.2.2
  · rw [(elem_shape v p r.part).1, (elem_shape v p r.part).2.1, (elem_shape v p r.part).2.2.1]
    exact hask r hr
  · have hU := motion (e := r.part.elem v p) (t₀ := v p) (by rw [(elem_shape v p r.part).1, (elem_shape v p r.part).2.1]; exact hdof r hr) hB.rate
    exact loaded_along (part_loaded (hm r hr) (hA r hr) (hlo r hr)) hU

/-- C194: the adjoint method gives the derivative of the KS, smooth ramp and p-norm stress, too: `calculate_output_derivative` as right hand side of the adjoint solve, and the sensitivity without displacement sensitivity
as the explicit part.
Partial as C193_direct_partial; the stress of included elements that are said not to depend on the parameter must not depend on it for fixed displacement; the output object must not have been used for a direct
sensitivity before (C194_stale_fails). -/
theorem C194_adjoint_partial {N : Nat} (ls : Sens.LinSolver N) (hls : ls.Correct) {C : Nat → Bool} {loads : List PLoad} {ps : List StressProc} {v : Nat → ℝ} {p : Nat} {Y : ℝ → Fin N → ℝ} {Y' : Fin N → ℝ}
    (hA : ∀ e ∈ allStress ps, Accepted e.loads) (hlo : ∀ e ∈ allStress ps, LoadsOk e.loads (v p)) (hm : ∀ e ∈ allStress ps, BodyOk v p (ext (Y (v p))) (ext Y') e.part) (hr : ∀ e ∈ allStress ps, e.eval = true → RecoveryOk v p e)
    (hdof : ∀ e ∈ allStress ps, ∀ a < 6 * e.n, e.dof a < N) (hask : ∀ e ∈ allStress ps, e.asked = true ∨ ∀ a < 6 * e.n, (e.part.elem v p).sens (v p) (fun b => ext (Y (v p)) (e.dof b)) a = 0)
    (hask2 : ∀ e ∈ allStress ps, e.eval = true → e.asked = true ∨ Untouched v p (ext (Y (v p))) e)
    (hl : ∀ l ∈ loads, ∀ a < l.n, HasDerivAt (fun t => l.load t a) (l.dload (v p) a) (v p)) (hown : ∀ i < N, OwnedOnce ((ps.map StressProc.part).map (PartProc.proc v p)) i)
    (hB : Branch C loads ((ps.map StressProc.part).map (PartProc.proc v p)) Y Y' (v p))
    (hreg : IsUnit (Matrix.of fun i j : Fin N => sysJac C ((ps.map StressProc.part).map (PartProc.proc v p)) (v p) (ext (Y (v p))) i j).det) (override : Bool)
    (hk : NoKink ps v p (v p) fun t => ext (Y t)) (hw : Stress.Weights (stressData ps v p (fun _ => none) (v p) (ext (Y (v p))))) (c : Stress.Coeffs) (M : Matrix (Fin N) (Fin N) ℝ) :
    let adjoint (g : (Fin N → ℝ) → Fin N → ℝ) (s : (Fin N → ℝ) → ℝ) := Sens.adjointTotal (assembly C loads ((ps.map StressProc.part).map (PartProc.proc v p)) (v p) g s) (Y (v p))
      (Sens.adjointSolve (assembly C loads ((ps.map StressProc.part).map (PartProc.proc v p)) (v p) g s) ls (fun i => C i) M (Y (v p)) (Y (v p)) true) true
    HasDerivAt (fun t => ksStress c ps v p t (ext (Y t))) (adjoint (fun x i => ksDeriv C c ps v p (v p) (ext x) i) fun x => ksStressSens c ps v p override (v p) (ext x) none) (v p) ∧
    (1 ≤ c.p → 0 < c.sigma0 → HasDerivAt (fun t => rampStress c ps v p t (ext (Y t))) (adjoint (fun x i => rampDeriv C c ps v p (v p) (ext x) i) fun x => rampStressSens c ps v p override (v p) (ext x) none) (v p)) ∧
    (1 ≤ c.p → Stress.OffCap c (stressData ps v p (fun _ => none) (v p) (ext (Y (v p)))) → ∀ g, pnormDeriv C c ps v p (v p) (ext (Y (v p))) = some g → ∃ s, pnormStressSens c ps v p override (v p) (ext (Y (v p))) none = some s ∧
      HasDerivAt (fun t => pnormStress c ps v p t (ext (Y t))) (adjoint (fun _ i => g i) fun _ => s) (v p)) := by
  intro adjoint
  have hfix : ∀ j : Fin N, C j = true → Y' j = 0 := by
    intro j hj
    have h2 : (fun t => Y t j) =ᶠ[nhds (v p)] fun _ => Y (v p) j := hB.prescribed.mono fun t h => h j hj
    exact (hB.rate j).unique ((hasDerivAt_const (v p) (Y (v p) j)).congr_of_eventuallyEq h2)
  have hrate := C193_rate c hr false (Or.inl rfl) (Y := fun t => ext (Y t)) (Y' := ext Y') (fun e he a ha => by simp only [ext_lt _ (hdof e he a ha)]; exact hB.rate _) hk hw
  have had := adjoint_value ls hls hA hlo hm hdof hask hl hown hB hreg
  refine ⟨?_, fun h1 h0 => ?_, fun h1 hcap g hg => ?_⟩
  · refine hrate.1.congr_deriv ?_
    rw [C194_ks_parts c (C := C) _ override hdof hask2 Y' hfix]
    exact (had (fun x i => ksDeriv C c ps v p (v p) (ext x) i) (fun x => ksStressSens c ps v p override (v p) (ext x) none) (fun i hi => outDeriv_support C ps _ i hi) M).symm
  · refine (hrate.2.1 h1 h0).congr_deriv ?_
    rw [C194_ramp_parts c (C := C) _ override hdof hask2 Y' hfix]
    exact (had (fun x i => rampDeriv C c ps v p (v p) (ext x) i) (fun x => rampStressSens c ps v p override (v p) (ext x) none) (fun i hi => outDeriv_support C ps _ i hi) M).symm
  · obtain ⟨s, hs, ht⟩ := C194_pnorm_parts c _ override hdof hask2 hw Y' hfix hg
    refine ⟨s, hs, (hrate.2.2 h1 hcap _ ht).congr_deriv ?_⟩
    refine (had (fun _ i => g i) (fun _ => s) (fun i hi => ?_) M).symm
    unfold pnormDeriv at hg
    split at hg
    · rw [← Option.some.inj hg]
      exact outDeriv_support C ps _ i hi
    · cases hg

/-- C194: the stress outputs do not reset stored sensitivities: after a direct sensitivity, the explicit part for a structure whose elements are said not to depend on the parameter is the full direct sensitivity again. -/
theorem C194_stale_fails (c : Stress.Coeffs) {ps : List StressProc} {v : Nat → ℝ} {p : Nat} (hno : ∀ e ∈ allStress ps, e.asked = false) (Y Y' : Nat → ℝ) :
    ksStressSensAfter c ps v p false (v p) Y (some Y') none = ksStressSens c ps v p false (v p) Y (some Y') ∧ ksStressSens c ps v p false (v p) Y none = 0 := by
  constructor
  · unfold ksStressSensAfter ksStressSens
    congr 1
    unfold stressData
    refine List.map_congr_left fun q hq => List.map_congr_left fun e he => ?_
    have hem : e ∈ allStress ps := List.mem_flatMap.2 ⟨q, hq, List.mem_of_mem_filter he⟩
    have : givenAfter false (some Y') none e = given false (some Y') e := by simp [givenAfter, skipped, StressPart.part, hno e hem]
    rw [this]
  · unfold ksStressSens Stress.ksSens
    simp only [stressData, List.map_map, Function.comp_def]
    refine (Compliance.list_sum_congr _ _ (fun _ => 0) fun q hq => ?_).trans (by simp)
    refine (Compliance.list_sum_congr _ _ (fun _ => 0) fun e he => ?_).trans (by simp)
    have hem : e ∈ allStress ps := List.mem_flatMap.2 ⟨q, hq, List.mem_of_mem_filter he⟩
    have hg : given false none e = none := by simp [given, skipped, StressPart.part, hno e hem]
    rw [hg, Stress.ksSensElem, sum_none e.st v p (v p) (fun d => Y (e.dof d.row)) (fun s J a => c.p * a / c.sigma0 * Real.exp (c.p * (Stress.vonMises s - c.sigma0) / c.sigma0) * J) (fun s J => by ring)]
    ring

/-! Non-vacuity of C194_adjoint_partial: the structure of C193 (a heated beam and a pulled membrane); the adjoint method gives -4 for its smooth ramp stress. -/
example (ls : Sens.LinSolver 6) (hls : ls.Correct) (M : Matrix (Fin 6) (Fin 6) ℝ) :
    let A := assembly exC [] ((exStress.map StressProc.part).map (PartProc.proc barVals 0)) (barVals 0) (fun x i => rampDeriv exC ⟨1, 0, 0, 1, 0⟩ exStress barVals 0 (barVals 0) (ext x) i) fun x => rampStressSens ⟨1, 0, 0, 1, 0⟩ exStress barVals 0 false (barVals 0) (ext x) none
    Sens.adjointTotal A (exX (barVals 0)) (Sens.adjointSolve A ls (fun i => exC i) M (exX (barVals 0)) (exX (barVals 0)) true) true = -4 := by
  intro A
  have m := exStress_meets
  have hd := (C194_adjoint_partial ls hls m.1 m.2.1 m.2.2.1 (fun e he _ => exStress_recovery e he) m.2.2.2.1 (fun e he => Or.inl (m.2.2.2.2.1 e he)) (fun e he _ => Or.inl (m.2.2.2.2.1 e he)) (fun l hl => by cases hl) m.2.2.2.2.2.1 m.2.2.2.2.2.2.1
    m.2.2.2.2.2.2.2 false exStress_kink (exStress_weights _ _) ⟨1, 0, 0, 1, 0⟩ M).2.1 le_rfl one_pos
  have h2 : HasDerivAt (fun t : ℝ => 4 * (2 - t) + 2) (4 * (0 - 1)) (barVals 0) := (((hasDerivAt_const _ _).sub (hasDerivAt_id _)).const_mul 4).add_const 2
  have h3 := h2.congr_of_eventuallyEq (near_one fun t a b => exStress_ramp a b)
  exact (hd.unique h3).trans (by norm_num)

/-! Non-vacuity of C194_stale_fails: the explicit part is reported as -1 instead of 0. -/
example : ksStressSensAfter ⟨1, 0, 0, 1, 0⟩ exUnasked barVals 0 false (barVals 0) (ext (exX (barVals 0))) (some (ext fun i : Fin 6 => if i = 0 then -2 else 0)) none = -1 ∧ ksStressSens ⟨1, 0, 0, 1, 0⟩ exUnasked barVals 0 false (barVals 0) (ext (exX (barVals 0))) none = 0 := by
  have h := C194_stale_fails ⟨1, 0, 0, 1, 0⟩ (ps := exUnasked) (v := barVals) (p := 0) (fun e he => by
    have : allStress exUnasked = [{ exPart1 with asked := false }] := rfl
    rw [this, List.mem_singleton] at he
    rw [he]) (ext (exX (barVals 0))) (ext fun i : Fin 6 => if i = 0 then -2 else 0)
  exact ⟨h.1.trans exUnasked_rate.2.2, h.2⟩

end Verif.Steady
