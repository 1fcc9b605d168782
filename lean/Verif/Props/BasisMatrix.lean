import Verif.Lib.Loops
import Verif.Model.BasisMatrix
import Mathlib.Data.Rat.Defs
import Mathlib.Tactic.Linarith
import Mathlib.Tactic.NormNum
/-! C08: `BasisMatrix` is modal expansion and its adjoint. -/
namespace Verif.Basis
open Finset
variable {K : Type _} [CommSemiring K]

/-- Well-formed basis: at least one mode, all of the same length `d`. -/
def Wf (modes : List (Vec K)) (d : Nat) : Prop := modes ≠ [] ∧ ∀ v ∈ modes, v.size = d

/-- Specification: entry `(t,i)` of the matrix whose columns are the modes. -/
def entry (modes : List (Vec K)) (t i : Nat) : K := ((modes.map (fun v => v.get t)).getD i 0)

private theorem entry_eq {modes : List (Vec K)} {i : Nat} (hi : i < modes.length) (t : Nat) :
    entry modes t i = modes[i].get t := by
  simp [entry, List.getD, hi]

omit [CommSemiring K] in
private theorem m_ok {modes : List (Vec K)} {d : Nat} (h : Wf modes d) : m modes = .ok d := by
  cases modes with
  | nil => exact absurd rfl h.1
  | cons v vs => simp [m, h.2 v (by simp)]

/-- `vector_mult` computes the modal expansion `Σ_i arg(i) mode_i`, overwriting `dest`. -/
theorem C08_vector_mult (modes : List (Vec K)) (d : Nat) (h : Wf modes d) (dest arg : Vec K)
    (hd : dest.size = d) (ha : arg.size = modes.length) :
    ∃ r, vectorMult modes dest arg = .ok r ∧ r.size = d ∧
      ∀ t < d, r.get t = ∑ i ∈ range modes.length, entry modes t i * arg.get i := by
  have hpos : modes.length > 0 := List.length_pos_iff.2 h.1
  simp only [vectorMult]
  rw [assert_ok hpos, m_ok h]
  simp only [bind, Except.bind]
  rw [assert_ok hd.symm]
  simp only
  rw [assert_ok ha.symm]
  simp only
  obtain ⟨r, e, hs, hg⟩ := loopE_vec_accum d modes.length
    (fun i dest => do
      let a ← arg.read i
      let v ← mode modes i
      axpy dest a v) (fun i t => entry modes t i * arg.get i) (by
      intro i hi v hv
      have h1 : arg.read i = .ok (arg.get i) := Vec.read_ok (by omega)
      have h2 : mode modes i = .ok modes[i] := by simp [mode, hi]
      have h3 := h.2 modes[i] (List.getElem_mem hi)
      simp only [h1, h2, axpy, bind, Except.bind]
      rw [assert_ok (by rw [hv, h3])]
      refine ⟨_, rfl, hv, fun t ht => ?_⟩
      simp only [entry_eq hi, mul_comm]) dest.setZero hd
  refine ⟨r, e, hs, fun t ht => ?_⟩
  rw [hg t ht]; simp [Vec.setZero]

/-- `vector_mult_transpose` computes the inner products with the modes. -/
theorem C08_vector_mult_transpose (modes : List (Vec K)) (d : Nat) (h : Wf modes d)
    (dest arg : Vec K) (hd : dest.size = modes.length) (ha : arg.size = d) :
    ∃ r, vectorMultTranspose modes dest arg = .ok r ∧ r.size = modes.length ∧
      ∀ i < modes.length, r.get i = ∑ t ∈ range d, entry modes t i * arg.get t := by
  have hpos : modes.length > 0 := List.length_pos_iff.2 h.1
  simp only [vectorMultTranspose]
  rw [assert_ok hpos, m_ok h]
  simp only [bind, Except.bind]
  rw [assert_ok ha.symm]
  simp only
  rw [assert_ok hd.symm]
  simp only
  have := loopE_inv (fun n (w : Vec K) => w.size = modes.length ∧
    ∀ i < n, w.get i = ∑ t ∈ range d, entry modes t i * arg.get t) modes.length
    (fun i dest => do
      let v ← mode modes i
      let d ← dot arg v
      dest.write i d) { size := modes.length, get := fun _ => 0 } ⟨rfl, by simp⟩ ?_
  · obtain ⟨r, e, hs, hg⟩ := this
    exact ⟨r, e, hs, hg⟩
  · rintro i w hi ⟨hs, hg⟩
    have h2 : mode modes i = .ok modes[i] := by simp [mode, hi]
    have h3 := h.2 modes[i] (List.getElem_mem hi)
    simp only [h2, dot, bind, Except.bind]
    rw [assert_ok (by rw [ha, h3])]
    simp only [loop_add, zero_add, pure, Except.pure]
    rw [Vec.write_ok (by omega)]
    refine ⟨_, rfl, hs, fun a ha' => ?_⟩
    simp only
    by_cases e : a = i
    · subst e
      simp only [if_true, ha]
      apply sum_congr rfl; intro t _; rw [entry_eq hi, mul_comm]
    · rw [if_neg e]; exact hg a (by omega)

/-- Adjointness of the two products: `⟨B a, x⟩ = ⟨a, Bᵀ x⟩`. -/
theorem C08_adjoint (modes : List (Vec K)) (d : Nat) (h : Wf modes d) (a x dest dest' : Vec K)
    (ha : a.size = modes.length) (hx : x.size = d) (hd : dest.size = d)
    (hd' : dest'.size = modes.length) :
    ∃ Ba Btx, vectorMult modes dest a = .ok Ba ∧ vectorMultTranspose modes dest' x = .ok Btx ∧
      ∑ t ∈ range d, Ba.get t * x.get t = ∑ i ∈ range modes.length, a.get i * Btx.get i := by
  obtain ⟨r, e, -, hg⟩ := C08_vector_mult modes d h dest a hd ha
  obtain ⟨s, f, -, hf⟩ := C08_vector_mult_transpose modes d h dest' x hd' hx
  refine ⟨r, s, e, f, ?_⟩
  rw [sum_congr rfl (fun t ht => by rw [hg t (mem_range.1 ht), sum_mul])]
  conv_rhs => rw [sum_congr rfl (fun i hi => by rw [hf i (mem_range.1 hi), mul_sum])]
  rw [sum_comm]
  apply sum_congr rfl; intro i _
  apply sum_congr rfl; intro t _
  ring

/-- An empty basis is rejected by the assertion. -/
theorem C08_empty_rejected (dest arg : Vec K) :
    vectorMult [] dest arg = .error .assertFail ∧
    vectorMultTranspose [] dest arg = .error .assertFail := ⟨rfl, rfl⟩

example : Wf [(⟨3, fun t => t⟩ : Vec ℚ), ⟨3, fun _ => 1⟩] 3 := by simp [Wf]

end Verif.Basis
