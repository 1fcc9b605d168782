import Verif.Lib.Loops
import Verif.Model.ComplexReal
import Mathlib.Algebra.BigOperators.Ring.Finset
import Mathlib.Data.Complex.BigOperators
import Mathlib.Tactic.Linarith
import Mathlib.Tactic.FinCases
import Mathlib.Algebra.BigOperators.Fin
import Mathlib.Tactic.LinearCombination
/-! C05–C07, C38: complex/real packing. -/
namespace Verif.CR
open Finset

/-! ### Specification -/
namespace Spec
/-- Stacked real form of a complex vector: real parts first, imaginary parts after. -/
def stack (n : Nat) (z : Nat → ℂ) (i : Nat) : ℝ := if i < n then (z i).re else (z (i - n)).im
/-- Real 2m×2n form `[Re, -Im; Im, Re]` of a complex matrix. -/
def blockForm (m n : Nat) (E : Nat → Nat → ℂ) (i j : Nat) : ℝ :=
  if i < m then (if j < n then (E i j).re else -(E i (j - n)).im)
  else (if j < n then (E (i - m) j).im else (E (i - m) (j - n)).re)
/-- Interleaved real form of a complex vector: `(re z₀, im z₀, re z₁, im z₁, …)`. -/
def inter (z : Nat → ℂ) (a : Nat) : ℝ := if a % 2 = 0 then (z (a / 2)).re else (z (a / 2)).im
end Spec
open Spec

private theorem addVec (e : Vec ℂ) (a : Vec ℝ) (ha : a.size = 2 * e.size) :
    ∃ a', addToAssembledVector a e = .ok a' ∧ a'.size = 2 * e.size ∧
      ∀ i < 2 * e.size, a'.get i = a.get i + stack e.size e.get i := by
  have h := loopE_vec_accum (2 * e.size) e.size
    (fun i a => do
      let z ← e.read i
      let a ← a.addAt i z.re
      a.addAt (i + e.size) z.im)
    (fun i t => (if t = i then (e.get i).re else 0) + (if t = i + e.size then (e.get i).im else 0))
    (by
      intro i hi v hv
      simp only [Vec.read_ok hi, bind, Except.bind]
      rw [Vec.addAt_ok (by omega)]
      simp only
      rw [Vec.addAt_ok (by simp only; omega)]
      refine ⟨_, rfl, hv, fun t ht => ?_⟩
      simp only
      have hne : i + e.size ≠ i := by omega
      by_cases h1 : t = i
      · subst h1
        have h0 : e.size ≠ 0 := by omega
        simp [h0]
      · by_cases h2 : t = i + e.size
        · subst h2; simp [show e.size ≠ 0 by omega]
        · simp [h1, h2]) a ha
  obtain ⟨a', e1, e2, e3⟩ := h
  refine ⟨a', ?_, e2, fun t ht => ?_⟩
  · simp only [addToAssembledVector]
    rw [assert_ok (by omega)]; exact e1
  · rw [e3 t ht, sum_add_distrib]
    congr 1
    unfold stack
    by_cases hlt : t < e.size
    · rw [if_pos hlt, sum_ite_eq]
      rw [if_pos (mem_range.2 hlt), sum_eq_zero, add_zero]
      intro i _; rw [if_neg]; omega
    · rw [if_neg hlt, sum_ite_eq, if_neg (by simpa using hlt), zero_add]
      rw [sum_eq_single_of_mem (t - e.size) (mem_range.2 (by omega))]
      · rw [if_pos (by omega)]
      · intro b _ hb; rw [if_neg]; omega

/-- C05. `add_to_assembled_vector` adds exactly the stacked real form (so it is additive in both the
target and the element vector). -/
theorem C05_add_vector (e : Vec ℂ) (a : Vec ℝ) (ha : a.size = 2 * e.size) :
    ∃ a', addToAssembledVector a e = .ok a' ∧ a'.size = 2 * e.size ∧
      ∀ i < 2 * e.size, a'.get i = a.get i + stack e.size e.get i := addVec e a ha

private theorem getVec (v : Vec ℂ) (w : Vec ℝ) (h : w.size = 2 * v.size) :
    ∃ v', transformToElemVector v w = .ok v' ∧ v'.size = v.size ∧
      ∀ i < v.size, v'.get i = ⟨w.get i, w.get (i + v.size)⟩ := by
  have := loopE_inv (fun n (u : Vec ℂ) => u.size = v.size ∧
      ∀ i < n, u.get i = ⟨w.get i, w.get (i + v.size)⟩) v.size
    (fun i u => do
      let a ← w.read i
      let b ← w.read (i + v.size)
      u.write i ⟨a, b⟩) v ⟨rfl, by simp⟩ ?_
  · obtain ⟨v', e, hs, hg⟩ := this
    refine ⟨v', ?_, hs, hg⟩
    simp only [transformToElemVector]; rw [assert_ok h]; exact e
  · rintro i u hi ⟨hs, hg⟩
    have r1 := Vec.read_ok (v := w) (i := i) (by omega)
    have r2 := Vec.read_ok (v := w) (i := i + v.size) (by omega)
    simp only [r1, r2, bind, Except.bind]
    rw [Vec.write_ok (by omega)]
    refine ⟨_, rfl, hs, fun a ha => ?_⟩
    simp only
    by_cases e : a = i
    · subst e; simp
    · rw [if_neg e]; exact hg a (by omega)

/-- C05. Round trip: embed into a zero vector and read back. -/
theorem C05_vector_roundtrip (e v : Vec ℂ) (hv : v.size = e.size) (a : Vec ℝ)
    (ha : a.size = 2 * e.size) (h0 : ∀ i < 2 * e.size, a.get i = 0) :
    ∃ a' v', addToAssembledVector a e = .ok a' ∧ transformToElemVector v a' = .ok v' ∧
      v'.size = e.size ∧ ∀ i < e.size, v'.get i = e.get i := by
  obtain ⟨a', e1, s1, g1⟩ := addVec e a ha
  obtain ⟨v', e2, s2, g2⟩ := getVec v a' (by rw [s1, hv])
  refine ⟨a', v', e1, e2, by rw [s2, hv], fun i hi => ?_⟩
  rw [g2 i (by omega), hv, g1 i (by omega), g1 (i + e.size) (by omega), h0 i (by omega),
    h0 (i + e.size) (by omega)]
  have : ¬ (i + e.size < e.size) := by omega
  simp [stack, hi]

private theorem addMat (e : Mat ℂ) (A : Mat ℝ) (hr : A.rows = 2 * e.rows)
    (hc : A.cols = 2 * e.cols) :
    ∃ A', addToAssembledMatrix A e = .ok A' ∧ A'.rows = 2 * e.rows ∧ A'.cols = 2 * e.cols ∧
      ∀ i < 2 * e.rows, ∀ j < 2 * e.cols,
        A'.get i j = A.get i j + blockForm e.rows e.cols e.get i j := by
  have h := loopE_mat_accum (2 * e.rows) (2 * e.cols) e.rows
    (fun i A => loopE e.cols (fun j A => do
      let z ← e.read i j
      let A ← A.addAt i j z.re
      let A ← A.addAt (i + e.rows) (j + e.cols) z.re
      let A ← A.addAt i (j + e.cols) (-z.im)
      A.addAt (i + e.rows) j z.im) A)
    (fun i s t => ∑ j ∈ range e.cols,
      ((if s = i ∧ t = j then (e.get i j).re else 0) +
       (if s = i + e.rows ∧ t = j + e.cols then (e.get i j).re else 0) +
       (if s = i ∧ t = j + e.cols then -(e.get i j).im else 0) +
       (if s = i + e.rows ∧ t = j then (e.get i j).im else 0)))
    (by
      intro i hi v hvr hvc
      apply loopE_mat_accum (2 * e.rows) (2 * e.cols) e.cols _ _ _ v hvr hvc
      intro j hj v hvr hvc
      simp only [Mat.read_ok hi hj, bind, Except.bind]
      rw [Mat.addAt_ok (by omega) (by omega)]
      simp only
      rw [Mat.addAt_ok (by simp only; omega) (by simp only; omega)]
      simp only
      rw [Mat.addAt_ok (by simp only; omega) (by simp only; omega)]
      simp only
      rw [Mat.addAt_ok (by simp only; omega) (by simp only; omega)]
      refine ⟨_, rfl, hvr, hvc, fun s hs t ht => ?_⟩
      simp only
      have hr0 : e.rows ≠ 0 := by omega
      have hc0 : e.cols ≠ 0 := by omega
      by_cases h1 : s = i
      · have h1' : s ≠ i + e.rows := by omega
        by_cases h2 : t = j
        · have h2' : t ≠ j + e.cols := by omega
          subst h1; subst h2; simp [hr0, hc0]
        · by_cases h3 : t = j + e.cols
          · subst h1; subst h3; simp [hr0, hc0]
          · subst h1; simp [h2, h3]
      · by_cases h1' : s = i + e.rows
        · by_cases h2 : t = j
          · have h2' : t ≠ j + e.cols := by omega
            subst h1'; subst h2; simp [hr0, hc0]
          · by_cases h3 : t = j + e.cols
            · subst h1'; subst h3; simp [hr0, hc0]
            · subst h1'; simp [h2, h3]
        · simp [h1, h1']) A hr hc
  obtain ⟨A', e1, e2, e2', e3⟩ := h
  refine ⟨A', ?_, e2, e2', fun s hs t ht => ?_⟩
  · simp only [addToAssembledMatrix]
    rw [assert_ok (by omega), assert_ok (by omega)]; exact e1
  · rw [e3 s hs t ht]
    congr 1
    simp only [sum_add_distrib]
    unfold blockForm
    have split2 : ∀ (n u : Nat) (f : Nat → ℝ), u < n →
        (∑ k ∈ range n, if u = k then f k else 0) = f u := by
      intro n u f hu; rw [sum_ite_eq]; simp [hu]
    have split3 : ∀ (n u : Nat) (f : Nat → ℝ), u < 2 * n → ¬ u < n →
        (∑ k ∈ range n, if u = k + n then f k else 0) = f (u - n) := by
      intro n u f hu hu'
      rw [sum_eq_single_of_mem (u - n) (mem_range.2 (by omega))]
      · rw [if_pos (by omega)]
      · intro b _ hb; rw [if_neg]; omega
    have zero2 : ∀ (n u : Nat) (f : Nat → ℝ), ¬ u < n →
        (∑ k ∈ range n, if u = k then f k else 0) = 0 := by
      intro n u f hu; rw [sum_ite_eq]; simp [hu]
    have zero3 : ∀ (n u : Nat) (f : Nat → ℝ), u < n →
        (∑ k ∈ range n, if u = k + n then f k else 0) = 0 := by
      intro n u f hu; apply sum_eq_zero; intro k _; rw [if_neg]; omega
    have pull : ∀ (P : Prop) [Decidable P] (Q : Nat → Prop) [DecidablePred Q] (f : Nat → ℝ)
        (n : Nat), (∑ j ∈ range n, if P ∧ Q j then f j else 0) =
          if P then ∑ j ∈ range n, (if Q j then f j else 0) else 0 := by
      intro P _ Q _ f n
      by_cases hP : P <;> simp [hP]
    simp only [pull]
    by_cases hs' : s < e.rows <;> by_cases ht' : t < e.cols
    · simp only [split2 e.rows s _ hs', zero3 e.rows s _ hs', split2 e.cols t _ ht',
        zero3 e.cols t _ ht', if_pos hs', if_pos ht']; ring
    · simp only [split2 e.rows s _ hs', zero3 e.rows s _ hs', zero2 e.cols t _ ht',
        split3 e.cols t _ ht ht', if_pos hs', if_neg ht']; ring
    · simp only [zero2 e.rows s _ hs', split3 e.rows s _ hs hs', split2 e.cols t _ ht',
        zero3 e.cols t _ ht', if_neg hs', if_pos ht']; ring
    · simp only [zero2 e.rows s _ hs', split3 e.rows s _ hs hs', zero2 e.cols t _ ht',
        split3 e.cols t _ ht ht', if_neg hs', if_neg ht']; ring

/-- C06. `add_to_assembled_matrix` adds exactly the real block form. -/
theorem C06_add_matrix (e : Mat ℂ) (A : Mat ℝ) (hr : A.rows = 2 * e.rows)
    (hc : A.cols = 2 * e.cols) :
    ∃ A', addToAssembledMatrix A e = .ok A' ∧ A'.rows = 2 * e.rows ∧ A'.cols = 2 * e.cols ∧
      ∀ i < 2 * e.rows, ∀ j < 2 * e.cols,
        A'.get i j = A.get i j + blockForm e.rows e.cols e.get i j := addMat e A hr hc

/-- C06. Round trip for matrices. -/
theorem C06_matrix_roundtrip (e m : Mat ℂ) (h1 : m.rows = e.rows) (h2 : m.cols = e.cols)
    (A : Mat ℝ) (hr : A.rows = 2 * e.rows) (hc : A.cols = 2 * e.cols)
    (h0 : ∀ i < 2 * e.rows, ∀ j < 2 * e.cols, A.get i j = 0) :
    ∃ A' m', addToAssembledMatrix A e = .ok A' ∧ transformToElemMatrix m A' = .ok m' ∧
      m'.rows = e.rows ∧ m'.cols = e.cols ∧
      ∀ i < e.rows, ∀ j < e.cols, m'.get i j = e.get i j := by
  obtain ⟨A', e1, s1, s1', g1⟩ := addMat e A hr hc
  have key : ∀ i < e.rows, ∀ j < e.cols,
      (⟨A'.get i j, -A'.get i (j + e.cols)⟩ : ℂ) = e.get i j := by
    intro i hi j hj
    rw [g1 i (by omega) j (by omega), g1 i (by omega) (j + e.cols) (by omega),
      h0 i (by omega) j (by omega), h0 i (by omega) (j + e.cols) (by omega)]
    simp [blockForm, hi, hj]
  have := loopE_inv (fun n (u : Mat ℂ) => u.rows = e.rows ∧ u.cols = e.cols ∧
      ∀ i < n, ∀ j < e.cols, u.get i j = e.get i j) m.rows
    (fun i w => loopE m.cols (fun j w => do
      let a ← A'.read i j
      let b ← A'.read i (j + m.cols)
      w.write i j ⟨a, -b⟩) w) m ⟨h1, h2, by simp⟩ ?_
  · obtain ⟨m', f, q1, q2, q3⟩ := this
    refine ⟨A', m', e1, ?_, q1, q2, by rw [← h1]; exact q3⟩
    simp only [transformToElemMatrix]
    rw [assert_ok (by omega), assert_ok (by omega)]; exact f
  · rintro i u hi ⟨q1, q2, q3⟩
    have := loopE_inv (fun n (w : Mat ℂ) => w.rows = e.rows ∧ w.cols = e.cols ∧
        (∀ a < i, ∀ j < e.cols, w.get a j = e.get a j) ∧ ∀ j < n, w.get i j = e.get i j) m.cols
      (fun j w => do
        let a ← A'.read i j
        let b ← A'.read i (j + m.cols)
        w.write i j ⟨a, -b⟩) u ⟨q1, q2, q3, by simp⟩ ?_
    · obtain ⟨w, f, p1, p2, p3, p4⟩ := this
      refine ⟨w, f, p1, p2, fun a ha j hj => ?_⟩
      by_cases e' : a = i
      · subst e'; exact p4 j (by omega)
      · exact p3 a (by omega) j hj
    · rintro j w hj ⟨p1, p2, p3, p4⟩
      rw [h1] at hi; rw [h2] at hj
      rw [h2]
      have r1 := Mat.read_ok (m := A') (i := i) (j := j) (by omega) (by omega)
      have r2 := Mat.read_ok (m := A') (i := i) (j := j + e.cols) (by omega) (by omega)
      simp only [r1, r2, bind, Except.bind]
      rw [Mat.write_ok (by omega) (by omega), key i hi j hj]
      refine ⟨_, rfl, p1, p2, fun a ha b hb => ?_, fun b hb => ?_⟩
      · simp only
        rw [if_neg (by omega)]; exact p3 a ha b hb
      · simp only
        by_cases e' : b = j
        · subst e'; simp
        · rw [if_neg (by omega)]; exact p4 b (by omega)

/-- C06. The embedding turns complex matrix–vector products into real ones. -/
theorem C06_matvec (m n : Nat) (E : Nat → Nat → ℂ) (z : Nat → ℂ) (i : Nat) :
    ∑ j ∈ range (2 * n), blockForm m n E i j * stack n z j =
      stack m (fun a => ∑ b ∈ range n, E a b * z b) i := by
  rw [two_mul n, sum_range_add]
  unfold stack blockForm
  by_cases h : i < m
  · simp only [h, if_true]
    rw [Complex.re_sum, ← sum_add_distrib]
    apply sum_congr rfl
    intro j hj
    have hj' : j < n := mem_range.1 hj
    have : ¬ (n + j < n) := by omega
    simp only [hj', this, if_true, if_false, Nat.add_sub_cancel_left, Complex.mul_re]
    ring
  · simp only [h, if_false]
    rw [Complex.im_sum, ← sum_add_distrib]
    apply sum_congr rfl
    intro j hj
    have hj' : j < n := mem_range.1 hj
    have : ¬ (n + j < n) := by omega
    simp only [hj', this, if_true, if_false, Nat.add_sub_cancel_left, Complex.mul_im]
    ring

/-- C06. … and products of matrices into products of the embedded matrices. -/
theorem C06_matmul (l m n : Nat) (E F : Nat → Nat → ℂ) (i j : Nat) :
    ∑ k ∈ range (2 * m), blockForm l m E i k * blockForm m n F k j =
      blockForm l n (fun a b => ∑ k ∈ range m, E a k * F k b) i j := by
  rw [two_mul m, sum_range_add]
  unfold blockForm
  have fin : ∀ k ∈ range m, k < m ∧ ¬ (m + k < m) := by
    intro k hk; have := mem_range.1 hk; omega
  by_cases h : i < l <;> by_cases h' : j < n <;>
  · simp only [h, h', if_true, if_false]
    simp only [Complex.re_sum, Complex.im_sum]
    rw [← sum_add_distrib]
    try rw [← sum_neg_distrib]
    apply sum_congr rfl
    intro k hk
    obtain ⟨f1, f2⟩ := fin k hk
    simp only [f1, f2, if_true, if_false, Nat.add_sub_cancel_left, Complex.mul_re, Complex.mul_im]
    ring

/-! ### parallel_sum -/
section
variable {K : Type _} [AddCommMonoid K]

private theorem pack_ok (M : Mat K) : ∃ v, pack M = .ok v ∧ v.size = M.rows * M.cols ∧
    ∀ i < M.rows, ∀ j < M.cols, v.get (M.rows * j + i) = M.get i j := by
  have hlt : ∀ i < M.rows, ∀ j < M.cols, M.rows * j + i < M.rows * M.cols := by
    intro i hi j hj
    rw [Nat.mul_comm M.rows j, Nat.mul_comm M.rows]; exact block_lt hj hi
  have := loopE_inv (fun n (u : Vec K) => u.size = M.rows * M.cols ∧
      ∀ i < n, i < M.rows → ∀ j < M.cols, u.get (M.rows * j + i) = M.get i j) M.rows
    (fun i vals => loopE M.cols (fun j vals => do
      let x ← M.read i j
      vals.write (M.rows * j + i) x) vals) { size := M.rows * M.cols, get := fun _ => 0 }
      ⟨rfl, by simp⟩ ?_
  · obtain ⟨v, e, s, g⟩ := this
    exact ⟨v, e, s, fun i hi j hj => g i hi hi j hj⟩
  · rintro i u hi ⟨s, g⟩
    have := loopE_inv (fun n (w : Vec K) => w.size = M.rows * M.cols ∧
        (∀ a < i, ∀ j < M.cols, w.get (M.rows * j + a) = M.get a j) ∧
        ∀ j < n, w.get (M.rows * j + i) = M.get i j) M.cols
      (fun j vals => do
        let x ← M.read i j
        vals.write (M.rows * j + i) x) u ⟨s, fun a ha j hj => g a ha (by omega) j hj, by simp⟩ ?_
    · obtain ⟨w, f, p1, p2, p3⟩ := this
      refine ⟨w, f, p1, fun a ha _ j hj => ?_⟩
      by_cases e : a = i
      · subst e; exact p3 j hj
      · exact p2 a (by omega) j hj
    · rintro j w hj ⟨p1, p2, p3⟩
      simp only [Mat.read_ok hi hj, bind, Except.bind]
      rw [Vec.write_ok (by rw [p1]; exact hlt i hi j hj)]
      refine ⟨_, rfl, p1, fun a ha b hb => ?_, fun b hb => ?_⟩
      · simp only
        rw [if_neg]
        · exact p2 a ha b hb
        · intro e
          rw [Nat.mul_comm M.rows b, Nat.mul_comm M.rows j] at e
          have := (block_inj (by omega) hi e).2; omega
      · simp only
        by_cases e' : b = j
        · subst e'; simp
        · rw [if_neg]
          · exact p3 b (by omega)
          · intro e
            rw [Nat.mul_comm M.rows b, Nat.mul_comm M.rows j] at e
            exact e' (block_inj hi hi e).1

omit [AddCommMonoid K] in
private theorem unpack_ok (M : Mat K) (v : Vec K) (hv : v.size = M.rows * M.cols) :
    ∃ M', unpack M v = .ok M' ∧ M'.rows = M.rows ∧ M'.cols = M.cols ∧
      ∀ i < M.rows, ∀ j < M.cols, M'.get i j = v.get (M.rows * j + i) := by
  have hlt : ∀ i < M.rows, ∀ j < M.cols, M.rows * j + i < M.rows * M.cols := by
    intro i hi j hj
    rw [Nat.mul_comm M.rows j, Nat.mul_comm M.rows]; exact block_lt hj hi
  have := loopE_inv (fun n (u : Mat K) => u.rows = M.rows ∧ u.cols = M.cols ∧
      ∀ i < n, ∀ j < M.cols, u.get i j = v.get (M.rows * j + i)) M.rows
    (fun i m => loopE M.cols (fun j m => do
      let x ← v.read (M.rows * j + i)
      m.write i j x) m) M ⟨rfl, rfl, by simp⟩ ?_
  · obtain ⟨v, e, s1, s2, g⟩ := this
    exact ⟨v, e, s1, s2, g⟩
  · rintro i u hi ⟨s1, s2, g⟩
    have := loopE_inv (fun n (w : Mat K) => w.rows = M.rows ∧ w.cols = M.cols ∧
        (∀ a < i, ∀ j < M.cols, w.get a j = v.get (M.rows * j + a)) ∧
        ∀ j < n, w.get i j = v.get (M.rows * j + i)) M.cols
      (fun j m => do
        let x ← v.read (M.rows * j + i)
        m.write i j x) u ⟨s1, s2, g, by simp⟩ ?_
    · obtain ⟨w, f, p1, p2, p3, p4⟩ := this
      refine ⟨w, f, p1, p2, fun a ha j hj => ?_⟩
      by_cases e : a = i
      · subst e; exact p4 j hj
      · exact p3 a (by omega) j hj
    · rintro j w hj ⟨p1, p2, p3, p4⟩
      have r := Vec.read_ok (v := v) (i := M.rows * j + i) (by rw [hv]; exact hlt i hi j hj)
      simp only [r, bind, Except.bind]
      rw [Mat.write_ok (by omega) (by omega)]
      refine ⟨_, rfl, p1, p2, fun a ha b hb => ?_, fun b hb => ?_⟩
      · simp only
        rw [if_neg (by omega)]; exact p3 a ha b hb
      · simp only
        by_cases e' : b = j
        · subst e'; simp
        · rw [if_neg (by omega)]; exact p4 b (by omega)

private theorem mapM_ok {α β : Type _} (f : α → Exec β) (P : α → β → Prop)
    (l : List α) (h : ∀ x ∈ l, ∃ y, f x = .ok y ∧ P x y) :
    ∃ ys, l.mapM f = .ok ys ∧ List.Forall₂ P l ys := by
  induction l with
  | nil => exact ⟨[], rfl, .nil⟩
  | cons x l ih =>
    obtain ⟨y, e, p⟩ := h x (by simp)
    obtain ⟨ys, e', p'⟩ := ih (fun z hz => h z (by simp [hz]))
    refine ⟨y :: ys, ?_, .cons p p'⟩
    simp [List.mapM_cons, e, e', bind, Except.bind, pure, Except.pure]

/-- C07. Every rank ends with the entrywise sum of the matrices of all ranks. -/
theorem C07_parallel_sum (r c : Nat) (ms : List (Mat K))
    (hs : ∀ M ∈ ms, M.rows = r ∧ M.cols = c) :
    ∃ out, parallelSum ms = .ok out ∧ out.length = ms.length ∧
      ∀ M' ∈ out, M'.rows = r ∧ M'.cols = c ∧
        ∀ i < r, ∀ j < c, M'.get i j = (ms.map (fun M => M.get i j)).sum := by
  obtain ⟨vs, e, f⟩ := mapM_ok pack (fun M v => v.size = M.rows * M.cols ∧
    ∀ i < M.rows, ∀ j < M.cols, v.get (M.rows * j + i) = M.get i j) ms
    (fun M _ => pack_ok M)
  have hsum : ∀ (ms : List (Mat K)) (vs : List (Vec K)), (∀ M ∈ ms, M.rows = r ∧ M.cols = c) →
      List.Forall₂ (fun M v => v.size = M.rows * M.cols ∧
        ∀ i < M.rows, ∀ j < M.cols, v.get (M.rows * j + i) = M.get i j) ms vs →
      ∀ i < r, ∀ j < c, (vs.map (fun v => v.get (r * j + i))).foldr (· + ·) 0 =
        (ms.map (fun M => M.get i j)).sum := by
    intro ms vs hs f i hi j hj
    induction f with
    | nil => simp
    | @cons M v ms vs p _ ih =>
      obtain ⟨h1, h2⟩ := hs M (by simp)
      simp only [List.map_cons, List.foldr_cons, List.sum_cons]
      rw [ih (fun M hM => hs M (by simp [hM])), ← p.2 i (by omega) j (by omega), h1]
  obtain ⟨out, e', f'⟩ := mapM_ok (fun mat : Mat K => unpack mat (commSum (mat.rows * mat.cols) vs))
    (fun _ M' => M'.rows = r ∧ M'.cols = c ∧
        ∀ i < r, ∀ j < c, M'.get i j = (ms.map (fun M => M.get i j)).sum) ms (by
    intro M hM
    obtain ⟨h1, h2⟩ := hs M hM
    obtain ⟨M', q, s1, s2, g⟩ := unpack_ok M (commSum (M.rows * M.cols) vs) rfl
    refine ⟨M', q, by omega, by omega, fun i hi j hj => ?_⟩
    rw [g i (by omega) j (by omega), h1]
    exact hsum ms vs hs f i hi j hj)
  refine ⟨out, ?_, f'.length_eq.symm, ?_⟩
  · simp only [parallelSum, e, bind, Except.bind]; exact e'
  · clear e' e f hsum
    have gen : ∀ (l : List (Mat K)) (out : List (Mat K)) (Q : Mat K → Prop),
        List.Forall₂ (fun _ M' => Q M') l out → ∀ M' ∈ out, Q M' := by
      intro l out Q h
      induction h with
      | nil => simp
      | cons p _ ih =>
        intro M' hM'
        rcases List.mem_cons.1 hM' with rfl | h
        · exact p
        · exact ih M' h
    exact gen ms out _ f'
end

/-! ### C38: block complex solver -/

/-- C38. Interleaving real and imaginary parts and splitting them again is the identity. -/
theorem C38_interleave_roundtrip (n : Nat) (re im sol a b : Vec ℝ) (h1 : re.size = n)
    (h2 : im.size = n) (h3 : sol.size = 2 * n) (h4 : a.size = n) (h5 : b.size = n) :
    ∃ s p, interleave n re im sol = .ok s ∧ deinterleave n s (a, b) = .ok p ∧
      (∀ i < n, s.get (2 * i) = re.get i ∧ s.get (2 * i + 1) = im.get i) ∧
      ∀ i < n, p.1.get i = re.get i ∧ p.2.get i = im.get i := by
  have A := loopE_inv (fun k (s : Vec ℝ) => s.size = 2 * n ∧
      ∀ i < k, s.get (2 * i) = re.get i ∧ s.get (2 * i + 1) = im.get i) n
    (fun i sol => do
      let a ← re.read i
      let b ← im.read i
      let sol ← sol.write (2 * i) a
      sol.write (2 * i + 1) b) sol ⟨h3, by simp⟩ (by
    rintro i s hi ⟨hs, hg⟩
    simp only [Vec.read_ok (v := re) (i := i) (by omega), Vec.read_ok (v := im) (i := i) (by omega),
      bind, Except.bind]
    rw [Vec.write_ok (by omega)]
    simp only
    rw [Vec.write_ok (by simp only; omega)]
    refine ⟨_, rfl, hs, fun k hk => ?_⟩
    simp only
    by_cases e : k = i
    · subst e; simp
    · have := hg k (by omega)
      rw [if_neg (by omega), if_neg (by omega), if_neg (by omega), if_neg (by omega)]
      exact this)
  obtain ⟨s, e, hs, hg⟩ := A
  have B := loopE_inv (fun k (p : Vec ℝ × Vec ℝ) => p.1.size = n ∧ p.2.size = n ∧
      ∀ i < k, p.1.get i = s.get (2 * i) ∧ p.2.get i = s.get (2 * i + 1)) n
    (fun i (p : Vec ℝ × Vec ℝ) => do
      let a ← s.read (2 * i)
      let b ← s.read (2 * i + 1)
      let r ← p.1.write i a
      let q ← p.2.write i b
      return (r, q)) (a, b) ⟨h4, h5, by simp⟩ (by
    rintro i p hi ⟨p1, p2, pg⟩
    simp only [Vec.read_ok (v := s) (i := 2 * i) (by omega),
      Vec.read_ok (v := s) (i := 2 * i + 1) (by omega), bind, Except.bind]
    rw [Vec.write_ok (by omega)]
    simp only
    rw [Vec.write_ok (by omega)]
    refine ⟨_, rfl, p1, p2, fun k hk => ?_⟩
    simp only
    by_cases e : k = i
    · subst e; simp
    · rw [if_neg e, if_neg e]; exact pg k (by omega))
  obtain ⟨p, f, -, -, pg⟩ := B
  refine ⟨s, p, e, f, hg, fun i hi => ?_⟩
  rw [(pg i hi).1, (pg i hi).2]
  exact hg i hi

/-- One element's data for the blocked assembly. -/
structure ElemData where
  dofs : List Nat
  mat : Nat → Nat → ℂ
  vec : Nat → ℂ

/-- Assembly loop over the elements, complex_assembly_base.cpp:491-594 with `R`, `J` zeroed first
(lines 424-425). -/
noncomputable def blockedAssembly (els : List ElemData) : (Nat → Nat → ℝ) × (Nat → ℝ) :=
  els.foldl (fun st e => blockedElem e.dofs e.mat e.vec st.1 st.2) (fun _ _ => 0, fun _ => 0)

/-- Specification: ordinary complex assembly, `A(d,e) = Σ_elements Σ_{i,j : dof i = d, dof j = e}`. -/
noncomputable def complexMatrix (els : List ElemData) (d e : Nat) : ℂ :=
  (els.map (fun el => ∑ i ∈ range el.dofs.length, ∑ j ∈ range el.dofs.length,
    if el.dofs.getD i 0 = d ∧ el.dofs.getD j 0 = e then el.mat i j else 0)).sum

noncomputable def complexVector (els : List ElemData) (d : Nat) : ℂ :=
  (els.map (fun el => ∑ i ∈ range el.dofs.length,
    if el.dofs.getD i 0 = d then el.vec i else 0)).sum

private theorem loop_fun1 (n : Nat) (f : Nat → (Nat → ℝ) → (Nat → ℝ)) (c : Nat → Nat → ℝ)
    (h : ∀ i s a, f i s a = s a + c i a) (s : Nat → ℝ) (a : Nat) :
    loop n f s a = s a + ∑ i ∈ range n, c i a := by
  induction n with
  | zero => simp [loop]
  | succ n ih => rw [loop, h, ih, sum_range_succ, add_assoc]

private theorem loop_fun2 (n : Nat) (f : Nat → (Nat → Nat → ℝ) → (Nat → Nat → ℝ))
    (c : Nat → Nat → Nat → ℝ)
    (h : ∀ i s a b, f i s a b = s a b + c i a b) (s : Nat → Nat → ℝ) (a b : Nat) :
    loop n f s a b = s a b + ∑ i ∈ range n, c i a b := by
  induction n with
  | zero => simp [loop]
  | succ n ih => rw [loop, h, ih, sum_range_succ, add_assoc]

/-- Real 2×2 block entry of a complex number. -/
private noncomputable def ent (z : ℂ) (r c : Nat) : ℝ :=
  if r = 0 then (if c = 0 then z.re else -z.im) else (if c = 0 then z.im else z.re)

private theorem blocked_entry (di dj a b : Nat) (z : ℂ) (x : ℝ) :
    (if a = 2 * di ∧ b = 2 * dj then x + z.re
      else if a = 2 * di ∧ b = 2 * dj + 1 then x + -z.im
      else if a = 2 * di + 1 ∧ b = 2 * dj then x + z.im
      else if a = 2 * di + 1 ∧ b = 2 * dj + 1 then x + z.re
      else x) = x + if di = a / 2 ∧ dj = b / 2 then ent z (a % 2) (b % 2) else 0 := by
  unfold ent
  by_cases h : di = a / 2 ∧ dj = b / 2
  · obtain ⟨rfl, rfl⟩ := h
    rcases Nat.mod_two_eq_zero_or_one a with ha | ha <;>
    rcases Nat.mod_two_eq_zero_or_one b with hb | hb
    · rw [if_pos ⟨by omega, by omega⟩]; simp [ha, hb]
    · rw [if_neg (by omega), if_pos ⟨by omega, by omega⟩]; simp [ha, hb]
    · rw [if_neg (by omega), if_neg (by omega), if_pos ⟨by omega, by omega⟩]; simp [ha, hb]
    · rw [if_neg (by omega), if_neg (by omega), if_neg (by omega),
        if_pos ⟨by omega, by omega⟩]; simp [ha, hb]
  · rw [if_neg (by omega), if_neg (by omega), if_neg (by omega), if_neg (by omega), if_neg h,
      add_zero]

private theorem blockedElem_spec (dofs : List Nat) (mat : Nat → Nat → ℂ) (vec : Nat → ℂ)
    (J : Nat → Nat → ℝ) (R : Nat → ℝ) :
    (∀ a b, (blockedElem dofs mat vec J R).1 a b = J a b +
      ∑ i ∈ range dofs.length, ∑ j ∈ range dofs.length,
        if dofs.getD i 0 = a / 2 ∧ dofs.getD j 0 = b / 2 then ent (mat i j) (a % 2) (b % 2) else 0) ∧
    (∀ a, (blockedElem dofs mat vec J R).2 a = R a +
      ∑ i ∈ range dofs.length,
        if dofs.getD i 0 = a / 2 then (if a % 2 = 0 then (vec i).re else (vec i).im) else 0) := by
  unfold blockedElem
  set N := dofs.length with hN
  set body := (fun i (st : (Nat → Nat → ℝ) × (Nat → ℝ)) =>
    let di := dofs.getD i 0
    let R1 : Nat → ℝ := fun a => if a = 2 * di then st.2 a + (vec i).re else st.2 a
    let R2 : Nat → ℝ := fun a => if a = 2 * di + 1 then R1 a + (vec i).im else R1 a
    let J2 := loop N (fun j (J : Nat → Nat → ℝ) =>
      let dj := dofs.getD j 0
      fun a b =>
        if a = 2 * di ∧ b = 2 * dj then J a b + (mat i j).re
        else if a = 2 * di ∧ b = 2 * dj + 1 then J a b + -(mat i j).im
        else if a = 2 * di + 1 ∧ b = 2 * dj then J a b + (mat i j).im
        else if a = 2 * di + 1 ∧ b = 2 * dj + 1 then J a b + (mat i j).re
        else J a b) st.1
    (J2, R2)) with hbody
  have gen : ∀ k, (∀ a b, (loop k body (J, R)).1 a b = J a b +
      ∑ i ∈ range k, ∑ j ∈ range N,
        if dofs.getD i 0 = a / 2 ∧ dofs.getD j 0 = b / 2 then ent (mat i j) (a % 2) (b % 2) else 0) ∧
    (∀ a, (loop k body (J, R)).2 a = R a +
      ∑ i ∈ range k,
        if dofs.getD i 0 = a / 2 then (if a % 2 = 0 then (vec i).re else (vec i).im) else 0) := by
    intro k
    induction k with
    | zero => exact ⟨fun a b => by simp [loop], fun a => by simp [loop]⟩
    | succ k ih =>
      obtain ⟨ih1, ih2⟩ := ih
      constructor
      · intro a b
        rw [loop, hbody]
        simp only
        rw [loop_fun2 N _ (fun j a b => if dofs.getD k 0 = a / 2 ∧ dofs.getD j 0 = b / 2 then
          ent (mat k j) (a % 2) (b % 2) else 0) (fun j s a b => blocked_entry _ _ a b _ _)]
        rw [ih1, sum_range_succ, add_assoc]
      · intro a
        rw [loop, hbody]
        simp only
        rw [sum_range_succ, ← add_assoc, ← ih2 a]
        generalize (loop k body (J, R)).2 a = x
        generalize dofs.getD k 0 = d
        by_cases h : d = a / 2
        · subst h
          rcases Nat.mod_two_eq_zero_or_one a with ha | ha
          · have : a ≠ 2 * (a / 2) + 1 := by omega
            have h2 : a = 2 * (a / 2) := by omega
            rw [if_neg this, if_pos h2]; simp [ha]
          · have : a = 2 * (a / 2) + 1 := by omega
            have h2 : a ≠ 2 * (a / 2) := by omega
            rw [if_pos this, if_neg h2]; simp [ha]
        · rw [if_neg (by omega), if_neg (by omega), if_neg h, add_zero]
  exact gen N

private theorem ent_sum (s : Finset Nat) (f : Nat → ℂ) (r c : Nat) :
    ∑ i ∈ s, ent (f i) r c = ent (∑ i ∈ s, f i) r c := by
  unfold ent
  split_ifs <;> simp [Complex.re_sum, Complex.im_sum]

private theorem ent_zero (r c : Nat) : ent 0 r c = 0 := by simp [ent]
private theorem ent_add (x y : ℂ) (r c : Nat) : ent (x + y) r c = ent x r c + ent y r c := by
  unfold ent; split_ifs <;> simp; ring

private theorem complexMatrix_cons (e : ElemData) (els : List ElemData) (d f : Nat) :
    complexMatrix (e :: els) d f = (∑ i ∈ range e.dofs.length, ∑ j ∈ range e.dofs.length,
      if e.dofs.getD i 0 = d ∧ e.dofs.getD j 0 = f then e.mat i j else 0) +
      complexMatrix els d f := rfl
private theorem complexVector_cons (e : ElemData) (els : List ElemData) (d : Nat) :
    complexVector (e :: els) d = (∑ i ∈ range e.dofs.length,
      if e.dofs.getD i 0 = d then e.vec i else 0) + complexVector els d := rfl

private theorem foldl_spec (els : List ElemData) : ∀ (J : Nat → Nat → ℝ) (R : Nat → ℝ),
    (∀ a b, (els.foldl (fun st e => blockedElem e.dofs e.mat e.vec st.1 st.2) (J, R)).1 a b =
      J a b + ent (complexMatrix els (a / 2) (b / 2)) (a % 2) (b % 2)) ∧
    (∀ a, (els.foldl (fun st e => blockedElem e.dofs e.mat e.vec st.1 st.2) (J, R)).2 a =
      R a + inter (complexVector els) a) := by
  induction els with
  | nil =>
    intro J R
    refine ⟨fun a b => ?_, fun a => ?_⟩
    · simp [complexMatrix, ent_zero]
    · simp [complexVector, inter]
  | cons e els ih =>
    intro J R
    obtain ⟨s1, s2⟩ := blockedElem_spec e.dofs e.mat e.vec J R
    obtain ⟨i1, i2⟩ := ih (blockedElem e.dofs e.mat e.vec J R).1
      (blockedElem e.dofs e.mat e.vec J R).2
    refine ⟨fun a b => ?_, fun a => ?_⟩
    · rw [List.foldl_cons]
      refine (i1 a b).trans ?_
      rw [s1 a b, complexMatrix_cons, ent_add, add_assoc]
      congr 2
      rw [← ent_sum]
      apply sum_congr rfl; intro i _
      rw [← ent_sum]
      apply sum_congr rfl; intro j _
      split_ifs <;> simp [ent_zero]
    · rw [List.foldl_cons]
      refine (i2 a).trans ?_
      rw [s2 a, add_assoc]
      congr 1
      unfold inter
      rw [complexVector_cons]
      rcases Nat.mod_two_eq_zero_or_one a with ha | ha
      · simp only [ha, if_true, Complex.add_re, Complex.re_sum]
        congr 1
        apply sum_congr rfl; intro i _; split_ifs <;> simp
      · simp only [ha, Nat.one_ne_zero, if_false, Complex.add_im, Complex.im_sum]
        congr 1
        apply sum_congr rfl; intro i _; split_ifs <;> simp

/-- C38. The blocked real Jacobian and residual are the interleaved real forms of the complex assembled
ones: for every mesh (list of elements with any dof lists), the 2×2 block `(d,e)` of `J` is
`[Re A, -Im A; Im A, Re A]` and rows `2d, 2d+1` of `R` are `Re r_d, Im r_d`. -/
theorem C38_blocked_assembly (els : List ElemData) (d e : Nat) :
    (blockedAssembly els).1 (2 * d) (2 * e) = (complexMatrix els d e).re ∧
    (blockedAssembly els).1 (2 * d) (2 * e + 1) = -(complexMatrix els d e).im ∧
    (blockedAssembly els).1 (2 * d + 1) (2 * e) = (complexMatrix els d e).im ∧
    (blockedAssembly els).1 (2 * d + 1) (2 * e + 1) = (complexMatrix els d e).re ∧
    (blockedAssembly els).2 (2 * d) = (complexVector els d).re ∧
    (blockedAssembly els).2 (2 * d + 1) = (complexVector els d).im := by
  obtain ⟨h1, h2⟩ := foldl_spec els (fun _ _ => 0) (fun _ => 0)
  have q1 : (2 * d) / 2 = d := by omega
  have q2 : (2 * d + 1) / 2 = d := by omega
  have q3 : (2 * e) / 2 = e := by omega
  have q4 : (2 * e + 1) / 2 = e := by omega
  have m1 : (2 * d) % 2 = 0 := by omega
  have m2 : (2 * d + 1) % 2 = 1 := by omega
  have m3 : (2 * e) % 2 = 0 := by omega
  have m4 : (2 * e + 1) % 2 = 1 := by omega
  simp only [blockedAssembly, h1, h2, zero_add, q1, q2, q3, q4, m1, m2, m3, m4, inter, ent]
  simp

/-- C38. Hence a solution of the real block system `J x = -R` (what `KSPSolve` is asked for, after
`res->scale(-1.)`), split into real and imaginary parts, solves the complex system `A z = -r`. -/
theorem C38_block_solution_is_complex_solution (els : List ElemData) (n : Nat) (x : Nat → ℝ)
    (hx : ∀ a < 2 * n, ∑ b ∈ range (2 * n), (blockedAssembly els).1 a b * x b =
      -(blockedAssembly els).2 a) :
    ∀ d < n, ∑ e ∈ range n, complexMatrix els d e * (⟨x (2 * e), x (2 * e + 1)⟩ : ℂ) =
      -complexVector els d := by
  intro d hd
  have even_odd : ∀ f : Nat → ℝ, ∑ b ∈ range (2 * n), f b =
      ∑ e ∈ range n, (f (2 * e) + f (2 * e + 1)) := by
    intro f
    rw [Nat.mul_comm 2 n, sum_range_mul n 2]
    apply sum_congr rfl; intro e _
    rw [sum_range_succ, sum_range_one, Nat.mul_comm e 2, add_zero]
  have hr := hx (2 * d) (by omega)
  have hi := hx (2 * d + 1) (by omega)
  rw [even_odd] at hr hi
  apply Complex.ext
  · rw [Complex.re_sum, Complex.neg_re, ← (C38_blocked_assembly els d 0).2.2.2.2.1, ← hr]
    apply sum_congr rfl; intro e _
    obtain ⟨a1, a2, a3, a4, -, -⟩ := C38_blocked_assembly els d e
    rw [a1, a2, Complex.mul_re]; simp only; ring
  · rw [Complex.im_sum, Complex.neg_im, ← (C38_blocked_assembly els d 0).2.2.2.2.2, ← hi]
    apply sum_congr rfl; intro e _
    obtain ⟨a1, a2, a3, a4, -, -⟩ := C38_blocked_assembly els d e
    rw [a3, a4, Complex.mul_im]; simp only; ring

/-- Finding: with libMesh's row replacement applied to each of `Re`, `-Im`, `Im` separately
(complex_assembly_base.cpp:570-572), the 2×2 block of *every* constrained dof is `[1 1; 1 1]`,
whatever the element matrix: it is singular, and the pair `(1,-1)` is in its kernel, so the real block
system does not force a constrained dof to zero. -/
theorem C38_constrained_dof_block_singular (con : Nat → Bool) (mat : Nat → Nat → ℂ) (i : Nat)
    (hi : con i = true) :
    (∀ r c, constrainedBlock con mat i i r c = 1) ∧
    (∀ j, j ≠ i → ∀ r c, constrainedBlock con mat i j r c = 0) ∧
    ∃ x : Fin 2 → ℝ, x ≠ 0 ∧ ∀ r, ∑ c, constrainedBlock con mat i i r c * x c = 0 := by
  have h1 : ∀ r c, constrainedBlock con mat i i r c = 1 := by
    intro r c
    fin_cases r <;> fin_cases c <;> simp [constrainedBlock, constrainDiag, hi]
  refine ⟨h1, ?_, fun c => if c = 0 then 1 else -1, ?_, ?_⟩
  · intro j hj r c
    fin_cases r <;> fin_cases c <;> simp [constrainedBlock, constrainDiag, hi, Ne.symm hj]
  · intro h
    have := congrFun h 0
    simp at this
  · intro r
    simp [h1, Fin.sum_univ_two]

/-- The other rows: between free dofs the block of the complex entry is kept, and free rows have no entry in the columns of constrained dofs. -/
theorem C38_constrained_free_rows (con : Nat → Bool) (mat : Nat → Nat → ℂ) (i j : Nat) (hi : con i = false) :
    (con j = false → constrainedBlock con mat i j 0 0 = (mat i j).re ∧ constrainedBlock con mat i j 0 1 = -(mat i j).im ∧ constrainedBlock con mat i j 1 0 = (mat i j).im ∧
      constrainedBlock con mat i j 1 1 = (mat i j).re) ∧
    (con j = true → ∀ r c, constrainedBlock con mat i j r c = 0) := by
  constructor
  · intro hj
    simp [constrainedBlock, constrainDiag, hi, hj]
  · intro hj r c
    fin_cases r <;> fin_cases c <;> simp [constrainedBlock, constrainDiag, hi, hj]

/-! ### Non-vacuity -/
/-- Two elements sharing dof 1. -/
noncomputable def exampleMesh : List ElemData :=
  [⟨[0, 1], fun i j => ⟨i + 2 * j, 1⟩, fun i => ⟨i, 0⟩⟩, ⟨[1, 2], fun _ _ => Complex.I, fun _ => 1⟩]

example : (blockedAssembly exampleMesh).1 2 3 = -2 := by
  have := (C38_blocked_assembly exampleMesh 1 1).2.1
  rw [show (2 : Nat) * 1 = 2 from rfl, show (2 : Nat) + 1 = 3 from rfl] at this
  rw [this]
  simp [complexMatrix, exampleMesh, sum_range_succ]
  norm_num

/-- The hypotheses of the round-trip theorems are met by any pair of sizes. -/
example : ∃ (e v : Vec ℂ) (a : Vec ℝ), v.size = e.size ∧ a.size = 2 * e.size ∧ e.size = 3 ∧
    (∀ i < 2 * e.size, a.get i = 0) ∧ e.get 1 ≠ 0 :=
  ⟨⟨3, fun _ => Complex.I⟩, ⟨3, fun _ => 0⟩, ⟨6, fun _ => 0⟩, rfl, rfl, rfl, fun _ _ => rfl, by simp⟩

/-- A solvable one-dof block system (J = [0 -1; 1 0], complex matrix `i`). -/
example : ∃ (els : List ElemData) (x : Nat → ℝ), ∀ a < 2 * 1,
    ∑ b ∈ range (2 * 1), (blockedAssembly els).1 a b * x b = -(blockedAssembly els).2 a := by
  refine ⟨[⟨[0], fun _ _ => Complex.I, fun _ => 1⟩], fun b => if b = 1 then 1 else 0, ?_⟩
  intro a ha
  obtain ⟨a1, a2, a3, a4, a5, a6⟩ := C38_blocked_assembly
    [⟨[0], fun _ _ => Complex.I, fun _ => 1⟩] 0 0
  simp only [Nat.mul_zero, Nat.zero_add] at a1 a2 a3 a4 a5 a6
  have : a = 0 ∨ a = 1 := by omega
  have c1 : complexMatrix [⟨[0], fun _ _ => Complex.I, fun _ => 1⟩] 0 0 = Complex.I := by
    simp [complexMatrix]
  have c2 : complexVector [⟨[0], fun _ _ => Complex.I, fun _ => 1⟩] 0 = 1 := by
    rw [complexVector]
    simp only [List.map_cons, List.map_nil, List.sum_cons, List.sum_nil, List.length_cons,
      List.length_nil, Nat.zero_add, sum_range_one]
    simp
  rcases this with rfl | rfl
  · rw [sum_range_succ, sum_range_one, a1, a2, a5, c1, c2]; simp
  · rw [sum_range_succ, sum_range_one, a3, a4, a6, c1, c2]; simp

end Verif.CR
