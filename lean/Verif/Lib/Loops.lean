import Verif.Model.Exec
import Mathlib.Algebra.BigOperators.Group.Finset.Basic
import Mathlib.Algebra.BigOperators.Intervals
import Mathlib.Algebra.BigOperators.Ring.Finset
import Mathlib.Tactic.Ring
/-! Helper lemmas about the loop combinators (no properties of the code here). -/
namespace Verif
open Finset

/-- Invariant rule for possibly-failing loops. -/
theorem loopE_inv {σ : Type _} (P : Nat → σ → Prop) (n : Nat) (body : Nat → σ → Exec σ) (s : σ)
    (h0 : P 0 s)
    (hs : ∀ i s, i < n → P i s → ∃ s', body i s = .ok s' ∧ P (i + 1) s') :
    ∃ s', loopE n body s = .ok s' ∧ P n s' := by
  induction n with
  | zero => exact ⟨s, rfl, h0⟩
  | succ n ih =>
    obtain ⟨s1, h1, p1⟩ := ih (fun i s hi hp => hs i s (Nat.lt_succ_of_lt hi) hp)
    obtain ⟨s2, h2, p2⟩ := hs n s1 (Nat.lt_succ_self n) p1
    refine ⟨s2, ?_, p2⟩
    simp only [loopE, h1]
    exact h2

theorem loop_inv {σ : Type _} (P : Nat → σ → Prop) (n : Nat) (body : Nat → σ → σ) (s : σ)
    (h0 : P 0 s) (hs : ∀ i s, i < n → P i s → P (i + 1) (body i s)) :
    P n (loop n body s) := by
  induction n with
  | zero => exact h0
  | succ n ih =>
    exact hs n _ (Nat.lt_succ_self n) (ih (fun i s hi hp => hs i s (Nat.lt_succ_of_lt hi) hp))

theorem loop_add {K : Type _} [AddCommMonoid K] (n : Nat) (g : Nat → K) (s : K) :
    loop n (fun i t => t + g i) s = s + ∑ i ∈ range n, g i := by
  induction n with
  | zero => simp [loop]
  | succ n ih => simp [loop, ih, sum_range_succ, add_assoc]

theorem assert_ok {c : Prop} [Decidable c] (h : c) : assert c = .ok () := by simp [assert, h]

namespace Vec
variable {K : Type _}
theorem read_ok {v : Vec K} {i : Nat} (h : i < v.size) : v.read i = .ok (v.get i) := by
  simp [read, h]
theorem write_ok {v : Vec K} {i : Nat} (h : i < v.size) (x : K) :
    v.write i x = .ok { v with get := fun j => if j = i then x else v.get j } := by
  simp [write, h]
theorem addAt_ok [Add K] {v : Vec K} {i : Nat} (h : i < v.size) (x : K) :
    v.addAt i x = .ok { v with get := fun j => if j = i then v.get i + x else v.get j } := by
  simp [addAt, read, write, h, bind, Except.bind]
end Vec
namespace Mat
variable {K : Type _}
theorem read_ok {m : Mat K} {i j : Nat} (h : i < m.rows) (h' : j < m.cols) :
    m.read i j = .ok (m.get i j) := by
  simp [read, h, h']
theorem write_ok {m : Mat K} {i j : Nat} (h : i < m.rows) (h' : j < m.cols) (x : K) :
    m.write i j x = .ok { m with get := fun a b => if a = i ∧ b = j then x else m.get a b } := by
  simp [write, h, h']
theorem addAt_ok [Add K] {m : Mat K} {i j : Nat} (h : i < m.rows) (h' : j < m.cols) (x : K) :
    m.addAt i j x =
      .ok { m with get := fun a b => if a = i ∧ b = j then m.get i j + x else m.get a b } := by
  simp [addAt, read, write, h, h', bind, Except.bind]
end Mat

/-- A loop that only accumulates into vector entries: final entry = initial + sum of contributions. -/
theorem loopE_vec_accum {K : Type _} [AddCommMonoid K] (sz n : Nat)
    (body : Nat → Vec K → Exec (Vec K)) (c : Nat → Nat → K)
    (hb : ∀ i, i < n → ∀ v : Vec K, v.size = sz →
      ∃ v', body i v = .ok v' ∧ v'.size = sz ∧ ∀ a < sz, v'.get a = v.get a + c i a)
    (v : Vec K) (hv : v.size = sz) :
    ∃ v', loopE n body v = .ok v' ∧ v'.size = sz ∧
      ∀ a < sz, v'.get a = v.get a + ∑ i ∈ range n, c i a := by
  have := loopE_inv (fun i (w : Vec K) => w.size = sz ∧
      ∀ a < sz, w.get a = v.get a + ∑ t ∈ range i, c t a) n body v ⟨hv, by simp⟩ ?_
  · obtain ⟨s', h1, h2, h3⟩ := this
    exact ⟨s', h1, h2, h3⟩
  · rintro i s hi ⟨h1, h2⟩
    obtain ⟨v', e, hs, hg⟩ := hb i hi s h1
    refine ⟨v', e, hs, fun a ha => ?_⟩
    rw [hg a ha, h2 a ha, sum_range_succ, add_assoc]

theorem loopE_mat_accum {K : Type _} [AddCommMonoid K] (r q n : Nat)
    (body : Nat → Mat K → Exec (Mat K)) (c : Nat → Nat → Nat → K)
    (hb : ∀ i, i < n → ∀ v : Mat K, v.rows = r → v.cols = q →
      ∃ v', body i v = .ok v' ∧ v'.rows = r ∧ v'.cols = q ∧
        ∀ a < r, ∀ b < q, v'.get a b = v.get a b + c i a b)
    (v : Mat K) (hr : v.rows = r) (hq : v.cols = q) :
    ∃ v', loopE n body v = .ok v' ∧ v'.rows = r ∧ v'.cols = q ∧
      ∀ a < r, ∀ b < q, v'.get a b = v.get a b + ∑ i ∈ range n, c i a b := by
  have := loopE_inv (fun i (w : Mat K) => w.rows = r ∧ w.cols = q ∧
      ∀ a < r, ∀ b < q, w.get a b = v.get a b + ∑ t ∈ range i, c t a b) n body v
      ⟨hr, hq, by simp⟩ ?_
  · obtain ⟨s', h1, h2, h3, h4⟩ := this
    exact ⟨s', h1, h2, h3, h4⟩
  · rintro i s hi ⟨h1, h2, h3⟩
    obtain ⟨v', e, hs, hs', hg⟩ := hb i hi s h1 h2
    refine ⟨v', e, hs, hs', fun a ha b hb => ?_⟩
    rw [hg a ha b hb, h3 a ha b hb, sum_range_succ, add_assoc]

/-- `∑_{t < a*b}` split into blocks of size `b`. -/
theorem sum_range_mul {K : Type _} [AddCommMonoid K] (a b : Nat) (f : Nat → K) :
    ∑ t ∈ range (a * b), f t = ∑ j ∈ range a, ∑ k ∈ range b, f (j * b + k) := by
  induction a with
  | zero => simp
  | succ a ih => rw [Nat.succ_mul, sum_range_add, ih, sum_range_succ]

theorem block_lt {a b j k : Nat} (hj : j < a) (hk : k < b) : j * b + k < a * b := by
  calc j * b + k < j * b + b := by omega
    _ = (j + 1) * b := by ring
    _ ≤ a * b := Nat.mul_le_mul_right _ hj

theorem block_inj {b j k j' k' : Nat} (hk : k < b) (hk' : k' < b)
    (h : j * b + k = j' * b + k') : j = j' ∧ k = k' := by
  have hb : 0 < b := by omega
  have e1 : (j * b + k) / b = j := by
    rw [Nat.add_comm, Nat.add_mul_div_right _ _ hb, Nat.div_eq_of_lt hk]; omega
  have e2 : (j' * b + k') / b = j' := by
    rw [Nat.add_comm, Nat.add_mul_div_right _ _ hb, Nat.div_eq_of_lt hk']; omega
  have : j = j' := by rw [← e1, h, e2]
  subst this
  exact ⟨rfl, by omega⟩

theorem block_div {b j k : Nat} (hk : k < b) : (j * b + k) / b = j := by
  have hb : 0 < b := by omega
  rw [Nat.add_comm, Nat.add_mul_div_right _ _ hb, Nat.div_eq_of_lt hk]; omega

theorem block_mod {b j k : Nat} (hk : k < b) : (j * b + k) % b = k := by
  rw [Nat.add_comm, Nat.add_mul_mod_self_right, Nat.mod_eq_of_lt hk]

end Verif
