import Verif.Lib.Loops
import Verif.Model.FemOperator
namespace Verif.Fem
open Finset
variable {K : Type _}

section
variable [CommSemiring K]

/-- Representation relation between an operator and a dense matrix `B`. -/
structure Rep (o : Op K) (B : Nat → Nat → K) : Prop where
  size : o.store.size = o.nI * o.nD
  none : ∀ i < o.nI, ∀ j < o.nD, o.store.get (j * o.nI + i) = none →
    ∀ k < o.nd, B i (j * o.nd + k) = 0
  some : ∀ i < o.nI, ∀ j < o.nD, ∀ N, o.store.get (j * o.nI + i) = some N →
    N.size = o.nd ∧ ∀ k < o.nd, B i (j * o.nd + k) = N.get k

omit [CommSemiring K] in
theorem idx_lt {o : Op K} {i j : Nat} (hs : o.store.size = o.nI * o.nD) (hi : i < o.nI)
    (hj : j < o.nD) : j * o.nI + i < o.store.size := by
  rw [hs, Nat.mul_comm o.nI]; exact block_lt hj hi

theorem vec_body (o : Op K) (B : Nat → Nat → K) (R : Rep o B) (sz : Nat)
    (tgt : Nat → Nat → Nat → Nat) (x : Nat → Nat → Nat → K)
    (rd : Nat → Nat → Nat → Exec K)
    (hrd : ∀ i < o.nI, ∀ j < o.nD, ∀ k < o.nd, rd i j k = .ok (x i j k))
    (ht : ∀ i < o.nI, ∀ j < o.nD, ∀ k < o.nd, tgt i j k < sz)
    (v : Vec K) (hv : v.size = sz) :
    ∃ v', loopE o.nI (fun i res =>
      loopE o.nD (fun j res => do
        match ← o.store.read (j * o.nI + i) with
        | none => return res
        | some N =>
          loopE o.nd (fun k res => do
            let s ← N.read k
            let x ← rd i j k
            res.addAt (tgt i j k) (s * x)) res) res) v = .ok v' ∧ v'.size = sz ∧
      ∀ a < sz, v'.get a = v.get a + ∑ i ∈ range o.nI, ∑ j ∈ range o.nD, ∑ k ∈ range o.nd,
        if a = tgt i j k then B i (j * o.nd + k) * x i j k else 0 := by
  apply loopE_vec_accum sz _ _ _ _ v hv
  intro i hi v hv
  apply loopE_vec_accum sz _ _ _ _ v hv
  intro j hj v hv
  have hrd' := Vec.read_ok (idx_lt R.size hi hj)
  simp only [hrd', bind, Except.bind]
  cases hN : o.store.get (j * o.nI + i) with
  | none =>
    refine ⟨v, rfl, hv, fun a _ => ?_⟩
    rw [sum_eq_zero, add_zero]
    intro k hk
    rw [R.none i hi j hj hN k (mem_range.1 hk)]; simp
  | some N =>
    obtain ⟨hsz, hB⟩ := R.some i hi j hj N hN
    apply loopE_vec_accum sz _ _ _ _ v hv
    intro k hk v hv
    have h1 : N.read k = .ok (N.get k) := Vec.read_ok (by omega)
    simp only [h1, hrd i hi j hj k hk]
    rw [Vec.addAt_ok (by rw [hv]; exact ht i hi j hj k hk)]
    refine ⟨_, rfl, hv, fun a _ => ?_⟩
    simp only
    by_cases e : a = tgt i j k
    · subst e; simp [hB k hk]
    · simp [e]

theorem mat_body (o : Op K) (B : Nat → Nat → K) (R : Rep o B) (r q nl : Nat)
    (tr tc : Nat → Nat → Nat → Nat → Nat) (x : Nat → Nat → Nat → Nat → K)
    (rd : Nat → Nat → Nat → Nat → Exec K)
    (hrd : ∀ i < o.nI, ∀ j < o.nD, ∀ l < nl, ∀ k < o.nd, rd i j l k = .ok (x i j l k))
    (hr : ∀ i < o.nI, ∀ j < o.nD, ∀ l < nl, ∀ k < o.nd, tr i j l k < r)
    (hc : ∀ i < o.nI, ∀ j < o.nD, ∀ l < nl, ∀ k < o.nd, tc i j l k < q)
    (v : Mat K) (hvr : v.rows = r) (hvc : v.cols = q) :
    ∃ v', loopE o.nI (fun i res =>
      loopE o.nD (fun j res => do
        match ← o.store.read (j * o.nI + i) with
        | none => return res
        | some N =>
          loopE nl (fun l res =>
            loopE o.nd (fun k res => do
              let s ← N.read k
              let x ← rd i j l k
              res.addAt (tr i j l k) (tc i j l k) (s * x)) res) res) res) v = .ok v' ∧
      v'.rows = r ∧ v'.cols = q ∧
      ∀ a < r, ∀ b < q, v'.get a b = v.get a b +
        ∑ i ∈ range o.nI, ∑ j ∈ range o.nD, ∑ l ∈ range nl, ∑ k ∈ range o.nd,
        if a = tr i j l k ∧ b = tc i j l k then B i (j * o.nd + k) * x i j l k else 0 := by
  apply loopE_mat_accum r q _ _ _ _ v hvr hvc
  intro i hi v hvr hvc
  apply loopE_mat_accum r q _ _ _ _ v hvr hvc
  intro j hj v hvr hvc
  have hrd' := Vec.read_ok (idx_lt R.size hi hj)
  simp only [hrd', bind, Except.bind]
  cases hN : o.store.get (j * o.nI + i) with
  | none =>
    refine ⟨v, rfl, hvr, hvc, fun a _ b _ => ?_⟩
    rw [sum_eq_zero, add_zero]
    intro l hl
    apply sum_eq_zero
    intro k hk
    rw [R.none i hi j hj hN k (mem_range.1 hk)]; simp
  | some N =>
    obtain ⟨hsz, hB⟩ := R.some i hi j hj N hN
    apply loopE_mat_accum r q _ _ _ _ v hvr hvc
    intro l hl v hvr hvc
    apply loopE_mat_accum r q _ _ _ _ v hvr hvc
    intro k hk v hvr hvc
    have h1 : N.read k = .ok (N.get k) := Vec.read_ok (by omega)
    simp only [h1, hrd i hi j hj l hl k hk]
    rw [Mat.addAt_ok (by rw [hvr]; exact hr i hi j hj l hl k hk)
      (by rw [hvc]; exact hc i hi j hj l hl k hk)]
    refine ⟨_, rfl, hvr, hvc, fun a _ b _ => ?_⟩
    simp only
    by_cases e : a = tr i j l k ∧ b = tc i j l k
    · obtain ⟨e1, e2⟩ := e; subst e1; subst e2; simp [hB k hk]
    · simp [e]

theorem sum_block_ite (nD nd : Nat) (a : Nat) (ha : a < nD * nd) (f : Nat → K) :
    (∑ j ∈ range nD, ∑ k ∈ range nd, if a = j * nd + k then f (j * nd + k) else 0) = f a := by
  rw [← sum_range_mul nD nd (fun t => if a = t then f t else 0)]
  rw [sum_ite_eq]; simp [ha]

end
end Verif.Fem
