import Verif.Lib.Loops
import Verif.Model.LapackDecode
import Mathlib.Data.Complex.BigOperators
import Mathlib.Tactic.Linarith
import Mathlib.Tactic.FieldSimp
import Mathlib.Tactic.LinearCombination
/-! C09, C10: unpacking of LAPACK eigenpairs and scaling. -/
namespace Verif.Lapack
open Finset

/-! ### Specification -/
namespace Spec
/-- Contract of `?geev/?ggev` on the imaginary parts: reading from index `k`, a zero is a real eigenvalue, a
nonzero value is followed by its negative (the conjugate partner, with the same real part). -/
inductive Paired (n : Nat) (wr wi : Nat → ℝ) : Nat → Prop where
  | done : Paired n wr wi n
  | real (k : Nat) : k < n → wi k = 0 → Paired n wr wi (k + 1) → Paired n wr wi k
  | pair (k : Nat) : k + 1 < n → wi k ≠ 0 → wr (k + 1) = wr k → wi (k + 1) = -wi k →
      Paired n wr wi (k + 2) → Paired n wr wi k

/-- `(lam, v)` is a right eigenpair of the real matrix `A`. -/
def IsEig (n : Nat) (A : Nat → Nat → ℝ) (lam : ℂ) (v : Nat → ℂ) : Prop :=
  ∀ i < n, ∑ j ∈ range n, (A i j : ℂ) * v j = lam * v i

/-- LAPACK's packed convention: for a real eigenvalue column `k` is the eigenvector; for a pair
`k, k+1` the vector `v_k + i v_{k+1}` belongs to `wr + i wi`. -/
inductive PackedEig (n : Nat) (A : Nat → Nat → ℝ) (wr wi : Nat → ℝ) (v : Nat → Nat → ℝ) :
    Nat → Prop where
  | done : PackedEig n A wr wi v n
  | real (k : Nat) : k < n → wi k = 0 → IsEig n A (wr k) (fun r => (v k r : ℂ)) →
      PackedEig n A wr wi v (k + 1) → PackedEig n A wr wi v k
  | pair (k : Nat) : k + 1 < n → wi k ≠ 0 → wr (k + 1) = wr k → wi (k + 1) = -wi k →
      IsEig n A ⟨wr k, wi k⟩ (fun r => (v k r : ℂ) + (v (k + 1) r : ℂ) * Complex.I) →
      PackedEig n A wr wi v (k + 2) → PackedEig n A wr wi v k
end Spec
open Spec

/-- Conjugate of an eigenpair of a real matrix is an eigenpair. -/
private theorem conj_eig {n : Nat} {A : Nat → Nat → ℝ} {lam : ℂ} {v : Nat → ℂ}
    (h : IsEig n A lam v) :
    IsEig n A ((starRingEnd ℂ) lam) (fun r => (starRingEnd ℂ) (v r)) := by
  intro i hi
  have := congrArg (starRingEnd ℂ) (h i hi)
  rw [map_sum, map_mul] at this
  rw [← this]
  apply sum_congr rfl; intro j _
  simp

private theorem I_eq : (⟨0, 1⟩ : ℂ) = Complex.I := rfl

/-- Main loop fact: started at `k`, the loop keeps what was written before `k` and
produces, from `k` on, eigenvalues `wr + i wi` with matching eigenvectors. -/
private theorem loop_spec {n : Nat} {A : Nat → Nat → ℝ} {wr wi : Nat → ℝ} {vl vr : Nat → Nat → ℝ}
    {k : Nat} (h : PackedEig n A wr wi vr k) : ∀ (fuel : Nat) (o : Out), n ≤ fuel + k →
    ∃ o', decodeLoop n wr wi vl vr fuel k o = .ok o' ∧
      (∀ c < k, o'.W c = o.W c ∧ o'.VR c = o.VR c) ∧
      (∀ c, k ≤ c → c < n → o'.W c = ⟨wr c, wi c⟩ ∧ IsEig n A (o'.W c) (o'.VR c)) := by
  induction h with
  | done =>
    intro fuel o hf
    refine ⟨o, ?_, fun _ _ => ⟨rfl, rfl⟩, fun c h1 h2 => by omega⟩
    cases fuel <;> simp [decodeLoop]
  | real k hk hz he _ ih =>
    intro fuel o hf
    obtain ⟨f, rfl⟩ : ∃ f, fuel = f + 1 := ⟨fuel - 1, by omega⟩
    obtain ⟨o', e, h1, h2⟩ := ih f
      { W := setAt o.W k ⟨wr k, 0⟩
        VL := setCol o.VL k (fun r => (vl k r : ℂ))
        VR := setCol o.VR k (fun r => (vr k r : ℂ)) } (by omega)
    refine ⟨o', by simp [decodeLoop, hk, hz, e], fun c hc => ?_, fun c hc1 hc2 => ?_⟩
    · obtain ⟨q1, q2⟩ := h1 c (by omega)
      have : c ≠ k := by omega
      exact ⟨by rw [q1]; simp [setAt, this], by rw [q2]; funext r; simp [setCol, this]⟩
    · by_cases hck : c = k
      · subst hck
        obtain ⟨q1, q2⟩ := h1 c (by omega)
        have e1 : o'.W c = ⟨wr c, wi c⟩ := by rw [q1]; simp [setAt, hz]
        refine ⟨e1, ?_⟩
        have e2 : (o'.VR c) = fun r => (vr c r : ℂ) := by rw [q2]; funext r; simp [setCol]
        rw [e1, e2, hz]
        exact he
      · exact h2 c (by omega) hc2
  | pair k hk hz hr hi he _ ih =>
    intro fuel o hf
    obtain ⟨f, rfl⟩ : ∃ f, fuel = f + 1 := ⟨fuel - 1, by omega⟩
    obtain ⟨o', e, h1, h2⟩ := ih f
      { W := setAt (setAt o.W k ⟨wr k, wi k⟩) (k + 1) ⟨wr k, -wi k⟩
        VL := setCol (setCol o.VL k (fun r => (vl k r : ℂ) + (vl (k + 1) r : ℂ) * ⟨0, 1⟩))
                (k + 1) (fun r => (vl k r : ℂ) - (vl (k + 1) r : ℂ) * ⟨0, 1⟩)
        VR := setCol (setCol o.VR k (fun r => (vr k r : ℂ) + (vr (k + 1) r : ℂ) * ⟨0, 1⟩))
                (k + 1) (fun r => (vr k r : ℂ) - (vr (k + 1) r : ℂ) * ⟨0, 1⟩) } (by omega)
    refine ⟨o', ?_, fun c hc => ?_, fun c hc1 hc2 => ?_⟩
    · have : k < n := by omega
      simp only [decodeLoop, this, hz, hk, if_true, ne_eq, not_false_iff]
      exact e
    · obtain ⟨q1, q2⟩ := h1 c (by omega)
      have a1 : c ≠ k := by omega
      have a2 : c ≠ k + 1 := by omega
      exact ⟨by rw [q1]; simp [setAt, a1, a2], by rw [q2]; funext r; simp [setCol, a1, a2]⟩
    · by_cases hck : c = k
      · subst hck
        obtain ⟨q1, q2⟩ := h1 c (by omega)
        have a2 : c ≠ c + 1 := by omega
        have e1 : o'.W c = ⟨wr c, wi c⟩ := by rw [q1]; simp [setAt]
        refine ⟨e1, ?_⟩
        have e2 : (o'.VR c) = fun r => (vr c r : ℂ) + (vr (c + 1) r : ℂ) * Complex.I := by
          rw [q2]; funext r; simp [setCol, I_eq]
        rw [e1, e2]; exact he
      · by_cases hck' : c = k + 1
        · subst hck'
          obtain ⟨q1, q2⟩ := h1 (k + 1) (by omega)
          have e1 : o'.W (k + 1) = ⟨wr k, -wi k⟩ := by rw [q1]; simp [setAt]
          refine ⟨by rw [e1, hr, hi], ?_⟩
          have e2 : (o'.VR (k + 1)) = fun r => (vr k r : ℂ) - (vr (k + 1) r : ℂ) * Complex.I := by
            rw [q2]; funext r; simp [setCol, I_eq]
          have hc := conj_eig he
          rw [e1, e2]
          have l : (starRingEnd ℂ) (⟨wr k, wi k⟩ : ℂ) = ⟨wr k, -wi k⟩ := rfl
          rw [l] at hc
          intro i hi'
          have := hc i hi'
          simp only [map_add, map_mul, Complex.conj_ofReal, Complex.conj_I] at this
          rw [← sub_eq_zero] at this ⊢
          rw [← this]
          congr 1
          · apply sum_congr rfl; intro j _; ring
          · ring
        · exact h2 c (by omega) hc2

/-- C09. If LAPACK returns packed eigenvectors of the real matrix `A`, the interface delivers, for every
column, the eigenvalue `wr + i wi` and a right eigenvector belonging to it; no access is out of bounds. -/
theorem C09_decode_eigenpairs (n : Nat) (A : Nat → Nat → ℝ) (wr wi : Nat → ℝ)
    (vl vr : Nat → Nat → ℝ) (h : PackedEig n A wr wi vr 0) :
    ∃ o, decode n wr wi vl vr = .ok o ∧
      ∀ c < n, o.W c = ⟨wr c, wi c⟩ ∧ IsEig n A (o.W c) (o.VR c) := by
  obtain ⟨o, e, -, h2⟩ := loop_spec (vl := vl) h n
    ⟨fun _ => 0, fun _ _ => 0, fun _ _ => 0⟩ (by omega)
  exact ⟨o, e, fun c hc => h2 c (by omega) hc⟩

private theorem loop_pairs {n : Nat} {wr wi : Nat → ℝ} {vl vr : Nat → Nat → ℝ}
    {k : Nat} (h : Paired n wr wi k) : ∀ (fuel : Nat) (o : Out), n ≤ fuel + k →
    ∃ o', decodeLoop n wr wi vl vr fuel k o = .ok o' ∧
      (∀ c < k, o'.VL c = o.VL c ∧ o'.VR c = o.VR c) ∧
      (∀ c, k ≤ c → c < n → wi c = 0 → (∀ r, o'.VL c r = vl c r) ∧ (∀ r, o'.VR c r = vr c r)) ∧
      (∀ c, k ≤ c → c < n → wi c ≠ 0 → ∃ c', k ≤ c' ∧ c' < n ∧ c' ≠ c ∧ wi c' = -wi c ∧
        (∀ r, o'.VL c' r = (starRingEnd ℂ) (o'.VL c r)) ∧
        (∀ r, o'.VR c' r = (starRingEnd ℂ) (o'.VR c r)) ∧
        (∀ r, (o'.VL c r).re = vl (min c c') r ∧ (o'.VR c r).re = vr (min c c') r)) := by
  induction h with
  | done =>
    intro fuel o hf
    refine ⟨o, ?_, fun _ _ => ⟨rfl, rfl⟩, fun c h1 h2 => by omega, fun c h1 h2 => by omega⟩
    cases fuel <;> simp [decodeLoop]
  | real k hk hz _ ih =>
    intro fuel o hf
    obtain ⟨f, rfl⟩ : ∃ f, fuel = f + 1 := ⟨fuel - 1, by omega⟩
    obtain ⟨o', e, h1, h2, h3⟩ := ih f
      { W := setAt o.W k ⟨wr k, 0⟩
        VL := setCol o.VL k (fun r => (vl k r : ℂ))
        VR := setCol o.VR k (fun r => (vr k r : ℂ)) } (by omega)
    refine ⟨o', by simp [decodeLoop, hk, hz, e], fun c hc => ?_, fun c hc1 hc2 hz' => ?_,
      fun c hc1 hc2 hz' => ?_⟩
    · obtain ⟨q1, q2⟩ := h1 c (by omega)
      have : c ≠ k := by omega
      exact ⟨by rw [q1]; funext r; simp [setCol, this], by rw [q2]; funext r; simp [setCol, this]⟩
    · by_cases hck : c = k
      · subst hck
        obtain ⟨q1, q2⟩ := h1 c (by omega)
        exact ⟨fun r => by rw [q1]; simp [setCol], fun r => by rw [q2]; simp [setCol]⟩
      · exact h2 c (by omega) hc2 hz'
    · have : c ≠ k := by rintro rfl; exact hz' hz
      obtain ⟨c', p1, p2, p3⟩ := h3 c (by omega) hc2 hz'
      exact ⟨c', by omega, p2, p3⟩
  | pair k hk hz hr hi _ ih =>
    intro fuel o hf
    obtain ⟨f, rfl⟩ : ∃ f, fuel = f + 1 := ⟨fuel - 1, by omega⟩
    obtain ⟨o', e, h1, h2, h3⟩ := ih f
      { W := setAt (setAt o.W k ⟨wr k, wi k⟩) (k + 1) ⟨wr k, -wi k⟩
        VL := setCol (setCol o.VL k (fun r => (vl k r : ℂ) + (vl (k + 1) r : ℂ) * ⟨0, 1⟩))
                (k + 1) (fun r => (vl k r : ℂ) - (vl (k + 1) r : ℂ) * ⟨0, 1⟩)
        VR := setCol (setCol o.VR k (fun r => (vr k r : ℂ) + (vr (k + 1) r : ℂ) * ⟨0, 1⟩))
                (k + 1) (fun r => (vr k r : ℂ) - (vr (k + 1) r : ℂ) * ⟨0, 1⟩) } (by omega)
    have wk1 : wi (k + 1) ≠ 0 := by rw [hi]; exact neg_ne_zero.2 hz
    obtain ⟨qa1, qa2⟩ := h1 k (by omega)
    obtain ⟨qb1, qb2⟩ := h1 (k + 1) (by omega)
    have VLk : ∀ r, o'.VL k r = (vl k r : ℂ) + (vl (k + 1) r : ℂ) * Complex.I := by
      intro r; rw [qa1]; simp [setCol, I_eq]
    have VRk : ∀ r, o'.VR k r = (vr k r : ℂ) + (vr (k + 1) r : ℂ) * Complex.I := by
      intro r; rw [qa2]; simp [setCol, I_eq]
    have VLk1 : ∀ r, o'.VL (k + 1) r = (vl k r : ℂ) - (vl (k + 1) r : ℂ) * Complex.I := by
      intro r; rw [qb1]; simp [setCol, I_eq]
    have VRk1 : ∀ r, o'.VR (k + 1) r = (vr k r : ℂ) - (vr (k + 1) r : ℂ) * Complex.I := by
      intro r; rw [qb2]; simp [setCol, I_eq]
    refine ⟨o', ?_, fun c hc => ?_, fun c hc1 hc2 hz' => ?_, fun c hc1 hc2 hz' => ?_⟩
    · have : k < n := by omega
      simp only [decodeLoop, this, hz, hk, if_true, ne_eq, not_false_iff]
      exact e
    · obtain ⟨q1, q2⟩ := h1 c (by omega)
      have a1 : c ≠ k := by omega
      have a2 : c ≠ k + 1 := by omega
      exact ⟨by rw [q1]; funext r; simp [setCol, a1, a2],
        by rw [q2]; funext r; simp [setCol, a1, a2]⟩
    · have a1 : c ≠ k := by rintro rfl; exact hz hz'
      have a2 : c ≠ k + 1 := by rintro rfl; exact wk1 hz'
      exact h2 c (by omega) hc2 hz'
    · by_cases hck : c = k
      · subst hck
        refine ⟨c + 1, by omega, hk, by omega, hi, fun r => ?_, fun r => ?_, fun r => ?_⟩
        · rw [VLk1, VLk]; simp [sub_eq_add_neg]
        · rw [VRk1, VRk]; simp [sub_eq_add_neg]
        · rw [VLk, VRk, min_eq_left (by omega)]; simp
      · by_cases hck' : c = k + 1
        · subst hck'
          refine ⟨k, by omega, by omega, by omega, by rw [hi, neg_neg], fun r => ?_, fun r => ?_,
            fun r => ?_⟩
          · rw [VLk1, VLk]; simp [sub_eq_add_neg]
          · rw [VRk1, VRk]; simp [sub_eq_add_neg]
          · rw [VLk1, VRk1, min_eq_right (by omega)]; simp
        · obtain ⟨c', p1, p2, p3⟩ := h3 c (by omega) hc2 hz'
          exact ⟨c', by omega, p2, p3⟩

/-- C09. For every pattern of real eigenvalues and conjugate pairs: columns of real eigenvalues are LAPACK's columns, every
nonreal eigenvalue has exactly a partner column which is its entrywise complex conjugate (left and right). -/
theorem C09_decode_conjugate_pairs (n : Nat) (wr wi : Nat → ℝ) (vl vr : Nat → Nat → ℝ)
    (h : Paired n wr wi 0) :
    ∃ o, decode n wr wi vl vr = .ok o ∧
      (∀ c < n, wi c = 0 → (∀ r, o.VL c r = vl c r) ∧ (∀ r, o.VR c r = vr c r)) ∧
      (∀ c < n, wi c ≠ 0 → ∃ c' < n, c' ≠ c ∧ wi c' = -wi c ∧
        (∀ r, o.VL c' r = (starRingEnd ℂ) (o.VL c r)) ∧
        (∀ r, o.VR c' r = (starRingEnd ℂ) (o.VR c r)) ∧
        (∀ r, (o.VL c r).re = vl (min c c') r ∧ (o.VR c r).re = vr (min c c') r)) := by
  obtain ⟨o, e, -, h2, h3⟩ := loop_pairs (vl := vl) (vr := vr) h n
    ⟨fun _ => 0, fun _ _ => 0, fun _ _ => 0⟩ (by omega)
  refine ⟨o, e, fun c hc => h2 c (by omega) hc, fun c hc hz => ?_⟩
  obtain ⟨c', p1, p2, p3⟩ := h3 c (by omega) hc hz
  exact ⟨c', p2, p3⟩

/-- Without LAPACK's pairing contract the loop is unsafe: a nonzero imaginary part in the last position is
an out-of-bounds access. -/
theorem C09_unpaired_last_is_ub (wr : Nat → ℝ) (vl vr : Nat → Nat → ℝ) (x : ℝ) (hx : x ≠ 0) :
    decode 1 wr (fun _ => x) vl vr = .error .ub := by
  simp [decode, decodeLoop, hx]

/-- C10. After scaling, `conj(VL_i)ᵀ B VR_i = 1` for every column whose product was nonzero; every column of
`VR` is a scalar multiple of the original one, so eigenvectors remain eigenvectors. -/
theorem C10_scaled_inner_product (n : Nat) (B VL VR : Nat → Nat → ℂ) (i : Nat) (hi : i < n) :
    (∃ s : ℂ, ∀ t, scale n B VL VR i t = VR i t * s) ∧
    ((∑ a ∈ range n, ∑ b ∈ range n, (starRingEnd ℂ) (VL i a) * B a b * VR i b) ≠ 0 →
      ∑ a ∈ range n, ∑ b ∈ range n, (starRingEnd ℂ) (VL i a) * B a b * scale n B VL VR i b = 1) := by
  classical
  set r : Nat → ℂ := fun i => ∑ a ∈ Finset.range n, ∑ b ∈ Finset.range n,
    (starRingEnd ℂ) (VL i a) * B a b * VR i b with hr
  have key : ∀ t, scale n B VL VR i t = VR i t * (if r i ≠ 0 then 1 / r i else 1) := by
    have := loop_inv (fun k (V : Nat → Nat → ℂ) =>
        ∀ c t, V c t = if c < k then VR c t * (if r c ≠ 0 then 1 / r c else 1) else VR c t) n
      (fun i V => if r i ≠ 0 then setCol V i (fun t => V i t * (1 / r i)) else V) VR
      (by simp) (by
        intro k V hk ih c t
        by_cases hrk : r k ≠ 0
        · rw [if_pos hrk]
          by_cases e : c = k
          · subst e
            simp only [setCol, if_true]
            rw [ih c t, if_neg (by omega), if_pos (by omega), if_pos hrk]
          · simp only [setCol, e, if_false]
            rw [ih c t]
            by_cases l : c < k
            · rw [if_pos l, if_pos (show c < k + 1 by omega)]
            · rw [if_neg l, if_neg (by omega)]
        · rw [if_neg hrk, ih c t]
          by_cases e : c = k
          · subst e; rw [if_neg (by omega), if_pos (by omega), if_neg hrk, mul_one]
          · by_cases l : c < k
            · rw [if_pos l, if_pos (show c < k + 1 by omega)]
            · rw [if_neg l, if_neg (by omega)])
    intro t
    have h2 := this i t
    rw [if_pos hi] at h2
    exact h2
  refine ⟨⟨_, key⟩, fun hne => ?_⟩
  have hne' : r i ≠ 0 := hne
  have : ∑ a ∈ range n, ∑ b ∈ range n, (starRingEnd ℂ) (VL i a) * B a b * scale n B VL VR i b =
      r i * (1 / r i) := by
    rw [hr, sum_mul]
    apply sum_congr rfl; intro a _
    rw [sum_mul]
    apply sum_congr rfl; intro b _
    rw [key b, if_pos hne']; ring
  rw [this]; field_simp

/-! ### Non-vacuity: the rotation matrix [[0,-1],[1,0]] with eigenvalues ±i followed by a real one. -/
example : Paired 3 (fun c => if c = 2 then 5 else 0)
    (fun c => if c = 0 then 1 else if c = 1 then -1 else 0) 0 :=
  .pair 0 (by omega) (by simp) (by simp) (by simp) (.real 2 (by omega) (by simp) .done)

example : PackedEig 2 (fun i j => if i = 0 ∧ j = 1 then -1 else if i = 1 ∧ j = 0 then 1 else 0)
    (fun _ => 0) (fun c => if c = 0 then 1 else -1)
    (fun c r => if c = 0 ∧ r = 0 then 1 else if c = 1 ∧ r = 1 then -1 else 0) 0 := by
  refine .pair 0 (by omega) (by simp) rfl (by simp) ?_ .done
  have hI : (⟨0, 1⟩ : ℂ) = Complex.I := rfl
  intro i hi
  have : i = 0 ∨ i = 1 := by omega
  rcases this with rfl | rfl
  · simp [sum_range_succ, hI]
  · simp [sum_range_succ, hI]

end Verif.Lapack
