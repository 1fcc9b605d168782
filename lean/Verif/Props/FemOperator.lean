import Verif.Lib.FemOperatorLemmas
import Mathlib.Data.Rat.Defs
/-!
  C01–C04: `FEMOperatorMatrix` behaves as the dense matrix built by its call history.
-/
namespace Verif.Fem
open Finset

/-! ### Specification: the dense matrix a history of calls denotes -/
namespace Spec

/-- A dense matrix with `m` rows, organised in `nD` column blocks of width `nd`. -/
structure Dense (K : Type _) where
  m : Nat
  nD : Nat
  nd : Nat
  B : Nat → Nat → K

variable {K : Type _} [Zero K]

/-- Meaning of one call. `setShape i j N` overwrites columns `j*nd … j*nd+nd-1` of row `i` by `N`;
`reinitDiag n N` is the block diagonal matrix with `n` copies of the row `N`. -/
def Dense.step (d : Dense K) : Call K → Dense K
  | .clear => ⟨0, 0, 0, fun _ _ => 0⟩
  | .reinit nI nD nd => ⟨nI, nD, nd, fun _ _ => 0⟩
  | .reinitDiag n N => ⟨n, n, N.size, fun i c => if c / N.size = i then N.get (c % N.size) else 0⟩
  | .setShape i j N =>
      { d with B := fun a c => if a = i ∧ c / d.nd = j then N.get (c % d.nd) else d.B a c }

/-- Meaning of a history. -/
def Dense.run (h : List (Call K)) : Dense K := h.foldl Dense.step ⟨0, 0, 0, fun _ _ => 0⟩

/-- A call is legal in a state when its indices are in range and the shape function vector has the
declared length (the last condition is not checked by the code, see `setShape_wrong_size_ub`). -/
def legal (d : Dense K) : Call K → Prop
  | .setShape i j N => i < d.m ∧ j < d.nD ∧ N.size = d.nd
  | _ => True

/-- Every call of the history is legal where it is made. -/
def LegalFrom : Dense K → List (Call K) → Prop
  | _, [] => True
  | d, c :: h => legal d c ∧ LegalFrom (d.step c) h

def Legal (h : List (Call K)) : Prop := LegalFrom ⟨0, 0, 0, fun _ _ => 0⟩ h

/-- Total number of columns. -/
def Dense.n (d : Dense K) : Nat := d.nD * d.nd

end Spec
open Spec
variable {K : Type _} [CommSemiring K]

/-- Concrete object and dense matrix agree. -/
private structure Sim (o : Op K) (d : Dense K) : Prop where
  m : o.nI = d.m
  nD : o.nD = d.nD
  nd : o.nd = d.nd
  rep : Rep o d.B

private theorem step_sim (o : Op K) (d : Dense K) (h : Sim o d) (c : Call K) (hl : legal d c) :
    ∃ o', o.step c = .ok o' ∧ Sim o' (d.step c) := by
  cases c with
  | clear =>
    exact ⟨_, rfl, rfl, rfl, rfl, ⟨rfl, by intro i hi; simp [Op.empty] at hi, by intro i hi; simp [Op.empty] at hi⟩⟩
  | reinit nI nD nd =>
    refine ⟨_, rfl, rfl, rfl, rfl, ⟨rfl, ?_, ?_⟩⟩
    · intros; rfl
    · intro i _ j _ N hN; simp [Op.reinit] at hN
  | reinitDiag n N =>
    have := loopE_inv (fun t (s : Vec (Option (Vec K))) => s.size = n * n ∧
        ∀ i < n, ∀ j < n, s.get (j * n + i) = if i = j ∧ i < t then some N else none) n
      (fun i s => s.write (i * n + i) (some N)) { size := n * n, get := fun _ => none }
      ⟨rfl, by simp⟩ ?_
    · obtain ⟨s', e, hs, hg⟩ := this
      refine ⟨{ nI := n, nD := n, nd := N.size, store := s' }, ?_, rfl, rfl, rfl, ⟨hs, ?_, ?_⟩⟩
      · simp [Op.step, Op.reinitDiag, e, bind, Except.bind, pure, Except.pure]
      · intro i hi j hj hn k hk
        simp only at hi hj hn hk
        rw [hg i hi j hj] at hn
        simp only [Dense.step, block_div hk]
        by_cases e : i = j
        · subst e; simp [hi] at hn
        · simp [Ne.symm e]
      · intro i hi j hj M hM
        simp only at hi hj hM
        rw [hg i hi j hj] at hM
        by_cases e : i = j
        · subst e
          simp [hi] at hM
          subst hM
          refine ⟨rfl, fun k hk => ?_⟩
          simp only [Dense.step, block_div hk, block_mod hk]; simp
        · simp [e] at hM
    · rintro t s ht ⟨hs, hg⟩
      rw [Vec.write_ok (by rw [hs]; exact block_lt ht ht)]
      refine ⟨_, rfl, hs, fun i hi j hj => ?_⟩
      simp only
      by_cases e : j * n + i = t * n + t
      · obtain ⟨e1, e2⟩ := block_inj hi ht e
        subst e1; subst e2; simp
      · rw [if_neg e, hg i hi j hj]
        by_cases e' : i = j
        · subst e'
          have : i ≠ t := by rintro rfl; exact e rfl
          have : (i < t ↔ i < t + 1) := by omega
          simp [this]
        · simp [e']
  | setShape i j N =>
    obtain ⟨hi, hj, hN⟩ := hl
    obtain ⟨hm, hnD, hnd, hrep⟩ := h
    have hi' : i < o.nI := hm ▸ hi
    have hj' : j < o.nD := hnD ▸ hj
    have hlt := idx_lt hrep.size hi' hj'
    refine ⟨{ o with store := { o.store with
        get := fun t => if t = j * o.nI + i then some N else o.store.get t } }, ?_, hm, hnD, hnd, ⟨hrep.size, ?_, ?_⟩⟩
    · have h0 : o.store.size ≠ 0 := by omega
      simp only [Op.step, Op.setShape]
      rw [assert_ok h0, assert_ok hi', assert_ok hj', Vec.write_ok hlt]
      rfl
    · intro a ha b hb hn k hk
      simp only at ha hb hn hk
      simp only [Dense.step]
      have hk' : k < d.nd := hnd ▸ hk
      rw [hnd, block_div hk', block_mod hk']
      by_cases e : b * o.nI + a = j * o.nI + i
      · rw [if_pos e] at hn; cases hn
      · rw [if_neg e] at hn
        have : ¬ (a = i ∧ b = j) := by rintro ⟨rfl, rfl⟩; exact e rfl
        rw [if_neg this, ← hnd]
        exact hrep.none a ha b hb hn k hk
    · intro a ha b hb M hM
      simp only at ha hb hM
      simp only [Dense.step]
      by_cases e : b * o.nI + a = j * o.nI + i
      · rw [if_pos e] at hM
        cases hM
        obtain ⟨e1, e2⟩ := block_inj ha hi' e
        subst e1; subst e2
        refine ⟨hN.trans hnd.symm, fun k hk => ?_⟩
        have hk' : k < d.nd := hnd ▸ hk
        rw [hnd, block_div hk', block_mod hk']; simp
      · rw [if_neg e] at hM
        obtain ⟨h1, h2⟩ := hrep.some a ha b hb M hM
        refine ⟨h1, fun k hk => ?_⟩
        have hk' : k < d.nd := hnd ▸ hk
        have : ¬ (a = i ∧ b = j) := by rintro ⟨rfl, rfl⟩; exact e rfl
        rw [hnd, block_div hk', block_mod hk', if_neg this, ← hnd]
        exact h2 k hk

private theorem run_sim_from (h : List (Call K)) : ∀ (o : Op K) (d : Dense K), Sim o d →
    LegalFrom d h → ∃ o', h.foldlM Op.step o = .ok o' ∧ Sim o' (h.foldl Dense.step d) := by
  induction h with
  | nil => intro o d hs _; exact ⟨o, rfl, hs⟩
  | cons c h ih =>
    rintro o d hs ⟨hl, hr⟩
    obtain ⟨o1, e1, s1⟩ := step_sim o d hs c hl
    obtain ⟨o2, e2, s2⟩ := ih o1 _ s1 hr
    exact ⟨o2, by simp [List.foldlM, e1, bind, Except.bind] at e2 ⊢; exact e2, s2⟩

private theorem run_sim (h : List (Call K)) (hl : Legal h) :
    ∃ o, Op.run h = .ok o ∧ Sim o (Dense.run h) :=
  run_sim_from h _ _ ⟨rfl, rfl, rfl, ⟨rfl, by intro i hi; simp [Op.empty] at hi,
    by intro i hi; simp [Op.empty] at hi⟩⟩ hl

/-- C04. Every legal history runs without error; `m()` and `n()` report the dense shape. -/
theorem C04_history_shape (h : List (Call K)) (hl : Legal h) :
    ∃ o, Op.run h = .ok o ∧ o.m = (Dense.run h).m ∧ o.n = (Dense.run h).n := by
  obtain ⟨o, e, s⟩ := run_sim h hl
  exact ⟨o, e, s.m, by simp [Op.n, Dense.n, s.nD, s.nd]⟩

/-- C01 (vector_mult). After any legal history, `vector_mult` overwrites `res` with `B v`. -/
theorem C01_vector_mult (h : List (Call K)) (hl : Legal h) (res v : Vec K)
    (hr : res.size = (Dense.run h).m) (hv : v.size = (Dense.run h).n) :
    ∃ o r, Op.run h = .ok o ∧ o.vectorMult res v = .ok r ∧ r.size = (Dense.run h).m ∧
      ∀ i < (Dense.run h).m,
        r.get i = ∑ c ∈ range (Dense.run h).n, (Dense.run h).B i c * v.get c := by
  obtain ⟨o, e, s⟩ := run_sim h hl
  generalize Dense.run h = d at *
  have hv' : v.size = o.nD * o.nd := by rw [hv, Dense.n, s.nD, s.nd]
  obtain ⟨r, er, hsz, hg⟩ := vec_body o d.B s.rep d.m (fun i _ _ => i)
    (fun _ j k => v.get (j * o.nd + k)) (fun _ j k => v.read (j * o.nd + k))
    (fun i hi j hj k hk => Vec.read_ok (by rw [hv']; exact block_lt hj hk))
    (fun i hi j hj k hk => by rw [← s.m]; exact hi) res.setZero hr
  refine ⟨o, r, e, ?_, hsz, fun i hi => ?_⟩
  · simp only [Op.vectorMult, assert, hr, s.m, hv, Op.n, Dense.n, s.nD, s.nd, if_true, bind,
      Except.bind]
    rw [← s.m, ← s.nD, ← s.nd]
    exact er
  · rw [hg i hi]
    simp only [Vec.setZero, zero_add]
    have hi' : i ∈ range o.nI := by rw [mem_range, s.m]; exact hi
    rw [sum_eq_single_of_mem i hi']
    · simp only [if_true]
      rw [← sum_range_mul o.nD o.nd (fun t => d.B i t * v.get t), Dense.n, s.nD, s.nd]
    · intro b _ hb
      apply sum_eq_zero; intro j _; apply sum_eq_zero; intro k _
      simp [Ne.symm hb]

/-- C01 (vector_mult_transpose). -/
theorem C01_vector_mult_transpose (h : List (Call K)) (hl : Legal h) (res v : Vec K)
    (hr : res.size = (Dense.run h).n) (hv : v.size = (Dense.run h).m) :
    ∃ o r, Op.run h = .ok o ∧ o.vectorMultTranspose res v = .ok r ∧ r.size = (Dense.run h).n ∧
      ∀ c < (Dense.run h).n,
        r.get c = ∑ i ∈ range (Dense.run h).m, (Dense.run h).B i c * v.get i := by
  obtain ⟨o, e, s⟩ := run_sim h hl
  generalize Dense.run h = d at *
  have hn : d.n = o.nD * o.nd := by rw [Dense.n, s.nD, s.nd]
  obtain ⟨r, er, hsz, hg⟩ := vec_body o d.B s.rep d.n (fun _ j k => j * o.nd + k)
    (fun i _ _ => v.get i) (fun i _ _ => v.read i)
    (fun i hi j hj k hk => Vec.read_ok (by rw [hv, ← s.m]; exact hi))
    (fun i hi j hj k hk => by rw [hn]; exact block_lt hj hk) res.setZero hr
  refine ⟨o, r, e, ?_, hsz, fun c hc => ?_⟩
  · simp only [Op.vectorMultTranspose, assert, hr, s.m, hv, Op.n, Dense.n, s.nD, s.nd, if_true,
      bind, Except.bind]
    rw [← s.m, ← s.nD, ← s.nd]
    exact er
  · rw [hg c hc]
    simp only [Vec.setZero, zero_add, s.m]
    apply sum_congr rfl
    intro i hi
    rw [sum_block_ite o.nD o.nd c (hn ▸ hc) (fun t => d.B i t * v.get i)]

/-- C02 (right_multiply): `R = B M`. -/
theorem C02_right_multiply (h : List (Call K)) (hl : Legal h) (r m : Mat K)
    (h1 : r.rows = (Dense.run h).m) (h2 : r.cols = m.cols) (h3 : m.rows = (Dense.run h).n) :
    ∃ o r', Op.run h = .ok o ∧ o.rightMultiply r m = .ok r' ∧
      r'.rows = (Dense.run h).m ∧ r'.cols = m.cols ∧
      ∀ i < (Dense.run h).m, ∀ l < m.cols,
        r'.get i l = ∑ c ∈ range (Dense.run h).n, (Dense.run h).B i c * m.get c l := by
  obtain ⟨o, e, s⟩ := run_sim h hl
  generalize Dense.run h = d at *
  have hn : d.n = o.nD * o.nd := by rw [Dense.n, s.nD, s.nd]
  obtain ⟨r', er, hsr, hsc, hg⟩ := mat_body o d.B s.rep d.m m.cols m.cols
    (fun i _ _ _ => i) (fun _ _ l _ => l)
    (fun _ j l k => m.get (j * o.nd + k) l) (fun _ j l k => m.read (j * o.nd + k) l)
    (fun i hi j hj l hl k hk => Mat.read_ok (by rw [h3, hn]; exact block_lt hj hk) hl)
    (fun i hi j hj l hl k hk => by rw [← s.m]; exact hi)
    (fun i hi j hj l hl k hk => hl) r.setZero h1 h2
  refine ⟨o, r', e, ?_, hsr, hsc, fun i hi l hl => ?_⟩
  · simp only [Op.rightMultiply, assert, h1, h2, h3, s.m, Op.n, Dense.n, s.nD, s.nd, if_true,
      bind, Except.bind]
    rw [← s.m, ← s.nD, ← s.nd]
    exact er
  · rw [hg i hi l hl]
    simp only [Mat.setZero, zero_add]
    have hi' : i ∈ range o.nI := by rw [mem_range, s.m]; exact hi
    rw [sum_eq_single_of_mem i hi']
    · rw [hn, sum_range_mul]
      apply sum_congr rfl; intro j _
      rw [sum_eq_single_of_mem l (mem_range.2 hl)]
      · simp
      · intro b _ hb; apply sum_eq_zero; intro k _; simp [Ne.symm hb]
    · intro b _ hb
      apply sum_eq_zero; intro j _; apply sum_eq_zero; intro k _; apply sum_eq_zero; intro _ _
      simp [Ne.symm hb]

/-- C02 (right_multiply_transpose): `R = Bᵀ M`. -/
theorem C02_right_multiply_transpose (h : List (Call K)) (hl : Legal h) (r m : Mat K)
    (h1 : r.rows = (Dense.run h).n) (h2 : r.cols = m.cols) (h3 : m.rows = (Dense.run h).m) :
    ∃ o r', Op.run h = .ok o ∧ o.rightMultiplyTranspose r m = .ok r' ∧
      r'.rows = (Dense.run h).n ∧ r'.cols = m.cols ∧
      ∀ c < (Dense.run h).n, ∀ l < m.cols,
        r'.get c l = ∑ i ∈ range (Dense.run h).m, (Dense.run h).B i c * m.get i l := by
  obtain ⟨o, e, s⟩ := run_sim h hl
  generalize Dense.run h = d at *
  have hn : d.n = o.nD * o.nd := by rw [Dense.n, s.nD, s.nd]
  obtain ⟨r', er, hsr, hsc, hg⟩ := mat_body o d.B s.rep d.n m.cols m.cols
    (fun _ j _ k => j * o.nd + k) (fun _ _ l _ => l)
    (fun i _ l _ => m.get i l) (fun i _ l _ => m.read i l)
    (fun i hi j hj l hl k hk => Mat.read_ok (by rw [h3, ← s.m]; exact hi) hl)
    (fun i hi j hj l hl k hk => by rw [hn]; exact block_lt hj hk)
    (fun i hi j hj l hl k hk => hl) r.setZero h1 h2
  refine ⟨o, r', e, ?_, hsr, hsc, fun c hc l hl => ?_⟩
  · simp only [Op.rightMultiplyTranspose, assert, h1, h2, h3, s.m, Op.n, Dense.n, s.nD, s.nd,
      if_true, bind, Except.bind]
    rw [← s.m, ← s.nD, ← s.nd]
    exact er
  · rw [hg c hc l hl]
    simp only [Mat.setZero, zero_add, s.m]
    apply sum_congr rfl; intro i _
    rw [← sum_block_ite o.nD o.nd c (hn ▸ hc) (fun t => d.B i t * m.get i l)]
    apply sum_congr rfl; intro j _
    rw [sum_eq_single_of_mem l (mem_range.2 hl)]
    · simp
    · intro b _ hb; apply sum_eq_zero; intro k _; simp [Ne.symm hb]

/-- C02 (left_multiply): `R = M B`. -/
theorem C02_left_multiply (h : List (Call K)) (hl : Legal h) (r m : Mat K)
    (h1 : r.rows = m.rows) (h2 : r.cols = (Dense.run h).n) (h3 : m.cols = (Dense.run h).m) :
    ∃ o r', Op.run h = .ok o ∧ o.leftMultiply r m = .ok r' ∧
      r'.rows = m.rows ∧ r'.cols = (Dense.run h).n ∧
      ∀ l < m.rows, ∀ c < (Dense.run h).n,
        r'.get l c = ∑ i ∈ range (Dense.run h).m, m.get l i * (Dense.run h).B i c := by
  obtain ⟨o, e, s⟩ := run_sim h hl
  generalize Dense.run h = d at *
  have hn : d.n = o.nD * o.nd := by rw [Dense.n, s.nD, s.nd]
  obtain ⟨r', er, hsr, hsc, hg⟩ := mat_body o d.B s.rep m.rows d.n m.rows
    (fun _ _ l _ => l) (fun _ j _ k => j * o.nd + k)
    (fun i _ l _ => m.get l i) (fun i _ l _ => m.read l i)
    (fun i hi j hj l hl k hk => Mat.read_ok hl (by rw [h3, ← s.m]; exact hi))
    (fun i hi j hj l hl k hk => hl)
    (fun i hi j hj l hl k hk => by rw [hn]; exact block_lt hj hk) r.setZero h1 h2
  refine ⟨o, r', e, ?_, hsr, hsc, fun l hl c hc => ?_⟩
  · simp only [Op.leftMultiply, assert, h1, h2, h3, s.m, Op.n, Dense.n, s.nD, s.nd,
      if_true, bind, Except.bind]
    rw [← s.m, ← s.nD, ← s.nd]
    exact er
  · rw [hg l hl c hc]
    simp only [Mat.setZero, zero_add, s.m]
    apply sum_congr rfl; intro i _
    rw [← sum_block_ite o.nD o.nd c (hn ▸ hc) (fun t => m.get l i * d.B i t)]
    apply sum_congr rfl; intro j _
    rw [sum_eq_single_of_mem l (mem_range.2 hl)]
    · simp [mul_comm]
    · intro b _ hb; apply sum_eq_zero; intro k _; simp [Ne.symm hb]

/-- C02 (left_multiply_transpose): `R = M Bᵀ`. -/
theorem C02_left_multiply_transpose (h : List (Call K)) (hl : Legal h) (r m : Mat K)
    (h1 : r.rows = m.rows) (h2 : r.cols = (Dense.run h).m) (h3 : m.cols = (Dense.run h).n) :
    ∃ o r', Op.run h = .ok o ∧ o.leftMultiplyTranspose r m = .ok r' ∧
      r'.rows = m.rows ∧ r'.cols = (Dense.run h).m ∧
      ∀ l < m.rows, ∀ i < (Dense.run h).m,
        r'.get l i = ∑ c ∈ range (Dense.run h).n, m.get l c * (Dense.run h).B i c := by
  obtain ⟨o, e, s⟩ := run_sim h hl
  generalize Dense.run h = d at *
  have hn : d.n = o.nD * o.nd := by rw [Dense.n, s.nD, s.nd]
  obtain ⟨r', er, hsr, hsc, hg⟩ := mat_body o d.B s.rep m.rows d.m m.rows
    (fun _ _ l _ => l) (fun i _ _ _ => i)
    (fun _ j l k => m.get l (j * o.nd + k)) (fun _ j l k => m.read l (j * o.nd + k))
    (fun i hi j hj l hl k hk => Mat.read_ok hl (by rw [h3, hn]; exact block_lt hj hk))
    (fun i hi j hj l hl k hk => hl)
    (fun i hi j hj l hl k hk => by rw [← s.m]; exact hi) r.setZero h1 h2
  refine ⟨o, r', e, ?_, hsr, hsc, fun l hl i hi => ?_⟩
  · simp only [Op.leftMultiplyTranspose, assert, h1, h2, h3, s.m, Op.n, Dense.n, s.nD, s.nd,
      if_true, bind, Except.bind]
    rw [← s.m, ← s.nD, ← s.nd]
    exact er
  · rw [hg l hl i hi]
    simp only [Mat.setZero, zero_add]
    have hi' : i ∈ range o.nI := by rw [mem_range, s.m]; exact hi
    rw [sum_eq_single_of_mem i hi']
    · rw [hn, sum_range_mul]
      apply sum_congr rfl; intro j _
      rw [sum_eq_single_of_mem l (mem_range.2 hl)]
      · simp [mul_comm]
      · intro b _ hb; apply sum_eq_zero; intro k _; simp [Ne.symm hb]
    · intro b _ hb
      apply sum_eq_zero; intro j _; apply sum_eq_zero; intro k _; apply sum_eq_zero; intro _ _
      simp [Ne.symm hb]

/-- C03: the operator–operator product is `B₁ᵀ B₂`. -/
theorem C03_right_multiply_transpose_operator (h g : List (Call K)) (hl : Legal h) (gl : Legal g)
    (r : Mat K) (h1 : r.rows = (Dense.run h).n) (h2 : r.cols = (Dense.run g).n)
    (h3 : (Dense.run h).m = (Dense.run g).m) :
    ∃ o p r', Op.run h = .ok o ∧ Op.run g = .ok p ∧ o.rightMultiplyTransposeOp r p = .ok r' ∧
      r'.rows = (Dense.run h).n ∧ r'.cols = (Dense.run g).n ∧
      ∀ a < (Dense.run h).n, ∀ b < (Dense.run g).n,
        r'.get a b = ∑ i ∈ range (Dense.run h).m, (Dense.run h).B i a * (Dense.run g).B i b := by
  obtain ⟨o, e, s⟩ := run_sim h hl
  obtain ⟨p, e', s'⟩ := run_sim g gl
  generalize Dense.run h = d at *
  generalize Dense.run g = f at *
  have hn : d.n = o.nD * o.nd := by rw [Dense.n, s.nD, s.nd]
  have hn' : f.n = p.nD * p.nd := by rw [Dense.n, s'.nD, s'.nd]
  have hI : o.nI = p.nI := by rw [s.m, s'.m, h3]
  have key : ∃ r', loopE o.nD (fun i r =>
      loopE p.nD (fun j r =>
        loopE o.nI (fun k r => do
          let s1 ← o.store.read (i * o.nI + k)
          let s2 ← p.store.read (j * p.nI + k)
          match s1, s2 with
          | some n1, some n2 =>
            loopE n1.size (fun i1 r =>
              loopE n2.size (fun i2 r => do
                let x ← n1.read i1
                let y ← n2.read i2
                r.addAt (i * o.nd + i1) (j * p.nd + i2) (x * y)) r) r
          | _, _ => return r) r) r) r.setZero = .ok r' ∧ r'.rows = d.n ∧ r'.cols = f.n ∧
      ∀ a < d.n, ∀ b < f.n, r'.get a b = r.setZero.get a b +
        ∑ i ∈ range o.nD, ∑ j ∈ range p.nD, ∑ k ∈ range o.nI,
          ∑ i1 ∈ range o.nd, ∑ i2 ∈ range p.nd,
          if a = i * o.nd + i1 ∧ b = j * p.nd + i2 then
            d.B k (i * o.nd + i1) * f.B k (j * p.nd + i2) else 0 := by
    apply loopE_mat_accum d.n f.n _ _ _ _ r.setZero h1 h2
    intro i hi v hvr hvc
    apply loopE_mat_accum d.n f.n _ _ _ _ v hvr hvc
    intro j hj v hvr hvc
    apply loopE_mat_accum d.n f.n _ _ _ _ v hvr hvc
    intro k hk v hvr hvc
    have hk' : k < p.nI := hI ▸ hk
    have q1 := Vec.read_ok (idx_lt s.rep.size hk hi)
    have q2 := Vec.read_ok (idx_lt s'.rep.size hk' hj)
    simp only [q1, q2, bind, Except.bind]
    cases hN : o.store.get (i * o.nI + k) with
    | none =>
      refine ⟨v, rfl, hvr, hvc, fun a _ b _ => ?_⟩
      rw [sum_eq_zero, add_zero]
      intro i1 hi1; apply sum_eq_zero; intro i2 hi2
      rw [s.rep.none k hk i hi hN i1 (mem_range.1 hi1)]; simp
    | some n1 =>
      cases hM : p.store.get (j * p.nI + k) with
      | none =>
        refine ⟨v, rfl, hvr, hvc, fun a _ b _ => ?_⟩
        rw [sum_eq_zero, add_zero]
        intro i1 hi1; apply sum_eq_zero; intro i2 hi2
        rw [s'.rep.none k hk' j hj hM i2 (mem_range.1 hi2)]; simp
      | some n2 =>
        obtain ⟨z1, b1⟩ := s.rep.some k hk i hi n1 hN
        obtain ⟨z2, b2⟩ := s'.rep.some k hk' j hj n2 hM
        simp only [z1, z2]
        apply loopE_mat_accum d.n f.n _ _ _ _ v hvr hvc
        intro i1 hi1 v hvr hvc
        apply loopE_mat_accum d.n f.n _ _ _ _ v hvr hvc
        intro i2 hi2 v hvr hvc
        have q3 : n1.read i1 = .ok (n1.get i1) := Vec.read_ok (by omega)
        have q4 : n2.read i2 = .ok (n2.get i2) := Vec.read_ok (by omega)
        simp only [q3, q4]
        rw [Mat.addAt_ok (by rw [hvr, hn]; exact block_lt hi hi1)
          (by rw [hvc, hn']; exact block_lt hj hi2)]
        refine ⟨_, rfl, hvr, hvc, fun a _ b _ => ?_⟩
        simp only
        by_cases c : a = i * o.nd + i1 ∧ b = j * p.nd + i2
        · obtain ⟨c1, c2⟩ := c; subst c1; subst c2; simp [b1 i1 hi1, b2 i2 hi2]
        · simp [c]
  obtain ⟨r', er, hsr, hsc, hg⟩ := key
  refine ⟨o, p, r', e, e', ?_, hsr, hsc, fun a ha b hb => ?_⟩
  · simp only [Op.rightMultiplyTransposeOp]
    rw [assert_ok (by rw [h1, hn]; rfl), assert_ok (by rw [h2, hn']; rfl), assert_ok hI]
    exact er
  · rw [hg a ha b hb]
    simp only [Mat.setZero, zero_add]
    have : ∀ k, (∑ i ∈ range o.nD, ∑ j ∈ range p.nD, ∑ i1 ∈ range o.nd, ∑ i2 ∈ range p.nd,
          if a = i * o.nd + i1 ∧ b = j * p.nd + i2 then
            d.B k (i * o.nd + i1) * f.B k (j * p.nd + i2) else 0) = d.B k a * f.B k b := by
      intro k
      rw [← sum_block_ite o.nD o.nd a (hn ▸ ha) (fun t => d.B k t * f.B k b)]
      apply sum_congr rfl; intro i _
      rw [sum_comm]
      apply sum_congr rfl; intro i1 _
      by_cases c : a = i * o.nd + i1
      · simp only [c, true_and, if_true]
        rw [← sum_block_ite p.nD p.nd b (hn' ▸ hb)
          (fun t => d.B k (i * o.nd + i1) * f.B k t)]
      · simp [c]
    rw [← s.m]
    simp only [← this]
    rw [sum_comm]
    conv_rhs => rw [sum_comm]
    rw [sum_comm]
    apply sum_congr rfl; intro i _
    conv_rhs => rw [sum_comm]

/-- C04 (last set wins, other blocks untouched): a corollary of the dense meaning, spelled out on the
observable dense entries: after a legal history followed by `set_shape_function(i,j,N)`, multiplying the
unit vectors gives `N` in block `(i,j)` and the previous values elsewhere. -/
theorem C04_set_updates_one_block (h : List (Call K)) (i j : Nat) (N : Vec K)
    (hl : Legal (h ++ [.setShape i j N])) (res : Vec K) (a b k : Nat)
    (hr : res.size = (Dense.run h).m)
    (ha : a < (Dense.run h).m) (hb : b < (Dense.run h).nD) (hk : k < (Dense.run h).nd) :
    let unit : Vec K := ⟨(Dense.run h).n, fun c => if c = b * (Dense.run h).nd + k then 1 else 0⟩
    ∃ o o' r r', Op.run h = .ok o ∧ Op.run (h ++ [.setShape i j N]) = .ok o' ∧
      o.vectorMult res unit = .ok r ∧ o'.vectorMult res unit = .ok r' ∧
      r'.get a = if a = i ∧ b = j then N.get k else r.get a := by
  intro unit
  have hl1 : Legal h ∧ legal (Dense.run h) (.setShape i j N) := by
    have : ∀ (d : Dense K) (h : List (Call K)), LegalFrom d (h ++ [.setShape i j N]) →
        LegalFrom d h ∧ legal (h.foldl Dense.step d) (.setShape i j N) := by
      intro d h
      induction h generalizing d with
      | nil => intro hh; exact ⟨trivial, hh.1⟩
      | cons c h ih => rintro ⟨q1, q2⟩; exact ⟨⟨q1, (ih _ q2).1⟩, (ih _ q2).2⟩
    exact this _ _ hl
  have hrun : Dense.run (h ++ [.setShape i j N]) = (Dense.run h).step (.setShape i j N) := by
    simp [Dense.run, List.foldl_append]
  obtain ⟨o, r, e1, e2, -, e3⟩ := C01_vector_mult h hl1.1 res unit hr rfl
  obtain ⟨o', r', f1, f2, -, f3⟩ := C01_vector_mult _ hl res unit
    (by rw [hrun]; exact hr) (by rw [hrun]; rfl)
  refine ⟨o, o', r, r', e1, f1, e2, f2, ?_⟩
  rw [e3 a ha, f3 a (by rw [hrun]; exact ha), hrun]
  have hn : ((Dense.run h).step (.setShape i j N)).n = (Dense.run h).n := rfl
  have hlt : b * (Dense.run h).nd + k < (Dense.run h).n := block_lt hb hk
  rw [hn]
  simp only [unit, mul_ite, mul_one, mul_zero]
  rw [sum_ite_eq', sum_ite_eq']
  simp only [mem_range, hlt, if_true, Dense.step, block_div hk, block_mod hk]

/-- C04 (reinit forgets history). -/
theorem C04_reinit_forgets (h : List (Call K)) (hl : Legal h) (nI nD nd : Nat) :
    Op.run (h ++ [.reinit nI nD nd]) = .ok (Op.reinit nI nD nd : Op K) ∧
    ∀ res v : Vec K, res.size = nI → v.size = nD * nd →
      ∃ r, (Op.reinit nI nD nd : Op K).vectorMult res v = .ok r ∧ ∀ i < nI, r.get i = 0 := by
  have hl' : Legal (h ++ [.reinit nI nD nd]) := by
    have : ∀ (d : Dense K) (h : List (Call K)), LegalFrom d h →
        LegalFrom d (h ++ [.reinit nI nD nd]) := by
      intro d h
      induction h generalizing d with
      | nil => intro _; exact ⟨trivial, trivial⟩
      | cons c h ih => rintro ⟨q1, q2⟩; exact ⟨q1, ih _ q2⟩
    exact this _ _ hl
  have e0 : Op.run (h ++ [.reinit nI nD nd]) = .ok (Op.reinit nI nD nd : Op K) := by
    obtain ⟨o, e, -⟩ := run_sim h hl
    unfold Op.run at e ⊢
    rw [List.foldlM_append, e]; rfl
  refine ⟨e0, fun res v hr hv => ?_⟩
  have hd : Dense.run (h ++ [.reinit nI nD nd]) = (⟨nI, nD, nd, fun _ _ => 0⟩ : Dense K) := by
    simp [Dense.run, List.foldl_append, Dense.step]
  obtain ⟨o, r, f1, f2, -, f3⟩ := C01_vector_mult (h ++ [.reinit nI nD nd]) hl' res v
    (by rw [hd]; exact hr) (by rw [hd]; exact hv)
  rw [e0] at f1; cases f1
  refine ⟨r, f2, fun i hi => ?_⟩
  rw [f3 i (by rw [hd]; exact hi), hd]; simp

/-- The length condition in `legal` is needed: the code accepts a shorter shape function vector, and the
next product reads beyond its end (undefined behaviour). -/
theorem setShape_wrong_size_ub :
    ∃ o : Op ℚ, (Op.reinit 1 1 2 : Op ℚ).setShape 0 0 ⟨1, fun _ => 1⟩ = .ok o ∧
      o.vectorMult ⟨1, fun _ => 0⟩ ⟨2, fun _ => 1⟩ = .error .ub := ⟨_, rfl, rfl⟩

/-! ### Non-vacuity -/

/-- Plate-like operator: 3 strains, 2 displacements, 4 nodes; two blocks set, one overwritten. -/
def exampleHistory : List (Call ℚ) :=
  [.reinitDiag 2 ⟨3, fun k => k⟩, .reinit 3 2 4, .setShape 0 0 ⟨4, fun k => k⟩,
   .setShape 2 1 ⟨4, fun _ => 1⟩, .setShape 2 1 ⟨4, fun k => k + 1⟩]

example : Legal exampleHistory := by
  simp [Legal, LegalFrom, exampleHistory, legal, Dense.step]

example : (Dense.run exampleHistory).m = 3 ∧ (Dense.run exampleHistory).n = 8 ∧
    (Dense.run exampleHistory).B 2 6 = 3 := by
  refine ⟨rfl, rfl, ?_⟩
  norm_num [Dense.run, exampleHistory, Dense.step]

end Verif.Fem
