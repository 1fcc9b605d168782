import Mathlib.Tactic.FinCases
import Mathlib.Tactic.Linarith
import Mathlib.Tactic.NormNum
import Mathlib.Tactic.Ring
import Mathlib.Tactic.LinearCombination
import Verif.Model.PKFlutter
import Verif.Props.FlutterScan
/-
  C97 (p-k flutter solver).
-/
namespace Verif.PKFlutter
open Matrix Verif.Flutter Verif.FlutterSearch

/-! ### Specification -/

/-- The p-k equation: `(p² M + K + ½ρV² A) q = 0`, with `A` the assembled (left hand side) aerodynamic matrix. -/
def PKEquation {n : Nat} (rho v : ℝ) (M K : Matrix (Fin n) (Fin n) ℝ) (a : Matrix (Fin n) (Fin n) ℂ) (p : ℂ) (q : Fin n → ℂ) : Prop :=
  (p ^ 2) • (cplx M *ᵥ q) + cplx K *ᵥ q + ((1 / 2 * rho * v ^ 2 : ℝ) : ℂ) • (a *ᵥ q) = 0

/-- Reduced frequency of a root itself. -/
noncomputable def ownKr (b : ℝ) (r : PKRoot) : ℝ := |r.omega| * b / r.V

/-- What the p-k method is for: each stored root was computed with the scanned reduced frequency nearest to its own. -/
def Matched (b : ℝ) (ks : List ℝ) (r : PKRoot) : Prop := ∀ k ∈ ks, |ownKr b r - r.kr| ≤ |ownKr b r - k|

/-! ### C97 -/

/-- C97: with matrices of order `2 n` the eigenproblem has exactly the solutions of the p-k equation. -/
theorem C97_equation_partial {n : Nat} (rho v : ℝ) (M K : Matrix (Fin n) (Fin n) ℝ) (a : Matrix (Fin n) (Fin n) ℂ) (p : ℂ) (x : Fin n ⊕ Fin n → ℂ) :
    ∃ A B, pkMatrices (2 * n) rho v M K a = some (A, B) ∧
      (A *ᵥ x = p • (B *ᵥ x) ↔ ∃ q, x = Sum.elim q (p • q) ∧ PKEquation rho v M K a p q) := by
  refine ⟨_, _, by rw [pkMatrices, if_pos (by omega)], ?_⟩
  obtain ⟨q, r, rfl⟩ : ∃ q r, x = Sum.elim q r := ⟨x ∘ Sum.inl, x ∘ Sum.inr, by ext i; cases i <;> rfl⟩
  have hs : p • Sum.elim q (cplx M *ᵥ r) = Sum.elim (p • q) (p • (cplx M *ᵥ r)) := by ext i; cases i <;> rfl
  rw [fromBlocks_mulVec, fromBlocks_mulVec]
  simp only [Sum.elim_comp_inl, Sum.elim_comp_inr, zero_mulVec, one_mulVec, zero_add, add_zero, hs]
  have hx : ∀ a b c d : Fin n → ℂ, Sum.elim a b = Sum.elim c d ↔ a = c ∧ b = d := fun a b c d =>
    ⟨fun h => ⟨funext fun i => congrFun h (Sum.inl i), funext fun i => congrFun h (Sum.inr i)⟩, fun h => by rw [h.1, h.2]⟩
  have key : ∀ q : Fin n → ℂ, (-cplx K + ((rho / 2 * v * v : ℝ) : ℂ) • -a) *ᵥ q = p • (cplx M *ᵥ (p • q)) ↔ PKEquation rho v M K a p q := by
    intro q
    unfold PKEquation
    rw [add_mulVec, neg_mulVec, smul_mulVec, neg_mulVec, mulVec_smul, smul_smul, ← sq]
    constructor
    · intro h
      rw [← h]
      ext i
      simp only [Pi.add_apply, Pi.neg_apply, Pi.smul_apply, smul_eq_mul, Pi.zero_apply]
      push_cast; ring
    · intro h
      ext i
      have hi := congrFun h i
      simp only [Pi.add_apply, Pi.neg_apply, Pi.smul_apply, smul_eq_mul, Pi.zero_apply] at hi ⊢
      push_cast at hi ⊢
      linear_combination -hi
  rw [hx]
  constructor
  · rintro ⟨rfl, h⟩
    exact ⟨q, rfl, (key q).1 h⟩
  · rintro ⟨q', h, he⟩
    obtain ⟨rfl, rfl⟩ := (hx _ _ _ _).1 h
    exact ⟨rfl, (key q).2 he⟩

/-- Non-vacuity: one mode with `M = K = 1` without aerodynamics has the eigenvalue `i`. -/
example : PKEquation (n := 1) 1 1 1 1 0 Complex.I (fun _ => 1) := by
  unfold PKEquation
  ext i
  simp [cplx, mulVec, dotProduct]

/-- C97 (violated): the matrices `_analyze` hands over are empty, so for any nonempty basis the eigenproblem is undefined (assertion failure or out of bounds write). -/
theorem C97_matrices_fails {n : Nat} (hn : 0 < n) (rho v : ℝ) (M K : Matrix (Fin n) (Fin n) ℝ) (a : Matrix (Fin n) (Fin n) ℂ) : pkAnalyze rho v M K a = none := by
  rw [pkAnalyze, pkMatrices, pkDim, if_neg (by omega)]

/-- C97: data of a root. -/
theorem C97_root (kr v : ℝ) (num den : ℂ) (hd : den ≠ 0) :
    (pkRoot kr v num den).root * den = num ∧ (pkRoot kr v num den).g = (pkRoot kr v num den).root.re ∧ (pkRoot kr v num den).omega = (pkRoot kr v num den).root.im ∧
      (pkRoot kr v num den).V = v ∧ (pkRoot kr v num den).kr = kr := by
  have h : 0 < ‖den‖ := norm_pos_iff.2 hd
  rw [pkRoot, if_pos h]
  exact ⟨div_mul_cancel₀ _ hd, rfl, rfl, rfl, rfl⟩

example : (pkRoot 1 2 Complex.I 1).g = 0 := by simp [pkRoot]

/-- Roots computed at reduced frequency `k` carry it (`PKFlutterRoot::init`), and there are `m` of them. -/
def Analysis (an : ℝ → ℝ → Option (List PKRoot) → List PKRoot) (m : Nat) : Prop :=
  ∀ k v prev, (an k v prev).length = m ∧ ∀ r ∈ an k v prev, r.kr = k

/-- All stored roots have a nonnegative reduced frequency and there are `m` per velocity. -/
def DbOk (m : Nat) (db : Db) : Prop := ∀ v l, db v = some l → l.length = m ∧ ∀ r ∈ l, 0 ≤ r.kr

theorem merge_old {kred : ℝ} {old new : PKRoot} (h : 0 ≤ old.kr) : mergeRoot kred old new = old := by
  rw [mergeRoot, if_neg]
  rw [abs_of_nonneg h, sub_self, abs_zero]
  exact not_lt.2 (abs_nonneg _)

theorem zip_old {kred : ℝ} : ∀ (old new : List PKRoot), old.length = new.length → (∀ r ∈ old, 0 ≤ r.kr) → List.zipWith (mergeRoot kred) old new = old
  | [], [], _, _ => rfl
  | a :: l, b :: l', h, hk => by
    rw [List.zipWith_cons_cons, merge_old (hk a List.mem_cons_self), zip_old l l' (by simpa using h) fun r hr => hk r (List.mem_cons_of_mem _ hr)]

/-- A stored solution with nonnegative reduced frequencies is never altered. -/
theorem insert_old {m : Nat} {db : Db} {kred v : ℝ} {old sol : List PKRoot} (ho : db v = some old) (hl : sol.length = m) (hd : DbOk m db) : insertNew db kred v sol = db := by
  obtain ⟨h1, h2⟩ := hd v old ho
  unfold insertNew
  rw [ho]
  dsimp only
  rw [zip_old old sol (by rw [h1, hl]) h2]
  rw [← ho]; exact Function.update_eq_self v db

theorem insert_ok {m : Nat} {db : Db} {kred v : ℝ} {sol : List PKRoot} (hl : sol.length = m) (hk : ∀ r ∈ sol, 0 ≤ r.kr) (hd : DbOk m db) : DbOk m (insertNew db kred v sol) := by
  cases ho : db v with
  | some old => rw [insert_old ho hl hd]; exact hd
  | none =>
    unfold insertNew
    rw [ho]
    intro w l h
    by_cases hw : w = v
    · subst hw; simp at h; subst h; exact ⟨hl, hk⟩
    · dsimp only at h; rw [Function.update_of_ne hw] at h; exact hd w l h

theorem insert_mono {m : Nat} {db : Db} {kred v : ℝ} {sol : List PKRoot} (hl : sol.length = m) (hd : DbOk m db) :
    (insertNew db kred v sol v).isSome ∧ ∀ w l, db w = some l → insertNew db kred v sol w = some l := by
  cases ho : db v with
  | some old => rw [insert_old ho hl hd]; exact ⟨by simp [ho], fun w l h => h⟩
  | none =>
    unfold insertNew
    rw [ho]
    refine ⟨by simp, fun w l h => ?_⟩
    have : w ≠ v := by rintro rfl; rw [ho] at h; cases h
    dsimp only
    rw [Function.update_of_ne this]; exact h

theorem insert_domain (db : Db) (kred v : ℝ) (sol : List PKRoot) (w : ℝ) (hw : w ≠ v) : insertNew db kred v sol w = db w := by
  unfold insertNew
  cases db v <;> simp [hw]

theorem scanV_ok {an} {m : Nat} (ha : Analysis an m) {k : ℝ} (hk : 0 ≤ k) : ∀ (vs : List ℝ) (prev : Option (List PKRoot)) (db : Db), DbOk m db →
    DbOk m (scanV an k vs prev db) ∧ (∀ w l, db w = some l → scanV an k vs prev db w = some l) ∧ (∀ w ∈ vs, (scanV an k vs prev db w).isSome) ∧
      ∀ w, w ∉ vs → scanV an k vs prev db w = db w
  | [], prev, db, hd => ⟨hd, fun w l h => h, by simp, fun w _ => rfl⟩
  | v :: vs, prev, db, hd => by
    obtain ⟨a1, a2⟩ := ha k v prev
    have hi := insert_ok (kred := k) (v := v) (sol := an k v prev) a1 (fun r hr => by rw [a2 r hr]; exact hk) hd
    obtain ⟨m1, m2⟩ := insert_mono (kred := k) (v := v) (sol := an k v prev) a1 hd
    obtain ⟨b1, b2, b3, b4⟩ := scanV_ok ha hk vs (insertNew db k v (an k v prev) v) (insertNew db k v (an k v prev)) hi
    rw [scanV]
    refine ⟨b1, fun w l h => b2 w l (m2 w l h), fun w hw => ?_, fun w hw => ?_⟩
    · rcases List.mem_cons.1 hw with rfl | hw
      · obtain ⟨l, hl⟩ := Option.isSome_iff_exists.1 m1
        rw [b2 w l hl]; rfl
      · exact b3 w hw
    · simp only [List.mem_cons, not_or] at hw
      rw [b4 w hw.2, insert_domain _ _ _ _ _ hw.1]

theorem scanK_fixed {an} {m : Nat} (ha : Analysis an m) (vs : List ℝ) : ∀ (ks : List ℝ), (∀ k ∈ ks, 0 ≤ k) → ∀ db, DbOk m db → (∀ w ∈ vs, (db w).isSome) → scanK an vs ks db = db
  | [], _, db, _, _ => rfl
  | k :: ks, hk, db, hd, hs => by
    have h := scanV_ok ha (hk k List.mem_cons_self) vs none db hd
    have : scanV an k vs none db = db := by
      funext w
      cases hw : db w with
      | some l => exact h.2.1 w l hw
      | none => rw [h.2.2.2 w (fun hm => by have := hs w hm; rw [hw] at this; cases this), hw]
    rw [scanK, this]
    exact scanK_fixed ha vs ks (fun k hk' => hk k (List.mem_cons_of_mem _ hk')) db hd hs

theorem ugGrid_bounds {lo hi : ℝ} (h0 : 0 ≤ lo) (hlh : lo ≤ hi) {n : Nat} (hn : 0 < n) : ∃ l, ugGrid lo hi n = hi :: l ∧ ∀ k ∈ hi :: l, 0 ≤ k := by
  have key : ∀ (d : ℝ) (j : Nat) (v : ℝ), ∀ x ∈ gridLoop d j v, ∃ i : Nat, i < j ∧ x = v + i * d := by
    intro d j
    induction j with
    | zero => intro v x hx; simp [gridLoop] at hx
    | succ j ih =>
      intro v x hx
      rw [gridLoop, List.mem_cons] at hx
      rcases hx with rfl | hx
      · exact ⟨0, by omega, by simp⟩
      · obtain ⟨i, hi, rfl⟩ := ih _ _ hx
        exact ⟨i + 1, by omega, by push_cast; ring⟩
  obtain ⟨n, rfl⟩ : ∃ j, n = j + 1 := ⟨n - 1, by omega⟩
  refine ⟨(gridLoop (-((hi - lo) / ((n + 1 : Nat) : ℝ))) (n + 1) (hi + -((hi - lo) / ((n + 1 : Nat) : ℝ)))).set n lo, rfl, ?_⟩
  intro k hk
  rcases List.mem_cons.1 hk with rfl | hk
  · linarith
  · rcases List.mem_or_eq_of_mem_set hk with h | rfl
    · obtain ⟨i, hi', rfl⟩ := key _ _ _ _ h
      have hn' : (0 : ℝ) < ((n + 1 : Nat) : ℝ) := by positivity
      have h2 : ((i : ℝ) + 1) ≤ ((n + 1 : Nat) : ℝ) := by exact_mod_cast hi'
      have h3 : ((i : ℝ) + 1) * ((hi - lo) / ((n + 1 : Nat) : ℝ)) ≤ hi - lo := by
        rw [mul_div_assoc', div_le_iff₀ hn', mul_comm]
        exact mul_le_mul_of_nonneg_left h2 (by linarith)
      nlinarith
    · exact h0

/-- C97: after a scan over nonnegative reduced frequencies exactly the velocities of the grid have a stored solution. -/
theorem C97_velocities {an : ℝ → ℝ → Option (List PKRoot) → List PKRoot} {m : Nat} (ha : Analysis an m) {klo khi vlo vhi : ℝ} (h0 : 0 ≤ klo) (hk : klo ≤ khi) {nk nv : Nat} (hnk : 0 < nk) (w : ℝ) :
    (pkScan an klo khi nk vlo vhi nv w).isSome ↔ w ∈ scanGrid vlo vhi nv := by
  obtain ⟨l, e, hl⟩ := ugGrid_bounds h0 hk hnk
  have hd : DbOk m (fun _ => none) := fun v l h => by cases h
  have h := scanV_ok ha (hl khi List.mem_cons_self) (scanGrid vlo vhi nv) none (fun _ => none) hd
  rw [pkScan, e, scanK, scanK_fixed ha _ l (fun k hk => hl k (List.mem_cons_of_mem _ hk)) _ h.1 h.2.2.1]
  constructor
  · intro hs
    by_contra hw
    rw [h.2.2.2 w hw] at hs; cases hs
  · exact h.2.2.1 w

/-- C97 (what the code does not do): every reduced frequency but the highest is ignored: the database after the scan is that of a scan at the highest reduced frequency alone, for any
lower limit and number of divisions. -/
theorem C97_only_highest_kr_fails {an : ℝ → ℝ → Option (List PKRoot) → List PKRoot} {m : Nat} (ha : Analysis an m) {klo khi : ℝ} (h0 : 0 ≤ klo) (hk : klo ≤ khi) {nk : Nat} (hnk : 0 < nk)
    (vlo vhi : ℝ) (nv : Nat) : pkScan an klo khi nk vlo vhi nv = scanV an khi (scanGrid vlo vhi nv) none (fun _ => none) := by
  obtain ⟨l, e, hl⟩ := ugGrid_bounds h0 hk hnk
  have hd : DbOk m (fun _ => none) := fun v l h => by cases h
  have h := scanV_ok ha (hl khi List.mem_cons_self) (scanGrid vlo vhi nv) none (fun _ => none) hd
  rw [pkScan, e, scanK, scanK_fixed ha _ l (fun k hk => hl k (List.mem_cons_of_mem _ hk)) _ h.1 h.2.2.1]

/-- Analysis used in the examples: one root of frequency 1 whatever the reduced frequency. -/
def exAn : ℝ → ℝ → Option (List PKRoot) → List PKRoot := fun k v _ => [⟨k, v, 0, 1, Complex.I⟩]

theorem exAn_ok : Analysis exAn 1 := fun k v prev => ⟨rfl, fun r hr => by simp [exAn] at hr; subst hr; rfl⟩

/-- Non-vacuity of the two theorems above. -/
example (w : ℝ) : (pkScan exAn 0 2 2 1 2 1 w).isSome ↔ w ∈ scanGrid 1 2 1 := C97_velocities exAn_ok le_rfl (by norm_num) (by norm_num) w

/-- C97 (violated): roots are not matched with their own reduced frequency: a mode of frequency 1 at velocity 1 and semichord 1 is stored with aerodynamics at `kr = 2` although `kr = 1`
was scanned. -/
theorem C97_matched_fails : ∃ r, pkScan exAn 0 2 2 1 2 1 1 = some [r] ∧ ¬ Matched 1 (ugGrid 0 2 2) r := by
  refine ⟨⟨2, 1, 0, 1, Complex.I⟩, ?_, ?_⟩
  · rw [C97_only_highest_kr_fails exAn_ok le_rfl (by norm_num) (by norm_num)]
    norm_num [scanGrid, gridLoop, scanV, insertNew, exAn]
  · intro h
    have h1 := h 1 (by norm_num [ugGrid, gridLoop])
    norm_num [ownKr] at h1

/-- C97 (what the code does not do): when the velocity range starts at zero, every mode with zero damping there (any undamped structure, since aerodynamic forces vanish) is reported as a
flutter root found at `V = 0`. -/
theorem C97_zero_velocity_fails (modes : List (List PKRoot)) (i : Nat) (p : PKRoot) (l : List PKRoot) (hm : modes[i]? = some (p :: l)) (hV : p.V = 0) (hg : p.g = 0) :
    (⟨0, i, p, p, some p⟩ : PKCross) ∈ pkIdentify modes := by
  rw [pkIdentify, List.mem_append]
  left
  rw [List.mem_flatMap]
  refine ⟨(p :: l, i), ?_, ?_⟩
  · rw [List.mem_iff_getElem?]; exact ⟨i, by simp [hm]⟩
  · simp [pkFirst, hV, hg, ctol]

/-- Sign change of the damping of a mode between two neighbouring velocities (in either direction), recorded with the stable solution first. -/
def PKSign (i : Nat) (p q : PKRoot) (c : PKCross) : Prop := (p.g ≤ 0 ∧ 0 < q.g ∧ c = ⟨p.V, i, p, q, none⟩) ∨ (0 < p.g ∧ q.g ≤ 0 ∧ c = ⟨q.V, i, q, p, none⟩)

/-- Neighbouring solutions that are looked at: both moving and with damping of at most 3/4. -/
def PKUsed (p q : PKRoot) : Prop := ctol ≤ |p.V| ∧ ctol ≤ |q.V| ∧ |p.g| ≤ 3 / 4 ∧ |q.g| ≤ 3 / 4

theorem pkPairs_mem (i : Nat) (c : PKCross) : ∀ pts : List PKRoot, c ∈ pkPairs i pts ↔ ∃ (j : Nat) (p q : PKRoot), pts[j]? = some p ∧ pts[j + 1]? = some q ∧ PKUsed p q ∧ PKSign i p q c
  | [] => by simp [pkPairs]
  | [p] => by simp [pkPairs]
  | p :: q :: l => by
    have hhead : (c ∈ (if |p.V| < ctol ∨ |q.V| < ctol ∨ |p.g| > 3 / 4 ∨ |q.g| > 3 / 4 then []
        else if p.g ≤ 0 ∧ 0 < q.g then [(⟨p.V, i, p, q, none⟩ : PKCross)]
        else if 0 < p.g ∧ q.g ≤ 0 then [⟨q.V, i, q, p, none⟩]
        else [])) ↔ PKUsed p q ∧ PKSign i p q c := by
      unfold PKUsed PKSign
      split_ifs with h1 h2 h3
      · constructor
        · intro h; cases h
        · rintro ⟨⟨a1, a2, a3, a4⟩, -⟩
          rcases h1 with h | h | h | h <;> linarith
      · push Not at h1
        constructor
        · intro h; simp at h; exact ⟨h1, Or.inl ⟨h2.1, h2.2, h⟩⟩
        · rintro ⟨-, (⟨-, -, h⟩ | ⟨h, -⟩)⟩
          · simp [h]
          · linarith [h2.1]
      · push Not at h1
        constructor
        · intro h; simp at h; exact ⟨h1, Or.inr ⟨h3.1, h3.2, h⟩⟩
        · rintro ⟨-, (⟨h, -⟩ | ⟨-, -, h⟩)⟩
          · linarith [h3.1]
          · simp [h]
      · constructor
        · intro h; cases h
        · rintro ⟨-, (⟨a, b, -⟩ | ⟨a, b, -⟩)⟩
          · exact absurd ⟨a, b⟩ h2
          · exact absurd ⟨a, b⟩ h3
    rw [pkPairs, List.mem_append, hhead, pkPairs_mem i c (q :: l)]
    constructor
    · rintro (h | ⟨j, p', q', h1, h2, h3⟩)
      · exact ⟨0, p, q, rfl, rfl, h⟩
      · exact ⟨j + 1, p', q', h1, h2, h3⟩
    · rintro ⟨j, p', q', h1, h2, h3⟩
      rcases j with _ | j
      · simp at h1 h2; subst h1 h2; exact Or.inl h3
      · exact Or.inr ⟨j, p', q', h1, h2, h3⟩

/-- C97: besides those roots at rest, a crossover is recorded exactly for each pair of neighbouring usable velocities between which a retained mode changes the sign of its damping. -/
theorem C97_crossovers (modes : List (List PKRoot)) (c : PKCross) (hc : c.root = none) :
    c ∈ pkIdentify modes ↔ ∃ (i : Nat) (pts : List PKRoot), modes[i]? = some pts ∧ (∃ p ∈ pts, ctol ≤ |p.g|) ∧
      ∃ (j : Nat) (p q : PKRoot), pts[j]? = some p ∧ pts[j + 1]? = some q ∧ PKUsed p q ∧ PKSign i p q c := by
  have hfirst : ∀ i pts, c ∉ pkFirst i pts := by
    intro i pts h
    unfold pkFirst at h
    split at h
    · cases h
    · split_ifs at h
      · simp at h; rw [h] at hc; cases hc
      · cases h
  have hneg : ∀ pts : List PKRoot, pkNeglect pts = false ↔ ∃ p ∈ pts, ctol ≤ |p.g| := by
    have : ∀ (pts : List PKRoot) (a : ℝ), pts.foldl (fun a p => if |p.g| > a then |p.g| else a) a < ctol ↔ a < ctol ∧ ∀ p ∈ pts, |p.g| < ctol := by
      intro pts
      induction pts with
      | nil => simp
      | cons p pts ih =>
        intro a
        rw [List.foldl_cons, ih]
        simp only [List.mem_cons, forall_eq_or_imp]
        split_ifs with h
        · exact ⟨fun x => ⟨by linarith [x.1], x.1, x.2⟩, fun x => ⟨x.2.1, x.2.2⟩⟩
        · exact ⟨fun x => ⟨x.1, by linarith [x.1], x.2⟩, fun x => ⟨x.1, x.2.2⟩⟩
    intro pts
    rw [pkNeglect, decide_eq_false_iff_not, this]
    constructor
    · intro h
      by_contra hn
      push Not at hn
      exact h ⟨by norm_num [ctol], hn⟩
    · rintro ⟨p, hp, h⟩ h2
      exact absurd (h2.2 p hp) (not_lt.2 h)
  have hrev : ∀ i (pts : List PKRoot), c ∈ pkPairs i pts.reverse ↔ ∃ (j : Nat) (p q : PKRoot), pts[j]? = some p ∧ pts[j + 1]? = some q ∧ PKUsed p q ∧ PKSign i p q c := by
    intro i pts
    rw [pkPairs_mem]
    have sw : ∀ p q, PKUsed p q ∧ PKSign i p q c ↔ PKUsed q p ∧ PKSign i q p c := by
      intro p q
      unfold PKUsed PKSign
      constructor <;> rintro ⟨⟨a1, a2, a3, a4⟩, h⟩ <;> refine ⟨⟨a2, a1, a4, a3⟩, ?_⟩ <;> rcases h with ⟨x, y, z⟩ | ⟨x, y, z⟩
      · exact Or.inr ⟨y, x, z⟩
      · exact Or.inl ⟨y, x, z⟩
      · exact Or.inr ⟨y, x, z⟩
      · exact Or.inl ⟨y, x, z⟩
    constructor
    · rintro ⟨j, p, q, h1, h2, h3⟩
      have hj2 : j + 1 < pts.length := by have := (List.getElem?_eq_some_iff.1 h2).1; simpa using this
      rw [List.getElem?_reverse (by omega)] at h1
      rw [List.getElem?_reverse (by omega)] at h2
      refine ⟨pts.length - 1 - (j + 1), q, p, h2, ?_, (sw p q).1 h3⟩
      rw [show pts.length - 1 - (j + 1) + 1 = pts.length - 1 - j by omega]; exact h1
    · rintro ⟨j, p, q, h1, h2, h3⟩
      have hj2 : j + 1 < pts.length := (List.getElem?_eq_some_iff.1 h2).1
      refine ⟨pts.length - 1 - (j + 1), q, p, ?_, ?_, (sw p q).1 h3⟩
      · rw [List.getElem?_reverse (by omega), show pts.length - 1 - (pts.length - 1 - (j + 1)) = j + 1 by omega]; exact h2
      · rw [List.getElem?_reverse (by omega), show pts.length - 1 - (pts.length - 1 - (j + 1) + 1) = j by omega]; exact h1
  rw [pkIdentify, List.mem_append, List.mem_flatMap, List.mem_flatMap]
  constructor
  · rintro (⟨x, -, h⟩ | ⟨⟨pts, i⟩, hx, h⟩)
    · exact absurd h (hfirst _ _)
    · dsimp only at h
      split_ifs at h with hn
      · cases h
      · refine ⟨i, pts, ?_, (hneg pts).1 (by simpa using hn), (hrev i pts).1 h⟩
        exact List.mem_zipIdx_iff_getElem?.1 hx
  · rintro ⟨i, pts, hi, hn, h⟩
    right
    refine ⟨(pts, i), List.mem_zipIdx_iff_getElem?.2 hi, ?_⟩
    dsimp only
    rw [if_neg (by rw [(hneg pts).2 hn]; simp)]
    exact (hrev i pts).2 h

/-- Non-vacuity: one mode going unstable between velocities 1 and 2. -/
example : (⟨1, 0, ⟨1, 1, -1 / 2, 1, 0⟩, ⟨1, 2, 1 / 2, 1, 0⟩, none⟩ : PKCross) ∈ pkIdentify [[⟨1, 1, -1 / 2, 1, 0⟩, ⟨1, 2, 1 / 2, 1, 0⟩]] :=
  (C97_crossovers _ _ rfl).2 ⟨0, _, rfl, ⟨_, List.mem_cons_self, by norm_num [ctol]⟩, 0, _, _, rfl, rfl, by norm_num [PKUsed, ctol], Or.inl (by norm_num)⟩

end Verif.PKFlutter
