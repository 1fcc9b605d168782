import Verif.Model.StoredSol
import Mathlib.Data.Nat.Digits.Lemmas
import Mathlib.Tactic.Linarith
import Mathlib.Data.Fin.VecNotation
/-!
  C196: vectors stored in files are read back as they were written.
-/
namespace Verif.StoredSol
open Verif

/-! ### Specification -/

/-- A write as the user asks for it: a run, a vector, a place. -/
structure Write where
  m : Nat
  R : Run m
  ver : Path
  v : Fin m → ℝ
  dir : Path
  name : Path
  binary : Bool

/-- The write carried out. -/
def Write.run (w : Write) (D : Disk) : Disk := writeOut w.R w.ver w.v w.dir w.name w.binary D

/-- The numbering of a run gives every unknown its own dof. -/
def Run.Ok {m : Nat} (R : Run m) : Prop := Function.Bijective R.num

/-- What the file should hold. -/
def Parts.all {β : Type} (P : Parts β) : List β := P.version ++ P.header ++ P.vals

/-! ### Names -/

lemma slash_split {a b c d : Path} (hb : '/' ∉ b) (hd : '/' ∉ d) (h : a ++ '/' :: b = c ++ '/' :: d) : a = c ∧ b = d := by
  induction a generalizing c with
  | nil => cases c with
    | nil => simpa using h
    | cons x c =>
      simp only [List.nil_append, List.cons_append, List.cons.injEq] at h
      exact absurd (h.2 ▸ by simp) hb
  | cons y a ih => cases c with
    | nil =>
      simp only [List.nil_append, List.cons_append, List.cons.injEq] at h
      exact absurd (h.2 ▸ by simp) hd
    | cons x c =>
      simp only [List.cons_append, List.cons.injEq] at h
      obtain ⟨h1, h2⟩ := ih h.2
      exact ⟨by rw [h.1, h1], h2⟩

lemma no_slash_suffix {name : Path} (h : '/' ∉ name) (b : Bool) : '/' ∉ name ++ ("_data".toList ++ (if b then ".xdr".toList else ".dat".toList)) := by
  cases b <;> simp [h]

/-- Directories, names (without a slash) and formats never share a file. -/
theorem C196_paths {dir dir' name name' : Path} {b b' : Bool} (h : '/' ∉ name) (h' : '/' ∉ name') :
    dataPath dir name b = dataPath dir' name' b' ↔ dir = dir' ∧ name = name' ∧ b = b' := by
  refine ⟨fun e => ?_, by rintro ⟨rfl, rfl, rfl⟩; rfl⟩
  obtain ⟨h1, h2⟩ := slash_split (no_slash_suffix h b) (no_slash_suffix h' b') e
  have h3 := List.append_inj' h2 (by cases b <;> cases b' <;> rfl)
  refine ⟨h1, h3.1, ?_⟩
  have h4 := List.append_cancel_left h3.2
  cases b <;> cases b' <;> first | rfl | exact absurd h4 (by decide)

/-- With a slash in the name two requests can share a file. -/
theorem C196_paths_fails : ∃ dir dir' name name' : Path, (dir, name) ≠ (dir', name') ∧ dataPath dir name true = dataPath dir' name' true :=
  ⟨"a".toList, "a/b".toList, "b/c".toList, "c".toList, by decide, by decide⟩

lemma digitChar_inj : ∀ a < 10, ∀ b < 10, Nat.digitChar a = Nat.digitChar b → a = b := by decide

lemma map_digit_inj : ∀ {l l' : List Nat}, (∀ a ∈ l, a < 10) → (∀ a ∈ l', a < 10) → l.map Nat.digitChar = l'.map Nat.digitChar → l = l'
  | [], [], _, _, _ => rfl
  | [], _ :: _, _, _, h => by cases h
  | _ :: _, [], _, _, h => by cases h
  | a :: l, b :: l', h1, h2, h => by
    simp only [List.map_cons, List.cons.injEq] at h
    rw [digitChar_inj a (h1 a (by simp)) b (h2 b (by simp)) h.1,
      map_digit_inj (fun x hx => h1 x (by simp [hx])) (fun x hx => h2 x (by simp [hx])) h.2]

lemma decimal_eq {i : Nat} : ∃ l : List Nat, decimal i = l.map Nat.digitChar ∧ (∀ a ∈ l, a < 10) ∧ Nat.ofDigits 10 l.reverse = i := by
  by_cases h : i = 0
  · exact ⟨[0], by simp [decimal, h, Nat.digitChar], by simp, by simp [h]⟩
  · refine ⟨(Nat.digits 10 i).reverse, by simp [decimal, h], fun a ha => ?_, ?_⟩
    · exact Nat.digits_lt_base (by norm_num) (List.mem_reverse.1 ha)
    · rw [List.reverse_reverse, Nat.ofDigits_digits]

/-- The steps of one analysis have files of their own. -/
theorem C196_steps (root : Path) (i j : Nat) : stepName root i = stepName root j ↔ i = j := by
  refine ⟨fun h => ?_, fun h => by rw [h]⟩
  have h1 : decimal i = decimal j := List.append_cancel_left h
  obtain ⟨l, hl, hd, hi⟩ := decimal_eq (i := i)
  obtain ⟨l', hl', hd', hj⟩ := decimal_eq (i := j)
  rw [hl, hl'] at h1
  rw [← hi, ← hj, map_digit_inj hd hd' h1]

/-- Two analyses with roots of which one continues the other by digits share files. -/
theorem C196_steps_fails : ∃ (r r' : Path) (i j : Nat), r ≠ r' ∧ stepName r i = stepName r' j :=
  ⟨"sol".toList, "sol1".toList, 12, 2, by decide, by decide⟩

example : stepName "sol".toList 120 = "sol120".toList := by decide
example : dataPath "out".toList (stepName "sol".toList 7) true = "out/sol7_data.xdr".toList := by decide

/-! ### Contents -/

lemma foldl_update_mem {m : Nat} (num : Fin m → Fin m) (hn : Function.Injective num) (val : Fin m → ℝ) :
    ∀ (l : List (Fin m)) (w : Fin m → ℝ) (k : Fin m), k ∈ l → (l.foldl (fun w k => Function.update w (num k) (val k)) w) (num k) = val k := by
  intro l
  induction l using List.reverseRecOn with
  | nil => intro w k h; simp at h
  | append_singleton l a ih =>
    intro w k h
    rw [List.foldl_append, List.foldl_cons, List.foldl_nil]
    by_cases hk : k = a
    · subst hk; simp
    · have : k ∈ l := by simpa [hk] using h
      rw [Function.update_of_ne (fun e => hk (hn e))]
      exact ih w k this

lemma place_at {m : Nat} {R : Run m} (hR : R.Ok) (vals : List ℝ) (old : Fin m → ℝ) (k : Fin m) : place R vals old (R.num k) = vals.getD k 0 :=
  foldl_update_mem R.num hR.1 (fun k => vals.getD k 0) (List.finRange m) old k (List.mem_finRange k)

lemma label_found (ver : Path) : hasLabel (label ++ ver) = true := by
  unfold hasLabel
  rw [List.any_eq_true]
  exact ⟨label ++ ver, by simp, by simp⟩

lemma others_kept (p : Path) : ∀ (ws : List Write) (D : Disk), (∀ w ∈ ws, dataPath w.dir w.name w.binary ≠ p) → (ws.foldl (fun D w => w.run D) D) p = D p
  | [], _, _ => rfl
  | w :: ws, D, h => by
    rw [List.foldl_cons, others_kept p ws _ fun x hx => h x (List.mem_cons_of_mem _ hx)]
    exact Function.update_of_ne (h w (by simp)).symm _ _

/-- Reading after any later writes to other files, in a run with any other numbering: every unknown gets its value. -/
theorem C196_stored {m : Nat} (R R' : Run m) (hR' : R'.Ok) (ver : Path) (v old : Fin m → ℝ) (dir name : Path) (b : Bool) (D : Disk) (later : List Write)
    (hl : ∀ w ∈ later, dataPath w.dir w.name w.binary ≠ dataPath dir name b) :
    ∃ u, readIn R' old dir name b (later.foldl (fun D w => w.run D) (writeOut R ver v dir name b D)) = .ok u ∧ ∀ k, u (R'.num k) = v (R.num k) := by
  refine ⟨place R' ((List.finRange m).map fun k => v (R.num k)) old, ?_, fun k => ?_⟩
  · unfold readIn
    rw [others_kept _ _ _ hl]
    unfold writeOut
    rw [Function.update_self]
    simp only [label_found, List.length_map, List.length_finRange, if_true]
  · rw [place_at hR']
    simp

/-- The same in the terms of the user: other directories, names or formats do not matter. -/
theorem C196_names {m : Nat} (R R' : Run m) (hR' : R'.Ok) (ver : Path) (v old : Fin m → ℝ) (dir name : Path) (b : Bool) (D : Disk) (later : List Write)
    (hn : '/' ∉ name) (hl : ∀ w ∈ later, '/' ∉ w.name ∧ (w.dir, w.name, w.binary) ≠ (dir, name, b)) :
    ∃ u, readIn R' old dir name b (later.foldl (fun D w => w.run D) (writeOut R ver v dir name b D)) = .ok u ∧ ∀ k, u (R'.num k) = v (R.num k) := by
  refine C196_stored R R' hR' ver v old dir name b D later fun w hw e => ?_
  obtain ⟨h1, h2⟩ := hl w hw
  obtain ⟨a, c, d⟩ := (C196_paths h1 hn).1 e
  exact h2 (by rw [a, c, d])

/-- In the same run, the vector itself comes back. -/
theorem C196_same {m : Nat} (R : Run m) (hR : R.Ok) (ver : Path) (v old : Fin m → ℝ) (dir name : Path) (b : Bool) (D : Disk) :
    readIn R old dir name b (writeOut R ver v dir name b D) = .ok v := by
  obtain ⟨u, h1, h2⟩ := C196_stored R R hR ver v old dir name b D [] (by simp)
  rw [List.foldl_nil] at h1
  rw [h1]
  congr 1
  funext i
  obtain ⟨k, rfl⟩ := hR.2 i
  exact h2 k

/-- Step by step: the steps written by one analysis are read back, whatever the number of steps. -/
theorem C196_history {m : Nat} (R R' : Run m) (hR' : R'.Ok) (ver : Path) (x : Nat → Fin m → ℝ) (old : Fin m → ℝ) (dir root : Path) (hr : '/' ∉ root) (D : Disk) (n i : Nat) (hi : i < n) :
    ∃ u, readIn R' old dir (stepName root i) true ((List.range n).foldl (fun D j => writeOut R ver (x j) dir (stepName root j) true D) D) = .ok u ∧ ∀ k, u (R'.num k) = x i (R.num k) := by
  have hs : ∀ j, '/' ∉ stepName root j := by
    intro j hj
    rcases List.mem_append.1 hj with h | h
    · exact hr h
    · obtain ⟨l, hl, hd, -⟩ := decimal_eq (i := j)
      rw [hl] at h
      obtain ⟨a, ha, e⟩ := List.mem_map.1 h
      have : ∀ a < 10, Nat.digitChar a ≠ '/' := by decide
      exact this a (hd a ha) e
  have hw : (List.range n).foldl (fun D j => writeOut R ver (x j) dir (stepName root j) true D) D =
      (((List.range' (i + 1) (n - (i + 1))).map fun j => (⟨m, R, ver, x j, dir, stepName root j, true⟩ : Write)).foldl (fun D w => w.run D)
        (writeOut R ver (x i) dir (stepName root i) true ((List.range i).foldl (fun D j => writeOut R ver (x j) dir (stepName root j) true D) D))) := by
    have e : List.range n = List.range i ++ i :: List.range' (i + 1) (n - (i + 1)) := by
      rw [List.range_eq_range', List.range_eq_range', show n = i + (1 + (n - (i + 1))) by omega, ← List.range'_append_1, ← List.range'_append_1]
      simp [show i + (1 + (n - (i + 1))) - (i + 1) = n - (i + 1) by omega]
    rw [e, List.foldl_append, List.foldl_cons, List.foldl_map]
    rfl
  rw [hw]
  refine C196_names R R' hR' ver (x i) old dir (stepName root i) true _ _ (hs i) fun w h => ?_
  obtain ⟨j, hj, rfl⟩ := List.mem_map.1 h
  refine ⟨hs j, fun e => ?_⟩
  simp only [Prod.mk.injEq, C196_steps] at e
  rw [List.mem_range'_1] at hj
  omega

/-- Nothing of that name written: an error. -/
theorem C196_missing {m : Nat} (R : Run m) (old : Fin m → ℝ) (dir name : Path) (b : Bool) (later : List Write)
    (hl : ∀ w ∈ later, dataPath w.dir w.name w.binary ≠ dataPath dir name b) : readIn R old dir name b (later.foldl (fun D w => w.run D) fun _ => none) = .error .error := by
  unfold readIn
  rw [others_kept _ _ _ hl]

example : ∃ u, readIn (⟨![1, 0]⟩ : Run 2) 0 "d".toList "b".toList true
    ([(⟨3, ⟨id⟩, [], 0, "d".toList, "c".toList, true⟩ : Write)].foldl (fun D w => w.run D) (writeOut (⟨id⟩ : Run 2) "1.6.0".toList ![3, 4] "d".toList "b".toList true fun _ => none)) = .ok u ∧
      u 1 = 3 ∧ u 0 = 4 := by
  obtain ⟨u, h, hk⟩ := C196_names (⟨id⟩ : Run 2) ⟨![1, 0]⟩ ⟨by decide, by decide⟩ "1.6.0".toList ![3, 4] 0 "d".toList "b".toList true (fun _ => none)
    [(⟨3, ⟨id⟩, [], 0, "d".toList, "c".toList, true⟩ : Write)] (by decide) (by
      intro w hw
      simp only [List.mem_singleton] at hw
      subst hw
      exact ⟨by decide, by decide⟩)
  exact ⟨u, h, by simpa using hk 0, by simpa using hk 1⟩

/-! ### Processes -/

section
variable {β : Type} {z : β} {N cap : Nat} {P : Parts β} {old : List β}

/-- What process `k` has written before its statement `c`. -/
def Parts.upto (P : Parts β) (k c : Nat) : List β :=
  if c ≤ 1 then [] else if k = 0 then if c ≤ 2 then P.version else if c ≤ 4 then P.version ++ P.header else P.all else P.version

lemma upto_prefix (P : Parts β) (k c : Nat) : P.upto k c <+: P.all := by
  unfold Parts.upto Parts.all
  split_ifs
  · exact List.nil_prefix
  · rw [List.append_assoc]; exact List.prefix_append _ _
  · exact List.prefix_append _ _
  · exact List.prefix_rfl
  · rw [List.append_assoc]; exact List.prefix_append _ _

lemma upto_put (P : Parts β) {k c : Nat} (hc : c = 1 ∨ c = 2 ∨ c = 4) : P.upto k (c + 1) = P.upto k c ++ P.by k c := by
  rcases hc with rfl | rfl | rfl <;> by_cases hk : k = 0 <;> simp [Parts.upto, Parts.by, Parts.all, hk]

lemma overlay_prefix {F f b : List β} {p : Nat} (hf : f <+: F) (hp : p ≤ f.length) (hb : b <+: F.drop p) :
    overlay z f p b <+: F ∧ f.length ≤ (overlay z f p b).length ∧ p + b.length ≤ (overlay z f p b).length := by
  obtain ⟨t, rfl⟩ := hf
  have h0 : p - f.length = 0 := by omega
  have e : overlay z f p b = f.take p ++ b ++ f.drop (p + b.length) := by simp [overlay, h0]
  have hlen : (overlay z f p b).length = max f.length (p + b.length) := by
    rw [e]; simp; omega
  refine ⟨?_, by omega, by omega⟩
  rw [e]
  obtain ⟨s, hs⟩ := hb
  have h1 : f.take p ++ (b ++ s) = f ++ t := by
    rw [hs, List.drop_append_of_le_length hp, ← List.append_assoc, List.take_append_drop]
  have h2 : (f ++ t).take (p + b.length) = f.take p ++ b := by
    rw [← h1, ← List.append_assoc]
    apply List.take_left'
    simp; omega
  by_cases hc : p + b.length ≤ f.length
  · rw [List.take_append_of_le_length hc] at h2
    rw [← h2, List.take_append_drop]
    exact List.prefix_append _ _
  · rw [List.drop_eq_nil_of_le (by omega), List.append_nil, ← h2]
    exact List.take_prefix _ _

/-- What holds in every reached world. -/
structure Inv (N : Nat) (P : Parts β) (w : World β) : Prop where
  top : ∀ k, (w.proc k).pc ≤ 6
  out : ∀ k, N ≤ k → (w.proc k).pc = 0
  pos : ∀ k, (w.proc k).pos ≤ (P.upto k (w.proc k).pc).length
  buf : ∀ k, (w.proc k).buf = (P.upto k (w.proc k).pc).drop (w.proc k).pos
  done : ∀ k, (w.proc k).pc = 6 → (w.proc k).buf = []
  early : (∃ j, j < N ∧ (w.proc j).pc ≤ 2) → ∀ k, (w.proc k).pc ≤ 3
  open0 : (∃ j, j < N ∧ (w.proc j).pc = 0) → ∀ k, (w.proc k).pos = 0
  file : (∀ j, j < N → 1 ≤ (w.proc j).pc) → w.file <+: P.all ∧ ∀ k, (w.proc k).pos ≤ w.file.length

lemma set_self (w : World β) (k : Nat) (p : Proc β) : (w.set k p).proc k = p := Function.update_self _ _ _
lemma set_ne (w : World β) {k j : Nat} (h : j ≠ k) (p : Proc β) : (w.set k p).proc j = w.proc j := Function.update_of_ne h _ _

lemma inv_start (hN : 0 < N) : Inv N P (World.start old) where
  top _ := Nat.zero_le _
  out _ _ := rfl
  pos _ := Nat.zero_le _
  buf k := by simp [World.start, Parts.upto]
  done _ h := by cases h
  early _ _ := Nat.zero_le _
  open0 _ _ := rfl
  file h := absurd (h 0 hN) (by simp [World.start])

lemma inv_step (H : N = 1 ∨ P.version.length + P.header.length < cap) {w w' : World β} (I : Inv N P w) (s : Step z N cap P w w') : Inv N P w' := by
  have small : ∀ k, (w.proc k).pc ≤ 3 → (P.upto k (w.proc k).pc).length ≤ P.version.length + P.header.length := by
    intro k hk
    unfold Parts.upto
    split_ifs <;> (try simp only [List.length_nil, List.length_append]) <;> omega
  cases s with
  | @opn k hk h0 =>
    have hp := I.open0 ⟨k, hk, h0⟩
    refine ⟨fun j => ?_, fun j hj => ?_, fun j => ?_, fun j => ?_, fun j => ?_, fun _ j => ?_, fun _ j => ?_, fun _ => ⟨List.nil_prefix, fun j => ?_⟩⟩ <;>
      by_cases e : j = k <;> first | (subst e; rw [set_self]) | rw [set_ne _ e]
    · show 1 ≤ 6; omega
    · exact I.top j
    · omega
    · exact I.out j hj
    · exact Nat.zero_le _
    · exact I.pos j
    · simp [Parts.upto]
    · exact I.buf j
    · intro h; rfl
    · exact I.done j
    · show 1 ≤ 3; omega
    · exact I.early ⟨k, hk, by omega⟩ j
    · exact hp j
    · exact Nat.zero_le _
    · exact (hp j).le
  | @put k hk hc =>
    have hlen : (w.proc k).pos ≤ (P.upto k ((w.proc k).pc + 1)).length := by
      rw [upto_put P hc, List.length_append]; exact le_trans (I.pos k) (Nat.le_add_right _ _)
    refine ⟨fun j => ?_, fun j hj => ?_, fun j => ?_, fun j => ?_, fun j => ?_, ?_, ?_, ?_⟩
    · by_cases e : j = k
      · subst e; rw [set_self]; dsimp only; omega
      · rw [set_ne _ e]; exact I.top j
    · by_cases e : j = k
      · omega
      · rw [set_ne _ e]; exact I.out j hj
    · by_cases e : j = k
      · subst e; rw [set_self]; exact hlen
      · rw [set_ne _ e]; exact I.pos j
    · by_cases e : j = k
      · subst e; rw [set_self]; dsimp only
        rw [upto_put P hc, List.drop_append_of_le_length (I.pos j), ← I.buf j]
      · rw [set_ne _ e]; exact I.buf j
    · by_cases e : j = k
      · subst e; rw [set_self]; dsimp only; intro h; omega
      · rw [set_ne _ e]; exact I.done j
    · rintro ⟨j, hj, h2⟩
      have ho : ∃ j, j < N ∧ (w.proc j).pc ≤ 2 := by
        by_cases e : j = k
        · subst e; rw [set_self] at h2; dsimp only at h2; exact ⟨j, hj, by omega⟩
        · rw [set_ne _ e] at h2; exact ⟨j, hj, h2⟩
      have h3 := I.early ho
      intro i
      by_cases e : i = k
      · subst e; rw [set_self]; dsimp only; have := h3 i; omega
      · rw [set_ne _ e]; exact h3 i
    · rintro ⟨j, hj, h2⟩ i
      have ho : ∃ j, j < N ∧ (w.proc j).pc = 0 := by
        by_cases e : j = k
        · subst e; rw [set_self] at h2; cases h2
        · rw [set_ne _ e] at h2; exact ⟨j, hj, h2⟩
      by_cases e : i = k
      · subst e; rw [set_self]; exact I.open0 ho i
      · rw [set_ne _ e]; exact I.open0 ho i
    · intro h
      have h' := I.file fun j hj => by
        have := h j hj
        by_cases e : j = k
        · subst e; omega
        · rwa [set_ne _ e] at this
      refine ⟨h'.1, fun i => ?_⟩
      by_cases e : i = k
      · subst e; rw [set_self]; exact h'.2 i
      · rw [set_ne _ e]; exact h'.2 i
  | @meet k hk h0 hall =>
    have hu : P.upto k 4 = P.upto k 3 := by unfold Parts.upto; simp
    refine ⟨fun j => ?_, fun j hj => ?_, fun j => ?_, fun j => ?_, fun j => ?_, ?_, ?_, ?_⟩
    · by_cases e : j = k
      · subst e; rw [set_self]; dsimp only; omega
      · rw [set_ne _ e]; exact I.top j
    · by_cases e : j = k
      · omega
      · rw [set_ne _ e]; exact I.out j hj
    · by_cases e : j = k
      · subst e; rw [set_self]; dsimp only; rw [hu, ← h0]; exact I.pos j
      · rw [set_ne _ e]; exact I.pos j
    · by_cases e : j = k
      · subst e; rw [set_self]; dsimp only; rw [hu]; have := I.buf j; rwa [h0] at this
      · rw [set_ne _ e]; exact I.buf j
    · by_cases e : j = k
      · subst e; rw [set_self]; dsimp only; intro h; omega
      · rw [set_ne _ e]; exact I.done j
    · rintro ⟨j, hj, h2⟩
      exfalso
      by_cases e : j = k
      · subst e; rw [set_self] at h2; dsimp only at h2; omega
      · rw [set_ne _ e] at h2; have := hall j hj; omega
    · rintro ⟨j, hj, h2⟩
      exfalso
      by_cases e : j = k
      · subst e; rw [set_self] at h2; cases h2
      · rw [set_ne _ e] at h2; have := hall j hj; omega
    · intro h
      have h' := I.file fun j hj => by have := hall j hj; omega
      refine ⟨h'.1, fun i => ?_⟩
      by_cases e : i = k
      · subst e; rw [set_self]; exact h'.2 i
      · rw [set_ne _ e]; exact h'.2 i
  | @flush k a hk hcap ha =>
    have hbl : (w.proc k).buf.length = (P.upto k (w.proc k).pc).length - (w.proc k).pos := by rw [I.buf k, List.length_drop]
    have hpl := I.pos k
    refine ⟨fun j => ?_, fun j hj => ?_, fun j => ?_, fun j => ?_, fun j => ?_, ?_, ?_, ?_⟩
    · by_cases e : j = k
      · subst e; rw [set_self]; exact I.top j
      · rw [set_ne _ e]; exact I.top j
    · by_cases e : j = k
      · omega
      · rw [set_ne _ e]; exact I.out j hj
    · by_cases e : j = k
      · subst e; rw [set_self]; dsimp only; omega
      · rw [set_ne _ e]; exact I.pos j
    · by_cases e : j = k
      · subst e; rw [set_self]; dsimp only; rw [I.buf j, List.drop_drop]
      · rw [set_ne _ e]; exact I.buf j
    · by_cases e : j = k
      · subst e; rw [set_self]; intro h; show List.drop a _ = []; rw [I.done j h]; simp
      · rw [set_ne _ e]; exact I.done j
    · rintro ⟨j, hj, h2⟩
      have ho : ∃ j, j < N ∧ (w.proc j).pc ≤ 2 := by
        by_cases e : j = k
        · subst e; rw [set_self] at h2; exact ⟨j, hj, h2⟩
        · rw [set_ne _ e] at h2; exact ⟨j, hj, h2⟩
      intro i
      by_cases e : i = k
      · subst e; rw [set_self]; exact I.early ho i
      · rw [set_ne _ e]; exact I.early ho i
    · rintro ⟨j, hj, h2⟩ i
      have ho : ∃ j, j < N ∧ (w.proc j).pc = 0 := by
        by_cases e : j = k
        · subst e; rw [set_self] at h2; exact ⟨j, hj, h2⟩
        · rw [set_ne _ e] at h2; exact ⟨j, hj, h2⟩
      by_cases e : i = k
      · subst e; rw [set_self]; dsimp only
        obtain ⟨l, hl, hl0⟩ := ho
        have h3 := I.open0 ⟨l, hl, hl0⟩ i
        have h4 := I.early ⟨l, hl, by omega⟩ i
        have h5 := small i h4
        rcases H with H | H
        · have : i = l := by omega
          subst this
          have : (P.upto i (w.proc i).pc).length = 0 := by rw [hl0]; rfl
          omega
        · omega
      · rw [set_ne _ e]; exact I.open0 ho i
    · intro h
      have h' := I.file fun j hj => by
        have := h j hj
        by_cases e : j = k
        · subst e; rwa [set_self] at this
        · rwa [set_ne _ e] at this
      have hb : (w.proc k).buf.take a <+: P.all.drop (w.proc k).pos := by
        refine (List.take_prefix _ _).trans ?_
        rw [I.buf k]
        obtain ⟨t, ht⟩ := upto_prefix P k (w.proc k).pc
        rw [← ht, List.drop_append_of_le_length hpl]
        exact List.prefix_append _ _
      obtain ⟨h1, h2, h3⟩ := overlay_prefix (z := z) h'.1 (h'.2 k) hb
      refine ⟨h1, fun i => ?_⟩
      by_cases e : i = k
      · subst e; rw [set_self]; dsimp only
        have : ((w.proc i).buf.take a).length = a := by simp; omega
        rw [this] at h3
        exact h3
      · rw [set_ne _ e]; exact le_trans (h'.2 i) h2
  | @close k hk h5 =>
    have hbl : (w.proc k).buf.length = (P.upto k (w.proc k).pc).length - (w.proc k).pos := by rw [I.buf k, List.length_drop]
    have hpl := I.pos k
    have hu : P.upto k 6 = P.upto k 5 := by unfold Parts.upto; simp
    rw [h5] at hbl hpl
    refine ⟨fun j => ?_, fun j hj => ?_, fun j => ?_, fun j => ?_, fun j => ?_, ?_, ?_, ?_⟩
    · by_cases e : j = k
      · subst e; rw [set_self]
      · rw [set_ne _ e]; exact I.top j
    · by_cases e : j = k
      · omega
      · rw [set_ne _ e]; exact I.out j hj
    · by_cases e : j = k
      · subst e; rw [set_self]; dsimp only; rw [hu]; omega
      · rw [set_ne _ e]; exact I.pos j
    · by_cases e : j = k
      · subst e; rw [set_self]; dsimp only; rw [hu, List.drop_eq_nil_of_le (by omega)]
      · rw [set_ne _ e]; exact I.buf j
    · by_cases e : j = k
      · subst e; rw [set_self]; intro; rfl
      · rw [set_ne _ e]; exact I.done j
    · rintro ⟨j, hj, h2⟩
      exfalso
      by_cases e : j = k
      · subst e; rw [set_self] at h2; dsimp only at h2; omega
      · rw [set_ne _ e] at h2; have := I.early ⟨j, hj, h2⟩ k; omega
    · rintro ⟨j, hj, h2⟩
      exfalso
      by_cases e : j = k
      · subst e; rw [set_self] at h2; cases h2
      · rw [set_ne _ e] at h2; have := I.early ⟨j, hj, by have : (w.proc j).pc = 0 := h2; omega⟩ k; omega
    · intro h
      have h' := I.file fun j hj => by
        have := h j hj
        by_cases e : j = k
        · subst e; omega
        · rwa [set_ne _ e] at this
      have hb : (w.proc k).buf <+: P.all.drop (w.proc k).pos := by
        rw [I.buf k]
        obtain ⟨t, ht⟩ := upto_prefix P k (w.proc k).pc
        rw [← ht, List.drop_append_of_le_length (I.pos k)]
        exact List.prefix_append _ _
      obtain ⟨h1, h2, h3⟩ := overlay_prefix (z := z) h'.1 (h'.2 k) hb
      refine ⟨h1, fun i => ?_⟩
      by_cases e : i = k
      · subst e; rw [set_self]; exact h3
      · rw [set_ne _ e]; exact le_trans (h'.2 i) h2

lemma inv_reach (hN : 0 < N) (H : N = 1 ∨ P.version.length + P.header.length < cap) {w : World β} (r : Reach z N cap P old w) : Inv N P w := by
  induction r with
  | start => exact inv_start hN
  | step _ s ih => exact inv_step H ih s

/-- Whatever the order of the processes and the moments at which buffers are written out, once process 0 is through and until the next call the file holds version, header and values:
when there is one process, or when version and header fit into the buffer. -/
theorem C196_schedule_partial (hN : 0 < N) (H : N = 1 ∨ P.version.length + P.header.length < cap) {w : World β} (r : Reach z N cap P old w) (h : (w.proc 0).pc = 6) :
    w.file = P.version ++ P.header ++ P.vals := by
  have I := inv_reach hN H r
  have h1 : ∀ j, j < N → 1 ≤ (w.proc j).pc := by
    intro j hj
    by_contra hc
    have := I.early ⟨j, hj, by omega⟩ 0
    omega
  obtain ⟨h2, h3⟩ := I.file h1
  have h4 : (P.upto 0 6).length - (w.proc 0).pos = 0 := by
    have := I.done 0 h
    rw [I.buf 0, h] at this
    have := congrArg List.length this
    simpa using this
  have h5 : P.upto 0 6 = P.all := by simp [Parts.upto]
  rw [h5] at h4
  have := h3 0
  exact h2.eq_of_length (le_antisymm h2.length_le (by omega))

/-- No order leads into a state from which the processes cannot finish. -/
theorem C196_progress {w : World β} (r : Reach z N cap P old w) (h : ∃ k, k < N ∧ (w.proc k).pc ≠ 6) :
    ∃ w' k, Step z N cap P w w' ∧ k < N ∧ (w'.proc k).pc = (w.proc k).pc + 1 ∧ ∀ j, j ≠ k → w'.proc j = w.proc j := by
  have top : ∀ k, (w.proc k).pc ≤ 6 := by
    clear h
    induction r with
    | start => intro k; exact Nat.zero_le _
    | @step w w' _ s ih =>
      intro j
      cases s with
      | @opn k => by_cases e : j = k
                  · subst e; rw [set_self]; show 1 ≤ 6; omega
                  · rw [set_ne _ e]; exact ih j
      | @put k _ hc => by_cases e : j = k
                       · subst e; rw [set_self]; dsimp only; omega
                       · rw [set_ne _ e]; exact ih j
      | @meet k => by_cases e : j = k
                   · subst e; rw [set_self]; show 4 ≤ 6; omega
                   · rw [set_ne _ e]; exact ih j
      | @flush k => by_cases e : j = k
                    · subst e; rw [set_self]; exact ih j
                    · rw [set_ne _ e]; exact ih j
      | @close k => by_cases e : j = k
                    · subst e; rw [set_self]
                    · rw [set_ne _ e]; exact ih j
  by_cases hb : ∃ k, k < N ∧ (w.proc k).pc ≤ 2
  · obtain ⟨k, hk, h2⟩ := hb
    by_cases h0 : (w.proc k).pc = 0
    · exact ⟨_, k, .opn hk h0, hk, by rw [set_self, h0], fun j hj => by rw [set_ne _ hj]⟩
    · exact ⟨_, k, .put hk (by omega), hk, by rw [set_self], fun j hj => by rw [set_ne _ hj]⟩
  · obtain ⟨k, hk, h6⟩ := h
    have hall : ∀ j, j < N → 3 ≤ (w.proc j).pc := fun j hj => by
      by_contra hc
      exact hb ⟨j, hj, by omega⟩
    have := hall k hk
    have := top k
    by_cases h3 : (w.proc k).pc = 3
    · exact ⟨_, k, .meet hk h3 hall, hk, by rw [set_self, h3], fun j hj => by rw [set_ne _ hj]⟩
    · by_cases h4 : (w.proc k).pc = 4
      · exact ⟨_, k, .put hk (by omega), hk, by rw [set_self], fun j hj => by rw [set_ne _ hj]⟩
      · have h5 : (w.proc k).pc = 5 := by omega
        exact ⟨_, k, .close hk h5, hk, by rw [set_self, h5], fun j hj => by rw [set_ne _ hj]⟩

/-- An earlier vector of the same name is lost as soon as a process has opened the file: a crash after that leaves neither. -/
theorem C196_crash_fails (hN : 0 < N) (old : List β) : ∃ w, Reach z N cap P old w ∧ w.file = [] ∧ ∀ k, (w.proc k).pc ≤ 1 := by
  refine ⟨_, .step .start (.opn hN rfl), rfl, fun j => ?_⟩
  by_cases e : j = 0
  · subst e; rw [set_self]
  · rw [set_ne _ e]; exact Nat.zero_le _

end

/-- Executable schedules: process and what it does (`none`: its next statement; `some a`: `a` bytes written out). -/
def act (P : Parts Nat) (w : World Nat) (k : Nat) : Option Nat → World Nat
  | some a => ({ w with file := overlay 0 w.file (w.proc k).pos ((w.proc k).buf.take a) } : World Nat).set k ⟨(w.proc k).pc, (w.proc k).buf.drop a, (w.proc k).pos + a⟩
  | none => if (w.proc k).pc = 0 then ({ w with file := [] } : World Nat).set k ⟨1, [], 0⟩
    else if (w.proc k).pc = 3 then w.set k ⟨4, (w.proc k).buf, (w.proc k).pos⟩
    else if (w.proc k).pc = 5 then ({ w with file := overlay 0 w.file (w.proc k).pos (w.proc k).buf } : World Nat).set k ⟨6, [], (w.proc k).pos + (w.proc k).buf.length⟩
    else w.set k ⟨(w.proc k).pc + 1, (w.proc k).buf ++ P.by k (w.proc k).pc, (w.proc k).pos⟩

/-- The action is one the processes can take. -/
def may (N cap : Nat) (w : World Nat) (k : Nat) : Option Nat → Bool
  | some a => decide (k < N) && decide (cap ≤ (w.proc k).buf.length) && decide (a ≤ (w.proc k).buf.length)
  | none => decide (k < N) && decide ((w.proc k).pc < 6) && (decide ((w.proc k).pc ≠ 3) || (List.range N).all fun j => decide (3 ≤ (w.proc j).pc))

lemma act_step {N cap : Nat} {P : Parts Nat} {w : World Nat} {k : Nat} {o : Option Nat} (h : may N cap w k o = true) : Step 0 N cap P w (act P w k o) := by
  cases o with
  | some a =>
    simp only [may, Bool.and_eq_true, decide_eq_true_eq] at h
    exact .flush a h.1.1 h.1.2 h.2
  | none =>
    simp only [may, Bool.and_eq_true, Bool.or_eq_true, decide_eq_true_eq, List.all_eq_true, List.mem_range] at h
    obtain ⟨⟨hk, h6⟩, h3⟩ := h
    unfold act
    split_ifs with a b c
    · exact .opn hk a
    · exact .meet hk b (h3.resolve_left fun x => x b)
    · exact .close hk c
    · exact .put hk (by omega)

lemma acts_reach {N cap : Nat} {P : Parts Nat} {old : List Nat} : ∀ (l : List (Nat × Option Nat)) (w : World Nat), Reach 0 N cap P old w →
    (l.foldl (fun (s : World Nat × Bool) a => (act P s.1 a.1 a.2, s.2 && may N cap s.1 a.1 a.2)) (w, true)).2 = true →
    Reach 0 N cap P old (l.foldl (fun (s : World Nat × Bool) a => (act P s.1 a.1 a.2, s.2 && may N cap s.1 a.1 a.2)) (w, true)).1
  | [], _, r, _ => r
  | a :: l, w, r, h => by
    rw [List.foldl_cons] at h ⊢
    cases hm : may N cap w a.1 a.2 with
    | false =>
      exfalso
      dsimp only at h
      rw [hm] at h
      have : ∀ (l : List (Nat × Option Nat)) (w : World Nat),
          (l.foldl (fun (s : World Nat × Bool) a => (act P s.1 a.1 a.2, s.2 && may N cap s.1 a.1 a.2)) (w, false)).2 = false := by
        intro l
        induction l with
        | nil => intro; rfl
        | cons b l ih => intro w; rw [List.foldl_cons]; exact ih _
      rw [show (true && false) = false from rfl, this] at h
      cases h
    | true =>
      dsimp only at h ⊢
      rw [hm] at h
      exact acts_reach l _ (.step r (act_step hm)) h

/-- Version, header and values of the example. -/
def exParts : Parts Nat := ⟨[1], [2, 3], [4]⟩

/-- The order in which process 0 writes its full buffer out before process 1 opens the file. -/
def exOrder : List (Nat × Option Nat) :=
  [(0, none), (0, none), (0, none), (0, some 3), (1, none), (1, none), (1, none), (0, none), (1, none), (0, none), (0, none), (1, none), (1, none)]

/-- Every process opens, and so empties, the file: with a header longer than the buffer the result depends on the order, and parts of it can be missing. -/
theorem C196_schedule_fails : ∃ (N cap : Nat) (P : Parts Nat) (w : World Nat), Reach 0 N cap P [] w ∧ (∀ k, k < N → (w.proc k).pc = 6) ∧ w.file ≠ P.version ++ P.header ++ P.vals :=
  ⟨2, 3, exParts, _, acts_reach exOrder (World.start []) .start (by decide), by decide, by decide⟩

/-- With a larger buffer two processes in another order store the vector over an earlier one. -/
example : ∃ w, Reach 0 2 4 exParts [9, 9, 9, 9, 9, 9] w ∧ (w.proc 0).pc = 6 ∧ w.file = [1, 2, 3, 4] := by
  have hr := acts_reach (N := 2) (cap := 4) (P := exParts) (old := [9, 9, 9, 9, 9, 9])
    [(0, none), (1, none), (1, none), (0, none), (0, none), (1, none), (0, none), (1, none), (0, none), (0, some 2), (1, none), (1, none), (0, none)] _ .start (by decide)
  exact ⟨_, hr, by decide, C196_schedule_partial (by decide) (Or.inr (by decide)) hr (by decide)⟩

end Verif.StoredSol
