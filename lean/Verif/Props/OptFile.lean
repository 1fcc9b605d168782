import Mathlib.Data.List.Basic
import Mathlib.Tactic.NormNum
import Verif.Model.Optim
/-
  C41: the design-variable history file.
-/
namespace Verif.Optim
variable {K : Type}

/-! ### Specification -/

/-- What is assumed of the number formats: printed numbers are non-empty and contain no white space, reals printed with the default stream precision are
narrower than the 20-character column, counts are read back exactly, reals are read back as the value `round v` the printed token denotes. -/
structure Printer.Good (P : Printer K) (round : K → K) : Prop where
  real_ne : ∀ v, P.prReal v ≠ []
  real_sp : ∀ v, ∀ c ∈ P.prReal v, isSp c = false
  real_width : ∀ v, (P.prReal v).length < 20
  nat_ne : ∀ n, P.prNat n ≠ []
  nat_sp : ∀ n, ∀ c ∈ P.prNat n, isSp c = false
  stod_pr : ∀ v, P.stod (P.prReal v) = some (round v)
  stoi_pr : ∀ n, P.stoi (P.prNat n) = some n
  stodNat_pr : ∀ n, P.stodNat (P.prNat n) = some n
  stoi_empty : P.stoi [] = none

/-! ### Lemmas on the text functions -/

theorem isDelim_isSp {c : Char} (h : isSp c = false) : isDelim c = false := by
  simp only [isSp, Bool.or_eq_false_iff, decide_eq_false_iff_not] at h
  simp only [isDelim, Bool.or_eq_false_iff, decide_eq_false_iff_not]
  exact ⟨h.1.1.1.1.1, h.1.1.1.1.2⟩

theorem split_token (t : List Char) (ht : ∀ c ∈ t, isSp c = false) : split t = [t] := by
  induction t with
  | nil => simp [split]
  | cons c t ih =>
    rw [split]
    simp only [isDelim_isSp (ht c (by simp)), Bool.false_eq_true, if_false]
    rw [ih (fun d hd => ht d (by simp [hd]))]

theorem split_token_blank (t : List Char) (ht : ∀ c ∈ t, isSp c = false) (r : List Char) :
    split (t ++ ' ' :: r) = t :: split (r.dropWhile isDelim) := by
  induction t with
  | nil => rw [List.nil_append, split]; simp [isDelim]
  | cons c t ih =>
    rw [List.cons_append, split]
    simp only [isDelim_isSp (ht c (by simp)), Bool.false_eq_true, if_false]
    rw [ih (fun d hd => ht d (by simp [hd]))]

theorem dropWhile_blanks (p : Char → Bool) (hp : p ' ' = true) (k : Nat) (t : List Char) (hne : t ≠ []) (ht : ∀ c ∈ t, p c = false) (r : List Char) :
    (List.replicate k ' ' ++ t ++ r).dropWhile p = t ++ r := by
  induction k with
  | zero =>
    cases t with
    | nil => exact absurd rfl hne
    | cons c t => simp [ht c (by simp)]
  | succ k ih => rw [List.replicate_succ]; simp only [List.cons_append, List.dropWhile_cons, hp, if_true]; exact ih

/-- A field narrower than its column splits off. -/
theorem split_fields (t : List Char) (ht : ∀ c ∈ t, isSp c = false) (w : Nat) (us : List (List Char))
    (hus : ∀ u ∈ us, u ≠ [] ∧ (∀ c ∈ u, isSp c = false) ∧ u.length < w) :
    split (t ++ (us.map (setw w)).flatten) = t :: us := by
  induction us generalizing t with
  | nil => simpa using split_token t ht
  | cons u us ih =>
    obtain ⟨h1, h2, h3⟩ := hus u (by simp)
    obtain ⟨k, hk⟩ : ∃ k, w - u.length = k + 1 := ⟨w - u.length - 1, by omega⟩
    have e : t ++ ((u :: us).map (setw w)).flatten = t ++ ' ' :: (List.replicate k ' ' ++ u ++ (us.map (setw w)).flatten) := by
      simp only [List.map_cons, List.flatten_cons, setw, hk, List.replicate_succ, List.cons_append, List.append_assoc]
    rw [e, split_token_blank t ht, dropWhile_blanks isDelim (by decide) k u h1 (fun c hc => isDelim_isSp (h2 c hc)),
      ih u h2 (fun v hv => hus v (by simp [hv]))]

theorem trim_row (k : Nat) (t : List Char) (hne : t ≠ []) (ht : ∀ c ∈ t, isSp c = false) (w : Nat) (us : List (List Char))
    (hus : ∀ u ∈ us, u ≠ [] ∧ (∀ c ∈ u, isSp c = false)) :
    trim (List.replicate k ' ' ++ t ++ (us.map (setw w)).flatten) = t ++ (us.map (setw w)).flatten := by
  unfold trim
  rw [dropWhile_blanks isSp (by decide) k t hne ht]
  have hlast : ∃ (a : List Char) (c : Char), t ++ (us.map (setw w)).flatten = a ++ [c] ∧ isSp c = false := by
    rcases List.eq_nil_or_concat us with h | ⟨us', u, h⟩
    · subst h
      rcases List.eq_nil_or_concat t with h | ⟨t', c, h⟩
      · exact absurd h hne
      · rw [List.concat_eq_append] at h
        exact ⟨t', c, by simp [h], ht c (by simp [h])⟩
    · rw [List.concat_eq_append] at h
      have hu := hus u (by simp [h])
      rcases List.eq_nil_or_concat u with h' | ⟨u', c, h'⟩
      · exact absurd h' hu.1
      · rw [List.concat_eq_append] at h'
        refine ⟨t ++ (us'.map (setw w)).flatten ++ List.replicate (w - u.length) ' ' ++ u', c, ?_, hu.2 c (by simp [h'])⟩
        subst h
        simp [setw, h', List.append_assoc]
  obtain ⟨a, c, hac, hc⟩ := hlast
  rw [hac]
  simp [hc]

theorem getline_line (l r line : List Char) (hl : '\n' ∉ l) : getline ⟨l ++ '\n' :: r, false⟩ line = (l, ⟨r, false⟩) := by
  unfold getline
  have h1 : (l ++ '\n' :: r).dropWhile (· ≠ '\n') = '\n' :: r := by
    induction l with
    | nil => simp
    | cons c l ih => simp at hl; simp [Ne.symm hl.1]; simpa using ih hl.2
  have h2 : (l ++ '\n' :: r).takeWhile (· ≠ '\n') = l := by
    induction l with
    | nil => simp
    | cons c l ih => simp at hl; simp [Ne.symm hl.1]; simpa using ih hl.2 (by simpa [Ne.symm hl.1] using h1)
  simp only [h1, h2]
  simp

theorem nl_setw (w : Nat) (t : List Char) (ht : ∀ c ∈ t, isSp c = false) : '\n' ∉ setw w t := by
  unfold setw
  intro h
  rcases List.mem_append.1 h with h | h
  · have := List.eq_of_mem_replicate h; exact absurd this (by decide)
  · have := ht _ h; exact absurd this (by decide)

theorem nl_fields (w : Nat) (us : List (List Char)) (hus : ∀ u ∈ us, ∀ c ∈ u, isSp c = false) : '\n' ∉ (us.map (setw w)).flatten := by
  intro h
  obtain ⟨l, hl, hc⟩ := List.mem_flatten.1 h
  obtain ⟨u, hu, rfl⟩ := List.mem_map.1 hl
  exact nl_setw w u (hus u hu) hc

/-- Tokens of a data row after the iteration number. -/
def rowTokens (P : Printer K) (r : Rec K) : List (List Char) := r.x.map P.prReal ++ [P.prReal r.obj] ++ r.f.map P.prReal

theorem rowTokens_ok {P : Printer K} {round : K → K} (hP : P.Good round) (r : Rec K) :
    ∀ u ∈ rowTokens P r, u ≠ [] ∧ (∀ c ∈ u, isSp c = false) ∧ u.length < 20 := by
  intro u hu
  have : ∃ v, u = P.prReal v := by
    simp only [rowTokens, List.mem_append, List.mem_map, List.mem_singleton] at hu
    rcases hu with (⟨v, _, rfl⟩ | rfl) | ⟨v, _, rfl⟩ <;> exact ⟨_, rfl⟩
  obtain ⟨v, rfl⟩ := this
  exact ⟨hP.real_ne v, hP.real_sp v, hP.real_width v⟩

theorem dataRow_eq (P : Printer K) (it : Nat) (r : Rec K) :
    dataRow P it r.x r.obj r.f = (List.replicate (10 - (P.prNat it).length) ' ' ++ P.prNat it ++ ((rowTokens P r).map (setw 20)).flatten) ++ ['\n'] := by
  simp [dataRow, rowTokens, setw, List.map_map, Function.comp_def, List.append_assoc]

theorem row_nl {P : Printer K} {round : K → K} (hP : P.Good round) (it : Nat) (r : Rec K) :
    '\n' ∉ List.replicate (10 - (P.prNat it).length) ' ' ++ P.prNat it ++ ((rowTokens P r).map (setw 20)).flatten := by
  intro h
  rcases List.mem_append.1 h with h | h
  · exact nl_setw 10 _ (hP.nat_sp it) h
  · exact nl_fields 20 _ (fun u hu => (rowTokens_ok hP r u hu).2.1) h

/-- The text of rows `it, it+1, …` without header. -/
def rows (P : Printer K) : Nat → List (Rec K) → List Char
  | _, [] => []
  | it, r :: rs => dataRow P it r.x r.obj r.f ++ rows P (it + 1) rs

theorem written_pos (P : Printer K) (nv ne ni : Nat) (it : Nat) (h : it ≠ 0) (rs : List (Rec K)) :
    written P nv ne ni it rs = rows P it rs := by
  induction rs generalizing it with
  | nil => rfl
  | cons r rs ih => simp [written, rows, output, h, ih (it + 1) (by omega)]

theorem getline_row {P : Printer K} {round : K → K} (hP : P.Good round) (it : Nat) (r : Rec K) (rs : List (Rec K)) (line : List Char) :
    getline ⟨rows P it (r :: rs), false⟩ line =
      (List.replicate (10 - (P.prNat it).length) ' ' ++ P.prNat it ++ ((rowTokens P r).map (setw 20)).flatten, ⟨rows P (it + 1) rs, false⟩) := by
  rw [rows, dataRow_eq, List.append_assoc, List.singleton_append]
  exact getline_line _ _ _ (row_nl hP it r)

theorem skip_rows {P : Printer K} {round : K → K} (hP : P.Good round) (rs : List (Rec K)) (k it : Nat) (hk : k < rs.length) (line : List Char) :
    ∃ line', skip k ⟨rows P it rs, false⟩ line = (⟨dataRow P (it + k) rs[k].x rs[k].obj rs[k].f ++ rows P (it + k + 1) (rs.drop (k + 1)), false⟩, line') := by
  induction rs generalizing k it line with
  | nil => simp at hk
  | cons r rs ih =>
    cases k with
    | zero => exact ⟨line, by simp [skip, rows]⟩
    | succ k =>
      have hk' : k < rs.length := by simpa using hk
      have hg := getline_row hP it r rs line
      obtain ⟨line', h⟩ := ih k (it + 1) hk' (getline ⟨rows P it (r :: rs), false⟩ line).1
      refine ⟨line', ?_⟩
      rw [skip]
      simp only [Bool.false_eq_true, if_false]
      rw [hg] at h ⊢
      simp only
      rw [h]
      simp [Nat.add_assoc, Nat.add_comm 1 k]

theorem skip_eof (n : Nat) (line : List Char) : skip n ⟨[], true⟩ line = (⟨[], true⟩, line) := by
  cases n <;> simp [skip]

theorem skip_past {P : Printer K} {round : K → K} (hP : P.Good round) (rs : List (Rec K)) (k it : Nat) (hk : rs.length ≤ k) (line : List Char) :
    (getline (skip k ⟨rows P it rs, false⟩ line).1 (skip k ⟨rows P it rs, false⟩ line).2).1 = [] := by
  induction rs generalizing k it line with
  | nil =>
    have hg : ∀ line, getline ⟨[], false⟩ line = ([], ⟨[], true⟩) := by intro line; simp [getline]
    cases k with
    | zero => simp [skip, rows, hg]
    | succ k =>
      simp only [rows, skip, Bool.false_eq_true, if_false, hg, skip_eof]
      simp [getline]
  | cons r rs ih =>
    cases k with
    | zero => simp at hk
    | succ k =>
      have hg := getline_row hP it r rs line
      rw [skip]
      simp only [Bool.false_eq_true, if_false, hg]
      exact ih k (it + 1) (by simpa using hk) _

theorem readHead_line {P : Printer K} {round : K → K} (hP : P.Good round) (dbg : Bool) (name : String) (n : Nat) (hn : (P.prNat n).length < 10)
    (h1 : name.toList ≠ []) (h2 : ∀ c ∈ name.toList, isSp c = false) (r line : List Char) :
    ∃ line', readHead P dbg name ⟨headLine P name n ++ r, false⟩ line = .ok (n, ⟨r, false⟩, line') := by
  have e : headLine P name n ++ r =
      (List.replicate (10 - name.toList.length) ' ' ++ name.toList ++ ([P.prNat n].map (setw 10)).flatten) ++ '\n' :: r := by
    simp [headLine, setw, List.append_assoc]
  have hnl : '\n' ∉ List.replicate (10 - name.toList.length) ' ' ++ name.toList ++ ([P.prNat n].map (setw 10)).flatten := by
    intro h
    rcases List.mem_append.1 h with h | h
    · exact nl_setw 10 _ h2 h
    · exact nl_fields 10 _ (by simpa using hP.nat_sp n) h
  refine ⟨name.toList ++ ([P.prNat n].map (setw 10)).flatten, ?_⟩
  unfold readHead
  rw [e, getline_line _ _ _ hnl]
  simp only
  rw [trim_row _ _ h1 h2 _ _ (by simpa using ⟨hP.nat_ne n, hP.nat_sp n⟩),
    split_fields _ h2 10 _ (by simpa using ⟨hP.nat_ne n, hP.nat_sp n, hn⟩)]
  simp [dbgAssert, tok, hP.stodNat_pr, parse, bind, Except.bind]

theorem readX_ok {P : Printer K} {round : K → K} (hP : P.Good round) (t : List Char) (xs : List K) (more : List (List Char)) (x : List K)
    (hx : x.length = xs.length) :
    ∀ n, n ≤ xs.length → readX P (t :: (xs.map P.prReal ++ more)) n x = .ok ((xs.take n).map round ++ x.drop n) := by
  intro n
  induction n with
  | zero => intro _; simp [readX]
  | succ n ih =>
    intro hn
    have hn' : n < xs.length := by omega
    have ht : tok (t :: (xs.map P.prReal ++ more)) (n + 1) = .ok (P.prReal xs[n]) := by
      simp [tok, List.getElem?_append, hn']
    rw [readX, ih (by omega)]
    simp only [bind, Except.bind, ht, hP.stod_pr, parse]
    rw [if_pos (by simp; omega)]
    congr 1
    apply List.ext_getElem
    · simp; omega
    · intro i h1 h2
      simp only [List.getElem_set, List.getElem_append, List.length_map, List.length_take, List.getElem_map, List.getElem_take, List.getElem_drop]
      by_cases hin : n = i
      · subst hin; simp [hn']
      · rw [if_neg hin]
        by_cases hlt : i < n
        · rw [dif_pos (by omega), dif_pos (by omega)]
        · rw [dif_neg (by omega), dif_neg (by omega)]
          congr 1; omega

/-- Sizes small enough for the ten-character header columns (fewer than 10⁹). -/
def HeaderFits (P : Printer K) (nv ne ni : Nat) : Prop :=
  (P.prNat nv).length < 10 ∧ (P.prNat ne).length < 10 ∧ (P.prNat ni).length < 10

theorem title_nl {P : Printer K} {round : K → K} (hP : P.Good round) (nx nf : Nat) :
    ∃ l, titleLine P nx nf = l ++ ['\n'] ∧ '\n' ∉ l := by
  refine ⟨_, rfl, ?_⟩
  have hx : ∀ (c : List Char) (n : Nat), (∀ d ∈ c, isSp d = false) → '\n' ∉ ((List.range n).map (fun i => setw 20 (c ++ P.prNat i))).flatten := by
    intro c n hc h
    obtain ⟨l, hl, hm⟩ := List.mem_flatten.1 h
    obtain ⟨i, _, rfl⟩ := List.mem_map.1 hl
    refine nl_setw 20 _ ?_ hm
    intro d hd
    rcases List.mem_append.1 hd with hd | hd
    · exact hc d hd
    · exact hP.nat_sp i d hd
  intro h
  simp only [List.mem_append] at h
  rcases h with ((h | h) | h) | h
  · exact nl_setw 10 _ (by decide) h
  · exact hx _ _ (by decide) h
  · exact nl_setw 20 _ (by decide) h
  · exact hx _ _ (by decide) h

theorem header_read {P : Printer K} {round : K → K} (hP : P.Good round) (dbg : Bool) (nv ne ni : Nat) (hH : HeaderFits P nv ne ni)
    (r : Rec K) (rs : List (Rec K)) (iter : Nat) (x : List K) (hx : x.length = nv) :
    ∃ line, initFromFile P dbg ne (written P nv ne ni 0 (r :: rs)) iter x =
      (let s := (skip iter ⟨rows P 0 (r :: rs), false⟩ line)
       let ts := split (trim (getline s.1 s.2).1)
       do
        dbgAssert dbg (nv + 1 < ts.length)
        let t ← tok ts 0
        let it ← parse (P.stoi t)
        dbgAssert dbg (it = iter)
        readX P ts nv x) := by
  obtain ⟨l, hl, hln⟩ := title_nl hP r.x.length r.f.length
  have e : written P nv ne ni 0 (r :: rs) = headLine P "n_dv" nv ++ (headLine P "n_eq" ne ++ (headLine P "n_ineq" ni ++ (l ++ '\n' :: rows P 0 (r :: rs)))) := by
    simp only [written, output, if_true, written_pos P nv ne ni (0 + 1) (by omega), hl, rows, List.append_assoc, List.singleton_append]
    simp
  obtain ⟨l1, h1⟩ := readHead_line hP dbg "n_dv" nv hH.1 (by decide) (by decide) (headLine P "n_eq" ne ++ (headLine P "n_ineq" ni ++ (l ++ '\n' :: rows P 0 (r :: rs)))) []
  obtain ⟨l2, h2⟩ := readHead_line hP dbg "n_eq" ne hH.2.1 (by decide) (by decide) (headLine P "n_ineq" ni ++ (l ++ '\n' :: rows P 0 (r :: rs))) l1
  obtain ⟨l3, h3⟩ := readHead_line hP dbg "n_ineq" ni hH.2.2 (by decide) (by decide) (l ++ '\n' :: rows P 0 (r :: rs)) l2
  refine ⟨l, ?_⟩
  unfold initFromFile
  rw [e, h1]
  have ha : ∀ (b : Bool), b = true → dbgAssert dbg b = .ok () := by intro b hb; simp [dbgAssert, hb]
  simp only [bind, Except.bind, ha (decide (nv = x.length)) (by simp [hx]), h2, h3]
  have hs : skip (iter + 1) ⟨l ++ '\n' :: rows P 0 (r :: rs), false⟩ l3 = skip iter ⟨rows P 0 (r :: rs), false⟩ l := by
    rw [skip]; simp only [Bool.false_eq_true, if_false, getline_line _ _ _ hln]
  rw [hs]
  have ht : dbgAssert dbg (decide True) = .ok () := ha _ (by simp)
  simp only [ht]

/-! ### C41 -/

/-- C41: the design variables of iteration `k` are recovered (as printed), for every number of variables and constraints, any number of recorded iterations and every
recorded iteration, in debug and release builds. -/
theorem C41_roundtrip {P : Printer K} {round : K → K} (hP : P.Good round) (dbg : Bool) (nv ne ni : Nat) (hH : HeaderFits P nv ne ni)
    (recs : List (Rec K)) (k : Nat) (hk : k < recs.length) (hrec : recs[k].x.length = nv) (x : List K) (hx : x.length = nv) :
    initFromFile P dbg ne (written P nv ne ni 0 recs) k x = .ok (recs[k].x.map round) := by
  cases recs with
  | nil => simp at hk
  | cons r rs =>
    obtain ⟨line, hread⟩ := header_read hP dbg nv ne ni hH r rs k x hx
    obtain ⟨line', hskip⟩ := skip_rows hP (r :: rs) k 0 hk line
    rw [hread]
    simp only [hskip]
    rw [dataRow_eq, List.append_assoc, List.singleton_append, getline_line _ _ _ (row_nl hP _ _)]
    simp only
    have hok := rowTokens_ok hP (r :: rs)[k]
    rw [trim_row _ _ (hP.nat_ne _) (hP.nat_sp _) _ _ (fun u hu => ⟨(hok u hu).1, (hok u hu).2.1⟩), split_fields _ (hP.nat_sp _) 20 _ hok]
    have ha : ∀ (b : Bool), b = true → dbgAssert dbg b = .ok () := by intro b hb; simp [dbgAssert, hb]
    have hlen : nv + 1 < (P.prNat (0 + k) :: rowTokens P (r :: rs)[k]).length := by simp [rowTokens]; omega
    simp only [bind, Except.bind, ha _ (decide_eq_true hlen)]
    simp only [tok, List.getElem?_cons_zero, Nat.zero_add, hP.stoi_pr, parse]
    rw [rowTokens, List.append_assoc, readX_ok hP _ _ _ _ (by omega) nv (by omega)]
    have hd : List.drop nv x = [] := List.drop_eq_nil_of_le (by omega)
    have htk : List.take nv (r :: rs)[k].x = (r :: rs)[k].x := List.take_of_length_le (by omega)
    simp only [decide_true, ha true rfl, hd, htk, List.append_nil]

/-- C41: asking for an iteration that was not recorded never succeeds silently. -/
theorem C41_missing_iteration_detected {P : Printer K} {round : K → K} (hP : P.Good round) (dbg : Bool) (nv ne ni : Nat) (hH : HeaderFits P nv ne ni)
    (recs : List (Rec K)) (hne : recs ≠ []) (k : Nat) (hk : recs.length ≤ k) (x : List K) (hx : x.length = nv) :
    initFromFile P dbg ne (written P nv ne ni 0 recs) k x = .error (if dbg then .assertFail else .error) := by
  cases recs with
  | nil => exact absurd rfl hne
  | cons r rs =>
    obtain ⟨line, hread⟩ := header_read hP dbg nv ne ni hH r rs k x hx
    rw [hread]
    simp only [skip_past hP (r :: rs) k 0 hk line]
    have hs : split (trim []) = [[]] := by simp [trim, split]
    rw [hs]
    cases dbg <;> simp [dbgAssert, tok, hP.stoi_empty, parse, bind, Except.bind]

/-- C41 limit: the counter behind `output` is never reset, so a file started after some evaluations were already recorded has no header and is rejected by the reader's first
assertion (debug build). -/
theorem C41_late_file_unreadable_fails {P : Printer K} {round : K → K} (hP : P.Good round) (nv ne ni : Nat) (start : Nat) (hs : start ≠ 0)
    (hname : P.prNat start ≠ "n_dv".toList) (recs : List (Rec K)) (hne : recs ≠ []) (k : Nat) (x : List K) :
    initFromFile P true ne (written P nv ne ni start recs) k x = .error .assertFail := by
  cases recs with
  | nil => exact absurd rfl hne
  | cons r rs =>
    rw [written_pos P nv ne ni start hs, rows, dataRow_eq, List.append_assoc, List.singleton_append]
    unfold initFromFile readHead
    rw [getline_line _ _ _ (row_nl hP _ _)]
    have hok := rowTokens_ok hP r
    simp only
    rw [trim_row _ _ (hP.nat_ne _) (hP.nat_sp _) _ _ (fun u hu => ⟨(hok u hu).1, (hok u hu).2.1⟩), split_fields _ (hP.nat_sp _) 20 _ hok]
    have hD : dbgAssert true (decide (((P.prNat start :: rowTokens P r)[0]?).getD [] = "n_dv".toList)) = .error .assertFail := by
      have : decide (((P.prNat start :: rowTokens P r)[0]?).getD [] = "n_dv".toList) = false := by
        rw [decide_eq_false_iff_not]; simpa using hname
      rw [this]; rfl
    simp only [bind, Except.bind, hD]

/-! ### Non-vacuity: unary numerals as a printer of natural numbers below the column width. -/

/-- A toy number format: `a`s in unary for reals (`ℕ` saturated at 9), likewise for counts. -/
def toyPrinter : Printer Nat where
  prReal v := '+' :: List.replicate (min v 9) 'a'
  prNat n := '+' :: List.replicate n 'a'
  stod t := some (t.length - 1)
  stoi t := if t = [] then none else some (t.length - 1)
  stodNat t := some (t.length - 1)

theorem toyPrinter_good : toyPrinter.Good (fun v => min v 9) where
  real_ne v := by simp [toyPrinter]
  real_sp v c hc := by
    simp only [toyPrinter, List.mem_cons, List.mem_replicate] at hc
    rcases hc with rfl | ⟨_, rfl⟩ <;> decide
  real_width v := by simp [toyPrinter]; omega
  nat_ne n := by simp [toyPrinter]
  nat_sp n c hc := by
    simp only [toyPrinter, List.mem_cons, List.mem_replicate] at hc
    rcases hc with rfl | ⟨_, rfl⟩ <;> decide
  stod_pr v := by simp [toyPrinter]
  stoi_pr n := by simp [toyPrinter]
  stodNat_pr n := by simp [toyPrinter]
  stoi_empty := by simp [toyPrinter]

example : initFromFile toyPrinter true 1 (written toyPrinter 2 1 1 0 [⟨[3, 4], 7, [1, 2]⟩, ⟨[5, 12], 8, [0, 3]⟩]) 1 [0, 0] = .ok [5, 9] := by
  have := C41_roundtrip toyPrinter_good true 2 1 1 (by simp [HeaderFits, toyPrinter]) [⟨[3, 4], 7, [1, 2]⟩, ⟨[5, 12], 8, [0, 3]⟩] 1 (by simp) rfl [0, 0] rfl
  simpa using this

example : initFromFile toyPrinter true 1 (written toyPrinter 2 1 1 3 [⟨[3, 4], 7, [1, 2]⟩]) 0 [0, 0] = .error .assertFail :=
  C41_late_file_unreadable_fails toyPrinter_good 2 1 1 3 (by decide) (by decide) _ (by simp) 0 _

end Verif.Optim
