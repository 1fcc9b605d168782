import Verif.Model.FunctionGraph
import Mathlib.Logic.Relation
import Mathlib.Analysis.Calculus.Deriv.Basic
/-! C11–C14: dependency queries, copies, function sets, constant field functions. -/
namespace Verif.Fn

/-! ### Specification -/
/-- `x` has `y` as an immediate sub-function. -/
def Edge (h : Heap) (x y : Nat) : Prop := ∃ o, h[x]? = some o ∧ y ∈ o.subs

/-- Heap invariant established by construction: sub-functions are older objects, parameters have none. -/
private def Wf (h : Heap) : Prop :=
  ∀ (x : Nat) (o : Obj), h[x]? = some o → (∀ y ∈ o.subs, y < x) ∧ (o.kind = .param → o.subs = [])

private theorem build_wf (h h' : Heap) (b : Build) (w : Wf h) (e : build h b = .ok h') : Wf h' := by
  have app : ∀ o : Obj, (∀ y ∈ o.subs, y < h.length) → (o.kind = .param → o.subs = []) →
      Wf (h ++ [o]) := by
    intro o h1 h2 x o' hx
    by_cases hl : x < h.length
    · rw [List.getElem?_append_left hl] at hx; exact w x o' hx
    · rw [List.getElem?_append_right (by omega)] at hx
      have hx0 : x - h.length = 0 := by
        by_contra hne
        have : (x - h.length) ≥ [o].length := by simp; omega
        rw [List.getElem?_eq_none this] at hx; cases hx
      rw [hx0] at hx
      simp at hx
      subst hx
      have : x = h.length := by omega
      subst this
      exact ⟨h1, h2⟩
  cases b with
  | new k nm subs =>
    cases k with
    | param =>
      simp [build] at e; subst e
      exact app _ (by simp) (by simp)
    | func =>
      simp only [build] at e
      split at e
      · rename_i hall
        cases e
        exact app _ (by simpa using hall) (by simp)
      · cases e
  | copy x =>
    simp only [build] at e
    split at e
    · cases e
    · cases e
      exact app _ (by simp) (by simp)

private theorem buildAll_wf (bs : List Build) : ∀ (h h' : Heap), Wf h →
    bs.foldlM build h = .ok h' → Wf h' := by
  induction bs with
  | nil => intro h h' w e; cases e; exact w
  | cons b bs ih =>
    intro h h' w e
    simp only [List.foldlM_cons, bind, Except.bind] at e
    cases hb : build h b with
    | error x => rw [hb] at e; cases e
    | ok h1 => rw [hb] at e; exact ih h1 h' (build_wf h h1 b w hb) e

private theorem foldl_true (g : Nat → Option Bool) (l : List Nat) (r : Option Bool)
    (hr : r ≠ some false) :
    l.foldl (fun acc s => match acc with | some false => g s | r => r) r = r := by
  induction l with
  | nil => rfl
  | cons a l ih =>
    simp only [List.foldl_cons]
    match r, hr, ih with
    | none, _, ih => exact ih
    | some true, _, ih => exact ih
    | some false, hr, _ => exact absurd rfl hr

private theorem foldl_any (g : Nat → Option Bool) (b : Nat → Bool) (l : List Nat)
    (hg : ∀ s ∈ l, g s = some (b s)) :
    l.foldl (fun acc s => match acc with | some false => g s | r => r) (some false) =
      some (l.any b) := by
  induction l with
  | nil => rfl
  | cons a l ih =>
    simp only [List.foldl_cons]
    have ha := hg a (by simp)
    cases hb : b a with
    | true =>
      rw [ha, hb]
      rw [foldl_true g l (some true) (by simp)]
      simp [hb]
    | false =>
      rw [ha, hb, ih (fun s hs => hg s (by simp [hs]))]
      simp [hb]

private theorem dep_spec (h : Heap) (w : Wf h) (f : Nat) : ∀ (x fuel : Nat), x < h.length →
    x < fuel → ∃ b, dependsOn h fuel x f = some b ∧
      (b = true ↔ (∃ o, h[x]? = some o ∧ o.kind = .param ∧ f = x) ∨
        Relation.TransGen (Edge h) x f) := by
  intro x
  induction x using Nat.strong_induction_on with
  | _ x ih =>
    intro fuel hx hf
    obtain ⟨k, rfl⟩ : ∃ k, fuel = k + 1 := ⟨fuel - 1, by omega⟩
    have hget : h[x]? = some h[x] := List.getElem?_eq_getElem hx
    obtain ⟨w1, w2⟩ := w x _ hget
    cases hk : h[x].kind with
    | param =>
      refine ⟨decide (f = x), by simp [dependsOn, hget, hk], ?_⟩
      rw [decide_eq_true_iff]
      constructor
      · intro e; exact .inl ⟨_, hget, hk, e⟩
      · rintro (⟨o, -, -, e⟩ | t)
        · exact e
        · exfalso
          have : ∀ z, ¬ Edge h x z := by
            rintro z ⟨o, e, m⟩
            rw [hget] at e; cases e
            rw [w2 hk] at m; simp at m
          obtain ⟨z, e, -⟩ := Relation.TransGen.head'_iff.1 t
          exact this z e
    | func =>
      by_cases hc : h[x].subs.contains f = true
      · refine ⟨true, by simp only [dependsOn, hget, hk, hc, if_true], ?_⟩
        simp only [true_iff]
        exact .inr (.single ⟨_, hget, by simpa using hc⟩)
      · have key : ∀ s ∈ h[x].subs, ∃ b, dependsOn h k s f = some b ∧
            (b = true ↔ (∃ o, h[s]? = some o ∧ o.kind = .param ∧ f = s) ∨
              Relation.TransGen (Edge h) s f) := by
          intro s hs
          have hlt := w1 s hs
          exact ih s hlt k (by omega) (by omega)
        classical
        let bfun : Nat → Bool := fun s => (dependsOn h k s f).getD false
        have hb : ∀ s ∈ h[x].subs, dependsOn h k s f = some (bfun s) := by
          intro s hs
          obtain ⟨b, e, -⟩ := key s hs
          simp [bfun, e]
        refine ⟨h[x].subs.any bfun, ?_, ?_⟩
        · have := foldl_any (fun s => dependsOn h k s f) bfun h[x].subs hb
          simp only [dependsOn, hget, hk, hc]
          exact this
        · have hnotin : f ∉ h[x].subs := by simpa using hc
          rw [List.any_eq_true]
          constructor
          · rintro ⟨s, hs, hbs⟩
            obtain ⟨b, e, iff⟩ := key s hs
            have : b = true := by
              have := hb s hs; rw [e] at this; cases this; exact hbs
            rcases iff.1 this with ⟨o, _, _, rfl⟩ | t
            · exact absurd hs hnotin
            · exact .inr (Relation.TransGen.head ⟨_, hget, hs⟩ t)
          · rintro (⟨o, e, hp, -⟩ | t)
            · rw [hget] at e; cases e; rw [hk] at hp; cases hp
            · rcases Relation.TransGen.head'_iff.1 t with ⟨s, ⟨o, e, hs⟩, r⟩
              rw [hget] at e; cases e
              refine ⟨s, hs, ?_⟩
              obtain ⟨b, e', iff⟩ := key s hs
              have := hb s hs; rw [e'] at this; cases this
              apply iff.2
              rcases Relation.reflTransGen_iff_eq_or_transGen.1 r with rfl | t'
              · exact absurd hs hnotin
              · exact .inr t'

/-- C11. For every way of constructing objects out of existing ones, `depends_on` terminates, and a
non-parameter object depends on `f` exactly when `f` is reachable by one or more sub-function links. -/
theorem C11_depends_on_iff_reachable (bs : List Build) (h : Heap) (hb : buildAll bs = .ok h)
    (x f : Nat) (hx : x < h.length) (o : Obj) (ho : h[x]? = some o) (hk : o.kind = .func) :
    ∃ b, (∀ fuel, x < fuel → dependsOn h fuel x f = some b) ∧
      (b = true ↔ Relation.TransGen (Edge h) x f) := by
  have w := buildAll_wf bs [] h (by intro x o e; simp at e) hb
  obtain ⟨b, e, iff⟩ := dep_spec h w f x (x + 1) hx (by omega)
  have iff' : b = true ↔ Relation.TransGen (Edge h) x f := by
    rw [iff]
    constructor
    · rintro (⟨o', e', hp, -⟩ | t)
      · rw [ho] at e'; cases e'; rw [hk] at hp; cases hp
      · exact t
    · exact .inr
  refine ⟨b, fun fuel hf => ?_, iff'⟩
  obtain ⟨b', e', iff2⟩ := dep_spec h w f x fuel hx hf
  have : b = b' := by
    rw [Bool.eq_iff_iff, iff, iff2]
  rw [this]; exact e'

/-- C11. A parameter depends exactly on itself. -/
theorem C11_parameter_depends_on_itself (h : Heap) (x f : Nat) (o : Obj) (ho : h[x]? = some o)
    (hk : o.kind = .param) (fuel : Nat) :
    dependsOn h (fuel + 1) x f = some (decide (f = x)) := by
  simp [dependsOn, ho, hk]

/-- C11 (why acyclicity matters): were an object its own sub-function, the query for any other object would
never return. Such an object cannot be built (`C11_depends_on_iff_reachable` needs no hypothesis). -/
theorem C11_cycle_diverges (nm : String) (f : Nat) (hf : f ≠ 0) (fuel : Nat) :
    dependsOn [⟨.func, nm, [0]⟩] fuel 0 f = none := by
  induction fuel with
  | zero => rfl
  | succ n ih =>
    simp only [dependsOn, List.getElem?_cons_zero]
    have : ([0] : List Nat).contains f = false := by simp [hf]
    rw [this]
    simp only [Bool.false_eq_true, if_false, List.foldl_cons, List.foldl_nil]
    exact ih

/-! ### C13: copies -/

/-- C13 violated: a copied function forgets its dependencies. `0` is a parameter, `1` a function of it, `2` a copy of `1`:
the original depends on the parameter, the copy does not. -/
theorem C13_copy_loses_dependency_fails :
    ∃ h, buildAll [.new .param "p" [], .new .func "f" [0], .copy 1] = .ok h ∧
      dependsOn h 3 1 0 = some true ∧ dependsOn h 3 2 0 = some false := ⟨_, rfl, rfl, rfl⟩

/-- In general a copy answers `false` to every query about another object. -/
theorem C13_copy_never_depends (h h' : Heap) (x f : Nat) (o : Obj) (ho : h[x]? = some o)
    (hb : build h (.copy x) = .ok h') (hf : f ≠ h.length) (fuel : Nat) :
    dependsOn h' (fuel + 1) h.length f = some false := by
  simp only [build, ho] at hb
  cases hb
  have : (h ++ [(⟨o.kind, o.name, []⟩ : Obj)])[h.length]? = some ⟨o.kind, o.name, []⟩ := by simp
  simp only [dependsOn, this]
  cases o.kind with
  | param => simp [hf]
  | func => simp

/-- C13 (partial): a copy of a function without sub-functions answers like the original. -/
theorem C13_copy_of_leaf_partial (h h' : Heap) (x f : Nat) (nm : String)
    (ho : h[x]? = some ⟨.func, nm, []⟩) (hb : build h (.copy x) = .ok h') (fuel : Nat) :
    dependsOn h' (fuel + 1) h.length f = dependsOn h' (fuel + 1) x f := by
  simp only [build, ho] at hb
  cases hb
  have hx : x < h.length := by
    by_contra hc
    rw [List.getElem?_eq_none (by omega)] at ho; cases ho
  have h1 : (h ++ [(⟨.func, nm, []⟩ : Obj)])[h.length]? = some ⟨.func, nm, []⟩ := by simp
  have h2 : (h ++ [(⟨.func, nm, []⟩ : Obj)])[x]? = some ⟨.func, nm, []⟩ := by
    rw [List.getElem?_append_left hx]; exact ho
  simp [dependsOn, h2]

/-- C13 violated: copying a `Parameter` and destroying both objects deletes the same cell twice. -/
theorem C13_parameter_copy_double_free_fails :
    PMem.run [.create, .copy 0, .destroy 0, .destroy 1] = .error .ub := rfl

/-- Memory invariant for copy-free histories. -/
private structure PInv (m : PMem) : Prop where
  ids : (m.objs.map (·.1)).Nodup
  cells : (m.objs.map (·.2)).Nodup
  live : ∀ p ∈ m.objs, p.2 ∈ m.live
  liveLt : ∀ c ∈ m.live, c < m.nextCell
  objLt : ∀ p ∈ m.objs, p.1 < m.nextObj
  liveNd : m.live.Nodup
  exact : ∀ c ∈ m.live, ∃ p ∈ m.objs, p.2 = c

private theorem pstep_inv (m : PMem) (i : PInv m) (op : POp) (hc : ∀ o, op ≠ .copy o)
    (hd : ∀ o, op = .destroy o → ∃ p ∈ m.objs, p.1 = o) :
    ∃ m', m.step op = .ok m' ∧ PInv m' := by
  cases op with
  | create =>
    refine ⟨_, rfl, ?_, ?_, ?_, ?_, ?_, ?_, ?_⟩
    · simp only [List.map_cons, List.nodup_cons]
      refine ⟨fun hm => ?_, i.ids⟩
      obtain ⟨p, hp, e⟩ := List.mem_map.1 hm
      have := i.objLt p hp; omega
    · simp only [List.map_cons, List.nodup_cons]
      refine ⟨fun hm => ?_, i.cells⟩
      obtain ⟨p, hp, e⟩ := List.mem_map.1 hm
      have := i.liveLt _ (i.live p hp); omega
    · intro p hp
      rcases List.mem_cons.1 hp with rfl | hp
      · simp
      · exact List.mem_cons_of_mem _ (i.live p hp)
    · intro c hc
      rcases List.mem_cons.1 hc with rfl | hc
      · simp
      · have := i.liveLt c hc; simp only; omega
    · intro p hp
      rcases List.mem_cons.1 hp with rfl | hp
      · simp
      · have := i.objLt p hp; simp only; omega
    · simp only [List.nodup_cons]
      exact ⟨fun hm => by have := i.liveLt _ hm; omega, i.liveNd⟩
    · intro c hc
      rcases List.mem_cons.1 hc with rfl | hc
      · exact ⟨_, List.mem_cons_self, rfl⟩
      · obtain ⟨p, hp, e⟩ := i.exact c hc
        exact ⟨p, List.mem_cons_of_mem _ hp, e⟩
  | copy o => exact absurd rfl (hc o)
  | destroy o =>
    obtain ⟨p, hp, e⟩ := hd o rfl
    obtain ⟨q, hq⟩ : ∃ q, m.objs.find? (fun p => p.1 == o) = some q := by
      cases hf : m.objs.find? (fun p => p.1 == o) with
      | some q => exact ⟨q, rfl⟩
      | none =>
        have := List.find?_eq_none.1 hf p hp
        simp [e] at this
    have hqm := List.mem_of_find?_eq_some hq
    have hq1 : q.1 = o := by have := List.find?_some hq; simpa using this
    have hl : m.live.contains q.2 = true := by simpa using i.live q hqm
    have hstep : m.step (.destroy o) = .ok { m with
        live := m.live.erase q.2, objs := m.objs.filter (fun p => p.1 != o) } := by
      simp only [PMem.step, cellOf, hq, Option.map_some, hl, if_true]
    refine ⟨_, hstep, ?_, ?_, ?_, ?_, ?_, ?_, ?_⟩
    · exact i.ids.sublist (List.filter_sublist.map _)
    · exact i.cells.sublist (List.filter_sublist.map _)
    · intro r hr
      obtain ⟨hr1, hr2⟩ := List.mem_filter.1 hr
      have hne : r.2 ≠ q.2 := by
        intro he
        have : r = q := by
          have := (List.inj_on_of_nodup_map i.cells) hr1 hqm he
          exact this
        subst this
        simp [hq1] at hr2
      exact (List.mem_erase_of_ne hne).2 (i.live r hr1)
    · intro c hc; exact i.liveLt c (List.mem_of_mem_erase hc)
    · intro r hr; exact i.objLt r (List.mem_filter.1 hr).1
    · exact i.liveNd.erase _
    · intro c hc
      obtain ⟨r, hr, rfl⟩ := i.exact c (List.mem_of_mem_erase hc)
      refine ⟨r, List.mem_filter.2 ⟨hr, ?_⟩, rfl⟩
      have : r.2 ≠ q.2 := by
        intro he
        rw [he] at hc
        exact (List.Nodup.not_mem_erase i.liveNd) hc
      have : r.1 ≠ o := by
        intro he
        have : r = q := (List.inj_on_of_nodup_map i.ids) hr hqm (by rw [he, hq1])
        exact ‹r.2 ≠ q.2› (by rw [this])
      simpa using this

/-- A user program over parameters that destroys only existing objects. -/
def Disciplined : PMem → List POp → Prop
  | _, [] => True
  | m, op :: ops => (∀ o, op = .destroy o → ∃ p ∈ m.objs, p.1 = o) ∧
      ∀ m', m.step op = .ok m' → Disciplined m' ops

/-- C13 (partial): without copies, any history that destroys only existing objects never frees a cell
twice, and when all objects are destroyed nothing is leaked. -/
theorem C13_no_copy_memory_safe_partial (ops : List POp) (hc : ∀ o, POp.copy o ∉ ops)
    (hd : Disciplined PMem.init ops) :
    ∃ m, PMem.run ops = .ok m ∧ (m.objs = [] → m.live = []) := by
  have gen : ∀ (ops : List POp) (m : PMem), PInv m → (∀ o, POp.copy o ∉ ops) →
      Disciplined m ops → ∃ m', ops.foldlM PMem.step m = .ok m' ∧ PInv m' := by
    intro ops
    induction ops with
    | nil => intro m i _ _; exact ⟨m, rfl, i⟩
    | cons op ops ih =>
      intro m i hc hd
      obtain ⟨m1, e1, i1⟩ := pstep_inv m i op (fun o e => hc o (by simp [e])) hd.1
      obtain ⟨m2, e2, i2⟩ := ih m1 i1 (fun o ho => hc o (by simp [ho])) (hd.2 m1 e1)
      exact ⟨m2, by simp only [List.foldlM_cons, e1, bind, Except.bind]; exact e2, i2⟩
  obtain ⟨m, e, i⟩ := gen ops PMem.init
    ⟨by simp [PMem.init], by simp [PMem.init], by simp [PMem.init], by simp [PMem.init],
      by simp [PMem.init], by simp [PMem.init], by simp [PMem.init]⟩ hc hd
  refine ⟨m, e, fun ho => ?_⟩
  rw [List.eq_nil_iff_forall_not_mem]
  intro c hc'
  obtain ⟨p, hp, -⟩ := i.exact c hc'
  rw [ho] at hp; simp at hp

/-! ### C12: function sets -/

/-- Release-build history of `add` calls. -/
def FSet.addAll (adds : List (String × Nat)) : FSet :=
  adds.foldl (fun s p => s.addRelease p.1 p.2) []

private theorem find_addAll (nm : String) (adds : List (String × Nat)) : ∀ s : FSet,
    (adds.foldl (fun s p => FSet.addRelease s p.1 p.2) s).find? (fun p => p.1 == nm) =
      (s ++ adds).find? (fun p => p.1 == nm) := by
  induction adds with
  | nil => intro s; simp
  | cons a adds ih =>
    intro s
    rw [List.foldl_cons, ih]
    unfold FSet.addRelease
    by_cases hc : FSet.contains s a.1
    · rw [if_pos hc]
      simp only [List.find?_append, List.find?_cons]
      by_cases ha : a.1 = nm
      · subst ha
        obtain ⟨p, hp, e⟩ := List.any_eq_true.1 hc
        have : (s.find? (fun p => p.1 == a.1)).isSome := by
          rw [List.find?_isSome]; exact ⟨p, hp, e⟩
        obtain ⟨q, hq⟩ := Option.isSome_iff_exists.1 this
        simp [hq]
      · have : (a.1 == nm) = false := by simpa using ha
        simp [this]
    · rw [if_neg hc]
      simp [List.append_assoc]

/-- C12. After any history of `add`s: `contains` iff some added function has the name. -/
theorem C12_contains (adds : List (String × Nat)) (nm : String) :
    (FSet.addAll adds).contains nm = true ↔ ∃ f, (nm, f) ∈ adds := by
  have h := find_addAll nm adds []
  rw [List.nil_append] at h
  have : (FSet.addAll adds).contains nm = ((FSet.addAll adds).find? (fun p => p.1 == nm)).isSome := by
    rw [FSet.contains, Bool.eq_iff_iff, List.find?_isSome, List.any_eq_true]
  rw [this, FSet.addAll, h, List.find?_isSome]
  constructor
  · rintro ⟨p, hp, e⟩; exact ⟨p.2, by have : p.1 = nm := by simpa using e
                                      rw [← this]; exact hp⟩
  · rintro ⟨f, hf⟩; exact ⟨_, hf, by simp⟩

/-- C12. `get` returns the first function added under the name (if it has the requested type), and is an
error for names never added. -/
theorem C12_get (adds : List (String × Nat)) (isType : Nat → Bool) (nm : String) :
    (∀ pre f post, adds = pre ++ (nm, f) :: post → (∀ g, (nm, g) ∉ pre) → isType f = true →
      (FSet.addAll adds).get isType nm = .ok f) ∧
    ((∀ f, (nm, f) ∉ adds) → (FSet.addAll adds).get isType nm = .error .error) := by
  have h := find_addAll nm adds []
  rw [List.nil_append] at h
  refine ⟨fun pre f post e hn ht => ?_, fun hn => ?_⟩
  · have : adds.find? (fun p => p.1 == nm) = some (nm, f) := by
      rw [e, List.find?_append]
      have : pre.find? (fun p => p.1 == nm) = none := by
        rw [List.find?_eq_none]
        intro p hp
        intro hc
        have : p.1 = nm := by simpa using hc
        exact hn p.2 (by rw [← this]; exact hp)
      simp [this]
    simp only [FSet.get, FSet.addAll]
    rw [h, this]
    simp [ht]
  · have : adds.find? (fun p => p.1 == nm) = none := by
      rw [List.find?_eq_none]
      intro p hp hc
      have : p.1 = nm := by simpa using hc
      exact hn p.2 (by rw [← this]; exact hp)
    simp only [FSet.get, FSet.addAll]
    rw [h, this]

/-- C12. The set depends on `f` iff one of its members does. -/
theorem C12_depends_on (s : FSet) (dep : Nat → Nat → Bool) (f : Nat) :
    s.dependsOn dep f = true ↔ ∃ nm g, (nm, g) ∈ s ∧ dep g f = true := by
  rw [FSet.dependsOn, List.any_eq_true]
  exact ⟨fun ⟨p, hp, e⟩ => ⟨p.1, p.2, hp, e⟩, fun ⟨nm, g, hp, e⟩ => ⟨(nm, g), hp, e⟩⟩

/-- C12. In debug builds a second function of the same name is rejected and otherwise both builds agree. -/
theorem C12_debug_add (s : FSet) (nm : String) (f : Nat) :
    (s.contains nm = true → s.addDebug nm f = .error .assertFail) ∧
    (s.contains nm = false → s.addDebug nm f = .ok (s.addRelease nm f)) := by
  constructor <;> intro h <;> simp [FSet.addDebug, FSet.addRelease, h]

/-! ### C14: constant field function -/

/-- C14. The reported derivative w.r.t. any parameter `f` is the true derivative of the value when that
parameter is varied, at every parameter state. -/
theorem C14_constant_derivative (vals : Nat → ℝ) (p f : Nat) :
    HasDerivAt (fun t : ℝ => constantValue (Function.update vals f t) p)
      (constantDerivative p f) (vals f) := by
  unfold constantValue constantDerivative
  by_cases h : f = p
  · subst h; simp; exact hasDerivAt_id _
  · have : (fun t : ℝ => Function.update vals f t p) = fun _ => vals p := by
      funext t; rw [Function.update_of_ne (Ne.symm h)]
    rw [this, if_neg h]; exact hasDerivAt_const _ _

/-- C14. The value is the parameter's current value. -/
theorem C14_constant_value (vals : Nat → ℝ) (p : Nat) (x : ℝ) :
    constantValue (Function.update vals p x) p = x := by simp [constantValue]

/-! ### Non-vacuity -/
/-- parameter 0, parameter 1, function 2 of 0, function 3 of 2 and 1. -/
def exampleBuild : List Build :=
  [.new .param "E" [], .new .param "nu" [], .new .func "E_f" [0], .new .func "mat" [2, 1]]
example : ∃ h, buildAll exampleBuild = .ok h ∧ dependsOn h 4 3 0 = some true ∧
    dependsOn h 4 2 1 = some false := ⟨_, rfl, rfl, rfl⟩
example : Disciplined PMem.init [.create, .create, .destroy 0, .destroy 1] := by
  simp [Disciplined, PMem.step, PMem.init, cellOf]
example : FSet.addAll [("h", 1), ("E", 2), ("h", 3)] = [("h", 1), ("E", 2)] := rfl

end Verif.Fn
