import Verif.Model.SubElemMesh
import Verif.Props.CutCell
/-
  C84 (nodes of the cut mesh), C85 (children of cut elements), C86 (restoring the mesh), C87 (constraints on the cut mesh).
-/
namespace Verif.SubElemMesh
open CutCell (Cut Sub Vtx NewNode Pt)

/-! ## Specification -/

/-- A mesh whose elements, nodes and boundary sides use numbers below the next free ones. -/
structure WF (m : Mesh) : Prop where
  elem : ∀ k, m.nextE ≤ k → m.elem k = none
  pos : ∀ n, m.nextN ≤ n → m.pos n = none
  sides : ∀ t ∈ m.sides, t.1 < m.nextE

/-- The node recorded for an edge on the positive or negative side. -/
def lookup (s : St) (positive : Bool) (i j : Nat) : Option Nat := if positive then (s.map i j).1 else (s.map i j).2

/-- The edge of the element on which a new node lies, given by the numbers of its ends. -/
def edgeOf (w : Work) (k : Fin 4) : Nat × Nat := ((w.cut.newNodes[k.val]?).map fun n => (w.corner n.side, w.corner (n.side + 1))).getD (0, 0)

/-- The smaller and the larger end of an edge, the key of the node map. -/
def lookupEdge (s : St) (w : Work) (positive : Bool) (k : Fin 4) : Option Nat :=
  lookup s positive (min (edgeOf w k).1 (edgeOf w k).2) (max (edgeOf w k).1 (edgeOf w k).2)

/-- The level set cuts the element into sub-elements. -/
def IsCut (w : Work) : Prop := w.cut.mode ≠ .throughNode ∧ w.cut.mode ≠ .colinearEdge ∧ w.cut.mode ≠ .noIntersection

instance (w : Work) : Decidable (IsCut w) := by unfold IsCut; infer_instance

/-- The element lies on the negative side and has a corner or an edge on the level set. -/
def TouchesFromBelow (w : Work) : Prop := (w.cut.mode = .colinearEdge ∨ w.cut.mode = .throughNode) ∧ w.cut.neg.length = 1

instance (w : Work) : Decidable (TouchesFromBelow w) := by unfold TouchesFromBelow; infer_instance

/-- The node of the final mesh that stands for a vertex of a sub-element. -/
def nodeOf (s : St) (w : Work) (positive : Bool) : Vtx → Nat
  | .corner i => w.corner i
  | .cut k => (lookupEdge s w positive k).getD 0

/-- The element a sub-element becomes: TRI3 get the next subdomain, the negative side the offset. -/
def childOf (s : St) (w : Work) (parentSub negOff : Nat) (positive : Bool) (b : Sub) : MElem :=
  ⟨b.verts.map (nodeOf s w positive), (if b.verts.length = 4 then parentSub else parentSub + 1) + if positive then 0 else negOff⟩

/-- The copy of an element that touches the interface from the negative side: its corners there are replaced by nodes of the negative side. -/
def copyOf (s : St) (w : Work) (parentSub negOff : Nat) : MElem :=
  ⟨[0, 1, 2, 3].map fun i => if w.touch.contains i then (lookup s false (w.corner i) (w.corner i)).getD 0 else w.corner i, parentSub + negOff⟩

/-- All elements that replace one element of the mesh. -/
def childrenOf (s : St) (a : Args) (m : Mesh) (w : Work) : List MElem :=
  match m.elem w.id with
  | none => []
  | some e =>
    if IsCut w then w.cut.pos.map (childOf s w e.sub a.negOff true) ++ w.cut.neg.map (childOf s w e.sub a.negOff false)
    else if TouchesFromBelow w ∧ a.strong = true then [copyOf s w e.sub a.negOff] else []

/-- Subdomain offset of an element of the mesh after processing, `none` if it is kept as it is. -/
def offsetOf (a : Args) (w : Work) : Option Nat :=
  if IsCut w then some a.inactOff
  else if TouchesFromBelow w then some (if a.strong then a.inactOff else a.negOff)
  else if w.cut.onNeg then some a.negOff else none

theorem bounding_edge (w : Work) (k : Fin 4) : bounding w k = edgeOf w k := by
  unfold bounding edgeOf
  cases w.cut.newNodes[k.val]? <;> rfl

theorem through_iff (w : Work) : CutCell.through w.cut = true ↔ IsCut w := by
  unfold CutCell.through IsCut
  cases w.cut.mode <;> simp

theorem touchesNeg_iff (w : Work) : touchesNeg w.cut = true ↔ TouchesFromBelow w := by
  unfold touchesNeg TouchesFromBelow
  simp

/-! ## Invariants -/

/-- Nodes: the original ones are untouched, the new ones are listed. -/
structure NodeInv (m : Mesh) (s : St) : Prop where
  le : m.nextN ≤ s.mesh.nextN
  new : ∀ n, n ∈ s.newNodes ↔ m.nextN ≤ n ∧ n < s.mesh.nextN
  old : ∀ n, n < m.nextN → s.mesh.pos n = m.pos n
  hi : ∀ n, s.mesh.nextN ≤ n → s.mesh.pos n = none

/-- The node map: recorded nodes are new, and belong to one edge and (if doubled) one side. -/
structure MapInv (strong : Bool) (m : Mesh) (s : St) : Prop where
  range : ∀ p i j n, lookup s p i j = some n → m.nextN ≤ n ∧ n < s.mesh.nextN
  weak : strong = false → ∀ i j, (s.map i j).1 = (s.map i j).2
  inj : ∀ p i j p' i' j' n, lookup s p i j = some n → lookup s p' i' j' = some n → i = i' ∧ j = j' ∧ (strong = true → p = p')

/-- Recorded nodes stay. -/
def Le (s s' : St) : Prop := ∀ p i j n, lookup s p i j = some n → lookup s' p i j = some n

/-- Nothing about elements changed. -/
structure SameElems (s s' : St) : Prop where
  elem : s'.mesh.elem = s.mesh.elem
  nextE : s'.mesh.nextE = s.mesh.nextE
  sides : s'.mesh.sides = s.mesh.sides
  newElems : s'.newElems = s.newElems
  oldElems : s'.oldElems = s.oldElems
  changed : s'.changed = s.changed

/-- Recorded nodes are where the edge function says. -/
def PosInv (E : Nat → Nat → Pt) (s : St) : Prop := ∀ p i j n, lookup s p i j = some n → s.mesh.pos n = some (E i j)

theorem Le.refl (s : St) : Le s s := fun _ _ _ _ h => h
theorem Le.trans {a b c : St} (h1 : Le a b) (h2 : Le b c) : Le a c := fun p i j n h => h2 p i j n (h1 p i j n h)
theorem SameElems.refl (s : St) : SameElems s s := ⟨rfl, rfl, rfl, rfl, rfl, rfl⟩
theorem SameElems.trans {a b c : St} (h1 : SameElems a b) (h2 : SameElems b c) : SameElems a c :=
  ⟨h2.elem.trans h1.elem, h2.nextE.trans h1.nextE, h2.sides.trans h1.sides, h2.newElems.trans h1.newElems, h2.oldElems.trans h1.oldElems, h2.changed.trans h1.changed⟩

/-- What every operation on nodes guarantees. -/
structure NodeStep (strong : Bool) (m : Mesh) (s s' : St) : Prop where
  node : NodeInv m s'
  map : MapInv strong m s'
  le : Le s s'
  same : SameElems s s'
  pos : ∀ n, n < s.mesh.nextN → s'.mesh.pos n = s.mesh.pos n
  mono : s.mesh.nextN ≤ s'.mesh.nextN

theorem NodeStep.trans {strong : Bool} {m : Mesh} {a b c : St} (h1 : NodeStep strong m a b) (h2 : NodeStep strong m b c) : NodeStep strong m a c :=
  ⟨h2.node, h2.map, h1.le.trans h2.le, h1.same.trans h2.same, fun n hn => (h2.pos n (lt_of_lt_of_le hn h1.mono)).trans (h1.pos n hn), h1.mono.trans h2.mono⟩

theorem NodeStep.refl {strong : Bool} {m : Mesh} {s : St} (h1 : NodeInv m s) (h2 : MapInv strong m s) : NodeStep strong m s s :=
  ⟨h1, h2, Le.refl s, SameElems.refl s, fun _ _ => rfl, le_refl _⟩

theorem lookup_setPair (s : St) (mesh : Mesh) (nn : List Nat) (a b : Nat) (v : Option Nat × Option Nat) (p : Bool) (i j : Nat) :
    lookup { s with mesh := mesh, map := setPair s.map a b v, newNodes := nn } p i j = if i = a ∧ j = b then (if p then v.1 else v.2) else lookup s p i j := by
  unfold lookup setPair
  cases p <;> by_cases h : i = a ∧ j = b <;> simp [h]

/-- Recording a new node for an edge. -/
theorem record_spec {strong : Bool} {m : Mesh} {s : St} (h1 : NodeInv m s) (h2 : MapInv strong m s) (p : Pt) (a b : Nat) (v : Option Nat × Option Nat)
    (hv : ∀ q : Bool, (if q then v.1 else v.2) = some s.mesh.nextN ∨ (if q then v.1 else v.2) = lookup s q a b)
    (hk : ∀ (q : Bool) n, lookup s q a b = some n → (if q then v.1 else v.2) = some n)
    (hw : strong = false → v.1 = v.2) (hs : strong = true → ¬ (v.1 = some s.mesh.nextN ∧ v.2 = some s.mesh.nextN)) :
    NodeStep strong m s { s with mesh := s.mesh.addPoint p, map := setPair s.map a b v, newNodes := s.newNodes ++ [s.mesh.nextN] } := by
  refine ⟨⟨?_, ?_, ?_, ?_⟩, ⟨?_, ?_, ?_⟩, ?_, ⟨rfl, rfl, rfl, rfl, rfl, rfl⟩, ?_, ?_⟩
  · simp only [Mesh.addPoint]; have := h1.le; omega
  · intro n
    simp only [Mesh.addPoint, List.mem_append, h1.new, List.mem_singleton]
    have := h1.le; omega
  · intro n hn
    simp only [Mesh.addPoint]
    rw [if_neg (by have := h1.le; omega)]; exact h1.old n hn
  · intro n hn
    simp only [Mesh.addPoint] at hn ⊢
    rw [if_neg (by omega)]; exact h1.hi n (by omega)
  · intro q i j n hq
    rw [lookup_setPair] at hq
    simp only [Mesh.addPoint]
    split at hq
    · rcases hv q with h | h
      · rw [h] at hq; injection hq with hq; subst hq; exact ⟨h1.le, by omega⟩
      · rw [h] at hq; have := h2.range _ _ _ _ hq; omega
    · have := h2.range _ _ _ _ hq; omega
  · intro hst i j
    simp only [setPair]
    split
    · exact hw hst
    · exact h2.weak hst i j
  · intro q i j q' i' j' n hq hq'
    rw [lookup_setPair] at hq hq'
    have old : ∀ q i j n, lookup s q i j = some n → n < s.mesh.nextN := fun q i j n h => (h2.range q i j n h).2
    by_cases c : i = a ∧ j = b <;> by_cases c' : i' = a ∧ j' = b
    · refine ⟨c.1.trans c'.1.symm, c.2.trans c'.2.symm, fun hst => ?_⟩
      rw [if_pos c] at hq; rw [if_pos c'] at hq'
      by_contra hne
      have hns := hs hst
      rcases hv q with h | h <;> rcases hv q' with h' | h'
      · cases q <;> cases q' <;> simp_all
      · rw [h] at hq; rw [h'] at hq'; injection hq with hq; subst hq; exact absurd (old _ _ _ _ hq') (lt_irrefl _)
      · rw [h] at hq; rw [h'] at hq'; injection hq' with hq'; subst hq'; exact absurd (old _ _ _ _ hq) (lt_irrefl _)
      · rw [h] at hq; rw [h'] at hq'; exact hne ((h2.inj _ _ _ _ _ _ _ hq hq').2.2 hst)
    · rw [if_pos c] at hq; rw [if_neg c'] at hq'
      rcases hv q with h | h
      · rw [h] at hq; injection hq with hq; subst hq; exact absurd (old _ _ _ _ hq') (lt_irrefl _)
      · rw [h] at hq
        obtain ⟨e1, e2, _⟩ := h2.inj _ _ _ _ _ _ _ hq hq'
        exact absurd ⟨e1.symm, e2.symm⟩ c'
    · rw [if_neg c] at hq; rw [if_pos c'] at hq'
      rcases hv q' with h | h
      · rw [h] at hq'; injection hq' with hq'; subst hq'; exact absurd (old _ _ _ _ hq) (lt_irrefl _)
      · rw [h] at hq'
        obtain ⟨e1, e2, _⟩ := h2.inj _ _ _ _ _ _ _ hq hq'
        exact absurd ⟨e1, e2⟩ c
    · rw [if_neg c] at hq; rw [if_neg c'] at hq'
      exact h2.inj _ _ _ _ _ _ _ hq hq'
  · intro q i j n hq
    rw [lookup_setPair]
    split
    · rename_i c; rw [c.1, c.2] at hq; exact hk q n hq
    · exact hq
  · intro n hn
    simp only [Mesh.addPoint]
    rw [if_neg (by omega)]
  · simp only [Mesh.addPoint]; omega

/-- `addNode`: invariants kept, the node returned is the recorded one, and positions follow the edge function if the point asked for does. -/
theorem addNode_spec {strong : Bool} {m : Mesh} {s : St} (h1 : NodeInv m s) (h2 : MapInv strong m s) (p : Pt) (positive : Bool) (b1 b2 : Nat) :
    NodeStep strong m s (addNode p strong positive b1 b2 s).2 ∧
    lookup (addNode p strong positive b1 b2 s).2 positive (min b1 b2) (max b1 b2) = some (addNode p strong positive b1 b2 s).1 ∧
    (∀ E, PosInv E s → p = E (min b1 b2) (max b1 b2) → PosInv E (addNode p strong positive b1 b2 s).2) := by
  have posLem : ∀ (v : Option Nat × Option Nat) (E : Nat → Nat → Pt),
      (∀ q : Bool, (if q then v.1 else v.2) = some s.mesh.nextN ∨ (if q then v.1 else v.2) = lookup s q (min b1 b2) (max b1 b2)) →
      PosInv E s → p = E (min b1 b2) (max b1 b2) →
      PosInv E { s with mesh := s.mesh.addPoint p, map := setPair s.map (min b1 b2) (max b1 b2) v, newNodes := s.newNodes ++ [s.mesh.nextN] } := by
    intro v E hv hE hp q i j n hq
    rw [lookup_setPair] at hq
    have keep : ∀ q i j n, lookup s q i j = some n → (s.mesh.addPoint p).pos n = some (E i j) := by
      intro q i j n h
      simp only [Mesh.addPoint]
      rw [if_neg (by have := (h2.range _ _ _ _ h).2; omega)]
      exact hE q i j n h
    split at hq
    · rename_i c
      rcases hv q with h | h
      · rw [h] at hq; injection hq with hq; subst hq
        simp [Mesh.addPoint, hp, c.1, c.2]
      · rw [h] at hq; rw [c.1, c.2]; exact keep _ _ _ _ hq
    · exact keep _ _ _ _ hq
  cases strong with
  | false =>
    have hweak := h2.weak rfl (min b1 b2) (max b1 b2)
    cases hpr : (s.map (min b1 b2) (max b1 b2)).1 with
    | some k =>
      have e : addNode p false positive b1 b2 s = (k, s) := by simp [addNode, hpr]
      rw [e]
      refine ⟨NodeStep.refl h1 h2, ?_, fun E hE _ => hE⟩
      cases positive <;> simp [lookup, hpr, ← hweak]
    | none =>
      have e : addNode p false positive b1 b2 s = (s.mesh.nextN, { s with mesh := s.mesh.addPoint p, map := setPair s.map (min b1 b2) (max b1 b2) (some s.mesh.nextN, some s.mesh.nextN), newNodes := s.newNodes ++ [s.mesh.nextN] }) := by simp [addNode, hpr]
      rw [e]
      refine ⟨record_spec h1 h2 p _ _ _ (by intro q; left; cases q <;> rfl) ?_ (fun _ => rfl) (by simp), ?_, fun E hE hp => posLem _ E (by intro q; left; cases q <;> rfl) hE hp⟩
      · intro q n hq; cases q <;> simp [lookup, hpr, ← hweak] at hq
      · rw [lookup_setPair]; cases positive <;> simp
  | true =>
    cases positive with
    | true =>
      cases hpr : (s.map (min b1 b2) (max b1 b2)).1 with
      | some k =>
        have e : addNode p true true b1 b2 s = (k, s) := by simp [addNode, hpr]
        rw [e]
        exact ⟨NodeStep.refl h1 h2, by simp [lookup, hpr], fun E hE _ => hE⟩
      | none =>
        have e : addNode p true true b1 b2 s = (s.mesh.nextN, { s with mesh := s.mesh.addPoint p, map := setPair s.map (min b1 b2) (max b1 b2) (some s.mesh.nextN, (s.map (min b1 b2) (max b1 b2)).2), newNodes := s.newNodes ++ [s.mesh.nextN] }) := by simp [addNode, hpr]
        rw [e]
        have hv : ∀ q : Bool, (if q then (some s.mesh.nextN, (s.map (min b1 b2) (max b1 b2)).2).1 else (some s.mesh.nextN, (s.map (min b1 b2) (max b1 b2)).2).2) = some s.mesh.nextN ∨
            (if q then (some s.mesh.nextN, (s.map (min b1 b2) (max b1 b2)).2).1 else (some s.mesh.nextN, (s.map (min b1 b2) (max b1 b2)).2).2) = lookup s q (min b1 b2) (max b1 b2) := by
          intro q; cases q <;> simp [lookup]
        refine ⟨record_spec h1 h2 p _ _ _ hv ?_ (by simp) ?_, ?_, fun E hE hp => posLem _ E hv hE hp⟩
        · intro q n hq; cases q <;> simp_all [lookup]
        · rintro _ ⟨_, h⟩
          have := (h2.range false _ _ _ h).2
          omega
        · rw [lookup_setPair]; simp
    | false =>
      cases hpr : (s.map (min b1 b2) (max b1 b2)).2 with
      | some k =>
        have e : addNode p true false b1 b2 s = (k, s) := by simp [addNode, hpr]
        rw [e]
        exact ⟨NodeStep.refl h1 h2, by simp [lookup, hpr], fun E hE _ => hE⟩
      | none =>
        have e : addNode p true false b1 b2 s = (s.mesh.nextN, { s with mesh := s.mesh.addPoint p, map := setPair s.map (min b1 b2) (max b1 b2) ((s.map (min b1 b2) (max b1 b2)).1, some s.mesh.nextN), newNodes := s.newNodes ++ [s.mesh.nextN] }) := by simp [addNode, hpr]
        rw [e]
        have hv : ∀ q : Bool, (if q then ((s.map (min b1 b2) (max b1 b2)).1, some s.mesh.nextN).1 else ((s.map (min b1 b2) (max b1 b2)).1, some s.mesh.nextN).2) = some s.mesh.nextN ∨
            (if q then ((s.map (min b1 b2) (max b1 b2)).1, some s.mesh.nextN).1 else ((s.map (min b1 b2) (max b1 b2)).1, some s.mesh.nextN).2) = lookup s q (min b1 b2) (max b1 b2) := by
          intro q; cases q <;> simp [lookup]
        refine ⟨record_spec h1 h2 p _ _ _ hv ?_ (by simp) ?_, ?_, fun E hE hp => posLem _ E hv hE hp⟩
        · intro q n hq; cases q <;> simp_all [lookup]
        · rintro _ ⟨h, _⟩
          have := (h2.range true _ _ _ h).2
          omega
        · rw [lookup_setPair]; simp

/-- Changing the other members does not matter. -/
theorem NodeStep.congr {strong : Bool} {m : Mesh} {s s' s'' : St} (h : NodeStep strong m s s') (hm : s''.mesh = s'.mesh) (hp : s''.map = s'.map)
    (hn : s''.newNodes = s'.newNodes) (he : s''.newElems = s'.newElems) (ho : s''.oldElems = s'.oldElems) (hc : s''.changed = s'.changed) : NodeStep strong m s s'' := by
  have hl : ∀ p i j, lookup s'' p i j = lookup s' p i j := by intro p i j; simp [lookup, hp]
  obtain ⟨⟨n1, n2, n3, n4⟩, ⟨m1, m2, m3⟩, l, ⟨e1, e2, e3, e4, e5, e6⟩, ps, mo⟩ := h
  refine ⟨⟨?_, ?_, ?_, ?_⟩, ⟨?_, ?_, ?_⟩, ?_, ⟨?_, ?_, ?_, ?_, ?_, ?_⟩, ?_, ?_⟩
  all_goals (first | rw [hm] | skip)
  all_goals (first | assumption | skip)
  · rw [hn]; exact n2
  · intro p i j n h; rw [hl] at h; exact m1 p i j n h
  · rw [hp]; exact m2
  · intro p i j p' i' j' n h h'; rw [hl] at h h'; exact m3 p i j p' i' j' n h h'
  · intro p i j n h; rw [hl]; exact l p i j n h
  · rw [he]; exact e4
  · rw [ho]; exact e5
  · rw [hc]; exact e6

theorem PosInv.congr {E : Nat → Nat → Pt} {s s' : St} (h : PosInv E s) (hm : s'.mesh.pos = s.mesh.pos) (hp : s'.map = s.map) : PosInv E s' := by
  intro p i j n hq
  rw [hm]
  apply h p i j n
  simpa [lookup, hp] using hq

theorem addVertex_spec {strong : Bool} {m : Mesh} {s : St} (h1 : NodeInv m s) (h2 : MapInv strong m s) (w : Work) (positive : Bool) (v : Vtx) :
    NodeStep strong m s (addVertex w strong positive v s).2 ∧
    (∀ s'', Le (addVertex w strong positive v s).2 s'' → (addVertex w strong positive v s).1 = nodeOf s'' w positive v) ∧
    (∀ E, PosInv E s → (∀ k, w.newPos k = E (min (bounding w k).1 (bounding w k).2) (max (bounding w k).1 (bounding w k).2)) → PosInv E (addVertex w strong positive v s).2) := by
  cases v with
  | corner i => exact ⟨NodeStep.refl h1 h2, fun _ _ => rfl, fun _ h _ => h⟩
  | cut k =>
    obtain ⟨a1, a2, a3⟩ := addNode_spec h1 h2 (w.newPos k) positive (bounding w k).1 (bounding w k).2
    have hst : NodeStep strong m s (addVertex w strong positive (.cut k) s).2 := by
      refine a1.congr ?_ ?_ ?_ ?_ ?_ ?_ <;> (simp only [addVertex]; split <;> rfl)
    refine ⟨hst, ?_, ?_⟩
    · intro s'' hle
      have hl : lookup (addVertex w strong positive (.cut k) s).2 positive (min (bounding w k).1 (bounding w k).2) (max (bounding w k).1 (bounding w k).2)
          = some (addVertex w strong positive (.cut k) s).1 := by
        rw [← show (addNode (w.newPos k) strong positive (bounding w k).1 (bounding w k).2 s).1 = (addVertex w strong positive (.cut k) s).1 from rfl, ← a2]
        simp only [addVertex, lookup]; split <;> (split <;> rfl)
      simp only [nodeOf, lookupEdge, ← bounding_edge, hle _ _ _ _ hl, Option.getD_some]
    · intro E hE hp
      refine (a3 E hE (hp k)).congr ?_ ?_ <;> (simp only [addVertex]; split <;> rfl)

theorem addVertices_spec {strong : Bool} {m : Mesh} (w : Work) (positive : Bool) (vs : List Vtx) {s : St} (h1 : NodeInv m s) (h2 : MapInv strong m s) :
    NodeStep strong m s (addVertices w strong positive vs s).2 ∧
    (∀ s'', Le (addVertices w strong positive vs s).2 s'' → (addVertices w strong positive vs s).1 = vs.map (nodeOf s'' w positive)) ∧
    (∀ E, PosInv E s → (∀ k, w.newPos k = E (min (bounding w k).1 (bounding w k).2) (max (bounding w k).1 (bounding w k).2)) → PosInv E (addVertices w strong positive vs s).2) := by
  induction vs generalizing s with
  | nil => exact ⟨NodeStep.refl h1 h2, fun _ _ => rfl, fun _ h _ => h⟩
  | cons v vs ih =>
    obtain ⟨a1, a2, a3⟩ := addVertex_spec h1 h2 w positive v
    obtain ⟨b1, b2, b3⟩ := ih a1.node a1.map
    refine ⟨a1.trans b1, ?_, fun E hE hp => b3 E (a3 E hE hp) hp⟩
    intro s'' hle
    simp only [addVertices, List.map_cons]
    rw [b2 s'' hle, a2 s'' (b1.le.trans hle)]

/-- Invariant of the loop over the elements: `C` are the children so far and `F` their sides on the interface. -/
structure Inv (a : Args) (m : Mesh) (s : St) (C : St → List MElem) (F : List (Option Nat)) : Prop where
  node : NodeInv m s
  map : MapInv a.strong m s
  leE : m.nextE ≤ s.mesh.nextE
  newE : s.newElems = List.range' m.nextE (s.mesh.nextE - m.nextE)
  hiE : ∀ k, s.mesh.nextE ≤ k → s.mesh.elem k = none
  ch : ∀ s'', Le s s'' → s.newElems.map s.mesh.elem = (C s'').map some
  lenF : F.length = s.newElems.length
  sides : s.mesh.sides = m.sides ++ (s.newElems.zip F).filterMap fun t => t.2.map fun i => (t.1, i, a.bid)

/-- The elements of the original mesh are left alone. -/
structure Keep (m : Mesh) (s s' : St) : Prop where
  elem : ∀ k, k < m.nextE → s'.mesh.elem k = s.mesh.elem k
  old : s'.oldElems = s.oldElems
  changed : s'.changed = s.changed
  le : Le s s'

theorem Keep.refl (m : Mesh) (s : St) : Keep m s s := ⟨fun _ _ => rfl, rfl, rfl, Le.refl s⟩
theorem Keep.trans {m : Mesh} {a b c : St} (h1 : Keep m a b) (h2 : Keep m b c) : Keep m a c :=
  ⟨fun k hk => (h2.elem k hk).trans (h1.elem k hk), h2.old.trans h1.old, h2.changed.trans h1.changed, h1.le.trans h2.le⟩

theorem Inv.nodeStep {a : Args} {m : Mesh} {s s' : St} {C F} (h : Inv a m s C F) (hs : NodeStep a.strong m s s') : Inv a m s' C F ∧ Keep m s s' := by
  obtain ⟨e1, e2, e3, e4, e5, e6⟩ := hs.same
  refine ⟨⟨hs.node, hs.map, ?_, ?_, ?_, ?_, ?_, ?_⟩, ⟨?_, e5, e6, hs.le⟩⟩
  · rw [e2]; exact h.leE
  · rw [e4, e2]; exact h.newE
  · rw [e1, e2]; exact h.hiE
  · intro s'' hle; rw [e4, e1]; exact h.ch s'' (hs.le.trans hle)
  · rw [e4]; exact h.lenF
  · rw [e3, e4]; exact h.sides
  · intro k _; rw [e1]

theorem Inv.addElem {a : Args} {m : Mesh} {s : St} {C : St → List MElem} {F} (h : Inv a m s C F) (e : MElem) (c : St → MElem) (hc : ∀ s'', Le s s'' → e = c s'')
    (side : Option Nat) (bid : Nat) (hb : side = none ∨ bid = a.bid) :
    Inv a m (addElem e side bid s) (fun s'' => C s'' ++ [c s'']) (F ++ [side]) ∧ Keep m s (addElem e side bid s) := by
  have hle : Le s (SubElemMesh.addElem e side bid s) := fun _ _ _ _ h => h
  have old : ∀ k ∈ s.newElems, k ≠ s.mesh.nextE := by
    intro k hk
    rw [h.newE, List.mem_range'_1] at hk
    have := h.leE; omega
  have len1 : s.newElems.length = F.length := h.lenF.symm
  refine ⟨⟨⟨h.node.le, h.node.new, h.node.old, h.node.hi⟩, ⟨h.map.range, h.map.weak, h.map.inj⟩, ?_, ?_, ?_, ?_, ?_, ?_⟩, ⟨?_, rfl, rfl, hle⟩⟩
  · have := h.leE; simp only [SubElemMesh.addElem]; omega
  · simp only [SubElemMesh.addElem]
    rw [h.newE]
    have hl := h.leE
    have : s.mesh.nextE + 1 - m.nextE = (s.mesh.nextE - m.nextE) + 1 := by omega
    rw [this, List.range'_concat]
    congr 2
    omega
  · intro k hk
    simp only [SubElemMesh.addElem] at hk ⊢
    rw [if_neg (by omega)]
    exact h.hiE k (by omega)
  · intro s'' hle'
    simp only [SubElemMesh.addElem, List.map_append, List.map_cons, List.map_nil, if_true]
    have h1 := h.ch s'' (fun p i j n hq => hle' p i j n hq)
    have h2 := hc s'' (fun p i j n hq => hle' p i j n hq)
    rw [← h1, ← h2]
    congr 1
    apply List.map_congr_left
    intro k hk
    rw [if_neg (old k hk)]
  · simp [SubElemMesh.addElem, h.lenF]
  · simp only [SubElemMesh.addElem]
    rw [List.zip_append len1, List.filterMap_append, ← List.append_assoc, ← h.sides]
    cases side with
    | none => simp
    | some i => rcases hb with hb | hb; (· cases hb); simp [hb]
  · intro k hk
    have := h.leE
    simp only [SubElemMesh.addElem]
    rw [if_neg (by omega)]

theorem Inv.addSub {a : Args} {m : Mesh} {s : St} {C : St → List MElem} {F} (h : Inv a m s C F) (w : Work) (ps : Nat) (positive : Bool) (b : Sub) :
    Inv a m (addSub w ps a.strong a.negOff a.bid positive s b) (fun s'' => C s'' ++ [childOf s'' w ps a.negOff positive b]) (F ++ [b.iface]) ∧
    Keep m s (addSub w ps a.strong a.negOff a.bid positive s b) ∧
    (∀ E, PosInv E s → (∀ k, w.newPos k = E (min (bounding w k).1 (bounding w k).2) (max (bounding w k).1 (bounding w k).2)) →
      PosInv E (addSub w ps a.strong a.negOff a.bid positive s b)) := by
  obtain ⟨v1, v2, v3⟩ := addVertices_spec w positive b.verts h.node h.map
  have hst : NodeStep a.strong m s (if positive then (addVertices w a.strong positive b.verts s).2 else
      { (addVertices w a.strong positive b.verts s).2 with negIds := (addVertices w a.strong positive b.verts s).2.negIds ++ [childSub ps b.verts.length a.negOff positive] }) := by
    refine v1.congr ?_ ?_ ?_ ?_ ?_ ?_ <;> (split <;> rfl)
  obtain ⟨i1, k1⟩ := h.nodeStep hst
  obtain ⟨i2, k2⟩ := i1.addElem ⟨(addVertices w a.strong positive b.verts s).1, childSub ps b.verts.length a.negOff positive⟩ (fun s'' => childOf s'' w ps a.negOff positive b)
    (by
      intro s'' hle
      have : Le (addVertices w a.strong positive b.verts s).2 s'' := by
        intro p i j n hq
        apply hle p i j n
        cases positive <;> exact hq
      rw [v2 s'' this]
      rfl) b.iface a.bid (Or.inr rfl)
  refine ⟨i2, k1.trans k2, ?_⟩
  intro E hE hp
  refine (v3 E hE hp).congr ?_ ?_ <;> (simp only [SubElemMesh.addSub, SubElemMesh.addElem]; split <;> rfl)

theorem Inv.addSubs {a : Args} {m : Mesh} (w : Work) (ps : Nat) (positive : Bool) (bs : List Sub) {s : St} {C : St → List MElem} {F} (h : Inv a m s C F) :
    Inv a m (bs.foldl (SubElemMesh.addSub w ps a.strong a.negOff a.bid positive) s) (fun s'' => C s'' ++ bs.map (childOf s'' w ps a.negOff positive)) (F ++ bs.map Sub.iface) ∧
    Keep m s (bs.foldl (SubElemMesh.addSub w ps a.strong a.negOff a.bid positive) s) ∧
    (∀ E, PosInv E s → (∀ k, w.newPos k = E (min (bounding w k).1 (bounding w k).2) (max (bounding w k).1 (bounding w k).2)) →
      PosInv E (bs.foldl (SubElemMesh.addSub w ps a.strong a.negOff a.bid positive) s)) := by
  induction bs generalizing s C F with
  | nil => exact ⟨by simpa using h, Keep.refl m s, fun _ h _ => h⟩
  | cons b bs ih =>
    obtain ⟨i1, k1, p1⟩ := h.addSub w ps positive b
    obtain ⟨i2, k2, p2⟩ := ih i1
    refine ⟨?_, k1.trans k2, fun E hE hp => p2 E (p1 E hE hp) hp⟩
    simpa [List.append_assoc] using i2

/-- The loop of `_process_negative_element`. -/
theorem negLoop_spec {m : Mesh} (w : Work) (l : List (Fin 4)) (acc : List Nat) {s : St} (h1 : NodeInv m s) (h2 : MapInv true m s) (hc : ∀ i ∈ l, w.corner i < m.nextN) :
    let r := l.foldl (fun (acc : List Nat × St) (i : Fin 4) =>
      if w.touch.contains i then
        let r := addNode ((acc.2.mesh.pos (w.corner i)).getD 0) true false (w.corner i) (w.corner i) acc.2
        (acc.1 ++ [r.1], r.2)
      else (acc.1 ++ [w.corner i], acc.2)) (acc, s)
    NodeStep true m s r.2 ∧
    (∀ s'', Le r.2 s'' → r.1 = acc ++ l.map fun i => if w.touch.contains i then (lookup s'' false (w.corner i) (w.corner i)).getD 0 else w.corner i) ∧
    (∀ E, PosInv E s → (∀ i ∈ l, i ∈ w.touch → m.pos (w.corner i) = some (E (w.corner i) (w.corner i))) → PosInv E r.2) := by
  induction l generalizing s acc with
  | nil => exact ⟨NodeStep.refl h1 h2, fun _ _ => by simp, fun _ h _ => h⟩
  | cons i l ih =>
    intro r
    by_cases ht : w.touch.contains i
    · obtain ⟨a1, a2, a3⟩ := addNode_spec h1 h2 ((s.mesh.pos (w.corner i)).getD 0) false (w.corner i) (w.corner i)
      obtain ⟨b1, b2, b3⟩ := ih (acc ++ [(addNode ((s.mesh.pos (w.corner i)).getD 0) true false (w.corner i) (w.corner i) s).1]) a1.node a1.map fun i hi => hc i (by simp [hi])
      have hr : r = l.foldl (fun (acc : List Nat × St) (i : Fin 4) =>
          if w.touch.contains i then
            let r := addNode ((acc.2.mesh.pos (w.corner i)).getD 0) true false (w.corner i) (w.corner i) acc.2
            (acc.1 ++ [r.1], r.2)
          else (acc.1 ++ [w.corner i], acc.2)) (acc ++ [(addNode ((s.mesh.pos (w.corner i)).getD 0) true false (w.corner i) (w.corner i) s).1],
            (addNode ((s.mesh.pos (w.corner i)).getD 0) true false (w.corner i) (w.corner i) s).2) := by
        simp only [r, List.foldl_cons, ht, if_true]
      rw [hr]
      refine ⟨a1.trans b1, ?_, ?_⟩
      · intro s'' hle
        rw [b2 s'' hle]
        have := (b1.le.trans hle) _ _ _ _ a2
        rw [min_self, max_self] at this
        rw [List.map_cons, if_pos ht, this, Option.getD_some, List.append_assoc]
        rfl
      · intro E hE hp
        refine b3 E (a3 E hE ?_) fun i hi => hp i (by simp [hi])
        rw [min_self, max_self, h1.old _ (hc i (by simp)), hp i (by simp) (by simpa using ht)]
        rfl
    · obtain ⟨b1, b2, b3⟩ := ih (acc ++ [w.corner i]) h1 h2 fun i hi => hc i (by simp [hi])
      have hr : r = l.foldl (fun (acc : List Nat × St) (i : Fin 4) =>
          if w.touch.contains i then
            let r := addNode ((acc.2.mesh.pos (w.corner i)).getD 0) true false (w.corner i) (w.corner i) acc.2
            (acc.1 ++ [r.1], r.2)
          else (acc.1 ++ [w.corner i], acc.2)) (acc ++ [w.corner i], s) := by
        simp only [r, List.foldl_cons, ht]
        rfl
      rw [hr]
      refine ⟨b1, ?_, fun E hE hp => b3 E hE fun i hi => hp i (by simp [hi])⟩
      intro s'' hle
      rw [b2 s'' hle, List.map_cons, if_neg ht, List.append_assoc]
      rfl

theorem Inv.addNegative {a : Args} {m : Mesh} {s : St} {C : St → List MElem} {F} (h : Inv a m s C F) (hst : a.strong = true) (w : Work) (ps : Nat) (hc : ∀ i, w.corner i < m.nextN) :
    Inv a m (addNegative w ps a.negOff s) (fun s'' => C s'' ++ [copyOf s'' w ps a.negOff]) (F ++ [none]) ∧ Keep m s (addNegative w ps a.negOff s) ∧
    (∀ E, PosInv E s → (∀ i ∈ w.touch, m.pos (w.corner i) = some (E (w.corner i) (w.corner i))) → PosInv E (addNegative w ps a.negOff s)) := by
  have hm := h.map
  rw [hst] at hm
  obtain ⟨n1, n2, n3⟩ := negLoop_spec w [0, 1, 2, 3] [] h.node hm fun i _ => hc i
  generalize hr : [0, 1, 2, 3].foldl (fun (acc : List Nat × St) (i : Fin 4) =>
      if w.touch.contains i then
        let r := addNode ((acc.2.mesh.pos (w.corner i)).getD 0) true false (w.corner i) (w.corner i) acc.2
        (acc.1 ++ [r.1], r.2)
      else (acc.1 ++ [w.corner i], acc.2)) ([], s) = r at n1 n2 n3
  have hdef : SubElemMesh.addNegative w ps a.negOff s = SubElemMesh.addElem ⟨r.1, ps + a.negOff⟩ none 0 { r.2 with negIds := r.2.negIds ++ [ps + a.negOff] } := by
    rw [← hr]; rfl
  rw [hdef]
  have n1 : NodeStep a.strong m s r.2 := by rw [hst]; exact n1
  obtain ⟨i1, k1⟩ := h.nodeStep (n1.congr (s'' := { r.2 with negIds := r.2.negIds ++ [ps + a.negOff] }) rfl rfl rfl rfl rfl rfl)
  obtain ⟨i2, k2⟩ := i1.addElem ⟨r.1, ps + a.negOff⟩ (fun s'' => copyOf s'' w ps a.negOff) (by
      intro s'' hle
      rw [n2 s'' hle]; rfl) none 0 (Or.inl rfl)
  refine ⟨i2, k1.trans k2, ?_⟩
  intro E hE hp
  exact (n3 E hE fun i _ hi => hp i hi).congr rfl rfl

theorem Inv.retire {a : Args} {m : Mesh} {s : St} {C : St → List MElem} {F} (h : Inv a m s C F) (id off : Nat) (e : MElem) (hid : id < m.nextE) : Inv a m (retire id off e s) C F := by
  refine ⟨⟨h.node.le, h.node.new, h.node.old, h.node.hi⟩, ⟨h.map.range, h.map.weak, h.map.inj⟩, h.leE, h.newE, ?_, ?_, h.lenF, h.sides⟩
  · intro k hk
    have := h.leE
    simp only [SubElemMesh.retire] at hk ⊢
    rw [if_neg (by omega)]; exact h.hiE k hk
  · intro s'' hle
    rw [← h.ch s'' hle]
    apply List.map_congr_left
    intro k hk
    have : k ∈ s.newElems := hk
    rw [h.newE, List.mem_range'_1] at this
    simp only [SubElemMesh.retire]
    rw [if_neg (by omega)]

theorem Inv.setChanged {a : Args} {m : Mesh} {s : St} {C : St → List MElem} {F} (h : Inv a m s C F) (b : Bool) : Inv a m { s with changed := b } C F :=
  ⟨⟨h.node.le, h.node.new, h.node.old, h.node.hi⟩, ⟨h.map.range, h.map.weak, h.map.inj⟩, h.leE, h.newE, h.hiE, h.ch, h.lenF, h.sides⟩

/-- Sides on the interface of the children, in order. -/
def ifacesOf (a : Args) (m : Mesh) (w : Work) : List (Option Nat) :=
  match m.elem w.id with
  | none => []
  | some _ =>
    if IsCut w then w.cut.pos.map Sub.iface ++ w.cut.neg.map Sub.iface
    else if TouchesFromBelow w ∧ a.strong = true then [none] else []

/-- What is known of the elements of the original mesh. -/
structure OldInv (a : Args) (m : Mesh) (s : St) (ws : List Work) : Prop where
  upd : ∀ w ∈ ws, s.mesh.elem w.id = (m.elem w.id).map fun e => { e with sub := e.sub + (offsetOf a w).getD 0 }
  keep : ∀ k, k < m.nextE → (∀ w ∈ ws, w.id ≠ k) → s.mesh.elem k = m.elem k
  old : ∀ p ∈ s.oldElems, ∃ e, m.elem p.1 = some e ∧ p.2 = e.sub
  ret : ∀ w ∈ ws, offsetOf a w ≠ none → ∃ p ∈ s.oldElems, p.1 = w.id
  changed : s.changed = ws.any fun w => CutCell.through w.cut

/-- The hypotheses on the list of elements to process: they are elements of the mesh, each once, with nodes of the mesh. -/
structure WorkOK (m : Mesh) (ws : List Work) : Prop where
  ids : (ws.map Work.id).Nodup
  elem : ∀ w ∈ ws, ∃ e, m.elem w.id = some e
  nodes : ∀ w ∈ ws, ∀ i, w.corner i < m.nextN

/-- The points asked for are a function of the edge. -/
def EdgePos (E : Nat → Nat → Pt) (m : Mesh) (w : Work) : Prop :=
  (∀ k, w.newPos k = E (min (edgeOf w k).1 (edgeOf w k).2) (max (edgeOf w k).1 (edgeOf w k).2)) ∧
  (∀ i ∈ w.touch, m.pos (w.corner i) = some (E (w.corner i) (w.corner i)))

theorem EdgePos.bnd {E : Nat → Nat → Pt} {m : Mesh} {w : Work} (h : EdgePos E m w) (k : Fin 4) :
    w.newPos k = E (min (bounding w k).1 (bounding w k).2) (max (bounding w k).1 (bounding w k).2) := by rw [bounding_edge]; exact h.1 k

theorem retire_elem (id off : Nat) (e : MElem) (s : St) (k : Nat) :
    (retire id off e s).mesh.elem k = if k = id then some { e with sub := e.sub + off } else s.mesh.elem k := rfl

theorem step_spec {a : Args} {m : Mesh} (hm : WF m) {s : St} {C : St → List MElem} {F} {ws : List Work} (h : Inv a m s C F) (ho : OldInv a m s ws) (w : Work)
    (hid : ∀ v ∈ ws, v.id ≠ w.id) (hws : ∀ v ∈ ws, v.id < m.nextE) (he : ∃ e, m.elem w.id = some e) (hc : ∀ i, w.corner i < m.nextN) :
    Inv a m (step a s w) (fun s'' => C s'' ++ childrenOf s'' a m w) (F ++ ifacesOf a m w) ∧ OldInv a m (step a s w) (ws ++ [w]) ∧ Le s (step a s w) ∧
    (∀ E, PosInv E s → EdgePos E m w → PosInv E (step a s w)) := by
  obtain ⟨e, he⟩ := he
  have hlt : w.id < m.nextE := by
    by_contra hcon
    rw [hm.elem w.id (not_lt.mp hcon)] at he; cases he
  have hse : s.mesh.elem w.id = some e := by rw [ho.keep w.id hlt hid, he]
  -- how the original elements are affected once `w` has been retired
  have oldRet : ∀ (s1 : St) (off : Nat) (c : Bool), Keep m s s1 → offsetOf a w = some off → (c = (ws.any (fun w => CutCell.through w.cut) || CutCell.through w.cut)) →
      OldInv a m { retire w.id off e s1 with changed := c } (ws ++ [w]) := by
    intro s1 off c hk hoff hch
    refine ⟨?_, ?_, ?_, ?_, ?_⟩
    · intro v hv
      rcases List.mem_append.mp hv with hv | hv
      · show (retire w.id off e s1).mesh.elem v.id = _
        rw [retire_elem, if_neg (hid v hv)]
        rw [hk.elem _ (hws v hv), ho.upd v hv]
      · rw [List.mem_singleton] at hv; subst hv
        show (retire v.id off e s1).mesh.elem v.id = _
        rw [retire_elem, if_pos rfl, he, hoff]; rfl
    · intro k hkk hv
      show (retire w.id off e s1).mesh.elem k = _
      rw [retire_elem, if_neg (fun q => hv w (by simp) q.symm), hk.elem k hkk]
      exact ho.keep k hkk fun v hv' => hv v (by simp [hv'])
    · intro p hp
      have hp : p ∈ s1.oldElems ++ [(w.id, e.sub)] := hp
      rcases List.mem_append.mp hp with hp | hp
      · rw [hk.old] at hp; exact ho.old p hp
      · rw [List.mem_singleton] at hp; subst hp; exact ⟨e, he, rfl⟩
    · intro v hv hne
      rcases List.mem_append.mp hv with hv | hv
      · obtain ⟨p, hp, hpe⟩ := ho.ret v hv hne
        refine ⟨p, ?_, hpe⟩
        show p ∈ s1.oldElems ++ _
        rw [hk.old]; exact List.mem_append_left _ hp
      · rw [List.mem_singleton] at hv; subst hv
        refine ⟨(v.id, e.sub), ?_, rfl⟩
        show _ ∈ s1.oldElems ++ _
        simp
    · simp [hch]
  by_cases ht : CutCell.through w.cut = true
  · have htc := (through_iff w).mp ht
    -- cut through the element
    obtain ⟨i1, k1, p1⟩ := h.addSubs w e.sub true w.cut.pos
    obtain ⟨i2, k2, p2⟩ := i1.addSubs w e.sub false w.cut.neg
    have hstep : step a s w = { retire w.id a.inactOff e (w.cut.neg.foldl (SubElemMesh.addSub w e.sub a.strong a.negOff a.bid false)
        (w.cut.pos.foldl (SubElemMesh.addSub w e.sub a.strong a.negOff a.bid true) s)) with changed := true } := by
      unfold step; rw [hse]; simp only [ht, if_true]
    rw [hstep]
    refine ⟨?_, oldRet _ _ _ (k1.trans k2) (by simp [offsetOf, htc]) (by simp [ht]), (k1.trans k2).le, ?_⟩
    · have := (i2.retire w.id a.inactOff e hlt).setChanged true
      simpa [childrenOf, ifacesOf, he, htc, List.append_assoc] using this
    · intro E hE hp
      exact (p2 E (p1 E hE hp.bnd) hp.bnd).congr rfl rfl
  · have htc : ¬ IsCut w := fun q => ht ((through_iff w).mpr q)
    by_cases htn : touchesNeg w.cut = true
    · have htt := (touchesNeg_iff w).mp htn
      by_cases hst : a.strong = true
      · obtain ⟨i1, k1, p1⟩ := h.addNegative hst w e.sub hc
        have hstep : step a s w = retire w.id a.inactOff e (SubElemMesh.addNegative w e.sub a.negOff s) := by
          unfold step; rw [hse]; simp only [ht, htn, hst, if_true]; rfl
        rw [hstep]
        have ho' := oldRet _ a.inactOff (SubElemMesh.addNegative w e.sub a.negOff s).changed k1 (by simp [offsetOf, htc, htt, hst]) (by rw [k1.changed, ho.changed]; simp [ht])
        refine ⟨?_, ho', k1.le, fun E hE hp => (p1 E hE hp.2).congr rfl rfl⟩
        simpa [childrenOf, ifacesOf, he, htc, htt, hst] using i1.retire w.id a.inactOff e hlt
      · have hstep : step a s w = retire w.id a.negOff e s := by
          unfold step; rw [hse]; simp only [ht, htn, hst, if_true]; rfl
        rw [hstep]
        have ho' := oldRet s a.negOff s.changed (Keep.refl m s) (by simp [offsetOf, htc, htt, hst]) (by rw [ho.changed]; simp [ht])
        refine ⟨?_, ho', Le.refl s, fun E hE hp => hE.congr rfl rfl⟩
        simpa [childrenOf, ifacesOf, he, htc, htt, hst] using h.retire w.id a.negOff e hlt
    · have htt : ¬ TouchesFromBelow w := fun q => htn ((touchesNeg_iff w).mpr q)
      by_cases hn : w.cut.onNeg = true
      · have hstep : step a s w = retire w.id a.negOff e s := by
          unfold step; rw [hse]; simp only [ht, htn, hn, if_true]; rfl
        rw [hstep]
        have ho' := oldRet s a.negOff s.changed (Keep.refl m s) (by simp [offsetOf, htc, htt, hn]) (by rw [ho.changed]; simp [ht])
        refine ⟨?_, ho', Le.refl s, fun E hE hp => hE.congr rfl rfl⟩
        simpa [childrenOf, ifacesOf, he, htc, htt] using h.retire w.id a.negOff e hlt
      · have hstep : step a s w = s := by
          unfold step; rw [hse]; simp only [ht, htn, hn]; rfl
        rw [hstep]
        have hoff : offsetOf a w = none := by simp [offsetOf, htc, htt, hn]
        refine ⟨?_, ⟨?_, ?_, ho.old, ?_, ?_⟩, Le.refl s, fun E hE _ => hE⟩
        · simpa [childrenOf, ifacesOf, he, htc, htt] using h
        · intro v hv
          rcases List.mem_append.mp hv with hv | hv
          · exact ho.upd v hv
          · rw [List.mem_singleton] at hv; subst hv; rw [hse, he, hoff]; rfl
        · intro k hk hv; exact ho.keep k hk fun v hv' => hv v (by simp [hv'])
        · intro v hv hne
          rcases List.mem_append.mp hv with hv | hv
          · exact ho.ret v hv hne
          · rw [List.mem_singleton] at hv; subst hv; exact absurd hoff hne
        · rw [ho.changed]; simp [ht]

theorem start_inv (a : Args) {m : Mesh} (hm : WF m) : Inv a m (start m) (fun _ => []) [] ∧ OldInv a m (start m) [] := by
  refine ⟨⟨⟨le_refl _, ?_, fun _ _ => rfl, hm.pos⟩, ⟨?_, fun _ _ _ => rfl, ?_⟩, le_refl _, ?_, hm.elem, fun _ _ => rfl, rfl, ?_⟩, ⟨by simp, fun _ _ _ => rfl, ?_, by simp, rfl⟩⟩
  · intro n; simp only [start, List.not_mem_nil, false_iff]; omega
  · intro p i j n h; cases p <;> simp [lookup, start] at h
  · intro p i j p' i' j' n h; cases p <;> simp [lookup, start] at h
  · simp [start]
  · simp [start]
  · intro p hp; simp [start] at hp

theorem loop_spec {a : Args} {m : Mesh} (hm : WF m) (todo : List Work) : ∀ {s : St} {C : St → List MElem} {F} {done : List Work}, Inv a m s C F → OldInv a m s done →
    WorkOK m (done ++ todo) →
    Inv a m (todo.foldl (step a) s) (fun s'' => C s'' ++ todo.flatMap (childrenOf s'' a m)) (F ++ todo.flatMap (ifacesOf a m)) ∧ OldInv a m (todo.foldl (step a) s) (done ++ todo) ∧
    (∀ E, PosInv E s → (∀ w ∈ todo, EdgePos E m w) → PosInv E (todo.foldl (step a) s)) := by
  induction todo with
  | nil => intro s C F done h ho _; simpa using ⟨h, ho⟩
  | cons w todo ih =>
    intro s C F done h ho hw
    have hnd := hw.ids
    rw [List.map_append, List.nodup_append] at hnd
    have hlt : ∀ v ∈ done ++ w :: todo, v.id < m.nextE := by
      intro v hv
      obtain ⟨e, he⟩ := hw.elem v hv
      by_contra hcon
      rw [hm.elem v.id (not_lt.mp hcon)] at he; cases he
    obtain ⟨i1, o1, _, p1⟩ := step_spec hm h ho w (fun v hv => hnd.2.2 v.id (List.mem_map_of_mem hv) w.id (by simp)) (fun v hv => hlt v (by simp [hv]))
      (hw.elem w (by simp)) (hw.nodes w (by simp))
    have hw' : WorkOK m ((done ++ [w]) ++ todo) := by rw [List.append_assoc]; exact hw
    obtain ⟨i2, o2, p2⟩ := ih i1 o1 hw'
    rw [List.foldl_cons]
    refine ⟨by simpa [List.append_assoc] using i2, by simpa [List.append_assoc] using o2, ?_⟩
    intro E hE hp
    exact p2 E (p1 E hE (hp w (by simp))) fun v hv => hp v (by simp [hv])

theorem process_spec {a : Args} {m : Mesh} (hm : WF m) {ws : List Work} (hw : WorkOK m ws) :
    Inv a m (process a ws m) (fun s => ws.flatMap (childrenOf s a m)) (ws.flatMap (ifacesOf a m)) ∧ OldInv a m (process a ws m) ws ∧
    (∀ E, (∀ w ∈ ws, EdgePos E m w) → PosInv E (process a ws m)) := by
  obtain ⟨i0, o0⟩ := start_inv a hm
  obtain ⟨i, o, p⟩ := loop_spec hm ws i0 o0 (by simpa using hw)
  refine ⟨by simpa [process] using i, by simpa [process] using o, fun E hE => p E ?_ hE⟩
  intro p i j n h; cases p <;> simp [lookup, start] at h

/-! ## C84: nodes -/

/-- C84: nodes created for edges are new, one per edge: two recorded nodes are the same iff the edges (unordered pairs of nodes) are, and, for a strong discontinuity, the
sides of the interface are. For a weak discontinuity both sides have the same node. -/
theorem C84_nodes_shared {a : Args} {m : Mesh} (hm : WF m) {ws : List Work} (hw : WorkOK m ws) (p p' : Bool) (i j i' j' n n' : Nat)
    (h : lookup (process a ws m) p i j = some n) (h' : lookup (process a ws m) p' i' j' = some n') :
    m.nextN ≤ n ∧ n ∈ (process a ws m).newNodes ∧ (n = n' ↔ i = i' ∧ j = j' ∧ (a.strong = true → p = p')) := by
  obtain ⟨iv, _, _⟩ := process_spec (a := a) hm hw
  refine ⟨(iv.map.range _ _ _ _ h).1, (iv.node.new n).mpr (iv.map.range _ _ _ _ h), ?_⟩
  constructor
  · rintro rfl; exact iv.map.inj _ _ _ _ _ _ _ h h'
  · rintro ⟨rfl, rfl, hp⟩
    cases hs : a.strong with
    | true => rw [hp hs] at h; exact Option.some.inj (h.symm.trans h')
    | false =>
      have hwk := iv.map.weak hs i j
      cases p <;> cases p' <;> simp_all [lookup]

/-- C84: if the points asked for are a function of the edge (which holds where the level set is linear along the edges), every recorded node is at its point. -/
theorem C84_node_positions {a : Args} {m : Mesh} (hm : WF m) {ws : List Work} (hw : WorkOK m ws) (E : Nat → Nat → Pt) (hE : ∀ w ∈ ws, EdgePos E m w)
    (p : Bool) (i j n : Nat) (h : lookup (process a ws m) p i j = some n) : (process a ws m).mesh.pos n = some (E i j) :=
  (process_spec (a := a) hm hw).2.2 E hE p i j n h

/-- C84: the nodes of the original mesh stay where they are. -/
theorem C84_old_nodes {a : Args} {m : Mesh} (hm : WF m) {ws : List Work} (hw : WorkOK m ws) (n : Nat) (hn : n < m.nextN) : (process a ws m).mesh.pos n = m.pos n :=
  (process_spec (a := a) hm hw).1.node.old n hn

/-! ## C85: elements -/

/-- C85: the new elements are, in order, the children of the elements processed, each made of the corners of its parent and of the nodes recorded for the edges. -/
theorem C85_children {a : Args} {m : Mesh} (hm : WF m) {ws : List Work} (hw : WorkOK m ws) :
    (process a ws m).newElems.map (process a ws m).mesh.elem = (ws.flatMap (childrenOf (process a ws m) a m)).map some :=
  (process_spec (a := a) hm hw).1.ch _ (Le.refl _)

/-- C85: a new element is on the interface boundary with exactly the side the intersection reported for its sub-element; no other boundary side is added or removed. -/
theorem C85_boundary_sides {a : Args} {m : Mesh} (hm : WF m) {ws : List Work} (hw : WorkOK m ws) :
    (process a ws m).mesh.sides = m.sides ++ ((process a ws m).newElems.zip (ws.flatMap (ifacesOf a m))).filterMap (fun t => t.2.map fun i => (t.1, i, a.bid)) ∧
    (ws.flatMap (ifacesOf a m)).length = (process a ws m).newElems.length :=
  ⟨(process_spec (a := a) hm hw).1.sides, (process_spec (a := a) hm hw).1.lenF⟩

/-- C85: elements of the original mesh keep their nodes; the subdomain of those cut, of those copied and of those on the negative side is shifted, the others are
unchanged; and the call returns whether some element was cut. -/
theorem C85_parents {a : Args} {m : Mesh} (hm : WF m) {ws : List Work} (hw : WorkOK m ws) :
    (∀ w ∈ ws, (process a ws m).mesh.elem w.id = (m.elem w.id).map fun e => { e with sub := e.sub + (offsetOf a w).getD 0 }) ∧
    (∀ k, k < m.nextE → (∀ w ∈ ws, w.id ≠ k) → (process a ws m).mesh.elem k = m.elem k) ∧
    ((process a ws m).changed = true ↔ ∃ w ∈ ws, IsCut w) := by
  obtain ⟨_, o, _⟩ := process_spec (a := a) hm hw
  refine ⟨o.upd, o.keep, ?_⟩
  rw [o.changed, List.any_eq_true]
  simp only [through_iff]

/-! ## C86: restoring -/

theorem clear_elem (l : List (Nat × Nat)) (m : Mesh) :
    let m' := l.foldl (fun (m : Mesh) p => { m with elem := fun k => if k = p.1 then (m.elem k).map fun e => { e with sub := p.2 } else m.elem k }) m
    m'.pos = m.pos ∧ m'.sides = m.sides ∧ (∀ k, (∀ p ∈ l, p.1 ≠ k) → m'.elem k = m.elem k) ∧
    (∀ k v, (∀ p ∈ l, p.1 = k → p.2 = v) → (∃ p ∈ l, p.1 = k) → m'.elem k = (m.elem k).map fun e => { e with sub := v }) := by
  induction l generalizing m with
  | nil => exact ⟨rfl, rfl, fun _ _ => rfl, fun k v _ h => by simp at h⟩
  | cons q l ih =>
    intro m'
    obtain ⟨h1, h2, h3, h4⟩ := ih { m with elem := fun k => if k = q.1 then (m.elem k).map fun e => { e with sub := q.2 } else m.elem k }
    refine ⟨h1, h2, ?_, ?_⟩
    · intro k hk
      show Mesh.elem (List.foldl _ _ l) k = _
      rw [h3 k fun p hp => hk p (by simp [hp])]
      simp only
      rw [if_neg fun e => hk q (by simp) e.symm]
    · intro k v hv hex
      show Mesh.elem (List.foldl _ _ l) k = _
      by_cases hin : ∃ p ∈ l, p.1 = k
      · rw [h4 k v (fun p hp => hv p (by simp [hp])) hin]
        simp only
        split
        · cases m.elem k <;> rfl
        · rfl
      · have hq : q.1 = k := by
          obtain ⟨p, hp, hpk⟩ := hex
          rcases List.mem_cons.mp hp with rfl | hp
          · exact hpk
          · exact absurd ⟨p, hp, hpk⟩ hin
        rw [h3 k fun p hp he => hin ⟨p, hp, he⟩]
        simp only
        rw [if_pos hq.symm, hv q (by simp) hq]

theorem clear_new (l : List Nat) (m : Mesh) :
    let m' := l.foldl (fun (m : Mesh) n => { m with elem := fun k => if k = n then none else m.elem k, sides := m.sides.filter fun t => t.1 ≠ n }) m
    m'.pos = m.pos ∧ (∀ k, m'.elem k = if k ∈ l then none else m.elem k) ∧ m'.sides = m.sides.filter fun t => t.1 ∉ l := by
  induction l generalizing m with
  | nil => refine ⟨rfl, fun _ => by simp, ?_⟩; simp
  | cons n l ih =>
    obtain ⟨h1, h2, h3⟩ := ih { m with elem := fun k => if k = n then none else m.elem k, sides := m.sides.filter fun t => t.1 ≠ n }
    refine ⟨h1, ?_, ?_⟩
    · intro k
      rw [List.foldl_cons, h2 k]
      simp only [List.mem_cons]
      by_cases hk : k ∈ l <;> by_cases hn : k = n <;> simp [hk, hn]
    · rw [List.foldl_cons, h3]
      simp only [List.filter_filter, List.mem_cons, not_or]
      congr 1
      funext t
      by_cases h : t.1 = n <;> by_cases h' : t.1 ∈ l <;> simp [h, h']

theorem clear_nodes (l : List Nat) (m : Mesh) :
    let m' := l.foldl (fun (m : Mesh) n => { m with pos := fun k => if k = n then none else m.pos k }) m
    m'.elem = m.elem ∧ m'.sides = m.sides ∧ (∀ k, m'.pos k = if k ∈ l then none else m.pos k) := by
  induction l generalizing m with
  | nil => exact ⟨rfl, rfl, fun _ => by simp⟩
  | cons n l ih =>
    obtain ⟨h1, h2, h3⟩ := ih { m with pos := fun k => if k = n then none else m.pos k }
    refine ⟨h1, h2, fun k => ?_⟩
    rw [List.foldl_cons, h3 k]
    simp only [List.mem_cons]
    by_cases hk : k ∈ l <;> by_cases hn : k = n <;> simp [hk, hn]

/-- C86: processing a mesh and clearing gives back the elements with their nodes and subdomains, the nodes with their positions and the boundary sides, for every mesh,
level set and choice of options; and the object is as new. -/
theorem C86_round_trip {a : Args} {m : Mesh} (hm : WF m) {ws : List Work} (hw : WorkOK m ws) :
    let r := clear (process a ws m)
    r.mesh.elem = m.elem ∧ r.mesh.pos = m.pos ∧ r.mesh.sides = m.sides ∧ r.newNodes = [] ∧ r.newElems = [] ∧ r.oldElems = [] ∧ r.hanging = [] ∧ r.negIds = [] ∧
    (∀ i j, r.map i j = (none, none)) := by
  intro r
  obtain ⟨iv, o, _⟩ := process_spec (a := a) hm hw
  obtain ⟨a1, a2, a3, a4⟩ := clear_elem (process a ws m).oldElems (process a ws m).mesh
  obtain ⟨b1, b2, b3⟩ := clear_new (process a ws m).newElems ((process a ws m).oldElems.foldl (fun (m : Mesh) p => { m with elem := fun k => if k = p.1 then (m.elem k).map fun e => { e with sub := p.2 } else m.elem k }) (process a ws m).mesh)
  obtain ⟨c1, c2, c3⟩ := clear_nodes (process a ws m).newNodes ((process a ws m).newElems.foldl (fun (m : Mesh) n => { m with elem := fun k => if k = n then none else m.elem k, sides := m.sides.filter fun t => t.1 ≠ n })
    ((process a ws m).oldElems.foldl (fun (m : Mesh) p => { m with elem := fun k => if k = p.1 then (m.elem k).map fun e => { e with sub := p.2 } else m.elem k }) (process a ws m).mesh))
  have hne : ∀ k, k ∈ (process a ws m).newElems ↔ m.nextE ≤ k ∧ k < (process a ws m).mesh.nextE := by
    intro k; rw [iv.newE, List.mem_range'_1]; have := iv.leE; omega
  refine ⟨?_, ?_, ?_, rfl, rfl, rfl, rfl, rfl, fun _ _ => rfl⟩
  · show Mesh.elem (List.foldl _ _ _) = _
    rw [c1]
    funext k
    rw [b2 k]
    split
    · rename_i hk; exact (hm.elem k ((hne k).mp hk).1).symm
    · rename_i hk
      by_cases hlt : k < m.nextE
      · by_cases hex : ∃ p ∈ (process a ws m).oldElems, p.1 = k
        · obtain ⟨p, hp, hpk⟩ := hex
          obtain ⟨e, he, hps⟩ := o.old p hp
          rw [a4 k e.sub ?_ ⟨p, hp, hpk⟩]
          · by_cases hw' : ∃ w ∈ ws, w.id = k
            · obtain ⟨w, hw1, hw2⟩ := hw'
              rw [← hw2, o.upd w hw1, hw2, ← hpk, he]; rfl
            · rw [o.keep k hlt fun w hw1 hw2 => hw' ⟨w, hw1, hw2⟩, ← hpk, he]; rfl
          · intro q hq hqk
            obtain ⟨e', he', hqs⟩ := o.old q hq
            rw [hqk, ← hpk, he] at he'
            rw [hqs, ← Option.some.inj he']
        · rw [a3 k fun p hp he => hex ⟨p, hp, he⟩]
          by_cases hw' : ∃ w ∈ ws, w.id = k
          · obtain ⟨w, hw1, hw2⟩ := hw'
            by_cases hoff : offsetOf a w = none
            · rw [← hw2, o.upd w hw1, hoff]; cases m.elem w.id <;> rfl
            · obtain ⟨p, hp, hpw⟩ := o.ret w hw1 hoff
              exact absurd ⟨p, hp, hpw.trans hw2⟩ hex
          · exact o.keep k hlt fun w hw1 hw2 => hw' ⟨w, hw1, hw2⟩
      · have hge : (process a ws m).mesh.nextE ≤ k := by
          by_contra hcon; exact hk ((hne k).mpr ⟨not_lt.mp hlt, not_le.mp hcon⟩)
        rw [a3 k ?_, iv.hiE k hge, hm.elem k (not_lt.mp hlt)]
        intro p hp hpk
        obtain ⟨e, he, _⟩ := o.old p hp
        rw [hpk, hm.elem k (not_lt.mp hlt)] at he; cases he
  · show Mesh.pos (List.foldl _ _ _) = _
    funext k
    rw [c3 k, b1, a1]
    by_cases hk : k ∈ (process a ws m).newNodes
    · rw [if_pos hk, hm.pos k ((iv.node.new k).mp hk).1]
    · rw [if_neg hk]
      rw [iv.node.new] at hk
      by_cases hlt : k < m.nextN
      · exact iv.node.old k hlt
      · rw [iv.node.hi k (by by_contra hcon; exact hk ⟨not_lt.mp hlt, not_le.mp hcon⟩), hm.pos k (not_lt.mp hlt)]
  · show Mesh.sides (List.foldl _ _ _) = _
    rw [c2, b3, a2, iv.sides, List.filter_append]
    have h1 : m.sides.filter (fun t => decide (t.1 ∉ (process a ws m).newElems)) = m.sides := by
      rw [List.filter_eq_self]
      intro t ht
      have := hm.sides t ht
      simp only [decide_eq_true_eq, hne]; omega
    rw [h1]
    have h2 : (((process a ws m).newElems.zip (ws.flatMap (ifacesOf a m))).filterMap fun t => t.2.map fun i => (t.1, i, a.bid)).filter
        (fun t => decide (t.1 ∉ (process a ws m).newElems)) = [] := by
      rw [List.filter_eq_nil_iff]
      intro t ht
      obtain ⟨⟨n, o⟩, hz, ho⟩ := List.mem_filterMap.mp ht
      cases o with
      | none => simp at ho
      | some i =>
        simp only [Option.map_some, Option.some.injEq] at ho
        subst ho
        simp [(List.of_mem_zip hz).1]
    rw [h2, List.append_nil]

/-! ## C84/C85 continued: which nodes are recorded, and what is shared -/

theorem addVertices_rec {strong : Bool} {m : Mesh} (w : Work) (positive : Bool) (vs : List Vtx) {s : St} (h1 : NodeInv m s) (h2 : MapInv strong m s) (k : Fin 4) (hk : Vtx.cut k ∈ vs) :
    ∃ n, lookup (addVertices w strong positive vs s).2 positive (min (bounding w k).1 (bounding w k).2) (max (bounding w k).1 (bounding w k).2) = some n := by
  induction vs generalizing s with
  | nil => simp at hk
  | cons v vs ih =>
    obtain ⟨a1, _, _⟩ := addVertex_spec h1 h2 w positive v
    rcases List.mem_cons.mp hk with rfl | hk
    · obtain ⟨b1, _, _⟩ := addVertices_spec w positive vs a1.node a1.map
      obtain ⟨_, c2, _⟩ := addNode_spec h1 h2 (w.newPos k) positive (bounding w k).1 (bounding w k).2
      refine ⟨_, b1.le _ _ _ _ (?_ : _ = some (addNode (w.newPos k) strong positive (bounding w k).1 (bounding w k).2 s).1)⟩
      rw [← c2]
      simp only [addVertex, lookup]
      split <;> (split <;> rfl)
    · exact ih a1.node a1.map hk

/-- All new nodes of a sub-element are recorded. -/
def Recorded (s : St) (w : Work) (positive : Bool) (b : Sub) : Prop :=
  ∀ k, Vtx.cut k ∈ b.verts → ∃ n, lookupEdge s w positive k = some n

theorem Recorded.mono {s s' : St} {w : Work} {positive : Bool} {b : Sub} (h : Recorded s w positive b) (hle : Le s s') : Recorded s' w positive b := by
  intro k hk
  obtain ⟨n, hn⟩ := h k hk
  exact ⟨n, hle _ _ _ _ hn⟩

theorem addSubs_rec {a : Args} {m : Mesh} (w : Work) (ps : Nat) (positive : Bool) (bs : List Sub) {s : St} {C : St → List MElem} {F} (h : Inv a m s C F) :
    ∀ b ∈ bs, Recorded (bs.foldl (SubElemMesh.addSub w ps a.strong a.negOff a.bid positive) s) w positive b := by
  induction bs generalizing s C F with
  | nil => simp
  | cons b bs ih =>
    obtain ⟨i1, _, _⟩ := h.addSub w ps positive b
    obtain ⟨_, k2, _⟩ := i1.addSubs w ps positive bs
    intro b' hb'
    rcases List.mem_cons.mp hb' with rfl | hb'
    · refine Recorded.mono ?_ k2.le
      intro k hk
      obtain ⟨n, hn⟩ := addVertices_rec w positive b'.verts h.node h.map k hk
      refine ⟨n, ?_⟩
      rw [← hn, lookupEdge, ← bounding_edge]
      cases positive <;> rfl
    · exact ih i1 b' hb'

theorem loop_rec {a : Args} {m : Mesh} (hm : WF m) (todo : List Work) : ∀ {s : St} {C : St → List MElem} {F} {done : List Work}, Inv a m s C F → OldInv a m s done →
    WorkOK m (done ++ todo) →
    Le s (todo.foldl (step a) s) ∧ ∀ w ∈ todo, CutCell.through w.cut = true →
      (∀ b ∈ w.cut.pos, Recorded (todo.foldl (step a) s) w true b) ∧ (∀ b ∈ w.cut.neg, Recorded (todo.foldl (step a) s) w false b) := by
  induction todo with
  | nil => intro s C F done _ _ _; exact ⟨Le.refl s, by simp⟩
  | cons w todo ih =>
    intro s C F done h ho hw
    have hnd := hw.ids
    rw [List.map_append, List.nodup_append] at hnd
    have hlt : ∀ v ∈ done ++ w :: todo, v.id < m.nextE := by
      intro v hv
      obtain ⟨e, he⟩ := hw.elem v hv
      by_contra hcon
      rw [hm.elem v.id (not_lt.mp hcon)] at he; cases he
    have hid : ∀ v ∈ done, v.id ≠ w.id := fun v hv => hnd.2.2 v.id (List.mem_map_of_mem hv) w.id (by simp)
    obtain ⟨i1, o1, l1, _⟩ := step_spec hm h ho w hid (fun v hv => hlt v (by simp [hv])) (hw.elem w (by simp)) (hw.nodes w (by simp))
    have hw' : WorkOK m ((done ++ [w]) ++ todo) := by rw [List.append_assoc]; exact hw
    obtain ⟨l2, r2⟩ := ih i1 o1 hw'
    rw [List.foldl_cons]
    refine ⟨l1.trans l2, ?_⟩
    intro v hv hthr
    rcases List.mem_cons.mp hv with rfl | hv
    · obtain ⟨e, he⟩ := hw.elem v (by simp)
      have hse : s.mesh.elem v.id = some e := by rw [ho.keep v.id (hlt v (by simp)) hid, he]
      have hstep : step a s v = { retire v.id a.inactOff e (v.cut.neg.foldl (SubElemMesh.addSub v e.sub a.strong a.negOff a.bid false)
          (v.cut.pos.foldl (SubElemMesh.addSub v e.sub a.strong a.negOff a.bid true) s)) with changed := true } := by
        unfold step; rw [hse]; simp only [hthr, if_true]
      obtain ⟨j1, _, _⟩ := h.addSubs v e.sub true v.cut.pos
      obtain ⟨_, k2, _⟩ := j1.addSubs v e.sub false v.cut.neg
      have key : Le (v.cut.neg.foldl (SubElemMesh.addSub v e.sub a.strong a.negOff a.bid false) (v.cut.pos.foldl (SubElemMesh.addSub v e.sub a.strong a.negOff a.bid true) s))
          (todo.foldl (step a) (step a s v)) := by
        intro p i j n hq
        apply l2 p i j n
        rw [hstep]; exact hq
      exact ⟨fun b hb => ((addSubs_rec v e.sub true v.cut.pos h b hb).mono k2.le).mono key, fun b hb => (addSubs_rec v e.sub false v.cut.neg j1 b hb).mono key⟩
    · exact r2 v hv hthr

/-- C84: for every new node of every sub-element of a cut element a node is recorded. -/
theorem C84_all_recorded {a : Args} {m : Mesh} (hm : WF m) {ws : List Work} (hw : WorkOK m ws) {w : Work} (hwm : w ∈ ws) (ht : IsCut w) :
    (∀ b ∈ w.cut.pos, Recorded (process a ws m) w true b) ∧ (∀ b ∈ w.cut.neg, Recorded (process a ws m) w false b) := by
  obtain ⟨i0, o0⟩ := start_inv a hm
  exact (loop_rec hm ws i0 o0 (by simpa using hw)).2 w hwm ((through_iff w).mpr ht)

/-- C84: two new vertices of positive sub-elements (of the same or of different elements) become the same node iff they are on the same edge of the mesh: the cut mesh
is conforming along cut edges. -/
theorem C84_conforming {a : Args} {m : Mesh} (hm : WF m) {ws : List Work} (hw : WorkOK m ws) {w w' : Work} (hw1 : w ∈ ws) (hw2 : w' ∈ ws)
    (ht : IsCut w) (ht' : IsCut w') {b b' : Sub} (hb : b ∈ w.cut.pos) (hb' : b' ∈ w'.cut.pos) {k k' : Fin 4}
    (hk : Vtx.cut k ∈ b.verts) (hk' : Vtx.cut k' ∈ b'.verts) :
    nodeOf (process a ws m) w true (.cut k) = nodeOf (process a ws m) w' true (.cut k') ↔
      ((edgeOf w k).1 = (edgeOf w' k').1 ∧ (edgeOf w k).2 = (edgeOf w' k').2) ∨ ((edgeOf w k).1 = (edgeOf w' k').2 ∧ (edgeOf w k).2 = (edgeOf w' k').1) := by
  obtain ⟨n, hn⟩ := (C84_all_recorded (a := a) hm hw hw1 ht).1 b hb k hk
  obtain ⟨n', hn'⟩ := (C84_all_recorded (a := a) hm hw hw2 ht').1 b' hb' k' hk'
  simp only [nodeOf, hn, hn', Option.getD_some]
  unfold lookupEdge at hn hn'
  rw [(C84_nodes_shared hm hw _ _ _ _ _ _ _ _ hn hn').2.2]
  simp only [imp_true_iff, and_true]
  omega

/-- C85: for a strong discontinuity a child on the positive and a child on the negative side never share a new node. -/
theorem C85_separated_partial {a : Args} {m : Mesh} (hm : WF m) {ws : List Work} (hw : WorkOK m ws) (hs : a.strong = true) {w w' : Work} (hw1 : w ∈ ws) (hw2 : w' ∈ ws)
    (ht : IsCut w) (ht' : IsCut w') {b b' : Sub} (hb : b ∈ w.cut.pos) (hb' : b' ∈ w'.cut.neg) {v v' : Vtx}
    (hv : v ∈ b.verts) (hv' : v' ∈ b'.verts) (he : nodeOf (process a ws m) w true v = nodeOf (process a ws m) w' false v') : ∃ i j, v = .corner i ∧ v' = .corner j := by
  cases v with
  | corner i =>
    cases v' with
    | corner j => exact ⟨i, j, rfl, rfl⟩
    | cut k' =>
      obtain ⟨n', hn'⟩ := (C84_all_recorded (a := a) hm hw hw2 ht').2 b' hb' k' hv'
      have h1 := (C84_nodes_shared hm hw _ _ _ _ _ _ _ _ hn' hn').1
      simp only [nodeOf, hn', Option.getD_some] at he
      have := hw.nodes w hw1 i
      omega
  | cut k =>
    obtain ⟨n, hn⟩ := (C84_all_recorded (a := a) hm hw hw1 ht).1 b hb k hv
    have h1 := (C84_nodes_shared hm hw _ _ _ _ _ _ _ _ hn hn).1
    cases v' with
    | corner j =>
      simp only [nodeOf, hn, Option.getD_some] at he
      have := hw.nodes w' hw2 j
      omega
    | cut k' =>
      obtain ⟨n', hn'⟩ := (C84_all_recorded (a := a) hm hw hw2 ht').2 b' hb' k' hv'
      simp only [nodeOf, hn, hn', Option.getD_some] at he
      have := ((C84_nodes_shared hm hw _ _ _ _ _ _ _ _ hn hn').2.2.mp he).2.2 hs
      cases this

/-! ## C87: constraints -/

/-- Rows added in order, existing ones first. -/
theorem addRows_spec (ok : Nat → Bool) (hok : ∀ d, ok d = true) (l : List (Nat × Row)) (cm : Nat → Option Row) (d : Nat) :
    (l.foldl (fun cm p => if ok p.1 && (cm p.1).isNone then fun k => if k = p.1 then some p.2 else cm k else cm) cm) d
      = (cm d).or ((l.find? fun p => p.1 = d).map Prod.snd) := by
  induction l generalizing cm with
  | nil => simp
  | cons q l ih =>
    rw [List.foldl_cons, ih, List.find?_cons]
    by_cases hq : q.1 = d
    · subst hq
      cases hc : cm q.1 <;> simp [hok, hc]
    · have hq' : ¬ d = q.1 := fun e => hq e.symm
      by_cases hn : (cm q.1).isNone = true
      · simp [hok, hn, hq, hq']
      · simp [hok, hn, hq]

/-- The rows asked for by the elements on the negative side, then those of the hanging nodes, variable by variable. -/
noncomputable def wanted (negIds : List Nat) (hanging : List (Nat × Nat × Nat)) (pos : Nat → Pt) (nVars : Nat) (dof : Nat → Nat → Nat) (elems : List (Nat × List Nat)) : List (Nat × Row) :=
  ((elems.filter fun e => negIds.contains e.1).flatMap fun e => e.2.map fun d => (d, [])) ++
  hanging.flatMap fun h => (List.range nVars).map fun v =>
    (dof v h.1, [(dof v h.2.1, 1 - len (pos h.1 - pos h.2.1) / len (pos h.2.2 - pos h.2.1)), (dof v h.2.2, len (pos h.1 - pos h.2.1) / len (pos h.2.2 - pos h.2.1))])

/-- C87: on a mesh processed for a strong discontinuity, existing rows are kept; the dofs of the elements on the negative side are set to zero; the dofs of a hanging
node are interpolated between the ends of its edge. -/
theorem C87_constrain (negIds : List Nat) (hanging : List (Nat × Nat × Nat)) (pos : Nat → Pt) (nVars : Nat) (dof : Nat → Nat → Nat) {first last : Nat} (hfl : first ≤ last)
    (elems : List (Nat × List Nat)) (cm : Nat → Option Row) (d : Nat) :
    constrain true negIds hanging pos nVars dof first last elems cm d = (cm d).or (((wanted negIds hanging pos nVars dof elems).find? fun p => p.1 = d).map Prod.snd) := by
  have hok : ∀ d, (decide (d ≥ first) || decide (d < last)) = true := by
    intro d; simp only [Bool.or_eq_true, decide_eq_true_eq]; omega
  rw [← addRows_spec (fun d => decide (d ≥ first) || decide (d < last)) hok]
  unfold constrain wanted
  simp only [Bool.not_true, Bool.false_eq_true, if_false, List.foldl_append, List.foldl_flatMap, List.foldl_map, List.foldl_filter]

/-- C87: consequence: a dof that was free is set to zero if an element on the negative side holds it. -/
theorem C87_void_zero (negIds : List Nat) (hanging : List (Nat × Nat × Nat)) (pos : Nat → Pt) (nVars : Nat) (dof : Nat → Nat → Nat) {first last : Nat} (hfl : first ≤ last)
    (elems : List (Nat × List Nat)) (cm : Nat → Option Row) (d : Nat) (hcm : cm d = none) (h : ∃ e ∈ elems, e.1 ∈ negIds ∧ d ∈ e.2) :
    constrain true negIds hanging pos nVars dof first last elems cm d = some [] := by
  rw [C87_constrain negIds hanging pos nVars dof hfl, hcm, Option.none_or]
  obtain ⟨e, he, hn, hd⟩ := h
  unfold wanted
  rw [List.find?_append]
  have : ∃ r, ((elems.filter fun e => negIds.contains e.1).flatMap fun e => e.2.map fun d => (d, ([] : Row))).find? (fun p => decide (p.1 = d)) = some r ∧ r.2 = [] := by
    cases hf : ((elems.filter fun e => negIds.contains e.1).flatMap fun e => e.2.map fun d => (d, ([] : Row))).find? (fun p => decide (p.1 = d)) with
    | none =>
      rw [List.find?_eq_none] at hf
      exfalso
      refine hf (d, []) ?_ (by simp)
      simp only [List.mem_flatMap, List.mem_filter, List.contains_iff_mem, List.mem_map]
      exact ⟨e, ⟨he, hn⟩, d, hd, rfl⟩
    | some r =>
      refine ⟨r, rfl, ?_⟩
      have := List.mem_of_find?_eq_some hf
      simp only [List.mem_flatMap, List.mem_map] at this
      obtain ⟨_, _, _, _, rfl⟩ := this
      rfl
  obtain ⟨r, hr, hr2⟩ := this
  rw [hr]
  simp [hr2]

theorem len_smul (t : ℝ) (ht : 0 ≤ t) (p : Pt) : len (t • p) = t * len p := by
  unfold len CutCell.norm2
  have : (t • p) 0 ^ 2 + (t • p) 1 ^ 2 = t ^ 2 * (p 0 ^ 2 + p 1 ^ 2) := by simp only [Pi.smul_apply, smul_eq_mul]; ring
  rw [this, Real.sqrt_mul (sq_nonneg t), Real.sqrt_sq ht]

theorem len_pos {p : Pt} (h : p ≠ 0) : 0 < len p := by
  unfold len CutCell.norm2
  apply Real.sqrt_pos.mpr
  by_contra hcon
  have h0 : p 0 = 0 := by nlinarith [sq_nonneg (p 0), sq_nonneg (p 1)]
  have h1 : p 1 = 0 := by nlinarith [sq_nonneg (p 0), sq_nonneg (p 1)]
  apply h
  funext i
  fin_cases i
  · exact h0
  · exact h1

/-- C87: for a node between the ends of its edge the row reproduces every affine field. -/
theorem C87_hanging_affine (P1 P2 P : Pt) (hne : P1 ≠ P2) (t : ℝ) (ht : 0 ≤ t) (hP : P = P1 + t • (P2 - P1)) (c0 c1 c2 : ℝ) :
    let d := len (P - P1) / len (P2 - P1)
    let u : Pt → ℝ := fun x => c0 + c1 * x 0 + c2 * x 1
    (1 - d) * u P1 + d * u P2 = u P := by
  intro d u
  have hd : d = t := by
    have : P - P1 = t • (P2 - P1) := by rw [hP]; abel
    simp only [d, this, len_smul t ht]
    have := len_pos (sub_ne_zero.mpr (Ne.symm hne))
    field_simp
  rw [hd]
  simp only [u, hP, Pi.add_apply, Pi.smul_apply, Pi.sub_apply, smul_eq_mul]
  ring

/-- C87, finding: the test meant to keep each processor to its own dofs, `dof >= first || dof < last`, is true for every dof: a dof outside the range of this processor
is constrained here, too. -/
theorem C87_owner_test_fails : ∃ (first last d : Nat) (elems : List (Nat × List Nat)), first ≤ last ∧ ¬ (first ≤ d ∧ d < last) ∧
    constrain true [7] [] (fun _ => 0) 1 (fun _ n => n) first last elems (fun _ => none) d = some [] := by
  refine ⟨2, 4, 5, [(7, [5])], by norm_num, by norm_num, ?_⟩
  exact C87_void_zero _ _ _ _ _ (by norm_num) _ _ _ rfl ⟨(7, [5]), by simp, by simp, by simp⟩

/-- C87, finding: for a weak discontinuity nothing is constrained, also not the hanging nodes. -/
theorem C87_weak_hanging_fails (negIds : List Nat) (hanging : List (Nat × Nat × Nat)) (pos : Nat → Pt) (nVars : Nat) (dof : Nat → Nat → Nat) (first last : Nat)
    (elems : List (Nat × List Nat)) (cm : Nat → Option Row) : constrain false negIds hanging pos nVars dof first last elems cm = cm := rfl

/-! ## Examples and findings on the unit square -/

/-- One QUAD4 with nodes 0 to 3 on the unit square. -/
def sqMesh : Mesh where
  elem := fun k => if k = 0 then some ⟨[0, 1, 2, 3], 0⟩ else none
  nextE := 1
  pos := fun n => if h : n < 4 then some (CutCell.unitSquare ⟨n, h⟩) else none
  nextN := 4
  sides := [(0, 2, 5)]

theorem sqMesh_wf : WF sqMesh := by
  refine ⟨fun k hk => ?_, fun n hn => ?_, fun t ht => ?_⟩
  · have : ¬ k = 0 := by intro h; subst h; simp [sqMesh] at hk
    simp [sqMesh, this]
  · have hn : 4 ≤ n := hn
    simp only [sqMesh]
    rw [dif_neg (by omega)]
  · simp only [sqMesh, List.mem_singleton] at ht
    rw [ht]; exact Nat.zero_lt_one

/-- The element of `sqMesh` with a given cut. -/
def sqWork (c : Cut) (newPos : Fin 4 → Pt) (touch : List (Fin 4)) : Work := ⟨0, fun i => i.val, c, newPos, touch⟩

theorem sqWork_ok (c : Cut) (newPos : Fin 4 → Pt) (touch : List (Fin 4)) : WorkOK sqMesh [sqWork c newPos touch] := by
  refine ⟨by simp, ?_, ?_⟩
  · intro w hw; rw [List.mem_singleton] at hw; subst hw; exact ⟨_, rfl⟩
  · intro w hw i; rw [List.mem_singleton] at hw; subst hw; exact i.isLt

/-- The cut found by the intersection for corner values 1, -1, 0. -/
theorem initElem_values {tol : ℝ} (h0 : 0 < tol) (h1 : tol < 1) (a b c d : ℝ) (ha : a = 1 ∨ a = -1 ∨ a = 0) (hb : b = 1 ∨ b = -1 ∨ b = 0) (hc : c = 1 ∨ c = -1 ∨ c = 0)
    (hd : d = 1 ∨ d = -1 ∨ d = 0) (mid : ℝ) :
    CutCell.initElem tol ![a, b, c, d] [] mid = CutCell.comb ![CutCell.sg tol a, CutCell.sg tol b, CutCell.sg tol c, CutCell.sg tol d] (decide (mid * a > 0)) := by
  rw [CutCell.initElem_comb h0 (by linarith) ?_]
  · congr 1
    funext i; fin_cases i <;> rfl
  · have key : ∀ x : ℝ, (x = 1 ∨ x = -1 ∨ x = 0) → |x| ≠ tol := by
      rintro x (rfl | rfl | rfl)
      · rw [abs_one]; exact h1.ne'
      · rw [abs_neg, abs_one]; exact h1.ne'
      · rw [abs_zero]; exact h0.ne
    intro i
    fin_cases i
    · exact key a ha
    · exact key b hb
    · exact key c hc
    · exact key d hd

/-- The cut of an element with values 1, 1, -1, -1: two halves. -/
def halves : Cut := ⟨.oppositeEdges, [⟨[.cut 1, .corner 0, .corner 1, .cut 0], some 3⟩], [⟨[.cut 0, .corner 2, .corner 3, .cut 1], some 3⟩],
  [⟨1, 1, false⟩, ⟨3, 3, false⟩], [], false, false⟩

theorem halves_found {tol : ℝ} (h0 : 0 < tol) (h1 : tol < 1) (mid : ℝ) : CutCell.initElem tol ![1, 1, -1, -1] [] mid = some halves := by
  rw [initElem_values h0 h1 _ _ _ _ (by simp) (by simp) (by simp) (by simp), (CutCell.sg_one h0 h1).1, (CutCell.sg_one h0 h1).2.1]
  cases decide (mid * 1 > 0) <;> decide +kernel

/-- Non-vacuity for C84-C87: the two halves of the square, for a strong discontinuity: each has its own nodes on the cut. -/
example : ∀ newPos, ((process ⟨true, 10, 100, 9⟩ [sqWork halves newPos []] sqMesh).newElems.map (process ⟨true, 10, 100, 9⟩ [sqWork halves newPos []] sqMesh).mesh.elem)
      = [some ⟨[4, 0, 1, 5], 0⟩, some ⟨[6, 2, 3, 7], 10⟩] ∧
    (process ⟨true, 10, 100, 9⟩ [sqWork halves newPos []] sqMesh).mesh.elem 0 = some ⟨[0, 1, 2, 3], 100⟩ ∧
    (process ⟨true, 10, 100, 9⟩ [sqWork halves newPos []] sqMesh).mesh.sides = [(0, 2, 5), (1, 3, 9), (2, 3, 9)] ∧
    (process ⟨true, 10, 100, 9⟩ [sqWork halves newPos []] sqMesh).changed = true := fun _ => ⟨rfl, rfl, rfl, rfl⟩

/-- For a weak discontinuity they share them. -/
example : ∀ newPos, ((process ⟨false, 10, 100, 9⟩ [sqWork halves newPos []] sqMesh).newElems.map (process ⟨false, 10, 100, 9⟩ [sqWork halves newPos []] sqMesh).mesh.elem)
      = [some ⟨[4, 0, 1, 5], 0⟩, some ⟨[5, 2, 3, 4], 10⟩] := fun _ => rfl

example : (clear (process ⟨true, 10, 100, 9⟩ [sqWork halves (fun _ => 0) []] sqMesh)).mesh.elem = sqMesh.elem :=
  (C86_round_trip sqMesh_wf (sqWork_ok _ _ _)).1

/-- The hypothesis `EdgePos` of `C84_node_positions` is met by the midpoints of the edges. -/
example : ∃ newPos E, EdgePos E sqMesh (sqWork halves newPos []) ∧ newPos 0 = ![1, 1 / 2] := by
  refine ⟨fun k => if k = 0 then ![1, 1 / 2] else if k = 1 then ![0, 1 / 2] else 0, fun i j => if i = 1 ∧ j = 2 then ![1, 1 / 2] else if i = 0 ∧ j = 3 then ![0, 1 / 2] else 0, ⟨?_, ?_⟩, rfl⟩
  · intro k; fin_cases k <;> simp [edgeOf, sqWork, halves]
  · simp [sqWork]

/-- The cut of an element with values 0, 1, 0, -1: along the diagonal. -/
def diagonal : Cut := ⟨.oppositeNodes, [⟨[.corner 0, .corner 1, .corner 2], some 2⟩], [⟨[.corner 2, .corner 3, .corner 0], some 2⟩], [], [], false, false⟩

theorem diagonal_found {tol : ℝ} (h0 : 0 < tol) (h1 : tol < 1) (mid : ℝ) : CutCell.initElem tol ![0, 1, 0, -1] [] mid = some diagonal := by
  rw [initElem_values h0 h1 _ _ _ _ (by simp) (by simp) (by simp) (by simp), (CutCell.sg_one h0 h1).1, (CutCell.sg_one h0 h1).2.1, (CutCell.sg_one h0 h1).2.2]
  cases decide (mid * 0 > 0) <;> decide +kernel

/-- C85/C87, finding: for a strong discontinuity the corners of an element that lie on the interface are not doubled when the cut goes through them: the halves on both
sides share them, and the constraints set the dofs there to zero although material is attached to them. -/
theorem C85_interface_corner_fails {tol : ℝ} (h0 : 0 < tol) (h1 : tol < 1) (mid : ℝ) (newPos : Fin 4 → Pt) : ∃ c, CutCell.initElem tol ![0, 1, 0, -1] [] mid = some c ∧
    let s := process ⟨true, 10, 100, 9⟩ [sqWork c newPos []] sqMesh
    s.newElems.map s.mesh.elem = [some ⟨[0, 1, 2], 1⟩, some ⟨[2, 3, 0], 11⟩] ∧
    constrain true s.negIds s.hanging (fun n => (s.mesh.pos n).getD 0) 1 (fun _ n => n) 0 4 [(1, [0, 1, 2]), (11, [2, 3, 0])] (fun _ => none) 0 = some [] := by
  refine ⟨diagonal, diagonal_found h0 h1 mid, rfl, ?_⟩
  exact C87_void_zero _ _ _ _ _ (by norm_num) _ _ _ rfl ⟨(11, [2, 3, 0]), by simp, by simp [process, step, sqWork, sqMesh, diagonal, CutCell.through, start, retire, addSub, addElem, addVertices, addVertex, childSub], by simp⟩

/-- The cut of an element with values 0, -1, -1, -1: touched at a corner from the negative side. -/
def touched : Cut := ⟨.throughNode, [], [CutCell.whole none], [], [], false, false⟩

theorem touched_found {tol : ℝ} (h0 : 0 < tol) (h1 : tol < 1) (mid : ℝ) : CutCell.initElem tol ![0, -1, -1, -1] [] mid = some touched := by
  rw [initElem_values h0 h1 _ _ _ _ (by simp) (by simp) (by simp) (by simp), (CutCell.sg_one h0 h1).2.1, (CutCell.sg_one h0 h1).2.2]
  cases decide (mid * 0 > 0) <;> decide +kernel

/-- C85, finding: an element that touches the interface from the negative side is replaced by a new element with a new node, but the call reports that the mesh did not
change (and so does not prepare it for use). -/
theorem C85_changed_flag_fails {tol : ℝ} (h0 : 0 < tol) (h1 : tol < 1) (mid : ℝ) (newPos : Fin 4 → Pt) : ∃ c, CutCell.initElem tol ![0, -1, -1, -1] [] mid = some c ∧
    let s := process ⟨true, 10, 100, 9⟩ [sqWork c newPos [0]] sqMesh
    s.newElems.map s.mesh.elem = [some ⟨[4, 1, 2, 3], 10⟩] ∧ s.newNodes = [4] ∧ s.changed = false :=
  ⟨touched, touched_found h0 h1 mid, rfl, rfl, rfl⟩

/-- C87, finding: an element wholly on the negative side is moved to the negative subdomain, but that subdomain is not among those whose dofs are constrained unless some
cut elsewhere produced a QUAD4 in it. -/
theorem C87_negative_element_fails {tol : ℝ} (h0 : 0 < tol) (h1 : tol < 1) (mid : ℝ) (newPos : Fin 4 → Pt) : ∃ c, CutCell.initElem tol ![-1, -1, -1, -1] [] mid = some c ∧
    let s := process ⟨true, 10, 100, 9⟩ [sqWork c newPos []] sqMesh
    s.mesh.elem 0 = some ⟨[0, 1, 2, 3], 10⟩ ∧
    ∀ d, constrain true s.negIds s.hanging (fun n => (s.mesh.pos n).getD 0) 1 (fun _ n => n) 0 4 [(10, [0, 1, 2, 3])] (fun _ => none) d = none := by
  refine ⟨⟨.noIntersection, [], [CutCell.whole none], [], [], false, true⟩, ?_, rfl, fun d => rfl⟩
  rw [initElem_values h0 h1 _ _ _ _ (by simp) (by simp) (by simp) (by simp), (CutCell.sg_one h0 h1).2.1]
  cases decide (mid * -1 > 0) <;> decide +kernel

/-- Two QUAD4, the second to the right of the first. -/
def twoMesh : Mesh where
  elem := fun k => if k = 0 then some ⟨[0, 1, 2, 3], 0⟩ else if k = 1 then some ⟨[1, 4, 5, 2], 0⟩ else none
  nextE := 2
  pos := fun n => if n < 6 then some 0 else none
  nextN := 6
  sides := []

/-- Cut off a corner: sides `rs` and `rs + 1`, hanging node on side `rs + 2`. -/
def cornerCut (rs : Nat) : Cut := (CutCell.build .adjacentEdges rs 0 (fun _ => true)).getD halves

/-- Two elements that ask for a new node on a common edge get one node, so whenever they ask for it at different points one of them does not get its point. -/
theorem C84_common_edge_partial {a : Args} {m : Mesh} (hm : WF m) {ws : List Work} (hw : WorkOK m ws) {w w' : Work} (hw1 : w ∈ ws) (hw2 : w' ∈ ws)
    (ht : IsCut w) (ht' : IsCut w') {b b' : Sub} (hb : b ∈ w.cut.pos) (hb' : b' ∈ w'.cut.pos) {k k' : Fin 4}
    (hk : Vtx.cut k ∈ b.verts) (hk' : Vtx.cut k' ∈ b'.verts)
    (he : (edgeOf w k).1 = (edgeOf w' k').2 ∧ (edgeOf w k).2 = (edgeOf w' k').1) (hne : w.newPos k ≠ w'.newPos k') :
    (process a ws m).mesh.pos (nodeOf (process a ws m) w true (.cut k)) ≠ some (w.newPos k) ∨
      (process a ws m).mesh.pos (nodeOf (process a ws m) w' true (.cut k')) ≠ some (w'.newPos k') := by
  rw [(C84_conforming (a := a) hm hw hw1 hw2 ht ht' hb hb' hk hk').mpr (Or.inr he)]
  by_contra hc
  rw [not_or, not_not, not_not] at hc
  exact hne (Option.some.inj (hc.1.symm.trans hc.2))

theorem twoMesh_wf : WF twoMesh := by
  refine ⟨fun k hk => ?_, fun n hn => ?_, fun t ht => ?_⟩
  · have : (2 : Nat) ≤ k := hk
    show (if k = 0 then _ else if k = 1 then _ else none) = none
    rw [if_neg (by omega), if_neg (by omega)]
  · have : (6 : Nat) ≤ n := hn
    show (if n < 6 then _ else none) = none
    rw [if_neg (by omega)]
  · simp [twoMesh] at ht

theorem cornerCut_facts : (CutCell.through (cornerCut 3) = true ∧ CutCell.through (cornerCut 1) = true) ∧
    ((cornerCut 3).newNodes.map (·.side))[2]? = some 1 ∧ ((cornerCut 1).newNodes.map (·.side))[2]? = some 3 ∧
    (∃ b ∈ (cornerCut 3).pos, Vtx.cut 2 ∈ b.verts) ∧ (∃ b ∈ (cornerCut 1).pos, Vtx.cut 2 ∈ b.verts) := by
  decide +kernel

theorem edgeOf_eq (w : Work) (k : Fin 4) (i : Fin 4) (h : (w.cut.newNodes.map (·.side))[k.val]? = some i) : edgeOf w k = (w.corner i, w.corner (i + 1)) := by
  unfold edgeOf
  rw [List.getElem?_map] at h
  cases hn : w.cut.newNodes[k.val]? with
  | none => rw [hn] at h; cases h
  | some n => rw [hn] at h; simp only [Option.map_some, Option.some.injEq] at h; simp only [Option.map_some, Option.getD_some, h]

/-- C84, finding: a hanging node is recorded for its edge like a cut; the hanging nodes two neighbours put on their common edge at different places are identified, so that
one of them is not where its intersection put it. -/
theorem C84_hanging_position_fails (p q : Fin 4 → Pt) (h : p 2 ≠ q 2) (a : Args) : ∃ (w1 w2 : Work), w1.cut = cornerCut 3 ∧ w2.cut = cornerCut 1 ∧ w1.newPos = p ∧ w2.newPos = q ∧
    WorkOK twoMesh [w1, w2] ∧ ((process a [w1, w2] twoMesh).mesh.pos (nodeOf (process a [w1, w2] twoMesh) w1 true (.cut 2)) ≠ some (p 2) ∨
      (process a [w1, w2] twoMesh).mesh.pos (nodeOf (process a [w1, w2] twoMesh) w2 true (.cut 2)) ≠ some (q 2)) := by
  obtain ⟨⟨t1, t2⟩, s1, s2, ⟨b1, hb1, hv1⟩, b2, hb2, hv2⟩ := cornerCut_facts
  have hw : WorkOK twoMesh [⟨0, ![0, 1, 2, 3], cornerCut 3, p, []⟩, ⟨1, ![1, 4, 5, 2], cornerCut 1, q, []⟩] := by
    refine ⟨by simp, ?_, ?_⟩
    · intro w hw
      rcases List.mem_cons.mp hw with rfl | hw
      · exact ⟨_, rfl⟩
      · rw [List.mem_singleton] at hw; subst hw; exact ⟨_, rfl⟩
    · intro w hw i
      rcases List.mem_cons.mp hw with rfl | hw
      · show (![0, 1, 2, 3] : Fin 4 → Nat) i < 6
        revert i; decide
      · rw [List.mem_singleton] at hw; subst hw
        show (![1, 4, 5, 2] : Fin 4 → Nat) i < 6
        revert i; decide
  refine ⟨⟨0, ![0, 1, 2, 3], cornerCut 3, p, []⟩, ⟨1, ![1, 4, 5, 2], cornerCut 1, q, []⟩, rfl, rfl, rfl, rfl, hw, ?_⟩
  refine C84_common_edge_partial twoMesh_wf hw (List.mem_cons_self ..) (List.mem_cons_of_mem _ (List.mem_cons_self ..)) ((through_iff _).mp t1) ((through_iff _).mp t2) hb1 hb2 hv1 hv2 ?_ h
  rw [edgeOf_eq _ _ 1 s1, edgeOf_eq _ _ 3 s2]
  exact ⟨rfl, rfl⟩

/-- The cuts of this finding are those of corner values -1, 1, 1, 1 and 1, 1, -1, 1. -/
example {tol : ℝ} (h0 : 0 < tol) (h1 : tol < 1) (mid : ℝ) : CutCell.initElem tol ![-1, 1, 1, 1] [] mid = some (cornerCut 3) ∧ CutCell.initElem tol ![1, 1, -1, 1] [] mid = some (cornerCut 1) := by
  constructor
  · rw [initElem_values h0 h1 _ _ _ _ (by simp) (by simp) (by simp) (by simp), (CutCell.sg_one h0 h1).1, (CutCell.sg_one h0 h1).2.1]
    cases decide (mid * -1 > 0) <;> decide +kernel
  · rw [initElem_values h0 h1 _ _ _ _ (by simp) (by simp) (by simp) (by simp), (CutCell.sg_one h0 h1).1, (CutCell.sg_one h0 h1).2.1]
    cases decide (mid * 1 > 0) <;> decide +kernel

end Verif.SubElemMesh
