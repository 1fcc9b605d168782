import Mathlib.Analysis.InnerProductSpace.PiL2
/-
  Model of the level set / density filter: src/level_set/filter_base.cpp.
  The mesh is replicated (asserted in `_init`): every rank sees all nodes.  The k-d tree variant `_init2` (274-373) differs from `_init` in the search
  structure only and is not modelled (its neighbour set is nanoflann's).
-/
namespace Verif.Filter

/-- Points of space. -/
abbrev Pt := EuclideanSpace ℝ (Fin 3)

/-- A node: number of its level set dof, coordinates. -/
structure Node where
  dof : Nat
  pt : Pt

/-- The vector `_filter_map[dof_1]` before division: the nodes within the radius with `radius - d` (filter_base.cpp:411-425). -/
noncomputable def neighbours (radius : ℝ) (nodes : List Node) (n1 : Node) : List (Nat × ℝ) :=
  nodes.filterMap fun n2 => let d := dist n1.pt n2.pt
    if d ≤ radius then some (n2.dof, radius - d) else none

/-- The accumulated `sum` (filter_base.cpp:409-420). -/
noncomputable def weightSum (radius : ℝ) (nodes : List Node) (n1 : Node) : ℝ :=
  nodes.foldl (fun s n2 => let d := dist n1.pt n2.pt; if d ≤ radius then s + (radius - d) else s) 0

/-- `_filter_map` as built by `_init` (filter_base.cpp:378-437); dof numbers are distinct, so `_filter_map[dof_1]` is fresh for each node.  In a std::map the
entries are ordered by dof number; the model keeps the order of the nodes. -/
noncomputable def filterMap (radius : ℝ) (nodes : List Node) : List (Nat × List (Nat × ℝ)) :=
  nodes.map fun n1 => (n1.dof, (neighbours radius nodes n1).map fun p => (p.1, p.2 / weightSum radius nodes n1))

/-- `output.add`. -/
def addAt (out : Nat → ℝ) (i : Nat) (v : ℝ) : Nat → ℝ := fun j => if j = i then out j + v else out j
/-- `output.set`. -/
def setAt (out : Nat → ℝ) (i : Nat) (v : ℝ) : Nat → ℝ := fun j => if j = i then v else out j

/-- `compute_filtered_values` on NumericVectors (filter_base.cpp:58-95): the entries computed by a rank, which owns the dofs `owned`. -/
def filterDense (fm : List (Nat × List (Nat × ℝ))) (dv : Nat → Bool) (owned : Nat → Bool) (x : Nat → ℝ) : Nat → ℝ :=
  fm.foldl (fun out e => e.2.foldl (fun out p =>
    if owned e.1 then (if dv e.1 then addAt out e.1 (x p.1 * p.2) else setAt out e.1 (x e.1)) else out) out) fun _ => 0

/-- `nonzero_input[key]`: value, and the map after `operator[]` inserted a zero for a missing key. -/
def mapGet (m : Nat → Option ℝ) (k : Nat) : ℝ × (Nat → Option ℝ) :=
  match m k with
  | some v => (v, m)
  | none => (0, fun j => if j = k then some 0 else m j)

/-- `compute_filtered_values` on a map of nonzero entries (filter_base.cpp:99-136): state is the output and the caller's map, which is modified. `writable i` is
`output.type() == SERIAL || i local`. -/
def filterSparse (fm : List (Nat × List (Nat × ℝ))) (dv : Nat → Bool) (writable : Nat → Bool) (m : Nat → Option ℝ) : (Nat → ℝ) × (Nat → Option ℝ) :=
  fm.foldl (fun st e => e.2.foldl (fun st p =>
    if (st.2 p.1).isSome then
      if writable e.1 then
        if dv e.1 then let r := mapGet st.2 p.1; (addAt st.1 e.1 (r.1 * p.2), r.2)
        else let r := mapGet st.2 e.1; (setAt st.1 e.1 r.1, r.2)
      else st
    else st) st) (fun _ => 0, m)

/-- `compute_filtered_values` on std::vectors (filter_base.cpp:141-167). -/
def filterVector (fm : List (Nat × List (Nat × ℝ))) (dv : Nat → Bool) (x : Nat → ℝ) : Nat → ℝ :=
  fm.foldl (fun out e => e.2.foldl (fun out p => if dv e.1 then addAt out e.1 (x p.1 * p.2) else addAt out e.1 (x e.1)) out) fun _ => 0

/-- `_level_set_fe_size`: the largest `hmax` of the level set elements (filter_base.cpp:440-450). -/
noncomputable def feSize (hmax : List ℝ) : ℝ := hmax.foldl (fun s h => if s < h then h else s) 0

/-- `if_elem_in_domain_of_influence` (filter_base.cpp:171-196), from the nodes of the element and the level set node. -/
noncomputable def inInfluence (radius fe : ℝ) (elem : List Pt) (n : Pt) : Bool :=
  let d := elem.foldl (fun d p => let q := ‖p - n‖; if q < d then q else d) 1000000000000
  if d > radius + fe then false else true

end Verif.Filter
