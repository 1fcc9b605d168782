import Verif.Model.Exec
/-
  Model of `MAST::FEMOperatorMatrix`, /repo/src/numerics/fem_operator_matrix.h.
  Simplification: one scalar type `K` is used for the (real) shape functions and for the template
  parameter `T` (real or complex vector / matrix).  Memory management of the heap-allocated shape function
  vectors (`new`/`delete`, lines 194-199, 239-246) is represented by `Option`: `none` is `nullptr`.
-/
namespace Verif.Fem

/-- The data members, fem_operator_matrix.h:140-158. -/
structure Op (K : Type _) where
  nI : Nat                       -- `_n_interpolated_vars`
  nD : Nat                       -- `_n_discrete_vars`
  nd : Nat                       -- `_n_dofs_per_var`
  store : Vec (Option (Vec K))   -- `_var_shape_functions`

variable {K : Type _}

/-- `m()`, fem_operator_matrix.h:50. -/
def Op.m (o : Op K) : Nat := o.nI
/-- `n()`, fem_operator_matrix.h:52. -/
def Op.n (o : Op K) : Nat := o.nD * o.nd

/-- Default constructor / `clear()`, fem_operator_matrix.h:187-202. -/
def Op.empty : Op K := { nI := 0, nD := 0, nd := 0, store := { size := 0, get := fun _ => none } }

/-- `reinit(n_interpolated_vars, n_discrete_vars, n_discrete_dofs_per_var)`,
fem_operator_matrix.h:207-221. -/
def Op.reinit (nI nD nd : Nat) : Op K :=
  { nI := nI, nD := nD, nd := nd, store := { size := nI * nD, get := fun _ => none } }

/-- `set_shape_function(interpolated_var, discrete_var, shape_func)`,
fem_operator_matrix.h:225-249 (the three asserts are lines 233, 236, 237). -/
def Op.setShape (o : Op K) (i j : Nat) (N : Vec K) : Exec (Op K) := do
  assert (o.store.size ≠ 0)
  assert (i < o.nI)
  assert (j < o.nD)
  let s ← o.store.write (j * o.nI + i) (some N)
  return { o with store := s }

/-- `reinit(n_vars, shape_func)`, fem_operator_matrix.h:253-272. -/
def Op.reinitDiag (n : Nat) (N : Vec K) : Exec (Op K) := do
  let s ← loopE n (fun i s => s.write (i * n + i) (some N))
            { size := n * n, get := fun _ => none }
  return { nI := n, nD := n, nd := N.size, store := s }

variable [Zero K] [Add K] [Mul K]

/-- `vector_mult(res, v)`, fem_operator_matrix.h:276-296. -/
def Op.vectorMult (o : Op K) (res v : Vec K) : Exec (Vec K) := do
  assert (res.size = o.nI)
  assert (v.size = o.n)
  loopE o.nI (fun i res =>
    loopE o.nD (fun j res => do
      match ← o.store.read (j * o.nI + i) with
      | none => return res
      | some N =>
        loopE o.nd (fun k res => do
          let s ← N.read k
          let x ← v.read (j * o.nd + k)
          res.addAt i (s * x)) res) res) res.setZero

/-- `vector_mult_transpose(res, v)`, fem_operator_matrix.h:299-319. -/
def Op.vectorMultTranspose (o : Op K) (res v : Vec K) : Exec (Vec K) := do
  assert (res.size = o.n)
  assert (v.size = o.nI)
  loopE o.nI (fun i res =>
    loopE o.nD (fun j res => do
      match ← o.store.read (j * o.nI + i) with
      | none => return res
      | some N =>
        loopE o.nd (fun k res => do
          let s ← N.read k
          let x ← v.read i
          res.addAt (j * o.nd + k) (s * x)) res) res) res.setZero

/-- `right_multiply(r, m)`, fem_operator_matrix.h:323-346. -/
def Op.rightMultiply (o : Op K) (r m : Mat K) : Exec (Mat K) := do
  assert (r.rows = o.nI)
  assert (r.cols = m.cols)
  assert (m.rows = o.n)
  loopE o.nI (fun i r =>
    loopE o.nD (fun j r => do
      match ← o.store.read (j * o.nI + i) with
      | none => return r
      | some N =>
        loopE m.cols (fun l r =>
          loopE o.nd (fun k r => do
            let s ← N.read k
            let x ← m.read (j * o.nd + k) l
            r.addAt i l (s * x)) r) r) r) r.setZero

/-- `right_multiply_transpose(r, m)` with dense `m`, fem_operator_matrix.h:351-374. -/
def Op.rightMultiplyTranspose (o : Op K) (r m : Mat K) : Exec (Mat K) := do
  assert (r.rows = o.n)
  assert (r.cols = m.cols)
  assert (m.rows = o.nI)
  loopE o.nI (fun i r =>
    loopE o.nD (fun j r => do
      match ← o.store.read (j * o.nI + i) with
      | none => return r
      | some N =>
        loopE m.cols (fun l r =>
          loopE o.nd (fun k r => do
            let s ← N.read k
            let x ← m.read i l
            r.addAt (j * o.nd + k) l (s * x)) r) r) r) r.setZero

/-- `right_multiply_transpose(r, m)` with another operator `m`, fem_operator_matrix.h:378-406. -/
def Op.rightMultiplyTransposeOp (o : Op K) (r : Mat K) (m : Op K) : Exec (Mat K) := do
  assert (r.rows = o.n)
  assert (r.cols = m.n)
  assert (o.nI = m.nI)
  loopE o.nD (fun i r =>
    loopE m.nD (fun j r =>
      loopE o.nI (fun k r => do
        let s1 ← o.store.read (i * o.nI + k)
        let s2 ← m.store.read (j * m.nI + k)
        match s1, s2 with
        | some n1, some n2 =>
          loopE n1.size (fun i1 r =>
            loopE n2.size (fun i2 r => do
              let x ← n1.read i1
              let y ← n2.read i2
              r.addAt (i * o.nd + i1) (j * m.nd + i2) (x * y)) r) r
        | _, _ => return r) r) r) r.setZero

/-- `left_multiply(r, m)`, fem_operator_matrix.h:411-434. -/
def Op.leftMultiply (o : Op K) (r m : Mat K) : Exec (Mat K) := do
  assert (r.rows = m.rows)
  assert (r.cols = o.n)
  assert (m.cols = o.nI)
  loopE o.nI (fun i r =>
    loopE o.nD (fun j r => do
      match ← o.store.read (j * o.nI + i) with
      | none => return r
      | some N =>
        loopE m.rows (fun l r =>
          loopE o.nd (fun k r => do
            let s ← N.read k
            let x ← m.read l i
            r.addAt l (j * o.nd + k) (s * x)) r) r) r) r.setZero

/-- `left_multiply_transpose(r, m)`, fem_operator_matrix.h:438-461. -/
def Op.leftMultiplyTranspose (o : Op K) (r m : Mat K) : Exec (Mat K) := do
  assert (r.rows = m.rows)
  assert (r.cols = o.nI)
  assert (m.cols = o.n)
  loopE o.nI (fun i r =>
    loopE o.nD (fun j r => do
      match ← o.store.read (j * o.nI + i) with
      | none => return r
      | some N =>
        loopE m.rows (fun l r =>
          loopE o.nd (fun k r => do
            let s ← N.read k
            let x ← m.read l (j * o.nd + k)
            r.addAt l i (s * x)) r) r) r) r.setZero

/-- The mutating calls of the public interface. -/
inductive Call (K : Type _) where
  | clear
  | reinit (nI nD nd : Nat)
  | reinitDiag (n : Nat) (N : Vec K)
  | setShape (i j : Nat) (N : Vec K)

/-- Effect of one call on the object. -/
def Op.step (o : Op K) : Call K → Exec (Op K)
  | .clear => .ok Op.empty
  | .reinit nI nD nd => .ok (Op.reinit nI nD nd)
  | .reinitDiag n N => Op.reinitDiag n N
  | .setShape i j N => o.setShape i j N

/-- A history of calls on a default constructed object. -/
def Op.run (h : List (Call K)) : Exec (Op K) := h.foldlM Op.step Op.empty

end Verif.Fem
